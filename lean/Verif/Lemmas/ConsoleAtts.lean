import Verif.Lemmas.Console
set_option linter.unusedSectionVars false
namespace Spine
open Graph Container
variable {F : Type} [PyRt F]
namespace Editor

/-- no attachment node is a head -/
def Rooted (g : SGraph F) : Prop := ∀ k, HasNode g (graphId .attachment k) → ∃ p, Edge g p (graphId .attachment k)

theorem rooted_create {j : JVal F} {g : SGraph F} (h : SpineNodes.create j = .ok g) : Rooted g := by
  obtain ⟨sh, _, h2⟩ := GShape.create_built h
  intro k hk
  obtain ⟨s, hs, a, ha, rfl⟩ := (h2.has_att k).1 hk
  exact ⟨_, (h2.edge _ _).2 (.att hs ha)⟩

variable {e e' : Editor F} {ids atts slots L A B I : List Str} {g0 g1 g2 g3 : SGraph F} {bs : List (Bone F)}
  {ss : List (Slot F)} {is : List (Attrs F)} {an : Dict (Anim F)}

theorem CleanStart.att1 (hs : Sync e) (hr : CleanStart e ids atts slots L g0 g1) (k : Str) :
    HasNode g1 (graphId .attachment k) ↔ HasNode e.graph (graphId .attachment k) ∧ k ∉ atts := by
  rw [hr.nodes1, hasNode_restrict, List.mem_append, mem_namedIds, hr.mem_L hs]
  simp

/-- the parents of an attachment in the graph after the first removals -/
theorem CleanStart.parent1 (hs : Sync e) (hr : CleanStart e ids atts slots L g0 g1) {p k : Str}
    (h : Edge g1 p (graphId .attachment k)) : ∃ m x, p = graphId .slot m ∧ e.data.HasAtt m k x ∧ m ∉ ids ∧ k ∉ atts := by
  have hk := ((hr.att1 hs k).1 (wf_edge_nodes (hr.core1 hs).wf h).2).2
  rw [hr.nodes1, edge_restrict] at h
  obtain ⟨m, rfl⟩ := hs.att_parent _ _ h.1
  obtain ⟨k', x, e1, hx⟩ := hs.edge_slot _ _ h.1
  obtain ⟨_, rfl⟩ := graphId_inj e1
  obtain ⟨s, hm, e2, _⟩ := hs.slot_bone _ _ _ hx
  refine ⟨m, x, rfl, hx, ?_, hk⟩
  rw [← hr.slot_gone hs ⟨s, hm, e2⟩, ← List.mem_append]
  exact h.2.1

theorem CleanRun.mem_A (hs : Sync e) (hroot : Rooted e.graph) (hr : CleanRun e e' ids atts slots L A B I g0 g1 g2 g3 bs ss is an) (k : Str) :
    graphId .attachment k ∈ A ↔ k ∉ atts ∧ Console.Has e k ∧ ∀ slot x, e.data.HasAtt slot k x → slot ∈ ids := by
  have hd : HasNode g1 (graphId .attachment k) → (graphId .attachment k ∈ A ↔ ∀ p, ¬ Edge g1 p (graphId .attachment k)) := by
    intro hn
    rw [hr.hA, doomed_edge (hr.core1 hs) hn]
    intro p hp
    obtain ⟨m, _, rfl, _⟩ := hr.parent1 hs hp
    exact ⟨.slot, m, by decide, rfl⟩
  constructor
  · intro h
    have hn : HasNode g1 (graphId .attachment k) := by
      cases (hr.hA _).1 h with | mk hn _ _ => exact ⟨_, hn⟩
    have hno := (hd hn).1 h
    obtain ⟨hn0, hk⟩ := (hr.att1 hs k).1 hn
    refine ⟨hk, ?_, ?_⟩
    · obtain ⟨p, hp⟩ := hroot k hn0
      obtain ⟨m, rfl⟩ := hs.att_parent _ _ hp
      obtain ⟨k', x, e1, hx⟩ := hs.edge_slot _ _ hp
      obtain ⟨_, rfl⟩ := graphId_inj e1
      exact ⟨m, x, hx⟩
    · intro slot x hx
      apply Classical.byContradiction
      intro hsl
      exact hno _ (hr.edge1 hs hx hsl hk)
  · rintro ⟨hk, ⟨slot, x, hx⟩, hall⟩
    have hn : HasNode g1 (graphId .attachment k) :=
      (hr.att1 hs k).2 ⟨(wf_edge_nodes hs.core.wf (hs.edge_of slot k x hx)).2, hk⟩
    rw [hd hn]
    intro p hp
    obtain ⟨m, x, rfl, hx, hm, _⟩ := hr.parent1 hs hp
    exact hm (hall _ _ hx)

theorem CleanRun.A_ids (hs : Sync e) (hr : CleanRun e e' ids atts slots L A B I g0 g1 g2 g3 bs ss is an) {x : Str} (h : x ∈ A) :
    ∃ k, x = graphId .attachment k := by
  cases (hr.hA x).1 h with
  | mk hn ht _ =>
    obtain ⟨_, k, e1⟩ := (hr.core1 hs).typed _ _ hn
    rw [ht] at e1; exact ⟨k, e1⟩

/-- an attachment that is left has a slot -/
theorem CleanRun.left (hs : Sync e) (hr : CleanRun e e' ids atts slots L A B I g0 g1 g2 g3 bs ss is an) {k : Str}
    (h : HasNode g2 (graphId .attachment k)) :
    ∃ m x, Edge g1 (graphId .slot m) (graphId .attachment k) ∧ e.data.HasAtt m k x ∧ m ∉ ids ∧ k ∉ atts := by
  rw [hr.hg2, hasNode_restrict] at h
  obtain ⟨hn, hA⟩ := h
  rw [hr.hA, doomed_edge (hr.core1 hs) hn] at hA
  · obtain ⟨p, hp⟩ := Classical.not_forall.1 hA
    have hp := Classical.not_not.1 hp
    obtain ⟨m, x, rfl, hx⟩ := hr.parent1 hs hp
    exact ⟨m, x, hp, hx⟩
  · intro p hp
    obtain ⟨m, _, rfl, _⟩ := hr.parent1 hs hp
    exact ⟨.slot, m, by decide, rfl⟩

theorem CleanRun.B_nil (hs : Sync e) (hr : CleanRun e e' ids atts slots L A B I g0 g1 g2 g3 bs ss is an) : B = [] := by
  cases hB : B with
  | nil => rfl
  | cons x l =>
    exfalso
    have hx : x ∈ B := by rw [hB]; simp
    cases (hr.hB x).1 hx with
    | mk hn ht _ =>
      obtain ⟨_, k, rfl⟩ := (hr.core2 hs).typed _ _ hn
      rw [ht] at hn hx
      obtain ⟨m, x, _, hx', h1, h2⟩ := hr.left hs ⟨_, hn⟩
      exact hr.notB hs hx' h1 h2 hx

theorem CleanRun.rooted (hs : Sync e) (hr : CleanRun e e' ids atts slots L A B I g0 g1 g2 g3 bs ss is an) : Rooted e'.graph := by
  intro k hk
  rw [hr.graph, hr.hg3, restrict_restrict, hasNode_restrict] at hk
  obtain ⟨m, x, hp, _⟩ := hr.left hs hk.1
  refine ⟨graphId .slot m, ?_⟩
  · rw [hr.graph, hr.hg3, restrict_restrict, edge_restrict]
    refine ⟨?_, ?_, hk.2⟩
    · rw [hr.hg2, edge_restrict]
      refine ⟨hp, fun h => ?_, ?_⟩
      · cases hr.typeA hs h
      · have := hk.1
        rw [hr.hg2, hasNode_restrict] at this
        exact this.2
    · rw [List.mem_append]
      rintro (h | h)
      · cases hr.typeB hs h
      · cases hr.typeI hs h

theorem rooted_clean {r : List Str × List Str} (hs : Sync e) (h : clean e = (.ok r, e')) : Rooted e'.graph := by
  obtain ⟨_, _, _, _, _, _, _, _, _, _, _, _, _, hr⟩ := clean_run hs.core h
  exact hr.rooted hs

theorem rooted_cleanUnless {safe : Bool} {r : List Str × List Str} (hs : Sync e) (hroot : Rooted e.graph)
    (h : cleanUnless safe e = (.ok r, e')) : Rooted e'.graph := by
  unfold cleanUnless at h
  split at h
  · injection h with _ h; subst h; exact hroot
  · exact rooted_clean hs h

theorem rooted_eraseAnims {arg : NamesArg} {strict safe : Bool} {r : JVal F × List Str × List Str} (hs : Sync e) (hroot : Rooted e.graph)
    (h : eraseAnims arg strict safe e = (.ok r, e')) : Rooted e'.graph := by
  unfold eraseAnims at h
  split at h
  · simp at h
  · simp only at h
    split at h
    · simp at h
    · rw [eraseRaw_fst] at h
      split at h
      · simp at h
      · rename_i r' e1 h1
        simp only [Prod.mk.injEq] at h
        rw [← h.2]
        exact rooted_cleanUnless (sync_filterAnims hs _) hroot h1

theorem rooted_scale (sx sy : Num F) (h : Rooted e.graph) : Rooted (scale sx sy e).2.graph := by
  rw [scale_frame]; exact h

theorem Ran.rooted (h : Ran e) : Rooted e.graph := by
  induction h with
  | load _ h2 _ => exact rooted_create (load_ok h2).2.2
  | run o h0 h ih =>
    cases o with
    | eraseSkins n s =>
      obtain ⟨r, gone, h⟩ := run_eraseSkins h
      obtain ⟨imgs, regions, a, g, e1, h1, h2, h3, h4, rfl⟩ := eraseSkins_ok h
      have h5 : Rooted e1.graph := rooted_cleanUnless (sync_removeSkins h0.sync h1 h2) (rooted_create h2) h4
      exact h5
    | eraseAnims arg t s => obtain ⟨r, h⟩ := run_eraseAnims h; exact rooted_eraseAnims h0.sync ih h
    | clean => obtain ⟨r, h⟩ := run_clean h; exact rooted_clean h0.sync h
    | scale sx sy =>
      have : (scale sx sy _).2 = _ := congrArg (·.2) h
      simp only at this
      rw [← this]; exact rooted_scale sx sy ih
  | scaled sx sy _ ih => exact rooted_scale sx sy ih
  | failedErase arg strict _ ih =>
    unfold eraseAnims
    split
    · exact ih
    · simp only [cleanUnless, if_true]
      split <;> exact ih

/-! ### The lines -/

namespace Console

theorem cleanImages_snd (ids : List (Option Str)) (e : Editor F) : (cleanImages ids e).2 = lostLine e (Editor.cleanImages ids e) := by
  have : (e.images.filter (fun p => some p.1 ∈ ids)).map (·.1) = lost e (Editor.cleanImages ids e) := by
    unfold lost Editor.cleanImages Dict.keys
    rw [List.filter_map]
    congr 1
    apply List.filter_congr
    intro p hp
    simp only [Function.comp, List.mem_map, List.mem_filter, decide_eq_decide]
    constructor
    · rintro h ⟨q, ⟨_, h2⟩, e1⟩
      rw [e1] at h2
      simp [h] at h2
    · intro h
      apply Classical.byContradiction
      intro hn
      exact h ⟨p, ⟨hp, by simpa using hn⟩, rfl⟩
  unfold cleanImages lostLine
  simp only [this]

theorem lost_congr {e0 e e' : Editor F} (h : e.images = e0.images) : lostLine e e' = lostLine e0 e' := by
  unfold lostLine lost; rw [h]

theorem clean_lines (hs : Sync e) (hroot : Rooted e.graph) (h : Editor.clean e = (.ok (ids, atts), e')) :
    ∃ D : List Str, (clean e).2 = .slots ids :: .atts (setList F atts ++ D.map (fun k => baseId .attachment (graphId .attachment k))) ::
        lostLine e e' ∧ D.Nodup ∧ ∀ k, k ∈ D ↔ k ∉ atts ∧ Has e k ∧ ∀ slot x, e.data.HasAtt slot k x → slot ∈ ids := by
  obtain ⟨slots, L, A, B, I, g0, g1, g2, g3, bs, ss, is, an, hr⟩ := clean_run hs.core h
  obtain ⟨slots', g1', e1, a, imgs, g4, hu, hg, hrb, hsl, hd, rfl⟩ := clean_ok h
  obtain rfl : slots' = slots := by
    have := hu.symm.trans hr.unused; injection this with this; injection this
  obtain ⟨ids', L', g0', g1'', hg', hr'⟩ := cleanGraph_total hs hu
  have e1g : e1.graph = g1 := by
    rw [hg] at hg'
    have e2 : g1' = g1'' := congrArg (·.2) hg'
    obtain ⟨_, _, _, _, _, _, _, _, rfl⟩ := readBack_ok hrb
    show g1' = g1
    rw [e2, hr'.hg1, hr.hg1, hr'.hg0, hr.hg0]
    apply restrict_congr
    intro x
    rw [hr'.hL, hr.hL, hr'.hg0, hr.hg0]
  have him := images_readBack hrb
  obtain ⟨A', hA1, hA2, hA3⟩ := removeHeads_spec (baseId .attachment) NType.attachment (g := g1) (hr.core1 hs).wf
  obtain ⟨B', hB1, _, hB3⟩ := removeLeafs_spec (baseId .attachment) NType.attachment (g := restrict g1 A') (wf_restrict (hr.core1 hs).wf _)
  have hAA : ∀ x, x ∈ A' ↔ x ∈ A := fun x => (hA3 x).trans (hr.hA x).symm
  have hB' : B' = [] := by
    have hB := hr.B_nil hs
    have : ∀ x, x ∈ B' ↔ x ∈ B := by
      intro x
      rw [hB3, hr.hB, hr.hg2, restrict_congr g1 hAA]
    rw [hB] at this
    cases B' with
    | nil => rfl
    | cons x l => exact absurd ((this x).1 (by simp)) (by simp)
  have hdet : (detach (setList F atts) e1.graph).2 = [.atts (setList F atts ++ A'.map (baseId .attachment))] := by
    rw [e1g]
    unfold detach
    rw [hA1]
    simp only [hB1, hB', List.map_nil, List.append_nil]
  obtain ⟨D, hD⟩ : ∃ D : List Str, A' = D.map (graphId .attachment) := by
    have : ∀ l : List Str, (∀ x ∈ l, x ∈ A) → ∃ D : List Str, l = D.map (graphId .attachment) := by
      intro l
      induction l with
      | nil => intro _; exact ⟨[], rfl⟩
      | cons x l ih =>
        intro hl
        obtain ⟨D, rfl⟩ := ih (fun y hy => hl y (by simp [hy]))
        obtain ⟨k, rfl⟩ := hr.A_ids hs (hl x (by simp))
        exact ⟨k :: D, rfl⟩
    exact this A' (fun x hx => (hAA x).1 hx)
  refine ⟨D, ?_, ?_, ?_⟩
  · unfold clean
    simp only [hu, hg, hrb, hsl]
    have hfst := detach_fst (setList F atts) e1.graph
    rw [hd] at hfst
    have hall : detach (setList F atts) (e1.withData (removeAttachments atts a)).graph = ((.ok imgs, g4), [.atts (setList F atts ++ A'.map (baseId .attachment))]) := by
      show detach (setList F atts) e1.graph = _
      rw [← hdet, ← hfst]
    rw [hall]
    simp only [cleanImages_snd, hD, List.map_map, Function.comp_def, List.cons_append, List.nil_append]
    congr 2
    exact lost_congr (e0 := e) him
  · rw [hD] at hA2
    exact (List.pairwise_map.1 hA2).imp (fun h e1 => h (by rw [e1]))
  · intro k
    rw [← hr.mem_A hs hroot, ← hAA, hD, List.mem_map]
    constructor
    · intro h; exact ⟨k, h, rfl⟩
    · rintro ⟨k', h, e1⟩
      rw [← (graphId_inj e1).2]; exact h

/-- the attachments that are gone -/
theorem clean_gone (hs : Sync e) (h : Editor.clean e = (.ok (ids, atts), e')) (k : Str) :
    Has e k ∧ ¬ Has e' k ↔ k ∈ atts ∨ (k ∉ atts ∧ Has e k ∧ ∀ slot x, e.data.HasAtt slot k x → slot ∈ ids) := by
  obtain ⟨slots, L, A, B, I, g0, g1, g2, g3, bs, ss, is, an, hr⟩ := clean_run hs.core h
  unfold Has
  simp only [hr.hasAtt hs]
  constructor
  · rintro ⟨⟨slot, x, hx⟩, hno⟩
    by_cases hk : k ∈ atts
    · exact .inl hk
    · refine .inr ⟨hk, ⟨slot, x, hx⟩, fun s y hy => ?_⟩
      apply Classical.byContradiction
      intro hs
      exact hno ⟨s, y, hy, hs, hk⟩
  · rintro (hk | ⟨_, h1, h2⟩)
    · exact ⟨unused_atts hr.unused k hk, fun ⟨_, _, _, _, h⟩ => h hk⟩
    · exact ⟨h1, fun ⟨s, y, hy, h, _⟩ => h (h2 s y hy)⟩

end Console
end Editor
end Spine
