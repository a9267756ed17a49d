import Verif.Lemmas.CleanFacts
/- `clean_animation` fails only where the data is wrong. -/
set_option linter.unusedSectionVars false
set_option linter.unusedSimpArgs false
namespace Spine
open JVal Graph Container
variable {F : Type} [PyRt F]

theorem mapE_exists {α β : Type} {f : α → Except Err β} {l : List α} (h : ∀ x ∈ l, ∃ y, f x = .ok y) : ∃ m, mapE f l = .ok m := by
  induction l with
  | nil => exact ⟨[], (mapE_all₂ _ _ _).2 .nil⟩
  | cons x l ih =>
    obtain ⟨y, hy⟩ := h x (by simp)
    obtain ⟨m, hm⟩ := ih (fun z hz => h z (by simp [hz]))
    exact ⟨y :: m, (mapE_all₂ _ _ _).2 (.cons hy ((mapE_all₂ _ _ _).1 hm))⟩

theorem mapMut_exists {α : Type} {f : α → Res α Unit} {l : List α} (h : ∀ x ∈ l, ∃ y, f x = (.ok (), y)) : ∃ m, mapMut f l = (.ok (), m) := by
  induction l with
  | nil => exact ⟨[], (mapMut_ok _ _ _).2 .nil⟩
  | cons x l ih =>
    obtain ⟨y, hy⟩ := h x (by simp)
    obtain ⟨m, hm⟩ := ih (fun z hz => h z (by simp [hz]))
    exact ⟨y :: m, (mapMut_ok _ _ _).2 (.cons hy ((mapMut_ok _ _ _).1 hm))⟩

theorem mapMutD_exists {α : Type} {f : Str → α → Res α Unit} {l : Dict α} (h : ∀ p ∈ l, ∃ y, f p.1 p.2 = (.ok (), y)) :
    ∃ m, mapMutD f l = (.ok (), m) := by
  unfold mapMutD
  refine mapMut_exists ?_
  intro p hp
  obtain ⟨y, hy⟩ := h p hp
  exact ⟨(p.1, y), by rw [hy]⟩

theorem nodup_map_graphId (t : NType) {l : List Str} (h : l.Nodup) : (l.map (graphId t)).Nodup := by
  rw [List.nodup_iff_pairwise_ne, List.pairwise_map]
  rw [List.nodup_iff_pairwise_ne] at h
  exact h.imp (fun hne e => hne (graphId_inj e).2)

theorem mem_keys_offsetDict (offs : List (Str × Int)) (k : Str) : k ∈ Dict.keys (DrawOrder.offsetDict offs) ↔ k ∈ Dict.keys offs := by
  have key : ∀ (l : List (Str × Int)) (d : Dict Int), k ∈ Dict.keys (l.foldl (fun d p => Dict.set d p.1 p.2) d) ↔ k ∈ Dict.keys d ∨ k ∈ Dict.keys l := by
    intro l
    induction l with
    | nil => intro d; simp [Dict.keys]
    | cons p l ih =>
      intro d
      rw [List.foldl_cons, ih, Dict.keys_set]
      have : k ∈ Dict.keys (p :: l) ↔ k = p.1 ∨ k ∈ Dict.keys l := by simp [Dict.keys]
      rw [this]
      split
      · rename_i h
        constructor
        · rintro (h | h)
          · exact .inl h
          · exact .inr (.inr h)
        · rintro (h' | rfl | h')
          · exact .inl h'
          · exact .inl h
          · exact .inr h'
      · simp [or_assoc]
  unfold DrawOrder.offsetDict
  rw [key]
  simp [Dict.keys]

namespace Editor
variable {e e' : Editor F} {ids atts slots L A B I : List Str} {g0 g1 g2 g3 : SGraph F}

/-- the graph part at the start never fails -/
theorem cleanGraph_total (hs : Sync e) (hu : AnimData.unused e.data = .ok (slots, atts)) :
    ∃ ids L g0 g1, cleanGraph slots atts e.graph = (.ok ids, g1) ∧ CleanStart e ids atts slots L g0 g1 := by
  have h1 := removeNamed_ok (F := F) .slot (setList F slots) hs.core.wf (nodup_map_graphId _ (nodup_setList _))
    (fun x hx => (hs.hasSlot x).2 (unused_slots hu x ((mem_setList _ _).1 hx)))
  have h2 := removeNamed_ok (F := F) .attachment (setList F atts)
    (wf_restrict hs.core.wf ((setList F slots).map (graphId .slot))) (nodup_map_graphId _ (nodup_setList _)) (by
      intro k hk
      obtain ⟨slot, x, hx⟩ := unused_atts hu k ((mem_setList _ _).1 hk)
      rw [hasNode_restrict]
      refine ⟨(wf_edge_nodes hs.core.wf (hs.edge_of slot k x hx)).2, ?_⟩
      intro hm
      obtain ⟨m, _, e1⟩ := List.mem_map.1 hm
      have := (graphId_inj e1).1
      cases this)
  rw [restrict_restrict] at h2
  obtain ⟨L, hL1, _, hL2⟩ := removeLeafs_spec (baseId .slot) NType.slot
    (g := restrict e.graph ((setList F slots).map (graphId .slot) ++ (setList F atts).map (graphId .attachment))) (wf_restrict hs.core.wf _)
  refine ⟨_, L, _, _, ?_, hu, rfl, hL2, rfl, rfl⟩
  unfold cleanGraph
  rw [h1]
  simp only [h2, hL1]

/-- reading back never fails -/
theorem readBack_total (hs : Sync e) (hr : CleanStart e ids atts slots L g0 g1) : ∃ e1, readBack { e with graph := g1 } = (.ok (), e1) ∧ e1.graph = g1 ∧
    e1.data.animations = dmap (·.setDefaults e.doc.version.is38) e.data.animations := by
  have c1 := hr.core1 hs
  obtain ⟨bs, hb⟩ : ∃ bs, mapE Bone.init ((nodesOf g1 .bone).map (·.2.2)) = .ok bs := by
    refine mapE_exists ?_
    intro j hj
    obtain ⟨p, hp, rfl⟩ := List.mem_map.1 hj
    obtain ⟨x, hx, e1⟩ := c1.bones p hp
    obtain ⟨y, hy, _⟩ := Bone.rt e.doc.version.is38 x hx
    exact ⟨y, by rw [e1]; exact hy⟩
  obtain ⟨is, hi⟩ : ∃ is, mapE ikCls.init ((nodesOf g1 .ik).map (·.2.2)) = .ok is := by
    refine mapE_exists ?_
    intro j hj
    obtain ⟨p, hp, rfl⟩ := List.mem_map.1 hj
    obtain ⟨x, hx, e1⟩ := c1.iks p hp
    obtain ⟨y, hy, _⟩ := Cls.rt (ikCls (F := F)) (by simp [leafClasses]) rfl e.doc.version.is38 x hx
    exact ⟨y, by rw [e1]; exact hy⟩
  obtain ⟨ss, hss⟩ : ∃ ss, mapE Slot.init ((nodesOf g1 .slot).map (·.2.2)) = .ok ss := by
    refine mapE_exists ?_
    intro j hj
    obtain ⟨p, hp, rfl⟩ := List.mem_map.1 hj
    obtain ⟨s, hm, _, e1⟩ := (hr.slotNodes hs).left hp
    rw [List.mem_filter] at hm
    exact ⟨s, by rw [e1]; exact Slot.init_toJson _ _ (hr.survivor_bone hs hm.1 (by simpa using hm.2))⟩
  have hx : readBack { e with graph := g1 } = (.ok (), { e with graph := g1 }.withData
      (AnimData.setDefaults e.doc.version.is38 { e.data with bones := bs, slots := ss, ik := is })) := by
    unfold readBack
    have hj : SpineNodes.toJsonData g1 = _ := c1.toJsonData
    simp only [hj, hb, hss, hi]
    rfl
  exact ⟨_, hx, rfl, rfl⟩

theorem drawOrder_total (ids : List Str) (orig : List (Slot F)) (hn : (orig.map (·.name)).Nodup) {x : Anim F}
    (h : ∀ t ∈ x.drawOrder, ∀ k ∈ Dict.keys t.offsets, k ∉ ids → ∃ s ∈ orig, s.name = k) :
    ∃ y, Anim.removeDrawOrder ids orig x = (.ok (), y) := by
  unfold Anim.removeDrawOrder
  obtain ⟨m, hm⟩ : ∃ m, mapMut (Anim.cleanDraw ids orig) x.drawOrder = (.ok (), m) := by
    refine mapMut_exists ?_
    intro t ht
    unfold Anim.cleanDraw
    have := (DrawOrder.c45_fails_only_on_unknown_slot (name := Slot.name) ids orig t.offsets hn)
    rcases this.2 with ⟨N, hN⟩ | herr
    · exact ⟨{ t with offsets := N }, by rw [hN]⟩
    · obtain ⟨k, hk, h1, h2⟩ := this.1.2 herr
      exact absurd (List.mem_map.2 ((fun ⟨s, hs, e⟩ => ⟨s, hs, e⟩) (h t ht k ((mem_keys_offsetDict _ _).1 hk) h1))) h2
  rw [hm]
  exact ⟨_, rfl⟩

/-- some drawOrder offset names an unknown slot -/
def BadDraw (a : AnimData F) : Prop :=
  ∃ p ∈ a.animations, ∃ t ∈ p.2.drawOrder, ∃ k ∈ Dict.keys t.offsets, ∀ s ∈ a.slots, s.name ≠ k

theorem detach_total {b : Bool} {g : SGraph F} (hc : Core b g) : ∃ imgs g', detach g = (.ok imgs, g') := by
  unfold detach
  obtain ⟨A, hA1, _, _⟩ := removeHeads_spec (baseId .attachment) NType.attachment (g := g) hc.wf
  obtain ⟨B, hB1, _, _⟩ := removeLeafs_spec (baseId .attachment) NType.attachment (g := restrict g A) (wf_restrict hc.wf _)
  obtain ⟨I, hI1, _, _⟩ := removeHeads_spec (baseId .image) NType.image (g := restrict (restrict g A) B)
    (wf_restrict (wf_restrict hc.wf _) _)
  rw [hA1]
  simp only [hB1, hI1]
  exact ⟨_, _, rfl⟩

/-- without errors in the data, cleaning succeeds -/
theorem clean_total (hs : Sync e) (hu : AnimData.unused e.data = .ok (slots, atts)) (hd : ¬ BadDraw e.data) :
    ∃ r e', clean e = (.ok r, e') := by
  obtain ⟨ids, L, g0, g1, hg, hr⟩ := cleanGraph_total hs hu
  obtain ⟨e1, hb, hg1, han⟩ := readBack_total hs hr
  rw [(AnimData.fixed_iff.1 hs.dflt).2.2.2.2.2.2] at han
  obtain ⟨a, ha⟩ : ∃ a, removeSlots ids e.data.slots e1.data = (.ok (), a) := by
    unfold removeSlots drawOrderRefs
    obtain ⟨m, hm⟩ : ∃ m, mapMutD (fun _ x => Anim.removeDrawOrder ids e.data.slots x) (slotsInAnims ids (slotsInSkins ids e1.data)).animations = (.ok (), m) := by
      refine mapMutD_exists ?_
      rintro ⟨n, x⟩ hp
      obtain ⟨y, hy, rfl⟩ := (mem_dmap (fun x : Anim F => (x.removeSlots ids).removeDeformSlots ids) e1.data.animations n x).1 hp
      refine drawOrder_total ids e.data.slots hs.slotNames ?_
      intro t ht k hk _
      apply Classical.byContradiction
      intro hno
      refine hd ⟨(n, y), ?_, t, ht, k, hk, fun s hs e => hno ⟨s, hs, e⟩⟩
      have hy' : (n, y) ∈ e1.data.animations := hy
      rw [han] at hy'; exact hy'
    rw [hm]
    exact ⟨_, rfl⟩
  obtain ⟨imgs, g2, hd2⟩ := detach_total (F := F) (g := e1.graph) (b := e.doc.version.is38) (by rw [hg1]; exact hr.core1 hs)
  unfold clean
  simp only [hu, hg, hb, ha]
  have : (e1.withData (removeAttachments atts a)).graph = e1.graph := rfl
  rw [this, hd2]
  exact ⟨_, _, rfl⟩

/-- a bad drawOrder offset makes cleaning fail -/
theorem clean_badDraw (hs : Sync e) (hd : BadDraw e.data) : ∃ x, (clean e).1 = .error x := by
  generalize hq : clean e = q
  obtain ⟨q1, e'⟩ := q
  cases q1 with
  | error x => exact ⟨x, rfl⟩
  | ok r =>
    exfalso
    obtain ⟨p, hp, t, ht, k, hk, hno⟩ := hd
    obtain ⟨p', _, _, hc⟩ := (clean_anims_sync hs (ids := r.1) (atts := r.2) hq).left hp
    obtain ⟨t', _, _, ho⟩ := hc.draw.left ht
    obtain ⟨slots, L, A, B, I, g0, g1, g2, g3, bs, ss, is, an, hr⟩ := clean_run hs.core (ids := r.1) (atts := r.2) hq
    have herr := ((DrawOrder.c45_fails_only_on_unknown_slot (name := Slot.name) r.1 e.data.slots t.offsets hs.slotNames).1).1
      ⟨k, (mem_keys_offsetDict _ _).2 hk, fun hm => by
        obtain ⟨⟨s, hs', e1⟩, _⟩ := (hr.mem_ids hs k).1 hm
        exact hno s hs' e1, fun hm => by
        obtain ⟨s, hs', e1⟩ := List.mem_map.1 hm
        exact hno s hs' e1⟩
    rw [herr] at ho; cases ho

end Editor
end Spine
