import Verif.Lemmas.AliasSafeOps
import Verif.Lemmas.DrawOrder
/-
Default values, `to_json`, the editor's constructor and its calls stay in their region.
-/
set_option linter.unusedSectionVars false
namespace Spine
namespace Alias
open M
variable {F : Type} {R : Nat → Prop}

/-! ### Removals in the graph keep the data of the remaining nodes -/

section Graph
variable {T D : Type} {P : D → Prop}

/-- a property of the data of all nodes -/
def AllData (P : D → Prop) (g : Graph T D) : Prop := ∀ p ∈ g.nodes, P p.2.data

theorem AllData.modify {g : Graph T D} (h : AllData P g) {k : Str} {f : Node T D → Node T D} (hf : ∀ n, (f n).data = n.data) :
    AllData P { g with nodes := Dict.modify g.nodes k f } := by
  intro p hp
  obtain ⟨q, hq, rfl⟩ := List.mem_map.mp hp
  split
  · rw [hf]
    exact h q hq
  · exact h q hq

theorem AllData.delChild {g : Graph T D} (h : AllData P g) (p c : Str) : AllData P (Graph.delChild g p c).2 := by
  unfold Graph.delChild
  split
  · split
    · exact h.modify (fun _ => rfl)
    · exact h
  · exact h

theorem AllData.delParent {g : Graph T D} (h : AllData P g) (c p : Str) : AllData P (Graph.delParent g c p).2 := by
  unfold Graph.delParent
  split
  · split
    · exact h.modify (fun _ => rfl)
    · exact h
  · exact h

theorem AllData.dropParentLinks (id : Str) (l : List Str) : ∀ {g : Graph T D}, AllData P g → AllData P (Graph.dropParentLinks id l g).2 := by
  induction l with
  | nil => exact fun h => h
  | cons c cs ih =>
    intro g h
    have h1 := h.delParent c id
    unfold Graph.dropParentLinks
    split
    · rename_i hq
      rw [hq] at h1
      exact ih h1
    · rename_i hq
      rw [hq] at h1
      exact h1

theorem AllData.dropChildLinks (id : Str) (l : List Str) : ∀ {g : Graph T D}, AllData P g → AllData P (Graph.dropChildLinks id l g).2 := by
  induction l with
  | nil => exact fun h => h
  | cons c cs ih =>
    intro g h
    have h1 := h.delChild c id
    unfold Graph.dropChildLinks
    split
    · rename_i hq
      rw [hq] at h1
      exact ih h1
    · rename_i hq
      rw [hq] at h1
      exact h1

theorem AllData.removeNode {g : Graph T D} (h : AllData P g) (id : Str) : AllData P (Graph.removeNode g id).2 := by
  unfold Graph.removeNode
  split
  · exact h
  · rename_i n _
    have h1 := AllData.dropParentLinks id n.children h
    split
    · rename_i hq
      rw [hq] at h1
      exact h1
    · rename_i hq
      rw [hq] at h1
      have h2 := AllData.dropChildLinks id n.parents h1
      split
      · rename_i hq
        rw [hq] at h2
        exact h2
      · rename_i hq
        rw [hq] at h2
        exact fun p hp => h2 p (List.mem_filter.mp hp).1

theorem AllData.removeAllIds (base : Str → Str) (l : List Str) : ∀ {g : Graph T D}, AllData P g →
    AllData P (Container.removeAllIds base l g).2 := by
  induction l with
  | nil => exact fun h => h
  | cons c cs ih =>
    intro g h
    have h1 := h.removeNode c
    unfold Container.removeAllIds
    split
    · rename_i hq
      rw [hq] at h1
      exact h1
    · rename_i hq
      rw [hq] at h1
      have h2 := ih h1
      split
      · rename_i hq
        rw [hq] at h2
        exact h2
      · rename_i hq
        rw [hq] at h2
        exact h2

theorem AllData.removeLoop [DecidableEq T] (ends : Graph T D → Except Err (List Str)) (base : Str → Str) (t : T) (n : Nat) :
    ∀ {g : Graph T D}, AllData P g → AllData P (Container.removeLoop ends base t n g).2 := by
  induction n with
  | zero => exact fun h => h
  | succ n ih =>
    intro g h
    unfold Container.removeLoop
    split
    · exact h
    · exact h
    · rename_i l _ _
      have h1 := AllData.removeAllIds base l h
      split
      · rename_i hq
        rw [hq] at h1
        exact h1
      · rename_i hq
        rw [hq] at h1
        have h2 := ih h1
        split
        · rename_i hq
          rw [hq] at h2
          exact h2
        · rename_i hq
          rw [hq] at h2
          exact h2

theorem AllData.removeNamed (t : NType) (l : List Str) : ∀ {g : Graph NType D}, AllData P g → AllData P (Alias.removeNamed t l g).2 := by
  induction l with
  | nil => exact fun h => h
  | cons c cs ih =>
    intro g h
    have h1 := h.removeNode (graphId t c)
    unfold Alias.removeNamed
    split
    · rename_i hq
      rw [hq] at h1
      exact h1
    · rename_i hq
      rw [hq] at h1
      exact ih h1

theorem AllData.cleanGraph [PyRt F] (slots atts : List Str) {g : Graph NType D} (h : AllData P g) :
    AllData P (Alias.cleanGraph F slots atts g).2 := by
  have h1 := AllData.removeNamed .slot (setList F slots) h
  unfold Alias.cleanGraph
  split
  · rename_i hq
    rw [hq] at h1
    exact h1
  · rename_i hq
    rw [hq] at h1
    have h2 := AllData.removeNamed .attachment (setList F atts) h1
    split
    · rename_i hq
      rw [hq] at h2
      exact h2
    · rename_i hq
      rw [hq] at h2
      have h3 : AllData P (Container.removeLeafsOfType (baseId NType.slot) NType.slot _).2 := AllData.removeLoop _ _ _ _ h2
      split
      · rename_i hq
        rw [hq] at h3
        exact h3
      · rename_i hq
        rw [hq] at h3
        exact h3

theorem AllData.detach {g : Graph NType D} (h : AllData P g) : AllData P (Alias.detach g).2 := by
  have h1 : AllData P (Container.removeHeadsOfType (baseId .attachment) .attachment g).2 := AllData.removeLoop _ _ _ _ h
  unfold Alias.detach
  split
  · rename_i hq
    rw [hq] at h1
    exact h1
  · rename_i hq
    rw [hq] at h1
    have h2 : AllData P (Container.removeLeafsOfType (baseId NType.attachment) NType.attachment _).2 := AllData.removeLoop _ _ _ _ h1
    split
    · rename_i hq
      rw [hq] at h2
      exact h2
    · rename_i hq
      rw [hq] at h2
      exact AllData.removeLoop _ _ _ _ h2
end Graph

theorem ins_graph {g : Graph NType (Int × Ref F)} : ins R g ↔ AllData (fun d => ins R d.2) g := Iff.rfl

theorem ins_cleanGraph [PyRt F] {slots atts : List Str} {g g' : Graph NType (Int × Ref F)} {x : Except Err (List Str)} (h : ins R g)
    (hg : cleanGraph F slots atts g = (x, g')) : ins R g' := by
  have := AllData.cleanGraph (F := F) slots atts (ins_graph.mp h)
  rw [hg] at this
  exact this

theorem ins_detach {g g' : Graph NType (Int × Ref F)} {x : Except Err (List Str)} (h : ins R g) (hg : detach g = (x, g')) : ins R g' := by
  have := AllData.detach (ins_graph.mp h)
  rw [hg] at this
  exact this

theorem ins_index {l : List (Ref F)} {n : Nat} (h : ins R l) : ins R ((l[n]?).getD .null) := by
  cases hn : l[n]? with
  | none => exact ins_null.mpr trivial
  | some x => exact h x (List.mem_of_getElem? hn)

theorem ins_withRefs {b s i : List (Ref F)} {g : SGraph F} (hb : ins R b) (hs : ins R s) (hi : ins R i) :
    ins R (withRefs b s i g) := by
  intro p hp
  obtain ⟨q, hq, rfl⟩ := List.mem_map.mp hp
  dsimp only
  split
  · exact ins_index hb
  · exact ins_index hs
  · exact ins_index hi
  · exact ins_null.mpr trivial

theorem ins_listOfType {g : Graph NType (Int × Ref F)} {t : NType} (hg : ins R g) : ins R (listOfType g t) := by
  intro x hx
  obtain ⟨p, hp, rfl⟩ := List.mem_map.mp hx
  have := (DrawOrder.sortOps_perm _).mem_iff.mp hp
  obtain ⟨n, hn, rfl⟩ := List.mem_map.mp this
  have := (List.mem_filter.mp hn).1
  obtain ⟨q, hq, rfl⟩ := List.mem_map.mp this
  exact hg q hq

theorem ins_ed {a b c : Ref F} {v : Version} {g : Graph NType (Int × Ref F)} :
    ins R ({ skeleton := a, version := v, data := b, images := c, graph := g } : Ed F) ↔
      ins R a ∧ ins R b ∧ ins R c ∧ ins R g := Iff.rfl

section Init
variable [PyRt F]

theorem safe_defaultsStep {E : Env F} {v38 : Bool} {f : Ref F → M F Unit} (hm : ∀ x, Mono (f x))
    (hf : ∀ x, ins R x → Safe R (f x)) {r : Ref F} (hr : ins R r) : Safe R (defaultsStep E v38 f r) := by
  unfold defaultsStep
  safe
  all_goals first
    | exact hf _ (ins_snd (by assumption))
    | (mono; done)
    | (mono; all_goals apply hm)
theorem safe_setDefaultsN {E : Env F} {v38 : Bool} : ∀ (n : Nat) (r : Ref F), ins R r → Safe R (setDefaultsN E v38 n r)
  | 0, _, h => safe_defaultsStep (fun _ => Mono.raise) (fun _ _ => Safe.raise) h
  | n + 1, _, h => safe_defaultsStep (mono_setDefaultsN E v38 n) (fun x hx => safe_setDefaultsN n x hx) h
theorem safe_setDefaults {E : Env F} {v38 : Bool} {r : Ref F} (h : ins R r) : Safe R (setDefaults E v38 r) :=
  safe_setDefaultsN _ _ h
macro_rules | `(tactic| safe1) => `(tactic| with_reducible refine safe_setDefaults ?_)

theorem Safe.read_bind' {α β : Type} [Ins β] {m : M F α} {f : α → M F β} (hm : Reads m)
    (hf : ∀ x g g', m g = (.ok x, g') → Safe R (f x)) : Safe R (m >>= f) := by
  constructor
  intro h hc
  rw [bind_eq]
  have h1 := hm.same h
  have h2 := hf
  split
  · rename_i x g hq
    rw [hq] at h1
    cases h1
    exact (hf x _ _ hq).run _ hc
  · rename_i x g hq
    rw [hq] at h1
    cases h1
    intro _
    refine ⟨fun _ _ => rfl, hc, ?_⟩
    intro x hx
    cases hx

theorem Reads.deref {r : Ref F} : Reads (deref r) := by
  constructor
  intro h
  unfold Alias.deref
  split
  · rw [bind_eq, M.look]
    split <;> (rename_i hq; split at hq <;> cases hq <;> rfl)
  · rfl

theorem safe_toJsonA {E : Env F} {v38 : Bool} {t : Tag} {f : Ref F → M F (Ref F)} (hm : ∀ x, Mono (f x))
    (hf : ∀ x, Safe R (f x)) (d : Dict (Ref F)) : Safe R (toJsonA E v38 t f d) := by
  induction d with
  | nil => exact Safe.pure (ins_nil.mpr trivial)
  | cons p r ih =>
    have h1 := mono_toJsonA E v38 t hm r
    obtain ⟨k, x⟩ := p
    have h2 := hm x
    have h3 := hf x
    unfold toJsonA
    safe
theorem safe_toJsonStep {E : Env F} {v38 : Bool} {f : Ref F → M F (Ref F)} (hm : ∀ x, Mono (f x))
    (hf : ∀ x, Safe R (f x)) (r : Ref F) : Safe R (toJsonStep E v38 f r) := by
  have h1 := fun t => mono_toJsonA E v38 t hm
  have h2 := fun t => safe_toJsonA (E := E) (v38 := v38) (t := t) hm hf
  unfold toJsonStep
  cases r with
  | ptr a =>
    refine Safe.read_bind' Reads.deref (fun o g g' ho => ?_)
    split
    · have : deref (Ref.ptr a) g = (.ok none, g') := ho
      simp only [deref, bind_eq, M.look] at this
      split at this
      · rename_i hq
        split at hq <;> cases hq
        cases this
      · cases this
    · rename_i l
      exact Safe.bind (mono_mapL hm l) (fun _ => Mono.alloc) (safe_mapL_any hm hf l) (fun _ h => Safe.alloc h)
    · rename_i l
      exact Safe.bind (mono_mapV hm l) (fun _ => Mono.alloc) (safe_mapV_any hm hf l) (fun _ h => Safe.alloc (ins_dictO.mpr h))
    · rename_i t l
      exact Safe.bind (h1 t l) (fun _ => Mono.alloc) (h2 t l) (fun _ h => Safe.alloc (ins_dictO.mpr h))
  | _ => exact Safe.pure (by ins1)
end Init

end Alias
end Spine
