import Verif.Model.AnimData
import Verif.Props.Tags
import Verif.Lemmas.List
import Verif.Spec.Visible
/- Properties C33 (`get_slot_custom_scale`) and C57 (transparent slots). -/
namespace Spine
set_option linter.unusedSectionVars false
variable {F : Type} [PyRt F]

/-! ## Specification of C33 -/

/-- the scale written in a name: 1.0 without tag, the number of a single scale tag -/
def NameScale (F : Type) [PyRt F] (name : Str) (x : F) : Prop :=
  ∃ ts, Tags.TagsOf F name ts ∧
    ((ts = [] ∧ x = PyRt.fone) ∨ ∃ v, ts = [(s!!"scale", v)] ∧ PyRt.fparse (F := F) (strip F v) = some x)

/-- the first bone of a name -/
def IsBone (bones : List (Bone F)) (n : Str) (b : Bone F) : Prop :=
  ∃ l r, bones = l ++ b :: r ∧ b.name = n ∧ ∀ x ∈ l, x.name ≠ n

/-- Climbing from the bone named `n` (`none`: no name) arrives at the bone `root`; `xs` are the scales in the names of the
bones below `root`, from the bottom up. -/
inductive Reaches (bones : List (Bone F)) : Option Str → List F → Prop
  | root {n b} : IsBone bones n b → n = s!!"root" → Reaches bones (some n) []
  | up {n b x xs} : IsBone bones n b → n ≠ s!!"root" → NameScale F n x → Reaches bones b.parent xs →
      Reaches bones (some n) (x :: xs)

/-- Climbing from the bone named `n` leaves the skeleton: a bone without parent that is not `root`, or an unknown bone. -/
inductive Leaves (bones : List (Bone F)) : Option Str → Prop
  | none : Leaves bones none
  | unknown {n} : (∀ b ∈ bones, b.name ≠ n) → Leaves bones (some n)
  | up {n b x} : IsBone bones n b → n ≠ s!!"root" → NameScale F n x → Leaves bones b.parent → Leaves bones (some n)

/-- Climbing meets a bone below `root` whose name has a malformed tag. -/
inductive Malformed (bones : List (Bone F)) : Option Str → Prop
  | here {n b} : IsBone bones n b → n ≠ s!!"root" → (¬ ∃ x, NameScale F n x) → Malformed bones (some n)
  | up {n b x} : IsBone bones n b → n ≠ s!!"root" → NameScale F n x → Malformed bones b.parent → Malformed bones (some n)

/-! ## Proofs -/

theorem scaleInName_ok (n : Str) (x : F) : Tags.scaleInName F n = .ok x ↔ NameScale F n x := by
  obtain ⟨ts, ht⟩ := Tags.c32_total (F := F) n
  have h := Tags.c32_scale_in_name F n ts ht
  constructor
  · intro e
    by_cases hm : ∃ d, Tags.TagsMean F ts d
    · obtain ⟨d, (⟨rfl, _⟩ | ⟨v, y, rfl, hy, _⟩)⟩ := hm
      · rw [h.1 rfl] at e; injection e with e
        exact ⟨[], ht, .inl ⟨rfl, e.symm⟩⟩
      · rw [h.2.1 v y rfl hy] at e; injection e with e; subst e
        exact ⟨_, ht, .inr ⟨v, rfl, hy⟩⟩
    · rw [h.2.2 hm] at e; cases e
  · rintro ⟨us, hu, (⟨rfl, rfl⟩ | ⟨v, rfl, hv⟩)⟩
    · exact h.1 (Tags.c32_unique F ht hu)
    · exact h.2.1 v x (Tags.c32_unique F ht hu) hv

theorem scaleInName_error (n : Str) (e : Err) (h : Tags.scaleInName F n = .error e) :
    e = .value ∧ ¬ ∃ x, NameScale F n x := by
  obtain ⟨ts, ht⟩ := Tags.c32_total (F := F) n
  have hc := Tags.c32_scale_in_name F n ts ht
  have hno : ¬ ∃ x, NameScale F n x := by
    rintro ⟨x, hx⟩; rw [(scaleInName_ok n x).2 hx] at h; cases h
  refine ⟨?_, hno⟩
  by_cases hm : ∃ d, Tags.TagsMean F ts d
  · obtain ⟨d, (⟨rfl, _⟩ | ⟨v, y, rfl, hy, _⟩)⟩ := hm
    · rw [hc.1 rfl] at h; cases h
    · rw [hc.2.1 v y rfl hy] at h; cases h
  · rw [hc.2.2 hm] at h; injection h with h; exact h.symm

theorem scaleInName_value (n : Str) (h : ¬ ∃ x, NameScale F n x) : Tags.scaleInName F n = .error .value := by
  cases e : Tags.scaleInName F n with
  | ok x => exact absurd ⟨x, (scaleInName_ok n x).1 e⟩ h
  | error x => rw [(scaleInName_error n x e).1]

theorem nameScale_unique {n : Str} {x y : F} (h : NameScale F n x) (h' : NameScale F n y) : x = y := by
  have := (scaleInName_ok n x).2 h
  rw [(scaleInName_ok n y).2 h'] at this
  injection this with h; exact h.symm

namespace AnimData

theorem getBone_some (a : AnimData F) (n : Str) (b : Bone F) : getBone a (some n) = some b ↔ IsBone a.bones n b := by
  simp only [getBone, List.find?_eq_some_iff_append, IsBone, beq_iff_eq, Bool.not_eq_true', beq_eq_false_iff_ne]
  constructor
  · rintro ⟨h, l, r, e, hl⟩; exact ⟨l, r, e, h, hl⟩
  · rintro ⟨l, r, e, h, hl⟩; exact ⟨h, l, r, e, hl⟩

theorem getBone_none (a : AnimData F) (n : Str) : getBone a (some n) = none ↔ ∀ b ∈ a.bones, b.name ≠ n := by
  simp [getBone, List.find?_eq_none]

theorem isBone_mem {a : AnimData F} {n : Str} {b : Bone F} (h : IsBone a.bones n b) : b ∈ a.bones := by
  obtain ⟨l, r, e, _⟩ := h; rw [e]; simp

theorem isBone_name {bones : List (Bone F)} {n : Str} {b : Bone F} (h : IsBone bones n b) : b.name = n := by
  obtain ⟨_, _, _, hn, _⟩ := h; exact hn

/-- the loop started at the bone named `o` stops after exactly `k` rounds -/
inductive Rounds (a : AnimData F) : Option Str → Nat → Prop
  | out {o} : getBone a o = none → Rounds a o 1
  | stop {o b} : getBone a o = some b → (b.name = s!!"root" ∨ ¬ ∃ x, NameScale F b.name x) → Rounds a o 1
  | up {o b x k} : getBone a o = some b → b.name ≠ s!!"root" → NameScale F b.name x → Rounds a b.parent k →
      Rounds a o (k + 1)

theorem rounds_unique {a : AnimData F} {o : Option Str} {k m : Nat} (h : Rounds a o k) (h' : Rounds a o m) : k = m := by
  induction h generalizing m with
  | out hb => cases h' with
    | out _ => rfl
    | stop hb' _ => rfl
    | up hb' _ _ _ => rw [hb] at hb'; cases hb'
  | stop hb hs => cases h' with
    | out _ => rfl
    | stop _ _ => rfl
    | up hb' hr hx _ =>
      rw [hb] at hb'; injection hb' with hb'; subst hb'
      rcases hs with hs | hs
      · exact absurd hs hr
      · exact absurd ⟨_, hx⟩ hs
  | up hb hr hx _ ih => cases h' with
    | out hb' => rw [hb] at hb'; cases hb'
    | stop hb' hs =>
      rw [hb] at hb'; injection hb' with hb'; subst hb'
      rcases hs with hs | hs
      · exact absurd hs hr
      · exact absurd ⟨_, hx⟩ hs
    | up hb' _ _ h' =>
      rw [hb] at hb'; injection hb' with hb'; subst hb'
      rw [ih h']

/-- the loop visits distinct bones, so it stops within (number of bones + 1) rounds or never -/
theorem rounds_le {a : AnimData F} {o : Option Str} {k : Nat} (h : Rounds a o k) : k ≤ a.bones.length + 1 := by
  suffices hl : ∃ l : List Str, k ≤ l.length + 1 ∧ l.Nodup ∧ (∀ x ∈ l, x ∈ a.bones.map (·.name)) ∧
      ∀ x ∈ l, ∃ j, j ≤ k ∧ Rounds a (some x) j by
    obtain ⟨l, hk, hn, hs, _⟩ := hl
    have := length_le_of_nodup_subset hn hs
    rw [List.length_map] at this
    omega
  induction h with
  | out _ => exact ⟨[], by simp⟩
  | stop _ _ => exact ⟨[], by simp⟩
  | @up o b x k hb hr hx hk ih =>
    obtain ⟨l, hk', hn, hs, hj⟩ := ih
    have hb' : getBone a (some b.name) = some b := by
      cases o with
      | none => cases hb
      | some n =>
        obtain ⟨p, r, e, hname, _⟩ := (getBone_some a n b).1 hb
        rw [hname]; exact hb
    have hr' : Rounds a (some b.name) (k + 1) := .up hb' hr hx hk
    refine ⟨b.name :: l, by simp; omega, List.nodup_cons.2 ⟨?_, hn⟩, ?_, ?_⟩
    · intro hm
      obtain ⟨j, hle, hj⟩ := hj _ hm
      have := rounds_unique hr' hj
      omega
    · intro x hx
      rcases List.mem_cons.1 hx with rfl | hx
      · exact List.mem_map_of_mem (isBone_mem ((getBone_some a _ _).1 hb'))
      · exact hs x hx
    · intro x hx
      rcases List.mem_cons.1 hx with rfl | hx
      · exact ⟨k + 1, by omega, hr'⟩
      · obtain ⟨j, hle, hj⟩ := hj x hx; exact ⟨j, by omega, hj⟩

theorem loop_stops (a : AnimData F) (n : Nat) (acc : F) (o : Option Str) :
    boneScaleLoop a n acc (getBone a o) ≠ .error .diverge ↔ ∃ k, k ≤ n ∧ Rounds a o k := by
  induction n generalizing acc o with
  | zero =>
    simp only [boneScaleLoop, ne_eq, not_true_eq_false, false_iff]
    rintro ⟨k, hk, h⟩
    cases h <;> omega
  | succ n ih =>
    cases hb : getBone a o with
    | none =>
      simp only [boneScaleLoop, ne_eq, Except.error.injEq, reduceCtorEq, not_false_eq_true, true_iff]
      exact ⟨1, by omega, .out hb⟩
    | some b =>
      rw [boneScaleLoop]
      split
      · rename_i hr
        simp only [ne_eq, reduceCtorEq, not_false_eq_true, true_iff]
        exact ⟨1, by omega, .stop hb (.inl hr)⟩
      · rename_i hr
        split
        · rename_i e he
          have := scaleInName_error _ _ he
          simp only [this.1, ne_eq, Except.error.injEq, reduceCtorEq, not_false_eq_true, true_iff]
          exact ⟨1, by omega, .stop hb (.inr this.2)⟩
        · rename_i x hx
          rw [ih]
          constructor
          · rintro ⟨k, hk, h⟩; exact ⟨k + 1, by omega, .up hb hr ((scaleInName_ok _ _).1 hx) h⟩
          · rintro ⟨k, hk, h⟩
            cases h with
            | out hb' => rw [hb] at hb'; cases hb'
            | stop hb' hs =>
              rw [hb] at hb'; injection hb' with hb'; subst hb'
              rcases hs with hs | hs
              · exact absurd hs hr
              · exact absurd ⟨_, (scaleInName_ok _ _).1 hx⟩ hs
            | up hb' _ _ h =>
              rw [hb] at hb'; injection hb' with hb'; subst hb'
              exact ⟨_, by omega, h⟩

theorem loop_reaches (a : AnimData F) {o : Option Str} {xs : List F} (h : Reaches a.bones o xs) (n : Nat) (acc : F)
    (hd : boneScaleLoop a n acc (getBone a o) ≠ .error .diverge) :
    boneScaleLoop a n acc (getBone a o) = .ok (xs.foldl PyRt.fmul acc) := by
  induction h generalizing n acc with
  | root hb hr =>
    rw [(getBone_some a _ _).2 hb] at hd ⊢
    cases n with
    | zero => exact absurd rfl hd
    | succ n =>
      obtain ⟨_, _, _, hn, _⟩ := hb
      rw [boneScaleLoop, if_pos (hn.trans hr)]; rfl
  | up hb hr hx _ ih =>
    rw [(getBone_some a _ _).2 hb] at hd ⊢
    cases n with
    | zero => exact absurd rfl hd
    | succ n =>
      obtain ⟨_, _, _, hn, _⟩ := hb
      rw [boneScaleLoop, if_neg (by rw [hn]; exact hr), hn, (scaleInName_ok _ _).2 hx] at hd ⊢
      exact ih n _ hd

theorem loop_leaves (a : AnimData F) {o : Option Str} (h : Leaves a.bones o) (n : Nat) (acc : F)
    (hd : boneScaleLoop a n acc (getBone a o) ≠ .error .diverge) :
    boneScaleLoop a n acc (getBone a o) = .error .attribute := by
  induction h generalizing n acc with
  | none => cases n with
    | zero => exact absurd rfl hd
    | succ n => rfl
  | unknown hu =>
    rw [(getBone_none a _).2 hu] at hd ⊢
    cases n with
    | zero => exact absurd rfl hd
    | succ n => rfl
  | up hb hr hx _ ih =>
    rw [(getBone_some a _ _).2 hb] at hd ⊢
    cases n with
    | zero => exact absurd rfl hd
    | succ n =>
      obtain ⟨_, _, _, hn, _⟩ := hb
      rw [boneScaleLoop, if_neg (by rw [hn]; exact hr), hn, (scaleInName_ok _ _).2 hx] at hd ⊢
      exact ih n _ hd

theorem loop_malformed (a : AnimData F) {o : Option Str} (h : Malformed a.bones o) (n : Nat) (acc : F)
    (hd : boneScaleLoop a n acc (getBone a o) ≠ .error .diverge) :
    boneScaleLoop a n acc (getBone a o) = .error .value := by
  induction h generalizing n acc with
  | here hb hr hx =>
    rw [(getBone_some a _ _).2 hb] at hd ⊢
    cases n with
    | zero => exact absurd rfl hd
    | succ n =>
      obtain ⟨_, _, _, hn, _⟩ := hb
      rw [boneScaleLoop, if_neg (by rw [hn]; exact hr), hn, scaleInName_value _ hx]
  | up hb hr hx _ ih =>
    rw [(getBone_some a _ _).2 hb] at hd ⊢
    cases n with
    | zero => exact absurd rfl hd
    | succ n =>
      obtain ⟨_, _, _, hn, _⟩ := hb
      rw [boneScaleLoop, if_neg (by rw [hn]; exact hr), hn, (scaleInName_ok _ _).2 hx] at hd ⊢
      exact ih n _ hd

theorem rounds_iff (a : AnimData F) (o : Option Str) :
    (∃ k, Rounds a o k) ↔ (∃ xs, Reaches a.bones o xs) ∨ Leaves a.bones o ∨ Malformed a.bones o := by
  constructor
  · rintro ⟨k, h⟩
    induction h with
    | @out o hb => cases o with
      | none => exact .inr (.inl .none)
      | some n => exact .inr (.inl (.unknown ((getBone_none a n).1 hb)))
    | @stop o b hb hs => cases o with
      | none => cases hb
      | some n =>
        have hb' := (getBone_some a _ _).1 hb
        have hn : b.name = n := by obtain ⟨_, _, _, hn, _⟩ := hb'; exact hn
        rw [hn] at hs
        by_cases hr : n = s!!"root"
        · exact .inl ⟨_, .root hb' hr⟩
        · exact .inr (.inr (.here hb' hr (hs.resolve_left hr)))
    | @up o b x k hb hr hx _ ih => cases o with
      | none => cases hb
      | some n =>
        have hb' := (getBone_some a _ _).1 hb
        have hn : b.name = n := by obtain ⟨_, _, _, hn, _⟩ := hb'; exact hn
        rw [hn] at hr hx
        rcases ih with ⟨xs, h⟩ | h | h
        · exact .inl ⟨_, .up hb' hr hx h⟩
        · exact .inr (.inl (.up hb' hr hx h))
        · exact .inr (.inr (.up hb' hr hx h))
  · rintro (⟨xs, h⟩ | h | h)
    · induction h with
      | root hb hr =>
        refine ⟨1, .stop ((getBone_some a _ _).2 hb) (.inl ?_)⟩
        obtain ⟨_, _, _, hn, _⟩ := hb; rw [hn]; exact hr
      | up hb hr hx _ ih =>
        obtain ⟨k, hk⟩ := ih
        have hn := isBone_name hb
        exact ⟨k + 1, .up ((getBone_some a _ _).2 hb) (by rw [hn]; exact hr) (by rw [hn]; exact hx) hk⟩
    · induction h with
      | none => exact ⟨1, .out rfl⟩
      | unknown h => exact ⟨1, .out ((getBone_none a _).2 h)⟩
      | up hb hr hx _ ih =>
        obtain ⟨k, hk⟩ := ih
        have hn := isBone_name hb
        exact ⟨k + 1, .up ((getBone_some a _ _).2 hb) (by rw [hn]; exact hr) (by rw [hn]; exact hx) hk⟩
    · induction h with
      | here hb hr hx =>
        have hn := isBone_name hb
        exact ⟨1, .stop ((getBone_some a _ _).2 hb) (.inr (by rw [hn]; exact hx))⟩
      | up hb hr hx _ ih =>
        obtain ⟨k, hk⟩ := ih
        have hn := isBone_name hb
        exact ⟨k + 1, .up ((getBone_some a _ _).2 hb) (by rw [hn]; exact hr) (by rw [hn]; exact hx) hk⟩

theorem loop_diverge_iff (a : AnimData F) (acc : F) (o : Option Str) :
    boneScaleLoop a (a.bones.length + 1) acc (getBone a o) ≠ .error .diverge ↔
      (∃ xs, Reaches a.bones o xs) ∨ Leaves a.bones o ∨ Malformed a.bones o := by
  rw [loop_stops, ← rounds_iff]
  exact ⟨fun ⟨k, _, h⟩ => ⟨k, h⟩, fun ⟨k, h⟩ => ⟨k, rounds_le h, h⟩⟩

/-- C33, justification of the model: a loop that has not stopped after (number of bones + 1) rounds never stops, so
`diverge` means that `get_slot_custom_scale` does not return. -/
theorem c33_fuel_enough (a : AnimData F) (acc : F) (o : Option Str)
    (h : boneScaleLoop a (a.bones.length + 1) acc (getBone a o) = .error .diverge) (n : Nat) :
    boneScaleLoop a n acc (getBone a o) = .error .diverge := by
  apply Classical.byContradiction
  intro hn
  obtain ⟨k, _, hk⟩ := (loop_stops a n acc o).1 hn
  exact (loop_stops a _ acc o).2 ⟨k, rounds_le hk, hk⟩ h

/-- C33, first part: the call returns or raises exactly when the bone chain reaches `root`, leaves the skeleton, or meets a
malformed tag (which raises at once). -/
theorem c33_terminates_iff (a : AnimData F) (s : Slot F) (x : F) (hx : NameScale F s.name x) :
    slotScale a (some s) ≠ .error .diverge ↔
      (∃ xs, Reaches a.bones s.bone xs) ∨ Leaves a.bones s.bone ∨ Malformed a.bones s.bone := by
  rw [← loop_diverge_iff a PyRt.fone s.bone]
  simp only [slotScale, (scaleInName_ok _ _).2 hx]
  split
  · rename_i e he
    rw [he]
  · rename_i y hy
    rw [hy]
    simp

/-- C33, second part: when the chain reaches `root` the result is the product of the tag of the slot and the tags of the
bones below `root`, multiplied from the bottom up starting from 1.0. -/
theorem c33_product (a : AnimData F) (s : Slot F) (x : F) (xs : List F) (hx : NameScale F s.name x)
    (h : Reaches a.bones s.bone xs) :
    slotScale a (some s) = .ok (PyRt.fmul x (xs.foldl PyRt.fmul PyRt.fone)) := by
  have hd := (loop_diverge_iff a PyRt.fone s.bone).2 (.inl ⟨xs, h⟩)
  simp only [slotScale, (scaleInName_ok _ _).2 hx, loop_reaches a h _ _ hd]

/-- C33: what happens otherwise: AttributeError when the chain leaves the skeleton, ValueError on a malformed tag; and a
result is only returned when the chain reaches `root`. -/
theorem c33_otherwise (a : AnimData F) (s : Slot F) :
    (∀ x, NameScale F s.name x → Leaves a.bones s.bone → slotScale a (some s) = .error .attribute) ∧
    (Malformed a.bones s.bone → slotScale a (some s) = .error .value) ∧
    ((¬ ∃ x, NameScale F s.name x) → slotScale a (some s) = .error .value) ∧
    (∀ y, slotScale a (some s) = .ok y → ∃ x xs, NameScale F s.name x ∧ Reaches a.bones s.bone xs ∧
      y = PyRt.fmul x (xs.foldl PyRt.fmul PyRt.fone)) := by
  refine ⟨?_, ?_, ?_, ?_⟩
  · intro x hx h
    have hd := (loop_diverge_iff a PyRt.fone s.bone).2 (.inr (.inl h))
    simp only [slotScale, (scaleInName_ok _ _).2 hx, loop_leaves a h _ _ hd]
  · intro h
    have hd := (loop_diverge_iff a PyRt.fone s.bone).2 (.inr (.inr h))
    cases hx : Tags.scaleInName F s.name with
    | error e =>
      simp only [slotScale, hx, (scaleInName_error _ _ hx).1]
    | ok x => simp only [slotScale, hx, loop_malformed a h _ _ hd]
  · intro h
    simp only [slotScale, scaleInName_value _ h]
  · intro y hy
    cases hx : Tags.scaleInName F s.name with
    | error e => simp [slotScale, hx] at hy
    | ok x =>
      have hx' := (scaleInName_ok _ _).1 hx
      have hnd : slotScale a (some s) ≠ .error .diverge := by rw [hy]; simp
      rcases (c33_terminates_iff a s x hx').1 hnd with ⟨xs, h⟩ | h | h
      · refine ⟨x, xs, hx', h, ?_⟩
        rw [c33_product a s x xs hx' h] at hy
        injection hy with hy; exact hy.symm
      · have hd := (loop_diverge_iff a PyRt.fone s.bone).2 (.inr (.inl h))
        simp only [slotScale, hx, loop_leaves a h _ _ hd] at hy
        cases hy
      · have hd := (loop_diverge_iff a PyRt.fone s.bone).2 (.inr (.inr h))
        simp only [slotScale, hx, loop_malformed a h _ _ hd] at hy
        cases hy

/-! ### concrete cases -/
section
private def bone (n : String) (p : Option String) : Bone Rat := ⟨n.toList, p.map (·.toList), []⟩
private def slot (n b : String) : Slot Rat := ⟨n.toList, some b.toList, none, none, .null, .null⟩
private def skel (bs : List (Bone Rat)) : AnimData Rat := ⟨bs, [], [], [], [], [], [], []⟩
private def arm : AnimData Rat :=
  skel [bone "root" none, bone "body [scale:0.5]" (some "root"), bone "arm [scale:3]" (some "body [scale:0.5]")]

example : slotScale arm (some (slot "hand [scale:2]" "arm [scale:3]")) = .ok 3 := by decide +kernel
example : slotScale arm (some (slot "hand" "leg")) = .error .attribute := by decide +kernel
example : slotScale (skel [bone "a" (some "b"), bone "b" (some "a"), bone "root" none]) (some (slot "hand" "a")) =
    .error .diverge := by decide +kernel
/-- the hypotheses of `c33_product` hold in the first case -/
example : ∃ xs, Reaches arm.bones (some s!!"arm [scale:3]") xs ∧ NameScale Rat s!!"hand [scale:2]" 2 := by
  refine ⟨[3, 1/2], .up (b := bone "arm [scale:3]" (some "body [scale:0.5]")) ((getBone_some arm _ _).1 rfl) (by decide)
    ((scaleInName_ok _ _).1 (by decide +kernel)) (.up (b := bone "body [scale:0.5]" (some "root"))
      ((getBone_some arm _ _).1 rfl) (by decide) ((scaleInName_ok _ _).1 (by decide +kernel))
      (.root (b := bone "root" none) ((getBone_some arm _ _).1 rfl) rfl)), (scaleInName_ok _ _).1 (by decide +kernel)⟩
end
end AnimData

/-! ## C57 -/

theorem hexVal_letter {c : Char} (h : ('a' ≤ c ∧ c ≤ 'f') ∨ ('A' ≤ c ∧ c ≤ 'F')) :
    c ∈ ['a', 'b', 'c', 'd', 'e', 'f', 'A', 'B', 'C', 'D', 'E', 'F'] := by
  have hc : c = Char.ofNat c.toNat := (Char.ofNat_toNat c).symm
  rcases h with ⟨h1, h2⟩ | ⟨h1, h2⟩
  · have e1 : 97 ≤ c.toNat := h1
    have e2 : c.toNat ≤ 102 := h2
    generalize c.toNat = n at *
    have : n = 97 ∨ n = 98 ∨ n = 99 ∨ n = 100 ∨ n = 101 ∨ n = 102 := by omega
    rcases this with h | h | h | h | h | h <;> subst h <;> subst hc <;> decide
  · have e1 : 65 ≤ c.toNat := h1
    have e2 : c.toNat ≤ 70 := h2
    generalize c.toNat = n at *
    have : n = 65 ∨ n = 66 ∨ n = 67 ∨ n = 68 ∨ n = 69 ∨ n = 70 := by omega
    rcases this with h | h | h | h | h | h <;> subst h <;> subst hc <;> decide

theorem hexVal_lt {c : Char} {d : Nat} (h : hexVal F c = some d) : d < 16 := by
  unfold hexVal at h
  split at h
  · rename_i x hx
    injection h with h; subst h
    have := PyRt.digit_lt c x hx; omega
  · split at h
    · rename_i hc
      injection h with h
      have : c.toNat ≤ 102 := hc.2
      omega
    · split at h
      · rename_i hc
        injection h with h
        have : c.toNat ≤ 70 := hc.2
        omega
      · cases h

theorem hexVal_not_space {c : Char} (h : (hexVal F c).isSome) : PyRt.isSpace F c = false := by
  unfold hexVal at h
  split at h
  · rename_i x hx
    exact PyRt.digit_not_space c x hx
  · split at h
    · rename_i hc; exact (PyRt.hex_letter c (hexVal_letter (.inl hc))).1
    · split at h
      · rename_i hc; exact (PyRt.hex_letter c (hexVal_letter (.inr hc))).1
      · cases h

theorem hexVal_under : hexVal F '_' = none := by
  unfold hexVal
  rw [PyRt.digit_punct '_' (by simp)]
  rfl

theorem rstrip_spec (s : Str) :
    ∃ w, s = rstrip F s ++ w ∧ Blank F w := by
  refine ⟨(s.reverse.takeWhile (PyRt.isSpace F)).reverse, ?_, ?_⟩
  · have := (List.takeWhile_append_dropWhile (p := PyRt.isSpace F) (l := s.reverse)).symm
    have h2 := congrArg List.reverse this
    rw [List.reverse_reverse, List.reverse_append] at h2
    exact h2
  · intro c hc
    exact takeWhile_blank (F := F) s.reverse c (by simpa using hc)

theorem rstrip_eq {m w : Str} (hw : Blank F w) (hm : ∀ c ∈ m, PyRt.isSpace F c = false) : rstrip F (m ++ w) = m := by
  unfold rstrip
  rw [List.reverse_append, dropWhile_blank (by intro c hc; exact hw c (by simpa using hc)), dropWhile_head,
    List.reverse_reverse]
  intro c r h
  exact hm c (by have := congrArg List.reverse h; rw [List.reverse_reverse] at this; rw [this]; simp)

/-- the digits part of `hexColor` -/
def hexDigits (F : Type) [PyRt F] (t : Str) : Option Nat :=
  match t with
  | c :: r => match hexVal F c with
    | some d => digitsTail (hexVal F) 16 d r
    | none => none
  | [] => none

theorem hexDigits_iff (t : Str) (n : Nat) : hexDigits F t = some n ↔ Numeral (hexVal F) 16 t n := by
  constructor
  · intro h
    unfold hexDigits at h
    split at h
    · rename_i c r
      split at h
      · rename_i d hd
        exact ⟨c, d, r, rfl, hd, (digitsTail_iff hexVal_under _ _ _).1 h⟩
      · cases h
    · cases h
  · rintro ⟨c, d, r, rfl, hd, hn⟩
    simp only [hexDigits, hd]
    exact (digitsTail_iff hexVal_under _ _ _).2 hn

theorem hexColor_eq (s : Str) : hexColor F s = (match rstrip F s with
    | '_' :: t => hexDigits F t
    | t => hexDigits F t) := rfl

theorem hexColor_iff (s : Str) (n : Nat) : hexColor F s = some n ↔ HexText F s n := by
  rw [hexColor_eq]
  constructor
  · intro h
    obtain ⟨w, hs, hw⟩ := rstrip_spec (F := F) s
    split at h
    · rename_i t ht
      exact ⟨['_'], t, w, by rw [ht] at hs; exact hs, .inr rfl, hw, (hexDigits_iff _ _).1 h⟩
    · exact ⟨[], rstrip F s, w, hs, .inl rfl, hw, (hexDigits_iff _ _).1 h⟩
  · rintro ⟨u, m, w, hs, hu, hw, hn⟩
    have hm : ∀ c ∈ m, PyRt.isSpace F c = false := by
      intro c hc
      rcases hn.digits c hc with h | h
      · subst h; exact PyRt.space_ascii '_' (by simp)
      · exact hexVal_not_space h
    have hr : rstrip F s = u ++ m := by
      rw [hs]; refine rstrip_eq hw ?_
      intro c hc
      rcases List.mem_append.1 hc with h | h
      · rcases hu with rfl | rfl
        · cases h
        · simp at h; subst h; exact PyRt.space_ascii '_' (by simp)
      · exact hm c h
    rw [hr]
    have hd := (hexDigits_iff m n).2 hn
    rcases hu with rfl | rfl
    · obtain ⟨c, d, r, rfl, hc, _⟩ := hn
      split
      · rename_i t ht
        injection ht with h _
        subst h; rw [hexVal_under] at hc; cases hc
      · exact hd
    · exact hd

namespace AnimData

/-- C57: `get_slots_with_alpha_zero` returns the names of exactly the slots whose colour is a hexadecimal number with both
last digits zero (`n % 256 = 0`; see `c57_last_two`). -/
theorem c57_transparent_exact (slots : List (Slot F)) (l : List Str) (h : alphaZero slots = .ok l) (n : Str) :
    n ∈ l ↔ ∃ s ∈ slots, s.name = n ∧ Transparent s := by
  induction slots generalizing l with
  | nil => simp only [alphaZero] at h; injection h with h; subst h; simp
  | cons s r ih =>
    rw [alphaZero] at h
    split at h
    · rename_i hc
      rw [ih l h]
      constructor
      · rintro ⟨x, hx, e⟩; exact ⟨x, List.mem_cons_of_mem _ hx, e⟩
      · rintro ⟨x, hx, e, t⟩
        rcases List.mem_cons.1 hx with rfl | hx
        · obtain ⟨c, _, hc', _⟩ := t; rw [hc] at hc'; cases hc'
        · exact ⟨x, hx, e, t⟩
    · rename_i c hc
      split at h
      · cases h
      · rename_i k hk
        split at h
        · cases h
        · rename_i l' hl'
          injection h with h
          have hk' := (hexColor_iff c k).1 hk
          have ht : Transparent s ↔ k % 256 = 0 := by
            constructor
            · rintro ⟨c', k', hc', hk'', h0⟩
              rw [hc] at hc'; injection hc' with hc'; subst hc'
              rw [← hexColor_iff, hk] at hk''; injection hk'' with hk''; subst hk''; exact h0
            · intro h0; exact ⟨c, k, hc, hk', h0⟩
          have hmem : n ∈ l ↔ (k % 256 = 0 ∧ s.name = n) ∨ n ∈ l' := by
            subst h
            split
            · rename_i h0; simp [h0, eq_comm]
            · rename_i h0; simp [h0]
          rw [hmem, ih l' hl', ← ht]
          constructor
          · rintro (⟨h1, h2⟩ | ⟨x, hx, e⟩)
            · exact ⟨s, by simp, h2, h1⟩
            · exact ⟨x, List.mem_cons_of_mem _ hx, e⟩
          · rintro ⟨x, hx, e, t⟩
            rcases List.mem_cons.1 hx with rfl | hx
            · exact .inl ⟨t, e⟩
            · exact .inr ⟨x, hx, e, t⟩

/-- C57: it raises, and then ValueError, exactly when some slot has a colour that is not a hexadecimal number. -/
theorem c57_bad_colour (slots : List (Slot F)) :
    ((∃ e, alphaZero slots = .error e) ↔ ∃ s ∈ slots, ∃ c, s.color = some c ∧ ¬ ∃ n, HexText F c n) ∧
    ∀ e, alphaZero slots = .error e → e = .value := by
  induction slots with
  | nil => simp [alphaZero]
  | cons s r ih =>
    rw [alphaZero]
    split
    · rename_i hc
      simpa [hc] using ih
    · rename_i c hc
      split
      · rename_i hk
        have hno : ¬ ∃ n, HexText F c n := by
          rintro ⟨n, hn⟩; rw [← hexColor_iff, hk] at hn; cases hn
        refine ⟨⟨fun _ => ⟨s, by simp, c, hc, hno⟩, fun _ => ⟨_, rfl⟩⟩, ?_⟩
        intro e he; injection he with he; exact he.symm
      · rename_i k hk
        have hyes : ∃ n, HexText F c n := ⟨k, (hexColor_iff c k).1 hk⟩
        split
        · rename_i e he
          have h1 := ih.1.1 ⟨e, he⟩
          obtain ⟨x, hx, hbad⟩ := h1
          refine ⟨⟨fun _ => ⟨x, by simp [hx], hbad⟩, fun _ => ⟨_, rfl⟩⟩, ?_⟩
          intro e' he'; injection he' with he'; rw [← he']; exact ih.2 e he
        · rename_i l hl
          refine ⟨⟨?_, ?_⟩, ?_⟩
          · rintro ⟨e, he⟩; cases he
          · rintro ⟨x, hx, c', hc', hbad⟩
            rcases List.mem_cons.1 hx with rfl | hx
            · rw [hc] at hc'; injection hc' with hc'; subst hc'; exact absurd hyes hbad
            · obtain ⟨e, he⟩ := ih.1.2 ⟨x, hx, c', hc', hbad⟩
              rw [hl] at he; cases he
          · intro e he; cases he

/-- C57: `n % 256 = 0` says that the last two hexadecimal digits are zeros. -/
theorem c57_last_two (m : Str) (n : Nat) (c d : Char) (x y : Nat) (hm : Numeral (hexVal F) 16 m n)
    (hc : hexVal F c = some x) (hd : hexVal F d = some y) :
    ∃ k, Numeral (hexVal F) 16 (m ++ [c, d]) k ∧ (k % 256 = 0 ↔ x = 0 ∧ y = 0) := by
  obtain ⟨c0, d0, r, rfl, h0, hn⟩ := hm
  refine ⟨(n * 16 + x) * 16 + y, ⟨c0, d0, r ++ [c, d], rfl, h0, ?_⟩, ?_⟩
  · have := (hn.append_digit hc).append_digit hd
    simpa using this
  · have := hexVal_lt hc
    have := hexVal_lt hd
    omega

/-- the usual eight digit colours -/
example : hexColor Rat s!!"ff00ff00" = some 0xff00ff00 := by decide +kernel
example : hexColor Rat s!!"FFFFFFff " = some 0xffffffff := by decide +kernel
example : hexColor Rat s!!"" = none := by decide +kernel
example : hexColor Rat s!!"ff__00" = none := by decide +kernel
example : hexColor Rat s!!" ff00" = none := by decide +kernel
example : alphaZero [(⟨s!!"a", none, none, some s!!"ffffff00", .null, .null⟩ : Slot Rat),
    ⟨s!!"b", none, none, some s!!"ffffff01", .null, .null⟩, ⟨s!!"c", none, none, none, .null, .null⟩] = .ok [s!!"a"] := by
  decide +kernel
example : HexText Rat s!!"ffffff00" 0xffffff00 := (hexColor_iff _ _).1 (by decide +kernel)

end AnimData
end Spine
