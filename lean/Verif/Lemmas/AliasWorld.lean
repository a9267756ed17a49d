import Verif.Lemmas.AliasReach
/-
One call of an editor, and the steps of a program.
-/
set_option linter.unusedSectionVars false
namespace Spine
namespace Alias
open M
variable {F : Type} [PyRt F]

/-! ### No call of the model fails outside of its outcome -/

/-- the computation never raises -/
structure Always {α : Type} (m : M F α) : Prop where
  ok : ∀ h, ∃ x h', m h = (.ok x, h')

theorem Always.pure {α : Type} {x : α} : Always (F := F) (Pure.pure x) := ⟨fun h => ⟨x, h, rfl⟩⟩
theorem Always.attempt {α : Type} {m : M F α} : Always (M.attempt m) := ⟨fun h => ⟨(m h).1, (m h).2, rfl⟩⟩
theorem Always.bind {α β : Type} {m : M F α} {f : α → M F β} (hm : Always m) (hf : ∀ x, Always (f x)) : Always (m >>= f) := by
  constructor
  intro h
  obtain ⟨x, h1, h2⟩ := hm.ok h
  rw [bind_eq, h2]
  exact (hf x).ok h1

syntax "always" : tactic
macro_rules | `(tactic| always) => `(tactic|
  repeat' (first
    | (with_reducible exact Always.pure)
    | (with_reducible exact Always.attempt)
    | (with_reducible assumption)
    | (with_reducible refine Always.bind ?_ (fun _ => ?_))
    | split))

theorem always_clean {E : Env F} {e : Ed F} : Always (clean E e) := by unfold clean; always
theorem always_cleanUnless {E : Env F} {s : Bool} {e : Ed F} : Always (cleanUnless E s e) := by
  have := @always_clean F _ E e
  unfold cleanUnless
  always
theorem always_eraseSkins {E : Env F} {l : List Str} {s : Bool} {e : Ed F} : Always (eraseSkins E l s e) := by
  have := fun e => @always_cleanUnless F _ E s e
  unfold eraseSkins
  always
  apply this
theorem always_eraseAnims {E : Env F} {a : Editor.NamesArg} {t s : Bool} {e : Ed F} : Always (eraseAnims E a t s e) := by
  have := fun e => @always_cleanUnless F _ E s e
  unfold eraseAnims
  always
  apply this

/-- every call has an outcome -/
theorem always_run {E : Env F} {c : Call F} {e : Ed F} : Always (c.run E e) := by
  have h1 := fun l s => @always_eraseSkins F _ E l s e
  have h2 := fun a t s => @always_eraseAnims F _ E a t s e
  have h3 := @always_clean F _ E e
  cases c <;> simp only [Call.run] <;> always
  · apply h1
  · apply h2

/-! ### One call -/

/-- every object the editor can reach exists -/
def Ed.Sound (h : Heap F) (e : Ed F) : Prop := ∀ a, e.Reach h a → a < h.length

theorem plus_lt {Q : Nat → Prop} {h h' : Heap F} (hq : ∀ a, Q a → a < h.length) (hl : h.length ≤ h'.length) {a : Nat}
    (ha : Plus Q h h' a) : a < h'.length := by
  rcases ha with ha | ha
  · exact Nat.lt_of_lt_of_le (hq a ha) hl
  · exact ha.2

/-- a computation that keeps the editor's objects together -/
theorem ed_plus {α : Type} [Ins α] {m : M F α} {e e' : Ed F} {h h' : Heap F} {x : α} (hm : ∀ R, ins R e → Safe R m) (hmm : Mono m)
    (hs : e.Sound h) (hr : m h = (.ok x, h')) (hx : ∀ R, ins R x → ins R e → ins R e') :
    (∀ a, ¬ Plus (e.Reach h) h h' a → h'[a]? = h[a]?) ∧ (∀ a, e'.Reach h' a → Plus (e.Reach h) h h' a) ∧ e'.Sound h' := by
  have h1 := Safe.plus (Q := e.Reach h) (h := h) (m := m)
    (fun R hR => hm R ⟨ins_mono hR ins_ed_reach.1, ins_mono hR ins_ed_reach.2.1, ins_mono hR ins_ed_reach.2.2.1,
      fun p hp => ins_mono hR (ins_ed_reach.2.2.2 p hp)⟩) closed_ed_reach
  rw [hr] at h1
  have hl := hmm.le h
  rw [hr] at hl
  have h2 : ∀ a, e'.Reach h' a → Plus (e.Reach h) h h' a := by
    intro a ha
    refine ed_reach_closed h1.2.1 (hx _ (h1.2.2 x rfl) ?_) ha
    have hR : ∀ a, e.Reach h a → Plus (e.Reach h) h h' a := fun _ ha => .inl ha
    exact ⟨ins_mono hR ins_ed_reach.1, ins_mono hR ins_ed_reach.2.1, ins_mono hR ins_ed_reach.2.2.1,
      fun p hp => ins_mono hR (ins_ed_reach.2.2.2 p hp)⟩
  exact ⟨h1.1, h2, fun a ha => plus_lt hs hl (h2 a ha)⟩

/-- the document returned consists of new objects; nothing else changes -/
theorem toJson_new {E : Env F} {e : Ed F} {h h' : Heap F} {j : Ref F} (hs : e.Sound h) (hr : e.toJson E h = (.ok j, h')) :
    (∀ a, a < h.length → h'[a]? = h[a]?) ∧ (∀ a, Reach h' j a → h.length ≤ a ∧ a < h'.length) ∧
      (∀ a, e.Reach h' a ↔ e.Reach h a) := by
  have h1 := Safe.plus (Q := fun _ => False) (h := h) (m := e.toJson E) (fun R _ => safe_toJson) (fun _ _ hf => hf.elim)
  rw [hr] at h1
  have h2 : ∀ a, a < h.length → h'[a]? = h[a]? := by
    intro a ha
    refine h1.1 a ?_
    rintro (h3 | h3)
    · exact h3
    · exact absurd h3.1 (Nat.not_le.mpr ha)
  refine ⟨h2, ?_, ed_reach_same (fun b hb => h2 b (hs b hb))⟩
  intro a ha
  rcases reach_closed h1.2.1 ha (h1.2.2 j rfl) with h3 | h3
  · exact h3.elim
  · exact h3

theorem eraseAnims_inv {E : Env F} {arg : Editor.NamesArg} {t s : Bool} {e e' : Ed F} {h h' : Heap F} {j : Ref F}
    {r : List Str × List Str} (hs : e.Sound h) (hr : eraseAnims E arg t s e h = (.ok (.ok (j, r), e'), h')) :
    ∃ h1, h.length ≤ h1.length ∧ e'.Sound h1 ∧ e'.toJson E h1 = (.ok j, h') := by
  unfold eraseAnims at hr
  split at hr
  · cases hr
  · rename_i names
    generalize hA : (do
        let l ← eraseRaw e.data names
        if l ≠ [] ∧ t = true then raise .value else return () : M F Unit) = A at hr
    have hAm : Mono A := by subst hA; mono
    have hAs : ∀ R, ins R e → Safe R A := by
      intro R he
      subst hA
      have := he.2.1
      safe
    have h0 := ed_plus (m := attempt A) (x := (A h).1) (e' := e) (h' := (A h).2) (fun R he => Safe.attempt (hAs R he))
      (Mono.attempt hAm) hs rfl (fun _ _ he => he)
    have hl0 := hAm.le h
    rw [bind_eq] at hr
    simp only [M.attempt] at hr
    generalize hA1 : (A h).1 = q0 at hr
    cases q0 with
    | error x => cases hr
    | ok x =>
      simp only [bind_eq] at hr
      obtain ⟨q, h1, hq⟩ := (@always_cleanUnless F _ E s e).ok (A h).2
      rw [hq] at hr
      simp only at hr
      have hl1 := (mono_cleanUnless E s e).le (A h).2
      rw [hq] at hl1
      obtain ⟨q1, e1⟩ := q
      have h2 := ed_plus (e' := e1) (fun R he => safe_cleanUnless he) (mono_cleanUnless E s e) h0.2.2 hq (fun _ hx _ => hx.2)
      cases q1 with
      | error x => cases hr
      | ok q1 =>
        simp only [bind_eq, M.attempt] at hr
        generalize hT : e1.toJson E h1 = T at hr
        obtain ⟨T1, T2⟩ := T
        cases T1 with
        | error x => cases hr
        | ok j1 =>
          simp only [Pure.pure, Prod.mk.injEq, Except.ok.injEq] at hr
          obtain ⟨⟨⟨rfl, rfl⟩, rfl⟩, rfl⟩ := hr
          exact ⟨h1, Nat.le_trans hl0 hl1, h2.2.2, hT⟩

/-- what a call does to the heap -/
theorem run_spec {E : Env F} {c : Call F} {e e' : Ed F} {h h' : Heap F} {x : Except Err (Option (Ref F))} (hs : e.Sound h)
    (hr : c.run E e h = (.ok (x, e'), h')) :
    h.length ≤ h'.length ∧ (∀ a, ¬ e.Reach h a → a < h.length → h'[a]? = h[a]?) ∧
      (∀ a, e'.Reach h' a → e.Reach h a ∨ (h.length ≤ a ∧ a < h'.length)) ∧ e'.Sound h' ∧
      ∀ j, x = .ok (some j) → ∀ a, Reach h' j a → h.length ≤ a ∧ a < h'.length ∧ ¬ e'.Reach h' a := by
  have h1 := ed_plus (fun R he => safe_run he) (mono_run E c e) hs hr (fun _ hx _ => hx.2)
  have hl := (mono_run E c e).le h
  rw [hr] at hl
  refine ⟨hl, ?_, h1.2.1, h1.2.2, ?_⟩
  · intro a ha hb
    refine h1.1 a ?_
    rintro (h2 | h2)
    · exact ha h2
    · exact absurd h2.1 (Nat.not_le.mpr hb)
  · intro j hj
    subst hj
    have key : ∃ h1, h.length ≤ h1.length ∧ e'.Sound h1 ∧ e'.toJson E h1 = (.ok j, h') := by
      cases c with
      | eraseSkins n s =>
        simp only [Call.run, bind_eq] at hr
        split at hr
        · simp only [Pure.pure, Prod.mk.injEq, Except.ok.injEq] at hr
          obtain ⟨⟨hr, _⟩, _⟩ := hr
          rename_i q _ _ _ _
          cases hq : q.1 with
          | error z => rw [hq] at hr; cases hr
          | ok z => rw [hq] at hr; cases hr
        · cases hr
      | eraseAnims a t s =>
        simp only [Call.run, bind_eq] at hr
        split at hr
        · rename_i q h2 hq
          simp only [Pure.pure, Prod.mk.injEq, Except.ok.injEq] at hr
          obtain ⟨⟨hr, rfl⟩, rfl⟩ := hr
          obtain ⟨q1, q2⟩ := q
          cases q1 with
          | error z => cases hr
          | ok z =>
            obtain ⟨z1, z2⟩ := z
            simp only [Except.map, Except.ok.injEq, Option.some.injEq] at hr
            subst hr
            exact eraseAnims_inv hs hq
        · cases hr
      | clean =>
        simp only [Call.run, bind_eq] at hr
        split at hr
        · simp only [Pure.pure, Prod.mk.injEq, Except.ok.injEq] at hr
          obtain ⟨⟨hr, _⟩, _⟩ := hr
          rename_i q _ _ _ _
          cases hq : q.1 with
          | error z => rw [hq] at hr; cases hr
          | ok z => rw [hq] at hr; cases hr
        · cases hr
      | scale x y =>
        simp only [Call.run, bind_eq, M.attempt] at hr
        simp only [Pure.pure, Prod.mk.injEq, Except.ok.injEq] at hr
        obtain ⟨⟨hr, _⟩, _⟩ := hr
        cases hq : (scale x y e.data h).1 with
        | error z => rw [hq] at hr; cases hr
        | ok z => rw [hq] at hr; cases hr
      | toJson =>
        simp only [Call.run, bind_eq, M.attempt] at hr
        simp only [Pure.pure, Prod.mk.injEq, Except.ok.injEq] at hr
        obtain ⟨⟨hr, rfl⟩, rfl⟩ := hr
        refine ⟨h, Nat.le_refl _, hs, ?_⟩
        generalize hq : e.toJson E h = q at hr
        obtain ⟨q1, q2⟩ := q
        cases q1 with
        | error z => cases hr
        | ok z => cases hr; rfl
    obtain ⟨h2, h3, h4, h5⟩ := key
    have h6 := toJson_new h4 h5
    intro a ha
    have h7 := h6.2.1 a ha
    exact ⟨Nat.le_trans h3 h7.1, h7.2, fun hb => absurd (h4 a ((h6.2.2 a).mp hb)) (Nat.not_lt.mpr h7.1)⟩

/-- what the constructor does to the heap -/
theorem init_spec {E : Env F} {doc : Ref F} {h h' : Heap F} {x : Except Err (Ed F)} (hr : init E doc h = (x, h')) :
    h.length ≤ h'.length ∧ (∀ a, a < h.length → h'[a]? = h[a]?) ∧
      ∀ e, x = .ok e → ∀ a, e.Reach h' a → h.length ≤ a ∧ a < h'.length := by
  have h1 := Safe.plus (Q := fun _ => False) (h := h) (m := init E doc) (fun R _ => safe_init E doc) (fun _ _ hf => hf.elim)
  have hl := (mono_init E doc).le h
  rw [hr] at h1 hl
  refine ⟨hl, ?_, ?_⟩
  · intro a ha
    refine h1.1 a ?_
    rintro (h3 | h3)
    · exact h3
    · exact absurd h3.1 (Nat.not_le.mpr ha)
  · intro e he a ha
    rcases ed_reach_closed h1.2.1 (h1.2.2 e he) ha with h3 | h3
    · exact h3.elim
    · exact h3

end Alias
end Spine
