import Verif.Lemmas.SimDefaults
/-
Constructors on the heap against constructors on values: a computation that only adds objects, with the same outcome as the value
model whenever the value model has one.
-/
set_option linter.unusedSectionVars false
namespace Spine
namespace Alias
open M
variable {F : Type} [PyRt F] {B : Nat}

/-- the computation has the outcome of the value model, changes no object and leaves `P`; nothing is said of what is not modelled -/
def Step {α β : Type} (N : Nat → Prop) (h : Heap F) (m : M F β) (v : Except Err α) (P : α → β → (Nat → Prop) → Heap F → Prop) : Prop :=
  match v with
  | .ok x => ∃ y N' h', m h = (.ok y, h') ∧ Ext N h Nil N' h' ∧ P x y N' h'
  | .error .unmodelled => True
  | .error e => ∃ N' h', m h = (.error e, h') ∧ Ext N h Nil N' h'

namespace Step
variable {α β γ δ : Type} {N : Nat → Prop} {h : Heap F}

theorem ok {m : M F β} {x : α} {P : α → β → (Nat → Prop) → Heap F → Prop} {y : β} {N' : Nat → Prop} {h' : Heap F} (h1 : m h = (.ok y, h'))
    (h2 : Ext N h Nil N' h') (h3 : P x y N' h') : Step N h m (.ok x) P := ⟨y, N', h', h1, h2, h3⟩

theorem error {m : M F β} {e : Err} {P : α → β → (Nat → Prop) → Heap F → Prop} {N' : Nat → Prop} {h' : Heap F} (h1 : m h = (.error e, h'))
    (h2 : Ext N h Nil N' h') : Step N h m (.error e) P := by
  unfold Step
  cases e <;> first | trivial | exact ⟨N', h', h1, h2⟩

theorem skip {m : M F β} {P : α → β → (Nat → Prop) → Heap F → Prop} : Step N h m (.error .unmodelled) P := trivial

theorem imp {m : M F β} {v : Except Err α} {P Q : α → β → (Nat → Prop) → Heap F → Prop} (hs : Step N h m v P)
    (hi : ∀ x y N' h', v = .ok x → Ext N h Nil N' h' → P x y N' h' → Q x y N' h') : Step N h m v Q := by
  cases v with
  | ok x =>
    obtain ⟨y, N', h', h1, h2, h3⟩ := hs
    exact ⟨y, N', h', h1, h2, hi x y N' h' rfl h2 h3⟩
  | error e => cases e <;> exact hs

theorem bind {m : M F β} {v : Except Err α} {P : α → β → (Nat → Prop) → Heap F → Prop} {k : β → M F δ} {kv : α → Except Err γ}
    {Q : γ → δ → (Nat → Prop) → Heap F → Prop} (hs : Step N h m v P)
    (hk : ∀ x y N' h', v = .ok x → Ext N h Nil N' h' → P x y N' h' → Step N' h' (k y) (kv x) Q) : Step N h (m >>= k) (v >>= kv) Q := by
  cases v with
  | ok x =>
    obtain ⟨y, N', h', h1, h2, h3⟩ := hs
    have h4 := hk x y N' h' rfl h2 h3
    show Step N h (m >>= k) (kv x) Q
    have e1 : (m >>= k) h = k y h' := run_bind h1
    cases hv : kv x with
    | ok z =>
      rw [hv] at h4
      obtain ⟨w, N2, h2', g1, g2, g3⟩ := h4
      exact ⟨w, N2, h2', by rw [e1, g1], h2.trans g2 (fun a ha _ => ha.elim), g3⟩
    | error e =>
      rw [hv] at h4
      by_cases he : e = .unmodelled
      · subst he; trivial
      · have : ∃ N2 h2', k y h' = (.error e, h2') ∧ Ext N' h' Nil N2 h2' := by
          cases e <;> first | exact absurd rfl he | exact h4
        obtain ⟨N2, h2', g1, g2⟩ := this
        exact error (by rw [e1, g1]) (h2.trans g2 (fun a ha _ => ha.elim))
  | error e =>
    show Step N h (m >>= k) (.error e) Q
    by_cases he : e = .unmodelled
    · subst he; trivial
    · have : ∃ N2 h2', m h = (.error e, h2') ∧ Ext N h Nil N2 h2' := by
        cases e <;> first | exact absurd rfl he | exact hs
      obtain ⟨N2, h2', g1, g2⟩ := this
      exact error (run_fail g1) g2

/-- a step that the value model does not need -/
theorem last {m : M F β} {v : Except Err α} {P : α → β → (Nat → Prop) → Heap F → Prop} {k : β → M F δ}
    {Q : α → δ → (Nat → Prop) → Heap F → Prop} (hs : Step N h m v P)
    (hk : ∀ x y N' h', v = .ok x → Ext N h Nil N' h' → P x y N' h' → Step N' h' (k y) (.ok x) Q) : Step N h (m >>= k) v Q := by
  have := bind (kv := fun x => .ok x) hs hk
  cases v <;> exact this

/-- the same outcome, nothing changed -/
theorem lift {v : Except Err α} (hz : Zone N h) : Step N h (M.lift v) v (fun x y _ _ => x = y) := by
  cases v with
  | ok x => exact ok rfl (.refl hz _) rfl
  | error e => exact error rfl (.refl hz _)

theorem of_ok {m : M F β} {x : α} {P : α → β → (Nat → Prop) → Heap F → Prop} (hs : Step N h m (.ok x) P) :
    ∃ y N' h', m h = (.ok y, h') ∧ Ext N h Nil N' h' ∧ P x y N' h' := hs

theorem of_error {m : M F β} {e : Err} {P : α → β → (Nat → Prop) → Heap F → Prop} (hs : Step (α := α) N h m (.error e) P) (he : e ≠ .unmodelled) :
    ∃ N' h', m h = (.error e, h') ∧ Ext N h Nil N' h' := by
  cases e <;> first | exact absurd rfl he | exact hs

end Step

/-! ### JSON values in the zone -/

/-- a JSON value in the zone -/
def JOk (B : Nat) (N : Nat → Prop) (h : Heap F) (r : Ref F) (j : JVal F) : Prop := In N r ∧ readJ h B r = some j

/-- a dictionary of JSON values in the zone -/
def FOk (B : Nat) (N : Nat → Prop) (h : Heap F) (d : Dict (Ref F)) (e : Dict (JVal F)) : Prop :=
  All₂ (fun p q => p.1 = q.1 ∧ JOk B N h p.2 q.2) d e

theorem JOk.ext {N N' : Nat → Prop} {h h' : Heap F} {S : Nat → Prop} {r : Ref F} {j : JVal F} (hz : Zone N h) (e : Ext N h S N' h')
    (hr : JOk B N h r j) : JOk B N' h' r j := ⟨hr.1.mono e.sub, by rw [e.readJ hz hr.1]; exact hr.2⟩

theorem FOk.ext {N N' : Nat → Prop} {h h' : Heap F} {S : Nat → Prop} {d : Dict (Ref F)} {j : Dict (JVal F)} (hz : Zone N h) (e : Ext N h S N' h')
    (hr : FOk B N h d j) : FOk B N' h' d j := hr.imp (fun _ _ _ _ hp => ⟨hp.1, hp.2.ext hz e⟩)

theorem in_refs {N : Nat → Prop} {h : Heap F} (hz : Zone N h) {a : Nat} {o : Obj F} (ha : N a) (ho : h[a]? = some o) : ∀ s ∈ o.refs, In N s :=
  hz.closed a o ha ho

theorem all₂_mem {α β : Type} {R : α → β → Prop} {l : List α} {m : List β} (h : All₂ R l m) {Q : α → Prop} (hq : ∀ x ∈ l, Q x) :
    All₂ (fun x y => Q x ∧ R x y) l m := h.imp (fun x _ hx _ hr => ⟨hq x hx, hr⟩)

/-- the content of a dictionary -/
theorem JOk.dict {N : Nat → Prop} {h : Heap F} {r : Ref F} {e : Dict (JVal F)} (hz : Zone N h) (hr : JOk B N h r (.dict e)) :
    ∃ a d, r = .ptr a ∧ N a ∧ h[a]? = some (.dict d) ∧ FOk B N h d e := by
  cases readJ_iff.mp hr.2 with
  | dict a d _ ho h2 =>
    have ha := in_ptr.mp hr.1
    refine ⟨a, d, rfl, ha, ho, ?_⟩
    refine h2.imp (fun x y hx _ hp => ⟨hp.1, ?_, readJ_of_below hp.2⟩)
    exact hz.closed a _ ha ho _ (List.mem_map_of_mem hx)

/-- the content of a dictionary that may be one level deeper -/
theorem JOk.dictA {A : Nat} {N : Nat → Prop} {h : Heap F} {r : Ref F} {e : Dict (JVal F)} (hA : A ≤ B + 1) (hz : Zone N h) (hr : JOk A N h r (.dict e)) :
    ∃ a d, r = .ptr a ∧ N a ∧ h[a]? = some (.dict d) ∧ FOk B N h d e := by
  cases readJ_iff.mp (readJ_le hr.2 hA) with
  | dict a d _ ho h2 =>
    have ha := in_ptr.mp hr.1
    refine ⟨a, d, rfl, ha, ho, ?_⟩
    refine h2.imp (fun x y hx _ hp => ⟨hp.1, ?_, hp.2⟩)
    exact hz.closed a _ ha ho _ (List.mem_map_of_mem hx)

/-- the content of a list -/
theorem JOk.list {N : Nat → Prop} {h : Heap F} {r : Ref F} {l : List (JVal F)} (hz : Zone N h) (hr : JOk B N h r (.list l)) :
    ∃ a d, r = .ptr a ∧ N a ∧ h[a]? = some (.list d) ∧ All₂ (JOk B N h) d l := by
  cases readJ_iff.mp hr.2 with
  | list a d _ ho h2 =>
    have ha := in_ptr.mp hr.1
    refine ⟨a, d, rfl, ha, ho, ?_⟩
    refine h2.imp (fun x y hx _ hp => ⟨?_, readJ_of_below hp⟩)
    exact hz.closed a _ ha ho _ hx

theorem JOk.str {N : Nat → Prop} {h : Heap F} (s : Str) : JOk B N h (.str s) (.str s) :=
  ⟨(fun _ ha => nomatch ha), readJ_iff.mpr (.str s)⟩
theorem JOk.int {N : Nat → Prop} {h : Heap F} (s : Int) : JOk B N h (.int s) (.int s) :=
  ⟨(fun _ ha => nomatch ha), readJ_iff.mpr (.int s)⟩
theorem JOk.null {N : Nat → Prop} {h : Heap F} : JOk B N h .null .null :=
  ⟨(fun _ ha => nomatch ha), readJ_iff.mpr .null⟩

theorem FOk.keys {N : Nat → Prop} {h : Heap F} {d : Dict (Ref F)} {e : Dict (JVal F)} (hr : FOk B N h d e) : d.map (·.1) = e.map (·.1) := by
  induction hr with
  | nil => rfl
  | cons h1 _ ih => simp [h1.1, ih]

theorem FOk.get {N : Nat → Prop} {h : Heap F} {d : Dict (Ref F)} {e : Dict (JVal F)} (hr : FOk B N h d e) (k : Str) :
    (Dict.get? d k = none ∧ Dict.get? e k = none) ∨ ∃ r j, Dict.get? d k = some r ∧ Dict.get? e k = some j ∧ JOk B N h r j := by
  induction hr with
  | nil => exact .inl ⟨rfl, rfl⟩
  | @cons p q _ _ h1 _ ih =>
    obtain ⟨k', r⟩ := p
    obtain ⟨k'', j⟩ := q
    obtain ⟨e1, h2⟩ := h1
    simp only at e1 h2
    subst e1
    unfold Dict.get?
    by_cases hk : k' = k
    · simp only [hk, if_true]; exact .inr ⟨r, j, rfl, rfl, h2⟩
    · simp only [hk, if_false]; exact ih

theorem FOk.getD {N : Nat → Prop} {h : Heap F} {d : Dict (Ref F)} {e : Dict (JVal F)} (hr : FOk B N h d e) (k : Str) {r : Ref F} {j : JVal F}
    (h0 : JOk B N h r j) : JOk B N h ((Dict.get? d k).getD r) ((Dict.get? e k).getD j) := by
  rcases hr.get k with ⟨h1, h2⟩ | ⟨r', j', h1, h2, h3⟩
  · rw [h1, h2]; exact h0
  · rw [h1, h2]; exact h3

/-! ### Reading -/

theorem iter_step {N : Nat → Prop} {h : Heap F} {r : Ref F} {j : JVal F} (hz : Zone N h) (hr : JOk B N h r j) :
    Step N h (iter r) (Spine.iter j) (fun x y N' h' => All₂ (JOk B N' h') y x) := by
  have hr0 := hr
  cases readJ_iff.mp hr.2 with
  | null => exact .error rfl (.refl hz _)
  | bool b => exact .error rfl (.refl hz _)
  | int b => exact .error rfl (.refl hz _)
  | flt b => exact .error rfl (.refl hz _)
  | str s =>
    refine .ok rfl (.refl hz _) ?_
    induction s with
    | nil => exact .nil
    | cons c s ih => exact .cons (JOk.str _) (ih (JOk.str s) (JOk.str s))
  | list a l js ho h2 =>
    obtain ⟨a', d, e1, h3, h4, h5⟩ := JOk.list hz hr0
    cases e1
    refine .ok (y := d) ?_ (.refl hz _) h5
    unfold iter
    simp only [run_bind (run_deref h4)]
    rfl
  | dict a l js ho h2 =>
    obtain ⟨a', d, e1, h3, h4, h5⟩ := JOk.dict hz hr0
    cases e1
    refine .ok (y := d.map (fun p => .str p.1)) ?_ (.refl hz _) ?_
    · unfold iter
      simp only [run_bind (run_deref h4)]
      rfl
    · clear hr hr0 h4 h2
      induction h5 with
      | nil => exact .nil
      | cons h1 _ ih => exact .cons (by simp only [h1.1]; exact JOk.str _) ih

theorem dictItems_step {N : Nat → Prop} {h : Heap F} {r : Ref F} {j : JVal F} (hz : Zone N h) (hr : JOk B N h r j) :
    Step N h (dictItems r) (Spine.dictItems j) (fun x y N' h' => FOk B N' h' y x) := by
  have hr0 := hr
  cases readJ_iff.mp hr.2 with
  | null => exact .error rfl (.refl hz _)
  | bool b => exact .error rfl (.refl hz _)
  | int b => exact .error rfl (.refl hz _)
  | flt b => exact .error rfl (.refl hz _)
  | str s =>
    cases s with
    | nil => exact .ok (y := []) rfl (.refl hz _) .nil
    | cons c s => exact .error rfl (.refl hz _)
  | list a l js ho h2 =>
    cases h2 with
    | nil =>
      refine .ok (y := []) ?_ (.refl hz _) .nil
      unfold dictItems
      simp only [run_bind (run_deref ho)]
      rfl
    | cons h3 h4 => exact .skip
  | dict a l js ho h2 =>
    obtain ⟨a', d, e1, h3, h4, h5⟩ := JOk.dict hz hr0
    cases e1
    refine .ok (y := d) ?_ (.refl hz _) h5
    unfold dictItems
    simp only [run_bind (run_deref h4)]
    rfl

theorem itemsOf_stepA {A : Nat} {N : Nat → Prop} {h : Heap F} {r : Ref F} {j : JVal F} (hA : A ≤ B + 1) (hz : Zone N h) (hr : JOk A N h r j) :
    Step N h (itemsOf r) (Spine.itemsOf j) (fun x y N' h' => FOk B N' h' y x) := by
  have hr0 := hr
  cases readJ_iff.mp hr.2 with
  | null => exact .error rfl (.refl hz _)
  | bool b => exact .error rfl (.refl hz _)
  | int b => exact .error rfl (.refl hz _)
  | flt b => exact .error rfl (.refl hz _)
  | str s => exact .error rfl (.refl hz _)
  | list a l js ho h2 =>
    refine .error (h' := h) ?_ (.refl hz _)
    unfold itemsOf
    simp only [run_bind (run_deref ho)]
    rfl
  | dict a l js ho h2 =>
    obtain ⟨a', d, e1, h3, h4, h5⟩ := JOk.dictA hA hz hr0
    cases e1
    refine .ok (y := d) ?_ (.refl hz _) h5
    unfold itemsOf
    simp only [run_bind (run_deref h4)]
    rfl

theorem itemsOf_step {N : Nat → Prop} {h : Heap F} {r : Ref F} {j : JVal F} (hz : Zone N h) (hr : JOk B N h r j) :
    Step N h (itemsOf r) (Spine.itemsOf j) (fun x y N' h' => FOk B N' h' y x) := itemsOf_stepA (Nat.le_succ _) hz hr

theorem truthy_run {N : Nat → Prop} {h : Heap F} {r : Ref F} {j : JVal F} (hr : JOk B N h r j) :
    truthy r h = (.ok (JVal.truthy j), h) := by
  cases readJ_iff.mp hr.2 with
  | null => rfl
  | bool b => rfl
  | int b => rfl
  | flt b => rfl
  | str s => rfl
  | list a l js ho h2 =>
    unfold truthy
    simp only [run_bind (run_look ho)]
    cases h2 <;> rfl
  | dict a l js ho h2 =>
    unfold truthy
    simp only [run_bind (run_look ho)]
    cases h2 <;> rfl

theorem orDict_stepA {A : Nat} {N : Nat → Prop} {h : Heap F} {r : Ref F} {j : JVal F} (hA : A ≤ B + 1) (hz : Zone N h) (hr : JOk A N h r j) :
    Step N h (orDict r) (Spine.orDict j) (fun x y N' h' => FOk B N' h' y x) := by
  have hr0 := hr
  have ht := truthy_run hr
  unfold Spine.orDict
  by_cases hb : JVal.truthy j = true
  · rw [hb] at ht
    rw [if_pos hb]
    have e0 : ∀ o, deref r h = (.ok o, h) → orDict r h = (match o with
        | some (.dict d) => (.ok d, h)
        | _ => (.error .attribute, h)) := by
      intro o ho
      unfold orDict
      rw [run_bind ht, if_pos rfl, run_bind ho]
      rcases o with _ | o
      · rfl
      · cases o <;> rfl
    cases readJ_iff.mp hr.2 with
    | null => exact .error (e0 none rfl) (.refl hz _)
    | bool b => exact .error (e0 none rfl) (.refl hz _)
    | int b => exact .error (e0 none rfl) (.refl hz _)
    | flt b => exact .error (e0 none rfl) (.refl hz _)
    | str s => exact .error (e0 none rfl) (.refl hz _)
    | list a l js ho h2 => exact .error (e0 _ (run_deref ho)) (.refl hz _)
    | dict a l js ho h2 =>
      obtain ⟨a', d, e1, h3, h4, h5⟩ := JOk.dictA hA hz hr0
      cases e1
      exact .ok (y := d) (e0 _ (run_deref h4)) (.refl hz _) h5
  · have hb' : JVal.truthy j = false := by simpa using hb
    rw [hb'] at ht
    rw [if_neg hb]
    refine .ok (y := []) ?_ (.refl hz _) .nil
    unfold orDict
    rw [run_bind ht]
    rfl

theorem orDict_step {N : Nat → Prop} {h : Heap F} {r : Ref F} {j : JVal F} (hz : Zone N h) (hr : JOk B N h r j) :
    Step N h (orDict r) (Spine.orDict j) (fun x y N' h' => FOk B N' h' y x) := orDict_stepA (Nat.le_succ _) hz hr

theorem values_stepA {A : Nat} {N : Nat → Prop} {h : Heap F} {r : Ref F} {j : JVal F} (c : Cls F) (hA : A ≤ B + 1) (hz : Zone N h) (hr : JOk A N h r j) :
    Step N h (values c r) (c.values j) (fun x y N' h' => FOk B N' h' y x) := by
  unfold values Cls.values
  cases c.orStyle with
  | true => exact orDict_stepA hA hz hr
  | false =>
    simp only [Bool.false_eq_true, if_false]
    have h1 := itemsOf_stepA (B := B) hA hz hr
    cases readJ_iff.mp hr.2 with
    | null => exact .ok (y := []) rfl (.refl hz _) .nil
    | bool b => exact h1
    | int b => exact h1
    | flt b => exact h1
    | str s => exact h1
    | list a l js ho h2 => exact h1
    | dict a l js ho h2 => exact h1

theorem values_step {N : Nat → Prop} {h : Heap F} {r : Ref F} {j : JVal F} (c : Cls F) (hz : Zone N h) (hr : JOk B N h r j) :
    Step N h (values c r) (c.values j) (fun x y N' h' => FOk B N' h' y x) := values_stepA c (Nat.le_succ _) hz hr

theorem check_keys {G : Type} {known req : List Str} {d : Dict (JVal F)} {e : Dict (JVal G)} (h : d.map (·.1) = e.map (·.1)) :
    Cls.check known req d = Cls.check known req e := by
  have : Dict.keys d = Dict.keys e := h
  unfold Cls.check
  rw [this]

theorem check_step {N : Nat → Prop} {h : Heap F} {d : Dict (Ref F)} {e : Dict (JVal F)} (known req : List Str) (hz : Zone N h)
    (hr : FOk B N h d e) : Step N h (check known req d) (Cls.check known req e) (fun _ _ _ _ => True) := by
  have : Cls.check (F := F) known req (dmap (fun _ => .null) d) = Cls.check known req e := by
    refine check_keys ?_
    rw [← hr.keys]
    simp [dmap, Function.comp_def]
  unfold check
  rw [this]
  exact (Step.lift hz).imp (fun _ _ _ _ _ _ _ => trivial)

end Alias
end Spine
