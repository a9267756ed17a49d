import Verif.Lemmas.AliasWorld
/-
C79: documents and editors are kept apart.
-/
set_option linter.unusedSectionVars false
namespace Spine
namespace Alias
variable {F : Type} [PyRt F]

/-! ### C79, one operation -/

/-- The constructor changes no object that exists, not even when it raises, and the editor consists of new objects only. -/
theorem c79_constructor {E : Env F} {doc : Ref F} {h h' : Heap F} {x : Except Err (Ed F)} (hr : init E doc h = (x, h')) :
    (∀ a, a < h.length → h'[a]? = h[a]?) ∧ ∀ e, x = .ok e → ∀ a, e.Reach h' a → h.length ≤ a ∧ a < h'.length :=
  (init_spec hr).2

/-- Every call has an outcome, a value or an exception, and leaves an editor behind. -/
theorem c79_outcome (E : Env F) (c : Call F) (e : Ed F) (h : Heap F) : ∃ x e' h', c.run E e h = (.ok (x, e'), h') := by
  obtain ⟨⟨x, e'⟩, h', hr⟩ := (@always_run F _ E c e).ok h
  exact ⟨x, e', h', hr⟩

/-- A call changes only objects of the editor.  Afterwards the editor consists of objects it had before and of new ones.  A
document returned consists of new objects, none of which belongs to the editor. -/
theorem c79_call {E : Env F} {c : Call F} {e e' : Ed F} {h h' : Heap F} {x : Except Err (Option (Ref F))}
    (hs : ∀ a, e.Reach h a → a < h.length) (hr : c.run E e h = (.ok (x, e'), h')) :
    (∀ a, ¬ e.Reach h a → a < h.length → h'[a]? = h[a]?) ∧
      (∀ a, e'.Reach h' a → e.Reach h a ∨ (h.length ≤ a ∧ a < h'.length)) ∧
      ∀ j, x = .ok (some j) → ∀ a, Reach h' j a → h.length ≤ a ∧ a < h'.length ∧ ¬ e'.Reach h' a :=
  have h1 := run_spec hs hr
  ⟨h1.2.1, h1.2.2.1, h1.2.2.2.2⟩

/-! ### C79, programs -/

namespace World

/-- the objects the program can get at are unchanged, so it can get at the same ones -/
theorem owns_same {w : World F} {h : Heap F} {eds : List (Ed F)} (hf : ∀ a, w.Owns a → h[a]? = w.heap[a]?) (a : Nat) :
    Owns { w with heap := h, eds := eds } a ↔ w.Owns a := by
  have : ∀ r ∈ w.roots, (Reach h r a ↔ Reach w.heap r a) :=
    fun r hr => reach_same (fun b hb => hf b ⟨r, hr, hb⟩) a
  exact ⟨fun ⟨r, hr, h1⟩ => ⟨r, hr, (this r hr).mp h1⟩, fun ⟨r, hr, h1⟩ => ⟨r, hr, (this r hr).mpr h1⟩⟩

theorem closed_owns (w : World F) : Closed w.Owns w.heap :=
  fun _ _ ⟨r, hr, h1⟩ ho _ hs b hb => ⟨r, hr, reach_trans h1 ho hs (hb ▸ .here b)⟩

theorem ins_holds {w : World F} {r : Ref F} : ins w.Owns r ↔ w.Holds r := Iff.rfl

/-- what the program does by itself leaves the objects of the editors alone, and it gets hold of none of them -/
theorem own_spec {w w' : World F} (hs : Own w w') :
    w'.eds = w.eds ∧ w.heap.length ≤ w'.heap.length ∧ (∀ a, a < w.heap.length → ¬ w.Owns a → w'.heap[a]? = w.heap[a]?) ∧
      ∀ a, w'.Owns a → w.Owns a ∨ (w.heap.length ≤ a ∧ a < w'.heap.length) := by
  cases hs with
  | build o ho =>
    refine ⟨rfl, by simp, fun a ha _ => List.getElem?_append_left ha, ?_⟩
    rintro a ⟨r, hr, h1⟩
    have hc : Closed (fun a => w.Owns a ∨ (w.heap.length ≤ a ∧ a < (w.heap ++ [o]).length)) (w.heap ++ [o]) := by
      intro a x ha hx s hs b hb
      rcases Nat.lt_trichotomy a w.heap.length with h2 | h2 | h2
      · rw [List.getElem?_append_left h2] at hx
        rcases ha with ha | ha
        · exact .inl (closed_owns w a x ha hx s hs b hb)
        · exact absurd ha.1 (Nat.not_le.mpr h2)
      · subst h2
        simp at hx
        subst hx
        exact .inl (ho s hs b hb)
      · rw [List.getElem?_eq_none (by simp; omega)] at hx
        cases hx
    refine reach_closed hc h1 ?_
    rcases List.mem_cons.mp hr with rfl | hr
    · exact ins_ptr.mpr (.inr ⟨Nat.le_refl _, by simp⟩)
    · exact fun b hb => .inl ⟨r, hr, hb ▸ .here b⟩
  | change a o ha ho =>
    refine ⟨rfl, by simp, ?_, ?_⟩
    · intro b _ hb
      refine List.getElem?_set_ne ?_
      intro h
      exact hb (h ▸ ha)
    · rintro b ⟨r, hr, h1⟩
      have hc : Closed w.Owns (w.heap.set a o) := by
        intro b x hb hx
        by_cases h2 : a = b
        · subst h2
          by_cases h3 : a < w.heap.length
          · rw [List.getElem?_set_self h3] at hx
            cases hx
            exact ho
          · rw [List.getElem?_eq_none (by simp; omega)] at hx
            cases hx
        · rw [List.getElem?_set_ne h2] at hx
          exact closed_owns w b x hb hx
      exact .inl (reach_closed hc h1 (fun c hc => ⟨r, hr, hc ▸ .here c⟩))
  | keep r hr =>
    refine ⟨rfl, Nat.le_refl _, fun _ _ _ => rfl, ?_⟩
    rintro a ⟨s, hs, h1⟩
    rcases List.mem_cons.mp hs with rfl | hs
    · exact .inl (reach_closed (closed_owns w) h1 hr)
    · exact .inl ⟨s, hs, h1⟩
  | forget l hl =>
    refine ⟨rfl, Nat.le_refl _, fun _ _ _ => rfl, ?_⟩
    rintro a ⟨s, hs, h1⟩
    exact .inl ⟨s, hl s hs, h1⟩

theorem open_spec {E : Env F} {w w' : World F} (hs : Open E w w') :
    w'.roots = w.roots ∧ (∀ a, a < w.heap.length → w'.heap[a]? = w.heap[a]?) ∧ w.heap.length ≤ w'.heap.length ∧
      (w'.eds = w.eds ∨ ∃ e, w'.eds = w.eds ++ [e] ∧ ∀ a, e.Reach w'.heap a → w.heap.length ≤ a ∧ a < w'.heap.length) := by
  cases hs with
  | opened doc e h _ hr =>
    have := init_spec hr
    exact ⟨rfl, this.2.1, this.1, .inr ⟨e, rfl, this.2.2 e rfl⟩⟩
  | failed doc x h _ hr =>
    have := init_spec hr
    exact ⟨rfl, this.2.1, this.1, .inl rfl⟩

theorem calls_spec {E : Env F} {i : Nat} {w w' : World F} (hw : w.Apart) (hs : Calls E i w w') :
    ∃ e e', w.eds[i]? = some e ∧ w'.eds = w.eds.set i e' ∧ w.heap.length ≤ w'.heap.length ∧
      (∀ a, ¬ e.Reach w.heap a → a < w.heap.length → w'.heap[a]? = w.heap[a]?) ∧
      (∀ a, e'.Reach w'.heap a → e.Reach w.heap a ∨ (w.heap.length ≤ a ∧ a < w'.heap.length)) ∧
      (∀ a, e'.Reach w'.heap a → a < w'.heap.length) ∧
      ∀ r ∈ w'.roots, r ∈ w.roots ∨ ∀ a, Reach w'.heap r a → w.heap.length ≤ a ∧ a < w'.heap.length ∧ ¬ e'.Reach w'.heap a := by
  cases hs with
  | returned e c d e' h he hr =>
    have h1 := run_spec (hw.sound e (List.mem_of_getElem? he)) hr
    refine ⟨e, e', he, rfl, h1.1, h1.2.1, h1.2.2.1, h1.2.2.2.1, ?_⟩
    intro r hr
    rcases List.mem_append.mp hr with hr | hr
    · refine .inr (h1.2.2.2.2 r ?_)
      cases d with
      | none => cases hr
      | some d =>
        simp at hr
        rw [hr]
    · exact .inl hr
  | raised e c x e' h he hr =>
    have h1 := run_spec (hw.sound e (List.mem_of_getElem? he)) hr
    exact ⟨e, e', he, rfl, h1.1, h1.2.1, h1.2.2.1, h1.2.2.2.1, fun r hr => .inl hr⟩

/-- an object of an editor is not the program's -/
theorem Apart.not_owns {w : World F} (hw : w.Apart) {e : Ed F} (he : e ∈ w.eds) {a : Nat} (ha : e.Reach w.heap a) : ¬ w.Owns a :=
  hw.caller e he a ha

theorem apart_own {w w' : World F} (hw : w.Apart) (hs : Own w w') : w'.Apart := by
  obtain ⟨h1, h2, h3, h4⟩ := own_spec hs
  have key : ∀ e ∈ w'.eds, ∀ a, e.Reach w'.heap a ↔ e.Reach w.heap a := by
    intro e he
    rw [h1] at he
    exact ed_reach_same (fun b hb => h3 b (hw.sound e he b hb) (hw.caller e he b hb))
  refine ⟨?_, ?_, ?_, ?_⟩
  · intro a ha
    rcases h4 a ha with ha | ha
    · exact Nat.lt_of_lt_of_le (hw.own a ha) h2
    · exact ha.2
  · intro e he a ha
    exact Nat.lt_of_lt_of_le (hw.sound e (h1 ▸ he) a ((key e he a).mp ha)) h2
  · intro e he a ha ho
    have ha' := (key e he a).mp ha
    rcases h4 a ho with ho | ho
    · exact hw.caller e (h1 ▸ he) a ha' ho
    · exact absurd (hw.sound e (h1 ▸ he) a ha') (Nat.not_lt.mpr ho.1)
  · intro i j e f hi hj hij a ha hb
    rw [key e (List.mem_of_getElem? hi)] at ha
    rw [key f (List.mem_of_getElem? hj)] at hb
    rw [h1] at hi hj
    exact hw.editors i j e f hi hj hij a ha hb

theorem apart_open {E : Env F} {w w' : World F} (hw : w.Apart) (hs : Open E w w') : w'.Apart := by
  obtain ⟨h1, h2, h3, h4⟩ := open_spec hs
  have howns : ∀ a, w'.Owns a ↔ w.Owns a := by
    intro a
    have := owns_same (w := w) (h := w'.heap) (eds := w'.eds) (fun b hb => h2 b (hw.own b hb)) a
    rw [← this]
    unfold Owns
    rw [h1]
  have key : ∀ e ∈ w.eds, ∀ a, e.Reach w'.heap a ↔ e.Reach w.heap a :=
    fun e he => ed_reach_same (fun b hb => h2 b (hw.sound e he b hb))
  have split : ∀ i e, w'.eds[i]? = some e → w.eds[i]? = some e ∨
      (w.eds.length = i ∧ ∀ a, e.Reach w'.heap a → w.heap.length ≤ a ∧ a < w'.heap.length) := by
    intro i e he
    rcases h4 with h4 | ⟨f, h4, h5⟩
    · rw [h4] at he
      exact .inl he
    · rw [h4] at he
      rcases Nat.lt_trichotomy i w.eds.length with h6 | h6 | h6
      · rw [List.getElem?_append_left h6] at he
        exact .inl he
      · subst h6
        simp at he
        exact .inr ⟨rfl, he ▸ h5⟩
      · rw [List.getElem?_eq_none (by simp; omega)] at he
        cases he
  refine ⟨fun a ha => Nat.lt_of_lt_of_le (hw.own a ((howns a).mp ha)) h3, ?_, ?_, ?_⟩
  · intro e he a ha
    obtain ⟨i, hi⟩ := List.mem_iff_getElem?.mp he
    rcases split i e hi with h5 | h5
    · have := List.mem_of_getElem? h5
      exact Nat.lt_of_lt_of_le (hw.sound e this a ((key e this a).mp ha)) h3
    · exact (h5.2 a ha).2
  · intro e he a ha ho
    rw [howns] at ho
    obtain ⟨i, hi⟩ := List.mem_iff_getElem?.mp he
    rcases split i e hi with h5 | h5
    · have := List.mem_of_getElem? h5
      exact hw.caller e this a ((key e this a).mp ha) ho
    · exact absurd (hw.own a ho) (Nat.not_lt.mpr (h5.2 a ha).1)
  · intro i j e f hi hj hij a ha hb
    rcases split i e hi with h5 | h5 <;> rcases split j f hj with h6 | h6
    · exact hw.editors i j e f h5 h6 hij a ((key e (List.mem_of_getElem? h5) a).mp ha) ((key f (List.mem_of_getElem? h6) a).mp hb)
    · have := List.mem_of_getElem? h5
      exact absurd (hw.sound e this a ((key e this a).mp ha)) (Nat.not_lt.mpr (h6.2 a hb).1)
    · have := List.mem_of_getElem? h6
      exact absurd (hw.sound f this a ((key f this a).mp hb)) (Nat.not_lt.mpr (h5.2 a ha).1)
    · exact hij (h5.1.symm.trans h6.1)

theorem calls_owned {E : Env F} {i : Nat} {w w' : World F} (hw : w.Apart) (hs : Calls E i w w') (a : Nat) (ha : w.Owns a) :
    w'.heap[a]? = w.heap[a]? := by
  obtain ⟨e, e', he, _, _, h3, _⟩ := calls_spec hw hs
  exact h3 a (fun h => hw.caller e (List.mem_of_getElem? he) a h ha) (hw.own a ha)

theorem calls_other {E : Env F} {i : Nat} {w w' : World F} (hw : w.Apart) (hs : Calls E i w w') {j : Nat} (hij : j ≠ i) {f : Ed F}
    (hj : w.eds[j]? = some f) (a : Nat) (ha : f.Reach w.heap a) : w'.heap[a]? = w.heap[a]? := by
  obtain ⟨e, e', he, _, _, h3, _⟩ := calls_spec hw hs
  exact h3 a (fun h => hw.editors i j e f he hj (Ne.symm hij) a h ha) (hw.sound f (List.mem_of_getElem? hj) a ha)

theorem apart_calls {E : Env F} {i : Nat} {w w' : World F} (hw : w.Apart) (hs : Calls E i w w') : w'.Apart := by
  have hown := calls_owned hw hs
  have hoth := fun j (hij : j ≠ i) f hj => calls_other hw hs (j := j) hij (f := f) hj
  obtain ⟨e, e', he, h1, h2, h3, h4, h5, h6⟩ := calls_spec hw hs
  have hem := List.mem_of_getElem? he
  -- the other editors
  have split : ∀ j f, w'.eds[j]? = some f → (j = i ∧ f = e') ∨
      (j ≠ i ∧ w.eds[j]? = some f ∧ ∀ a, f.Reach w'.heap a ↔ f.Reach w.heap a) := by
    intro j f hj
    rw [h1] at hj
    by_cases h7 : j = i
    · subst h7
      have h8 : j < w.eds.length := (List.getElem?_eq_some_iff.mp he).1
      rw [List.getElem?_set_self h8] at hj
      exact .inl ⟨rfl, (Option.some.inj hj).symm⟩
    · rw [List.getElem?_set_ne (Ne.symm h7)] at hj
      exact .inr ⟨h7, hj, ed_reach_same (hoth j h7 f hj)⟩
  -- the program
  have howns : ∀ a, w'.Owns a → w.Owns a ∨ (w.heap.length ≤ a ∧ a < w'.heap.length ∧ ¬ e'.Reach w'.heap a) := by
    rintro a ⟨r, hr, hra⟩
    rcases h6 r hr with h7 | h7
    · exact .inl ⟨r, h7, (reach_same (fun b hb => hown b ⟨r, h7, hb⟩) a).mp hra⟩
    · exact .inr (h7 a hra)
  refine ⟨?_, ?_, ?_, ?_⟩
  · intro a ha
    rcases howns a ha with ha | ha
    · exact Nat.lt_of_lt_of_le (hw.own a ha) h2
    · exact ha.2.1
  · intro f hf a ha
    obtain ⟨j, hj⟩ := List.mem_iff_getElem?.mp hf
    rcases split j f hj with ⟨_, rfl⟩ | ⟨_, h8, h9⟩
    · exact h5 a ha
    · exact Nat.lt_of_lt_of_le (hw.sound f (List.mem_of_getElem? h8) a ((h9 a).mp ha)) h2
  · intro f hf a ha ho
    obtain ⟨j, hj⟩ := List.mem_iff_getElem?.mp hf
    rcases split j f hj with ⟨_, rfl⟩ | ⟨_, h8, h9⟩
    · rcases howns a ho with ho | ho
      · rcases h4 a ha with h10 | h10
        · exact hw.caller e hem a h10 ho
        · exact absurd (hw.own a ho) (Nat.not_lt.mpr h10.1)
      · exact ho.2.2 ha
    · have h10 := (h9 a).mp ha
      rcases howns a ho with ho | ho
      · exact hw.caller f (List.mem_of_getElem? h8) a h10 ho
      · exact absurd (hw.sound f (List.mem_of_getElem? h8) a h10) (Nat.not_lt.mpr ho.1)
  · have aux : ∀ j f a, j ≠ i → w.eds[j]? = some f → f.Reach w.heap a → ¬ e'.Reach w'.heap a := by
      intro j f a hji hj hf ha
      rcases h4 a ha with h10 | h10
      · exact hw.editors j i f e hj he hji a hf h10
      · exact absurd (hw.sound f (List.mem_of_getElem? hj) a hf) (Nat.not_lt.mpr h10.1)
    intro j k f g hj hk hjk a hf hg
    rcases split j f hj with ⟨rfl, rfl⟩ | ⟨h7, h8, h9⟩ <;> rcases split k g hk with ⟨rfl, rfl⟩ | ⟨h7', h8', h9'⟩
    · exact hjk rfl
    · exact aux k g a h7' h8' ((h9' a).mp hg) hf
    · exact aux j f a h7 h8 ((h9 a).mp hf) hg
    · exact hw.editors j k f g h8 h8' hjk a ((h9 a).mp hf) ((h9' a).mp hg)

end World

/-- However a program mixes changes of its own objects, openings of editors and calls, the objects of every editor belong
neither to the program nor to another editor. -/
theorem c79_apart {E : Env F} {w w' : World F} (hw : w.Apart) (hs : World.Steps E w w') : w'.Apart := by
  induction hs with
  | nil => exact hw
  | cons w' w'' _ h2 ih =>
    cases h2 with
    | own h => exact World.apart_own ih h
    | opens h => exact World.apart_open ih h
    | calls i h => exact World.apart_calls ih h

/-- Opening an editor and calling one leaves every document of the program as it is: the one the editor was opened for, those
it has returned, those other editors were opened for and the class constants. -/
theorem c79_documents {E : Env F} {w w' : World F} (hw : w.Apart) (hs : World.Open E w w' ∨ ∃ i, World.Calls E i w w') (r : Ref F)
    (hr : w.Holds r) (n : Nat) : read w'.heap n r = read w.heap n r := by
  refine read_same n (fun b hb => ?_)
  have hb' : w.Owns b := reach_closed (World.closed_owns w) hb hr
  rcases hs with hs | ⟨i, hs⟩
  · exact (World.open_spec hs).2.1 b (hw.own b hb')
  · exact World.calls_owned hw hs b hb'

/-- What the program does with its own objects, opening editors and calling other editors leaves everything as it is that can be
read from an editor. -/
theorem c79_editors {E : Env F} {w w' : World F} (hw : w.Apart) {j : Nat} {e : Ed F} (he : w.eds[j]? = some e)
    (hs : World.Own w w' ∨ World.Open E w w' ∨ ∃ i, i ≠ j ∧ World.Calls E i w w') :
    w'.eds[j]? = some e ∧ (∀ a, e.Reach w.heap a → w'.heap[a]? = w.heap[a]?) ∧
      ∀ r, (r = e.skeleton ∨ r = e.data ∨ r = e.images ∨ ∃ p ∈ e.graph.nodes, p.2.data.2 = r) → ∀ n,
        read w'.heap n r = read w.heap n r := by
  have hm := List.mem_of_getElem? he
  have key : w'.eds[j]? = some e ∧ ∀ a, e.Reach w.heap a → w'.heap[a]? = w.heap[a]? := by
    rcases hs with hs | hs | ⟨i, hij, hs⟩
    · have h1 := World.own_spec hs
      exact ⟨h1.1 ▸ he, fun a ha => h1.2.2.1 a (hw.sound e hm a ha) (hw.caller e hm a ha)⟩
    · have h1 := World.open_spec hs
      refine ⟨?_, fun a ha => h1.2.1 a (hw.sound e hm a ha)⟩
      rcases h1.2.2.2 with h2 | ⟨f, h2, _⟩
      · exact h2 ▸ he
      · rw [h2, List.getElem?_append_left (List.getElem?_eq_some_iff.mp he).1]
        exact he
    · refine ⟨?_, World.calls_other hw hs (Ne.symm hij) he⟩
      obtain ⟨f, f', hf, h2, _⟩ := World.calls_spec hw hs
      rw [h2, List.getElem?_set_ne hij]
      exact he
  refine ⟨key.1, key.2, ?_⟩
  rintro r hr n
  refine read_same n (fun b hb => key.2 b ?_)
  rcases hr with rfl | rfl | rfl | ⟨p, hp, rfl⟩
  · exact .inl hb
  · exact .inr (.inl hb)
  · exact .inr (.inr (.inl hb))
  · exact .inr (.inr (.inr ⟨p, hp, hb⟩))

end Alias
end Spine
