import Verif.Lemmas.SimLive
/-
C80: an editor depends only on the JSON values of the documents it is opened for.
-/
set_option linter.unusedSectionVars false
namespace Spine
namespace Alias
variable {F : Type} [PyRt F] {B : Nat}

/-- Whatever a program does with its own objects, with the editors and with the documents they return: every outcome it observes,
of opening an editor and of a call, with the names and the values of the documents returned, is the one the model on JSON values
computes from the values of the documents the editors were opened for.  Documents may share objects, and returned documents may be
used to open editors.  Restricted to documents in which no two slots of one skin hold the same dictionary, to programs that leave
the class constants alone, and to answers the value model gives. -/
theorem c80_programs_partial {E : Env F} (hm : 8 + B ≤ E.lim) {w w' : World F} {l : List (Event F)} (hw : w.Apart) (he : w.eds = [])
    (hx : w.Fixed B E) (hs : World.Trace B E w l w') : accounts [] l :=
  trace_accounts hm hs ⟨hw, hx, by rw [he]; exact .nil⟩

/-- every call has an outcome -/
theorem always_exec {E : Env F} {c : Call F} {e : Ed F} : Always (c.exec E e) := by
  have h1 := fun l s => @always_eraseSkins F _ E l s e
  have h2 := fun a t s => @always_eraseAnims F _ E a t s e
  have h3 := @always_clean F _ E e
  cases c <;> simp only [Call.exec] <;> always
  · apply h1
  · apply h2

/-- Every call of an editor in use is a step of a program. -/
theorem c80_calls {E : Env F} {w : World F} {i : Nat} {e : Ed F} (he : w.eds[i]? = some e) (c : Call F) :
    ∃ out w', World.Trace B E w [.calls i c out] w' := by
  obtain ⟨⟨x, e'⟩, h', hr⟩ := (@always_exec F _ E c e).ok w.heap
  cases x with
  | ok o => exact ⟨_, _, .returned w _ [] i e c o e' h' he hr (.nil _)⟩
  | error y => exact ⟨_, _, .raised w _ [] i e c y e' h' he hr (.nil _)⟩

/-- what the program does, without what it observes -/
def Event.ask : Event F → Event F
  | .own => .own
  | .opens v _ => .opens v (.ok ())
  | .calls i c _ => .calls i c (.error .unmodelled)

/-- the value model has an answer to everything the program does -/
def answers : List (Editor F) → List (Event F) → Prop
  | _, [] => True
  | vs, .own :: l => answers vs l
  | vs, .opens v _ :: l => match Editor.load v with
    | .ok e => answers (vs ++ [e]) l
    | .error .unmodelled => False
    | .error _ => answers vs l
  | vs, .calls i c _ :: l => match vs[i]? with
    | none => False
    | some v => (c.value v).1 ≠ .error .unmodelled ∧ answers (vs.set i (c.value v).2) l

theorem accounts_unique {l m : List (Event F)} (ha : l.map Event.ask = m.map Event.ask) : ∀ {vs : List (Editor F)}, accounts vs l → accounts vs m →
    answers vs l → l = m := by
  induction l generalizing m with
  | nil => cases m with
    | nil => exact fun _ _ _ => rfl
    | cons _ _ => simp at ha
  | cons a l ih =>
    cases m with
    | nil => simp at ha
    | cons b m =>
      simp only [List.map_cons, List.cons.injEq] at ha
      obtain ⟨h1, h2⟩ := ha
      intro vs
      cases a with
      | own =>
        cases b with
        | own => exact fun h3 h4 h5 => by rw [ih h2 h3 h4 h5]
        | _ => simp [Event.ask] at h1
      | opens v x =>
        cases b with
        | opens v' y =>
          simp only [Event.ask, Event.opens.injEq, and_true] at h1
          subst h1
          intro h3 h4 h5
          unfold accounts at h3 h4
          unfold answers at h5
          cases hv : Editor.load v with
          | ok e =>
            simp only [hv] at h3 h4 h5
            rw [ih h2 h3.2 h4.2 h5, h3.1, h4.1]
          | error z =>
            simp only [hv] at h3 h4 h5
            cases z <;> first | exact h5.elim | rw [ih h2 h3.2 h4.2 h5, h3.1, h4.1]
        | _ => simp [Event.ask] at h1
      | calls i c x =>
        cases b with
        | calls i' c' y =>
          simp only [Event.ask, Event.calls.injEq, and_true] at h1
          obtain ⟨rfl, rfl⟩ := h1
          intro h3 h4 h5
          unfold accounts at h3 h4
          unfold answers at h5
          cases hv : vs[i]? with
          | none => simp only [hv] at h5
          | some v =>
            simp only [hv] at h3 h4 h5
            rcases h3 with h3 | h3
            · exact absurd h3 h5.1
            rcases h4 with h4 | h4
            · exact absurd h4 h5.1
            rw [ih h2 h3.2 h4.2 h5.2, h3.1, h4.1]
        | _ => simp [Event.ask] at h1

/-- Two programs that open editors for documents with the same values and make the same calls observe the same, however the
documents share objects inside and whatever else the programs do in between with their own objects. -/
theorem c80_same_values_partial {E E' : Env F} (hm : 8 + B ≤ E.lim) (hm' : 8 + B ≤ E'.lim) {w w' u u' : World F} {l m : List (Event F)}
    (hw : w.Apart) (he : w.eds = []) (hx : w.Fixed B E) (hs : World.Trace B E w l w')
    (hu : u.Apart) (hf : u.eds = []) (hy : u.Fixed B E') (ht : World.Trace B E' u m u')
    (ha : l.map Event.ask = m.map Event.ask) (hn : answers [] l) : l = m :=
  accounts_unique ha (c80_programs_partial hm hw he hx hs) (c80_programs_partial hm' hu hf hy ht) hn

end Alias
end Spine
