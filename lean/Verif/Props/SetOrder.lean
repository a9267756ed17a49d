import Verif.Lemmas.SetOrder
import Verif.Lemmas.SampleRan
/-
C81: the order in which Python iterates over sets does not matter.
-/
set_option linter.unusedSectionVars false
namespace Spine
namespace Editor
variable {F : Type} [PyRt F]

/-- One call: whatever the orders, the same exception or the same results up to the order of the removed names, and the same
editor afterwards.  For all documents without duplicate keys and all calls with any outcome before, except that a drawOrder offset
naming an unknown slot must not have stopped a cleaning half-way. -/
theorem c81_call_partial {e : Editor F} (h : Called e) {o o' : Orders} (ho : o.Ok) (ho' : o'.Ok) (c : Op F) :
    Alike (c.runBy o e).1 (c.runBy o' e).1 ∧ (c.runBy o e).2 = (c.runBy o' e).2 :=
  runBy_alike ho ho' c h.weak

/-- no cleaning is stopped half-way by a drawOrder offset naming an unknown slot -/
def Settled : List (Op F × Orders) → Editor F → Prop
  | [], _ => True
  | (c, o) :: l, e => ((∃ r, (c.runBy o e).1 = .ok r) ∨ c.cleans = false ∨ ¬ BadDraw e.data) ∧ Settled l (c.runBy o e).2

theorem runs_alike {l m : List (Op F × Orders)} (hl : ∀ p ∈ l, p.2.Ok) (hm : ∀ p ∈ m, p.2.Ok) (hc : l.map (·.1) = m.map (·.1)) :
    ∀ {e : Editor F}, Called e → Settled l e → All₂ Alike (runsBy l e).1 (runsBy m e).1 ∧ (runsBy l e).2 = (runsBy m e).2 := by
  induction l generalizing m with
  | nil => cases m with
    | nil => exact fun _ _ => ⟨.nil, rfl⟩
    | cons _ _ => simp at hc
  | cons a l ih =>
    cases m with
    | nil => simp at hc
    | cons b m =>
      obtain ⟨c, o⟩ := a
      obtain ⟨c', o'⟩ := b
      simp only [List.map_cons, List.cons.injEq] at hc
      obtain ⟨rfl, hc⟩ := hc
      intro e he hs
      have h1 := c81_call_partial he (hl _ List.mem_cons_self) (hm _ List.mem_cons_self) c
      have h2 := c81_call_partial he (hl _ List.mem_cons_self) (Orders.rt_ok (F := F)) c
      have h3 : Called (c.runBy o e).2 := by
        rw [h2.2]
        have : (c.run e).2 = (c.runBy (Orders.rt F) e).2 := by rw [runBy_rt]
        rw [← this]
        refine .run c he (hs.1.imp ?_ id)
        rintro ⟨r, hr⟩
        rw [hr] at h2
        rw [runBy_rt]
        have h := h2.1
        generalize (c.runBy (Orders.rt F) e).1 = x at h
        cases h
        rfl
      have h4 := ih (fun p hp => hl p (by simp [hp])) (fun p hp => hm p (by simp [hp])) hc h3 hs.2
      simp only [runsBy]
      rw [← h1.2]
      exact ⟨.cons h1.1 h4.1, h4.2⟩

/-- Any calls one after the other: two processes that iterate over sets in different orders, a new one at every call, see the same
outcomes up to the order of the removed names, and end with the same editor. -/
theorem c81_histories_partial {doc : JVal F} {e : Editor F} (hd : doc.Proper) (hl : load doc = .ok e) {l m : List (Op F × Orders)}
    (h1 : ∀ p ∈ l, p.2.Ok) (h2 : ∀ p ∈ m, p.2.Ok) (hc : l.map (·.1) = m.map (·.1)) (hs : Settled l e) :
    All₂ Alike (runsBy l e).1 (runsBy m e).1 ∧ (runsBy l e).2 = (runsBy m e).2 :=
  runs_alike h1 h2 hc (.load hd hl) hs

end Editor

namespace OrderEx
open Sample Editor

/-- sets as they are -/
def forth : Orders := { slots := id, atts := id, all := id }
/-- sets the other way round -/
def back : Orders := { slots := List.reverse, atts := List.reverse, all := List.reverse }

theorem forth_ok : forth.Ok := fun _ => ⟨.refl _, .refl _, .refl _⟩
theorem back_ok : back.Ok := fun l => ⟨l.reverse_perm, l.reverse_perm, l.reverse_perm⟩

/-- `x` is unused, `y` is once the animation `keep` is gone, and the animation `bad` moves a slot that does not exist -/
def broken : J := doc [root] [slot "s" "root" [("attachment", txt "z")]]
  [("default", obj [("s", obj [("y", obj []), ("z", obj [])])]), ("red", obj [("s", obj [("x", obj [])])])]
  [("walk", obj []), ("keep", obj [("slots", obj [("s", shows "y")])]),
   ("bad", obj [("drawOrder", .list [obj [("offsets", .list [obj [("slot", txt "nope"), ("offset", .int 1)]])]])])]

def calls : List (Op Rat) :=
  [.clean, .eraseAnims (.list [s!!"keep", s!!"bad"]) false true, .clean, .eraseSkins [s!!"red", s!!"green"] true, .clean]

/-- which calls succeed -/
def succeed (l : List (Except Err (Result Rat))) : List (Option Err) := l.map (fun x => match x with
  | .ok _ => none
  | .error x => some x)

/-- the removed slots and attachments of a cleaning -/
def removed (x : Except Err (Result Rat)) : List Str := match x with
  | .ok (.cleaned r) => r.1 ++ r.2
  | _ => []

/-- two unused slots in a document with nothing wrong -/
def tidy : J := doc [root] [slot "s" "root" [("attachment", txt "z")], slot "t" "root", slot "u" "root"]
  [("default", obj [("s", obj [("x", obj []), ("y", obj []), ("z", obj [])]), ("t", obj [("p", obj [])])])] [("walk", obj [])]

end OrderEx
open OrderEx Editor

/-- calls that all succeed are settled -/
theorem Editor.Settled.of_ok {F : Type} [PyRt F] {l : List (Op F × Orders)} :
    ∀ {e : Editor F}, (∀ x ∈ (runsBy l e).1, ∃ r, x = .ok r) → Settled l e := by
  induction l with
  | nil => exact fun _ => trivial
  | cons a l ih =>
    intro e h
    simp only [runsBy, List.mem_cons, forall_eq_or_imp] at h
    exact ⟨.inl h.1, ih h.2⟩

/-- The names come in different orders, and the hypotheses of `c81_histories_partial` are met. -/
example : ∃ e, Editor.load tidy = .ok e ∧ tidy.Proper ∧ Settled [(.clean, forth), (.clean, back)] e ∧
    (runsBy [(.clean, forth), (.clean, back)] e).1.map removed = [[s!!"t", s!!"u", s!!"x", s!!"y", s!!"p"], []] ∧
    (runsBy [(.clean, back), (.clean, forth)] e).1.map removed = [[s!!"u", s!!"t", s!!"x", s!!"y", s!!"p"], []] := by
  have h : (match Editor.load tidy with
    | .ok e => (runsBy [(.clean, forth), (.clean, back)] e).1.all (·.toBool) &&
      (runsBy [(.clean, forth), (.clean, back)] e).1.map removed == [[s!!"t", s!!"u", s!!"x", s!!"y", s!!"p"], []] &&
      (runsBy [(.clean, back), (.clean, forth)] e).1.map removed == [[s!!"u", s!!"t", s!!"x", s!!"y", s!!"p"], []]
    | .error _ => false) = true := by decide +kernel
  have hp : tidy.Proper := JVal.proper_of _ (by decide +kernel)
  cases he : Editor.load tidy with
  | error x => rw [he] at h; cases h
  | ok e =>
    rw [he] at h
    simp only [Bool.and_eq_true, beq_iff_eq, List.all_eq_true] at h
    refine ⟨e, rfl, hp, .of_ok fun x hx => ?_, h.1.2, h.2⟩
    have := h.1.1 x hx
    cases x with
    | error _ => cases this
    | ok r => exact ⟨r, rfl⟩

/-- False in general.  A drawOrder offset stops the first cleaning after it has taken `x` out of the graph; the second fails at `x`,
before or after it has taken out `y`; once `x` is gone from the document, the third cleaning raises ValueError or succeeds. -/
theorem c81_stopped : ∃ e, Editor.load broken = .ok e ∧ broken.Proper ∧
    succeed (runsBy (calls.map (·, forth)) e).1 = [some .value, none, some .value, some .editor, some .value] ∧
    succeed (runsBy (calls.map (·, back)) e).1 = [some .value, none, some .value, some .editor, none] := by
  have h : (match Editor.load broken with
    | .ok e => succeed (runsBy (calls.map (·, forth)) e).1 == [some .value, none, some .value, some .editor, some .value] &&
      succeed (runsBy (calls.map (·, back)) e).1 == [some .value, none, some .value, some .editor, none]
    | .error _ => false) = true := by decide +kernel
  have hp : broken.Proper := JVal.proper_of _ (by decide +kernel)
  cases he : Editor.load broken with
  | error x => rw [he] at h; cases h
  | ok e =>
    rw [he] at h
    simp only [Bool.and_eq_true, beq_iff_eq] at h
    exact ⟨e, rfl, hp, h.1, h.2⟩

end Spine
