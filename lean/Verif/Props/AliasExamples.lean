import Verif.Props.Alias
import Verif.Spec.AliasSample
/-
Concrete programs for C79.
-/
namespace Spine
namespace Alias
namespace Ex
open Sample (J doc obj txt root slot region shows)

/-- the classes the examples use -/
def keys : List (Bool × Tag) :=
  [Tag.bone, .slot, .skin, .slotKf, .slotTl, .anim, .document, .att .region].map (fun t => (true, t))

/-- the library -/
def E : Env Rat := env keys 12

/-- a slot that shows one of its two attachments, in an animation too -/
def small : J :=
  doc [root] [slot "s" "root" [("attachment", txt "a")]]
    [("default", obj [("s", obj [("a", region "p"), ("b", region "q")])])]
    [("walk", obj [("slots", obj [("s", shows "a")])])]

/-- the document as objects, in a process that has loaded the library -/
def start (d : J) : Ref Rat × Heap Rat := put d (constants (F := Rat) keys).2

/-- the program holds the document and the class constants -/
def world (d : J) : World Rat :=
  { heap := (start d).2, eds := [], roots := (start d).1 :: (constants (F := Rat) keys).1.map (·.2) }

/-- every reference leads to an object of the heap -/
def inside (h : Heap Rat) (r : Ref Rat) : Bool := match r with
  | .ptr a => decide (a < h.length)
  | _ => true

/-- a program without editors, all of whose references lead somewhere, shares nothing -/
theorem apart_start {w : World Rat} (h0 : w.eds = []) (h1 : w.roots.all (inside w.heap) = true)
    (h2 : w.heap.all (fun o => o.refs.all (inside w.heap)) = true) : w.Apart := by
  have hin : ∀ {r : Ref Rat}, inside w.heap r = true → ∀ a, r = .ptr a → a < w.heap.length := by
    intro r hr a ha
    subst ha
    simpa [inside] using hr
  have hc : Closed (fun a => a < w.heap.length) w.heap := by
    intro a o _ ho s hs b hb
    exact hin (List.all_eq_true.mp (List.all_eq_true.mp h2 o (List.mem_of_getElem? ho)) s hs) b hb
  refine ⟨?_, ?_, ?_, ?_⟩
  · rintro a ⟨r, hr, ha⟩
    exact reach_closed hc ha (fun b hb => hin (List.all_eq_true.mp h1 r hr) b hb)
  · intro e he; rw [h0] at he; cases he
  · intro e he; rw [h0] at he; cases he
  · intro i j e f hi; rw [h0] at hi; cases hi

/-- an editor for the document -/
def opened (w : World Rat) (r : Ref Rat) : Option (World Rat) :=
  match init E r w.heap with
  | (.ok e, h) => some { w with heap := h, eds := w.eds ++ [e] }
  | _ => none

/-- a call -/
def called (w : World Rat) (i : Nat) (c : Call Rat) : Option (World Rat) :=
  match w.eds[i]? with
  | none => none
  | some e => match c.run E e w.heap with
    | (.ok (.ok d, e'), h) => some { heap := h, eds := w.eds.set i e', roots := d.toList ++ w.roots }
    | _ => none

theorem opened_step {w w' : World Rat} {r : Ref Rat} (hr : w.Holds r) (h : opened w r = some w') : World.Step E w w' := by
  unfold opened at h
  cases hi : init E r w.heap with
  | mk x h' =>
    rw [hi] at h
    cases x with
    | error x => cases h
    | ok e => cases h; exact .opens (.opened w r e h' hr hi)

theorem called_step {w w' : World Rat} {i : Nat} {c : Call Rat} (h : called w i c = some w') : World.Step E w w' := by
  unfold called at h
  cases he : w.eds[i]? with
  | none => rw [he] at h; cases h
  | some e =>
    rw [he] at h
    simp only at h
    cases hr : c.run E e w.heap with
    | mk x h' =>
      rw [hr] at h
      rcases x with x | ⟨x | d, e'⟩
      · cases h
      · cases h
      · cases h; exact .calls i (.returned w e c d e' h' he hr)

/-- the caller empties the document -/
def emptied (w : World Rat) (r : Ref Rat) : World Rat := match r with
  | .ptr a => { w with heap := w.heap.set a (.dict []) }
  | _ => w

theorem emptied_step {w : World Rat} {r : Ref Rat} (hr : w.Holds r) : World.Step E w (emptied w r) := by
  have hid : World.Step E w w := .own (.forget w w.roots (fun _ h => h))
  cases r with
  | ptr a => exact .own (.change w a (.dict []) (hr a rfl) (fun r hr => by cases hr))
  | _ => exact hid

theorem holds_root {w : World Rat} {r : Ref Rat} (h : r ∈ w.roots) : w.Holds r :=
  fun a ha => ⟨r, h, ha ▸ .here a⟩

/-- the program opens an editor, empties the document it opened it for and cleans the editor -/
def first : Option (World Rat) :=
  (opened (world small) (start small).1).bind fun w =>
    called (emptied w (start small).1) 0 .clean

/-- then it asks the editor for its document and opens a second editor for that -/
def second : Option (World Rat) :=
  first.bind fun w => (called w 0 .toJson).bind fun w => opened w (w.roots.headD .null)

theorem opened_roots {w w' : World Rat} {r : Ref Rat} (h : opened w r = some w') : w'.roots = w.roots := by
  unfold opened at h
  cases hi : init E r w.heap with
  | mk x h' =>
    rw [hi] at h
    cases x with
    | error x => cases h
    | ok e => cases h; rfl

theorem first_steps {w : World Rat} (h : first = some w) : World.Steps E (world small) w := by
  unfold first at h
  obtain ⟨w1, h1, h2⟩ := Option.bind_eq_some_iff.mp h
  have hh : (world small).Holds (start small).1 := holds_root (by simp [world])
  have hh1 : w1.Holds (start small).1 := holds_root (by rw [opened_roots h1]; simp [world])
  exact .cons _ _ _ (.cons _ _ _ (.cons _ _ _ (.nil _) (opened_step hh h1)) (emptied_step hh1)) (called_step h2)

theorem second_steps {w : World Rat} (h : second = some w) : World.Steps E (world small) w := by
  unfold second at h
  obtain ⟨w1, h1, h2⟩ := Option.bind_eq_some_iff.mp h
  obtain ⟨w2, h2, h3⟩ := Option.bind_eq_some_iff.mp h2
  refine .cons _ _ _ (.cons _ _ _ (first_steps h1) (called_step h2)) (opened_step ?_ h3)
  cases hr : w2.roots with
  | nil => intro a ha; simp at ha
  | cons r l => exact holds_root (by simp [hr])

/-- the names under which a document has a list or a dictionary as a value, with those inside them -/
def names : Nat → J → List Str
  | 0, _ => []
  | n + 1, .dict d => d.flatMap (fun p => p.1 :: names n p.2)
  | n + 1, .list l => l.flatMap (names n)
  | _, _ => []

end Ex

open Ex

/-- the first program runs to its end, so the theorems about programs speak of it: nothing is shared in the end -/
example : ∃ w, first = some w ∧ World.Steps E (world small) w ∧ w.Apart ∧ w.eds.length = 1 := by
  have h1 : (first.map (fun w => w.eds.length)) = some 1 := by decide +kernel
  obtain ⟨w, hw, h2⟩ := Option.map_eq_some_iff.mp h1
  exact ⟨w, hw, first_steps hw, c79_apart (apart_start rfl (by decide +kernel) (by decide +kernel)) (first_steps hw), h2⟩

/-- the second one as well; the document it got from the first editor lacks the attachment `b` that cleaning removed, and does
not share the fate of the document that was emptied -/
example : ∃ w, second = some w ∧ World.Steps E (world small) w ∧ w.Apart ∧ w.eds.length = 2 ∧
    (readJ w.heap 12 (start small).1).map (names 9) = some [] ∧
    (readJ w.heap 12 (w.roots.headD .null)).map (names 9) =
      some [s!!"bones", s!!"name", s!!"slots", s!!"name", s!!"bone", s!!"attachment", s!!"skins", s!!"name", s!!"attachments", s!!"s",
        s!!"a", s!!"path", s!!"animations", s!!"walk", s!!"slots", s!!"s", s!!"attachment", s!!"name", s!!"skeleton", s!!"spine"] := by
  have h1 : (second.map (fun w => (w.eds.length, (readJ w.heap 12 (start small).1).map (names 9),
      (readJ w.heap 12 (w.roots.headD .null)).map (names 9)))) =
      some (2, some [], some [s!!"bones", s!!"name", s!!"slots", s!!"name", s!!"bone", s!!"attachment", s!!"skins", s!!"name",
        s!!"attachments", s!!"s", s!!"a", s!!"path", s!!"animations", s!!"walk", s!!"slots", s!!"s", s!!"attachment", s!!"name",
        s!!"skeleton", s!!"spine"]) := by decide +kernel
  obtain ⟨w, hw, h2⟩ := Option.map_eq_some_iff.mp h1
  simp only [Prod.mk.injEq] at h2
  exact ⟨w, hw, second_steps hw, c79_apart (apart_start rfl (by decide +kernel) (by decide +kernel)) (second_steps hw), h2.1, h2.2.1, h2.2.2⟩

end Alias
end Spine
