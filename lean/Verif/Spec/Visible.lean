import Verif.Model.AnimData
import Verif.Spec.Text
import Verif.Spec.Skins
/-
When an animation shows a slot and an attachment, in the sense of the documentation of `clean_animation`.
-/
namespace Spine
variable {F : Type} [PyRt F]

/-! ### Slots in the setup pose -/

/-- `s` is a hexadecimal number: an optional underscore, hexadecimal digits with single underscores between them, blanks -/
def HexText (F : Type) [PyRt F] (s : Str) (n : Nat) : Prop :=
  ∃ u m w, s = u ++ m ++ w ∧ (u = [] ∨ u = ['_']) ∧ Blank F w ∧ Numeral (hexVal F) 16 m n

/-- the slot has a colour, which is a hexadecimal number with both last digits zero -/
def Transparent (s : Slot F) : Prop := ∃ c n, s.color = some c ∧ HexText F c n ∧ n % 256 = 0

/-- the setup pose says nothing about the slot: no attachment, no colour, no dark colour, no blend mode -/
structure Slot.Plain (s : Slot F) : Prop where
  attachment : s.attachment = none
  color : s.color = none
  dark : s.dark = .null
  blend : s.blend = .null

/-! ### Timelines -/

/-- the keyframe shows no attachment -/
def SlotKf.Clears (k : SlotKf F) : Prop := k.name = none ∨ k.name = some s!!"None"

/-- the timeline has a keyframe that shows the attachment `n` -/
def SlotTl.Shows (t : SlotTl F) (n : Str) : Prop := ∃ k ∈ t.attachment, k.name = some n ∧ n ≠ s!!"None"

/-- the timeline changes the colour -/
def SlotTl.Coloured (t : SlotTl F) : Prop := t.color ≠ [] ∨ t.twoColor ≠ []

/-- the timeline has no effect: it changes no colour, and at most hides the slot from the start -/
def SlotTl.Blank (t : SlotTl F) : Prop :=
  ¬ t.Coloured ∧ (t.attachment = [] ∨ ∃ k, t.attachment = [k] ∧ k.Clears ∧ JVal.pyEq (k.rest.val s!!"time") (.int 0) = true)

/-- the animation shows the slot: without a timeline for the slot, because the setup pose does; with one, because it is not
blank, changes the colour of a transparent slot, and shows an attachment on a slot without setup pose -/
inductive Anim.Shown (x : Anim F) (s : Slot F) : Prop
  | setup : s.name ∉ Dict.keys x.slots → ¬ Transparent s → ¬ s.Plain → Shown x s
  | timeline {t : SlotTl F} : (s.name, t) ∈ x.slots → ¬ t.Blank → (Transparent s → t.Coloured) →
      (s.Plain → ∃ n, t.Shows n) → Shown x s

namespace AnimData

/-- some animation shows the slot -/
def Shown (a : AnimData F) (s : Slot F) : Prop := ∃ n x, (n, x) ∈ a.animations ∧ x.Shown s

/-- in some animation a shown slot has the attachment, in its setup pose or by a keyframe -/
def Uses (a : AnimData F) (k : Str) : Prop :=
  ∃ n x, (n, x) ∈ a.animations ∧ ∃ s ∈ a.slots, x.Shown s ∧
    (s.attachment = some k ∨ ∃ t, (s.name, t) ∈ x.slots ∧ t.Shows k)

end AnimData
end Spine
