import Verif.Lemmas.Editor
/-
What the editing calls never change.
-/
namespace Spine
variable {F : Type}

/-- `x'` is the animation `x` with some slot and deform timelines left out, and other offsets in its drawOrder keyframes; the
timelines of bones, constraints and events are the same, and so is every timeline that is left -/
structure Anim.Trimmed (x x' : Anim F) : Prop where
  bones : x'.bones = x.bones
  ik : x'.ik = x.ik
  transform : x'.transform = x.transform
  path : x'.path = x.path
  events : x'.events = x.events
  times : x'.drawOrder.map (·.time) = x.drawOrder.map (·.time)
  slots : x'.slots.Sublist x.slots
  deform : ∀ skin d', (skin, d') ∈ x'.deform → ∃ d, (skin, d) ∈ x.deform ∧
    ∀ slot t', (slot, t') ∈ d' → ∃ t, (slot, t) ∈ d ∧ t'.Sublist t

/-- `a'` has the events and constraints of `a`, and some of its animations, trimmed, in the same order; likewise the names of the skins -/
structure AnimData.Rest (a a' : AnimData F) : Prop where
  events : a'.events = a.events
  transform : a'.transform = a.transform
  path : a'.path = a.path
  skins : (a'.skins.map (·.name)).Sublist (a.skins.map (·.name))
  animations : ∃ l, l.Sublist a.animations ∧ All₂ (fun p p' => p'.1 = p.1 ∧ Anim.Trimmed p.2 p'.2) l a'.animations

/-! The same of documents as they are written. -/
namespace JVal

/-- the entries of an object -/
def entries : JVal F → Dict (JVal F)
  | .dict d => d
  | _ => []

/-- the elements of an array -/
def items : JVal F → List (JVal F)
  | .list l => l
  | _ => []

def field (v : JVal F) (k : Str) : Option (JVal F) := Dict.get? v.entries k

/-- a field; an absent one is like `null`, which has no entries and no elements -/
def part (v : JVal F) (k : Str) : JVal F := (v.field k).getD .null

/-- `v'` is the animation `v` with some slot and deform timelines left out and other offsets in its drawOrder keyframes -/
structure TrimmedAnim (v v' : JVal F) : Prop where
  kept : ∀ k ∈ [s!!"bones", s!!"ik", s!!"transform", s!!"path", s!!"events"], v'.field k = v.field k
  times : (v'.part s!!"drawOrder").items.map (·.field s!!"time") = (v.part s!!"drawOrder").items.map (·.field s!!"time")
  slots : (v'.part s!!"slots").entries.Sublist (v.part s!!"slots").entries
  deform : ∀ skin d', (skin, d') ∈ (v'.part s!!"deform").entries → ∃ d, (skin, d) ∈ (v.part s!!"deform").entries ∧
    ∀ slot t', (slot, t') ∈ d'.entries → ∃ t, (slot, t) ∈ d.entries ∧ t'.entries.Sublist t.entries

/-- the document `v'` has the skeleton, events and constraints of `v`, and some of its animations, trimmed, in the same order -/
structure RestDoc (v v' : JVal F) : Prop where
  kept : ∀ k ∈ [s!!"skeleton", s!!"events", s!!"transform", s!!"path"], v'.field k = v.field k
  skins : ((v'.part s!!"skins").items.map (·.field s!!"name")).Sublist ((v.part s!!"skins").items.map (·.field s!!"name"))
  animations : ∃ l, l.Sublist (v.part s!!"animations").entries ∧
    All₂ (fun p p' => p'.1 = p.1 ∧ TrimmedAnim p.2 p'.2) l (v'.part s!!"animations").entries

end JVal
end Spine
