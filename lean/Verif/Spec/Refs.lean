import Verif.Spec.Frame
/-
The references inside a written document: the names by which one part of it refers to another.
-/
namespace Spine
namespace JVal
variable {F : Type}

/-- the string in a field; when there is none, the empty string -/
def nameAt (v : JVal F) (k : Str) : JVal F := (v.field k).getD (.str [])

/-- the list `k` has an element named `n` -/
def namesIn (v : JVal F) (k : Str) (n : Str) : Prop := ∃ x ∈ (v.part k).items, x.nameAt s!!"name" = .str n

/-- the animations of a document -/
def animsOf (v : JVal F) : List (JVal F) := (v.part s!!"animations").entries.map (·.2)

/-- `v` is an object with the key `k` -/
def hasKey (v : JVal F) (k : Str) : Prop := k ∈ v.entries.map (·.1)

/-- the document refers to a bone named `n` -/
inductive BoneRef (v : JVal F) (n : Str) : Prop
  | parent {b : JVal F} : b ∈ (v.part s!!"bones").items → b.field s!!"parent" = some (.str n) → BoneRef v n
  | slot {s : JVal F} : s ∈ (v.part s!!"slots").items → s.field s!!"bone" = some (.str n) → BoneRef v n
  | bones {k : Str} {c : JVal F} : k ∈ [s!!"ik", s!!"transform", s!!"path"] → c ∈ (v.part k).items →
      .str n ∈ (c.part s!!"bones").items → BoneRef v n
  | bone {c : JVal F} : c ∈ (v.part s!!"transform").items → c.field s!!"bone" = some (.str n) → BoneRef v n
  | target {k : Str} {c : JVal F} : k ∈ [s!!"ik", s!!"transform"] → c ∈ (v.part k).items →
      c.field s!!"target" = some (.str n) → BoneRef v n
  | timeline {x : JVal F} : x ∈ v.animsOf → (x.part s!!"bones").hasKey n → BoneRef v n

/-- the document refers to a slot named `n`, other than as the target of a path constraint -/
inductive SlotRef (v : JVal F) (n : Str) : Prop
  | skin {s : JVal F} : s ∈ (v.part s!!"skins").items → (s.part s!!"attachments").hasKey n → SlotRef v n
  | timeline {x : JVal F} : x ∈ v.animsOf → (x.part s!!"slots").hasKey n → SlotRef v n
  | deform {x d : JVal F} {skin : Str} : x ∈ v.animsOf → (skin, d) ∈ (x.part s!!"deform").entries → d.hasKey n → SlotRef v n
  | draw {x t o : JVal F} : x ∈ v.animsOf → t ∈ (x.part s!!"drawOrder").items → o ∈ (t.part s!!"offsets").items →
      o.nameAt s!!"slot" = .str n → SlotRef v n

/-- the target of a path constraint is the slot named `n` -/
def PathTarget (v : JVal F) (n : Str) : Prop := ∃ c ∈ (v.part s!!"path").items, c.field s!!"target" = some (.str n)

/-- some animation deforms the attachment `key` of the slot `slot` in the skin `skin` -/
def DeformRef (v : JVal F) (skin slot key : Str) : Prop := ∃ x ∈ v.animsOf, ∃ d t, (skin, d) ∈ (x.part s!!"deform").entries ∧
  (slot, t) ∈ d.entries ∧ t.hasKey key

/-- some animation deforms something in the skin `skin` -/
def SkinRef (v : JVal F) (skin : Str) : Prop := ∃ x ∈ v.animsOf, (x.part s!!"deform").hasKey skin

/-- the skin `skin` has an attachment `key` for the slot `slot` -/
def HasAttachment (v : JVal F) (skin slot key : Str) : Prop := ∃ s ∈ (v.part s!!"skins").items, s.nameAt s!!"name" = .str skin ∧
  ∃ t, (slot, t) ∈ (s.part s!!"attachments").entries ∧ t.hasKey key

/-- some animation has a timeline for the constraint `n` of kind `k` -/
def ConstraintRef (v : JVal F) (k n : Str) : Prop := ∃ x ∈ v.animsOf, (x.part k).hasKey n

/-- some animation fires the event `n` -/
def EventRef (v : JVal F) (n : Str) : Prop := ∃ x ∈ v.animsOf, ∃ t ∈ (x.part s!!"events").items, t.field s!!"name" = some (.str n)

/-- every reference leads to something, except perhaps those by path constraints to slots, by linked meshes and by names of
attachments to show -/
structure Linked (v : JVal F) : Prop where
  bones : ∀ n, v.BoneRef n → v.namesIn s!!"bones" n
  slots : ∀ n, v.SlotRef n → v.namesIn s!!"slots" n
  skins : ∀ n, v.SkinRef n → v.namesIn s!!"skins" n
  deforms : ∀ skin slot key, v.DeformRef skin slot key → v.HasAttachment skin slot key
  constraints : ∀ k ∈ [s!!"ik", s!!"transform", s!!"path"], ∀ n, v.ConstraintRef k n → v.namesIn k n
  events : ∀ n, v.EventRef n → (v.part s!!"events").hasKey n

end JVal
end Spine
