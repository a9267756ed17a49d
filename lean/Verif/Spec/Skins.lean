import Verif.Model.Data
/-
Vocabulary for skins: which attachments a skeleton has, and which image an attachment shows.
-/
namespace Spine
variable {F : Type}

/-- some skin has the attachment `x` under `key` for the slot named `slot` -/
def AnimData.HasAtt (a : AnimData F) (slot key : Str) (x : Att F) : Prop :=
  ∃ s ∈ a.skins, ∃ e, (slot, e) ∈ s.attachments ∧ (key, x) ∈ e

/-- the attribute is missing, null or an empty text -/
def Att.NoText (x : Att F) (k : Str) : Prop := ∀ t, Dict.get? x.attrs k = some (.str t) → t = []

/-- the image of an attachment: its path; without path its name; without name its key -/
inductive ImageName (key : Str) (x : Att F) : Str → Prop
  | path {p} : Dict.get? x.attrs s!!"path" = some (.str p) → p ≠ [] → ImageName key x p
  | name {n} : x.NoText s!!"path" → Dict.get? x.attrs s!!"name" = some (.str n) → n ≠ [] → ImageName key x n
  | key : x.NoText s!!"path" → x.NoText s!!"name" → ImageName key x key

/-- an attachment of this slot, other than a path, shows the image -/
def AnimData.SlotShows (a : AnimData F) (slot i : Str) : Prop :=
  ∃ key x, a.HasAtt slot key x ∧ x.kind ≠ .path ∧ ImageName key x i

/-- the image is in use: an attachment of some skin, other than a path, shows it -/
def AnimData.UsesImage (a : AnimData F) (i : Str) : Prop := ∃ slot, a.SlotShows slot i

theorem ImageName.exists (key : Str) (x : Att F) : ∃ i, ImageName key x i := by
  by_cases hp : x.NoText s!!"path"
  · by_cases hn : x.NoText s!!"name"
    · exact ⟨key, .key hp hn⟩
    · obtain ⟨t, ht⟩ := Classical.not_forall.1 hn
      obtain ⟨h1, h2⟩ := Classical.not_imp.1 ht
      exact ⟨t, .name hp h1 h2⟩
  · obtain ⟨t, ht⟩ := Classical.not_forall.1 hp
    obtain ⟨h1, h2⟩ := Classical.not_imp.1 ht
    exact ⟨t, .path h1 h2⟩

theorem ImageName.unique {key : Str} {x : Att F} {i j : Str} (h : ImageName key x i) (h' : ImageName key x j) : i = j := by
  cases h with
  | path e n => cases h' with
    | path e' n' => rw [e] at e'; simpa using e'
    | name p _ _ => exact absurd (p _ e) n
    | key p _ => exact absurd (p _ e) n
  | name p e n => cases h' with
    | path e' n' => exact absurd (p _ e') n'
    | name _ e' _ => rw [e] at e'; simpa using e'
    | key _ q => exact absurd (q _ e) n
  | key p q => cases h' with
    | path e' n' => exact absurd (p _ e') n'
    | name _ e' n' => exact absurd (q _ e') n'
    | key _ _ => rfl

/-- what is known about the attributes of every attachment object: no attribute twice, name and path are texts or null -/
structure Att.Sane (x : Att F) : Prop where
  nodup : (Dict.keys x.attrs).Nodup
  text : ∀ k ∈ [s!!"name", s!!"path"], ∀ v, Dict.get? x.attrs k = some v → v = .null ∨ ∃ t, v = .str t

end Spine
