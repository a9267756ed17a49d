import Verif.Lemmas.EraseSkins
/-
What a player shows for an attachment of a skin.

A linked mesh has no vertices of its own: the player gives it the mesh called `parent` under the same slot of the skin
called `skin` (of the skin "default" when it names none), and keeps its own name, path, width, height and colour.  Unless
its attribute `deform` is false it is also bent by the deform timelines of that mesh instead of its own.  This is
knowledge about the Spine runtime, it is not taken from /repo.
-/
namespace Spine
namespace Meshes
variable {F : Type}

/-- the skin a linked mesh takes its mesh from -/
def Source (x : Att F) (n : Str) : Prop :=
  x.attrs.val s!!"skin" = .str n ∨ (x.attrs.val s!!"skin" = .null ∧ n = s!!"default")

/-- the attributes a linked mesh keeps -/
def ownAttrs : List Str := [s!!"name", s!!"path", s!!"width", s!!"height", s!!"color"]

/-- the attributes of the linked mesh `x` when its parent has the attributes `f` -/
def link (x : Att F) (f : Str → JVal F) : Str → JVal F := fun k => if k ∈ ownAttrs then x.attrs.val k else f k

/-- The attachment of the skin `n` under this slot and key looks like one of the given kind with these attributes. -/
inductive Looks (skins : List (Skin F)) : Str → Str → Str → AttKind → (Str → JVal F) → Prop
  | plain {n s slot key x} : IsSkin skins n s → s.At slot key x → x.kind ≠ .linked → Looks skins n slot key x.kind x.attrs.val
  | linked {n s slot key x m p k f} : IsSkin skins n s → s.At slot key x → x.kind = .linked → Source x m →
      x.attrs.val s!!"parent" = .str p → Looks skins m slot p k f → Looks skins n slot key k (link x f)

/-- the deform timelines of an animation: by skin, slot and key, the keyframes -/
abbrev Deforms (F : Type) := Dict (Dict (Dict (List (Attrs F))))

/-- the keyframes written for the attachment -/
def keyframes (d : Deforms F) (n slot key : Str) : List (Attrs F) :=
  match Dict.get? d n with
  | none => []
  | some d => match Dict.get? d slot with
    | none => []
    | some d => (Dict.get? d key).getD []

/-- the attachment is bent by the timelines of the mesh it is linked to -/
def Follows (x : Att F) : Prop := x.kind = .linked ∧ x.attrs.val s!!"deform" ≠ .bool false

/-- The attachment of the skin `n` under this slot and key is bent by these keyframes. -/
inductive Bends (skins : List (Skin F)) (d : Deforms F) : Str → Str → Str → List (Attrs F) → Prop
  | own {n s slot key x} : IsSkin skins n s → s.At slot key x → ¬ Follows x → Bends skins d n slot key (keyframes d n slot key)
  | parent {n s slot key x m p t} : IsSkin skins n s → s.At slot key x → Follows x → Source x m →
      x.attrs.val s!!"parent" = .str p → Bends skins d m slot p t → Bends skins d n slot key t

end Meshes
end Spine
