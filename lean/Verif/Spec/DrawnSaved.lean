import Verif.Spec.Sessions
import Verif.Spec.Drawn
/-
What is drawn, as it stands in the saved document.
-/
namespace Spine
variable {F : Type} [PyRt F]

/-- something drawn, with everything in the form in which it is saved -/
structure Sprite.Saved (F : Type) where
  slot : Slot F
  key : Str
  skin : Str
  att : JVal F
  color : List (JVal F)
  twoColor : List (JVal F)
  deform : Option (JVal F)

/-- the saved form of a sprite; `b`: version 3.8 or newer -/
def Sprite.saved (b : Bool) (p : Sprite F) : Sprite.Saved F :=
  { slot := p.slot, key := p.key, skin := p.skin, att := p.att.toJson b, color := p.color.map (·.toJson b),
    twoColor := p.twoColor.map (·.toJson b), deform := p.deform.map (Anim.jlist deformCls b) }

/-- the animation named `n` draws `w` at the moment `m` with the active skin `skin` -/
def AnimData.DrawsSaved (a : AnimData F) (b : Bool) (n : Str) (m : Moment F) (skin : Str) (w : Sprite.Saved F) : Prop :=
  ∃ p, a.Draws n m skin p ∧ p.saved b = w


/-- no attachment is a mesh linked to one of the skins -/
def AnimData.Unlinked (a : AnimData F) (names : List Str) : Prop :=
  ∀ slot key x, a.HasAtt slot key x → ∀ n ∈ names, ¬ (x.kind = .linked ∧ Dict.get? x.attrs s!!"skin" = some (.str n))

/-- the call does not remove the animation `n`, the skin `skin`, the skin "default" or a skin that a mesh is linked to -/
def Sessions.Call.Spares (c : Sessions.Call) (a : AnimData F) (n skin : Str) : Prop :=
  match c with
  | .clean => True
  | .eraseAnims (.list names) _ _ => n ∉ names
  | .eraseAnims .other _ _ => True
  | .eraseSkins names _ => skin ∉ names ∧ s!!"default" ∉ names ∧ a.Unlinked names

end Spine
