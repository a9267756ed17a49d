import Verif.Spec.Visible
import Verif.Spec.DrawOrder
/-
What a Spine runtime draws: which attachment every slot shows at a moment of an animation, with which active skin, and in which
order.  Written from the documentation of the runtimes, not from /repo.
-/
namespace Spine
variable {F : Type} [PyRt F]

/-- a moment of an animation: the keyframe times it has reached; time zero has always been reached -/
structure Moment (F : Type) [PyRt F] where
  reached : JVal F → Prop
  zero : ∀ t, JVal.pyEq t (.int 0) = true → reached t

/-- the time of a keyframe of a slot -/
def SlotKf.time (k : SlotKf F) : JVal F := k.rest.val s!!"time"

/-- the animation `x` at the moment `m` shows the attachment name `k` on the slot: that of the last keyframe reached; before the
first keyframe, or without timeline, that of the setup pose -/
inductive Anim.Current (x : Anim F) (m : Moment F) (s : Slot F) (k : Str) : Prop
  | setup : s.name ∉ Dict.keys x.slots → s.attachment = some k → Current x m s k
  | before {t : SlotTl F} : (s.name, t) ∈ x.slots → (∀ f ∈ t.attachment, ¬ m.reached f.time) → s.attachment = some k →
      Current x m s k
  | keyframe {t : SlotTl F} {l r : List (SlotKf F)} {f : SlotKf F} : (s.name, t) ∈ x.slots → t.attachment = l ++ f :: r →
      m.reached f.time → (∀ g ∈ r, ¬ m.reached g.time) → f.name = some k → Current x m s k

/-- the skin named `skin` has the attachment -/
def AnimData.SkinHas (a : AnimData F) (skin slot k : Str) (x : Att F) : Prop :=
  ∃ s ∈ a.skins, s.name = skin ∧ ∃ d, (slot, d) ∈ s.attachments ∧ (k, x) ∈ d

/-- with the active skin `skin`, the name `k` stands on the slot for the attachment `x` of the skin `from'`: the active skin, or
the skin "default" for what the active skin does not have -/
inductive AnimData.Finds (a : AnimData F) (skin slot k from' : Str) (x : Att F) : Prop
  | active : from' = skin → a.SkinHas skin slot k x → Finds a skin slot k from' x
  | default : from' = s!!"default" → (∀ y, ¬ a.SkinHas skin slot k y) → a.SkinHas s!!"default" slot k x → Finds a skin slot k from' x

/-- something drawn: the slot with its bone, colours and blend mode, the attachment with its name and skin, and the keyframes that
change its colours and its shape -/
structure Sprite (F : Type) where
  slot : Slot F
  key : Str
  skin : Str
  att : Att F
  color : List (SlotKf F)
  twoColor : List (SlotKf F)
  deform : Option (List (Attrs F))

/-- the keyframes that change the colours of a slot -/
def Anim.colours (x : Anim F) (n : Str) : List (SlotKf F) × List (SlotKf F) :=
  match Dict.get? x.slots n with
  | none => ([], [])
  | some t => (t.color, t.twoColor)

/-- the keyframes that change the shape of an attachment -/
def Anim.deforms (x : Anim F) (skin slot k : Str) : Option (List (Attrs F)) :=
  (Dict.get? x.deform skin).bind (fun d => (Dict.get? d slot).bind (fun d => Dict.get? d k))

/-- the animation named `n` draws `p` at the moment `m` with the active skin `skin` -/
def AnimData.Draws (a : AnimData F) (n : Str) (m : Moment F) (skin : Str) (p : Sprite F) : Prop :=
  ∃ x, (n, x) ∈ a.animations ∧ p.slot ∈ a.slots ∧ x.Current m p.slot p.key ∧
    a.Finds skin p.slot.name p.key p.skin p.att ∧ (p.color, p.twoColor) = x.colours p.slot.name ∧
    (Transparent p.slot → p.color ≠ [] ∨ p.twoColor ≠ []) ∧ p.deform = x.deforms p.skin p.slot.name p.key

/-- `L` is the order in which the animation named `n` draws the slots at the moment `m`: by the last drawOrder keyframe reached, or
as in the setup pose -/
inductive AnimData.Order (a : AnimData F) (n : Str) (m : Moment F) (L : List (Slot F)) : Prop
  | setup {x : Anim F} : (n, x) ∈ a.animations → (∀ t ∈ x.drawOrder, ¬ m.reached t.time) → L = a.slots → Order a n m L
  | keyframe {x : Anim F} {l r : List (DrawTl F)} {t : DrawTl F} : (n, x) ∈ a.animations → x.drawOrder = l ++ t :: r →
      m.reached t.time → (∀ u ∈ r, ¬ m.reached u.time) → DrawOrder.Realises Slot.name t.offsets a.slots L → Order a n m L

/-- the picture: everything that is drawn, from back to front -/
structure AnimData.Picture (a : AnimData F) (n : Str) (m : Moment F) (skin : Str) (l : List (Sprite F)) : Prop where
  drawn : ∀ p, p ∈ l ↔ a.Draws n m skin p
  order : ∃ L, a.Order n m L ∧ (l.map (·.slot)).Sublist L

end Spine
