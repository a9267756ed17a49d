import Verif.Model.Data
import Verif.Model.Tags
import Verif.Model.DrawOrder
import Verif.Model.Graph
/-
Model of the methods of `SpineAnimationData` (data/spine_anim_data.py 88-320) and of the helpers they use in slot.py,
bone.py and animation.py.

Sets of strings are lists read through membership; `PyRt.setOrder` gives the order in which a set is iterated.
-/
namespace Spine
open JVal
variable {F : Type}

/-! ### Loops that change objects in place -/

/-- `for x in l: f(x)` where `f` changes `x` in place; the loop stops at the first exception, with the changes made so far -/
def mapMut {α : Type} (f : α → Res α Unit) : List α → Res (List α) Unit
  | [] => (.ok (), [])
  | x :: r => match f x with
    | (.error e, x) => (.error e, x :: r)
    | (.ok _, x) => let q := mapMut f r; (q.1, x :: q.2)

/-- `for k, v in d.items(): f(k, v)` with `v` changed in place (or `d[k]` replaced) -/
def mapMutD {α : Type} (f : Str → α → Res α Unit) (d : Dict α) : Res (Dict α) Unit :=
  mapMut (fun p => let q := f p.1 p.2; (q.1, (p.1, q.2))) d

/-- Python `a or b` on two optional strings -/
def pyOr (a b : Option Str) : Option Str :=
  match a with
  | some (c :: s) => some (c :: s)
  | _ => b

/-! ### Slots and slot timelines (slot.py) -/

/-- `SlotKeyframe.is_empty` (57-58) -/
def SlotKf.isEmpty (k : SlotKf F) : Bool := k.name == some s!!"None" || k.name == none

namespace SlotTl
variable [PyRt F]

/-- `attachment[0].time == 0` -/
def timeZero (k : SlotKf F) : Bool := pyEq (k.rest.val s!!"time") (.int 0)

/-- `SlotTimeline.is_empty` (82-98) -/
def isEmpty (t : SlotTl F) : Bool :=
  t.color.isEmpty && t.twoColor.isEmpty &&
    (match t.attachment with
      | [] => true
      | [k] => k.isEmpty && timeZero k
      | _ => false)

/-- `get_used_attachments` (100-105) -/
def usedAttachments (t : SlotTl F) : List (Option Str) := (t.attachment.filter (fun k => !k.isEmpty)).map (·.name)

/-- `has_color` (107-108) -/
def hasColor (t : SlotTl F) : Bool := !t.color.isEmpty || !t.twoColor.isEmpty
end SlotTl

/-! ### Bones (bone.py) -/

/-- `Bone.scale` (45-47): `scaleX *= sx` first, kept when `scaleY *= sy` then raises.  A list (which Python would extend
in place, shared with the graph) is not modelled. -/
def Bone.scale [PyRt F] (sx sy : Num F) (b : Bone F) : Res (Bone F) Unit :=
  match b.rest.val s!!"scaleX", b.rest.val s!!"scaleY" with
  | .list _, _ => (.error .unmodelled, b)
  | _, .list _ => (.error .unmodelled, b)
  | x, y => match pyMul x sx with
    | .error e => (.error e, b)
    | .ok x' =>
      let b' := { b with rest := Dict.set b.rest s!!"scaleX" x' }
      match pyMul y sy with
      | .error e => (.error e, b')
      | .ok y' => (.ok (), { b' with rest := Dict.set b'.rest s!!"scaleY" y' })

/-! ### Colours (spine_anim_data.py 200) -/

/-- value of a hexadecimal digit accepted by `int(…, 16)` -/
def hexVal (F : Type) [PyRt F] (c : Char) : Option Nat :=
  match PyRt.digitVal F c with
  | some d => some d
  | none =>
    if 'a' ≤ c ∧ c ≤ 'f' then some (c.toNat - 87)
    else if 'A' ≤ c ∧ c ≤ 'F' then some (c.toNat - 55)
    else none

/-- `s.rstrip()` -/
def rstrip (F : Type) [PyRt F] (s : Str) : Str := (s.reverse.dropWhile (PyRt.isSpace F)).reverse

/-- `int("0x" + s, 16)`: trailing blanks, one underscore after the prefix and single underscores between digits are
allowed; `none` = ValueError -/
def hexColor (F : Type) [PyRt F] (s : Str) : Option Nat :=
  let digits (t : Str) : Option Nat :=
    match t with
    | c :: r => match hexVal F c with
      | some d => digitsTail (hexVal F) 16 d r
      | none => none
    | [] => none
  match rstrip F s with
  | '_' :: t => digits t
  | t => digits t

namespace AnimData
variable [PyRt F]

/-- `get_slot` (88-92) -/
def getSlot (a : AnimData F) (n : Str) : Option (Slot F) := a.slots.find? (fun s => s.name == n)

/-- `get_bone` (120-124); `None` is the name of no bone -/
def getBone (a : AnimData F) (n : Option Str) : Option (Bone F) :=
  match n with
  | none => none
  | some n => a.bones.find? (fun b => b.name == n)

/-- `get_skin` (126-130) -/
def getSkin (a : AnimData F) (n : Str) : Option (Skin F) := a.skins.find? (fun s => s.name == n)

/-- the loop of `get_bone_custom_scale_recursive` (99-107).  It visits one bone per round; when it has not stopped after
`number of bones + 1` rounds it never does (proved: C33). -/
def boneScaleLoop (a : AnimData F) : Nat → F → Option (Bone F) → Except Err F
  | 0, _, _ => .error .diverge
  | _ + 1, _, none => .error .attribute
  | n + 1, acc, some b =>
    if b.name = s!!"root" then .ok acc
    else match Tags.scaleInName F b.name with
      | .error e => .error e
      | .ok s => boneScaleLoop a n (PyRt.fmul acc s) (getBone a b.parent)

/-- `get_slot_custom_scale` (109-118); the argument is the result of `get_slot` (`None.bone` is an AttributeError) -/
def slotScale (a : AnimData F) (s : Option (Slot F)) : Except Err F :=
  match s with
  | none => .error .attribute
  | some s => match Tags.scaleInName F s.name with
    | .error e => .error e
    | .ok x => match boneScaleLoop a (a.bones.length + 1) PyRt.fone (getBone a s.bone) with
      | .error e => .error e
      | .ok y => .ok (PyRt.fmul x y)

/-! #### remove_skin (132-191) -/

/-- `isinstance(slot_data, SkinLinkedMesh) and slot_data.skin == skin_name` (147-150) -/
def linksTo (n : Str) (x : Att F) : Bool :=
  match x.kind, x.attrs.val s!!"skin" with
  | .linked, .str s => s == n
  | _, _ => false

/-- the copy of the parent mesh with four attributes of the linked mesh (158-162) -/
def relinked (parent x : Att F) : Att F :=
  { parent with attrs := Dict.set (Dict.set (Dict.set (Dict.set parent.attrs s!!"name" (x.attrs.val s!!"name"))
      s!!"path" (x.attrs.val s!!"path")) s!!"width" (x.attrs.val s!!"width")) s!!"height" (x.attrs.val s!!"height") }

/-- loop body 146-164; the mesh is looked up under the same slot and the same key (KeyError) -/
def relinkAtt (gone : Skin F) (n slot key : Str) (x : Att F) : Res (Att F) Unit :=
  if linksTo n x then
    match Dict.get? gone.attachments slot with
    | none => (.error .key, x)
    | some e => match Dict.get? e key with
      | none => (.error .key, x)
      | some p => (.ok (), relinked p x)
  else (.ok (), x)

/-- loop body 143-164 -/
def relinkSkin (gone : Skin F) (n : Str) (s : Skin F) : Res (Skin F) Unit :=
  if s.name = n then (.ok (), s)
  else
    let q := mapMutD (fun slot e => mapMutD (fun key x => relinkAtt gone n slot key x) e) s.attachments
    (q.1, { s with attachments := q.2 })

/-- what one attachment of the removed skin contributes (170-180): an image of `removed_images`, or an image of
`removed_attachments` -/
inductive Gone where
  | image (i : Option Str)
  | region (i : Str)

/-- loop body 170-180 -/
def goneOf (x : Att F) : Except Err (List Gone) :=
  match x.kind with
  | .region => do
    let p ← x.strAttr s!!"path"
    match pyOr p none with
    | some i => return [.region i]
    | none => do
      let n ← x.strAttr s!!"name"
      match pyOr p n with
      | some i => return [.region i]
      | none => return []
  | .mesh | .linked => do
    let p ← x.strAttr s!!"path"
    match pyOr p none with
    | some i => return [.image (some i)]
    | none => do
      let n ← x.strAttr s!!"name"
      return [.image (pyOr p n)]
  | _ => match Dict.get? x.attrs s!!"path" with
    | none => .ok []
    | some v => do
      match ← optStr v with
      | some i => return [.image (some i)]
      | none => return []

/-- the attachments of a skin, slot by slot -/
def skinAtts (s : Skin F) : List (Att F) := s.attachments.flatMap (fun p => p.2.map (·.2))

/-- `removed_images` and the paths of `removed_attachments`, in order (167-180).  The nested dict `removed_attachments` is
only read value by value (spine_animation_editor.py 81-84) and its keys are distinct, so the values are kept. -/
def removedImages (s : Skin F) : Except Err (List (Option Str) × List Str) := do
  let l ← mapE goneOf (skinAtts s)
  let l := l.flatten
  return (l.filterMap (fun | .image i => some i | .region _ => none), l.filterMap (fun | .region i => some i | .image _ => none))

/-- deform timelines of the skin removed (185-187) -/
def dropDeform (n : Str) (x : Anim F) : Anim F := { x with deform := Dict.del x.deform n }

/-- `remove_skin` (132-191) -/
def removeSkin (n : Str) (a : AnimData F) : Res (AnimData F) (List (Option Str) × List Str) :=
  match getSkin a n with
  | none => (.error .editor, a)
  | some gone =>
    let q := mapMut (relinkSkin gone n) a.skins
    let a := { a with skins := q.2 }
    match q.1 with
    | .error e => (.error e, a)
    | .ok _ => match removedImages gone with
      | .error e => (.error e, a)
      | .ok r =>
        let an := dmap (dropDeform n) a.animations
        (.ok r, { a with animations := an, skins := a.skins.filter (fun s => s.name ≠ n) })

/-! #### Unused slots and attachments (193-320) -/

/-- `get_slots_with_alpha_zero` (193-203) -/
def alphaZero : List (Slot F) → Except Err (List Str)
  | [] => .ok []
  | s :: r => match s.color with
    | none => alphaZero r
    | some c => match hexColor F c with
      | none => .error .value
      | some n => match alphaZero r with
        | .error e => .error e
        | .ok l => .ok (if n % 256 = 0 then s.name :: l else l)

/-- `get_slots_not_visible_in_setup_pose` (205-219) -/
def noSetup (l : List (Slot F)) : List Str :=
  (l.filter (fun s => s.attachment.isNone && s.dark.isNull && s.blend.isNull && s.color.isNone)).map (·.name)

/-- `{slot.name: slot for slot in self.slots if slot.name}[slot_id]` (234, 240): the last slot of a non-empty name -/
def slotsDict (a : AnimData F) (n : Str) : Option (Slot F) :=
  if n = [] then none else a.slots.reverse.find? (fun s => s.name == n)

/-- state of the loop 236-261: visible slots, `anim_used_attachments` -/
abbrev Vis := List Str × Dict (List (Option Str))

/-- the attachments an animated slot uses (239-241) -/
def slotUsed (s : Slot F) (t : SlotTl F) : List (Option Str) :=
  t.usedAttachments ++ (match s.attachment with
    | none => []
    | some x => [some x])

/-- the slot is not shown by this timeline (247-251) -/
def discarded (alpha noset : List Str) (n : Str) (s : Slot F) (t : SlotTl F) : Bool :=
  t.isEmpty || (decide (n ∈ alpha) && !t.hasColor) || (decide (n ∈ noset) && (slotUsed s t).isEmpty)

/-- loop body 236-261 -/
def visStep (a : AnimData F) (alpha noset : List Str) (v : Vis) (p : Str × SlotTl F) : Except Err Vis :=
  match slotsDict a p.1 with
  | none => .error .key
  | some s =>
    if discarded alpha noset p.1 s p.2 then .ok (v.1.filter (· ≠ p.1), Dict.set v.2 p.1 [])
    else .ok (p.1 :: v.1, Dict.set v.2 p.1 (slotUsed s p.2))

/-- the dict comprehension 227-232 -/
def setupUsed (a : AnimData F) (visible : List Str) : Dict (List (Option Str)) :=
  (a.slots.filter (fun s => s.name ∈ visible)).foldl (fun d s => Dict.set d s.name [s.attachment]) []

/-- `get_visible_slots_and_attachments` (221-263) -/
def visibleIn (a : AnimData F) (slots : Dict (SlotTl F)) (visible alpha noset : List Str) : Except Err Vis :=
  Graph.foldE (visStep a alpha noset) (visible, setupUsed a visible) slots

/-- loop body 285-299: `reduce` of an empty sequence is a TypeError -/
def usedStep (a : AnimData F) (visible alpha noset : List Str) (acc : List Str × List (Option Str)) (x : Anim F) :
    Except Err (List Str × List (Option Str)) :=
  match visibleIn a x.slots visible alpha noset with
  | .error e => .error e
  | .ok (v, u) => if u.isEmpty then .error .type else .ok (acc.1 ++ v, acc.2 ++ (Dict.values u).flatten)

/-- loop body 306-318: the attachments of a skin to remove -/
def unusedIn (used : List (Option Str)) (invisible : List Str) (s : Skin F) : List Str :=
  s.attachments.flatMap (fun p => (p.2.filter (fun q =>
    decide (some q.1 ∉ used) && !(q.2.kind == .mesh && decide (p.1 ∉ invisible)))).map (·.1))

/-- `get_unused_slots_and_attachments` (265-320): the two sets, without duplicates -/
def unused (a : AnimData F) : Except Err (List Str × List Str) :=
  match alphaZero a.slots with
  | .error e => .error e
  | .ok alpha =>
    let noset := noSetup a.slots
    let names := a.slots.map (·.name)
    let visible := names.filter (fun n => n ∉ alpha ++ noset)
    match Graph.foldE (usedStep a visible alpha noset) ([], []) (Dict.values a.animations) with
    | .error e => .error e
    | .ok (v, used) =>
      let inv := names.filter (fun n => n ∉ v)
      .ok (inv.eraseDups, (a.skins.flatMap (unusedIn used inv)).eraseDups)

end AnimData
end Spine
