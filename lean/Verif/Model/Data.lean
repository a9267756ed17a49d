import Verif.Model.Leaf
/-
Model of the document classes: constructors, `set_default_values`, `to_json` for
`SpineAnimationData` (data/spine_anim_data.py 31-86) and everything below it.

Simplifications
* names that the library uses as names (bone/slot names, parents, setup attachments, slot colours, keyframe names, drawOrder
  slots, skin names, image paths) must be strings (or null where a null makes sense) and drawOrder offsets must be ints;
  other documents are rejected with `Err.unmodelled`;
* `Skin38` and `DrawOrderTimelineOffset` objects are only created while loading, right before defaults are applied:
  their null name / slot / attachments is replaced by the default immediately.
-/
namespace Spine
open JVal
variable {F : Type}

/-! ### Python helpers -/

/-- `for x in v` -/
def iter : JVal F → Except Err (List (JVal F))
  | .list l => .ok l
  | .dict d => .ok (d.map (fun p => .str p.1))
  | .str s => .ok (s.map (fun c => .str [c]))
  | _ => .error .type

/-- the pairs (key, v[key]) for `key in v`.  A non-empty list is not modelled (`v[element]`). -/
def dictItems : JVal F → Except Err (Dict (JVal F))
  | .dict d => .ok d
  | .list [] => .ok []
  | .list _ => .error .unmodelled
  | .str [] => .ok []
  | _ => .error .type

/-- `v.items()` -/
def itemsOf : JVal F → Except Err (Dict (JVal F))
  | .dict d => .ok d
  | _ => .error .attribute

/-- `values or {}` followed by `.get` -/
def orDict [PyRt F] (v : JVal F) : Except Err (Dict (JVal F)) :=
  if truthy v then match v with
    | .dict d => .ok d
    | _ => .error .attribute
  else .ok []

/-- `for x in values.get(k, [])` -/
def getIter (d : Dict (JVal F)) (k : Str) : Except Err (List (JVal F)) :=
  match Dict.get? d k with
  | none => .ok []
  | some v => iter v

/-- `d[k]` -/
def getItem (d : Dict (JVal F)) (k : Str) : Except Err (JVal F) :=
  match Dict.get? d k with
  | none => .error .key
  | some v => .ok v

/-- `[f(x) for x in l]` -/
def mapE {α β : Type} (f : α → Except Err β) : List α → Except Err (List β)
  | [] => .ok []
  | a :: as => match f a with
    | .error e => .error e
    | .ok b => match mapE f as with
      | .error e => .error e
      | .ok bs => .ok (b :: bs)

/-- `{k: f(v) for k, v in d.items()}` -/
def mapD {α β : Type} (f : α → Except Err β) (d : Dict α) : Except Err (Dict β) :=
  mapE (fun p => match f p.2 with
    | .ok b => .ok (p.1, b)
    | .error e => .error e) d

/-- an optional string -/
def optJ : Option Str → JVal F
  | none => .null
  | some s => .str s

/-- a string or null; anything else is not modelled -/
def optStr : JVal F → Except Err (Option Str)
  | .null => .ok none
  | .str s => .ok (some s)
  | _ => .error .unmodelled

/-- attribute of an object that has it -/
def Attrs.val (a : Attrs F) (k : Str) : JVal F := (Dict.get? a k).getD .null

/-- remove the attributes kept as typed fields -/
def Attrs.without (a : Attrs F) (ks : List Str) : Attrs F := a.filter (fun p => p.1 ∉ ks)

/-! ### Bones and slots -/

/-- `Bone` (bone.py 25-43); `rest` holds the other attributes -/
structure Bone (F : Type) where
  name : Str
  parent : Option Str
  rest : Attrs F

namespace Bone
def attrs (b : Bone F) : Attrs F := (s!!"name", .str b.name) :: (s!!"parent", optJ b.parent) :: b.rest

variable [PyRt F]

/-- `Bone(values)` -/
def init (v : JVal F) : Except Err (Bone F) := do
  let a ← boneCls.init v
  match ← optStr (a.val s!!"name") with
  | none => .error .unmodelled
  | some n => do
    let p ← optStr (a.val s!!"parent")
    return { name := n, parent := p, rest := a.without [s!!"name", s!!"parent"] }

def setDefaults (v38 : Bool) (b : Bone F) : Bone F := { b with rest := boneCls.setDefaults v38 b.rest }
def toJson (v38 : Bool) (b : Bone F) : JVal F := boneCls.toJson v38 b.attrs
end Bone

/-- `Slot` (slot.py 12-22) -/
structure Slot (F : Type) where
  name : Str
  bone : Option Str
  attachment : Option Str
  color : Option Str
  dark : JVal F
  blend : JVal F

namespace Slot
def attrs (s : Slot F) : Attrs F :=
  [(s!!"name", .str s.name), (s!!"bone", optJ s.bone), (s!!"attachment", optJ s.attachment), (s!!"color", optJ s.color),
   (s!!"dark", s.dark), (s!!"blend", s.blend)]

variable [PyRt F]

/-- `Slot(values)`; a slot has no defaults (slot.py 8-9) -/
def init (v : JVal F) : Except Err (Slot F) := do
  let a ← slotCls.init v
  match ← optStr (a.val s!!"name") with
  | none => .error .unmodelled
  | some n => do
    let b ← optStr (a.val s!!"bone")
    let t ← optStr (a.val s!!"attachment")
    let c ← optStr (a.val s!!"color")
    return { name := n, bone := b, attachment := t, color := c, dark := a.val s!!"dark", blend := a.val s!!"blend" }

def toJson (v38 : Bool) (s : Slot F) : JVal F := slotCls.toJson v38 s.attrs
end Slot

/-! ### Skins -/

/-- the classes chosen by `parse_skin_attachment_data` -/
inductive AttKind where
  | region | mesh | path | linked | point | clipping | bbox
  deriving DecidableEq, Repr

def AttKind.cls [PyRt F] : AttKind → Cls F
  | .region => regionCls
  | .mesh => meshCls
  | .path => skinPathCls
  | .linked => linkedMeshCls
  | .point => pointCls
  | .clipping => clippingCls
  | .bbox => boundingBoxCls

/-- an attachment object; attributes assigned later (remove_skin) are appended -/
structure Att (F : Type) where
  kind : AttKind
  attrs : Attrs F

namespace Att
/-- `obj.k`: AttributeError when the object has no such attribute; null or a string -/
def strAttr (a : Att F) (k : Str) : Except Err (Option Str) :=
  match Dict.get? a.attrs k with
  | none => .error .attribute
  | some v => optStr v

variable [PyRt F]

/-- the `if` chain of `parse_skin_attachment_data` (skin.py 34-54) -/
def kindOf (d : Dict (JVal F)) : Except Err AttKind :=
  match Dict.get? d s!!"type" with
  | none => .ok .region
  | some .null => .ok .region
  | some (.str t) =>
    if t = s!!"path" then .ok .path
    else if t = s!!"mesh" then .ok .mesh
    else if t = s!!"linkedmesh" then .ok .linked
    else if t = s!!"point" then .ok .point
    else if t = s!!"clipping" then .ok .clipping
    else if t = s!!"boundingbox" then .ok .bbox
    else .error .value
  | some _ => .error .value

/-- name and path are null or strings -/
def typed (a : Attrs F) : Bool :=
  [s!!"name", s!!"path"].all (fun k => match Dict.get? a k with
    | none => true
    | some .null => true
    | some (.str _) => true
    | some _ => false)

/-- loop body 33-54: `skin_data.get` on a non-dict is an AttributeError -/
def init (v : JVal F) : Except Err (Att F) :=
  match v with
  | .dict d => do
    let k ← kindOf d
    let a ← (AttKind.cls k).init v
    if typed a then return { kind := k, attrs := a } else .error .unmodelled
  | _ => .error .attribute

def setDefaults (v38 : Bool) (a : Att F) : Att F := { a with attrs := (AttKind.cls a.kind).setDefaults v38 a.attrs }
def toJson (v38 : Bool) (a : Att F) : JVal F := (AttKind.cls a.kind).toJson v38 a.attrs
end Att

/-- `Skin38` (skin.py 58-71); slot name ↦ attachment name ↦ attachment -/
structure Skin (F : Type) where
  name : Str
  attachments : Dict (Dict (Att F))

namespace Skin
variable [PyRt F]

/-- dictionaries of attachments; other shapes are not modelled -/
def level (v : JVal F) : Except Err (Dict (JVal F)) :=
  match v with
  | .dict d => .ok d
  | _ => .error .unmodelled

/-- `parse_skin_attachment_data` (skin.py 28-55) -/
def parseAttachments (v : JVal F) : Except Err (Dict (Dict (Att F))) := do
  let d ← level v
  mapD (fun w => do
    let e ← level w
    mapD Att.init e) d

/-- `Skin38(values)` (62-71) with the defaults `{"name": "", "attachments": {}}` (59) -/
def init (v : JVal F) : Except Err (Skin F) := do
  let d ← orDict v
  Cls.check [s!!"name", s!!"attachments"] [] d
  let n ← optStr ((Dict.get? d s!!"name").getD .null)
  match (Dict.get? d s!!"attachments").getD .null with
  | .null => return { name := n.getD [], attachments := [] }
  | w => do
    let at' ← parseAttachments w
    return { name := n.getD [], attachments := at' }

def setDefaults (v38 : Bool) (s : Skin F) : Skin F :=
  { s with attachments := s.attachments.map (fun p => (p.1, p.2.map (fun q => (q.1, q.2.setDefaults v38)))) }

/-- `to_json`: the name is dropped when "", the attachments when {} -/
def toJson (v38 : Bool) (s : Skin F) : JVal F :=
  .dict ((if s.name = [] then [] else [(s!!"name", .str s.name)]) ++
    (if s.attachments = [] then [] else
      [(s!!"attachments", .dict (s.attachments.map (fun p => (p.1, .dict (p.2.map (fun q => (q.1, q.2.toJson v38)))))))]))
end Skin

/-! ### Timelines -/

/-- `SlotKeyframe` (slot.py 42-55) -/
structure SlotKf (F : Type) where
  name : Option Str
  rest : Attrs F

namespace SlotKf
def attrs (k : SlotKf F) : Attrs F := (s!!"name", optJ k.name) :: k.rest
variable [PyRt F]
def init (v : JVal F) : Except Err (SlotKf F) := do
  let a ← slotKeyframeCls.init v
  let n ← optStr (a.val s!!"name")
  return { name := n, rest := a.without [s!!"name"] }
def setDefaults (v38 : Bool) (k : SlotKf F) : SlotKf F := { k with rest := slotKeyframeCls.setDefaults v38 k.rest }
def toJson (v38 : Bool) (k : SlotKf F) : JVal F := slotKeyframeCls.toJson v38 k.attrs
end SlotKf

/-- a list attribute whose default is `[]`: dropped when empty -/
def jl {α : Type} (k : Str) (f : α → JVal F) (l : List α) : Dict (JVal F) :=
  if l.isEmpty then [] else [(k, .list (l.map f))]

/-- a dict attribute whose default is `{}`: dropped when empty -/
def jd {α : Type} (k : Str) (f : α → JVal F) (d : Dict α) : Dict (JVal F) :=
  if d.isEmpty then [] else [(k, .dict (d.map (fun p => (p.1, f p.2))))]

/-- values of a dict mapped -/
def dmap {α β : Type} (f : α → β) (d : Dict α) : Dict β := d.map (fun p => (p.1, f p.2))

/-- `SlotTimeline` (slot.py 61-80) -/
structure SlotTl (F : Type) where
  attachment : List (SlotKf F)
  color : List (SlotKf F)
  twoColor : List (SlotKf F)

namespace SlotTl
variable [PyRt F]
def init (v : JVal F) : Except Err (SlotTl F) := do
  let d ← orDict v
  let a ← getIter d s!!"attachment"
  let a ← mapE SlotKf.init a
  let c ← getIter d s!!"color"
  let c ← mapE SlotKf.init c
  let t ← getIter d s!!"twoColor"
  let t ← mapE SlotKf.init t
  Cls.check [s!!"attachment", s!!"color", s!!"twoColor"] [] d
  return { attachment := a, color := c, twoColor := t }
def setDefaults (v38 : Bool) (t : SlotTl F) : SlotTl F :=
  { attachment := t.attachment.map (·.setDefaults v38), color := t.color.map (·.setDefaults v38),
    twoColor := t.twoColor.map (·.setDefaults v38) }
def toJson (v38 : Bool) (t : SlotTl F) : JVal F :=
  .dict (jl s!!"attachment" (·.toJson v38) t.attachment ++ jl s!!"color" (·.toJson v38) t.color ++
    jl s!!"twoColor" (·.toJson v38) t.twoColor)
end SlotTl

/-- `BoneTimeline` (bone.py 114-140) -/
structure BoneTl (F : Type) where
  rotate : List (Attrs F)
  translate : List (Attrs F)
  scale : List (Attrs F)
  shear : List (Attrs F)

namespace BoneTl
variable [PyRt F]
def init (v : JVal F) : Except Err (BoneTl F) := do
  let d ← orDict v
  let r ← getIter d s!!"rotate"
  let r ← mapE boneRotateCls.init r
  let t ← getIter d s!!"translate"
  let t ← mapE boneTranslateCls.init t
  let s ← getIter d s!!"scale"
  let s ← mapE boneRotateCls.init s
  let h ← getIter d s!!"shear"
  let h ← mapE boneTranslateCls.init h
  Cls.check [s!!"rotate", s!!"translate", s!!"scale", s!!"shear"] [] d
  return { rotate := r, translate := t, scale := s, shear := h }
def setDefaults (v38 : Bool) (t : BoneTl F) : BoneTl F :=
  { rotate := t.rotate.map (boneRotateCls.setDefaults v38), translate := t.translate.map (boneTranslateCls.setDefaults v38),
    scale := t.scale.map (boneRotateCls.setDefaults v38), shear := t.shear.map (boneTranslateCls.setDefaults v38) }
def toJson (v38 : Bool) (t : BoneTl F) : JVal F :=
  .dict (jl s!!"rotate" (boneRotateCls.toJson v38) t.rotate ++ jl s!!"translate" (boneTranslateCls.toJson v38) t.translate ++
    jl s!!"scale" (boneRotateCls.toJson v38) t.scale ++ jl s!!"shear" (boneTranslateCls.toJson v38) t.shear)
end BoneTl

/-- `DrawOrderTimelineOffset(values)` (draworder.py 14-20) with its default `{"slot": ""}` -/
def offsetInit [PyRt F] (v : JVal F) : Except Err (Str × Int) := do
  let a ← offsetCls.init v
  let s ← optStr (a.val s!!"slot")
  match a.val s!!"offset" with
  | .int i => return (s.getD [], i)
  | _ => .error .unmodelled

def offsetToJson [PyRt F] (v38 : Bool) (o : Str × Int) : JVal F :=
  offsetCls.toJson v38 [(s!!"slot", .str o.1), (s!!"offset", .int o.2)]

/-- `DrawOrderTimeline` (draworder.py 23-35) -/
structure DrawTl (F : Type) where
  time : JVal F
  offsets : List (Str × Int)

/-- the constants of `DrawOrderTimeline` (24-25); the key "offset" is not an attribute of the class -/
def drawCls : Cls F where
  attrs := [s!!"time", s!!"offsets"]
  defaults := [(s!!"offset", .list [])]
  defaults38 := [(s!!"time", .int 0), (s!!"offset", .list [])]
  required := []
  unsupportedOld := []
  orStyle := true

namespace DrawTl
variable [PyRt F]
def init (v : JVal F) : Except Err (DrawTl F) := do
  let d ← orDict v
  let o ← getIter d s!!"offsets"
  let o ← mapE offsetInit o
  Cls.check [s!!"time", s!!"offsets"] [] d
  return { time := (Dict.get? d s!!"time").getD (.int 0), offsets := o }
def setDefaults (v38 : Bool) (t : DrawTl F) : DrawTl F :=
  { t with time := ((drawCls (F := F)).setDefaults v38 [(s!!"time", t.time)]).val s!!"time" }
/-- "offsets" has no default, so it is always written -/
def toJson (v38 : Bool) (t : DrawTl F) : JVal F :=
  .dict ((if drawCls.emits v38 s!!"time" t.time then [(s!!"time", t.time)] else []) ++
    [(s!!"offsets", .list (t.offsets.map (offsetToJson v38)))])
end DrawTl

/-- `Animation` (animation.py 14-65) -/
structure Anim (F : Type) where
  ik : Dict (List (Attrs F))
  drawOrder : List (DrawTl F)
  bones : Dict (BoneTl F)
  slots : Dict (SlotTl F)
  events : List (Attrs F)
  transform : Dict (List (Attrs F))
  path : Dict (Dict (List (Attrs F)))
  deform : Dict (Dict (Dict (List (Attrs F))))

namespace Anim
variable [PyRt F]

/-- `{key: f(values[k][key]) for key in values.get(k, {})}` -/
def getDict {α : Type} (d : Dict (JVal F)) (k : Str) (f : JVal F → Except Err α) : Except Err (Dict α) :=
  match Dict.get? d k with
  | none => .ok []
  | some v => do
    let e ← dictItems v
    mapD f e

/-- `[C(x) for x in v]` -/
def listOf (c : Cls F) (v : JVal F) : Except Err (List (Attrs F)) := do
  let l ← iter v
  mapE c.init l

/-- `parse_path` (67-77) -/
def parsePath (v : JVal F) : Except Err (Dict (Dict (List (Attrs F)))) := do
  let d ← itemsOf v
  mapD (fun w => do
    let e ← itemsOf w
    mapD (listOf pathTimelineCls) e) d

/-- `parse_deform` (79-92) -/
def parseDeform (v : JVal F) : Except Err (Dict (Dict (Dict (List (Attrs F))))) := do
  let d ← itemsOf v
  mapD (fun w => do
    let e ← itemsOf w
    mapD (fun x => do
      let f ← itemsOf x
      mapD (listOf deformCls) f) e) d

def known : List Str :=
  [s!!"ik", s!!"drawOrder", s!!"bones", s!!"slots", s!!"events", s!!"transform", s!!"path", s!!"deform"]

/-- `Animation(values)` (27-65) -/
def init (v : JVal F) : Except Err (Anim F) := do
  let d ← orDict v
  let ik ← getDict d s!!"ik" (listOf ikTimelineCls)
  let dr ← getIter d s!!"drawOrder"
  let dr ← mapE DrawTl.init dr
  let bo ← getDict d s!!"bones" BoneTl.init
  let sl ← getDict d s!!"slots" SlotTl.init
  let ev ← getIter d s!!"events"
  let ev ← mapE eventTimelineCls.init ev
  let tr ← getDict d s!!"transform" (listOf transformTimelineCls)
  let pa ← parsePath ((Dict.get? d s!!"path").getD (.dict []))
  let de ← parseDeform ((Dict.get? d s!!"deform").getD (.dict []))
  Cls.check known [] d
  return { ik := ik, drawOrder := dr, bones := bo, slots := sl, events := ev, transform := tr, path := pa, deform := de }

def setDefaults (v38 : Bool) (a : Anim F) : Anim F :=
  { ik := dmap (·.map (ikTimelineCls.setDefaults v38)) a.ik
    drawOrder := a.drawOrder.map (·.setDefaults v38)
    bones := dmap (·.setDefaults v38) a.bones
    slots := dmap (·.setDefaults v38) a.slots
    events := a.events.map (eventTimelineCls.setDefaults v38)
    transform := dmap (·.map (transformTimelineCls.setDefaults v38)) a.transform
    path := dmap (dmap (·.map (pathTimelineCls.setDefaults v38))) a.path
    deform := dmap (dmap (dmap (·.map (deformCls.setDefaults v38)))) a.deform }

/-- a list of objects -/
def jlist (c : Cls F) (v38 : Bool) (l : List (Attrs F)) : JVal F := .list (l.map (c.toJson v38))
/-- a dict of lists of objects -/
def jdict (c : Cls F) (v38 : Bool) (d : Dict (List (Attrs F))) : JVal F := .dict (dmap (jlist c v38) d)

def toJson (v38 : Bool) (a : Anim F) : JVal F :=
  .dict (jd s!!"ik" (jlist ikTimelineCls v38) a.ik ++ jl s!!"drawOrder" (·.toJson v38) a.drawOrder ++
    jd s!!"bones" (·.toJson v38) a.bones ++ jd s!!"slots" (·.toJson v38) a.slots ++
    jl s!!"events" (eventTimelineCls.toJson v38) a.events ++ jd s!!"transform" (jlist transformTimelineCls v38) a.transform ++
    jd s!!"path" (jdict pathTimelineCls v38) a.path ++
    jd s!!"deform" (fun d => .dict (dmap (jdict deformCls v38) d)) a.deform)
end Anim

/-! ### The document -/

/-- `SpineAnimationData` (spine_anim_data.py 60-86) -/
structure AnimData (F : Type) where
  bones : List (Bone F)
  slots : List (Slot F)
  skins : List (Skin F)
  events : Dict (Attrs F)
  ik : List (Attrs F)
  transform : List (Attrs F)
  path : List (Attrs F)
  animations : Dict (Anim F)

namespace AnimData
variable [PyRt F]

def known : List Str :=
  [s!!"bones", s!!"slots", s!!"skins", s!!"events", s!!"ik", s!!"transform", s!!"path", s!!"animations"]

/-- `SpineAnimationData(data)` (60-86) on a dict that has the key "skeleton" -/
def init (doc : Dict (JVal F)) : Except Err (AnimData F) := do
  let d := Dict.del doc s!!"skeleton"
  let bo ← getItem d s!!"bones"
  let bo ← iter bo
  let bo ← mapE Bone.init bo
  let sl ← getItem d s!!"slots"
  let sl ← iter sl
  let sl ← mapE Slot.init sl
  let sk ← getItem d s!!"skins"
  let sk ← iter sk
  let sk ← mapE Skin.init sk
  let ev ← Anim.getDict d s!!"events" eventsCls.init
  let ik ← getIter d s!!"ik"
  let ik ← mapE ikCls.init ik
  let tr ← getIter d s!!"transform"
  let tr ← mapE transformCls.init tr
  let pa ← getIter d s!!"path"
  let pa ← mapE pathCls.init pa
  let an ← Anim.getDict d s!!"animations" Anim.init
  Cls.check known [] d
  return { bones := bo, slots := sl, skins := sk, events := ev, ik := ik, transform := tr, path := pa, animations := an }

/-- `set_default_values` (base_type.py 74-78) on the document -/
def setDefaults (v38 : Bool) (a : AnimData F) : AnimData F :=
  { bones := a.bones.map (·.setDefaults v38)
    slots := a.slots
    skins := a.skins.map (·.setDefaults v38)
    events := dmap (eventsCls.setDefaults v38) a.events
    ik := a.ik.map (ikCls.setDefaults v38)
    transform := a.transform.map (transformCls.setDefaults v38)
    path := a.path.map (pathCls.setDefaults v38)
    animations := dmap (·.setDefaults v38) a.animations }

/-- `to_json` (base_type.py 80-86) of the document; "skins" has no default, so it is always written -/
def toJson (v38 : Bool) (a : AnimData F) : Dict (JVal F) :=
  jl s!!"bones" (·.toJson v38) a.bones ++ jl s!!"slots" (·.toJson v38) a.slots ++
    [(s!!"skins", .list (a.skins.map (·.toJson v38)))] ++
    jd s!!"events" (eventsCls.toJson v38) a.events ++ jl s!!"ik" (ikCls.toJson v38) a.ik ++
    jl s!!"transform" (transformCls.toJson v38) a.transform ++ jl s!!"path" (pathCls.toJson v38) a.path ++
    jd s!!"animations" (·.toJson v38) a.animations
end AnimData

/-- `JsonSpineAnimationData` (spine_anim_data.py 31-45) -/
structure SpineDoc (F : Type) where
  skeleton : Dict (JVal F)
  version : Version
  data : AnimData F

namespace SpineDoc
variable [PyRt F]

/-- `JsonSpineAnimationData(data)` (32-40); indexing a non-dict with a string is a TypeError, `validate` of a non-string
version is an AttributeError (`version.split`) -/
def load (doc : JVal F) : Except Err (SpineDoc F) :=
  match doc with
  | .dict d => do
    match ← getItem d s!!"skeleton" with
    | .dict sk => do
      match ← getItem sk s!!"spine" with
      | .str v => do
        let ver ← Version.mk? F v
        let a ← AnimData.init d
        return { skeleton := sk, version := ver, data := a.setDefaults ver.is38 }
      | _ => .error .attribute
    | _ => .error .type
  | _ => .error .type

/-- `to_json_data` (42-45) -/
def toJson (s : SpineDoc F) : JVal F :=
  .dict (Dict.set (s.data.toJson s.version.is38) s!!"skeleton" (.dict s.skeleton))
end SpineDoc

end Spine
