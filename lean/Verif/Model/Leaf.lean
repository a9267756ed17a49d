import Verif.Model.Py
import Verif.Model.Version
/-
Model of `SpineData` (data/data_types/base_type.py) for the classes whose attributes hold plain JSON values ("leaf"
classes), and the table of these classes.

An object is the list of its attributes in `__init__` order (its `__dict__`).  `traverse_spine_data` (base_type.py
138-162) on a plain JSON value returns a copy and calls nothing, so it is the identity here; the TypeError branch
(155-160) cannot be reached with JSON values.
-/
namespace Spine
open JVal

/-- attributes of an object: name ↦ value -/
abbrev Attrs (F : Type) := Dict (JVal F)

/-- A subclass of `SpineData`: attribute names in `__init__` order and the class constants. -/
structure Cls (F : Type) where
  attrs : List Str
  defaults : Dict (JVal F)
  defaults38 : Dict (JVal F)
  required : List Str
  /-- `UNSUPPORTED_VALUES_OLD_VERSION`; `None` is the empty list -/
  unsupportedOld : List Str
  /-- `values = values or {}`; otherwise `values if values is not None else {}` -/
  orStyle : Bool

namespace Cls
variable {F : Type} [PyRt F]

/-- first line of every `__init__` (`values or {}` / `values if values is not None else {}`) followed by `values.get`:
a non-dict has no `get` -/
def values (c : Cls F) (v : JVal F) : Except Err (Dict (JVal F)) :=
  if c.orStyle then
    if truthy v then match v with
      | .dict d => .ok d
      | _ => .error .attribute
    else .ok []
  else match v with
    | .null => .ok []
    | .dict d => .ok d
    | _ => .error .attribute

/-- `SpineData.__init__` (base_type.py 41-61): unknown attributes first, then missing required ones -/
def check (known required : List Str) (d : Dict (JVal F)) : Except Err Unit :=
  let unknown := (Dict.keys d).filter (fun k => k ∉ known)
  if unknown ≠ [] then .error (.unsupportedAttrs unknown)
  else
    let missing := required.filter (fun k => k ∉ Dict.keys d)
    if missing ≠ [] then .error (.missingRequired missing) else .ok ()

/-- constructor of a leaf class: `self.a = values.get("a")` for every attribute, then `super().__init__(values)` -/
def init (c : Cls F) (v : JVal F) : Except Err (Attrs F) := do
  let d ← c.values v
  check c.attrs c.required d
  return c.attrs.map (fun k => (k, (Dict.get? d k).getD .null))

/-- `default_values(version)` (base_type.py 69-72); the flag is `version >= SPINE_3_8_VERSION` -/
def defaultsFor (c : Cls F) (v38 : Bool) : Dict (JVal F) := if v38 then c.defaults38 else c.defaults

/-- `set_default_values_from_version` (96-106) on an object of the class -/
def setDefaults (c : Cls F) (v38 : Bool) (a : Attrs F) : Attrs F :=
  a.map (fun p => match p.2 with
    | .null => (p.1, (Dict.get? (c.defaultsFor v38) p.1).getD .null)
    | v => (p.1, v))

/-- the condition of `to_spine_data_ignoring_default_values` (115-117) -/
def emits (c : Cls F) (v38 : Bool) (k : Str) (v : JVal F) : Bool :=
  match Dict.get? (c.defaultsFor v38) k with
  | some dv => if v.isNull then dv.isNull else !(pyEq v dv)
  | none => !v.isNull

/-- `to_json` (80-86, 108-121) of a leaf object -/
def toJson (c : Cls F) (v38 : Bool) (a : Attrs F) : JVal F := .dict (a.filter (fun p => c.emits v38 p.1 p.2))

/-- `remove_unsupported_attributes` (123-136) on a leaf object; `version < SPINE_3_8_VERSION` -/
def removeUnsupported (c : Cls F) (v : Version) (a : Attrs F) : Attrs F :=
  a.map (fun p => if Version.lt v Version.v38 ∧ p.1 ∈ c.unsupportedOld then (p.1, .null) else p)

end Cls

/-- the flag `version >= SPINE_3_8_VERSION` used by `default_values` (base_type.py 70) -/
def Version.is38 (v : Version) : Bool := Version.ge v Version.v38

section Table
variable {F : Type} [PyRt F]

/-- `1.0` -/
def jone : JVal F := .flt PyRt.fone

/-- `Bone` (bone.py 7-43) -/
def boneCls : Cls F where
  attrs := [s!!"name", s!!"parent", s!!"color", s!!"scaleX", s!!"transform", s!!"shearY", s!!"scaleY", s!!"inheritRotation",
    s!!"length", s!!"y", s!!"x", s!!"rotation", s!!"shearX", s!!"inheritScale"]
  defaults := [(s!!"x", .int 0), (s!!"y", .int 0), (s!!"scaleX", jone), (s!!"scaleY", jone), (s!!"shearX", .int 0),
    (s!!"shearY", .int 0), (s!!"transform", .str s!!"normal"), (s!!"inheritRotation", .bool false), (s!!"rotation", .int 0),
    (s!!"length", .int 0), (s!!"inheritScale", .bool false)]
  defaults38 := [(s!!"x", .int 0), (s!!"y", .int 0), (s!!"scaleX", jone), (s!!"scaleY", jone), (s!!"shearX", .int 0),
    (s!!"shearY", .int 0), (s!!"transform", .str s!!"normal"), (s!!"inheritRotation", .bool false), (s!!"rotation", .int 0),
    (s!!"length", .int 0), (s!!"inheritScale", .bool false)]
  required := [s!!"name"]
  unsupportedOld := []
  orStyle := true

/-- `BoneTranslateAndShearKeyframe` (bone.py 54-81) -/
def boneTranslateCls : Cls F where
  attrs := [s!!"time", s!!"curve", s!!"angle", s!!"x", s!!"y", s!!"c2", s!!"c3", s!!"c4"]
  defaults := [(s!!"curve", .list [])]
  defaults38 := [(s!!"curve", .list []), (s!!"angle", .int 0), (s!!"time", .int 0), (s!!"x", .int 0), (s!!"y", .int 0),
    (s!!"c2", .int 0), (s!!"c3", .int 1), (s!!"c4", .int 1)]
  required := []
  unsupportedOld := [s!!"c2", s!!"c3", s!!"c4"]
  orStyle := true

/-- `BoneRotateAndScaleKeyframe` (bone.py 84-111) -/
def boneRotateCls : Cls F where
  attrs := [s!!"time", s!!"curve", s!!"angle", s!!"x", s!!"y", s!!"c2", s!!"c3", s!!"c4"]
  defaults := [(s!!"curve", .list [])]
  defaults38 := [(s!!"curve", .list []), (s!!"angle", .int 0), (s!!"x", .int 1), (s!!"y", .int 1), (s!!"time", .int 0),
    (s!!"c2", .int 0), (s!!"c3", .int 1), (s!!"c4", .int 1)]
  required := []
  unsupportedOld := [s!!"c2", s!!"c3", s!!"c4"]
  orStyle := true

/-- `Slot` (slot.py 7-22) -/
def slotCls : Cls F where
  attrs := [s!!"name", s!!"bone", s!!"attachment", s!!"color", s!!"dark", s!!"blend"]
  defaults := []
  defaults38 := []
  required := [s!!"name", s!!"bone"]
  unsupportedOld := []
  orStyle := true

/-- `SlotKeyframe` (slot.py 29-55) -/
def slotKeyframeCls : Cls F where
  attrs := [s!!"name", s!!"time", s!!"curve", s!!"color", s!!"dark", s!!"light", s!!"c2", s!!"c3", s!!"c4"]
  defaults := [(s!!"curve", .list []), (s!!"name", .null)]
  defaults38 := [(s!!"curve", .list []), (s!!"name", .null), (s!!"time", .int 0), (s!!"c2", .int 0), (s!!"c3", .int 1),
    (s!!"c4", .int 1)]
  required := []
  unsupportedOld := [s!!"c2", s!!"c3", s!!"c4"]
  orStyle := true

/-- `Events` (events.py 6-17) -/
def eventsCls : Cls F where
  attrs := [s!!"int", s!!"float", s!!"string"]
  defaults := [(s!!"int", .int 0), (s!!"float", .int 0), (s!!"string", .str [])]
  defaults38 := [(s!!"int", .int 0), (s!!"float", .int 0), (s!!"string", .str [])]
  required := []
  unsupportedOld := []
  orStyle := true

/-- `EventTimeline` (events.py 20-45) -/
def eventTimelineCls : Cls F where
  attrs := [s!!"time", s!!"name", s!!"int", s!!"float", s!!"string", s!!"audio", s!!"volume", s!!"balance"]
  defaults := [(s!!"name", .str []), (s!!"int", .int 0), (s!!"float", .int 0), (s!!"string", .str [])]
  defaults38 := [(s!!"time", .int 0), (s!!"name", .str []), (s!!"int", .int 0), (s!!"float", .int 0), (s!!"string", .str []),
    (s!!"audio", .str []), (s!!"volume", .int 1), (s!!"balance", .int 0)]
  required := []
  unsupportedOld := []
  orStyle := true

/-- `Deform` (deform.py 6-29) -/
def deformCls : Cls F where
  attrs := [s!!"vertices", s!!"time", s!!"curve", s!!"offset", s!!"c2", s!!"c3", s!!"c4"]
  defaults := [(s!!"vertices", .list []), (s!!"curve", .list [])]
  defaults38 := [(s!!"time", .int 0), (s!!"vertices", .list []), (s!!"curve", .list []), (s!!"offset", .list []),
    (s!!"c2", .int 0), (s!!"c3", .int 1), (s!!"c4", .int 1)]
  required := []
  unsupportedOld := []
  orStyle := true

/-- `Ik` (ik.py 6-34) -/
def ikCls : Cls F where
  attrs := [s!!"name", s!!"order", s!!"bones", s!!"target", s!!"mix", s!!"bendPositive", s!!"softness", s!!"compress",
    s!!"stretch", s!!"uniform"]
  defaults := [(s!!"name", .str []), (s!!"order", .int 0), (s!!"bones", .list []), (s!!"target", .str []),
    (s!!"bendPositive", .bool true), (s!!"softness", .int 0), (s!!"compress", .bool false), (s!!"stretch", .bool false),
    (s!!"uniform", .bool false)]
  defaults38 := [(s!!"name", .str []), (s!!"order", .int 0), (s!!"bones", .list []), (s!!"target", .str []),
    (s!!"bendPositive", .bool true), (s!!"softness", .int 0), (s!!"compress", .bool false), (s!!"stretch", .bool false),
    (s!!"uniform", .bool false)]
  required := []
  unsupportedOld := []
  orStyle := false

/-- `IkTimeline` (ik.py 37-65) -/
def ikTimelineCls : Cls F where
  attrs := [s!!"time", s!!"mix", s!!"bendPositive", s!!"curve", s!!"c2", s!!"c3", s!!"c4", s!!"compress", s!!"stretch"]
  defaults := [(s!!"bendPositive", .bool true), (s!!"curve", .list [])]
  defaults38 := [(s!!"time", .int 0), (s!!"bendPositive", .bool true), (s!!"stretch", .bool false), (s!!"curve", .list []),
    (s!!"compress", .bool false), (s!!"c2", .int 0), (s!!"c3", .int 1), (s!!"c4", .int 1)]
  required := []
  unsupportedOld := [s!!"c2", s!!"c3", s!!"c4"]
  orStyle := true

/-- `Transform` (transform.py 6-44) -/
def transformCls : Cls F where
  attrs := [s!!"name", s!!"order", s!!"bone", s!!"bones", s!!"target", s!!"rotation", s!!"x", s!!"y", s!!"scaleX", s!!"scaleY",
    s!!"shearX", s!!"shearY", s!!"rotateMix", s!!"translateMix", s!!"scaleMix", s!!"shearMix", s!!"local", s!!"relative"]
  defaults := [(s!!"name", .str []), (s!!"order", .int 0), (s!!"bone", .str []), (s!!"target", .str []), (s!!"rotation", .int 0),
    (s!!"x", .int 0), (s!!"y", .int 0), (s!!"scaleX", jone), (s!!"scaleY", jone), (s!!"shearX", .int 0), (s!!"shearY", .int 0)]
  defaults38 := [(s!!"name", .str []), (s!!"order", .int 0), (s!!"bone", .str []), (s!!"target", .str []), (s!!"rotation", .int 0),
    (s!!"x", .int 0), (s!!"y", .int 0), (s!!"scaleX", jone), (s!!"scaleY", jone), (s!!"shearX", .int 0), (s!!"shearY", .int 0)]
  required := []
  unsupportedOld := []
  orStyle := false

/-- `TransformTimeline` (transform.py 47-71) -/
def transformTimelineCls : Cls F where
  attrs := [s!!"time", s!!"rotateMix", s!!"translateMix", s!!"scaleMix", s!!"shearMix", s!!"curve", s!!"c2", s!!"c3", s!!"c4"]
  defaults := [(s!!"curve", .list [])]
  defaults38 := [(s!!"curve", .list []), (s!!"time", .int 0), (s!!"c2", .int 0), (s!!"c3", .int 1), (s!!"c4", .int 1)]
  required := []
  unsupportedOld := []
  orStyle := true

/-- `Path` (path.py 4-38) -/
def pathCls : Cls F where
  attrs := [s!!"name", s!!"order", s!!"skin", s!!"bones", s!!"target", s!!"positionMode", s!!"spacingMode", s!!"rotateMode",
    s!!"rotation", s!!"position", s!!"spacing", s!!"rotateMix", s!!"translateMix"]
  defaults := [(s!!"name", .str []), (s!!"bones", .list []), (s!!"target", .str []), (s!!"positionMode", .str []),
    (s!!"spacingMode", .str []), (s!!"rotateMode", .str []), (s!!"rotation", .int 0), (s!!"position", .int 0),
    (s!!"spacing", .int 1), (s!!"rotateMix", .int 1), (s!!"translateMix", .int 1), (s!!"skin", .bool false)]
  defaults38 := [(s!!"name", .str []), (s!!"bones", .list []), (s!!"target", .str []), (s!!"positionMode", .str []),
    (s!!"spacingMode", .str []), (s!!"rotateMode", .str []), (s!!"rotation", .int 0), (s!!"position", .int 0),
    (s!!"spacing", .int 1), (s!!"rotateMix", .int 1), (s!!"translateMix", .int 1), (s!!"skin", .bool false)]
  required := []
  unsupportedOld := []
  orStyle := true

/-- `PathTimeline` (path.py 41-67) -/
def pathTimelineCls : Cls F where
  attrs := [s!!"time", s!!"position", s!!"spacing", s!!"rotateMix", s!!"translateMix", s!!"curve", s!!"c2", s!!"c3", s!!"c4"]
  defaults := [(s!!"position", .int 0), (s!!"spacing", .int 1), (s!!"rotateMix", .int 1), (s!!"translateMix", .int 1)]
  defaults38 := [(s!!"position", .int 0), (s!!"spacing", .int 1), (s!!"rotateMix", .int 1), (s!!"translateMix", .int 1),
    (s!!"curve", .list []), (s!!"c2", .int 0), (s!!"c3", .int 1), (s!!"c4", .int 1)]
  required := []
  unsupportedOld := []
  orStyle := true

/-- `DrawOrderTimelineOffset` (draworder.py 8-20) -/
def offsetCls : Cls F where
  attrs := [s!!"slot", s!!"offset"]
  defaults := [(s!!"slot", .str [])]
  defaults38 := [(s!!"slot", .str [])]
  required := [s!!"offset"]
  unsupportedOld := []
  orStyle := true

/-- `SkinAttachment` (skin.py 74-102) -/
def regionCls : Cls F where
  attrs := [s!!"x", s!!"y", s!!"rotation", s!!"width", s!!"height", s!!"scaleX", s!!"scaleY", s!!"name", s!!"path", s!!"color"]
  defaults := [(s!!"x", .int 0), (s!!"y", .int 0), (s!!"rotation", .int 0), (s!!"scaleX", jone), (s!!"scaleY", jone)]
  defaults38 := [(s!!"x", .int 0), (s!!"y", .int 0), (s!!"rotation", .int 0), (s!!"scaleX", jone), (s!!"scaleY", jone)]
  required := []
  unsupportedOld := []
  orStyle := true

/-- `SkinMesh` (skin.py 105-129) -/
def meshCls : Cls F where
  attrs := [s!!"hull", s!!"uvs", s!!"vertices", s!!"height", s!!"width", s!!"edges", s!!"type", s!!"triangles", s!!"name",
    s!!"path", s!!"color"]
  defaults := [(s!!"uvs", .list []), (s!!"vertices", .list []), (s!!"edges", .list []), (s!!"triangles", .list [])]
  defaults38 := [(s!!"uvs", .list []), (s!!"vertices", .list []), (s!!"edges", .list []), (s!!"triangles", .list [])]
  required := []
  unsupportedOld := []
  orStyle := true

/-- `SkinPath` (skin.py 132-154) -/
def skinPathCls : Cls F where
  attrs := [s!!"lengths", s!!"vertexCount", s!!"type", s!!"name", s!!"vertices", s!!"color", s!!"closed", s!!"constantSpeed"]
  defaults := [(s!!"lengths", .list []), (s!!"vertexCount", .int 0), (s!!"vertices", .list []), (s!!"constantSpeed", .bool true),
    (s!!"closed", .bool false)]
  defaults38 := [(s!!"lengths", .list []), (s!!"vertexCount", .int 0), (s!!"vertices", .list []), (s!!"constantSpeed", .bool true),
    (s!!"closed", .bool false)]
  required := []
  unsupportedOld := []
  orStyle := true

/-- `SkinLinkedMesh` (skin.py 157-174) -/
def linkedMeshCls : Cls F where
  attrs := [s!!"path", s!!"height", s!!"width", s!!"name", s!!"parent", s!!"deform", s!!"color", s!!"skin", s!!"type"]
  defaults := []
  defaults38 := [(s!!"deform", .bool true)]
  required := []
  unsupportedOld := []
  orStyle := true

/-- `SkinBoundingBox` (skin.py 177-188); it has no attribute `type` -/
def boundingBoxCls : Cls F where
  attrs := [s!!"vertexCount", s!!"vertices", s!!"color"]
  defaults := []
  defaults38 := []
  required := []
  unsupportedOld := []
  orStyle := true

/-- `SkinPoint` (skin.py 191-203); it has no attribute `type` -/
def pointCls : Cls F where
  attrs := [s!!"x", s!!"y", s!!"rotation", s!!"color"]
  defaults := [(s!!"x", .int 0), (s!!"y", .int 0), (s!!"rotation", .int 0)]
  defaults38 := [(s!!"x", .int 0), (s!!"y", .int 0), (s!!"rotation", .int 0)]
  required := []
  unsupportedOld := []
  orStyle := true

/-- `SkinClipping` (skin.py 206-218); it has no attribute `type` -/
def clippingCls : Cls F where
  attrs := [s!!"end", s!!"vertexCount", s!!"vertices", s!!"color"]
  defaults := [(s!!"vertexCount", .int 0), (s!!"vertices", .list [])]
  defaults38 := [(s!!"vertexCount", .int 0), (s!!"vertices", .list [])]
  required := []
  unsupportedOld := []
  orStyle := true

/-- every leaf class -/
def leafClasses : List (Cls F) :=
  [boneCls, boneTranslateCls, boneRotateCls, slotCls, slotKeyframeCls, eventsCls, eventTimelineCls, deformCls, ikCls,
   ikTimelineCls, transformCls, transformTimelineCls, pathCls, pathTimelineCls, offsetCls, regionCls, meshCls, skinPathCls,
   linkedMeshCls, boundingBoxCls, pointCls, clippingCls]

end Table
end Spine
