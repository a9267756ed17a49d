import Verif.Model.Data
/-
Model of the traversal shared by all the classes (data/data_types/base_type.py 63-162): `traverse_spine_data` with its
three callbacks, on arbitrary trees of Python values.  Model/Data.lean has the same operations written class by class;
Lemmas/TraverseData.lean proves that they agree.

Simplifications
* the tree has no sharing (two attributes never hold the same list or object), and keys of dictionaries are strings;
* `set_default_values` and `clean_unsupported_attributes` change objects in place: the result is the changed tree.  The
  tree left behind by an exception is not described;
* `traverse_spine_data` takes its callback as an argument and the callbacks call it back; each of the three pairs is written
  here as one recursive function.
-/
namespace Spine
open JVal
variable {F : Type}

/-- A Python value that can be found below a document: JSON values, objects of subclasses of `SpineData` (the class and the
`__dict__`), and values of any other type. -/
inductive SVal (F : Type) where
  | null
  | bool (b : Bool)
  | int (i : Int)
  | flt (f : F)
  | str (s : Str)
  | list (l : List (SVal F))
  | dict (d : List (Str × SVal F))
  | obj (c : Cls F) (a : List (Str × SVal F))
  | other

namespace SVal

mutual
/-- a JSON value as a Python value -/
def ofJ : JVal F → SVal F
  | .null => .null
  | .bool b => .bool b
  | .int i => .int i
  | .flt f => .flt f
  | .str s => .str s
  | .list l => .list (ofJs l)
  | .dict d => .dict (ofJd d)
def ofJs : List (JVal F) → List (SVal F)
  | [] => []
  | v :: r => ofJ v :: ofJs r
def ofJd : List (Str × JVal F) → List (Str × SVal F)
  | [] => []
  | (k, v) :: r => (k, ofJ v) :: ofJd r
end

mutual
/-- the JSON value, when there is no object inside -/
def plain : SVal F → Option (JVal F)
  | .null => some .null
  | .bool b => some (.bool b)
  | .int i => some (.int i)
  | .flt f => some (.flt f)
  | .str s => some (.str s)
  | .list l => (plains l).map .list
  | .dict d => (plaind d).map .dict
  | .obj _ _ => none
  | .other => none
def plains : List (SVal F) → Option (List (JVal F))
  | [] => some []
  | v :: r => match plain v, plains r with
    | some w, some s => some (w :: s)
    | _, _ => none
def plaind : List (Str × SVal F) → Option (List (Str × JVal F))
  | [] => some []
  | (k, v) :: r => match plain v, plaind r with
    | some w, some s => some ((k, w) :: s)
    | _, _ => none
end

/-- `v is None` -/
def isNull : SVal F → Bool
  | .null => true
  | _ => false

variable [PyRt F]

/-- `v == d` for a class constant `d` (plain JSON).  Objects define no `__eq__`, so nothing that contains one is equal to a
plain value; a value of another type is taken to be different as well. -/
def eqJ (v : SVal F) (d : JVal F) : Bool :=
  match v.plain with
  | some w => pyEq w d
  | none => false

/-- the condition of `to_spine_data_ignoring_default_values` (115-117) -/
def emits (c : Cls F) (v38 : Bool) (k : Str) (v : SVal F) : Bool :=
  match Dict.get? (c.defaultsFor v38) k with
  | some dv => if v.isNull then dv.isNull else !(eqJ v dv)
  | none => !v.isNull

mutual
/-- `to_json` (80-86): `traverse_spine_data` (138-162) with `to_spine_data_ignoring_default_values` (108-121) -/
def toJson (v38 : Bool) : SVal F → Except Err (JVal F)
  | .null => .ok .null
  | .bool b => .ok (.bool b)
  | .int i => .ok (.int i)
  | .flt f => .ok (.flt f)
  | .str s => .ok (.str s)
  | .list l => match toJsonL v38 l with
    | .ok r => .ok (.list r)
    | .error e => .error e
  | .dict d => match toJsonD v38 d with
    | .ok r => .ok (.dict r)
    | .error e => .error e
  | .obj c a => match toJsonA v38 c a with
    | .ok r => .ok (.dict r)
    | .error e => .error e
  | .other => .error .type
/-- the loop over a list (150-152) -/
def toJsonL (v38 : Bool) : List (SVal F) → Except Err (List (JVal F))
  | [] => .ok []
  | v :: r => match toJson v38 v with
    | .error e => .error e
    | .ok w => match toJsonL v38 r with
      | .error e => .error e
      | .ok s => .ok (w :: s)
/-- the loop over a dictionary (145-148) -/
def toJsonD (v38 : Bool) : List (Str × SVal F) → Except Err (List (Str × JVal F))
  | [] => .ok []
  | (k, v) :: r => match toJson v38 v with
    | .error e => .error e
    | .ok w => match toJsonD v38 r with
      | .error e => .error e
      | .ok s => .ok ((k, w) :: s)
/-- the loop over the attributes of an object (113-120) -/
def toJsonA (v38 : Bool) (c : Cls F) : List (Str × SVal F) → Except Err (List (Str × JVal F))
  | [] => .ok []
  | (k, v) :: r =>
    if emits c v38 k v then match toJson v38 v with
      | .error e => .error e
      | .ok w => match toJsonA v38 c r with
        | .error e => .error e
        | .ok s => .ok ((k, w) :: s)
    else toJsonA v38 c r
end

mutual
/-- `set_default_values` (74-78): `traverse_spine_data` with `set_default_values_from_version` (96-106) -/
def setDefaults (v38 : Bool) : SVal F → Except Err (SVal F)
  | .list l => match setDefaultsL v38 l with
    | .ok r => .ok (.list r)
    | .error e => .error e
  | .dict d => match setDefaultsD v38 d with
    | .ok r => .ok (.dict r)
    | .error e => .error e
  | .obj c a => match setDefaultsA v38 c a with
    | .ok r => .ok (.obj c r)
    | .error e => .error e
  | .other => .error .type
  | .null => .ok .null
  | .bool b => .ok (.bool b)
  | .int i => .ok (.int i)
  | .flt f => .ok (.flt f)
  | .str s => .ok (.str s)
def setDefaultsL (v38 : Bool) : List (SVal F) → Except Err (List (SVal F))
  | [] => .ok []
  | v :: r => match setDefaults v38 v with
    | .error e => .error e
    | .ok w => match setDefaultsL v38 r with
      | .error e => .error e
      | .ok s => .ok (w :: s)
def setDefaultsD (v38 : Bool) : List (Str × SVal F) → Except Err (List (Str × SVal F))
  | [] => .ok []
  | (k, v) :: r => match setDefaults v38 v with
    | .error e => .error e
    | .ok w => match setDefaultsD v38 r with
      | .error e => .error e
      | .ok s => .ok ((k, w) :: s)
/-- a null attribute with a default takes a fresh copy of it; any other is traversed (99-106) -/
def setDefaultsA (v38 : Bool) (c : Cls F) : List (Str × SVal F) → Except Err (List (Str × SVal F))
  | [] => .ok []
  | (k, v) :: r =>
    match (if v.isNull then .ok (ofJ ((Dict.get? (c.defaultsFor v38) k).getD .null)) else setDefaults v38 v) with
    | .error e => .error e
    | .ok w => match setDefaultsA v38 c r with
      | .error e => .error e
      | .ok s => .ok ((k, w) :: s)
end

mutual
/-- `clean_unsupported_attributes` (88-94): `traverse_spine_data` with `remove_unsupported_attributes` (123-136) -/
def clean (ver : Version) : SVal F → Except Err (SVal F)
  | .list l => match cleanL ver l with
    | .ok r => .ok (.list r)
    | .error e => .error e
  | .dict d => match cleanD ver d with
    | .ok r => .ok (.dict r)
    | .error e => .error e
  | .obj c a => match cleanA ver c a with
    | .ok r => .ok (.obj c r)
    | .error e => .error e
  | .other => .error .type
  | .null => .ok .null
  | .bool b => .ok (.bool b)
  | .int i => .ok (.int i)
  | .flt f => .ok (.flt f)
  | .str s => .ok (.str s)
def cleanL (ver : Version) : List (SVal F) → Except Err (List (SVal F))
  | [] => .ok []
  | v :: r => match clean ver v with
    | .error e => .error e
    | .ok w => match cleanL ver r with
      | .error e => .error e
      | .ok s => .ok (w :: s)
def cleanD (ver : Version) : List (Str × SVal F) → Except Err (List (Str × SVal F))
  | [] => .ok []
  | (k, v) :: r => match clean ver v with
    | .error e => .error e
    | .ok w => match cleanD ver r with
      | .error e => .error e
      | .ok s => .ok ((k, w) :: s)
/-- an unsupported attribute becomes null; any other is traversed (125-136) -/
def cleanA (ver : Version) (c : Cls F) : List (Str × SVal F) → Except Err (List (Str × SVal F))
  | [] => .ok []
  | (k, v) :: r =>
    match (if Version.lt ver Version.v38 ∧ k ∈ c.unsupportedOld then .ok .null else clean ver v) with
    | .error e => .error e
    | .ok w => match cleanA ver c r with
      | .error e => .error e
      | .ok s => .ok ((k, w) :: s)
end

omit [PyRt F] in
/-- `obj.get(name, default)` (63-67): an attribute that is missing or null gives the default.  Only attributes of the object
itself are modelled (`hasattr` also finds methods and class constants). -/
def get (v : SVal F) (k : Str) (default : SVal F) : SVal F :=
  match v with
  | .obj _ a => match Dict.get? a k with
    | some .null => default
    | some w => w
    | none => default
  | _ => default

end SVal

/-! ### The classes whose attributes hold other objects -/

section Composite

/-- `SlotTimeline` (slot.py 61-80) -/
def slotTimelineCls : Cls F where
  attrs := [s!!"attachment", s!!"color", s!!"twoColor"]
  defaults := [(s!!"attachment", .list []), (s!!"color", .list []), (s!!"twoColor", .list [])]
  defaults38 := [(s!!"attachment", .list []), (s!!"color", .list []), (s!!"twoColor", .list [])]
  required := []
  unsupportedOld := []
  orStyle := true

/-- `BoneTimeline` (bone.py 114-140) -/
def boneTimelineCls : Cls F where
  attrs := [s!!"rotate", s!!"translate", s!!"scale", s!!"shear"]
  defaults := [(s!!"rotate", .list []), (s!!"translate", .list []), (s!!"scale", .list []), (s!!"shear", .list [])]
  defaults38 := [(s!!"rotate", .list []), (s!!"translate", .list []), (s!!"scale", .list []), (s!!"shear", .list [])]
  required := []
  unsupportedOld := []
  orStyle := true

/-- `Animation` (animation.py 14-65) -/
def animationCls : Cls F where
  attrs := [s!!"ik", s!!"drawOrder", s!!"bones", s!!"slots", s!!"events", s!!"transform", s!!"path", s!!"deform"]
  defaults := [(s!!"ik", .dict []), (s!!"drawOrder", .list []), (s!!"bones", .dict []), (s!!"slots", .dict []),
    (s!!"events", .list []), (s!!"transform", .dict []), (s!!"deform", .dict []), (s!!"path", .dict [])]
  defaults38 := [(s!!"ik", .dict []), (s!!"drawOrder", .list []), (s!!"bones", .dict []), (s!!"slots", .dict []),
    (s!!"events", .list []), (s!!"transform", .dict []), (s!!"deform", .dict []), (s!!"path", .dict [])]
  required := []
  unsupportedOld := []
  orStyle := true

/-- `Skin38` (skin.py 58-71) -/
def skinCls : Cls F where
  attrs := [s!!"name", s!!"attachments"]
  defaults := [(s!!"name", .str []), (s!!"attachments", .dict [])]
  defaults38 := [(s!!"name", .str []), (s!!"attachments", .dict [])]
  required := []
  unsupportedOld := []
  orStyle := true

/-- `SpineAnimationData` (spine_anim_data.py 48-86); no default for "skins" -/
def documentCls : Cls F where
  attrs := [s!!"bones", s!!"slots", s!!"skins", s!!"events", s!!"ik", s!!"transform", s!!"path", s!!"animations"]
  defaults := [(s!!"bones", .list []), (s!!"slots", .list []), (s!!"events", .dict []), (s!!"ik", .list []),
    (s!!"transform", .list []), (s!!"path", .list []), (s!!"animations", .dict [])]
  defaults38 := [(s!!"bones", .list []), (s!!"slots", .list []), (s!!"events", .dict []), (s!!"ik", .list []),
    (s!!"transform", .list []), (s!!"path", .list []), (s!!"animations", .dict [])]
  required := []
  unsupportedOld := []
  orStyle := false

end Composite

/-! ### The typed data as Python values -/

/-- an object whose attributes are plain -/
def Attrs.sval (c : Cls F) (a : Attrs F) : SVal F := .obj c (dmap SVal.ofJ a)

def slist {α : Type} (f : α → SVal F) (l : List α) : SVal F := .list (l.map f)
def sdict {α : Type} (f : α → SVal F) (d : Dict α) : SVal F := .dict (dmap f d)

variable [PyRt F]

def Bone.sval (b : Bone F) : SVal F := Attrs.sval boneCls b.attrs
def Slot.sval (s : Slot F) : SVal F := Attrs.sval slotCls s.attrs
def Att.sval (a : Att F) : SVal F := Attrs.sval (AttKind.cls a.kind) a.attrs
def Skin.sval (s : Skin F) : SVal F :=
  .obj skinCls [(s!!"name", .str s.name), (s!!"attachments", sdict (sdict Att.sval) s.attachments)]
def SlotKf.sval (k : SlotKf F) : SVal F := Attrs.sval slotKeyframeCls k.attrs
def SlotTl.sval (t : SlotTl F) : SVal F :=
  .obj slotTimelineCls [(s!!"attachment", slist SlotKf.sval t.attachment), (s!!"color", slist SlotKf.sval t.color),
    (s!!"twoColor", slist SlotKf.sval t.twoColor)]
def BoneTl.sval (t : BoneTl F) : SVal F :=
  .obj boneTimelineCls [(s!!"rotate", slist (Attrs.sval boneRotateCls) t.rotate),
    (s!!"translate", slist (Attrs.sval boneTranslateCls) t.translate),
    (s!!"scale", slist (Attrs.sval boneRotateCls) t.scale), (s!!"shear", slist (Attrs.sval boneTranslateCls) t.shear)]
def offsetSval (o : Str × Int) : SVal F := Attrs.sval offsetCls [(s!!"slot", .str o.1), (s!!"offset", .int o.2)]
def DrawTl.sval (t : DrawTl F) : SVal F :=
  .obj drawCls [(s!!"time", SVal.ofJ t.time), (s!!"offsets", slist offsetSval t.offsets)]
def Anim.sval (a : Anim F) : SVal F :=
  .obj animationCls
    [(s!!"ik", sdict (slist (Attrs.sval ikTimelineCls)) a.ik), (s!!"drawOrder", slist DrawTl.sval a.drawOrder),
     (s!!"bones", sdict BoneTl.sval a.bones), (s!!"slots", sdict SlotTl.sval a.slots),
     (s!!"events", slist (Attrs.sval eventTimelineCls) a.events),
     (s!!"transform", sdict (slist (Attrs.sval transformTimelineCls)) a.transform),
     (s!!"path", sdict (sdict (slist (Attrs.sval pathTimelineCls))) a.path),
     (s!!"deform", sdict (sdict (sdict (slist (Attrs.sval deformCls)))) a.deform)]
def AnimData.sval (a : AnimData F) : SVal F :=
  .obj documentCls
    [(s!!"bones", slist Bone.sval a.bones), (s!!"slots", slist Slot.sval a.slots), (s!!"skins", slist Skin.sval a.skins),
     (s!!"events", sdict (Attrs.sval eventsCls) a.events), (s!!"ik", slist (Attrs.sval ikCls) a.ik),
     (s!!"transform", slist (Attrs.sval transformCls) a.transform), (s!!"path", slist (Attrs.sval pathCls) a.path),
     (s!!"animations", sdict Anim.sval a.animations)]

end Spine
