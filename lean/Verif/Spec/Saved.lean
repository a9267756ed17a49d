import Verif.Spec.Places
/-
What is written when a document is loaded and saved without any edit, told from the document alone.

An object is written with its attributes in a fixed order.  An attribute is left out when it is null or equals its default
value; the values are otherwise kept.  The tables give for every kind of object the attributes and the defaults.
-/
namespace Spine.Saved
open JVal Places
variable {F : Type} [PyRt F]

/-- what is written for an attribute with value `v`; null is written only where null is the default -/
def written (v : JVal F) (dflt : Option (JVal F)) : Option (JVal F) :=
  match v, dflt with
  | .null, some .null => some .null
  | .null, _ => none
  | v, some dv => if pyEq v dv then none else some v
  | v, none => some v

/-- an attribute: its name, how its value is saved, the value it has when it is absent, and its default -/
structure Field (F : Type) where
  key : Str
  save : JVal F → JVal F
  absent : JVal F
  dflt : Option (JVal F)

/-- the entries of an object -/
def entries : JVal F → Dict (JVal F)
  | .dict d => d
  | _ => []

/-- the elements of a list; an object stands for the list of its keys and a text for the list of its characters -/
def elements : JVal F → List (JVal F)
  | .list l => l
  | .dict d => d.map (fun p => .str p.1)
  | .str s => s.map (fun c => .str [c])
  | _ => []

def Field.out (d : Dict (JVal F)) (f : Field F) : Dict (JVal F) :=
  match written (f.save ((Dict.get? d f.key).getD f.absent)) f.dflt with
  | some w => [(f.key, w)]
  | none => []

def obj (fs : List (Field F)) (v : JVal F) : JVal F := .dict (fs.flatMap (Field.out (entries v)))
def list (s : JVal F → JVal F) (v : JVal F) : JVal F := .list ((elements v).map s)
def dict (s : JVal F → JVal F) (v : JVal F) : JVal F := .dict ((entries v).map (fun p => (p.1, s p.2)))

/-- an attribute without default -/
def plain (k : Str) : Field F := ⟨k, id, .null, none⟩
/-- an attribute with a default -/
def dv (k : Str) (v : JVal F) : Field F := ⟨k, id, .null, some v⟩
/-- an attribute that has a default from version 3.8 on -/
def dv38 (v38 : Bool) (k : Str) (v : JVal F) : Field F := ⟨k, id, .null, if v38 then some v else none⟩
/-- a list of objects, left out when empty -/
def lst (k : Str) (s : JVal F → JVal F) : Field F := ⟨k, list s, .list [], some (.list [])⟩
/-- objects by name, left out when empty -/
def dct (k : Str) (s : JVal F → JVal F) : Field F := ⟨k, dict s, .dict [], some (.dict [])⟩

def zero : JVal F := .int 0
def one : JVal F := .int 1
def oneF : JVal F := .flt PyRt.fone
def yes : JVal F := .bool true
def no : JVal F := .bool false
def text (s : Str) : JVal F := .str s
def nothing : JVal F := .list []

/-! ### Objects without objects inside -/

def bone : List (Field F) :=
  [plain s!!"name", plain s!!"parent", plain s!!"color", dv s!!"scaleX" oneF, dv s!!"transform" (text s!!"normal"), dv s!!"shearY" zero,
   dv s!!"scaleY" oneF, dv s!!"inheritRotation" no, dv s!!"length" zero, dv s!!"y" zero, dv s!!"x" zero, dv s!!"rotation" zero,
   dv s!!"shearX" zero, dv s!!"inheritScale" no]

def slot : List (Field F) :=
  [plain s!!"name", plain s!!"bone", plain s!!"attachment", plain s!!"color", plain s!!"dark", plain s!!"blend"]

def event : List (Field F) := [dv s!!"int" zero, dv s!!"float" zero, dv s!!"string" (text [])]

def ik : List (Field F) :=
  [dv s!!"name" (text []), dv s!!"order" zero, dv s!!"bones" nothing, dv s!!"target" (text []), plain s!!"mix", dv s!!"bendPositive" yes,
   dv s!!"softness" zero, dv s!!"compress" no, dv s!!"stretch" no, dv s!!"uniform" no]

def transform : List (Field F) :=
  [dv s!!"name" (text []), dv s!!"order" zero, dv s!!"bone" (text []), plain s!!"bones", dv s!!"target" (text []), dv s!!"rotation" zero,
   dv s!!"x" zero, dv s!!"y" zero, dv s!!"scaleX" oneF, dv s!!"scaleY" oneF, dv s!!"shearX" zero, dv s!!"shearY" zero, plain s!!"rotateMix",
   plain s!!"translateMix", plain s!!"scaleMix", plain s!!"shearMix", plain s!!"local", plain s!!"relative"]

def path : List (Field F) :=
  [dv s!!"name" (text []), plain s!!"order", dv s!!"skin" no, dv s!!"bones" nothing, dv s!!"target" (text []), dv s!!"positionMode" (text []),
   dv s!!"spacingMode" (text []), dv s!!"rotateMode" (text []), dv s!!"rotation" zero, dv s!!"position" zero, dv s!!"spacing" one,
   dv s!!"rotateMix" one, dv s!!"translateMix" one]

/-- keyframes that move or shear a bone -/
def moveKey (v38 : Bool) : List (Field F) :=
  [dv38 v38 s!!"time" zero, dv s!!"curve" nothing, dv38 v38 s!!"angle" zero, dv38 v38 s!!"x" zero, dv38 v38 s!!"y" zero,
   dv38 v38 s!!"c2" zero, dv38 v38 s!!"c3" one, dv38 v38 s!!"c4" one]

/-- keyframes that rotate or scale a bone -/
def turnKey (v38 : Bool) : List (Field F) :=
  [dv38 v38 s!!"time" zero, dv s!!"curve" nothing, dv38 v38 s!!"angle" zero, dv38 v38 s!!"x" one, dv38 v38 s!!"y" one,
   dv38 v38 s!!"c2" zero, dv38 v38 s!!"c3" one, dv38 v38 s!!"c4" one]

def slotKey (v38 : Bool) : List (Field F) :=
  [dv s!!"name" .null, dv38 v38 s!!"time" zero, dv s!!"curve" nothing, plain s!!"color", plain s!!"dark", plain s!!"light",
   dv38 v38 s!!"c2" zero, dv38 v38 s!!"c3" one, dv38 v38 s!!"c4" one]

def eventKey (v38 : Bool) : List (Field F) :=
  [dv38 v38 s!!"time" zero, dv s!!"name" (text []), dv s!!"int" zero, dv s!!"float" zero, dv s!!"string" (text []),
   dv38 v38 s!!"audio" (text []), dv38 v38 s!!"volume" one, dv38 v38 s!!"balance" zero]

def ikKey (v38 : Bool) : List (Field F) :=
  [dv38 v38 s!!"time" zero, plain s!!"mix", dv s!!"bendPositive" yes, dv s!!"curve" nothing, dv38 v38 s!!"c2" zero,
   dv38 v38 s!!"c3" one, dv38 v38 s!!"c4" one, dv38 v38 s!!"compress" no, dv38 v38 s!!"stretch" no]

def transformKey (v38 : Bool) : List (Field F) :=
  [dv38 v38 s!!"time" zero, plain s!!"rotateMix", plain s!!"translateMix", plain s!!"scaleMix", plain s!!"shearMix",
   dv s!!"curve" nothing, dv38 v38 s!!"c2" zero, dv38 v38 s!!"c3" one, dv38 v38 s!!"c4" one]

def pathKey (v38 : Bool) : List (Field F) :=
  [plain s!!"time", dv s!!"position" zero, dv s!!"spacing" one, dv s!!"rotateMix" one, dv s!!"translateMix" one,
   dv38 v38 s!!"curve" nothing, dv38 v38 s!!"c2" zero, dv38 v38 s!!"c3" one, dv38 v38 s!!"c4" one]

def deformKey (v38 : Bool) : List (Field F) :=
  [dv s!!"vertices" nothing, dv38 v38 s!!"time" zero, dv s!!"curve" nothing, dv38 v38 s!!"offset" nothing, dv38 v38 s!!"c2" zero,
   dv38 v38 s!!"c3" one, dv38 v38 s!!"c4" one]

def offset : List (Field F) := [dv s!!"slot" (text []), plain s!!"offset"]

def region : List (Field F) :=
  [dv s!!"x" zero, dv s!!"y" zero, dv s!!"rotation" zero, plain s!!"width", plain s!!"height", dv s!!"scaleX" oneF, dv s!!"scaleY" oneF,
   plain s!!"name", plain s!!"path", plain s!!"color"]

def mesh : List (Field F) :=
  [plain s!!"hull", dv s!!"uvs" nothing, dv s!!"vertices" nothing, plain s!!"height", plain s!!"width", dv s!!"edges" nothing, plain s!!"type",
   dv s!!"triangles" nothing, plain s!!"name", plain s!!"path", plain s!!"color"]

def linkedMesh (v38 : Bool) : List (Field F) :=
  [plain s!!"path", plain s!!"height", plain s!!"width", plain s!!"name", plain s!!"parent", dv38 v38 s!!"deform" yes, plain s!!"color",
   plain s!!"skin", plain s!!"type"]

def pathAttachment : List (Field F) :=
  [dv s!!"lengths" nothing, dv s!!"vertexCount" zero, plain s!!"type", plain s!!"name", dv s!!"vertices" nothing, plain s!!"color",
   dv s!!"closed" no, dv s!!"constantSpeed" yes]

/-- the attributes of an attachment, by its type -/
def attachmentFields (v38 : Bool) (d : Dict (JVal F)) : List (Field F) :=
  match Dict.get? d s!!"type" with
  | some (.str t) =>
    if t = s!!"mesh" then mesh
    else if t = s!!"linkedmesh" then linkedMesh v38
    else if t = s!!"path" then pathAttachment
    else []
  | _ => region

def attachment (v38 : Bool) (v : JVal F) : JVal F := obj (attachmentFields v38 (entries v)) v

/-! ### Objects with objects inside -/

/-- the attachments of a skin may be null, which is the same as none -/
def skin (v38 : Bool) : List (Field F) :=
  [dv s!!"name" (text []), ⟨s!!"attachments", dict (dict (attachment v38)), .dict [], some (.dict [])⟩]

def slotTimeline (v38 : Bool) : List (Field F) :=
  [lst s!!"attachment" (obj (slotKey v38)), lst s!!"color" (obj (slotKey v38)), lst s!!"twoColor" (obj (slotKey v38))]

def boneTimeline (v38 : Bool) : List (Field F) :=
  [lst s!!"rotate" (obj (turnKey v38)), lst s!!"translate" (obj (moveKey v38)), lst s!!"scale" (obj (turnKey v38)),
   lst s!!"shear" (obj (moveKey v38))]

/-- the offsets of a draw order are always written -/
def drawOrder (v38 : Bool) : List (Field F) :=
  [⟨s!!"time", id, zero, if v38 then some zero else none⟩, ⟨s!!"offsets", list (obj offset), .list [], none⟩]

def animation (v38 : Bool) : List (Field F) :=
  [dct s!!"ik" (list (obj (ikKey v38))), lst s!!"drawOrder" (obj (drawOrder v38)), dct s!!"bones" (obj (boneTimeline v38)),
   dct s!!"slots" (obj (slotTimeline v38)), lst s!!"events" (obj (eventKey v38)), dct s!!"transform" (list (obj (transformKey v38))),
   dct s!!"path" (dict (list (obj (pathKey v38)))), dct s!!"deform" (dict (dict (list (obj (deformKey v38)))))]

/-- the skins are always written -/
def document (v38 : Bool) : List (Field F) :=
  [lst s!!"bones" (obj bone), lst s!!"slots" (obj slot), ⟨s!!"skins", list (obj (skin v38)), .null, none⟩, dct s!!"events" (obj event),
   lst s!!"ik" (obj ik), lst s!!"transform" (obj transform), lst s!!"path" (obj path), dct s!!"animations" (obj (animation v38)),
   plain s!!"skeleton"]

/-- the document that is written -/
def saved (v38 : Bool) (doc : JVal F) : JVal F := obj (document v38) doc

/-! ### The same place before and after -/

inductive Key where
  | name (k : Str)
  | pos (i : Nat)

/-- the value at a place -/
def at? : JVal F → List Key → Option (JVal F)
  | v, [] => some v
  | .dict d, .name k :: q => match Dict.get? d k with
    | some x => at? x q
    | none => none
  | .list l, .pos i :: q => match l[i]? with
    | some x => at? x q
    | none => none
  | _, _ => none

/-- a place that follows a path of Spec/Places.lean -/
inductive Fits : List Step → List Key → Prop
  | nil : Fits [] []
  | key {k : Str} {p : List Step} {q : List Key} : Fits p q → Fits (.key k :: p) (.name k :: q)
  | any {k : Str} {p : List Step} {q : List Key} : Fits p q → Fits (.any :: p) (.name k :: q)
  | elem {i : Nat} {p : List Step} {q : List Key} : Fits p q → Fits (.elem :: p) (.pos i :: q)

/-- there is a list wherever the path expects one -/
def Shaped : List Step → JVal F → Prop
  | [], _ => True
  | .key k :: p, v => ∀ x, Dict.get? (entries v) k = some x → Shaped p x
  | .any :: p, v => ∀ k x, Dict.get? (entries v) k = some x → Shaped p x
  | .elem :: p, v => ∃ l, v = .list l ∧ ∀ x ∈ l, Shaped p x

/-- the attributes of the objects at every place; those of an attachment depend on the object -/
def fieldsAt (v38 : Bool) : List (List Step × (Dict (JVal F) → List (Field F))) :=
  [([], fun _ => document v38),
   ([.key s!!"bones", .elem], fun _ => bone),
   ([.key s!!"slots", .elem], fun _ => slot),
   ([.key s!!"skins", .elem], fun _ => skin v38),
   ([.key s!!"skins", .elem, .key s!!"attachments", .any, .any], attachmentFields v38),
   ([.key s!!"events", .any], fun _ => event),
   ([.key s!!"ik", .elem], fun _ => ik),
   ([.key s!!"transform", .elem], fun _ => transform),
   ([.key s!!"path", .elem], fun _ => path),
   ([.key s!!"animations", .any], fun _ => animation v38),
   ([.key s!!"animations", .any, .key s!!"ik", .any, .elem], fun _ => ikKey v38),
   ([.key s!!"animations", .any, .key s!!"drawOrder", .elem], fun _ => drawOrder v38),
   ([.key s!!"animations", .any, .key s!!"drawOrder", .elem, .key s!!"offsets", .elem], fun _ => offset),
   ([.key s!!"animations", .any, .key s!!"bones", .any], fun _ => boneTimeline v38),
   ([.key s!!"animations", .any, .key s!!"bones", .any, .key s!!"rotate", .elem], fun _ => turnKey v38),
   ([.key s!!"animations", .any, .key s!!"bones", .any, .key s!!"translate", .elem], fun _ => moveKey v38),
   ([.key s!!"animations", .any, .key s!!"bones", .any, .key s!!"scale", .elem], fun _ => turnKey v38),
   ([.key s!!"animations", .any, .key s!!"bones", .any, .key s!!"shear", .elem], fun _ => moveKey v38),
   ([.key s!!"animations", .any, .key s!!"slots", .any], fun _ => slotTimeline v38),
   ([.key s!!"animations", .any, .key s!!"slots", .any, .key s!!"attachment", .elem], fun _ => slotKey v38),
   ([.key s!!"animations", .any, .key s!!"slots", .any, .key s!!"color", .elem], fun _ => slotKey v38),
   ([.key s!!"animations", .any, .key s!!"slots", .any, .key s!!"twoColor", .elem], fun _ => slotKey v38),
   ([.key s!!"animations", .any, .key s!!"events", .elem], fun _ => eventKey v38),
   ([.key s!!"animations", .any, .key s!!"transform", .any, .elem], fun _ => transformKey v38),
   ([.key s!!"animations", .any, .key s!!"path", .any, .any, .elem], fun _ => pathKey v38),
   ([.key s!!"animations", .any, .key s!!"deform", .any, .any, .any, .elem], fun _ => deformKey v38)]

/-! ### What a reader of the file sees -/

/-- the value a program sees that takes `rd k` for an attribute `k` that is absent or null -/
def seen (rd : Str → JVal F) (d : Dict (JVal F)) (k : Str) : JVal F :=
  match Dict.get? d k with
  | none => rd k
  | some .null => rd k
  | some v => v

/-- What the Spine runtimes (version 3.8, for `inheritRotation` and `inheritScale` the versions that have them) take for a number
or a truth value that is absent, by kind of object.  `unit` says that the object is a keyframe of the scale of a bone or of its
rotation, `def?` gives the attributes of the event a keyframe belongs to. -/
def spineTakes (kind : Kind) (unit : Bool) (def? : Str → JVal F) (k : Str) : JVal F :=
  if kind = .eventKey ∧ k ∈ [s!!"int", s!!"float", s!!"volume", s!!"balance"] then def? k
  else if k = s!!"scaleX" ∨ k = s!!"scaleY" then if kind = .transform then zero else oneF
  else if k = s!!"x" ∨ k = s!!"y" then if kind = .boneKey ∧ unit then one else zero
  else if k ∈ [s!!"c3", s!!"c4", s!!"rotateMix", s!!"translateMix"] then one
  else if k ∈ [s!!"bendPositive", s!!"deform", s!!"constantSpeed", s!!"inheritRotation", s!!"inheritScale"] then yes
  else if k ∈ [s!!"skin", s!!"compress", s!!"stretch", s!!"uniform", s!!"closed"] then no
  else zero

/-- numbers and truth values -/
def simple : JVal F → Bool
  | .int _ => true
  | .flt _ => true
  | .bool _ => true
  | _ => false

/-- the attributes for which the library and the runtimes have different defaults -/
def differs (kind : Kind) (k : Str) : Bool :=
  match kind with
  | .bone => k ∈ [s!!"inheritRotation", s!!"inheritScale"]
  | .transform => k ∈ [s!!"scaleX", s!!"scaleY"]
  | .path => k = s!!"spacing"
  | .pathKey => k = s!!"spacing"
  | .eventKey => k ∈ [s!!"int", s!!"float", s!!"volume", s!!"balance"]
  | _ => false

/-- the keyframes of the rotation and of the scale of a bone -/
def units : List Step → Bool
  | [.key a, .any, .key b, .any, .key c, .elem] => a = s!!"animations" ∧ b = s!!"bones" ∧ (c = s!!"rotate" ∨ c = s!!"scale")
  | _ => false

end Spine.Saved
