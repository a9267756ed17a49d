import Verif.Model.Py
/-
The objects of a Spine document: where they are, which attributes they may have and which they must have.

`places` follows the layout of a Spine 3.8 export.  An object is reached from the document by a path of steps: the value of a
given key, any value of an object, any element of a list.
-/
namespace Spine.Places

inductive Step where
  | key (k : Str)
  | any
  | elem

inductive Kind where
  | document | bone | slot | skin | attachment | event | ik | transform | path | animation
  | ikKey | drawOrder | offset | boneTimeline | boneKey | slotTimeline | slotKey | eventKey | transformKey | pathKey | deformKey
  deriving DecidableEq

/-- every place of an object, with its kind -/
def places : List (List Step × Kind) :=
  [([], .document),
   ([.key s!!"bones", .elem], .bone),
   ([.key s!!"slots", .elem], .slot),
   ([.key s!!"skins", .elem], .skin),
   ([.key s!!"skins", .elem, .key s!!"attachments", .any, .any], .attachment),
   ([.key s!!"events", .any], .event),
   ([.key s!!"ik", .elem], .ik),
   ([.key s!!"transform", .elem], .transform),
   ([.key s!!"path", .elem], .path),
   ([.key s!!"animations", .any], .animation),
   ([.key s!!"animations", .any, .key s!!"ik", .any, .elem], .ikKey),
   ([.key s!!"animations", .any, .key s!!"drawOrder", .elem], .drawOrder),
   ([.key s!!"animations", .any, .key s!!"drawOrder", .elem, .key s!!"offsets", .elem], .offset),
   ([.key s!!"animations", .any, .key s!!"bones", .any], .boneTimeline),
   ([.key s!!"animations", .any, .key s!!"bones", .any, .key s!!"rotate", .elem], .boneKey),
   ([.key s!!"animations", .any, .key s!!"bones", .any, .key s!!"translate", .elem], .boneKey),
   ([.key s!!"animations", .any, .key s!!"bones", .any, .key s!!"scale", .elem], .boneKey),
   ([.key s!!"animations", .any, .key s!!"bones", .any, .key s!!"shear", .elem], .boneKey),
   ([.key s!!"animations", .any, .key s!!"slots", .any], .slotTimeline),
   ([.key s!!"animations", .any, .key s!!"slots", .any, .key s!!"attachment", .elem], .slotKey),
   ([.key s!!"animations", .any, .key s!!"slots", .any, .key s!!"color", .elem], .slotKey),
   ([.key s!!"animations", .any, .key s!!"slots", .any, .key s!!"twoColor", .elem], .slotKey),
   ([.key s!!"animations", .any, .key s!!"events", .elem], .eventKey),
   ([.key s!!"animations", .any, .key s!!"transform", .any, .elem], .transformKey),
   ([.key s!!"animations", .any, .key s!!"path", .any, .any, .elem], .pathKey),
   ([.key s!!"animations", .any, .key s!!"deform", .any, .any, .any, .elem], .deformKey)]

variable {F : Type}

/-- the attributes an attachment may have, by its type -/
def attachmentAttrs (d : Dict (JVal F)) : List Str :=
  match Dict.get? d s!!"type" with
  | some (.str t) =>
    if t = s!!"mesh" then [s!!"type", s!!"hull", s!!"uvs", s!!"vertices", s!!"height", s!!"width", s!!"edges", s!!"triangles",
      s!!"name", s!!"path", s!!"color"]
    else if t = s!!"linkedmesh" then [s!!"type", s!!"path", s!!"height", s!!"width", s!!"name", s!!"parent", s!!"deform", s!!"color",
      s!!"skin"]
    else if t = s!!"path" then [s!!"type", s!!"lengths", s!!"vertexCount", s!!"name", s!!"vertices", s!!"color", s!!"closed",
      s!!"constantSpeed"]
    else []
  | _ => [s!!"x", s!!"y", s!!"rotation", s!!"width", s!!"height", s!!"scaleX", s!!"scaleY", s!!"name", s!!"path", s!!"color"]

/-- the attributes an object may have -/
def allowed : Kind → Dict (JVal F) → List Str
  | .document, _ => [s!!"skeleton", s!!"bones", s!!"slots", s!!"skins", s!!"events", s!!"ik", s!!"transform", s!!"path", s!!"animations"]
  | .bone, _ => [s!!"name", s!!"parent", s!!"color", s!!"length", s!!"transform", s!!"x", s!!"y", s!!"rotation", s!!"scaleX", s!!"scaleY",
      s!!"shearX", s!!"shearY", s!!"inheritRotation", s!!"inheritScale"]
  | .slot, _ => [s!!"name", s!!"bone", s!!"attachment", s!!"color", s!!"dark", s!!"blend"]
  | .skin, _ => [s!!"name", s!!"attachments"]
  | .attachment, d => attachmentAttrs d
  | .event, _ => [s!!"int", s!!"float", s!!"string"]
  | .ik, _ => [s!!"name", s!!"order", s!!"bones", s!!"target", s!!"mix", s!!"bendPositive", s!!"softness", s!!"compress", s!!"stretch",
      s!!"uniform"]
  | .transform, _ => [s!!"name", s!!"order", s!!"bone", s!!"bones", s!!"target", s!!"rotation", s!!"x", s!!"y", s!!"scaleX", s!!"scaleY",
      s!!"shearX", s!!"shearY", s!!"rotateMix", s!!"translateMix", s!!"scaleMix", s!!"shearMix", s!!"local", s!!"relative"]
  | .path, _ => [s!!"name", s!!"order", s!!"skin", s!!"bones", s!!"target", s!!"positionMode", s!!"spacingMode", s!!"rotateMode",
      s!!"rotation", s!!"position", s!!"spacing", s!!"rotateMix", s!!"translateMix"]
  | .animation, _ => [s!!"ik", s!!"drawOrder", s!!"bones", s!!"slots", s!!"events", s!!"transform", s!!"path", s!!"deform"]
  | .ikKey, _ => [s!!"time", s!!"mix", s!!"bendPositive", s!!"compress", s!!"stretch", s!!"curve", s!!"c2", s!!"c3", s!!"c4"]
  | .drawOrder, _ => [s!!"time", s!!"offsets"]
  | .offset, _ => [s!!"slot", s!!"offset"]
  | .boneTimeline, _ => [s!!"rotate", s!!"translate", s!!"scale", s!!"shear"]
  | .boneKey, _ => [s!!"time", s!!"angle", s!!"x", s!!"y", s!!"curve", s!!"c2", s!!"c3", s!!"c4"]
  | .slotTimeline, _ => [s!!"attachment", s!!"color", s!!"twoColor"]
  | .slotKey, _ => [s!!"time", s!!"name", s!!"color", s!!"dark", s!!"light", s!!"curve", s!!"c2", s!!"c3", s!!"c4"]
  | .eventKey, _ => [s!!"time", s!!"name", s!!"int", s!!"float", s!!"string", s!!"audio", s!!"volume", s!!"balance"]
  | .transformKey, _ => [s!!"time", s!!"rotateMix", s!!"translateMix", s!!"scaleMix", s!!"shearMix", s!!"curve", s!!"c2", s!!"c3", s!!"c4"]
  | .pathKey, _ => [s!!"time", s!!"position", s!!"spacing", s!!"rotateMix", s!!"translateMix", s!!"curve", s!!"c2", s!!"c3", s!!"c4"]
  | .deformKey, _ => [s!!"time", s!!"vertices", s!!"offset", s!!"curve", s!!"c2", s!!"c3", s!!"c4"]

/-- the attributes an object must have -/
def required : Kind → List Str
  | .bone => [s!!"name"]
  | .slot => [s!!"name", s!!"bone"]
  | .offset => [s!!"offset"]
  | _ => []

/-- `w` is found in `v` by following the steps -/
inductive Reach : List Step → JVal F → JVal F → Prop
  | here (v : JVal F) : Reach [] v v
  | key {k : Str} {p : List Step} {d : Dict (JVal F)} {v w : JVal F} : Dict.get? d k = some v → Reach p v w → Reach (.key k :: p) (.dict d) w
  | any {k : Str} {p : List Step} {d : Dict (JVal F)} {v w : JVal F} : (k, v) ∈ d → Reach p v w → Reach (.any :: p) (.dict d) w
  | elem {p : List Step} {l : List (JVal F)} {v w : JVal F} : v ∈ l → Reach p v w → Reach (.elem :: p) (.list l) w

/-- `v` is `v'` with the part `w'`, which is found by following the steps, replaced by `w` -/
inductive Replace : List Step → JVal F → JVal F → JVal F → JVal F → Prop
  | here (v' v : JVal F) : Replace [] v' v v' v
  | key {k : Str} {p : List Step} {d1 d2 : Dict (JVal F)} {x' x w' w : JVal F} : k ∉ Dict.keys d1 → Replace p x' x w' w →
      Replace (.key k :: p) (.dict (d1 ++ (k, x') :: d2)) (.dict (d1 ++ (k, x) :: d2)) w' w
  | any {k : Str} {p : List Step} {d1 d2 : Dict (JVal F)} {x' x w' w : JVal F} : Replace p x' x w' w →
      Replace (.any :: p) (.dict (d1 ++ (k, x') :: d2)) (.dict (d1 ++ (k, x) :: d2)) w' w
  | elem {p : List Step} {l1 l2 : List (JVal F)} {x' x w' w : JVal F} : Replace p x' x w' w →
      Replace (.elem :: p) (.list (l1 ++ x' :: l2)) (.list (l1 ++ x :: l2)) w' w

end Spine.Places
