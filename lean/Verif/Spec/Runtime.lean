import Verif.Model.Leaf
/-
What a reader of Spine 3.8 documents assumes for attributes that are not in the document (Spine's JSON format
documentation and the 3.8 runtimes).  Written down independently of the tables of the library; attributes that the
format requires, that have no fixed value when they are absent (the path of a region is then its name), or that the
runtimes do not read have no entry.
-/
namespace Spine
open JVal
variable {F : Type} [PyRt F]

/-- what a reader takes for attribute `k` of the object `j` -/
def ReadsAs (assumed : Dict (JVal F)) (j : Dict (JVal F)) (k : Str) (v : JVal F) : Prop :=
  Dict.get? j k = some v ∨ (Dict.get? j k = none ∧ (k, v) ∈ assumed)

namespace Runtime

/-- the control points of a Bézier curve -/
def curve : Dict (JVal F) := [(s!!"c2", .int 0), (s!!"c3", .int 1), (s!!"c4", .int 1)]
def white : JVal F := .str s!!"ffffffff"

def bone : Dict (JVal F) := [(s!!"length", .int 0), (s!!"x", .int 0), (s!!"y", .int 0), (s!!"rotation", .int 0), (s!!"scaleX", jone),
  (s!!"scaleY", jone), (s!!"shearX", .int 0), (s!!"shearY", .int 0), (s!!"transform", .str s!!"normal")]
/-- translate and shear timelines -/
def translate : Dict (JVal F) := [(s!!"time", .int 0), (s!!"x", .int 0), (s!!"y", .int 0)] ++ curve
/-- rotate and scale timelines -/
def rotate : Dict (JVal F) := [(s!!"time", .int 0), (s!!"angle", .int 0), (s!!"x", .int 1), (s!!"y", .int 1)] ++ curve
def slot : Dict (JVal F) := [(s!!"color", white), (s!!"blend", .str s!!"normal")]
def slotKeyframe : Dict (JVal F) := [(s!!"time", .int 0)] ++ curve
def event : Dict (JVal F) := [(s!!"int", .int 0), (s!!"float", .int 0), (s!!"string", .str [])]
/-- keyframes of events take what they do not say from the event -/
def eventKeyframe (i f s volume balance : JVal F) : Dict (JVal F) :=
  [(s!!"time", .int 0), (s!!"int", i), (s!!"float", f), (s!!"string", s), (s!!"volume", volume), (s!!"balance", balance)]
def deform : Dict (JVal F) := [(s!!"time", .int 0), (s!!"offset", .int 0)] ++ curve
def ik : Dict (JVal F) := [(s!!"order", .int 0), (s!!"mix", .int 1), (s!!"softness", .int 0), (s!!"bendPositive", .bool true),
  (s!!"compress", .bool false), (s!!"stretch", .bool false), (s!!"uniform", .bool false)]
def ikKeyframe : Dict (JVal F) := [(s!!"time", .int 0), (s!!"mix", .int 1), (s!!"bendPositive", .bool true),
  (s!!"compress", .bool false), (s!!"stretch", .bool false)] ++ curve
def transform : Dict (JVal F) := [(s!!"order", .int 0), (s!!"rotation", .int 0), (s!!"x", .int 0), (s!!"y", .int 0), (s!!"scaleX", .int 0),
  (s!!"scaleY", .int 0), (s!!"shearY", .int 0), (s!!"rotateMix", .int 1), (s!!"translateMix", .int 1), (s!!"scaleMix", .int 1),
  (s!!"shearMix", .int 1), (s!!"local", .bool false), (s!!"relative", .bool false)]
def transformKeyframe : Dict (JVal F) := [(s!!"time", .int 0), (s!!"rotateMix", .int 1), (s!!"translateMix", .int 1), (s!!"scaleMix", .int 1),
  (s!!"shearMix", .int 1)] ++ curve
def path : Dict (JVal F) := [(s!!"order", .int 0), (s!!"skin", .bool false), (s!!"positionMode", .str s!!"percent"),
  (s!!"spacingMode", .str s!!"length"), (s!!"rotateMode", .str s!!"tangent"), (s!!"rotation", .int 0), (s!!"position", .int 0),
  (s!!"spacing", .int 0), (s!!"rotateMix", .int 1), (s!!"translateMix", .int 1)]
def pathKeyframe : Dict (JVal F) := [(s!!"time", .int 0), (s!!"position", .int 0), (s!!"spacing", .int 0), (s!!"rotateMix", .int 1),
  (s!!"translateMix", .int 1)] ++ curve
def region : Dict (JVal F) := [(s!!"x", .int 0), (s!!"y", .int 0), (s!!"rotation", .int 0), (s!!"scaleX", jone), (s!!"scaleY", jone),
  (s!!"color", white)]
def mesh : Dict (JVal F) := [(s!!"color", white)]
def pathAttachment : Dict (JVal F) := [(s!!"closed", .bool false), (s!!"constantSpeed", .bool true)]
def linkedMesh : Dict (JVal F) := [(s!!"deform", .bool true), (s!!"color", white)]
def point : Dict (JVal F) := [(s!!"x", .int 0), (s!!"y", .int 0), (s!!"rotation", .int 0)]

end Runtime
end Spine
