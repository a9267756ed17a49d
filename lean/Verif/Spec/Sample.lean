import Verif.Spec.Concrete
import Verif.Model.Editor
/-
Small documents for the examples and counterexamples.
-/
namespace Spine.Sample
open JVal

abbrev J := JVal Rat

def obj (l : List (String × J)) : J := .dict (l.map (fun p => (p.1.toList, p.2)))
def txt (s : String) : J := .str s.toList

/-- a 3.8 document; empty parts are left out, except slots and skins -/
def doc (bones slots : List J) (skins : List (String × J)) (anims : List (String × J)) (ik : List J := []) : J :=
  obj ([("skeleton", obj [("spine", txt "3.8.75")]), ("bones", .list bones), ("slots", .list slots),
    ("skins", .list (skins.map (fun p => obj [("name", txt p.1), ("attachments", p.2)])))] ++
    (if anims = [] then [] else [("animations", obj anims)]) ++ (if ik.isEmpty then [] else [("ik", .list ik)]))

def root : J := obj [("name", txt "root")]
def bone (n p : String) : J := obj [("name", txt n), ("parent", txt p)]
def slot (n b : String) (more : List (String × J) := []) : J := obj ([("name", txt n), ("bone", txt b)] ++ more)
def region (path : String) : J := obj [("path", txt path)]
def mesh (path : String) : J := obj [("type", txt "mesh"), ("path", txt path)]
def shows (att : String) : J := obj [("attachment", .list [obj [("name", txt att)]])]

/-- two bones, three slots, two skins, two animations and an ik -/
def basic : J := doc [root, bone "arm" "root"]
  [slot "s1" "arm" [("attachment", txt "a1")], slot "s2 [scale:0.5]" "arm", slot "s3" "root"]
  [("default", obj [("s1", obj [("a1", region "img/a1"), ("a2", mesh "img/a2")]), ("s2 [scale:0.5]", obj [("b1", obj [])])]),
   ("red", obj [("s1", obj [("a1", region "red/a1")])])]
  [("walk", obj [("slots", obj [("s2 [scale:0.5]", shows "b1")])]), ("run", obj [])]
  [obj [("name", txt "k"), ("bones", .list [txt "arm"]), ("target", txt "root")]]

/-- a number of a document -/
def num : J → Option Rat
  | .int i => some i
  | .flt x => some x
  | _ => none

def scaleXs (e : Editor Rat) : List (Option Rat) := e.data.bones.map (fun b => num (b.rest.val s!!"scaleX"))

/-- the editor of a document -/
def load (d : J) : Option (Editor Rat) := (Editor.load d).toOption

end Spine.Sample
