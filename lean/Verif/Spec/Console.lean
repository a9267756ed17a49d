import Verif.Model.Console
import Verif.Spec.Names
/- C92: what is printed over a sequence of calls. -/
namespace Spine
namespace Editor
namespace Console
variable {F : Type} [PyRt F]

/-- everything printed by the calls, one after the other, whether they fail or not -/
def log : List (Op F) → Editor F → List Line
  | [], _ => []
  | o :: ops, e => (run o e).2 ++ log ops (run o e).1.2

/-- the text on the console: every line ends with a line feed -/
def out (pr : Char → Bool) : List Line → Str
  | [] => []
  | l :: r => (l.text pr ++ s!!"\n") ++ out pr r

/-- the images that the lines name -/
def imagesIn : List Line → List Str
  | [] => []
  | .images l :: r => l ++ imagesIn r
  | _ :: r => imagesIn r

/-- the images of `e` that are missing in `e'`, in their order -/
def lost (e e' : Editor F) : List Str := (Dict.keys e.images).filter (fun i => i ∉ Dict.keys e'.images)

/-- a line for them unless there are none -/
def lostLine (e e' : Editor F) : List Line := if lost e e' = [] then [] else [.images (lost e e')]

/-- some skin has the attachment -/
def Has (e : Editor F) (k : Str) : Prop := ∃ slot x, e.data.HasAtt slot k x

end Console
end Editor
end Spine
