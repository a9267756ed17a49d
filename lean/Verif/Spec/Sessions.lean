import Verif.Model.Editor
/-
C88: sequences of calls on one editor, and the same calls in several sessions between which the document is saved and
opened again.
-/
namespace Spine
namespace Sessions
variable {F : Type} [PyRt F]

/-- a call other than `scale_animation` -/
inductive Call where
  | eraseSkins (names : List Str) (safe : Bool)
  | eraseAnims (arg : Editor.NamesArg) (strict safe : Bool)
  | clean

/-- what a call returns: the document (erase_animations), the names of the removed slots and attachments, the images that
`erase_skins` reports -/
structure Out (F : Type) where
  doc : Option (JVal F) := none
  slots : List Str
  atts : List Str
  images : List (Option Str) := []

def Call.run (c : Call) (e : Editor F) : Res (Editor F) (Out F) :=
  match c with
  | .clean => let q := Editor.clean e; (q.1.map (fun r => { slots := r.1, atts := r.2 }), q.2)
  | .eraseAnims a t s => let q := Editor.eraseAnims a t s e; (q.1.map (fun r => { doc := some r.1, slots := r.2.1, atts := r.2.2 }), q.2)
  | .eraseSkins n s => let q := Editor.eraseSkins n s e; (q.1.map (fun r => { slots := r.1.1, atts := r.1.2, images := r.2 }), q.2)

/-- the calls one after the other, up to the first exception -/
def runAll : List Call → Editor F → Res (Editor F) (List (Out F))
  | [], e => (.ok [], e)
  | c :: l, e => match c.run e with
    | (.error x, e) => (.error x, e)
    | (.ok o, e) => match runAll l e with
      | (.error x, e) => (.error x, e)
      | (.ok os, e) => (.ok (o :: os), e)

/-- the calls of each session on a new editor, opened on what the session before has saved; the last document is saved too -/
def inSessions : List (List Call) → JVal F → Except Err (List (Out F) × JVal F)
  | [], d => .ok ([], d)
  | l :: ls, d => match Editor.load d with
    | .error x => .error x
    | .ok e => match runAll l e with
      | (.error x, _) => .error x
      | (.ok os, e) => match inSessions ls e.toJson with
        | .error x => .error x
        | .ok (os', d) => .ok (os ++ os', d)

/-- the same answer: the names of the slots as a set -/
structure Out.Same (o o' : Out F) : Prop where
  doc : o.doc = o'.doc
  slots : ∀ n, n ∈ o.slots ↔ n ∈ o'.slots
  atts : o.atts = o'.atts
  images : o.images = o'.images

end Sessions
end Spine
