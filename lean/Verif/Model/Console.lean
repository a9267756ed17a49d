import Verif.Model.Editor
import Verif.Model.Repr
/-
What the editor prints (spine_animation_editor.py 171, 180-184, 289-290) and the message of the ValueError of `erase_animations` (274-279).
The functions of `Model/Editor.lean` again, with the lines they print; `c92_same` shows that their results are the same.
-/
namespace Spine
namespace Editor
namespace Console
variable {F : Type} [PyRt F]

/-- a printed line -/
inductive Line where
  | slots (l : List Str)
  | atts (l : List Str)
  | images (l : List Str)
  deriving DecidableEq

/-- the text of the line: `"Removed slots {}"`, `"Removed attachments {}"`, `"Removed images: {}"` -/
def Line.text (pr : Char → Bool) : Line → Str
  | .slots l => s!!"Removed slots " ++ Repr.strs pr l
  | .atts l => s!!"Removed attachments " ++ Repr.strs pr l
  | .images l => s!!"Removed images: " ++ Repr.strs pr l

/-- `_clean_images_references` (281-292) -/
def cleanImages (ids : List (Option Str)) (e : Editor F) : Editor F × List Line :=
  let removed := (e.images.filter (fun p => some p.1 ∈ ids)).map (·.1)
  (Editor.cleanImages ids e, if removed = [] then [] else [.images removed])

/-- the graph part at the end and the line in between (174-186): the removed images -/
def detach (atts : List Str) (g : SGraph F) : Res (SGraph F) (List Str) × List Line :=
  match Container.removeHeadsOfType (baseId .attachment) .attachment g with
  | (.error e, g) => ((.error e, g), [])
  | (.ok a, g) => match Container.removeLeafsOfType (baseId .attachment) .attachment g with
    | (.error e, g) => ((.error e, g), [])
    | (.ok b, g) => (Container.removeHeadsOfType (baseId .image) .image g, [.atts (atts ++ (a ++ b))])

/-- `clean_animation` (133-190); `list(attachments_to_remove)` (182) -/
def clean (e : Editor F) : Res (Editor F) (List Str × List Str) × List Line :=
  let before := e.data.slots
  match AnimData.unused e.data with
  | .error x => ((.error x, e), [])
  | .ok (slots, atts) => match cleanGraph slots atts e.graph with
    | (.error x, g) => ((.error x, { e with graph := g }), [])
    | (.ok ids, g) => match readBack { e with graph := g } with
      | (.error x, e) => ((.error x, e), [])
      | (.ok _, e) => match removeSlots ids before e.data with
        | (.error x, a) => ((.error x, e.withData a), [])
        | (.ok _, a) =>
          let e := e.withData (removeAttachments atts a)
          match detach (setList F atts) e.graph with
          | ((.error x, g), l) => ((.error x, { e with graph := g }), .slots ids :: l)
          | ((.ok imgs, g), l) =>
            let q := cleanImages (imgs.map some) { e with graph := g }
            ((.ok (ids, atts), q.1), .slots ids :: (l ++ q.2))

/-- `clean_animation()` unless `is_safe_mode` (96-99, 127-130) -/
def cleanUnless (safe : Bool) (e : Editor F) : Res (Editor F) (List Str × List Str) × List Line :=
  if safe then ((.ok ([], []), e), []) else clean e

/-- `erase_skins` (66-102) -/
def eraseSkins (names : List Str) (safe : Bool) (e : Editor F) :
    Res (Editor F) ((List Str × List Str) × List (Option Str)) × List Line :=
  match removeSkins names e.data with
  | (.error x, a) => ((.error x, e.withData a), [])
  | (.ok (imgs, regions), a) =>
    let e := e.withData a
    match SpineNodes.create e.toJson with
    | .error x => ((.error x, e), [])
    | .ok g =>
      let e := { e with graph := g }
      let gone := (imgs ++ regions.map some).filter (fun i => (Graph.getNode g (imageId i)).isNone)
      match cleanUnless safe e with
      | ((.error x, e), l) => ((.error x, e), l)
      | ((.ok r, e), l) =>
        let q := cleanImages gone e
        ((.ok (r, gone), q.1), l ++ q.2)

/-- `erase_animations` (104-131) -/
def eraseAnims (arg : NamesArg) (strict safe : Bool) (e : Editor F) :
    Res (Editor F) (JVal F × (List Str × List Str)) × List Line :=
  match arg with
  | .other => ((.error .type, e), [])
  | .list names =>
    let q := eraseRaw names e.data.animations
    let e := e.withData { e.data with animations := q.1 }
    if q.2 ≠ [] ∧ strict then ((.error .value, e), [])
    else match cleanUnless safe e with
      | ((.error x, e), l) => ((.error x, e), l)
      | ((.ok r, e), l) => ((.ok (e.toJson, r), e), l)

/-- the names in the message of the ValueError (267-272) -/
def notFound (names : List Str) (e : Editor F) : List Str := (eraseRaw names e.data.animations).2

/-- the message of the ValueError (274-279) -/
def notFoundText (pr : Char → Bool) (names : List Str) (e : Editor F) : Str :=
  s!!"Animations with ids " ++ Repr.strs pr (notFound names e) ++ s!!" could not be found inside the spine file"

/-- a call and what it prints; `scale_animation` (201-210) prints nothing -/
def run (o : Op F) (e : Editor F) : Res (Editor F) Unit × List Line :=
  match o with
  | .eraseSkins n s => let q := eraseSkins n s e; ((q.1.1.map (fun _ => ()), q.1.2), q.2)
  | .eraseAnims a t s => let q := eraseAnims a t s e; ((q.1.1.map (fun _ => ()), q.1.2), q.2)
  | .clean => let q := clean e; ((q.1.1.map (fun _ => ()), q.1.2), q.2)
  | .scale x y => (Editor.scale x y e, [])

end Console
end Editor
end Spine
