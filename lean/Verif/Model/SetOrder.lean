import Verif.Model.Editor
/-
The editing calls with the order in which Python iterates over sets as an argument.  `clean_animation` makes a list of a set at
three places (spine_animation_editor.py 152, 154 and 158); the order is unspecified and differs between processes, because the
hashes of strings do.  Everything else is as in `Verif.Model.Editor`, where the order is fixed by the class `PyRt`.
-/
namespace Spine
variable {F : Type}

/-- the orders in which the sets at 152, 154 and 158 are listed, for sets given as lists without duplicates -/
structure Orders where
  slots : List Str → List Str
  atts : List Str → List Str
  all : List Str → List Str

/-- each lists the elements of the set once each -/
def Orders.Ok (o : Orders) : Prop := ∀ l, (o.slots l).Perm l ∧ (o.atts l).Perm l ∧ (o.all l).Perm l

/-- the orders of the runtime -/
def Orders.rt (F : Type) [PyRt F] : Orders := { slots := PyRt.setOrder F, atts := PyRt.setOrder F, all := PyRt.setOrder F }

namespace Editor
variable [PyRt F]

/-- `cleanGraph` (151-158) -/
def cleanGraphBy (o : Orders) (slots atts : List Str) (g : SGraph F) : Res (SGraph F) (List Str) :=
  match Container.removeNamed .slot (o.slots slots.eraseDups) g with
  | (.error e, g) => (.error e, g)
  | (.ok _, g) => match Container.removeNamed .attachment (o.atts atts.eraseDups) g with
    | (.error e, g) => (.error e, g)
    | (.ok _, g) => match Container.removeLeafsOfType (baseId .slot) .slot g with
      | (.error e, g) => (.error e, g)
      | (.ok leafs, g) => (.ok (o.all (slots ++ leafs).eraseDups), g)

/-- the rest of `clean_animation` (161-190) -/
def cleanRest (before : List (Slot F)) (atts ids : List Str) (e : Editor F) : Res (Editor F) (List Str × List Str) :=
  match readBack e with
  | (.error x, e) => (.error x, e)
  | (.ok _, e) => match removeSlots ids before e.data with
    | (.error x, a) => (.error x, e.withData a)
    | (.ok _, a) =>
      let e := e.withData (removeAttachments atts a)
      match detach e.graph with
      | (.error x, g) => (.error x, { e with graph := g })
      | (.ok imgs, g) => (.ok (ids, atts), cleanImages (imgs.map some) { e with graph := g })

/-- `clean_animation` (133-190) -/
def cleanBy (o : Orders) (e : Editor F) : Res (Editor F) (List Str × List Str) :=
  match AnimData.unused e.data with
  | .error x => (.error x, e)
  | .ok (slots, atts) => match cleanGraphBy o slots atts e.graph with
    | (.error x, g) => (.error x, { e with graph := g })
    | (.ok ids, g) => cleanRest e.data.slots atts ids { e with graph := g }

def cleanUnlessBy (o : Orders) (safe : Bool) (e : Editor F) : Res (Editor F) (List Str × List Str) :=
  if safe then (.ok ([], []), e) else cleanBy o e

/-- `erase_skins` (66-102) -/
def eraseSkinsBy (o : Orders) (names : List Str) (safe : Bool) (e : Editor F) :
    Res (Editor F) ((List Str × List Str) × List (Option Str)) :=
  match removeSkins names e.data with
  | (.error x, a) => (.error x, e.withData a)
  | (.ok (imgs, regions), a) =>
    let e := e.withData a
    match SpineNodes.create e.toJson with
    | .error x => (.error x, e)
    | .ok g =>
      let e := { e with graph := g }
      let gone := (imgs ++ regions.map some).filter (fun i => (Graph.getNode g (imageId i)).isNone)
      match cleanUnlessBy o safe e with
      | (.error x, e) => (.error x, e)
      | (.ok r, e) => (.ok (r, gone), cleanImages gone e)

/-- `erase_animations` (104-131) -/
def eraseAnimsBy (o : Orders) (arg : NamesArg) (strict safe : Bool) (e : Editor F) :
    Res (Editor F) (JVal F × (List Str × List Str)) :=
  match arg with
  | .other => (.error .type, e)
  | .list names =>
    let q := eraseRaw names e.data.animations
    let e := e.withData { e.data with animations := q.1 }
    if q.2 ≠ [] ∧ strict then (.error .value, e)
    else match cleanUnlessBy o safe e with
      | (.error x, e) => (.error x, e)
      | (.ok r, e) => (.ok (e.toJson, r), e)

/-- what a call returns -/
inductive Result (F : Type) where
  | skins (removed : List Str × List Str) (images : List (Option Str))
  | anims (doc : JVal F) (removed : List Str × List Str)
  | cleaned (removed : List Str × List Str)
  | scaled

/-- a call with its result -/
def Op.runBy (o : Orders) (c : Op F) (e : Editor F) : Res (Editor F) (Result F) :=
  match c with
  | .eraseSkins n s => let q := eraseSkinsBy o n s e; (q.1.map (fun r => .skins r.1 r.2), q.2)
  | .eraseAnims a t s => let q := eraseAnimsBy o a t s e; (q.1.map (fun r => .anims r.1 r.2), q.2)
  | .clean => let q := cleanBy o e; (q.1.map .cleaned, q.2)
  | .scale x y => let q := Editor.scale x y e; (q.1.map (fun _ => .scaled), q.2)

/-- calls one after the other, each with its own orders: what each of them returns or raises -/
def runsBy : List (Op F × Orders) → Editor F → List (Except Err (Result F)) × Editor F
  | [], e => ([], e)
  | (c, o) :: l, e =>
    let q := c.runBy o e
    let r := runsBy l q.2
    (q.1 :: r.1, r.2)

end Editor
end Spine
