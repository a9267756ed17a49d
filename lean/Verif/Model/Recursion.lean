import Verif.Model.Editor
/-
The recursion limit of the interpreter.

`Model/Graph.lean` gives the recursive searches enough fuel for every graph.  The interpreter does not: a call nested too
deeply raises RecursionError.  Here the fuel is a parameter `lim`, the number of nested calls of the search that are still allowed
when it starts (in CPython: the recursion limit less the frames that are already there), and `.diverge` is RecursionError.
The searches of the graph are the only recursion of the library whose depth grows with the length of the lists of a document;
the recursion of `to_json`, `set_default_values` and `copy.deepcopy` is as deep as the document is nested and is not limited here.
-/
namespace Spine
namespace Graph
variable {T D : Type}

/-- `__get_nodes` (dagraph.py 241-262) -/
def getNodesByL (lim : Nat) (g : Graph T D) (rel : Node T D → List Str) : Except Err (List Str) :=
  match foldE (walk g rel lim) ([], []) (Dict.keys g.nodes) with
  | .ok (_, res) => .ok res
  | .error e => .error e

/-- `get_heads_id` (dagraph.py 233-235) -/
def headsL (lim : Nat) (g : Graph T D) : Except Err (List Str) := getNodesByL lim g Node.parents
/-- `get_tails_id` (dagraph.py 237-239) -/
def tailsL (lim : Nat) (g : Graph T D) : Except Err (List Str) := getNodesByL lim g Node.children

/-- the loop over all nodes (graph_validator.py 106-108) -/
def circAllL (lim : Nat) (g : Graph T D) : List Str → List Str × CState → Except Err (List Str × CState)
  | [], a => .ok a
  | id :: ids, (acc, s) =>
    match circVisit g lim s id with
    | .error e => .error e
    | .ok (r, s) => circAllL lim g ids (acc ++ r, s)

/-- `get_circular_dependencies` (graph_validator.py 82-110) -/
def circularL (lim : Nat) (g : Graph T D) : Except Err (List Str) :=
  match circAllL lim g (Dict.keys g.nodes) ([], { path := [], visited := [] }) with
  | .ok (acc, _) => .ok acc.reverse
  | .error e => .error e

/-- `get_unconnected_nodes` (graph_validator.py 67-80) -/
def unconnectedL [DecidableEq T] (lim : Nat) (root : T) (g : Graph T D) : Except Err (List Str) :=
  match headsL lim g with
  | .error e => .error e
  | .ok hs => .ok (hs.filter (fun h => match getNode g h with
      | some n => n.ntype ≠ root
      | none => true))

/-- `validate` (graph_validator.py 53-65) -/
def validateL [DecidableEq T] (lim : Nat) (root : T) (g : Graph T D) : Except Err (List GraphError) :=
  match circularL lim g with
  | .error e => .error e
  | .ok cs =>
    let errs := if cs ≠ [] then [GraphError.circularRefs cs] else []
    match unconnectedL lim root g with
    | .error e => .error e
    | .ok us => .ok (errs ++ if us ≠ [] then [GraphError.unconnectedNodes us] else [])

/-- `sequential_order_of_execution` (dagraph.py 207-231) -/
def seqOrderL (lim : Nat) (g : Graph T D) : Except Err (List Str) :=
  match headsL lim g with
  | .error e => .error e
  | .ok hs =>
    match foldE (seqVisit g lim) ([], []) hs with
    | .ok (_, res) => .ok res
    | .error e => .error e

end Graph

namespace Container
open Graph
variable {T D : Type} [DecidableEq T]

/-- `remove_heads_of_type` (spine_graph_container.py 28-45) -/
def removeHeadsOfTypeL (lim : Nat) (base : Str → Str) (t : T) (g : Graph T D) : Res (Graph T D) (List Str) :=
  removeLoop (headsL lim) base t (g.nodes.length + 1) g
/-- `remove_leafs_of_type` (spine_graph_container.py 59-76) -/
def removeLeafsOfTypeL (lim : Nat) (base : Str → Str) (t : T) (g : Graph T D) : Res (Graph T D) (List Str) :=
  removeLoop (tailsL lim) base t (g.nodes.length + 1) g

end Container

namespace Editor
variable {F : Type} [PyRt F]

/-- the graph part at the start of `clean_animation` (spine_animation_editor.py 151-158) -/
def cleanGraphL (lim : Nat) (slots atts : List Str) (g : SGraph F) : Res (SGraph F) (List Str) :=
  match Container.removeNamed .slot (setList F slots) g with
  | (.error e, g) => (.error e, g)
  | (.ok _, g) => match Container.removeNamed .attachment (setList F atts) g with
    | (.error e, g) => (.error e, g)
    | (.ok _, g) => match Container.removeLeafsOfTypeL lim (baseId .slot) .slot g with
      | (.error e, g) => (.error e, g)
      | (.ok leafs, g) => (.ok (setList F (slots ++ leafs)), g)

/-- the graph part at the end (spine_animation_editor.py 174-186) -/
def detachL (lim : Nat) (g : SGraph F) : Res (SGraph F) (List Str) :=
  match Container.removeHeadsOfTypeL lim (baseId .attachment) .attachment g with
  | (.error e, g) => (.error e, g)
  | (.ok _, g) => match Container.removeLeafsOfTypeL lim (baseId .attachment) .attachment g with
    | (.error e, g) => (.error e, g)
    | (.ok _, g) => Container.removeHeadsOfTypeL lim (baseId .image) .image g

/-- `clean_animation` (spine_animation_editor.py 133-190) -/
def cleanL (lim : Nat) (e : Editor F) : Res (Editor F) (List Str × List Str) :=
  let before := e.data.slots
  match AnimData.unused e.data with
  | .error x => (.error x, e)
  | .ok (slots, atts) => match cleanGraphL lim slots atts e.graph with
    | (.error x, g) => (.error x, { e with graph := g })
    | (.ok ids, g) => match readBack { e with graph := g } with
      | (.error x, e) => (.error x, e)
      | (.ok _, e) => match removeSlots ids before e.data with
        | (.error x, a) => (.error x, e.withData a)
        | (.ok _, a) =>
          let e := e.withData (removeAttachments atts a)
          match detachL lim e.graph with
          | (.error x, g) => (.error x, { e with graph := g })
          | (.ok imgs, g) => (.ok (ids, atts), cleanImages (imgs.map some) { e with graph := g })

/-- `clean_animation()` unless `is_safe_mode` (spine_animation_editor.py 96-99, 127-130) -/
def cleanUnlessL (lim : Nat) (safe : Bool) (e : Editor F) : Res (Editor F) (List Str × List Str) :=
  if safe then (.ok ([], []), e) else cleanL lim e

/-- `erase_skins` (spine_animation_editor.py 66-102) -/
def eraseSkinsL (lim : Nat) (names : List Str) (safe : Bool) (e : Editor F) :
    Res (Editor F) ((List Str × List Str) × List (Option Str)) :=
  match removeSkins names e.data with
  | (.error x, a) => (.error x, e.withData a)
  | (.ok (imgs, regions), a) =>
    let e := e.withData a
    match SpineNodes.create e.toJson with
    | .error x => (.error x, e)
    | .ok g =>
      let e := { e with graph := g }
      let gone := (imgs ++ regions.map some).filter (fun i => (Graph.getNode g (imageId i)).isNone)
      match cleanUnlessL lim safe e with
      | (.error x, e) => (.error x, e)
      | (.ok r, e) => (.ok (r, gone), cleanImages gone e)

/-- `erase_animations` (spine_animation_editor.py 104-131) -/
def eraseAnimsL (lim : Nat) (arg : NamesArg) (strict safe : Bool) (e : Editor F) :
    Res (Editor F) (JVal F × (List Str × List Str)) :=
  match arg with
  | .other => (.error .type, e)
  | .list names =>
    let q := eraseRaw names e.data.animations
    let e := e.withData { e.data with animations := q.1 }
    if q.2 ≠ [] ∧ strict then (.error .value, e)
    else match cleanUnlessL lim safe e with
      | (.error x, e) => (.error x, e)
      | (.ok r, e) => (.ok (e.toJson, r), e)

/-- a call of the editor API under the limit -/
def Op.runL (lim : Nat) (o : Op F) (e : Editor F) : Res (Editor F) Unit :=
  match o with
  | .eraseSkins n s => let q := eraseSkinsL lim n s e; (q.1.map (fun _ => ()), q.2)
  | .eraseAnims a t s => let q := eraseAnimsL lim a t s e; (q.1.map (fun _ => ()), q.2)
  | .clean => let q := cleanL lim e; (q.1.map (fun _ => ()), q.2)
  | .scale x y => Editor.scale x y e

end Editor
end Spine
