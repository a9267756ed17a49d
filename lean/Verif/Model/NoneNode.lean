import Verif.Model.SpineNodes
/-
Model of `graph/dagraph.py` with a node factory that may return `None` instead of a node.

`SpineNodeFactory.create_node` (deserializer/spine_nodes.py 34-99) returns `None` for the types DEFAULT and PATH, and `add_node`
(dagraph.py 82-92) stores whatever the factory returns.  `Model/Graph.lean` has only factories that create a node; here the
dictionary `_nodes` maps ids to nodes or `None`.

Simplification: the searches go from node object to node object once they have started from an entry of `_nodes`, and links lead
to node objects only (`_add_child` and `_add_parent` reject `None`); they are the functions of `Model/Graph.lean` on the node
objects (`objs`).
-/
namespace Spine

/-- a node factory that may return `None`: requested type ↦ (stored type, forbidden child types) -/
abbrev OFactory (T : Type) := T → Option (T × List T)

/-- `SpineNodeFactory.create_node` (spine_nodes.py 34-99) -/
def spineOFactory : OFactory NType
  | .bone => some (.bone, [.attachment])
  | .slot => some (.slot, [.bone, .path, .ik])
  | .ik => some (.ik, [.path, .ik, .attachment, .image])
  | .attachment => some (.attachment, [.path, .ik, .attachment, .bone])
  | .image => some (.image, [.default, .bone, .slot, .path, .ik, .attachment, .image])
  | .default => none
  | .path => none

/-- `DAGraph` (dagraph.py 48-62) whose entries may be `None` -/
structure OGraph (T D : Type) where
  idGen : Nat
  counter : Nat
  nodes : Dict (Option (Node T D))

namespace OGraph
open Graph (foldE Walk CState GraphError Op)
variable {T D : Type}

/-- `DAGraph()` (48-53) -/
def empty : OGraph T D := { idGen := 0, counter := 0, nodes := [] }

/-- `get_node` (94-103) for a string id: `None` for an absent id and for an entry that is `None` -/
def getNode (g : OGraph T D) (id : Str) : Option (Node T D) := (Dict.get? g.nodes id).join

/-- the `while` loop of `generate_unique_id` (144-145) with fuel -/
def skipUsed (nodes : Dict (Option (Node T D))) : Nat → Nat → Option Nat
  | 0, _ => none
  | f + 1, n => if Dict.has nodes (natStr n) then skipUsed nodes f (n + 1) else some n

/-- `generate_unique_id` (140-146) -/
def genId (g : OGraph T D) : Res (OGraph T D) Str :=
  match skipUsed g.nodes (g.nodes.length + 1) (g.idGen + 1) with
  | some n => (.ok (natStr n), { g with idGen := n })
  | none => (.error .diverge, g)

/-- `add_node` (64-92): returns what the factory returned -/
def addNode (fac : OFactory T) (g : OGraph T D) (nid : IdArg) (data : D) (ty : T) : Res (OGraph T D) (Option Str) :=
  match genId g with
  | (.error e, g) => (.error e, g)
  | (.ok u, g) =>
    let ins (i : Str) : Res (OGraph T D) (Option Str) :=
      let node : Option (Node T D) := (fac ty).map (fun q =>
        { id := i, data := data, ntype := q.1, order := u, forbidden := q.2, children := [], parents := [] })
      (.ok (node.map (·.id)), { g with counter := g.counter + 1, nodes := Dict.set g.nodes i node })
    match nid with
    | .absent => ins u
    | .nonStr => (.error .type, g)
    | .str s => if Dict.has g.nodes s then (.error .value, g) else ins s

/-- change the node object stored under an id -/
def update (g : OGraph T D) (id : Str) (f : Node T D → Node T D) : OGraph T D := { g with nodes := Dict.modify g.nodes id (·.map f) }

/-- `_add_child` (spamnode.py 89-107), see `Graph.addChild` -/
def addChild [DecidableEq T] (g : OGraph T D) (p : Str) (n1 : Node T D) (c : Str) (n2 : Option (Node T D)) :
    Res (OGraph T D) Unit :=
  match n2 with
  | none => (.error .type, g)
  | some n2 =>
    if n2.ntype ∈ n1.forbidden then (.error .type, g)
    else if p = c then (.error .value, g)
    else (.ok (), g.update p (fun n => { n with children := Graph.addLink n.children n2.id }))

/-- `_add_parent` (spamnode.py 73-87), see `Graph.addParent` -/
def addParent (g : OGraph T D) (c p : Str) (n1 : Option (Node T D)) : Res (OGraph T D) Unit :=
  match n1 with
  | none => (.error .type, g)
  | some n1 =>
    if p = c then (.error .value, g)
    else (.ok (), g.update c (fun n => { n with parents := Graph.addLink n.parents n1.id }))

/-- `add_edge` (105-115) -/
def addEdge [DecidableEq T] (g : OGraph T D) (p c : Str) : Res (OGraph T D) Unit :=
  let n1 := getNode g p
  let n2 := getNode g c
  let second (g : OGraph T D) : Res (OGraph T D) Unit :=
    match n2 with
    | none => (.error .attribute, g)
    | some _ => addParent g c p n1
  match n1 with
  | none => second g
  | some m1 =>
    match addChild g p m1 c n2 with
    | (.ok _, g) => second g
    | (.error e, g) => (.error e, g)

/-- `del n.children[c]` -/
def delChild (g : OGraph T D) (p c : Str) : Res (OGraph T D) Unit :=
  match getNode g p with
  | some n =>
    if c ∈ n.children then (.ok (), g.update p (fun n => { n with children := n.children.filter (· ≠ c) }))
    else (.error .key, g)
  | none => (.error .attribute, g)

/-- `del n.parents[p]` -/
def delParent (g : OGraph T D) (c p : Str) : Res (OGraph T D) Unit :=
  match getNode g c with
  | some n =>
    if p ∈ n.parents then (.ok (), g.update c (fun n => { n with parents := n.parents.filter (· ≠ p) }))
    else (.error .key, g)
  | none => (.error .attribute, g)

/-- `remove_edge` (117-122) -/
def removeEdge (g : OGraph T D) (p c : Str) : Res (OGraph T D) Unit :=
  match getNode g p with
  | some _ =>
    match delChild g p c with
    | (.ok _, g) => delParent g c p
    | (.error e, g) => (.error e, g)
  | none => delParent g c p

/-- the loop 131-132 -/
def dropParentLinks (id : Str) : List Str → OGraph T D → Res (OGraph T D) Unit
  | [], g => (.ok (), g)
  | c :: cs, g =>
    match delParent g c id with
    | (.ok _, g) => dropParentLinks id cs g
    | (.error e, g) => (.error e, g)

/-- the loop 134-135 -/
def dropChildLinks (id : Str) : List Str → OGraph T D → Res (OGraph T D) Unit
  | [], g => (.ok (), g)
  | p :: ps, g =>
    match delChild g p id with
    | (.ok _, g) => dropChildLinks id ps g
    | (.error e, g) => (.error e, g)

/-- `remove_node_by_id` (124-138) -/
def removeNode (g : OGraph T D) (id : Str) : Res (OGraph T D) (Node T D) :=
  match getNode g id with
  | none => (.error .value, g)
  | some node =>
    match dropParentLinks id node.children g with
    | (.error e, g) => (.error e, g)
    | (.ok _, g) =>
      match dropChildLinks id node.parents g with
      | (.error e, g) => (.error e, g)
      | (.ok _, g) => (.ok node, { g with nodes := Dict.del g.nodes id })

/-- the node objects -/
def objs (g : OGraph T D) : Graph T D :=
  { idGen := g.idGen, counter := g.counter, nodes := g.nodes.filterMap (fun p => p.2.map (fun n => (p.1, n))) }

/-- `for node_id, node_data in self._nodes.items(): visit(node_data)`: `visit(None)` reads `None.id`, an AttributeError -/
def visitAll {σ : Type} (visit : σ → Str → Except Err σ) : σ → Dict (Option (Node T D)) → Except Err σ :=
  foldE (fun w p => match p.2 with
    | none => .error .attribute
    | some _ => visit w p.1)

/-- `__get_nodes` (241-262) -/
def getNodesBy (g : OGraph T D) (rel : Node T D → List Str) : Except Err (List Str) :=
  match visitAll (Graph.walk g.objs rel (g.objs.nodes.length + 1)) ([], []) g.nodes with
  | .ok (_, res) => .ok res
  | .error e => .error e

/-- `get_heads_id` (233-235) -/
def heads (g : OGraph T D) : Except Err (List Str) := getNodesBy g Node.parents
/-- `get_tails_id` (237-239) -/
def tails (g : OGraph T D) : Except Err (List Str) := getNodesBy g Node.children

/-- `get_circular_dependencies` (graph_validator.py 82-110) -/
def circular (g : OGraph T D) : Except Err (List Str) :=
  match visitAll (fun (a : List Str × CState) id => match Graph.circVisit g.objs (g.objs.nodes.length + 1) a.2 id with
      | .error e => .error e
      | .ok (r, s) => .ok (a.1 ++ r, s)) ([], { path := [], visited := [] }) g.nodes with
  | .ok (acc, _) => .ok acc.reverse
  | .error e => .error e

/-- `get_unconnected_nodes` (graph_validator.py 67-80): heads are node objects -/
def unconnected [DecidableEq T] (root : T) (g : OGraph T D) : Except Err (List Str) :=
  match heads g with
  | .error e => .error e
  | .ok hs => .ok (hs.filter (fun h => match getNode g h with
      | some n => n.ntype ≠ root
      | none => true))

/-- `validate` (graph_validator.py 53-65) -/
def validate [DecidableEq T] (root : T) (g : OGraph T D) : Except Err (List GraphError) :=
  match circular g with
  | .error e => .error e
  | .ok cs =>
    let errs := if cs ≠ [] then [GraphError.circularRefs cs] else []
    match unconnected root g with
    | .error e => .error e
    | .ok us => .ok (errs ++ if us ≠ [] then [GraphError.unconnectedNodes us] else [])

/-- `get_all_paths` (148-205) -/
def allPaths [DecidableEq T] (root : T) (g : OGraph T D) (a b : Str) (maxDepth : Int) : Except Err (List (List Str)) :=
  match validate root g with
  | .error e => .error e
  | .ok errs =>
    if errs ≠ [] then .error .value
    else if ¬ Dict.has g.nodes a then .error .value
    else if ¬ Dict.has g.nodes b then .error .value
    else match Graph.look g.objs b maxDepth.toNat { paths := [], visited := [], path := [] } a with
      | .ok s => .ok s.paths
      | .error e => .error e

/-- `sequential_order_of_execution` (207-231) -/
def seqOrder (g : OGraph T D) : Except Err (List Str) :=
  match heads g with
  | .error e => .error e
  | .ok hs =>
    match foldE (Graph.seqVisit g.objs (g.objs.nodes.length + 1)) ([], []) hs with
    | .ok (_, res) => .ok res
    | .error e => .error e

/-- state after one call (whether it raised or not) -/
def step [DecidableEq T] (fac : OFactory T) (g : OGraph T D) : Op T D → OGraph T D
  | .addNode i d t => (addNode fac g i d t).2
  | .addEdge p c => (addEdge g p c).2
  | .removeEdge p c => (removeEdge g p c).2
  | .removeNode i => (removeNode g i).2
  | .genId => (genId g).2

/-- state after a history of calls -/
def runFrom [DecidableEq T] (fac : OFactory T) (g : OGraph T D) (ops : List (Op T D)) : OGraph T D := ops.foldl (step fac) g

/-- state after a history of calls on a new graph -/
def run [DecidableEq T] (fac : OFactory T) (ops : List (Op T D)) : OGraph T D := runFrom fac empty ops

end OGraph
end Spine
