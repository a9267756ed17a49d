import Verif.Model.Py
/-
Model of `graph/spamnode.py`, `graph/dagraph.py`, `graph/graph_validator.py`.

Simplifications: `children`/`parents` map ids to node *objects* in Python; here they are lists of ids (the keys, in
insertion order) and the object is looked up in the graph.  Attributes `public_id`, `state` are never read and are omitted.
The node factory is a function returning the stored type and the forbidden child types (it always creates a node).
-/
namespace Spine

/-- `SpamNode` (spamnode.py 21-43) -/
structure Node (T D : Type) where
  id : Str
  data : D
  ntype : T
  order : Str
  forbidden : List T
  children : List Str
  parents : List Str
  deriving DecidableEq

/-- `DAGraph` (dagraph.py 48-62) -/
structure Graph (T D : Type) where
  idGen : Nat
  counter : Nat
  nodes : Dict (Node T D)
  deriving DecidableEq

/-- a node factory: requested type ↦ (stored type, forbidden child types) -/
abbrev Factory (T : Type) := T → T × List T

/-- `DefaultNodeFactory` (factories.py 53-66) -/
def defaultFactory {T : Type} : Factory T := fun t => (t, [])

/-- the `node_id` argument of `add_node` -/
inductive IdArg where
  | absent
  | str (s : Str)
  | nonStr
  deriving DecidableEq

/-- result of a mutating call: value or exception, and the state afterwards -/
abbrev Res (σ α : Type) := Except Err α × σ

namespace Graph
variable {T D : Type}

/-- `DAGraph()` (48-53) -/
def empty : Graph T D := { idGen := 0, counter := 0, nodes := [] }

/-- `get_node` (94-103) for a string id -/
def getNode (g : Graph T D) (id : Str) : Option (Node T D) := Dict.get? g.nodes id

/-- the `while` loop of `generate_unique_id` (144-145) with fuel -/
def skipUsed (nodes : Dict (Node T D)) : Nat → Nat → Option Nat
  | 0, _ => none
  | f + 1, n => if Dict.has nodes (natStr n) then skipUsed nodes f (n + 1) else some n

/-- `generate_unique_id` (140-146).  Fuel `number of nodes + 1` always suffices (proved: C02). -/
def genId (g : Graph T D) : Res (Graph T D) Str :=
  match skipUsed g.nodes (g.nodes.length + 1) (g.idGen + 1) with
  | some n => (.ok (natStr n), { g with idGen := n })
  | none => (.error .diverge, g)

/-- `add_node` (64-92); the unique id is drawn first, also when the call then raises -/
def addNode (fac : Factory T) (g : Graph T D) (nid : IdArg) (data : D) (ty : T) : Res (Graph T D) Str :=
  match genId g with
  | (.error e, g) => (.error e, g)
  | (.ok u, g) =>
    let ins (i : Str) : Res (Graph T D) Str :=
      let node : Node T D :=
        { id := i, data := data, ntype := (fac ty).1, order := u, forbidden := (fac ty).2, children := [], parents := [] }
      (.ok i, { g with counter := g.counter + 1, nodes := Dict.set g.nodes i node })
    match nid with
    | .absent => ins u
    | .nonStr => (.error .type, g)
    | .str s => if Dict.has g.nodes s then (.error .value, g) else ins s

/-- append an id to a `children`/`parents` dict if absent (spamnode.py 86-87, 106-107) -/
def addLink (l : List Str) (i : Str) : List Str := if i ∈ l then l else l ++ [i]

/-- `_add_child` (spamnode.py 89-107) called on the node stored under `p`; `n2` is the argument.
`child is self` is identity of the objects found under the two ids. -/
def addChild [DecidableEq T] (g : Graph T D) (p : Str) (n1 : Node T D) (c : Str) (n2 : Option (Node T D)) :
    Res (Graph T D) Unit :=
  match n2 with
  | none => (.error .type, g)
  | some n2 =>
    if n2.ntype ∈ n1.forbidden then (.error .type, g)
    else if p = c then (.error .value, g)
    else (.ok (), { g with nodes := Dict.modify g.nodes p (fun n => { n with children := addLink n.children n2.id }) })

/-- `_add_parent` (spamnode.py 73-87) called on the node stored under `c`; `n1` is the argument. -/
def addParent (g : Graph T D) (c p : Str) (n1 : Option (Node T D)) : Res (Graph T D) Unit :=
  match n1 with
  | none => (.error .type, g)
  | some n1 =>
    if p = c then (.error .value, g)
    else (.ok (), { g with nodes := Dict.modify g.nodes c (fun n => { n with parents := addLink n.parents n1.id }) })

/-- `add_edge` (105-115): `node2._add_parent` on `None` is an AttributeError -/
def addEdge [DecidableEq T] (g : Graph T D) (p c : Str) : Res (Graph T D) Unit :=
  let n1 := getNode g p
  let n2 := getNode g c
  let second (g : Graph T D) : Res (Graph T D) Unit :=
    match n2 with
    | none => (.error .attribute, g)
    | some _ => addParent g c p n1
  match n1 with
  | none => second g
  | some m1 =>
    match addChild g p m1 c n2 with
    | (.ok _, g) => second g
    | (.error e, g) => (.error e, g)

/-- `del n.children[c]` on the node stored under `p`; KeyError when there is no such link -/
def delChild (g : Graph T D) (p c : Str) : Res (Graph T D) Unit :=
  match getNode g p with
  | some n =>
    if c ∈ n.children then
      (.ok (), { g with nodes := Dict.modify g.nodes p (fun n => { n with children := n.children.filter (· ≠ c) }) })
    else (.error .key, g)
  | none => (.error .attribute, g)

/-- `del n.parents[p]` on the node stored under `c` -/
def delParent (g : Graph T D) (c p : Str) : Res (Graph T D) Unit :=
  match getNode g c with
  | some n =>
    if p ∈ n.parents then
      (.ok (), { g with nodes := Dict.modify g.nodes c (fun n => { n with parents := n.parents.filter (· ≠ p) }) })
    else (.error .key, g)
  | none => (.error .attribute, g)

/-- `remove_edge` (117-122) -/
def removeEdge (g : Graph T D) (p c : Str) : Res (Graph T D) Unit :=
  match getNode g p with
  | some _ =>
    match delChild g p c with
    | (.ok _, g) => delParent g c p
    | (.error e, g) => (.error e, g)
  | none => delParent g c p

/-- loop `for _, child in node.children.items(): del child.parents[node_id]` (131-132) -/
def dropParentLinks (id : Str) : List Str → Graph T D → Res (Graph T D) Unit
  | [], g => (.ok (), g)
  | c :: cs, g =>
    match delParent g c id with
    | (.ok _, g) => dropParentLinks id cs g
    | (.error e, g) => (.error e, g)

/-- loop `for _, parent in node.parents.items(): del parent.children[node_id]` (134-135) -/
def dropChildLinks (id : Str) : List Str → Graph T D → Res (Graph T D) Unit
  | [], g => (.ok (), g)
  | p :: ps, g =>
    match delChild g p id with
    | (.ok _, g) => dropChildLinks id ps g
    | (.error e, g) => (.error e, g)

/-- `remove_node_by_id` (124-138); returns the removed node -/
def removeNode (g : Graph T D) (id : Str) : Res (Graph T D) (Node T D) :=
  match getNode g id with
  | none => (.error .value, g)
  | some node =>
    match dropParentLinks id node.children g with
    | (.error e, g) => (.error e, g)
    | (.ok _, g) =>
      match dropChildLinks id node.parents g with
      | (.error e, g) => (.error e, g)
      | (.ok _, g) => (.ok node, { g with nodes := Dict.del g.nodes id })

/-! ### `__get_nodes`, heads and tails (233-262) -/

/-- state of the traversal: visited ids, result -/
abbrev Walk := List Str × List Str

/-- fold with exceptions, left to right (a Python `for` loop over a list) -/
def foldE {α β : Type} (f : β → α → Except Err β) : β → List α → Except Err β
  | b, [] => .ok b
  | b, a :: as => match f b a with
    | .ok b => foldE f b as
    | .error e => .error e

/-- `visit` of `__get_nodes` (245-257); fuel bounds the recursion depth -/
def walk (g : Graph T D) (rel : Node T D → List Str) : Nat → Walk → Str → Except Err Walk
  | 0, _, _ => .error .diverge
  | f + 1, (vis, res), id =>
    if id ∈ vis then .ok (vis, res)
    else match getNode g id with
      | none => .error .attribute
      | some n =>
        if rel n = [] then .ok (id :: vis, res ++ [id])
        else foldE (walk g rel f) (id :: vis, res) (rel n)

/-- `__get_nodes` (241-262) -/
def getNodesBy (g : Graph T D) (rel : Node T D → List Str) : Except Err (List Str) :=
  match foldE (walk g rel (g.nodes.length + 1)) ([], []) (Dict.keys g.nodes) with
  | .ok (_, res) => .ok res
  | .error e => .error e

/-- `get_heads_id` (233-235) -/
def heads (g : Graph T D) : Except Err (List Str) := getNodesBy g Node.parents
/-- `get_tails_id` (237-239) -/
def tails (g : Graph T D) : Except Err (List Str) := getNodesBy g Node.children

/-! ### Circular references (graph_validator.py 82-110) -/

/-- state of the search: `path` (the Python list, last element = top) and `visited_nodes` -/
structure CState where
  path : List Str
  visited : List Str
  deriving DecidableEq

/-- the `for` loop of `visit` (97-102) and what follows it (103-104); `visitC` is the recursive call -/
def circLoop (visitC : CState → Str → Except Err (List Str × CState)) : List Str → CState → Except Err (List Str × CState)
  | [], s => .ok ([], { s with path := s.path.dropLast })
  | c :: cs, s =>
    match visitC s c with
    | .error e => .error e
    | .ok (r, s) =>
      if c ∈ s.path ∨ r ≠ [] then .ok (r ++ [c], s)
      else circLoop visitC cs s

/-- `visit` (91-104) -/
def circVisit (g : Graph T D) : Nat → CState → Str → Except Err (List Str × CState)
  | 0, _, _ => .error .diverge
  | f + 1, s, id =>
    if id ∈ s.visited then .ok ([], s)
    else match getNode g id with
      | none => .error .attribute
      | some n => circLoop (circVisit g f) n.children { path := s.path ++ [id], visited := id :: s.visited }

/-- the loop over all nodes (106-108) -/
def circAll (g : Graph T D) : List Str → List Str × CState → Except Err (List Str × CState)
  | [], a => .ok a
  | id :: ids, (acc, s) =>
    match circVisit g (g.nodes.length + 1) s id with
    | .error e => .error e
    | .ok (r, s) => circAll g ids (acc ++ r, s)

/-- `get_circular_dependencies` (82-110) -/
def circular (g : Graph T D) : Except Err (List Str) :=
  match circAll g (Dict.keys g.nodes) ([], { path := [], visited := [] }) with
  | .ok (acc, _) => .ok acc.reverse
  | .error e => .error e

/-! ### validate (graph_validator.py 53-80) -/

/-- `GraphValidationErrors.errors` -/
inductive GraphError where
  | circularRefs (ids : List Str)
  | unconnectedNodes (ids : List Str)
  deriving DecidableEq

/-- `get_unconnected_nodes` (67-80); `root` is `INPUT_ROOT_NODE_TYPE` (string identity `is not` modelled as `≠`) -/
def unconnected [DecidableEq T] (root : T) (g : Graph T D) : Except Err (List Str) :=
  match heads g with
  | .error e => .error e
  | .ok hs => .ok (hs.filter (fun h => match getNode g h with
      | some n => n.ntype ≠ root
      | none => true))

/-- `validate` (53-65) -/
def validate [DecidableEq T] (root : T) (g : Graph T D) : Except Err (List GraphError) :=
  match circular g with
  | .error e => .error e
  | .ok cs =>
    let errs := if cs ≠ [] then [GraphError.circularRefs cs] else []
    match unconnected root g with
    | .error e => .error e
    | .ok us => .ok (errs ++ if us ≠ [] then [GraphError.unconnectedNodes us] else [])

/-! ### get_all_paths (148-205) -/

/-- the mutable variables of `get_all_paths` -/
structure PState where
  paths : List (List Str)
  visited : List Str
  path : List Str
  deriving DecidableEq

/-- `_look_for_paths` (180-200).  `rem` = `maximum_depth + 1 - depth`: the Python test `depth > maximum_depth` is `rem = 0`. -/
def look (g : Graph T D) (stop : Str) : Nat → PState → Str → Except Err PState
  | 0, s, _ => .ok s
  | rem + 1, s, start =>
    if start = stop then .ok { s with paths := s.paths ++ [s.path ++ [start]] }
    else match getNode g start with
      | none => .error .key
      | some n =>
        let body (s : PState) (c : Str) : Except Err PState :=
          if c ∈ s.visited then .ok s else look g stop rem s c
        match foldE body { s with visited := start :: s.visited, path := s.path ++ [start] } n.children with
        | .error e => .error e
        | .ok s => .ok { s with visited := s.visited.filter (· ≠ start), path := s.path.erase start }

/-- `get_all_paths` (148-205) -/
def allPaths [DecidableEq T] (root : T) (g : Graph T D) (a b : Str) (maxDepth : Int) : Except Err (List (List Str)) :=
  match validate root g with
  | .error e => .error e
  | .ok errs =>
    if errs ≠ [] then .error .value
    else if ¬ Dict.has g.nodes a then .error .value
    else if ¬ Dict.has g.nodes b then .error .value
    else match look g b maxDepth.toNat { paths := [], visited := [], path := [] } a with
      | .ok s => .ok s.paths
      | .error e => .error e

/-! ### sequential_order_of_execution (207-231) -/

/-- `visit` (216-226) -/
def seqVisit (g : Graph T D) : Nat → Walk → Str → Except Err Walk
  | 0, _, _ => .error .diverge
  | f + 1, (vis, res), id =>
    match getNode g id with
    | none => .error .attribute
    | some n =>
      let go (w : Walk) (x : Str) : Except Err Walk := if x ∈ w.1 then .ok w else seqVisit g f w x
      match foldE go (id :: vis, res) n.parents with
      | .error e => .error e
      | .ok (vis, res) => foldE go (vis, res ++ [id]) n.children

/-- `sequential_order_of_execution` (207-231) -/
def seqOrder (g : Graph T D) : Except Err (List Str) :=
  match heads g with
  | .error e => .error e
  | .ok hs =>
    match foldE (seqVisit g (g.nodes.length + 1)) ([], []) hs with
    | .ok (_, res) => .ok res
    | .error e => .error e

/-! ### Histories of API calls -/

/-- the mutating calls of the public graph API -/
inductive Op (T D : Type) where
  | addNode (id : IdArg) (data : D) (ty : T)
  | addEdge (parent child : Str)
  | removeEdge (parent child : Str)
  | removeNode (id : Str)
  | genId

/-- state after one call (whether it raised or not) -/
def step [DecidableEq T] (fac : Factory T) (g : Graph T D) : Op T D → Graph T D
  | .addNode i d t => (addNode fac g i d t).2
  | .addEdge p c => (addEdge g p c).2
  | .removeEdge p c => (removeEdge g p c).2
  | .removeNode i => (removeNode g i).2
  | .genId => (genId g).2

/-- state after a history of calls on a new graph -/
def run [DecidableEq T] (fac : Factory T) (ops : List (Op T D)) : Graph T D := ops.foldl (step fac) empty

end Graph
end Spine
