import Verif.Model.Graph
/-
Model of `graph/spamnode.py`, `graph/dagraph.py`, `graph/graph_validator.py` with node objects: `children` and `parents` map ids to
references, and the objects live in a heap.  Model/Graph.lean leaves the objects out; Props/Heap.lean proves that nothing is lost.

Simplifications: those of Model/Graph.lean except for the objects.  References are never dangling in Python; here following a reference
that is not in the heap is the error `unmodelled` (proved never to happen).  A removed object stays in the heap, as it does in Python
while something refers to it.
-/
namespace Spine

/-- the address of a node object -/
abbrev Ref := Nat

/-- a `SpamNode` object (spamnode.py 21-43) -/
structure Obj (T D : Type) where
  id : Str
  data : D
  ntype : T
  order : Str
  forbidden : List T
  children : Dict Ref
  parents : Dict Ref

/-- a `DAGraph` object (dagraph.py 48-62) and the heap of node objects -/
structure HGraph (T D : Type) where
  idGen : Nat
  counter : Nat
  heap : List (Obj T D)
  nodes : Dict Ref

namespace HGraph
variable {T D : Type}

/-- `DAGraph()` (48-53) -/
def empty : HGraph T D := { idGen := 0, counter := 0, heap := [], nodes := [] }

/-- `get_node` (94-103) for a string id -/
def getNode (h : HGraph T D) (id : Str) : Option Ref := Dict.get? h.nodes id

/-- an assignment to attributes of the object at `r` -/
def update (h : HGraph T D) (r : Ref) (f : Obj T D → Obj T D) : HGraph T D := { h with heap := h.heap.modify r f }

/-- the `while` loop of `generate_unique_id` (144-145) with fuel -/
def skipUsed (nodes : Dict Ref) : Nat → Nat → Option Nat
  | 0, _ => none
  | f + 1, n => if Dict.has nodes (natStr n) then skipUsed nodes f (n + 1) else some n

/-- `generate_unique_id` (140-146) -/
def genId (h : HGraph T D) : Res (HGraph T D) Str :=
  match skipUsed h.nodes (h.nodes.length + 1) (h.idGen + 1) with
  | some n => (.ok (natStr n), { h with idGen := n })
  | none => (.error .diverge, h)

/-- `add_node` (64-92); returns the new object -/
def addNode (fac : Factory T) (h : HGraph T D) (nid : IdArg) (data : D) (ty : T) : Res (HGraph T D) Ref :=
  match genId h with
  | (.error e, h) => (.error e, h)
  | (.ok u, h) =>
    let ins (i : Str) : Res (HGraph T D) Ref :=
      let o : Obj T D :=
        { id := i, data := data, ntype := (fac ty).1, order := u, forbidden := (fac ty).2, children := [], parents := [] }
      (.ok h.heap.length, { h with counter := h.counter + 1, heap := h.heap ++ [o], nodes := Dict.set h.nodes i h.heap.length })
    match nid with
    | .absent => ins u
    | .nonStr => (.error .type, h)
    | .str s => if Dict.has h.nodes s then (.error .value, h) else ins s

/-- `if k not in d: d[k] = r` (spamnode.py 86-87, 106-107) -/
def addLink (d : Dict Ref) (k : Str) (r : Ref) : Dict Ref := if Dict.has d k then d else Dict.set d k r

/-- `_add_child` (spamnode.py 89-107) of the object at `r1` -/
def addChild [DecidableEq T] (h : HGraph T D) (r1 : Ref) (arg : Option Ref) : Res (HGraph T D) Unit :=
  match arg with
  | none => (.error .type, h)
  | some r2 =>
    match h.heap[r1]?, h.heap[r2]? with
    | some o1, some o2 =>
      if o2.ntype ∈ o1.forbidden then (.error .type, h)
      else if r2 = r1 then (.error .value, h)
      else (.ok (), h.update r1 (fun o => { o with children := addLink o.children o2.id r2 }))
    | _, _ => (.error .unmodelled, h)

/-- `_add_parent` (spamnode.py 73-87) of the object at `r2` -/
def addParent (h : HGraph T D) (r2 : Ref) (arg : Option Ref) : Res (HGraph T D) Unit :=
  match arg with
  | none => (.error .type, h)
  | some r1 =>
    match h.heap[r1]? with
    | some o1 =>
      if r1 = r2 then (.error .value, h)
      else (.ok (), h.update r2 (fun o => { o with parents := addLink o.parents o1.id r1 }))
    | none => (.error .unmodelled, h)

/-- `add_edge` (105-115) -/
def addEdge [DecidableEq T] (h : HGraph T D) (p c : Str) : Res (HGraph T D) Unit :=
  let n1 := getNode h p
  let n2 := getNode h c
  let second (h : HGraph T D) : Res (HGraph T D) Unit :=
    match n2 with
    | none => (.error .attribute, h)
    | some r2 => addParent h r2 n1
  match n1 with
  | none => second h
  | some r1 =>
    match addChild h r1 n2 with
    | (.ok _, h) => second h
    | (.error e, h) => (.error e, h)

/-- `del o.children[c]` for the object at `r` -/
def delChild (h : HGraph T D) (r : Ref) (c : Str) : Res (HGraph T D) Unit :=
  match h.heap[r]? with
  | some o => if Dict.has o.children c then (.ok (), h.update r (fun o => { o with children := Dict.del o.children c })) else (.error .key, h)
  | none => (.error .unmodelled, h)

/-- `del o.parents[p]` for the object at `r` -/
def delParent (h : HGraph T D) (r : Ref) (p : Str) : Res (HGraph T D) Unit :=
  match h.heap[r]? with
  | some o => if Dict.has o.parents p then (.ok (), h.update r (fun o => { o with parents := Dict.del o.parents p })) else (.error .key, h)
  | none => (.error .unmodelled, h)

/-- `remove_edge` (117-122) -/
def removeEdge (h : HGraph T D) (p c : Str) : Res (HGraph T D) Unit :=
  let n2 := getNode h c
  let second (h : HGraph T D) : Res (HGraph T D) Unit :=
    match n2 with
    | none => (.error .attribute, h)
    | some r2 => delParent h r2 p
  match getNode h p with
  | none => second h
  | some r1 =>
    match delChild h r1 c with
    | (.ok _, h) => second h
    | (.error e, h) => (.error e, h)

/-- loop `for _, child in node.children.items(): del child.parents[node_id]` (131-132) -/
def dropParentLinks (id : Str) : List Ref → HGraph T D → Res (HGraph T D) Unit
  | [], h => (.ok (), h)
  | c :: cs, h =>
    match delParent h c id with
    | (.ok _, h) => dropParentLinks id cs h
    | (.error e, h) => (.error e, h)

/-- loop `for _, parent in node.parents.items(): del parent.children[node_id]` (134-135) -/
def dropChildLinks (id : Str) : List Ref → HGraph T D → Res (HGraph T D) Unit
  | [], h => (.ok (), h)
  | p :: ps, h =>
    match delChild h p id with
    | (.ok _, h) => dropChildLinks id ps h
    | (.error e, h) => (.error e, h)

/-- `remove_node_by_id` (124-138); returns the removed object.  The parents are those of the object after the first loop. -/
def removeNode (h : HGraph T D) (id : Str) : Res (HGraph T D) Ref :=
  match getNode h id with
  | none => (.error .value, h)
  | some r =>
    match h.heap[r]? with
    | none => (.error .unmodelled, h)
    | some o =>
      match dropParentLinks id (Dict.values o.children) h with
      | (.error e, h) => (.error e, h)
      | (.ok _, h) =>
        match h.heap[r]? with
        | none => (.error .unmodelled, h)
        | some o =>
          match dropChildLinks id (Dict.values o.parents) h with
          | (.error e, h) => (.error e, h)
          | (.ok _, h) => (.ok r, { h with nodes := Dict.del h.nodes id })

/-! ### `__get_nodes`, heads and tails (233-262) -/

/-- `visit` of `__get_nodes` (245-257) -/
def walk (h : HGraph T D) (rel : Obj T D → Dict Ref) : Nat → Graph.Walk → Ref → Except Err Graph.Walk
  | 0, _, _ => .error .diverge
  | f + 1, (vis, res), r =>
    match h.heap[r]? with
    | none => .error .unmodelled
    | some o =>
      if o.id ∈ vis then .ok (vis, res)
      else if rel o = [] then .ok (o.id :: vis, res ++ [o.id])
      else Graph.foldE (walk h rel f) (o.id :: vis, res) (Dict.values (rel o))

/-- `__get_nodes` (241-262) -/
def getNodesBy (h : HGraph T D) (rel : Obj T D → Dict Ref) : Except Err (List Str) :=
  match Graph.foldE (walk h rel (h.nodes.length + 1)) ([], []) (Dict.values h.nodes) with
  | .ok (_, res) => .ok res
  | .error e => .error e

/-- `get_heads_id` (233-235) -/
def heads (h : HGraph T D) : Except Err (List Str) := getNodesBy h Obj.parents
/-- `get_tails_id` (237-239) -/
def tails (h : HGraph T D) : Except Err (List Str) := getNodesBy h Obj.children

/-! ### Circular references (graph_validator.py 82-110) -/

/-- the `for` loop of `visit` (97-102) and what follows it (103-104) -/
def circLoop (visitC : Graph.CState → Ref → Except Err (List Str × Graph.CState)) :
    Dict Ref → Graph.CState → Except Err (List Str × Graph.CState)
  | [], s => .ok ([], { s with path := s.path.dropLast })
  | (c, r) :: cs, s =>
    match visitC s r with
    | .error e => .error e
    | .ok (l, s) =>
      if c ∈ s.path ∨ l ≠ [] then .ok (l ++ [c], s)
      else circLoop visitC cs s

/-- `visit` (91-104) -/
def circVisit (h : HGraph T D) : Nat → Graph.CState → Ref → Except Err (List Str × Graph.CState)
  | 0, _, _ => .error .diverge
  | f + 1, s, r =>
    match h.heap[r]? with
    | none => .error .unmodelled
    | some o =>
      if o.id ∈ s.visited then .ok ([], s)
      else circLoop (circVisit h f) o.children { path := s.path ++ [o.id], visited := o.id :: s.visited }

/-- the loop over all nodes (106-108) -/
def circAll (h : HGraph T D) : List Ref → List Str × Graph.CState → Except Err (List Str × Graph.CState)
  | [], a => .ok a
  | r :: rs, (acc, s) =>
    match circVisit h (h.nodes.length + 1) s r with
    | .error e => .error e
    | .ok (l, s) => circAll h rs (acc ++ l, s)

/-- `get_circular_dependencies` (82-110) -/
def circular (h : HGraph T D) : Except Err (List Str) :=
  match circAll h (Dict.values h.nodes) ([], { path := [], visited := [] }) with
  | .ok (acc, _) => .ok acc.reverse
  | .error e => .error e

/-- `get_unconnected_nodes` (67-80) -/
def unconnected [DecidableEq T] (root : T) (h : HGraph T D) : Except Err (List Str) :=
  match heads h with
  | .error e => .error e
  | .ok hs => Graph.foldE (fun acc i => match (getNode h i).map (h.heap[·]?) with
      | none => .error .attribute
      | some none => .error .unmodelled
      | some (some o) => .ok (if o.ntype ≠ root then acc ++ [i] else acc)) [] hs

/-- `validate` (53-65) -/
def validate [DecidableEq T] (root : T) (h : HGraph T D) : Except Err (List Graph.GraphError) :=
  match circular h with
  | .error e => .error e
  | .ok cs =>
    let errs := if cs ≠ [] then [Graph.GraphError.circularRefs cs] else []
    match unconnected root h with
    | .error e => .error e
    | .ok us => .ok (errs ++ if us ≠ [] then [Graph.GraphError.unconnectedNodes us] else [])

/-- `_look_for_paths` (180-200) -/
def look (h : HGraph T D) (stop : Str) : Nat → Graph.PState → Str → Except Err Graph.PState
  | 0, s, _ => .ok s
  | rem + 1, s, start =>
    if start = stop then .ok { s with paths := s.paths ++ [s.path ++ [start]] }
    else match getNode h start with
      | none => .error .key
      | some r => match h.heap[r]? with
        | none => .error .unmodelled
        | some o =>
          let body (s : Graph.PState) (c : Str) : Except Err Graph.PState :=
            if c ∈ s.visited then .ok s else look h stop rem s c
          match Graph.foldE body { s with visited := start :: s.visited, path := s.path ++ [start] } (Dict.keys o.children) with
          | .error e => .error e
          | .ok s => .ok { s with visited := s.visited.filter (· ≠ start), path := s.path.erase start }

/-- `get_all_paths` (148-205) -/
def allPaths [DecidableEq T] (root : T) (h : HGraph T D) (a b : Str) (maxDepth : Int) : Except Err (List (List Str)) :=
  match validate root h with
  | .error e => .error e
  | .ok errs =>
    if errs ≠ [] then .error .value
    else if ¬ Dict.has h.nodes a then .error .value
    else if ¬ Dict.has h.nodes b then .error .value
    else match look h b maxDepth.toNat { paths := [], visited := [], path := [] } a with
      | .ok s => .ok s.paths
      | .error e => .error e

/-- `visit` (216-226); `self.get_node(x)` may be None, whose attributes raise -/
def seqVisit (h : HGraph T D) : Nat → Graph.Walk → Option Ref → Except Err Graph.Walk
  | 0, _, _ => .error .diverge
  | f + 1, (vis, res), r =>
    match r with
    | none => .error .attribute
    | some r => match h.heap[r]? with
      | none => .error .unmodelled
      | some o =>
        let go (w : Graph.Walk) (x : Str) : Except Err Graph.Walk := if x ∈ w.1 then .ok w else seqVisit h f w (getNode h x)
        match Graph.foldE go (o.id :: vis, res) (Dict.keys o.parents) with
        | .error e => .error e
        | .ok (vis, res) => Graph.foldE go (vis, res ++ [o.id]) (Dict.keys o.children)

/-- `sequential_order_of_execution` (207-231) -/
def seqOrder (h : HGraph T D) : Except Err (List Str) :=
  match heads h with
  | .error e => .error e
  | .ok hs =>
    match Graph.foldE (fun w i => seqVisit h (h.nodes.length + 1) w (getNode h i)) ([], []) hs with
    | .ok (_, res) => .ok res
    | .error e => .error e

/-! ### Histories of API calls -/

/-- state after one call (whether it raised or not) -/
def step [DecidableEq T] (fac : Factory T) (h : HGraph T D) : Graph.Op T D → HGraph T D
  | .addNode i d t => (addNode fac h i d t).2
  | .addEdge p c => (addEdge h p c).2
  | .removeEdge p c => (removeEdge h p c).2
  | .removeNode i => (removeNode h i).2
  | .genId => (genId h).2

/-- state after a history of calls on a new graph -/
def run [DecidableEq T] (fac : Factory T) (ops : List (Graph.Op T D)) : HGraph T D := ops.foldl (step fac) empty

end HGraph
end Spine
