import Verif.Model.Graph
import Verif.Model.Data
import Verif.Model.DrawOrder
/-
Model of `deserializer/spine_nodes.py` (the graph of bones, slots, attachments, images and iks) and of
`spine_graph_container.py` (bulk removals).

Simplifications
* `create_node` returns `None` for the types DEFAULT and PATH (43, 99); they are never requested by the library and the
  factory below stores them without forbidden children (`Model/NoneNode.lean` models the graph with such entries: C68);
* names that are floats, lists or dicts are not formatted (`Err.unmodelled`);
* `to_json_data` 149-159 compares `node.node_type is NodeType.SLOT` (a string with an enum member): always false, omitted.
-/
namespace Spine
open JVal
variable {F : Type}

/-- `NodeType` (spine_nodes.py 16-28) -/
inductive NType where
  | default | bone | slot | path | ik | attachment | image
  deriving DecidableEq, Repr

/-- `NodeType.X.name` -/
def NType.name : NType → Str
  | .default => s!!"DEFAULT"
  | .bone => s!!"BONE"
  | .slot => s!!"SLOT"
  | .path => s!!"PATH"
  | .ik => s!!"IK"
  | .attachment => s!!"ATTACHMENT"
  | .image => s!!"IMAGE"

/-- `SpineNodeFactory.create_node` (34-99): the stored type and the forbidden child types -/
def spineFactory : Factory NType
  | .bone => (.bone, [.attachment])
  | .slot => (.slot, [.bone, .path, .ik])
  | .ik => (.ik, [.path, .ik, .attachment, .image])
  | .attachment => (.attachment, [.path, .ik, .attachment, .bone])
  | .image => (.image, [.default, .bone, .slot, .path, .ik, .attachment, .image])
  | t => (t, [])

/-- the graph of a document; the node data is `{"idx": …, "data": …}` (113-115) -/
abbrev SGraph (F : Type) := Graph NType (Int × JVal F)

/-- `_to_graph_id` (322-329) of a name -/
def graphId (t : NType) (s : Str) : Str := s ++ '_' :: t.name

/-- `_to_base_id` (331-334): every occurrence of the suffix is removed -/
def baseId (t : NType) (s : Str) : Str := removeAll ('_' :: t.name) s

/-- `"{}".format(v)` -/
def fmtId : JVal F → Except Err Str
  | .str s => .ok s
  | .null => .ok s!!"None"
  | .bool b => .ok (if b then s!!"True" else s!!"False")
  | .int i => .ok (if i < 0 then '-' :: natStr i.natAbs else natStr i.natAbs)
  | _ => .error .unmodelled

/-- `v[k]` for a string `k`: KeyError on a dict, TypeError on anything else -/
def subscript (v : JVal F) (k : Str) : Except Err (JVal F) :=
  match v with
  | .dict d => getItem d k
  | _ => .error .type

/-- `v.get(k)`: AttributeError on anything but a dict -/
def dotGet (v : JVal F) (k : Str) : Except Err (JVal F) :=
  match v with
  | .dict d => .ok ((Dict.get? d k).getD .null)
  | _ => .error .attribute

/-- the state after a call, or its exception (the graph under construction is local and dropped on an exception) -/
def exec {σ α : Type} (r : Res σ α) : Except Err σ :=
  match r with
  | (.ok _, g) => .ok g
  | (.error e, _) => .error e

namespace SpineNodes
open Graph

/-- `parent = graph.get_node(pid); if parent: graph.add_edge(parent.id, cid)` (192-194, 216-218, 284-286) -/
def linkFrom (g : SGraph F) (pid cid : Str) : Except Err (SGraph F) :=
  match getNode g pid with
  | some n => exec (addEdge g n.id cid)
  | none => .ok g

/-- `child = graph.get_node(cid); if child: graph.add_edge(pid, child.id)` (275-277) -/
def linkTo (g : SGraph F) (pid cid : Str) : Except Err (SGraph F) :=
  match getNode g cid with
  | some n => exec (addEdge g pid n.id)
  | none => .ok g

/-- `add_bone_to_graph` (175-195) -/
def addBone (g : SGraph F) (v : JVal F) (idx : Nat) : Except Err (SGraph F) := do
  let n ← subscript v s!!"name"
  let n ← fmtId n
  let g ← exec (addNode spineFactory g (.str (graphId .bone n)) ((idx : Int), v) .bone)
  let p ← dotGet v s!!"parent"
  let p ← fmtId p
  linkFrom g (graphId .bone p) (graphId .bone n)

/-- `add_slot_to_graph` (197-220); returns the graph and the id of the slot node -/
def addSlot (g : SGraph F) (v : JVal F) (idx : Nat) : Except Err (SGraph F × Str) := do
  let n ← subscript v s!!"name"
  let n ← fmtId n
  let g ← exec (addNode spineFactory g (.str (graphId .slot n)) ((idx : Int), v) .slot)
  let p ← dotGet v s!!"bone"
  let p ← fmtId p
  let g ← linkFrom g (graphId .bone p) (graphId .slot n)
  return (g, graphId .slot n)

/-- add a node unless the id is taken (232-237, 246-251) -/
def addIfAbsent (g : SGraph F) (i : Str) (data : Int × JVal F) (t : NType) : Except Err (SGraph F) :=
  match getNode g i with
  | none => exec (addNode spineFactory g (.str i) data t)
  | some _ => .ok g

/-- `_data.get("path") or _data.get("name") or _id` (239) -/
def imageName [PyRt F] (k : Str) (v : JVal F) : Except Err Str := do
  let p ← dotGet v s!!"path"
  let n ← dotGet v s!!"name"
  if truthy p then fmtId p else if truthy n then fmtId n else .ok k

/-- loop body of `add_skin_attachments_to_slot` (225-254) -/
def addAttachment [PyRt F] (slotId : Str) (g : SGraph F) (kv : Str × JVal F) : Except Err (SGraph F) := do
  let g ← addIfAbsent g (graphId .attachment kv.1) (-1, kv.2) .attachment
  let im ← imageName kv.1 kv.2
  let g ← addIfAbsent g (graphId .image im) (-1, .dict []) .image
  let g ← exec (addEdge g (graphId .attachment kv.1) (graphId .image im))
  exec (addEdge g slotId (graphId .attachment kv.1))

/-- `skin_data.get(_slot_data["name"], [])` (308); only strings are keys -/
def skinEntry (skin : JVal F) (name : JVal F) : Except Err (JVal F) :=
  match skin, name with
  | .dict d, .str n => .ok ((Dict.get? d n).getD (.list []))
  | .dict _, .list _ => .error .type
  | .dict _, .dict _ => .error .type
  | .dict _, _ => .ok (.list [])
  | _, _ => .error .attribute

/-- loop body 305-314 -/
def addSkin [PyRt F] (slotName : JVal F) (slotId : Str) (g : SGraph F) (skin : JVal F) : Except Err (SGraph F) := do
  let a ← dotGet skin s!!"attachments"
  if truthy a then do
    let e ← skinEntry a slotName
    let e ← dictItems e
    foldE (addAttachment slotId) g e
  else return g

/-- loop body 301-314 -/
def addSlotAndSkins [PyRt F] (doc : JVal F) (g : SGraph F) (p : JVal F × Nat) : Except Err (SGraph F) := do
  let (g, sid) ← addSlot g p.1 p.2
  let sk ← subscript doc s!!"skins"
  let sk ← iter sk
  let n ← subscript p.1 s!!"name"
  foldE (addSkin n sid) g sk

/-- loop body 271-277 -/
def addIkBone (ikId : Str) (g : SGraph F) (b : JVal F) : Except Err (SGraph F) := do
  let b ← fmtId b
  linkTo g ikId (graphId .bone b)

/-- `add_ik_to_graph` (256-288) -/
def addIk [PyRt F] (g : SGraph F) (v : JVal F) (idx : Nat) : Except Err (SGraph F) := do
  let n ← subscript v s!!"name"
  let n ← fmtId n
  let g ← exec (addNode spineFactory g (.str (graphId .ik n)) ((idx : Int), v) .ik)
  let bs ← subscript v s!!"bones"
  let bs ← iter bs
  let g ← foldE (addIkBone (graphId .ik n)) g bs
  let t ← dotGet v s!!"target"
  if truthy t then do
    let t ← fmtId t
    linkFrom g (graphId .bone t) (graphId .ik n)
  else return g

/-- `json_data.get(k, [])` -/
def docList (doc : JVal F) (k : Str) : Except Err (List (JVal F)) :=
  match doc with
  | .dict d => getIter d k
  | _ => .error .attribute

/-- `create_from_json_data` (290-320) -/
def create [PyRt F] (doc : JVal F) : Except Err (SGraph F) := do
  let bs ← subscript doc s!!"bones"
  let bs ← iter bs
  let g ← foldE (fun g (p : JVal F × Nat) => addBone g p.1 p.2) Graph.empty bs.zipIdx
  let ss ← docList doc s!!"slots"
  let g ← foldE (addSlotAndSkins doc) g ss.zipIdx
  let is ← docList doc s!!"ik"
  foldE (fun g (p : JVal F × Nat) => addIk g p.1 p.2) g is.zipIdx

/-- the result of `to_json_data` -/
structure GraphJson (F : Type) where
  bones : List (JVal F)
  slots : List (JVal F)
  ik : List (JVal F)

/-- the entries of one list: nodes of the type in insertion order (143-161), sorted by index (163-172) -/
def listOfType (g : SGraph F) (t : NType) : List (JVal F) :=
  (DrawOrder.sortOps (((Dict.values g.nodes).filter (fun n => n.ntype = t)).map (fun n => (n.data.2, n.data.1)))).map (·.1)

/-- `to_json_data` (139-173); `SPINE_JSON_MAPPED_IDS` has no entry for other types (KeyError, 148) -/
def toJsonData (g : SGraph F) : Except Err (GraphJson F) :=
  if (Dict.values g.nodes).all (fun n => n.ntype ∈ [NType.bone, .slot, .ik, .attachment, .image]) then
    .ok { bones := listOfType g .bone, slots := listOfType g .slot, ik := listOfType g .ik }
  else .error .key

end SpineNodes

/-! ### spine_graph_container.py -/

namespace Container
open Graph
variable {T D : Type} [DecidableEq T]

/-- `filter(lambda n: self.graph.get_node(n).node_type == node_type, …)` (18-26, 47-57) -/
def ofType (g : Graph T D) (t : T) : List Str → Except Err (List Str)
  | [] => .ok []
  | x :: r => match getNode g x with
    | none => .error .attribute
    | some n => match ofType g t r with
      | .error e => .error e
      | .ok l => .ok (if n.ntype = t then x :: l else l)

/-- `get_heads_with_type` (18-26) / `get_leafs_of_type` (47-57); `ends` = `get_heads_id` / `get_tails_id` -/
def endsOfType (ends : Graph T D → Except Err (List Str)) (t : T) (g : Graph T D) : Except Err (List Str) :=
  match ends g with
  | .error e => .error e
  | .ok l => ofType g t l

/-- `[_to_base_id(self.graph.remove_node_by_id(s_id).id) for s_id in ids]` (36-42, 67-73) -/
def removeAllIds (base : Str → Str) : List Str → Graph T D → Res (Graph T D) (List Str)
  | [], g => (.ok [], g)
  | x :: r, g => match removeNode g x with
    | (.error e, g) => (.error e, g)
    | (.ok n, g) => match removeAllIds base r g with
      | (.error e, g) => (.error e, g)
      | (.ok l, g) => (.ok (base n.id :: l), g)

/-- the loop of `remove_heads_of_type` (34-45) / `remove_leafs_of_type` (65-76); every round removes a node, so that
`number of nodes + 1` rounds are enough (proved: C18, C19) -/
def removeLoop (ends : Graph T D → Except Err (List Str)) (base : Str → Str) (t : T) :
    Nat → Graph T D → Res (Graph T D) (List Str)
  | 0, g => (.error .diverge, g)
  | f + 1, g => match endsOfType ends t g with
    | .error e => (.error e, g)
    | .ok [] => (.ok [], g)
    | .ok l => match removeAllIds base l g with
      | (.error e, g) => (.error e, g)
      | (.ok b, g) => match removeLoop ends base t f g with
        | (.error e, g) => (.error e, g)
        | (.ok c, g) => (.ok (b ++ c), g)

/-- `remove_heads_of_type` (28-45) -/
def removeHeadsOfType (base : Str → Str) (t : T) (g : Graph T D) : Res (Graph T D) (List Str) :=
  removeLoop heads base t (g.nodes.length + 1) g
/-- `remove_leafs_of_type` (59-76) -/
def removeLeafsOfType (base : Str → Str) (t : T) (g : Graph T D) : Res (Graph T D) (List Str) :=
  removeLoop tails base t (g.nodes.length + 1) g

/-- `remove_slots` (94-102) / `remove_attachments` (78-92) on base ids: one `remove_node_by_id` per id, in order -/
def removeNamed (t : NType) : List Str → SGraph F → Res (SGraph F) Unit
  | [], g => (.ok (), g)
  | x :: r, g => match removeNode g (graphId t x) with
    | (.error e, g) => (.error e, g)
    | (.ok _, g) => removeNamed t r g

end Container
end Spine
