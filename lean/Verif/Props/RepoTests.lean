import Verif.Model.Graph
import Verif.Model.Tags
import Verif.Model.Interfaces
import Verif.Spec.Concrete
/-
The unit tests of the repository, run on the model.  These are checks of the model, not proofs of claims; the tests on
large documents are run by `tools/fixtures`.
-/
namespace Spine
namespace RepoTests
open Graph

/-! ## graph/test/test_graph.py -/

def rootType : String := "INPUT_ROOT_NODE_TYPE"
def id' (s : String) : Str := s.toList

/-- the fixture `test_graph` (33-46); a missing type is "" -/
def build (nodes : List String) (edges : List (String × String)) (types : List (String × String) := []) : Graph String Unit :=
  run defaultFactory (nodes.map (fun n => .addNode (.str (id' n)) () ((types.lookup n).getD "")) ++
    edges.map (fun e => .addEdge (id' e.1) (id' e.2)))

/-- `NodeFactoryTest` (49-81) -/
def testFactory : Factory String
  | "BLOND" => ("BLOND", ["BLACK"])
  | "BLACK" => ("BLACK", ["BLOND"])
  | t => (t, [])

def outcome {σ α : Type} (r : Res σ α) : Except Err α := r.1

/-- `test_graph_nodes_creation` (the loop with 3 rounds) -/
example :
    let g : Graph String Unit := run testFactory [.addNode (.str (id' "UNIQUE_ID")) () "", .addNode (.str (id' "1")) () ""]
    outcome (addNode testFactory g (.str (id' "UNIQUE_ID")) () "") = .error .value ∧
    outcome (addNode testFactory g .nonStr () "") = .error .type ∧
    outcome (genId g) = .ok (id' "3") ∧
    outcome (addNode testFactory (genId g).2 (.str (id' "3")) () "") = .ok (id' "3") ∧
    outcome (addNode testFactory (addNode testFactory (genId g).2 (.str (id' "3")) () "").2 (.str (id' "3")) () "") = .error .value := by
  decide +kernel

/-- `test_graph_edges` -/
example :
    let g := build ["0", "1"] []
    outcome (addEdge g (id' "0") (id' "1")) = .ok () ∧
    outcome (addEdge (addEdge g (id' "0") (id' "1")).2 (id' "0") (id' "wrong_id")) = .error .type ∧
    outcome (addEdge (addEdge g (id' "0") (id' "1")).2 (id' "wrong_id") (id' "1")) = .error .type := by
  decide +kernel

/-- `test_graph_forbidden_child_types` -/
example :
    let g : Graph String Unit := run testFactory ((["BLOND", "BROWN", "BLACK"].map (fun t => .addNode (.str (id' t)) () t)) ++
      [.addEdge (id' "BLOND") (id' "BROWN"), .addEdge (id' "BLACK") (id' "BROWN")])
    (getNode g (id' "BROWN")).map Node.parents = some [id' "BLOND", id' "BLACK"] ∧
    outcome (addEdge g (id' "BLACK") (id' "BLOND")) = .error .type ∧
    outcome (addEdge g (id' "BLOND") (id' "BLACK")) = .error .type := by
  decide +kernel

/-- `test_graph_remove_node` -/
example :
    let g := build ["UNIQUE_ID"] []
    ((removeNode g (id' "UNIQUE_ID")).1.map Node.id = .ok (id' "UNIQUE_ID")) ∧
    ((removeNode (removeNode g (id' "UNIQUE_ID")).2 (id' "UNIQUE_ID")).1.map Node.id = .error .value) := by
  decide +kernel

/-- `test_graph_multi_graphs`: an edge from a node to itself -/
example : outcome (addEdge (build ["1"] []) (id' "1") (id' "1")) = .error .value := by decide +kernel

def circularCount (g : Graph String Unit) : Except Err (Nat × List Nat) :=
  (validate rootType g).map (fun l => (l.length, l.map (fun | .circularRefs c => c.length | .unconnectedNodes _ => 0)))

/-- `test_graph_circular_references` -/
example : circularCount (build ["0", "1", "2"] [("0", "1"), ("1", "2"), ("2", "0")]) = .ok (1, [3]) := by decide +kernel
example : circularCount (build ["0", "1", "2"] [("0", "1"), ("1", "2"), ("1", "0")]) = .ok (1, [2]) := by decide +kernel

/-- `test_graph_heads`, `test_graph_tails` -/
example : heads (build ["1", "2", "3", "4"] [("1", "2"), ("2", "3"), ("3", "4")]) = .ok [id' "1"] ∧
    tails (build ["1", "2", "3", "4"] [("1", "2"), ("2", "3"), ("3", "4")]) = .ok [id' "4"] := by decide +kernel

def paths (edges : List (String × String)) : Except Err (List (List String)) :=
  (allPaths rootType (build ["1", "2", "3", "4"] edges [("1", rootType)]) (id' "1") (id' "4") 20).map (·.map (·.map String.ofList))

/-- `test_graph_all_paths` -/
example : paths [("1", "2"), ("2", "3"), ("3", "4")] = .ok [["1", "2", "3", "4"]] := by decide +kernel
example : paths [("1", "2"), ("2", "3"), ("2", "4"), ("3", "4")] = .ok [["1", "2", "3", "4"], ["1", "2", "4"]] := by decide +kernel
example : paths [("1", "2"), ("2", "3"), ("2", "4"), ("3", "4"), ("1", "4")] =
    .ok [["1", "2", "3", "4"], ["1", "2", "4"], ["1", "4"]] := by decide +kernel

/-- `test_graph_sequential_order_execution` -/
example : (seqOrder (build ["1", "2", "3", "4"] [("1", "2"), ("1", "3"), ("2", "3"), ("3", "4")])).map (·.map String.ofList) =
    .ok ["1", "2", "3", "4"] := by decide +kernel
example : (seqOrder (build ["1", "2", "3", "4", "5", "6", "7"]
      [("1", "3"), ("3", "4"), ("4", "5"), ("1", "2"), ("2", "5"), ("5", "7"), ("3", "6"), ("5", "6"), ("6", "7")])).map (·.map String.ofList) =
    .ok ["1", "3", "4", "2", "5", "6", "7"] := by decide +kernel

/-! ## test/test_utils.py -/

def tags (s : String) : Except Err (List (String × Rat)) := (Tags.getTags Rat s.toList).map (·.map (fun p => (String.ofList p.1, p.2)))

/-- `test_get_tag_from_name_ok` -/
example : ["master[scale : 0.5]", "master[ scale:0.5 ]", "master[ scale : 0.5 ]"].map tags = List.replicate 3 (.ok [("scale", 1/2)]) := by decide +kernel
example : ["master[scale:0.5", "masterscale:0.5]", "master[scale0.5]"].map tags = List.replicate 3 (.ok []) := by decide +kernel

/-- `test_unsupported_tag`, `test_wrong_type_tag_value` -/
example : tags "bone1[unsupported : empty]" = .error .value := by decide +kernel
example : tags "bone_layer[ scale:invalid_str ]" = .error .value := by decide +kernel

end RepoTests
end Spine
