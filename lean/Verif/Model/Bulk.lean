import Verif.Model.SpineNodes
/-
Model of the rest of `spine_graph_container.py` (the removals by name, with their return values), of `AnimationEraserResult`
(spine_animation_editor.py 22-33) and of `num_parents`, `num_children` (spamnode.py 62-68).
-/
namespace Spine
namespace Container
open Graph
variable {F : Type}

/-- a node of the skeleton graph -/
abbrev SNode (F : Type) := Node NType (Int × JVal F)

/-- `remove_attachment` (78-82): `get_node`, then `remove_node_by_id`; the node found is returned -/
def removeAttachment (g : SGraph F) (id : Str) : Res (SGraph F) (Option (SNode F)) :=
  let node := getNode g id
  match removeNode g id with
  | (.error e, g) => (.error e, g)
  | (.ok _, g) => (.ok node, g)

/-- `remove_attachments` (84-92) -/
def removeAttachments : List Str → SGraph F → Res (SGraph F) (List (Option (SNode F)))
  | [], g => (.ok [], g)
  | x :: r, g => match removeAttachment g (graphId .attachment x) with
    | (.error e, g) => (.error e, g)
    | (.ok n, g) => match removeAttachments r g with
      | (.error e, g) => (.error e, g)
      | (.ok l, g) => (.ok (n :: l), g)

/-- `remove_slots` (94-102) -/
def removeSlots : List Str → SGraph F → Res (SGraph F) (List (SNode F))
  | [], g => (.ok [], g)
  | x :: r, g => match removeNode g (graphId .slot x) with
    | (.error e, g) => (.error e, g)
    | (.ok n, g) => match removeSlots r g with
      | (.error e, g) => (.error e, g)
      | (.ok l, g) => (.ok (n :: l), g)

end Container

namespace Node
variable {T D : Type}
/-- `num_parents` (spamnode.py 62-64) -/
def numParents (n : Node T D) : Nat := n.parents.length
/-- `num_children` (spamnode.py 66-68) -/
def numChildren (n : Node T D) : Nat := n.children.length
end Node

/-- `AnimationEraserResult` (spine_animation_editor.py 22-24): `nodes_erased`, type ↦ set of ids -/
structure EraserResult where
  erased : Dict (List Str)

namespace EraserResult

/-- `AnimationEraserResult()` (23-24) -/
def new : EraserResult := ⟨[]⟩

/-- `save_node_erased` (26-30) for a node with this type and id; a set is a list without repetitions -/
def save (r : EraserResult) (ty id : Str) : EraserResult :=
  let d := if Dict.has r.erased ty then r.erased else Dict.set r.erased ty []
  ⟨Dict.modify d ty (fun s => if id ∈ s then s else s ++ [id])⟩

/-- `get_attachments` (32-33) -/
def attachments (r : EraserResult) : List Str := (Dict.get? r.erased NType.attachment.name).getD []

end EraserResult
end Spine
