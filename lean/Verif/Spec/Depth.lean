import Verif.Model.Data
import Verif.Spec.Graph
/-
Vocabulary for the recursion limit: outcomes that are RecursionError (`.diverge`) or else the same as without limit, and how deep a
graph or a skeleton is.
-/
namespace Spine

/-- the outcome `x` under a limit: RecursionError, or the outcome `y` without limit -/
def Lim {α : Type} (x y : Except Err α) : Prop := x = .error .diverge ∨ x = y

/-- the same for a call that changes a state -/
def LimR {σ α : Type} (x y : Res σ α) : Prop := x.1 = .error .diverge ∨ x = y

namespace Graph
variable {T D : Type}

/-- every chain of edges without repetition has fewer than `lim` nodes -/
def Shallow (lim : Nat) (g : Graph T D) : Prop :=
  ∀ l, Chain (Edge g) l → l.Nodup → (∀ x ∈ l, HasNode g x) → l.length < lim

end Graph

variable {F : Type}

/-- bones of the document, each the parent of the next and listed before it -/
inductive AnimData.BoneChain (a : AnimData F) : List (Bone F) → Prop
  | single {b : Bone F} : b ∈ a.bones → BoneChain a [b]
  | cons {b c : Bone F} {l pre post : List (Bone F)} : a.bones = pre ++ c :: post → b ∈ pre → c.parent = some b.name →
      BoneChain a (c :: l) → BoneChain a (b :: c :: l)

end Spine
