import Verif.Spec.Graph
/- Which nodes a recursive removal must remove. -/
namespace Spine
namespace Container
open Graph
variable {T D : Type}

/-- a node of type `t` all of whose `rel`-neighbours (children, or parents) are doomed -/
inductive Doomed (g : Graph T D) (rel : Node T D → List Str) (t : T) : Str → Prop
  | mk {x : Str} {n : Node T D} : getNode g x = some n → n.ntype = t → (∀ y ∈ rel n, Doomed g rel t y) → Doomed g rel t x

/-- `x` lies on a cycle of the relation -/
def Loop (R : Str → Str → Prop) (x : Str) : Prop := ∃ y, R x y ∧ Reach R y x

/-- from `x` only nodes of type `t`, and no cycle, can be reached along `R` -/
def OnlyType (g : Graph T D) (R : Str → Str → Prop) (t : T) (x : Str) : Prop :=
  ∀ y, Reach R x y → (∃ n, getNode g y = some n ∧ n.ntype = t) ∧ ¬ Loop R y

end Container
end Spine
