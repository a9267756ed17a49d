import Verif.Model.Graph
/-
Declarative vocabulary for graph properties: what is observable of a graph (its nodes and its edges), paths,
reachability, cycles.  Nothing here uses the traversals of the model.
-/
namespace Spine
namespace Graph
variable {T D : Type}

/-- `x` is the id of a node of the graph -/
def HasNode (g : Graph T D) (x : Str) : Prop := ∃ n, getNode g x = some n

/-- `c` is listed among the children of `p` -/
def Edge (g : Graph T D) (p c : Str) : Prop := ∃ n, getNode g p = some n ∧ c ∈ n.children

/-- `p` is listed among the parents of `c` -/
def BackEdge (g : Graph T D) (c p : Str) : Prop := ∃ n, getNode g c = some n ∧ p ∈ n.parents

instance (g : Graph T D) (x : Str) : Decidable (HasNode g x) :=
  match h : getNode g x with
  | some n => isTrue ⟨n, h⟩
  | none => isFalse (fun ⟨n, e⟩ => by rw [h] at e; simp at e)

instance (g : Graph T D) (p c : Str) : Decidable (Edge g p c) :=
  match h : getNode g p with
  | some n => if hc : c ∈ n.children then isTrue ⟨n, h, hc⟩
    else isFalse (fun ⟨m, e, hm⟩ => by rw [h] at e; simp at e; subst e; exact hc hm)
  | none => isFalse (fun ⟨n, e, _⟩ => by rw [h] at e; simp at e)

/-- reflexive-transitive closure -/
inductive Reach (R : Str → Str → Prop) : Str → Str → Prop
  | refl (a : Str) : Reach R a a
  | head {a b c : Str} : R a b → Reach R b c → Reach R a c

/-- some node lies on a directed cycle -/
def OnCycle (g : Graph T D) (x : Str) : Prop := ∃ y, Edge g x y ∧ Reach (Edge g) y x

/-- the graph has a directed cycle -/
def Cyclic (g : Graph T D) : Prop := ∃ x, OnCycle g x

/-- consecutive elements of the list are linked by an edge -/
inductive Chain (R : Str → Str → Prop) : List Str → Prop
  | single (a : Str) : Chain R [a]
  | cons {a b : Str} {l : List Str} : R a b → Chain R (b :: l) → Chain R (a :: b :: l)

/-- `l` is a directed path from `a` to `b` without repeated nodes -/
structure SimplePath (R : Str → Str → Prop) (a b : Str) (l : List Str) : Prop where
  chain : Chain R l
  first : l.head? = some a
  last : l.getLast? = some b
  nodup : l.Nodup

/-- Well-formedness: what every history of API calls preserves. -/
structure WF (g : Graph T D) : Prop where
  keys_nodup : (Dict.keys g.nodes).Nodup
  id_eq : ∀ {k n}, getNode g k = some n → n.id = k
  child_link : ∀ {p n c}, getNode g p = some n → c ∈ n.children → ∃ m, getNode g c = some m ∧ p ∈ m.parents
  parent_link : ∀ {c m p}, getNode g c = some m → p ∈ m.parents → ∃ n, getNode g p = some n ∧ c ∈ n.children
  children_nodup : ∀ {p n}, getNode g p = some n → n.children.Nodup
  parents_nodup : ∀ {p n}, getNode g p = some n → n.parents.Nodup
  no_self : ∀ {p n}, getNode g p = some n → p ∉ n.children
  allowed : ∀ {p n c m}, getNode g p = some n → c ∈ n.children → getNode g c = some m → m.ntype ∉ n.forbidden

/-- what a node keeps through link changes -/
def Node.sameInfo (a b : Node T D) : Prop :=
  a.id = b.id ∧ a.data = b.data ∧ a.ntype = b.ntype ∧ a.order = b.order ∧ a.forbidden = b.forbidden

/-- the same nodes (id, data, type, …) in the same order; edges may differ -/
def SameNodes (g h : Graph T D) : Prop :=
  Dict.keys g.nodes = Dict.keys h.nodes ∧
  ∀ x m, getNode g x = some m → ∃ n, getNode h x = some n ∧ Node.sameInfo m n

end Graph
end Spine
