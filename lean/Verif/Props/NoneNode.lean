import Verif.Lemmas.NoneNode
/-
C68: every node that `add_node` accepts is a node of the graph.  False of the graph of the library: its node factory returns `None`
for the types DEFAULT and PATH, `add_node` stores the `None`, and from then on no query on the graph works and no call repairs it.
-/
namespace Spine
namespace OGraph
open Graph (Op GraphError)
variable {T D : Type} [DecidableEq T]

/-- C68: `add_node` with an unused id or without id never raises.  If the factory makes a node for the requested type the call returns
it, and `get_node` finds a node with that id, the given data and no links; if the factory makes none the call returns `None` and
`get_node` of the new id gives `None`.  For all factories and all histories. -/
theorem c68_add_partial (fac : OFactory T) (ops : List (Op T D)) (nid : IdArg) (data : D) (ty : T) (hn : nid ≠ .nonStr)
    (hu : ∀ i, nid = .str i → Dict.has (run fac ops).nodes i = false) :
    ∃ i h, (∀ j, nid = .str j → i = j) ∧ addNode fac (run fac ops) nid data ty = (.ok ((fac ty).map (fun _ => i)), h) ∧
      Dict.has (run fac ops).nodes i = false ∧ Dict.has h.nodes i = true ∧
      (getNode h i).map (fun n => (n.id, n.data, n.ntype, n.forbidden, n.children, n.parents)) =
        (fac ty).map (fun q => (i, data, q.1, q.2, [], [])) ∧
      ∀ j, j ≠ i → getNode h j = getNode (run fac ops) j := by
  obtain ⟨m, hm, h⟩ := addNode_spec fac (run fac ops) nid data ty
  rcases h with ⟨h, -⟩ | ⟨s, h, hs, -⟩ | ⟨i, hi, hk, h⟩
  · exact absurd h hn
  · have := hu s h
    rw [(Dict.has_iff_mem_keys _ _).2 hs] at this
    cases this
  · refine ⟨i, _, ?_, h, ?_, ?_, ?_, ?_⟩
    · rcases hi with ⟨rfl, -⟩ | rfl
      · intro j e; cases e
      · intro j e; injection e
    · cases hh : Dict.has (run fac ops).nodes i with
      | false => rfl
      | true => exact absurd ((Dict.has_iff_mem_keys _ _).1 hh) hk
    · rw [Dict.has_iff_mem_keys]; simp [Dict.keys]
    · simp only [getNode, Graph.get?_append_single _ _ _ hk, if_pos]
      unfold made
      cases fac ty <;> rfl
    · intro j hj
      simp only [getNode, Graph.get?_append_single _ _ _ hk, if_neg hj]

/-- C68: one request that the factory answers with `None` spoils the graph for good.  Whatever calls are made before and after,
`get_node` of the id gives `None`, the id can neither be removed nor added again, and heads, tails, validation, paths and the order
of execution end in an AttributeError. -/
theorem c68_spoilt (fac : OFactory T) (ops later : List (Op T D)) (nid : IdArg) (data : D) (ty root : T)
    (h : (addNode fac (run fac ops) nid data ty).1 = .ok none) :
    ∃ i, (∀ j, nid = .str j → i = j) ∧ ∀ g, g = runFrom fac (addNode fac (run fac ops) nid data ty).2 later →
      getNode g i = none ∧ (removeNode g i).1 = .error .value ∧ (∀ d t, (addNode fac g (.str i) d t).1 = .error .value) ∧
      heads g = .error .attribute ∧ tails g = .error .attribute ∧ circular g = .error .attribute ∧
      validate root g = .error .attribute ∧ (∀ a b d, allPaths root g a b d = .error .attribute) ∧ seqOrder g = .error .attribute := by
  have hw : OWF (run fac ops) := owf_runFrom fac ops owf_empty
  have hw' := addNode_owf hw fac nid data ty
  obtain ⟨m, hm, hs⟩ := addNode_spec fac (run fac ops) nid data ty
  rcases hs with ⟨-, e⟩ | ⟨s, -, -, e⟩ | ⟨i, hi, hk, e⟩
  · rw [e] at h; cases h
  · rw [e] at h; cases h
  · have hf : fac ty = none := by
      rw [e] at h
      cases hf : fac ty with
      | none => rfl
      | some q => rw [hf] at h; cases h
    have hole : Hole (addNode fac (run fac ops) nid data ty).2 i := by
      rw [e]
      simp only [Hole, Graph.get?_append_single _ _ _ hk, if_pos, made, hf, Option.map_none]
    refine ⟨i, ?_, ?_⟩
    · rcases hi with ⟨rfl, -⟩ | rfl
      · intro j e; cases e
      · intro j e; injection e
    · intro g hg
      have hgw : OWF g := by rw [hg]; exact owf_runFrom fac later hw'
      have hgh : Hole g i := by rw [hg]; exact hole_runFrom fac later hw' hole
      have hv := validate_hole root hgw hgh
      have hget : getNode g i = none := by unfold getNode; rw [hgh]; rfl
      obtain ⟨cs, hc, -⟩ := Graph.circular_spec hgw.wf.closed_children
      refine ⟨hget, ?_, ?_, heads_hole hgw hgh, tails_hole hgw hgh, circular_hole hc hgh, hv, ?_, ?_⟩
      · unfold removeNode; rw [hget]
      · intro d t
        have mem : i ∈ Dict.keys g.nodes := Dict.mem_keys_of_get? hgh
        obtain ⟨m', -, hs⟩ := addNode_spec fac g (.str i) d t
        rcases hs with ⟨e, -⟩ | ⟨s, -, -, e⟩ | ⟨j, hj, hk', e⟩
        · cases e
        · rw [e]
        · rcases hj with ⟨e', -⟩ | e'
          · cases e'
          · injection e' with e'; subst e'; exact absurd mem hk'
      · intro a b d
        unfold allPaths; rw [hv]
      · unfold seqOrder; rw [heads_hole hgw hgh]

/-- C68, as far as it holds: when the factory makes a node of every type asked for, every call of a history and every query afterwards
gives what the graphs of C01–C08 give. -/
theorem c68_agree_partial (fac : OFactory T) (fac' : Factory T) (ops : List (Op T D)) (root : T)
    (hf : ∀ i d t, Op.addNode i d t ∈ ops → fac t = some (fac' t)) :
    (∀ x, getNode (run fac ops) x = Graph.getNode (Graph.run fac' ops) x) ∧
    (∀ x, Dict.has (run fac ops).nodes x = Dict.has (Graph.run fac' ops).nodes x) ∧
    heads (run fac ops) = Graph.heads (Graph.run fac' ops) ∧ tails (run fac ops) = Graph.tails (Graph.run fac' ops) ∧
    circular (run fac ops) = Graph.circular (Graph.run fac' ops) ∧ validate root (run fac ops) = Graph.validate root (Graph.run fac' ops) ∧
    (∀ a b d, allPaths root (run fac ops) a b d = Graph.allPaths root (Graph.run fac' ops) a b d) ∧
    seqOrder (run fac ops) = Graph.seqOrder (Graph.run fac' ops) ∧
    (∀ i d t, fac t = some (fac' t) →
      (addNode fac (run fac ops) i d t).1 = (Graph.addNode fac' (Graph.run fac' ops) i d t).1.map some) ∧
    (∀ p c, (addEdge (run fac ops) p c).1 = (Graph.addEdge (Graph.run fac' ops) p c).1) ∧
    (∀ p c, (removeEdge (run fac ops) p c).1 = (Graph.removeEdge (Graph.run fac' ops) p c).1) ∧
    (∀ i, (removeNode (run fac ops) i).1 = (Graph.removeNode (Graph.run fac' ops) i).1) := by
  have hw : OWF (run fac ops) := owf_runFrom fac ops owf_empty
  obtain ⟨e, h⟩ := run_full (fac := fac) (fac' := fac') ops (by
    intro op ho
    cases op with
    | addNode i d t => exact hf i d t ho
    | _ => exact trivial)
  rw [← e]
  exact ⟨fun x => (getNode_objs hw.keys x).symm, has_full hw.keys h, getNodesBy_full hw.keys h _, getNodesBy_full hw.keys h _,
    circular_full hw.keys h, validate_full root hw.keys h, allPaths_full root hw.keys h, seqOrder_full hw.keys h,
    fun i d t hf => (addNode_full hw.keys h i d t hf).1, fun p c => congrArg Prod.fst (addEdge_acts hw.keys p c).1,
    fun p c => congrArg Prod.fst (removeEdge_acts hw.keys p c).1, fun i => congrArg Prod.fst (removeNode_acts hw.keys i).1⟩

/-- The node factory of the library makes a node exactly for the other types, and then the node of the model of the editor. -/
theorem c68_spine_factory (t : NType) :
    (spineOFactory t = none ↔ t = .default ∨ t = .path) ∧ (t ≠ .default → t ≠ .path → spineOFactory t = some (spineFactory t)) := by
  cases t <;> simp [spineOFactory, spineFactory]

/-- C68 is false of the graph of the library: from every state of the graph, `add_node` of type PATH (or DEFAULT, the default of the
argument) without id succeeds, and afterwards no query works, whatever calls follow. -/
theorem c68_counterexample {D : Type} (ops later : List (Op NType D)) (data : D) (ty root : NType) (ht : ty = .path ∨ ty = .default) :
    (addNode spineOFactory (run spineOFactory ops) .absent data ty).1 = .ok none ∧
    heads (runFrom spineOFactory (addNode spineOFactory (run spineOFactory ops) .absent data ty).2 later) = .error .attribute ∧
    validate root (runFrom spineOFactory (addNode spineOFactory (run spineOFactory ops) .absent data ty).2 later) = .error .attribute := by
  have hf : spineOFactory ty = none := by rcases ht with rfl | rfl <;> rfl
  obtain ⟨i, h, -, e, -⟩ := c68_add_partial spineOFactory ops .absent data ty (by simp) (by intro i e; cases e)
  rw [hf] at e
  have h0 : (addNode spineOFactory (run spineOFactory ops) .absent data ty).1 = .ok none := by rw [e]; rfl
  obtain ⟨i, -, h⟩ := c68_spoilt spineOFactory ops later .absent data ty root h0
  obtain ⟨-, -, -, h1, -, -, h2, -⟩ := h _ rfl
  exact ⟨h0, h1, h2⟩

/-! Non-vacuity -/
section Examples

def someOps : List (Op NType Nat) :=
  [.addNode (.str s!!"root") 0 .bone, .addNode (.str s!!"arm") 1 .bone, .addEdge s!!"root" s!!"arm", .addNode .absent 2 .slot,
   .addEdge s!!"arm" s!!"3"]

-- a history of which every node is made
example : (∀ i d t, Op.addNode i d t ∈ someOps → spineOFactory t = some (spineFactory t)) ∧
    heads (run spineOFactory someOps) = .ok [s!!"root"] ∧ tails (run spineOFactory someOps) = .ok [s!!"3"] := by
  refine ⟨?_, by decide +kernel, by decide +kernel⟩
  intro i d t h
  simp only [someOps, List.mem_cons, Op.addNode.injEq, reduceCtorEq, false_or, or_false, List.not_mem_nil] at h
  rcases h with ⟨-, -, rfl⟩ | ⟨-, -, rfl⟩ | ⟨-, -, rfl⟩ <;> rfl

-- the same history with one node of type PATH in between; the edges are still there
example : (addNode spineOFactory (run spineOFactory someOps) (.str s!!"p") 5 .path).1 = .ok none ∧
    heads (run spineOFactory (someOps ++ [.addNode (.str s!!"p") 5 .path, .removeNode s!!"p"])) = .error .attribute ∧
    ((getNode (run spineOFactory (someOps ++ [.addNode (.str s!!"p") 5 .path, .removeNode s!!"p"])) s!!"root").map (·.children)) =
      some [s!!"arm"] := by
  decide +kernel

end Examples
end OGraph
end Spine
