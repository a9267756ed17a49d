import Verif.Lemmas.Graph
/- C01-C05, C12: mutating calls of the graph API, after any history of calls. -/
namespace Spine
namespace Graph
variable {T D : Type} [DecidableEq T]

/-! ## C01 -/

/-- C01: ids are unique and every node is stored under its own id. -/
theorem c01_ids_unique (fac : Factory T) (ops : List (Op T D)) :
    (Dict.keys (run fac ops).nodes).Nodup ∧ ∀ k n, getNode (run fac ops) k = some n → n.id = k :=
  ⟨(wf_run fac ops).keys_nodup, fun _ _ h => (wf_run fac ops).id_eq h⟩

/-- C01: an id already in use is rejected with ValueError and no node or edge changes. -/
theorem c01_add_duplicate (fac : Factory T) (ops : List (Op T D)) (s : Str) (data : D) (ty : T)
    (h : HasNode (run fac ops) s) :
    (addNode fac (run fac ops) (.str s) data ty).1 = .error .value ∧
    (addNode fac (run fac ops) (.str s) data ty).2.nodes = (run fac ops).nodes := by
  have hk := (hasNode_iff_mem_keys _ _).1 h
  obtain ⟨m, -, -, h1 | ⟨t, e, -, h1⟩ | ⟨i, e, hi, -⟩⟩ := addNode_spec fac (run fac ops) (.str s) data ty
  · simp at h1
  · simp [h1]
  · rcases e with ⟨e, -⟩ | e
    · simp at e
    · simp at e; subst e; exact absurd hk hi

/-- C01: a non-string id is rejected with TypeError and no node or edge changes. -/
theorem c01_add_nonstr (fac : Factory T) (ops : List (Op T D)) (data : D) (ty : T) :
    (addNode fac (run fac ops) .nonStr data ty).1 = .error .type ∧
    (addNode fac (run fac ops) .nonStr data ty).2.nodes = (run fac ops).nodes := by
  obtain ⟨m, -, -, h1 | ⟨t, e, -, h1⟩ | ⟨i, e, hi, -⟩⟩ := addNode_spec fac (run fac ops) .nonStr data ty
  · simp [h1.2]
  · simp at e
  · simp at e

/-- C01: with a fresh id, or without id, exactly one node is added, last, without edges, and no other node changes. -/
theorem c01_add_fresh (fac : Factory T) (ops : List (Op T D)) (nid : IdArg) (data : D) (ty : T)
    (h : nid = .absent ∨ ∃ s, nid = .str s ∧ ¬ HasNode (run fac ops) s) :
    ∃ i h', addNode fac (run fac ops) nid data ty = (.ok i, h') ∧ (∀ s, nid = .str s → i = s) ∧
      ¬ HasNode (run fac ops) i ∧
      Dict.keys h'.nodes = Dict.keys (run fac ops).nodes ++ [i] ∧
      (∃ n, getNode h' i = some n ∧ n.id = i ∧ n.data = data ∧ n.ntype = (fac ty).1 ∧ n.children = [] ∧ n.parents = []) ∧
      ∀ x, x ≠ i → getNode h' x = getNode (run fac ops) x := by
  obtain ⟨m, -, -, h1 | ⟨t, e, ht, h1⟩ | ⟨i, e, hi, h1⟩⟩ := addNode_spec fac (run fac ops) nid data ty
  · rcases h with h | ⟨s, h, -⟩ <;> simp [h] at h1
  · rcases h with h | ⟨s, h, hs⟩
    · simp [h] at e
    · rw [h] at e; simp at e; subst e
      exact absurd ((hasNode_iff_mem_keys _ _).2 ht) hs
  · refine ⟨i, _, h1, ?_, ?_, ?_, ?_, ?_⟩
    · rintro s rfl; rcases e with ⟨e, -⟩ | e
      · simp at e
      · simp at e; exact e.symm
    · rw [hasNode_iff_mem_keys]; exact hi
    · simp [Dict.keys]
    · refine ⟨newNode fac i data ty (natStr m), ?_, rfl, rfl, rfl, rfl, rfl⟩
      simp only [getNode]; rw [get?_append_single _ _ _ hi]; simp
    · intro x hx
      simp only [getNode]; rw [get?_append_single _ _ _ hi]; simp [hx]

/-! ## C02 -/

/-- C02: `generate_unique_id` terminates with an id no node carries (and `add_node()` without id succeeds,
see `c01_add_fresh`), whatever the ids chosen by the user. -/
theorem c02_generate_unique_id (g : Graph T D) :
    ∃ m : Nat, (genId g).1 = .ok (natStr m) ∧ ¬ HasNode g (natStr m) ∧ (genId g).2.nodes = g.nodes ∧
      (∀ i, g.idGen < i → i < m → HasNode g (natStr i)) := by
  obtain ⟨m, h, h1, h2, h3⟩ := genId_spec g
  refine ⟨m, by rw [h], ?_, by rw [h], ?_⟩
  · rw [hasNode_iff_mem_keys]; exact h2
  · intro i a b; rw [hasNode_iff_mem_keys]; exact h3 i a b

/-- C02: two ids drawn one after the other differ. -/
theorem c02_generate_twice_differ (g : Graph T D) : (genId (genId g).2).1 ≠ (genId g).1 := by
  obtain ⟨m, h, h1, h2, h3⟩ := genId_spec g
  obtain ⟨m', h', h1', -⟩ := genId_spec ({ g with idGen := m })
  rw [h]; simp only; rw [h']
  simp only [ne_eq, Except.ok.injEq]
  intro e
  have := natStr_inj e
  simp at h1'; omega

/-! ## C03 -/

/-- C03: after any history, `b` is a child of `a` exactly when `a` is a parent of `b`; both ends exist, no self link. -/
theorem c03_mirror (fac : Factory T) (ops : List (Op T D)) (a b : Str) :
    (Edge (run fac ops) a b ↔ BackEdge (run fac ops) b a) ∧
    (Edge (run fac ops) a b → HasNode (run fac ops) a ∧ HasNode (run fac ops) b ∧ a ≠ b) := by
  have hg := wf_run fac ops
  refine ⟨⟨?_, ?_⟩, ?_⟩
  · rintro ⟨n, hn, hc⟩; exact hg.child_link hn hc
  · rintro ⟨n, hn, hc⟩; exact hg.parent_link hn hc
  · rintro ⟨n, hn, hc⟩
    refine ⟨⟨n, hn⟩, ?_, ?_⟩
    · obtain ⟨m, hm, -⟩ := hg.child_link hn hc; exact ⟨m, hm⟩
    · rintro rfl; exact hg.no_self hn hc

/-- C03: links are never duplicated. -/
theorem c03_links_nodup (fac : Factory T) (ops : List (Op T D)) (a : Str) (n : Node T D)
    (h : getNode (run fac ops) a = some n) : n.children.Nodup ∧ n.parents.Nodup :=
  ⟨(wf_run fac ops).children_nodup h, (wf_run fac ops).parents_nodup h⟩

/-! ## C04 -/

/-- C04: removing an absent node raises ValueError and changes nothing. -/
theorem c04_remove_absent (fac : Factory T) (ops : List (Op T D)) (x : Str) (h : ¬ HasNode (run fac ops) x) :
    removeNode (run fac ops) x = (.error .value, run fac ops) := by
  rcases removeNode_spec (wf_run fac ops) x with ⟨_, e⟩ | ⟨node, h', hi, -⟩
  · exact e
  · exact absurd ⟨node, hi⟩ h

/-- C04: removing a node succeeds, returns the node; the other nodes keep order and content, all edges not touching it
are kept and no edge touching it is left. -/
theorem c04_remove_present (fac : Factory T) (ops : List (Op T D)) (x : Str) (n : Node T D)
    (h : getNode (run fac ops) x = some n) :
    ∃ h', removeNode (run fac ops) x = (.ok n, h') ∧
      Dict.keys h'.nodes = (Dict.keys (run fac ops).nodes).filter (· ≠ x) ∧
      ¬ HasNode h' x ∧
      (∀ y m, y ≠ x → getNode (run fac ops) y = some m → ∃ m', getNode h' y = some m' ∧ Node.sameInfo m m') ∧
      (∀ a b, Edge h' a b ↔ Edge (run fac ops) a b ∧ a ≠ x ∧ b ≠ x) ∧
      (∀ a b, BackEdge h' a b ↔ BackEdge (run fac ops) a b ∧ a ≠ x ∧ b ≠ x) := by
  rcases removeNode_spec (wf_run fac ops) x with ⟨e, _⟩ | ⟨node, h', hi, h1, -, -, hk, hl⟩
  · exact absurd ⟨n, h⟩ e
  · rw [h] at hi; simp at hi; subst hi
    refine ⟨h', h1, hk, ?_, ?_, ?_, ?_⟩
    · rintro ⟨m, hm⟩; rw [hl] at hm; simp at hm
    · intro y m hy hm
      refine ⟨_, by rw [hl, if_neg hy, hm, Option.map_some], ?_⟩
      exact ⟨rfl, rfl, rfl, rfl, rfl⟩
    · intro a b
      constructor
      · rintro ⟨m, hm, hb⟩
        rw [hl] at hm; split at hm
        · simp at hm
        · cases ha : getNode (run fac ops) a with
          | none => simp [ha] at hm
          | some m0 =>
            simp only [ha, Option.map_some, Option.some.injEq] at hm; subst hm
            simp at hb
            exact ⟨⟨m0, ha, hb.1⟩, by assumption, hb.2⟩
      · rintro ⟨⟨m, hm, hb⟩, ha, hb'⟩
        refine ⟨_, by rw [hl, if_neg ha, hm, Option.map_some], ?_⟩
        simp; exact ⟨hb, hb'⟩
    · intro a b
      constructor
      · rintro ⟨m, hm, hb⟩
        rw [hl] at hm; split at hm
        · simp at hm
        · cases ha : getNode (run fac ops) a with
          | none => simp [ha] at hm
          | some m0 =>
            simp only [ha, Option.map_some, Option.some.injEq] at hm; subst hm
            simp at hb
            exact ⟨⟨m0, ha, hb.1⟩, by assumption, hb.2⟩
      · rintro ⟨⟨m, hm, hb⟩, ha, hb'⟩
        refine ⟨_, by rw [hl, if_neg ha, hm, Option.map_some], ?_⟩
        simp; exact ⟨hb, hb'⟩

/-! ## C05 -/

theorem edge_linked (g : Graph T D) {p c : Str} {n1 : Node T D} (h1 : getNode g p = some n1) (a b : Str) :
    Edge (linked g p c) a b ↔ Edge g a b ∨ (a = p ∧ b = c) := by
  unfold Edge
  rw [getNode_linked]
  cases ha : getNode g a with
  | none =>
    simp
    rintro rfl; rw [h1] at ha; simp at ha
  | some n =>
    simp only [Option.map_some, Option.some.injEq, exists_eq_left']
    by_cases e : a = p
    · simp [e, mem_addLink]
    · simp [e]

theorem sameNodes_linked (g : Graph T D) (p c : Str) : SameNodes g (linked g p c) := by
  refine ⟨by simp [linked, Dict.keys_modify], ?_⟩
  intro x m hm
  refine ⟨_, by rw [getNode_linked, hm, Option.map_some], ?_⟩
  exact ⟨rfl, rfl, rfl, rfl, rfl⟩

/-- C05: when `add_edge` succeeds: exactly when both nodes exist, differ and the type is allowed. -/
theorem c05_add_edge_succeeds_iff (fac : Factory T) (ops : List (Op T D)) (p c : Str) :
    (addEdge (run fac ops) p c).1 = .ok () ↔
      ∃ n m, getNode (run fac ops) p = some n ∧ getNode (run fac ops) c = some m ∧ p ≠ c ∧ m.ntype ∉ n.forbidden := by
  rcases addEdge_spec (wf_run fac ops) p c with ⟨n1, n2, h1, h2, hf, hne, h⟩ | ⟨n1, n2, h1, h2, hf, hne, h⟩ | ⟨n1, n2, h1, h2, hf, h⟩ | ⟨h1, h2, h⟩ | ⟨h1, h⟩
  · simp only [h, true_iff]; exact ⟨n1, n2, h1, h2, hne, hf⟩
  · simp only [h, reduceCtorEq, false_iff]
    rintro ⟨_, _, _, _, e, _⟩; exact e hne
  · simp only [h, reduceCtorEq, false_iff]
    rintro ⟨_, _, e1, e2, _, e⟩; rw [h1] at e1; rw [h2] at e2; simp at e1 e2; subst e1 e2; exact e hf
  · simp only [h, reduceCtorEq, false_iff]
    rintro ⟨n, _, e1, _⟩; exact h1 ⟨n, e1⟩
  · simp only [h, reduceCtorEq, false_iff]
    rintro ⟨n, m, e1, e2, _⟩; exact h1.1 ⟨n, e1⟩ ⟨m, e2⟩

/-- C05: a successful `add_edge` adds exactly the edge `p → c` and keeps all nodes. -/
theorem c05_add_edge_exact (fac : Factory T) (ops : List (Op T D)) (p c : Str)
    (h : (addEdge (run fac ops) p c).1 = .ok ()) :
    SameNodes (run fac ops) (addEdge (run fac ops) p c).2 ∧
    ∀ a b, Edge (addEdge (run fac ops) p c).2 a b ↔ Edge (run fac ops) a b ∨ (a = p ∧ b = c) := by
  rcases addEdge_spec (wf_run fac ops) p c with ⟨n1, n2, h1, h2, hf, hne, e⟩ | ⟨_, _, _, _, _, _, e⟩ | ⟨_, _, _, _, _, e⟩ | ⟨_, _, e⟩ | ⟨_, e⟩
  · rw [e]; exact ⟨sameNodes_linked _ _ _, edge_linked _ h1⟩
  all_goals simp [e] at h

/-- C05: an `add_edge` that raises changes nothing. -/
theorem c05_add_edge_atomic (fac : Factory T) (ops : List (Op T D)) (p c : Str) (er : Err)
    (h : (addEdge (run fac ops) p c).1 = .error er) : (addEdge (run fac ops) p c).2 = run fac ops := by
  rcases addEdge_spec (wf_run fac ops) p c with ⟨n1, n2, h1, h2, hf, hne, e⟩ | ⟨_, _, _, _, _, _, e⟩ | ⟨_, _, _, _, _, e⟩ | ⟨_, _, e⟩ | ⟨_, e⟩
  · simp [e] at h
  all_goals rw [e]

/-- C05: adding an existing edge again changes nothing. -/
theorem c05_add_edge_idempotent (fac : Factory T) (ops : List (Op T D)) (p c : Str) (h : Edge (run fac ops) p c) :
    addEdge (run fac ops) p c = (.ok (), run fac ops) := by
  have hg := wf_run fac ops
  obtain ⟨n, hn, hc⟩ := h
  obtain ⟨m, hm, hp⟩ := hg.child_link hn hc
  rcases addEdge_spec hg p c with ⟨n1, n2, h1, h2, hf, hne, e⟩ | ⟨n1, n2, h1, h2, hf, hne, e⟩ | ⟨n1, n2, h1, h2, hf, e⟩ | ⟨h1, h2, e⟩ | ⟨h1, e⟩
  · rw [e]
    congr 1
    have : (linked (run fac ops) p c).nodes = (run fac ops).nodes := by
      apply Dict.ext_of_keys
      · exact (wf_linked hg h1 h2 hf hne).keys_nodup
      · simp [linked, Dict.keys_modify]
      · intro x
        have := getNode_linked (run fac ops) p c x
        simp only [getNode] at this
        rw [this]
        cases hx : Dict.get? (run fac ops).nodes x with
        | none => rfl
        | some k =>
          simp only [Option.map_some, Option.some.injEq]
          have i1 : (if x = p then addLink k.children c else k.children) = k.children := by
            split
            · rename_i ex; subst ex
              have : n = k := by simpa [getNode, hx] using hn.symm
              subst this; simp [addLink, hc]
            · rfl
          have i2 : (if x = c then addLink k.parents p else k.parents) = k.parents := by
            split
            · rename_i ex; subst ex
              have : m = k := by simpa [getNode, hx] using hm.symm
              subst this; simp [addLink, hp]
            · rfl
          rw [i1, i2]
    cases hr : run fac ops with
    | mk a b d => rw [hr] at this; simp only [linked] at this ⊢; rw [this]
  · subst hne; exact absurd hc (hg.no_self hn)
  · rw [hn] at h1; rw [hm] at h2; simp at h1 h2; subst h1 h2; exact absurd hf (hg.allowed hn hc hm)
  · exact absurd ⟨n, hn⟩ h1
  · exact absurd ⟨m, hm⟩ (h1.1 ⟨n, hn⟩)

/-- C05: `remove_edge` succeeds exactly on existing edges and deletes exactly that edge. -/
theorem c05_remove_edge_exact (fac : Factory T) (ops : List (Op T D)) (p c : Str) :
    ((removeEdge (run fac ops) p c).1 = .ok () ↔ Edge (run fac ops) p c) ∧
    (Edge (run fac ops) p c → SameNodes (run fac ops) (removeEdge (run fac ops) p c).2 ∧
      ∀ a b, Edge (removeEdge (run fac ops) p c).2 a b ↔ Edge (run fac ops) a b ∧ ¬ (a = p ∧ b = c)) := by
  have np : ¬ HasNode (run fac ops) p → ¬ Edge (run fac ops) p c := by
    rintro h ⟨n, hn, -⟩; exact h ⟨n, hn⟩
  rcases removeEdge_spec (wf_run fac ops) p c with ⟨he, e⟩ | ⟨h1, h2, e⟩ | ⟨h1, h2, e⟩ | ⟨h1, h2, e⟩
  · rw [e]
    refine ⟨by simp [he], fun _ => ⟨⟨by simp [unlinked, Dict.keys_modify], ?_⟩, ?_⟩⟩
    · intro x m hm
      refine ⟨_, by rw [getNode_unlinked, hm, Option.map_some], ?_⟩
      exact ⟨rfl, rfl, rfl, rfl, rfl⟩
    · intro a b
      unfold Edge
      simp only [getNode_unlinked]
      cases ha : getNode (run fac ops) a with
      | none => simp
      | some n =>
        simp only [Option.map_some, Option.some.injEq, exists_eq_left']
        by_cases ea : a = p
        · simp [ea]
        · simp [ea]
  · rw [e]; simp [h1]
  · rw [e]; simp [np h1]
  · rw [e]; simp [np h1]

/-- C05: a `remove_edge` that raises changes nothing. -/
theorem c05_remove_edge_atomic (fac : Factory T) (ops : List (Op T D)) (p c : Str) (er : Err)
    (h : (removeEdge (run fac ops) p c).1 = .error er) : (removeEdge (run fac ops) p c).2 = run fac ops := by
  rcases removeEdge_spec (wf_run fac ops) p c with ⟨he, e⟩ | ⟨h1, h2, e⟩ | ⟨h1, h2, e⟩ | ⟨h1, h2, e⟩
  · simp [e] at h
  all_goals rw [e]

/-- C05: `remove_edge` undoes the `add_edge` that created the edge: the graph is the same as before. -/
theorem c05_remove_undoes_add (fac : Factory T) (ops : List (Op T D)) (p c : Str)
    (hn : ¬ Edge (run fac ops) p c) (h : (addEdge (run fac ops) p c).1 = .ok ()) :
    removeEdge (addEdge (run fac ops) p c).2 p c = (.ok (), run fac ops) := by
  have hg := wf_run fac ops
  rcases addEdge_spec hg p c with ⟨n1, n2, h1, h2, hf, hne, e⟩ | ⟨_, _, _, _, _, _, e⟩ | ⟨_, _, _, _, _, e⟩ | ⟨_, _, e⟩ | ⟨_, e⟩
  · rw [e]
    have hl := wf_linked hg h1 h2 hf hne
    have he : Edge (linked (run fac ops) p c) p c := (edge_linked _ h1 p c).2 (Or.inr ⟨rfl, rfl⟩)
    have hnp : p ∉ n2.parents := by
      intro hp; obtain ⟨n, a, b⟩ := hg.parent_link h2 hp; exact hn ⟨n, a, b⟩
    have hnc : c ∉ n1.children := fun hc => hn ⟨n1, h1, hc⟩
    rcases removeEdge_spec hl p c with ⟨_, e'⟩ | ⟨h', _, _⟩ | ⟨h', _, _⟩ | ⟨h', _, _⟩
    · rw [e']
      congr 1
      have : (unlinked (linked (run fac ops) p c) p c).nodes = (run fac ops).nodes := by
        apply Dict.ext_of_keys
        · exact (wf_unlinked hl p c).keys_nodup
        · simp [linked, unlinked, Dict.keys_modify]
        · intro x
          have := getNode_unlinked (linked (run fac ops) p c) p c x
          rw [getNode_linked] at this
          simp only [getNode] at this
          rw [this]
          cases hx : Dict.get? (run fac ops).nodes x with
          | none => rfl
          | some k =>
            simp only [Option.map_some, Option.some.injEq]
            cases k
            simp only [Node.mk.injEq, true_and]
            constructor
            · split
              · rename_i ex; subst ex
                simp only [getNode, hx, Option.some.injEq] at h1; subst h1
                simp only at hnc
                simp only [addLink, if_neg hnc, List.filter_append]
                simp
                intro a ha; rintro rfl; exact hnc ha
              · rfl
            · split
              · rename_i ex; subst ex
                simp only [getNode, hx, Option.some.injEq] at h2; subst h2
                simp only at hnp
                simp only [addLink, if_neg hnp, List.filter_append]
                simp
                intro a ha; rintro rfl; exact hnp ha
              · rfl
      cases hr : run fac ops with
      | mk a b d => rw [hr] at this; simp only [linked, unlinked] at this ⊢; rw [this]
    · exact absurd he h'
    · obtain ⟨n, a, -⟩ := he; exact absurd ⟨n, a⟩ h'
    · obtain ⟨n, a, -⟩ := he; exact absurd ⟨n, a⟩ h'
  all_goals simp [e] at h

/-! ## C12 -/

/-- C12: no history of calls produces an edge to a node of a forbidden type. -/
theorem c12_no_forbidden_edge (fac : Factory T) (ops : List (Op T D)) (p c : Str) (n m : Node T D)
    (hn : getNode (run fac ops) p = some n) (hm : getNode (run fac ops) c = some m) (h : m.ntype ∈ n.forbidden) :
    ¬ Edge (run fac ops) p c := by
  rintro ⟨n', hn', hc⟩
  rw [hn] at hn'; simp at hn'; subst hn'
  exact (wf_run fac ops).allowed hn hc hm h

/-- C12: attempting to add such an edge raises TypeError and changes nothing. -/
theorem c12_forbidden_rejected (fac : Factory T) (ops : List (Op T D)) (p c : Str) (n m : Node T D)
    (hn : getNode (run fac ops) p = some n) (hm : getNode (run fac ops) c = some m) (h : m.ntype ∈ n.forbidden) :
    addEdge (run fac ops) p c = (.error .type, run fac ops) := by
  rcases addEdge_spec (wf_run fac ops) p c with ⟨n1, n2, h1, h2, hf, hne, e⟩ | ⟨n1, n2, h1, h2, hf, hne, e⟩ | ⟨n1, n2, h1, h2, hf, e⟩ | ⟨h1, h2, e⟩ | ⟨h1, e⟩
  · rw [hn] at h1; rw [hm] at h2; simp at h1 h2; subst h1 h2; exact absurd h hf
  · rw [hn] at h1; rw [hm] at h2; simp at h1 h2; subst h1 h2; exact absurd h hf
  · exact e
  · exact absurd ⟨n, hn⟩ h1
  · exact e

/-- C12: the forbidden types of a node are those its factory gave for the type it was created with, and the
node keeps type and forbidden types forever. -/
theorem c12_forbidden_from_factory (fac : Factory T) (ops : List (Op T D)) (k : Str) (n : Node T D)
    (h : getNode (run fac ops) k = some n) : ∃ ty, n.ntype = (fac ty).1 ∧ n.forbidden = (fac ty).2 := by
  suffices hs : ∀ (ops : List (Op T D)) (g : Graph T D), WF g →
      (∀ k n, getNode g k = some n → ∃ ty, n.ntype = (fac ty).1 ∧ n.forbidden = (fac ty).2) →
      ∀ k n, getNode (ops.foldl (step fac) g) k = some n → ∃ ty, n.ntype = (fac ty).1 ∧ n.forbidden = (fac ty).2 by
    exact hs ops empty wf_empty (by intro k n h; simp [empty, getNode, Dict.get?] at h) k n h
  intro ops
  induction ops with
  | nil => intro g _ h; exact h
  | cons op ops ih =>
    intro g hg hk
    refine ih (step fac g op) (wf_step hg fac op) ?_
    intro k n h
    cases op with
    | addNode i d t =>
      simp only [step] at h
      obtain ⟨m, -, -, ⟨-, h1⟩ | ⟨s, e, -, h1⟩ | ⟨i', e, hi, h1⟩⟩ := addNode_spec fac g i d t
      · rw [h1] at h; exact hk k n h
      · rw [h1] at h; exact hk k n h
      · rw [h1] at h
        simp only [getNode] at h
        rw [get?_append_single _ _ _ hi] at h
        split at h
        · simp at h; subst h; exact ⟨t, rfl, rfl⟩
        · exact hk k n h
    | addEdge p c =>
      simp only [step] at h
      rcases addEdge_spec hg p c with ⟨n1, n2, h1, h2, hf, hne, e⟩ | ⟨_, _, _, _, _, _, e⟩ | ⟨_, _, _, _, _, e⟩ | ⟨_, _, e⟩ | ⟨_, e⟩ <;> rw [e] at h
      · rw [getNode_linked] at h
        cases hx : getNode g k with
        | none => simp [hx] at h
        | some m => simp [hx] at h; subst h; exact hk k m hx
      all_goals exact hk k n h
    | removeEdge p c =>
      simp only [step] at h
      rcases removeEdge_spec hg p c with ⟨_, e⟩ | ⟨_, _, e⟩ | ⟨_, _, e⟩ | ⟨_, _, e⟩ <;> rw [e] at h
      · rw [getNode_unlinked] at h
        cases hx : getNode g k with
        | none => simp [hx] at h
        | some m => simp only [hx, Option.map_some, Option.some.injEq] at h; subst h; exact hk k m hx
      all_goals exact hk k n h
    | removeNode i =>
      simp only [step] at h
      rcases removeNode_spec hg i with ⟨_, e⟩ | ⟨node, h', hi, e, -, -, -, hl⟩ <;> rw [e] at h
      · exact hk k n h
      · rw [hl] at h; split at h
        · simp at h
        · cases hx : getNode g k with
          | none => simp [hx] at h
          | some m => simp only [hx, Option.map_some, Option.some.injEq] at h; subst h; exact hk k m hx
    | genId =>
      simp only [step] at h
      obtain ⟨m, e, -⟩ := genId_spec g
      rw [e] at h; exact hk k n h

/-! ## Concrete cases meeting the hypotheses -/

section Examples

/-- types 0, 1; type 1 must not be a child of type 0 -/
def exFac : Factory Nat := fun t => (t, if t = 0 then [1] else [])

/-- a history with user ids that look like generated ones, a duplicate, edges and a removal -/
def exOps : List (Op Nat Unit) :=
  [.addNode (.str s!!"2") () 0, .addNode .absent () 0, .addNode (.str s!!"2") () 0, .addNode (.str s!!"x") () 1,
   .addEdge s!!"x" s!!"2", .addEdge s!!"2" s!!"x", .addEdge s!!"x" s!!"x", .addEdge s!!"2" s!!"3",
   .removeEdge s!!"2" s!!"x", .genId]

example : Dict.keys (run exFac exOps).nodes = [s!!"2", s!!"3", s!!"x"] := by decide +kernel
example : HasNode (run exFac exOps) s!!"2" := by decide +kernel
example : ¬ HasNode (run exFac exOps) s!!"y" := by decide +kernel
example : Edge (run exFac exOps) s!!"x" s!!"2" := by decide +kernel
example : (addEdge (run exFac exOps) s!!"x" s!!"3").1 = .ok () := by decide +kernel
example : (addEdge (run exFac exOps) s!!"2" s!!"x").1 = .error .type := by decide +kernel
example : (removeEdge (run exFac exOps) s!!"2" s!!"3").1 = .ok () := by decide +kernel
example : (removeNode (run exFac exOps) s!!"2").2.nodes.length = 2 := by decide +kernel

end Examples

end Graph
end Spine
