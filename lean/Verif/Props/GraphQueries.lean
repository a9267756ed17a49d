import Verif.Lemmas.Paths
import Verif.Props.GraphOps
/- C06-C11, C13: queries of the graph API, after any history of calls. -/
namespace Spine
namespace Graph
variable {T D : Type} [DecidableEq T]

/-! ## C06, C07 -/

/-- C06: `get_heads_id` terminates and lists exactly the nodes into which no edge leads, once each. -/
theorem c06_heads (fac : Factory T) (ops : List (Op T D)) :
    ∃ hs, heads (run fac ops) = .ok hs ∧ hs.Nodup ∧
      ∀ x, x ∈ hs ↔ HasNode (run fac ops) x ∧ ¬ ∃ p, Edge (run fac ops) p x := by
  have hg := wf_run fac ops
  obtain ⟨hs, h1, h2, h3⟩ := heads_spec hg
  refine ⟨hs, h1, h2, ?_⟩
  intro x; rw [h3]
  constructor
  · rintro ⟨n, hn, hp⟩
    refine ⟨⟨n, hn⟩, ?_⟩
    rintro ⟨p, m, hm, hc⟩
    obtain ⟨k, hk, hkp⟩ := hg.child_link hm hc
    rw [hn] at hk; simp at hk; subst hk; simp [hp] at hkp
  · rintro ⟨⟨n, hn⟩, hno⟩
    refine ⟨n, hn, ?_⟩
    cases hp : n.parents with
    | nil => rfl
    | cons p ps =>
      obtain ⟨m, hm, hc⟩ := hg.parent_link hn (p := p) (by simp [hp])
      exact absurd ⟨p, m, hm, hc⟩ hno

/-- C07: `get_tails_id` terminates and lists exactly the nodes from which no edge leaves, once each. -/
theorem c07_tails (fac : Factory T) (ops : List (Op T D)) :
    ∃ ts, tails (run fac ops) = .ok ts ∧ ts.Nodup ∧
      ∀ x, x ∈ ts ↔ HasNode (run fac ops) x ∧ ¬ ∃ c, Edge (run fac ops) x c := by
  obtain ⟨ts, h1, h2, h3⟩ := tails_spec (wf_run fac ops)
  refine ⟨ts, h1, h2, ?_⟩
  intro x; rw [h3]
  constructor
  · rintro ⟨n, hn, hp⟩
    refine ⟨⟨n, hn⟩, ?_⟩
    rintro ⟨c, m, hm, hc⟩
    rw [hn] at hm; simp at hm; subst hm; simp [hp] at hc
  · rintro ⟨⟨n, hn⟩, hno⟩
    refine ⟨n, hn, ?_⟩
    cases hp : n.children with
    | nil => rfl
    | cons c cs => exact absurd ⟨c, n, hn, by simp [hp]⟩ hno

/-! ## C08, C09, C13 -/

/-- full description of `validate` on a reachable graph -/
theorem validate_spec (root : T) {g : Graph T D} (hg : WF g) :
    ∃ cs us, circular g = .ok cs ∧ unconnected root g = .ok us ∧
      validate root g = .ok ((if cs ≠ [] then [GraphError.circularRefs cs] else []) ++
        (if us ≠ [] then [GraphError.unconnectedNodes us] else [])) ∧
      (cs ≠ [] ↔ Cyclic g) ∧ (∀ x ∈ cs, ReachesCycle g x) ∧ us.Nodup ∧
      ∀ x, x ∈ us ↔ ∃ n, getNode g x = some n ∧ n.parents = [] ∧ n.ntype ≠ root := by
  obtain ⟨cs, h1, h2, h3⟩ := circular_spec hg.closed_children
  obtain ⟨hs, e1, e2, e3⟩ := heads_spec hg
  let us := hs.filter (fun h => match getNode g h with
    | some n => n.ntype ≠ root
    | none => true)
  have hu : unconnected root g = .ok us := by simp only [unconnected, e1]; rfl
  refine ⟨cs, us, h1, hu, ?_, h3, h2, e2.sublist List.filter_sublist, ?_⟩
  · simp only [validate, h1, hu]
  · intro x
    rw [List.mem_filter, e3]
    constructor
    · rintro ⟨⟨n, hn, hp⟩, h⟩
      rw [hn] at h; simp at h
      exact ⟨n, hn, hp, h⟩
    · rintro ⟨n, hn, hp, ht⟩
      refine ⟨⟨n, hn, hp⟩, ?_⟩
      rw [hn]; simp [ht]

/-- C08: `validate` terminates and reports CIRCULAR_REFS exactly when some node can reach itself. -/
theorem c08_circular_iff_cyclic (root : T) (fac : Factory T) (ops : List (Op T D)) :
    ∃ errs, validate root (run fac ops) = .ok errs ∧
      ((∃ ids, GraphError.circularRefs ids ∈ errs) ↔ Cyclic (run fac ops)) := by
  obtain ⟨cs, us, h1, h2, h3, h4, h5, h6, h7⟩ := validate_spec root (wf_run fac ops)
  refine ⟨_, h3, ?_⟩
  rw [← h4]
  constructor
  · rintro ⟨ids, h⟩
    rcases List.mem_append.1 h with h | h
    · split at h
      · assumption
      · simp at h
    · split at h <;> simp at h
  · intro h
    exact ⟨cs, by simp [h]⟩

/-- C09, weaker form that holds: every id reported under CIRCULAR_REFS is a node from which a cycle can be reached.
Missing for the full C09: that the id lies on a cycle itself (false, see `c09_false`). -/
theorem c09_reported_reach_cycle_partial (root : T) (fac : Factory T) (ops : List (Op T D)) (errs : List GraphError)
    (ids : List Str) (h : validate root (run fac ops) = .ok errs) (hi : GraphError.circularRefs ids ∈ errs) :
    ids ≠ [] ∧ ∀ x ∈ ids, ∃ y, Reach (Edge (run fac ops)) x y ∧ OnCycle (run fac ops) y := by
  obtain ⟨cs, us, h1, h2, h3, h4, h5, h6, h7⟩ := validate_spec root (wf_run fac ops)
  rw [h] at h3; simp only [Except.ok.injEq] at h3; subst h3
  rcases List.mem_append.1 hi with h | h
  · split at h
    · simp at h; subst h; exact ⟨by assumption, h5⟩
    · simp at h
  · split at h <;> simp at h

/-- history building `a → 0 → 1 → 2 → 1` -/
def c09Ops : List (Op Nat Unit) :=
  [.addNode (.str s!!"a") () 0, .addNode (.str s!!"0") () 0, .addNode (.str s!!"1") () 0, .addNode (.str s!!"2") () 0,
   .addEdge s!!"a" s!!"0", .addEdge s!!"0" s!!"1", .addEdge s!!"1" s!!"2", .addEdge s!!"2" s!!"1"]

/-- C09 is false: `validate` lists `0` among the circular references, and `0` cannot reach itself. -/
theorem c09_false : ∃ errs ids, validate 3 (run defaultFactory c09Ops) = .ok errs ∧
    GraphError.circularRefs ids ∈ errs ∧ s!!"0" ∈ ids ∧ ¬ OnCycle (run defaultFactory c09Ops) s!!"0" := by
  refine ⟨[.circularRefs [s!!"0", s!!"1", s!!"2", s!!"1"], .unconnectedNodes [s!!"a"]],
    [s!!"0", s!!"1", s!!"2", s!!"1"], ?_, ?_, by decide, ?_⟩
  · decide +kernel
  · simp
  · rintro ⟨y, he, hr⟩
    -- nothing but 1 and 2 can be reached
    have closed : ∀ u v, Reach (Edge (run defaultFactory c09Ops)) u v → (u = s!!"1" ∨ u = s!!"2") →
        (v = s!!"1" ∨ v = s!!"2") := by
      intro u v h
      induction h with
      | refl => exact fun h => h
      | head he _ ih =>
        intro h
        apply ih
        obtain ⟨n, hn, hc⟩ := he
        rcases h with rfl | rfl
        · have : getNode (run defaultFactory c09Ops) s!!"1" = some
            { id := s!!"1", data := (), ntype := 0, order := s!!"3", forbidden := [], children := [s!!"2"], parents := [s!!"0", s!!"2"] } := by
            decide +kernel
          rw [this] at hn; simp at hn; subst hn; simp at hc; exact Or.inr hc
        · have : getNode (run defaultFactory c09Ops) s!!"2" = some
            { id := s!!"2", data := (), ntype := 0, order := s!!"4", forbidden := [], children := [s!!"1"], parents := [s!!"1"] } := by
            decide +kernel
          rw [this] at hn; simp at hn; subst hn; simp at hc; exact Or.inl hc
    have h0 : y = s!!"1" := by
      obtain ⟨n, hn, hc⟩ := he
      have : getNode (run defaultFactory c09Ops) s!!"0" = some
        { id := s!!"0", data := (), ntype := 0, order := s!!"2", forbidden := [], children := [s!!"1"], parents := [s!!"a"] } := by
        decide +kernel
      rw [this] at hn; simp at hn; subst hn; simpa using hc
    have := closed y _ hr (Or.inl h0)
    revert this; decide

/-- C13: UNCONNECTED_NODES lists exactly the nodes without incoming edge whose type is not the root type. -/
theorem c13_unconnected (root : T) (fac : Factory T) (ops : List (Op T D)) :
    ∃ errs, validate root (run fac ops) = .ok errs ∧
      (∀ ids, GraphError.unconnectedNodes ids ∈ errs → ids.Nodup ∧ ∀ x, x ∈ ids ↔
        ∃ n, getNode (run fac ops) x = some n ∧ n.ntype ≠ root ∧ ¬ ∃ p, Edge (run fac ops) p x) ∧
      ((∃ x n, getNode (run fac ops) x = some n ∧ n.ntype ≠ root ∧ ¬ ∃ p, Edge (run fac ops) p x) →
        ∃ ids, GraphError.unconnectedNodes ids ∈ errs) ∧
      (errs = [] ↔ ¬ Cyclic (run fac ops) ∧
        ∀ x n, getNode (run fac ops) x = some n → (¬ ∃ p, Edge (run fac ops) p x) → n.ntype = root) := by
  have hg := wf_run fac ops
  obtain ⟨cs, us, h1, h2, h3, h4, h5, h6, h7⟩ := validate_spec root hg
  have headiff : ∀ x n, getNode (run fac ops) x = some n → (n.parents = [] ↔ ¬ ∃ p, Edge (run fac ops) p x) := by
    intro x n hn
    constructor
    · rintro hp ⟨p, m, hm, hc⟩
      obtain ⟨k, hk, hkp⟩ := hg.child_link hm hc
      rw [hn] at hk; simp at hk; subst hk; simp [hp] at hkp
    · intro hno
      cases hp : n.parents with
      | nil => rfl
      | cons p ps =>
        obtain ⟨m, hm, hc⟩ := hg.parent_link hn (p := p) (by simp [hp])
        exact absurd ⟨p, m, hm, hc⟩ hno
  have h7' : ∀ x, x ∈ us ↔ ∃ n, getNode (run fac ops) x = some n ∧ n.ntype ≠ root ∧ ¬ ∃ p, Edge (run fac ops) p x := by
    intro x; rw [h7]
    constructor
    · rintro ⟨n, a, b, c⟩; exact ⟨n, a, c, (headiff x n a).1 b⟩
    · rintro ⟨n, a, b, c⟩; exact ⟨n, a, (headiff x n a).2 c, b⟩
  refine ⟨_, h3, ?_, ?_, ?_⟩
  · intro ids hi
    rcases List.mem_append.1 hi with h | h
    · split at h <;> simp at h
    · split at h
      · simp at h; subst h; exact ⟨h6, h7'⟩
      · simp at h
  · rintro ⟨x, n, a, b, c⟩
    have : us ≠ [] := List.ne_nil_of_mem ((h7' x).2 ⟨n, a, b, c⟩)
    exact ⟨us, by simp [this]⟩
  · rw [List.append_eq_nil_iff]
    constructor
    · rintro ⟨a, b⟩
      have hcs : cs = [] := by
        rcases Classical.em (cs = []) with h | h
        · exact h
        · simp [h] at a
      have hus : us = [] := by
        rcases Classical.em (us = []) with h | h
        · exact h
        · simp [h] at b
      refine ⟨fun hc => absurd hcs (h4.2 hc), ?_⟩
      intro x n hn hno
      apply Classical.byContradiction
      intro ht
      have := (h7' x).2 ⟨n, hn, ht, hno⟩
      rw [hus] at this; simp at this
    · rintro ⟨a, b⟩
      have hcs : cs = [] := by
        rcases Classical.em (cs = []) with h | h
        · exact h
        · exact absurd (h4.1 h) a
      have hus : us = [] := by
        cases us with
        | nil => rfl
        | cons x xs =>
          obtain ⟨n, e1, e2, e3⟩ := (h7' x).1 (by simp)
          exact absurd (b x n e1 e3) e2
      simp [hcs, hus]

/-! ## C10 -/

/-- C10: on a graph that validates, `get_all_paths(a, b, m)` returns every directed path from `a` to `b` with at most
`m` nodes, each once, and nothing else. -/
theorem c10_all_paths (root : T) (fac : Factory T) (ops : List (Op T D)) (a b : Str) (m : Int)
    (hv : validate root (run fac ops) = .ok []) (ha : HasNode (run fac ops) a) (hb : HasNode (run fac ops) b) :
    ∃ L, allPaths root (run fac ops) a b m = .ok L ∧ L.Nodup ∧
      ∀ l, l ∈ L ↔ Chain (Edge (run fac ops)) l ∧ l.head? = some a ∧ l.getLast? = some b ∧ (l.length : Int) ≤ m := by
  have hg := wf_run fac ops
  obtain ⟨cs, us, h1, h2, h3, h4, h5, h6, h7⟩ := validate_spec root hg
  have hac : ¬ Cyclic (run fac ops) := by
    rw [hv] at h3; simp only [Except.ok.injEq] at h3
    rw [← h4]; intro h; simp [h] at h3
  have ha' : Dict.has (run fac ops).nodes a = true := (Dict.has_iff_mem_keys _ _).2 ((hasNode_iff_mem_keys _ _).1 ha)
  have hb' : Dict.has (run fac ops).nodes b = true := (Dict.has_iff_mem_keys _ _).2 ((hasNode_iff_mem_keys _ _).1 hb)
  obtain ⟨new, e1, e2, e3⟩ := look_spec hg b m.toNat { paths := [], visited := [], path := [] } a ha (by simp) (by simp)
  refine ⟨new, ?_, e2, ?_⟩
  · simp [allPaths, hv, ha', hb', e1]
  · intro l
    rw [e3]
    constructor
    · rintro ⟨c, hc, ⟨p1, p2, p3, -⟩, p4, -⟩
      simp at hc; subst hc
      refine ⟨p1, p2, p3, ?_⟩
      have := List.length_pos_iff.2 p1.ne_nil
      omega
    · rintro ⟨p1, p2, p3, p4⟩
      exact ⟨a, by simp, ⟨p1, p2, p3, p1.nodup hac⟩, by omega, by simp⟩

/-- C10: it raises ValueError when the graph does not validate or an end is not a node, and nothing else. -/
theorem c10_all_paths_error (root : T) (fac : Factory T) (ops : List (Op T D)) (a b : Str) (m : Int)
    (h : validate root (run fac ops) ≠ .ok [] ∨ ¬ HasNode (run fac ops) a ∨ ¬ HasNode (run fac ops) b) :
    allPaths root (run fac ops) a b m = .error .value := by
  obtain ⟨cs, us, h1, h2, h3, -⟩ := validate_spec root (wf_run fac ops)
  have has : ∀ x, ¬ HasNode (run fac ops) x → Dict.has (run fac ops).nodes x = false := by
    intro x hx
    cases hh : Dict.has (run fac ops).nodes x with
    | false => rfl
    | true => exact absurd ((hasNode_iff_mem_keys _ _).2 ((Dict.has_iff_mem_keys _ _).1 hh)) hx
  unfold allPaths
  rw [h3] at h ⊢
  simp only
  by_cases he : ((if cs ≠ [] then [GraphError.circularRefs cs] else []) ++
        (if us ≠ [] then [GraphError.unconnectedNodes us] else [])) = []
  · rw [he] at h ⊢
    rcases h with h | h | h
    · simp at h
    · simp [has a h]
    · simp [has b h]
  · rw [if_pos he]

/-! ## C11 -/

/-- C11, first part that holds: `sequential_order_of_execution` terminates without exception on every reachable graph,
lists only nodes, and on acyclic graphs lists every node.
Missing: "exactly once" and "after its parents" (false in general, see `c11_false`). -/
theorem c11_covers_partial (fac : Factory T) (ops : List (Op T D)) :
    ∃ res, seqOrder (run fac ops) = .ok res ∧
      (¬ Cyclic (run fac ops) → ∀ x, HasNode (run fac ops) x → x ∈ res) := by
  have hg := wf_run fac ops
  obtain ⟨hs, w, h1, h2, h3, -⟩ := seqOrder_ok hg
  refine ⟨w.2, h3, ?_⟩
  intro hac x hx
  obtain ⟨y, n, hy, hp, hr⟩ := exists_head hg hac hx
  exact seqOrder_reach hg h3 ⟨n, hy, hp⟩ hr

/-- C11 holds on acyclic graphs in which every node has at most one parent: every node once, after its parent. -/
theorem c11_forest_partial (fac : Factory T) (ops : List (Op T D)) (hac : ¬ Cyclic (run fac ops))
    (hf : ∀ x p q, Edge (run fac ops) p x → Edge (run fac ops) q x → p = q) :
    ∃ res, seqOrder (run fac ops) = .ok res ∧ res.Nodup ∧ (∀ x, HasNode (run fac ops) x → x ∈ res) ∧
      ∀ a x b, res = a ++ x :: b → ∀ p, Edge (run fac ops) p x → p ∈ a := by
  have hg := wf_run fac ops
  have hforest : Forest (run fac ops) := by
    intro x n hn
    have hnd := hg.parents_nodup hn
    match hp : n.parents with
    | [] => simp
    | [_] => simp
    | p :: q :: r =>
      exfalso
      obtain ⟨a, ha, hac⟩ := hg.parent_link hn (p := p) (by simp [hp])
      obtain ⟨b, hb, hbc⟩ := hg.parent_link hn (p := q) (by simp [hp])
      have := hf x p q ⟨a, ha, hac⟩ ⟨b, hb, hbc⟩
      rw [hp] at hnd; simp [this] at hnd
  obtain ⟨res, h1, h2⟩ := c11_covers_partial fac ops
  obtain ⟨h3, h4⟩ := seqOrder_forest hg hforest h1
  exact ⟨res, h1, h3, h2 hac, h4⟩

/-- `h → b ← p`, `p → c`, `b → c` -/
def c11Ops : List (Op Nat Unit) :=
  [.addNode (.str s!!"h") () 0, .addNode (.str s!!"b") () 0, .addNode (.str s!!"p") () 0, .addNode (.str s!!"c") () 0,
   .addEdge s!!"h" s!!"b", .addEdge s!!"p" s!!"b", .addEdge s!!"p" s!!"c", .addEdge s!!"b" s!!"c"]

/-- C11 is false: on this acyclic graph the order is `h p c b p`: `c` precedes its parent `b`, `p` is listed twice. -/
theorem c11_false : ¬ Cyclic (run defaultFactory c11Ops) ∧ Edge (run defaultFactory c11Ops) s!!"b" s!!"c" ∧
    seqOrder (run defaultFactory c11Ops) = .ok [s!!"h", s!!"p", s!!"c", s!!"b", s!!"p"] := by
  refine ⟨?_, by decide +kernel, by decide +kernel⟩
  obtain ⟨ids, h1, -, h3⟩ := circular_spec (wf_run defaultFactory c11Ops).closed_children
  have : circular (run defaultFactory c11Ops) = .ok [] := by decide +kernel
  rw [this] at h1; simp at h1; subst h1
  rw [← h3]; simp

/-- `r → h`, `r → p` added: a single root does not help -/
def c11Ops2 : List (Op Nat Unit) :=
  [.addNode (.str s!!"r") () 0] ++ c11Ops ++ [.addEdge s!!"r" s!!"h", .addEdge s!!"r" s!!"p"]

/-- C11 is also false on an acyclic graph with one root: `c` is listed before its parent `b`. -/
theorem c11_false_single_root : ¬ Cyclic (run defaultFactory c11Ops2) ∧
    Edge (run defaultFactory c11Ops2) s!!"b" s!!"c" ∧
    seqOrder (run defaultFactory c11Ops2) = .ok [s!!"r", s!!"h", s!!"p", s!!"c", s!!"b"] := by
  refine ⟨?_, by decide +kernel, by decide +kernel⟩
  obtain ⟨ids, h1, -, h3⟩ := circular_spec (wf_run defaultFactory c11Ops2).closed_children
  have : circular (run defaultFactory c11Ops2) = .ok [] := by decide +kernel
  rw [this] at h1; simp at h1; subst h1
  rw [← h3]; simp

/-! ## Concrete cases meeting the hypotheses -/

section Examples

/-- a diamond with two paths from the root (type 3) to the sink -/
def diamond : List (Op Nat Unit) :=
  [.addNode (.str s!!"r") () 3, .addNode (.str s!!"a") () 0, .addNode (.str s!!"b") () 0, .addNode (.str s!!"z") () 0,
   .addEdge s!!"r" s!!"a", .addEdge s!!"r" s!!"b", .addEdge s!!"a" s!!"z", .addEdge s!!"b" s!!"z"]

example : validate 3 (run defaultFactory diamond) = .ok [] := by decide +kernel
example : HasNode (run defaultFactory diamond) s!!"r" ∧ HasNode (run defaultFactory diamond) s!!"z" := by decide +kernel
example : allPaths 3 (run defaultFactory diamond) s!!"r" s!!"z" 3 =
    .ok [[s!!"r", s!!"a", s!!"z"], [s!!"r", s!!"b", s!!"z"]] := by decide +kernel
example : allPaths 3 (run defaultFactory diamond) s!!"r" s!!"z" 2 = .ok [] := by decide +kernel
example : heads (run defaultFactory diamond) = .ok [s!!"r"] ∧ tails (run defaultFactory diamond) = .ok [s!!"z"] := by
  decide +kernel
/-- a cyclic graph: heads and tails still terminate -/
example : heads (run defaultFactory c09Ops) = .ok [s!!"a"] ∧ tails (run defaultFactory c09Ops) = .ok [] := by
  decide +kernel
example : Cyclic (run defaultFactory c09Ops) :=
  ⟨s!!"1", s!!"2", by decide +kernel, Reach.single (by decide +kernel)⟩
example : validate 3 (run defaultFactory c09Ops) ≠ .ok [] := by decide +kernel

/-- a forest with a branching node -/
def exForest : List (Op Nat Unit) :=
  [.addNode (.str s!!"c") () 0, .addNode (.str s!!"a") () 0, .addNode (.str s!!"b") () 0,
   .addEdge s!!"a" s!!"b", .addEdge s!!"a" s!!"c"]
example : ¬ Cyclic (run defaultFactory exForest) ∧
    ∀ x p q, Edge (run defaultFactory exForest) p x → Edge (run defaultFactory exForest) q x → p = q := by
  have hg := wf_run defaultFactory exForest
  constructor
  · obtain ⟨ids, h1, -, h3⟩ := circular_spec hg.closed_children
    have : circular (run defaultFactory exForest) = .ok [] := by decide +kernel
    rw [this] at h1; simp at h1; subst h1
    rw [← h3]; simp
  · rintro x p q ⟨m, hm, hc⟩ ⟨k, hk, hd⟩
    obtain ⟨n, hn, hp⟩ := hg.child_link hm hc
    obtain ⟨n', hn', hq⟩ := hg.child_link hk hd
    rw [hn] at hn'; simp at hn'; subst hn'
    have h : ∀ e ∈ (run defaultFactory exForest).nodes, e.2.parents = [] ∨ e.2.parents = [s!!"a"] := by decide +kernel
    rcases h _ (Dict.mem_of_get? hn) with h | h <;> simp only at h <;> rw [h] at hp hq <;> simp at hp hq
    rw [hp, hq]
example : seqOrder (run defaultFactory exForest) = .ok [s!!"a", s!!"b", s!!"c"] := by decide +kernel

end Examples

end Graph
end Spine
