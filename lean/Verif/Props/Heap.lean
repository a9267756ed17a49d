import Verif.Lemmas.Heap
/-
C64: node objects.  Following `children` and `parents` from a node of the graph leads to the objects that `get_node` returns, however nodes
were added, removed and added again; objects keep their identity, and a removed object is neither reached nor changed any more.  So every
call and every query on objects gives what Model/Graph.lean, which has no objects, gives: the theorems about that model are theorems
about the graph of objects.
-/
set_option linter.unusedSectionVars false
set_option linter.unusedSimpArgs false
set_option synthInstance.maxHeartbeats 200000
set_option synthInstance.maxSize 1000
namespace Spine
namespace HGraph
open Graph (Op)
variable {T D : Type} [DecidableEq T]

/-- C64: after any history of calls, `get_node(k)` has id `k`; `node.children[c] is get_node(c)` and `node.children[c].parents[k] is node`;
the same with the two kinds of links exchanged. -/
theorem c64_links (fac : Factory T) (ops : List (Op T D)) {k : Str} {r : Ref} (hk : getNode (run fac ops) k = some r) :
    ∃ o, (run fac ops).heap[r]? = some o ∧ o.id = k ∧
      (∀ c r', Dict.get? o.children c = some r' → r' ≠ r ∧ getNode (run fac ops) c = some r' ∧
        ∃ o', (run fac ops).heap[r']? = some o' ∧ Dict.get? o'.parents k = some r) ∧
      (∀ p r', Dict.get? o.parents p = some r' → r' ≠ r ∧ getNode (run fac ops) p = some r' ∧
        ∃ o', (run fac ops).heap[r']? = some o' ∧ Dict.get? o'.children k = some r) := by
  have hw := wf_abs fac ops
  have hi := (run_abs fac ops).2
  generalize run fac ops = h at *
  obtain ⟨o, ho, e⟩ := hi.obj hk
  have hn := getNode_abs_some hi hk ho
  have back : ∀ {c r' o'}, getNode h c = some r' → h.heap[r']? = some o' → k ∈ o'.abs.parents → Dict.get? o'.parents k = some r := by
    intro c r' o' h1 h2 h3
    obtain ⟨r'', h4⟩ := (Dict.get?_isSome_iff _ _).2 h3
    have := hi.parents h1 h2 (Dict.mem_of_get? h4)
    rw [hk] at this; cases this; exact h4
  have forth : ∀ {c r' o'}, getNode h c = some r' → h.heap[r']? = some o' → k ∈ o'.abs.children → Dict.get? o'.children k = some r := by
    intro c r' o' h1 h2 h3
    obtain ⟨r'', h4⟩ := (Dict.get?_isSome_iff _ _).2 h3
    have := hi.children h1 h2 (Dict.mem_of_get? h4)
    rw [hk] at this; cases this; exact h4
  refine ⟨o, ho, e, ?_, ?_⟩
  · intro c r' hc
    have hg := hi.children hk ho (Dict.mem_of_get? hc)
    obtain ⟨o', ho', -⟩ := hi.obj hg
    have hm : c ∈ o.abs.children := Dict.mem_keys_of_get? hc
    obtain ⟨m, h1, h2⟩ := hw.child_link hn hm
    rw [getNode_abs_some hi hg ho'] at h1
    cases h1
    refine ⟨?_, hg, o', ho', back hg ho' h2⟩
    rintro rfl
    exact hw.no_self hn (hi.inj hk hg ▸ hm)
  · intro p r' hp
    have hg := hi.parents hk ho (Dict.mem_of_get? hp)
    obtain ⟨o', ho', -⟩ := hi.obj hg
    have hm : p ∈ o.abs.parents := Dict.mem_keys_of_get? hp
    obtain ⟨m, h1, h2⟩ := hw.parent_link hn hm
    have h3 := getNode_abs_some hi hg ho'
    rw [h3] at h1
    cases h1
    refine ⟨?_, hg, o', ho', forth hg ho' h2⟩
    rintro rfl
    exact hw.no_self h3 (hi.inj hk hg ▸ h2)

/-- following links, in either direction, any number of times -/
inductive Follow (h : HGraph T D) : Ref → Ref → Prop
  | refl (r : Ref) : Follow h r r
  | child {r r1 r2 : Ref} {o : Obj T D} {c : Str} : h.heap[r]? = some o → (c, r1) ∈ o.children → Follow h r1 r2 → Follow h r r2
  | parent {r r1 r2 : Ref} {o : Obj T D} {c : Str} : h.heap[r]? = some o → (c, r1) ∈ o.parents → Follow h r1 r2 → Follow h r r2

/-- C64: whatever object is reached from a node of the graph is a node of the graph. -/
theorem c64_reach (fac : Factory T) (ops : List (Op T D)) {r r' : Ref} (hf : Follow (run fac ops) r r') :
    ∀ {k}, getNode (run fac ops) k = some r → ∃ k', getNode (run fac ops) k' = some r' := by
  have hi := (run_abs fac ops).2
  induction hf with
  | refl r => intro k hk; exact ⟨k, hk⟩
  | child h1 h2 _ ih => intro k hk; exact ih (hi.children hk h1 h2)
  | parent h1 h2 _ ih => intro k hk; exact ih (hi.parents hk h1 h2)

/-! ### Identity -/

theorem nodes_addChild (h : HGraph T D) (r : Ref) (a : Option Ref) : (addChild h r a).2.nodes = h.nodes := by
  unfold addChild
  repeat' split
  all_goals rfl

theorem nodes_addParent (h : HGraph T D) (r : Ref) (a : Option Ref) : (addParent h r a).2.nodes = h.nodes := by
  unfold addParent
  repeat' split
  all_goals rfl

theorem heap_addChild (h : HGraph T D) (r : Ref) (a : Option Ref) (r' : Ref) (hr : r' ≠ r) : (addChild h r a).2.heap[r']? = h.heap[r']? := by
  unfold addChild
  repeat' split
  all_goals try rfl
  rw [heap_update, if_neg (Ne.symm hr)]

theorem heap_addParent (h : HGraph T D) (r : Ref) (a : Option Ref) (r' : Ref) (hr : r' ≠ r) : (addParent h r a).2.heap[r']? = h.heap[r']? := by
  unfold addParent
  repeat' split
  all_goals try rfl
  rw [heap_update, if_neg (Ne.symm hr)]

theorem addEdge_frame (h : HGraph T D) (p c : Str) : (addEdge h p c).2.nodes = h.nodes ∧
    ∀ r', (∀ k, getNode h k ≠ some r') → (addEdge h p c).2.heap[r']? = h.heap[r']? := by
  have second : ∀ {h' : HGraph T D}, h'.nodes = h.nodes → (∀ r', (∀ k, getNode h k ≠ some r') → h'.heap[r']? = h.heap[r']?) →
      (match getNode h c with
        | none => ((.error .attribute, h') : Res (HGraph T D) Unit)
        | some r2 => addParent h' r2 (getNode h p)).2.nodes = h.nodes ∧
      ∀ r', (∀ k, getNode h k ≠ some r') → (match getNode h c with
        | none => ((.error .attribute, h') : Res (HGraph T D) Unit)
        | some r2 => addParent h' r2 (getNode h p)).2.heap[r']? = h.heap[r']? := by
    intro h' hn hh
    cases hc : getNode h c with
    | none => exact ⟨hn, hh⟩
    | some r2 =>
      refine ⟨by rw [← hn]; exact nodes_addParent _ _ _, fun r' hr => ?_⟩
      rw [← hh r' hr]
      exact heap_addParent _ _ _ _ (by rintro rfl; exact hr c hc)
  unfold addEdge
  cases hp : getNode h p with
  | none =>
    have := second rfl (fun _ _ => rfl)
    rw [hp] at this
    exact this
  | some r1 =>
    simp only
    have h1 := nodes_addChild h r1 (getNode h c)
    have h2 := heap_addChild h r1 (getNode h c)
    generalize addChild h r1 (getNode h c) = q at *
    obtain ⟨res, h'⟩ := q
    simp only at h1 h2
    have h3 : ∀ r', (∀ k, getNode h k ≠ some r') → h'.heap[r']? = h.heap[r']? := fun r' hr => h2 r' (by rintro rfl; exact hr p hp)
    cases res with
    | error e => exact ⟨h1, h3⟩
    | ok u =>
      have := second h1 h3
      rw [hp] at this
      exact this

theorem removeEdge_frame {h : HGraph T D} (hi : Inv h) (p c : Str) : (removeEdge h p c).2.nodes = h.nodes ∧
    ∀ r', (∀ k, getNode h k ≠ some r') → (removeEdge h p c).2.heap[r']? = h.heap[r']? := by
  have second : ∀ {h' : HGraph T D}, Inv h' → h'.nodes = h.nodes → (∀ r', (∀ k, getNode h k ≠ some r') → h'.heap[r']? = h.heap[r']?) →
      (match getNode h c with
        | none => ((.error .attribute, h') : Res (HGraph T D) Unit)
        | some r2 => delParent h' r2 p).2.nodes = h.nodes ∧
      ∀ r', (∀ k, getNode h k ≠ some r') → (match getNode h c with
        | none => ((.error .attribute, h') : Res (HGraph T D) Unit)
        | some r2 => delParent h' r2 p).2.heap[r']? = h.heap[r']? := by
    intro h' hi' hn hh
    cases hc : getNode h c with
    | none => exact ⟨hn, hh⟩
    | some r2 =>
      obtain ⟨-, -, h3, h4⟩ := delParent_abs hi' (p := p) (c := c) (r := r2) (by unfold getNode; rw [hn]; exact hc)
      exact ⟨h3.trans hn, fun r' hr => (h4 r' (by rintro rfl; exact hr c hc)).trans (hh r' hr)⟩
  unfold removeEdge
  cases hp : getNode h p with
  | none => exact second hi rfl (fun _ _ => rfl)
  | some r1 =>
    simp only
    obtain ⟨-, h2, h3, h4⟩ := delChild_abs hi (p := p) (c := c) hp
    generalize delChild h r1 c = q at *
    obtain ⟨res, h'⟩ := q
    simp only at h2 h3 h4
    have h5 : ∀ r', (∀ k, getNode h k ≠ some r') → h'.heap[r']? = h.heap[r']? := fun r' hr => h4 r' (by rintro rfl; exact hr p hp)
    cases res with
    | error e => exact ⟨h3, h5⟩
    | ok u => exact second h2 h3 h5

theorem removeNode_frame {h : HGraph T D} (hi : Inv h) (id : Str) :
    ((removeNode h id).2.nodes = h.nodes ∨ (removeNode h id).2.nodes = Dict.del h.nodes id) ∧
    ∀ r', (∀ k, getNode h k ≠ some r') → (removeNode h id).2.heap[r']? = h.heap[r']? := by
  unfold removeNode
  cases hr : getNode h id with
  | none => exact ⟨.inl rfl, fun _ _ => rfl⟩
  | some r =>
    obtain ⟨o, ho, -⟩ := hi.obj hr
    simp only [ho]
    obtain ⟨-, a2, a3, a4⟩ := dropParentLinks_abs id o.children hi (fun p hp => hi.children hr ho hp)
    have f1 : ∀ r', (∀ k, getNode h k ≠ some r') → (dropParentLinks id (Dict.values o.children) h).2.heap[r']? = h.heap[r']? := by
      intro r' hr'
      refine a4 r' fun e => ?_
      obtain ⟨⟨k, r''⟩, hm, e'⟩ := List.mem_map.1 e
      simp only at e'
      subst e'
      exact hr' k (hi.children hr ho hm)
    generalize dropParentLinks id (Dict.values o.children) h = q at *
    obtain ⟨res, h1⟩ := q
    simp only at a2 a3 f1
    cases res with
    | error e => exact ⟨.inl a3, f1⟩
    | ok u =>
      have hg : ∀ k, getNode h1 k = getNode h k := fun k => by unfold getNode; rw [a3]
      simp only
      cases ho1 : h1.heap[r]? with
      | none => exact ⟨.inl a3, f1⟩
      | some o1 =>
        simp only
        have hl := fun (p : Str × Ref) (hp : p ∈ o1.parents) => a2.parents (k := id) (r := r) (by rw [hg, hr]) ho1 (c := p.1) (r' := p.2) hp
        obtain ⟨-, b2, b3, b4⟩ := dropChildLinks_abs id o1.parents a2 hl
        have f2 : ∀ r', (∀ k, getNode h k ≠ some r') → (dropChildLinks id (Dict.values o1.parents) h1).2.heap[r']? = h.heap[r']? := by
          intro r' hr'
          refine (b4 r' fun e => ?_).trans (f1 r' hr')
          obtain ⟨⟨k, r''⟩, hm, e'⟩ := List.mem_map.1 e
          simp only at e'
          subst e'
          have := hl (k, r'') hm
          rw [hg] at this
          exact hr' k this
        generalize dropChildLinks id (Dict.values o1.parents) h1 = q at *
        obtain ⟨res, h2⟩ := q
        simp only at b3 f2
        cases res with
        | error e => exact ⟨.inl (b3.trans a3), f2⟩
        | ok u => exact ⟨.inr (by simp only [b3, a3]), f2⟩

theorem genId_frame (h : HGraph T D) : (genId h).2.nodes = h.nodes ∧ (genId h).2.heap = h.heap := by
  unfold genId
  split <;> exact ⟨rfl, rfl⟩

/-- `add_node` either leaves the objects alone or makes one, new, under a new id -/
theorem addNode_frame {h : HGraph T D} (hi : Inv h) (fac : Factory T) (nid : IdArg) (d : D) (t : T) :
    ((∃ e, (addNode fac h nid d t).1 = .error e) ∧ (addNode fac h nid d t).2.nodes = h.nodes ∧ (addNode fac h nid d t).2.heap = h.heap) ∨
    (∃ i o, i ∉ Dict.keys h.nodes ∧ o.id = i ∧ o.children = [] ∧ o.parents = [] ∧ o.data = d ∧ (addNode fac h nid d t).1 = .ok h.heap.length ∧
      (addNode fac h nid d t).2.nodes = Dict.set h.nodes i h.heap.length ∧ (addNode fac h nid d t).2.heap = h.heap ++ [o]) := by
  obtain ⟨h1, h2⟩ := genId_abs hi
  obtain ⟨f1, f2⟩ := genId_frame h
  have hs := Graph.genId_spec h.abs
  rw [h1] at hs
  unfold addNode
  generalize genId h = q at *
  obtain ⟨r, g⟩ := q
  simp only at h2 hs f1 f2
  cases r with
  | error e => exact .inl ⟨⟨e, rfl⟩, f1, f2⟩
  | ok u =>
    simp only
    have hu : u ∉ Dict.keys h.nodes := by
      obtain ⟨m, e, -, hm, -⟩ := hs
      injection e with e1 e2
      injection e1 with e1
      rw [e1, ← keys_abs hi]
      exact hm
    cases nid with
    | absent =>
      exact .inr ⟨u, { id := u, data := d, ntype := (fac t).1, order := u, forbidden := (fac t).2, children := [], parents := [] },
        hu, rfl, rfl, rfl, rfl, by rw [f2], by simp only [f1, f2], by simp only [f2]⟩
    | nonStr => exact .inl ⟨⟨_, rfl⟩, f1, f2⟩
    | str s =>
      by_cases hs : Dict.has g.nodes s = true
      · simp only [hs, if_true]; exact .inl ⟨⟨_, rfl⟩, f1, f2⟩
      · simp only [hs, if_false, Bool.false_eq_true]
        exact .inr ⟨s, { id := s, data := d, ntype := (fac t).1, order := u, forbidden := (fac t).2, children := [], parents := [] },
          by rw [← Dict.has_iff_mem_keys, ← f1]; exact hs, rfl, rfl, rfl, rfl, by rw [f2], by simp only [f1, f2], by simp only [f2]⟩

/-- C64: a call other than the removal of `k` leaves the object under the id `k`: `get_node(k)` is the same object before and after. -/
theorem c64_identity (fac : Factory T) (ops : List (Op T D)) (op : Op T D) {k : Str} {r : Ref} (hk : getNode (run fac ops) k = some r)
    (hop : ∀ i, op = .removeNode i → i ≠ k) : getNode (step fac (run fac ops) op) k = some r := by
  have hi := (run_abs fac ops).2
  generalize run fac ops = h at *
  cases op with
  | addNode i d t =>
    show Dict.get? (addNode fac h i d t).2.nodes k = _
    rcases addNode_frame hi fac i d t with ⟨-, h1, -⟩ | ⟨i', o, hn, -, -, -, -, -, h1, -⟩
    · rw [h1]; exact hk
    · rw [h1, Dict.get?_set, if_neg]
      · exact hk
      · rintro rfl; exact hn (Dict.mem_keys_of_get? hk)
  | addEdge p c =>
    show Dict.get? (addEdge h p c).2.nodes k = _
    rw [(addEdge_frame h p c).1]; exact hk
  | removeEdge p c =>
    show Dict.get? (removeEdge h p c).2.nodes k = _
    rw [(removeEdge_frame hi p c).1]; exact hk
  | removeNode i =>
    show Dict.get? (removeNode h i).2.nodes k = _
    rcases (removeNode_frame hi i).1 with h1 | h1 <;> rw [h1]
    · exact hk
    · rw [Dict.get?_del, if_neg (fun e => hop i rfl e.symm)]; exact hk
  | genId =>
    show Dict.get? (genId h).2.nodes k = _
    rw [(genId_frame h).1]; exact hk

/-- C64: the object returned by `add_node` is new, has no links, and is what `get_node` returns for its id. -/
theorem c64_new (fac : Factory T) (ops : List (Op T D)) (nid : IdArg) (d : D) (t : T) {r : Ref}
    (hok : (addNode fac (run fac ops) nid d t).1 = .ok r) :
    (run fac ops).heap[r]? = none ∧ (∀ k, getNode (run fac ops) k ≠ some r) ∧
    ∃ o, (addNode fac (run fac ops) nid d t).2.heap[r]? = some o ∧ o.children = [] ∧ o.parents = [] ∧ o.data = d ∧
      getNode (run fac ops) o.id = none ∧ getNode (addNode fac (run fac ops) nid d t).2 o.id = some r := by
  have hi := (run_abs fac ops).2
  generalize run fac ops = h at *
  rcases addNode_frame hi fac nid d t with ⟨⟨e, h1⟩, -⟩ | ⟨i, o, hn, e, hc, hp, hd, h1, h2, h3⟩
  · rw [hok] at h1; cases h1
  · rw [hok] at h1
    cases h1
    have hlen : h.heap[h.heap.length]? = none := List.getElem?_eq_none (Nat.le_refl _)
    refine ⟨hlen, ?_, o, ?_, hc, hp, hd, ?_, ?_⟩
    · intro k hk
      obtain ⟨o', ho', -⟩ := hi.obj hk
      rw [hlen] at ho'; cases ho'
    · rw [h3]; simp
    · rw [e]; exact (Dict.get?_eq_none_iff _ _).2 hn
    · show Dict.get? _ o.id = _
      rw [h2, e, Dict.get?_set, if_pos rfl]

theorem step_frozen {h : HGraph T D} (hi : Inv h) (fac : Factory T) (op : Op T D) {r : Ref} {o : Obj T D} (ho : h.heap[r]? = some o)
    (hr : ∀ k, getNode h k ≠ some r) : (step fac h op).heap[r]? = some o ∧ ∀ k, getNode (step fac h op) k ≠ some r := by
  have same : ∀ {h' : HGraph T D}, h'.nodes = h.nodes → h'.heap[r]? = h.heap[r]? → h'.heap[r]? = some o ∧ ∀ k, getNode h' k ≠ some r := by
    intro h' h1 h2
    exact ⟨h2.trans ho, fun k => by unfold getNode; rw [h1]; exact hr k⟩
  cases op with
  | addNode i d t =>
    show (addNode fac h i d t).2.heap[r]? = _ ∧ ∀ k, Dict.get? (addNode fac h i d t).2.nodes k ≠ some r
    rcases addNode_frame hi fac i d t with ⟨-, h1, h2⟩ | ⟨i', o', hn, -, -, -, -, -, h1, h2⟩
    · exact same h1 (by rw [h2])
    · have hlt : r < h.heap.length := (List.getElem?_eq_some_iff.1 ho).1
      refine ⟨by rw [h2, List.getElem?_append_left hlt]; exact ho, fun k => ?_⟩
      rw [h1, Dict.get?_set]
      split
      · intro e; injection e with e; subst e; exact Nat.lt_irrefl _ hlt
      · exact hr k
  | addEdge p c =>
    obtain ⟨h1, h2⟩ := addEdge_frame h p c
    exact same (h' := (addEdge h p c).2) h1 (h2 r hr)
  | removeEdge p c =>
    obtain ⟨h1, h2⟩ := removeEdge_frame hi p c
    exact same (h' := (removeEdge h p c).2) h1 (h2 r hr)
  | removeNode i =>
    obtain ⟨h1, h2⟩ := removeNode_frame hi i
    show (removeNode h i).2.heap[r]? = _ ∧ ∀ k, Dict.get? (removeNode h i).2.nodes k ≠ some r
    refine ⟨(h2 r hr).trans ho, fun k => ?_⟩
    rcases h1 with h1 | h1 <;> rw [h1]
    · exact hr k
    · rw [Dict.get?_del]
      split
      · exact nofun
      · exact hr k
  | genId =>
    obtain ⟨h1, h2⟩ := genId_frame h
    exact same (h' := (genId h).2) h1 (by rw [h2])

/-- C64: an object that was removed from the graph is not changed by any later call, and never becomes a node of the graph again,
even when a node is added under its id. -/
theorem c64_removed (fac : Factory T) (ops : List (Op T D)) {i : Str} {r : Ref} (hok : (removeNode (run fac ops) i).1 = .ok r) :
    ∃ o, (removeNode (run fac ops) i).2.heap[r]? = some o ∧ o.id = i ∧ (run fac ops).heap[r]? = some o ∧
    ∀ more : List (Op T D), (run fac (ops ++ .removeNode i :: more)).heap[r]? = some o ∧
      ∀ k, getNode (run fac (ops ++ .removeNode i :: more)) k ≠ some r := by
  obtain ⟨hra, hi⟩ := run_abs fac ops
  have hw := wf_abs fac ops
  have hlast : run fac (ops ++ [.removeNode i]) = (removeNode (run fac ops) i).2 := by
    unfold run; rw [List.foldl_append]; rfl
  have main : ∃ o, (removeNode (run fac ops) i).2.heap[r]? = some o ∧ o.id = i ∧ (run fac ops).heap[r]? = some o ∧
      ∀ k, getNode (removeNode (run fac ops) i).2 k ≠ some r := by
    generalize run fac ops = h at *
    revert hok
    unfold removeNode
    cases hr : getNode h i with
    | none => intro hok; cases hok
    | some r0 =>
      obtain ⟨o, ho, e⟩ := hi.obj hr
      have hn := getNode_abs_some hi hr ho
      simp only [ho]
      obtain ⟨-, a2, a3, a4⟩ := dropParentLinks_abs i o.children hi (fun p hp => hi.children hr ho hp)
      have ho1 := a4 r0 (by
        intro e
        obtain ⟨⟨k, r'⟩, hm, e'⟩ := List.mem_map.1 e
        simp only at e'
        subst e'
        have := hi.inj (hi.children hr ho hm) hr
        subst this
        exact hw.no_self hn (List.mem_map.2 ⟨_, hm, rfl⟩))
      generalize dropParentLinks i (Dict.values o.children) h = q at *
      obtain ⟨res, h1⟩ := q
      simp only at a2 a3 ho1
      cases res with
      | error e => intro hok; cases hok
      | ok u =>
        have hg : ∀ k, getNode h1 k = getNode h k := fun k => by unfold getNode; rw [a3]
        simp only [ho1, ho]
        obtain ⟨-, b2, b3, b4⟩ := dropChildLinks_abs i o.parents a2 (fun p hp => by rw [hg]; exact hi.parents hr ho hp)
        have ho2 := b4 r0 (by
          intro e
          obtain ⟨⟨k, r'⟩, hm, e'⟩ := List.mem_map.1 e
          simp only at e'
          subst e'
          have := hi.inj (hi.parents hr ho hm) hr
          subst this
          obtain ⟨n, h1, h2⟩ := hw.parent_link hn (show k ∈ o.abs.parents from List.mem_map.2 ⟨_, hm, rfl⟩)
          exact hw.no_self h1 h2)
        generalize dropChildLinks i (Dict.values o.parents) h1 = q2 at *
        obtain ⟨res2, h2⟩ := q2
        simp only at b2 b3 ho2
        cases res2 with
        | error e => intro hok; cases hok
        | ok u2 =>
          intro hok
          simp only at hok ⊢
          cases hok
          refine ⟨o, by rw [ho2, ho1, ho], e, ho, fun k hk => ?_⟩
          have hk' : Dict.get? (Dict.del h2.nodes i) k = some r := hk
          rw [Dict.get?_del] at hk'
          split at hk'
          · cases hk'
          · rename_i hne
            rw [b3, a3] at hk'
            exact hne (hi.inj hk' hr)
  obtain ⟨o, h1, h2, h0, h3⟩ := main
  refine ⟨o, h1, h2, h0, fun more => ?_⟩
  have hrun : run fac (ops ++ .removeNode i :: more) = more.foldl (step fac) (run fac (ops ++ [.removeNode i])) := by
    unfold run; rw [List.foldl_append, List.foldl_append]; rfl
  rw [hrun, hlast]
  have hinv : Inv (removeNode (run fac ops) i).2 := hlast ▸ (run_abs fac (ops ++ [.removeNode i])).2
  have hwf : Graph.WF (removeNode (run fac ops) i).2.abs := hlast ▸ wf_abs fac (ops ++ [.removeNode i])
  generalize (removeNode (run fac ops) i).2 = g at *
  clear hrun hlast
  induction more generalizing g with
  | nil => exact ⟨h1, h3⟩
  | cons op more ih =>
    obtain ⟨e1, e2⟩ := step_frozen hinv fac op h1 h3
    obtain ⟨s1, s2⟩ := step_abs hinv hwf fac op
    exact ih _ e1 e2 s2 (s1 ▸ Graph.wf_step hwf fac op)

/-! ### The same graph as the one without objects -/

/-- C64: every call on the graph of objects gives what it gives on the graph without objects, and leaves the same graph. -/
theorem c64_calls (fac : Factory T) (ops : List (Op T D)) :
    (run fac ops).abs = Graph.run fac ops ∧
    (∀ i d t, (Graph.addNode fac (Graph.run fac ops) i d t).1 =
      (addNode fac (run fac ops) i d t).1.map (idOf (addNode fac (run fac ops) i d t).2)) ∧
    (∀ p c, (Graph.addEdge (Graph.run fac ops) p c).1 = (addEdge (run fac ops) p c).1) ∧
    (∀ p c, (Graph.removeEdge (Graph.run fac ops) p c).1 = (removeEdge (run fac ops) p c).1) ∧
    (∀ i, (Graph.removeNode (Graph.run fac ops) i).1.map some = (removeNode (run fac ops) i).1.map (view (removeNode (run fac ops) i).2)) ∧
    (Graph.genId (Graph.run fac ops)).1 = (genId (run fac ops)).1 ∧
    (∀ k, Graph.getNode (Graph.run fac ops) k = (getNode (run fac ops) k).bind (view (run fac ops))) := by
  have hw := wf_abs fac ops
  obtain ⟨h1, hi⟩ := run_abs fac ops
  refine ⟨h1, ?_⟩
  rw [← h1]
  refine ⟨fun i d t => ?_, fun p c => ?_, fun p c => ?_, fun i => ?_, ?_, fun k => ?_⟩
  · rw [(addNode_abs hi fac i d t).1]
  · rw [(addEdge_abs hi p c).1]
  · rw [(removeEdge_abs hi p c).1]
  · exact (removeNode_abs hi hw i).1
  · rw [(genId_abs hi).1]
  · exact getNode_abs hi k

/-- C64: every query on the graph of objects gives what it gives on the graph without objects. -/
theorem c64_queries (fac : Factory T) (ops : List (Op T D)) (root : T) :
    heads (run fac ops) = Graph.heads (Graph.run fac ops) ∧ tails (run fac ops) = Graph.tails (Graph.run fac ops) ∧
    circular (run fac ops) = Graph.circular (Graph.run fac ops) ∧ validate root (run fac ops) = Graph.validate root (Graph.run fac ops) ∧
    (∀ a b d, allPaths root (run fac ops) a b d = Graph.allPaths root (Graph.run fac ops) a b d) ∧
    seqOrder (run fac ops) = Graph.seqOrder (Graph.run fac ops) := by
  have hw := wf_abs fac ops
  obtain ⟨h1, hi⟩ := run_abs fac ops
  rw [← h1]
  exact ⟨(heads_abs hi).symm, (tails_abs hi).symm, (circular_abs hi).symm, (validate_abs hi hw root).symm,
    fun a b d => (allPaths_abs hi hw root a b d).symm, (seqOrder_abs hi).symm⟩

/-! ### Cases -/

/-- nodes a → b → c; b is removed and added again, and linked the other way round -/
def again : List (Op Nat Nat) :=
  [.addNode (.str s!!"a") 1 0, .addNode (.str s!!"b") 2 0, .addNode (.str s!!"c") 3 0, .addEdge s!!"a" s!!"b", .addEdge s!!"b" s!!"c"]

def after : List (Op Nat Nat) := [.addNode (.str s!!"b") 4 0, .addEdge s!!"c" s!!"b", .addEdge s!!"a" s!!"a"]

def links (h : HGraph Nat Nat) : List (Str × Option (Nat × Dict Ref × Dict Ref)) :=
  h.nodes.map (fun p => (p.1, (h.heap[p.2]?).map (fun o => (o.data, o.children, o.parents))))

/-- the removal returns the object 1, which keeps its links (to a and c); the new node b is the object 3 -/
example : ((removeNode (run defaultFactory again) s!!"b").1.toOption = some 1) ∧
    links (run defaultFactory (again ++ .removeNode s!!"b" :: after)) =
      [(s!!"a", some (1, [], [])), (s!!"c", some (3, [(s!!"b", 3)], [])), (s!!"b", some (4, [], [(s!!"c", 2)]))] ∧
    ((run defaultFactory (again ++ .removeNode s!!"b" :: after)).heap[1]?).map (fun o => (o.id, o.data, o.children, o.parents)) =
      some (s!!"b", 2, [(s!!"c", 2)], [(s!!"a", 0)]) := by decide +kernel

/-- the hypotheses of the theorems hold here: a node with links, a removal and an addition that succeed -/
example : getNode (run defaultFactory again) s!!"b" = some 1 ∧
    ((run defaultFactory again).heap[1]?).map (fun o => (o.children, o.parents)) = some ([(s!!"c", 2)], [(s!!"a", 0)]) ∧
    (addNode defaultFactory (run defaultFactory (again ++ [.removeNode s!!"b"])) (.str s!!"b") 4 0).1.toOption = some 3 ∧
    heads (run defaultFactory again) = .ok [s!!"a"] ∧ seqOrder (run defaultFactory again) = .ok [s!!"a", s!!"b", s!!"c"] ∧
    validate 0 (run defaultFactory again) = .ok [] ∧ allPaths 0 (run defaultFactory again) s!!"a" s!!"c" 20 = .ok [[s!!"a", s!!"b", s!!"c"]] := by
  decide +kernel

end HGraph
end Spine
