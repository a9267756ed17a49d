import Verif.Lemmas.Traverse
import Verif.Model.SpineNodes
import Verif.Spec.Container
/- Removing nodes is restriction of the graph; the bulk removals of the container. -/
set_option linter.unusedSectionVars false
namespace Spine
namespace Graph
variable {T D : Type}

/-- the graph without the nodes of `S` -/
def restrict (g : Graph T D) (S : List Str) : Graph T D :=
  { idGen := g.idGen, counter := g.counter
    nodes := (g.nodes.filter (fun p => p.1 ∉ S)).map (fun p => (p.1,
      { p.2 with children := p.2.children.filter (· ∉ S), parents := p.2.parents.filter (· ∉ S) })) }

theorem get?_map_snd {α β : Type} (d : Dict α) (f : α → β) (k : Str) :
    Dict.get? (d.map (fun p => (p.1, f p.2))) k = (Dict.get? d k).map f := by
  induction d with
  | nil => rfl
  | cons p r ih => simp only [List.map_cons, Dict.get?]; split <;> simp [ih]

theorem get?_filter_key {α : Type} (d : Dict α) (P : Str → Bool) (k : Str) :
    Dict.get? (d.filter (fun p => P p.1)) k = if P k then Dict.get? d k else none := by
  induction d with
  | nil => simp [Dict.get?]
  | cons p r ih =>
    by_cases hp : P p.1
    · simp only [List.filter_cons, hp, if_true, Dict.get?]
      by_cases hk : p.1 = k
      · subst hk; simp [hp]
      · simp [hk, ih]
    · simp only [List.filter_cons, hp, Dict.get?]
      by_cases hk : p.1 = k
      · subst hk; simp [hp, ih]
      · simp [hk, ih]

theorem keys_restrict (g : Graph T D) (S : List Str) :
    Dict.keys (restrict g S).nodes = (Dict.keys g.nodes).filter (fun x => x ∉ S) := by
  simp only [restrict, Dict.keys, List.map_map, List.filter_map]
  rfl

theorem getNode_restrict (g : Graph T D) (S : List Str) (x : Str) : getNode (restrict g S) x =
    if x ∈ S then none else (getNode g x).map (fun n =>
      { n with children := n.children.filter (· ∉ S), parents := n.parents.filter (· ∉ S) }) := by
  refine (get?_map_snd (g.nodes.filter (fun p => decide (p.1 ∉ S)))
    (fun n : Node T D => { n with children := n.children.filter (· ∉ S), parents := n.parents.filter (· ∉ S) }) x).trans ?_
  rw [get?_filter_key _ (fun k => decide (k ∉ S)), getNode]
  by_cases h : x ∈ S <;> simp [h]

theorem restrict_nil (g : Graph T D) : restrict g [] = g := by
  cases g
  simp [restrict, List.filter_eq_self.2]

theorem restrict_restrict (g : Graph T D) (S R : List Str) : restrict (restrict g S) R = restrict g (S ++ R) := by
  simp only [restrict, List.filter_map, List.map_map, List.filter_filter, Graph.mk.injEq, true_and]
  have e : (fun p : Str × Node T D => decide (p.1 ∉ S ++ R)) =
      (fun a => ((fun p : Str × Node T D => decide (p.1 ∉ R)) ∘ fun p : Str × Node T D => (p.1, ({ p.2 with
        children := p.2.children.filter (· ∉ S), parents := p.2.parents.filter (· ∉ S) } : Node T D))) a && decide (a.1 ∉ S)) := by
    funext p; simp [Bool.and_comm]
  rw [e]
  apply List.map_congr_left
  intro p _
  simp [List.filter_filter, Bool.and_comm]

theorem restrict_congr (g : Graph T D) {S R : List Str} (h : ∀ x, x ∈ S ↔ x ∈ R) : restrict g S = restrict g R := by
  have e : (fun x => decide (x ∉ S)) = (fun x => decide (x ∉ R)) := by funext x; simp [h x]
  have e2 : (fun p : Str × Node T D => decide (p.1 ∉ S)) = (fun p : Str × Node T D => decide (p.1 ∉ R)) := by
    funext p; simp [h p.1]
  simp only [restrict, e, e2]

theorem hasNode_restrict (g : Graph T D) (S : List Str) (x : Str) : HasNode (restrict g S) x ↔ HasNode g x ∧ x ∉ S := by
  unfold HasNode; rw [getNode_restrict]
  by_cases h : x ∈ S
  · simp [h]
  · cases getNode g x <;> simp [h]

theorem edge_restrict (g : Graph T D) (S : List Str) (x y : Str) :
    Edge (restrict g S) x y ↔ Edge g x y ∧ x ∉ S ∧ y ∉ S := by
  unfold Edge; rw [getNode_restrict]
  by_cases h : x ∈ S
  · simp [h]
  · cases getNode g x <;> simp [h]

theorem backEdge_restrict (g : Graph T D) (S : List Str) (x y : Str) :
    BackEdge (restrict g S) x y ↔ BackEdge g x y ∧ x ∉ S ∧ y ∉ S := by
  unfold BackEdge; rw [getNode_restrict]
  by_cases h : x ∈ S
  · simp [h]
  · cases getNode g x <;> simp [h]

/-- `remove_node_by_id` of an existing node -/
theorem removeNode_eq {g : Graph T D} (hg : WF g) {id : Str} {n : Node T D} (h : getNode g id = some n) :
    removeNode g id = (.ok n, restrict g [id]) := by
  rcases removeNode_spec hg id with ⟨h', _⟩ | ⟨node, g', hi, e, e1, e2, hk, hl⟩
  · exact absurd ⟨n, h⟩ h'
  · rw [h] at hi; injection hi with hi; subst hi
    rw [e]
    congr 1
    have : g'.nodes = (restrict g [id]).nodes := by
      apply Dict.ext_of_keys
      · rw [hk]; exact hg.keys_nodup.sublist List.filter_sublist
      · rw [hk, keys_restrict]; apply List.filter_congr; intro x _; simp
      · intro k
        have a := hl k
        have b := getNode_restrict g [id] k
        unfold getNode at a b
        rw [a, b]
        by_cases hki : k = id <;> simp [hki]
    cases g' with
    | mk i c ns =>
      simp only at e1 e2 this
      subst e1 e2
      rw [this]; rfl

theorem removeNode_missing {g : Graph T D} {id : Str} (h : ¬ HasNode g id) : removeNode g id = (.error .value, g) := by
  unfold removeNode
  cases hn : getNode g id with
  | none => rfl
  | some n => exact absurd ⟨n, hn⟩ h

theorem wf_restrict {g : Graph T D} (hg : WF g) (S : List Str) : WF (restrict g S) := by
  induction S with
  | nil => rw [restrict_nil]; exact hg
  | cons x S ih =>
    have e : restrict g (x :: S) = restrict (restrict g S) [x] := by
      rw [restrict_restrict]; apply restrict_congr; intro y; simp; exact Or.comm
    rw [e]
    by_cases hx : HasNode (restrict g S) x
    · obtain ⟨n, hn⟩ := hx
      have := wf_removeNode ih x
      rwa [removeNode_eq ih hn] at this
    · -- nothing to remove
      have : restrict (restrict g S) [x] = restrict g S := by
        have hk : x ∉ Dict.keys (restrict g S).nodes := fun h => hx ((hasNode_iff_mem_keys _ _).2 h)
        have hE : (restrict (restrict g S) [x]).nodes = (restrict g S).nodes := by
          apply Dict.ext_of_keys
          · rw [keys_restrict]; exact ih.keys_nodup.sublist List.filter_sublist
          · rw [keys_restrict, List.filter_eq_self]; intro a ha; simp; rintro rfl; exact hk ha
          · intro k
            have := getNode_restrict (restrict g S) [x] k
            unfold getNode at this
            rw [this]
            by_cases hkx : k ∈ [x]
            · simp only [hkx, if_true]
              simp at hkx; subst hkx
              exact ((Dict.get?_eq_none_iff _ _).2 hk).symm
            · simp only [hkx, if_false]
              cases hm : Dict.get? (restrict g S).nodes k with
              | none => rfl
              | some m =>
                have c1 : m.children.filter (fun y => decide (y ∉ [x])) = m.children := by
                  rw [List.filter_eq_self]; intro a ha; simp; rintro rfl
                  obtain ⟨m', h', _⟩ := ih.child_link hm ha
                  exact hx ⟨m', h'⟩
                have c2 : m.parents.filter (fun y => decide (y ∉ [x])) = m.parents := by
                  rw [List.filter_eq_self]; intro a ha; simp; rintro rfl
                  obtain ⟨m', h', _⟩ := ih.parent_link hm ha
                  exact hx ⟨m', h'⟩
                simp only [Option.map_some, c1, c2]
        have h1 : (restrict (restrict g S) [x]).idGen = (restrict g S).idGen := rfl
        have h2 : (restrict (restrict g S) [x]).counter = (restrict g S).counter := rfl
        generalize restrict (restrict g S) [x] = a at *
        generalize restrict g S = b at *
        cases a; cases b; simp_all
      rw [this]; exact ih

end Graph

namespace Container
open Graph
variable {T D : Type} [DecidableEq T]

theorem removeAllIds_eq (base : Str → Str) (l : List Str) : ∀ {g : Graph T D}, WF g → l.Nodup → (∀ x ∈ l, HasNode g x) →
    removeAllIds base l g = (.ok (l.map base), restrict g l) := by
  induction l with
  | nil => intro g _ _ _; simp [removeAllIds, restrict_nil]
  | cons x r ih =>
    intro g hg hn hx
    obtain ⟨n, hxn⟩ := hx x (by simp)
    have hr := List.nodup_cons.1 hn
    have := ih (wf_restrict hg [x]) hr.2 (by
      intro y hy
      rw [hasNode_restrict]
      refine ⟨hx y (by simp [hy]), ?_⟩
      simp; rintro rfl; exact hr.1 hy)
    simp only [removeAllIds, removeNode_eq hg hxn, this, restrict_restrict, hg.id_eq hxn]
    rfl

theorem ofType_eq {g : Graph T D} (t : T) (l : List Str) (h : ∀ x ∈ l, HasNode g x) :
    ∃ m, ofType g t l = .ok m ∧ m.Sublist l ∧ ∀ x, x ∈ m ↔ x ∈ l ∧ ∃ n, getNode g x = some n ∧ n.ntype = t := by
  induction l with
  | nil => exact ⟨[], rfl, List.Sublist.refl _, by simp⟩
  | cons x r ih =>
    obtain ⟨m, h1, h2, h3⟩ := ih (fun y hy => h y (by simp [hy]))
    obtain ⟨n, hn⟩ := h x (by simp)
    by_cases ht : n.ntype = t
    · refine ⟨x :: m, by simp [ofType, hn, h1, ht], h2.cons_cons x, ?_⟩
      intro y
      simp only [List.mem_cons, h3]
      constructor
      · rintro (rfl | ⟨a, b⟩)
        · exact ⟨.inl rfl, n, hn, ht⟩
        · exact ⟨.inr a, b⟩
      · rintro ⟨rfl | a, b⟩
        · exact .inl rfl
        · exact .inr ⟨a, b⟩
    · refine ⟨m, by simp [ofType, hn, h1, ht], h2.cons x, ?_⟩
      intro y
      simp only [List.mem_cons, h3]
      constructor
      · rintro ⟨a, b⟩; exact ⟨.inr a, b⟩
      · rintro ⟨rfl | a, b⟩
        · obtain ⟨n', hn', ht'⟩ := b
          rw [hn] at hn'; injection hn' with hn'; subst hn'; exact absurd ht' ht
        · exact ⟨a, b⟩

/-- the two instances: children with tails, parents with heads -/
structure Ends (ends : Graph T D → Except Err (List Str)) (rel : Node T D → List Str) : Prop where
  spec : ∀ {g}, WF g → ∃ res, ends g = .ok res ∧ res.Nodup ∧ ∀ x, x ∈ res ↔ ∃ n, getNode g x = some n ∧ rel n = []
  rel_restrict : ∀ {g : Graph T D} {S x n}, getNode g x = some n → x ∉ S →
    ∃ m, getNode (restrict g S) x = some m ∧ m.ntype = n.ntype ∧ rel m = (rel n).filter (· ∉ S)

theorem tails_ends : Ends (T := T) (D := D) tails Node.children := by
  refine ⟨tails_spec, ?_⟩
  intro g S x n hn hx
  rw [getNode_restrict, hn]; simp only [hx, if_false, Option.map_some, Option.some.injEq, exists_eq_left', and_self]

theorem heads_ends : Ends (T := T) (D := D) heads Node.parents := by
  refine ⟨heads_spec, ?_⟩
  intro g S x n hn hx
  rw [getNode_restrict, hn]; simp only [hx, if_false, Option.map_some, Option.some.injEq, exists_eq_left', and_self]

variable {ends : Graph T D → Except Err (List Str)} {rel : Node T D → List Str}

theorem endsOfType_spec (he : Ends ends rel) (t : T) {g : Graph T D} (hg : WF g) :
    ∃ l, endsOfType ends t g = .ok l ∧ l.Nodup ∧ ∀ x, x ∈ l ↔ ∃ n, getNode g x = some n ∧ rel n = [] ∧ n.ntype = t := by
  obtain ⟨res, h1, h2, h3⟩ := he.spec hg
  obtain ⟨m, e1, e2, e3⟩ := ofType_eq (g := g) t res (fun x hx => by obtain ⟨n, hn, _⟩ := (h3 x).1 hx; exact ⟨n, hn⟩)
  refine ⟨m, by simp [endsOfType, h1, e1], h2.sublist e2, ?_⟩
  intro x
  rw [e3, h3]
  constructor
  · rintro ⟨⟨n, hn, hr⟩, n', hn', ht⟩
    rw [hn] at hn'; injection hn' with hn'; subst hn'; exact ⟨n, hn, hr, ht⟩
  · rintro ⟨n, hn, hr, ht⟩; exact ⟨⟨n, hn, hr⟩, n, hn, ht⟩

/-- removing doomed nodes does not change which other nodes are doomed -/
theorem doomed_restrict (he : Ends ends rel) {g : Graph T D} {t : T} {S : List Str} (hS : ∀ x ∈ S, Doomed g rel t x) (x : Str) :
    Doomed (restrict g S) rel t x ↔ Doomed g rel t x ∧ x ∉ S := by
  constructor
  · intro h
    induction h with
    | @mk x n hn ht _ ih =>
      have hx : x ∉ S := by intro hx; rw [getNode_restrict] at hn; simp [hx] at hn
      refine ⟨?_, hx⟩
      cases hg : getNode g x with
      | none => rw [getNode_restrict, hg] at hn; simp at hn
      | some n0 =>
        obtain ⟨m, hm, e1, e2⟩ := he.rel_restrict (S := S) hg hx
        rw [hn] at hm; injection hm with hm; subst hm
        refine Doomed.mk hg (by rw [← e1]; exact ht) ?_
        intro y hy
        by_cases hyS : y ∈ S
        · exact hS y hyS
        · exact (ih y (by rw [e2]; simp [hy, hyS])).1
  · rintro ⟨h, hx⟩
    induction h with
    | @mk x n hn ht _ ih =>
      obtain ⟨m, hm, e1, e2⟩ := he.rel_restrict (S := S) hn hx
      refine Doomed.mk hm (by rw [e1]; exact ht) ?_
      intro y hy
      rw [e2] at hy
      have := List.mem_filter.1 hy
      exact ih y this.1 (by simpa using this.2)

theorem removeLoop_spec (he : Ends ends rel) (base : Str → Str) (t : T) (f : Nat) : ∀ {g : Graph T D}, WF g → g.nodes.length < f →
    ∃ l, removeLoop ends base t f g = (.ok (l.map base), restrict g l) ∧ l.Nodup ∧ ∀ x, x ∈ l ↔ Doomed g rel t x := by
  induction f with
  | zero => intro g _ h; omega
  | succ f ih =>
    intro g hg hlen
    obtain ⟨l, h1, h2, h3⟩ := endsOfType_spec he t hg
    have hS : ∀ x ∈ l, Doomed g rel t x := by
      intro x hx
      obtain ⟨n, hn, hr, ht⟩ := (h3 x).1 hx
      exact Doomed.mk hn ht (by rw [hr]; simp)
    cases l with
    | nil =>
      refine ⟨[], by simp [removeLoop, h1, restrict_nil], List.nodup_nil, ?_⟩
      intro x
      constructor
      · intro h; cases h
      · intro h
        exfalso
        induction h with
        | @mk x n hn ht _ ih =>
          cases hr : rel n with
          | nil => exact absurd ((h3 x).2 ⟨n, hn, hr, ht⟩) (by simp)
          | cons y r => exact ih y (by rw [hr]; simp)
    | cons a r =>
      obtain ⟨l, hl⟩ : ∃ l, l = a :: r := ⟨_, rfl⟩
      rw [← hl] at h1 h2 h3 hS
      have hrem := removeAllIds_eq base l hg h2 (fun x hx => by obtain ⟨n, hn, _⟩ := (h3 x).1 hx; exact ⟨n, hn⟩)
      have hlt : (restrict g l).nodes.length < f := by
        have hk : ((Dict.keys g.nodes).filter (fun x => x ∉ l)).length < (Dict.keys g.nodes).length := by
          apply List.length_filter_lt_length_iff_exists.2
          obtain ⟨n, hn, _⟩ := (h3 a).1 (by simp [hl])
          exact ⟨a, (hasNode_iff_mem_keys g a).1 ⟨n, hn⟩, by simp [hl]⟩
        have : (restrict g l).nodes.length = ((Dict.keys g.nodes).filter (fun x => x ∉ l)).length := by
          rw [← keys_restrict, Dict.keys_length]
        rw [Dict.keys_length] at hk
        omega
      obtain ⟨m, e1, e2, e3⟩ := ih (wf_restrict hg l) hlt
      refine ⟨l ++ m, ?_, ?_, ?_⟩
      · have : removeLoop ends base t (f + 1) g = (.ok (l.map base ++ m.map base), restrict (restrict g l) m) := by
          subst hl
          simp only [removeLoop, h1, hrem, e1]
        rw [this, restrict_restrict, List.map_append]
      · rw [List.nodup_append]
        refine ⟨h2, e2, ?_⟩
        rintro x hx y hy rfl
        exact ((doomed_restrict he hS x).1 ((e3 x).1 hy)).2 hx
      · intro x
        rw [List.mem_append, e3, doomed_restrict he hS]
        constructor
        · rintro (h | h)
          · exact hS x h
          · exact h.1
        · intro h
          by_cases hx : x ∈ l
          · exact .inl hx
          · exact .inr ⟨h, hx⟩

theorem removeLeafs_spec (base : Str → Str) (t : T) {g : Graph T D} (hg : WF g) :
    ∃ l, removeLeafsOfType base t g = (.ok (l.map base), restrict g l) ∧ l.Nodup ∧ ∀ x, x ∈ l ↔ Doomed g Node.children t x :=
  removeLoop_spec tails_ends base t _ hg (Nat.lt_succ_self _)

theorem removeHeads_spec (base : Str → Str) (t : T) {g : Graph T D} (hg : WF g) :
    ∃ l, removeHeadsOfType base t g = (.ok (l.map base), restrict g l) ∧ l.Nodup ∧ ∀ x, x ∈ l ↔ Doomed g Node.parents t x :=
  removeLoop_spec heads_ends base t _ hg (Nat.lt_succ_self _)

/-- a node that is not doomed has the wrong type or a surviving neighbour -/
theorem Doomed.of_all {g : Graph T D} {t : T} {x : Str} {n : Node T D} (hn : getNode g x = some n) (ht : n.ntype = t)
    (h : ¬ Doomed g rel t x) : ∃ y ∈ rel n, ¬ Doomed g rel t y := by
  apply Classical.byContradiction
  intro hc
  apply h
  refine Doomed.mk hn ht ?_
  intro y hy
  apply Classical.byContradiction
  intro hy'
  exact hc ⟨y, hy, hy'⟩

variable {F : Type}

theorem removeNamed_ok (t : NType) (l : List Str) : ∀ {g : SGraph F}, WF g → (l.map (graphId t)).Nodup →
    (∀ x ∈ l, HasNode g (graphId t x)) → removeNamed t l g = (.ok (), restrict g (l.map (graphId t))) := by
  induction l with
  | nil => intro g _ _ _; simp [removeNamed, restrict_nil]
  | cons x r ih =>
    intro g hg hn hx
    obtain ⟨n, hxn⟩ := hx x (by simp)
    have hr := List.nodup_cons.1 hn
    have := ih (wf_restrict hg [graphId t x]) hr.2 (by
      intro y hy
      rw [hasNode_restrict]
      refine ⟨hx y (by simp [hy]), ?_⟩
      simp
      intro e
      exact hr.1 (List.mem_map.2 ⟨y, hy, e⟩))
    simp only [removeNamed, removeNode_eq hg hxn, this, restrict_restrict]
    rfl

theorem removeNamed_restrict (t : NType) (l : List Str) : ∀ {g : SGraph F}, WF g →
    ∃ r S, removeNamed t l g = (r, restrict g S) := by
  induction l with
  | nil => intro g _; exact ⟨_, [], by rw [restrict_nil]; rfl⟩
  | cons x r ih =>
    intro g hg
    by_cases hx : HasNode g (graphId t x)
    · obtain ⟨n, hn⟩ := hx
      obtain ⟨e, S, hS⟩ := ih (wf_restrict hg [graphId t x])
      refine ⟨e, [graphId t x] ++ S, ?_⟩
      simp only [removeNamed, removeNode_eq hg hn, hS, restrict_restrict]
    · refine ⟨.error .value, [], ?_⟩
      simp only [removeNamed, removeNode_missing hx, restrict_nil]

end Container
end Spine
