import Verif.Spec.Graph
import Verif.Lemmas.Dict
import Verif.Lemmas.List
/- Effect of each mutating call on lookups, and preservation of well-formedness. -/
namespace Spine
namespace Graph
variable {T D : Type}

theorem hasNode_iff_mem_keys (g : Graph T D) (x : Str) : HasNode g x ↔ x ∈ Dict.keys g.nodes :=
  Dict.get?_isSome_iff g.nodes x

/-! ### generate_unique_id -/

theorem skipUsed_some {nodes : Dict (Node T D)} {f n m : Nat} (h : skipUsed nodes f n = some m) :
    n ≤ m ∧ natStr m ∉ Dict.keys nodes ∧ ∀ i, n ≤ i → i < m → natStr i ∈ Dict.keys nodes := by
  induction f generalizing n with
  | zero => simp [skipUsed] at h
  | succ f ih =>
    simp only [skipUsed] at h
    split at h
    · rename_i hu
      obtain ⟨h1, h2, h3⟩ := ih h
      refine ⟨by omega, h2, ?_⟩
      intro i hi him
      by_cases e : i = n
      · subst e; exact (Dict.has_iff_mem_keys _ _).1 hu
      · exact h3 i (by omega) him
    · rename_i hu
      simp at h; subst h
      refine ⟨Nat.le_refl _, ?_, ?_⟩
      · intro hm; exact hu ((Dict.has_iff_mem_keys _ _).2 hm)
      · intro i h1 h2; omega

theorem skipUsed_none {nodes : Dict (Node T D)} {f n : Nat} (h : skipUsed nodes f n = none) :
    ∀ i, i < f → natStr (n + i) ∈ Dict.keys nodes := by
  induction f generalizing n with
  | zero => intro i hi; omega
  | succ f ih =>
    simp only [skipUsed] at h
    split at h
    · rename_i hu
      intro i hi
      cases i with
      | zero => exact (Dict.has_iff_mem_keys _ _).1 hu
      | succ i => have := ih h i (by omega); rwa [Nat.add_right_comm, Nat.add_assoc] at this
    · simp at h

theorem skipUsed_ne_none (nodes : Dict (Node T D)) (n : Nat) : skipUsed nodes (nodes.length + 1) n ≠ none := by
  intro h
  have h := skipUsed_none h
  have hl := length_le_of_nodup_subset (l := (List.range (nodes.length + 1)).map (fun i => natStr (n + i)))
    (m := Dict.keys nodes)
    (by
      unfold List.Nodup
      rw [List.pairwise_map]
      refine List.Pairwise.imp ?_ List.nodup_range
      intro a b hab e
      have := natStr_inj e
      omega)
    (by
      intro x hx
      obtain ⟨i, hi, rfl⟩ := List.mem_map.1 hx
      exact h i (List.mem_range.1 hi))
  simp [Dict.keys_length] at hl
  omega

/-- `generate_unique_id` always returns, with the first unused number after the counter -/
theorem genId_spec (g : Graph T D) : ∃ m, genId g = (.ok (natStr m), { g with idGen := m }) ∧ g.idGen < m ∧
    natStr m ∉ Dict.keys g.nodes ∧ ∀ i, g.idGen < i → i < m → natStr i ∈ Dict.keys g.nodes := by
  unfold genId
  cases h : skipUsed g.nodes (g.nodes.length + 1) (g.idGen + 1) with
  | none => exact absurd h (skipUsed_ne_none _ _)
  | some m =>
    obtain ⟨h1, h2, h3⟩ := skipUsed_some h
    exact ⟨m, rfl, by omega, h2, fun i hi => h3 i (by omega)⟩

theorem getNode_idGen (g : Graph T D) (m : Nat) (x : Str) : getNode { g with idGen := m } x = getNode g x := rfl

/-- changing the two counters does not matter for well-formedness -/
theorem WF.of_nodes {g h : Graph T D} (hg : WF g) (e : h.nodes = g.nodes) : WF h := by
  cases g; cases h; simp only at e; subst e
  exact ⟨hg.keys_nodup, hg.id_eq, hg.child_link, hg.parent_link, hg.children_nodup, hg.parents_nodup, hg.no_self, hg.allowed⟩

theorem wf_empty : WF (empty : Graph T D) := by
  constructor <;> simp [empty, getNode, Dict.get?, Dict.keys]

/-! ### add_node -/

/-- the node created by `add_node` -/
def newNode (fac : Factory T) (i : Str) (data : D) (ty : T) (ord : Str) : Node T D :=
  { id := i, data := data, ntype := (fac ty).1, order := ord, forbidden := (fac ty).2, children := [], parents := [] }

/-- full description of `add_node` -/
theorem addNode_spec (fac : Factory T) (g : Graph T D) (nid : IdArg) (data : D) (ty : T) :
    ∃ m, g.idGen < m ∧ natStr m ∉ Dict.keys g.nodes ∧
    ((nid = .nonStr ∧ addNode fac g nid data ty = (.error .type, { g with idGen := m })) ∨
     (∃ s, nid = .str s ∧ s ∈ Dict.keys g.nodes ∧ addNode fac g nid data ty = (.error .value, { g with idGen := m })) ∨
     (∃ i, (nid = .absent ∧ i = natStr m ∨ nid = .str i) ∧ i ∉ Dict.keys g.nodes ∧
       addNode fac g nid data ty =
        (.ok i, Graph.mk m (g.counter + 1) (g.nodes ++ [(i, newNode fac i data ty (natStr m))])))) := by
  obtain ⟨m, h, h1, h2, -⟩ := genId_spec g
  refine ⟨m, h1, h2, ?_⟩
  unfold addNode
  rw [h]
  cases nid with
  | nonStr => left; simp
  | absent =>
    right; right
    refine ⟨natStr m, Or.inl ⟨rfl, rfl⟩, h2, ?_⟩
    simp only [Dict.set_of_not_mem _ _ _ h2, newNode]
  | str s =>
    by_cases hs : s ∈ Dict.keys g.nodes
    · right; left
      refine ⟨s, rfl, hs, ?_⟩
      simp [(Dict.has_iff_mem_keys _ _).2 hs]
    · right; right
      refine ⟨s, Or.inr rfl, hs, ?_⟩
      have : ¬ Dict.has g.nodes s = true := fun h => hs ((Dict.has_iff_mem_keys _ _).1 h)
      simp [this, Dict.set_of_not_mem _ _ _ hs, newNode]

theorem get?_append_single {α : Type} (d : Dict α) (i : Str) (v : α) (hi : i ∉ Dict.keys d) (x : Str) :
    Dict.get? (d ++ [(i, v)]) x = if x = i then some v else Dict.get? d x := by
  rw [← Dict.set_of_not_mem _ _ _ hi, Dict.get?_set]

theorem wf_insert {g h : Graph T D} (hg : WF g) {i : Str} {n : Node T D} (hi : i ∉ Dict.keys g.nodes)
    (hid : n.id = i) (hc : n.children = []) (hp : n.parents = []) (e : h.nodes = g.nodes ++ [(i, n)]) : WF h := by
  have look : ∀ x, getNode h x = if x = i then some n else getNode g x := by
    intro x; simp only [getNode, e]; exact get?_append_single _ _ _ hi x
  have fresh : ∀ {x m}, getNode g x = some m → x ≠ i := by
    rintro x m h rfl; exact hi (Dict.mem_keys_of_get? h)
  have old : ∀ {x m}, getNode g x = some m → getNode h x = some m := by
    intro x m hx; rw [look, if_neg (fresh hx)]; exact hx
  have inv : ∀ {x m}, getNode h x = some m → (x = i ∧ m = n) ∨ getNode g x = some m := by
    intro x m hx; rw [look] at hx; split at hx
    · left; simp at hx; exact ⟨by assumption, hx.symm⟩
    · right; exact hx
  constructor
  · rw [e, ← Dict.set_of_not_mem _ _ _ hi]; exact Dict.nodup_keys_set hg.keys_nodup _ _
  · intro k m hk
    rcases inv hk with ⟨rfl, rfl⟩ | h
    · exact hid
    · exact hg.id_eq h
  · intro p m c hk hcm
    rcases inv hk with ⟨rfl, rfl⟩ | h
    · simp [hc] at hcm
    · obtain ⟨m', h1, h2⟩ := hg.child_link h hcm
      exact ⟨m', old h1, h2⟩
  · intro p m c hk hcm
    rcases inv hk with ⟨rfl, rfl⟩ | h
    · simp [hp] at hcm
    · obtain ⟨m', h1, h2⟩ := hg.parent_link h hcm
      exact ⟨m', old h1, h2⟩
  · intro p m hk
    rcases inv hk with ⟨rfl, rfl⟩ | h
    · simp [hc]
    · exact hg.children_nodup h
  · intro p m hk
    rcases inv hk with ⟨rfl, rfl⟩ | h
    · simp [hp]
    · exact hg.parents_nodup h
  · intro p m hk
    rcases inv hk with ⟨rfl, rfl⟩ | h
    · simp [hc]
    · exact hg.no_self h
  · intro p m c m' hk hcm hk'
    rcases inv hk with ⟨rfl, rfl⟩ | h
    · simp [hc] at hcm
    · obtain ⟨m'', h1, h2⟩ := hg.child_link h hcm
      rw [old h1] at hk'; simp at hk'; subst hk'
      exact hg.allowed h hcm h1

theorem wf_addNode {g : Graph T D} (hg : WF g) (fac : Factory T) (nid : IdArg) (data : D) (ty : T) :
    WF (addNode fac g nid data ty).2 := by
  obtain ⟨m, -, -, h⟩ := addNode_spec fac g nid data ty
  rcases h with ⟨-, h⟩ | ⟨s, -, -, h⟩ | ⟨i, -, hi, h⟩
  · rw [h]; exact hg.of_nodes rfl
  · rw [h]; exact hg.of_nodes rfl
  · rw [h]; exact wf_insert hg hi rfl rfl rfl rfl

/-! ### add_edge -/

theorem mem_addLink (l : List Str) (i x : Str) : x ∈ addLink l i ↔ x ∈ l ∨ x = i := by
  unfold addLink; split
  · constructor
    · exact Or.inl
    · rintro (h | rfl) <;> assumption
  · simp

theorem nodup_addLink {l : List Str} (h : l.Nodup) (i : Str) : (addLink l i).Nodup := by
  unfold addLink; split
  · exact h
  · rename_i hi
    rw [List.nodup_append]
    refine ⟨h, by simp, ?_⟩
    intro a ha b hb; simp at hb; subst hb; rintro rfl; exact hi ha

/-- the graph with the edge `p → c` added -/
def linked (g : Graph T D) (p c : Str) : Graph T D :=
  let nodes := Dict.modify g.nodes p (fun n => { n with children := addLink n.children c })
  { g with nodes := Dict.modify nodes c (fun n => { n with parents := addLink n.parents p }) }

theorem getNode_linked (g : Graph T D) (p c x : Str) : getNode (linked g p c) x = (getNode g x).map (fun n =>
    { n with
      children := if x = p then addLink n.children c else n.children
      parents := if x = c then addLink n.parents p else n.parents }) := by
  simp only [getNode, linked, Dict.get?_modify]
  by_cases h1 : x = p <;> by_cases h2 : x = c <;> cases Dict.get? g.nodes x <;> simp_all

theorem addEdge_spec [DecidableEq T] {g : Graph T D} (hg : WF g) (p c : Str) :
    (∃ n1 n2, getNode g p = some n1 ∧ getNode g c = some n2 ∧ n2.ntype ∉ n1.forbidden ∧ p ≠ c ∧
      addEdge g p c = (.ok (), linked g p c)) ∨
    (∃ n1 n2, getNode g p = some n1 ∧ getNode g c = some n2 ∧ n2.ntype ∉ n1.forbidden ∧ p = c ∧
      addEdge g p c = (.error .value, g)) ∨
    (∃ n1 n2, getNode g p = some n1 ∧ getNode g c = some n2 ∧ n2.ntype ∈ n1.forbidden ∧
      addEdge g p c = (.error .type, g)) ∨
    (¬ HasNode g p ∧ ¬ HasNode g c ∧ addEdge g p c = (.error .attribute, g)) ∨
    ((HasNode g p ↔ ¬ HasNode g c) ∧ addEdge g p c = (.error .type, g)) := by
  cases h1 : getNode g p with
  | none =>
    cases h2 : getNode g c with
    | none =>
      right; right; right; left
      refine ⟨by simp [HasNode, h1], by simp [HasNode, h2], ?_⟩
      simp [addEdge, h1, h2]
    | some n2 =>
      right; right; right; right
      refine ⟨by simp [HasNode, h1, h2], ?_⟩
      simp [addEdge, h1, h2, addParent]
  | some n1 =>
    cases h2 : getNode g c with
    | none =>
      right; right; right; right
      refine ⟨by simp [HasNode, h1, h2], ?_⟩
      simp [addEdge, h1, h2, addChild]
    | some n2 =>
      by_cases hf : n2.ntype ∈ n1.forbidden
      · right; right; left
        exact ⟨n1, n2, rfl, rfl, hf, by simp [addEdge, h1, h2, addChild, hf]⟩
      · by_cases e : p = c
        · right; left
          refine ⟨n1, n2, rfl, rfl, hf, e, ?_⟩
          subst e
          simp [addEdge, addChild, h1]
          rw [h1] at h2; simp at h2; subst h2
          simp [hf]
        · left
          refine ⟨n1, n2, rfl, rfl, hf, e, ?_⟩
          have i1 := hg.id_eq h1
          have i2 := hg.id_eq h2
          simp [addEdge, addChild, addParent, h1, h2, hf, e, i1, i2, linked]

theorem wf_linked {g : Graph T D} (hg : WF g) {p c : Str} {n1 n2 : Node T D} (h1 : getNode g p = some n1)
    (h2 : getNode g c = some n2) (hf : n2.ntype ∉ n1.forbidden) (hne : p ≠ c) : WF (linked g p c) := by
  have inv : ∀ {x m}, getNode (linked g p c) x = some m → ∃ m0, getNode g x = some m0 ∧ m.id = m0.id ∧
      m.ntype = m0.ntype ∧ m.forbidden = m0.forbidden ∧
      m.children = (if x = p then addLink m0.children c else m0.children) ∧
      m.parents = (if x = c then addLink m0.parents p else m0.parents) := by
    intro x m h
    rw [getNode_linked] at h
    cases hx : getNode g x with
    | none => simp [hx] at h
    | some m0 => simp [hx] at h; subst h; exact ⟨m0, rfl, rfl, rfl, rfl, rfl, rfl⟩
  have fwd : ∀ {x m0}, getNode g x = some m0 → ∃ m, getNode (linked g p c) x = some m ∧
      m.children = (if x = p then addLink m0.children c else m0.children) ∧
      m.parents = (if x = c then addLink m0.parents p else m0.parents) := by
    intro x m0 h; rw [getNode_linked, h]; exact ⟨_, rfl, rfl, rfl⟩
  constructor
  · simp only [linked, Dict.keys_modify]; exact hg.keys_nodup
  · intro k n hk; obtain ⟨m0, a, b, -⟩ := inv hk; rw [b]; exact hg.id_eq a
  · intro q n d hq hd
    obtain ⟨m0, a, -, -, -, b, -⟩ := inv hq
    have : d ∈ m0.children ∨ (q = p ∧ d = c) := by
      rw [b] at hd; split at hd
      · rcases (mem_addLink _ _ _).1 hd with h | h
        · exact Or.inl h
        · exact Or.inr ⟨by assumption, h⟩
      · exact Or.inl hd
    rcases this with h | ⟨rfl, rfl⟩
    · obtain ⟨m1, e1, e2⟩ := hg.child_link a h
      obtain ⟨m2, f1, -, f3⟩ := fwd e1
      refine ⟨m2, f1, ?_⟩
      rw [f3]; split
      · exact (mem_addLink _ _ _).2 (Or.inl e2)
      · exact e2
    · obtain ⟨m2, f1, -, f3⟩ := fwd h2
      refine ⟨m2, f1, ?_⟩
      rw [f3]; simp [mem_addLink]
  · intro d m q hd hq
    obtain ⟨m0, a, -, -, -, -, b⟩ := inv hd
    have : q ∈ m0.parents ∨ (q = p ∧ d = c) := by
      rw [b] at hq; split at hq
      · rcases (mem_addLink _ _ _).1 hq with h | h
        · exact Or.inl h
        · exact Or.inr ⟨h, by assumption⟩
      · exact Or.inl hq
    rcases this with h | ⟨rfl, rfl⟩
    · obtain ⟨m1, e1, e2⟩ := hg.parent_link a h
      obtain ⟨m2, f1, f2, -⟩ := fwd e1
      refine ⟨m2, f1, ?_⟩
      rw [f2]; split
      · exact (mem_addLink _ _ _).2 (Or.inl e2)
      · exact e2
    · obtain ⟨m2, f1, f2, -⟩ := fwd h1
      refine ⟨m2, f1, ?_⟩
      rw [f2]; simp [mem_addLink]
  · intro q n hq
    obtain ⟨m0, a, -, -, -, b, -⟩ := inv hq
    rw [b]; split
    · exact nodup_addLink (hg.children_nodup a) _
    · exact hg.children_nodup a
  · intro q n hq
    obtain ⟨m0, a, -, -, -, -, b⟩ := inv hq
    rw [b]; split
    · exact nodup_addLink (hg.parents_nodup a) _
    · exact hg.parents_nodup a
  · intro q n hq
    obtain ⟨m0, a, -, -, -, b, -⟩ := inv hq
    rw [b]; split
    · rename_i e; subst e
      rw [mem_addLink]; rintro (h | h)
      · exact hg.no_self a h
      · exact hne h
    · exact hg.no_self a
  · intro q n d m hq hd hm
    obtain ⟨n0, a, -, -, fa, b, -⟩ := inv hq
    obtain ⟨m0, a', -, ty, -, -, -⟩ := inv hm
    rw [ty, fa]
    rw [b] at hd; split at hd
    · rename_i e; subst e
      rcases (mem_addLink _ _ _).1 hd with h | h
      · exact hg.allowed a h a'
      · subst h; rw [h1] at a; rw [h2] at a'; simp at a a'; subst a a'; exact hf
    · exact hg.allowed a hd a'

theorem wf_addEdge [DecidableEq T] {g : Graph T D} (hg : WF g) (p c : Str) : WF (addEdge g p c).2 := by
  rcases addEdge_spec hg p c with ⟨n1, n2, h1, h2, hf, hne, h⟩ | ⟨_, _, _, _, _, _, h⟩ | ⟨_, _, _, _, _, h⟩ | ⟨_, _, h⟩ | ⟨_, h⟩ <;> rw [h]
  · exact wf_linked hg h1 h2 hf hne
  all_goals exact hg

/-! ### remove_edge -/

/-- the graph without the edge `p → c` -/
def unlinked (g : Graph T D) (p c : Str) : Graph T D :=
  let nodes := Dict.modify g.nodes p (fun n => { n with children := n.children.filter (· ≠ c) })
  { g with nodes := Dict.modify nodes c (fun n => { n with parents := n.parents.filter (· ≠ p) }) }

theorem getNode_unlinked (g : Graph T D) (p c x : Str) : getNode (unlinked g p c) x = (getNode g x).map (fun n =>
    { n with
      children := if x = p then n.children.filter (· ≠ c) else n.children
      parents := if x = c then n.parents.filter (· ≠ p) else n.parents }) := by
  simp only [getNode, unlinked, Dict.get?_modify]
  by_cases h1 : x = p <;> by_cases h2 : x = c <;> cases Dict.get? g.nodes x <;> simp_all

theorem removeEdge_spec {g : Graph T D} (hg : WF g) (p c : Str) :
    (Edge g p c ∧ removeEdge g p c = (.ok (), unlinked g p c)) ∨
    (¬ Edge g p c ∧ HasNode g p ∧ removeEdge g p c = (.error .key, g)) ∨
    (¬ HasNode g p ∧ HasNode g c ∧ removeEdge g p c = (.error .key, g)) ∨
    (¬ HasNode g p ∧ ¬ HasNode g c ∧ removeEdge g p c = (.error .attribute, g)) := by
  cases h1 : getNode g p with
  | none =>
    right; right
    have np : ¬ HasNode g p := by simp [HasNode, h1]
    cases h2 : getNode g c with
    | none =>
      right
      refine ⟨np, by simp [HasNode, h2], ?_⟩
      simp [removeEdge, h1, delParent, h2]
    | some n2 =>
      left
      refine ⟨np, by simp [HasNode, h2], ?_⟩
      have : p ∉ n2.parents := by
        intro h; obtain ⟨n, hn, -⟩ := hg.parent_link h2 h; rw [h1] at hn; simp at hn
      simp [removeEdge, h1, delParent, h2, this]
  | some n1 =>
    by_cases hc : c ∈ n1.children
    · left
      refine ⟨⟨n1, h1, hc⟩, ?_⟩
      obtain ⟨m, h2, hm⟩ := hg.child_link h1 hc
      have hne : ¬ c = p := by rintro rfl; exact hg.no_self h1 hc
      have hl : getNode { g with nodes := Dict.modify g.nodes p fun n => { n with children := n.children.filter (· ≠ c) } } c = some m := by
        simp only [getNode, Dict.get?_modify, if_neg hne]; exact h2
      simp only [removeEdge, h1, delChild, hc, if_true, delParent]
      rw [hl]
      simp [hm, unlinked]
    · right; left
      refine ⟨?_, ⟨n1, h1⟩, ?_⟩
      · rintro ⟨n, hn, h⟩; rw [h1] at hn; simp at hn; subst hn; exact hc h
      · simp [removeEdge, h1, delChild, hc]

theorem wf_unlinked {g : Graph T D} (hg : WF g) (p c : Str) : WF (unlinked g p c) := by
  have inv : ∀ {x m}, getNode (unlinked g p c) x = some m → ∃ m0, getNode g x = some m0 ∧ m.id = m0.id ∧
      m.ntype = m0.ntype ∧ m.forbidden = m0.forbidden ∧
      m.children = (if x = p then m0.children.filter (· ≠ c) else m0.children) ∧
      m.parents = (if x = c then m0.parents.filter (· ≠ p) else m0.parents) := by
    intro x m h
    rw [getNode_unlinked] at h
    cases hx : getNode g x with
    | none => simp [hx] at h
    | some m0 => simp only [hx, Option.map_some, Option.some.injEq] at h; subst h; exact ⟨m0, rfl, rfl, rfl, rfl, rfl, rfl⟩
  have fwd : ∀ {x m0}, getNode g x = some m0 → ∃ m, getNode (unlinked g p c) x = some m ∧
      m.children = (if x = p then m0.children.filter (· ≠ c) else m0.children) ∧
      m.parents = (if x = c then m0.parents.filter (· ≠ p) else m0.parents) := by
    intro x m0 h; rw [getNode_unlinked, h]; exact ⟨_, rfl, rfl, rfl⟩
  constructor
  · simp only [unlinked, Dict.keys_modify]; exact hg.keys_nodup
  · intro k n hk; obtain ⟨m0, a, b, -⟩ := inv hk; rw [b]; exact hg.id_eq a
  · intro q n d hq hd
    obtain ⟨m0, a, -, -, -, b, -⟩ := inv hq
    have hd0 : d ∈ m0.children ∧ ¬ (q = p ∧ d = c) := by
      rw [b] at hd; split at hd
      · simp at hd; exact ⟨hd.1, fun h => hd.2 h.2⟩
      · exact ⟨hd, fun h => by simp_all⟩
    obtain ⟨m1, e1, e2⟩ := hg.child_link a hd0.1
    obtain ⟨m2, f1, -, f3⟩ := fwd e1
    refine ⟨m2, f1, ?_⟩
    rw [f3]; split
    · simp; exact ⟨e2, fun e => hd0.2 ⟨e, by assumption⟩⟩
    · exact e2
  · intro d m q hd hq
    obtain ⟨m0, a, -, -, -, -, b⟩ := inv hd
    have hd0 : q ∈ m0.parents ∧ ¬ (q = p ∧ d = c) := by
      rw [b] at hq; split at hq
      · simp at hq; exact ⟨hq.1, fun h => hq.2 h.1⟩
      · exact ⟨hq, fun h => by simp_all⟩
    obtain ⟨m1, e1, e2⟩ := hg.parent_link a hd0.1
    obtain ⟨m2, f1, f2, -⟩ := fwd e1
    refine ⟨m2, f1, ?_⟩
    rw [f2]; split
    · simp; exact ⟨e2, fun e => hd0.2 ⟨by assumption, e⟩⟩
    · exact e2
  · intro q n hq
    obtain ⟨m0, a, -, -, -, b, -⟩ := inv hq
    rw [b]; split
    · exact (hg.children_nodup a).sublist List.filter_sublist
    · exact hg.children_nodup a
  · intro q n hq
    obtain ⟨m0, a, -, -, -, -, b⟩ := inv hq
    rw [b]; split
    · exact (hg.parents_nodup a).sublist List.filter_sublist
    · exact hg.parents_nodup a
  · intro q n hq
    obtain ⟨m0, a, -, -, -, b, -⟩ := inv hq
    have := hg.no_self a
    rw [b]; split
    · simp; intro h; exact absurd h this
    · exact this
  · intro q n d m hq hd hm
    obtain ⟨n0, a, -, -, fa, b, -⟩ := inv hq
    obtain ⟨m0, a', -, ty, -, -, -⟩ := inv hm
    rw [ty, fa]
    rw [b] at hd; split at hd
    · simp at hd; exact hg.allowed a hd.1 a'
    · exact hg.allowed a hd a'

theorem wf_removeEdge {g : Graph T D} (hg : WF g) (p c : Str) : WF (removeEdge g p c).2 := by
  rcases removeEdge_spec hg p c with ⟨_, h⟩ | ⟨_, _, h⟩ | ⟨_, _, h⟩ | ⟨_, _, h⟩ <;> rw [h]
  · exact wf_unlinked hg p c
  all_goals exact hg

/-! ### remove_node_by_id -/

theorem dropParentLinks_spec (id : Str) (cs : List Str) : ∀ (g : Graph T D), cs.Nodup →
    (∀ c ∈ cs, ∃ m, getNode g c = some m ∧ id ∈ m.parents) →
    ∃ h, dropParentLinks id cs g = (.ok (), h) ∧ h.idGen = g.idGen ∧ h.counter = g.counter ∧
      Dict.keys h.nodes = Dict.keys g.nodes ∧
      ∀ x, getNode h x = (getNode g x).map (fun n =>
        { n with parents := if x ∈ cs then n.parents.filter (· ≠ id) else n.parents }) := by
  induction cs with
  | nil =>
    intro g _ _
    refine ⟨g, rfl, rfl, rfl, rfl, ?_⟩
    intro x; cases getNode g x <;> simp
  | cons c cs ih =>
    intro g hn hl
    obtain ⟨m, hm, hmp⟩ := hl c (by simp)
    have hn' := List.nodup_cons.1 hn
    simp only [dropParentLinks, delParent, hm, hmp, if_true]
    obtain ⟨h, e, e1, e2, e3, e4⟩ := ih
      { g with nodes := Dict.modify g.nodes c fun n => { n with parents := n.parents.filter (· ≠ id) } } hn'.2 (by
        intro d hd
        obtain ⟨k, hk, hkp⟩ := hl d (by simp [hd])
        have : d ≠ c := by rintro rfl; exact hn'.1 hd
        refine ⟨k, ?_, hkp⟩
        simp only [getNode, Dict.get?_modify, if_neg this]; exact hk)
    refine ⟨h, e, e1, e2, by rw [e3]; simp [Dict.keys_modify], ?_⟩
    intro x
    rw [e4]
    simp only [getNode, Dict.get?_modify, List.mem_cons]
    by_cases hx : x = c
    · subst hx
      simp only [if_true, true_or]
      cases Dict.get? g.nodes x <;> simp [hn'.1]
    · simp only [hx, if_false, false_or]

theorem dropChildLinks_spec (id : Str) (cs : List Str) : ∀ (g : Graph T D), cs.Nodup →
    (∀ c ∈ cs, ∃ m, getNode g c = some m ∧ id ∈ m.children) →
    ∃ h, dropChildLinks id cs g = (.ok (), h) ∧ h.idGen = g.idGen ∧ h.counter = g.counter ∧
      Dict.keys h.nodes = Dict.keys g.nodes ∧
      ∀ x, getNode h x = (getNode g x).map (fun n =>
        { n with children := if x ∈ cs then n.children.filter (· ≠ id) else n.children }) := by
  induction cs with
  | nil =>
    intro g _ _
    refine ⟨g, rfl, rfl, rfl, rfl, ?_⟩
    intro x; cases getNode g x <;> simp
  | cons c cs ih =>
    intro g hn hl
    obtain ⟨m, hm, hmp⟩ := hl c (by simp)
    have hn' := List.nodup_cons.1 hn
    simp only [dropChildLinks, delChild, hm, hmp, if_true]
    obtain ⟨h, e, e1, e2, e3, e4⟩ := ih
      { g with nodes := Dict.modify g.nodes c fun n => { n with children := n.children.filter (· ≠ id) } } hn'.2 (by
        intro d hd
        obtain ⟨k, hk, hkp⟩ := hl d (by simp [hd])
        have : d ≠ c := by rintro rfl; exact hn'.1 hd
        refine ⟨k, ?_, hkp⟩
        simp only [getNode, Dict.get?_modify, if_neg this]; exact hk)
    refine ⟨h, e, e1, e2, by rw [e3]; simp [Dict.keys_modify], ?_⟩
    intro x
    rw [e4]
    simp only [getNode, Dict.get?_modify, List.mem_cons]
    by_cases hx : x = c
    · subst hx
      simp only [if_true, true_or]
      cases Dict.get? g.nodes x <;> simp [hn'.1]
    · simp only [hx, if_false, false_or]

/-- full description of `remove_node_by_id` -/
theorem removeNode_spec {g : Graph T D} (hg : WF g) (id : Str) :
    (¬ HasNode g id ∧ removeNode g id = (.error .value, g)) ∨
    (∃ node h, getNode g id = some node ∧ removeNode g id = (.ok node, h) ∧ h.idGen = g.idGen ∧ h.counter = g.counter ∧
      Dict.keys h.nodes = (Dict.keys g.nodes).filter (· ≠ id) ∧
      ∀ x, getNode h x = if x = id then none else (getNode g x).map (fun n =>
        { n with children := n.children.filter (· ≠ id), parents := n.parents.filter (· ≠ id) })) := by
  cases hi : getNode g id with
  | none => left; exact ⟨by simp [HasNode, hi], by simp [removeNode, hi]⟩
  | some node =>
    right
    obtain ⟨h1, a1, a2, a3, a4, a5⟩ := dropParentLinks_spec id node.children g (hg.children_nodup hi)
      (fun c hc => hg.child_link hi hc)
    obtain ⟨h2, b1, b2, b3, b4, b5⟩ := dropChildLinks_spec id node.parents h1 (hg.parents_nodup hi) (by
      intro p hp
      obtain ⟨n, hn, hnc⟩ := hg.parent_link hi hp
      have e := a5 p
      rw [hn, Option.map_some] at e
      exact ⟨_, e, hnc⟩)
    refine ⟨node, { h2 with nodes := Dict.del h2.nodes id }, rfl, ?_, ?_, ?_, ?_, ?_⟩
    · simp only [removeNode, hi, a1, b1]
    · simp [b2, a2]
    · simp [b3, a3]
    · simp only [Dict.keys_del, b4, a4]
    · intro x
      have : getNode ({ h2 with nodes := Dict.del h2.nodes id } : Graph T D) x = if x = id then none else getNode h2 x := by
        simp only [getNode, Dict.get?_del]
      rw [this]
      split
      · rfl
      · rw [b5, a5]
        cases hx : getNode g x with
        | none => rfl
        | some n =>
          simp only [Option.map_some, Option.some.injEq]
          congr 1
          · split
            · rfl
            · rename_i hnp
              symm; rw [List.filter_eq_self]
              intro y hy; simp; rintro rfl
              obtain ⟨m, hm, hmp⟩ := hg.child_link hx hy
              rw [hi] at hm; simp at hm; subst hm
              exact hnp hmp
          · split
            · rfl
            · rename_i hnp
              symm; rw [List.filter_eq_self]
              intro y hy; simp; rintro rfl
              obtain ⟨m, hm, hmp⟩ := hg.parent_link hx hy
              rw [hi] at hm; simp at hm; subst hm
              exact hnp hmp

theorem wf_removeNode {g : Graph T D} (hg : WF g) (id : Str) : WF (removeNode g id).2 := by
  rcases removeNode_spec hg id with ⟨_, h⟩ | ⟨node, h', hi, h, -, -, hk, hl⟩ <;> rw [h]
  · exact hg
  simp only
  have inv : ∀ {x m}, getNode h' x = some m → x ≠ id ∧ ∃ m0, getNode g x = some m0 ∧ m.id = m0.id ∧
      m.ntype = m0.ntype ∧ m.forbidden = m0.forbidden ∧
      m.children = m0.children.filter (· ≠ id) ∧ m.parents = m0.parents.filter (· ≠ id) := by
    intro x m h
    rw [hl] at h
    split at h
    · simp at h
    · cases hx : getNode g x with
      | none => simp [hx] at h
      | some m0 =>
        simp only [hx, Option.map_some, Option.some.injEq] at h; subst h
        exact ⟨by assumption, m0, rfl, rfl, rfl, rfl, rfl, rfl⟩
  have fwd : ∀ {x m0}, x ≠ id → getNode g x = some m0 → ∃ m, getNode h' x = some m ∧
      m.children = m0.children.filter (· ≠ id) ∧ m.parents = m0.parents.filter (· ≠ id) := by
    intro x m0 hx h; rw [hl, if_neg hx, h]; exact ⟨_, rfl, rfl, rfl⟩
  constructor
  · rw [hk]; exact hg.keys_nodup.sublist List.filter_sublist
  · intro k n hk; obtain ⟨_, m0, a, b, -⟩ := inv hk; rw [b]; exact hg.id_eq a
  · intro q n d hq hd
    obtain ⟨hne, m0, a, -, -, -, b, -⟩ := inv hq
    rw [b] at hd; simp at hd
    obtain ⟨m1, e1, e2⟩ := hg.child_link a hd.1
    obtain ⟨m2, f1, -, f3⟩ := fwd hd.2 e1
    exact ⟨m2, f1, by rw [f3]; simp; exact ⟨e2, hne⟩⟩
  · intro q n d hq hd
    obtain ⟨hne, m0, a, -, -, -, -, b⟩ := inv hq
    rw [b] at hd; simp at hd
    obtain ⟨m1, e1, e2⟩ := hg.parent_link a hd.1
    obtain ⟨m2, f1, f2, -⟩ := fwd hd.2 e1
    exact ⟨m2, f1, by rw [f2]; simp; exact ⟨e2, hne⟩⟩
  · intro q n hq
    obtain ⟨-, m0, a, -, -, -, b, -⟩ := inv hq
    rw [b]; exact (hg.children_nodup a).sublist List.filter_sublist
  · intro q n hq
    obtain ⟨-, m0, a, -, -, -, -, b⟩ := inv hq
    rw [b]; exact (hg.parents_nodup a).sublist List.filter_sublist
  · intro q n hq
    obtain ⟨-, m0, a, -, -, -, b, -⟩ := inv hq
    rw [b]; simp; intro h; exact absurd h (hg.no_self a)
  · intro q n d m hq hd hm
    obtain ⟨-, n0, a, -, -, fa, b, -⟩ := inv hq
    obtain ⟨-, m0, a', -, ty, -, -, -⟩ := inv hm
    rw [ty, fa]
    rw [b] at hd; simp at hd
    exact hg.allowed a hd.1 a'

theorem wf_genId {g : Graph T D} (hg : WF g) : WF (genId g).2 := by
  obtain ⟨m, h, -⟩ := genId_spec g
  rw [h]; exact hg.of_nodes rfl

theorem wf_step [DecidableEq T] {g : Graph T D} (hg : WF g) (fac : Factory T) (op : Op T D) : WF (step fac g op) := by
  cases op with
  | addNode i d t => exact wf_addNode hg fac i d t
  | addEdge p c => exact wf_addEdge hg p c
  | removeEdge p c => exact wf_removeEdge hg p c
  | removeNode i => exact wf_removeNode hg i
  | genId => exact wf_genId hg

theorem wf_foldl [DecidableEq T] (fac : Factory T) (ops : List (Op T D)) : ∀ g, WF g → WF (ops.foldl (step fac) g) := by
  induction ops with
  | nil => intro g hg; exact hg
  | cons op ops ih => intro g hg; exact ih _ (wf_step hg fac op)

/-- every graph obtained by API calls is well formed -/
theorem wf_run [DecidableEq T] (fac : Factory T) (ops : List (Op T D)) : WF (run fac ops) := wf_foldl fac ops _ wf_empty

end Graph
end Spine
