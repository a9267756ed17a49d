import Verif.Lemmas.Build
/- The effect of the building commands on an abstract state, and the graph of a document. -/
set_option linter.unusedSectionVars false
namespace Spine
open JVal Graph
variable {F : Type}

/-- table of nodes (in insertion order) and list of edges -/
structure Abs (F : Type) where
  nodes : Dict (NType × (Int × JVal F))
  edges : List (Str × Str)

namespace Abs

def empty : Abs F := ⟨[], []⟩

/-- a link between two nodes of the table -/
def link (s : Abs F) (p c : Str) : Option (Abs F) :=
  match Dict.get? s.nodes p, Dict.get? s.nodes c with
  | some tp, some tc => if tc.1 ∈ (spineFactory tp.1).2 ∨ p = c then none else some { s with edges := s.edges ++ [(p, c)] }
  | _, _ => none

def step (s : Abs F) : Cmd F → Option (Abs F)
  | .node i d t => if Dict.has s.nodes i then none else some { s with nodes := s.nodes ++ [(i, (t, d))] }
  | .opt i d t => if Dict.has s.nodes i then some s else some { s with nodes := s.nodes ++ [(i, (t, d))] }
  | .edge p c => s.link p c
  | .from_ p c => if Dict.has s.nodes p then s.link p c else some s
  | .to_ p c => if Dict.has s.nodes c then s.link p c else some s

def steps (s : Abs F) : List (Cmd F) → Option (Abs F)
  | [] => some s
  | c :: cs => match s.step c with
    | some s' => s'.steps cs
    | none => none

/-- the graph shows exactly the nodes and edges of the state -/
structure Repr (g : SGraph F) (s : Abs F) : Prop where
  wf : WF g
  nodes : g.nodes.map (fun p => (p.1, (p.2.ntype, p.2.data))) = s.nodes
  typed : ∀ {x n}, getNode g x = some n → n.forbidden = (spineFactory n.ntype).2
  edge : ∀ p c, Edge g p c ↔ (p, c) ∈ s.edges

theorem repr_empty : Repr (Graph.empty : SGraph F) Abs.empty :=
  ⟨wf_empty, rfl, by intro x n h; simp [getNode, Graph.empty, Dict.get?] at h,
    by intro p c; simp [Edge, getNode, Graph.empty, Dict.get?, Abs.empty]⟩

theorem Repr.get? {g : SGraph F} {s : Abs F} (h : Repr g s) (x : Str) :
    Dict.get? s.nodes x = (getNode g x).map (fun n => (n.ntype, n.data)) := by
  rw [← h.nodes]; exact get?_map_snd g.nodes (fun n => (n.ntype, n.data)) x

theorem Repr.keys {g : SGraph F} {s : Abs F} (h : Repr g s) : Dict.keys s.nodes = Dict.keys g.nodes := by
  rw [← h.nodes]; simp [Dict.keys, List.map_map, Function.comp_def]

theorem Repr.has {g : SGraph F} {s : Abs F} (h : Repr g s) (x : Str) : Dict.has s.nodes x = true ↔ HasNode g x := by
  rw [Dict.has_iff_mem_keys, h.keys, hasNode_iff_mem_keys]

theorem factory_fst (t : NType) : (spineFactory t).1 = t := by cases t <;> rfl

theorem Repr.insert {g g' : SGraph F} {s : Abs F} (h : Repr g s) {i : Str} {d : Int × JVal F} {t : NType} {o : Str}
    (hi : i ∉ Dict.keys g.nodes) (e : g'.nodes = g.nodes ++ [(i, newNode spineFactory i d t o)]) :
    Repr g' { s with nodes := s.nodes ++ [(i, (t, d))] } := by
  have look : ∀ x, getNode g' x = if x = i then some (newNode spineFactory i d t o) else getNode g x := by
    intro x; simp only [getNode, e]; exact get?_append_single _ _ _ hi x
  refine ⟨wf_insert h.wf hi rfl rfl rfl e, ?_, ?_, ?_⟩
  · rw [e, List.map_append, h.nodes]; simp [newNode, factory_fst]
  · intro x n hn
    rw [look] at hn
    split at hn
    · injection hn with hn; subst hn; simp [newNode, factory_fst]
    · exact h.typed hn
  · intro p c
    rw [← h.edge]
    unfold Edge
    rw [look]
    by_cases hp : p = i
    · subst hp
      simp only [if_true, Option.some.injEq, exists_eq_left', newNode, List.not_mem_nil, false_iff]
      rintro ⟨n, hn, _⟩
      exact hi ((hasNode_iff_mem_keys g p).1 ⟨n, hn⟩)
    · simp [hp]

theorem exec_addNode {g g' : SGraph F} {i : Str} {d : Int × JVal F} {t : NType}
    (h : exec (addNode spineFactory g (.str i) d t) = .ok g') :
    i ∉ Dict.keys g.nodes ∧ ∃ o, g'.nodes = g.nodes ++ [(i, newNode spineFactory i d t o)] := by
  obtain ⟨m, -, -, hs⟩ := addNode_spec spineFactory g (.str i) d t
  rcases hs with ⟨h', _⟩ | ⟨s, _, _, e⟩ | ⟨s, hs, hi, e⟩
  · cases h'
  · rw [e] at h; cases h
  · rw [e] at h
    simp only [exec, Except.ok.injEq] at h
    subst h
    have hs : i = s := by
      rcases hs with ⟨h', _⟩ | h'
      · cases h'
      · injection h'
    subst hs
    exact ⟨hi, _, rfl⟩

theorem exec_addNode_ok (g : SGraph F) {i : Str} (d : Int × JVal F) (t : NType) (hi : i ∉ Dict.keys g.nodes) :
    ∃ g', exec (addNode spineFactory g (.str i) d t) = .ok g' := by
  obtain ⟨m, -, -, hs⟩ := addNode_spec spineFactory g (.str i) d t
  rcases hs with ⟨h', _⟩ | ⟨s, hs, hk, e⟩ | ⟨s, hs, hi', e⟩
  · cases h'
  · injection hs with hs; subst hs; exact absurd hk hi
  · exact ⟨_, by rw [e]; rfl⟩

theorem edge_linked {g : SGraph F} {p c : Str} (hp : HasNode g p) (x y : Str) :
    Edge (linked g p c) x y ↔ Edge g x y ∨ (x = p ∧ y = c) := by
  unfold Edge
  rw [getNode_linked]
  by_cases h : x = p
  · subst h
    obtain ⟨n, hn⟩ := hp
    rw [hn]
    simp [mem_addLink]
  · cases getNode g x <;> simp [h]

theorem linked_nodes_map (g : SGraph F) (p c : Str) :
    (linked g p c).nodes.map (fun q => (q.1, (q.2.ntype, q.2.data))) = g.nodes.map (fun q => (q.1, (q.2.ntype, q.2.data))) := by
  simp only [linked, Dict.modify, List.map_map]
  apply List.map_congr_left
  intro q _
  simp only [Function.comp]
  split <;> split <;> simp_all

/-- a link step of the graph is a link step of the state, and conversely -/
theorem Repr.link_sim {g : SGraph F} {s : Abs F} (h : Repr g s) (p c : Str) :
    (∀ g', exec (addEdge g p c) = .ok g' → ∃ s', s.link p c = some s' ∧ Repr g' s') ∧
    (∀ s', s.link p c = some s' → ∃ g', exec (addEdge g p c) = .ok g' ∧ Repr g' s') := by
  have good : ∀ n1 n2, getNode g p = some n1 → getNode g c = some n2 → n2.ntype ∉ n1.forbidden → p ≠ c →
      s.link p c = some { s with edges := s.edges ++ [(p, c)] } ∧ Repr (linked g p c) { s with edges := s.edges ++ [(p, c)] } := by
    intro n1 n2 h1 h2 h3 h4
    refine ⟨?_, wf_linked h.wf h1 h2 h3 h4, by rw [linked_nodes_map, h.nodes], ?_, ?_⟩
    · unfold link
      rw [h.get? p, h.get? c, h1, h2]
      rw [h.typed h1] at h3
      simp [h3, h4]
    · intro x n hn
      rw [getNode_linked] at hn
      cases hx : getNode g x with
      | none => rw [hx] at hn; cases hn
      | some m =>
        rw [hx] at hn
        injection hn with hn
        subst hn
        exact h.typed (x := x) (n := m) hx
    · intro x y
      rw [edge_linked ⟨n1, h1⟩, h.edge, List.mem_append]
      simp
  have bad : (∀ n1 n2, getNode g p = some n1 → getNode g c = some n2 → n2.ntype ∉ n1.forbidden → p = c) → s.link p c = none := by
    intro hb
    unfold link
    rw [h.get? p, h.get? c]
    cases h1 : getNode g p with
    | none => simp
    | some n1 => cases h2 : getNode g c with
      | none => simp
      | some n2 =>
        simp only [Option.map_some]
        rw [if_pos]
        by_cases hf : n2.ntype ∈ (spineFactory n1.ntype).2
        · exact .inl hf
        · right; exact hb n1 n2 h1 h2 (by rw [h.typed h1]; exact hf)
  rcases addEdge_spec h.wf p c with ⟨n1, n2, h1, h2, h3, h4, e⟩ | ⟨n1, n2, h1, h2, h3, h4, e⟩ | ⟨n1, n2, h1, h2, h3, e⟩ | ⟨h1, h2, e⟩ | ⟨h2, e⟩
  · obtain ⟨a, b⟩ := good n1 n2 h1 h2 h3 h4
    rw [e]
    constructor
    · intro g' hg; simp only [exec, Except.ok.injEq] at hg; subst hg; exact ⟨_, a, b⟩
    · intro s' hs; rw [a] at hs; injection hs with hs; subst hs; exact ⟨_, rfl, b⟩
  · rw [e]
    have := bad (fun _ _ _ _ _ => h4)
    exact ⟨fun g' hg => by simp [exec] at hg, fun s' hs => by rw [this] at hs; cases hs⟩
  · rw [e]
    have := bad (fun m1 m2 k1 k2 k3 => by
      rw [h1] at k1; rw [h2] at k2; injection k1 with k1; injection k2 with k2; subst k1 k2; exact absurd h3 k3)
    exact ⟨fun g' hg => by simp [exec] at hg, fun s' hs => by rw [this] at hs; cases hs⟩
  · rw [e]
    have := bad (fun m1 m2 k1 k2 k3 => by
      first
      | exact absurd ⟨m1, k1⟩ h1
      | exact absurd ⟨m2, k2⟩ h2
      | exact absurd ⟨m2, k2⟩ h1)
    exact ⟨fun g' hg => by simp [exec] at hg, fun s' hs => by rw [this] at hs; cases hs⟩
  · rw [e]
    have := bad (fun m1 m2 k1 k2 k3 => by
      exact absurd ⟨m2, k2⟩ (h2.1 ⟨m1, k1⟩))
    exact ⟨fun g' hg => by simp [exec] at hg, fun s' hs => by rw [this] at hs; cases hs⟩

theorem Repr.step_sim {g : SGraph F} {s : Abs F} (h : Repr g s) (c : Cmd F) :
    (∀ g', c.run g = .ok g' → ∃ s', s.step c = some s' ∧ Repr g' s') ∧
    (∀ s', s.step c = some s' → ∃ g', c.run g = .ok g' ∧ Repr g' s') := by
  have hnot : ∀ i, Dict.has s.nodes i = false ↔ i ∉ Dict.keys g.nodes := by
    intro i
    rw [← h.keys, ← Dict.has_iff_mem_keys]
    cases Dict.has s.nodes i <;> simp
  cases c with
  | node i d t =>
    constructor
    · intro g' hg
      obtain ⟨hi, o, e⟩ := exec_addNode hg
      exact ⟨_, by simp [step, (hnot i).2 hi], h.insert hi e⟩
    · intro s' hs
      simp only [step] at hs
      split at hs
      · cases hs
      · rename_i hh
        have hi := (hnot i).1 (by simpa using hh)
        injection hs with hs; subst hs
        obtain ⟨g', hg⟩ := exec_addNode_ok g d t hi
        obtain ⟨_, o, e⟩ := exec_addNode hg
        exact ⟨g', hg, h.insert hi e⟩
  | opt i d t =>
    cases hn : getNode g i with
    | some n =>
      have : Dict.has s.nodes i = true := (h.has i).2 ⟨n, hn⟩
      constructor
      · intro g' hg
        simp only [Cmd.run, SpineNodes.addIfAbsent, hn, Except.ok.injEq] at hg
        subst hg
        exact ⟨s, by simp [step, this], h⟩
      · intro s' hs
        simp only [step, this, if_true, Option.some.injEq] at hs
        subst hs
        exact ⟨g, by simp [Cmd.run, SpineNodes.addIfAbsent, hn], h⟩
    | none =>
      have hi : i ∉ Dict.keys g.nodes := by
        intro hk; obtain ⟨n, hn'⟩ := (hasNode_iff_mem_keys g i).2 hk; rw [hn] at hn'; cases hn'
      have hb := (hnot i).2 hi
      constructor
      · intro g' hg
        simp only [Cmd.run, SpineNodes.addIfAbsent, hn] at hg
        obtain ⟨_, o, e⟩ := exec_addNode hg
        exact ⟨_, by simp [step, hb], h.insert hi e⟩
      · intro s' hs
        simp only [step, hb, Bool.false_eq_true, if_false, Option.some.injEq] at hs
        subst hs
        obtain ⟨g', hg⟩ := exec_addNode_ok g d t hi
        obtain ⟨_, o, e⟩ := exec_addNode hg
        exact ⟨g', by simp only [Cmd.run, SpineNodes.addIfAbsent, hn]; exact hg, h.insert hi e⟩
  | edge p c => exact h.link_sim p c
  | from_ p c =>
    cases hn : getNode g p with
    | some n =>
      have : Dict.has s.nodes p = true := (h.has p).2 ⟨n, hn⟩
      have e : (Cmd.from_ p c).run g = exec (addEdge g p c) := by
        simp only [Cmd.run, SpineNodes.linkFrom, hn, h.wf.id_eq hn]
      have e2 : s.step (.from_ p c) = s.link p c := by simp [step, this]
      rw [e, e2]; exact h.link_sim p c
    | none =>
      have : Dict.has s.nodes p = false := by
        rw [hnot]; intro hk; obtain ⟨n, hn'⟩ := (hasNode_iff_mem_keys g p).2 hk; rw [hn] at hn'; cases hn'
      constructor
      · intro g' hg
        simp only [Cmd.run, SpineNodes.linkFrom, hn, Except.ok.injEq] at hg
        subst hg
        exact ⟨s, by simp [step, this], h⟩
      · intro s' hs
        simp only [step, this, Bool.false_eq_true, if_false, Option.some.injEq] at hs
        subst hs
        exact ⟨g, by simp [Cmd.run, SpineNodes.linkFrom, hn], h⟩
  | to_ p c =>
    cases hn : getNode g c with
    | some n =>
      have : Dict.has s.nodes c = true := (h.has c).2 ⟨n, hn⟩
      have e : (Cmd.to_ p c).run g = exec (addEdge g p c) := by
        simp only [Cmd.run, SpineNodes.linkTo, hn, h.wf.id_eq hn]
      have e2 : s.step (.to_ p c) = s.link p c := by simp [step, this]
      rw [e, e2]; exact h.link_sim p c
    | none =>
      have : Dict.has s.nodes c = false := by
        rw [hnot]; intro hk; obtain ⟨n, hn'⟩ := (hasNode_iff_mem_keys g c).2 hk; rw [hn] at hn'; cases hn'
      constructor
      · intro g' hg
        simp only [Cmd.run, SpineNodes.linkTo, hn, Except.ok.injEq] at hg
        subst hg
        exact ⟨s, by simp [step, this], h⟩
      · intro s' hs
        simp only [step, this, Bool.false_eq_true, if_false, Option.some.injEq] at hs
        subst hs
        exact ⟨g, by simp [Cmd.run, SpineNodes.linkTo, hn], h⟩

theorem Repr.steps_sim (cs : List (Cmd F)) : ∀ {g : SGraph F} {s : Abs F}, Repr g s →
    (∀ g', Cmd.runAll g cs = .ok g' → ∃ s', s.steps cs = some s' ∧ Repr g' s') ∧
    (∀ s', s.steps cs = some s' → ∃ g', Cmd.runAll g cs = .ok g' ∧ Repr g' s') := by
  induction cs with
  | nil =>
    intro g s h
    constructor
    · intro g' hg; rw [Cmd.runAll_nil] at hg; injection hg with hg; subst hg; exact ⟨s, rfl, h⟩
    · intro s' hs; injection hs with hs; subst hs; exact ⟨g, rfl, h⟩
  | cons c cs ih =>
    intro g s h
    obtain ⟨f, b⟩ := h.step_sim c
    constructor
    · intro g' hg
      obtain ⟨k, h1, h2⟩ := Cmd.runAll_cons_ok.1 hg
      obtain ⟨s1, e1, r1⟩ := f k h1
      obtain ⟨s2, e2, r2⟩ := (ih r1).1 g' h2
      exact ⟨s2, by simp [steps, e1, e2], r2⟩
    · intro s' hs
      simp only [steps] at hs
      cases e1 : s.step c with
      | none => rw [e1] at hs; cases hs
      | some s1 =>
        rw [e1] at hs
        obtain ⟨k, h1, r1⟩ := b s1 e1
        obtain ⟨g', h2, r2⟩ := (ih r1).2 s' hs
        exact ⟨g', Cmd.runAll_cons_ok.2 ⟨k, h1, h2⟩, r2⟩

/-! ### What a list of commands does -/

theorem link_some {s s' : Abs F} {p c : Str} (h : s.link p c = some s') :
    s' = { s with edges := s.edges ++ [(p, c)] } ∧ p ∈ Dict.keys s.nodes ∧ c ∈ Dict.keys s.nodes ∧ p ≠ c := by
  unfold link at h
  split at h
  · rename_i tp tc h1 h2
    split at h
    · cases h
    · rename_i hh
      injection h with h
      exact ⟨h.symm, Dict.mem_keys_of_get? h1, Dict.mem_keys_of_get? h2, fun e => hh (.inr e)⟩
  · cases h

/-- the id a command may create -/
def creates : Cmd F → Option Str
  | .node i _ _ => some i
  | .opt i _ _ => some i
  | _ => none

/-- the edge a command may create -/
def links : Cmd F → Option (Str × Str)
  | .edge p c => some (p, c)
  | .from_ p c => some (p, c)
  | .to_ p c => some (p, c)
  | _ => none

/-- the entry of type `t` a command creates for sure -/
def entry (t : NType) : Cmd F → Option (Str × (Int × JVal F))
  | .node i d u => if u = t then some (i, d) else none
  | _ => none

def optType : Cmd F → Option NType
  | .opt _ _ t => some t
  | _ => none

/-- the condition under which an edge command takes effect -/
def fires (keys : List Str) : Cmd F → Prop
  | .edge _ _ => True
  | .from_ p _ => p ∈ keys
  | .to_ _ c => c ∈ keys
  | _ => False

theorem step_keys {s s' : Abs F} {c : Cmd F} (h : s.step c = some s') (x : Str) :
    x ∈ Dict.keys s'.nodes ↔ x ∈ Dict.keys s.nodes ∨ creates c = some x := by
  cases c with
  | node i d t =>
    simp only [step] at h; split at h
    · cases h
    · injection h with h; subst h; simp [creates, Dict.keys, eq_comm]
  | opt i d t =>
    simp only [step] at h; split at h
    · rename_i hh
      injection h with h; subst h
      simp only [creates, Option.some.injEq]
      exact ⟨.inl, fun h => h.elim (fun h => h) (fun e => e ▸ (Dict.has_iff_mem_keys _ _).1 hh)⟩
    · injection h with h; subst h; simp [creates, Dict.keys, eq_comm]
  | edge p c => obtain ⟨rfl, _⟩ := link_some h; simp [creates]
  | from_ p c =>
    simp only [step] at h; split at h
    · obtain ⟨rfl, _⟩ := link_some h; simp [creates]
    · injection h with h; subst h; simp [creates]
  | to_ p c =>
    simp only [step] at h; split at h
    · obtain ⟨rfl, _⟩ := link_some h; simp [creates]
    · injection h with h; subst h; simp [creates]

theorem step_edges {s s' : Abs F} {c : Cmd F} (h : s.step c = some s') (e : Str × Str) :
    e ∈ s'.edges ↔ e ∈ s.edges ∨ (links c = some e ∧ fires (Dict.keys s.nodes) c) := by
  cases c with
  | node i d t =>
    simp only [step] at h; split at h
    · cases h
    · injection h with h; subst h; simp [links]
  | opt i d t =>
    simp only [step] at h; split at h
    · injection h with h; subst h; simp [links]
    · injection h with h; subst h; simp [links]
  | edge p c => obtain ⟨rfl, _⟩ := link_some h; simp [links, fires, eq_comm]
  | from_ p c =>
    simp only [step] at h; split at h
    · rename_i hh
      have := (Dict.has_iff_mem_keys _ _).1 hh
      obtain ⟨rfl, _⟩ := link_some h; simp [links, fires, eq_comm, this]
    · rename_i hh
      have : p ∉ Dict.keys s.nodes := fun h => hh ((Dict.has_iff_mem_keys _ _).2 h)
      injection h with h; subst h; simp [links, fires, this]
  | to_ p c =>
    simp only [step] at h; split at h
    · rename_i hh
      have := (Dict.has_iff_mem_keys _ _).1 hh
      obtain ⟨rfl, _⟩ := link_some h; simp [links, fires, eq_comm, this]
    · rename_i hh
      have : c ∉ Dict.keys s.nodes := fun h => hh ((Dict.has_iff_mem_keys _ _).2 h)
      injection h with h; subst h; simp [links, fires, this]

/-- id and data of the nodes of one type, in insertion order -/
def ofType (s : Abs F) (t : NType) : List (Str × (Int × JVal F)) := (s.nodes.filter (fun p => p.2.1 = t)).map (fun p => (p.1, p.2.2))

theorem step_ofType {s s' : Abs F} {c : Cmd F} (h : s.step c = some s') (t : NType) (ho : optType c ≠ some t) :
    s'.ofType t = s.ofType t ++ (entry t c).toList := by
  cases c with
  | node i d u =>
    simp only [step] at h; split at h
    · cases h
    · injection h with h; subst h
      by_cases e : u = t <;> simp [ofType, entry, e]
  | opt i d u =>
    have hu : u ≠ t := fun e => ho (by simp [optType, e])
    simp only [step] at h; split at h
    · injection h with h; subst h; simp [entry]
    · injection h with h; subst h; simp [ofType, entry, hu]
  | edge p c => obtain ⟨rfl, _⟩ := link_some h; simp [entry, ofType]
  | from_ p c =>
    simp only [step] at h; split at h
    · obtain ⟨rfl, _⟩ := link_some h; simp [entry, ofType]
    · injection h with h; subst h; simp [entry]
  | to_ p c =>
    simp only [step] at h; split at h
    · obtain ⟨rfl, _⟩ := link_some h; simp [entry, ofType]
    · injection h with h; subst h; simp [entry]

theorem steps_cons {s s' : Abs F} {c : Cmd F} {cs : List (Cmd F)} (h : s.steps (c :: cs) = some s') :
    ∃ k, s.step c = some k ∧ k.steps cs = some s' := by
  simp only [steps] at h
  cases e : s.step c with
  | none => rw [e] at h; cases h
  | some k => rw [e] at h; exact ⟨k, rfl, h⟩

theorem steps_append {s : Abs F} {a b : List (Cmd F)} : s.steps (a ++ b) = (s.steps a).bind (fun k => k.steps b) := by
  induction a generalizing s with
  | nil => rfl
  | cons c a ih => simp only [List.cons_append, steps]; cases s.step c <;> simp [ih]

theorem steps_keys {s s' : Abs F} {cs : List (Cmd F)} (h : s.steps cs = some s') (x : Str) :
    x ∈ Dict.keys s'.nodes ↔ x ∈ Dict.keys s.nodes ∨ ∃ c ∈ cs, creates c = some x := by
  induction cs generalizing s with
  | nil => injection h with h; subst h; simp
  | cons c cs ih =>
    obtain ⟨k, h1, h2⟩ := steps_cons h
    rw [ih h2, step_keys h1]
    simp [or_assoc]

theorem steps_ofType {s s' : Abs F} {cs : List (Cmd F)} (h : s.steps cs = some s') (t : NType)
    (ho : ∀ c ∈ cs, optType c ≠ some t) : s'.ofType t = s.ofType t ++ cs.filterMap (entry t) := by
  induction cs generalizing s with
  | nil => injection h with h; subst h; simp
  | cons c cs ih =>
    obtain ⟨k, h1, h2⟩ := steps_cons h
    rw [ih h2 (fun c hc => ho c (by simp [hc])), step_ofType h1 t (ho c (by simp)), List.append_assoc]
    congr 1
    rw [List.filterMap_cons]
    cases entry t c <;> simp

/-- edges that may only come from commands -/
theorem steps_edges_sound {s s' : Abs F} {cs : List (Cmd F)} (h : s.steps cs = some s') (e : Str × Str) (he : e ∈ s'.edges) :
    e ∈ s.edges ∨ ∃ c ∈ cs, links c = some e := by
  induction cs generalizing s with
  | nil => injection h with h; subst h; exact .inl he
  | cons c cs ih =>
    obtain ⟨k, h1, h2⟩ := steps_cons h
    rcases ih h2 with h | ⟨c', hc, hl⟩
    · rcases (step_edges h1 e).1 h with h | ⟨h, _⟩
      · exact .inl h
      · exact .inr ⟨c, by simp, h⟩
    · exact .inr ⟨c', by simp [hc], hl⟩

theorem fires_mono {k k' : List Str} (h : ∀ x ∈ k, x ∈ k') {c : Cmd F} (hf : fires k c) : fires k' c := by
  cases c <;> simp_all [fires]

theorem steps_edges_mono {s s' : Abs F} {cs : List (Cmd F)} (h : s.steps cs = some s') (e : Str × Str) (he : e ∈ s.edges) :
    e ∈ s'.edges := by
  induction cs generalizing s with
  | nil => injection h with h; subst h; exact he
  | cons c cs ih =>
    obtain ⟨k, h1, h2⟩ := steps_cons h
    exact ih h2 ((step_edges h1 e).2 (.inl he))

/-- an edge command that fires in the initial state creates its edge -/
theorem steps_edges_complete {s s' : Abs F} {cs : List (Cmd F)} (h : s.steps cs = some s') {c : Cmd F} (hc : c ∈ cs)
    {e : Str × Str} (hl : links c = some e) (hf : fires (Dict.keys s.nodes) c) : e ∈ s'.edges := by
  induction cs generalizing s with
  | nil => simp at hc
  | cons c' cs ih =>
    obtain ⟨k, h1, h2⟩ := steps_cons h
    rcases List.mem_cons.1 hc with rfl | hc
    · exact steps_edges_mono h2 e ((step_edges h1 e).2 (.inr ⟨hl, hf⟩))
    · exact ih h2 hc (fires_mono (fun x hx => (step_keys h1 x).2 (.inl hx)) hf)

/-- both ends of an edge are nodes, and they differ -/
structure Sound (s : Abs F) : Prop where
  src : ∀ e ∈ s.edges, e.1 ∈ Dict.keys s.nodes
  tgt : ∀ e ∈ s.edges, e.2 ∈ Dict.keys s.nodes
  ne : ∀ e ∈ s.edges, e.1 ≠ e.2

theorem Repr.sound {g : SGraph F} {s : Abs F} (h : Repr g s) : Sound s := by
  constructor
  · intro e he
    rw [h.keys, ← hasNode_iff_mem_keys]
    obtain ⟨n, hn, _⟩ := (h.edge e.1 e.2).2 he
    exact ⟨n, hn⟩
  · intro e he
    rw [h.keys, ← hasNode_iff_mem_keys]
    obtain ⟨n, hn, hc⟩ := (h.edge e.1 e.2).2 he
    obtain ⟨m, hm, _⟩ := h.wf.child_link hn hc
    exact ⟨m, hm⟩
  · intro e he
    obtain ⟨n, hn, hc⟩ := (h.edge e.1 e.2).2 he
    intro e12
    rw [← e12] at hc
    exact h.wf.no_self hn hc

end Abs
end Spine
