import Verif.Model.NoneNode
import Verif.Lemmas.Paths
import Verif.Props.GraphQueries
/- Graphs with entries that are `None`: the calls act on the node objects like those of `Model/Graph.lean`, and no call removes
an entry that is `None`. -/
set_option linter.unusedSectionVars false
namespace Spine
namespace OGraph
open Graph (foldE Walk CState GraphError Op WF)
variable {T D : Type}

/-- the entry of `i` is `None` -/
def Hole (g : OGraph T D) (i : Str) : Prop := Dict.get? g.nodes i = some none

structure OWF (g : OGraph T D) : Prop where
  keys : (Dict.keys g.nodes).Nodup
  wf : WF g.objs

/-! ### The node objects -/

theorem objs_keys_sub (g : OGraph T D) (x : Str) (h : x ∈ Dict.keys g.objs.nodes) : x ∈ Dict.keys g.nodes := by
  obtain ⟨p, hp, rfl⟩ := List.mem_map.1 h
  obtain ⟨q, hq, e⟩ := List.mem_filterMap.1 hp
  cases h2 : q.2 with
  | none => rw [h2] at e; cases e
  | some n => rw [h2] at e; injection e with e; subst e; exact List.mem_map.2 ⟨q, hq, rfl⟩

theorem get?_objs (l : Dict (Option (Node T D))) (hn : (Dict.keys l).Nodup) (x : Str) :
    Dict.get? (l.filterMap (fun p => p.2.map (fun n => (p.1, n)))) x = (Dict.get? l x).join := by
  induction l with
  | nil => rfl
  | cons p l ih =>
    obtain ⟨k, v⟩ := p
    have hk := (List.nodup_cons.1 hn)
    have ih := ih hk.2
    cases v with
    | none =>
      simp only [List.filterMap_cons, Option.map_none, Dict.get?]
      by_cases e : k = x
      · subst e
        rw [if_pos rfl, ih, (Dict.get?_eq_none_iff l k).2 hk.1]; rfl
      · rw [if_neg e, ih]
    | some n =>
      simp only [List.filterMap_cons, Option.map_some, Dict.get?]
      by_cases e : k = x
      · rw [if_pos e, if_pos e]; rfl
      · rw [if_neg e, if_neg e, ih]

theorem getNode_objs {g : OGraph T D} (hg : (Dict.keys g.nodes).Nodup) (x : Str) : Graph.getNode g.objs x = getNode g x :=
  get?_objs g.nodes hg x

theorem objs_update (g : OGraph T D) (id : Str) (f : Node T D → Node T D) :
    (g.update id f).objs = { g.objs with nodes := Dict.modify g.objs.nodes id f } := by
  simp only [objs, update, Graph.mk.injEq, true_and]
  induction g.nodes with
  | nil => rfl
  | cons p l ih =>
    obtain ⟨k, v⟩ := p
    simp only [Dict.modify, List.map_cons, List.filterMap_cons] at ih ⊢
    cases v with
    | none => by_cases e : k = id <;> simp [e, ih]
    | some n => by_cases e : k = id <;> simp [e, ih]

theorem keys_update (g : OGraph T D) (id : Str) (f : Node T D → Node T D) : Dict.keys (g.update id f).nodes = Dict.keys g.nodes :=
  Dict.keys_modify _ _ _

theorem hole_update (g : OGraph T D) (id : Str) (f : Node T D → Node T D) (i : Str) : Hole (g.update id f) i ↔ Hole g i := by
  simp only [Hole, update, Dict.get?_modify]
  split
  · rename_i e; subst e
    cases h : Dict.get? g.nodes _ with
    | none => simp
    | some v => cases v <;> simp
  · rfl

theorem objs_del (g : OGraph T D) (id : Str) :
    ({ g with nodes := Dict.del g.nodes id } : OGraph T D).objs = { g.objs with nodes := Dict.del g.objs.nodes id } := by
  simp only [objs, Graph.mk.injEq, true_and]
  induction g.nodes with
  | nil => rfl
  | cons p l ih =>
    obtain ⟨k, v⟩ := p
    simp only [Dict.del, List.filter_cons, List.filterMap_cons] at ih ⊢
    cases v with
    | none => by_cases e : k = id <;> simpa [e] using ih
    | some n => by_cases e : k = id <;> simpa [e] using ih

/-! ### The calls -/

/-- the outcome, and the node objects afterwards -/
def onObjs {α : Type} (r : Res (OGraph T D) α) : Res (Graph T D) α := (r.1, r.2.objs)

/-- what the calls that do not add keep: the ids and the entries that are `None` -/
structure Kept (g h : OGraph T D) : Prop where
  keys : Dict.keys h.nodes = Dict.keys g.nodes
  holes : ∀ i, Hole h i ↔ Hole g i

theorem Kept.refl (g : OGraph T D) : Kept g g := ⟨rfl, fun _ => Iff.rfl⟩
theorem Kept.trans {a b c : OGraph T D} (h : Kept a b) (k : Kept b c) : Kept a c :=
  ⟨k.keys.trans h.keys, fun i => (k.holes i).trans (h.holes i)⟩
theorem kept_update (g : OGraph T D) (id : Str) (f : Node T D → Node T D) : Kept g (g.update id f) :=
  ⟨keys_update g id f, hole_update g id f⟩

/-- a call that acts on the node objects like a call of `Model/Graph.lean` -/
def Acts {α : Type} (g : OGraph T D) (r : Res (OGraph T D) α) (s : Res (Graph T D) α) : Prop := onObjs r = s ∧ Kept g r.2

theorem addChild_acts [DecidableEq T] (g : OGraph T D) (p : Str) (n1 : Node T D) (c : Str) (n2 : Option (Node T D)) :
    Acts g (addChild g p n1 c n2) (Graph.addChild g.objs p n1 c n2) := by
  cases n2 with
  | none => exact ⟨rfl, Kept.refl g⟩
  | some n2 =>
    unfold addChild Graph.addChild
    dsimp only
    split
    · exact ⟨rfl, Kept.refl g⟩
    · split
      · exact ⟨rfl, Kept.refl g⟩
      · exact ⟨by simp [onObjs, objs_update], kept_update _ _ _⟩

theorem addParent_acts (g : OGraph T D) (c p : Str) (n1 : Option (Node T D)) :
    Acts g (addParent g c p n1) (Graph.addParent g.objs c p n1) := by
  cases n1 with
  | none => exact ⟨rfl, Kept.refl g⟩
  | some n1 =>
    unfold addParent Graph.addParent
    dsimp only
    split
    · exact ⟨rfl, Kept.refl g⟩
    · exact ⟨by simp [onObjs, objs_update], kept_update _ _ _⟩

theorem Acts.ok {α : Type} {g h : OGraph T D} {v : Except Err α} {s : Res (Graph T D) α} (a : Acts g (v, h) s) : s = (v, h.objs) := a.1.symm

theorem addEdge_acts [DecidableEq T] {g : OGraph T D} (hg : (Dict.keys g.nodes).Nodup) (p c : Str) :
    Acts g (addEdge g p c) (Graph.addEdge g.objs p c) := by
  unfold addEdge Graph.addEdge
  simp only [getNode_objs hg]
  have second : ∀ h : OGraph T D, Acts h (match getNode g c with
      | none => ((.error .attribute, h) : Res (OGraph T D) Unit)
      | some _ => addParent h c p (getNode g p)) (match getNode g c with
      | none => (.error .attribute, h.objs)
      | some _ => Graph.addParent h.objs c p (getNode g p)) := by
    intro h
    cases getNode g c with
    | none => exact ⟨rfl, Kept.refl h⟩
    | some n => exact addParent_acts h c p _
  cases h1 : getNode g p with
  | none => rw [h1] at second; exact second g
  | some m1 =>
    rw [h1] at second
    dsimp only
    have a := addChild_acts g p m1 c (getNode g c)
    generalize addChild g p m1 c (getNode g c) = r at a
    obtain ⟨v, h⟩ := r
    rw [a.ok]
    cases v with
    | error e => exact ⟨rfl, a.2⟩
    | ok u => exact ⟨(second h).1, a.2.trans (second h).2⟩

theorem delChild_acts {g : OGraph T D} (hg : (Dict.keys g.nodes).Nodup) (p c : Str) :
    Acts g (delChild g p c) (Graph.delChild g.objs p c) := by
  unfold delChild Graph.delChild
  rw [getNode_objs hg]
  cases getNode g p with
  | none => exact ⟨rfl, Kept.refl g⟩
  | some n =>
    dsimp only
    split
    · exact ⟨by simp [onObjs, objs_update], kept_update _ _ _⟩
    · exact ⟨rfl, Kept.refl g⟩

theorem delParent_acts {g : OGraph T D} (hg : (Dict.keys g.nodes).Nodup) (c p : Str) :
    Acts g (delParent g c p) (Graph.delParent g.objs c p) := by
  unfold delParent Graph.delParent
  rw [getNode_objs hg]
  cases getNode g c with
  | none => exact ⟨rfl, Kept.refl g⟩
  | some n =>
    dsimp only
    split
    · exact ⟨by simp [onObjs, objs_update], kept_update _ _ _⟩
    · exact ⟨rfl, Kept.refl g⟩

theorem Kept.nodup {g h : OGraph T D} (k : Kept g h) (hg : (Dict.keys g.nodes).Nodup) : (Dict.keys h.nodes).Nodup := by rw [k.keys]; exact hg

theorem removeEdge_acts {g : OGraph T D} (hg : (Dict.keys g.nodes).Nodup) (p c : Str) :
    Acts g (removeEdge g p c) (Graph.removeEdge g.objs p c) := by
  unfold removeEdge Graph.removeEdge
  rw [getNode_objs hg]
  cases getNode g p with
  | none => exact delParent_acts hg c p
  | some n =>
    dsimp only
    have a := delChild_acts hg p c
    generalize delChild g p c = r at a
    obtain ⟨v, h⟩ := r
    rw [a.ok]
    cases v with
    | error e => exact ⟨rfl, a.2⟩
    | ok u =>
      have b := delParent_acts (a.2.nodup hg) c p
      exact ⟨b.1, a.2.trans b.2⟩

theorem dropParentLinks_acts (id : Str) (l : List Str) : ∀ {g : OGraph T D}, (Dict.keys g.nodes).Nodup →
    Acts g (dropParentLinks id l g) (Graph.dropParentLinks id l g.objs) := by
  induction l with
  | nil => intro g _; exact ⟨rfl, Kept.refl g⟩
  | cons c l ih =>
    intro g hg
    unfold dropParentLinks Graph.dropParentLinks
    have a := delParent_acts hg c id
    generalize delParent g c id = r at a
    obtain ⟨v, h⟩ := r
    rw [a.ok]
    cases v with
    | error e => exact ⟨rfl, a.2⟩
    | ok u =>
      have b := ih (a.2.nodup hg)
      exact ⟨b.1, a.2.trans b.2⟩

theorem dropChildLinks_acts (id : Str) (l : List Str) : ∀ {g : OGraph T D}, (Dict.keys g.nodes).Nodup →
    Acts g (dropChildLinks id l g) (Graph.dropChildLinks id l g.objs) := by
  induction l with
  | nil => intro g _; exact ⟨rfl, Kept.refl g⟩
  | cons c l ih =>
    intro g hg
    unfold dropChildLinks Graph.dropChildLinks
    have a := delChild_acts hg c id
    generalize delChild g c id = r at a
    obtain ⟨v, h⟩ := r
    rw [a.ok]
    cases v with
    | error e => exact ⟨rfl, a.2⟩
    | ok u =>
      have b := ih (a.2.nodup hg)
      exact ⟨b.1, a.2.trans b.2⟩

theorem removeNode_acts {g : OGraph T D} (hg : (Dict.keys g.nodes).Nodup) (id : Str) :
    onObjs (removeNode g id) = Graph.removeNode g.objs id ∧ (Dict.keys (removeNode g id).2.nodes).Nodup ∧
    ∀ i, Hole (removeNode g id).2 i ↔ Hole g i := by
  unfold removeNode Graph.removeNode
  rw [getNode_objs hg]
  cases hn : getNode g id with
  | none => exact ⟨rfl, hg, fun _ => Iff.rfl⟩
  | some n =>
    dsimp only
    have a := dropParentLinks_acts id n.children hg
    generalize dropParentLinks id n.children g = r at a
    obtain ⟨v, h⟩ := r
    rw [a.ok]
    cases v with
    | error e => exact ⟨rfl, a.2.nodup hg, a.2.holes⟩
    | ok u =>
      dsimp only
      have b := dropChildLinks_acts id n.parents (a.2.nodup hg)
      generalize dropChildLinks id n.parents h = r at b
      obtain ⟨v, k⟩ := r
      rw [b.ok]
      cases v with
      | error e => exact ⟨rfl, b.2.nodup (a.2.nodup hg), (a.2.trans b.2).holes⟩
      | ok u =>
        dsimp only
        refine ⟨by simp only [onObjs, objs_del], Dict.nodup_keys_del (b.2.nodup (a.2.nodup hg)) id, ?_⟩
        intro i
        rw [← (a.2.trans b.2).holes i]
        simp only [Hole, Dict.get?_del]
        by_cases e : i = id
        · subst e
          have : ¬ Hole k i := by
            rw [(a.2.trans b.2).holes i]
            intro hh
            unfold getNode at hn
            unfold Hole at hh
            rw [hh] at hn
            cases hn
          simp only [Hole] at this
          simp [this]
        · simp [e]

/-! ### generate_unique_id and add_node -/

theorem skipUsed_some {nodes : Dict (Option (Node T D))} {f n m : Nat} (h : skipUsed nodes f n = some m) : natStr m ∉ Dict.keys nodes := by
  induction f generalizing n with
  | zero => simp [skipUsed] at h
  | succ f ih =>
    simp only [skipUsed] at h
    split at h
    · exact ih h
    · rename_i hu
      simp at h; subst h
      intro hm; exact hu ((Dict.has_iff_mem_keys _ _).2 hm)

theorem skipUsed_none {nodes : Dict (Option (Node T D))} {f n : Nat} (h : skipUsed nodes f n = none) :
    ∀ i, i < f → natStr (n + i) ∈ Dict.keys nodes := by
  induction f generalizing n with
  | zero => intro i hi; omega
  | succ f ih =>
    simp only [skipUsed] at h
    split at h
    · rename_i hu
      intro i hi
      cases i with
      | zero => exact (Dict.has_iff_mem_keys _ _).1 hu
      | succ i => have := ih h i (by omega); rwa [Nat.add_right_comm, Nat.add_assoc] at this
    · simp at h

theorem skipUsed_ne_none (nodes : Dict (Option (Node T D))) (n : Nat) : skipUsed nodes (nodes.length + 1) n ≠ none := by
  intro h
  have h := skipUsed_none h
  have hl := length_le_of_nodup_subset (l := (List.range (nodes.length + 1)).map (fun i => natStr (n + i)))
    (m := Dict.keys nodes)
    (by
      unfold List.Nodup
      rw [List.pairwise_map]
      refine List.Pairwise.imp ?_ List.nodup_range
      intro a b hab e
      have := natStr_inj e
      omega)
    (by
      intro x hx
      obtain ⟨i, hi, rfl⟩ := List.mem_map.1 hx
      exact h i (List.mem_range.1 hi))
  simp [Dict.keys_length] at hl
  omega

theorem genId_spec (g : OGraph T D) : ∃ m, genId g = (.ok (natStr m), { g with idGen := m }) ∧ natStr m ∉ Dict.keys g.nodes := by
  unfold genId
  cases h : skipUsed g.nodes (g.nodes.length + 1) (g.idGen + 1) with
  | none => exact absurd h (skipUsed_ne_none _ _)
  | some m => exact ⟨m, rfl, skipUsed_some h⟩

/-- what the factory makes of a request -/
def made (fac : OFactory T) (i : Str) (data : D) (ty : T) (u : Str) : Option (Node T D) := (fac ty).map (fun q =>
  { id := i, data := data, ntype := q.1, order := u, forbidden := q.2, children := [], parents := [] })

theorem addNode_spec (fac : OFactory T) (g : OGraph T D) (nid : IdArg) (data : D) (ty : T) : ∃ m, natStr m ∉ Dict.keys g.nodes ∧
    ((nid = .nonStr ∧ addNode fac g nid data ty = (.error .type, { g with idGen := m })) ∨
     (∃ s, nid = .str s ∧ s ∈ Dict.keys g.nodes ∧ addNode fac g nid data ty = (.error .value, { g with idGen := m })) ∨
     (∃ i, (nid = .absent ∧ i = natStr m ∨ nid = .str i) ∧ i ∉ Dict.keys g.nodes ∧
       addNode fac g nid data ty = (.ok ((fac ty).map (fun _ => i)),
         OGraph.mk m (g.counter + 1) (g.nodes ++ [(i, made fac i data ty (natStr m))])))) := by
  obtain ⟨m, h, h1⟩ := genId_spec g
  refine ⟨m, h1, ?_⟩
  unfold addNode
  rw [h]
  have key : ∀ i, i ∉ Dict.keys g.nodes → ((Except.ok (Option.map (fun n : Node T D => n.id) (made fac i data ty (natStr m))),
      OGraph.mk m (g.counter + 1) (Dict.set g.nodes i (made fac i data ty (natStr m)))) : Res (OGraph T D) (Option Str)) =
      (.ok ((fac ty).map (fun _ => i)), OGraph.mk m (g.counter + 1) (g.nodes ++ [(i, made fac i data ty (natStr m))])) := by
    intro i hi
    rw [Dict.set_of_not_mem _ _ _ hi]
    unfold made
    cases fac ty <;> rfl
  cases nid with
  | nonStr => left; exact ⟨rfl, rfl⟩
  | absent => right; right; exact ⟨_, .inl ⟨rfl, rfl⟩, h1, key _ h1⟩
  | str s =>
    right
    by_cases hs : s ∈ Dict.keys g.nodes
    · left
      exact ⟨s, rfl, hs, by simp only [(Dict.has_iff_mem_keys _ _).2 hs, if_true]⟩
    · right
      refine ⟨s, .inr rfl, hs, ?_⟩
      have : Dict.has g.nodes s = false := by
        cases hh : Dict.has g.nodes s with
        | false => rfl
        | true => exact absurd ((Dict.has_iff_mem_keys _ _).1 hh) hs
      simp only [this, Bool.false_eq_true, if_false]
      exact key s hs

theorem nodup_snoc {d : Dict (Option (Node T D))} (h : (Dict.keys d).Nodup) {i : Str} (hi : i ∉ Dict.keys d) (v : Option (Node T D)) :
    (Dict.keys (d ++ [(i, v)])).Nodup := by
  rw [← Dict.set_of_not_mem _ _ _ hi]; exact Dict.nodup_keys_set h _ _

theorem objs_snoc (m c : Nat) (d : Dict (Option (Node T D))) (i : Str) (v : Option (Node T D)) :
    (OGraph.mk m c (d ++ [(i, v)])).objs.nodes = (OGraph.mk m c d).objs.nodes ++ (match v with
      | none => []
      | some n => [(i, n)]) := by
  cases v <;> simp [objs]

theorem addNode_owf {g : OGraph T D} (hg : OWF g) (fac : OFactory T) (nid : IdArg) (data : D) (ty : T) :
    OWF (addNode fac g nid data ty).2 := by
  obtain ⟨m, -, h⟩ := addNode_spec fac g nid data ty
  rcases h with ⟨-, h⟩ | ⟨s, -, -, h⟩ | ⟨i, -, hi, h⟩
  · rw [h]; exact ⟨hg.keys, hg.wf.of_nodes rfl⟩
  · rw [h]; exact ⟨hg.keys, hg.wf.of_nodes rfl⟩
  · rw [h]
    refine ⟨nodup_snoc hg.keys hi _, ?_⟩
    have e := objs_snoc m (g.counter + 1) g.nodes i (made fac i data ty (natStr m))
    cases hv : made fac i data ty (natStr m) with
    | none =>
      rw [hv] at e
      refine hg.wf.of_nodes ?_
      simp [objs]
    | some n =>
      rw [hv] at e
      have hn : n.id = i ∧ n.children = [] ∧ n.parents = [] := by
        unfold made at hv
        cases hf : fac ty with
        | none => rw [hf] at hv; cases hv
        | some q => rw [hf] at hv; injection hv with hv; subst hv; exact ⟨rfl, rfl, rfl⟩
      refine Graph.wf_insert hg.wf (i := i) (n := n) ?_ hn.1 hn.2.1 hn.2.2 (by simp [objs])
      intro hm
      exact hi (objs_keys_sub g i hm)

theorem hole_addNode {g : OGraph T D} (fac : OFactory T) (nid : IdArg) (data : D) (ty : T) {i : Str} (h : Hole g i) :
    Hole (addNode fac g nid data ty).2 i := by
  obtain ⟨m, -, hh⟩ := addNode_spec fac g nid data ty
  rcases hh with ⟨-, e⟩ | ⟨s, -, -, e⟩ | ⟨j, -, hj, e⟩
  · rw [e]; exact h
  · rw [e]; exact h
  · rw [e]
    simp only [Hole, Graph.get?_append_single _ _ _ hj]
    rw [if_neg]
    · exact h
    · rintro rfl; exact hj (Dict.mem_keys_of_get? h)

/-! ### Histories -/

theorem owf_empty : OWF (empty : OGraph T D) := ⟨List.nodup_nil, Graph.wf_empty⟩

theorem owf_step [DecidableEq T] {g : OGraph T D} (hg : OWF g) (fac : OFactory T) (op : Op T D) : OWF (step fac g op) := by
  cases op with
  | addNode i d t => exact addNode_owf hg fac i d t
  | addEdge p c =>
    have a := addEdge_acts hg.keys p c
    refine ⟨a.2.nodup hg.keys, ?_⟩
    have := Graph.wf_addEdge hg.wf p c
    rw [← a.1] at this; exact this
  | removeEdge p c =>
    have a := removeEdge_acts hg.keys p c
    refine ⟨a.2.nodup hg.keys, ?_⟩
    have := Graph.wf_removeEdge hg.wf p c
    rw [← a.1] at this; exact this
  | removeNode i =>
    have a := removeNode_acts hg.keys i
    refine ⟨a.2.1, ?_⟩
    have := Graph.wf_removeNode hg.wf i
    rw [← a.1] at this; exact this
  | genId =>
    obtain ⟨m, h, -⟩ := genId_spec g
    simp only [step, h]
    exact ⟨hg.keys, hg.wf.of_nodes rfl⟩

theorem hole_step [DecidableEq T] {g : OGraph T D} (hg : OWF g) (fac : OFactory T) (op : Op T D) {i : Str} (h : Hole g i) :
    Hole (step fac g op) i := by
  cases op with
  | addNode j d t => exact hole_addNode fac j d t h
  | addEdge p c => exact ((addEdge_acts hg.keys p c).2.holes i).2 h
  | removeEdge p c => exact ((removeEdge_acts hg.keys p c).2.holes i).2 h
  | removeNode j => exact ((removeNode_acts hg.keys j).2.2 i).2 h
  | genId =>
    obtain ⟨m, e, -⟩ := genId_spec g
    simp only [step, e]
    exact h

theorem owf_runFrom [DecidableEq T] (fac : OFactory T) (ops : List (Op T D)) : ∀ {g : OGraph T D}, OWF g → OWF (runFrom fac g ops) := by
  induction ops with
  | nil => intro g h; exact h
  | cons op ops ih => intro g h; exact ih (owf_step h fac op)

theorem hole_runFrom [DecidableEq T] (fac : OFactory T) (ops : List (Op T D)) {i : Str} : ∀ {g : OGraph T D}, OWF g → Hole g i →
    Hole (runFrom fac g ops) i := by
  induction ops with
  | nil => intro g _ h; exact h
  | cons op ops ih => intro g h hi; exact ih (owf_step h fac op) (hole_step h fac op hi)

/-! ### Queries -/

/-- the items before the first `None` -/
theorem split_hole (l : Dict (Option (Node T D))) {i : Str} (h : (i, none) ∈ l) :
    ∃ (pre : Dict (Node T D)) (k : Str) (post : Dict (Option (Node T D))), l = pre.map (fun p => (p.1, some p.2)) ++ (k, none) :: post := by
  induction l with
  | nil => cases h
  | cons p l ih =>
    obtain ⟨k, v⟩ := p
    cases v with
    | none => exact ⟨[], k, l, rfl⟩
    | some n =>
      rcases List.mem_cons.1 h with h | h
      · cases h
      · obtain ⟨pre, j, post, e⟩ := ih h
        exact ⟨(k, n) :: pre, j, post, by rw [e]; rfl⟩

theorem visitAll_some {σ : Type} (visit : σ → Str → Except Err σ) (l : Dict (Node T D)) : ∀ s,
    visitAll visit s (l.map (fun p => (p.1, some p.2))) = foldE visit s (Dict.keys l) := by
  induction l with
  | nil => intro s; rfl
  | cons p l ih =>
    intro s
    simp only [visitAll, List.map_cons, foldE, Dict.keys] at ih ⊢
    cases visit s p.1 with
    | error e => rfl
    | ok t => exact ih t

theorem filterMap_some (l : Dict (Node T D)) :
    (l.map (fun p => (p.1, some p.2))).filterMap (fun p => p.2.map (fun n => (p.1, n))) = l := by
  induction l with
  | nil => rfl
  | cons p l ih => simp only [List.map_cons, List.filterMap_cons, Option.map_some, ih]

/-- a loop over the items that is fine on the node objects ends in an AttributeError when an entry is `None` -/
theorem visitAll_hole {σ : Type} {g : OGraph T D} (visit : σ → Str → Except Err σ) (s : σ) {t : σ}
    (hok : foldE visit s (Dict.keys g.objs.nodes) = .ok t) {i : Str} (hi : Hole g i) : visitAll visit s g.nodes = .error .attribute := by
  obtain ⟨pre, k, post, e⟩ := split_hole g.nodes (Dict.mem_of_get? hi)
  have ek : Dict.keys g.objs.nodes = Dict.keys pre ++ Dict.keys (post.filterMap (fun p => p.2.map (fun n => (p.1, n)))) := by
    simp only [objs, e, List.filterMap_append, filterMap_some, List.filterMap_cons, Option.map_none, Dict.keys, List.map_append]
  rw [ek, Graph.foldE_append] at hok
  rw [e]
  unfold visitAll
  rw [Graph.foldE_append]
  have := visitAll_some visit pre s
  unfold visitAll at this
  rw [this]
  cases hp : foldE visit s (Dict.keys pre) with
  | error x => rw [hp] at hok; cases hok
  | ok s' => rfl

theorem getNodesBy_hole {g : OGraph T D} (rel : Node T D → List Str) {l : List Str} (hok : Graph.getNodesBy g.objs rel = .ok l)
    {i : Str} (hi : Hole g i) : getNodesBy g rel = .error .attribute := by
  unfold Graph.getNodesBy at hok
  cases h : foldE (Graph.walk g.objs rel (g.objs.nodes.length + 1)) ([], []) (Dict.keys g.objs.nodes) with
  | error e => rw [h] at hok; cases hok
  | ok w =>
    unfold getNodesBy
    rw [visitAll_hole _ _ h hi]

theorem circAll_foldE (g : Graph T D) (ids : List Str) : ∀ a, Graph.circAll g ids a =
    foldE (fun (a : List Str × CState) id => match Graph.circVisit g (g.nodes.length + 1) a.2 id with
      | .error e => .error e
      | .ok (r, s) => .ok (a.1 ++ r, s)) a ids := by
  induction ids with
  | nil => intro a; rfl
  | cons id ids ih =>
    intro a
    obtain ⟨acc, s⟩ := a
    simp only [Graph.circAll, foldE]
    cases Graph.circVisit g (g.nodes.length + 1) s id with
    | error e => rfl
    | ok q => obtain ⟨r, s'⟩ := q; exact ih _

theorem circular_hole {g : OGraph T D} {l : List Str} (hok : Graph.circular g.objs = .ok l) {i : Str} (hi : Hole g i) :
    circular g = .error .attribute := by
  unfold Graph.circular at hok
  rw [circAll_foldE] at hok
  generalize hq : foldE _ _ _ = q at hok
  cases q with
  | error e => cases hok
  | ok w =>
    unfold circular
    have := visitAll_hole _ _ hq hi
    generalize hv : visitAll _ _ _ = v
    have hv' := hv.symm.trans this
    rw [hv']

theorem heads_hole {g : OGraph T D} (hg : OWF g) {i : Str} (hi : Hole g i) : heads g = .error .attribute := by
  obtain ⟨hs, h, -⟩ := Graph.heads_spec hg.wf
  exact getNodesBy_hole _ h hi

theorem tails_hole {g : OGraph T D} (hg : OWF g) {i : Str} (hi : Hole g i) : tails g = .error .attribute := by
  obtain ⟨hs, h, -⟩ := Graph.tails_spec hg.wf
  exact getNodesBy_hole _ h hi

theorem validate_hole [DecidableEq T] (root : T) {g : OGraph T D} (hg : OWF g) {i : Str} (hi : Hole g i) : validate root g = .error .attribute := by
  obtain ⟨cs, h, -⟩ := Graph.circular_spec hg.wf.closed_children
  unfold validate
  rw [circular_hole h hi]

/-! ### Graphs without such entries -/

theorem nodes_full {g : OGraph T D} (hg : (Dict.keys g.nodes).Nodup) (h : ∀ i, ¬ Hole g i) :
    g.nodes = g.objs.nodes.map (fun p => (p.1, some p.2)) := by
  have key : ∀ l : Dict (Option (Node T D)), (∀ p ∈ l, p.2 ≠ none) →
      l = (l.filterMap (fun p => p.2.map (fun n => (p.1, n)))).map (fun p => (p.1, some p.2)) := by
    intro l
    induction l with
    | nil => intro _; rfl
    | cons p l ih =>
      intro hl
      obtain ⟨k, v⟩ := p
      cases v with
      | none => exact absurd rfl (hl (k, none) (by simp))
      | some n =>
        simp only [List.filterMap_cons, Option.map_some, List.map_cons]
        rw [← ih (fun p hp => hl p (by simp [hp]))]
  refine key g.nodes ?_
  intro p hp e
  obtain ⟨k, v⟩ := p
  simp only at e; subst e
  exact h k (Dict.get?_of_mem hg hp)

theorem getNodesBy_full {g : OGraph T D} (hg : (Dict.keys g.nodes).Nodup) (h : ∀ i, ¬ Hole g i) (rel : Node T D → List Str) :
    getNodesBy g rel = Graph.getNodesBy g.objs rel := by
  have e := visitAll_some (Graph.walk g.objs rel (g.objs.nodes.length + 1)) g.objs.nodes ([], [])
  rw [← nodes_full hg h] at e
  unfold getNodesBy Graph.getNodesBy
  rw [e]
  rfl

theorem circular_full {g : OGraph T D} (hg : (Dict.keys g.nodes).Nodup) (h : ∀ i, ¬ Hole g i) : circular g = Graph.circular g.objs := by
  unfold circular Graph.circular
  rw [circAll_foldE]
  conv => lhs; rw [nodes_full hg h]
  rw [visitAll_some]
  rfl

theorem validate_full [DecidableEq T] (root : T) {g : OGraph T D} (hg : (Dict.keys g.nodes).Nodup) (h : ∀ i, ¬ Hole g i) :
    validate root g = Graph.validate root g.objs := by
  unfold validate Graph.validate unconnected Graph.unconnected heads Graph.heads
  simp only [circular_full hg h, getNodesBy_full hg h, getNode_objs hg]
  rfl

theorem seqOrder_full {g : OGraph T D} (hg : (Dict.keys g.nodes).Nodup) (h : ∀ i, ¬ Hole g i) : seqOrder g = Graph.seqOrder g.objs := by
  unfold seqOrder Graph.seqOrder heads Graph.heads
  simp only [getNodesBy_full hg h]
  rfl

theorem has_full {g : OGraph T D} (hg : (Dict.keys g.nodes).Nodup) (h : ∀ i, ¬ Hole g i) (x : Str) : Dict.has g.nodes x = Dict.has g.objs.nodes x := by
  have : Dict.keys g.nodes = Dict.keys g.objs.nodes := by
    conv => lhs; rw [nodes_full hg h]
    simp [Dict.keys, List.map_map, Function.comp_def]
  rw [Bool.eq_iff_iff, Dict.has_iff_mem_keys, Dict.has_iff_mem_keys, this]

theorem allPaths_full [DecidableEq T] (root : T) {g : OGraph T D} (hg : (Dict.keys g.nodes).Nodup) (h : ∀ i, ¬ Hole g i) (a b : Str) (d : Int) :
    allPaths root g a b d = Graph.allPaths root g.objs a b d := by
  unfold allPaths Graph.allPaths
  simp only [validate_full root hg h, has_full hg h]
  rfl

/-! ### Factories that create every node asked for -/

theorem skipUsed_full {g : OGraph T D} (hg : (Dict.keys g.nodes).Nodup) (h : ∀ i, ¬ Hole g i) (f : Nat) : ∀ n,
    skipUsed g.nodes f n = Graph.skipUsed g.objs.nodes f n := by
  induction f with
  | zero => intro n; rfl
  | succ f ih => intro n; simp only [skipUsed, Graph.skipUsed, has_full hg h, ih]

theorem length_full {g : OGraph T D} (hg : (Dict.keys g.nodes).Nodup) (h : ∀ i, ¬ Hole g i) : g.nodes.length = g.objs.nodes.length := by
  conv => lhs; rw [nodes_full hg h]
  simp

theorem genId_full {g : OGraph T D} (hg : (Dict.keys g.nodes).Nodup) (h : ∀ i, ¬ Hole g i) : onObjs (genId g) = Graph.genId g.objs := by
  unfold genId Graph.genId
  rw [skipUsed_full hg h, length_full hg h]
  have : g.objs.idGen = g.idGen := rfl
  rw [this]
  cases Graph.skipUsed g.objs.nodes (g.objs.nodes.length + 1) (g.idGen + 1) <;> rfl

theorem addNode_full {g : OGraph T D} (hg : (Dict.keys g.nodes).Nodup) (h : ∀ i, ¬ Hole g i) {fac : OFactory T} {fac' : Factory T}
    (nid : IdArg) (data : D) (ty : T) (hf : fac ty = some (fac' ty)) :
    (addNode fac g nid data ty).1 = (Graph.addNode fac' g.objs nid data ty).1.map some ∧
    (addNode fac g nid data ty).2.objs = (Graph.addNode fac' g.objs nid data ty).2 ∧ ∀ i, ¬ Hole (addNode fac g nid data ty).2 i := by
  obtain ⟨m, hm, -⟩ := genId_spec g
  have e := genId_full hg h
  rw [hm] at e
  unfold addNode Graph.addNode
  rw [hm, ← e]
  have fill : ∀ (i : Str) (n : Node T D), i ∉ Dict.keys g.nodes → (OGraph.mk m (g.counter + 1) (Dict.set g.nodes i (some n))).objs =
      Graph.mk m (g.counter + 1) (Dict.set g.objs.nodes i n) ∧ ∀ j, ¬ Hole (OGraph.mk m (g.counter + 1) (Dict.set g.nodes i (some n))) j := by
    intro i n hi
    rw [Dict.set_of_not_mem _ _ _ hi, Dict.set_of_not_mem _ _ _ (fun hh => hi (objs_keys_sub g i hh))]
    refine ⟨by simp [objs], ?_⟩
    intro j hj
    simp only [Hole, Graph.get?_append_single _ _ _ hi] at hj
    split at hj
    · cases hj
    · exact h j hj
  obtain ⟨m', hm', hn⟩ := genId_spec g
  rw [hm] at hm'
  have : natStr m ∉ Dict.keys g.nodes := by
    injection hm' with h1 h2
    injection h1 with h1
    rw [h1]; exact hn
  cases nid with
  | nonStr => exact ⟨rfl, rfl, h⟩
  | absent =>
    obtain ⟨a, b⟩ := fill (natStr m) ⟨natStr m, data, (fac' ty).1, natStr m, (fac' ty).2, [], []⟩ this
    simp only [onObjs, hf, Option.map_some]
    exact ⟨rfl, a, b⟩
  | str s =>
    have hh : Dict.has ({ g with idGen := m } : OGraph T D).objs.nodes s = Dict.has g.nodes s := (has_full hg h s).symm
    simp only [onObjs, hf, Option.map_some, hh]
    by_cases hs : Dict.has g.nodes s
    · simp only [hs, if_true]; exact ⟨rfl, trivial, h⟩
    · simp only [hs, Bool.false_eq_true, if_false]
      obtain ⟨a, b⟩ := fill s ⟨s, data, (fac' ty).1, natStr m, (fac' ty).2, [], []⟩ (fun hk => hs ((Dict.has_iff_mem_keys _ _).2 hk))
      exact ⟨rfl, a, b⟩

/-- the call asks only for types of which the factory makes the node that `fac'` describes -/
def Creates (fac : OFactory T) (fac' : Factory T) : Op T D → Prop
  | .addNode _ _ t => fac t = some (fac' t)
  | _ => True

theorem step_full [DecidableEq T] {g : OGraph T D} (hg : OWF g) (h : ∀ i, ¬ Hole g i) {fac : OFactory T} {fac' : Factory T} (op : Op T D)
    (hf : Creates fac fac' op) : (step fac g op).objs = Graph.step fac' g.objs op ∧ ∀ i, ¬ Hole (step fac g op) i := by
  cases op with
  | addNode i d t => exact (addNode_full hg.keys h i d t hf).2
  | addEdge p c =>
    have a := addEdge_acts hg.keys p c
    exact ⟨congrArg Prod.snd a.1, fun i hi => h i ((a.2.holes i).1 hi)⟩
  | removeEdge p c =>
    have a := removeEdge_acts hg.keys p c
    exact ⟨congrArg Prod.snd a.1, fun i hi => h i ((a.2.holes i).1 hi)⟩
  | removeNode j =>
    have a := removeNode_acts hg.keys j
    exact ⟨congrArg Prod.snd a.1, fun i hi => h i ((a.2.2 i).1 hi)⟩
  | genId =>
    have a := genId_full hg.keys h
    obtain ⟨m, e, -⟩ := genId_spec g
    refine ⟨congrArg Prod.snd a, ?_⟩
    intro i hi
    simp only [step, e] at hi
    exact h i hi

theorem run_full [DecidableEq T] {fac : OFactory T} {fac' : Factory T} (ops : List (Op T D)) (hf : ∀ op ∈ ops, Creates fac fac' op) :
    (run fac ops).objs = Graph.run fac' ops ∧ ∀ i, ¬ Hole (run fac ops) i := by
  have key : ∀ (ops : List (Op T D)), (∀ op ∈ ops, Creates fac fac' op) → ∀ g : OGraph T D, OWF g → (∀ i, ¬ Hole g i) →
      (runFrom fac g ops).objs = ops.foldl (Graph.step fac') g.objs ∧ ∀ i, ¬ Hole (runFrom fac g ops) i := by
    intro ops
    induction ops with
    | nil => intro _ g _ h; exact ⟨rfl, h⟩
    | cons op ops ih =>
      intro hf g hg h
      obtain ⟨a, b⟩ := step_full hg h op (hf op (by simp))
      have := ih (fun o ho => hf o (by simp [ho])) _ (owf_step hg fac op) b
      rw [a] at this
      exact this
  refine key ops hf empty owf_empty ?_
  intro i hi
  cases hi

end OGraph
end Spine
