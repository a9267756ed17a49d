import Verif.Model.Bulk
import Verif.Lemmas.Restrict
import Verif.Lemmas.BuildRead
/-
C69: removals by name.  C70: the numbers of parents and children.  C71: the record of erased nodes.
-/
set_option linter.unusedSectionVars false
namespace Spine
open Graph
variable {F : Type}

namespace Container

/-- the graph `h` is `g` without the nodes `S`: nodes and edges -/
structure Without (g h : SGraph F) (S : List Str) : Prop where
  keys : Dict.keys h.nodes = (Dict.keys g.nodes).filter (fun x => x ∉ S)
  info : ∀ x n, getNode h x = some n → ∃ m, getNode g x = some m ∧ Node.sameInfo n m
  edge : ∀ x y, Edge h x y ↔ Edge g x y ∧ x ∉ S ∧ y ∉ S
  back : ∀ x y, BackEdge h x y ↔ BackEdge g x y ∧ x ∉ S ∧ y ∉ S

theorem without_restrict (g : SGraph F) (S : List Str) : Without g (restrict g S) S := by
  refine ⟨keys_restrict g S, ?_, edge_restrict g S, backEdge_restrict g S⟩
  intro x n h
  rw [getNode_restrict] at h
  split at h
  · cases h
  · cases hx : getNode g x with
    | none => rw [hx] at h; cases h
    | some m => rw [hx] at h; injection h with h; subst h; exact ⟨m, rfl, rfl, rfl, rfl, rfl, rfl⟩

/-- the ids `ids` are removed one by one: all of them, or those before the first that is unknown or repeated -/
theorem removeSlots_spec (l : List Str) : ∀ {g : SGraph F}, WF g →
    (∃ ns, removeSlots l g = (.ok ns, restrict g (l.map (graphId .slot))) ∧ (l.map (graphId .slot)).Nodup ∧
      (∀ x ∈ l, HasNode g (graphId .slot x)) ∧ ns.map (·.id) = l.map (graphId .slot) ∧
      ∀ n ∈ ns, ∃ m, getNode g n.id = some m ∧ Node.sameInfo n m) ∨
    (∃ pre x post, l = pre ++ x :: post ∧ (pre.map (graphId .slot)).Nodup ∧ (∀ y ∈ pre, HasNode g (graphId .slot y)) ∧
      (graphId .slot x ∈ pre.map (graphId .slot) ∨ ¬ HasNode g (graphId .slot x)) ∧
      removeSlots l g = (.error .value, restrict g (pre.map (graphId .slot)))) := by
  induction l with
  | nil => intro g _; exact .inl ⟨[], by simp [removeSlots, restrict_nil], by simp, by simp, rfl, by simp⟩
  | cons x r ih =>
    intro g hg
    by_cases hx : HasNode g (graphId .slot x)
    · obtain ⟨n, hn⟩ := hx
      have hid := hg.id_eq hn
      rcases ih (wf_restrict hg [graphId .slot x]) with ⟨ns, e, hd, hh, hi, hs⟩ | ⟨pre, y, post, e, hd, hh, hy, er⟩
      · left
        refine ⟨n :: ns, ?_, ?_, ?_, ?_, ?_⟩
        · simp only [removeSlots, removeNode_eq hg hn, e, restrict_restrict]; rfl
        · rw [List.map_cons, List.nodup_cons]
          refine ⟨?_, hd⟩
          intro hm
          obtain ⟨y, hy, e⟩ := List.mem_map.1 hm
          have := ((hasNode_restrict g _ _).1 (hh y hy)).2
          simp [e] at this
        · intro y hy
          rcases List.mem_cons.1 hy with rfl | hy
          · exact ⟨n, hn⟩
          · exact ((hasNode_restrict g _ _).1 (hh y hy)).1
        · rw [List.map_cons, List.map_cons, hi, hid]
        · intro m hm
          rcases List.mem_cons.1 hm with rfl | hm
          · rw [hid]; exact ⟨m, hn, rfl, rfl, rfl, rfl, rfl⟩
          · obtain ⟨k, hk, a1, a2, a3, a4, a5⟩ := hs m hm
            obtain ⟨k', hk', b1, b2, b3, b4, b5⟩ := (without_restrict g _).info _ _ hk
            exact ⟨k', hk', a1.trans b1, a2.trans b2, a3.trans b3, a4.trans b4, a5.trans b5⟩
      · right
        refine ⟨x :: pre, y, post, by rw [e]; rfl, ?_, ?_, ?_, ?_⟩
        · rw [List.map_cons, List.nodup_cons]
          refine ⟨?_, hd⟩
          intro hm
          obtain ⟨z, hz, e⟩ := List.mem_map.1 hm
          have := ((hasNode_restrict g _ _).1 (hh z hz)).2
          simp [e] at this
        · intro z hz
          rcases List.mem_cons.1 hz with rfl | hz
          · exact ⟨n, hn⟩
          · exact ((hasNode_restrict g _ _).1 (hh z hz)).1
        · rcases hy with hy | hy
          · left; simp only [List.map_cons, List.mem_cons]; exact .inr hy
          · by_cases h : graphId .slot y = graphId .slot x
            · left; simp [h]
            · right
              intro hh
              exact hy ((hasNode_restrict g _ _).2 ⟨hh, by simpa using h⟩)
        · simp only [removeSlots, removeNode_eq hg hn, er, restrict_restrict]; rfl
    · right
      exact ⟨[], x, r, rfl, by simp, by simp, .inr hx, by simp only [removeSlots, removeNode_missing hx, List.map_nil, restrict_nil]⟩

theorem removeAttachments_spec (l : List Str) : ∀ {g : SGraph F}, WF g →
    (∃ ns : List (SNode F), removeAttachments l g = (.ok (ns.map some), restrict g (l.map (graphId .attachment))) ∧ (l.map (graphId .attachment)).Nodup ∧
      (∀ x ∈ l, HasNode g (graphId .attachment x)) ∧ ns.map (·.id) = l.map (graphId .attachment) ∧
      ∀ n ∈ ns, ∃ m, getNode g n.id = some m ∧ Node.sameInfo n m) ∨
    (∃ pre x post, l = pre ++ x :: post ∧ (pre.map (graphId .attachment)).Nodup ∧ (∀ y ∈ pre, HasNode g (graphId .attachment y)) ∧
      (graphId .attachment x ∈ pre.map (graphId .attachment) ∨ ¬ HasNode g (graphId .attachment x)) ∧
      removeAttachments l g = (.error .value, restrict g (pre.map (graphId .attachment)))) := by
  induction l with
  | nil => intro g _; exact .inl ⟨[], by simp [removeAttachments, restrict_nil], by simp, by simp, rfl, by simp⟩
  | cons x r ih =>
    intro g hg
    by_cases hx : HasNode g (graphId .attachment x)
    · obtain ⟨n, hn⟩ := hx
      have hid := hg.id_eq hn
      rcases ih (wf_restrict hg [graphId .attachment x]) with ⟨ns, e, hd, hh, hi, hs⟩ | ⟨pre, y, post, e, hd, hh, hy, er⟩
      · left
        refine ⟨n :: ns, ?_, ?_, ?_, ?_, ?_⟩
        · simp only [removeAttachments, removeAttachment, removeNode_eq hg hn, hn, e, restrict_restrict]; rfl
        · rw [List.map_cons, List.nodup_cons]
          refine ⟨?_, hd⟩
          intro hm
          obtain ⟨y, hy, e⟩ := List.mem_map.1 hm
          have := ((hasNode_restrict g _ _).1 (hh y hy)).2
          simp [e] at this
        · intro y hy
          rcases List.mem_cons.1 hy with rfl | hy
          · exact ⟨n, hn⟩
          · exact ((hasNode_restrict g _ _).1 (hh y hy)).1
        · rw [List.map_cons, List.map_cons, hi, hid]
        · intro m hm
          rcases List.mem_cons.1 hm with rfl | hm
          · rw [hid]; exact ⟨m, hn, rfl, rfl, rfl, rfl, rfl⟩
          · obtain ⟨k, hk, a1, a2, a3, a4, a5⟩ := hs m hm
            obtain ⟨k', hk', b1, b2, b3, b4, b5⟩ := (without_restrict g _).info _ _ hk
            exact ⟨k', hk', a1.trans b1, a2.trans b2, a3.trans b3, a4.trans b4, a5.trans b5⟩
      · right
        refine ⟨x :: pre, y, post, by rw [e]; rfl, ?_, ?_, ?_, ?_⟩
        · rw [List.map_cons, List.nodup_cons]
          refine ⟨?_, hd⟩
          intro hm
          obtain ⟨z, hz, e⟩ := List.mem_map.1 hm
          have := ((hasNode_restrict g _ _).1 (hh z hz)).2
          simp [e] at this
        · intro z hz
          rcases List.mem_cons.1 hz with rfl | hz
          · exact ⟨n, hn⟩
          · exact ((hasNode_restrict g _ _).1 (hh z hz)).1
        · rcases hy with hy | hy
          · left; simp only [List.map_cons, List.mem_cons]; exact .inr hy
          · by_cases h : graphId .attachment y = graphId .attachment x
            · left; simp [h]
            · right
              intro hh
              exact hy ((hasNode_restrict g _ _).2 ⟨hh, by simpa using h⟩)
        · simp only [removeAttachments, removeAttachment, removeNode_eq hg hn, er, restrict_restrict]; rfl
    · right
      exact ⟨[], x, r, rfl, by simp, by simp, .inr hx, by
        simp only [removeAttachments, removeAttachment, removeNode_missing hx, List.map_nil, restrict_nil]⟩

/-- The model of the editor uses the same removals without their return values. -/
theorem removeNamed_slots (l : List Str) : ∀ g : SGraph F, removeNamed .slot l g = ((removeSlots l g).1.map (fun _ => ()), (removeSlots l g).2) := by
  induction l with
  | nil => intro g; rfl
  | cons x r ih =>
    intro g
    simp only [removeNamed, removeSlots]
    rcases removeNode g (graphId .slot x) with ⟨_ | n, g'⟩
    · rfl
    · simp only [ih g']
      rcases removeSlots r g' with ⟨_ | l, g''⟩ <;> rfl

theorem removeNamed_attachments (l : List Str) : ∀ g : SGraph F,
    removeNamed .attachment l g = ((removeAttachments l g).1.map (fun _ => ()), (removeAttachments l g).2) := by
  induction l with
  | nil => intro g; rfl
  | cons x r ih =>
    intro g
    simp only [removeNamed, removeAttachments, removeAttachment]
    rcases removeNode g (graphId .attachment x) with ⟨_ | n, g'⟩
    · rfl
    · simp only [ih g']
      rcases removeAttachments r g' with ⟨_ | l, g''⟩ <;> rfl

/-- C69: `remove_slots` succeeds exactly when the names are distinct names of slots of the graph.  It then returns the slots' nodes in the
order of the names, with their data, and the graph has lost exactly these nodes and their edges.  Otherwise it raises ValueError at
the first name that is unknown or repeated, and the graph has lost the nodes before it. -/
theorem c69_remove_slots (ops : List (Graph.Op NType (Int × JVal F))) (l : List Str) (g : SGraph F) (hg : g = run spineFactory ops) :
    (l.Nodup ∧ (∀ x ∈ l, HasNode g (graphId .slot x)) ∧ ∃ ns h, removeSlots l g = (.ok ns, h) ∧ ns.map (·.id) = l.map (graphId .slot) ∧
      (∀ n ∈ ns, ∃ m, getNode g n.id = some m ∧ Node.sameInfo n m) ∧ Without g h (l.map (graphId .slot))) ∨
    (∃ pre x post h, l = pre ++ x :: post ∧ pre.Nodup ∧ (∀ y ∈ pre, HasNode g (graphId .slot y)) ∧
      (x ∈ pre ∨ ¬ HasNode g (graphId .slot x)) ∧ removeSlots l g = (.error .value, h) ∧ Without g h (pre.map (graphId .slot))) := by
  have hw : WF g := by rw [hg]; exact wf_run _ _
  rcases removeSlots_spec l hw with ⟨ns, e, hd, hh, hi, hs⟩ | ⟨pre, x, post, e, hd, hh, hx, er⟩
  · exact .inl ⟨(List.pairwise_map.1 hd).imp (fun h e => h (by rw [e])), hh, ns, _, e, hi, hs, without_restrict _ _⟩
  · refine .inr ⟨pre, x, post, _, e, (List.pairwise_map.1 hd).imp (fun h e => h (by rw [e])), hh, ?_, er, without_restrict _ _⟩
    rcases hx with hx | hx
    · obtain ⟨y, hy, e⟩ := List.mem_map.1 hx
      rw [← (graphId_inj e).2]; exact .inl hy
    · exact .inr hx

/-- C69: the same for `remove_attachments`. -/
theorem c69_remove_attachments (ops : List (Graph.Op NType (Int × JVal F))) (l : List Str) (g : SGraph F) (hg : g = run spineFactory ops) :
    (l.Nodup ∧ (∀ x ∈ l, HasNode g (graphId .attachment x)) ∧ ∃ (ns : List (SNode F)) (h : SGraph F), removeAttachments l g = (.ok (ns.map some), h) ∧
      ns.map (·.id) = l.map (graphId .attachment) ∧ (∀ n ∈ ns, ∃ m, getNode g n.id = some m ∧ Node.sameInfo n m) ∧
      Without g h (l.map (graphId .attachment))) ∨
    (∃ pre x post h, l = pre ++ x :: post ∧ pre.Nodup ∧ (∀ y ∈ pre, HasNode g (graphId .attachment y)) ∧
      (x ∈ pre ∨ ¬ HasNode g (graphId .attachment x)) ∧ removeAttachments l g = (.error .value, h) ∧
      Without g h (pre.map (graphId .attachment))) := by
  have hw : WF g := by rw [hg]; exact wf_run _ _
  rcases removeAttachments_spec l hw with ⟨ns, e, hd, hh, hi, hs⟩ | ⟨pre, x, post, e, hd, hh, hx, er⟩
  · exact .inl ⟨(List.pairwise_map.1 hd).imp (fun h e => h (by rw [e])), hh, ns, _, e, hi, hs, without_restrict _ _⟩
  · refine .inr ⟨pre, x, post, _, e, (List.pairwise_map.1 hd).imp (fun h e => h (by rw [e])), hh, ?_, er, without_restrict _ _⟩
    rcases hx with hx | hx
    · obtain ⟨y, hy, e⟩ := List.mem_map.1 hx
      rw [← (graphId_inj e).2]; exact .inl hy
    · exact .inr hx

/-- the graph of the examples: two slots on a bone, one attachment in both -/
def twoSlots : List (Graph.Op NType (Int × JVal Rat)) :=
  [.addNode (.str s!!"root_BONE") (0, .null) .bone, .addNode (.str s!!"a_SLOT") (0, .null) .slot, .addNode (.str s!!"b_SLOT") (1, .null) .slot,
   .addEdge s!!"root_BONE" s!!"a_SLOT", .addEdge s!!"root_BONE" s!!"b_SLOT", .addNode (.str s!!"x_ATTACHMENT") (-1, .null) .attachment,
   .addEdge s!!"a_SLOT" s!!"x_ATTACHMENT", .addEdge s!!"b_SLOT" s!!"x_ATTACHMENT"]

-- all of them; an unknown one after a known one; a repeated one
example : ((removeSlots [s!!"b", s!!"a"] (run spineFactory twoSlots)).1.toOption.map (fun l => l.map (·.id))) = some [s!!"b_SLOT", s!!"a_SLOT"] ∧
    Dict.keys (removeSlots [s!!"b", s!!"a"] (run spineFactory twoSlots)).2.nodes = [s!!"root_BONE", s!!"x_ATTACHMENT"] ∧
    (removeSlots [s!!"a", s!!"c", s!!"b"] (run spineFactory twoSlots)).1.toOption.isNone = true ∧
    Dict.keys (removeSlots [s!!"a", s!!"c", s!!"b"] (run spineFactory twoSlots)).2.nodes = [s!!"root_BONE", s!!"b_SLOT", s!!"x_ATTACHMENT"] ∧
    (removeAttachments [s!!"x", s!!"x"] (run spineFactory twoSlots)).1.toOption.isNone = true := by
  decide +kernel

end Container

/-! ### Numbers of parents and children -/
section Counts
variable {T D : Type} [DecidableEq T]

theorem length_eq_of_mem {l m : List Str} (hl : l.Nodup) (hm : m.Nodup) (h : ∀ x, x ∈ l ↔ x ∈ m) : l.length = m.length :=
  Nat.le_antisymm (length_le_of_nodup_subset hl (fun x hx => (h x).1 hx)) (length_le_of_nodup_subset hm (fun x hx => (h x).2 hx))

/-- C70: `num_children` of a node is the number of nodes that have it among their parents, and `num_parents` the number of nodes that
have it among their children. -/
theorem c70_counts (fac : Factory T) (ops : List (Graph.Op T D)) (x : Str) (n : Node T D) (h : getNode (run fac ops) x = some n) :
    n.numChildren = ((Dict.keys (run fac ops).nodes).filter (fun y => decide (x ∈ ((getNode (run fac ops) y).map (·.parents)).getD []))).length ∧
    n.numParents = ((Dict.keys (run fac ops).nodes).filter (fun y => decide (x ∈ ((getNode (run fac ops) y).map (·.children)).getD []))).length := by
  have hg := wf_run fac ops
  generalize run fac ops = g at *
  constructor
  · refine length_eq_of_mem (hg.children_nodup h) (hg.keys_nodup.sublist List.filter_sublist) ?_
    intro y
    simp only [List.mem_filter, decide_eq_true_eq]
    constructor
    · intro hy
      obtain ⟨m, hm, hp⟩ := hg.child_link h hy
      exact ⟨Dict.mem_keys_of_get? hm, by rw [hm]; exact hp⟩
    · rintro ⟨-, hp⟩
      cases hm : getNode g y with
      | none => rw [hm] at hp; simp at hp
      | some m =>
        rw [hm] at hp
        obtain ⟨n', hn', hc⟩ := hg.parent_link hm hp
        rw [h] at hn'; injection hn' with hn'; subst hn'; exact hc
  · refine length_eq_of_mem (hg.parents_nodup h) (hg.keys_nodup.sublist List.filter_sublist) ?_
    intro y
    simp only [List.mem_filter, decide_eq_true_eq]
    constructor
    · intro hy
      obtain ⟨m, hm, hp⟩ := hg.parent_link h hy
      exact ⟨Dict.mem_keys_of_get? hm, by rw [hm]; exact hp⟩
    · rintro ⟨-, hp⟩
      cases hm : getNode g y with
      | none => rw [hm] at hp; simp at hp
      | some m =>
        rw [hm] at hp
        obtain ⟨n', hn', hc⟩ := hg.child_link hm hp
        rw [h] at hn'; injection hn' with hn'; subst hn'; exact hc

theorem sum_map_add (l : List Str) (f h : Str → Nat) : (l.map (fun x => f x + h x)).sum = (l.map f).sum + (l.map h).sum := by
  induction l with
  | nil => rfl
  | cons a l ih => simp only [List.map_cons, List.sum_cons, ih]; omega

/-- counting pairs by rows or by columns -/
theorem double_count (R : Str → Str → Bool) (l : List Str) : ∀ m : List Str,
    (l.map (fun x => (m.filter (fun y => R x y)).length)).sum = (m.map (fun y => (l.filter (fun x => R x y)).length)).sum := by
  induction l with
  | nil => intro m; simp only [List.map_nil, List.sum_nil, List.filter_nil, List.length_nil]; induction m with
    | nil => rfl
    | cons b m ih => simpa using ih
  | cons a l ih =>
    intro m
    have e : (fun y => ((a :: l).filter (fun x => R x y)).length) = (fun y => (if R a y then 1 else 0) + (l.filter (fun x => R x y)).length) := by
      funext y
      by_cases h : R a y <;> simp [h, Nat.add_comm]
    rw [e, sum_map_add, List.map_cons, List.sum_cons, ih m]
    congr 1
    clear e ih
    induction m with
    | nil => rfl
    | cons b m ih => by_cases h : R a b <;> simp [h, ih, Nat.add_comm]

theorem sum_nodes {g : Graph T D} (hg : WF g) (f : Node T D → Nat) :
    ((Dict.values g.nodes).map f).sum = ((Dict.keys g.nodes).map (fun x => ((getNode g x).map f).getD 0)).sum := by
  simp only [Dict.values, Dict.keys, List.map_map]
  congr 1
  apply List.map_congr_left
  rintro ⟨k, n⟩ hp
  simp only [Function.comp_apply, getNode, Dict.get?_of_mem hg.keys_nodup hp, Option.map_some, Option.getD_some]

/-- C70: over all nodes of a graph the numbers of children and the numbers of parents have the same sum. -/
theorem c70_sum (fac : Factory T) (ops : List (Graph.Op T D)) :
    ((Dict.values (run fac ops).nodes).map Node.numChildren).sum = ((Dict.values (run fac ops).nodes).map Node.numParents).sum := by
  have hg := wf_run fac ops
  rw [sum_nodes hg, sum_nodes hg]
  have hc := c70_counts fac ops
  generalize run fac ops = g at *
  have e1 : (Dict.keys g.nodes).map (fun x => ((getNode g x).map Node.numChildren).getD 0) = (Dict.keys g.nodes).map (fun x =>
      ((Dict.keys g.nodes).filter (fun y => decide (x ∈ ((getNode g y).map (·.parents)).getD []))).length) := by
    apply List.map_congr_left
    intro x hx
    cases h : getNode g x with
    | none => exact absurd hx ((Dict.get?_eq_none_iff _ _).1 h)
    | some n => exact (hc x n h).1
  rw [e1, double_count (fun x y => decide (x ∈ ((getNode g y).map (·.parents)).getD []))]
  congr 1
  apply List.map_congr_left
  intro y hy
  cases h : getNode g y with
  | none => exact absurd hy ((Dict.get?_eq_none_iff _ _).1 h)
  | some n =>
    show ((Dict.keys g.nodes).filter (fun x => decide (x ∈ n.parents))).length = n.parents.length
    refine length_eq_of_mem (hg.keys_nodup.sublist List.filter_sublist) (hg.parents_nodup h) ?_
    intro x
    simp only [List.mem_filter, decide_eq_true_eq]
    constructor
    · exact fun h => h.2
    · intro hx
      obtain ⟨m, hm, -⟩ := hg.parent_link h hx
      exact ⟨Dict.mem_keys_of_get? hm, hx⟩

example : ((Dict.values (run spineFactory Container.twoSlots).nodes).map Node.numChildren) = [2, 1, 1, 0] ∧
    ((Dict.values (run spineFactory Container.twoSlots).nodes).map Node.numParents) = [0, 1, 1, 2] := by decide +kernel

end Counts

/-! ### The record of erased nodes -/
namespace EraserResult

/-- the record after saving nodes (type, id) in order -/
def saveAll (l : List (Str × Str)) : EraserResult := l.foldl (fun r p => r.save p.1 p.2) new

theorem get?_save (r : EraserResult) (ty id t : Str) : Dict.get? (r.save ty id).erased t =
    if t = ty then some (let s := (Dict.get? r.erased ty).getD []; if id ∈ s then s else s ++ [id]) else Dict.get? r.erased t := by
  simp only [save, Dict.get?_modify]
  by_cases h : t = ty
  · subst h
    simp only [if_true]
    by_cases hh : Dict.has r.erased t
    · simp only [hh, if_true]
      cases hg : Dict.get? r.erased t with
      | none => simp [Dict.has, hg] at hh
      | some s => simp
    · simp only [hh, Bool.false_eq_true, if_false, Dict.get?_set, if_true, Option.map_some]
      have : Dict.get? r.erased t = none := by simpa [Dict.has] using hh
      simp [this]
  · simp only [h, if_false]
    split
    · rfl
    · simp only [Dict.get?_set, h, if_false]

theorem spec (l : List (Str × Str)) (r : EraserResult) (t : Str) (hr : ((Dict.get? r.erased t).getD []).Nodup) :
    (∀ id, id ∈ (Dict.get? (l.foldl (fun r p => r.save p.1 p.2) r).erased t).getD [] ↔ id ∈ (Dict.get? r.erased t).getD [] ∨ (t, id) ∈ l) ∧
    ((Dict.get? (l.foldl (fun r p => r.save p.1 p.2) r).erased t).getD []).Nodup ∧
    (Dict.has (l.foldl (fun r p => r.save p.1 p.2) r).erased t = true ↔ Dict.has r.erased t = true ∨ ∃ id, (t, id) ∈ l) := by
  induction l generalizing r with
  | nil => exact ⟨by simp, hr, by simp⟩
  | cons p l ih =>
    obtain ⟨ty, i⟩ := p
    have g := get?_save r ty i t
    by_cases h : t = ty
    · subst h
      rw [if_pos rfl] at g
      have nd : ((Dict.get? (r.save t i).erased t).getD []).Nodup := by
        rw [g]
        simp only [Option.getD_some]
        split
        · exact hr
        · rename_i hi
          rw [List.nodup_append]
          refine ⟨hr, by simp, ?_⟩
          intro a ha b hb
          simp at hb; subst hb
          rintro rfl; exact hi ha
      obtain ⟨a, b, c⟩ := ih (r.save t i) nd
      refine ⟨?_, b, ?_⟩
      · intro id
        simp only [List.foldl_cons] at a ⊢
        rw [a id, g]
        simp only [Option.getD_some, List.mem_cons, Prod.mk.injEq, true_and]
        split
        · rename_i hi
          constructor
          · rintro (h | h)
            · exact .inl h
            · exact .inr (.inr h)
          · rintro (h | rfl | h)
            · exact .inl h
            · exact .inl hi
            · exact .inr h
        · simp only [List.mem_append, List.mem_singleton]
          grind
      · simp only [List.foldl_cons]
        rw [c]
        simp only [Dict.has, g, Option.isSome_some, true_or, true_iff]
        exact .inr ⟨i, by simp⟩
    · rw [if_neg h] at g
      obtain ⟨a, b, c⟩ := ih (r.save ty i) (by rw [g]; exact hr)
      refine ⟨?_, b, ?_⟩
      · intro id
        simp only [List.foldl_cons]
        rw [a id, g]
        simp [h]
      · simp only [List.foldl_cons]
        rw [c]
        simp only [Dict.has, g, List.mem_cons, Prod.mk.injEq, h, false_and, false_or]

/-- C71: after saving any nodes in any order, the record of a type holds exactly the ids of the saved nodes of this type, each once, and
there is a record exactly for the types of the saved nodes.  `get_attachments` gives the ids of the saved nodes of type ATTACHMENT. -/
theorem c71_record (l : List (Str × Str)) :
    (∀ t id, id ∈ (Dict.get? (saveAll l).erased t).getD [] ↔ (t, id) ∈ l) ∧
    (∀ t, ((Dict.get? (saveAll l).erased t).getD []).Nodup) ∧
    (∀ t, Dict.has (saveAll l).erased t = true ↔ ∃ id, (t, id) ∈ l) ∧
    (∀ id, id ∈ (saveAll l).attachments ↔ (s!!"ATTACHMENT", id) ∈ l) ∧ (saveAll l).attachments.Nodup := by
  have h := fun t => spec l new t (by simp [new, Dict.get?])
  have h1 : ∀ t id, id ∈ (Dict.get? (saveAll l).erased t).getD [] ↔ (t, id) ∈ l := by
    intro t id
    refine ((h t).1 id).trans ?_
    simp [new, Dict.get?]
  refine ⟨h1, fun t => (h t).2.1, ?_, h1 _, (h _).2.1⟩
  intro t
  refine (h t).2.2.trans ?_
  simp [new, Dict.has, Dict.get?]

example : (saveAll [(s!!"SLOT", s!!"a_SLOT"), (s!!"ATTACHMENT", s!!"x_ATTACHMENT"), (s!!"SLOT", s!!"b_SLOT"), (s!!"SLOT", s!!"a_SLOT")]).erased =
    [(s!!"SLOT", [s!!"a_SLOT", s!!"b_SLOT"]), (s!!"ATTACHMENT", [s!!"x_ATTACHMENT"])] := by decide

end EraserResult
end Spine
