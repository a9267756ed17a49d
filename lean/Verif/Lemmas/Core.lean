import Verif.Lemmas.ShapeOf
import Verif.Lemmas.Restrict
import Verif.Lemmas.Doomed
import Verif.Lemmas.Defaults
/- What is always true of the graph of an editor, and how data is read back from it. -/
set_option linter.unusedSectionVars false
set_option linter.unusedSimpArgs false
namespace Spine
open JVal Graph Container
variable {F : Type} [PyRt F]

/-- the five node types -/
def NType.five : List NType := [.bone, .slot, .ik, .attachment, .image]

/-- well-formed, ids show the type, objects are in index order, and their data is the serialisation of an object -/
structure Core (b : Bool) (g : SGraph F) : Prop where
  wf : WF g
  typed : ∀ x nd, getNode g x = some nd → nd.ntype ∈ NType.five ∧ ∃ n, x = graphId nd.ntype n
  sorted : ∀ t ∈ [NType.bone, .slot, .ik], (nodesOf g t).Pairwise (fun p q => p.2.1 ≤ q.2.1)
  bones : ∀ p ∈ nodesOf g .bone, ∃ x : Bone F, x.Good ∧ p.2.2 = x.toJson b
  slots : ∀ p ∈ nodesOf g .slot, ∃ x : Slot F, p.1 = graphId .slot x.name ∧ p.2.2 = x.toJson b
  iks : ∀ p ∈ nodesOf g .ik, ∃ x : Attrs F, Dict.keys x = (ikCls (F := F)).attrs ∧ p.2.2 = ikCls.toJson b x

theorem nodesOf_restrict (g : SGraph F) (S : List Str) (t : NType) :
    nodesOf (restrict g S) t = (nodesOf g t).filter (fun p => p.1 ∉ S) := by
  simp only [nodesOf, restrict, List.filter_map, List.map_map, List.filter_filter]
  congr 1
  apply List.filter_congr
  intro p _
  simp [Function.comp, Bool.and_comm]

theorem mem_nodesOf {g : SGraph F} (hg : WF g) (t : NType) (x : Str) (d : Int × JVal F) :
    (x, d) ∈ nodesOf g t ↔ ∃ nd, getNode g x = some nd ∧ nd.ntype = t ∧ nd.data = d := by
  simp only [nodesOf, List.mem_map, List.mem_filter, Prod.exists, Prod.mk.injEq, decide_eq_true_eq]
  constructor
  · rintro ⟨y, nd, ⟨h1, h2⟩, rfl, h3⟩
    exact ⟨nd, Dict.get?_of_mem hg.keys_nodup h1, h2, h3⟩
  · rintro ⟨nd, h1, h2, h3⟩
    exact ⟨x, nd, ⟨Dict.mem_of_get? h1, h2⟩, rfl, h3⟩

theorem Core.typed' {b : Bool} {g : SGraph F} (h : Core b g) {t : NType} {n : Str} {nd : Node NType (Int × JVal F)}
    (hn : getNode g (graphId t n) = some nd) : nd.ntype = t := by
  obtain ⟨_, m, e⟩ := h.typed _ _ hn
  exact (graphId_inj e).1.symm

theorem Core.restrict {b : Bool} {g : SGraph F} (h : Core b g) (S : List Str) : Core b (restrict g S) := by
  refine ⟨wf_restrict h.wf S, ?_, ?_, ?_, ?_, ?_⟩
  · intro x nd hn
    rw [getNode_restrict] at hn
    split at hn
    · cases hn
    · simp only [Option.map_eq_some_iff] at hn
      obtain ⟨m, hm, rfl⟩ := hn
      exact h.typed x m hm
  · intro t ht
    rw [nodesOf_restrict]
    exact (h.sorted t ht).filter _
  · intro p hp; rw [nodesOf_restrict] at hp; exact h.bones p (List.mem_filter.1 hp).1
  · intro p hp; rw [nodesOf_restrict] at hp; exact h.slots p (List.mem_filter.1 hp).1
  · intro p hp; rw [nodesOf_restrict] at hp; exact h.iks p (List.mem_filter.1 hp).1

/-- removing nodes of other types keeps the nodes of this type -/
theorem nodesOf_restrict_other {g : SGraph F} (hg : WF g) {S : List Str} {t : NType}
    (h : ∀ x ∈ S, ∀ nd, getNode g x = some nd → nd.ntype ≠ t) : nodesOf (restrict g S) t = nodesOf g t := by
  rw [nodesOf_restrict, List.filter_eq_self]
  rintro ⟨x, d⟩ hp
  obtain ⟨nd, h1, h2, _⟩ := (mem_nodesOf hg t x d).1 hp
  simp only [decide_eq_true_eq]
  intro hx
  exact h x hx nd h1 h2

theorem listOfType_nodesOf (g : SGraph F) (t : NType) (h : (nodesOf g t).Pairwise (fun p q => p.2.1 ≤ q.2.1)) :
    SpineNodes.listOfType g t = (nodesOf g t).map (·.2.2) := by
  unfold SpineNodes.listOfType
  have e : ((Dict.values g.nodes).filter (fun n => n.ntype = t)).map (fun n => (n.data.2, n.data.1)) =
      (nodesOf g t).map (fun q => (q.2.2, q.2.1)) := by
    have := congrArg (List.map (fun q : Int × JVal F => (q.2, q.1))) (GShape.ofType_nodesOf g t)
    simpa [List.map_map, Function.comp_def] using this
  rw [e, GShape.sortOps_sorted_self]
  · simp [Function.comp_def]
  · rw [List.pairwise_map]; exact h

theorem Core.toJsonData {b : Bool} {g : SGraph F} (h : Core b g) : SpineNodes.toJsonData g =
    .ok ⟨(nodesOf g .bone).map (·.2.2), (nodesOf g .slot).map (·.2.2), (nodesOf g .ik).map (·.2.2)⟩ := by
  unfold SpineNodes.toJsonData
  rw [if_pos, listOfType_nodesOf _ _ (h.sorted .bone (by simp)), listOfType_nodesOf _ _ (h.sorted .slot (by simp)),
    listOfType_nodesOf _ _ (h.sorted .ik (by simp))]
  rw [List.all_eq_true]
  intro n hn
  simp only [Dict.values, List.mem_map] at hn
  obtain ⟨⟨x, m⟩, hx, rfl⟩ := hn
  exact decide_eq_true ((h.typed x m (Dict.get?_of_mem h.wf.keys_nodup hx)).1)

/-! ### A graph just built -/

/-- the data stored in the graph is the document's -/
theorem GShape.read_vs {s : SpineDoc F} {sh : GShape F} (h : GShape.read s.toJson = .ok sh) :
    sh.bones.map (·.v) = s.data.bones.map (·.toJson s.version.is38) ∧
    All₂ (fun (v : Slot F) g => g.name = v.name ∧ g.v = v.toJson s.version.is38) s.data.slots sh.slots ∧
    sh.iks.map (·.v) = s.data.ik.map (ikCls.toJson s.version.is38) := by
  obtain ⟨d, e, g1, g2, g3, g4⟩ := get?_doc s
  rw [e] at h
  unfold read at h
  obtain ⟨bs, h1, h⟩ := bindOk h
  obtain ⟨bs', h2, h⟩ := bindOk h
  obtain ⟨bs'', h3, h⟩ := bindOk h
  obtain ⟨ss, h4, h⟩ := bindOk h
  obtain ⟨ss', h5, h⟩ := bindOk h
  obtain ⟨is, h6, h⟩ := bindOk h
  obtain ⟨is', h7, h⟩ := bindOk h
  injection h with h; subst h
  simp only [subscript, getItem, g1] at h1
  by_cases hb0 : s.data.bones = []
  · rw [if_pos hb0] at h1; cases h1
  rw [if_neg hb0] at h1
  injection h1 with h1; subst h1
  injection h2 with h2; subst h2
  have e4 : ss = s.data.slots.map (·.toJson s.version.is38) := by
    simp only [SpineNodes.docList, getIter, g2] at h4
    split at h4
    · rename_i hh
      split at hh
      · rename_i h0; injection h4 with h4; rw [h0, ← h4]; rfl
      · cases hh
    · rename_i v hh
      split at hh
      · cases hh
      · injection hh with hh; subst hh
        injection h4 with h4; exact h4.symm
  have e6 : is = s.data.ik.map (ikCls.toJson s.version.is38) := by
    simp only [SpineNodes.docList, getIter, g3] at h6
    split at h6
    · rename_i hh
      split at hh
      · rename_i h0; injection h6 with h4; rw [h0, ← h4]; rfl
      · cases hh
    · rename_i v hh
      split at hh
      · cases hh
      · injection hh with hh; subst hh
        injection h6 with h4; exact h4.symm
  subst e4; subst e6
  rw [mapE_all₂, All₂.map_left] at h3 h5 h7
  refine ⟨?_, ?_, ?_⟩
  · refine (h3.map_eq (g := fun x : GBone F => x.v) (f := fun x => x.toJson s.version.is38) ?_).symm
    intro x y hy
    unfold readBone at hy
    obtain ⟨n, _, hy⟩ := bindOk hy
    obtain ⟨q, _, hy⟩ := bindOk hy
    injection hy with hy; subst hy; rfl
  · refine h5.mono ?_
    intro x y hm hy
    obtain ⟨dx, ex, n1, n2⟩ := Slot.get?_toJson s.version.is38 x
    rw [ex] at hy
    unfold readSlot at hy
    obtain ⟨n, k1, hy⟩ := bindOk hy
    obtain ⟨q, k2, hy⟩ := bindOk hy
    obtain ⟨nm, k3, hy⟩ := bindOk hy
    obtain ⟨sk, k4, hy⟩ := bindOk hy
    obtain ⟨sk', k5, hy⟩ := bindOk hy
    obtain ⟨css, k6, hy⟩ := bindOk hy
    injection hy with hy; subst hy
    have t1 : x.name = n := by
      simp only [Plan.nameOf, subscript, getItem, n1] at k1
      injection k1
    exact ⟨t1.symm, ex.symm⟩
  · refine (h7.map_eq (g := fun x : GIk F => x.v) (f := ikCls.toJson s.version.is38) ?_).symm
    intro x y hy
    unfold readIk at hy
    obtain ⟨n, _, hy⟩ := bindOk hy
    obtain ⟨q, _, hy⟩ := bindOk hy
    obtain ⟨nm, _, hy⟩ := bindOk hy
    injection hy with hy; subst hy; rfl

theorem mem_zipIdx_map {α β : Type} (f : α → β) (l : List α) (x : α × Nat) (h : x ∈ l.zipIdx) : f x.1 ∈ l.map f := by
  obtain ⟨a, i⟩ := x
  have := List.mem_zipIdx h
  rw [List.mem_map]
  exact ⟨a, this.2.2 ▸ List.getElem_mem _, rfl⟩

theorem map_zipIdx_fst' {α β : Type} (f : α → β) (l : List α) (k : Nat) : (l.zipIdx k).map (fun p => f p.1) = l.map f :=
  GShape.map_zipIdx_fst f l k

/-- the objects of a graph built from a document are the document's, in order -/
theorem nodesOf_fresh {s : SpineDoc F} {g : SGraph F} (h : SpineNodes.create s.toJson = .ok g) :
    (nodesOf g .bone).map (·.2.2) = s.data.bones.map (·.toJson s.version.is38) ∧
    All₂ (fun p (x : Slot F) => p.1 = graphId .slot x.name ∧ p.2.2 = x.toJson s.version.is38) (nodesOf g .slot) s.data.slots ∧
    (nodesOf g .ik).map (·.2.2) = s.data.ik.map (ikCls.toJson s.version.is38) := by
  obtain ⟨sh, h1, h2⟩ := GShape.create_built h
  obtain ⟨e1, e2, e3⟩ := GShape.read_vs h1
  have n1 := h2.nodesOf .bone (by decide) (by decide)
  have n2 := h2.nodesOf .slot (by decide) (by decide)
  have n3 := h2.nodesOf .ik (by decide) (by decide)
  simp only [reduceCtorEq, if_true, if_false, List.append_nil, List.nil_append] at n1 n2 n3
  refine ⟨?_, ?_, ?_⟩
  · rw [n1, ← e1, List.map_map]
    exact map_zipIdx_fst' (fun x : GBone F => x.v) _ _
  · rw [n2]
    have : ∀ k, All₂ (fun p (x : Slot F) => p.1 = graphId .slot x.name ∧ p.2.2 = x.toJson s.version.is38)
        ((sh.slots.zipIdx k).map (fun p => (graphId .slot p.1.name, ((p.2 : Int), p.1.v)))) s.data.slots := by
      generalize sh.slots = l at e2
      generalize s.data.slots = m at e2
      induction e2 with
      | nil => intro k; exact .nil
      | cons hr _ ih =>
        intro k
        rw [List.zipIdx_cons, List.map_cons]
        exact .cons ⟨by rw [hr.1], hr.2⟩ (ih (k + 1))
    exact this 0
  · rw [n3, ← e3, List.map_map]
    exact map_zipIdx_fst' (fun x : GIk F => x.v) _ _

theorem core_fresh {s : SpineDoc F} {g : SGraph F} (h : SpineNodes.create s.toJson = .ok g)
    (hb : ∀ b ∈ s.data.bones, Bone.Good b) (hi : KeysOf ikCls s.data.ik) : Core s.version.is38 g := by
  obtain ⟨e1, e2, e3⟩ := nodesOf_fresh h
  obtain ⟨sh, h1, h2⟩ := GShape.create_built h
  have n1 := h2.nodesOf .bone (by decide) (by decide)
  have n2 := h2.nodesOf .slot (by decide) (by decide)
  have n3 := h2.nodesOf .ik (by decide) (by decide)
  simp only [reduceCtorEq, if_true, if_false, List.append_nil, List.nil_append] at n1 n2 n3
  have srt : ∀ {α : Type} (f : α → Str) (v : α → JVal F) (l : List α), (l.zipIdx.map (fun p => (f p.1, ((p.2 : Int), v p.1)))).Pairwise
      (fun p q => p.2.1 ≤ q.2.1) := by
    intro α f v l
    have := GShape.zipIdx_sorted v l 0
    rw [List.pairwise_map, List.pairwise_map] at this
    rw [List.pairwise_map]
    exact this
  refine ⟨h2.wf, ?_, ?_, ?_, ?_, ?_⟩
  · intro x nd hn
    rcases (h2.hasNode x).1 ⟨nd, hn⟩ with ⟨b, _, rfl⟩ | ⟨b, _, rfl | ⟨a, _, rfl | rfl⟩⟩ | ⟨b, _, rfl⟩ <;>
      rw [h2.ntype hn] <;> exact ⟨by simp [NType.five], _, rfl⟩
  · intro t ht
    simp only [List.mem_cons, List.not_mem_nil, or_false] at ht
    rcases ht with rfl | rfl | rfl
    · rw [n1]; exact srt (fun x : GBone F => graphId .bone x.name) (fun x => x.v) sh.bones
    · rw [n2]; exact srt (fun x : GSlot F => graphId .slot x.name) (fun x => x.v) sh.slots
    · rw [n3]; exact srt (fun x : GIk F => graphId .ik x.name) (fun x => x.v) sh.iks
  · intro p hp
    have := List.mem_map_of_mem (f := fun p : Str × Int × JVal F => p.2.2) hp
    rw [e1] at this
    obtain ⟨x, hx, e⟩ := List.mem_map.1 this
    exact ⟨x, hb x hx, e.symm⟩
  · intro p hp
    obtain ⟨x, _, h⟩ := e2.left hp
    exact ⟨x, h⟩
  · intro p hp
    have := List.mem_map_of_mem (f := fun p : Str × Int × JVal F => p.2.2) hp
    rw [e3] at this
    obtain ⟨x, hx, e⟩ := List.mem_map.1 this
    exact ⟨x, hi x hx, e.symm⟩

/-! ### Named removals -/

/-- a successful removal of named nodes -/
theorem removeNamed_inv (t : NType) (l : List Str) : ∀ {g g' : SGraph F}, WF g → removeNamed t l g = (.ok (), g') →
    g' = restrict g (l.map (graphId t)) := by
  induction l with
  | nil =>
    intro g g' _ h
    simp only [removeNamed, Prod.mk.injEq, true_and] at h
    simp [restrict_nil, h]
  | cons x r ih =>
    intro g g' hg h
    rw [removeNamed] at h
    cases hn : getNode g (graphId t x) with
    | none =>
      rw [removeNode_missing (by rintro ⟨n, hh⟩; rw [hn] at hh; cases hh)] at h
      simp at h
    | some n =>
      rw [removeNode_eq hg hn] at h
      simp only at h
      rw [ih (wf_restrict hg _) h, restrict_restrict]
      rfl

end Spine
