import Verif.Lemmas.SimInv
/-
Graphs that differ in the data of their nodes only: every operation of the graph container has the same outcome and keeps the
relation between the data.
-/
set_option linter.unusedSectionVars false
namespace Spine
namespace Alias
open Graph Container
variable {D D' : Type}

structure NRel (R : NType → D → D' → Prop) (n : Node NType D) (m : Node NType D') : Prop where
  id : n.id = m.id
  ntype : n.ntype = m.ntype
  children : n.children = m.children
  parents : n.parents = m.parents
  data : R n.ntype n.data m.data

/-- the same nodes and edges -/
def GRel (R : NType → D → D' → Prop) (g : Graph NType D) (g' : Graph NType D') : Prop :=
  All₂ (fun p q => p.1 = q.1 ∧ NRel R p.2 q.2) g.nodes g'.nodes

variable {R : NType → D → D' → Prop}

theorem GRel.imp {R' : NType → D → D' → Prop} {g : Graph NType D} {g' : Graph NType D'} (h : GRel R g g') (hi : ∀ t d d', R t d d' → R' t d d') : GRel R' g g' :=
  All₂.imp h (fun _ _ _ _ hr => ⟨hr.1, hr.2.id, hr.2.ntype, hr.2.children, hr.2.parents, hi _ _ _ hr.2.data⟩)

theorem dict2_get {α β : Type} {P : α → β → Prop} {d : Dict α} {e : Dict β} (h : All₂ (fun p q => p.1 = q.1 ∧ P p.2 q.2) d e) (k : Str) :
    (Dict.get? d k = none ∧ Dict.get? e k = none) ∨ ∃ x y, Dict.get? d k = some x ∧ Dict.get? e k = some y ∧ P x y := by
  induction h with
  | nil => exact .inl ⟨rfl, rfl⟩
  | @cons p q d e h1 _ ih =>
    obtain ⟨k1, x⟩ := p
    obtain ⟨k2, y⟩ := q
    obtain ⟨rfl, h1⟩ := h1
    by_cases hk : k1 = k
    · simp only [Dict.get?, hk, if_true]; exact .inr ⟨x, y, rfl, rfl, h1⟩
    · simp only [Dict.get?, hk, if_false]; exact ih

theorem all₂_keys {α β : Type} {P : α → β → Prop} {d : Dict α} {e : Dict β} (h : All₂ (fun p q => p.1 = q.1 ∧ P p.2 q.2) d e) : Dict.keys d = Dict.keys e := by
  induction h with
  | nil => rfl
  | cons h1 _ ih => simp only [Dict.keys, List.map_cons] at ih ⊢; rw [h1.1, ih]

theorem all₂_modify {α β : Type} {P : α → β → Prop} {d : Dict α} {e : Dict β} (h : All₂ (fun p q => p.1 = q.1 ∧ P p.2 q.2) d e) (k : Str) {f : α → α} {f' : β → β}
    (hf : ∀ x y, P x y → P (f x) (f' y)) : All₂ (fun p q => p.1 = q.1 ∧ P p.2 q.2) (Dict.modify d k f) (Dict.modify e k f') := by
  induction h with
  | nil => exact .nil
  | @cons p q d e h1 h2 ih =>
    obtain ⟨k1, x⟩ := p
    obtain ⟨k2, y⟩ := q
    obtain ⟨rfl, h1⟩ := h1
    simp only at h1
    by_cases hk : k1 = k
    · refine .cons ?_ ih
      simp only [hk, if_true]; exact ⟨trivial, hf _ _ h1⟩
    · refine .cons ?_ ih
      simp only [hk, if_false]; exact ⟨trivial, h1⟩

theorem all₂_filter {α β : Type} {P : α → β → Prop} {d : List α} {e : List β} (h : All₂ P d e) {p : α → Bool} {q : β → Bool}
    (hp : ∀ x y, P x y → p x = q y) : All₂ P (d.filter p) (e.filter q) := by
  induction h with
  | nil => exact .nil
  | @cons x y d e h1 h2 ih =>
    simp only [List.filter_cons, hp x y h1]
    split
    · exact .cons h1 ih
    · exact ih

theorem GRel.node {g : Graph NType D} {g' : Graph NType D'} (h : GRel R g g') (k : Str) :
    (getNode g k = none ∧ getNode g' k = none) ∨ ∃ n m, getNode g k = some n ∧ getNode g' k = some m ∧ NRel R n m := dict2_get h k

theorem GRel.isNone {g : Graph NType D} {g' : Graph NType D'} (h : GRel R g g') (k : Str) : (getNode g k).isNone = (getNode g' k).isNone := by
  rcases h.node k with ⟨h1, h2⟩ | ⟨n, m, h1, h2, _⟩ <;> rw [h1, h2] <;> rfl

/-- same outcome, related graphs -/
def Same {α : Type} (R : NType → D → D' → Prop) (q : Res (Graph NType D) α) (q' : Res (Graph NType D') α) : Prop := q.1 = q'.1 ∧ GRel R q.2 q'.2

theorem delParent_same {g : Graph NType D} {g' : Graph NType D'} (h : GRel R g g') (c p : Str) : Same R (delParent g c p) (delParent g' c p) := by
  unfold delParent
  rcases h.node c with ⟨h1, h2⟩ | ⟨n, m, h1, h2, h3⟩ <;> rw [h1, h2]
  · exact ⟨rfl, h⟩
  · simp only [h3.parents]
    split
    · refine ⟨rfl, ?_⟩
      unfold GRel; dsimp only
      refine all₂_modify (P := NRel R) h c ?_
      exact fun x y hr => ⟨hr.id, hr.ntype, hr.children, by simp only [hr.parents], hr.data⟩
    · exact ⟨rfl, h⟩

theorem delChild_same {g : Graph NType D} {g' : Graph NType D'} (h : GRel R g g') (c p : Str) : Same R (delChild g c p) (delChild g' c p) := by
  unfold delChild
  rcases h.node c with ⟨h1, h2⟩ | ⟨n, m, h1, h2, h3⟩ <;> rw [h1, h2]
  · exact ⟨rfl, h⟩
  · simp only [h3.children]
    split
    · refine ⟨rfl, ?_⟩
      unfold GRel; dsimp only
      refine all₂_modify (P := NRel R) h c ?_
      exact fun x y hr => ⟨hr.id, hr.ntype, by simp only [hr.children], hr.parents, hr.data⟩
    · exact ⟨rfl, h⟩

/-- the cases of two equal outcomes -/
theorem Same.cases {α : Type} {q : Res (Graph NType D) α} {q' : Res (Graph NType D') α} (h : Same R q q') :
    (∃ e g g', q = (.error e, g) ∧ q' = (.error e, g') ∧ GRel R g g') ∨ ∃ x g g', q = (.ok x, g) ∧ q' = (.ok x, g') ∧ GRel R g g' := by
  obtain ⟨o, g⟩ := q
  obtain ⟨o', g'⟩ := q'
  obtain ⟨h1, h2⟩ := h
  simp only at h1 h2
  subst h1
  cases o with
  | error e => exact .inl ⟨e, g, g', rfl, rfl, h2⟩
  | ok x => exact .inr ⟨x, g, g', rfl, rfl, h2⟩

theorem dropParentLinks_same (i : Str) : ∀ (l : List Str) {g : Graph NType D} {g' : Graph NType D'}, GRel R g g' → Same R (dropParentLinks i l g) (dropParentLinks i l g')
  | [], _, _, h => ⟨rfl, h⟩
  | c :: cs, g, g', h => by
    unfold dropParentLinks
    rcases (delParent_same h c i).cases with ⟨e, k, k', h1, h2, h3⟩ | ⟨e, k, k', h1, h2, h3⟩ <;> rw [h1, h2]
    · exact ⟨rfl, h3⟩
    · exact dropParentLinks_same i cs h3

theorem dropChildLinks_same (i : Str) : ∀ (l : List Str) {g : Graph NType D} {g' : Graph NType D'}, GRel R g g' → Same R (dropChildLinks i l g) (dropChildLinks i l g')
  | [], _, _, h => ⟨rfl, h⟩
  | c :: cs, g, g', h => by
    unfold dropChildLinks
    rcases (delChild_same h c i).cases with ⟨e, k, k', h1, h2, h3⟩ | ⟨e, k, k', h1, h2, h3⟩ <;> rw [h1, h2]
    · exact ⟨rfl, h3⟩
    · exact dropChildLinks_same i cs h3

theorem removeNode_same {g : Graph NType D} {g' : Graph NType D'} (h : GRel R g g') (i : Str) :
    (∃ e k k', removeNode g i = (.error e, k) ∧ removeNode g' i = (.error e, k') ∧ GRel R k k') ∨
    ∃ n m k k', removeNode g i = (.ok n, k) ∧ removeNode g' i = (.ok m, k') ∧ NRel R n m ∧ GRel R k k' := by
  unfold removeNode
  rcases h.node i with ⟨h1, h2⟩ | ⟨n, m, h1, h2, h3⟩ <;> rw [h1, h2]
  · exact .inl ⟨_, _, _, rfl, rfl, h⟩
  · simp only [h3.children, h3.parents]
    rcases (dropParentLinks_same i m.children h).cases with ⟨e, k, k', g1, g2, g3⟩ | ⟨e, k, k', g1, g2, g3⟩ <;> rw [g1, g2]
    · exact .inl ⟨_, _, _, rfl, rfl, g3⟩
    · simp only
      rcases (dropChildLinks_same i m.parents g3).cases with ⟨e, k, k', f1, f2, f3⟩ | ⟨e, k, k', f1, f2, f3⟩ <;> rw [f1, f2]
      · exact .inl ⟨_, _, _, rfl, rfl, f3⟩
      · refine .inr ⟨n, m, _, _, rfl, rfl, h3, ?_⟩
        exact all₂_filter f3 (fun p q hpq => by rw [hpq.1])

theorem walk_same {g : Graph NType D} {g' : Graph NType D'} (h : GRel R g g') {rel : Node NType D → List Str} {rel' : Node NType D' → List Str}
    (hr : ∀ n m, NRel R n m → rel n = rel' m) : ∀ (f : Nat) (w : Walk) (i : Str), walk g rel f w i = walk g' rel' f w i
  | 0, _, _ => rfl
  | f + 1, (vis, res), i => by
    have ih : walk g rel f = walk g' rel' f := by funext w j; exact walk_same h hr f w j
    simp only [walk]
    split
    · rfl
    · rcases h.node i with ⟨h1, h2⟩ | ⟨n, m, h1, h2, h3⟩ <;> rw [h1, h2]
      simp only [hr n m h3, ih]

theorem GRel.keys {g : Graph NType D} {g' : Graph NType D'} (h : GRel R g g') : Dict.keys g.nodes = Dict.keys g'.nodes := all₂_keys h

theorem getNodesBy_same {g : Graph NType D} {g' : Graph NType D'} (h : GRel R g g') {rel : Node NType D → List Str} {rel' : Node NType D' → List Str}
    (hr : ∀ n m, NRel R n m → rel n = rel' m) : getNodesBy g rel = getNodesBy g' rel' := by
  unfold getNodesBy
  have hl : g.nodes.length = g'.nodes.length := All₂.length h
  have : walk g rel (g.nodes.length + 1) = walk g' rel' (g'.nodes.length + 1) := by
    funext w i; rw [hl]; exact walk_same h hr _ w i
  rw [this, h.keys]

theorem heads_same {g : Graph NType D} {g' : Graph NType D'} (h : GRel R g g') : heads g = heads g' := getNodesBy_same h (fun _ _ hr => hr.parents)
theorem tails_same {g : Graph NType D} {g' : Graph NType D'} (h : GRel R g g') : tails g = tails g' := getNodesBy_same h (fun _ _ hr => hr.children)

theorem ofType_same {g : Graph NType D} {g' : Graph NType D'} (h : GRel R g g') (t : NType) : ∀ l, ofType g t l = ofType g' t l
  | [] => rfl
  | x :: l => by
    unfold ofType
    rcases h.node x with ⟨h1, h2⟩ | ⟨n, m, h1, h2, h3⟩ <;> rw [h1, h2]
    simp only [ofType_same h t l, h3.ntype]

theorem removeAllIds_same (base : Str → Str) : ∀ (l : List Str) {g : Graph NType D} {g' : Graph NType D'}, GRel R g g' → Same R (removeAllIds base l g) (removeAllIds base l g')
  | [], _, _, h => ⟨rfl, h⟩
  | x :: l, g, g', h => by
    unfold removeAllIds
    rcases removeNode_same h x with ⟨e, k, k', h1, h2, h3⟩ | ⟨n, m, k, k', h1, h2, h3, h4⟩ <;> rw [h1, h2]
    · exact ⟨rfl, h3⟩
    · simp only
      rcases (removeAllIds_same base l h4).cases with ⟨e, k, k', f1, f2, f3⟩ | ⟨e, k, k', f1, f2, f3⟩ <;> rw [f1, f2]
      · exact ⟨rfl, f3⟩
      · exact ⟨by simp only [h3.id], f3⟩

theorem removeLoop_same {ends : Graph NType D → Except Err (List Str)} {ends' : Graph NType D' → Except Err (List Str)} (he : ∀ g g', GRel R g g' → ends g = ends' g')
    (base : Str → Str) (t : NType) : ∀ (f : Nat) {g : Graph NType D} {g' : Graph NType D'}, GRel R g g' → Same R (removeLoop ends base t f g) (removeLoop ends' base t f g')
  | 0, _, _, h => ⟨rfl, h⟩
  | f + 1, g, g', h => by
    have hx : endsOfType ends t g = endsOfType ends' t g' := by
      unfold endsOfType
      rw [he g g' h]
      cases ends' g' with
      | error e => rfl
      | ok l => exact ofType_same h t l
    unfold removeLoop
    rw [hx]
    cases hy : endsOfType ends' t g' with
    | error e => exact ⟨rfl, h⟩
    | ok l =>
      cases l with
      | nil => exact ⟨rfl, h⟩
      | cons x l =>
        simp only
        rcases (removeAllIds_same base (x :: l) h).cases with ⟨e, k, k', h1, h2, h3⟩ | ⟨b, k, k', h1, h2, h3⟩ <;> rw [h1, h2]
        · exact ⟨rfl, h3⟩
        · simp only
          rcases (removeLoop_same he base t f h3).cases with ⟨e, k, k', f1, f2, f3⟩ | ⟨e, k, k', f1, f2, f3⟩ <;> rw [f1, f2]
          · exact ⟨rfl, f3⟩
          · exact ⟨rfl, f3⟩

theorem removeHeads_same (base : Str → Str) (t : NType) {g : Graph NType D} {g' : Graph NType D'} (h : GRel R g g') :
    Same R (removeHeadsOfType base t g) (removeHeadsOfType base t g') := by
  unfold removeHeadsOfType
  have hl : g.nodes.length = g'.nodes.length := All₂.length h
  rw [hl]
  exact removeLoop_same (fun _ _ => heads_same) base t _ h

theorem removeLeafs_same (base : Str → Str) (t : NType) {g : Graph NType D} {g' : Graph NType D'} (h : GRel R g g') :
    Same R (removeLeafsOfType base t g) (removeLeafsOfType base t g') := by
  unfold removeLeafsOfType
  have hl : g.nodes.length = g'.nodes.length := All₂.length h
  rw [hl]
  exact removeLoop_same (fun _ _ => tails_same) base t _ h

section Ops
variable {F : Type} [PyRt F] {R : NType → D → Int × JVal F → Prop}

theorem removeNamed_same (t : NType) : ∀ (l : List Str) {g : Graph NType D} {g' : SGraph F}, GRel R g g' → Same R (Alias.removeNamed t l g) (Container.removeNamed t l g')
  | [], _, _, h => ⟨rfl, h⟩
  | x :: l, g, g', h => by
    unfold Alias.removeNamed Container.removeNamed
    rcases removeNode_same h (graphId t x) with ⟨e, k, k', h1, h2, h3⟩ | ⟨n, m, k, k', h1, h2, h3, h4⟩ <;> rw [h1, h2]
    · exact ⟨rfl, h3⟩
    · exact removeNamed_same t l h4

theorem cleanGraph_same (slots atts : List Str) {g : Graph NType D} {g' : SGraph F} (h : GRel R g g') : Same R (cleanGraph F slots atts g) (Editor.cleanGraph slots atts g') := by
  unfold cleanGraph Editor.cleanGraph
  rcases (removeNamed_same .slot (setList F slots) h).cases with ⟨e, k, k', h1, h2, h3⟩ | ⟨e, k, k', h1, h2, h3⟩ <;> rw [h1, h2]
  · exact ⟨rfl, h3⟩
  · simp only
    rcases (removeNamed_same .attachment (setList F atts) h3).cases with ⟨e, k, k', f1, f2, f3⟩ | ⟨e, k, k', f1, f2, f3⟩ <;> rw [f1, f2]
    · exact ⟨rfl, f3⟩
    · simp only
      rcases (removeLeafs_same (baseId .slot) .slot f3).cases with ⟨e, k, k', g1, g2, g3⟩ | ⟨e, k, k', g1, g2, g3⟩ <;> rw [g1, g2]
      · exact ⟨rfl, g3⟩
      · exact ⟨rfl, g3⟩

theorem detach_same {g : Graph NType D} {g' : SGraph F} (h : GRel R g g') : Same R (detach g) (Editor.detach g') := by
  unfold detach Editor.detach
  rcases (removeHeads_same (baseId .attachment) .attachment h).cases with ⟨e, k, k', h1, h2, h3⟩ | ⟨e, k, k', h1, h2, h3⟩ <;> rw [h1, h2]
  · exact ⟨rfl, h3⟩
  · simp only
    rcases (removeLeafs_same (baseId .attachment) .attachment h3).cases with ⟨e, k, k', f1, f2, f3⟩ | ⟨e, k, k', f1, f2, f3⟩ <;> rw [f1, f2]
    · exact ⟨rfl, f3⟩
    · exact removeHeads_same (baseId .image) .image f3

theorem sortOps_all₂ {α β : Type} {P : α → β → Prop} {l : List (α × Int)} {m : List (β × Int)} (h : All₂ (fun x y => P x.1 y.1 ∧ x.2 = y.2) l m) :
    All₂ (fun x y => P x.1 y.1 ∧ x.2 = y.2) (DrawOrder.sortOps l) (DrawOrder.sortOps m) := by
  have ins : ∀ {l : List (α × Int)} {m : List (β × Int)}, All₂ (fun x y => P x.1 y.1 ∧ x.2 = y.2) l m → ∀ x y, P x.1 y.1 ∧ x.2 = y.2 →
      All₂ (fun x y => P x.1 y.1 ∧ x.2 = y.2) (DrawOrder.insertKey x l) (DrawOrder.insertKey y m) := by
    intro l m h
    induction h with
    | nil => intro x y hx; exact .cons hx .nil
    | @cons a b l m h1 h2 ih =>
      intro x y hx
      unfold DrawOrder.insertKey
      rw [hx.2, h1.2]
      split
      · exact .cons hx (.cons h1 h2)
      · exact .cons h1 (ih x y hx)
  unfold DrawOrder.sortOps
  induction h with
  | nil => exact .nil
  | cons h1 _ ih => exact ins ih _ _ h1

end Ops

section Refs
variable {F : Type} [PyRt F] {P : NType → Ref F → JVal F → Prop}

theorem listOfType_all₂ {g : Graph NType (Int × Ref F)} {g' : SGraph F} (h : GRel (fun t d d' => d.1 = d'.1 ∧ P t d.2 d'.2) g g') (t : NType) :
    All₂ (P t) (listOfType g t) (SpineNodes.listOfType g' t) := by
  unfold listOfType SpineNodes.listOfType
  rw [All₂.map_left, All₂.map_right]
  refine All₂.imp (R := fun x y => P t x.1 y.1 ∧ x.2 = y.2) (sortOps_all₂ ?_) (fun _ _ _ _ h => h.1)
  rw [All₂.map_left, All₂.map_right]
  have h1 : All₂ (fun (n : Node NType (Int × Ref F)) (m : Node NType (Int × JVal F)) => NRel (fun t d d' => d.1 = d'.1 ∧ P t d.2 d'.2) n m) (Dict.values g.nodes) (Dict.values g'.nodes) := by
    unfold Dict.values
    rw [All₂.map_left, All₂.map_right]
    exact All₂.imp h (fun _ _ _ _ hr => hr.2)
  refine All₂.imp (all₂_filter h1 (fun x y hr => by rw [hr.ntype])) ?_
  intro x y hx _ hr
  have := (List.mem_filter.1 hx).2
  simp only [decide_eq_true_eq] at this
  rw [← this]
  exact ⟨hr.data.2, hr.data.1⟩

theorem allTypes_eq {D : Type} {R : NType → D → Int × JVal F → Prop} {g : Graph NType D} {g' : SGraph F} (h : GRel R g g') (l : List NType) :
    (Dict.values g.nodes).all (fun n => n.ntype ∈ l) = (Dict.values g'.nodes).all (fun n => n.ntype ∈ l) := by
  unfold Dict.values
  unfold GRel at h
  generalize g.nodes = a at *
  generalize g'.nodes = b at *
  induction h with
  | nil => rfl
  | cons h1 _ ih => simp only [List.map_cons, List.all_cons, ih, h1.2.ntype]

end Refs
end Alias
end Spine
