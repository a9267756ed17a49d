import Verif.Lemmas.KeyOrderData
import Verif.Lemmas.Core
/- Documents equal up to the order of keys give graphs with the same nodes and edges. -/
set_option linter.unusedSectionVars false
set_option linter.unusedSimpArgs false
namespace Spine
namespace KeyOrder
open JVal Graph Container GShape Plan
variable {F : Type}

/-! ### reading a document -/

theorem fmtId_fol {v w : JVal F} (h : Reord v w) : Fol Eq (fmtId v) (fmtId w) := by
  cases h <;> first | exact Fol.error | exact Fol.ok rfl

theorem subscript_fol {v w : JVal F} (h : Reord v w) (k : Str) : Fol Reord (subscript v k) (subscript w k) := by
  cases h with
  | dict h1 h2 h3 h4 => exact getItem_fol ⟨h1, h2, h3, h4⟩ k
  | _ => exact Fol.error

theorem dotGet_fol {v w : JVal F} (h : Reord v w) (k : Str) : Fol Reord (dotGet v k) (dotGet w k) := by
  cases h with
  | dict h1 h2 h3 h4 => exact Fol.ok (getD_reord ⟨h1, h2, h3, h4⟩ k .null)
  | _ => exact Fol.error

theorem nameOf_fol {v w : JVal F} (h : Reord v w) : Fol Eq (nameOf v) (nameOf w) :=
  (subscript_fol h _).bind (fun _ _ => fmtId_fol)

theorem optId_fol {v w : JVal F} (h : Reord v w) (k : Str) : Fol Eq (optId v k) (optId w k) :=
  (dotGet_fol h _).bind (fun _ _ => fmtId_fol)

structure GBoneR (x y : GBone F) : Prop where
  name : x.name = y.name
  parent : x.parent = y.parent
  v : Reord x.v y.v

theorem readBone_fol {v w : JVal F} (h : Reord v w) : Fol GBoneR (readBone v) (readBone w) :=
  (nameOf_fol h).bind fun _ _ h1 => (optId_fol h _).bind fun _ _ h2 => Fol.pure ⟨h1, h2, h⟩

/-- the same keys and images -/
def AttsR (l m : List (Str × Str × JVal F)) : Prop := ∀ k i, (∃ x, (k, i, x) ∈ l) ↔ ∃ x, (k, i, x) ∈ m

variable [PyRt F]

theorem imageName_fol {v w : JVal F} (h : Reord v w) (k : Str) : Fol Eq (SpineNodes.imageName k v) (SpineNodes.imageName k w) := by
  unfold SpineNodes.imageName
  refine (dotGet_fol h _).bind fun p p' hp => (dotGet_fol h _).bind fun n n' hn => ?_
  rw [reord_truthy hp, reord_truthy hn]
  split
  · exact fmtId_fol hp
  split
  · exact fmtId_fol hn
  · exact Fol.ok rfl

theorem readAtt_ok {p : Str × JVal F} {q : Str × Str × JVal F} (h : readAtt p = .ok q) :
    ∃ i, SpineNodes.imageName p.1 p.2 = .ok i ∧ q = (p.1, i, p.2) := by
  unfold readAtt at h
  cases e : SpineNodes.imageName p.1 p.2 with
  | error x => rw [e] at h; cases h
  | ok i => rw [e] at h; cases h; exact ⟨i, rfl, rfl⟩

theorem readAtt_mem {l : List (Str × JVal F)} {r : List (Str × Str × JVal F)} (h : mapE readAtt l = .ok r) (k i : Str) :
    (∃ x, (k, i, x) ∈ r) ↔ ∃ v, (k, v) ∈ l ∧ SpineNodes.imageName k v = .ok i := by
  have h := (mapE_all₂ _ _ _).1 h
  constructor
  · rintro ⟨x, hx⟩
    obtain ⟨p, hp, e⟩ := h.right hx
    obtain ⟨j, hj, e⟩ := readAtt_ok e
    injection e with e1 e; injection e with e2 e3
    subst e1 e2 e3
    exact ⟨_, hp, hj⟩
  · rintro ⟨v, hv, e⟩
    obtain ⟨q, hq, e1⟩ := h.left hv
    obtain ⟨j, hj, rfl⟩ := readAtt_ok e1
    rw [hj] at e; injection e with e; subst e
    exact ⟨_, hq⟩

theorem readAtts_fol {l m : Dict (JVal F)} (h : JD l m) : Fol AttsR (mapE readAtt l) (mapE readAtt m) := by
  intro r hr
  obtain ⟨r', hr'⟩ : ∃ r', mapE readAtt m = .ok r' := by
    refine mapE_exists ?_
    rintro ⟨k, w⟩ hw
    obtain ⟨v, hv, hvw⟩ := h.right hw
    obtain ⟨q, _, e⟩ := ((mapE_all₂ _ _ _).1 hr).left hv
    obtain ⟨i, hi, _⟩ := readAtt_ok e
    obtain ⟨j, hj, _⟩ := imageName_fol hvw k i hi
    exact ⟨(k, j, w), by simp only [readAtt, hj]; rfl⟩
  refine ⟨r', hr', fun k i => ?_⟩
  rw [readAtt_mem hr, readAtt_mem hr']
  constructor
  · rintro ⟨v, hv, e⟩
    obtain ⟨w, hw, hvw⟩ := h.left hv
    obtain ⟨j, hj, rfl⟩ := imageName_fol hvw k i e
    exact ⟨w, hw, hj⟩
  · rintro ⟨w, hw, e⟩
    obtain ⟨v, hv, hvw⟩ := h.right hw
    obtain ⟨j, hj, rfl⟩ := imageName_fol (reord_symm hvw) k i e
    exact ⟨v, hv, hj⟩

theorem skinEntry_fol {a b n m : JVal F} (h : Reord a b) (hn : Reord n m) :
    Fol Reord (SpineNodes.skinEntry a n) (SpineNodes.skinEntry b m) := by
  have e : Reord (.list [] : JVal F) (.list []) := reord_list.2 .nil
  cases h with
  | dict h1 h2 h3 h4 =>
    cases hn with
    | str s => exact Fol.ok (getD_reord ⟨h1, h2, h3, h4⟩ s e)
    | list => exact Fol.error
    | dict => exact Fol.error
    | _ => exact Fol.ok e
  | _ => exact Fol.error

theorem readSkin_fol {n m v w : JVal F} (hn : Reord n m) (h : Reord v w) : Fol AttsR (readSkin n v) (readSkin m w) := by
  unfold readSkin
  refine (dotGet_fol h _).bind fun a b hab => ?_
  rw [reord_truthy hab]
  split
  · exact (skinEntry_fol hab hn).bind fun _ _ h1 => (dictItems_fol h1).bind fun _ _ h2 => readAtts_fol h2
  · exact Fol.pure (fun _ _ => Iff.rfl)

structure GSlotR (x y : GSlot F) : Prop where
  name : x.name = y.name
  bone : x.bone = y.bone
  v : Reord x.v y.v
  atts : AttsR x.atts y.atts

theorem attsR_flatten {l m : List (List (Str × Str × JVal F))} (h : All₂ AttsR l m) : AttsR l.flatten m.flatten := by
  induction h with
  | nil => exact fun _ _ => Iff.rfl
  | cons h1 _ ih =>
    intro k i
    have := h1 k i
    have := ih k i
    simp only [List.flatten_cons, List.mem_append, exists_or] at *
    grind

theorem readSlot_fol {d e v w : JVal F} (hd : Reord d e) (h : Reord v w) : Fol GSlotR (readSlot d v) (readSlot e w) :=
  (nameOf_fol h).bind fun _ _ h1 => (optId_fol h _).bind fun _ _ h2 => (subscript_fol h _).bind fun _ _ h3 =>
    (subscript_fol hd _).bind fun _ _ h4 => Fol.bind2 (iterMap_fol h4 (fun _ _ => readSkin_fol h3) (by
      intro s _ r h
      cases h)) fun _ _ h5 => Fol.pure ⟨h1, h2, h, attsR_flatten h5⟩

theorem ikBones_fol {v w : JVal F} (h : Reord v w) : Fol (fun l m => ∀ x, x ∈ l ↔ x ∈ m) (ikBones v) (ikBones w) := by
  have strs : ∀ l : List Str, mapE fmtId (l.map (.str : Str → JVal F)) = .ok l := by
    intro l
    induction l with
    | nil => rfl
    | cons a l ih => simp only [List.map_cons, mapE, ih]; rfl
  unfold ikBones
  refine (subscript_fol h _).bind fun a b hab => ?_
  cases hab with
  | list h1 h2 =>
    refine Fol.mono (mapE_fol (all₂_of_get h1 h2) fun _ _ => fmtId_fol) ?_
    intro x y hxy z
    have e := hxy.eq
    rw [e]
  | @dict d e h1 h2 h3 h4 =>
    have e1 : d.map (fun p => (.str p.1 : JVal F)) = (Dict.keys d).map .str := by simp [Dict.keys, Function.comp_def]
    have e2 : e.map (fun p => (.str p.1 : JVal F)) = (Dict.keys e).map .str := by simp [Dict.keys, Function.comp_def]
    intro r hr
    have hr' : mapE fmtId (d.map (fun p => (.str p.1 : JVal F))) = .ok r := hr
    rw [e1, strs] at hr'
    injection hr' with hr'; subst hr'
    refine ⟨Dict.keys e, ?_, h3⟩
    show mapE fmtId (e.map (fun p => (.str p.1 : JVal F))) = _
    rw [e2, strs]
  | str s =>
    intro r hr
    exact ⟨r, hr, fun _ => Iff.rfl⟩
  | _ => exact Fol.error

theorem readTarget_fol {v w : JVal F} (h : Reord v w) : Fol Eq (readTarget v) (readTarget w) := by
  unfold readTarget
  refine (dotGet_fol h _).bind fun a b hab => ?_
  rw [reord_truthy hab]
  split
  · exact (fmtId_fol hab).bind fun _ _ h => Fol.pure (by rw [h])
  · exact Fol.pure rfl

structure GIkR (x y : GIk F) : Prop where
  name : x.name = y.name
  bones : ∀ b, b ∈ x.bones ↔ b ∈ y.bones
  target : x.target = y.target
  v : Reord x.v y.v

theorem readIk_fol {v w : JVal F} (h : Reord v w) : Fol GIkR (readIk v) (readIk w) :=
  (nameOf_fol h).bind fun _ _ h1 => (ikBones_fol h).bind fun _ _ h2 => (readTarget_fol h).bind fun _ _ h3 => Fol.pure ⟨h1, h2, h3, h⟩

structure ShapeR (x y : GShape F) : Prop where
  bones : All₂ GBoneR x.bones y.bones
  slots : All₂ GSlotR x.slots y.slots
  iks : All₂ GIkR x.iks y.iks

theorem nameOf_str (s : Str) : nameOf (.str s : JVal F) = .error .type := rfl

theorem docListMap_fol {α : Type} {S : α → α → Prop} {f g : JVal F → Except Err α} {d e : JVal F} (h : Reord d e) (k : Str)
    (hf : ∀ x y, Reord x y → Fol S (f x) (g y)) (hs : ∀ s : Str, s ≠ [] → ∀ r, f (.str s) ≠ .ok r) :
    Fol (All₂ S) (SpineNodes.docList d k >>= mapE f) (SpineNodes.docList e k >>= mapE g) := by
  cases h with
  | dict h1 h2 h3 h4 => exact getIterMap_fol ⟨h1, h2, h3, h4⟩ k hf hs
  | _ => exact Fol.error

theorem read_fol {d e : JVal F} (h : Reord d e) : Fol ShapeR (read d) (read e) := by
  refine (subscript_fol h _).bind fun _ _ h1 => Fol.bind2 (iterMap_fol h1 (fun _ _ => readBone_fol) ?_) fun _ _ h2 =>
    Fol.bind2 (docListMap_fol h _ (fun _ _ => readSlot_fol h) ?_) fun _ _ h3 =>
    Fol.bind2 (docListMap_fol h _ (fun _ _ => readIk_fol) ?_) fun _ _ h4 => Fol.pure ⟨h2, h3, h4⟩
  all_goals
    intro s _ r h
    cases h

/-! ### graphs -/

/-- graphs with the same ids, types and edges, and related data -/
structure GSame (g g' : SGraph F) : Prop where
  nodes : ∀ t, t = .bone ∨ t = .slot ∨ t = .ik → All₂ (fun p q => p.1 = q.1 ∧ Reord p.2.2 q.2.2) (nodesOf g t) (nodesOf g' t)
  has : ∀ x, HasNode g x ↔ HasNode g' x
  edge : ∀ x y, Edge g x y ↔ Edge g' x y

theorem GSame.symm {g g' : SGraph F} (h : GSame g g') : GSame g' g :=
  ⟨fun t ht => all₂_symm (h.nodes t ht) fun _ _ h => ⟨h.1.symm, reord_symm h.2⟩, fun x => (h.has x).symm, fun x y => (h.edge x y).symm⟩

theorem GSame.restrict {g g' : SGraph F} (h : GSame g g') {S R : List Str} (hs : ∀ x, x ∈ S ↔ x ∈ R) :
    GSame (Graph.restrict g S) (Graph.restrict g' R) := by
  refine ⟨fun t ht => ?_, fun x => ?_, fun x y => ?_⟩
  · rw [nodesOf_restrict, nodesOf_restrict]
    exact all₂_filter (h.nodes t ht) fun p q hpq => by simp [hpq.1, hs]
  · rw [hasNode_restrict, hasNode_restrict, h.has, hs]
  · rw [edge_restrict, edge_restrict, h.edge, hs, hs]

theorem GSame.doomedC {b b' : Bool} {g g' : SGraph F} (hc : Core b g) (hc' : Core b' g') (h : GSame g g') {t : NType} {x : Str}
    (hd : Doomed g Node.children t x) : Doomed g' Node.children t x := by
  induction hd with
  | @mk x n hn ht _ ih =>
    obtain ⟨m, hm⟩ := (h.has x).1 ⟨n, hn⟩
    refine .mk hm ?_ ?_
    · obtain ⟨_, a, ea⟩ := hc.typed x n hn
      obtain ⟨_, b, eb⟩ := hc'.typed x m hm
      rw [← ht]
      exact (graphId_inj (eb.symm.trans ea)).1
    · intro y hy
      obtain ⟨n', hn', hy'⟩ := (h.edge x y).2 ⟨m, hm, hy⟩
      rw [hn] at hn'; injection hn' with hn'; subst hn'
      exact ih y hy'

theorem GSame.doomedP {b b' : Bool} {g g' : SGraph F} (hc : Core b g) (hc' : Core b' g') (h : GSame g g') {t : NType} {x : Str}
    (hd : Doomed g Node.parents t x) : Doomed g' Node.parents t x := by
  induction hd with
  | @mk x n hn ht _ ih =>
    obtain ⟨m, hm⟩ := (h.has x).1 ⟨n, hn⟩
    refine .mk hm ?_ ?_
    · obtain ⟨_, a, ea⟩ := hc.typed x n hn
      obtain ⟨_, b, eb⟩ := hc'.typed x m hm
      rw [← ht]
      exact (graphId_inj (eb.symm.trans ea)).1
    · intro y hy
      obtain ⟨k, hk, hk2⟩ := hc'.wf.parent_link hm hy
      obtain ⟨k', hk', hk2'⟩ := (h.edge y x).2 ⟨k, hk, hk2⟩
      obtain ⟨n', hn', hy'⟩ := hc.wf.child_link hk' hk2'
      rw [hn] at hn'; injection hn' with hn'; subst hn'
      exact ih y hy'

theorem all₂_append {α β : Type} {R : α → β → Prop} {l l2 : List α} {m m2 : List β} (h : All₂ R l m) (h2 : All₂ R l2 m2) :
    All₂ R (l ++ l2) (m ++ m2) := by
  induction h with
  | nil => exact h2
  | cons h1 _ ih => exact .cons h1 ih

theorem all₂_split {α β : Type} {R : α → β → Prop} {l : List α} {m : List β} (h : All₂ R l m) {pre post : List α} {x : α}
    (e : l = pre ++ x :: post) : ∃ pre' y post', m = pre' ++ y :: post' ∧ All₂ R pre pre' ∧ R x y := by
  induction pre generalizing l m with
  | nil =>
    subst e
    cases h with
    | cons h1 h2 => exact ⟨[], _, _, rfl, .nil, h1⟩
  | cons p pre ih =>
    subst e
    cases h with
    | cons h1 h2 =>
      obtain ⟨pre', y, post', rfl, h3, h4⟩ := ih h2 rfl
      exact ⟨_ :: pre', y, post', rfl, .cons h1 h3, h4⟩

theorem ShapeR.symm {x y : GShape F} (h : ShapeR x y) : ShapeR y x :=
  ⟨all₂_symm h.bones fun _ _ h => ⟨h.name.symm, h.parent.symm, reord_symm h.v⟩,
    all₂_symm h.slots fun _ _ h => ⟨h.name.symm, h.bone.symm, reord_symm h.v, fun k i => (h.atts k i).symm⟩,
    all₂_symm h.iks fun _ _ h => ⟨h.name.symm, fun b => (h.bones b).symm, h.target.symm, reord_symm h.v⟩⟩

theorem ShapeR.ok {x y : GShape F} (h : ShapeR x y) (ho : GShape.Ok x) : GShape.Ok y := by
  refine ⟨?_, ?_, ?_, ?_⟩
  · rw [← h.bones.map_eq (f := (·.name)) (g := (·.name)) (fun _ _ h => h.name)]; exact ho.bones
  · rw [← h.slots.map_eq (f := (·.name)) (g := (·.name)) (fun _ _ h => h.name)]; exact ho.slots
  · rw [← h.iks.map_eq (f := (·.name)) (g := (·.name)) (fun _ _ h => h.name)]; exact ho.iks
  · intro b hb
    obtain ⟨a, ha, hab⟩ := h.bones.right hb
    rw [← hab.name, ← hab.parent]
    exact ho.parents a ha

theorem ShapeR.link {x y : GShape F} (h : ShapeR x y) {p c : Str} (hl : Link x p c) : Link y p c := by
  have hb : x.bones.map (·.name) = y.bones.map (·.name) := h.bones.map_eq (fun _ _ h => h.name)
  cases hl with
  | @bone pre b post h1 h2 =>
    obtain ⟨pre', b', post', e, h3, h4⟩ := all₂_split h.bones h1
    rw [h4.name, h4.parent]
    refine .bone e ?_
    rw [← h3.map_eq (f := (·.name)) (g := (·.name)) (fun _ _ h => h.name), ← h4.parent]
    exact h2
  | slot h1 h2 =>
    obtain ⟨s, hs, h3⟩ := h.slots.left h1
    rw [h3.name, h3.bone]
    exact .slot hs (by rw [← hb, ← h3.bone]; exact h2)
  | @att s a h1 h2 =>
    obtain ⟨s, hs, h3⟩ := h.slots.left h1
    obtain ⟨v, hv⟩ := (h3.atts a.1 a.2.1).1 ⟨a.2.2, h2⟩
    rw [h3.name]
    exact .att (a := (a.1, a.2.1, v)) hs hv
  | @image s a h1 h2 =>
    obtain ⟨s, hs, h3⟩ := h.slots.left h1
    obtain ⟨v, hv⟩ := (h3.atts a.1 a.2.1).1 ⟨a.2.2, h2⟩
    exact .image (a := (a.1, a.2.1, v)) hs hv
  | ikBone h1 h2 h3 =>
    obtain ⟨i, hi, h4⟩ := h.iks.left h1
    rw [h4.name]
    exact .ikBone hi ((h4.bones _).1 h2) (by rw [← hb]; exact h3)
  | ikTarget h1 h2 h3 =>
    obtain ⟨i, hi, h4⟩ := h.iks.left h1
    rw [h4.name]
    exact .ikTarget hi (by rw [← h4.target]; exact h2) (by rw [← hb]; exact h3)

theorem ShapeR.has {x y : GShape F} {g g' : SGraph F} (h : ShapeR x y) (hx : Built x g) (hy : Built y g') {i : Str}
    (hi : HasNode g i) : HasNode g' i := by
  rw [hx.hasNode] at hi
  rw [hy.hasNode]
  rcases hi with ⟨b, hb, rfl⟩ | ⟨b, hb, hi⟩ | ⟨b, hb, rfl⟩
  · obtain ⟨b', hb', h1⟩ := h.bones.left hb
    exact .inl ⟨b', hb', by rw [h1.name]⟩
  · obtain ⟨b', hb', h1⟩ := h.slots.left hb
    refine .inr (.inl ⟨b', hb', ?_⟩)
    rcases hi with rfl | ⟨a, ha, hi⟩
    · exact .inl (by rw [h1.name])
    · obtain ⟨v, hv⟩ := (h1.atts a.1 a.2.1).1 ⟨a.2.2, ha⟩
      exact .inr ⟨_, hv, hi⟩
  · obtain ⟨b', hb', h1⟩ := h.iks.left hb
    exact .inr (.inr ⟨b', hb', by rw [h1.name]⟩)

theorem all₂_zipIdx {α β γ δ : Type} {R : α → β → Prop} {S : γ → δ → Prop} {f : α × Nat → γ} {f' : β × Nat → δ} {l : List α} {m : List β}
    (h : All₂ R l m) (hf : ∀ a b i, R a b → S (f (a, i)) (f' (b, i))) (k : Nat) : All₂ S ((l.zipIdx k).map f) ((m.zipIdx k).map f') := by
  induction h generalizing k with
  | nil => exact .nil
  | cons h1 _ ih => exact .cons (hf _ _ _ h1) (ih _)

theorem ShapeR.same {x y : GShape F} {g g' : SGraph F} (h : ShapeR x y) (hx : Built x g) (hy : Built y g') : GSame g g' := by
  refine ⟨?_, fun i => ⟨h.has hx hy, h.symm.has hy hx⟩, fun p c => ?_⟩
  · intro t ht
    rw [hx.nodesOf t (by rcases ht with rfl | rfl | rfl <;> decide) (by rcases ht with rfl | rfl | rfl <;> decide),
      hy.nodesOf t (by rcases ht with rfl | rfl | rfl <;> decide) (by rcases ht with rfl | rfl | rfl <;> decide)]
    refine all₂_append ?_ (all₂_append ?_ ?_)
    · split
      · exact all₂_zipIdx h.bones (fun a b i h => ⟨by rw [h.name], h.v⟩) 0
      · exact .nil
    · split
      · exact all₂_zipIdx h.slots (fun a b i h => ⟨by rw [h.name], h.v⟩) 0
      · exact .nil
    · split
      · exact all₂_zipIdx h.iks (fun a b i h => ⟨by rw [h.name], h.v⟩) 0
      · exact .nil
  · rw [hx.edge, hy.edge]
    exact ⟨h.link, h.symm.link⟩

theorem create_fol {d e : JVal F} (h : Reord d e) : Fol GSame (SpineNodes.create d) (SpineNodes.create e) := by
  intro g hg
  obtain ⟨sh, h1, h2⟩ := create_built hg
  obtain ⟨sh', h3, h4⟩ := read_fol h sh h1
  obtain ⟨g', h5, h6⟩ := create_ok h3 (h4.ok h2.ok)
  exact ⟨g', h5, h4.same h2 h6⟩

end KeyOrder
end Spine
