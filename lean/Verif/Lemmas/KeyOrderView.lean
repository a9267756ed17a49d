import Verif.Lemmas.KeyOrderGraph
import Verif.Lemmas.Open
/- What a document shows does not depend on the order of keys: attachments, images, slots, drawing order. -/
set_option linter.unusedSectionVars false
set_option linter.unusedSimpArgs false
namespace Spine
namespace KeyOrder
open JVal Graph
variable {F : Type} [PyRt F]

/-! ### attachments and images -/

theorem hasAtt {a b : AnimData F} (h : DataR a b) {slot k : Str} {x : Att F} (hx : a.HasAtt slot k x) : ∃ y, b.HasAtt slot k y ∧ AttR x y := by
  obtain ⟨s, hs, e, he, hx⟩ := hx
  obtain ⟨s', hs', h1⟩ := h.skins.left hs
  obtain ⟨e', he', h2⟩ := h1.atts.left he
  obtain ⟨y, hy, h3⟩ := h2.left hx
  exact ⟨y, ⟨s', hs', e', he', hy⟩, h3⟩

theorem ARel.str {a b : Attrs F} (h : ARel a b) (k t : Str) : Dict.get? a k = some (.str t) ↔ Dict.get? b k = some (.str t) := by
  rcases h.get k with ⟨h1, h2⟩ | ⟨v, w, h1, h2, h3⟩
  · rw [h1, h2]
  · rw [h1, h2]
    cases h3 <;> simp

theorem imageName {x y : Att F} (h : AttR x y) {k i : Str} (hi : ImageName k x i) : ImageName k y i := by
  have nt : ∀ k, x.NoText k → y.NoText k := fun k hk t ht => hk t ((h.attrs.str k t).2 ht)
  cases hi with
  | path h1 h2 => exact .path ((h.attrs.str _ _).1 h1) h2
  | name h1 h2 h3 => exact .name (nt _ h1) ((h.attrs.str _ _).1 h2) h3
  | key h1 h2 => exact .key (nt _ h1) (nt _ h2)

theorem slotShows {a b : AnimData F} (h : DataR a b) {slot i : Str} (hx : a.SlotShows slot i) : b.SlotShows slot i := by
  obtain ⟨k, x, h1, h2, h3⟩ := hx
  obtain ⟨y, h4, h5⟩ := hasAtt h h1
  exact ⟨k, y, h4, by rw [← h5.kind]; exact h2, imageName h5 h3⟩

theorem usesImage {a b : AnimData F} (h : DataR a b) {i : Str} (hx : a.UsesImage i) : b.UsesImage i :=
  hx.imp fun _ => slotShows h

theorem strAttr_fol {x y : Att F} (h : AttR x y) (k : Str) : Fol Eq (x.strAttr k) (y.strAttr k) := by
  unfold Att.strAttr
  rcases h.attrs.get k with ⟨h1, h2⟩ | ⟨v, w, h1, h2, h3⟩
  · rw [h1]; exact Fol.error
  · rw [h1, h2]; exact optStr_fol h3

theorem imageOf_fol {x y : Att F} (h : AttR x y) (k : Str) : Fol Eq (Editor.imageOf k x) (Editor.imageOf k y) := by
  unfold Editor.imageOf
  refine (strAttr_fol h _).bind fun p q hp => ?_
  subst hp
  cases pyOr p none with
  | some i => exact Fol.pure rfl
  | none =>
    refine (strAttr_fol h _).bind fun p q hp => ?_
    subst hp
    exact fun a ha => ⟨a, ha, rfl⟩

theorem getSlot_rel {a b : AnimData F} (h : DataR a b) (n : Str) :
    (AnimData.getSlot a n = none ∧ AnimData.getSlot b n = none) ∨
      ∃ s t, AnimData.getSlot a n = some s ∧ AnimData.getSlot b n = some t ∧ SlotR s t := by
  unfold AnimData.getSlot
  have := h.slots
  generalize a.slots = l at this
  generalize b.slots = m at this
  induction this with
  | nil => exact .inl ⟨rfl, rfl⟩
  | @cons x y l m h1 _ ih =>
    simp only [List.find?_cons, ← h1.name]
    cases x.name == n with
    | true => exact .inr ⟨x, y, rfl, rfl, h1⟩
    | false => exact ih

theorem slotScale_eq {a b : AnimData F} (h : DataR a b) (n : Str) :
    AnimData.slotScale a (AnimData.getSlot a n) = AnimData.slotScale b (AnimData.getSlot b n) := by
  rw [AnimData.slotScale_same (y := b) (h.bones.mono fun _ _ _ h => ⟨h.name, h.parent⟩)]
  rcases getSlot_rel h n with ⟨h1, h2⟩ | ⟨s, t, h1, h2, h3⟩
  · rw [h1, h2]
  · rw [h1, h2]
    simp only [AnimData.slotScale, h3.name, h3.bone]

/-- the same images at the same places -/
abbrev ImR (x y : Dict (ImageRef F)) : Prop := DRel (fun a b => a.path = b.path) x y

theorem folderOf_rel {d e : Dict (JVal F)} (h : JD d e) : Reord (Editor.folderOf d) (Editor.folderOf e) := getD_reord h _ (.str _)

theorem refsOk {s t : SpineDoc F} (h : DocR s t) (hs : Editor.RefsOk s) : Editor.RefsOk t := by
  intro k hk
  obtain ⟨k', hk', h1⟩ := h.data.skins.right hk
  obtain ⟨h2, h3⟩ := hs k' hk'
  refine ⟨by rw [← h.version]; exact h2, ?_⟩
  rintro ⟨n, d⟩ hp
  obtain ⟨d', hd', h4⟩ := h1.atts.right hp
  obtain ⟨⟨sc, h5⟩, h6⟩ := h3 _ hd'
  refine ⟨⟨sc, by rw [← slotScale_eq h.data]; exact h5⟩, ?_⟩
  rintro ⟨key, y⟩ hy
  obtain ⟨x, hx, h7⟩ := h4.right hy
  rcases h6 _ hx with h8 | ⟨⟨i, hi⟩, f, hf⟩
  · exact .inl (by rw [← h7.kind]; exact h8)
  · obtain ⟨j, hj, _⟩ := imageOf_fol h7 key i hi
    refine .inr ⟨⟨j, hj⟩, f, ?_⟩
    have := folderOf_rel h.skeleton
    rw [hf] at this
    revert this
    generalize Editor.folderOf t.skeleton = w
    intro this
    cases this; rfl

theorem imagesFolder {d e : Dict (JVal F)} (h : JD d e) {f g : Str} (hf : ImagesFolder d f) (hg : ImagesFolder e g) : f = g := by
  unfold ImagesFolder at hf hg
  rcases h.get s!!"images" with ⟨h1, h2⟩ | ⟨v, w, h1, h2, h3⟩
  · rw [h1] at hf; rw [h2] at hg
    simp at hf hg
    rw [hf, hg]
  · rw [h1] at hf; rw [h2] at hg
    simp at hf hg
    subst hf hg
    cases h3; rfl

theorem images_fol {s t : SpineDoc F} (h : DocR s t) : Fol ImR (Editor.imagesReferences s) (Editor.imagesReferences t) := by
  intro im him
  obtain ⟨im', him'⟩ := (Editor.imagesReferences_ok t).2 (refsOk h ((Editor.imagesReferences_ok s).1 ⟨im, him⟩))
  obtain ⟨a1, a2, a3, _⟩ := Editor.imagesReferences_spec him
  obtain ⟨b1, b2, b3, _⟩ := Editor.imagesReferences_spec him'
  have use : ∀ {s : SpineDoc F} {im : Dict (ImageRef F)}, (∀ i r, Dict.get? im i = some r → Editor.EntryOk s i r) →
      ∀ i, i ∈ Dict.keys im → s.data.UsesImage i := by
    intro s im h i hi
    obtain ⟨r, hr⟩ := (Dict.get?_isSome_iff im i).2 hi
    obtain ⟨_, slot, _, _, _, hsh, _⟩ := h i r hr
    exact ⟨slot, hsh⟩
  refine ⟨im', him', a3, b3, fun i => ⟨fun hi => b2 i (usesImage h.data (use a1 i hi)), fun hi => a2 i (usesImage h.data.symm (use b1 i hi))⟩, ?_⟩
  intro i v w hv hw
  obtain ⟨f, _, _, hf, hp, _⟩ := a1 i v hv
  obtain ⟨g, _, _, hg, hq, _⟩ := b1 i w hw
  rw [(inFolder_iff _ _ _).1 hp, (inFolder_iff _ _ _).1 hq, imagesFolder h.skeleton hf hg]

/-! ### slots shown and attachments used -/

theorem transparent {x y : Slot F} (h : SlotR x y) (ht : Transparent x) : Transparent y := by
  unfold Transparent at *
  rw [← h.color]; exact ht

theorem plain {x y : Slot F} (h : SlotR x y) (ht : x.Plain) : y.Plain := by
  refine ⟨by rw [← h.attachment]; exact ht.attachment, by rw [← h.color]; exact ht.color, ?_, ?_⟩
  · exact reord_null (by rw [← ht.dark]; exact h.dark)
  · exact reord_null (by rw [← ht.blend]; exact h.blend)

theorem all₂_nil_iff {α β : Type} {R : α → β → Prop} {l : List α} {m : List β} (h : All₂ R l m) : l = [] ↔ m = [] := by
  cases h <;> simp

theorem coloured {x y : SlotTl F} (h : SlotTlR x y) : x.Coloured ↔ y.Coloured := by
  unfold SlotTl.Coloured
  rw [ne_eq, ne_eq, all₂_nil_iff h.color, all₂_nil_iff h.twoColor]

theorem shows {x y : SlotTl F} (h : SlotTlR x y) {n : Str} (hs : x.Shows n) : y.Shows n := by
  obtain ⟨k, hk, h1, h2⟩ := hs
  obtain ⟨k', hk', h3⟩ := h.attachment.left hk
  exact ⟨k', hk', by rw [← h3.name]; exact h1, h2⟩

theorem blank {x y : SlotTl F} (h : SlotTlR x y) (hb : x.Blank) : y.Blank := by
  obtain ⟨h1, h2⟩ := hb
  refine ⟨fun hc => h1 ((coloured h).2 hc), ?_⟩
  rcases h2 with h2 | ⟨k, h2, h3, h4⟩
  · exact .inl ((all₂_nil_iff h.attachment).1 h2)
  · have ha := h.attachment
    rw [h2] at ha
    cases hy : y.attachment with
    | nil => rw [hy] at ha; cases ha
    | cons k' l =>
      rw [hy] at ha
      cases ha with
      | cons h5 h6 =>
        cases h6
        refine .inr ⟨k', rfl, ?_, ?_⟩
        · unfold SlotKf.Clears at *; rw [← h5.name]; exact h3
        · rw [← reord_pyEq (h5.rest.val _)]; exact h4

theorem animShown {x y : Anim F} {s t : Slot F} (h : AnimR x y) (hs : SlotR s t) (hx : x.Shown s) : y.Shown t := by
  cases hx with
  | setup h1 h2 h3 =>
    exact .setup (by rw [← hs.name]; exact fun hc => h1 ((h.slots.keys _).2 hc)) (fun hc => h2 (transparent hs.symm hc)) (fun hc => h3 (plain hs.symm hc))
  | @timeline t1 h1 h2 h3 h4 =>
    obtain ⟨t2, h5, h6⟩ := h.slots.left h1
    refine .timeline (by rw [← hs.name]; exact h5) (fun hc => h2 (blank h6.symm hc)) (fun hc => (coloured h6).1 (h3 (transparent hs.symm hc))) ?_
    intro hc
    obtain ⟨n, hn⟩ := h4 (plain hs.symm hc)
    exact ⟨n, shows h6 hn⟩

theorem dataShown {a b : AnimData F} {s t : Slot F} (h : DataR a b) (hs : SlotR s t) (hx : a.Shown s) : b.Shown t := by
  obtain ⟨n, x, h1, h2⟩ := hx
  obtain ⟨y, h3, h4⟩ := h.animations.left h1
  exact ⟨n, y, h3, animShown h4 hs h2⟩

theorem dataUses {a b : AnimData F} {k : Str} (h : DataR a b) (hx : a.Uses k) : b.Uses k := by
  obtain ⟨n, x, h1, s, hs, h2, h3⟩ := hx
  obtain ⟨y, h4, h5⟩ := h.animations.left h1
  obtain ⟨t, ht, h6⟩ := h.slots.left hs
  refine ⟨n, y, h4, t, ht, animShown h5 h6 h2, ?_⟩
  rcases h3 with h3 | ⟨u, h7, h8⟩
  · exact .inl (by rw [← h6.attachment]; exact h3)
  · obtain ⟨w, hw, h9⟩ := h5.slots.left h7
    exact .inr ⟨w, by rw [← h6.name]; exact hw, shows h9 h8⟩

theorem notShown {a b : AnimData F} (h : DataR a b) {n : Str} (hx : ∃ s ∈ a.slots, s.name = n ∧ ¬ a.Shown s) :
    ∃ s ∈ b.slots, s.name = n ∧ ¬ b.Shown s := by
  obtain ⟨s, hs, h1, h2⟩ := hx
  obtain ⟨t, ht, h3⟩ := h.slots.left hs
  exact ⟨t, ht, by rw [← h3.name]; exact h1, fun hc => h2 (dataShown h.symm h3.symm hc)⟩

/-- the same members -/
def Mems {α : Type} (l m : List α) : Prop := ∀ x, x ∈ l ↔ x ∈ m

theorem unused_fol {a b : AnimData F} (h : DataR a b) (hn : (a.slots.map (·.name)).Nodup) (ha : ∀ p ∈ a.animations, (Dict.keys p.2.slots).Nodup) :
    Fol (fun r s => Mems r.1 s.1 ∧ Mems r.2 s.2) (AnimData.unused a) (AnimData.unused b) := by
  have hn' : (b.slots.map (·.name)).Nodup := by
    rw [← h.slots.map_eq (f := (·.name)) (g := (·.name)) (fun _ _ h => h.name)]; exact hn
  have ha' : ∀ p ∈ b.animations, (Dict.keys p.2.slots).Nodup := by
    rintro ⟨n, y⟩ hy
    obtain ⟨x, _, h1⟩ := h.animations.right hy
    exact h1.slots.nodup'
  intro r hr
  cases hu : AnimData.unused b with
  | error e =>
    exfalso
    have : ∃ e, AnimData.unused a = .error e := by
      rw [AnimData.unused_error hn ha]
      rcases (AnimData.unused_error hn' ha').1 ⟨e, hu⟩ with ⟨s, hs, c, h1, h2⟩ | ⟨⟨n, y⟩, hp, k, hk, h1⟩ | ⟨⟨n, y⟩, hp, h1, h2⟩
      · obtain ⟨t, ht, h3⟩ := h.slots.right hs
        exact .inl ⟨t, ht, c, by rw [h3.color]; exact h1, h2⟩
      · obtain ⟨x, hx, h3⟩ := h.animations.right hp
        refine .inr (.inl ⟨_, hx, k, (h3.slots.keys k).2 hk, h1.imp id ?_⟩)
        intro h1 s hs
        obtain ⟨t, ht, h4⟩ := h.slots.left hs
        rw [h4.name]; exact h1 t ht
      · obtain ⟨x, hx, h3⟩ := h.animations.right hp
        refine .inr (.inr ⟨_, hx, h3.slots.nil_iff.2 h1, ?_⟩)
        intro s hs
        obtain ⟨t, ht, h4⟩ := h.slots.left hs
        exact (h2 t ht).imp (transparent h4.symm) (plain h4.symm)
    obtain ⟨e, he⟩ := this
    rw [hr] at he; cases he
  | ok r' =>
    obtain ⟨p1, p2⟩ := AnimData.unused_spec hn ha (slots := r.1) (atts := r.2) hr
    obtain ⟨q1, q2⟩ := AnimData.unused_spec hn' ha' (slots := r'.1) (atts := r'.2) hu
    have ns : ∀ n, (∃ s ∈ a.slots, s.name = n ∧ ¬ a.Shown s) ↔ ∃ s ∈ b.slots, s.name = n ∧ ¬ b.Shown s :=
      fun n => ⟨notShown h, notShown h.symm⟩
    refine ⟨r', rfl, fun n => by rw [p1, q1]; exact ns n, fun k => ?_⟩
    rw [p2, q2]
    have hus : a.Uses k ↔ b.Uses k := ⟨dataUses h, dataUses h.symm⟩
    rw [hus]
    constructor
    · rintro ⟨h1, slot, x, h2, h3⟩
      obtain ⟨y, h4, h5⟩ := hasAtt h h2
      exact ⟨h1, slot, y, h4, by rw [← h5.kind, ← ns]; exact h3⟩
    · rintro ⟨h1, slot, x, h2, h3⟩
      obtain ⟨y, h4, h5⟩ := hasAtt h.symm h2
      exact ⟨h1, slot, y, h4, by rw [← h5.kind, ns]; exact h3⟩

/-! ### drawing order -/

namespace Draw
open DrawOrder
variable {α : Type} (name : α → Str)

theorem operations_map (d : Dict Int) (l : List α) (i : Nat) :
    operations id d i (l.map name) = (operations name d i l).map (fun q => (q.1, name q.2.1, q.2.2)) := by
  induction l generalizing i with
  | nil => rfl
  | cons x l ih =>
    simp only [List.map_cons, operations, id_eq, ih]
    cases Dict.get? d (name x) <;> rfl

theorem insertKey_map (x : α × Int) (l : List (α × Int)) :
    insertKey (name x.1, x.2) (l.map (fun q => (name q.1, q.2))) = (insertKey x l).map (fun q => (name q.1, q.2)) := by
  induction l with
  | nil => rfl
  | cons y l ih =>
    simp only [List.map_cons, insertKey, ih]
    split <;> rfl

theorem sortOps_map (l : List (α × Int)) : sortOps (l.map (fun q => (name q.1, q.2))) = (sortOps l).map (fun q => (name q.1, q.2)) := by
  unfold sortOps
  induction l with
  | nil => rfl
  | cons x l ih => simp only [List.map_cons, List.foldr_cons, ih, insertKey_map]

theorem eraseIdx_map (ks : List Nat) (l : List α) :
    ks.foldl (fun l i => l.eraseIdx i) (l.map name) = (ks.foldl (fun l i => l.eraseIdx i) l).map name := by
  induction ks generalizing l with
  | nil => rfl
  | cons k ks ih =>
    have e : (l.map name).eraseIdx k = (l.eraseIdx k).map name := by
      simp only [List.eraseIdx_eq_take_drop_succ, List.map_append, List.map_take, List.map_drop]
    simp only [List.foldl_cons, e, ih]

theorem pyInsert_map (l : List α) (i : Int) (x : α) : pyInsert (l.map name) i (name x) = (pyInsert l i x).map name := by
  unfold pyInsert
  simp [List.map_take, List.map_drop]

theorem inserts_map (ops : List (α × Int)) (l : List α) :
    (ops.map (fun q => (name q.1, q.2))).foldl (fun l op => pyInsert l op.2 op.1) (l.map name) =
      (ops.foldl (fun l op => pyInsert l op.2 op.1) l).map name := by
  induction ops generalizing l with
  | nil => rfl
  | cons o ops ih => simp only [List.map_cons, List.foldl_cons, pyInsert_map, ih]

theorem reorder_map (d : Dict Int) (l : List α) : (reorder name d l).map name = reorder id d (l.map name) := by
  simp only [reorder, operations_map, List.map_map]
  have e1 : ((fun q : Nat × Str × Int => q.1) ∘ fun q : Nat × α × Int => (q.1, name q.2.1, q.2.2)) = (·.1) := rfl
  have e2 : ((fun q : Nat × Str × Int => q.2) ∘ fun q : Nat × α × Int => (q.1, name q.2.1, q.2.2)) =
    (fun q : α × Int => (name q.1, q.2)) ∘ (·.2) := rfl
  rw [e1, e2, ← List.map_map, sortOps_map, eraseIdx_map, inserts_map]

theorem removeOffsets_map (ids : List Str) (l : List α) (o : List (Str × Int)) :
    removeOffsets name ids l o = removeOffsets id ids (l.map name) o := by
  simp only [removeOffsets, adjust, reorder_map, List.map_id_fun, id_eq]

theorem adjustLoop_mem {ids ids' : List Str} (h : Mems ids ids') (a b : List Str) (d : Dict Int) :
    adjustLoop ids a b d = adjustLoop ids' a b d := by
  induction d with
  | nil => rfl
  | cons p d ih =>
    obtain ⟨n, o⟩ := p
    simp only [adjustLoop, ih, h n]

theorem removeOffsets_mem {ids ids' : List Str} (h : Mems ids ids') (l : List α) (o : List (Str × Int)) :
    removeOffsets name ids l o = removeOffsets name ids' l o := by
  have e : (fun x => decide (x ∉ ids)) = fun x => decide (x ∉ ids') := by funext x; simp only [h x]
  have e2 : (fun p : Str × Int => decide (p.1 ∉ ids ∧ p.2 ≠ 0)) = fun p => decide (p.1 ∉ ids' ∧ p.2 ≠ 0) := by funext p; simp only [h p.1]
  simp only [removeOffsets, adjust, e, e2, adjustLoop_mem h]

end Draw

theorem removeOffsets_eq {l m : List (Slot F)} (h : All₂ SlotR l m) {ids ids' : List Str} (hi : Mems ids ids') (o : List (Str × Int)) :
    DrawOrder.removeOffsets Slot.name ids l o = DrawOrder.removeOffsets Slot.name ids' m o := by
  rw [Draw.removeOffsets_mem _ hi, Draw.removeOffsets_map Slot.name, Draw.removeOffsets_map Slot.name _ m, h.map_eq (f := Slot.name) (g := Slot.name) (fun _ _ h => h.name)]

theorem cleanDraw_fol {l m : List (Slot F)} (h : All₂ SlotR l m) {ids ids' : List Str} (hi : Mems ids ids') {x y x' : DrawTl F} (hxy : DrawR x y)
    (hx : Anim.cleanDraw ids l x = (.ok (), x')) : ∃ y', Anim.cleanDraw ids' m y = (.ok (), y') ∧ DrawR x' y' := by
  unfold Anim.cleanDraw at hx ⊢
  rw [← hxy.offsets, ← removeOffsets_eq h hi]
  split at hx
  · cases hx
  · cases hx; exact ⟨_, rfl, hxy.time, rfl⟩

theorem mapMut_fol {α β : Type} {R : α → β → Prop} {f : α → Res α Unit} {g : β → Res β Unit} {l : List α} {m : List β} (h : All₂ R l m)
    (hf : ∀ x y x', R x y → f x = (.ok (), x') → ∃ y', g y = (.ok (), y') ∧ R x' y') {l' : List α} (hl : mapMut f l = (.ok (), l')) :
    ∃ m', mapMut g m = (.ok (), m') ∧ All₂ R l' m' := by
  rw [mapMut_ok] at hl
  suffices H : ∃ m', All₂ (fun x x' => g x = (.ok (), x')) m m' ∧ All₂ R l' m' by
    obtain ⟨m', h1, h2⟩ := H
    exact ⟨m', (mapMut_ok _ _ _).2 h1, h2⟩
  induction h generalizing l' with
  | nil => cases hl; exact ⟨[], .nil, .nil⟩
  | cons h1 _ ih =>
    cases hl with
    | cons h2 h3 =>
      obtain ⟨y', h4, h5⟩ := hf _ _ _ h1 h2
      obtain ⟨m', h6, h7⟩ := ih h3
      exact ⟨y' :: m', .cons h4 h6, .cons h5 h7⟩

theorem mapMutD_fol {α β : Type} {R : α → β → Prop} {f : Str → α → Res α Unit} {g : Str → β → Res β Unit} {d : Dict α} {e : Dict β} (h : DRel R d e)
    (hf : ∀ k x y x', R x y → f k x = (.ok (), x') → ∃ y', g k y = (.ok (), y') ∧ R x' y') {d' : Dict α} (hd : mapMutD f d = (.ok (), d')) :
    ∃ e', mapMutD g e = (.ok (), e') ∧ DRel R d' e' := by
  have h1 := (mapMutD_ok _ _ _).1 hd
  have e1 : Dict.keys d' = Dict.keys d := (h1.map_eq (f := fun p : Str × α => p.1) (g := fun p : Str × α => p.1) (fun _ _ h => h.1.symm)).symm
  obtain ⟨e', he⟩ : ∃ e', mapMutD g e = (.ok (), e') := by
    refine mapMutD_exists ?_
    rintro ⟨k, y⟩ hy
    obtain ⟨x, hx, hr⟩ := h.right hy
    obtain ⟨p, _, _, hfx⟩ := h1.left hx
    obtain ⟨y', hy', _⟩ := hf k x y _ hr hfx
    exact ⟨y', hy'⟩
  have h2 := (mapMutD_ok _ _ _).1 he
  have e2 : Dict.keys e' = Dict.keys e := (h2.map_eq (f := fun p : Str × β => p.1) (g := fun p : Str × β => p.1) (fun _ _ h => h.1.symm)).symm
  refine ⟨e', he, by rw [e1]; exact h.nodup, by rw [e2]; exact h.nodup', fun k => by rw [e1, e2]; exact h.keys k, ?_⟩
  intro k v w hv hw
  obtain ⟨⟨k1, x⟩, hp, hk1, hfx⟩ := h1.right (Dict.mem_of_get? hv)
  obtain ⟨⟨k2, y⟩, hq, hk2, hfy⟩ := h2.right (Dict.mem_of_get? hw)
  simp only at hk1 hk2 hfx hfy
  subst hk1 hk2
  have hr := h.val k x y (Dict.get?_of_mem h.nodup hp) (Dict.get?_of_mem h.nodup' hq)
  obtain ⟨y', h3, h4⟩ := hf k x y v hr hfx
  rw [hfy] at h3
  cases h3
  exact h4

theorem removeDrawOrder_fol {l m : List (Slot F)} (h : All₂ SlotR l m) {ids ids' : List Str} (hi : Mems ids ids') {x y x' : Anim F} (hxy : AnimR x y)
    (hx : Anim.removeDrawOrder ids l x = (.ok (), x')) : ∃ y', Anim.removeDrawOrder ids' m y = (.ok (), y') ∧ AnimR x' y' := by
  unfold Anim.removeDrawOrder at hx ⊢
  simp only [Prod.mk.injEq] at hx
  obtain ⟨h1, rfl⟩ := hx
  obtain ⟨d, h2, h3⟩ := mapMut_fol hxy.drawOrder (fun _ _ _ => cleanDraw_fol h hi) (Prod.ext h1 rfl)
  rw [h2]
  exact ⟨_, rfl, hxy.ik, h3, hxy.bones, hxy.slots, hxy.events, hxy.transform, hxy.path, hxy.deform⟩

end KeyOrder
end Spine
