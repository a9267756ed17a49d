import Verif.Lemmas.KeyOrderView
import Verif.Lemmas.Weak
/- The calls of the editor keep the relation between documents equal up to the order of keys. -/
set_option linter.unusedSectionVars false
set_option linter.unusedSimpArgs false
namespace Spine
namespace KeyOrder
open JVal Graph Container
variable {F : Type} [PyRt F]

/-- whenever the first call succeeds so does the second, with related results and states -/
def RFol {α β σ τ : Type} (R : α → β → Prop) (S : σ → τ → Prop) (x : Res σ α) (y : Res τ β) : Prop :=
  ∀ a s, x = (.ok a, s) → ∃ b t, y = (.ok b, t) ∧ R a b ∧ S s t

/-- two editors equal up to the order of keys, and up to the scales of images -/
structure ER (e e' : Editor F) : Prop where
  doc : DocR e.doc e'.doc
  images : ImR e.images e'.images
  graph : GSame e.graph e'.graph

theorem ER.data {e e' : Editor F} (h : ER e e') : DataR e.data e'.data := h.doc.data
theorem ER.symm {e e' : Editor F} (h : ER e e') : ER e' e := ⟨h.doc.symm, h.images.symm fun _ _ h => h.symm, h.graph.symm⟩
theorem ER.withData {e e' : Editor F} (h : ER e e') {a b : AnimData F} (hab : DataR a b) : ER (e.withData a) (e'.withData b) :=
  ⟨⟨h.doc.skeleton, h.doc.version, hab⟩, h.images, h.graph⟩
theorem ER.withGraph {e e' : Editor F} (h : ER e e') {g g' : SGraph F} (hg : GSame g g') : ER { e with graph := g } { e' with graph := g' } :=
  ⟨h.doc, h.images, hg⟩

theorem load_fol {v w : JVal F} (h : Reord v w) : Fol ER (Editor.load v) (Editor.load w) := by
  intro e he
  unfold Editor.load at he ⊢
  cases h1 : SpineDoc.load v with
  | error x => rw [h1] at he; cases he
  | ok s =>
    rw [h1] at he; simp only at he
    obtain ⟨t, h2, hst⟩ := doc_fol h s h1
    cases h3 : Editor.imagesReferences s with
    | error x => rw [h3] at he; cases he
    | ok im =>
      rw [h3] at he; simp only at he
      obtain ⟨im', h4, him⟩ := images_fol hst im h3
      cases h5 : SpineNodes.create s.toJson with
      | error x => rw [h5] at he; cases he
      | ok g =>
        rw [h5] at he; simp only at he
        obtain ⟨g', h6, hg⟩ := create_fol (docJson hst) g h5
        rw [h2]; simp only [h4, h6]
        injection he with he; subst he
        exact ⟨_, rfl, hst, him, hg⟩

/-! ### clean_animation -/

theorem Mems.symm {α : Type} {l m : List α} (h : Mems l m) : Mems m l := fun x => (h x).symm
theorem Mems.append {α : Type} {l m l' m' : List α} (h : Mems l m) (h' : Mems l' m') : Mems (l ++ l') (m ++ m') := by
  intro x; simp only [List.mem_append, h x, h' x]
theorem Mems.map {α β : Type} {l m : List α} (f : α → β) (h : Mems l m) : Mems (l.map f) (m.map f) := by
  intro x; simp only [List.mem_map, h _]
theorem Mems.setList {l m : List Str} (h : Mems l m) : Mems (setList F l) (setList F m) := by
  intro x; rw [mem_setList, mem_setList]; exact h x

theorem slotsInSkins_rel {a b : AnimData F} (h : DataR a b) {ids ids' : List Str} (hi : Mems ids ids') :
    DataR (Editor.slotsInSkins ids a) (Editor.slotsInSkins ids' b) :=
  ⟨h.bones, h.slots, all₂_map h.skins fun x y h => ⟨h.name, h.atts.filterKey (P := fun k => decide (k ∉ ids)) (Q := fun k => decide (k ∉ ids'))
    fun k _ => by simp only [hi k]⟩, h.events, h.ik, h.transform, h.path, h.animations⟩

theorem removeSlotsA_rel {x y : Anim F} (h : AnimR x y) {ids ids' : List Str} (hi : Mems ids ids') :
    AnimR ((x.removeSlots ids).removeDeformSlots ids) ((y.removeSlots ids').removeDeformSlots ids') := by
  have key : ∀ k, decide (k ∉ ids) = decide (k ∉ ids') := fun k => by simp only [hi k]
  exact ⟨h.ik, h.drawOrder, h.bones, h.slots.filterKey (P := fun k => decide (k ∉ ids)) (Q := fun k => decide (k ∉ ids')) fun k _ => key k,
    h.events, h.transform, h.path, h.deform.dmap fun _ _ h => h.filterKey (P := fun k => decide (k ∉ ids)) (Q := fun k => decide (k ∉ ids')) fun k _ => key k⟩

theorem removeDeformAtts_rel {x y : Anim F} (h : AnimR x y) {ids ids' : List Str} (hi : Mems ids ids') (n : Str) :
    AnimR (x.removeDeformAtts ids n) (y.removeDeformAtts ids' n) := by
  unfold Anim.removeDeformAtts
  rcases h.deform.get n with ⟨h1, h2⟩ | ⟨v, w, h1, h2, h3⟩
  · rw [h1, h2]; exact h
  · rw [h1, h2]
    exact ⟨h.ik, h.drawOrder, h.bones, h.slots, h.events, h.transform, h.path, h.deform.set n (h3.dmap fun _ _ h =>
      h.filterKey (P := fun k => decide (k ∉ ids)) (Q := fun k => decide (k ∉ ids')) fun k _ => by simp only [hi k])⟩

theorem attsFold_rel {l m : List (Skin F)} (h : All₂ SkinR l m) {ids ids' : List Str} (hi : Mems ids ids') :
    ∀ {d e : Dict (Anim F)}, DRel AnimR d e → DRel AnimR (l.foldl (fun an s => dmap (Anim.removeDeformAtts ids s.name) an) d)
      (m.foldl (fun an s => dmap (Anim.removeDeformAtts ids' s.name) an) e) := by
  induction h with
  | nil => exact fun h => h
  | cons h1 _ ih =>
    intro d e hd
    simp only [List.foldl_cons, ← h1.name]
    exact ih (hd.dmap fun _ _ h => removeDeformAtts_rel h hi _)

theorem removeAttachments_rel {a b : AnimData F} (h : DataR a b) {ids ids' : List Str} (hi : Mems ids ids') :
    DataR (Editor.removeAttachments ids a) (Editor.removeAttachments ids' b) := by
  refine ⟨h.bones, ?_, ?_, h.events, h.ik, h.transform, h.path, attsFold_rel h.skins hi h.animations⟩
  · refine all₂_map h.slots fun x y h => ?_
    rw [← h.attachment]
    cases x.attachment with
    | none => exact h
    | some t =>
      simp only [hi _]
      split
      · exact ⟨h.name, h.bone, rfl, h.color, h.dark, h.blend⟩
      · exact h
  · exact all₂_map h.skins fun x y h => ⟨h.name, h.atts.dmap fun _ _ h => h.filterKey (P := fun k => decide (k ∉ ids))
      (Q := fun k => decide (k ∉ ids')) fun k _ => by simp only [hi k]⟩

variable {e e' : Editor F}

theorem doomedC_iff {b b' : Bool} {g g' : SGraph F} (hc : Core b g) (hc' : Core b' g') (h : GSame g g') (t : NType) (x : Str) :
    Doomed g Node.children t x ↔ Doomed g' Node.children t x := ⟨h.doomedC hc hc', h.symm.doomedC hc' hc⟩

theorem doomedP_iff {b b' : Bool} {g g' : SGraph F} (hc : Core b g) (hc' : Core b' g') (h : GSame g g') (t : NType) (x : Str) :
    Doomed g Node.parents t x ↔ Doomed g' Node.parents t x := ⟨h.doomedP hc hc', h.symm.doomedP hc' hc⟩

theorem start_rel (h : ER e e') (hs : Editor.Weak e) (hs' : Editor.Weak e') {ids atts slots L ids' atts' slots' L' : List Str} {g0 g1 g0' g1' : SGraph F}
    (hr : Editor.CleanStart e ids atts slots L g0 g1) (hr' : Editor.CleanStart e' ids' atts' slots' L' g0' g1') :
    Mems ids ids' ∧ Mems atts atts' ∧ GSame g1 g1' := by
  obtain ⟨r, h1, h2, h3⟩ := unused_fol h.data hs.slotNames hs.anims.slots _ hr.unused
  rw [hr'.unused] at h1
  cases h1
  simp only at h2 h3
  have hg0 : GSame g0 g0' := by
    rw [hr.hg0, hr'.hg0]
    exact h.graph.restrict ((h2.setList.map _).append (h3.setList.map _))
  have hL : Mems L L' := fun x => by
    rw [hr.hL, hr'.hL]
    exact doomedC_iff (hs.core0 hr) (hs'.core0 hr') hg0 _ x
  refine ⟨?_, h3, ?_⟩
  · rw [hr.hids, hr'.hids]
    exact (h2.append (hL.map _)).setList
  · rw [hr.hg1, hr'.hg1]
    exact hg0.restrict hL

theorem init_rel {α : Type} {S : α → α → Prop} {f : JVal F → Except Err α} (hf : ∀ x y, Reord x y → Fol S (f x) (f y)) {g g' : SGraph F}
    (hg : GSame g g') {t : NType} (ht : t = .bone ∨ t = .slot ∨ t = .ik) {l m : List α} (hl : mapE f ((nodesOf g t).map (·.2.2)) = .ok l)
    (hm : mapE f ((nodesOf g' t).map (·.2.2)) = .ok m) : All₂ S l m := by
  obtain ⟨m', h1, h2⟩ := mapE_fol (R := Reord) (all₂_map (S := Reord) (f := fun p : Str × Int × JVal F => p.2.2) (g := fun p : Str × Int × JVal F => p.2.2)
    (hg.nodes t ht) fun _ _ h => h.2) hf l hl
  rw [hm] at h1
  cases h1
  exact h2

theorem clean_rel (h : ER e e') (hs : Editor.Weak e) (hs' : Editor.Weak e') {e1 e1' : Editor F} {ids atts slots L A B I ids' atts' slots' L' A' B' I' : List Str}
    {g0 g1 g2 g3 g0' g1' g2' g3' : SGraph F} {bs bs' : List (Bone F)} {ss ss' : List (Slot F)} {is is' : List (Attrs F)} {an an' : Dict (Anim F)}
    (hr : Editor.CleanRun e e1 ids atts slots L A B I g0 g1 g2 g3 bs ss is an)
    (hr' : Editor.CleanRun e' e1' ids' atts' slots' L' A' B' I' g0' g1' g2' g3' bs' ss' is' an') :
    Mems ids ids' ∧ Mems atts atts' ∧ ER e1 e1' := by
  obtain ⟨h1, h2, hg1⟩ := start_rel h hs hs' hr.toCleanStart hr'.toCleanStart
  refine ⟨h1, h2, ?_⟩
  have hA : Mems A A' := fun x => by
    rw [hr.hA, hr'.hA]
    exact doomedP_iff (hs.core1 hr.toCleanStart) (hs'.core1 hr'.toCleanStart) hg1 _ x
  have hg2 : GSame g2 g2' := by rw [hr.hg2, hr'.hg2]; exact hg1.restrict hA
  have hB : Mems B B' := fun x => by
    rw [hr.hB, hr'.hB]
    exact doomedC_iff (hs.core2 hr) (hs'.core2 hr') hg2 _ x
  have hg3 : GSame g3 g3' := by rw [hr.hg3, hr'.hg3]; exact hg2.restrict hB
  have hI : Mems I I' := fun x => by
    rw [hr.hI, hr'.hI]
    exact doomedP_iff (hs.core3 hr) (hs'.core3 hr') hg3 _ x
  have hb := init_rel (fun _ _ => bone_fol) hg1 (.inl rfl) hr.hbs hr'.hbs
  have hsl := init_rel (fun _ _ => slot_fol) hg1 (.inr (.inl rfl)) hr.hss hr'.hss
  have hik := init_rel (fun _ _ => init_fol (by simp [leafClasses])) hg1 (.inr (.inr rfl)) hr.his hr'.his
  have ha : DRel AnimR an an' := by
    obtain ⟨m, hm, hm2⟩ := mapMutD_fol (R := AnimR) (e := dmap (fun x => (x.removeSlots ids').removeDeformSlots ids')
      (dmap (·.setDefaults e'.doc.version.is38) e'.data.animations)) (g := fun _ x => Anim.removeDrawOrder ids' e'.data.slots x) (by
        rw [← h.doc.version]
        exact (h.data.animations.dmap fun _ _ => animDefaults _).dmap fun _ _ hx => removeSlotsA_rel hx h1)
      (fun k x y x' hxy hx => removeDrawOrder_fol h.data.slots h1 hxy hx) hr.han
    rw [hr'.han] at hm
    cases hm
    exact hm2
  refine ⟨⟨?_, ?_, ?_⟩, ?_, ?_⟩
  · rw [hr.skeleton, hr'.skeleton]; exact h.doc.skeleton
  · rw [hr.version, hr'.version]; exact h.doc.version
  · show DataR e1.data e1'.data
    rw [hr.data, hr'.data, ← h.doc.version]
    refine removeAttachments_rel ?_ h2
    have hd := slotsInSkins_rel (dataDefaults e.doc.version.is38 (x := { e.data with bones := bs, slots := ss, ik := is })
      (y := { e'.data with bones := bs', slots := ss', ik := is' })
      ⟨hb, hsl, h.data.skins, h.data.events, hik, h.data.transform, h.data.path, h.data.animations⟩) h1
    exact ⟨hd.bones, hd.slots, hd.skins, hd.events, hd.ik, hd.transform, hd.path, ha⟩
  · rw [hr.images, hr'.images]
    refine h.images.filterKey (P := fun k => decide (k ∉ I.map (baseId .image))) (Q := fun k => decide (k ∉ I'.map (baseId .image))) ?_
    intro k _
    simp only [hI.map _ k]
  · rw [hr.graph, hr'.graph]
    exact hg3.restrict hI

/-- the names of removed slots and attachments -/
def Mems2 (r s : List Str × List Str) : Prop := Mems r.1 s.1 ∧ Mems r.2 s.2

theorem clean_fol (h : ER e e') (hs : Editor.Weak e) (hs' : Editor.Weak e') : RFol Mems2 ER (Editor.clean e) (Editor.clean e') := by
  intro r e1 hr
  obtain ⟨slots, L, A, B, I, g0, g1, g2, g3, bs, ss, is, an, hrun⟩ := Editor.clean_run hs.core (ids := r.1) (atts := r.2) hr
  obtain ⟨⟨slots', atts'⟩, hu, _, _⟩ := unused_fol h.data hs.slotNames hs.anims.slots _ hrun.unused
  obtain ⟨ids', L', g0', g1', hg, hst⟩ := hs'.cleanGraph_total hu
  obtain ⟨h1, h2, _⟩ := start_rel h hs hs' hrun.toCleanStart hst
  obtain ⟨e2, hb, hg1, han⟩ := hs'.readBack_total hst
  obtain ⟨a, ha⟩ : ∃ a, Editor.removeSlots ids' e'.data.slots e2.data = (.ok (), a) := by
    unfold Editor.removeSlots Editor.drawOrderRefs
    have hq : (Editor.slotsInAnims ids' (Editor.slotsInSkins ids' e2.data)).animations = dmap (fun x => (x.removeSlots ids').removeDeformSlots ids')
      (dmap (·.setDefaults e'.doc.version.is38) e'.data.animations) := by rw [← han]; rfl
    rw [hq]
    obtain ⟨m, hm, _⟩ := mapMutD_fol (R := AnimR) (e := dmap (fun x => (x.removeSlots ids').removeDeformSlots ids')
      (dmap (·.setDefaults e'.doc.version.is38) e'.data.animations)) (g := fun _ x => Anim.removeDrawOrder ids' e'.data.slots x) (by
        rw [← h.doc.version]
        exact (h.data.animations.dmap fun _ _ => animDefaults _).dmap fun _ _ hx => removeSlotsA_rel hx h1)
      (fun k x y x' hxy hx => removeDrawOrder_fol h.data.slots h1 hxy hx) hrun.han
    rw [hm]
    exact ⟨_, rfl⟩
  obtain ⟨imgs, g4, hd⟩ := Editor.detach_total (F := F) (g := e2.graph) (b := e'.doc.version.is38) (by rw [hg1]; exact hs'.core1 hst)
  obtain ⟨e3, hc⟩ : ∃ e3, Editor.clean e' = (.ok (ids', atts'), e3) := by
    unfold Editor.clean
    simp only [hu, hg, hb, ha]
    have : (e2.withData (Editor.removeAttachments atts' a)).graph = e2.graph := rfl
    rw [this, hd]
    exact ⟨_, rfl⟩
  obtain ⟨slots', L', A', B', I', g0', g1', g2', g3', bs', ss', is', an', hrun'⟩ := Editor.clean_run hs'.core hc
  obtain ⟨k1, k2, k3⟩ := clean_rel h hs hs' hrun hrun'
  exact ⟨_, _, hc, ⟨k1, k2⟩, k3⟩

theorem cleanUnless_fol (safe : Bool) (h : ER e e') (hs : Editor.Weak e) (hs' : Editor.Weak e') :
    RFol Mems2 ER (Editor.cleanUnless safe e) (Editor.cleanUnless safe e') := by
  unfold Editor.cleanUnless
  split
  · intro r e1 hr
    cases hr
    exact ⟨_, _, rfl, ⟨fun _ => Iff.rfl, fun _ => Iff.rfl⟩, h⟩
  · exact clean_fol h hs hs'

/-! ### erase_animations -/

theorem filterAnims_rel (h : ER e e') (names : List Str) :
    ER (e.withData { e.data with animations := e.data.animations.filter (fun p => p.1 ∉ names) })
      (e'.withData { e'.data with animations := e'.data.animations.filter (fun p => p.1 ∉ names) }) :=
  h.withData ⟨h.data.bones, h.data.slots, h.data.skins, h.data.events, h.data.ik, h.data.transform, h.data.path,
    h.data.animations.filterKey (P := fun k => decide (k ∉ names)) (Q := fun k => decide (k ∉ names)) fun _ _ => rfl⟩

theorem eraseAnims_fol (arg : Editor.NamesArg) (strict safe : Bool) (h : ER e e') (hs : Editor.Weak e) (hs' : Editor.Weak e') :
    RFol (fun r s => Reord r.1 s.1 ∧ Mems2 r.2 s.2) ER (Editor.eraseAnims arg strict safe e) (Editor.eraseAnims arg strict safe e') := by
  intro r e1 hr
  cases arg with
  | other => cases hr
  | list names =>
    unfold Editor.eraseAnims at hr ⊢
    simp only [Editor.eraseRaw_fst] at hr ⊢
    have hk : (Editor.eraseRaw names e.data.animations).2 ≠ [] ↔ (Editor.eraseRaw names e'.data.animations).2 ≠ [] := by
      rw [ne_eq, ne_eq, Editor.eraseRaw_snd_nil, Editor.eraseRaw_snd_nil]
      simp only [h.data.animations.keys]
    have h1 := filterAnims_rel h names
    have w1 := Editor.weak_filterAnims hs (fun p => decide (p.1 ∉ names))
    have w2 := Editor.weak_filterAnims hs' (fun p => decide (p.1 ∉ names))
    split at hr
    · cases hr
    · rename_i hc
      rw [if_neg (by rw [← hk]; exact hc)]
      have := cleanUnless_fol safe h1 w1 w2
      generalize Editor.cleanUnless safe (e.withData { e.data with animations := e.data.animations.filter (fun p => p.1 ∉ names) }) = q at hr this
      obtain ⟨q1, q2⟩ := q
      cases q1 with
      | error x => cases hr
      | ok r1 =>
        obtain ⟨r2, e2, h2, h3, h4⟩ := this r1 q2 rfl
        rw [h2]
        cases hr
        exact ⟨_, _, rfl, ⟨docJson h4.doc, h3⟩, h4⟩

/-! ### erase_skins -/

theorem linksTo_eq {x y : Att F} (h : AttR x y) (n : Str) : AnimData.linksTo n x = AnimData.linksTo n y := by
  unfold AnimData.linksTo
  have := h.attrs.val s!!"skin"
  rw [h.kind]
  revert this
  generalize x.attrs.val s!!"skin" = v
  generalize y.attrs.val s!!"skin" = w
  intro this
  cases y.kind <;> cases this <;> rfl

theorem relinked_rel {p q x y : Att F} (hp : AttR p q) (h : AttR x y) : AttR (AnimData.relinked p x) (AnimData.relinked q y) :=
  ⟨hp.kind, (((hp.attrs.set _ (h.attrs.val _)).set _ (h.attrs.val _)).set _ (h.attrs.val _)).set _ (h.attrs.val _)⟩

theorem relinkAtt_fol {gone gone' : Skin F} (hg : SkinR gone gone') (n slot key : Str) {x y x' : Att F} (h : AttR x y)
    (hx : AnimData.relinkAtt gone n slot key x = (.ok (), x')) : ∃ y', AnimData.relinkAtt gone' n slot key y = (.ok (), y') ∧ AttR x' y' := by
  unfold AnimData.relinkAtt at hx ⊢
  rw [← linksTo_eq h]
  split at hx
  · rename_i hl
    rw [if_pos hl]
    rcases hg.atts.get slot with ⟨h1, h2⟩ | ⟨v, w, h1, h2, h3⟩
    · rw [h1] at hx; cases hx
    · rw [h1] at hx; rw [h2]
      simp only at hx ⊢
      rcases h3.get key with ⟨h1, h2⟩ | ⟨v, w, h1, h2, h3⟩
      · rw [h1] at hx; cases hx
      · rw [h1] at hx; rw [h2]
        cases hx
        exact ⟨_, rfl, relinked_rel h3 h⟩
  · rename_i hl
    rw [if_neg hl]
    cases hx
    exact ⟨_, rfl, h⟩

theorem relinkSkin_fol {gone gone' : Skin F} (hg : SkinR gone gone') (n : Str) {x y x' : Skin F} (h : SkinR x y)
    (hx : AnimData.relinkSkin gone n x = (.ok (), x')) : ∃ y', AnimData.relinkSkin gone' n y = (.ok (), y') ∧ SkinR x' y' := by
  unfold AnimData.relinkSkin at hx ⊢
  rw [← h.name]
  split at hx
  · rename_i hl
    rw [if_pos hl]
    cases hx
    exact ⟨_, rfl, h⟩
  · rename_i hl
    rw [if_neg hl]
    simp only [Prod.mk.injEq] at hx
    obtain ⟨h1, rfl⟩ := hx
    obtain ⟨m, h2, h3⟩ := mapMutD_fol h.atts (g := fun slot e => mapMutD (fun key x => AnimData.relinkAtt gone' n slot key x) e)
      (fun slot d e d' hde hd => mapMutD_fol hde (fun key u v u' huv hu => relinkAtt_fol hg n slot key huv hu) hd) (Prod.ext h1 rfl)
    rw [h2]
    exact ⟨_, rfl, rfl, h3⟩

theorem goneOf_fol {x y : Att F} (h : AttR x y) : Fol Eq (AnimData.goneOf x) (AnimData.goneOf y) := by
  have refl : ∀ z : Except Err (List AnimData.Gone), Fol Eq z z := fun z a ha => ⟨a, ha, rfl⟩
  have other : Fol Eq (match Dict.get? x.attrs s!!"path" with
      | none => (.ok [] : Except Err (List AnimData.Gone))
      | some v => do
        match ← optStr v with
        | some i => return [.image (some i)]
        | none => return [])
      (match Dict.get? y.attrs s!!"path" with
      | none => (.ok [] : Except Err (List AnimData.Gone))
      | some v => do
        match ← optStr v with
        | some i => return [.image (some i)]
        | none => return []) := by
    rcases h.attrs.get s!!"path" with ⟨h1, h2⟩ | ⟨v, w, h1, h2, h3⟩
    · rw [h1, h2]; exact refl _
    · rw [h1, h2]
      exact (optStr_fol h3).bind fun p q hp => by subst hp; exact refl _
  unfold AnimData.goneOf
  rw [← h.kind]
  cases x.kind with
  | region =>
    refine (strAttr_fol h _).bind fun p q hp => ?_
    subst hp
    cases pyOr p none with
    | some i => exact refl _
    | none => exact (strAttr_fol h _).bind fun n n' hn => by subst hn; exact refl _
  | mesh =>
    refine (strAttr_fol h _).bind fun p q hp => ?_
    subst hp
    cases pyOr p none with
    | some i => exact refl _
    | none => exact (strAttr_fol h _).bind fun n n' hn => by subst hn; exact refl _
  | linked =>
    refine (strAttr_fol h _).bind fun p q hp => ?_
    subst hp
    cases pyOr p none with
    | some i => exact refl _
    | none => exact (strAttr_fol h _).bind fun n n' hn => by subst hn; exact refl _
  | _ => exact other

theorem mem_skinAtts {s : Skin F} {x : Att F} : x ∈ AnimData.skinAtts s ↔ ∃ slot d k, (slot, d) ∈ s.attachments ∧ (k, x) ∈ d := by
  unfold AnimData.skinAtts
  simp only [List.mem_flatMap, List.mem_map, Prod.exists]
  constructor
  · rintro ⟨slot, d, h1, k, y, h2, rfl⟩; exact ⟨slot, d, k, h1, h2⟩
  · rintro ⟨slot, d, k, h1, h2⟩; exact ⟨slot, d, h1, k, x, h2, rfl⟩

theorem skinAtts_rel {s t : Skin F} (h : SkinR s t) {x : Att F} (hx : x ∈ AnimData.skinAtts s) : ∃ y ∈ AnimData.skinAtts t, AttR x y := by
  obtain ⟨slot, d, k, h1, h2⟩ := mem_skinAtts.1 hx
  obtain ⟨d', h3, h4⟩ := h.atts.left h1
  obtain ⟨y, h5, h6⟩ := h4.left h2
  exact ⟨y, mem_skinAtts.2 ⟨slot, d', k, h3, h5⟩, h6⟩

theorem removedImages_fol {s t : Skin F} (h : SkinR s t) :
    Fol (fun r q => Mems r.1 q.1 ∧ Mems r.2 q.2) (AnimData.removedImages s) (AnimData.removedImages t) := by
  refine Fol.bind (R := fun l m => Mems l.flatten m.flatten) ?_ ?_
  · intro l hl
    have hl := (mapE_all₂ _ _ _).1 hl
    obtain ⟨m, hm⟩ : ∃ m, mapE AnimData.goneOf (AnimData.skinAtts t) = .ok m := by
      refine mapE_exists ?_
      intro y hy
      obtain ⟨x, hx, hxy⟩ := skinAtts_rel h.symm hy
      obtain ⟨z, _, hz⟩ := hl.left hx
      obtain ⟨w, hw, _⟩ := goneOf_fol hxy.symm z hz
      exact ⟨w, hw⟩
    refine ⟨m, hm, fun z => ?_⟩
    have hm := (mapE_all₂ _ _ _).1 hm
    simp only [List.mem_flatten]
    constructor
    · rintro ⟨u, hu, hz⟩
      obtain ⟨x, hx, e1⟩ := hl.right hu
      obtain ⟨y, hy, hxy⟩ := skinAtts_rel h hx
      obtain ⟨w, hw, rfl⟩ := goneOf_fol hxy _ e1
      obtain ⟨w', hw', e2⟩ := hm.left hy
      rw [hw] at e2; cases e2
      exact ⟨_, hw', hz⟩
    · rintro ⟨u, hu, hz⟩
      obtain ⟨x, hx, e1⟩ := hm.right hu
      obtain ⟨y, hy, hxy⟩ := skinAtts_rel h.symm hx
      obtain ⟨w, hw, rfl⟩ := goneOf_fol hxy _ e1
      obtain ⟨w', hw', e2⟩ := hl.left hy
      rw [hw] at e2; cases e2
      exact ⟨_, hw', hz⟩
  · intro l m hlm
    refine Fol.pure ⟨fun z => ?_, fun z => ?_⟩ <;> simp only [List.mem_filterMap, hlm _]

theorem getSkin_rel {a b : AnimData F} (h : DataR a b) (n : Str) :
    (AnimData.getSkin a n = none ∧ AnimData.getSkin b n = none) ∨
      ∃ s t, AnimData.getSkin a n = some s ∧ AnimData.getSkin b n = some t ∧ SkinR s t := by
  unfold AnimData.getSkin
  have := h.skins
  generalize a.skins = l at this
  generalize b.skins = m at this
  induction this with
  | nil => exact .inl ⟨rfl, rfl⟩
  | @cons x y l m h1 _ ih =>
    simp only [List.find?_cons, ← h1.name]
    cases x.name == n with
    | true => exact .inr ⟨x, y, rfl, rfl, h1⟩
    | false => exact ih

/-- the removed images -/
def MemsI (r s : List (Option Str) × List Str) : Prop := Mems r.1 s.1 ∧ Mems r.2 s.2

theorem removeSkin_fol (n : Str) {a b : AnimData F} (h : DataR a b) : RFol MemsI DataR (AnimData.removeSkin n a) (AnimData.removeSkin n b) := by
  intro r a1 hr
  unfold AnimData.removeSkin at hr ⊢
  rcases getSkin_rel h n with ⟨h1, h2⟩ | ⟨s, t, h1, h2, h3⟩
  · rw [h1] at hr; cases hr
  · rw [h1] at hr; rw [h2]
    simp only at hr ⊢
    generalize hq : mapMut (AnimData.relinkSkin s n) a.skins = q at hr
    obtain ⟨q1, sk⟩ := q
    cases q1 with
    | error x => cases hr
    | ok u =>
      obtain ⟨sk', h4, h5⟩ := mapMut_fol h.skins (fun _ _ _ hxy hx => relinkSkin_fol h3 n hxy hx) hq
      rw [h4]
      simp only at hr ⊢
      cases hi : AnimData.removedImages s with
      | error x => rw [hi] at hr; cases hr
      | ok im =>
        obtain ⟨im', h6, h7⟩ := removedImages_fol h3 im hi
        rw [hi] at hr; rw [h6]
        cases hr
        exact ⟨_, _, rfl, h7, h.bones, h.slots, all₂_filter h5 fun x y h => by rw [h.name], h.events, h.ik, h.transform, h.path,
          h.animations.dmap fun x y h => ⟨h.ik, h.drawOrder, h.bones, h.slots, h.events, h.transform, h.path, h.deform.del n⟩⟩

theorem removeSkins_fol (ns : List Str) : ∀ {a b : AnimData F}, DataR a b → RFol MemsI DataR (Editor.removeSkins ns a) (Editor.removeSkins ns b) := by
  induction ns with
  | nil =>
    intro a b h r a1 hr
    cases hr
    exact ⟨_, _, rfl, ⟨fun _ => Iff.rfl, fun _ => Iff.rfl⟩, h⟩
  | cons n ns ih =>
    intro a b h r a1 hr
    unfold Editor.removeSkins at hr ⊢
    have h1 := removeSkin_fol n h
    generalize AnimData.removeSkin n a = q at hr h1
    obtain ⟨q1, q2⟩ := q
    cases q1 with
    | error x => cases hr
    | ok r1 =>
      obtain ⟨r1', b1, e1, m1, d1⟩ := h1 _ _ rfl
      rw [e1]
      simp only at hr ⊢
      have h2 := ih d1
      generalize Editor.removeSkins ns q2 = q at hr h2
      obtain ⟨q1, q3⟩ := q
      cases q1 with
      | error x => cases hr
      | ok r2 =>
        obtain ⟨r2', b2, e2, m2, d2⟩ := h2 _ _ rfl
        rw [e2]
        cases hr
        exact ⟨_, _, rfl, ⟨m1.1.append m2.1, m1.2.append m2.2⟩, d2⟩

theorem getNode_none {g g' : SGraph F} (h : GSame g g') (x : Str) : (getNode g x).isNone = (getNode g' x).isNone := by
  have := h.has x
  unfold HasNode at this
  cases h1 : getNode g x <;> cases h2 : getNode g' x <;> simp [h1, h2] at this ⊢

theorem cleanImages_rel (h : ER e e') {gone gone' : List (Option Str)} (hg : Mems gone gone') : ER (Editor.cleanImages gone e) (Editor.cleanImages gone' e') :=
  ⟨h.doc, h.images.filterKey (P := fun k => decide (some k ∉ gone)) (Q := fun k => decide (some k ∉ gone')) fun k _ => by simp only [hg _], h.graph⟩

theorem eraseSkins_fol (names : List Str) (safe : Bool) (h : ER e e') (hs : Editor.Weak e) (hs' : Editor.Weak e') :
    RFol (fun r s => Mems2 r.1 s.1 ∧ Mems r.2 s.2) ER (Editor.eraseSkins names safe e) (Editor.eraseSkins names safe e') := by
  intro r e1 hr
  have h1 := removeSkins_fol names h.data
  have k1 := Editor.removeSkins_any e.doc.version.is38 names e.data
  have k2 := Editor.removeSkins_any e'.doc.version.is38 names e'.data
  unfold Editor.eraseSkins at hr ⊢
  generalize Editor.removeSkins names e.data = q at hr h1 k1
  obtain ⟨q1, a⟩ := q
  cases q1 with
  | error x => cases hr
  | ok im =>
    obtain ⟨im', b, e2, m1, d1⟩ := h1 _ _ rfl
    rw [e2] at k2 ⊢
    simp only at hr k1 k2 ⊢
    have h2 := h.withData d1
    have h3 := create_fol (docJson h2.doc)
    cases hg : SpineNodes.create (e.withData a).toJson with
    | error x => rw [hg] at hr; cases hr
    | ok g =>
      rw [hg] at hr
      obtain ⟨g', hg', hgg⟩ := h3 g hg
      have hg2 : SpineNodes.create (e'.withData b).toJson = .ok g' := hg'
      rw [hg2]
      simp only at hr ⊢
      have h4 := cleanUnless_fol safe (h2.withGraph hgg) (Editor.weak_removeSkins hs k1 hg) (Editor.weak_removeSkins hs' k2 hg2)
      generalize Editor.cleanUnless safe { e.withData a with graph := g } = q at hr h4
      obtain ⟨q1, q2⟩ := q
      cases q1 with
      | error x => cases hr
      | ok r1 =>
        obtain ⟨r2, e3, e4, m2, h5⟩ := h4 _ _ rfl
        rw [e4]
        cases hr
        have hm : Mems ((im.1 ++ im.2.map some).filter (fun i => (getNode g (Editor.imageId i)).isNone))
            ((im'.1 ++ im'.2.map some).filter (fun i => (getNode g' (Editor.imageId i)).isNone)) := by
          intro z
          simp only [List.mem_filter, m1.1.append (m1.2.map some) z, getNode_none hgg]
        exact ⟨_, _, rfl, ⟨m2, hm⟩, cleanImages_rel h5 hm⟩

/-! ### scale_animation -/

theorem pyMul_fol {v w : JVal F} (h : Reord v w) (hl : ∀ l, v ≠ .list l) (n : Num F) : Fol Reord (pyMul v n) (pyMul w n) := by
  have refl : ∀ {x : JVal F}, (∀ r, pyMul x n = .ok r → Reord r r) → Fol Reord (pyMul x n) (pyMul x n) := fun h a ha => ⟨a, ha, h a ha⟩
  cases h with
  | list => exact absurd rfl (hl _)
  | dict => intro r hr; cases n <;> cases hr
  | null => intro r hr; cases n <;> cases hr
  | bool b =>
    refine refl fun r hr => ?_
    cases n with
    | int i => cases hr; exact .int _
    | flt f =>
      simp only [pyMul] at hr
      split at hr
      · cases hr; exact .flt _
      · cases hr
  | int i =>
    refine refl fun r hr => ?_
    cases n with
    | int i => cases hr; exact .int _
    | flt f =>
      simp only [pyMul] at hr
      split at hr
      · cases hr; exact .flt _
      · cases hr
  | flt x =>
    refine refl fun r hr => ?_
    cases n with
    | int i =>
      simp only [pyMul] at hr
      split at hr
      · cases hr; exact .flt _
      · cases hr
    | flt f => cases hr; exact .flt _
  | str s =>
    refine refl fun r hr => ?_
    cases n with
    | int i => cases hr; exact .str _
    | flt f => cases hr

theorem set_keys {d : Attrs F} {k : Str} {v : JVal F} (h : k ∈ Dict.keys d) (x : Str) (hx : x ∈ Dict.keys (Dict.set d k v)) : x ∈ Dict.keys d := by
  rw [← Dict.get?_isSome_iff, Dict.get?_set] at hx
  split at hx
  · rename_i e; subst e; exact h
  · exact (Dict.get?_isSome_iff d x).1 hx

theorem mul_key {d : Attrs F} {k : Str} {n : Num F} {r : JVal F} (h : pyMul (d.val k) n = .ok r) : k ∈ Dict.keys d := by
  rw [← Dict.get?_isSome_iff]
  unfold Attrs.val at h
  cases hg : Dict.get? d k with
  | some v => exact ⟨v, rfl⟩
  | none => rw [hg] at h; cases n <;> cases h

theorem boneScale_fol (sx sy : Num F) {x y x' : Bone F} (h : BoneR x y) (hx : x.scale sx sy = (.ok (), x')) :
    ∃ y', y.scale sx sy = (.ok (), y') ∧ BoneR x' y' := by
  have hX := h.rest.val s!!"scaleX"
  have hY := h.rest.val s!!"scaleY"
  have main : ∀ {z : Bone F} {r : Res (Bone F) Unit}, z.scale sx sy = r → (∀ l, z.rest.val s!!"scaleX" ≠ .list l) →
      (∀ l, z.rest.val s!!"scaleY" ≠ .list l) → r = match pyMul (z.rest.val s!!"scaleX") sx with
    | .error e => (.error e, z)
    | .ok x' => match pyMul (z.rest.val s!!"scaleY") sy with
      | .error e => (.error e, { z with rest := Dict.set z.rest s!!"scaleX" x' })
      | .ok y' => (.ok (), { z with rest := Dict.set (Dict.set z.rest s!!"scaleX" x') s!!"scaleY" y' }) := by
    intro z r hz h1 h2
    rw [← hz]
    unfold Bone.scale
    split
    · exact absurd (by assumption) (h1 _)
    · exact absurd (by assumption) (h2 _)
    · rfl
  have l1 : ∀ l, x.rest.val s!!"scaleX" ≠ .list l := by
    intro l hl
    unfold Bone.scale at hx
    rw [hl] at hx
    cases hx
  have l2 : ∀ l, x.rest.val s!!"scaleY" ≠ .list l := by
    intro l hl
    unfold Bone.scale at hx
    rw [hl] at hx
    generalize x.rest.val s!!"scaleX" = v at hx
    cases v <;> cases hx
  have l3 : ∀ l, y.rest.val s!!"scaleX" ≠ .list l := by
    intro l hl
    rw [hl] at hX
    revert hX l1
    generalize x.rest.val s!!"scaleX" = v
    intro l1 hX
    cases hX
    exact l1 _ rfl
  have l4 : ∀ l, y.rest.val s!!"scaleY" ≠ .list l := by
    intro l hl
    rw [hl] at hY
    revert hY l2
    generalize x.rest.val s!!"scaleY" = v
    intro l2 hY
    cases hY
    exact l2 _ rfl
  have hx' := main hx l1 l2
  have hy' := main rfl l3 l4
  cases p1 : pyMul (x.rest.val s!!"scaleX") sx with
  | error e => rw [p1] at hx'; cases hx'
  | ok a =>
    obtain ⟨a', q1, r1⟩ := pyMul_fol hX l1 sx a p1
    cases p2 : pyMul (x.rest.val s!!"scaleY") sy with
    | error e => rw [p1, p2] at hx'; cases hx'
    | ok c =>
      obtain ⟨c', q2, r2⟩ := pyMul_fol hY l2 sy c p2
      rw [p1, p2] at hx'
      rw [q1, q2] at hy'
      simp only at hx' hy'
      cases hx'
      refine ⟨_, hy', h.of_rest rfl rfl rfl rfl ?_ ((h.rest.set _ r1).set _ r2)⟩
      intro k hk
      exact set_keys (mul_key p1) k (set_keys (by
        have := mul_key p2
        rw [← Dict.get?_isSome_iff] at this ⊢
        rw [Dict.get?_set]
        split
        · exact ⟨_, rfl⟩
        · exact this) k hk)

theorem noInherit_eq {x y : Bone F} (h : BoneR x y) : Editor.noInherit x = Editor.noInherit y := by
  unfold Editor.noInherit
  have := h.rest.val s!!"transform"
  revert this
  generalize x.rest.val s!!"transform" = v
  generalize y.rest.val s!!"transform" = w
  intro this
  cases this <;> rfl

theorem onFirst_fol (n : Str) {f : Bone F → Res (Bone F) Unit} (hf : ∀ x y x', BoneR x y → f x = (.ok (), x') → ∃ y', f y = (.ok (), y') ∧ BoneR x' y')
    {l m l' : List (Bone F)} (h : All₂ BoneR l m) (hl : Editor.onFirst n f l = (.ok (), l')) :
    ∃ m', Editor.onFirst n f m = (.ok (), m') ∧ All₂ BoneR l' m' := by
  induction h generalizing l' with
  | nil => cases hl
  | @cons x y l m h1 h2 ih =>
    unfold Editor.onFirst at hl ⊢
    rw [← h1.name]
    split at hl
    · rename_i hn
      rw [if_pos hn]
      simp only [Prod.mk.injEq] at hl
      obtain ⟨h3, rfl⟩ := hl
      obtain ⟨y', h4, h5⟩ := hf x y _ h1 (Prod.ext h3 rfl)
      rw [h4]
      exact ⟨_, rfl, .cons h5 h2⟩
    · rename_i hn
      rw [if_neg hn]
      simp only [Prod.mk.injEq] at hl
      obtain ⟨h3, rfl⟩ := hl
      obtain ⟨m', h4, h5⟩ := ih (Prod.ext h3 rfl)
      rw [h4]
      exact ⟨_, rfl, .cons h1 h5⟩

theorem scale_fol (sx sy : Num F) (h : ER e e') : RFol (fun _ _ => True) ER (Editor.scale sx sy e) (Editor.scale sx sy e') := by
  intro r e1 hr
  unfold Editor.scale at hr ⊢
  have step : ∀ x y x', BoneR x y → (if Editor.noInherit x then x.scale sx sy else (.ok (), x)) = (.ok (), x') →
      ∃ y', (if Editor.noInherit y then y.scale sx sy else (.ok (), y)) = (.ok (), y') ∧ BoneR x' y' := by
    intro x y x' hxy hx
    rw [← noInherit_eq hxy]
    split at hx
    · rename_i hn
      rw [if_pos hn]
      exact boneScale_fol sx sy hxy hx
    · rename_i hn
      rw [if_neg hn]
      cases hx
      exact ⟨_, rfl, hxy⟩
  generalize hq : mapMut (fun b => if Editor.noInherit b then b.scale sx sy else (.ok (), b)) e.data.bones = q at hr
  obtain ⟨q1, bs⟩ := q
  cases q1 with
  | error x => cases hr
  | ok u =>
    obtain ⟨bs', h1, h2⟩ := mapMut_fol h.data.bones step hq
    rw [h1]
    simp only [Prod.mk.injEq] at hr ⊢
    obtain ⟨h3, rfl⟩ := hr
    cases r
    obtain ⟨bs2, h4, h5⟩ := onFirst_fol s!!"root" (fun _ _ _ => boneScale_fol sx sy) h2 (Prod.ext h3 rfl)
    rw [h4]
    exact ⟨(), _, ⟨rfl, rfl⟩, trivial, h.withData ⟨h5, h.data.slots, h.data.skins, h.data.events, h.data.ik, h.data.transform, h.data.path, h.data.animations⟩⟩

/-! ### Any call -/

theorem run_fol {α : Type} {R : α → α → Prop} {x y : Res (Editor F) α} (h : RFol R ER x y) :
    RFol (fun _ _ => True) ER (x.1.map (fun _ => ()), x.2) (y.1.map (fun _ => ()), y.2) := by
  intro r e1 hr
  obtain ⟨x1, x2⟩ := x
  cases x1 with
  | error z => cases hr
  | ok z =>
    cases hr
    obtain ⟨b, t, h1, _, h3⟩ := h z x2 rfl
    rw [h1]
    exact ⟨(), t, rfl, trivial, h3⟩

theorem op_fol (o : Editor.Op F) (h : ER e e') (hs : Editor.Weak e) (hs' : Editor.Weak e') : RFol (fun _ _ => True) ER (o.run e) (o.run e') := by
  cases o with
  | eraseSkins n s => exact run_fol (eraseSkins_fol n s h hs hs')
  | eraseAnims a t s => exact run_fol (eraseAnims_fol a t s h hs hs')
  | clean => exact run_fol (clean_fol h hs hs')
  | scale sx sy => exact scale_fol sx sy h

theorem reord_proper {v w : JVal F} (h : Reord v w) : v.Proper := by
  induction h with
  | null => exact .null
  | bool b => exact .bool b
  | int i => exact .int i
  | flt x => exact .flt x
  | str s => exact .str s
  | @list l m hl _ ih =>
    refine .list fun x hx => ?_
    obtain ⟨i, hi, rfl⟩ := List.mem_iff_getElem.1 hx
    exact ih i l[i] (m[i]'(hl ▸ hi)) (List.getElem?_eq_getElem hi) (List.getElem?_eq_getElem (hl ▸ hi))
  | @dict d e hd he hk _ ih =>
    refine .dict hd fun p hp => ?_
    have h1 := Dict.get?_of_mem hd hp
    have : p.1 ∈ Dict.keys e := (hk _).1 (List.mem_map.2 ⟨p, hp, rfl⟩)
    obtain ⟨w, hw⟩ := (Dict.get?_isSome_iff e p.1).2 this
    exact ih _ _ _ h1 hw

end KeyOrder
end Spine
