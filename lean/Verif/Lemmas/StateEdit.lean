import Verif.Lemmas.State
import Verif.Lemmas.KeyOrderEdit
import Verif.Props.CleanBones
import Verif.Props.Clean
/- C88: the editing calls on two editors that save the same document. -/
set_option linter.unusedSectionVars false
set_option linter.unusedSimpArgs false
namespace Spine
namespace State
open JVal Graph
open KeyOrder (Mems all₂_symm)
variable {F : Type} [PyRt F]

/-- both fail with the same exception, or both succeed with related results and states -/
def Both {α β σ τ : Type} (R : α → β → Prop) (S : σ → τ → Prop) (x : Res σ α) (y : Res τ β) : Prop :=
  (∃ e, x.1 = .error e ∧ y.1 = .error e) ∨ ∃ r s, x.1 = .ok r ∧ y.1 = .ok s ∧ R r s ∧ S x.2 y.2

theorem mapMut_both {α β : Type} {P : α → β → Prop} {Q : α → β → Prop} {f : α → Res α Unit} {g : β → Res β Unit} {l : List α} {m : List β}
    (h : All₂ P l m) (hf : ∀ x y, P x y → Both (fun _ _ => True) Q (f x) (g y)) :
    Both (fun _ _ => True) (All₂ Q) (mapMut f l) (mapMut g m) := by
  induction h with
  | nil => exact .inr ⟨(), (), rfl, rfl, trivial, .nil⟩
  | @cons x y l m hp _ ih =>
    have h1 := hf x y hp
    unfold mapMut
    generalize f x = p at h1
    generalize g y = q at h1
    obtain ⟨p1, p2⟩ := p
    obtain ⟨q1, q2⟩ := q
    rcases h1 with ⟨e, e1, e2⟩ | ⟨r, s, e1, e2, _, hq⟩
    · simp only at e1 e2
      rw [e1, e2]
      exact .inl ⟨e, rfl, rfl⟩
    · simp only at e1 e2 hq
      rw [e1, e2]
      rcases ih with ⟨e, e3, e4⟩ | ⟨r, s, e3, e4, _, h2⟩
      · exact .inl ⟨e, e3, e4⟩
      · exact .inr ⟨r, s, e3, e4, trivial, .cons hq h2⟩

theorem mapMutD_both {α β : Type} {P : α → β → Prop} {Q : α → β → Prop} {f : Str → α → Res α Unit} {g : Str → β → Res β Unit} {d : Dict α} {e : Dict β}
    (h : KR P d e) (hf : ∀ k x y, P x y → Both (fun _ _ => True) Q (f k x) (g k y)) :
    Both (fun _ _ => True) (KR Q) (mapMutD f d) (mapMutD g e) := by
  refine mapMut_both h ?_
  rintro ⟨k, x⟩ ⟨k', y⟩ ⟨hk, hp⟩
  simp only at hk hp
  subst hk
  rcases hf k x y hp with ⟨e, e1, e2⟩ | ⟨r, s, e1, e2, h1, h2⟩
  · exact .inl ⟨e, e1, e2⟩
  · exact .inr ⟨r, s, e1, e2, trivial, rfl, h2⟩

/-! ### Unused slots and attachments -/

theorem values_all₂ {α β : Type} {P : α → β → Prop} {d : Dict α} {e : Dict β} (h : KR P d e) : All₂ P (Dict.values d) (Dict.values e) := by
  unfold Dict.values
  rw [All₂.map_left, All₂.map_right]
  exact All₂.mono' h (fun _ _ _ _ h => h.2)

theorem flatMap_eq {α β γ : Type} {P : α → β → Prop} {l : List α} {m : List β} (h : All₂ P l m) {f : α → List γ} {g : β → List γ}
    (hf : ∀ x y, P x y → f x = g y) : l.flatMap f = m.flatMap g := by
  induction h with
  | nil => rfl
  | cons hr _ ih => simp only [List.flatMap_cons, hf _ _ hr, ih]

variable {b : Bool} {x y : AnimData F}

theorem usedStep_eq (h : DataR b x y) (vis al no : List Str) (acc : List Str × List (Option Str)) {p q : Anim F} (hp : AnR b p q) :
    AnimData.usedStep x vis al no acc p = AnimData.usedStep y vis al no acc q := by
  have hv : AnimData.visibleIn x p.slots vis al no = AnimData.visibleIn y q.slots vis al no := by
    unfold AnimData.visibleIn
    have h0 : AnimData.setupUsed x vis = AnimData.setupUsed y vis := by unfold AnimData.setupUsed; rw [h.slots]
    rw [h0]
    refine Editor.foldE_all₂ hp.slots ?_ _
    rintro v ⟨k, t⟩ ⟨k', u⟩ ⟨hk, ht⟩
    simp only at hk ht
    subst hk
    have hsd : AnimData.slotsDict x k = AnimData.slotsDict y k := by unfold AnimData.slotsDict; rw [h.slots]
    unfold AnimData.visStep
    simp only [hsd]
    cases AnimData.slotsDict y k with
    | none => rfl
    | some s =>
      have hu : AnimData.slotUsed s t = AnimData.slotUsed s u := by unfold AnimData.slotUsed; rw [ht.used]
      have hd : AnimData.discarded al no k s t = AnimData.discarded al no k s u := by
        unfold AnimData.discarded; rw [ht.empty, ht.color, hu]
      simp only [hd, hu]
  unfold AnimData.usedStep
  rw [hv]

theorem unusedIn_eq (used : List (Option Str)) (inv : List Str) {s t : Skin F} (h : SkinR b s t) :
    AnimData.unusedIn used inv s = AnimData.unusedIn used inv t := by
  unfold AnimData.unusedIn
  refine flatMap_eq h.2 ?_
  rintro ⟨k, d⟩ ⟨k', d'⟩ ⟨hk, hd⟩
  simp only at hk hd
  subst hk
  refine (All₂.filter hd ?_).map_eq (fun _ _ h => h.1)
  intro p q _ _ hpq
  simp only [hpq.1, hpq.2.1]

theorem unused_eq (h : DataR b x y) : AnimData.unused x = AnimData.unused y := by
  unfold AnimData.unused
  rw [h.slots]
  cases AnimData.alphaZero y.slots with
  | error e => rfl
  | ok al =>
    simp only
    rw [Editor.foldE_all₂ (values_all₂ h.animations) (fun acc p q hp => usedStep_eq h _ _ _ acc hp)]
    cases Graph.foldE (AnimData.usedStep y ((y.slots.map (·.name)).filter fun n => n ∉ al ++ AnimData.noSetup y.slots) al (AnimData.noSetup y.slots)) ([], [])
        (Dict.values y.animations) with
    | error e => rfl
    | ok r =>
      obtain ⟨v, used⟩ := r
      simp only
      rw [flatMap_eq h.skins (fun s t hst => unusedIn_eq used _ hst)]

theorem hasAtt_of (h : DataR b x y) {slot k : Str} {a : Att F} (ha : x.HasAtt slot k a) : ∃ a', y.HasAtt slot k a' := by
  obtain ⟨s, hs, d, hd, hk⟩ := ha
  obtain ⟨t, ht, hst⟩ := h.skins.left hs
  obtain ⟨⟨_, d'⟩, hd', e1, hdd⟩ := All₂.left hst.2 hd
  simp only at e1 hdd
  subst e1
  obtain ⟨⟨_, a'⟩, ha', e2, _⟩ := All₂.left hdd hk
  simp only at e2
  subst e2
  exact ⟨a', t, ht, d', hd', ha'⟩

theorem DataR.symm (h : DataR b x y) : DataR b y x := by
  have ks : ∀ {s t : Skin F}, SkinR b s t → SkinR b t s := fun h => ⟨h.1.symm, h.2.symm fun _ _ h => h.symm fun _ _ h =>
    ⟨h.1.symm, by
      have h2 := h.2
      rw [h.1] at h2
      unfold AR at h2 ⊢
      exact all₂_symm h2 (fun _ _ h => ⟨h.1.symm, h.2.imp Eq.symm And.symm⟩)⟩⟩
  refine ⟨h.bones.symm, h.slots.symm, all₂_symm h.skins (fun _ _ h => ks h), h.events.symm fun _ _ h => h.symm, h.ik.symm, h.transform.symm, h.path.symm,
    h.animations.symm fun p q h => ⟨h.ik.symm fun _ _ h => h.symm, all₂_symm h.drawOrder (fun _ _ h => ⟨h.1.symm, fun o => (h.2 o).symm⟩),
      h.bones.symm fun _ _ h => h.symm, h.slots.symm fun _ _ h => ⟨h.json.symm, h.empty.symm, h.used.symm, h.color.symm⟩, h.events.symm,
      h.transform.symm fun _ _ h => h.symm, h.path.symm fun _ _ h => h.symm,
      h.deform.symm fun _ _ h => h.symm fun _ _ h => h.symm fun _ _ h => h.symm⟩⟩

theorem bare_iff (h : DataR b x y) (atts : List Str) (n : Str) : Editor.Bare x atts n ↔ Editor.Bare y atts n := by
  constructor
  · intro hb k a ha
    obtain ⟨a', h'⟩ := hasAtt_of h.symm ha
    exact hb k a' h'
  · intro hb k a ha
    obtain ⟨a', h'⟩ := hasAtt_of h ha
    exact hb k a' h'

/-! ### clean_animation -/

/-- editors that save the same document -/
structure ER (e e' : Editor F) : Prop where
  skeleton : e.doc.skeleton = e'.doc.skeleton
  version : e.doc.version = e'.doc.version
  data : DataR e.doc.version.is38 e.data e'.data

theorem ER.json {e e' : Editor F} (h : ER e e') : e.toJson = e'.toJson := by
  show SpineDoc.toJson e.doc = SpineDoc.toJson e'.doc
  unfold SpineDoc.toJson
  have := h.data.toJson
  rw [← h.version, ← h.skeleton]
  show JVal.dict (Dict.set (e.data.toJson e.doc.version.is38) _ _) = JVal.dict (Dict.set (e'.data.toJson e.doc.version.is38) _ _)
  rw [this]

/-- an editor whose graph was built from its bones and iks -/
structure Ready (e : Editor F) : Prop where
  «open» : Editor.Open e
  bones : (nodesOf e.graph .bone).map (·.2.2) = Editor.bonesJson e
  iks : (nodesOf e.graph .ik).map (·.2.2) = Editor.iksJson e

theorem removeDrawOrder_both {ids ids' : List Str} (hi : Mems ids ids') (orig : List (Slot F)) {p q : Anim F} (h : AnR b p q) :
    Both (fun _ _ => True) (AnR b) (Anim.removeDrawOrder ids orig p) (Anim.removeDrawOrder ids' orig q) := by
  have h1 : Both (fun _ _ => True) (All₂ (DrR b)) (mapMut (Anim.cleanDraw ids orig) p.drawOrder) (mapMut (Anim.cleanDraw ids' orig) q.drawOrder) := by
    refine mapMut_both h.drawOrder ?_
    intro t u htu
    unfold Anim.cleanDraw
    rw [htu.1, KeyOrder.Draw.removeOffsets_mem _ hi]
    cases DrawOrder.removeOffsets Slot.name ids' orig u.offsets with
    | error e => exact .inl ⟨e, rfl, rfl⟩
    | ok o => exact .inr ⟨(), (), rfl, rfl, trivial, rfl, htu.2⟩
  rcases h1 with ⟨e, e1, e2⟩ | ⟨r, s, e1, e2, _, h2⟩
  · exact .inl ⟨e, e1, e2⟩
  · exact .inr ⟨r, s, e1, e2, trivial, h.ik, h2, h.bones, h.slots, h.events, h.transform, h.path, h.deform⟩

theorem removeSlotsA_rel {ids ids' : List Str} (hi : Mems ids ids') {p q : Anim F} (h : AnR b p q) :
    AnR b ((p.removeSlots ids).removeDeformSlots ids) ((q.removeSlots ids').removeDeformSlots ids') :=
  ⟨h.ik, h.drawOrder, h.bones,
    h.slots.filter (p := fun k => decide (k ∉ ids)) (q := fun k => decide (k ∉ ids')) (fun k => by simp only [hi k]), h.events, h.transform, h.path,
    h.deform.dmap fun _ _ hd => hd.filter (p := fun k => decide (k ∉ ids)) (q := fun k => decide (k ∉ ids')) (fun k => by simp only [hi k])⟩

theorem removeDeformAtts_rel (atts : List Str) (n : Str) {p q : Anim F} (h : AnR b p q) :
    AnR b (p.removeDeformAtts atts n) (q.removeDeformAtts atts n) := by
  unfold Anim.removeDeformAtts
  rcases h.deform.get? n with ⟨e1, e2⟩ | ⟨d, d', e1, e2, hd⟩
  · rw [e1, e2]; exact h
  · rw [e1, e2]
    exact ⟨h.ik, h.drawOrder, h.bones, h.slots, h.events, h.transform, h.path,
      h.deform.set n (hd.dmap fun _ _ hv => hv.filter (p := fun k => decide (k ∉ atts)) (q := fun k => decide (k ∉ atts)) (fun _ => rfl))⟩

theorem cutSkin_rel {ids ids' : List Str} (hi : Mems ids ids') (atts : List Str) {s t : Skin F} (h : SkinR b s t) :
    SkinR b (Editor.cutSkin ids atts s) (Editor.cutSkin ids' atts t) :=
  ⟨h.1, (h.2.filter (p := fun k => decide (k ∉ ids)) (q := fun k => decide (k ∉ ids')) (fun k => by simp only [hi k])).dmap
    fun _ _ hd => hd.filter (p := fun k => decide (k ∉ atts)) (q := fun k => decide (k ∉ atts)) (fun _ => rfl)⟩

theorem foldAtts_rel (atts : List Str) (names : List Str) {d d' : Dict (Anim F)} (h : KR (AnR b) d d') :
    KR (AnR b) (names.foldl (fun an n => dmap (Anim.removeDeformAtts atts n) an) d) (names.foldl (fun an n => dmap (Anim.removeDeformAtts atts n) an) d') := by
  induction names generalizing d d' with
  | nil => exact h
  | cons n l ih => exact ih (h.dmap fun _ _ h => removeDeformAtts_rel atts n h)

/-- the same names were removed -/
def Names (r s : List Str × List Str) : Prop := Mems r.1 s.1 ∧ r.2 = s.2

variable {e e' : Editor F}

theorem ids_rel (h : ER e e') (hs : Editor.Sync e) (hs' : Editor.Sync e') {ids ids' atts slots L L' : List Str} {g0 g1 g0' g1' : SGraph F}
    (hr : Editor.CleanStart e ids atts slots L g0 g1) (hr' : Editor.CleanStart e' ids' atts slots L' g0' g1') : Mems ids ids' := by
  intro n
  rw [hr.mem_ids hs, hr'.mem_ids hs', bare_iff h.data, h.data.slots]

theorem ready_clean {r : List Str × List Str} {e1 : Editor F} (h : Ready e) (hc : Editor.clean e = (.ok r, e1)) : Ready e1 := by
  obtain ⟨S, hS, hg, _, _⟩ := Editor.clean_any h.open.sync.ecore
  rw [hc] at hg
  have hg : e1.graph = restrict e.graph S := hg
  obtain ⟨h1, h2⟩ := Editor.clean_bones h.open.sync.ecore hc
  refine ⟨Editor.open_clean h.open hc, ?_, ?_⟩
  · rw [h1, hg, hS.nodesOf h.open.sync.core (.inl rfl)]
  · rw [h2, hg, hS.nodesOf h.open.sync.core (.inr rfl)]

theorem clean_rel (h : ER e e') (hr : Ready e) (hr' : Ready e') {ids ids' atts : List Str} {e1 e1' : Editor F}
    (hc : Editor.clean e = (.ok (ids, atts), e1)) (hc' : Editor.clean e' = (.ok (ids', atts), e1')) : Mems ids ids' ∧ ER e1 e1' := by
  have hs := hr.open.sync
  have hs' := hr'.open.sync
  obtain ⟨slots, L, A, B, I, g0, g1, g2, g3, bs, ss, is, an, c⟩ := Editor.clean_run hs.core hc
  obtain ⟨slots', L', A', B', I', g0', g1', g2', g3', bs', ss', is', an', c'⟩ := Editor.clean_run hs'.core hc'
  have hu := c.unused
  rw [unused_eq h.data, c'.unused] at hu
  injection hu with hu
  simp only [Prod.mk.injEq, and_true] at hu
  subst hu
  have hm := ids_rel h hs hs' c.toCleanStart c'.toCleanStart
  refine ⟨hm, ?_⟩
  have hv : e1.doc.version = e.doc.version := c.version
  have ha : KR (AnR e.doc.version.is38) an an' := by
    have h1 := c.result_an hs
    have h2 := c'.result_an hs'
    have h3 : KR (AnR e.doc.version.is38) (dmap (fun x : Anim F => (x.removeSlots ids).removeDeformSlots ids) e.data.animations)
        (dmap (fun x => (x.removeSlots ids').removeDeformSlots ids') e'.data.animations) :=
      h.data.animations.dmap fun _ _ hp => removeSlotsA_rel hm hp
    have h4 := mapMutD_both (f := fun _ x => Anim.removeDrawOrder ids e.data.slots x) (g := fun _ x => Anim.removeDrawOrder ids' e'.data.slots x) h3
      (fun k p q hp => by rw [h.data.slots]; exact removeDrawOrder_both hm e'.data.slots hp)
    have k1 := c.han
    have k2 := c'.han
    rw [(AnimData.fixed_iff.1 hs.dflt).2.2.2.2.2.2] at k1
    rw [(AnimData.fixed_iff.1 hs'.dflt).2.2.2.2.2.2] at k2
    rw [k1, k2] at h4
    rcases h4 with ⟨x, e1, _⟩ | ⟨_, _, _, _, _, h5⟩
    · cases e1
    · exact h5
  obtain ⟨v1, v2, v3⟩ := c.result_events hs
  obtain ⟨w1, w2, w3⟩ := c'.result_events hs'
  obtain ⟨b1, b2⟩ := Editor.clean_bones hs.ecore hc
  obtain ⟨d1, d2⟩ := Editor.clean_bones hs'.ecore hc'
  rw [hr.bones] at b1
  rw [hr.iks] at b2
  rw [hr'.bones] at d1
  rw [hr'.iks] at d2
  unfold Editor.bonesJson at b1 d1
  unfold Editor.iksJson at b2 d2
  rw [c'.version, ← h.version] at d1 d2
  refine ⟨by rw [c.skeleton, c'.skeleton, h.skeleton], by rw [c.version, c'.version, h.version], ?_⟩
  rw [hv] at b1 b2 ⊢
  refine ⟨by rw [b1, d1]; exact h.data.bones, ?_, ?_, by rw [v1, w1]; exact h.data.events, by rw [b2, d2]; exact h.data.ik,
    by rw [v2, w2]; exact h.data.transform, by rw [v3, w3]; exact h.data.path, ?_⟩
  · rw [c.result_slots hs, c'.result_slots hs', h.data.slots]
    congr 1
    funext s
    simp only [hm s.name]
  · rw [c.result_skins hs, c'.result_skins hs', All₂.map_left, All₂.map_right]
    exact h.data.skins.mono' (fun _ _ _ _ hst => cutSkin_rel hm atts hst)
  · rw [c.result_animations hs, c'.result_animations hs', h.data.skins.map_eq (f := (·.name)) (g := (·.name)) (fun _ _ h => h.1)]
    exact foldAtts_rel atts _ ha

/-- related states, ready for further calls -/
def SR (e e' : Editor F) : Prop := ER e e' ∧ Ready e ∧ Ready e'

theorem clean_both (h : ER e e') (hr : Ready e) (hr' : Ready e') : Both Names SR (Editor.clean e) (Editor.clean e') := by
  have hs := hr.open.sync
  have hs' := hr'.open.sync
  have step : ∀ {slots atts : List Str}, AnimData.unused e.data = .ok (slots, atts) → ∃ (ids ids' : List Str) (e2 e2' : Editor F),
      Mems ids ids' ∧
      (Editor.clean e = match Editor.removeSlots ids e.data.slots e2.data with
        | (.error x, a) => (.error x, e2.withData a)
        | (.ok _, a) => match Editor.detach e2.graph with
          | (.error x, g) => (.error x, { e2.withData (Editor.removeAttachments atts a) with graph := g })
          | (.ok imgs, g) => (.ok (ids, atts), Editor.cleanImages (imgs.map some) { e2.withData (Editor.removeAttachments atts a) with graph := g })) ∧
      (Editor.clean e' = match Editor.removeSlots ids' e'.data.slots e2'.data with
        | (.error x, a) => (.error x, e2'.withData a)
        | (.ok _, a) => match Editor.detach e2'.graph with
          | (.error x, g) => (.error x, { e2'.withData (Editor.removeAttachments atts a) with graph := g })
          | (.ok imgs, g) => (.ok (ids', atts), Editor.cleanImages (imgs.map some) { e2'.withData (Editor.removeAttachments atts a) with graph := g })) ∧
      e2.data.animations = e.data.animations ∧ e2'.data.animations = e'.data.animations ∧
      (∃ i g, Editor.detach e2.graph = (.ok i, g)) ∧ (∃ i g, Editor.detach e2'.graph = (.ok i, g)) := by
    intro slots atts hu
    have hu' := hu
    rw [unused_eq h.data] at hu'
    obtain ⟨ids, L, g0, g1, hg, hst⟩ := Editor.cleanGraph_total hs hu
    obtain ⟨ids', L', g0', g1', hg', hst'⟩ := Editor.cleanGraph_total hs' hu'
    obtain ⟨e2, hb, hg1, han⟩ := Editor.readBack_total hs hst
    obtain ⟨e2', hb', hg1', han'⟩ := Editor.readBack_total hs' hst'
    rw [(AnimData.fixed_iff.1 hs.dflt).2.2.2.2.2.2] at han
    rw [(AnimData.fixed_iff.1 hs'.dflt).2.2.2.2.2.2] at han'
    refine ⟨ids, ids', e2, e2', ids_rel h hs hs' hst hst', ?_, ?_, han, han', ?_, ?_⟩
    · unfold Editor.clean
      simp only [hu, hg, hb]
      rfl
    · unfold Editor.clean
      simp only [hu', hg', hb']
      rfl
    · exact Editor.detach_total (b := e.doc.version.is38) (by rw [hg1]; exact hst.core1 hs)
    · exact Editor.detach_total (b := e'.doc.version.is38) (by rw [hg1']; exact hst'.core1 hs')
  cases hu : AnimData.unused e.data with
  | error x =>
    refine .inl ⟨x, ?_, ?_⟩
    · unfold Editor.clean; simp only [hu]
    · rw [unused_eq h.data] at hu
      unfold Editor.clean; simp only [hu]
  | ok q =>
    obtain ⟨slots, atts⟩ := q
    obtain ⟨ids, ids', e2, e2', hm, c1, c2, a1, a2, ⟨i, g, d1⟩, ⟨i', g', d2⟩⟩ := step hu
    have h3 : KR (AnR e.doc.version.is38) (Editor.slotsInAnims ids (Editor.slotsInSkins ids e2.data)).animations
        (Editor.slotsInAnims ids' (Editor.slotsInSkins ids' e2'.data)).animations := by
      have : KR (AnR e.doc.version.is38) (dmap (fun x : Anim F => (x.removeSlots ids).removeDeformSlots ids) e2.data.animations)
          (dmap (fun x => (x.removeSlots ids').removeDeformSlots ids') e2'.data.animations) := by
        rw [a1, a2]
        exact h.data.animations.dmap fun _ _ hp => removeSlotsA_rel hm hp
      exact this
    have h4 := mapMutD_both (f := fun _ x => Anim.removeDrawOrder ids e.data.slots x) (g := fun _ x => Anim.removeDrawOrder ids' e'.data.slots x) h3
      (fun k p q hp => by rw [h.data.slots]; exact removeDrawOrder_both hm e'.data.slots hp)
    rcases h4 with ⟨x, k1, k2⟩ | ⟨⟨⟩, ⟨⟩, k1, k2, _, _⟩
    · refine .inl ⟨x, ?_, ?_⟩
      · rw [c1]
        unfold Editor.removeSlots Editor.drawOrderRefs
        simp only [k1]
      · rw [c2]
        unfold Editor.removeSlots Editor.drawOrderRefs
        simp only [k2]
    · obtain ⟨s1, hc1⟩ : ∃ s, Editor.clean e = (.ok (ids, atts), s) := by
        rw [c1]
        unfold Editor.removeSlots Editor.drawOrderRefs
        simp only [k1, d1]
        exact ⟨_, rfl⟩
      obtain ⟨s2, hc2⟩ : ∃ s, Editor.clean e' = (.ok (ids', atts), s) := by
        rw [c2]
        unfold Editor.removeSlots Editor.drawOrderRefs
        simp only [k2, d2]
        exact ⟨_, rfl⟩
      rw [hc1, hc2]
      exact .inr ⟨_, _, rfl, rfl, ⟨hm, rfl⟩, (clean_rel h hr hr' hc1 hc2).2, ready_clean hr hc1, ready_clean hr' hc2⟩

theorem cleanUnless_both (safe : Bool) (h : ER e e') (hr : Ready e) (hr' : Ready e') :
    Both Names SR (Editor.cleanUnless safe e) (Editor.cleanUnless safe e') := by
  unfold Editor.cleanUnless
  split
  · exact .inr ⟨_, _, rfl, rfl, ⟨fun _ => Iff.rfl, rfl⟩, h, hr, hr'⟩
  · exact clean_both h hr hr'

/-! ### erase_animations -/

theorem ready_filterAnims (h : Ready e) (p : Str × Anim F → Bool) :
    Ready (e.withData { e.data with animations := e.data.animations.filter p }) :=
  ⟨Editor.open_filterAnims h.open p, h.bones, h.iks⟩

theorem filterAnims_rel (h : ER e e') (names : List Str) :
    ER (e.withData { e.data with animations := e.data.animations.filter (fun p => decide (p.1 ∉ names)) })
      (e'.withData { e'.data with animations := e'.data.animations.filter (fun p => decide (p.1 ∉ names)) }) :=
  ⟨h.skeleton, h.version, h.data.bones, h.data.slots, h.data.skins, h.data.events, h.data.ik, h.data.transform, h.data.path,
    h.data.animations.filter (p := fun k => decide (k ∉ names)) (q := fun k => decide (k ∉ names)) fun _ => rfl⟩

theorem eraseAnims_both (arg : Editor.NamesArg) (strict safe : Bool) (h : ER e e') (hr : Ready e) (hr' : Ready e') :
    Both (fun r s => r.1 = s.1 ∧ Names r.2 s.2) SR (Editor.eraseAnims arg strict safe e) (Editor.eraseAnims arg strict safe e') := by
  cases arg with
  | other => exact .inl ⟨_, rfl, rfl⟩
  | list names =>
    unfold Editor.eraseAnims
    simp only [Editor.eraseRaw_fst]
    have hk : (Editor.eraseRaw names e.data.animations).2 ≠ [] ↔ (Editor.eraseRaw names e'.data.animations).2 ≠ [] := by
      rw [ne_eq, ne_eq, Editor.eraseRaw_snd_nil, Editor.eraseRaw_snd_nil]
      simp only [h.data.animations.keys]
    simp only [hk]
    split
    · exact .inl ⟨_, rfl, rfl⟩
    · have := cleanUnless_both safe (filterAnims_rel h names) (ready_filterAnims hr _) (ready_filterAnims hr' _)
      generalize Editor.cleanUnless safe (e.withData _) = q at this ⊢
      generalize Editor.cleanUnless safe (e'.withData _) = q' at this ⊢
      obtain ⟨q1, q2⟩ := q
      obtain ⟨q1', q2'⟩ := q'
      rcases this with ⟨x, e1, e2⟩ | ⟨r, s, e1, e2, h1, h2⟩
      · simp only at e1 e2
        subst e1 e2
        exact .inl ⟨x, rfl, rfl⟩
      · simp only at e1 e2 h2
        subst e1 e2
        exact .inr ⟨_, _, rfl, rfl, ⟨h2.1.json, h1⟩, h2⟩

/-! ### erase_skins -/

theorem linked_no_default (b : Bool) : ∀ n ∈ [s!!"skin", s!!"name", s!!"path", s!!"width", s!!"height"],
    Dict.get? ((AttKind.cls .linked : Cls F).defaultsFor b) n = none := by
  intro n hn
  simp only [List.mem_cons, List.not_mem_nil, or_false] at hn
  rcases hn with rfl | rfl | rfl | rfl | rfl <;> cases b <;> rfl

theorem linked_val {x y : Att F} (h : AttR b x y) (hk : x.kind = .linked) {n : Str}
    (hn : n ∈ [s!!"skin", s!!"name", s!!"path", s!!"width", s!!"height"]) : x.attrs.val n = y.attrs.val n :=
  h.2.val (by rw [hk]; exact linked_no_default b n hn)

theorem linksTo_eq {x y : Att F} (h : AttR b x y) (n : Str) : AnimData.linksTo n x = AnimData.linksTo n y := by
  unfold AnimData.linksTo
  by_cases hk : x.kind = .linked
  · rw [linked_val h hk (n := s!!"skin") (by simp), h.1]
  · have hk' : y.kind ≠ .linked := by rw [← h.1]; exact hk
    revert hk hk'
    generalize x.attrs.val s!!"skin" = v
    generalize y.attrs.val s!!"skin" = w
    cases x.kind <;> cases y.kind <;> simp

theorem linksTo_kind {x : Att F} {n : Str} (h : AnimData.linksTo n x = true) : x.kind = .linked := by
  unfold AnimData.linksTo at h
  split at h
  · assumption
  · cases h

theorem relinkAtt_both {gone gone' : Skin F} (hg : SkinR b gone gone') (n slot key : Str) {x y : Att F} (h : AttR b x y) :
    Both (fun _ _ => True) (AttR b) (AnimData.relinkAtt gone n slot key x) (AnimData.relinkAtt gone' n slot key y) := by
  unfold AnimData.relinkAtt
  rw [← linksTo_eq h]
  split
  · rename_i hl
    have hk := linksTo_kind hl
    rcases hg.2.get? slot with ⟨h1, h2⟩ | ⟨v, w, h1, h2, h3⟩
    · rw [h1, h2]; exact .inl ⟨_, rfl, rfl⟩
    · rw [h1, h2]
      simp only
      rcases h3.get? key with ⟨h1, h2⟩ | ⟨v, w, h1, h2, h3⟩
      · rw [h1, h2]; exact .inl ⟨_, rfl, rfl⟩
      · rw [h1, h2]
        refine .inr ⟨_, _, rfl, rfl, trivial, h3.1, ?_⟩
        unfold AnimData.relinked
        simp only
        rw [linked_val h hk (n := s!!"name") (by simp), linked_val h hk (n := s!!"path") (by simp),
          linked_val h hk (n := s!!"width") (by simp), linked_val h hk (n := s!!"height") (by simp)]
        exact (((h3.2.set _ _).set _ _).set _ _).set _ _
  · exact .inr ⟨_, _, rfl, rfl, trivial, h⟩

theorem relinkSkin_both {gone gone' : Skin F} (hg : SkinR b gone gone') (n : Str) {s t : Skin F} (h : SkinR b s t) :
    Both (fun _ _ => True) (SkinR b) (AnimData.relinkSkin gone n s) (AnimData.relinkSkin gone' n t) := by
  unfold AnimData.relinkSkin
  rw [← h.1]
  split
  · exact .inr ⟨_, _, rfl, rfl, trivial, h⟩
  · have := mapMutD_both (f := fun slot e => mapMutD (fun key x => AnimData.relinkAtt gone n slot key x) e)
      (g := fun slot e => mapMutD (fun key x => AnimData.relinkAtt gone' n slot key x) e) h.2
      (fun slot _ _ hd => mapMutD_both hd fun key _ _ hx => relinkAtt_both hg n slot key hx)
    rcases this with ⟨x, e1, e2⟩ | ⟨r, s, e1, e2, _, h2⟩
    · exact .inl ⟨x, e1, e2⟩
    · exact .inr ⟨r, s, e1, e2, trivial, rfl, h2⟩

theorem strAttr_eq {x y : Att F} (h : AttR b x y) {n : Str} (hn : n ∈ [s!!"name", s!!"path"]) : x.strAttr n = y.strAttr n := by
  unfold Att.strAttr
  rw [h.2.get? (AttKind.no_default _ _ _ hn)]

theorem goneOf_eq {x y : Att F} (h : AttR b x y) : AnimData.goneOf x = AnimData.goneOf y := by
  unfold AnimData.goneOf
  rw [h.1, strAttr_eq h (n := s!!"path") (by simp), strAttr_eq h (n := s!!"name") (by simp),
    h.2.get? (k := s!!"path") (AttKind.no_default _ _ _ (by simp))]

theorem mapE_eq {α β γ : Type} {P : α → β → Prop} {l : List α} {m : List β} (h : All₂ P l m) {f : α → Except Err γ} {g : β → Except Err γ}
    (hf : ∀ x y, P x y → f x = g y) : mapE f l = mapE g m := by
  induction h with
  | nil => rfl
  | @cons x y l m hp _ ih => unfold mapE; rw [hf _ _ hp, ih]

theorem skinAtts_all₂ {s t : Skin F} (h : SkinR b s t) : All₂ (AttR b) (AnimData.skinAtts s) (AnimData.skinAtts t) := by
  unfold AnimData.skinAtts
  have h2 := h.2
  generalize s.attachments = d at h2
  generalize t.attachments = d' at h2
  unfold KR at h2
  induction h2 with
  | nil => exact .nil
  | @cons p q l m hp _ ih =>
    simp only [List.flatMap_cons]
    exact KeyOrder.all₂_append (values_all₂ hp.2) ih

theorem removedImages_eq {s t : Skin F} (h : SkinR b s t) : AnimData.removedImages s = AnimData.removedImages t := by
  unfold AnimData.removedImages
  rw [mapE_eq (skinAtts_all₂ h) (fun _ _ hx => goneOf_eq hx)]

theorem getSkin_rel {x y : AnimData F} (h : DataR b x y) (n : Str) :
    (AnimData.getSkin x n = none ∧ AnimData.getSkin y n = none) ∨
      ∃ s t, AnimData.getSkin x n = some s ∧ AnimData.getSkin y n = some t ∧ SkinR b s t := by
  unfold AnimData.getSkin
  have := h.skins
  generalize x.skins = l at this
  generalize y.skins = m at this
  induction this with
  | nil => exact .inl ⟨rfl, rfl⟩
  | @cons x y l m h1 _ ih =>
    simp only [List.find?_cons, ← h1.1]
    cases x.name == n with
    | true => exact .inr ⟨x, y, rfl, rfl, h1⟩
    | false => exact ih

theorem removeSkin_both (n : Str) {x y : AnimData F} (h : DataR b x y) :
    Both (· = ·) (DataR b) (AnimData.removeSkin n x) (AnimData.removeSkin n y) := by
  unfold AnimData.removeSkin
  rcases getSkin_rel h n with ⟨h1, h2⟩ | ⟨s, t, h1, h2, h3⟩
  · rw [h1, h2]; exact .inl ⟨_, rfl, rfl⟩
  · rw [h1, h2]
    simp only
    rcases mapMut_both h.skins (fun _ _ hx => relinkSkin_both h3 n hx) with ⟨z, e1, e2⟩ | ⟨_, _, e1, e2, _, h4⟩
    · rw [e1, e2]; exact .inl ⟨_, rfl, rfl⟩
    · rw [e1, e2]
      simp only
      rw [removedImages_eq h3]
      cases AnimData.removedImages t with
      | error z => exact .inl ⟨_, rfl, rfl⟩
      | ok im =>
        refine .inr ⟨_, _, rfl, rfl, rfl, h.bones, h.slots, ?_, h.events, h.ik, h.transform, h.path,
          h.animations.dmap fun _ _ h => ⟨h.ik, h.drawOrder, h.bones, h.slots, h.events, h.transform, h.path, h.deform.del n⟩⟩
        exact KeyOrder.all₂_filter h4 fun x y h => by rw [h.1]

theorem removeSkins_both (ns : List Str) : ∀ {x y : AnimData F}, DataR b x y → Both (· = ·) (DataR b) (Editor.removeSkins ns x) (Editor.removeSkins ns y) := by
  induction ns with
  | nil => intro x y h; exact .inr ⟨_, _, rfl, rfl, rfl, h⟩
  | cons n ns ih =>
    intro x y h
    unfold Editor.removeSkins
    have h1 := removeSkin_both n h
    generalize AnimData.removeSkin n x = q at h1
    generalize AnimData.removeSkin n y = q' at h1
    obtain ⟨q1, q2⟩ := q
    obtain ⟨q1', q2'⟩ := q'
    rcases h1 with ⟨z, e1, e2⟩ | ⟨r, s, e1, e2, h1, h2⟩
    · simp only at e1 e2
      subst e1 e2
      exact .inl ⟨z, rfl, rfl⟩
    · simp only at e1 e2 h2
      subst e1 e2 h1
      simp only
      have h3 := ih h2
      generalize Editor.removeSkins ns q2 = p at h3
      generalize Editor.removeSkins ns q2' = p' at h3
      obtain ⟨p1, p2⟩ := p
      obtain ⟨p1', p2'⟩ := p'
      rcases h3 with ⟨z, e1, e2⟩ | ⟨r2, s2, e1, e2, h1, h2⟩
      · simp only at e1 e2
        subst e1 e2
        exact .inl ⟨z, rfl, rfl⟩
      · simp only at e1 e2 h2
        subst e1 e2 h1
        exact .inr ⟨_, _, rfl, rfl, rfl, h2⟩

theorem ready_removeSkins {names : List Str} {a : AnimData F} {g : SGraph F} {r : List (Option Str) × List Str} (hr : Ready e)
    (h1 : Editor.removeSkins names e.data = (.ok r, a)) (h2 : SpineNodes.create (e.withData a).toJson = .ok g) :
    Ready { e.withData a with graph := g } := by
  have hs := hr.open
  have s1 := Editor.sync_removeSkins hs.sync h1 h2
  have hk : Editor.Kept e.doc a := Editor.kept_removeSkins ⟨hs.good, hs.refs, hs.noPath⟩ h1
  have hb := Editor.removeSkins_kept e.doc.version.is38 h1
  refine ⟨?_, ?_, ?_⟩
  · refine Editor.open_fresh s1 h2 hk.good ?_ hs.ver hk.refs hk.noPath
    intro s hm
    have hm : s ∈ a.slots := hm
    rw [hb.slots] at hm
    exact hs.slotBone s hm
  · exact (nodesOf_fresh h2).1
  · exact (nodesOf_fresh h2).2.2

theorem ready_eraseSkins {names : List Str} {safe : Bool} {r : (List Str × List Str) × List (Option Str)} {e1 : Editor F} (hr : Ready e)
    (h : Editor.eraseSkins names safe e = (.ok r, e1)) : Ready e1 := by
  obtain ⟨r, gone⟩ := r
  have o := Editor.open_eraseSkins hr.open h
  obtain ⟨imgs, regions, a, g, e2, h1, h2, h3, h4, rfl⟩ := Editor.eraseSkins_ok h
  have r1 := ready_removeSkins hr h1 h2
  have r2 : Ready e2 := by
    unfold Editor.cleanUnless at h4
    split at h4
    · simp only [Prod.mk.injEq] at h4; rw [← h4.2]; exact r1
    · exact ready_clean r1 h4
  exact ⟨o, r2.bones, r2.iks⟩

theorem eraseSkins_both (names : List Str) (safe : Bool) (h : ER e e') (hr : Ready e) (hr' : Ready e') :
    Both (fun r s => Names r.1 s.1 ∧ r.2 = s.2) SR (Editor.eraseSkins names safe e) (Editor.eraseSkins names safe e') := by
  have fin : Both (fun r s => Names r.1 s.1 ∧ r.2 = s.2) ER (Editor.eraseSkins names safe e) (Editor.eraseSkins names safe e') →
      Both (fun r s => Names r.1 s.1 ∧ r.2 = s.2) SR (Editor.eraseSkins names safe e) (Editor.eraseSkins names safe e') := by
    rintro (⟨x, e1, e2⟩ | ⟨r, s, e1, e2, h1, h2⟩)
    · exact .inl ⟨x, e1, e2⟩
    · exact .inr ⟨r, s, e1, e2, h1, h2, ready_eraseSkins hr (r := r) (by rw [← e1]), ready_eraseSkins hr' (r := s) (by rw [← e2])⟩
  apply fin
  unfold Editor.eraseSkins
  have h1 := removeSkins_both names h.data
  have k1 : ∀ r, (Editor.removeSkins names e.data).1 = .ok r → Editor.removeSkins names e.data = (.ok r, (Editor.removeSkins names e.data).2) :=
    fun r h => by rw [← h]
  have k2 : ∀ r, (Editor.removeSkins names e'.data).1 = .ok r → Editor.removeSkins names e'.data = (.ok r, (Editor.removeSkins names e'.data).2) :=
    fun r h => by rw [← h]
  rcases h1 with ⟨z, e1, e2⟩ | ⟨im, im', e1, e2, rfl, h2⟩
  · refine .inl ⟨z, ?_, ?_⟩
    · generalize Editor.removeSkins names e.data = q at e1
      obtain ⟨q1, q2⟩ := q
      simp only at e1
      subst e1
      rfl
    · generalize Editor.removeSkins names e'.data = q at e2
      obtain ⟨q1, q2⟩ := q
      simp only at e2
      subst e2
      rfl
  · have k1 := k1 _ e1
    have k2 := k2 _ e2
    generalize (Editor.removeSkins names e.data).2 = a at k1 h2
    generalize (Editor.removeSkins names e'.data).2 = a' at k2 h2
    rw [k1, k2]
    have he : ER (e.withData a) (e'.withData a') := ⟨h.skeleton, h.version, h2⟩
    simp only [he.json]
    cases hg : SpineNodes.create (e'.withData a').toJson with
    | error z => exact .inl ⟨z, rfl, rfl⟩
    | ok g =>
      simp only
      have r1 := ready_removeSkins hr k1 (by rw [he.json]; exact hg)
      have r2 := ready_removeSkins hr' k2 hg
      have he2 : ER { e.withData a with graph := g } { e'.withData a' with graph := g } := ⟨h.skeleton, h.version, h2⟩
      have := cleanUnless_both safe he2 r1 r2
      generalize Editor.cleanUnless safe { e.withData a with graph := g } = q at this ⊢
      generalize Editor.cleanUnless safe { e'.withData a' with graph := g } = q' at this ⊢
      obtain ⟨q1, q2⟩ := q
      obtain ⟨q1', q2'⟩ := q'
      rcases this with ⟨x, e1, e2⟩ | ⟨r, s, e1, e2, h1, h3, h4, h5⟩
      · simp only at e1 e2
        subst e1 e2
        exact .inl ⟨x, rfl, rfl⟩
      · simp only at e1 e2 h3 h4 h5
        subst e1 e2
        exact .inr ⟨_, _, rfl, rfl, ⟨h1, rfl⟩, ⟨h3.skeleton, h3.version, h3.data⟩⟩

end State
end Spine
