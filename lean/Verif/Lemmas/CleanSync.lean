import Verif.Lemmas.Sync
/- `clean_animation` on an editor whose graph shows its skins. -/
set_option linter.unusedSectionVars false
set_option linter.unusedSimpArgs false
namespace Spine
open JVal Graph Container
variable {F : Type} [PyRt F]

theorem All₂.filter {α β : Type} {R : α → β → Prop} {l : List α} {m : List β} (h : All₂ R l m) {p : α → Bool} {q : β → Bool}
    (hpq : ∀ x y, x ∈ l → y ∈ m → R x y → p x = q y) : All₂ R (l.filter p) (m.filter q) := by
  induction h with
  | nil => exact .nil
  | @cons x y l m hr _ ih =>
    have ih := ih (fun x y hx hy => hpq x y (by simp [hx]) (by simp [hy]))
    have := hpq x y (by simp) (by simp) hr
    cases hq : q y with
    | true => rw [hq] at this; simp only [List.filter_cons, this, hq, if_true]; exact .cons hr ih
    | false => rw [hq] at this; simpa only [List.filter_cons, this, hq, Bool.false_eq_true, if_false] using ih

theorem All₂.mono' {α β : Type} {R S : α → β → Prop} {l : List α} {m : List β} (h : All₂ R l m)
    (hs : ∀ x y, x ∈ l → y ∈ m → R x y → S x y) : All₂ S l m := by
  induction h with
  | nil => exact .nil
  | cons hr _ ih => exact .cons (hs _ _ (by simp) (by simp) hr) (ih (fun x y hx hy => hs x y (by simp [hx]) (by simp [hy])))

theorem All₂.trans_eq {α β : Type} {f : α → Except Err β} {l : List α} {m m' : List β} (h : All₂ (fun x y => f x = .ok y) l m)
    (h' : All₂ (fun x y => f x = .ok y) l m') : m = m' := by
  induction h generalizing m' with
  | nil => cases h'; rfl
  | cons hr _ ih =>
    cases h' with
    | cons hr' h' =>
      rw [hr] at hr'; injection hr' with hr'
      rw [hr', ih h']

theorem nodup_map_inj {α β : Type} {f : α → β} {l : List α} (h : (l.map f).Nodup) {x y : α} (hx : x ∈ l) (hy : y ∈ l)
    (e : f x = f y) : x = y := by
  induction l with
  | nil => cases hx
  | cons z l ih =>
    rw [List.map_cons, List.nodup_cons] at h
    rcases List.mem_cons.1 hx with rfl | hx' <;> rcases List.mem_cons.1 hy with rfl | hy'
    · rfl
    · exact absurd (e ▸ List.mem_map_of_mem hy') h.1
    · exact absurd (e ▸ List.mem_map_of_mem hx') h.1
    · exact ih h.2 hx' hy'

/-! ### Defaults of animations -/

theorem Anim.fixed_iff {b : Bool} {x : Anim F} : x.setDefaults b = x ↔
    dmap (·.map (ikTimelineCls.setDefaults b)) x.ik = x.ik ∧ x.drawOrder.map (·.setDefaults b) = x.drawOrder ∧
    dmap (·.setDefaults b) x.bones = x.bones ∧ dmap (·.setDefaults b) x.slots = x.slots ∧
    x.events.map (eventTimelineCls.setDefaults b) = x.events ∧
    dmap (·.map (transformTimelineCls.setDefaults b)) x.transform = x.transform ∧
    dmap (dmap (·.map (pathTimelineCls.setDefaults b))) x.path = x.path ∧
    dmap (dmap (dmap (·.map (deformCls.setDefaults b)))) x.deform = x.deform := by
  cases x
  simp only [Anim.setDefaults, Anim.mk.injEq]

theorem dmap_fixed_filter {α : Type} {f : α → α} {d : Dict α} (h : dmap f d = d) (p : Str × α → Bool) :
    dmap f (d.filter p) = d.filter p := by
  rw [dmap_fixed_iff] at h ⊢
  intro q hq
  exact h q (List.mem_filter.1 hq).1

theorem dmap_fixed_dmap {α : Type} {f g : α → α} {d : Dict α} (h : dmap f d = d) (hg : ∀ x, f x = x → f (g x) = g x) :
    dmap f (dmap g d) = dmap g d := by
  rw [dmap_fixed_iff] at h ⊢
  intro q hq
  obtain ⟨p, hp, rfl⟩ := List.mem_map.1 hq
  exact hg _ (h p hp)

theorem mem_set {α : Type} {d : Dict α} {k : Str} {v : α} {p : Str × α} (h : p ∈ Dict.set d k v) : p ∈ d ∨ p = (k, v) := by
  induction d with
  | nil => simp [Dict.set] at h; exact .inr h
  | cons q d ih =>
    unfold Dict.set at h
    split at h
    · rename_i hq
      rcases List.mem_cons.1 h with h | h
      · exact .inr h
      · exact .inl (by simp [h])
    · rcases List.mem_cons.1 h with h | h
      · exact .inl (by simp [h])
      · rcases ih h with h | h
        · exact .inl (by simp [h])
        · exact .inr h

theorem Anim.fixed_removeDrawOrder {b : Bool} {ids : List Str} {orig : List (Slot F)} {x x' : Anim F} (h : x.setDefaults b = x)
    (hx : x.removeDrawOrder ids orig = (.ok (), x')) : x'.setDefaults b = x' := by
  unfold Anim.removeDrawOrder at hx
  simp only [Prod.mk.injEq] at hx
  obtain ⟨h1, rfl⟩ := hx
  have h1 := (mapMut_ok _ _ _).1 (Prod.ext h1 rfl)
  rw [Anim.fixed_iff] at h ⊢
  refine ⟨h.1, ?_, h.2.2⟩
  rw [map_fixed_iff] at h ⊢
  intro t ht
  obtain ⟨t0, ht0, hc⟩ := h1.right ht
  unfold Anim.cleanDraw at hc
  split at hc
  · simp at hc
  · simp only [Prod.mk.injEq, true_and] at hc
    rw [← hc]
    have := h.2.1 t0 ht0
    unfold DrawTl.setDefaults at this ⊢
    have e := congrArg DrawTl.time this
    simp only at e ⊢
    rw [e]

theorem Anim.fixed_removeSlots {b : Bool} (ids : List Str) {x : Anim F} (h : x.setDefaults b = x) :
    ((x.removeSlots ids).removeDeformSlots ids).setDefaults b = (x.removeSlots ids).removeDeformSlots ids := by
  rw [Anim.fixed_iff] at h ⊢
  obtain ⟨h1, h2, h3, h4, h5, h6, h7, h8⟩ := h
  refine ⟨h1, h2, h3, dmap_fixed_filter h4 _, h5, h6, h7, ?_⟩
  exact dmap_fixed_dmap h8 (fun x hx => dmap_fixed_filter hx _)

theorem Anim.fixed_removeDeformAtts {b : Bool} (ids : List Str) (skin : Str) {x : Anim F} (h : x.setDefaults b = x) :
    (x.removeDeformAtts ids skin).setDefaults b = x.removeDeformAtts ids skin := by
  unfold Anim.removeDeformAtts
  split
  · exact h
  · rename_i d hd
    rw [Anim.fixed_iff] at h ⊢
    obtain ⟨h1, h2, h3, h4, h5, h6, h7, h8⟩ := h
    refine ⟨h1, h2, h3, h4, h5, h6, h7, ?_⟩
    rw [dmap_fixed_iff] at h8 ⊢
    intro p hp
    rcases mem_set hp with hp | rfl
    · exact h8 p hp
    · exact dmap_fixed_dmap (h8 _ (Dict.mem_of_get? hd)) (fun x hx => dmap_fixed_filter hx _)

theorem AnimData.fixed_iff {b : Bool} {x : AnimData F} : x.setDefaults b = x ↔
    x.bones.map (·.setDefaults b) = x.bones ∧ x.skins.map (·.setDefaults b) = x.skins ∧
    dmap (eventsCls.setDefaults b) x.events = x.events ∧ x.ik.map (ikCls.setDefaults b) = x.ik ∧
    x.transform.map (transformCls.setDefaults b) = x.transform ∧ x.path.map (pathCls.setDefaults b) = x.path ∧
    dmap (·.setDefaults b) x.animations = x.animations := by
  cases x
  simp only [AnimData.setDefaults, AnimData.mk.injEq, true_and]

theorem Skin.fixed_iff {b : Bool} {x : Skin F} : x.setDefaults b = x ↔
    ∀ p ∈ x.attachments, ∀ q ∈ p.2, q.2.setDefaults b = q.2 := by
  rw [Skin.setDefaults_eq]
  cases x with
  | mk n d =>
    simp only [Skin.mk.injEq, true_and]
    rw [dmap_fixed_iff]
    constructor
    · intro h p hp q hq
      exact dmap_fixed_iff.1 (h p hp) q hq
    · intro h p hp
      exact dmap_fixed_iff.2 (h p hp)

namespace Editor

variable {e e' : Editor F} {ids atts slots L A B I : List Str} {g0 g1 g2 g3 : SGraph F} {bs : List (Bone F)}
    {ss : List (Slot F)} {is : List (Attrs F)} {an : Dict (Anim F)}

theorem unused_slots {a : AnimData F} {slots atts : List Str} (h : AnimData.unused a = .ok (slots, atts)) :
    ∀ n ∈ slots, ∃ s ∈ a.slots, s.name = n := by
  unfold AnimData.unused at h
  split at h
  · cases h
  · simp only at h
    split at h
    · cases h
    · simp only [Except.ok.injEq, Prod.mk.injEq] at h
      obtain ⟨rfl, _⟩ := h
      intro n hn
      rw [mem_eraseDups, List.mem_filter] at hn
      exact List.mem_map.1 hn.1

theorem unused_atts {a : AnimData F} {slots atts : List Str} (h : AnimData.unused a = .ok (slots, atts)) :
    ∀ k ∈ atts, ∃ slot x, a.HasAtt slot k x := by
  unfold AnimData.unused at h
  split at h
  · cases h
  · simp only at h
    split at h
    · cases h
    · simp only [Except.ok.injEq, Prod.mk.injEq] at h
      obtain ⟨_, rfl⟩ := h
      intro k hk
      rw [mem_eraseDups, List.mem_flatMap] at hk
      obtain ⟨s, hs, hk⟩ := hk
      unfold AnimData.unusedIn at hk
      obtain ⟨p, hp, hk⟩ := List.mem_flatMap.1 hk
      obtain ⟨q, hq, rfl⟩ := List.mem_map.1 hk
      exact ⟨p.1, q.2, s, hs, p.2, hp, (List.mem_filter.1 hq).1⟩

theorem CleanStart.core0 (hs : Sync e) (hr : CleanStart e ids atts slots L g0 g1) :
    Core e.doc.version.is38 g0 := by rw [hr.hg0]; exact hs.core.restrict _

theorem CleanStart.core1 (hs : Sync e) (hr : CleanStart e ids atts slots L g0 g1) :
    Core e.doc.version.is38 g1 := by rw [hr.hg1]; exact (hr.core0 hs).restrict _

theorem CleanRun.core2 (hs : Sync e) (hr : CleanRun e e' ids atts slots L A B I g0 g1 g2 g3 bs ss is an) :
    Core e.doc.version.is38 g2 := by rw [hr.hg2]; exact (hr.core1 hs).restrict _

theorem CleanRun.core3 (hs : Sync e) (hr : CleanRun e e' ids atts slots L A B I g0 g1 g2 g3 bs ss is an) :
    Core e.doc.version.is38 g3 := by rw [hr.hg3]; exact (hr.core2 hs).restrict _

/-- the nodes removed by name -/
def namedIds (F : Type) [PyRt F] (slots atts : List Str) : List Str :=
  (setList F slots).map (graphId .slot) ++ (setList F atts).map (graphId .attachment)

theorem mem_namedIds {slots atts : List Str} {t : NType} {n : Str} : graphId t n ∈ namedIds F slots atts ↔
    (t = .slot ∧ n ∈ slots) ∨ (t = .attachment ∧ n ∈ atts) := by
  unfold namedIds
  rw [List.mem_append, List.mem_map, List.mem_map]
  constructor
  · rintro (⟨m, hm, e⟩ | ⟨m, hm, e⟩)
    · obtain ⟨rfl, rfl⟩ := graphId_inj e
      exact .inl ⟨rfl, (mem_setList _ _).1 hm⟩
    · obtain ⟨rfl, rfl⟩ := graphId_inj e
      exact .inr ⟨rfl, (mem_setList _ _).1 hm⟩
  · rintro (⟨rfl, h⟩ | ⟨rfl, h⟩)
    · exact .inl ⟨n, (mem_setList _ _).2 h, rfl⟩
    · exact .inr ⟨n, (mem_setList _ _).2 h, rfl⟩

/-- the slot is left without attachments -/
def Bare (a : AnimData F) (atts : List Str) (n : Str) : Prop := ∀ k x, a.HasAtt n k x → k ∈ atts

theorem CleanStart.mem_L (hs : Sync e) (hr : CleanStart e ids atts slots L g0 g1) (t : NType) (n : Str) :
    graphId t n ∈ L ↔ t = .slot ∧ (∃ s ∈ e.data.slots, s.name = n) ∧ n ∉ slots ∧ Bare e.data atts n := by
  rw [hr.hL]
  have hg0 : g0 = restrict e.graph (namedIds F slots atts) := hr.hg0
  have c0 := hr.core0 hs
  constructor
  · intro h
    obtain ⟨nd, hn, ht⟩ : ∃ nd, getNode g0 (graphId t n) = some nd ∧ nd.ntype = .slot := by
      cases h with | mk hn ht _ => exact ⟨_, hn, ht⟩
    have := c0.typed' hn
    rw [ht] at this
    subst this
    have hnode : HasNode e.graph (graphId .slot n) ∧ graphId .slot n ∉ namedIds F slots atts := by
      rw [← hasNode_restrict, ← hg0]; exact ⟨nd, hn⟩
    have hns : n ∉ slots := fun h => hnode.2 (mem_namedIds.2 (.inl ⟨rfl, h⟩))
    refine ⟨rfl, (hs.hasSlot n).1 hnode.1, hns, ?_⟩
    intro k x hx
    apply Classical.byContradiction
    intro hk
    have he := hs.edge_of n k x hx
    have he0 : Edge g0 (graphId .slot n) (graphId .attachment k) := by
      rw [hg0, edge_restrict]
      refine ⟨he, hnode.2, ?_⟩
      rw [mem_namedIds]
      rintro (⟨h, _⟩ | ⟨_, h⟩)
      · cases h
      · exact hk h
    cases h with
    | mk hn' _ hall =>
      rw [hn] at hn'; injection hn' with hn'; subst hn'
      obtain ⟨m, hm, hy⟩ := he0
      rw [hn] at hm; injection hm with hm; subst hm
      cases hall _ hy with
      | mk h1 h2 _ =>
        have := c0.typed' h1
        rw [h2] at this; cases this
  · rintro ⟨rfl, hsl, hns, hbare⟩
    obtain ⟨nd0, hn0⟩ := (hs.hasSlot n).2 hsl
    have hnot : graphId .slot n ∉ namedIds F slots atts := by
      rw [mem_namedIds]
      rintro (⟨_, h⟩ | ⟨h, _⟩)
      · exact hns h
      · cases h
    obtain ⟨nd, hn⟩ : HasNode g0 (graphId .slot n) := by rw [hg0, hasNode_restrict]; exact ⟨⟨nd0, hn0⟩, hnot⟩
    refine .mk hn (c0.typed' hn) ?_
    intro y hy
    have hedge : Edge g0 (graphId .slot n) y := ⟨nd, hn, hy⟩
    rw [hg0, edge_restrict] at hedge
    obtain ⟨k, x, rfl, hx⟩ := hs.edge_slot n y hedge.1
    exact absurd (mem_namedIds.2 (.inr ⟨rfl, hbare k x hx⟩)) hedge.2.2

theorem CleanStart.L_ids (hs : Sync e) (hr : CleanStart e ids atts slots L g0 g1) {x : Str} (h : x ∈ L) :
    ∃ n, x = graphId .slot n ∧ baseId .slot x = n ∧ (∃ s ∈ e.data.slots, s.name = n) ∧ Bare e.data atts n ∧ n ∉ slots := by
  obtain ⟨nd, hn⟩ : HasNode g0 x := by
    cases (hr.hL x).1 h with | mk hn _ _ => exact ⟨_, hn⟩
  obtain ⟨_, n, rfl⟩ := (hr.core0 hs).typed x nd hn
  obtain ⟨ht, hsl, h1, h2⟩ := (hr.mem_L hs _ n).1 h
  rw [ht]
  refine ⟨n, rfl, ?_, hsl, h2, h1⟩
  obtain ⟨s, hs', rfl⟩ := hsl
  exact (baseId_eq_iff .slot s.name).2 (hs.names.slots s hs')

/-- the removed slots -/
theorem CleanStart.mem_ids (hs : Sync e) (hr : CleanStart e ids atts slots L g0 g1) (n : Str) :
    n ∈ ids ↔ (∃ s ∈ e.data.slots, s.name = n) ∧ (n ∈ slots ∨ Bare e.data atts n) := by
  rw [hr.hids, mem_setList, List.mem_append, List.mem_map]
  constructor
  · rintro (h | ⟨x, hx, rfl⟩)
    · exact ⟨unused_slots hr.unused n h, .inl h⟩
    · obtain ⟨n, rfl, hb, hsl, hbare, _⟩ := hr.L_ids hs hx
      rw [hb]; exact ⟨hsl, .inr hbare⟩
  · rintro ⟨hsl, h⟩
    by_cases hn : n ∈ slots
    · exact .inl hn
    · rcases h with h | h
      · exact .inl h
      · have hx := (hr.mem_L hs .slot n).2 ⟨rfl, hsl, hn, h⟩
        obtain ⟨m, e1, hb, _⟩ := hr.L_ids hs hx
        rw [(graphId_inj e1).2]
        exact .inr ⟨_, hx, by rw [← (graphId_inj e1).2, (graphId_inj e1).2]; exact (graphId_inj e1).2 ▸ hb⟩

/-- the slot nodes that survive -/
theorem CleanStart.slot_gone (hs : Sync e) (hr : CleanStart e ids atts slots L g0 g1) {n : Str}
    (hsl : ∃ s ∈ e.data.slots, s.name = n) : (graphId .slot n ∈ namedIds F slots atts ∨ graphId .slot n ∈ L) ↔ n ∈ ids := by
  rw [mem_namedIds, hr.mem_L hs, hr.mem_ids hs]
  constructor
  · rintro ((⟨_, h⟩ | ⟨h, _⟩) | ⟨_, _, _, h⟩)
    · exact ⟨hsl, .inl h⟩
    · cases h
    · exact ⟨hsl, .inr h⟩
  · rintro ⟨_, h | h⟩
    · exact .inl (.inl ⟨rfl, h⟩)
    · by_cases hn : n ∈ slots
      · exact .inl (.inl ⟨rfl, hn⟩)
      · exact .inr ⟨rfl, hsl, hn, h⟩

theorem CleanStart.nodes1 (hr : CleanStart e ids atts slots L g0 g1) :
    g1 = restrict e.graph (namedIds F slots atts ++ L) := by
  rw [hr.hg1, hr.hg0, restrict_restrict]; rfl

theorem CleanStart.slotNodes (hs : Sync e) (hr : CleanStart e ids atts slots L g0 g1) :
    All₂ (fun p (x : Slot F) => p.1 = graphId .slot x.name ∧ p.2.2 = x.toJson e.doc.version.is38) (nodesOf g1 .slot)
      (e.data.slots.filter (fun s => s.name ∉ ids)) := by
  rw [hr.nodes1, nodesOf_restrict]
  refine hs.slots.filter ?_
  intro p s _ hm ⟨h1, _⟩
  have := hr.slot_gone hs ⟨s, hm, rfl⟩
  rw [h1]
  simp only [List.mem_append, this]

/-- a surviving slot has an attachment, hence a bone -/
theorem CleanStart.survivor_bone (hs : Sync e) (hr : CleanStart e ids atts slots L g0 g1) {s : Slot F}
    (hm : s ∈ e.data.slots) (hn : s.name ∉ ids) : s.bone ≠ none := by
  rw [hr.mem_ids hs] at hn
  have hb : ¬ Bare e.data atts s.name := fun h => hn ⟨⟨s, hm, rfl⟩, .inr h⟩
  obtain ⟨k, hk⟩ := Classical.not_forall.1 hb
  obtain ⟨x, hx⟩ := Classical.not_forall.1 hk
  obtain ⟨h1, _⟩ := Classical.not_imp.1 hx
  obtain ⟨s', hs', hn', hbo⟩ := hs.slot_bone _ _ _ h1
  have : s' = s := nodup_map_inj hs.slotNames hs' hm hn'
  rw [← this]; exact hbo

/-- the slots read back -/
theorem CleanRun.ss_eq (hs : Sync e) (hr : CleanRun e e' ids atts slots L A B I g0 g1 g2 g3 bs ss is an) :
    ss = e.data.slots.filter (fun s => s.name ∉ ids) := by
  have h1 := (mapE_all₂ _ _ _).1 hr.hss
  rw [All₂.map_left] at h1
  refine All₂.trans_eq (f := fun p : Str × Int × JVal F => Slot.init p.2.2) h1 ?_
  have h2 := hr.slotNodes hs
  refine h2.mono' ?_
  intro p x _ hx ⟨_, e2⟩
  rw [List.mem_filter] at hx
  rw [e2]
  exact Slot.init_toJson _ _ (hr.survivor_bone hs hx.1 (by simpa using hx.2))

theorem CleanRun.result_slots (hs : Sync e) (hr : CleanRun e e' ids atts slots L A B I g0 g1 g2 g3 bs ss is an) :
    e'.data.slots = e.data.slots.filter (fun s => s.name ∉ ids) := by
  have h1 : e'.data.slots = (attsInSlots atts { e.data with slots := ss }).slots := by rw [hr.data]; rfl
  rw [h1, ← hr.ss_eq hs]
  show ss.map _ = ss
  rw [map_fixed_iff]
  intro s _
  split
  · rename_i t ht
    split
    · rename_i hm
      obtain ⟨slot, x, hx⟩ := unused_atts hr.unused _ hm
      exact absurd ⟨t, rfl⟩ (hs.names.keys _ _ _ hx)
    · rfl
  · rfl

/-- what is left of a skin -/
def cutSkin (ids atts : List Str) (s : Skin F) : Skin F :=
  { s with attachments := dmap (fun d => d.filter (fun p => p.1 ∉ atts)) (s.attachments.filter (fun p => p.1 ∉ ids)) }

theorem CleanRun.result_skins (hs : Sync e) (hr : CleanRun e e' ids atts slots L A B I g0 g1 g2 g3 bs ss is an) :
    e'.data.skins = e.data.skins.map (cutSkin ids atts) := by
  have h1 : e'.data.skins = (attsInSkins atts (slotsInSkins ids { e.data with skins := e.data.skins.map (·.setDefaults e.doc.version.is38) })).skins := by
    rw [hr.data]; rfl
  rw [h1, (AnimData.fixed_iff.1 hs.dflt).2.1]
  simp only [attsInSkins, slotsInSkins, List.map_map]
  rfl

/-- what is left of an animation before the deform timelines of removed attachments go -/
theorem CleanRun.result_an (hs : Sync e) (hr : CleanRun e e' ids atts slots L A B I g0 g1 g2 g3 bs ss is an) :
    All₂ (fun p q => q.1 = p.1 ∧ Anim.removeDrawOrder ids e.data.slots ((p.2.removeSlots ids).removeDeformSlots ids) = (.ok (), q.2))
      e.data.animations an := by
  have h := (mapMutD_ok _ _ _).1 hr.han
  rw [(AnimData.fixed_iff.1 hs.dflt).2.2.2.2.2.2] at h
  unfold dmap at h
  rw [All₂.map_left] at h
  exact h

theorem CleanRun.result_animations (hs : Sync e) (hr : CleanRun e e' ids atts slots L A B I g0 g1 g2 g3 bs ss is an) :
    e'.data.animations = (e.data.skins.map (·.name)).foldl (fun an n => dmap (Anim.removeDeformAtts atts n) an) an := by
  have h1 : e'.data.animations = (slotsInSkins ids { e.data with skins := e.data.skins.map (·.setDefaults e.doc.version.is38) }).skins.foldl
      (fun an s => dmap (Anim.removeDeformAtts atts s.name) an) an := by
    rw [hr.data]; rfl
  rw [h1, (AnimData.fixed_iff.1 hs.dflt).2.1]
  simp only [slotsInSkins, List.foldl_map]

theorem mem_cutSkin {ids atts : List Str} {s : Skin F} {slot key : Str} {x : Att F} :
    (∃ d, (slot, d) ∈ (cutSkin ids atts s).attachments ∧ (key, x) ∈ d) ↔
      (∃ d, (slot, d) ∈ s.attachments ∧ (key, x) ∈ d) ∧ slot ∉ ids ∧ key ∉ atts := by
  unfold cutSkin
  constructor
  · rintro ⟨d, h, hx⟩
    obtain ⟨d0, h0, rfl⟩ := (mem_dmap _ _ _ _).1 h
    rw [List.mem_filter] at h0 hx
    exact ⟨⟨d0, h0.1, hx.1⟩, by simpa using h0.2, by simpa using hx.2⟩
  · rintro ⟨⟨d, h, hx⟩, h1, h2⟩
    refine ⟨_, (mem_dmap _ _ _ _).2 ⟨d, List.mem_filter.2 ⟨h, by simpa using h1⟩, rfl⟩, List.mem_filter.2 ⟨hx, by simpa using h2⟩⟩

theorem CleanRun.hasAtt (hs : Sync e) (hr : CleanRun e e' ids atts slots L A B I g0 g1 g2 g3 bs ss is an) (slot key : Str) (x : Att F) :
    e'.data.HasAtt slot key x ↔ e.data.HasAtt slot key x ∧ slot ∉ ids ∧ key ∉ atts := by
  unfold AnimData.HasAtt
  rw [hr.result_skins hs]
  constructor
  · rintro ⟨s, hm, h⟩
    obtain ⟨s0, hm0, rfl⟩ := List.mem_map.1 hm
    obtain ⟨h, h1, h2⟩ := mem_cutSkin.1 h
    exact ⟨⟨s0, hm0, h⟩, h1, h2⟩
  · rintro ⟨⟨s, hm, h⟩, h1, h2⟩
    exact ⟨_, List.mem_map_of_mem hm, mem_cutSkin.2 ⟨h, h1, h2⟩⟩

/-! ### The graph after cleaning -/

theorem CleanRun.graph_eq (hr : CleanRun e e' ids atts slots L A B I g0 g1 g2 g3 bs ss is an) :
    e'.graph = restrict e.graph (((namedIds F slots atts ++ L) ++ A) ++ B ++ I) := by
  rw [hr.graph, hr.hg3, hr.hg2, hr.nodes1]
  simp only [restrict_restrict, List.append_assoc]

theorem CleanRun.typeA (hs : Sync e) (hr : CleanRun e e' ids atts slots L A B I g0 g1 g2 g3 bs ss is an) {t : NType} {n : Str}
    (h : graphId t n ∈ A) : t = .attachment := by
  cases (hr.hA _).1 h with | mk hn ht _ => exact ((hr.core1 hs).typed' hn).symm.trans ht

theorem CleanRun.typeB (hs : Sync e) (hr : CleanRun e e' ids atts slots L A B I g0 g1 g2 g3 bs ss is an) {t : NType} {n : Str}
    (h : graphId t n ∈ B) : t = .attachment := by
  cases (hr.hB _).1 h with | mk hn ht _ => exact ((hr.core2 hs).typed' hn).symm.trans ht

theorem CleanRun.typeI (hs : Sync e) (hr : CleanRun e e' ids atts slots L A B I g0 g1 g2 g3 bs ss is an) {t : NType} {n : Str}
    (h : graphId t n ∈ I) : t = .image := by
  cases (hr.hI _).1 h with | mk hn ht _ => exact ((hr.core3 hs).typed' hn).symm.trans ht

/-- removing nodes of one type by the absence of nodes of another type -/
theorem doomed_edge {b : Bool} {g : SGraph F} (hc : Core b g) {t : NType} {n : Str} (hn : HasNode g (graphId t n))
    (hp : ∀ p, Edge g p (graphId t n) → ∃ u m, u ≠ t ∧ p = graphId u m) :
    Doomed g Node.parents t (graphId t n) ↔ ∀ p, ¬ Edge g p (graphId t n) := by
  obtain ⟨nd, hnd⟩ := hn
  have back : ∀ p, p ∈ nd.parents ↔ Edge g p (graphId t n) := by
    intro p
    constructor
    · intro h
      obtain ⟨m, hm, hc⟩ := hc.wf.parent_link hnd h
      exact ⟨m, hm, hc⟩
    · rintro ⟨m, hm, hy⟩
      obtain ⟨nd', hn', hp⟩ := hc.wf.child_link hm hy
      rw [hnd] at hn'; injection hn' with hn'; subst hn'
      exact hp
  rw [doomed_iff_rel_nil hc hnd (hc.typed' hnd) (fun y hy => hp y ((back y).1 hy))]
  constructor
  · intro h p hp
    rw [← back, h] at hp; cases hp
  · intro h
    cases hl : nd.parents with
    | nil => rfl
    | cons y l => exact absurd ((back y).1 (by simp [hl])) (h y)

theorem doomed_edge_down {b : Bool} {g : SGraph F} (hc : Core b g) {t : NType} {n : Str} (hn : HasNode g (graphId t n))
    (hp : ∀ p, Edge g (graphId t n) p → ∃ u m, u ≠ t ∧ p = graphId u m) :
    Doomed g Node.children t (graphId t n) ↔ ∀ p, ¬ Edge g (graphId t n) p := by
  obtain ⟨nd, hnd⟩ := hn
  rw [doomed_iff_rel_nil hc hnd (hc.typed' hnd) (fun y hy => hp y ⟨nd, hnd, hy⟩), rel_nil_iff_edge hnd]

theorem CleanRun.edge1 (hs : Sync e) (hr : CleanRun e e' ids atts slots L A B I g0 g1 g2 g3 bs ss is an) {slot k : Str} {x : Att F}
    (h : e.data.HasAtt slot k x) (h1 : slot ∉ ids) (h2 : k ∉ atts) : Edge g1 (graphId .slot slot) (graphId .attachment k) := by
  rw [hr.nodes1, edge_restrict]
  obtain ⟨s, hm, e1, _⟩ := hs.slot_bone _ _ _ h
  refine ⟨hs.edge_of _ _ _ h, ?_, ?_⟩
  · rw [List.mem_append, hr.slot_gone hs ⟨s, hm, e1⟩]; exact h1
  · rw [List.mem_append, mem_namedIds, hr.mem_L hs]
    rintro ((⟨h, _⟩ | ⟨_, h⟩) | ⟨h, _⟩)
    · cases h
    · exact h2 h
    · cases h

theorem CleanRun.edgeImg (hs : Sync e) (hr : CleanRun e e' ids atts slots L A B I g0 g1 g2 g3 bs ss is an) {slot k i : Str} {x : Att F}
    (h : e.data.HasAtt slot k x) (h2 : k ∉ atts) (hi : ImageName k x i) : Edge g1 (graphId .attachment k) (graphId .image i) := by
  rw [hr.nodes1, edge_restrict]
  refine ⟨hs.img_of _ _ _ _ h hi, ?_, ?_⟩
  · rw [List.mem_append, mem_namedIds, hr.mem_L hs]
    rintro ((⟨h, _⟩ | ⟨_, h⟩) | ⟨h, _⟩)
    · cases h
    · exact h2 h
    · cases h
  · rw [List.mem_append, mem_namedIds, hr.mem_L hs]
    rintro ((⟨h, _⟩ | ⟨h, _⟩) | ⟨h, _⟩) <;> cases h

/-- attachments in use are not detached -/
theorem CleanRun.notA (hs : Sync e) (hr : CleanRun e e' ids atts slots L A B I g0 g1 g2 g3 bs ss is an) {slot k : Str} {x : Att F}
    (h : e.data.HasAtt slot k x) (h1 : slot ∉ ids) (h2 : k ∉ atts) : graphId .attachment k ∉ A := by
  have he := hr.edge1 hs h h1 h2
  rw [hr.hA, doomed_edge (hr.core1 hs) (wf_edge_nodes (hr.core1 hs).wf he).2]
  · intro hno; exact hno _ he
  · intro p hp
    rw [hr.nodes1, edge_restrict] at hp
    obtain ⟨m, rfl⟩ := hs.att_parent _ _ hp.1
    exact ⟨.slot, m, by decide, rfl⟩

theorem CleanRun.edge2 (hs : Sync e) (hr : CleanRun e e' ids atts slots L A B I g0 g1 g2 g3 bs ss is an) {slot k : Str} {x : Att F}
    (h : e.data.HasAtt slot k x) (h1 : slot ∉ ids) (h2 : k ∉ atts) : Edge g2 (graphId .slot slot) (graphId .attachment k) := by
  rw [hr.hg2, edge_restrict]
  exact ⟨hr.edge1 hs h h1 h2, fun h => (by cases hr.typeA hs h), hr.notA hs h h1 h2⟩

theorem CleanRun.edgeImg2 (hs : Sync e) (hr : CleanRun e e' ids atts slots L A B I g0 g1 g2 g3 bs ss is an) {slot k i : Str} {x : Att F}
    (h : e.data.HasAtt slot k x) (h1 : slot ∉ ids) (h2 : k ∉ atts) (hi : ImageName k x i) :
    Edge g2 (graphId .attachment k) (graphId .image i) := by
  rw [hr.hg2, edge_restrict]
  exact ⟨hr.edgeImg hs h h2 hi, hr.notA hs h h1 h2, fun h => (by cases hr.typeA hs h)⟩

theorem CleanRun.notB (hs : Sync e) (hr : CleanRun e e' ids atts slots L A B I g0 g1 g2 g3 bs ss is an) {slot k : Str} {x : Att F}
    (h : e.data.HasAtt slot k x) (h1 : slot ∉ ids) (h2 : k ∉ atts) : graphId .attachment k ∉ B := by
  obtain ⟨i, hi⟩ := ImageName.exists k x
  have he := hr.edgeImg2 hs h h1 h2 hi
  rw [hr.hB, doomed_edge_down (hr.core2 hs) (wf_edge_nodes (hr.core2 hs).wf he).1]
  · intro hno; exact hno _ he
  · intro p hp
    rw [hr.hg2, edge_restrict, hr.nodes1, edge_restrict] at hp
    obtain ⟨m, rfl⟩ := hs.att_child _ _ hp.1.1
    exact ⟨.image, m, by decide, rfl⟩

theorem CleanRun.edgeImg3 (hs : Sync e) (hr : CleanRun e e' ids atts slots L A B I g0 g1 g2 g3 bs ss is an) {slot k i : Str} {x : Att F}
    (h : e.data.HasAtt slot k x) (h1 : slot ∉ ids) (h2 : k ∉ atts) (hi : ImageName k x i) :
    Edge g3 (graphId .attachment k) (graphId .image i) := by
  rw [hr.hg3, edge_restrict]
  exact ⟨hr.edgeImg2 hs h h1 h2 hi, hr.notB hs h h1 h2, fun h => (by cases hr.typeB hs h)⟩

theorem CleanRun.notI (hs : Sync e) (hr : CleanRun e e' ids atts slots L A B I g0 g1 g2 g3 bs ss is an) {slot k i : Str} {x : Att F}
    (h : e.data.HasAtt slot k x) (h1 : slot ∉ ids) (h2 : k ∉ atts) (hi : ImageName k x i) : graphId .image i ∉ I := by
  have he := hr.edgeImg3 hs h h1 h2 hi
  rw [hr.hI, doomed_edge (hr.core3 hs) (wf_edge_nodes (hr.core3 hs).wf he).2]
  · intro hno; exact hno _ he
  · intro p hp
    rw [hr.hg3, edge_restrict, hr.hg2, edge_restrict, hr.nodes1, edge_restrict] at hp
    obtain ⟨m, rfl⟩ := hs.img_parent _ _ hp.1.1.1
    exact ⟨.attachment, m, by decide, rfl⟩

/-- an image in use is not among the removed images -/
theorem CleanRun.imageKept (hs : Sync e) (hr : CleanRun e e' ids atts slots L A B I g0 g1 g2 g3 bs ss is an) {slot k i : Str} {x : Att F}
    (h : e.data.HasAtt slot k x) (h1 : slot ∉ ids) (h2 : k ∉ atts) (hi : ImageName k x i) : i ∉ I.map (baseId .image) := by
  intro hm
  obtain ⟨y, hy, e1⟩ := List.mem_map.1 hm
  have hd := (hr.hI y).1 hy
  obtain ⟨nd, hn, ht⟩ : ∃ nd, getNode g3 y = some nd ∧ nd.ntype = .image := by
    cases hd with | mk hn ht _ => exact ⟨_, hn, ht⟩
  obtain ⟨_, j, rfl⟩ := (hr.core3 hs).typed y nd hn
  rw [ht] at hy hn e1
  have hnode : HasNode e.graph (graphId .image j) := by
    have : HasNode g3 (graphId .image j) := ⟨nd, hn⟩
    rw [hr.hg3, hasNode_restrict, hr.hg2, hasNode_restrict, hr.nodes1, hasNode_restrict] at this
    exact this.1.1.1
  rw [(baseId_eq_iff .image j).2 (hs.imgs j hnode)] at e1
  subst e1
  exact hr.notI hs h h1 h2 hi hy

theorem CleanRun.survive (hs : Sync e) (hr : CleanRun e e' ids atts slots L A B I g0 g1 g2 g3 bs ss is an) {slot k : Str} {x : Att F}
    (h : e.data.HasAtt slot k x) (h1 : slot ∉ ids) (h2 : k ∉ atts) : Edge e'.graph (graphId .slot slot) (graphId .attachment k) := by
  rw [hr.graph, edge_restrict, hr.hg3, edge_restrict]
  exact ⟨⟨hr.edge2 hs h h1 h2, fun h => (by cases hr.typeB hs h), hr.notB hs h h1 h2⟩, fun h => (by cases hr.typeI hs h),
    fun h => (by cases hr.typeI hs h)⟩

theorem CleanRun.an_fixed (hs : Sync e) (hr : CleanRun e e' ids atts slots L A B I g0 g1 g2 g3 bs ss is an) :
    dmap (·.setDefaults e.doc.version.is38) e'.data.animations = e'.data.animations := by
  rw [hr.result_animations hs]
  have h0 : dmap (·.setDefaults e.doc.version.is38) an = an := by
    rw [dmap_fixed_iff]
    intro q hq
    obtain ⟨p, hp, _, h⟩ := (hr.result_an hs).right hq
    refine Anim.fixed_removeDrawOrder (Anim.fixed_removeSlots ids ?_) h
    exact dmap_fixed_iff.1 (AnimData.fixed_iff.1 hs.dflt).2.2.2.2.2.2 p hp
  generalize e.data.skins.map (·.name) = l
  clear hr
  induction l generalizing an with
  | nil => exact h0
  | cons n l ih =>
    rw [List.foldl_cons]
    exact ih (dmap_fixed_dmap h0 (fun x hx => Anim.fixed_removeDeformAtts atts n hx))

theorem CleanRun.result_events (hs : Sync e) (hr : CleanRun e e' ids atts slots L A B I g0 g1 g2 g3 bs ss is an) :
    e'.data.events = e.data.events ∧ e'.data.transform = e.data.transform ∧ e'.data.path = e.data.path := by
  obtain ⟨_, _, h3, _, h5, h6, _⟩ := AnimData.fixed_iff.1 hs.dflt
  have e1 : e'.data.events = dmap (eventsCls.setDefaults e.doc.version.is38) e.data.events := by rw [hr.data]; rfl
  have e2 : e'.data.transform = e.data.transform.map (transformCls.setDefaults e.doc.version.is38) := by rw [hr.data]; rfl
  have e3 : e'.data.path = e.data.path.map (pathCls.setDefaults e.doc.version.is38) := by rw [hr.data]; rfl
  rw [e1, e2, e3, h3, h5, h6]
  exact ⟨rfl, rfl, rfl⟩

theorem CleanRun.result_bones (hr : CleanRun e e' ids atts slots L A B I g0 g1 g2 g3 bs ss is an) :
    e'.data.bones = bs.map (·.setDefaults e.doc.version.is38) ∧ e'.data.ik = is.map (ikCls.setDefaults e.doc.version.is38) := by
  rw [hr.data]; exact ⟨rfl, rfl⟩

theorem Anim.keys_removeDeformAtts (ids : List Str) (skin : Str) (x : Anim F) :
    (x.removeDeformAtts ids skin).slots = x.slots ∧ Dict.keys (x.removeDeformAtts ids skin).deform = Dict.keys x.deform := by
  unfold Anim.removeDeformAtts
  split
  · exact ⟨rfl, rfl⟩
  · rename_i d hd
    refine ⟨rfl, ?_⟩
    show Dict.keys (Dict.set _ _ _) = _
    rw [Dict.keys_set, if_pos (Dict.mem_keys_of_get? hd)]

theorem CleanRun.anims (hs : Sync e) (hr : CleanRun e e' ids atts slots L A B I g0 g1 g2 g3 bs ss is an) : e'.data.DistinctAnims := by
  have h0 : (∀ q ∈ an, (Dict.keys q.2.slots).Nodup ∧ (Dict.keys q.2.deform).Nodup) ∧ (Dict.keys an).Nodup := by
    have h := hr.result_an hs
    constructor
    · intro q hq
      obtain ⟨p, hp, _, h⟩ := h.right hq
      unfold Anim.removeDrawOrder at h
      simp only [Prod.mk.injEq] at h
      obtain ⟨_, h⟩ := h
      rw [← h]
      refine ⟨(hs.anims.slots p hp).sublist (List.filter_sublist.map _), ?_⟩
      show (Dict.keys (dmap _ _)).Nodup
      rw [keys_dmap]
      exact hs.anims.deform p hp
    · have : Dict.keys an = Dict.keys e.data.animations := by
        unfold Dict.keys
        exact (h.map_eq (f := fun p => p.1) (g := fun p => p.1) (fun _ _ h => h.1.symm)).symm
      rw [this]; exact hs.anims.names
  have key : ∀ (l : List Str) (an : Dict (Anim F)), ((∀ q ∈ an, (Dict.keys q.2.slots).Nodup ∧ (Dict.keys q.2.deform).Nodup) ∧ (Dict.keys an).Nodup) →
      ((∀ q ∈ l.foldl (fun an n => dmap (Anim.removeDeformAtts atts n) an) an, (Dict.keys q.2.slots).Nodup ∧ (Dict.keys q.2.deform).Nodup) ∧
        (Dict.keys (l.foldl (fun an n => dmap (Anim.removeDeformAtts atts n) an) an)).Nodup) := by
    intro l
    induction l with
    | nil => intro an h; exact h
    | cons n l ih =>
      intro an h
      rw [List.foldl_cons]
      apply ih
      rw [keys_dmap]
      refine ⟨?_, h.2⟩
      rintro ⟨k, v⟩ hq
      obtain ⟨x, hx, rfl⟩ := (mem_dmap _ _ _ _).1 hq
      have := Anim.keys_removeDeformAtts atts n x
      simp only [this.1, this.2]
      exact h.1 _ hx
  have := key (e.data.skins.map (·.name)) an h0
  rw [← hr.result_animations hs] at this
  exact ⟨fun p hp => (this.1 p hp).1, fun p hp => (this.1 p hp).2, this.2⟩

theorem CleanRun.sync (hs : Sync e) (hec : ECore e') (hr : CleanRun e e' ids atts slots L A B I g0 g1 g2 g3 bs ss is an) : Sync e' := by
  have hsub : ∀ {x y}, Edge e'.graph x y → Edge e.graph x y := by
    intro x y h; rw [hr.graph_eq, edge_restrict] at h; exact h.1
  refine ⟨hec, ?_, ?_, ?_, ?_, ?_, ?_, ?_, ?_, ?_, ?_, ⟨?_, ?_, ?_⟩, ?_, ?_, ?_, hr.anims hs⟩
  · rw [hr.version, AnimData.fixed_iff]
    obtain ⟨h1, h2, h3, h4, h5, h6, h7⟩ := AnimData.fixed_iff.1 hs.dflt
    refine ⟨?_, ?_, ?_, ?_, ?_, ?_, hr.an_fixed hs⟩
    · rw [hr.result_bones.1]; exact map_idem (Bone.setDefaults_idem _) _
    · rw [hr.result_skins hs, map_fixed_iff]
      intro s hm
      obtain ⟨s0, hm0, rfl⟩ := List.mem_map.1 hm
      rw [map_fixed_iff] at h2
      have := Skin.fixed_iff.1 (h2 s0 hm0)
      rw [Skin.fixed_iff]
      rintro ⟨slot, d⟩ hp ⟨k, x⟩ hq
      obtain ⟨⟨d0, hd0, hx0⟩, _⟩ := mem_cutSkin.1 ⟨d, hp, hq⟩
      exact this _ hd0 _ hx0
    · rw [(hr.result_events hs).1]; exact h3
    · rw [hr.result_bones.2]; exact map_idem (Cls.setDefaults_idem _ _) _
    · rw [(hr.result_events hs).2.1]; exact h5
    · rw [(hr.result_events hs).2.2]; exact h6
  · rw [hr.version, hr.result_slots hs]
    have : nodesOf e'.graph .slot = nodesOf g1 .slot := by
      rw [hr.graph, nodesOf_restrict_other (hr.core3 hs).wf, hr.hg3, nodesOf_restrict_other (hr.core2 hs).wf, hr.hg2,
        nodesOf_restrict_other (hr.core1 hs).wf]
      · intro x hx nd hn ht
        cases (hr.hA x).1 hx with | mk hn' ht' _ => rw [hn] at hn'; injection hn' with hn'; subst hn'; rw [ht] at ht'; cases ht'
      · intro x hx nd hn ht
        cases (hr.hB x).1 hx with | mk hn' ht' _ => rw [hn] at hn'; injection hn' with hn'; subst hn'; rw [ht] at ht'; cases ht'
      · intro x hx nd hn ht
        cases (hr.hI x).1 hx with | mk hn' ht' _ => rw [hn] at hn'; injection hn' with hn'; subst hn'; rw [ht] at ht'; cases ht'
    rw [this]
    exact hr.slotNodes hs
  · intro slot k x h
    obtain ⟨h, h1, h2⟩ := (hr.hasAtt hs _ _ _).1 h
    exact hr.survive hs h h1 h2
  · intro n y h
    have h' := h
    rw [hr.graph_eq, edge_restrict] at h'
    obtain ⟨k, x, rfl, hx⟩ := hs.edge_slot n y h'.1
    obtain ⟨s, hm, hn, _⟩ := hs.slot_bone _ _ _ hx
    refine ⟨k, x, rfl, (hr.hasAtt hs _ _ _).2 ⟨hx, ?_, ?_⟩⟩
    · rw [← hr.slot_gone hs ⟨s, hm, hn⟩, ← List.mem_append]
      intro hc; exact h'.2.1 (by simp only [List.mem_append] at hc ⊢; grind)
    · intro hc
      have : graphId .attachment k ∈ namedIds F slots atts := mem_namedIds.2 (.inr ⟨rfl, hc⟩)
      exact h'.2.2 (by simp [this])
  · intro p k h; exact hs.att_parent _ _ (hsub h)
  · intro k c h; exact hs.att_child _ _ (hsub h)
  · intro p i h; exact hs.img_parent _ _ (hsub h)
  · intro slot k x i h hi
    obtain ⟨h, h1, h2⟩ := (hr.hasAtt hs _ _ _).1 h
    rw [hr.graph, edge_restrict]
    exact ⟨hr.edgeImg3 hs h h1 h2 hi, fun h => (by cases hr.typeI hs h), hr.notI hs h h1 h2 hi⟩
  · intro slot k x h
    obtain ⟨h, h1, h2⟩ := (hr.hasAtt hs _ _ _).1 h
    obtain ⟨s, hm, hn, hb⟩ := hs.slot_bone _ _ _ h
    refine ⟨s, ?_, hn, hb⟩
    rw [hr.result_slots hs, List.mem_filter]
    exact ⟨hm, by subst hn; simpa using h1⟩
  · rintro i ⟨slot, k, x, h, hk, hi⟩
    obtain ⟨h, h1, h2⟩ := (hr.hasAtt hs _ _ _).1 h
    have := hs.cover i ⟨slot, k, x, h, hk, hi⟩
    rw [hr.images]
    obtain ⟨⟨j, r⟩, hp, rfl⟩ := List.mem_map.1 this
    exact List.mem_map.2 ⟨(j, r), List.mem_filter.2 ⟨hp, by simpa using hr.imageKept hs h h1 h2 hi⟩, rfl⟩
  · intro s hm
    rw [hr.result_slots hs, List.mem_filter] at hm
    exact hs.names.slots s hm.1
  · intro slot k x i h hi
    exact hs.names.images _ _ _ _ ((hr.hasAtt hs _ _ _).1 h).1 hi
  · intro slot k x h
    exact hs.names.keys _ _ _ ((hr.hasAtt hs _ _ _).1 h).1
  · intro i h
    rw [hr.graph_eq, hasNode_restrict] at h
    exact hs.imgs i h.1
  · intro s hm
    rw [hr.result_skins hs] at hm
    obtain ⟨s0, hm0, rfl⟩ := List.mem_map.1 hm
    show (Dict.keys (dmap _ _)).Nodup
    rw [keys_dmap]
    exact (hs.distinct s0 hm0).sublist (List.filter_sublist.map _)
  · intro slot k x h
    exact hs.sane _ _ _ ((hr.hasAtt hs _ _ _).1 h).1

theorem sync_clean {r : List Str × List Str} (hs : Sync e) (h : clean e = (.ok r, e')) : Sync e' := by
  obtain ⟨slots, L, A, B, I, g0, g1, g2, g3, bs, ss, is, an, hr⟩ := clean_run hs.core (ids := r.1) (atts := r.2) h
  have := (clean_any hs.ecore).choose_spec.2.2.1
  rw [h] at this
  exact hr.sync hs this

end Editor
end Spine
