import Verif.Lemmas.Weak
import Verif.Spec.Sample
/-
C38–C43 and C55: `clean_animation`.

The editors considered are those of `Ran`: loaded from a document whose names do not contain the suffixes of the graph ids, then
changed by any history of calls.  Without the hypothesis on the names the properties are false; the counterexamples are below.
-/
set_option linter.unusedSectionVars false
set_option linter.unusedSimpArgs false
namespace Spine
open JVal Graph Container
variable {F : Type} [PyRt F]
namespace Editor
variable {e e' : Editor F} {ids atts : List Str}

/-! ## Specification -/

/-- the skin has the attachment `x` under `key` for the slot -/
def _root_.Spine.Skin.Has (s : Skin F) (slot key : Str) (x : Att F) : Prop := ∃ d, (slot, d) ∈ s.attachments ∧ (key, x) ∈ d

/-- the slot named `n` is shown in some animation -/
def SlotShown (a : AnimData F) (n : Str) : Prop := ∃ s ∈ a.slots, s.name = n ∧ a.Shown s

/-- no animation uses the name, and it names something else than meshes of shown slots: cleaning removes it everywhere -/
def Unneeded (a : AnimData F) (k : Str) : Prop :=
  ¬ a.Uses k ∧ ∃ slot x, a.HasAtt slot k x ∧ ¬ (x.kind = .mesh ∧ SlotShown a slot)

/-! ## Proofs -/

theorem clean_start (hr : Ran e) (h : clean e = (.ok (ids, atts), e')) :
    ∃ slots L A B I g0 g1 g2 g3 bs ss is an, CleanRun e e' ids atts slots L A B I g0 g1 g2 g3 bs ss is an :=
  clean_run hr.sync.core h

theorem mem_atts (hs : Sync e) (h : clean e = (.ok (ids, atts), e')) (k : Str) : k ∈ atts ↔ Unneeded e.data k := by
  obtain ⟨slots, L, A, B, I, g0, g1, g2, g3, bs, ss, is, an, hr⟩ := clean_run hs.core h
  rw [(AnimData.unused_spec hs.slotNames hs.anims.slots hr.unused).2]
  refine and_congr Iff.rfl ?_
  constructor
  · rintro ⟨slot, x, hx, hno⟩
    refine ⟨slot, x, hx, fun ⟨hm, s, hs', e1, hsh⟩ => hno ⟨hm, ?_⟩⟩
    rintro ⟨s', hs'', e2, hsh'⟩
    exact hsh' (by rw [nodup_map_inj hs.slotNames hs'' hs' (e2.trans e1.symm)]; exact hsh)
  · rintro ⟨slot, x, hx, hno⟩
    refine ⟨slot, x, hx, fun ⟨hm, hsh⟩ => hno ⟨hm, ?_⟩⟩
    obtain ⟨s, hs', e1, _⟩ := hs.slot_bone _ _ _ hx
    exact ⟨s, hs', e1, Classical.not_not.1 (fun h => hsh ⟨s, hs', e1, h⟩)⟩

theorem mem_ids (hs : Sync e) (h : clean e = (.ok (ids, atts), e')) (n : Str) :
    n ∈ ids ↔ ∃ s ∈ e.data.slots, s.name = n ∧ (¬ e.data.Shown s ∨ ¬ ∃ k x, e.data.HasAtt n k x ∧ k ∉ atts) := by
  obtain ⟨slots, L, A, B, I, g0, g1, g2, g3, bs, ss, is, an, hr⟩ := clean_run hs.core h
  rw [hr.mem_ids hs, (AnimData.unused_spec hs.slotNames hs.anims.slots hr.unused).1]
  have hb : Bare e.data atts n ↔ ¬ ∃ k x, e.data.HasAtt n k x ∧ k ∉ atts := by
    unfold Bare
    constructor
    · rintro h ⟨k, x, hx, hk⟩; exact hk (h k x hx)
    · intro h k x hx; exact Classical.not_not.1 (fun hk => h ⟨k, x, hx, hk⟩)
  rw [hb]
  constructor
  · rintro ⟨⟨s, hs', rfl⟩, ⟨s', hs'', e1, hsh⟩ | hno⟩
    · rw [nodup_map_inj hs.slotNames hs'' hs' e1] at hsh; exact ⟨s, hs', rfl, .inl hsh⟩
    · exact ⟨s, hs', rfl, .inr hno⟩
  · rintro ⟨s, hs', rfl, hsh | hno⟩
    · exact ⟨⟨s, hs', rfl⟩, .inl ⟨s, hs', rfl, hsh⟩⟩
    · exact ⟨⟨s, hs', rfl⟩, .inr hno⟩

theorem result_slots (hs : Sync e) (h : clean e = (.ok (ids, atts), e')) :
    e'.data.slots = e.data.slots.filter (fun s => s.name ∉ ids) := by
  obtain ⟨slots, L, A, B, I, g0, g1, g2, g3, bs, ss, is, an, hr⟩ := clean_run hs.core h
  exact hr.result_slots hs

theorem result_skins (hs : Sync e) (h : clean e = (.ok (ids, atts), e')) :
    e'.data.skins = e.data.skins.map (cutSkin ids atts) := by
  obtain ⟨slots, L, A, B, I, g0, g1, g2, g3, bs, ss, is, an, hr⟩ := clean_run hs.core h
  exact hr.result_skins hs

theorem result_hasAtt (hs : Sync e) (h : clean e = (.ok (ids, atts), e')) (slot k : Str) (x : Att F) :
    e'.data.HasAtt slot k x ↔ e.data.HasAtt slot k x ∧ slot ∉ ids ∧ k ∉ atts := by
  obtain ⟨slots, L, A, B, I, g0, g1, g2, g3, bs, ss, is, an, hr⟩ := clean_run hs.core h
  exact hr.hasAtt hs slot k x

/-! ## C38 -/

/-- C38: the slots are the previous ones minus the removed ones, in the same order and with all their attributes.
Missing: names that contain the suffixes of the graph ids, for which it is false (`c38_counterexample`). -/
theorem c38_slots_partial (hr : Ran e) (h : clean e = (.ok (ids, atts), e')) :
    e'.data.slots = e.data.slots.filter (fun s => s.name ∉ ids) := result_slots hr.sync h

/-! ## C39 -/

/-- C39: the returned list contains exactly the slots that are shown in no animation, and those without an attachment that is
kept.  Missing: names that contain the suffixes of the graph ids, for which it is false (`c39_counterexample`). -/
theorem c39_returned_partial (hr : Ran e) (h : clean e = (.ok (ids, atts), e')) (n : Str) :
    n ∈ ids ↔ ∃ s ∈ e.data.slots, s.name = n ∧ (¬ e.data.Shown s ∨ ¬ ∃ k x, e.data.HasAtt n k x ∧ k ∉ atts) :=
  mem_ids hr.sync h n

/-- C39: a slot stays in the document exactly when it is shown in some animation and one of its attachments is kept. -/
theorem c39_kept_partial (hr : Ran e) (h : clean e = (.ok (ids, atts), e')) (s : Slot F) :
    s ∈ e'.data.slots ↔ s ∈ e.data.slots ∧ e.data.Shown s ∧ ∃ k x, e.data.HasAtt s.name k x ∧ ¬ Unneeded e.data k := by
  have hk : ∀ k, ¬ Unneeded e.data k ↔ k ∉ atts := fun k => by rw [mem_atts hr.sync h k]
  simp only [hk]
  rw [result_slots hr.sync h, List.mem_filter]
  refine and_congr_right (fun hm => ?_)
  rw [decide_eq_true_iff, mem_ids hr.sync h]
  constructor
  · intro hno
    constructor
    · exact Classical.not_not.1 (fun hs => hno ⟨s, hm, rfl, .inl hs⟩)
    · exact Classical.not_not.1 (fun hs => hno ⟨s, hm, rfl, .inr hs⟩)
  · rintro ⟨h1, h2⟩ ⟨s', hs', e1, h3 | h3⟩
    · rw [nodup_map_inj hr.sync.slotNames hs' hm e1] at h3; exact h3 h1
    · exact h3 h2

/-- every slot named in the returned list is gone, and no other -/
theorem c39_list_is_difference_partial (hr : Ran e) (h : clean e = (.ok (ids, atts), e')) (n : Str) :
    n ∈ ids ↔ (∃ s ∈ e.data.slots, s.name = n) ∧ ¬ ∃ s ∈ e'.data.slots, s.name = n := by
  rw [result_slots hr.sync h]
  constructor
  · intro hn
    obtain ⟨s, hs, e1, _⟩ := (mem_ids hr.sync h n).1 hn
    refine ⟨⟨s, hs, e1⟩, ?_⟩
    rintro ⟨s', hs', rfl⟩
    have := (List.mem_filter.1 hs').2
    simp [hn] at this
  · rintro ⟨⟨s, hs, rfl⟩, hno⟩
    apply Classical.byContradiction
    intro hn
    exact hno ⟨s, List.mem_filter.2 ⟨hs, by simpa using hn⟩, rfl⟩

/-! ## C40 -/

/-- C40: in every skin, an attachment whose name is used by an animation stays on every slot that stays.
Missing: names that contain the suffixes of the graph ids (`c40_counterexample`). -/
theorem c40_used_kept_partial (hr : Ran e) (h : clean e = (.ok (ids, atts), e')) :
    All₂ (fun s s' : Skin F => s'.name = s.name ∧ ∀ slot k x, e.data.Uses k → (∃ t ∈ e'.data.slots, t.name = slot) →
      s.Has slot k x → s'.Has slot k x) e.data.skins e'.data.skins := by
  rw [result_skins hr.sync h, All₂.map_right]
  have key : ∀ s : Skin F, s ∈ e.data.skins → ((cutSkin ids atts s).name = s.name ∧ ∀ slot k x, e.data.Uses k →
      (∃ t ∈ e'.data.slots, t.name = slot) → s.Has slot k x → (cutSkin ids atts s).Has slot k x) := by
    intro s _
    refine ⟨rfl, ?_⟩
    intro slot k x hu ⟨t, ht, e1⟩ hx
    refine mem_cutSkin.2 ⟨hx, ?_, ?_⟩
    · rw [result_slots hr.sync h, List.mem_filter] at ht
      rw [← e1]; simpa using ht.2
    · intro hk
      exact ((mem_atts hr.sync h k).1 hk).1 hu
  clear h
  generalize e.data.skins = l at key
  induction l with
  | nil => exact .nil
  | cons s l ih => exact .cons (key s (by simp)) (ih (fun s hs => key s (by simp [hs])))

/-- exactly these attachments are left: those of slots that stay whose name is not removed -/
theorem c40_left_iff_partial (hr : Ran e) (h : clean e = (.ok (ids, atts), e')) (slot k : Str) (x : Att F) :
    e'.data.HasAtt slot k x ↔ e.data.HasAtt slot k x ∧ SlotShown e.data slot ∧ ¬ Unneeded e.data k := by
  rw [result_hasAtt hr.sync h, ← mem_atts hr.sync h]
  refine and_congr_right (fun hx => ?_)
  obtain ⟨s, hs, e1, _⟩ := hr.sync.slot_bone _ _ _ hx
  rw [mem_ids hr.sync h]
  constructor
  · rintro ⟨h1, h2⟩
    refine ⟨⟨s, hs, e1, Classical.not_not.1 (fun hn => h1 ⟨s, hs, e1, .inl hn⟩)⟩, h2⟩
  · rintro ⟨⟨s', hs', e2, hsh⟩, h2⟩
    refine ⟨?_, h2⟩
    rintro ⟨s'', hs'', e3, h3 | h3⟩
    · rw [nodup_map_inj hr.sync.slotNames hs'' hs' (e3.trans e2.symm)] at h3; exact h3 hsh
    · exact h3 ⟨k, x, hx, h2⟩

/-! ## C41 -/

/-- C41, exactly: a mesh of a shown slot stays if and only if its name is used, or names only meshes of shown slots. -/
theorem c41_mesh_kept_iff (hr : Ran e) (h : clean e = (.ok (ids, atts), e')) {slot k : Str} {x : Att F}
    (hx : e.data.HasAtt slot k x) (hs : SlotShown e.data slot) :
    e'.data.HasAtt slot k x ↔ e.data.Uses k ∨ ∀ slot' x', e.data.HasAtt slot' k x' → x'.kind = .mesh ∧ SlotShown e.data slot' := by
  rw [c40_left_iff_partial hr h]
  unfold Unneeded
  constructor
  · rintro ⟨_, _, hno⟩
    by_cases hu : e.data.Uses k
    · exact .inl hu
    · refine .inr (fun slot' x' hx' => Classical.not_not.1 (fun hc => hno ⟨hu, slot', x', hx', hc⟩))
  · intro hc
    refine ⟨hx, hs, ?_⟩
    rintro ⟨h1, slot', x', h2, h3⟩
    rcases hc with hc | hc
    · exact h1 hc
    · exact h3 (hc slot' x' h2)

/-- C41 for names that belong to meshes of shown slots only.
Missing: names shared with something else; there it is false (`c41_counterexample`). -/
theorem c41_mesh_kept_partial (hr : Ran e) (h : clean e = (.ok (ids, atts), e')) {slot k : Str} {x : Att F}
    (hx : e.data.HasAtt slot k x) (hs : SlotShown e.data slot)
    (hall : ∀ slot' x', e.data.HasAtt slot' k x' → x'.kind = .mesh ∧ SlotShown e.data slot') : e'.data.HasAtt slot k x :=
  (c41_mesh_kept_iff hr h hx hs).2 (.inr hall)

/-! ## C42 -/

/-- C42 for the returned names, on every editor and with any names: nothing refers to them any more. -/
theorem c42_no_reference (h : clean e = (.ok (ids, atts), e')) (n : Str) (hn : n ∈ ids) :
    (∀ s ∈ e'.data.skins, n ∉ Dict.keys s.attachments) ∧
    ∀ p ∈ e'.data.animations, n ∉ Dict.keys p.2.slots ∧ (∀ skin d, Dict.get? p.2.deform skin = some d → n ∉ Dict.keys d) ∧
      ∀ t ∈ p.2.drawOrder, n ∉ Dict.keys t.offsets := by
  obtain ⟨h1, h2⟩ := clean_anims h
  constructor
  · intro s hs
    rw [h2] at hs
    obtain ⟨s0, _, rfl⟩ := List.mem_map.1 hs
    unfold cutSkin
    simp only [keys_dmap]
    intro hc
    obtain ⟨p, hp, e1⟩ := List.mem_map.1 hc
    have := (List.mem_filter.1 hp).2
    rw [e1] at this
    simp [hn] at this
  · intro p' hp'
    obtain ⟨p, hp, _, hc⟩ := h1.right hp'
    refine ⟨?_, ?_, ?_⟩
    · rw [hc.slots]
      intro hm
      obtain ⟨q, hq, e1⟩ := List.mem_map.1 hm
      have := (List.mem_filter.1 hq).2
      rw [e1] at this
      simp [hn] at this
    · intro skin d hd hm
      rw [hc.deform] at hd
      obtain ⟨d0, _, rfl⟩ := Option.map_eq_some_iff.1 hd
      have hm' : n ∈ Dict.keys (d0.filter (fun p => p.1 ∉ ids)) := by
        simp only at hm
        split at hm
        · unfold Anim.cutTl at hm; rwa [keys_dmap] at hm
        · exact hm
      obtain ⟨q, hq, e1⟩ := List.mem_map.1 hm'
      have := (List.mem_filter.1 hq).2
      rw [e1] at this
      simp [hn] at this
    · intro t' ht'
      obtain ⟨t, _, _, ho⟩ := hc.draw.right ht'
      unfold DrawOrder.removeOffsets DrawOrder.adjust at ho
      simp only at ho
      obtain ⟨adj, _, ho⟩ := bindOk ho
      injection ho with ho
      rw [← ho]
      intro hm
      obtain ⟨q, hq, e1⟩ := List.mem_map.1 hm
      have := (List.mem_filter.1 hq).2
      rw [e1] at this
      simp [hn] at this

/-- C42: nothing refers to a slot that disappeared.
Missing: names that contain the suffixes of the graph ids, for which it is false (`c42_counterexample`). -/
theorem c42_removed_slots_partial (hr : Ran e) (h : clean e = (.ok (ids, atts), e')) (n : Str) (h1 : ∃ s ∈ e.data.slots, s.name = n)
    (h2 : ¬ ∃ s ∈ e'.data.slots, s.name = n) :
    (∀ s ∈ e'.data.skins, n ∉ Dict.keys s.attachments) ∧
    ∀ p ∈ e'.data.animations, n ∉ Dict.keys p.2.slots ∧ (∀ skin d, Dict.get? p.2.deform skin = some d → n ∉ Dict.keys d) ∧
      ∀ t ∈ p.2.drawOrder, n ∉ Dict.keys t.offsets :=
  c42_no_reference h n ((c39_list_is_difference_partial hr h n).2 ⟨h1, h2⟩)

/-! ## C43 -/

/-- C43 for skins and for the deform timelines of existing skins, on every editor and with any names. -/
theorem c43_skins_and_deform (h : clean e = (.ok (ids, atts), e')) (k : Str) (hk : k ∈ atts) :
    (∀ slot x, ¬ e'.data.HasAtt slot k x) ∧
    ∀ p ∈ e'.data.animations, ∀ s ∈ e'.data.skins, ∀ d, Dict.get? p.2.deform s.name = some d → ∀ q ∈ d, k ∉ Dict.keys q.2 := by
  obtain ⟨h1, h2⟩ := clean_anims h
  constructor
  · rintro slot x ⟨s, hs, hx⟩
    rw [h2] at hs
    obtain ⟨s0, _, rfl⟩ := List.mem_map.1 hs
    exact (mem_cutSkin.1 hx).2.2 hk
  · intro p' hp' s hs d hd
    obtain ⟨p, hp, _, hc⟩ := h1.right hp'
    rw [hc.deform] at hd
    obtain ⟨d0, _, rfl⟩ := Option.map_eq_some_iff.1 hd
    have hsk : s.name ∈ e.data.skins.map (·.name) := by
      rw [h2] at hs
      obtain ⟨s0, hs0, rfl⟩ := List.mem_map.1 hs
      exact List.mem_map.2 ⟨s0, hs0, rfl⟩
    simp only [hsk, if_true]
    rintro ⟨slot, v⟩ hq
    obtain ⟨v0, _, rfl⟩ := (mem_dmap _ _ _ _).1 hq
    intro hm
    obtain ⟨q, hq, e1⟩ := List.mem_map.1 hm
    have := (List.mem_filter.1 hq).2
    rw [e1] at this
    simp [hk] at this

/-- C43 for setup poses: no slot that stays has a removed attachment in its setup pose.
Missing: names that contain the suffixes of the graph ids (`c40_counterexample`). -/
theorem c43_setup_partial (hr : Ran e) (h : clean e = (.ok (ids, atts), e')) (k : Str) (hk : k ∈ atts) :
    ∀ s ∈ e'.data.slots, s.attachment ≠ some k := by
  intro s hs ha
  obtain ⟨hm, ⟨n, x, hx, hsh⟩, _⟩ := (c39_kept_partial hr h s).1 hs
  exact ((mem_atts hr.sync h k).1 hk).1 ⟨n, x, hx, s, hm, hsh, .inl ha⟩

/-- C43 for keyframes: when an animation shows a slot, none of the keyframes of the slot in it shows a removed attachment (the
keyframe name "None" means no attachment).  Missing: keyframes for a slot in an animation that does not show it; there it is
false (`c43_counterexample`). -/
theorem c43_keyframes_partial (hr : Ran e) (h : clean e = (.ok (ids, atts), e')) (k : Str) (hk : k ∈ atts) {n : Str} {x : Anim F}
    (hx : (n, x) ∈ e.data.animations) {s : Slot F} (hs : s ∈ e.data.slots) (hsh : x.Shown s) {t : SlotTl F}
    (ht : (s.name, t) ∈ x.slots) : ¬ t.Shows k :=
  fun hsk => ((mem_atts hr.sync h k).1 hk).1 ⟨n, x, hx, s, hs, hsh, .inr ⟨t, ht, hsk⟩⟩

/-! ## C55 -/

/-- the causes for which `clean_animation` may raise -/
inductive CleanCause (a : AnimData F) : Prop
  /-- a slot colour is not hexadecimal -/
  | colour {s c} : s ∈ a.slots → s.color = some c → (¬ ∃ n, HexText F c n) → CleanCause a
  /-- an animation has a timeline for an unknown slot (or for a slot without name) -/
  | timeline {p n} : p ∈ a.animations → n ∈ Dict.keys p.2.slots → (n = [] ∨ ∀ s ∈ a.slots, s.name ≠ n) → CleanCause a
  /-- an animation without slot timelines, and no slot visible by default -/
  | empty {p} : p ∈ a.animations → p.2.slots = [] → (∀ s ∈ a.slots, Transparent s ∨ s.Plain) → CleanCause a
  /-- a drawOrder offset names an unknown slot -/
  | draw {p t k} : p ∈ a.animations → t ∈ p.2.drawOrder → k ∈ Dict.keys t.offsets → (∀ s ∈ a.slots, s.name ≠ k) → CleanCause a

/-- C55: `clean_animation` raises only for these causes, and unless the cause is a drawOrder offset, a call that raises has changed
nothing.  The document and its names are arbitrary, and earlier calls may have failed.
Missing: editors on which a cleaning was stopped half-way by a drawOrder offset; there it is false (`c55_counterexample`). -/
theorem c55_fails_only_partial (hr : Called e) {x : Err} (h : (clean e).1 = .error x) :
    CleanCause e.data ∧ (BadDraw e.data ∨ (clean e).2 = e) := by
  have hs := hr.weak
  by_cases hd : BadDraw e.data
  · refine ⟨?_, .inl hd⟩
    obtain ⟨p, h1, t, h2, k, h3, h4⟩ := hd
    exact .draw h1 h2 h3 h4
  · rcases hs.clean_cases hd with ⟨r, e', h'⟩ | ⟨hu, h'⟩
    · rw [h'] at h; cases h
    · refine ⟨?_, .inr h'⟩
      rcases (AnimData.unused_error hs.slotNames hs.anims.slots).1 hu with ⟨s, h1, c, h2, h3⟩ | ⟨p, h1, n, h2, h3⟩ | ⟨p, h1, h2, h3⟩
      · exact .colour h1 h2 h3
      · exact .timeline h1 h2 h3
      · exact .empty h1 h2 h3

/-- C55, the first three causes always make `clean_animation` raise. -/
theorem c55_causes_partial (hr : Called e) (hc : CleanCause e.data) : BadDraw e.data ∨ ∃ x, (clean e).1 = .error x := by
  have hs := hr.weak
  have hue := AnimData.unused_error hs.slotNames hs.anims.slots
  have hun : (∃ y, AnimData.unused e.data = .error y) → ∃ x, (clean e).1 = .error x := by
    rintro ⟨y, hu⟩
    refine ⟨y, ?_⟩
    unfold clean
    simp only [hu]
  cases hc with
  | colour h1 h2 h3 => exact .inr (hun (hue.2 (.inl ⟨_, h1, _, h2, h3⟩)))
  | timeline h1 h2 h3 => exact .inr (hun (hue.2 (.inr (.inl ⟨_, h1, _, h2, h3⟩))))
  | empty h1 h2 h3 => exact .inr (hun (hue.2 (.inr (.inr ⟨_, h1, h2, h3⟩))))
  | draw h1 h2 h3 h4 => exact .inl ⟨_, h1, _, h2, _, h3, h4⟩

/-- C55: `clean_animation` raises exactly for these causes, also the fourth one.
Missing: names that contain the suffixes of the graph ids. -/
theorem c55_fails_iff_partial (hr : Ran e) : (∃ x, (clean e).1 = .error x) ↔ CleanCause e.data := by
  have hs := hr.sync
  have hue := AnimData.unused_error hs.slotNames hs.anims.slots
  constructor
  · rintro ⟨x, hx⟩
    cases hu : AnimData.unused e.data with
    | error y =>
      rcases hue.1 ⟨y, hu⟩ with ⟨s, h1, c, h2, h3⟩ | ⟨p, h1, n, h2, h3⟩ | ⟨p, h1, h2, h3⟩
      · exact .colour h1 h2 h3
      · exact .timeline h1 h2 h3
      · exact .empty h1 h2 h3
    | ok r =>
      by_cases hd : BadDraw e.data
      · obtain ⟨p, h1, t, h2, k, h3, h4⟩ := hd
        exact .draw h1 h2 h3 h4
      · obtain ⟨r', e', h⟩ := clean_total hs (slots := r.1) (atts := r.2) hu hd
        rw [h] at hx; cases hx
  · have hun : (∃ y, AnimData.unused e.data = .error y) → ∃ x, (clean e).1 = .error x := by
      rintro ⟨y, hu⟩
      refine ⟨y, ?_⟩
      unfold clean
      simp only [hu]
    intro hc
    cases hc with
    | colour h1 h2 h3 => exact hun (hue.2 (.inl ⟨_, h1, _, h2, h3⟩))
    | timeline h1 h2 h3 => exact hun (hue.2 (.inr (.inl ⟨_, h1, _, h2, h3⟩)))
    | empty h1 h2 h3 => exact hun (hue.2 (.inr (.inr ⟨_, h1, h2, h3⟩)))
    | draw h1 h2 h3 h4 => exact clean_badDraw hs ⟨_, h1, _, h2, _, h3, h4⟩

end Editor
end Spine
