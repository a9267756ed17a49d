import Verif.Lemmas.Refs
import Verif.Props.Clean
/- References to slots and to attachments. -/
set_option linter.unusedSectionVars false
set_option linter.unusedSimpArgs false
namespace Spine
open JVal Graph Container
variable {F : Type} [PyRt F]

namespace AnimData

def HasSlot (a : AnimData F) (n : Str) : Prop := ∃ s ∈ a.slots, s.name = n

/-- the slots that skins, timelines and drawOrder keyframes name exist -/
structure SlotsOk (a : AnimData F) : Prop where
  skins : ∀ s ∈ a.skins, ∀ n ∈ Dict.keys s.attachments, a.HasSlot n
  slots : ∀ p ∈ a.animations, ∀ n ∈ Dict.keys p.2.slots, a.HasSlot n
  deform : ∀ p ∈ a.animations, ∀ skin d, (skin, d) ∈ p.2.deform → ∀ n ∈ Dict.keys d, a.HasSlot n
  draw : ∀ p ∈ a.animations, ∀ t ∈ p.2.drawOrder, ∀ n ∈ Dict.keys t.offsets, a.HasSlot n

/-- the deformed attachments exist -/
def DeformsOk (a : AnimData F) : Prop := ∀ p ∈ a.animations, ∀ skin d, (skin, d) ∈ p.2.deform → ∀ slot t, (slot, t) ∈ d → ∀ key ∈ Dict.keys t,
  ∃ s ∈ a.skins, s.name = skin ∧ ∃ m, (slot, m) ∈ s.attachments ∧ key ∈ Dict.keys m

/-- both survive when only skins change, and no key of a skin is lost -/
theorem SlotsOk.fewer {a a' : AnimData F} (h : SlotsOk a) (hs : a'.slots = a.slots) (hr : Rest a a') (hf : Fewer a a') : SlotsOk a' := by
  have hh : ∀ n, a.HasSlot n → a'.HasSlot n := by intro n; unfold HasSlot; rw [hs]; exact id
  obtain ⟨l, h1, h2⟩ := hr.animations
  refine ⟨?_, ?_, ?_, ?_⟩
  · intro s' hs' n hn
    obtain ⟨s, h3, _, h4⟩ := hf.skins s' hs'
    obtain ⟨⟨n', m'⟩, hm, rfl⟩ := List.mem_map.1 hn
    obtain ⟨m, hm, _⟩ := h4 _ _ hm
    exact hh _ (h.skins s h3 _ (List.mem_map.2 ⟨_, hm, rfl⟩))
  · intro p' hp' n hn
    obtain ⟨p, hp, _, ht⟩ := h2.right hp'
    exact hh _ (h.slots p (h1.subset hp) n ((ht.slots.map (·.1)).subset hn))
  · intro p' hp' skin d' hd n hn
    obtain ⟨p, hp, _, ht⟩ := h2.right hp'
    obtain ⟨d, h3, h4⟩ := ht.deform _ _ hd
    obtain ⟨⟨n', m'⟩, hm, rfl⟩ := List.mem_map.1 hn
    obtain ⟨m, hm, _⟩ := h4 _ _ hm
    exact hh _ (h.deform p (h1.subset hp) skin d h3 _ (List.mem_map.2 ⟨_, hm, rfl⟩))
  · intro p' hp' t' ht' n hn
    obtain ⟨p, hp, _, hd⟩ := hf.draws p' hp'
    obtain ⟨t, ht, hk⟩ := hd t' ht'
    exact hh _ (h.draw p hp t ht n (hk n hn))

theorem deformsOk_relink {a : AnimData F} (gone : Skin F) (n : Str) (h : DeformsOk a) :
    DeformsOk { a with skins := (mapMut (relinkSkin gone n) a.skins).2 } := by
  intro p hp skin d hd slot t ht key hk
  obtain ⟨s, h1, h2, m, h3, h4⟩ := h p hp skin d hd slot t ht key hk
  have := mapMut_all (R := fun s s' => s'.name = s.name ∧ ∀ slot m, (slot, m) ∈ s.attachments →
    ∃ m', (slot, m') ∈ s'.attachments ∧ Dict.keys m' = Dict.keys m) (relinkSkin gone n) a.skins
    (fun s _ => ⟨relinkSkin_name gone n s, fun slot m hm => relinkSkin_has gone n s hm⟩) (fun s => ⟨rfl, fun slot m hm => ⟨m, hm, rfl⟩⟩)
  obtain ⟨s', g1, g2, g3⟩ := this.left h1
  obtain ⟨m', g4, g5⟩ := g3 slot m h3
  exact ⟨s', g1, g2.trans h2, m', g4, g5 ▸ h4⟩

theorem deformsOk_removeSkin (n : Str) {a : AnimData F} (h : DeformsOk a) : DeformsOk (removeSkin n a).2 := by
  unfold removeSkin
  split
  · exact h
  · rename_i gone _
    have h' := deformsOk_relink gone n h
    simp only
    split
    · exact h'
    · split
      · exact h'
      · rintro ⟨m, x'⟩ hp skin d hd slot t ht key hk
        obtain ⟨x, hx, rfl⟩ := (mem_dmap _ _ _ _).1 hp
        have hd : (skin, d) ∈ Dict.del x.deform n := hd
        obtain ⟨hd, hne⟩ := List.mem_filter.1 hd
        obtain ⟨s, h1, h2, h3⟩ := h' _ hx skin d hd slot t ht key hk
        refine ⟨s, List.mem_filter.2 ⟨h1, ?_⟩, h2, h3⟩
        rw [h2]; simpa using hne

end AnimData

namespace Editor
open AnimData
variable {e e' : Editor F} {ids atts : List Str}

theorem deformsOk_removeSkins (names : List Str) {a : AnimData F} (h : DeformsOk a) : DeformsOk (removeSkins names a).2 := by
  induction names generalizing a with
  | nil => exact h
  | cons n ns ih =>
    unfold removeSkins
    have h1 := deformsOk_removeSkin n h
    generalize removeSkin n a = q at h1
    obtain ⟨r, a1⟩ := q
    cases r with
    | error x => exact h1
    | ok v =>
      simp only
      have h2 := ih h1
      generalize removeSkins ns a1 = q at h2
      obtain ⟨r, a2⟩ := q
      cases r with
      | error x => exact h2
      | ok v => exact h2

theorem SlotsOk.noBad {a : AnimData F} (h : SlotsOk a) : ¬ BadDraw a := by
  rintro ⟨p, hp, t, ht, k, hk, hno⟩
  obtain ⟨s, h1, h2⟩ := h.draw p hp t ht k hk
  exact hno s h1 h2

/-- a slot that is not returned stays -/
theorem slot_stays (hs : Weak e) (h : clean e = (.ok (ids, atts), e')) {n : Str} (hn : e.data.HasSlot n) (hc : Clean .slot n) (hi : n ∉ ids) :
    e'.data.HasSlot n := by
  obtain ⟨slots, L, A, B, I, g0, g1, g2, g3, bs, ss, is, an, hr⟩ := clean_run hs.core h
  have hnode := (hs.hasSlot n).2 hn
  have hids : ∀ m, m ∈ ids ↔ m ∈ slots ∨ m ∈ L.map (baseId .slot) := by
    intro m; rw [hr.hids, mem_setList, List.mem_append]
  have h0 : HasNode g0 (graphId .slot n) := by
    rw [show g0 = restrict e.graph (namedIds F slots atts) from hr.hg0, hasNode_restrict]
    refine ⟨hnode, ?_⟩
    rw [mem_namedIds]
    rintro (⟨_, h⟩ | ⟨h, _⟩)
    · exact hi ((hids n).2 (.inl h))
    · cases h
  have h1 : HasNode g1 (graphId .slot n) := by
    rw [hr.hg1, hasNode_restrict]
    refine ⟨h0, fun hL => hi ((hids n).2 (.inr (List.mem_map.2 ⟨_, hL, ?_⟩)))⟩
    exact (baseId_eq_iff .slot n).2 hc
  obtain ⟨nd, hnd⟩ := h1
  have ht := (hs.core1 hr.toCleanStart).typed' hnd
  obtain ⟨s, h2, h3, _⟩ := (hs.result_slots hr).left ((mem_nodesOf (hs.core1 hr.toCleanStart).wf .slot _ nd.data).2 ⟨nd, hnd, ht, rfl⟩)
  exact ⟨s, h2, (graphId_inj h3).2.symm⟩

theorem Called.reached (h : Called e) : Reached e := by
  induction h with
  | load _ h => exact .load h
  | run o _ _ ih => exact .run o ih

/-- the names of the slots do not contain the suffix of the graph ids -/
def CleanSlots (a : AnimData F) : Prop := ∀ s ∈ a.slots, Clean .slot s.name

theorem slotsOk_clean (hs : Weak e) (hr : Tied e) (hn : CleanSlots e.data) (h : clean e = (.ok (ids, atts), e')) (hok : SlotsOk e.data) :
    SlotsOk e'.data := by
  have hw := weak_clean (r := (ids, atts)) hs h
  have hrest := rest_clean (Filled.of_fixed hs.dflt)
  have hheld := (held_clean hs.ecore hr).1
  rw [h] at hrest hheld
  have hrest : Rest e.data e'.data := hrest.2.2
  have hf : Fewer e.data e'.data := hheld.fewer
  clear hheld
  have stay : ∀ n, e.data.HasSlot n → n ∉ ids → e'.data.HasSlot n := by
    intro n h1 h2
    have hc : Clean .slot n := by obtain ⟨s, h3, rfl⟩ := h1; exact hn s h3
    exact slot_stays hs h h1 hc h2
  have noref := fun n hn => c42_no_reference h n hn
  obtain ⟨l, h1, h2⟩ := hrest.animations
  refine ⟨?_, ?_, ?_, ?_⟩
  · intro s' hs' n hn'
    obtain ⟨s, h3, _, h4⟩ := hf.skins s' hs'
    refine stay n ?_ (fun hi => (noref n hi).1 s' hs' hn')
    obtain ⟨⟨n', m'⟩, hm, rfl⟩ := List.mem_map.1 hn'
    obtain ⟨m, hm, _⟩ := h4 _ _ hm
    exact hok.skins s h3 _ (List.mem_map.2 ⟨_, hm, rfl⟩)
  · intro p' hp' n hn'
    obtain ⟨p, hp, _, ht⟩ := h2.right hp'
    exact stay n (hok.slots p (h1.subset hp) n ((ht.slots.map (·.1)).subset hn')) (fun hi => ((noref n hi).2 p' hp').1 hn')
  · intro p' hp' skin d' hd n hn'
    obtain ⟨p, hp, _, ht⟩ := h2.right hp'
    obtain ⟨d, h3, h4⟩ := ht.deform _ _ hd
    refine stay n ?_ (fun hi => ((noref n hi).2 p' hp').2.1 skin d' (Dict.get?_of_mem (hw.anims.deform p' hp') hd) hn')
    obtain ⟨⟨n', m'⟩, hm, rfl⟩ := List.mem_map.1 hn'
    obtain ⟨m, hm, _⟩ := h4 _ _ hm
    exact hok.deform p (h1.subset hp) skin d h3 _ (List.mem_map.2 ⟨_, hm, rfl⟩)
  · intro p' hp' t' ht' n hn'
    obtain ⟨p, hp, _, hd⟩ := hf.draws p' hp'
    obtain ⟨t, ht, hk⟩ := hd t' ht'
    exact stay n (hok.draw p hp t ht n (hk n hn')) (fun hi => ((noref n hi).2 p' hp').2.2 t' ht' hn')

theorem deformsOk_clean (hs : Weak e) (h : clean e = (.ok (ids, atts), e')) (hok : DeformsOk e.data) : DeformsOk e'.data := by
  have hw := weak_clean (r := (ids, atts)) hs h
  obtain ⟨slots, L, A, B, I, g0, g1, g2, g3, bs, ss, is, an, hr⟩ := clean_run hs.core h
  have hsk := hs.result_skins hr
  intro p' hp' skin d' hd' slot t' ht' key hkey
  obtain ⟨p, hp, _, hc⟩ := (clean_anims h).1.right hp'
  rw [dmap_fixed_iff.1 (AnimData.fixed_iff.1 hs.dflt).2.2.2.2.2.2 p hp] at hc
  have hget := Dict.get?_of_mem (hw.anims.deform p' hp') hd'
  rw [hc.deform] at hget
  obtain ⟨d, hd, e1⟩ := Option.map_eq_some_iff.1 hget
  have hdm := Dict.mem_of_get? hd
  have hex : ∃ t, (slot, t) ∈ d ∧ slot ∉ ids ∧ key ∈ Dict.keys t ∧ (skin ∈ e.data.skins.map (·.name) → key ∉ atts) := by
    rw [← e1] at ht'
    simp only at ht'
    split at ht'
    · obtain ⟨t, h1, rfl⟩ := (mem_dmap _ _ _ _).1 ht'
      obtain ⟨h1, h2⟩ := List.mem_filter.1 h1
      obtain ⟨⟨k, v⟩, h3, rfl⟩ := List.mem_map.1 hkey
      obtain ⟨h3, h4⟩ := List.mem_filter.1 h3
      exact ⟨t, h1, by simpa using h2, List.mem_map.2 ⟨_, h3, rfl⟩, fun _ => by simpa using h4⟩
    · rename_i hno
      obtain ⟨h1, h2⟩ := List.mem_filter.1 ht'
      exact ⟨t', h1, by simpa using h2, hkey, fun h => absurd h hno⟩
  obtain ⟨t, h1, h2, h3, h4⟩ := hex
  obtain ⟨s, g1, g2, m, g3, g4⟩ := hok p hp skin d hdm slot t h1 key h3
  have h5 := h4 (List.mem_map.2 ⟨s, g1, g2⟩)
  refine ⟨cutSkin ids atts s, by rw [hsk]; exact List.mem_map_of_mem g1, g2, m.filter (fun q => q.1 ∉ atts), ?_, ?_⟩
  · unfold cutSkin
    exact (mem_dmap _ _ _ _).2 ⟨m, List.mem_filter.2 ⟨g3, by simpa using h2⟩, rfl⟩
  · obtain ⟨⟨k, v⟩, g5, rfl⟩ := List.mem_map.1 g4
    exact List.mem_map.2 ⟨_, List.mem_filter.2 ⟨g5, by simpa using h5⟩, rfl⟩

/-- everything that is kept up -/
structure Sound (e : Editor F) : Prop where
  weak : Weak e
  tied : Tied e
  names : CleanSlots e.data
  slots : SlotsOk e.data
  deforms : DeformsOk e.data

theorem CleanSlots.held {a : AnimData F} (h : CleanSlots e.data) (ha : (a.slots.map jS).Sublist (e.data.slots.map jS)) : CleanSlots a := by
  intro s hs
  have : jS s ∈ e.data.slots.map jS := ha.subset (List.mem_map_of_mem hs)
  obtain ⟨s', h1, h2⟩ := List.mem_map.1 this
  have : s'.name = s.name := by
    simp only [jS, Prod.mk.injEq, Option.some.injEq, JVal.str.injEq] at h2
    exact h2.1
  rw [← this]; exact h s' h1

theorem sound_clean (h : Sound e) : Sound (clean e).2 := by
  rcases h.weak.clean_cases (Editor.SlotsOk.noBad h.slots) with ⟨r, e', hr⟩ | ⟨_, hr⟩
  · have hh := held_clean h.weak.ecore h.tied
    rw [hr] at hh ⊢
    exact ⟨weak_clean h.weak hr, hh.2, h.names.held hh.1.slots, slotsOk_clean (ids := r.1) (atts := r.2) h.weak h.tied h.names hr h.slots,
      deformsOk_clean (ids := r.1) (atts := r.2) h.weak hr h.deforms⟩
  · rw [hr]; exact h

theorem sound_cleanUnless (safe : Bool) (h : Sound e) : Sound (cleanUnless safe e).2 := by
  unfold cleanUnless
  split
  · exact h
  · exact sound_clean h

theorem sound_eraseAnims (arg : NamesArg) (strict safe : Bool) (h : Sound e) : Sound (eraseAnims arg strict safe e).2 := by
  unfold eraseAnims
  split
  · exact h
  · rename_i names
    simp only
    rw [eraseRaw_fst]
    have h1 : Sound (e.withData { e.data with animations := e.data.animations.filter (fun p => decide (p.1 ∉ names)) }) := by
      refine ⟨weak_filterAnims h.weak _, ⟨h.tied.bones, h.tied.slots, h.tied.iks⟩, h.names, ⟨h.slots.skins, ?_, ?_, ?_⟩, ?_⟩
      · exact fun p hp => h.slots.slots p (List.mem_filter.1 hp).1
      · exact fun p hp => h.slots.deform p (List.mem_filter.1 hp).1
      · exact fun p hp => h.slots.draw p (List.mem_filter.1 hp).1
      · exact fun p hp => h.deforms p (List.mem_filter.1 hp).1
    split
    · exact h1
    · have h2 := sound_cleanUnless safe h1
      split
      · rename_i hq; rw [hq] at h2; exact h2
      · rename_i hq; rw [hq] at h2; exact h2

theorem sound_eraseSkins (names : List Str) (safe : Bool) (h : Sound e) : Sound (eraseSkins names safe e).2 := by
  unfold eraseSkins
  have hk := removeSkins_any e.doc.version.is38 names e.data
  have hb := removeSkins_bones names e.data
  have hf := fewer_removeSkins names e.data
  have hrest := rest_removeSkins names e.data
  have hdef := deformsOk_removeSkins names h.deforms
  generalize removeSkins names e.data = q at hk hb hf hrest hdef
  obtain ⟨r, a⟩ := q
  simp only at hk hb hf hrest hdef
  have hs : SlotsOk a := h.slots.fewer hb.2.2 hrest hf
  have hn : CleanSlots a := h.names.held (by rw [hb.2.2]; exact .refl _)
  have h0 : Sound (e.withData a) := by
    refine ⟨weak_stale h.weak hk, h.tied.of rfl ?_ ?_ rfl rfl ?_, hn, hs, hdef⟩
    · show a.bones.map jB = _; rw [hb.1]
    · show a.ik.map _ = _; rw [hb.2.1]; rfl
    · show List.Sublist _ (a.slots.map jS); rw [hb.2.2]; exact h.tied.slots
  cases r with
  | error x => exact h0
  | ok v =>
    simp only
    split
    · exact h0
    · rename_i g hg
      have hw := weak_removeSkins h.weak hk hg
      have h1 : Sound { e.withData a with graph := g } := ⟨hw, tied_fresh hw.ecore.bones hg, hn, hs, hdef⟩
      have h2 := sound_cleanUnless safe h1
      generalize cleanUnless safe { e.withData a with graph := g } = c at h2
      obtain ⟨r, e1⟩ := c
      simp only at h2
      cases r with
      | error x => exact h2
      | ok r => exact ⟨weak_cleanImages h2.weak _, ⟨h2.tied.bones, h2.tied.slots, h2.tied.iks⟩, h2.names, h2.slots, h2.deforms⟩

theorem sound_scale (sx sy : Num F) (h : Sound e) : Sound (scale sx sy e).2 := by
  refine ⟨weak_scale sx sy h.weak, (held_scale sx sy h.tied).2, ?_, ?_, ?_⟩ <;> rw [scale_frame]
  · exact h.names
  · exact ⟨h.slots.skins, h.slots.slots, h.slots.deform, h.slots.draw⟩
  · exact h.deforms

theorem sound_run (o : Op F) (h : Sound e) : Sound (o.run e).2 := by
  cases o with
  | eraseSkins n s => exact sound_eraseSkins n s h
  | eraseAnims a t s => exact sound_eraseAnims a t s h
  | clean => exact sound_clean h
  | scale x y => exact sound_scale x y h

theorem sound_after (ops : List (Op F)) (h : Sound e) : Sound (after ops e) := by
  induction ops generalizing e with
  | nil => exact h
  | cons o ops ih => exact ih (sound_run o h)

end Editor
end Spine
