import Verif.Spec.Frame
import Verif.Lemmas.EraseTotal
import Verif.Props.CleanTwice
/- What the editing calls never change, whatever their outcome. -/
set_option linter.unusedSectionVars false
set_option linter.unusedSimpArgs false
namespace Spine
open JVal Graph Container
variable {F : Type} [PyRt F]

theorem All₂.sub_left {α β : Type} {R : α → β → Prop} {l : List α} {m k : List β} (h : All₂ R l m) (hk : k.Sublist m) :
    ∃ j, j.Sublist l ∧ All₂ R j k := by
  induction h generalizing k with
  | nil => cases hk; exact ⟨[], .slnil, .nil⟩
  | @cons x y l m hxy _ ih =>
    cases hk with
    | cons _ hk => obtain ⟨j, h1, h2⟩ := ih hk; exact ⟨j, .cons _ h1, h2⟩
    | cons_cons _ hk => obtain ⟨j, h1, h2⟩ := ih hk; exact ⟨x :: j, .cons_cons _ h1, .cons hxy h2⟩

namespace Anim
variable {x x' x'' : Anim F}

theorem Trimmed.refl (x : Anim F) : Trimmed x x :=
  ⟨rfl, rfl, rfl, rfl, rfl, rfl, .refl _, fun _ d h => ⟨d, h, fun _ t h => ⟨t, h, .refl _⟩⟩⟩

theorem Trimmed.trans (h : Trimmed x x') (h' : Trimmed x' x'') : Trimmed x x'' := by
  refine ⟨h'.bones.trans h.bones, h'.ik.trans h.ik, h'.transform.trans h.transform, h'.path.trans h.path, h'.events.trans h.events,
    h'.times.trans h.times, h'.slots.trans h.slots, ?_⟩
  intro skin d'' hd
  obtain ⟨d', h1, h2⟩ := h'.deform _ _ hd
  obtain ⟨d, h3, h4⟩ := h.deform _ _ h1
  refine ⟨d, h3, fun slot t'' ht => ?_⟩
  obtain ⟨t', h5, h6⟩ := h2 _ _ ht
  obtain ⟨t, h7, h8⟩ := h4 _ _ h5
  exact ⟨t, h7, h6.trans h8⟩

/-- the defaults are in place -/
structure Filled (v : Bool) (x : Anim F) : Prop where
  bones : (x.setDefaults v).bones = x.bones
  ik : (x.setDefaults v).ik = x.ik
  transform : (x.setDefaults v).transform = x.transform
  path : (x.setDefaults v).path = x.path
  events : (x.setDefaults v).events = x.events
  times : ∀ t ∈ x.drawOrder, (t.setDefaults v).time = t.time
  slots : ∀ q ∈ x.slots, q.2.setDefaults v = q.2
  deform : ∀ skin d, (skin, d) ∈ x.deform → ∀ slot t, (slot, t) ∈ d → ∀ k l, (k, l) ∈ t → l.map (deformCls.setDefaults v) = l

theorem Filled.of_fixed {v : Bool} (h : x.setDefaults v = x) : Filled v x := by
  have hb : dmap (·.setDefaults v) x.slots = x.slots := congrArg Anim.slots h
  have hd : dmap (dmap (dmap (·.map (deformCls.setDefaults v)))) x.deform = x.deform := congrArg Anim.deform h
  have hw : x.drawOrder.map (·.setDefaults v) = x.drawOrder := congrArg Anim.drawOrder h
  refine ⟨congrArg Anim.bones h, congrArg Anim.ik h, congrArg Anim.transform h, congrArg Anim.path h, congrArg Anim.events h, ?_, ?_, ?_⟩
  · intro t ht; rw [map_fixed_iff.1 hw t ht]
  · exact fun q hq => dmap_fixed_iff.1 hb q hq
  · intro skin d h1 slot t h2 k l h3
    exact dmap_fixed_iff.1 (dmap_fixed_iff.1 (dmap_fixed_iff.1 hd _ h1) _ h2) _ h3

theorem Filled.trimmed {v : Bool} (h : Filled v x) : Trimmed x (x.setDefaults v) := by
  refine ⟨h.bones, h.ik, h.transform, h.path, h.events, ?_, ?_, ?_⟩
  · show (x.drawOrder.map (·.setDefaults v)).map (·.time) = _
    rw [List.map_map]
    exact List.map_congr_left (fun t ht => h.times t ht)
  · have : dmap (·.setDefaults v) x.slots = x.slots := dmap_fixed_iff.2 h.slots
    show (dmap (·.setDefaults v) x.slots).Sublist _
    rw [this]
    exact .refl _
  · intro skin d' hd
    obtain ⟨d, h1, rfl⟩ := (mem_dmap _ _ _ _).1 hd
    refine ⟨d, h1, fun slot t' ht => ?_⟩
    obtain ⟨t, h2, rfl⟩ := (mem_dmap _ _ _ _).1 ht
    refine ⟨t, h2, ?_⟩
    rw [dmap_fixed_iff.2 (fun q hq => h.deform _ _ h1 _ _ h2 q.1 q.2 hq)]
    exact .refl _

theorem Trimmed.filled {v : Bool} (h : Trimmed x x') (hf : Filled v x) : Filled v x' := by
  refine ⟨?_, ?_, ?_, ?_, ?_, ?_, ?_, ?_⟩
  · show dmap _ x'.bones = _; rw [h.bones]; exact hf.bones
  · show dmap _ x'.ik = _; rw [h.ik]; exact hf.ik
  · show dmap _ x'.transform = _; rw [h.transform]; exact hf.transform
  · show dmap _ x'.path = _; rw [h.path]; exact hf.path
  · show List.map _ x'.events = _; rw [h.events]; exact hf.events
  · intro t' ht'
    have : t'.time ∈ x.drawOrder.map (·.time) := by rw [← h.times]; exact List.mem_map_of_mem ht'
    obtain ⟨t, ht, e1⟩ := List.mem_map.1 this
    have := hf.times t ht
    unfold DrawTl.setDefaults at this ⊢
    simp only at this ⊢
    rw [← e1]; exact this
  · exact fun q hq => hf.slots q (h.slots.subset hq)
  · intro skin d' h1 slot t' h2 k l h3
    obtain ⟨d, h4, h5⟩ := h.deform _ _ h1
    obtain ⟨t, h6, h7⟩ := h5 _ _ h2
    exact hf.deform _ _ h4 _ _ h6 _ _ (h7.subset h3)

theorem trimmed_removeSlots (ids : List Str) (x : Anim F) : Trimmed x (x.removeSlots ids) :=
  ⟨rfl, rfl, rfl, rfl, rfl, rfl, List.filter_sublist, fun _ d h => ⟨d, h, fun _ t h => ⟨t, h, .refl _⟩⟩⟩

theorem trimmed_removeDeformSlots (ids : List Str) (x : Anim F) : Trimmed x (x.removeDeformSlots ids) := by
  refine ⟨rfl, rfl, rfl, rfl, rfl, rfl, .refl _, ?_⟩
  intro skin d' hd
  obtain ⟨d, h1, rfl⟩ := (mem_dmap _ _ _ _).1 hd
  exact ⟨d, h1, fun slot t ht => ⟨t, (List.mem_filter.1 ht).1, .refl _⟩⟩

theorem trimmed_removeDeformAtts (ids : List Str) (n : Str) (x : Anim F) : Trimmed x (x.removeDeformAtts ids n) := by
  unfold removeDeformAtts
  split
  · exact .refl x
  · rename_i d hd
    refine ⟨rfl, rfl, rfl, rfl, rfl, rfl, .refl _, ?_⟩
    intro skin d' hm
    rcases mem_set hm with h | h
    · exact ⟨d', h, fun slot t ht => ⟨t, ht, .refl _⟩⟩
    · cases h
      refine ⟨d, Dict.mem_of_get? hd, fun slot t' ht => ?_⟩
      obtain ⟨t, h2, rfl⟩ := (mem_dmap _ _ _ _).1 ht
      exact ⟨t, h2, List.filter_sublist⟩

theorem trimmed_dropDeform (n : Str) (x : Anim F) : Trimmed x (AnimData.dropDeform n x) := by
  refine ⟨rfl, rfl, rfl, rfl, rfl, rfl, .refl _, ?_⟩
  intro skin d hd
  exact ⟨d, (List.mem_filter.1 hd).1, fun slot t ht => ⟨t, ht, .refl _⟩⟩

theorem trimmed_removeDrawOrder (ids : List Str) (orig : List (Slot F)) (x : Anim F) : Trimmed x (removeDrawOrder ids orig x).2 := by
  refine ⟨rfl, rfl, rfl, rfl, rfl, ?_, .refl _, fun _ d h => ⟨d, h, fun _ t h => ⟨t, h, .refl _⟩⟩⟩
  have h : All₂ (fun t t' : DrawTl F => t'.time = t.time) x.drawOrder (mapMut (cleanDraw ids orig) x.drawOrder).2 := by
    refine mapMut_all _ _ ?_ (fun _ => rfl)
    intro t _
    unfold cleanDraw
    split <;> rfl
  exact (h.map_eq (f := fun t => t.time) (g := fun t => t.time) (fun _ _ h => h.symm)).symm

end Anim

namespace AnimData
variable {a a' a'' : AnimData F}

theorem Rest.refl (a : AnimData F) : Rest a a :=
  ⟨rfl, rfl, rfl, .refl _, _, .refl _, All₂.refl (fun _ => ⟨rfl, .refl _⟩) _⟩

theorem Rest.trans (h : Rest a a') (h' : Rest a' a'') : Rest a a'' := by
  refine ⟨h'.events.trans h.events, h'.transform.trans h.transform, h'.path.trans h.path, h'.skins.trans h.skins, ?_⟩
  obtain ⟨l, h1, h2⟩ := h.animations
  obtain ⟨l', h3, h4⟩ := h'.animations
  obtain ⟨j, h5, h6⟩ := h2.sub_left h3
  exact ⟨j, h5.trans h1, h6.comp h4 (fun _ _ _ _ _ r s => ⟨s.1.trans r.1, r.2.trans s.2⟩)⟩

/-- the defaults are in place in the parts that stay -/
structure Filled (v : Bool) (a : AnimData F) : Prop where
  events : dmap (eventsCls.setDefaults v) a.events = a.events
  transform : a.transform.map (transformCls.setDefaults v) = a.transform
  path : a.path.map (pathCls.setDefaults v) = a.path
  animations : ∀ p ∈ a.animations, p.2.Filled v

theorem Rest.filled {v : Bool} (h : Rest a a') (hf : Filled v a) : Filled v a' := by
  refine ⟨by rw [h.events]; exact hf.events, by rw [h.transform]; exact hf.transform, by rw [h.path]; exact hf.path, ?_⟩
  intro p' hp'
  obtain ⟨l, h1, h2⟩ := h.animations
  obtain ⟨p, hp, _, ht⟩ := h2.right hp'
  exact ht.filled (hf.animations p (h1.subset hp))

theorem Filled.of_fixed {v : Bool} (h : a.setDefaults v = a) : Filled v a := by
  obtain ⟨_, _, h3, _, h5, h6, h7⟩ := fixed_iff.1 h
  exact ⟨h3, h5, h6, fun p hp => .of_fixed (dmap_fixed_iff.1 h7 p hp)⟩

theorem rest_anims (a : AnimData F) {an : Dict (Anim F)} (h : All₂ (fun p p' => p'.1 = p.1 ∧ Anim.Trimmed p.2 p'.2) a.animations an) :
    Rest a { a with animations := an } := ⟨rfl, rfl, rfl, .refl _, _, .refl _, h⟩

theorem all₂_dmap {f : Anim F → Anim F} (hf : ∀ x, Anim.Trimmed x (f x)) (d : Dict (Anim F)) :
    All₂ (fun p p' => p'.1 = p.1 ∧ Anim.Trimmed p.2 p'.2) d (dmap f d) := by
  unfold dmap
  rw [All₂.map_right]
  exact All₂.refl (fun _ => ⟨rfl, hf _⟩) _

theorem Filled.rest {v : Bool} (h : Filled v a) : Rest a (a.setDefaults v) := by
  refine ⟨h.events, h.transform, h.path, ?_, _, .refl _, ?_⟩
  · show ((a.skins.map (·.setDefaults v)).map (·.name)).Sublist _
    rw [List.map_map]
    exact .refl _
  · show All₂ _ a.animations (dmap (·.setDefaults v) a.animations)
    unfold dmap
    rw [All₂.map_right]
    have := h.animations
    clear h
    generalize a.animations = d at *
    induction d with
    | nil => exact .nil
    | cons p d ih => exact .cons ⟨rfl, (this p (by simp)).trimmed⟩ (ih (fun p hp => this p (by simp [hp])))

theorem rest_same (a : AnimData F) (b : List (Bone F)) (s : List (Slot F)) (i : List (Attrs F)) :
    Rest a { a with bones := b, slots := s, ik := i } := ⟨rfl, rfl, rfl, .refl _, _, .refl _, All₂.refl (fun _ => ⟨rfl, .refl _⟩) _⟩

theorem rest_skins (a : AnimData F) {sk : List (Skin F)} (h : (sk.map (·.name)).Sublist (a.skins.map (·.name))) : Rest a { a with skins := sk } :=
  ⟨rfl, rfl, rfl, h, _, .refl _, All₂.refl (fun _ => ⟨rfl, .refl _⟩) _⟩

theorem rest_removeSlots (ids : List Str) (orig : List (Slot F)) (a : AnimData F) : Rest a (Editor.removeSlots ids orig a).2 := by
  unfold Editor.removeSlots Editor.drawOrderRefs
  refine Rest.trans (a' := Editor.slotsInSkins ids a) (rest_skins a ?_) (Rest.trans (a' := Editor.slotsInAnims ids (Editor.slotsInSkins ids a))
    (rest_anims _ (all₂_dmap (fun x => (Anim.trimmed_removeSlots ids x).trans (Anim.trimmed_removeDeformSlots ids _)) _)) (rest_anims _ ?_))
  · show (List.map _ (a.skins.map _)).Sublist _
    rw [List.map_map]
    exact .refl _
  · exact mapMutD_all (R := fun _ => Anim.Trimmed) _ _ (fun p _ => Anim.trimmed_removeDrawOrder ids orig p.2) (fun _ => .refl)

theorem rest_removeAttachments (ids : List Str) (a : AnimData F) : Rest a (Editor.removeAttachments ids a) := by
  unfold Editor.removeAttachments
  refine Rest.trans (a' := Editor.attsInSkins ids a) ?_ (rest_same _ _ _ _)
  refine Rest.trans (a' := { a with skins := (Editor.attsInSkins ids a).skins }) (rest_skins a ?_) (rest_anims _ ?_)
  · show (List.map _ (a.skins.map _)).Sublist _
    rw [List.map_map]
    exact .refl _
  · show All₂ _ a.animations (a.skins.foldl _ a.animations)
    have key : ∀ (l : List (Skin F)) (d : Dict (Anim F)), All₂ (fun p p' => p'.1 = p.1 ∧ Anim.Trimmed p.2 p'.2) d
        (l.foldl (fun an s => dmap (Anim.removeDeformAtts ids s.name) an) d) := by
      intro l
      induction l with
      | nil => exact fun d => All₂.refl (fun _ => ⟨rfl, .refl _⟩) d
      | cons s l ih =>
        intro d
        rw [List.foldl_cons]
        exact (all₂_dmap (fun x => Anim.trimmed_removeDeformAtts ids s.name x) d).comp (ih _) (fun _ _ _ _ _ r s => ⟨s.1.trans r.1, r.2.trans s.2⟩)
    exact key _ _

theorem relinkSkin_name (gone : Skin F) (n : Str) (s : Skin F) : (relinkSkin gone n s).2.name = s.name := by
  unfold relinkSkin
  split <;> rfl

theorem rest_removeSkin (n : Str) (a : AnimData F) : Rest a (removeSkin n a).2 := by
  have key : ∀ gone : Skin F, ((mapMut (relinkSkin gone n) a.skins).2.map (·.name)) = a.skins.map (·.name) := by
    intro gone
    have h : All₂ (fun s s' : Skin F => s'.name = s.name) a.skins (mapMut (relinkSkin gone n) a.skins).2 :=
      mapMut_all _ _ (fun s _ => relinkSkin_name gone n s) (fun _ => rfl)
    exact (h.map_eq (f := fun t => t.name) (g := fun t => t.name) (fun _ _ h => h.symm)).symm
  unfold removeSkin
  split
  · exact .refl a
  · rename_i gone _
    simp only
    have h1 : Rest a { a with skins := (mapMut (relinkSkin gone n) a.skins).2 } := rest_skins a (by rw [key]; exact .refl _)
    split
    · exact h1
    · split
      · exact h1
      · refine ⟨rfl, rfl, rfl, ?_, _, .refl _, all₂_dmap (Anim.trimmed_dropDeform n) _⟩
        have := (List.filter_sublist (p := fun s : Skin F => s.name ≠ n) (l := (mapMut (relinkSkin gone n) a.skins).2)).map (·.name)
        rw [key] at this
        exact this

end AnimData

namespace Editor
variable {e e' : Editor F}

/-- what stays of an editor -/
def RestE (e e' : Editor F) : Prop := e'.doc.version = e.doc.version ∧ e'.doc.skeleton = e.doc.skeleton ∧ AnimData.Rest e.data e'.data

theorem RestE.refl (e : Editor F) : RestE e e := ⟨rfl, rfl, .refl _⟩

theorem RestE.trans {e'' : Editor F} (h : RestE e e') (h' : RestE e' e'') : RestE e e'' :=
  ⟨h'.1.trans h.1, h'.2.1.trans h.2.1, h.2.2.trans h'.2.2⟩

theorem rest_readBack (h : e.data.Filled e.doc.version.is38) : RestE e (readBack e).2 := by
  unfold readBack
  split
  · exact .refl e
  · split
    · exact .refl e
    · simp only
      split
      · exact ⟨rfl, rfl, AnimData.rest_same _ _ _ _⟩
      · split
        · exact ⟨rfl, rfl, AnimData.rest_same _ _ _ _⟩
        · refine ⟨rfl, rfl, ?_⟩
          rename_i bs _ _ ss _ _ is _
          have h1 : AnimData.Rest e.data { e.data with bones := bs, slots := ss, ik := is } := AnimData.rest_same _ _ _ _
          exact h1.trans (h1.filled h).rest

theorem rest_clean (h : e.data.Filled e.doc.version.is38) : RestE e (clean e).2 := by
  unfold clean
  simp only
  split
  · exact .refl e
  · split
    · exact ⟨rfl, rfl, .refl _⟩
    · rename_i ids g _
      have h1 := rest_readBack (e := { e with graph := g }) h
      generalize readBack { e with graph := g } = rb at h1
      obtain ⟨r1, e1⟩ := rb
      have h0 : RestE e e1 := h1
      clear h1
      cases r1 with
      | error x => exact h0
      | ok _ =>
        simp only
        have h2 := AnimData.rest_removeSlots ids e.data.slots e1.data
        generalize removeSlots ids e.data.slots e1.data = rs at h2
        obtain ⟨r2, a⟩ := rs
        have hr : RestE e1 (e1.withData a) := ⟨rfl, rfl, h2⟩
        cases r2 with
        | error x => exact h0.trans hr
        | ok _ =>
          simp only
          have h3 : ∀ l, RestE e1 (e1.withData (removeAttachments l a)) := fun l => hr.trans ⟨rfl, rfl, AnimData.rest_removeAttachments _ a⟩
          split
          · exact h0.trans (h3 _)
          · exact h0.trans (h3 _)

theorem rest_cleanUnless (safe : Bool) (h : e.data.Filled e.doc.version.is38) : RestE e (cleanUnless safe e).2 := by
  unfold cleanUnless
  split
  · exact .refl e
  · exact rest_clean h

theorem rest_removeSkins (names : List Str) (a : AnimData F) : AnimData.Rest a (removeSkins names a).2 := by
  induction names generalizing a with
  | nil => exact .refl a
  | cons n ns ih =>
    unfold removeSkins
    have h1 := AnimData.rest_removeSkin n a
    generalize AnimData.removeSkin n a = q at h1
    obtain ⟨r, a1⟩ := q
    cases r with
    | error x => exact h1
    | ok v =>
      simp only
      have h2 := ih a1
      generalize removeSkins ns a1 = q at h2
      obtain ⟨r, a2⟩ := q
      cases r with
      | error x => exact h1.trans h2
      | ok v => exact h1.trans h2

theorem rest_eraseSkins (names : List Str) (safe : Bool) (h : e.data.Filled e.doc.version.is38) : RestE e (eraseSkins names safe e).2 := by
  unfold eraseSkins
  have h1 := rest_removeSkins names e.data
  generalize removeSkins names e.data = q at h1
  obtain ⟨r, a⟩ := q
  have h0 : RestE e (e.withData a) := ⟨rfl, rfl, h1⟩
  clear h1
  cases r with
  | error x => exact h0
  | ok v =>
    simp only
    split
    · exact h0
    · rename_i g _
      have h2 := rest_cleanUnless (e := { e.withData a with graph := g }) safe (h0.2.2.filled h)
      generalize cleanUnless safe { e.withData a with graph := g } = c at h2
      obtain ⟨r, e1⟩ := c
      have h2 : RestE (e.withData a) e1 := h2
      cases r with
      | error x => exact h0.trans h2
      | ok r => exact h0.trans h2

theorem rest_eraseAnims (arg : NamesArg) (strict safe : Bool) (h : e.data.Filled e.doc.version.is38) : RestE e (eraseAnims arg strict safe e).2 := by
  unfold eraseAnims
  split
  · exact .refl e
  · simp only
    rw [eraseRaw_fst]
    have h1 : ∀ f : Str × Anim F → Bool, RestE e (e.withData { e.data with animations := e.data.animations.filter f }) := fun f =>
      ⟨rfl, rfl, rfl, rfl, rfl, .refl _, _, List.filter_sublist, All₂.refl (fun _ => ⟨rfl, .refl _⟩) _⟩
    have h1 := h1 (fun p => decide (p.1 ∉ ‹List Str›))
    split
    · exact h1
    · have h3 := h1.2.2.filled h
      rw [← h1.1] at h3
      have h2 := rest_cleanUnless safe h3
      split
      · rename_i hc; rw [hc] at h2; exact h1.trans h2
      · rename_i hc; rw [hc] at h2; exact h1.trans h2

theorem rest_scale (sx sy : Num F) (e : Editor F) : RestE e (scale sx sy e).2 := by
  unfold scale
  split
  · exact ⟨rfl, rfl, AnimData.rest_same _ _ _ _⟩
  · exact ⟨rfl, rfl, AnimData.rest_same _ _ _ _⟩

theorem rest_run (o : Op F) (h : e.data.Filled e.doc.version.is38) : RestE e (o.run e).2 := by
  cases o with
  | eraseSkins n s => exact rest_eraseSkins n s h
  | eraseAnims a t s => exact rest_eraseAnims a t s h
  | clean => exact rest_clean h
  | scale x y => exact rest_scale x y e

theorem Reached.filled (h : Reached e) : e.data.Filled e.doc.version.is38 := by
  induction h with
  | load h => exact .of_fixed (load_data h).2.2.2
  | @run e o _ ih =>
    have h := rest_run o ih
    rw [h.1]
    exact h.2.2.filled ih

end Editor
end Spine
