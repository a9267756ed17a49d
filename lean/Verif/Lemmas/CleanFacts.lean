import Verif.Lemmas.Unused
import Verif.Lemmas.SkinOps
import Verif.Props.DrawOrder
/- What a successful `clean_animation` does to the animations, and why its other steps cannot fail. -/
set_option linter.unusedSectionVars false
set_option linter.unusedSimpArgs false
namespace Spine
open JVal Graph Container
variable {F : Type} [PyRt F]

namespace Anim

/-- the deform timelines of one slot without some attachments -/
def cutTl (atts : List Str) (d : Dict (Dict (List (Attrs F)))) : Dict (Dict (List (Attrs F))) :=
  dmap (fun v => v.filter (fun p => p.1 ∉ atts)) d

theorem cutTl_idem (atts : List Str) (d : Dict (Dict (List (Attrs F)))) : cutTl atts (cutTl atts d) = cutTl atts d := by
  unfold cutTl
  rw [dmap_dmap]
  congr 1
  funext v
  rw [List.filter_filter]
  simp

/-- the deform timelines of the attachments `atts` removed for the skins `l` -/
def cutDeform (atts l : List Str) (x : Anim F) : Anim F := l.foldl (fun x n => x.removeDeformAtts atts n) x

theorem cutDeform_get? (atts l : List Str) (x : Anim F) (n : Str) : Dict.get? (cutDeform atts l x).deform n =
    (Dict.get? x.deform n).map (fun d => if n ∈ l then cutTl atts d else d) := by
  unfold cutDeform
  induction l generalizing x with
  | nil => simp
  | cons m l ih =>
    rw [List.foldl_cons, ih]
    unfold removeDeformAtts
    cases hm : Dict.get? x.deform m with
    | none =>
      simp only
      by_cases h : n = m
      · subst h; simp [hm]
      · cases Dict.get? x.deform n <;> simp [h]
    | some d =>
      simp only
      rw [Dict.get?_set]
      by_cases h : n = m
      · subst h
        rw [hm]
        simp only [if_pos, Option.map_some, List.mem_cons, true_or, if_true]
        split
        · rw [show dmap (fun v => v.filter (fun p => decide (p.1 ∉ atts))) d = cutTl atts d from rfl, cutTl_idem]
        · rfl
      · have h' : ¬ (m = n) := fun e => h e.symm
        simp only [h, h', if_false]
        cases Dict.get? x.deform n <;> simp [h]

theorem cutDeform_frame (atts l : List Str) (x : Anim F) :
    (cutDeform atts l x).slots = x.slots ∧ (cutDeform atts l x).drawOrder = x.drawOrder ∧ (cutDeform atts l x).ik = x.ik ∧
    (cutDeform atts l x).bones = x.bones ∧ (cutDeform atts l x).events = x.events ∧ (cutDeform atts l x).transform = x.transform ∧
    (cutDeform atts l x).path = x.path ∧ Dict.keys (cutDeform atts l x).deform = Dict.keys x.deform := by
  unfold cutDeform
  induction l generalizing x with
  | nil => exact ⟨rfl, rfl, rfl, rfl, rfl, rfl, rfl, rfl⟩
  | cons m l ih =>
    rw [List.foldl_cons]
    obtain ⟨h1, h2, h3, h4, h5, h6, h7, h8⟩ := ih (x.removeDeformAtts atts m)
    rw [h1, h2, h3, h4, h5, h6, h7, h8, (Editor.Anim.keys_removeDeformAtts atts m x).2]
    unfold removeDeformAtts
    split <;> exact ⟨rfl, rfl, rfl, rfl, rfl, rfl, rfl, rfl⟩

/-- what cleaning does to an animation: `x` before, `x'` after -/
structure Cleaned (ids atts : List Str) (skins : List Str) (orig : List (Slot F)) (x x' : Anim F) : Prop where
  slots : x'.slots = x.slots.filter (fun p => p.1 ∉ ids)
  draw : All₂ (fun t t' => t'.time = t.time ∧ DrawOrder.removeOffsets Slot.name ids orig t.offsets = .ok t'.offsets) x.drawOrder x'.drawOrder
  deform_keys : Dict.keys x'.deform = Dict.keys x.deform
  deform : ∀ n, Dict.get? x'.deform n = (Dict.get? x.deform n).map (fun d =>
    let d := d.filter (fun p => p.1 ∉ ids)
    if n ∈ skins then cutTl atts d else d)
  frame : x'.ik = x.ik ∧ x'.bones = x.bones ∧ x'.events = x.events ∧ x'.transform = x.transform ∧ x'.path = x.path

theorem cleaned_of {ids atts skins : List Str} {orig : List (Slot F)} {x y : Anim F}
    (h : removeDrawOrder ids orig ((x.removeSlots ids).removeDeformSlots ids) = (.ok (), y)) :
    Cleaned ids atts skins orig x (cutDeform atts skins y) := by
  obtain ⟨c1, c2, c3, c4, c5, c6, c7, c8⟩ := cutDeform_frame atts skins y
  unfold removeDrawOrder at h
  simp only [Prod.mk.injEq] at h
  obtain ⟨h1, rfl⟩ := h
  refine ⟨c1, ?_, ?_, ?_, c3, c4, c5, c6, c7⟩
  · rw [c2]
    have := (mapMut_ok _ _ _).1 (Prod.ext h1 rfl)
    refine this.mono ?_
    intro t t' _ ht
    unfold cleanDraw at ht
    split at ht
    · simp at ht
    · rename_i o ho
      simp only [Prod.mk.injEq, true_and] at ht
      rw [← ht]; exact ⟨rfl, ho⟩
  · rw [c8]; exact keys_dmap _ _
  · intro n
    rw [cutDeform_get?]
    show (Dict.get? (dmap _ _) n).map _ = _
    have : ∀ (d : Dict (Dict (Dict (List (Attrs F))))) (f : Dict (Dict (List (Attrs F))) → Dict (Dict (List (Attrs F)))),
        Dict.get? (dmap f d) n = (Dict.get? d n).map f := by
      intro d f
      induction d with
      | nil => rfl
      | cons p d ih =>
        obtain ⟨k, v⟩ := p
        simp only [dmap, List.map_cons, Dict.get?] at ih ⊢
        split <;> simp [ih]
    rw [this, Option.map_map]
    rfl

end Anim

theorem foldl_dmap {α β : Type} (f : β → α → α) (l : List β) (d : Dict α) :
    l.foldl (fun d n => dmap (f n) d) d = dmap (fun x => l.foldl (fun x n => f n x) x) d := by
  induction l generalizing d with
  | nil => simp [dmap]
  | cons n l ih => rw [List.foldl_cons, ih, dmap_dmap]; rfl

namespace Editor
variable {e e' : Editor F} {ids atts slots L A B I : List Str} {g0 g1 g2 g3 : SGraph F} {bs : List (Bone F)}
    {ss : List (Slot F)} {is : List (Attrs F)} {an : Dict (Anim F)}

/-- the animations of any editor after cleaning, up to defaults of attributes -/
theorem clean_anims (h : clean e = (.ok (ids, atts), e')) :
    All₂ (fun p p' => p'.1 = p.1 ∧ Anim.Cleaned ids atts (e.data.skins.map (·.name)) e.data.slots (p.2.setDefaults e.doc.version.is38) p'.2)
      e.data.animations e'.data.animations ∧
    e'.data.skins = e.data.skins.map (fun s => cutSkin ids atts (s.setDefaults e.doc.version.is38)) := by
  obtain ⟨slots, g1, e1, a, imgs, g2, _, _, hr, hs, _, rfl⟩ := clean_ok h
  obtain ⟨j, bs, ss, is, _, _, _, _, rfl⟩ := readBack_ok hr
  obtain ⟨an, han, rfl⟩ := removeSlots_ok hs
  refine ⟨?_, ?_⟩
  · have h : All₂ (fun p p' => p'.1 = p.1 ∧ Anim.removeDrawOrder ids e.data.slots p.2 = (.ok (), p'.2))
        (dmap (fun x => (x.removeSlots ids).removeDeformSlots ids) (dmap (·.setDefaults e.doc.version.is38) e.data.animations)) an :=
      (mapMutD_ok _ _ _).1 han
    rw [dmap_dmap] at h
    unfold dmap at h
    rw [All₂.map_left] at h
    have hres : ((e.data.skins.map (·.setDefaults e.doc.version.is38)).map
        (fun s : Skin F => { s with attachments := s.attachments.filter (fun p => p.1 ∉ ids) })).foldl
          (fun an s => dmap (Anim.removeDeformAtts atts s.name) an) an = dmap (Anim.cutDeform atts (e.data.skins.map (·.name))) an := by
      rw [List.foldl_map, List.foldl_map]
      rw [show Anim.cutDeform atts (e.data.skins.map (·.name)) = fun x : Anim F => (e.data.skins.map (·.name)).foldl (fun x n => x.removeDeformAtts atts n) x from rfl]
      rw [← foldl_dmap (fun n (x : Anim F) => x.removeDeformAtts atts n), List.foldl_map]
      rfl
    refine Eq.mpr (congrArg _ hres) ?_
    unfold dmap
    rw [All₂.map_right]
    refine h.mono ?_
    rintro p q _ ⟨h1, h2⟩
    exact ⟨h1, Anim.cleaned_of h2⟩
  · show List.map _ (List.map _ (List.map _ e.data.skins)) = _
    simp only [List.map_map]
    rfl

theorem clean_anims_sync (hs : Sync e) (h : clean e = (.ok (ids, atts), e')) :
    All₂ (fun p p' => p'.1 = p.1 ∧ Anim.Cleaned ids atts (e.data.skins.map (·.name)) e.data.slots p.2 p'.2)
      e.data.animations e'.data.animations := by
  refine (clean_anims h).1.mono ?_
  intro p p' hp h
  rw [dmap_fixed_iff.1 (AnimData.fixed_iff.1 hs.dflt).2.2.2.2.2.2 p hp] at h
  exact h

end Editor
end Spine
