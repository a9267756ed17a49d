import Verif.Lemmas.StateEdit
import Verif.Lemmas.FineEditor
import Verif.Props.Reopen
/- C88: opening the document that an editor saves. -/
set_option linter.unusedSectionVars false
set_option linter.unusedSimpArgs false
namespace Spine
namespace State
open JVal Graph
open KeyOrder (Mems all₂_symm)
variable {F : Type} [PyRt F] {b : Bool} {x y : AnimData F} {e e' : Editor F}

theorem hasAtt_rel (h : DataR b x y) {slot k : Str} {a : Att F} (ha : x.HasAtt slot k a) : ∃ a', y.HasAtt slot k a' ∧ AttR b a a' := by
  obtain ⟨s, hs, d, hd, hk⟩ := ha
  obtain ⟨t, ht, hst⟩ := h.skins.left hs
  obtain ⟨⟨_, d'⟩, hd', e1, hdd⟩ := All₂.left hst.2 hd
  simp only at e1 hdd
  subst e1
  obtain ⟨⟨_, a'⟩, hk', e1, haa⟩ := All₂.left hdd hk
  simp only at e1 haa
  subst e1
  exact ⟨a', ⟨t, ht, d', hd', hk'⟩, haa⟩

theorem has_rel {s t : Skin F} (h : SkinR b s t) {slot k : Str} {a : Att F} (ha : s.Has slot k a) : ∃ a', t.Has slot k a' ∧ AttR b a a' := by
  obtain ⟨d, hd, hk⟩ := ha
  obtain ⟨⟨_, d'⟩, hd', e1, hdd⟩ := All₂.left h.2 hd
  simp only at e1 hdd
  subst e1
  obtain ⟨⟨_, a'⟩, hk', e1, haa⟩ := All₂.left hdd hk
  simp only at e1 haa
  subst e1
  exact ⟨a', ⟨d', hd', hk'⟩, haa⟩

theorem imageName_rel {a a' : Att F} (h : AttR b a a') {key i : Str} (hi : ImageName key a i) : ImageName key a' i := by
  have h1 : Dict.get? a.attrs s!!"path" = Dict.get? a'.attrs s!!"path" := h.2.get? (AttKind.no_default _ _ _ (by simp))
  have h2 : Dict.get? a.attrs s!!"name" = Dict.get? a'.attrs s!!"name" := h.2.get? (AttKind.no_default _ _ _ (by simp))
  cases hi with
  | path e1 e2 => exact .path (h1 ▸ e1) e2
  | name e1 e2 e3 => exact .name (fun t ht => e1 t (h1 ▸ ht)) (h2 ▸ e2) e3
  | key e1 e2 => exact .key (fun t ht => e1 t (h1 ▸ ht)) (fun t ht => e2 t (h2 ▸ ht))

theorem DataR.names (h : DataR b x y) (hn : x.NamesOk) : y.NamesOk := by
  refine ⟨?_, ?_, ?_⟩
  · rw [← h.slots]; exact hn.slots
  · intro slot key a i ha hi
    obtain ⟨a', h1, h2⟩ := hasAtt_rel h.symm ha
    exact hn.images slot key a' i h1 (imageName_rel h2 hi)
  · intro slot key a ha
    obtain ⟨a', h1, _⟩ := hasAtt_rel h.symm ha
    exact hn.keys slot key a' h1

theorem linksTo_rel {a a' : Att F} (h : AttR b a a') {n : Str} (hl : a.LinksTo n) : a'.LinksTo n :=
  ⟨by rw [← h.1]; exact hl.1, by rw [← h.2.get? (k := s!!"skin") (by rw [hl.1]; exact linked_no_default b _ (by simp))]; exact hl.2⟩

theorem DataR.noPath (h : DataR b x y) (hn : x.NoPathLink) : y.NoPathLink := by
  intro s hs t ht slot key a p ha hl hp
  obtain ⟨s', hs', h1⟩ := h.symm.skins.left hs
  obtain ⟨t', ht', h2⟩ := h.symm.skins.left ht
  obtain ⟨a', ha', h3⟩ := has_rel h1 ha
  obtain ⟨p', hp', h4⟩ := has_rel h2 hp
  rw [h4.1]
  refine hn s' hs' t' ht' slot key a' p' ha' ?_ hp'
  rw [← h2.1]
  exact linksTo_rel h3 hl

theorem time_rel {t u : DrawTl F} (h : DrR false t u) (ht : t.time ≠ .null) : u.time ≠ .null := by
  intro hu
  have := h.2 []
  obtain ⟨a, o⟩ := t
  obtain ⟨a', o'⟩ := u
  simp only at hu ht
  subst hu
  unfold DrawTl.toJson at this
  injection this with this
  have hd : Dict.get? ((drawCls (F := F)).defaultsFor false) s!!"time" = none := rfl
  have e1 : (drawCls (F := F)).emits false s!!"time" a = true := by
    unfold Cls.emits
    rw [hd]
    cases a <;> first | rfl | exact absurd rfl ht
  have e2 : (drawCls (F := F)).emits false s!!"time" .null = false := by
    unfold Cls.emits
    rw [hd]
    rfl
  simp only [e1, e2] at this
  simp at this

theorem shaped_load {doc : JVal F} (h : Editor.load doc = .ok e) : Shaped e.data := by
  obtain ⟨d, v, a, _, _, _, _, h3, h4⟩ := SpineDoc.load_ok (Editor.load_ok h).1
  have ha := AnimData.good_init (b := true) h3 (fun _ _ _ _ => .inl rfl)
  constructor
  · show ∀ y ∈ e.doc.data.skins, _
    rw [h4]; exact good_map (G := Skin.Good) (fun _ => Skin.good_setDefaults _) ha.skins
  · show ∀ p ∈ e.doc.data.animations, _
    rw [h4]
    intro p hp
    obtain ⟨q, hq, rfl⟩ := List.mem_map.1 hp
    exact good_dmap (G := SlotTl.Good) (fun _ => SlotTl.good_setDefaults _) (ha.animations q hq).slots

theorem fixed_load {doc : JVal F} (h : Editor.load doc = .ok e) : e.data.setDefaults e.doc.version.is38 = e.data :=
  (Editor.load_data h).2.2.2

theorem edited (h : Editor.RanOpen e) : Editor.Edited e := by
  induction h with
  | load h1 h2 => exact .load h1 h2
  | run o _ h ih => have := Editor.Edited.run o ih; rw [h] at this; exact this
  | scaled sx sy _ ih => exact .run (.scale sx sy) ih
  | failedErase arg strict _ ih => exact .run (.eraseAnims arg strict true) ih

theorem skeleton_of_json {s t : SpineDoc F} (h : s.toJson = t.toJson) : s.skeleton = t.skeleton := by
  unfold SpineDoc.toJson at h
  injection h with h
  have := congrArg (fun d => Dict.get? d s!!"skeleton") h
  simp only [Dict.get?_set, if_true] at this
  injection this with this
  injection this

/-- editors with the same saved document -/
theorem ER.of (h : e.toJson = e'.toJson) (ho : Editor.Open e) (ho' : Editor.Open e') : ER e e' := by
  have h : e.doc.toJson = e'.doc.toJson := h
  have hk := skeleton_of_json h
  have hv : e.doc.version = e'.doc.version := by
    obtain ⟨v, h1, h2⟩ := ho.ver
    obtain ⟨w, h3, h4⟩ := ho'.ver
    rw [hk, h3] at h1
    injection h1 with h1
    injection h1 with h1
    subst h1
    rw [h4] at h2
    injection h2 with h2
    exact h2.symm
  refine ⟨hk, hv, DataR.of h hv (Shaped.of ho.good) (Shaped.of ho'.good) ho.sync.dflt ?_⟩
  rw [hv]; exact ho'.sync.dflt

theorem load_version {d : JVal F} (h : Editor.load d = .ok e) :
    ∃ v, Dict.get? e.doc.skeleton s!!"spine" = some (.str v) ∧ Version.mk? F v = .ok e.doc.version := by
  obtain ⟨d, v, a, _, _, h1, h2, _, _⟩ := SpineDoc.load_ok (Editor.load_ok h).1
  exact ⟨v, h1, h2⟩

theorem ready_load {doc : JVal F} (h : Editor.load doc = .ok e) (ho : Editor.Open e) : Ready e :=
  ⟨ho, (nodesOf_fresh (Editor.load_ok h).2.2).1, (nodesOf_fresh (Editor.load_ok h).2.2).2.2⟩

/-- opening what was saved gives an editor that can be used in place of the first -/
theorem reopened (h : Editor.RanOpen e) (hl : Editor.load e.toJson = .ok e') : Editor.RanOpen e' ∧ ER e e' := by
  have ho := h.open
  have hj := Editor.c23_same_output_partial h hl
  have hj2 : e.doc.toJson = e'.doc.toJson := hj.symm
  have hk := skeleton_of_json hj2
  have hv : e.doc.version = e'.doc.version := by
    obtain ⟨v, h1, h2⟩ := ho.ver
    obtain ⟨w, h3, h4⟩ := load_version hl
    rw [hk, h3] at h1
    injection h1 with h1
    injection h1 with h1
    subst h1
    rw [h4] at h2
    injection h2 with h2
    exact h2.symm
  have hd : DataR e.doc.version.is38 e.data e'.data := by
    refine DataR.of hj2 hv (Shaped.of ho.good) (shaped_load hl) ho.sync.dflt ?_
    rw [hv]; exact fixed_load hl
  refine ⟨.load (edited h).proper hl (hd.names ho.sync.names) ?_ ?_ (hd.noPath ho.noPath), hk, hv, hd⟩
  · rw [← hd.slots]; exact ho.slotBone
  · rw [← hv]
    cases hb : e.doc.version.is38 with
    | true => exact .inl rfl
    | false =>
      refine .inr ?_
      intro p hp t ht
      rw [hb] at hd
      obtain ⟨q, hq, _, h1⟩ := All₂.left (hd.symm.animations) hp
      obtain ⟨u, hu, h2⟩ := h1.drawOrder.left ht
      have h3 := (ho.good.animations q hq).drawOrder u hu
      rw [hb] at h3
      rcases h3 with h3 | h3
      · cases h3
      · exact time_rel ⟨h2.1.symm, fun o => (h2.2 o).symm⟩ h3

end State
end Spine
