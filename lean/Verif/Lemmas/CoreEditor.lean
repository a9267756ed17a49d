import Verif.Lemmas.CleanRun
import Verif.Props.EditorBasic
import Verif.Props.Images
/- Every editor operation, whatever its outcome, keeps the bones and iks of the graph well-formed. -/
set_option linter.unusedSectionVars false
set_option linter.unusedSimpArgs false
namespace Spine
open JVal Graph Container
variable {F : Type} [PyRt F]

/-- ids of slot, attachment and image nodes only -/
def Loose (S : List Str) : Prop := ∀ x ∈ S, ∃ t n, t ≠ NType.bone ∧ t ≠ NType.ik ∧ x = graphId t n

theorem Loose.append {S R : List Str} (h : Loose S) (h' : Loose R) : Loose (S ++ R) := by
  intro x hx
  rcases List.mem_append.1 hx with hx | hx
  · exact h x hx
  · exact h' x hx

theorem Loose.nodesOf {b : Bool} {g : SGraph F} (hc : Core b g) {S : List Str} (h : Loose S) {t : NType} (ht : t = .bone ∨ t = .ik) :
    Spine.nodesOf (Graph.restrict g S) t = Spine.nodesOf g t := by
  apply nodesOf_restrict_other hc.wf
  intro x hx nd hn
  obtain ⟨u, n, h1, h2, rfl⟩ := h x hx
  rw [hc.typed' hn]
  rcases ht with rfl | rfl
  · exact h1
  · exact h2

theorem Doomed.loose {b : Bool} {g : SGraph F} (hc : Core b g) {rel : Node NType (Int × JVal F) → List Str} {t : NType}
    (h1 : t ≠ .bone) (h2 : t ≠ .ik) {S : List Str} (hS : ∀ x ∈ S, Doomed g rel t x) : Loose S := by
  intro x hx
  cases hS x hx with
  | mk hn ht _ =>
    obtain ⟨_, m, e⟩ := hc.typed _ _ hn
    rw [ht] at e
    exact ⟨t, m, h1, h2, e⟩

theorem removeNamed_loose (t : NType) (h1 : t ≠ .bone) (h2 : t ≠ .ik) (l : List Str) : ∀ {g : SGraph F}, WF g →
    ∃ r S, removeNamed t l g = (r, restrict g S) ∧ Loose S := by
  induction l with
  | nil => intro g _; exact ⟨_, [], by rw [restrict_nil]; rfl, by intro x hx; cases hx⟩
  | cons x r ih =>
    intro g hg
    by_cases hx : HasNode g (graphId t x)
    · obtain ⟨n, hn⟩ := hx
      obtain ⟨e, S, hS, hl⟩ := ih (wf_restrict hg [graphId t x])
      refine ⟨e, [graphId t x] ++ S, ?_, Loose.append ?_ hl⟩
      · simp only [removeNamed, removeNode_eq hg hn, hS, restrict_restrict]
      · intro y hy
        simp only [List.mem_cons, List.not_mem_nil, or_false] at hy
        exact ⟨t, x, h1, h2, hy⟩
    · refine ⟨.error .value, [], ?_, by intro x hx; cases hx⟩
      simp only [removeNamed, removeNode_missing hx, restrict_nil]

namespace Editor

/-- the graph is well-formed, the data's bones and iks have the attributes of their class -/
structure ECore (e : Editor F) : Prop where
  core : Core e.doc.version.is38 e.graph
  bones : ∀ b ∈ e.data.bones, Bone.Good b
  iks : KeysOf ikCls e.data.ik

theorem cleanGraph_loose {b : Bool} {g : SGraph F} (hc : Core b g) (slots atts : List Str) :
    ∃ r S, cleanGraph slots atts g = (r, restrict g S) ∧ Loose S := by
  unfold cleanGraph
  obtain ⟨r1, S1, h1, l1⟩ := removeNamed_loose .slot (by decide) (by decide) (setList F slots) hc.wf
  rw [h1]
  cases r1 with
  | error x => exact ⟨_, S1, rfl, l1⟩
  | ok _ =>
    have c1 := hc.restrict S1
    obtain ⟨r2, S2, h2, l2⟩ := removeNamed_loose .attachment (by decide) (by decide) (setList F atts) c1.wf
    simp only [h2]
    cases r2 with
    | error x => exact ⟨_, S1 ++ S2, Prod.ext rfl (restrict_restrict _ _ _), l1.append l2⟩
    | ok _ =>
      have c2 := c1.restrict S2
      obtain ⟨L, hL1, _, hL2⟩ := removeLeafs_spec (baseId .slot) NType.slot c2.wf
      simp only [hL1]
      refine ⟨_, S1 ++ S2 ++ L, Prod.ext rfl ?_,
        (l1.append l2).append (Doomed.loose c2 (by decide) (by decide) (fun x hx => (hL2 x).1 hx))⟩
      simp only [restrict_restrict, List.append_assoc]

theorem detach_loose {b : Bool} {g : SGraph F} (hc : Core b g) : ∃ r S, detach g = (r, restrict g S) ∧ Loose S := by
  unfold detach
  obtain ⟨A, hA1, _, hA2⟩ := removeHeads_spec (baseId .attachment) NType.attachment hc.wf
  have c1 := hc.restrict A
  obtain ⟨B, hB1, _, hB2⟩ := removeLeafs_spec (baseId .attachment) NType.attachment c1.wf
  have c2 := c1.restrict B
  obtain ⟨I, hI1, _, hI2⟩ := removeHeads_spec (baseId .image) NType.image c2.wf
  simp only [hA1, hB1, hI1]
  refine ⟨_, A ++ B ++ I, Prod.ext rfl ?_, Loose.append (Loose.append ?_ ?_) ?_⟩
  · simp only [restrict_restrict, List.append_assoc]
  · exact Doomed.loose hc (by decide) (by decide) (fun x hx => (hA2 x).1 hx)
  · exact Doomed.loose c1 (by decide) (by decide) (fun x hx => (hB2 x).1 hx)
  · exact Doomed.loose c2 (by decide) (by decide) (fun x hx => (hI2 x).1 hx)

theorem readBack_core {e : Editor F} (hb : ∀ b ∈ e.data.bones, Bone.Good b) (hi : KeysOf ikCls e.data.ik) :
    (readBack e).2.graph = e.graph ∧ (readBack e).2.doc.version = e.doc.version ∧
    (∀ b ∈ (readBack e).2.data.bones, Bone.Good b) ∧ KeysOf ikCls (readBack e).2.data.ik := by
  unfold readBack
  split
  · exact ⟨rfl, rfl, hb, hi⟩
  · split
    · exact ⟨rfl, rfl, hb, hi⟩
    · rename_i bs hbs
      have hbs' : ∀ b ∈ bs, Bone.Good b := good_mapE (fun _ _ => Bone.good_init) hbs
      simp only
      split
      · exact ⟨rfl, rfl, hbs', hi⟩
      · split
        · exact ⟨rfl, rfl, hbs', hi⟩
        · rename_i is his
          refine ⟨rfl, rfl, ?_, ?_⟩
          · exact good_map (G := Bone.Good) (fun _ => Bone.good_setDefaults _) hbs'
          · exact keysOf_setDefaults _ (keysOf_init his)

theorem removeSlots_bones (ids : List Str) (orig : List (Slot F)) (a : AnimData F) :
    (removeSlots ids orig a).2.bones = a.bones ∧ (removeSlots ids orig a).2.ik = a.ik := ⟨rfl, rfl⟩

/-- `clean_animation`, whatever its outcome -/
theorem clean_any {e : Editor F} (hc : ECore e) : ∃ S, Loose S ∧ (clean e).2.graph = restrict e.graph S ∧ ECore (clean e).2 ∧
    (clean e).2.doc.version = e.doc.version := by
  have base : ∃ S, Loose S ∧ e.graph = restrict e.graph S ∧ ECore e ∧ e.doc.version = e.doc.version :=
    ⟨[], (by intro x hx; cases hx), (restrict_nil _).symm, hc, rfl⟩
  unfold clean
  simp only
  split
  · exact base
  rename_i slots atts hu
  obtain ⟨r, S, hS, hl⟩ := cleanGraph_loose hc.core slots atts
  rw [hS]
  cases r with
  | error x => exact ⟨S, hl, rfl, ⟨hc.core.restrict S, hc.bones, hc.iks⟩, rfl⟩
  | ok ids =>
    simp only
    obtain ⟨q1, q2, q3, q4⟩ := readBack_core (e := { e with graph := restrict e.graph S }) hc.bones hc.iks
    have q1' : (readBack { e with graph := restrict e.graph S }).2.graph = restrict e.graph S := q1
    have q2' : (readBack { e with graph := restrict e.graph S }).2.doc.version = e.doc.version := q2
    generalize readBack { e with graph := restrict e.graph S } = rb at q1' q2' q3 q4
    obtain ⟨r1, e1⟩ := rb
    simp only at q1' q2' q3 q4
    have c1 : Core e1.doc.version.is38 e1.graph := by rw [q1', q2']; exact hc.core.restrict S
    cases r1 with
    | error x => exact ⟨S, hl, q1', ⟨c1, q3, q4⟩, q2'⟩
    | ok _ =>
      simp only
      obtain ⟨b1, b2⟩ := removeSlots_bones ids e.data.slots e1.data
      generalize removeSlots ids e.data.slots e1.data = rs at b1 b2
      obtain ⟨r2, a⟩ := rs
      simp only at b1 b2
      have q3' : ∀ b ∈ a.bones, Bone.Good b := by rw [b1]; exact q3
      have q4' : KeysOf ikCls a.ik := by rw [b2]; exact q4
      cases r2 with
      | error x => exact ⟨S, hl, q1', ⟨c1, q3', q4'⟩, q2'⟩
      | ok _ =>
        obtain ⟨r3, S3, h3, l3⟩ := detach_loose c1
        have h3' : detach (e1.withData (removeAttachments atts a)).graph = (r3, restrict e1.graph S3) := h3
        simp only [h3']
        cases r3 with
        | error x => exact ⟨S ++ S3, hl.append l3, by rw [← restrict_restrict, ← q1'], ⟨c1.restrict S3, q3', q4'⟩, q2'⟩
        | ok imgs => exact ⟨S ++ S3, hl.append l3, by rw [← restrict_restrict, ← q1']; rfl, ⟨c1.restrict S3, q3', q4'⟩, q2'⟩

theorem load_data {doc : JVal F} {e : Editor F} (h : load doc = .ok e) :
    (∀ b ∈ e.data.bones, Bone.Good b) ∧ (∀ s ∈ e.data.skins, Skin.Good s) ∧ KeysOf ikCls e.data.ik ∧
    e.data.setDefaults e.doc.version.is38 = e.data := by
  obtain ⟨d, v, a, _, _, _, _, h1, h2⟩ := SpineDoc.load_ok (load_ok h).1
  have hg : AnimData.Good true a := AnimData.good_init h1 (fun _ _ _ _ => .inl rfl)
  show (∀ b ∈ e.doc.data.bones, _) ∧ (∀ b ∈ e.doc.data.skins, _) ∧ KeysOf ikCls e.doc.data.ik ∧ e.doc.data.setDefaults _ = e.doc.data
  rw [h2]
  exact ⟨good_map (G := Bone.Good) (fun _ => Bone.good_setDefaults _) hg.bones,
    good_map (G := Skin.Good) (fun _ => Skin.good_setDefaults _) hg.skins, keysOf_setDefaults _ hg.ik,
    AnimData.setDefaults_idem _ _⟩

theorem ecore_load {doc : JVal F} {e : Editor F} (h : load doc = .ok e) : ECore e := by
  obtain ⟨h1, h2, h3, _⟩ := load_data h
  exact ⟨core_fresh (load_ok h).2.2 h1 h3, h1, h3⟩

theorem removeSkin_bones (n : Str) (a : AnimData F) : (AnimData.removeSkin n a).2.bones = a.bones ∧
    (AnimData.removeSkin n a).2.ik = a.ik ∧ (AnimData.removeSkin n a).2.slots = a.slots := by
  unfold AnimData.removeSkin
  split
  · exact ⟨rfl, rfl, rfl⟩
  · simp only
    split
    · exact ⟨rfl, rfl, rfl⟩
    · split
      · exact ⟨rfl, rfl, rfl⟩
      · exact ⟨rfl, rfl, rfl⟩

theorem removeSkins_bones (l : List Str) (a : AnimData F) : (removeSkins l a).2.bones = a.bones ∧
    (removeSkins l a).2.ik = a.ik ∧ (removeSkins l a).2.slots = a.slots := by
  induction l generalizing a with
  | nil => exact ⟨rfl, rfl, rfl⟩
  | cons n l ih =>
    unfold removeSkins
    have h := removeSkin_bones n a
    split
    · rename_i x a' hx; rw [hx] at h; exact h
    · rename_i i r a' hx
      rw [hx] at h
      have h' := ih a'
      split
      · rename_i hy; rw [hy] at h'; exact ⟨h'.1.trans h.1, h'.2.1.trans h.2.1, h'.2.2.trans h.2.2⟩
      · rename_i hy; rw [hy] at h'; exact ⟨h'.1.trans h.1, h'.2.1.trans h.2.1, h'.2.2.trans h.2.2⟩

/-- the parts of a successful `erase_skins` -/
theorem eraseSkins_ok {names : List Str} {safe : Bool} {e e' : Editor F} {r : List Str × List Str} {gone : List (Option Str)}
    (h : eraseSkins names safe e = (.ok (r, gone), e')) :
    ∃ imgs regions a g e1, removeSkins names e.data = (.ok (imgs, regions), a) ∧
      SpineNodes.create (e.withData a).toJson = .ok g ∧
      gone = (imgs ++ regions.map some).filter (fun i => (Graph.getNode g (imageId i)).isNone) ∧
      cleanUnless safe { e.withData a with graph := g } = (.ok r, e1) ∧ e' = cleanImages gone e1 := by
  unfold eraseSkins at h
  split at h
  · simp at h
  · rename_i imgs regions a ha
    simp only at h
    split at h
    · simp at h
    · rename_i g hg
      split at h
      · simp at h
      · rename_i r' e1 he1
        simp only [Prod.mk.injEq, Except.ok.injEq] at h
        obtain ⟨⟨rfl, rfl⟩, rfl⟩ := h
        exact ⟨imgs, regions, a, g, e1, ha, hg, rfl, he1, rfl⟩

theorem good_scale (sx sy : Num F) (b : Bone F) (hb : Bone.Good b) : Bone.Good (b.scale sx sy).2 := by
  have hx : s!!"scaleX" ∈ Dict.keys b.rest := by
    have : s!!"scaleX" ∈ Dict.keys b.attrs := by rw [hb]; simp [boneCls]
    simpa [Bone.attrs, Dict.keys] using this
  have hy : s!!"scaleY" ∈ Dict.keys b.rest := by
    have : s!!"scaleY" ∈ Dict.keys b.attrs := by rw [hb]; simp [boneCls]
    simpa [Bone.attrs, Dict.keys] using this
  have key : ∀ (c : Bone F), c.name = b.name → c.parent = b.parent → Dict.keys c.rest = Dict.keys b.rest → Bone.Good c := by
    intro c h1 h2 h3
    unfold Bone.Good at hb ⊢
    rw [← hb]
    simp only [Bone.attrs, Dict.keys, List.map_cons, List.cons.injEq, true_and]
    exact h3
  unfold Bone.scale
  split
  · exact hb
  · exact hb
  · split
    · exact hb
    · simp only
      split
      · exact key _ rfl rfl (keys_set_of_mem hx _)
      · refine key _ rfl rfl ?_
        show Dict.keys (Dict.set (Dict.set b.rest _ _) _ _) = _
        rw [keys_set_of_mem, keys_set_of_mem hx]
        rw [keys_set_of_mem hx]; exact hy

theorem onFirst_good (n : Str) (f : Bone F → Res (Bone F) Unit) (hf : ∀ b, Bone.Good b → Bone.Good (f b).2) (l : List (Bone F))
    (hl : ∀ b ∈ l, Bone.Good b) : ∀ b ∈ (onFirst n f l).2, Bone.Good b := by
  induction l with
  | nil => simp [onFirst]
  | cons x l ih =>
    unfold onFirst
    split
    · intro b hb
      rcases List.mem_cons.1 hb with rfl | hb
      · exact hf x (hl x (by simp))
      · exact hl b (by simp [hb])
    · intro b hb
      rcases List.mem_cons.1 hb with rfl | hb
      · exact hl b (by simp)
      · exact ih (fun b hb => hl b (by simp [hb])) b hb

theorem mapMut_good {α : Type} {G : α → Prop} (f : α → Res α Unit) (hf : ∀ b, G b → G (f b).2) (l : List α) (hl : ∀ b ∈ l, G b) :
    ∀ b ∈ (mapMut f l).2, G b := by
  induction l with
  | nil => simp [mapMut]
  | cons x l ih =>
    unfold mapMut
    have hx := hf x (hl x (by simp))
    split
    · rename_i e x' h
      rw [h] at hx
      intro b hb
      rcases List.mem_cons.1 hb with rfl | hb
      · exact hx
      · exact hl b (by simp [hb])
    · rename_i u x' h
      rw [h] at hx
      intro b hb
      rcases List.mem_cons.1 hb with rfl | hb
      · exact hx
      · exact ih (fun b hb => hl b (by simp [hb])) b hb

theorem scale_any (sx sy : Num F) {e : Editor F} (hc : ECore e) : ECore (scale sx sy e).2 ∧ (scale sx sy e).2.graph = e.graph ∧
    (scale sx sy e).2.doc.version = e.doc.version := by
  have h1 := mapMut_good (fun b => if noInherit b then b.scale sx sy else (.ok (), b)) (G := Bone.Good)
    (by intro b hb; split
        · exact good_scale sx sy b hb
        · exact hb) e.data.bones hc.bones
  unfold scale
  split
  · rename_i x bs h; rw [h] at h1
    exact ⟨⟨hc.core, h1, hc.iks⟩, rfl, rfl⟩
  · rename_i x bs h; rw [h] at h1
    exact ⟨⟨hc.core, onFirst_good _ _ (good_scale sx sy) _ h1, hc.iks⟩, rfl, rfl⟩

theorem cleanUnless_any (safe : Bool) {e : Editor F} (hc : ECore e) : ∃ S, Loose S ∧ (cleanUnless safe e).2.graph = restrict e.graph S ∧
    ECore (cleanUnless safe e).2 ∧ (cleanUnless safe e).2.doc.version = e.doc.version := by
  unfold cleanUnless
  split
  · exact ⟨[], (by intro x hx; cases hx), (restrict_nil _).symm, hc, rfl⟩
  · exact clean_any hc

theorem eraseAnims_any (arg : NamesArg) (strict safe : Bool) {e : Editor F} (hc : ECore e) : ∃ S, Loose S ∧
    (eraseAnims arg strict safe e).2.graph = restrict e.graph S ∧ ECore (eraseAnims arg strict safe e).2 ∧
    (eraseAnims arg strict safe e).2.doc.version = e.doc.version := by
  have nil : Loose [] := by intro x hx; cases hx
  unfold eraseAnims
  split
  · exact ⟨[], nil, (restrict_nil _).symm, hc, rfl⟩
  · rename_i names
    simp only
    have hc' : ECore (e.withData { e.data with animations := (eraseRaw names e.data.animations).1 }) := ⟨hc.core, hc.bones, hc.iks⟩
    split
    · exact ⟨[], nil, (restrict_nil _).symm, hc', rfl⟩
    · have := cleanUnless_any safe hc'
      split
      · rename_i h; rw [h] at this; exact this
      · rename_i h; rw [h] at this; exact this

theorem ecore_fresh {e : Editor F} (hc : ECore e) {a : AnimData F} {g : SGraph F} (hb : a.bones = e.data.bones) (hi : a.ik = e.data.ik)
    (hg : SpineNodes.create (e.withData a).toJson = .ok g) : ECore { e.withData a with graph := g } := by
  have b1 : ∀ b ∈ a.bones, Bone.Good b := by rw [hb]; exact hc.bones
  have b2 : KeysOf ikCls a.ik := by rw [hi]; exact hc.iks
  exact ⟨core_fresh (s := { e.doc with data := a }) hg b1 b2, b1, b2⟩

theorem eraseSkins_core {names : List Str} {safe : Bool} {e e' : Editor F} {r : List Str × List Str} {gone : List (Option Str)}
    (hc : ECore e) (h : eraseSkins names safe e = (.ok (r, gone), e')) :
    ∃ a g S, Loose S ∧ a.bones = e.data.bones ∧ a.ik = e.data.ik ∧ SpineNodes.create (e.withData a).toJson = .ok g ∧ Core e.doc.version.is38 g ∧
      e'.graph = restrict g S ∧ ECore e' ∧ e'.doc.version = e.doc.version := by
  obtain ⟨imgs, regions, a, g, e1, h1, h2, _, h4, rfl⟩ := eraseSkins_ok h
  have hb := removeSkins_bones names e.data
  rw [h1] at hb
  have hc' := ecore_fresh hc hb.1 hb.2.1 h2
  obtain ⟨S, hS, hg, hc1, hv⟩ := cleanUnless_any safe hc'
  rw [h4] at hg hc1 hv
  exact ⟨a, g, S, hS, hb.1, hb.2.1, h2, hc'.core, hg, ⟨hc1.core, hc1.bones, hc1.iks⟩, hv⟩

theorem eraseSkins_any (names : List Str) (safe : Bool) {e : Editor F} (hc : ECore e) : ECore (eraseSkins names safe e).2 := by
  unfold eraseSkins
  have hb := removeSkins_bones names e.data
  split
  · rename_i x a ha
    rw [ha] at hb
    exact ⟨hc.core, fun b h => hc.bones b (hb.1 ▸ h), fun b h => hc.iks b (hb.2.1 ▸ h)⟩
  · rename_i imgs regions a ha
    rw [ha] at hb
    simp only
    split
    · exact ⟨hc.core, fun b h => hc.bones b (hb.1 ▸ h), fun b h => hc.iks b (hb.2.1 ▸ h)⟩
    · rename_i g hg
      obtain ⟨_, _, _, h, _⟩ := cleanUnless_any safe (ecore_fresh hc hb.1 hb.2.1 hg)
      split
      · rename_i hq; rw [hq] at h; exact h
      · rename_i hq; rw [hq] at h; exact ⟨h.core, h.bones, h.iks⟩

/-- an editor after any history of calls, whatever their outcomes -/
inductive Reached : Editor F → Prop
  | load {doc e} : load doc = .ok e → Reached e
  | run {e} (o : Op F) : Reached e → Reached (o.run e).2

theorem Reached.core {e : Editor F} (h : Reached e) : ECore e := by
  induction h with
  | load h => exact ecore_load h
  | run o _ ih =>
    cases o with
    | eraseSkins n s => exact eraseSkins_any n s ih
    | eraseAnims a t s => obtain ⟨_, _, _, h, _⟩ := eraseAnims_any a t s ih; exact h
    | clean => obtain ⟨_, _, _, h, _⟩ := clean_any ih; exact h
    | scale x y => exact (scale_any x y ih).1

end Editor
end Spine
