import Verif.Lemmas.SimImages
/-
The editor of the heap model against the editor of the value model: `clean_animation`.
-/
set_option linter.unusedSectionVars false
namespace Spine
namespace Alias
open M Editor Graph
variable {F : Type} [PyRt F] {B : Nat} {N : Nat → Prop} {h : Heap F}

/-- every address -/
def Any : Nat → Prop := fun _ => True

/-- the heap holds the editor of the value model -/
structure Holds (B : Nat) (E : Env F) (N : Nat → Prop) (h : Heap F) (e : Ed F) (v : Editor F) : Prop where
  zone : Zone N h
  consts : Consts B E N h
  skeleton : JOk B N h e.skeleton (.dict v.doc.skeleton)
  version : e.version = v.doc.version
  parts : ∃ Sd Si, (∀ a, Sd a → Si a → a < h.length → False) ∧ Rep B N h e.data (tData v.data) Sd ∧ Rep B N h e.images (tdict tImage v.images) Si
  graph : GOk B N h e.graph v.graph

theorem Ext.any {N' : Nat → Prop} {h' : Heap F} {S : Nat → Prop} (e : Ext N h S N' h') : Ext N h Any N' h' := e.mono (fun _ _ _ => trivial)

theorem Consts.ext {E : Env F} {N' : Nat → Prop} {h' : Heap F} {S : Nat → Prop} (hz : Zone N h) (e : Ext N h S N' h') (hc : Consts B E N h) :
    Consts B E N' h' := Consts.stable Nil _ _ _ _ _ hz e (fun _ _ h _ => h) hc

theorem Holds.ext {E : Env F} {N' : Nat → Prop} {h' : Heap F} {e : Ed F} {v : Editor F} (hs : Holds B E N h e v) (x : Ext N h Nil N' h') :
    Holds B E N' h' e v := by
  obtain ⟨Sd, Si, h1, h2, h3⟩ := hs.parts
  exact ⟨x.zone, hs.consts.ext hs.zone x, hs.skeleton.ext hs.zone x, hs.version,
    ⟨_, _, fun a ha hb _ => h1 a ha.1 hb.1 ha.2, h2.bound.keep hs.zone x, h3.bound.keep hs.zone x⟩, hs.graph.ext hs.zone x⟩

/-- the data, and the editor after the data has been changed -/
theorem Holds.data {E : Env F} {e : Ed F} {v : Editor F} (hs : Holds B E N h e v) :
    ∃ S, (∀ a, S a → a < h.length) ∧ Rep B N h e.data (tData v.data) S ∧ ∀ N' h' a, Ext N h S N' h' → Rep B N' h' e.data (tData a) (Grown S h) →
      Holds B E N' h' e (v.withData a) := by
  obtain ⟨Sd, Si, h1, h2, h3⟩ := hs.parts
  refine ⟨_, fun a ha => ha.2, h2.bound, fun N' h' a x hr => ?_⟩
  refine ⟨x.zone, hs.consts.ext hs.zone x, hs.skeleton.ext hs.zone x, hs.version, ⟨_, _, ?_, hr, h3.bound.frame hs.zone x ?_⟩, hs.graph.ext hs.zone x⟩
  · rintro b (hb | hb) hc _
    · exact h1 b hb.1 hc.1 hb.2
    · have := hc.2; omega
  · exact fun b hb hc _ => h1 b hb.1 hc.1 hb.2

theorem Holds.setGraph {E : Env F} {e : Ed F} {v : Editor F} (hs : Holds B E N h e v) {g : Graph NType (Int × Ref F)} {g' : SGraph F} (hg : GOk B N h g g') :
    Holds B E N h { e with graph := g } { v with graph := g' } :=
  ⟨hs.zone, hs.consts, hs.skeleton, hs.version, hs.parts, hg⟩

theorem Holds.setImages {E : Env F} {N' : Nat → Prop} {h' : Heap F} {e : Ed F} {v : Editor F} (hs : Holds B E N h e v) (x : Ext N h Nil N' h') {c : Ref F}
    {im : Dict (ImageRef F)} (hc : Rep B N' h' c (tdict tImage im) (fun a => h.length ≤ a)) :
    Holds B E N' h' { e with images := c } { v with images := im } := by
  have hs' := hs.ext x
  obtain ⟨Sd, Si, h1, h2, h3⟩ := hs.parts
  exact ⟨hs'.zone, hs'.consts, hs'.skeleton, hs'.version,
    ⟨_, _, fun a ha hb _ => absurd ha.2 (Nat.not_lt.mpr hb), h2.bound.keep hs.zone x, hc⟩, hs'.graph⟩

/-- `_clean_images_references` -/
theorem cleanImages_sim {E : Env F} (hm : 8 + B ≤ E.lim) {e : Ed F} {v : Editor F} (hs : Holds B E N h e v) (hl : (Dict.keys v.images).Nodup) (ids : List (Option Str)) :
    ∃ c N' h', cleanImages E e.images ids h = (.ok c, h') ∧ Ext N h Any N' h' ∧ Holds B E N' h' { e with images := c } (Editor.cleanImages ids v) := by
  obtain ⟨Sd, Si, h1, h2, h3⟩ := hs.parts
  obtain ⟨c, N', h', run, x, r⟩ := cleanImages_run (E := E) hm hs.zone hl h3 ids
  exact ⟨c, N', h', run, x.any, hs.setImages x r⟩

theorem readBack_ok {q : F → Prop} {b : Bool} {g : SGraph F} {a : AnimData F} (hc : Core b g) (hg : GFine q g) (hd : a.Ok q) (bs : List (Bone F))
    (ss : List (Slot F)) (is : List (Attrs F)) (h1 : mapE Bone.init (SpineNodes.listOfType g .bone) = .ok bs)
    (h2 : mapE Slot.init (SpineNodes.listOfType g .slot) = .ok ss) (h3 : mapE ikCls.init (SpineNodes.listOfType g .ik) = .ok is) :
    AnimData.Ok q { a with bones := bs, slots := ss, ik := is } := by
  have sub : ∀ t ∈ [NType.bone, .slot, .ik], ∀ x ∈ SpineNodes.listOfType g t, Fine q x := by
    intro t ht x hx
    rw [listOfType_nodesOf _ _ (hc.sorted t ht)] at hx
    obtain ⟨p, hp, rfl⟩ := List.mem_map.1 hx
    exact hg t ht p hp
  have d1 : ∀ y ∈ bs, y.Ok q := fl_mapE (sub .bone (by simp)) (fun _ _ => Bone.ok_init) h1
  have d2 : ∀ y ∈ ss, y.Ok q := fl_mapE (sub .slot (by simp)) (fun _ _ => Slot.ok_init) h2
  have d3 : ∀ y ∈ is, FA q y := fl_init (by simp [leafClasses]) (sub .ik (by simp)) h3
  exact { hd with bones := d1, slots := d2, ik := d3 }

/-- `clean_animation` -/
theorem clean_sim {E : Env F} (hm : 8 + B ≤ E.lim) {e : Ed F} {v : Editor F} (hs : Holds B E N h e v) (hi : Inv v)
    (hne : (Editor.clean v).1 ≠ .error .unmodelled) :
    ∃ e' N' h', clean E e h = (.ok ((Editor.clean v).1, e'), h') ∧ Ext N h Any N' h' ∧ Holds B E N' h' e' (Editor.clean v).2 := by
  have hz := hs.zone
  obtain ⟨S, hS, hr, hput⟩ := hs.data
  obtain ⟨x, T, run1, r1, _, _, _⟩ := Rep.attr (k := s!!"slots") (t := tlist tSlot v.data.slots) hz hr rfl
  have hh : (tlist tSlot v.data.slots).height ≤ 8 := by
    have := (pre_dataOk hi.fine.doc.data).height
    have h2 : (tlist tSlot v.data.slots).height ≤ (tData v.data).height := by
      show _ ≤ (Tree.node _ _).height
      simp only [Tree.height, Tree.heightK]
      omega
    exact Nat.le_trans h2 this
  obtain ⟨bf, N1, h1, run2, e1, r2⟩ := r1.copy (E := E) hz (by omega)
  have hs1 := hs.ext e1
  have hr1 := hr.keep hz e1
  have run3 := run_view (e := .unmodelled) (f := fun h => viewData h E.lim e.data) (x := v.data) (view_data e1.zone (show B ≤ E.lim by omega) hi.fine.doc.data hi.fit hr1)
  unfold clean
  unfold Editor.clean at hne ⊢
  simp only at hne ⊢
  cases hu : AnimData.unused v.data with
  | error x =>
    simp only [hu] at hne ⊢
    have blk : (do
      let l ← getAttr e.data s!!"slots"
      let before ← deepcopy E l
      let a ← view (fun h => viewData h E.lim e.data) .unmodelled
      let r ← lift (AnimData.unused a)
      return (before, r) : M F (Ref F × List Str × List Str)) h = (.error x, h1) := by
      rw [run_bind run1, run_bind run2, run_bind run3, hu]
      rfl
    exact ⟨e, N1, h1, by rw [run_bind (run_attempt blk)]; rfl, e1.any, hs1⟩
  | ok p =>
    obtain ⟨slots, atts⟩ := p
    simp only [hu] at hne ⊢
    have blk : (do
      let l ← getAttr e.data s!!"slots"
      let before ← deepcopy E l
      let a ← view (fun h => viewData h E.lim e.data) .unmodelled
      let r ← lift (AnimData.unused a)
      return (before, r) : M F (Ref F × List Str × List Str)) h = (.ok (bf, slots, atts), h1) := by
      rw [run_bind run1, run_bind run2, run_bind run3, hu]
      rfl
    rw [run_bind (run_attempt blk)]
    simp only
    obtain ⟨r, W, hW, _⟩ := cleanGraph_loose hi.fine.core.core slots atts
    rcases (cleanGraph_same slots atts hs1.graph).cases with ⟨x, g, g', c1, c2, c3⟩ | ⟨ids, g, g', c1, c2, c3⟩
    · rw [c1]
      rw [c2] at hne ⊢
      exact ⟨_, N1, h1, rfl, e1.any, hs1.setGraph c3⟩
    · have c3 : GOk B N1 h1 g g' := c3
      rw [c1]
      rw [hW] at c2
      obtain ⟨rfl, rfl⟩ := Prod.mk.inj c2
      rw [hW] at hne ⊢
      simp only at hne ⊢
      rw [readBack_eq] at hne ⊢
      have hver : e.version = v.doc.version := hs.version
      have hok := readBack_ok (a := v.data) (hi.fine.core.core.restrict W) (hi.fine.graph.restrict W) hi.fine.doc.data
      have hfine := (readBack_fine (q := fun _ => True) trivial (e := { v with graph := restrict v.graph W }) (hi.fine.core.core.restrict W)
        (hi.fine.graph.restrict W) hi.fine.doc).data
      rw [readBack_eq] at hfine
      have hne2 : (readBackData (restrict v.graph W) v.doc.version.is38 v.data).1 ≠ .error .unmodelled := by
        intro h0
        apply hne
        simp only [data] at h0 ⊢
        rw [h0]
      rw [← hver] at hne2
      obtain ⟨N2, h2, run4, e2, r4⟩ := readBack_run (E := E) (e := { e with graph := g }) hm e1.zone hs1.consts c3 hr1 hok hne2
      have run4 : readBack E { e with graph := g } h1 = ((readBackData (restrict v.graph W) v.doc.version.is38 v.doc.data).1, h2) := by
        rw [← hver]
        exact run4
      simp only at r4
      rw [hver] at r4
      change (readBackData (restrict v.graph W) v.doc.version.is38 v.data).2.Ok _ at hfine
      simp only [data] at hne ⊢
      simp only [data] at hfine r4
      generalize readBackData (restrict v.graph W) v.doc.version.is38 v.doc.data = rb at *
      obtain ⟨o, a⟩ := rb
      simp only at hfine run4 r4
      have e02 : Ext N h S N2 h2 := (e1.mono (fun _ h _ => h.elim)).trans e2 (fun a ha _ => ha)
      have g2 : GOk B N2 h2 g (restrict v.graph W) := c3.ext e1.zone e2
      cases o with
      | error x =>
        simp only at run4 hne ⊢
        rw [run_bind (run_attempt (run_fail run4))]
        exact ⟨_, N2, h2, rfl, e02.any, (hput N2 h2 a e02 (r4.mono (fun b hb => hb.imp id (Nat.le_trans e1.len)))).setGraph g2⟩
      | ok _ =>
        simp only at run4 hne ⊢
        have hcopy := r2.frame e1.zone e2 (fun a ha hb _ => by have := hS a ha; have := hb.1; omega)
        have run5 := run_view (e := .unmodelled) (f := fun h => listAt h (viewSlot h E.lim) bf)
          (Rep.viewL hcopy (fun x _ r S hr => view_slot (show B ≤ E.lim by omega) hr))
        obtain ⟨N3, h3, run6, e3, r6⟩ := removeSlots_does hm ids v.data.slots a (fun p hp => (hfine.animations.2 p hp).slots.1) N2 h2 e.data _ e2.zone r4
        have hfine3 := ok_removeSlots ids v.data.slots hfine
        simp only [data] at run5 run6 r6 hfine3
        change removeSlots E e.data ids _ h2 = _ at run6
        have e03 := e02.trans e3 (fun a ha hl => ha.resolve_right (by have := e1.len; omega))
        have g3 : GOk B N3 h3 g (restrict v.graph W) := g2.ext e2.zone e3
        have r6' := r6.mono (fun b hb => (hb.elim (fun h => h) (fun h => .inr (Nat.le_trans e2.len h)) : Grown S h1 b))
        simp only [withData] at hne ⊢
        generalize Editor.removeSlots ids v.doc.data.slots a = rs at *
        obtain ⟨o, a3⟩ := rs
        cases o with
        | error x =>
          simp only at run6 r6 r6' hne ⊢
          have blk2 : (do
              readBack E { e with graph := g }
              let orig ← view (fun h => listAt h (viewSlot h E.lim) bf) .unmodelled
              removeSlots E e.data ids orig
              removeAttachments E e.data atts : M F Unit) h1 = (.error x, h3) := by
            rw [run_bind run4, run_bind run5, run_fail run6]
          rw [run_bind (run_attempt blk2)]
          exact ⟨_, N3, h3, rfl, e03.any, (hput N3 h3 a3 e03 (r6'.mono (fun b hb => hb.imp id (Nat.le_trans e1.len)))).setGraph g3⟩
        | ok _ =>
          simp only at run6 r6 r6' hne hfine3 ⊢
          obtain ⟨N4, h4, run7, e4, r7⟩ := removeAttachments_does hm atts a3 (fun s hs => uniq_ok (hfine3.skins s hs)) N3 h3 e.data _ e3.zone r6'
          change removeAttachments E e.data atts h3 = _ at run7
          have e04 := e03.trans e4 (fun a ha hl => ha.resolve_right (by have := e1.len; omega))
          have g4 : GOk B N4 h4 g (restrict v.graph W) := g3.ext e3.zone e4
          have r7' := r7.mono (fun b hb => (hb.elim (fun h => h.imp id (Nat.le_trans e1.len)) (fun h => .inr (Nat.le_trans e03.len h)) : Grown S h b))
          have blk2 : (do
              readBack E { e with graph := g }
              let orig ← view (fun h => listAt h (viewSlot h E.lim) bf) .unmodelled
              removeSlots E e.data ids orig
              removeAttachments E e.data atts : M F Unit) h1 = (.ok (), h4) := by
            rw [run_bind run4, run_bind run5, run_bind run6, run7]
          rw [run_bind (run_attempt blk2)]
          simp only
          have hs4 := (hput N4 h4 _ e04 r7').setGraph g4
          rcases (detach_same g4).cases with ⟨x, k, k', d1, d2, d3⟩ | ⟨imgs, k, k', d1, d2, d3⟩
          · rw [d1]
            rw [d2] at hne ⊢
            exact ⟨_, N4, h4, rfl, e04.any, hs4.setGraph d3⟩
          · rw [d1]
            rw [d2] at hne ⊢
            simp only
            obtain ⟨c, N5, h5, run8, e5, hs5⟩ := cleanImages_sim hm (hs4.setGraph d3) hi.images (imgs.map some)
            rw [run_bind (run_attempt run8)]
            exact ⟨_, N5, h5, rfl, e04.any.trans e5 (fun _ _ _ => trivial), hs5⟩

/-- `clean_animation` unless the call is in safe mode -/
theorem cleanUnless_sim {E : Env F} (hm : 8 + B ≤ E.lim) (safe : Bool) {e : Ed F} {v : Editor F} (hs : Holds B E N h e v) (hi : Inv v)
    (hne : (Editor.cleanUnless safe v).1 ≠ .error .unmodelled) :
    ∃ e' N' h', cleanUnless E safe e h = (.ok ((Editor.cleanUnless safe v).1, e'), h') ∧ Ext N h Any N' h' ∧
      Holds B E N' h' e' (Editor.cleanUnless safe v).2 := by
  unfold cleanUnless
  unfold Editor.cleanUnless at hne ⊢
  cases safe with
  | true => exact ⟨e, N, h, rfl, .refl hs.zone _, hs⟩
  | false => exact clean_sim hm hs hi hne

/-- `to_json_data` -/
theorem toJson_sim {E : Env F} (hm : 8 + B ≤ E.lim) {e : Ed F} {v : Editor F} (hs : Holds B E N h e v) (hd : v.data.Ok (fun _ => True)) :
    ∃ r N' h', e.toJson E h = (.ok r, h') ∧ Ext N h Nil N' h' ∧ JOk (8 + B) N' h' r v.toJson ∧ Holds B E N' h' e v := by
  obtain ⟨S, _, hr, _⟩ := hs.data
  obtain ⟨r, N1, h1, run, e1, j1⟩ := toJsonData_run (E := E) hm hs.zone (pre_dataOk hd).height hr hs.skeleton e.version
  refine ⟨r, N1, h1, run, e1, ?_, hs.ext e1⟩
  rw [hs.version] at j1
  exact j1

/-- `erase_skins` -/
theorem eraseSkins_sim {E : Env F} (hm : 8 + B ≤ E.lim) (names : List Str) (safe : Bool) {e : Ed F} {v : Editor F} (hs : Holds B E N h e v) (hi : Inv v)
    (hne : (Editor.eraseSkins names safe v).1 ≠ .error .unmodelled) :
    ∃ e' N' h', eraseSkins E names safe e h = (.ok ((Editor.eraseSkins names safe v).1, e'), h') ∧ Ext N h Any N' h' ∧
      Holds B E N' h' e' (Editor.eraseSkins names safe v).2 := by
  obtain ⟨S, hS, hr, hput⟩ := hs.data
  obtain ⟨N1, h1, run1, e1, r1⟩ := removeSkins_does hm names v.data hi.skins hi.fine.doc.data N h e.data S hs.zone hr
  change removeSkins E e.data names h = _ at run1
  have hbones := removeSkins_bones names v.data
  have hok := ok_removeSkins names hi.fine.doc.data
  have hfit := fit_removeSkins names hi.skins
  change (Editor.removeSkins names v.data).2.Ok _ at hok
  unfold eraseSkins
  unfold Editor.eraseSkins at hne ⊢
  generalize Editor.removeSkins names v.data = rs at *
  obtain ⟨o, a⟩ := rs
  have hs1 := hput N1 h1 a e1 r1
  cases o with
  | error x =>
    rw [run_bind (run_attempt (run_fail run1))]
    exact ⟨e, N1, h1, rfl, e1.any, hs1⟩
  | ok p =>
    obtain ⟨imgs, regions⟩ := p
    simp only at hne hok hfit hbones run1 hs1 ⊢
    obtain ⟨j, N2, h2, run2, e2, j2, hs2⟩ := toJson_sim hm hs1 hok
    obtain ⟨S2, _, hr2, _⟩ := hs2.data
    obtain ⟨s1, s2, s3⟩ := shallow_data hs2.zone hr2 v.doc.version.is38
    have hg := newGraph_step (E := E) hm hs2.zone (s := (v.withData a).doc) j2 s1 s2 s3
    have e12 := e1.any.trans e2.any (fun _ _ _ => trivial)
    change Step N2 h2 (newGraph E j) (SpineNodes.create (v.withData a).toJson) _ at hg
    cases hc : SpineNodes.create (v.withData a).toJson with
    | error x =>
      rw [hc] at hg
      simp only [hc] at hne ⊢
      obtain ⟨N3, h3, run3, e3⟩ := hg.of_error (by rintro rfl; exact hne rfl)
      have blk : (do
        let r ← removeSkins E e.data names
        let j ← e.toJson E
        let g ← newGraph E j
        return (r, g) : M F _) h = (.error x, h3) := by
        rw [run_bind run1, run_bind run2, run_fail run3]
      rw [run_bind (run_attempt blk)]
      exact ⟨e, N3, h3, rfl, e12.trans e3 (fun _ _ _ => trivial), hs2.ext e3⟩
    | ok g =>
      rw [hc] at hg
      simp only [hc] at hne ⊢
      obtain ⟨g', N3, h3, run3, e3, hgg⟩ := hg.of_ok
      have blk : (do
        let r ← removeSkins E e.data names
        let j ← e.toJson E
        let g ← newGraph E j
        return (r, g) : M F _) h = (.ok ((imgs, regions), g'), h3) := by
        rw [run_bind run1, run_bind run2, run_bind run3]
        rfl
      rw [run_bind (run_attempt blk)]
      simp only
      have e03 := e12.trans e3.any (fun _ _ _ => trivial)
      have hs3 := (hs2.ext e3).setGraph hgg
      have hd : (v.withData a).doc.Ok (fun _ => True) := ⟨hi.fine.doc.skeleton, hok⟩
      have hi3 : Inv { v.withData a with graph := g } :=
        ⟨⟨ecore_fresh hi.fine.core hbones.1 hbones.2.1 hc, hd, gfine_fresh hd hc⟩, hfit, hi.images⟩
      have hgone : (imgs ++ regions.map some).filter (fun i => (Graph.getNode g' (imageId i)).isNone) =
          (imgs ++ regions.map some).filter (fun i => (Graph.getNode g (imageId i)).isNone) := by
        congr 1
        funext i
        rw [GRel.isNone hgg]
      have hne' : (Editor.cleanUnless safe { v.withData a with graph := g }).1 ≠ .error .unmodelled := by
        intro h0
        apply hne
        generalize Editor.cleanUnless safe { v.withData a with graph := g } = cu at *
        obtain ⟨o, v4⟩ := cu
        cases h0
        rfl
      obtain ⟨e4, N4, h4, run4, x4, hs4⟩ := cleanUnless_sim hm safe hs3 hi3 hne'
      have him : (Dict.keys (Editor.cleanUnless safe { v.withData a with graph := g }).2.images).Nodup := by
        cases safe with
        | true => exact hi.images
        | false => exact (inv_run .clean hi3).images
      rw [run_bind run4]
      generalize Editor.cleanUnless safe { v.withData a with graph := g } = cu at *
      obtain ⟨o, v4⟩ := cu
      have x04 := e03.trans x4 (fun _ _ _ => trivial)
      cases o with
      | error x => exact ⟨e4, N4, h4, rfl, x04, hs4⟩
      | ok r =>
        simp only
        rw [hgone]
        obtain ⟨c, N5, h5, run5, x5, hs5⟩ := cleanImages_sim hm hs4 him ((imgs ++ regions.map some).filter (fun i => (Graph.getNode g (imageId i)).isNone))
        rw [run_bind (run_attempt run5)]
        exact ⟨_, N5, h5, rfl, x04.trans x5 (fun _ _ _ => trivial), hs5⟩

/-- `erase_animations` -/
theorem eraseAnims_sim {E : Env F} (hm : 8 + B ≤ E.lim) (arg : NamesArg) (strict safe : Bool) {e : Ed F} {v : Editor F} (hs : Holds B E N h e v)
    (hi : Inv v) (hne : (Editor.eraseAnims arg strict safe v).1 ≠ .error .unmodelled) :
    ∃ q e' N' h', eraseAnims E arg strict safe e h = (.ok (q, e'), h') ∧ Ext N h Any N' h' ∧ Holds B E N' h' e' (Editor.eraseAnims arg strict safe v).2 ∧
      (match q, (Editor.eraseAnims arg strict safe v).1 with
        | .ok (r, l), .ok (j, m) => JOk (8 + B) N' h' r j ∧ l = m
        | .error x, .error y => x = y
        | _, _ => False) := by
  unfold eraseAnims
  unfold Editor.eraseAnims at hne ⊢
  cases arg with
  | other => exact ⟨.error .type, e, N, h, rfl, .refl hs.zone _, hs, rfl⟩
  | list names =>
    simp only at hne ⊢
    obtain ⟨S, hS, hr, hput⟩ := hs.data
    obtain ⟨N1, h1, run1, e1, r1⟩ := eraseRaw_does names v.data N h e.data S hs.zone hr
    change eraseRaw e.data names h = (.ok (Editor.eraseRaw names v.data.animations).2, h1) at run1
    have hs1 : Holds B E N1 h1 e (v.withData { v.data with animations := (Editor.eraseRaw names v.data.animations).1 }) := hput N1 h1 _ e1 r1
    clear r1
    have hi1 : Inv (v.withData { v.data with animations := (Editor.eraseRaw names v.data.animations).1 }) :=
      ⟨⟨⟨hi.fine.core.core, hi.fine.core.bones, hi.fine.core.iks⟩,
        ⟨hi.fine.doc.skeleton, { hi.fine.doc.data with animations := fd_eraseRaw names hi.fine.doc.data.animations }⟩, hi.fine.graph⟩, hi.skins, hi.images⟩
    generalize Editor.eraseRaw names v.data.animations = er at *
    obtain ⟨d, l⟩ := er
    simp only at *
    by_cases hc : l ≠ [] ∧ strict = true
    · rw [if_pos hc] at hne ⊢
      have blk : (do
        let l ← eraseRaw e.data names
        if l ≠ [] ∧ strict then raise .value else return () : M F Unit) h = (.error .value, h1) := by
        rw [run_bind run1, if_pos hc]
        rfl
      rw [run_bind (run_attempt blk)]
      exact ⟨.error .value, e, N1, h1, rfl, e1.any, hs1, rfl⟩
    · rw [if_neg hc] at hne ⊢
      have blk : (do
        let l ← eraseRaw e.data names
        if l ≠ [] ∧ strict then raise .value else return () : M F Unit) h = (.ok (), h1) := by
        rw [run_bind run1, if_neg hc]
        rfl
      rw [run_bind (run_attempt blk)]
      have hne' : (Editor.cleanUnless safe (v.withData { v.data with animations := d })).1 ≠ .error .unmodelled := by
        intro h0
        apply hne
        generalize Editor.cleanUnless safe (v.withData { v.data with animations := d }) = cu at *
        obtain ⟨o, v4⟩ := cu
        cases h0
        rfl
      obtain ⟨e4, N4, h4, run4, x4, hs4⟩ := cleanUnless_sim hm safe hs1 hi1 hne'
      have hf4 := cleanUnless_fine (q := fun _ => True) trivial safe hi1.fine
      simp only
      rw [run_bind run4]
      generalize Editor.cleanUnless safe (v.withData { v.data with animations := d }) = cu at *
      obtain ⟨o, v4⟩ := cu
      have x04 := e1.any.trans x4 (fun _ _ _ => trivial)
      cases o with
      | error x => exact ⟨.error x, e4, N4, h4, rfl, x04, hs4, rfl⟩
      | ok r =>
        simp only at hf4 hs4 ⊢
        obtain ⟨j, N5, h5, run5, x5, j5, hs5⟩ := toJson_sim hm hs4 hf4.doc.data
        rw [run_bind (run_attempt run5)]
        exact ⟨.ok (j, r), e4, N5, h5, rfl, x04.trans x5.any (fun _ _ _ => trivial), hs5, j5, rfl⟩

/-- `scale_animation` -/
theorem scale_sim {E : Env F} (sx sy : Num F) {e : Ed F} {v : Editor F} (hs : Holds B E N h e v) (hi : Inv v)
    (hne : (Editor.scale sx sy v).1 ≠ .error .unmodelled) :
    ∃ N' h', scale sx sy e.data h = ((Editor.scale sx sy v).1, h') ∧ Ext N h Any N' h' ∧ Holds B E N' h' e (Editor.scale sx sy v).2 := by
  rw [scale_eq] at hne ⊢
  obtain ⟨S, hS, hr, hput⟩ := hs.data
  obtain ⟨N1, h1, run1, e1, r1⟩ := scale_does sx sy v.data hi.fine.core.bones hne N h e.data S hs.zone hr
  exact ⟨N1, h1, run1, e1.any, hput N1 h1 _ e1 r1⟩

end Alias
end Spine
