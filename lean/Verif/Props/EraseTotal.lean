import Verif.Lemmas.Rebuild
import Verif.Props.Reopen
import Verif.Props.EraseSkins
/-
C59, C60: when `erase_skins` succeeds, and which images it reports.
-/
set_option linter.unusedSectionVars false
set_option linter.unusedSimpArgs false
set_option synthInstance.maxHeartbeats 200000
set_option synthInstance.maxSize 1000
namespace Spine
open JVal Graph AnimData Rebuild
variable {F : Type} [PyRt F]
namespace Editor
variable {e e' : Editor F}

/-! ## Proofs -/

theorem eraseSkins_safe_ok (h : Solid e) (names : List Str) :
    (∃ r, (eraseSkins names true e).1 = .ok r) ↔ ∃ r, (removeSkins names e.data).1 = .ok r := by
  unfold eraseSkins
  generalize hq : removeSkins names e.data = q
  obtain ⟨q1, a⟩ := q
  cases q1 with
  | error x => simp
  | ok r =>
    obtain ⟨g, hg⟩ := h.create_after names
    rw [hq] at hg
    simp only [hg, cleanUnless, if_true]
    simp

theorem eraseSkins_safe_error (h : Solid e) {names : List Str} {z : Err} (hz : (eraseSkins names true e).1 = .error z) :
    (removeSkins names e.data).1 = .error z := by
  unfold eraseSkins at hz
  generalize hq : removeSkins names e.data = q at hz
  obtain ⟨q1, a⟩ := q
  cases q1 with
  | error x => simpa using hz
  | ok r =>
    obtain ⟨g, hg⟩ := h.create_after names
    rw [hq] at hg
    simp only [hg, cleanUnless, if_true] at hz
    cases hz

theorem removeSkins_single (n : Str) (a : AnimData F) : (∃ r, (removeSkins [n] a).1 = .ok r) ↔ ∃ r a', removeSkin n a = (.ok r, a') := by
  rw [removeSkins]
  generalize removeSkin n a = q
  obtain ⟨q1, a'⟩ := q
  cases q1 with
  | error x => simp
  | ok r => simp [removeSkins]

theorem removeSkins_single_error {n : Str} {a : AnimData F} {z : Err} (h : (removeSkins [n] a).1 = .error z) : (removeSkin n a).1 = .error z := by
  rw [removeSkins] at h
  generalize removeSkin n a = q at h ⊢
  obtain ⟨q1, a'⟩ := q
  cases q1 with
  | error x => simpa using h
  | ok r => simp [removeSkins] at h

theorem removeSkins_unlinked {names : List Str} : ∀ {a : AnimData F}, (∀ s ∈ a.skins, ShownIn s) → (∀ n ∈ names, ∃ k ∈ a.skins, k.name = n) →
    names.Nodup → (∀ n ∈ names, ∀ slot key x, a.HasAtt slot key x → ¬ x.LinksTo n) → ∃ r, (removeSkins names a).1 = .ok r := by
  induction names with
  | nil => intro a _ _ _ _; exact ⟨_, rfl⟩
  | cons n ns ih =>
    intro a hk hn hd hl
    obtain ⟨k, hk1, hk2⟩ := hn n (by simp)
    obtain ⟨gone, hg⟩ : ∃ gone, getSkin a n = some gone := by
      cases hc : getSkin a n with
      | some g => exact ⟨g, rfl⟩
      | none =>
        unfold getSkin at hc
        rw [List.find?_eq_none] at hc
        exact absurd hk2 (by simpa using hc k hk1)
    obtain ⟨r, a1, h1⟩ := (removeSkin_total (n := n) (fun s hs => removedImages_shown (hk s hs))).2 ⟨gone, (getSkin_some _ _ _).1 hg,
      fun t ht _ slot key x ⟨d, hd, hx⟩ hlx => absurd hlx (hl n (by simp) slot key x ⟨t, ht, d, hd, hx⟩)⟩
    obtain ⟨gone', _, _, hsk, _⟩ := removeSkin_skins h1
    have hdn := List.nodup_cons.1 hd
    obtain ⟨r2, h2⟩ := ih (by have := shown_removeSkin n hk; rw [h1] at this; exact this) (by
      intro m hm
      obtain ⟨k, hk1, hk2⟩ := hn m (by simp [hm])
      obtain ⟨k', h3, h4⟩ := hsk.left (List.mem_filter.2 ⟨hk1, by
        simp only [decide_eq_true_eq, hk2]; intro e; exact hdn.1 (e ▸ hm)⟩)
      exact ⟨k', h3, h4.1.trans hk2⟩) hdn.2 (by
      intro m hm slot key x hx hlx
      obtain ⟨y, hy, rfl | ⟨hy2, _⟩⟩ := removeSkin_from h1 hx
      · exact hl m (by simp [hm]) slot key _ hy hlx
      · exact hl n (by simp) slot key y hy ((linksTo_iff _ _).1 hy2))
    rw [removeSkins, h1]
    simp only
    generalize removeSkins ns a1 = q at h2
    obtain ⟨q1, a2⟩ := q
    cases q1 with
    | error x => cases h2
    | ok v => exact ⟨_, rfl⟩

/-! ## C59 -/

/-- C59 for one name, in safe mode: the call succeeds exactly when there is a skin of that name and it has, under the same slot
and name, an attachment for every linked mesh of another skin that names it.  For every history of calls. -/
theorem c59_single (h : Used e) (n : Str) :
    (∃ r, (eraseSkins [n] true e).1 = .ok r) ↔ ∃ gone, IsSkin e.data.skins n gone ∧ MeshesFound e.data n gone := by
  rw [eraseSkins_safe_ok h.solid, removeSkins_single]
  exact removeSkin_total (fun s hs => removedImages_shown (h.solid.data.shown s hs))

/-- C59: otherwise it raises SpineJsonEditorError when there is no such skin, and KeyError when a mesh is missing. -/
theorem c59_error (h : Used e) {n : Str} {z : Err} (hz : (eraseSkins [n] true e).1 = .error z) :
    ((∀ s ∈ e.data.skins, s.name ≠ n) ∧ z = .editor) ∨ ((∃ gone, IsSkin e.data.skins n gone ∧ ¬ MeshesFound e.data n gone) ∧ z = .key) :=
  removeSkin_fails (fun s hs => removedImages_shown (h.solid.data.shown s hs)) (removeSkins_single_error (eraseSkins_safe_error h.solid hz))

/-- C59: erasing several skins in safe mode is erasing them one by one: it succeeds exactly when that does, with the same document
and graph. -/
theorem c59_one_by_one (h : Used e) (n : Str) (ns : List Str) (d : SpineDoc F) (g : SGraph F) :
    (∃ r e', eraseSkins (n :: ns) true e = (.ok r, e') ∧ e'.doc = d ∧ e'.graph = g) ↔
    ∃ r1 e1 r2 e2, eraseSkins [n] true e = (.ok r1, e1) ∧ eraseSkins ns true e1 = (.ok r2, e2) ∧ e2.doc = d ∧ e2.graph = g := by
  have hsafe : ∀ (e e' : Editor F) names r, eraseSkins names true e = (.ok r, e') → ∃ ig a g, removeSkins names e.data = (.ok ig, a) ∧
      SpineNodes.create (e.withData a).toJson = .ok g ∧ e'.doc = { e.doc with data := a } ∧ e'.graph = g := by
    intro e e' names r hr
    obtain ⟨imgs, regions, a, g, e1, h1, h2, h3, h4, rfl⟩ := eraseSkins_ok (r := r.1) (gone := r.2) hr
    simp only [cleanUnless, if_true, Prod.mk.injEq, Except.ok.injEq] at h4
    obtain ⟨_, rfl⟩ := h4
    exact ⟨_, a, g, h1, h2, rfl, rfl⟩
  have hsafe' : ∀ (e : Editor F) names ig a g, removeSkins names e.data = (.ok ig, a) → SpineNodes.create (e.withData a).toJson = .ok g →
      ∃ r e', eraseSkins names true e = (.ok r, e') ∧ e'.doc = { e.doc with data := a } ∧ e'.graph = g := by
    intro e names ig a g h1 h2
    have : ∃ r gone, eraseSkins names true e = (.ok r, cleanImages gone { e.withData a with graph := g }) := by
      unfold eraseSkins
      rw [h1]
      simp only [h2, cleanUnless, if_true]
      exact ⟨_, _, rfl⟩
    obtain ⟨r, gone, h⟩ := this
    exact ⟨r, _, h, rfl, rfl⟩
  constructor
  · rintro ⟨r, e', hr, rfl, rfl⟩
    obtain ⟨ig, a, g, h1, h2, h3, h4⟩ := hsafe e e' _ r hr
    obtain ⟨i, s, is, rs, a1, k1, k2, _⟩ := removeSkins_cons h1
    have k3 : removeSkins [n] e.data = (.ok (i ++ [], s ++ []), a1) := by
      rw [removeSkins, k1]; rfl
    obtain ⟨g1, k4⟩ := h.solid.create_after [n]
    rw [k3] at k4
    obtain ⟨r1, e1, q1, q2, q3⟩ := hsafe' e [n] _ a1 g1 k3 k4
    have q4 : e1.data = a1 := by show e1.doc.data = a1; rw [q2]
    have q5 : (e1.withData a).toJson = (e.withData a).toJson := by
      show SpineDoc.toJson { e1.doc with data := a } = SpineDoc.toJson { e.doc with data := a }
      rw [q2]
    obtain ⟨r2, e2, p1, p2, p3⟩ := hsafe' e1 ns (is, rs) a g (q4 ▸ k2) (q5 ▸ h2)
    refine ⟨r1, e1, r2, e2, q1, p1, ?_, p3.trans h4.symm⟩
    rw [p2, q2, h3]
  · rintro ⟨r1, e1, r2, e2, hr1, hr2, rfl, rfl⟩
    obtain ⟨ig1, a1, g1, h1, h2, h3, h4⟩ := hsafe e e1 _ r1 hr1
    obtain ⟨ig2, a2, g2, k1, k2, k3, k4⟩ := hsafe e1 e2 _ r2 hr2
    obtain ⟨i, s, is, rs, b1, q1, q2, _⟩ := removeSkins_cons h1
    simp only [removeSkins, Prod.mk.injEq] at q2
    obtain ⟨_, rfl⟩ := q2
    have q4 : e1.data = b1 := by show e1.doc.data = b1; rw [h3]
    rw [q4] at k1
    have q5 : (e1.withData a2).toJson = (e.withData a2).toJson := by
      show SpineDoc.toJson { e1.doc with data := a2 } = SpineDoc.toJson { e.doc with data := a2 }
      rw [h3]
    rw [q5] at k2
    obtain ⟨r, e', p1, p2, p3⟩ := hsafe' e (n :: ns) (i ++ ig2.1, s ++ ig2.2) a2 g2 (by rw [removeSkins, q1]; simp only [k1]) k2
    exact ⟨r, e', p1, by rw [p2, k3, h3], p3.trans k4.symm⟩

/-- C59: when no linked mesh names one of the skins, the call succeeds in safe mode exactly when every name is the name of a skin
and no name is given twice. -/
theorem c59_unlinked (h : Used e) {names : List Str} (hl : ∀ n ∈ names, ∀ slot key x, e.data.HasAtt slot key x → ¬ x.LinksTo n) :
    (∃ r, (eraseSkins names true e).1 = .ok r) ↔ (∀ n ∈ names, ∃ s ∈ e.data.skins, s.name = n) ∧ names.Nodup := by
  rw [eraseSkins_safe_ok h.solid]
  constructor
  · rintro ⟨r, hr⟩
    generalize hq : removeSkins names e.data = q at hr
    obtain ⟨q1, a⟩ := q
    simp only at hr; subst hr
    exact ⟨(removeSkins_facts hq).1, (removeSkins_facts hq).2.1⟩
  · rintro ⟨h1, h2⟩
    exact removeSkins_unlinked h.solid.data.shown h1 h2 hl

theorem readBack_images (e : Editor F) (im : Dict (ImageRef F)) :
    readBack { e with images := im } = ((readBack e).1, { (readBack e).2 with images := im }) := by
  unfold readBack
  simp only
  repeat' split
  all_goals first | rfl | (simp_all; done)

theorem readBack_keeps (e : Editor F) : (readBack e).2.images = e.images := by
  unfold readBack
  simp only
  repeat' split
  all_goals rfl

theorem cleanImages_comm (g1 g2 : List (Option Str)) (e : Editor F) : cleanImages g1 (cleanImages g2 e) = cleanImages g2 (cleanImages g1 e) := by
  unfold cleanImages
  simp only [List.filter_filter]
  congr 1
  refine List.filter_congr ?_
  intro p _
  exact Bool.and_comm _ _

theorem clean_cleanImages (gone : List (Option Str)) (e : Editor F) :
    clean (cleanImages gone e) = ((clean e).1, cleanImages gone (clean e).2) := by
  unfold clean
  simp only
  have e1 : (cleanImages gone e).data = e.data := rfl
  have e2 : (cleanImages gone e).graph = e.graph := rfl
  rw [e1, e2]
  cases AnimData.unused e.data with
  | error x => rfl
  | ok q =>
    obtain ⟨slots, atts⟩ := q
    simp only
    generalize cleanGraph slots atts e.graph = q
    obtain ⟨q1, g⟩ := q
    cases q1 with
    | error x => rfl
    | ok ids =>
      simp only
      have e3 := readBack_images { e with graph := g } (cleanImages gone e).images
      have e4 : ({ cleanImages gone e with graph := g } : Editor F) = { ({ e with graph := g } : Editor F) with images := (cleanImages gone e).images } := rfl
      rw [e4, e3]
      have e5 := readBack_keeps { e with graph := g }
      generalize readBack { e with graph := g } = q at e5
      obtain ⟨q1, eb⟩ := q
      simp only at e5
      have e6 : ({ eb with images := (cleanImages gone e).images } : Editor F) = cleanImages gone eb := by
        unfold cleanImages; rw [e5]
      simp only [e6]
      cases q1 with
      | error x => rfl
      | ok u =>
        simp only
        have e7 : (cleanImages gone eb).data = eb.data := rfl
        rw [e7]
        generalize removeSlots ids e.data.slots eb.data = q
        obtain ⟨q1, a⟩ := q
        cases q1 with
        | error x => rfl
        | ok u =>
          simp only
          have e8 : ((cleanImages gone eb).withData (removeAttachments atts a)).graph = (eb.withData (removeAttachments atts a)).graph := rfl
          rw [e8]
          generalize detach (eb.withData (removeAttachments atts a)).graph = q
          obtain ⟨q1, g2⟩ := q
          cases q1 with
          | error x => rfl
          | ok imgs =>
            simp only
            refine Prod.ext rfl ?_
            exact cleanImages_comm (imgs.map some) gone { eb.withData (removeAttachments atts a) with graph := g2 }

/-- C59: without safe mode the call does what it does in safe mode and then what `clean_animation` does, with the same results. -/
theorem c59_modes {names : List Str} {r : List Str × List Str} {gone : List (Option Str)} :
    eraseSkins names false e = (.ok (r, gone), e') ↔
    ∃ e1, eraseSkins names true e = (.ok (([], []), gone), e1) ∧ clean e1 = (.ok r, e') := by
  unfold eraseSkins
  generalize removeSkins names e.data = q
  obtain ⟨q1, a⟩ := q
  cases q1 with
  | error x => simp
  | ok r' =>
    simp only
    cases hg : SpineNodes.create (e.withData a).toJson with
    | error x => simp
    | ok g1 =>
      simp only [cleanUnless, if_true, Bool.false_eq_true, if_false, Prod.mk.injEq, Except.ok.injEq, true_and]
      generalize (r'.1 ++ r'.2.map some).filter (fun i => (Graph.getNode g1 (imageId i)).isNone) = l
      constructor
      · intro h
        generalize hc : clean { e.withData a with graph := g1 } = c at h
        obtain ⟨c1, e2⟩ := c
        cases c1 with
        | error x => cases h
        | ok r2 =>
          simp only [Prod.mk.injEq, Except.ok.injEq] at h
          obtain ⟨⟨rfl, rfl⟩, rfl⟩ := h
          exact ⟨_, ⟨rfl, rfl⟩, by rw [clean_cleanImages, hc]⟩
      · rintro ⟨e1, ⟨rfl, rfl⟩, h⟩
        rw [clean_cleanImages] at h
        generalize clean { e.withData a with graph := g1 } = c at h
        obtain ⟨c1, e2⟩ := c
        simp only [Prod.mk.injEq] at h
        obtain ⟨rfl, rfl⟩ := h
        rfl

/-! ## C60 -/

/-- C60: an image is reported exactly when an attachment of a removed skin gives it as its path or name, and no attachment of a
remaining skin has that image.  For the histories of C23. -/
theorem c60_reported_partial (h : RanOpen e) {names : List Str} {safe : Bool} {r : List Str × List Str} {gone : List (Option Str)}
    (hr : eraseSkins names safe e = (.ok (r, gone), e')) {i : Str} (hi : i ≠ []) :
    some i ∈ gone ↔ (∃ n ∈ names, ∃ s, IsSkin e.data.skins n s ∧ ∃ slot key x, s.Has slot key x ∧ x.OwnImage i) ∧
      ¬ ∃ s ∈ e.data.skins, s.name ∉ names ∧ ∃ slot key x, s.Has slot key x ∧ ImageName key x i := by
  obtain ⟨imgs, regions, a, g, e1, h1, h2, h3, h4, rfl⟩ := eraseSkins_ok hr
  have hk := removeSkins_kept e.doc.version.is38 h1
  have hw := h.open.sync
  have hnode := image_fresh (e := { e.withData a with graph := g }) (by show ∀ b ∈ a.bones, _; rw [hk.bones]; exact h.open.good.bones)
    (hk.distinct hw.distinct) (hk.sane hw.sane) (by
      intro slot k x' hx
      obtain ⟨x, g1, _⟩ := hk.att slot k x' hx
      obtain ⟨s, h1, h2, _⟩ := hw.slot_bone slot k x g1
      exact ⟨s, by show s ∈ a.slots; rw [hk.slots]; exact h1, h2⟩) h2 i
  rw [h3, List.mem_filter, removeSkins_reports h.open.kept h1 hi, ← removeSkins_images h1]
  refine and_congr_right (fun _ => ?_)
  refine Iff.trans ?_ (not_congr hnode)
  show (Graph.getNode g (graphId .image i)).isNone = true ↔ ¬ ∃ nd, _
  cases hc : Graph.getNode g (graphId .image i) <;> simp [hc]

section examples
open Sample
set_option maxRecDepth 4000

/-- every history is one of C59 -/
theorem used_of {doc : J} (h : properB doc = true) {e : Editor Rat} (hl : Sample.load doc = some e) (l : List (Op Rat)) :
    Used (l.foldl (fun e o => (o.run e).2) e) := by
  have h0 : Used e := by
    unfold Sample.load at hl
    cases hx : Editor.load doc with
    | error z => rw [hx] at hl; cases hl
    | ok e0 =>
      rw [hx] at hl
      injection hl with hl
      subst hl
      exact .load (JVal.proper_of _ h) hx
  clear hl
  induction l generalizing e with
  | nil => exact h0
  | cons o l ih => exact ih (.run o h0)

/-- C59 holds after a cleaning that failed half way: the document draws a slot that does not exist; the cleaning raises, and the skin
can be erased afterwards -/
example : (Sample.load oddDraw).map (fun e => (outcome (clean e), erased (eraseSkins [s!!"red"] true (clean e).2))) =
    some (.error .value, .ok [some "i"]) := by decide +kernel

/-- the hypotheses of C60 hold for a loaded document with linked meshes, and the call succeeds -/
example : ∃ e, Sample.load linking = some e ∧ RanOpen e := ranOpen_of (by decide +kernel)
example : (Sample.load linking).map (fun e => (erased (eraseSkins [s!!"red"] true e), erased (eraseSkins [s!!"blue", s!!"red"] true e))) =
    some (.ok [some "red/m", some "red/a"], .ok [some "blue/m", some "red/m", some "red/a"]) := by decide +kernel
/-- a name given twice, an unknown name -/
example : (Sample.load linking).map (fun e => (erased (eraseSkins [s!!"blue", s!!"blue"] true e), erased (eraseSkins [s!!"green"] true e))) =
    some (.error .editor, .error .editor) := by decide +kernel
/-- a missing mesh -/
example : ∃ e, Sample.load missingKey = some e ∧ RanOpen e := ranOpen_of (by decide +kernel)

/-- the image of the region `a` of `red` is the name of the attachment -/
def keyNamed : J := Sample.doc [root] [slot "s" "root" [("attachment", txt "a")]]
  [("default", obj [("s", obj [("b", region "img/b")])]), ("red", obj [("s", obj [("a", obj [("width", .int 3)])])])] [("walk", obj [])]

example : ∃ e, Sample.load keyNamed = some e ∧ RanOpen e := ranOpen_of (by decide +kernel)

/-- C60 is false of the code for images named by the attachment: `a` is used by `red` only, but it is not reported when `red` is
removed, and it stays in `images_references`. -/
theorem c60_counterexample_key : (Sample.load keyNamed).map (fun e => (erased (eraseSkins [s!!"red"] true e),
      (eraseSkins [s!!"red"] true e).2.images.map (fun p => String.ofList p.1))) = some (.ok [], ["img/b", "a"]) := by decide +kernel

end examples

end Editor
end Spine
