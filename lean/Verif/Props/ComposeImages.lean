import Verif.Props.Compose
import Verif.Props.EraseTotal
/-
C83 for the images of `erase_skins`: what is reported by two calls and by one call with all names.
-/
set_option linter.unusedSectionVars false
set_option synthInstance.maxHeartbeats 200000
set_option synthInstance.maxSize 1000
namespace Spine
open JVal Graph AnimData
variable {F : Type} [PyRt F]
namespace Editor
namespace Twice
variable {e e1 e2 e' : Editor F} {A B : List Str} {safe : Bool}

/-- which images the graph of the remaining skins has -/
theorem fresh (h : RanOpen e) {names : List Str} {r : List (Option Str) × List Str} {a : AnimData F} {g : SGraph F}
    (h1 : removeSkins names e.data = (.ok r, a)) (h2 : SpineNodes.create (e.withData a).toJson = .ok g) (i : Str) :
    (Graph.getNode g (imageId (some i))).isNone = true ↔ ¬ ∃ slot key x, a.HasAtt slot key x ∧ ImageName key x i := by
  have hk := removeSkins_kept e.doc.version.is38 h1
  have hw := h.open.sync
  have hnode := image_fresh (e := { e.withData a with graph := g }) (by show ∀ b ∈ a.bones, _; rw [hk.bones]; exact h.open.good.bones)
    (hk.distinct hw.distinct) (hk.sane hw.sane) (by
      intro slot k x' hx
      obtain ⟨x, g1, _⟩ := hk.att slot k x' hx
      obtain ⟨s, h1, h2, _⟩ := hw.slot_bone slot k x g1
      exact ⟨s, by show s ∈ a.slots; rw [hk.slots]; exact h1, h2⟩) h2 i
  refine Iff.trans ?_ (not_congr hnode)
  show (Graph.getNode g (graphId .image i)).isNone = true ↔ ¬ ∃ nd, _
  cases Graph.getNode g (graphId .image i) <;> simp

/-- the parts of two calls, the first in safe mode, and of the call with all names -/
theorem parts {r1 r2 r : List Str × List Str} {gone1 gone2 gone : List (Option Str)} (h1 : eraseSkins A true e = (.ok (r1, gone1), e1))
    (h2 : eraseSkins B safe e1 = (.ok (r2, gone2), e2)) (h3 : eraseSkins (A ++ B) safe e = (.ok (r, gone), e')) :
    ∃ i1 s1 a g1 i2 s2 b g2, removeSkins A e.data = (.ok (i1, s1), a) ∧ SpineNodes.create (e.withData a).toJson = .ok g1 ∧
      removeSkins B a = (.ok (i2, s2), b) ∧ removeSkins (A ++ B) e.data = (.ok (i1 ++ i2, s1 ++ s2), b) ∧
      SpineNodes.create (e.withData b).toJson = .ok g2 ∧ e1.data = a ∧
      gone1 = (i1 ++ s1.map some).filter (fun i => (Graph.getNode g1 (imageId i)).isNone) ∧
      gone2 = (i2 ++ s2.map some).filter (fun i => (Graph.getNode g2 (imageId i)).isNone) ∧
      gone = ((i1 ++ i2) ++ (s1 ++ s2).map some).filter (fun i => (Graph.getNode g2 (imageId i)).isNone) := by
  obtain ⟨i1, s1, a, g1, x1, p1, p2, p3, p4, p5⟩ := eraseSkins_ok h1
  obtain ⟨i2, s2, b, g2, x2, q1, q2, q3, q4, q5⟩ := eraseSkins_ok h2
  obtain ⟨i3, s3, c, g3, x3, t1, t2, t3, t4, t5⟩ := eraseSkins_ok h3
  simp only [cleanUnless, if_true, Prod.mk.injEq] at p4
  have hd : e1.doc = (e.withData a).doc := by rw [p5, ← p4.2]; rfl
  have hda : e1.data = a := by rw [p5, ← p4.2]; rfl
  rw [hda] at q1
  have ht := t1
  rw [removeSkins_split p1, q1] at ht
  simp only [Prod.mk.injEq, Except.ok.injEq] at ht
  obtain ⟨⟨rfl, rfl⟩, rfl⟩ := ht
  have hw : (e1.withData b).doc = (e.withData b).doc := by
    show ({ e1.doc with data := b } : SpineDoc F) = { e.doc with data := b }
    rw [hd]; rfl
  have hj : (e1.withData b).toJson = (e.withData b).toJson := congrArg SpineDoc.toJson hw
  rw [hj, t2] at q2
  cases q2
  exact ⟨i1, s1, a, g1, i2, s2, b, g2, p1, p2, q1, t1, t2, hda, p3, q3, t3⟩

/-- `i` is an image of an attachment of the skins `A`; no skin but `A` and `B` uses it; when `A` are gone the skins `B` use it, but no
attachment of these has it as its path or name -/
def Missed (A B : List Str) (e e1 : Editor F) (i : Str) : Prop :=
  (∃ n ∈ A, ∃ s, IsSkin e.data.skins n s ∧ ∃ slot key x, s.Has slot key x ∧ x.OwnImage i) ∧
  (¬ ∃ s ∈ e.data.skins, s.name ∉ A ++ B ∧ ∃ slot key x, s.Has slot key x ∧ ImageName key x i) ∧
  (∃ s ∈ e1.data.skins, s.name ∈ B ∧ ∃ slot key x, s.Has slot key x ∧ ImageName key x i) ∧
  ¬ ∃ n ∈ B, ∃ s, IsSkin e1.data.skins n s ∧ ∃ slot key x, s.Has slot key x ∧ x.OwnImage i

/-- C83, the images reported by `erase_skins`: the one call reports what the two calls report, and those that are missed by them since
an image is not reported for the key of an attachment (C60). -/
theorem c83_images_partial (h : RanOpen e) {r1 r2 r : List Str × List Str} {gone1 gone2 gone : List (Option Str)}
    (h1 : eraseSkins A true e = (.ok (r1, gone1), e1)) (h2 : eraseSkins B safe e1 = (.ok (r2, gone2), e2))
    (h3 : eraseSkins (A ++ B) safe e = (.ok (r, gone), e')) {i : Str} (hi : i ≠ []) :
    some i ∈ gone ↔ some i ∈ gone1 ∨ some i ∈ gone2 ∨ Missed A B e e1 i := by
  obtain ⟨i1, s1, a, g1, i2, s2, b, g2, p1, p2, q1, t1, t2, rfl, rfl, rfl, rfl⟩ := parts h1 h2 h3
  have f1 := fresh h p1 p2 i
  have f2 := fresh h t1 t2 i
  have u1 := removeSkins_images p1 (i := i)
  have u2 := removeSkins_images q1 (i := i)
  have u3 := removeSkins_images t1 (i := i)
  have k1 := (RanOpen.run (.eraseSkins A true) h (by simp only [Op.run, h1]; rfl)).open.kept
  have v1 := removeSkins_reports h.open.kept p1 hi
  have v2 := removeSkins_reports k1 q1 hi
  have hs : ∀ (d : AnimData F), (∃ slot key x, d.HasAtt slot key x ∧ ImageName key x i) ↔
      ∃ k ∈ d.skins, ∃ slot key x, k.Has slot key x ∧ ImageName key x i := by
    intro d
    constructor
    · rintro ⟨slot, key, x, ⟨k, hk, d, hd, hx⟩, h⟩; exact ⟨k, hk, slot, key, x, ⟨d, hd, hx⟩, h⟩
    · rintro ⟨k, hk, slot, key, x, ⟨d, hd, hx⟩, h⟩; exact ⟨slot, key, x, ⟨k, hk, d, hd, hx⟩, h⟩
  unfold Missed
  rw [← u3, ← v1, ← v2]
  rw [List.mem_filter, List.mem_filter, List.mem_filter, f1, f2]
  simp only [List.mem_append, List.map_append] at *
  have hb : (∃ k ∈ e1.data.skins, ∃ slot key x, k.Has slot key x ∧ ImageName key x i) ↔
      (∃ k ∈ e1.data.skins, k.name ∈ B ∧ ∃ slot key x, k.Has slot key x ∧ ImageName key x i) ∨
      (∃ k ∈ e1.data.skins, k.name ∉ B ∧ ∃ slot key x, k.Has slot key x ∧ ImageName key x i) := by
    constructor
    · rintro ⟨k, hk, hx⟩
      by_cases hm : k.name ∈ B
      · exact .inl ⟨k, hk, hm, hx⟩
      · exact .inr ⟨k, hk, hm, hx⟩
    · rintro (⟨k, hk, _, hx⟩ | ⟨k, hk, _, hx⟩) <;> exact ⟨k, hk, hx⟩
  rw [hs e1.data, hb, ← u2]
  grind

/-- C83: in safe mode the images left by the two calls are those left by the one call and those missed. -/
theorem c83_images_left_partial (h : RanOpen e) {r1 r2 r : (List Str × List Str) × List (Option Str)}
    (h1 : eraseSkins A true e = (.ok r1, e1)) (h2 : eraseSkins B true e1 = (.ok r2, e2))
    (h3 : eraseSkins (A ++ B) true e = (.ok r, e')) {i : Str} (hi : i ≠ []) :
    i ∈ Dict.keys e2.images ↔ i ∈ Dict.keys e'.images ∨ i ∈ Dict.keys e.images ∧ some i ∉ r1.2 ∧ some i ∉ r2.2 ∧ Missed A B e e1 i := by
  obtain ⟨r1, gone1⟩ := r1
  obtain ⟨r2, gone2⟩ := r2
  obtain ⟨r, gone⟩ := r
  have hg := c83_images_partial h h1 h2 h3 hi
  have key : ∀ {n : List Str} {e e' : Editor F} {r : List Str × List Str} {gone : List (Option Str)}, eraseSkins n true e = (.ok (r, gone), e') →
      (i ∈ Dict.keys e'.images ↔ i ∈ Dict.keys e.images ∧ some i ∉ gone) := by
    intro n e e' r gone h
    obtain ⟨_, _, a, g, x, _, _, _, p4, p5⟩ := eraseSkins_ok h
    simp only [cleanUnless, if_true, Prod.mk.injEq] at p4
    have hx : x.images = e.images := by rw [← p4.2]; rfl
    rw [p5]
    show i ∈ Dict.keys (x.images.filter _) ↔ _
    rw [hx]
    simp only [Dict.keys, List.mem_map, List.mem_filter, decide_eq_true_eq]
    constructor
    · rintro ⟨p, ⟨hp, hq⟩, rfl⟩; exact ⟨⟨p, hp, rfl⟩, hq⟩
    · rintro ⟨⟨p, hp, rfl⟩, hq⟩; exact ⟨p, ⟨hp, hq⟩, rfl⟩
  rw [key h2, key h1, key h3]
  grind

section examples
open Sample
set_option maxRecDepth 4000

/-- the hypotheses of C83 for images: the image of `blue` is reported by the first call, those of `red` by the second -/
example : ∃ e, Sample.load linking = some e ∧ RanOpen e := ranOpen_of (by decide +kernel)
example : (Sample.load linking).map (fun e => let p := eraseSkins [s!!"blue"] true e
      (erased p, erased (eraseSkins [s!!"red"] true p.2), erased (eraseSkins [s!!"blue", s!!"red"] true e))) =
    some (.ok [some "blue/m"], .ok [some "red/m", some "red/a"], .ok [some "blue/m", some "red/m", some "red/a"]) := by decide +kernel

/-- `blue` has the image `a` as a path, `red` as the key of an attachment -/
def keyShared : J := Sample.doc [root] [slot "s" "root" [("attachment", txt "a")]]
  [("default", obj [("s", obj [("b", region "img/b")])]), ("blue", obj [("s", obj [("c", region "a")])]),
   ("red", obj [("s", obj [("a", obj [("width", .int 3)])])])] [("walk", obj [])]

example : ∃ e, Sample.load keyShared = some e ∧ RanOpen e := ranOpen_of (by decide +kernel)

/-- C83 is false for images: removed one after the other, neither skin reports the image that both use; removed together they do. -/
theorem c83_counterexample_images : (Sample.load keyShared).map (fun e => let p := eraseSkins [s!!"blue"] true e
      let q := eraseSkins [s!!"red"] true p.2
      let o := eraseSkins [s!!"blue", s!!"red"] true e
      (erased p, erased q, erased o, q.2.images.map (fun p => String.ofList p.1), o.2.images.map (fun p => String.ofList p.1))) =
    some (.ok [], .ok [], .ok [some "a"], ["img/b", "a"], ["img/b"]) := by decide +kernel

end examples
end Twice
end Editor
end Spine
