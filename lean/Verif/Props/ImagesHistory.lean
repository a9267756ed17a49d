import Verif.Lemmas.Tidy
import Verif.Lemmas.SampleRan
/-
C47 and C48 over histories of calls.
-/
set_option linter.unusedSectionVars false
set_option synthInstance.maxHeartbeats 200000
set_option synthInstance.maxSize 1000
namespace Spine
open JVal AnimData
variable {F : Type} [PyRt F]
namespace Editor
variable {e : Editor F}

/-- C47: after any history of calls, every image in use is listed.  Missing: names that contain the suffixes of the graph ids, for
which it is false (`c47_counterexample`). -/
theorem c47_history_partial (h : Ran e) {i : Str} (hi : e.data.UsesImage i) : i ∈ Dict.keys e.images := h.sync.cover i hi

/-- C47 and C48: after any history of calls, exactly the images in use are listed.  Missing: documents that are not tidy (two
attachments of the same key with different images, attachments that name no image, paths, skins of the same name), for which it
is false (`c48_counterexample`, `c48_counterexample_shared`). -/
theorem c48_history_partial (h : RanTidy e) (i : Str) : i ∈ Dict.keys e.images ↔ e.data.UsesImage i :=
  ⟨h.sync.only i, h.sync.sync.cover i⟩

/-! ## Examples and counterexamples -/
section examples
open Sample

/-- all attachments with slot and key -/
def _root_.Spine.AnimData.allAtts (a : AnimData F) : List (Str × Att F) := a.skins.flatMap (fun s => s.attachments.flatMap (fun p => p.2))

theorem mem_allAtts {a : AnimData F} {slot k : Str} {x : Att F} (h : a.HasAtt slot k x) : (k, x) ∈ a.allAtts := by
  obtain ⟨s, hs, d, hd, hx⟩ := h
  exact List.mem_flatMap.2 ⟨s, hs, List.mem_flatMap.2 ⟨_, hd, hx⟩⟩

def noTextB (x : Att F) (k : Str) : Bool := match Dict.get? x.attrs k with | some (.str (_ :: _)) => false | _ => true

theorem noTextB_iff {x : Att F} {k : Str} (h : x.NoText k) : noTextB x k = true := by
  unfold noTextB
  split
  · rename_i c t hg; cases h _ hg
  · rfl

/-- a decidable form of `Tidy` -/
def _root_.Spine.AnimData.tidyB (a : AnimData F) : Bool :=
  decide (a.skins.map (·.name)).Nodup &&
  a.allAtts.all (fun p => decide (p.2.kind = .region ∨ p.2.kind = .mesh ∨ p.2.kind = .linked) &&
    !(noTextB p.2 s!!"path" && noTextB p.2 s!!"name") &&
    (match imageOf p.1 p.2 with
      | .ok i => a.allAtts.all (fun q => if p.1 = q.1 then (match imageOf q.1 q.2 with | .ok j => i == j | _ => false) else true)
      | .error _ => false))

theorem tidy_of {a : AnimData F} (h : a.tidyB = true) : a.Tidy := by
  unfold AnimData.tidyB at h
  rw [Bool.and_eq_true, List.all_eq_true, decide_eq_true_eq] at h
  obtain ⟨h1, h2⟩ := h
  refine ⟨h1, ?_, ?_, ?_⟩
  · intro slot k x hx
    have := h2 _ (mem_allAtts hx)
    rw [Bool.and_eq_true, Bool.and_eq_true, decide_eq_true_eq] at this
    exact this.1.1
  · intro slot k x hx ⟨n1, n2⟩
    have := h2 _ (mem_allAtts hx)
    rw [Bool.and_eq_true, Bool.and_eq_true] at this
    simp [noTextB_iff n1, noTextB_iff n2] at this
  · intro slot slot' k x x' i i' hx hx' hi hi'
    have := h2 _ (mem_allAtts hx)
    rw [Bool.and_eq_true] at this
    have := this.2
    simp only at this
    split at this
    · rename_i j hj
      have := List.all_eq_true.1 this _ (mem_allAtts hx')
      simp only [if_true] at this
      split at this
      · rename_i j' hj'
        simp only [beq_iff_eq] at this
        rw [hi.unique (imageOf_ok hj), hi'.unique (imageOf_ok hj'), this]
      · cases this
    · cases this

theorem ranTidy_of {d : J} (h : (d.properB && ((Sample.load d).any (fun e => e.data.namesB && e.data.tidyB))) = true) :
    ∃ e, Sample.load d = some e ∧ RanTidy e := by
  rw [Bool.and_eq_true] at h
  obtain ⟨h1, h2⟩ := h
  unfold Sample.load at h2 ⊢
  cases hl : Editor.load d with
  | error x => rw [hl] at h2; simp [Except.toOption] at h2
  | ok e =>
    rw [hl] at h2
    simp only [Except.toOption, Option.any_some, Bool.and_eq_true] at h2
    exact ⟨e, rfl, .load (JVal.proper_of d h1) hl (AnimData.namesOk_of h2.1) (tidy_of h2.2)⟩

def imagesOf (e : Editor Rat) : List String := e.images.map (fun p => String.ofList p.1)

/-- two skins share an image; the first has an image nobody shows -/
def tidyDoc : J := Sample.doc [root] [slot "s" "root" [("attachment", txt "a")], slot "t" "root" [("attachment", txt "b")]]
  [("default", obj [("s", obj [("a", region "img/a"), ("u", region "img/u")])]),
   ("red", obj [("t", obj [("b", region "img/b"), ("c", region "img/a")])])] [("walk", obj [])]

example : ∃ e, Sample.load tidyDoc = some e ∧ RanTidy e := ranTidy_of (by decide +kernel)
example : (Sample.load tidyDoc).map (fun e => (imagesOf e, imagesOf (eraseSkins [s!!"red"] true e).2, imagesOf (eraseSkins [s!!"red"] false e).2)) =
    some (["img/a", "img/u", "img/b"], ["img/a", "img/u"], ["img/a"]) := by decide +kernel

/-- an unused image whose name contains the suffix of the graph ids -/
def imageName : J := Sample.doc [root] [slot "s" "root" [("attachment", txt "a")]]
  [("default", obj [("s", obj [("a", region "x"), ("b", region "x_IMAGE")])])] [("walk", obj [])]

/-- C47 is false of the code: cleaning removes the unused image "x_IMAGE", and takes "x", which is in use, off the list. -/
theorem c47_counterexample : (Sample.load imageName).map (fun e => (imagesOf e, keysOf (clean e).2, imagesOf (clean e).2)) =
    some (["x", "x_IMAGE"], [[("s", ["a"])]], ["x_IMAGE"]) := by decide +kernel

/-- an attachment without name and path shows the image of its key -/
def keyImage : J := Sample.doc [root] [slot "s" "root" [("attachment", txt "a")]]
  [("default", obj [("s", obj [("a", region "img/a")])]), ("red", obj [("s", obj [("b", obj [])])])] [("walk", obj [])]

/-- C48 is false of the code: the image "b" of the removed skin stays on the list, in both modes. -/
theorem c48_counterexample : (Sample.load keyImage).map (fun e =>
      (imagesOf (eraseSkins [s!!"red"] true e).2, imagesOf (eraseSkins [s!!"red"] false e).2)) =
    some (["img/a", "b"], ["img/a", "b"]) := by decide +kernel

/-- the attachment "a" is a different image in two slots; only one of them is shown -/
def sharedKey : J := Sample.doc [root] [slot "s" "root" [("attachment", txt "a")], slot "t" "root"]
  [("default", obj [("s", obj [("a", region "img/1")]), ("t", obj [("a", region "img/2")])])] [("walk", obj []), ("run", obj [])]

/-- C48 is false of the code: erasing an animation removes the slot "t" with "img/2", which stays on the list. -/
theorem c48_counterexample_shared : (Sample.load sharedKey).map (fun e =>
      (keysOf (eraseAnims (.list [s!!"run"]) true false e).2, imagesOf (eraseAnims (.list [s!!"run"]) true false e).2)) =
    some ([[("s", ["a"])]], ["img/1", "img/2"]) := by decide +kernel

end examples
end Editor
end Spine
