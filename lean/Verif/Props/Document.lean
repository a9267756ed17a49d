import Verif.Lemmas.Reload
import Verif.Spec.Sample
/-
C22: what the editor writes can be loaded again and is written the same way.
-/
set_option linter.unusedSectionVars false
namespace Spine.Editor
open JVal
variable {F : Type} [PyRt F]

theorem load_good {doc : JVal F} {e : Editor F} (h : load doc = .ok e)
    (ht : e.doc.version.is38 = true ∨ ∀ p ∈ e.data.animations, ∀ t ∈ p.2.drawOrder, t.time ≠ .null) :
    AnimData.Good e.doc.version.is38 e.data ∧ e.data.bones ≠ [] ∧
    ∃ v, Dict.get? e.doc.skeleton s!!"spine" = some (.str v) ∧ Version.mk? F v = .ok e.doc.version := by
  obtain ⟨d, v, a, _, _, h1, h2, h3, h4⟩ := SpineDoc.load_ok (load_ok h).1
  refine ⟨?_, ?_, v, h1, h2⟩
  · show AnimData.Good _ e.doc.data
    rw [h4]
    refine AnimData.good_setDefaults _ (AnimData.good_init h3 ?_)
    intro p hp t htm
    rcases ht with ht | ht
    · exact .inl ht
    cases hb : e.doc.version.is38 with
    | true => exact .inl rfl
    | false =>
      right
      intro hn
      have hp' : (p.1, p.2.setDefaults false) ∈ e.doc.data.animations := by
        rw [h4, hb]; exact List.mem_map.2 ⟨p, hp, rfl⟩
      refine ht _ hp' (t.setDefaults false) (List.mem_map.2 ⟨t, htm, rfl⟩) ?_
      show ((drawCls (F := F)).setDefaults false [(s!!"time", t.time)]).val s!!"time" = .null
      rw [hn]; rfl
  · intro hb
    have hc := (load_ok h).2.2
    obtain ⟨dd, e1, g1, _⟩ := GShape.get?_doc e.doc
    rw [e1] at hc
    have hb' : e.doc.data.bones = [] := hb
    simp only [SpineNodes.create, subscript, getItem, g1, if_pos hb'] at hc
    cases hc

/-- C22: a document with at least one slot, whose slots name a bone and (before 3.8) whose drawOrder keyframes have no null time:
the output of the editor is accepted, and the new editor has the same output, the same graph and the same image references. -/
theorem c22_reload (doc : JVal F) (e : Editor F) (h : load doc = .ok e) (hs : e.data.slots ≠ [])
    (hb : ∀ s ∈ e.data.slots, s.bone ≠ none)
    (ht : e.doc.version.is38 = true ∨ ∀ p ∈ e.data.animations, ∀ t ∈ p.2.drawOrder, t.time ≠ .null) :
    ∃ e', load e.toJson = .ok e' ∧ e'.toJson = e.toJson ∧ e'.graph = e.graph ∧ e'.images = e.images := by
  obtain ⟨h1, h2, h3⟩ := load_good h ht
  exact reload h1 hb h2 hs h3 (load_ok h).2.1 (load_ok h).2.2

end Spine.Editor

namespace Spine.Sample
open JVal
/-- what is written under a key -/
def fieldOf (k : String) : J → Option J
  | .dict d => Dict.get? d k.toList
  | _ => none
def firstOf : J → Option J
  | .list (x :: _) => some x
  | _ => none

/-- the sample document: the conditions of C22 hold and the editor has something in each part -/
example : ((load basic).map fun e => (e.data.slots.length, e.data.slots.all (fun s => s.bone.isSome), e.doc.version.is38,
    e.data.skins.length, e.data.animations.length, e.images.length)) = some (3, true, true, 2, 2, 4) := by decide +kernel
example : ((load basic).bind fun e => (load e.toJson).map fun e' => (e'.data.slots.length, e'.data.animations.length, e'.images.length)) =
    some (3, 2, 4) := by decide +kernel

/-- C22 without slots: the output has no "slots" and is refused -/
def noSlots : J := doc [root] [] [("default", obj [])] []
example : ((load noSlots).map fun e => (e.data.slots.length, (Editor.load e.toJson).toOption.isSome)) = some (0, false) := by decide +kernel

/-- C22 with a slot whose bone is null: accepted, but "bone" is not written and then missed -/
def nullBone : J := doc [root] [obj [("name", txt "s"), ("bone", .null)], slot "t" "root"]
  [("default", obj [("t", obj [("a", region "i")])])] []
example : ((load nullBone).map fun e => match Editor.load e.toJson with | .ok _ => none | .error x => some x) =
    some (some (.missingRequired [s!!"bone"])) := by decide +kernel

/-- C22 before 3.8 with a null time in drawOrder: left out at first, then written as 0 -/
def nullTime : J := obj [("skeleton", obj [("spine", txt "3.6.53")]), ("bones", .list [root]), ("slots", .list [slot "s" "root"]),
  ("skins", obj []), ("animations", obj [("a", obj [("drawOrder", .list [obj [("time", .null)]])])])]
def firstTime (d : J) : Option (Option Rat) :=
  (fieldOf "animations" d).bind fun x => (fieldOf "a" x).bind fun x => (fieldOf "drawOrder" x).bind fun x =>
    (firstOf x).map fun x => (fieldOf "time" x).bind num
example : ((load nullTime).bind fun e => (load e.toJson).map fun e' => (firstTime e.toJson, firstTime e'.toJson)) =
    some (some none, some (some 0)) := by decide +kernel
end Spine.Sample
