import Verif.Lemmas.Reopen
import Verif.Props.EraseSkins
/-
C23: the editor's output can be loaded again, after any history of calls.
-/
set_option linter.unusedSectionVars false
set_option synthInstance.maxHeartbeats 200000
set_option synthInstance.maxSize 1000
namespace Spine
open JVal Graph AnimData
variable {F : Type} [PyRt F]
namespace Editor
variable {e e' : Editor F}

/-- Without slots the output has no "slots", which loading needs. -/
theorem no_slots_no_load (h : e.data.slots = []) : ¬ ∃ e', load e.toJson = .ok e' := by
  rintro ⟨e', he⟩
  obtain ⟨d, v, a, h1, _, _, _, h2, _⟩ := SpineDoc.load_ok (load_ok he).1
  obtain ⟨d', e1, _, g2, _, _⟩ := GShape.get?_doc e.doc
  have : e.toJson = .dict d' := e1
  rw [h1] at this
  injection this with this; subst this
  unfold AnimData.init at h2
  obtain ⟨_, _, h2⟩ := bindOk h2
  obtain ⟨_, _, h2⟩ := bindOk h2
  obtain ⟨_, _, h2⟩ := bindOk h2
  obtain ⟨_, h3, _⟩ := bindOk h2
  have h' : e.doc.data.slots = [] := h
  rw [if_pos h'] at g2
  unfold getItem at h3
  rw [Dict.get?_del, if_neg (by decide), g2] at h3
  cases h3

/-- C23, for documents whose names do not contain the suffixes of the graph ids, without null slot bones, without null drawOrder
times before 3.8 and without meshes linked to paths: after any history of calls the output loads exactly when a slot is left,
and then the new editor has the same output. -/
theorem c23_reopen_partial (h : RanOpen e) : (∃ e', load e.toJson = .ok e') ↔ e.data.slots ≠ [] :=
  ⟨fun h1 h2 => no_slots_no_load h2 h1, fun hs => by obtain ⟨e', h1, _⟩ := h.open.reload hs; exact ⟨e', h1⟩⟩

theorem c23_same_output_partial (h : RanOpen e) (h1 : load e.toJson = .ok e') : e'.toJson = e.toJson := by
  obtain ⟨e2, h2, h3⟩ := h.open.reload ((c23_reopen_partial h).1 ⟨e', h1⟩)
  rw [h1] at h2; injection h2 with h2; rw [h2]; exact h3

/-! ## Examples and counterexamples -/
section examples
open Sample

/-- the condition on linked meshes, checked -/
def noPathB (a : AnimData Rat) : Bool :=
  a.skins.all (fun s => s.attachments.all (fun p => p.2.all (fun q => decide (q.2.kind ≠ .path))))

theorem noPath_of {a : AnimData Rat} (h : noPathB a = true) : a.NoPathLink := by
  rintro s _ t ht slot key x p _ _ ⟨d, h1, h2⟩
  have h := List.all_eq_true.1 (List.all_eq_true.1 (List.all_eq_true.1 h t ht) _ h1) _ h2
  simpa using h

def openB (d : J) : Bool := good d && (Sample.load d).any (fun e => e.doc.version.is38 && e.data.slots.all (fun s => s.bone.isSome) && noPathB e.data)

theorem ranOpen_of {d : J} (h : openB d = true) : ∃ e, Sample.load d = some e ∧ RanOpen e := by
  unfold openB good at h
  rw [Bool.and_eq_true, Bool.and_eq_true] at h
  obtain ⟨⟨h1, h2⟩, h3⟩ := h
  unfold Sample.load at h2 h3 ⊢
  cases hl : Editor.load d with
  | error x => rw [hl] at h2; simp [Except.toOption] at h2
  | ok e =>
    rw [hl] at h2 h3
    have h3 : (e.doc.version.is38 && e.data.slots.all (fun s => s.bone.isSome) && noPathB e.data) = true := by
      simpa [Except.toOption] using h3
    rw [Bool.and_eq_true, Bool.and_eq_true] at h3
    refine ⟨e, rfl, .load (JVal.proper_of d h1) hl (AnimData.namesOk_of (by simpa [Except.toOption] using h2)) ?_ (.inl h3.1.1) (noPath_of h3.2)⟩
    intro s hs hc
    have := List.all_eq_true.1 h3.1.2 s hs
    rw [hc] at this; cases this

/-- A history with three calls that change the editor; slots are left and the theorem applies. -/
example : ∃ e, RanOpen e ∧ e.data.slots ≠ [] ∧ e.data.skins.length = 2 ∧ scaleXs e = [some (1 / 2)] := by
  obtain ⟨e, h1, h2⟩ := ranOpen_of (d := linking) (by decide +kernel)
  have run : ∀ (o : Op Rat) (e : Editor Rat), RanOpen e → (o.run e).1.isOk = true → RanOpen (o.run e).2 := by
    intro o e h hok
    generalize hr : o.run e = r at hok
    obtain ⟨x, e'⟩ := r
    cases x with
    | error _ => cases hok
    | ok u => exact .run o h hr
  let o1 : Op Rat := .eraseSkins [s!!"red"] false
  let o2 : Op Rat := .clean
  let o3 : Op Rat := .scale (.flt (1 / 2)) (.int 1)
  have k1 : (Sample.load linking).map (fun e => (o1.run e).1.isOk) = some true := by decide +kernel
  have k2 : (Sample.load linking).map (fun e => (o2.run (o1.run e).2).1.isOk) = some true := by decide +kernel
  have k3 : (Sample.load linking).map (fun e => (o3.run (o2.run (o1.run e).2).2).1.isOk) = some true := by decide +kernel
  have k4 : (Sample.load linking).map (fun e => let e := (o3.run (o2.run (o1.run e).2).2).2
    (e.data.slots.isEmpty, e.data.skins.length, scaleXs e)) = some (false, 2, [some (1 / 2)]) := by decide +kernel
  rw [h1] at k1 k2 k3 k4
  have r1 := run o1 e h2 (by simpa using k1)
  have r2 := run o2 _ r1 (by simpa using k2)
  have r3 := run o3 _ r2 (by simpa using k3)
  simp only [Option.map_some, Option.some.injEq, Prod.mk.injEq] at k4
  refine ⟨_, r3, ?_, k4.2.1, k4.2.2⟩
  intro hc
  rw [hc] at k4
  simp at k4

/-- slots that no animation can show -/
def still : J := Sample.doc [root] [slot "s" "root" [("attachment", txt "a")]] [("default", obj [("s", obj [("a", region "i")])])] []

/-- C23 is false of the code: without animations cleaning removes every slot; the output lacks "slots" and loading it raises KeyError. -/
theorem c23_counterexample : (Sample.load still).map (fun e => (outcome (clean e), slotNames (clean e).2,
    (Editor.load (clean e).2.toJson).map (fun _ => ()))) = some (.ok (["s"], ["a"]), [], .error .key) := by decide +kernel

/-- `blue` has a mesh linked to a path of `red` -/
def linkToPath : J := Sample.doc [root] [slot "s" "root" [("attachment", txt "m")]]
  [("red", obj [("s", obj [("m", obj [("type", txt "path"), ("lengths", .list [])])])]), ("blue", obj [("s", obj [("m", linked "red" "blue/m")])])] [("walk", obj [])]

/-- C23 is false of the code: the path is copied and gets the attribute `path`, which a path attachment must not have. -/
theorem c23_counterexample_path : (Sample.load linkToPath).map (fun e => (erased (eraseSkins [s!!"red"] true e),
    (Editor.load (eraseSkins [s!!"red"] true e).2.toJson).map (fun _ => ()))) = some (.ok [], .error (.unsupportedAttrs [s!!"path"])) := by
  decide +kernel

/-- C23 is false of the code right after loading: a slot whose bone is null is written without bone. -/
theorem c23_counterexample_null : (Sample.load nullBone).map (fun e => (Editor.load e.toJson).map (fun _ => ())) =
    some (.error (.missingRequired [s!!"bone"])) := by decide +kernel

end examples
end Editor
end Spine
