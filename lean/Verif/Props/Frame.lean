import Verif.Lemmas.Frame
import Verif.Props.CleanExamples
/-
C63: the editing calls change nothing else.  For every document that loads, after any calls with any arguments and whatever their outcomes.
-/
set_option linter.unusedSectionVars false
set_option linter.unusedSimpArgs false
namespace Spine
open JVal
variable {F : Type} [PyRt F]

theorem part_jl {α : Type} (k : Str) (f : α → JVal F) (l : List α) :
    ((Dict.get? (jl k f l) k).getD .null).items = l.map f := by
  unfold jl
  cases l <;> simp [Dict.get?, items]

theorem part_jd {α : Type} (k : Str) (f : α → JVal F) (d : Dict α) :
    ((Dict.get? (jd k f d) k).getD .null).entries = dmap f d := by
  unfold jd
  cases d <;> simp [Dict.get?, entries, dmap]

namespace Anim

theorem field_ik (b : Bool) (x : Anim F) : (x.toJson b).field s!!"ik" = Dict.get? (jd s!!"ik" (jlist ikTimelineCls b) x.ik) s!!"ik" := by
  simp [field, entries, toJson, get?_append, get?_jl_ne, get?_jd_ne]
theorem field_draw (b : Bool) (x : Anim F) :
    (x.toJson b).field s!!"drawOrder" = Dict.get? (jl s!!"drawOrder" (·.toJson b) x.drawOrder) s!!"drawOrder" := by
  simp [field, entries, toJson, get?_append, get?_jl_ne, get?_jd_ne]
theorem field_bones (b : Bool) (x : Anim F) : (x.toJson b).field s!!"bones" = Dict.get? (jd s!!"bones" (·.toJson b) x.bones) s!!"bones" := by
  simp [field, entries, toJson, get?_append, get?_jl_ne, get?_jd_ne]
theorem field_slots (b : Bool) (x : Anim F) : (x.toJson b).field s!!"slots" = Dict.get? (jd s!!"slots" (·.toJson b) x.slots) s!!"slots" := by
  simp [field, entries, toJson, get?_append, get?_jl_ne, get?_jd_ne]
theorem field_events (b : Bool) (x : Anim F) :
    (x.toJson b).field s!!"events" = Dict.get? (jl s!!"events" (eventTimelineCls.toJson b) x.events) s!!"events" := by
  simp [field, entries, toJson, get?_append, get?_jl_ne, get?_jd_ne]
theorem field_transform (b : Bool) (x : Anim F) :
    (x.toJson b).field s!!"transform" = Dict.get? (jd s!!"transform" (jlist transformTimelineCls b) x.transform) s!!"transform" := by
  simp [field, entries, toJson, get?_append, get?_jl_ne, get?_jd_ne]
theorem field_path (b : Bool) (x : Anim F) :
    (x.toJson b).field s!!"path" = Dict.get? (jd s!!"path" (jdict pathTimelineCls b) x.path) s!!"path" := by
  simp [field, entries, toJson, get?_append, get?_jl_ne, get?_jd_ne]
theorem field_deform (b : Bool) (x : Anim F) :
    (x.toJson b).field s!!"deform" = Dict.get? (jd s!!"deform" (fun d => .dict (dmap (jdict deformCls b) d)) x.deform) s!!"deform" := by
  simp [field, entries, toJson, get?_append, get?_jl_ne, get?_jd_ne]

theorem field_time (b : Bool) (t : DrawTl F) : (t.toJson b).field s!!"time" = if drawCls.emits b s!!"time" t.time then some t.time else none := by
  by_cases h : drawCls.emits b s!!"time" t.time = true <;> simp [h, DrawTl.toJson, field, entries, Dict.get?]

theorem Trimmed.json {x x' : Anim F} (b : Bool) (h : Trimmed x x') : TrimmedAnim (x.toJson b) (x'.toJson b) := by
  refine ⟨?_, ?_, ?_, ?_⟩
  · intro k hk
    simp only [List.mem_cons, List.not_mem_nil, or_false] at hk
    rcases hk with rfl | rfl | rfl | rfl | rfl
    · rw [field_bones, field_bones, h.bones]
    · rw [field_ik, field_ik, h.ik]
    · rw [field_transform, field_transform, h.transform]
    · rw [field_path, field_path, h.path]
    · rw [field_events, field_events, h.events]
  · unfold part
    rw [field_draw, field_draw, part_jl, part_jl, List.map_map, List.map_map]
    have e : ((fun v : JVal F => v.field s!!"time") ∘ fun t : DrawTl F => t.toJson b) =
        (fun v : JVal F => if drawCls.emits b s!!"time" v then some v else none) ∘ fun t : DrawTl F => t.time := by
      funext t; exact field_time b t
    rw [e, ← List.map_map, ← List.map_map, h.times]
  · unfold part
    rw [field_slots, field_slots, part_jd, part_jd]
    exact h.slots.map _
  · unfold part
    rw [field_deform, field_deform, part_jd, part_jd]
    intro skin d' hd
    obtain ⟨d', h1, rfl⟩ := (mem_dmap _ _ _ _).1 hd
    obtain ⟨d, h2, h3⟩ := h.deform _ _ h1
    refine ⟨_, (mem_dmap _ _ _ _).2 ⟨d, h2, rfl⟩, ?_⟩
    intro slot t' ht
    obtain ⟨t', h4, rfl⟩ := (mem_dmap _ _ _ _).1 ht
    obtain ⟨t, h5, h6⟩ := h3 _ _ h4
    exact ⟨_, (mem_dmap _ _ _ _).2 ⟨t, h5, rfl⟩, h6.map _⟩

end Anim

namespace Editor

theorem field_doc (s : SpineDoc F) (k : Str) : s.toJson.field k =
    if k = s!!"skeleton" then some (.dict s.skeleton) else Dict.get? (s.data.toJson s.version.is38) k := by
  simp [SpineDoc.toJson, field, entries, Dict.get?_set]

theorem RestE.json {e e' : Editor F} (h : RestE e e') : RestDoc e.toJson e'.toJson := by
  obtain ⟨hv, hs, hr⟩ := h
  refine ⟨?_, ?_, ?_⟩
  · intro k hk
    unfold toJson
    rw [field_doc, field_doc, hv, hs]
    have h1 : e'.doc.data.events = e.doc.data.events := hr.events
    have h2 : e'.doc.data.transform = e.doc.data.transform := hr.transform
    have h3 : e'.doc.data.path = e.doc.data.path := hr.path
    simp only [List.mem_cons, List.not_mem_nil, or_false] at hk
    rcases hk with rfl | rfl | rfl | rfl <;>
      simp [AnimData.toJson, get?_append, get?_jl_ne, get?_jd_ne, Dict.get?, h1, h2, h3]
  · have key : ∀ s : SpineDoc F, (s.toJson.part s!!"skins").items.map (·.field s!!"name") =
        (s.data.skins.map (·.name)).map (fun n => if n = [] then none else some (.str n)) := by
      intro s
      have : s.toJson.field s!!"skins" = some (.list (s.data.skins.map (·.toJson s.version.is38))) := by
        rw [field_doc]
        simp [AnimData.toJson, get?_append, get?_jl_ne, get?_jd_ne, Dict.get?]
      unfold part
      rw [this]
      simp only [Option.getD_some, items, List.map_map]
      congr 1
      funext t
      simp only [Function.comp, field, entries, Skin.toJson]
      by_cases hn : t.name = [] <;> by_cases ha : t.attachments = [] <;> simp [hn, ha, Dict.get?]
    unfold toJson
    rw [key, key]
    exact hr.skins.map _
  · have key : ∀ s : SpineDoc F, (s.toJson.part s!!"animations").entries = dmap (·.toJson s.version.is38) s.data.animations := by
      intro s
      have : s.toJson.field s!!"animations" = Dict.get? (jd s!!"animations" (·.toJson s.version.is38) s.data.animations) s!!"animations" := by
        rw [field_doc]
        simp [AnimData.toJson, get?_append, get?_jl_ne, get?_jd_ne, Dict.get?]
      unfold part
      rw [this, part_jd]
    unfold toJson
    rw [key, key, hv]
    obtain ⟨l, h1, h2⟩ := hr.animations
    refine ⟨dmap (Anim.toJson e.doc.version.is38) l, ?_, ?_⟩
    · exact h1.map (fun p : Str × Anim F => (p.1, p.2.toJson e.doc.version.is38))
    unfold dmap
    rw [All₂.map_right, All₂.map_left]
    exact h2.mono (fun p p' _ h => ⟨h.1, h.2.json _⟩)

/-- the editor after a list of calls, whatever their outcomes -/
def after (ops : List (Op F)) (e : Editor F) : Editor F := ops.foldl (fun e o => (o.run e).2) e

theorem Reached.after {e : Editor F} (h : Reached e) (ops : List (Op F)) : Reached (after ops e) := by
  induction ops generalizing e with
  | nil => exact h
  | cons o ops ih => exact ih (h.run o)

theorem rest_after {e : Editor F} (h : Reached e) (ops : List (Op F)) : RestE e (after ops e) := by
  induction ops generalizing e with
  | nil => exact .refl e
  | cons o ops ih => exact (rest_run o h.filled).trans (ih (h.run o))

/-- C63: whatever calls are made, with any outcomes, the document written afterwards has the skeleton, events, transform and path constraints
of the one written before, and some of its animations, in the same order, with the same timelines of bones, constraints and events, the same
drawOrder times, and some of the slot and deform timelines, each as it was. -/
theorem c63_calls {e : Editor F} (h : Reached e) (ops : List (Op F)) : RestDoc e.toJson (after ops e).toJson := (rest_after h ops).json

/-- C63, for the documents as they are held rather than as they are written -/
theorem c63_data {e : Editor F} (h : Reached e) (ops : List (Op F)) :
    (after ops e).doc.version = e.doc.version ∧ (after ops e).doc.skeleton = e.doc.skeleton ∧ AnimData.Rest e.data (after ops e).data :=
  rest_after h ops

/-! ## Examples -/
section examples
open Sample
set_option synthInstance.maxHeartbeats 200000

/-- a history with a call that succeeds and one that fails halfway: cleaning removes slots, then erasing "grey" and a skin that does not exist
removes the first and raises -/
def mixed : J := obj [("skeleton", obj [("spine", txt "3.8.99")]), ("bones", .list [root, bone "arm" "root"]),
  ("slots", .list [slot "s1" "arm" [("attachment", txt "a1")], slot "s2" "arm", slot "s3" "root"]),
  ("skins", .list [obj [("name", txt "default"), ("attachments", obj [("s1", obj [("a1", region "img/a1")])])],
    obj [("name", txt "grey"), ("attachments", obj [("s1", obj [("a1", region "img/g1")])])]]),
  ("events", obj [("step", obj [("int", .int 3)])]),
  ("animations", obj [("walk", obj [("bones", obj [("arm", obj [("rotate", .list [obj [("angle", .int 4)]])])]),
    ("slots", obj [("s1", shows "a1"), ("s3", obj [("color", .list [obj [("color", txt "ff00ff00")]])])]), ("events", .list [obj [("name", txt "step")]])]),
    ("run", obj [])])]

def calls : List (Op Rat) := [.clean, .eraseSkins [s!!"grey", s!!"nowhere"] true, .eraseAnims (.list [s!!"run"]) false true]

example : ∃ e, Sample.load mixed = some e ∧ Reached e := by
  have h : (Sample.load mixed).isSome = true := by decide +kernel
  unfold Sample.load at h ⊢
  cases hl : Editor.load mixed with
  | error x => rw [hl] at h; simp [Except.toOption] at h
  | ok e => exact ⟨e, by simp [Except.toOption], .load hl⟩

/-- names of the slots and skins; numbers of timelines for slots, bones and events -/
def summary (e : Editor Rat) : List String × List String × List (String × List Nat) :=
  (slotNames e, e.data.skins.map (fun s => String.ofList s.name),
    e.data.animations.map (fun p => (String.ofList p.1, [p.2.slots.length, p.2.bones.length, p.2.events.length])))

example : (Sample.load mixed).map summary = some (["s1", "s2", "s3"], ["default", "grey"], [("walk", [2, 1, 1]), ("run", [0, 0, 0])]) := by
  decide +kernel

example : (Sample.load mixed).map (fun e => summary (after calls e)) = some (["s1"], ["default"], [("walk", [1, 1, 1])]) := by decide +kernel

end examples
end Editor
end Spine
