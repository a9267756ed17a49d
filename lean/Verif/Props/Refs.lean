import Verif.Lemmas.RefsDoc
import Verif.Props.EraseSkins
/-
C65: the editing calls leave no reference without its target.
-/
set_option linter.unusedSectionVars false
set_option linter.unusedSimpArgs false
namespace Spine
open JVal
variable {F : Type} [PyRt F]
namespace Editor
open AnimData
variable {e : Editor F}

theorem Reached.good (h : Reached e) : ∀ b ∈ e.data.bones, Bone.Good b := h.core.bones

/-- C65, bones: whatever calls are made, with any outcomes, the document written afterwards has the bones of the one written before, and
refers to no bone that was not referred to before. -/
theorem c65_bones (h : Reached e) (ops : List (Op F)) (n : Str) :
    ((after ops e).toJson.namesIn s!!"bones" n ↔ e.toJson.namesIn s!!"bones" n) ∧ ((after ops e).toJson.BoneRef n → e.toJson.BoneRef n) := by
  have hb := bones_held h.good (h.after ops).good (held_after h ops)
  exact ⟨names_bones hb n, boneRef_back (rest_after h ops) (held_after h ops) hb⟩

/-- C65, constraints: the same of the three kinds of constraints. -/
theorem c65_constraints (h : Reached e) (ops : List (Op F)) {k : Str} (hk : k ∈ [s!!"ik", s!!"transform", s!!"path"]) (n : Str) :
    ((after ops e).toJson.namesIn k n ↔ e.toJson.namesIn k n) ∧ ((after ops e).toJson.ConstraintRef k n → e.toJson.ConstraintRef k n) :=
  ⟨names_constraint (rest_after h ops) (held_after h ops) hk n, constraintRef_back (rest_after h ops) hk⟩

/-- C65, events: the same of events. -/
theorem c65_events (h : Reached e) (ops : List (Op F)) (n : Str) :
    (((after ops e).toJson.part s!!"events").hasKey n ↔ (e.toJson.part s!!"events").hasKey n) ∧
      ((after ops e).toJson.EventRef n → e.toJson.EventRef n) := by
  refine ⟨?_, eventRef_back (rest_after h ops)⟩
  rw [part_kept (rest_after h ops) (by simp)]

/-- C65, skins: if every skin with deform timelines exists, this is so after the calls. -/
theorem c65_skins (h : Reached e) (ops : List (Op F)) (hl : ∀ n, e.toJson.SkinRef n → e.toJson.namesIn s!!"skins" n) :
    ∀ n, (after ops e).toJson.SkinRef n → (after ops e).toJson.namesIn s!!"skins" n :=
  skins_iff.2 ((held_after h ops).fewer.skinRefs (skins_iff.1 hl))

theorem sound_of (h : Called e) (hn : ∀ n, e.toJson.namesIn s!!"slots" n → Clean .slot n)
    (hs : ∀ n, e.toJson.SlotRef n → e.toJson.namesIn s!!"slots" n)
    (hd : ∀ skin slot key, e.toJson.DeformRef skin slot key → e.toJson.HasAttachment skin slot key) : Sound e :=
  ⟨h.weak, h.reached.tied, fun s hs => hn _ ((names_slots _).2 ⟨s, hs, rfl⟩), slots_iff.1 hs, deforms_iff.1 hd⟩

/-- C65 for all of a document without duplicate keys whose slot names do not contain "_SLOT": if every reference leads to something, this is
so after any calls, whatever their outcomes.  References by path constraints to slots are not among these: see `c65_counterexample_path`. -/
theorem c65_calls_partial (h : Called e) (hn : ∀ n, e.toJson.namesIn s!!"slots" n → Clean .slot n) (hl : e.toJson.Linked) (ops : List (Op F)) :
    (after ops e).toJson.Linked := by
  have hs := sound_after ops (sound_of h hn hl.slots hl.deforms)
  have hr := h.reached
  refine ⟨?_, slots_iff.2 hs.slots, c65_skins hr ops hl.skins, deforms_iff.2 hs.deforms, ?_, ?_⟩
  · intro n hb
    obtain ⟨h1, h2⟩ := c65_bones hr ops n
    exact h1.2 (hl.bones n (h2 hb))
  · intro k hk n hc
    obtain ⟨h1, h2⟩ := c65_constraints hr ops hk n
    exact h1.2 (hl.constraints k hk n (h2 hc))
  · intro n hc
    obtain ⟨h1, h2⟩ := c65_events hr ops n
    exact h1.2 (hl.events n (h2 hc))

theorem run_slots (o : Op F) (ho : o.cleans = false) : (o.run e).2.data.slots = e.data.slots := by
  cases o with
  | clean => cases ho
  | scale sx sy =>
    show (scale sx sy e).2.data.slots = _
    rw [scale_frame]; rfl
  | eraseAnims arg strict safe =>
    have hs : safe = true := by simpa [Op.cleans] using ho
    subst hs
    show (eraseAnims arg strict true e).2.data.slots = _
    unfold eraseAnims cleanUnless
    split
    · rfl
    · simp only [if_true]
      split <;> rfl
  | eraseSkins names safe =>
    have hs : safe = true := by simpa [Op.cleans] using ho
    subst hs
    show (eraseSkins names true e).2.data.slots = _
    unfold eraseSkins cleanUnless
    have hb := (removeSkins_bones names e.data).2.2
    generalize removeSkins names e.data = q at hb
    obtain ⟨r, a⟩ := q
    cases r with
    | error x => exact hb
    | ok v =>
      simp only [if_true]
      split <;> exact hb

theorem after_slots (ops : List (Op F)) (ho : ∀ o ∈ ops, o.cleans = false) : (after ops e).data.slots = e.data.slots := by
  induction ops generalizing e with
  | nil => rfl
  | cons o ops ih =>
    exact (ih (fun o h => ho o (List.mem_cons_of_mem _ h))).trans (run_slots o (ho o (List.mem_cons_self ..)))

/-- C65, calls that do not clean: the slots of the document stay, and so do the targets of path constraints. -/
theorem c65_path_safe (h : Reached e) (ops : List (Op F)) (ho : ∀ o ∈ ops, o.cleans = false) (n : Str) :
    ((after ops e).toJson.namesIn s!!"slots" n ↔ e.toJson.namesIn s!!"slots" n) ∧
      ((after ops e).toJson.PathTarget n ↔ e.toJson.PathTarget n) := by
  refine ⟨?_, pathTarget_back (rest_after h ops)⟩
  rw [names_slots, names_slots]
  unfold HasSlot
  rw [after_slots ops ho]

/-! ## Examples -/
section examples
open Sample
set_option synthInstance.maxHeartbeats 200000
set_option synthInstance.maxSize 1000

def strOf : J → Option Str
  | .str s => some s
  | _ => none

def names (v : J) (k : Str) : List Str := (v.part k).items.filterMap (fun x => strOf (x.nameAt s!!"name"))
def keysIn (v : J) : List Str := v.entries.map (·.1)

theorem strOf_some {v : J} {s : Str} (h : strOf v = some s) : v = .str s := by
  unfold strOf at h; split at h <;> simp_all

theorem namesIn_of {v : J} {k n : Str} (h : n ∈ names v k) : v.namesIn k n := by
  obtain ⟨x, h1, h2⟩ := List.mem_filterMap.1 h
  exact ⟨x, h1, strOf_some h2⟩

def fieldStr (k : Str) (x : J) : Option Str := (x.field k).bind strOf

theorem fieldStr_of {k n : Str} {x : J} (h : x.field k = some (.str n)) : fieldStr k x = some n := by
  unfold fieldStr; rw [h]; rfl

def boneRefs (v : J) : List Str :=
  (v.part s!!"bones").items.filterMap (fieldStr s!!"parent") ++ (v.part s!!"slots").items.filterMap (fieldStr s!!"bone") ++
  ([s!!"ik", s!!"transform", s!!"path"].flatMap (fun k => (v.part k).items.flatMap (fun c => (c.part s!!"bones").items.filterMap strOf))) ++
  (v.part s!!"transform").items.filterMap (fieldStr s!!"bone") ++
  ([s!!"ik", s!!"transform"].flatMap (fun k => (v.part k).items.filterMap (fieldStr s!!"target"))) ++
  v.animsOf.flatMap (fun x => keysIn (x.part s!!"bones"))

def slotRefs (v : J) : List Str :=
  (v.part s!!"skins").items.flatMap (fun s => keysIn (s.part s!!"attachments")) ++ v.animsOf.flatMap (fun x => keysIn (x.part s!!"slots")) ++
  v.animsOf.flatMap (fun x => (x.part s!!"deform").entries.flatMap (fun p => keysIn p.2)) ++
  v.animsOf.flatMap (fun x => (x.part s!!"drawOrder").items.flatMap (fun t => (t.part s!!"offsets").items.filterMap (fun o => strOf (o.nameAt s!!"slot"))))

def skinRefs (v : J) : List Str := v.animsOf.flatMap (fun x => keysIn (x.part s!!"deform"))

def deformRefs (v : J) : List (Str × Str × Str) := v.animsOf.flatMap (fun x => (x.part s!!"deform").entries.flatMap (fun p =>
  p.2.entries.flatMap (fun q => (keysIn q.2).map (fun k => (p.1, q.1, k)))))

def attachmentsIn (v : J) : List (Str × Str × Str) := (v.part s!!"skins").items.flatMap (fun s => match strOf (s.nameAt s!!"name") with
  | some n => (s.part s!!"attachments").entries.flatMap (fun q => (keysIn q.2).map (fun k => (n, q.1, k)))
  | none => [])

def constraintRefs (v : J) (k : Str) : List Str := v.animsOf.flatMap (fun x => keysIn (x.part k))
def eventRefs (v : J) : List Str := v.animsOf.flatMap (fun x => (x.part s!!"events").items.filterMap (fieldStr s!!"name"))

/-- a check of a concrete document -/
def linkedB (v : J) : Bool := (boneRefs v).all (· ∈ names v s!!"bones") && (slotRefs v).all (· ∈ names v s!!"slots") &&
  (skinRefs v).all (· ∈ names v s!!"skins") && (deformRefs v).all (· ∈ attachmentsIn v) &&
  [s!!"ik", s!!"transform", s!!"path"].all (fun k => (constraintRefs v k).all (· ∈ names v k)) &&
  (eventRefs v).all (· ∈ keysIn (v.part s!!"events"))

theorem boneRefs_of {v : J} {n : Str} (h : v.BoneRef n) : n ∈ boneRefs v := by
  unfold boneRefs
  simp only [List.mem_append, List.mem_filterMap, List.mem_flatMap]
  cases h with
  | parent h1 h2 => exact .inl (.inl (.inl (.inl (.inl ⟨_, h1, fieldStr_of h2⟩))))
  | slot h1 h2 => exact .inl (.inl (.inl (.inl (.inr ⟨_, h1, fieldStr_of h2⟩))))
  | bones hk h1 h2 => exact .inl (.inl (.inl (.inr ⟨_, hk, _, h1, _, h2, rfl⟩)))
  | bone h1 h2 => exact .inl (.inl (.inr ⟨_, h1, fieldStr_of h2⟩))
  | target hk h1 h2 => exact .inl (.inr ⟨_, hk, _, h1, fieldStr_of h2⟩)
  | timeline h1 h2 => exact .inr ⟨_, h1, h2⟩

theorem slotRefs_of {v : J} {n : Str} (h : v.SlotRef n) : n ∈ slotRefs v := by
  unfold slotRefs
  simp only [List.mem_append, List.mem_filterMap, List.mem_flatMap]
  cases h with
  | skin h1 h2 => exact .inl (.inl (.inl ⟨_, h1, h2⟩))
  | timeline h1 h2 => exact .inl (.inl (.inr ⟨_, h1, h2⟩))
  | deform h1 h2 h3 => exact .inl (.inr ⟨_, h1, _, h2, h3⟩)
  | draw h1 h2 h3 h4 => exact .inr ⟨_, h1, _, h2, _, h3, by rw [h4]; rfl⟩

theorem attachmentsIn_of {v : J} {a b c : Str} (h : (a, b, c) ∈ attachmentsIn v) : v.HasAttachment a b c := by
  unfold attachmentsIn at h
  obtain ⟨s, h1, h2⟩ := List.mem_flatMap.1 h
  split at h2
  · rename_i n hn
    obtain ⟨q, h3, h4⟩ := List.mem_flatMap.1 h2
    obtain ⟨k, h5, h6⟩ := List.mem_map.1 h4
    simp only [Prod.mk.injEq] at h6
    obtain ⟨rfl, rfl, rfl⟩ := h6
    exact ⟨s, h1, strOf_some hn, q.2, h3, h5⟩
  · cases h2

theorem linked_of {v : J} (h : linkedB v = true) : v.Linked := by
  unfold linkedB at h
  simp only [Bool.and_eq_true, List.all_eq_true, decide_eq_true_eq] at h
  obtain ⟨⟨⟨⟨⟨h1, h2⟩, h3⟩, h4⟩, h5⟩, h6⟩ := h
  refine ⟨fun n hn => namesIn_of (h1 n (boneRefs_of hn)), fun n hn => namesIn_of (h2 n (slotRefs_of hn)), ?_, ?_, ?_, ?_⟩
  · rintro n ⟨x, hx, hk⟩
    exact namesIn_of (h3 n (List.mem_flatMap.2 ⟨x, hx, hk⟩))
  · rintro a b c ⟨x, hx, d, t, hd, ht, hk⟩
    refine attachmentsIn_of (h4 _ ?_)
    exact List.mem_flatMap.2 ⟨x, hx, List.mem_flatMap.2 ⟨_, hd, List.mem_flatMap.2 ⟨_, ht, List.mem_map.2 ⟨c, hk, rfl⟩⟩⟩⟩
  · rintro k hk n ⟨x, hx, h⟩
    exact namesIn_of (h5 k hk n (List.mem_flatMap.2 ⟨x, hx, h⟩))
  · rintro n ⟨x, hx, t, ht, h⟩
    exact h6 n (List.mem_flatMap.2 ⟨x, hx, List.mem_filterMap.2 ⟨t, ht, fieldStr_of h⟩⟩)

/-- references of every kind -/
def tangled : J := obj [("skeleton", obj [("spine", txt "3.8.99")]), ("bones", .list [root, bone "arm" "root", bone "hand" "arm"]),
  ("slots", .list [slot "s1" "arm" [("attachment", txt "a1")], slot "s2" "hand" [("attachment", txt "b1")], slot "s3" "root"]),
  ("ik", .list [obj [("name", txt "k"), ("bones", .list [txt "arm"]), ("target", txt "hand")]]),
  ("transform", .list [obj [("name", txt "t"), ("bones", .list [txt "hand"]), ("target", txt "root")]]),
  ("skins", .list [obj [("name", txt "default"), ("attachments", obj [("s1", obj [("a1", mesh "img/a1")]), ("s2", obj [("b1", region "img/b1")]),
      ("s3", obj [("c1", mesh "img/c1")])])],
    obj [("name", txt "grey"), ("attachments", obj [("s1", obj [("a1", mesh "img/g1")])])]]),
  ("events", obj [("step", obj [("int", .int 3)])]),
  ("animations", obj [("walk", obj [("bones", obj [("arm", obj [("rotate", .list [obj [("angle", .int 4)]])])]),
    ("ik", obj [("k", .list [obj [("mix", .int 1)]])]), ("transform", obj [("t", .list [obj [("rotateMix", .int 1)]])]),
    ("slots", obj [("s3", obj [("color", .list [obj [("color", txt "ff00ff00")]])])]), ("events", .list [obj [("name", txt "step")]]),
    ("deform", obj [("default", obj [("s1", obj [("a1", .list [obj []])]), ("s3", obj [("c1", .list [obj []])])]),
      ("grey", obj [("s1", obj [("a1", .list [obj []])])])]),
    ("drawOrder", .list [obj [("offsets", .list [obj [("slot", txt "s3"), ("offset", .int (-1))], obj [("slot", txt "s1"), ("offset", .int 1)]])]])])])]

def refsCalls : List (Op Rat) := [.eraseSkins [s!!"grey"] true, .clean]

/-- numbers of references of each kind -/
def counts (e : Editor Rat) : List Nat := [(boneRefs e.toJson).length, (slotRefs e.toJson).length, (skinRefs e.toJson).length,
  (deformRefs e.toJson).length, (constraintRefs e.toJson s!!"ik").length, (eventRefs e.toJson).length]

theorem names_of {v : J} {k n : Str} (h : v.namesIn k n) : n ∈ names v k := by
  obtain ⟨x, h1, h2⟩ := h
  exact List.mem_filterMap.2 ⟨x, h1, by rw [h2]; rfl⟩

def cleanNamesB (v : J) : Bool := (names v s!!"slots").all (fun n => !(decide (('_' :: NType.slot.name) <:+: n)))

theorem cleanNames_of {v : J} (h : cleanNamesB v = true) : ∀ n, v.namesIn s!!"slots" n → Clean .slot n := by
  intro n hn
  have := List.all_eq_true.1 h n (names_of hn)
  simpa [Clean] using this

/-- the hypotheses of `c65_calls_partial` hold -/
theorem tangled_linked : ∃ e, Sample.load tangled = some e ∧ Called e ∧ e.toJson.Linked ∧ ∀ n, e.toJson.namesIn s!!"slots" n → Clean .slot n := by
  have h : (Sample.load tangled).isSome = true := by decide +kernel
  have hp : properB tangled = true := by decide +kernel
  have hl : (Sample.load tangled).all (fun e => linkedB e.toJson) = true := by decide +kernel
  have hn : (Sample.load tangled).all (fun e => cleanNamesB e.toJson) = true := by decide +kernel
  cases hd : Sample.load tangled with
  | none => rw [hd] at h; cases h
  | some e =>
    rw [hd] at hl hn
    simp only [Option.all_some] at hl hn
    exact ⟨e, rfl, called_of hp hd, linked_of hl, cleanNames_of hn⟩

example : (Sample.load tangled).map (fun e => (slotNames e, counts e)) = some (["s1", "s2", "s3"], [10, 10, 2, 3, 1, 1]) := by decide +kernel
example : (Sample.load tangled).map (fun e => (slotNames (after refsCalls e), counts (after refsCalls e))) =
    some (["s1", "s2"], [9, 4, 1, 1, 1, 1]) := by decide +kernel

/-- a path constraint along the path of the slot "track", in a document without animations -/
def onTrack : J := obj [("skeleton", obj [("spine", txt "3.8.99")]), ("bones", .list [root, bone "cart" "root"]),
  ("slots", .list [slot "track" "root" [("attachment", txt "rail")]]),
  ("path", .list [obj [("name", txt "ride"), ("bones", .list [txt "cart"]), ("target", txt "track")]]),
  ("skins", .list [obj [("name", txt "default"), ("attachments", obj [("track", obj [("rail", obj [("type", txt "path")])])])]])]

/-- the targets of the path constraints -/
def pathTargets (e : Editor Rat) : List (Option Str) := (e.toJson.part s!!"path").items.map (fieldStr s!!"target")

/-- C65 is false of the code for path constraints: cleaning removes the slot along whose path the constraint moves the bone, and keeps
the constraint. -/
theorem c65_counterexample_path : (Sample.load onTrack).map (fun e => ((slotNames e, pathTargets e), slotNames (clean e).2, pathTargets (clean e).2)) =
    some ((["track"], [some s!!"track"]), [], [some s!!"track"]) := by decide +kernel

/-- C65 is false of the code for slot names with "_SLOT": cleaning leaves a timeline for a slot that is gone. -/
theorem c65_counterexample_name : (Sample.load slotName).map (fun e => (linkedB e.toJson, slotNames (clean e).2, slotRefs (clean e).2.toJson)) =
    some (true, ["x"], [s!!"x_SLOT"]) := by decide +kernel

end examples
end Editor
end Spine
