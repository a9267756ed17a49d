import Verif.Lemmas.StateDrawn
import Verif.Props.DrawnErase
import Verif.Props.DrawnExamples
import Verif.Props.FileSessions
import Verif.Props.Frame
/-
C91: what is drawn is in the saved document, and cleaning a file does not change what is drawn.
-/
namespace Spine
namespace Editor
open JVal State Sessions
variable {F : Type}

section values
variable [PyRt F] {e e' e1 e2 : Editor F} {ids atts : List Str}

theorem data2_of (h : e.toJson = e'.toJson) (ho : Open e) (ho' : Open e') : Data2 e.doc.version.is38 e.data e'.data := by
  have r := ER.of h ho ho'
  exact Data2.of r.data (Shaped.of ho.good) (Shaped.of ho'.good) ho.sync.dflt (by rw [r.version]; exact ho'.sync.dflt)

/-- C91: two editors that save the same document draw the same: at every moment of every animation, with every active skin, the same
attachments on the same slots with the same keyframes for colours and shape, all in the form in which they are saved. -/
theorem c91_drawn_partial (h : RanOpen e) (h' : RanOpen e') (hj : e.toJson = e'.toJson) (n : Str) (m : Moment F) (skin : Str) (w : Sprite.Saved F) :
    e.data.DrawsSaved e.doc.version.is38 n m skin w ↔ e'.data.DrawsSaved e'.doc.version.is38 n m skin w := by
  have hv := (ER.of hj h.open h'.open).version
  constructor
  · intro hd; rw [← hv]; exact draws_rel (data2_of hj h.open h'.open) hd
  · intro hd; rw [hv]; exact draws_rel (data2_of hj.symm h'.open h.open) hd

/-- C91: ... and in the same order. -/
theorem c91_order_partial (h : RanOpen e) (h' : RanOpen e') (hj : e.toJson = e'.toJson) (n : Str) (m : Moment F) (L : List (Slot F)) :
    e.data.Order n m L ↔ e'.data.Order n m L :=
  ⟨order_rel (data2_of hj h.open h'.open), order_rel (data2_of hj.symm h'.open h.open)⟩

theorem saved_congr (b : Bool) {x y : AnimData F} {n : Str} {m : Moment F} {skin : Str} (h : ∀ p, x.Draws n m skin p ↔ y.Draws n m skin p) (w : Sprite.Saved F) :
    x.DrawsSaved b n m skin w ↔ y.DrawsSaved b n m skin w := by
  constructor <;> rintro ⟨p, h1, h2⟩
  · exact ⟨p, (h p).1 h1, h2⟩
  · exact ⟨p, (h p).2 h1, h2⟩

/-- `a'` has attachments and slot timelines of `a` -/
def Sub (a a' : AnimData F) : Prop :=
  (∀ p' ∈ a'.animations, ∃ p ∈ a.animations, ∀ q ∈ p'.2.slots, q ∈ p.2.slots) ∧ ∀ slot k x, a'.HasAtt slot k x → a.HasAtt slot k x

omit [PyRt F] in
theorem Sub.refl (a : AnimData F) : Sub a a := ⟨fun p hp => ⟨p, hp, fun _ h => h⟩, fun _ _ _ h => h⟩

omit [PyRt F] in
theorem Sub.trans {a b c : AnimData F} (h : Sub a b) (h' : Sub b c) : Sub a c := by
  refine ⟨fun p hp => ?_, fun s k x hx => h.2 _ _ _ (h'.2 _ _ _ hx)⟩
  obtain ⟨q, hq, h1⟩ := h'.1 p hp
  obtain ⟨r, hr, h2⟩ := h.1 q hq
  exact ⟨r, hr, fun _ h => h2 _ (h1 _ h)⟩

omit [PyRt F] in
theorem Sub.ordinary {a b : AnimData F} (h : Sub a b) (ho : a.Ordinary) : b.Ordinary := by
  refine ⟨fun p hp q hq => ?_, fun s x hx => ho.none s x (h.2 _ _ _ hx)⟩
  obtain ⟨r, hr, h1⟩ := h.1 p hp
  exact ho.timelines r hr q (h1 q hq)

omit [PyRt F] in
theorem Sub.unlinked {a b : AnimData F} (h : Sub a b) {names : List Str} (hu : a.Unlinked names) : b.Unlinked names :=
  fun s k x hx => hu s k x (h.2 _ _ _ hx)

theorem clean_sub (hs : Sync e) (h : clean e = (.ok (ids, atts), e')) : Sub e.data e'.data := by
  refine ⟨fun p' hp => ?_, fun s k x hx => ((result_hasAtt hs h s k x).1 hx).1⟩
  obtain ⟨p, hp0, _, hc⟩ := (clean_anims_sync hs h).right hp
  refine ⟨p, hp0, fun q hq => ?_⟩
  rw [hc.slots] at hq
  exact (List.mem_filter.1 hq).1

theorem cleanUnless_sub {safe : Bool} {r : List Str × List Str} (hs : Sync e) (h : cleanUnless safe e = (.ok r, e')) : Sub e.data e'.data := by
  unfold cleanUnless at h
  split at h
  · simp only [Prod.mk.injEq] at h; rw [← h.2]; exact .refl _
  · exact clean_sub (ids := r.1) (atts := r.2) hs h

theorem eraseAnims_sub {arg : NamesArg} {strict safe : Bool} {r : JVal F × List Str × List Str} (hr : Ran e)
    (h : eraseAnims arg strict safe e = (.ok r, e')) : Sub e.data e'.data := by
  unfold eraseAnims at h
  cases arg with
  | other => simp at h
  | list names =>
    simp only at h
    split at h
    · simp at h
    · rw [eraseRaw_fst] at h
      split at h
      · simp at h
      · rename_i r' e1 h1
        simp only [Prod.mk.injEq] at h
        rw [← h.2]
        refine Sub.trans ?_ (cleanUnless_sub (sync_filterAnims hr.sync _) h1)
        exact ⟨fun p hp => ⟨p, (List.mem_filter.1 hp).1, fun _ h => h⟩, fun _ _ _ h => h⟩

theorem eraseSkins_sub {names : List Str} {safe : Bool} {r : (List Str × List Str) × List (Option Str)} (hr : Ran e)
    (h : eraseSkins names safe e = (.ok r, e')) (hno : e.data.Unlinked names) : Sub e.data e'.data := by
  obtain ⟨imgs, regions, a, g, e1, h3, h4, h5, h6, rfl⟩ := eraseSkins_ok (r := r.1) (gone := r.2) h
  have s1 := sync_removeSkins hr.sync h3 h4
  have ea := removeSkins_noLinks h3 hno
  have h7 : Sub e.data a := by
    rw [ea]
    refine ⟨fun p hp => ?_, ?_⟩
    · obtain ⟨x, hx, e2⟩ := (mem_dmap _ _ p.1 p.2).1 hp
      exact ⟨_, hx, fun q hq => by rw [← e2] at hq; exact hq⟩
    · rintro slot k x ⟨s, hs, hx⟩
      exact ⟨s, (List.mem_filter.1 hs).1, hx⟩
  have h8 := cleanUnless_sub s1 h6
  exact h7.trans h8

/-- one call that spares the animation and the skin -/
theorem call_draws {c : Call} {o : Out F} {n skin : Str} (hr : Ran e) (ho : e.data.Ordinary) (hc : c.run e = (.ok o, e')) (hs : c.Spares e.data n skin) :
    (∀ m p, e'.data.Draws n m skin p ↔ e.data.Draws n m skin p) ∧ Sub e.data e'.data ∧ e'.doc.version = e.doc.version := by
  have hf := AnimData.Filled.of_fixed hr.sync.dflt
  cases c with
  | clean =>
    simp only [Call.run] at hc
    generalize hq : clean e = q at hc
    obtain ⟨q1, q2⟩ := q
    cases q1 with
    | error x => cases hc
    | ok r =>
      cases hc
      refine ⟨fun m p => c62_drawn_partial (ids := r.1) (atts := r.2) hr ho hq n m skin p, clean_sub (ids := r.1) (atts := r.2) hr.sync hq, ?_⟩
      have := (rest_clean hf).1; rw [hq] at this; exact this
  | eraseAnims a t s =>
    simp only [Call.run] at hc
    generalize hq : eraseAnims a t s e = q at hc
    obtain ⟨q1, q2⟩ := q
    cases q1 with
    | error x => cases hc
    | ok r =>
      cases hc
      refine ⟨fun m p => ?_, eraseAnims_sub hr hq, ?_⟩
      · cases a with
        | other => simp [eraseAnims] at hq
        | list names => exact c62_erase_animations_partial hr ho hq hs m skin p
      · have := (rest_eraseAnims a t s hf).1; rw [hq] at this; exact this
  | eraseSkins names s =>
    simp only [Call.run] at hc
    generalize hq : eraseSkins names s e = q at hc
    obtain ⟨q1, q2⟩ := q
    cases q1 with
    | error x => cases hc
    | ok r =>
      cases hc
      obtain ⟨hs1, hs2, hs3⟩ := hs
      refine ⟨fun m p => c62_erase_skins_partial (r := r.1) (gone := r.2) hr ho hq hs3 hs1 hs2 n m p, eraseSkins_sub hr hq hs3, ?_⟩
      have := (rest_eraseSkins names s hf).1; rw [hq] at this; exact this

omit [PyRt F] in
theorem Sub.spares {a b : AnimData F} (h : Sub a b) {c : Call} {n skin : Str} (hs : c.Spares a n skin) : c.Spares b n skin := by
  cases c with
  | clean => trivial
  | eraseAnims a t s => cases a <;> exact hs
  | eraseSkins names s => exact ⟨hs.1, hs.2.1, h.unlinked hs.2.2⟩

theorem calls_draws {l : List Call} {n skin : Str} : ∀ {e s : Editor F} {os : List (Out F)}, RanOpen e → Ready e → e.data.Ordinary → runAll l e = (.ok os, s) →
    (∀ c ∈ l, c.Spares e.data n skin) → (∀ m p, s.data.Draws n m skin p ↔ e.data.Draws n m skin p) ∧ s.doc.version = e.doc.version := by
  induction l with
  | nil => intro e s os _ _ _ hc _; cases hc; exact ⟨fun _ _ => Iff.rfl, rfl⟩
  | cons c l ih =>
    intro e s os h hr ho hc hsp
    unfold runAll at hc
    generalize hq : c.run e = q at hc
    obtain ⟨q1, q2⟩ := q
    cases q1 with
    | error x => cases hc
    | ok o =>
      obtain ⟨h1, h2⟩ := current_call h hr hq
      obtain ⟨d1, d2, d3⟩ := call_draws h.ran ho hq (hsp c List.mem_cons_self)
      simp only at hc
      generalize hp : runAll l q2 = p at hc
      obtain ⟨p1, p2⟩ := p
      cases p1 with
      | error x => cases hc
      | ok os' =>
        cases hc
        obtain ⟨i1, i2⟩ := ih h1 h2 (d2.ordinary ho) hp (fun c hc => d2.spares (hsp c (List.mem_cons_of_mem _ hc)))
        exact ⟨fun m p => (i1 m p).trans (d1 m p), i2.trans d3⟩

/-- C91: a document is opened, calls are made that spare an animation and a skin, and the document is saved and opened again: the animation
draws with the skin what it drew before, at every moment. -/
theorem c91_calls_partial {v : JVal F} {l : List Call} {os : List (Out F)} {s : Editor F} {n skin : Str} (hv : load v = .ok e) (h : RanOpen e) (ho : e.data.Ordinary)
    (hrun : runAll l e = (.ok os, s)) (hsp : ∀ c ∈ l, c.Spares e.data n skin) (hl : load s.toJson = .ok e2) (m : Moment F) (w : Sprite.Saved F) :
    e2.data.DrawsSaved e2.doc.version.is38 n m skin w ↔ e.data.DrawsSaved e.doc.version.is38 n m skin w := by
  have hr := ready_load hv h.open
  obtain ⟨h1, _⟩ := current_runAll h hr hrun
  obtain ⟨h2, h3⟩ := reopened h1 hl
  obtain ⟨d1, d2⟩ := calls_draws h hr ho hrun hsp
  rw [← c91_drawn_partial h1 h2 h3.json, d2]
  exact saved_congr _ (d1 m) w
end values

section files
open Files
variable [JsonRt F] {e : Editor F} {fs : FS} {p : Str}

/-- C91: the same for a file edited in place in one or more sessions: it can be opened again, and draws what it drew before. -/
theorem c91_file_partial {l : List Call} {ls : List (List Call)} {os : List (Out F)} {s : Editor F} {n skin : Str} (h : RanOpen e)
    (hl : fromJsonFile fs p = .ok e) (wr : Writable fs p) (ho : e.data.Ordinary) (hrun : runAll (l :: ls).flatten e = (.ok os, s))
    (hs : s.data.slots ≠ []) (hsp : ∀ c ∈ (l :: ls).flatten, c.Spares e.data n skin) :
    ∃ e2 : Editor F, fromJsonFile (onFile (F := F) p (l :: ls) fs).2 p = .ok e2 ∧
      ∀ (m : Moment F) (w : Sprite.Saved F), e2.data.DrawsSaved e2.doc.version.is38 n m skin w ↔ e.data.DrawsSaved e.doc.version.is38 n m skin w := by
  obtain ⟨_, v, hv⟩ := opened hl wr.plain
  have hr := ready_load hv h.open
  obtain ⟨os', h1, _⟩ := onFile_run l ls h hr hl wr hrun hs
  obtain ⟨k1, _⟩ := current_runAll h hr hrun
  obtain ⟨e2, he2⟩ := (c23_reopen_partial k1).2 hs
  obtain ⟨_, t2⟩ := c58_to_json_partial (edited k1) wr.wf wr.plain wr.slash wr.named wr.dot wr.above wr.notDir
  refine ⟨e2, ?_, fun m w => c91_calls_partial hv h ho hrun hsp he2 m w⟩
  rw [h1]
  exact t2.trans he2
end files

/-! ## Examples -/
section examples
open JsonText hiding Plain
open Files

/-- the hypotheses of `c91_file_partial` hold of the disk of C89, for an animation that is not erased -/
example : ∃ (e : Editor XF) (os : List (Out XF)) (s : Editor XF), RanOpen e ∧ fromJsonFile disk s!!"/home/a.json" = .ok e ∧ Writable disk s!!"/home/a.json" ∧
    e.data.Ordinary ∧ runAll Sessions.calls.flatten e = (.ok os, s) ∧ s.data.slots ≠ [] ∧ (∀ c ∈ Sessions.calls.flatten, c.Spares e.data s!!"walk" s!!"default") ∧
    e.data.slots.length = 2 ∧ s.data.slots.length = 1 := by
  have hp : small.Proper := JVal.proper_of _ (by decide +kernel)
  have hd : decode (encode .compact small) = .ok small := decode_encode .compact hp
  have hk : (match Editor.load small with | .ok e => smallOk e && e.data.ordinaryB | .error _ => false) = true := by decide +kernel
  cases hl : Editor.load small with
  | error x => rw [hl] at hk; cases hk
  | ok e =>
    rw [hl] at hk
    simp only [smallOk, Bool.and_eq_true, beq_iff_eq] at hk
    obtain ⟨⟨⟨⟨⟨⟨⟨k1, k2⟩, k3⟩, k4⟩, k5⟩, k6⟩, k7⟩, k8⟩ := hk
    have ho : RanOpen e := by
      refine .load hp hl (AnimData.namesOk_of k3) ?_ (.inl k1) ?_
      · intro s hs hc
        have := List.all_eq_true.1 k2 s hs
        rw [hc] at this; cases this
      · rintro s _ t ht slot key x p _ _ ⟨d, h1, h2⟩
        have h := List.all_eq_true.1 (List.all_eq_true.1 (List.all_eq_true.1 k5 t ht) _ h1) _ h2
        simpa using h
    have hf : fromJsonFile disk s!!"/home/a.json" = .ok e := by
      have hr : disk.read s!!"/home/a.json" = .ok (encode .compact small) := rfl
      unfold fromJsonFile
      simp only [hr, hd]
      exact hl
    generalize hq : runAll Sessions.calls.flatten e = q at k6 k7
    obtain ⟨q1, q2⟩ := q
    cases q1 with
    | error x => cases k6
    | ok os =>
      refine ⟨e, os, q2, ho, hf, disk_writable, AnimData.ordinary_of k8, hq, ?_, ?_, k4, k7⟩
      · intro hc
        rw [hc] at k7
        cases k7
      · intro c hc
        have : c = .eraseAnims (.list [s!!"run"]) true true ∨ c = .clean := by simpa [Sessions.calls] using hc
        rcases this with rfl | rfl
        · show s!!"walk" ∉ [s!!"run"]
          decide
        · trivial

open Sample

/-- two slots; the timeline of the first has no keyframes -/
def half : J := Sample.doc [root] [slot "s1" "root" [("attachment", txt "a")], slot "s2" "root"]
  [("default", obj [("s1", obj [("a", region "i")]), ("s2", obj [("b", region "j")])])]
  [("run", obj [("slots", obj [("s1", obj []), ("s2", shows "b")])])]

/-- the slot "s1" is drawn with its attachment "a" -/
def drawnB (e : Editor Rat) : Bool :=
  e.data.slots.any (fun s => decide (s.name = s!!"s1") && decide (s.color = none) && decide (s.attachment = some s!!"a") &&
    e.data.animations.any (fun p => decide (p.1 = s!!"run") && p.2.slots.any (fun q => decide (q.1 = s.name) && q.2.attachment.isEmpty)) &&
    e.data.skins.any (fun sk => decide (sk.name = s!!"default") && sk.attachments.any (fun q => decide (q.1 = s.name) && q.2.any (fun r => decide (r.1 = s!!"a")))))

theorem drawn_of {e : Editor Rat} (h : drawnB e = true) : ∃ p, e.data.Draws s!!"run" always s!!"default" p ∧ p.slot.name = s!!"s1" := by
  unfold drawnB at h
  simp only [List.any_eq_true, Bool.and_eq_true, decide_eq_true_iff] at h
  obtain ⟨s, hs, ⟨⟨⟨h1, h2⟩, h3⟩, ⟨n, x⟩, hx, rfl, ⟨m, t⟩, ht, e1, h4⟩, sk, hsk, h5, ⟨m2, d⟩, hd, e2, ⟨k, a⟩, ha, e3⟩ := h
  simp only at e1 e2 e3 h4 hx ht
  subst e1 e2 e3
  have hf : e.data.Finds s!!"default" s.name s!!"a" s!!"default" a := .active rfl ⟨sk, hsk, h5, d, hd, ha⟩
  refine ⟨⟨s, s!!"a", s!!"default", a, (x.colours s.name).1, (x.colours s.name).2, x.deforms s!!"default" s.name s!!"a"⟩, ⟨x, hx, hs, ?_, hf, rfl, ?_, rfl⟩, h1⟩
  · exact .before (t := t) ht (by rw [List.isEmpty_iff.1 h4]; simp) h3
  · rintro ⟨c, _, hc, _⟩
    rw [show (Sprite.slot _).color = none from h2] at hc; cases hc

/-- C91 is false of the code for a timeline without keyframes: the slot is drawn in the document that was opened, and not in the one that is saved after
cleaning. -/
theorem c91_counterexample : ∃ (e e1 e2 : Editor Rat) (ids atts : List Str) (w : Sprite.Saved Rat), Sample.load half = some e ∧ RanOpen e ∧ clean e = (.ok (ids, atts), e1) ∧
    Sample.load e1.toJson = some e2 ∧ e.data.DrawsSaved e.doc.version.is38 s!!"run" always s!!"default" w ∧
    ¬ e2.data.DrawsSaved e2.doc.version.is38 s!!"run" always s!!"default" w := by
  obtain ⟨e, he, hr⟩ := ranOpen_of (d := half) (by decide +kernel)
  have h1 : (Sample.load half).any (fun e => drawnB e && (clean e).1.toOption.isSome &&
      (Sample.load (clean e).2.toJson).any (fun e2 => e2.data.slots.all (fun s => decide (s.name ≠ s!!"s1")))) = true := by
    decide +kernel
  rw [he] at h1
  simp only [Option.any_some, Bool.and_eq_true] at h1
  obtain ⟨⟨h1, h2⟩, h3⟩ := h1
  cases hc : (clean e).1 with
  | error x => rw [hc] at h2; simp [Except.toOption] at h2
  | ok p =>
    cases hl : Sample.load (clean e).2.toJson with
    | none => rw [hl] at h3; cases h3
    | some e2 =>
      rw [hl] at h3
      obtain ⟨q, hq, hn⟩ := drawn_of h1
      refine ⟨e, (clean e).2, e2, p.1, p.2, _, he, hr, Prod.ext hc rfl, hl, ⟨q, hq, rfl⟩, ?_⟩
      rintro ⟨r, ⟨_, _, hs, _⟩, e3⟩
      have e4 : r.slot = q.slot := congrArg Sprite.Saved.slot e3
      simp only [Option.any_some, List.all_eq_true, decide_eq_true_iff] at h3
      exact h3 _ hs (by rw [e4, hn])
end examples
end Editor
end Spine
