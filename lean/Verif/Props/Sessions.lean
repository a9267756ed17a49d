import Verif.Lemmas.StateLoad
import Verif.Spec.Sessions
/-
C88: the saved document is the whole state of the editor.
-/
set_option linter.unusedSectionVars false
namespace Spine
namespace Sessions
open Graph JVal Editor State
variable {F : Type} [PyRt F] {e e' : Editor F}

theorem Both.map {α β γ δ σ τ : Type} {R : α → β → Prop} {S : σ → τ → Prop} {R' : γ → δ → Prop} {x : Res σ α} {y : Res τ β} (h : Both R S x y)
    (f : α → γ) (g : β → δ) (hf : ∀ a b, R a b → R' (f a) (g b)) : Both R' S (x.1.map f, x.2) (y.1.map g, y.2) := by
  obtain ⟨x1, x2⟩ := x
  obtain ⟨y1, y2⟩ := y
  rcases h with ⟨z, e1, e2⟩ | ⟨r, s, e1, e2, h1, h2⟩
  · simp only at e1 e2
    subst e1 e2
    exact .inl ⟨z, rfl, rfl⟩
  · simp only at e1 e2 h2
    subst e1 e2
    exact .inr ⟨_, _, rfl, rfl, hf _ _ h1, h2⟩

theorem call_both (c : Call) (h : SR e e') : Both Out.Same SR (c.run e) (c.run e') := by
  obtain ⟨h, hr, hr'⟩ := h
  cases c with
  | clean => exact Both.map (clean_both h hr hr') _ _ fun a b h => ⟨rfl, h.1, h.2, rfl⟩
  | eraseAnims a t s => exact Both.map (eraseAnims_both a t s h hr hr') _ _ fun a b h => ⟨congrArg some h.1, h.2.1, h.2.2, rfl⟩
  | eraseSkins n s => exact Both.map (eraseSkins_both n s h hr hr') _ _ fun a b h => ⟨rfl, h.1.1, h.1.2, h.2⟩

theorem runAll_both (l : List Call) : ∀ {e e' : Editor F}, SR e e' → Both (All₂ Out.Same) SR (runAll l e) (runAll l e') := by
  induction l with
  | nil => intro e e' h; exact .inr ⟨_, _, rfl, rfl, .nil, h⟩
  | cons c l ih =>
    intro e e' h
    have h1 := call_both c h
    unfold runAll
    generalize c.run e = q at h1
    generalize c.run e' = q' at h1
    obtain ⟨q1, q2⟩ := q
    obtain ⟨q1', q2'⟩ := q'
    rcases h1 with ⟨z, e1, e2⟩ | ⟨r, s, e1, e2, h1, h2⟩
    · simp only at e1 e2
      subst e1 e2
      exact .inl ⟨z, rfl, rfl⟩
    · simp only at e1 e2 h2
      subst e1 e2
      simp only
      have h3 := ih h2
      generalize runAll l q2 = p at h3
      generalize runAll l q2' = p' at h3
      obtain ⟨p1, p2⟩ := p
      obtain ⟨p1', p2'⟩ := p'
      rcases h3 with ⟨z, e1, e2⟩ | ⟨r2, s2, e1, e2, h4, h5⟩
      · simp only at e1 e2
        subst e1 e2
        exact .inl ⟨z, rfl, rfl⟩
      · simp only at e1 e2 h5
        subst e1 e2
        exact .inr ⟨_, _, rfl, rfl, .cons h1 h4, h5⟩

/-- the editor was built from its present bones and iks: nothing was scaled since it was opened or a skin was erased -/
def Current (e : Editor F) : Prop := BuiltFrom e (bonesJson e) (iksJson e)

theorem ready (h : RanOpen e) (hb : Current e) : Ready e := ⟨h.open, hb.graph.2.1, hb.graph.2.2⟩

/-- same exception, or the same answers and the same saved document -/
def Agree (x y : Res (Editor F) (List (Out F))) : Prop := Both (All₂ Out.Same) (fun s t => s.toJson = t.toJson) x y

theorem agree_of (h : SR e e') (l : List Call) : Agree (runAll l e) (runAll l e') := by
  rcases runAll_both l h with ⟨z, e1, e2⟩ | ⟨r, s, e1, e2, h1, h2⟩
  · exact .inl ⟨z, e1, e2⟩
  · exact .inr ⟨r, s, e1, e2, h1, h2.1.json⟩

/-! ## Theorems -/

/-- C88: of two editors that save the same document, reached by whatever histories, every sequence of calls does the same. -/
theorem c88_same_document_partial (h : RanOpen e) (hb : Current e) (h' : RanOpen e') (hb' : Current e') (hj : e.toJson = e'.toJson)
    (l : List Call) : Agree (runAll l e) (runAll l e') :=
  agree_of ⟨ER.of hj h.open h'.open, ready h hb, ready h' hb'⟩ l

/-- C88: saving and opening again makes no difference to the calls that follow. -/
theorem c88_reopen_partial (h : RanOpen e) (hb : Current e) (hl : load e.toJson = .ok e') (l : List Call) : Agree (runAll l e) (runAll l e') := by
  obtain ⟨h1, h2⟩ := reopened h hl
  exact agree_of ⟨h2, ready h hb, ready_load hl h1.open⟩ l

/-! ### Sessions -/

theorem current_call {c : Call} {o : Out F} (h : RanOpen e) (hr : Ready e) (hc : c.run e = (.ok o, e')) : RanOpen e' ∧ Ready e' := by
  have h1 := call_both c ⟨⟨rfl, rfl, (ER.of rfl hr.open hr.open).data⟩, hr, hr⟩
  rw [hc] at h1
  rcases h1 with ⟨_, e1, _⟩ | ⟨_, _, _, _, _, h2⟩
  · cases e1
  refine ⟨?_, h2.2.1⟩
  cases c with
  | clean =>
    refine .run .clean h ?_
    simp only [Call.run, Prod.mk.injEq] at hc
    simp only [Op.run, Prod.mk.injEq]
    refine ⟨?_, hc.2⟩
    cases hq : (Editor.clean e).1 with
    | error x => rw [hq] at hc; cases hc.1
    | ok r => rfl
  | eraseAnims a t s =>
    refine .run (.eraseAnims a t s) h ?_
    simp only [Call.run, Prod.mk.injEq] at hc
    simp only [Op.run, Prod.mk.injEq]
    refine ⟨?_, hc.2⟩
    cases hq : (Editor.eraseAnims a t s e).1 with
    | error x => rw [hq] at hc; cases hc.1
    | ok r => rfl
  | eraseSkins n s =>
    refine .run (.eraseSkins n s) h ?_
    simp only [Call.run, Prod.mk.injEq] at hc
    simp only [Op.run, Prod.mk.injEq]
    refine ⟨?_, hc.2⟩
    cases hq : (Editor.eraseSkins n s e).1 with
    | error x => rw [hq] at hc; cases hc.1
    | ok r => rfl

theorem current_runAll {l : List Call} : ∀ {e e' : Editor F} {os : List (Out F)}, RanOpen e → Ready e → runAll l e = (.ok os, e') → RanOpen e' ∧ Ready e' := by
  induction l with
  | nil => intro e e' os h hr hc; cases hc; exact ⟨h, hr⟩
  | cons c l ih =>
    intro e e' os h hr hc
    unfold runAll at hc
    generalize hq : c.run e = q at hc
    obtain ⟨q1, q2⟩ := q
    cases q1 with
    | error x => cases hc
    | ok o =>
      obtain ⟨h1, h2⟩ := current_call h hr hq
      simp only at hc
      generalize hp : runAll l q2 = p at hc
      obtain ⟨p1, p2⟩ := p
      cases p1 with
      | error x => cases hc
      | ok os' =>
        cases hc
        exact ih h1 h2 hp

theorem runAll_append (l m : List Call) : ∀ (e : Editor F), runAll (l ++ m) e = match runAll l e with
    | (.error x, e) => (.error x, e)
    | (.ok os, e) => match runAll m e with
      | (.error x, e) => (.error x, e)
      | (.ok os', e) => (.ok (os ++ os'), e) := by
  induction l with
  | nil =>
    intro e
    simp only [List.nil_append, runAll]
    generalize runAll m e = q
    obtain ⟨q1, q2⟩ := q
    cases q1 <;> rfl
  | cons c l ih =>
    intro e
    simp only [List.cons_append, runAll]
    generalize c.run e = q
    obtain ⟨q1, q2⟩ := q
    cases q1 with
    | error x => rfl
    | ok o =>
      simp only [ih]
      generalize runAll l q2 = p
      obtain ⟨p1, p2⟩ := p
      cases p1 with
      | error x => rfl
      | ok os =>
        simp only
        generalize runAll m p2 = r
        obtain ⟨r1, r2⟩ := r
        cases r1 <;> rfl

theorem clean_slots {r : List Str × List Str} (hr : Ready e) (h : Editor.clean e = (.ok r, e')) (hs : e'.data.slots ≠ []) : e.data.slots ≠ [] := by
  obtain ⟨ids, atts⟩ := r
  obtain ⟨slots, L, A, B, I, g0, g1, g2, g3, bs, ss, is, an, c⟩ := clean_run hr.open.sync.core h
  intro hc
  rw [c.result_slots hr.open.sync, hc] at hs
  exact hs rfl

theorem cleanUnless_slots {safe : Bool} {r : List Str × List Str} (hr : Ready e) (h : cleanUnless safe e = (.ok r, e')) (hs : e'.data.slots ≠ []) :
    e.data.slots ≠ [] := by
  unfold cleanUnless at h
  split at h
  · cases h; exact hs
  · exact clean_slots hr h hs

theorem call_slots {c : Call} {o : Out F} (hr : Ready e) (hc : c.run e = (.ok o, e')) (hs : e'.data.slots ≠ []) : e.data.slots ≠ [] := by
  cases c with
  | clean =>
    simp only [Call.run, Prod.mk.injEq] at hc
    cases hq : (Editor.clean e).1 with
    | error x => rw [hq] at hc; cases hc.1
    | ok r => exact clean_slots hr (r := r) (by rw [← hq, ← hc.2]) hs
  | eraseAnims a t s =>
    simp only [Call.run, Prod.mk.injEq] at hc
    cases hq : Editor.eraseAnims a t s e with
    | mk q1 q2 =>
      rw [hq] at hc
      cases q1 with
      | error x => cases hc.1
      | ok r =>
        obtain rfl : q2 = e' := hc.2
        unfold eraseAnims at hq
        split at hq
        · cases hq
        simp only [eraseRaw_fst] at hq
        split at hq
        · cases hq
        split at hq
        · cases hq
        rename_i h1
        cases hq
        have := cleanUnless_slots (ready_filterAnims hr (fun p => decide (p.1 ∉ _))) h1 hs
        exact this
  | eraseSkins n s =>
    simp only [Call.run, Prod.mk.injEq] at hc
    cases hq : Editor.eraseSkins n s e with
    | mk q1 q2 =>
      rw [hq] at hc
      cases q1 with
      | error x => cases hc.1
      | ok r =>
        obtain rfl : q2 = e' := hc.2
        obtain ⟨r, gone⟩ := r
        obtain ⟨imgs, regions, a, g, e2, h1, h2, h3, h4, rfl⟩ := eraseSkins_ok hq
        have := cleanUnless_slots (ready_removeSkins hr h1 h2) h4 hs
        have hk := (removeSkins_kept e.doc.version.is38 h1).slots
        intro hc
        exact this (show a.slots = [] from hk.trans hc)

theorem runAll_slots {l : List Call} : ∀ {e e' : Editor F} {os : List (Out F)}, RanOpen e → Ready e → runAll l e = (.ok os, e') → e'.data.slots ≠ [] →
    e.data.slots ≠ [] := by
  induction l with
  | nil => intro e e' os h hr hc; cases hc; exact id
  | cons c l ih =>
    intro e e' os h hr hc hs
    unfold runAll at hc
    generalize hq : c.run e = q at hc
    obtain ⟨q1, q2⟩ := q
    cases q1 with
    | error x => cases hc
    | ok o =>
      obtain ⟨h1, h2⟩ := current_call h hr hq
      simp only at hc
      generalize hp : runAll l q2 = p at hc
      obtain ⟨p1, p2⟩ := p
      cases p1 with
      | error x => cases hc
      | ok os' =>
        cases hc
        exact call_slots hr hq (ih h1 h2 hp hs)

theorem all₂_append {α β : Type} {R : α → β → Prop} {l l' : List α} {m m' : List β} (h : All₂ R l m) (h' : All₂ R l' m') : All₂ R (l ++ l') (m ++ m') :=
  KeyOrder.all₂_append h h'

theorem sessions_run (ls : List (List Call)) : ∀ {e : Editor F} {os : List (Out F)} {s : Editor F}, RanOpen e → Ready e → runAll ls.flatten e = (.ok os, s) →
    s.data.slots ≠ [] → ∃ os' d, inSessions ls e.toJson = .ok (os', d) ∧ d = s.toJson ∧ All₂ Out.Same os os' := by
  induction ls with
  | nil =>
    intro e os s h hr hrun hs
    cases hrun
    exact ⟨[], e.toJson, rfl, rfl, .nil⟩
  | cons l ls ih =>
    intro e os s h hr hrun hs
    obtain ⟨e1, hl⟩ := (c23_reopen_partial h).2 (runAll_slots h hr hrun hs)
    obtain ⟨h1, h2⟩ := reopened h hl
    have hr1 := ready_load hl h1.open
    rw [List.flatten_cons, runAll_append] at hrun
    generalize hp : runAll l e = p at hrun
    obtain ⟨p1, p2⟩ := p
    cases p1 with
    | error x => cases hrun
    | ok o1 =>
      simp only at hrun
      generalize hq : runAll ls.flatten p2 = q at hrun
      obtain ⟨q1, q2⟩ := q
      cases q1 with
      | error x => cases hrun
      | ok o2 =>
        cases hrun
        obtain ⟨k1, k2⟩ := current_runAll h hr hp
        obtain ⟨os', d, i1, i2, i3⟩ := ih k1 k2 hq hs
        have hb := runAll_both l ⟨h2, hr, hr1⟩
        rw [hp] at hb
        rcases hb with ⟨_, x1, _⟩ | ⟨r, t, x1, x2, x3, x4⟩
        · cases x1
        · cases x1
          simp only at x4
          have hj := x4.1.json
          generalize hp' : runAll l e1 = p' at x2 x4 hj
          obtain ⟨p1', p2'⟩ := p'
          simp only at x2 hj
          subst x2
          refine ⟨t ++ os', d, ?_, i2, all₂_append x3 i3⟩
          unfold inSessions
          simp only [hl, hp']
          rw [← hj, i1]

/-- C88: a sequence of calls that leaves a slot does the same when it is cut into sessions, each on the document saved by the one
before. -/
theorem c88_sessions_partial (ls : List (List Call)) {os : List (Out F)} {s : Editor F} (h : RanOpen e) (hb : Current e)
    (hrun : runAll ls.flatten e = (.ok os, s)) (hs : s.data.slots ≠ []) :
    ∃ os' d, inSessions ls e.toJson = .ok (os', d) ∧ d = s.toJson ∧ All₂ Out.Same os os' :=
  sessions_run ls h (ready h hb) hrun hs

/-- C88, the other direction: what is done in sessions can be done in one. -/
theorem c88_one_session_partial (ls : List (List Call)) {os : List (Out F)} {d : JVal F} (h : RanOpen e) (hb : Current e)
    (hrun : inSessions ls e.toJson = .ok (os, d)) :
    ∃ os' s, runAll ls.flatten e = (.ok os', s) ∧ s.toJson = d ∧ All₂ Out.Same os' os := by
  have hr := ready h hb
  clear hb
  induction ls generalizing e os d with
  | nil => cases hrun; exact ⟨[], e, rfl, rfl, .nil⟩
  | cons l ls ih =>
    unfold inSessions at hrun
    cases hl : load e.toJson with
    | error x => rw [hl] at hrun; cases hrun
    | ok e1 =>
      rw [hl] at hrun
      simp only at hrun
      obtain ⟨h1, h2⟩ := reopened h hl
      have hr1 := ready_load hl h1.open
      have hb := runAll_both l ⟨h2, hr, hr1⟩
      generalize hp' : runAll l e1 = p' at hb hrun
      obtain ⟨p1', p2'⟩ := p'
      cases p1' with
      | error x => cases hrun
      | ok o1 =>
        simp only at hrun
        generalize hp : runAll l e = p at hb
        obtain ⟨p1, p2⟩ := p
        rcases hb with ⟨_, _, x1⟩ | ⟨r, t, x1, x2, x3, x4⟩
        · cases x1
        · cases x1; cases x2
          simp only at x4
          obtain ⟨k1, k2⟩ := current_runAll h hr hp
          cases hi : inSessions ls p2'.toJson with
          | error x => rw [hi] at hrun; cases hrun
          | ok q =>
            obtain ⟨os2, d2⟩ := q
            rw [hi] at hrun
            cases hrun
            rw [← x4.1.json] at hi
            obtain ⟨o3, s, i1, i2, i3⟩ := ih k1 hi k2
            refine ⟨r ++ o3, s, ?_, i2, all₂_append x3 i3⟩
            rw [List.flatten_cons, runAll_append, hp]
            simp only [i1]

/-! ## Examples and counterexamples -/
section examples
open Sample

/-- three sessions that change the document -/
def three : List (List Call) := [[.eraseAnims (.list [s!!"run"]) true true, .clean], [], [.eraseSkins [s!!"red"] false]]

def lenOk {α β : Type} (x : Except α β) (f : β → Bool) : Bool := match x with | .ok b => f b | .error _ => false

/-- the hypotheses of the theorems hold of an editor on which the three sessions run -/
example : ∃ (e : Editor Rat) (os : List (Out Rat)) (s : Editor Rat), RanOpen e ∧ Current e ∧ runAll three.flatten e = (.ok os, s) ∧ s.data.slots ≠ [] ∧ os.length = 3 ∧
    s.data.skins.length = 1 ∧ e.data.skins.length = 2 ∧ s.data.slots.length = 2 ∧ e.data.slots.length = 3 := by
  obtain ⟨e, h1, h2⟩ := ranOpen_of (d := basic) (by decide +kernel)
  have k : (Sample.load basic).map (fun e => lenOk (runAll three.flatten e).1 (fun os => os.length == 3) &&
    !(runAll three.flatten e).2.data.slots.isEmpty && (runAll three.flatten e).2.data.skins.length == 1 && e.data.skins.length == 2 &&
    (runAll three.flatten e).2.data.slots.length == 2 && e.data.slots.length == 3) = some true := by decide +kernel
  rw [h1] at k
  simp only [Option.map_some, Option.some.injEq, Bool.and_eq_true, beq_iff_eq, Bool.not_eq_true'] at k
  generalize hq : runAll three.flatten e = q at k
  obtain ⟨q1, q2⟩ := q
  cases q1 with
  | error x => simp [lenOk] at k
  | ok os =>
    have hl : Editor.load basic = .ok e := by
      unfold Sample.load at h1
      cases hx : Editor.load basic with
      | error x => rw [hx] at h1; simp [Except.toOption] at h1
      | ok a => rw [hx] at h1; simp [Except.toOption] at h1; rw [h1]
    refine ⟨e, os, q2, h2, .load hl, hq, ?_, ?_, k.1.1.1.2, k.1.1.2, k.1.2, k.2⟩
    · intro hc
      rw [hc] at k
      simp at k
    · have := k.1.1.1.1.1
      simpa [lenOk] using this

/-- two editors with different histories and the same document: erasing an animation and a skin, in either order -/
example : (Sample.load basic).map (fun e => JVal.pyEq (runAll [.eraseAnims (.list [s!!"run"]) true true, .eraseSkins [s!!"red"] true] e).2.toJson
    (runAll [.eraseSkins [s!!"red"] true, .eraseAnims (.list [s!!"run"]) true true] e).2.toJson) = some true := by decide +kernel

/-- C88 is false of the code for editors that were scaled: cleaning undoes the scale (C53), but not when the document was saved and
opened in between. -/
theorem c88_counterexample : (Sample.load basic).bind (fun e => let s := (scale (.int 2) (.int 2) e).2
    (Sample.load s.toJson).map (fun e' => (scaleXs s, scaleXs e', scaleXs (runAll [.clean] s).2, scaleXs (runAll [.clean] e').2))) =
    some ([some 2, some 1], [some 2, some 1], [some 1, some 1], [some 2, some 1]) := by decide +kernel

/-- C88 is false of the code when no slot is left: a further call on the same editor works, but the document cannot be opened. -/
theorem c88_counterexample_slots : (Sample.load still).map (fun e => (lenOk (runAll [.clean, .clean] e).1 (fun os => os.length == 2),
    lenOk (inSessions [[.clean], [.clean]] e.toJson) (fun _ => true))) = some (true, false) := by decide +kernel

end examples
end Sessions
end Spine
