import Verif.Props.Sessions
import Verif.Props.Files
import Verif.Props.JsonText
import Verif.Spec.FileSessions
/-
C89: editing a file in several sessions.
-/
set_option linter.unusedSectionVars false
namespace Spine
namespace Sessions
open Graph JVal Editor State Files
variable {F : Type} [JsonRt F] {e e' : Editor F} {fs : FS} {p : Str}

theorem saved (w : Writable fs p) (t : Str) : fs.save p t = (.ok (), (grown fs (place fs (Files.dirname p))).put (place fs p) (.file t)) :=
  c58_saved_partial w.wf w.plain w.slash w.named w.dot w.above w.notDir

theorem place_above (w : Writable fs p) : place fs p = Files.tail p :: place fs (Files.dirname p) := by
  have hps := place_split (fs := fs) w.plain
  rw [step_plain (plain_tail w.plain), if_neg (by simp only [not_or]; exact ⟨w.named, w.dot⟩)] at hps
  exact hps

theorem not_above (w : Writable fs p) {b : List Str} (h : b <:+ place fs (Files.dirname p)) : b ≠ place fs p := by
  intro e
  rw [e, place_above w] at h
  exact not_suffix_self h

/-- the name can be used again after saving -/
theorem writable_saved (w : Writable fs p) (t : Str) : Writable (fs.save p t).2 p := by
  rw [saved w]
  have hp := place_above w
  have wg := grown_wf w.wf w.above
  have hc : ((grown fs (place fs (Files.dirname p))).put (place fs p) (.file t)).cwd = fs.cwd := rfl
  have hput : ∀ b, ((grown fs (place fs (Files.dirname p))).put (place fs p) (.file t)).node b =
      if b = place fs p then some (.file t) else (grown fs (place fs (Files.dirname p))).node b := fun _ => rfl
  have hnd : (grown fs (place fs (Files.dirname p))).node (place fs p) ≠ some .dir := by
    cases e2 : fs.node (place fs p) with
    | some y => rw [grown_some e2, ← e2]; exact w.notDir
    | none => rw [grown_none e2, if_neg (by rw [hp]; exact not_suffix_self)]; simp
  refine ⟨⟨?_, ?_, ?_⟩, w.plain, w.slash, w.named, w.dot, ?_, ?_⟩
  · rw [hput, if_neg (by rw [hp]; simp)]; exact wg.root
  · rw [hput, hc, if_neg (fun hc : fs.cwd = place fs p => w.notDir (hc ▸ w.wf.cwd))]; exact wg.cwd
  · intro n a hna
    rw [hput] at hna ⊢
    by_cases ha : a = place fs p
    · exfalso
      rw [if_neg (by rw [ha]; intro e; have := congrArg List.length e; simp at this)] at hna
      have := wg.up n a hna
      rw [ha] at this
      exact hnd this
    · rw [if_neg ha]
      by_cases hn : n :: a = place fs p
      · rw [hp] at hn
        injection hn with _ hn
        rw [hn]; exact grown_dir w.above (List.suffix_refl _)
      · rw [if_neg hn] at hna
        exact wg.up n a hna
  · intro b hb
    rw [place_keeps hc] at hb
    rw [hput, if_neg (not_above w hb), grown_dir w.above hb]
    exact id
  · rw [place_keeps hc, hput, if_pos rfl]
    simp

/-- saving twice is saving once -/
theorem save_save (w : Writable fs p) (t u : Str) : (fs.save p t).2.save p u = fs.save p u := by
  have w' := writable_saved w t
  have e0 := saved w t
  rw [saved w' u, saved w u]
  rw [e0] at w' ⊢
  have hc : ((grown fs (place fs (Files.dirname p))).put (place fs p) (.file t)).cwd = fs.cwd := rfl
  rw [place_keeps hc, place_keeps hc, grown_self]
  · refine Prod.ext rfl (FS.ext (fun b => ?_) rfl)
    show (if b = place fs p then _ else if b = place fs p then _ else _) = (if b = place fs p then _ else _)
    split <;> rfl
  · exact w'.wf
  · show (if _ = place fs p then _ else _) = _
    rw [if_neg (not_above w (List.suffix_refl _))]
    exact grown_dir w.above (List.suffix_refl _)

theorem same_refl (l : List (Out F)) : All₂ Out.Same l l := All₂.refl (fun _ => ⟨rfl, fun _ => Iff.rfl, rfl, rfl⟩) l

theorem same_trans {l m n : List (Out F)} (h : All₂ Out.Same l m) (h' : All₂ Out.Same m n) : All₂ Out.Same l n := by
  induction h generalizing n with
  | nil => cases h'; exact .nil
  | cons h1 _ ih =>
    cases h' with
    | cons h2 h3 => exact .cons ⟨h1.doc.trans h2.doc, fun n => (h1.slots n).trans (h2.slots n), h1.atts.trans h2.atts, h1.images.trans h2.images⟩ (ih h3)

theorem onFile_run (l : List Call) (ls : List (List Call)) : ∀ {e : Editor F} {fs : FS} {os : List (Out F)} {s : Editor F}, RanOpen e → Ready e →
    fromJsonFile fs p = .ok e → Writable fs p → runAll (l ++ ls.flatten) e = (.ok os, s) → s.data.slots ≠ [] →
    ∃ os', onFile p (l :: ls) fs = (.ok os', (toJsonFile fs s p).2) ∧ All₂ Out.Same os os' := by
  induction ls generalizing l with
  | nil =>
    intro e fs os s h hr hl w hrun hs
    rw [List.flatten_nil, List.append_nil] at hrun
    have hsv := saved w (JsonText.encode .indent4 s.toJson)
    refine ⟨os, ?_, ?_⟩
    · unfold onFile session
      simp only [hl, hrun]
      unfold toJsonFile
      rw [hsv]
      simp only [onFile, List.append_nil]
    · exact same_refl _
  | cons l2 ls ih =>
    intro e fs os s h hr hl w hrun hs
    rw [runAll_append] at hrun
    generalize hp : runAll l e = q at hrun
    obtain ⟨p1, p2⟩ := q
    cases p1 with
    | error x => cases hrun
    | ok o1 =>
      simp only at hrun
      generalize hq : runAll (l2 :: ls).flatten p2 = q at hrun
      obtain ⟨q1, q2⟩ := q
      cases q1 with
      | error x => cases hrun
      | ok o2 =>
        cases hrun
        obtain ⟨k1, k2⟩ := current_runAll h hr hp
        have hns := runAll_slots k1 k2 hq hs
        obtain ⟨e1, he1⟩ := (c23_reopen_partial k1).2 hns
        obtain ⟨h1, h2⟩ := reopened k1 he1
        have hr1 := ready_load he1 h1.open
        obtain ⟨t1, t2⟩ := c58_to_json_partial (edited k1) w.wf w.plain w.slash w.named w.dot w.above w.notDir
        have hb := runAll_both (l2 :: ls).flatten ⟨h2, k2, hr1⟩
        rw [hq] at hb
        rcases hb with ⟨_, x1, _⟩ | ⟨r, t, x1, x2, x3, x4⟩
        · cases x1
        · cases x1
          generalize hq' : runAll (l2 :: ls).flatten e1 = q' at x2 x4
          obtain ⟨q1', s'⟩ := q'
          simp only at x2 x4
          subst x2
          have hs' : s'.data.slots ≠ [] := by rw [← x4.1.data.slots]; exact hs
          obtain ⟨os', i1, i2⟩ := ih l2 h1 hr1 (t2.trans he1) (writable_saved w _) hq' hs'
          have hfin : (toJsonFile (toJsonFile fs p2 p).2 s' p).2 = (toJsonFile fs s p).2 := by
            unfold toJsonFile
            rw [save_save w, x4.1.json]
          rw [hfin] at i1
          refine ⟨o1 ++ os', ?_, ?_⟩
          · unfold onFile session
            simp only [hl, hp]
            generalize hw : toJsonFile fs p2 p = z at t1 i1
            obtain ⟨z1, z2⟩ := z
            simp only at t1 i1
            subst t1
            simp only [i1]
          · exact all₂_append (same_refl _) (same_trans x3 i2)

theorem opened (h : fromJsonFile fs p = .ok e) (hp : Plain p) : (∃ t, fs.node (place fs p) = some (.file t)) ∧ ∃ v, load v = .ok e := by
  unfold fromJsonFile FS.read at h
  cases hr : fs.resolve p with
  | none => rw [hr] at h; cases h
  | some a =>
    rw [hr] at h
    rw [← resolve_place hp hr]
    cases hn : fs.node a with
    | none => simp only [hn] at h; cases h
    | some n =>
      cases n with
      | dir => simp only [hn] at h; cases h
      | file t =>
        simp only [hn] at h
        cases hd : JsonText.decode (F := F) t with
        | error x => rw [hd] at h; cases h
        | ok v => rw [hd] at h; exact ⟨⟨t, rfl⟩, v, h⟩

/-! ## Theorems -/

/-- C89: sessions on a file that exists: calls that leave a slot, cut into one or more sessions, answer as in one session; after the last session
the file holds the text that one session would have saved, and nothing else on the disk has changed. -/
theorem c89_in_place_partial (l : List Call) (ls : List (List Call)) {os : List (Out F)} {s : Editor F} (h : RanOpen e) (hl : fromJsonFile fs p = .ok e)
    (w : Writable fs p) (hrun : runAll (l :: ls).flatten e = (.ok os, s)) (hs : s.data.slots ≠ []) :
    ∃ os', onFile p (l :: ls) fs = (.ok os', fs.put (place fs p) (.file (JsonText.encode .indent4 s.toJson))) ∧ All₂ Out.Same os os' := by
  obtain ⟨⟨t, ht⟩, v, hv⟩ := opened hl w.plain
  obtain ⟨os', h1, h2⟩ := onFile_run l ls h (ready_load hv h.open) hl w hrun hs
  refine ⟨os', ?_, h2⟩
  rw [h1]
  unfold toJsonFile
  rw [saved w, grown_self w.wf]
  rw [place_above w] at ht
  exact w.wf.up _ _ (by rw [ht]; simp)

/-- C89: saving a file without changes again and again gives the text of the first time. -/
theorem c89_resave_partial (n : Nat) (h : RanOpen e) (hl : fromJsonFile fs p = .ok e) (w : Writable fs p) (hs : e.data.slots ≠ []) :
    onFile (F := F) p ([] :: List.replicate n []) fs = (.ok [], fs.put (place fs p) (.file (JsonText.encode .indent4 e.toJson))) := by
  obtain ⟨os', h1, h2⟩ := c89_in_place_partial [] (List.replicate n []) (os := []) (s := e) h hl w (by simp [runAll]) hs
  rw [h1]
  cases h2
  rfl

/-- C89: a session in which the library raises an exception changes nothing on the disk. -/
theorem c89_failed {l : List Call} {x : Err} {fs' : FS} (h : session (F := F) p l fs = (.error (.lib x), fs')) : fs' = fs := by
  unfold session at h
  split at h
  · cases h; rfl
  · split at h
    · cases h; rfl
    · split at h <;> cases h

/-! ## Examples -/
section examples
open JsonText hiding Plain

/-- a document with two slots, one of them never shown, and two animations -/
def small : JVal XF := .dict [(s!!"skeleton", .dict [(s!!"spine", .str s!!"3.8.75")]), (s!!"bones", .list [.dict [(s!!"name", .str s!!"root")]]),
  (s!!"slots", .list [.dict [(s!!"name", .str s!!"s"), (s!!"bone", .str s!!"root"), (s!!"attachment", .str s!!"a")], .dict [(s!!"name", .str s!!"t"), (s!!"bone", .str s!!"root")]]),
  (s!!"skins", .list [.dict [(s!!"name", .str s!!"default"), (s!!"attachments", .dict [(s!!"s", .dict [(s!!"a", .dict [])])])]]),
  (s!!"animations", .dict [(s!!"walk", .dict [(s!!"slots", .dict [(s!!"s", .dict [(s!!"attachment", .list [.dict [(s!!"time", .int 0), (s!!"name", .str s!!"a")]])])])]),
    (s!!"run", .dict [])])]

def disk : FS := { node := fun a => if a = [] ∨ a = [s!!"home"] then some .dir else if a = [s!!"a.json", s!!"home"] then some (.file (encode .compact small)) else none,
                   cwd := [s!!"home"] }

theorem disk_writable : Writable disk s!!"/home/a.json" := by
  refine ⟨⟨rfl, rfl, fun n a h => ?_⟩, by unfold Files.Plain; decide, by decide, by decide, by decide, ?_, ?_⟩
  · unfold disk at h ⊢
    simp only at h ⊢
    by_cases hn : n :: a = [s!!"home"]
    · injection hn with _ hn
      rw [hn, if_pos (Or.inl rfl)]
    · rw [if_neg (by simp only [not_or]; exact ⟨by simp, hn⟩)] at h
      by_cases hn2 : n :: a = [s!!"a.json", s!!"home"]
      · injection hn2 with _ hn2
        rw [hn2, if_pos (Or.inr rfl)]
      · rw [if_neg hn2] at h
        exact absurd rfl h
  · intro b hb hf
    have : place disk (Files.dirname s!!"/home/a.json") = [s!!"home"] := by decide
    rw [this] at hb
    have hl := hb.length_le
    unfold disk at hf
    simp only at hf
    split at hf
    · exact hf
    · split at hf
      · rename_i h2; rw [h2] at hl; simp at hl
      · exact hf
  · have : place disk s!!"/home/a.json" = [s!!"a.json", s!!"home"] := by decide
    rw [this]
    unfold disk
    simp only
    rw [if_neg (by decide), if_pos trivial]
    simp

def calls : List (List Call) := [[.eraseAnims (.list [s!!"run"]) true true], [], [.clean]]

def smallOk (e : Editor XF) : Bool :=
  e.doc.version.is38 && e.data.slots.all (fun s => s.bone.isSome) && e.data.namesB && e.data.slots.length == 2 &&
    e.data.skins.all (fun s => s.attachments.all (fun p => p.2.all (fun q => decide (q.2.kind ≠ .path)))) &&
    (match (runAll calls.flatten e).1 with | .ok os => os.length == 2 | .error _ => false) && (runAll calls.flatten e).2.data.slots.length == 1

/-- the hypotheses of `c89_in_place_partial` hold of this disk, and the calls change the document -/
example : ∃ (e : Editor XF) (os : List (Out XF)) (s : Editor XF), RanOpen e ∧ fromJsonFile disk s!!"/home/a.json" = .ok e ∧ Writable disk s!!"/home/a.json" ∧
    runAll calls.flatten e = (.ok os, s) ∧ s.data.slots ≠ [] ∧ e.data.slots.length = 2 ∧ s.data.slots.length = 1 ∧ os.length = 2 := by
  have hp : small.Proper := JVal.proper_of _ (by decide +kernel)
  have hd : decode (encode .compact small) = .ok small := decode_encode .compact hp
  have hk : (match Editor.load small with | .ok e => smallOk e | .error _ => false) = true := by decide +kernel
  cases hl : Editor.load small with
  | error x => rw [hl] at hk; cases hk
  | ok e =>
    rw [hl] at hk
    simp only [smallOk, Bool.and_eq_true, beq_iff_eq] at hk
    obtain ⟨⟨⟨⟨⟨⟨k1, k2⟩, k3⟩, k4⟩, k5⟩, k6⟩, k7⟩ := hk
    have ho : RanOpen e := by
      refine .load hp hl (AnimData.namesOk_of k3) ?_ (.inl k1) ?_
      · intro s hs hc
        have := List.all_eq_true.1 k2 s hs
        rw [hc] at this; cases this
      · rintro s _ t ht slot key x p _ _ ⟨d, h1, h2⟩
        have h := List.all_eq_true.1 (List.all_eq_true.1 (List.all_eq_true.1 k5 t ht) _ h1) _ h2
        simpa using h
    have hf : fromJsonFile disk s!!"/home/a.json" = .ok e := by
      have hr : disk.read s!!"/home/a.json" = .ok (encode .compact small) := rfl
      unfold fromJsonFile
      simp only [hr, hd]
      exact hl
    generalize hq : runAll calls.flatten e = q at k6 k7
    obtain ⟨q1, q2⟩ := q
    cases q1 with
    | error x => cases k6
    | ok os =>
      refine ⟨e, os, q2, ho, hf, disk_writable, hq, ?_, k4, k7, by simpa using k6⟩
      intro hc
      rw [hc] at k7
      cases k7

def textAt (fs : FS) : Option Str :=
  match fs.node [s!!"a.json", s!!"home"] with
  | some (.file t) => some t
  | _ => none

/-- the outcome, and whether the file is as it was -/
def verdict (fs : FS) (r : Except Fault (List (Out XF)) × FS) : Option Nat × Option Fault × Bool :=
  match r with
  | (.ok os, fs') => (some os.length, none, textAt fs' == textAt fs)
  | (.error x, fs') => (none, some x, textAt fs' == textAt fs)

/-- C89 is false of the code for a file named without its directory: it is opened, the calls succeed, and nothing can be saved under that name. -/
theorem c89_counterexample_bare : verdict disk (onFile s!!"/home/a.json" calls disk) = (some 2, none, false) ∧
    verdict disk (onFile s!!"a.json" calls disk) = (none, some (.os .other), true) := by decide +kernel

/-- the same document without what shows its slots -/
def hidden : JVal XF := .dict [(s!!"skeleton", .dict [(s!!"spine", .str s!!"3.8.75")]), (s!!"bones", .list [.dict [(s!!"name", .str s!!"root")]]),
  (s!!"slots", .list [.dict [(s!!"name", .str s!!"t"), (s!!"bone", .str s!!"root")]]), (s!!"skins", .list [.dict [(s!!"name", .str s!!"default")]]),
  (s!!"animations", .dict [])]

def disk2 : FS := { disk with node := fun a => if a = [s!!"a.json", s!!"home"] then some (.file (encode .compact hidden)) else disk.node a }

/-- C89 is false of the code when no slot is left: the two calls succeed in one session, but the file of the first of two sessions cannot be opened. -/
theorem c89_counterexample_slots : (verdict disk2 (onFile s!!"/home/a.json" [[.clean, .clean]] disk2)).1 = some 2 ∧
    (verdict disk2 (onFile s!!"/home/a.json" [[.clean], [.clean]] disk2)).1 = none := by decide +kernel

end examples
end Sessions
end Spine
