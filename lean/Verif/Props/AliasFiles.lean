import Verif.Lemmas.AliasFiles
import Verif.Lemmas.JsonEncode
import Verif.Props.AliasValues
import Verif.Lemmas.AliasStart
import Verif.Props.FileSessions
import Verif.Props.Digits
/-
C90: programs that work with files observe what the model on values says.
-/
namespace Spine
namespace Alias
open Files
variable {F : Type} [JsonRt F] {B : Nat}

/-- whether a file can be written does not depend on the text -/
theorem save_outcome (fs : FS) (p t t' : Str) : ((fs.save p t).1 = .ok () ∧ (fs.save p t').1 = .ok ()) ∨ (fs.save p t = fs.save p t' ∧ ∃ x, (fs.save p t').1 = .error x) := by
  have hw : ∀ (fs : FS), ((fs.write p t).1 = .ok () ∧ (fs.write p t').1 = .ok ()) ∨ (fs.write p t = fs.write p t' ∧ ∃ x, (fs.write p t').1 = .error x) := by
    intro fs
    unfold FS.write
    split
    · exact .inr ⟨rfl, _, rfl⟩
    · split
      · exact .inr ⟨rfl, _, rfl⟩
      · exact .inl ⟨rfl, rfl⟩
  unfold FS.save
  split
  · exact hw fs
  · split
    · exact .inr ⟨rfl, _, rfl⟩
    · exact hw _

theorem set_here {α : Type} {l : List α} {i : Nat} {x : α} (h : l[i]? = some x) : l.set i x = l := by
  apply List.ext_getElem?
  intro j
  rw [List.getElem?_set]
  split
  · rename_i hij
    subst hij
    rw [h, if_pos (List.getElem?_eq_some_iff.mp h).1]
  · rfl

/-- the two machines are in step -/
structure Paired (B : Nat) (E : Env F) (m : Mach F) (v : VMach F) : Prop where
  fs : m.fs = v.fs
  world : ∃ w : World F, w.heap = m.heap ∧ w.eds = m.eds ∧ Tied B E w v.eds

theorem paired_load {E : Env F} (hm : 8 + B ≤ E.lim) {m : Mach F} {v : VMach F} (hp : Paired B E m v) {p : Str} (hw : v.Within B (.load p)) :
    (m.step E (.load p)).1 = (v.step (.load p)).1 ∧ Paired B E (m.step E (.load p)).2 (v.step (.load p)).2 := by
  obtain ⟨hfs, w, h1, h2, ht⟩ := hp
  unfold VMach.Within at hw
  simp only [Mach.step, VMach.step, fromJsonFile, Editor.fromJsonFile, ← hfs] at hw ⊢
  cases hr : m.fs.read p with
  | error x => exact ⟨rfl, hfs, w, h1, h2, ht⟩
  | ok t =>
    simp only
    cases hd : JsonText.decode (F := F) t with
    | error x => exact ⟨rfl, hfs, w, h1, h2, ht⟩
    | ok j =>
      obtain ⟨w1, w2⟩ := hw t j hr hd
      obtain ⟨u, hb, hh, hroot⟩ := put_built j ht
      simp only
      rw [h1] at hh hroot
      generalize hi : init E (put j m.heap).1 (put j m.heap).2 = q
      obtain ⟨x, h'⟩ := q
      have key := tied_open hm hb.tied (doc := (put j m.heap).1) (v := j) (fun b hb => ⟨_, hroot b hb, .here b⟩)
        (hh ▸ put_read j m.heap B w1) (JsonText.decode_proper hd) (hh ▸ put_apart j m.heap) (hh ▸ hi)
      cases hl : Editor.load j with
      | ok e =>
        rw [hl] at key
        obtain ⟨e', rfl, ht'⟩ := key
        exact ⟨rfl, rfl, _, rfl, by simp only [hb.eds, h2], ht'⟩
      | error y =>
        rw [hl] at key w2
        have : x = .error y ∧ Tied B E { u with heap := h' } v.eds := by
          cases y <;> first | exact key | exact absurd rfl w2
        obtain ⟨rfl, ht'⟩ := this
        exact ⟨rfl, hfs, _, rfl, by simp only [hb.eds, h2], ht'⟩

theorem paired_call {E : Env F} (hm : 8 + B ≤ E.lim) {m : Mach F} {v : VMach F} (hp : Paired B E m v) {i : Nat} {c : Call F} (hw : v.Within B (.call i c)) :
    (m.step E (.call i c)).1 = (v.step (.call i c)).1 ∧ Paired B E (m.step E (.call i c)).2 (v.step (.call i c)).2 := by
  obtain ⟨hfs, w, h1, h2, ht⟩ := hp
  unfold VMach.Within at hw
  simp only [Mach.step, VMach.step]
  cases he : m.eds[i]? with
  | none =>
    rcases all₂_get? ht.eds i with ⟨_, h4⟩ | ⟨f, u, h4, _⟩
    · rw [h4]; exact ⟨rfl, hfs, w, h1, h2, ht⟩
    · rw [h2, he] at h4; cases h4
  | some e =>
    obtain ⟨⟨x, e'⟩, h', hx⟩ := (@always_exec F _ E c e).ok m.heap
    simp only [hx]
    obtain ⟨u, h4, h5⟩ := tied_call hm ht (h2 ▸ he) (h1 ▸ hx) rfl
    rw [h4]
    rcases h5 with h5 | ⟨h5, h6⟩
    · exact absurd h5 (hw u h4)
    · exact ⟨congrArg Ans.called h5, hfs, _, rfl, by simp only [h2], h6⟩

theorem paired_save {E : Env F} (hm : 8 + B ≤ E.lim) {m : Mach F} {v : VMach F} (hp : Paired B E m v) (i : Nat) (p : Str) :
    (m.step E (.save i p)).1 = (v.step (.save i p)).1 ∧ Paired B E (m.step E (.save i p)).2 (v.step (.save i p)).2 := by
  have hp0 := hp
  obtain ⟨hfs, w, h1, h2, ht⟩ := hp
  simp only [Mach.step, VMach.step]
  cases he : m.eds[i]? with
  | none =>
    rcases all₂_get? ht.eds i with ⟨_, h4⟩ | ⟨f, u, h4, _⟩
    · rw [h4]; exact ⟨rfl, hp0⟩
    · rw [h2, he] at h4; cases h4
  | some e =>
    obtain ⟨⟨x, e'⟩, h', hx⟩ := (@always_exec F _ E .toJson e).ok m.heap
    obtain ⟨u, h4, h5⟩ := tied_call hm ht (h2 ▸ he) (h1 ▸ hx) rfl
    rw [h4]
    rcases h5 with h5 | ⟨h5, h6⟩
    · cases h5
    · have hj : ∃ r, e.toJson E m.heap = (.ok r, h') ∧ x = .ok (.doc r) ∧ e' = e := by
        have hx' : ((Except.ok ((e.toJson E m.heap).1.map Out.doc, e), (e.toJson E m.heap).2) : Except Err _ × Heap F) = (.ok (x, e'), h') := hx
        injection hx' with g1 g2
        injection g1 with g1
        injection g1 with g1 g3
        rw [← g1] at h5
        cases hq : (e.toJson E m.heap).1 with
        | error y => rw [hq] at h5; cases h5
        | ok r => exact ⟨r, Prod.ext hq g2, by rw [← g1, hq]; rfl, g3.symm⟩
      obtain ⟨r, h7, rfl, he'⟩ := hj
      subst he'
      have h8 : readJ h' E.lim r = some u.toJson := by
        simpa [Call.value, Except.map, Out.map] using h5
      rw [show (Call.value .toJson u).2 = u from rfl, set_here h4, h2, set_here he] at h6
      simp only [toJsonFile, Editor.toJsonFile, hfs]
      generalize hA : v.fs.save p [] = A
      generalize hB : v.fs.save p (JsonText.encode .indent4 u.toJson) = C
      have hs := save_outcome v.fs p [] (JsonText.encode .indent4 u.toJson)
      rw [hA, hB] at hs
      obtain ⟨a1, a2⟩ := A
      obtain ⟨c1, c2⟩ := C
      rcases hs with ⟨rfl, rfl⟩ | ⟨h9, y, rfl⟩
      · simp only [h7, h8, hB]
        exact ⟨trivial, rfl, _, rfl, rfl, h6⟩
      · cases h9
        exact ⟨rfl, rfl, w, h1, h2, ht⟩

theorem paired_step {E : Env F} (hm : 8 + B ≤ E.lim) {m : Mach F} {v : VMach F} (hp : Paired B E m v) {c : Cmd F} (hw : v.Within B c) :
    (m.step E c).1 = (v.step c).1 ∧ Paired B E (m.step E c).2 (v.step c).2 := by
  cases c with
  | load p => exact paired_load hm hp hw
  | call i c => exact paired_call hm hp hw
  | save i p => exact paired_save hm hp i p

theorem paired_run {E : Env F} (hm : 8 + B ≤ E.lim) : ∀ (l : List (Cmd F)) {m : Mach F} {v : VMach F}, Paired B E m v → VMach.WithinAll B l v →
    (Mach.run E l m).1 = (VMach.run l v).1 ∧ Paired B E (Mach.run E l m).2 (VMach.run l v).2
  | [], _, _, hp, _ => ⟨rfl, hp⟩
  | c :: l, m, v, hp, hw => by
    obtain ⟨h1, h2⟩ := paired_step hm hp hw.1
    obtain ⟨h3, h4⟩ := paired_run hm l h2 hw.2
    simp only [Mach.run, VMach.run]
    exact ⟨by rw [h1, h3], h4⟩

/-- C90: A program that opens editors for files, calls them and saves them to files - any number of editors, in any order, to
any names - observes what the model on values says, and leaves the disk it says: that the editors work on objects which
they share inside and copy shallowly or deeply makes no difference.  Nothing is asked of the contents of the files but that they
are not nested too deep for the recursion limit, and that the model on values has an answer. -/
theorem c90_programs_partial {E : Env F} (hm : 8 + B ≤ E.lim) {w : World F} (hw : w.Apart) (he : w.eds = []) (hx : w.Fixed B E) (fs : FS) (l : List (Cmd F))
    (ha : VMach.WithinAll B l ⟨[], fs⟩) :
    (Mach.run E l ⟨w.heap, [], fs⟩).1 = (VMach.run l ⟨[], fs⟩).1 ∧ (Mach.run E l ⟨w.heap, [], fs⟩).2.fs = (VMach.run l ⟨[], fs⟩).2.fs := by
  obtain ⟨h1, h2⟩ := paired_run hm l (m := ⟨w.heap, [], fs⟩) (v := ⟨[], fs⟩) ⟨rfl, w, rfl, he, hw, hx, by rw [he]; exact .nil⟩ ha
  exact ⟨h1, h2.fs⟩

/-- C90 from the start: the library has been imported, nothing else has happened. -/
theorem c90_imported_partial {lim : Nat} (hB : 2 ≤ B) (hm : 8 + B ≤ lim) (fs : FS) (l : List (Cmd F)) (ha : VMach.WithinAll B l ⟨[], fs⟩) :
    (Mach.run (env allKeys lim) l ⟨(importedFor allKeys).heap, [], fs⟩).1 = (VMach.run l ⟨[], fs⟩).1 ∧
    (Mach.run (env allKeys lim) l ⟨(importedFor allKeys).heap, [], fs⟩).2.fs = (VMach.run l ⟨[], fs⟩).2.fs :=
  c90_programs_partial (E := env allKeys lim) hm (importedFor_apart allKeys) rfl (importedFor_fixed hB lim all_keys') fs l ha

/-- C90, documents of any depth: a save that reports success has written the document that `to_json_data` returns. -/
theorem c90_saved {E : Env F} {fs fs' : FS} {e : Ed F} {p : Str} {h h' : Heap F} (hs : toJsonFile E fs e p h = (.ok (), fs', h')) :
    ∃ r v, e.toJson E h = (.ok r, h') ∧ readJ h' E.lim r = some v ∧ fs'.read p = .ok (JsonText.encode .indent4 v) := by
  unfold toJsonFile at hs
  rcases Digits.save_cases fs p with ⟨x, fs1, hx⟩ | ⟨fs1, a, h1, h2, h3⟩
  · rw [hx] at hs; cases hs
  · simp only [h3] at hs
    cases ht : e.toJson E h with
    | mk t1 h1' =>
      rw [ht] at hs
      cases t1 with
      | error x => cases hs
      | ok r =>
        cases hv : readJ h1' E.lim r with
        | none => simp only [hv] at hs; cases hs
        | some v =>
          simp only [hv, Prod.mk.injEq, true_and] at hs
          obtain ⟨rfl, rfl⟩ := hs
          exact ⟨r, v, rfl, hv, Digits.read_put h1 h2⟩

/-- C90, documents of any depth: a save that fails after the file was opened leaves it empty, whatever it held before. -/
theorem c90_lost {E : Env F} {fs fs' : FS} {e : Ed F} {p : Str} {h h' : Heap F} {x : Err} (hs : toJsonFile E fs e p h = (.error (.lib x), fs', h')) :
    fs'.read p = .ok [] := by
  unfold toJsonFile at hs
  rcases Digits.save_cases fs p with ⟨x, fs1, hx⟩ | ⟨fs1, a, h1, h2, h3⟩
  · rw [hx] at hs; cases hs
  · simp only [h3] at hs
    cases ht : e.toJson E h with
    | mk t1 h1' =>
      rw [ht] at hs
      cases t1 with
      | error x =>
        simp only [Prod.mk.injEq] at hs
        obtain ⟨-, rfl, -⟩ := hs
        exact Digits.read_put h1 h2
      | ok r =>
        cases hv : readJ h1' E.lim r with
        | none =>
          simp only [hv, Prod.mk.injEq] at hs
          obtain ⟨-, rfl, -⟩ := hs
          exact Digits.read_put h1 h2
        | some v => simp only [hv] at hs; cases hs

/-! ## Examples -/
section examples

def readsB (B : Nat) (fs : FS) (p : Str) : Bool :=
  match fs.read p with
  | .error _ => true
  | .ok t => match JsonText.decode (F := F) t with
    | .error _ => true
    | .ok v => decide (v.depth ≤ B) && (match Editor.load v with
      | .error .unmodelled => false
      | _ => true)

def withinB (B : Nat) : List (Cmd F) → VMach F → Bool
  | [], _ => true
  | c :: l, m => (match c with
    | .load p => readsB (F := F) B m.fs p
    | .call i c => match m.eds[i]? with
      | none => true
      | some e => match (c.value e).1 with
        | .error .unmodelled => false
        | _ => true
    | .save _ _ => true) && withinB B l (m.step c).2

theorem within_of : ∀ (l : List (Cmd F)) (m : VMach F), withinB B l m = true → VMach.WithinAll B l m
  | [], _, _ => trivial
  | c :: l, m, h => by
    unfold withinB at h
    rw [Bool.and_eq_true] at h
    refine ⟨?_, within_of l _ h.2⟩
    have h := h.1
    cases c with
    | load p =>
      intro t v ht hv
      simp only [readsB, ht, hv, Bool.and_eq_true, decide_eq_true_eq] at h
      refine ⟨h.1, fun hc => ?_⟩
      rw [hc] at h
      exact absurd h.2 (by simp)
    | call i c =>
      intro e he hc
      simp only [he, hc] at h
      exact absurd h (by simp)
    | save i p => trivial

/-- a file is opened twice, the editors are changed and saved under two names, one of which is opened again -/
def tour : List (Cmd XF) :=
  [.load s!!"/home/a.json", .load s!!"/home/a.json", .call 0 (.eraseAnims (.list [s!!"run"]) true true), .save 0 s!!"/home/b.json",
   .call 1 .clean, .save 1 s!!"/home/new/a.json", .load s!!"/home/b.json", .call 2 .clean, .save 2 s!!"/home/a.json", .load s!!"/home/none.json",
   .save 0 s!!"bare.json", .call 7 .clean]

def kind : Ans XF → Nat
  | .loaded (.ok _) => 0
  | .loaded (.error _) => 1
  | .called (.ok _) => 2
  | .called (.error _) => 3
  | .saved (.ok _) => 4
  | .saved (.error _) => 5
  | .absent => 6

/-- the hypotheses of C90 hold of this program, which gets all kinds of answers, and the two ways of editing end with the same file -/
example : VMach.WithinAll 12 tour ⟨[], Sessions.disk⟩ ∧ ((VMach.run tour ⟨[], Sessions.disk⟩).1.map kind) = [0, 0, 2, 4, 2, 4, 0, 2, 4, 1, 5, 6] ∧
    (VMach.run tour ⟨[], Sessions.disk⟩).2.fs.read s!!"/home/a.json" ≠ (VMach.run tour ⟨[], Sessions.disk⟩).2.fs.read s!!"/home/b.json" := by
  refine ⟨within_of _ _ (by decide +kernel), by decide +kernel, ?_⟩
  have : (match (VMach.run tour ⟨[], Sessions.disk⟩).2.fs.read s!!"/home/a.json", (VMach.run tour ⟨[], Sessions.disk⟩).2.fs.read s!!"/home/b.json" with
    | .ok a, .ok b => a == b
    | _, _ => true) = false := by decide +kernel
  intro hc
  rw [hc] at this
  revert this
  cases FS.read _ _ with
  | ok a => simp
  | error x => simp

/-- lists in lists -/
def nest : Nat → JVal XF
  | 0 => .list []
  | n + 1 => .list [nest n]

def deep (n : Nat) : JVal XF := .dict [(s!!"skeleton", .dict [(s!!"spine", .str s!!"3.8.75"), (s!!"note", nest n)]), (s!!"bones", .list [.dict [(s!!"name", .str s!!"root")]]),
  (s!!"slots", .list [.dict [(s!!"name", .str s!!"t"), (s!!"bone", .str s!!"root")]]), (s!!"skins", .list [.dict [(s!!"name", .str s!!"default")]]),
  (s!!"animations", .dict [])]

def deepDisk (n : Nat) : FS := { Sessions.disk with node := fun a => if a = [s!!"a.json", s!!"home"] then some (.file (JsonText.encode .compact (deep n))) else Sessions.disk.node a }

/-- C90 needs the bound on the nesting: with a recursion limit of 16 a note nested 20 lists deep cannot be loaded, one nested 4 deep can. -/
theorem c90_counterexample : ([4, 20].map (fun n => (kind (Mach.step (env allKeys 16) ⟨(importedFor allKeys).heap, [], deepDisk n⟩ (.load s!!"/home/a.json")).1,
    kind (VMach.step ⟨[], deepDisk n⟩ (.load s!!"/home/a.json")).1))) = [(0, 0), (1, 0)] := by decide +kernel

/-- open a file with one recursion limit and save it with another: how the save ends and whether the file is empty then -/
def saveWith (lim lim' : Nat) : Option (Nat × Bool) :=
  match fromJsonFile (env (F := XF) allKeys lim) Sessions.disk s!!"/home/a.json" (importedFor allKeys).heap with
  | (.error _, _) => none
  | (.ok e, h) =>
    let q := toJsonFile (env allKeys lim') Sessions.disk e s!!"/home/a.json" h
    some (match q.1 with | .ok _ => 0 | .error (.lib _) => 1 | .error (.os _) => 2, match q.2.1.read s!!"/home/a.json" with | .ok [] => true | _ => false)

/-- the hypotheses of `c90_saved` and of `c90_lost` -/
example : saveWith 64 64 = some (0, false) := by decide +kernel
example : saveWith 64 3 = some (1, true) := by decide +kernel

end examples

end Alias
end Spine
