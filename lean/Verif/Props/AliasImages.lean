import Verif.Model.AliasImages
import Verif.Props.AliasFiles
/-
C90, the image references: what `save_images_json` writes after a program that works with files.
-/
namespace Spine
namespace Alias
open Files
variable {F : Type} [JsonRt F] {B : Nat} {N : Nat → Prop} {h : Heap F}

mutual
/-- the JSON value of a tree of dictionaries -/
def Tree.json : Tree F → JVal F
  | .leaf j => j
  | .node _ ts => .dict (jsonK ts)
def Tree.jsonK : List (Str × Tree F) → Dict (JVal F)
  | [] => []
  | (k, t) :: r => (k, t.json) :: jsonK r
end

omit [JsonRt F] in
theorem jsonK_map {α : Type} (f : α → Tree F) (d : Dict α) : Tree.jsonK (dmap f d) = d.map (fun q => (q.1, (f q.2).json)) := by
  induction d with
  | nil => rfl
  | cons q d ih =>
    have : dmap f (q :: d) = (q.1, f q.2) :: dmap f d := rfl
    rw [this, Tree.jsonK, ih]
    rfl

/-- the trees below an object can be read when each of them can -/
theorem repK_read {n : Nat} : ∀ {rs : Dict (Ref F)} {ts : List (Str × Tree F)} {S : Nat → Prop}, RepK B N h rs ts S →
    (∀ q ∈ ts, ∀ r S', Rep B N h r q.2 S' → readJ h n r = some q.2.json) →
    All₂ (fun p q => p.1 = q.1 ∧ belowJ h (n + 1) p.2 = some q.2) rs (Tree.jsonK ts)
  | _, _, _, .nil _, _ => .nil
  | _, _, _, .cons k r t rs ts S1 _ S h1 h2 _ _ _, hr =>
    .cons ⟨rfl, hr (k, t) (List.mem_cons_self ..) r S1 h1⟩ (repK_read h2 (fun q hq => hr q (List.mem_cons_of_mem _ hq)))

/-- a dictionary can be read when what is in it can -/
theorem rep_dict_read {n : Nat} {r : Ref F} {ts : List (Str × Tree F)} {S : Nat → Prop} (h1 : Rep B N h r (.node .dict ts) S)
    (hr : ∀ q ∈ ts, ∀ r S', Rep B N h r q.2 S' → readJ h n r = some q.2.json) : readJ h (n + 1) r = some (.dict (Tree.jsonK ts)) := by
  cases h1 with
  | node a _ rs _ _ S' ho _ _ hk _ => exact (readJ_dict ho).mpr (repK_read hk hr)
  | empty a _ _ ho => exact (readJ_dict ho).mpr .nil

theorem image_read {i : ImageRef F} {r : Ref F} {S : Nat → Prop} (h1 : Rep B N h r (tImage i) S) : readJ h (B + 1) r = some (tImage i).json := by
  unfold tImage at h1 ⊢
  refine rep_dict_read h1 ?_
  intro q hq r S' h2
  obtain ⟨k, t⟩ := q
  have ht : ∃ j, t = .leaf j := by
    cases hs : i.scale with
    | none => rw [hs] at hq; simp at hq; exact ⟨_, hq.2⟩
    | some s => rw [hs] at hq; simp at hq; rcases hq with hq | hq <;> exact ⟨_, hq.2⟩
  obtain ⟨j, rfl⟩ := ht
  cases h2 with
  | leaf _ _ _ _ h3 => exact h3

/-- the object at `images_references` is read as the image references of the model on values -/
theorem images_read {E : Env F} (hm : 8 + B ≤ E.lim) {e : Ed F} {v : Editor F} (hs : Holds B E N h e v) :
    readJ h E.lim e.images = some v.imagesJson := by
  obtain ⟨_, Si, _, _, h3⟩ := hs.parts
  have h4 : readJ h (B + 1 + 1) e.images = some (.dict (Tree.jsonK (dmap tImage v.images))) := by
    refine rep_dict_read h3 ?_
    intro q hq r S' h5
    obtain ⟨x, _, rfl⟩ := List.mem_map.mp hq
    exact image_read h5
  rw [readJ_le h4 (by omega), jsonK_map]
  unfold Editor.imagesJson
  refine congrArg (fun d => some (JVal.dict d)) (List.map_congr_left ?_)
  intro q _
  unfold tImage
  cases q.2.scale <;> rfl

/-- what `saveImagesJson` reports, as the machine with objects reports it -/
def asFault : Except OSErr Unit × FS → Except Fault Unit × FS
  | (.error x, fs) => (.error (.os x), fs)
  | (.ok (), fs) => (.ok (), fs)

theorem paired_images {E : Env F} (hm : 8 + B ≤ E.lim) {m : Mach F} {v : VMach F} (hp : Paired B E m v) (i : Nat) (p : Str) :
    (m.eds[i]?).map (fun e => saveImages E m.fs e p m.heap) = (v.eds[i]?).map (fun e => asFault (Editor.saveImagesJson v.fs e p)) := by
  obtain ⟨hfs, w, h1, h2, ht⟩ := hp
  rcases all₂_get? ht.eds i with ⟨h3, h4⟩ | ⟨e, u, h3, h4, _, N, h5⟩
  · rw [← h2, h3, h4]; rfl
  · rw [← h2, h3, h4]
    have h6 := images_read hm h5
    rw [h1] at h6
    simp only [Option.map_some, saveImages, Editor.saveImagesJson, hfs, h6]
    generalize hA : v.fs.save p [] = A
    generalize hB : v.fs.save p (JsonText.encode .compact u.imagesJson) = C
    have hs := save_outcome v.fs p [] (JsonText.encode .compact u.imagesJson)
    rw [hA, hB] at hs
    obtain ⟨a1, a2⟩ := A
    obtain ⟨c1, c2⟩ := C
    rcases hs with ⟨rfl, rfl⟩ | ⟨h9, y, rfl⟩
    · rfl
    · cases h9
      rfl

/-- what `save_images_json` of the editor number `i` does, with objects -/
def Mach.images (E : Env F) (i : Nat) (p : Str) (m : Mach F) : Option (Except Fault Unit × FS) :=
  (m.eds[i]?).map (fun e => saveImages E m.fs e p m.heap)

/-- what it does with values -/
def VMach.images (i : Nat) (p : Str) (v : VMach F) : Option (Except Fault Unit × FS) :=
  (v.eds[i]?).map (fun e => asFault (Editor.saveImagesJson v.fs e p))

/-- C90, the image references: after a program that opens editors for files, calls them and saves them, `save_images_json` of any
of the editors, to any name, succeeds or fails as the model on values says and leaves the disk it says. -/
theorem c90_images_partial {E : Env F} (hm : 8 + B ≤ E.lim) {w : World F} (hw : w.Apart) (he : w.eds = []) (hx : w.Fixed B E) (fs : FS) (l : List (Cmd F))
    (ha : VMach.WithinAll B l ⟨[], fs⟩) (i : Nat) (p : Str) :
    (Mach.run E l ⟨w.heap, [], fs⟩).2.images E i p = (VMach.run l ⟨[], fs⟩).2.images i p := by
  obtain ⟨_, h2⟩ := paired_run hm l (m := ⟨w.heap, [], fs⟩) (v := ⟨[], fs⟩) ⟨rfl, w, rfl, he, hw, hx, by rw [he]; exact .nil⟩ ha
  exact paired_images hm h2 i p

/-- C90, the image references, from the start: the library has been imported, nothing else has happened. -/
theorem c90_images_imported_partial {lim : Nat} (hB : 2 ≤ B) (hm : 8 + B ≤ lim) (fs : FS) (l : List (Cmd F)) (ha : VMach.WithinAll B l ⟨[], fs⟩) (i : Nat) (p : Str) :
    (Mach.run (env allKeys lim) l ⟨(importedFor allKeys).heap, [], fs⟩).2.images (env allKeys lim) i p = (VMach.run l ⟨[], fs⟩).2.images i p :=
  c90_images_partial (E := env allKeys lim) hm (importedFor_apart allKeys) rfl (importedFor_fixed hB lim all_keys') fs l ha i p

/-- the first editor of `tour` saves its images to a new file, and cannot save them to a name without a directory; there is no
editor number 7 -/
example : VMach.WithinAll 12 tour ⟨[], Sessions.disk⟩ ∧
    ([(0, s!!"/home/i.json"), (0, s!!"bare.json"), (7, s!!"/home/i.json")].map (fun q => ((VMach.run tour ⟨[], Sessions.disk⟩).2.images q.1 q.2).map (fun x =>
      match x with
      | (.ok _, fs) => (match fs.read q.2 with
        | .ok t => decide (10 < t.length)
        | .error _ => false)
      | (.error _, _) => false))) = [some true, some false, none] :=
  ⟨within_of _ _ (by decide +kernel), by decide +kernel⟩

end Alias
end Spine
