import Verif.Lemmas.Files
import Verif.Lemmas.FineEditor
import Verif.Lemmas.JsonEncode
import Verif.Spec.Sample
import Verif.Spec.Frame
/-
C58: writing output files.
-/
set_option linter.unusedSectionVars false
namespace Spine.Files
variable {fs : FS} {p : Str} {v : Str}

theorem write_dir {fs' : FS} (w' : WF fs') (hp : Plain p) (h2 : tail p ≠ []) (hd : fs'.node (place fs' (dirname p)) = some .dir)
    (hn : fs'.node (place fs' p) ≠ some .dir) : fs'.write p v = (.ok (), fs'.put (place fs' p) (.file v)) := by
  unfold FS.write
  rw [resolve_new hp h2 w' hd]
  cases e : fs'.node (place fs' p) with
  | none => simp only [e]
  | some n => cases n with
    | dir => exact absurd e hn
    | file c => simp only [e]

theorem write_place {fs' : FS} (hp : Plain p) (h : (fs'.write p v).1 = .ok ()) :
    fs'.resolve p = some (place fs' p) ∧ fs'.node (place fs' p) ≠ some .dir := by
  unfold FS.write at h
  split at h
  · simp at h
  · rename_i a ha
    have := resolve_place hp ha
    subst this
    refine ⟨ha, fun e => ?_⟩
    rw [e] at h; simp at h

/-- C58: the missing directories down to the file are made, the file holds the document, and nothing else has changed, when the
path never goes up and has a directory part, its last component is a name, nothing above it is a file, and it is not itself a
directory. -/
theorem c58_saved_partial (w : WF fs) (hp : Plain p) (h1 : '/' ∈ p) (h2 : tail p ≠ []) (h3 : tail p ≠ s!!".")
    (h4 : NoFile fs (place fs (dirname p))) (h5 : fs.node (place fs p) ≠ some .dir) :
    fs.save p v = (.ok (), (grown fs (place fs (dirname p))).put (place fs p) (.file v)) := by
  have hd0 : dirname p ≠ [] := fun e => (dirname_nil.1 e) h1
  have hdp := plain_dirname hp
  unfold FS.save
  rcases not_file (h4 _ (List.suffix_refl _)) with hd | hd
  · have hnd : fs.isdir (dirname p) = false := by
      cases e : fs.isdir (dirname p) with
      | false => rfl
      | true => rw [isdir_iff w hdp hd0, hd] at e; simp at e
    rw [hnd]
    simp only [Bool.false_eq_true, if_false]
    unfold FS.makedirs
    rw [makedirs_plain _ _ (Nat.lt_succ_self _) hdp hd0 w h4 hd]
    simp only
    rw [write_dir (grown_wf w h4) hp h2 (grown_dir h4 (List.suffix_refl _))]
    · rfl
    · show (grown fs (place fs (dirname p))).node (place fs p) ≠ _
      have e : fs.node (place fs p) = none ∨ ∃ x, fs.node (place fs p) = some (.file x) := by
        cases e : fs.node (place fs p) with
        | none => exact .inl rfl
        | some n => cases n with
          | dir => exact absurd e h5
          | file c => exact .inr ⟨c, rfl⟩
      rcases e with e | ⟨x, e⟩
      · have hps := place_split (fs := fs) hp
        rw [step_plain (plain_tail hp), if_neg (by simp only [not_or]; exact ⟨h2, h3⟩)] at hps
        rw [grown_none e, hps, if_neg not_suffix_self]
        simp
      · rw [grown_some e]; simp
  · rw [(isdir_iff w hdp hd0).2 hd, grown_self w hd]
    simp only [if_true]
    exact write_dir w hp h2 hd h5

/-- C58: the exact outcome for every path that never goes up. -/
theorem c58_exact_partial (w : WF fs) (hp : Plain p) : (fs.save p v).1 = .ok () ↔
    '/' ∈ p ∧ tail p ≠ [] ∧ tail p ≠ s!!"." ∧ NoFile fs (place fs (dirname p)) ∧ fs.node (place fs p) ≠ some .dir := by
  refine ⟨?_, fun ⟨h1, h2, h3, h4, h5⟩ => by rw [c58_saved_partial w hp h1 h2 h3 h4 h5]⟩
  · intro h
    have hdp := plain_dirname hp
    have hd0 : dirname p ≠ [] := by
      intro e
      unfold FS.save at h
      rw [e] at h
      exact absurd h (by simp [FS.isdir, FS.resolve, FS.makedirs, FS.makedirsN, FS.split2, FS.mkdir, dirname, upToSlash, tail])
    have h1 : '/' ∈ p := by
      by_cases h1 : '/' ∈ p
      · exact h1
      · exact absurd (dirname_nil.2 h1) hd0
    have hst : fs.node (fs.start (dirname p)) = some .dir := by
      unfold FS.start; split
      · exact w.root
      · exact w.cwd
    -- the file system the file is opened in
    have hk : ∃ fs', Keeps fs fs' ∧ (fs'.write p v).1 = .ok () := by
      unfold FS.save at h
      split at h
      · exact ⟨fs, ⟨rfl, fun _ _ h => h⟩, h⟩
      · have hk := makedirs_keeps (fs := fs) ((dirname p).length + 1) (dirname p)
        unfold FS.makedirs at h
        generalize fs.makedirsN ((dirname p).length + 1) (dirname p) = r at h hk
        obtain ⟨r1, fs'⟩ := r
        cases r1 with
        | error x => simp at h
        | ok u => exact ⟨fs', hk, h⟩
    obtain ⟨fs', hk, hw⟩ := hk
    obtain ⟨hr, hn⟩ := write_place hp hw
    rw [place_keeps hk.1] at hr hn
    have hne : p ≠ [] := by rintro rfl; simp at h1
    unfold FS.resolve at hr
    rw [if_neg hne] at hr
    have hs : fs'.start p = fs.start (dirname p) := by rw [start_dirname hd0]; unfold FS.start; rw [hk.1]
    have hsuf : fs.start (dirname p) <:+ place fs (dirname p) := List.suffix_append _ _
    have hps := place_split (fs := fs) hp
    rw [step_plain (plain_tail hp)] at hps
    -- everything above the file is a directory
    have hup : ∀ b, b <:+ place fs p → fs.start (dirname p) <:+ b → b ≠ place fs p → fs'.node b = some .dir :=
      fun b h1 h2 h3 => walk_visited hp hr h1 (by rw [hs]; exact h2) h3
    have hfile : ∀ b, b <:+ place fs (dirname p) → b ≠ place fs p → ¬ IsFile (fs.node b) := by
      intro b hb hbn hf
      have hbp : b <:+ place fs p := by
        rw [hps]; split
        · exact hb
        · exact hb.trans (List.suffix_cons _ _)
      have hfk : ∃ c, fs.node b = some (.file c) := by
        cases e : fs.node b with
        | none => rw [e] at hf; exact hf.elim
        | some n => cases n with
          | dir => rw [e] at hf; exact hf.elim
          | file c => exact ⟨c, rfl⟩
      obtain ⟨c, e⟩ := hfk
      rcases List.suffix_or_suffix_of_suffix hsuf hb with h2 | h2
      · have := hup b hbp h2 hbn
        rw [hk.2 _ _ e] at this; simp at this
      · rw [w.suffix' h2 hst] at e; simp at e
    have hname : ¬ (tail p = [] ∨ tail p = s!!".") := by
      intro ht
      rw [if_pos ht] at hps
      -- the last step of the walk needs the place of the directory to be a directory
      have hsp : ∃ cs, splitOn '/' p = cs ++ [tail p] := by
        rcases upTo_last p with hl | ⟨y, hl⟩
        · have := upTo_tail p
          rw [hl, List.nil_append] at this
          exact absurd h1 (by rw [this]; exact tail_noslash p)
        · refine ⟨splitOn '/' y, ?_⟩
          have hu := upTo_tail p
          conv => lhs; rw [hu, hl]
          have := splitOn_mid y (tail p)
          rw [splitOn_one (tail_noslash p)] at this
          simpa using this
      obtain ⟨cs, hcs⟩ := hsp
      rw [hcs, walk_append] at hr
      cases e : fs'.walk (fs'.start p) cs with
      | none => rw [e] at hr; simp at hr
      | some b =>
        rw [e] at hr
        simp only [Option.bind_some] at hr
        split at hr
        · rename_i hb
          have : step b (tail p) = b := by unfold step; rw [if_pos ht]
          rw [this] at hr
          injection hr with hr
          rw [hr] at hb
          exact hn (isDir_iff.1 hb)
        · simp at hr
    simp only [not_or] at hname
    rw [if_neg (by simp only [not_or]; exact hname)] at hps
    refine ⟨h1, hname.1, hname.2, fun b hb => hfile b hb ?_, fun e => hn (hk.2 _ _ e)⟩
    rintro rfl
    rw [hps] at hb
    exact not_suffix_self hb

/-- C58 is false for bare file names: in every file system, from every directory. -/
theorem c58_bare_name (h : '/' ∉ p) : fs.save p v = (.error .other, fs) := by
  unfold FS.save
  rw [dirname_nil.2 h]
  simp [FS.isdir, FS.resolve, FS.makedirs, FS.makedirsN, FS.split2, FS.mkdir, dirname, upToSlash, tail]

/-- `os.makedirs` never runs out of the depth the model allows: each recursive call has a shorter path. -/
theorem c58_makedirs_depth (h : p.all (· = '/') = false) : (FS.split2 p).1.length < p.length := by
  obtain ⟨h2, ht⟩ := split2_rstrip h
  rw [h2]
  have := dirname_lt ht
  obtain ⟨k, hk, _⟩ := rstrip_spec p
  have h3 := congrArg List.length hk
  rw [List.length_append] at h3
  simp only; omega

end Spine.Files

namespace Spine.Editor
open Files
variable {F : Type} [JsonRt F] {fs : FS} {p : Str} {e : Editor F}

/-- C58: the written file holds the text. -/
theorem c58_read_back_partial {v : Str} (w : WF fs) (hp : Plain p) (h1 : '/' ∈ p) (h2 : tail p ≠ []) (h3 : tail p ≠ s!!".")
    (h4 : NoFile fs (place fs (dirname p))) (h5 : fs.node (place fs p) ≠ some .dir) :
    (fs.save p v).1 = .ok () ∧ (fs.save p v).2.read p = .ok v := by
  rw [c58_saved_partial w hp h1 h2 h3 h4 h5]
  refine ⟨rfl, ?_⟩
  have hps := place_split (fs := fs) hp
  rw [step_plain (plain_tail hp), if_neg (by simp only [not_or]; exact ⟨h2, h3⟩)] at hps
  have hne : place fs (dirname p) ≠ place fs p := by
    rw [hps]; intro e; have := congrArg List.length e; simp at this
  have hr : ((grown fs (place fs (dirname p))).put (place fs p) (.file v)).resolve p = some (place fs p) := by
    refine resolve_new (fs := (grown fs (place fs (dirname p))).put (place fs p) (.file v)) hp h2 ?_ ?_
    · have wg := grown_wf w h4
      have hgn : ∀ n, (grown fs (place fs (dirname p))).node (n :: place fs p) = none := by
        intro n
        cases e : (grown fs (place fs (dirname p))).node (n :: place fs p) with
        | none => rfl
        | some x =>
          have := wg.up n _ (by rw [e]; simp)
          cases e2 : fs.node (place fs p) with
          | some y => rw [grown_some e2] at this; injection this with this; rw [this] at e2; exact absurd e2 h5
          | none =>
            rw [grown_none e2, hps, if_neg not_suffix_self] at this; simp at this
      refine ⟨?_, ?_, fun n a hna => ?_⟩
      · show (if ([] : List Str) = place fs p then _ else _) = _
        rw [if_neg (by rw [hps]; simp)]; exact wg.root
      · show (if fs.cwd = place fs p then _ else _) = _
        rw [if_neg (fun hc : fs.cwd = place fs p => h5 (hc ▸ w.cwd))]; exact wg.cwd
      · by_cases ha : a = place fs p
        · rw [ha] at hna
          exfalso; apply hna
          show (if n :: place fs p = place fs p then _ else _) = _
          rw [if_neg (by intro e; have := congrArg List.length e; simp at this)]
          exact hgn n
        · show (if a = place fs p then _ else _) = _
          rw [if_neg ha]
          by_cases hn : n :: a = place fs p
          · rw [hps] at hn
            injection hn with _ hn
            rw [hn]; exact grown_dir h4 (List.suffix_refl _)
          · refine wg.up n a (fun e => hna ?_)
            show (if n :: a = place fs p then _ else _) = _
            rw [if_neg hn]; exact e
    · show (if place fs (dirname p) = place fs p then _ else _) = _
      rw [if_neg hne]
      exact grown_dir h4 (List.suffix_refl _)
  have hg : ((grown fs (place fs (dirname p))).put (place fs p) (.file v)).node (place fs p) = some (.file v) := by
    show (if place fs p = place fs p then _ else _) = _
    rw [if_pos rfl]
  unfold FS.read
  simp only [hr, hg]

/-- C58 for `to_json`: reading the written file is loading the editor's document. -/
theorem c58_to_json_partial (he : Edited e) (w : WF fs) (hp : Plain p) (h1 : '/' ∈ p) (h2 : tail p ≠ []) (h3 : tail p ≠ s!!".")
    (h4 : NoFile fs (place fs (dirname p))) (h5 : fs.node (place fs p) ≠ some .dir) :
    (toJsonFile fs e p).1 = .ok () ∧ fromJsonFile (toJsonFile fs e p).2 p = load e.toJson := by
  obtain ⟨h, h'⟩ := c58_read_back_partial (v := JsonText.encode .indent4 e.toJson) w hp h1 h2 h3 h4 h5
  refine ⟨h, ?_⟩
  unfold fromJsonFile toJsonFile
  simp only [h', JsonText.decode_encode .indent4 he.proper]

/-- what `save_images_json` writes: an object with an entry for each image, which has the path of the image and, unless it is 1, its scale -/
theorem c58_images (e : Editor F) : Dict.keys e.imagesJson.entries = Dict.keys e.images ∧
    ∀ k r, Dict.get? e.images k = some r → ∃ w, e.imagesJson.field k = some w ∧ Dict.keys w.entries ⊆ [s!!"path", s!!"scale"] ∧
      w.field s!!"path" = some (.str r.path) ∧ w.field s!!"scale" = r.scale.map .flt := by
  constructor
  · unfold imagesJson Dict.keys
    simp only [JVal.entries, List.map_map]
    rfl
  · intro k r h
    have key : ∀ d : Dict (ImageRef F), Dict.get? (d.map (fun q => (q.1, JVal.dict ((s!!"path", .str q.2.path) :: (match q.2.scale with
        | none => []
        | some s => [(s!!"scale", .flt s)]))))) k = (Dict.get? d k).map (fun r => JVal.dict ((s!!"path", .str r.path) :: (match r.scale with
        | none => []
        | some s => [(s!!"scale", .flt s)]))) := by
      intro d
      induction d with
      | nil => rfl
      | cons q d ih =>
        rw [List.map_cons]
        unfold Dict.get?
        by_cases hq : q.1 = k
        · simp [hq]
        · simp [hq]; exact ih
    refine ⟨_, (key e.images).trans (by rw [h]; rfl), ?_⟩
    obtain ⟨rp, rs⟩ := r
    cases rs <;> simp [JVal.entries, JVal.field, Dict.get?, Dict.keys]

theorem imagesJson_proper (h : (Dict.keys e.images).Nodup) : e.imagesJson.Proper := by
  refine .dict ?_ ?_
  · show (Dict.keys e.imagesJson.entries).Nodup
    rw [(c58_images e).1]; exact h
  · intro x hx
    obtain ⟨r, _, rfl⟩ := List.mem_map.1 hx
    dsimp only
    cases r.2.scale with
    | none => exact .dict (by simp [Dict.keys]) (by simp; exact .str _)
    | some f => exact .dict (by simp [Dict.keys]) (by simp; exact ⟨.str _, .flt _⟩)

/-- C58 for `save_images_json`: the file holds the text of that object, from which the object is read. -/
theorem c58_save_images_partial (he : Edited e) (w : WF fs) (hp : Plain p) (h1 : '/' ∈ p) (h2 : tail p ≠ []) (h3 : tail p ≠ s!!".")
    (h4 : NoFile fs (place fs (dirname p))) (h5 : fs.node (place fs p) ≠ some .dir) :
    ∃ t, (saveImagesJson fs e p).1 = .ok () ∧ (saveImagesJson fs e p).2.read p = .ok t ∧ JsonText.decode t = .ok e.imagesJson :=
  have ⟨h, h'⟩ := c58_read_back_partial (v := JsonText.encode .compact e.imagesJson) w hp h1 h2 h3 h4 h5
  ⟨_, h, h', JsonText.decode_encode .compact (imagesJson_proper he.images)⟩

/-- C58 is false for bare file names: `to_json("out.json")` and `save_images_json("out.json")` always fail. -/
theorem c58_bare_name_editor (h : '/' ∉ p) :
    toJsonFile fs e p = (.error .other, fs) ∧ saveImagesJson fs e p = (.error .other, fs) :=
  ⟨c58_bare_name h, c58_bare_name h⟩

section examples

/-- an empty file system with the working directory `/home` -/
def home : FS :=
  { node := fun a => if a = [] ∨ a = [s!!"home"] then some .dir else none, cwd := [s!!"home"] }

theorem home_wf : WF home := by
  refine ⟨rfl, rfl, fun n a h => ?_⟩
  unfold home at h ⊢
  simp only at h ⊢
  by_cases hn : n :: a = [s!!"home"]
  · injection hn with _ hn
    rw [hn, if_pos (Or.inl rfl)]
  · rw [if_neg (by simp only [not_or]; exact ⟨by simp, hn⟩)] at h
    exact absurd rfl h

example : Plain s!!"out/./a//b.json" ∧ place home (dirname s!!"out/./a//b.json") = [s!!"a", s!!"out", s!!"home"] ∧
    place home s!!"out/./a//b.json" = [s!!"b.json", s!!"a", s!!"out", s!!"home"] := by
  refine ⟨?_, ?_, ?_⟩
  · unfold Plain; decide
  · decide
  · decide

example (v : Str) : home.save s!!"out/./a//b.json" v = (.ok (), (grown home [s!!"a", s!!"out", s!!"home"]).put
    [s!!"b.json", s!!"a", s!!"out", s!!"home"] (.file v)) := by
  refine c58_saved_partial home_wf (by unfold Plain; decide) (by decide) (by decide) (by decide) ?_ ?_
  · intro b _ hf
    unfold home at hf; simp only at hf
    split at hf <;> exact hf
  · unfold home; simp only
    rw [if_neg (by decide)]; simp

/-- C58 is false: the working directory exists, but a bare file name cannot be written. -/
theorem c58_counterexample : ∃ (fs : FS) (p : Str), WF fs ∧ Plain p ∧ fs.node (place fs (dirname p)) = some .dir ∧
    fs.node (place fs p) = none ∧ ∀ v, (fs.save p v).1 = .error .other :=
  ⟨home, s!!"out.json", home_wf, by unfold Plain; decide, rfl, rfl, fun v => by rw [c58_bare_name (by decide)]⟩

/-- C58 is false: a missing directory followed by `..` is created, but then FileExistsError is raised. -/
theorem c58_up_counterexample : ∀ v, ((home.save s!!"x/../out.json" v).1, Node.isDir ((home.save s!!"x/../out.json" v).2.node [s!!"x", s!!"home"])) =
    (.error .exists, true) := by
  intro v
  rfl

end examples
end Spine.Editor
