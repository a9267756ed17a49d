import Verif.Lemmas.JsonStrict
import Verif.Lemmas.JsonLayout
import Verif.Props.Files
import Verif.Spec.ConcreteFloat
import Verif.Lemmas.SampleRan
/-
C77: JSON text is read back as it was written.  C78: output files are JSON.
-/
set_option linter.unusedSectionVars false
namespace Spine
open JsonSpec JsonText
variable {F : Type} [JsonRt F]

/-! ## C77 -/

/-- C77: what is written is read back, with either layout. -/
theorem c77_round_trip (l : Layout) {v : JVal F} (h : v.Proper) : decode (encode l v) = .ok v := decode_encode l h

/-- C77: the text means the value (RFC 8259, with the constants NaN, Infinity and -Infinity added). -/
theorem c77_means (l : Layout) {v : JVal F} (h : v.Proper) : Document PyRt.fparse (some consts) (encode l v) v := encode_document l h

/-- C77: reading accepts exactly the texts that mean something, and gives what they mean. -/
theorem c77_read (s : Str) (v : JVal F) : decode s = .ok v ↔ Document PyRt.fparse (some consts) s v := decode_iff s v

/-- C77: a text means at most one value. -/
theorem c77_unique {s : Str} {v w : JVal F} (h : Document PyRt.fparse (some consts) s v) (h' : Document PyRt.fparse (some consts) s w) : v = w := by
  have e := (decode_iff s v).2 h
  rw [(decode_iff s w).2 h'] at e
  exact (Except.ok.inj e).symm

/-- C77: different values have different texts. -/
theorem c77_injective (l l' : Layout) {v w : JVal F} (h : v.Proper) (h' : w.Proper) (e : encode l v = encode l' w) : v = w := by
  have := decode_encode l h
  rw [e, decode_encode l' h'] at this
  exact (Except.ok.inj this).symm

/-- C77: reading ends on every text. -/
theorem c77_ends (s : Str) : decode (F := F) s ≠ .error .diverge := decode_ends s

/-- C77: what is written is printable ASCII and line breaks. -/
theorem c77_ascii (l : Layout) (v : JVal F) : ∀ c ∈ encode l v, c = '\n' ∨ (32 ≤ c.toNat ∧ c.toNat ≤ 126) := plain_encodeAt l 0 v

/-- C77: what is read has no repeated keys. -/
theorem c77_keys {s : Str} {v : JVal F} (h : decode s = .ok v) : v.Proper := decode_proper h

/-- C77 for documents: the text of the document of an editor, after any calls with any outcomes, is read back as the document. -/
theorem c77_editor (l : Layout) {e : Editor F} (h : Editor.Edited e) : decode (encode l e.toJson) = .ok e.toJson := decode_encode l h.proper

/-- C77: an editor opened on a file has such a document. -/
theorem c77_opened {fs : Files.FS} {p : Str} {e : Editor F} (h : Editor.fromJsonFile fs p = .ok e) : Editor.Edited e := by
  unfold Editor.fromJsonFile at h
  split at h
  · cases h
  · split at h
    · cases h
    · rename_i v hv
      exact .load (decode_proper hv) h

/-- C77: the indented layout: outside of strings a comma ends a line, an opening bracket ends a line unless it is closed at once, and a
line begins with four blanks for every bracket open there. -/
theorem c77_layout (v : JVal F) : laid 0 (encode .indent4 v) = true := laid_encode v

/-- C77: the other layout is one line. -/
theorem c77_one_line (v : JVal F) : '\n' ∉ encode .compact v := oneLine_encodeAt 0 v

/-- C77: an editor is opened on a file exactly if the text of the file means a document that can be loaded. -/
theorem c77_open (fs : Files.FS) (p : Str) (e : Editor F) :
    Editor.fromJsonFile fs p = .ok e ↔ ∃ t v, fs.read p = .ok t ∧ Document PyRt.fparse (some consts) t v ∧ Editor.load v = .ok e := by
  unfold Editor.fromJsonFile
  constructor
  · intro h
    split at h
    · cases h
    · rename_i t ht
      split at h
      · cases h
      · rename_i v hv
        exact ⟨t, v, ht, (decode_iff t v).1 hv, h⟩
  · rintro ⟨t, v, ht, hv, h⟩
    rw [ht]
    simp only [(decode_iff t v).2 hv]
    exact h

/-- C77: a file whose text means nothing is rejected with ValueError (a text with a lone surrogate escape is not modelled). -/
theorem c77_not_json {fs : Files.FS} {p t : Str} (ht : fs.read p = .ok t) (h : ∀ v : JVal F, ¬ Document PyRt.fparse (some consts) t v) :
    Editor.fromJsonFile (F := F) fs p = .error .value ∨ Editor.fromJsonFile (F := F) fs p = .error .unmodelled := by
  unfold Editor.fromJsonFile
  rw [ht]
  dsimp only
  cases hd : decode (F := F) t with
  | ok v => exact absurd ((decode_iff t v).1 hd) (h v)
  | error x => rcases decode_err hd with rfl | rfl
               · exact .inl rfl
               · exact .inr rfl

/-! ## C78 -/

/-- C78: a written text is JSON exactly if all floats are finite. -/
theorem c78_exact (l : Layout) {v : JVal F} (h : v.Proper) :
    Document PyRt.fparse none (encode l v) v ↔ FloatsAre Finite v :=
  ⟨finite_of_strict l, encode_strict l h⟩

/-- C78: otherwise the text is not JSON for any value and however numbers are read. -/
theorem c78_not (l : Layout) {v w : JVal F} {parse : Str → Option F} (h : ¬ FloatsAre Finite v) : ¬ Document parse none (encode l v) w :=
  fun hd => h (finite_of_strict l hd)

/-- C78, as far as it holds: the output file of an editor opened on a document whose numbers are all finite is JSON for its document, unless
`scale_animation` was called.  Missing: documents with infinite numbers (`c78_counterexample`), scaling (`c78_scale_counterexample`). -/
theorem c78_editor_partial (l : Layout) {e : Editor F} (h : Editor.Unscaled Finite e) : Document PyRt.fparse none (encode l e.toJson) e.toJson := by
  have hf := (h.fine ⟨PyRt.one_feq, JsonRt.one_finite⟩).toJson
  exact encode_strict l hf.1 hf.2

/-- C78: whatever was called, the output file is JSON exactly if the numbers of the document are finite. -/
theorem c78_edited (l : Layout) {e : Editor F} (h : Editor.Edited e) :
    Document PyRt.fparse none (encode l e.toJson) e.toJson ↔ FloatsAre Finite e.toJson := c78_exact l h.proper

/-- C78: the file of images is JSON exactly if all scales are finite. -/
theorem c78_images (l : Layout) {e : Editor F} (h : Editor.Edited e) :
    Document PyRt.fparse none (encode l e.imagesJson) e.imagesJson ↔ ∀ k r s, (k, r) ∈ e.images → r.scale = some s → Finite s := by
  rw [c78_exact l (Editor.imagesJson_proper h.images)]
  constructor
  · intro hf k r s hm hs
    cases hf with
    | dict hf =>
      have := hf _ (List.mem_map_of_mem hm)
      simp only [hs] at this
      cases this with
      | dict this =>
        have := this (s!!"scale", .flt s) (by simp)
        cases this with
        | flt h => exact h
  · intro hf
    refine .dict (fun q hq => ?_)
    obtain ⟨⟨k, r⟩, hm, rfl⟩ := List.mem_map.1 hq
    dsimp only
    cases hs : r.scale with
    | none => exact .dict (by simp; exact .str _)
    | some s => exact .dict (by simp; exact ⟨.str _, .flt (hf k r s hm hs)⟩)

/-! ### Examples -/

section examples
open Files

/-- a document with a number of any kind -/
def withScale (f : XF) : JVal XF := .dict [(s!!"skeleton", .dict [(s!!"spine", .str s!!"3.8.75")]),
  (s!!"bones", .list [.dict [(s!!"name", .str s!!"root"), (s!!"scaleX", .flt f)]]), (s!!"slots", .list []), (s!!"skins", .list [])]

/-- the text of such a document -/
def scaleText (n : Str) : Str :=
  s!!"{\"skeleton\": {\"spine\": \"3.8.75\"}, \"bones\": [{\"name\": \"root\", \"scaleX\": " ++ n ++ s!!"}], \"slots\": [], \"skins\": []}"

theorem withScale_proper (f : XF) : (withScale f).Proper := JVal.proper_of _ rfl

example : encode .compact (withScale (.num 2)) = scaleText s!!"2.0" := by decide +kernel
example : encode .compact (withScale .inf) = scaleText s!!"Infinity" := by decide +kernel
example : decode (F := XF) (scaleText s!!"2.0") = .ok (withScale (.num 2)) := rfl

/-- blanks, escapes, nesting and repeated keys -/
example : decode (F := XF) s!!" { \"a\" : [ 1 , -2.0, \"\\u00e9\\n\" ], \"b\": {}, \"a\": null }\n" =
    .ok (.dict [(s!!"a", .null), (s!!"b", .dict [])]) := rfl

example : encode (F := XF) .indent4 (.list [.int 1, .str ['\n']]) = s!!"[\n    1,\n    \"\\n\"\n]" := by decide +kernel

/-- the layout is a matter of blanks: two instead of four are noticed -/
example : laid 0 s!!"[\n    1,\n    {\n        \"a\": []\n    }\n]" = true ∧ laid 0 s!!"[\n  1\n]" = false ∧ laid 0 s!!"[1]" = false := by decide +kernel

/-- a text that is no JSON, in a file -/
example : Editor.fromJsonFile (F := XF) { node := fun _ => some (.file s!!"{\"skeleton\": }"), cwd := [] } s!!"/" = .error .os := rfl
example : Editor.fromJsonFile (F := XF) { node := fun a => if a = [] then some .dir else some (.file s!!"{\"skeleton\": }"), cwd := [] } s!!"/a" = .error .value := rfl

/-- the text of the document of an editor after a successful call -/
def textAfter (l : Layout) (f : Editor XF → Res (Editor XF) Unit) (r : Except Err (Editor XF)) : Str :=
  match r with
  | .ok e => match f e with
    | (.ok _, e) => encode l e.toJson
    | (.error _, _) => []
  | .error _ => []

/-- does the text have a constant that is not JSON? -/
def odd (s : Str) : Bool := (outs s).any (fun c => c = 'N' || c = 'I')

theorem odd_iff {s : Str} : odd s = false ↔ Low (outs s) := by
  unfold odd Low
  rw [List.any_eq_false]
  simp

theorem after_text (l : Layout) (f : Editor XF → Res (Editor XF) Unit) {v : JVal XF} (h : textAfter l f (Editor.load v) ≠ []) :
    ∃ e, Editor.load v = .ok e ∧ (f e).1 = .ok () ∧ encode l (f e).2.toJson = textAfter l f (Editor.load v) := by
  unfold textAfter at h ⊢
  cases he : Editor.load v with
  | error x => rw [he] at h; exact absurd rfl h
  | ok e =>
    rw [he] at h
    refine ⟨e, rfl, ?_⟩
    dsimp only at h ⊢
    generalize f e = q at h ⊢
    obtain ⟨r, e'⟩ := q
    cases r with
    | error x => exact absurd rfl h
    | ok u => exact ⟨rfl, rfl⟩

/-- the hypotheses of `c78_editor_partial` hold of a loaded and cleaned document -/
example : ∃ e : Editor XF, Editor.Unscaled Finite e ∧ encode .compact e.toJson =
    s!!"{\"bones\": [{\"name\": \"root\", \"scaleX\": 2.0}], \"skins\": [], \"skeleton\": {\"spine\": \"3.8.75\"}}" := by
  have hf : FloatsAre Finite (withScale (.num 2)) := finite_encodeAt .compact 0 _ (odd_iff.1 (by decide +kernel))
  obtain ⟨e, he, -, ht⟩ := after_text .compact (Editor.Op.clean (F := XF)).run (v := withScale (.num 2)) (by decide +kernel)
  refine ⟨((Editor.Op.clean (F := XF)).run e).2, .run _ trivial (.load (withScale_proper _) hf he), ?_⟩
  rw [ht]
  decide +kernel

/-- C78 is false: a JSON text with the number `1e999` is loaded, and what is written is not JSON, however numbers are read. -/
theorem c78_counterexample : ∃ (t : Str) (v : JVal XF) (e : Editor XF), Document PyRt.fparse none t v ∧ decode t = .ok v ∧
    Editor.load v = .ok e ∧ ∀ (parse : Str → Option XF) w, ¬ Document parse none (encode .indent4 e.toJson) w := by
  have hd : decode (F := XF) (scaleText s!!"1e999") = .ok (withScale .inf) := rfl
  obtain ⟨e, he, -, ht⟩ := after_text .indent4 (fun e => (.ok (), e)) (v := withScale .inf) (by decide +kernel)
  refine ⟨_, _, e, strict_document ((c77_read _ _).1 hd) (odd_iff.1 (by decide +kernel)), hd, he, fun parse w h => ?_⟩
  have := odd_iff.2 (clean_document h).low
  rw [ht] at this
  exact absurd this (by decide +kernel)

/-- C78 is false: scaling by a finite factor can make a finite number infinite. -/
theorem c78_scale_counterexample : ∃ (v : JVal XF) (f : XF) (e : Editor XF), FloatsAre Finite v ∧ Finite f ∧ Editor.load v = .ok e ∧
    (Editor.scale (.flt f) (.flt f) e).1 = .ok () ∧ ∀ (parse : Str → Option XF) w, ¬ Document parse none (encode .indent4 (Editor.scale (.flt f) (.flt f) e).2.toJson) w := by
  have hf : FloatsAre Finite (withScale (.num (10 ^ 20))) := finite_encodeAt .compact 0 _ (odd_iff.1 (by decide +kernel))
  obtain ⟨e, he, h1, ht⟩ := after_text .indent4 (Editor.scale (.flt (.num (10 ^ 20))) (.flt (.num (10 ^ 20)))) (v := withScale (.num (10 ^ 20)))
    (by decide +kernel)
  refine ⟨_, .num (10 ^ 20), e, hf, ⟨by decide, by decide, by decide⟩, he, h1, fun parse w h => ?_⟩
  have := odd_iff.2 (clean_document h).low
  rw [ht] at this
  exact absurd this (by decide +kernel)

end examples
end Spine
