import Verif.Lemmas.ConsoleAtts
import Verif.Props.ComposeExamples
/- C92: what the editor prints, and the message of the ValueError of `erase_animations`. -/
set_option synthInstance.maxHeartbeats 200000
set_option synthInstance.maxSize 1000
set_option linter.unusedSectionVars false
namespace Spine
namespace Editor
namespace Console
variable {F : Type} [PyRt F] {e e' : Editor F}

/-- C92: calls with printing do what the calls of the model do. -/
theorem c92_same (o : Op F) (e : Editor F) : (run o e).1 = o.run e := run_fst o e

/-- C92: over any sequence of calls on any editor, failing or not, every image that was in the references is still there or is
named in a printed line, and never twice. -/
theorem c92_images (ops : List (Op F)) (e : Editor F) :
    (Dict.keys e.images).Perm (Dict.keys (ops.foldl (fun e o => (o.run e).2) e).images ++ imagesIn (log ops e)) :=
  told_log ops e

/-- C92: the text on the console determines the lines and the names in them. -/
theorem c92_text (pr : Char → Bool) (l m : List Line) (h : out pr l = out pr m) : l = m := out_inj h

/-- the names of the attachments do not contain the suffix of the graph -/
def PlainKeys (e : Editor F) : Prop := ∀ slot k x, e.data.HasAtt slot k x → ¬ s!!"_ATTACHMENT" <:+: k

theorem clean_told (hs : Sync e) (hroot : Rooted e.graph) (hk : PlainKeys e) {ids atts : List Str} (h : Editor.clean e = (.ok (ids, atts), e')) :
    ∃ l, (clean e).2 = .slots ids :: .atts l :: lostLine e e' ∧ l.Nodup ∧ (∀ k, k ∈ l ↔ Has e k ∧ ¬ Has e' k) ∧
      ids.Nodup ∧ ∀ n, n ∈ ids ↔ n ∈ e.data.slots.map (·.name) ∧ n ∉ e'.data.slots.map (·.name) := by
  obtain ⟨D, h1, h2, h3⟩ := clean_lines hs hroot h
  obtain ⟨slots, L, A, B, I, g0, g1, g2, g3, bs, ss, is, an, hr⟩ := clean_run hs.core h
  have hmap : D.map (fun k => baseId .attachment (graphId .attachment k)) = D := by
    rw [List.map_congr_left (g := id), List.map_id]
    intro k hkD
    obtain ⟨_, ⟨slot, x, hx⟩, _⟩ := (h3 k).1 hkD
    exact (baseId_eq_iff .attachment k).2 (hk slot k x hx)
  rw [hmap] at h1
  refine ⟨_, h1, ?_, ?_, ?_, ?_⟩
  · refine List.nodup_append.2 ⟨nodup_setList _, h2, ?_⟩
    rintro x hx y hy rfl
    exact ((h3 x).1 hy).1 ((mem_setList _ _).1 hx)
  · intro k
    rw [clean_gone hs h, List.mem_append, mem_setList, h3]
  · rw [hr.hids]; exact nodup_setList _
  · intro n
    rw [hr.result_slots hs]
    constructor
    · intro hn
      obtain ⟨s, hs', e1⟩ := ((hr.mem_ids hs n).1 hn).1
      refine ⟨List.mem_map.2 ⟨s, hs', e1⟩, ?_⟩
      rintro hm
      obtain ⟨t, ht, rfl⟩ := List.mem_map.1 hm
      have := (List.mem_filter.1 ht).2
      simp [hn] at this
    · rintro ⟨h1, h2⟩
      apply Classical.byContradiction
      intro hn
      obtain ⟨s, hs', rfl⟩ := List.mem_map.1 h1
      exact h2 (List.mem_map.2 ⟨s, List.mem_filter.2 ⟨hs', by simpa using hn⟩, rfl⟩)

/-- C92: `clean_animation` prints the slots that are gone, the attachments that are gone, each once, and, if there are any, the images
that are gone. -/
theorem c92_clean_partial (hr : Ran e) (hk : PlainKeys e) {ids atts : List Str} (h : Editor.clean e = (.ok (ids, atts), e')) :
    ∃ l, (clean e).2 = .slots ids :: .atts l :: lostLine e e' ∧ l.Nodup ∧ (∀ k, k ∈ l ↔ Has e k ∧ ¬ Has e' k) ∧
      ids.Nodup ∧ ∀ n, n ∈ ids ↔ n ∈ e.data.slots.map (·.name) ∧ n ∉ e'.data.slots.map (·.name) :=
  clean_told hr.sync hr.rooted hk h

/-- C92: the same for `erase_animations`, which prints nothing in safe mode. -/
theorem c92_erase_animations_partial (hr : Ran e) (hk : PlainKeys e) {names : List Str} {strict safe : Bool} {j : JVal F} {ids atts : List Str}
    (h : Editor.eraseAnims (.list names) strict safe e = (.ok (j, ids, atts), e')) :
    if safe then (eraseAnims (.list names) strict safe e).2 = [] else
    ∃ l, (eraseAnims (.list names) strict safe e).2 = .slots ids :: .atts l :: lostLine e e' ∧ l.Nodup ∧ (∀ k, k ∈ l ↔ Has e k ∧ ¬ Has e' k) ∧
      ids.Nodup ∧ ∀ n, n ∈ ids ↔ n ∈ e.data.slots.map (·.name) ∧ n ∉ e'.data.slots.map (·.name) := by
  rw [← eraseAnims_fst] at h
  revert h
  simp only [eraseAnims]
  split
  · intro h; cases congrArg (·.1) h
  · rw [eraseRaw_fst]
    cases safe with
    | true => simp [cleanUnless]
    | false =>
      simp only [cleanUnless, Bool.false_eq_true, if_false]
      generalize he1 : e.withData { e.data with animations := e.data.animations.filter (fun p => decide (p.1 ∉ names)) } = e1
      have hs1 : Sync e1 := he1 ▸ sync_filterAnims hr.sync _
      have hroot : Rooted e1.graph := he1 ▸ hr.rooted
      have hk1 : PlainKeys e1 := he1 ▸ hk
      split
      · intro h; cases congrArg (·.1) h
      · rename_i r e2 l hc
        intro h
        simp only [Prod.mk.injEq, Except.ok.injEq] at h
        obtain ⟨⟨_, rfl⟩, rfl⟩ := h
        have hcl : Editor.clean e1 = (.ok (ids, atts), e2) := by rw [← clean_fst, hc]
        obtain ⟨l', h1, h2⟩ := clean_told hs1 hroot hk1 hcl
        rw [hc] at h1
        refine ⟨l', ?_, ?_⟩
        · rw [← he1] at h1; exact h1
        · rw [← he1] at h2; exact h2

/-- C92: `erase_skins` in safe mode prints the images that are gone; otherwise it also prints the slots and attachments that
the cleaning removed: those that are there after the call in safe mode and not after the call. -/
theorem c92_erase_skins_partial (hr : Ran e) (hk : PlainKeys e) {names : List Str} {ids atts : List Str} {gone : List (Option Str)}
    {safe : Bool} (h : Editor.eraseSkins names safe e = (.ok ((ids, atts), gone), e')) :
    if safe then (eraseSkins names safe e).2 = lostLine e e' else
    ∃ l r e1, (∃ x, Editor.eraseSkins names true e = (.ok x, e1)) ∧ (eraseSkins names safe e).2 = .slots ids :: .atts l :: r ∧
      (∀ y ∈ r, ∃ m, y = .images m ∧ m ≠ []) ∧ l.Nodup ∧ (∀ k, k ∈ l ↔ Has e1 k ∧ ¬ Has e' k) ∧
      ids.Nodup ∧ ∀ n, n ∈ ids ↔ n ∈ e1.data.slots.map (·.name) ∧ n ∉ e'.data.slots.map (·.name) := by
  have hlost : ∀ a b : Editor F, ∀ y ∈ lostLine a b, ∃ m, y = .images m ∧ m ≠ [] := by
    intro a b y hy
    unfold lostLine at hy
    split at hy
    · cases hy
    · rename_i hne
      simp only [List.mem_singleton] at hy
      exact ⟨_, hy, hne⟩
  obtain ⟨imgs, regions, a, g, e2, h1, h2, h3, h4, rfl⟩ := eraseSkins_ok h
  have hs1 : Sync { e.withData a with graph := g } := sync_removeSkins hr.sync h1 h2
  have hroot : Rooted ({ e.withData a with graph := g } : Editor F).graph := rooted_create h2
  have hk1 : PlainKeys ({ e.withData a with graph := g } : Editor F) := by
    intro slot k x hx
    obtain ⟨y, hy, _⟩ := (removeSkins_kept e.doc.version.is38 h1).att slot k x hx
    exact hk slot k y hy
  have hsafe : ∀ s, eraseSkins names s e = match cleanUnless s { e.withData a with graph := g } with
      | ((.error x, e), l) => ((.error x, e), l)
      | ((.ok r, e), l) => let q := cleanImages gone e; ((.ok (r, gone), q.1), l ++ q.2) := by
    intro s
    unfold eraseSkins
    simp only [h1, h2, h3]
    rfl
  cases safe with
  | true =>
    rw [hsafe]
    simp only [cleanUnless, if_true, List.nil_append, cleanImages_snd]
    simp only [Editor.cleanUnless, if_true, Prod.mk.injEq] at h4
    rw [← h4.2]
    exact lost_congr (e0 := e) rfl
  | false =>
    simp only [Bool.false_eq_true, if_false]
    have hcl : Editor.clean { e.withData a with graph := g } = (.ok (ids, atts), e2) := by
      simpa [Editor.cleanUnless] using h4
    obtain ⟨l, c1, c2, c3, c4⟩ := clean_told hs1 hroot hk1 hcl
    have hfull : clean { e.withData a with graph := g } = ((.ok (ids, atts), e2), .slots ids :: .atts l :: lostLine { e.withData a with graph := g } e2) := by
      rw [← hcl, ← c1, ← clean_fst]
    refine ⟨l, lostLine { e.withData a with graph := g } e2 ++ (cleanImages gone e2).2, (Editor.eraseSkins names true e).2, ?_, ?_, ?_, c2, ?_, c4.1, ?_⟩
    · rw [← eraseSkins_fst, hsafe]; exact ⟨_, rfl⟩
    · rw [hsafe]
      simp only [cleanUnless, Bool.false_eq_true, if_false, hfull]
      rfl
    · intro y hy
      rw [cleanImages_snd] at hy
      rcases List.mem_append.1 hy with hy | hy
      · exact hlost _ _ y hy
      · exact hlost _ _ y hy
    · rw [← eraseSkins_fst, hsafe]; exact c3
    · rw [← eraseSkins_fst, hsafe]; exact c4.2

theorem clean_failed (hs : Sync e) {x : Err} (h : (Editor.clean e).1 = .error x) : (clean e).2 = [] := by
  have hf : (clean e).1.1 = .error x := by rw [clean_fst]; exact h
  revert hf
  unfold clean
  simp only
  split
  · intro _; rfl
  · rename_i slots atts hu
    obtain ⟨ids, L, g0, g1, hg, hr⟩ := cleanGraph_total hs hu
    obtain ⟨e1, hb, hg1, _⟩ := readBack_total hs hr
    simp only [hg, hb]
    split
    · intro _; rfl
    · rename_i a _
      obtain ⟨imgs, g2, hd⟩ := detach_total (F := F) (g := e1.graph) (b := e.doc.version.is38) (by rw [hg1]; exact hr.core1 hs)
      rw [← detach_fst (setList F atts)] at hd
      generalize hq : detach (setList F atts) e1.graph = q at hd
      have hq' : detach (setList F atts) (e1.withData (removeAttachments atts a)).graph = q := hq
      obtain ⟨q1, q2⟩ := q
      simp only at hd
      subst hd
      simp only [hq']
      intro hx; cases hx

/-- C92: a call that fails prints nothing. -/
theorem c92_failed_partial (hr : Ran e) (o : Op F) {x : Err} (h : (o.run e).1 = .error x) : (run o e).2 = [] := by
  have hmap : ∀ {α : Type} {q : Except Err α}, q.map (fun _ => ()) = .error x → q = .error x := by
    intro α q hq; cases q with
    | error y => simpa [Except.map] using hq
    | ok v => cases hq
  cases o with
  | clean => exact clean_failed hr.sync (hmap h)
  | scale a b => rfl
  | eraseAnims arg t s =>
    have h := hmap (show (Editor.eraseAnims arg t s e).1.map (fun _ => ()) = _ from h)
    rw [← eraseAnims_fst] at h
    revert h
    simp only [run, eraseAnims]
    split
    · intro _; rfl
    · rename_i names
      split
      · intro _; rfl
      · rw [eraseRaw_fst]
        have hs1 := sync_filterAnims hr.sync (fun p => decide (p.1 ∉ names))
        split
        · rename_i y e2 l hc
          intro _
          cases s with
          | true => simp [cleanUnless] at hc
          | false =>
            simp only [cleanUnless, Bool.false_eq_true, if_false] at hc
            have := clean_failed hs1 (x := y) (by rw [← clean_fst, hc])
            rw [hc] at this; exact this
        · intro hx; cases hx
  | eraseSkins n s =>
    have h := hmap (show (Editor.eraseSkins n s e).1.map (fun _ => ()) = _ from h)
    rw [← eraseSkins_fst] at h
    revert h
    simp only [run, eraseSkins]
    split
    · intro _; rfl
    · rename_i imgs regions a h1
      split
      · intro _; rfl
      · rename_i g h2
        have hs1 : Sync { e.withData a with graph := g } := sync_removeSkins hr.sync h1 h2
        split
        · rename_i y e2 l hc
          intro _
          cases s with
          | true => simp [cleanUnless] at hc
          | false =>
            simp only [cleanUnless, Bool.false_eq_true, if_false] at hc
            have := clean_failed hs1 (x := y) (by rw [← clean_fst, hc])
            rw [hc] at this; exact this
        · intro hx; cases hx

/-! ### The message of the ValueError -/

theorem eraseRaw_snoc (d : Dict (Anim F)) (n : Str) : ∀ l : List Str, (eraseRaw (l ++ [n]) d).2 =
    (eraseRaw l d).2 ++ (if n ∈ Dict.keys d ∧ n ∉ l then [] else [n]) := by
  intro l
  induction l generalizing d with
  | nil =>
    simp only [List.nil_append, eraseRaw, Dict.has_iff_mem_keys]
    split <;> simp_all
  | cons a l ih =>
    simp only [List.cons_append, eraseRaw]
    split
    · rw [ih]
      congr 2
      rw [Dict.keys_del, List.mem_filter]
      simp only [decide_eq_true_eq, List.mem_cons, not_or]
      apply propext
      constructor
      · rintro ⟨⟨h1, h2⟩, h3⟩; exact ⟨h1, h2, h3⟩
      · rintro ⟨h1, h2, h3⟩; exact ⟨⟨h1, h2⟩, h3⟩
    · rename_i ha
      rw [Dict.has_iff_mem_keys] at ha
      simp only [ih, List.cons_append]
      congr 3
      simp only [List.mem_cons, not_or]
      apply propext
      constructor
      · rintro ⟨h1, h3⟩; exact ⟨h1, fun h => ha (h ▸ h1), h3⟩
      · rintro ⟨h1, h2, h3⟩; exact ⟨h1, h3⟩

/-- C92: the ValueError of strict `erase_animations` names, in the order of the argument, the names that are not animations or
that occur earlier in the argument; it is raised if there are any, and the names can be read off the message. -/
theorem c92_message (e : Editor F) :
    notFound [] e = [] ∧
    (∀ l n, notFound (l ++ [n]) e = notFound l e ++ (if n ∈ Dict.keys e.data.animations ∧ n ∉ l then [] else [n])) ∧
    (∀ l safe, notFound l e ≠ [] → (Editor.eraseAnims (.list l) true safe e).1 = .error .value) ∧
    (∀ l safe, notFound l e = [] → Editor.eraseAnims (.list l) true safe e = Editor.eraseAnims (.list l) false safe e) ∧
    (∀ pr l m (e' : Editor F), notFoundText pr l e = notFoundText pr m e' → notFound l e = notFound m e') := by
  refine ⟨rfl, fun l n => eraseRaw_snoc _ n l, ?_, ?_, ?_⟩
  · intro l safe h
    unfold notFound at h
    simp only [Editor.eraseAnims]
    rw [if_pos ⟨h, trivial⟩]
  · intro l safe h
    unfold notFound at h
    simp only [Editor.eraseAnims, h]
    simp
  · intro pr l m e' h
    unfold notFoundText at h
    simp only [List.append_assoc] at h
    exact (Repr.list_cancel (List.append_cancel_left h)).1

/-! ### Concrete cases -/

section examples
open Sample JVal ComposeEx

def shown (l : List Line) : String := String.ofList (out (fun _ => true) l)

/-- the slot "s2" is invisible; its attachment "v" is also shown by an animation on "s1", which does not have it -/
def hidden (v : String) : J := Sample.doc [root] [slot "s1" "root" [("attachment", txt "a")],
    slot "s2" "root" [("attachment", txt "it's"), ("color", txt "ffffff00")]]
  [("default", obj [("s1", obj [("a", region "i"), ("m", region "q")]), ("s2", obj [("it's", mesh "l"), (v, mesh "z")])]),
   ("red", obj [("s1", obj [("a", region "m")])])]
  [("walk", obj []), ("b", obj [("slots", obj [("s1", shows v)])])]

/-- hypotheses of the theorems on Ran -/
example : ∃ e, Sample.load (hidden "v") = some e ∧ Ran e := ran_of (by decide +kernel)

example : (Sample.load (hidden "v")).map (fun e => shown (clean e).2) =
    some "Removed slots ['s2']\nRemoved attachments ['m', \"it's\", 'v']\nRemoved images: ['q', 'l', 'z']\n" := by decide +kernel

example : (Sample.load (hidden "v")).map (fun e => shown (eraseSkins (texts ["red"]) false e).2) =
    some "Removed slots ['s2']\nRemoved attachments ['m', \"it's\", 'v']\nRemoved images: ['q', 'l', 'z']\nRemoved images: ['m']\n" := by
  decide +kernel

example : (Sample.load (hidden "v")).map (fun e => shown (eraseSkins (texts ["red"]) true e).2) = some "Removed images: ['m']\n" := by
  decide +kernel

/-- a sequence of calls, the last of which fails -/
example : (Sample.load (hidden "v")).map (fun e => shown (log [.eraseSkins (texts ["red"]) true, .eraseAnims (names ["b"]) true false,
      .eraseAnims (names ["b"]) true false] e)) =
    some "Removed images: ['m']\nRemoved slots ['s2']\nRemoved attachments ['m', \"it's\", 'v']\nRemoved images: ['q', 'l', 'z']\n" := by
  decide +kernel

/-- the message: "b" is found only once -/
example : (Sample.load (hidden "v")).map (fun e => String.ofList (notFoundText (fun _ => true) (texts ["x", "b", "b", "walk"]) e)) =
    some "Animations with ids ['x', 'b'] could not be found inside the spine file" := by decide +kernel

/-- C92 needs PlainKeys: the attachment "v_ATTACHMENT_w" is gone, and the line names "v_w", which never existed. -/
theorem c92_counterexample : (Sample.load (hidden "v_ATTACHMENT_w")).map (fun e =>
    ((clean e).2, keysOf e, keysOf (clean e).1.2)) =
    some ([.slots [s!!"s2"], .atts [s!!"m", s!!"it's", s!!"v_w"], .images [s!!"q", s!!"l", s!!"z"]],
      [[("s1", ["a", "m"]), ("s2", ["it's", "v_ATTACHMENT_w"])], [("s1", ["a"])]], [[("s1", ["a"])], [("s1", ["a"])]]) := by
  decide +kernel

end examples
end Console
end Editor
end Spine
