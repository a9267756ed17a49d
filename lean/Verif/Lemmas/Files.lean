import Verif.Spec.Files
/-
The path functions and `os.makedirs` on plain paths.
-/
set_option linter.unusedSectionVars false
namespace Spine.Files
variable {fs : FS}

theorem mem_takeWhile {α : Type} {q : α → Bool} {l : List α} {a : α} (h : a ∈ l.takeWhile q) : q a = true := by
  induction l with
  | nil => simp at h
  | cons b l ih =>
    rw [List.takeWhile_cons] at h
    split at h
    · rcases List.mem_cons.1 h with rfl | h
      · assumption
      · exact ih h
    · simp at h

/-! ### Splitting -/

theorem splitOn_ne (c : Char) (x : Str) : splitOn c x ≠ [] := by
  cases x with
  | nil => simp [splitOn]
  | cons a r => simp only [splitOn]; split <;> (try split) <;> simp

theorem splitOn_mid (x y : Str) : splitOn '/' (x ++ '/' :: y) = splitOn '/' x ++ splitOn '/' y := by
  induction x with
  | nil => simp [splitOn]
  | cons a r ih =>
    simp only [List.cons_append, splitOn]
    split
    · rw [ih]; rfl
    · rw [ih]
      cases h : splitOn '/' r with
      | nil => exact absurd h (splitOn_ne _ _)
      | cons q qs => rfl

theorem splitOn_one {t : Str} (h : '/' ∉ t) : splitOn '/' t = [t] := by
  induction t with
  | nil => rfl
  | cons a r ih =>
    simp only [List.mem_cons, not_or] at h
    simp only [splitOn, ih h.2, if_neg (Ne.symm h.1)]

theorem names_mid (x y : Str) : names (x ++ '/' :: y) = names x ++ names y := by
  unfold names; rw [splitOn_mid, List.filter_append]

theorem names_nil : names [] = [] := by decide

theorem names_slashes (k : Nat) : names (List.replicate k '/') = [] := by
  induction k with
  | zero => exact names_nil
  | succ k ih =>
    have := names_mid [] (List.replicate k '/')
    simpa [List.replicate_succ, ih, names_nil] using this

theorem names_slashes_right (x : Str) (k : Nat) : names (x ++ List.replicate k '/') = names x := by
  cases k with
  | zero => simp
  | succ k => rw [List.replicate_succ, names_mid, names_slashes, List.append_nil]

theorem names_slashes_mid (x t : Str) (k : Nat) : names (x ++ List.replicate (k + 1) '/' ++ t) = names x ++ names t := by
  have e : x ++ List.replicate (k + 1) '/' ++ t = (x ++ List.replicate k '/') ++ '/' :: t := by
    rw [List.replicate_succ']; simp
  rw [e, names_mid, names_slashes_right]

/-- a trailing run of slashes -/
theorem rstrip_spec (p : Str) : ∃ k, p = rstripSlash p ++ List.replicate k '/' ∧ (rstripSlash p).getLast? ≠ some '/' := by
  unfold rstripSlash
  have h1 : p.reverse = p.reverse.takeWhile (· = '/') ++ p.reverse.dropWhile (· = '/') := (List.takeWhile_append_dropWhile ..).symm
  have h2 : p.reverse.takeWhile (· = '/') = List.replicate (p.reverse.takeWhile (· = '/')).length '/' := by
    refine List.eq_replicate_iff.2 ⟨rfl, fun b hb => ?_⟩
    have := mem_takeWhile hb
    simpa using this
  refine ⟨(p.reverse.takeWhile (· = '/')).length, ?_, ?_⟩
  · have := congrArg List.reverse h1
    rw [List.reverse_reverse, List.reverse_append] at this
    rw [h2, List.reverse_replicate] at this
    exact this
  · rw [List.getLast?_reverse]
    intro h
    have := List.head?_dropWhile_not (fun c => decide (c = '/')) p.reverse
    rw [h] at this
    simp at this

theorem upTo_tail (p : Str) : p = upToSlash p ++ tail p := by
  unfold upToSlash tail
  have h1 : p.reverse = p.reverse.takeWhile (· ≠ '/') ++ p.reverse.dropWhile (· ≠ '/') := (List.takeWhile_append_dropWhile ..).symm
  have := congrArg List.reverse h1
  rwa [List.reverse_reverse, List.reverse_append] at this

theorem tail_noslash (p : Str) : '/' ∉ tail p := by
  unfold tail
  intro h
  have := mem_takeWhile (List.mem_reverse.1 h)
  simp at this

theorem upTo_last (p : Str) : upToSlash p = [] ∨ ∃ y, upToSlash p = y ++ ['/'] := by
  unfold upToSlash
  cases h : p.reverse.dropWhile (· ≠ '/') with
  | nil => exact .inl rfl
  | cons a r =>
    right
    have := List.head?_dropWhile_not (fun c => decide (c ≠ '/')) p.reverse
    rw [h] at this
    simp at this
    exact ⟨r.reverse, by rw [this]; simp⟩

/-- the split is unique -/
theorem split_unique {x t : Str} (hx : x = [] ∨ ∃ y, x = y ++ ['/']) (ht : '/' ∉ t) : upToSlash (x ++ t) = x ∧ tail (x ++ t) = t := by
  have key : (x ++ t).reverse.takeWhile (· ≠ '/') = t.reverse ∧ (x ++ t).reverse.dropWhile (· ≠ '/') = x.reverse := by
    have hall : ∀ c ∈ t.reverse, (decide (c ≠ '/')) = true := by
      intro c hc; simp only [ne_eq, decide_eq_true_eq]; rintro rfl; exact ht (List.mem_reverse.1 hc)
    rw [List.reverse_append, List.takeWhile_append_of_pos hall, List.dropWhile_append_of_pos hall]
    rcases hx with rfl | ⟨y, rfl⟩
    · simp
    · simp
  unfold upToSlash tail
  rw [key.1, key.2]; simp

theorem all_slash {x : Str} (h : x.all (· = '/') = true) : x = List.replicate x.length '/' := by
  refine List.eq_replicate_iff.2 ⟨rfl, fun b hb => ?_⟩
  simpa using (List.all_eq_true.1 h) b hb

theorem names_dirname (p : Str) : names (dirname p) = names (upToSlash p) := by
  unfold dirname
  split
  · rfl
  · obtain ⟨k, hk, _⟩ := rstrip_spec (upToSlash p)
    conv => rhs; rw [hk]
    rw [names_slashes_right]

theorem names_upTo (p : Str) : names p = names (upToSlash p) ++ names (tail p) := by
  rcases upTo_last p with h | ⟨y, h⟩
  · have := upTo_tail p
    rw [h, List.nil_append] at this
    rw [h, names_nil, List.nil_append, ← this]
  · have := upTo_tail p
    conv => lhs; rw [this, h]
    rw [h]
    have e1 : names (y ++ ['/'] ++ tail p) = names y ++ names (tail p) := by
      have := names_mid y (tail p); simpa using this
    have e2 : names (y ++ ['/']) = names y := by
      have := names_mid y []; simpa [names_nil] using this
    rw [e1, e2]

theorem dirname_nil {p : Str} : dirname p = [] ↔ '/' ∉ p := by
  have hp := upTo_tail p
  constructor
  · intro h
    have : upToSlash p = [] := by
      rcases upTo_last p with h' | ⟨y, h'⟩
      · exact h'
      · unfold dirname at h
        split at h
        · exact h
        · rename_i hn
          obtain ⟨k, hk, _⟩ := rstrip_spec (upToSlash p)
          rw [h, List.nil_append] at hk
          rw [hk] at hn
          exact absurd (List.all_eq_true.2 (fun c hc => by simp [(List.mem_replicate.1 hc).2])) hn
    rw [this, List.nil_append] at hp
    rw [hp]; exact tail_noslash p
  · intro h
    have : upToSlash p = [] := by
      rcases upTo_last p with h' | ⟨y, h'⟩
      · exact h'
      · exact absurd (by rw [hp, h']; simp) h
    unfold dirname; rw [this]; rfl

theorem head_append {x y : Str} (h : x ≠ []) : (x ++ y).head? = x.head? := by
  cases x with
  | nil => exact absurd rfl h
  | cons a r => rfl

theorem start_dirname {p : Str} (h : dirname p ≠ []) : fs.start (dirname p) = fs.start p := by
  have h1 : (dirname p).head? = p.head? := by
    have hp := upTo_tail p
    have hd : ∃ z, upToSlash p = dirname p ++ z := by
      unfold dirname; split
      · exact ⟨[], by simp⟩
      · obtain ⟨k, hk, _⟩ := rstrip_spec (upToSlash p); exact ⟨_, hk⟩
    obtain ⟨z, hz⟩ := hd
    rw [hz, List.append_assoc] at hp
    conv => rhs; rw [hp]
    rw [head_append h]
  unfold FS.start; rw [h1]

theorem start_nil : fs.start [] = fs.cwd := by simp [FS.start]

theorem start_noslash {t : Str} (h : '/' ∉ t) : fs.start t = fs.cwd := by
  unfold FS.start
  split
  · rename_i hh
    cases t with
    | nil => simp at hh
    | cons a r => simp at hh; subst hh; simp at h
  · rfl

theorem names_one {t : Str} (h : '/' ∉ t) : names t = if t = [] ∨ t = s!!"." then [] else [t] := by
  unfold names
  rw [splitOn_one h]
  by_cases h1 : t = []
  · subst h1; decide
  · by_cases h2 : t = s!!"."
    · subst h2; decide
    · rw [if_neg (by simp only [not_or]; exact ⟨h1, h2⟩)]
      simp [h1, h2]

/-! ### Walking -/

theorem step_plain {cur : List Str} {c : Str} (h : c ≠ s!!"..") :
    step cur c = if c = [] ∨ c = s!!"." then cur else c :: cur := by
  unfold step
  by_cases h1 : c = [] ∨ c = s!!"."
  · rw [if_pos h1, if_pos h1]
  · rw [if_neg h1, if_neg h1, if_neg h]

/-- the place the components of a plain path lead to -/
theorem lex_plain (cs : List Str) (h : s!!".." ∉ cs.filter (fun c => c ≠ [] ∧ c ≠ s!!".")) (cur : List Str) :
    cs.foldl step cur = (cs.filter (fun c => c ≠ [] ∧ c ≠ s!!".")).reverse ++ cur := by
  induction cs generalizing cur with
  | nil => rfl
  | cons c cs ih =>
    by_cases hc : c = [] ∨ c = s!!"."
    · have e : step cur c = cur := by unfold step; rw [if_pos hc]
      have hf : (decide (c ≠ [] ∧ c ≠ s!!".")) = false := by
        rcases hc with hc | hc <;> simp [hc]
      rw [List.filter_cons_of_neg (p := fun c => decide (c ≠ [] ∧ c ≠ s!!".")) (by rw [hf]; simp)] at h ⊢
      rw [List.foldl_cons, e, ih h]
    · simp only [not_or] at hc
      have hf : (decide (c ≠ [] ∧ c ≠ s!!".")) = true := by simp [hc.1, hc.2]
      rw [List.filter_cons_of_pos (p := fun c => decide (c ≠ [] ∧ c ≠ s!!".")) hf] at h ⊢
      simp only [List.mem_cons, not_or] at h
      have e : step cur c = c :: cur := by
        rw [step_plain (Ne.symm h.1), if_neg (by simp only [not_or]; exact hc)]
      rw [List.foldl_cons, e, ih h.2]
      simp

theorem walk_lex {cs : List Str} {cur a : List Str} (h : fs.walk cur cs = some a) : a = cs.foldl step cur := by
  induction cs generalizing cur with
  | nil => simp only [FS.walk, Option.some.injEq] at h; exact h.symm
  | cons c cs ih =>
    simp only [FS.walk] at h
    split at h
    · exact ih h
    · simp at h

theorem isDir_iff {n : Option Node} : Node.isDir n = true ↔ n = some .dir := by
  unfold Node.isDir; split <;> simp_all

theorem WF.suffix (w : WF fs) {a b : List Str} (h : b <:+ a) (ha : fs.node a ≠ none) (hne : b ≠ a) : fs.node b = some .dir := by
  induction a with
  | nil => exact absurd (List.suffix_nil.1 h) hne
  | cons n a ih =>
    have hu := w.up n a ha
    rcases List.suffix_cons_iff.1 h with h | h
    · exact absurd h hne
    · by_cases hb : b = a
      · rw [hb]; exact hu
      · exact ih h (by rw [hu]; simp) hb

theorem WF.suffix' (w : WF fs) {a b : List Str} (h : b <:+ a) (ha : fs.node a = some .dir) : fs.node b = some .dir := by
  by_cases hb : b = a
  · rw [hb]; exact ha
  · exact w.suffix h (by rw [ha]; simp) hb

theorem walk_dir (w : WF fs) {cs : List Str} (h : s!!".." ∉ cs.filter (fun c => c ≠ [] ∧ c ≠ s!!".")) {cur : List Str}
    (hd : fs.node (cs.foldl step cur) = some .dir) : fs.walk cur cs = some (cs.foldl step cur) := by
  induction cs generalizing cur with
  | nil => rfl
  | cons c cs ih =>
    have hcur : fs.node cur = some .dir := by
      refine w.suffix' ?_ hd
      rw [lex_plain _ h]; exact List.suffix_append _ _
    simp only [FS.walk, List.foldl_cons]
    rw [if_pos (isDir_iff.2 hcur)]
    refine ih (fun hm => h ?_) hd
    rw [List.filter_cons]; split
    · exact List.mem_cons_of_mem _ hm
    · exact hm

theorem walk_append (cs : List Str) (cur : List Str) (t : Str) : fs.walk cur (cs ++ [t]) =
    (fs.walk cur cs).bind (fun b => if Node.isDir (fs.node b) then some (step b t) else none) := by
  induction cs generalizing cur with
  | nil => simp [FS.walk]
  | cons c cs ih =>
    simp only [List.cons_append, FS.walk]
    split
    · exact ih _
    · rfl

theorem resolve_place (hp : Plain p) {a : List Str} (h : fs.resolve p = some a) : a = place fs p := by
  unfold FS.resolve at h
  split at h
  · simp at h
  · rw [walk_lex h, lex_plain _ hp]; rfl

theorem resolve_dir (w : WF fs) (hp : Plain p) (hne : p ≠ []) (h : fs.node (place fs p) = some .dir) :
    fs.resolve p = some (place fs p) := by
  unfold FS.resolve
  rw [if_neg hne]
  have e : (splitOn '/' p).foldl step (fs.start p) = place fs p := lex_plain _ hp _
  rw [← e] at h ⊢
  exact walk_dir w hp h

theorem isdir_iff (w : WF fs) (hp : Plain p) (hne : p ≠ []) : fs.isdir p = true ↔ fs.node (place fs p) = some .dir := by
  unfold FS.isdir
  constructor
  · intro h
    split at h
    · rename_i a ha
      rw [← resolve_place hp ha]; exact isDir_iff.1 h
    · simp at h
  · intro h
    rw [resolve_dir w hp hne h]
    exact isDir_iff.2 h

/-! ### The parent of a path -/

theorem plain_dirname {p : Str} (h : Plain p) : Plain (dirname p) := by
  unfold Plain at h ⊢
  rw [names_dirname]
  intro hm
  rw [names_upTo] at h
  exact h (List.mem_append_left _ hm)

theorem plain_tail {p : Str} (h : Plain p) : tail p ≠ s!!".." := by
  intro e
  unfold Plain at h
  rw [names_upTo, e] at h
  exact h (List.mem_append_right _ (by decide))

theorem place_nil : place fs [] = fs.cwd := by unfold place; rw [names_nil, start_nil]; rfl

theorem place_split {p : Str} (h : Plain p) : place fs p = step (place fs (dirname p)) (tail p) := by
  have hs : fs.start (dirname p) = fs.start p := by
    by_cases hd : dirname p = []
    · rw [hd, start_nil, start_noslash (dirname_nil.1 hd)]
    · exact start_dirname hd
  unfold place
  rw [hs, names_dirname, names_upTo, names_one (tail_noslash p), step_plain (plain_tail h)]
  split <;> simp

/-- opening: everything above is a directory -/
theorem resolve_new (hp : Plain p) (ht : tail p ≠ []) (w : WF fs) (h : fs.node (place fs (dirname p)) = some .dir) :
    fs.resolve p = some (place fs p) := by
  have hne : p ≠ [] := by rintro rfl; exact ht rfl
  unfold FS.resolve
  rw [if_neg hne]
  have hu := upTo_tail p
  rcases upTo_last p with hl | ⟨y, hl⟩
  · rw [hl, List.nil_append] at hu
    have hns : '/' ∉ p := by rw [hu]; exact tail_noslash p
    have hd0 : dirname p = [] := dirname_nil.2 hns
    rw [splitOn_one hns]
    simp only [FS.walk]
    rw [start_noslash hns, if_pos (isDir_iff.2 w.cwd), place_split hp, hd0, place_nil, ← hu]
  · have e : splitOn '/' p = splitOn '/' y ++ [tail p] := by
      conv => lhs; rw [hu, hl]
      have := splitOn_mid y (tail p)
      rw [splitOn_one (tail_noslash p)] at this
      simpa using this
    have hy : Plain y := by
      unfold Plain at hp ⊢
      rw [names_upTo, hl] at hp
      have e2 : names (y ++ ['/']) = names y := by
        have := names_mid y []; simpa [names_nil] using this
      rw [e2] at hp
      exact fun hm => hp (List.mem_append_left _ hm)
    have hs : fs.start (dirname p) = fs.start p := by
      refine start_dirname ?_
      intro h0
      have := dirname_nil.1 h0
      rw [hu, hl] at this
      simp at this
    have e3 : (splitOn '/' y).foldl step (fs.start p) = place fs (dirname p) := by
      rw [lex_plain _ hy]
      unfold place
      rw [hs, names_dirname, hl]
      have e2 : names (y ++ ['/']) = names y := by
        have := names_mid y []; simpa [names_nil] using this
      rw [e2]; rfl
    rw [e, walk_append, walk_dir w hy (by rw [e3]; exact h), e3]
    simp only [Option.bind_some]
    rw [if_pos (isDir_iff.2 h), place_split hp]

/-! ### Making directories -/

theorem not_file {n : Option Node} (h : ¬ IsFile n) : n = none ∨ n = some .dir := by
  cases n with
  | none => exact .inl rfl
  | some n => cases n with
    | dir => exact .inr rfl
    | file v => exact absurd trivial h

theorem NoFile.up {n : Str} {a : List Str} (h : NoFile fs (n :: a)) : NoFile fs a :=
  fun b hb => h b (hb.trans (List.suffix_cons _ _))

theorem grown_none {a b : List Str} (h : fs.node b = none) :
    (grown fs a).node b = if b <:+ a then some .dir else none := by
  show (match fs.node b with | some n => some n | none => if b <:+ a then some .dir else none) = _
  rw [h]

theorem grown_some {a b : List Str} {n : Node} (h : fs.node b = some n) : (grown fs a).node b = some n := by
  show (match fs.node b with | some n => some n | none => if b <:+ a then some .dir else none) = _
  rw [h]

theorem grown_dir {a b : List Str} (h : NoFile fs a) (hb : b <:+ a) : (grown fs a).node b = some .dir := by
  rcases not_file (h b hb) with h0 | h0
  · rw [grown_none h0, if_pos hb]
  · exact grown_some h0

theorem grown_wf (w : WF fs) {a : List Str} (h : NoFile fs a) : WF (grown fs a) := by
  refine ⟨grown_some w.root, grown_some w.cwd, fun n b hb => ?_⟩
  cases e : fs.node (n :: b) with
  | some x => exact grown_some (w.up n b (by rw [e]; simp))
  | none =>
    rw [grown_none e] at hb
    by_cases hs : (n :: b) <:+ a
    · exact grown_dir h ((List.suffix_cons _ _).trans hs)
    · rw [if_neg hs] at hb; exact absurd rfl hb

theorem FS.ext {a b : FS} (h1 : ∀ x, a.node x = b.node x) (h2 : a.cwd = b.cwd) : a = b := by
  obtain ⟨n, c⟩ := a
  obtain ⟨n', c'⟩ := b
  simp only [FS.mk.injEq]
  exact ⟨funext h1, h2⟩

theorem rstrip_ne {p : Str} (h : p.all (· = '/') = false) : rstripSlash p ≠ [] := by
  intro e
  obtain ⟨k, hk, _⟩ := rstrip_spec p
  rw [e, List.nil_append] at hk
  rw [hk] at h
  rw [List.all_eq_true.2 (fun c hc => by simp [(List.mem_replicate.1 hc).2])] at h
  exact absurd h (by simp)

theorem tail_ne {q : Str} (hq : q ≠ []) (h : q.getLast? ≠ some '/') : tail q ≠ [] := by
  intro e
  have hu := upTo_tail q
  rw [e, List.append_nil] at hu
  rcases upTo_last q with hl | ⟨y, hl⟩
  · exact hq (hu.trans hl)
  · rw [hu, hl] at h; simp at h

theorem split2_rstrip {p : Str} (h : p.all (· = '/') = false) :
    FS.split2 p = (dirname (rstripSlash p), tail (rstripSlash p)) ∧ tail (rstripSlash p) ≠ [] := by
  obtain ⟨k, hk, hl⟩ := rstrip_spec p
  have hne := rstrip_ne h
  have ht := tail_ne hne hl
  refine ⟨?_, ht⟩
  cases k with
  | zero =>
    simp only [List.replicate_zero, List.append_nil] at hk
    rw [← hk] at ht ⊢
    unfold FS.split2; rw [if_neg ht]
  | succ k =>
    have hu := split_unique (x := p) (t := []) (.inr ⟨rstripSlash p ++ List.replicate k '/', by
      conv => lhs; rw [hk]
      rw [List.replicate_succ']; simp⟩) (by simp)
    rw [List.append_nil] at hu
    have hd : dirname p = rstripSlash p := by
      unfold dirname; rw [hu.1, h]; rfl
    unfold FS.split2
    rw [if_pos hu.2, hd]

theorem dirname_length {q : Str} : (dirname q).length ≤ (upToSlash q).length := by
  unfold dirname; split
  · exact Nat.le_refl _
  · obtain ⟨k, hk, _⟩ := rstrip_spec (upToSlash q)
    conv => rhs; rw [hk]
    simp

theorem dirname_lt {q : Str} (h : tail q ≠ []) : (dirname q).length < q.length := by
  have := upTo_tail q
  have h2 := congrArg List.length this
  rw [List.length_append] at h2
  have h3 := List.length_pos_iff.2 h
  have := @dirname_length q
  omega

theorem mkdir_new (w : WF fs) {p : Str} (hs : p.all (· = '/') = false) (hp : Plain (rstripSlash p))
    (hd : fs.node (place fs (dirname (rstripSlash p))) = some .dir) (hn : fs.node (place fs (rstripSlash p)) = none) :
    fs.mkdir p = (.ok (), fs.put (place fs (rstripSlash p)) .dir) := by
  unfold FS.mkdir
  rw [hs]
  simp only [Bool.false_eq_true, if_false]
  rw [resolve_new hp (split2_rstrip hs).2 w hd]
  simp only [hn]

theorem names_rstrip (p : Str) : names (rstripSlash p) = names p := by
  obtain ⟨k, hk, _⟩ := rstrip_spec p
  conv => rhs; rw [hk]
  rw [names_slashes_right]

theorem place_rstrip {p : Str} (h : p.all (· = '/') = false) : place fs (rstripSlash p) = place fs p := by
  unfold place
  rw [names_rstrip]
  have : (rstripSlash p).head? = p.head? := by
    obtain ⟨k, hk, _⟩ := rstrip_spec p
    conv => rhs; rw [hk]
    rw [head_append (rstrip_ne h)]
  unfold FS.start; rw [this]

theorem exist_false (hp : Plain p) (h : fs.node (place fs p) = none) : fs.exist p = false := by
  unfold FS.exist
  split
  · rename_i a ha; rw [resolve_place hp ha, h]; rfl
  · rfl

theorem exist_true (w : WF fs) (hp : Plain p) (hne : p ≠ []) (h : fs.node (place fs p) = some .dir) : fs.exist p = true := by
  unfold FS.exist
  rw [resolve_dir w hp hne h]
  simp only
  rw [h]; rfl

theorem not_suffix_self {t : Str} {a : List Str} : ¬ (t :: a) <:+ a := by
  intro h
  have := h.length_le
  rw [List.length_cons] at this
  omega

theorem makedirs_plain (n : Nat) : ∀ (p : Str), p.length < n → Plain p → p ≠ [] → WF fs → NoFile fs (place fs p) →
    fs.node (place fs p) = none → fs.makedirsN n p = (.ok (), grown fs (place fs p)) := by
  induction n with
  | zero => intro p h; exact absurd h (Nat.not_lt_zero _)
  | succ n ih =>
    intro p hlen hp hne w hf hn
    have hs : p.all (· = '/') = false := by
      by_cases hs : p.all (· = '/') = true
      · exfalso
        have e : place fs p = [] := by
          unfold place
          have e := all_slash hs
          rw [e, names_slashes]
          cases p with
          | nil => exact absurd rfl hne
          | cons c r =>
            rw [List.length_cons, List.replicate_succ]; rfl
        rw [e, w.root] at hn; simp at hn
      · simpa using hs
    obtain ⟨h2, ht⟩ := split2_rstrip hs
    have hq : Plain (rstripSlash p) := by unfold Plain; rw [names_rstrip]; exact hp
    have hpl := place_rstrip (fs := fs) hs
    have hsp := place_split (fs := fs) hq
    have htd := plain_tail hq
    have hdp := plain_dirname hq
    have hlt : (dirname (rstripSlash p)).length < n := by
      have := dirname_lt ht
      obtain ⟨k, hk, _⟩ := rstrip_spec p
      have h3 := congrArg List.length hk
      rw [List.length_append] at h3
      omega
    rw [step_plain htd] at hsp
    unfold FS.makedirsN
    simp only [h2]
    rw [← hpl] at hf hn ⊢
    generalize hd : dirname (rstripSlash p) = d at *
    generalize htt : tail (rstripSlash p) = t at *
    by_cases h1 : t = s!!"."
    · rw [if_pos (Or.inr h1)] at hsp
      have hd0 : d ≠ [] := by
        rintro rfl
        rw [hsp, place_nil, w.cwd] at hn; simp at hn
      rw [hsp] at hf hn ⊢
      rw [if_pos ⟨hd0, ht, exist_false hdp hn⟩, ih d hlt hdp hd0 w hf hn]
      simp only [h1, if_true]
    · rw [if_neg (by simp only [not_or]; exact ⟨ht, h1⟩)] at hsp
      have hnd : fs.node (place fs d) = some .dir → fs.put (place fs (rstripSlash p)) .dir = grown fs (place fs (rstripSlash p)) := by
        intro hdd
        refine FS.ext (fun b => ?_) rfl
        show (if b = place fs (rstripSlash p) then some .dir else fs.node b) = _
        by_cases hb : b = place fs (rstripSlash p)
        · rw [if_pos hb, hb, grown_none hn, if_pos (List.suffix_refl _)]
        · rw [if_neg hb]
          cases e : fs.node b with
          | some x => exact (grown_some e).symm
          | none =>
            rw [grown_none e]
            split
            · rename_i hsuf
              rw [hsp] at hsuf hb
              rcases List.suffix_cons_iff.1 hsuf with h | h
              · exact absurd h hb
              · rw [w.suffix' h hdd] at e; simp at e
            · rfl
      by_cases hc : d ≠ [] ∧ t ≠ [] ∧ fs.exist d = false
      · rw [if_pos hc]
        have hfd : NoFile fs (place fs d) := by rw [hsp] at hf; exact hf.up
        have hdn : fs.node (place fs d) = none := by
          rcases not_file (hfd _ (List.suffix_refl _)) with h | h
          · exact h
          · rw [exist_true w hdp hc.1 h] at hc; exact absurd hc.2.2 (by simp)
        rw [ih d hlt hdp hc.1 w hfd hdn]
        simp only [h1, if_false]
        have hpg : ∀ x, place (grown fs (place fs d)) x = place fs x := fun _ => rfl
        rw [mkdir_new (grown_wf w hfd) hs hq (by rw [hd, hpg]; exact grown_dir hfd (List.suffix_refl _)) (by
          rw [hpg, grown_none hn, hsp, if_neg not_suffix_self])]
        rw [hpg]
        congr 1
        refine FS.ext (fun b => ?_) rfl
        show (if b = place fs (rstripSlash p) then some .dir else (grown fs (place fs d)).node b) = _
        by_cases hb : b = place fs (rstripSlash p)
        · rw [if_pos hb, hb, grown_none hn, if_pos (List.suffix_refl _)]
        · rw [if_neg hb]
          cases e : fs.node b with
          | some x => rw [grown_some e, grown_some e]
          | none =>
            rw [grown_none e, grown_none e]
            rw [hsp] at hb ⊢
            have : b <:+ (t :: place fs d) ↔ b <:+ place fs d := by
              rw [List.suffix_cons_iff]; exact ⟨fun h => h.resolve_left hb, .inr⟩
            by_cases h : b <:+ place fs d
            · rw [if_pos h, if_pos (this.2 h)]
            · rw [if_neg h, if_neg (fun h' => h (this.1 h'))]
      · rw [if_neg hc]
        have hdd : fs.node (place fs d) = some .dir := by
          by_cases hd0 : d = []
          · rw [hd0, place_nil]; exact w.cwd
          · have he : fs.exist d = true := by
              cases e : fs.exist d with
              | true => rfl
              | false => exact absurd ⟨hd0, ht, e⟩ hc
            have hfd : NoFile fs (place fs d) := by rw [hsp] at hf; exact hf.up
            rcases not_file (hfd _ (List.suffix_refl _)) with h | h
            · rw [exist_false hdp h] at he; simp at he
            · exact h
        rw [mkdir_new w hs hq (by rw [hd]; exact hdd) hn, hnd hdd]

/-! ### Writing -/

theorem grown_self (w : WF fs) {a : List Str} (h : fs.node a = some .dir) : grown fs a = fs := by
  refine FS.ext (fun b => ?_) rfl
  cases e : fs.node b with
  | some x => exact grown_some e
  | none =>
    rw [grown_none e]
    split
    · rename_i hs; rw [w.suffix' hs h] at e; simp at e
    · rfl

theorem walk_visited {cs : List Str} (hp : s!!".." ∉ cs.filter (fun c => c ≠ [] ∧ c ≠ s!!".")) {cur a : List Str}
    (h : fs.walk cur cs = some a) {b : List Str} (hb : b <:+ a) (hc : cur <:+ b) (hne : b ≠ a) : fs.node b = some .dir := by
  induction cs generalizing cur with
  | nil =>
    simp only [FS.walk, Option.some.injEq] at h
    subst h
    exact absurd (hb.eq_of_length_le hc.length_le) hne
  | cons c cs ih =>
    have hp' : s!!".." ∉ cs.filter (fun c => c ≠ [] ∧ c ≠ s!!".") := by
      intro hm; refine hp ?_
      rw [List.filter_cons]; split
      · exact List.mem_cons_of_mem _ hm
      · exact hm
    have hcd : c ≠ s!!".." := by
      rintro rfl; exact hp (by rw [List.filter_cons_of_pos (p := fun c => decide (c ≠ [] ∧ c ≠ s!!".")) (by decide)]; exact List.mem_cons_self ..)
    simp only [FS.walk] at h
    split at h
    · rename_i hd
      rw [step_plain hcd] at h
      split at h
      · exact ih hp' h hc
      · have hsa : (c :: cur) <:+ a := by
          rw [walk_lex h, lex_plain _ hp']; exact List.suffix_append _ _
        rcases List.suffix_or_suffix_of_suffix hsa hb with h1 | h1
        · exact ih hp' h h1
        · rcases List.suffix_cons_iff.1 h1 with h2 | h2
          · exact ih hp' h (by rw [h2]; exact List.suffix_refl _)
          · rw [h2.eq_of_length_le hc.length_le]; exact isDir_iff.1 hd
    · simp at h

/-- nothing that exists is changed -/
def Keeps (fs fs' : FS) : Prop := fs'.cwd = fs.cwd ∧ ∀ a n, fs.node a = some n → fs'.node a = some n

theorem mkdir_keeps (p : Str) : Keeps fs (fs.mkdir p).2 := by
  unfold FS.mkdir
  split
  · exact ⟨rfl, fun _ _ h => h⟩
  · rename_i a _
    split
    · exact ⟨rfl, fun _ _ h => h⟩
    · rename_i hn
      refine ⟨rfl, fun b n h => ?_⟩
      show (if b = a then some .dir else fs.node b) = _
      split
      · rename_i e; rw [e, hn] at h; simp at h
      · exact h

theorem makedirs_keeps (n : Nat) : ∀ p : Str, Keeps fs (fs.makedirsN n p).2 := by
  induction n with
  | zero => intro p; exact ⟨rfl, fun _ _ h => h⟩
  | succ n ih =>
    intro p
    unfold FS.makedirsN
    simp only
    split
    · have := ih (FS.split2 p).1
      generalize fs.makedirsN n (FS.split2 p).1 = r at this
      obtain ⟨r1, fs'⟩ := r
      split
      · rename_i e; injection e with e1 e2; subst e2; exact this
      · rename_i e; injection e with e1 e2; subst e2
        split
        · exact this
        · have h2 := mkdir_keeps (fs := fs') p
          exact ⟨h2.1.trans this.1, fun a n h => h2.2 a n (this.2 a n h)⟩
    · exact mkdir_keeps p

theorem place_keeps {fs' : FS} (h : fs'.cwd = fs.cwd) (p : Str) : place fs' p = place fs p := by
  unfold place FS.start; rw [h]

end Spine.Files
