import Verif.Model.Version
import Verif.Lemmas.Text
import Verif.Spec.Concrete
/- Properties C27-C29 and the version gates of C30, C31 (spine_version_type.py, base_type.py 69-72, 123-136). -/
namespace Spine.Version

/-! ## C27 -/

/-- declarative reading of the pattern `^\d+.\d+`: digits, one arbitrary character but a newline, a digit -/
def StartsLikeVersion (F : Type) [PyRt F] (v : Str) : Prop :=
  ∃ ds c d r, v = ds ++ c :: d :: r ∧ ds ≠ [] ∧ (∀ x ∈ ds, (PyRt.digitVal F x).isSome) ∧
    c ≠ '\n' ∧ (PyRt.digitVal F d).isSome

/-- what a version text means -/
inductive VersionText (F : Type) [PyRt F] : Str → Int → Int → Int → Prop
  | two {a b i j} : '.' ∉ a → '.' ∉ b → IntegerText F a i → IntegerText F b j →
      StartsLikeVersion F (a ++ '.' :: b) → VersionText F (a ++ '.' :: b) i j 0
  | three {a b c i j k} : '.' ∉ a → '.' ∉ b → '.' ∉ c → IntegerText F a i → IntegerText F b j → IntegerText F c k →
      StartsLikeVersion F (a ++ '.' :: (b ++ '.' :: c)) → VersionText F (a ++ '.' :: (b ++ '.' :: c)) i j k

section
variable {F : Type} [PyRt F]

theorem matchTail_iff (s : Str) : matchTail F s = true ↔
    ∃ ds c d r, s = ds ++ c :: d :: r ∧ (∀ x ∈ ds, (PyRt.digitVal F x).isSome) ∧
      c ≠ '\n' ∧ (PyRt.digitVal F d).isSome := by
  induction s with
  | nil => simp [matchTail]
  | cons c s ih =>
    cases s with
    | nil =>
      simp only [matchTail, Bool.false_eq_true, false_iff]
      rintro ⟨ds, c', d, r, h, _⟩
      have := congrArg List.length h
      simp at this; omega
    | cons d r =>
      simp only [matchTail, Bool.or_eq_true, Bool.and_eq_true, ih, isDigit, decide_eq_true_eq]
      constructor
      · rintro (⟨h1, h2⟩ | ⟨h1, ds, c', d', r', h2, h3, h4, h5⟩)
        · exact ⟨[], c, d, r, rfl, by simp, h1, h2⟩
        · refine ⟨c :: ds, c', d', r', by rw [h2]; rfl, ?_, h4, h5⟩
          intro x hx
          rcases List.mem_cons.1 hx with h | h
          · subst h; exact h1
          · exact h3 x h
      · rintro ⟨ds, c', d', r', h2, h3, h4, h5⟩
        cases ds with
        | nil =>
          simp only [List.nil_append, List.cons.injEq] at h2
          obtain ⟨rfl, rfl, rfl⟩ := h2
          exact .inl ⟨h4, h5⟩
        | cons x ds =>
          simp only [List.cons_append, List.cons.injEq] at h2
          obtain ⟨rfl, h2⟩ := h2
          exact .inr ⟨h3 _ (by simp), ds, c', d', r', h2, fun x hx => h3 x (by simp [hx]), h4, h5⟩

theorem regexMatch_iff (s : Str) : regexMatch F s = true ↔ StartsLikeVersion F s := by
  cases s with
  | nil =>
    simp only [regexMatch, Bool.false_eq_true, false_iff]
    rintro ⟨ds, c', d, r, h, _⟩
    have := congrArg List.length h
    simp at this
  | cons c s =>
    simp only [regexMatch, Bool.and_eq_true, matchTail_iff, isDigit]
    constructor
    · rintro ⟨h1, ds, c', d', r', h2, h3, h4, h5⟩
      refine ⟨c :: ds, c', d', r', by rw [h2]; rfl, by simp, ?_, h4, h5⟩
      intro x hx
      rcases List.mem_cons.1 hx with h | h
      · subst h; exact h1
      · exact h3 x h
    · rintro ⟨ds, c', d', r', h2, h0, h3, h4, h5⟩
      cases ds with
      | nil => exact absurd rfl h0
      | cons x ds =>
        simp only [List.cons_append, List.cons.injEq] at h2
        obtain ⟨rfl, h2⟩ := h2
        exact ⟨h3 _ (by simp), ds, c', d', r', h2, fun x hx => h3 x (by simp [hx]), h4, h5⟩

theorem intOrRaise_iff (s : Str) (i : Int) : intOrRaise F s = .ok i ↔ IntegerText F s i := by
  rw [← pyInt_iff]
  unfold intOrRaise
  cases pyInt F s <;> simp

theorem intOrRaise_err (s : Str) : (∃ i, intOrRaise F s = .ok i) ∨ intOrRaise F s = .error .value := by
  unfold intOrRaise
  cases pyInt F s <;> simp

/-- the constructor as one case distinction -/
theorem mk?_eq (v : Str) : mk? F v =
    if regexMatch F v = true then
      match splitOn '.' v with
      | [a, b] => do return { version := v, major := ← intOrRaise F a, minor := ← intOrRaise F b, patch := 0 }
      | [a, b, c] => do
        return { version := v, major := ← intOrRaise F a, minor := ← intOrRaise F b, patch := ← intOrRaise F c }
      | _ => .error .value
    else .error .value := by
  unfold mk? splitVersion validate
  by_cases h : regexMatch F v = true
  · simp only [h, and_true, if_true]
    match hs : splitOn '.' v with
    | [] => simp [bind, Except.bind]
    | [a] => simp [bind, Except.bind]
    | [a, b] =>
      simp only [List.length_cons, List.length_nil, true_or, if_true, Nat.reduceAdd, bind, Except.bind, pure, Except.pure]
      cases intOrRaise F a <;> cases intOrRaise F b <;> rfl
    | [a, b, c] =>
      simp only [List.length_cons, List.length_nil, or_true, if_true, Nat.reduceAdd, bind, Except.bind, pure, Except.pure]
      cases intOrRaise F a <;> cases intOrRaise F b <;> cases intOrRaise F c <;> rfl
    | a :: b :: c :: d :: t => simp [bind, Except.bind]
  · simp [h, bind, Except.bind]

end

variable (F : Type) [PyRt F]

/-- C27: a version string is accepted exactly when it is two or three dot-separated integers starting like a version,
and the components are those integers (patch 0 when absent). -/
theorem c27_accepts_exactly (v : Str) (w : Version) :
    mk? F v = .ok w ↔ w.version = v ∧ VersionText F v w.major w.minor w.patch := by
  rw [mk?_eq]
  constructor
  · intro h
    split at h
    · rename_i hr
      rw [regexMatch_iff] at hr
      have hsp := splitOn_spec '.' v
      split at h
      · rename_i a b hs
        rw [hs] at hsp
        cases ha : intOrRaise F a with
        | error e => rw [ha] at h; cases h
        | ok i =>
          cases hb : intOrRaise F b with
          | error e => rw [ha, hb] at h; cases h
          | ok j =>
            rw [ha, hb] at h
            injection h with h; subst h
            refine ⟨rfl, ?_⟩
            have e : v = a ++ '.' :: b := by simpa [List.intercalate] using hsp.2
            have hr' := hr
            rw [e] at hr'
            have := VersionText.two (hsp.1 a (by simp)) (hsp.1 b (by simp)) ((intOrRaise_iff _ _).1 ha)
              ((intOrRaise_iff _ _).1 hb) hr'
            rw [← e] at this
            exact this
      · rename_i a b c hs
        rw [hs] at hsp
        cases ha : intOrRaise F a with
        | error e => rw [ha] at h; cases h
        | ok i =>
          cases hb : intOrRaise F b with
          | error e => rw [ha, hb] at h; cases h
          | ok j =>
            cases hc : intOrRaise F c with
            | error e => rw [ha, hb, hc] at h; cases h
            | ok k =>
              rw [ha, hb, hc] at h
              injection h with h; subst h
              refine ⟨rfl, ?_⟩
              have e : v = a ++ '.' :: (b ++ '.' :: c) := by simpa [List.intercalate] using hsp.2
              have hr' := hr
              rw [e] at hr'
              have := VersionText.three (hsp.1 a (by simp)) (hsp.1 b (by simp)) (hsp.1 c (by simp))
                ((intOrRaise_iff _ _).1 ha) ((intOrRaise_iff _ _).1 hb) ((intOrRaise_iff _ _).1 hc) hr'
              rw [← e] at this
              exact this
      · cases h
    · cases h
  · rintro ⟨hv, h⟩
    obtain ⟨ver, maj, min, pat⟩ := w
    simp only at hv h
    subst hv
    cases h with
    | two ha hb hi hj hr =>
      rw [if_pos ((regexMatch_iff _).2 hr), splitOn_append ha, splitOn_no_sep hb]
      simp only [(intOrRaise_iff _ _).2 hi, (intOrRaise_iff _ _).2 hj]
      rfl
    | three ha hb hc hi hj hk hr =>
      rw [if_pos ((regexMatch_iff _).2 hr), splitOn_append ha, splitOn_append hb, splitOn_no_sep hc]
      simp only [(intOrRaise_iff _ _).2 hi, (intOrRaise_iff _ _).2 hj, (intOrRaise_iff _ _).2 hk]
      rfl

/-- C27: the only other outcome is `ValueError`. -/
theorem c27_else_value_error (v : Str) : (∃ w, mk? F v = .ok w) ∨ mk? F v = .error .value := by
  rw [mk?_eq]
  split
  · split
    · rename_i a b _
      rcases intOrRaise_err (F := F) a with ⟨i, h⟩ | h <;> rw [h]
      · rcases intOrRaise_err (F := F) b with ⟨j, h'⟩ | h' <;> rw [h']
        · exact .inl ⟨_, rfl⟩
        · exact .inr rfl
      · exact .inr rfl
    · rename_i a b c _
      rcases intOrRaise_err (F := F) a with ⟨i, h⟩ | h <;> rw [h]
      · rcases intOrRaise_err (F := F) b with ⟨j, h'⟩ | h' <;> rw [h']
        · rcases intOrRaise_err (F := F) c with ⟨k, h''⟩ | h'' <;> rw [h'']
          · exact .inl ⟨_, rfl⟩
          · exact .inr rfl
        · exact .inr rfl
      · exact .inr rfl
    · exact .inr rfl
  · exact .inr rfl

theorem natStr_starts (a b : Nat) (r : Str) : StartsLikeVersion F (natStr a ++ '.' :: (natStr b ++ r)) := by
  obtain ⟨d, t, e⟩ : ∃ d t, natStr b = d :: t := by
    cases h : natStr b with
    | nil => exact absurd h (natStr_ne_nil b)
    | cons d t => exact ⟨d, t, rfl⟩
  refine ⟨natStr a, '.', d, t ++ r, by rw [e]; rfl, natStr_ne_nil a, natStr_digit a, by decide, ?_⟩
  exact natStr_digit b d (by simp [e])

/-- C27: every canonical `major.minor.patch` and `major.minor` is accepted with these components. -/
theorem c27_canonical (a b c : Nat) :
    mk? F (natStr a ++ '.' :: (natStr b ++ '.' :: natStr c)) =
      .ok ⟨natStr a ++ '.' :: (natStr b ++ '.' :: natStr c), a, b, c⟩ ∧
    mk? F (natStr a ++ '.' :: natStr b) = .ok ⟨natStr a ++ '.' :: natStr b, a, b, 0⟩ := by
  have hI : ∀ n : Nat, IntegerText F (natStr n) n := fun n => (pyInt_iff _ _).1 (pyInt_natStr n)
  refine ⟨(c27_accepts_exactly F _ _).2 ⟨rfl, ?_⟩, (c27_accepts_exactly F _ _).2 ⟨rfl, ?_⟩⟩
  · exact .three (natStr_no_dot F a) (natStr_no_dot F b) (natStr_no_dot F c) (hI a) (hI b) (hI c) (natStr_starts F a b _)
  · have := natStr_starts F a b []
    rw [List.append_nil] at this
    exact .two (natStr_no_dot F a) (natStr_no_dot F b) (hI a) (hI b) this

example : mk? Rat s!!"3.8.75" = .ok ⟨s!!"3.8.75", 3, 8, 75⟩ := by decide +kernel
example : mk? Rat s!!"3.8" = .ok ⟨s!!"3.8", 3, 8, 0⟩ := by decide +kernel
example : mk? Rat s!!"3" = .error .value := by decide +kernel
example : mk? Rat s!!"3.8.b" = .error .value := by decide +kernel
example : mk? Rat s!!"v3.8" = .error .value := by decide +kernel
/-- a negative component is accepted (the regular expression only looks at the beginning) -/
example : mk? Rat s!!"3.8.-1" = .ok ⟨s!!"3.8.-1", 3, 8, -1⟩ := by decide +kernel

/-! ## C28 -/

/-- lexicographic order of (major, minor, patch) -/
def LexLt (a b : Version) : Prop :=
  a.major < b.major ∨ (a.major = b.major ∧ (a.minor < b.minor ∨ (a.minor = b.minor ∧ a.patch < b.patch)))

def LexLe (a b : Version) : Prop := LexLt a b ∨ (a.major = b.major ∧ a.minor = b.minor ∧ a.patch = b.patch)

/-- the full statement of C28 -/
def C28 : Prop := ∀ a b : Version,
  (lt a b = true ↔ LexLt a b) ∧ (le a b = true ↔ LexLe a b) ∧ (gt a b = true ↔ LexLt b a) ∧ (ge a b = true ↔ LexLe b a)

/-- C28 is false: 3.8 < 3.8.2 is denied, and 4.0 is neither at least nor at most 3.8. -/
theorem c28_counterexample : ¬ C28 := by
  intro h
  have := (h ⟨s!!"3.8", 3, 8, 0⟩ ⟨s!!"3.8.2", 3, 8, 2⟩).1.2 (by unfold LexLt; simp)
  revert this; decide

/-- C28 is false even for totality: two accepted versions that are not comparable by any operator. -/
theorem c28_incomparable : ∃ a b : Version, mk? Rat s!!"4.0" = .ok a ∧ mk? Rat s!!"3.8" = .ok b ∧
    lt a b = false ∧ le a b = false ∧ gt a b = false ∧ ge a b = false ∧ eq a b = false :=
  ⟨⟨s!!"4.0", 4, 0, 0⟩, ⟨s!!"3.8", 3, 8, 0⟩, by decide +kernel⟩

/-- C28, the half that holds: a positive answer of any comparison is correct lexicographically.
Missing: the converse, which is false (`c28_counterexample`). -/
theorem c28_sound_partial (a b : Version) :
    (lt a b = true → LexLt a b) ∧ (le a b = true → LexLe a b) ∧ (gt a b = true → LexLt b a) ∧
      (ge a b = true → LexLe b a) := by
  simp only [lt, le, gt, ge, LexLt, LexLe, Bool.and_eq_true, decide_eq_true_eq]
  omega

/-- C28: with equal major and minor version `<=` and `>=` agree with the order of the patches. -/
theorem c28_same_minor_partial (a b : Version) (h1 : a.major = b.major) (h2 : a.minor = b.minor) :
    (le a b = true ↔ LexLe a b) ∧ (ge a b = true ↔ LexLe b a) ∧ (le a b = true ∨ ge a b = true) := by
  simp only [le, ge, LexLt, LexLe, Bool.and_eq_true, decide_eq_true_eq]
  omega

example : ∃ a b : Version, mk? Rat s!!"3.8.20" = .ok a ∧ mk? Rat s!!"3.8.75" = .ok b ∧ le a b = true ∧ lt a b = false :=
  ⟨⟨s!!"3.8.20", 3, 8, 20⟩, ⟨s!!"3.8.75", 3, 8, 75⟩, by decide +kernel⟩

/-! ## C29 -/

/-- C29: `==` is equality of the components, `!=` its negation. -/
theorem c29_eq (a b : Version) :
    (eq a b = true ↔ a.major = b.major ∧ a.minor = b.minor ∧ a.patch = b.patch) ∧ (ne a b = true ↔ ¬ eq a b = true) := by
  refine ⟨by simp [eq, and_assoc], by simp [ne]⟩

/-- C29: `<=` and `>=` are partial orders up to `==` and mirror images of each other. -/
theorem c29_le (a b c : Version) :
    le a a = true ∧ (le a b = true → le b c = true → le a c = true) ∧
      (le a b = true → le b a = true → eq a b = true) ∧ (ge a b = true ↔ le b a = true) ∧
      ge a a = true ∧ (ge a b = true → ge b c = true → ge a c = true) ∧ (ge a b = true → ge b a = true → eq a b = true) := by
  refine ⟨by simp [le], ?_, ?_, ?_, by simp [ge], ?_, ?_⟩ <;>
    simp only [le, ge, eq, Bool.and_eq_true, decide_eq_true_eq, beq_iff_eq] <;> omega

/-- C29: `<` and `>` are irreflexive, transitive and mirror images; `<` implies `<=` and `!=`. -/
theorem c29_lt (a b c : Version) :
    lt a a = false ∧ (lt a b = true → lt b c = true → lt a c = true) ∧ (gt a b = true ↔ lt b a = true) ∧
      gt a a = false ∧ (gt a b = true → gt b c = true → gt a c = true) ∧
      (lt a b = true → le a b = true ∧ ne a b = true) := by
  have h : lt a a = false := by simp [lt]
  have h' : gt a a = false := by simp [gt]
  refine ⟨h, ?_, ?_, h', ?_, ?_⟩ <;>
    simp only [lt, gt, le, ne, eq, Bool.and_eq_true, decide_eq_true_eq, Bool.not_eq_true', Bool.and_eq_false_iff,
      beq_eq_false_iff_ne] <;> omega

/-- C29: comparing with a string is comparing with the version it parses to; otherwise the comparison raises. -/
theorem c29_string_argument (s : Str) (w : Version) (h : VersionText F s w.major w.minor w.patch) (hv : w.version = s) :
    (VersionArg.str s).cast F = .ok w := (c27_accepts_exactly F s w).2 ⟨hv, h⟩

example : eq ⟨s!!"3.8", 3, 8, 0⟩ ⟨s!!"3.8.0", 3, 8, 0⟩ = true := by decide
example : lt ⟨s!!"2.7.1", 2, 7, 1⟩ ⟨s!!"3.8.2", 3, 8, 2⟩ = true := by decide
example : (VersionArg.str s!!"3.8").cast Rat = .ok v38 := by decide +kernel

end Spine.Version
