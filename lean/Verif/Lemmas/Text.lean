import Verif.Spec.Text
import Verif.Lemmas.List
/- Correctness of the string functions of the model against the declarative formats. -/
namespace Spine

/-! ### split -/

theorem splitOn_ne_nil (sep : Char) (s : Str) : splitOn sep s ≠ [] := by
  cases s with
  | nil => simp [splitOn]
  | cons c r =>
    rw [splitOn]; split
    · simp
    · split <;> simp

theorem splitOn_no_sep {sep : Char} {p : Str} (h : sep ∉ p) : splitOn sep p = [p] := by
  induction p with
  | nil => simp [splitOn]
  | cons c r ih =>
    simp only [List.mem_cons, not_or] at h
    rw [splitOn, if_neg (fun e => h.1 e.symm), ih h.2]

theorem splitOn_append {sep : Char} {p : Str} (h : sep ∉ p) (s : Str) :
    splitOn sep (p ++ sep :: s) = p :: splitOn sep s := by
  induction p with
  | nil => simp [splitOn]
  | cons c r ih =>
    simp only [List.mem_cons, not_or] at h
    rw [List.cons_append, splitOn, if_neg (fun e => h.1 e.symm), ih h.2]

theorem splitOn_spec (sep : Char) (s : Str) :
    (∀ p ∈ splitOn sep s, sep ∉ p) ∧ s = [sep].intercalate (splitOn sep s) := by
  induction s with
  | nil => simp [splitOn]
  | cons c r ih =>
    rw [splitOn]
    split
    · rename_i hc; subst hc
      refine ⟨?_, ?_⟩
      · intro p hp
        rcases List.mem_cons.1 hp with h | h
        · subst h; simp
        · exact ih.1 p h
      · rw [List.intercalate_cons_of_ne_nil (splitOn_ne_nil _ _), ← ih.2]; simp
    · rename_i hc
      cases hs : splitOn sep r with
      | nil => exact absurd hs (splitOn_ne_nil _ _)
      | cons p ps =>
        rw [hs] at ih
        refine ⟨?_, ?_⟩
        · intro q hq
          rcases List.mem_cons.1 hq with h | h
          · subst h
            have := ih.1 p (by simp)
            simp only [List.mem_cons, not_or]
            exact ⟨fun e => hc e.symm, this⟩
          · exact ih.1 q (by simp [h])
        · have h2 := ih.2
          cases ps with
          | nil => simp at h2 ⊢; exact h2
          | cons q qs =>
            rw [List.intercalate_cons_of_ne_nil (by simp)] at h2 ⊢
            rw [List.cons_append, List.cons_append, ← h2]

/-! ### strip -/
section
variable {F : Type} [PyRt F]

theorem dropWhile_blank {w s : Str} (hw : Blank F w) :
    (w ++ s).dropWhile (PyRt.isSpace F) = s.dropWhile (PyRt.isSpace F) := by
  induction w with
  | nil => rfl
  | cons c w ih =>
    have h1 := hw c (by simp)
    rw [List.cons_append, List.dropWhile_cons_of_pos h1]
    exact ih (fun x hx => hw x (by simp [hx]))

theorem dropWhile_head {s : Str} (h : ∀ c r, s = c :: r → PyRt.isSpace F c = false) :
    s.dropWhile (PyRt.isSpace F) = s := by
  cases s with
  | nil => rfl
  | cons c r =>
    rw [List.dropWhile_cons_of_neg]
    simp [h c r rfl]

theorem strip_eq {w₁ m w₂ : Str} (h₁ : Blank F w₁) (h₂ : Blank F w₂) (hm : Trimmed F m) :
    strip F (w₁ ++ m ++ w₂) = m := by
  unfold strip
  rw [List.append_assoc, dropWhile_blank h₁]
  have hrev : ∀ t : Str, Blank F w₂ →
      ((t ++ w₂).reverse).dropWhile (PyRt.isSpace F) = t.reverse.dropWhile (PyRt.isSpace F) := by
    intro t h
    rw [List.reverse_append, dropWhile_blank]
    intro c hc; exact h c (by simpa using hc)
  cases m with
  | nil =>
    have : w₂.dropWhile (PyRt.isSpace F) = [] := by
      have := dropWhile_blank (F := F) (s := []) h₂
      simpa using this
    simp [this]
  | cons c r =>
    have : ((c :: r) ++ w₂).dropWhile (PyRt.isSpace F) = (c :: r) ++ w₂ := by
      rw [List.cons_append, List.dropWhile_cons_of_neg]
      simp [hm.1 c r rfl]
    rw [this, hrev _ h₂, dropWhile_head, List.reverse_reverse]
    intro d t hd
    exact hm.2 t.reverse d (by
      have := congrArg List.reverse hd
      simpa using this)

theorem takeWhile_blank (s : Str) : Blank F (s.takeWhile (PyRt.isSpace F)) := by
  intro c hc
  induction s with
  | nil => simp at hc
  | cons d s ih =>
    rw [List.takeWhile_cons] at hc
    split at hc
    · rename_i hd
      rcases List.mem_cons.1 hc with h | h
      · subst h; exact hd
      · exact ih h
    · simp at hc

theorem dropWhile_head_false (s : Str) (c : Char) (r : Str) (h : s.dropWhile (PyRt.isSpace F) = c :: r) :
    PyRt.isSpace F c = false := by
  induction s with
  | nil => simp at h
  | cons d s ih =>
    rw [List.dropWhile_cons] at h
    split at h
    · exact ih h
    · rename_i hd
      injection h with h1 _
      subst h1; simpa using hd

theorem strip_spec (s : Str) :
    ∃ w₁ w₂, s = w₁ ++ strip F s ++ w₂ ∧ Blank F w₁ ∧ Blank F w₂ ∧ Trimmed F (strip F s) := by
  let a := s.dropWhile (PyRt.isSpace F)
  let w₁ := s.takeWhile (PyRt.isSpace F)
  let w₂ := (a.reverse.takeWhile (PyRt.isSpace F)).reverse
  have ha : s = w₁ ++ a := (List.takeWhile_append_dropWhile).symm
  have hb : a = strip F s ++ w₂ := by
    have := (List.takeWhile_append_dropWhile (p := PyRt.isSpace F) (l := a.reverse)).symm
    have h2 := congrArg List.reverse this
    rw [List.reverse_reverse, List.reverse_append] at h2
    exact h2
  refine ⟨w₁, w₂, ?_, takeWhile_blank s, ?_, ?_, ?_⟩
  · rw [List.append_assoc, ← hb]; exact ha
  · intro c hc
    exact takeWhile_blank (F := F) a.reverse c (by simpa [w₂] using hc)
  · intro c r h
    have : a = c :: (r ++ w₂) := by rw [hb, h]; rfl
    exact dropWhile_head_false s c _ this
  · intro r c h
    have : a.reverse.dropWhile (PyRt.isSpace F) = c :: r.reverse := by
      have := congrArg List.reverse h
      unfold strip at this
      simpa [a] using this
    exact dropWhile_head_false a.reverse c _ this

theorem strip_unique {s w₁ m w₂ : Str} (hs : s = w₁ ++ m ++ w₂) (h₁ : Blank F w₁) (h₂ : Blank F w₂)
    (hm : Trimmed F m) : strip F s = m := by
  rw [hs]; exact strip_eq h₁ h₂ hm

end

/-! ### numerals -/

theorem digitsTail_iff {dv : Char → Option Nat} {base : Nat} (hu : dv '_' = none) (acc : Nat) (s : Str) (n : Nat) :
    digitsTail dv base acc s = some n ↔ NumFrom dv base acc s n := by
  constructor
  · induction acc, s using digitsTail.induct (dv := dv) (base := base) with
    | case1 acc => intro h; simp [digitsTail] at h; subst h; exact .nil _
    | case2 acc c =>
      intro h
      simp only [digitsTail, Option.map_eq_some_iff] at h
      obtain ⟨d, hd, rfl⟩ := h
      exact .digit hd (.nil _)
    | case3 acc c' r d hd ih =>
      intro h
      rw [digitsTail, if_pos rfl, hd] at h
      exact .under hd (ih h)
    | case4 acc c' r hd =>
      intro h
      rw [digitsTail, if_pos rfl, hd] at h
      cases h
    | case5 acc c c' r hc d hd ih =>
      intro h
      rw [digitsTail, if_neg hc, hd] at h
      exact .digit hd (ih h)
    | case6 acc c c' r hc hd =>
      intro h
      rw [digitsTail, if_neg hc, hd] at h
      cases h
  · intro h
    induction h with
    | nil => simp [digitsTail]
    | @digit acc c d r n hd _ ih =>
      have hc : c ≠ '_' := by rintro rfl; rw [hu] at hd; cases hd
      cases r with
      | nil =>
        rw [digitsTail, hd]
        simpa [digitsTail] using ih
      | cons c' r => rw [digitsTail, if_neg hc, hd]; exact ih
    | @under acc c d r n hd _ ih =>
      rw [digitsTail, if_pos rfl, hd]; exact ih

theorem NumFrom.digits {dv : Char → Option Nat} {base acc : Nat} {s : Str} {n : Nat} (h : NumFrom dv base acc s n) :
    ∀ c ∈ s, c = '_' ∨ (dv c).isSome := by
  induction h with
  | nil => simp
  | digit hd _ ih =>
    intro x hx
    rcases List.mem_cons.1 hx with h | h
    · subst h; right; rw [hd]; rfl
    · exact ih x h
  | under hd _ ih =>
    intro x hx
    rcases List.mem_cons.1 hx with h | h
    · exact .inl h
    · rcases List.mem_cons.1 h with h | h
      · subst h; right; rw [hd]; rfl
      · exact ih x h

theorem Numeral.digits {dv : Char → Option Nat} {base : Nat} {s : Str} {n : Nat} (h : Numeral dv base s n) :
    ∀ c ∈ s, c = '_' ∨ (dv c).isSome := by
  obtain ⟨c, d, r, rfl, hd, hn⟩ := h
  intro x hx
  rcases List.mem_cons.1 hx with h | h
  · subst h; right; rw [hd]; rfl
  · exact hn.digits x h

section
variable {F : Type} [PyRt F]

theorem digit_not_space' {c : Char} (h : (PyRt.digitVal F c).isSome) : PyRt.isSpace F c = false := by
  obtain ⟨d, hd⟩ := Option.isSome_iff_exists.1 h
  exact PyRt.digit_not_space c d hd

theorem trimmed_of_no_space {s : Str} (h : ∀ c ∈ s, PyRt.isSpace F c = false) : Trimmed F s :=
  ⟨fun c r e => h c (by simp [e]), fun r c e => h c (by simp [e])⟩

theorem Numeral.no_space {s : Str} {n : Nat} (h : Numeral (PyRt.digitVal F) 10 s n) :
    ∀ c ∈ s, PyRt.isSpace F c = false := by
  intro c hc
  rcases h.digits c hc with h | h
  · subst h; exact PyRt.space_ascii '_' (by simp)
  · exact digit_not_space' h

/-- the unsigned part of `pyInt` -/
def pyUnsigned (F : Type) [PyRt F] (t : Str) : Option Nat :=
  match t with
  | c :: r => match PyRt.digitVal F c with
    | some d => digitsTail (PyRt.digitVal F) 10 d r
    | none => none
  | [] => none

theorem pyUnsigned_iff (t : Str) (n : Nat) : pyUnsigned F t = some n ↔ Numeral (PyRt.digitVal F) 10 t n := by
  have hu : PyRt.digitVal F '_' = none := PyRt.digit_punct '_' (by simp)
  constructor
  · intro h
    unfold pyUnsigned at h
    split at h
    · rename_i c r
      split at h
      · rename_i d hd
        exact ⟨c, d, r, rfl, hd, (digitsTail_iff hu _ _ _).1 h⟩
      · cases h
    · cases h
  · rintro ⟨c, d, r, rfl, hd, hn⟩
    simp only [pyUnsigned, hd]
    exact (digitsTail_iff hu _ _ _).2 hn

theorem pyInt_eq (s : Str) : pyInt F s = (match strip F s with
    | '+' :: t => (pyUnsigned F t).map Int.ofNat
    | '-' :: t => (pyUnsigned F t).map (fun n => - Int.ofNat n)
    | t => (pyUnsigned F t).map Int.ofNat) := rfl

theorem pyInt_iff (s : Str) (i : Int) : pyInt F s = some i ↔ IntegerText F s i := by
  rw [pyInt_eq]
  constructor
  · intro h
    obtain ⟨w₁, w₂, hs, h₁, h₂, _⟩ := strip_spec (F := F) s
    refine ⟨w₁, strip F s, w₂, hs, h₁, h₂, ?_⟩
    split at h
    · rename_i t ht
      obtain ⟨n, hn, rfl⟩ := Option.map_eq_some_iff.1 h
      exact ⟨n, .inr (.inl ⟨t, ht, (pyUnsigned_iff _ _).1 hn, rfl⟩)⟩
    · rename_i t ht
      obtain ⟨n, hn, rfl⟩ := Option.map_eq_some_iff.1 h
      exact ⟨n, .inr (.inr ⟨t, ht, (pyUnsigned_iff _ _).1 hn, rfl⟩)⟩
    · obtain ⟨n, hn, rfl⟩ := Option.map_eq_some_iff.1 h
      exact ⟨n, .inl ⟨(pyUnsigned_iff _ _).1 hn, rfl⟩⟩
  · rintro ⟨w₁, m, w₂, hs, h₁, h₂, n, h⟩
    rcases h with ⟨hn, rfl⟩ | ⟨b, rfl, hn, rfl⟩ | ⟨b, rfl, hn, rfl⟩
    · rw [strip_unique hs h₁ h₂ (trimmed_of_no_space hn.no_space)]
      have hm := (pyUnsigned_iff m n).2 hn
      obtain ⟨c, d, r, rfl, hd, _⟩ := hn
      split
      · rename_i t ht
        injection ht with hc _
        subst hc
        rw [PyRt.digit_punct '+' (by simp)] at hd; cases hd
      · rename_i t ht
        injection ht with hc _
        subst hc
        rw [PyRt.digit_punct '-' (by simp)] at hd; cases hd
      · rw [hm]; rfl
    · rw [strip_unique hs h₁ h₂ (trimmed_of_no_space ?_)]
      · simp only [(pyUnsigned_iff b n).2 hn]; rfl
      · intro c hc
        rcases List.mem_cons.1 hc with h | h
        · subst h; exact PyRt.space_ascii '+' (by simp)
        · exact hn.no_space c h
    · rw [strip_unique hs h₁ h₂ (trimmed_of_no_space ?_)]
      · simp only [(pyUnsigned_iff b n).2 hn]; rfl
      · intro c hc
        rcases List.mem_cons.1 hc with h | h
        · subst h; exact PyRt.space_ascii '-' (by simp)
        · exact hn.no_space c h

/-! ### canonical decimal numerals -/

theorem NumFrom.append_digit {dv : Char → Option Nat} {base acc : Nat} {s : Str} {n : Nat}
    (h : NumFrom dv base acc s n) {c : Char} {d : Nat} (hd : dv c = some d) :
    NumFrom dv base acc (s ++ [c]) (n * base + d) := by
  induction h with
  | nil acc => exact .digit hd (.nil _)
  | digit hd' _ ih => exact .digit hd' ih
  | under hd' _ ih => exact .under hd' ih

theorem natStr_numeral (n : Nat) : Numeral (PyRt.digitVal F) 10 (natStr n) n := by
  induction n using natStr.induct with
  | case1 n h =>
    rw [natStr, if_pos h]
    exact ⟨_, n, [], rfl, PyRt.digit_ascii ⟨n, h⟩, .nil _⟩
  | case2 n h ih =>
    rw [natStr, if_neg h]
    obtain ⟨c, d, r, hr, hd, hn⟩ := ih
    refine ⟨c, d, r ++ [Char.ofNat (48 + n % 10)], by rw [hr]; rfl, hd, ?_⟩
    have := hn.append_digit (c := Char.ofNat (48 + n % 10)) (PyRt.digit_ascii ⟨n % 10, by omega⟩)
    have e : n / 10 * 10 + n % 10 = n := by omega
    simpa [e] using this

theorem natStr_digit (n : Nat) : ∀ c ∈ natStr n, (PyRt.digitVal F c).isSome := by
  induction n using natStr.induct with
  | case1 n h =>
    rw [natStr, if_pos h]
    intro c hc
    simp at hc; subst hc
    rw [PyRt.digit_ascii ⟨n, h⟩]; rfl
  | case2 n h ih =>
    rw [natStr, if_neg h]
    intro c hc
    rcases List.mem_append.1 hc with h' | h'
    · exact ih c h'
    · simp at h'; subst h'
      rw [PyRt.digit_ascii ⟨n % 10, by omega⟩]; rfl

theorem pyInt_natStr (n : Nat) : pyInt F (natStr n) = some (n : Int) :=
  (pyInt_iff _ _).2 ⟨[], natStr n, [], by simp, by simp [Blank], by simp [Blank], n, .inl ⟨natStr_numeral n, rfl⟩⟩

theorem natStr_no_dot (F : Type) [PyRt F] (n : Nat) : '.' ∉ natStr n := by
  intro h
  have := natStr_digit (F := F) n _ h
  rw [PyRt.digit_punct '.' (by simp)] at this
  cases this

end

end Spine
