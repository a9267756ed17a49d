import Verif.Model.JsonText
import Verif.Spec.JsonText
import Verif.Lemmas.Text
import Verif.Lemmas.List
/- The reader of JSON texts against the rules of Spec/JsonText.lean: the parts below values. -/
set_option linter.unusedSectionVars false
namespace Spine.JsonText
open JsonSpec (IntPart Digits decimal intValue Frac Exp HexDigit Hex4 CharText Chars)
variable {F : Type}

theorem le_nat (a b : Char) : a ≤ b ↔ a.toNat ≤ b.toNat := Iff.rfl

theorem char_eq {a b : Char} (h : a.toNat = b.toNat) : a = b := Char.ext (UInt32.toNat_inj.1 h)

theorem isDig_iff (c : Char) : isDig c = true ↔ '0' ≤ c ∧ c ≤ '9' := by simp [isDig]

/-- the head of a text satisfies nothing of the kind -/
def HeadNot (p : Char → Bool) (r : Str) : Prop := ∀ c t, r = c :: t → p c = false

theorem span_append (p : Char → Bool) (ds r : Str) (h : ∀ c ∈ ds, p c = true) (hr : HeadNot p r) :
    (ds ++ r).takeWhile p = ds ∧ (ds ++ r).dropWhile p = r := by
  induction ds with
  | nil =>
    cases r with
    | nil => exact ⟨rfl, rfl⟩
    | cons c t => simp [hr c t rfl]
  | cons d ds ih =>
    have := ih (fun c hc => h c (by simp [hc]))
    simp only [List.cons_append, List.takeWhile_cons, List.dropWhile_cons, h d (by simp), if_true, this, and_self]

theorem takeWhile_all (p : Char → Bool) (s : Str) : ∀ c ∈ s.takeWhile p, p c = true := by
  induction s with
  | nil => intro c hc; cases hc
  | cons a s ih =>
    intro c hc
    rw [List.takeWhile_cons] at hc
    split at hc
    · rename_i ha
      rcases List.mem_cons.1 hc with rfl | hc
      · exact ha
      · exact ih c hc
    · cases hc

theorem isWs_iff (c : Char) : isWs c = true ↔ c = ' ' ∨ c = '\t' ∨ c = '\n' ∨ c = '\r' := by simp [isWs]

theorem skipWs_append {b r : Str} (hb : JsonSpec.Blank b) (hr : HeadNot isWs r) : skipWs (b ++ r) = r :=
  (span_append isWs b r (fun c hc => (isWs_iff c).2 (hb c hc)) hr).2

theorem skipWs_spec (s : Str) : ∃ b, JsonSpec.Blank b ∧ s = b ++ skipWs s ∧ HeadNot isWs (skipWs s) := by
  refine ⟨s.takeWhile isWs, fun c hc => (isWs_iff c).1 (takeWhile_all isWs s c hc), (List.takeWhile_append_dropWhile).symm, ?_⟩
  intro c t h
  cases hc : isWs c with
  | false => rfl
  | true =>
    have := List.head?_dropWhile_not isWs s
    unfold skipWs at h
    rw [h] at this
    simp [hc] at this

/-! ### Numbers -/

theorem scanMinus_of {s : Str} (h : HeadNot (· = '-') s) : scanMinus s = ([], s) := by
  unfold scanMinus
  split
  · have := h _ _ rfl; simp at this
  · rfl

theorem scanMinus_spec (s : Str) : s = (scanMinus s).1 ++ (scanMinus s).2 ∧ ((scanMinus s).1 = [] ∨ (scanMinus s).1 = ['-']) := by
  unfold scanMinus
  split <;> simp

theorem scanSign_of {s : Str} (h : HeadNot (fun c => c = '+' ∨ c = '-') s) : scanSign s = ([], s) := by
  unfold scanSign
  split
  · have := h _ _ rfl; simp at this
  · have := h _ _ rfl; simp at this
  · rfl

theorem scanSign_spec (s : Str) : s = (scanSign s).1 ++ (scanSign s).2 ∧ ((scanSign s).1 = [] ∨ (scanSign s).1 = ['+'] ∨ (scanSign s).1 = ['-']) := by
  unfold scanSign
  split <;> simp

theorem scanIntPart_complete {ip r : Str} (h : IntPart ip) (hr : HeadNot isDig r) : scanIntPart (ip ++ r) = some (ip, r) := by
  cases h with
  | zero => rfl
  | @pos c t h1 h2 h3 =>
    have h0 : c ≠ '0' := by rintro rfl; revert h1; decide
    have hm : c ≠ '-' := by rintro rfl; revert h1; decide
    have hs := span_append isDig t r (fun d hd => (isDig_iff d).2 (h3 d hd)) hr
    have hm' : scanMinus (c :: t ++ r) = ([], c :: t ++ r) := scanMinus_of (by rintro c' t' e; injection e with e; subst e; simp [hm])
    unfold scanIntPart
    rw [hm']
    simp only [List.cons_append, if_neg h0, h1, h2, and_self, if_true, hs, List.nil_append]
  | negZero => rfl
  | @neg c t h1 h2 h3 =>
    have h0 : c ≠ '0' := by rintro rfl; revert h1; decide
    have hs := span_append isDig t r (fun d hd => (isDig_iff d).2 (h3 d hd)) hr
    have hm' : scanMinus ('-' :: c :: t ++ r) = (['-'], c :: t ++ r) := rfl
    unfold scanIntPart
    rw [hm']
    simp only [List.cons_append, if_neg h0, h1, h2, and_self, if_true, hs, List.nil_append]

theorem digits_takeWhile (s : Str) : Digits (s.takeWhile isDig) := fun c hc => (isDig_iff c).1 (takeWhile_all isDig s c hc)

theorem headNot_dropWhile (p : Char → Bool) (s : Str) : HeadNot p (s.dropWhile p) := by
  intro c t h
  cases hc : p c with
  | false => rfl
  | true =>
    have := List.head?_dropWhile_not p s
    rw [h] at this
    simp [hc] at this

theorem scanIntPart_sound {s ip r : Str} (h : scanIntPart s = some (ip, r)) : IntPart ip ∧ s = ip ++ r := by
  unfold scanIntPart at h
  obtain ⟨he, hm⟩ := scanMinus_spec s
  generalize scanMinus s = q at *
  obtain ⟨sign, t⟩ := q
  simp only at *
  split at h
  · rename_i c u
    split at h
    · rename_i h0
      subst h0
      injection h with h; injection h with h1 h2; subst h1 h2
      rcases hm with rfl | rfl
      · exact ⟨.zero, by simpa using he⟩
      · exact ⟨.negZero, by simpa using he⟩
    · rename_i h0
      split at h
      · rename_i h1
        injection h with h; injection h with h2 h3; subst h2 h3
        rcases hm with rfl | rfl
        · exact ⟨.pos h1.1 h1.2 (digits_takeWhile u), by simpa using he⟩
        · exact ⟨.neg h1.1 h1.2 (digits_takeWhile u), by simpa using he⟩
      · cases h
  · cases h

theorem scanFrac_complete {fr r : Str} (h : Frac fr) (hr : HeadNot isDig r) : scanFrac (fr ++ r) = (fr, r) := by
  obtain ⟨t, rfl, h1, h2⟩ := h
  have hs := span_append isDig t r (fun d hd => (isDig_iff d).2 (h2 d hd)) hr
  simp only [List.cons_append, scanFrac, hs, if_neg h1]

theorem scanFrac_nil {r : Str} (hr : HeadNot (· = '.') r) : scanFrac r = ([], r) := by
  unfold scanFrac
  split
  · rename_i t; have := hr _ _ rfl; simp at this
  · rfl

theorem scanFrac_sound (s : Str) : ((scanFrac s).1 = [] ∨ Frac (scanFrac s).1) ∧ s = (scanFrac s).1 ++ (scanFrac s).2 := by
  unfold scanFrac
  split
  · rename_i r
    split
    · exact ⟨.inl rfl, rfl⟩
    · rename_i h
      exact ⟨.inr ⟨_, rfl, h, digits_takeWhile r⟩, by simp⟩
  · exact ⟨.inl rfl, rfl⟩

theorem scanExp_complete {ex r : Str} (h : Exp ex) (hr : HeadNot isDig r) : scanExp (ex ++ r) = (ex, r) := by
  obtain ⟨e, sg, t, rfl, he, hsg, h1, h2⟩ := h
  have hs := span_append isDig t r (fun d hd => (isDig_iff d).2 (h2 d hd)) hr
  have hg : scanSign (sg ++ (t ++ r)) = (sg, t ++ r) := by
    rcases hsg with rfl | rfl | rfl
    · cases t with
      | nil => exact absurd rfl h1
      | cons d t =>
        have hd := h2 d (by simp)
        have hp : d ≠ '+' := by rintro rfl; revert hd; decide
        have hm : d ≠ '-' := by rintro rfl; revert hd; decide
        exact scanSign_of (by rintro c' t' e; simp only [List.nil_append, List.cons_append] at e; injection e with e; subst e; simp [hp, hm])
    · rfl
    · rfl
  unfold scanExp
  simp only [List.cons_append, List.append_assoc, he, if_true, hg, hs, if_neg h1]

theorem scanExp_nil {r : Str} (hr : HeadNot (fun c => c = 'e' ∨ c = 'E') r) : scanExp r = ([], r) := by
  unfold scanExp
  split
  · rename_i c t
    have := hr _ _ rfl
    simp only [decide_eq_false_iff_not] at this
    rw [if_neg this]
  · rfl

theorem scanExp_sound (s : Str) : ((scanExp s).1 = [] ∨ Exp (scanExp s).1) ∧ s = (scanExp s).1 ++ (scanExp s).2 := by
  unfold scanExp
  split
  · rename_i c r
    split
    · rename_i hc
      obtain ⟨he, hg⟩ := scanSign_spec r
      simp only
      split
      · exact ⟨.inl rfl, rfl⟩
      · rename_i h
        refine ⟨.inr ⟨c, _, _, rfl, hc, hg, h, digits_takeWhile _⟩, ?_⟩
        simpa using he
    · exact ⟨.inl rfl, rfl⟩
  · exact ⟨.inl rfl, rfl⟩

/-- the value of a digit -/
theorem digitVal_dig [PyRt F] {c : Char} (h : '0' ≤ c ∧ c ≤ '9') : PyRt.digitVal F c = some (c.toNat - 48) := by
  rw [le_nat, le_nat] at h
  have h1 : 48 ≤ c.toNat := h.1
  have h2 : c.toNat ≤ 57 := h.2
  have := PyRt.digit_ascii (F := F) ⟨c.toNat - 48, by omega⟩
  simp only at this
  rw [show 48 + (c.toNat - 48) = c.toNat by omega, Char.ofNat_toNat] at this
  exact this

theorem numFrom_digits [PyRt F] (s : Str) (hs : Digits s) (n : Nat) :
    NumFrom (PyRt.digitVal F) 10 n s (s.foldl (fun n c => n * 10 + (c.toNat - 48)) n) := by
  induction s generalizing n with
  | nil => exact .nil n
  | cons c s ih => exact .digit (digitVal_dig (hs c (by simp))) (ih (fun d hd => hs d (by simp [hd])) _)

theorem numeral_digits [PyRt F] (c : Char) (r : Str) (hs : Digits (c :: r)) : Numeral (PyRt.digitVal F) 10 (c :: r) (decimal (c :: r)) := by
  refine ⟨c, _, r, rfl, digitVal_dig (hs c (by simp)), ?_⟩
  have := numFrom_digits (F := F) r (fun d hd => hs d (by simp [hd])) (c.toNat - 48)
  simpa [decimal] using this

theorem digits_cons {c : Char} {r : Str} (h1 : '1' ≤ c) (h2 : c ≤ '9') (h3 : Digits r) : Digits (c :: r) := by
  intro d hd
  rcases List.mem_cons.1 hd with rfl | hd
  · refine ⟨?_, h2⟩
    rw [le_nat] at h1 ⊢
    exact Nat.le_trans (by decide) h1
  · exact h3 d hd

theorem pyInt_intPart [PyRt F] {s : Str} (h : IntPart s) : pyInt F s = some (intValue s) := by
  rw [pyInt_iff]
  refine ⟨[], s, [], by simp, by simp [Blank], by simp [Blank], ?_⟩
  cases h with
  | zero => exact ⟨0, .inl ⟨numeral_digits '0' [] (by intro c hc; simp at hc; subst hc; decide), rfl⟩⟩
  | @pos c r h1 h2 h3 =>
    refine ⟨decimal (c :: r), .inl ⟨numeral_digits c r (digits_cons h1 h2 h3), ?_⟩⟩
    unfold intValue
    split
    · rename_i e; injection e with e; subst e; exact absurd h1 (by decide)
    · rfl
  | negZero => exact ⟨0, .inr (.inr ⟨['0'], rfl, numeral_digits '0' [] (by intro c hc; simp at hc; subst hc; decide), rfl⟩)⟩
  | @neg c r h1 h2 h3 => exact ⟨decimal (c :: r), .inr (.inr ⟨c :: r, rfl, numeral_digits c r (digits_cons h1 h2 h3), rfl⟩)⟩

/-! ### Strings -/

theorem hexVal_iff (c : Char) (n : Nat) : hexVal c = some n ↔ HexDigit c n := by
  constructor
  · intro h
    unfold hexVal at h
    split at h
    · rename_i h'; injection h with h; subst h; exact .dec h'.1 h'.2
    · split at h
      · rename_i h'; injection h with h; subst h; exact .lower h'.1 h'.2
      · split at h
        · rename_i h'; injection h with h; subst h; exact .upper h'.1 h'.2
        · cases h
  · intro h
    cases h with
    | dec h1 h2 => simp [hexVal, h1, h2]
    | lower h1 h2 =>
      have n1 : ¬ ('0' ≤ c ∧ c ≤ '9') := by
        rintro ⟨-, h⟩
        rw [le_nat] at h h1
        exact absurd (Nat.le_trans h1 h) (by decide)
      simp [hexVal, n1, h1, h2]
    | upper h1 h2 =>
      have n1 : ¬ ('0' ≤ c ∧ c ≤ '9') := by
        rintro ⟨-, h⟩
        rw [le_nat] at h h1
        exact absurd (Nat.le_trans h1 h) (by decide)
      have n2 : ¬ ('a' ≤ c ∧ c ≤ 'f') := by
        rintro ⟨h, -⟩
        rw [le_nat] at h h2
        exact absurd (Nat.le_trans h h2) (by decide)
      simp [hexVal, n1, n2, h1, h2]

theorem hex4_complete {h r : Str} {n : Nat} (hh : Hex4 h n) : hex4 (h ++ r) = some (n, r) := by
  cases hh with
  | mk h1 h2 h3 h4 =>
    simp only [List.cons_append, List.nil_append, hex4, (hexVal_iff _ _).2 h1, (hexVal_iff _ _).2 h2, (hexVal_iff _ _).2 h3, (hexVal_iff _ _).2 h4]

theorem hex4_sound {s r : Str} {n : Nat} (h : hex4 s = some (n, r)) : ∃ t, Hex4 t n ∧ s = t ++ r := by
  unfold hex4 at h
  split at h
  · split at h
    · rename_i h1 h2 h3 h4
      injection h with h; injection h with e1 e2; subst e1 e2
      exact ⟨_, .mk ((hexVal_iff _ _).1 h1) ((hexVal_iff _ _).1 h2) ((hexVal_iff _ _).1 h3) ((hexVal_iff _ _).1 h4), rfl⟩
    · cases h
  · cases h

theorem backslash_iff (e c : Char) : backslash e = some c ↔ (e, c) ∈ JsonSpec.shortEscapes := by
  unfold backslash JsonSpec.shortEscapes
  simp only [List.mem_cons, Prod.mk.injEq, List.not_mem_nil, or_false]
  constructor
  · intro h
    repeat' (split at h; · (rename_i he; injection h with h; subst he; subst h; simp))
    cases h
  · rintro (⟨rfl, rfl⟩ | ⟨rfl, rfl⟩ | ⟨rfl, rfl⟩ | ⟨rfl, rfl⟩ | ⟨rfl, rfl⟩ | ⟨rfl, rfl⟩ | ⟨rfl, rfl⟩ | ⟨rfl, rfl⟩) <;> rfl

theorem short_not_u {e c : Char} (h : (e, c) ∈ JsonSpec.shortEscapes) : e ≠ 'u' := by
  rintro rfl
  have := (backslash_iff 'u' c).2 h
  simp [backslash] at this

/-- what one step of `scanString` does with the text of a character -/
theorem scanString_char {t : Str} {c : Char} (h : CharText t c) (n : Nat) (r : Str) :
    scanString (n + 1) (t ++ r) = match scanString n r with
      | .error e => .error e
      | .ok (s, r2) => .ok (c :: s, r2) := by
  cases h with
  | raw h1 h2 h3 =>
    have : ¬ c.toNat < 32 := by omega
    simp only [List.cons_append, List.nil_append, scanString, if_neg h1, if_neg h2, if_neg this]
    rfl
  | @short e _ h =>
    have h1 := short_not_u h
    have h2 := (backslash_iff _ _).2 h
    have : scanEscape (e :: r) = .ok (c, r) := by simp [scanEscape, h1, h2]
    simp only [List.cons_append, List.nil_append, scanString, this]
    rfl
  | @unicode h n' hh hn =>
    have : scanEscape ('u' :: (h ++ r)) = .ok (Char.ofNat n', r) := by
      have n1 : ¬ (0xd800 ≤ n' ∧ n' ≤ 0xdbff) := by omega
      have n2 : ¬ (0xd800 ≤ n' ∧ n' ≤ 0xdfff) := by omega
      simp only [scanEscape, if_true, hex4_complete hh, if_neg n1, chr, if_neg n2, Except.map]
    simp only [List.cons_append, scanString, this]
    rfl
  | @pair h l n' m hh hl h1 h2 h3 h4 =>
    have : scanEscape ('u' :: ((h ++ '\\' :: 'u' :: l) ++ r)) = .ok (Char.ofNat (0x10000 + ((n' - 0xd800) * 1024 + (m - 0xdc00))), r) := by
      rw [List.append_assoc]
      simp only [scanEscape, if_true, hex4_complete hh, h1, h2, and_self, List.cons_append, hex4_complete hl, h3, h4]
    simp only [List.cons_append, scanString, this]
    rfl

theorem scanEscape_sound {s r : Str} {c : Char} (h : scanEscape s = .ok (c, r)) : ∃ t, CharText ('\\' :: t) c ∧ s = t ++ r ∧ t ≠ [] := by
  unfold scanEscape at h
  split at h
  · cases h
  · rename_i e u
    split at h
    · rename_i he
      subst he
      split at h
      · cases h
      · rename_i n r1 hx
        obtain ⟨t, ht, e1⟩ := hex4_sound hx
        split at h
        · rename_i hn
          split at h
          · rename_i r2
            split at h
            · cases h
            · rename_i m r3 hy
              obtain ⟨t2, ht2, e2⟩ := hex4_sound hy
              split at h
              · rename_i hm
                injection h with h; injection h with h1 h2; subst h1 h2
                exact ⟨'u' :: (t ++ '\\' :: 'u' :: t2), .pair ht ht2 hn.1 hn.2 hm.1 hm.2, by rw [e1, e2]; simp, by simp⟩
              · cases h
          · cases h
        · rename_i hn
          unfold chr at h
          split at h
          · cases h
          · rename_i hn2
            injection h with h; injection h with h1 h2; subst h1 h2
            exact ⟨'u' :: t, .unicode ht (by omega), by rw [e1]; rfl, by simp⟩
    · split at h
      · rename_i hb
        injection h with h; injection h with h1 h2; subst h1 h2
        exact ⟨[e], .short ((backslash_iff _ _).1 hb), rfl, by simp⟩
      · cases h

theorem charText_ne {t : Str} {c : Char} (h : CharText t c) : t ≠ [] := by cases h <;> simp

theorem scanString_complete {s u : Str} (h : Chars s u) : ∀ (n : Nat) (r : Str), s.length < n → scanString n (s ++ '"' :: r) = .ok (u, r) := by
  induction h with
  | nil =>
    intro n r hn
    obtain ⟨m, rfl⟩ : ∃ m, n = m + 1 := ⟨n - 1, by simp at hn; omega⟩
    simp [scanString]
  | @cons t s c u ht _ ih =>
    intro n r hn
    have := List.length_pos_iff.2 (charText_ne ht)
    rw [List.length_append] at hn
    obtain ⟨m, rfl⟩ : ∃ m, n = m + 1 := ⟨n - 1, by omega⟩
    rw [List.append_assoc, scanString_char ht, ih m r (by omega)]

theorem scanString_sound : ∀ (n : Nat) (s u r : Str), scanString n s = .ok (u, r) → ∃ t, Chars t u ∧ s = t ++ '"' :: r := by
  intro n
  induction n with
  | zero => intro s u r h; cases h
  | succ n ih =>
    intro s u r h
    cases s with
    | nil => cases h
    | cons c s =>
      simp only [scanString] at h
      split at h
      · rename_i hc
        injection h with h; injection h with h1 h2; subst h1 h2 hc
        exact ⟨[], .nil, rfl⟩
      · rename_i hc
        split at h
        · rename_i hc'
          subst hc'
          split at h
          · cases h
          · rename_i ch r1 he
            obtain ⟨t, ht, e1, _⟩ := scanEscape_sound he
            split at h
            · cases h
            · rename_i s' r2 hs
              obtain ⟨t2, ht2, e2⟩ := ih _ _ _ hs
              injection h with h; injection h with h1 h2; subst h1 h2
              exact ⟨_, .cons ht ht2, by rw [e1, e2]; simp⟩
        · rename_i hc'
          split at h
          · cases h
          · rename_i h32
            split at h
            · cases h
            · rename_i s' r2 hs
              obtain ⟨t2, ht2, e2⟩ := ih _ _ _ hs
              injection h with h; injection h with h1 h2; subst h1 h2
              exact ⟨_, .cons (.raw hc hc' (by omega)) ht2, by rw [e2]; rfl⟩

/-- reading a string takes no more steps than it has characters -/
theorem scanString_fuel : ∀ (n : Nat) (s : Str), s.length < n → scanString n s ≠ .error .diverge := by
  intro n
  induction n with
  | zero => intro s h; omega
  | succ n ih =>
    intro s hn h
    cases s with
    | nil => cases h
    | cons c s =>
      simp only [List.length_cons] at hn
      simp only [scanString] at h
      split at h
      · cases h
      · split at h
        · split at h
          · rename_i e he
            injection h with h; subst h
            unfold scanEscape at he
            split at he
            · cases he
            · split at he
              · split at he
                · cases he
                · split at he
                  · split at he
                    · split at he
                      · cases he
                      · split at he <;> cases he
                    · cases he
                  · unfold chr at he
                    split at he <;> cases he
              · split at he <;> cases he
          · rename_i ch r1 he
            obtain ⟨t, _, e1, ht⟩ := scanEscape_sound he
            have := List.length_pos_iff.2 ht
            have e2 := congrArg List.length e1
            rw [List.length_append] at e2
            have := ih r1 (by omega)
            split at h
            · rename_i e hs; injection h with h; subst h; exact this hs
            · cases h
        · split at h
          · cases h
          · have := ih s (by omega)
            split at h
            · rename_i e hs; injection h with h; subst h; exact this hs
            · cases h

end Spine.JsonText
