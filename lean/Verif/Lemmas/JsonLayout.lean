import Verif.Lemmas.JsonStrict
import Verif.Spec.JsonLayout
/- The indented texts written by `json.dump` are laid out as Spec/JsonLayout.lean says. -/
set_option linter.unusedSectionVars false
namespace Spine.JsonText
open JsonSpec
variable {F : Type}

theorem laidIn_quote (d : Nat) (t : Str) : laidIn d ('"' :: t) = laid d t := by
  cases t with
  | nil => simp [laidIn, laid]
  | cons c t => simp [laidIn]

theorem laidIn_raw (d : Nat) {c : Char} (h1 : c ≠ '"') (h2 : c ≠ '\\') (t : Str) : laidIn d (c :: t) = laidIn d t := by
  cases t with
  | nil => simp [laidIn, h1]
  | cons e t => simp [laidIn, h1, h2]

theorem laidIn_esc (d : Nat) (c : Char) (t : Str) : laidIn d ('\\' :: c :: t) = laidIn d t := by simp [laidIn]

theorem hex4_laidIn (d : Nat) {h : Str} {n : Nat} (hh : Hex4 h n) (t : Str) : laidIn d (h ++ t) = laidIn d t := by
  cases hh with
  | mk a b c e =>
    simp only [List.cons_append, List.nil_append]
    rw [laidIn_raw d (hexDigit_noquote a).1 (hexDigit_noquote a).2, laidIn_raw d (hexDigit_noquote b).1 (hexDigit_noquote b).2,
      laidIn_raw d (hexDigit_noquote c).1 (hexDigit_noquote c).2, laidIn_raw d (hexDigit_noquote e).1 (hexDigit_noquote e).2]

theorem charText_laidIn (d : Nat) {s : Str} {c : Char} (h : CharText s c) (t : Str) : laidIn d (s ++ t) = laidIn d t := by
  cases h with
  | raw h1 h2 _ => exact laidIn_raw d h1 h2 t
  | short _ => exact laidIn_esc d _ t
  | unicode hh _ => rw [List.cons_append, List.cons_append, laidIn_esc, hex4_laidIn d hh]
  | pair h1 h2 _ _ _ _ =>
    rw [List.cons_append, List.cons_append, laidIn_esc, List.append_assoc, hex4_laidIn d h1, List.cons_append, List.cons_append, laidIn_esc,
      hex4_laidIn d h2]

theorem chars_laidIn (d : Nat) {s u : Str} (h : Chars s u) (t : Str) : laidIn d (s ++ t) = laidIn d t := by
  induction h with
  | nil => rfl
  | cons hc _ ih => rw [List.append_assoc, charText_laidIn d hc, ih]

theorem laid_string (d : Nat) (s t : Str) : laid d (encodeStr s ++ t) = laid d t := by
  rw [encodeStr, List.cons_append, laid, if_pos rfl, List.append_assoc, chars_laidIn d (encodeStr_chars s), List.singleton_append, laidIn_quote]

/-- a character without effect on the layout -/
def Inert (c : Char) : Prop := c ≠ '"' ∧ c ≠ '\n' ∧ c ≠ ',' ∧ c ≠ '[' ∧ c ≠ '{' ∧ c ≠ ']' ∧ c ≠ '}' ∧ c ≠ ' '

instance (c : Char) : Decidable (Inert c) := by unfold Inert; infer_instance

theorem laid_one (d : Nat) {c : Char} (h1 : c ≠ '"') (h2 : c ≠ '\n') (h3 : c ≠ ',') (h4 : isOpen c = false) (h5 : isClose c = false) (t : Str) :
    laid d (c :: t) = laid d t := by
  rw [laid, if_neg h1]
  simp [follows, h2, h3, h4, h5]

theorem laid_inert (d : Nat) {s : Str} (h : ∀ c ∈ s, Inert c) (t : Str) : laid d (s ++ t) = laid d t := by
  induction s with
  | nil => rfl
  | cons c s ih =>
    obtain ⟨h1, h2, h3, h4, h5, h6, h7, _⟩ := h c (by simp)
    rw [List.cons_append, laid_one d h1 h2 h3 (by simp [isOpen, h4, h5]) (by simp [isClose, h6, h7]), ih (fun c hc => h c (by simp [hc]))]

theorem laid_blanks (d n : Nat) (t : Str) : laid d (List.replicate n ' ' ++ t) = laid d t := by
  induction n with
  | zero => rfl
  | succ n ih =>
    rw [List.replicate_succ, List.cons_append, laid_one d (by decide) (by decide) (by decide) (by decide) (by decide), ih]

/-- the text begins with something that is neither a blank nor a closing bracket -/
def Starts (s : Str) : Prop := ∃ c r, s = c :: r ∧ c ≠ ' ' ∧ isClose c = false

theorem Starts.append {s : Str} (h : Starts s) (t : Str) : Starts (s ++ t) := by
  obtain ⟨c, r, rfl, h⟩ := h
  exact ⟨c, r ++ t, rfl, h⟩

theorem takeWhile_blanks (n : Nat) {c : Char} (r : Str) (h : c ≠ ' ') :
    (List.replicate n ' ' ++ c :: r).takeWhile (· = ' ') = List.replicate n ' ' ∧ (List.replicate n ' ' ++ c :: r).dropWhile (· = ' ') = c :: r := by
  induction n with
  | zero => simp [h]
  | succ n ih => simp [List.replicate_succ, ih]

theorem laid_newline (d : Nat) {t : Str} (h : Starts t) : laid d (Layout.newline .indent4 d ++ t) = laid d t := by
  obtain ⟨c, r, rfl, hc, hk⟩ := h
  obtain ⟨h1, h2⟩ := takeWhile_blanks (4 * d) r hc
  rw [Layout.newline, List.cons_append, laid, if_neg (by decide)]
  rw [show isOpen '\n' = false by decide, show isClose '\n' = false by decide]
  simp only [Bool.false_eq_true, if_false]
  rw [laid_blanks]
  have : follows d '\n' (List.replicate (4 * d) ' ' ++ c :: r) = true := by
    rw [follows, if_pos rfl, lineStart, h2, h1]
    simp [hk]
  rw [this, Bool.true_and]

theorem laid_close (d : Nat) {c : Char} (hc : isClose c = true) (t : Str) :
    laid (d + 1) (Layout.newline .indent4 d ++ c :: t) = laid d t := by
  have hb : c ≠ ' ' := by rintro rfl; revert hc; decide
  obtain ⟨h1, h2⟩ := takeWhile_blanks (4 * d) t hb
  rw [Layout.newline, List.cons_append, laid, if_neg (by decide)]
  rw [show isOpen '\n' = false by decide, show isClose '\n' = false by decide]
  simp only [Bool.false_eq_true, if_false]
  rw [laid_blanks]
  have : follows (d + 1) '\n' (List.replicate (4 * d) ' ' ++ c :: t) = true := by
    rw [follows, if_pos rfl, lineStart, h2, h1]
    simp [hc]
  rw [this, Bool.true_and, laid]
  have hq : c ≠ '"' := by rintro rfl; revert hc; decide
  have hn : c ≠ '\n' := by rintro rfl; revert hc; decide
  have hm : c ≠ ',' := by rintro rfl; revert hc; decide
  have ho : isOpen c = false := by
    unfold isClose at hc
    simp only [Bool.or_eq_true, decide_eq_true_eq] at hc
    rcases hc with rfl | rfl <;> decide
  simp [hq, follows, hn, hm, ho, hc]

theorem laid_open (d : Nat) {c : Char} (hc : isOpen c = true) (t : Str) : laid d (c :: (Layout.newline .indent4 (d + 1) ++ t)) = laid (d + 1) (Layout.newline .indent4 (d + 1) ++ t) := by
  rw [laid]
  have hq : c ≠ '"' := by rintro rfl; revert hc; decide
  have hn : c ≠ '\n' := by rintro rfl; revert hc; decide
  have hm : c ≠ ',' := by rintro rfl; revert hc; decide
  simp [hq, follows, hn, hm, hc, Layout.newline]

theorem laid_empty (d : Nat) {c e : Char} (hc : isOpen c = true) (he : isClose e = true) (t : Str) : laid d (c :: e :: t) = laid d t := by
  rw [laid, laid]
  have hq : c ≠ '"' := by rintro rfl; revert hc; decide
  have hn : c ≠ '\n' := by rintro rfl; revert hc; decide
  have hm : c ≠ ',' := by rintro rfl; revert hc; decide
  have hq' : e ≠ '"' := by rintro rfl; revert he; decide
  have hn' : e ≠ '\n' := by rintro rfl; revert he; decide
  have hm' : e ≠ ',' := by rintro rfl; revert he; decide
  have ho : isOpen e = false := by
    unfold isClose at he
    simp only [Bool.or_eq_true, decide_eq_true_eq] at he
    rcases he with rfl | rfl <;> decide
  simp [hq, hn, hm, hc, he, hq', hn', hm', ho, follows]

theorem laid_separator (d : Nat) {t : Str} (h : Starts t) : laid d (Layout.separator .indent4 d ++ t) = laid d t := by
  rw [Layout.separator, List.cons_append, laid, if_neg (by decide)]
  rw [show isOpen ',' = false by decide, show isClose ',' = false by decide]
  simp only [Bool.false_eq_true, if_false]
  rw [laid_newline d h]
  simp [follows, Layout.newline]

theorem natStr_digits (n : Nat) : ∀ c ∈ natStr n, '0' ≤ c ∧ c ≤ '9' := by
  induction n using natStr.induct with
  | case1 n h =>
    rw [natStr, if_pos h]
    intro c hc
    rw [List.mem_singleton] at hc
    subst hc
    exact ⟨(digit_char n h).1, (digit_char n h).2.1⟩
  | case2 n h ih =>
    rw [natStr, if_neg h]
    intro c hc
    rcases List.mem_append.1 hc with hc | hc
    · exact ih c hc
    · rw [List.mem_singleton] at hc
      subst hc
      exact ⟨(digit_char (n % 10) (by omega)).1, (digit_char (n % 10) (by omega)).2.1⟩

theorem inert_digit {c : Char} (h : '0' ≤ c ∧ c ≤ '9') : Inert c := by
  refine ⟨?_, ?_, ?_, ?_, ?_, ?_, ?_, ?_⟩ <;> rintro rfl <;> revert h <;> decide

theorem inert_encodeInt (i : Int) : ∀ c ∈ encodeInt i, Inert c := by
  intro c hc
  unfold encodeInt at hc
  split at hc
  · rcases List.mem_cons.1 hc with rfl | hc
    · decide
    · exact inert_digit (natStr_digits _ c hc)
  · exact inert_digit (natStr_digits _ c hc)

variable [JsonRt F]

theorem inert_lit {s : Str} (h : s.all (fun c => decide (Inert c)) = true) : ∀ c ∈ s, Inert c := fun c hc => of_decide_eq_true (List.all_eq_true.1 h c hc)

theorem inert_encodeFloat (f : F) : ∀ c ∈ encodeFloat f, Inert c := by
  unfold encodeFloat
  split
  · exact inert_lit (by decide)
  split
  · exact inert_lit (by decide)
  split
  · exact inert_lit (by decide)
  rename_i h1 h2 h3
  obtain ⟨sg, ip, fr, ex, e, hs, hi, hf, hx, -⟩ := JsonRt.frepr_shape f (by simpa using h1) (by simpa using h2) (by simpa using h3)
  rw [e]
  intro c hc
  simp only [List.mem_append] at hc
  rcases hc with ((hc | hc) | hc) | hc
  · rcases hs with rfl | rfl
    · cases hc
    · rw [List.mem_singleton] at hc; subst hc; decide
  · rcases hi with rfl | ⟨a, r, rfl, h, h', hd⟩
    · rw [List.mem_singleton] at hc; subst hc; decide
    · rcases List.mem_cons.1 hc with rfl | hc
      · exact inert_digit ⟨Char.le_trans (by decide) h, h'⟩
      · exact inert_digit (hd c hc)
  · rcases hf with rfl | ⟨r, rfl, -, hd⟩
    · cases hc
    · rcases List.mem_cons.1 hc with rfl | hc
      · decide
      · exact inert_digit (hd c hc)
  · rcases hx with rfl | ⟨s, r, rfl, hs, -, hd⟩
    · cases hc
    · rcases List.mem_cons.1 hc with rfl | hc
      · decide
      · rcases List.mem_append.1 hc with hc | hc
        · rcases hs with rfl | rfl | rfl
          · cases hc
          · rw [List.mem_singleton] at hc; subst hc; decide
          · rw [List.mem_singleton] at hc; subst hc; decide
        · exact inert_digit (hd c hc)

theorem starts_inert {s : Str} (h : ∀ c ∈ s, Inert c) (hn : s ≠ []) : Starts s := by
  cases s with
  | nil => exact absurd rfl hn
  | cons c r =>
    obtain ⟨_, _, _, _, _, h6, h7, h8⟩ := h c (by simp)
    exact ⟨c, r, rfl, h8, by simp [isClose, h6, h7]⟩

theorem natStr_ne (n : Nat) : natStr n ≠ [] := by
  rw [natStr]; split <;> simp

theorem starts_encodeAt (l : Layout) (n : Nat) (v : JVal F) : Starts (encodeAt l n v) := by
  cases v with
  | null => exact ⟨'n', _, rfl, by decide, by decide⟩
  | bool b => cases b <;> exact ⟨_, _, rfl, by decide, by decide⟩
  | int i =>
    simp only [encodeAt]
    refine starts_inert (inert_encodeInt i) ?_
    unfold encodeInt; split
    · simp
    · exact natStr_ne _
  | flt f =>
    simp only [encodeAt]
    refine starts_inert (inert_encodeFloat f) ?_
    have := value_pos (encodeFloat_value f)
    intro h; rw [h] at this; simp at this
  | str s => simp only [encodeAt, encodeStr]; exact ⟨'"', _, rfl, by decide, by decide⟩
  | list x => cases x <;> simp only [encodeAt] <;> exact ⟨'[', _, rfl, by decide, by decide⟩
  | dict x => cases x with
    | nil => simp only [encodeAt]; exact ⟨'{', _, rfl, by decide, by decide⟩
    | cons p r => obtain ⟨k, v⟩ := p; simp only [encodeAt]; exact ⟨'{', _, rfl, by decide, by decide⟩

theorem starts_encodeStr (s : Str) : Starts (encodeStr s) := ⟨'"', _, rfl, by decide, by decide⟩

mutual
theorem laid_encodeAt (d : Nat) : ∀ (v : JVal F) (t : Str), laid d (encodeAt .indent4 d v ++ t) = laid d t
  | .null, t => by simp only [encodeAt]; exact laid_inert d (s := s!!"null") (inert_lit (by decide)) t
  | .bool true, t => by simp only [encodeAt]; exact laid_inert d (s := s!!"true") (inert_lit (by decide)) t
  | .bool false, t => by simp only [encodeAt]; exact laid_inert d (s := s!!"false") (inert_lit (by decide)) t
  | .int i, t => by simp only [encodeAt]; exact laid_inert d (inert_encodeInt i) t
  | .flt f, t => by simp only [encodeAt]; exact laid_inert d (inert_encodeFloat f) t
  | .str s, t => by simp only [encodeAt]; exact laid_string d s t
  | .list [], t => by simp only [encodeAt]; exact laid_empty d (by decide) (by decide) t
  | .list (v :: r), t => by
    simp only [encodeAt, List.cons_append, List.append_assoc, List.nil_append]
    rw [laid_open d (by decide), laid_newline (d + 1) ((starts_encodeAt _ _ _).append _), laid_encodeAt (d + 1) v, laid_encodeMore (d + 1) r,
      laid_close d (by decide)]
  | .dict [], t => by simp only [encodeAt]; exact laid_empty d (by decide) (by decide) t
  | .dict ((k, v) :: r), t => by
    simp only [encodeAt, List.cons_append, List.append_assoc, List.nil_append]
    rw [laid_open d (by decide), laid_newline (d + 1) ((starts_encodeStr _).append _), laid_string, laid_one (d + 1) (by decide) (by decide) (by decide) (by decide) (by decide),
      laid_one (d + 1) (by decide) (by decide) (by decide) (by decide) (by decide), laid_encodeAt (d + 1) v, laid_encodeMembers (d + 1) r,
      laid_close d (by decide)]
theorem laid_encodeMore (d : Nat) : ∀ (l : List (JVal F)) (t : Str), laid d (encodeMore .indent4 d l ++ t) = laid d t
  | [], t => by simp only [encodeMore, List.nil_append]
  | v :: r, t => by
    simp only [encodeMore, List.append_assoc]
    rw [laid_separator d ((starts_encodeAt _ _ _).append _), laid_encodeAt d v, laid_encodeMore d r]
theorem laid_encodeMembers (d : Nat) : ∀ (l : List (Str × JVal F)) (t : Str), laid d (encodeMembers .indent4 d l ++ t) = laid d t
  | [], t => by simp only [encodeMembers, List.nil_append]
  | (k, v) :: r, t => by
    simp only [encodeMembers, List.append_assoc, List.cons_append, List.nil_append]
    rw [laid_separator d ((starts_encodeStr _).append _), laid_string, laid_one d (by decide) (by decide) (by decide) (by decide) (by decide),
      laid_one d (by decide) (by decide) (by decide) (by decide) (by decide), laid_encodeAt d v, laid_encodeMembers d r]
end

theorem laid_encode (v : JVal F) : laid 0 (encode .indent4 v) = true := by
  have := laid_encodeAt 0 v []
  rw [List.append_nil] at this
  rw [encode, this]
  rfl

/-! ### The compact layout: one line -/

theorem oneLine_encodeStr (s : Str) : '\n' ∉ encodeStr s := by
  have h : ∀ c, '\n' ∉ encodeChar c := by
    intro c hc
    have := encodeChar_spec c
    generalize encodeChar c = t at this hc
    cases this with
    | raw _ _ h => rw [List.mem_singleton] at hc; subst hc; revert h; decide
    | short h => simp [JsonSpec.shortEscapes] at h hc; rcases h with ⟨rfl, _⟩ | ⟨rfl, _⟩ | ⟨rfl, _⟩ | ⟨rfl, _⟩ | ⟨rfl, _⟩ | ⟨rfl, _⟩ | ⟨rfl, _⟩ | ⟨rfl, _⟩ <;> revert hc <;> decide
    | unicode h _ =>
      cases h with
      | mk a b c d =>
        have hx : ∀ {c n}, HexDigit c n → '\n' ≠ c := by
          rintro c n h rfl; cases h <;> rename_i h1 h2 <;> revert h1 h2 <;> decide
        simp [hx a, hx b, hx c, hx d] at hc
    | pair h h' _ _ _ _ =>
      have hx : ∀ {c n}, HexDigit c n → '\n' ≠ c := by
        rintro c n h rfl; cases h <;> rename_i h1 h2 <;> revert h1 h2 <;> decide
      cases h with
      | mk a b c d => cases h' with
        | mk a' b' c' d' => simp [hx a, hx b, hx c, hx d, hx a', hx b', hx c', hx d'] at hc
  intro hc
  simp only [encodeStr, List.mem_cons, List.mem_append, List.mem_flatten, List.mem_map] at hc
  rcases hc with hc | ⟨t, ⟨c, _, rfl⟩, hc⟩ | hc
  · revert hc; decide
  · exact h c hc
  · revert hc; decide

mutual
theorem oneLine_encodeAt (d : Nat) : ∀ (v : JVal F), '\n' ∉ encodeAt .compact d v
  | .null => by simp [encodeAt]
  | .bool true => by simp [encodeAt]
  | .bool false => by simp [encodeAt]
  | .int i => by simp only [encodeAt]; exact fun h => (inert_encodeInt i _ h).2.1 rfl
  | .flt f => by simp only [encodeAt]; exact fun h => (inert_encodeFloat f _ h).2.1 rfl
  | .str s => by simp only [encodeAt]; exact oneLine_encodeStr s
  | .list [] => by simp [encodeAt]
  | .list (v :: r) => by
    have h1 := oneLine_encodeAt (d + 1) v
    have h2 := oneLine_encodeMore (d + 1) r
    simp [encodeAt, Layout.newline, h1, h2]
  | .dict [] => by simp [encodeAt]
  | .dict ((k, v) :: r) => by
    have h1 := oneLine_encodeAt (d + 1) v
    have h2 := oneLine_encodeMembers (d + 1) r
    have h3 := oneLine_encodeStr k
    simp [encodeAt, Layout.newline, h1, h2, h3]
theorem oneLine_encodeMore (d : Nat) : ∀ (l : List (JVal F)), '\n' ∉ encodeMore .compact d l
  | [] => by simp [encodeMore]
  | v :: r => by
    have h1 := oneLine_encodeAt d v
    have h2 := oneLine_encodeMore d r
    simp [encodeMore, Layout.separator, h1, h2]
theorem oneLine_encodeMembers (d : Nat) : ∀ (l : List (Str × JVal F)), '\n' ∉ encodeMembers .compact d l
  | [] => by simp [encodeMembers]
  | (k, v) :: r => by
    have h1 := oneLine_encodeAt d v
    have h2 := oneLine_encodeMembers d r
    have h3 := oneLine_encodeStr k
    simp [encodeMembers, Layout.separator, h1, h2, h3]
end

/-! ### What reading raises -/

/-- the errors of reading -/
def ReadErr (x : Err) : Prop := x = .value ∨ x = .unmodelled ∨ x = .diverge

theorem scanEscape_err {s : Str} {x : Err} (h : scanEscape s = .error x) : ReadErr x := by
  unfold scanEscape chr at h
  repeat' split at h
  all_goals first
    | (cases h; done)
    | (injection h with h; subst h; first | exact .inl rfl | exact .inr (.inl rfl))
    | (simp only [Except.map] at h; first | (cases h; done) | (injection h with h; subst h; first | exact .inl rfl | exact .inr (.inl rfl)))

theorem scanString_err (n : Nat) : ∀ {s : Str} {x : Err}, scanString n s = .error x → ReadErr x := by
  induction n with
  | zero => intro s x h; simp only [scanString] at h; injection h with h; exact .inr (.inr h.symm)
  | succ n ih =>
    intro s x h
    cases s with
    | nil => simp only [scanString] at h; injection h with h; exact .inl h.symm
    | cons c r =>
      simp only [scanString] at h
      split at h
      · cases h
      split at h
      · split at h
        · rename_i e he; injection h with h; subst h; exact scanEscape_err he
        · split at h
          · rename_i e he; injection h with h; subst h; exact ih he
          · cases h
      split at h
      · injection h with h; exact .inl h.symm
      · split at h
        · rename_i e he; injection h with h; subst h; exact ih he
        · cases h

theorem scanAtom_err {s : Str} {x : Err} (h : scanAtom (F := F) s = .error x) : ReadErr x := by
  unfold scanAtom at h
  simp only at h
  repeat' split at h
  all_goals first
    | (cases h; done)
    | (injection h with h; exact .inl h.symm)

theorem scan_err (n : Nat) :
    (∀ {s : Str} {x : Err}, scan (F := F) n s = .error x → ReadErr x) ∧
    (∀ {s : Str} {x : Err}, scanItems (F := F) n s = .error x → ReadErr x) ∧
    (∀ {s : Str} {x : Err}, scanMembers (F := F) n s = .error x → ReadErr x) := by
  have hv : ∀ {x : Err}, Err.value = x → ReadErr x := fun h => .inl h.symm
  induction n with
  | zero =>
    refine ⟨?_, ?_, ?_⟩ <;> intro s x h
    · simp only [scan] at h; injection h with h; exact .inr (.inr h.symm)
    · simp only [scanItems] at h; injection h with h; exact .inr (.inr h.symm)
    · simp only [scanMembers] at h; injection h with h; exact .inr (.inr h.symm)
  | succ n ih =>
    obtain ⟨ih1, ih2, ih3⟩ := ih
    refine ⟨?_, ?_, ?_⟩ <;> intro s x h
    · cases s with
      | nil => simp only [scan] at h; injection h with h; exact hv h
      | cons c s =>
        simp only [scan] at h
        split at h
        · split at h
          · rename_i e he; injection h with h; subst h; exact scanString_err _ he
          · cases h
        split at h
        · split at h
          · cases h
          · split at h
            · rename_i e he; injection h with h; subst h; exact ih3 he
            · cases h
          · injection h with h; exact hv h
        split at h
        · split at h
          · cases h
          · split at h
            · rename_i e he; injection h with h; subst h; exact ih2 he
            · cases h
        · exact scanAtom_err h
    · simp only [scanItems] at h
      split at h
      · rename_i e he; injection h with h; subst h; exact ih1 he
      · split at h
        · cases h
        · split at h
          · rename_i e he; injection h with h; subst h; exact ih2 he
          · cases h
        · injection h with h; exact hv h
    · simp only [scanMembers] at h
      split at h
      · rename_i e he; injection h with h; subst h; exact scanString_err _ he
      · split at h
        · split at h
          · rename_i e he; injection h with h; subst h; exact ih1 he
          · split at h
            · cases h
            · split at h
              · split at h
                · rename_i e he; injection h with h; subst h; exact ih3 he
                · cases h
              · injection h with h; exact hv h
            · injection h with h; exact hv h
        · injection h with h; exact hv h

/-- reading fails with ValueError; texts with lone surrogate escapes are not modelled -/
theorem decode_err {s : Str} {x : Err} (h : decode (F := F) s = .error x) : x = .value ∨ x = .unmodelled := by
  have h3 : ReadErr x := by
    have h' := h
    unfold decode at h'
    repeat' split at h'
    all_goals first
      | (cases h'; done)
      | (injection h' with h'; exact .inl h'.symm)
      | (rename_i e he; injection h' with h'; subst h'; exact (scan_err _).1 he)
  rcases h3 with h3 | h3 | h3
  · exact .inl h3
  · exact .inr h3
  · subst h3; exact absurd h (decode_ends s)

end Spine.JsonText
