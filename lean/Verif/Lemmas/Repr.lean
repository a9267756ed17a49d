import Verif.Spec.Repr
import Verif.Lemmas.List
import Verif.Lemmas.JsonLayout
/- `repr` can be read back: different values are written differently. -/
namespace Spine
namespace Repr
open JsonText (hexDigit encodeInt)
variable {F : Type} {pr : Char → Bool}

/-! ### Hex digits -/

def digit (c : Char) : Nat := if c.toNat < 58 then c.toNat - 48 else c.toNat - 87

def unhex (s : Str) : Nat := s.foldl (fun a c => 16 * a + digit c) 0

theorem digit_hexDigit : ∀ n < 16, digit (hexDigit n) = n := by decide

theorem length_hex : ∀ k n, (hex k n).length = k
  | 0, _ => rfl
  | k + 1, n => by simp [hex, length_hex k]

theorem unhex_hex : ∀ k n, n < 16 ^ k → unhex (hex k n) = n
  | 0, n, h => by simp at h; subst h; rfl
  | k + 1, n, h => by
    have h1 : n / 16 < 16 ^ k := by
      rw [Nat.div_lt_iff_lt_mul (by decide)]; rwa [Nat.pow_succ] at h
    have := unhex_hex k _ h1
    unfold unhex at this ⊢
    rw [hex, List.foldl_append, this]
    show 16 * (n / 16) + digit (hexDigit (n % 16)) = n
    rw [digit_hexDigit _ (Nat.mod_lt _ (by decide))]
    omega

/-! ### Strings -/

/-- the first character of the text between the quotes -/
def unchar : Str → Option (Char × Str)
  | '\\' :: 't' :: r => some ('\t', r)
  | '\\' :: 'n' :: r => some ('\n', r)
  | '\\' :: 'r' :: r => some ('\r', r)
  | '\\' :: 'x' :: r => some (Char.ofNat (unhex (r.take 2)), r.drop 2)
  | '\\' :: 'u' :: r => some (Char.ofNat (unhex (r.take 4)), r.drop 4)
  | '\\' :: 'U' :: r => some (Char.ofNat (unhex (r.take 8)), r.drop 8)
  | '\\' :: c :: r => some (c, r)
  | c :: r => some (c, r)
  | [] => none

theorem unchar_plain {c : Char} (h : c ≠ '\\') (r : Str) : unchar (c :: r) = some (c, r) := by
  unfold unchar
  split <;> simp_all

theorem take_hex (k n : Nat) (r : Str) : (hex k n ++ r).take k = hex k n := by
  rw [List.take_append_of_le_length (by rw [length_hex]; exact Nat.le_refl _), List.take_of_length_le (by rw [length_hex]; exact Nat.le_refl _)]

theorem drop_hex (k n : Nat) (r : Str) : (hex k n ++ r).drop k = r := by
  rw [List.drop_append_of_le_length (by rw [length_hex]; exact Nat.le_refl _), List.drop_of_length_le (by rw [length_hex]; exact Nat.le_refl _), List.nil_append]

theorem toNat_lt (c : Char) : c.toNat < 16 ^ 8 := by
  have : c.toNat < UInt32.size := c.val.toNat_lt
  exact Nat.lt_of_lt_of_le this (by decide)

theorem unchar_char {q : Char} (hq : q = '\'' ∨ q = '"') (c : Char) (r : Str) : unchar (char pr q c ++ r) = some (c, r) := by
  unfold char
  split
  · rename_i h
    have : c = '\'' ∨ c = '"' ∨ c = '\\' := by
      rcases h with h | h
      · subst h; rcases hq with h | h <;> simp [h]
      · simp [h]
    rcases this with rfl | rfl | rfl <;> rfl
  rename_i h0
  have hb : c ≠ '\\' := fun h => h0 (.inr h)
  split
  · rename_i h; subst h; rfl
  split
  · rename_i h; subst h; rfl
  split
  · rename_i h; subst h; rfl
  have hx : ∀ n, c.toNat = n → n < 16 ^ 2 → unchar ('\\' :: 'x' :: hex 2 n ++ r) = some (c, r) := by
    intro n hn hl
    show some (Char.ofNat (unhex ((hex 2 n ++ r).take 2)), (hex 2 n ++ r).drop 2) = _
    rw [take_hex, drop_hex, unhex_hex 2 n hl, ← hn, Char.ofNat_toNat]
  split
  · rename_i h
    exact hx _ rfl (by rcases h with h | h <;> omega)
  split
  · exact unchar_plain hb r
  split
  · exact unchar_plain hb r
  split
  · exact hx _ rfl (by omega)
  split
  · show some (Char.ofNat (unhex ((hex 4 c.toNat ++ r).take 4)), (hex 4 c.toNat ++ r).drop 4) = _
    rw [take_hex, drop_hex, unhex_hex 4 _ (by omega), Char.ofNat_toNat]
  · show some (Char.ofNat (unhex ((hex 8 c.toNat ++ r).take 8)), (hex 8 c.toNat ++ r).drop 8) = _
    rw [take_hex, drop_hex, unhex_hex 8 _ (toNat_lt c), Char.ofNat_toNat]

theorem char_head {q : Char} (hq : q = '\'' ∨ q = '"') (c : Char) (r s : Str) : char pr q c ++ r ≠ q :: s := by
  have hb : q ≠ '\\' := by rcases hq with rfl | rfl <;> decide
  unfold char
  intro h
  have hs : ∀ x : Str, '\\' :: x ++ r = q :: s → False := by
    intro x h; injection h with h _; exact hb h.symm
  split at h
  · exact hs _ h
  rename_i h0
  have hc : [c] ++ r = q :: s → False := by
    intro h; injection h with h _; exact h0 (.inl h)
  split at h
  · exact hs _ h
  split at h
  · exact hs _ h
  split at h
  · exact hs _ h
  split at h
  · exact hs _ h
  split at h
  · exact hc h
  split at h
  · exact hc h
  split at h
  · exact hs _ h
  split at h
  · exact hs _ h
  · exact hs _ h

theorem body_cancel {q : Char} (hq : q = '\'' ∨ q = '"') : ∀ {s t r r' : Str}, body pr q s ++ q :: r = body pr q t ++ q :: r' → s = t ∧ r = r'
  | [], [], r, r', h => by
    simp only [body, List.nil_append, List.cons.injEq, true_and] at h
    exact ⟨rfl, h⟩
  | [], d :: t, r, r', h => by
    simp only [body, List.nil_append, List.append_assoc] at h
    exact absurd h.symm (char_head hq _ _ _)
  | c :: s, [], r, r', h => by
    simp only [body, List.nil_append, List.append_assoc] at h
    exact absurd h (char_head hq _ _ _)
  | c :: s, d :: t, r, r', h => by
    simp only [body, List.append_assoc] at h
    have h1 := congrArg unchar h
    rw [unchar_char hq, unchar_char hq] at h1
    injection h1 with h1
    injection h1 with h1 h2
    obtain ⟨h3, h4⟩ := body_cancel hq h2
    exact ⟨by rw [h1, h3], h4⟩

theorem quote_is (s : Str) : quote s = '\'' ∨ quote s = '"' := by
  unfold quote; split <;> simp

/-- a string is written so that one can see where it ends and what it is -/
theorem str_cancel {s t r r' : Str} (h : str pr s ++ r = str pr t ++ r') : s = t ∧ r = r' := by
  unfold str at h
  simp only [List.cons_append, List.append_assoc, List.nil_append] at h
  injection h with h1 h2
  rw [← h1] at h2
  exact body_cancel (quote_is s) h2

theorem str_head (s : Str) : ∃ q r, str pr s = q :: r ∧ (q = '\'' ∨ q = '"') := ⟨_, _, rfl, quote_is s⟩

theorem str_inj {s t : Str} (h : str pr s = str pr t) : s = t :=
  (str_cancel (r := []) (r' := []) (by rw [h])).1

theorem strs_cancel : ∀ {l m : List Str} {r r' : Str}, join (l.map (str pr)) ++ ']' :: r = join (m.map (str pr)) ++ ']' :: r' → l = m ∧ r = r'
  | [], [], r, r', h => by simpa [join] using h
  | [], b :: m, r, r', h => by
    exfalso
    obtain ⟨q, x, e, hq⟩ := str_head (pr := pr) b
    have : join ((b :: m).map (str pr)) = q :: (join ((b :: m).map (str pr))).tail := by
      cases m <;> simp [join, e]
    rw [this] at h
    simp only [List.map_nil, join, List.nil_append, List.cons_append] at h
    injection h with h _
    rcases hq with rfl | rfl <;> revert h <;> decide
  | a :: l, [], r, r', h => by
    exfalso
    obtain ⟨q, x, e, hq⟩ := str_head (pr := pr) a
    have : join ((a :: l).map (str pr)) = q :: (join ((a :: l).map (str pr))).tail := by
      cases l <;> simp [join, e]
    rw [this] at h
    simp only [List.map_nil, join, List.nil_append, List.cons_append] at h
    injection h with h _
    rcases hq with rfl | rfl <;> revert h <;> decide
  | [a], [b], r, r', h => by
    simp only [List.map_cons, List.map_nil, join] at h
    obtain ⟨h1, h2⟩ := str_cancel h
    injection h2 with _ h2
    exact ⟨by rw [h1], h2⟩
  | [a], b :: c :: m, r, r', h => by
    simp only [List.map_cons, List.map_nil, join, List.append_assoc] at h
    obtain ⟨_, h2⟩ := str_cancel h
    injection h2 with h2 _
    exact absurd h2 (by decide)
  | a :: c :: l, [b], r, r', h => by
    simp only [List.map_cons, List.map_nil, join, List.append_assoc] at h
    obtain ⟨_, h2⟩ := str_cancel h
    injection h2 with h2 _
    exact absurd h2 (by decide)
  | a :: c :: l, b :: d :: m, r, r', h => by
    simp only [List.map_cons, join, List.append_assoc] at h
    obtain ⟨h1, h2⟩ := str_cancel h
    injection h2 with _ h2
    injection h2 with _ h2
    obtain ⟨h3, h4⟩ := strs_cancel (l := c :: l) (m := d :: m) (by simpa using h2)
    exact ⟨by rw [h1, h3], h4⟩

/-- lists of strings are written so that one can see where they end and what they are -/
theorem list_cancel {l m : List Str} {r r' : Str} (h : strs pr l ++ r = strs pr m ++ r') : l = m ∧ r = r' := by
  unfold strs at h
  simp only [List.cons_append, List.append_assoc, List.nil_append, List.cons.injEq, true_and] at h
  exact strs_cancel h

theorem strs_inj {l m : List Str} (h : strs pr l = strs pr m) : l = m :=
  (list_cancel (r := []) (r' := []) (by rw [h])).1

/-! ### Values -/

/-- the text after a value inside a list or dictionary, or at the end -/
def Delim (r : Str) : Prop := ∀ c ∈ r.head?, Stop c

theorem word_cancel {w v r r' : Str} (hw : Word w) (hv : Word v) (hr : Delim r) (hr' : Delim r') (h : w ++ r = v ++ r') : w = v ∧ r = r' := by
  have key : ∀ {w r : Str}, (∀ c ∈ w, ¬ Stop c) → Delim r → (w ++ r).takeWhile (fun c => ¬ Stop c) = w := by
    intro w r hw hr
    rw [List.takeWhile_append_of_pos (by simpa using hw)]
    cases r with
    | nil => simp
    | cons c r =>
      have := hr c rfl
      rw [List.takeWhile_cons_of_neg (by simpa using this), List.append_nil]
  have h1 := key hw.stop hr
  rw [h, key hv.stop hr'] at h1
  subst h1
  exact ⟨rfl, List.append_cancel_left h⟩

def Scalar : JVal F → Prop
  | .null | .bool _ | .int _ | .flt _ => True
  | _ => False

theorem encodeInt_word (i : Int) : Word (encodeInt i) := by
  have hd : ∀ n, ∀ c ∈ natStr n, ¬ Stop c ∧ c ≠ '\'' ∧ c ≠ '"' ∧ c ≠ '[' ∧ c ≠ '{' := by
    intro n c hc
    have := JsonText.natStr_digits n c hc
    have h1 : c.toNat ≤ 57 := this.2
    have h2 : 48 ≤ c.toNat := this.1
    have hne : ∀ d : Char, d.toNat < 48 ∨ 57 < d.toNat → c ≠ d := by
      rintro d hd rfl; omega
    exact ⟨by rintro (h | h | h) <;> exact hne _ (by decide) h, hne _ (by decide), hne _ (by decide), hne _ (by decide), hne _ (by decide)⟩
  unfold encodeInt
  split
  · refine ⟨by simp, ?_, ?_⟩
    · intro c hc
      rcases List.mem_cons.1 hc with rfl | hc
      · decide
      · exact (hd _ c hc).1
    · intro c hc; simp at hc; subst hc; decide
  · refine ⟨natStr_ne_nil _, fun c hc => (hd _ c hc).1, ?_⟩
    intro c hc
    exact (hd _ c (List.mem_of_mem_head? hc)).2

theorem encodeInt_inj {i j : Int} (h : encodeInt i = encodeInt j) : i = j := by
  have hd : ∀ n m, natStr n ≠ '-' :: m := by
    intro n m hc
    have := JsonText.natStr_digits n '-' (by rw [hc]; simp)
    exact absurd this.1 (by decide)
  unfold encodeInt at h
  split at h <;> split at h
  · injection h with _ h
    have := natStr_inj h
    omega
  · exact absurd h.symm (hd _ _)
  · exact absurd h (hd _ _)
  · have := natStr_inj h
    omega

theorem encodeInt_head (i : Int) : ∃ c r, encodeInt i = c :: r ∧ (c = '-' ∨ '0' ≤ c ∧ c ≤ '9') := by
  unfold encodeInt
  split
  · exact ⟨_, _, rfl, .inl rfl⟩
  · cases h : natStr i.natAbs with
    | nil => exact absurd h (natStr_ne_nil _)
    | cons c r => exact ⟨c, r, rfl, .inr (JsonText.natStr_digits i.natAbs c (by rw [h]; simp))⟩

theorem encodeInt_named (i : Int) : encodeInt i ≠ s!!"None" ∧ encodeInt i ≠ s!!"True" ∧ encodeInt i ≠ s!!"False" := by
  obtain ⟨c, r, e, h⟩ := encodeInt_head i
  rw [e]
  refine ⟨?_, ?_, ?_⟩ <;> intro hc <;> injection hc with hc _ <;> subst hc <;> revert h <;> decide

variable {fr : F → Str}

theorem scalar_word (hf : Floats fr) {a : JVal F} (h : Scalar a) : Word (val pr fr a) := by
  cases a with
  | null => exact ⟨by simp [val], by simp only [val]; decide, by simp only [val]; decide⟩
  | bool b => cases b <;> exact ⟨by simp [val], by simp only [val]; decide, by simp only [val]; decide⟩
  | int i => exact encodeInt_word i
  | flt f => exact hf.word f
  | str _ => cases h
  | list _ => cases h
  | dict _ => cases h

theorem scalar_inj (hf : Floats fr) {a b : JVal F} (ha : Scalar a) (hb : Scalar b) (h : val pr fr a = val pr fr b) : a = b := by
  have hi := encodeInt_named
  have hn := hf.named
  have hg := hf.int
  cases a with
  | null =>
    cases b with
    | null => rfl
    | bool x => cases x <;> exact absurd h (by simp only [val]; decide)
    | int i => exact absurd h.symm (hi i).1
    | flt f => exact absurd h.symm (hn f).1
    | _ => cases hb
  | bool x =>
    cases b with
    | null => cases x <;> exact absurd h (by simp only [val]; decide)
    | bool y => cases x <;> cases y <;> first | rfl | exact absurd h (by simp only [val]; decide)
    | int i => cases x <;> first | exact absurd h.symm (hi i).2.1 | exact absurd h.symm (hi i).2.2
    | flt f => cases x <;> first | exact absurd h.symm (hn f).2.1 | exact absurd h.symm (hn f).2.2
    | _ => cases hb
  | int i =>
    cases b with
    | null => exact absurd h (hi i).1
    | bool y => cases y <;> first | exact absurd h (hi i).2.1 | exact absurd h (hi i).2.2
    | int j => rw [encodeInt_inj h]
    | flt f => exact absurd h.symm (hg f i)
    | _ => cases hb
  | flt f =>
    cases b with
    | null => exact absurd h (hn f).1
    | bool y => cases y <;> first | exact absurd h (hn f).2.1 | exact absurd h (hn f).2.2
    | int j => exact absurd h (hg f j)
    | flt g => rw [hf.inj _ _ h]
    | _ => cases hb
  | _ => cases ha

/-- what a text begins like -/
def look : Str → Nat
  | [] => 0
  | c :: _ => if c = '\'' ∨ c = '"' then 1 else if c = '[' then 2 else if c = '{' then 3 else 0

def kindNo : JVal F → Nat
  | .str _ => 1
  | .list _ => 2
  | .dict _ => 3
  | _ => 0

theorem look_word {w : Str} (h : Word w) (r : Str) : look (w ++ r) = 0 := by
  cases w with
  | nil => exact absurd rfl h.ne
  | cons c w =>
    have := h.head c rfl
    simp [look, this]

theorem look_val (hf : Floats fr) (a : JVal F) (r : Str) : look (val pr fr a ++ r) = kindNo a := by
  cases a with
  | str s =>
    obtain ⟨q, x, e, hq⟩ := str_head (pr := pr) s
    simp only [val, e, List.cons_append, look, kindNo]
    rw [if_pos hq]
  | list l => simp [val, look, kindNo]
  | dict d => simp [val, look, kindNo]
  | null => exact look_word (scalar_word hf (a := .null) trivial) r
  | bool b => exact look_word (scalar_word hf (a := .bool b) trivial) r
  | int i => exact look_word (scalar_word hf (a := .int i) trivial) r
  | flt f => exact look_word (scalar_word hf (a := .flt f) trivial) r

theorem val_head (hf : Floats fr) (a : JVal F) : ∃ c r, val pr fr a = c :: r ∧ ¬ Stop c := by
  have hw : Scalar a → ∃ c r, val pr fr a = c :: r ∧ ¬ Stop c := by
    intro h
    have := scalar_word (pr := pr) hf h
    cases e : val pr fr a with
    | nil => exact absurd e this.ne
    | cons c r => exact ⟨c, r, rfl, this.stop c (by rw [e]; simp)⟩
  cases a with
  | str s =>
    obtain ⟨q, x, e, hq⟩ := str_head (pr := pr) s
    exact ⟨q, x, e, by rcases hq with rfl | rfl <;> decide⟩
  | list l => exact ⟨_, _, by rw [val], by decide⟩
  | dict d => exact ⟨_, _, by rw [val], by decide⟩
  | _ => exact hw trivial

/-- the items after the first -/
def more : List Str → Str
  | [] => []
  | a :: r => s!!", " ++ a ++ more r

theorem join_cons (a : Str) (l : List Str) : join (a :: l) = a ++ more l := by
  induction l generalizing a with
  | nil => simp [join, more]
  | cons b l ih => rw [join, ih, more]; simp

theorem delim_more (l : List Str) {c : Char} (hc : Stop c) (r : Str) : Delim (more l ++ c :: r) := by
  intro d hd
  cases l with
  | nil => simp [more] at hd; subst hd; exact hc
  | cons a l => simp [more] at hd; subst hd; decide

theorem snd_lt (a : Str × JVal F) : sizeOf a.2 < sizeOf a := by
  cases a; simp; omega

mutual
/-- a value is written so that one can see where it ends and what it is -/
theorem val_cancel (hf : Floats fr) : ∀ (a b : JVal F) {r r' : Str}, Delim r → Delim r' → val pr fr a ++ r = val pr fr b ++ r' → a = b ∧ r = r' := by
  intro a b r r' hr hr' h
  have hk : kindNo a = kindNo b := by
    have := congrArg look h
    rwa [look_val hf, look_val hf] at this
  have scalars : Scalar a → Scalar b → a = b ∧ r = r' := by
    intro ha hb
    obtain ⟨h1, h2⟩ := word_cancel (scalar_word hf ha) (scalar_word hf hb) hr hr' h
    exact ⟨scalar_inj hf ha hb h1, h2⟩
  cases a with
  | str s =>
    cases b with
    | str t =>
      simp only [val] at h
      obtain ⟨h1, h2⟩ := str_cancel h
      exact ⟨by rw [h1], h2⟩
    | _ => cases hk
  | list l =>
    cases b with
    | list m =>
      simp only [val, List.cons_append, List.append_assoc, List.cons.injEq, true_and, List.nil_append] at h
      obtain ⟨h1, h2⟩ := list_cancelV hf l m h
      exact ⟨by rw [h1], h2⟩
    | _ => cases hk
  | dict d =>
    cases b with
    | dict m =>
      simp only [val, List.cons_append, List.append_assoc, List.cons.injEq, true_and, List.nil_append] at h
      obtain ⟨h1, h2⟩ := dict_cancelV hf d m h
      exact ⟨by rw [h1], h2⟩
    | _ => cases hk
  | null => cases b <;> first | exact scalars trivial trivial | cases hk
  | bool x => cases b <;> first | exact scalars trivial trivial | cases hk
  | int i => cases b <;> first | exact scalars trivial trivial | cases hk
  | flt f => cases b <;> first | exact scalars trivial trivial | cases hk
termination_by a => sizeOf a
decreasing_by all_goals (subst_vars; simp; try omega)

theorem list_cancelV (hf : Floats fr) : ∀ (l m : List (JVal F)) {r r' : Str}, join (vals pr fr l) ++ ']' :: r = join (vals pr fr m) ++ ']' :: r' → l = m ∧ r = r' := by
  intro l m r r' h
  cases l with
  | nil =>
    cases m with
    | nil => simpa [vals, join] using h
    | cons b m =>
      exfalso
      obtain ⟨c, x, e, hc⟩ := val_head (pr := pr) hf b
      simp only [vals, join_cons, e, join, List.nil_append, List.cons_append] at h
      injection h with h _
      exact hc (by rw [← h]; decide)
  | cons a l =>
    cases m with
    | nil =>
      exfalso
      obtain ⟨c, x, e, hc⟩ := val_head (pr := pr) hf a
      simp only [vals, join_cons, e, join, List.nil_append, List.cons_append] at h
      injection h with h _
      exact hc (by rw [h]; decide)
    | cons b m =>
      simp only [vals, join_cons, List.append_assoc] at h
      obtain ⟨h1, h2⟩ := val_cancel hf a b (delim_more _ (by decide) _) (delim_more _ (by decide) _) h
      obtain ⟨h3, h4⟩ := more_cancel hf l m h2
      exact ⟨by rw [h1, h3], h4⟩
termination_by l => sizeOf l
decreasing_by all_goals (subst_vars; simp; try omega)

theorem more_cancel (hf : Floats fr) : ∀ (l m : List (JVal F)) {r r' : Str}, more (vals pr fr l) ++ ']' :: r = more (vals pr fr m) ++ ']' :: r' → l = m ∧ r = r' := by
  intro l m r r' h
  cases l with
  | nil =>
    cases m with
    | nil => simpa [vals, more] using h
    | cons b m => simp [vals, more] at h
  | cons a l =>
    cases m with
    | nil => simp [vals, more] at h
    | cons b m =>
      simp only [vals, more, List.append_assoc, List.append_cancel_left_eq] at h
      obtain ⟨h1, h2⟩ := val_cancel hf a b (delim_more _ (by decide) _) (delim_more _ (by decide) _) h
      obtain ⟨h3, h4⟩ := more_cancel hf l m h2
      exact ⟨by rw [h1, h3], h4⟩
termination_by l => sizeOf l
decreasing_by all_goals (subst_vars; simp; try omega)

theorem dict_cancelV (hf : Floats fr) : ∀ (l m : List (Str × JVal F)) {r r' : Str}, join (pairs pr fr l) ++ '}' :: r = join (pairs pr fr m) ++ '}' :: r' → l = m ∧ r = r' := by
  intro l m r r' h
  cases l with
  | nil =>
    cases m with
    | nil => simpa [pairs, join] using h
    | cons b m =>
      exfalso
      obtain ⟨c, x, e, hc⟩ := str_head (pr := pr) b.1
      simp only [pairs, join_cons, e, join, List.nil_append, List.cons_append] at h
      injection h with h _
      rcases hc with rfl | rfl <;> revert h <;> decide
  | cons a l =>
    cases m with
    | nil =>
      exfalso
      obtain ⟨c, x, e, hc⟩ := str_head (pr := pr) a.1
      simp only [pairs, join_cons, e, join, List.nil_append, List.cons_append] at h
      injection h with h _
      rcases hc with rfl | rfl <;> revert h <;> decide
    | cons b m =>
      have hsz := snd_lt a
      simp only [pairs, join_cons, List.append_assoc] at h
      obtain ⟨h0, h⟩ := str_cancel h
      simp only [List.append_cancel_left_eq] at h
      obtain ⟨h1, h2⟩ := val_cancel hf a.2 b.2 (delim_more _ (by decide) _) (delim_more _ (by decide) _) h
      obtain ⟨h3, h4⟩ := moreP_cancel hf l m h2
      exact ⟨by rw [Prod.ext h0 h1, h3], h4⟩
termination_by l => sizeOf l
decreasing_by all_goals (subst_vars; simp; try omega)

theorem moreP_cancel (hf : Floats fr) : ∀ (l m : List (Str × JVal F)) {r r' : Str}, more (pairs pr fr l) ++ '}' :: r = more (pairs pr fr m) ++ '}' :: r' → l = m ∧ r = r' := by
  intro l m r r' h
  cases l with
  | nil =>
    cases m with
    | nil => simpa [pairs, more] using h
    | cons b m => simp [pairs, more] at h
  | cons a l =>
    cases m with
    | nil => simp [pairs, more] at h
    | cons b m =>
      have hsz := snd_lt a
      simp only [pairs, more, List.append_assoc, List.append_cancel_left_eq] at h
      obtain ⟨h0, h⟩ := str_cancel h
      simp only [List.append_cancel_left_eq] at h
      obtain ⟨h1, h2⟩ := val_cancel hf a.2 b.2 (delim_more _ (by decide) _) (delim_more _ (by decide) _) h
      obtain ⟨h3, h4⟩ := moreP_cancel hf l m h2
      exact ⟨by rw [Prod.ext h0 h1, h3], h4⟩
termination_by l => sizeOf l
decreasing_by all_goals (subst_vars; simp; try omega)
end

theorem val_inj (hf : Floats fr) {a b : JVal F} (h : val pr fr a = val pr fr b) : a = b :=
  (val_cancel hf a b (r := []) (r' := []) (by intro c hc; cases hc) (by intro c hc; cases hc) (by rw [h])).1

/-! ### Floats -/

/-- a character of a number -/
def Numeric (c : Char) : Prop := ('0' ≤ c ∧ c ≤ '9') ∨ c = '.' ∨ c = 'e' ∨ c = '+' ∨ c = '-'

theorem Numeric.plain {c : Char} (h : Numeric c) : ¬ Stop c ∧ c ≠ '\'' ∧ c ≠ '"' ∧ c ≠ '[' ∧ c ≠ '{' ∧ c ≠ 'n' ∧ c ≠ 'i' ∧ c ≠ 'N' ∧ c ≠ 'T' ∧ c ≠ 'F' := by
  rcases h with h | h
  · have h1 : c.toNat ≤ 57 := h.2
    have h2 : 48 ≤ c.toNat := h.1
    have hne : ∀ d : Char, d.toNat < 48 ∨ 57 < d.toNat → c ≠ d := by
      rintro d hd rfl; omega
    exact ⟨by rintro (h | h | h) <;> exact hne _ (by decide) h, hne _ (by decide), hne _ (by decide), hne _ (by decide), hne _ (by decide),
      hne _ (by decide), hne _ (by decide), hne _ (by decide), hne _ (by decide), hne _ (by decide)⟩
  · rcases h with rfl | rfl | rfl | rfl <;> decide

/-- the repr of a finite float: characters of numbers, and a point or an exponent -/
theorem frepr_chars [JsonRt F] {f : F} (h1 : PyRt.feq f f = true) (h2 : PyRt.feq f JsonRt.finf = false) (h3 : PyRt.feq f JsonRt.fninf = false) :
    (∀ c ∈ JsonRt.frepr f, Numeric c) ∧ (('.' ∈ JsonRt.frepr f) ∨ 'e' ∈ JsonRt.frepr f) := by
  obtain ⟨sign, ip, frac, exp, e, hs, hi, hfr, hex, hne⟩ := JsonRt.frepr_shape f h1 h2 h3
  rw [e]
  constructor
  · intro c hc
    simp only [List.mem_append] at hc
    rcases hc with ((hc | hc) | hc) | hc
    · rcases hs with rfl | rfl
      · cases hc
      · simp at hc; subst hc; unfold Numeric; decide
    · rcases hi with rfl | ⟨d, r, rfl, hd1, hd2, hr⟩
      · simp at hc; subst hc; unfold Numeric; decide
      · rcases List.mem_cons.1 hc with rfl | hc
        · exact .inl ⟨Char.le_trans (by decide) hd1, hd2⟩
        · exact .inl (hr _ hc)
    · rcases hfr with rfl | ⟨r, rfl, _, hr⟩
      · cases hc
      · rcases List.mem_cons.1 hc with rfl | hc
        · unfold Numeric; decide
        · exact .inl (hr _ hc)
    · rcases hex with rfl | ⟨s, r, rfl, hs', _, hr⟩
      · cases hc
      · rcases List.mem_cons.1 hc with rfl | hc
        · unfold Numeric; decide
        · rcases List.mem_append.1 hc with hc | hc
          · rcases hs' with rfl | rfl | rfl
            · cases hc
            · simp at hc; subst hc; unfold Numeric; decide
            · simp at hc; subst hc; unfold Numeric; decide
          · exact .inl (hr _ hc)
  · rcases hne with hne | hne
    · rcases hfr with rfl | ⟨r, rfl, _, hr⟩
      · exact absurd rfl hne
      · left; simp
    · rcases hex with rfl | ⟨s, r, rfl, _⟩
      · exact absurd rfl hne
      · right; simp

/-- `float.__repr__` as described by `JsonRt` -/
theorem floats [JsonRt F] : Floats (float (F := F)) := by
  have cases4 : ∀ f : F, (f = JsonRt.fnan ∧ float f = s!!"nan" ∧ PyRt.feq f f = false) ∨ (f = JsonRt.finf ∧ float f = s!!"inf") ∨
      (f = JsonRt.fninf ∧ float f = s!!"-inf") ∨
      (float f = JsonRt.frepr f ∧ PyRt.feq f f = true ∧ PyRt.feq f JsonRt.finf = false ∧ PyRt.feq f JsonRt.fninf = false) := by
    intro f
    unfold float
    cases h1 : PyRt.feq f f with
    | false => exact .inl ⟨JsonRt.nan_unique f h1, by simp, rfl⟩
    | true =>
      cases h2 : PyRt.feq f JsonRt.finf with
      | true => exact .inr (.inl ⟨JsonRt.inf_unique f h2, by simp⟩)
      | false =>
        cases h3 : PyRt.feq f JsonRt.fninf with
        | true => exact .inr (.inr (.inl ⟨JsonRt.ninf_unique f h3, by simp⟩))
        | false => exact .inr (.inr (.inr ⟨by simp, rfl, rfl, rfl⟩))
  have fin : ∀ f : F, float f = JsonRt.frepr f → PyRt.feq f f = true → PyRt.feq f JsonRt.finf = false → PyRt.feq f JsonRt.fninf = false →
      (∀ c ∈ float f, Numeric c) ∧ ('.' ∈ float f ∨ 'e' ∈ float f) := by
    intro f e h1 h2 h3
    rw [e]; exact frepr_chars h1 h2 h3
  have letters : ∀ (w : Str) (f : F), ('n' ∈ w ∨ 'i' ∈ w ∨ 'N' ∈ w ∨ 'T' ∈ w ∨ 'F' ∈ w) → float f = JsonRt.frepr f → PyRt.feq f f = true →
      PyRt.feq f JsonRt.finf = false → PyRt.feq f JsonRt.fninf = false → float f ≠ w := by
    intro w f hw e h1 h2 h3 hc
    have := (fin f e h1 h2 h3).1
    rw [hc] at this
    rcases hw with h | h | h | h | h <;> have := (this _ h).plain <;> simp at this
  refine ⟨?_, ?_, ?_, ?_⟩
  · intro f g h
    rcases cases4 f with ⟨e, h1, _⟩ | ⟨e, h1⟩ | ⟨e, h1⟩ | ⟨e, h1, h2, h3⟩ <;>
      rcases cases4 g with ⟨e', h1', _⟩ | ⟨e', h1'⟩ | ⟨e', h1'⟩ | ⟨e', h1', h2', h3'⟩
    all_goals first
      | (rw [e, e']; done)
      | (rw [h1, h1'] at h; exact absurd h (by decide))
      | (rw [h1] at h; exact absurd h.symm (letters _ _ (by decide) e' h1' h2' h3'))
      | (rw [h1'] at h; exact absurd h (letters _ _ (by decide) e h1 h2 h3))
      | skip
    rw [e, e'] at h
    have := JsonRt.fparse_frepr f h1 h2 h3
    rw [h, JsonRt.fparse_frepr g h1' h2' h3'] at this
    injection this with this
    exact this.symm
  · intro f
    rcases cases4 f with ⟨_, e, _⟩ | ⟨_, e⟩ | ⟨_, e⟩ | ⟨e, h1, h2, h3⟩
    · rw [e]; exact ⟨by simp, by decide, by decide⟩
    · rw [e]; exact ⟨by simp, by decide, by decide⟩
    · rw [e]; exact ⟨by simp, by decide, by decide⟩
    · obtain ⟨h4, h5⟩ := fin f e h1 h2 h3
      refine ⟨?_, fun c hc => (h4 c hc).plain.1, fun c hc => ?_⟩
      · intro hc; rw [hc] at h5; simp at h5
      · have := (h4 c (List.mem_of_mem_head? hc)).plain
        exact ⟨this.2.1, this.2.2.1, this.2.2.2.1, this.2.2.2.2.1⟩
  · intro f i hc
    have hd : ∀ c ∈ encodeInt i, c = '-' ∨ '0' ≤ c ∧ c ≤ '9' := by
      intro c hc
      unfold encodeInt at hc
      split at hc
      · rcases List.mem_cons.1 hc with rfl | hc
        · exact .inl rfl
        · exact .inr (JsonText.natStr_digits _ c hc)
      · exact .inr (JsonText.natStr_digits _ c hc)
    rw [← hc] at hd
    rcases cases4 f with ⟨_, e, _⟩ | ⟨_, e⟩ | ⟨_, e⟩ | ⟨e, h1, h2, h3⟩
    · rw [e] at hd; exact absurd (hd 'n' (by simp)) (by decide)
    · rw [e] at hd; exact absurd (hd 'n' (by simp)) (by decide)
    · rw [e] at hd; exact absurd (hd 'n' (by simp)) (by decide)
    · rcases (fin f e h1 h2 h3).2 with h | h
      · exact absurd (hd _ h) (by decide)
      · exact absurd (hd _ h) (by decide)
  · intro f
    rcases cases4 f with ⟨_, e, _⟩ | ⟨_, e⟩ | ⟨_, e⟩ | ⟨e, h1, h2, h3⟩
    · rw [e]; decide
    · rw [e]; decide
    · rw [e]; decide
    · exact ⟨letters _ _ (by decide) e h1 h2 h3, letters _ _ (by decide) e h1 h2 h3, letters _ _ (by decide) e h1 h2 h3⟩

end Repr
end Spine
