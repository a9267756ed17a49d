import Verif.Lemmas.JsonText
import Verif.Lemmas.Dict
import Verif.Spec.Names
/- The writer of JSON texts against the rules of Spec/JsonText.lean. -/
set_option linter.unusedSectionVars false
namespace Spine.JsonText
open JsonSpec (IntPart Digits decimal intValue Frac Exp HexDigit Hex4 CharText Chars Value Items Members Document Consts FloatsAre)
variable {F : Type}

/-! ### Strings -/

theorem hexDigit_spec (n : Nat) (h : n < 16) : HexDigit (hexDigit n) n := by
  rw [← hexVal_iff]
  have : ∀ k : Fin 16, hexVal (hexDigit k) = some k.val := by decide
  exact this ⟨n, h⟩

theorem hex4_uEscape (n : Nat) (h : n < 65536) : ∃ t, uEscape n = '\\' :: 'u' :: t ∧ Hex4 t n := by
  refine ⟨_, rfl, ?_⟩
  have := Hex4.mk (hexDigit_spec (n / 4096 % 16) (by omega)) (hexDigit_spec (n / 256 % 16) (by omega))
    (hexDigit_spec (n / 16 % 16) (by omega)) (hexDigit_spec (n % 16) (by omega))
  rw [show ((n / 4096 % 16 * 16 + n / 256 % 16) * 16 + n / 16 % 16) * 16 + n % 16 = n by omega] at this
  exact this

theorem char_valid (c : Char) : c.toNat < 0xd800 ∨ (0xdfff < c.toNat ∧ c.toNat < 0x110000) := c.valid

theorem ofNat_of {c : Char} {n : Nat} (h : c.toNat = n) : Char.ofNat n = c := by rw [← h, Char.ofNat_toNat]

theorem encodeChar_spec (c : Char) : CharText (encodeChar c) c := by
  unfold encodeChar
  have hv := char_valid c
  split
  · rename_i h; subst h; exact .short (by simp [JsonSpec.shortEscapes])
  split
  · rename_i h; subst h; exact .short (by simp [JsonSpec.shortEscapes])
  split
  · rename_i h; rw [← ofNat_of h]; exact .short (by simp [JsonSpec.shortEscapes])
  split
  · rename_i h; rw [← ofNat_of h]; exact .short (by simp [JsonSpec.shortEscapes])
  split
  · rename_i h; subst h; exact .short (by simp [JsonSpec.shortEscapes])
  split
  · rename_i h; subst h; exact .short (by simp [JsonSpec.shortEscapes])
  split
  · rename_i h; subst h; exact .short (by simp [JsonSpec.shortEscapes])
  split
  · rename_i h1 h2 _ _ _ _ _ h; exact .raw h2 h1 h.1
  split
  · rename_i h
    obtain ⟨t, e, ht⟩ := hex4_uEscape c.toNat h
    have := CharText.unicode ht (by omega)
    rw [Char.ofNat_toNat] at this
    rw [e]; exact this
  · rename_i h
    obtain ⟨t, e, ht⟩ := hex4_uEscape (0xd800 + (c.toNat - 0x10000) / 1024 % 1024) (by omega)
    obtain ⟨t', e', ht'⟩ := hex4_uEscape (0xdc00 + (c.toNat - 0x10000) % 1024) (by omega)
    have := CharText.pair ht ht' (by omega) (by omega) (by omega) (by omega)
    have hc : 0x10000 + ((0xd800 + (c.toNat - 0x10000) / 1024 % 1024 - 0xd800) * 1024 + (0xdc00 + (c.toNat - 0x10000) % 1024 - 0xdc00)) = c.toNat := by omega
    rw [hc, Char.ofNat_toNat] at this
    rw [e, e']; exact this

theorem encodeStr_chars (s : Str) : Chars (s.map encodeChar).flatten s := by
  induction s with
  | nil => exact .nil
  | cons c s ih => exact .cons (encodeChar_spec c) ih

/-! ### Integers -/

theorem decimal_append (s : Str) (c : Char) : decimal (s ++ [c]) = decimal s * 10 + (c.toNat - 48) := by
  simp [decimal, List.foldl_append]

theorem digit_char (n : Nat) (h : n < 10) : '0' ≤ Char.ofNat (48 + n) ∧ Char.ofNat (48 + n) ≤ '9' ∧ (Char.ofNat (48 + n)).toNat - 48 = n ∧ (0 < n → '1' ≤ Char.ofNat (48 + n)) := by
  have : ∀ k : Fin 10, '0' ≤ Char.ofNat (48 + k.val) ∧ Char.ofNat (48 + k.val) ≤ '9' ∧ (Char.ofNat (48 + k.val)).toNat - 48 = k.val ∧ (0 < k.val → '1' ≤ Char.ofNat (48 + k.val)) := by decide
  exact this ⟨n, h⟩

theorem decimal_natStr (n : Nat) : decimal (natStr n) = n := by
  induction n using natStr.induct with
  | case1 n h =>
    rw [natStr, if_pos h]
    simp only [decimal, List.foldl_cons, List.foldl_nil, (digit_char n h).2.2.1]
    omega
  | case2 n h ih =>
    rw [natStr, if_neg h, decimal_append, ih, (digit_char (n % 10) (by omega)).2.2.1]
    omega

theorem natStr_pos (n : Nat) (h0 : 0 < n) : ∃ c r, natStr n = c :: r ∧ '1' ≤ c ∧ c ≤ '9' ∧ Digits r := by
  induction n using natStr.induct with
  | case1 n h =>
    rw [natStr, if_pos h]
    exact ⟨_, _, rfl, (digit_char n h).2.2.2 h0, (digit_char n h).2.1, by intro c hc; cases hc⟩
  | case2 n h ih =>
    obtain ⟨c, r, e, h1, h2, h3⟩ := ih (by omega)
    rw [natStr, if_neg h, e]
    refine ⟨c, _, rfl, h1, h2, ?_⟩
    intro d hd
    rcases List.mem_append.1 hd with hd | hd
    · exact h3 d hd
    · rw [List.mem_singleton.1 hd]
      exact ⟨(digit_char (n % 10) (by omega)).1, (digit_char (n % 10) (by omega)).2.1⟩

theorem natStr_zero : natStr 0 = ['0'] := by rw [natStr]; rfl

theorem intValue_pos {s : Str} (h : HeadNot (· = '-') s) : intValue s = decimal s := by
  unfold intValue
  split
  · have := h _ _ rfl; simp at this
  · rfl

theorem natStr_headNot (n : Nat) : HeadNot (· = '-') (natStr n) := by
  rcases Nat.eq_zero_or_pos n with rfl | h
  · rw [natStr_zero]; exact headNot_cons (by decide)
  · obtain ⟨c, r, e, h1, -, -⟩ := natStr_pos n h
    rw [e]
    refine headNot_cons ?_
    cases hc : decide (c = '-') with
    | false => rfl
    | true => rw [decide_eq_true_iff] at hc; subst hc; exact absurd h1 (by decide)

theorem encodeInt_spec (i : Int) : IntPart (encodeInt i) ∧ intValue (encodeInt i) = i := by
  unfold encodeInt
  split
  · rename_i h
    obtain ⟨c, r, e, h1, h2, h3⟩ := natStr_pos i.natAbs (by omega)
    refine ⟨?_, ?_⟩
    · rw [e]; exact .neg h1 h2 h3
    · simp only [intValue, decimal_natStr]; omega
  · rename_i h
    refine ⟨?_, ?_⟩
    · rcases Nat.eq_zero_or_pos i.natAbs with h0 | h0
      · rw [h0, natStr_zero]; exact .zero
      · obtain ⟨c, r, e, h1, h2, h3⟩ := natStr_pos i.natAbs h0
        rw [e]; exact .pos h1 h2 h3
    · rw [intValue_pos (natStr_headNot _), decimal_natStr]; omega

/-! ### Objects -/

theorem foldl_set_append {α : Type} (l : List (Str × α)) (d : Dict α) (h : ((Dict.keys d) ++ l.map (·.1)).Nodup) :
    l.foldl (fun d p => Dict.set d p.1 p.2) d = d ++ l := by
  induction l generalizing d with
  | nil => simp
  | cons p l ih =>
    have hp : p.1 ∉ Dict.keys d := by
      rw [List.nodup_append] at h
      intro hm
      exact h.2.2 _ hm _ (by simp) rfl
    rw [List.foldl_cons, Dict.set_of_not_mem _ _ _ hp, ih]
    · simp
    · simpa [Dict.keys] using h

theorem object_of_nodup {α : Type} {l : List (Str × α)} (h : (Dict.keys l).Nodup) : JsonSpec.object l = l := by
  have := foldl_set_append l [] (by simpa [Dict.keys] using h)
  simpa [JsonSpec.object] using this

theorem nodup_object {α : Type} (l : List (Str × α)) : (Dict.keys (JsonSpec.object l)).Nodup := by
  have : ∀ (l : List (Str × α)) (d : Dict α), (Dict.keys d).Nodup → (Dict.keys (l.foldl (fun d p => Dict.set d p.1 p.2) d)).Nodup := by
    intro l
    induction l with
    | nil => intro d h; exact h
    | cons p l ih => intro d h; exact ih _ (Dict.nodup_keys_set h _ _)
  exact this l [] (by simp [Dict.keys])

theorem mem_set {α : Type} {d : Dict α} {k : Str} {v : α} {q : Str × α} (h : q ∈ Dict.set d k v) : q ∈ d ∨ q = (k, v) := by
  induction d with
  | nil => simp [Dict.set] at h; exact .inr h
  | cons p d ih =>
    obtain ⟨k', v'⟩ := p
    simp only [Dict.set] at h
    split at h
    · rcases List.mem_cons.1 h with h | h
      · exact .inr h
      · exact .inl (by simp [h])
    · rcases List.mem_cons.1 h with h | h
      · exact .inl (by simp [h])
      · rcases ih h with h | h
        · exact .inl (by simp [h])
        · exact .inr h

theorem mem_object {α : Type} {l : List (Str × α)} {q : Str × α} (h : q ∈ JsonSpec.object l) : q ∈ l := by
  have : ∀ (l : List (Str × α)) (d : Dict α), q ∈ l.foldl (fun d p => Dict.set d p.1 p.2) d → q ∈ d ∨ q ∈ l := by
    intro l
    induction l with
    | nil => intro d h; exact .inl h
    | cons p l ih =>
      intro d h
      rcases ih _ h with h | h
      · rcases mem_set h with h | h
        · exact .inl h
        · exact .inr (by simp [h])
      · exact .inr (by simp [h])
  rcases this l [] h with h | h
  · cases h
  · exact h

mutual
theorem value_proper {parse : Str → Option F} {ext : Option (Consts F)} {s : Str} {v : JVal F} (h : Value parse ext s v) : v.Proper := by
  match h with
  | .null => exact .null
  | .tt => exact .bool _
  | .ff => exact .bool _
  | .int _ => exact .int _
  | .flt _ _ _ _ _ => exact .flt _
  | .nan _ => exact .flt _
  | .inf _ => exact .flt _
  | .ninf _ => exact .flt _
  | .str _ => exact .str _
  | .emptyList _ => exact .list (by intro x hx; cases hx)
  | .list _ hi => exact .list (items_proper hi)
  | .emptyDict _ => exact .dict (by simp [Dict.keys]) (by intro x hx; cases hx)
  | .dict _ hm => exact .dict (nodup_object _) (fun p hp => members_proper hm p (mem_object hp))
theorem items_proper {parse : Str → Option F} {ext : Option (Consts F)} {s : Str} {l : List (JVal F)} (h : Items parse ext s l) : ∀ x ∈ l, x.Proper := by
  match h with
  | .one hv _ => intro x hx; rw [List.mem_singleton.1 hx]; exact value_proper hv
  | .cons hv _ _ hi =>
    intro x hx
    rcases List.mem_cons.1 hx with hx | hx
    · rw [hx]; exact value_proper hv
    · exact items_proper hi x hx
theorem members_proper {parse : Str → Option F} {ext : Option (Consts F)} {s : Str} {l : List (Str × JVal F)} (h : Members parse ext s l) :
    ∀ p ∈ l, p.2.Proper := by
  match h with
  | .one _ _ _ hv _ => intro x hx; rw [List.mem_singleton.1 hx]; exact value_proper hv
  | .cons _ _ _ hv _ _ hi =>
    intro x hx
    rcases List.mem_cons.1 hx with hx | hx
    · rw [hx]; exact value_proper hv
    · exact members_proper hi x hx
end

/-! ### Values -/

variable [JsonRt F]

theorem newline_blank (l : Layout) (n : Nat) : JsonSpec.Blank (l.newline n) := by
  intro c hc
  cases l with
  | indent4 =>
    rcases List.mem_cons.1 hc with h | h
    · exact .inr (.inr (.inl h))
    · exact .inl (List.eq_of_mem_replicate h)
  | compact => cases hc

theorem separator_spec (l : Layout) (n : Nat) : ∃ b, l.separator n = ',' :: b ∧ JsonSpec.Blank b := by
  cases l with
  | indent4 => exact ⟨_, rfl, newline_blank .indent4 n⟩
  | compact => exact ⟨[' '], rfl, by intro c hc; simp at hc; simp [hc]⟩

mutual
theorem encodeAt_value (parse : Str → Option F) (ext : Option (Consts F)) (p : F → Prop) (hf : ∀ f, p f → Value parse ext (encodeFloat f) (.flt f)) (l : Layout) (n : Nat) :
    ∀ (v : JVal F), v.Proper → FloatsAre p v → Value parse ext (encodeAt l n v) v
  | .null, _, _ => by simp only [encodeAt]; exact .null
  | .bool true, _, _ => by simp only [encodeAt]; exact .tt
  | .bool false, _, _ => by simp only [encodeAt]; exact .ff
  | .int i, _, _ => by
    simp only [encodeAt]
    have := Value.int (parse := parse) (ext := ext) (encodeInt_spec i).1
    rw [(encodeInt_spec i).2] at this
    exact this
  | .flt f, _, h => by cases h with | flt h => simp only [encodeAt]; exact hf f h
  | .str s, _, _ => by simp only [encodeAt]; exact .str (encodeStr_chars s)
  | .list [], _, _ => by simp only [encodeAt]; exact .emptyList (b := []) (by intro c hc; cases hc)
  | .list (v :: r), h1, h2 => by
    cases h1 with | list h1 =>
    cases h2 with | list h2 =>
    simp only [encodeAt]
    have hv := encodeAt_value parse ext p hf l (n + 1) v (h1 v (by simp)) (h2 v (by simp))
    have hr := encodeMore_items parse ext p hf l (n + 1) r (fun x hx => h1 x (by simp [hx])) (fun x hx => h2 x (by simp [hx])) _ _ (l.newline n) hv (newline_blank l n)
    have := Value.list (newline_blank l (n + 1)) hr
    simpa [List.append_assoc] using this
  | .dict [], _, _ => by simp only [encodeAt]; exact .emptyDict (b := []) (by intro c hc; cases hc)
  | .dict ((k, v) :: r), h1, h2 => by
    cases h1 with | dict h0 h1 =>
    cases h2 with | dict h2 =>
    simp only [encodeAt]
    have hv := encodeAt_value parse ext p hf l (n + 1) v (h1 (k, v) (by simp)) (h2 (k, v) (by simp))
    have hr := encodeMembers_members parse ext p hf l (n + 1) r (fun x hx => h1 x (by simp [hx])) (fun x hx => h2 x (by simp [hx])) k _ _ (l.newline n) hv (newline_blank l n)
    have := Value.dict (newline_blank l (n + 1)) hr
    rw [object_of_nodup h0] at this
    simpa [encodeStr, List.append_assoc] using this
theorem encodeMore_items (parse : Str → Option F) (ext : Option (Consts F)) (p : F → Prop) (hf : ∀ f, p f → Value parse ext (encodeFloat f) (.flt f)) (l : Layout) (n : Nat) :
    ∀ (r : List (JVal F)), (∀ x ∈ r, x.Proper) → (∀ x ∈ r, FloatsAre p x) → ∀ (s : Str) (v : JVal F) (b : Str), Value parse ext s v → JsonSpec.Blank b →
      Items parse ext (s ++ encodeMore l n r ++ b) (v :: r)
  | [], _, _, s, v, b, hv, hb => by simp only [encodeMore, List.append_nil]; exact .one hv hb
  | x :: r, h1, h2, s, v, b, hv, hb => by
    have hx := encodeAt_value parse ext p hf l n x (h1 x (by simp)) (h2 x (by simp))
    have ih := encodeMore_items parse ext p hf l n r (fun y hy => h1 y (by simp [hy])) (fun y hy => h2 y (by simp [hy])) _ _ b hx hb
    obtain ⟨b', e, hb'⟩ := separator_spec l n
    simp only [encodeMore, e]
    have := Items.cons (b := []) hv (by intro c hc; cases hc) hb' ih
    simpa [List.append_assoc] using this
theorem encodeMembers_members (parse : Str → Option F) (ext : Option (Consts F)) (p : F → Prop) (hf : ∀ f, p f → Value parse ext (encodeFloat f) (.flt f)) (l : Layout) (n : Nat) :
    ∀ (r : List (Str × JVal F)), (∀ x ∈ r, x.2.Proper) → (∀ x ∈ r, FloatsAre p x.2) → ∀ (k : Str) (s : Str) (v : JVal F) (b : Str), Value parse ext s v → JsonSpec.Blank b →
      Members parse ext (encodeStr k ++ s!!": " ++ s ++ encodeMembers l n r ++ b) ((k, v) :: r)
  | [], _, _, k, s, v, b, hv, hb => by
    have := Members.one (b1 := []) (b2 := [' ']) (encodeStr_chars k) (by intro c hc; cases hc) (by intro c hc; simp at hc; simp [hc]) hv hb
    simpa [encodeMembers, encodeStr, List.append_assoc] using this
  | (k', x) :: r, h1, h2, k, s, v, b, hv, hb => by
    have hx := encodeAt_value parse ext p hf l n x (h1 (k', x) (by simp)) (h2 (k', x) (by simp))
    have ih := encodeMembers_members parse ext p hf l n r (fun y hy => h1 y (by simp [hy])) (fun y hy => h2 y (by simp [hy])) k' _ _ b hx hb
    obtain ⟨b', e, hb'⟩ := separator_spec l n
    have := Members.cons (b1 := []) (b2 := [' ']) (b3 := []) (encodeStr_chars k) (by intro c hc; cases hc) (by intro c hc; simp at hc; simp [hc]) hv (by intro c hc; cases hc) hb' ih
    simpa [encodeMembers, e, encodeStr, List.append_assoc] using this
end

/-- neither NaN nor infinite, as `json` tests it -/
def Finite (f : F) : Prop := PyRt.feq f f = true ∧ PyRt.feq f JsonRt.finf = false ∧ PyRt.feq f JsonRt.fninf = false

theorem encodeFloat_finite {f : F} (h : Finite f) (ext : Option (Consts F)) : Value PyRt.fparse ext (encodeFloat f) (.flt f) := by
  obtain ⟨h1, h2, h3⟩ := h
  have hp := JsonRt.fparse_frepr f h1 h2 h3
  obtain ⟨sg, ip, fr, ex, e, hs, hi, hfr, hex, hx⟩ := JsonRt.frepr_shape f h1 h2 h3
  have hip : IntPart (sg ++ ip) := by
    rcases hs with rfl | rfl
    · rcases hi with rfl | ⟨c, r, rfl, a, b, d⟩
      · exact .zero
      · exact .pos a b d
    · rcases hi with rfl | ⟨c, r, rfl, a, b, d⟩
      · exact .negZero
      · exact .neg a b d
  have hfr' : fr = [] ∨ Frac fr := hfr
  have hex' : ex = [] ∨ Exp ex := by
    rcases hex with h | ⟨s, r, e, a, b, c⟩
    · exact .inl h
    · exact .inr ⟨'e', s, r, e, .inl rfl, a, b, c⟩
  have he : encodeFloat f = sg ++ ip ++ fr ++ ex := by simp [encodeFloat, h1, h2, h3, e]
  rw [he]
  exact .flt hip hfr' hex' hx (by rw [← e]; exact hp)

theorem encodeFloat_value (f : F) : Value PyRt.fparse (some consts) (encodeFloat f) (.flt f) := by
  cases h1 : PyRt.feq f f with
  | false =>
    have : encodeFloat f = s!!"NaN" := by simp [encodeFloat, h1]
    rw [this, JsonRt.nan_unique f h1]; exact .nan (c := consts) rfl
  | true =>
    cases h2 : PyRt.feq f (JsonRt.finf : F) with
    | true =>
      have : encodeFloat f = s!!"Infinity" := by simp [encodeFloat, h1, h2]
      rw [this, JsonRt.inf_unique f h2]; exact .inf (c := consts) rfl
    | false =>
      cases h3 : PyRt.feq f (JsonRt.fninf : F) with
      | true =>
        have : encodeFloat f = s!!"-Infinity" := by simp [encodeFloat, h1, h2, h3]
        rw [this, JsonRt.ninf_unique f h3]; exact .ninf (c := consts) rfl
      | false => exact encodeFloat_finite ⟨h1, h2, h3⟩ _

mutual
theorem floats_true : ∀ v : JVal F, FloatsAre (fun _ => True) v
  | .null => .null
  | .bool b => .bool b
  | .int i => .int i
  | .flt _ => .flt trivial
  | .str s => .str s
  | .list l => .list (floats_trueL l)
  | .dict d => .dict (floats_trueD d)
theorem floats_trueL : ∀ l : List (JVal F), ∀ x ∈ l, FloatsAre (fun _ => True) x
  | [], _, h => by cases h
  | v :: l, x, h => by
    rcases List.mem_cons.1 h with h | h
    · rw [h]; exact floats_true v
    · exact floats_trueL l x h
theorem floats_trueD : ∀ l : List (Str × JVal F), ∀ x ∈ l, FloatsAre (fun _ => True) x.2
  | [], _, h => by cases h
  | (k, v) :: l, x, h => by
    rcases List.mem_cons.1 h with h | h
    · rw [h]; exact floats_true v
    · exact floats_trueD l x h
end

theorem document_of_value {parse : Str → Option F} {ext : Option (Consts F)} {s : Str} {v : JVal F} (h : Value parse ext s v) : Document parse ext s v :=
  ⟨[], s, [], by simp, (fun _ hc => by cases hc), h, (fun _ hc => by cases hc)⟩

theorem encode_document (l : Layout) {v : JVal F} (h : v.Proper) : Document PyRt.fparse (some consts) (encode l v) v :=
  document_of_value (encodeAt_value _ _ _ (fun f _ => encodeFloat_value f) l 0 v h (floats_true v))

theorem encode_strict (l : Layout) {v : JVal F} (h : v.Proper) (hf : FloatsAre Finite v) : Document PyRt.fparse none (encode l v) v :=
  document_of_value (encodeAt_value _ _ _ (fun _ hf => encodeFloat_finite hf none) l 0 v h hf)

theorem decode_encode (l : Layout) {v : JVal F} (h : v.Proper) : decode (encode l v) = .ok v := (decode_iff _ _).2 (encode_document l h)

theorem decode_proper {s : Str} {v : JVal F} (h : decode s = .ok v) : v.Proper := by
  obtain ⟨a, t, b, -, -, ht, -⟩ := (decode_iff _ _).1 h
  exact value_proper ht

/-! ### The characters of what is written -/

/-- printable ASCII or a line break -/
def Plain (c : Char) : Prop := c = '\n' ∨ (32 ≤ c.toNat ∧ c.toNat ≤ 126)

theorem plain_hexDigit (n : Nat) (h : n < 16) : Plain (hexDigit n) := by
  have : ∀ k : Fin 16, 32 ≤ (hexDigit k.val).toNat ∧ (hexDigit k.val).toNat ≤ 126 := by decide
  exact .inr (this ⟨n, h⟩)

theorem plain_uEscape (n : Nat) : ∀ c ∈ uEscape n, Plain c := by
  intro c hc
  simp only [uEscape, List.mem_cons, List.not_mem_nil, or_false] at hc
  rcases hc with rfl | rfl | rfl | rfl | rfl | rfl
  · exact .inr (by decide)
  · exact .inr (by decide)
  all_goals exact plain_hexDigit _ (by omega)

theorem plain_lit {s : Str} (h : s.all (fun c => 32 ≤ c.toNat && c.toNat ≤ 126) = true) : ∀ c ∈ s, Plain c := by
  intro c hc
  have := List.all_eq_true.1 h c hc
  simp at this
  exact .inr this

theorem plain_encodeChar (c : Char) : ∀ d ∈ encodeChar c, Plain d := by
  unfold encodeChar
  repeat' split
  all_goals first
    | exact plain_lit (by decide)
    | exact plain_uEscape _
    | (rename_i h; intro d hd; rw [List.mem_singleton.1 hd]; exact .inr h)
    | (intro d hd; rcases List.mem_append.1 hd with hd | hd <;> exact plain_uEscape _ d hd)

theorem plain_append {a b : Str} (ha : ∀ c ∈ a, Plain c) (hb : ∀ c ∈ b, Plain c) : ∀ c ∈ a ++ b, Plain c := by
  intro c hc
  rcases List.mem_append.1 hc with h | h
  · exact ha c h
  · exact hb c h

theorem plain_cons {x : Char} {b : Str} (ha : Plain x) (hb : ∀ c ∈ b, Plain c) : ∀ c ∈ x :: b, Plain c := by
  intro c hc
  rcases List.mem_cons.1 hc with h | h
  · rw [h]; exact ha
  · exact hb c h

theorem plain_encodeStr (s : Str) : ∀ c ∈ encodeStr s, Plain c := by
  refine plain_cons (.inr (by decide)) (plain_append ?_ (plain_lit (by decide)))
  intro c hc
  obtain ⟨t, ht, hc⟩ := List.mem_flatten.1 hc
  obtain ⟨d, -, rfl⟩ := List.mem_map.1 ht
  exact plain_encodeChar d c hc

theorem plain_digit {c : Char} (h : '0' ≤ c ∧ c ≤ '9') : Plain c := by
  rw [le_nat, le_nat] at h
  have h1 : 48 ≤ c.toNat := h.1
  have h2 : c.toNat ≤ 57 := h.2
  exact .inr ⟨by omega, by omega⟩

theorem plain_intPart {s : Str} (h : IntPart s) : ∀ c ∈ s, Plain c := by
  cases h with
  | zero => exact plain_lit (by decide)
  | pos h1 h2 h3 => exact fun c hc => plain_digit (digits_cons h1 h2 h3 c hc)
  | negZero => exact plain_lit (by decide)
  | neg h1 h2 h3 => exact plain_cons (.inr (by decide)) (fun c hc => plain_digit (digits_cons h1 h2 h3 c hc))

theorem plain_encodeFloat (f : F) : ∀ c ∈ encodeFloat f, Plain c := by
  have h := encodeFloat_value f
  generalize encodeFloat f = s at h
  cases h with
  | flt hi hf he _ _ =>
    refine plain_append (plain_append (plain_intPart hi) ?_) ?_
    · rcases hf with rfl | ⟨r, rfl, -, h⟩
      · intro c hc; cases hc
      · exact plain_cons (.inr (by decide)) (fun c hc => plain_digit (h c hc))
    · rcases he with rfl | ⟨e, sg, r, rfl, he, hs, -, h⟩
      · intro c hc; cases hc
      · refine plain_cons ?_ (plain_append ?_ (fun c hc => plain_digit (h c hc)))
        · rcases he with rfl | rfl <;> exact .inr (by decide)
        · rcases hs with rfl | rfl | rfl <;> exact plain_lit (by decide)
  | nan => exact plain_lit (by decide)
  | inf => exact plain_lit (by decide)
  | ninf => exact plain_lit (by decide)

theorem plain_blank {l : Layout} {n : Nat} : ∀ c ∈ l.newline n, Plain c := by
  intro c hc
  cases l with
  | indent4 =>
    rcases List.mem_cons.1 hc with h | h
    · exact .inl h
    · rw [List.eq_of_mem_replicate h]; exact .inr (by decide)
  | compact => cases hc

theorem plain_separator {l : Layout} {n : Nat} : ∀ c ∈ l.separator n, Plain c := by
  cases l with
  | indent4 => exact plain_cons (.inr (by decide)) plain_blank
  | compact => exact plain_lit (s := s!!", ") (by decide)

mutual
theorem plain_encodeAt (l : Layout) (n : Nat) : ∀ (v : JVal F), ∀ c ∈ encodeAt l n v, Plain c
  | .null => by simp only [encodeAt]; exact plain_lit (by decide)
  | .bool true => by simp only [encodeAt]; exact plain_lit (by decide)
  | .bool false => by simp only [encodeAt]; exact plain_lit (by decide)
  | .int i => by simp only [encodeAt]; exact plain_intPart (encodeInt_spec i).1
  | .flt f => by simp only [encodeAt]; exact plain_encodeFloat f
  | .str s => by simp only [encodeAt]; exact plain_encodeStr s
  | .list [] => by simp only [encodeAt]; exact plain_lit (by decide)
  | .list (v :: r) => by
    simp only [encodeAt]
    exact plain_cons (.inr (by decide)) (plain_append (plain_append (plain_append (plain_append plain_blank (plain_encodeAt l (n + 1) v))
      (plain_encodeMore l (n + 1) r)) plain_blank) (plain_lit (by decide)))
  | .dict [] => by simp only [encodeAt]; exact plain_lit (by decide)
  | .dict ((k, v) :: r) => by
    simp only [encodeAt]
    exact plain_cons (.inr (by decide)) (plain_append (plain_append (plain_append (plain_append (plain_append (plain_append plain_blank (plain_encodeStr k))
      (plain_lit (by decide))) (plain_encodeAt l (n + 1) v)) (plain_encodeMembers l (n + 1) r)) plain_blank) (plain_lit (by decide)))
theorem plain_encodeMore (l : Layout) (n : Nat) : ∀ (r : List (JVal F)), ∀ c ∈ encodeMore l n r, Plain c
  | [] => by intro c hc; simp [encodeMore] at hc
  | v :: r => by
    simp only [encodeMore]
    exact plain_append (plain_append plain_separator (plain_encodeAt l n v)) (plain_encodeMore l n r)
theorem plain_encodeMembers (l : Layout) (n : Nat) : ∀ (r : List (Str × JVal F)), ∀ c ∈ encodeMembers l n r, Plain c
  | [] => by intro c hc; simp [encodeMembers] at hc
  | (k, v) :: r => by
    simp only [encodeMembers]
    exact plain_append (plain_append (plain_append (plain_append plain_separator (plain_encodeStr k)) (plain_lit (by decide))) (plain_encodeAt l n v))
      (plain_encodeMembers l n r)
end

end Spine.JsonText
