import Verif.Lemmas.JsonEncode
/- A text written by `json.dump` is JSON exactly when all floats of the value are finite: outside of strings JSON has no capital
letters but `E`, and the constants that are not JSON begin with one. -/
set_option linter.unusedSectionVars false
namespace Spine.JsonText
open JsonSpec
variable {F : Type}

mutual
/-- the characters outside of strings -/
def outs : Str → Str
  | [] => []
  | c :: r => if c = '"' then ins r else c :: outs r
/-- the same, from within a string -/
def ins : Str → Str
  | [] => []
  | [c] => if c = '"' then [] else []
  | c :: d :: r => if c = '\\' then ins r else if c = '"' then outs (d :: r) else ins (d :: r)
end

/-- the text does not end within a string -/
def Closed (s : Str) : Prop := ∀ t, outs (s ++ t) = outs s ++ outs t

theorem Closed.nil : Closed [] := fun t => by simp [outs]

theorem Closed.append {a b : Str} (ha : Closed a) (hb : Closed b) : Closed (a ++ b) := by
  intro t
  rw [List.append_assoc, ha, hb, ha, List.append_assoc]

theorem outs_append {a b : Str} (ha : Closed a) : outs (a ++ b) = outs a ++ outs b := ha b

theorem outs_noquote {s : Str} (h : ∀ c ∈ s, c ≠ '"') : outs s = s := by
  induction s with
  | nil => simp [outs]
  | cons c s ih => rw [outs, if_neg (h c (by simp)), ih (fun c hc => h c (by simp [hc]))]

theorem closed_noquote {s : Str} (h : ∀ c ∈ s, c ≠ '"') : Closed s := by
  intro t
  rw [outs_noquote h]
  induction s with
  | nil => rfl
  | cons c s ih => rw [List.cons_append, outs, if_neg (h c (by simp)), ih (fun c hc => h c (by simp [hc])), List.cons_append]

theorem ins_quote (t : Str) : ins ('"' :: t) = outs t := by
  cases t with
  | nil => simp [ins, outs]
  | cons c t => simp [ins]

theorem ins_raw {c : Char} (h1 : c ≠ '"') (h2 : c ≠ '\\') (t : Str) : ins (c :: t) = ins t := by
  cases t with
  | nil => simp [ins]
  | cons d t => simp [ins, h1, h2]

theorem ins_esc (c : Char) (t : Str) : ins ('\\' :: c :: t) = ins t := by simp [ins]

theorem hexDigit_noquote {c : Char} {n : Nat} (h : HexDigit c n) : c ≠ '"' ∧ c ≠ '\\' := by
  constructor <;> rintro rfl <;> cases h <;> rename_i h1 h2 <;> revert h1 h2 <;> decide

theorem hex4_ins {h : Str} {n : Nat} (hh : Hex4 h n) (t : Str) : ins (h ++ t) = ins t := by
  cases hh with
  | mk a b c d =>
    simp only [List.cons_append, List.nil_append]
    rw [ins_raw (hexDigit_noquote a).1 (hexDigit_noquote a).2, ins_raw (hexDigit_noquote b).1 (hexDigit_noquote b).2,
      ins_raw (hexDigit_noquote c).1 (hexDigit_noquote c).2, ins_raw (hexDigit_noquote d).1 (hexDigit_noquote d).2]

theorem charText_ins {s : Str} {c : Char} (h : CharText s c) (t : Str) : ins (s ++ t) = ins t := by
  cases h with
  | raw h1 h2 _ => exact ins_raw h1 h2 t
  | short _ => exact ins_esc _ t
  | unicode hh _ => rw [List.cons_append, List.cons_append, ins_esc, hex4_ins hh]
  | pair h1 h2 _ _ _ _ =>
    rw [List.cons_append, List.cons_append, ins_esc, List.append_assoc, hex4_ins h1, List.cons_append, List.cons_append, ins_esc, hex4_ins h2]

theorem chars_ins {s u : Str} (h : Chars s u) (t : Str) : ins (s ++ t) = ins t := by
  induction h with
  | nil => rfl
  | cons hc _ ih => rw [List.append_assoc, charText_ins hc, ih]

/-- a string literal: nothing of it is outside -/
theorem string_outs {s u : Str} (h : Chars s u) (t : Str) : outs ('"' :: (s ++ '"' :: t)) = outs t := by
  rw [outs, if_pos rfl, chars_ins h, ins_quote]

theorem closed_string {s u : Str} (h : Chars s u) : Closed ('"' :: (s ++ ['"'])) := by
  intro t
  rw [string_outs h, List.cons_append, List.append_assoc, List.singleton_append, string_outs h]
  simp [outs]

theorem blank_noquote {s : Str} (h : JsonSpec.Blank s) : ∀ c ∈ s, c ≠ '"' := by
  rintro c hc rfl
  have := h _ hc
  revert this; decide

theorem digits_noquote {s : Str} (h : Digits s) : ∀ c ∈ s, c ≠ '"' := by
  rintro c hc rfl
  have := h _ hc
  revert this; decide

/-- no capital letter that begins a constant -/
def Low (s : Str) : Prop := ∀ c ∈ s, c ≠ 'N' ∧ c ≠ 'I'

theorem Low.append {a b : Str} (ha : Low a) (hb : Low b) : Low (a ++ b) := by
  intro c hc
  rcases List.mem_append.1 hc with h | h
  · exact ha c h
  · exact hb c h

theorem Low.cons {c : Char} {b : Str} (ha : c ≠ 'N' ∧ c ≠ 'I') (hb : Low b) : Low (c :: b) := by
  intro d hd
  rcases List.mem_cons.1 hd with h | h
  · rw [h]; exact ha
  · exact hb d h

theorem Low.nil : Low [] := fun _ h => by cases h

theorem Low.of {P : Char → Prop} {s : Str} (h : ∀ c ∈ s, P c) (h1 : ¬ P 'N') (h2 : ¬ P 'I') : Low s := by
  intro c hc
  constructor <;> rintro rfl
  · exact h1 (h _ hc)
  · exact h2 (h _ hc)

/-- closed, and no constant outside of strings -/
structure Clean (s : Str) : Prop where
  closed : Closed s
  low : Low (outs s)

theorem Clean.append {a b : Str} (ha : Clean a) (hb : Clean b) : Clean (a ++ b) :=
  ⟨ha.closed.append hb.closed, by rw [outs_append ha.closed]; exact ha.low.append hb.low⟩

theorem clean_noquote {s : Str} (h : ∀ c ∈ s, c ≠ '"') (hl : Low s) : Clean s := ⟨closed_noquote h, by rw [outs_noquote h]; exact hl⟩

theorem clean_lit {s : Str} (h : s.all (fun c => c ≠ '"' && c ≠ 'N' && c ≠ 'I') = true) : Clean s := by
  have h' := List.all_eq_true.1 h
  refine clean_noquote (fun c hc => ?_) (fun c hc => ?_) <;>
  · have := h' c hc
    simp only [Bool.and_eq_true, decide_eq_true_eq] at this
    first | exact this.1.1 | exact ⟨this.1.2, this.2⟩

theorem clean_blank {s : Str} (h : JsonSpec.Blank s) : Clean s := clean_noquote (blank_noquote h) (Low.of (P := fun c => _) h (by decide) (by decide))

theorem clean_digits {s : Str} (h : Digits s) : Clean s := clean_noquote (digits_noquote h) (Low.of (P := fun c => _) h (by decide) (by decide))

theorem clean_string {s u : Str} (h : Chars s u) : Clean ('"' :: (s ++ ['"'])) :=
  ⟨closed_string h, by rw [string_outs h]; simp [outs]; exact Low.nil⟩

theorem Clean.cons {c : Char} {s : Str} (h : [c].all (fun c => c ≠ '"' && c ≠ 'N' && c ≠ 'I') = true) (hs : Clean s) : Clean (c :: s) :=
  (clean_lit h).append hs

theorem clean_intPart {s : Str} (h : IntPart s) : Clean s := by
  cases h with
  | zero => exact clean_lit (by decide)
  | pos h1 h2 h3 => exact clean_digits (digits_cons h1 h2 h3)
  | negZero => exact clean_lit (by decide)
  | neg h1 h2 h3 => exact .cons (by decide) (clean_digits (digits_cons h1 h2 h3))

theorem clean_number {ip fr ex : Str} (hi : IntPart ip) (hf : fr = [] ∨ Frac fr) (he : ex = [] ∨ Exp ex) : Clean (ip ++ fr ++ ex) := by
  refine ((clean_intPart hi).append ?_).append ?_
  · rcases hf with rfl | ⟨r, rfl, -, h⟩
    · exact clean_lit (by decide)
    · exact .cons (by decide) (clean_digits h)
  · rcases he with rfl | ⟨e, sg, r, rfl, he, hs, -, h⟩
    · exact clean_lit (by decide)
    · refine .cons ?_ (Clean.append ?_ (clean_digits h))
      · rcases he with rfl | rfl <;> decide
      · rcases hs with rfl | rfl | rfl <;> exact clean_lit (by decide)

theorem clean_key {k key s : Str} (h : Chars k key) (hs : Clean s) : Clean ('"' :: (k ++ '"' :: s)) := by
  have := (clean_string h).append hs
  simpa using this

mutual
theorem clean_value {parse : Str → Option F} {s : Str} {v : JVal F} (h : Value parse none s v) : Clean s := by
  match h with
  | .null => exact clean_lit (by decide)
  | .tt => exact clean_lit (by decide)
  | .ff => exact clean_lit (by decide)
  | .int hi => exact clean_intPart hi
  | .flt hi hf he _ _ => exact clean_number hi hf he
  | .nan e => cases e
  | .inf e => cases e
  | .ninf e => cases e
  | .str h => exact clean_string h
  | .emptyList hb => exact .cons (by decide) ((clean_blank hb).append (clean_lit (by decide)))
  | .list hb hi => exact .cons (by decide) (((clean_blank hb).append (clean_items hi)).append (clean_lit (by decide)))
  | .emptyDict hb => exact .cons (by decide) ((clean_blank hb).append (clean_lit (by decide)))
  | .dict hb hi => exact .cons (by decide) (((clean_blank hb).append (clean_members hi)).append (clean_lit (by decide)))
theorem clean_items {parse : Str → Option F} {s : Str} {l : List (JVal F)} (h : Items parse none s l) : Clean s := by
  match h with
  | .one hv hb => exact (clean_value hv).append (clean_blank hb)
  | .cons hv hb hb' hi => exact ((clean_value hv).append (clean_blank hb)).append (.cons (by decide) ((clean_blank hb').append (clean_items hi)))
theorem clean_members {parse : Str → Option F} {s : Str} {l : List (Str × JVal F)} (h : Members parse none s l) : Clean s := by
  match h with
  | .one hk h1 h2 hv h3 => exact clean_key hk ((clean_blank h1).append (.cons (by decide) (((clean_blank h2).append (clean_value hv)).append (clean_blank h3))))
  | .cons hk h1 h2 hv h3 h4 hm =>
    exact clean_key hk ((clean_blank h1).append (.cons (by decide) ((((clean_blank h2).append (clean_value hv)).append (clean_blank h3)).append
      (.cons (by decide) ((clean_blank h4).append (clean_members hm))))))
end

/-- the characters outside of strings of JSON: no `N` and no `I` -/
theorem clean_document {parse : Str → Option F} {s : Str} {v : JVal F} (h : Document parse none s v) : Clean s := by
  obtain ⟨a, t, b, rfl, ha, ht, hb⟩ := h
  exact ((clean_blank ha).append (clean_value ht)).append (clean_blank hb)

/-! ### JSON among the accepted texts -/

theorem low_left {a b : Str} (ha : Closed a) (h : Low (outs (a ++ b))) : Low (outs a) := by
  intro c hc
  exact h c (by rw [outs_append ha]; exact List.mem_append_left _ hc)

theorem low_right {a b : Str} (ha : Closed a) (h : Low (outs (a ++ b))) : Low (outs b) := by
  intro c hc
  exact h c (by rw [outs_append ha]; exact List.mem_append_right _ hc)

theorem closed_plain {s : Str} (h : s.all (fun c => c ≠ '"') = true) : Closed s :=
  closed_noquote (fun c hc => by have := List.all_eq_true.1 h c hc; simpa using this)

theorem closed_cons {c : Char} {s : Str} (h : c ≠ '"') (hs : Closed s) : Closed (c :: s) :=
  (closed_noquote (s := [c]) (by simp [h])).append hs

theorem low_tail {c : Char} {s : Str} (hc : c ≠ '"') (h : Low (outs (c :: s))) : Low (outs s) := low_right (a := [c]) (closed_noquote (by simp [hc])) h

theorem closed_key {k key s : Str} (h : Chars k key) (hs : Closed s) : Closed ('"' :: (k ++ '"' :: s)) := by
  have := (closed_string h).append hs
  simpa using this

theorem low_key {k key s : Str} (h : Chars k key) (hl : Low (outs ('"' :: (k ++ '"' :: s)))) : Low (outs s) := by
  rw [string_outs h] at hl; exact hl

mutual
theorem closed_value {parse : Str → Option F} {ext : Option (Consts F)} {s : Str} {v : JVal F} (h : Value parse ext s v) : Closed s := by
  match h with
  | .null => exact closed_plain (by decide)
  | .tt => exact closed_plain (by decide)
  | .ff => exact closed_plain (by decide)
  | .int hi => exact (clean_intPart hi).closed
  | .flt hi hf he _ _ => exact (clean_number hi hf he).closed
  | .nan _ => exact closed_plain (by decide)
  | .inf _ => exact closed_plain (by decide)
  | .ninf _ => exact closed_plain (by decide)
  | .str h => exact closed_string h
  | .emptyList hb => exact closed_cons (by decide) ((clean_blank hb).closed.append (closed_plain (by decide)))
  | .list hb hi => exact closed_cons (by decide) (((clean_blank hb).closed.append (closed_items hi)).append (closed_plain (by decide)))
  | .emptyDict hb => exact closed_cons (by decide) ((clean_blank hb).closed.append (closed_plain (by decide)))
  | .dict hb hi => exact closed_cons (by decide) (((clean_blank hb).closed.append (closed_members hi)).append (closed_plain (by decide)))
theorem closed_items {parse : Str → Option F} {ext : Option (Consts F)} {s : Str} {l : List (JVal F)} (h : Items parse ext s l) : Closed s := by
  match h with
  | .one hv hb => exact (closed_value hv).append (clean_blank hb).closed
  | .cons hv hb hb' hi =>
    exact ((closed_value hv).append (clean_blank hb).closed).append (closed_cons (by decide) ((clean_blank hb').closed.append (closed_items hi)))
theorem closed_members {parse : Str → Option F} {ext : Option (Consts F)} {s : Str} {l : List (Str × JVal F)} (h : Members parse ext s l) : Closed s := by
  match h with
  | .one hk h1 h2 hv h3 =>
    exact closed_key hk ((clean_blank h1).closed.append (closed_cons (by decide) (((clean_blank h2).closed.append (closed_value hv)).append (clean_blank h3).closed)))
  | .cons hk h1 h2 hv h3 h4 hm =>
    exact closed_key hk ((clean_blank h1).closed.append (closed_cons (by decide) ((((clean_blank h2).closed.append (closed_value hv)).append
      (clean_blank h3).closed).append (closed_cons (by decide) ((clean_blank h4).closed.append (closed_members hm))))))
end

mutual
theorem strict_value {parse : Str → Option F} {ext : Option (Consts F)} {s : Str} {v : JVal F} (h : Value parse ext s v) (hl : Low (outs s)) :
    Value parse none s v := by
  match h with
  | .null => exact .null
  | .tt => exact .tt
  | .ff => exact .ff
  | .int hi => exact .int hi
  | .flt hi hf he hn hp => exact .flt hi hf he hn hp
  | .nan _ => exact absurd rfl (hl 'N' (by decide)).1
  | .inf _ => exact absurd rfl (hl 'I' (by decide)).2
  | .ninf _ => exact absurd rfl (hl 'I' (by decide)).2
  | .str h => exact .str h
  | .emptyList hb => exact .emptyList hb
  | .list hb hi =>
    exact .list hb (strict_items hi (low_right (clean_blank hb).closed (low_left ((clean_blank hb).closed.append (closed_items hi)) (low_tail (by decide) hl))))
  | .emptyDict hb => exact .emptyDict hb
  | .dict hb hi =>
    exact .dict hb (strict_members hi (low_right (clean_blank hb).closed (low_left ((clean_blank hb).closed.append (closed_members hi)) (low_tail (by decide) hl))))
theorem strict_items {parse : Str → Option F} {ext : Option (Consts F)} {s : Str} {l : List (JVal F)} (h : Items parse ext s l) (hl : Low (outs s)) :
    Items parse none s l := by
  match h with
  | .one hv hb => exact .one (strict_value hv (low_left (closed_value hv) hl)) hb
  | .cons hv hb hb' hi =>
    have c := (closed_value hv).append (clean_blank hb).closed
    exact .cons (strict_value hv (low_left (closed_value hv) (low_left c hl))) hb hb'
      (strict_items hi (low_right (clean_blank hb').closed (low_tail (by decide) (low_right c hl))))
theorem strict_members {parse : Str → Option F} {ext : Option (Consts F)} {s : Str} {l : List (Str × JVal F)} (h : Members parse ext s l) (hl : Low (outs s)) :
    Members parse none s l := by
  match h with
  | .one hk h1 h2 hv h3 =>
    have l1 := low_tail (by decide) (low_right (clean_blank h1).closed (low_key hk hl))
    have c := (clean_blank h2).closed.append (closed_value hv)
    exact .one hk h1 h2 (strict_value hv (low_right (clean_blank h2).closed (low_left c l1))) h3
  | .cons hk h1 h2 hv h3 h4 hm =>
    have l1 := low_tail (by decide) (low_right (clean_blank h1).closed (low_key hk hl))
    have c := (clean_blank h2).closed.append (closed_value hv)
    have c' := c.append (clean_blank h3).closed
    exact .cons hk h1 h2 (strict_value hv (low_right (clean_blank h2).closed (low_left c (low_left c' l1)))) h3 h4
      (strict_members hm (low_right (clean_blank h4).closed (low_tail (by decide) (low_right c' l1))))
end

/-- an accepted text is JSON unless it has a constant outside of strings -/
theorem strict_document {parse : Str → Option F} {ext : Option (Consts F)} {s : Str} {v : JVal F} (h : Document parse ext s v) (hl : Low (outs s)) :
    Document parse none s v := by
  obtain ⟨a, t, b, rfl, ha, ht, hb⟩ := h
  have c := (clean_blank ha).closed.append (closed_value ht)
  exact ⟨a, t, b, rfl, ha, strict_value ht (low_right (clean_blank ha).closed (low_left c hl)), hb⟩

/-! ### What is written -/

variable [JsonRt F]

theorem encodeFloat_low {f : F} (h : Low (outs (encodeFloat f))) : Finite f := by
  unfold encodeFloat at h
  split at h
  · exact absurd rfl (h 'N' (by decide)).1
  · rename_i h1
    split at h
    · exact absurd rfl (h 'I' (by decide)).2
    · rename_i h2
      split at h
      · exact absurd rfl (h 'I' (by decide)).2
      · rename_i h3
        exact ⟨by simpa using h1, by simpa using h2, by simpa using h3⟩

theorem closed_encodeFloat (f : F) : Closed (encodeFloat f) := by
  have h := encodeFloat_value f
  generalize encodeFloat f = s at h
  cases h with
  | flt hi hf he _ _ => exact (clean_number hi hf he).closed
  | nan => exact closed_plain (by decide)
  | inf => exact closed_plain (by decide)
  | ninf => exact closed_plain (by decide)

theorem closed_newline (l : Layout) (n : Nat) : Closed (l.newline n) := (clean_blank (newline_blank l n)).closed

theorem closed_separator (l : Layout) (n : Nat) : Closed (l.separator n) := by
  obtain ⟨b, e, hb⟩ := separator_spec l n
  rw [e]
  exact closed_cons (by decide) (clean_blank hb).closed

theorem closed_encodeStr (s : Str) : Closed (encodeStr s) := closed_string (encodeStr_chars s)

mutual
theorem closed_encodeAt (l : Layout) (n : Nat) : ∀ (v : JVal F), Closed (encodeAt l n v)
  | .null => by simp only [encodeAt]; exact closed_plain (by decide)
  | .bool true => by simp only [encodeAt]; exact closed_plain (by decide)
  | .bool false => by simp only [encodeAt]; exact closed_plain (by decide)
  | .int i => by simp only [encodeAt]; exact (clean_intPart (encodeInt_spec i).1).closed
  | .flt f => by simp only [encodeAt]; exact closed_encodeFloat f
  | .str s => by simp only [encodeAt]; exact closed_encodeStr s
  | .list [] => by simp only [encodeAt]; exact closed_plain (by decide)
  | .list (v :: r) => by
    simp only [encodeAt]
    exact closed_cons (by decide) (((((closed_newline l _).append (closed_encodeAt l (n + 1) v)).append (closed_encodeMore l (n + 1) r)).append
      (closed_newline l _)).append (closed_plain (by decide)))
  | .dict [] => by simp only [encodeAt]; exact closed_plain (by decide)
  | .dict ((k, v) :: r) => by
    simp only [encodeAt]
    exact closed_cons (by decide) (((((((closed_newline l _).append (closed_encodeStr k)).append (closed_plain (by decide))).append
      (closed_encodeAt l (n + 1) v)).append (closed_encodeMembers l (n + 1) r)).append (closed_newline l _)).append (closed_plain (by decide)))
theorem closed_encodeMore (l : Layout) (n : Nat) : ∀ (r : List (JVal F)), Closed (encodeMore l n r)
  | [] => by simp only [encodeMore]; exact .nil
  | v :: r => by
    simp only [encodeMore]
    exact ((closed_separator l n).append (closed_encodeAt l n v)).append (closed_encodeMore l n r)
theorem closed_encodeMembers (l : Layout) (n : Nat) : ∀ (r : List (Str × JVal F)), Closed (encodeMembers l n r)
  | [] => by simp only [encodeMembers]; exact .nil
  | (k, v) :: r => by
    simp only [encodeMembers]
    exact ((((closed_separator l n).append (closed_encodeStr k)).append (closed_plain (by decide))).append (closed_encodeAt l n v)).append
      (closed_encodeMembers l n r)
end

mutual
theorem finite_encodeAt (l : Layout) (n : Nat) : ∀ (v : JVal F), Low (outs (encodeAt l n v)) → FloatsAre Finite v
  | .null, _ => .null
  | .bool b, _ => .bool b
  | .int i, _ => .int i
  | .flt f, h => .flt (encodeFloat_low (by simpa only [encodeAt] using h))
  | .str s, _ => .str s
  | .list [], _ => .list (by simp)
  | .list (v :: r), h => by
    simp only [encodeAt] at h
    have h1 := low_right (a := ['[']) (closed_plain (by decide)) h
    have c1 := closed_newline l (n + 1)
    have c2 := c1.append (closed_encodeAt l (n + 1) v)
    have c3 := c2.append (closed_encodeMore l (n + 1) r)
    have h3 := low_left c3 (low_left (c3.append (closed_newline l n)) h1)
    have hr := finite_encodeMore l (n + 1) r (low_right c2 h3)
    have hv := finite_encodeAt l (n + 1) v (low_right c1 (low_left c2 h3))
    exact .list (List.forall_mem_cons.2 ⟨hv, hr⟩)
  | .dict [], _ => .dict (by simp)
  | .dict ((k, v) :: r), h => by
    simp only [encodeAt] at h
    have h1 := low_right (a := ['{']) (closed_plain (by decide)) h
    have c1 := ((closed_newline l (n + 1)).append (closed_encodeStr k)).append (closed_plain (s := s!!": ") (by decide))
    have c2 := c1.append (closed_encodeAt l (n + 1) v)
    have c3 := c2.append (closed_encodeMembers l (n + 1) r)
    have h3 := low_left c3 (low_left (c3.append (closed_newline l n)) h1)
    have hr := finite_encodeMembers l (n + 1) r (low_right c2 h3)
    have hv := finite_encodeAt l (n + 1) v (low_right c1 (low_left c2 h3))
    exact .dict (List.forall_mem_cons.2 ⟨hv, hr⟩)
theorem finite_encodeMore (l : Layout) (n : Nat) : ∀ (r : List (JVal F)), Low (outs (encodeMore l n r)) → ∀ x ∈ r, FloatsAre Finite x
  | [], _ => by simp
  | v :: r, h => by
    simp only [encodeMore] at h
    have c1 := closed_separator l n
    have c2 := c1.append (closed_encodeAt l n v)
    exact List.forall_mem_cons.2 ⟨finite_encodeAt l n v (low_right c1 (low_left c2 h)), finite_encodeMore l n r (low_right c2 h)⟩
theorem finite_encodeMembers (l : Layout) (n : Nat) : ∀ (r : List (Str × JVal F)), Low (outs (encodeMembers l n r)) → ∀ x ∈ r, FloatsAre Finite x.2
  | [], _ => by simp
  | (k, v) :: r, h => by
    simp only [encodeMembers] at h
    have c1 := ((closed_separator l n).append (closed_encodeStr k)).append (closed_plain (s := s!!": ") (by decide))
    have c2 := c1.append (closed_encodeAt l n v)
    exact List.forall_mem_cons.2 ⟨finite_encodeAt l n v (low_right c1 (low_left c2 h)), finite_encodeMembers l n r (low_right c2 h)⟩
end

/-- what is written is JSON only if all floats are finite -/
theorem finite_of_strict (l : Layout) {parse : Str → Option F} {v w : JVal F} (h : Document parse none (encode l v) w) : FloatsAre Finite v :=
  finite_encodeAt l 0 v (clean_document h).low

end Spine.JsonText
