import Verif.Lemmas.Digits
import Verif.Lemmas.FineEditor
import Verif.Props.JsonText
/-
C97: whole numbers with more digits than Python converts.  A document is read and written exactly if its whole numbers have at most `L` digits
(Spec/Digits.lean); a save that fails for a longer number leaves the beginning of the text in the file, which nothing can read.
-/
set_option linter.unusedSectionVars false
namespace Spine
namespace Digits
open JsonSpec (IntPart intValue decimal)
open DigitSpec
open JsonText hiding scanAtom scan scanItems scanMembers decode scanAtom_num scan_atom scan_complete items_complete members_complete scanAtom_sound sound decode_iff encodeAt_value encodeMore_items encodeMembers_members encodeFloat_value encode_document
variable {F : Type} [JsonRt F] {L : Nat}

/-! ### Reading -/

/-- C97: `json.load` reads the JSON texts whose whole numbers have at most `L` digits, and nothing else. -/
theorem c97_read (L : Nat) (s : Str) (v : JVal F) : decode L s = .ok v ↔ Document L PyRt.fparse (some consts) s v := decode_iff s v

/-- C97: what is read with a limit is read without one, as the same value. -/
theorem c97_read_same {s : Str} {v : JVal F} (h : decode L s = .ok v) : JsonText.decode s = .ok v := by
  obtain ⟨a, t, b, e, ha, ht, hb⟩ := (decode_iff s v).1 h
  exact (JsonText.decode_iff s v).2 ⟨a, t, b, e, ha, ht.free, hb⟩

theorem decimal_lt (s : Str) (h : JsonSpec.Digits s) : decimal s < 10 ^ s.length := by
  have key : ∀ (s : Str) (n : Nat), JsonSpec.Digits s → s.foldl (fun n c => n * 10 + (c.toNat - 48)) n < (n + 1) * 10 ^ s.length := by
    intro s
    induction s with
    | nil => intro n _; simp
    | cons c s ih =>
      intro n h
      have hc := (h c (by simp)).2
      rw [le_nat] at hc
      have hc' : c.toNat ≤ 57 := hc
      have h1 := ih (n * 10 + (c.toNat - 48)) (fun x hx => h x (by simp [hx]))
      rw [List.foldl_cons, List.length_cons, Nat.pow_succ]
      refine Nat.lt_of_lt_of_le h1 ?_
      rw [Nat.mul_comm (10 ^ s.length) 10, ← Nat.mul_assoc]
      exact Nat.mul_le_mul_right _ (by omega)
  have := key s 0 h
  simpa [decimal] using this

theorem digits_length {s : Str} (h : JsonSpec.Digits s) : digits s = s.length := by
  refine List.countP_eq_length.2 (fun c hc => ?_)
  have := (h c hc).1
  rw [decide_eq_true_eq]
  rintro rfl
  exact absurd this (by decide)

theorem short_of_digits {s : Str} (h : JsonSpec.Digits s) (h0 : s ≠ []) (hl : digits s ≤ L) : 0 < L ∧ decimal s < 10 ^ L := by
  rw [digits_length h] at hl
  have : 0 < s.length := List.length_pos_iff.2 h0
  exact ⟨by omega, Nat.lt_of_lt_of_le (decimal_lt s h) (Nat.pow_le_pow_right (by omega) hl)⟩

theorem short_intValue {s : Str} (h : IntPart s) (hl : digitCount s ≤ L) : Short L (intValue s) := by
  have key : ∀ {c : Char} {r : Str}, '1' ≤ c → c ≤ '9' → JsonSpec.Digits r → JsonSpec.Digits (c :: r) := fun h1 h2 h3 => digits_cons h1 h2 h3
  cases h with
  | zero => exact ⟨by simp [digitCount] at hl; omega, by simp [intValue, decimal, Nat.pow_pos]⟩
  | negZero => exact ⟨by simp [digitCount] at hl; omega, by simp [intValue, decimal, Nat.pow_pos]⟩
  | @pos c r h1 h2 h3 =>
    have := short_of_digits (key h1 h2 h3) (by simp) hl
    have e : intValue (c :: r) = decimal (c :: r) := by
      unfold intValue
      split
      · rename_i heq; injection heq with e; subst e; exact absurd h1 (by decide)
      · rfl
    rw [e]; exact this
  | @neg c r h1 h2 h3 =>
    have := short_of_digits (L := L) (key h1 h2 h3) (by simp) (by simpa [digitCount, digits] using hl)
    refine ⟨this.1, ?_⟩
    simpa [intValue] using this.2

theorem mem_object {α : Type} {l : List (Str × α)} {p : Str × α} (h : p ∈ JsonSpec.object l) : p ∈ l := JsonText.mem_object h

mutual
theorem value_short {parse : Str → Option F} {ext : Option (JsonSpec.Consts F)} {s : Str} {v : JVal F} (h : Value L parse ext s v) : IntsAre (Short L) v := by
  match h with
  | .null => exact .null
  | .tt => exact .bool _
  | .ff => exact .bool _
  | .int h hl => exact .int (short_intValue h hl)
  | .flt _ _ _ _ _ => exact .flt _
  | .nan _ => exact .flt _
  | .inf _ => exact .flt _
  | .ninf _ => exact .flt _
  | .str _ => exact .str _
  | .emptyList _ => exact .list (by intro x hx; cases hx)
  | .list _ hi => exact .list (items_short hi)
  | .emptyDict _ => exact .dict (by intro x hx; cases hx)
  | .dict _ hm => exact .dict (fun p hp => members_short hm p (mem_object hp))
theorem items_short {parse : Str → Option F} {ext : Option (JsonSpec.Consts F)} {s : Str} {l : List (JVal F)} (h : Items L parse ext s l) :
    ∀ x ∈ l, IntsAre (Short L) x := by
  match h with
  | .one hv _ => intro x hx; rw [List.mem_singleton.1 hx]; exact value_short hv
  | .cons hv _ _ hi =>
    intro x hx
    rcases List.mem_cons.1 hx with hx | hx
    · rw [hx]; exact value_short hv
    · exact items_short hi x hx
theorem members_short {parse : Str → Option F} {ext : Option (JsonSpec.Consts F)} {s : Str} {l : List (Str × JVal F)} (h : Members L parse ext s l) :
    ∀ p ∈ l, IntsAre (Short L) p.2 := by
  match h with
  | .one _ _ _ hv _ => intro x hx; rw [List.mem_singleton.1 hx]; exact value_short hv
  | .cons _ _ _ hv _ _ hi =>
    intro x hx
    rcases List.mem_cons.1 hx with hx | hx
    · rw [hx]; exact value_short hv
    · exact members_short hi x hx
end

/-- C97: every whole number in a document that was read has at most `L` digits. -/
theorem c97_read_short {s : Str} {v : JVal F} (h : decode L s = .ok v) : IntsAre (Short L) v := by
  obtain ⟨a, t, b, e, ha, ht, hb⟩ := (decode_iff s v).1 h
  exact value_short ht

/-! ### Writing -/

/-- where a writer stops: before a number that is too long, the first one; the bracket or the comma before an item of a list is lost with it,
and before the value of a key nothing is lost -/
def Cut (L : Nat) (l : Layout) (full t : Str) : Prop :=
  ∃ b i r, full = t ++ b ++ encodeInt i ++ r ∧ ¬ Short L i ∧
    ((b = [] ∧ ∃ t', t = t' ++ s!!": ") ∨ (∃ n, b = '[' :: l.newline n) ∨ ∃ n, b = l.separator n)

theorem encodeInt_ne (i : Int) : encodeInt i ≠ [] := by
  intro h
  have := (encodeInt_spec i).1
  rw [h] at this
  cases this

theorem Cut.proper {l : Layout} {full t : Str} (h : Cut L l full t) : ∃ c r, full = t ++ c :: r := by
  obtain ⟨b, i, r, e, -, -⟩ := h
  cases hb : b ++ encodeInt i ++ r with
  | nil => simp [encodeInt_ne] at hb
  | cons c u => exact ⟨c, u, by rw [e, ← hb]; simp⟩

/-- what a writer made of a text: all of it, or a beginning -/
def Part (L : Nat) (l : Layout) (ok : Prop) (full : Str) : Except Str Str → Prop
  | .ok t => ok ∧ t = full
  | .error t => ¬ ok ∧ Cut L l full t

variable {l : Layout}

theorem part_iff {p q : Prop} (h : p ↔ q) {f : Str} {x : Except Str Str} (hx : Part L l p f x) : Part L l q f x := by
  cases x with
  | ok t => exact ⟨h.1 hx.1, hx.2⟩
  | error t => exact ⟨fun hq => hx.1 (h.2 hq), hx.2⟩

theorem part_then {p q : Prop} {f g : Str} {x y : Except Str Str} (hx : Part L l p f x) (hy : Part L l q g y) : Part L l (p ∧ q) (f ++ g) (andThen x y) := by
  cases x with
  | error s =>
    obtain ⟨h, b, i, r, e, h1, h2⟩ := hx
    exact ⟨fun hh => h hh.1, b, i, r ++ g, by rw [e]; simp, h1, h2⟩
  | ok s =>
    obtain ⟨h, rfl⟩ := hx
    cases y with
    | ok t => obtain ⟨h', rfl⟩ := hy; exact ⟨⟨h, h'⟩, rfl⟩
    | error t =>
      obtain ⟨h', b, i, r, rfl, h1, h2⟩ := hy
      refine ⟨fun hh => h' hh.2, b, i, r, by simp, h1, ?_⟩
      rcases h2 with ⟨hb, t', rfl⟩ | h2
      · exact .inl ⟨hb, s ++ t', by simp⟩
      · exact .inr h2

theorem part_ok (t : Str) : Part L l True t (.ok t) := ⟨trivial, rfl⟩

/-- a value: nothing is written of a number that is too long -/
def PartV (L : Nat) (l : Layout) (v : JVal F) (full : Str) (x : Except Str Str) : Prop :=
  (∃ i, v = .int i ∧ ¬ Short L i ∧ full = encodeInt i ∧ x = .error []) ∨
    (Part L l (IntsAre (Short L) v) full x ∧ ∀ i t, v = .int i → x ≠ .error t)

theorem not_short_int {i : Int} (h : ¬ Short L i) : ¬ IntsAre (Short L) (.int i : JVal F) := fun hh => by cases hh with | int hh => exact h hh

theorem part_item {b : Str} (hb : (∃ n, b = '[' :: l.newline n) ∨ ∃ n, b = l.separator n) {f : Str} {v : JVal F} {x : Except Str Str}
    (hx : PartV L l v f x) : Part L l (IntsAre (Short L) v) (b ++ f) (item b v x) := by
  rcases hx with ⟨i, rfl, h, rfl, rfl⟩ | ⟨hx, hn⟩
  · exact ⟨not_short_int h, b, i, [], by simp, h, .inr hb⟩
  · unfold item
    split
    · exact absurd rfl (hn _ _ rfl)
    · exact part_iff (by simp) (part_then (part_ok b) hx)

/-- a key and its value -/
theorem part_member {b : Str} (hb : ∃ t', b = t' ++ s!!": ") {f : Str} {v : JVal F} {x : Except Str Str}
    (hx : PartV L l v f x) : Part L l (IntsAre (Short L) v) (b ++ f) (andThen (.ok b) x) := by
  rcases hx with ⟨i, rfl, h, rfl, rfl⟩ | ⟨hx, -⟩
  · exact ⟨not_short_int h, [], i, [], by simp, h, .inl ⟨rfl, by simpa using hb⟩⟩
  · exact part_iff (by simp) (part_then (part_ok b) hx)

theorem andThen_assoc (x y z : Except Str Str) : andThen x (andThen y z) = andThen (andThen x y) z := by
  cases x <;> cases y <;> cases z <;> simp [andThen]

theorem intsAre_list {p : Int → Prop} {l : List (JVal F)} : IntsAre p (.list l) ↔ ∀ x ∈ l, IntsAre p x :=
  ⟨fun h => by cases h with | list h => exact h, .list⟩

theorem intsAre_dict {p : Int → Prop} {l : Dict (JVal F)} : IntsAre p (.dict l) ↔ ∀ x ∈ l, IntsAre p x.2 :=
  ⟨fun h => by cases h with | dict h => exact h, .dict⟩

mutual
theorem putAt_part (L : Nat) (l : Layout) (n : Nat) : ∀ v : JVal F, PartV L l v (encodeAt l n v) (putAt L l n v)
  | .null => by simp only [putAt, encodeAt]; exact .inr ⟨⟨.null, rfl⟩, by simp⟩
  | .bool true => by simp only [putAt, encodeAt]; exact .inr ⟨⟨.bool _, rfl⟩, by simp⟩
  | .bool false => by simp only [putAt, encodeAt]; exact .inr ⟨⟨.bool _, rfl⟩, by simp⟩
  | .int i => by
    simp only [putAt, encodeAt]
    split
    · rename_i h
      exact .inl ⟨i, rfl, fun hs => by have := (short_iff L i).1 hs; omega, rfl, rfl⟩
    · rename_i h
      exact .inr ⟨⟨.int ((short_iff L i).2 (Nat.not_lt.1 h)), rfl⟩, by simp⟩
  | .flt f => by simp only [putAt, encodeAt]; exact .inr ⟨⟨.flt _, rfl⟩, by simp⟩
  | .str s => by simp only [putAt, encodeAt]; exact .inr ⟨⟨.str _, rfl⟩, by simp⟩
  | .list [] => by simp only [putAt, encodeAt]; exact .inr ⟨⟨.list (by simp), rfl⟩, by simp⟩
  | .list (v :: r) => by
    have h1 := part_item (b := '[' :: l.newline (n + 1)) (.inl ⟨_, rfl⟩) (putAt_part L l (n + 1) v)
    have h2 := part_then h1 (part_then (putMore_part L l (n + 1) r) (part_ok (l.newline n ++ [']'])))
    simp only [putAt, encodeAt]
    have e : '[' :: (l.newline (n + 1) ++ encodeAt l (n + 1) v ++ encodeMore l (n + 1) r ++ l.newline n ++ [']']) =
      ('[' :: l.newline (n + 1)) ++ encodeAt l (n + 1) v ++ (encodeMore l (n + 1) r ++ (l.newline n ++ [']'])) := by simp
    rw [e]
    exact .inr ⟨part_iff (by simp [intsAre_list]) h2, by simp⟩
  | .dict [] => by simp only [putAt, encodeAt]; exact .inr ⟨⟨.dict (by simp), rfl⟩, by simp⟩
  | .dict ((k, v) :: r) => by
    have h1 := part_member (b := '{' :: (l.newline (n + 1) ++ encodeStr k ++ s!!": ")) ⟨'{' :: (l.newline (n + 1) ++ encodeStr k), by simp⟩
      (putAt_part L l (n + 1) v)
    have h2 := part_then h1 (part_then (putMembers_part L l (n + 1) r) (part_ok (l.newline n ++ ['}'])))
    simp only [putAt, encodeAt]
    have e : '{' :: (l.newline (n + 1) ++ encodeStr k ++ s!!": " ++ encodeAt l (n + 1) v ++ encodeMembers l (n + 1) r ++ l.newline n ++ ['}']) =
      ('{' :: (l.newline (n + 1) ++ encodeStr k ++ s!!": ")) ++ encodeAt l (n + 1) v ++ (encodeMembers l (n + 1) r ++ (l.newline n ++ ['}'])) := by simp
    rw [e, andThen_assoc]
    exact .inr ⟨part_iff (by simp [intsAre_dict]) h2, by simp⟩
theorem putMore_part (L : Nat) (l : Layout) (n : Nat) : ∀ r : List (JVal F), Part L l (∀ x ∈ r, IntsAre (Short L) x) (encodeMore l n r) (putMore L l n r)
  | [] => by simp only [putMore, encodeMore]; exact ⟨by simp, rfl⟩
  | v :: r => by
    have := part_then (part_item (.inr ⟨n, rfl⟩) (putAt_part L l n v)) (putMore_part L l n r)
    simp only [putMore, encodeMore]
    exact part_iff (by simp) this
theorem putMembers_part (L : Nat) (l : Layout) (n : Nat) : ∀ r : List (Str × JVal F),
    Part L l (∀ x ∈ r, IntsAre (Short L) x.2) (encodeMembers l n r) (putMembers L l n r)
  | [] => by simp only [putMembers, encodeMembers]; exact ⟨by simp, rfl⟩
  | (k, v) :: r => by
    have := part_then (part_member (b := l.separator n ++ encodeStr k ++ s!!": ") ⟨_, rfl⟩ (putAt_part L l n v)) (putMembers_part L l n r)
    simp only [putMembers, encodeMembers]
    rw [andThen_assoc]
    exact part_iff (by simp) this
end

/-- C97: `json.dump` writes a value without an exception exactly if its whole numbers have at most `L` digits; the text is then the one of C77. -/
theorem c97_write (L : Nat) (l : Layout) (v : JVal F) (t : Str) : put L l v = .ok t ↔ IntsAre (Short L) v ∧ t = encode l v := by
  have h := putAt_part L l 0 v
  unfold put encode
  constructor
  · intro e
    rw [e] at h
    rcases h with ⟨i, -, -, -, h⟩ | ⟨h, -⟩
    · cases h
    · exact h
  · rintro ⟨h1, rfl⟩
    rcases h with ⟨i, rfl, h, -⟩ | ⟨h, -⟩
    · exact absurd h1 (not_short_int h)
    · cases hp : putAt L l 0 v with
      | ok t => rw [hp] at h; rw [h.2]
      | error t => rw [hp] at h; exact absurd h1 h.1

/-- C97: when it raises, what has been written is the text up to a number that is too long (`Cut`); of a single number nothing is written. -/
theorem c97_write_cut {l : Layout} {v : JVal F} {t : Str} (h : put L l v = .error t) :
    ¬ IntsAre (Short L) v ∧ ((∃ i, v = .int i ∧ t = []) ∨ Cut L l (encode l v) t) := by
  have hp := putAt_part L l 0 v
  unfold put at h
  rw [h] at hp
  rcases hp with ⟨i, rfl, h, -, ht⟩ | ⟨h, -⟩
  · injection ht with ht; exact ⟨not_short_int h, .inl ⟨i, rfl, ht⟩⟩
  · exact ⟨h.1, .inr h.2⟩

/-- C97: a beginning of the text, but not all of it. -/
theorem c97_write_part {l : Layout} {v : JVal F} {t : Str} (h : put L l v = .error t) :
    ¬ IntsAre (Short L) v ∧ ∃ c r, encode l v = t ++ c :: r := by
  obtain ⟨h1, ⟨i, rfl, rfl⟩ | h2⟩ := c97_write_cut h
  · refine ⟨h1, ?_⟩
    cases he : encodeInt i with
    | nil => exact absurd he (encodeInt_ne i)
    | cons c r => exact ⟨c, r, by simp [encode, encodeAt, he]⟩
  · exact ⟨h1, h2.proper⟩

/-- C97: what is written is read back, with the same limit, as the same value. -/
theorem c97_read_back (l : Layout) {v : JVal F} {t : Str} (hv : v.Proper) (h : put L l v = .ok t) : decode L t = .ok v := by
  obtain ⟨hi, rfl⟩ := (c97_write L l v t).1 h
  exact (decode_iff _ _).2 (encode_document l hv hi)

/-! ### Half a text is not a document -/

theorem scan_any {s : Str} {v : JVal F} (h : JsonSpec.Value PyRt.fparse (some consts) s v) (hs : s.head? = some '{') (r : Str) :
    ∀ n, 2 * s.length ≤ n → JsonText.scan n (s ++ r) = .ok (v, r) := by
  intro n hn
  have hp := value_pos h
  obtain ⟨m, rfl⟩ : ∃ m, n = m + 1 := ⟨n - 1, by omega⟩
  cases h with
  | emptyDict hb =>
    simp only [List.cons_append, List.append_assoc, List.nil_append, JsonText.scan]
    rw [skipWs_append hb (headNot_cons (by decide))]
    rfl
  | dict hb hi =>
    have hl := JsonText.members_complete hi m r (by simp at hn; omega)
    obtain ⟨u, rfl, hl⟩ := hl
    simp only [List.cons_append, List.append_assoc, List.nil_append, JsonText.scan]
    rw [skipWs_append hb (headNot_cons (by decide))]
    simp [hl, ofPairs, JsonSpec.object]
  | int hi =>
    obtain ⟨c, u, rfl, hc⟩ := intPart_head hi
    simp only [List.head?_cons, Option.some.injEq] at hs
    subst hs
    exact absurd hc (by decide)
  | flt hi =>
    obtain ⟨c, u, rfl, hc⟩ := intPart_head hi
    simp only [List.cons_append, List.head?_cons, Option.some.injEq] at hs
    subst hs
    exact absurd hc (by decide)
  | null | tt | ff | nan | inf | ninf | str | emptyList | list => revert hs; simp

/-- a JSON text for an object has no beginning that is a JSON text -/
theorem prefix_free {v w : JVal F} {t r : Str} {c : Char} (h : JsonSpec.Value PyRt.fparse (some consts) (t ++ c :: r) v)
    (hs : (t ++ c :: r).head? = some '{') : ¬ JsonSpec.Document PyRt.fparse (some consts) t w := by
  rintro ⟨a, u, b, rfl, ha, hu, hb⟩
  obtain ⟨d, u', rfl, -⟩ := value_head hu
  have ea : a = [] ∧ d = '{' := by
    cases a with
    | nil => simpa using hs
    | cons x a =>
      simp only [List.cons_append, List.head?_cons, Option.some.injEq] at hs
      subst hs
      rcases ha '{' (by simp) with h | h | h | h <;> exact absurd h (by decide)
  obtain ⟨rfl, rfl⟩ := ea
  have h1 := scan_any hu rfl (b ++ c :: r) (2 * (([] ++ '{' :: u' ++ b) ++ c :: r).length) (by simp; omega)
  have h2 := JsonText.scan_complete h _ [] Follow.nil (Nat.le_refl _)
  simp only [List.append_nil, List.nil_append, List.append_assoc] at h1 h2
  rw [h1] at h2
  injection h2 with h2
  injection h2 with _ h2
  simp at h2

theorem encode_dict_head (l : Layout) (n : Nat) (d : Dict (JVal F)) : (encodeAt l n (.dict d)).head? = some '{' := by
  cases d with
  | nil => simp [encodeAt]
  | cons p d => obtain ⟨k, v⟩ := p; simp [encodeAt]

/-- C97: what is left of an object when writing it fails is no JSON text; reading it is an error, with any limit and without one. -/
theorem c97_lost {l : Layout} {d : Dict (JVal F)} {t : Str} (hd : (JVal.dict d).Proper) (h : put L l (.dict d) = .error t) :
    (∀ w : JVal F, JsonText.decode t ≠ .ok w) ∧ ∀ L' (w : JVal F), decode L' t ≠ .ok w := by
  obtain ⟨-, c, r, e⟩ := c97_write_part h
  have hv : JsonSpec.Value PyRt.fparse (some consts) (t ++ c :: r) (.dict d) := by
    rw [← e]
    exact JsonText.encodeAt_value _ _ _ (fun f _ => JsonText.encodeFloat_value f) l 0 _ hd (floats_true _)
  have hs : (t ++ c :: r).head? = some '{' := by rw [← e]; exact encode_dict_head l 0 d
  have key : ∀ w : JVal F, JsonText.decode t ≠ .ok w := fun w hw => prefix_free hv hs ((JsonText.decode_iff t w).1 hw)
  exact ⟨key, fun L' w hw => key w (c97_read_same hw)⟩

/-! ### Files -/
section files
open Files

theorem walk_put {fs : FS} {a : List Str} {n : Files.Node} (ha : Files.Node.isDir (fs.node a) = false) : ∀ (cs : List Str) (cur b : List Str),
    fs.walk cur cs = some b → (fs.put a n).walk cur cs = some b
  | [], _, _, h => h
  | c :: cs, cur, b, h => by
    simp only [FS.walk] at h ⊢
    split at h
    · rename_i hd
      have hne : cur ≠ a := by rintro rfl; rw [ha] at hd; cases hd
      have : ((fs.put a n).node cur) = fs.node cur := by simp [FS.put, hne]
      rw [this, if_pos hd]
      exact walk_put ha cs _ _ h
    · cases h

theorem resolve_put {fs : FS} {a b : List Str} {n : Files.Node} {p : Str} (ha : Files.Node.isDir (fs.node a) = false) (h : fs.resolve p = some b) :
    (fs.put a n).resolve p = some b := by
  unfold FS.resolve at h ⊢
  split at h
  · cases h
  · rename_i hp
    rw [if_neg hp]
    exact walk_put ha _ _ _ h

/-- writing a file: the outcome does not depend on the text, and the text is what is read afterwards -/
theorem write_cases (fs : FS) (p : Str) : (∃ x, ∀ t, fs.write p t = (.error x, fs)) ∨
    ∃ a, fs.resolve p = some a ∧ Files.Node.isDir (fs.node a) = false ∧ ∀ t, fs.write p t = (.ok (), fs.put a (.file t)) := by
  unfold FS.write
  cases hr : fs.resolve p with
  | none => exact .inl ⟨_, fun _ => rfl⟩
  | some a =>
    cases hn : fs.node a with
    | none => exact .inr ⟨a, rfl, by simp [hn, Files.Node.isDir], fun _ => by simp [hn]⟩
    | some n =>
      cases n with
      | dir => exact .inl ⟨.other, fun _ => by simp [hn]⟩
      | file s => exact .inr ⟨a, rfl, by simp [hn, Files.Node.isDir], fun _ => by simp [hn]⟩

theorem save_cases (fs : FS) (p : Str) : (∃ x fs', ∀ t, fs.save p t = (.error x, fs')) ∨
    ∃ (fs' : FS) (a : List Str), fs'.resolve p = some a ∧ Files.Node.isDir (fs'.node a) = false ∧ ∀ t, fs.save p t = (.ok (), fs'.put a (.file t)) := by
  unfold FS.save
  cases fs.isdir (dirname p) with
  | true =>
    simp only [if_true]
    rcases write_cases fs p with ⟨x, h⟩ | ⟨a, h⟩
    · exact .inl ⟨x, fs, h⟩
    · exact .inr ⟨fs, a, h⟩
  | false =>
    simp only [Bool.false_eq_true, if_false]
    generalize fs.makedirs (dirname p) = m
    obtain ⟨r, fs'⟩ := m
    cases r with
    | error x => exact .inl ⟨x, fs', fun _ => rfl⟩
    | ok u =>
      rcases write_cases fs' p with ⟨x, h⟩ | ⟨a, h⟩
      · exact .inl ⟨x, fs', h⟩
      · exact .inr ⟨fs', a, h⟩

theorem read_put {fs : FS} {a : List Str} {p t : Str} (h : fs.resolve p = some a) (ha : Files.Node.isDir (fs.node a) = false) :
    (fs.put a (.file t)).read p = .ok t := by
  unfold FS.read
  rw [resolve_put ha h]
  simp [FS.put]

/-- C97: `to_json` of a document whose whole numbers have at most `L` digits does what it does without a limit. -/
theorem c97_save_same (fs : FS) {e : Editor F} (p : Str) (h : IntsAre (Short L) e.toJson) :
    toJsonFile L fs e p = ((e.toJsonFile fs p).1.mapError .os, (e.toJsonFile fs p).2) := by
  unfold toJsonFile Editor.toJsonFile
  rw [(c97_write L .indent4 e.toJson _).2 ⟨h, rfl⟩]
  dsimp only
  generalize fs.save p (encode .indent4 e.toJson) = q
  obtain ⟨r, fs'⟩ := q
  cases r <;> rfl

theorem toJson_dict (e : Editor F) : ∃ d, e.toJson = .dict d := ⟨_, rfl⟩

/-- C97: `to_json` of a document with a longer number raises.  If the file could have been written, the exception is ValueError, and the file
now holds the text up to the number (`Cut`): `from_json_file` raises for it, whatever was in the file before; every other file is as if the save had worked. -/
theorem c97_save_fails (fs : FS) {e : Editor F} (he : Editor.Edited e) (p : Str) (h : ¬ IntsAre (Short L) e.toJson) :
    (∃ x fs', e.toJsonFile fs p = (.error x, fs') ∧ toJsonFile L fs e p = (.error (.os x), fs')) ∨
    ∃ (fs₁ fs₂ : FS) (a : List Str) (t : Str), e.toJsonFile fs p = (.ok (), fs₁) ∧ toJsonFile L fs e p = (.error .value, fs₂) ∧
      fs₂.read p = .ok t ∧ Cut L .indent4 (encode .indent4 e.toJson) t ∧
      (∀ L' w, fromJsonFile (F := F) L' fs₂ p ≠ .ok w) ∧ (∀ w, Editor.fromJsonFile (F := F) fs₂ p ≠ .ok w) ∧
      fs₁.resolve p = some a ∧ ∀ b, b ≠ a → fs₂.node b = fs₁.node b := by
  cases hp : put L .indent4 e.toJson with
  | ok t => exact absurd ((c97_write _ _ _ _).1 hp).1 h
  | error t =>
    unfold toJsonFile Editor.toJsonFile
    rw [hp]
    dsimp only
    rcases save_cases fs p with ⟨x, fs', hs⟩ | ⟨fs', a, hr, ha, hs⟩
    · exact .inl ⟨x, fs', hs _, by rw [hs]⟩
    · have hrd := read_put (t := t) hr ha
      have hpr := he.proper
      obtain ⟨d, hd⟩ := toJson_dict e
      have hlost := c97_lost (hd ▸ hpr) (hd ▸ hp)
      have hcut : Cut L .indent4 (encode .indent4 e.toJson) t := by
        rcases (c97_write_cut hp).2 with ⟨i, hi, -⟩ | h
        · rw [hd] at hi; cases hi
        · exact h
      refine .inr ⟨_, _, a, t, hs _, by rw [hs], hrd, hcut, ?_, ?_, resolve_put ha hr, ?_⟩
      · intro L' w hw
        unfold fromJsonFile at hw
        rw [hrd] at hw
        dsimp only at hw
        cases hdc : decode (F := F) L' t with
        | error x => rw [hdc] at hw; cases hw
        | ok v => exact hlost.2 L' v hdc
      · intro w hw
        unfold Editor.fromJsonFile at hw
        rw [hrd] at hw
        dsimp only at hw
        cases hdc : JsonText.decode (F := F) t with
        | error x => rw [hdc] at hw; cases hw
        | ok v => exact hlost.1 v hdc
      · intro b hb
        simp [FS.put, hb]

/-- C97: after a save that raised nothing, `from_json_file` opens the document that was saved. -/
theorem c97_saved {fs fs' : FS} {e : Editor F} (he : Editor.Edited e) {p : Str} (h : toJsonFile L fs e p = (.ok (), fs')) :
    fromJsonFile (F := F) L fs' p = Editor.load e.toJson ∧ IntsAre (Short L) e.toJson := by
  unfold toJsonFile at h
  cases hp : put L .indent4 e.toJson with
  | error t =>
    rw [hp] at h
    dsimp only at h
    rcases save_cases fs p with ⟨x, fs1, hs⟩ | ⟨fs1, a, hr, ha, hs⟩ <;> (rw [hs] at h; cases h)
  | ok t =>
    rw [hp] at h
    dsimp only at h
    rcases save_cases fs p with ⟨x, fs1, hs⟩ | ⟨fs1, a, hr, ha, hs⟩
    · rw [hs] at h; cases h
    · rw [hs] at h
      injection h with _ h
      subst h
      refine ⟨?_, ((c97_write _ _ _ _).1 hp).1⟩
      unfold fromJsonFile
      rw [read_put hr ha]
      dsimp only
      rw [c97_read_back _ he.proper hp]

end files

/-! ### Examples -/

section examples
open Files

/-- a bone with a whole number for its scale -/
def withInt (i : Int) : JVal XF := .dict [(s!!"skeleton", .dict [(s!!"spine", .str s!!"3.8.75")]),
  (s!!"bones", .list [.dict [(s!!"name", .str s!!"root"), (s!!"scaleX", .int i)]]), (s!!"slots", .list []), (s!!"skins", .list [])]

theorem withInt_proper (i : Int) : (withInt i).Proper := JVal.proper_of _ rfl

theorem withInt_short {i : Int} (h : Short L i) : IntsAre (Short L) (withInt i) := by
  refine .dict ?_
  simp only [List.forall_mem_cons, List.not_mem_nil, false_implies, implies_true, and_true]
  refine ⟨.dict ?_, .list ?_, .list (by simp), .list (by simp)⟩
  · simp only [List.forall_mem_cons, List.not_mem_nil, false_implies, implies_true, and_true]
    exact .str _
  · simp only [List.forall_mem_cons, List.not_mem_nil, false_implies, implies_true, and_true]
    refine .dict ?_
    simp only [List.forall_mem_cons, List.not_mem_nil, false_implies, implies_true, and_true]
    exact ⟨.str _, .int h⟩

/-- the scale of the first bone of a document -/
def firstScale (v : JVal XF) : Option Int :=
  match v with
  | .dict d => match Dict.get? d s!!"bones" with
    | some (.list (.dict b :: _)) => match Dict.get? b s!!"scaleX" with
      | some (.int i) => some i
      | _ => none
    | _ => none
  | _ => none

theorem firstScale_ints {q : Int → Prop} {v : JVal XF} {i : Int} (h : firstScale v = some i) (hv : IntsAre q v) : q i := by
  unfold firstScale at h
  split at h
  · rename_i d
    split at h
    · rename_i b r hb
      split at h
      · rename_i j hj
        injection h with h; subst h
        have h1 := intsAre_dict.1 hv _ (Dict.mem_of_get? hb)
        have h2 := intsAre_list.1 h1 (.dict b) (by simp)
        have h3 := intsAre_dict.1 h2 _ (Dict.mem_of_get? hj)
        cases h3 with | int h => exact h
      · cases h
    · cases h
  · cases h

/-- load a document, call a method, and look at the scale of the first bone if nothing was raised -/
def scaleAfter (f : Editor XF → Res (Editor XF) Unit) (r : Except Err (Editor XF)) : Option Int :=
  match r with
  | .ok e => match f e with
    | (.ok _, e) => firstScale e.toJson
    | (.error _, _) => none
  | .error _ => none

theorem scaleAfter_ok {f : Editor XF → Res (Editor XF) Unit} {v : JVal XF} {i : Int} (h : scaleAfter f (Editor.load v) = some i) :
    ∃ e, Editor.load v = .ok e ∧ (f e).1 = .ok () ∧ firstScale (f e).2.toJson = some i := by
  unfold scaleAfter at h
  cases he : Editor.load v with
  | error x => rw [he] at h; cases h
  | ok e =>
    rw [he] at h
    refine ⟨e, rfl, ?_⟩
    dsimp only at h
    generalize f e = q at h ⊢
    obtain ⟨r, e'⟩ := q
    cases r with
    | error x => cases h
    | ok u => exact ⟨rfl, h⟩

/-- a directory with one file -/
def oneFile (t : Str) : FS := { node := fun a => if a = [] then some .dir else if a = [s!!"a.json"] then some (.file t) else none, cwd := [] }

/-- C97: a limit of three digits, on both sides -/
example : decode (F := XF) 3 s!!"[100, -999, 2000.0]" = .ok (.list [.int 100, .int (-999), .flt (.num 2000)]) := rfl
example : decode (F := XF) 3 s!!"[100, 1000]" = .error .value := rfl
example : decode (F := XF) 3 s!!"[100, -1000]" = .error .value := rfl

/-- in a list the comma goes with the number, in a dictionary it does not -/
example : put (F := XF) 3 .compact (.list [.int 100, .int 1000]) = .error s!!"[100" := by decide +kernel
example : put (F := XF) 3 .compact (.list [.int 100, .list [.int 1000]]) = .error s!!"[100, " := by decide +kernel
example : put (F := XF) 3 .compact (.dict [(s!!"a", .int 100), (s!!"b", .int 1000)]) = .error s!!"{\"a\": 100, \"b\": " := by decide +kernel
example : put (F := XF) 3 .compact (.dict [(s!!"a", .int 100)]) = .ok s!!"{\"a\": 100}" := by decide +kernel

/-- the hypotheses of `c97_saved` hold of a document with a number of 4300 digits -/
example : ∃ e : Editor XF, Editor.load (withInt (10 ^ 4299)) = .ok e ∧ Editor.Edited e ∧ firstScale e.toJson = some (10 ^ 4299) := by
  obtain ⟨e, he, -, hs⟩ := scaleAfter_ok (f := fun e => (.ok (), e)) (v := withInt (10 ^ 4299)) (i := 10 ^ 4299) (by decide +kernel)
  exact ⟨e, he, .load (withInt_proper _) he, hs⟩

theorem destroyed_of {L : Nat} {i j : Int} (hshort : Short L i) (hlong : ¬ Short L j)
    (hj : scaleAfter (Editor.scale (.int 10) (.int 10)) (Editor.load (withInt i)) = some j) : ∃ (fs fs' : FS) (e : Editor XF), fromJsonFile L fs s!!"/a.json" = .ok e ∧ (Editor.scale (.int 10) (.int 10) e).1 = .ok () ∧
    toJsonFile L fs (Editor.scale (.int 10) (.int 10) e).2 s!!"/a.json" = (.error .value, fs') ∧
    ∀ L w, fromJsonFile (F := XF) L fs' s!!"/a.json" ≠ .ok w := by
  obtain ⟨e, he, h1, hs⟩ := scaleAfter_ok hj
  have hedit : Editor.Edited (Editor.scale (.int 10) (.int 10) e).2 := .run (.scale (.int 10) (.int 10)) (.load (withInt_proper _) he)
  refine ⟨oneFile (encode .indent4 (withInt i)), ?_⟩
  have hres : ∀ t, (oneFile t).resolve s!!"/a.json" = some [s!!"a.json"] := fun t => rfl
  have hread : fromJsonFile (F := XF) L (oneFile (encode .indent4 (withInt i))) s!!"/a.json" = .ok e := by
    unfold fromJsonFile FS.read
    rw [hres]
    have : (oneFile (encode .indent4 (withInt i))).node [s!!"a.json"] = some (.file (encode .indent4 (withInt i))) := rfl
    dsimp only
    rw [this]
    dsimp only
    rw [c97_read_back .indent4 (withInt_proper _) ((c97_write L .indent4 (withInt i) _).2 ⟨withInt_short hshort, rfl⟩)]
    exact he
  rcases c97_save_fails (L := L) (oneFile (encode .indent4 (withInt i))) hedit s!!"/a.json" (fun hi => hlong (firstScale_ints hs hi))
    with ⟨x, fs', h, -⟩ | ⟨fs1, fs2, a, t, -, h2, -, -, h3, -⟩
  · unfold Editor.toJsonFile FS.save at h
    have hd : ∀ t, (oneFile t).isdir (dirname s!!"/a.json") = true := fun t => rfl
    rw [if_pos (hd _)] at h
    unfold FS.write at h
    rw [hres] at h
    cases h
  · exact ⟨fs2, e, hread, h1, h2, h3⟩

/-- C97: with Python's limit of 4300 digits, a file that `from_json_file` opens is destroyed by scaling the animation by ten and saving it in its
place: `to_json` raises ValueError, and nothing can open the file again. -/
theorem c97_destroyed : ∃ (fs fs' : FS) (e : Editor XF), fromJsonFile 4300 fs s!!"/a.json" = .ok e ∧ (Editor.scale (.int 10) (.int 10) e).1 = .ok () ∧
    toJsonFile 4300 fs (Editor.scale (.int 10) (.int 10) e).2 s!!"/a.json" = (.error .value, fs') ∧
    ∀ L w, fromJsonFile (F := XF) L fs' s!!"/a.json" ≠ .ok w :=
  destroyed_of (i := 10 ^ 4299) (j := 10 ^ 4300) (by decide +kernel) (by decide +kernel) (by decide +kernel)

end examples
end Digits
end Spine
