import Verif.Spec.Bytes
import Verif.Props.JsonText
import Verif.Spec.ConcreteFloat
/-
C98: what is saved is opened as the same document on every platform, and line ends never matter.  The encoding matters for documents with
characters beyond ASCII (`c98_counterexample`).
-/
set_option linter.unusedSectionVars false
namespace Spine
namespace Bytes
open JsonSpec (IntPart Chars Value Items Members Document Consts CharText Hex4 HexDigit Frac Exp)
open BytesSpec JsonText
variable {F : Type}

/-! ### Texts without line ends -/

/-- no line ends -/
def NoEol (s : Str) : Prop := ∀ c ∈ s, c ≠ '\r' ∧ c ≠ '\n'

theorem noEol_append {s t : Str} (h1 : NoEol s) (h2 : NoEol t) : NoEol (s ++ t) := by
  intro c hc
  rcases List.mem_append.1 hc with h | h
  · exact h1 c h
  · exact h2 c h

theorem noEol_cons {c : Char} {t : Str} (h1 : c ≠ '\r' ∧ c ≠ '\n') (h2 : NoEol t) : NoEol (c :: t) := by
  intro d hd
  rcases List.mem_cons.1 hd with rfl | h
  · exact h1
  · exact h2 d h

theorem ne_of_big {c : Char} (h : 32 ≤ c.toNat) : c ≠ '\r' ∧ c ≠ '\n' := by
  constructor <;> (rintro rfl; exact absurd h (by decide))

theorem noEol_of_big {s : Str} (h : ∀ c ∈ s, 32 ≤ c.toNat) : NoEol s := fun c hc => ne_of_big (h c hc)

theorem big_digits {s : Str} (h : JsonSpec.Digits s) : NoEol s := by
  refine noEol_of_big (fun c hc => ?_)
  have := (h c hc).1
  rw [le_nat] at this
  have h' : 48 ≤ c.toNat := this
  omega

theorem noEol_int {s : Str} (h : IntPart s) : NoEol s := by
  cases h with
  | zero => intro c hc; simp at hc; subst hc; decide
  | negZero => intro c hc; simp at hc; rcases hc with rfl | rfl <;> decide
  | pos h1 h2 h3 => exact big_digits (digits_cons h1 h2 h3)
  | neg h1 h2 h3 => exact noEol_cons (by decide) (big_digits (digits_cons h1 h2 h3))

theorem noEol_frac {s : Str} (h : s = [] ∨ Frac s) : NoEol s := by
  rcases h with rfl | ⟨r, rfl, -, h⟩
  · intro c hc; cases hc
  · exact noEol_cons (by decide) (big_digits h)

theorem noEol_exp {s : Str} (h : s = [] ∨ Exp s) : NoEol s := by
  rcases h with rfl | ⟨e, sg, t, rfl, he, hs, -, h⟩
  · intro c hc; cases hc
  · refine noEol_cons (by rcases he with rfl | rfl <;> decide) (noEol_append ?_ (big_digits h))
    intro c hc
    rcases hs with rfl | rfl | rfl
    · cases hc
    · simp at hc; subst hc; decide
    · simp at hc; subst hc; decide

theorem noEol_hex {s : Str} {n : Nat} (h : Hex4 s n) : NoEol s := by
  have key : ∀ {c : Char} {m : Nat}, HexDigit c m → c ≠ '\r' ∧ c ≠ '\n' := by
    intro c m h
    refine ne_of_big ?_
    cases h with
    | dec h _ => rw [le_nat] at h; have h' : 48 ≤ c.toNat := h; omega
    | lower h _ => rw [le_nat] at h; have h' : 97 ≤ c.toNat := h; omega
    | upper h _ => rw [le_nat] at h; have h' : 65 ≤ c.toNat := h; omega
  cases h with
  | mk a b c d => exact noEol_cons (key a) (noEol_cons (key b) (noEol_cons (key c) (noEol_cons (key d) (by intro c hc; cases hc))))

theorem noEol_char {s : Str} {c : Char} (h : CharText s c) : NoEol s := by
  cases h with
  | raw _ _ h => exact noEol_cons (ne_of_big h) (by intro c hc; cases hc)
  | @short e c h =>
    refine noEol_cons (by decide) (noEol_cons ?_ (by intro c hc; cases hc))
    simp only [JsonSpec.shortEscapes, List.mem_cons, Prod.mk.injEq, List.not_mem_nil, or_false] at h
    rcases h with ⟨rfl, -⟩ | ⟨rfl, -⟩ | ⟨rfl, -⟩ | ⟨rfl, -⟩ | ⟨rfl, -⟩ | ⟨rfl, -⟩ | ⟨rfl, -⟩ | ⟨rfl, -⟩ <;> decide
  | unicode h _ => exact noEol_cons (by decide) (noEol_cons (by decide) (noEol_hex h))
  | pair h h' _ _ _ _ =>
    exact noEol_cons (by decide) (noEol_cons (by decide) (noEol_append (noEol_hex h) (noEol_cons (by decide) (noEol_cons (by decide) (noEol_hex h')))))

theorem noEol_chars {s u : Str} (h : Chars s u) : NoEol s := by
  induction h with
  | nil => intro c hc; cases hc
  | cons h _ ih => exact noEol_append (noEol_char h) ih

/-! ### A relation that changes blanks only keeps the value -/

/-- a relation between texts that leaves everything but blanks alone -/
structure Blanks (R : Str → Str → Prop) : Prop where
  plain : ∀ s r w, NoEol s → R (s ++ r) w → ∃ r', w = s ++ r' ∧ R r r'
  blank : ∀ b r w, JsonSpec.Blank b → r.head? ≠ some '\n' → R (b ++ r) w → ∃ b' r', w = b' ++ r' ∧ JsonSpec.Blank b' ∧ R r r'
  nil : ∀ w, R [] w → w = []

theorem head_value [JsonRt F] {parse : Str → Option F} {ext : Option (Consts F)} {s : Str} {v : JVal F} (h : Value parse ext s v) (r : Str) :
    (s ++ r).head? ≠ some '\n' := by
  obtain ⟨c, u, rfl, h1, -, -⟩ := value_head h
  simp only [List.cons_append, List.head?_cons, ne_eq, Option.some.injEq]
  rintro rfl
  exact absurd h1 (by decide)

theorem head_items [JsonRt F] {parse : Str → Option F} {ext : Option (Consts F)} {s : Str} {l : List (JVal F)} (h : Items parse ext s l) (r : Str) :
    (s ++ r).head? ≠ some '\n' := by
  cases h with
  | one hv _ => rw [List.append_assoc]; exact head_value hv _
  | cons hv _ _ _ => rw [List.append_assoc, List.append_assoc]; exact head_value hv _

theorem head_members [JsonRt F] {parse : Str → Option F} {ext : Option (Consts F)} {s : Str} {l : List (Str × JVal F)} (h : Members parse ext s l) (r : Str) :
    (s ++ r).head? ≠ some '\n' := by
  cases h <;> simp

theorem Blanks.char {R : Str → Str → Prop} (hR : Blanks R) {c : Char} (hc : c ≠ '\r' ∧ c ≠ '\n') {r w : Str} (h : R (c :: r) w) :
    ∃ r', w = c :: r' ∧ R r r' := hR.plain [c] r w (by intro d hd; simp at hd; subst hd; exact hc) h

mutual
theorem value_blanks [JsonRt F] {R : Str → Str → Prop} (hR : Blanks R) {parse : Str → Option F} {ext : Option (Consts F)} {s : Str} {v : JVal F}
    (h : Value parse ext s v) (r w : Str) (hw : R (s ++ r) w) : ∃ s' r', w = s' ++ r' ∧ Value parse ext s' v ∧ R r r' := by
  match h with
  | .null => obtain ⟨r', e, hr⟩ := hR.plain _ r w (by unfold NoEol; decide) hw; exact ⟨_, r', e, .null, hr⟩
  | .tt => obtain ⟨r', e, hr⟩ := hR.plain _ r w (by unfold NoEol; decide) hw; exact ⟨_, r', e, .tt, hr⟩
  | .ff => obtain ⟨r', e, hr⟩ := hR.plain _ r w (by unfold NoEol; decide) hw; exact ⟨_, r', e, .ff, hr⟩
  | .int hi => obtain ⟨r', e, hr⟩ := hR.plain _ r w (noEol_int hi) hw; exact ⟨_, r', e, .int hi, hr⟩
  | .flt a b c d p =>
    obtain ⟨r', e, hr⟩ := hR.plain _ r w (noEol_append (noEol_append (noEol_int a) (noEol_frac b)) (noEol_exp c)) hw
    exact ⟨_, r', e, .flt a b c d p, hr⟩
  | .nan hc => obtain ⟨r', e, hr⟩ := hR.plain _ r w (by unfold NoEol; decide) hw; exact ⟨_, r', e, .nan hc, hr⟩
  | .inf hc => obtain ⟨r', e, hr⟩ := hR.plain _ r w (by unfold NoEol; decide) hw; exact ⟨_, r', e, .inf hc, hr⟩
  | .ninf hc => obtain ⟨r', e, hr⟩ := hR.plain _ r w (by unfold NoEol; decide) hw; exact ⟨_, r', e, .ninf hc, hr⟩
  | .str hs =>
    obtain ⟨r', e, hr⟩ := hR.plain _ r w (noEol_cons (by decide) (noEol_append (noEol_chars hs) (by unfold NoEol; decide))) hw
    exact ⟨_, r', e, .str hs, hr⟩
  | .emptyList (b := b) hb =>
    obtain ⟨w1, rfl, h1⟩ := hR.char (by decide) hw
    obtain ⟨b', w2, rfl, hb', h2⟩ := hR.blank b (']' :: r) w1 hb (by simp) (by simpa using h1)
    obtain ⟨r', rfl, h3⟩ := hR.char (by decide) h2
    exact ⟨'[' :: (b' ++ [']']), r', by simp, .emptyList hb', h3⟩
  | .list (b := b) (s := t) hb hi =>
    obtain ⟨w1, rfl, h1⟩ := hR.char (by decide) hw
    obtain ⟨b', w2, rfl, hb', h2⟩ := hR.blank b (t ++ ']' :: r) w1 hb (head_items hi _) (by simpa using h1)
    obtain ⟨t', w3, rfl, ht, h3⟩ := items_blanks hR hi (']' :: r) w2 (by simp) h2
    obtain ⟨r', rfl, h4⟩ := hR.char (by decide) h3
    exact ⟨'[' :: (b' ++ t' ++ [']']), r', by simp, .list hb' ht, h4⟩
  | .emptyDict (b := b) hb =>
    obtain ⟨w1, rfl, h1⟩ := hR.char (by decide) hw
    obtain ⟨b', w2, rfl, hb', h2⟩ := hR.blank b ('}' :: r) w1 hb (by simp) (by simpa using h1)
    obtain ⟨r', rfl, h3⟩ := hR.char (by decide) h2
    exact ⟨'{' :: (b' ++ ['}']), r', by simp, .emptyDict hb', h3⟩
  | .dict (b := b) (s := t) hb hi =>
    obtain ⟨w1, rfl, h1⟩ := hR.char (by decide) hw
    obtain ⟨b', w2, rfl, hb', h2⟩ := hR.blank b (t ++ '}' :: r) w1 hb (head_members hi _) (by simpa using h1)
    obtain ⟨t', w3, rfl, ht, h3⟩ := members_blanks hR hi ('}' :: r) w2 (by simp) h2
    obtain ⟨r', rfl, h4⟩ := hR.char (by decide) h3
    exact ⟨'{' :: (b' ++ t' ++ ['}']), r', by simp, .dict hb' ht, h4⟩
theorem items_blanks [JsonRt F] {R : Str → Str → Prop} (hR : Blanks R) {parse : Str → Option F} {ext : Option (Consts F)} {s : Str} {l : List (JVal F)}
    (h : Items parse ext s l) (r w : Str) (hr : r.head? ≠ some '\n') (hw : R (s ++ r) w) : ∃ s' r', w = s' ++ r' ∧ Items parse ext s' l ∧ R r r' := by
  match h with
  | .one (s := s) (b := b) hv hb =>
    obtain ⟨s', w1, rfl, hs, h1⟩ := value_blanks hR hv (b ++ r) w (by simpa using hw)
    obtain ⟨b', r', rfl, hb', h2⟩ := hR.blank b r w1 hb hr h1
    exact ⟨s' ++ b', r', by simp, .one hs hb', h2⟩
  | .cons (s := s) (b := b) (b' := c) (t := t) hv hb hc hi =>
    obtain ⟨s', w1, rfl, hs, h1⟩ := value_blanks hR hv (b ++ ',' :: (c ++ (t ++ r))) w (by simpa using hw)
    obtain ⟨b', w2, rfl, hb', h2⟩ := hR.blank b _ w1 hb (by simp) h1
    obtain ⟨w3, rfl, h3⟩ := hR.char (by decide) h2
    obtain ⟨c', w4, rfl, hc', h4⟩ := hR.blank c _ w3 hc (head_items hi _) h3
    obtain ⟨t', r', rfl, ht, h5⟩ := items_blanks hR hi r w4 hr h4
    exact ⟨s' ++ b' ++ ',' :: (c' ++ t'), r', by simp, .cons hs hb' hc' ht, h5⟩
theorem members_blanks [JsonRt F] {R : Str → Str → Prop} (hR : Blanks R) {parse : Str → Option F} {ext : Option (Consts F)} {s : Str} {l : List (Str × JVal F)}
    (h : Members parse ext s l) (r w : Str) (hr : r.head? ≠ some '\n') (hw : R (s ++ r) w) : ∃ s' r', w = s' ++ r' ∧ Members parse ext s' l ∧ R r r' := by
  match h with
  | .one (k := k) (b1 := b1) (b2 := b2) (s := s) (b3 := b3) hk h1 h2 hv h3 =>
    obtain ⟨w1, rfl, g1⟩ := hR.char (by decide) hw
    obtain ⟨w2, rfl, g2⟩ := hR.plain k ('"' :: (b1 ++ ':' :: (b2 ++ (s ++ (b3 ++ r))))) w1 (noEol_chars hk) (by simpa using g1)
    obtain ⟨w3, rfl, g3⟩ := hR.char (by decide) g2
    obtain ⟨c1, w4, rfl, hc1, g4⟩ := hR.blank b1 _ w3 h1 (by simp) g3
    obtain ⟨w5, rfl, g5⟩ := hR.char (by decide) g4
    obtain ⟨c2, w6, rfl, hc2, g6⟩ := hR.blank b2 _ w5 h2 (head_value hv _) g5
    obtain ⟨s', w7, rfl, hs, g7⟩ := value_blanks hR hv _ w6 g6
    obtain ⟨c3, r', rfl, hc3, g8⟩ := hR.blank b3 r w7 h3 hr g7
    exact ⟨'"' :: (k ++ '"' :: (c1 ++ ':' :: (c2 ++ s' ++ c3))), r', by simp, .one hk hc1 hc2 hs hc3, g8⟩
  | .cons (k := k) (b1 := b1) (b2 := b2) (s := s) (b3 := b3) (b4 := b4) (t := t) hk h1 h2 hv h3 h4 hm =>
    obtain ⟨w1, rfl, g1⟩ := hR.char (by decide) hw
    obtain ⟨w2, rfl, g2⟩ := hR.plain k ('"' :: (b1 ++ ':' :: (b2 ++ (s ++ (b3 ++ ',' :: (b4 ++ (t ++ r))))))) w1 (noEol_chars hk) (by simpa using g1)
    obtain ⟨w3, rfl, g3⟩ := hR.char (by decide) g2
    obtain ⟨c1, w4, rfl, hc1, g4⟩ := hR.blank b1 _ w3 h1 (by simp) g3
    obtain ⟨w5, rfl, g5⟩ := hR.char (by decide) g4
    obtain ⟨c2, w6, rfl, hc2, g6⟩ := hR.blank b2 _ w5 h2 (head_value hv _) g5
    obtain ⟨s', w7, rfl, hs, g7⟩ := value_blanks hR hv _ w6 g6
    obtain ⟨c3, w8, rfl, hc3, g8⟩ := hR.blank b3 _ w7 h3 (by simp) g7
    obtain ⟨w9, rfl, g9⟩ := hR.char (by decide) g8
    obtain ⟨c4, w10, rfl, hc4, g10⟩ := hR.blank b4 _ w9 h4 (head_members hm _) g9
    obtain ⟨t', r', rfl, ht, g11⟩ := members_blanks hR hm r w10 hr g10
    exact ⟨'"' :: (k ++ '"' :: (c1 ++ ':' :: (c2 ++ s' ++ c3 ++ ',' :: (c4 ++ t')))), r', by simp, .cons hk hc1 hc2 hs hc3 hc4 ht, g11⟩
end

theorem document_blanks [JsonRt F] {R : Str → Str → Prop} (hR : Blanks R) {parse : Str → Option F} {ext : Option (Consts F)} {s w : Str} {v : JVal F}
    (h : Document parse ext s v) (hw : R s w) : Document parse ext w v := by
  obtain ⟨a, t, b, rfl, ha, ht, hb⟩ := h
  obtain ⟨a', w1, rfl, ha', h1⟩ := hR.blank a (t ++ b) w ha (head_value ht b) (by simpa using hw)
  obtain ⟨t', w2, rfl, ht', h2⟩ := value_blanks hR ht b w1 h1
  obtain ⟨b', r', rfl, hb', h3⟩ := hR.blank b [] w2 hb (by simp) (by simpa using h2)
  have := hR.nil _ h3
  subst this
  exact ⟨a', t', b', by simp, ha', ht', hb'⟩

/-! ### Line ends -/

theorem eol_blanks : Blanks Eol := by
  refine ⟨?_, ?_, ?_⟩
  · intro s
    induction s with
    | nil => intro r w _ h; exact ⟨w, rfl, h⟩
    | cons c s ih =>
      intro r w hs h
      have hc := hs c (by simp)
      simp only [List.cons_append] at h
      generalize hx : c :: (s ++ r) = x at h
      cases h with
      | nil => cases hx
      | keep _ h =>
        injection hx with h1 h2
        subst h1 h2
        obtain ⟨r', rfl, hr⟩ := ih r _ (fun d hd => hs d (by simp [hd])) h
        exact ⟨r', rfl, hr⟩
      | cr h => injection hx with h1; exact absurd h1 hc.1
      | crlf h => injection hx with h1; exact absurd h1 hc.1
  · intro b
    induction hn : b.length using Nat.strongRecOn generalizing b with
    | ind n ih =>
      intro r w hb hr h
      cases b with
      | nil => exact ⟨[], w, rfl, hb, h⟩
      | cons c b =>
        simp only [List.length_cons] at hn
        have hb1 : JsonSpec.Blank b := fun d hd => hb d (by simp [hd])
        generalize hx : c :: b ++ r = x at h
        cases h with
        | nil => cases hx
        | @keep d _ t _ h =>
          injection hx with h1 h2
          subst h1 h2
          obtain ⟨b', r', rfl, hb', hr'⟩ := ih b.length (by omega) b rfl r _ hb1 hr h
          refine ⟨c :: b', r', rfl, ?_, hr'⟩
          intro e he
          rcases List.mem_cons.1 he with rfl | he
          · exact hb _ (by simp)
          · exact hb' e he
        | cr h =>
          injection hx with h1 h2
          subst h2
          obtain ⟨b', r', rfl, hb', hr'⟩ := ih b.length (by omega) b rfl r _ hb1 hr h
          refine ⟨'\n' :: b', r', rfl, ?_, hr'⟩
          intro e he
          rcases List.mem_cons.1 he with rfl | he
          · simp
          · exact hb' e he
        | crlf h =>
          injection hx with h1 h2
          cases b with
          | nil =>
            exact absurd (show r.head? = some '\n' by have h3 : r = _ := h2; rw [h3]; rfl) hr
          | cons d b =>
            injection h2 with h2 h3
            subst h3
            simp only [List.length_cons] at hn
            obtain ⟨b', r', rfl, hb', hr'⟩ := ih b.length (by omega) b rfl r _ (fun d hd => hb1 d (by simp [hd])) hr h
            refine ⟨'\n' :: b', r', rfl, ?_, hr'⟩
            intro e he
            rcases List.mem_cons.1 he with rfl | he
            · simp
            · exact hb' e he
  · intro w h; cases h; rfl

theorem loe_blanks : Blanks (fun t s => Eol s t) := by
  refine ⟨?_, ?_, ?_⟩
  · intro s
    induction s with
    | nil => intro r w _ h; exact ⟨w, rfl, h⟩
    | cons c s ih =>
      intro r w hs h
      have hc := hs c (by simp)
      simp only [List.cons_append] at h
      generalize hx : c :: (s ++ r) = x at h
      cases h with
      | nil => cases hx
      | keep _ h =>
        injection hx with h1 h2
        subst h1 h2
        obtain ⟨r', rfl, hr⟩ := ih r _ (fun d hd => hs d (by simp [hd])) h
        exact ⟨r', rfl, hr⟩
      | cr h => injection hx with h1; exact absurd h1 hc.2
      | crlf h => injection hx with h1; exact absurd h1 hc.2
  · intro b
    induction b with
    | nil => intro r w hb _ h; exact ⟨[], w, rfl, hb, h⟩
    | cons c b ih =>
      intro r w hb hr h
      have hb1 : JsonSpec.Blank b := fun d hd => hb d (by simp [hd])
      simp only [List.cons_append] at h
      generalize hx : c :: (b ++ r) = x at h
      have key : ∀ {p b' : Str}, JsonSpec.Blank p → JsonSpec.Blank b' → JsonSpec.Blank (p ++ b') := by
        intro p b' hp hb' e he
        rcases List.mem_append.1 he with he | he
        · exact hp e he
        · exact hb' e he
      cases h with
      | nil => cases hx
      | keep _ h =>
        injection hx with h1 h2
        subst h1 h2
        obtain ⟨b', r', rfl, hb', hr'⟩ := ih r _ hb1 hr h
        exact ⟨[c] ++ b', r', rfl, key (fun e he => hb e (by simp at he; simp [he])) hb', hr'⟩
      | cr h =>
        injection hx with h1 h2
        subst h2
        obtain ⟨b', r', rfl, hb', hr'⟩ := ih r _ hb1 hr h
        exact ⟨['\r'] ++ b', r', rfl, key (fun e he => by simp at he; simp [he]) hb', hr'⟩
      | crlf h =>
        injection hx with h1 h2
        subst h2
        obtain ⟨b', r', rfl, hb', hr'⟩ := ih r _ hb1 hr h
        exact ⟨['\r', '\n'] ++ b', r', rfl, key (fun e he => by simp at he; rcases he with rfl | rfl <;> simp) hb', hr'⟩
  · intro w h; cases h; rfl

theorem eol_univ (s : Str) : Eol s (univ s) := by
  induction hn : s.length using Nat.strongRecOn generalizing s with
  | ind n ih =>
    cases s with
    | nil => exact .nil
    | cons c s =>
      simp only [List.length_cons] at hn
      unfold univ
      split
      · rename_i hc
        subst hc
        split
        · rename_i t
          simp only [List.length_cons] at hn
          exact .crlf (ih t.length (by omega) t rfl)
        · exact .cr (ih s.length (by omega) s rfl)
      · rename_i hc
        exact .keep hc (ih s.length (by omega) s rfl)

section reading
variable [JsonRt F]

/-- C98: however the line ends of a text are written, `json.load` reads the same value from it. -/
theorem c98_line_ends {s t : Str} (h : Eol s t) (v : JVal F) : decode s = .ok v ↔ decode t = .ok v := by
  rw [decode_iff, decode_iff]
  exact ⟨fun hd => document_blanks eol_blanks hd h, fun hd => document_blanks loe_blanks hd h⟩

/-- C98: that `open` changes the line ends does not matter. -/
theorem c98_open (s : Str) (v : JVal F) : decode (univ s) = .ok v ↔ decode s = .ok v := (c98_line_ends (eol_univ s) v).symm

/-! ### Encodings -/

theorem ofNat_toNat (c : Char) : Char.ofNat c.toNat = c := Char.ofNat_toNat c

theorem latin1_over : OverAscii latin1 := by
  constructor
  · intro s
    induction s with
    | nil => intro _; rfl
    | cons c s ih =>
      intro h
      have hc : c.toNat < 256 := by have := h c (by simp); omega
      have := ih (fun d hd => h d (by simp [hd]))
      simp only [latin1] at this ⊢
      simp [collect, hc, this]
  · intro s
    induction s with
    | nil => intro _; rfl
    | cons c s ih =>
      intro h
      have hc : c.toNat < 256 := by have := h c (by simp); omega
      have := ih (fun d hd => h d (by simp [hd]))
      simp only [latin1] at this ⊢
      simp [collect, hc, this]

theorem utf8_char (c : Char) (l : List Nat) : utf8Dec (utf8Char c ++ l) = (utf8Dec l).map (c :: ·) := by
  have hv : c.toNat < 55296 ∨ (57343 < c.toNat ∧ c.toNat < 1114112) := c.valid
  have he := ofNat_toNat c
  unfold utf8Char
  generalize c.toNat = n at hv he
  subst he
  dsimp only
  split
  · rename_i h
    rw [List.singleton_append, utf8Dec.eq_def]
    dsimp only
    rw [if_pos h]
  · rename_i h
    split
    · rename_i h2
      have e : (192 + n / 64 - 192) * 64 + (128 + n % 64 - 128) = n := by omega
      rw [List.cons_append, List.cons_append, List.nil_append, utf8Dec.eq_def]
      dsimp only
      rw [if_neg (by omega)]
      rw [if_pos (by simp [cont]; omega), e]
    · rename_i h2
      split
      · rename_i h3
        have e : (224 + n / 4096 - 224) * 4096 + (128 + n / 64 % 64 - 128) * 64 + (128 + n % 64 - 128) = n := by omega
        rw [List.cons_append, List.cons_append, List.cons_append, List.nil_append, utf8Dec.eq_def]
        dsimp only
        rw [if_neg (by omega)]
        rw [if_neg (by simp [cont]; omega)]
        rw [e, if_pos (by simp [cont]; omega)]
      · rename_i h3
        have e : (240 + n / 262144 - 240) * 262144 + (128 + n / 4096 % 64 - 128) * 4096 + (128 + n / 64 % 64 - 128) * 64 + (128 + n % 64 - 128) = n := by omega
        rw [List.cons_append, List.cons_append, List.cons_append, List.cons_append, List.nil_append, utf8Dec.eq_def]
        dsimp only
        rw [if_neg (by omega)]
        rw [if_neg (by simp [cont]; omega)]
        rw [if_neg (by simp [cont]; omega)]
        rw [e, if_pos (by simp [cont]; omega)]

theorem utf8_dec_enc (s : Str) : utf8Dec (s.flatMap utf8Char) = some s := by
  induction s with
  | nil => rw [List.flatMap_nil, utf8Dec]
  | cons c s ih => rw [List.flatMap_cons, utf8_char, ih]; rfl

theorem utf8_ascii {s : Str} (h : Ascii s) : s.flatMap utf8Char = s.map Char.toNat := by
  induction s with
  | nil => rfl
  | cons c s ih =>
    have hc : c.toNat < 128 := h c (by simp)
    rw [List.flatMap_cons, List.map_cons, ih (fun d hd => h d (by simp [hd]))]
    simp [utf8Char, hc]

theorem utf8_over : OverAscii utf8 := by
  constructor
  · intro s h; simp only [utf8, utf8_ascii h]
  · intro s h; simp only [utf8, ← utf8_ascii h, utf8_dec_enc]

/-! ### Writing on one platform and reading on another -/

theorem univ_keep {c : Char} (h : c ≠ '\r') (s : Str) : univ (c :: s) = c :: univ s := by
  conv => lhs; unfold univ
  rw [if_neg h]

theorem univ_crlf (s : Str) : univ ('\r' :: '\n' :: s) = '\n' :: univ s := by
  conv => lhs; unfold univ
  rfl

theorem univ_lines {P : Platform} (hP : P.linesep = ['\n'] ∨ P.linesep = ['\r', '\n']) : ∀ s : Str, '\r' ∉ s → univ (lines P.linesep s) = s
  | [], _ => rfl
  | c :: s, h => by
    have ih := univ_lines hP s (fun hm => h (by simp [hm]))
    have hc : c ≠ '\r' := fun e => h (by simp [e])
    have e : lines P.linesep (c :: s) = (if c = '\n' then P.linesep else [c]) ++ lines P.linesep s := by simp [lines]
    rw [e]
    split
    · rename_i hn
      subst hn
      rcases hP with hP | hP <;> rw [hP] at ih ⊢
      · show univ ('\n' :: lines ['\n'] s) = _
        rw [univ_keep (by decide), ih]
      · show univ ('\r' :: '\n' :: lines ['\r', '\n'] s) = _
        rw [univ_crlf, ih]
    · rw [List.singleton_append, univ_keep hc, ih]

theorem ascii_lines {P : Platform} (hP : Usual P) {s : Str} (h : Ascii s) : Ascii (lines P.linesep s) := by
  intro c hc
  simp only [lines, List.mem_flatMap] at hc
  obtain ⟨d, hd, hc⟩ := hc
  split at hc
  · rcases hP.linesep with e | e <;> rw [e] at hc <;> simp at hc
    · subst hc; decide
    · rcases hc with rfl | rfl <;> decide
  · simp at hc; subst hc; exact h _ hd

theorem ascii_encode (l : Layout) (v : JVal F) : Ascii (encode l v) ∧ '\r' ∉ encode l v := by
  constructor
  · intro c hc
    rcases c77_ascii l v c hc with rfl | h
    · decide
    · omega
  · intro hc
    rcases c77_ascii l v _ hc with h | h
    · exact absurd h (by decide)
    · exact absurd h.1 (by decide)

/-- C98: a text of `json.dump`, as `to_json` and `save_images_json` write it on one platform, is read on every other as that text. -/
theorem c98_texts {P Q : Platform} (hP : Usual P) (hQ : Usual Q) (l : Layout) (v : JVal F) :
    ∃ b, toBytes P (encode l v) = .ok b ∧ ofBytes Q b = .ok (encode l v) := by
  refine ⟨(lines P.linesep (encode l v)).map Char.toNat, ?_, ?_⟩
  · unfold toBytes
    rw [hP.codec.enc _ (ascii_lines hP (ascii_encode _ _).1)]
  · unfold ofBytes
    rw [hQ.codec.dec _ (ascii_lines hP (ascii_encode _ _).1)]
    dsimp only
    rw [univ_lines hP.linesep _ (ascii_encode _ _).2]

/-- C98: on every platform `to_json` can write every document; the bytes are those of the characters, and platforms with the same line ends
write the same bytes. -/
theorem c98_written {P : Platform} (hP : Usual P) (e : Editor F) :
    toJson P e = .ok ((lines P.linesep (encode .indent4 e.toJson)).map Char.toNat) := by
  unfold toJson toBytes
  rw [hP.codec.enc _ (ascii_lines hP (ascii_encode _ _).1)]

/-- C98: a document that was saved on one platform is opened on every other as the document that was saved. -/
theorem c98_portable {P Q : Platform} (hP : Usual P) (hQ : Usual Q) {e : Editor F} (he : Editor.Edited e) {b : List Nat} (h : toJson P e = .ok b) :
    fromJson Q b = Editor.load e.toJson := by
  rw [c98_written hP e] at h
  injection h with h
  subst h
  unfold fromJson ofBytes
  rw [hQ.codec.dec _ (ascii_lines hP (ascii_encode _ _).1)]
  dsimp only
  rw [univ_lines hP.linesep _ (ascii_encode _ _).2, (decode_iff _ _).2 (encode_document _ he.proper)]

/-- C98: a file of ASCII characters is opened alike on every platform, and converting its line ends makes no difference. -/
theorem c98_ascii_partial {P Q : Platform} (hP : Usual P) (hQ : Usual Q) {s t u : Str} (hs : Ascii s) (ht : Ascii t) (h1 : Eol s u) (h2 : Eol t u)
    (e : Editor F) : fromJson P (s.map Char.toNat) = .ok e ↔ fromJson Q (t.map Char.toNat) = .ok e := by
  have key : ∀ v : JVal F, decode (univ s) = .ok v ↔ decode (univ t) = .ok v := fun v => by
    rw [c98_open, c98_open, c98_line_ends h1, c98_line_ends h2]
  unfold fromJson ofBytes
  rw [hP.codec.dec _ hs, hQ.codec.dec _ ht]
  dsimp only
  cases h : (decode (univ s) : Except Err (JVal F)) with
  | ok v => rw [(key v).1 h]
  | error x =>
    cases h' : (decode (univ t) : Except Err (JVal F)) with
    | ok v => rw [(key v).2 h'] at h; cases h
    | error y => simp

theorem eol_self {s : Str} (h : '\r' ∉ s) : Eol s s := by
  induction s with
  | nil => exact .nil
  | cons c s ih => exact .keep (fun e => h (by simp [e])) (ih (fun hm => h (by simp [hm])))

theorem eol_lines {P : Platform} (hP : Usual P) {s : Str} (h : '\r' ∉ s) : Eol (lines P.linesep s) s := by
  have := eol_univ (lines P.linesep s)
  rwa [univ_lines hP.linesep s h] at this

/-- C98: on whichever platforms a file is opened, edited and saved, one after the other, the same text comes out, up to line ends. -/
theorem c98_sessions (l : List (Platform × Platform × List (Editor.Op F))) (hl : ∀ x ∈ l, Usual x.1 ∧ Usual x.2.1) {b b' c : List Nat}
    (hb : SameText b b') (h : sessions (l.map (fun x => (x.1, x.2.2))) b = .ok c) :
    ∃ c', sessions (l.map (fun x => (x.2.1, x.2.2))) b' = .ok c' ∧ SameText c c' := by
  induction l generalizing b b' with
  | nil => injection h with h; subst h; exact ⟨b', rfl, hb⟩
  | cons x l ih =>
    obtain ⟨P, Q, ops⟩ := x
    obtain ⟨hP, hQ⟩ := hl (P, Q, ops) (by simp)
    obtain ⟨s, t, u, hs, ht, h1, h2, rfl, rfl⟩ := hb
    simp only [List.map_cons, sessions, session] at h ⊢
    cases he : (fromJson P (s.map Char.toNat) : Except Err (Editor F)) with
    | error x => rw [he] at h; cases h
    | ok e =>
      rw [he] at h
      rw [(c98_ascii_partial hP hQ hs ht h1 h2 e).1 he]
      simp only [c98_written hP, c98_written hQ] at h ⊢
      refine ih (fun x hx => hl x (by simp [hx])) ?_ h
      have ha := ascii_encode (F := F) .indent4 (ops.foldl (fun e o => (o.run e).2) e).toJson
      exact ⟨_, _, _, ascii_lines hP ha.1, ascii_lines hQ ha.1, eol_lines hP ha.2, eol_lines hQ ha.2, rfl, rfl⟩

/-- C98: on a platform with UTF-8 a file is opened as any other with the same text, whatever its line ends. -/
theorem c98_utf8 {P : Platform} (hP : P.codec = utf8) {s t u : Str} (h1 : Eol s u) (h2 : Eol t u) (e : Editor F) :
    fromJson P (s.flatMap utf8Char) = .ok e ↔ fromJson P (t.flatMap utf8Char) = .ok e := by
  have key : ∀ v : JVal F, decode (univ s) = .ok v ↔ decode (univ t) = .ok v := fun v => by
    rw [c98_open, c98_open, c98_line_ends h1, c98_line_ends h2]
  unfold fromJson ofBytes
  rw [hP]
  simp only [utf8, utf8_dec_enc]
  cases h : (decode (univ s) : Except Err (JVal F)) with
  | ok v => rw [(key v).1 h]
  | error x =>
    cases h' : (decode (univ t) : Except Err (JVal F)) with
    | ok v => rw [(key v).2 h'] at h; cases h
    | error y => simp

theorem utf8Char_ofNat {n : Nat} (h : n < 0xd800 ∨ (0xdfff < n ∧ n < 0x110000)) : (Char.ofNat n).toNat = n := by
  have hv : n.isValidChar := by unfold Nat.isValidChar; omega
  unfold Char.ofNat; rw [dif_pos hv]; rfl

theorem utf8_enc_dec (b : List Nat) : ∀ {s : Str}, utf8Dec b = some s → s.flatMap utf8Char = b := by
  fun_induction utf8Dec b with
  | case1 => intro s h; cases h; rfl
  | case2 a l ha ih =>
    intro s h
    obtain ⟨t, ht, rfl⟩ := Option.map_eq_some_iff.1 h
    rw [List.flatMap_cons, ih ht]
    simp [utf8Char, utf8Char_ofNat (n := a) (by omega), ha]
  | case3 a ha b l hb ih =>
    intro s h
    obtain ⟨t, ht, rfl⟩ := Option.map_eq_some_iff.1 h
    simp only [cont, Bool.and_eq_true, decide_eq_true_eq] at hb
    rw [List.flatMap_cons, ih ht]
    rw [utf8Char]
    rw [utf8Char_ofNat (by omega)]
    rw [if_neg (by omega), if_pos (by omega)]
    simp only [List.cons_append, List.nil_append, List.cons.injEq, and_true]
    omega
  | case4 =>
    rename_i a ha b hb c l n hc ih
    intro s h
    obtain ⟨t, ht, rfl⟩ := Option.map_eq_some_iff.1 h
    simp +zetaDelta only [cont, Bool.and_eq_true, Bool.not_eq_true', Bool.and_eq_false_imp, decide_eq_true_eq, decide_eq_false_iff_not] at hc
    rw [List.flatMap_cons, ih ht]
    rw [utf8Char]
    rw [utf8Char_ofNat (by omega)]
    rw [if_neg (by omega), if_neg (by omega), if_pos (by omega)]
    simp only [List.cons_append, List.nil_append, List.cons.injEq, and_true]
    omega
  | case5 =>
    rename_i a ha b hb c m hc d l n hd ih
    intro s h
    obtain ⟨t, ht, rfl⟩ := Option.map_eq_some_iff.1 h
    simp +zetaDelta only [cont, Bool.and_eq_true, decide_eq_true_eq] at hd
    rw [List.flatMap_cons, ih ht]
    rw [utf8Char]
    rw [utf8Char_ofNat (by omega)]
    rw [if_neg (by omega), if_neg (by omega), if_neg (by omega)]
    simp only [List.cons_append, List.nil_append, List.cons.injEq, and_true]
    omega
  | _ => intro s h; cases h

/-- C98: on a platform with UTF-8 only the bytes of a text can be opened: nothing overlong, no surrogates, nothing cut off. -/
theorem c98_strict {P : Platform} (hP : P.codec = utf8) {b : List Nat} {e : Editor F} (h : fromJson P b = .ok e) : ∃ s : Str, b = s.flatMap utf8Char := by
  unfold fromJson ofBytes at h
  rw [hP] at h
  cases hd : utf8Dec b with
  | none => simp only [utf8, hd] at h; cases h
  | some s => exact ⟨s, (utf8_enc_dec b hd).symm⟩

/-- C98: a file in UTF-8 that begins with a byte order mark cannot be opened on a platform with UTF-8. -/
theorem c98_byte_order_mark {P : Platform} (hP : P.codec = utf8) (b : List Nat) (e : Editor F) : fromJson P (239 :: 187 :: 191 :: b) ≠ .ok e := by
  have h := utf8_char '\ufeff' b
  have hb : utf8Char '\ufeff' ++ b = 239 :: 187 :: 191 :: b := rfl
  rw [hb] at h
  intro hf
  unfold fromJson ofBytes at hf
  rw [hP] at hf
  simp only [utf8, h] at hf
  cases hd : utf8Dec b with
  | none => rw [hd] at hf; cases hf
  | some t =>
    rw [hd] at hf
    simp only [Option.map_some] at hf
    cases hv : (decode (univ ('\ufeff' :: t)) : Except Err (JVal F)) with
    | error x => rw [hv] at hf; cases hf
    | ok v =>
      rw [univ_keep (by decide), decode_iff] at hv
      obtain ⟨a, u, c, hx, ha, hu, -⟩ := hv
      cases a with
      | cons d a =>
        injection hx with hx
        have := ha d (by simp)
        rw [← hx] at this
        exact absurd this (by decide)
      | nil =>
        obtain ⟨d, w, rfl, -, h2, -⟩ := value_head hu
        injection hx with hx
        rw [← hx] at h2
        exact absurd h2 (by decide)

end reading

section examples

theorem linux_usual : Usual linux := ⟨utf8_over, .inl rfl⟩
theorem windows_usual : Usual windows := ⟨latin1_over, .inr rfl⟩

/-- a document with a bone of this name, as an editor on Linux may write it -/
def named (n : Str) : Str :=
  s!!"{\"skeleton\": {\"spine\": \"3.8.75\"},\n \"bones\": [{\"name\": \"" ++ n ++ s!!"\"}],\n \"slots\": [{\"name\": \"s\", \"bone\": \"" ++ n ++ s!!"\"}], \"skins\": []}"

/-- the name of the first bone -/
def boneName : Except Err (Editor XF) → Option Str
  | .ok e => match e.toJson with
    | .dict d => match Dict.get? d s!!"bones" with
      | some (.list (.dict b :: _)) => match Dict.get? b s!!"name" with
        | some (.str s) => some s
        | _ => none
      | _ => none
    | _ => none
  | .error _ => none

theorem boneName_ok {x : Except Err (Editor XF)} {n : Str} (h : boneName x = some n) : ∃ e, x = .ok e ∧ boneName (.ok e) = some n := by
  cases x with
  | error y => cases h
  | ok e => exact ⟨e, rfl, h⟩

/-- an editor opened from a file can be traced to its text -/
theorem opened {P : Platform} {b : List Nat} {e : Editor XF} (h : fromJson P b = .ok e) : Editor.Edited e := by
  unfold fromJson at h
  split at h
  · cases h
  · split at h
    · cases h
    · rename_i v hv
      exact .load (decode_proper hv) h

theorem differ {P Q : Platform} {b : List Nat} {m n : Str} (hP : Usual P) (hQ : Usual Q) (h1 : boneName (fromJson P b) = some m)
    (h2 : boneName (fromJson Q b) = some n) : ∃ (P Q : Platform) (b : List Nat) (e e' : Editor XF), Usual P ∧ Usual Q ∧
    fromJson P b = .ok e ∧ fromJson Q b = .ok e' ∧ boneName (.ok e) = some m ∧ boneName (.ok e') = some n := by
  obtain ⟨e, he, h1⟩ := boneName_ok h1
  obtain ⟨e', he', h2⟩ := boneName_ok h2
  exact ⟨P, Q, b, e, e', hP, hQ, he, he', h1, h2⟩

/-- C98: a file in UTF-8 with a name beyond ASCII is opened with another name on Windows, without an error. -/
theorem c98_counterexample : ∃ (P Q : Platform) (b : List Nat) (e e' : Editor XF), Usual P ∧ Usual Q ∧
    fromJson P b = .ok e ∧ fromJson Q b = .ok e' ∧ boneName (.ok e) = some s!!"é" ∧ boneName (.ok e') = some s!!"Ã©" :=
  differ (b := (named s!!"é").flatMap utf8Char) linux_usual windows_usual (by decide +kernel) (by decide +kernel)

theorem fails {P Q : Platform} {b : List Nat} {m : Str} (hP : Usual P) (hQ : Usual Q) (h1 : boneName (fromJson P b) = some m)
    (h2 : ofBytes Q b = .error .value) : ∃ (P Q : Platform) (b : List Nat) (e : Editor XF), Usual P ∧ Usual Q ∧
    fromJson P b = .ok e ∧ fromJson (F := XF) Q b = .error .value := by
  obtain ⟨e, he, -⟩ := boneName_ok h1
  refine ⟨P, Q, b, e, hP, hQ, he, ?_⟩
  unfold fromJson
  rw [h2]

/-- C98: the other way round the file cannot be opened. -/
theorem c98_counterexample_error : ∃ (P Q : Platform) (b : List Nat) (e : Editor XF), Usual P ∧ Usual Q ∧
    fromJson P b = .ok e ∧ fromJson (F := XF) Q b = .error .value :=
  fails (b := (named s!!"é").map Char.toNat) (m := s!!"é") windows_usual linux_usual (by decide +kernel) (by decide +kernel)

theorem carried {P Q : Platform} {b : List Nat} {m : Str} (hP : Usual P) (hQ : Usual Q) (h1 : boneName (fromJson P b) = some m) :
    ∃ (e : Editor XF) (b : List Nat), Editor.Edited e ∧ boneName (.ok e) = some m ∧ toJson P e = .ok b ∧ fromJson Q b = Editor.load e.toJson := by
  obtain ⟨e, he, h1⟩ := boneName_ok h1
  exact ⟨e, _, opened he, h1, c98_written hP e, c98_portable hP hQ (opened he) (c98_written hP e)⟩

/-- the hypotheses of `c98_portable`: a bone with such a name, saved on Linux and opened on Windows -/
example : ∃ (e : Editor XF) (b : List Nat), Editor.Edited e ∧ boneName (.ok e) = some s!!"é" ∧ toJson linux e = .ok b ∧
    fromJson windows b = Editor.load e.toJson :=
  carried (b := (named s!!"é").flatMap utf8Char) linux_usual windows_usual (by decide +kernel)

/-- sessions that succeed: a document with Windows line ends is scaled on Linux and then on Windows -/
example : (match sessions (F := XF) [(linux, [.scale (.int 2) (.int 2)]), (windows, [.scale (.int 2) (.int 2)])] ((lines ['\r', '\n'] (named s!!"root")).map Char.toNat) with
    | .ok c => boneName (fromJson linux c)
    | .error _ => none) = some s!!"root" := by decide +kernel

/-- the line ends of `c98_ascii_partial` -/
example : Eol s!!"[1,\r\n2,\r3,\n4]" s!!"[1,\n2,\n3,\n4]" := eol_univ s!!"[1,\r\n2,\r3,\n4]"
example : decode (F := XF) s!!"[1,\r\n2,\r3,\n4]" = .ok (.list [.int 1, .int 2, .int 3, .int 4]) := rfl
example : toBytes windows s!!"{\n}" = .ok [123, 13, 10, 125] := rfl

end examples
end Bytes
end Spine
