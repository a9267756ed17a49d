import Verif.Spec.Surrogates
import Verif.Lemmas.JsonEncode
/-
C99: strings of files with lone surrogates.
-/
namespace Spine
namespace Surrogates
open JsonText JsonSpec

/-! ## Reading what was written -/

theorem apart_nil : Apart [] := by intro a h l b e; cases a <;> cases e

theorem apart_cons {c : Nat} {s : PStr} : Apart (c :: s) ↔ (∀ l r, s = l :: r → High c → ¬ Low l) ∧ Apart s := by
  constructor
  · intro h
    exact ⟨fun l r e hc => h [] c l r (by rw [e]; rfl) hc, fun a x l b e => h (c :: a) x l b (by rw [e]; rfl)⟩
  · rintro ⟨h1, h2⟩ a x l b e
    cases a with
    | nil => injection e with e1 e2; subst e1; exact h1 l b e2
    | cons y a => injection e with e1 e2; exact h2 a x l b e2

theorem join_eq_self (s : PStr) : join s = s ↔ Apart s := by
  fun_induction join s with
  | case1 h l r hc ih =>
    constructor
    · intro e
      injection e with e1 e2
      exfalso
      obtain ⟨⟨_, _⟩, ⟨_, _⟩⟩ := hc
      omega
    · intro ha; exact absurd hc.2 (ha [] h l r rfl hc.1)
  | case2 h l r hc ih =>
    rw [List.cons.injEq, apart_cons]
    constructor
    · rintro ⟨-, e⟩
      refine ⟨fun l' r' e' hh hl => ?_, ih.1 e⟩
      injection e' with e1 e2
      subst e1
      exact hc ⟨hh, hl⟩
    · rintro ⟨-, e⟩; exact ⟨rfl, ih.2 e⟩
  | case3 c => simp only [true_iff]; exact apart_cons.2 ⟨fun l r e => (by cases e), apart_nil⟩
  | case4 => simp only [true_iff]; exact apart_nil

/-- a text that is not the escape of a low surrogate -/
def NoLow (t : Str) : Prop := ∀ r, t = '\\' :: 'u' :: r → ∃ u r', hex4 r = some (u, r') ∧ ¬ Low u

theorem hexU (n : Nat) (h : n < 0x10000) (r : Str) : ∃ t, uEscape n ++ r = '\\' :: 'u' :: t ∧ hex4 t = some (n, r) := by
  obtain ⟨t, e, ht⟩ := hex4_uEscape n h
  exact ⟨t ++ r, by rw [e]; rfl, hex4_complete ht⟩

theorem toNat_of {n : Nat} (h : n.isValidChar) : (Char.ofNat n).toNat = n := by
  unfold Char.ofNat; rw [dif_pos h]; rfl

/-- the kinds of text of a code point -/
theorem encode_cases {c : Nat} (hv : c < 0x110000) :
    (∃ e d, encodeCP c = ['\\', e] ∧ (e, d) ∈ shortEscapes ∧ d.toNat = c) ∨
    (∃ d, encodeCP c = [d] ∧ d ≠ '"' ∧ d ≠ '\\' ∧ 32 ≤ d.toNat ∧ d.toNat = c) ∨
    (c < 0x10000 ∧ encodeCP c = uEscape c) ∨
    ∃ h l, High h ∧ Low l ∧ c = 0x10000 + ((h - 0xd800) * 1024 + (l - 0xdc00)) ∧ encodeCP c = uEscape h ++ uEscape l := by
  by_cases h1 : c = 92
  · subst h1; exact .inl ⟨_, '\\', rfl, by simp [shortEscapes], rfl⟩
  by_cases h2 : c = 34
  · subst h2; exact .inl ⟨_, '"', rfl, by simp [shortEscapes], rfl⟩
  by_cases h3 : c = 8
  · subst h3; exact .inl ⟨_, Char.ofNat 8, rfl, by simp [shortEscapes], rfl⟩
  by_cases h4 : c = 12
  · subst h4; exact .inl ⟨_, Char.ofNat 12, rfl, by simp [shortEscapes], rfl⟩
  by_cases h5 : c = 10
  · subst h5; exact .inl ⟨_, '\n', rfl, by simp [shortEscapes], rfl⟩
  by_cases h6 : c = 13
  · subst h6; exact .inl ⟨_, '\r', rfl, by simp [shortEscapes], rfl⟩
  by_cases h7 : c = 9
  · subst h7; exact .inl ⟨_, '\t', rfl, by simp [shortEscapes], rfl⟩
  unfold encodeCP
  simp only [if_neg h1, if_neg h2, if_neg h3, if_neg h4, if_neg h5, if_neg h6, if_neg h7]
  by_cases h8 : 32 ≤ c ∧ c ≤ 126
  · have hn : (Char.ofNat c).toNat = c := toNat_of (by unfold Nat.isValidChar; omega)
    refine .inr (.inl ⟨Char.ofNat c, if_pos h8, ?_, ?_, by omega, hn⟩)
    · intro e; rw [e] at hn; exact h2 hn.symm
    · intro e; rw [e] at hn; exact h1 hn.symm
  rw [if_neg h8]
  by_cases h9 : c < 0x10000
  · exact .inr (.inr (.inl ⟨h9, if_pos h9⟩))
  · refine .inr (.inr (.inr ⟨_, _, ?_, ?_, ?_, if_neg h9⟩))
    · unfold High; omega
    · unfold Low; omega
    · omega

theorem noLow_encode {c : Nat} (hc : ¬ Low c) (hv : c < 0x110000) (r : Str) : NoLow (encodeCP c ++ r) := by
  intro t e
  rcases encode_cases hv with ⟨x, d, h, hm, _⟩ | ⟨d, h, _, hd, _⟩ | ⟨hs, h⟩ | ⟨x, l, hx, hl, _, h⟩
  · rw [h] at e
    injection e with _ e
    injection e with e _
    exact absurd e (short_not_u hm)
  · rw [h] at e
    injection e with e _
    exact absurd e hd
  · rw [h] at e
    obtain ⟨t', e', ht⟩ := hexU c hs r
    rw [e'] at e
    injection e with _ e
    injection e with _ e
    subst e
    exact ⟨_, _, ht, hc⟩
  · rw [h, List.append_assoc] at e
    obtain ⟨t', e', ht⟩ := hexU x (by unfold High at hx; omega) (uEscape l ++ r)
    rw [e'] at e
    injection e with _ e
    injection e with _ e
    subst e
    exact ⟨_, _, ht, by unfold High at hx; unfold Low; omega⟩

/-- the text is longer than the string -/
theorem encode_pos (c : Nat) : 0 < (encodeCP c).length := by
  unfold encodeCP
  repeat' split
  all_goals simp [uEscape]

def push (c : Nat) : Except Err (PStr × Str) → Except Err (PStr × Str)
  | .error e => .error e
  | .ok (s, r) => .ok (c :: s, r)

theorem scan_slash (n : Nat) (t : Str) : scan (n + 1) ('\\' :: t) = match scanEscape t with
    | .error e => .error e
    | .ok (ch, r) => push ch (scan n r) := by
  rw [scan, if_neg (by decide), if_pos rfl]
  cases scanEscape t with
  | error e => rfl
  | ok p => dsimp only; cases scan n p.2 <;> rfl

theorem escape_pair {t t' r : Str} {x l : Nat} (hx : High x) (hl : Low l) (ht : hex4 t = some (x, '\\' :: 'u' :: t')) (ht' : hex4 t' = some (l, r)) :
    scanEscape ('u' :: t) = .ok (0x10000 + ((x - 0xd800) * 1024 + (l - 0xdc00)), r) := by
  have h1 : 0xd800 ≤ x ∧ x ≤ 0xdbff := hx
  have h2 : 0xdc00 ≤ l ∧ l ≤ 0xdfff := hl
  simp only [scanEscape, if_true, ht, if_pos h1, ht', if_pos h2]

/-- one step, unless a high surrogate stands before a low one -/
theorem scan_encode {c : Nat} (hv : c < 0x110000) (n : Nat) (r : Str) (hr : High c → NoLow r) :
    scan (n + 1) (encodeCP c ++ r) = push c (scan n r) := by
  rcases encode_cases hv with ⟨x, d, h, hm, hd⟩ | ⟨d, h, h1, h2, h3, hd⟩ | ⟨hs, h⟩ | ⟨x, l, hx, hl, hj, h⟩
  · rw [h]
    show scan (n + 1) ('\\' :: x :: r) = _
    have : scanEscape (x :: r) = .ok (c, r) := by
      rw [scanEscape, if_neg (short_not_u hm), (backslash_iff _ _).2 hm]
      dsimp only; rw [hd]
    rw [scan_slash, this]
  · rw [h]
    show scan (n + 1) (d :: r) = _
    rw [scan, if_neg h1, if_neg h2, if_neg (by omega), hd]
    cases scan n r <;> rfl
  · rw [h]
    obtain ⟨t, e, ht⟩ := hexU c hs r
    rw [e, scan_slash]
    have : scanEscape ('u' :: t) = .ok (c, r) := by
      rw [scanEscape, if_pos rfl, ht]
      dsimp only
      by_cases hh : High c
      · rw [if_pos (show 0xd800 ≤ c ∧ c ≤ 0xdbff from hh)]
        have hn := hr hh
        split
        · rename_i r2 
          obtain ⟨u, r', g1, g2⟩ := hn r2 rfl
          rw [g1]
          exact if_neg g2
        · rfl
      · rw [if_neg (show ¬ (0xd800 ≤ c ∧ c ≤ 0xdbff) from hh)]
    rw [this]
  · rw [h, List.append_assoc]
    obtain ⟨t', e', ht'⟩ := hexU l (by unfold Low at hl; omega) r
    obtain ⟨t, e, ht⟩ := hexU x (by unfold High at hx; omega) (uEscape l ++ r)
    rw [e, scan_slash]
    have := escape_pair hx hl (e' ▸ ht) ht'
    rw [← hj] at this
    rw [this]

/-- a high surrogate before a low one -/
theorem scan_pair {h l : Nat} (hh : High h) (hl : Low l) (n : Nat) (r : Str) :
    scan (n + 1) (encodeCP h ++ (encodeCP l ++ r)) = push (0x10000 + ((h - 0xd800) * 1024 + (l - 0xdc00))) (scan n r) := by
  have key : ∀ c : Nat, 0xd800 ≤ c → c < 0x10000 → encodeCP c = uEscape c := by
    intro c h1 h2
    unfold encodeCP
    simp only [if_neg (show c ≠ 92 by omega), if_neg (show c ≠ 34 by omega), if_neg (show c ≠ 8 by omega), if_neg (show c ≠ 12 by omega),
      if_neg (show c ≠ 10 by omega), if_neg (show c ≠ 13 by omega), if_neg (show c ≠ 9 by omega), if_neg (show ¬ (32 ≤ c ∧ c ≤ 126) by omega), if_pos h2]
  obtain ⟨h1, h2⟩ := hh
  obtain ⟨h3, h4⟩ := hl
  rw [key h h1 (by omega), key l (by omega) (by omega)]
  obtain ⟨t', e', ht'⟩ := hexU l (by omega) r
  obtain ⟨t, e, ht⟩ := hexU h (by omega) (uEscape l ++ r)
  rw [e, scan_slash]
  rw [escape_pair ⟨h1, h2⟩ ⟨h3, h4⟩ (e' ▸ ht) ht']

theorem noLow_quote (r : Str) : NoLow ('"' :: r) := by
  intro t e
  injection e with e _
  exact absurd e (by decide)

theorem body_cons (c : Nat) (s : PStr) : body (c :: s) = encodeCP c ++ body s := rfl

theorem scan_body (s : PStr) (hv : Valid s) : ∀ (n : Nat) (r : Str), (body s).length < n → scan n (body s ++ '"' :: r) = .ok (join s, r) := by
  fun_induction join s with
  | case1 h l t hc ih =>
    intro n r hn
    rw [body_cons, body_cons] at hn ⊢
    simp only [List.length_append] at hn
    have p1 := encode_pos h
    obtain ⟨n, rfl⟩ : ∃ m, n = m + 1 := ⟨n - 1, by omega⟩
    rw [List.append_assoc, List.append_assoc, scan_pair hc.1 hc.2,
      ih (fun c hc => hv c (List.mem_cons_of_mem _ (List.mem_cons_of_mem _ hc))) n r (by omega)]
    rfl
  | case2 h l t hc ih =>
    intro n r hn
    have h1 := hv h List.mem_cons_self
    have h2 := hv l (List.mem_cons_of_mem _ List.mem_cons_self)
    rw [body_cons] at hn ⊢
    simp only [List.length_append] at hn
    have p1 := encode_pos h
    obtain ⟨n, rfl⟩ : ∃ m, n = m + 1 := ⟨n - 1, by omega⟩
    rw [List.append_assoc, scan_encode h1 n _ (fun hh => by
      rw [body_cons, List.append_assoc]; exact noLow_encode (fun hl => hc ⟨hh, hl⟩) h2 _),
      ih (fun c hc => hv c (List.mem_cons_of_mem _ hc)) n r (by omega)]
    rfl
  | case3 c =>
    intro n r hn
    rw [body_cons] at hn ⊢
    simp only [List.length_append] at hn
    have p1 := encode_pos c
    obtain ⟨n, rfl⟩ : ∃ m, n = m + 2 := ⟨n - 2, by omega⟩
    rw [List.append_assoc]
    show scan (n + 1 + 1) (encodeCP c ++ '"' :: r) = _
    rw [scan_encode (hv c List.mem_cons_self) _ _ (fun _ => noLow_quote r)]
    rfl
  | case4 =>
    intro n r hn
    obtain ⟨n, rfl⟩ : ∃ m, n = m + 1 := ⟨n - 1, by simp [body] at hn; omega⟩
    rfl

/-- C99: any string, written and read again, is the string with its surrogates joined; the text after it is left alone. -/
theorem c99_written (s : PStr) (hv : Valid s) (r : Str) : read (write s ++ r) = .ok (join s, r) := by
  show scan ((body s ++ ['"']) ++ r).length.succ ((body s ++ ['"']) ++ r) = _
  rw [List.append_assoc]
  exact scan_body s hv _ r (by simp only [List.length_append, List.length_cons]; omega)

/-- C99: a string survives exactly if no high surrogate stands directly before a low one. -/
theorem c99_exact (s : PStr) (hv : Valid s) : read (write s) = .ok (s, []) ↔ Apart s := by
  have := c99_written s hv []
  rw [List.append_nil] at this
  rw [this, ← join_eq_self]
  simp

/-! ## What is read -/

theorem hex4_lt {t r : Str} {n : Nat} (h : hex4 t = some (n, r)) : n < 0x10000 := by
  obtain ⟨x, hx, _⟩ := hex4_sound h
  have hd : ∀ {c : Char} {k : Nat}, HexDigit c k → k < 16 := by
    intro c k hk
    have := (hexVal_iff c k).2 hk
    unfold hexVal at this
    split at this
    · rename_i h; rw [le_nat, le_nat] at h; injection this with this; have := h.2; simp at this; omega
    split at this
    · rename_i h; rw [le_nat, le_nat] at h; injection this with this; have := h.2; simp at this; omega
    split at this
    · rename_i h; rw [le_nat, le_nat] at h; injection this with this; have := h.2; simp at this; omega
    · cases this
  cases hx with
  | mk a b c d =>
    have := hd a; have := hd b; have := hd c; have := hd d
    omega

/-- what an escape gives: a low surrogate only from its own escape, a high one only before something else -/
theorem scanEscape_ok {t r : Str} {c : Nat} (h : scanEscape t = .ok (c, r)) : c < 0x110000 ∧
    (High c → NoLow r) ∧ (Low c → ∃ t', t = 'u' :: t' ∧ hex4 t' = some (c, r)) := by
  unfold scanEscape at h
  split at h
  · cases h
  rename_i e t
  split at h
  · rename_i he
    subst he
    split at h
    · cases h
    rename_i u r1 hx
    have hlt := hex4_lt hx
    split at h
    · rename_i hu
      split at h
      · rename_i r2
        split at h
        · cases h
        rename_i u2 r3 hx2
        split at h
        · rename_i hl
          simp only [Except.ok.injEq, Prod.mk.injEq] at h
          obtain ⟨rfl, rfl⟩ := h
          unfold High Low
          refine ⟨by omega, fun hh => by omega, fun hh => by omega⟩
        · rename_i hl
          simp only [Except.ok.injEq, Prod.mk.injEq] at h
          obtain ⟨rfl, rfl⟩ := h
          refine ⟨by omega, fun _ r' e => ?_, fun hl => ?_⟩
          · injection e with _ e
            injection e with _ e
            subst e
            exact ⟨_, _, hx2, hl⟩
          · exact ⟨t, rfl, hx⟩
      · rename_i hne
        simp only [Except.ok.injEq, Prod.mk.injEq] at h
        obtain ⟨rfl, rfl⟩ := h
        exact ⟨by omega, fun _ r' e => absurd e (hne r'), fun _ => ⟨t, rfl, hx⟩⟩
    · rename_i hu
      simp only [Except.ok.injEq, Prod.mk.injEq] at h
      obtain ⟨rfl, rfl⟩ := h
      exact ⟨by omega, fun hh => absurd hh hu, fun _ => ⟨t, rfl, hx⟩⟩
  · split at h
    · rename_i d hd
      simp only [Except.ok.injEq, Prod.mk.injEq] at h
      obtain ⟨rfl, rfl⟩ := h
      have hc := char_valid d
      unfold High Low
      exact ⟨by omega, fun hh => by omega, fun hh => by omega⟩
    · cases h

theorem scan_ok : ∀ (n : Nat) {t r : Str} {s : PStr}, scan n t = .ok (s, r) → Valid s ∧ Apart s ∧
    (NoLow t → ∀ l s', s = l :: s' → ¬ Low l)
  | 0, _, _, _, h => by cases h
  | n + 1, [], _, _, h => by cases h
  | n + 1, c :: t, r, s, h => by
    by_cases h1 : c = '"'
    · subst h1
      rw [scan, if_pos rfl] at h
      cases h
      exact ⟨fun _ h => (by cases h), apart_nil, fun _ l s' e => (by cases e)⟩
    by_cases h2 : c = '\\'
    · subst h2
      rw [scan_slash] at h
      cases he : scanEscape t with
      | error x => rw [he] at h; cases h
      | ok p =>
        obtain ⟨ch, r1⟩ := p
        rw [he] at h
        dsimp only at h
        cases hs : scan n r1 with
        | error x => rw [hs] at h; cases h
        | ok q =>
          obtain ⟨s1, r2⟩ := q
          rw [hs] at h
          simp only [push, Except.ok.injEq, Prod.mk.injEq] at h
          obtain ⟨rfl, rfl⟩ := h
          obtain ⟨i1, i2, i3⟩ := scan_ok n hs
          obtain ⟨k1, k2, k3⟩ := scanEscape_ok he
          refine ⟨?_, apart_cons.2 ⟨fun l s' e hh => i3 (k2 hh) l s' e, i2⟩, ?_⟩
          · intro x hx
            rcases List.mem_cons.1 hx with rfl | hx
            · exact k1
            · exact i1 x hx
          · intro hn l s' e hl
            injection e with e1 e2
            subst e1
            obtain ⟨t', rfl, ht⟩ := k3 hl
            obtain ⟨u, r', g1, g2⟩ := hn t' rfl
            rw [ht] at g1
            injection g1 with g1
            injection g1 with g1 _
            subst g1
            exact g2 hl
    · rw [scan, if_neg h1, if_neg h2] at h
      split at h
      · cases h
      cases hs : scan n t with
      | error x => rw [hs] at h; cases h
      | ok q =>
        obtain ⟨s1, r2⟩ := q
        rw [hs] at h
        simp only [Except.ok.injEq, Prod.mk.injEq] at h
        obtain ⟨rfl, rfl⟩ := h
        obtain ⟨i1, i2, i3⟩ := scan_ok n hs
        have hc := char_valid c
        refine ⟨?_, apart_cons.2 ⟨fun l s' e hh => ?_, i2⟩, ?_⟩
        · intro x hx
          rcases List.mem_cons.1 hx with rfl | hx
          · omega
          · exact i1 x hx
        · unfold High at hh; omega
        · intro _ l s' e hl
          injection e with e1 e2
          subst e1
          unfold Low at hl; omega

/-- C99: no string of a file has a high surrogate directly before a low one. -/
theorem c99_read {t r : Str} {s : PStr} (h : read t = .ok (s, r)) : Valid s ∧ Apart s := by
  unfold read at h
  split at h
  · exact ⟨(scan_ok _ h).1, (scan_ok _ h).2.1⟩
  · cases h

/-- C99: a string that was read is saved and read again as the same string, lone surrogates included. -/
theorem c99_again {t r : Str} {s : PStr} (h : read t = .ok (s, r)) (r' : Str) : read (write s ++ r') = .ok (s, r') := by
  rw [c99_written s (c99_read h).1, (join_eq_self s).2 (c99_read h).2]

/-- C99: different strings of files are written differently. -/
theorem c99_distinct {t t' r r' : Str} {s s' : PStr} (h : read t = .ok (s, r)) (h' : read t' = .ok (s', r')) (he : write s = write s') : s = s' := by
  have h1 := c99_again h []
  have h2 := c99_again h' []
  rw [he, h2] at h1
  simp only [Except.ok.injEq, Prod.mk.injEq, and_true] at h1
  exact h1.symm

/-- C99: names that are put together from names of files and further characters, as the graph ids are, are read back too. -/
theorem c99_ids {t r : Str} {s : PStr} (h : read t = .ok (s, r)) (u : Str) : read (write (s ++ u.map Char.toNat)) = .ok (s ++ u.map Char.toNat, []) := by
  obtain ⟨h1, h2⟩ := c99_read h
  have hu : ∀ u : Str, Valid (u.map Char.toNat) ∧ ∀ c ∈ u.map Char.toNat, ¬ High c ∧ ¬ Low c := by
    intro u
    refine ⟨fun c hc => ?_, fun c hc => ?_⟩ <;>
    · obtain ⟨d, _, rfl⟩ := List.mem_map.1 hc
      have := char_valid d
      (try unfold High Low)
      omega
  refine (c99_exact _ ?_).2 ?_
  · intro c hc
    rcases List.mem_append.1 hc with hc | hc
    · exact h1 c hc
    · exact (hu u).1 c hc
  · clear h h1
    induction s with
    | nil =>
      intro a x l b e hh
      have : x ∈ u.map Char.toNat := by rw [← List.nil_append (u.map Char.toNat), e]; simp
      exact absurd hh ((hu u).2 x this).1
    | cons c s ih =>
      rw [apart_cons] at h2
      refine apart_cons.2 ⟨fun l r e hh => ?_, ih h2.2⟩
      cases s with
      | nil =>
        have : l ∈ u.map Char.toNat := by rw [← List.nil_append (u.map Char.toNat)]; rw [show u.map Char.toNat = l :: r from e]; simp
        exact ((hu u).2 l this).2
      | cons y s =>
        injection e with e1 e2
        subst e1
        exact h2.1 y s rfl hh

/-! ## Strings without surrogates -/

theorem toNat_inj {c d : Char} : c.toNat = d.toNat ↔ c = d :=
  ⟨fun h => by rw [← Char.ofNat_toNat c, h, Char.ofNat_toNat], fun h => by rw [h]⟩

theorem encodeCP_char (c : Char) : encodeCP c.toNat = encodeChar c := by
  unfold encodeCP encodeChar
  have e1 : c.toNat = 92 ↔ c = '\\' := toNat_inj (d := '\\')
  have e2 : c.toNat = 34 ↔ c = '"' := toNat_inj (d := '"')
  have e3 : c.toNat = 10 ↔ c = '\n' := toNat_inj (d := '\n')
  have e4 : c.toNat = 13 ↔ c = '\r' := toNat_inj (d := '\r')
  have e5 : c.toNat = 9 ↔ c = '\t' := toNat_inj (d := '\t')
  simp only [e1, e2, e3, e4, e5, Char.ofNat_toNat]

/-- C99: strings without surrogates are written as in C77 -/
theorem c99_same_text (s : Str) : write (s.map Char.toNat) = encodeStr s := by
  unfold write body encodeStr
  rw [List.map_map]
  congr 3
  exact List.map_congr_left (fun c _ => encodeCP_char c)

theorem scanEscape_same {t r : Str} {c : Char} (h : JsonText.scanEscape t = .ok (c, r)) : scanEscape t = .ok (c.toNat, r) := by
  have ofNat : ∀ n, n < 0xd800 ∨ (0xdfff < n ∧ n < 0x110000) → (Char.ofNat n).toNat = n := by
    intro n hn
    exact toNat_of (by unfold Nat.isValidChar; omega)
  unfold JsonText.scanEscape at h
  unfold scanEscape
  split at h
  · cases h
  rename_i e t
  dsimp only
  split at h
  · rename_i he
    rw [if_pos he]
    split at h
    · cases h
    rename_i u r1 hx
    rw [hx]
    dsimp only
    have hlt := hex4_lt hx
    split at h
    · rename_i hu
      rw [if_pos hu]
      split at h
      · rename_i r2
        split at h
        · cases h
        rename_i u2 r3 hx2
        split at h
        · rename_i hl
          simp only [Except.ok.injEq, Prod.mk.injEq] at h
          obtain ⟨rfl, rfl⟩ := h
          simp only [hx2, if_pos hl]
          rw [ofNat _ (by omega)]
        · cases h
      · cases h
    · rename_i hu
      rw [if_neg hu]
      unfold chr at h
      split at h
      · cases h
      · simp only [Except.map, Except.ok.injEq, Prod.mk.injEq] at h
        obtain ⟨rfl, rfl⟩ := h
        rw [ofNat _ (by omega)]
  · rename_i he
    rw [if_neg he]
    split at h
    · rename_i d hd
      simp only [Except.ok.injEq, Prod.mk.injEq] at h
      obtain ⟨rfl, rfl⟩ := h
      rw [hd]
    · cases h

/-- C99: what is read as in C77 is read in the same way here -/
theorem c99_same_string : ∀ (n : Nat) {t r s : Str}, scanString n t = .ok (s, r) → scan n t = .ok (s.map Char.toNat, r)
  | 0, _, _, _, h => by cases h
  | n + 1, [], _, _, h => by cases h
  | n + 1, c :: t, r, s, h => by
    unfold scanString at h
    unfold scan
    split at h
    · rename_i hc
      rw [if_pos hc]
      cases h
      rfl
    rename_i hc
    rw [if_neg hc]
    split at h
    · rename_i hs
      rw [if_pos hs]
      cases he : JsonText.scanEscape t with
      | error x => rw [he] at h; cases h
      | ok p =>
        obtain ⟨ch, r1⟩ := p
        rw [he] at h
        rw [scanEscape_same he]
        dsimp only at h ⊢
        cases hq : scanString n r1 with
        | error x => rw [hq] at h; cases h
        | ok q =>
          rw [hq] at h
          rw [c99_same_string n hq]
          cases h
          rfl
    rename_i hs
    rw [if_neg hs]
    split at h
    · cases h
    rename_i h32
    rw [if_neg h32]
    cases hq : scanString n t with
    | error x => rw [hq] at h; cases h
    | ok q =>
      rw [hq] at h
      rw [c99_same_string n hq]
      cases h
      rfl

theorem scanEscape_only {t r : Str} {c : Nat} (h : scanEscape t = .ok (c, r)) (hc : ¬ High c ∧ ¬ Low c) :
    ∃ d : Char, d.toNat = c ∧ JsonText.scanEscape t = .ok (d, r) := by
  have ofNat : ∀ n, n < 0xd800 ∨ (0xdfff < n ∧ n < 0x110000) → (Char.ofNat n).toNat = n := by
    intro n hn
    exact toNat_of (by unfold Nat.isValidChar; omega)
  unfold High Low at hc
  unfold scanEscape at h
  unfold JsonText.scanEscape
  split at h
  · cases h
  rename_i e t
  dsimp only
  split at h
  · rename_i he
    rw [if_pos he]
    split at h
    · cases h
    rename_i u r1 hx
    rw [hx]
    dsimp only
    have hlt := hex4_lt hx
    split at h
    · rename_i hu
      rw [if_pos hu]
      split at h
      · rename_i r2
        split at h
        · cases h
        rename_i u2 r3 hx2
        split at h
        · rename_i hl
          simp only [Except.ok.injEq, Prod.mk.injEq] at h
          obtain ⟨rfl, rfl⟩ := h
          simp only [hx2, if_pos hl]
          exact ⟨_, ofNat _ (by omega), rfl⟩
        · simp only [Except.ok.injEq, Prod.mk.injEq] at h
          omega
      · simp only [Except.ok.injEq, Prod.mk.injEq] at h
        omega
    · rename_i hu
      rw [if_neg hu]
      simp only [Except.ok.injEq, Prod.mk.injEq] at h
      obtain ⟨rfl, rfl⟩ := h
      exact ⟨Char.ofNat u, ofNat _ (by omega), by rw [chr, if_neg (by omega)]; rfl⟩
  · rename_i he
    rw [if_neg he]
    split at h
    · rename_i d hd
      simp only [Except.ok.injEq, Prod.mk.injEq] at h
      obtain ⟨rfl, rfl⟩ := h
      rw [hd]
      exact ⟨d, rfl, rfl⟩
    · cases h

/-- C99: and only the strings with surrogates are missing in C77 -/
theorem c99_only : ∀ (n : Nat) {t r : Str} {s : PStr}, scan n t = .ok (s, r) → (∀ c ∈ s, ¬ High c ∧ ¬ Low c) →
    ∃ u : Str, u.map Char.toNat = s ∧ scanString n t = .ok (u, r)
  | 0, _, _, _, h, _ => by cases h
  | n + 1, [], _, _, h, _ => by cases h
  | n + 1, c :: t, r, s, h, hs => by
    unfold scan at h
    unfold scanString
    split at h
    · rename_i hc
      rw [if_pos hc]
      cases h
      exact ⟨[], rfl, rfl⟩
    rename_i hc
    rw [if_neg hc]
    split at h
    · rename_i hb
      rw [if_pos hb]
      cases he : scanEscape t with
      | error x => rw [he] at h; cases h
      | ok p =>
        obtain ⟨ch, r1⟩ := p
        rw [he] at h
        dsimp only at h
        cases hq : scan n r1 with
        | error x => rw [hq] at h; cases h
        | ok q =>
          obtain ⟨s1, r2⟩ := q
          rw [hq] at h
          simp only [Except.ok.injEq, Prod.mk.injEq] at h
          obtain ⟨rfl, rfl⟩ := h
          obtain ⟨d, rfl, hd⟩ := scanEscape_only he (hs ch List.mem_cons_self)
          obtain ⟨u, rfl, hu⟩ := c99_only n hq (fun c hc => hs c (List.mem_cons_of_mem _ hc))
          rw [hd]
          dsimp only
          rw [hu]
          exact ⟨d :: u, rfl, rfl⟩
    rename_i hb
    rw [if_neg hb]
    split at h
    · cases h
    rename_i h32
    rw [if_neg h32]
    cases hq : scan n t with
    | error x => rw [hq] at h; cases h
    | ok q =>
      obtain ⟨s1, r2⟩ := q
      rw [hq] at h
      simp only [Except.ok.injEq, Prod.mk.injEq] at h
      obtain ⟨rfl, rfl⟩ := h
      obtain ⟨u, rfl, hu⟩ := c99_only n hq (fun c hc => hs c (List.mem_cons_of_mem _ hc))
      rw [hu]
      exact ⟨c :: u, rfl, rfl⟩

/-- C99: what is written is printable ASCII, so that no encoding of the file can reject it -/
theorem c99_ascii (s : PStr) : ∀ c ∈ write s, 32 ≤ c.toNat ∧ c.toNat ≤ 126 := by
  have hx : ∀ n, n < 16 → 32 ≤ (hexDigit n).toNat ∧ (hexDigit n).toNat ≤ 126 := by
    intro n hn
    have : ∀ k : Fin 16, 32 ≤ (hexDigit k.1).toNat ∧ (hexDigit k.1).toNat ≤ 126 := by decide
    exact this ⟨n, hn⟩
  have hu : ∀ n, ∀ c ∈ uEscape n, 32 ≤ c.toNat ∧ c.toNat ≤ 126 := by
    intro n c hc
    simp only [uEscape, List.mem_cons, List.not_mem_nil, or_false] at hc
    rcases hc with rfl | rfl | rfl | rfl | rfl | rfl
    · decide
    · decide
    all_goals exact hx _ (by omega)
  have he : ∀ n, ∀ c ∈ encodeCP n, 32 ≤ c.toNat ∧ c.toNat ≤ 126 := by
    intro n c hc
    unfold encodeCP at hc
    repeat' split at hc
    all_goals first
      | exact hu _ _ hc
      | (rcases List.mem_append.1 hc with hc | hc <;> exact hu _ _ hc)
      | skip
    all_goals simp only [List.mem_cons, List.not_mem_nil, or_false] at hc
    all_goals first
      | (rcases hc with rfl | rfl <;> decide)
      | (subst hc
         rename_i h
         rw [toNat_of (by unfold Nat.isValidChar; omega)]
         exact h)
  intro c hc
  simp only [write, body, List.mem_cons, List.mem_append, List.mem_flatten, List.mem_map, List.not_mem_nil, or_false] at hc
  rcases hc with rfl | ⟨l, ⟨x, _, rfl⟩, hc⟩ | rfl
  · decide
  · exact he x c hc
  · decide

/-! ## Examples -/

/-- a file with a lone high surrogate, a pair and a lone low one: all are read, and saved again -/
example : read s!!"\"a\\ud800\\u0041\\ud83d\\ude00\\udc00\"" = .ok ([97, 0xd800, 65, 0x1f600, 0xdc00], []) := by decide +kernel
example : write [97, 0xd800, 65, 0x1f600, 0xdc00] = s!!"\"a\\ud800A\\ud83d\\ude00\\udc00\"" := by decide +kernel
example : scanString 9 s!!"a\\ud800\"" = .error .unmodelled := by decide +kernel

/-- C99 is false of strings that do not come from a file: a high and a low surrogate, put together, are read as one character. -/
theorem c99_counterexample : read (write [0xd83d, 0xde00]) = .ok ([0x1f600], []) ∧ ¬ Apart [0xd83d, 0xde00] := by
  refine ⟨by decide +kernel, fun h => h [] _ _ [] rfl (by decide) (by decide)⟩

end Surrogates
end Spine
