import Verif.Props.Surrogates
/-
C99: how reading a string with surrogates fails.
-/
namespace Spine
namespace Surrogates
open JsonText JsonSpec

theorem hex4_length {t r : Str} {u : Nat} (h : hex4 t = some (u, r)) : r.length < t.length := by
  unfold hex4 at h
  repeat' split at h
  all_goals first
    | (cases h; done)
    | (simp only [Option.some.injEq, Prod.mk.injEq] at h; rw [← h.2]; simp only [List.length_cons]; omega)

theorem scanEscape_length {t r : Str} {u : Nat} (h : scanEscape t = .ok (u, r)) : r.length < t.length := by
  cases t with
  | nil => cases h
  | cons e t =>
    simp only [scanEscape] at h
    split at h
    · split at h
      · cases h
      · rename_i u r1 h1
        have l1 := hex4_length h1
        split at h
        · split at h
          · split at h
            · cases h
            · rename_i r2 _ u2 r3 h2
              have l2 := hex4_length h2
              simp only [List.length_cons] at l1 ⊢
              split at h <;> (simp only [Except.ok.injEq, Prod.mk.injEq] at h; rw [← h.2]; (try simp only [List.length_cons]); omega)
          · simp only [Except.ok.injEq, Prod.mk.injEq] at h; rw [← h.2]; simp only [List.length_cons]; omega
        · simp only [Except.ok.injEq, Prod.mk.injEq] at h; rw [← h.2]; simp only [List.length_cons]; omega
    · split at h
      · simp only [Except.ok.injEq, Prod.mk.injEq] at h; rw [← h.2]; simp
      · cases h

theorem scanEscape_fails {t : Str} {x : Err} (h : scanEscape t = .error x) : x = .value := by
  unfold scanEscape at h
  repeat' split at h
  all_goals first
    | (cases h; done)
    | (injection h with h; exact h.symm)

theorem scan_fails : ∀ (n : Nat) {t : Str} {x : Err}, t.length < n → scan n t = .error x → x = .value
  | 0, _, _, hn, _ => by omega
  | n + 1, [], _, _, h => by simp only [scan] at h; injection h with h; exact h.symm
  | n + 1, c :: t, x, hn, h => by
    simp only [List.length_cons] at hn
    simp only [scan] at h
    split at h
    · cases h
    split at h
    · split at h
      · rename_i e he; injection h with h; subst h; exact scanEscape_fails he
      · rename_i ch r1 he
        have := scanEscape_length he
        split at h
        · rename_i e he; injection h with h; subst h; exact scan_fails n (by omega) he
        · cases h
    split at h
    · injection h with h; exact h.symm
    · split at h
      · rename_i e he; injection h with h; subst h; exact scan_fails n (by omega) he
      · cases h

/-- C99: reading a string ends for every text, and fails with nothing but ValueError. -/
theorem c99_fails {t : Str} {x : Err} (h : read t = .error x) : x = .value := by
  unfold read at h
  split at h
  · exact scan_fails _ (Nat.lt_succ_self _) h
  · injection h with h; exact h.symm

theorem scanEscape_refused {t : Str} (h : JsonText.scanEscape t = .error .value) : scanEscape t = .error .value := by
  cases t with
  | nil => rfl
  | cons e t =>
    simp only [JsonText.scanEscape] at h
    simp only [scanEscape]
    split at h
    · rename_i h1
      rw [if_pos h1]
      split at h
      · rename_i h2; rw [h2]
      · rename_i h2
        rw [h2]
        dsimp only
        split at h
        · rename_i h3
          rw [if_pos h3]
          split at h
          · split at h
            · rename_i h4; simp only [h4]
            · split at h <;> cases h
          · cases h
        · unfold chr at h
          split at h <;> cases h
    · rename_i h1
      rw [if_neg h1]
      split at h
      · cases h
      · rename_i h2; rw [h2]

/-- C99: what is refused as in C77 is refused here; with `c99_same_string`, the two differ only where C77 says nothing. -/
theorem c99_refused : ∀ (n : Nat) {t : Str}, scanString n t = .error .value → scan n t = .error .value
  | 0, _, h => by cases h
  | n + 1, [], h => rfl
  | n + 1, c :: t, h => by
    unfold scanString at h
    unfold scan
    split at h
    · cases h
    rename_i hc
    rw [if_neg hc]
    split at h
    · rename_i hs
      rw [if_pos hs]
      cases he : JsonText.scanEscape t with
      | error x =>
        rw [he] at h
        injection h with h
        subst h
        rw [scanEscape_refused he]
      | ok p =>
        obtain ⟨ch, r1⟩ := p
        rw [he] at h
        rw [scanEscape_same he]
        dsimp only at h ⊢
        cases hq : scanString n r1 with
        | error x =>
          rw [hq] at h
          injection h with h
          subst h
          rw [c99_refused n hq]
        | ok q => rw [hq] at h; cases h
    rename_i hs
    rw [if_neg hs]
    split at h
    · rename_i h32
      rw [if_pos h32]
    rename_i h32
    rw [if_neg h32]
    cases hq : scanString n t with
    | error x =>
      rw [hq] at h
      injection h with h
      subst h
      rw [c99_refused n hq]
    | ok q => rw [hq] at h; cases h

/-- non-vacuity: a text that is refused, and one that C77 does not model and that is read -/
example : read s!!"\"\\ud83\"" = .error .value ∧ scanString 9 s!!"\\ud83\"" = .error .value ∧
    scanString 9 s!!"\\ud83d\"" = .error .unmodelled ∧ read s!!"\"\\ud83d\"" = .ok ([0xd83d], []) := by decide +kernel

end Surrogates
end Spine
