import Verif.Model.Py
/-
A concrete `PyRt` instance (exact rationals for floats, ASCII character tables), used only by the
examples and counterexamples.  Every theorem is proved for an arbitrary instance.
-/
namespace Spine

/-- ASCII digit value -/
def asciiDigit (c : Char) : Option Nat :=
  if 48 ≤ c.toNat ∧ c.toNat ≤ 57 then some (c.toNat - 48) else none

/-- unsigned decimal `digits[.digits]` as a rational -/
def ratParse (s : Str) : Option Rat :=
  let digits (t : Str) : Option (Nat × Nat) :=
    t.foldl (fun acc c => match acc, asciiDigit c with
      | some (v, n), some d => some (v * 10 + d, n + 1)
      | _, _ => none) (some (0, 0))
  match splitOn '.' s with
  | [a] => match digits a with
    | some (v, _ + 1) => some v
    | _ => none
  | [a, b] => match digits a, digits b with
    | some (v, n), some (w, m) => if n + m = 0 then none else some (v + mkRat w (10 ^ m))
    | _, _ => none
  | _ => none

def asciiSpace (c : Char) : Bool := [' ', '\t', '\n', '\r', '\x0b', '\x0c'].contains c
def asciiWord (c : Char) : Bool :=
  (48 ≤ c.toNat && c.toNat ≤ 57) || (65 ≤ c.toNat && c.toNat ≤ 90) || (97 ≤ c.toNat && c.toNat ≤ 122) || c == '_'

instance ratRt : PyRt Rat where
  fone := 1
  fmul := (· * ·)
  fofInt i := some (i : Rat)
  feq a b := a == b
  feqInt a i := a == (i : Rat)
  fparse := ratParse
  isSpace := asciiSpace
  isWord := asciiWord
  digitVal := asciiDigit
  setOrder l := l
  setOrder_perm l := List.Perm.refl l
  one_feq := by decide
  space_not_word := by
    intro c h
    simp [asciiSpace] at h
    rcases h with h | h | h | h | h | h <;> subst h <;> decide
  word_ascii := by decide
  space_ascii := by decide
  digit_ascii := by decide
  digit_lt := by
    intro c n h
    simp only [asciiDigit] at h
    split at h
    · injection h with h; omega
    · cases h
  digit_not_space := by
    intro c n h
    cases hs : asciiSpace c
    · rfl
    · simp [asciiSpace] at hs
      rcases hs with h' | h' | h' | h' | h' | h' <;> subst h' <;> revert h <;> simp (decide := true) [asciiDigit]
  hex_letter := by decide
  digit_punct := by decide

end Spine
