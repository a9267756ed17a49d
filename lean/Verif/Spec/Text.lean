import Verif.Model.Py
/- Declarative descriptions of the textual formats the code parses. -/
namespace Spine

/-- Horner evaluation of the digits of a numeral, each digit optionally preceded by one underscore. -/
inductive NumFrom (dv : Char → Option Nat) (base : Nat) : Nat → Str → Nat → Prop
  | nil (acc) : NumFrom dv base acc [] acc
  | digit {acc c d r n} : dv c = some d → NumFrom dv base (acc * base + d) r n → NumFrom dv base acc (c :: r) n
  | under {acc c d r n} : dv c = some d → NumFrom dv base (acc * base + d) r n →
      NumFrom dv base acc ('_' :: c :: r) n

/-- An unsigned numeral: a digit, then digits with single underscores between them. -/
def Numeral (dv : Char → Option Nat) (base : Nat) (s : Str) (n : Nat) : Prop :=
  ∃ c d r, s = c :: r ∧ dv c = some d ∧ NumFrom dv base d r n

/-- only blanks -/
def Blank (F : Type) [PyRt F] (s : Str) : Prop := ∀ c ∈ s, PyRt.isSpace F c = true

/-- neither begins nor ends with a blank -/
def Trimmed (F : Type) [PyRt F] (s : Str) : Prop :=
  (∀ c r, s = c :: r → PyRt.isSpace F c = false) ∧ (∀ r c, s = r ++ [c] → PyRt.isSpace F c = false)

/-- `s` is the text of the integer `i` in the sense of Python's `int()`: blanks, sign, numeral, blanks. -/
def IntegerText (F : Type) [PyRt F] (s : Str) (i : Int) : Prop :=
  ∃ w₁ m w₂, s = w₁ ++ m ++ w₂ ∧ Blank F w₁ ∧ Blank F w₂ ∧
    ∃ n, (Numeral (PyRt.digitVal F) 10 m n ∧ i = n) ∨
      (∃ b, m = '+' :: b ∧ Numeral (PyRt.digitVal F) 10 b n ∧ i = n) ∨
      (∃ b, m = '-' :: b ∧ Numeral (PyRt.digitVal F) 10 b n ∧ i = -n)

end Spine
