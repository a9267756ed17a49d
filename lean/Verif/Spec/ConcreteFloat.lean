import Verif.Lemmas.JsonEncode
import Verif.Spec.Concrete
/-
A concrete `JsonRt` instance: integral floats up to a limit, the infinities and NaN, with ASCII character tables.  It is used only by examples
and counterexamples.
-/
namespace Spine

/-- integral floats, infinities and NaN -/
inductive XF where
  | num (i : Int)
  | nan
  | inf
  | ninf
  deriving DecidableEq

namespace XF
open JsonSpec JsonText

/-- the largest number -/
def limit : Nat := 10 ^ 30

def round (i : Int) : XF := if i.natAbs ≤ limit then num i else if 0 < i then inf else ninf

def mul : XF → XF → XF
  | num a, num b => round (a * b)
  | _, _ => nan

def eq : XF → XF → Bool
  | nan, _ => false
  | a, b => a == b

/-- `i.0` is a number, `1e999` is infinite -/
def parse (s : Str) : Option XF :=
  if s = s!!"1e999" then some inf
  else match s.reverse with
    | '0' :: '.' :: r => some (num (intValue r.reverse))
    | _ => none

/-- the repr of a number -/
def repr : XF → Str
  | num i => encodeInt i ++ s!!".0"
  | _ => []

theorem parse_repr (i : Int) : parse (encodeInt i ++ s!!".0") = some (num i) := by
  have h : (encodeInt i ++ s!!".0").reverse = '0' :: '.' :: (encodeInt i).reverse := by simp
  unfold parse
  rw [if_neg, h]
  · simp [(encodeInt_spec i).2]
  · intro e
    have := congrArg List.reverse e
    rw [h] at this
    simp at this

instance xfRt : JsonRt XF where
  fone := num 1
  fmul := mul
  fofInt i := some (num i)
  feq := eq
  feqInt a i := a == num i
  fparse := parse
  isSpace := asciiSpace
  isWord := asciiWord
  digitVal := asciiDigit
  setOrder l := l
  setOrder_perm l := List.Perm.refl l
  one_feq := by decide
  space_not_word := ratRt.space_not_word
  word_ascii := ratRt.word_ascii
  space_ascii := ratRt.space_ascii
  digit_ascii := ratRt.digit_ascii
  digit_lt := ratRt.digit_lt
  digit_not_space := ratRt.digit_not_space
  hex_letter := ratRt.hex_letter
  digit_punct := ratRt.digit_punct
  fnan := nan
  finf := inf
  fninf := ninf
  frepr := repr
  nan_unique f h := by cases f <;> simp [eq] at h ⊢
  inf_unique f h := by cases f <;> simp [eq] at h ⊢
  ninf_unique f h := by cases f <;> simp [eq] at h ⊢
  one_finite := by decide
  frepr_shape f h1 h2 h3 := by
    cases f with
    | nan => simp [eq] at h1
    | inf => simp [eq] at h2
    | ninf => simp [eq] at h3
    | num i =>
      have hd : ∀ d ∈ (['0'] : Str), '0' ≤ d ∧ d ≤ '9' := by decide
      have hi := (encodeInt_spec i).1
      simp only [repr]
      generalize encodeInt i = s at hi
      cases hi with
      | zero => exact ⟨[], ['0'], s!!".0", [], by simp, .inl rfl, .inl rfl, .inr ⟨['0'], rfl, by simp, hd⟩, .inl rfl, .inl (by simp)⟩
      | pos a b c => exact ⟨[], _, s!!".0", [], by simp, .inl rfl, .inr ⟨_, _, rfl, a, b, c⟩, .inr ⟨['0'], rfl, by simp, hd⟩, .inl rfl, .inl (by simp)⟩
      | negZero => exact ⟨['-'], ['0'], s!!".0", [], by simp, .inr rfl, .inl rfl, .inr ⟨['0'], rfl, by simp, hd⟩, .inl rfl, .inl (by simp)⟩
      | neg a b c => exact ⟨['-'], _, s!!".0", [], by simp, .inr rfl, .inr ⟨_, _, rfl, a, b, c⟩, .inr ⟨['0'], rfl, by simp, hd⟩, .inl rfl, .inl (by simp)⟩
  fparse_frepr f h1 h2 h3 := by
    cases f with
    | nan => simp [eq] at h1
    | inf => simp [eq] at h2
    | ninf => simp [eq] at h3
    | num i => exact parse_repr i

end XF
end Spine
