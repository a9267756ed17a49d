import Verif.Spec.JsonText
/-
JSON texts whose integers have at most `L` digits.  The rules are those of Spec/JsonText.lean, with one more condition in the rule for integers;
numbers with a fraction or an exponent may be as long as one likes.
-/
namespace Spine.DigitSpec
open JsonSpec (IntPart Digits intValue Frac Exp Chars Blank Consts object)
variable {F : Type}

/-- the digits in the text of an integer -/
def digitCount (s : Str) : Nat := s.countP (fun c => decide (c ≠ '-'))

mutual
/-- `value` (section 3), with short integers only -/
inductive Value (L : Nat) (parse : Str → Option F) (ext : Option (Consts F)) : Str → JVal F → Prop
  | null : Value L parse ext s!!"null" .null
  | tt : Value L parse ext s!!"true" (.bool true)
  | ff : Value L parse ext s!!"false" (.bool false)
  | int {s} : IntPart s → digitCount s ≤ L → Value L parse ext s (.int (intValue s))
  | flt {ip fr ex f} : IntPart ip → (fr = [] ∨ Frac fr) → (ex = [] ∨ Exp ex) → (fr ≠ [] ∨ ex ≠ []) → parse (ip ++ fr ++ ex) = some f →
      Value L parse ext (ip ++ fr ++ ex) (.flt f)
  | nan {c} : ext = some c → Value L parse ext s!!"NaN" (.flt c.nan)
  | inf {c} : ext = some c → Value L parse ext s!!"Infinity" (.flt c.inf)
  | ninf {c} : ext = some c → Value L parse ext s!!"-Infinity" (.flt c.ninf)
  | str {s u} : Chars s u → Value L parse ext ('"' :: (s ++ ['"'])) (.str u)
  | emptyList {b} : Blank b → Value L parse ext ('[' :: (b ++ [']'])) (.list [])
  | list {b s l} : Blank b → Items L parse ext s l → Value L parse ext ('[' :: (b ++ s ++ [']'])) (.list l)
  | emptyDict {b} : Blank b → Value L parse ext ('{' :: (b ++ ['}'])) (.dict [])
  | dict {b s l} : Blank b → Members L parse ext s l → Value L parse ext ('{' :: (b ++ s ++ ['}'])) (.dict (object l))
/-- the values of an array, with the blank after them -/
inductive Items (L : Nat) (parse : Str → Option F) (ext : Option (Consts F)) : Str → List (JVal F) → Prop
  | one {s v b} : Value L parse ext s v → Blank b → Items L parse ext (s ++ b) [v]
  | cons {s v b b' t l} : Value L parse ext s v → Blank b → Blank b' → Items L parse ext t l →
      Items L parse ext (s ++ b ++ ',' :: (b' ++ t)) (v :: l)
/-- the members of an object, with the blank after them -/
inductive Members (L : Nat) (parse : Str → Option F) (ext : Option (Consts F)) : Str → List (Str × JVal F) → Prop
  | one {k key b1 b2 s v b3} : Chars k key → Blank b1 → Blank b2 → Value L parse ext s v → Blank b3 →
      Members L parse ext ('"' :: (k ++ '"' :: (b1 ++ ':' :: (b2 ++ s ++ b3)))) [(key, v)]
  | cons {k key b1 b2 s v b3 b4 t l} : Chars k key → Blank b1 → Blank b2 → Value L parse ext s v → Blank b3 → Blank b4 →
      Members L parse ext t l →
      Members L parse ext ('"' :: (k ++ '"' :: (b1 ++ ':' :: (b2 ++ s ++ b3 ++ ',' :: (b4 ++ t))))) ((key, v) :: l)
end

/-- `JSON-text` (section 2) -/
def Document (L : Nat) (parse : Str → Option F) (ext : Option (Consts F)) (s : Str) (v : JVal F) : Prop :=
  ∃ a t b, s = a ++ t ++ b ∧ Blank a ∧ Value L parse ext t v ∧ Blank b

/-- every integer in the value has the property -/
inductive IntsAre (p : Int → Prop) : JVal F → Prop
  | null : IntsAre p .null
  | bool (b) : IntsAre p (.bool b)
  | int {i} : p i → IntsAre p (.int i)
  | flt (f) : IntsAre p (.flt f)
  | str (s) : IntsAre p (.str s)
  | list {l} : (∀ x ∈ l, IntsAre p x) → IntsAre p (.list l)
  | dict {d} : (∀ q ∈ d, IntsAre p q.2) → IntsAre p (.dict d)

/-- at most `L` decimal digits, without the sign; every number has a digit -/
def Short (L : Nat) (i : Int) : Prop := 0 < L ∧ i.natAbs < 10 ^ L

instance (L : Nat) (i : Int) : Decidable (Short L i) := inferInstanceAs (Decidable (_ ∧ _))

end Spine.DigitSpec
