import Verif.Model.Py
/-
What a JSON text means, after RFC 8259, written as inference rules.  `ext` allows the constants NaN, Infinity and -Infinity, which are
not JSON; `parse` gives the value of a number with fraction or exponent.
-/
namespace Spine.JsonSpec
variable {F : Type}

/-- `ws`: blanks, tabs and line breaks (RFC 8259, section 2) -/
def Blank (s : Str) : Prop := ∀ c ∈ s, c = ' ' ∨ c = '\t' ∨ c = '\n' ∨ c = '\r'

def Digits (s : Str) : Prop := ∀ c ∈ s, '0' ≤ c ∧ c ≤ '9'

/-- `int` with the optional minus (section 6): no leading zeros -/
inductive IntPart : Str → Prop
  | zero : IntPart ['0']
  | pos {c r} : '1' ≤ c → c ≤ '9' → Digits r → IntPart (c :: r)
  | negZero : IntPart ['-', '0']
  | neg {c r} : '1' ≤ c → c ≤ '9' → Digits r → IntPart ('-' :: c :: r)

/-- the number written in decimal digits -/
def decimal (s : Str) : Nat := s.foldl (fun n c => n * 10 + (c.toNat - 48)) 0

/-- the value of an integer -/
def intValue : Str → Int
  | '-' :: r => - (decimal r : Int)
  | r => decimal r

/-- `frac` -/
def Frac (s : Str) : Prop := ∃ r, s = '.' :: r ∧ r ≠ [] ∧ Digits r

/-- `exp` -/
def Exp (s : Str) : Prop := ∃ e sg r, s = e :: (sg ++ r) ∧ (e = 'e' ∨ e = 'E') ∧ (sg = [] ∨ sg = ['+'] ∨ sg = ['-']) ∧ r ≠ [] ∧ Digits r

inductive HexDigit : Char → Nat → Prop
  | dec {c} : '0' ≤ c → c ≤ '9' → HexDigit c (c.toNat - 48)
  | lower {c} : 'a' ≤ c → c ≤ 'f' → HexDigit c (c.toNat - 87)
  | upper {c} : 'A' ≤ c → c ≤ 'F' → HexDigit c (c.toNat - 55)

/-- four hex digits -/
inductive Hex4 : Str → Nat → Prop
  | mk {a b c d x y z w} : HexDigit a x → HexDigit b y → HexDigit c z → HexDigit d w →
      Hex4 [a, b, c, d] (((x * 16 + y) * 16 + z) * 16 + w)

/-- the escapes of one letter (section 7) -/
def shortEscapes : List (Char × Char) :=
  [('"', '"'), ('\\', '\\'), ('/', '/'), ('b', Char.ofNat 8), ('f', Char.ofNat 12), ('n', '\n'), ('r', '\r'), ('t', '\t')]

/-- `char`: the text of one character of a string (section 7) -/
inductive CharText : Str → Char → Prop
  | raw {c : Char} : c ≠ '"' → c ≠ '\\' → 32 ≤ c.toNat → CharText [c] c
  | short {e c} : (e, c) ∈ shortEscapes → CharText ['\\', e] c
  | unicode {h n} : Hex4 h n → (n < 0xd800 ∨ 0xdfff < n) → CharText ('\\' :: 'u' :: h) (Char.ofNat n)
  | pair {h l n m} : Hex4 h n → Hex4 l m → 0xd800 ≤ n → n ≤ 0xdbff → 0xdc00 ≤ m → m ≤ 0xdfff →
      CharText ('\\' :: 'u' :: (h ++ '\\' :: 'u' :: l)) (Char.ofNat (0x10000 + ((n - 0xd800) * 1024 + (m - 0xdc00))))

/-- the text between the quotes -/
inductive Chars : Str → Str → Prop
  | nil : Chars [] []
  | cons {t s c u} : CharText t c → Chars s u → Chars (t ++ s) (c :: u)

/-- the object with these members: the last value of a key counts, keys are in the order of their first occurrence -/
def object {α : Type} (l : List (Str × α)) : Dict α := l.foldl (fun d p => Dict.set d p.1 p.2) []

/-- the floats that are not JSON -/
structure Consts (F : Type) where
  nan : F
  inf : F
  ninf : F

mutual
/-- `value` (section 3) -/
inductive Value (parse : Str → Option F) (ext : Option (Consts F)) : Str → JVal F → Prop
  | null : Value parse ext s!!"null" .null
  | tt : Value parse ext s!!"true" (.bool true)
  | ff : Value parse ext s!!"false" (.bool false)
  | int {s} : IntPart s → Value parse ext s (.int (intValue s))
  | flt {ip fr ex f} : IntPart ip → (fr = [] ∨ Frac fr) → (ex = [] ∨ Exp ex) → (fr ≠ [] ∨ ex ≠ []) → parse (ip ++ fr ++ ex) = some f →
      Value parse ext (ip ++ fr ++ ex) (.flt f)
  | nan {c} : ext = some c → Value parse ext s!!"NaN" (.flt c.nan)
  | inf {c} : ext = some c → Value parse ext s!!"Infinity" (.flt c.inf)
  | ninf {c} : ext = some c → Value parse ext s!!"-Infinity" (.flt c.ninf)
  | str {s u} : Chars s u → Value parse ext ('"' :: (s ++ ['"'])) (.str u)
  | emptyList {b} : Blank b → Value parse ext ('[' :: (b ++ [']'])) (.list [])
  | list {b s l} : Blank b → Items parse ext s l → Value parse ext ('[' :: (b ++ s ++ [']'])) (.list l)
  | emptyDict {b} : Blank b → Value parse ext ('{' :: (b ++ ['}'])) (.dict [])
  | dict {b s l} : Blank b → Members parse ext s l → Value parse ext ('{' :: (b ++ s ++ ['}'])) (.dict (object l))
/-- the values of an array, with the blank after them -/
inductive Items (parse : Str → Option F) (ext : Option (Consts F)) : Str → List (JVal F) → Prop
  | one {s v b} : Value parse ext s v → Blank b → Items parse ext (s ++ b) [v]
  | cons {s v b b' t l} : Value parse ext s v → Blank b → Blank b' → Items parse ext t l →
      Items parse ext (s ++ b ++ ',' :: (b' ++ t)) (v :: l)
/-- the members of an object, with the blank after them -/
inductive Members (parse : Str → Option F) (ext : Option (Consts F)) : Str → List (Str × JVal F) → Prop
  | one {k key b1 b2 s v b3} : Chars k key → Blank b1 → Blank b2 → Value parse ext s v → Blank b3 →
      Members parse ext ('"' :: (k ++ '"' :: (b1 ++ ':' :: (b2 ++ s ++ b3)))) [(key, v)]
  | cons {k key b1 b2 s v b3 b4 t l} : Chars k key → Blank b1 → Blank b2 → Value parse ext s v → Blank b3 → Blank b4 →
      Members parse ext t l →
      Members parse ext ('"' :: (k ++ '"' :: (b1 ++ ':' :: (b2 ++ s ++ b3 ++ ',' :: (b4 ++ t))))) ((key, v) :: l)
end

/-- `JSON-text` (section 2) -/
def Document (parse : Str → Option F) (ext : Option (Consts F)) (s : Str) (v : JVal F) : Prop :=
  ∃ a t b, s = a ++ t ++ b ∧ Blank a ∧ Value parse ext t v ∧ Blank b

/-- every float in the value has the property -/
inductive FloatsAre (p : F → Prop) : JVal F → Prop
  | null : FloatsAre p .null
  | bool (b) : FloatsAre p (.bool b)
  | int (i) : FloatsAre p (.int i)
  | flt {f} : p f → FloatsAre p (.flt f)
  | str (s) : FloatsAre p (.str s)
  | list {l} : (∀ x ∈ l, FloatsAre p x) → FloatsAre p (.list l)
  | dict {d} : (∀ q ∈ d, FloatsAre p q.2) → FloatsAre p (.dict d)

end Spine.JsonSpec
