import Verif.Model.Surrogates
/-
Specification of C99: which Python strings the escapes of JSON, which are those of UTF-16, can hold.
-/
namespace Spine
namespace Surrogates

def High (c : Nat) : Prop := 0xd800 ≤ c ∧ c ≤ 0xdbff
def Low (c : Nat) : Prop := 0xdc00 ≤ c ∧ c ≤ 0xdfff
instance (c : Nat) : Decidable (High c) := inferInstanceAs (Decidable (_ ∧ _))
instance (c : Nat) : Decidable (Low c) := inferInstanceAs (Decidable (_ ∧ _))

/-- code points -/
def Valid (s : PStr) : Prop := ∀ c ∈ s, c < 0x110000

/-- no high surrogate stands directly before a low one -/
def Apart (s : PStr) : Prop := ∀ a h l b, s = a ++ h :: l :: b → High h → ¬ Low l

/-- the string with every such pair replaced by the code point it stands for in UTF-16, from the left -/
def join : PStr → PStr
  | h :: l :: r => if High h ∧ Low l then (0x10000 + ((h - 0xd800) * 1024 + (l - 0xdc00))) :: join r else h :: join (l :: r)
  | [c] => [c]
  | [] => []

end Surrogates
end Spine
