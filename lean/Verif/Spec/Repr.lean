import Verif.Model.Repr
/- What is asked of `float.__repr__`. -/
namespace Spine
namespace Repr
variable {F : Type}

/-- the characters that end a number or a name inside a list or dictionary -/
def Stop (c : Char) : Prop := c = ',' ∨ c = ']' ∨ c = '}'

instance : DecidablePred Stop := fun c => by unfold Stop; infer_instance

/-- a text that does not look like a string, list or dictionary and has no character that ends it -/
structure Word (w : Str) : Prop where
  ne : w ≠ []
  stop : ∀ c ∈ w, ¬ Stop c
  head : ∀ c ∈ w.head?, c ≠ '\'' ∧ c ≠ '"' ∧ c ≠ '[' ∧ c ≠ '{'

/-- the floats are written differently from each other and from the other scalars -/
structure Floats (fr : F → Str) : Prop where
  inj : ∀ f g, fr f = fr g → f = g
  word : ∀ f, Word (fr f)
  int : ∀ f i, fr f ≠ JsonText.encodeInt i
  named : ∀ f, fr f ≠ s!!"None" ∧ fr f ≠ s!!"True" ∧ fr f ≠ s!!"False"

end Repr
end Spine
