import Verif.Model.SpineNodes
import Verif.Model.Tags
import Verif.Spec.Repr
/- Model of `cast_element` (utils.py 18-45) for every type and every JSON value. -/
namespace Spine

/-- further facts about the Python runtime used by `cast_element` -/
class PyCast (F : Type) extends PyRt F where
  /-- `int(float)`: ValueError for a NaN, OverflowError for an infinity -/
  ftrunc : F → Except Err Int
  /-- `str(float)` -/
  fstr : F → Str
  /-- `str.lower` -/
  lower : Str → Str
  ftrunc_err : ∀ f e, ftrunc f = .error e → e = .value ∨ e = .overflow
  /-- the integral part of a float is a float -/
  ftrunc_exact : ∀ f i, ftrunc f = .ok i → ∃ g, fofInt i = some g ∧ ftrunc g = .ok i
  /-- `str.isprintable` of a character beyond ASCII -/
  printable : Char → Bool
  /-- floats are written differently from each other and from the other scalars (`Repr.floats` derives this from the shape of
  `float.__repr__` in `JsonRt`) -/
  fstr_floats : Repr.Floats fstr
  lower_ascii : ∀ s : Str, (∀ c ∈ s, c.toNat < 128) → lower s = s.map Char.toLower

namespace Cast
variable {F : Type} [PyCast F]

/-- `float(v)` -/
def toFloat : JVal F → Except Err F
  | .str s => match PyRt.fparse s with
    | some f => .ok f
    | none => .error .value
  | .int i => match PyRt.fofInt i with
    | some f => .ok f
    | none => .error .overflow
  | .bool b => match PyRt.fofInt (JVal.boolInt b) with
    | some f => .ok f
    | none => .error .overflow
  | .flt f => .ok f
  | _ => .error .type

/-- `str(v)`: of everything but a string it is `repr(v)` -/
def toStr : JVal F → Str
  | .str s => s
  | v => Repr.val (PyCast.printable F) PyCast.fstr v

/-- the branch for `TYPE_BOOLEAN` (27-43) -/
def toBool : JVal F → Except Err (JVal F)
  | .bool b => .ok (.bool b)
  | .str s =>
    if PyCast.lower F s = s!!"true" then .ok (.bool true)
    else if PyCast.lower F s = s!!"false" then .ok (.bool false)
    else .ok (.str s)
  | _ => .error .value

/-- `cast_element` (18-45) -/
def castElement (v : JVal F) (ty : Str) : Except Err (JVal F) :=
  if ty = s!!"number" then (toFloat v).map .flt
  else if ty = s!!"integer" then
    match toFloat v with
    | .error e => .error e
    | .ok f => (PyCast.ftrunc f).map .int
  else if ty = s!!"string" then
    .ok (.str (toStr v))
  else if ty = s!!"boolean" then toBool v
  else .ok v

end Cast
end Spine
