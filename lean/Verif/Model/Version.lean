import Verif.Model.Py
/- Model of `spine_json_lib/data/spine_version_type.py` and `data/constants.py`. -/
namespace Spine

/-- `SpineVersion` instance (spine_version_type.py 8-18); `version` keeps the source string. -/
structure Version where
  version : Str
  major : Int
  minor : Int
  patch : Int
  deriving DecidableEq, Repr

namespace Version
variable (F : Type) [PyRt F]

/-- is a `\d` -/
def isDigit (c : Char) : Bool := (PyRt.digitVal F c).isSome

/-- rest of `^\d+.\d+` once one digit was read: either "any char but newline, then a digit", or one more digit -/
def matchTail : Str → Bool
  | c :: d :: r => (c ≠ '\n' && isDigit F d) || (isDigit F c && matchTail (d :: r))
  | _ => false

/-- `re.match(r"^\d+.\d+", version)` (spine_version_type.py 4, 116); the dot is unescaped -/
def regexMatch : Str → Bool
  | c :: r => isDigit F c && matchTail F r
  | [] => false

/-- `validate` (108-124) -/
def validate (v : Str) : Except Err Unit :=
  let n := (splitOn '.' v).length
  if (n = 2 ∨ n = 3) ∧ regexMatch F v = true then .ok () else .error .value

/-- `int(s)` raising ValueError -/
def intOrRaise (s : Str) : Except Err Int :=
  match pyInt F s with
  | some i => .ok i
  | none => .error .value

/-- `split_version` (127-141); it validates again first -/
def splitVersion (v : Str) : Except Err (Int × Int × Int) := do
  validate F v
  match splitOn '.' v with
  | [a, b] => do return (← intOrRaise F a, ← intOrRaise F b, 0)
  | [a, b, c] => do return (← intOrRaise F a, ← intOrRaise F b, ← intOrRaise F c)
  | _ => .error .value

/-- `SpineVersion(version)` (8-12) -/
def mk? (v : Str) : Except Err Version := do
  validate F v
  let (a, b, c) ← splitVersion F v
  return { version := v, major := a, minor := b, patch := c }

/-- `__eq__` (30-41) -/
def eq (a b : Version) : Bool := a.major == b.major && a.minor == b.minor && a.patch == b.patch
/-- `__ne__` (43-45) -/
def ne (a b : Version) : Bool := !(eq a b)
/-- `__lt__` (47-55): every component smaller -/
def lt (a b : Version) : Bool := decide (a.major < b.major) && decide (a.minor < b.minor) && decide (a.patch < b.patch)
/-- `__gt__` (57-65) -/
def gt (a b : Version) : Bool := decide (a.major > b.major) && decide (a.minor > b.minor) && decide (a.patch > b.patch)
/-- `__le__` (67-75) -/
def le (a b : Version) : Bool := decide (a.major ≤ b.major) && decide (a.minor ≤ b.minor) && decide (a.patch ≤ b.patch)
/-- `__ge__` (77-85) -/
def ge (a b : Version) : Bool := decide (a.major ≥ b.major) && decide (a.minor ≥ b.minor) && decide (a.patch ≥ b.patch)

/-- `_int_version` (18) -/
def intVersion (a : Version) : Int := a.major * 1000000 + a.minor * 1000 + a.patch

/-- `__cmp__` (87-102); Python 3 never calls it, it can only be called by name -/
def cmp (a b : Version) : Int :=
  if a.intVersion < b.intVersion then -1 else if a.intVersion = b.intVersion then 0 else 1

/-- `SPINE_3_8_VERSION = SpineVersion("3.8")` (constants.py 4) -/
def v38 : Version := { version := s!!"3.8", major := 3, minor := 8, patch := 0 }
/-- `SPINE_3_7_VERSION` (constants.py 3) -/
def v37 : Version := { version := s!!"3.7", major := 3, minor := 7, patch := 0 }

end Version

/-- the argument of a comparison with a version: a version, a string, or something else (20-28) -/
inductive VersionArg where
  | ver (v : Version)
  | str (s : Str)
  | other

/-- `__force_cast_to_spine_version` (20-28) followed by attribute access: a string is parsed (ValueError when
invalid), `NotImplemented` has no `.major` (AttributeError). -/
def VersionArg.cast (F : Type) [PyRt F] : VersionArg → Except Err Version
  | .ver v => .ok v
  | .str s => Version.mk? F s
  | .other => .error .attribute

end Spine
