import Verif.Model.JsonText
/-
`repr` of Python values, as used by `str.format` and `str` on lists and dictionaries (CPython 3.12, Objects/unicodeobject.c
`unicode_repr`, listobject.c `list_repr`, dictobject.c `dict_repr`).  `pr` says which characters beyond ASCII are printable
(`str.isprintable`, a table of Unicode).
-/
namespace Spine
namespace Repr
open JsonText (hexDigit encodeInt)

/-- `k` lower-case hex digits -/
def hex : Nat → Nat → Str
  | 0, _ => []
  | k + 1, n => hex k (n / 16) ++ [hexDigit (n % 16)]

/-- one character of `unicode_repr` between quotes `q` -/
def char (pr : Char → Bool) (q c : Char) : Str :=
  if c = q ∨ c = '\\' then ['\\', c]
  else if c = '\t' then ['\\', 't']
  else if c = '\n' then ['\\', 'n']
  else if c = '\r' then ['\\', 'r']
  else if c.toNat < 32 ∨ c.toNat = 127 then '\\' :: 'x' :: hex 2 c.toNat
  else if c.toNat < 127 then [c]
  else if pr c then [c]
  else if c.toNat ≤ 0xff then '\\' :: 'x' :: hex 2 c.toNat
  else if c.toNat ≤ 0xffff then '\\' :: 'u' :: hex 4 c.toNat
  else '\\' :: 'U' :: hex 8 c.toNat

/-- the quotes: double ones if the string has single ones and no double ones -/
def quote (s : Str) : Char := if '\'' ∈ s ∧ '"' ∉ s then '"' else '\''

def body (pr : Char → Bool) (q : Char) : Str → Str
  | [] => []
  | c :: s => char pr q c ++ body pr q s

/-- `repr(s)` of a string -/
def str (pr : Char → Bool) (s : Str) : Str := quote s :: (body pr (quote s) s ++ [quote s])

/-- what stands between the brackets: the items with `", "` in between -/
def join : List Str → Str
  | [] => []
  | [a] => a
  | a :: b :: r => a ++ s!!", " ++ join (b :: r)

/-- `repr(l)` of a list of strings -/
def strs (pr : Char → Bool) (l : List Str) : Str := '[' :: (join (l.map (str pr)) ++ [']'])

variable {F : Type}

mutual
/-- `repr(v)` of a JSON value; `fr` is `float.__repr__` -/
def val (pr : Char → Bool) (fr : F → Str) : JVal F → Str
  | .null => s!!"None"
  | .bool true => s!!"True"
  | .bool false => s!!"False"
  | .int i => encodeInt i
  | .flt f => fr f
  | .str s => str pr s
  | .list l => '[' :: (join (vals pr fr l) ++ [']'])
  | .dict d => '{' :: (join (pairs pr fr d) ++ ['}'])
def vals (pr : Char → Bool) (fr : F → Str) : List (JVal F) → List Str
  | [] => []
  | v :: l => val pr fr v :: vals pr fr l
def pairs (pr : Char → Bool) (fr : F → Str) : List (Str × JVal F) → List Str
  | [] => []
  | p :: l => (str pr p.1 ++ s!!": " ++ val pr fr p.2) :: pairs pr fr l
end

/-- `float.__repr__` -/
def float [JsonRt F] (f : F) : Str :=
  if PyRt.feq f f = false then s!!"nan"
  else if PyRt.feq f JsonRt.finf then s!!"inf"
  else if PyRt.feq f JsonRt.fninf then s!!"-inf"
  else JsonRt.frepr f

end Repr
end Spine
