/-
Python runtime vocabulary used by the model: strings, exceptions, ordered dictionaries,
JSON values, the few facts about `float` and Unicode tables the code relies on.
-/

namespace Spine

/-- Python `str`: a sequence of characters. -/
abbrev Str := List Char

open Lean in
/-- `s!!"root"` is the character list `['r','o','o','t']` (kernel-friendly string literal). -/
macro:max "s!!" s:str : term => do
  let cs := (s.getString.toList.map (fun c => Syntax.mkCharLit c)).toArray
  `(([$cs,*] : List Char))

/-- Exceptions as values.  `diverge` = the Python loop does not terminate; `unmodelled` = the document
uses a non-string where the model requires a name (see DESIGN.md, section 3). -/
inductive Err where
  | value | type | key | attribute | overflow | notImplemented | os
  /-- `SpineParsingException`, unsupported attributes (base_type.py 48-54) -/
  | unsupportedAttrs (attrs : List Str)
  /-- `SpineParsingException`, missing required attributes (base_type.py 56-61) -/
  | missingRequired (attrs : List Str)
  /-- `SpineJsonEditorError` -/
  | editor
  | diverge
  | unmodelled
  deriving DecidableEq, Repr

instance {ε α : Type} [DecidableEq ε] [DecidableEq α] : DecidableEq (Except ε α) := fun a b =>
  match a, b with
  | .ok x, .ok y => if h : x = y then isTrue (by rw [h]) else isFalse (fun e => h (by injection e))
  | .error x, .error y => if h : x = y then isTrue (by rw [h]) else isFalse (fun e => h (by injection e))
  | .ok _, .error _ => isFalse (fun e => by injection e)
  | .error _, .ok _ => isFalse (fun e => by injection e)

/-- Facts about the Python runtime the code relies on.  `F` is the type of Python floats.
Every theorem is proved for an arbitrary instance. -/
class PyRt (F : Type) where
  /-- the literal `1.0` -/
  fone : F
  /-- `float * float` -/
  fmul : F → F → F
  /-- conversion of an `int` in a mixed product; `none` = OverflowError -/
  fofInt : Int → Option F
  /-- `float == float` -/
  feq : F → F → Bool
  /-- `float == int` -/
  feqInt : F → Int → Bool
  /-- `float(str)`; `none` = ValueError -/
  fparse : Str → Option F
  /-- `re` class `\s`, also used by `str.strip` -/
  isSpace : Char → Bool
  /-- `re` class `\w` -/
  isWord : Char → Bool
  /-- value of a decimal digit (`re` class `\d`, accepted by `int()`) -/
  digitVal : Char → Option Nat
  /-- iteration order of a `frozenset` of strings (given as a list without duplicates): arbitrary -/
  setOrder : List Str → List Str
  setOrder_perm : ∀ l, (setOrder l).Perm l
  one_feq : feq fone fone = true
  space_not_word : ∀ c, isSpace c = true → isWord c = false
  word_ascii : ∀ c ∈ ['[', ']', ':', '.', '-'], isWord c = false
  space_ascii : ∀ c ∈ ['[', ']', ':', '.', '-', '_', '+'], isSpace c = false
  digit_ascii : ∀ n : Fin 10, digitVal (Char.ofNat (48 + n)) = some n
  digit_lt : ∀ c n, digitVal c = some n → n < 10
  digit_not_space : ∀ c n, digitVal c = some n → isSpace c = false
  digit_punct : ∀ c ∈ ['.', '_', '-', '+', '\n'], digitVal c = none
  hex_letter : ∀ c ∈ ['a', 'b', 'c', 'd', 'e', 'f', 'A', 'B', 'C', 'D', 'E', 'F'], isSpace c = false ∧ digitVal c = none

/-! ## Dictionaries -/

/-- Python `dict` with string keys, in insertion order. -/
abbrev Dict (α : Type) := List (Str × α)

namespace Dict
variable {α β : Type}

/-- `d.get(k)` -/
def get? : Dict α → Str → Option α
  | [], _ => none
  | (k', v) :: r, k => if k' = k then some v else get? r k

/-- `k in d` -/
def has (d : Dict α) (k : Str) : Bool := (get? d k).isSome

/-- `d.keys()` -/
def keys (d : Dict α) : List Str := d.map (·.1)

/-- `d.values()` -/
def values (d : Dict α) : List α := d.map (·.2)

/-- `d[k] = v`: replaces in place, appends when new -/
def set : Dict α → Str → α → Dict α
  | [], k, v => [(k, v)]
  | (k', v') :: r, k, v => if k' = k then (k, v) :: r else (k', v') :: set r k v

/-- `del d[k]` on a dict that has `k` (keys are unique) -/
def del (d : Dict α) (k : Str) : Dict α := d.filter (fun p => p.1 ≠ k)

/-- apply a function to the value stored under a key, if any (used for `obj.attr = …` on the object found under `k`) -/
def modify (d : Dict α) (k : Str) (f : α → α) : Dict α :=
  d.map (fun p => if p.1 = k then (p.1, f p.2) else p)

end Dict

/-! ## JSON values -/

/-- A value produced by `json.load` (objects as ordered dictionaries). -/
inductive JVal (F : Type) where
  | null
  | bool (b : Bool)
  | int (i : Int)
  | flt (f : F)
  | str (s : Str)
  | list (l : List (JVal F))
  | dict (d : List (Str × JVal F))

namespace JVal
variable {F : Type}

/-- truth value of a Python object (`if v`, `v or …`); a float is falsy when it equals 0 -/
def truthy [PyRt F] : JVal F → Bool
  | null => false
  | bool b => b
  | int i => i ≠ 0
  | flt f => !(PyRt.feqInt f 0)
  | str s => !s.isEmpty
  | list l => !l.isEmpty
  | dict d => !d.isEmpty

/-- `v is None` -/
def isNull : JVal F → Bool
  | null => true
  | _ => false

def boolInt (b : Bool) : Int := if b then 1 else 0

mutual
/-- Python `==` on JSON values: `True == 1`, `1 == 1.0`, dictionaries compared without order. -/
def pyEq [PyRt F] : JVal F → JVal F → Bool
  | null, null => true
  | bool a, bool b => a == b
  | bool a, int b => boolInt a == b
  | int a, bool b => a == boolInt b
  | int a, int b => a == b
  | flt a, flt b => PyRt.feq a b
  | flt a, int b => PyRt.feqInt a b
  | flt a, bool b => PyRt.feqInt a (boolInt b)
  | int a, flt b => PyRt.feqInt b a
  | bool a, flt b => PyRt.feqInt b (boolInt a)
  | str a, str b => a == b
  | list a, list b => pyEqList a b
  | dict a, dict b => a.length == b.length && pyEqDict a b
  | _, _ => false
def pyEqList [PyRt F] : List (JVal F) → List (JVal F) → Bool
  | [], [] => true
  | a :: as, b :: bs => pyEq a b && pyEqList as bs
  | _, _ => false
def pyEqDict [PyRt F] : List (Str × JVal F) → List (Str × JVal F) → Bool
  | [], _ => true
  | (k, a) :: as, bs =>
    (match Dict.get? bs k with
      | some b => pyEq a b
      | none => false) && pyEqDict as bs
end

/-- `v[k]` / `v.get(k)` on a dict value -/
def field? : JVal F → Str → Option (JVal F)
  | dict d, k => Dict.get? d k
  | _, _ => none

end JVal

/-- a JSON number passed by a caller -/
inductive Num (F : Type) where
  | int (i : Int)
  | flt (f : F)

/-- `v * n` (Python `*`): numbers, and repetition of strings and lists by an `int`. -/
def pyMul {F : Type} [PyRt F] : JVal F → Num F → Except Err (JVal F)
  | .int a, .int b => .ok (.int (a * b))
  | .bool a, .int b => .ok (.int (JVal.boolInt a * b))
  | .flt a, .flt b => .ok (.flt (PyRt.fmul a b))
  | .flt a, .int b => match PyRt.fofInt (F := F) b with
    | some b => .ok (.flt (PyRt.fmul a b))
    | none => .error .overflow
  | .int a, .flt b => match PyRt.fofInt (F := F) a with
    | some a => .ok (.flt (PyRt.fmul a b))
    | none => .error .overflow
  | .bool a, .flt b => match PyRt.fofInt (F := F) (JVal.boolInt a) with
    | some a => .ok (.flt (PyRt.fmul a b))
    | none => .error .overflow
  | .str s, .int n => .ok (.str (List.replicate n.toNat s).flatten)
  | .list l, .int n => .ok (.list (List.replicate n.toNat l).flatten)
  | _, _ => .error .type

/-! ## Strings -/

/-- `s.strip()` -/
def strip (F : Type) [PyRt F] (s : Str) : Str :=
  (((s.dropWhile (PyRt.isSpace F)).reverse).dropWhile (PyRt.isSpace F)).reverse

/-- `s.split(sep)` for a one-character separator -/
def splitOn (sep : Char) : Str → List Str
  | [] => [[]]
  | c :: r =>
    if c = sep then [] :: splitOn sep r
    else match splitOn sep r with
      | [] => [[c]]
      | p :: ps => (c :: p) :: ps

/-- digits of `int(s, base)` after the first one: digits, single underscores allowed between digits -/
def digitsTail (dv : Char → Option Nat) (base : Nat) : Nat → Str → Option Nat
  | acc, [] => some acc
  | acc, [c] => (dv c).map (acc * base + ·)
  | acc, c :: c' :: r =>
    if c = '_' then
      match dv c' with
      | some d => digitsTail dv base (acc * base + d) r
      | none => none
    else match dv c with
      | some d => digitsTail dv base (acc * base + d) (c' :: r)
      | none => none

/-- `int(s)` (decimal): surrounding blanks, optional sign, digits with single underscores between them -/
def pyInt (F : Type) [PyRt F] (s : Str) : Option Int :=
  let unsigned (t : Str) : Option Nat :=
    match t with
    | c :: r => match PyRt.digitVal F c with
      | some d => digitsTail (PyRt.digitVal F) 10 d r
      | none => none
    | [] => none
  match strip F s with
  | '+' :: t => (unsigned t).map Int.ofNat
  | '-' :: t => (unsigned t).map (fun n => - Int.ofNat n)
  | t => (unsigned t).map Int.ofNat

/-- decimal digits of a natural number, most significant first (`str(n)`) -/
def natStr (n : Nat) : Str :=
  if n < 10 then [Char.ofNat (48 + n)] else natStr (n / 10) ++ [Char.ofNat (48 + n % 10)]

/-- `s.startswith(p)` as prefix removal -/
def dropPrefix? : Str → Str → Option Str
  | s, [] => some s
  | c :: s, d :: p => if c = d then dropPrefix? s p else none
  | [], _ :: _ => none

/-- `s.replace(pat, "")` for a non-empty pattern: leftmost, non-overlapping occurrences.
`fuel` bounds the scan; `s.length` is always enough because every step consumes a character. -/
def removeAllAux (pat : Str) : Nat → Str → Str
  | 0, s => s
  | _ + 1, [] => []
  | n + 1, c :: s =>
    match dropPrefix? (c :: s) pat with
    | some r => removeAllAux pat n r
    | none => c :: removeAllAux pat n s

def removeAll (pat s : Str) : Str := removeAllAux pat s.length s

/-- `os.path.join(a, b)` on POSIX -/
def pathJoin (a b : Str) : Str :=
  match b with
  | '/' :: _ => b
  | _ => if a = [] ∨ a.getLast? = some '/' then a ++ b else a ++ ['/'] ++ b

/-- Python `list.insert(i, x)`: negative indices count from the end, out-of-range indices are clamped -/
def pyInsert {α : Type} (l : List α) (i : Int) (x : α) : List α :=
  let j : Nat := if i < 0 then (l.length + i).toNat else min i.toNat l.length
  l.take j ++ x :: l.drop j

end Spine
