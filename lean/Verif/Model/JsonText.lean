import Verif.Model.Py
/-
Model of the text of JSON files: `json.dump(v, f, indent=4)` (spine_animation_editor.py 225), `json.dump(v, f)` (261), `json.dumps(v)`
(spine_nodes.py 137) and `json.load(f)` (spine_animation_editor.py 62, spine_nodes.py 129), after json/encoder.py,
json/decoder.py and json/scanner.py of the standard library (3.12).  Line numbers below are those of these files.

Simplifications
* the text of a file is its sequence of characters; how `open` encodes them is left out (what is written is ASCII, `c77_ascii`);
* a Lean character is never a surrogate: reading a lone surrogate escape is the error `unmodelled`;
* `int` has no limit of 4300 digits, and nesting no recursion limit;
* where the two implementations of `json` (C and Python) differ, on `\u` followed by four characters that `int(_, 16)` accepts although they
  are not hex digits and on digits outside ASCII, the C one is modelled, which is the one used.
-/
namespace Spine

/-- facts about floats used by `json` -/
class JsonRt (F : Type) extends PyRt F where
  /-- the constants `NaN`, `Infinity` and `-Infinity` (decoder.py 46-50) -/
  fnan : F
  finf : F
  fninf : F
  /-- `float.__repr__` of the others -/
  frepr : F → Str
  /-- there is one NaN, one infinity of each sign (the bits of a NaN cannot be seen) -/
  nan_unique : ∀ f, feq f f = false → f = fnan
  inf_unique : ∀ f, feq f finf = true → f = finf
  ninf_unique : ∀ f, feq f fninf = true → f = fninf
  /-- the repr of a finite float is an integer part, and a fraction or an exponent or both; `float` reads it back -/
  frepr_shape : ∀ f, feq f f = true → feq f finf = false → feq f fninf = false →
    ∃ (sign ip frac exp : Str), frepr f = sign ++ ip ++ frac ++ exp ∧ (sign = [] ∨ sign = ['-']) ∧
      (ip = ['0'] ∨ ∃ c r, ip = c :: r ∧ '1' ≤ c ∧ c ≤ '9' ∧ ∀ d ∈ r, '0' ≤ d ∧ d ≤ '9') ∧
      (frac = [] ∨ ∃ r, frac = '.' :: r ∧ r ≠ [] ∧ ∀ d ∈ r, '0' ≤ d ∧ d ≤ '9') ∧
      (exp = [] ∨ ∃ s r, exp = 'e' :: (s ++ r) ∧ (s = [] ∨ s = ['+'] ∨ s = ['-']) ∧ r ≠ [] ∧ ∀ d ∈ r, '0' ≤ d ∧ d ≤ '9') ∧
      (frac ≠ [] ∨ exp ≠ [])
  /-- `1.0` is finite -/
  one_finite : feq fone finf = false ∧ feq fone fninf = false
  fparse_frepr : ∀ f, feq f f = true → feq f finf = false → feq f fninf = false → fparse (frepr f) = some f

namespace JsonText
variable {F : Type}

/-! ### Writing (encoder.py) -/

/-- a lower-case hex digit -/
def hexDigit (n : Nat) : Char := if n < 10 then Char.ofNat (48 + n) else Char.ofNat (87 + n)

/-- `'\\u{0:04x}'.format(n)` -/
def uEscape (n : Nat) : Str := ['\\', 'u', hexDigit (n / 4096 % 16), hexDigit (n / 256 % 16), hexDigit (n / 16 % 16), hexDigit (n % 16)]

/-- one character of `py_encode_basestring_ascii` (53-67); the bits of `0xd800 | x` with `x < 0x400` are disjoint -/
def encodeChar (c : Char) : Str :=
  if c = '\\' then s!!"\\\\"
  else if c = '"' then ['\\', '"']
  else if c.toNat = 8 then ['\\', 'b']
  else if c.toNat = 12 then ['\\', 'f']
  else if c = '\n' then ['\\', 'n']
  else if c = '\r' then ['\\', 'r']
  else if c = '\t' then ['\\', 't']
  else if 32 ≤ c.toNat ∧ c.toNat ≤ 126 then [c]
  else if c.toNat < 0x10000 then uEscape c.toNat
  else uEscape (0xd800 + (c.toNat - 0x10000) / 1024 % 1024) ++ uEscape (0xdc00 + (c.toNat - 0x10000) % 1024)

/-- `encode_basestring_ascii` (49-68) -/
def encodeStr (s : Str) : Str := '"' :: ((s.map encodeChar).flatten ++ ['"'])

/-- `int.__repr__` -/
def encodeInt (i : Int) : Str := if i < 0 then '-' :: natStr i.natAbs else natStr i.natAbs

variable [JsonRt F]

/-- `floatstr` (224-245) -/
def encodeFloat (f : F) : Str :=
  if PyRt.feq f f = false then s!!"NaN"
  else if PyRt.feq f JsonRt.finf then s!!"Infinity"
  else if PyRt.feq f JsonRt.fninf then s!!"-Infinity"
  else JsonRt.frepr f

/-- the layout: `indent=4`, or the default -/
inductive Layout where
  | indent4
  | compact

/-- `'\n' + _indent * level` (290, 329, 346, 409), or nothing -/
def Layout.newline (l : Layout) (level : Nat) : Str :=
  match l with
  | .indent4 => '\n' :: List.replicate (4 * level) ' '
  | .compact => []

/-- the separator of items: `_item_separator` (103, 156-157: ',' with indentation, ', ' without) and the line break -/
def Layout.separator (l : Layout) (level : Nat) : Str :=
  match l with
  | .indent4 => ',' :: l.newline level
  | .compact => s!!", "

mutual
/-- `_iterencode` (414-442) and the same branches in the loops over lists and dictionaries -/
def encodeAt (l : Layout) (level : Nat) : JVal F → Str
  | .null => s!!"null"
  | .bool true => s!!"true"
  | .bool false => s!!"false"
  | .int i => encodeInt i
  | .flt f => encodeFloat f
  | .str s => encodeStr s
  | .list [] => s!!"[]"
  | .list (v :: r) => '[' :: (l.newline (level + 1) ++ encodeAt l (level + 1) v ++ encodeMore l (level + 1) r ++ l.newline level ++ [']'])
  | .dict [] => s!!"{}"
  | .dict ((k, v) :: r) =>
    '{' :: (l.newline (level + 1) ++ encodeStr k ++ s!!": " ++ encodeAt l (level + 1) v ++ encodeMembers l (level + 1) r ++ l.newline level ++ ['}'])
/-- the loop of `_iterencode_list` (278-332) after the first item -/
def encodeMore (l : Layout) (level : Nat) : List (JVal F) → Str
  | [] => []
  | v :: r => l.separator level ++ encodeAt l level v ++ encodeMore l level r
/-- the loop of `_iterencode_dict` (334-412) after the first item -/
def encodeMembers (l : Layout) (level : Nat) : List (Str × JVal F) → Str
  | [] => []
  | (k, v) :: r => l.separator level ++ encodeStr k ++ s!!": " ++ encodeAt l level v ++ encodeMembers l level r
end

/-- `json.dump(v, f, indent=4)` or `json.dump(v, f)`, `json.dumps(v)` -/
def encode (l : Layout) (v : JVal F) : Str := encodeAt l 0 v

/-! ### Reading (decoder.py, scanner.py) -/

/-- ` \t\n\r` (decoder.py 132-133) -/
def isWs (c : Char) : Bool := c = ' ' ∨ c = '\t' ∨ c = '\n' ∨ c = '\r'

/-- `_w(s, end).end()` -/
def skipWs (s : Str) : Str := s.dropWhile isWs

def isDig (c : Char) : Bool := '0' ≤ c ∧ c ≤ '9'

/-- value of a hex digit -/
def hexVal (c : Char) : Option Nat :=
  if '0' ≤ c ∧ c ≤ '9' then some (c.toNat - 48)
  else if 'a' ≤ c ∧ c ≤ 'f' then some (c.toNat - 87)
  else if 'A' ≤ c ∧ c ≤ 'F' then some (c.toNat - 55)
  else none

/-- `_decode_uXXXX` (decoder.py 59-67) -/
def hex4 : Str → Option (Nat × Str)
  | a :: b :: c :: d :: r => match hexVal a, hexVal b, hexVal c, hexVal d with
    | some a, some b, some c, some d => some (((a * 16 + b) * 16 + c) * 16 + d, r)
    | _, _, _, _ => none
  | _ => none

/-- `BACKSLASH` (decoder.py 54-57) -/
def backslash (c : Char) : Option Char :=
  if c = '"' then some '"'
  else if c = '\\' then some '\\'
  else if c = '/' then some '/'
  else if c = 'b' then some (Char.ofNat 8)
  else if c = 'f' then some (Char.ofNat 12)
  else if c = 'n' then some '\n'
  else if c = 'r' then some '\r'
  else if c = 't' then some '\t'
  else none

/-- `chr(uni)` for a number below 0x10000; a surrogate is not modelled -/
def chr (n : Nat) : Except Err Char := if 0xd800 ≤ n ∧ n ≤ 0xdfff then .error .unmodelled else .ok (Char.ofNat n)

/-- an escape after the backslash (decoder.py 103-124) -/
def scanEscape : Str → Except Err (Char × Str)
  | [] => .error .value
  | e :: r =>
    if e = 'u' then
      match hex4 r with
      | none => .error .value
      | some (u, r1) =>
        if 0xd800 ≤ u ∧ u ≤ 0xdbff then
          match r1 with
          | '\\' :: 'u' :: r2 => match hex4 r2 with
            | none => .error .value
            | some (u2, r3) =>
              if 0xdc00 ≤ u2 ∧ u2 ≤ 0xdfff then .ok (Char.ofNat (0x10000 + ((u - 0xd800) * 1024 + (u2 - 0xdc00))), r3)
              else .error .unmodelled
          | _ => .error .unmodelled
        else (chr u).map (·, r1)
    else match backslash e with
      | some c => .ok (c, r)
      | none => .error .value

/-- `scanstring` (decoder.py 69-127) after the opening quote; `n` bounds the number of characters -/
def scanString : Nat → Str → Except Err (Str × Str)
  | 0, _ => .error .diverge
  | _ + 1, [] => .error .value
  | n + 1, c :: r =>
    if c = '"' then .ok ([], r)
    else if c = '\\' then
      match scanEscape r with
      | .error e => .error e
      | .ok (ch, r1) => match scanString n r1 with
        | .error e => .error e
        | .ok (s, r2) => .ok (ch :: s, r2)
    else if c.toNat < 32 then .error .value
    else match scanString n r with
      | .error e => .error e
      | .ok (s, r2) => .ok (c :: s, r2)

/-- `-?` of `NUMBER_RE` (scanner.py 11-13) -/
def scanMinus (s : Str) : Str × Str :=
  match s with
  | '-' :: t => (['-'], t)
  | t => ([], t)

/-- `-?(?:0|[1-9]\d*)` of `NUMBER_RE` (scanner.py 11-13): the integer part and the rest -/
def scanIntPart (s : Str) : Option (Str × Str) :=
  match (scanMinus s).2 with
  | c :: r =>
    if c = '0' then some ((scanMinus s).1 ++ ['0'], r)
    else if '1' ≤ c ∧ c ≤ '9' then some ((scanMinus s).1 ++ c :: r.takeWhile isDig, r.dropWhile isDig)
    else none
  | [] => none

/-- `(\.\d+)?` -/
def scanFrac (s : Str) : Str × Str :=
  match s with
  | '.' :: r => if r.takeWhile isDig = [] then ([], s) else ('.' :: r.takeWhile isDig, r.dropWhile isDig)
  | _ => ([], s)

/-- `[-+]?` -/
def scanSign (s : Str) : Str × Str :=
  match s with
  | '+' :: t => (['+'], t)
  | '-' :: t => (['-'], t)
  | t => ([], t)

/-- `([eE][-+]?\d+)?` -/
def scanExp (s : Str) : Str × Str :=
  match s with
  | c :: r =>
    if c = 'e' ∨ c = 'E' then
      let t := (scanSign r).2
      if t.takeWhile isDig = [] then ([], s) else (c :: ((scanSign r).1 ++ t.takeWhile isDig), t.dropWhile isDig)
    else ([], s)
  | [] => ([], s)

/-- the constants and numbers of `_scan_once` (scanner.py 41-62) -/
def scanAtom (s : Str) : Except Err (JVal F × Str) :=
  match dropPrefix? s s!!"null" with
  | some r => .ok (.null, r)
  | none => match dropPrefix? s s!!"true" with
    | some r => .ok (.bool true, r)
    | none => match dropPrefix? s s!!"false" with
      | some r => .ok (.bool false, r)
      | none => match scanIntPart s with
        | some (ip, r) =>
          let (frac, r) := scanFrac r
          let (exp, r) := scanExp r
          if frac ≠ [] ∨ exp ≠ [] then
            match PyRt.fparse (ip ++ frac ++ exp) with
            | some f => .ok (.flt f, r)
            | none => .error .value
          else match pyInt F ip with
            | some i => .ok (.int i, r)
            | none => .error .value
        | none => match dropPrefix? s s!!"NaN" with
          | some r => .ok (.flt JsonRt.fnan, r)
          | none => match dropPrefix? s s!!"Infinity" with
            | some r => .ok (.flt JsonRt.finf, r)
            | none => match dropPrefix? s s!!"-Infinity" with
              | some r => .ok (.flt JsonRt.fninf, r)
              | none => .error .value

/-- `dict(pairs)` (decoder.py 212): the last value of a key at the place of the first -/
def ofPairs (l : List (Str × JVal F)) : Dict (JVal F) := l.foldl (fun d p => Dict.set d p.1 p.2) []

mutual
/-- `_scan_once` (scanner.py 28-62); `n` bounds the number of calls -/
def scan : Nat → Str → Except Err (JVal F × Str)
  | 0, _ => .error .diverge
  | _ + 1, [] => .error .value
  | n + 1, c :: r =>
    if c = '"' then match scanString (r.length + 1) r with
      | .error e => .error e
      | .ok (s, r) => .ok (.str s, r)
    else if c = '{' then match skipWs r with
      | '}' :: r => .ok (.dict [], r)
      | '"' :: r => match scanMembers n r with
        | .error e => .error e
        | .ok (l, r) => .ok (.dict (ofPairs l), r)
      | _ => .error .value
    else if c = '[' then match skipWs r with
      | ']' :: r => .ok (.list [], r)
      | r => match scanItems n r with
        | .error e => .error e
        | .ok (l, r) => .ok (.list l, r)
    else scanAtom (c :: r)
/-- the loop of `JSONArray` (decoder.py 217-253) -/
def scanItems : Nat → Str → Except Err (List (JVal F) × Str)
  | 0, _ => .error .diverge
  | n + 1, s => match scan n s with
    | .error e => .error e
    | .ok (v, r) => match skipWs r with
      | ']' :: r => .ok ([v], r)
      | ',' :: r => match scanItems n (skipWs r) with
        | .error e => .error e
        | .ok (l, r) => .ok (v :: l, r)
      | _ => .error .value
/-- the loop of `JSONObject` (decoder.py 136-215), after the quote that opens a key -/
def scanMembers : Nat → Str → Except Err (List (Str × JVal F) × Str)
  | 0, _ => .error .diverge
  | n + 1, s => match scanString (s.length + 1) s with
    | .error e => .error e
    | .ok (k, r) => match skipWs r with
      | ':' :: r => match scan n (skipWs r) with
        | .error e => .error e
        | .ok (v, r) => match skipWs r with
          | '}' :: r => .ok ([(k, v)], r)
          | ',' :: r => match skipWs r with
            | '"' :: r => match scanMembers n r with
              | .error e => .error e
              | .ok (l, r) => .ok ((k, v) :: l, r)
            | _ => .error .value
          | _ => .error .value
      | _ => .error .value
end

/-- `json.load` (json/__init__.py 274-300, 333-338; `JSONDecoder.decode`, decoder.py 332-364): a text that starts with a byte order mark is
rejected; blanks around the value are skipped, anything else after it is an error.  JSONDecodeError is a ValueError. -/
def decode (s : Str) : Except Err (JVal F) :=
  match s with
  | c :: r =>
    if c.toNat = 0xfeff then .error .value
    else match scan (2 * (c :: r).length + 2) (skipWs (c :: r)) with
      | .error e => .error e
      | .ok (v, r) => if skipWs r = [] then .ok v else .error .value
  | [] => .error .value

end JsonText
end Spine
