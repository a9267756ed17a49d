import Verif.Model.JsonText
/-
Model of the strings of JSON files with lone surrogates, which `Model/JsonText.lean` leaves out: a Python string is a list of code points
that may be surrogates.  After `scanstring` and `encode_basestring_ascii` of json/decoder.py and json/encoder.py (3.12), as used by
`json.load` and `json.dump` in spine_animation_editor.py 62, 225, 261.  Line numbers below are those of these files.

Simplifications
* strings only: the syntax around them is that of `Model/JsonText.lean`;
* the text of a file has no surrogates: `open` decodes UTF-8 and the encodings of one byte strictly (`Model/Bytes.lean`);
* a high surrogate before `\u` at the very end of the text: the C implementation goes on to the error of the next escape, here the error
  is raised at once; it is the same ValueError.
-/
namespace Spine
namespace Surrogates

/-- a Python string, by code points -/
abbrev PStr := List Nat

/-- one code point of `py_encode_basestring_ascii` (encoder.py 53-67) -/
def encodeCP (c : Nat) : Str :=
  if c = 92 then ['\\', '\\']
  else if c = 34 then ['\\', '"']
  else if c = 8 then ['\\', 'b']
  else if c = 12 then ['\\', 'f']
  else if c = 10 then ['\\', 'n']
  else if c = 13 then ['\\', 'r']
  else if c = 9 then ['\\', 't']
  else if 32 ≤ c ∧ c ≤ 126 then [Char.ofNat c]
  else if c < 0x10000 then JsonText.uEscape c
  else JsonText.uEscape (0xd800 + (c - 0x10000) / 1024 % 1024) ++ JsonText.uEscape (0xdc00 + (c - 0x10000) % 1024)

/-- the text between the quotes -/
def body (s : PStr) : Str := (s.map encodeCP).flatten

/-- `encode_basestring_ascii` (encoder.py 49-68) -/
def write (s : PStr) : Str := '"' :: (body s ++ ['"'])

/-- an escape after the backslash (decoder.py 103-124) -/
def scanEscape : Str → Except Err (Nat × Str)
  | [] => .error .value
  | e :: r =>
    if e = 'u' then
      match JsonText.hex4 r with
      | none => .error .value
      | some (u, r1) =>
        if 0xd800 ≤ u ∧ u ≤ 0xdbff then
          match r1 with
          | '\\' :: 'u' :: r2 => match JsonText.hex4 r2 with
            | none => .error .value
            | some (u2, r3) =>
              if 0xdc00 ≤ u2 ∧ u2 ≤ 0xdfff then .ok (0x10000 + ((u - 0xd800) * 1024 + (u2 - 0xdc00)), r3)
              else .ok (u, r1)
          | _ => .ok (u, r1)
        else .ok (u, r1)
    else match JsonText.backslash e with
      | some c => .ok (c.toNat, r)
      | none => .error .value

/-- `scanstring` (decoder.py 69-127) after the opening quote; `n` bounds the number of characters -/
def scan : Nat → Str → Except Err (PStr × Str)
  | 0, _ => .error .diverge
  | _ + 1, [] => .error .value
  | n + 1, c :: r =>
    if c = '"' then .ok ([], r)
    else if c = '\\' then
      match scanEscape r with
      | .error e => .error e
      | .ok (ch, r1) => match scan n r1 with
        | .error e => .error e
        | .ok (s, r2) => .ok (ch :: s, r2)
    else if c.toNat < 32 then .error .value
    else match scan n r with
      | .error e => .error e
      | .ok (s, r2) => .ok (c.toNat :: s, r2)

/-- a string at the beginning of a text, and the rest: `'"'` of `scan_once` (scanner.py 29-32) -/
def read : Str → Except Err (PStr × Str)
  | '"' :: r => scan (r.length + 1) r
  | _ => .error .value

end Surrogates
end Spine
