import Verif.Model.Files
/-
`json.load` and `json.dump` with the limit of Python on conversions between `int` and `str` (`sys.set_int_max_str_digits`, 4300 digits unless
set otherwise; Objects/longobject.c): `int(s)` for a literal with more than `L` digits and `int.__repr__(i)` for a number with more than `L`
digits raise ValueError.  Model/JsonText.lean and Model/Files.lean are the same functions without the limit.  The definitions follow
json/scanner.py, json/decoder.py, json/encoder.py and `to_json`, `from_json_file` (spine_animation_editor.py 59-64, 219-225).

Simplification: L = 0 stands for a limit of 0 digits, not for "no limit" as in Python; Python accepts no limit between 1 and 639, the model any.
-/
namespace Spine
namespace Digits
open JsonText
variable {F : Type} [JsonRt F]

/-! ### Reading -/

/-- the number of digits `int` counts: everything but the sign -/
def digits (s : Str) : Nat := s.countP (fun c => decide (c ≠ '-'))

/-- the constants and numbers of `_scan_once` (scanner.py 41-62) -/
def scanAtom (L : Nat) (s : Str) : Except Err (JVal F × Str) :=
  match dropPrefix? s s!!"null" with
  | some r => .ok (.null, r)
  | none => match dropPrefix? s s!!"true" with
    | some r => .ok (.bool true, r)
    | none => match dropPrefix? s s!!"false" with
      | some r => .ok (.bool false, r)
      | none => match scanIntPart s with
        | some (ip, r) =>
          let (frac, r) := scanFrac r
          let (exp, r) := scanExp r
          if frac ≠ [] ∨ exp ≠ [] then
            match PyRt.fparse (ip ++ frac ++ exp) with
            | some f => .ok (.flt f, r)
            | none => .error .value
          else if L < digits ip then .error .value
          else match pyInt F ip with
            | some i => .ok (.int i, r)
            | none => .error .value
        | none => match dropPrefix? s s!!"NaN" with
          | some r => .ok (.flt JsonRt.fnan, r)
          | none => match dropPrefix? s s!!"Infinity" with
            | some r => .ok (.flt JsonRt.finf, r)
            | none => match dropPrefix? s s!!"-Infinity" with
              | some r => .ok (.flt JsonRt.fninf, r)
              | none => .error .value

mutual
/-- `_scan_once` (scanner.py 28-62); `n` bounds the number of calls -/
def scan (L : Nat) : Nat → Str → Except Err (JVal F × Str)
  | 0, _ => .error .diverge
  | _ + 1, [] => .error .value
  | n + 1, c :: r =>
    if c = '"' then match scanString (r.length + 1) r with
      | .error e => .error e
      | .ok (s, r) => .ok (.str s, r)
    else if c = '{' then match skipWs r with
      | '}' :: r => .ok (.dict [], r)
      | '"' :: r => match scanMembers L n r with
        | .error e => .error e
        | .ok (l, r) => .ok (.dict (ofPairs l), r)
      | _ => .error .value
    else if c = '[' then match skipWs r with
      | ']' :: r => .ok (.list [], r)
      | r => match scanItems L n r with
        | .error e => .error e
        | .ok (l, r) => .ok (.list l, r)
    else scanAtom L (c :: r)
/-- the loop of `JSONArray` (decoder.py 217-253) -/
def scanItems (L : Nat) : Nat → Str → Except Err (List (JVal F) × Str)
  | 0, _ => .error .diverge
  | n + 1, s => match scan L n s with
    | .error e => .error e
    | .ok (v, r) => match skipWs r with
      | ']' :: r => .ok ([v], r)
      | ',' :: r => match scanItems L n (skipWs r) with
        | .error e => .error e
        | .ok (l, r) => .ok (v :: l, r)
      | _ => .error .value
/-- the loop of `JSONObject` (decoder.py 136-215), after the quote that opens a key -/
def scanMembers (L : Nat) : Nat → Str → Except Err (List (Str × JVal F) × Str)
  | 0, _ => .error .diverge
  | n + 1, s => match scanString (s.length + 1) s with
    | .error e => .error e
    | .ok (k, r) => match skipWs r with
      | ':' :: r => match scan L n (skipWs r) with
        | .error e => .error e
        | .ok (v, r) => match skipWs r with
          | '}' :: r => .ok ([(k, v)], r)
          | ',' :: r => match skipWs r with
            | '"' :: r => match scanMembers L n r with
              | .error e => .error e
              | .ok (l, r) => .ok ((k, v) :: l, r)
            | _ => .error .value
          | _ => .error .value
      | _ => .error .value
end

/-- `json.load` (json/__init__.py 274-300, 333-338; `JSONDecoder.decode`, decoder.py 332-364): a text that starts with a byte order mark is
rejected; blanks around the value are skipped, anything else after it is an error.  JSONDecodeError is a ValueError. -/
def decode (L : Nat) (s : Str) : Except Err (JVal F) :=
  match s with
  | c :: r =>
    if c.toNat = 0xfeff then .error .value
    else match scan L (2 * (c :: r).length + 2) (skipWs (c :: r)) with
      | .error e => .error e
      | .ok (v, r) => if skipWs r = [] then .ok v else .error .value
  | [] => .error .value

/-! ### Writing: the text, or the part of it that was written before the exception -/

/-- one chunk after the other: what follows a failed one is not written -/
def andThen : Except Str Str → Except Str Str → Except Str Str
  | .error s, _ => .error s
  | .ok s, .ok t => .ok (s ++ t)
  | .ok s, .error t => .error (s ++ t)

/-- an item of a list with the text `buf` before it (encoder.py 300-326): `buf` is in the same chunk as an integer, so it is lost with it, but a
chunk of its own before a list or a dictionary -/
def item (buf : Str) (v : JVal F) (t : Except Str Str) : Except Str Str :=
  match v, t with
  | .int _, .error _ => .error []
  | _, t => andThen (.ok buf) t

mutual
/-- `_iterencode` (414-442) and the same branches in the loops over lists and dictionaries -/
def putAt (L : Nat) (l : Layout) (level : Nat) : JVal F → Except Str Str
  | .null => .ok s!!"null"
  | .bool true => .ok s!!"true"
  | .bool false => .ok s!!"false"
  | .int i => if L < digits (encodeInt i) then .error [] else .ok (encodeInt i)
  | .flt f => .ok (encodeFloat f)
  | .str s => .ok (encodeStr s)
  | .list [] => .ok s!!"[]"
  | .list (v :: r) =>
    andThen (item ('[' :: l.newline (level + 1)) v (putAt L l (level + 1) v)) (andThen (putMore L l (level + 1) r) (.ok (l.newline level ++ [']'])))
  | .dict [] => .ok s!!"{}"
  | .dict ((k, v) :: r) =>
    andThen (.ok ('{' :: (l.newline (level + 1) ++ encodeStr k ++ s!!": ")))
      (andThen (putAt L l (level + 1) v) (andThen (putMembers L l (level + 1) r) (.ok (l.newline level ++ ['}']))))
/-- the loop of `_iterencode_list` (278-332) after the first item -/
def putMore (L : Nat) (l : Layout) (level : Nat) : List (JVal F) → Except Str Str
  | [] => .ok []
  | v :: r => andThen (item (l.separator level) v (putAt L l level v)) (putMore L l level r)
/-- the loop of `_iterencode_dict` (334-412) after the first item -/
def putMembers (L : Nat) (l : Layout) (level : Nat) : List (Str × JVal F) → Except Str Str
  | [] => .ok []
  | (k, v) :: r => andThen (.ok (l.separator level ++ encodeStr k ++ s!!": ")) (andThen (putAt L l level v) (putMembers L l level r))
end

/-- `json.dump(v, f, indent=4)` or `json.dump(v, f)` (json/__init__.py 179-180: each chunk is written as it comes) -/
def put (L : Nat) (l : Layout) (v : JVal F) : Except Str Str := putAt L l 0 v

/-- the exceptions of `to_json` -/
inductive SaveErr where
  | os (x : Files.OSErr)
  | value
  deriving DecidableEq

open Files in
/-- `to_json` (219-225): the file is opened for writing, and so emptied, before the first chunk is made; closing it keeps what was written -/
def toJsonFile (L : Nat) (fs : FS) (e : Editor F) (p : Str) : Except SaveErr Unit × FS :=
  match put L .indent4 e.toJson with
  | .ok t => match fs.save p t with
    | (.ok (), fs') => (.ok (), fs')
    | (.error x, fs') => (.error (.os x), fs')
  | .error t => match fs.save p t with
    | (.ok (), fs') => (.error .value, fs')
    | (.error x, fs') => (.error (.os x), fs')

/-- `SpineAnimationEditor.from_json_file` (59-64) -/
def fromJsonFile (L : Nat) (fs : Files.FS) (p : Str) : Except Err (Editor F) :=
  match fs.read p with
  | .error e => .error e
  | .ok t => match decode L t with
    | .error e => .error e
    | .ok v => Editor.load v

end Digits
end Spine
