import Verif.Model.Files
/-
Files as sequences of bytes: what `open(p)` and `open(p, "w")` do between the bytes of a file and the text that `json.load` and `json.dump`
see (io.TextIOWrapper of Python 3.12 with `encoding=None`, `newline=None`, as in `from_json_file`, `to_json` and `save_images_json`,
spine_animation_editor.py 59-64, 219-225, 255-261).  Neither call names an encoding, so the one of the platform is used.

Simplification: an encoding is a pair of functions on whole texts; the file system is the one of Model/Files.lean and is left out here.
-/
namespace Spine
namespace Bytes
open JsonText
variable {F : Type} [JsonRt F]

/-- an encoding; `none` is UnicodeEncodeError or UnicodeDecodeError, both subclasses of ValueError -/
structure Codec where
  enc : Str → Option (List Nat)
  dec : List Nat → Option Str

/-- what differs between platforms: `locale.getencoding()` and `os.linesep` -/
structure Platform where
  codec : Codec
  linesep : Str

/-- reading with `newline=None`: `\r\n` and `\r` become `\n` -/
def univ : Str → Str
  | [] => []
  | c :: s =>
    if c = '\r' then match s with
      | '\n' :: t => '\n' :: univ t
      | s => '\n' :: univ s
    else c :: univ s

/-- writing with `newline=None`: `\n` becomes `os.linesep` -/
def lines (sep : Str) (s : Str) : Str := s.flatMap (fun c => if c = '\n' then sep else [c])

/-- `f.write(t)` for a file opened with `open(p, "w")` -/
def toBytes (P : Platform) (t : Str) : Except Err (List Nat) :=
  match P.codec.enc (lines P.linesep t) with
  | some b => .ok b
  | none => .error .value

/-- `f.read()` for a file opened with `open(p)` -/
def ofBytes (P : Platform) (b : List Nat) : Except Err Str :=
  match P.codec.dec b with
  | some t => .ok (univ t)
  | none => .error .value

/-- the bytes that `to_json` (219-225) writes -/
def toJson (P : Platform) (e : Editor F) : Except Err (List Nat) := toBytes P (encode .indent4 e.toJson)

/-- `from_json_file` (59-64) for a file with these bytes -/
def fromJson (P : Platform) (b : List Nat) : Except Err (Editor F) :=
  match ofBytes P b with
  | .error x => .error x
  | .ok t => match decode t with
    | .error x => .error x
    | .ok v => Editor.load v

/-! ### Two encodings -/

/-- `all` of the results, or none -/
def collect {α β : Type} (f : α → Option β) : List α → Option (List β)
  | [] => some []
  | a :: l => match f a, collect f l with
    | some b, some m => some (b :: m)
    | _, _ => none

/-- ISO 8859-1: the bytes are the numbers of the characters below 256 -/
def latin1 : Codec where
  enc := collect (fun c => if c.toNat < 256 then some c.toNat else none)
  dec := collect (fun n => if n < 256 then some (Char.ofNat n) else none)

/-- the bytes of a character in UTF-8 -/
def utf8Char (c : Char) : List Nat :=
  let n := c.toNat
  if n < 128 then [n]
  else if n < 2048 then [192 + n / 64, 128 + n % 64]
  else if n < 65536 then [224 + n / 4096, 128 + n / 64 % 64, 128 + n % 64]
  else [240 + n / 262144, 128 + n / 4096 % 64, 128 + n / 64 % 64, 128 + n % 64]

/-- a continuation byte -/
def cont (n : Nat) : Bool := 128 ≤ n && n < 192

/-- decoding of UTF-8 with `errors="strict"`: no overlong forms, no surrogates, nothing beyond U+10FFFF -/
def utf8Dec : List Nat → Option Str
  | [] => some []
  | a :: l =>
    if a < 128 then (utf8Dec l).map (Char.ofNat a :: ·)
    else match l with
    | b :: l =>
      if 194 ≤ a && a < 224 && cont b then (utf8Dec l).map (Char.ofNat ((a - 192) * 64 + (b - 128)) :: ·)
      else match l with
      | c :: l =>
        let n := (a - 224) * 4096 + (b - 128) * 64 + (c - 128)
        if 224 ≤ a && a < 240 && cont b && cont c && 2048 ≤ n && !(55296 ≤ n && n < 57344) then (utf8Dec l).map (Char.ofNat n :: ·)
        else match l with
        | d :: l =>
          let n := (a - 240) * 262144 + (b - 128) * 4096 + (c - 128) * 64 + (d - 128)
          if 240 ≤ a && a < 245 && cont b && cont c && cont d && 65536 ≤ n && n < 1114112 then (utf8Dec l).map (Char.ofNat n :: ·) else none
        | [] => none
      | [] => none
    | [] => none

def utf8 : Codec where
  enc s := some (s.flatMap utf8Char)
  dec := utf8Dec

/-- Linux -/
def linux : Platform := ⟨utf8, ['\n']⟩

/-- Windows in western Europe, with ISO 8859-1 for the code page 1252, which differs from it in the bytes 128 to 159 -/
def windows : Platform := ⟨latin1, ['\r', '\n']⟩

end Bytes
end Spine
