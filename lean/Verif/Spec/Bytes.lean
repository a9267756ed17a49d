import Verif.Model.Bytes
/- What C98 says about platforms and line ends. -/
namespace Spine.BytesSpec
open Bytes

/-- ASCII characters -/
def Ascii (s : Str) : Prop := ∀ c ∈ s, c.toNat < 128

/-- encodings in which ASCII characters are the bytes below 128, like UTF-8, Latin-1 and the code pages of Windows, and unlike UTF-16 -/
structure OverAscii (c : Codec) : Prop where
  enc : ∀ s, Ascii s → c.enc s = some (s.map Char.toNat)
  dec : ∀ s, Ascii s → c.dec (s.map Char.toNat) = some s

/-- the platforms of today -/
structure Usual (P : Platform) : Prop where
  codec : OverAscii P.codec
  linesep : P.linesep = ['\n'] ∨ P.linesep = ['\r', '\n']

/-- `Eol s t`: `t` is `s` with every line end, of one or two characters, written as a line feed -/
inductive Eol : Str → Str → Prop
  | nil : Eol [] []
  | keep {c s t} : c ≠ '\r' → Eol s t → Eol (c :: s) (c :: t)
  | cr {s t} : Eol s t → Eol ('\r' :: s) ('\n' :: t)
  | crlf {s t} : Eol s t → Eol ('\r' :: '\n' :: s) ('\n' :: t)

/-- two files of ASCII characters that differ in their line ends only -/
def SameText (b b' : List Nat) : Prop :=
  ∃ s t u, Ascii s ∧ Ascii t ∧ Eol s u ∧ Eol t u ∧ b = s.map Char.toNat ∧ b' = t.map Char.toNat

variable {F : Type} [JsonRt F]

/-- open the file, make the calls (each may raise an exception, which is caught), save the document -/
def session (P : Platform) (ops : List (Editor.Op F)) (b : List Nat) : Except Err (List Nat) :=
  match fromJson (F := F) P b with
  | .error x => .error x
  | .ok e => toJson P (ops.foldl (fun e o => (o.run e).2) e)

/-- sessions on one file, which is carried from platform to platform -/
def sessions : List (Platform × List (Editor.Op F)) → List Nat → Except Err (List Nat)
  | [], b => .ok b
  | (P, ops) :: l, b => match session P ops b with
    | .error x => .error x
    | .ok b' => sessions l b'

end Spine.BytesSpec
