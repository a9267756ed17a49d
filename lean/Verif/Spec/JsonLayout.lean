import Verif.Model.Py
/-
The layout of an indented JSON text, as a check of the text alone: outside of strings, a comma ends a line, an opening bracket ends a line
unless it is closed at once, and a line begins with four blanks for every bracket that is open there.
-/
namespace Spine.JsonSpec

def isOpen (c : Char) : Bool := c = '[' || c = '{'
def isClose (c : Char) : Bool := c = ']' || c = '}'

/-- the start of a line within `d` brackets: the first character that is not a blank must come after four blanks for every bracket, not
counting the one it closes -/
def lineStart (d : Nat) (s : Str) : Bool :=
  match s.dropWhile (· = ' ') with
  | [] => false
  | c :: _ => (s.takeWhile (· = ' ')).length = 4 * (if isClose c then d - 1 else d)

/-- what must follow a character -/
def follows (d : Nat) (c : Char) (r : Str) : Bool :=
  if c = '\n' then lineStart d r
  else if c = ',' then r.head? = some '\n'
  else if isOpen c then r.head? = some '\n' || (r.head?.map isClose).getD false
  else true

mutual
/-- the rest of a text, after `d` open brackets -/
def laid (d : Nat) : Str → Bool
  | [] => d = 0
  | c :: r =>
    if c = '"' then laidIn d r
    else follows d c r && laid (if isOpen c then d + 1 else if isClose c then d - 1 else d) r
/-- the same, from within a string -/
def laidIn (d : Nat) : Str → Bool
  | [] => false
  | [c] => if c = '"' then d = 0 else false
  | c :: e :: r => if c = '\\' then laidIn d r else if c = '"' then laid d (e :: r) else laidIn d (e :: r)
end

end Spine.JsonSpec
