import Verif.Model.Py
/- Model of `spine_json_lib/utils.py`. -/
namespace Spine
namespace Tags
variable (F : Type) [PyRt F]

/-- `[\w0-9-]` (utils.py 15) -/
def nameChar (c : Char) : Bool := PyRt.isWord F c || (decide ('0' ≤ c) && decide (c ≤ '9')) || c == '-'
/-- `[\w0-9.\s]` (utils.py 15) -/
def valChar (c : Char) : Bool :=
  PyRt.isWord F c || (decide ('0' ≤ c) && decide (c ≤ '9')) || c == '.' || PyRt.isSpace F c

/-- `tag_detector` matched at the beginning of `s`: matched text and rest (utils.py 15).
The regular expression is deterministic because blanks, name characters and `:` are disjoint, so that the greedy
scan below is the only way to match (proved against the declarative grammar in Props/Tags.lean). -/
def matchTag (s : Str) : Option (Str × Str) :=
  match s with
  | '[' :: r =>
    let sp1 := r.takeWhile (PyRt.isSpace F)
    let r1 := r.dropWhile (PyRt.isSpace F)
    let nm := r1.takeWhile (nameChar F)
    let r2 := r1.dropWhile (nameChar F)
    let sp2 := r2.takeWhile (PyRt.isSpace F)
    let r3 := r2.dropWhile (PyRt.isSpace F)
    if nm = [] then none
    else match r3 with
      | ':' :: r4 =>
        let v := r4.takeWhile (valChar F)
        let r5 := r4.dropWhile (valChar F)
        if v = [] then none
        else match r5 with
          | ']' :: rest => some (['['] ++ sp1 ++ nm ++ sp2 ++ [':'] ++ v ++ [']'], rest)
          | _ => none
      | _ => none
  | _ => none

/-- `tag_detector.findall(name)` (utils.py 50): left to right, non-overlapping.
`fuel` = number of characters left is enough: each step consumes at least one. -/
def findallAux : Nat → Str → List Str
  | 0, _ => []
  | _ + 1, [] => []
  | n + 1, c :: s =>
    match matchTag F (c :: s) with
    | some (t, rest) => t :: findallAux n rest
    | none => findallAux n s

def findall (s : Str) : List Str := findallAux F s.length s

/-- `float(value)` raising ValueError (`cast_element(value, TYPE_NUMBER)`, utils.py 18-21, 45) -/
def castNumber (v : Str) : Except Err F :=
  match PyRt.fparse (F := F) v with
  | some f => .ok f
  | none => .error .value

/-- loop body of `get_tags_from_name` (utils.py 51-65); `TAGS_SUPPORTED = {"scale": number}` (10-13) -/
def step (acc : Dict F) (tag : Str) : Except Err (Dict F) := do
  -- str(tag)[1:-1]
  let inner := tag.tail.dropLast
  match splitOn ':' inner with
  | [n, v] =>
    let n := strip F n
    let v := strip F v
    if Dict.has acc n then .error .value
    else if n ≠ s!!"scale" then .error .value
    else do
      let x ← castNumber F v
      return Dict.set acc n x
  | _ => .error .value

/-- `get_tags_from_name` (utils.py 48-67) -/
def getTags (name : Str) : Except Err (Dict F) :=
  (findall F name).foldlM (step F) []

/-- `get_scale_in_name` of `Bone` and `Slot` (bone.py 49-51, slot.py 24-26) -/
def scaleInName (name : Str) : Except Err F := do
  let t ← getTags F name
  return (Dict.get? t s!!"scale").getD PyRt.fone

end Tags
end Spine
