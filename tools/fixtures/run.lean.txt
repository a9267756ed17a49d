import Verif.Model.Editor
import Verif.Spec.Concrete
import Verif.Lemmas.SampleRan
open Spine
abbrev J := JVal Rat
instance : Inhabited J := ⟨.null⟩
def unesc : List Char → List Char
  | '\\' :: 'n' :: r => '\n' :: unesc r
  | '\\' :: '\\' :: r => '\\' :: unesc r
  | c :: r => c :: unesc r
  | [] => []
partial def go (a : Array String) (i : Nat) : J × Nat := Id.run do
  let l := a[i]!
  let r := (l.drop 1).toString
  match l.front with
  | 'n' => return (.null, i+1)
  | 't' => return (.bool true, i+1)
  | 'f' => return (.bool false, i+1)
  | 'i' => return (.int r.toInt!, i+1)
  | 'r' =>
    let p := r.splitOn "/"
    return (.flt (mkRat (p[0]!).toInt! (p[1]!).toNat!), i+1)
  | 's' => return (.str (unesc r.toList), i+1)
  | 'l' =>
    let mut j := i+1
    let mut out := #[]
    for _ in [0:r.toNat!] do
      let (v, k) := go a j
      out := out.push v
      j := k
    return (.list out.toList, j)
  | _ =>
    let mut j := i+1
    let mut out := #[]
    for _ in [0:r.toNat!] do
      let (v, k) := go a (j+1)
      out := out.push (unesc ((a[j]!).drop 1).toString.toList, v)
      j := k
    return (.dict out.toList, j)
def rd (p : String) : IO J := do
  let t ← IO.FS.readFile p
  return (go (t.splitOn "\n").toArray 0).1
def esc (s : Str) : String := ((String.ofList s).replace "\\" "\\\\").replace "\n" "\\n"
partial def wr (v : J) (out : Array String) : Array String :=
  match v with
  | .null => out.push "n"
  | .bool b => out.push (if b then "t" else "f")
  | .int i => out.push s!"i{i}"
  | .flt q => out.push s!"r{q.num}/{q.den}"
  | .str s => out.push ("s" ++ esc s)
  | .list l => l.foldl (fun o x => wr x o) (out.push s!"l{l.length}")
  | .dict d => d.foldl (fun o p => wr p.2 (o.push ("s" ++ esc p.1))) (out.push s!"d{d.length}")
def save (p : String) (v : J) : IO Unit := IO.FS.writeFile p ("\n".intercalate (wr v #[]).toList ++ "\n")
def imgs (e : Editor Rat) : J := .dict (e.images.map (fun p => (p.1, .dict ((s!!"path", .str p.2.path) :: (match p.2.scale with | none => [] | some q => [(s!!"scale", .flt q)])))))
def lst (l : List Str) : J := .list (l.map .str)
def nm (l : List String) : List Str := l.map String.toList
def main : IO Unit := do
  let o ← rd "/tmp/fixtures/original.txt"
  match Editor.load o with
  | .error e => IO.println s!"original: {repr e}"
  | .ok e => save "/tmp/fixtures/out_original" e.toJson; save "/tmp/fixtures/out_original_img" (imgs e)
  let ex ← rd "/tmp/fixtures/example.txt"
  match SpineNodes.create ex with
  | .error e => IO.println s!"example: {repr e}"
  | .ok g => match SpineNodes.toJsonData g with
    | .error e => IO.println s!"example2: {repr e}"
    | .ok j => save "/tmp/fixtures/out_example" (.dict [(s!!"bones", .list j.bones), (s!!"slots", .list j.slots), (s!!"ik", .list j.ik)])
  let m ← rd "/tmp/fixtures/masq.txt"
  match Editor.load m with
  | .error e => IO.println s!"masq: {repr e}"
  | .ok e =>
    save "/tmp/fixtures/out_masq_load" e.toJson
    let q := Editor.eraseSkins (nm ["basic"]) false e
    match q.1 with
    | .error e => IO.println s!"masq erase: {repr e}"
    | .ok ((s, a), g) => save "/tmp/fixtures/out_masq" (.list [lst s, lst a, .list (g.map (fun | none => .null | some i => .str i)), imgs q.2, q.2.toJson])
  -- test_missing_required_offsets_attr
  let off : J → J := fun | .dict d => .dict (Dict.del d s!!"offset") | v => v
  let first (f : J → J) : J → J := fun | .list (x :: r) => .list (f x :: r) | v => v
  let key (k : Str) (f : J → J) : J → J := fun | .dict d => .dict (Dict.modify d k f) | v => v
  let bad := key s!!"animations" (key s!!"special1" (key s!!"drawOrder" (first (key s!!"offsets" (first off))))) m
  match Editor.load bad with
  | .error (.missingRequired l) => IO.FS.writeFile "/tmp/fixtures/out_missing" (",".intercalate (l.map String.ofList))
  | _ => IO.FS.writeFile "/tmp/fixtures/out_missing" "-"
  let m ← rd "/tmp/fixtures/elvira.txt"
  match Editor.load m with
  | .error e => IO.println s!"elvira: {repr e}"
  | .ok e =>
    save "/tmp/fixtures/out_elvira_load" e.toJson
    let q := Editor.eraseAnims (.list (nm ["attack", "special1", "levelup", "prone"])) true false e
    match q.1 with
    | .error e => IO.println s!"elvira erase: {repr e}"
    | .ok (j, (s, a)) => save "/tmp/fixtures/out_elvira" (.list [j, imgs q.2, lst s, lst a])
  for p in ["original", "elvira", "masq"] do
    let m ← rd s!"/tmp/fixtures/{p}.txt"
    IO.println s!"{p}: hypotheses of the history theorems (Ran): {Sample.good m}"
