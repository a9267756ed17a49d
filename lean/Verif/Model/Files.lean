import Verif.Model.Editor
import Verif.Model.JsonText
/-
Model of the file functions of `SpineAnimationEditor`: `from_json_file` (spine_animation_editor.py 59-64), `to_json` (219-225),
`save_images_json` (255-261), and of the functions of the standard library they call: `os.path.dirname`, `os.path.isdir`,
`os.makedirs`, `open` (posixpath.py, os.py).

Simplifications
* POSIX; the file system is a tree of directories and files without links, and everything is readable and writable;
* a file holds a sequence of characters (Model/JsonText.lean); how `open` turns them into bytes and back, and its line ends, are in Model/Bytes.lean;
* the exceptions are FileExistsError, which `os.makedirs` handles, and the other subclasses of OSError together.
-/
namespace Spine
namespace Files

/-- an entry of the file system -/
inductive Node where
  | dir
  | file (text : Str)

/-- The file system and the working directory.  A place is the list of the names on the way to it, the last one first. -/
structure FS where
  node : List Str → Option Node
  cwd : List Str

/-- FileExistsError, or another OSError -/
inductive OSErr where
  | exists
  | other
  deriving DecidableEq

def Node.isDir : Option Node → Bool
  | some .dir => true
  | _ => false

/-! ### Path names (posixpath.py) -/

/-- `p.rstrip("/")` -/
def rstripSlash (p : Str) : Str := (p.reverse.dropWhile (· = '/')).reverse

/-- `p[:p.rfind("/") + 1]` -/
def upToSlash (p : Str) : Str := (p.reverse.dropWhile (· ≠ '/')).reverse

/-- `os.path.split(p)[1]` -/
def tail (p : Str) : Str := (p.reverse.takeWhile (· ≠ '/')).reverse

/-- `os.path.dirname(p)`, the same as `os.path.split(p)[0]`: trailing slashes are removed unless there is nothing else -/
def dirname (p : Str) : Str :=
  if (upToSlash p).all (· = '/') then upToSlash p else rstripSlash (upToSlash p)

/-! ### The file system -/

/-- one component of a path name -/
def step (cur : List Str) (c : Str) : List Str :=
  if c = [] ∨ c = s!!"." then cur
  else if c = s!!".." then cur.tail
  else c :: cur

namespace FS

/-- the place a list of components leads to; everything before it must be a directory -/
def walk (fs : FS) (cur : List Str) : List Str → Option (List Str)
  | [] => some cur
  | c :: cs => if Node.isDir (fs.node cur) then walk fs (step cur c) cs else none

/-- where a path name starts -/
def start (fs : FS) (p : Str) : List Str := if p.head? = some '/' then [] else fs.cwd

/-- the place of a path name; the empty name has none -/
def resolve (fs : FS) (p : Str) : Option (List Str) :=
  if p = [] then none else fs.walk (fs.start p) (splitOn '/' p)

/-- `os.path.isdir(p)` -/
def isdir (fs : FS) (p : Str) : Bool :=
  match fs.resolve p with
  | some a => Node.isDir (fs.node a)
  | none => false

/-- `os.path.exists(p)` -/
def exist (fs : FS) (p : Str) : Bool :=
  match fs.resolve p with
  | some a => (fs.node a).isSome
  | none => false

def put (fs : FS) (a : List Str) (n : Node) : FS := { fs with node := fun b => if b = a then some n else fs.node b }

/-- `os.mkdir(p)`: trailing slashes are ignored -/
def mkdir (fs : FS) (p : Str) : Except OSErr Unit × FS :=
  match fs.resolve (if p.all (· = '/') then p else rstripSlash p) with
  | none => (.error .other, fs)
  | some a => match fs.node a with
    | some _ => (.error .exists, fs)
    | none => (.ok (), fs.put a .dir)

/-- the first lines of `os.makedirs`: `path.split(name)`, and again if the tail is empty -/
def split2 (p : Str) : Str × Str := if tail p = [] then (dirname (dirname p), tail (dirname p)) else (dirname p, tail p)

/-- `os.makedirs(p)` (os.py) with `exist_ok=False`; the argument `n` bounds the depth of the recursion -/
def makedirsN (fs : FS) : Nat → Str → Except OSErr Unit × FS
  | 0, _ => (.error .other, fs)
  | n + 1, p =>
    let h := (split2 p).1
    let t := (split2 p).2
    if h ≠ [] ∧ t ≠ [] ∧ fs.exist h = false then
      match makedirsN fs n h with
      | (.error .other, fs') => (.error .other, fs')
      | (_, fs') => if t = s!!"." then (.ok (), fs') else fs'.mkdir p
    else fs.mkdir p

/-- `os.makedirs(p)`; each recursive call has a shorter path (`c58_makedirs_depth`) -/
def makedirs (fs : FS) (p : Str) : Except OSErr Unit × FS := fs.makedirsN (p.length + 1) p

/-- `open(p, "w")` followed by writing the text `t` -/
def write (fs : FS) (p : Str) (t : Str) : Except OSErr Unit × FS :=
  match fs.resolve p with
  | none => (.error .other, fs)
  | some a => match fs.node a with
    | some .dir => (.error .other, fs)
    | _ => (.ok (), fs.put a (.file t))

/-- `open(p)` followed by reading its text -/
def read (fs : FS) (p : Str) : Except Err Str :=
  match fs.resolve p with
  | none => .error .os
  | some a => match fs.node a with
    | some (.file t) => .ok t
    | _ => .error .os

/-- the common body of `to_json` (219-225) and `save_images_json` (255-261) -/
def save (fs : FS) (p : Str) (t : Str) : Except OSErr Unit × FS :=
  if fs.isdir (dirname p) then fs.write p t
  else match fs.makedirs (dirname p) with
    | (.error x, fs') => (.error x, fs')
    | (.ok (), fs') => fs'.write p t

end FS
end Files

namespace Editor
open Files
variable {F : Type} [JsonRt F]

/-- `SpineAnimationEditor.from_json_file` (59-64) -/
def fromJsonFile (fs : FS) (p : Str) : Except Err (Editor F) :=
  match fs.read p with
  | .error e => .error e
  | .ok t => match JsonText.decode t with
    | .error e => .error e
    | .ok v => load v

/-- `to_json` (219-225) -/
def toJsonFile (fs : FS) (e : Editor F) (p : Str) : Except OSErr Unit × FS := fs.save p (JsonText.encode .indent4 e.toJson)

/-- `images_references` as the JSON value that is written -/
def imagesJson (e : Editor F) : JVal F :=
  .dict (e.images.map (fun q => (q.1, .dict ((s!!"path", .str q.2.path) :: (match q.2.scale with
    | none => []
    | some s => [(s!!"scale", .flt s)])))))

/-- `save_images_json` (255-261) -/
def saveImagesJson (fs : FS) (e : Editor F) (p : Str) : Except OSErr Unit × FS := fs.save p (JsonText.encode .compact e.imagesJson)

end Editor
end Spine
