import Verif.Model.Files
/-
Path names and the file system, without following the standard library's algorithms.
-/
namespace Spine.Files
/-- the names on a path: no empty components and no dots -/
def names (p : Str) : List Str := (splitOn '/' p).filter (fun c => c ≠ [] ∧ c ≠ s!!".")

/-- a path that never goes up -/
def Plain (p : Str) : Prop := s!!".." ∉ names p

/-- the place of a plain path name, the last name first -/
def place (fs : FS) (p : Str) : List Str := (names p).reverse ++ fs.start p

/-- a file system: the root and the working directory are directories, and everything lies in a directory -/
structure WF (fs : FS) : Prop where
  root : fs.node [] = some .dir
  cwd : fs.node fs.cwd = some .dir
  up : ∀ n a, fs.node (n :: a) ≠ none → fs.node a = some .dir

def IsFile : Option Node → Prop
  | some (.file _) => True
  | _ => False

/-- neither `a` nor anything above it is a file -/
def NoFile (fs : FS) (a : List Str) : Prop := ∀ b, b <:+ a → ¬ IsFile (fs.node b)

/-- the file system with the missing directories down to `a` -/
def grown (fs : FS) (a : List Str) : FS :=
  { fs with node := fun b => match fs.node b with
      | some n => some n
      | none => if b <:+ a then some .dir else none }

end Spine.Files
