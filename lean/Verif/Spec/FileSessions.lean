import Verif.Model.Files
import Verif.Spec.Files
import Verif.Spec.Sessions
/-
C89: sessions that each open a file, make calls and save the document under the same name.
-/
namespace Spine
namespace Sessions
open Files
variable {F : Type} [JsonRt F]

/-- an exception of the library or of the file system -/
inductive Fault where
  | lib (e : Err)
  | os (e : OSErr)
  deriving DecidableEq

/-- `from_json_file`, the calls, `to_json` -/
def session (p : Str) (l : List Call) (fs : FS) : Except Fault (List (Out F)) × FS :=
  match Editor.fromJsonFile fs p with
  | .error x => (.error (.lib x), fs)
  | .ok (e : Editor F) => match runAll l e with
    | (.error x, _) => (.error (.lib x), fs)
    | (.ok os, e) => match Editor.toJsonFile fs e p with
      | (.error x, fs) => (.error (.os x), fs)
      | (.ok (), fs) => (.ok os, fs)

/-- one session after the other, up to the first exception -/
def onFile (p : Str) : List (List Call) → FS → Except Fault (List (Out F)) × FS
  | [], fs => (.ok [], fs)
  | l :: ls, fs => match session p l fs with
    | (.error x, fs) => (.error x, fs)
    | (.ok os, fs) => match onFile p ls fs with
      | (.error x, fs) => (.error x, fs)
      | (.ok os', fs) => (.ok (os ++ os'), fs)

/-- a name under which a file can be saved (C58): it never goes up, has a directory part, ends in a name, nothing above it is a
file and it is not a directory -/
structure Writable (fs : FS) (p : Str) : Prop where
  wf : WF fs
  plain : Plain p
  slash : '/' ∈ p
  named : Files.tail p ≠ []
  dot : Files.tail p ≠ s!!"."
  above : NoFile fs (place fs (Files.dirname p))
  notDir : fs.node (place fs p) ≠ some .dir

end Sessions
end Spine
