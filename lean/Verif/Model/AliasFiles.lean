import Verif.Model.Alias
import Verif.Model.Files
/-
Model of reading and writing files on the heap: `from_json_file` (spine_animation_editor.py 59-64) builds the objects of the
document and opens an editor for them, `to_json` (219-225) writes what `to_json_data` returns.
-/
namespace Spine
namespace Alias
open Files
variable {F : Type}

mutual
/-- the objects that `json.load` makes of a value it has read (json/decoder.py `JSONObject`, `JSONArray`): a new object for every
list and every dictionary, those inside before those around them -/
def put : JVal F → Heap F → Ref F × Heap F
  | .null, h => (.null, h)
  | .bool b, h => (.bool b, h)
  | .int i, h => (.int i, h)
  | .flt x, h => (.flt x, h)
  | .str s, h => (.str s, h)
  | .list l, h => (.ptr (putL l h).2.length, (putL l h).2 ++ [.list (putL l h).1])
  | .dict d, h => (.ptr (putD d h).2.length, (putD d h).2 ++ [.dict (putD d h).1])
def putL : List (JVal F) → Heap F → List (Ref F) × Heap F
  | [], h => ([], h)
  | v :: r, h => ((put v h).1 :: (putL r (put v h).2).1, (putL r (put v h).2).2)
def putD : List (Str × JVal F) → Heap F → List (Str × Ref F) × Heap F
  | [], h => ([], h)
  | (k, v) :: r, h => ((k, (put v h).1) :: (putD r (put v h).2).1, (putD r (put v h).2).2)
end

/-- an exception of the library or of the file system -/
inductive Fault where
  | lib (e : Err)
  | os (e : OSErr)
  deriving DecidableEq

variable [JsonRt F]

/-- `SpineAnimationEditor.from_json_file` (59-64) -/
def fromJsonFile (E : Env F) (fs : FS) (p : Str) : M F (Ed F) :=
  match fs.read p with
  | .error x => M.raise x
  | .ok t => match JsonText.decode t with
    | .error x => M.raise x
    | .ok v => fun h => init E (put v h).1 (put v h).2

/-- `to_json` (219-225): the file is opened, which empties it, then the document is built and written.  A document that cannot be
written (too deep, or not made of JSON values) is the error `diverge`. -/
def toJsonFile (E : Env F) (fs : FS) (e : Ed F) (p : Str) (h : Heap F) : Except Fault Unit × FS × Heap F :=
  match fs.save p [] with
  | (.error x, fs') => (.error (.os x), fs', h)
  | (.ok (), fs') => match e.toJson E h with
    | (.error x, h') => (.error (.lib x), fs', h')
    | (.ok r, h') => match readJ h' E.lim r with
      | none => (.error (.lib .diverge), fs', h')
      | some v => (.ok (), (fs.save p (JsonText.encode .indent4 v)).2, h')

end Alias
end Spine
