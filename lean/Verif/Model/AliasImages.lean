import Verif.Model.AliasFiles
/-
Model of `save_images_json` (spine_animation_editor.py 255-261) on the heap.
-/
namespace Spine
namespace Alias
open Files
variable {F : Type} [JsonRt F]

/-- `save_images_json` (spine_animation_editor.py 255-261): the file is opened, which empties it, then the object at
`images_references` is written as it is in the heap.  As in `toJsonFile`, an object that cannot be written is the error `diverge`;
simplified: the file is left empty then, where `json.dump` would leave what it has written so far. -/
def saveImages (E : Env F) (fs : FS) (e : Ed F) (p : Str) (h : Heap F) : Except Fault Unit × FS :=
  match fs.save p [] with
  | (.error x, fs') => (.error (.os x), fs')
  | (.ok (), fs') => match readJ h E.lim e.images with
    | none => (.error (.lib .diverge), fs')
    | some v => (.ok (), (fs.save p (JsonText.encode .compact v)).2)

end Alias
end Spine
