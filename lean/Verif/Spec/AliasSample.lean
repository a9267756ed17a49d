import Verif.Model.AliasFiles
import Verif.Spec.Alias
import Verif.Spec.Sample
/-
JSON values as objects of a heap, for the examples about sharing.
-/
namespace Spine
namespace Alias
variable {F : Type}

/-- every class -/
def Tag.all : List Tag :=
  [.bone, .slot, .skin, .slotKf, .slotTl, .boneRotate, .boneTranslate, .boneTl, .offset, .draw, .anim, .events, .eventTl, .ik,
    .ikTl, .transform, .transformTl, .path, .pathTl, .deform, .document] ++
    [AttKind.region, .mesh, .linked, .bbox, .path, .point, .clipping].map .att

/-- the constants of some classes as objects -/
def constants [PyRt F] (keys : List (Bool × Tag)) : List ((Bool × Tag) × Ref F) × Heap F :=
  keys.foldl (fun s k =>
    let p := put (.dict ((k.2.cls (F := F)).defaultsFor k.1)) s.2
    (s.1 ++ [(k, p.1)], p.2)) ([], [])

/-- the library with these constants -/
def env [PyRt F] (keys : List (Bool × Tag)) (lim : Nat) : Env F :=
  { lim := lim, consts := fun v t => ((constants (F := F) keys).1.lookup (v, t)).getD .null }

/-- the constants of all classes, for both families of versions -/
def allKeys : List (Bool × Tag) := Tag.all.map (fun t => (false, t)) ++ Tag.all.map (fun t => (true, t))

end Alias
end Spine
