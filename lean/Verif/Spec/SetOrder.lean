import Verif.Model.SetOrder
/-
When two outcomes are the same although sets were iterated in different orders.
-/
namespace Spine
namespace Editor
variable {F : Type}

/-- results up to the order of the names of removed slots -/
inductive Result.Agree : Result F → Result F → Prop
  | skins {a b : List Str × List Str} (i : List (Option Str)) : a.1.Perm b.1 → a.2 = b.2 → Agree (.skins a i) (.skins b i)
  | anims (d : JVal F) {a b : List Str × List Str} : a.1.Perm b.1 → a.2 = b.2 → Agree (.anims d a) (.anims d b)
  | cleaned {a b : List Str × List Str} : a.1.Perm b.1 → a.2 = b.2 → Agree (.cleaned a) (.cleaned b)
  | scaled : Agree .scaled .scaled

/-- the same error, or results that agree -/
inductive Alike : Except Err (Result F) → Except Err (Result F) → Prop
  | error (x : Err) : Alike (.error x) (.error x)
  | ok {a b : Result F} : a.Agree b → Alike (.ok a) (.ok b)

end Editor
end Spine
