import Verif.Model.Py
/-
What a drawOrder keyframe means in Spine: every slot listed with an offset is drawn at (its index in the setup order
+ offset); all other slots keep their setup order in the remaining places.
-/
namespace Spine
namespace DrawOrder
variable {α : Type}

/-- the slot `s` sits at index `i` of the list -/
def At (l : List α) (i : Int) (s : α) : Prop := ∃ n : Nat, i = n ∧ l[n]? = some s

/-- `L` is the drawing sequence of the keyframe `offs` on the setup order `orig` -/
structure Realises (name : α → Str) (offs : Dict Int) (orig L : List α) : Prop where
  perm : L.Perm orig
  placed : ∀ (i : Nat) (s : α) (o : Int), orig[i]? = some s → Dict.get? offs (name s) = some o → At L (i + o) s
  others : L.filter (fun s => Dict.get? offs (name s) = none) = orig.filter (fun s => Dict.get? offs (name s) = none)

/-- a keyframe that Spine can apply: offsets of known slots, target indices inside the list, no two equal -/
structure Valid (name : α → Str) (offs : Dict Int) (orig : List α) : Prop where
  known : ∀ k ∈ Dict.keys offs, k ∈ orig.map name
  inside : ∀ (i : Nat) (s : α) (o : Int), orig[i]? = some s → Dict.get? offs (name s) = some o →
    0 ≤ (i : Int) + o ∧ (i : Int) + o < orig.length
  distinct : ∀ (i j : Nat) (s t : α) (o p : Int), orig[i]? = some s → orig[j]? = some t →
    Dict.get? offs (name s) = some o → Dict.get? offs (name t) = some p → (i : Int) + o = j + p → i = j

end DrawOrder
end Spine
