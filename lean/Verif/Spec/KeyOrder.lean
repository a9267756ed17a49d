import Verif.Model.Py
/-
Two JSON values that differ only in the order of the keys of their objects.  JSON objects are unordered (RFC 8259, section
4), and programs that write Spine documents do not agree on an order.
-/
namespace Spine
namespace JVal
variable {F : Type}

/-- the same value up to the order of the keys of its objects; no object has the same key twice -/
inductive Reord : JVal F → JVal F → Prop
  | null : Reord .null .null
  | bool (b) : Reord (.bool b) (.bool b)
  | int (i) : Reord (.int i) (.int i)
  | flt (x) : Reord (.flt x) (.flt x)
  | str (s) : Reord (.str s) (.str s)
  /-- lists keep their order -/
  | list {l m : List (JVal F)} : l.length = m.length → (∀ (i : Nat) (v w : JVal F), l[i]? = some v → m[i]? = some w → Reord v w) →
      Reord (.list l) (.list m)
  /-- objects have the same keys, in any order, and the same values under them -/
  | dict {d e : List (Str × JVal F)} : (Dict.keys d).Nodup → (Dict.keys e).Nodup → (∀ k, k ∈ Dict.keys d ↔ k ∈ Dict.keys e) →
      (∀ (k : Str) (v w : JVal F), Dict.get? d k = some v → Dict.get? e k = some w → Reord v w) → Reord (.dict d) (.dict e)

end JVal
end Spine
