import Verif.Spec.Skins
/-
Names that cannot be confused with the ids of the graph.  The library appends "_SLOT", "_IMAGE", … to names and later deletes
these texts again, wherever they occur; several properties need the names to be free of them.
-/
namespace Spine
variable {F : Type}

structure AnimData.NamesOk (a : AnimData F) : Prop where
  slots : ∀ s ∈ a.slots, ¬ s!!"_SLOT" <:+: s.name
  images : ∀ slot key x i, a.HasAtt slot key x → ImageName key x i → ¬ s!!"_IMAGE" <:+: i
  keys : ∀ slot key x, a.HasAtt slot key x → ¬ s!!"_ATTACHMENT" <:+ key

/-- no object has the same key twice, as in every document read by a JSON parser into dictionaries -/
inductive JVal.Proper : JVal F → Prop
  | null : Proper .null
  | bool (b) : Proper (.bool b)
  | int (i) : Proper (.int i)
  | flt (x) : Proper (.flt x)
  | str (s) : Proper (.str s)
  | list {l} : (∀ x ∈ l, Proper x) → Proper (.list l)
  | dict {d} : (Dict.keys d).Nodup → (∀ p ∈ d, Proper p.2) → Proper (.dict d)

end Spine
