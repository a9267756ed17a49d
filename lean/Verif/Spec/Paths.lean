import Verif.Model.Traverse
/-
Places inside a value: item numbers of lists, keys of dictionaries, names of attributes.
-/
namespace Spine
variable {F : Type}

inductive Step where
  | item (n : Nat)
  | key (k : Str)
  deriving DecidableEq

/-- the value at a place of a JSON value -/
inductive JVal.At : JVal F → List Step → JVal F → Prop
  | here (v : JVal F) : At v [] v
  | item {l : List (JVal F)} {n : Nat} {x w : JVal F} {p : List Step} : l[n]? = some x → At x p w → At (.list l) (.item n :: p) w
  | key {d : List (Str × JVal F)} {k : Str} {x w : JVal F} {p : List Step} :
      Dict.get? d k = some x → At x p w → At (.dict d) (.key k :: p) w

/-- the value at a place below a Python value, going only through attributes that satisfy `P` (class, name, value) -/
inductive SVal.Leads (P : Cls F → Str → SVal F → Prop) : SVal F → List Step → SVal F → Prop
  | here (v : SVal F) : Leads P v [] v
  | item {l : List (SVal F)} {n : Nat} {x w : SVal F} {p : List Step} :
      l[n]? = some x → Leads P x p w → Leads P (.list l) (.item n :: p) w
  | key {d : List (Str × SVal F)} {k : Str} {x w : SVal F} {p : List Step} :
      Dict.get? d k = some x → Leads P x p w → Leads P (.dict d) (.key k :: p) w
  | attr {c : Cls F} {a : List (Str × SVal F)} {k : Str} {x w : SVal F} {p : List Step} :
      Dict.get? a k = some x → P c k x → Leads P x p w → Leads P (.obj c a) (.key k :: p) w

/-- the value at a place below a Python value -/
abbrev SVal.At (v : SVal F) (p : List Step) (w : SVal F) : Prop := SVal.Leads (fun _ _ _ => True) v p w

/-- no object has two attributes, and no dictionary two entries, of one name (true of every Python value) -/
inductive SVal.Distinct : SVal F → Prop
  | null : Distinct .null
  | bool (b : Bool) : Distinct (.bool b)
  | int (i : Int) : Distinct (.int i)
  | flt (f : F) : Distinct (.flt f)
  | str (s : Str) : Distinct (.str s)
  | other : Distinct .other
  | list (l : List (SVal F)) : (∀ x ∈ l, Distinct x) → Distinct (.list l)
  | dict (d : List (Str × SVal F)) : (Dict.keys d).Nodup → (∀ q ∈ d, Distinct q.2) → Distinct (.dict d)
  | obj (c : Cls F) (a : List (Str × SVal F)) : (Dict.keys a).Nodup → (∀ q ∈ a, Distinct q.2) → Distinct (.obj c a)

end Spine
