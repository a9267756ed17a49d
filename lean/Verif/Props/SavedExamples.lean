import Verif.Props.Saved
import Verif.Spec.Sample
/- Examples and counterexamples for C85 and C86. -/
namespace Spine.SavedEx
open JVal Places Saved Sample

/-- a document with more attributes -/
def with' (bones : List J) (anims : List (String × J)) (more : List (String × J)) : J :=
  match Sample.doc bones [slot "s" "root"] [("default", obj [("s", obj [("a", region "i")])])] anims with
  | .dict d => .dict (d ++ (match obj more with | .dict m => m | _ => []))
  | v => v

/-- what is at a place of the document, and what is there after loading and saving -/
def both (doc : J) (q : List Key) : Option (Option J × Option J) := (Sample.load doc).map (fun e => (at? doc q, at? e.toJson q))

/-- a path constraint that spaces by 1, the default of the library; the runtimes space by 0 when nothing is said -/
def spaced : J := with' [root] [] [("path", .list [obj [("name", txt "p"), ("spacing", .int 1), ("target", txt "s")]])]
def scaledT : J := with' [root] [] [("transform", .list [obj [("name", txt "t"), ("scaleX", .int 1), ("scaleY", .int 2)]])]
def rigid : J := with' [obj [("name", txt "root"), ("inheritRotation", .bool false), ("x", .int 3)]] [] []
def silent : J := with' [root] [("walk", obj [("events", .list [obj [("time", .int 1), ("name", txt "step"), ("int", .int 0)]])])]
  [("events", obj [("step", obj [("int", .int 5)])])]
def blink : J := with' [root] [("walk", obj [("slots", obj [("s", obj [("color", .list [obj [("time", .int 1), ("color", txt "ff")]])])])])] []

def name (s : String) : Key := .name s.toList

/-- a number or a truth value -/
def value : J → Option (Rat ⊕ Bool)
  | .int i => some (.inl i)
  | .flt x => some (.inl x)
  | .bool b => some (.inr b)
  | _ => none

/-- what the runtimes see for an attribute of an object before and after -/
def runtimeSees (doc : J) (q : List Key) (kind : Kind) (def? : Str → J) (k : String) :
    Option (Option (Rat ⊕ Bool) × Option (Rat ⊕ Bool)) :=
  match both doc q with
  | some (some (.dict d), some (.dict d')) => some (value (seen (spineTakes kind false def?) d k.toList), value (seen (spineTakes kind false def?) d' k.toList))
  | _ => none

/-- C86 fails for the runtimes themselves: a path constraint with spacing 1 is saved without a spacing, and the runtimes then take
0; a transform constraint loses the scale 1 and gets 0; a bone that does not inherit the rotation inherits it after saving; a
keyframe that fires an event with the value 0 fires it with the value 5 of the event. -/
theorem c86_counterexample :
    runtimeSees spaced [name "path", .pos 0] .path (fun _ => .null) "spacing" = some (some (.inl 1), some (.inl 0)) ∧
    runtimeSees scaledT [name "transform", .pos 0] .transform (fun _ => .null) "scaleX" = some (some (.inl 1), some (.inl 0)) ∧
    runtimeSees rigid [name "bones", .pos 0] .bone (fun _ => .null) "inheritRotation" = some (some (.inr false), some (.inr true)) ∧
    runtimeSees silent [name "animations", name "walk", name "events", .pos 0] .eventKey (fun _ => .int 5) "int" =
      some (some (.inl 0), some (.inl 5)) := by
  refine ⟨?_, ?_, ?_, ?_⟩ <;> decide +kernel

/-- the other attributes of these objects are seen like before -/
example : runtimeSees scaledT [name "transform", .pos 0] .transform (fun _ => .null) "scaleY" = some (some (.inl 2), some (.inl 2)) := by
  decide +kernel
example : runtimeSees rigid [name "bones", .pos 0] .bone (fun _ => .null) "x" = some (some (.inl 3), some (.inl 3)) := by decide +kernel

/-- C85: saving adds a null name to a keyframe of the colour of a slot -/
theorem c85_null_name :
    (match both blink [name "animations", name "walk", name "slots", name "s", name "color", .pos 0] with
      | some (some v, some w) => some (pyEq v (obj [("time", .int 1), ("color", txt "ff")]),
          pyEq w (obj [("name", .null), ("time", .int 1), ("color", txt "ff")]))
      | _ => none) = some (true, true) := by decide +kernel

/-- c85_object, c86_lost: the path constraint of `spaced` and the keyframe of `blink` -/
example : Fits [.key s!!"path", .elem] [name "path", .pos 0] := .key (.elem .nil)
example : Fits [.key s!!"animations", .any, .key s!!"slots", .any, .key s!!"color", .elem]
    [name "animations", name "walk", name "slots", name "s", name "color", .pos 0] := .key (.any (.key (.any (.key (.elem .nil)))))
example : at? spaced [name "path", .pos 0] = some (obj [("name", txt "p"), ("spacing", .int 1), ("target", txt "s")]) := rfl
example : (dv s!!"spacing" one : Field Rat) ∈ path ∧ (dv s!!"spacing" one : Field Rat).save = id ∧
    pyEq (F := Rat) (.int 1) one = true := ⟨by simp [path], rfl, by decide⟩

/-- c85_saved, computed: the whole example document of the other files -/
example : (Sample.load basic).map (fun e => pyEq e.toJson (saved true basic)) = some true := by decide +kernel
example : (Sample.load spaced).map (fun e => e.doc.version.is38) = some true := by decide +kernel

/-- c85_nothing_new: the lists of `spaced` are lists -/
example : Shaped [.key s!!"path", .elem] spaced := by
  intro x hx
  have : x = .list [obj [("name", txt "p"), ("spacing", .int 1), ("target", txt "s")]] := by
    have e : Dict.get? (entries spaced) s!!"path" = some (.list [obj [("name", txt "p"), ("spacing", .int 1), ("target", txt "s")]]) := rfl
    rw [e] at hx; injection hx with hx; exact hx.symm
  subst this
  exact ⟨_, rfl, fun _ _ => trivial⟩

/-- c86_meaning_partial: a reader with the defaults of the library, for events -/
example : ∀ f ∈ (event : List (Field Rat)), f.save = id → ∀ dv, f.dflt = some dv → dv ≠ .null →
    (fun k => if k = s!!"string" then (.str [] : J) else .int 0) f.key = dv := by
  simp [event, dv, zero, text]

end Spine.SavedEx
