import Verif.Props.AliasValues
import Verif.Props.AliasExamples
/-
Concrete programs for C80: documents that share objects, and the case in which sharing shows.
-/
namespace Spine

mutual
/-- equality of JSON values can be decided -/
def JVal.decEq {F : Type} [DecidableEq F] : (a b : JVal F) → Decidable (a = b)
  | .null, .null => .isTrue rfl
  | .bool a, .bool b => decidable_of_iff (a = b) (by simp)
  | .int a, .int b => decidable_of_iff (a = b) (by simp)
  | .flt a, .flt b => decidable_of_iff (a = b) (by simp)
  | .str a, .str b => decidable_of_iff (a = b) (by simp)
  | .list a, .list b => match decEqL a b with
    | .isTrue h => .isTrue (by rw [h])
    | .isFalse h => .isFalse (by intro e; cases e; exact h rfl)
  | .dict a, .dict b => match decEqD a b with
    | .isTrue h => .isTrue (by rw [h])
    | .isFalse h => .isFalse (by intro e; cases e; exact h rfl)
  | .null, .bool _ | .null, .int _ | .null, .flt _ | .null, .str _ | .null, .list _ | .null, .dict _ => .isFalse nofun
  | .bool _, .null | .bool _, .int _ | .bool _, .flt _ | .bool _, .str _ | .bool _, .list _ | .bool _, .dict _ => .isFalse nofun
  | .int _, .null | .int _, .bool _ | .int _, .flt _ | .int _, .str _ | .int _, .list _ | .int _, .dict _ => .isFalse nofun
  | .flt _, .null | .flt _, .bool _ | .flt _, .int _ | .flt _, .str _ | .flt _, .list _ | .flt _, .dict _ => .isFalse nofun
  | .str _, .null | .str _, .bool _ | .str _, .int _ | .str _, .flt _ | .str _, .list _ | .str _, .dict _ => .isFalse nofun
  | .list _, .null | .list _, .bool _ | .list _, .int _ | .list _, .flt _ | .list _, .str _ | .list _, .dict _ => .isFalse nofun
  | .dict _, .null | .dict _, .bool _ | .dict _, .int _ | .dict _, .flt _ | .dict _, .str _ | .dict _, .list _ => .isFalse nofun
def JVal.decEqL {F : Type} [DecidableEq F] : (a b : List (JVal F)) → Decidable (a = b)
  | [], [] => .isTrue rfl
  | [], _ :: _ => .isFalse nofun
  | _ :: _, [] => .isFalse nofun
  | x :: a, y :: b => match JVal.decEq x y, decEqL a b with
    | .isTrue h, .isTrue k => .isTrue (by rw [h, k])
    | .isFalse h, _ => .isFalse (by intro e; cases e; exact h rfl)
    | _, .isFalse h => .isFalse (by intro e; cases e; exact h rfl)
def JVal.decEqD {F : Type} [DecidableEq F] : (a b : List (Str × JVal F)) → Decidable (a = b)
  | [], [] => .isTrue rfl
  | [], _ :: _ => .isFalse nofun
  | _ :: _, [] => .isFalse nofun
  | (k, x) :: a, (l, y) :: b =>
    if hk : k = l then match JVal.decEq x y, decEqD a b with
      | .isTrue h, .isTrue m => .isTrue (by rw [hk, h, m])
      | .isFalse h, _ => .isFalse (by intro e; cases e; exact h rfl)
      | _, .isFalse h => .isFalse (by intro e; cases e; exact h rfl)
    else .isFalse (by intro e; cases e; exact hk rfl)
end

instance {F : Type} [DecidableEq F] : DecidableEq (JVal F) := JVal.decEq

namespace Alias
namespace Val
open Sample (J obj txt root slot region shows)

/-- the values of the constants of all classes -/
def values : List J := (allKeys.map (fun k => JVal.dict ((k.2.cls (F := Rat)).defaultsFor k.1))).eraseDups

/-- the values as objects; classes with the same constants share them here, to keep the heap small -/
def library : List (Ref Rat) × Heap Rat := putL values []

/-- the heap of a process that has loaded the library -/
def lib : Heap Rat := library.2

def held : List (Ref Rat) := library.1

def E : Env Rat :=
  { lim := 16, consts := fun v t => held.getD (values.idxOf (.dict ((t.cls (F := Rat)).defaultsFor v))) .null }

theorem all_keys (v : Bool) (t : Tag) : (v, t) ∈ allKeys := by
  cases v <;> cases t <;> first | (rename_i k; cases k <;> simp [allKeys, Tag.all]) | simp [allKeys, Tag.all]

deriving instance DecidableEq for Ref

deriving instance DecidableEq for Num
deriving instance DecidableEq for Editor.NamesArg
deriving instance DecidableEq for Call
deriving instance DecidableEq for Out
deriving instance DecidableEq for Event

/-- the value model has an answer to everything -/
def answered : List (Editor Rat) → List (Event Rat) → Bool
  | _, [] => true
  | vs, .own :: l => answered vs l
  | vs, .opens v _ :: l => match Editor.load v with
    | .ok e => answered (vs ++ [e]) l
    | .error .unmodelled => false
    | .error _ => answered vs l
  | vs, .calls i c _ :: l => match vs[i]? with
    | none => false
    | some v => (match (c.value v).1 with | .error .unmodelled => false | _ => true) && answered (vs.set i (c.value v).2) l

theorem answered_sound : ∀ {l : List (Event Rat)} {vs : List (Editor Rat)}, answered vs l = true → answers vs l
  | [], _, _ => trivial
  | .own :: l, vs, h => answered_sound (l := l) h
  | .opens v o :: l, vs, h => by
    unfold answered at h
    unfold answers
    cases hv : Editor.load v with
    | ok e => simp only [hv] at h ⊢; exact answered_sound h
    | error x =>
      simp only [hv] at h ⊢
      cases x <;> first | exact answered_sound h | cases h
  | .calls i c o :: l, vs, h => by
    unfold answered at h
    unfold answers
    cases hv : vs[i]? with
    | none => simp [hv] at h
    | some v =>
      simp only [hv, Bool.and_eq_true] at h ⊢
      refine ⟨fun hu => ?_, answered_sound h.2⟩
      rw [hu] at h
      exact absurd h.1 (by simp)

/-- the constants are held with their values -/
def fixed (w : World Rat) : Bool :=
  allKeys.all (fun k => decide (E.consts k.1 k.2 ∈ w.roots) &&
    decide (readJ w.heap 8 (E.consts k.1 k.2) = some (.dict ((k.2.cls (F := Rat)).defaultsFor k.1))))

theorem fixed_sound {w : World Rat} (h : fixed w = true) : w.Fixed 8 E := by
  intro v t
  have := List.all_eq_true.mp h _ (all_keys v t)
  simpa using this

mutual
/-- no key occurs twice in an object -/
def proper : J → Bool
  | .list l => properL l
  | .dict d => decide (Dict.keys d).Nodup && properD d
  | _ => true
def properL : List J → Bool
  | [] => true
  | v :: l => proper v && properL l
def properD : List (Str × J) → Bool
  | [] => true
  | (_, v) :: l => proper v && properD l
end

mutual
theorem proper_sound : ∀ (v : J), proper v = true → v.Proper
  | .null, _ => .null
  | .bool b, _ => .bool b
  | .int i, _ => .int i
  | .flt x, _ => .flt x
  | .str s, _ => .str s
  | .list l, h => .list (properL_sound l (by simpa [proper] using h))
  | .dict d, h => by
    have h : (Dict.keys d).Nodup ∧ properD d = true := by simpa [proper] using h
    exact .dict h.1 (properD_sound d h.2)
theorem properL_sound : ∀ (l : List J), properL l = true → ∀ x ∈ l, x.Proper
  | [], _ => fun _ h => by cases h
  | v :: l, h => by
    have h : proper v = true ∧ properL l = true := by simpa [properL] using h
    have h1 := proper_sound v h.1
    have h2 := properL_sound l h.2
    intro x hx
    rcases List.mem_cons.mp hx with rfl | hx
    · exact h1
    · exact h2 x hx
theorem properD_sound : ∀ (l : List (Str × J)), properD l = true → ∀ p ∈ l, p.2.Proper
  | [], _ => fun _ h => by cases h
  | (k, v) :: l, h => by
    have h : proper v = true ∧ properD l = true := by simpa [properD] using h
    have h1 := proper_sound v h.1
    have h2 := properD_sound l h.2
    intro x hx
    rcases List.mem_cons.mp hx with rfl | hx
    · exact h1
    · exact h2 x hx
end

/-- two references do not lead to the same object -/
def other (p q : Str × Ref Rat) : Bool := match p.2, q.2 with
  | .ptr a, .ptr b => decide (a ≠ b)
  | _, _ => true

def separate : List (Str × Ref Rat) → Bool
  | [] => true
  | p :: l => l.all (other p) && separate l

theorem separate_sound : ∀ {l : List (Str × Ref Rat)}, separate l = true → l.Pairwise (fun p q => ∀ b, p.2 = .ptr b → q.2 ≠ .ptr b)
  | [], _ => .nil
  | p :: l, h => by
    simp only [separate, Bool.and_eq_true] at h
    refine .cons (fun q hq b hp hb => ?_) (separate_sound h.2)
    have := List.all_eq_true.mp h.1 q hq
    simp [other, hp, hb] at this

/-- no two slots of one skin hold the same dictionary -/
def skinsApart (h : Heap Rat) (doc : Ref Rat) : Bool := match dictIn h doc with
  | none => true
  | some d => match (Dict.get? d s!!"skins").bind (listIn h) with
    | none => true
    | some l => l.all (fun s => match dictIn h s with
      | none => true
      | some m => match (Dict.get? m s!!"attachments").bind (dictIn h) with
        | none => true
        | some w => separate w)

theorem skinsApart_sound {h : Heap Rat} {doc : Ref Rat} (hs : skinsApart h doc = true) : SkinsApart h doc := by
  intro d l s m w h1 h2 h3 h4 h5
  simp only [skinsApart, h1, h2] at hs
  have := List.all_eq_true.mp hs s h3
  simp only [h4, h5] at this
  exact separate_sound this

/-- a step of a program, with the number of the reference it is about -/
inductive Op where
  | opens (k : Nat)
  | calls (i : Nat) (c : Call Rat)
  | change (k : Nat) (o : Obj Rat)

/-- a program that holds `w` does a step -/
def step (w : World Rat) : Op → Option (Event Rat × World Rat)
  | .opens k => do
    let r ← w.roots[k]?
    let v ← readJ w.heap 8 r
    if proper v && skinsApart w.heap r then
      match init E r w.heap with
      | (.ok e, h) => some (.opens v (.ok ()), { w with heap := h, eds := w.eds ++ [e] })
      | (.error x, h) => some (.opens v (.error x), { w with heap := h })
    else none
  | .calls i c => do
    let e ← w.eds[i]?
    match c.exec E e w.heap with
    | (.ok (.ok o, e'), h) =>
      some (.calls i c (.ok (o.map (readJ h E.lim))), { heap := h, eds := w.eds.set i e', roots := o.doc?.toList ++ w.roots })
    | (.ok (.error x, e'), h) => some (.calls i c (.error x), { w with heap := h, eds := w.eds.set i e' })
    | _ => none
  | .change k o => do
    let r ← w.roots[k]?
    match r with
    | .ptr a =>
      let w' : World Rat := { w with heap := w.heap.set a o }
      if o.refs.all (fun r => decide (r ∈ w.roots)) && fixed w' then some (.own, w') else none
    | _ => none

def steps (w : World Rat) : List Op → Option (List (Event Rat) × World Rat)
  | [] => some ([], w)
  | o :: l => do
    let (a, w') ← step w o
    let (b, w'') ← steps w' l
    return (a :: b, w'')

theorem steps_sound : ∀ {p : List Op} {w w' : World Rat} {l : List (Event Rat)}, steps w p = some (l, w') → World.Trace 8 E w l w'
  | [], w, w', l, h => by cases h; exact .nil _
  | o :: p, w, w', l, h => by
    simp only [steps, Option.bind_eq_bind, Option.bind_eq_some_iff] at h
    obtain ⟨⟨a, w1⟩, h1, ⟨b, w2⟩, h2, h3⟩ := h
    cases h3
    have ih := steps_sound h2
    cases o with
    | opens k =>
      simp only [step, Option.bind_eq_bind, Option.bind_eq_some_iff] at h1
      obtain ⟨r, hr, v, hv, h1⟩ := h1
      split at h1
      case isFalse => cases h1
      rename_i hp
      simp only [Bool.and_eq_true] at hp
      have hh : w.Holds r := Ex.holds_root (List.mem_of_getElem? hr)
      split at h1
      · rename_i e h' hi
        cases h1
        exact .opened w _ _ r v e h' hh hv (proper_sound _ hp.1) (skinsApart_sound hp.2) hi ih
      · rename_i x h' hi
        cases h1
        exact .failed w _ _ r v x h' hh hv (proper_sound _ hp.1) (skinsApart_sound hp.2) hi ih
    | calls i c =>
      simp only [step, Option.bind_eq_bind, Option.bind_eq_some_iff] at h1
      obtain ⟨e, he, h1⟩ := h1
      split at h1
      · rename_i o e' h' hi
        cases h1
        exact .returned w _ _ i e c o e' h' he hi ih
      · rename_i x e' h' hi
        cases h1
        exact .raised w _ _ i e c x e' h' he hi ih
      · cases h1
    | change k o =>
      simp only [step, Option.bind_eq_bind, Option.bind_eq_some_iff] at h1
      obtain ⟨r, hr, h1⟩ := h1
      split at h1
      case h_2 => cases h1
      rename_i a
      split at h1
      case isFalse => cases h1
      rename_i hp
      simp only [Bool.and_eq_true] at hp
      cases h1
      refine .own w _ _ _ (.change w a o (Ex.holds_root (List.mem_of_getElem? hr) a rfl) (fun r hr => ?_)) (fixed_sound hp.2) ih
      exact Ex.holds_root (by simpa using List.all_eq_true.mp hp.1 r hr)

/-- a new object -/
def new (o : Obj Rat) (h : Heap Rat) : Ref Rat × Heap Rat := (.ptr h.length, h ++ [o])

def named (l : List (String × Ref Rat)) : Obj Rat := .dict (l.map (fun p => (p.1.toList, p.2)))

/-- A document in which two animations are one dictionary, the attachments of the slot in two skins are one dictionary, and two
attachments of it are one dictionary. -/
def shared : Ref Rat × Heap Rat :=
  let (head, h) := put (obj [("spine", txt "3.8.75")]) lib
  let (bones, h) := put (.list [root]) h
  let (slots, h) := put (.list [slot "s" "root"]) h
  let (att, h) := new (.dict []) h
  let (atts, h) := new (named [("a", att), ("b", att)]) h
  let (skin, h) := new (named [("s", atts)]) h
  let (first, h) := new (named [("name", .str s!!"default"), ("attachments", skin)]) h
  let (second, h) := new (named [("name", .str s!!"red"), ("attachments", skin)]) h
  let (skins, h) := new (.list [first, second]) h
  let (anim, h) := put (obj [("slots", obj [("s", shows "a")])]) h
  let (anims, h) := new (named [("walk", anim), ("run", anim)]) h
  new (named [("skeleton", head), ("bones", bones), ("slots", slots), ("skins", skins), ("animations", anims)]) h

/-- the program holds the document -/
def begin (d : Ref Rat × Heap Rat) : World Rat := { heap := d.2, eds := [], roots := d.1 :: held }

/-- It opens an editor, empties the document, cleans the editor and asks for the result. -/
def program : List Op := [.opens 0, .change 0 (.dict []), .calls 0 .clean, .calls 0 .toJson]

/-- what can be printed of an observation -/
def seen : Event Rat → List Str
  | .own => [s!!"own"]
  | .opens _ (.ok ()) => [s!!"opened"]
  | .opens _ (.error _) => [s!!"failed"]
  | .calls _ _ (.ok (.skins r _)) => r.1 ++ s!!"and" :: r.2
  | .calls _ _ (.ok (.anims (some d) r)) => Ex.names 12 d ++ s!!"without" :: r.1 ++ s!!"and" :: r.2
  | .calls _ _ (.ok (.anims none _)) => [s!!"?"]
  | .calls _ _ (.ok (.cleaned r)) => r.1 ++ s!!"and" :: r.2
  | .calls _ _ (.ok .scaled) => [s!!"scaled"]
  | .calls _ _ (.ok (.doc (some d))) => Ex.names 12 d
  | .calls _ _ (.ok (.doc none)) => [s!!"?"]
  | .calls _ _ (.error _) => [s!!"raised"]

/-- the same value without sharing -/
def unshared : Ref Rat × Heap Rat := put ((readJ shared.2 8 shared.1).getD .null) lib

/-- a document in which two slots of one skin hold the same dictionary, one attachment of which is never shown -/
def twice : Ref Rat × Heap Rat :=
  let (head, h) := put (obj [("spine", txt "3.8.75")]) lib
  let (bones, h) := put (.list [root]) h
  let (slots, h) := put (.list [slot "s" "root" [("attachment", txt "b")], slot "t" "root" [("attachment", txt "b")]]) h
  let (first, h) := put (obj [("a", obj []), ("b", obj [])]) h
  let (atts, h) := new (named [("s", first), ("t", first)]) h
  let (skin, h) := new (named [("name", .str s!!"default"), ("attachments", atts)]) h
  let (skins, h) := new (.list [skin]) h
  let (anims, h) := put (obj [("walk", obj [])]) h
  new (named [("skeleton", head), ("bones", bones), ("slots", slots), ("skins", skins), ("animations", anims)]) h

/-- the same value without sharing -/
def once : Ref Rat × Heap Rat := put ((readJ twice.2 8 twice.1).getD .null) lib

/-- the outcome of opening an editor for the document and cleaning it -/
def cleaned (d : Ref Rat × Heap Rat) : Option (Except Err (List Str × List Str)) :=
  match init E d.1 d.2 with
  | (.ok e, h) => match (Call.clean).exec E e h with
    | (.ok (.ok (.cleaned r), _), _) => some (.ok r)
    | (.ok (.error x, _), _) => some (.error x)
    | _ => none
  | _ => none

end Val

open Val

set_option maxRecDepth 100000

/-- the program runs to its end on the document that shares objects, and what it observes is what the value model computes -/
example : ∃ l w, steps (begin shared) program = some (l, w) ∧ World.Trace 8 Val.E (begin shared) l w ∧ accounts [] l ∧
    (l.map seen).take 3 = [[s!!"opened"], [s!!"own"], [s!!"and", s!!"b"]] := by
  have h1 : (steps (begin shared) program).map (fun q => (q.1.map seen).take 3) =
      some [[s!!"opened"], [s!!"own"], [s!!"and", s!!"b"]] := by decide +kernel
  obtain ⟨⟨l, w⟩, hw, h2⟩ := Option.map_eq_some_iff.mp h1
  exact ⟨l, w, hw, steps_sound hw, c80_programs_partial (by decide) (Ex.apart_start rfl (by decide +kernel) (by decide +kernel)) rfl
    (fixed_sound (by decide +kernel)) (steps_sound hw), h2⟩

/-- a shorter program -/
def short : List Op := [.opens 0, .change 0 (.dict []), .calls 0 .toJson]

/-- the value of the document -/
def value : JVal Rat := (readJ shared.2 8 shared.1).getD .null

def asked : List (Event Rat) := [.opens value (.ok ()), .own, .calls 0 .toJson (.error .unmodelled)]

theorem run_shared : (steps (begin shared) short).map (fun q => q.1.map Event.ask) = some asked := by decide +kernel

theorem run_unshared : (steps (begin unshared) short).map (fun q => q.1.map Event.ask) = some asked := by decide +kernel

theorem answered_asked : answered [] asked = true := by decide +kernel

/-- whether the value model answers depends on the questions only -/
theorem answered_ask : ∀ {l m : List (Event Rat)} {vs : List (Editor Rat)}, l.map Event.ask = m → answered vs m = true → answered vs l = true
  | [], _, _, h, _ => by subst h; rfl
  | .own :: l, _, vs, h, ha => by subst h; exact answered_ask (l := l) rfl ha
  | .opens v o :: l, _, vs, h, ha => by
    subst h
    simp only [List.map_cons, Event.ask] at ha
    unfold answered at ha ⊢
    cases hv : Editor.load v with
    | ok e => simp only [hv] at ha ⊢; exact answered_ask rfl ha
    | error x =>
      simp only [hv] at ha ⊢
      cases x <;> first | exact answered_ask rfl ha | cases ha
  | .calls i c o :: l, _, vs, h, ha => by
    subst h
    simp only [List.map_cons, Event.ask] at ha
    unfold answered at ha ⊢
    cases hv : vs[i]? with
    | none => simp [hv] at ha
    | some v =>
      simp only [hv, Bool.and_eq_true] at ha ⊢
      exact ⟨ha.1, answered_ask rfl ha.2⟩

/-- Opened for the document with the same value that shares nothing, the editors do the same. -/
example : ∃ l w u, World.Trace 8 Val.E (begin shared) l w ∧ World.Trace 8 Val.E (begin unshared) l u ∧ l.length = 3 ∧
    shared.2.length ≠ unshared.2.length := by
  obtain ⟨⟨l, w⟩, hw, h1⟩ := Option.map_eq_some_iff.mp run_shared
  obtain ⟨⟨m, u⟩, hu, h2⟩ := Option.map_eq_some_iff.mp run_unshared
  have h4 : l = m := c80_same_values_partial (B := 8) (E := Val.E) (E' := Val.E) (by decide) (by decide)
    (Ex.apart_start rfl (by decide +kernel) (by decide +kernel)) rfl (fixed_sound (by decide +kernel)) (steps_sound hw)
    (Ex.apart_start rfl (by decide +kernel) (by decide +kernel)) rfl (fixed_sound (by decide +kernel)) (steps_sound hu) (h1.trans h2.symm)
    (answered_sound (answered_ask h1 answered_asked))
  exact ⟨l, w, u, steps_sound hw, h4 ▸ steps_sound hu, by rw [← List.length_map (f := Event.ask)]; exact congrArg List.length h1, by decide +kernel⟩

/-- When two slots of one skin hold the same dictionary, sharing shows: cleaning raises `KeyError`, while it succeeds for the
document with the same value that shares nothing. -/
theorem c80_shared_slots : (∃ v, readJ twice.2 8 twice.1 = some v ∧ readJ once.2 8 once.1 = some v ∧ v.Proper) ∧
    cleaned twice = some (.error .key) ∧ cleaned once = some (.ok ([], [s!!"a"])) := by
  have h1 : (readJ twice.2 8 twice.1).map proper = some true := by decide +kernel
  obtain ⟨v, hv, hp⟩ := Option.map_eq_some_iff.mp h1
  refine ⟨⟨v, hv, ?_, proper_sound v hp⟩, by decide +kernel, by decide +kernel⟩
  rw [← hv]
  decide +kernel

end Alias
end Spine
