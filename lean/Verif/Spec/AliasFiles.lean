import Verif.Model.AliasFiles
import Verif.Spec.AliasValue
/-
Programs that open editors for files, call them and save them to files: what such a program observes, with objects and sharing
(`Mach`) and with values (`VMach`).
-/
namespace Spine
mutual
/-- how deep lists and dictionaries are nested -/
def JVal.depth {F : Type} : JVal F → Nat
  | .list l => depthL l
  | .dict d => depthD d
  | _ => 0
def JVal.depthL {F : Type} : List (JVal F) → Nat
  | [] => 0
  | v :: r => max (v.depth + 1) (depthL r)
def JVal.depthD {F : Type} : List (Str × JVal F) → Nat
  | [] => 0
  | (_, v) :: r => max (v.depth + 1) (depthD r)
end

namespace Alias
open Files
variable {F : Type}

/-- a step of a program -/
inductive Cmd (F : Type) where
  /-- a new editor for a file -/
  | load (p : Str)
  /-- a call of the editor number `i` -/
  | call (i : Nat) (c : Call F)
  /-- the editor number `i` is saved to a file -/
  | save (i : Nat) (p : Str)

/-- what is observed of a step -/
inductive Ans (F : Type) where
  | loaded (x : Except Err Unit)
  | called (x : Except Err (Out (Option (JVal F))))
  | saved (x : Except Fault Unit)
  /-- there is no such editor -/
  | absent

/-- the machine with objects -/
structure Mach (F : Type) where
  heap : Heap F
  eds : List (Ed F)
  fs : FS

/-- the machine with values -/
structure VMach (F : Type) where
  eds : List (Editor F)
  fs : FS

variable [JsonRt F]

def Mach.step (E : Env F) (m : Mach F) : Cmd F → Ans F × Mach F
  | .load p => match fromJsonFile E m.fs p m.heap with
    | (.error x, h) => (.loaded (.error x), { m with heap := h })
    | (.ok e, h) => (.loaded (.ok ()), { m with heap := h, eds := m.eds ++ [e] })
  | .call i c => match m.eds[i]? with
    | none => (.absent, m)
    | some e => match c.exec E e m.heap with
      | (.error x, h) => (.called (.error x), { m with heap := h })
      | (.ok (x, e), h) => (.called (x.map (Out.map (readJ h E.lim))), { m with heap := h, eds := m.eds.set i e })
  | .save i p => match m.eds[i]? with
    | none => (.absent, m)
    | some e => match toJsonFile E m.fs e p m.heap with
      | (x, fs, h) => (.saved x, { m with heap := h, fs := fs })

def VMach.step (m : VMach F) : Cmd F → Ans F × VMach F
  | .load p => match Editor.fromJsonFile m.fs p with
    | .error x => (.loaded (.error x), m)
    | .ok e => (.loaded (.ok ()), { m with eds := m.eds ++ [e] })
  | .call i c => match m.eds[i]? with
    | none => (.absent, m)
    | some e => (.called ((c.value e).1.map (Out.map some)), { m with eds := m.eds.set i (c.value e).2 })
  | .save i p => match m.eds[i]? with
    | none => (.absent, m)
    | some e => match Editor.toJsonFile m.fs e p with
      | (.error x, fs) => (.saved (.error (.os x)), { m with fs := fs })
      | (.ok (), fs) => (.saved (.ok ()), { m with fs := fs })

def Mach.run (E : Env F) : List (Cmd F) → Mach F → List (Ans F) × Mach F
  | [], m => ([], m)
  | c :: l, m => ((m.step E c).1 :: (run E l (m.step E c).2).1, (run E l (m.step E c).2).2)

def VMach.run : List (Cmd F) → VMach F → List (Ans F) × VMach F
  | [], m => ([], m)
  | c :: l, m => ((m.step c).1 :: (run l (m.step c).2).1, (run l (m.step c).2).2)

/-- what is read is nested at most `B` levels deep, and the model with values has an answer -/
def VMach.Within (B : Nat) (m : VMach F) : Cmd F → Prop
  | .load p => ∀ t (v : JVal F), m.fs.read p = .ok t → JsonText.decode t = .ok v → v.depth ≤ B ∧ Editor.load v ≠ .error .unmodelled
  | .call i c => ∀ e, m.eds[i]? = some e → (c.value e).1 ≠ .error .unmodelled
  | .save _ _ => True

def VMach.WithinAll (B : Nat) : List (Cmd F) → VMach F → Prop
  | [], _ => True
  | c :: l, m => m.Within B c ∧ WithinAll B l (m.step c).2

end Alias
end Spine
