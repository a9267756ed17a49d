import Verif.Spec.Alias
import Verif.Spec.Names
/-
Programs that use editors, as seen from outside: the values of the documents they open editors for, the calls and what is
observed of their outcome.  `accounts` says what the value model of `Verif.Model.Editor` predicts for such observations.
-/
namespace Spine
namespace Alias
variable {F : Type}

/-- what a call returns; `D` is the type of documents -/
inductive Out (D : Type) where
  | skins (removed : List Str × List Str) (images : List (Option Str))
  | anims (doc : D) (removed : List Str × List Str)
  | cleaned (removed : List Str × List Str)
  | scaled
  | doc (d : D)

/-- the document returned -/
def Out.doc? {D : Type} : Out D → Option D
  | .anims d _ => some d
  | .doc d => some d
  | _ => none

/-- the same with other documents -/
def Out.map {D D' : Type} (f : D → D') : Out D → Out D'
  | .skins r i => .skins r i
  | .anims d r => .anims (f d) r
  | .cleaned r => .cleaned r
  | .scaled => .scaled
  | .doc d => .doc (f d)

variable [PyRt F]

/-- a call on the heap with everything it returns -/
def Call.exec (E : Env F) (c : Call F) (e : Ed F) : M F (Except Err (Out (Ref F)) × Ed F) :=
  match c with
  | .eraseSkins n s => do
    let q ← Alias.eraseSkins E n s e
    return (q.1.map (fun r => .skins r.1 r.2), q.2)
  | .eraseAnims a t s => do
    let q ← Alias.eraseAnims E a t s e
    return (q.1.map (fun r => .anims r.1 r.2), q.2)
  | .clean => do
    let q ← Alias.clean E e
    return (q.1.map .cleaned, q.2)
  | .scale x y => do
    let q ← M.attempt (Alias.scale x y e.data)
    return (q.map (fun _ => .scaled), e)
  | .toJson => do
    let q ← M.attempt (e.toJson E)
    return (q.map .doc, e)

/-- the call in the value model -/
def Call.value (c : Call F) (v : Editor F) : Res (Editor F) (Out (JVal F)) :=
  match c with
  | .eraseSkins n s => let q := Editor.eraseSkins n s v; (q.1.map (fun r => .skins r.1 r.2), q.2)
  | .eraseAnims a t s => let q := Editor.eraseAnims a t s v; (q.1.map (fun r => .anims r.1 r.2), q.2)
  | .clean => let q := Editor.clean v; (q.1.map .cleaned, q.2)
  | .scale x y => let q := Editor.scale x y v; (q.1.map (fun _ => .scaled), q.2)
  | .toJson => (.ok (.doc v.toJson), v)

/-- the dictionary at a reference -/
def dictIn (h : Heap F) : Ref F → Option (Dict (Ref F))
  | .ptr a => match h[a]? with
    | some (.dict d) => some d
    | _ => none
  | _ => none

/-- the list at a reference -/
def listIn (h : Heap F) : Ref F → Option (List (Ref F))
  | .ptr a => match h[a]? with
    | some (.list l) => some l
    | _ => none
  | _ => none

/-- no two slots of one skin of the document hold the same dictionary -/
def SkinsApart (h : Heap F) (doc : Ref F) : Prop :=
  ∀ d l s m w, dictIn h doc = some d → (Dict.get? d s!!"skins").bind (listIn h) = some l → s ∈ l → dictIn h s = some m →
    (Dict.get? m s!!"attachments").bind (dictIn h) = some w → w.Pairwise (fun p q => ∀ b, p.2 = .ptr b → q.2 ≠ .ptr b)

/-- the class constants are held and have the values the library gives them, nested at most `B` levels deep -/
def World.Fixed (B : Nat) (E : Env F) (w : World F) : Prop :=
  ∀ v t, E.consts v t ∈ w.roots ∧ readJ w.heap B (E.consts v t) = some (.dict ((t.cls (F := F)).defaultsFor v))

/-- what can be observed of a step of a program -/
inductive Event (F : Type) where
  /-- the program works with its own objects -/
  | own
  /-- it opens an editor for a document with this value -/
  | opens (v : JVal F) (out : Except Err Unit)
  /-- it calls the editor number `i`; the outcome with the value of the document returned, if it is a JSON value -/
  | calls (i : Nat) (c : Call F) (out : Except Err (Out (Option (JVal F))))

/-- programs whose documents are JSON values nested at most `B` levels deep in which no two slots of one skin hold the same
dictionary; apart from that the documents may share objects in any way.  The program leaves the class constants as they are. -/
inductive World.Trace (B : Nat) (E : Env F) : World F → List (Event F) → World F → Prop
  | nil (w : World F) : Trace B E w [] w
  | own (w w' w'' : World F) (l : List (Event F)) : World.Own w w' → w'.Fixed B E → Trace B E w' l w'' → Trace B E w (.own :: l) w''
  | opened (w w'' : World F) (l : List (Event F)) (doc : Ref F) (v : JVal F) (e : Ed F) (h : Heap F) : w.Holds doc →
      readJ w.heap B doc = some v → v.Proper → SkinsApart w.heap doc → init E doc w.heap = (.ok e, h) →
      Trace B E { w with heap := h, eds := w.eds ++ [e] } l w'' → Trace B E w (.opens v (.ok ()) :: l) w''
  | failed (w w'' : World F) (l : List (Event F)) (doc : Ref F) (v : JVal F) (x : Err) (h : Heap F) : w.Holds doc →
      readJ w.heap B doc = some v → v.Proper → SkinsApart w.heap doc → init E doc w.heap = (.error x, h) →
      Trace B E { w with heap := h } l w'' → Trace B E w (.opens v (.error x) :: l) w''
  | returned (w w'' : World F) (l : List (Event F)) (i : Nat) (e : Ed F) (c : Call F) (o : Out (Ref F)) (e' : Ed F) (h : Heap F) :
      w.eds[i]? = some e → c.exec E e w.heap = (.ok (.ok o, e'), h) →
      Trace B E { heap := h, eds := w.eds.set i e', roots := o.doc?.toList ++ w.roots } l w'' →
        Trace B E w (.calls i c (.ok (o.map (readJ h E.lim))) :: l) w''
  | raised (w w'' : World F) (l : List (Event F)) (i : Nat) (e : Ed F) (c : Call F) (x : Err) (e' : Ed F) (h : Heap F) :
      w.eds[i]? = some e → c.exec E e w.heap = (.ok (.error x, e'), h) →
      Trace B E { w with heap := h, eds := w.eds.set i e' } l w'' → Trace B E w (.calls i c (.error x) :: l) w''

/-- the observations are those of the value model, up to the first answer it does not give -/
def accounts : List (Editor F) → List (Event F) → Prop
  | _, [] => True
  | vs, .own :: l => accounts vs l
  | vs, .opens v out :: l => match Editor.load v with
    | .ok e => out = .ok () ∧ accounts (vs ++ [e]) l
    | .error .unmodelled => True
    | .error x => out = .error x ∧ accounts vs l
  | vs, .calls i c out :: l => match vs[i]? with
    | none => False
    | some v => (c.value v).1 = .error .unmodelled ∨ (out = (c.value v).1.map (Out.map some) ∧ accounts (vs.set i (c.value v).2) l)

end Alias
end Spine
