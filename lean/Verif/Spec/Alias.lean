import Verif.Model.Alias
/-
Vocabulary for statements about sharing: which objects can be reached from a reference and from an editor, and what a program
that uses editors may do with the objects it holds.
-/
namespace Spine
namespace Alias
variable {F : Type}

/-- the references held by an object -/
def Obj.refs : Obj F → List (Ref F)
  | .list l => l
  | .dict d => d.map (·.2)
  | .inst _ d => d.map (·.2)

/-- the address `a` can be reached from the reference -/
inductive Reach (h : Heap F) : Ref F → Nat → Prop
  | here (a : Nat) : Reach h (.ptr a) a
  | there (a : Nat) (o : Obj F) (r : Ref F) (b : Nat) : h[a]? = some o → r ∈ o.refs → Reach h r b → Reach h (.ptr a) b

/-- the address can be reached from an attribute of the editor -/
def Ed.Reach (h : Heap F) (e : Ed F) (a : Nat) : Prop :=
  Alias.Reach h e.skeleton a ∨ Alias.Reach h e.data a ∨ Alias.Reach h e.images a ∨
    ∃ p ∈ e.graph.nodes, Alias.Reach h p.2.data.2 a

/-- a running program: the heap, the editors in use, and the references the program itself holds (documents it has built,
documents it has got from editors, the class constants of the library) -/
structure World (F : Type) where
  heap : Heap F
  eds : List (Ed F)
  roots : List (Ref F)

/-- the program can get at the object without going through an editor -/
def World.Owns (w : World F) (a : Nat) : Prop := ∃ r ∈ w.roots, Reach w.heap r a

/-- the program can get at the value -/
def World.Holds (w : World F) (r : Ref F) : Prop := ∀ a, r = .ptr a → w.Owns a

/-- nothing can be reached in two ways: the objects of an editor belong neither to the program nor to another editor -/
structure World.Apart (w : World F) : Prop where
  own : ∀ a, w.Owns a → a < w.heap.length
  sound : ∀ e ∈ w.eds, ∀ a, e.Reach w.heap a → a < w.heap.length
  caller : ∀ e ∈ w.eds, ∀ a, e.Reach w.heap a → ¬ w.Owns a
  editors : ∀ (i j : Nat) (e f : Ed F), w.eds[i]? = some e → w.eds[j]? = some f → i ≠ j → ∀ a, e.Reach w.heap a → ¬ f.Reach w.heap a

/-- what the program does by itself: it builds an object, changes one it can get at in any way, keeps a reference, forgets some -/
inductive World.Own : World F → World F → Prop
  | build (w : World F) (o : Obj F) : (∀ r ∈ o.refs, w.Holds r) →
      Own w { w with heap := w.heap ++ [o], roots := .ptr w.heap.length :: w.roots }
  | change (w : World F) (a : Nat) (o : Obj F) : w.Owns a → (∀ r ∈ o.refs, w.Holds r) → Own w { w with heap := w.heap.set a o }
  | keep (w : World F) (r : Ref F) : w.Holds r → Own w { w with roots := r :: w.roots }
  | forget (w : World F) (l : List (Ref F)) : (∀ r ∈ l, r ∈ w.roots) → Own w { w with roots := l }

variable [PyRt F]

/-- the program opens an editor for a value it holds, successfully or not -/
inductive World.Open (E : Env F) : World F → World F → Prop
  | opened (w : World F) (doc : Ref F) (e : Ed F) (h : Heap F) : w.Holds doc → init E doc w.heap = (.ok e, h) →
      Open E w { w with heap := h, eds := w.eds ++ [e] }
  | failed (w : World F) (doc : Ref F) (x : Err) (h : Heap F) : w.Holds doc → init E doc w.heap = (.error x, h) →
      Open E w { w with heap := h }

/-- the program calls a method of the editor number `i`, which returns normally or raises an exception; it keeps the document
that is returned -/
inductive World.Calls (E : Env F) (i : Nat) : World F → World F → Prop
  | returned (w : World F) (e : Ed F) (c : Call F) (d : Option (Ref F)) (e' : Ed F) (h : Heap F) : w.eds[i]? = some e →
      c.run E e w.heap = (.ok (.ok d, e'), h) →
      Calls E i w { heap := h, eds := w.eds.set i e', roots := d.toList ++ w.roots }
  | raised (w : World F) (e : Ed F) (c : Call F) (x : Err) (e' : Ed F) (h : Heap F) : w.eds[i]? = some e →
      c.run E e w.heap = (.ok (.error x, e'), h) →
      Calls E i w { w with heap := h, eds := w.eds.set i e' }

/-- one step of a program -/
inductive World.Step (E : Env F) (w w' : World F) : Prop
  | own : World.Own w w' → Step E w w'
  | opens : World.Open E w w' → Step E w w'
  | calls (i : Nat) : World.Calls E i w w' → Step E w w'

/-- a program of any length -/
inductive World.Steps (E : Env F) : World F → World F → Prop
  | nil (w : World F) : Steps E w w
  | cons (w w' w'' : World F) : Steps E w w' → World.Step E w' w'' → Steps E w w''

end Alias
end Spine
