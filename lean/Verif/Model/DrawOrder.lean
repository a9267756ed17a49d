import Verif.Model.Py
/-
Model of the draw-order rewriting in `data/data_types/draworder.py` (lines 37-106).
A `DrawOrderTimelineOffset` is a pair (slot, offset); the slots are only used through their name, so the functions take
the slot list as a list of any type with a `name`.
-/
namespace Spine
namespace DrawOrder
variable {α : Type}

/-- `OrderedDict({offset.slot: offset for offset in self.offsets})` (96): a later entry for the same slot wins -/
def offsetDict (offs : List (Str × Int)) : Dict Int := offs.foldl (fun d p => Dict.set d p.1 p.2) []

/-- the `for` loop over `enumerate(original_slots)` (42-46): (index, slot, new_index) for every slot with an offset -/
def operations (name : α → Str) (offs : Dict Int) : Nat → List α → List (Nat × α × Int)
  | _, [] => []
  | i, s :: r => match Dict.get? offs (name s) with
    | some o => (i, s, (i : Int) + o) :: operations name offs (i + 1) r
    | none => operations name offs (i + 1) r

/-- insert before the first element whose key is not smaller -/
def insertKey (x : α × Int) : List (α × Int) → List (α × Int)
  | [] => [x]
  | y :: r => if x.2 ≤ y.2 then x :: y :: r else y :: insertKey x r

/-- `sorted(operations, key=new_index)` (51); Python's sort is stable, and so is this one -/
def sortOps (l : List (α × Int)) : List (α × Int) := l.foldr insertKey []

/-- `_reorder_slots_with_offset` (37-55) -/
def reorder (name : α → Str) (offs : Dict Int) (orig : List α) : List α :=
  let ops := operations name offs 0 orig
  let popped := (ops.map (·.1)).reverse.foldl (fun l i => l.eraseIdx i) orig
  (sortOps (ops.map (·.2))).foldl (fun l op => pyInsert l op.2 op.1) popped

/-- `list.index(x)` -/
def indexOf? (x : Str) : List Str → Option Nat
  | [] => none
  | y :: r => if y = x then some 0 else (indexOf? x r).map (· + 1)

/-- the loop 75-80: new offset of every entry; a removed slot is skipped, `.index` raises ValueError -/
def adjustLoop (removed cleanOrig cleanNew : List Str) : Dict Int → Except Err (Dict Int)
  | [] => .ok []
  | (n, o) :: r =>
    if n ∈ removed then do
      let t ← adjustLoop removed cleanOrig cleanNew r
      return (n, o) :: t
    else match indexOf? n cleanOrig with
      | none => .error .value
      | some i => match indexOf? n cleanNew with
        | none => .error .value
        | some j => do
          let t ← adjustLoop removed cleanOrig cleanNew r
          return (n, (j : Int) - i) :: t

/-- `_adjust_draw_oder_offset_with_erased_slots` (57-86) -/
def adjust (name : α → Str) (removed : List Str) (slots : List α) (offs : Dict Int) (orig : List α) :
    Except Err (List (Str × Int)) := do
  let cleanOrig := (orig.map name).filter (fun x => x ∉ removed)
  let cleanNew := (slots.map name).filter (fun x => x ∉ removed)
  let adj ← adjustLoop removed cleanOrig cleanNew offs
  return adj.filter (fun p => p.1 ∉ removed ∧ p.2 ≠ 0)

/-- `remove_offsets_with_ids` (88-106): the new list of offsets -/
def removeOffsets (name : α → Str) (removed : List Str) (orig : List α) (offs : List (Str × Int)) :
    Except Err (List (Str × Int)) :=
  let d := offsetDict offs
  adjust name removed (reorder name d orig) d orig

end DrawOrder
end Spine
