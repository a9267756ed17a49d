import Verif.Model.Editor
import Verif.Model.Traverse
/-
Model of loading and editing on a heap: lists, dictionaries and objects have an identity, they can be shared, and every
`copy.deepcopy`, every assignment and every deletion of the library is a step on the heap.  The other files of the model work
on immutable values and take `deepcopy` for the identity; here it is the algorithm of the standard library, with its memo.

Modelled: base_type.py 63-162 (default values, `set_default_values`, `to_json`), the constructors of every class,
`parse_skin_attachment_data` (skin.py 28-55), spine_anim_data.py 31-191 (`JsonSpineAnimationData`, `SpineAnimationData`,
`remove_skin`), animation.py 94-117, draworder.py 57-106, bone.py 45-47 and spine_animation_editor.py 51-353.

Simplifications
* objects are never freed, and a new object gets the next address;
* functions that only read (`get_unused_slots_and_attachments`, `get_images_references`, the tests of `to_json`, the shape of
  the graph) are the functions of the value model applied to what is read from the heap;
* the graph nodes hold their data object; the dictionary `{"idx": …, "data": …}` around it (spine_nodes.py 113-115) is a pair.
  Node data is copied after the graph is built instead of while it is built, and the data of attachments and images, which is
  never read, is dropped;
* recursion is limited by `Env.lim`; deeper recursion (in particular through a cycle) is `Err.diverge` (RecursionError);
* the lists and dictionaries of `None` that `set_default_values` builds and drops (base_type.py 145-152) are omitted.
-/
namespace Spine
namespace Alias
open JVal
variable {F : Type}

/-- the classes whose objects live below a document -/
inductive Tag where
  | bone | slot | skin | att (k : AttKind) | slotKf | slotTl | boneRotate | boneTranslate | boneTl | offset | draw | anim
  | events | eventTl | ik | ikTl | transform | transformTl | path | pathTl | deform | document
  deriving DecidableEq, Repr

/-- the class of a tag -/
def Tag.cls [PyRt F] : Tag → Cls F
  | .bone => boneCls
  | .slot => slotCls
  | .skin => skinCls
  | .att k => AttKind.cls k
  | .slotKf => slotKeyframeCls
  | .slotTl => slotTimelineCls
  | .boneRotate => boneRotateCls
  | .boneTranslate => boneTranslateCls
  | .boneTl => boneTimelineCls
  | .offset => offsetCls
  | .draw => drawCls
  | .anim => animationCls
  | .events => eventsCls
  | .eventTl => eventTimelineCls
  | .ik => ikCls
  | .ikTl => ikTimelineCls
  | .transform => transformCls
  | .transformTl => transformTimelineCls
  | .path => pathCls
  | .pathTl => pathTimelineCls
  | .deform => deformCls
  | .document => documentCls

/-- what a variable holds: an immutable value, or a reference to an object of the heap -/
inductive Ref (F : Type) where
  | null
  | bool (b : Bool)
  | int (i : Int)
  | flt (f : F)
  | str (s : Str)
  | ptr (a : Nat)

/-- an object of the heap -/
inductive Obj (F : Type) where
  | list (l : List (Ref F))
  | dict (d : Dict (Ref F))
  | inst (t : Tag) (d : Dict (Ref F))

/-- the heap; an address is an index -/
abbrev Heap (F : Type) := List (Obj F)

/-- a computation on the heap; what an exception leaves behind is part of the result -/
def M (F α : Type) := Heap F → Except Err α × Heap F

instance : Monad (M F) where
  pure x := fun h => (.ok x, h)
  bind m f := fun h => match m h with
    | (.ok x, h) => f x h
    | (.error e, h) => (.error e, h)

namespace M
/-- `raise` -/
def raise {α : Type} (e : Err) : M F α := fun h => (.error e, h)
/-- a computation that does not touch the heap -/
def lift {α : Type} (r : Except Err α) : M F α := fun h => (r, h)
/-- a new object -/
def alloc (o : Obj F) : M F (Ref F) := fun h => (.ok (.ptr h.length), h ++ [o])
/-- the object at an address; a dangling reference does not occur -/
def look (a : Nat) : M F (Obj F) := fun h => match h[a]? with
  | some o => (.ok o, h)
  | none => (.error .unmodelled, h)
/-- the object at an address is changed -/
def store (a : Nat) (o : Obj F) : M F Unit := fun h => (.ok (), h.set a o)
/-- what can be read from the heap; `none` when it is deeper than the limit or does not have the expected shape -/
def view {α : Type} (f : Heap F → Option α) (e : Err) : M F α := fun h => match f h with
  | some x => (.ok x, h)
  | none => (.error e, h)
/-- the outcome as a value -/
def attempt {α : Type} (m : M F α) : M F (Except Err α) := fun h => (.ok (m h).1, (m h).2)

/-- `[f(x) for x in l]` -/
def mapL {α β : Type} (f : α → M F β) : List α → M F (List β)
  | [] => pure []
  | x :: r => do
    let y ← f x
    let s ← mapL f r
    return y :: s

/-- `{k: f(v) for k, v in d.items()}` -/
def mapV {α β : Type} (f : α → M F β) (d : Dict α) : M F (Dict β) :=
  mapL (fun p => do
    let y ← f p.2
    return (p.1, y)) d

/-- `for x in l: f(x)` -/
def each {α : Type} (f : α → M F Unit) : List α → M F Unit
  | [] => pure ()
  | x :: r => do
    f x
    each f r
end M

open M

/-- `v is None` -/
def Ref.isNull : Ref F → Bool
  | .null => true
  | _ => false

/-! ### copy.deepcopy -/

/-- the memo of `deepcopy`: old address ↦ new object -/
abbrev Memo (F : Type) := List (Nat × Ref F)

def copyL (f : Memo F → Ref F → M F (Ref F × Memo F)) : List (Ref F) → Memo F → M F (List (Ref F) × Memo F)
  | [], m => pure ([], m)
  | r :: l, m => do
    let (x, m) ← f m r
    let (y, m) ← copyL f l m
    return (x :: y, m)

def copyD (f : Memo F → Ref F → M F (Ref F × Memo F)) : Dict (Ref F) → Memo F → M F (Dict (Ref F) × Memo F)
  | [], m => pure ([], m)
  | (k, r) :: l, m => do
    let (x, m) ← f m r
    let (y, m) ← copyD f l m
    return ((k, x) :: y, m)

/-- the new object gets its content -/
def fill (r : Ref F) (o : Obj F) : M F Unit :=
  match r with
  | .ptr a => store a o
  | _ => pure ()

/-- one level of `deepcopy`: immutable values are themselves, an object met before is its copy; otherwise the copy is created
and entered in the memo first, and filled with the copies of the content (`_deepcopy_list`, `_deepcopy_dict`, `_reconstruct`) -/
def copyStep (f : Memo F → Ref F → M F (Ref F × Memo F)) (m : Memo F) (r : Ref F) : M F (Ref F × Memo F) :=
  match r with
  | .ptr a => match m.lookup a with
    | some b => pure (b, m)
    | none => do
      let o ← look a
      match o with
      | .list l => do
        let b ← alloc (.list [])
        let (l, m) ← copyL f l ((a, b) :: m)
        fill b (.list l)
        return (b, m)
      | .dict d => do
        let b ← alloc (.dict [])
        let (d, m) ← copyD f d ((a, b) :: m)
        fill b (.dict d)
        return (b, m)
      | .inst t d => do
        let b ← alloc (.inst t [])
        let (d, m) ← copyD f d ((a, b) :: m)
        fill b (.inst t d)
        return (b, m)
  | r => pure (r, m)

def copy : Nat → Memo F → Ref F → M F (Ref F × Memo F)
  | 0 => copyStep (fun _ _ => raise .diverge)
  | n + 1 => copyStep (copy n)

/-! ### Reading the heap -/

section Read
variable [PyRt F]

/-- `[f(x) for x in l]`, when every `f(x)` exists -/
def mapO {α β : Type} (f : α → Option β) : List α → Option (List β)
  | [] => some []
  | x :: r => match f x, mapO f r with
    | some y, some s => some (y :: s)
    | _, _ => none

def mapOD {α β : Type} (f : α → Option β) (d : Dict α) : Option (Dict β) :=
  mapO (fun p => (f p.2).map (fun y => (p.1, y))) d

/-- the value found from a reference -/
def readStep (f : Ref F → Option (SVal F)) (h : Heap F) : Ref F → Option (SVal F)
  | .null => some .null
  | .bool b => some (.bool b)
  | .int i => some (.int i)
  | .flt x => some (.flt x)
  | .str s => some (.str s)
  | .ptr a => match h[a]? with
    | none => none
    | some (.list l) => (mapO f l).map .list
    | some (.dict d) => (mapOD f d).map .dict
    | some (.inst t d) => (mapOD f d).map (.obj t.cls)

def read (h : Heap F) : Nat → Ref F → Option (SVal F)
  | 0 => readStep (fun _ => none) h
  | n + 1 => readStep (read h n) h

/-- the JSON value found from a reference -/
def readJ (h : Heap F) (n : Nat) (r : Ref F) : Option (JVal F) := (read h n r).bind SVal.plain

/-- the attributes of an object of class `t`, when they are plain -/
def attrsOf (h : Heap F) (n : Nat) (t : Tag) : Ref F → Option (Attrs F)
  | .ptr a => match h[a]? with
    | some (.inst t' d) => if t' = t then mapOD (readJ h n) d else none
    | _ => none
  | _ => none

/-- the attributes of an object of class `t` -/
def fields (h : Heap F) (t : Tag) : Ref F → Option (Dict (Ref F))
  | .ptr a => match h[a]? with
    | some (.inst t' d) => if t' = t then some d else none
    | _ => none
  | _ => none

def listAt {α : Type} (h : Heap F) (f : Ref F → Option α) : Ref F → Option (List α)
  | .ptr a => match h[a]? with
    | some (.list l) => mapO f l
    | _ => none
  | _ => none

def dictAt {α : Type} (h : Heap F) (f : Ref F → Option α) : Ref F → Option (Dict α)
  | .ptr a => match h[a]? with
    | some (.dict d) => mapOD f d
    | _ => none
  | _ => none

/-- an attribute that is a string or null -/
def optAt (a : Attrs F) (k : Str) : Option (Option Str) :=
  match optStr (a.val k) with
  | .ok s => some s
  | .error _ => none

def viewBone (h : Heap F) (n : Nat) (r : Ref F) : Option (Bone F) := do
  let a ← attrsOf h n .bone r
  let s ← optAt a s!!"name"
  let p ← optAt a s!!"parent"
  let s ← s
  return { name := s, parent := p, rest := a.without [s!!"name", s!!"parent"] }

def viewSlot (h : Heap F) (n : Nat) (r : Ref F) : Option (Slot F) := do
  let a ← attrsOf h n .slot r
  let s ← optAt a s!!"name"
  let b ← optAt a s!!"bone"
  let t ← optAt a s!!"attachment"
  let c ← optAt a s!!"color"
  let s ← s
  return { name := s, bone := b, attachment := t, color := c, dark := a.val s!!"dark", blend := a.val s!!"blend" }

def viewAtt (h : Heap F) (n : Nat) : Ref F → Option (Att F)
  | .ptr a => match h[a]? with
    | some (.inst (.att k) d) => match mapOD (readJ h n) d with
      | some x => if Att.typed x then some { kind := k, attrs := x } else none
      | none => none
    | _ => none
  | _ => none

def viewSkin (h : Heap F) (n : Nat) (r : Ref F) : Option (Skin F) := do
  let d ← fields h .skin r
  match Dict.get? d s!!"name" with
  | some (.str s) => do
    let w ← Dict.get? d s!!"attachments"
    let at' ← dictAt h (dictAt h (viewAtt h n)) w
    return { name := s, attachments := at' }
  | _ => none

def viewKf (h : Heap F) (n : Nat) (r : Ref F) : Option (SlotKf F) := do
  let a ← attrsOf h n .slotKf r
  let s ← optAt a s!!"name"
  return { name := s, rest := a.without [s!!"name"] }

/-- a list of objects of class `t` under the attribute `k` -/
def listField {α : Type} (h : Heap F) (f : Ref F → Option α) (d : Dict (Ref F)) (k : Str) : Option (List α) := do
  let r ← Dict.get? d k
  listAt h f r

def dictField {α : Type} (h : Heap F) (f : Ref F → Option α) (d : Dict (Ref F)) (k : Str) : Option (Dict α) := do
  let r ← Dict.get? d k
  dictAt h f r

def viewSlotTl (h : Heap F) (n : Nat) (r : Ref F) : Option (SlotTl F) := do
  let d ← fields h .slotTl r
  let a ← listField h (viewKf h n) d s!!"attachment"
  let c ← listField h (viewKf h n) d s!!"color"
  let t ← listField h (viewKf h n) d s!!"twoColor"
  return { attachment := a, color := c, twoColor := t }

def viewBoneTl (h : Heap F) (n : Nat) (r : Ref F) : Option (BoneTl F) := do
  let d ← fields h .boneTl r
  let a ← listField h (attrsOf h n .boneRotate) d s!!"rotate"
  let b ← listField h (attrsOf h n .boneTranslate) d s!!"translate"
  let c ← listField h (attrsOf h n .boneRotate) d s!!"scale"
  let e ← listField h (attrsOf h n .boneTranslate) d s!!"shear"
  return { rotate := a, translate := b, scale := c, shear := e }

def viewOffset (h : Heap F) (n : Nat) (r : Ref F) : Option (Str × Int) := do
  let a ← attrsOf h n .offset r
  match Dict.get? a s!!"slot", Dict.get? a s!!"offset" with
  | some (.str s), some (.int i) => return (s, i)
  | _, _ => none

def viewDraw (h : Heap F) (n : Nat) (r : Ref F) : Option (DrawTl F) := do
  let d ← fields h .draw r
  let t ← Dict.get? d s!!"time"
  let t ← readJ h n t
  let o ← listField h (viewOffset h n) d s!!"offsets"
  return { time := t, offsets := o }

def viewAnim (h : Heap F) (n : Nat) (r : Ref F) : Option (Anim F) := do
  let d ← fields h .anim r
  let ik ← dictField h (listAt h (attrsOf h n .ikTl)) d s!!"ik"
  let dr ← listField h (viewDraw h n) d s!!"drawOrder"
  let bo ← dictField h (viewBoneTl h n) d s!!"bones"
  let sl ← dictField h (viewSlotTl h n) d s!!"slots"
  let ev ← listField h (attrsOf h n .eventTl) d s!!"events"
  let tr ← dictField h (listAt h (attrsOf h n .transformTl)) d s!!"transform"
  let pa ← dictField h (dictAt h (listAt h (attrsOf h n .pathTl))) d s!!"path"
  let de ← dictField h (dictAt h (dictAt h (listAt h (attrsOf h n .deform)))) d s!!"deform"
  return { ik := ik, drawOrder := dr, bones := bo, slots := sl, events := ev, transform := tr, path := pa, deform := de }

/-- the document as a value of the value model; `none` when a name is not a string or something is too deep -/
def viewData (h : Heap F) (n : Nat) (r : Ref F) : Option (AnimData F) := do
  let d ← fields h .document r
  let bo ← listField h (viewBone h n) d s!!"bones"
  let sl ← listField h (viewSlot h n) d s!!"slots"
  let sk ← listField h (viewSkin h n) d s!!"skins"
  let ev ← dictField h (attrsOf h n .events) d s!!"events"
  let ik ← listField h (attrsOf h n .ik) d s!!"ik"
  let tr ← listField h (attrsOf h n .transform) d s!!"transform"
  let pa ← listField h (attrsOf h n .path) d s!!"path"
  let an ← dictField h (viewAnim h n) d s!!"animations"
  return { bones := bo, slots := sl, skins := sk, events := ev, ik := ik, transform := tr, path := pa, animations := an }

end Read

/-! ### Python operations on references -/

/-- the class constants `DEFAULT_VALUES` (false) / `SPINE_3_8_DEFAULT_VALUES` (true) of every class, objects of the heap like
any other, and the recursion limit -/
structure Env (F : Type) where
  lim : Nat
  consts : Bool → Tag → Ref F

/-- `copy.deepcopy(x)` -/
def deepcopy (E : Env F) (r : Ref F) : M F (Ref F) := do
  let (x, _) ← copy E.lim [] r
  return x

/-- the object behind a reference -/
def deref (r : Ref F) : M F (Option (Obj F)) :=
  match r with
  | .ptr a => do
    let o ← look a
    return some o
  | _ => pure none

/-- `if v` -/
def truthy [PyRt F] : Ref F → M F Bool
  | .null => pure false
  | .bool b => pure b
  | .int i => pure (i ≠ 0)
  | .flt f => pure (!(PyRt.feqInt f 0))
  | .str s => pure (!s.isEmpty)
  | .ptr a => do
    match ← look a with
    | .list l => return !l.isEmpty
    | .dict d => return !d.isEmpty
    | .inst _ _ => return true

/-- `for x in v` -/
def iter (r : Ref F) : M F (List (Ref F)) :=
  match r with
  | .str s => pure (s.map (fun c => .str [c]))
  | r => do
    match ← deref r with
    | some (.list l) => return l
    | some (.dict d) => return d.map (fun p => .str p.1)
    | _ => raise .type

/-- the pairs (key, v[key]) for `key in v` -/
def dictItems (r : Ref F) : M F (Dict (Ref F)) :=
  match r with
  | .str [] => pure []
  | r => do
    match ← deref r with
    | some (.dict d) => return d
    | some (.list []) => return []
    | some (.list _) => raise .unmodelled
    | _ => raise .type

/-- `v.items()` -/
def itemsOf (r : Ref F) : M F (Dict (Ref F)) := do
  match ← deref r with
  | some (.dict d) => return d
  | _ => raise .attribute

/-- dictionaries of attachments; other shapes are not modelled -/
def level (r : Ref F) : M F (Dict (Ref F)) := do
  match ← deref r with
  | some (.dict d) => return d
  | _ => raise .unmodelled

/-- `v[k]` -/
def subscript (r : Ref F) (k : Str) : M F (Ref F) := do
  match ← deref r with
  | some (.dict d) => match Dict.get? d k with
    | some v => return v
    | none => raise .key
  | _ => raise .type

/-- `v[k] = x` on a dictionary -/
def setItem (r : Ref F) (k : Str) (x : Ref F) : M F Unit := do
  match ← deref r with
  | some (.dict d) => fill r (.dict (Dict.set d k x))
  | _ => raise .type

/-- `del v[k]` on a dictionary -/
def delItem (r : Ref F) (k : Str) : M F Unit := do
  match ← deref r with
  | some (.dict d) => if Dict.has d k then fill r (.dict (Dict.del d k)) else raise .key
  | _ => raise .type

/-- `obj.k` -/
def getAttr (r : Ref F) (k : Str) : M F (Ref F) := do
  match ← deref r with
  | some (.inst _ d) => match Dict.get? d k with
    | some v => return v
    | none => raise .attribute
  | _ => raise .attribute

/-- `obj.k = x` -/
def setAttr (r : Ref F) (k : Str) (x : Ref F) : M F Unit := do
  match ← deref r with
  | some (.inst t d) => fill r (.inst t (Dict.set d k x))
  | _ => raise .attribute

/-- the elements of a list -/
def elems (r : Ref F) : M F (List (Ref F)) := do
  match ← deref r with
  | some (.list l) => return l
  | _ => raise .type

/-! ### Constructors -/

section Init
variable [PyRt F]

/-- `values or {}` followed by `.get` -/
def orDict (r : Ref F) : M F (Dict (Ref F)) := do
  if ← truthy r then do
    match ← deref r with
    | some (.dict d) => return d
    | _ => raise .attribute
  else return []

/-- the first line of the constructors of leaf classes -/
def values (c : Cls F) (r : Ref F) : M F (Dict (Ref F)) :=
  if c.orStyle then orDict r
  else match r with
    | .null => pure []
    | r => itemsOf r

/-- `SpineData.__init__` (base_type.py 41-61) only looks at the keys -/
def check (known required : List Str) (d : Dict (Ref F)) : M F Unit :=
  lift (Cls.check (F := F) known required (dmap (fun _ => .null) d))

/-- constructor of a leaf class: the values of the attributes are the very objects of the argument -/
def newLeaf (t : Tag) (r : Ref F) : M F (Ref F) := do
  let d ← values (F := F) t.cls r
  check (t.cls (F := F)).attrs (t.cls (F := F)).required d
  alloc (.inst t ((t.cls (F := F)).attrs.map (fun k => (k, (Dict.get? d k).getD .null))))

/-- `[f(x) for x in v]` -/
def listOf (f : Ref F → M F (Ref F)) (r : Ref F) : M F (Ref F) := do
  let l ← iter r
  let l ← mapL f l
  alloc (.list l)

/-- `[f(x) for x in values.get(k, [])]` -/
def getList (d : Dict (Ref F)) (k : Str) (f : Ref F → M F (Ref F)) : M F (Ref F) :=
  match Dict.get? d k with
  | none => alloc (.list [])
  | some r => listOf f r

/-- `{key: f(values[k][key]) for key in values.get(k, {})}` -/
def getDict (d : Dict (Ref F)) (k : Str) (f : Ref F → M F (Ref F)) : M F (Ref F) :=
  match Dict.get? d k with
  | none => alloc (.dict [])
  | some r => do
    let e ← dictItems r
    let e ← mapV f e
    alloc (.dict e)

/-- `{k: f(v) for k, v in values.items()}` -/
def dictOf (f : Ref F → M F (Ref F)) (r : Ref F) : M F (Ref F) := do
  let e ← itemsOf r
  let e ← mapV f e
  alloc (.dict e)

/-- `skin_data.get("type")` as the argument of the `if` chain (skin.py 34-54) -/
def kindOf (d : Dict (Ref F)) : Except Err AttKind :=
  match Dict.get? d s!!"type" with
  | none => Att.kindOf (F := F) []
  | some .null => Att.kindOf (F := F) []
  | some (.str t) => Att.kindOf (F := F) [(s!!"type", .str t)]
  | some _ => .error .value

/-- `parse_skin_attachment_data` (skin.py 28-55): the result is a copy whose entries are replaced one by one, while the
argument is traversed -/
def parseAttachments (E : Env F) (r : Ref F) : M F (Ref F) := do
  let res ← deepcopy E r
  let d ← level r
  each (fun p => do
    let e ← level p.2
    each (fun q => do
      let x ← itemsOf q.2
      let k ← lift (kindOf x)
      let o ← newLeaf (.att k) q.2
      let s ← subscript res p.1
      setItem s q.1 o) e) d
  return res

/-- `Skin38(values)` (skin.py 58-71) -/
def newSkin (E : Env F) (r : Ref F) : M F (Ref F) := do
  let d ← orDict r
  let w := (Dict.get? d s!!"attachments").getD .null
  let o ← alloc (.inst .skin [(s!!"name", (Dict.get? d s!!"name").getD .null), (s!!"attachments", w)])
  check [s!!"name", s!!"attachments"] [] d
  if w.isNull then return o
  else do
    let x ← parseAttachments E w
    setAttr o s!!"attachments" x
    return o

/-- `SlotTimeline(values)` (slot.py 61-80) -/
def newSlotTl (r : Ref F) : M F (Ref F) := do
  let d ← orDict r
  let a ← getList d s!!"attachment" (newLeaf .slotKf)
  let c ← getList d s!!"color" (newLeaf .slotKf)
  let t ← getList d s!!"twoColor" (newLeaf .slotKf)
  check [s!!"attachment", s!!"color", s!!"twoColor"] [] d
  alloc (.inst .slotTl [(s!!"attachment", a), (s!!"color", c), (s!!"twoColor", t)])

/-- `BoneTimeline(values)` (bone.py 114-140) -/
def newBoneTl (r : Ref F) : M F (Ref F) := do
  let d ← orDict r
  let a ← getList d s!!"rotate" (newLeaf .boneRotate)
  let b ← getList d s!!"translate" (newLeaf .boneTranslate)
  let c ← getList d s!!"scale" (newLeaf .boneRotate)
  let e ← getList d s!!"shear" (newLeaf .boneTranslate)
  check [s!!"rotate", s!!"translate", s!!"scale", s!!"shear"] [] d
  alloc (.inst .boneTl [(s!!"rotate", a), (s!!"translate", b), (s!!"scale", c), (s!!"shear", e)])

/-- `DrawOrderTimeline(values)` (draworder.py 23-35) -/
def newDraw (r : Ref F) : M F (Ref F) := do
  let d ← orDict r
  let o ← getList d s!!"offsets" (newLeaf .offset)
  check [s!!"time", s!!"offsets"] [] d
  alloc (.inst .draw [(s!!"time", (Dict.get? d s!!"time").getD (.int 0)), (s!!"offsets", o)])

/-- `values.get(k, {})` -/
def getOrNew (d : Dict (Ref F)) (k : Str) : M F (Ref F) :=
  match Dict.get? d k with
  | some r => pure r
  | none => alloc (.dict [])

/-- `Animation(values)` (animation.py 27-92) -/
def newAnim (r : Ref F) : M F (Ref F) := do
  let d ← orDict r
  let ik ← getDict d s!!"ik" (listOf (newLeaf .ikTl))
  let dr ← getList d s!!"drawOrder" newDraw
  let bo ← getDict d s!!"bones" newBoneTl
  let sl ← getDict d s!!"slots" newSlotTl
  let ev ← getList d s!!"events" (newLeaf .eventTl)
  let tr ← getDict d s!!"transform" (listOf (newLeaf .transformTl))
  let pa ← getOrNew d s!!"path"
  let pa ← dictOf (dictOf (listOf (newLeaf .pathTl))) pa
  let de ← getOrNew d s!!"deform"
  let de ← dictOf (dictOf (dictOf (listOf (newLeaf .deform)))) de
  check Anim.known [] d
  alloc (.inst .anim [(s!!"ik", ik), (s!!"drawOrder", dr), (s!!"bones", bo), (s!!"slots", sl), (s!!"events", ev),
    (s!!"transform", tr), (s!!"path", pa), (s!!"deform", de)])

/-- `SpineAnimationData(data)` (spine_anim_data.py 60-86) -/
def newData (E : Env F) (doc : Ref F) : M F (Ref F) := do
  let c ← deepcopy E doc
  delItem c s!!"skeleton"
  let d ← level c
  let bo ← subscript c s!!"bones"
  let bo ← listOf (newLeaf .bone) bo
  let sl ← subscript c s!!"slots"
  let sl ← listOf (newLeaf .slot) sl
  let sk ← subscript c s!!"skins"
  let sk ← listOf (newSkin E) sk
  let ev ← getDict d s!!"events" (newLeaf .events)
  let ik ← getList d s!!"ik" (newLeaf .ik)
  let tr ← getList d s!!"transform" (newLeaf .transform)
  let pa ← getList d s!!"path" (newLeaf .path)
  let an ← getDict d s!!"animations" newAnim
  check AnimData.known [] d
  alloc (.inst .document [(s!!"bones", bo), (s!!"slots", sl), (s!!"skins", sk), (s!!"events", ev), (s!!"ik", ik),
    (s!!"transform", tr), (s!!"path", pa), (s!!"animations", an)])

/-! ### set_default_values and to_json (base_type.py 69-121, 138-162) -/

/-- one level of `traverse_spine_data` with `set_default_values_from_version` (96-106) -/
def defaultsStep (E : Env F) (v38 : Bool) (f : Ref F → M F Unit) (r : Ref F) : M F Unit := do
  match ← deref r with
  | none => return ()
  | some (.list l) => each f l
  | some (.dict d) => each f (Dict.values d)
  | some (.inst t d) => do
    let c ← deepcopy E (E.consts v38 t)
    let dv ← itemsOf c
    each (fun p =>
      if p.2.isNull then match Dict.get? dv p.1 with
        | some w => setAttr r p.1 w
        | none => pure ()
      else f p.2) d

def setDefaultsN (E : Env F) (v38 : Bool) : Nat → Ref F → M F Unit
  | 0 => defaultsStep E v38 (fun _ => raise .diverge)
  | n + 1 => defaultsStep E v38 (setDefaultsN E v38 n)

/-- `set_default_values` (74-78) -/
def setDefaults (E : Env F) (v38 : Bool) (r : Ref F) : M F Unit := setDefaultsN E v38 E.lim r

/-- the loop over the attributes of an object (113-120) -/
def toJsonA (E : Env F) (v38 : Bool) (t : Tag) (f : Ref F → M F (Ref F)) : Dict (Ref F) → M F (Dict (Ref F))
  | [] => pure []
  | (k, r) :: l => do
    let v ← view (fun h => read h E.lim r) .diverge
    if SVal.emits t.cls v38 k v then do
      let x ← f r
      let y ← toJsonA E v38 t f l
      return (k, x) :: y
    else toJsonA E v38 t f l

/-- one level of `traverse_spine_data` with `to_spine_data_ignoring_default_values` (108-121): every list and dictionary of
the result is new -/
def toJsonStep (E : Env F) (v38 : Bool) (f : Ref F → M F (Ref F)) (r : Ref F) : M F (Ref F) := do
  match ← deref r with
  | none => return r
  | some (.list l) => do
    let l ← mapL f l
    alloc (.list l)
  | some (.dict d) => do
    let d ← mapV f d
    alloc (.dict d)
  | some (.inst t d) => do
    let d ← toJsonA E v38 t f d
    alloc (.dict d)

def toJsonN (E : Env F) (v38 : Bool) : Nat → Ref F → M F (Ref F)
  | 0 => toJsonStep E v38 (fun _ => raise .diverge)
  | n + 1 => toJsonStep E v38 (toJsonN E v38 n)

end Init

/-! ### The editor -/

/-- the attributes of `SpineAnimationEditor` (spine_animation_editor.py 51-57) and of its `JsonSpineAnimationData` -/
structure Ed (F : Type) where
  skeleton : Ref F
  version : Version
  data : Ref F
  images : Ref F
  graph : Graph NType (Int × Ref F)

section Editor
variable [PyRt F]

/-- `to_json_data` (spine_anim_data.py 42-45) -/
def toJsonData (E : Env F) (skeleton : Ref F) (v : Version) (data : Ref F) : M F (Ref F) := do
  let j ← toJsonN E v.is38 E.lim data
  let sk ← deepcopy E skeleton
  setItem j s!!"skeleton" sk
  return j

/-- an entry of `images_references` (spine_animation_editor.py 250-252) -/
def newImage (i : ImageRef F) : M F (Ref F) :=
  alloc (.dict ((s!!"path", .str i.path) :: (match i.scale with
    | none => []
    | some s => [(s!!"scale", .flt s)])))

/-- the document as a value of the value model -/
def viewDoc (E : Env F) (skeleton : Ref F) (v : Version) (data : Ref F) : M F (SpineDoc F) := do
  let a ← view (fun h => viewData h E.lim data) .unmodelled
  let sk ← view (fun h => readJ h E.lim skeleton) .unmodelled
  match sk with
  | .dict sk => return { skeleton := sk, version := v, data := a }
  | _ => raise .attribute

/-- `get_images_references` (227-253) -/
def newImages (E : Env F) (skeleton : Ref F) (v : Version) (data : Ref F) : M F (Ref F) := do
  let s ← viewDoc E skeleton v data
  let im ← lift (Editor.imagesReferences s)
  let d ← mapV newImage im
  alloc (.dict d)

/-- the data of every node as objects -/
def withRefs (bones slots ik : List (Ref F)) (g : SGraph F) : Graph NType (Int × Ref F) :=
  { idGen := g.idGen, counter := g.counter, nodes := dmap (fun n => { n with data := (n.data.1, (match n.ntype with
      | .bone => (bones[n.data.1.toNat]?).getD .null
      | .slot => (slots[n.data.1.toNat]?).getD .null
      | .ik => (ik[n.data.1.toNat]?).getD .null
      | _ => .null)) }) g.nodes }

/-- `json_data.get(k, [])` for the copies -/
def docList (doc : Ref F) (k : Str) : M F (List (Ref F)) := do
  let d ← itemsOf doc
  match Dict.get? d k with
  | none => return []
  | some r => iter r

/-- `SpineGraphContainer(json_data)` (spine_graph_container.py 10-16, spine_nodes.py 101-137, 290-320): every bone, slot and ik
node holds a copy of its entry -/
def newGraph (E : Env F) (doc : Ref F) : M F (Graph NType (Int × Ref F)) := do
  let v ← view (fun h => readJ h E.lim doc) .unmodelled
  let g ← lift (SpineNodes.create v)
  let bs ← docList doc s!!"bones"
  let bs ← mapL (deepcopy E) bs
  let ss ← docList doc s!!"slots"
  let ss ← mapL (deepcopy E) ss
  let is ← docList doc s!!"ik"
  let is ← mapL (deepcopy E) is
  return withRefs bs ss is g

/-- `SpineAnimationEditor(json_data)` (51-57) with `JsonSpineAnimationData(data)` (spine_anim_data.py 32-40) -/
def init (E : Env F) (doc : Ref F) : M F (Ed F) := do
  let sk ← subscript doc s!!"skeleton"
  let sk ← deepcopy E sk
  match ← subscript sk s!!"spine" with
  | .str v => do
    let ver ← lift (Version.mk? F v)
    let data ← newData E doc
    setDefaults E ver.is38 data
    let im ← newImages E sk ver data
    let j ← toJsonData E sk ver data
    let g ← newGraph E j
    return { skeleton := sk, version := ver, data := data, images := im, graph := g }
  | _ => raise .attribute

/-- `to_json_data()` (216-217) -/
def Ed.toJson (E : Env F) (e : Ed F) : M F (Ref F) := toJsonData E e.skeleton e.version e.data

/-! #### remove_skin (spine_anim_data.py 132-191) -/

/-- `skin.name == n` -/
def named (n : Str) (r : Ref F) : M F Bool := do
  match ← getAttr r s!!"name" with
  | .str s => return s == n
  | _ => return false

/-- the elements for which the test holds -/
def filterL {α : Type} (f : α → M F Bool) : List α → M F (List α)
  | [] => pure []
  | x :: r => do
    let b ← f x
    let s ← filterL f r
    return if b then x :: s else s

/-- `isinstance(slot_data, SkinLinkedMesh) and slot_data.skin == skin_name` (147-150) -/
def linksTo (n : Str) (r : Ref F) : M F Bool := do
  match ← deref r with
  | some (.inst (.att .linked) d) => match Dict.get? d s!!"skin" with
    | some (.str s) => return s == n
    | _ => return false
  | _ => return false

/-- loop body 146-164 -/
def relink (E : Env F) (gone : Ref F) (n slot : Str) (entry : Ref F) (p : Str × Ref F) : M F Unit := do
  if ← linksTo n p.2 then do
    let g ← getAttr gone s!!"attachments"
    let g ← subscript g slot
    let g ← subscript g p.1
    let c ← deepcopy E g
    let x ← getAttr p.2 s!!"name"
    setAttr c s!!"name" x
    let x ← getAttr p.2 s!!"path"
    setAttr c s!!"path" x
    let x ← getAttr p.2 s!!"width"
    setAttr c s!!"width" x
    let x ← getAttr p.2 s!!"height"
    setAttr c s!!"height" x
    setItem entry p.1 c
  else return ()

/-- loop body 143-164 -/
def relinkSkin (E : Env F) (gone : Ref F) (n : Str) (s : Ref F) : M F Unit := do
  let w ← getAttr s s!!"attachments"
  let d ← itemsOf w
  each (fun p => do
    let c ← deepcopy E p.2
    let e ← itemsOf c
    each (relink E gone n p.1 p.2) e) d

/-- loop body 185-187 -/
def dropDeform (n : Str) (a : Ref F) : M F Unit := do
  let d ← getAttr a s!!"deform"
  let e ← itemsOf d
  if Dict.has e n then delItem d n else return ()

/-- `remove_skin` (132-191) -/
def removeSkin (E : Env F) (data : Ref F) (n : Str) : M F (List (Option Str) × List Str) := do
  let l ← getAttr data s!!"skins"
  let l ← elems l
  let rest ← filterL (fun s => do
    let b ← named n s
    return !b) l
  let same ← filterL (named n) l
  match same with
  | [] => raise .editor
  | gone :: _ => do
    each (relinkSkin E gone n) rest
    let s ← view (fun h => viewSkin h E.lim gone) .unmodelled
    let r ← lift (AnimData.removedImages s)
    let an ← getAttr data s!!"animations"
    let an ← itemsOf an
    each (dropDeform n) (Dict.values an)
    let k ← alloc (.list rest)
    setAttr data s!!"skins" k
    return r

/-- the loop of `erase_skins` (spine_animation_editor.py 69-75) -/
def removeSkins (E : Env F) (data : Ref F) : List Str → M F (List (Option Str) × List Str)
  | [] => pure ([], [])
  | n :: ns => do
    let (i, r) ← removeSkin E data n
    let (is, rs) ← removeSkins E data ns
    return (i ++ is, r ++ rs)

/-! #### clean_animation (133-199, 281-353) -/

/-- `_clean_images_references` (281-292): a new dictionary -/
def cleanImages (E : Env F) (images : Ref F) (ids : List (Option Str)) : M F (Ref F) := do
  let c ← deepcopy E images
  let d ← itemsOf images
  each (fun p => if some p.1 ∈ ids then delItem c p.1 else pure ()) d
  return c

/-- `_clean_slots_in_skins` (294-304): the entries kept are those of the old skins -/
def slotsInSkins (E : Env F) (data : Ref F) (ids : List Str) : M F Unit := do
  let l ← getAttr data s!!"skins"
  let c ← deepcopy E l
  let old ← elems l
  let new ← elems c
  each (fun p => do
    let w ← getAttr p.1 s!!"attachments"
    let d ← itemsOf w
    let x ← alloc (.dict (d.filter (fun q => q.1 ∉ ids)))
    setAttr p.2 s!!"attachments" x) (old.zip new)
  setAttr data s!!"skins" c

/-- `remove_deforms_using_slots` (animation.py 98-102) -/
def removeDeformSlots (ids : List Str) (a : Ref F) : M F Unit := do
  let w ← getAttr a s!!"deform"
  let d ← itemsOf w
  let d ← mapV (fun r => do
    let e ← itemsOf r
    alloc (.dict (e.filter (fun q => q.1 ∉ ids)))) d
  let x ← alloc (.dict d)
  setAttr a s!!"deform" x

/-- loop body of `_clean_slots_in_animations` (339-345) -/
def slotsInAnim (E : Env F) (ids : List Str) (a : Ref F) : M F Unit := do
  let w ← getAttr a s!!"slots"
  let c ← deepcopy E w
  let d ← itemsOf w
  each (fun p => if p.1 ∈ ids then delItem c p.1 else pure ()) d
  setAttr a s!!"slots" c
  removeDeformSlots ids a

/-- the last offset object of a slot (draworder.py 96) -/
def offsetOf (l : List ((Str × Int) × Ref F)) (s : Str) : Ref F :=
  match l.reverse.find? (fun p => p.1.1 == s) with
  | some p => p.2
  | none => .null

/-- `remove_offsets_with_ids` (draworder.py 88-106): the offsets kept are copies with their new value -/
def cleanDraw (E : Env F) (ids : List Str) (orig : List (Slot F)) (t : Ref F) : M F Unit := do
  let l ← getAttr t s!!"offsets"
  let l ← elems l
  let os ← mapL (fun r => view (fun h => viewOffset h E.lim r) .unmodelled) l
  let new ← lift (DrawOrder.removeOffsets Slot.name ids orig os)
  let new ← mapL (fun p => do
    let c ← deepcopy E (offsetOf (os.zip l) p.1)
    setAttr c s!!"offset" (.int p.2)
    return c) new
  let x ← alloc (.list new)
  setAttr t s!!"offsets" x

/-- loop body of `_clean_draw_order_refs` (350-353, animation.py 94-96) -/
def drawInAnim (E : Env F) (ids : List Str) (orig : List (Slot F)) (a : Ref F) : M F Unit := do
  let l ← getAttr a s!!"drawOrder"
  let l ← elems l
  each (cleanDraw E ids orig) l

/-- the objects of the animations -/
def anims (data : Ref F) : M F (List (Ref F)) := do
  let an ← getAttr data s!!"animations"
  let an ← itemsOf an
  return Dict.values an

/-- `remove_slots` (192-195) -/
def removeSlots (E : Env F) (data : Ref F) (ids : List Str) (orig : List (Slot F)) : M F Unit := do
  slotsInSkins E data ids
  let an ← anims data
  each (slotsInAnim E ids) an
  let an ← anims data
  each (drawInAnim E ids orig) an

/-- `remove_deforms_with_attachments_on_skin` (animation.py 104-117) -/
def removeDeformAtts (ids : List Str) (skin : Str) (a : Ref F) : M F Unit := do
  let w ← getAttr a s!!"deform"
  let d ← itemsOf w
  match Dict.get? d skin with
  | none => return ()
  | some .null => return ()
  | some s => do
    let e ← itemsOf s
    let e ← mapV (fun r => do
      let x ← itemsOf r
      alloc (.dict (x.filter (fun q => q.1 ∉ ids)))) e
    let x ← alloc (.dict e)
    setItem w skin x

/-- loop body of `_clean_attachments_in_skins` (308-319): the old skin is traversed, the entries of its copy are deleted -/
def attsInSkin (data : Ref F) (ids : List Str) (p : Ref F × Ref F) : M F Unit := do
  let w ← getAttr p.1 s!!"attachments"
  let d ← itemsOf w
  each (fun q => do
    let e ← itemsOf q.2
    each (fun x => if x.1 ∈ ids then do
        let c ← getAttr p.2 s!!"attachments"
        let c ← subscript c q.1
        delItem c x.1
      else pure ()) e) d
  let n ← getAttr p.1 s!!"name"
  let an ← anims data
  match n with
  | .str n => each (removeDeformAtts ids n) an
  | _ => raise .unmodelled

/-- `_clean_attachments_in_skins` (306-321) -/
def attsInSkins (E : Env F) (data : Ref F) (ids : List Str) : M F Unit := do
  let l ← getAttr data s!!"skins"
  let c ← deepcopy E l
  let old ← elems l
  let new ← elems c
  each (attsInSkin data ids) (old.zip new)
  setAttr data s!!"skins" c

/-- `_clean_attachments_in_slots` (323-336) -/
def attsInSlots (E : Env F) (data : Ref F) (ids : List Str) : M F Unit := do
  let l ← getAttr data s!!"slots"
  let c ← deepcopy E l
  let old ← elems l
  let new ← elems c
  each (fun p => do
    match ← getAttr p.1 s!!"attachment" with
    | .str t => if graphId .attachment t ∈ ids then setAttr p.2 s!!"attachment" .null else return ()
    | .null => return ()
    | _ => raise .unmodelled) (old.zip new)
  setAttr data s!!"slots" c

/-- `remove_attachments` (197-199) -/
def removeAttachments (E : Env F) (data : Ref F) (ids : List Str) : M F Unit := do
  attsInSkins E data ids
  attsInSlots E data ids

/-- `remove_slots` / `remove_attachments` of the graph container (78-102) -/
def removeNamed {D : Type} (t : NType) : List Str → Graph NType D → Res (Graph NType D) Unit
  | [], g => (.ok (), g)
  | x :: r, g => match Graph.removeNode g (graphId t x) with
    | (.error e, g) => (.error e, g)
    | (.ok _, g) => removeNamed t r g

/-- the graph part at the start (151-158) -/
def cleanGraph {D : Type} (F : Type) [PyRt F] (slots atts : List Str) (g : Graph NType D) : Res (Graph NType D) (List Str) :=
  match removeNamed .slot (setList F slots) g with
  | (.error e, g) => (.error e, g)
  | (.ok _, g) => match removeNamed .attachment (setList F atts) g with
    | (.error e, g) => (.error e, g)
    | (.ok _, g) => match Container.removeLeafsOfType (baseId .slot) .slot g with
      | (.error e, g) => (.error e, g)
      | (.ok leafs, g) => (.ok (setList F (slots ++ leafs)), g)

/-- the graph part at the end (174-186) -/
def detach {D : Type} (g : Graph NType D) : Res (Graph NType D) (List Str) :=
  match Container.removeHeadsOfType (baseId .attachment) .attachment g with
  | (.error e, g) => (.error e, g)
  | (.ok _, g) => match Container.removeLeafsOfType (baseId .attachment) .attachment g with
    | (.error e, g) => (.error e, g)
    | (.ok _, g) => Container.removeHeadsOfType (baseId .image) .image g

/-- the entries of one list of `to_json_data` of the graph (spine_nodes.py 139-173): the data objects themselves -/
def listOfType (g : Graph NType (Int × Ref F)) (t : NType) : List (Ref F) :=
  (DrawOrder.sortOps (((Dict.values g.nodes).filter (fun n => n.ntype = t)).map (fun n => (n.data.2, n.data.1)))).map (·.1)

/-- 161-165: bones, slots and iks are built from the data objects of the graph -/
def readBack (E : Env F) (e : Ed F) : M F Unit := do
  if (Dict.values e.graph.nodes).all (fun n => n.ntype ∈ [NType.bone, .slot, .ik, .attachment, .image]) then do
    let bs ← mapL (newLeaf .bone) (listOfType e.graph .bone)
    let bs ← alloc (.list bs)
    setAttr e.data s!!"bones" bs
    let ss ← mapL (newLeaf .slot) (listOfType e.graph .slot)
    let ss ← alloc (.list ss)
    setAttr e.data s!!"slots" ss
    let is ← mapL (newLeaf .ik) (listOfType e.graph .ik)
    let is ← alloc (.list is)
    setAttr e.data s!!"ik" is
    setDefaults E e.version.is38 e.data
  else raise .key

/-- `clean_animation` (133-190) -/
def clean (E : Env F) (e : Ed F) : M F (Except Err (List Str × List Str) × Ed F) := do
  match ← attempt (do
      let l ← getAttr e.data s!!"slots"
      let before ← deepcopy E l
      let a ← view (fun h => viewData h E.lim e.data) .unmodelled
      let r ← lift (AnimData.unused a)
      return (before, r)) with
  | .error x => return (.error x, e)
  | .ok (before, slots, atts) => match cleanGraph F slots atts e.graph with
    | (.error x, g) => return (.error x, { e with graph := g })
    | (.ok ids, g) => do
      let e := { e with graph := g }
      match ← attempt (do
          readBack E e
          let orig ← view (fun h => listAt h (viewSlot h E.lim) before) .unmodelled
          removeSlots E e.data ids orig
          removeAttachments E e.data atts) with
      | .error x => return (.error x, e)
      | .ok _ => match detach e.graph with
        | (.error x, g) => return (.error x, { e with graph := g })
        | (.ok imgs, g) => do
          let e := { e with graph := g }
          match ← attempt (cleanImages E e.images (imgs.map some)) with
          | .error x => return (.error x, e)
          | .ok im => return (.ok (ids, atts), { e with images := im })

/-- `clean_animation()` unless `is_safe_mode` -/
def cleanUnless (E : Env F) (safe : Bool) (e : Ed F) : M F (Except Err (List Str × List Str) × Ed F) :=
  if safe then pure (.ok ([], []), e) else clean E e

/-- `erase_skins` (66-102) -/
def eraseSkins (E : Env F) (names : List Str) (safe : Bool) (e : Ed F) :
    M F (Except Err ((List Str × List Str) × List (Option Str)) × Ed F) := do
  match ← attempt (do
      let r ← removeSkins E e.data names
      let j ← e.toJson E
      let g ← newGraph E j
      return (r, g)) with
  | .error x => return (.error x, e)
  | .ok ((imgs, regions), g) => do
    let e := { e with graph := g }
    let gone := (imgs ++ regions.map some).filter (fun i => (Graph.getNode g (Editor.imageId i)).isNone)
    match ← cleanUnless E safe e with
    | (.error x, e) => return (.error x, e)
    | (.ok r, e) => match ← attempt (cleanImages E e.images gone) with
      | .error x => return (.error x, e)
      | .ok im => return (.ok (r, gone), { e with images := im })

/-- the loop of `_erase_raw_animations_data` (268-272): the names not found -/
def eraseRaw (data : Ref F) : List Str → M F (List Str)
  | [] => pure []
  | n :: ns => do
    let w ← getAttr data s!!"animations"
    let d ← itemsOf w
    if Dict.has d n then do
      delItem w n
      eraseRaw data ns
    else do
      let l ← eraseRaw data ns
      return n :: l

/-- `erase_animations` (104-131): the document returned and the removed data -/
def eraseAnims (E : Env F) (arg : Editor.NamesArg) (strict safe : Bool) (e : Ed F) :
    M F (Except Err (Ref F × (List Str × List Str)) × Ed F) :=
  match arg with
  | .other => pure (.error .type, e)
  | .list names => do
    match ← attempt (do
        let l ← eraseRaw e.data names
        if l ≠ [] ∧ strict then raise .value else return ()) with
    | .error x => return (.error x, e)
    | .ok _ => match ← cleanUnless E safe e with
      | (.error x, e) => return (.error x, e)
      | (.ok r, e) => match ← attempt (e.toJson E) with
        | .error x => return (.error x, e)
        | .ok j => return (.ok (j, r), e)

/-! #### scale_animation (201-210) -/

/-- `v *= n`: a list is repeated in place -/
def imul (r : Ref F) (n : Num F) : M F (Ref F) := do
  match r with
  | .null => raise .type
  | .bool b => scalar (.bool b)
  | .int i => scalar (.int i)
  | .flt f => scalar (.flt f)
  | .str s => scalar (.str s)
  | .ptr a => do
    match ← deref (.ptr a), n with
    | some (.list l), .int k => do
      fill (.ptr a) (.list (List.replicate k.toNat l).flatten)
      return .ptr a
    | _, _ => raise .type
where
  scalar (v : JVal F) : M F (Ref F) :=
    match pyMul v n with
    | .ok (.int i) => pure (.int i)
    | .ok (.flt f) => pure (.flt f)
    | .ok (.str s) => pure (.str s)
    | .ok _ => raise .unmodelled
    | .error e => raise e

/-- `Bone.scale` (bone.py 45-47) -/
def scaleBone (sx sy : Num F) (b : Ref F) : M F Unit := do
  let x ← getAttr b s!!"scaleX"
  let x ← imul x sx
  setAttr b s!!"scaleX" x
  let y ← getAttr b s!!"scaleY"
  let y ← imul y sy
  setAttr b s!!"scaleY" y

/-- the test 208 -/
def noInherit (b : Ref F) : M F Bool := do
  match ← getAttr b s!!"transform" with
  | .str t => return decide (t ∈ [s!!"noScale", s!!"noScaleOrReflection", s!!"onlyTranslation"])
  | _ => return false

/-- `scale_animation` (201-210) -/
def scale (sx sy : Num F) (data : Ref F) : M F Unit := do
  let l ← getAttr data s!!"bones"
  let l ← elems l
  each (fun b => do
    if ← noInherit b then scaleBone sx sy b else return ()) l
  match ← filterL (named s!!"root") l with
  | [] => raise .attribute
  | b :: _ => scaleBone sx sy b

/-! ### Calls of the public API -/

/-- what a call returns, apart from lists of names: the new document of `to_json_data()` and `erase_animations` -/
inductive Call (F : Type) where
  | eraseSkins (names : List Str) (safe : Bool)
  | eraseAnims (arg : Editor.NamesArg) (strict safe : Bool)
  | clean
  | scale (sx sy : Num F)
  | toJson

/-- outcome without the names: the document returned, if any -/
def Call.run (E : Env F) (c : Call F) (e : Ed F) : M F (Except Err (Option (Ref F)) × Ed F) :=
  match c with
  | .eraseSkins n s => do
    let q ← Alias.eraseSkins E n s e
    return (q.1.map (fun _ => none), q.2)
  | .eraseAnims a t s => do
    let q ← Alias.eraseAnims E a t s e
    return (q.1.map (fun r => some r.1), q.2)
  | .clean => do
    let q ← Alias.clean E e
    return (q.1.map (fun _ => none), q.2)
  | .scale x y => do
    let q ← attempt (Alias.scale x y e.data)
    return (q.map (fun _ => none), e)
  | .toJson => do
    let q ← attempt (e.toJson E)
    return (q.map some, e)

end Editor
end Alias
end Spine
