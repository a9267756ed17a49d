import Verif.Lemmas.KeyOrderCaught
import Verif.Props.Images
import Verif.Spec.Sample
/-
C87  The order of the keys of the document
-/
set_option linter.unusedSectionVars false
set_option linter.unusedSimpArgs false
namespace Spine
namespace KeyOrder
open JVal Editor
variable {F : Type} [PyRt F]

/-- the calls are made one after the other; those marked `true` succeed, the others raise an exception, which is caught, for one of the
causes of `Harmless` -/
inductive Edited : List (Op F × Bool) → Editor F → Editor F → Prop
  | nil (e) : Edited [] e e
  | cons {o os e e1 e2} : o.run e = (.ok (), e1) → Edited os e1 e2 → Edited ((o, true) :: os) e e2
  | caught {o os e x e1 e2} : Harmless e o → o.run e = (.error x, e1) → Edited os e1 e2 → Edited ((o, false) :: os) e e2

/-- the same images with the same files -/
def SameFiles (x y : Dict (ImageRef F)) : Prop := ∀ i, (Dict.get? x i).map (·.path) = (Dict.get? y i).map (·.path)

/-- the same names, in any order -/
def SameNames {α : Type} (l m : List α) : Prop := ∀ n, n ∈ l ↔ n ∈ m

theorem files {x y : Dict (ImageRef F)} (h : ImR x y) : SameFiles x y := by
  intro i
  rcases h.get i with ⟨h1, h2⟩ | ⟨v, w, h1, h2, h3⟩
  · rw [h1, h2]
  · rw [h1, h2]; exact congrArg some h3

theorem load_rel {v w : JVal F} {e e' : Editor F} (h : Reord v w) (hv : load v = .ok e) (hw : load w = .ok e') : ER e e' := by
  obtain ⟨e2, h1, h2⟩ := load_fol h e hv
  rw [hw] at h1
  cases h1
  exact h2

theorem edited_fol {ops : List (Op F × Bool)} {e e' e1 : Editor F} (h : ER e e') (hs : Called e) (hs' : Called e') (hr : Edited ops e e1) :
    ∃ e1', Edited ops e' e1' ∧ ER e1 e1' ∧ Called e1 ∧ Called e1' := by
  induction hr generalizing e' with
  | nil e => exact ⟨e', .nil _, h, hs, hs'⟩
  | @cons o os e e1 e2 ho _ ih =>
    obtain ⟨_, e1', h1, _, h2⟩ := op_fol o h hs.weak hs'.weak _ _ ho
    have c1 := Called.run o hs (.inl (by rw [ho]))
    have c2 := Called.run o hs' (.inl (by rw [h1]))
    rw [ho] at c1
    rw [h1] at c2
    obtain ⟨e2', h3, h4⟩ := ih h2 c1 c2
    exact ⟨e2', .cons h1 h3, h4⟩
  | @caught o os e x e1 e2 hh ho _ ih =>
    obtain ⟨⟨y, h1⟩, h2, h3, c1, c2⟩ := op_caught o h hs hs' hh ⟨x, by rw [ho]⟩
    rw [ho] at h3 c1
    obtain ⟨e2', h4, h5⟩ := ih h3 c1 c2
    exact ⟨e2', .caught h2 (Prod.ext h1 rfl) h4, h5⟩

theorem edited_det {ops : List (Op F × Bool)} {e e1 e2 : Editor F} (h1 : Edited ops e e1) (h2 : Edited ops e e2) : e1 = e2 := by
  induction h1 generalizing e2 with
  | nil => cases h2; rfl
  | cons ho _ ih =>
    cases h2 with
    | cons ho' h2 => rw [ho] at ho'; cases ho'; exact ih h2
  | caught _ ho _ ih =>
    cases h2 with
    | caught _ ho' h2 => rw [ho] at ho'; cases ho'; exact ih h2

/-- two editors after the same calls on two documents that differ in the order of their keys -/
theorem both {v w : JVal F} {e e' e1 e1' : Editor F} {ops : List (Op F × Bool)} (h : Reord v w) (hv : load v = .ok e) (hw : load w = .ok e')
    (hr : Edited ops e e1) (hr' : Edited ops e' e1') : ER e1 e1' ∧ Called e1 ∧ Called e1' := by
  obtain ⟨e2, h1, h2⟩ := edited_fol (load_rel h hv hw) (.load (reord_proper h) hv) (.load (reord_proper (reord_symm h)) hw) hr
  cases edited_det h1 hr'
  exact h2

/-! ## Theorems -/

/-- C87: of two documents that differ in the order of their keys both load or neither. -/
theorem c87_load {v w : JVal F} (h : Reord v w) : (∃ e, load v = .ok e) ↔ ∃ e, load w = .ok e :=
  ⟨fun ⟨e, he⟩ => (load_fol h e he).imp fun _ h => h.1, fun ⟨e, he⟩ => (load_fol (reord_symm h) e he).imp fun _ h => h.1⟩

/-- C87: what is saved after loading differs in the order of the keys only, and the image files are the same. -/
theorem c87_saved {v w : JVal F} {e e' : Editor F} (h : Reord v w) (hv : load v = .ok e) (hw : load w = .ok e') :
    Reord e.toJson e'.toJson ∧ SameFiles e.images e'.images :=
  ⟨docJson (load_rel h hv hw).doc, files (load_rel h hv hw).images⟩

/-- C87: in a sequence of calls the same ones succeed on both; those that fail raise an exception for one of the causes of `Harmless`. -/
theorem c87_calls_partial {v w : JVal F} {e e' : Editor F} (h : Reord v w) (hv : load v = .ok e) (hw : load w = .ok e') (ops : List (Op F × Bool)) :
    (∃ e1, Edited ops e e1) ↔ ∃ e1, Edited ops e' e1 := by
  have c := reord_proper h
  have c' := reord_proper (reord_symm h)
  have r := load_rel h hv hw
  exact ⟨fun ⟨_, h⟩ => (edited_fol r (.load c hv) (.load c' hw) h).imp fun _ h => h.1,
    fun ⟨_, h⟩ => (edited_fol r.symm (.load c' hw) (.load c hv) h).imp fun _ h => h.1⟩

/-- C87: what is saved after the same calls differs in the order of the keys only, and the image files are the
same. -/
theorem c87_edited_partial {v w : JVal F} {e e' e1 e1' : Editor F} {ops : List (Op F × Bool)} (h : Reord v w) (hv : load v = .ok e)
    (hw : load w = .ok e') (hr : Edited ops e e1) (hr' : Edited ops e' e1') : Reord e1.toJson e1'.toJson ∧ SameFiles e1.images e1'.images :=
  ⟨docJson (both h hv hw hr hr').1.doc, files (both h hv hw hr hr').1.images⟩

/-- C87: `clean_animation` removes the same slots and attachments. -/
theorem c87_clean_partial {v w : JVal F} {e e' e1 e1' : Editor F} {ops : List (Op F × Bool)} (h : Reord v w) (hv : load v = .ok e)
    (hw : load w = .ok e') (hr : Edited ops e e1) (hr' : Edited ops e' e1') {slots atts : List Str} (hc : (clean e1).1 = .ok (slots, atts)) :
    ∃ slots' atts', (clean e1').1 = .ok (slots', atts') ∧ SameNames slots slots' ∧ SameNames atts atts' := by
  obtain ⟨h1, c1, c2⟩ := both h hv hw hr hr'
  obtain ⟨r, e2, h2, h3, _⟩ := clean_fol h1 c1.weak c2.weak _ _ (Prod.ext hc rfl)
  exact ⟨r.1, r.2, by rw [h2], h3.1, h3.2⟩

/-- C87: `erase_animations` returns the same document up to the order of keys, and removes the same slots and attachments. -/
theorem c87_erase_animations_partial {v w : JVal F} {e e' e1 e1' : Editor F} {ops : List (Op F × Bool)} (h : Reord v w) (hv : load v = .ok e)
    (hw : load w = .ok e') (hr : Edited ops e e1) (hr' : Edited ops e' e1') {arg : NamesArg} {strict safe : Bool} {j : JVal F}
    {slots atts : List Str} (hc : (eraseAnims arg strict safe e1).1 = .ok (j, slots, atts)) :
    ∃ j' slots' atts', (eraseAnims arg strict safe e1').1 = .ok (j', slots', atts') ∧ Reord j j' ∧ SameNames slots slots' ∧
      SameNames atts atts' := by
  obtain ⟨h1, c1, c2⟩ := both h hv hw hr hr'
  obtain ⟨r, e2, h2, h3, _⟩ := eraseAnims_fol arg strict safe h1 c1.weak c2.weak _ _ (Prod.ext hc rfl)
  exact ⟨r.1, r.2.1, r.2.2, by rw [h2], h3.1, h3.2.1, h3.2.2⟩

/-- C87: `erase_skins` removes the same slots, attachments and images. -/
theorem c87_erase_skins_partial {v w : JVal F} {e e' e1 e1' : Editor F} {ops : List (Op F × Bool)} (h : Reord v w) (hv : load v = .ok e)
    (hw : load w = .ok e') (hr : Edited ops e e1) (hr' : Edited ops e' e1') {names : List Str} {safe : Bool}
    {slots atts : List Str} {images : List (Option Str)} (hc : (eraseSkins names safe e1).1 = .ok ((slots, atts), images)) :
    ∃ slots' atts' images', (eraseSkins names safe e1').1 = .ok ((slots', atts'), images') ∧ SameNames slots slots' ∧
      SameNames atts atts' ∧ SameNames images images' := by
  obtain ⟨h1, c1, c2⟩ := both h hv hw hr hr'
  obtain ⟨r, e2, h2, h3, _⟩ := eraseSkins_fol names safe h1 c1.weak c2.weak _ _ (Prod.ext hc rfl)
  exact ⟨r.1.1, r.1.2, r.2, by rw [h2], h3.1.1, h3.1.2, h3.2⟩

/-! ### The scale of an image -/

theorem isBone_rel {l m : List (Bone F)} (h : All₂ BoneR l m) {n : Str} {b : Bone F} (hb : IsBone l n b) :
    ∃ c, IsBone m n c ∧ c.parent = b.parent := by
  obtain ⟨pre, post, h1, h2, h3⟩ := hb
  obtain ⟨pre', c, post', h4, h5, h6⟩ := all₂_split h h1
  refine ⟨c, ⟨pre', post', h4, h6.name ▸ h2, fun x hx => ?_⟩, h6.parent.symm⟩
  obtain ⟨y, hy, hxy⟩ := h5.right hx
  rw [← hxy.name]
  exact h3 y hy

theorem reaches_rel {l m : List (Bone F)} (h : All₂ BoneR l m) {n : Option Str} {xs : List F} (hr : Reaches l n xs) : Reaches m n xs := by
  induction hr with
  | root hb hn =>
    obtain ⟨c, h1, _⟩ := isBone_rel h hb
    exact .root h1 hn
  | up hb hn hx _ ih =>
    obtain ⟨c, h1, h2⟩ := isBone_rel h hb
    exact .up h1 hn hx (h2 ▸ ih)

theorem slotScale_rel {a b : AnimData F} (h : DataR a b) {n : Str} {y : F} (hy : SlotScale a n y) : SlotScale b n y := by
  obtain ⟨s, x, xs, ⟨pre, post, h1, h2, h3⟩, h4, h5, h6⟩ := hy
  obtain ⟨pre', t, post', h7, h8, h9⟩ := all₂_split h.slots h1
  refine ⟨t, x, xs, ⟨pre', post', h7, h9.name ▸ h2, fun z hz => ?_⟩, h9.name ▸ h4, h9.bone ▸ reaches_rel h.bones h5, h6⟩
  obtain ⟨u, hu, huz⟩ := h8.right hz
  rw [← huz.name]
  exact h3 u hu

/-- C87: the scale of an image is the same too when all slots that show the image have the same scale. -/
theorem c87_scale_partial {v w : JVal F} {e e' : Editor F} (h : Reord v w) (hv : load v = .ok e) (hw : load w = .ok e') {i : Str}
    {r r' : ImageRef F} (hr : Dict.get? e.images i = some r) (hr' : Dict.get? e'.images i = some r') {y : F}
    (hy : ∀ slot z, e.data.SlotShows slot i → SlotScale e.data slot z → z = y) : r.scale = r'.scale := by
  have hd := (load_rel h hv hw).data
  rw [c56_scale hv hr hy, c56_scale hw hr' fun slot z h1 h2 => hy slot z (slotShows hd.symm h1) (slotScale_rel hd.symm h2)]

section examples
open Sample

/-- a check of `Reord` -/
def reordB : Nat → J → J → Bool
  | 0, _, _ => false
  | _ + 1, .null, .null => true
  | _ + 1, .bool a, .bool b => a = b
  | _ + 1, .int a, .int b => a = b
  | _ + 1, .flt a, .flt b => a = b
  | _ + 1, .str a, .str b => a = b
  | n + 1, .list l, .list m => l.length = m.length && (l.zip m).all (fun p => reordB n p.1 p.2)
  | n + 1, .dict d, .dict e => decide (Dict.keys d).Nodup && decide (Dict.keys e).Nodup && decide (∀ k ∈ Dict.keys d, k ∈ Dict.keys e) &&
      decide (∀ k ∈ Dict.keys e, k ∈ Dict.keys d) && d.all (fun p => match Dict.get? e p.1 with | some w => reordB n p.2 w | none => false)
  | _ + 1, _, _ => false

theorem reordB_sound : ∀ (n : Nat) (v w : J), reordB n v w = true → Reord v w := by
  intro n
  induction n with
  | zero => intro v w h; cases h
  | succ n ih =>
    intro v w h
    cases v <;> cases w <;> simp only [reordB, Bool.false_eq_true] at h
    · exact .null
    · cases of_decide_eq_true h; exact .bool _
    · cases of_decide_eq_true h; exact .int _
    · cases of_decide_eq_true h; exact .flt _
    · cases of_decide_eq_true h; exact .str _
    · rename_i l m
      simp only [Bool.and_eq_true, decide_eq_true_eq, List.all_eq_true] at h
      refine .list h.1 fun i v w hv hw => ih v w (h.2 (v, w) ?_)
      exact List.mem_of_getElem? (i := i) (by rw [List.getElem?_zip_eq_some]; exact ⟨hv, hw⟩)
    · rename_i d e
      simp only [Bool.and_eq_true, decide_eq_true_eq, List.all_eq_true] at h
      obtain ⟨⟨⟨⟨h1, h2⟩, h3⟩, h4⟩, h5⟩ := h
      refine .dict h1 h2 (fun k => ⟨h3 k, h4 k⟩) fun k v w hv hw => ih v w ?_
      have := h5 (k, v) (Dict.mem_of_get? hv)
      rw [hw] at this
      exact this

/-- `basic` with other orders of keys -/
def mixed : J := obj [("ik", .list [obj [("target", txt "root"), ("name", txt "k"), ("bones", .list [txt "arm"])]]),
  ("animations", obj [("run", obj []), ("walk", obj [("slots", obj [("s2 [scale:0.5]", Sample.shows "b1")])])]),
  ("skins", .list [obj [("attachments", obj [("s2 [scale:0.5]", obj [("b1", obj [])]),
      ("s1", obj [("a2", obj [("path", txt "img/a2"), ("type", txt "mesh")]), ("a1", region "img/a1")])]), ("name", txt "default")],
    obj [("attachments", obj [("s1", obj [("a1", region "red/a1")])]), ("name", txt "red")]]),
  ("slots", .list [obj [("attachment", txt "a1"), ("name", txt "s1"), ("bone", txt "arm")], obj [("bone", txt "arm"), ("name", txt "s2 [scale:0.5]")],
    slot "s3" "root"]),
  ("bones", .list [root, obj [("parent", txt "root"), ("name", txt "arm")]]),
  ("skeleton", obj [("spine", txt "3.8.75")])]

example : Reord basic mixed := reordB_sound 20 _ _ (by decide +kernel)

/-- C87 at work: both load and the same calls succeed on both -/
def outcome (d : J) : Option (List String × List String × List (String × String)) := do
  let e ← Sample.load d
  let e ← if ((Op.eraseAnims (.list [s!!"run"]) true true).run e).1.isOk then some ((Op.eraseAnims (.list [s!!"run"]) true true).run e).2 else none
  let q := eraseSkins [s!!"default"] false e
  let r ← q.1.toOption
  return (r.1.1.map String.ofList, r.2.map (fun i => String.ofList (i.getD [])), q.2.images.map (fun p => (String.ofList p.1, String.ofList p.2.path)))

example : outcome basic = some (["s3", "s2 [scale:0.5]"], ["img/a2", "img/a1"], [("b1", "./images/b1"), ("red/a1", "./images/red/a1")]) := by
  decide +kernel
example : outcome mixed = some (["s3", "s2 [scale:0.5]"], ["img/a2", "img/a1"], [("b1", "./images/b1"), ("red/a1", "./images/red/a1")]) := by
  decide +kernel

/-- two slots of different scales that show the same image -/
def twoScales (swap : Bool) : J := Sample.doc [root] [slot "s1" "root" [("attachment", txt "a")], slot "s2 [scale:0.5]" "root" [("attachment", txt "a")]]
  [("default", obj (if swap then [("s2 [scale:0.5]", obj [("a", region "i")]), ("s1", obj [("a", region "i")])]
    else [("s1", obj [("a", region "i")]), ("s2 [scale:0.5]", obj [("a", region "i")])]))] []

/-- C87 counterexample: the scale of an image in `images_references` depends on the order of the keys of a skin when two slots of
different scales show the image: the last one counts. -/
theorem c87_counterexample : Reord (twoScales false) (twoScales true) ∧
    (Sample.load (twoScales false)).map (fun e => e.images.map (fun p => (String.ofList p.1, p.2.scale))) = some [("i", some (1/2))] ∧
    (Sample.load (twoScales true)).map (fun e => e.images.map (fun p => (String.ofList p.1, p.2.scale))) = some [("i", none)] := by
  refine ⟨reordB_sound 20 _ _ ?_, ?_, ?_⟩ <;> decide +kernel

/-- a document with two mistakes in a skin: an attachment that is not an object, and one of an unknown type -/
def twoFaults (swap : Bool) : J := Sample.doc [root] [slot "s1" "root"]
  [("default", obj [("s1", obj (if swap then [("b", .int 1), ("a", obj [("type", txt "nope")])] else [("a", obj [("type", txt "nope")]), ("b", .int 1)]))])] []

def errorOf (d : J) : Option Err := match Editor.load d with
  | .error e => some e
  | .ok _ => none

/-- C87 counterexample: the exception depends on the order of the keys when the document has two faults. -/
theorem c87_counterexample_exception : Reord (twoFaults false) (twoFaults true) ∧ errorOf (twoFaults false) ≠ none ∧
    errorOf (twoFaults true) ≠ none ∧ errorOf (twoFaults false) ≠ errorOf (twoFaults true) := by
  refine ⟨reordB_sound 20 _ _ ?_, ?_, ?_, ?_⟩ <;> decide +kernel

/-- two animations, of which one has a drawOrder offset that names an unknown slot, and a slot that cleaning removes -/
def stopped (swap : Bool) : J :=
  let x : String × J := ("x", obj [("drawOrder", .list [obj [("offsets", .list [obj [("slot", txt "s2"), ("offset", .int (-1))]])]])])
  let y : String × J := ("y", obj [("drawOrder", .list [obj [("offsets", .list [obj [("slot", txt "zz"), ("offset", .int 1)]])]])])
  Sample.doc [root] [slot "s1" "root" [("attachment", txt "a")], slot "s2" "root"] [("default", obj [("s1", obj [("a", region "i")])])]
    (if swap then [y, x] else [x, y])

/-- does cleaning succeed, and how many offsets has the animation "x" afterwards -/
def offsetsLeft (d : J) : Option (Bool × Option (List Nat)) := (Sample.load d).map (fun e =>
  ((clean e).1.isOk, (Dict.get? (clean e).2.data.animations s!!"x").map (fun a => a.drawOrder.map (fun t => t.offsets.length))))

/-- C87 counterexample: where a cleaning is stopped by a drawOrder offset that names an unknown slot depends on the order of the keys. -/
theorem c87_counterexample_stopped : Reord (stopped false) (stopped true) ∧ offsetsLeft (stopped false) = some (false, some [0]) ∧
    offsetsLeft (stopped true) = some (false, some [1]) := by
  refine ⟨reordB_sound 20 _ _ ?_, ?_, ?_⟩ <;> decide +kernel

/-- the skin "blue" is linked to a mesh of "red", and to one that "red" does not have -/
def halfLinked (swap : Bool) : J :=
  let lk : J := obj [("type", txt "linkedmesh"), ("skin", txt "red"), ("path", txt "i"), ("parent", txt "m")]
  Sample.doc [root] [slot "s1" "root" [("attachment", txt "m")]]
    [("default", obj []), ("red", obj [("s1", obj [("m", obj [("type", txt "mesh"), ("path", txt "j")])])]),
     ("blue", obj [("s1", obj (if swap then [("n", lk), ("m", lk)] else [("m", lk), ("n", lk)]))])] []

/-- how `erase_skins` ends, and whether the mesh "m" of "blue" is still a linked mesh then -/
def stillLinked (d : J) : Option (Option Err × List Bool) := (Sample.load d).map (fun e =>
  let r := eraseSkins [s!!"red"] true e
  (match r.1 with | .error x => some x | .ok _ => none, (r.2.data.skins.filter (fun s => s.name = s!!"blue")).flatMap (fun s =>
    s.attachments.flatMap (fun p => (p.2.filter (fun q => q.1 = s!!"m")).map (fun q => q.2.kind == .linked)))))

/-- C87 counterexample: which meshes `erase_skins` has copied when it meets a mesh that is missing depends on the order of the keys. -/
theorem c87_counterexample_relink : Reord (halfLinked false) (halfLinked true) ∧ stillLinked (halfLinked false) = some (some .key, [false]) ∧
    stillLinked (halfLinked true) = some (some .key, [true]) := by
  refine ⟨reordB_sound 20 _ _ ?_, ?_, ?_⟩ <;> decide +kernel

instance (a : AnimData Rat) : Decidable (BadDraw a) := by unfold BadDraw; infer_instance

/-- `Edited` step by step -/
def editedB : List (Op Rat × Bool) → Editor Rat → Bool
  | [], _ => true
  | (o, true) :: os, e => (o.run e).1.isOk && editedB os (o.run e).2
  | (o, false) :: os, e => !(o.run e).1.isOk && editedB os (o.run e).2 && (match o with
    | .clean => !decide (BadDraw e.data)
    | .eraseAnims _ _ _ => !decide (BadDraw e.data)
    | .eraseSkins (n :: _) _ => (AnimData.getSkin e.data n).isNone
    | .eraseSkins [] _ => false
    | .scale _ _ => e.data.bones.all (fun b => match b.rest.val s!!"scaleX", b.rest.val s!!"scaleY" with
      | .list _, _ => false
      | _, .list _ => false
      | _, _ => true))

theorem editedB_sound : ∀ (os : List (Op Rat × Bool)) (e : Editor Rat), editedB os e = true → ∃ e1, Edited os e e1 := by
  intro os
  induction os with
  | nil => intro e _; exact ⟨e, .nil e⟩
  | cons q os ih =>
    intro e h
    obtain ⟨o, b⟩ := q
    cases b with
    | true =>
      simp only [editedB, Bool.and_eq_true] at h
      obtain ⟨e1, h1⟩ := ih _ h.2
      refine ⟨e1, .cons (Prod.ext ?_ rfl) h1⟩
      cases hr : (o.run e).1 with
      | ok u => rfl
      | error x => rw [hr] at h; cases h.1
    | false =>
      simp only [editedB, Bool.and_eq_true] at h
      obtain ⟨e1, h1⟩ := ih _ h.1.2
      cases hr : (o.run e).1 with
      | ok u => rw [hr] at h; cases h.1.1
      | error x =>
        refine ⟨e1, .caught (x := x) ?_ (Prod.ext hr rfl) h1⟩
        cases o with
        | clean => simpa [Harmless] using h.2
        | eraseAnims a t s => simpa [Harmless] using h.2
        | scale x y =>
          simp only [List.all_eq_true] at h
          intro b hb
          have := h.2 b hb
          constructor
          · intro l hl; rw [hl] at this; cases this
          · intro l hl; rw [hl] at this; split at this <;> simp_all
        | eraseSkins names s =>
          cases names with
          | nil => exact absurd h.2 (by simp)
          | cons n ns => exact .inl ⟨[], n, ns, _, _, rfl, rfl, by simpa using h.2⟩

/-- four calls, of which the first two raise an exception: an unknown animation, an unknown skin -/
def someCalls : List (Op Rat × Bool) := [(.eraseAnims (.list [s!!"run", s!!"nope"]) true false, false), (.eraseSkins [s!!"zz"] true, false), (.scale (.int 2) (.int 3), true), (.clean, true)]

example : (Sample.load basic).map (editedB someCalls) = some true := by decide +kernel
example : (Sample.load mixed).map (editedB someCalls) = some true := by decide +kernel

end examples
end KeyOrder
end Spine
