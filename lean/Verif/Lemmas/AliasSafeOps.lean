import Verif.Lemmas.AliasSafe
/-
Constructors, default values, `to_json` and the edits stay in their region.
-/
set_option linter.unusedSectionVars false
namespace Spine
namespace Alias
open M
variable {F : Type} {R : Nat → Prop}

macro_rules | `(tactic| safe1) => `(tactic| with_reducible exact safe_read)
macro_rules | `(tactic| safe1) => `(tactic| with_reducible exact safe_lift)

theorem safe_dictItems {r : Ref F} (hr : ins R r) : Safe R (dictItems r) := by
  unfold dictItems
  safe
macro_rules | `(tactic| safe1) => `(tactic| with_reducible refine safe_dictItems ?_)
theorem safe_itemsOf {r : Ref F} (hr : ins R r) : Safe R (itemsOf r) := by
  unfold itemsOf
  safe
macro_rules | `(tactic| safe1) => `(tactic| with_reducible refine safe_itemsOf ?_)
theorem safe_level {r : Ref F} (hr : ins R r) : Safe R (level r) := by
  unfold level
  safe
macro_rules | `(tactic| safe1) => `(tactic| with_reducible refine safe_level ?_)
theorem safe_subscript {r : Ref F} {k : Str} (hr : ins R r) : Safe R (subscript r k) := by
  unfold subscript
  safe
macro_rules | `(tactic| safe1) => `(tactic| with_reducible refine safe_subscript ?_)
theorem safe_setItem {r : Ref F} {k : Str} {x : Ref F} (hr : ins R r) (hx : ins R x) : Safe R (setItem r k x) := by
  unfold setItem
  safe
macro_rules | `(tactic| safe1) => `(tactic| with_reducible refine safe_setItem ?_ ?_)
theorem safe_delItem {r : Ref F} {k : Str} (hr : ins R r) : Safe R (delItem r k) := by
  unfold delItem
  safe
macro_rules | `(tactic| safe1) => `(tactic| with_reducible refine safe_delItem ?_)
theorem safe_getAttr {r : Ref F} {k : Str} (hr : ins R r) : Safe R (getAttr r k) := by
  unfold getAttr
  safe
macro_rules | `(tactic| safe1) => `(tactic| with_reducible refine safe_getAttr ?_)
theorem safe_setAttr {r : Ref F} {k : Str} {x : Ref F} (hr : ins R r) (hx : ins R x) : Safe R (setAttr r k x) := by
  unfold setAttr
  safe
macro_rules | `(tactic| safe1) => `(tactic| with_reducible refine safe_setAttr ?_ ?_)
theorem safe_elems {r : Ref F} (hr : ins R r) : Safe R (elems r) := by
  unfold elems
  safe
macro_rules | `(tactic| safe1) => `(tactic| with_reducible refine safe_elems ?_)


/-- no attention to the region of the arguments -/
theorem safe_mapL_any {α β : Type} [Ins β] {f : α → M F β} (hm : ∀ x, Mono (f x)) (hf : ∀ x, Safe R (f x)) (l : List α) :
    Safe R (mapL f l) := by
  induction l with
  | nil => exact Safe.pure (ins_nil.mpr trivial)
  | cons x r ih =>
    have h2 := hf x
    have h3 := hm x
    unfold mapL
    safe

theorem safe_mapV_any {α β : Type} [Ins β] {f : α → M F β} (hm : ∀ x, Mono (f x)) (hf : ∀ x, Safe R (f x)) (d : Dict α) :
    Safe R (mapV f d) := by
  unfold mapV
  refine safe_mapL_any ?_ ?_ d
  · intro x
    have := hm x.2
    mono
  · intro x
    have h1 := hf x.2
    have h3 := hm x.2
    safe

theorem ins_leaf {d : Dict (Ref F)} {l : List Str} (hd : ins R d) :
    ins R (l.map (fun k => (k, (Dict.get? d k).getD .null))) := by
  intro x hx
  obtain ⟨k, _, rfl⟩ := List.mem_map.mp hx
  exact ⟨Plain.all _ _, ins_getD hd (ins_null.mpr trivial)⟩

section Init
variable [PyRt F]

theorem safe_orDict {r : Ref F} (hr : ins R r) : Safe R (orDict r) := by
  unfold orDict
  safe
macro_rules | `(tactic| safe1) => `(tactic| with_reducible refine safe_orDict ?_)
theorem safe_values {c : Cls F} {r : Ref F} (hr : ins R r) : Safe R (values c r) := by
  unfold values
  safe
macro_rules | `(tactic| safe1) => `(tactic| with_reducible refine safe_values ?_)
theorem safe_check {k r : List Str} {d : Dict (Ref F)} : Safe R (check k r d) := by
  unfold check
  safe
macro_rules | `(tactic| safe1) => `(tactic| with_reducible exact safe_check)
theorem safe_newLeaf {t : Tag} {r : Ref F} (hr : ins R r) : Safe R (newLeaf t r) := by
  unfold newLeaf
  safe
  exact ins_inst.mpr (ins_leaf (by assumption))
macro_rules | `(tactic| safe1) => `(tactic| with_reducible refine safe_newLeaf ?_)
theorem safe_listOf {f : Ref F → M F (Ref F)} (hm : ∀ x, Mono (f x)) {r : Ref F} (hr : ins R r)
    (hf : ∀ x, ins R x → Safe R (f x)) : Safe R (listOf f r) := by
  unfold listOf
  safe
macro_rules | `(tactic| safe1) => `(tactic| with_reducible refine safe_listOf (fun _ => ?_) ?_ (fun _ _ => ?_))
theorem safe_getList {d : Dict (Ref F)} {k : Str} {f : Ref F → M F (Ref F)} (hm : ∀ x, Mono (f x)) (hd : ins R d)
    (hf : ∀ x, ins R x → Safe R (f x)) : Safe R (getList d k f) := by
  unfold getList
  safe
macro_rules | `(tactic| safe1) => `(tactic| with_reducible refine safe_getList (fun _ => ?_) ?_ (fun _ _ => ?_))
theorem safe_getDict {d : Dict (Ref F)} {k : Str} {f : Ref F → M F (Ref F)} (hm : ∀ x, Mono (f x)) (hd : ins R d)
    (hf : ∀ x, ins R x → Safe R (f x)) : Safe R (getDict d k f) := by
  unfold getDict
  safe
macro_rules | `(tactic| safe1) => `(tactic| with_reducible refine safe_getDict (fun _ => ?_) ?_ (fun _ _ => ?_))
theorem safe_dictOf {f : Ref F → M F (Ref F)} (hm : ∀ x, Mono (f x)) {r : Ref F} (hr : ins R r)
    (hf : ∀ x, ins R x → Safe R (f x)) : Safe R (dictOf f r) := by
  unfold dictOf
  safe
macro_rules | `(tactic| safe1) => `(tactic| with_reducible refine safe_dictOf (fun _ => ?_) ?_ (fun _ _ => ?_))
theorem safe_parseAttachments {E : Env F} {r : Ref F} (hr : ins R r) : Safe R (parseAttachments E r) := by
  unfold parseAttachments
  safe
macro_rules | `(tactic| safe1) => `(tactic| with_reducible refine safe_parseAttachments ?_)
theorem safe_newSkin {E : Env F} {r : Ref F} (hr : ins R r) : Safe R (newSkin E r) := by
  unfold newSkin
  safe
macro_rules | `(tactic| safe1) => `(tactic| with_reducible refine safe_newSkin ?_)
theorem safe_newSlotTl {r : Ref F} (hr : ins R r) : Safe R (newSlotTl r) := by
  unfold newSlotTl
  safe
macro_rules | `(tactic| safe1) => `(tactic| with_reducible refine safe_newSlotTl ?_)
theorem safe_newBoneTl {r : Ref F} (hr : ins R r) : Safe R (newBoneTl r) := by
  unfold newBoneTl
  safe
macro_rules | `(tactic| safe1) => `(tactic| with_reducible refine safe_newBoneTl ?_)
theorem safe_newDraw {r : Ref F} (hr : ins R r) : Safe R (newDraw r) := by
  unfold newDraw
  safe
macro_rules | `(tactic| safe1) => `(tactic| with_reducible refine safe_newDraw ?_)
theorem safe_getOrNew {d : Dict (Ref F)} {k : Str} (hd : ins R d) : Safe R (getOrNew d k) := by
  unfold getOrNew
  safe
macro_rules | `(tactic| safe1) => `(tactic| with_reducible refine safe_getOrNew ?_)
theorem safe_newAnim {r : Ref F} (hr : ins R r) : Safe R (newAnim r) := by
  unfold newAnim
  safe
macro_rules | `(tactic| safe1) => `(tactic| with_reducible refine safe_newAnim ?_)
/-- the constructor copies its argument first -/
theorem safe_newData (E : Env F) (r : Ref F) : Safe R (newData E r) := by
  unfold newData
  safe
macro_rules | `(tactic| safe1) => `(tactic| with_reducible exact safe_newData _ _)
end Init

end Alias
end Spine
