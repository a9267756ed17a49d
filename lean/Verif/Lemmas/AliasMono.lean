import Verif.Spec.Alias
/-
No computation of Model/Alias.lean makes the heap smaller.
-/
set_option linter.unusedSectionVars false
namespace Spine
namespace Alias
open M
variable {F : Type}

/-! ### No object disappears -/

/-- the heap only grows -/
structure Mono {α : Type} (m : M F α) : Prop where
  le : ∀ h, h.length ≤ (m h).2.length

section Mono
variable {α β : Type}

theorem Mono.pure {x : α} : Mono (F := F) (Pure.pure x) := ⟨fun _ => Nat.le_refl _⟩
theorem Mono.raise {e : Err} : Mono (F := F) (M.raise (α := α) e) := ⟨fun _ => Nat.le_refl _⟩
theorem Mono.lift {r : Except Err α} : Mono (F := F) (M.lift r) := ⟨fun _ => Nat.le_refl _⟩
theorem Mono.alloc {o : Obj F} : Mono (M.alloc o) := ⟨fun h => by simp [M.alloc]⟩
theorem Mono.look {a : Nat} : Mono (F := F) (M.look a) := ⟨fun h => by
  simp only [M.look]
  split <;> exact Nat.le_refl _⟩
theorem Mono.store {a : Nat} {o : Obj F} : Mono (M.store a o) := ⟨fun h => by simp [M.store]⟩
theorem Mono.view {f : Heap F → Option α} {e : Err} : Mono (M.view f e) := ⟨fun h => by
  simp only [M.view]
  split <;> exact Nat.le_refl _⟩
theorem Mono.attempt {m : M F α} (h : Mono m) : Mono (M.attempt m) := ⟨fun g => h.le g⟩

/-- what `bind` does -/
theorem bind_eq {m : M F α} {f : α → M F β} (h : Heap F) :
    (m >>= f) h = match m h with
      | (.ok x, h) => f x h
      | (.error e, h) => (.error e, h) := rfl

theorem Mono.bind {m : M F α} {f : α → M F β} (hm : Mono m) (hf : ∀ x, Mono (f x)) : Mono (m >>= f) := by
  constructor
  intro h
  have h1 := hm.le h
  rw [bind_eq]
  split
  · rename_i x g hx
    rw [hx] at h1
    exact Nat.le_trans h1 ((hf x).le g)
  · rename_i e g hx
    rw [hx] at h1
    exact h1
end Mono

/-- closes the steps of a proof that the heap only grows -/
syntax "mono1" : tactic
macro_rules | `(tactic| mono1) => `(tactic| with_reducible exact Mono.pure)
macro_rules | `(tactic| mono1) => `(tactic| with_reducible exact Mono.raise)
macro_rules | `(tactic| mono1) => `(tactic| with_reducible exact Mono.lift)
macro_rules | `(tactic| mono1) => `(tactic| with_reducible exact Mono.alloc)
macro_rules | `(tactic| mono1) => `(tactic| with_reducible exact Mono.look)
macro_rules | `(tactic| mono1) => `(tactic| with_reducible exact Mono.store)
macro_rules | `(tactic| mono1) => `(tactic| with_reducible exact Mono.view)
macro_rules | `(tactic| mono1) => `(tactic| with_reducible assumption)
syntax "mono" : tactic
macro_rules | `(tactic| mono) => `(tactic|
  repeat' (first | mono1 | with_reducible apply Mono.attempt | intro _ | with_reducible apply Mono.bind | split))

theorem mono_mapL {α β : Type} {f : α → M F β} (hf : ∀ x, Mono (f x)) (l : List α) : Mono (mapL f l) := by
  induction l with
  | nil => exact Mono.pure
  | cons x r ih =>
    unfold mapL
    mono
    exact hf x
macro_rules | `(tactic| mono1) => `(tactic| with_reducible apply mono_mapL)

theorem mono_mapV {α β : Type} {f : α → M F β} (hf : ∀ x, Mono (f x)) (d : Dict α) : Mono (mapV f d) := by
  unfold mapV
  mono
  apply hf
macro_rules | `(tactic| mono1) => `(tactic| with_reducible apply mono_mapV)

theorem mono_each {α : Type} {f : α → M F Unit} (hf : ∀ x, Mono (f x)) (l : List α) : Mono (each f l) := by
  induction l with
  | nil => exact Mono.pure
  | cons x r ih =>
    unfold each
    mono
    exact hf x
macro_rules | `(tactic| mono1) => `(tactic| with_reducible apply mono_each)

theorem mono_copyL {f : Memo F → Ref F → M F (Ref F × Memo F)} (hf : ∀ m x, Mono (f m x)) (l : List (Ref F)) :
    ∀ m, Mono (copyL f l m) := by
  induction l with
  | nil => exact fun _ => Mono.pure
  | cons x r ih =>
    intro m
    unfold copyL
    refine Mono.bind (hf m x) (fun p => ?_)
    refine Mono.bind (ih p.2) (fun q => ?_)
    mono

theorem mono_copyD {f : Memo F → Ref F → M F (Ref F × Memo F)} (hf : ∀ m x, Mono (f m x)) (l : Dict (Ref F)) :
    ∀ m, Mono (copyD f l m) := by
  induction l with
  | nil => exact fun _ => Mono.pure
  | cons x r ih =>
    intro m
    unfold copyD
    refine Mono.bind (hf m x.2) (fun p => ?_)
    refine Mono.bind (ih p.2) (fun q => ?_)
    mono

theorem mono_fill (r : Ref F) (o : Obj F) : Mono (fill r o) := by unfold fill; mono
macro_rules | `(tactic| mono1) => `(tactic| with_reducible exact mono_fill _ _)

theorem mono_copyStep {f : Memo F → Ref F → M F (Ref F × Memo F)} (hf : ∀ m x, Mono (f m x)) (m : Memo F) (r : Ref F) :
    Mono (copyStep f m r) := by
  have h1 := mono_copyL hf
  have h2 := mono_copyD hf
  unfold copyStep
  mono
  all_goals first | apply h1 | apply h2

theorem mono_copy : ∀ (n : Nat) (m : Memo F) (r : Ref F), Mono (copy n m r)
  | 0, m, r => mono_copyStep (fun _ _ => Mono.raise) m r
  | n + 1, m, r => mono_copyStep (mono_copy n) m r
macro_rules | `(tactic| mono1) => `(tactic| with_reducible exact mono_copy _ _ _)

theorem mono_deepcopy (E : Env F) (r : Ref F) : Mono (deepcopy E r) := by unfold deepcopy; mono
macro_rules | `(tactic| mono1) => `(tactic| with_reducible exact mono_deepcopy _ _)
theorem mono_deref (r : Ref F) : Mono (deref r) := by unfold deref; mono
macro_rules | `(tactic| mono1) => `(tactic| with_reducible exact mono_deref _)
theorem mono_truthy [PyRt F] (r : Ref F) : Mono (truthy r) := by unfold truthy; mono
macro_rules | `(tactic| mono1) => `(tactic| with_reducible exact mono_truthy _)
theorem mono_iter (r : Ref F) : Mono (iter r) := by unfold iter; mono
macro_rules | `(tactic| mono1) => `(tactic| with_reducible exact mono_iter _)
theorem mono_dictItems (r : Ref F) : Mono (dictItems r) := by unfold dictItems; mono
macro_rules | `(tactic| mono1) => `(tactic| with_reducible exact mono_dictItems _)
theorem mono_itemsOf (r : Ref F) : Mono (itemsOf r) := by unfold itemsOf; mono
macro_rules | `(tactic| mono1) => `(tactic| with_reducible exact mono_itemsOf _)
theorem mono_level (r : Ref F) : Mono (level r) := by unfold level; mono
macro_rules | `(tactic| mono1) => `(tactic| with_reducible exact mono_level _)
theorem mono_subscript (r : Ref F) (k : Str) : Mono (subscript r k) := by unfold subscript; mono
macro_rules | `(tactic| mono1) => `(tactic| with_reducible exact mono_subscript _ _)
theorem mono_setItem (r : Ref F) (k : Str) (x : Ref F) : Mono (setItem r k x) := by unfold setItem; mono
macro_rules | `(tactic| mono1) => `(tactic| with_reducible exact mono_setItem _ _ _)
theorem mono_delItem (r : Ref F) (k : Str) : Mono (delItem r k) := by unfold delItem; mono
macro_rules | `(tactic| mono1) => `(tactic| with_reducible exact mono_delItem _ _)
theorem mono_getAttr (r : Ref F) (k : Str) : Mono (getAttr r k) := by unfold getAttr; mono
macro_rules | `(tactic| mono1) => `(tactic| with_reducible exact mono_getAttr _ _)
theorem mono_setAttr (r : Ref F) (k : Str) (x : Ref F) : Mono (setAttr r k x) := by unfold setAttr; mono
macro_rules | `(tactic| mono1) => `(tactic| with_reducible exact mono_setAttr _ _ _)
theorem mono_elems (r : Ref F) : Mono (elems r) := by unfold elems; mono
macro_rules | `(tactic| mono1) => `(tactic| with_reducible exact mono_elems _)

section Init
variable [PyRt F]
theorem mono_orDict (r : Ref F) : Mono (orDict r) := by unfold orDict; mono
macro_rules | `(tactic| mono1) => `(tactic| with_reducible exact mono_orDict _)
theorem mono_values (c : Cls F) (r : Ref F) : Mono (values c r) := by unfold values; mono
macro_rules | `(tactic| mono1) => `(tactic| with_reducible exact mono_values _ _)
theorem mono_check (k r : List Str) (d : Dict (Ref F)) : Mono (check k r d) := by unfold check; mono
macro_rules | `(tactic| mono1) => `(tactic| with_reducible exact mono_check _ _ _)
theorem mono_newLeaf (t : Tag) (r : Ref F) : Mono (newLeaf t r) := by unfold newLeaf; mono
macro_rules | `(tactic| mono1) => `(tactic| with_reducible exact mono_newLeaf _ _)
theorem mono_listOf {f : Ref F → M F (Ref F)} (hf : ∀ x, Mono (f x)) (r : Ref F) : Mono (listOf f r) := by
  unfold listOf; mono
macro_rules | `(tactic| mono1) => `(tactic| with_reducible apply mono_listOf)
theorem mono_getList (d : Dict (Ref F)) (k : Str) {f : Ref F → M F (Ref F)} (hf : ∀ x, Mono (f x)) :
    Mono (getList d k f) := by
  unfold getList; mono
macro_rules | `(tactic| mono1) => `(tactic| with_reducible apply mono_getList)
theorem mono_getDict (d : Dict (Ref F)) (k : Str) {f : Ref F → M F (Ref F)} (hf : ∀ x, Mono (f x)) :
    Mono (getDict d k f) := by
  unfold getDict; mono
macro_rules | `(tactic| mono1) => `(tactic| with_reducible apply mono_getDict)
theorem mono_dictOf {f : Ref F → M F (Ref F)} (hf : ∀ x, Mono (f x)) (r : Ref F) : Mono (dictOf f r) := by
  unfold dictOf; mono
macro_rules | `(tactic| mono1) => `(tactic| with_reducible apply mono_dictOf)
theorem mono_parseAttachments (E : Env F) (r : Ref F) : Mono (parseAttachments E r) := by
  unfold parseAttachments; mono
macro_rules | `(tactic| mono1) => `(tactic| with_reducible exact mono_parseAttachments _ _)
theorem mono_newSkin (E : Env F) (r : Ref F) : Mono (newSkin E r) := by unfold newSkin; mono
macro_rules | `(tactic| mono1) => `(tactic| with_reducible exact mono_newSkin _ _)
theorem mono_newSlotTl (r : Ref F) : Mono (newSlotTl r) := by unfold newSlotTl; mono
macro_rules | `(tactic| mono1) => `(tactic| with_reducible exact mono_newSlotTl _)
theorem mono_newBoneTl (r : Ref F) : Mono (newBoneTl r) := by unfold newBoneTl; mono
macro_rules | `(tactic| mono1) => `(tactic| with_reducible exact mono_newBoneTl _)
theorem mono_newDraw (r : Ref F) : Mono (newDraw r) := by unfold newDraw; mono
macro_rules | `(tactic| mono1) => `(tactic| with_reducible exact mono_newDraw _)
theorem mono_getOrNew (d : Dict (Ref F)) (k : Str) : Mono (getOrNew d k) := by unfold getOrNew; mono
macro_rules | `(tactic| mono1) => `(tactic| with_reducible exact mono_getOrNew _ _)
theorem mono_newAnim (r : Ref F) : Mono (newAnim r) := by unfold newAnim; mono
macro_rules | `(tactic| mono1) => `(tactic| with_reducible exact mono_newAnim _)
theorem mono_newData (E : Env F) (r : Ref F) : Mono (newData E r) := by unfold newData; mono
macro_rules | `(tactic| mono1) => `(tactic| with_reducible exact mono_newData _ _)
theorem mono_defaultsStep (E : Env F) (v38 : Bool) {f : Ref F → M F Unit} (hf : ∀ x, Mono (f x)) (r : Ref F) :
    Mono (defaultsStep E v38 f r) := by
  unfold defaultsStep; mono; all_goals apply hf
theorem mono_setDefaultsN (E : Env F) (v38 : Bool) : ∀ (n : Nat) (r : Ref F), Mono (setDefaultsN E v38 n r)
  | 0, r => mono_defaultsStep E v38 (fun _ => Mono.raise) r
  | n + 1, r => mono_defaultsStep E v38 (mono_setDefaultsN E v38 n) r
theorem mono_setDefaults (E : Env F) (v38 : Bool) (r : Ref F) : Mono (setDefaults E v38 r) := mono_setDefaultsN _ _ _ _
macro_rules | `(tactic| mono1) => `(tactic| with_reducible exact mono_setDefaults _ _ _)
theorem mono_toJsonA (E : Env F) (v38 : Bool) (t : Tag) {f : Ref F → M F (Ref F)} (hf : ∀ x, Mono (f x)) (d : Dict (Ref F)) :
    Mono (toJsonA E v38 t f d) := by
  induction d with
  | nil => exact Mono.pure
  | cons p r ih =>
    unfold toJsonA; mono; apply hf
theorem mono_toJsonStep (E : Env F) (v38 : Bool) {f : Ref F → M F (Ref F)} (hf : ∀ x, Mono (f x)) (r : Ref F) :
    Mono (toJsonStep E v38 f r) := by
  have := fun t => mono_toJsonA E v38 t hf
  unfold toJsonStep; mono; all_goals first | apply hf | apply this
theorem mono_toJsonN (E : Env F) (v38 : Bool) : ∀ (n : Nat) (r : Ref F), Mono (toJsonN E v38 n r)
  | 0, r => mono_toJsonStep E v38 (fun _ => Mono.raise) r
  | n + 1, r => mono_toJsonStep E v38 (mono_toJsonN E v38 n) r
macro_rules | `(tactic| mono1) => `(tactic| with_reducible exact mono_toJsonN _ _ _ _)
theorem mono_toJsonData (E : Env F) (s : Ref F) (v : Version) (d : Ref F) : Mono (toJsonData E s v d) := by
  unfold toJsonData; mono
macro_rules | `(tactic| mono1) => `(tactic| with_reducible exact mono_toJsonData _ _ _ _)
theorem mono_newImage (i : ImageRef F) : Mono (newImage i) := by unfold newImage; mono
macro_rules | `(tactic| mono1) => `(tactic| with_reducible exact mono_newImage _)
theorem mono_viewDoc (E : Env F) (s : Ref F) (v : Version) (d : Ref F) : Mono (viewDoc E s v d) := by
  unfold viewDoc; mono
macro_rules | `(tactic| mono1) => `(tactic| with_reducible exact mono_viewDoc _ _ _ _)
theorem mono_newImages (E : Env F) (s : Ref F) (v : Version) (d : Ref F) : Mono (newImages E s v d) := by
  unfold newImages; mono
macro_rules | `(tactic| mono1) => `(tactic| with_reducible exact mono_newImages _ _ _ _)
theorem mono_docList (r : Ref F) (k : Str) : Mono (docList r k) := by unfold docList; mono
macro_rules | `(tactic| mono1) => `(tactic| with_reducible exact mono_docList _ _)
theorem mono_newGraph (E : Env F) (r : Ref F) : Mono (newGraph E r) := by unfold newGraph; mono
macro_rules | `(tactic| mono1) => `(tactic| with_reducible exact mono_newGraph _ _)
theorem mono_init (E : Env F) (r : Ref F) : Mono (init E r) := by unfold init; mono
theorem mono_toJson (E : Env F) (e : Ed F) : Mono (e.toJson E) := by unfold Ed.toJson; mono
macro_rules | `(tactic| mono1) => `(tactic| with_reducible exact mono_toJson _ _)
theorem mono_named (n : Str) (r : Ref F) : Mono (named n r) := by unfold named; mono
macro_rules | `(tactic| mono1) => `(tactic| with_reducible exact mono_named _ _)
theorem mono_filterL {α : Type} {f : α → M F Bool} (hf : ∀ x, Mono (f x)) (l : List α) : Mono (filterL f l) := by
  induction l with
  | nil => exact Mono.pure
  | cons x r ih =>
    unfold filterL; mono; apply hf
macro_rules | `(tactic| mono1) => `(tactic| with_reducible apply mono_filterL)
theorem mono_linksTo (n : Str) (r : Ref F) : Mono (linksTo n r) := by unfold linksTo; mono
macro_rules | `(tactic| mono1) => `(tactic| with_reducible exact mono_linksTo _ _)
theorem mono_relink (E : Env F) (g : Ref F) (n s : Str) (e : Ref F) (p : Str × Ref F) : Mono (relink E g n s e p) := by
  unfold relink; mono
macro_rules | `(tactic| mono1) => `(tactic| with_reducible exact mono_relink _ _ _ _ _ _)
theorem mono_relinkSkin (E : Env F) (g : Ref F) (n : Str) (s : Ref F) : Mono (relinkSkin E g n s) := by
  unfold relinkSkin; mono
macro_rules | `(tactic| mono1) => `(tactic| with_reducible exact mono_relinkSkin _ _ _ _)
theorem mono_dropDeform (n : Str) (a : Ref F) : Mono (dropDeform n a) := by unfold dropDeform; mono
macro_rules | `(tactic| mono1) => `(tactic| with_reducible exact mono_dropDeform _ _)
theorem mono_removeSkin (E : Env F) (d : Ref F) (n : Str) : Mono (removeSkin E d n) := by unfold removeSkin; mono
macro_rules | `(tactic| mono1) => `(tactic| with_reducible exact mono_removeSkin _ _ _)
theorem mono_removeSkins (E : Env F) (d : Ref F) (l : List Str) : Mono (removeSkins E d l) := by
  induction l with
  | nil => exact Mono.pure
  | cons x r ih => unfold removeSkins; mono
macro_rules | `(tactic| mono1) => `(tactic| with_reducible exact mono_removeSkins _ _ _)
theorem mono_cleanImages (E : Env F) (r : Ref F) (l : List (Option Str)) : Mono (cleanImages E r l) := by
  unfold cleanImages; mono
macro_rules | `(tactic| mono1) => `(tactic| with_reducible exact mono_cleanImages _ _ _)
theorem mono_slotsInSkins (E : Env F) (r : Ref F) (l : List Str) : Mono (slotsInSkins E r l) := by
  unfold slotsInSkins; mono
macro_rules | `(tactic| mono1) => `(tactic| with_reducible exact mono_slotsInSkins _ _ _)
theorem mono_removeDeformSlots (l : List Str) (r : Ref F) : Mono (removeDeformSlots l r) := by
  unfold removeDeformSlots; mono
macro_rules | `(tactic| mono1) => `(tactic| with_reducible exact mono_removeDeformSlots _ _)
theorem mono_slotsInAnim (E : Env F) (l : List Str) (r : Ref F) : Mono (slotsInAnim E l r) := by
  unfold slotsInAnim; mono
macro_rules | `(tactic| mono1) => `(tactic| with_reducible exact mono_slotsInAnim _ _ _)
theorem mono_cleanDraw (E : Env F) (l : List Str) (o : List (Slot F)) (r : Ref F) : Mono (cleanDraw E l o r) := by
  unfold cleanDraw; mono
macro_rules | `(tactic| mono1) => `(tactic| with_reducible exact mono_cleanDraw _ _ _ _)
theorem mono_drawInAnim (E : Env F) (l : List Str) (o : List (Slot F)) (r : Ref F) : Mono (drawInAnim E l o r) := by
  unfold drawInAnim; mono
macro_rules | `(tactic| mono1) => `(tactic| with_reducible exact mono_drawInAnim _ _ _ _)
theorem mono_anims (r : Ref F) : Mono (anims r) := by unfold anims; mono
macro_rules | `(tactic| mono1) => `(tactic| with_reducible exact mono_anims _)
theorem mono_removeSlots (E : Env F) (r : Ref F) (l : List Str) (o : List (Slot F)) : Mono (removeSlots E r l o) := by
  unfold removeSlots; mono
macro_rules | `(tactic| mono1) => `(tactic| with_reducible exact mono_removeSlots _ _ _ _)
theorem mono_removeDeformAtts (l : List Str) (n : Str) (r : Ref F) : Mono (removeDeformAtts l n r) := by
  unfold removeDeformAtts; mono
macro_rules | `(tactic| mono1) => `(tactic| with_reducible exact mono_removeDeformAtts _ _ _)
theorem mono_attsInSkin (d : Ref F) (l : List Str) (p : Ref F × Ref F) : Mono (attsInSkin d l p) := by
  unfold attsInSkin; mono
macro_rules | `(tactic| mono1) => `(tactic| with_reducible exact mono_attsInSkin _ _ _)
theorem mono_attsInSkins (E : Env F) (d : Ref F) (l : List Str) : Mono (attsInSkins E d l) := by
  unfold attsInSkins; mono
macro_rules | `(tactic| mono1) => `(tactic| with_reducible exact mono_attsInSkins _ _ _)
theorem mono_attsInSlots (E : Env F) (d : Ref F) (l : List Str) : Mono (attsInSlots E d l) := by
  unfold attsInSlots; mono
macro_rules | `(tactic| mono1) => `(tactic| with_reducible exact mono_attsInSlots _ _ _)
theorem mono_removeAttachments (E : Env F) (d : Ref F) (l : List Str) : Mono (removeAttachments E d l) := by
  unfold removeAttachments; mono
macro_rules | `(tactic| mono1) => `(tactic| with_reducible exact mono_removeAttachments _ _ _)
theorem mono_readBack (E : Env F) (e : Ed F) : Mono (readBack E e) := by unfold readBack; mono
macro_rules | `(tactic| mono1) => `(tactic| with_reducible exact mono_readBack _ _)
theorem mono_clean (E : Env F) (e : Ed F) : Mono (clean E e) := by unfold clean; mono
macro_rules | `(tactic| mono1) => `(tactic| with_reducible exact mono_clean _ _)
theorem mono_cleanUnless (E : Env F) (s : Bool) (e : Ed F) : Mono (cleanUnless E s e) := by unfold cleanUnless; mono
macro_rules | `(tactic| mono1) => `(tactic| with_reducible exact mono_cleanUnless _ _ _)
theorem mono_eraseSkins (E : Env F) (l : List Str) (s : Bool) (e : Ed F) : Mono (eraseSkins E l s e) := by
  unfold eraseSkins; mono
macro_rules | `(tactic| mono1) => `(tactic| with_reducible exact mono_eraseSkins _ _ _ _)
theorem mono_eraseRaw (d : Ref F) (l : List Str) : Mono (eraseRaw d l) := by
  induction l with
  | nil => exact Mono.pure
  | cons x r ih => unfold eraseRaw; mono
macro_rules | `(tactic| mono1) => `(tactic| with_reducible exact mono_eraseRaw _ _)
theorem mono_eraseAnims (E : Env F) (a : Editor.NamesArg) (t s : Bool) (e : Ed F) : Mono (eraseAnims E a t s e) := by
  unfold eraseAnims; mono
macro_rules | `(tactic| mono1) => `(tactic| with_reducible exact mono_eraseAnims _ _ _ _ _)
theorem mono_imul (r : Ref F) (n : Num F) : Mono (imul r n) := by
  have hs : ∀ v, Mono (imul.scalar n v) := by intro v; unfold imul.scalar; mono
  unfold imul; mono; all_goals apply hs
macro_rules | `(tactic| mono1) => `(tactic| with_reducible exact mono_imul _ _)
theorem mono_scaleBone (x y : Num F) (b : Ref F) : Mono (scaleBone x y b) := by unfold scaleBone; mono
macro_rules | `(tactic| mono1) => `(tactic| with_reducible exact mono_scaleBone _ _ _)
theorem mono_noInherit (b : Ref F) : Mono (noInherit b) := by unfold noInherit; mono
macro_rules | `(tactic| mono1) => `(tactic| with_reducible exact mono_noInherit _)
theorem mono_scale (x y : Num F) (b : Ref F) : Mono (scale x y b) := by unfold scale; mono
macro_rules | `(tactic| mono1) => `(tactic| with_reducible exact mono_scale _ _ _)
theorem mono_run (E : Env F) (c : Call F) (e : Ed F) : Mono (c.run E e) := by
  cases c <;> (simp only [Call.run]; mono)
end Init

end Alias
end Spine
