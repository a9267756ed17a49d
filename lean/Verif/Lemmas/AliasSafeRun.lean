import Verif.Lemmas.AliasSafeEdit
/-
The editor's constructor stays among its new objects and its calls stay among the editor's objects.
-/
set_option linter.unusedSectionVars false
namespace Spine
namespace Alias
open M
variable {F : Type} {R : Nat → Prop} [PyRt F]

theorem safe_toJsonN {E : Env F} {v38 : Bool} : ∀ (n : Nat) (r : Ref F), Safe R (toJsonN E v38 n r)
  | 0, r => safe_toJsonStep (fun _ => Mono.raise) (fun _ => Safe.raise) r
  | n + 1, r => safe_toJsonStep (mono_toJsonN E v38 n) (fun x => safe_toJsonN n x) r
macro_rules | `(tactic| safe1) => `(tactic| with_reducible exact safe_toJsonN _ _)
/-- `to_json_data` returns new objects, whatever it is applied to -/
theorem safe_toJsonData {E : Env F} {s : Ref F} {v : Version} {d : Ref F} : Safe R (toJsonData E s v d) := by
  unfold toJsonData
  safe
macro_rules | `(tactic| safe1) => `(tactic| with_reducible exact safe_toJsonData)
theorem safe_newImage {i : ImageRef F} : Safe R (newImage i) := by
  unfold newImage
  safe
  cases i.scale <;> ins1
macro_rules | `(tactic| safe1) => `(tactic| with_reducible exact safe_newImage)
theorem safe_viewDoc {E : Env F} {s : Ref F} {v : Version} {d : Ref F} : Safe R (viewDoc E s v d) := by
  unfold viewDoc
  safe
macro_rules | `(tactic| safe1) => `(tactic| with_reducible exact safe_viewDoc)
theorem safe_newImages {E : Env F} {s : Ref F} {v : Version} {d : Ref F} : Safe R (newImages E s v d) := by
  unfold newImages
  safe
macro_rules | `(tactic| safe1) => `(tactic| with_reducible exact safe_newImages)
theorem safe_docList {r : Ref F} {k : Str} (hr : ins R r) : Safe R (docList r k) := by
  unfold docList
  safe
macro_rules | `(tactic| safe1) => `(tactic| with_reducible refine safe_docList ?_)
theorem safe_newGraph {E : Env F} {r : Ref F} (hr : ins R r) : Safe R (newGraph E r) := by
  unfold newGraph
  safe
  refine ins_withRefs ?_ ?_ ?_ <;> assumption
macro_rules | `(tactic| safe1) => `(tactic| with_reducible refine safe_newGraph ?_)

theorem Reads.bind {α β : Type} {m : M F α} {f : α → M F β} (hm : Reads m) (hf : ∀ x, Reads (f x)) : Reads (m >>= f) := by
  constructor
  intro h
  have h1 := hm.same h
  rw [bind_eq]
  split
  · rename_i x g hq
    rw [hq] at h1
    cases h1
    exact (hf x).same _
  · rename_i x g hq
    rw [hq] at h1
    exact h1

theorem Reads.subscript {r : Ref F} {k : Str} : Reads (subscript r k) := by
  unfold Alias.subscript
  refine Reads.bind Reads.deref (fun o => ?_)
  split
  · split <;> exact ⟨fun _ => rfl⟩
  · exact ⟨fun _ => rfl⟩

/-- the constructor stays among its new objects -/
theorem safe_init (E : Env F) (r : Ref F) : Safe R (init E r) := by
  unfold init
  refine Safe.read_bind Reads.subscript (fun sk => ?_)
  safe
  all_goals (simp only [ins_ed]; refine ⟨?_, ?_, ?_, ?_⟩ <;> assumption)

theorem safe_toJson {E : Env F} {e : Ed F} : Safe R (e.toJson E) := safe_toJsonData
macro_rules | `(tactic| safe1) => `(tactic| with_reducible exact safe_toJson)

theorem safe_named {n : Str} {r : Ref F} (hr : ins R r) : Safe R (named n r) := by
  unfold named
  safe
macro_rules | `(tactic| safe1) => `(tactic| with_reducible refine safe_named ?_)
theorem safe_filterL {α : Type} [Ins α] {f : α → M F Bool} (hm : ∀ x, Mono (f x)) {l : List α} (hl : ins R l)
    (hf : ∀ x, ins R x → Safe R (f x)) : Safe R (filterL f l) := by
  induction l with
  | nil => exact Safe.pure (ins_nil.mpr trivial)
  | cons x r ih =>
    rw [ins_cons] at hl
    have h1 := ih hl.2
    have h2 := hf x hl.1
    have h3 := hm x
    unfold filterL
    safe
    split <;> ins1
macro_rules | `(tactic| safe1) => `(tactic| with_reducible refine safe_filterL (fun _ => ?_) ?_ (fun _ _ => ?_))
theorem safe_linksTo {n : Str} {r : Ref F} (hr : ins R r) : Safe R (linksTo n r) := by
  unfold linksTo
  safe
macro_rules | `(tactic| safe1) => `(tactic| with_reducible refine safe_linksTo ?_)
theorem safe_relink {E : Env F} {g : Ref F} {n s : Str} {e : Ref F} {p : Str × Ref F} (hg : ins R g) (he : ins R e) (hp : ins R p) :
    Safe R (relink E g n s e p) := by
  unfold relink
  safe
macro_rules | `(tactic| safe1) => `(tactic| with_reducible refine safe_relink ?_ ?_ ?_)
theorem safe_relinkSkin {E : Env F} {g : Ref F} {n : Str} {s : Ref F} (hg : ins R g) (hs : ins R s) :
    Safe R (relinkSkin E g n s) := by
  unfold relinkSkin
  safe
macro_rules | `(tactic| safe1) => `(tactic| with_reducible refine safe_relinkSkin ?_ ?_)
theorem safe_dropDeform {n : Str} {a : Ref F} (ha : ins R a) : Safe R (dropDeform n a) := by
  unfold dropDeform
  safe
macro_rules | `(tactic| safe1) => `(tactic| with_reducible refine safe_dropDeform ?_)
theorem safe_removeSkin {E : Env F} {d : Ref F} {n : Str} (hd : ins R d) : Safe R (removeSkin E d n) := by
  unfold removeSkin
  safe
macro_rules | `(tactic| safe1) => `(tactic| with_reducible refine safe_removeSkin ?_)
theorem safe_removeSkins {E : Env F} {d : Ref F} {l : List Str} (hd : ins R d) : Safe R (removeSkins E d l) := by
  induction l with
  | nil => exact Safe.pure (Plain.all _ _)
  | cons x r ih =>
    unfold removeSkins
    safe
macro_rules | `(tactic| safe1) => `(tactic| with_reducible refine safe_removeSkins ?_)
theorem safe_cleanImages {E : Env F} {r : Ref F} {l : List (Option Str)} (hr : ins R r) : Safe R (cleanImages E r l) := by
  unfold cleanImages
  safe
macro_rules | `(tactic| safe1) => `(tactic| with_reducible refine safe_cleanImages ?_)
theorem safe_slotsInSkins {E : Env F} {r : Ref F} {l : List Str} (hr : ins R r) : Safe R (slotsInSkins E r l) := by
  unfold slotsInSkins
  safe
macro_rules | `(tactic| safe1) => `(tactic| with_reducible refine safe_slotsInSkins ?_)
theorem safe_removeDeformSlots {l : List Str} {r : Ref F} (hr : ins R r) : Safe R (removeDeformSlots l r) := by
  unfold removeDeformSlots
  safe
macro_rules | `(tactic| safe1) => `(tactic| with_reducible refine safe_removeDeformSlots ?_)
theorem safe_slotsInAnim {E : Env F} {l : List Str} {r : Ref F} (hr : ins R r) : Safe R (slotsInAnim E l r) := by
  unfold slotsInAnim
  safe
macro_rules | `(tactic| safe1) => `(tactic| with_reducible refine safe_slotsInAnim ?_)
theorem safe_cleanDraw {E : Env F} {l : List Str} {o : List (Slot F)} {r : Ref F} (hr : ins R r) : Safe R (cleanDraw E l o r) := by
  unfold cleanDraw
  safe
macro_rules | `(tactic| safe1) => `(tactic| with_reducible refine safe_cleanDraw ?_)
theorem safe_drawInAnim {E : Env F} {l : List Str} {o : List (Slot F)} {r : Ref F} (hr : ins R r) : Safe R (drawInAnim E l o r) := by
  unfold drawInAnim
  safe
macro_rules | `(tactic| safe1) => `(tactic| with_reducible refine safe_drawInAnim ?_)
theorem safe_anims {r : Ref F} (hr : ins R r) : Safe R (anims r) := by
  unfold anims
  safe
macro_rules | `(tactic| safe1) => `(tactic| with_reducible refine safe_anims ?_)
theorem safe_removeSlots {E : Env F} {r : Ref F} {l : List Str} {o : List (Slot F)} (hr : ins R r) : Safe R (removeSlots E r l o) := by
  unfold removeSlots
  safe
macro_rules | `(tactic| safe1) => `(tactic| with_reducible refine safe_removeSlots ?_)
theorem safe_removeDeformAtts {l : List Str} {n : Str} {r : Ref F} (hr : ins R r) : Safe R (removeDeformAtts l n r) := by
  unfold removeDeformAtts
  safe
macro_rules | `(tactic| safe1) => `(tactic| with_reducible refine safe_removeDeformAtts ?_)
theorem safe_attsInSkin {d : Ref F} {l : List Str} {p : Ref F × Ref F} (hd : ins R d) (hp : ins R p) : Safe R (attsInSkin d l p) := by
  unfold attsInSkin
  safe
macro_rules | `(tactic| safe1) => `(tactic| with_reducible refine safe_attsInSkin ?_ ?_)
theorem safe_attsInSkins {E : Env F} {d : Ref F} {l : List Str} (hd : ins R d) : Safe R (attsInSkins E d l) := by
  unfold attsInSkins
  safe
macro_rules | `(tactic| safe1) => `(tactic| with_reducible refine safe_attsInSkins ?_)
theorem safe_attsInSlots {E : Env F} {d : Ref F} {l : List Str} (hd : ins R d) : Safe R (attsInSlots E d l) := by
  unfold attsInSlots
  safe
macro_rules | `(tactic| safe1) => `(tactic| with_reducible refine safe_attsInSlots ?_)
theorem safe_removeAttachments {E : Env F} {d : Ref F} {l : List Str} (hd : ins R d) : Safe R (removeAttachments E d l) := by
  unfold removeAttachments
  safe
macro_rules | `(tactic| safe1) => `(tactic| with_reducible refine safe_removeAttachments ?_)
theorem safe_readBack {E : Env F} {e : Ed F} (hd : ins R e.data) (hg : ins R e.graph) : Safe R (readBack E e) := by
  have := fun t => ins_listOfType (t := t) hg
  unfold readBack
  safe
  all_goals apply this
macro_rules | `(tactic| safe1) => `(tactic| with_reducible refine safe_readBack ?_ ?_)
theorem safe_eraseRaw {d : Ref F} {l : List Str} (hd : ins R d) : Safe R (eraseRaw d l) := by
  induction l with
  | nil => exact Safe.pure (Plain.all _ _)
  | cons x r ih =>
    unfold eraseRaw
    safe
macro_rules | `(tactic| safe1) => `(tactic| with_reducible refine safe_eraseRaw ?_)
theorem safe_scalar {n : Num F} {v : JVal F} : Safe R (imul.scalar n v) := by
  unfold imul.scalar
  safe
macro_rules | `(tactic| safe1) => `(tactic| with_reducible exact safe_scalar)
theorem ins_repeat {l : List (Ref F)} {n : Nat} (h : ins R l) : ins R (List.replicate n l).flatten := by
  intro x hx
  obtain ⟨k, hk, hx⟩ := List.mem_flatten.mp hx
  rw [(List.mem_replicate.mp hk).2] at hx
  exact h x hx
theorem safe_imul {r : Ref F} {n : Num F} (hr : ins R r) : Safe R (imul r n) := by
  have hs : ∀ v, Mono (imul.scalar n v) := by intro v; unfold imul.scalar; mono
  unfold imul
  safe
  exact ins_repeat (by ins1)
macro_rules | `(tactic| safe1) => `(tactic| with_reducible refine safe_imul ?_)
theorem safe_scaleBone {x y : Num F} {b : Ref F} (hb : ins R b) : Safe R (scaleBone x y b) := by
  unfold scaleBone
  safe
macro_rules | `(tactic| safe1) => `(tactic| with_reducible refine safe_scaleBone ?_)
theorem safe_noInherit {b : Ref F} (hb : ins R b) : Safe R (noInherit b) := by
  unfold noInherit
  safe
macro_rules | `(tactic| safe1) => `(tactic| with_reducible refine safe_noInherit ?_)
theorem safe_scale {x y : Num F} {b : Ref F} (hb : ins R b) : Safe R (scale x y b) := by
  unfold scale
  safe
macro_rules | `(tactic| safe1) => `(tactic| with_reducible refine safe_scale ?_)

end Alias
end Spine
