import Verif.Lemmas.Leaf
import Verif.Lemmas.Editor
/- Filling in defaults twice is the same as once, for every class up to the document. -/
set_option linter.unusedSectionVars false
namespace Spine
open JVal
variable {F : Type} [PyRt F]

theorem map_idem {α : Type} {f : α → α} (h : ∀ x, f (f x) = f x) (l : List α) : (l.map f).map f = l.map f := by
  simp [h]

theorem dmap_idem {α : Type} {f : α → α} (h : ∀ x, f (f x) = f x) (d : Dict α) : dmap f (dmap f d) = dmap f d := by
  simp [dmap, h]

theorem Bone.setDefaults_idem (b : Bool) (x : Bone F) : (x.setDefaults b).setDefaults b = x.setDefaults b := by
  simp [Bone.setDefaults, Cls.setDefaults_idem]

theorem Att.setDefaults_idem (b : Bool) (x : Att F) : (x.setDefaults b).setDefaults b = x.setDefaults b := by
  simp [Att.setDefaults, Cls.setDefaults_idem]

theorem Skin.setDefaults_eq (b : Bool) (x : Skin F) :
    x.setDefaults b = { x with attachments := dmap (dmap (Att.setDefaults b)) x.attachments } := rfl

theorem Skin.setDefaults_idem (b : Bool) (x : Skin F) : (x.setDefaults b).setDefaults b = x.setDefaults b := by
  simp only [Skin.setDefaults_eq]
  rw [dmap_idem (dmap_idem (Att.setDefaults_idem b))]

theorem SlotKf.setDefaults_idem (b : Bool) (x : SlotKf F) : (x.setDefaults b).setDefaults b = x.setDefaults b := by
  simp [SlotKf.setDefaults, Cls.setDefaults_idem]

theorem SlotTl.setDefaults_idem (b : Bool) (x : SlotTl F) : (x.setDefaults b).setDefaults b = x.setDefaults b := by
  simp [SlotTl.setDefaults, SlotKf.setDefaults_idem]

theorem BoneTl.setDefaults_idem (b : Bool) (x : BoneTl F) : (x.setDefaults b).setDefaults b = x.setDefaults b := by
  simp [BoneTl.setDefaults, Cls.setDefaults_idem]

theorem DrawTl.setDefaults_idem (b : Bool) (x : DrawTl F) : (x.setDefaults b).setDefaults b = x.setDefaults b := by
  unfold DrawTl.setDefaults
  obtain ⟨t, o⟩ := x
  simp only [DrawTl.mk.injEq, and_true]
  have h := Cls.setDefaults_idem (drawCls (F := F)) b [(s!!"time", t)]
  cases hv : (drawCls (F := F)).setDefaults b [(s!!"time", t)] with
  | nil => have := congrArg List.length hv; simp [Cls.setDefaults] at this
  | cons p r =>
    have hk := Cls.keys_setDefaults (drawCls (F := F)) b [(s!!"time", t)]
    rw [hv] at hk h
    obtain ⟨k, v⟩ := p
    cases r with
    | cons => simp [Dict.keys] at hk
    | nil =>
      simp only [Dict.keys, List.map_cons, List.map_nil, List.cons.injEq, and_true] at hk
      subst hk
      have e : Attrs.val [(s!!"time", v)] s!!"time" = v := by simp [Attrs.val, Dict.get?]
      rw [e, h, e]

theorem Anim.setDefaults_idem (b : Bool) (x : Anim F) : (x.setDefaults b).setDefaults b = x.setDefaults b := by
  unfold Anim.setDefaults
  simp only [map_idem (DrawTl.setDefaults_idem b), map_idem (Cls.setDefaults_idem _ b),
    dmap_idem (map_idem (Cls.setDefaults_idem _ b)), dmap_idem (dmap_idem (map_idem (Cls.setDefaults_idem _ b))),
    dmap_idem (dmap_idem (dmap_idem (map_idem (Cls.setDefaults_idem _ b)))),
    dmap_idem (BoneTl.setDefaults_idem b), dmap_idem (SlotTl.setDefaults_idem b)]

theorem AnimData.setDefaults_idem (b : Bool) (x : AnimData F) : (x.setDefaults b).setDefaults b = x.setDefaults b := by
  unfold AnimData.setDefaults
  simp only [map_idem (Bone.setDefaults_idem b), map_idem (Skin.setDefaults_idem b), map_idem (Cls.setDefaults_idem _ b),
    dmap_idem (Cls.setDefaults_idem _ b), dmap_idem (Anim.setDefaults_idem b)]

theorem map_fixed {α : Type} {f : α → α} {l : List α} (h : l.map f = l) {x : α} (hx : x ∈ l) : f x = x := by
  induction l with
  | nil => cases hx
  | cons y l ih =>
    simp only [List.map_cons, List.cons.injEq] at h
    rcases List.mem_cons.1 hx with rfl | hx
    · exact h.1
    · exact ih h.2 hx

theorem map_fixed_iff {α : Type} {f : α → α} {l : List α} : l.map f = l ↔ ∀ x ∈ l, f x = x := by
  refine ⟨fun h x hx => map_fixed h hx, fun h => ?_⟩
  rw [List.map_congr_left h, List.map_id']

theorem dmap_fixed_iff {α : Type} {f : α → α} {d : Dict α} : dmap f d = d ↔ ∀ p ∈ d, f p.2 = p.2 := by
  unfold dmap
  rw [map_fixed_iff]
  constructor
  · intro h p hp; exact congrArg (·.2) (h p hp)
  · intro h p hp; rw [h p hp]

end Spine
