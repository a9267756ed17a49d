import Verif.Lemmas.SimLoad
import Verif.Lemmas.DataShape
/-
The views of the heap model read the values whose trees lie in the heap.
-/
set_option linter.unusedSectionVars false
namespace Spine
namespace Alias
open M
variable {F : Type} [PyRt F] {B : Nat} {N : Nat → Prop} {h : Heap F}

/-! ### Opening a node -/

theorem Rep.inst {r : Ref F} {t : Tag} {ts : List (Str × Tree F)} {S : Nat → Prop} (hr : Rep B N h r (.node (.inst t) ts) S) :
    ∃ a rs S', r = .ptr a ∧ h[a]? = some (.inst t rs) ∧ S a ∧ ¬ N a ∧ RepK B N h rs ts S' ∧ ∀ b, S' b → S b ∧ b ≠ a := by
  cases hr with
  | node a k rs ts S S' h1 h2 h3 h4 h5 => exact ⟨a, rs, S', rfl, h1, h2, h3, h4, h5⟩

theorem Rep.list {r : Ref F} {ts : List (Str × Tree F)} {S : Nat → Prop} (hr : Rep B N h r (.node .list ts) S) :
    ∃ a rs S', r = .ptr a ∧ h[a]? = some (.list (rs.map (·.2))) ∧ S a ∧ ¬ N a ∧ RepK B N h rs ts S' ∧ ∀ b, S' b → S b ∧ b ≠ a := by
  cases hr with
  | node a k rs ts S S' h1 h2 h3 h4 h5 => exact ⟨a, rs, S', rfl, h1, h2, h3, h4, h5⟩

theorem Rep.dict {r : Ref F} {ts : List (Str × Tree F)} {S : Nat → Prop} (hr : Rep B N h r (.node .dict ts) S) :
    ∃ a rs S', r = .ptr a ∧ h[a]? = some (.dict rs) ∧ RepK B N h rs ts S' ∧ (∀ b, S' b → S b ∧ b ≠ a) ∧
      ((S a ∧ ¬ N a) ∨ (rs = [] ∧ ts = [] ∧ N a)) := by
  cases hr with
  | node a k rs ts S S' h1 h2 h3 h4 h5 => exact ⟨a, rs, S', rfl, h1, h4, h5, .inl ⟨h2, h3⟩⟩
  | empty a _ h1 h2 => exact ⟨a, [], Nil, rfl, h2, .nil _, fun b hb => hb.elim, .inr ⟨rfl, rfl, h1⟩⟩

theorem Rep.leafJ {r : Ref F} {j : JVal F} {S : Nat → Prop} (hr : Rep B N h r (.leaf j) S) : In N r ∧ readJ h B r = some j := by
  cases hr with
  | leaf _ _ _ h1 h2 => exact ⟨h1, h2⟩

/-- a leaf is a string exactly when its value is -/
theorem Rep.str {r : Ref F} {s : Str} {S : Nat → Prop} (hr : Rep B N h r (.leaf (.str s)) S) : r = .str s := by
  have := readJ_iff.mp hr.leafJ.2
  cases this
  rfl

theorem RepK.all₂ {α : Type} {key : α → Str} {T : α → Tree F} : ∀ {l : List α} {rs : Dict (Ref F)} {S : Nat → Prop},
    RepK B N h rs (l.map (fun x => (key x, T x))) S → All₂ (fun p x => p.1 = key x ∧ ∃ S', Rep B N h p.2 (T x) S') rs l
  | [], _, _, hr => by cases hr; exact .nil
  | x :: l, _, _, hr => by
    cases hr with
    | cons _ r _ rs _ S1 S2 _ h1 h2 h3 h4 h5 => exact .cons ⟨rfl, S1, h1⟩ (RepK.all₂ h2)

theorem RepK.viewL {α : Type} {key : α → Str} {T : α → Tree F} {f : Ref F → Option α} {l : List α} {rs : Dict (Ref F)} {S : Nat → Prop}
    (hr : RepK B N h rs (l.map (fun x => (key x, T x))) S) (hf : ∀ x ∈ l, ∀ r S, Rep B N h r (T x) S → f r = some x) :
    mapO f (rs.map (·.2)) = some l := by
  rw [mapO_iff]
  exact All₂.map_left.mpr (hr.all₂.imp (fun p x _ hx ⟨_, S', h1⟩ => hf x hx _ _ h1))

theorem RepK.viewD {α : Type} {T : α → Tree F} {f : Ref F → Option α} {l : Dict α} {rs : Dict (Ref F)} {S : Nat → Prop}
    (hr : RepK B N h rs (dmap T l) S) (hf : ∀ p ∈ l, ∀ r S, Rep B N h r (T p.2) S → f r = some p.2) :
    mapOD f rs = some l := by
  rw [mapOD_iff]
  exact (hr.all₂ (key := fun p : Str × α => p.1) (T := fun p => T p.2)).imp (fun p x _ hx ⟨e, S', h1⟩ => ⟨e, hf x hx _ _ h1⟩)

theorem Rep.viewL {α : Type} {T : α → Tree F} {f : Ref F → Option α} {l : List α} {r : Ref F} {S : Nat → Prop}
    (hr : Rep B N h r (tlist T l) S) (hf : ∀ x ∈ l, ∀ r S, Rep B N h r (T x) S → f r = some x) : listAt h f r = some l := by
  obtain ⟨a, rs, S', rfl, h1, _, _, h4, _⟩ := hr.list
  simp only [listAt, h1]
  exact h4.viewL (key := fun _ => []) hf

theorem Rep.viewD {α : Type} {T : α → Tree F} {f : Ref F → Option α} {l : Dict α} {r : Ref F} {S : Nat → Prop}
    (hr : Rep B N h r (tdict T l) S) (hf : ∀ p ∈ l, ∀ r S, Rep B N h r (T p.2) S → f r = some p.2) : dictAt h f r = some l := by
  obtain ⟨a, rs, S', rfl, h1, h4, _⟩ := hr.dict
  simp only [dictAt, h1]
  exact h4.viewD hf

theorem RepK.viewA {n : Nat} {a : Attrs F} {rs : Dict (Ref F)} {S : Nat → Prop} (hn : B ≤ n) (hr : RepK B N h rs (dmap .leaf a) S) :
    mapOD (readJ h n) rs = some a :=
  hr.viewD (fun _ _ _ _ h1 => readJ_le h1.leafJ.2 hn)

theorem Rep.attrs {n : Nat} {t : Tag} {a : Attrs F} {r : Ref F} {S : Nat → Prop} (hn : B ≤ n) (hr : Rep B N h r (tAttrs t a) S) :
    attrsOf h n t r = some a := by
  obtain ⟨b, rs, S', rfl, h1, _, _, h4, _⟩ := hr.inst
  simp only [attrsOf, h1, if_true]
  exact h4.viewA hn

theorem optAt_of {a : Attrs F} {k : Str} {s : Option Str} (h : a.val k = optJ s) : optAt a k = some s := by
  unfold optAt
  rw [h]
  cases s <;> rfl

theorem without_cons_mem {k : Str} {v : JVal F} {a : Attrs F} {ks : List Str} (hk : k ∈ ks) :
    Attrs.without ((k, v) :: a) ks = Attrs.without a ks := by
  unfold Attrs.without
  simp [hk]

theorem without_self {a : Attrs F} {ks : List Str} (hk : ∀ k ∈ ks, k ∉ Dict.keys a) : Attrs.without a ks = a := by
  unfold Attrs.without
  rw [List.filter_eq_self]
  intro p hp
  simp only [decide_eq_true_eq]
  intro h
  exact hk _ h (List.mem_map_of_mem hp)

theorem view_bone {q : F → Prop} {n : Nat} {b : Bone F} {r : Ref F} {S : Nat → Prop} (hn : B ≤ n) (hb : b.Ok q) (hr : Rep B N h r (tBone b) S) :
    viewBone h n r = some b := by
  unfold viewBone
  rw [Rep.attrs hn hr]
  have h1 : optAt b.attrs s!!"name" = some (some b.name) := optAt_of rfl
  have h2 : optAt b.attrs s!!"parent" = some b.parent := optAt_of rfl
  have h3 : Attrs.without b.attrs [s!!"name", s!!"parent"] = b.rest := by
    unfold Bone.attrs
    rw [without_cons_mem (by simp), without_cons_mem (by simp)]
    exact without_self (by simpa using ⟨hb.name, hb.parent⟩)
  simp only [Option.bind_eq_bind, Option.bind_some, h1, h2, h3]
  rfl

theorem view_slot {n : Nat} {b : Slot F} {r : Ref F} {S : Nat → Prop} (hn : B ≤ n) (hr : Rep B N h r (tSlot b) S) :
    viewSlot h n r = some b := by
  unfold viewSlot
  rw [Rep.attrs hn hr]
  have h1 : optAt b.attrs s!!"name" = some (some b.name) := optAt_of rfl
  have h2 : optAt b.attrs s!!"bone" = some b.bone := optAt_of rfl
  have h3 : optAt b.attrs s!!"attachment" = some b.attachment := optAt_of rfl
  have h4 : optAt b.attrs s!!"color" = some b.color := optAt_of rfl
  simp only [Option.bind_eq_bind, Option.bind_some, h1, h2, h3, h4]
  rfl

/-- what the calls need to know of an attachment: name and path are null or texts, and a linked mesh has the attributes copied
by `remove_skin` -/
structure _root_.Spine.Att.Fit (x : Att F) : Prop where
  typed : Att.typed x.attrs = true
  link : x.kind = .linked → ∀ k ∈ [s!!"name", s!!"path", s!!"width", s!!"height"], k ∈ Dict.keys x.attrs

def _root_.Spine.Skin.Fit (s : Skin F) : Prop := ∀ p ∈ s.attachments, ∀ q ∈ p.2, q.2.Fit

theorem view_att {n : Nat} {b : Att F} {r : Ref F} {S : Nat → Prop} (hn : B ≤ n) (hb : b.Fit) (hr : Rep B N h r (tAtt b) S) :
    viewAtt h n r = some b := by
  obtain ⟨a, rs, S', rfl, h1, _, _, h4, _⟩ := Rep.inst (t := .att b.kind) hr
  simp only [viewAtt, h1, h4.viewA hn, hb.typed, if_true]

theorem view_skin {n : Nat} {b : Skin F} {r : Ref F} {S : Nat → Prop} (hn : B ≤ n) (hb : b.Fit) (hr : Rep B N h r (tSkin b) S) :
    viewSkin h n r = some b := by
  obtain ⟨a, rs, S', rfl, h1, _, _, h4, _⟩ := hr.inst
  cases h4 with
  | cons _ r1 _ _ _ S1 S2 _ k1 k2 k3 k4 k5 =>
  cases k2 with
  | cons _ r2 _ _ _ S3 S4 _ k6 k7 k8 k9 k10 =>
  cases k7
  have := k1.str
  subst this
  unfold viewSkin fields
  simp only [h1, if_true, Option.bind_eq_bind, Option.bind_some]
  have g1 : Dict.get? ([(s!!"name", .str b.name), (s!!"attachments", r2)] : Dict (Ref F)) s!!"name" = some (.str b.name) := rfl
  have g2 : Dict.get? ([(s!!"name", .str b.name), (s!!"attachments", r2)] : Dict (Ref F)) s!!"attachments" = some r2 := rfl
  rw [g1, g2]
  have g3 := k6.viewD (f := dictAt h (viewAtt h n)) (fun p hp r S hr => hr.viewD (fun q hq r S hr => view_att hn (hb p hp q hq) hr))
  simp only [Option.bind_some, g3]
  rfl

theorem view_kf {q : F → Prop} {n : Nat} {b : SlotKf F} {r : Ref F} {S : Nat → Prop} (hn : B ≤ n) (hb : b.Ok q) (hr : Rep B N h r (tKf b) S) :
    viewKf h n r = some b := by
  unfold viewKf
  rw [Rep.attrs hn hr]
  have h1 : optAt b.attrs s!!"name" = some b.name := optAt_of rfl
  have h3 : Attrs.without b.attrs [s!!"name"] = b.rest := by
    unfold SlotKf.attrs
    rw [without_cons_mem (by simp)]
    exact without_self (by simpa using hb.name)
  simp only [Option.bind_eq_bind, Option.bind_some, h1, h3]
  rfl

/-- an attribute of an object -/
theorem RepK.attr {rs : Dict (Ref F)} {ts : List (Str × Tree F)} {S : Nat → Prop} {k : Str} {t : Tree F} (hz : Zone N h) (hr : RepK B N h rs ts S)
    (hk : Dict.get? ts k = some t) : ∃ r T, Dict.get? rs k = some r ∧ Rep B N h r t T := by
  obtain ⟨r, T, h1, h2, _⟩ := hr.get hz hk
  exact ⟨r, T, h1, h2⟩

theorem RepK.listField {α : Type} {T : α → Tree F} {f : Ref F → Option α} {l : List α} {rs : Dict (Ref F)} {ts : List (Str × Tree F)}
    {S : Nat → Prop} {k : Str} (hz : Zone N h) (hr : RepK B N h rs ts S) (hk : Dict.get? ts k = some (tlist T l))
    (hf : ∀ x ∈ l, ∀ r S, Rep B N h r (T x) S → f r = some x) : Alias.listField h f rs k = some l := by
  obtain ⟨r, U, h1, h2⟩ := hr.attr hz hk
  unfold Alias.listField
  simp only [h1, Option.bind_eq_bind, Option.bind_some]
  exact h2.viewL hf

theorem RepK.dictField {α : Type} {T : α → Tree F} {f : Ref F → Option α} {l : Dict α} {rs : Dict (Ref F)} {ts : List (Str × Tree F)}
    {S : Nat → Prop} {k : Str} (hz : Zone N h) (hr : RepK B N h rs ts S) (hk : Dict.get? ts k = some (tdict T l))
    (hf : ∀ p ∈ l, ∀ r S, Rep B N h r (T p.2) S → f r = some p.2) : Alias.dictField h f rs k = some l := by
  obtain ⟨r, U, h1, h2⟩ := hr.attr hz hk
  unfold Alias.dictField
  simp only [h1, Option.bind_eq_bind, Option.bind_some]
  exact h2.viewD hf

theorem view_attrsL {n : Nat} {t : Tag} (hn : B ≤ n) {l : List (Attrs F)} {r : Ref F} {S : Nat → Prop} (hr : Rep B N h r (tlist (tAttrs t) l) S) :
    listAt h (attrsOf h n t) r = some l := hr.viewL (fun _ _ _ _ h1 => h1.attrs hn)

theorem view_slotTl {q : F → Prop} {n : Nat} {b : SlotTl F} {r : Ref F} {S : Nat → Prop} (hz : Zone N h) (hn : B ≤ n) (hb : b.Ok q)
    (hr : Rep B N h r (tSlotTl b) S) : viewSlotTl h n r = some b := by
  obtain ⟨a, rs, S', rfl, h1, _, _, h4, _⟩ := hr.inst
  unfold viewSlotTl fields
  simp only [h1, if_true, Option.bind_eq_bind, Option.bind_some]
  rw [h4.listField hz rfl (fun x hx r S hr => view_kf hn (hb.attachment x hx) hr),
    h4.listField hz rfl (fun x hx r S hr => view_kf hn (hb.color x hx) hr), h4.listField hz rfl (fun x hx r S hr => view_kf hn (hb.twoColor x hx) hr)]
  rfl

theorem view_boneTl {n : Nat} {b : BoneTl F} {r : Ref F} {S : Nat → Prop} (hz : Zone N h) (hn : B ≤ n)
    (hr : Rep B N h r (tBoneTl b) S) : viewBoneTl h n r = some b := by
  obtain ⟨a, rs, S', rfl, h1, _, _, h4, _⟩ := hr.inst
  unfold viewBoneTl fields
  simp only [h1, if_true, Option.bind_eq_bind, Option.bind_some]
  rw [h4.listField hz rfl (fun x hx r S hr => hr.attrs hn), h4.listField hz rfl (fun x hx r S hr => hr.attrs hn),
    h4.listField hz rfl (fun x hx r S hr => hr.attrs hn), h4.listField hz rfl (fun x hx r S hr => hr.attrs hn)]
  rfl

theorem view_offset {n : Nat} {b : Str × Int} {r : Ref F} {S : Nat → Prop} (hn : B ≤ n) (hr : Rep B N h r (tOffset b) S) :
    viewOffset h n r = some b := by
  unfold viewOffset
  rw [Rep.attrs hn hr]
  rfl

theorem view_draw {n : Nat} {b : DrawTl F} {r : Ref F} {S : Nat → Prop} (hz : Zone N h) (hn : B ≤ n)
    (hr : Rep B N h r (tDraw b) S) : viewDraw h n r = some b := by
  obtain ⟨a, rs, S', rfl, h1, _, _, h4, _⟩ := hr.inst
  obtain ⟨r, U, k1, k2⟩ := h4.attr hz (k := s!!"time") (t := .leaf b.time) rfl
  unfold viewDraw fields
  simp only [h1, if_true, Option.bind_eq_bind, Option.bind_some, k1, readJ_le k2.leafJ.2 hn]
  rw [h4.listField hz rfl (fun x hx r S hr => view_offset hn hr)]
  rfl

theorem view_anim {q : F → Prop} {n : Nat} {b : Anim F} {r : Ref F} {S : Nat → Prop} (hz : Zone N h) (hn : B ≤ n) (hb : b.Ok q)
    (hr : Rep B N h r (tAnim b) S) : viewAnim h n r = some b := by
  obtain ⟨a, rs, S', rfl, h1, _, _, h4, _⟩ := hr.inst
  unfold viewAnim fields
  simp only [h1, if_true, Option.bind_eq_bind, Option.bind_some]
  rw [h4.dictField hz rfl (fun _ _ _ _ hr => view_attrsL hn hr), h4.listField hz rfl (fun _ _ _ _ hr => view_draw hz hn hr),
    h4.dictField hz rfl (fun _ _ _ _ hr => view_boneTl hz hn hr), h4.dictField hz rfl (fun p hp _ _ hr => view_slotTl hz hn (hb.slots.2 p hp) hr),
    h4.listField hz rfl (fun _ _ _ _ hr => hr.attrs hn), h4.dictField hz rfl (fun _ _ _ _ hr => view_attrsL hn hr),
    h4.dictField hz rfl (fun _ _ _ _ hr => hr.viewD (fun _ _ _ _ hr => view_attrsL hn hr)),
    h4.dictField hz rfl (fun _ _ _ _ hr => hr.viewD (fun _ _ _ _ hr => hr.viewD (fun _ _ _ _ hr => view_attrsL hn hr)))]
  rfl

def _root_.Spine.AnimData.Fit (a : AnimData F) : Prop := (∀ b ∈ a.bones, Bone.Good b) ∧ ∀ s ∈ a.skins, s.Fit

/-- **the view of the document is the value whose tree lies there** -/
theorem view_data {q : F → Prop} {n : Nat} {b : AnimData F} {r : Ref F} {S : Nat → Prop} (hz : Zone N h) (hn : B ≤ n) (hb : b.Ok q) (hf : b.Fit)
    (hr : Rep B N h r (tData b) S) : viewData h n r = some b := by
  obtain ⟨a, rs, S', rfl, h1, _, _, h4, _⟩ := hr.inst
  unfold viewData fields
  simp only [h1, if_true, Option.bind_eq_bind, Option.bind_some]
  rw [h4.listField hz rfl (fun x hx _ _ hr => view_bone hn (hb.bones x hx) hr), h4.listField hz rfl (fun _ _ _ _ hr => view_slot hn hr),
    h4.listField hz rfl (fun x hx _ _ hr => view_skin hn (hf.2 x hx) hr), h4.dictField hz rfl (fun _ _ _ _ hr => hr.attrs hn),
    h4.listField hz rfl (fun _ _ _ _ hr => hr.attrs hn), h4.listField hz rfl (fun _ _ _ _ hr => hr.attrs hn),
    h4.listField hz rfl (fun _ _ _ _ hr => hr.attrs hn), h4.dictField hz rfl (fun p hp _ _ hr => view_anim hz hn (hb.animations.2 p hp) hr)]
  rfl

end Alias
end Spine
