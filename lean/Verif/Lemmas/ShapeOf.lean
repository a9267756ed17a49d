import Verif.Lemmas.Images
import Verif.Lemmas.Editor
import Verif.Lemmas.BuildRead
/- The graph of an editor, described in terms of the editor's own data. -/
set_option linter.unusedSectionVars false
set_option linter.unusedSimpArgs false
namespace Spine
open JVal
variable {F : Type} [PyRt F]

theorem mapE_all₂ {α β : Type} (f : α → Except Err β) (l : List α) (m : List β) :
    mapE f l = .ok m ↔ All₂ (fun x y => f x = .ok y) l m := by
  induction l generalizing m with
  | nil =>
    simp only [mapE, Except.ok.injEq]
    constructor
    · rintro rfl; exact .nil
    · intro h; cases h; rfl
  | cons x l ih =>
    simp only [mapE]
    constructor
    · intro h
      split at h
      · cases h
      · rename_i y hy
        split at h
        · cases h
        · rename_i m' hm
          injection h with h; subst h
          exact .cons hy ((ih _).1 hm)
    · intro h
      cases h with
      | cons h1 h2 => rw [h1, (ih _).2 h2]

theorem All₂.map_left {α β γ : Type} {R : γ → β → Prop} {f : α → γ} {l : List α} {m : List β} :
    All₂ R (l.map f) m ↔ All₂ (fun x y => R (f x) y) l m := by
  induction l generalizing m with
  | nil => constructor <;> intro h <;> cases h <;> exact .nil
  | cons x l ih =>
    constructor
    · intro h; cases h with | cons h1 h2 => exact .cons h1 (ih.1 h2)
    · intro h; cases h with | cons h1 h2 => exact .cons h1 (ih.2 h2)

theorem All₂.map_right {α β γ : Type} {R : α → γ → Prop} {f : β → γ} {l : List α} {m : List β} :
    All₂ R l (m.map f) ↔ All₂ (fun x y => R x (f y)) l m := by
  induction m generalizing l with
  | nil => constructor <;> intro h <;> cases h <;> exact .nil
  | cons x m ih =>
    constructor
    · intro h; cases h with | cons h1 h2 => exact .cons h1 (ih.1 h2)
    · intro h; cases h with | cons h1 h2 => exact .cons h1 (ih.2 h2)

/-- dictionaries of skins have no repeated slot (true of every Python dict) -/
def AnimData.Distinct (a : AnimData F) : Prop := ∀ s ∈ a.skins, (Dict.keys s.attachments).Nodup

/-- the attachments of all skins have well-formed attributes -/
def AnimData.SaneAtts (a : AnimData F) : Prop := ∀ slot key x, a.HasAtt slot key x → x.Sane

/-- the part of a document the graph is built from, in terms of the data -/
structure ShapeOf (b : Bool) (a : AnimData F) (sh : GShape F) : Prop where
  bones : All₂ (fun v g => g.name = v.name ∧ g.v = v.toJson b ∧ g.parent = v.parent.getD s!!"None") a.bones sh.bones
  slots : All₂ (fun v g => g.name = v.name ∧ g.v = v.toJson b ∧ g.bone = v.bone.getD s!!"None" ∧
    ∀ k im j, (k, im, j) ∈ g.atts ↔ ∃ x, a.HasAtt v.name k x ∧ j = x.toJson b ∧ ImageName k x im) a.slots sh.slots
  iks : All₂ (fun v g => g.v = ikCls.toJson b v) a.ik sh.iks
  someBone : a.bones ≠ []

theorem Slot.get?_toJson (b : Bool) (s : Slot F) : ∃ d, s.toJson b = .dict d ∧
    Dict.get? d s!!"name" = some (.str s.name) ∧ Dict.get? d s!!"bone" = s.bone.map .str := by
  refine ⟨_, rfl, ?_, ?_⟩
  · rw [Cls.get?_filter _ (fun k v => (slotCls (F := F)).emits b k v) (by simp [Slot.attrs, Dict.keys])]
    cases b <;> rfl
  · rw [Cls.get?_filter _ (fun k v => (slotCls (F := F)).emits b k v) (by simp [Slot.attrs, Dict.keys])]
    cases hb : s.bone with
    | none =>
      have : Dict.get? s.attrs s!!"bone" = some .null := by simp [Slot.attrs, Dict.get?, hb, optJ]
      rw [this]; cases b <;> rfl
    | some n =>
      have : Dict.get? s.attrs s!!"bone" = some (.str n) := by simp [Slot.attrs, Dict.get?, hb, optJ]
      rw [this]; cases b <;> rfl

theorem Bone.get?_toJson (b : Bool) (x : Bone F) (hx : Bone.Good x) : ∃ d, x.toJson b = .dict d ∧
    Dict.get? d s!!"name" = some (.str x.name) ∧ Dict.get? d s!!"parent" = x.parent.map .str := by
  have hn : (Dict.keys x.attrs).Nodup := by
    rw [hx]; exact (Cls.leafClasses_ok (boneCls (F := F)) (by simp [leafClasses])).nodup
  refine ⟨_, rfl, ?_, ?_⟩
  · rw [Cls.get?_filter _ (fun k v => (boneCls (F := F)).emits b k v) hn]
    have : Dict.get? x.attrs s!!"name" = some (.str x.name) := by simp [Bone.attrs, Dict.get?]
    rw [this]; cases b <;> rfl
  · rw [Cls.get?_filter _ (fun k v => (boneCls (F := F)).emits b k v) hn]
    cases hb : x.parent with
    | none =>
      have : Dict.get? x.attrs s!!"parent" = some .null := by simp [Bone.attrs, Dict.get?, hb, optJ]
      rw [this]; cases b <;> rfl
    | some n =>
      have : Dict.get? x.attrs s!!"parent" = some (.str n) := by simp [Bone.attrs, Dict.get?, hb, optJ]
      rw [this]; cases b <;> rfl

namespace GShape
open Plan

theorem readBone_toJson (b : Bool) (x : Bone F) (hx : Bone.Good x) :
    readBone (x.toJson b) = .ok ⟨x.name, x.parent.getD s!!"None", x.toJson b⟩ := by
  obtain ⟨d, hd, h1, h2⟩ := Bone.get?_toJson b x hx
  have e1 : nameOf (x.toJson b) = .ok x.name := by
    rw [hd]; simp only [nameOf, subscript, getItem, h1]; rfl
  have e2 : optId (x.toJson b) s!!"parent" = .ok (x.parent.getD s!!"None") := by
    rw [hd]; simp only [optId, dotGet, h2]
    cases x.parent <;> rfl
  unfold readBone
  rw [e1, e2]; rfl

theorem readSkin_toJson (b : Bool) (s : Skin F) (n : Str) (hs : (Dict.keys s.attachments).Nodup)
    (hx : ∀ e k x, (n, e) ∈ s.attachments → (k, x) ∈ e → x.Sane) {l : List (Str × Str × JVal F)}
    (h : readSkin (.str n) (s.toJson b) = .ok l) (k im : Str) (j : JVal F) :
    (k, im, j) ∈ l ↔ ∃ e x, (n, e) ∈ s.attachments ∧ (k, x) ∈ e ∧ j = x.toJson b ∧ ImageName k x im := by
  unfold readSkin at h
  obtain ⟨a, h1, h⟩ := bindOk h
  by_cases hne : s.attachments = []
  · have : a = .null := by
      unfold Skin.toJson dotGet at h1
      rw [hne] at h1
      by_cases hn : s.name = [] <;> simp [Dict.get?, hn] at h1 <;> exact h1.symm
    subst this
    have hl : l = [] := by
      have : truthy (JVal.null : JVal F) = false := rfl
      rw [this] at h
      injection h with h; exact h.symm
    subst hl
    simp [hne]
  · have : a = .dict (dmap (fun e => .dict (dmap (·.toJson b) e)) s.attachments) := by
      unfold Skin.toJson dotGet at h1
      rw [if_neg hne] at h1
      by_cases hn : s.name = [] <;> simp [Dict.get?, hn] at h1 <;> exact h1.symm
    subst this
    have ht : truthy (JVal.dict (dmap (fun e => .dict (dmap (Att.toJson b) e)) s.attachments) : JVal F) = true := by
      cases hc : s.attachments with
      | nil => exact absurd hc hne
      | cons => rfl
    rw [ht] at h
    simp only [if_true] at h
    obtain ⟨e, h2, h⟩ := bindOk h
    simp only [SpineNodes.skinEntry, get?_dmap, Except.ok.injEq] at h2
    cases hg : Dict.get? s.attachments n with
    | none =>
      rw [hg] at h2; simp only [Option.map_none, Option.getD_none] at h2; subst h2
      obtain ⟨e', h3, h⟩ := bindOk h
      injection h3 with h3; subst h3
      injection h with h; subst h
      simp only [List.not_mem_nil, false_iff]
      rintro ⟨e, x, he, _⟩
      rw [Dict.get?_of_mem hs he] at hg
      cases hg
    | some ent =>
      rw [hg] at h2; simp only [Option.map_some, Option.getD_some] at h2; subst h2
      obtain ⟨e', h3, h⟩ := bindOk h
      injection h3 with h3; subst h3
      have hent := Dict.mem_of_get? hg
      rw [mapE_all₂, dmap, All₂.map_left] at h
      have key : ∀ {p : Str × Att F} {y : Str × Str × JVal F}, p ∈ ent → readAtt (p.1, p.2.toJson b) = .ok y →
          ∃ i, ImageName p.1 p.2 i ∧ y = (p.1, i, p.2.toJson b) := by
        intro p y hp hy
        obtain ⟨i, hi⟩ := ImageName.exists p.1 p.2
        refine ⟨i, hi, ?_⟩
        unfold readAtt at hy
        rw [imageName_toJson (hx ent p.1 p.2 hent hp) b hi] at hy
        injection hy with hy; exact hy.symm
      constructor
      · intro hm
        obtain ⟨p, hp, hy⟩ := h.right hm
        obtain ⟨i, hi, e⟩ := key hp hy
        simp only [Prod.mk.injEq] at e
        obtain ⟨rfl, rfl, rfl⟩ := e
        exact ⟨ent, p.2, hent, hp, rfl, hi⟩
      · rintro ⟨e, x, he, hx', rfl, hi⟩
        have : e = ent := by
          have := Dict.get?_of_mem hs he
          rw [hg] at this; exact (Option.some.inj this).symm
        subst this
        obtain ⟨y, hy, h'⟩ := h.left hx'
        obtain ⟨i, hi', e⟩ := key hx' h'
        have ei : i = im := hi'.unique hi
        subst ei
        rw [← e]; exact hy

theorem get?_doc (s : SpineDoc F) : ∃ d, s.toJson = .dict d ∧
    Dict.get? d s!!"bones" = (if s.data.bones = [] then none else some (.list (s.data.bones.map (·.toJson s.version.is38)))) ∧
    Dict.get? d s!!"slots" = (if s.data.slots = [] then none else some (.list (s.data.slots.map (·.toJson s.version.is38)))) ∧
    Dict.get? d s!!"ik" = (if s.data.ik = [] then none else some (.list (s.data.ik.map (ikCls.toJson s.version.is38)))) ∧
    Dict.get? d s!!"skins" = some (.list (s.data.skins.map (·.toJson s.version.is38))) := by
  refine ⟨_, rfl, ?_, ?_, ?_, ?_⟩ <;>
    simp [Dict.get?_set, AnimData.toJson, get?_append, get?_jl_same, get?_jl_ne, get?_jd_same, get?_jd_ne, Dict.get?]

theorem read_toJson (s : SpineDoc F) (hb : ∀ b ∈ s.data.bones, Bone.Good b) (hd : s.data.Distinct) (hx : s.data.SaneAtts)
    {sh : GShape F} (h : GShape.read s.toJson = .ok sh) : ShapeOf s.version.is38 s.data sh := by
  obtain ⟨d, e, g1, g2, g3, g4⟩ := get?_doc s
  rw [e] at h
  unfold read at h
  obtain ⟨bs, h1, h⟩ := bindOk h
  obtain ⟨bs', h2, h⟩ := bindOk h
  obtain ⟨bs'', h3, h⟩ := bindOk h
  obtain ⟨ss, h4, h⟩ := bindOk h
  obtain ⟨ss', h5, h⟩ := bindOk h
  obtain ⟨is, h6, h⟩ := bindOk h
  obtain ⟨is', h7, h⟩ := bindOk h
  injection h with h; subst h
  simp only [subscript, getItem, g1] at h1
  by_cases hb0 : s.data.bones = []
  · rw [if_pos hb0] at h1; cases h1
  rw [if_neg hb0] at h1
  injection h1 with h1; subst h1
  injection h2 with h2; subst h2
  have e4 : ss = s.data.slots.map (·.toJson s.version.is38) := by
    simp only [SpineNodes.docList, getIter, g2] at h4
    split at h4
    · rename_i hh
      split at hh
      · rename_i h0; injection h4 with h4; rw [h0, ← h4]; rfl
      · cases hh
    · rename_i v hh
      split at hh
      · cases hh
      · injection hh with hh; subst hh
        injection h4 with h4; exact h4.symm
  have e6 : is = s.data.ik.map (ikCls.toJson s.version.is38) := by
    simp only [SpineNodes.docList, getIter, g3] at h6
    split at h6
    · rename_i hh
      split at hh
      · rename_i h0; injection h6 with h4; rw [h0, ← h4]; rfl
      · cases hh
    · rename_i v hh
      split at hh
      · cases hh
      · injection hh with hh; subst hh
        injection h6 with h4; exact h4.symm
  subst e4; subst e6
  rw [mapE_all₂, All₂.map_left] at h3 h5 h7
  refine ⟨?_, ?_, ?_, hb0⟩
  · refine h3.mono ?_
    intro x y hm hy
    rw [readBone_toJson _ _ (hb x hm)] at hy
    injection hy with hy; subst hy
    exact ⟨rfl, rfl, rfl⟩
  · refine h5.mono ?_
    intro x y hm hy
    obtain ⟨dx, ex, n1, n2⟩ := Slot.get?_toJson s.version.is38 x
    rw [ex] at hy
    unfold readSlot at hy
    obtain ⟨n, k1, hy⟩ := bindOk hy
    obtain ⟨q, k2, hy⟩ := bindOk hy
    obtain ⟨nm, k3, hy⟩ := bindOk hy
    obtain ⟨sk, k4, hy⟩ := bindOk hy
    obtain ⟨sk', k5, hy⟩ := bindOk hy
    obtain ⟨css, k6, hy⟩ := bindOk hy
    injection hy with hy; subst hy
    have t1 : x.name = n := by
      simp only [nameOf, subscript, getItem, n1] at k1
      injection k1
    have t2 : q = x.bone.getD s!!"None" := by
      simp only [optId, dotGet, n2] at k2
      cases hbn : x.bone <;> rw [hbn] at k2 <;> injection k2 with k2 <;> exact k2.symm
    have t3 : nm = .str x.name := by
      simp only [subscript, getItem, n1] at k3
      injection k3 with k3; exact k3.symm
    have t4 : sk = .list (s.data.skins.map (·.toJson s.version.is38)) := by
      simp only [subscript, getItem, g4] at k4
      injection k4 with k4; exact k4.symm
    subst t4
    injection k5 with k5; subst k5
    rw [t3, mapE_all₂, All₂.map_left] at k6
    refine ⟨t1.symm, ex.symm, t2, ?_⟩
    intro k im j
    simp only [List.mem_flatten]
    constructor
    · rintro ⟨l, hl, hm'⟩
      obtain ⟨skin, hsk, hr⟩ := k6.right hl
      obtain ⟨e, x', he, hx', hj, hi⟩ := (readSkin_toJson _ skin x.name (hd skin hsk)
        (fun e k x' he hx' => hx x.name k x' ⟨skin, hsk, e, he, hx'⟩) hr k im j).1 hm'
      exact ⟨x', ⟨skin, hsk, e, he, hx'⟩, hj, hi⟩
    · rintro ⟨x', ⟨skin, hsk, e, he, hx'⟩, hj, hi⟩
      obtain ⟨l, hl, hr⟩ := k6.left hsk
      exact ⟨l, hl, (readSkin_toJson _ skin x.name (hd skin hsk)
        (fun e k x' he hx' => hx x.name k x' ⟨skin, hsk, e, he, hx'⟩) hr k im j).2 ⟨e, x', he, hx', hj, hi⟩⟩
  · refine h7.mono ?_
    intro x y _ hy
    unfold readIk at hy
    obtain ⟨n, _, hy⟩ := bindOk hy
    obtain ⟨q, _, hy⟩ := bindOk hy
    obtain ⟨nm, _, hy⟩ := bindOk hy
    injection hy with hy; subst hy; rfl

end GShape
end Spine
