import Verif.Lemmas.SimMake
import Verif.Lemmas.FineEditor
/-
The tree of every class: what `set_default_values` does to it, and what is read from it.
-/
set_option linter.unusedSectionVars false
namespace Spine
namespace Alias
open M
variable {F : Type} [PyRt F] {B : Nat}

/-! ### Trees -/

def tlist {α : Type} (f : α → Tree F) (l : List α) : Tree F := .node .list (l.map (fun x => ([], f x)))
def tdict {α : Type} (f : α → Tree F) (d : Dict α) : Tree F := .node .dict (dmap f d)

def tBone (b : Bone F) : Tree F := tAttrs .bone b.attrs
def tSlot (s : Slot F) : Tree F := tAttrs .slot s.attrs
def tAtt (a : Att F) : Tree F := tAttrs (.att a.kind) a.attrs
def tSkin (s : Skin F) : Tree F :=
  .node (.inst .skin) [(s!!"name", .leaf (.str s.name)), (s!!"attachments", tdict (tdict tAtt) s.attachments)]
def tKf (k : SlotKf F) : Tree F := tAttrs .slotKf k.attrs
def tSlotTl (t : SlotTl F) : Tree F :=
  .node (.inst .slotTl) [(s!!"attachment", tlist tKf t.attachment), (s!!"color", tlist tKf t.color), (s!!"twoColor", tlist tKf t.twoColor)]
def tBoneTl (t : BoneTl F) : Tree F :=
  .node (.inst .boneTl) [(s!!"rotate", tlist (tAttrs .boneRotate) t.rotate), (s!!"translate", tlist (tAttrs .boneTranslate) t.translate),
    (s!!"scale", tlist (tAttrs .boneRotate) t.scale), (s!!"shear", tlist (tAttrs .boneTranslate) t.shear)]
def tOffset (o : Str × Int) : Tree F := tAttrs .offset [(s!!"slot", .str o.1), (s!!"offset", .int o.2)]
def tDraw (t : DrawTl F) : Tree F :=
  .node (.inst .draw) [(s!!"time", .leaf t.time), (s!!"offsets", tlist tOffset t.offsets)]
def tAnim (a : Anim F) : Tree F :=
  .node (.inst .anim)
    [(s!!"ik", tdict (tlist (tAttrs .ikTl)) a.ik), (s!!"drawOrder", tlist tDraw a.drawOrder),
     (s!!"bones", tdict tBoneTl a.bones), (s!!"slots", tdict tSlotTl a.slots),
     (s!!"events", tlist (tAttrs .eventTl) a.events),
     (s!!"transform", tdict (tlist (tAttrs .transformTl)) a.transform),
     (s!!"path", tdict (tdict (tlist (tAttrs .pathTl))) a.path),
     (s!!"deform", tdict (tdict (tdict (tlist (tAttrs .deform)))) a.deform)]
def tData (a : AnimData F) : Tree F :=
  .node (.inst .document)
    [(s!!"bones", tlist tBone a.bones), (s!!"slots", tlist tSlot a.slots), (s!!"skins", tlist tSkin a.skins),
     (s!!"events", tdict (tAttrs .events) a.events), (s!!"ik", tlist (tAttrs .ik) a.ik),
     (s!!"transform", tlist (tAttrs .transform) a.transform), (s!!"path", tlist (tAttrs .path) a.path),
     (s!!"animations", tdict tAnim a.animations)]

/-! ### What is read -/

theorem tAttrs_sval (t : Tag) (a : Attrs F) : (tAttrs t a).sval = Attrs.sval t.cls a := by
  unfold tAttrs Tree.sval Attrs.sval
  rw [Tree.svalK_eq]
  simp [Kind.sval, dmap, Function.comp_def, Tree.sval]

theorem tlist_sval {α : Type} {f : α → Tree F} {g : α → SVal F} (h : ∀ x, (f x).sval = g x) (l : List α) : (tlist f l).sval = slist g l := by
  unfold tlist Tree.sval slist
  rw [Tree.svalK_eq]
  simp [Kind.sval, dmap, Function.comp_def, h]

theorem tdict_sval {α : Type} {f : α → Tree F} {g : α → SVal F} (h : ∀ x, (f x).sval = g x) (l : Dict α) : (tdict f l).sval = sdict g l := by
  unfold tdict Tree.sval sdict
  rw [Tree.svalK_eq]
  simp [Kind.sval, dmap, Function.comp_def, h]

theorem tBone_sval (b : Bone F) : (tBone b).sval = b.sval := tAttrs_sval ..
theorem tSlot_sval (b : Slot F) : (tSlot b).sval = b.sval := tAttrs_sval ..
theorem tAtt_sval (b : Att F) : (tAtt b).sval = b.sval := tAttrs_sval ..
theorem tKf_sval (b : SlotKf F) : (tKf b).sval = b.sval := tAttrs_sval ..
theorem tOffset_sval (b : Str × Int) : (tOffset (F := F) b).sval = offsetSval b := tAttrs_sval ..

theorem tSkin_sval (s : Skin F) : (tSkin s).sval = s.sval := by
  unfold tSkin Skin.sval
  simp only [Tree.sval, Tree.svalK, tdict_sval (tdict_sval tAtt_sval), Kind.sval, SVal.ofJ]
  rfl

theorem tSlotTl_sval (s : SlotTl F) : (tSlotTl s).sval = s.sval := by
  unfold tSlotTl SlotTl.sval
  simp only [Tree.sval, Tree.svalK, tlist_sval tKf_sval, Kind.sval]
  rfl

theorem tBoneTl_sval (s : BoneTl F) : (tBoneTl s).sval = s.sval := by
  unfold tBoneTl BoneTl.sval
  simp only [Tree.sval, Tree.svalK, tlist_sval (tAttrs_sval _), Kind.sval]
  rfl

theorem tDraw_sval (s : DrawTl F) : (tDraw s).sval = s.sval := by
  unfold tDraw DrawTl.sval
  simp only [Tree.sval, Tree.svalK, tlist_sval tOffset_sval, Kind.sval]
  rfl

theorem tAnim_sval (s : Anim F) : (tAnim s).sval = s.sval := by
  unfold tAnim Anim.sval
  simp only [Tree.sval, Tree.svalK, tlist_sval (tAttrs_sval _), tlist_sval tDraw_sval, tdict_sval tBoneTl_sval, tdict_sval tSlotTl_sval,
    tdict_sval (tlist_sval (tAttrs_sval _)), tdict_sval (tdict_sval (tlist_sval (tAttrs_sval _))),
    tdict_sval (tdict_sval (tdict_sval (tlist_sval (tAttrs_sval _)))), Kind.sval]
  rfl

theorem tData_sval (s : AnimData F) : (tData s).sval = s.sval := by
  unfold tData AnimData.sval
  simp only [Tree.sval, Tree.svalK, tlist_sval (tAttrs_sval _), tlist_sval tBone_sval, tlist_sval tSlot_sval, tlist_sval tSkin_sval,
    tdict_sval (tAttrs_sval _), tdict_sval tAnim_sval, Kind.sval]
  rfl

/-! ### Default values -/

/-- `set_default_values` turns the tree into the tree of the value with its defaults -/
structure Pre (H : Nat) {α : Type} (sd : Bool → α → α) (tr : α → Tree F) (x : α) (t : Tree F) : Prop where
  sd : ∀ b, t.sd b = tr (sd b x)
  uniq : t.Uniq
  height : t.height ≤ H

theorem heightK_of {H : Nat} {d : List (Str × Tree F)} (h : ∀ p ∈ d, p.2.height ≤ H) : Tree.heightK d ≤ H := by
  induction d with
  | nil => simp [Tree.heightK]
  | cons p r ih =>
    unfold Tree.heightK
    exact Nat.max_le.mpr ⟨h p (by simp), ih (fun q hq => h q (by simp [hq]))⟩

theorem height_of {H : Nat} {k : Kind} {d : List (Str × Tree F)} (h : ∀ p ∈ d, p.2.height ≤ H) : (Tree.node k d).height ≤ H + 1 := by
  rw [Tree.height_node]
  exact Nat.succ_le_succ (heightK_of h)

theorem Pre.list {H : Nat} {α : Type} {sd : Bool → α → α} {tr : α → Tree F} {l : List α} {t : Tree F} (h : TL (Pre H sd tr) l t) :
    Pre (H + 1) (fun b => List.map (sd b)) (tlist tr) l t := by
  obtain ⟨ts, rfl, h⟩ := h
  refine ⟨fun b => ?_, ?_, height_of ?_⟩
  · simp only [Tree.sd, tlist, Tree.sdK_eq, dmap, List.map_map]
    congr 1
    induction h with
    | nil => rfl
    | cons h1 _ ih => simp [h1.sd b, ih]
  · simp only [Tree.Uniq]
    rw [Tree.uniqK_iff]
    intro p hp
    obtain ⟨t, ht, rfl⟩ := List.mem_map.mp hp
    clear hp
    induction h with
    | nil => cases ht
    | cons h1 _ ih =>
      rcases List.mem_cons.mp ht with rfl | ht
      · exact h1.uniq
      · exact ih ht
  · intro p hp
    obtain ⟨t, ht, rfl⟩ := List.mem_map.mp hp
    clear hp
    induction h with
    | nil => cases ht
    | cons h1 _ ih =>
      rcases List.mem_cons.mp ht with rfl | ht
      · exact h1.height
      · exact ih ht

theorem Pre.dict {H : Nat} {α : Type} {sd : Bool → α → α} {tr : α → Tree F} {l : Dict α} {t : Tree F} (h : TD (Pre H sd tr) l t) :
    Pre (H + 1) (fun b => dmap (sd b)) (tdict tr) l t := by
  obtain ⟨ts, rfl, h⟩ := h
  refine ⟨fun b => ?_, ?_, height_of ?_⟩
  · simp only [Tree.sd, tdict, Tree.sdK_eq]
    congr 1
    unfold dmap
    induction h with
    | nil => rfl
    | cons h1 _ ih => simp [h1.1, h1.2.sd b, ih]
  · simp only [Tree.Uniq]
    rw [Tree.uniqK_iff]
    intro p hp
    induction h with
    | nil => cases hp
    | cons h1 _ ih =>
      rcases List.mem_cons.mp hp with rfl | ht
      · exact h1.2.uniq
      · exact ih ht
  · intro p hp
    induction h with
    | nil => cases hp
    | cons h1 _ ih =>
      rcases List.mem_cons.mp hp with rfl | ht
      · exact h1.2.height
      · exact ih ht

theorem tl_map {α : Type} {T : α → Tree F → Prop} {tr : α → Tree F} {l : List α} (h : ∀ x ∈ l, T x (tr x)) : TL T l (tlist tr l) := by
  refine ⟨l.map tr, by simp [tlist, Function.comp_def], ?_⟩
  induction l with
  | nil => exact .nil
  | cons x l ih => exact .cons (h x (by simp)) (ih (fun y hy => h y (by simp [hy])))

theorem td_map {α : Type} {T : α → Tree F → Prop} {tr : α → Tree F} {l : Dict α} (h : ∀ p ∈ l, T p.2 (tr p.2)) : TD T l (tdict tr l) := by
  refine ⟨dmap tr l, rfl, ?_⟩
  unfold dmap
  induction l with
  | nil => exact .nil
  | cons x l ih => exact .cons ⟨rfl, h x (by simp)⟩ (ih (fun y hy => h y (by simp [hy])))

/-- a subtree that is not null -/
theorem sd1_of {b : Bool} {c : Tag} {k : Str} {t : Tree F} {ki : Kind} {d : List (Str × Tree F)} (h : t.sd b = .node ki d) :
    Tree.sd1 b c k t = .node ki d := by
  unfold Tree.sd1
  split
  · simp [Tree.sd] at h
  · exact h

theorem Pre.sd1_list {H : Nat} {α : Type} {sd : Bool → α → α} {tr : α → Tree F} {l : List α} {t : Tree F} {b : Bool} {c : Tag} {k : Str}
    (h : Pre H (fun b => List.map (sd b)) (tlist tr) l t) : Tree.sd1 b c k t = tlist tr (l.map (sd b)) := sd1_of (h.sd b)

theorem Pre.sd1_dict {H : Nat} {α : Type} {sd : Bool → α → α} {tr : α → Tree F} {l : Dict α} {t : Tree F} {b : Bool} {c : Tag} {k : Str}
    (h : Pre H (fun b => dmap (sd b)) (tdict tr) l t) : Tree.sd1 b c k t = tdict tr (dmap (sd b) l) := sd1_of (h.sd b)

/-! #### Objects of plain attributes -/

/-- the default is not an empty dictionary -/
def plainDefault : JVal F → Bool
  | .dict [] => false
  | _ => true

theorem dft_plain {j : JVal F} (h : plainDefault j = true) : dft j = .leaf j := by
  unfold dft
  split
  · simp [plainDefault] at h
  · rfl

/-- the classes of plain attributes -/
def Tag.Leaf (F : Type) [PyRt F] (t : Tag) : Prop :=
  (t.cls (F := F)).attrs.Nodup ∧ ∀ b, ((t.cls (F := F)).defaultsFor b).all (fun p => plainDefault p.2) = true

theorem get?_mem {α : Type} {d : Dict α} {k : Str} {v : α} (h : Dict.get? d k = some v) : (k, v) ∈ d := Dict.mem_of_get? h

theorem tAttrs_sd {t : Tag} (ht : t.Leaf F) (b : Bool) (a : Attrs F) : (tAttrs t a).sd b = tAttrs t (t.cls.setDefaults b a) := by
  unfold tAttrs
  simp only [Tree.sd, Tree.sdA_eq]
  congr 1
  unfold Cls.setDefaults dmap
  simp only [List.map_map]
  refine List.map_congr_left (fun p _ => ?_)
  obtain ⟨k, v⟩ := p
  simp only [Function.comp]
  cases v with
  | null =>
    simp only [Tree.sd1]
    cases hg : Dict.get? ((t.cls (F := F)).defaultsFor b) k with
    | none => rfl
    | some w =>
      have := List.all_eq_true.mp (ht.2 b) _ (get?_mem hg)
      simp only [Option.getD_some]
      rw [dft_plain this]
  | _ => rfl

theorem tAttrs_height (t : Tag) (a : Attrs F) : (tAttrs t a).height ≤ 1 := by
  refine height_of (H := 0) (fun p hp => ?_)
  obtain ⟨q, _, rfl⟩ := List.mem_map.mp hp
  simp [Tree.height]

theorem tAttrs_uniq {t : Tag} {a : Attrs F} (h : (Dict.keys a).Nodup) : (tAttrs t a).Uniq := by
  unfold tAttrs
  simp only [Tree.Uniq]
  refine ⟨?_, Tree.uniqK_iff.mpr (fun p hp => ?_)⟩
  · simpa [dmap, Function.comp_def, Dict.keys] using h
  · obtain ⟨q, _, rfl⟩ := List.mem_map.mp hp
    simp [Tree.Uniq]

theorem pre_attrs {t : Tag} (ht : t.Leaf F) {a : Attrs F} (h : (Dict.keys a).Nodup) : Pre 1 t.cls.setDefaults (tAttrs t) a (tAttrs t a) :=
  ⟨fun b => tAttrs_sd ht b a, tAttrs_uniq h, tAttrs_height t a⟩

/-- seen through another presentation of the attributes -/
theorem pre_via {t : Tag} (ht : t.Leaf F) {α : Type} {sd : Bool → α → α} {at' : α → Attrs F} {x : α} (h : (Dict.keys (at' x)).Nodup)
    (he : ∀ b, t.cls.setDefaults b (at' x) = at' (sd b x)) : Pre 1 sd (fun x => tAttrs t (at' x)) x (tAttrs t (at' x)) :=
  ⟨fun b => by rw [tAttrs_sd ht, he], tAttrs_uniq h, tAttrs_height t _⟩

theorem leaf_bone : Tag.Leaf F .bone := ⟨by simp only [Tag.cls, boneCls]; decide, by intro b; cases b <;> rfl⟩
theorem leaf_slot : Tag.Leaf F .slot := ⟨by simp only [Tag.cls, slotCls]; decide, by intro b; cases b <;> rfl⟩
theorem leaf_att (k : AttKind) : Tag.Leaf F (.att k) := by
  refine ⟨(Cls.leafClasses_ok (AttKind.cls k : Cls F) (AttKind.cls_mem _)).nodup, ?_⟩
  intro b
  cases b <;> cases k <;> rfl
theorem leaf_slotKf : Tag.Leaf F .slotKf := ⟨by simp only [Tag.cls, slotKeyframeCls]; decide, by intro b; cases b <;> rfl⟩
theorem leaf_boneRotate : Tag.Leaf F .boneRotate := ⟨by simp only [Tag.cls, boneRotateCls]; decide, by intro b; cases b <;> rfl⟩
theorem leaf_boneTranslate : Tag.Leaf F .boneTranslate := ⟨by simp only [Tag.cls, boneTranslateCls]; decide, by intro b; cases b <;> rfl⟩
theorem leaf_offset : Tag.Leaf F .offset := ⟨by simp only [Tag.cls, offsetCls]; decide, by intro b; cases b <;> rfl⟩
theorem leaf_events : Tag.Leaf F .events := ⟨by simp only [Tag.cls, eventsCls]; decide, by intro b; cases b <;> rfl⟩
theorem leaf_eventTl : Tag.Leaf F .eventTl := ⟨by simp only [Tag.cls, eventTimelineCls]; decide, by intro b; cases b <;> rfl⟩
theorem leaf_ik : Tag.Leaf F .ik := ⟨by simp only [Tag.cls, ikCls]; decide, by intro b; cases b <;> rfl⟩
theorem leaf_ikTl : Tag.Leaf F .ikTl := ⟨by simp only [Tag.cls, ikTimelineCls]; decide, by intro b; cases b <;> rfl⟩
theorem leaf_transform : Tag.Leaf F .transform := ⟨by simp only [Tag.cls, transformCls]; decide, by intro b; cases b <;> rfl⟩
theorem leaf_transformTl : Tag.Leaf F .transformTl := ⟨by simp only [Tag.cls, transformTimelineCls]; decide, by intro b; cases b <;> rfl⟩
theorem leaf_path : Tag.Leaf F .path := ⟨by simp only [Tag.cls, pathCls]; decide, by intro b; cases b <;> rfl⟩
theorem leaf_pathTl : Tag.Leaf F .pathTl := ⟨by simp only [Tag.cls, pathTimelineCls]; decide, by intro b; cases b <;> rfl⟩
theorem leaf_deform : Tag.Leaf F .deform := ⟨by simp only [Tag.cls, deformCls]; decide, by intro b; cases b <;> rfl⟩

theorem keys_attrs_bone {q : F → Prop} {b : Bone F} (h : b.Ok q) : (Dict.keys b.attrs).Nodup := by
  show (s!!"name" :: s!!"parent" :: Dict.keys b.rest).Nodup
  refine List.nodup_cons.mpr ⟨?_, List.nodup_cons.mpr ⟨h.parent, h.rest.1⟩⟩
  simp only [List.mem_cons, not_or]
  exact ⟨by decide, h.name⟩

theorem pre_boneKeys {b : Bone F} (h : (Dict.keys b.attrs).Nodup) : Pre 1 Bone.setDefaults tBone b (tBone b) := by
  refine pre_via leaf_bone h (fun v => ?_)
  have hp : Dict.get? ((boneCls (F := F)).defaultsFor v) s!!"parent" = none := by cases v <;> rfl
  show boneCls.setDefaults v b.attrs = _
  cases h : b.parent <;> simp [Bone.attrs, Bone.setDefaults, Cls.setDefaults, h, optJ, hp]

theorem pre_bone {q : F → Prop} {b : Bone F} (h : b.Ok q) : Pre 1 Bone.setDefaults tBone b (tBone b) := pre_boneKeys (keys_attrs_bone h)

theorem pre_slot (s : Slot F) : Pre 1 (fun _ x => x) tSlot s (tSlot s) := by
  refine pre_via leaf_slot (by simp only [Slot.attrs, Dict.keys, List.map_cons, List.map_nil]; decide) (fun v => ?_)
  have hp : ∀ k, Dict.get? ((slotCls (F := F)).defaultsFor v) k = none := by intro k; cases v <;> rfl
  show slotCls.setDefaults v s.attrs = _
  unfold Cls.setDefaults
  rw [List.map_congr_left (g := id), List.map_id]
  intro p _
  obtain ⟨k, v⟩ := p
  cases v <;> simp [hp]

theorem pre_att {q : F → Prop} {a : Att F} (h : a.Ok q) : Pre 1 Att.setDefaults tAtt a (tAtt a) :=
  ⟨fun b => tAttrs_sd (leaf_att a.kind) b a.attrs, tAttrs_uniq h.1, tAttrs_height _ _⟩

theorem pre_kfKeys {k : SlotKf F} (h : (Dict.keys k.attrs).Nodup) : Pre 1 SlotKf.setDefaults tKf k (tKf k) := by
  refine pre_via leaf_slotKf h (fun v => ?_)
  · have hp : Dict.get? ((slotKeyframeCls (F := F)).defaultsFor v) s!!"name" = some .null := by cases v <;> rfl
    show slotKeyframeCls.setDefaults v k.attrs = _
    cases h : k.name <;> simp [SlotKf.attrs, SlotKf.setDefaults, Cls.setDefaults, h, optJ, hp]

theorem pre_kf {q : F → Prop} {k : SlotKf F} (h : k.Ok q) : Pre 1 SlotKf.setDefaults tKf k (tKf k) := by
  refine pre_kfKeys ?_
  show (s!!"name" :: Dict.keys k.rest).Nodup
  exact List.nodup_cons.mpr ⟨h.name, h.rest.1⟩

theorem pre_offset (o : Str × Int) : Pre 1 (fun _ x => x) (tOffset (F := F)) o (tOffset o) := by
  refine pre_via leaf_offset (by simp only [Dict.keys, List.map_cons, List.map_nil]; decide) (fun v => ?_)
  rfl

/-! #### The other classes -/

theorem pre_skin {s : Skin F} {t : Tree F} (n : JVal F) (hn : n = .str s.name ∨ n = .null ∧ s.name = [])
    (h : Pre 3 (fun b => dmap (dmap (Att.setDefaults b))) (tdict (tdict tAtt)) s.attachments t ∨ t = .leaf .null ∧ s.attachments = []) :
    Pre 4 Skin.setDefaults tSkin s (.node (.inst .skin) [(s!!"name", .leaf n), (s!!"attachments", t)]) := by
  refine ⟨fun b => ?_, ?_, height_of ?_⟩
  · simp only [Tree.sd, Tree.sdA_eq, List.map_cons, List.map_nil, tSkin]
    congr 3
    · rcases hn with rfl | ⟨rfl, e⟩
      · rfl
      · have : (s.setDefaults b).name = [] := e
        rw [this]
        cases b <;> rfl
    · congr 2
      rcases h with h | ⟨rfl, e⟩
      · exact sd1_of (h.sd b)
      · have : (s.setDefaults b).attachments = [] := by simp [Skin.setDefaults, e]
        rw [this]
        cases b <;> rfl
  · simp only [Tree.Uniq, Tree.UniqK, List.map_cons, List.map_nil]
    refine ⟨by decide, trivial, ?_, trivial⟩
    rcases h with h | ⟨rfl, _⟩
    · exact h.uniq
    · trivial
  · intro p hp
    simp only [List.mem_cons, List.not_mem_nil, or_false] at hp
    rcases hp with rfl | rfl
    · simp [Tree.height]
    · rcases h with h | ⟨rfl, _⟩
      · exact h.height
      · simp [Tree.height]

theorem pre_slotTl {x : SlotTl F} {a c t : Tree F} (ha : TL (Pre 1 SlotKf.setDefaults tKf) x.attachment a)
    (hc : TL (Pre 1 SlotKf.setDefaults tKf) x.color c) (ht : TL (Pre 1 SlotKf.setDefaults tKf) x.twoColor t) :
    Pre 3 SlotTl.setDefaults tSlotTl x (.node (.inst .slotTl) [(s!!"attachment", a), (s!!"color", c), (s!!"twoColor", t)]) := by
  have ha := Pre.list ha
  have hc := Pre.list hc
  have ht := Pre.list ht
  refine ⟨fun b => ?_, ?_, height_of ?_⟩
  · simp only [Tree.sd, Tree.sdA_eq, List.map_cons, List.map_nil, ha.sd1_list, hc.sd1_list, ht.sd1_list]
    rfl
  · simp only [Tree.Uniq, Tree.UniqK, List.map_cons, List.map_nil]
    exact ⟨by decide, ha.uniq, hc.uniq, ht.uniq, trivial⟩
  · intro p hp
    simp only [List.mem_cons, List.not_mem_nil, or_false] at hp
    rcases hp with rfl | rfl | rfl
    · exact ha.height
    · exact hc.height
    · exact ht.height

/-- lists of objects of plain attributes -/
abbrev PA (t : Tag) : Attrs F → Tree F → Prop := Pre 1 t.cls.setDefaults (tAttrs t)

theorem pre_boneTl {x : BoneTl F} {r t s h : Tree F} (hr : TL (PA .boneRotate) x.rotate r) (ht : TL (PA .boneTranslate) x.translate t)
    (hs : TL (PA .boneRotate) x.scale s) (hh : TL (PA .boneTranslate) x.shear h) :
    Pre 3 BoneTl.setDefaults tBoneTl x
      (.node (.inst .boneTl) [(s!!"rotate", r), (s!!"translate", t), (s!!"scale", s), (s!!"shear", h)]) := by
  have hr := Pre.list hr
  have ht := Pre.list ht
  have hs := Pre.list hs
  have hh := Pre.list hh
  refine ⟨fun b => ?_, ?_, height_of ?_⟩
  · simp only [Tree.sd, Tree.sdA_eq, List.map_cons, List.map_nil, hr.sd1_list, hs.sd1_list, ht.sd1_list, hh.sd1_list]
    rfl
  · simp only [Tree.Uniq, Tree.UniqK, List.map_cons, List.map_nil]
    exact ⟨by decide, hr.uniq, ht.uniq, hs.uniq, hh.uniq, trivial⟩
  · intro p hp
    simp only [List.mem_cons, List.not_mem_nil, or_false] at hp
    rcases hp with rfl | rfl | rfl | rfl
    · exact hr.height
    · exact ht.height
    · exact hs.height
    · exact hh.height

theorem pre_draw {x : DrawTl F} {o : Tree F} (ho : TL (Pre 1 (fun _ x => x) (tOffset (F := F))) x.offsets o) :
    Pre 3 DrawTl.setDefaults tDraw x (.node (.inst .draw) [(s!!"time", .leaf x.time), (s!!"offsets", o)]) := by
  have ho := Pre.list ho
  refine ⟨fun b => ?_, ?_, height_of ?_⟩
  · simp only [Tree.sd, Tree.sdA_eq, List.map_cons, List.map_nil, ho.sd1_list, tDraw, DrawTl.setDefaults, List.map_id']
    congr 3
    cases h : x.time <;> cases b <;>
      simp [Tree.sd1, Tree.sd, Cls.setDefaults, Attrs.val, Dict.get?, Cls.defaultsFor, drawCls, Tag.cls, dft]
  · simp only [Tree.Uniq, Tree.UniqK, List.map_cons, List.map_nil]
    exact ⟨by decide, trivial, ho.uniq, trivial⟩
  · intro p hp
    simp only [List.mem_cons, List.not_mem_nil, or_false] at hp
    rcases hp with rfl | rfl
    · simp [Tree.height]
    · exact ho.height

theorem Pre.up {H H' : Nat} {α : Type} {sd : Bool → α → α} {tr : α → Tree F} {x : α} {t : Tree F} (h : Pre H sd tr x t) (hh : H ≤ H') :
    Pre H' sd tr x t := ⟨h.sd, h.uniq, Nat.le_trans h.height hh⟩

theorem TL.imp {α : Type} {T T' : α → Tree F → Prop} {l : List α} {t : Tree F} (h : TL T l t) (hi : ∀ x t, T x t → T' x t) : TL T' l t := by
  obtain ⟨ts, rfl, h⟩ := h
  exact ⟨ts, rfl, h.imp (fun x y _ _ => hi x y)⟩

theorem TD.imp {α : Type} {T T' : α → Tree F → Prop} {l : Dict α} {t : Tree F} (h : TD T l t) (hi : ∀ x t, T x t → T' x t) : TD T' l t := by
  obtain ⟨ts, rfl, h⟩ := h
  exact ⟨ts, rfl, h.imp (fun x y _ _ hp => ⟨hp.1, hi _ _ hp.2⟩)⟩

theorem pre_anim {x : Anim F} {ik dr bo sl ev tr pa de : Tree F} (hik : TD (TL (PA .ikTl)) x.ik ik)
    (hdr : TL (Pre 3 DrawTl.setDefaults tDraw) x.drawOrder dr) (hbo : TD (Pre 3 BoneTl.setDefaults tBoneTl) x.bones bo)
    (hsl : TD (Pre 3 SlotTl.setDefaults tSlotTl) x.slots sl) (hev : TL (PA .eventTl) x.events ev)
    (htr : TD (TL (PA .transformTl)) x.transform tr) (hpa : TD (TD (TL (PA .pathTl))) x.path pa)
    (hde : TD (TD (TD (TL (PA .deform)))) x.deform de) :
    Pre 6 Anim.setDefaults tAnim x (.node (.inst .anim) [(s!!"ik", ik), (s!!"drawOrder", dr), (s!!"bones", bo), (s!!"slots", sl),
      (s!!"events", ev), (s!!"transform", tr), (s!!"path", pa), (s!!"deform", de)]) := by
  have hik := Pre.dict (hik.imp (fun _ _ => Pre.list))
  have hdr := Pre.list hdr
  have hbo := Pre.dict hbo
  have hsl := Pre.dict hsl
  have hev := Pre.list hev
  have htr := Pre.dict (htr.imp (fun _ _ => Pre.list))
  have hpa := Pre.dict (hpa.imp (fun _ _ h => Pre.dict (h.imp (fun _ _ => Pre.list))))
  have hde := Pre.dict (hde.imp (fun _ _ h => Pre.dict (h.imp (fun _ _ h => Pre.dict (h.imp (fun _ _ => Pre.list))))))
  refine ⟨fun b => ?_, ?_, height_of ?_⟩
  · simp only [Tree.sd, Tree.sdA_eq, List.map_cons, List.map_nil, hik.sd1_dict, hdr.sd1_list, hbo.sd1_dict, hsl.sd1_dict, hev.sd1_list,
      htr.sd1_dict, hpa.sd1_dict, hde.sd1_dict]
    rfl
  · simp only [Tree.Uniq, Tree.UniqK, List.map_cons, List.map_nil]
    exact ⟨by decide, hik.uniq, hdr.uniq, hbo.uniq, hsl.uniq, hev.uniq, htr.uniq, hpa.uniq, hde.uniq, trivial⟩
  · intro p hp
    simp only [List.mem_cons, List.not_mem_nil, or_false] at hp
    rcases hp with rfl | rfl | rfl | rfl | rfl | rfl | rfl | rfl
    · exact Nat.le_trans hik.height (by decide)
    · exact Nat.le_trans hdr.height (by decide)
    · exact Nat.le_trans hbo.height (by decide)
    · exact Nat.le_trans hsl.height (by decide)
    · exact Nat.le_trans hev.height (by decide)
    · exact Nat.le_trans htr.height (by decide)
    · exact Nat.le_trans hpa.height (by decide)
    · exact Nat.le_trans hde.height (by decide)

theorem pre_data {x : AnimData F} {bo sl sk ev ik tr pa an : Tree F} (hbo : TL (Pre 1 Bone.setDefaults tBone) x.bones bo)
    (hsl : TL (Pre 1 (fun _ x => x) tSlot) x.slots sl) (hsk : TL (Pre 4 Skin.setDefaults tSkin) x.skins sk)
    (hev : TD (PA .events) x.events ev) (hik : TL (PA .ik) x.ik ik) (htr : TL (PA .transform) x.transform tr)
    (hpa : TL (PA .path) x.path pa) (han : TD (Pre 6 Anim.setDefaults tAnim) x.animations an) :
    Pre 8 AnimData.setDefaults tData x (.node (.inst .document) [(s!!"bones", bo), (s!!"slots", sl), (s!!"skins", sk), (s!!"events", ev),
      (s!!"ik", ik), (s!!"transform", tr), (s!!"path", pa), (s!!"animations", an)]) := by
  have hbo := Pre.list hbo
  have hsl := Pre.list hsl
  have hsk := Pre.list hsk
  have hev := Pre.dict hev
  have hik := Pre.list hik
  have htr := Pre.list htr
  have hpa := Pre.list hpa
  have han := Pre.dict han
  refine ⟨fun b => ?_, ?_, height_of ?_⟩
  · simp only [Tree.sd, Tree.sdA_eq, List.map_cons, List.map_nil, hbo.sd1_list, hsl.sd1_list, hsk.sd1_list, hev.sd1_dict, hik.sd1_list,
      htr.sd1_list, hpa.sd1_list, han.sd1_dict, List.map_id']
    rfl
  · simp only [Tree.Uniq, Tree.UniqK, List.map_cons, List.map_nil]
    exact ⟨by decide, hbo.uniq, hsl.uniq, hsk.uniq, hev.uniq, hik.uniq, htr.uniq, hpa.uniq, han.uniq, trivial⟩
  · intro p hp
    simp only [List.mem_cons, List.not_mem_nil, or_false] at hp
    rcases hp with rfl | rfl | rfl | rfl | rfl | rfl | rfl | rfl
    · exact Nat.le_trans hbo.height (by decide)
    · exact Nat.le_trans hsl.height (by decide)
    · exact Nat.le_trans hsk.height (by decide)
    · exact Nat.le_trans hev.height (by decide)
    · exact Nat.le_trans hik.height (by decide)
    · exact Nat.le_trans htr.height (by decide)
    · exact Nat.le_trans hpa.height (by decide)
    · exact Nat.le_trans han.height (by decide)

/-! #### Documents without repeated keys -/

theorem pre_skinOk {q : F → Prop} {s : Skin F} (h : s.Ok q) : Pre 4 Skin.setDefaults tSkin s (tSkin s) :=
  pre_skin _ (.inl rfl) (.inl (Pre.dict (td_map (fun p hp => Pre.dict (td_map (fun r hr => pre_att ((h.2 p hp).2 r hr)))))))

theorem pre_slotTlOk {q : F → Prop} {x : SlotTl F} (h : x.Ok q) : Pre 3 SlotTl.setDefaults tSlotTl x (tSlotTl x) :=
  pre_slotTl (tl_map (fun k hk => pre_kf (h.attachment k hk))) (tl_map (fun k hk => pre_kf (h.color k hk)))
    (tl_map (fun k hk => pre_kf (h.twoColor k hk)))

theorem tl_fa {q : F → Prop} {t : Tag} (ht : t.Leaf F) {l : List (Attrs F)} (h : ∀ x ∈ l, FA q x) : TL (PA t) l (tlist (tAttrs t) l) :=
  tl_map (fun x hx => pre_attrs ht (h x hx).1)

theorem pre_boneTlOk {q : F → Prop} {x : BoneTl F} (h : x.Ok q) : Pre 3 BoneTl.setDefaults tBoneTl x (tBoneTl x) :=
  pre_boneTl (tl_fa leaf_boneRotate h.rotate) (tl_fa leaf_boneTranslate h.translate) (tl_fa leaf_boneRotate h.scale)
    (tl_fa leaf_boneTranslate h.shear)

theorem pre_drawAny (x : DrawTl F) : Pre 3 DrawTl.setDefaults tDraw x (tDraw x) := pre_draw (tl_map (fun o _ => pre_offset o))

theorem pre_animOk {q : F → Prop} {x : Anim F} (h : x.Ok q) : Pre 6 Anim.setDefaults tAnim x (tAnim x) :=
  pre_anim (td_map (fun p hp => tl_fa leaf_ikTl (h.ik.2 p hp))) (tl_map (fun x _ => pre_drawAny x))
    (td_map (fun p hp => pre_boneTlOk (h.bones.2 p hp))) (td_map (fun p hp => pre_slotTlOk (h.slots.2 p hp)))
    (tl_fa leaf_eventTl h.events) (td_map (fun p hp => tl_fa leaf_transformTl (h.transform.2 p hp)))
    (td_map (fun p hp => td_map (fun r hr => tl_fa leaf_pathTl ((h.path.2 p hp).2 r hr))))
    (td_map (fun p hp => td_map (fun r hr => td_map (fun s hs => tl_fa leaf_deform (((h.deform.2 p hp).2 r hr).2 s hs)))))

theorem pre_dataOk {q : F → Prop} {x : AnimData F} (h : x.Ok q) : Pre 8 AnimData.setDefaults tData x (tData x) :=
  pre_data (tl_map (fun p hp => pre_bone (h.bones p hp))) (tl_map (fun p _ => pre_slot p)) (tl_map (fun p hp => pre_skinOk (h.skins p hp)))
    (td_map (fun p hp => pre_attrs leaf_events (h.events.2 p hp).1)) (tl_fa leaf_ik h.ik) (tl_fa leaf_transform h.transform)
    (tl_fa leaf_path h.path) (td_map (fun p hp => pre_animOk (h.animations.2 p hp)))

end Alias
end Spine
