import Verif.Lemmas.DataShape
import Verif.Lemmas.EraseSkins
/- Two documents that are written the same way have the same image references. -/
set_option linter.unusedSectionVars false
set_option linter.unusedSimpArgs false
namespace Spine
open JVal
variable {F : Type} [PyRt F]

/-! ### Parts of a written document -/

theorem jl_inj {α : Type} {f : α → JVal F} {l m : List α}
    (h : (if l.isEmpty then none else some (JVal.list (l.map f))) = (if m.isEmpty then none else some (JVal.list (m.map f)))) :
    l.map f = m.map f := by
  cases l <;> cases m <;> simp_all

theorem SpineDoc.toJson_parts {s t : SpineDoc F} (h : s.toJson = t.toJson) (hv : s.version = t.version) :
    s.data.bones.map (·.toJson s.version.is38) = t.data.bones.map (·.toJson s.version.is38) ∧
    s.data.slots.map (·.toJson s.version.is38) = t.data.slots.map (·.toJson s.version.is38) ∧
    s.data.skins.map (·.toJson s.version.is38) = t.data.skins.map (·.toJson s.version.is38) := by
  unfold SpineDoc.toJson at h
  injection h with h
  rw [← hv] at h
  have hg : ∀ k, k ≠ s!!"skeleton" → Dict.get? (s.data.toJson s.version.is38) k = Dict.get? (t.data.toJson s.version.is38) k := by
    intro k hk
    have := congrArg (fun d => Dict.get? d k) h
    simp only [Dict.get?_set] at this
    simpa [hk, Ne.symm hk] using this
  refine ⟨?_, ?_, ?_⟩
  · have := hg s!!"bones" (by decide)
    simp [AnimData.toJson, get?_append, get?_jl_same, get?_jl_ne, get?_jd_same, get?_jd_ne, Dict.get?] at this
    exact jl_inj (by simpa using this)
  · have := hg s!!"slots" (by decide)
    simp [AnimData.toJson, get?_append, get?_jl_same, get?_jl_ne, get?_jd_same, get?_jd_ne, Dict.get?] at this
    exact jl_inj (by simpa using this)
  · have := hg s!!"skins" (by decide)
    simpa [AnimData.toJson, get?_append, get?_jl_same, get?_jl_ne, get?_jd_same, get?_jd_ne, Dict.get?] using this

/-- an attribute without default is written exactly when it is not null -/
theorem Cls.get?_toJson {c : Cls F} {b : Bool} {a a' : Attrs F} (h : c.toJson b a = c.toJson b a') (hn : (Dict.keys a).Nodup)
    (hk : Dict.keys a = Dict.keys a') {k : Str} (hd : Dict.get? (c.defaultsFor b) k = none) : Dict.get? a k = Dict.get? a' k := by
  unfold Cls.toJson at h
  injection h with h
  have h : Dict.get? (a.filter (fun p => c.emits b p.1 p.2)) k = Dict.get? (a'.filter (fun p => c.emits b p.1 p.2)) k := by rw [h]
  rw [Cls.get?_filter a (c.emits b) hn, Cls.get?_filter a' (c.emits b) (hk ▸ hn)] at h
  have he : ∀ v, c.emits b k v = !v.isNull := by intro v; simp [Cls.emits, hd]
  by_cases hm : k ∈ Dict.keys a
  · obtain ⟨v, hv⟩ := (Dict.get?_isSome_iff a k).2 hm
    obtain ⟨w, hw⟩ := (Dict.get?_isSome_iff a' k).2 (hk ▸ hm)
    rw [hv, hw] at h ⊢
    simp only [Option.filter, he] at h
    cases hvn : v.isNull <;> cases hwn : w.isNull <;> simp [hvn, hwn] at h
    · rw [h]
    · rw [(Cls.isNull_iff v).1 hvn, (Cls.isNull_iff w).1 hwn]
  · rw [(Dict.get?_eq_none_iff a k).2 hm, (Dict.get?_eq_none_iff a' k).2 (hk ▸ hm)]

theorem optJ_inj {a b : Option Str} (h : (optJ a : JVal F) = optJ b) : a = b := by
  cases a <;> cases b <;> simp_all [optJ]

theorem Bone.toJson_same {b : Bool} {x y : Bone F} (h : x.toJson b = y.toJson b) (hx : Bone.Good x) (hy : Bone.Good y) :
    x.name = y.name ∧ x.parent = y.parent := by
  have ok := Cls.leafClasses_ok (boneCls (F := F)) (by simp [leafClasses])
  have hn : (Dict.keys x.attrs).Nodup := by rw [hx]; exact ok.nodup
  have hk : Dict.keys x.attrs = Dict.keys y.attrs := by rw [hx, hy]
  have e1 := Cls.get?_toJson h hn hk (k := s!!"name") (by cases b <;> rfl)
  have e2 := Cls.get?_toJson h hn hk (k := s!!"parent") (by cases b <;> rfl)
  simp [Bone.attrs, Dict.get?] at e1 e2
  exact ⟨e1, optJ_inj e2⟩

theorem Slot.toJson_inj {b : Bool} {x y : Slot F} (h : x.toJson b = y.toJson b) : x = y := by
  have ok := Cls.leafClasses_ok (slotCls (F := F)) (by simp [leafClasses])
  have hn : (Dict.keys x.attrs).Nodup := ok.nodup
  have hd : ∀ k, Dict.get? ((slotCls (F := F)).defaultsFor b) k = none := by intro k; cases b <;> rfl
  have g := fun k => Cls.get?_toJson h hn (a' := y.attrs) rfl (hd k)
  obtain ⟨n, bo, t, c, d, bl⟩ := x
  obtain ⟨n', bo', t', c', d', bl'⟩ := y
  have e1 := g s!!"name"
  have e2 := g s!!"bone"
  have e3 := g s!!"attachment"
  have e4 := g s!!"color"
  have e5 := g s!!"dark"
  have e6 := g s!!"blend"
  simp [Slot.attrs, Dict.get?] at e1 e2 e3 e4 e5 e6
  rw [e1, optJ_inj e2, optJ_inj e3, optJ_inj e4, e5, e6]

theorem Att.kindOf_toJson (b : Bool) {x : Att F} (hx : Att.Good x) :
    Att.kindOf (x.attrs.filter (fun p => (AttKind.cls x.kind).emits b p.1 p.2)) = .ok x.kind := by
  have ok := Cls.leafClasses_ok (AttKind.cls x.kind : Cls F) (AttKind.cls_mem _)
  have hn : (Dict.keys x.attrs).Nodup := by rw [hx.keys]; exact ok.nodup
  unfold Att.kindOf
  rw [Cls.get?_filter x.attrs ((AttKind.cls x.kind).emits b) hn]
  rcases hx.kind with h | ⟨h, ht⟩ | ⟨h, ht⟩ | ⟨h, ht⟩
  · have : Dict.get? x.attrs s!!"type" = none := by
      rw [Dict.get?_eq_none_iff, hx.keys, h]
      simp only [AttKind.cls, regionCls]
      decide
    rw [this, h]; rfl
  · rw [ht, h]; cases b <;> rfl
  · rw [ht, h]; cases b <;> rfl
  · rw [ht, h]; cases b <;> rfl

/-- the same picture in the same class -/
def Att.SamePic (x y : Att F) : Prop :=
  x.kind = y.kind ∧ Dict.get? x.attrs s!!"name" = Dict.get? y.attrs s!!"name" ∧ Dict.get? x.attrs s!!"path" = Dict.get? y.attrs s!!"path"

theorem Att.toJson_same {b : Bool} {x y : Att F} (h : x.toJson b = y.toJson b) (hx : Att.Good x) (hy : Att.Good y) : Att.SamePic x y := by
  have hk : x.kind = y.kind := by
    have e1 := Att.kindOf_toJson b hx
    have e2 := Att.kindOf_toJson b hy
    unfold Att.toJson Cls.toJson at h
    injection h with h
    rw [h, e2] at e1
    injection e1 with e1
    exact e1.symm
  have ok := Cls.leafClasses_ok (AttKind.cls x.kind : Cls F) (AttKind.cls_mem _)
  have hn : (Dict.keys x.attrs).Nodup := by rw [hx.keys]; exact ok.nodup
  have hks : Dict.keys x.attrs = Dict.keys y.attrs := by rw [hx.keys, hy.keys, hk]
  have h : (AttKind.cls x.kind).toJson b x.attrs = (AttKind.cls x.kind).toJson b y.attrs := by
    have : y.toJson b = (AttKind.cls x.kind).toJson b y.attrs := by rw [hk]; rfl
    rw [← this, ← h]; rfl
  exact ⟨hk, Cls.get?_toJson h hn hks (AttKind.no_default _ b _ (by simp)), Cls.get?_toJson h hn hks (AttKind.no_default _ b _ (by simp))⟩

theorem map_all₂ {α γ : Type} {f : α → γ} {l m : List α} (h : l.map f = m.map f) : All₂ (fun x y => f x = f y) l m := by
  induction l generalizing m with
  | nil => cases m with
    | nil => exact .nil
    | cons => simp at h
  | cons x l ih => cases m with
    | nil => simp at h
    | cons y m =>
      simp only [List.map_cons, List.cons.injEq] at h
      exact .cons h.1 (ih h.2)

/-- skins with the same pictures under the same keys -/
def Skin.SamePics (s t : Skin F) : Prop :=
  s.name = t.name ∧ All₂ (fun p q => p.1 = q.1 ∧ All₂ (fun u v => u.1 = v.1 ∧ Att.SamePic u.2 v.2) p.2 q.2) s.attachments t.attachments

theorem Skin.toJson_same {b : Bool} {s t : Skin F} (h : s.toJson b = t.toJson b) (hs : Skin.Good s) (ht : Skin.Good t) : Skin.SamePics s t := by
  unfold Skin.toJson at h
  injection h with h
  have hg : ∀ k, Dict.get? _ k = Dict.get? _ k := fun k => congrArg (fun d => Dict.get? d k) h
  have e1 := hg s!!"name"
  have e2 := hg s!!"attachments"
  clear hg h
  obtain ⟨n, a⟩ := s
  obtain ⟨n', a'⟩ := t
  simp only [get?_append] at e1 e2
  have hn : n = n' := by
    cases a <;> cases a' <;> cases n <;> cases n' <;> simp_all [Dict.get?]
  have ha : a.map (fun p => (p.1, JVal.dict (p.2.map (fun q => (q.1, q.2.toJson b))))) =
      a'.map (fun p => (p.1, JVal.dict (p.2.map (fun q => (q.1, q.2.toJson b))))) := by
    cases a <;> cases a' <;> cases n <;> cases n' <;> simp_all [Dict.get?]
  refine ⟨hn, (map_all₂ ha).mono' ?_⟩
  intro p q hp hq h
  simp only [Prod.mk.injEq, JVal.dict.injEq] at h
  refine ⟨h.1, (map_all₂ h.2).mono' ?_⟩
  intro u v hu hv h
  simp only [Prod.mk.injEq] at h
  exact ⟨h.1, Att.toJson_same h.2 (hs p hp u hu) (ht q hq v hv)⟩

/-! ### Image references -/

/-- the parts of a document that image references depend on -/
structure AnimData.SameRefs (x y : AnimData F) : Prop where
  bones : All₂ (fun a b => a.name = b.name ∧ a.parent = b.parent) x.bones y.bones
  slots : x.slots = y.slots
  skins : All₂ Skin.SamePics x.skins y.skins

theorem SpineDoc.toJson_same {s t : SpineDoc F} (h : s.toJson = t.toJson) (hv : s.version = t.version)
    (hb : ∀ y ∈ s.data.bones, Bone.Good y) (hs : ∀ y ∈ s.data.skins, Skin.Good y)
    (hb' : ∀ y ∈ t.data.bones, Bone.Good y) (ht : ∀ y ∈ t.data.skins, Skin.Good y) : AnimData.SameRefs s.data t.data := by
  obtain ⟨h1, h2, h3⟩ := SpineDoc.toJson_parts h hv
  refine ⟨(map_all₂ h1).mono' ?_, ?_, (map_all₂ h3).mono' ?_⟩
  · intro x y hx hy h; exact Bone.toJson_same h (hb x hx) (hb' y hy)
  · have := (map_all₂ h2).mono' (S := fun x y => x = y) (fun x y _ _ h => Slot.toJson_inj h)
    clear h2
    generalize s.data.slots = l at this
    generalize t.data.slots = m at this
    induction this with
    | nil => rfl
    | cons h _ ih => rw [h, ih]
  · intro x y hx hy h; exact Skin.toJson_same h (hs x hx) (ht y hy)

namespace AnimData
variable {x y : AnimData F}

/-- the same bone, or none in both documents -/
def BoneSame : Option (Bone F) → Option (Bone F) → Prop
  | none, none => True
  | some a, some b => a.name = b.name ∧ a.parent = b.parent
  | _, _ => False

theorem getBone_same (h : All₂ (fun a b : Bone F => a.name = b.name ∧ a.parent = b.parent) x.bones y.bones) (n : Option Str) : BoneSame (getBone x n) (getBone y n) := by
  unfold AnimData.getBone
  cases n with
  | none => trivial
  | some n =>
    simp only
    have := h
    generalize x.bones = l at this
    generalize y.bones = m at this
    induction this with
    | nil => trivial
    | @cons a b l m hr _ ih =>
      simp only [List.find?_cons, hr.1]
      split
      · exact hr
      · exact ih

theorem boneScaleLoop_same (h : All₂ (fun a b : Bone F => a.name = b.name ∧ a.parent = b.parent) x.bones y.bones) (k : Nat) (acc : F) (p q : Option (Bone F)) (hpq : BoneSame p q) :
    AnimData.boneScaleLoop x k acc p = AnimData.boneScaleLoop y k acc q := by
  induction k generalizing acc p q with
  | zero => rfl
  | succ k ih =>
    cases p with
    | none => cases q with
      | none => rfl
      | some b => cases hpq
    | some a => cases q with
      | none => cases hpq
      | some b =>
        obtain ⟨h1, h2⟩ := hpq
        simp only [AnimData.boneScaleLoop, h1, h2]
        split
        · rfl
        · split
          · rfl
          · exact ih _ _ _ (getBone_same h _)

theorem All₂.length_eq {α β : Type} {R : α → β → Prop} {l : List α} {m : List β} (h : All₂ R l m) : l.length = m.length := by
  induction h with
  | nil => rfl
  | cons _ _ ih => simp [ih]

theorem slotScale_same (h : All₂ (fun a b : Bone F => a.name = b.name ∧ a.parent = b.parent) x.bones y.bones) (s : Option (Slot F)) : AnimData.slotScale x s = AnimData.slotScale y s := by
  unfold AnimData.slotScale
  cases s with
  | none => rfl
  | some s =>
    simp only
    rw [All₂.length_eq h, boneScaleLoop_same h _ _ _ _ (getBone_same h s.bone)]

end AnimData

namespace Editor
variable {x y : AnimData F}

theorem foldE_all₂ {α β σ : Type} {R : α → β → Prop} {f : σ → α → Except Err σ} {g : σ → β → Except Err σ} {l : List α} {m : List β}
    (h : All₂ R l m) (hfg : ∀ acc a b, R a b → f acc a = g acc b) (acc : σ) : Graph.foldE f acc l = Graph.foldE g acc m := by
  induction h generalizing acc with
  | nil => rfl
  | cons hr _ ih =>
    simp only [Graph.foldE, hfg acc _ _ hr]
    split
    · first | exact ih _ | rfl
    · first | exact ih _ | rfl

theorem imageOf_same {k : Str} {u v : Att F} (h : Att.SamePic u v) : imageOf k u = imageOf k v := by
  unfold imageOf Att.strAttr
  rw [h.2.1, h.2.2]

theorem imagesReferences_same {s t : SpineDoc F} (hk : s.skeleton = t.skeleton) (hv : s.version = t.version)
    (h : AnimData.SameRefs s.data t.data) : imagesReferences s = imagesReferences t := by
  unfold imagesReferences
  rw [hk, hv]
  refine foldE_all₂ h.skins ?_ _
  intro acc a b hab
  unfold refSkin
  split
  · refine foldE_all₂ hab.2 ?_ _
    intro acc p q hpq
    unfold refSlot
    have e : AnimData.getSlot s.data p.1 = AnimData.getSlot t.data q.1 := by unfold AnimData.getSlot; rw [h.slots, hpq.1]
    rw [e, AnimData.slotScale_same h.bones]
    split
    · rfl
    · refine foldE_all₂ hpq.2 ?_ _
      intro acc u v huv
      unfold refStep
      rw [huv.2.1, huv.1, imageOf_same huv.2]
  · rfl

/-! ### Loading what was written -/

/-- the editor opened on the output of an editor: same output, same graph, same image references -/
theorem reload {e : Editor F} (hg : AnimData.Good e.doc.version.is38 e.data) (hs : ∀ y ∈ e.data.slots, Slot.Good y)
    (hb0 : e.data.bones ≠ []) (hs0 : e.data.slots ≠ [])
    (hv : ∃ v, Dict.get? e.doc.skeleton s!!"spine" = some (.str v) ∧ Version.mk? F v = .ok e.doc.version)
    {im : Dict (ImageRef F)} (him : imagesReferences e.doc = .ok im) {g : SGraph F} (hc : SpineNodes.create e.toJson = .ok g) :
    ∃ e', load e.toJson = .ok e' ∧ e'.toJson = e.toJson ∧ e'.graph = g ∧ e'.images = im := by
  obtain ⟨t, h1, h2, h3, h4⟩ := SpineDoc.rt e.doc hg hs hb0 hs0 hv
  obtain ⟨d, v, a, _, _, _, _, h5, h6⟩ := SpineDoc.load_ok h1
  have ha := AnimData.good_init (b := true) h5 (fun _ _ _ _ => .inl rfl)
  have hsame : AnimData.SameRefs e.doc.data t.data := by
    refine SpineDoc.toJson_same h2.symm h3.symm hg.bones hg.skins ?_ ?_
    · rw [h6]; exact good_map (G := Bone.Good) (fun _ => Bone.good_setDefaults _) ha.bones
    · rw [h6]; exact good_map (G := Skin.Good) (fun _ => Skin.good_setDefaults _) ha.skins
  have hi : imagesReferences t = .ok im := by rw [← imagesReferences_same h4.symm h3.symm hsame, him]
  refine ⟨⟨t, im, g⟩, ?_, h2, rfl, rfl⟩
  unfold load
  have h1' : SpineDoc.load e.toJson = .ok t := h1
  simp only [h1', hi, h2]
  have hc' : SpineNodes.create e.doc.toJson = .ok g := hc
  rw [hc']

end Editor
end Spine
