import Verif.Model.Data
import Verif.Lemmas.Leaf
/- Round trip of whole documents: serialise, parse, apply defaults, serialise again. -/
namespace Spine
open JVal
set_option linter.unusedSectionVars false
set_option linter.unusedSimpArgs false
variable {F : Type} [PyRt F]

/-- serialising and parsing an object accepted by `G` succeeds and, after defaults, serialises to the same text -/
def RT {α : Type} (init : JVal F → Except Err α) (sd : α → α) (js : α → JVal F) (G : α → Prop) : Prop :=
  ∀ x, G x → ∃ y, init (js x) = .ok y ∧ js (sd y) = js x

/-! ### Dictionaries put together from parts -/

theorem get?_append {α : Type} (a b : Dict α) (k : Str) : Dict.get? (a ++ b) k = (Dict.get? a k).or (Dict.get? b k) := by
  induction a with
  | nil => simp [Dict.get?]
  | cons p r ih =>
    obtain ⟨k', v⟩ := p
    simp only [List.cons_append, Dict.get?]
    split <;> simp [ih]

theorem get?_jl_same {α : Type} (k : Str) (f : α → JVal F) (l : List α) :
    Dict.get? (jl k f l) k = if l.isEmpty then none else some (.list (l.map f)) := by
  unfold jl; split <;> simp [Dict.get?]

theorem get?_jl_ne {α : Type} {k k' : Str} (h : k ≠ k') (f : α → JVal F) (l : List α) : Dict.get? (jl k f l) k' = none := by
  unfold jl; split <;> simp [Dict.get?, h]

theorem get?_jd_same {α : Type} (k : Str) (f : α → JVal F) (l : Dict α) :
    Dict.get? (jd k f l) k = if l.isEmpty then none else some (.dict (dmap f l)) := by
  unfold jd dmap; split <;> simp [Dict.get?]

theorem get?_jd_ne {α : Type} {k k' : Str} (h : k ≠ k') (f : α → JVal F) (l : Dict α) : Dict.get? (jd k f l) k' = none := by
  unfold jd; split <;> simp [Dict.get?, h]

theorem keys_append {α : Type} (a b : Dict α) : Dict.keys (a ++ b) = Dict.keys a ++ Dict.keys b := by simp [Dict.keys]

theorem mem_keys_jl {α : Type} {k x : Str} {f : α → JVal F} {l : List α} (h : x ∈ Dict.keys (jl k f l)) : x = k := by
  unfold jl at h; split at h <;> simp [Dict.keys] at h
  exact h

theorem mem_keys_jd {α : Type} {k x : Str} {f : α → JVal F} {l : Dict α} (h : x ∈ Dict.keys (jd k f l)) : x = k := by
  unfold jd at h; split at h <;> simp [Dict.keys] at h
  exact h

theorem jl_congr {α : Type} {k : Str} {f : α → JVal F} {l l' : List α} (h : l.map f = l'.map f) : jl k f l = jl k f l' := by
  have : l.isEmpty = l'.isEmpty := by
    cases l <;> cases l' <;> simp_all
  unfold jl; rw [this, h]

theorem jd_congr {α : Type} {k : Str} {f : α → JVal F} {l l' : Dict α} (h : dmap f l = dmap f l') : jd k f l = jd k f l' := by
  have : l.isEmpty = l'.isEmpty := by
    unfold dmap at h
    cases l <;> cases l' <;> simp_all
  unfold jd; unfold dmap at h; rw [this, h]

/-! ### Lists and dictionaries of objects -/

variable {α : Type} {init : JVal F → Except Err α} {sd : α → α} {js : α → JVal F} {G : α → Prop}

theorem RT.mapE (h : RT init sd js G) (l : List α) (hl : ∀ x ∈ l, G x) :
    ∃ ys, mapE init (l.map js) = .ok ys ∧ (ys.map sd).map js = l.map js := by
  induction l with
  | nil => exact ⟨[], rfl, rfl⟩
  | cons x r ih =>
    obtain ⟨y, h1, h2⟩ := h x (hl x (by simp))
    obtain ⟨ys, h3, h4⟩ := ih (fun z hz => hl z (by simp [hz]))
    refine ⟨y :: ys, ?_, ?_⟩
    · simp only [List.map_cons, Spine.mapE, h1, h3]
    · simp only [List.map_cons, h2, h4]

theorem RT.mapD (h : RT init sd js G) (d : Dict α) (hd : ∀ p ∈ d, G p.2) :
    ∃ e, mapD init (dmap js d) = .ok e ∧ dmap js (dmap sd e) = dmap js d := by
  induction d with
  | nil => exact ⟨[], rfl, rfl⟩
  | cons p r ih =>
    obtain ⟨k, x⟩ := p
    obtain ⟨y, h1, h2⟩ := h x (hd (k, x) (by simp))
    obtain ⟨ys, h3, h4⟩ := ih (fun z hz => hd z (by simp [hz]))
    refine ⟨(k, y) :: ys, ?_, ?_⟩
    · unfold Spine.mapD at h3 ⊢
      simp only [dmap, List.map_cons, Spine.mapE, h1] at h3 ⊢
      rw [h3]
    · simp only [dmap, List.map_cons, h2] at h4 ⊢
      rw [h4]

theorem getIter_of {β : Type} {d : Dict (JVal F)} {k : Str} {f : β → JVal F} {l : List β}
    (h : Dict.get? d k = if l.isEmpty then none else some (.list (l.map f))) : getIter d k = .ok (l.map f) := by
  unfold getIter
  rw [h]
  cases l <;> simp [iter]

theorem RT.getDict (h : RT init sd js G) {d : Dict (JVal F)} {k : Str} {l : Dict α} (hl : ∀ p ∈ l, G p.2)
    (hg : Dict.get? d k = if l.isEmpty then none else some (.dict (dmap js l))) :
    ∃ e, Anim.getDict d k init = .ok e ∧ dmap js (dmap sd e) = dmap js l := by
  unfold Anim.getDict
  rw [hg]
  cases l with
  | nil => exact ⟨[], rfl, rfl⟩
  | cons p r => exact h.mapD _ hl

theorem RT.list (h : RT init sd js G) : RT (fun v => (iter v).bind (Spine.mapE init)) (·.map sd) (fun l => .list (l.map js))
    (fun l => ∀ x ∈ l, G x) := by
  intro l hl
  obtain ⟨ys, h1, h2⟩ := h.mapE l hl
  exact ⟨ys, by simpa [iter, Except.bind] using h1, by simp [← h2]⟩

theorem RT.dict (h : RT init sd js G) : RT (fun v => (itemsOf v).bind (Spine.mapD init)) (dmap sd) (fun l => .dict (dmap js l))
    (fun l => ∀ p ∈ l, G p.2) := by
  intro l hl
  obtain ⟨ys, h1, h2⟩ := h.mapD l hl
  exact ⟨ys, by simpa [itemsOf, Except.bind] using h1, by simp [← h2]⟩

/-! ### Leaf classes -/

theorem Cls.rt (c : Cls F) (hc : c ∈ leafClasses) (hr : c.required = []) (b : Bool) :
    RT c.init (c.setDefaults b) (c.toJson b) (fun a => Dict.keys a = c.attrs) := by
  intro a ha
  have ok := Cls.leafClasses_ok c hc
  exact ⟨_, Cls.init_toJson ok b a ha (by rw [hr]; simp), Cls.toJson_stable ok b a⟩

/-- splitting the fields kept apart off the parsed attributes -/
theorem without_cons {ks : List Str} {p : Str × JVal F} {r : Attrs F} (h : p.1 ∈ ks) :
    Attrs.without (p :: r) ks = Attrs.without r ks := by
  simp [Attrs.without, h]

theorem without_self {ks : List Str} {r : Attrs F} (h : ∀ k ∈ Dict.keys r, k ∉ ks) : Attrs.without r ks = r := by
  unfold Attrs.without
  rw [List.filter_eq_self]
  intro p hp
  simpa using h p.1 (List.mem_map_of_mem hp)

theorem strip_name (c : Cls F) (b : Bool) (k : Str) (s : Str)
    (h : Dict.get? (c.defaultsFor b) k = none ∨ Dict.get? (c.defaultsFor b) k = some .null) :
    Cls.strip c b k (.str s) = .str s := by
  rcases h with h | h <;> simp [Cls.strip, Cls.emits, h, isNull, pyEq]

theorem strip_null (c : Cls F) (b : Bool) (k : Str) : Cls.strip c b k .null = .null := by
  unfold Cls.strip; split <;> rfl

theorem strip_optJ (c : Cls F) (b : Bool) (k : Str) (s : Option Str)
    (h : Dict.get? (c.defaultsFor b) k = none ∨ Dict.get? (c.defaultsFor b) k = some .null) :
    Cls.strip c b k (optJ s) = optJ s := by
  cases s with
  | none => exact strip_null c b k
  | some s => exact strip_name c b k s h

theorem optStr_str (s : Str) : optStr (.str s : JVal F) = .ok (some s) := rfl
theorem optStr_optJ (s : Option Str) : optStr (optJ s : JVal F) = .ok s := by cases s <;> rfl

def Bone.Good (x : Bone F) : Prop := Dict.keys x.attrs = (boneCls (F := F)).attrs

theorem Bone.rt (b : Bool) : RT (Bone.init (F := F)) (·.setDefaults b) (·.toJson b) Bone.Good := by
  intro x hx
  have ok := Cls.leafClasses_ok (boneCls (F := F)) (by simp [leafClasses])
  have hi := Cls.init_toJson ok b x.attrs hx (by
    intro k hk v hv
    simp only [boneCls, List.mem_cons, List.not_mem_nil, or_false] at hk
    subst hk
    simp [Bone.attrs, Dict.get?] at hv
    subst hv; simp)
  have hs := Cls.toJson_stable ok b x.attrs
  have hrest : ∀ k ∈ Dict.keys x.rest, k ∉ [s!!"name", s!!"parent"] := by
    intro k hk hm
    have hn : (Dict.keys x.attrs).Nodup := by rw [hx]; exact ok.nodup
    simp only [Bone.attrs, Dict.keys, List.map_cons, List.nodup_cons, List.mem_cons, not_or] at hn hk
    simp only [List.mem_cons, List.not_mem_nil, or_false] at hm
    rcases hm with h | h <;> subst h
    · exact hn.1.2 hk
    · exact hn.2.1 hk
  have hd1 : Dict.get? ((boneCls (F := F)).defaultsFor b) s!!"name" = none := by cases b <;> rfl
  have hd2 : Dict.get? ((boneCls (F := F)).defaultsFor b) s!!"parent" = none := by cases b <;> rfl
  have e : x.attrs.map (fun p => (p.1, Cls.strip boneCls b p.1 p.2)) =
      (s!!"name", .str x.name) :: (s!!"parent", optJ x.parent) :: x.rest.map (fun p => (p.1, Cls.strip boneCls b p.1 p.2)) := by
    simp only [Bone.attrs, List.map_cons, strip_name _ _ _ _ (.inl hd1), strip_optJ _ _ _ _ (.inl hd2)]
  refine ⟨⟨x.name, x.parent, x.rest.map (fun p => (p.1, Cls.strip boneCls b p.1 p.2))⟩, ?_, ?_⟩
  · unfold Bone.init Bone.toJson
    rw [hi, e]
    have hw : Attrs.without (x.rest.map (fun p => (p.1, Cls.strip boneCls b p.1 p.2))) [s!!"name", s!!"parent"] =
        x.rest.map (fun p => (p.1, Cls.strip boneCls b p.1 p.2)) := by
      apply without_self
      rw [Cls.keys_map x.rest (Cls.strip boneCls b)]
      exact hrest
    simp only [bind, Except.bind, Attrs.val, Dict.get?]
    rw [without_cons (by simp), without_cons (by simp), hw]
    simp [optStr_str, optStr_optJ]
    rfl
  · show boneCls.toJson b _ = boneCls.toJson b x.attrs
    rw [← hs, e]
    simp only [Bone.attrs, Bone.setDefaults, Cls.setDefaults_eq, List.map_cons]
    congr 3
    cases x.parent <;> simp [optJ, Cls.dflt, hd2]

def Slot.Good (x : Slot F) : Prop := x.bone ≠ none

theorem Slot.init_toJson (b : Bool) (x : Slot F) (hx : Slot.Good x) : Slot.init (x.toJson b) = .ok x := by
  have ok := Cls.leafClasses_ok (slotCls (F := F)) (by simp [leafClasses])
  have hd : ∀ k, Dict.get? ((slotCls (F := F)).defaultsFor b) k = none := by intro k; cases b <;> rfl
  have hi := Cls.init_toJson ok b x.attrs rfl (by
    intro k hk v hv
    simp only [slotCls, List.mem_cons, List.not_mem_nil, or_false] at hk
    rcases hk with rfl | rfl
    · simp [Slot.attrs, Dict.get?] at hv
      subst hv; simp
    · simp [Slot.attrs, Dict.get?] at hv
      subst hv
      cases hb : x.bone with
      | none => exact absurd hb hx
      | some n => simp [optJ])
  have hst : ∀ k v, Cls.strip (slotCls (F := F)) b k v = v := by
    intro k v
    cases v <;> simp [Cls.strip, Cls.emits, hd, isNull]
  show Slot.init (slotCls.toJson b x.attrs) = _
  unfold Slot.init
  rw [hi]
  simp only [hst]
  simp only [bind, Except.bind, Attrs.val, Slot.attrs, List.map_cons, List.map_nil, Dict.get?]
  simp [optStr_str, optStr_optJ]
  rfl

theorem Slot.rt (b : Bool) : RT (Slot.init (F := F)) (fun x => x) (·.toJson b) Slot.Good :=
  fun x hx => ⟨x, Slot.init_toJson b x hx, rfl⟩

def SlotKf.Good (x : SlotKf F) : Prop := Dict.keys x.attrs = (slotKeyframeCls (F := F)).attrs

theorem SlotKf.rt (b : Bool) : RT (SlotKf.init (F := F)) (·.setDefaults b) (·.toJson b) SlotKf.Good := by
  intro x hx
  have ok := Cls.leafClasses_ok (slotKeyframeCls (F := F)) (by simp [leafClasses])
  have hi := Cls.init_toJson ok b x.attrs hx (by simp [slotKeyframeCls])
  have hs := Cls.toJson_stable ok b x.attrs
  have hrest : ∀ k ∈ Dict.keys x.rest, k ∉ [s!!"name"] := by
    intro k hk hm
    have hn : (Dict.keys x.attrs).Nodup := by rw [hx]; exact ok.nodup
    simp only [SlotKf.attrs, Dict.keys, List.map_cons, List.nodup_cons] at hn hk
    simp only [List.mem_cons, List.not_mem_nil, or_false] at hm
    subst hm
    exact hn.1 hk
  have hd1 : Dict.get? ((slotKeyframeCls (F := F)).defaultsFor b) s!!"name" = some .null := by cases b <;> rfl
  have e : x.attrs.map (fun p => (p.1, Cls.strip slotKeyframeCls b p.1 p.2)) =
      (s!!"name", optJ x.name) :: x.rest.map (fun p => (p.1, Cls.strip slotKeyframeCls b p.1 p.2)) := by
    simp only [SlotKf.attrs, List.map_cons, strip_optJ _ _ _ _ (.inr hd1)]
  refine ⟨⟨x.name, x.rest.map (fun p => (p.1, Cls.strip slotKeyframeCls b p.1 p.2))⟩, ?_, ?_⟩
  · show SlotKf.init (slotKeyframeCls.toJson b x.attrs) = _
    unfold SlotKf.init
    rw [hi, e]
    have hw : Attrs.without (x.rest.map (fun p => (p.1, Cls.strip slotKeyframeCls b p.1 p.2))) [s!!"name"] =
        x.rest.map (fun p => (p.1, Cls.strip slotKeyframeCls b p.1 p.2)) := by
      apply without_self
      rw [Cls.keys_map x.rest (Cls.strip slotKeyframeCls b)]
      exact hrest
    simp only [bind, Except.bind, Attrs.val, Dict.get?]
    rw [without_cons (by simp), hw]
    simp [optStr_optJ]
    rfl
  · show slotKeyframeCls.toJson b _ = slotKeyframeCls.toJson b x.attrs
    rw [← hs, e]
    simp only [SlotKf.attrs, SlotKf.setDefaults, Cls.setDefaults_eq, List.map_cons]
    congr 3
    cases x.name <;> simp [optJ, Cls.dflt, hd1]

/-- an attachment as loaded: attributes of its class, consistent type, textual name and path -/
structure Att.Good (x : Att F) : Prop where
  keys : Dict.keys x.attrs = (AttKind.cls x.kind : Cls F).attrs
  typed : Att.typed x.attrs = true
  kind : (x.kind = .region) ∨ (x.kind = .mesh ∧ Dict.get? x.attrs s!!"type" = some (.str s!!"mesh")) ∨
    (x.kind = .linked ∧ Dict.get? x.attrs s!!"type" = some (.str s!!"linkedmesh")) ∨
    (x.kind = .path ∧ Dict.get? x.attrs s!!"type" = some (.str s!!"path"))

theorem AttKind.cls_mem (k : AttKind) : (AttKind.cls k : Cls F) ∈ leafClasses := by
  cases k <;> simp [AttKind.cls, leafClasses]

theorem Att.typed_strip (c : Cls F) (b : Bool) (a : Attrs F) (h : Att.typed a = true) :
    Att.typed (a.map (fun p => (p.1, Cls.strip c b p.1 p.2))) = true := by
  unfold Att.typed at h ⊢
  rw [List.all_eq_true] at h ⊢
  intro k hk
  have h := h k hk
  rw [Cls.get?_map a (Cls.strip c b)]
  cases hg : Dict.get? a k with
  | none => simp
  | some v =>
    rw [hg] at h
    simp only [Option.map_some, Cls.strip]
    split
    · rename_i e; cases e
    · rfl
    · rfl
    · rename_i w h1 h2 e
      split at e
      · injection e with e
        cases v with
        | null => exact absurd e.symm (by simpa using h1)
        | str s => exact absurd e.symm (by simpa using h2 s)
        | _ => simp at h
      · injection e with e; exact absurd e.symm (by simpa using h1)

theorem Att.rt (b : Bool) : RT (Att.init (F := F)) (·.setDefaults b) (·.toJson b) Att.Good := by
  intro x hx
  have ok := Cls.leafClasses_ok (AttKind.cls x.kind : Cls F) (AttKind.cls_mem _)
  have hr : (AttKind.cls x.kind : Cls F).required = [] := by cases x.kind <;> rfl
  have hi := Cls.init_toJson ok b x.attrs hx.keys (by rw [hr]; simp)
  have hs := Cls.toJson_stable ok b x.attrs
  refine ⟨⟨x.kind, x.attrs.map (fun p => (p.1, Cls.strip (AttKind.cls x.kind) b p.1 p.2))⟩, ?_, ?_⟩
  rotate_left
  · exact hs
  have hn : (Dict.keys x.attrs).Nodup := by rw [hx.keys]; exact ok.nodup
  have hk : Att.kindOf (x.attrs.filter (fun p => (AttKind.cls x.kind).emits b p.1 p.2)) = .ok x.kind := by
    unfold Att.kindOf
    rw [Cls.get?_filter x.attrs ((AttKind.cls x.kind).emits b) hn]
    rcases hx.kind with h | ⟨h, ht⟩ | ⟨h, ht⟩ | ⟨h, ht⟩
    · have : Dict.get? x.attrs s!!"type" = none := by
        rw [Dict.get?_eq_none_iff, hx.keys, h]
        simp only [AttKind.cls, regionCls]
        decide
      rw [this, h]; rfl
    · rw [ht, h]; cases b <;> rfl
    · rw [ht, h]; cases b <;> rfl
    · rw [ht, h]; cases b <;> rfl
  show Att.init ((AttKind.cls x.kind).toJson b x.attrs) = _
  unfold Cls.toJson at hi ⊢
  simp only [Att.init, hk, hi, bind, Except.bind]
  rw [if_pos (Att.typed_strip _ b _ hx.typed)]
  rfl

theorem offset_rt (b : Bool) : RT (offsetInit (F := F)) (fun x => x) (offsetToJson b) (fun _ => True) := by
  intro x _
  have ok := Cls.leafClasses_ok (offsetCls (F := F)) (by simp [leafClasses])
  have hi := Cls.init_toJson ok b [(s!!"slot", .str x.1), (s!!"offset", .int x.2)] rfl (by
    intro k hk v hv
    simp only [offsetCls, List.mem_cons, List.not_mem_nil, or_false] at hk
    subst hk
    simp [Dict.get?] at hv
    subst hv; simp)
  refine ⟨x, ?_, rfl⟩
  unfold offsetInit offsetToJson
  rw [hi]
  have hd : Dict.get? ((offsetCls (F := F)).defaultsFor b) s!!"slot" = some (.str []) := by cases b <;> rfl
  have hd2 : Dict.get? ((offsetCls (F := F)).defaultsFor b) s!!"offset" = none := by cases b <;> rfl
  obtain ⟨s, i⟩ := x
  simp only [List.map_cons, List.map_nil, Cls.strip, Cls.emits, hd, hd2, isNull, pyEq]
  cases s with
  | nil => rfl
  | cons c r => rfl

/-! ### Composite classes -/

def SlotTl.Good (t : SlotTl F) : Prop :=
  (∀ x ∈ t.attachment, SlotKf.Good x) ∧ (∀ x ∈ t.color, SlotKf.Good x) ∧ ∀ x ∈ t.twoColor, SlotKf.Good x

theorem orDict_dict (d : Dict (JVal F)) : orDict (.dict d) = .ok d := by
  cases d <;> rfl

theorem SlotTl.rt (b : Bool) : RT (SlotTl.init (F := F)) (·.setDefaults b) (·.toJson b) SlotTl.Good := by
  intro x ⟨g1, g2, g3⟩
  obtain ⟨y1, a1, b1⟩ := (SlotKf.rt b).mapE x.attachment g1
  obtain ⟨y2, a2, b2⟩ := (SlotKf.rt b).mapE x.color g2
  obtain ⟨y3, a3, b3⟩ := (SlotKf.rt b).mapE x.twoColor g3
  refine ⟨⟨y1, y2, y3⟩, ?_, ?_⟩
  · show SlotTl.init (SlotTl.toJson b x) = _
    unfold SlotTl.init SlotTl.toJson
    rw [orDict_dict]
    simp only [bind, Except.bind]
    rw [getIter_of (l := x.attachment) (f := (·.toJson b)), getIter_of (l := x.color) (f := (·.toJson b)),
      getIter_of (l := x.twoColor) (f := (·.toJson b))]
    · simp only [a1, a2, a3]
      rw [Cls.check_ok]
      · rfl
      · intro k hk
        simp only [keys_append, List.mem_append] at hk
        rcases hk with (h | h) | h <;> rw [mem_keys_jl h] <;> simp
      · simp
    all_goals simp [get?_append, get?_jl_same, get?_jl_ne]
  · show SlotTl.toJson b _ = SlotTl.toJson b x
    unfold SlotTl.toJson SlotTl.setDefaults
    simp only [jl_congr b1, jl_congr b2, jl_congr b3]

/-- keyframes of a leaf class as loaded -/
def KeysOf (c : Cls F) (l : List (Attrs F)) : Prop := ∀ a ∈ l, Dict.keys a = c.attrs

def BoneTl.Good (t : BoneTl F) : Prop :=
  KeysOf boneRotateCls t.rotate ∧ KeysOf boneTranslateCls t.translate ∧ KeysOf boneRotateCls t.scale ∧
    KeysOf boneTranslateCls t.shear

theorem BoneTl.rt (b : Bool) : RT (BoneTl.init (F := F)) (·.setDefaults b) (·.toJson b) BoneTl.Good := by
  intro x ⟨g1, g2, g3, g4⟩
  have r1 := Cls.rt (boneRotateCls (F := F)) (by simp [leafClasses]) rfl b
  have r2 := Cls.rt (boneTranslateCls (F := F)) (by simp [leafClasses]) rfl b
  obtain ⟨y1, a1, b1⟩ := r1.mapE x.rotate g1
  obtain ⟨y2, a2, b2⟩ := r2.mapE x.translate g2
  obtain ⟨y3, a3, b3⟩ := r1.mapE x.scale g3
  obtain ⟨y4, a4, b4⟩ := r2.mapE x.shear g4
  refine ⟨⟨y1, y2, y3, y4⟩, ?_, ?_⟩
  · show BoneTl.init (BoneTl.toJson b x) = _
    unfold BoneTl.init BoneTl.toJson
    rw [orDict_dict]
    simp only [bind, Except.bind]
    rw [getIter_of (l := x.rotate) (f := boneRotateCls.toJson b), getIter_of (l := x.translate) (f := boneTranslateCls.toJson b),
      getIter_of (l := x.scale) (f := boneRotateCls.toJson b), getIter_of (l := x.shear) (f := boneTranslateCls.toJson b)]
    · simp only [a1, a2, a3, a4]
      rw [Cls.check_ok]
      · rfl
      · intro k hk
        simp only [keys_append, List.mem_append] at hk
        rcases hk with ((h | h) | h) | h <;> rw [mem_keys_jl h] <;> simp
      · simp
    all_goals simp [get?_append, get?_jl_same, get?_jl_ne]
  · show BoneTl.toJson b _ = BoneTl.toJson b x
    unfold BoneTl.toJson BoneTl.setDefaults
    simp only [jl_congr b1, jl_congr b2, jl_congr b3, jl_congr b4]

/-- before 3.8 a null time is dropped but an absent time is read as 0 -/
def DrawTl.Good (b : Bool) (t : DrawTl F) : Prop := b = true ∨ t.time ≠ .null

theorem DrawTl.rt (b : Bool) : RT (DrawTl.init (F := F)) (·.setDefaults b) (·.toJson b) (DrawTl.Good b) := by
  intro x g
  obtain ⟨y, a1, b1⟩ := (offset_rt (F := F) b).mapE x.offsets (fun _ _ => trivial)
  have b1 : y.map (offsetToJson (F := F) b) = x.offsets.map (offsetToJson b) := by simpa using b1
  let d : Dict (JVal F) := (if (drawCls (F := F)).emits b s!!"time" x.time then [(s!!"time", x.time)] else []) ++
    [(s!!"offsets", .list (x.offsets.map (offsetToJson b)))]
  have hj : x.toJson b = .dict d := rfl
  have ho : getIter d s!!"offsets" = .ok (x.offsets.map (offsetToJson b)) := by
    have : Dict.get? d s!!"offsets" = some (.list (x.offsets.map (offsetToJson b))) := by
      show Dict.get? ((if (drawCls (F := F)).emits b s!!"time" x.time then [(s!!"time", x.time)] else []) ++ _) _ = _
      split <;> simp [Dict.get?]
    unfold getIter
    rw [this]; rfl
  have hk : Cls.check [s!!"time", s!!"offsets"] [] d = .ok () := by
    apply Cls.check_ok
    · show ∀ k ∈ Dict.keys ((if (drawCls (F := F)).emits b s!!"time" x.time then [(s!!"time", x.time)] else []) ++ _), _
      split <;> simp [Dict.keys]
    · simp
  refine ⟨⟨(Dict.get? d s!!"time").getD (.int 0), y⟩, ?_, ?_⟩
  · show DrawTl.init (x.toJson b) = _
    rw [hj]
    unfold DrawTl.init
    rw [orDict_dict]
    simp only [bind, Except.bind, ho, a1, hk]
    rfl
  · have ht : Dict.get? d s!!"time" = if (drawCls (F := F)).emits b s!!"time" x.time then some x.time else none := by
      show Dict.get? ((if (drawCls (F := F)).emits b s!!"time" x.time then [(s!!"time", x.time)] else []) ++ _) _ = _
      split <;> simp [Dict.get?]
    rw [ht]
    show DrawTl.toJson b _ = DrawTl.toJson b x
    have key : ∃ t, ((drawCls (F := F)).setDefaults b
        [(s!!"time", (if (drawCls (F := F)).emits b s!!"time" x.time then some x.time else none).getD (.int 0))]).val s!!"time" = t ∧
        (drawCls (F := F)).emits b s!!"time" t = (drawCls (F := F)).emits b s!!"time" x.time ∧
        ((drawCls (F := F)).emits b s!!"time" x.time = true → t = x.time) := by
      refine ⟨_, rfl, ?_⟩
      cases b with
      | true =>
        have hd : Dict.get? ((drawCls (F := F)).defaultsFor true) s!!"time" = some (.int 0) := rfl
        cases he : (drawCls (F := F)).emits true s!!"time" x.time with
        | true =>
          simp only [if_true, Option.getD_some]
          have : x.time ≠ .null := by
            intro h
            rw [h] at he
            simp [Cls.emits, hd, isNull] at he
          have e : ((drawCls (F := F)).setDefaults true [(s!!"time", x.time)]).val s!!"time" = x.time := by
            cases h : x.time with
            | null => exact absurd h this
            | _ => rfl
          rw [e]
          exact ⟨he, fun _ => rfl⟩
        | false =>
          simp only [Bool.false_eq_true, if_false, Option.getD_none]
          exact ⟨rfl, fun h => by cases h⟩
      | false =>
        have hnn : x.time ≠ .null := by
          rcases g with h | h
          · cases h
          · exact h
        have hd : Dict.get? ((drawCls (F := F)).defaultsFor false) s!!"time" = none := rfl
        have he : (drawCls (F := F)).emits false s!!"time" x.time = true := by
          unfold Cls.emits
          rw [hd]
          cases h : x.time with
          | null => exact absurd h hnn
          | _ => rfl
        simp only [he, if_true, Option.getD_some]
        have e : ((drawCls (F := F)).setDefaults false [(s!!"time", x.time)]).val s!!"time" = x.time := by
          cases h : x.time with
          | null => exact absurd h hnn
          | _ => rfl
        rw [e]
        exact ⟨he, fun _ => rfl⟩
    obtain ⟨t, h1, h2, h3⟩ := key
    unfold DrawTl.toJson DrawTl.setDefaults
    simp only [h1, h2, b1]
    cases he : (drawCls (F := F)).emits b s!!"time" x.time with
    | true => rw [h3 he]
    | false => rfl

theorem listOf_rt (c : Cls F) (hc : c ∈ leafClasses) (hr : c.required = []) (b : Bool) :
    RT (Anim.listOf c) (·.map (c.setDefaults b)) (Anim.jlist c b) (KeysOf c) := (Cls.rt c hc hr b).list

/-- an animation as loaded -/
structure Anim.Good (b : Bool) (x : Anim F) : Prop where
  ik : ∀ p ∈ x.ik, KeysOf ikTimelineCls p.2
  drawOrder : ∀ t ∈ x.drawOrder, DrawTl.Good b t
  bones : ∀ p ∈ x.bones, BoneTl.Good p.2
  slots : ∀ p ∈ x.slots, SlotTl.Good p.2
  events : KeysOf eventTimelineCls x.events
  transform : ∀ p ∈ x.transform, KeysOf transformTimelineCls p.2
  path : ∀ p ∈ x.path, ∀ q ∈ p.2, KeysOf pathTimelineCls q.2
  deform : ∀ p ∈ x.deform, ∀ q ∈ p.2, ∀ r ∈ q.2, KeysOf deformCls r.2

theorem Anim.parse_of {α : Type} {f : JVal F → Except Err (Dict α)} {g : α → JVal F} {d : Dict (JVal F)} {k : Str} {l : Dict α}
    {y : Dict α} (h : f (.dict (dmap g l)) = .ok y)
    (hg : Dict.get? d k = if l.isEmpty then none else some (.dict (dmap g l))) :
    f ((Dict.get? d k).getD (.dict [])) = .ok y := by
  rw [hg]
  cases l with
  | nil => simp only [dmap, List.map_nil] at h; simpa using h
  | cons p r => simpa using h

theorem Anim.rt (b : Bool) : RT (Anim.init (F := F)) (·.setDefaults b) (·.toJson b) (Anim.Good b) := by
  intro x g
  have rik := listOf_rt (ikTimelineCls (F := F)) (by simp [leafClasses]) rfl b
  have rtr := listOf_rt (transformTimelineCls (F := F)) (by simp [leafClasses]) rfl b
  have rev := Cls.rt (eventTimelineCls (F := F)) (by simp [leafClasses]) rfl b
  have rpa := (listOf_rt (pathTimelineCls (F := F)) (by simp [leafClasses]) rfl b).dict
  have rde := (listOf_rt (deformCls (F := F)) (by simp [leafClasses]) rfl b).dict.dict
  let d : Dict (JVal F) := jd s!!"ik" (jlist ikTimelineCls b) x.ik ++ jl s!!"drawOrder" (·.toJson b) x.drawOrder ++
    jd s!!"bones" (·.toJson b) x.bones ++ jd s!!"slots" (·.toJson b) x.slots ++
    jl s!!"events" (eventTimelineCls.toJson b) x.events ++ jd s!!"transform" (jlist transformTimelineCls b) x.transform ++
    jd s!!"path" (jdict pathTimelineCls b) x.path ++
    jd s!!"deform" (fun d => .dict (dmap (jdict deformCls b) d)) x.deform
  have hj : x.toJson b = .dict d := rfl
  obtain ⟨y1, a1, b1⟩ := rik.getDict (d := d) (k := s!!"ik") g.ik
    (by simp [d, get?_append, get?_jl_same, get?_jl_ne, get?_jd_same, get?_jd_ne])
  obtain ⟨y2, a2, b2⟩ := (DrawTl.rt b).mapE x.drawOrder g.drawOrder
  obtain ⟨y3, a3, b3⟩ := (BoneTl.rt b).getDict (d := d) (k := s!!"bones") g.bones
    (by simp [d, get?_append, get?_jl_same, get?_jl_ne, get?_jd_same, get?_jd_ne])
  obtain ⟨y4, a4, b4⟩ := (SlotTl.rt b).getDict (d := d) (k := s!!"slots") g.slots
    (by simp [d, get?_append, get?_jl_same, get?_jl_ne, get?_jd_same, get?_jd_ne])
  obtain ⟨y5, a5, b5⟩ := rev.mapE x.events g.events
  obtain ⟨y6, a6, b6⟩ := rtr.getDict (d := d) (k := s!!"transform") g.transform
    (by simp [d, get?_append, get?_jl_same, get?_jl_ne, get?_jd_same, get?_jd_ne])
  obtain ⟨y7, a7, b7⟩ := rpa.dict x.path g.path
  obtain ⟨y8, a8, b8⟩ := rde.dict x.deform g.deform
  have p7 : parsePath ((Dict.get? d s!!"path").getD (.dict [])) = .ok y7 := by
    refine Anim.parse_of (f := parsePath) (g := jdict pathTimelineCls b) (l := x.path) a7 ?_
    simp [d, get?_append, get?_jl_same, get?_jl_ne, get?_jd_same, get?_jd_ne]
  have p8 : parseDeform ((Dict.get? d s!!"deform").getD (.dict [])) = .ok y8 := by
    refine Anim.parse_of (f := parseDeform) (g := fun d => .dict (dmap (jdict deformCls b) d)) (l := x.deform) a8 ?_
    simp [d, get?_append, get?_jl_same, get?_jl_ne, get?_jd_same, get?_jd_ne]
  have i2 : getIter d s!!"drawOrder" = .ok (x.drawOrder.map (·.toJson b)) := by
    apply getIter_of
    simp [d, get?_append, get?_jl_same, get?_jl_ne, get?_jd_same, get?_jd_ne]
  have i5 : getIter d s!!"events" = .ok (x.events.map (eventTimelineCls.toJson b)) := by
    apply getIter_of
    simp [d, get?_append, get?_jl_same, get?_jl_ne, get?_jd_same, get?_jd_ne]
  have hk : Cls.check known [] d = .ok () := by
    apply Cls.check_ok
    · intro k hk
      simp only [d, keys_append, List.mem_append] at hk
      rcases hk with ((((((h | h) | h) | h) | h) | h) | h) | h <;>
        first
        | (rw [mem_keys_jl h]; simp [known])
        | (rw [mem_keys_jd h]; simp [known])
    · simp
  refine ⟨⟨y1, y2, y3, y4, y5, y6, y7, y8⟩, ?_, ?_⟩
  · show Anim.init (x.toJson b) = _
    rw [hj]
    unfold Anim.init
    rw [orDict_dict]
    simp only [bind, Except.bind, a1, i2, a2, a3, a4, i5, a5, a6, p7, p8, hk]
    rfl
  · show Anim.toJson b _ = Anim.toJson b x
    unfold Anim.toJson Anim.setDefaults
    have b7 : dmap (jdict pathTimelineCls b) (dmap (dmap (·.map (pathTimelineCls.setDefaults b))) y7) =
        dmap (jdict pathTimelineCls b) x.path := by injection b7
    have b8 : dmap (fun d => JVal.dict (dmap (jdict deformCls b) d)) (dmap (dmap (dmap (·.map (deformCls.setDefaults b)))) y8) =
        dmap (fun d => JVal.dict (dmap (jdict deformCls b) d)) x.deform := by injection b8
    simp only [jd_congr b1, jl_congr b2, jd_congr b3, jd_congr b4, jl_congr b5, jd_congr b6, jd_congr b7, jd_congr b8]

def Skin.Good (x : Skin F) : Prop := ∀ p ∈ x.attachments, ∀ q ∈ p.2, Att.Good q.2

theorem Skin.level_rt {α : Type} {init : JVal F → Except Err α} {sd : α → α} {js : α → JVal F} {G : α → Prop}
    (h : RT init sd js G) : RT (fun v => (Skin.level v).bind (Spine.mapD init)) (dmap sd) (fun l => .dict (dmap js l))
    (fun l => ∀ p ∈ l, G p.2) := by
  intro l hl
  obtain ⟨ys, h1, h2⟩ := h.mapD l hl
  exact ⟨ys, by simpa [Skin.level, Except.bind] using h1, by simp [← h2]⟩

theorem Skin.rt (b : Bool) : RT (Skin.init (F := F)) (·.setDefaults b) (·.toJson b) Skin.Good := by
  intro x g
  obtain ⟨y, a1, b1⟩ := (Skin.level_rt (Skin.level_rt (Att.rt b))) x.attachments g
  have a1 : Skin.parseAttachments (.dict (x.attachments.map (fun p => (p.1, .dict (p.2.map (fun q => (q.1, q.2.toJson b))))))) =
    .ok y := a1
  have b1 : y.map (fun p => (p.1, JVal.dict (p.2.map (fun q => (q.1, (q.2.setDefaults b).toJson b))))) =
      x.attachments.map (fun p => (p.1, .dict (p.2.map (fun q => (q.1, q.2.toJson b))))) := by
    injection b1 with b1
    simpa [dmap, Function.comp_def] using b1
  refine ⟨⟨x.name, y⟩, ?_, ?_⟩
  · show Skin.init (x.toJson b) = _
    unfold Skin.init Skin.toJson
    rw [orDict_dict]
    simp only [bind, Except.bind]
    rw [Cls.check_ok]
    · obtain ⟨n, at'⟩ := x
      cases n <;> cases at' with
      | nil =>
        simp only [Skin.parseAttachments, Skin.level, bind, Except.bind, mapD, List.map_nil, mapE, Except.ok.injEq] at a1
        subst a1
        simp [Dict.get?, optStr]
        rfl
      | cons p r =>
        simp only [List.map_cons] at a1
        simp [Dict.get?, optStr, a1]
        rfl
    · intro k hk
      simp only [keys_append, List.mem_append] at hk
      rcases hk with h | h
      · split at h
        · simp [Dict.keys] at h
        · simp [Dict.keys] at h; simp [h]
      · split at h
        · simp [Dict.keys] at h
        · simp [Dict.keys] at h; simp [h]
    · simp
  · show Skin.toJson b _ = Skin.toJson b x
    unfold Skin.toJson Skin.setDefaults
    simp only [List.map_map, Function.comp_def, b1]
    have he : (List.map (fun p => (p.1, List.map (fun q => (q.1, q.2.setDefaults b)) p.2)) y = []) ↔ x.attachments = [] := by
      have := congrArg List.length b1
      simp only [List.length_map] at this
      rw [← List.length_eq_zero_iff, ← List.length_eq_zero_iff, List.length_map, this]
    by_cases h : x.attachments = []
    · simp [h, he.2 h]
    · have : ¬ (List.map (fun p => (p.1, List.map (fun q => (q.1, q.2.setDefaults b)) p.2)) y = []) := fun e => h (he.1 e)
      simp only [h, this, if_false]

/-- a document as loaded -/
structure AnimData.Good (b : Bool) (x : AnimData F) : Prop where
  bones : ∀ y ∈ x.bones, Bone.Good y
  skins : ∀ y ∈ x.skins, Skin.Good y
  events : ∀ p ∈ x.events, Dict.keys p.2 = (eventsCls (F := F)).attrs
  ik : KeysOf ikCls x.ik
  transform : KeysOf transformCls x.transform
  path : KeysOf pathCls x.path
  animations : ∀ p ∈ x.animations, Anim.Good b p.2

theorem get?_skeleton_free (b : Bool) (x : AnimData F) : s!!"skeleton" ∉ Dict.keys (x.toJson b) := by
  intro h
  simp only [AnimData.toJson, keys_append, List.mem_append] at h
  rcases h with ((((((h | h) | h) | h) | h) | h) | h) | h <;>
    first
    | exact absurd (mem_keys_jl h) (by simp)
    | exact absurd (mem_keys_jd h) (by simp)
    | simp [Dict.keys] at h

theorem AnimData.rt (b : Bool) (x : AnimData F) (g : AnimData.Good b x) (hs : ∀ y ∈ x.slots, Slot.Good y)
    (hb0 : x.bones ≠ []) (hs0 : x.slots ≠ []) (sk : JVal F) :
    ∃ y, AnimData.init (Dict.set (x.toJson b) s!!"skeleton" sk) = .ok y ∧ (y.setDefaults b).toJson b = x.toJson b := by
  have hdel : Dict.del (Dict.set (x.toJson b) s!!"skeleton" sk) s!!"skeleton" = x.toJson b := by
    rw [Dict.set_of_not_mem _ _ _ (get?_skeleton_free b x)]
    unfold Dict.del
    rw [List.filter_append]
    simp only [List.filter_cons, List.filter_nil]
    simp only [ne_eq, not_true_eq_false, decide_false, Bool.false_eq_true, if_false, List.append_nil]
    rw [List.filter_eq_self]
    intro p hp
    have := get?_skeleton_free b x
    simp only [decide_eq_true_eq]
    intro e
    exact this (e ▸ List.mem_map_of_mem (f := (·.1)) hp)
  obtain ⟨d, hd⟩ : ∃ d, d = x.toJson b := ⟨_, rfl⟩
  have rev := Cls.rt (eventsCls (F := F)) (by simp [leafClasses]) rfl b
  have rik := Cls.rt (ikCls (F := F)) (by simp [leafClasses]) rfl b
  have rtr := Cls.rt (transformCls (F := F)) (by simp [leafClasses]) rfl b
  have rpa := Cls.rt (pathCls (F := F)) (by simp [leafClasses]) rfl b
  obtain ⟨y1, a1, b1⟩ := (Bone.rt b).mapE x.bones g.bones
  obtain ⟨y2, a2, b2⟩ := (Slot.rt b).mapE x.slots hs
  have b2 : y2.map (·.toJson b) = x.slots.map (·.toJson b) := by simpa using b2
  obtain ⟨y3, a3, b3⟩ := (Skin.rt b).mapE x.skins g.skins
  obtain ⟨y4, a4, b4⟩ := rev.getDict (d := d) (k := s!!"events") g.events
    (by simp [hd, AnimData.toJson, get?_append, get?_jl_same, get?_jl_ne, get?_jd_same, get?_jd_ne, Dict.get?])
  obtain ⟨y5, a5, b5⟩ := rik.mapE x.ik g.ik
  obtain ⟨y6, a6, b6⟩ := rtr.mapE x.transform g.transform
  obtain ⟨y7, a7, b7⟩ := rpa.mapE x.path g.path
  obtain ⟨y8, a8, b8⟩ := (Anim.rt b).getDict (d := d) (k := s!!"animations") g.animations
    (by simp [hd, AnimData.toJson, get?_append, get?_jl_same, get?_jl_ne, get?_jd_same, get?_jd_ne, Dict.get?])
  have i1 : getItem d s!!"bones" = .ok (.list (x.bones.map (·.toJson b))) := by
    have : Dict.get? d s!!"bones" = some (.list (x.bones.map (·.toJson b))) := by
      simp [hd, AnimData.toJson, get?_append, get?_jl_same, get?_jl_ne, get?_jd_same, get?_jd_ne, Dict.get?, hb0]
    unfold getItem; rw [this]
  have i2 : getItem d s!!"slots" = .ok (.list (x.slots.map (·.toJson b))) := by
    have : Dict.get? d s!!"slots" = some (.list (x.slots.map (·.toJson b))) := by
      simp [hd, AnimData.toJson, get?_append, get?_jl_same, get?_jl_ne, get?_jd_same, get?_jd_ne, Dict.get?, hs0]
    unfold getItem; rw [this]
  have i3 : getItem d s!!"skins" = .ok (.list (x.skins.map (·.toJson b))) := by
    have : Dict.get? d s!!"skins" = some (.list (x.skins.map (·.toJson b))) := by
      simp [hd, AnimData.toJson, get?_append, get?_jl_same, get?_jl_ne, get?_jd_same, get?_jd_ne, Dict.get?]
    unfold getItem; rw [this]
  have i5 : getIter d s!!"ik" = .ok (x.ik.map (ikCls.toJson b)) := by
    apply getIter_of
    simp [hd, AnimData.toJson, get?_append, get?_jl_same, get?_jl_ne, get?_jd_same, get?_jd_ne, Dict.get?]
  have i6 : getIter d s!!"transform" = .ok (x.transform.map (transformCls.toJson b)) := by
    apply getIter_of
    simp [hd, AnimData.toJson, get?_append, get?_jl_same, get?_jl_ne, get?_jd_same, get?_jd_ne, Dict.get?]
  have i7 : getIter d s!!"path" = .ok (x.path.map (pathCls.toJson b)) := by
    apply getIter_of
    simp [hd, AnimData.toJson, get?_append, get?_jl_same, get?_jl_ne, get?_jd_same, get?_jd_ne, Dict.get?]
  have hk : Cls.check AnimData.known [] d = .ok () := by
    apply Cls.check_ok
    · intro k hk
      simp only [hd, AnimData.toJson, keys_append, List.mem_append] at hk
      rcases hk with ((((((h | h) | h) | h) | h) | h) | h) | h <;>
        first
        | (rw [mem_keys_jl h]; simp [AnimData.known])
        | (rw [mem_keys_jd h]; simp [AnimData.known])
        | (simp [Dict.keys] at h; simp [AnimData.known, h])
    · simp
  refine ⟨⟨y1, y2, y3, y4, y5, y6, y7, y8⟩, ?_, ?_⟩
  · unfold AnimData.init
    rw [hdel, ← hd]
    simp only [bind, Except.bind, i1, i2, i3, iter, a1, a2, a3, a4, i5, a5, i6, a6, i7, a7, a8, hk]
    rfl
  · unfold AnimData.toJson AnimData.setDefaults
    simp only [jl_congr b1, jl_congr b2, jd_congr b4, jl_congr b5, jl_congr b6, jl_congr b7, jd_congr b8, b3]

theorem SpineDoc.rt (s : SpineDoc F) (g : AnimData.Good s.version.is38 s.data) (hs : ∀ y ∈ s.data.slots, Slot.Good y)
    (hb0 : s.data.bones ≠ []) (hs0 : s.data.slots ≠ [])
    (hv : ∃ v, Dict.get? s.skeleton s!!"spine" = some (.str v) ∧ Version.mk? F v = .ok s.version) :
    ∃ t, SpineDoc.load s.toJson = .ok t ∧ t.toJson = s.toJson ∧ t.version = s.version ∧ t.skeleton = s.skeleton := by
  obtain ⟨v, hv1, hv2⟩ := hv
  obtain ⟨y, h1, h2⟩ := AnimData.rt s.version.is38 s.data g hs hb0 hs0 (.dict s.skeleton)
  refine ⟨⟨s.skeleton, s.version, y.setDefaults s.version.is38⟩, ?_, ?_, rfl, rfl⟩
  · unfold SpineDoc.load SpineDoc.toJson
    have : getItem (Dict.set (s.data.toJson s.version.is38) s!!"skeleton" (.dict s.skeleton)) s!!"skeleton" =
        .ok (.dict s.skeleton) := by
      unfold getItem
      rw [Dict.get?_set]; simp
    simp only [bind, Except.bind, this]
    have hsp : getItem s.skeleton s!!"spine" = .ok (.str v) := by unfold getItem; rw [hv1]
    simp only [hsp, hv2, h1]
    rfl
  · unfold SpineDoc.toJson
    simp only [h2]

end Spine
