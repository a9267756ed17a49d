import Verif.Spec.Saved
import Verif.Lemmas.DataShape
import Verif.Props.Leaf
/- Loading and saving against the description of Spec/Saved.lean (C85). -/
set_option linter.unusedSectionVars false
set_option linter.unusedSimpArgs false
namespace Spine
open JVal Saved
variable {F : Type} [PyRt F]

namespace Saved

theorem written_none (v : JVal F) : written v none = if v.isNull then none else some v := by cases v <;> rfl

theorem ite_flip {α : Type} (x : Bool) (v : α) : (if (!x) = true then some v else none) = if x = true then none else some v := by
  cases x <;> rfl

theorem written_dflt (c : Cls F) (hc : c.OK) (b : Bool) (k : Str) (v : JVal F) :
    (if c.emits b k (Cls.dflt c b k v) then some (Cls.dflt c b k v) else none) = written v (Dict.get? (c.defaultsFor b) k) := by
  cases hd : Dict.get? (c.defaultsFor b) k with
  | none => cases v <;> simp [Cls.dflt, Cls.emits, hd, written, isNull]
  | some dv =>
    have hr := hc.refl b k dv hd
    cases v with
    | null => cases dv <;> simp_all [Cls.dflt, Cls.emits, written, isNull]
    | _ => simp only [Cls.dflt, Cls.emits, hd, written, isNull, Bool.false_eq_true, if_false]; exact ite_flip _ _

/-- the attributes of a class -/
def fieldsOf (c : Cls F) (b : Bool) : List (Field F) := c.attrs.map (fun k => ⟨k, id, .null, Dict.get? (c.defaultsFor b) k⟩)

theorem entries_orDict {v : JVal F} {d : Dict (JVal F)} (h : orDict v = .ok d) : d = entries v := by
  unfold orDict at h
  split at h
  · split at h
    · injection h with h; exact h.symm
    · cases h
  · rename_i ht
    injection h with h; subst h
    cases v with
    | dict d => cases d with
      | nil => rfl
      | cons p r => exact absurd (by simp [truthy]) ht
    | _ => rfl

theorem entries_values {c : Cls F} {v : JVal F} {d : Dict (JVal F)} (h : c.values v = .ok d) : d = entries v := by
  unfold Cls.values at h
  split at h
  · exact entries_orDict h
  · split at h
    · injection h with h; exact h.symm
    · injection h with h; exact h.symm
    · cases h

/-- one class -/
theorem leaf_table {c : Cls F} (hc : c.OK) (b : Bool) (d : Dict (JVal F)) (l : List Str) :
    (l.map (fun k => (k, Cls.dflt c b k ((Dict.get? d k).getD .null)))).filter (fun p => c.emits b p.1 p.2) =
      (l.map (fun k => (⟨k, id, .null, Dict.get? (c.defaultsFor b) k⟩ : Field F))).flatMap (Field.out d) := by
  induction l with
  | nil => rfl
  | cons k l ih =>
    simp only [List.map_cons, List.filter_cons, List.flatMap_cons, ih]
    simp only [Field.out, id, ← written_dflt c hc b k]
    split <;> simp_all

theorem leaf {c : Cls F} (hc : c.OK) (b : Bool) {v : JVal F} {a : Attrs F} (h : c.init v = .ok a) :
    c.toJson b (c.setDefaults b a) = obj (fieldsOf c b) v := by
  obtain ⟨d, h1, h2⟩ := bindOk (show (c.values v).bind _ = _ from h)
  obtain ⟨_, _, h3⟩ := bindOk (show (Cls.check c.attrs c.required d).bind _ = _ from h2)
  injection h3 with h3
  have := entries_values h1
  subst h3 this
  rw [Cls.toJson, Cls.setDefaults_eq, List.map_map, obj, fieldsOf]
  exact congrArg JVal.dict (leaf_table hc b (entries v) c.attrs)

/-! ### The tables -/

section tables
attribute [local simp] fieldsOf Cls.defaultsFor Dict.get? plain dv dv38 zero one oneF yes no text nothing jone

theorem table_bone (b : Bool) : fieldsOf boneCls b = (bone : List (Field F)) := by cases b <;> simp [boneCls, bone]
theorem table_slot (b : Bool) : fieldsOf slotCls b = (slot : List (Field F)) := by cases b <;> simp [slotCls, slot]
theorem table_event (b : Bool) : fieldsOf eventsCls b = (event : List (Field F)) := by cases b <;> simp [eventsCls, event]
theorem table_ik (b : Bool) : fieldsOf ikCls b = (ik : List (Field F)) := by cases b <;> simp [ikCls, ik]
theorem table_transform (b : Bool) : fieldsOf transformCls b = (transform : List (Field F)) := by cases b <;> simp [transformCls, transform]
theorem table_path (b : Bool) : fieldsOf pathCls b = (path : List (Field F)) := by cases b <;> simp [pathCls, path]
theorem table_moveKey (b : Bool) : fieldsOf boneTranslateCls b = (moveKey b : List (Field F)) := by
  cases b <;> simp [boneTranslateCls, moveKey]
theorem table_turnKey (b : Bool) : fieldsOf boneRotateCls b = (turnKey b : List (Field F)) := by cases b <;> simp [boneRotateCls, turnKey]
theorem table_slotKey (b : Bool) : fieldsOf slotKeyframeCls b = (slotKey b : List (Field F)) := by
  cases b <;> simp [slotKeyframeCls, slotKey]
theorem table_eventKey (b : Bool) : fieldsOf eventTimelineCls b = (eventKey b : List (Field F)) := by
  cases b <;> simp [eventTimelineCls, eventKey]
theorem table_ikKey (b : Bool) : fieldsOf ikTimelineCls b = (ikKey b : List (Field F)) := by cases b <;> simp [ikTimelineCls, ikKey]
theorem table_transformKey (b : Bool) : fieldsOf transformTimelineCls b = (transformKey b : List (Field F)) := by
  cases b <;> simp [transformTimelineCls, transformKey]
theorem table_pathKey (b : Bool) : fieldsOf pathTimelineCls b = (pathKey b : List (Field F)) := by
  cases b <;> simp [pathTimelineCls, pathKey]
theorem table_deformKey (b : Bool) : fieldsOf deformCls b = (deformKey b : List (Field F)) := by cases b <;> simp [deformCls, deformKey]
theorem table_offset (b : Bool) : fieldsOf offsetCls b = (offset : List (Field F)) := by cases b <;> simp [offsetCls, offset]
theorem table_region (b : Bool) : fieldsOf regionCls b = (region : List (Field F)) := by cases b <;> simp [regionCls, region]
theorem table_mesh (b : Bool) : fieldsOf meshCls b = (mesh : List (Field F)) := by cases b <;> simp [meshCls, mesh]
theorem table_linkedMesh (b : Bool) : fieldsOf linkedMeshCls b = (linkedMesh b : List (Field F)) := by
  cases b <;> simp [linkedMeshCls, linkedMesh]
theorem table_pathAttachment (b : Bool) : fieldsOf skinPathCls b = (pathAttachment : List (Field F)) := by
  cases b <;> simp [skinPathCls, pathAttachment]
end tables

/-! ### Lists and dictionaries of objects -/

/-- parsing, filling in the defaults and serialising is `s` -/
def Saves {α : Type} (init : JVal F → Except Err α) (js : α → JVal F) (s : JVal F → JVal F) : Prop :=
  ∀ v a, init v = .ok a → js a = s v

variable {α : Type} {init : JVal F → Except Err α} {js : α → JVal F} {s : JVal F → JVal F}

theorem Saves.mapE (h : Saves init js s) {l : List (JVal F)} {ys : List α} (hm : mapE init l = .ok ys) : ys.map js = l.map s := by
  induction l generalizing ys with
  | nil => simp only [Spine.mapE] at hm; injection hm with hm; subst hm; rfl
  | cons x r ih =>
    simp only [Spine.mapE] at hm
    split at hm
    · cases hm
    · rename_i y hy
      split at hm
      · cases hm
      · rename_i zs hz
        injection hm with hm; subst hm
        rw [List.map_cons, List.map_cons, h x y hy, ih hz]

theorem Saves.mapD (h : Saves init js s) {d : Dict (JVal F)} {e : Dict α} (hm : mapD init d = .ok e) : dmap js e = dmap s d := by
  unfold Spine.mapD at hm
  induction d generalizing e with
  | nil => simp only [Spine.mapE] at hm; injection hm with hm; subst hm; rfl
  | cons x r ih =>
    simp only [Spine.mapE] at hm
    split at hm
    · cases hm
    · rename_i y hy
      split at hm
      · cases hm
      · rename_i zs hz
        injection hm with hm; subst hm
        have := ih hz
        split at hy
        · rename_i b hb
          injection hy with hy; subst hy
          simp only [dmap, List.map_cons] at this ⊢
          rw [h _ _ hb, this]
        · cases hy

theorem iter_elements {v : JVal F} {l : List (JVal F)} (h : iter v = .ok l) : l = elements v := by
  cases v <;> simp_all [iter, elements]

theorem dictItems_entries {v : JVal F} {d : Dict (JVal F)} (h : dictItems v = .ok d) : d = entries v := by
  unfold dictItems at h; split at h <;> simp_all [entries]

theorem itemsOf_entries {v : JVal F} {d : Dict (JVal F)} (h : itemsOf v = .ok d) : d = entries v := by
  unfold itemsOf at h; split at h <;> simp_all [entries]

theorem level_entries {v : JVal F} {d : Dict (JVal F)} (h : Skin.level v = .ok d) : d = entries v := by
  unfold Skin.level at h; split at h <;> simp_all [entries]

theorem Saves.list (h : Saves init js s) : Saves (fun v => (iter v).bind (Spine.mapE init)) (fun l => .list (l.map js)) (list s) := by
  intro v a ha
  obtain ⟨l, h1, h2⟩ := bindOk ha
  rw [iter_elements h1] at h2
  exact congrArg JVal.list (h.mapE h2)

theorem Saves.dict {items : JVal F → Except Err (Dict (JVal F))} (hi : ∀ v d, items v = .ok d → d = entries v) (h : Saves init js s) :
    Saves (fun v => (items v).bind (Spine.mapD init)) (fun l => .dict (dmap js l)) (dict s) := by
  intro v a ha
  obtain ⟨l, h1, h2⟩ := bindOk ha
  rw [hi _ _ h1] at h2
  exact congrArg JVal.dict (h.mapD h2)

/-! ### Attributes -/

theorem written_list (l : List (JVal F)) : written (.list l) (some (.list [])) = if l.isEmpty then none else some (.list l) := by
  cases l <;> simp [written, pyEq, pyEqList]

theorem written_dict (d : Dict (JVal F)) : written (.dict d) (some (.dict [])) = if d.isEmpty then none else some (.dict d) := by
  cases d <;> simp [written, pyEq, pyEqDict]

theorem Saves.getIter (h : Saves init js s) {d : Dict (JVal F)} {k : Str} {l : List (JVal F)} {ys : List α}
    (h1 : getIter d k = .ok l) (h2 : Spine.mapE init l = .ok ys) : jl k js ys = (lst k s).out d := by
  have e : Saved.list s ((Dict.get? d k).getD (.list [])) = .list (ys.map js) := by
    unfold Spine.getIter at h1
    rw [h.mapE h2]
    split at h1
    · rename_i hn; injection h1 with h1; subst h1; rw [hn]; rfl
    · rename_i v hv
      have := iter_elements h1; subst this
      rw [hv]; rfl
  simp only [Field.out, lst, e, written_list, jl]
  cases ys <;> simp

theorem Saves.getDict (h : Saves init js s) {d : Dict (JVal F)} {k : Str} {ys : Dict α}
    (h1 : Anim.getDict d k init = .ok ys) : jd k js ys = (dct k s).out d := by
  have e : Saved.dict s ((Dict.get? d k).getD (.dict [])) = .dict (dmap js ys) := by
    unfold Anim.getDict at h1
    split at h1
    · rename_i hn; injection h1 with h1; subst h1; rw [hn]; rfl
    · rename_i v hv
      obtain ⟨l, h2, h3⟩ := bindOk h1
      have := dictItems_entries h2; subst this
      rw [hv, h.mapD h3]; rfl
  simp only [Field.out, dct, e, written_dict, jd]
  cases ys <;> simp [dmap]

theorem out_dict {d : Dict (JVal F)} {k : Str} {ys : Dict α} (e : dict s ((Dict.get? d k).getD (.dict [])) = .dict (dmap js ys)) :
    jd k js ys = (dct k s).out d := by
  simp only [Field.out, dct, e, written_dict, jd]
  cases ys <;> simp [dmap]

/-! ### The classes -/

theorem init_table {c : Cls F} {v : JVal F} {a : Attrs F} (h : c.init v = .ok a) :
    a = c.attrs.map (fun k => (k, (Dict.get? (entries v) k).getD .null)) := by
  obtain ⟨d, h1, h2⟩ := bindOk (show (c.values v).bind _ = _ from h)
  obtain ⟨_, _, h3⟩ := bindOk (show (Cls.check c.attrs c.required d).bind _ = _ from h2)
  injection h3 with h3
  have := entries_values h1
  subst h3 this
  rfl

theorem optStr_optJ {v : JVal F} {o : Option Str} (h : optStr v = .ok o) : optJ o = v := by
  unfold optStr at h; split at h <;> simp_all [optJ] <;> subst h <;> rfl

theorem saves_leaf {c : Cls F} (hc : c ∈ leafClasses) (b : Bool) : Saves c.init (fun a => c.toJson b (c.setDefaults b a)) (obj (fieldsOf c b)) :=
  fun _ _ h => leaf (Cls.leafClasses_ok c hc) b h

/-- splitting off the first attributes and putting them back -/
theorem without_put {l ks : List Str} (g : Str → JVal F) (h : ∀ k ∈ l, k ∉ ks) :
    Attrs.without (l.map (fun k => (k, g k))) ks = l.map (fun k => (k, g k)) :=
  without_self (by simpa [Dict.keys, List.map_map, Function.comp_def] using h)

theorem bone_attrs {v : JVal F} {x : Bone F} (h : Bone.init v = .ok x) : boneCls.init v = .ok x.attrs := by
  obtain ⟨a, h1, h2⟩ := bindOk (show (boneCls.init v).bind _ = _ from h)
  obtain ⟨n, h3, h4⟩ := bindOk (show (optStr (a.val s!!"name")).bind _ = _ from h2)
  cases n with
  | none => cases h4
  | some n =>
    obtain ⟨p, h5, h6⟩ := bindOk (show (optStr (a.val s!!"parent")).bind _ = _ from h4)
    injection h6 with h6
    rw [h1]
    subst h6
    have e1 := init_table h1
    simp only [boneCls] at e1
    rw [List.map_cons, List.map_cons] at e1
    have e2 : a.val s!!"name" = (Dict.get? (entries v) s!!"name").getD .null := by rw [e1]; simp [Attrs.val, Dict.get?]
    have e3 : a.val s!!"parent" = (Dict.get? (entries v) s!!"parent").getD .null := by rw [e1]; simp [Attrs.val, Dict.get?]
    have e4 := congrArg (fun a => Attrs.without a [s!!"name", s!!"parent"]) e1
    rw [without_cons (by simp), without_cons (by simp), without_put _ (by decide)] at e4
    have e5 : (JVal.str n : JVal F) = _ := optStr_optJ h3
    simp only [Bone.attrs, e4, optStr_optJ h5, e5, e2, e3]
    exact congrArg Except.ok e1

theorem slotKf_attrs {v : JVal F} {x : SlotKf F} (h : SlotKf.init v = .ok x) : slotKeyframeCls.init v = .ok x.attrs := by
  obtain ⟨a, h1, h2⟩ := bindOk (show (slotKeyframeCls.init v).bind _ = _ from h)
  obtain ⟨n, h3, h4⟩ := bindOk (show (optStr (a.val s!!"name")).bind _ = _ from h2)
  injection h4 with h6
  rw [h1]
  subst h6
  have e1 := init_table h1
  simp only [slotKeyframeCls] at e1
  rw [List.map_cons] at e1
  have e2 : a.val s!!"name" = (Dict.get? (entries v) s!!"name").getD .null := by rw [e1]; simp [Attrs.val, Dict.get?]
  have e4 := congrArg (fun a => Attrs.without a [s!!"name"]) e1
  rw [without_cons (by simp), without_put _ (by decide)] at e4
  simp only [SlotKf.attrs, e4, optStr_optJ h3, e2]
  exact congrArg Except.ok e1

theorem slot_attrs {v : JVal F} {x : Slot F} (h : Slot.init v = .ok x) : slotCls.init v = .ok x.attrs := by
  obtain ⟨a, h1, h2⟩ := bindOk (show (slotCls.init v).bind _ = _ from h)
  obtain ⟨n, h3, h4⟩ := bindOk (show (optStr (a.val s!!"name")).bind _ = _ from h2)
  cases n with
  | none => cases h4
  | some n =>
    obtain ⟨p, h5, h6⟩ := bindOk (show (optStr (a.val s!!"bone")).bind _ = _ from h4)
    obtain ⟨t, h7, h8⟩ := bindOk (show (optStr (a.val s!!"attachment")).bind _ = _ from h6)
    obtain ⟨c, h9, h10⟩ := bindOk (show (optStr (a.val s!!"color")).bind _ = _ from h8)
    injection h10 with h10
    rw [h1]
    subst h10
    have e1 := init_table h1
    have e5 : (JVal.str n : JVal F) = _ := optStr_optJ h3
    simp only [Slot.attrs, optStr_optJ h5, optStr_optJ h7, optStr_optJ h9, e5]
    rw [e1]
    simp [slotCls, Attrs.val, Dict.get?]

theorem dflt_self {c : Cls F} {b : Bool} {k : Str} (h : Dict.get? (c.defaultsFor b) k = none ∨ Dict.get? (c.defaultsFor b) k = some .null)
    (v : JVal F) : Cls.dflt c b k v = v := by
  rcases h with h | h <;> cases v <;> simp [Cls.dflt, h]

theorem saves_bone (b : Bool) : Saves (F := F) Bone.init (fun x => (x.setDefaults b).toJson b) (obj bone) := by
  intro v x h
  rw [← table_bone b, ← leaf (Cls.leafClasses_ok _ (by simp [leafClasses])) b (bone_attrs h)]
  show boneCls.toJson b (x.setDefaults b).attrs = _
  congr 1
  rw [Bone.attrs, Bone.attrs, Cls.setDefaults_eq, List.map_cons, List.map_cons, ← Cls.setDefaults_eq,
    dflt_self (.inl (by cases b <;> simp [boneCls, Cls.defaultsFor, Dict.get?])),
    dflt_self (.inl (by cases b <;> simp [boneCls, Cls.defaultsFor, Dict.get?]))]
  rfl

theorem saves_slot (b : Bool) : Saves (F := F) Slot.init (fun x => x.toJson b) (obj slot) := by
  intro v x h
  rw [← table_slot b, ← leaf (Cls.leafClasses_ok _ (by simp [leafClasses])) b (slot_attrs h)]
  show slotCls.toJson b x.attrs = _
  congr 1
  rw [Cls.setDefaults_eq]
  refine Eq.symm (List.map_id'' ?_ _)
  intro p
  rw [dflt_self (.inl (by cases b <;> simp [slotCls, Cls.defaultsFor, Dict.get?]))]

theorem saves_slotKf (b : Bool) : Saves (F := F) SlotKf.init (fun x => (x.setDefaults b).toJson b) (obj (slotKey b)) := by
  intro v x h
  rw [← table_slotKey b, ← leaf (Cls.leafClasses_ok _ (by simp [leafClasses])) b (slotKf_attrs h)]
  show slotKeyframeCls.toJson b (x.setDefaults b).attrs = _
  congr 1
  rw [SlotKf.attrs, SlotKf.attrs, Cls.setDefaults_eq, List.map_cons, ← Cls.setDefaults_eq,
    dflt_self (.inr (by cases b <;> simp [slotKeyframeCls, Cls.defaultsFor, Dict.get?]))]
  rfl

theorem saves_att (b : Bool) : Saves (F := F) Att.init (fun x => (x.setDefaults b).toJson b) (attachment b) := by
  intro v x h
  obtain ⟨_, _, _, h2, _⟩ := Att.init_ok h
  obtain ⟨d, e, h3⟩ := c26_type_dispatch v x h
  have h4 : attachmentFields b (entries v) = fieldsOf (AttKind.cls x.kind) b := by
    subst e
    unfold attachmentFields
    rcases h3 with ⟨h3 | h3, hk⟩ | ⟨h3, hk⟩ | ⟨h3, hk⟩ | ⟨h3, hk⟩ <;>
      simp [entries, h3, hk, AttKind.cls, table_region, table_mesh, table_linkedMesh, table_pathAttachment]
  unfold attachment
  rw [h4]
  exact leaf (Cls.leafClasses_ok _ (AttKind.cls_mem _)) b h2

/-! ### Objects of objects -/

theorem saves_attachments (b : Bool) : Saves (F := F) Skin.parseAttachments
    (fun d => .dict (dmap (fun p => .dict (dmap (fun q => (q.setDefaults b).toJson b) p)) d)) (dict (dict (attachment b))) := by
  intro v a h
  exact Saves.dict (items := Skin.level) (fun _ _ h => level_entries h)
    (Saves.dict (items := Skin.level) (fun _ _ h => level_entries h) (saves_att b)) v a
    (show (Skin.level v).bind (mapD (fun w => (Skin.level w).bind (mapD Att.init))) = .ok a from h)

theorem saves_skin (b : Bool) : Saves (F := F) Skin.init (fun x => (x.setDefaults b).toJson b) (obj (skin b)) := by
  intro v x h
  obtain ⟨d, h0, h⟩ := bindOk (show (orDict v).bind _ = _ from h)
  obtain ⟨_, _, h⟩ := bindOk (show (Cls.check _ _ d).bind _ = _ from h)
  obtain ⟨n, h1, h⟩ := bindOk (show (optStr _).bind _ = _ from h)
  have := entries_orDict h0
  subst this
  have en : (if n.getD [] = [] then [] else [(s!!"name", (JVal.str (n.getD []) : JVal F))]) =
      (dv s!!"name" (text [])).out (entries v) := by
    have e1 := optStr_optJ h1
    have : (Dict.get? (entries v) s!!"name").getD .null = optJ n := e1.symm
    simp only [Field.out, dv, this, id, text]
    cases n with
    | none => simp [optJ, written]
    | some s => cases s <;> simp [optJ, written, pyEq]
  have key : x.name = n.getD [] ∧ Saved.dict (dict (attachment b)) ((Dict.get? (entries v) s!!"attachments").getD (.dict [])) =
      .dict (dmap (fun p => .dict (dmap (fun q => (q.setDefaults b).toJson b) p)) x.attachments) := by
    cases hg : (Dict.get? (entries v) s!!"attachments") with
    | none =>
      rw [hg] at h
      injection h with h; subst h
      exact ⟨rfl, rfl⟩
    | some w =>
      rw [hg] at h
      cases w with
      | null => injection h with h; subst h; exact ⟨rfl, rfl⟩
      | _ =>
        obtain ⟨a, h2, h⟩ := bindOk (show (Skin.parseAttachments _).bind _ = _ from h)
        injection h with h; subst h
        refine ⟨rfl, ?_⟩
        exact (saves_attachments b _ _ h2).symm
  obtain ⟨k1, k2⟩ := key
  have ea : (if x.attachments = [] then [] else [(s!!"attachments",
      (.dict (dmap (fun p => .dict (dmap (fun q => (q.setDefaults b).toJson b) p)) x.attachments) : JVal F))]) =
      (⟨s!!"attachments", Saved.dict (dict (attachment b)), .dict [], some (.dict [])⟩ : Field F).out (entries v) := by
    simp only [Field.out, k2, written_dict]
    cases x.attachments <;> simp [dmap]
  simp only [obj, skin, List.flatMap_cons, List.flatMap_nil, ← en, ← ea, ← k1, List.append_nil]
  simp only [Skin.toJson, Skin.setDefaults, dmap, List.map_map, Function.comp_def, List.map_eq_nil_iff]
  by_cases e : x.attachments = [] <;> by_cases e' : x.name = [] <;> simp [e, e']

theorem saves_slotTl (b : Bool) : Saves (F := F) SlotTl.init (fun x => (x.setDefaults b).toJson b) (obj (slotTimeline b)) := by
  intro v x h
  obtain ⟨d, h0, h⟩ := bindOk (show (orDict v).bind _ = _ from h)
  obtain ⟨l1, h1, h⟩ := bindOk (show (getIter d s!!"attachment").bind _ = _ from h)
  obtain ⟨y1, k1, h⟩ := bindOk (show (mapE SlotKf.init l1).bind _ = _ from h)
  obtain ⟨l2, h2, h⟩ := bindOk (show (getIter d s!!"color").bind _ = _ from h)
  obtain ⟨y2, k2, h⟩ := bindOk (show (mapE SlotKf.init l2).bind _ = _ from h)
  obtain ⟨l3, h3, h⟩ := bindOk (show (getIter d s!!"twoColor").bind _ = _ from h)
  obtain ⟨y3, k3, h⟩ := bindOk (show (mapE SlotKf.init l3).bind _ = _ from h)
  obtain ⟨_, _, h⟩ := bindOk (show (Cls.check _ _ d).bind _ = _ from h)
  injection h with h
  subst h
  have := entries_orDict h0
  subst this
  have e := saves_slotKf (F := F) b
  simp only [obj, slotTimeline, List.flatMap_cons, List.flatMap_nil, ← e.getIter h1 k1, ← e.getIter h2 k2, ← e.getIter h3 k3]
  simp [SlotTl.toJson, SlotTl.setDefaults, jl, List.map_map, Function.comp_def]

theorem saves_turn (b : Bool) : Saves (F := F) boneRotateCls.init (fun a => boneRotateCls.toJson b (boneRotateCls.setDefaults b a)) (obj (turnKey b)) := by
  rw [← table_turnKey]; exact saves_leaf (by simp [leafClasses]) b

theorem saves_move (b : Bool) : Saves (F := F) boneTranslateCls.init (fun a => boneTranslateCls.toJson b (boneTranslateCls.setDefaults b a)) (obj (moveKey b)) := by
  rw [← table_moveKey]; exact saves_leaf (by simp [leafClasses]) b

theorem saves_boneTl (b : Bool) : Saves (F := F) BoneTl.init (fun x => (x.setDefaults b).toJson b) (obj (boneTimeline b)) := by
  intro v x h
  obtain ⟨d, h0, h⟩ := bindOk (show (orDict v).bind _ = _ from h)
  obtain ⟨l1, h1, h⟩ := bindOk (show (getIter d s!!"rotate").bind _ = _ from h)
  obtain ⟨y1, k1, h⟩ := bindOk (show (mapE boneRotateCls.init l1).bind _ = _ from h)
  obtain ⟨l2, h2, h⟩ := bindOk (show (getIter d s!!"translate").bind _ = _ from h)
  obtain ⟨y2, k2, h⟩ := bindOk (show (mapE boneTranslateCls.init l2).bind _ = _ from h)
  obtain ⟨l3, h3, h⟩ := bindOk (show (getIter d s!!"scale").bind _ = _ from h)
  obtain ⟨y3, k3, h⟩ := bindOk (show (mapE boneRotateCls.init l3).bind _ = _ from h)
  obtain ⟨l4, h4, h⟩ := bindOk (show (getIter d s!!"shear").bind _ = _ from h)
  obtain ⟨y4, k4, h⟩ := bindOk (show (mapE boneTranslateCls.init l4).bind _ = _ from h)
  obtain ⟨_, _, h⟩ := bindOk (show (Cls.check _ _ d).bind _ = _ from h)
  injection h with h
  subst h
  have := entries_orDict h0
  subst this
  have e := saves_turn (F := F) b
  have e' := saves_move (F := F) b
  simp only [obj, boneTimeline, List.flatMap_cons, List.flatMap_nil, ← e.getIter h1 k1, ← e'.getIter h2 k2, ← e.getIter h3 k3, ← e'.getIter h4 k4]
  simp [BoneTl.toJson, BoneTl.setDefaults, jl, List.map_map, Function.comp_def]

theorem saves_offset (b : Bool) : Saves (F := F) offsetInit (offsetToJson b) (obj offset) := by
  intro v x h
  obtain ⟨a, h1, h⟩ := bindOk (show (offsetCls.init v).bind _ = _ from h)
  obtain ⟨s, h2, h⟩ := bindOk (show (optStr (a.val s!!"slot")).bind _ = _ from h)
  rw [← table_offset b, ← leaf (Cls.leafClasses_ok _ (by simp [leafClasses])) b h1]
  have e1 := init_table h1
  simp only [offsetCls, List.map_cons, List.map_nil] at e1
  have e2 := optStr_optJ h2
  have v1 : a.val s!!"slot" = (Dict.get? (entries v) s!!"slot").getD .null := by rw [e1]; simp [Attrs.val, Dict.get?]
  have v2 : a.val s!!"offset" = (Dict.get? (entries v) s!!"offset").getD .null := by rw [e1]; simp [Attrs.val, Dict.get?]
  split at h
  · rename_i i hi
    injection h with h; subst h
    unfold offsetToJson
    congr 1
    rw [e1, ← v1, ← v2, hi, ← e2, Cls.setDefaults_eq]
    cases s <;> cases b <;> simp [optJ, Cls.dflt, offsetCls, Cls.defaultsFor, Dict.get?]
  · cases h

theorem drawCls_ok : (drawCls : Cls F).OK := by
  refine ⟨by simp [drawCls], by simp [drawCls], by simp [drawCls], ?_⟩
  intro b k dv hg
  refine Cls.get?_imp_all (P := fun v => pyEq v v = true) ?_ hg
  cases b <;> simp [Cls.defaultsFor, drawCls, pyEq, pyEqList]

theorem saves_drawTl (b : Bool) : Saves (F := F) DrawTl.init (fun x => (x.setDefaults b).toJson b) (obj (drawOrder b)) := by
  intro v x h
  obtain ⟨d, h0, h⟩ := bindOk (show (orDict v).bind _ = _ from h)
  obtain ⟨l1, h1, h⟩ := bindOk (show (getIter d s!!"offsets").bind _ = _ from h)
  obtain ⟨y1, k1, h⟩ := bindOk (show (mapE offsetInit l1).bind _ = _ from h)
  obtain ⟨_, _, h⟩ := bindOk (show (Cls.check _ _ d).bind _ = _ from h)
  injection h with h
  subst h
  have := entries_orDict h0
  subst this
  have eo : ([(s!!"offsets", .list (y1.map (offsetToJson b)))] : Dict (JVal F)) =
      (⟨s!!"offsets", list (obj offset), .list [], none⟩ : Field F).out (entries v) := by
    have e : Saved.list (obj offset) ((Dict.get? (entries v) s!!"offsets").getD (.list [])) = .list (y1.map (offsetToJson b)) := by
      rw [(saves_offset b).mapE k1]
      unfold Spine.getIter at h1
      split at h1
      · rename_i hn; injection h1 with h1; subst h1; rw [hn]; rfl
      · rename_i w hw
        have := iter_elements h1; subst this
        rw [hw]; rfl
    simp only [Field.out, e, written]
  have et : (if drawCls.emits b s!!"time" (Cls.dflt drawCls b s!!"time" ((Dict.get? (entries v) s!!"time").getD (.int 0))) then
      [(s!!"time", Cls.dflt drawCls b s!!"time" ((Dict.get? (entries v) s!!"time").getD (.int 0)))] else [] : Dict (JVal F)) =
      (⟨s!!"time", id, zero, if b then some zero else none⟩ : Field F).out (entries v) := by
    have e := written_dflt drawCls drawCls_ok b s!!"time" ((Dict.get? (entries v) s!!"time").getD (.int 0))
    have ed : Dict.get? ((drawCls : Cls F).defaultsFor b) s!!"time" = if b then some zero else none := by
      cases b <;> simp [drawCls, Cls.defaultsFor, Dict.get?, zero]
    rw [ed] at e
    unfold Field.out
    simp only [id, zero] at e ⊢
    rw [← e]
    split <;> simp
  simp only [obj, drawOrder, List.flatMap_cons, List.flatMap_nil, ← et, ← eo, List.append_nil]
  simp only [DrawTl.toJson, DrawTl.setDefaults, Cls.setDefaults_eq, List.map_cons, List.map_nil]
  simp [Attrs.val, Dict.get?]

theorem saves_listOf {c : Cls F} (hc : c ∈ leafClasses) (b : Bool) :
    Saves (Anim.listOf c) (fun l => Anim.jlist c b (l.map (c.setDefaults b))) (list (obj (fieldsOf c b))) := by
  have := (saves_leaf hc b).list
  intro v a h
  rw [← this v a h]
  simp [Anim.jlist, List.map_map, Function.comp_def]

theorem saves_path (b : Bool) : Saves (F := F) Anim.parsePath
    (fun d => .dict (dmap (fun e => .dict (dmap (fun l => Anim.jlist pathTimelineCls b (l.map (pathTimelineCls.setDefaults b))) e)) d))
    (dict (dict (list (obj (pathKey b))))) := by
  rw [← table_pathKey]
  exact Saves.dict (fun _ _ h => itemsOf_entries h) (Saves.dict (fun _ _ h => itemsOf_entries h) (saves_listOf (by simp [leafClasses]) b))

theorem saves_deform (b : Bool) : Saves (F := F) Anim.parseDeform
    (fun d => .dict (dmap (fun e => .dict (dmap (fun f => .dict (dmap (fun l => Anim.jlist deformCls b (l.map (deformCls.setDefaults b))) f)) e)) d))
    (dict (dict (dict (list (obj (deformKey b)))))) := by
  rw [← table_deformKey]
  exact Saves.dict (fun _ _ h => itemsOf_entries h) (Saves.dict (fun _ _ h => itemsOf_entries h)
    (Saves.dict (fun _ _ h => itemsOf_entries h) (saves_listOf (by simp [leafClasses]) b)))

theorem saves_anim (b : Bool) : Saves (F := F) Anim.init (fun x => (x.setDefaults b).toJson b) (obj (animation b)) := by
  intro v x h
  obtain ⟨d, h0, h⟩ := bindOk (show (orDict v).bind _ = _ from h)
  obtain ⟨y1, k1, h⟩ := bindOk (show (Anim.getDict d s!!"ik" _).bind _ = _ from h)
  obtain ⟨l2, h2, h⟩ := bindOk (show (getIter d s!!"drawOrder").bind _ = _ from h)
  obtain ⟨y2, k2, h⟩ := bindOk (show (mapE DrawTl.init l2).bind _ = _ from h)
  obtain ⟨y3, k3, h⟩ := bindOk (show (Anim.getDict d s!!"bones" _).bind _ = _ from h)
  obtain ⟨y4, k4, h⟩ := bindOk (show (Anim.getDict d s!!"slots" _).bind _ = _ from h)
  obtain ⟨l5, h5, h⟩ := bindOk (show (getIter d s!!"events").bind _ = _ from h)
  obtain ⟨y5, k5, h⟩ := bindOk (show (mapE eventTimelineCls.init l5).bind _ = _ from h)
  obtain ⟨y6, k6, h⟩ := bindOk (show (Anim.getDict d s!!"transform" _).bind _ = _ from h)
  obtain ⟨y7, k7, h⟩ := bindOk (show (Anim.parsePath _).bind _ = _ from h)
  obtain ⟨y8, k8, h⟩ := bindOk (show (Anim.parseDeform _).bind _ = _ from h)
  obtain ⟨_, _, h⟩ := bindOk (show (Cls.check _ _ d).bind _ = _ from h)
  injection h with h
  subst h
  have := entries_orDict h0
  subst this
  have e1 := (saves_listOf (c := (ikTimelineCls : Cls F)) (by simp [leafClasses]) b).getDict k1
  have e2 := (saves_drawTl (F := F) b).getIter h2 k2
  have e3 := (saves_boneTl (F := F) b).getDict k3
  have e4 := (saves_slotTl (F := F) b).getDict k4
  have e5 := (saves_leaf (c := (eventTimelineCls : Cls F)) (by simp [leafClasses]) b).getIter h5 k5
  have e6 := (saves_listOf (c := (transformTimelineCls : Cls F)) (by simp [leafClasses]) b).getDict k6
  have e7 := out_dict ((saves_path b _ _ k7).symm)
  have e8 := out_dict ((saves_deform b _ _ k8).symm)
  rw [table_ikKey] at e1
  rw [table_eventKey] at e5
  rw [table_transformKey] at e6
  simp only [obj, animation, List.flatMap_cons, List.flatMap_nil, ← e1, ← e2, ← e3, ← e4, ← e5, ← e6, ← e7, ← e8]
  simp [Anim.toJson, Anim.setDefaults, Anim.jdict, jl, jd, dmap, List.map_map, Function.comp_def]

theorem out_del (doc : Dict (JVal F)) (f : Field F) (h : f.key ≠ s!!"skeleton") : f.out (Dict.del doc s!!"skeleton") = f.out doc := by
  unfold Field.out
  rw [Dict.get?_del, if_neg h]

theorem getItem_ok {d : Dict (JVal F)} {k : Str} {v : JVal F} (h : getItem d k = .ok v) : Dict.get? d k = some v := by
  unfold getItem at h; split at h <;> simp_all

theorem Saves.getItem (h : Saves init js s) {d : Dict (JVal F)} {k : Str} {v : JVal F} {l : List (JVal F)} {ys : List α}
    (h0 : getItem d k = .ok v) (h1 : iter v = .ok l) (h2 : Spine.mapE init l = .ok ys) : jl k js ys = (lst k s).out d :=
  h.getIter (by unfold Spine.getIter; rw [getItem_ok h0]; exact h1) h2

/-- the attributes of a document other than the skeleton -/
theorem saves_data (b : Bool) {doc : Dict (JVal F)} {x : AnimData F} (h : AnimData.init doc = .ok x) :
    (x.setDefaults b).toJson b = ((document b).dropLast).flatMap (Field.out doc) := by
  obtain ⟨v1, g1, h⟩ := bindOk (show (getItem (Dict.del doc s!!"skeleton") s!!"bones").bind _ = _ from h)
  obtain ⟨l1, h1, h⟩ := bindOk (show (iter v1).bind _ = _ from h)
  obtain ⟨y1, k1, h⟩ := bindOk (show (mapE Bone.init l1).bind _ = _ from h)
  obtain ⟨v2, g2, h⟩ := bindOk (show (getItem (Dict.del doc s!!"skeleton") s!!"slots").bind _ = _ from h)
  obtain ⟨l2, h2, h⟩ := bindOk (show (iter v2).bind _ = _ from h)
  obtain ⟨y2, k2, h⟩ := bindOk (show (mapE Slot.init l2).bind _ = _ from h)
  obtain ⟨v3, g3, h⟩ := bindOk (show (getItem (Dict.del doc s!!"skeleton") s!!"skins").bind _ = _ from h)
  obtain ⟨l3, h3, h⟩ := bindOk (show (iter v3).bind _ = _ from h)
  obtain ⟨y3, k3, h⟩ := bindOk (show (mapE Skin.init l3).bind _ = _ from h)
  obtain ⟨y4, k4, h⟩ := bindOk (show (Anim.getDict (Dict.del doc s!!"skeleton") s!!"events" _).bind _ = _ from h)
  obtain ⟨l5, h5, h⟩ := bindOk (show (getIter (Dict.del doc s!!"skeleton") s!!"ik").bind _ = _ from h)
  obtain ⟨y5, k5, h⟩ := bindOk (show (mapE ikCls.init l5).bind _ = _ from h)
  obtain ⟨l6, h6, h⟩ := bindOk (show (getIter (Dict.del doc s!!"skeleton") s!!"transform").bind _ = _ from h)
  obtain ⟨y6, k6, h⟩ := bindOk (show (mapE transformCls.init l6).bind _ = _ from h)
  obtain ⟨l7, h7, h⟩ := bindOk (show (getIter (Dict.del doc s!!"skeleton") s!!"path").bind _ = _ from h)
  obtain ⟨y7, k7, h⟩ := bindOk (show (mapE pathCls.init l7).bind _ = _ from h)
  obtain ⟨y8, k8, h⟩ := bindOk (show (Anim.getDict (Dict.del doc s!!"skeleton") s!!"animations" _).bind _ = _ from h)
  obtain ⟨_, _, h⟩ := bindOk (show (Cls.check _ _ (Dict.del doc s!!"skeleton")).bind _ = _ from h)
  injection h with h
  subst h
  have e1 := (saves_bone (F := F) b).getItem g1 h1 k1
  have e2 := (saves_slot (F := F) b).getItem g2 h2 k2
  have e3 : ([(s!!"skins", .list (y3.map (fun x => (x.setDefaults b).toJson b)))] : Dict (JVal F)) =
      (⟨s!!"skins", list (obj (skin b)), .null, none⟩ : Field F).out doc := by
    have g := getItem_ok g3
    rw [Dict.get?_del, if_neg (by decide)] at g
    have := iter_elements h3; subst this
    simp only [Field.out, g, Option.getD, Saved.list, written, (saves_skin b).mapE k3]
  have e4 := (saves_leaf (c := (eventsCls : Cls F)) (by simp [leafClasses]) b).getDict k4
  have e5 := (saves_leaf (c := (ikCls : Cls F)) (by simp [leafClasses]) b).getIter h5 k5
  have e6 := (saves_leaf (c := (transformCls : Cls F)) (by simp [leafClasses]) b).getIter h6 k6
  have e7 := (saves_leaf (c := (pathCls : Cls F)) (by simp [leafClasses]) b).getIter h7 k7
  have e8 := (saves_anim (F := F) b).getDict k8
  rw [out_del _ _ (by simp [lst])] at e1 e2
  rw [table_event, out_del _ _ (by simp [dct])] at e4
  rw [table_ik, out_del _ _ (by simp [lst])] at e5
  rw [table_transform, out_del _ _ (by simp [lst])] at e6
  rw [table_path, out_del _ _ (by simp [lst])] at e7
  rw [out_del _ _ (by simp [dct])] at e8
  simp only [document, List.dropLast_cons_cons, List.dropLast_singleton, List.flatMap_cons, List.flatMap_nil, ← e1, ← e2, ← e3, ← e4,
    ← e5, ← e6, ← e7, ← e8]
  simp [AnimData.toJson, AnimData.setDefaults, jl, jd, dmap, List.map_map, Function.comp_def]

theorem keys_out (f : Field F) (d : Dict (JVal F)) {k : Str} (h : k ∈ Dict.keys (f.out d)) : k = f.key := by
  unfold Field.out at h
  split at h <;> simp [Dict.keys] at h
  exact h

theorem set_new {d : Dict (JVal F)} {k : Str} (h : k ∉ Dict.keys d) (v : JVal F) : Dict.set d k v = d ++ [(k, v)] := by
  induction d with
  | nil => rfl
  | cons p r ih =>
    simp only [Dict.keys, List.map_cons, List.mem_cons, not_or] at h
    simp only [Dict.set, List.cons_append]
    rw [if_neg (fun e => h.1 e.symm), ih h.2]

theorem saves_doc {doc : JVal F} {s : SpineDoc F} (h : SpineDoc.load doc = .ok s) : s.toJson = saved s.version.is38 doc := by
  obtain ⟨d, v, a, rfl, h1, _, _, h2, h3⟩ := SpineDoc.load_ok h
  have e := saves_data s.version.is38 h2
  rw [← h3] at e
  rw [SpineDoc.toJson, e, set_new]
  · have : (document s.version.is38 : List (Field F)) = (document s.version.is38).dropLast ++ [plain s!!"skeleton"] := rfl
    rw [saved, obj, this, List.flatMap_append]
    simp [Field.out, plain, entries, h1, written]
  · rw [Dict.keys, List.map_flatMap, List.mem_flatMap]
    rintro ⟨f, hf, hk⟩
    have := keys_out f d hk
    have hn : ∀ f ∈ (document s.version.is38 : List (Field F)).dropLast, f.key ≠ s!!"skeleton" := by
      simp [document, lst, dct]
    exact hn f hf this.symm

end Saved
end Spine
