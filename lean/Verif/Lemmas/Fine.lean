import Verif.Lemmas.SyncOps
import Verif.Spec.JsonText
/- Values without repeated keys whose floats have a property: kept by loading, by every call of the editor, and by writing. -/
set_option linter.unusedSectionVars false
set_option linter.unusedSimpArgs false
namespace Spine
open JVal Graph Container JsonSpec
variable {F : Type}

/-- no repeated keys, and every float has the property -/
def Fine (q : F → Prop) (v : JVal F) : Prop := v.Proper ∧ FloatsAre q v

/-- a dictionary without repeated keys whose values have the property -/
def FD {α : Type} (P : α → Prop) (d : Dict α) : Prop := (Dict.keys d).Nodup ∧ ∀ p ∈ d, P p.2

theorem fine_null {q : F → Prop} : Fine q .null := ⟨.null, .null⟩
theorem fine_bool {q : F → Prop} (b) : Fine q (.bool b) := ⟨.bool b, .bool b⟩
theorem fine_int {q : F → Prop} (b) : Fine q (.int b) := ⟨.int b, .int b⟩
theorem fine_str {q : F → Prop} (b) : Fine q (.str b) := ⟨.str b, .str b⟩
theorem fine_flt {q : F → Prop} {f : F} : Fine q (.flt f) ↔ q f :=
  ⟨fun h => by cases h.2 with | flt h => exact h, fun h => ⟨.flt f, .flt h⟩⟩
theorem fine_optJ {q : F → Prop} (s : Option Str) : Fine q (optJ s) := by cases s <;> first | exact fine_null | exact fine_str _

theorem fine_list {q : F → Prop} {l : List (JVal F)} : Fine q (.list l) ↔ ∀ x ∈ l, Fine q x := by
  constructor
  · rintro ⟨h1, h2⟩ x hx
    cases h1 with | list h1 => cases h2 with | list h2 => exact ⟨h1 x hx, h2 x hx⟩
  · intro h
    exact ⟨.list (fun x hx => (h x hx).1), .list (fun x hx => (h x hx).2)⟩

theorem fine_dict {q : F → Prop} {d : Dict (JVal F)} : Fine q (.dict d) ↔ FD (Fine q) d := by
  constructor
  · rintro ⟨h1, h2⟩
    cases h1 with | dict hn h1 => cases h2 with | dict h2 => exact ⟨hn, fun x hx => ⟨h1 x hx, h2 x hx⟩⟩
  · rintro ⟨hn, h⟩
    exact ⟨.dict hn (fun x hx => (h x hx).1), .dict (fun x hx => (h x hx).2)⟩

namespace FD
variable {α β : Type} {P : α → Prop} {Q : β → Prop} {d : Dict α}

theorem nil : FD P [] := ⟨by simp [Dict.keys], by simp⟩

theorem filter (h : FD P d) (f : Str × α → Bool) : FD P (d.filter f) :=
  ⟨h.1.sublist (Dict.keys_filter_sublist _ _), fun p hp => h.2 p (List.mem_filter.1 hp).1⟩

theorem del (h : FD P d) (k : Str) : FD P (Dict.del d k) := h.filter _

theorem get? (h : FD P d) {k : Str} {v : α} (hg : Dict.get? d k = some v) : P v := h.2 _ (Dict.mem_of_get? hg)

theorem dmap {f : α → β} (h : FD P d) (hf : ∀ x, P x → Q (f x)) : FD Q (Spine.dmap f d) := by
  refine ⟨by rw [keys_dmap]; exact h.1, fun p hp => ?_⟩
  obtain ⟨r, hr, rfl⟩ := List.mem_map.1 hp
  exact hf _ (h.2 r hr)

theorem mem_set {d : Dict α} {k : Str} {v : α} {p : Str × α} (hp : p ∈ Dict.set d k v) : p ∈ d ∨ p = (k, v) := by
  induction d with
  | nil => simp [Dict.set] at hp; exact .inr hp
  | cons x r ih =>
    obtain ⟨k', v'⟩ := x
    simp only [Dict.set] at hp
    split at hp
    · rcases List.mem_cons.1 hp with h | h
      · exact .inr h
      · exact .inl (by simp [h])
    · rcases List.mem_cons.1 hp with h | h
      · exact .inl (by simp [h])
      · rcases ih h with h | h
        · exact .inl (by simp [h])
        · exact .inr h

theorem set (h : FD P d) (k : Str) {v : α} (hv : P v) : FD P (Dict.set d k v) := by
  refine ⟨Dict.nodup_keys_set h.1 k v, fun p hp => ?_⟩
  rcases mem_set hp with hp | rfl
  · exact h.2 p hp
  · exact hv

theorem mapD {f : α → Except Err β} {e : Dict β} (h : FD P d) (hf : ∀ x y, P x → f x = .ok y → Q y) (he : Spine.mapD f d = .ok e) : FD Q e := by
  refine ⟨by rw [mapD_keys he]; exact h.1, fun p hp => ?_⟩
  obtain ⟨x, hx, hy⟩ := mapD_back he p hp
  exact hf _ _ (h.2 _ hx) hy

theorem keys_mapMut {f : Str → α → Res α Unit} (d : Dict α) : Dict.keys (mapMutD f d).2 = Dict.keys d := by
  unfold mapMutD
  induction d with
  | nil => rfl
  | cons x r ih =>
    simp only [mapMut]
    split
    · rename_i e x' h
      simp only [Prod.mk.injEq] at h
      obtain ⟨_, rfl⟩ := h
      rfl
    · rename_i u x' h
      simp only [Prod.mk.injEq] at h
      obtain ⟨_, rfl⟩ := h
      simp only [Dict.keys, List.map_cons, List.cons.injEq, true_and]
      exact ih

theorem mapMutD {f : Str → α → Res α Unit} (h : FD P d) (hf : ∀ k x, P x → P (f k x).2) : FD P (Spine.mapMutD f d).2 := by
  refine ⟨by rw [keys_mapMut]; exact h.1, ?_⟩
  exact Editor.mapMut_good (G := fun p : Str × α => P p.2) _ (fun p hp => hf _ _ hp) d h.2

end FD

theorem fl_mapE {α β : Type} {P : α → Prop} {Q : β → Prop} {f : α → Except Err β} {l : List α} {m : List β} (h : ∀ x ∈ l, P x)
    (hf : ∀ x y, P x → f x = .ok y → Q y) (he : mapE f l = .ok m) : ∀ y ∈ m, Q y := by
  intro y hy
  obtain ⟨x, hx, e⟩ := mapE_back he y hy
  exact hf _ _ (h x hx) e

theorem fl_map {α β : Type} {P : α → Prop} {Q : β → Prop} {f : α → β} {l : List α} (h : ∀ x ∈ l, P x) (hf : ∀ x, P x → Q (f x)) :
    ∀ y ∈ l.map f, Q y := by
  intro y hy
  obtain ⟨x, hx, rfl⟩ := List.mem_map.1 hy
  exact hf _ (h x hx)

section values
variable [PyRt F] {q : F → Prop}

/-- attributes of an object -/
abbrev FA (q : F → Prop) (a : Attrs F) : Prop := FD (Fine q) a

theorem fine_getD {d : Dict (JVal F)} (h : FD (Fine q) d) (k : Str) {w : JVal F} (hw : Fine q w) : Fine q ((Dict.get? d k).getD w) := by
  cases e : Dict.get? d k with
  | none => exact hw
  | some v => exact h.get? e

theorem fine_val {a : Attrs F} (h : FA q a) (k : Str) : Fine q (a.val k) := fine_getD h k fine_null

theorem fine_iter {v : JVal F} (h : Fine q v) {l : List (JVal F)} (hl : iter v = .ok l) : ∀ x ∈ l, Fine q x := by
  cases v with
  | list l' => injection hl with hl; subst hl; exact fine_list.1 h
  | dict d =>
    injection hl with hl; subst hl
    intro x hx; obtain ⟨p, _, rfl⟩ := List.mem_map.1 hx; exact fine_str _
  | str s =>
    injection hl with hl; subst hl
    intro x hx; obtain ⟨p, _, rfl⟩ := List.mem_map.1 hx; exact fine_str _
  | _ => cases hl

theorem fine_getItem {d : Dict (JVal F)} (h : FD (Fine q) d) {k : Str} {v : JVal F} (hp : getItem d k = .ok v) : Fine q v := by
  unfold getItem at hp
  split at hp
  · cases hp
  · rename_i w hw; injection hp with hp; subst hp; exact h.get? hw

theorem fine_getIter {d : Dict (JVal F)} (h : FD (Fine q) d) {k : Str} {l : List (JVal F)} (hp : getIter d k = .ok l) :
    ∀ x ∈ l, Fine q x := by
  unfold getIter at hp
  split at hp
  · injection hp with hp; subst hp; simp
  · rename_i v hv; exact fine_iter (h.get? hv) hp

theorem fine_orDict {v : JVal F} (h : Fine q v) {d : Dict (JVal F)} (hd : orDict v = .ok d) : FD (Fine q) d := by
  unfold Spine.orDict at hd
  split at hd
  · cases v with
    | dict d' => injection hd with hd; subst hd; exact fine_dict.1 h
    | _ => cases hd
  · injection hd with hd; subst hd; exact .nil

theorem fine_dictItems {v : JVal F} (h : Fine q v) {d : Dict (JVal F)} (hd : dictItems v = .ok d) : FD (Fine q) d := by
  unfold Spine.dictItems at hd
  split at hd
  · injection hd with hd; subst hd; exact fine_dict.1 h
  · injection hd with hd; subst hd; exact .nil
  · cases hd
  · injection hd with hd; subst hd; exact .nil
  · cases hd

theorem fine_itemsOf {v : JVal F} (h : Fine q v) {d : Dict (JVal F)} (hd : itemsOf v = .ok d) : FD (Fine q) d := by
  unfold itemsOf at hd
  split at hd
  · injection hd with hd; subst hd; exact fine_dict.1 h
  · cases hd

theorem fine_getDict {α : Type} {P : α → Prop} {d : Dict (JVal F)} (h : FD (Fine q) d) {k : Str} {f : JVal F → Except Err α}
    (hf : ∀ v x, Fine q v → f v = .ok x → P x) {e : Dict α} (he : Anim.getDict d k f = .ok e) : FD P e := by
  unfold Anim.getDict at he
  split at he
  · injection he with he; subst he; exact .nil
  · rename_i v hv
    obtain ⟨e', h1, h2⟩ := bindOk he
    exact (fine_dictItems (h.get? hv) h1).mapD hf h2

/-! ### Leaf classes -/

theorem fine_jone (h1 : q PyRt.fone) : Fine q (jone : JVal F) := fine_flt.2 h1

theorem fine_defaults (h1 : q PyRt.fone) : ∀ c ∈ (leafClasses : List (Cls F)), ∀ b, ∀ p ∈ c.defaultsFor b, Fine q p.2 := by
  intro c hc b p hp
  have hj : Fine q (jone : JVal F) := fine_jone h1
  have hl : Fine q (.list [] : JVal F) := fine_list.2 (by simp)
  simp only [leafClasses, List.mem_cons, List.not_mem_nil, or_false] at hc
  unfold Cls.defaultsFor at hp
  rcases hc with rfl|rfl|rfl|rfl|rfl|rfl|rfl|rfl|rfl|rfl|rfl|rfl|rfl|rfl|rfl|rfl|rfl|rfl|rfl|rfl|rfl|rfl <;>
  · dsimp only [boneCls, boneTranslateCls, boneRotateCls, slotCls, slotKeyframeCls, eventsCls, eventTimelineCls, deformCls, ikCls,
      ikTimelineCls, transformCls, transformTimelineCls, pathCls, pathTimelineCls, offsetCls, regionCls, meshCls, skinPathCls,
      linkedMeshCls, boundingBoxCls, pointCls, clippingCls] at hp
    split at hp <;>
    · simp only [List.mem_cons, List.not_mem_nil, or_false] at hp
      repeat' (first
        | exact hp.elim
        | (rcases hp with rfl | hp; (first | exact hj | exact hl | exact fine_null | exact fine_bool _ | exact fine_int _ | exact fine_str _))
        | (subst hp; first | exact hj | exact hl | exact fine_null | exact fine_bool _ | exact fine_int _ | exact fine_str _))

namespace Cls

theorem fine_values {c : Cls F} {v : JVal F} (h : Fine q v) {d : Dict (JVal F)} (hd : c.values v = .ok d) : FD (Fine q) d := by
  unfold values at hd
  split at hd
  · split at hd
    · split at hd
      · injection hd with hd; subst hd; exact fine_dict.1 h
      · cases hd
    · injection hd with hd; subst hd; exact .nil
  · split at hd
    · injection hd with hd; subst hd; exact .nil
    · injection hd with hd; subst hd; exact fine_dict.1 h
    · cases hd

theorem fine_init {c : Cls F} (hc : c ∈ (leafClasses : List (Cls F))) {v : JVal F} {a : Attrs F} (h : Fine q v) (hi : c.init v = .ok a) :
    FA q a := by
  refine ⟨by rw [Cls.keys_init hi]; exact (leafClasses_ok c hc).nodup, ?_⟩
  obtain ⟨d, h1, hi⟩ := bindOk hi
  obtain ⟨_, _, hi⟩ := bindOk hi
  injection hi with hi; subst hi
  intro p hp
  obtain ⟨k, _, rfl⟩ := List.mem_map.1 hp
  exact fine_getD (fine_values h h1) k fine_null

theorem fine_setDefaults {c : Cls F} (hc : c ∈ (leafClasses : List (Cls F))) (h1 : q PyRt.fone) (b : Bool) {a : Attrs F} (h : FA q a) :
    FA q (c.setDefaults b a) := by
  refine ⟨by rw [keys_setDefaults]; exact h.1, fun p hp => ?_⟩
  obtain ⟨r, hr, rfl⟩ := List.mem_map.1 hp
  have hr' := h.2 r hr
  split
  · cases e : Dict.get? (c.defaultsFor b) r.1 with
    | none => exact fine_null
    | some v => exact fine_defaults h1 c hc b _ (Dict.mem_of_get? e)
  · exact hr'

theorem fine_toJson (c : Cls F) (b : Bool) {a : Attrs F} (h : FA q a) : Fine q (c.toJson b a) := fine_dict.2 (h.filter _)

end Cls

theorem fa_without {a : Attrs F} (h : FA q a) (ks : List Str) : FA q (a.without ks) := h.filter _

theorem not_mem_without (a : Attrs F) (ks : List Str) : ∀ k ∈ ks, k ∉ Dict.keys (a.without ks) := by
  intro k hk hm
  obtain ⟨p, hp, rfl⟩ := List.mem_map.1 hm
  have := (List.mem_filter.1 hp).2
  simp [hk] at this

theorem fa_cons {k : Str} {v : JVal F} {a : Attrs F} (h : FA q a) (hk : k ∉ Dict.keys a) (hv : Fine q v) : FA q ((k, v) :: a) := by
  refine ⟨?_, fun p hp => ?_⟩
  · show (k :: Dict.keys a).Nodup
    exact List.nodup_cons.2 ⟨hk, h.1⟩
  · rcases List.mem_cons.1 hp with rfl | hp
    · exact hv
    · exact h.2 p hp

/-! ### Typed classes -/

structure Bone.Ok (q : F → Prop) (b : Bone F) : Prop where
  rest : FA q b.rest
  name : s!!"name" ∉ Dict.keys b.rest
  parent : s!!"parent" ∉ Dict.keys b.rest

theorem Bone.ok_init {v : JVal F} {x : Bone F} (hv : Fine q v) (h : Bone.init v = .ok x) : x.Ok q := by
  obtain ⟨a, h1, h⟩ := bindOk h
  have ha := Cls.fine_init (by simp [leafClasses]) hv h1
  obtain ⟨n, h2, h⟩ := bindOk h
  cases n with
  | none => cases h
  | some n =>
    obtain ⟨p, h3, h⟩ := bindOk h
    injection h with h; subst h
    exact ⟨fa_without ha _, not_mem_without a _ _ (by simp), not_mem_without a _ _ (by simp)⟩

theorem Bone.ok_setDefaults (h1 : q PyRt.fone) (b : Bool) {x : Bone F} (h : x.Ok q) : (x.setDefaults b).Ok q := by
  refine ⟨Cls.fine_setDefaults (by simp [leafClasses]) h1 b h.rest, ?_, ?_⟩
  · show _ ∉ Dict.keys (boneCls.setDefaults b x.rest)
    rw [Cls.keys_setDefaults]; exact h.name
  · show _ ∉ Dict.keys (boneCls.setDefaults b x.rest)
    rw [Cls.keys_setDefaults]; exact h.parent

theorem Bone.fine_toJson (b : Bool) {x : Bone F} (h : x.Ok q) : Fine q (x.toJson b) := by
  refine Cls.fine_toJson _ b (fa_cons (fa_cons h.rest h.parent (fine_optJ _)) ?_ (fine_str _))
  show s!!"name" ∉ s!!"parent" :: Dict.keys x.rest
  simp only [List.mem_cons, not_or]
  exact ⟨by decide, h.name⟩

structure Slot.Ok (q : F → Prop) (s : Slot F) : Prop where
  dark : Fine q s.dark
  blend : Fine q s.blend

theorem Slot.ok_init {v : JVal F} {x : Slot F} (hv : Fine q v) (h : Slot.init v = .ok x) : x.Ok q := by
  obtain ⟨a, h1, h⟩ := bindOk h
  have ha := Cls.fine_init (by simp [leafClasses]) hv h1
  obtain ⟨n, h2, h⟩ := bindOk h
  cases n with
  | none => cases h
  | some n =>
    obtain ⟨_, _, h⟩ := bindOk h
    obtain ⟨_, _, h⟩ := bindOk h
    obtain ⟨_, _, h⟩ := bindOk h
    injection h with h; subst h
    exact ⟨fine_val ha _, fine_val ha _⟩

theorem Slot.fine_toJson (b : Bool) {x : Slot F} (h : x.Ok q) : Fine q (x.toJson b) := by
  refine Cls.fine_toJson _ b ⟨?_, ?_⟩
  · simp only [Slot.attrs, Dict.keys, List.map_cons, List.map_nil]; decide
  · intro p hp
    simp only [Slot.attrs, List.mem_cons, List.not_mem_nil, or_false] at hp
    rcases hp with rfl | rfl | rfl | rfl | rfl | rfl
    · exact fine_str _
    · exact fine_optJ _
    · exact fine_optJ _
    · exact fine_optJ _
    · exact h.dark
    · exact h.blend

def Att.Ok (q : F → Prop) (x : Att F) : Prop := FA q x.attrs

theorem Att.ok_init {v : JVal F} {x : Att F} (hv : Fine q v) (h : Att.init v = .ok x) : x.Ok q := by
  obtain ⟨d, e, hk, hi, ht⟩ := Att.init_ok h
  subst e
  exact Cls.fine_init (AttKind.cls_mem _) hv hi

theorem Att.ok_setDefaults (h1 : q PyRt.fone) (b : Bool) {x : Att F} (h : x.Ok q) : (x.setDefaults b).Ok q :=
  Cls.fine_setDefaults (AttKind.cls_mem _) h1 b h

def Skin.Ok (q : F → Prop) (x : Skin F) : Prop := FD (FD (Att.Ok q)) x.attachments

theorem Skin.ok_init {v : JVal F} {x : Skin F} (hv : Fine q v) (h : Skin.init v = .ok x) : x.Ok q := by
  obtain ⟨d, hd, h⟩ := bindOk h
  have pd := fine_orDict hv hd
  obtain ⟨_, _, h⟩ := bindOk h
  obtain ⟨_, _, h⟩ := bindOk h
  have pw := fine_getD pd s!!"attachments" (fine_null (q := q))
  generalize (Dict.get? d s!!"attachments").getD .null = w at h pw
  have lev : ∀ {v : JVal F} {d : Dict (JVal F)}, Fine q v → Skin.level v = .ok d → FD (Fine q) d := by
    intro v d hv hd
    unfold Skin.level at hd
    split at hd
    · injection hd with hd; subst hd; exact fine_dict.1 hv
    · cases hd
  split at h
  · injection h with h; subst h; exact .nil
  · obtain ⟨a, h1, h⟩ := bindOk h
    injection h with h; subst h
    obtain ⟨l, h2, h3⟩ := bindOk h1
    refine (lev pw h2).mapD ?_ h3
    intro w e hw he
    obtain ⟨l', h4, h5⟩ := bindOk he
    exact (lev hw h4).mapD (fun _ _ => Att.ok_init) h5

theorem Skin.ok_setDefaults (h1 : q PyRt.fone) (b : Bool) {x : Skin F} (h : x.Ok q) : (x.setDefaults b).Ok q :=
  FD.dmap (f := dmap (Att.setDefaults b)) h (fun _ h => h.dmap (fun _ => Att.ok_setDefaults h1 b))

theorem fd_single {α : Type} {P : α → Prop} {k : Str} {v : α} (h : P v) : FD P [(k, v)] :=
  ⟨by simp [Dict.keys], by simpa using h⟩

theorem Skin.fine_toJson (b : Bool) {x : Skin F} (h : x.Ok q) : Fine q (x.toJson b) := by
  have hd : Fine q (.dict (x.attachments.map (fun p => (p.1, .dict (p.2.map (fun q => (q.1, q.2.toJson b))))))) :=
    fine_dict.2 (FD.dmap (f := fun e : Dict (Att F) => (JVal.dict (dmap (Att.toJson b) e) : JVal F)) h (fun _ h => fine_dict.2 (h.dmap
      (fun _ h => Cls.fine_toJson _ b h))))
  unfold Skin.toJson
  refine fine_dict.2 ?_
  split <;> split
  · exact .nil
  · exact fd_single hd
  · exact fd_single (fine_str _)
  · exact ⟨by simp [Dict.keys], by
      intro p hp
      simp only [List.cons_append, List.nil_append, List.mem_cons, List.not_mem_nil, or_false] at hp
      rcases hp with rfl | rfl
      · exact fine_str _
      · exact hd⟩

structure SlotKf.Ok (q : F → Prop) (x : SlotKf F) : Prop where
  rest : FA q x.rest
  name : s!!"name" ∉ Dict.keys x.rest

theorem SlotKf.ok_init {v : JVal F} {x : SlotKf F} (hv : Fine q v) (h : SlotKf.init v = .ok x) : x.Ok q := by
  obtain ⟨a, h1, h⟩ := bindOk h
  have ha := Cls.fine_init (by simp [leafClasses]) hv h1
  obtain ⟨n, h2, h⟩ := bindOk h
  injection h with h; subst h
  exact ⟨fa_without ha _, not_mem_without a _ _ (by simp)⟩

theorem SlotKf.ok_setDefaults (h1 : q PyRt.fone) (b : Bool) {x : SlotKf F} (h : x.Ok q) : (x.setDefaults b).Ok q := by
  refine ⟨Cls.fine_setDefaults (by simp [leafClasses]) h1 b h.rest, ?_⟩
  show _ ∉ Dict.keys (slotKeyframeCls.setDefaults b x.rest)
  rw [Cls.keys_setDefaults]; exact h.name

theorem SlotKf.fine_toJson (b : Bool) {x : SlotKf F} (h : x.Ok q) : Fine q (x.toJson b) :=
  Cls.fine_toJson _ b (fa_cons h.rest h.name (fine_optJ _))

/-! ### Parts of a document that are left out when empty -/

theorem keys_jl {α : Type} (k : Str) (f : α → JVal F) (l : List α) : (Dict.keys (jl k f l)).Sublist [k] := by
  unfold jl
  split
  · exact List.nil_sublist _
  · exact List.Sublist.refl _

theorem keys_jd {α : Type} (k : Str) (f : α → JVal F) (l : Dict α) : (Dict.keys (jd k f l)).Sublist [k] := by
  unfold jd
  split
  · exact List.nil_sublist _
  · exact List.Sublist.refl _

theorem mem_jl {α : Type} {P : α → Prop} {k : Str} {f : α → JVal F} {l : List α} (h : ∀ x ∈ l, P x) (hf : ∀ x, P x → Fine q (f x)) :
    ∀ p ∈ jl k f l, Fine q p.2 := by
  unfold jl
  split
  · simp
  · intro p hp
    simp only [List.mem_cons, List.not_mem_nil, or_false] at hp
    subst hp
    exact fine_list.2 (fl_map h hf)

theorem mem_jd {α : Type} {P : α → Prop} {k : Str} {f : α → JVal F} {l : Dict α} (h : FD P l) (hf : ∀ x, P x → Fine q (f x)) :
    ∀ p ∈ jd k f l, Fine q p.2 := by
  unfold jd
  split
  · simp
  · intro p hp
    simp only [List.mem_cons, List.not_mem_nil, or_false] at hp
    subst hp
    exact fine_dict.2 (FD.dmap h hf)

/-- a concatenation of parts -/
theorem fd_parts {ks : List Str} {d : Dict (JVal F)} (hk : (Dict.keys d).Sublist ks) (hn : ks.Nodup) (h : ∀ p ∈ d, Fine q p.2) :
    FD (Fine q) d := ⟨hn.sublist hk, h⟩

theorem keys_parts {d e : Dict (JVal F)} {ks ms : List Str} (h1 : (Dict.keys d).Sublist ks) (h2 : (Dict.keys e).Sublist ms) :
    (Dict.keys (d ++ e)).Sublist (ks ++ ms) := by
  unfold Dict.keys at *
  rw [List.map_append]
  exact h1.append h2

theorem mem_parts {d e : Dict (JVal F)} (h1 : ∀ p ∈ d, Fine q p.2) (h2 : ∀ p ∈ e, Fine q p.2) : ∀ p ∈ d ++ e, Fine q p.2 := by
  intro p hp
  rcases List.mem_append.1 hp with hp | hp
  · exact h1 p hp
  · exact h2 p hp

/-! ### Timelines -/

structure SlotTl.Ok (q : F → Prop) (x : SlotTl F) : Prop where
  attachment : ∀ k ∈ x.attachment, k.Ok q
  color : ∀ k ∈ x.color, k.Ok q
  twoColor : ∀ k ∈ x.twoColor, k.Ok q

theorem SlotTl.ok_init {v : JVal F} {x : SlotTl F} (hv : Fine q v) (h : SlotTl.init v = .ok x) : x.Ok q := by
  obtain ⟨d, hd, h⟩ := bindOk h
  have pd := fine_orDict hv hd
  obtain ⟨_, g1, h⟩ := bindOk h
  obtain ⟨a, h1, h⟩ := bindOk h
  obtain ⟨_, g2, h⟩ := bindOk h
  obtain ⟨c, h2, h⟩ := bindOk h
  obtain ⟨_, g3, h⟩ := bindOk h
  obtain ⟨t, h3, h⟩ := bindOk h
  obtain ⟨_, _, h⟩ := bindOk h
  injection h with h; subst h
  exact ⟨fl_mapE (fine_getIter pd g1) (fun _ _ => SlotKf.ok_init) h1, fl_mapE (fine_getIter pd g2) (fun _ _ => SlotKf.ok_init) h2,
    fl_mapE (fine_getIter pd g3) (fun _ _ => SlotKf.ok_init) h3⟩

theorem SlotTl.ok_setDefaults (h1 : q PyRt.fone) (b : Bool) {x : SlotTl F} (h : x.Ok q) : (x.setDefaults b).Ok q :=
  ⟨fl_map h.attachment (fun _ => SlotKf.ok_setDefaults h1 b), fl_map h.color (fun _ => SlotKf.ok_setDefaults h1 b),
    fl_map h.twoColor (fun _ => SlotKf.ok_setDefaults h1 b)⟩

theorem SlotTl.fine_toJson (b : Bool) {x : SlotTl F} (h : x.Ok q) : Fine q (x.toJson b) :=
  fine_dict.2 (fd_parts (keys_parts (keys_parts (keys_jl _ _ _) (keys_jl _ _ _)) (keys_jl _ _ _)) (by decide)
    (mem_parts (mem_parts (mem_jl h.attachment (fun _ => SlotKf.fine_toJson b)) (mem_jl h.color (fun _ => SlotKf.fine_toJson b)))
      (mem_jl h.twoColor (fun _ => SlotKf.fine_toJson b))))

structure BoneTl.Ok (q : F → Prop) (x : BoneTl F) : Prop where
  rotate : ∀ k ∈ x.rotate, FA q k
  translate : ∀ k ∈ x.translate, FA q k
  scale : ∀ k ∈ x.scale, FA q k
  shear : ∀ k ∈ x.shear, FA q k

theorem fl_init {c : Cls F} (hc : c ∈ (leafClasses : List (Cls F))) {l : List (JVal F)} {m : List (Attrs F)} (hl : ∀ x ∈ l, Fine q x)
    (h : mapE c.init l = .ok m) : ∀ a ∈ m, FA q a := fl_mapE hl (fun _ _ => Cls.fine_init hc) h

theorem fl_defaults {c : Cls F} (hc : c ∈ (leafClasses : List (Cls F))) (h1 : q PyRt.fone) (b : Bool) {l : List (Attrs F)} (h : ∀ x ∈ l, FA q x) :
    ∀ x ∈ l.map (c.setDefaults b), FA q x := fl_map h (fun _ => Cls.fine_setDefaults hc h1 b)

theorem BoneTl.ok_init {v : JVal F} {x : BoneTl F} (hv : Fine q v) (h : BoneTl.init v = .ok x) : x.Ok q := by
  obtain ⟨d, hd, h⟩ := bindOk h
  have pd := fine_orDict hv hd
  obtain ⟨_, g1, h⟩ := bindOk h
  obtain ⟨a, h1, h⟩ := bindOk h
  obtain ⟨_, g2, h⟩ := bindOk h
  obtain ⟨c, h2, h⟩ := bindOk h
  obtain ⟨_, g3, h⟩ := bindOk h
  obtain ⟨t, h3, h⟩ := bindOk h
  obtain ⟨_, g4, h⟩ := bindOk h
  obtain ⟨u, h4, h⟩ := bindOk h
  obtain ⟨_, _, h⟩ := bindOk h
  injection h with h; subst h
  exact ⟨fl_init (by simp [leafClasses]) (fine_getIter pd g1) h1, fl_init (by simp [leafClasses]) (fine_getIter pd g2) h2,
    fl_init (by simp [leafClasses]) (fine_getIter pd g3) h3, fl_init (by simp [leafClasses]) (fine_getIter pd g4) h4⟩

theorem BoneTl.ok_setDefaults (h1 : q PyRt.fone) (b : Bool) {x : BoneTl F} (h : x.Ok q) : (x.setDefaults b).Ok q :=
  ⟨fl_defaults (by simp [leafClasses]) h1 b h.rotate, fl_defaults (by simp [leafClasses]) h1 b h.translate,
    fl_defaults (by simp [leafClasses]) h1 b h.scale, fl_defaults (by simp [leafClasses]) h1 b h.shear⟩

theorem BoneTl.fine_toJson (b : Bool) {x : BoneTl F} (h : x.Ok q) : Fine q (x.toJson b) :=
  fine_dict.2 (fd_parts (keys_parts (keys_parts (keys_parts (keys_jl _ _ _) (keys_jl _ _ _)) (keys_jl _ _ _)) (keys_jl _ _ _)) (by decide)
    (mem_parts (mem_parts (mem_parts (mem_jl h.rotate (fun _ => Cls.fine_toJson _ b)) (mem_jl h.translate (fun _ => Cls.fine_toJson _ b)))
      (mem_jl h.scale (fun _ => Cls.fine_toJson _ b))) (mem_jl h.shear (fun _ => Cls.fine_toJson _ b))))

def DrawTl.Ok (q : F → Prop) (x : DrawTl F) : Prop := Fine q x.time

theorem DrawTl.ok_init {v : JVal F} {x : DrawTl F} (hv : Fine q v) (h : DrawTl.init v = .ok x) : x.Ok q := by
  obtain ⟨d, hd, h⟩ := bindOk h
  have pd := fine_orDict hv hd
  obtain ⟨_, g1, h⟩ := bindOk h
  obtain ⟨a, h1, h⟩ := bindOk h
  obtain ⟨_, _, h⟩ := bindOk h
  injection h with h; subst h
  exact fine_getD pd _ (fine_int _)

theorem DrawTl.ok_setDefaults (b : Bool) {x : DrawTl F} (h : x.Ok q) : (x.setDefaults b).Ok q := by
  unfold DrawTl.Ok DrawTl.setDefaults Cls.setDefaults Attrs.val at *
  simp only [List.map_cons, List.map_nil]
  split
  · simp only [Dict.get?, if_true, Option.getD_some]
    cases b <;> simp [drawCls, Cls.defaultsFor, Dict.get?, fine_null, fine_int]
  · simpa [Dict.get?] using h

theorem DrawTl.fine_toJson (b : Bool) {x : DrawTl F} (h : x.Ok q) : Fine q (x.toJson b) := by
  have ho : Fine q (.list (x.offsets.map (offsetToJson b))) := by
    refine fine_list.2 (fl_map (P := fun _ => True) (fun _ _ => trivial) (fun o _ => Cls.fine_toJson _ b ⟨?_, ?_⟩))
    · simp [Dict.keys]
    · intro p hp
      simp only [List.mem_cons, List.not_mem_nil, or_false] at hp
      rcases hp with rfl | rfl
      · exact fine_str _
      · exact fine_int _
  unfold DrawTl.toJson
  refine fine_dict.2 ?_
  split
  · refine ⟨by simp [Dict.keys], fun p hp => ?_⟩
    simp only [List.cons_append, List.nil_append, List.mem_cons, List.not_mem_nil, or_false] at hp
    rcases hp with rfl | rfl
    · exact h
    · exact ho
  · exact fd_single ho

/-! ### Animations -/

structure Anim.Ok (q : F → Prop) (x : Anim F) : Prop where
  ik : FD (fun l => ∀ a ∈ l, FA q a) x.ik
  drawOrder : ∀ t ∈ x.drawOrder, t.Ok q
  bones : FD (BoneTl.Ok q) x.bones
  slots : FD (SlotTl.Ok q) x.slots
  events : ∀ a ∈ x.events, FA q a
  transform : FD (fun l => ∀ a ∈ l, FA q a) x.transform
  path : FD (FD (fun l => ∀ a ∈ l, FA q a)) x.path
  deform : FD (FD (FD (fun l => ∀ a ∈ l, FA q a))) x.deform

theorem fine_listOf {c : Cls F} (hc : c ∈ (leafClasses : List (Cls F))) {v : JVal F} {l : List (Attrs F)} (hv : Fine q v)
    (h : Anim.listOf c v = .ok l) : ∀ a ∈ l, FA q a := by
  obtain ⟨m, h1, h2⟩ := bindOk h
  exact fl_init hc (fine_iter hv h1) h2

theorem Anim.ok_init {v : JVal F} {x : Anim F} (hv : Fine q v) (h : Anim.init v = .ok x) : x.Ok q := by
  obtain ⟨d, hd, h⟩ := bindOk h
  have pd := fine_orDict hv hd
  obtain ⟨ik, e1, h⟩ := bindOk h
  obtain ⟨_, g1, h⟩ := bindOk h
  obtain ⟨dr, e2, h⟩ := bindOk h
  obtain ⟨bo, e3, h⟩ := bindOk h
  obtain ⟨sl, e4, h⟩ := bindOk h
  obtain ⟨_, g2, h⟩ := bindOk h
  obtain ⟨ev, e5, h⟩ := bindOk h
  obtain ⟨tr, e6, h⟩ := bindOk h
  obtain ⟨pa, e7, h⟩ := bindOk h
  obtain ⟨de, e8, h⟩ := bindOk h
  obtain ⟨_, _, h⟩ := bindOk h
  injection h with h; subst h
  have he : Fine q (.dict [] : JVal F) := fine_dict.2 .nil
  refine ⟨fine_getDict pd (fun _ _ => fine_listOf (by simp [leafClasses])) e1, fl_mapE (fine_getIter pd g1) (fun _ _ => DrawTl.ok_init) e2,
    fine_getDict pd (fun _ _ => BoneTl.ok_init) e3, fine_getDict pd (fun _ _ => SlotTl.ok_init) e4,
    fl_init (by simp [leafClasses]) (fine_getIter pd g2) e5, fine_getDict pd (fun _ _ => fine_listOf (by simp [leafClasses])) e6, ?_, ?_⟩
  · obtain ⟨p, k1, k2⟩ := bindOk e7
    refine (fine_itemsOf (fine_getD pd _ he) k1).mapD ?_ k2
    intro w y hw hy
    obtain ⟨p', k3, k4⟩ := bindOk hy
    exact (fine_itemsOf hw k3).mapD (fun _ _ => fine_listOf (by simp [leafClasses])) k4
  · obtain ⟨p, k1, k2⟩ := bindOk e8
    refine (fine_itemsOf (fine_getD pd _ he) k1).mapD ?_ k2
    intro w y hw hy
    obtain ⟨p', k3, k4⟩ := bindOk hy
    refine (fine_itemsOf hw k3).mapD ?_ k4
    intro w y hw hy
    obtain ⟨p', k3, k4⟩ := bindOk hy
    exact (fine_itemsOf hw k3).mapD (fun _ _ => fine_listOf (by simp [leafClasses])) k4

theorem Anim.ok_setDefaults (h1 : q PyRt.fone) (b : Bool) {x : Anim F} (h : x.Ok q) : (x.setDefaults b).Ok q :=
  ⟨h.ik.dmap (fun _ => fl_defaults (by simp [leafClasses]) h1 b), fl_map h.drawOrder (fun _ => DrawTl.ok_setDefaults b),
    h.bones.dmap (fun _ => BoneTl.ok_setDefaults h1 b), h.slots.dmap (fun _ => SlotTl.ok_setDefaults h1 b),
    fl_defaults (by simp [leafClasses]) h1 b h.events, h.transform.dmap (fun _ => fl_defaults (by simp [leafClasses]) h1 b),
    h.path.dmap (fun _ h => h.dmap (fun _ => fl_defaults (by simp [leafClasses]) h1 b)),
    h.deform.dmap (fun _ h => h.dmap (fun _ h => h.dmap (fun _ => fl_defaults (by simp [leafClasses]) h1 b)))⟩

theorem fine_jlist (c : Cls F) (b : Bool) (l : List (Attrs F)) (h : ∀ a ∈ l, FA q a) : Fine q (Anim.jlist c b l) :=
  fine_list.2 (fl_map h (fun _ => Cls.fine_toJson c b))

theorem fine_jdict (c : Cls F) (b : Bool) (d : Dict (List (Attrs F))) (h : FD (fun l => ∀ a ∈ l, FA q a) d) : Fine q (Anim.jdict c b d) :=
  fine_dict.2 (h.dmap (fun _ => fine_jlist c b _))

theorem Anim.fine_toJson (b : Bool) {x : Anim F} (h : x.Ok q) : Fine q (x.toJson b) :=
  fine_dict.2 (fd_parts (keys_parts (keys_parts (keys_parts (keys_parts (keys_parts (keys_parts (keys_parts (keys_jd _ _ _) (keys_jl _ _ _))
    (keys_jd _ _ _)) (keys_jd _ _ _)) (keys_jl _ _ _)) (keys_jd _ _ _)) (keys_jd _ _ _)) (keys_jd _ _ _)) (by decide)
    (mem_parts (mem_parts (mem_parts (mem_parts (mem_parts (mem_parts (mem_parts (mem_jd h.ik (fine_jlist _ b))
      (mem_jl h.drawOrder (fun _ => DrawTl.fine_toJson b))) (mem_jd h.bones (fun _ => BoneTl.fine_toJson b)))
      (mem_jd h.slots (fun _ => SlotTl.fine_toJson b))) (mem_jl h.events (fun _ => Cls.fine_toJson _ b)))
      (mem_jd h.transform (fine_jlist _ b))) (mem_jd h.path (fine_jdict _ b)))
      (mem_jd h.deform (fun _ h => fine_dict.2 (h.dmap (fine_jdict _ b))))))

/-! ### The document -/

structure AnimData.Ok (q : F → Prop) (x : AnimData F) : Prop where
  bones : ∀ y ∈ x.bones, y.Ok q
  slots : ∀ y ∈ x.slots, y.Ok q
  skins : ∀ y ∈ x.skins, y.Ok q
  events : FD (FA q) x.events
  ik : ∀ y ∈ x.ik, FA q y
  transform : ∀ y ∈ x.transform, FA q y
  path : ∀ y ∈ x.path, FA q y
  animations : FD (Anim.Ok q) x.animations

theorem AnimData.ok_init {d : Dict (JVal F)} {x : AnimData F} (hd : FD (Fine q) d) (h : AnimData.init d = .ok x) : x.Ok q := by
  unfold AnimData.init at h
  have pd := hd.del s!!"skeleton"
  obtain ⟨_, a1, h⟩ := bindOk h
  obtain ⟨_, a2, h⟩ := bindOk h
  obtain ⟨bo, a3, h⟩ := bindOk h
  obtain ⟨_, b1, h⟩ := bindOk h
  obtain ⟨_, b2, h⟩ := bindOk h
  obtain ⟨sl, b3, h⟩ := bindOk h
  obtain ⟨_, c1, h⟩ := bindOk h
  obtain ⟨_, c2, h⟩ := bindOk h
  obtain ⟨sk, c3, h⟩ := bindOk h
  obtain ⟨ev, d1, h⟩ := bindOk h
  obtain ⟨_, e1, h⟩ := bindOk h
  obtain ⟨ik, e2, h⟩ := bindOk h
  obtain ⟨_, f1, h⟩ := bindOk h
  obtain ⟨tr, f2, h⟩ := bindOk h
  obtain ⟨_, g1, h⟩ := bindOk h
  obtain ⟨pa, g2, h⟩ := bindOk h
  obtain ⟨an, i1, h⟩ := bindOk h
  obtain ⟨_, _, h⟩ := bindOk h
  injection h with h; subst h
  exact ⟨fl_mapE (fine_iter (fine_getItem pd a1) a2) (fun _ _ => Bone.ok_init) a3,
    fl_mapE (fine_iter (fine_getItem pd b1) b2) (fun _ _ => Slot.ok_init) b3,
    fl_mapE (fine_iter (fine_getItem pd c1) c2) (fun _ _ => Skin.ok_init) c3,
    fine_getDict pd (fun _ _ => Cls.fine_init (by simp [leafClasses])) d1,
    fl_init (by simp [leafClasses]) (fine_getIter pd e1) e2, fl_init (by simp [leafClasses]) (fine_getIter pd f1) f2,
    fl_init (by simp [leafClasses]) (fine_getIter pd g1) g2, fine_getDict pd (fun _ _ => Anim.ok_init) i1⟩

theorem AnimData.ok_setDefaults (h1 : q PyRt.fone) (b : Bool) {x : AnimData F} (h : x.Ok q) : (x.setDefaults b).Ok q :=
  ⟨fl_map h.bones (fun _ => Bone.ok_setDefaults h1 b), h.slots, fl_map h.skins (fun _ => Skin.ok_setDefaults h1 b),
    h.events.dmap (fun _ => Cls.fine_setDefaults (by simp [leafClasses]) h1 b), fl_defaults (by simp [leafClasses]) h1 b h.ik,
    fl_defaults (by simp [leafClasses]) h1 b h.transform, fl_defaults (by simp [leafClasses]) h1 b h.path,
    h.animations.dmap (fun _ => Anim.ok_setDefaults h1 b)⟩

theorem AnimData.fine_toJson (b : Bool) {x : AnimData F} (h : x.Ok q) : FD (Fine q) (x.toJson b) := by
  have hs : ∀ p ∈ [(s!!"skins", JVal.list (x.skins.map (·.toJson b)))], Fine q p.2 := by
    intro p hp
    simp only [List.mem_cons, List.not_mem_nil, or_false] at hp
    subst hp
    exact fine_list.2 (fl_map h.skins (fun _ => Skin.fine_toJson b))
  exact fd_parts (keys_parts (keys_parts (keys_parts (keys_parts (keys_parts (keys_parts (keys_parts (keys_jl _ _ _) (keys_jl _ _ _))
      (List.Sublist.refl _)) (keys_jd _ _ _)) (keys_jl _ _ _)) (keys_jl _ _ _)) (keys_jl _ _ _)) (keys_jd _ _ _)) (by simp [Dict.keys])
    (mem_parts (mem_parts (mem_parts (mem_parts (mem_parts (mem_parts (mem_parts (mem_jl h.bones (fun _ => Bone.fine_toJson b))
      (mem_jl h.slots (fun _ => Slot.fine_toJson b))) hs) (mem_jd h.events (fun _ => Cls.fine_toJson _ b)))
      (mem_jl h.ik (fun _ => Cls.fine_toJson _ b))) (mem_jl h.transform (fun _ => Cls.fine_toJson _ b)))
      (mem_jl h.path (fun _ => Cls.fine_toJson _ b))) (mem_jd h.animations (fun _ => Anim.fine_toJson b)))

structure SpineDoc.Ok (q : F → Prop) (s : SpineDoc F) : Prop where
  skeleton : FD (Fine q) s.skeleton
  data : s.data.Ok q

theorem SpineDoc.ok_load (h1 : q PyRt.fone) {doc : JVal F} {s : SpineDoc F} (hd : Fine q doc) (h : SpineDoc.load doc = .ok s) : s.Ok q := by
  obtain ⟨d, v, a, rfl, g1, _, _, g2, g3⟩ := SpineDoc.load_ok h
  have pd := fine_dict.1 hd
  exact ⟨fine_dict.1 (pd.get? g1), by rw [g3]; exact AnimData.ok_setDefaults h1 _ (AnimData.ok_init pd g2)⟩

theorem SpineDoc.fine_toJson {s : SpineDoc F} (h : s.Ok q) : Fine q s.toJson :=
  fine_dict.2 ((AnimData.fine_toJson _ h.data).set _ (fine_dict.2 h.skeleton))

end values
end Spine
