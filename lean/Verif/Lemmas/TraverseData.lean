import Verif.Model.Traverse
import Verif.Lemmas.Data
/-
The traversal of Model/Traverse.lean agrees with the class-by-class operations of Model/Data.lean.
-/
set_option linter.unusedSectionVars false
namespace Spine
open JVal
variable {F : Type} [PyRt F]

namespace SVal

mutual
theorem toJson_ofJ (b : Bool) : ∀ v : JVal F, (ofJ v).toJson b = .ok v
  | .null => rfl
  | .bool _ => rfl
  | .int _ => rfl
  | .flt _ => rfl
  | .str _ => rfl
  | .list l => by simp [ofJ, toJson, toJsonL_ofJ b l]
  | .dict d => by simp [ofJ, toJson, toJsonD_ofJ b d]
theorem toJsonL_ofJ (b : Bool) : ∀ l : List (JVal F), toJsonL b (ofJs l) = .ok l
  | [] => rfl
  | v :: r => by simp [ofJs, toJsonL, toJson_ofJ b v, toJsonL_ofJ b r]
theorem toJsonD_ofJ (b : Bool) : ∀ l : List (Str × JVal F), toJsonD b (ofJd l) = .ok l
  | [] => rfl
  | (k, v) :: r => by simp [ofJd, toJsonD, toJson_ofJ b v, toJsonD_ofJ b r]
end

mutual
theorem plain_ofJ : ∀ v : JVal F, (ofJ v).plain = some v
  | .null => rfl
  | .bool _ => rfl
  | .int _ => rfl
  | .flt _ => rfl
  | .str _ => rfl
  | .list l => by simp [ofJ, plain, plains_ofJ l]
  | .dict d => by simp [ofJ, plain, plaind_ofJ d]
theorem plains_ofJ : ∀ l : List (JVal F), plains (ofJs l) = some l
  | [] => rfl
  | v :: r => by simp [ofJs, plains, plain_ofJ v, plains_ofJ r]
theorem plaind_ofJ : ∀ l : List (Str × JVal F), plaind (ofJd l) = some l
  | [] => rfl
  | (k, v) :: r => by simp [ofJd, plaind, plain_ofJ v, plaind_ofJ r]
end

mutual
theorem setDefaults_ofJ (b : Bool) : ∀ v : JVal F, (ofJ v).setDefaults b = .ok (ofJ v)
  | .null => rfl
  | .bool _ => rfl
  | .int _ => rfl
  | .flt _ => rfl
  | .str _ => rfl
  | .list l => by simp [ofJ, setDefaults, setDefaultsL_ofJ b l]
  | .dict d => by simp [ofJ, setDefaults, setDefaultsD_ofJ b d]
theorem setDefaultsL_ofJ (b : Bool) : ∀ l : List (JVal F), setDefaultsL b (ofJs l) = .ok (ofJs l)
  | [] => rfl
  | v :: r => by simp [ofJs, setDefaultsL, setDefaults_ofJ b v, setDefaultsL_ofJ b r]
theorem setDefaultsD_ofJ (b : Bool) : ∀ l : List (Str × JVal F), setDefaultsD b (ofJd l) = .ok (ofJd l)
  | [] => rfl
  | (k, v) :: r => by simp [ofJd, setDefaultsD, setDefaults_ofJ b v, setDefaultsD_ofJ b r]
end

mutual
theorem clean_ofJ (ver : Version) : ∀ v : JVal F, (ofJ v).clean ver = .ok (ofJ v)
  | .null => rfl
  | .bool _ => rfl
  | .int _ => rfl
  | .flt _ => rfl
  | .str _ => rfl
  | .list l => by simp [ofJ, clean, cleanL_ofJ ver l]
  | .dict d => by simp [ofJ, clean, cleanD_ofJ ver d]
theorem cleanL_ofJ (ver : Version) : ∀ l : List (JVal F), cleanL ver (ofJs l) = .ok (ofJs l)
  | [] => rfl
  | v :: r => by simp [ofJs, cleanL, clean_ofJ ver v, cleanL_ofJ ver r]
theorem cleanD_ofJ (ver : Version) : ∀ l : List (Str × JVal F), cleanD ver (ofJd l) = .ok (ofJd l)
  | [] => rfl
  | (k, v) :: r => by simp [ofJd, cleanD, clean_ofJ ver v, cleanD_ofJ ver r]
end

theorem isNull_ofJ (v : JVal F) : (ofJ v).isNull = v.isNull := by cases v <;> rfl

theorem emits_ofJ (c : Cls F) (b : Bool) (k : Str) (v : JVal F) : emits c b k (ofJ v) = c.emits b k v := by
  simp only [emits, Cls.emits, eqJ, isNull_ofJ, plain_ofJ]
  cases Dict.get? (c.defaultsFor b) k <;> rfl

theorem toJsonA_ofJ (b : Bool) (c : Cls F) : ∀ a : Attrs F,
    toJsonA b c (dmap ofJ a) = .ok (a.filter (fun p => c.emits b p.1 p.2))
  | [] => rfl
  | (k, v) :: r => by
    have ih := toJsonA_ofJ b c r
    simp only [dmap] at ih
    simp only [dmap, List.map_cons, toJsonA, emits_ofJ, toJson_ofJ, ih, List.filter_cons]
    split <;> rfl

theorem setDefaultsA_ofJ (b : Bool) (c : Cls F) : ∀ a : Attrs F,
    setDefaultsA b c (dmap ofJ a) = .ok (dmap ofJ (c.setDefaults b a))
  | [] => rfl
  | (k, v) :: r => by
    have ih := setDefaultsA_ofJ b c r
    simp only [dmap, Cls.setDefaults] at ih
    simp only [dmap, List.map_cons, setDefaultsA, isNull_ofJ, setDefaults_ofJ, ih, Cls.setDefaults]
    cases v <;> simp [JVal.isNull]

theorem cleanA_ofJ (ver : Version) (c : Cls F) : ∀ a : Attrs F,
    cleanA ver c (dmap ofJ a) = .ok (dmap ofJ (c.removeUnsupported ver a))
  | [] => rfl
  | (k, v) :: r => by
    have ih := cleanA_ofJ ver c r
    simp only [dmap, Cls.removeUnsupported] at ih
    simp only [dmap, List.map_cons, cleanA, clean_ofJ, ih, Cls.removeUnsupported]
    by_cases h : ver.lt Version.v38 = true ∧ k ∈ c.unsupportedOld
    · simp only [if_pos h]; rfl
    · simp only [if_neg h]

/-! ### Containers -/

theorem toJsonL_map {α : Type} (b : Bool) {f : α → SVal F} {g : α → JVal F} (h : ∀ x, (f x).toJson b = .ok (g x)) :
    ∀ l : List α, toJsonL b (l.map f) = .ok (l.map g)
  | [] => rfl
  | x :: r => by simp [toJsonL, h x, toJsonL_map b h r]

theorem toJsonD_map {α : Type} (b : Bool) {f : α → SVal F} {g : α → JVal F} (h : ∀ x, (f x).toJson b = .ok (g x)) :
    ∀ d : Dict α, toJsonD b (dmap f d) = .ok (dmap g d)
  | [] => rfl
  | (k, x) :: r => by
    have ih := toJsonD_map b h r
    simp only [dmap] at ih
    simp [dmap, toJsonD, h x, ih]

theorem setDefaultsL_map {α β : Type} (b : Bool) {f : α → SVal F} {g : β → SVal F} {u : α → β}
    (h : ∀ x, (f x).setDefaults b = .ok (g (u x))) : ∀ l : List α, setDefaultsL b (l.map f) = .ok ((l.map u).map g)
  | [] => rfl
  | x :: r => by
    have ih := setDefaultsL_map b h r
    simp only [List.map_map] at ih
    simp [setDefaultsL, h x, ih]

theorem setDefaultsD_map {α β : Type} (b : Bool) {f : α → SVal F} {g : β → SVal F} {u : α → β}
    (h : ∀ x, (f x).setDefaults b = .ok (g (u x))) : ∀ d : Dict α, setDefaultsD b (dmap f d) = .ok (dmap g (dmap u d))
  | [] => rfl
  | (k, x) :: r => by
    have ih := setDefaultsD_map b h r
    simp only [dmap, List.map_map] at ih
    simp [dmap, setDefaultsD, h x, ih]

theorem eqJ_list_nil {l : List (SVal F)} (h : l ≠ []) : eqJ (.list l) (.list []) = false := by
  unfold eqJ
  cases l with
  | nil => exact absurd rfl h
  | cons x r =>
    simp only [plain, plains]
    cases x.plain with
    | none => simp
    | some w => cases plains r with
      | none => simp
      | some s => simp [pyEq, pyEqList]

theorem eqJ_dict_nil {d : List (Str × SVal F)} (h : d ≠ []) : eqJ (.dict d) (.dict []) = false := by
  unfold eqJ
  cases d with
  | nil => exact absurd rfl h
  | cons x r =>
    obtain ⟨k, x⟩ := x
    simp only [plain, plaind]
    cases x.plain with
    | none => simp
    | some w => cases plaind r with
      | none => simp
      | some s => simp [pyEq]

theorem emits_list {c : Cls F} {b : Bool} {k : Str} (hd : Dict.get? (c.defaultsFor b) k = some (.list []))
    (l : List (SVal F)) : emits c b k (.list l) = !l.isEmpty := by
  unfold emits
  rw [hd]
  cases l with
  | nil => simp [isNull, eqJ, plain, plains, pyEq, pyEqList]
  | cons x r => simp only [isNull, eqJ_list_nil (List.cons_ne_nil x r)]; rfl

theorem emits_dict {c : Cls F} {b : Bool} {k : Str} (hd : Dict.get? (c.defaultsFor b) k = some (.dict []))
    (l : List (Str × SVal F)) : emits c b k (.dict l) = !l.isEmpty := by
  unfold emits
  rw [hd]
  cases l with
  | nil => simp [isNull, eqJ, plain, plaind, pyEq, pyEqDict]
  | cons x r => simp only [isNull, eqJ_dict_nil (List.cons_ne_nil x r)]; rfl

theorem toJsonA_slist {α : Type} {c : Cls F} {b : Bool} {k : Str} {f : α → SVal F} {g : α → JVal F} {l : List α}
    {r : List (Str × SVal F)} {s : List (Str × JVal F)} (hd : Dict.get? (c.defaultsFor b) k = some (.list []))
    (h : ∀ x, (f x).toJson b = .ok (g x)) (hr : toJsonA b c r = .ok s) :
    toJsonA b c ((k, slist f l) :: r) = .ok (jl k g l ++ s) := by
  simp only [toJsonA, slist, emits_list hd, toJson, toJsonL_map b h, hr]
  cases l <;> simp [jl]

theorem toJsonA_sdict {α : Type} {c : Cls F} {b : Bool} {k : Str} {f : α → SVal F} {g : α → JVal F} {l : Dict α}
    {r : List (Str × SVal F)} {s : List (Str × JVal F)} (hd : Dict.get? (c.defaultsFor b) k = some (.dict []))
    (h : ∀ x, (f x).toJson b = .ok (g x)) (hr : toJsonA b c r = .ok s) :
    toJsonA b c ((k, sdict f l) :: r) = .ok (jd k g l ++ s) := by
  simp only [toJsonA, sdict, emits_dict hd, toJson, toJsonD_map b h, hr]
  cases l <;> simp [jd, dmap]

/-- an attribute without a default is always written when it is a list -/
theorem toJsonA_slist_always {α : Type} {c : Cls F} {b : Bool} {k : Str} {f : α → SVal F} {g : α → JVal F} {l : List α}
    {r : List (Str × SVal F)} {s : List (Str × JVal F)} (hd : Dict.get? (c.defaultsFor b) k = none)
    (h : ∀ x, (f x).toJson b = .ok (g x)) (hr : toJsonA b c r = .ok s) :
    toJsonA b c ((k, slist f l) :: r) = .ok ((k, .list (l.map g)) :: s) := by
  simp [toJsonA, slist, emits, hd, isNull, toJson, toJsonL_map b h, hr]

theorem toJson_slist {α : Type} {b : Bool} {f : α → SVal F} {g : α → JVal F} (h : ∀ x, (f x).toJson b = .ok (g x))
    (l : List α) : (slist f l).toJson b = .ok (.list (l.map g)) := by
  simp [slist, toJson, toJsonL_map b h]

theorem toJson_sdict {α : Type} {b : Bool} {f : α → SVal F} {g : α → JVal F} (h : ∀ x, (f x).toJson b = .ok (g x))
    (l : Dict α) : (sdict f l).toJson b = .ok (.dict (dmap g l)) := by
  simp [sdict, toJson, toJsonD_map b h]

theorem setDefaults_slist {α β : Type} {b : Bool} {f : α → SVal F} {g : β → SVal F} {u : α → β}
    (h : ∀ x, (f x).setDefaults b = .ok (g (u x))) (l : List α) :
    (slist f l).setDefaults b = .ok (slist g (l.map u)) := by
  simp only [slist, setDefaults, setDefaultsL_map b h]

theorem setDefaults_sdict {α β : Type} {b : Bool} {f : α → SVal F} {g : β → SVal F} {u : α → β}
    (h : ∀ x, (f x).setDefaults b = .ok (g (u x))) (l : Dict α) :
    (sdict f l).setDefaults b = .ok (sdict g (dmap u l)) := by
  simp only [sdict, setDefaults, setDefaultsD_map b h]

theorem setDefaultsA_slist {α β : Type} {c : Cls F} {b : Bool} {k : Str} {f : α → SVal F} {g : β → SVal F} {u : α → β}
    {l : List α} {r s : List (Str × SVal F)} (h : ∀ x, (f x).setDefaults b = .ok (g (u x)))
    (hr : setDefaultsA b c r = .ok s) : setDefaultsA b c ((k, slist f l) :: r) = .ok ((k, slist g (l.map u)) :: s) := by
  have := setDefaults_slist (b := b) h l
  simp only [slist] at this
  simp [setDefaultsA, slist, isNull, this, hr]

theorem setDefaultsA_sdict {α β : Type} {c : Cls F} {b : Bool} {k : Str} {f : α → SVal F} {g : β → SVal F} {u : α → β}
    {l : Dict α} {r s : List (Str × SVal F)} (h : ∀ x, (f x).setDefaults b = .ok (g (u x)))
    (hr : setDefaultsA b c r = .ok s) : setDefaultsA b c ((k, sdict f l) :: r) = .ok ((k, sdict g (dmap u l)) :: s) := by
  have := setDefaults_sdict (b := b) h l
  simp only [sdict] at this
  simp [setDefaultsA, sdict, isNull, this, hr]

end SVal
open SVal

/-! ### Each class -/

theorem Attrs.sval_toJson (b : Bool) (c : Cls F) (a : Attrs F) : (Attrs.sval c a).toJson b = .ok (c.toJson b a) := by
  simp only [Attrs.sval, SVal.toJson, toJsonA_ofJ, Cls.toJson]

theorem Attrs.sval_setDefaults (b : Bool) (c : Cls F) (a : Attrs F) :
    (Attrs.sval c a).setDefaults b = .ok (Attrs.sval c (c.setDefaults b a)) := by
  simp only [Attrs.sval, SVal.setDefaults, setDefaultsA_ofJ]

theorem Attrs.sval_clean (ver : Version) (c : Cls F) (a : Attrs F) :
    (Attrs.sval c a).clean ver = .ok (Attrs.sval c (c.removeUnsupported ver a)) := by
  simp only [Attrs.sval, SVal.clean, cleanA_ofJ]

theorem Bone.sval_toJson (b : Bool) (x : Bone F) : x.sval.toJson b = .ok (x.toJson b) := Attrs.sval_toJson ..
theorem Slot.sval_toJson (b : Bool) (x : Slot F) : x.sval.toJson b = .ok (x.toJson b) := Attrs.sval_toJson ..
theorem Att.sval_toJson (b : Bool) (x : Att F) : x.sval.toJson b = .ok (x.toJson b) := Attrs.sval_toJson ..
theorem SlotKf.sval_toJson (b : Bool) (x : SlotKf F) : x.sval.toJson b = .ok (x.toJson b) := Attrs.sval_toJson ..
theorem offsetSval_toJson (b : Bool) (x : Str × Int) : (offsetSval (F := F) x).toJson b = .ok (offsetToJson b x) :=
  Attrs.sval_toJson ..

theorem Skin.sval_toJson (b : Bool) (s : Skin F) : s.sval.toJson b = .ok (s.toJson b) := by
  have hn : Dict.get? ((skinCls (F := F)).defaultsFor b) s!!"name" = some (.str []) := by cases b <;> rfl
  have ha : Dict.get? ((skinCls (F := F)).defaultsFor b) s!!"attachments" = some (.dict []) := by cases b <;> rfl
  have e := toJsonA_sdict (b := b) (l := s.attachments) (r := []) (s := []) ha
    (fun x => toJson_sdict (Att.sval_toJson b) x) rfl
  simp only [Skin.sval, SVal.toJson, toJsonA.eq_2 (k := s!!"name"), emits.eq_1 (k := s!!"name"), hn, SVal.isNull, eqJ, plain,
    pyEq, e]
  cases hm : s.name <;> cases hs : s.attachments <;> simp [Skin.toJson, hm, hs, jd, dmap]

theorem SlotTl.sval_toJson (b : Bool) (t : SlotTl F) : t.sval.toJson b = .ok (t.toJson b) := by
  have h1 : Dict.get? ((slotTimelineCls (F := F)).defaultsFor b) s!!"attachment" = some (.list []) := by cases b <;> rfl
  have h2 : Dict.get? ((slotTimelineCls (F := F)).defaultsFor b) s!!"color" = some (.list []) := by cases b <;> rfl
  have h3 : Dict.get? ((slotTimelineCls (F := F)).defaultsFor b) s!!"twoColor" = some (.list []) := by cases b <;> rfl
  have e := toJsonA_slist (b := b) (l := t.attachment) h1 (SlotKf.sval_toJson b)
    (toJsonA_slist (b := b) (l := t.color) h2 (SlotKf.sval_toJson b)
    (toJsonA_slist (b := b) (l := t.twoColor) (r := []) (s := []) h3 (SlotKf.sval_toJson b) rfl))
  simp only [SlotTl.sval, SVal.toJson, e, SlotTl.toJson, List.append_nil, List.append_assoc]

theorem BoneTl.sval_toJson (b : Bool) (t : BoneTl F) : t.sval.toJson b = .ok (t.toJson b) := by
  have h1 : Dict.get? ((boneTimelineCls (F := F)).defaultsFor b) s!!"rotate" = some (.list []) := by cases b <;> rfl
  have h2 : Dict.get? ((boneTimelineCls (F := F)).defaultsFor b) s!!"translate" = some (.list []) := by cases b <;> rfl
  have h3 : Dict.get? ((boneTimelineCls (F := F)).defaultsFor b) s!!"scale" = some (.list []) := by cases b <;> rfl
  have h4 : Dict.get? ((boneTimelineCls (F := F)).defaultsFor b) s!!"shear" = some (.list []) := by cases b <;> rfl
  have e := toJsonA_slist (b := b) (l := t.rotate) h1 (Attrs.sval_toJson b boneRotateCls)
    (toJsonA_slist (b := b) (l := t.translate) h2 (Attrs.sval_toJson b boneTranslateCls)
    (toJsonA_slist (b := b) (l := t.scale) h3 (Attrs.sval_toJson b boneRotateCls)
    (toJsonA_slist (b := b) (l := t.shear) (r := []) (s := []) h4 (Attrs.sval_toJson b boneTranslateCls) rfl)))
  simp only [BoneTl.sval, SVal.toJson, e, BoneTl.toJson, List.append_nil, List.append_assoc]

theorem DrawTl.sval_toJson (b : Bool) (t : DrawTl F) : t.sval.toJson b = .ok (t.toJson b) := by
  have h2 : Dict.get? ((drawCls (F := F)).defaultsFor b) s!!"offsets" = none := by cases b <;> rfl
  have e := toJsonA_slist_always (b := b) (l := t.offsets) (r := []) (s := []) h2 (offsetSval_toJson b) rfl
  simp only [DrawTl.sval, SVal.toJson, toJsonA.eq_2 (k := s!!"time"), emits_ofJ, toJson_ofJ, e, DrawTl.toJson]
  by_cases h : drawCls.emits b s!!"time" t.time = true
  · simp only [if_pos h]; rfl
  · simp only [if_neg h]; rfl

theorem Anim.sval_toJson (b : Bool) (a : Anim F) : a.sval.toJson b = .ok (a.toJson b) := by
  have h1 : Dict.get? ((animationCls (F := F)).defaultsFor b) s!!"ik" = some (.dict []) := by cases b <;> rfl
  have h2 : Dict.get? ((animationCls (F := F)).defaultsFor b) s!!"drawOrder" = some (.list []) := by cases b <;> rfl
  have h3 : Dict.get? ((animationCls (F := F)).defaultsFor b) s!!"bones" = some (.dict []) := by cases b <;> rfl
  have h4 : Dict.get? ((animationCls (F := F)).defaultsFor b) s!!"slots" = some (.dict []) := by cases b <;> rfl
  have h5 : Dict.get? ((animationCls (F := F)).defaultsFor b) s!!"events" = some (.list []) := by cases b <;> rfl
  have h6 : Dict.get? ((animationCls (F := F)).defaultsFor b) s!!"transform" = some (.dict []) := by cases b <;> rfl
  have h7 : Dict.get? ((animationCls (F := F)).defaultsFor b) s!!"path" = some (.dict []) := by cases b <;> rfl
  have h8 : Dict.get? ((animationCls (F := F)).defaultsFor b) s!!"deform" = some (.dict []) := by cases b <;> rfl
  have L := fun (c : Cls F) => fun (l : List (Attrs F)) => toJson_slist (b := b) (Attrs.sval_toJson b c) l
  have D := fun (c : Cls F) => fun (l : Dict (List (Attrs F))) => toJson_sdict (b := b) (L c) l
  have e := toJsonA_sdict (b := b) (l := a.ik) h1 (L ikTimelineCls)
    (toJsonA_slist (b := b) (l := a.drawOrder) h2 (DrawTl.sval_toJson b)
    (toJsonA_sdict (b := b) (l := a.bones) h3 (BoneTl.sval_toJson b)
    (toJsonA_sdict (b := b) (l := a.slots) h4 (SlotTl.sval_toJson b)
    (toJsonA_slist (b := b) (l := a.events) h5 (Attrs.sval_toJson b eventTimelineCls)
    (toJsonA_sdict (b := b) (l := a.transform) h6 (L transformTimelineCls)
    (toJsonA_sdict (b := b) (l := a.path) h7 (D pathTimelineCls)
    (toJsonA_sdict (b := b) (l := a.deform) (r := []) (s := []) h8 (fun x => toJson_sdict (D deformCls) x) rfl)))))))
  simp only [Anim.sval, SVal.toJson, e, Anim.toJson, List.append_nil, List.append_assoc]
  rfl

theorem AnimData.sval_toJson (b : Bool) (a : AnimData F) : a.sval.toJson b = .ok (.dict (a.toJson b)) := by
  have h1 : Dict.get? ((documentCls (F := F)).defaultsFor b) s!!"bones" = some (.list []) := by cases b <;> rfl
  have h2 : Dict.get? ((documentCls (F := F)).defaultsFor b) s!!"slots" = some (.list []) := by cases b <;> rfl
  have h3 : Dict.get? ((documentCls (F := F)).defaultsFor b) s!!"skins" = none := by cases b <;> rfl
  have h4 : Dict.get? ((documentCls (F := F)).defaultsFor b) s!!"events" = some (.dict []) := by cases b <;> rfl
  have h5 : Dict.get? ((documentCls (F := F)).defaultsFor b) s!!"ik" = some (.list []) := by cases b <;> rfl
  have h6 : Dict.get? ((documentCls (F := F)).defaultsFor b) s!!"transform" = some (.list []) := by cases b <;> rfl
  have h7 : Dict.get? ((documentCls (F := F)).defaultsFor b) s!!"path" = some (.list []) := by cases b <;> rfl
  have h8 : Dict.get? ((documentCls (F := F)).defaultsFor b) s!!"animations" = some (.dict []) := by cases b <;> rfl
  have e := toJsonA_slist (b := b) (l := a.bones) h1 (Bone.sval_toJson b)
    (toJsonA_slist (b := b) (l := a.slots) h2 (Slot.sval_toJson b)
    (toJsonA_slist_always (b := b) (l := a.skins) h3 (Skin.sval_toJson b)
    (toJsonA_sdict (b := b) (l := a.events) h4 (Attrs.sval_toJson b eventsCls)
    (toJsonA_slist (b := b) (l := a.ik) h5 (Attrs.sval_toJson b ikCls)
    (toJsonA_slist (b := b) (l := a.transform) h6 (Attrs.sval_toJson b transformCls)
    (toJsonA_slist (b := b) (l := a.path) h7 (Attrs.sval_toJson b pathCls)
    (toJsonA_sdict (b := b) (l := a.animations) (r := []) (s := []) h8 (Anim.sval_toJson b) rfl)))))))
  simp only [AnimData.sval, SVal.toJson, e, AnimData.toJson, List.append_nil, List.append_assoc, List.cons_append,
    List.nil_append]

/-! ### Defaults -/

theorem Bone.sval_setDefaults (b : Bool) (x : Bone F) : x.sval.setDefaults b = .ok (x.setDefaults b).sval := by
  have hp : Dict.get? ((boneCls (F := F)).defaultsFor b) s!!"parent" = none := by cases b <;> rfl
  rw [Bone.sval, Attrs.sval_setDefaults, Bone.sval]
  congr 2
  cases h : x.parent <;> simp [Bone.attrs, Bone.setDefaults, Cls.setDefaults, h, optJ, hp]

theorem Slot.sval_setDefaults (b : Bool) (x : Slot F) : x.sval.setDefaults b = .ok x.sval := by
  rw [Slot.sval, Attrs.sval_setDefaults]
  congr 2
  have hp : ∀ k, Dict.get? ((slotCls (F := F)).defaultsFor b) k = none := by intro k; cases b <;> rfl
  unfold Cls.setDefaults
  rw [List.map_congr_left (g := id), List.map_id]
  intro p _
  obtain ⟨k, v⟩ := p
  cases v <;> simp [hp]

theorem Att.sval_setDefaults (b : Bool) (x : Att F) : x.sval.setDefaults b = .ok (x.setDefaults b).sval :=
  Attrs.sval_setDefaults ..

theorem SlotKf.sval_setDefaults (b : Bool) (x : SlotKf F) : x.sval.setDefaults b = .ok (x.setDefaults b).sval := by
  have hp : Dict.get? ((slotKeyframeCls (F := F)).defaultsFor b) s!!"name" = some .null := by cases b <;> rfl
  rw [SlotKf.sval, Attrs.sval_setDefaults, SlotKf.sval]
  congr 2
  cases h : x.name <;> simp [SlotKf.attrs, SlotKf.setDefaults, Cls.setDefaults, h, optJ, hp]

theorem offsetSval_setDefaults (b : Bool) (x : Str × Int) :
    (offsetSval (F := F) x).setDefaults b = .ok (offsetSval (id x)) := by
  rw [offsetSval, Attrs.sval_setDefaults]; rfl

theorem Skin.sval_setDefaults (b : Bool) (s : Skin F) : s.sval.setDefaults b = .ok (s.setDefaults b).sval := by
  have e := setDefaultsA_sdict (c := skinCls) (k := s!!"attachments") (b := b) (l := s.attachments) (r := []) (s := [])
    (fun x => setDefaults_sdict (Att.sval_setDefaults b) x) rfl
  simp only [Skin.sval, SVal.setDefaults, setDefaultsA.eq_2 (k := s!!"name"), SVal.isNull, Bool.false_eq_true, if_false, e]
  rfl

theorem SlotTl.sval_setDefaults (b : Bool) (t : SlotTl F) : t.sval.setDefaults b = .ok (t.setDefaults b).sval := by
  have e := setDefaultsA_slist (c := slotTimelineCls) (k := s!!"attachment") (b := b) (l := t.attachment)
      (SlotKf.sval_setDefaults b)
    (setDefaultsA_slist (k := s!!"color") (b := b) (l := t.color) (SlotKf.sval_setDefaults b)
    (setDefaultsA_slist (k := s!!"twoColor") (b := b) (l := t.twoColor) (r := []) (s := []) (SlotKf.sval_setDefaults b) rfl))
  simp only [SlotTl.sval, SVal.setDefaults, e]
  rfl

theorem BoneTl.sval_setDefaults (b : Bool) (t : BoneTl F) : t.sval.setDefaults b = .ok (t.setDefaults b).sval := by
  have e := setDefaultsA_slist (c := boneTimelineCls) (k := s!!"rotate") (b := b) (l := t.rotate)
      (Attrs.sval_setDefaults b boneRotateCls)
    (setDefaultsA_slist (k := s!!"translate") (b := b) (l := t.translate) (Attrs.sval_setDefaults b boneTranslateCls)
    (setDefaultsA_slist (k := s!!"scale") (b := b) (l := t.scale) (Attrs.sval_setDefaults b boneRotateCls)
    (setDefaultsA_slist (k := s!!"shear") (b := b) (l := t.shear) (r := []) (s := [])
      (Attrs.sval_setDefaults b boneTranslateCls) rfl)))
  simp only [BoneTl.sval, SVal.setDefaults, e]
  rfl

theorem DrawTl.sval_setDefaults (b : Bool) (t : DrawTl F) : t.sval.setDefaults b = .ok (t.setDefaults b).sval := by
  have e := setDefaultsA_slist (c := drawCls) (k := s!!"offsets") (b := b) (l := t.offsets) (r := []) (s := [])
    (offsetSval_setDefaults (F := F) b) rfl
  simp only [DrawTl.sval, SVal.setDefaults, setDefaultsA.eq_2 (k := s!!"time"), isNull_ofJ, setDefaults_ofJ, e,
    DrawTl.setDefaults, List.map_id]
  cases h : t.time <;> cases b <;> simp [JVal.isNull, Cls.setDefaults, Attrs.val, Dict.get?, Cls.defaultsFor, drawCls]

theorem Anim.sval_setDefaults (b : Bool) (a : Anim F) : a.sval.setDefaults b = .ok (a.setDefaults b).sval := by
  have L := fun (c : Cls F) => fun (l : List (Attrs F)) => setDefaults_slist (b := b) (Attrs.sval_setDefaults b c) l
  have D := fun (c : Cls F) => fun (l : Dict (List (Attrs F))) => setDefaults_sdict (b := b) (L c) l
  have e := setDefaultsA_sdict (c := animationCls) (k := s!!"ik") (b := b) (l := a.ik) (L ikTimelineCls)
    (setDefaultsA_slist (k := s!!"drawOrder") (b := b) (l := a.drawOrder) (DrawTl.sval_setDefaults b)
    (setDefaultsA_sdict (k := s!!"bones") (b := b) (l := a.bones) (BoneTl.sval_setDefaults b)
    (setDefaultsA_sdict (k := s!!"slots") (b := b) (l := a.slots) (SlotTl.sval_setDefaults b)
    (setDefaultsA_slist (k := s!!"events") (b := b) (l := a.events) (Attrs.sval_setDefaults b eventTimelineCls)
    (setDefaultsA_sdict (k := s!!"transform") (b := b) (l := a.transform) (L transformTimelineCls)
    (setDefaultsA_sdict (k := s!!"path") (b := b) (l := a.path) (D pathTimelineCls)
    (setDefaultsA_sdict (k := s!!"deform") (b := b) (l := a.deform) (r := []) (s := [])
      (fun x => setDefaults_sdict (D deformCls) x) rfl)))))))
  simp only [Anim.sval, SVal.setDefaults, e]
  rfl

theorem AnimData.sval_setDefaults (b : Bool) (a : AnimData F) : a.sval.setDefaults b = .ok (a.setDefaults b).sval := by
  have e := setDefaultsA_slist (c := documentCls) (k := s!!"bones") (b := b) (l := a.bones) (Bone.sval_setDefaults b)
    (setDefaultsA_slist (k := s!!"slots") (u := id) (b := b) (l := a.slots) (Slot.sval_setDefaults b)
    (setDefaultsA_slist (k := s!!"skins") (b := b) (l := a.skins) (Skin.sval_setDefaults b)
    (setDefaultsA_sdict (k := s!!"events") (b := b) (l := a.events) (Attrs.sval_setDefaults b eventsCls)
    (setDefaultsA_slist (k := s!!"ik") (b := b) (l := a.ik) (Attrs.sval_setDefaults b ikCls)
    (setDefaultsA_slist (k := s!!"transform") (b := b) (l := a.transform) (Attrs.sval_setDefaults b transformCls)
    (setDefaultsA_slist (k := s!!"path") (b := b) (l := a.path) (Attrs.sval_setDefaults b pathCls)
    (setDefaultsA_sdict (k := s!!"animations") (b := b) (l := a.animations) (r := []) (s := [])
      (Anim.sval_setDefaults b) rfl)))))))
  simp only [AnimData.sval, SVal.setDefaults, e, List.map_id]
  rfl

end Spine
