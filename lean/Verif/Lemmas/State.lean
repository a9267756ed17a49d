import Verif.Lemmas.Reload
import Verif.Lemmas.Reopen
import Verif.Lemmas.KeyOrderView
/- C88: what the editing calls see of a document is what is written of it. -/
set_option linter.unusedSectionVars false
set_option linter.unusedSimpArgs false
namespace Spine
namespace State
open JVal
variable {F : Type} [PyRt F]

/-! ### Dictionaries with the same keys in the same order -/

/-- the same keys in the same order, with related values -/
def KR {α β : Type} (P : α → β → Prop) (d : Dict α) (e : Dict β) : Prop := All₂ (fun p q => p.1 = q.1 ∧ P p.2 q.2) d e

namespace KR
variable {α β : Type} {P : α → β → Prop} {d : Dict α} {e : Dict β}

theorem mono {Q : α → β → Prop} (h : KR P d e) (hq : ∀ k x y, (k, x) ∈ d → (k, y) ∈ e → P x y → Q x y) : KR Q d e := by
  refine All₂.mono' h ?_
  rintro ⟨k, x⟩ ⟨k', y⟩ hx hy ⟨rfl, hp⟩
  exact ⟨rfl, hq _ _ _ hx hy hp⟩

theorem of_map {γ : Type} {f : α → γ} {d e : Dict α} (h : d.map (fun p => (p.1, f p.2)) = e.map (fun p => (p.1, f p.2))) :
    KR (fun x y => f x = f y) d e := by
  refine (map_all₂ h).mono' ?_
  intro p q _ _ h
  simp only [Prod.mk.injEq] at h
  exact h

theorem map_eq {γ : Type} {f : α → γ} {g : β → γ} (h : KR P d e) (hf : ∀ x y, P x y → f x = g y) :
    d.map (fun p => (p.1, f p.2)) = e.map (fun p => (p.1, g p.2)) := by
  unfold KR at h
  induction h with
  | nil => rfl
  | cons hr _ ih => simp only [List.map_cons, ih, hr.1, hf _ _ hr.2]

theorem keys (h : KR P d e) : Dict.keys d = Dict.keys e := by
  unfold KR at h
  induction h with
  | nil => rfl
  | cons hr _ ih =>
    unfold Dict.keys at ih
    simp only [Dict.keys, List.map_cons, ih, hr.1]

theorem filter (h : KR P d e) {p q : Str → Bool} (hpq : ∀ k, p k = q k) : KR P (d.filter (fun x => p x.1)) (e.filter (fun x => q x.1)) := by
  refine All₂.filter h ?_
  intro x y _ _ hr
  rw [hr.1, hpq]

theorem del (h : KR P d e) (k : Str) : KR P (Dict.del d k) (Dict.del e k) :=
  h.filter (p := fun x => decide (x ≠ k)) (q := fun x => decide (x ≠ k)) (fun _ => rfl)

theorem dmap {γ δ : Type} {Q : γ → δ → Prop} (h : KR P d e) {f : α → γ} {g : β → δ} (hf : ∀ x y, P x y → Q (f x) (g y)) :
    KR Q (dmap f d) (dmap g e) := by
  unfold KR Spine.dmap
  rw [All₂.map_left, All₂.map_right]
  exact All₂.mono' h (fun x y _ _ hr => ⟨hr.1, hf _ _ hr.2⟩)

theorem get? (h : KR P d e) (k : Str) : (Dict.get? d k = none ∧ Dict.get? e k = none) ∨
    ∃ x y, Dict.get? d k = some x ∧ Dict.get? e k = some y ∧ P x y := by
  unfold KR at h
  induction h with
  | nil => exact .inl ⟨rfl, rfl⟩
  | @cons p q l m hr _ ih =>
    obtain ⟨k', x⟩ := p
    obtain ⟨k2, y⟩ := q
    obtain ⟨hk, hp⟩ := hr
    simp only at hk hp
    subst hk
    simp only [Dict.get?]
    by_cases hk : k' = k
    · simp only [hk, if_true]; exact .inr ⟨x, y, rfl, rfl, hp⟩
    · simp only [hk, if_false]; exact ih

theorem set (h : KR P d e) (k : Str) {x : α} {y : β} (hp : P x y) : KR P (Dict.set d k x) (Dict.set e k y) := by
  unfold KR at h ⊢
  induction h with
  | nil => exact .cons ⟨rfl, hp⟩ .nil
  | @cons p q l m hr ht ih =>
    obtain ⟨k', v⟩ := p
    obtain ⟨k2, w⟩ := q
    obtain ⟨hk, hp'⟩ := hr
    simp only at hk hp'
    subst hk
    simp only [Dict.set]
    by_cases hk : k' = k
    · simp only [hk, if_true]; exact .cons ⟨rfl, hp⟩ ht
    · simp only [hk, if_false]; exact .cons ⟨rfl, hp'⟩ ih

theorem symm {Q : β → α → Prop} (h : KR P d e) (hq : ∀ x y, P x y → Q y x) : KR Q e d := by
  unfold KR at h ⊢
  induction h with
  | nil => exact .nil
  | cons hr _ ih => exact .cons ⟨hr.1.symm, hq _ _ hr.2⟩ ih

end KR

/-! ### Attributes -/

/-- the same attributes; values that differ are not written -/
def AR (c : Cls F) (b : Bool) (a a' : Attrs F) : Prop :=
  All₂ (fun p q => p.1 = q.1 ∧ (p.2 = q.2 ∨ (c.emits b p.1 p.2 = false ∧ c.emits b q.1 q.2 = false))) a a'

theorem AR.toJson {c : Cls F} {b : Bool} {a a' : Attrs F} (h : AR c b a a') : c.toJson b a = c.toJson b a' := by
  unfold Cls.toJson
  congr 1
  unfold AR at h
  induction h with
  | nil => rfl
  | @cons p q l m hr _ ih =>
    obtain ⟨k, v⟩ := p
    obtain ⟨k', w⟩ := q
    obtain ⟨hk, hv⟩ := hr
    simp only at hk hv
    subst hk
    rcases hv with rfl | ⟨h1, h2⟩
    · simp only [List.filter_cons, ih]
    · simp only [List.filter_cons, h1, h2, ih, Bool.false_eq_true, if_false]

theorem AR.of {c : Cls F} {b : Bool} {a a' : Attrs F} (h : c.toJson b a = c.toJson b a') (hn : (Dict.keys a).Nodup)
    (hk : Dict.keys a = Dict.keys a') : AR c b a a' := by
  unfold Cls.toJson at h
  injection h with h
  induction a generalizing a' with
  | nil =>
    cases a' with
    | nil => exact .nil
    | cons p m => simp [Dict.keys] at hk
  | cons p l ih =>
    cases a' with
    | nil => simp [Dict.keys] at hk
    | cons q m =>
      obtain ⟨k, v⟩ := p
      obtain ⟨k', w⟩ := q
      simp only [Dict.keys, List.map_cons, List.cons.injEq] at hk
      obtain ⟨rfl, hk⟩ := hk
      have hn' : k ∉ Dict.keys l ∧ (Dict.keys l).Nodup := by simpa [Dict.keys] using hn
      have hl : ∀ x, (k, x) ∉ l := fun x hx => hn'.1 (List.mem_map.2 ⟨_, hx, rfl⟩)
      have hm : ∀ x, (k, x) ∉ m := fun x hx => hn'.1 (by
        have : k ∈ Dict.keys m := List.mem_map.2 ⟨_, hx, rfl⟩
        unfold Dict.keys at this ⊢
        rwa [hk])
      simp only [List.filter_cons] at h
      cases h1 : c.emits b k v <;> cases h2 : c.emits b k w <;> simp only [h1, h2, if_true, Bool.false_eq_true, if_false] at h
      · exact .cons ⟨rfl, .inr ⟨h1, h2⟩⟩ (ih hn'.2 hk h)
      · exact absurd (List.mem_filter.1 (by rw [h]; exact List.mem_cons_self)).1 (hl w)
      · exact absurd (List.mem_filter.1 (by rw [← h]; exact List.mem_cons_self)).1 (hm v)
      · injection h with h3 h4
        simp only [Prod.mk.injEq, true_and] at h3
        exact .cons ⟨rfl, .inl h3⟩ (ih hn'.2 hk h4)

theorem AR.keys {c : Cls F} {b : Bool} {a a' : Attrs F} (h : AR c b a a') : Dict.keys a = Dict.keys a' :=
  KR.keys (P := fun _ _ => True) (h.mono' fun _ _ _ _ h => ⟨h.1, trivial⟩)

theorem AR.set {c : Cls F} {b : Bool} {a a' : Attrs F} (h : AR c b a a') (k : Str) (v : JVal F) :
    AR c b (Dict.set a k v) (Dict.set a' k v) := by
  unfold AR at h ⊢
  induction h with
  | nil => exact .cons ⟨rfl, .inl rfl⟩ .nil
  | @cons p q l m hr ht ih =>
    obtain ⟨k', v'⟩ := p
    obtain ⟨k2, w⟩ := q
    obtain ⟨hk, hp'⟩ := hr
    simp only at hk hp'
    subst hk
    simp only [Dict.set]
    by_cases hk : k' = k
    · simp only [hk, if_true]; exact .cons ⟨rfl, .inl rfl⟩ ht
    · simp only [hk, if_false]; exact .cons ⟨rfl, hp'⟩ ih

/-- an attribute without default is the same -/
theorem AR.get? {c : Cls F} {b : Bool} {a a' : Attrs F} (h : AR c b a a') {k : Str} (hd : Dict.get? (c.defaultsFor b) k = none) :
    Dict.get? a k = Dict.get? a' k := by
  unfold AR at h
  induction h with
  | nil => rfl
  | @cons p q l m hr ht ih =>
    obtain ⟨k', v⟩ := p
    obtain ⟨k2, w⟩ := q
    obtain ⟨hk, hv⟩ := hr
    simp only at hk hv
    subst hk
    simp only [Dict.get?]
    by_cases hk : k' = k
    · subst hk
      simp only [if_true]
      rcases hv with rfl | ⟨h1, h2⟩
      · rfl
      · simp [Cls.emits, hd] at h1 h2
        rw [(Cls.isNull_iff v).1 h1, (Cls.isNull_iff w).1 h2]
    · simp only [hk, if_false]; exact ih

theorem AR.val {c : Cls F} {b : Bool} {a a' : Attrs F} (h : AR c b a a') {k : Str} (hd : Dict.get? (c.defaultsFor b) k = none) :
    a.val k = a'.val k := by
  unfold Attrs.val; rw [h.get? hd]

/-! ### Attachments and skins -/

/-- attachments of the same class that are written the same way -/
def AttR (b : Bool) (x y : Att F) : Prop := x.kind = y.kind ∧ AR (AttKind.cls x.kind) b x.attrs y.attrs

theorem AttR.of {b : Bool} {x y : Att F} (h : x.toJson b = y.toJson b) (hx : Att.Good x) (hy : Att.Good y) : AttR b x y := by
  have hk := (Att.toJson_same h hx hy).1
  have ok := Cls.leafClasses_ok (AttKind.cls x.kind : Cls F) (AttKind.cls_mem _)
  refine ⟨hk, AR.of ?_ (by rw [hx.keys]; exact ok.nodup) (by rw [hx.keys, hy.keys, hk])⟩
  have : y.toJson b = (AttKind.cls x.kind).toJson b y.attrs := by rw [hk]; rfl
  rw [← this, ← h]; rfl

theorem AttR.toJson {b : Bool} {x y : Att F} (h : AttR b x y) : x.toJson b = y.toJson b := by
  unfold Att.toJson
  rw [← h.1]
  exact h.2.toJson

def SkinR (b : Bool) (s t : Skin F) : Prop := s.name = t.name ∧ KR (KR (AttR b)) s.attachments t.attachments

theorem SkinR.of {b : Bool} {s t : Skin F} (h : s.toJson b = t.toJson b) (hs : Skin.Good s) (ht : Skin.Good t) : SkinR b s t := by
  refine ⟨(Skin.toJson_same h hs ht).1, ?_⟩
  unfold Skin.toJson at h
  injection h with h
  have e2 := congrArg (fun d => Dict.get? d s!!"attachments") h
  clear h
  obtain ⟨n, a⟩ := s
  obtain ⟨n', a'⟩ := t
  simp only [get?_append] at e2
  have ha : a.map (fun p => (p.1, JVal.dict (p.2.map (fun q => (q.1, q.2.toJson b))))) =
      a'.map (fun p => (p.1, JVal.dict (p.2.map (fun q => (q.1, q.2.toJson b))))) := by
    cases a <;> cases a' <;> cases n <;> cases n' <;> simp_all [Dict.get?]
  refine (KR.of_map (f := fun d : Dict (Att F) => JVal.dict (d.map (fun q => (q.1, q.2.toJson b)))) ha).mono ?_
  intro k d d' hd hd' h
  injection h with h
  refine (KR.of_map h).mono ?_
  intro k' x y hx hy h
  exact AttR.of h (hs _ hd _ hx) (ht _ hd' _ hy)

theorem SkinR.toJson {b : Bool} {s t : Skin F} (h : SkinR b s t) : s.toJson b = t.toJson b := by
  obtain ⟨n, a⟩ := s
  obtain ⟨n', a'⟩ := t
  obtain ⟨hn, ha⟩ := h
  simp only at hn ha
  subst hn
  have h1 : a.map (fun p => (p.1, JVal.dict (p.2.map (fun q => (q.1, q.2.toJson b))))) =
      a'.map (fun p => (p.1, JVal.dict (p.2.map (fun q => (q.1, q.2.toJson b))))) :=
    ha.map_eq (f := fun d : Dict (Att F) => JVal.dict (d.map (fun q => (q.1, q.2.toJson b))))
      (g := fun d : Dict (Att F) => JVal.dict (d.map (fun q => (q.1, q.2.toJson b)))) (fun x y h => by
        rw [h.map_eq (f := fun q : Att F => q.toJson b) (g := fun q : Att F => q.toJson b) (fun _ _ h => h.toJson)])
  unfold Skin.toJson
  simp only
  rw [h1]
  cases a <;> cases a' <;> first | rfl | (simp at h1; done) | skip

/-! ### Animations -/

theorem AR.two {c : Cls F} {b : Bool} {a a' : Attrs F} (h : AR c b a a') (k : Str) :
    (Dict.get? a k = none ∧ Dict.get? a' k = none) ∨
    ∃ v w, Dict.get? a k = some v ∧ Dict.get? a' k = some w ∧ (v = w ∨ (c.emits b k v = false ∧ c.emits b k w = false)) := by
  unfold AR at h
  induction h with
  | nil => exact .inl ⟨rfl, rfl⟩
  | @cons p q l m hr ht ih =>
    obtain ⟨k', v⟩ := p
    obtain ⟨k2, w⟩ := q
    obtain ⟨hk, hv⟩ := hr
    simp only at hk hv
    subst hk
    simp only [Dict.get?]
    by_cases hk : k' = k
    · subst hk
      simp only [if_true]
      exact .inr ⟨v, w, rfl, rfl, hv⟩
    · simp only [hk, if_false]; exact ih

/-- a keyframe of a slot, as far as the editor looks at it -/
def KfR (b : Bool) (x y : SlotKf F) : Prop :=
  x.toJson b = y.toJson b ∧ x.name = y.name ∧ SlotTl.timeZero x = SlotTl.timeZero y

theorem KfR.of {b : Bool} {x y : SlotKf F} (h : x.toJson b = y.toJson b) (hx : SlotKf.Good x) (hy : SlotKf.Good y)
    (fx : x.setDefaults b = x) (fy : y.setDefaults b = y) : KfR b x y := by
  have ok := Cls.leafClasses_ok (slotKeyframeCls (F := F)) (by simp [leafClasses])
  have ha : AR slotKeyframeCls b x.attrs y.attrs := AR.of h (by rw [hx]; exact ok.nodup) (by rw [hx, hy])
  obtain ⟨n, r⟩ := x
  obtain ⟨n', r'⟩ := y
  have fx : slotKeyframeCls.setDefaults b r = r := by simpa [SlotKf.setDefaults] using fx
  have fy : slotKeyframeCls.setDefaults b r' = r' := by simpa [SlotKf.setDefaults] using fy
  unfold SlotKf.attrs at ha
  cases ha with
  | cons hh ht =>
    have ht : AR slotKeyframeCls b r r' := ht
    refine ⟨h, ?_, ?_⟩
    · rcases hh.2 with e | ⟨e, _⟩
      · exact optJ_inj e
      · exfalso
        revert e
        cases b <;> cases n <;> simp [Cls.emits, Cls.defaultsFor, slotKeyframeCls, Dict.get?, optJ, JVal.isNull, JVal.pyEq]
    · show pyEq (r.val s!!"time") (.int 0) = pyEq (r'.val s!!"time") (.int 0)
      cases b with
      | false => rw [ht.val (k := s!!"time") rfl]
      | true =>
        unfold Attrs.val
        rcases ht.two s!!"time" with ⟨e1, e2⟩ | ⟨v, w, e1, e2, e⟩
        · rw [e1, e2]
        · rw [e1, e2]
          rcases e with rfl | ⟨n1, n2⟩
          · rfl
          · have key : ∀ (r : Attrs F) (v : JVal F), slotKeyframeCls.setDefaults true r = r → Dict.get? r s!!"time" = some v →
                (slotKeyframeCls (F := F)).emits true s!!"time" v = false → pyEq v (.int 0) = true := by
              intro r v hf hg hn
              have hd : Dict.get? ((slotKeyframeCls (F := F)).defaultsFor true) s!!"time" = some (.int 0) := rfl
              have hv : v ≠ .null := by
                intro h0
                have := Editor.Attrs.fixed_iff.1 hf _ (Dict.mem_of_get? hg) h0
                simp [Cls.dflt, hd] at this
              simp only [Cls.emits, hd] at hn
              have h1 : v.isNull = false := by
                cases hvn : v.isNull with
                | false => rfl
                | true => exact absurd ((Cls.isNull_iff v).1 hvn) hv
              simpa [h1] using hn
            show pyEq v (.int 0) = pyEq w (.int 0)
            rw [key r v fx e1 n1, key r' w fy e2 n2]

/-- a slot timeline, as far as the editor looks at it -/
structure TlR (b : Bool) (t u : SlotTl F) : Prop where
  json : t.toJson b = u.toJson b
  empty : t.isEmpty = u.isEmpty
  used : t.usedAttachments = u.usedAttachments
  color : t.hasColor = u.hasColor

theorem map_isEmpty {α γ : Type} {f : α → γ} {l m : List α} (h : l.map f = m.map f) : l.isEmpty = m.isEmpty := by
  cases l <;> cases m <;> simp_all

theorem TlR.of {b : Bool} {t u : SlotTl F} (h : t.toJson b = u.toJson b) (ht : SlotTl.Good t) (hu : SlotTl.Good u)
    (ft : t.setDefaults b = t) (fu : u.setDefaults b = u) : TlR b t u := by
  have h' := h
  unfold SlotTl.toJson at h
  injection h with h
  have hg : ∀ k, Dict.get? _ k = Dict.get? _ k := fun k => congrArg (fun d => Dict.get? d k) h
  have e1 : t.attachment.map (·.toJson b) = u.attachment.map (·.toJson b) := by
    have := hg s!!"attachment"
    simp [get?_append, get?_jl_same, get?_jl_ne] at this
    exact jl_inj (by simpa using this)
  have e2 : t.color.map (·.toJson b) = u.color.map (·.toJson b) := by
    have := hg s!!"color"
    simp [get?_append, get?_jl_same, get?_jl_ne] at this
    exact jl_inj (by simpa using this)
  have e3 : t.twoColor.map (·.toJson b) = u.twoColor.map (·.toJson b) := by
    have := hg s!!"twoColor"
    simp [get?_append, get?_jl_same, get?_jl_ne] at this
    exact jl_inj (by simpa using this)
  have c2 := map_isEmpty e2
  have c3 := map_isEmpty e3
  have f1 : t.attachment.map (·.setDefaults b) = t.attachment := by
    have := congrArg SlotTl.attachment ft; exact this
  have f2 : u.attachment.map (·.setDefaults b) = u.attachment := by
    have := congrArg SlotTl.attachment fu; exact this
  have ha : All₂ (KfR b) t.attachment u.attachment :=
    (map_all₂ e1).mono' (fun x y hx hy h => KfR.of h (ht.1 x hx) (hu.1 y hy) (map_fixed f1 hx) (map_fixed f2 hy))
  have hem : ∀ x y : SlotKf F, KfR b x y → x.isEmpty = y.isEmpty := by
    intro x y h; unfold SlotKf.isEmpty; rw [h.2.1]
  refine ⟨h', ?_, ?_, ?_⟩
  · unfold SlotTl.isEmpty
    rw [c2, c3]
    congr 1
    generalize t.attachment = l at ha
    generalize u.attachment = m at ha
    cases ha with
    | nil => rfl
    | @cons x y l m hr ht => cases ht with
      | nil => simp only [hem _ _ hr, hr.2.2]
      | cons _ _ => rfl
  · unfold SlotTl.usedAttachments
    exact (ha.filter (p := fun k => !k.isEmpty) (q := fun k => !k.isEmpty) (fun x y _ _ h => by rw [hem x y h])).map_eq
      (fun x y h => h.2.1)
  · unfold SlotTl.hasColor; rw [c2, c3]

/-- a drawOrder keyframe -/
def DrR (b : Bool) (t u : DrawTl F) : Prop := t.offsets = u.offsets ∧ ∀ o, DrawTl.toJson b { t with offsets := o } = DrawTl.toJson b { u with offsets := o }

theorem DrR.json {b : Bool} {t u : DrawTl F} (h : DrR b t u) : t.toJson b = u.toJson b := by
  have := h.2 t.offsets
  have e : ({ u with offsets := t.offsets } : DrawTl F) = u := by rw [h.1]
  rwa [e] at this

theorem offset_inj {b : Bool} {o p : Str × Int} (h : offsetToJson (F := F) b o = offsetToJson b p) : o = p := by
  obtain ⟨s, i⟩ := o
  obtain ⟨s', i'⟩ := p
  unfold offsetToJson at h
  have ha := AR.of (a := [(s!!"slot", (JVal.str s : JVal F)), (s!!"offset", .int i)]) (a' := [(s!!"slot", .str s'), (s!!"offset", .int i')]) h
    (by simp [Dict.keys]) rfl
  cases ha with
  | cons h1 h2 => cases h2 with
    | cons h2 _ =>
      have i1 : i = i' := by
        rcases h2.2 with e | ⟨e, _⟩
        · injection e
        · cases b <;> simp [Cls.emits, Cls.defaultsFor, offsetCls, Dict.get?, JVal.isNull] at e
      have i2 : s = s' := by
        rcases h1.2 with e | ⟨e1, e2⟩
        · injection e
        · have hd : Dict.get? ((offsetCls (F := F)).defaultsFor b) s!!"slot" = some (.str []) := by cases b <;> rfl
          have : ∀ x : Str, (offsetCls (F := F)).emits b s!!"slot" (.str x) = false → x = [] := by
            intro x hx
            simpa [Cls.emits, hd, JVal.isNull, JVal.pyEq] using hx
          rw [this _ e1, this _ e2]
      rw [i1, i2]

theorem DrR.of {b : Bool} {t u : DrawTl F} (h : t.toJson b = u.toJson b) : DrR b t u := by
  obtain ⟨a, o⟩ := t
  obtain ⟨a', o'⟩ := u
  unfold DrawTl.toJson at h
  injection h with h
  simp only at h
  have key : ((if drawCls.emits b s!!"time" a then [(s!!"time", a)] else []) : Dict (JVal F)) = (if drawCls.emits b s!!"time" a' then [(s!!"time", a')] else []) ∧
      o.map (offsetToJson (F := F) b) = o'.map (offsetToJson b) := by
    simpa using h
  refine ⟨?_, ?_⟩
  · have := map_all₂ key.2
    show o = o'
    have := this.map_eq (f := id) (g := id) (fun x y h => offset_inj h)
    simpa using this
  · intro x
    unfold DrawTl.toJson
    simp only [key.1]

/-- an animation, as far as the editor looks at it -/
structure AnR (b : Bool) (x y : Anim F) : Prop where
  ik : KR (fun a a' => Anim.jlist ikTimelineCls b a = Anim.jlist ikTimelineCls b a') x.ik y.ik
  drawOrder : All₂ (DrR b) x.drawOrder y.drawOrder
  bones : KR (fun t u => t.toJson b = u.toJson b) x.bones y.bones
  slots : KR (TlR b) x.slots y.slots
  events : x.events.map (eventTimelineCls.toJson b) = y.events.map (eventTimelineCls.toJson b)
  transform : KR (fun a a' => Anim.jlist transformTimelineCls b a = Anim.jlist transformTimelineCls b a') x.transform y.transform
  path : KR (fun a a' => Anim.jdict pathTimelineCls b a = Anim.jdict pathTimelineCls b a') x.path y.path
  deform : KR (KR (KR (fun a a' => Anim.jlist deformCls b a = Anim.jlist deformCls b a'))) x.deform y.deform

theorem jd_inj {α : Type} {f : α → JVal F} {l m : Dict α}
    (h : (if l.isEmpty then none else some (JVal.dict (dmap f l))) = (if m.isEmpty then none else some (JVal.dict (dmap f m)))) :
    KR (fun x y => f x = f y) l m := by
  apply KR.of_map
  cases l <;> cases m <;> simp_all [dmap]

theorem jd_congr {α : Type} {f : α → JVal F} {l m : Dict α} (k : Str) (h : KR (fun x y => f x = f y) l m) : jd k f l = jd k f m := by
  have e := h.map_eq (f := f) (g := f) (fun _ _ h => h)
  unfold jd
  rw [e]
  cases l <;> cases m <;> first | rfl | (simp at e; done)

theorem jl_congr {α : Type} {f : α → JVal F} {l m : List α} (k : Str) (e : l.map f = m.map f) : jl k f l = jl k f m := by
  unfold jl
  rw [e]
  cases l <;> cases m <;> first | rfl | (simp at e; done)

theorem AnR.of {b : Bool} {x y : Anim F} (h : x.toJson b = y.toJson b) (hx : ∀ p ∈ x.slots, SlotTl.Good p.2) (hy : ∀ p ∈ y.slots, SlotTl.Good p.2)
    (fx : x.setDefaults b = x) (fy : y.setDefaults b = y) : AnR b x y := by
  unfold Anim.toJson at h
  injection h with h
  have hg : ∀ k, Dict.get? _ k = Dict.get? _ k := fun k => congrArg (fun d => Dict.get? d k) h
  have fx := (Anim.fixed_iff.1 fx).2.2.2.1
  have fy := (Anim.fixed_iff.1 fy).2.2.2.1
  rw [dmap_fixed_iff] at fx fy
  constructor
  · have := hg s!!"ik"
    simp [get?_append, get?_jl_same, get?_jl_ne, get?_jd_same, get?_jd_ne] at this
    exact jd_inj (by simpa using this)
  · have := hg s!!"drawOrder"
    simp [get?_append, get?_jl_same, get?_jl_ne, get?_jd_same, get?_jd_ne] at this
    exact (map_all₂ (jl_inj (f := fun t : DrawTl F => t.toJson b) (by simpa using this))).mono' (fun _ _ _ _ h => DrR.of h)
  · have := hg s!!"bones"
    simp [get?_append, get?_jl_same, get?_jl_ne, get?_jd_same, get?_jd_ne] at this
    exact jd_inj (by simpa using this)
  · have := hg s!!"slots"
    simp [get?_append, get?_jl_same, get?_jl_ne, get?_jd_same, get?_jd_ne] at this
    exact (jd_inj (f := fun t : SlotTl F => t.toJson b) (by simpa using this)).mono
      (fun k t u h1 h2 h => TlR.of h (hx _ h1) (hy _ h2) (fx _ h1) (fy _ h2))
  · have := hg s!!"events"
    simp [get?_append, get?_jl_same, get?_jl_ne, get?_jd_same, get?_jd_ne] at this
    exact jl_inj (by simpa using this)
  · have := hg s!!"transform"
    simp [get?_append, get?_jl_same, get?_jl_ne, get?_jd_same, get?_jd_ne] at this
    exact jd_inj (by simpa using this)
  · have := hg s!!"path"
    simp [get?_append, get?_jl_same, get?_jl_ne, get?_jd_same, get?_jd_ne] at this
    exact jd_inj (by simpa using this)
  · have := hg s!!"deform"
    simp [get?_append, get?_jl_same, get?_jl_ne, get?_jd_same, get?_jd_ne] at this
    refine (jd_inj (f := fun d => .dict (dmap (Anim.jdict deformCls b) d)) (by simpa using this)).mono ?_
    intro _ d d' _ _ h
    injection h with h
    refine (KR.of_map (f := Anim.jdict deformCls b) h).mono ?_
    intro _ d d' _ _ h
    unfold Anim.jdict at h
    injection h with h
    exact KR.of_map (f := Anim.jlist deformCls b) h

theorem AnR.toJson {b : Bool} {x y : Anim F} (h : AnR b x y) : x.toJson b = y.toJson b := by
  unfold Anim.toJson
  rw [jd_congr s!!"ik" h.ik, jl_congr s!!"drawOrder" (h.drawOrder.map_eq (fun _ _ h => h.json)), jd_congr s!!"bones" h.bones,
    jd_congr s!!"slots" (h.slots.mono (fun _ _ _ _ _ h => h.json)), jl_congr s!!"events" h.events, jd_congr s!!"transform" h.transform,
    jd_congr s!!"path" h.path]
  rw [jd_congr s!!"deform" (f := fun d => .dict (dmap (Anim.jdict deformCls b) d)) (l := x.deform) (m := y.deform)]
  refine h.deform.mono ?_
  intro _ d d' _ _ h
  congr 1
  refine h.map_eq (f := Anim.jdict deformCls b) (g := Anim.jdict deformCls b) ?_
  intro d d' h
  unfold Anim.jdict
  congr 1
  exact h.map_eq (f := Anim.jlist deformCls b) (g := Anim.jlist deformCls b) (fun _ _ h => h)

/-! ### Documents -/

structure DataR (b : Bool) (x y : AnimData F) : Prop where
  bones : x.bones.map (·.toJson b) = y.bones.map (·.toJson b)
  slots : x.slots = y.slots
  skins : All₂ (SkinR b) x.skins y.skins
  events : KR (fun a a' => eventsCls.toJson b a = eventsCls.toJson b a') x.events y.events
  ik : x.ik.map (ikCls.toJson b) = y.ik.map (ikCls.toJson b)
  transform : x.transform.map (transformCls.toJson b) = y.transform.map (transformCls.toJson b)
  path : x.path.map (pathCls.toJson b) = y.path.map (pathCls.toJson b)
  animations : KR (AnR b) x.animations y.animations

theorem DataR.toJson {b : Bool} {x y : AnimData F} (h : DataR b x y) : x.toJson b = y.toJson b := by
  unfold AnimData.toJson
  rw [jl_congr s!!"bones" h.bones, h.slots, h.skins.map_eq (fun _ _ h => h.toJson), jd_congr s!!"events" h.events, jl_congr s!!"ik" h.ik,
    jl_congr s!!"transform" h.transform, jl_congr s!!"path" h.path, jd_congr s!!"animations" (h.animations.mono (fun _ _ _ _ _ h => h.toJson))]

/-- the objects that were read from the document -/
structure Shaped (x : AnimData F) : Prop where
  skins : ∀ y ∈ x.skins, Skin.Good y
  slots : ∀ p ∈ x.animations, ∀ q ∈ p.2.slots, SlotTl.Good q.2

theorem Shaped.of {b : Bool} {x : AnimData F} (h : AnimData.Good b x) : Shaped x := ⟨h.skins, fun p hp => (h.animations p hp).slots⟩

theorem DataR.of {s t : SpineDoc F} (h : s.toJson = t.toJson) (hv : s.version = t.version)
    (gs : Shaped s.data) (gt : Shaped t.data)
    (fs : s.data.setDefaults s.version.is38 = s.data) (ft : t.data.setDefaults s.version.is38 = t.data) : DataR s.version.is38 s.data t.data := by
  obtain ⟨p1, p2, p3⟩ := SpineDoc.toJson_parts h hv
  unfold SpineDoc.toJson at h
  injection h with h
  rw [← hv] at h
  generalize s.version.is38 = b at *
  have hg : ∀ k, k ≠ s!!"skeleton" → Dict.get? (s.data.toJson b) k = Dict.get? (t.data.toJson b) k := by
    intro k hk
    have := congrArg (fun d => Dict.get? d k) h
    simp only [Dict.get?_set] at this
    simpa [hk, Ne.symm hk] using this
  have fs := (AnimData.fixed_iff.1 fs).2.2.2.2.2.2
  have ft := (AnimData.fixed_iff.1 ft).2.2.2.2.2.2
  rw [dmap_fixed_iff] at fs ft
  refine ⟨p1, ?_, ?_, ?_, ?_, ?_, ?_, ?_⟩
  · have := (map_all₂ p2).map_eq (f := id) (g := id) (fun x y h => Slot.toJson_inj h)
    simpa using this
  · exact (map_all₂ p3).mono' (fun x y hx hy h => SkinR.of h (gs.skins x hx) (gt.skins y hy))
  · have := hg s!!"events" (by decide)
    simp [AnimData.toJson, get?_append, get?_jl_same, get?_jl_ne, get?_jd_same, get?_jd_ne, Dict.get?] at this
    exact jd_inj (by simpa using this)
  · have := hg s!!"ik" (by decide)
    simp [AnimData.toJson, get?_append, get?_jl_same, get?_jl_ne, get?_jd_same, get?_jd_ne, Dict.get?] at this
    exact jl_inj (by simpa using this)
  · have := hg s!!"transform" (by decide)
    simp [AnimData.toJson, get?_append, get?_jl_same, get?_jl_ne, get?_jd_same, get?_jd_ne, Dict.get?] at this
    exact jl_inj (by simpa using this)
  · have := hg s!!"path" (by decide)
    simp [AnimData.toJson, get?_append, get?_jl_same, get?_jl_ne, get?_jd_same, get?_jd_ne, Dict.get?] at this
    exact jl_inj (by simpa using this)
  · have := hg s!!"animations" (by decide)
    simp [AnimData.toJson, get?_append, get?_jl_same, get?_jl_ne, get?_jd_same, get?_jd_ne, Dict.get?] at this
    exact (jd_inj (f := fun a : Anim F => a.toJson b) (by simpa using this)).mono
      (fun k x y h1 h2 h => AnR.of h (gs.slots _ h1) (gt.slots _ h2) (fs _ h1) (ft _ h2))

end State
end Spine
