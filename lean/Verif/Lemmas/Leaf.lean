import Verif.Model.Leaf
import Verif.Lemmas.Dict
/- Facts about leaf objects and about the class table. -/
namespace Spine
open JVal
set_option linter.unusedSectionVars false
variable {F : Type} [PyRt F]

namespace Cls

theorem isNull_iff (v : JVal F) : v.isNull = true ↔ v = .null := by cases v <;> simp [isNull]

theorem pyEq_null (v : JVal F) : pyEq v .null = true ↔ v = .null := by
  cases v <;> simp [pyEq]

/-- what every class of the table satisfies -/
structure OK (c : Cls F) : Prop where
  nodup : c.attrs.Nodup
  req_known : ∀ k ∈ c.required, k ∈ c.attrs
  req_free : ∀ b, ∀ k ∈ c.required, Dict.get? (c.defaultsFor b) k = none
  refl : ∀ b k dv, Dict.get? (c.defaultsFor b) k = some dv → pyEq dv dv = true

theorem get?_imp_all {d : Dict (JVal F)} {P : JVal F → Prop} (h : ∀ p ∈ d, P p.2) {k : Str} {v : JVal F}
    (hg : Dict.get? d k = some v) : P v := h _ (Dict.mem_of_get? hg)

theorem leafClasses_ok : ∀ c ∈ (leafClasses : List (Cls F)), c.OK := by
  have one : pyEq (jone : JVal F) jone = true := by simp [jone, pyEq, PyRt.one_feq]
  intro c hc
  simp only [leafClasses, List.mem_cons, List.not_mem_nil, or_false] at hc
  rcases hc with rfl|rfl|rfl|rfl|rfl|rfl|rfl|rfl|rfl|rfl|rfl|rfl|rfl|rfl|rfl|rfl|rfl|rfl|rfl|rfl|rfl|rfl <;>
  · refine ⟨?_, ?_, ?_, ?_⟩
    · dsimp only [boneCls, boneTranslateCls, boneRotateCls, slotCls, slotKeyframeCls, eventsCls, eventTimelineCls, deformCls,
        ikCls, ikTimelineCls, transformCls, transformTimelineCls, pathCls, pathTimelineCls, offsetCls, regionCls, meshCls,
        skinPathCls, linkedMeshCls, boundingBoxCls, pointCls, clippingCls]
      decide
    · dsimp only [boneCls, boneTranslateCls, boneRotateCls, slotCls, slotKeyframeCls, eventsCls, eventTimelineCls, deformCls,
        ikCls, ikTimelineCls, transformCls, transformTimelineCls, pathCls, pathTimelineCls, offsetCls, regionCls, meshCls,
        skinPathCls, linkedMeshCls, boundingBoxCls, pointCls, clippingCls]
      decide
    · intro b
      simp only [Dict.get?_eq_none_iff]
      cases b <;>
      · simp only [defaultsFor, Bool.false_eq_true, if_true, if_false, boneCls, boneTranslateCls, boneRotateCls, slotCls,
          slotKeyframeCls, eventsCls, eventTimelineCls, deformCls, ikCls, ikTimelineCls, transformCls, transformTimelineCls,
          pathCls, pathTimelineCls, offsetCls, regionCls, meshCls, skinPathCls, linkedMeshCls, boundingBoxCls, pointCls,
          clippingCls, Dict.keys, List.map_cons, List.map_nil]
        decide
    · intro b k dv hg
      refine get?_imp_all (P := fun v => pyEq v v = true) ?_ hg
      cases b <;> simp [defaultsFor, pyEq, boneCls, boneTranslateCls, boneRotateCls, slotCls, slotKeyframeCls, eventsCls,
        eventTimelineCls, deformCls, ikCls, ikTimelineCls, transformCls, transformTimelineCls, pathCls, pathTimelineCls,
        offsetCls, regionCls, meshCls, skinPathCls, linkedMeshCls, boundingBoxCls, pointCls, clippingCls, one, pyEqList]

/-! ### Round trip -/

theorem keys_map {β γ : Type} (a : Dict β) (f : Str → β → γ) :
    Dict.keys (a.map (fun p => (p.1, f p.1 p.2))) = Dict.keys a := by
  simp [Dict.keys, List.map_map, Function.comp_def]

theorem get?_map {β γ : Type} (a : Dict β) (f : Str → β → γ) (k : Str) :
    Dict.get? (a.map (fun p => (p.1, f p.1 p.2))) k = (Dict.get? a k).map (f k) := by
  induction a with
  | nil => rfl
  | cons p r ih =>
    obtain ⟨k', v⟩ := p
    simp only [List.map_cons, Dict.get?]
    split
    · rename_i e; subst e; rfl
    · exact ih

/-- value of attribute `k` after `set_default_values` -/
def dflt (c : Cls F) (b : Bool) (k : Str) (v : JVal F) : JVal F :=
  match v with
  | .null => (Dict.get? (c.defaultsFor b) k).getD .null
  | v => v

theorem setDefaults_eq (c : Cls F) (b : Bool) (a : Attrs F) :
    c.setDefaults b a = a.map (fun p => (p.1, dflt c b p.1 p.2)) := by
  unfold setDefaults
  apply List.map_congr_left
  intro p _
  cases h : p.2 <;> simp [dflt]

theorem keys_setDefaults (c : Cls F) (b : Bool) (a : Attrs F) : Dict.keys (c.setDefaults b a) = Dict.keys a := by
  rw [setDefaults_eq, keys_map]

theorem get?_setDefaults (c : Cls F) (b : Bool) (a : Attrs F) (k : Str) :
    Dict.get? (c.setDefaults b a) k = (Dict.get? a k).map (dflt c b k) := by
  rw [setDefaults_eq, get?_map]

theorem dflt_idem (c : Cls F) (b : Bool) (k : Str) (v : JVal F) : dflt c b k (dflt c b k v) = dflt c b k v := by
  cases v <;> simp only [dflt]
  cases Dict.get? (c.defaultsFor b) k with
  | none => rfl
  | some dv => cases dv <;> rfl

theorem setDefaults_idem (c : Cls F) (b : Bool) (a : Attrs F) : c.setDefaults b (c.setDefaults b a) = c.setDefaults b a := by
  rw [setDefaults_eq, setDefaults_eq, List.map_map]
  apply List.map_congr_left
  intro p _
  simp [dflt_idem]

/-- value of an attribute after serialising and parsing, before defaults are applied -/
def strip (c : Cls F) (b : Bool) (k : Str) (v : JVal F) : JVal F := if c.emits b k v then v else .null

theorem emits_strip_dflt {c : Cls F} (hc : c.OK) (b : Bool) (k : Str) (v : JVal F) :
    c.emits b k (dflt c b k (strip c b k v)) = c.emits b k v ∧
    (c.emits b k v = true → dflt c b k (strip c b k v) = v) ∧
    (c.emits b k v = false → v = .null ∨ pyEq v (dflt c b k (strip c b k v)) = true) := by
  unfold strip
  cases he : c.emits b k v with
  | true =>
    have hv : dflt c b k v = v := by
      cases v with
      | null =>
        unfold emits at he
        cases hd : Dict.get? (c.defaultsFor b) k with
        | none => simp [hd, isNull] at he
        | some dv =>
          simp only [hd, isNull, if_true] at he
          cases dv <;> simp at he
          simp [dflt, hd]
      | _ => rfl
    simp [hv, he]
  | false =>
    simp only [Bool.false_eq_true, if_false]
    unfold emits at he
    cases hd : Dict.get? (c.defaultsFor b) k with
    | none =>
      have hn : v = .null := by
        simp only [hd, Bool.not_eq_false'] at he
        exact (isNull_iff v).1 he
      simp [dflt, hd, emits, isNull, hn]
    | some dv =>
      have hr := hc.refl b k dv hd
      simp only [hd] at he
      by_cases hv : v = .null
      · subst hv
        simp only [isNull, if_true] at he
        refine ⟨?_, ?_, ?_⟩
        · simp [dflt, hd, emits, hr, isNull]
          exact he
        · simp
        · intro _; exact .inl rfl
      · have hv' : v.isNull = false := by
          cases h : v.isNull
          · rfl
          · exact absurd ((isNull_iff v).1 h) hv
        simp only [hv', Bool.false_eq_true, if_false, Bool.not_eq_false'] at he
        have hdv : dv.isNull = false := by
          cases h : dv.isNull
          · rfl
          · rw [(isNull_iff dv).1 h] at he
            exact absurd ((pyEq_null v).1 he) hv
        refine ⟨?_, ?_, ?_⟩
        · simp [dflt, hd, emits, hdv, hr]
        · simp
        · intro _; right; simpa [dflt, hd] using he

theorem get?_filter {β : Type} (a : Dict β) (P : Str → β → Bool) (hn : (Dict.keys a).Nodup) (k : Str) :
    Dict.get? (a.filter (fun p => P p.1 p.2)) k = (Dict.get? a k).filter (P k) := by
  induction a with
  | nil => rfl
  | cons p r ih =>
    obtain ⟨k', v⟩ := p
    simp only [Dict.keys, List.map_cons, List.nodup_cons] at hn
    have ih := ih hn.2
    by_cases e : k' = k
    · subst e
      have hr : Dict.get? r k' = none := (Dict.get?_eq_none_iff _ _).2 hn.1
      cases hp : P k' v with
      | true => simp [hp, Dict.get?, Option.filter]
      | false => simp [hp, Dict.get?, ih, hr, Option.filter]
    · cases hp : P k' v with
      | true => simp [hp, Dict.get?, e, ih]
      | false => simp [hp, Dict.get?, e, ih]

theorem values_dict (c : Cls F) (d : Dict (JVal F)) : c.values (.dict d) = .ok d := by
  unfold values
  cases d <;> cases c.orStyle <;> simp [truthy]

theorem check_ok {known req : List Str} {d : Dict (JVal F)} (h1 : ∀ k ∈ Dict.keys d, k ∈ known)
    (h2 : ∀ k ∈ req, k ∈ Dict.keys d) : check known req d = .ok () := by
  unfold check
  have e1 : (Dict.keys d).filter (fun k => k ∉ known) = [] := by
    rw [List.filter_eq_nil_iff]; intro k hk; simpa using h1 k hk
  have e2 : req.filter (fun k => k ∉ Dict.keys d) = [] := by
    rw [List.filter_eq_nil_iff]; intro k hk; simpa using h2 k hk
  simp only [e1, e2, ne_eq, not_true_eq_false, if_false]

theorem check_iff {known req : List Str} {d : Dict (JVal F)} : check known req d = .ok () ↔
    (∀ k ∈ Dict.keys d, k ∈ known) ∧ ∀ k ∈ req, k ∈ Dict.keys d := by
  refine ⟨?_, fun h => check_ok h.1 h.2⟩
  intro h
  unfold check at h
  simp only at h
  split at h
  · cases h
  · rename_i h1
    split at h
    · cases h
    · rename_i h2
      simp only [ne_eq, Decidable.not_not, List.filter_eq_nil_iff] at h1 h2
      exact ⟨by simpa using h1, by simpa using h2⟩

theorem map_get?_self {β : Type} (a : Dict β) (hn : (Dict.keys a).Nodup) (f : Option β → β) (h : ∀ v, f (some v) = v) :
    (Dict.keys a).map (fun k => (k, f (Dict.get? a k))) = a := by
  have : ∀ (k : Str) (v : β), (k, v) ∈ a → f (Dict.get? a k) = v := by
    intro k v hm; rw [Dict.get?_of_mem hn hm, h]
  conv => rhs; rw [← List.map_id a]
  simp only [Dict.keys, List.map_map]
  apply List.map_congr_left
  intro p hp
  simp [this p.1 p.2 hp]

/-- parsing what was serialised: emitted attributes are kept, the others are null -/
theorem init_toJson {c : Cls F} (hc : c.OK) (b : Bool) (a : Attrs F) (hk : Dict.keys a = c.attrs)
    (hr : ∀ k ∈ c.required, ∀ v, Dict.get? a k = some v → v ≠ .null) :
    c.init (c.toJson b a) = .ok (a.map (fun p => (p.1, strip c b p.1 p.2))) := by
  have hn : (Dict.keys a).Nodup := by rw [hk]; exact hc.nodup
  unfold init toJson
  rw [values_dict]
  simp only [bind, Except.bind]
  rw [check_ok]
  · simp only [pure, Except.pure, Except.ok.injEq]
    rw [← hk]
    simp only [get?_filter a (c.emits b) hn]
    simp only [Dict.keys, List.map_map]
    apply List.map_congr_left
    intro p hp
    have : Dict.get? a p.1 = some p.2 := Dict.get?_of_mem hn hp
    simp only [Function.comp, this, Prod.mk.injEq, true_and, strip]
    cases he : c.emits b p.1 p.2 <;> simp [Option.filter, he]
  · intro k hkk
    rw [← hk]
    exact (Dict.keys_filter_sublist _ _).subset hkk
  · intro k hkr
    have hka : k ∈ Dict.keys a := by rw [hk]; exact hc.req_known k hkr
    obtain ⟨v, hv⟩ := (Dict.get?_isSome_iff a k).2 hka
    have hv' := hr k hkr v hv
    have hnull : v.isNull = false := by
      cases h : v.isNull
      · rfl
      · exact absurd ((isNull_iff v).1 h) hv'
    refine (Dict.get?_isSome_iff _ _).1 ⟨v, ?_⟩
    rw [get?_filter a (c.emits b) hn, hv]
    simp [emits, hc.req_free b k hkr, hnull]

/-- serialise, parse, apply defaults, serialise: the same result -/
theorem toJson_stable {c : Cls F} (hc : c.OK) (b : Bool) (a : Attrs F) :
    c.toJson b (c.setDefaults b (a.map (fun p => (p.1, strip c b p.1 p.2)))) = c.toJson b a := by
  unfold toJson
  congr 1
  rw [setDefaults_eq, List.map_map]
  induction a with
  | nil => rfl
  | cons p r ih =>
    obtain ⟨k, v⟩ := p
    obtain ⟨h1, h2, h3⟩ := emits_strip_dflt hc b k v
    simp only [List.map_cons, Function.comp]
    rw [List.filter_cons, List.filter_cons]
    simp only [h1]
    cases he : c.emits b k v with
    | true =>
      rw [h2 he]
      simp only [if_true, List.cons.injEq, true_and]
      exact ih
    | false =>
      simp only [Bool.false_eq_true, if_false]
      exact ih

end Cls
end Spine
