import Verif.Spec.Skins
import Verif.Lemmas.Traverse
import Verif.Lemmas.DataShape
import Verif.Model.Editor
/- Images: the three ways the library computes the image of an attachment agree; folds that collect. -/
set_option linter.unusedSectionVars false
namespace Spine
open JVal
variable {F : Type} [PyRt F]

/-- what a successful step establishes and later steps keep holds at the end -/
theorem foldE_cover {α β : Type} {f : β → α → Except Err β} (C : α → β → Prop) (l : List α)
    (hm : ∀ b a b' x, f b a = .ok b' → C x b → C x b') (hc : ∀ a ∈ l, ∀ b b', f b a = .ok b' → C a b') :
    ∀ b b', Graph.foldE f b l = .ok b' → ∀ a ∈ l, C a b' := by
  induction l with
  | nil => intro b b' _ a ha; cases ha
  | cons x l ih =>
    intro b b' h a ha
    simp only [Graph.foldE] at h
    split at h
    · rename_i b1 h1
      rcases List.mem_cons.1 ha with rfl | ha
      · exact Graph.foldE_inv (fun b => C a b) l (fun y _ c c' hy hf => hm _ _ _ _ hf hy) b1 b'
          (hc _ (by simp) _ _ h1) h
      · exact ih (fun y hy => hc y (by simp [hy])) b1 b' h a ha
    · cases h

theorem Att.Good.sane {x : Att F} (h : Att.Good x) : Att.Sane x := by
  refine ⟨?_, ?_⟩
  · rw [h.keys]; exact (Cls.leafClasses_ok _ (AttKind.cls_mem x.kind)).nodup
  · intro k hk v hv
    have ht := h.typed
    unfold Att.typed at ht
    rw [List.all_eq_true] at ht
    have := ht k hk
    rw [hv] at this
    cases v <;> simp_all

theorem Att.Sane.noText {x : Att F} (h : x.Sane) {k : Str} (hk : k ∈ [s!!"name", s!!"path"]) :
    x.NoText k ↔ Dict.get? x.attrs k = none ∨ Dict.get? x.attrs k = some .null ∨ Dict.get? x.attrs k = some (.str []) := by
  constructor
  · intro hn
    cases hv : Dict.get? x.attrs k with
    | none => exact .inl rfl
    | some v =>
      rcases h.text k hk v hv with rfl | ⟨t, rfl⟩
      · exact .inr (.inl rfl)
      · rw [hn t hv]; exact .inr (.inr rfl)
  · rintro (e | e | e) t ht <;> rw [e] at ht <;> simp_all

namespace Editor

theorem imageOf_ok {key : Str} {x : Att F} {i : Str} (h : imageOf key x = .ok i) : ImageName key x i := by
  unfold imageOf at h
  have nt : ∀ k o, x.strAttr k = .ok o →
      (pyOr o none = none → x.NoText k) ∧ ∀ t, pyOr o none = some t → Dict.get? x.attrs k = some (.str t) ∧ t ≠ [] := by
    intro k o ho
    unfold Att.strAttr at ho
    cases hv : Dict.get? x.attrs k with
    | none => rw [hv] at ho; cases ho
    | some v =>
      rw [hv] at ho
      cases v <;> simp only [optStr, Except.ok.injEq, reduceCtorEq] at ho
      · subst ho
        refine ⟨fun _ t ht => ?_, fun t ht => by simp [pyOr] at ht⟩
        rw [hv] at ht; simp at ht
      · rename_i s
        subst ho
        cases s with
        | nil =>
          refine ⟨fun _ t ht => ?_, fun t ht => by simp [pyOr] at ht⟩
          rw [hv] at ht; simpa using ht.symm
        | cons c s =>
          refine ⟨fun e => by simp [pyOr] at e, fun t ht => ?_⟩
          simp only [pyOr, Option.some.injEq] at ht
          subst ht
          exact ⟨rfl, by simp⟩
  obtain ⟨p, hp, h⟩ := bindOk h
  have h1 := nt _ _ hp
  split at h
  · rename_i t ht
    injection h with h; subst h
    exact .path (h1.2 _ ht).1 (h1.2 _ ht).2
  · rename_i ht
    obtain ⟨n, hn, h⟩ := bindOk h
    have h2 := nt _ _ hn
    split at h
    · rename_i u hu
      injection h with h; subst h
      exact .name (h1.1 ht) (h2.2 _ hu).1 (h2.2 _ hu).2
    · rename_i hu
      injection h with h; subst h
      exact .key (h1.1 ht) (h2.1 hu)

end Editor

theorem AttKind.no_default (k : AttKind) (b : Bool) : ∀ n ∈ [s!!"name", s!!"path"],
    Dict.get? ((AttKind.cls k : Cls F).defaultsFor b) n = none := by
  intro n hn
  simp only [List.mem_cons, List.not_mem_nil, or_false] at hn
  rcases hn with rfl | rfl <;> cases k <;> cases b <;> rfl

/-- name and path in the output of an attachment -/
theorem Att.get?_toJson {x : Att F} (h : x.Sane) (b : Bool) {k : Str} (hk : k ∈ [s!!"name", s!!"path"]) :
    ∃ d, x.toJson b = .dict d ∧ Dict.get? d k = (Dict.get? x.attrs k).filter (fun v => !v.isNull) := by
  refine ⟨_, rfl, ?_⟩
  rw [Cls.get?_filter _ (fun k v => (AttKind.cls x.kind : Cls F).emits b k v) h.nodup]
  congr 1
  funext v
  unfold Cls.emits
  rw [AttKind.no_default _ _ _ hk]

theorem truthy_str (s : Str) : truthy (.str s : JVal F) = !s.isEmpty := by
  cases s <;> rfl

/-- the image node of an attachment: the same image -/
theorem imageName_toJson {key : Str} {x : Att F} (h : x.Sane) (b : Bool) {i : Str} (hi : ImageName key x i) :
    SpineNodes.imageName key (x.toJson b) = .ok i := by
  obtain ⟨d, hd, hp⟩ := Att.get?_toJson h b (k := s!!"path") (by simp)
  obtain ⟨d', hd', hn⟩ := Att.get?_toJson h b (k := s!!"name") (by simp)
  rw [hd] at hd'; injection hd' with hd'; subst hd'
  have nt : ∀ k ∈ [s!!"name", s!!"path"], x.NoText k → Dict.get? d k = (Dict.get? x.attrs k).filter (fun v => !v.isNull) →
      truthy ((Dict.get? d k).getD .null) = false := by
    intro k hk hx e
    rw [e]
    rcases (h.noText hk).1 hx with e | e | e <;> rw [e] <;> rfl
  have tx : ∀ k t, Dict.get? x.attrs k = some (.str t) → Dict.get? d k = (Dict.get? x.attrs k).filter (fun v => !v.isNull) →
      (Dict.get? d k).getD .null = .str t := by
    intro k t ht e; rw [e, ht]; rfl
  unfold SpineNodes.imageName dotGet
  rw [hd]
  simp only [bind, Except.bind]
  cases hi with
  | path e n =>
    rw [tx _ _ e hp, truthy_str]
    cases i with
    | nil => exact absurd rfl n
    | cons => rfl
  | name p e n =>
    rw [tx _ _ e hn, nt _ (by simp) p hp, truthy_str]
    cases i with
    | nil => exact absurd rfl n
    | cons => rfl
  | key p q =>
    rw [nt _ (by simp) p hp, nt _ (by simp) q hn]; rfl

end Spine
