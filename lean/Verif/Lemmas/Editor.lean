import Verif.Model.Editor
import Verif.Lemmas.Dict
import Verif.Lemmas.Build
/- Structural facts about the editor functions. -/
namespace Spine
set_option linter.unusedSectionVars false
variable {F : Type}

/-- lists of the same length related element by element -/
inductive All₂ {α β : Type} (R : α → β → Prop) : List α → List β → Prop
  | nil : All₂ R [] []
  | cons {x y l m} : R x y → All₂ R l m → All₂ R (x :: l) (y :: m)

namespace All₂
variable {α β : Type} {R : α → β → Prop}

theorem length {l : List α} {m : List β} (h : All₂ R l m) : l.length = m.length := by
  induction h with
  | nil => rfl
  | cons _ _ ih => simp [ih]

theorem left {l : List α} {m : List β} (h : All₂ R l m) {x : α} (hx : x ∈ l) : ∃ y ∈ m, R x y := by
  induction h with
  | nil => cases hx
  | cons hr _ ih =>
    rcases List.mem_cons.1 hx with rfl | hx
    · exact ⟨_, by simp, hr⟩
    · obtain ⟨y, hy, h⟩ := ih hx; exact ⟨y, by simp [hy], h⟩

theorem right {l : List α} {m : List β} (h : All₂ R l m) {y : β} (hy : y ∈ m) : ∃ x ∈ l, R x y := by
  induction h with
  | nil => cases hy
  | cons hr _ ih =>
    rcases List.mem_cons.1 hy with rfl | hy
    · exact ⟨_, by simp, hr⟩
    · obtain ⟨x, hx, h⟩ := ih hy; exact ⟨x, by simp [hx], h⟩

theorem mono {S : α → β → Prop} {l : List α} {m : List β} (h : All₂ R l m) (hs : ∀ x y, x ∈ l → R x y → S x y) :
    All₂ S l m := by
  induction h with
  | nil => exact .nil
  | cons hr _ ih => exact .cons (hs _ _ (by simp) hr) (ih (fun x y hx => hs x y (by simp [hx])))

theorem map_eq {γ : Type} {f : α → γ} {g : β → γ} {l : List α} {m : List β} (h : All₂ R l m)
    (hs : ∀ x y, R x y → f x = g y) : l.map f = m.map g := by
  induction h with
  | nil => rfl
  | cons hr _ ih => simp [hs _ _ hr, ih]

theorem get {l : List α} {m : List β} (h : All₂ R l m) (i : Nat) (hi : i < l.length) (hi' : i < m.length) :
    R l[i] m[i] := by
  induction h generalizing i with
  | nil => cases hi
  | cons hr _ ih => cases i with
    | zero => exact hr
    | succ i => exact ih i (by simpa using hi) (by simpa using hi')

theorem eq {l m : List α} (h : All₂ (· = ·) l m) : l = m := by
  induction h with
  | nil => rfl
  | cons hr _ ih => rw [hr, ih]

theorem of_map (f : α → β) (l : List α) (h : ∀ x ∈ l, R x (f x)) : All₂ R l (l.map f) := by
  induction l with
  | nil => exact .nil
  | cons x l ih => exact .cons (h x (by simp)) (ih (fun y hy => h y (by simp [hy])))

end All₂

theorem mapMut_ok {α : Type} (f : α → Res α Unit) (l l' : List α) :
    mapMut f l = (.ok (), l') ↔ All₂ (fun x x' => f x = (.ok (), x')) l l' := by
  induction l generalizing l' with
  | nil =>
    simp only [mapMut, Prod.mk.injEq, true_and]
    constructor
    · rintro rfl; exact .nil
    · intro h; cases h; rfl
  | cons x l ih =>
    rw [mapMut]
    constructor
    · intro h
      split at h
      · simp at h
      · rename_i u x' hx
        cases u
        simp only [Prod.mk.injEq] at h
        obtain ⟨h1, h2⟩ := h
        subst h2
        exact .cons hx ((ih _).1 (by rw [← h1]))
    · intro h
      cases h with
      | cons hx h =>
        rw [hx]
        simp only [(ih _).2 h]

/-- `mapMut` of a function that never raises -/
theorem mapMut_pure {α : Type} (f : α → α) (l : List α) : mapMut (fun x => (.ok (), f x)) l = (.ok (), l.map f) := by
  rw [mapMut_ok]; exact All₂.of_map f l (fun _ _ => rfl)

/-- the lists before and after a loop in place have the same length, even when it raises -/
theorem mapMut_rel {α : Type} {R : α → α → Prop} (hr : ∀ x, R x x) (f : α → Res α Unit) (hf : ∀ x, R x (f x).2) (l : List α) :
    All₂ R l (mapMut f l).2 := by
  induction l with
  | nil => exact .nil
  | cons x l ih =>
    rw [mapMut]
    have := hf x
    split
    · rename_i e x' hx; rw [hx] at this
      refine .cons this ?_
      clear ih
      induction l with
      | nil => exact .nil
      | cons y l ih => exact .cons (hr y) ih
    · rename_i u x' hx; rw [hx] at this
      exact .cons this ih

theorem mapMutD_ok {α : Type} (f : Str → α → Res α Unit) (d d' : Dict α) :
    mapMutD f d = (.ok (), d') ↔ All₂ (fun p p' => p'.1 = p.1 ∧ f p.1 p.2 = (.ok (), p'.2)) d d' := by
  unfold mapMutD
  rw [mapMut_ok]
  constructor
  · intro h
    refine h.mono ?_
    rintro ⟨k, v⟩ ⟨k', v'⟩ _ h
    simp only [Prod.mk.injEq] at h ⊢
    exact ⟨h.2.1.symm, Prod.ext h.1 h.2.2⟩
  · intro h
    refine h.mono ?_
    rintro ⟨k, v⟩ ⟨k', v'⟩ _ ⟨h1, h2⟩
    simp only at h1 h2 ⊢
    rw [h2, h1]

theorem keys_dmap {α β : Type} (f : α → β) (d : Dict α) : Dict.keys (dmap f d) = Dict.keys d := by
  simp [dmap, Dict.keys]

theorem mem_dmap {α β : Type} (f : α → β) (d : Dict α) (k : Str) (v : β) :
    (k, v) ∈ dmap f d ↔ ∃ x, (k, x) ∈ d ∧ f x = v := by
  simp only [dmap, List.mem_map, Prod.mk.injEq, Prod.exists]
  constructor
  · rintro ⟨a, b, h, rfl, rfl⟩; exact ⟨b, h, rfl⟩
  · rintro ⟨x, h, rfl⟩; exact ⟨k, x, h, rfl, rfl⟩

theorem dmap_dmap {α β γ : Type} (f : α → β) (g : β → γ) (d : Dict α) : dmap g (dmap f d) = dmap (fun x => g (f x)) d := by
  simp [dmap, Function.comp_def]

theorem dmap_id {α : Type} (d : Dict α) : dmap (fun x => x) d = d := by
  simp [dmap]

theorem dmap_filter {α β : Type} (f : α → β) (d : Dict α) (p : Str → Bool) :
    dmap f (d.filter (fun q => p q.1)) = (dmap f d).filter (fun q => p q.1) := by
  simp [dmap, List.filter_map, Function.comp_def]

theorem get?_dmap {α β : Type} (f : α → β) (d : Dict α) (k : Str) :
    Dict.get? (dmap f d) k = (Dict.get? d k).map f := by
  induction d with
  | nil => rfl
  | cons p d ih =>
    obtain ⟨k', v⟩ := p
    show Dict.get? ((k', f v) :: dmap f d) k = _
    simp only [Dict.get?]
    split
    · rfl
    · exact ih

namespace Editor
variable [PyRt F]

/-! ### erase_animations -/

theorem eraseRaw_fst (names : List Str) (d : Dict (Anim F)) :
    (eraseRaw names d).1 = d.filter (fun p => p.1 ∉ names) := by
  induction names generalizing d with
  | nil => simp only [eraseRaw]; rw [List.filter_eq_self.2]; simp
  | cons n ns ih =>
    rw [eraseRaw]
    split
    · rw [ih, Dict.del, List.filter_filter]
      congr 1; funext p
      simp only [List.mem_cons, not_or]
      grind
    · rename_i h
      simp only [ih]
      rw [Dict.has_iff_mem_keys] at h
      apply List.filter_congr
      intro p hp
      have : p.1 ≠ n := by
        rintro rfl
        exact h (List.mem_map_of_mem hp)
      simp [this]

theorem eraseRaw_snd_nil (names : List Str) (d : Dict (Anim F)) :
    (eraseRaw names d).2 = [] ↔ names.Nodup ∧ ∀ n ∈ names, n ∈ Dict.keys d := by
  induction names generalizing d with
  | nil => simp [eraseRaw]
  | cons n ns ih =>
    rw [eraseRaw]
    split
    · rename_i h
      rw [Dict.has_iff_mem_keys] at h
      rw [ih, Dict.keys_del, List.nodup_cons]
      constructor
      · rintro ⟨h1, h2⟩
        refine ⟨⟨?_, h1⟩, ?_⟩
        · intro hm
          have := h2 n hm
          simp at this
        · intro x hx
          rcases List.mem_cons.1 hx with rfl | hx
          · exact h
          · have := h2 x hx
            exact (List.mem_filter.1 this).1
      · rintro ⟨⟨h0, h1⟩, h2⟩
        refine ⟨h1, fun x hx => List.mem_filter.2 ⟨h2 x (by simp [hx]), ?_⟩⟩
        simp only [decide_eq_true_eq]
        rintro rfl; exact h0 hx
    · rename_i h
      rw [Dict.has_iff_mem_keys] at h
      simp only [List.cons_ne_nil, false_iff]
      rintro ⟨_, h2⟩
      exact h (h2 n (by simp))

/-! ### clean_animation, step by step -/

theorem clean_ok {e e' : Editor F} {ids atts : List Str} (h : clean e = (.ok (ids, atts), e')) :
    ∃ slots g1 e1 a imgs g2, AnimData.unused e.data = .ok (slots, atts) ∧
      cleanGraph slots atts e.graph = (.ok ids, g1) ∧
      readBack { e with graph := g1 } = (.ok (), e1) ∧
      removeSlots ids e.data.slots e1.data = (.ok (), a) ∧
      detach e1.graph = (.ok imgs, g2) ∧
      e' = cleanImages (imgs.map some) { e1.withData (removeAttachments atts a) with graph := g2 } := by
  unfold clean at h
  simp only at h
  split at h
  · simp at h
  · rename_i slots atts' hu
    split at h
    · simp at h
    · rename_i ids' g1 hg
      split at h
      · simp at h
      · rename_i u e1 hr
        split at h
        · simp at h
        · rename_i u' a hs
          split at h
          · simp at h
          · rename_i imgs g2 hd
            simp only [Prod.mk.injEq, Except.ok.injEq] at h
            obtain ⟨⟨rfl, rfl⟩, rfl⟩ := h
            exact ⟨slots, g1, e1, a, imgs, g2, hu, hg, hr, hs, hd, rfl⟩

theorem readBack_ok {e e' : Editor F} (h : readBack e = (.ok (), e')) :
    ∃ j bs ss is, SpineNodes.toJsonData e.graph = .ok j ∧ mapE Bone.init j.bones = .ok bs ∧
      mapE Slot.init j.slots = .ok ss ∧ mapE ikCls.init j.ik = .ok is ∧
      e' = e.withData (AnimData.setDefaults e.doc.version.is38 { e.data with bones := bs, slots := ss, ik := is }) := by
  unfold readBack at h
  split at h
  · simp at h
  · rename_i j hj
    split at h
    · simp at h
    · rename_i bs hb
      simp only at h
      split at h
      · simp at h
      · rename_i ss hs
        split at h
        · simp at h
        · rename_i is hi
          simp only [Prod.mk.injEq, true_and] at h
          exact ⟨j, bs, ss, is, hj, hb, hs, hi, h.symm⟩

theorem removeSlots_ok {ids : List Str} {orig : List (Slot F)} {a a' : AnimData F}
    (h : removeSlots ids orig a = (.ok (), a')) :
    ∃ an, mapMutD (fun _ x => Anim.removeDrawOrder ids orig x) (slotsInAnims ids (slotsInSkins ids a)).animations = (.ok (), an) ∧
      a' = { slotsInSkins ids a with animations := an } := by
  unfold removeSlots drawOrderRefs at h
  simp only [Prod.mk.injEq] at h
  exact ⟨_, Prod.ext h.1 rfl, h.2.symm⟩

end Editor
end Spine
