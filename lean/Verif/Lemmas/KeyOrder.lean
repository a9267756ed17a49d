import Verif.Spec.KeyOrder
import Verif.Lemmas.ShapeOf
import Verif.Lemmas.CleanTotal
import Verif.Lemmas.Restrict
/- Loading does not depend on the order of the keys: the relation between two documents, class by class. -/
namespace Spine
namespace KeyOrder
open JVal
set_option linter.unusedSectionVars false
variable {F : Type}

/-- whenever the first computation succeeds so does the second, with a related result -/
def Fol {α β : Type} (R : α → β → Prop) (x : Except Err α) (y : Except Err β) : Prop := ∀ a, x = .ok a → ∃ b, y = .ok b ∧ R a b

section Fol
variable {α α' β β' γ γ' : Type} {R : α → α' → Prop} {S : β → β' → Prop} {T : γ → γ' → Prop}

theorem Fol.ok {a : α} {b : α'} (h : R a b) : Fol R (.ok a) (.ok b) := fun _ e => ⟨b, rfl, by cases e; exact h⟩
theorem Fol.pure {a : α} {b : α'} (h : R a b) : Fol R (Pure.pure a : Except Err α) (Pure.pure b : Except Err α') := Fol.ok h
theorem Fol.error {e : Err} {y : Except Err α'} : Fol R (.error e) y := fun _ h => by cases h
theorem Fol.mono {R' : α → α' → Prop} {x : Except Err α} {y : Except Err α'} (h : Fol R x y) (hr : ∀ a b, R a b → R' a b) : Fol R' x y :=
  fun a e => let ⟨b, h1, h2⟩ := h a e; ⟨b, h1, hr _ _ h2⟩

theorem Fol.bind {x : Except Err α} {y : Except Err α'} {f : α → Except Err β} {g : α' → Except Err β'} (h : Fol R x y)
    (hf : ∀ a b, R a b → Fol S (f a) (g b)) : Fol S (x >>= f) (y >>= g) := by
  intro r e
  obtain ⟨a, h1, h2⟩ := bindOk (show x.bind f = .ok r from e)
  obtain ⟨b, h3, h4⟩ := h a h1
  obtain ⟨s, h5, h6⟩ := hf a b h4 r h2
  exact ⟨s, by rw [h3]; exact h5, h6⟩

theorem Fol.bind2 {x : Except Err α} {y : Except Err α'} {f : α → Except Err β} {g : α' → Except Err β'} {k : β → Except Err γ}
    {k' : β' → Except Err γ'} (h : Fol S (x >>= f) (y >>= g)) (hk : ∀ a b, S a b → Fol T (k a) (k' b)) :
    Fol T (x >>= fun a => f a >>= k) (y >>= fun b => g b >>= k') := by
  have e1 : (x >>= fun a => f a >>= k) = (x >>= f) >>= k := by cases x <;> rfl
  have e2 : (y >>= fun a => g a >>= k') = (y >>= g) >>= k' := by cases y <;> rfl
  rw [e1, e2]
  exact h.bind hk

end Fol

/-- dictionaries with the same keys, related values, no key twice -/
structure DRel {α β : Type} (R : α → β → Prop) (d : Dict α) (e : Dict β) : Prop where
  nodup : (Dict.keys d).Nodup
  nodup' : (Dict.keys e).Nodup
  keys : ∀ k, k ∈ Dict.keys d ↔ k ∈ Dict.keys e
  val : ∀ k v w, Dict.get? d k = some v → Dict.get? e k = some w → R v w

namespace DRel
variable {α α' β β' : Type} {R : α → α' → Prop} {S : β → β' → Prop} {d : Dict α} {e : Dict α'}

theorem nil : DRel R ([] : Dict α) ([] : Dict α') := ⟨by simp [Dict.keys], by simp [Dict.keys], by simp [Dict.keys], by simp [Dict.get?]⟩

theorem get (h : DRel R d e) (k : Str) :
    (Dict.get? d k = none ∧ Dict.get? e k = none) ∨ ∃ v w, Dict.get? d k = some v ∧ Dict.get? e k = some w ∧ R v w := by
  by_cases hk : k ∈ Dict.keys d
  · obtain ⟨v, hv⟩ := (Dict.get?_isSome_iff d k).2 hk
    obtain ⟨w, hw⟩ := (Dict.get?_isSome_iff e k).2 ((h.keys k).1 hk)
    exact .inr ⟨v, w, hv, hw, h.val k v w hv hw⟩
  · exact .inl ⟨(Dict.get?_eq_none_iff d k).2 hk, (Dict.get?_eq_none_iff e k).2 (fun h' => hk ((h.keys k).2 h'))⟩

theorem left (h : DRel R d e) {k : Str} {v : α} (hm : (k, v) ∈ d) : ∃ w, (k, w) ∈ e ∧ R v w := by
  have hv := Dict.get?_of_mem h.nodup hm
  rcases h.get k with ⟨h1, _⟩ | ⟨v', w, h1, h2, h3⟩
  · rw [hv] at h1; cases h1
  · rw [hv] at h1; cases h1; exact ⟨w, Dict.mem_of_get? h2, h3⟩

theorem right (h : DRel R d e) {k : Str} {w : α'} (hm : (k, w) ∈ e) : ∃ v, (k, v) ∈ d ∧ R v w := by
  have hv := Dict.get?_of_mem h.nodup' hm
  rcases h.get k with ⟨_, h1⟩ | ⟨v', w', h1, h2, h3⟩
  · rw [hv] at h1; cases h1
  · rw [hv] at h2; cases h2; exact ⟨v', Dict.mem_of_get? h1, h3⟩

theorem mono {R' : α → α' → Prop} (h : DRel R d e) (hr : ∀ v w, R v w → R' v w) : DRel R' d e :=
  ⟨h.nodup, h.nodup', h.keys, fun k v w h1 h2 => hr _ _ (h.val k v w h1 h2)⟩

theorem symm {R' : α' → α → Prop} (h : DRel R d e) (hr : ∀ v w, R v w → R' w v) : DRel R' e d :=
  ⟨h.nodup', h.nodup, fun k => (h.keys k).symm, fun k v w h1 h2 => hr _ _ (h.val k w v h2 h1)⟩

theorem perm (h : DRel R d e) : (Dict.keys d).Perm (Dict.keys e) :=
  (List.perm_ext_iff_of_nodup h.nodup h.nodup').2 h.keys

theorem length (h : DRel R d e) : d.length = e.length := by
  rw [← Dict.keys_length d, ← Dict.keys_length e]; exact h.perm.length_eq

theorem nil_iff (h : DRel R d e) : d = [] ↔ e = [] := by
  rw [← List.length_eq_zero_iff, ← List.length_eq_zero_iff, h.length]

theorem isEmpty (h : DRel R d e) : d.isEmpty = e.isEmpty := by
  rw [Bool.eq_iff_iff, List.isEmpty_iff, List.isEmpty_iff, h.nil_iff]

theorem dmap (h : DRel R d e) {f : α → β} {g : α' → β'} (hf : ∀ v w, R v w → S (f v) (g w)) : DRel S (dmap f d) (dmap g e) := by
  refine ⟨by rw [keys_dmap]; exact h.nodup, by rw [keys_dmap]; exact h.nodup', fun k => by rw [keys_dmap, keys_dmap]; exact h.keys k, ?_⟩
  intro k v w h1 h2
  rw [get?_dmap] at h1 h2
  rcases h.get k with ⟨h3, _⟩ | ⟨v', w', h3, h4, h5⟩
  · rw [h3] at h1; cases h1
  · rw [h3] at h1; rw [h4] at h2; cases h1; cases h2; exact hf _ _ h5

theorem filterKey (h : DRel R d e) {P Q : Str → Bool} (hp : ∀ k, k ∈ Dict.keys d → P k = Q k) :
    DRel R (d.filter (fun p => P p.1)) (e.filter (fun p => Q p.1)) := by
  refine ⟨(Dict.keys_filter_sublist d _).nodup h.nodup, (Dict.keys_filter_sublist e _).nodup h.nodup', ?_, ?_⟩
  · intro k
    simp only [Dict.keys, List.mem_map, List.mem_filter]
    constructor
    · rintro ⟨⟨k', v⟩, ⟨h1, h2⟩, rfl⟩
      obtain ⟨w, hw, _⟩ := h.left h1
      exact ⟨(k', w), ⟨hw, by rw [← hp _ (List.mem_map_of_mem (f := (·.1)) h1)]; exact h2⟩, rfl⟩
    · rintro ⟨⟨k', v⟩, ⟨h1, h2⟩, rfl⟩
      obtain ⟨w, hw, _⟩ := h.right h1
      exact ⟨(k', w), ⟨hw, by rw [hp _ (List.mem_map_of_mem (f := (·.1)) hw)]; exact h2⟩, rfl⟩
  · intro k v w h1 h2
    rw [Graph.get?_filter_key] at h1 h2
    split at h1
    · split at h2
      · exact h.val k v w h1 h2
      · cases h2
    · cases h1

theorem del (h : DRel R d e) (k : Str) : DRel R (Dict.del d k) (Dict.del e k) := by
  refine ⟨Dict.nodup_keys_del h.nodup k, Dict.nodup_keys_del h.nodup' k, ?_, ?_⟩
  · intro k'; rw [Dict.keys_del, Dict.keys_del, List.mem_filter, List.mem_filter, h.keys]
  · intro k' v w h1 h2
    rw [Dict.get?_del] at h1 h2
    split at h1
    · cases h1
    · rename_i hne
      rw [if_neg hne] at h2
      exact h.val k' v w h1 h2

theorem set (h : DRel R d e) (k : Str) {v : α} {w : α'} (hr : R v w) : DRel R (Dict.set d k v) (Dict.set e k w) := by
  refine ⟨Dict.nodup_keys_set h.nodup k v, Dict.nodup_keys_set h.nodup' k w, ?_, ?_⟩
  · intro k'
    rw [← Dict.get?_isSome_iff, ← Dict.get?_isSome_iff, Dict.get?_set, Dict.get?_set]
    split
    · simp
    · rw [Dict.get?_isSome_iff, Dict.get?_isSome_iff, h.keys]
  · intro k' a b h1 h2
    rw [Dict.get?_set] at h1 h2
    split at h1
    · rename_i he; rw [if_pos he] at h2; cases h1; cases h2; exact hr
    · rename_i he; rw [if_neg he] at h2; exact h.val _ _ _ h1 h2

end DRel

theorem mapD_get? {α β : Type} {f : α → Except Err β} {d : Dict α} {d' : Dict β} (h : mapD f d = .ok d') (hn : (Dict.keys d).Nodup)
    {k : Str} {v : β} (hv : Dict.get? d' k = some v) : ∃ x, Dict.get? d k = some x ∧ f x = .ok v := by
  obtain ⟨x, hx, he⟩ := mapD_back h (k, v) (Dict.mem_of_get? hv)
  exact ⟨x, Dict.get?_of_mem hn hx, he⟩

theorem mapD_fol {α α' β β' : Type} {R : α → α' → Prop} {S : β → β' → Prop} {f : α → Except Err β} {g : α' → Except Err β'}
    {d : Dict α} {e : Dict α'} (h : DRel R d e) (hf : ∀ v w, R v w → Fol S (f v) (g w)) : Fol (DRel S) (mapD f d) (mapD g e) := by
  intro r hr
  have : ∃ s, mapD g e = .ok s := by
    unfold mapD
    refine mapE_exists ?_
    rintro ⟨k, w⟩ hm
    obtain ⟨v, hv, hvw⟩ := h.right hm
    obtain ⟨y, hy⟩ := mapD_forth hr _ hv
    obtain ⟨z, hz, _⟩ := hf v w hvw y hy
    exact ⟨(k, z), by simp only [hz]⟩
  obtain ⟨s, hs⟩ := this
  refine ⟨s, hs, by rw [mapD_keys hr]; exact h.nodup, by rw [mapD_keys hs]; exact h.nodup', fun k => by rw [mapD_keys hr, mapD_keys hs]; exact h.keys k, ?_⟩
  intro k v w h1 h2
  obtain ⟨x, hx, e1⟩ := mapD_get? hr h.nodup h1
  obtain ⟨y, hy, e2⟩ := mapD_get? hs h.nodup' h2
  obtain ⟨z, hz, hr⟩ := hf x y (h.val k x y hx hy) v e1
  rw [e2] at hz; cases hz; exact hr

theorem mapE_fol {α α' β β' : Type} {R : α → α' → Prop} {S : β → β' → Prop} {f : α → Except Err β} {g : α' → Except Err β'}
    {l : List α} {m : List α'} (h : All₂ R l m) (hf : ∀ v w, R v w → Fol S (f v) (g w)) : Fol (All₂ S) (mapE f l) (mapE g m) := by
  induction h with
  | nil => exact Fol.ok .nil
  | @cons x y l m hr _ ih =>
    intro r h
    rw [mapE_all₂] at h
    cases h with
    | cons h1 h2 =>
      obtain ⟨b, hb, hab⟩ := hf _ _ hr _ h1
      obtain ⟨bs, hbs, hrs⟩ := ih _ ((mapE_all₂ _ _ _).2 h2)
      exact ⟨b :: bs, (mapE_all₂ _ _ _).2 (.cons hb ((mapE_all₂ _ _ _).1 hbs)), .cons hab hrs⟩

theorem all₂_map {α α' β β' : Type} {R : α → α' → Prop} {S : β → β' → Prop} {f : α → β} {g : α' → β'}
    {l : List α} {m : List α'} (h : All₂ R l m) (hf : ∀ v w, R v w → S (f v) (g w)) : All₂ S (l.map f) (m.map g) := by
  induction h with
  | nil => exact .nil
  | cons hr _ ih => exact .cons (hf _ _ hr) ih

theorem all₂_filter {α α' : Type} {R : α → α' → Prop} {p : α → Bool} {q : α' → Bool} {l : List α} {m : List α'} (h : All₂ R l m)
    (hf : ∀ v w, R v w → p v = q w) : All₂ R (l.filter p) (m.filter q) := by
  induction h with
  | nil => exact .nil
  | @cons x y l m hr _ ih =>
    rw [List.filter_cons, List.filter_cons, hf _ _ hr]
    split
    · exact .cons hr ih
    · exact ih

theorem all₂_symm {α α' : Type} {R : α → α' → Prop} {S : α' → α → Prop} {l : List α} {m : List α'} (h : All₂ R l m)
    (hs : ∀ v w, R v w → S w v) : All₂ S m l := by
  induction h with
  | nil => exact .nil
  | cons hr _ ih => exact .cons (hs _ _ hr) ih

theorem all₂_isEmpty {α α' : Type} {R : α → α' → Prop} {l : List α} {m : List α'} (h : All₂ R l m) : l.isEmpty = m.isEmpty := by
  cases h <;> rfl

theorem all₂_of_get {α α' : Type} {R : α → α' → Prop} : ∀ {l : List α} {m : List α'}, l.length = m.length →
    (∀ (i : Nat) v w, l[i]? = some v → m[i]? = some w → R v w) → All₂ R l m
  | [], [], _, _ => .nil
  | [], _ :: _, h, _ => by simp at h
  | _ :: _, [], h, _ => by simp at h
  | x :: l, y :: m, h, hr => .cons (hr 0 x y rfl rfl) (all₂_of_get (by simpa using h) (fun i v w h1 h2 => hr (i + 1) v w (by simpa using h1) (by simpa using h2)))

theorem all₂_get {α α' : Type} {R : α → α' → Prop} {l : List α} {m : List α'} (h : All₂ R l m) :
    ∀ (i : Nat) v w, l[i]? = some v → m[i]? = some w → R v w := by
  induction h with
  | nil => intro i v w h; simp at h
  | @cons x y l m hr _ ih =>
    intro i v w h1 h2
    cases i with
    | zero => simp at h1 h2; subst h1 h2; exact hr
    | succ i => exact ih i v w (by simpa using h1) (by simpa using h2)

/-! ### JSON values -/

theorem reord_list {l m : List (JVal F)} : Reord (.list l) (.list m) ↔ All₂ Reord l m := by
  constructor
  · intro h; cases h with | list h1 h2 => exact all₂_of_get h1 h2
  · intro h; exact .list h.length (all₂_get h)

theorem reord_dict {d e : List (Str × JVal F)} : Reord (.dict d) (.dict e) ↔ DRel Reord d e := by
  constructor
  · intro h; cases h with | dict h1 h2 h3 h4 => exact ⟨h1, h2, h3, h4⟩
  · rintro ⟨h1, h2, h3, h4⟩; exact .dict h1 h2 h3 h4

theorem reord_symm {v w : JVal F} (h : Reord v w) : Reord w v := by
  induction h with
  | null => exact .null
  | bool b => exact .bool b
  | int i => exact .int i
  | flt x => exact .flt x
  | str s => exact .str s
  | list h1 _ ih => exact .list h1.symm (fun i v w h h' => ih i w v h' h)
  | dict h1 h2 h3 _ ih => exact .dict h2 h1 (fun k => (h3 k).symm) (fun k v w h h' => ih k w v h' h)

theorem reord_isNull {v w : JVal F} (h : Reord v w) : v.isNull = w.isNull := by cases h <;> rfl

theorem reord_null {w : JVal F} (h : Reord .null w) : w = .null := by cases h; rfl
theorem reord_null' {v : JVal F} (h : Reord v .null) : v = .null := by cases h; rfl

section Rt
variable [PyRt F]

theorem reord_truthy {v w : JVal F} (h : Reord v w) : truthy v = truthy w := by
  cases h with
  | null => rfl
  | bool b => rfl
  | int i => rfl
  | flt x => rfl
  | str s => rfl
  | list h1 h2 => simp only [truthy]; rw [all₂_isEmpty (all₂_of_get h1 h2)]
  | dict h1 h2 h3 h4 => simp only [truthy]; rw [DRel.isEmpty ⟨h1, h2, h3, h4⟩]

theorem pyEqDict_iff {d : List (Str × JVal F)} (b : List (Str × JVal F)) :
    pyEqDict d b = true ↔ ∀ p ∈ d, ∃ x, Dict.get? b p.1 = some x ∧ pyEq p.2 x = true := by
  induction d with
  | nil => simp [pyEqDict]
  | cons p d ih =>
    obtain ⟨k, a⟩ := p
    simp only [pyEqDict, Bool.and_eq_true, ih, List.mem_cons, forall_eq_or_imp]
    generalize Dict.get? b k = o
    cases o <;> simp

theorem reord_pyEq {v w : JVal F} (h : Reord v w) : ∀ x, pyEq v x = pyEq w x := by
  induction h with
  | null => intro x; rfl
  | bool b => intro x; rfl
  | int i => intro x; rfl
  | flt y => intro x; rfl
  | str s => intro x; rfl
  | @list l m h1 _ ih =>
    intro x
    have hl : ∀ (l m : List (JVal F)), All₂ (fun v w => ∀ x, pyEq v x = pyEq w x) l m → ∀ b, pyEqList l b = pyEqList m b := by
      intro l m h
      induction h with
      | nil => intro b; rfl
      | cons hr _ ih => intro b; cases b with
        | nil => rfl
        | cons y b => simp only [pyEqList, hr y, ih b]
    cases x <;> simp only [pyEq]
    exact hl l m (all₂_of_get h1 ih) _
  | @dict d e h1 h2 h3 _ ih =>
    intro x
    have hd : DRel (fun v w : JVal F => ∀ x, pyEq v x = pyEq w x) d e := ⟨h1, h2, h3, ih⟩
    cases x <;> simp only [pyEq]
    rename_i b
    rw [hd.length]
    congr 1
    rw [Bool.eq_iff_iff, pyEqDict_iff, pyEqDict_iff]
    constructor
    · rintro h ⟨k, w⟩ hm
      obtain ⟨v, hv, hr⟩ := hd.right hm
      obtain ⟨x, e1, e2⟩ := h _ hv
      exact ⟨x, e1, by rw [← hr]; exact e2⟩
    · rintro h ⟨k, w⟩ hm
      obtain ⟨v, hv, hr⟩ := hd.left hm
      obtain ⟨x, e1, e2⟩ := h _ hv
      exact ⟨x, e1, by rw [hr]; exact e2⟩

end Rt

/-! ### Python helpers -/

abbrev JD (d e : Dict (JVal F)) : Prop := DRel Reord d e

theorem iterMap_fol {β β' : Type} {S : β → β' → Prop} {f : JVal F → Except Err β} {g : JVal F → Except Err β'} {v w : JVal F}
    (h : Reord v w) (hf : ∀ x y, Reord x y → Fol S (f x) (g y)) (hs : ∀ s : Str, s ≠ [] → ∀ r, f (.str s) ≠ .ok r) :
    Fol (All₂ S) (iter v >>= mapE f) (iter w >>= mapE g) := by
  have same : ∀ l : List Str, Fol (All₂ S) (mapE f (l.map (.str : Str → JVal F))) (mapE g (l.map (.str : Str → JVal F))) := by
    intro l
    refine mapE_fol (R := Reord) ?_ hf
    induction l with
    | nil => exact .nil
    | cons a l ih => exact .cons (.str a) ih
  cases h with
  | null => exact Fol.error
  | bool b => exact Fol.error
  | int i => exact Fol.error
  | flt y => exact Fol.error
  | str s =>
    have := same (s.map (fun c => [c]))
    rw [List.map_map] at this
    exact this
  | list h1 h2 => exact mapE_fol (all₂_of_get h1 h2) hf
  | @dict d e h1 h2 h3 h4 =>
    have hd : DRel Reord d e := ⟨h1, h2, h3, h4⟩
    have e1 : d.map (fun p => (.str p.1 : JVal F)) = (Dict.keys d).map .str := by simp [Dict.keys]
    have e2 : e.map (fun p => (.str p.1 : JVal F)) = (Dict.keys e).map .str := by simp [Dict.keys]
    show Fol (All₂ S) (mapE f (d.map _)) (mapE g (e.map _))
    rw [e1, e2]
    intro r hr
    have hall : ∀ k ∈ Dict.keys d, k = [] := by
      intro k hk
      obtain ⟨y, _, hy⟩ := mapE_forth hr (.str k) (List.mem_map_of_mem hk)
      exact Classical.byContradiction fun hne => hs k hne y hy
    have hrep : Dict.keys d = Dict.keys e := by
      have hp := hd.perm
      have a1 : Dict.keys d = List.replicate (Dict.keys d).length [] := List.eq_replicate_of_mem hall
      have a2 : Dict.keys e = List.replicate (Dict.keys e).length [] := List.eq_replicate_of_mem (fun k hk => hall k (hp.mem_iff.2 hk))
      rw [a1, a2, hp.length_eq]
    rw [← hrep]
    exact same _ r hr

theorem dictItems_fol {v w : JVal F} (h : Reord v w) : Fol JD (dictItems v) (dictItems w) := by
  cases h with
  | null => exact Fol.error
  | bool b => exact Fol.error
  | int i => exact Fol.error
  | flt y => exact Fol.error
  | str s => cases s <;> first | exact Fol.error | exact Fol.ok DRel.nil
  | @list l m h1 h2 =>
    cases l with
    | nil =>
      have : m = [] := List.length_eq_zero_iff.1 h1.symm
      subst this
      exact Fol.ok DRel.nil
    | cons _ _ => exact Fol.error
  | dict h1 h2 h3 h4 => exact Fol.ok ⟨h1, h2, h3, h4⟩

theorem itemsOf_fol {v w : JVal F} (h : Reord v w) : Fol JD (itemsOf v) (itemsOf w) := by
  cases h with
  | dict h1 h2 h3 h4 => exact Fol.ok ⟨h1, h2, h3, h4⟩
  | _ => exact Fol.error

theorem level_fol {v w : JVal F} (h : Reord v w) : Fol JD (Skin.level v) (Skin.level w) := by
  cases h with
  | dict h1 h2 h3 h4 => exact Fol.ok ⟨h1, h2, h3, h4⟩
  | _ => exact Fol.error

theorem getItem_fol {d e : Dict (JVal F)} (h : JD d e) (k : Str) : Fol Reord (getItem d k) (getItem e k) := by
  unfold getItem
  rcases h.get k with ⟨h1, h2⟩ | ⟨v, w, h1, h2, h3⟩
  · rw [h1, h2]; exact Fol.error
  · rw [h1, h2]; exact Fol.ok h3

theorem getD_reord {d e : Dict (JVal F)} (h : JD d e) (k : Str) {x : JVal F} (hx : Reord x x) :
    Reord ((Dict.get? d k).getD x) ((Dict.get? e k).getD x) := by
  rcases h.get k with ⟨h1, h2⟩ | ⟨v, w, h1, h2, h3⟩
  · rw [h1, h2]; exact hx
  · rw [h1, h2]; exact h3

theorem getIterMap_fol {β β' : Type} {S : β → β' → Prop} {f : JVal F → Except Err β} {g : JVal F → Except Err β'} {d e : Dict (JVal F)}
    (h : JD d e) (k : Str) (hf : ∀ x y, Reord x y → Fol S (f x) (g y)) (hs : ∀ s : Str, s ≠ [] → ∀ r, f (.str s) ≠ .ok r) :
    Fol (All₂ S) (getIter d k >>= mapE f) (getIter e k >>= mapE g) := by
  unfold getIter
  rcases h.get k with ⟨h1, h2⟩ | ⟨v, w, h1, h2, h3⟩
  · rw [h1, h2]; exact Fol.ok .nil
  · rw [h1, h2]; exact iterMap_fol h3 hf hs

theorem optStr_fol {v w : JVal F} (h : Reord v w) : Fol Eq (optStr v) (optStr w) := by
  cases h with
  | null => exact Fol.ok rfl
  | str s => exact Fol.ok rfl
  | _ => exact Fol.error

section Rt
variable [PyRt F]

theorem orDict_fol {v w : JVal F} (h : Reord v w) : Fol JD (orDict v) (orDict w) := by
  unfold orDict
  rw [← reord_truthy h]
  split
  · cases h with
    | dict h1 h2 h3 h4 => exact Fol.ok ⟨h1, h2, h3, h4⟩
    | _ => exact Fol.error
  · exact Fol.ok DRel.nil

theorem orDict_str {s : Str} (hs : s ≠ []) : orDict (.str s : JVal F) = .error .attribute := by
  unfold orDict
  have : truthy (.str s : JVal F) = true := by simp [truthy, hs]
  rw [this]; rfl

theorem check_fol {d e : Dict (JVal F)} (h : JD d e) (known req : List Str) :
    Fol (fun _ _ => True) (Cls.check known req d) (Cls.check known req e) := by
  intro r hr
  refine ⟨(), ?_, trivial⟩
  simp only [Cls.check] at hr ⊢
  split at hr
  · cases hr
  · rename_i h1
    split at hr
    · cases hr
    · rename_i h2
      simp only [ne_eq, Classical.not_not, List.filter_eq_nil_iff, decide_eq_true_eq] at h1 h2
      rw [if_neg, if_neg]
      · simp only [ne_eq, Classical.not_not, List.filter_eq_nil_iff, decide_eq_true_eq]
        intro k hk; rw [← h.keys]; exact h2 k hk
      · simp only [ne_eq, Classical.not_not, List.filter_eq_nil_iff, decide_eq_true_eq]
        intro k hk; exact h1 k ((h.keys k).2 hk)

theorem getDict_fol {β β' : Type} {S : β → β' → Prop} {f : JVal F → Except Err β} {g : JVal F → Except Err β'} {d e : Dict (JVal F)}
    (h : JD d e) (k : Str) (hf : ∀ x y, Reord x y → Fol S (f x) (g y)) : Fol (DRel S) (Anim.getDict d k f) (Anim.getDict e k g) := by
  unfold Anim.getDict
  rcases h.get k with ⟨h1, h2⟩ | ⟨v, w, h1, h2, h3⟩
  · rw [h1, h2]; exact Fol.ok DRel.nil
  · rw [h1, h2]; exact (dictItems_fol h3).bind fun a b hab => mapD_fol hab hf

/-! ### Leaf objects -/

/-- attributes: the same names in the same order, values up to key order -/
structure ARel (a b : Attrs F) : Prop where
  nodup : (Dict.keys a).Nodup
  all : All₂ (fun p q => p.1 = q.1 ∧ Reord p.2 q.2) a b

namespace ARel
variable {a b : Attrs F}

theorem keys (h : ARel a b) : Dict.keys a = Dict.keys b := h.all.map_eq (fun _ _ h => h.1)

theorem get (h : ARel a b) (k : Str) :
    (Dict.get? a k = none ∧ Dict.get? b k = none) ∨ ∃ v w, Dict.get? a k = some v ∧ Dict.get? b k = some w ∧ Reord v w := by
  have := h.all
  clear h
  induction this with
  | nil => exact .inl ⟨rfl, rfl⟩
  | @cons p q a b hr _ ih =>
    obtain ⟨k1, v⟩ := p; obtain ⟨k2, w⟩ := q
    obtain ⟨e, hr⟩ := hr
    simp only at e hr
    subst e
    simp only [Dict.get?]
    split
    · exact .inr ⟨v, w, rfl, rfl, hr⟩
    · exact ih

theorem toD (h : ARel a b) : JD a b :=
  ⟨h.nodup, by rw [← h.keys]; exact h.nodup, fun k => by rw [h.keys], fun k v w h1 h2 => by
    rcases h.get k with ⟨h3, _⟩ | ⟨v', w', h3, h4, h5⟩
    · rw [h1] at h3; cases h3
    · rw [h1] at h3; rw [h2] at h4; cases h3; cases h4; exact h5⟩

theorem val (h : ARel a b) (k : Str) : Reord (a.val k) (b.val k) := getD_reord h.toD k .null

theorem filter (h : ARel a b) {p q : Str × JVal F → Bool} (hp : ∀ x y, x.1 = y.1 → Reord x.2 y.2 → p x = q y) : ARel (a.filter p) (b.filter q) :=
  ⟨(Dict.keys_filter_sublist a p).nodup h.nodup, all₂_filter h.all (fun v w h => hp v w h.1 h.2)⟩

theorem without (h : ARel a b) (ks : List Str) : ARel (a.without ks) (b.without ks) :=
  h.filter (fun x y e _ => by rw [e])

theorem symm (h : ARel a b) : ARel b a :=
  ⟨by rw [← h.keys]; exact h.nodup, all₂_symm h.all (fun _ _ h => ⟨h.1.symm, reord_symm h.2⟩)⟩

theorem set (h : ARel a b) (k : Str) {v w : JVal F} (hr : Reord v w) : ARel (Dict.set a k v) (Dict.set b k w) := by
  refine ⟨Dict.nodup_keys_set h.nodup k v, ?_⟩
  have := h.all
  clear h
  induction this with
  | nil => exact .cons ⟨rfl, hr⟩ .nil
  | @cons p q a b hpq h ih =>
    obtain ⟨k1, v'⟩ := p; obtain ⟨k2, w'⟩ := q
    obtain ⟨e, hpq⟩ := hpq
    simp only at e hpq
    subst e
    simp only [Dict.set]
    split
    · exact .cons ⟨rfl, hr⟩ h
    · exact .cons ⟨rfl, hpq⟩ ih

end ARel

/-- the defaults of a class are plain values -/
def Plain (c : Cls F) : Prop := ∀ b k dv, Dict.get? (c.defaultsFor b) k = some dv → Reord dv dv

theorem leaf_plain : ∀ c ∈ (leafClasses : List (Cls F)), Plain c := by
  intro c hc b k dv hg
  have e0 : Reord (.list [] : JVal F) (.list []) := reord_list.2 .nil
  refine Cls.get?_imp_all (P := fun v => Reord v v) ?_ hg
  simp only [leafClasses, List.mem_cons, List.not_mem_nil, or_false] at hc
  rcases hc with rfl|rfl|rfl|rfl|rfl|rfl|rfl|rfl|rfl|rfl|rfl|rfl|rfl|rfl|rfl|rfl|rfl|rfl|rfl|rfl|rfl|rfl <;>
  cases b <;> simp [Cls.defaultsFor, boneCls, boneTranslateCls, boneRotateCls, slotCls, slotKeyframeCls, eventsCls,
        eventTimelineCls, deformCls, ikCls, ikTimelineCls, transformCls, transformTimelineCls, pathCls, pathTimelineCls,
        offsetCls, regionCls, meshCls, skinPathCls, linkedMeshCls, boundingBoxCls, pointCls, clippingCls, jone, Reord.int, Reord.flt,
        Reord.str, Reord.bool, Reord.null, e0]

theorem values_fol (c : Cls F) {v w : JVal F} (h : Reord v w) : Fol JD (c.values v) (c.values w) := by
  unfold Cls.values
  rw [← reord_truthy h]
  split
  · split
    · cases h with
      | dict h1 h2 h3 h4 => exact Fol.ok ⟨h1, h2, h3, h4⟩
      | _ => exact Fol.error
    · exact Fol.ok DRel.nil
  · cases h with
    | dict h1 h2 h3 h4 => exact Fol.ok ⟨h1, h2, h3, h4⟩
    | null => exact Fol.ok DRel.nil
    | _ => exact Fol.error

theorem init_fol {c : Cls F} (hc : c ∈ (leafClasses : List (Cls F))) {v w : JVal F} (h : Reord v w) : Fol ARel (c.init v) (c.init w) := by
  unfold Cls.init
  refine (values_fol c h).bind fun d e hd => (check_fol hd _ _).bind fun _ _ _ => Fol.pure ⟨?_, ?_⟩
  · have := (Cls.leafClasses_ok c hc).nodup
    simpa [Dict.keys, Function.comp_def] using this
  · induction c.attrs with
    | nil => exact .nil
    | cons k l ih => exact .cons ⟨rfl, getD_reord hd k .null⟩ ih

theorem init_str (c : Cls F) {s : Str} (hs : s ≠ []) (r : Attrs F) : c.init (.str s) ≠ .ok r := by
  unfold Cls.init Cls.values
  have : truthy (.str s : JVal F) = true := by simp [truthy, hs]
  rw [this]
  cases c.orStyle <;> exact fun h => by cases h

theorem setDefaults_rel {c : Cls F} (hc : Plain c) (b : Bool) {x y : Attrs F} (h : ARel x y) : ARel (c.setDefaults b x) (c.setDefaults b y) := by
  constructor
  · have : Dict.keys (c.setDefaults b x) = Dict.keys x := by
      unfold Cls.setDefaults Dict.keys
      rw [List.map_map]
      refine List.map_congr_left ?_
      intro p _
      simp only [Function.comp]
      split <;> rfl
    rw [this]; exact h.nodup
  · refine all₂_map h.all ?_
    rintro ⟨k, v⟩ ⟨k', w⟩ ⟨e, hr⟩
    simp only at e hr ⊢
    subst e
    cases hr with
    | null =>
      refine ⟨rfl, ?_⟩
      simp only
      cases hg : Dict.get? (c.defaultsFor b) k with
      | none => exact .null
      | some dv => exact hc b k dv hg
    | bool x => exact ⟨rfl, .bool x⟩
    | int x => exact ⟨rfl, .int x⟩
    | flt x => exact ⟨rfl, .flt x⟩
    | str x => exact ⟨rfl, .str x⟩
    | list h1 h2 => exact ⟨rfl, .list h1 h2⟩
    | dict h1 h2 h3 h4 => exact ⟨rfl, .dict h1 h2 h3 h4⟩

theorem emits_eq (c : Cls F) (b : Bool) (k : Str) {v w : JVal F} (h : Reord v w) : c.emits b k v = c.emits b k w := by
  unfold Cls.emits
  rw [reord_isNull h]
  split
  · rw [reord_pyEq h]
  · rfl

theorem toJson_rel (c : Cls F) (b : Bool) {x y : Attrs F} (h : ARel x y) : Reord (c.toJson b x) (c.toJson b y) :=
  reord_dict.2 (h.filter (fun p q e hr => by rw [e, emits_eq c b _ hr])).toD

end Rt
end KeyOrder
end Spine
