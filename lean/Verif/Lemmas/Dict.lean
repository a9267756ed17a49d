import Verif.Model.Py
/- Basic facts about the dictionary model. -/
namespace Spine
namespace Dict
variable {α β : Type}

theorem has_iff_mem_keys (d : Dict α) (k : Str) : has d k = true ↔ k ∈ keys d := by
  induction d with
  | nil => simp [has, get?, keys]
  | cons p r ih =>
    obtain ⟨k', v⟩ := p
    simp only [has, get?, keys, List.map_cons, List.mem_cons] at *
    by_cases h : k' = k
    · simp [h]
    · have h' : k ≠ k' := fun e => h e.symm
      simp only [h, if_false, h', false_or]
      exact ih

theorem get?_eq_none_iff (d : Dict α) (k : Str) : get? d k = none ↔ k ∉ keys d := by
  rw [← has_iff_mem_keys, has]
  cases get? d k <;> simp

theorem get?_isSome_iff (d : Dict α) (k : Str) : (∃ v, get? d k = some v) ↔ k ∈ keys d := by
  rw [← has_iff_mem_keys, has]
  cases get? d k <;> simp

theorem mem_keys_of_get? {d : Dict α} {k : Str} {v : α} (h : get? d k = some v) : k ∈ keys d :=
  (get?_isSome_iff d k).1 ⟨v, h⟩

theorem mem_of_get? {d : Dict α} {k : Str} {v : α} (h : get? d k = some v) : (k, v) ∈ d := by
  induction d with
  | nil => simp [get?] at h
  | cons p r ih =>
    obtain ⟨k', v'⟩ := p
    simp only [get?] at h
    by_cases e : k' = k
    · simp [e] at h; simp [e, h]
    · simp [e] at h; exact List.mem_cons_of_mem _ (ih h)

theorem get?_of_mem {d : Dict α} (hn : (keys d).Nodup) {k : Str} {v : α} (h : (k, v) ∈ d) : get? d k = some v := by
  induction d with
  | nil => simp at h
  | cons p r ih =>
    obtain ⟨k', v'⟩ := p
    simp only [keys, List.map_cons, List.nodup_cons] at hn
    simp only [get?]
    rcases List.mem_cons.1 h with h | h
    · cases h; simp
    · have : k' ≠ k := by
        rintro rfl
        exact hn.1 (List.mem_map.2 ⟨(k', v), h, rfl⟩)
      simp [this]
      exact ih hn.2 h

theorem get?_set (d : Dict α) (k k' : Str) (v : α) :
    get? (set d k v) k' = if k' = k then some v else get? d k' := by
  induction d with
  | nil => simp only [set, get?]; by_cases h : k = k' <;> simp [h, eq_comm]
  | cons p r ih =>
    obtain ⟨k0, v0⟩ := p
    simp only [set]
    by_cases h : k0 = k
    · subst h; simp only [if_true, get?]
      grind
    · simp only [h, if_false, get?, ih]
      by_cases h' : k0 = k'
      · subst h'; simp [h]
      · simp [h']

theorem keys_set (d : Dict α) (k : Str) (v : α) :
    keys (set d k v) = if k ∈ keys d then keys d else keys d ++ [k] := by
  induction d with
  | nil => simp [set, keys]
  | cons p r ih =>
    obtain ⟨k0, v0⟩ := p
    simp only [set]
    by_cases h : k0 = k
    · simp [h, keys]
    · simp only [keys] at ih ⊢
      have h' : ¬ k = k0 := fun e => h e.symm
      simp only [h, if_false, List.map_cons, ih, List.mem_cons, h', false_or]
      split <;> simp [*]

theorem set_of_not_mem (d : Dict α) (k : Str) (v : α) (h : k ∉ keys d) : set d k v = d ++ [(k, v)] := by
  induction d with
  | nil => simp [set]
  | cons p r ih =>
    obtain ⟨k0, v0⟩ := p
    simp only [keys, List.map_cons, List.mem_cons, not_or] at h
    have h' : ¬ k0 = k := fun e => h.1 e.symm
    simp only [set, h', if_false, List.cons_append]
    rw [ih h.2]

theorem keys_modify (d : Dict α) (k : Str) (f : α → α) : keys (modify d k f) = keys d := by
  simp only [keys, modify, List.map_map]
  apply List.map_congr_left
  intro p _
  simp only [Function.comp]
  split <;> rfl

theorem get?_modify (d : Dict α) (k k' : Str) (f : α → α) :
    get? (modify d k f) k' = if k' = k then (get? d k').map f else get? d k' := by
  induction d with
  | nil => simp [modify, get?]
  | cons p r ih =>
    obtain ⟨k0, v0⟩ := p
    simp only [modify] at ih
    simp only [modify, List.map_cons]
    by_cases h : k0 = k
    · subst h
      simp only [if_true, get?, ih]
      grind
    · simp only [h, if_false, get?, ih]
      by_cases h' : k0 = k'
      · subst h'; simp [h]
      · simp [h']

theorem length_modify (d : Dict α) (k : Str) (f : α → α) : (modify d k f).length = d.length := by
  simp [modify]

theorem keys_del (d : Dict α) (k : Str) : keys (del d k) = (keys d).filter (· ≠ k) := by
  simp only [keys, del, List.filter_map]
  rfl

theorem get?_del (d : Dict α) (k k' : Str) :
    get? (del d k) k' = if k' = k then none else get? d k' := by
  induction d with
  | nil => simp [del, get?]
  | cons p r ih =>
    obtain ⟨k0, v0⟩ := p
    simp only [del] at ih
    simp only [del, List.filter_cons]
    by_cases h : k0 = k
    · subst h
      simp only [ne_eq, not_true_eq_false, decide_false, Bool.false_eq_true, if_false] at ih ⊢
      rw [ih]
      simp only [get?]
      by_cases h' : k0 = k'
      · simp [h']
      · simp [h']
    · simp only [ne_eq, h, not_false_eq_true, decide_true, if_true, get?] at ih ⊢
      rw [ih]
      by_cases h' : k0 = k'
      · subst h'; simp [h]
      · simp [h']

theorem nodup_keys_set {d : Dict α} (h : (keys d).Nodup) (k : Str) (v : α) : (keys (set d k v)).Nodup := by
  rw [keys_set]
  split
  · exact h
  · rename_i hk
    rw [List.nodup_append]
    refine ⟨h, by simp, ?_⟩
    intro a ha b hb
    simp at hb; subst hb
    rintro rfl; exact hk ha

theorem nodup_keys_del {d : Dict α} (h : (keys d).Nodup) (k : Str) : (keys (del d k)).Nodup := by
  rw [keys_del]; exact h.sublist List.filter_sublist

theorem nodup_keys_modify {d : Dict α} (h : (keys d).Nodup) (k : Str) (f : α → α) : (keys (modify d k f)).Nodup := by
  rw [keys_modify]; exact h

theorem keys_length (d : Dict α) : (keys d).length = d.length := by simp [keys]

theorem keys_filter_sublist (d : Dict α) (p : Str × α → Bool) : (keys (d.filter p)).Sublist (keys d) :=
  List.Sublist.map _ List.filter_sublist

end Dict
end Spine

namespace Spine.Dict
variable {α : Type}

/-- two dictionaries with the same keys in the same order and the same lookups are equal -/
theorem ext_of_keys {d e : Dict α} (hn : (keys d).Nodup) (hk : keys d = keys e) (hl : ∀ k, get? d k = get? e k) : d = e := by
  induction d generalizing e with
  | nil =>
    cases e with
    | nil => rfl
    | cons p r => simp [keys] at hk
  | cons p r ih =>
    cases e with
    | nil => simp [keys] at hk
    | cons q s =>
      obtain ⟨k, v⟩ := p
      obtain ⟨k', v'⟩ := q
      simp only [keys, List.map_cons, List.cons.injEq] at hk
      obtain ⟨rfl, hk⟩ := hk
      have h0 := hl k
      simp [get?] at h0
      subst h0
      simp only [keys, List.map_cons, List.nodup_cons] at hn
      have : r = s := by
        apply ih hn.2 hk
        intro x
        by_cases hx : k = x
        · subst hx
          have h1 : get? r k = none := (get?_eq_none_iff _ _).2 hn.1
          have h2 : get? s k = none := (get?_eq_none_iff _ _).2 (by show k ∉ List.map _ s; rw [← hk]; exact hn.1)
          rw [h1, h2]
        · have := hl x
          simpa [get?, hx] using this
      rw [this]

end Spine.Dict
