import Verif.Props.DrawOrder
/- Rewriting a keyframe when no slot is removed. -/
namespace Spine
namespace DrawOrder
variable {α : Type} {name : α → Str}

theorem indexOf?_nodup {x : Str} {l : List Str} {i : Nat} (hn : l.Nodup) (h : l[i]? = some x) : indexOf? x l = some i := by
  induction l generalizing i with
  | nil => simp at h
  | cons y l ih =>
    rw [List.nodup_cons] at hn
    rw [indexOf?]
    cases i with
    | zero => simp at h; simp [h]
    | succ i =>
      rw [List.getElem?_cons_succ] at h
      have hne : y ≠ x := fun e => hn.1 (e ▸ List.mem_of_getElem? h)
      rw [if_neg hne, ih hn.2 h]; rfl

theorem set_append {β : Type} (d : Dict β) (k : Str) (v : β) (h : k ∉ Dict.keys d) : Dict.set d k v = d ++ [(k, v)] := by
  induction d with
  | nil => rfl
  | cons p d ih =>
    obtain ⟨a, w⟩ := p
    simp only [Dict.keys, List.map_cons, List.mem_cons, not_or] at h
    rw [Dict.set, if_neg (fun e => h.1 e.symm), ih h.2]; rfl

theorem offsetDict_nodup (N : Dict Int) (h : (Dict.keys N).Nodup) : offsetDict N = N := by
  unfold offsetDict
  suffices hh : ∀ (l d : Dict Int), (Dict.keys (d ++ l)).Nodup → l.foldl (fun d p => Dict.set d p.1 p.2) d = d ++ l from by
    simpa using hh N [] (by simpa using h)
  intro l
  induction l with
  | nil => intro d _; simp
  | cons p l ih =>
    intro d hd
    have hp : p.1 ∉ Dict.keys d := by
      simp only [Dict.keys, List.map_append, List.map_cons] at hd
      intro hc
      rw [List.nodup_append] at hd
      exact hd.2.2 _ hc _ (by simp) rfl
    rw [List.foldl_cons, set_append d p.1 p.2 hp, ih]
    · simp
    · simpa using hd

theorem adjustLoop_same (O N : List Str) (d : Dict Int)
    (h : ∀ n o, (n, o) ∈ d → ∃ i j : Nat, indexOf? n O = some i ∧ indexOf? n N = some j ∧ (j : Int) - i = o) :
    adjustLoop [] O N d = .ok d := by
  induction d with
  | nil => rfl
  | cons p d ih =>
    obtain ⟨n, o⟩ := p
    obtain ⟨i, j, h1, h2, rfl⟩ := h n o (by simp)
    rw [adjustLoop, if_neg (by simp), h1]
    simp only [h2]
    rw [ih (fun n o hm => h n o (by simp [hm]))]
    rfl

/-- C45: when no slot is removed, a keyframe that Spine can apply and that has no zero offset is kept as it is. -/
theorem c45_nothing_removed (orig : List α) (N : Dict Int) (hn : (orig.map name).Nodup) (hv : Valid name N orig)
    (hd : (Dict.keys N).Nodup) (h0 : ∀ k o, (k, o) ∈ N → o ≠ 0) : removeOffsets name [] orig N = .ok N := by
  unfold removeOffsets adjust
  simp only [offsetDict_nodup N hd]
  have hr := reorder_realises (name := name) (offs := N) orig hv
  have hfo : (orig.map name).filter (fun x => decide (x ∉ ([] : List Str))) = orig.map name := by simp
  have hfn : ((reorder name N orig).map name).filter (fun x => decide (x ∉ ([] : List Str))) = (reorder name N orig).map name := by simp
  rw [hfo, hfn]
  rw [adjustLoop_same]
  · show Except.ok _ = _
    rw [List.filter_eq_self.2]
    rintro ⟨k, o⟩ hm
    simp [h0 k o hm]
  · intro n o hm
    obtain ⟨s, hs, rfl⟩ := List.mem_map.1 (hv.known n (List.mem_map.2 ⟨_, hm, rfl⟩))
    obtain ⟨i, hi⟩ := List.getElem?_of_mem hs
    obtain ⟨j, hj, hj'⟩ := hr.placed i s o hi (Dict.get?_of_mem hd hm)
    refine ⟨i, j, ?_, ?_, by omega⟩
    · exact indexOf?_nodup hn (by rw [List.getElem?_map, hi]; rfl)
    · exact indexOf?_nodup ((hr.perm.map name).nodup_iff.2 hn) (by rw [List.getElem?_map, hj']; rfl)

/-- C45: rewriting twice is the same as rewriting once. -/
theorem c45_rewrite_twice (R : List Str) (orig : List α) (offs N : List (Str × Int)) (hn : (orig.map name).Nodup)
    (h : removeOffsets name R orig offs = .ok N) : removeOffsets name [] (keep name R orig) N = .ok N := by
  have hk : ∀ k ∈ Dict.keys (offsetDict offs), k ∉ R → k ∈ orig.map name := by
    intro k hk hR
    apply Classical.byContradiction
    intro hno
    have := (c45_fails_only_on_unknown_slot (name := name) R orig offs hn).1.1 ⟨k, hk, hR, hno⟩
    rw [h] at this; cases this
  obtain ⟨N', h1, hv, hd, h0⟩ := c45_rewritten_offsets_valid R orig offs hn hk
  rw [h] at h1; injection h1 with h1; subst h1
  exact c45_nothing_removed _ _ (hn.sublist (List.filter_sublist.map name)) hv hd (fun k o hm => (h0 k o hm).2)

example : removeOffsets id [s!!"b"] [s!!"a", s!!"b", s!!"c", s!!"d"] [(s!!"a", 2), (s!!"b", -1)] = .ok [(s!!"a", 1)] ∧
    removeOffsets id [] [s!!"a", s!!"c", s!!"d"] [(s!!"a", 1)] = .ok [(s!!"a", 1)] := by decide +kernel

end DrawOrder
end Spine
