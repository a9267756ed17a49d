import Verif.Lemmas.DrawOrder
/- Properties C44, C45, C46: draw-order keyframes when slots are removed (draworder.py 37-106). -/
namespace Spine.DrawOrder
variable {α : Type} {name : α → Str}

/-! ## C46 -/

/-- C46: for every slot list and every keyframe Spine can apply, `_reorder_slots_with_offset` returns the drawing
sequence of Spine. -/
theorem c46_reorder_is_spine (offs : Dict Int) (orig : List α) (hv : Valid name offs orig) :
    Realises name offs orig (reorder name offs orig) := reorder_realises orig hv

/-- C46: the drawing sequence is unique, so the specification determines the result. -/
theorem c46_sequence_unique (offs : Dict Int) (orig L M : List α) (hn : (orig.map name).Nodup)
    (hL : Realises name offs orig L) (hM : Realises name offs orig M) : L = M := realises_unique hn hL hM

/-- C46: no slot is lost or duplicated, whatever the offsets are. -/
theorem c46_reorder_perm (offs : Dict Int) (orig : List α) : (reorder name offs orig).Perm orig := reorder_perm orig

example : reorder id [(s!!"a", 2)] [s!!"a", s!!"b", s!!"c"] = [s!!"b", s!!"c", s!!"a"] := by decide +kernel
example : reorder id [(s!!"c", -2), (s!!"a", 1)] [s!!"a", s!!"b", s!!"c", s!!"d"] = [s!!"c", s!!"a", s!!"b", s!!"d"] := by
  decide +kernel

/-- decidable form of `Valid` for concrete lists -/
theorem valid_of_decide (offs : Dict Int) (orig : List Str) (h1 : ∀ k ∈ Dict.keys offs, k ∈ orig)
    (h2 : ∀ i < orig.length, ∀ o, Dict.get? offs (orig.getD i []) = some o → 0 ≤ (i : Int) + o ∧ (i : Int) + o < orig.length)
    (h3 : ∀ i < orig.length, ∀ j < orig.length, ∀ o, Dict.get? offs (orig.getD i []) = some o →
      ∀ p, Dict.get? offs (orig.getD j []) = some p → (i : Int) + o = j + p → i = j) :
    Valid id offs orig := by
  have key : ∀ (i : Nat) (s : Str), orig[i]? = some s → i < orig.length ∧ orig.getD i [] = s := by
    intro i s h
    obtain ⟨hi, e⟩ := List.getElem?_eq_some_iff.1 h
    exact ⟨hi, by simp [List.getD, h]⟩
  refine ⟨by simpa using h1, ?_, ?_⟩
  · intro i s o hi ho
    obtain ⟨hl, e⟩ := key i s hi
    exact h2 i hl o (by rw [e]; exact ho)
  · intro i j s t o p hi hj ho hp
    obtain ⟨hl, e⟩ := key i s hi
    obtain ⟨hl', e'⟩ := key j t hj
    exact h3 i hl j hl' o (by rw [e]; exact ho) p (by rw [e']; exact hp)

instance decAllSome {β : Type} (x : Option β) (P : β → Prop) [DecidablePred P] : Decidable (∀ o, x = some o → P o) :=
  match x with
  | none => isTrue (fun _ h => by cases h)
  | some b => if h : P b then isTrue (fun o e => by injection e with e; exact e ▸ h)
    else isFalse (fun f => h (f b rfl))

/-- the hypothesis of C46 is met by a keyframe that moves two slots -/
example : Valid id [(s!!"c", -2), (s!!"a", 1)] [s!!"a", s!!"b", s!!"c", s!!"d"] :=
  valid_of_decide _ _ (by decide) (by decide) (by decide)

/-! ## The rewritten offsets -/

theorem indexOf?_some {x : Str} {l : List Str} {i : Nat} (h : indexOf? x l = some i) : l[i]? = some x := by
  induction l generalizing i with
  | nil => simp [indexOf?] at h
  | cons y r ih =>
    rw [indexOf?] at h
    split at h
    · rename_i e
      injection h with h; subst h; simp [e]
    · obtain ⟨j, hj, rfl⟩ := Option.map_eq_some_iff.1 h
      simpa using ih hj

theorem indexOf?_mem {x : Str} {l : List Str} (h : x ∈ l) : ∃ i, indexOf? x l = some i := by
  induction l with
  | nil => simp at h
  | cons y r ih =>
    rw [indexOf?]
    by_cases e : y = x
    · simp [e]
    · have : x ∈ r := by
        rcases List.mem_cons.1 h with h | h
        · exact absurd h.symm e
        · exact h
      obtain ⟨i, hi⟩ := ih this
      simp [e, hi]

theorem indexOf?_none {x : Str} {l : List Str} (h : x ∉ l) : indexOf? x l = none := by
  induction l with
  | nil => rfl
  | cons y r ih =>
    simp only [List.mem_cons, not_or] at h
    rw [indexOf?, if_neg (fun e => h.1 e.symm), ih h.2]; rfl

theorem adjustLoop_ok (R O N : List Str) (d : Dict Int) (h : ∀ k ∈ Dict.keys d, k ∉ R → k ∈ O ∧ k ∈ N) :
    ∃ a, adjustLoop R O N d = .ok a ∧ Dict.keys a = Dict.keys d ∧
      ∀ n o, (n, o) ∈ a → n ∉ R → ∃ i j : Nat, O[i]? = some n ∧ N[j]? = some n ∧ o = (j : Int) - i := by
  induction d with
  | nil => exact ⟨[], rfl, rfl, by simp⟩
  | cons p r ih =>
    obtain ⟨n, o⟩ := p
    obtain ⟨a, h1, h2, h3⟩ := ih (fun k hk => h k (by simp [Dict.keys] at hk ⊢; exact .inr hk))
    by_cases hR : n ∈ R
    · refine ⟨(n, o) :: a, ?_, ?_, ?_⟩
      · simp only [adjustLoop, hR, if_true, h1]; rfl
      · simp only [Dict.keys, List.map_cons] at h2 ⊢; rw [h2]
      · intro n' o' hm hn'
        rcases List.mem_cons.1 hm with e | e
        · injection e with e _; subst e; exact absurd hR hn'
        · exact h3 n' o' e hn'
    · obtain ⟨hO, hN⟩ := h n (by simp [Dict.keys]) hR
      obtain ⟨i, hi⟩ := indexOf?_mem hO
      obtain ⟨j, hj⟩ := indexOf?_mem hN
      refine ⟨(n, (j : Int) - i) :: a, ?_, ?_, ?_⟩
      · simp only [adjustLoop, hR, if_false, hi, hj, h1]; rfl
      · simp only [Dict.keys, List.map_cons] at h2 ⊢; rw [h2]
      · intro n' o' hm hn'
        rcases List.mem_cons.1 hm with e | e
        · injection e with e1 e2
          subst e1; subst e2
          exact ⟨i, j, indexOf?_some hi, indexOf?_some hj, rfl⟩
        · exact h3 n' o' e hn'

theorem adjustLoop_err (R O N : List Str) (d : Dict Int) : (∃ a, adjustLoop R O N d = .ok a) ∨ adjustLoop R O N d = .error .value := by
  induction d with
  | nil => exact .inl ⟨[], rfl⟩
  | cons p r ih =>
    obtain ⟨n, o⟩ := p
    rw [adjustLoop]
    split
    · rcases ih with ⟨a, h⟩ | h <;> rw [h]
      · exact .inl ⟨_, rfl⟩
      · exact .inr rfl
    · split
      · exact .inr rfl
      · split
        · exact .inr rfl
        · rcases ih with ⟨a, h⟩ | h <;> rw [h]
          · exact .inl ⟨_, rfl⟩
          · exact .inr rfl

theorem adjustLoop_unknown (R O N : List Str) (d : Dict Int) (k : Str) (hk : k ∈ Dict.keys d) (hR : k ∉ R) (hO : k ∉ O) :
    adjustLoop R O N d = .error .value := by
  induction d with
  | nil => simp [Dict.keys] at hk
  | cons p r ih =>
    obtain ⟨n, o⟩ := p
    by_cases e : k = n
    · subst e
      rw [adjustLoop, if_neg hR, indexOf?_none hO]
    · have : k ∈ Dict.keys r := by
        simp only [Dict.keys, List.map_cons, List.mem_cons] at hk ⊢
        rcases hk with h | h
        · exact absurd h e
        · exact h
      rw [adjustLoop]
      split
      · rw [ih this]; rfl
      · split
        · rfl
        · split
          · rfl
          · rw [ih this]; rfl

theorem nodup_offsetDict (offs : List (Str × Int)) : (Dict.keys (offsetDict offs)).Nodup := by
  unfold offsetDict
  suffices h : ∀ (l : List (Str × Int)) (d : Dict Int), (Dict.keys d).Nodup →
      (Dict.keys (l.foldl (fun d p => Dict.set d p.1 p.2) d)).Nodup from h offs [] (by simp [Dict.keys])
  intro l
  induction l with
  | nil => intro d h; exact h
  | cons p l ih => intro d h; exact ih _ (Dict.nodup_keys_set h _ _)

/-- surviving slots -/
def keep (name : α → Str) (R : List Str) (l : List α) : List α := l.filter (fun s => name s ∉ R)

theorem map_keep (R : List Str) (l : List α) : (keep name R l).map name = (l.map name).filter (fun x => x ∉ R) := by
  unfold keep
  rw [List.filter_map]; rfl

/-- the meaning of the rewritten offsets -/
theorem removeOffsets_spec (R : List Str) (orig : List α) (offs : List (Str × Int)) (hn : (orig.map name).Nodup)
    (hk : ∀ k ∈ Dict.keys (offsetDict offs), k ∉ R → k ∈ orig.map name) :
    ∃ N, removeOffsets name R orig offs = .ok N ∧ (Dict.keys N).Nodup ∧
      ∀ n o, Dict.get? N n = some o ↔ n ∈ Dict.keys (offsetDict offs) ∧ n ∉ R ∧ o ≠ 0 ∧
        ∃ i j : Nat, ((keep name R orig).map name)[i]? = some n ∧
          ((keep name R (reorder name (offsetDict offs) orig)).map name)[j]? = some n ∧ o = (j : Int) - i := by
  have hperm : (reorder name (offsetDict offs) orig).Perm orig := reorder_perm orig
  obtain ⟨a, h1, h2, h3⟩ := adjustLoop_ok R ((orig.map name).filter (fun x => x ∉ R))
    (((reorder name (offsetDict offs) orig).map name).filter (fun x => x ∉ R)) (offsetDict offs) (by
      intro k hk1 hk2
      have := hk k hk1 hk2
      refine ⟨?_, ?_⟩
      · exact List.mem_filter.2 ⟨this, by simpa using hk2⟩
      · exact List.mem_filter.2 ⟨(hperm.map name).mem_iff.2 this, by simpa using hk2⟩)
  have hnd : (Dict.keys a).Nodup := by rw [h2]; exact nodup_offsetDict offs
  refine ⟨a.filter (fun p => p.1 ∉ R ∧ p.2 ≠ 0), ?_, ?_, ?_⟩
  · unfold removeOffsets adjust
    simp only [h1]
    rfl
  · exact hnd.sublist (Dict.keys_filter_sublist _ _)
  · intro n o
    rw [map_keep, map_keep]
    constructor
    · intro h
      have hm := Dict.mem_of_get? h
      obtain ⟨hm, hp⟩ := List.mem_filter.1 hm
      simp only [ne_eq, decide_eq_true_eq] at hp
      refine ⟨?_, hp.1, hp.2, h3 n o hm hp.1⟩
      rw [← h2]
      exact List.mem_map.2 ⟨(n, o), hm, rfl⟩
    · rintro ⟨hm, hR, ho, i, j, hi, hj, e⟩
      rw [← h2] at hm
      obtain ⟨⟨n', o'⟩, hm2, hn'⟩ := List.mem_map.1 hm
      simp only at hn'; subst hn'
      obtain ⟨i', j', hi', hj', e'⟩ := h3 n' o' hm2 hR
      have nd1 : ((orig.map name).filter (fun x => x ∉ R)).Nodup := hn.sublist List.filter_sublist
      have nd2 : (((reorder name (offsetDict offs) orig).map name).filter (fun x => x ∉ R)).Nodup :=
        ((hperm.map name).nodup_iff.2 hn).sublist List.filter_sublist
      have ei : i' = i := (List.getElem?_inj (List.getElem?_eq_some_iff.1 hi').1 nd1).1 (by rw [hi', hi])
      have ej : j' = j := (List.getElem?_inj (List.getElem?_eq_some_iff.1 hj').1 nd2).1 (by rw [hj', hj])
      subst ei; subst ej
      have eo : o' = o := by omega
      subst eo
      exact Dict.get?_of_mem (hnd.sublist (Dict.keys_filter_sublist _ _))
        (List.mem_filter.2 ⟨hm2, by simp [hR, ho]⟩)

/-! ## C45 -/

/-- C45: after removing any set of slots the rewritten keyframe is one Spine can apply to the remaining slots (known
slots, target indices inside the list, no two equal), no offset is zero and no removed slot is mentioned. -/
theorem c45_rewritten_offsets_valid (R : List Str) (orig : List α) (offs : List (Str × Int)) (hn : (orig.map name).Nodup)
    (hk : ∀ k ∈ Dict.keys (offsetDict offs), k ∉ R → k ∈ orig.map name) :
    ∃ N, removeOffsets name R orig offs = .ok N ∧ Valid name N (keep name R orig) ∧ (Dict.keys N).Nodup ∧
      ∀ k o, (k, o) ∈ N → k ∉ R ∧ o ≠ 0 := by
  obtain ⟨N, h1, h2, h3⟩ := removeOffsets_spec R orig offs hn hk
  have hperm : (reorder name (offsetDict offs) orig).Perm orig := reorder_perm orig
  have nd1 : ((keep name R orig).map name).Nodup := hn.sublist (List.filter_sublist.map name)
  have nd2 : ((keep name R (reorder name (offsetDict offs) orig)).map name).Nodup :=
    ((hperm.map name).nodup_iff.2 hn).sublist (List.filter_sublist.map name)
  have hlen : ((keep name R (reorder name (offsetDict offs) orig)).map name).length = (keep name R orig).length := by
    rw [List.length_map]
    exact (hperm.filter _).length_eq
  have pos : ∀ (i : Nat) (s : α) (o : Int), (keep name R orig)[i]? = some s → Dict.get? N (name s) = some o →
      ∃ j : Nat, ((keep name R (reorder name (offsetDict offs) orig)).map name)[j]? = some (name s) ∧ (i : Int) + o = j := by
    intro i s o hi ho
    obtain ⟨_, _, _, i', j, hi', hj, e⟩ := (h3 (name s) o).1 ho
    have hi2 : ((keep name R orig).map name)[i]? = some (name s) := by simp [hi]
    have : i' = i := (List.getElem?_inj (List.getElem?_eq_some_iff.1 hi').1 nd1).1 (by rw [hi', hi2])
    subst this
    exact ⟨j, hj, by omega⟩
  refine ⟨N, h1, ⟨?_, ?_, ?_⟩, h2, ?_⟩
  · intro k hk'
    obtain ⟨o, ho⟩ := (Dict.get?_isSome_iff N k).2 hk'
    obtain ⟨_, _, _, i, j, hi, _⟩ := (h3 k o).1 ho
    exact List.mem_of_getElem? hi
  · intro i s o hi ho
    obtain ⟨j, hj, e⟩ := pos i s o hi ho
    have := (List.getElem?_eq_some_iff.1 hj).1
    rw [hlen] at this
    omega
  · intro i j s t o p hi hj ho hp e
    obtain ⟨a, ha, ea⟩ := pos i s o hi ho
    obtain ⟨b, hb, eb⟩ := pos j t p hj hp
    have hab : a = b := by omega
    subst hab
    rw [ha] at hb; injection hb with hb
    have hi2 : ((keep name R orig).map name)[i]? = some (name s) := by simp [hi]
    have hj2 : ((keep name R orig).map name)[j]? = some (name t) := by simp [hj]
    exact (List.getElem?_inj (List.getElem?_eq_some_iff.1 hi2).1 nd1).1 (by rw [hi2, hj2, hb])
  · intro k o hm
    have := (h3 k o).1 (Dict.get?_of_mem h2 hm)
    exact ⟨this.2.1, this.2.2.1⟩

/-- C45: the only failure is `ValueError`, raised exactly when a kept offset names a slot that does not exist. -/
theorem c45_fails_only_on_unknown_slot (R : List Str) (orig : List α) (offs : List (Str × Int)) (hn : (orig.map name).Nodup) :
    ((∃ k ∈ Dict.keys (offsetDict offs), k ∉ R ∧ k ∉ orig.map name) ↔ removeOffsets name R orig offs = .error .value) ∧
    ((∃ N, removeOffsets name R orig offs = .ok N) ∨ removeOffsets name R orig offs = .error .value) := by
  have h2 : (∃ N, removeOffsets name R orig offs = .ok N) ∨ removeOffsets name R orig offs = .error .value := by
    unfold removeOffsets adjust
    simp only
    rcases adjustLoop_err R ((orig.map name).filter (fun x => x ∉ R))
      (((reorder name (offsetDict offs) orig).map name).filter (fun x => x ∉ R)) (offsetDict offs) with ⟨a, h⟩ | h <;> rw [h]
    · exact .inl ⟨_, rfl⟩
    · exact .inr rfl
  refine ⟨⟨?_, ?_⟩, h2⟩
  · rintro ⟨k, hk, hR, hO⟩
    unfold removeOffsets adjust
    simp only
    rw [adjustLoop_unknown R _ _ _ k hk hR (fun hm => hO (List.mem_filter.1 hm).1)]
    rfl
  · intro h
    by_cases hh : ∀ k ∈ Dict.keys (offsetDict offs), k ∉ R → k ∈ orig.map name
    · obtain ⟨N, h1, _⟩ := removeOffsets_spec R orig offs hn hh
      rw [h1] at h; cases h
    · simp only [Classical.not_forall] at hh
      obtain ⟨k, h1, h2, h3⟩ := hh
      exact ⟨k, h1, h2, h3⟩

example : removeOffsets id [s!!"b"] [s!!"a", s!!"b", s!!"c", s!!"d"] [(s!!"a", 3)] = .ok [(s!!"a", 2)] := by decide +kernel
example : removeOffsets id [s!!"b"] [s!!"a", s!!"b"] [(s!!"zz", 1)] = .error .value := by decide +kernel

/-! ## C44 -/

/-- the full statement of C44: the drawing sequence of the rewritten keyframe on the remaining slots is the original
drawing sequence without the removed slots -/
def C44 : Prop := ∀ (R : List Str) (orig L : List Str) (offs N : List (Str × Int)), orig.Nodup →
  Valid id (offsetDict offs) orig → Realises id (offsetDict offs) orig L → removeOffsets id R orig offs = .ok N →
  Realises id N (keep id R orig) (keep id R L)

/-- C44 is false: when a removal makes an offset zero it is dropped, although the zero offset still pins the slot.
Setup order x u r z w y, keyframe z:-1, y:-4 draws x y z u r w.  Removing r leaves the single offset y:-3, which
draws x y u z w instead of x y z u w. -/
theorem c44_counterexample : ¬ C44 := by
  intro h
  have hv : Valid id (offsetDict [(s!!"z", -1), (s!!"y", -4)]) [s!!"x", s!!"u", s!!"r", s!!"z", s!!"w", s!!"y"] :=
    valid_of_decide _ _ (by decide) (by decide) (by decide)
  have hr := reorder_realises (name := id) _ hv
  have := h [s!!"r"] [s!!"x", s!!"u", s!!"r", s!!"z", s!!"w", s!!"y"] _ [(s!!"z", -1), (s!!"y", -4)] [(s!!"y", -3)]
    (by decide) hv hr (by decide +kernel)
  have := this.others
  revert this
  decide +kernel

/-- C44, exact characterisation: the drawing order of the other slots is preserved if and only if the slots that keep
no offset stand in the same order in the setup pose and in the original drawing sequence. -/
theorem c44_preserved_iff (R : List Str) (orig L : List α) (offs : List (Str × Int)) (hn : (orig.map name).Nodup)
    (hv : Valid name (offsetDict offs) orig) (hL : Realises name (offsetDict offs) orig L) :
    ∃ N, removeOffsets name R orig offs = .ok N ∧
      (Realises name N (keep name R orig) (keep name R L) ↔
        (keep name R L).filter (fun s => Dict.get? N (name s) = none) =
          (keep name R orig).filter (fun s => Dict.get? N (name s) = none)) ∧
      (reorder name N (keep name R orig) = keep name R L ↔ Realises name N (keep name R orig) (keep name R L)) := by
  have hk : ∀ k ∈ Dict.keys (offsetDict offs), k ∉ R → k ∈ orig.map name := fun k hk _ => hv.known k hk
  obtain ⟨N, h1, h2, h3⟩ := removeOffsets_spec R orig offs hn hk
  obtain ⟨N', h1', hval, _, _⟩ := c45_rewritten_offsets_valid R orig offs hn hk
  have eN : N' = N := by rw [h1] at h1'; injection h1' with e; exact e.symm
  subst eN
  have eL : L = reorder name (offsetDict offs) orig := realises_unique hn hL (reorder_realises orig hv)
  have nd1 : ((keep name R orig).map name).Nodup := hn.sublist (List.filter_sublist.map name)
  refine ⟨N', h1, ⟨fun h => h.others, ?_⟩, ⟨?_, ?_⟩⟩
  · intro hf
    refine ⟨hL.perm.filter _, ?_, hf⟩
    intro i s o hi ho
    obtain ⟨_, _, _, i', j, hi', hj, e⟩ := (h3 (name s) o).1 ho
    have hi2 : ((keep name R orig).map name)[i]? = some (name s) := by simp [hi]
    have ei : i' = i := (List.getElem?_inj (List.getElem?_eq_some_iff.1 hi').1 nd1).1 (by rw [hi', hi2])
    subst ei
    refine ⟨j, by omega, ?_⟩
    rw [← eL] at hj
    rw [List.getElem?_map] at hj
    obtain ⟨t, ht, hts⟩ := Option.map_eq_some_iff.1 hj
    -- same name, hence same slot
    have htm : t ∈ orig := hL.perm.mem_iff.1 (List.mem_filter.1 (List.mem_of_getElem? ht)).1
    have hsm : s ∈ orig := (List.mem_filter.1 (List.mem_of_getElem? hi)).1
    have : t = s := by
      obtain ⟨a, ha⟩ := List.getElem?_of_mem htm
      obtain ⟨b, hb⟩ := List.getElem?_of_mem hsm
      have ha' : (orig.map name)[a]? = some (name t) := by simp [ha]
      have hb' : (orig.map name)[b]? = some (name s) := by simp [hb]
      have : a = b := (List.getElem?_inj (List.getElem?_eq_some_iff.1 ha').1 hn).1 (by rw [ha', hb', hts])
      subst this
      rw [ha] at hb; injection hb
    rw [ht, this]
  · intro e
    rw [← e]; exact reorder_realises _ hval
  · intro h
    exact realises_unique nd1 (reorder_realises _ hval) h

/-- C44 with the hypothesis that makes it true: no kept offset became zero.
Missing (and false, `c44_counterexample`): the case where a kept offset becomes zero and pins its slot. -/
theorem c44_preserved_partial (R : List Str) (orig L : List α) (offs : List (Str × Int)) (hn : (orig.map name).Nodup)
    (hv : Valid name (offsetDict offs) orig) (hL : Realises name (offsetDict offs) orig L)
    (hz : ∀ (n : Str) (i : Nat), n ∈ Dict.keys (offsetDict offs) → n ∉ R →
      ¬ (((keep name R orig).map name)[i]? = some n ∧ ((keep name R L).map name)[i]? = some n)) :
    ∃ N, removeOffsets name R orig offs = .ok N ∧ Realises name N (keep name R orig) (keep name R L) ∧
      reorder name N (keep name R orig) = keep name R L := by
  obtain ⟨N, h1, h2, h3⟩ := c44_preserved_iff R orig L offs hn hv hL
  have hk : ∀ k ∈ Dict.keys (offsetDict offs), k ∉ R → k ∈ orig.map name := fun k hk _ => hv.known k hk
  obtain ⟨N', h1', h2', h3'⟩ := removeOffsets_spec R orig offs hn hk
  have eN : N' = N := by rw [h1] at h1'; injection h1' with e; exact e.symm
  subst eN
  have eL : L = reorder name (offsetDict offs) orig := realises_unique hn hL (reorder_realises orig hv)
  have hR : Realises name N' (keep name R orig) (keep name R L) := by
    refine h2.2 ?_
    -- among the surviving slots, "no new offset" is "no old offset"
    have key : ∀ l : List α, l.Perm orig → (keep name R l).filter (fun s => Dict.get? N' (name s) = none) =
        keep name R (l.filter (fun s => Dict.get? (offsetDict offs) (name s) = none)) := by
      intro l hl
      unfold keep
      rw [List.filter_filter, List.filter_filter]
      refine List.filter_congr ?_
      intro s hs
      by_cases hsR : name s ∈ R
      · simp [hsR]
      · simp only [hsR, not_false_eq_true, decide_true, Bool.and_true, Bool.true_and, decide_eq_decide]
        constructor
        · intro hnone
          cases hd : Dict.get? (offsetDict offs) (name s) with
          | none => rfl
          | some o =>
            exfalso
            have hmem := Dict.mem_keys_of_get? hd
            have hso : name s ∈ (keep name R orig).map name :=
              List.mem_map.2 ⟨s, List.mem_filter.2 ⟨hl.mem_iff.1 hs, by simpa using hsR⟩, rfl⟩
            have hsL : name s ∈ (keep name R L).map name :=
              List.mem_map.2 ⟨s, List.mem_filter.2 ⟨hL.perm.mem_iff.2 (hl.mem_iff.1 hs), by simpa using hsR⟩, rfl⟩
            obtain ⟨i, hi⟩ := List.getElem?_of_mem hso
            obtain ⟨j, hj⟩ := List.getElem?_of_mem hsL
            by_cases e : i = j
            · subst e; exact hz (name s) i hmem hsR ⟨hi, hj⟩
            · have := (h3' (name s) ((j : Int) - i)).2 ⟨hmem, hsR, by omega, i, j, hi, by rw [← eL]; exact hj, rfl⟩
              rw [this] at hnone; cases hnone
        · intro hnone
          cases hN : Dict.get? N' (name s) with
          | none => rfl
          | some o =>
            have := ((h3' (name s) o).1 hN).1
            exact absurd this ((Dict.get?_eq_none_iff _ _).1 hnone)
    rw [key L hL.perm, key orig (List.Perm.refl _), hL.others]
  exact ⟨N', h1, hR, h3.2 hR⟩

/-- the hypotheses of the positive theorem are met: removing b from a b c d with keyframe a:+3 -/
example : ∃ N, removeOffsets id [s!!"b"] [s!!"a", s!!"b", s!!"c", s!!"d"] [(s!!"a", 3)] = .ok N ∧
    reorder id N [s!!"a", s!!"c", s!!"d"] = [s!!"c", s!!"d", s!!"a"] := ⟨[(s!!"a", 2)], by decide +kernel, by decide +kernel⟩

end Spine.DrawOrder
