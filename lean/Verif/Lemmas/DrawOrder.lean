import Verif.Model.DrawOrder
import Verif.Spec.DrawOrder
import Verif.Lemmas.Dict
/- Lemmas on the draw-order rewriting. -/
namespace Spine
namespace DrawOrder
variable {α : Type} {name : α → Str} {offs : Dict Int}

/-- has no offset in the keyframe -/
def free (name : α → Str) (offs : Dict Int) (s : α) : Bool := (Dict.get? offs (name s)).isNone

theorem eraseIdx_mid (pre : List α) (s : α) (r : List α) : (pre ++ s :: r).eraseIdx pre.length = pre ++ r := by
  induction pre with
  | nil => simp
  | cons a pre ih => simp [ih]

theorem popped_aux (r : List α) : ∀ pre : List α,
    ((operations name offs pre.length r).map (·.1)).foldr (fun i l => l.eraseIdx i) (pre ++ r) =
      pre ++ r.filter (free name offs) := by
  induction r with
  | nil => intro pre; simp [operations]
  | cons s r ih =>
    intro pre
    have ih' := ih (pre ++ [s])
    simp only [List.length_append, List.length_cons, List.length_nil, List.append_assoc, List.cons_append, List.nil_append,
      Nat.zero_add] at ih'
    cases h : Dict.get? offs (name s) with
    | none =>
      have hf : free name offs s = true := by simp [free, h]
      simp only [operations, h, List.filter_cons, hf, if_true]
      exact ih'
    | some o =>
      have hf : free name offs s = false := by simp [free, h]
      simp only [operations, h, List.map_cons, List.foldr_cons, List.filter_cons, hf, Bool.false_eq_true, if_false]
      rw [ih']
      exact eraseIdx_mid pre s _

theorem popped_eq (orig : List α) :
    ((operations name offs 0 orig).map (·.1)).reverse.foldl (fun l i => l.eraseIdx i) orig =
      orig.filter (free name offs) := by
  rw [List.foldl_reverse]
  have := popped_aux (name := name) (offs := offs) orig []
  simpa using this

/-! ### sorting -/

theorem insertKey_perm (x : α × Int) (l : List (α × Int)) : (insertKey x l).Perm (x :: l) := by
  induction l with
  | nil => exact List.Perm.refl _
  | cons y r ih =>
    rw [insertKey]
    split
    · exact List.Perm.refl _
    · exact (List.Perm.cons y ih).trans (List.Perm.swap x y r)

theorem sortOps_perm (l : List (α × Int)) : (sortOps l).Perm l := by
  induction l with
  | nil => exact List.Perm.refl _
  | cons x l ih => exact (insertKey_perm x _).trans (List.Perm.cons x ih)

theorem insertKey_sorted (x : α × Int) (l : List (α × Int)) (h : l.Pairwise (fun a b => a.2 ≤ b.2)) :
    (insertKey x l).Pairwise (fun a b => a.2 ≤ b.2) := by
  induction l with
  | nil => simp [insertKey]
  | cons y r ih =>
    rw [insertKey]
    have hy := List.pairwise_cons.1 h
    split
    · rename_i hxy
      refine List.pairwise_cons.2 ⟨?_, h⟩
      intro z hz
      rcases List.mem_cons.1 hz with e | e
      · subst e; exact hxy
      · have := hy.1 z e; omega
    · rename_i hxy
      refine List.pairwise_cons.2 ⟨?_, ih hy.2⟩
      intro z hz
      have := (insertKey_perm x r).mem_iff.1 hz
      rcases List.mem_cons.1 this with e | e
      · subst e; omega
      · exact hy.1 z e

theorem sortOps_sorted (l : List (α × Int)) : (sortOps l).Pairwise (fun a b => a.2 ≤ b.2) := by
  induction l with
  | nil => exact List.Pairwise.nil
  | cons x l ih => exact insertKey_sorted x _ ih

/-! ### insertion -/

theorem pyInsert_perm (l : List α) (i : Int) (x : α) : (pyInsert l i x).Perm (x :: l) := by
  unfold pyInsert
  have := List.perm_middle (a := x) (l₁ := l.take (if i < 0 then (l.length + i).toNat else min i.toNat l.length))
    (l₂ := l.drop (if i < 0 then (l.length + i).toNat else min i.toNat l.length))
  rw [List.take_append_drop] at this
  exact this

theorem pyInsert_length (l : List α) (i : Int) (x : α) : (pyInsert l i x).length = l.length + 1 := by
  rw [(pyInsert_perm l i x).length_eq]; rfl

theorem pyInsert_filter (p : α → Bool) (l : List α) (i : Int) (x : α) (hx : p x = false) :
    (pyInsert l i x).filter p = l.filter p := by
  unfold pyInsert
  simp only [List.filter_append, List.filter_cons, hx, Bool.false_eq_true, if_false]
  rw [← List.filter_append, List.take_append_drop]

theorem pyInsert_get (l : List α) (n : Nat) (x : α) (h : n ≤ l.length) :
    (pyInsert l (n : Int) x)[n]? = some x ∧ ∀ m < n, (pyInsert l (n : Int) x)[m]? = l[m]? := by
  unfold pyInsert
  have hj : (if (n : Int) < 0 then (l.length + (n : Int)).toNat else min (n : Int).toNat l.length) = n := by
    rw [if_neg (by omega)]; simp; omega
  simp only [hj]
  refine ⟨?_, ?_⟩
  · rw [List.getElem?_append_right (by simp; omega)]
    simp [List.length_take, Nat.min_eq_left h]
  · intro m hm
    rw [List.getElem?_append_left (by simp; omega), List.getElem?_take_of_lt hm]

theorem foldl_insert_perm (ops : List (α × Int)) : ∀ c : List α,
    (ops.foldl (fun l op => pyInsert l op.2 op.1) c).Perm (ops.map (·.1) ++ c) := by
  induction ops with
  | nil => intro c; exact List.Perm.refl _
  | cons op ops ih =>
    intro c
    refine (ih _).trans ?_
    refine (List.Perm.append_left _ (pyInsert_perm c op.2 op.1)).trans ?_
    exact List.perm_middle

theorem foldl_insert_filter (p : α → Bool) (ops : List (α × Int)) (h : ∀ op ∈ ops, p op.1 = false) : ∀ c : List α,
    (ops.foldl (fun l op => pyInsert l op.2 op.1) c).filter p = c.filter p := by
  induction ops with
  | nil => intro c; rfl
  | cons op ops ih =>
    intro c
    rw [List.foldl_cons, ih (fun o ho => h o (by simp [ho])), pyInsert_filter _ _ _ _ (h op (by simp))]

/-- strictly ascending, each below `n` -/
theorem ascending_bound (ops : List (α × Int)) (n : Int) (h : ops.Pairwise (fun a b => a.2 < b.2))
    (hb : ∀ op ∈ ops, op.2 < n) : ∀ op, ops.head? = some op → op.2 + ops.length ≤ n := by
  induction ops with
  | nil => intro op h; simp at h
  | cons o ops ih =>
    intro op ho
    simp at ho; subst ho
    have hp := List.pairwise_cons.1 h
    cases ops with
    | nil =>
      have := hb o (by simp)
      simp; omega
    | cons o' ops =>
      have := ih hp.2 (fun x hx => hb x (by simp [hx])) o' rfl
      have := hp.1 o' (by simp)
      simp only [List.length_cons] at *
      omega

/-- the insertion loop puts every operation at its index -/
theorem foldl_insert_placed (ops : List (α × Int)) (n : Nat) : ∀ c : List α, c.length + ops.length = n →
    ops.Pairwise (fun a b => a.2 < b.2) → (∀ op ∈ ops, 0 ≤ op.2 ∧ op.2 < n) →
    (∀ op ∈ ops, At (ops.foldl (fun l op => pyInsert l op.2 op.1) c) op.2 op.1) ∧
    (∀ m : Nat, (∀ op ∈ ops, (m : Int) < op.2) → (ops.foldl (fun l op => pyInsert l op.2 op.1) c)[m]? = c[m]?) := by
  induction ops with
  | nil => intro c _ _ _; exact ⟨by simp, fun m _ => rfl⟩
  | cons o ops ih =>
    intro c hlen hpw hb
    have hp := List.pairwise_cons.1 hpw
    obtain ⟨h0, h1⟩ := hb o (by simp)
    have hbound := ascending_bound (o :: ops) n hpw (fun x hx => (hb x hx).2) o rfl
    obtain ⟨k, hk⟩ : ∃ k : Nat, o.2 = k := ⟨o.2.toNat, by omega⟩
    have hkle : k ≤ c.length := by
      simp only [List.length_cons] at hlen hbound; omega
    have hget := pyInsert_get c k o.1 hkle
    have := ih (pyInsert c o.2 o.1) (by rw [pyInsert_length]; simp only [List.length_cons] at hlen; omega) hp.2
      (fun x hx => hb x (by simp [hx]))
    rw [List.foldl_cons]
    refine ⟨?_, ?_⟩
    · intro op hop
      rcases List.mem_cons.1 hop with e | e
      · subst e
        refine ⟨k, hk, ?_⟩
        rw [this.2 k (fun x hx => by have := hp.1 x hx; omega), hk]
        exact hget.1
      · exact this.1 op e
    · intro m hm
      rw [this.2 m (fun x hx => hm x (by simp [hx])), hk]
      refine hget.2 m ?_
      have := hm o (by simp)
      omega

/-! ### operations -/

theorem operations_map_snd_mem (r : List α) : ∀ (i : Nat) (x : α) (t : Int),
    (x, t) ∈ (operations name offs i r).map (·.2) ↔
      ∃ (j : Nat) (o : Int), r[j]? = some x ∧ Dict.get? offs (name x) = some o ∧ t = (i : Int) + j + o := by
  induction r with
  | nil => intro i x t; simp [operations]
  | cons s r ih =>
    intro i x t
    have step : (∃ (j : Nat) (o : Int), (s :: r)[j]? = some x ∧ Dict.get? offs (name x) = some o ∧ t = (i : Int) + j + o) ↔
        ((s = x ∧ ∃ o, Dict.get? offs (name x) = some o ∧ t = i + o) ∨
         ∃ (j : Nat) (o : Int), r[j]? = some x ∧ Dict.get? offs (name x) = some o ∧ t = ((i + 1 : Nat) : Int) + j + o) := by
      constructor
      · rintro ⟨j, o, h1, h2, h3⟩
        cases j with
        | zero =>
          simp at h1
          exact .inl ⟨h1, o, h2, by simpa using h3⟩
        | succ j =>
          simp at h1
          exact .inr ⟨j, o, h1, h2, by rw [h3]; push_cast; omega⟩
      · rintro (⟨rfl, o, h2, h3⟩ | ⟨j, o, h1, h2, h3⟩)
        · exact ⟨0, o, by simp, h2, by simpa using h3⟩
        · exact ⟨j + 1, o, by simpa using h1, h2, by rw [h3]; push_cast; omega⟩
    rw [step, ← ih (i + 1) x t]
    cases h : Dict.get? offs (name s) with
    | none =>
      simp only [operations, h]
      constructor
      · intro hm; exact .inr hm
      · rintro (⟨rfl, o, h2, _⟩ | hm)
        · rw [h] at h2; cases h2
        · exact hm
    | some o =>
      simp only [operations, h, List.map_cons, List.mem_cons, Prod.mk.injEq]
      constructor
      · rintro (⟨rfl, rfl⟩ | hm)
        · exact .inl ⟨rfl, o, h, rfl⟩
        · exact .inr hm
      · rintro (⟨rfl, o', h2, rfl⟩ | hm)
        · rw [h] at h2; injection h2 with h2; subst h2; exact .inl ⟨rfl, rfl⟩
        · exact .inr hm

theorem operations_slots (r : List α) : ∀ i : Nat,
    ((operations name offs i r).map (·.2)).map (·.1) = r.filter (fun s => !(free name offs s)) := by
  induction r with
  | nil => intro i; simp [operations]
  | cons s r ih =>
    intro i
    cases h : Dict.get? offs (name s) with
    | none =>
      have hf : free name offs s = true := by simp [free, h]
      simp only [operations, h, List.filter_cons, hf, Bool.not_true, Bool.false_eq_true, if_false]
      exact ih (i + 1)
    | some o =>
      have hf : free name offs s = false := by simp [free, h]
      simp only [operations, h, List.map_cons, List.filter_cons, hf, Bool.not_false, if_true]
      rw [ih (i + 1)]

theorem reorder_eq (orig : List α) : reorder name offs orig =
    (sortOps ((operations name offs 0 orig).map (·.2))).foldl (fun l op => pyInsert l op.2 op.1)
      (orig.filter (free name offs)) := by
  unfold reorder
  simp only [popped_eq]

/-- the reordered list is a permutation, whatever the offsets are -/
theorem reorder_perm (orig : List α) : (reorder name offs orig).Perm orig := by
  rw [reorder_eq]
  refine (foldl_insert_perm _ _).trans ?_
  have h1 : ((sortOps ((operations name offs 0 orig).map (·.2))).map (·.1)).Perm
      (orig.filter (fun s => !(free name offs s))) := by
    rw [← operations_slots orig 0]
    exact (sortOps_perm _).map _
  refine (List.Perm.append_right _ h1).trans ?_
  refine List.perm_append_comm.trans ?_
  exact List.filter_append_perm (free name offs) orig

theorem sorted_op_free (orig : List α) : ∀ op ∈ sortOps ((operations name offs 0 orig).map (·.2)),
    free name offs op.1 = false := by
  intro op hop
  obtain ⟨x, t⟩ := op
  obtain ⟨j, o, _, h2, _⟩ := (operations_map_snd_mem orig 0 x t).1 ((sortOps_perm _).mem_iff.1 hop)
  simp [free, h2]

theorem reorder_others (orig : List α) :
    (reorder name offs orig).filter (free name offs) = orig.filter (free name offs) := by
  rw [reorder_eq, foldl_insert_filter _ _ (sorted_op_free orig)]
  simp

theorem free_eq (s : α) : (decide (Dict.get? offs (name s) = none)) = free name offs s := by
  cases h : Dict.get? offs (name s) <;> simp [free, h]

theorem reorder_others' (orig : List α) :
    (reorder name offs orig).filter (fun s => Dict.get? offs (name s) = none) =
      orig.filter (fun s => Dict.get? offs (name s) = none) := by
  simp only [free_eq]; exact reorder_others orig

/-- pairwise distinct new indices -/
theorem operations_distinct (orig : List α) (hv : Valid name offs orig) :
    ((operations name offs 0 orig).map (·.2)).Pairwise (fun a b => a.2 ≠ b.2) := by
  -- operations at later positions have a different index in `orig`
  suffices h : ∀ (r : List α) (i : Nat), (∀ j s, r[j]? = some s → orig[i + j]? = some s) →
      ((operations name offs i r).map (·.2)).Pairwise (fun a b => a.2 ≠ b.2) from
    h orig 0 (fun j s hj => by simpa using hj)
  intro r
  induction r with
  | nil => intro i _; simp [operations]
  | cons s r ih =>
    intro i hr
    have hr' : ∀ j s', r[j]? = some s' → orig[i + 1 + j]? = some s' := by
      intro j s' hj
      have := hr (j + 1) s' (by simpa using hj)
      rwa [show i + 1 + j = i + (j + 1) by omega]
    cases h : Dict.get? offs (name s) with
    | none => simp only [operations, h]; exact ih (i + 1) hr'
    | some o =>
      simp only [operations, h, List.map_cons]
      refine List.pairwise_cons.2 ⟨?_, ih (i + 1) hr'⟩
      rintro ⟨x, t⟩ hx
      obtain ⟨j, p, h1, h2, h3⟩ := (operations_map_snd_mem r (i + 1) x t).1 hx
      simp only
      intro e
      have := hv.distinct i (i + 1 + j) s x o p (by simpa using hr 0 s (by simp)) (hr' j x h1) h h2
        (by rw [e, h3]; push_cast; omega)
      omega

theorem reorder_realises (orig : List α) (hv : Valid name offs orig) : Realises name offs orig (reorder name offs orig) := by
  refine ⟨reorder_perm orig, ?_, reorder_others' orig⟩
  intro i s o hi ho
  rw [reorder_eq]
  have hperm := sortOps_perm ((operations name offs 0 orig).map (·.2))
  have hlen : (orig.filter (free name offs)).length + (sortOps ((operations name offs 0 orig).map (·.2))).length =
      orig.length := by
    rw [hperm.length_eq]
    have : ((operations name offs 0 orig).map (·.2)).length = (orig.filter (fun s => !(free name offs s))).length := by
      rw [← operations_slots orig 0]; simp
    rw [this]
    have := (List.filter_append_perm (free name offs) orig).length_eq
    simpa using this
  have hstrict : (sortOps ((operations name offs 0 orig).map (·.2))).Pairwise (fun a b => a.2 < b.2) := by
    have h1 := sortOps_sorted ((operations name offs 0 orig).map (·.2))
    have h2 : (sortOps ((operations name offs 0 orig).map (·.2))).Pairwise (fun a b => a.2 ≠ b.2) :=
      (hperm.pairwise_iff (fun {a b} h => fun e => h e.symm)).2 (operations_distinct orig hv)
    exact List.Pairwise.imp₂ (fun a b hle hne => by omega) h1 h2
  have hb : ∀ op ∈ sortOps ((operations name offs 0 orig).map (·.2)), 0 ≤ op.2 ∧ op.2 < orig.length := by
    rintro ⟨x, t⟩ hop
    obtain ⟨j, p, h1, h2, h3⟩ := (operations_map_snd_mem orig 0 x t).1 (hperm.mem_iff.1 hop)
    have := hv.inside j x p h1 h2
    simp only [h3]
    simpa using this
  have hmem : (s, (i : Int) + o) ∈ sortOps ((operations name offs 0 orig).map (·.2)) := by
    refine hperm.mem_iff.2 ((operations_map_snd_mem orig 0 s _).2 ⟨i, o, hi, ho, by simp⟩)
  exact (foldl_insert_placed _ _ _ hlen hstrict hb).1 _ hmem

/-! ### uniqueness -/

theorem eq_of_filter_eq (p : α → Bool) : ∀ (A B : List α), A.length = B.length →
    (∀ (n : Nat) (a b : α), A[n]? = some a → B[n]? = some b → p a = p b ∧ (p a = false → a = b)) →
    A.filter p = B.filter p → A = B := by
  intro A
  induction A with
  | nil => intro B hl _ _; cases B with
    | nil => rfl
    | cons _ _ => simp at hl
  | cons a A ih =>
    intro B hl h hf
    cases B with
    | nil => simp at hl
    | cons b B =>
      have h0 := h 0 a b (by simp) (by simp)
      have hrest : ∀ (n : Nat) (a b : α), A[n]? = some a → B[n]? = some b → p a = p b ∧ (p a = false → a = b) :=
        fun n x y hx hy => h (n + 1) x y (by simpa using hx) (by simpa using hy)
      have hl' : A.length = B.length := by simpa using hl
      cases hp : p a with
      | true =>
        have hpb : p b = true := by rw [← h0.1, hp]
        rw [List.filter_cons, List.filter_cons, if_pos hp, if_pos hpb] at hf
        injection hf with h1 h2
        rw [h1, ih B hl' hrest h2]
      | false =>
        have hpb : p b = false := by rw [← h0.1, hp]
        rw [List.filter_cons, List.filter_cons, hp, hpb] at hf
        simp only [Bool.false_eq_true, if_false] at hf
        rw [h0.2 hp, ih B hl' hrest hf]

theorem realises_unique {orig L M : List α} (hn : (orig.map name).Nodup) (hL : Realises name offs orig L)
    (hM : Realises name offs orig M) : L = M := by
  have nodupOf : ∀ {L : List α}, L.Perm orig → L.Nodup := by
    intro L h
    have := (h.map name).nodup_iff.2 hn
    exact (List.pairwise_map.1 this).imp (fun hne e => hne (by rw [e]))
  have key : ∀ {L M : List α}, Realises name offs orig L → Realises name offs orig M → ∀ (n : Nat) (a : α),
      L[n]? = some a → free name offs a = false → M[n]? = some a := by
    intro L M hL hM n a ha hf
    have hmem : a ∈ orig := hL.perm.mem_iff.1 (List.mem_of_getElem? ha)
    obtain ⟨i, hi⟩ := List.getElem?_of_mem hmem
    cases ho : Dict.get? offs (name a) with
    | none => simp [free, ho] at hf
    | some o =>
      obtain ⟨k, hk, hk'⟩ := hL.placed i a o hi ho
      obtain ⟨k2, hk2, hk2'⟩ := hM.placed i a o hi ho
      have e1 : k = n := by
        have hk1 : k < L.length := (List.getElem?_eq_some_iff.1 hk').1
        exact (List.getElem?_inj hk1 (nodupOf hL.perm)).1 (by rw [hk', ha])
      have e2 : k2 = k := by omega
      rw [← e1, ← e2]; exact hk2'
  refine eq_of_filter_eq (free name offs) L M (hL.perm.length_eq.trans hM.perm.length_eq.symm) ?_ ?_
  · intro n a b ha hb
    cases hfa : free name offs a with
    | false =>
      have := key hL hM n a ha hfa
      rw [hb] at this; injection this with e
      subst e; exact ⟨hfa.symm, fun _ => rfl⟩
    | true =>
      refine ⟨?_, fun h => by cases h⟩
      cases hfb : free name offs b with
      | true => rfl
      | false =>
        have := key hM hL n b hb hfb
        rw [ha] at this; injection this with e
        subst e; rw [hfa] at hfb; exact hfb
  · have h1 := hL.others
    have h2 := hM.others
    simp only [free_eq] at h1 h2
    rw [h1, h2]

end DrawOrder
end Spine
