import Verif.Model.SpineNodes
/- Graph ids: `name_TYPE`. -/
namespace Spine

theorem name_no_underscore (t : NType) : '_' ∉ t.name := by cases t <;> decide

theorem name_inj {t u : NType} (h : t.name = u.name) : t = u := by
  revert h; cases t <;> cases u <;> decide

/-- the text after the last underscore is unique -/
theorem split_last {a b m n : Str} (hm : '_' ∉ m) (hn : '_' ∉ n) (h : a ++ '_' :: m = b ++ '_' :: n) : a = b ∧ m = n := by
  induction a generalizing b with
  | nil =>
    cases b with
    | nil => simpa using h
    | cons c b =>
      simp only [List.nil_append, List.cons_append, List.cons.injEq] at h
      exact absurd (h.2 ▸ List.mem_append_right b (List.mem_cons_self ..)) hm
  | cons c a ih =>
    cases b with
    | nil =>
      simp only [List.nil_append, List.cons_append, List.cons.injEq] at h
      exact absurd (h.2.symm ▸ List.mem_append_right a (List.mem_cons_self ..)) hn
    | cons d b =>
      simp only [List.cons_append, List.cons.injEq] at h
      obtain ⟨h1, h2⟩ := ih h.2
      exact ⟨by rw [h.1, h1], h2⟩

theorem graphId_inj {t u : NType} {a b : Str} (h : graphId t a = graphId u b) : t = u ∧ a = b := by
  obtain ⟨h1, h2⟩ := split_last (name_no_underscore t) (name_no_underscore u) h
  exact ⟨name_inj h2, h1⟩

theorem graphId_inj' {t : NType} {a b : Str} : graphId t a = graphId t b ↔ a = b :=
  ⟨fun h => (graphId_inj h).2, fun h => by rw [h]⟩

theorem dropPrefix?_iff (s p r : Str) : dropPrefix? s p = some r ↔ s = p ++ r := by
  induction p generalizing s with
  | nil => simp [dropPrefix?]
  | cons d p ih =>
    cases s with
    | nil => simp [dropPrefix?]
    | cons c s =>
      simp only [dropPrefix?]
      split
      · rename_i h; subst h; simp [ih]
      · rename_i h; simp [h]

theorem dropPrefix?_none (s p : Str) : dropPrefix? s p = none ↔ ¬ p <+: s := by
  cases h : dropPrefix? s p with
  | none =>
    simp only [true_iff]
    rintro ⟨r, hr⟩
    rw [(dropPrefix?_iff s p r).2 hr.symm] at h; cases h
  | some r =>
    simp only [reduceCtorEq, false_iff, Classical.not_not]
    exact ⟨r, ((dropPrefix?_iff s p r).1 h).symm⟩

theorem removeAllAux_fuel (pat : Str) (hp : pat ≠ []) (n : Nat) : ∀ (m : Nat) (s : Str), s.length ≤ n → s.length ≤ m →
    removeAllAux pat n s = removeAllAux pat m s := by
  induction n with
  | zero => intro m s h _; cases s with
    | nil => cases m <;> simp [removeAllAux]
    | cons => simp at h
  | succ n ih =>
    intro m s h1 h2
    cases s with
    | nil => cases m <;> simp [removeAllAux]
    | cons c s =>
      cases m with
      | zero => simp at h2
      | succ m =>
        simp only [removeAllAux]
        split
        · rename_i r hr
          have e := (dropPrefix?_iff _ _ _).1 hr
          have hl : r.length < (c :: s).length := by
            rw [e, List.length_append]
            have := List.length_pos_iff.2 hp
            omega
          exact ih m r (by omega) (by omega)
        · rw [ih m s (by simpa using h1) (by simpa using h2)]

theorem removeAll_cons_none {pat : Str} {c : Char} {s : Str} (h : ¬ pat <+: (c :: s)) :
    removeAll pat (c :: s) = c :: removeAll pat s := by
  simp only [removeAll, List.length_cons, removeAllAux, (dropPrefix?_none _ _).2 h]

theorem removeAll_append {pat r : Str} (hp : pat ≠ []) : removeAll pat (pat ++ r) = removeAll pat r := by
  cases pat with
  | nil => exact absurd rfl hp
  | cons c p =>
    simp only [removeAll, List.cons_append, List.length_cons, removeAllAux]
    have e : dropPrefix? (c :: (p ++ r)) (c :: p) = some r := (dropPrefix?_iff _ _ r).2 rfl
    rw [e]
    exact removeAllAux_fuel _ (by simp) _ _ _ (by simp) (Nat.le_refl _)

/-- a `_`-initial suffix with no other underscore is removed on its own -/
theorem removeAll_suffix {w : Str} (hw : '_' ∉ w) (n : Nat) : ∀ s : Str, s.length ≤ n →
    removeAll ('_' :: w) (s ++ '_' :: w) = removeAll ('_' :: w) s := by
  induction n with
  | zero =>
    intro s hs
    have : s = [] := by cases s <;> simp_all
    subst this
    have := removeAll_append (pat := '_' :: w) (r := []) (by simp)
    simpa using this
  | succ n ih =>
    intro s hs
    cases s with
    | nil =>
      have := removeAll_append (pat := '_' :: w) (r := []) (by simp)
      simpa using this
    | cons c s =>
      by_cases hp : ('_' :: w) <+: (c :: s)
      · obtain ⟨r, hr⟩ := hp
        rw [← hr, List.append_assoc, removeAll_append (by simp), removeAll_append (by simp)]
        apply ih
        have : (c :: s).length = ('_' :: w).length + r.length := by rw [← hr, List.length_append]
        simp at this hs
        omega
      · have hp' : ¬ ('_' :: w) <+: ((c :: s) ++ '_' :: w) := by
          intro h
          by_cases hlen : (c :: s).length < ('_' :: w).length
          · -- the suffix overlaps the boundary
            have hmem : '_' ∈ w := by
              obtain ⟨r, hr⟩ := h
              have e := congrArg (fun l => l[(c :: s).length]?) hr
              simp only [List.getElem?_append_right (Nat.le_refl _), Nat.sub_self, List.getElem?_cons_zero] at e
              rw [List.getElem?_append_left hlen] at e
              simp only [List.length_cons, List.getElem?_cons_succ] at e
              exact List.mem_of_getElem? e
            exact hw hmem
          · exact hp (List.prefix_of_prefix_length_le h (List.prefix_append _ _) (Nat.le_of_not_lt hlen))
        rw [removeAll_cons_none hp]
        have e : (c :: s) ++ '_' :: w = c :: (s ++ '_' :: w) := rfl
        rw [e] at hp' ⊢
        rw [removeAll_cons_none hp', ih s (by simpa using hs)]

theorem removeAll_length (pat : Str) (hp : pat ≠ []) (n : Nat) : ∀ s : Str, s.length ≤ n →
    (removeAll pat s).length ≤ s.length ∧ (pat <:+: s → (removeAll pat s).length < s.length) ∧
    (¬ pat <:+: s → removeAll pat s = s) := by
  induction n with
  | zero =>
    intro s hs
    have : s = [] := by cases s <;> simp_all
    subst this
    refine ⟨by simp [removeAll, removeAllAux], ?_, by simp [removeAll, removeAllAux]⟩
    intro h; exact absurd (List.infix_nil.1 h) hp
  | succ n ih =>
    intro s hs
    cases s with
    | nil =>
      refine ⟨by simp [removeAll, removeAllAux], ?_, by simp [removeAll, removeAllAux]⟩
      intro h; exact absurd (List.infix_nil.1 h) hp
    | cons c s =>
      by_cases hpre : pat <+: (c :: s)
      · obtain ⟨r, hr⟩ := hpre
        have hl : (c :: s).length = pat.length + r.length := by rw [← hr, List.length_append]
        have hpos := List.length_pos_iff.2 hp
        have h1 := (ih r (by omega)).1
        rw [← hr, removeAll_append hp, List.length_append]
        refine ⟨by omega, fun _ => by omega, ?_⟩
        intro h; exact absurd (List.prefix_append pat r).isInfix h
      · rw [removeAll_cons_none hpre]
        obtain ⟨h1, h2, h3⟩ := ih s (by simpa using hs)
        have hinf : pat <:+: (c :: s) ↔ pat <:+: s := by
          rw [List.infix_cons_iff]
          exact ⟨fun h => h.resolve_left hpre, .inr⟩
        refine ⟨by simpa using h1, ?_, ?_⟩
        · intro h; have := h2 (hinf.1 h); simpa using this
        · intro h; rw [h3 (fun h' => h (hinf.2 h'))]

theorem removeAll_eq_self_iff {pat : Str} (hp : pat ≠ []) (s : Str) : removeAll pat s = s ↔ ¬ pat <:+: s := by
  obtain ⟨_, h2, h3⟩ := removeAll_length pat hp _ s (Nat.le_refl _)
  refine ⟨?_, h3⟩
  intro h hi
  have := h2 hi
  rw [h] at this
  omega

theorem baseId_graphId (t : NType) (s : Str) : baseId t (graphId t s) = removeAll ('_' :: t.name) s :=
  removeAll_suffix (name_no_underscore t) _ s (Nat.le_refl _)

/-- the name does not contain the type suffix -/
def Clean (t : NType) (s : Str) : Prop := ¬ ('_' :: t.name) <:+: s

theorem baseId_eq_iff (t : NType) (s : Str) : baseId t (graphId t s) = s ↔ Clean t s := by
  rw [baseId_graphId]; exact removeAll_eq_self_iff (by simp) s

end Spine
