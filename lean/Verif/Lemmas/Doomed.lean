import Verif.Lemmas.Restrict
/- The nodes a recursive removal removes, described with paths. -/
namespace Spine
namespace Container
open Graph
variable {T D : Type}

/-- `y` is a `rel`-neighbour of `x` -/
def Rel (g : Graph T D) (rel : Node T D → List Str) (x y : Str) : Prop := ∃ n, getNode g x = some n ∧ y ∈ rel n

theorem reach_snoc {R : Str → Str → Prop} {a b c : Str} (h : Reach R a b) (h2 : R b c) : Reach R a c := by
  induction h with
  | refl a => exact .head h2 (.refl _)
  | head h1 _ ih => exact .head h1 (ih h2)

theorem doomed_only {g : Graph T D} {rel : Node T D → List Str} {t : T} {x : Str} (h : Doomed g rel t x) :
    OnlyType g (Rel g rel) t x := by
  induction h with
  | @mk x n hn ht _ ih =>
    have hx : ¬ Loop (Rel g rel) x := by
      rintro ⟨y, ⟨m, hm, hy⟩, hr⟩
      rw [hn] at hm; injection hm with hm; subst hm
      exact (ih y hy x hr).2 ⟨y, ⟨n, hn, hy⟩, hr⟩
    intro y hr
    cases hr with
    | refl => exact ⟨⟨n, hn, ht⟩, hx⟩
    | head h1 h2 =>
      obtain ⟨m, hm, hy⟩ := h1
      rw [hn] at hm; injection hm with hm; subst hm
      exact ih _ hy y h2

theorem only_doomed_aux {g : Graph T D} {rel : Node T D → List Str} {t : T} (k : Nat) : ∀ (x : Str) (S : List Str), S.Nodup →
    (∀ y ∈ S, HasNode g y) → (∀ y ∈ S, ∃ z, Rel g rel y z ∧ Reach (Rel g rel) z x) → S.length + k = (Dict.keys g.nodes).length →
    OnlyType g (Rel g rel) t x → Doomed g rel t x := by
  induction k with
  | zero =>
    intro x S hS hn hr hl ho
    exfalso
    obtain ⟨⟨n, hx, _⟩, hc⟩ := ho x (.refl x)
    apply hc
    apply hr x
    apply Classical.byContradiction
    intro hxS
    have hsub : (x :: S) ⊆ Dict.keys g.nodes := by
      intro y hy
      rw [← hasNode_iff_mem_keys]
      rcases List.mem_cons.1 hy with rfl | hy
      · exact ⟨n, hx⟩
      · exact hn y hy
    have := (List.nodup_cons.2 ⟨hxS, hS⟩).length_le_of_subset hsub
    simp at this
    omega
  | succ k ih =>
    intro x S hS hn hr hl ho
    obtain ⟨⟨n, hx, ht⟩, hc⟩ := ho x (.refl x)
    have hxS : x ∉ S := fun h => hc (hr x h)
    refine .mk hx ht ?_
    intro y hy
    have hxy : Rel g rel x y := ⟨n, hx, hy⟩
    refine ih y (x :: S) (List.nodup_cons.2 ⟨hxS, hS⟩) ?_ ?_ ?_ ?_
    · intro z hz
      rcases List.mem_cons.1 hz with rfl | hz
      · exact ⟨n, hx⟩
      · exact hn z hz
    · intro z hz
      rcases List.mem_cons.1 hz with rfl | hz
      · exact ⟨y, hxy, .refl y⟩
      · obtain ⟨w, h1, h2⟩ := hr z hz
        exact ⟨w, h1, reach_snoc h2 hxy⟩
    · simp; omega
    · intro z hz
      exact ho z (.head hxy hz)

/-- the removed nodes: exactly those from which only nodes of the type, and no cycle, can be reached -/
theorem doomed_iff (g : Graph T D) (rel : Node T D → List Str) (t : T) (x : Str) : Doomed g rel t x ↔ OnlyType g (Rel g rel) t x :=
  ⟨doomed_only, only_doomed_aux _ x [] List.nodup_nil (by simp) (by simp) (Nat.zero_add _)⟩

end Container
end Spine
