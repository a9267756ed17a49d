import Verif.Lemmas.AliasFiles
import Verif.Spec.AliasSample
/-
The program starts: the classes of the library have been created with their constants, and nothing else.
-/
namespace Spine
namespace Alias
variable {F : Type} [PyRt F]

theorem reach_lt {h : Heap F} {r : Ref F} {a : Nat} (hr : Reach h r a) : ∀ {n : Nat} {v : JVal F}, readJ h n r = some v → a < h.length := by
  induction hr with
  | here a =>
    intro n v hv
    rw [readJ_iff] at hv
    cases hv with
    | list _ _ _ ho _ => exact (List.getElem?_eq_some_iff.mp ho).1
    | dict _ _ _ ho _ => exact (List.getElem?_eq_some_iff.mp ho).1
  | there a o r b ho hm _ ih =>
    intro n v hv
    rw [readJ_iff] at hv
    cases hv with
    | list _ l js ho' hb =>
      rw [ho] at ho'
      cases ho'
      obtain ⟨j, _, hj⟩ := hb.left hm
      cases n with
      | zero => cases hj
      | succ n => exact ih (n := n) hj
    | dict _ l js ho' hb =>
      rw [ho] at ho'
      cases ho'
      obtain ⟨p, hp, rfl⟩ := List.mem_map.1 hm
      obtain ⟨j, _, hj⟩ := hb.left hp
      cases n with
      | zero => cases hj.2
      | succ n => exact ih (n := n) hj.2

theorem all_keys' (v : Bool) (t : Tag) : (v, t) ∈ allKeys := by
  cases v <;> cases t <;> first | decide | (rename_i k; cases k <;> decide)

theorem defaults_depth (v : Bool) (t : Tag) : (JVal.dict ((t.cls (F := F)).defaultsFor v)).depth ≤ 2 := by
  have key : ∀ d : Dict (JVal F), d.all (fun p => p.2.depth ≤ 1) = true → (JVal.dict d).depth ≤ 2 := by
    intro d h
    simp only [JVal.depth]
    induction d with
    | nil => simp [JVal.depthD]
    | cons p d ih =>
      simp only [List.all_cons, Bool.and_eq_true, decide_eq_true_eq] at h
      have := ih h.2
      simp only [JVal.depthD]
      omega
  apply key
  cases v <;> cases t <;> first | rfl | (rename_i k; cases k <;> rfl)

def Started (B : Nat) (acc : List ((Bool × Tag) × Ref F) × Heap F) : Prop :=
  ∀ k r, (k, r) ∈ acc.1 → readJ acc.2 B r = some (.dict ((k.2.cls (F := F)).defaultsFor k.1))

theorem constants_read {B : Nat} (hB : 2 ≤ B) (keys : List (Bool × Tag)) : Started B (constants (F := F) keys) ∧ ∀ k ∈ keys, ∃ r, (k, r) ∈ (constants (F := F) keys).1 := by
  unfold constants
  suffices H : ∀ (acc : List ((Bool × Tag) × Ref F) × Heap F), Started B acc →
      let q := keys.foldl (fun s k =>
        let p := put (.dict ((k.2.cls (F := F)).defaultsFor k.1)) s.2
        (s.1 ++ [(k, p.1)], p.2)) acc
      Started B q ∧ (∀ k ∈ keys, ∃ r, (k, r) ∈ q.1) ∧ ∀ x ∈ acc.1, x ∈ q.1 by
    obtain ⟨h1, h2, _⟩ := H ([], []) (fun k r hr => by cases hr)
    exact ⟨h1, h2⟩
  induction keys with
  | nil => exact fun acc h => ⟨h, (fun k hk => by cases hk), fun _ h => h⟩
  | cons k l ih =>
    intro acc h
    have hstart : Started B (acc.1 ++ [(k, (put (.dict ((k.2.cls (F := F)).defaultsFor k.1)) acc.2).1)], (put (.dict ((k.2.cls (F := F)).defaultsFor k.1)) acc.2).2) := by
      intro k' r hr
      rcases List.mem_append.1 hr with hr | hr
      · obtain ⟨⟨t, ht⟩, _⟩ := put_new (.dict ((k.2.cls (F := F)).defaultsFor k.1)) acc.2
        exact readJ_grow ht (h k' r hr)
      · simp only [List.mem_singleton, Prod.mk.injEq] at hr
        obtain ⟨rfl, rfl⟩ := hr
        exact put_read _ _ _ (Nat.le_trans (defaults_depth _ _) hB)
    obtain ⟨h1, h2, h3⟩ := ih _ hstart
    refine ⟨h1, ?_, fun x hx => h3 x (List.mem_append_left _ hx)⟩
    intro k' hk
    rcases List.mem_cons.1 hk with rfl | hk
    · exact ⟨_, h3 _ (List.mem_append_right _ (List.mem_singleton.2 rfl))⟩
    · exact h2 k' hk

/-- the world when the library has been imported, with the constants of these classes -/
def importedFor (keys : List (Bool × Tag)) : World F := { heap := (constants (F := F) keys).2, eds := [], roots := (constants (F := F) keys).1.map (·.2) }

theorem lookup_mem {α β : Type} [BEq α] [LawfulBEq α] {k : α} : ∀ {l : List (α × β)} {r : β}, (k, r) ∈ l → ∃ r', l.lookup k = some r' ∧ (k, r') ∈ l
  | [], _, h => by cases h
  | (k', x) :: l, r, h => by
    rw [List.lookup_cons]
    by_cases hk : k = k'
    · subst hk
      exact ⟨x, by simp, List.mem_cons_self⟩
    · have hb : (k == k') = false := by simpa using hk
      rw [hb]
      rcases List.mem_cons.1 h with h | h
      · cases h; exact absurd rfl hk
      · obtain ⟨r', h3, h4⟩ := lookup_mem h
        exact ⟨r', h3, List.mem_cons_of_mem _ h4⟩

theorem importedFor_fixed {B : Nat} (hB : 2 ≤ B) (lim : Nat) {keys : List (Bool × Tag)} (hk : ∀ v t, (v, t) ∈ keys) :
    (importedFor (F := F) keys).Fixed B (env keys lim) := by
  obtain ⟨h1, h2⟩ := constants_read (F := F) hB keys
  intro v t
  obtain ⟨r, hr⟩ := h2 _ (hk v t)
  obtain ⟨r', h3, h4⟩ := lookup_mem hr
  have hc : (env (F := F) keys lim).consts v t = r' := by simp only [env, h3, Option.getD_some]
  rw [hc]
  exact ⟨List.mem_map.2 ⟨_, h4, rfl⟩, h1 _ _ h4⟩

theorem importedFor_apart (keys : List (Bool × Tag)) : (importedFor (F := F) keys).Apart := by
  refine ⟨?_, (fun e he => by cases he), (fun e he => by cases he), (fun i j e f he => by simp [importedFor] at he)⟩
  rintro a ⟨r, hr, ha⟩
  obtain ⟨⟨k, r'⟩, hp, rfl⟩ := List.mem_map.1 hr
  exact reach_lt ha ((constants_read (F := F) (Nat.le_refl 2) keys).1 _ _ hp)

end Alias
end Spine
