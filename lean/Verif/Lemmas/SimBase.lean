import Verif.Lemmas.AliasReach
import Verif.Lemmas.Editor
/-
Objects of the heap as values: a tree of values laid out in the heap, whose inner objects have one owner each and whose leaves are
JSON values in a zone that is never changed.
-/
set_option linter.unusedSectionVars false
namespace Spine
theorem All₂.join {α β γ : Type} {R : α → β → Prop} {S : β → γ → Prop} {l : List α} {m : List β} {n : List γ} (h1 : All₂ R l m)
    (h2 : All₂ S m n) : All₂ (fun x z => ∃ y, R x y ∧ S y z) l n := by
  induction h1 generalizing n with
  | nil => cases h2; exact .nil
  | cons h _ ih =>
    cases h2 with
    | cons h' h2 => exact .cons ⟨_, h, h'⟩ (ih h2)

theorem All₂.unjoin {α β γ : Type} {R : α → β → Prop} {S : β → γ → Prop} {l : List α} {n : List γ}
    (h : All₂ (fun x z => ∃ y, R x y ∧ S y z) l n) : ∃ m, All₂ R l m ∧ All₂ S m n := by
  induction h with
  | nil => exact ⟨[], .nil, .nil⟩
  | cons h _ ih =>
    obtain ⟨y, h1, h2⟩ := h
    obtain ⟨m, h3, h4⟩ := ih
    exact ⟨y :: m, .cons h1 h3, .cons h2 h4⟩

theorem All₂.imp {α β : Type} {R S : α → β → Prop} {l : List α} {m : List β} (h : All₂ R l m) (hi : ∀ x y, x ∈ l → y ∈ m → R x y → S x y) :
    All₂ S l m := by
  induction h with
  | nil => exact .nil
  | cons h _ ih => exact .cons (hi _ _ (by simp) (by simp) h) (ih (fun x y hx hy => hi x y (by simp [hx]) (by simp [hy])))

namespace Alias
open M
variable {F : Type}

/-! ### Running computations -/

theorem run_bind {α β : Type} {m : M F α} {k : α → M F β} {h h' : Heap F} {x : α} (hm : m h = (.ok x, h')) : (m >>= k) h = k x h' := by
  rw [bind_eq, hm]

theorem run_fail {α β : Type} {m : M F α} {k : α → M F β} {h h' : Heap F} {e : Err} (hm : m h = (.error e, h')) :
    (m >>= k) h = (.error e, h') := by
  rw [bind_eq, hm]

theorem run_pure {α : Type} {x : α} {h : Heap F} : (Pure.pure x : M F α) h = (.ok x, h) := rfl
theorem run_alloc {o : Obj F} {h : Heap F} : M.alloc o h = (.ok (.ptr h.length), h ++ [o]) := rfl
theorem run_look {a : Nat} {o : Obj F} {h : Heap F} (ho : h[a]? = some o) : M.look a h = (.ok o, h) := by
  simp only [M.look, ho]
theorem run_lift {α : Type} {r : Except Err α} {h : Heap F} : M.lift r h = (r, h) := rfl
theorem run_raise {α : Type} {e : Err} {h : Heap F} : (M.raise e : M F α) h = (.error e, h) := rfl
theorem run_view {α : Type} {f : Heap F → Option α} {e : Err} {h : Heap F} {x : α} (hx : f h = some x) : M.view f e h = (.ok x, h) := by
  simp only [M.view, hx]
theorem run_attempt {α : Type} {m : M F α} {h h' : Heap F} {x : Except Err α} (hm : m h = (x, h')) : M.attempt m h = (.ok x, h') := by
  simp only [M.attempt, hm]
theorem run_deref {a : Nat} {o : Obj F} {h : Heap F} (ho : h[a]? = some o) : deref (.ptr a) h = (.ok (some o), h) := by
  unfold deref
  exact run_bind (run_look ho)
theorem run_fill {a : Nat} {o : Obj F} {h : Heap F} : fill (.ptr a) o h = (.ok (), h.set a o) := rfl

/-! ### Zones -/

/-- a reference into the zone, or no reference at all -/
def In (N : Nat → Prop) (r : Ref F) : Prop := ∀ a, r = .ptr a → N a

theorem in_ptr {N : Nat → Prop} {a : Nat} : In (F := F) N (.ptr a) ↔ N a := ⟨fun h => h a rfl, fun h b hb => by cases hb; exact h⟩

theorem In.mono {N N' : Nat → Prop} (hN : ∀ a, N a → N' a) {r : Ref F} (h : In N r) : In N' r := fun a ha => hN a (h a ha)

/-- objects that refer only to each other -/
structure Zone (N : Nat → Prop) (h : Heap F) : Prop where
  bound : ∀ a, N a → a < h.length
  closed : ∀ a o, N a → h[a]? = some o → ∀ s ∈ o.refs, In N s

theorem Zone.reach {N : Nat → Prop} {h : Heap F} (hz : Zone N h) {r : Ref F} {a : Nat} (hr : Reach h r a) : In N r → N a := by
  induction hr with
  | here a => exact in_ptr.mp
  | there a o r b ho hr _ ih => exact fun hp => ih (hz.closed a o (in_ptr.mp hp) ho r hr)

theorem Zone.same {N : Nat → Prop} {h h' : Heap F} (hz : Zone N h) (hk : ∀ a, N a → h'[a]? = h[a]?) : Zone N h' := by
  refine ⟨fun a ha => ?_, fun a o ha ho => hz.closed a o ha (hk a ha ▸ ho)⟩
  have h1 := hz.bound a ha
  have h2 := hk a ha
  rw [List.getElem?_eq_getElem h1] at h2
  exact (List.getElem?_eq_some_iff.mp h2).1

section
variable [PyRt F]

theorem Zone.read {N : Nat → Prop} {h h' : Heap F} (hz : Zone N h) (hk : ∀ a, N a → h'[a]? = h[a]?) {r : Ref F} (hr : In N r) (n : Nat) :
    read h' n r = Alias.read h n r :=
  read_same n (fun _ hb => hk _ (hz.reach hb hr))

theorem Zone.readJ {N : Nat → Prop} {h h' : Heap F} (hz : Zone N h) (hk : ∀ a, N a → h'[a]? = h[a]?) {r : Ref F} (hr : In N r) (n : Nat) :
    readJ h' n r = Alias.readJ h n r := by
  unfold Alias.readJ
  rw [hz.read hk hr]

/-! ### JSON values in the heap -/

/-- one level less -/
def below (h : Heap F) : Nat → Ref F → Option (SVal F)
  | 0 => fun _ => none
  | n + 1 => read h n

theorem read_eq (h : Heap F) (n : Nat) (r : Ref F) : read h n r = readStep (below h n) h r := by
  cases n <;> rfl

/-- one level less, JSON values -/
def belowJ (h : Heap F) : Nat → Ref F → Option (JVal F)
  | 0 => fun _ => none
  | n + 1 => readJ h n

theorem belowJ_eq (h : Heap F) (n : Nat) (r : Ref F) : belowJ h n r = (below h n r).bind SVal.plain := by
  cases n <;> rfl

theorem mapO_iff {α β : Type} {f : α → Option β} {l : List α} {m : List β} : mapO f l = some m ↔ All₂ (fun x y => f x = some y) l m := by
  induction l generalizing m with
  | nil =>
    constructor
    · intro h; cases h; exact .nil
    · intro h; cases h; rfl
  | cons x r ih =>
    unfold mapO
    constructor
    · intro h
      cases h1 : f x with
      | none => simp [h1] at h
      | some y => cases h2 : mapO f r with
        | none => simp [h1, h2] at h
        | some s =>
          simp only [h1, h2, Option.some.injEq] at h
          subst h
          exact .cons h1 (ih.mp h2)
    · intro h
      cases h with
      | cons h1 h2 => simp [h1, ih.mpr h2]

theorem mapOD_iff {α β : Type} {f : α → Option β} {l : Dict α} {m : Dict β} :
    mapOD f l = some m ↔ All₂ (fun p q => p.1 = q.1 ∧ f p.2 = some q.2) l m := by
  unfold mapOD
  rw [mapO_iff]
  constructor
  · intro h
    induction h with
    | nil => exact .nil
    | cons h1 _ ih =>
      refine .cons ?_ ih
      obtain ⟨y, hy, rfl⟩ := Option.map_eq_some_iff.mp h1
      exact ⟨rfl, hy⟩
  · intro h
    induction h with
    | nil => exact .nil
    | cons h1 _ ih =>
      refine .cons ?_ ih
      rw [h1.2, h1.1]
      rfl

theorem plains_iff {l : List (SVal F)} {m : List (JVal F)} : SVal.plains l = some m ↔ All₂ (fun x y => x.plain = some y) l m := by
  induction l generalizing m with
  | nil =>
    constructor
    · intro h; cases h; exact .nil
    · intro h; cases h; rfl
  | cons x r ih =>
    unfold SVal.plains
    constructor
    · intro h
      cases h1 : x.plain with
      | none => simp [h1] at h
      | some y => cases h2 : SVal.plains r with
        | none => simp [h1, h2] at h
        | some s =>
          simp only [h1, h2, Option.some.injEq] at h
          subst h
          exact .cons h1 (ih.mp h2)
    · intro h
      cases h with
      | cons h1 h2 => simp [h1, ih.mpr h2]

theorem plaind_iff {l : List (Str × SVal F)} {m : List (Str × JVal F)} :
    SVal.plaind l = some m ↔ All₂ (fun p q => p.1 = q.1 ∧ p.2.plain = some q.2) l m := by
  induction l generalizing m with
  | nil =>
    constructor
    · intro h; cases h; exact .nil
    · intro h; cases h; rfl
  | cons x r ih =>
    obtain ⟨k, x⟩ := x
    unfold SVal.plaind
    constructor
    · intro h
      cases h1 : x.plain with
      | none => simp [h1] at h
      | some y => cases h2 : SVal.plaind r with
        | none => simp [h1, h2] at h
        | some s =>
          simp only [h1, h2, Option.some.injEq] at h
          subst h
          exact .cons ⟨rfl, h1⟩ (ih.mp h2)
    · intro h
      cases h with
      | @cons _ y _ _ h1 h2 =>
        obtain ⟨k', y⟩ := y
        simp only at h1
        simp [h1.1, h1.2, ih.mpr h2]

/-- a list of JSON values -/
theorem readJ_list {h : Heap F} {n a : Nat} {l : List (Ref F)} {js : List (JVal F)} (ho : h[a]? = some (.list l)) :
    readJ h n (.ptr a) = some (.list js) ↔ All₂ (fun r j => belowJ h n r = some j) l js := by
  unfold readJ
  rw [read_eq]
  simp only [readStep, ho]
  constructor
  · intro h1
    obtain ⟨s, h2, h3⟩ := Option.bind_eq_some_iff.mp h1
    obtain ⟨m, h4, rfl⟩ := Option.map_eq_some_iff.mp h2
    simp only [SVal.plain] at h3
    obtain ⟨k, h5, h6⟩ := Option.map_eq_some_iff.mp h3
    cases h6
    refine (All₂.join (mapO_iff.mp h4) (plains_iff.mp h5)).imp ?_
    rintro x z - - ⟨y, e1, e2⟩
    rw [belowJ_eq, e1]
    exact e2
  · intro h1
    have : All₂ (fun r j => ∃ s, below h n r = some s ∧ s.plain = some j) l js := h1.imp (by
      intro x z _ _ e
      rw [belowJ_eq] at e
      exact Option.bind_eq_some_iff.mp e)
    obtain ⟨m, h2, h3⟩ := this.unjoin
    rw [mapO_iff.mpr h2]
    simp [SVal.plain, plains_iff.mpr h3]

theorem readJ_dict {h : Heap F} {n a : Nat} {l : Dict (Ref F)} {js : Dict (JVal F)} (ho : h[a]? = some (.dict l)) :
    readJ h n (.ptr a) = some (.dict js) ↔ All₂ (fun p q => p.1 = q.1 ∧ belowJ h n p.2 = some q.2) l js := by
  unfold readJ
  rw [read_eq]
  simp only [readStep, ho]
  constructor
  · intro h1
    obtain ⟨s, h2, h3⟩ := Option.bind_eq_some_iff.mp h1
    obtain ⟨m, h4, rfl⟩ := Option.map_eq_some_iff.mp h2
    simp only [SVal.plain] at h3
    obtain ⟨k, h5, h6⟩ := Option.map_eq_some_iff.mp h3
    cases h6
    refine (All₂.join (mapOD_iff.mp h4) (plaind_iff.mp h5)).imp ?_
    rintro x z - - ⟨y, e1, e2⟩
    rw [belowJ_eq, e1.2]
    exact ⟨e1.1.trans e2.1, e2.2⟩
  · intro h1
    have : All₂ (fun (p : Str × Ref F) (q : Str × JVal F) => ∃ s : Str × SVal F, (p.1 = s.1 ∧ below h n p.2 = some s.2) ∧
        (s.1 = q.1 ∧ s.2.plain = some q.2)) l js := h1.imp (by
      rintro x z - - ⟨e0, e⟩
      rw [belowJ_eq] at e
      obtain ⟨s, e1, e2⟩ := Option.bind_eq_some_iff.mp e
      exact ⟨(z.1, s), ⟨e0, e1⟩, rfl, e2⟩)
    obtain ⟨m, h2, h3⟩ := this.unjoin
    rw [mapOD_iff.mpr h2]
    simp [SVal.plain, plaind_iff.mpr h3]

/-- what a readable reference looks like -/
inductive JRef (h : Heap F) (n : Nat) : Ref F → JVal F → Prop
  | null : JRef h n .null .null
  | bool (b : Bool) : JRef h n (.bool b) (.bool b)
  | int (i : Int) : JRef h n (.int i) (.int i)
  | flt (x : F) : JRef h n (.flt x) (.flt x)
  | str (s : Str) : JRef h n (.str s) (.str s)
  | list (a : Nat) (l : List (Ref F)) (js : List (JVal F)) : h[a]? = some (.list l) →
      All₂ (fun r j => belowJ h n r = some j) l js → JRef h n (.ptr a) (.list js)
  | dict (a : Nat) (d : Dict (Ref F)) (js : Dict (JVal F)) : h[a]? = some (.dict d) →
      All₂ (fun p q => p.1 = q.1 ∧ belowJ h n p.2 = some q.2) d js → JRef h n (.ptr a) (.dict js)

theorem readJ_iff {h : Heap F} {n : Nat} {r : Ref F} {j : JVal F} : readJ h n r = some j ↔ JRef h n r j := by
  constructor
  · intro h1
    cases r with
    | null => simp only [readJ, read_eq, readStep, Option.bind_some, SVal.plain, Option.some.injEq] at h1; subst h1; exact .null
    | bool => simp only [readJ, read_eq, readStep, Option.bind_some, SVal.plain, Option.some.injEq] at h1; subst h1; exact .bool _
    | int => simp only [readJ, read_eq, readStep, Option.bind_some, SVal.plain, Option.some.injEq] at h1; subst h1; exact .int _
    | flt => simp only [readJ, read_eq, readStep, Option.bind_some, SVal.plain, Option.some.injEq] at h1; subst h1; exact .flt _
    | str => simp only [readJ, read_eq, readStep, Option.bind_some, SVal.plain, Option.some.injEq] at h1; subst h1; exact .str _
    | ptr a =>
      cases ho : h[a]? with
      | none => simp [readJ, read_eq, readStep, ho] at h1
      | some o =>
        cases o with
        | list l =>
          have : ∃ js, j = .list js := by
            simp only [readJ, read_eq, readStep, ho] at h1
            obtain ⟨s, h2, h3⟩ := Option.bind_eq_some_iff.mp h1
            obtain ⟨m, _, rfl⟩ := Option.map_eq_some_iff.mp h2
            obtain ⟨k, _, h6⟩ := Option.map_eq_some_iff.mp h3
            exact ⟨k, h6.symm⟩
          obtain ⟨js, rfl⟩ := this
          exact .list a l js ho ((readJ_list ho).mp h1)
        | dict d =>
          have : ∃ js, j = .dict js := by
            simp only [readJ, read_eq, readStep, ho] at h1
            obtain ⟨s, h2, h3⟩ := Option.bind_eq_some_iff.mp h1
            obtain ⟨m, _, rfl⟩ := Option.map_eq_some_iff.mp h2
            obtain ⟨k, _, h6⟩ := Option.map_eq_some_iff.mp h3
            exact ⟨k, h6.symm⟩
          obtain ⟨js, rfl⟩ := this
          exact .dict a d js ho ((readJ_dict ho).mp h1)
        | inst t d =>
          simp only [readJ, read_eq, readStep, ho] at h1
          obtain ⟨s, h2, h3⟩ := Option.bind_eq_some_iff.mp h1
          obtain ⟨m, _, rfl⟩ := Option.map_eq_some_iff.mp h2
          simp [SVal.plain] at h3
  · intro h1
    cases h1 with
    | list a l js ho h2 => exact (readJ_list ho).mpr h2
    | dict a l js ho h2 => exact (readJ_dict ho).mpr h2
    | _ => cases n <;> rfl

/-- more fuel does not change what is read -/
theorem readJ_le {h : Heap F} : ∀ {n m : Nat} {r : Ref F} {j : JVal F}, readJ h n r = some j → n ≤ m → readJ h m r = some j
  | n, m, r, j, h1, h2 => by
    have hb : ∀ {r : Ref F} {j : JVal F}, belowJ h n r = some j → belowJ h m r = some j := by
      intro r j hj
      cases n with
      | zero => cases hj
      | succ n =>
        cases m with
        | zero => omega
        | succ m => exact readJ_le (n := n) (m := m) hj (by omega)
    rw [readJ_iff] at h1 ⊢
    cases h1 with
    | null => exact .null
    | bool b => exact .bool b
    | int b => exact .int b
    | flt b => exact .flt b
    | str b => exact .str b
    | list a l js ho h3 => exact .list a l js ho (h3.imp (fun _ _ _ _ => hb))
    | dict a l js ho h3 => exact .dict a l js ho (h3.imp (fun _ _ _ _ e => ⟨e.1, hb e.2⟩))
  termination_by n => n

theorem readJ_of_below {h : Heap F} {n : Nat} {r : Ref F} {j : JVal F} (h1 : belowJ h n r = some j) : readJ h n r = some j := by
  cases n with
  | zero => cases h1
  | succ n => exact readJ_le h1 (by omega)

end

end Alias
end Spine
