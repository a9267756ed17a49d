import Verif.Lemmas.SimBase
import Verif.Lemmas.TraverseData
/-
Trees of values laid out in the heap: every list, dictionary and object of the tree has one owner, the JSON values at the leaves
lie in a zone that is never changed.
-/
set_option linter.unusedSectionVars false
namespace Spine
namespace Alias
open M
variable {F : Type}

/-- what an object is, apart from its content -/
inductive Kind where
  | list
  | dict
  | inst (t : Tag)

/-- the object with the given content -/
def Kind.obj : Kind → Dict (Ref F) → Obj F
  | .list, d => .list (d.map (·.2))
  | .dict, d => .dict d
  | .inst t, d => .inst t d

theorem Kind.refs (k : Kind) (d : Dict (Ref F)) : (k.obj d).refs = d.map (·.2) := by cases k <;> rfl

/-- a tree of objects with JSON values at the leaves; the keys of a list are all empty -/
inductive Tree (F : Type) where
  | leaf (j : JVal F)
  | node (k : Kind) (kids : List (Str × Tree F))

mutual
/-- number of levels of objects -/
def Tree.height : Tree F → Nat
  | .leaf _ => 0
  | .node _ d => heightK d + 1
def Tree.heightK : List (Str × Tree F) → Nat
  | [] => 0
  | (_, t) :: r => max t.height (heightK r)
end

mutual
/-- the tree `t` lies at `r`: its objects are in `S` and outside the zone, everything at the leaves is in the zone and can be read
with fuel `B`.  An empty dictionary may be in the zone as well. -/
inductive Rep [PyRt F] (B : Nat) (N : Nat → Prop) (h : Heap F) : Ref F → Tree F → (Nat → Prop) → Prop
  | leaf (r : Ref F) (j : JVal F) (S : Nat → Prop) : In N r → readJ h B r = some j → Rep B N h r (.leaf j) S
  | node (a : Nat) (k : Kind) (rs : Dict (Ref F)) (ts : List (Str × Tree F)) (S S' : Nat → Prop) : h[a]? = some (k.obj rs) →
      S a → ¬ N a → RepK B N h rs ts S' → (∀ b, S' b → S b ∧ b ≠ a) → Rep B N h (.ptr a) (.node k ts) S
  | empty (a : Nat) (S : Nat → Prop) : N a → h[a]? = some (.dict []) → Rep B N h (.ptr a) (.node .dict []) S
/-- the trees below an object, in separate places -/
inductive RepK [PyRt F] (B : Nat) (N : Nat → Prop) (h : Heap F) : Dict (Ref F) → List (Str × Tree F) → (Nat → Prop) → Prop
  | nil (S : Nat → Prop) : RepK B N h [] [] S
  | cons (k : Str) (r : Ref F) (t : Tree F) (rs : Dict (Ref F)) (ts : List (Str × Tree F)) (S1 S2 S : Nat → Prop) :
      Rep B N h r t S1 → RepK B N h rs ts S2 → (∀ a, S1 a → S2 a → False) → (∀ a, S1 a → S a) → (∀ a, S2 a → S a) →
      RepK B N h ((k, r) :: rs) ((k, t) :: ts) S
end

/-- addresses between two bounds -/
def Btw (n m : Nat) : Nat → Prop := fun a => n ≤ a ∧ a < m

/-- the addresses of `S` and those not used yet -/
def Grown (S : Nat → Prop) (h : Heap F) : Nat → Prop := fun a => S a ∨ h.length ≤ a

/-- no address -/
def Nil : Nat → Prop := fun _ => False

section
variable [PyRt F] {B : Nat} {N N' : Nat → Prop} {h h' : Heap F}

theorem Rep.mono {r : Ref F} {t : Tree F} {S S' : Nat → Prop} (hr : Rep B N h r t S) (hs : ∀ a, S a → S' a) : Rep B N h r t S' := by
  cases hr with
  | leaf _ _ _ h1 h2 => exact .leaf _ _ _ h1 h2
  | node a k rs ts _ T h1 h2 h3 h4 h5 => exact .node a k rs ts _ T h1 (hs _ h2) h3 h4 (fun b hb => ⟨hs _ (h5 b hb).1, (h5 b hb).2⟩)
  | empty a _ h1 h2 => exact .empty _ _ h1 h2

theorem RepK.mono {r : Dict (Ref F)} {t : List (Str × Tree F)} {S S' : Nat → Prop} (hr : RepK B N h r t S) (hs : ∀ a, S a → S' a) :
    RepK B N h r t S' := by
  cases hr with
  | nil => exact .nil _
  | cons k r t rs ts S1 S2 _ h1 h2 h3 h4 h5 => exact .cons k r t rs ts S1 S2 _ h1 h2 h3 (fun a ha => hs _ (h4 a ha)) (fun a ha => hs _ (h5 a ha))

mutual
/-- only addresses in use matter -/
theorem Rep.bound : ∀ {t : Tree F} {r : Ref F} {S : Nat → Prop}, Rep B N h r t S → Rep B N h r t (fun a => S a ∧ a < h.length)
  | .leaf _, _, _, .leaf _ _ _ h1 h2 => .leaf _ _ _ h1 h2
  | .node .., _, _, .empty _ _ h1 h2 => .empty _ _ h1 h2
  | .node .., _, _, .node a k rs ts S S' h1 h2 h3 h4 h5 =>
    .node a k rs ts _ _ h1 ⟨h2, (List.getElem?_eq_some_iff.mp h1).1⟩ h3 (RepK.bound h4) (fun b hb => ⟨⟨(h5 b hb.1).1, hb.2⟩, (h5 b hb.1).2⟩)
theorem RepK.bound : ∀ {t : List (Str × Tree F)} {r : Dict (Ref F)} {S : Nat → Prop}, RepK B N h r t S →
    RepK B N h r t (fun a => S a ∧ a < h.length)
  | [], _, _, .nil _ => .nil _
  | (_, _) :: _, _, _, .cons k r t rs ts S1 S2 _ h1 h2 h3 h4 h5 =>
    .cons k r t rs ts _ _ _ (Rep.bound h1) (RepK.bound h2) (fun a ha hb => h3 a ha.1 hb.1) (fun a ha => ⟨h4 a ha.1, ha.2⟩)
      (fun a ha => ⟨h5 a ha.1, ha.2⟩)
end

mutual
/-- nothing changes when the zone and the place of the tree stay as they are -/
theorem Rep.same (hz : Zone N h) (hN : ∀ a, N a → N' a) (hw : ∀ a, a < h.length → N' a → N a) (hk : ∀ a, N a → h'[a]? = h[a]?) :
    ∀ {t : Tree F} {r : Ref F} {S : Nat → Prop}, Rep B N h r t S → (∀ a, S a → a < h.length → ¬ N a → h'[a]? = h[a]?) → Rep B N' h' r t S
  | .leaf _, _, _, .leaf _ _ _ h1 h2, _ => .leaf _ _ _ (h1.mono hN) (by rw [hz.readJ hk h1]; exact h2)
  | .node .., _, _, .empty a _ h1 h2, _ => .empty _ _ (hN _ h1) (by rw [hk a h1]; exact h2)
  | .node .., _, _, .node a k rs ts S S' h1 h2 h3 h4 h5, hs =>
    have hl := (List.getElem?_eq_some_iff.mp h1).1
    .node a k rs ts _ S' (by rw [hs a h2 hl h3]; exact h1) h2 (fun hn => h3 (hw a hl hn))
      (RepK.same hz hN hw hk h4 (fun b hb => hs b (h5 b hb).1)) h5
theorem RepK.same (hz : Zone N h) (hN : ∀ a, N a → N' a) (hw : ∀ a, a < h.length → N' a → N a) (hk : ∀ a, N a → h'[a]? = h[a]?) :
    ∀ {t : List (Str × Tree F)} {r : Dict (Ref F)} {S : Nat → Prop}, RepK B N h r t S →
      (∀ a, S a → a < h.length → ¬ N a → h'[a]? = h[a]?) → RepK B N' h' r t S
  | [], _, _, .nil _, _ => .nil _
  | (_, _) :: _, _, _, .cons k r t rs ts S1 S2 _ h1 h2 h3 h4 h5, hs =>
    .cons k r t rs ts S1 S2 _ (Rep.same hz hN hw hk h1 (fun a ha => hs a (h4 a ha))) (RepK.same hz hN hw hk h2 (fun a ha => hs a (h5 a ha)))
      h3 h4 h5
end

/-- a computation that changes at most the objects of `S` and freezes only new objects -/
structure Ext (N : Nat → Prop) (h : Heap F) (S : Nat → Prop) (N' : Nat → Prop) (h' : Heap F) : Prop where
  len : h.length ≤ h'.length
  sub : ∀ a, N a → N' a
  new : ∀ a, N' a → N a ∨ h.length ≤ a
  zone : Zone N' h'
  keep : ∀ a, a < h.length → (N a ∨ ¬ S a) → h'[a]? = h[a]?

theorem Ext.refl (hz : Zone N h) (S : Nat → Prop) : Ext N h S N h :=
  ⟨Nat.le_refl _, fun _ h => h, fun _ h => .inl h, hz, fun _ _ _ => rfl⟩

theorem Ext.trans {N1 : Nat → Prop} {h1 : Heap F} {S S1 : Nat → Prop} (e : Ext N h S N1 h1) (e1 : Ext N1 h1 S1 N' h')
    (hs : ∀ a, S1 a → a < h.length → S a) : Ext N h S N' h' := by
  refine ⟨Nat.le_trans e.len e1.len, fun a ha => e1.sub _ (e.sub _ ha), fun a ha => ?_, e1.zone, fun a ha hb => ?_⟩
  · rcases e1.new a ha with h2 | h2
    · exact e.new a h2
    · exact .inr (Nat.le_trans e.len h2)
  · rw [e1.keep a (Nat.lt_of_lt_of_le ha e.len) ?_, e.keep a ha hb]
    rcases hb with hb | hb
    · exact .inl (e.sub _ hb)
    · exact .inr (fun h3 => hb (hs a h3 ha))

theorem Ext.mono {S S' : Nat → Prop} (e : Ext N h S N' h') (hs : ∀ a, S a → a < h.length → S' a) : Ext N h S' N' h' :=
  ⟨e.len, e.sub, e.new, e.zone, fun a ha hb => e.keep a ha (hb.imp id (fun h1 h2 => h1 (hs a h2 ha)))⟩

theorem Ext.keepN {S : Nat → Prop} (hz : Zone N h) (e : Ext N h S N' h') : ∀ a, N a → h'[a]? = h[a]? :=
  fun a ha => e.keep a (hz.bound a ha) (.inl ha)

theorem Ext.old {S : Nat → Prop} (e : Ext N h S N' h') : ∀ a, a < h.length → N' a → N a :=
  fun a ha hn => (e.new a hn).resolve_right (by omega)

theorem Ext.readJ {S : Nat → Prop} (hz : Zone N h) (e : Ext N h S N' h') {r : Ref F} (hr : In N r) (n : Nat) :
    Alias.readJ h' n r = Alias.readJ h n r := hz.readJ (e.keepN hz) hr n

theorem Rep.frame {S T : Nat → Prop} {r : Ref F} {t : Tree F} (hz : Zone N h) (e : Ext N h S N' h') (hr : Rep B N h r t T)
    (hd : ∀ a, S a → T a → a < h.length → False) : Rep B N' h' r t T :=
  hr.same hz e.sub e.old (e.keepN hz) (fun a ha hb _ => e.keep a hb (.inr (fun hs => hd a hs ha hb)))

theorem RepK.frame {S T : Nat → Prop} {r : Dict (Ref F)} {t : List (Str × Tree F)} (hz : Zone N h) (e : Ext N h S N' h') (hr : RepK B N h r t T)
    (hd : ∀ a, S a → T a → a < h.length → False) : RepK B N' h' r t T :=
  hr.same hz e.sub e.old (e.keepN hz) (fun a ha hb _ => e.keep a hb (.inr (fun hs => hd a hs ha hb)))

/-! ### Single steps -/

/-- a new object outside the zone -/
theorem Ext.alloc (hz : Zone N h) (o : Obj F) (S : Nat → Prop) : Ext N h S N (h ++ [o]) := by
  have hk : ∀ a, a < h.length → (h ++ [o])[a]? = h[a]? := fun a ha => List.getElem?_append_left ha
  exact ⟨by simp, fun _ h => h, fun _ h => .inl h, hz.same (fun a ha => hk a (hz.bound a ha)), fun a ha _ => hk a ha⟩

/-- an object outside the zone is changed -/
theorem Ext.set (hz : Zone N h) {a : Nat} (o : Obj F) {S : Nat → Prop} (ha : S a) (hn : ¬ N a) : Ext N h S N (h.set a o) := by
  have hk : ∀ b, b ≠ a → (h.set a o)[b]? = h[b]? := fun b hb => List.getElem?_set_ne (fun h => hb h.symm)
  refine ⟨by simp, fun _ h => h, fun _ h => .inl h, hz.same (fun b hb => hk b ?_), fun b _ hc => hk b ?_⟩
  · intro h; subst h; exact hn hb
  · intro h
    subst h
    rcases hc with hc | hc
    · exact hn hc
    · exact hc ha

/-! ### Parts of a tree -/

theorem RepK.keys {rs : Dict (Ref F)} {ts : List (Str × Tree F)} {S : Nat → Prop} (hr : RepK B N h rs ts S) :
    rs.map (·.1) = ts.map (·.1) := by
  induction ts generalizing rs S with
  | nil => cases hr; rfl
  | cons p ts ih =>
    cases hr with
    | cons k r t rs ts S1 S2 _ h1 h2 h3 h4 h5 => simp [ih h2]

/-- the subtree under a key, and what may happen to it -/
theorem RepK.get {rs : Dict (Ref F)} {ts : List (Str × Tree F)} {S : Nat → Prop} {k : Str} {t : Tree F} (hz : Zone N h) (hr : RepK B N h rs ts S)
    (hk : Dict.get? ts k = some t) : ∃ r T, Dict.get? rs k = some r ∧ Rep B N h r t T ∧ (∀ a, T a → S a ∧ a < h.length) ∧
      ∀ N' h' t', Ext N h T N' h' → Rep B N' h' r t' (Grown T h) → RepK B N' h' rs (Dict.set ts k t') (Grown S h) := by
  induction ts generalizing rs S with
  | nil => cases hk
  | cons p ts ih =>
    cases hr with
    | cons k' r t0 rs _ S1 S2 _ h1 h2 h3 h4 h5 =>
      unfold Dict.get? at hk
      by_cases hkk : k' = k
      · subst hkk
        simp only [if_true] at hk
        cases hk
        refine ⟨r, fun a => S1 a ∧ a < h.length, by simp [Dict.get?], h1.bound, fun a ha => ⟨h4 a ha.1, ha.2⟩, ?_⟩
        intro N' h' t' e hr'
        simp only [Dict.set, if_true]
        refine .cons _ _ _ _ _ _ _ _ hr' (h2.bound.frame hz e ?_) ?_ ?_ ?_
        · intro a ha hb _; exact h3 a ha.1 hb.1
        · intro a ha hb
          rcases ha with ha | ha
          · exact h3 a ha.1 hb.1
          · have := hb.2; omega
        · intro a ha; exact ha.imp (fun h => h4 a h.1) id
        · intro a ha; exact .inl (h5 a ha.1)
      · simp only [if_neg hkk] at hk
        obtain ⟨r', T, g1, g2, g3, g4⟩ := ih h2 hk
        refine ⟨r', T, by simp [Dict.get?, hkk, g1], g2, fun a ha => ⟨h5 a (g3 a ha).1, (g3 a ha).2⟩, ?_⟩
        intro N' h' t' e hr'
        simp only [Dict.set, if_neg hkk]
        refine .cons _ _ _ _ _ (fun a => S1 a ∧ a < h.length) (Grown S2 h) _ (h1.bound.frame hz e ?_) (g4 N' h' t' e hr') ?_ ?_ ?_
        · intro a ha hb _; exact h3 a hb.1 (g3 a ha).1
        · intro a ha hb
          rcases hb with hb | hb
          · exact h3 a ha.1 hb
          · have := ha.2; omega
        · intro a ha; exact .inl (h4 a ha.1)
        · intro a ha; exact ha.imp (h5 a) id

theorem RepK.get_none {rs : Dict (Ref F)} {ts : List (Str × Tree F)} {S : Nat → Prop} {k : Str} (hr : RepK B N h rs ts S)
    (hk : Dict.get? ts k = none) : Dict.get? rs k = none := by
  induction ts generalizing rs S with
  | nil => cases hr; rfl
  | cons p ts ih =>
    cases hr with
    | cons k' r t0 rs _ S1 S2 _ h1 h2 h3 h4 h5 =>
      unfold Dict.get? at hk ⊢
      by_cases hkk : k' = k
      · simp [hkk] at hk
      · simp only [if_neg hkk] at hk ⊢
        exact ih h2 hk

/-- an entry is replaced -/
theorem RepK.set {rs : Dict (Ref F)} {ts : List (Str × Tree F)} {S T : Nat → Prop} {k : Str} {r : Ref F} {t : Tree F}
    (hr : RepK B N h rs ts S) (ht : Rep B N h r t T) (hd : ∀ a, S a → T a → False) :
    RepK B N h (Dict.set rs k r) (Dict.set ts k t) (fun a => S a ∨ T a) := by
  induction ts generalizing rs S with
  | nil =>
    cases hr
    exact .cons _ _ _ _ _ T Nil _ ht (.nil _) (fun a _ h => h) (fun a ha => .inr ha) (fun a ha => ha.elim)
  | cons p ts ih =>
    cases hr with
    | cons k' r0 t0 rs _ S1 S2 _ h1 h2 h3 h4 h5 =>
      unfold Dict.set
      by_cases hkk : k' = k
      · simp only [if_pos hkk]
        exact .cons _ _ _ _ _ T S2 _ ht h2 (fun a ha hb => hd a (h5 a hb) ha) (fun a ha => .inr ha) (fun a ha => .inl (h5 a ha))
      · simp only [if_neg hkk]
        refine .cons _ _ _ _ _ S1 _ _ h1 (ih h2 (fun a ha hb => hd a (h5 a ha) hb)) ?_ (fun a ha => .inl (h4 a ha)) ?_
        · intro a ha hb
          rcases hb with hb | hb
          · exact h3 a ha hb
          · exact hd a (h4 a ha) hb
        · intro a ha; exact ha.imp (h5 a) id

/-- entries are removed -/
theorem RepK.filter {rs : Dict (Ref F)} {ts : List (Str × Tree F)} {S : Nat → Prop} (p : Str → Bool) (hr : RepK B N h rs ts S) :
    RepK B N h (rs.filter (fun q => p q.1)) (ts.filter (fun q => p q.1)) S := by
  induction ts generalizing rs S with
  | nil => cases hr; exact .nil _
  | cons _ ts ih =>
    cases hr with
    | cons k' r t0 rs _ S1 S2 _ h1 h2 h3 h4 h5 =>
      by_cases hp : p k' = true
      · simp only [List.filter_cons, hp, if_true]
        exact .cons _ _ _ _ _ S1 S2 _ h1 (ih h2) h3 h4 h5
      · simp only [List.filter_cons, hp]
        exact (ih h2).mono h5

end

end Alias
end Spine
