import Verif.Lemmas.SimTree
/-
`copy.deepcopy` makes an isomorphic copy: the objects that can be reached are mapped one to one to new objects.
-/
set_option linter.unusedSectionVars false
namespace Spine
namespace Alias
open M
variable {F : Type}

/-- the image of a reference -/
def img (φ : Nat → Option (Ref F)) : Ref F → Option (Ref F)
  | .ptr a => φ a
  | r => some r

/-- the image of an object -/
inductive ObjImg (φ : Nat → Option (Ref F)) : Obj F → Obj F → Prop
  | list (l l' : List (Ref F)) : All₂ (fun r s => img φ r = some s) l l' → ObjImg φ (.list l) (.list l')
  | dict (d d' : Dict (Ref F)) : All₂ (fun p q => p.1 = q.1 ∧ img φ p.2 = some q.2) d d' → ObjImg φ (.dict d) (.dict d')
  | inst (t : Tag) (d d' : Dict (Ref F)) : All₂ (fun p q => p.1 = q.1 ∧ img φ p.2 = some q.2) d d' → ObjImg φ (.inst t d) (.inst t d')

theorem img_mono {φ ψ : Nat → Option (Ref F)} (hp : ∀ a r, φ a = some r → ψ a = some r) {r s : Ref F} (h : img φ r = some s) :
    img ψ r = some s := by
  cases r <;> first | exact h | exact hp _ _ h

theorem ObjImg.mono {φ ψ : Nat → Option (Ref F)} (hp : ∀ a r, φ a = some r → ψ a = some r) {o o' : Obj F} (h : ObjImg φ o o') :
    ObjImg ψ o o' := by
  cases h with
  | list l l' h => exact .list _ _ (h.imp (fun _ _ _ _ e => img_mono hp e))
  | dict l l' h => exact .dict _ _ (h.imp (fun _ _ _ _ e => ⟨e.1, img_mono hp e.2⟩))
  | inst t l l' h => exact .inst _ _ _ (h.imp (fun _ _ _ _ e => ⟨e.1, img_mono hp e.2⟩))

/-- at most `n` levels of objects inside the object -/
def Depth (h : Heap F) : Nat → Ref F → Prop
  | 0, r => ∀ a, r = .ptr a → ∃ o, h[a]? = some o ∧ ∀ s ∈ o.refs, False
  | n + 1, r => ∀ a, r = .ptr a → ∃ o, h[a]? = some o ∧ ∀ s ∈ o.refs, Depth h n s

/-- one level less -/
def DepthB (h : Heap F) : Nat → Ref F → Prop
  | 0, _ => False
  | n + 1, r => Depth h n r

theorem depth_iff {h : Heap F} {n : Nat} {r : Ref F} :
    Depth h n r ↔ ∀ a, r = .ptr a → ∃ o, h[a]? = some o ∧ ∀ s ∈ o.refs, DepthB h n s := by
  cases n <;> exact Iff.rfl

theorem Depth.succ {h : Heap F} : ∀ {n : Nat} {r : Ref F}, Depth h n r → Depth h (n + 1) r
  | 0, r, hd => fun a ha => by
    obtain ⟨o, h1, h2⟩ := hd a ha
    exact ⟨o, h1, fun s hs => (h2 s hs).elim⟩
  | n + 1, r, hd => fun a ha => by
    obtain ⟨o, h1, h2⟩ := hd a ha
    exact ⟨o, h1, fun s hs => (h2 s hs).succ⟩

theorem Depth.le {h : Heap F} {n m : Nat} {r : Ref F} (hd : Depth h n r) (hm : n ≤ m) : Depth h m r := by
  induction hm with
  | refl => exact hd
  | step _ ih => exact ih.succ

/-- the memo as a function -/
def memo (m : Memo F) : Nat → Option (Ref F) := fun a => m.lookup a

/-- a copy in progress: the objects in `A` are not filled yet -/
structure CInv (h0 : Heap F) (A : Nat → Prop) (m : Memo F) (h : Heap F) : Prop where
  old : ∀ a, a < h0.length → h[a]? = h0[a]?
  len : h0.length ≤ h.length
  ent : ∀ a r, m.lookup a = some r → ∃ b, r = .ptr b ∧ h0.length ≤ b ∧ b < h.length
  inj : ∀ a a' r, m.lookup a = some r → m.lookup a' = some r → a = a'
  done : ∀ a r, m.lookup a = some r → ¬ A a → ∃ b o o', r = .ptr b ∧ h0[a]? = some o ∧ ObjImg (memo m) o o' ∧ h[b]? = some o'

/-- what a step of copying does -/
structure CStep (m : Memo F) (h : Heap F) (m' : Memo F) (h' : Heap F) : Prop where
  len : h.length ≤ h'.length
  old : ∀ a, a < h.length → h'[a]? = h[a]?
  mono : ∀ a r, m.lookup a = some r → m'.lookup a = some r
  new : ∀ a b, m'.lookup a = some (.ptr b) → m.lookup a = none → h.length ≤ b

theorem CStep.refl (m : Memo F) (h : Heap F) : CStep m h m h :=
  ⟨Nat.le_refl _, fun _ _ => rfl, fun _ _ h => h, fun _ _ h1 h2 => by rw [h1] at h2; cases h2⟩

theorem CStep.trans {m m1 m2 : Memo F} {h h1 h2 : Heap F} (s : CStep m h m1 h1) (t : CStep m1 h1 m2 h2) : CStep m h m2 h2 := by
  refine ⟨Nat.le_trans s.len t.len, fun a ha => ?_, fun a r hr => t.mono _ _ (s.mono _ _ hr), fun a b h3 h4 => ?_⟩
  · rw [t.old a (Nat.lt_of_lt_of_le ha s.len), s.old a ha]
  · cases h5 : m1.lookup a with
    | none => exact Nat.le_trans s.len (t.new a b h3 h5)
    | some r =>
      have := t.mono _ _ h5
      rw [h3] at this
      cases this
      exact s.new a b h5 h4

/-- the copying function does its work on the references that satisfy `P` -/
def Copies (h0 : Heap F) (P : Ref F → Prop) (f : Memo F → Ref F → M F (Ref F × Memo F)) : Prop :=
  ∀ (A : Nat → Prop) (m : Memo F) (r : Ref F) (h : Heap F), CInv h0 A m h → P r →
    ∃ r' m' h', f m r h = (.ok (r', m'), h') ∧ CInv h0 A m' h' ∧ CStep m h m' h' ∧ img (memo m') r = some r'

theorem copyL_spec {h0 : Heap F} {P : Ref F → Prop} {f : Memo F → Ref F → M F (Ref F × Memo F)} (hf : Copies h0 P f) :
    ∀ (l : List (Ref F)) (A : Nat → Prop) (m : Memo F) (h : Heap F), CInv h0 A m h → (∀ r ∈ l, P r) →
      ∃ l' m' h', copyL f l m h = (.ok (l', m'), h') ∧ CInv h0 A m' h' ∧ CStep m h m' h' ∧
        All₂ (fun r s => img (memo m') r = some s) l l'
  | [], A, m, h, hc, _ => ⟨[], m, h, rfl, hc, .refl _ _, .nil⟩
  | r :: l, A, m, h, hc, hp => by
    obtain ⟨r', m1, h1, e1, c1, s1, i1⟩ := hf A m r h hc (hp r (by simp))
    obtain ⟨l', m2, h2, e2, c2, s2, i2⟩ := copyL_spec hf l A m1 h1 c1 (fun s hs => hp s (by simp [hs]))
    refine ⟨r' :: l', m2, h2, ?_, c2, s1.trans s2, .cons (img_mono s2.mono i1) i2⟩
    unfold copyL
    rw [run_bind e1]
    simp only
    rw [run_bind e2]
    rfl

theorem copyD_spec {h0 : Heap F} {P : Ref F → Prop} {f : Memo F → Ref F → M F (Ref F × Memo F)} (hf : Copies h0 P f) :
    ∀ (l : Dict (Ref F)) (A : Nat → Prop) (m : Memo F) (h : Heap F), CInv h0 A m h → (∀ p ∈ l, P p.2) →
      ∃ l' m' h', copyD f l m h = (.ok (l', m'), h') ∧ CInv h0 A m' h' ∧ CStep m h m' h' ∧
        All₂ (fun p q => p.1 = q.1 ∧ img (memo m') p.2 = some q.2) l l'
  | [], A, m, h, hc, _ => ⟨[], m, h, rfl, hc, .refl _ _, .nil⟩
  | (k, r) :: l, A, m, h, hc, hp => by
    obtain ⟨r', m1, h1, e1, c1, s1, i1⟩ := hf A m r h hc (hp (k, r) (by simp))
    obtain ⟨l', m2, h2, e2, c2, s2, i2⟩ := copyD_spec hf l A m1 h1 c1 (fun s hs => hp s (by simp [hs]))
    refine ⟨(k, r') :: l', m2, h2, ?_, c2, s1.trans s2, .cons ⟨rfl, img_mono s2.mono i1⟩ i2⟩
    unfold copyD
    rw [run_bind e1]
    simp only
    rw [run_bind e2]
    rfl

/-- the new object is created, the content copied, the object filled -/
theorem copy_node {h0 : Heap F} {A : Nat → Prop} {m : Memo F} {h : Heap F} {a : Nat} {o e o' : Obj F} (hc : CInv h0 A m h) (ho : h0[a]? = some o)
    (hn : m.lookup a = none) :
    CInv h0 (fun b => A b ∨ b = a) ((a, .ptr h.length) :: m) (h ++ [e]) ∧
    ∀ m' h1, CInv h0 (fun b => A b ∨ b = a) m' h1 → CStep ((a, .ptr h.length) :: m) (h ++ [e]) m' h1 → ObjImg (memo m') o o' →
      CInv h0 A m' (h1.set h.length o') ∧ CStep m h m' (h1.set h.length o') ∧ m'.lookup a = some (.ptr h.length) := by
  have hl : ∀ b r, List.lookup b ((a, .ptr h.length) :: m) = some r → (b = a ∧ r = .ptr h.length) ∨ (b ≠ a ∧ m.lookup b = some r) := by
    intro b r hb
    rw [List.lookup_cons] at hb
    by_cases hba : b = a
    · subst hba; simp at hb; exact .inl ⟨rfl, hb.symm⟩
    · have : (b == a) = false := by simp [hba]
      rw [this] at hb
      exact .inr ⟨hba, hb⟩
  have hsub : ∀ b r, m.lookup b = some r → List.lookup b ((a, .ptr h.length) :: m) = some r := by
    intro b r hb
    rw [List.lookup_cons]
    by_cases hba : b = a
    · subst hba; rw [hn] at hb; cases hb
    · have : (b == a) = false := by simp [hba]
      rw [this]; exact hb
  have hold : ∀ b, b < h.length → (h ++ [e])[b]? = h[b]? := fun b hb => List.getElem?_append_left hb
  constructor
  · refine ⟨fun b hb => ?_, by have := hc.len; simp; omega, ?_, ?_, ?_⟩
    · rw [hold b (Nat.lt_of_lt_of_le hb hc.len)]; exact hc.old b hb
    · intro b r hb
      rcases hl b r hb with ⟨_, rfl⟩ | ⟨_, h1⟩
      · exact ⟨h.length, rfl, hc.len, by simp⟩
      · obtain ⟨c, h2, h3, h4⟩ := hc.ent b r h1
        exact ⟨c, h2, h3, by simp; omega⟩
    · intro b b' r hb hb'
      rcases hl b r hb with ⟨e1, e2⟩ | ⟨e1, e2⟩ <;> rcases hl b' r hb' with ⟨e3, e4⟩ | ⟨e3, e4⟩
      · rw [e1, e3]
      · obtain ⟨c, g1, _, g2⟩ := hc.ent b' r e4
        rw [e2] at g1; cases g1; omega
      · obtain ⟨c, g1, _, g2⟩ := hc.ent b r e2
        rw [e4] at g1; cases g1; omega
      · exact hc.inj b b' r e2 e4
    · intro b r hb hA
      rcases hl b r hb with ⟨rfl, _⟩ | ⟨_, h1⟩
      · exact absurd (.inr rfl) hA
      · obtain ⟨c, o1, o2, g1, g2, g3, g4⟩ := hc.done b r h1 (fun h => hA (.inl h))
        refine ⟨c, o1, o2, g1, g2, g3.mono hsub, ?_⟩
        rw [hold c (List.getElem?_eq_some_iff.mp g4).1]
        exact g4
  · intro m' h1 hc' hs hi
    have hlk : m'.lookup a = some (.ptr h.length) := hs.mono a _ (by rw [List.lookup_cons]; simp)
    have hl1 : h.length < h1.length := by have := hs.len; simp at this; omega
    have hset : ∀ b, b ≠ h.length → (h1.set h.length o')[b]? = h1[b]? := fun b hb => List.getElem?_set_ne (fun h => hb h.symm)
    refine ⟨⟨fun b hb => ?_, by simp; exact hc'.len, ?_, hc'.inj, ?_⟩, ⟨by simp; omega, fun b hb => ?_, ?_, ?_⟩, hlk⟩
    · have := hc.len
      rw [hset b (by omega)]; exact hc'.old b hb
    · intro b r hb
      obtain ⟨c, g1, g2, g3⟩ := hc'.ent b r hb
      exact ⟨c, g1, g2, by simpa using g3⟩
    · intro b r hb hA
      by_cases hba : b = a
      · subst hba
        rw [hlk] at hb
        cases hb
        exact ⟨h.length, o, o', rfl, ho, hi, List.getElem?_set_self (by omega)⟩
      · obtain ⟨c, o1, o2, g1, g2, g3, g4⟩ := hc'.done b r hb (fun h => h.elim hA hba)
        refine ⟨c, o1, o2, g1, g2, g3, ?_⟩
        rw [hset c (fun hcb => hba (hc'.inj b a r hb (by rw [hlk, g1, hcb])))]
        exact g4
    · rw [hset b (by omega), hs.old b (by simp; omega), hold b hb]
    · intro b r hb; exact hs.mono b r (hsub b r hb)
    · intro b c hb hm
      by_cases hba : b = a
      · subst hba
        rw [hlk] at hb
        cases hb
        exact Nat.le_refl _
      · have := hs.new b c hb (by
          rw [List.lookup_cons]
          have : (b == a) = false := by simp [hba]
          rw [this]; exact hm)
        simp at this; omega

theorem copyStep_spec {h0 : Heap F} {n : Nat} {f : Memo F → Ref F → M F (Ref F × Memo F)} (hf : Copies h0 (DepthB h0 n) f) :
    Copies h0 (Depth h0 n) (copyStep f) := by
  intro A m r h hc hd
  cases r with
  | ptr a =>
    obtain ⟨o, ho, hk⟩ := depth_iff.mp hd a rfl
    unfold copyStep
    cases hm : m.lookup a with
    | some b => exact ⟨b, m, h, by simp only [hm]; rfl, hc, .refl _ _, hm⟩
    | none =>
      have ho' : h[a]? = some o := by rw [hc.old a (List.getElem?_eq_some_iff.mp ho).1]; exact ho
      simp only [hm]
      rw [run_bind (run_look ho')]
      cases o with
      | list l =>
        obtain ⟨c1, _⟩ := copy_node (e := .list []) (o' := .list []) hc ho hm
        obtain ⟨l', m', h1, e1, c2, s2, i2⟩ := copyL_spec hf l _ _ _ c1 (fun r hr => hk r hr)
        obtain ⟨_, hfin⟩ := copy_node (e := .list []) (o' := .list l') hc ho hm
        obtain ⟨c3, s3, k3⟩ := hfin m' h1 c2 s2 (.list _ _ i2)
        refine ⟨.ptr h.length, m', _, ?_, c3, s3, k3⟩
        simp only
        rw [run_bind run_alloc, run_bind e1]
        simp only
        rw [run_bind run_fill]
        rfl
      | dict l =>
        obtain ⟨c1, _⟩ := copy_node (e := .dict []) (o' := .dict []) hc ho hm
        obtain ⟨l', m', h1, e1, c2, s2, i2⟩ := copyD_spec hf l _ _ _ c1 (fun p hp => hk p.2 (by simp [Obj.refs]; exact ⟨p.1, hp⟩))
        obtain ⟨_, hfin⟩ := copy_node (e := .dict []) (o' := .dict l') hc ho hm
        obtain ⟨c3, s3, k3⟩ := hfin m' h1 c2 s2 (.dict _ _ i2)
        refine ⟨.ptr h.length, m', _, ?_, c3, s3, k3⟩
        simp only
        rw [run_bind run_alloc, run_bind e1]
        simp only
        rw [run_bind run_fill]
        rfl
      | inst t l =>
        obtain ⟨c1, _⟩ := copy_node (e := .inst t []) (o' := .dict []) hc ho hm
        obtain ⟨l', m', h1, e1, c2, s2, i2⟩ := copyD_spec hf l _ _ _ c1 (fun p hp => hk p.2 (by simp [Obj.refs]; exact ⟨p.1, hp⟩))
        obtain ⟨_, hfin⟩ := copy_node (e := .inst t []) (o' := .inst t l') hc ho hm
        obtain ⟨c3, s3, k3⟩ := hfin m' h1 c2 s2 (.inst _ _ _ i2)
        refine ⟨.ptr h.length, m', _, ?_, c3, s3, k3⟩
        simp only
        rw [run_bind run_alloc, run_bind e1]
        simp only
        rw [run_bind run_fill]
        rfl
  | null => exact ⟨_, m, h, rfl, hc, .refl _ _, rfl⟩
  | bool => exact ⟨_, m, h, rfl, hc, .refl _ _, rfl⟩
  | int => exact ⟨_, m, h, rfl, hc, .refl _ _, rfl⟩
  | flt => exact ⟨_, m, h, rfl, hc, .refl _ _, rfl⟩
  | str => exact ⟨_, m, h, rfl, hc, .refl _ _, rfl⟩

theorem copy_spec {h0 : Heap F} : ∀ n, Copies h0 (Depth h0 n) (copy n)
  | 0 => copyStep_spec (n := 0) (fun _ _ _ _ _ h => h.elim)
  | n + 1 => copyStep_spec (n := n + 1) (copy_spec n)

/-- the copy is isomorphic to the original and consists of new objects -/
structure Iso (h h' : Heap F) (φ : Nat → Option (Ref F)) : Prop where
  len : h.length ≤ h'.length
  old : ∀ a, a < h.length → h'[a]? = h[a]?
  new : ∀ a r, φ a = some r → ∃ b, r = .ptr b ∧ h.length ≤ b ∧ b < h'.length
  inj : ∀ a a' r, φ a = some r → φ a' = some r → a = a'
  obj : ∀ a r, φ a = some r → ∃ b o o', r = .ptr b ∧ h[a]? = some o ∧ ObjImg φ o o' ∧ h'[b]? = some o'

theorem deepcopy_iso {E : Env F} {h : Heap F} {r : Ref F} (hd : Depth h E.lim r) :
    ∃ r' h' φ, deepcopy E r h = (.ok r', h') ∧ Iso h h' φ ∧ img φ r = some r' := by
  obtain ⟨r', m', h', e, c, s, i⟩ := copy_spec (h0 := h) E.lim (fun _ => False) [] r h
    ⟨fun _ _ => rfl, Nat.le_refl _, fun _ _ h => by simp at h, fun _ _ _ h => by simp at h, fun _ _ h => by simp at h⟩ hd
  refine ⟨r', h', memo m', ?_, ⟨s.len, s.old, c.ent, c.inj, fun a r ha => c.done a r ha id⟩, i⟩
  unfold deepcopy
  rw [run_bind e]
  rfl

/-! ### What is read from the copy -/

section
variable [PyRt F]

theorem iso_read {h h' : Heap F} {φ : Nat → Option (Ref F)} (iso : Iso h h' φ) : ∀ (n : Nat) {r r' : Ref F}, img φ r = some r' →
    read h' n r' = read h n r := by
  have main : ∀ n, (∀ {r r' : Ref F}, img φ r = some r' → below h' n r' = below h n r) →
      ∀ {r r' : Ref F}, img φ r = some r' → read h' n r' = read h n r := by
    intro n hb r r' hr
    rw [read_eq, read_eq]
    have hL : ∀ l l', All₂ (fun r s => img φ r = some s) l l' → mapO (below h' n) l' = mapO (below h n) l := by
      intro l l' hl
      induction hl with
      | nil => rfl
      | cons h1 _ ih => unfold mapO; rw [hb h1, ih]
    have hD : ∀ l l', All₂ (fun (p q : Str × Ref F) => p.1 = q.1 ∧ img φ p.2 = some q.2) l l' →
        mapOD (below h' n) l' = mapOD (below h n) l := by
      intro l l' hl
      unfold mapOD
      induction hl with
      | nil => rfl
      | cons h1 _ ih => unfold mapO; rw [hb h1.2, ih, h1.1]
    cases r with
    | ptr a =>
      obtain ⟨b, o, o', rfl, h1, h2, h3⟩ := iso.obj a r' hr
      simp only [readStep, h1, h3]
      cases h2 with
      | list l l' hl => simp only [hL _ _ hl]
      | dict l l' hl => simp only [hD _ _ hl]
      | inst t l l' hl => simp only [hD _ _ hl]
    | _ => cases hr; rfl
  intro n
  induction n with
  | zero => exact main 0 (fun _ => rfl)
  | succ n ih => exact main (n + 1) (fun hr => ih hr)

theorem iso_readJ {h h' : Heap F} {φ : Nat → Option (Ref F)} (iso : Iso h h' φ) (n : Nat) {r r' : Ref F} (hr : img φ r = some r') :
    readJ h' n r' = readJ h n r := by
  unfold readJ
  rw [iso_read iso n hr]

/-! ### Depths -/

theorem read_depth {h : Heap F} : ∀ {n : Nat} {r : Ref F} {s : SVal F}, read h n r = some s → Depth h n r := by
  have main : ∀ n, (∀ {r : Ref F} {s : SVal F}, below h n r = some s → DepthB h n r) → ∀ {r : Ref F} {s : SVal F}, read h n r = some s →
      Depth h n r := by
    intro n hb r s hr
    rw [depth_iff]
    rintro a rfl
    rw [read_eq] at hr
    simp only [readStep] at hr
    cases ho : h[a]? with
    | none => simp [ho] at hr
    | some o =>
      refine ⟨o, rfl, ?_⟩
      have hD : ∀ (d : Dict (Ref F)) e, mapOD (below h n) d = some e → ∀ s ∈ d.map (·.2), DepthB h n s := by
        intro d e he s hs
        have := mapOD_iff.mp he
        clear he ho hr
        induction this with
        | nil => simp at hs
        | cons h1 _ ih =>
          simp only [List.map_cons, List.mem_cons] at hs
          rcases hs with rfl | hs
          · exact hb h1.2
          · exact ih hs
      cases o with
      | list l =>
        simp only [ho] at hr
        obtain ⟨e, he, hx⟩ := Option.map_eq_some_iff.mp hr
        have := mapO_iff.mp he
        intro s hs
        simp only [Obj.refs] at hs
        clear he ho hr hx
        induction this with
        | nil => simp at hs
        | cons h1 _ ih =>
          simp only [List.mem_cons] at hs
          rcases hs with rfl | hs
          · exact hb h1
          · exact ih hs
      | dict d =>
        simp only [ho] at hr
        obtain ⟨e, he, _⟩ := Option.map_eq_some_iff.mp hr
        exact hD d e he
      | inst t d =>
        simp only [ho] at hr
        obtain ⟨e, he, _⟩ := Option.map_eq_some_iff.mp hr
        exact hD d e he
  intro n
  induction n with
  | zero => exact main 0 (fun h => by cases h)
  | succ n ih => exact main (n + 1) (fun h => ih h)

theorem readJ_depth {h : Heap F} {n : Nat} {r : Ref F} {j : JVal F} (hr : readJ h n r = some j) : Depth h n r := by
  unfold readJ at hr
  obtain ⟨s, hs, _⟩ := Option.bind_eq_some_iff.mp hr
  exact read_depth hs

mutual
theorem Rep.depth {B : Nat} {N : Nat → Prop} {h : Heap F} : ∀ {t : Tree F} {r : Ref F} {S : Nat → Prop}, Rep B N h r t S →
    Depth h (t.height + B) r
  | .leaf _, _, _, .leaf _ _ _ _ h2 => by
    have := readJ_depth h2
    simpa [Tree.height] using this
  | .node .., _, _, .empty a _ _ h2 => by
    rw [depth_iff]
    intro b hb
    cases hb
    exact ⟨_, h2, fun s hs => by simp [Obj.refs] at hs⟩
  | .node .., _, _, .node a k rs ts S S' h1 _ _ h4 _ => by
    rw [depth_iff]
    intro b hb
    cases hb
    refine ⟨_, h1, fun s hs => ?_⟩
    rw [Kind.refs] at hs
    obtain ⟨p, hp, rfl⟩ := List.mem_map.mp hs
    have := RepK.depth h4 p hp
    have e : Tree.height (.node k ts) + B = (Tree.heightK ts + B) + 1 := by simp [Tree.height]; omega
    rw [e]
    exact this
theorem RepK.depth {B : Nat} {N : Nat → Prop} {h : Heap F} : ∀ {t : List (Str × Tree F)} {r : Dict (Ref F)} {S : Nat → Prop},
    RepK B N h r t S → ∀ p ∈ r, Depth h (Tree.heightK t + B) p.2
  | [], _, _, .nil _ => by intro p hp; cases hp
  | (_, _) :: _, _, _, .cons k r t rs ts S1 S2 _ h1 h2 _ _ _ => by
    intro p hp
    cases hp with
    | head => exact (Rep.depth h1).le (by simp [Tree.heightK]; omega)
    | tail _ hp => exact (RepK.depth h2 p hp).le (by simp [Tree.heightK]; omega)
end

/-! ### The copy of a tree -/

/-- the zone with the copies of its objects -/
def copied (N : Nat → Prop) (φ : Nat → Option (Ref F)) : Nat → Prop := fun b => N b ∨ ∃ a, N a ∧ φ a = some (.ptr b)

theorem Iso.ext {N : Nat → Prop} {h h' : Heap F} {φ : Nat → Option (Ref F)} (hz : Zone N h) (iso : Iso h h' φ) (S : Nat → Prop) :
    Ext N h S (copied N φ) h' := by
  have hzone : Zone (copied N φ) h' := by
    constructor
    · rintro a (ha | ⟨a', h1, h2⟩)
      · exact Nat.lt_of_lt_of_le (hz.bound a ha) iso.len
      · obtain ⟨b, g1, _, g2⟩ := iso.new a' _ h2
        cases g1; exact g2
    · rintro a o (ha | ⟨a', h1, h2⟩) ho s hs
      · rw [iso.old a (hz.bound a ha)] at ho
        exact (hz.closed a o ha ho s hs).mono (fun _ h => .inl h)
      · obtain ⟨b, o1, o2, g1, g2, g3, g4⟩ := iso.obj a' _ h2
        cases g1
        rw [ho] at g4
        cases g4
        have hc := hz.closed a' o1 h1 g2
        have key : ∀ r r', img φ r = some r' → In N r → In (copied N φ) r' := by
          intro r r' hr hin b hb
          subst hb
          cases r with
          | ptr c => exact .inr ⟨c, in_ptr.mp hin, hr⟩
          | _ => cases hr
        cases g3 with
        | list l l' hl =>
          simp only [Obj.refs] at hc hs
          clear g2 ho
          induction hl with
          | nil => cases hs
          | cons e _ ih =>
            cases hs with
            | head => exact key _ _ e (hc _ (by simp))
            | tail _ hs => exact ih (fun s hs => hc s (by simp [hs])) hs
        | dict l l' hl =>
          simp only [Obj.refs] at hc hs
          clear g2 ho
          induction hl with
          | nil => cases hs
          | cons e _ ih =>
            simp only [List.map_cons, List.mem_cons] at hs
            rcases hs with rfl | hs
            · exact key _ _ e.2 (hc _ (by simp))
            · exact ih (fun s hs => hc s (by simp only [List.map_cons, List.mem_cons]; exact .inr hs)) hs
        | inst t l l' hl =>
          simp only [Obj.refs] at hc hs
          clear g2 ho
          induction hl with
          | nil => cases hs
          | cons e _ ih =>
            simp only [List.map_cons, List.mem_cons] at hs
            rcases hs with rfl | hs
            · exact key _ _ e.2 (hc _ (by simp))
            · exact ih (fun s hs => hc s (by simp only [List.map_cons, List.mem_cons]; exact .inr hs)) hs
  refine ⟨iso.len, fun _ h => .inl h, ?_, hzone, fun a ha _ => iso.old a ha⟩
  rintro a (ha | ⟨a', h1, h2⟩)
  · exact .inl ha
  · obtain ⟨b, g1, g2, _⟩ := iso.new a' _ h2
    cases g1; exact .inr g2

theorem Iso.in {N : Nat → Prop} {h h' : Heap F} {φ : Nat → Option (Ref F)} (_ : Iso h h' φ) {r r' : Ref F} (hr : img φ r = some r')
    (hin : In N r) : In (copied N φ) r' := by
  intro b hb
  subst hb
  cases r with
  | ptr c => exact .inr ⟨c, in_ptr.mp hin, hr⟩
  | _ => cases hr

/-- the places of the copies -/
def place (S : Nat → Prop) (φ : Nat → Option (Ref F)) : Nat → Prop := fun b => ∃ a, S a ∧ φ a = some (.ptr b)

mutual
theorem Iso.rep {B : Nat} {N : Nat → Prop} {h h' : Heap F} {φ : Nat → Option (Ref F)} (hz : Zone N h) (iso : Iso h h' φ) :
    ∀ {t : Tree F} {r r' : Ref F} {S : Nat → Prop}, Rep B N h r t S → img φ r = some r' → Rep B (copied N φ) h' r' t (place S φ)
  | .leaf _, _, _, _, .leaf _ _ _ h1 h2, hr => .leaf _ _ _ (iso.in hr h1) (by rw [iso_readJ iso B hr]; exact h2)
  | .node .., _, r', _, .empty a _ h1 h2, hr => by
    obtain ⟨b, o, o', rfl, g1, g2, g3⟩ := iso.obj a r' hr
    rw [h2] at g1
    cases g1
    cases g2 with
    | dict _ _ hl =>
      cases hl
      exact .empty b _ (.inr ⟨a, h1, hr⟩) g3
  | .node .., _, r', _, .node a k rs ts S S' h1 h2 h3 h4 h5, hr => by
    obtain ⟨b, o, o', rfl, g1, g2, g3⟩ := iso.obj a r' hr
    rw [h1] at g1
    cases g1
    have hb : ∃ rs', o' = k.obj rs' ∧ All₂ (fun p q => p.1 = q.1 ∧ img φ p.2 = some q.2) rs rs' := by
      cases k with
      | list =>
        cases g2 with
        | list _ l' hl =>
          clear g3 h1 h4
          suffices ∃ rs', l' = rs'.map (·.2) ∧ All₂ (fun (p q : Str × Ref F) => p.1 = q.1 ∧ img φ p.2 = some q.2) rs rs' by
            obtain ⟨rs', rfl, h⟩ := this
            exact ⟨rs', rfl, h⟩
          induction rs generalizing l' with
          | nil => cases hl; exact ⟨[], rfl, .nil⟩
          | cons p rs ih =>
            cases hl with
            | cons e hl =>
              obtain ⟨rs', rfl, h⟩ := ih _ hl
              exact ⟨(p.1, _) :: rs', rfl, .cons ⟨rfl, e⟩ h⟩
      | dict => cases g2 with
        | dict _ d' hl => exact ⟨d', rfl, hl⟩
      | inst t => cases g2 with
        | inst _ _ d' hl => exact ⟨d', rfl, hl⟩
    obtain ⟨rs', rfl, hl⟩ := hb
    refine .node b k rs' ts _ (place S' φ) g3 ⟨a, h2, hr⟩ ?_ (Iso.repK hz iso h4 hl) ?_
    · rintro (hn | ⟨a', e1, e2⟩)
      · obtain ⟨c, i1, i2, _⟩ := iso.new a _ hr
        cases i1
        have := hz.bound b hn
        omega
      · rw [iso.inj a a' _ hr e2] at h3
        exact h3 e1
    · rintro c ⟨a', e1, e2⟩
      refine ⟨⟨a', (h5 a' e1).1, e2⟩, fun hc => ?_⟩
      subst hc
      exact (h5 a' e1).2 (iso.inj a' a _ e2 hr)
theorem Iso.repK {B : Nat} {N : Nat → Prop} {h h' : Heap F} {φ : Nat → Option (Ref F)} (hz : Zone N h) (iso : Iso h h' φ) :
    ∀ {t : List (Str × Tree F)} {r r' : Dict (Ref F)} {S : Nat → Prop}, RepK B N h r t S →
      All₂ (fun p q => p.1 = q.1 ∧ img φ p.2 = some q.2) r r' → RepK B (copied N φ) h' r' t (place S φ)
  | [], _, _, _, .nil _, .nil => .nil _
  | (_, _) :: _, _, _, _, .cons k r t rs ts S1 S2 _ h1 h2 h3 h4 h5, .cons (y := (k', r')) (m := rs') e hl => by
    have : k' = k := e.1.symm
    subst this
    refine .cons _ _ _ _ _ (place S1 φ) (place S2 φ) _ (Iso.rep hz iso h1 e.2) (Iso.repK hz iso h2 hl) ?_ ?_ ?_
    · rintro a ⟨b, e1, e2⟩ ⟨c, e3, e4⟩
      rw [iso.inj b c _ e2 e4] at e1
      exact h3 c e1 e3
    · rintro a ⟨b, e1, e2⟩; exact ⟨b, h4 b e1, e2⟩
    · rintro a ⟨b, e1, e2⟩; exact ⟨b, h5 b e1, e2⟩
end

theorem place_new {S : Nat → Prop} {h h' : Heap F} {φ : Nat → Option (Ref F)} (iso : Iso h h' φ) {b : Nat} (hb : place S φ b) :
    h.length ≤ b ∧ b < h'.length := by
  obtain ⟨a, _, h2⟩ := hb
  obtain ⟨c, h3, h4, h5⟩ := iso.new a _ h2
  cases h3
  exact ⟨h4, h5⟩

end

end Alias
end Spine
