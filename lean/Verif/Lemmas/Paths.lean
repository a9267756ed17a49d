import Verif.Lemmas.Traverse
/- Facts about `get_all_paths` and `sequential_order_of_execution`. -/
namespace Spine
namespace Graph
variable {T D : Type}

/-! ### chains -/

theorem Chain.ne_nil {R : Str → Str → Prop} {l : List Str} (h : Chain R l) : l ≠ [] := by cases h <;> simp

theorem Chain.reach {R : Str → Str → Prop} : ∀ {a : Str} {l : List Str}, Chain R (a :: l) → ∀ x ∈ a :: l, Reach R a x := by
  intro a l
  induction l generalizing a with
  | nil => intro _ x hx; simp at hx; subst hx; exact Reach.refl _
  | cons b l ih =>
    intro h x hx
    cases h with
    | cons hab hbl =>
      rcases List.mem_cons.1 hx with rfl | hx
      · exact Reach.refl _
      · exact Reach.head hab (ih hbl x hx)

theorem Chain.nodup {g : Graph T D} (hg : ¬ Cyclic g) : ∀ {l : List Str}, Chain (Edge g) l → l.Nodup := by
  intro l
  induction l with
  | nil => simp
  | cons a l ih =>
    intro h
    cases h with
    | single => simp
    | cons hab hbl =>
      rw [List.nodup_cons]
      refine ⟨?_, ih hbl⟩
      intro ha
      exact hg ⟨a, _, hab, hbl.reach a ha⟩

theorem SimplePath.ne_nil {R : Str → Str → Prop} {a b : Str} {l : List Str} (h : SimplePath R a b l) : l ≠ [] := h.chain.ne_nil

/-- a path from a node to itself without repetition is that node alone -/
theorem simplePath_self {R : Str → Str → Prop} (a : Str) (l : List Str) : SimplePath R a a l ↔ l = [a] := by
  constructor
  · intro h
    obtain ⟨h1, h2, h3, h4⟩ := h
    cases l with
    | nil => simp at h2
    | cons b l =>
      simp at h2; subst h2
      cases l with
      | nil => rfl
      | cons c l =>
        exfalso
        rw [List.nodup_cons] at h4
        apply h4.1
        rw [List.getLast?_cons_cons] at h3
        exact List.mem_of_getLast? h3
  · rintro rfl
    exact ⟨Chain.single a, rfl, rfl, by simp⟩

theorem simplePath_step {R : Str → Str → Prop} {a b : Str} (hne : a ≠ b) (l : List Str) :
    SimplePath R a b l ↔ ∃ q c, l = a :: q ∧ R a c ∧ SimplePath R c b q ∧ a ∉ q := by
  constructor
  · rintro ⟨h1, h2, h3, h4⟩
    cases h1 with
    | single x => simp at h2 h3; exact absurd (h2.symm.trans h3) hne
    | @cons x y q hxy hq =>
      simp at h2; subst h2
      rw [List.nodup_cons] at h4
      rw [List.getLast?_cons_cons] at h3
      exact ⟨y :: q, y, rfl, hxy, ⟨hq, rfl, h3, h4.2⟩, h4.1⟩
  · rintro ⟨q, c, rfl, h1, ⟨h2, h3, h4, h5⟩, h6⟩
    cases q with
    | nil => simp at h3
    | cons c' q =>
      simp at h3; subst h3
      refine ⟨Chain.cons h1 h2, rfl, ?_, ?_⟩
      · rw [List.getLast?_cons_cons]; exact h4
      · rw [List.nodup_cons]; exact ⟨h6, h5⟩

/-! ### `_look_for_paths` -/

/-- the paths found below `start`: simple, at most `rem` nodes, avoiding `avoid`, each once -/
structure FoundBelow (g : Graph T D) (starts : List Str) (stop : Str) (rem : Nat) (avoid : List Str) (new : List (List Str)) : Prop where
  nodup : new.Nodup
  mem : ∀ q, q ∈ new ↔ ∃ c ∈ starts, SimplePath (Edge g) c stop q ∧ q.length ≤ rem ∧ ∀ x ∈ q, x ∉ avoid

theorem look_spec {g : Graph T D} (hg : WF g) (stop : Str) (rem : Nat) :
    ∀ s start, HasNode g start → start ∉ s.visited → (∀ x ∈ s.path, x ∈ s.visited) →
      ∃ new, look g stop rem s start = .ok { s with paths := s.paths ++ new.map (s.path ++ ·) } ∧
        FoundBelow g [start] stop rem s.visited new := by
  induction rem with
  | zero =>
    intro s start _ _ _
    refine ⟨[], by simp [look], by simp, ?_⟩
    intro q
    simp only [List.not_mem_nil, false_iff]
    rintro ⟨c, -, h1, h2, -⟩
    have := h1.ne_nil
    simp at h2; exact this h2
  | succ rem ih =>
    rintro s start ⟨n, hn⟩ hv hpv
    by_cases hse : start = stop
    · subst hse
      refine ⟨[[start]], by simp [look], by simp, ?_⟩
      intro q
      simp only [List.mem_singleton]
      constructor
      · rintro rfl
        exact ⟨start, rfl, (simplePath_self _ _).2 rfl, by simp, by simpa using hv⟩
      · rintro ⟨c, rfl, h1, -, -⟩
        exact (simplePath_self _ _).1 h1
    · -- loop over the children
      have loop : ∀ (cs : List Str) (s0 : PState), cs.Nodup → (∀ c ∈ cs, HasNode g c) → (∀ x ∈ s0.path, x ∈ s0.visited) →
          ∃ new, foldE (fun (s : PState) c => if c ∈ s.visited then .ok s else look g stop rem s c) s0 cs =
              .ok { s0 with paths := s0.paths ++ new.map (s0.path ++ ·) } ∧
            FoundBelow g cs stop rem s0.visited new := by
        intro cs
        induction cs with
        | nil =>
          intro s0 _ _ _
          exact ⟨[], by simp [foldE], by simp, by simp⟩
        | cons c cs ihc =>
          intro s0 hnd hcs hp0
          have hnd' := List.nodup_cons.1 hnd
          by_cases hcv : c ∈ s0.visited
          · obtain ⟨new, e1, e2, e3⟩ := ihc s0 hnd'.2 (fun c hc => hcs c (by simp [hc])) hp0
            refine ⟨new, by simp only [foldE, hcv, if_true]; exact e1, e2, ?_⟩
            intro q
            rw [e3]
            constructor
            · rintro ⟨d, hd, h⟩; exact ⟨d, by simp [hd], h⟩
            · rintro ⟨d, hd, h⟩
              rcases List.mem_cons.1 hd with rfl | hd
              · exfalso
                have hmem : d ∈ q := by
                  have := h.1.first; cases q with
                  | nil => simp at this
                  | cons x q => simp at this; simp [this]
                exact h.2.2 d hmem hcv
              · exact ⟨d, hd, h⟩
          · obtain ⟨new1, a1, a2, a3⟩ := ih s0 c (hcs c (by simp)) hcv hp0
            obtain ⟨new2, b1, b2, b3⟩ := ihc { s0 with paths := s0.paths ++ new1.map (s0.path ++ ·) } hnd'.2
              (fun c hc => hcs c (by simp [hc])) hp0
            refine ⟨new1 ++ new2, ?_, ?_, ?_⟩
            · simp only [foldE, hcv, if_false, a1]
              rw [b1]; simp
            · rw [List.nodup_append]
              refine ⟨a2, b2, ?_⟩
              rintro q hq1 q' hq2 rfl
              obtain ⟨d1, hd1, p1, -⟩ := (a3 q).1 hq1
              obtain ⟨d2, hd2, p2, -⟩ := (b3 q).1 hq2
              simp at hd1; subst hd1
              have := p1.first.symm.trans p2.first
              simp at this; subst this
              exact hnd'.1 hd2
            · intro q
              rw [List.mem_append, a3, b3]
              constructor
              · rintro (⟨d, hd, h⟩ | ⟨d, hd, h⟩)
                · simp at hd; subst hd; exact ⟨d, by simp, h⟩
                · exact ⟨d, by simp [hd], h⟩
              · rintro ⟨d, hd, h⟩
                rcases List.mem_cons.1 hd with rfl | hd
                · exact Or.inl ⟨d, by simp, h⟩
                · exact Or.inr ⟨d, hd, h⟩
      have hcl : ∀ c ∈ n.children, HasNode g c := fun c hc => by
        obtain ⟨m, hm, -⟩ := hg.child_link hn hc; exact ⟨m, hm⟩
      obtain ⟨new, e1, e2, e3⟩ := loop n.children
        { s with visited := start :: s.visited, path := s.path ++ [start] } (hg.children_nodup hn) hcl (by
          intro x hx
          simp only [List.mem_append, List.mem_cons, List.not_mem_nil, or_false] at hx ⊢
          rcases hx with hx | hx
          · exact Or.inr (hpv x hx)
          · exact Or.inl hx)
      have hsp : start ∉ s.path := fun h => hv (hpv _ h)
      refine ⟨new.map (start :: ·), ?_, ?_, ?_⟩
      · simp only [look, hse, if_false, hn]
        rw [e1]
        simp only [Except.ok.injEq]
        have h1 : (start :: s.visited).filter (fun x => decide (x ≠ start)) = s.visited := by
          rw [List.filter_cons]; simp
          intro x hx; rintro rfl; exact hv hx
        have h2 : (s.path ++ [start]).erase start = s.path := by
          rw [List.erase_append_right _ hsp]; simp
        rw [h1, h2]
        simp [List.map_map, Function.comp_def]
      · unfold List.Nodup
        rw [List.pairwise_map]
        refine e2.imp ?_
        intro a b hab h
        simp at h; exact hab h
      · intro q
        simp only [List.mem_map, List.mem_singleton]
        constructor
        · rintro ⟨q', hq', rfl⟩
          obtain ⟨c, hc, p1, p2, p3⟩ := (e3 q').1 hq'
          refine ⟨start, rfl, ?_, by simp; omega, ?_⟩
          · rw [simplePath_step hse]
            exact ⟨q', c, rfl, ⟨n, hn, hc⟩, p1, fun h => p3 start h (by simp)⟩
          · intro x hx
            rcases List.mem_cons.1 hx with rfl | hx
            · exact hv
            · exact fun hxv => p3 x hx (by simp [hxv])
        · rintro ⟨c, rfl, p1, p2, p3⟩
          rw [simplePath_step hse] at p1
          obtain ⟨q', d, rfl, ⟨n', hn', hd⟩, p4, p5⟩ := p1
          rw [hn] at hn'; simp at hn'; subst hn'
          refine ⟨q', (e3 q').2 ⟨d, hd, p4, by simp at p2; exact p2, ?_⟩, rfl⟩
          intro x hx hxv
          rcases List.mem_cons.1 hxv with rfl | hxv
          · exact p5 hx
          · exact p3 x (by simp [hx]) hxv

/-! ### `sequential_order_of_execution` -/

/-- `x` was emitted and all its neighbours were visited -/
def SeqDone (g : Graph T D) (w : Walk) (x : Str) : Prop :=
  x ∈ w.2 ∧ ∀ n, getNode g x = some n → (∀ c ∈ n.children, c ∈ w.1) ∧ (∀ p ∈ n.parents, p ∈ w.1)

/-- progress of the traversal -/
structure SeqLe (g : Graph T D) (w w' : Walk) : Prop where
  vis : ∀ x ∈ w.1, x ∈ w'.1
  res : ∀ x ∈ w.2, x ∈ w'.2
  done : ∀ x ∈ w'.1, x ∈ w.1 ∨ SeqDone g w' x

theorem SeqDone.mono {g : Graph T D} {w w' : Walk} {x : Str} (h1 : ∀ x ∈ w.1, x ∈ w'.1) (h2 : ∀ x ∈ w.2, x ∈ w'.2)
    (h : SeqDone g w x) : SeqDone g w' x :=
  ⟨h2 x h.1, fun n hn => ⟨fun c hc => h1 c ((h.2 n hn).1 c hc), fun p hp => h1 p ((h.2 n hn).2 p hp)⟩⟩

theorem SeqLe.refl {g : Graph T D} (w : Walk) : SeqLe g w w := ⟨fun _ h => h, fun _ h => h, fun _ h => Or.inl h⟩

theorem SeqLe.trans {g : Graph T D} {a b c : Walk} (h1 : SeqLe g a b) (h2 : SeqLe g b c) : SeqLe g a c := by
  refine ⟨fun x hx => h2.vis x (h1.vis x hx), fun x hx => h2.res x (h1.res x hx), ?_⟩
  intro x hx
  rcases h2.done x hx with h | h
  · rcases h1.done x h with h | h
    · exact Or.inl h
    · exact Or.inr (h.mono h2.vis h2.res)
  · exact Or.inr h

theorem seqVisit_ok {g : Graph T D} (hg : WF g) (f : Nat) :
    ∀ w id, HasNode g id → left g (id :: w.1) < f →
      ∃ w', seqVisit g f w id = .ok w' ∧ SeqLe g w w' ∧ id ∈ w'.1 ∧ SeqDone g w' id := by
  induction f with
  | zero => intro w id _ h; omega
  | succ f ih =>
    rintro ⟨vis, res⟩ id ⟨n, hn⟩ hl
    simp only at hl
    have loop : ∀ (l : List Str), (∀ x ∈ l, HasNode g x) → ∀ w : Walk, left g w.1 ≤ f →
        ∃ w', foldE (fun (w : Walk) x => if x ∈ w.1 then .ok w else seqVisit g f w x) w l = .ok w' ∧ left g w'.1 ≤ f ∧
          SeqLe g w w' ∧ ∀ x ∈ l, x ∈ w'.1 := by
      intro l hlx
      apply foldE_ok (fun w : Walk => left g w.1 ≤ f) (SeqLe g) (fun a b => a ∈ b.1) SeqLe.refl
        (fun a b c h1 h2 => h1.trans h2) (fun a b b' h1 h2 => h1.vis a h2)
      intro a ha w hw
      by_cases hv : a ∈ w.1
      · simp only [hv, if_true]; exact ⟨w, rfl, hw, SeqLe.refl w, hv⟩
      · simp only [hv, if_false]
        obtain ⟨w', e1, e2, e3, -⟩ := ih w a (hlx a ha)
          (Nat.lt_of_lt_of_le (left_cons g ((hasNode_iff_mem_keys g a).1 (hlx a ha)) hv) hw)
        exact ⟨w', e1, Nat.le_trans (left_mono g e2.vis) hw, e2, e3⟩
    obtain ⟨⟨v1, r1⟩, a1, a2, a3, a4⟩ := loop n.parents (fun x hx => hg.closed_parents id n x hn hx) (id :: vis, res)
      (by simp only; omega)
    obtain ⟨w2, b1, b2, b3, b4⟩ := loop n.children (fun x hx => hg.closed_children id n x hn hx) (v1, r1 ++ [id]) a2
    have hid : id ∈ w2.2 := b3.res id (by simp)
    have hidv : id ∈ w2.1 := b3.vis id (a3.vis id (by simp))
    have hdone : SeqDone g w2 id := by
      refine ⟨hid, ?_⟩
      intro n' hn'
      rw [hn] at hn'; simp at hn'; subst hn'
      exact ⟨b4, fun p hp => b3.vis p (a4 p hp)⟩
    refine ⟨w2, ?_, ?_, hidv, hdone⟩
    · simp only [seqVisit, hn, a1]; exact b1
    · refine ⟨fun x hx => b3.vis x (a3.vis x (by simp [hx])),
        fun x hx => b3.res x (by simp; exact Or.inl (a3.res x hx)), ?_⟩
      intro x hx
      rcases b3.done x hx with h | h
      · rcases a3.done x h with h | h
        · rcases List.mem_cons.1 h with rfl | h
          · exact Or.inr hdone
          · exact Or.inl h
        · exact Or.inr (SeqDone.mono (w := (v1, r1)) b3.vis (fun y hy => b3.res y (List.mem_append_left _ hy)) h)
      · exact Or.inr h

/-- result of the whole traversal: it never fails; every emitted id is visited and everything visited is done -/
theorem seqOrder_ok {g : Graph T D} (hg : WF g) :
    ∃ hs w, heads g = .ok hs ∧ foldE (seqVisit g (g.nodes.length + 1)) ([], []) hs = .ok w ∧ seqOrder g = .ok w.2 ∧
      (∀ h ∈ hs, h ∈ w.1) ∧ ∀ x ∈ w.1, SeqDone g w x := by
  obtain ⟨hs, h1, h2, h3⟩ := heads_spec hg
  obtain ⟨w, e1, -, e2, e3⟩ := foldE_ok (f := seqVisit g (g.nodes.length + 1)) (fun _ => True) (SeqLe g)
    (fun a b => a ∈ b.1) SeqLe.refl (fun a b c h1 h2 => h1.trans h2) (fun a b b' h1 h2 => h1.vis a h2) hs (by
      intro a ha w _
      obtain ⟨n, hn, -⟩ := (h3 a).1 ha
      obtain ⟨w', a1, a2, a3, -⟩ := seqVisit_ok hg (g.nodes.length + 1) w a ⟨n, hn⟩ (Nat.lt_succ_of_le (left_le g _))
      exact ⟨w', a1, trivial, a2, a3⟩) ([], []) trivial
  refine ⟨hs, w, h1, e1, by simp only [seqOrder, h1, e1], e3, ?_⟩
  intro x hx
  rcases e2.done x hx with h | h
  · simp at h
  · exact h

theorem seqOrder_reach {g : Graph T D} (hg : WF g) {res : List Str} (h : seqOrder g = .ok res) {x y : Str}
    (hx : ∃ n, getNode g x = some n ∧ n.parents = []) (hr : Reach (Edge g) x y) : y ∈ res := by
  obtain ⟨hs, w, h1, h2, h3, h4, h5⟩ := seqOrder_ok hg
  rw [h] at h3; simp at h3; subst h3
  obtain ⟨hs', e1, -, e3⟩ := heads_spec hg
  rw [h1] at e1; simp at e1; subst e1
  have hxv : x ∈ w.1 := h4 x ((e3 x).2 hx)
  have : y ∈ w.1 := by
    clear hx h1 h2
    induction hr with
    | refl => exact hxv
    | @head a b c hab _ ih =>
      apply ih
      obtain ⟨n, hn, hb⟩ := hab
      exact ((h5 a hxv).2 n hn).1 b hb
  exact (h5 y this).1

/-- in an acyclic graph every node is below some parentless node -/
theorem exists_head {g : Graph T D} (hg : WF g) (ha : ¬ Cyclic g) {y : Str} (hy : HasNode g y) :
    ∃ x n, getNode g x = some n ∧ n.parents = [] ∧ Reach (Edge g) x y := by
  apply Classical.byContradiction
  intro hno
  have hup : ∀ x, HasNode g x → Reach (Edge g) x y → ∃ p, Edge g p x := by
    rintro x ⟨n, hn⟩ hr
    cases hp : n.parents with
    | nil => exact absurd ⟨x, n, hn, hp, hr⟩ hno
    | cons p ps =>
      obtain ⟨m, hm, hc⟩ := hg.parent_link hn (p := p) (by simp [hp])
      exact ⟨p, m, hm, hc⟩
  have chains : ∀ k, ∃ a l, Chain (Edge g) (a :: l) ∧ (a :: l).length = k + 1 ∧ Reach (Edge g) a y ∧
      (∀ x ∈ a :: l, HasNode g x) := by
    intro k
    induction k with
    | zero => exact ⟨y, [], Chain.single y, rfl, Reach.refl y, by simpa using hy⟩
    | succ k ih =>
      obtain ⟨a, l, h1, h2, h3, h4⟩ := ih
      obtain ⟨p, hp⟩ := hup a (h4 a (by simp)) h3
      refine ⟨p, a :: l, Chain.cons hp h1, by simp at h2 ⊢; omega, Reach.head hp h3, ?_⟩
      intro x hx
      rcases List.mem_cons.1 hx with rfl | hx
      · obtain ⟨n, hn, -⟩ := hp; exact ⟨n, hn⟩
      · exact h4 x hx
  obtain ⟨a, l, h1, h2, -, h4⟩ := chains g.nodes.length
  have := length_le_of_nodup_subset (h1.nodup ha) (m := Dict.keys g.nodes)
    (fun x hx => (hasNode_iff_mem_keys g x).1 (h4 x hx))
  rw [h2, Dict.keys_length] at this
  omega

/-! #### forests -/

/-- every node has at most one parent -/
def Forest (g : Graph T D) : Prop := ∀ x n, getNode g x = some n → n.parents.length ≤ 1

/-- each listed id comes after all its parents -/
def ParentsFirst (g : Graph T D) (l : List Str) : Prop :=
  ∀ a x b, l = a ++ x :: b → ∀ p, Edge g p x → p ∈ a

theorem ParentsFirst.snoc {g : Graph T D} {l : List Str} (h : ParentsFirst g l) {x : Str} (hx : ∀ p, Edge g p x → p ∈ l) :
    ParentsFirst g (l ++ [x]) := by
  intro a y b e p hp
  rcases List.eq_nil_or_concat b with rfl | ⟨b', z, rfl⟩
  · have := List.append_inj_right' e (by simp)
    have e' := List.append_inj_left' e (by simp)
    simp at this; subst this; subst e'
    exact hx p hp
  · have : l ++ [x] = (a ++ y :: b') ++ [z] := by rw [e]; simp
    have e' := List.append_inj_left' this (by simp)
    exact h a y b' e' p hp

structure SeqInv (g : Graph T D) (w : Walk) : Prop where
  same : ∀ x, x ∈ w.1 ↔ x ∈ w.2
  nodup : w.2.Nodup
  order : ParentsFirst g w.2

theorem seqVisit_forest {g : Graph T D} (hg : WF g) (hf : Forest g) (f : Nat) :
    ∀ w id w', SeqInv g w → id ∉ w.1 → (∀ p, Edge g p id → p ∈ w.1) → seqVisit g f w id = .ok w' →
      SeqInv g w' ∧ (∀ x ∈ w.1, x ∈ w'.1) ∧ (∀ x ∈ w'.1, x ∈ w.1 ∨ x = id ∨ ∃ p, Edge g p x) := by
  induction f with
  | zero => intro w id w' _ _ _ h; simp [seqVisit] at h
  | succ f ih =>
    rintro ⟨vis, res⟩ id w' hi hv hp h
    simp only [seqVisit] at h
    split at h
    · simp at h
    · rename_i n hn
      have hpar : ∀ p ∈ n.parents, p ∈ vis := by
        intro p hpn
        obtain ⟨m, hm, hc⟩ := hg.parent_link hn hpn
        exact hp p ⟨m, hm, hc⟩
      have hpl : ∀ (l : List Str), (∀ p ∈ l, p ∈ vis) →
          foldE (fun (w : Walk) x => if x ∈ w.1 then .ok w else seqVisit g f w x) (id :: vis, res) l = .ok (id :: vis, res) := by
        intro l
        induction l with
        | nil => intro _; rfl
        | cons p l ihl =>
          intro hl
          have : p ∈ id :: vis := by simp [hl p (by simp)]
          simp only [foldE, this, if_true]
          exact ihl (fun q hq => hl q (by simp [hq]))
      rw [hpl n.parents hpar] at h
      simp only at h
      have hstart : SeqInv g (id :: vis, res ++ [id]) := by
        refine ⟨?_, ?_, ?_⟩
        · intro x; simp only [List.mem_cons, List.mem_append, List.not_mem_nil, or_false]
          have := hi.same x; simp only at this; rw [this]; exact Or.comm
        · simp only; rw [List.nodup_append]
          refine ⟨hi.nodup, by simp, ?_⟩
          intro a ha b hb; simp at hb; subst hb; rintro rfl
          exact hv ((hi.same _).2 ha)
        · exact hi.order.snoc (fun p hpe => (hi.same p).1 (hp p hpe))
      have := foldE_inv (f := fun (w : Walk) x => if x ∈ w.1 then .ok w else seqVisit g f w x)
        (fun w => SeqInv g w ∧ (∀ x ∈ id :: vis, x ∈ w.1) ∧ (∀ x ∈ w.1, x ∈ id :: vis ∨ ∃ p, Edge g p x)) n.children (by
          rintro c hc w1 w2 ⟨q1, q2, q3⟩ e
          split at e
          · simp at e; subst e; exact ⟨q1, q2, q3⟩
          · rename_i hcv
            have hcp : ∀ p, Edge g p c → p ∈ w1.1 := by
              rintro p ⟨m, hm, hmc⟩
              obtain ⟨k, hk, hkp⟩ := hg.child_link hn hc
              obtain ⟨k', hk', hkp'⟩ := hg.child_link hm hmc
              rw [hk] at hk'; simp at hk'; subst hk'
              have hlen := hf c k hk
              have : p = id := by
                match hpk : k.parents, hlen with
                | [a], _ => rw [hpk] at hkp hkp'; simp at hkp hkp'; rw [hkp, hkp']
                | [], _ => rw [hpk] at hkp; simp at hkp
              subst this; exact q2 p (by simp)
            obtain ⟨t1, t2, t3⟩ := ih w1 c w2 q1 hcv hcp e
            refine ⟨t1, fun x hx => t2 x (q2 x hx), ?_⟩
            intro x hx
            rcases t3 x hx with h | rfl | h
            · exact q3 x h
            · exact Or.inr ⟨id, n, hn, hc⟩
            · exact Or.inr h) _ w' ⟨hstart, fun x hx => hx, fun x hx => Or.inl hx⟩ h
      obtain ⟨t1, t2, t3⟩ := this
      refine ⟨t1, fun x hx => t2 x (by simp; exact Or.inr hx), ?_⟩
      intro x hx
      rcases t3 x hx with h | h
      · rcases List.mem_cons.1 h with rfl | h
        · exact Or.inr (Or.inl rfl)
        · exact Or.inl h
      · exact Or.inr (Or.inr h)

theorem seqOrder_forest {g : Graph T D} (hg : WF g) (hf : Forest g) {res : List Str} (h : seqOrder g = .ok res) :
    res.Nodup ∧ ParentsFirst g res := by
  obtain ⟨hs, w, h1, h2, h3, h4, h5⟩ := seqOrder_ok hg
  rw [h] at h3; simp at h3; subst h3
  obtain ⟨hs', e1, e2, e3⟩ := heads_spec hg
  rw [h1] at e1; simp at e1; subst e1
  have nohead : ∀ x ∈ hs, ∀ p, ¬ Edge g p x := by
    rintro x hx p ⟨m, hm, hc⟩
    obtain ⟨n, hn, hnp⟩ := (e3 x).1 hx
    obtain ⟨k, hk, hkp⟩ := hg.child_link hm hc
    rw [hn] at hk; simp at hk; subst hk; simp [hnp] at hkp
  have main : ∀ (l : List Str), l.Nodup → (∀ x ∈ l, x ∈ hs) → ∀ w0 w : Walk, SeqInv g w0 → (∀ x ∈ l, x ∉ w0.1) →
      foldE (seqVisit g (g.nodes.length + 1)) w0 l = .ok w → SeqInv g w := by
    intro l
    induction l with
    | nil => intro _ _ w0 w hi _ e; simp [foldE] at e; subst e; exact hi
    | cons a l ih =>
      intro hnd hl w0 w hi hnv e
      have hnd' := List.nodup_cons.1 hnd
      simp only [foldE] at e
      cases hv : seqVisit g (g.nodes.length + 1) w0 a with
      | error er => simp [hv] at e
      | ok w1 =>
        simp only [hv] at e
        obtain ⟨t1, t2, t3⟩ := seqVisit_forest hg hf _ w0 a w1 hi (hnv a (by simp))
          (fun p hp => absurd hp (nohead a (hl a (by simp)) p)) hv
        refine ih hnd'.2 (fun x hx => hl x (by simp [hx])) w1 w t1 ?_ e
        intro x hx hx1
        rcases t3 x hx1 with h | rfl | ⟨p, hp⟩
        · exact hnv x (by simp [hx]) h
        · exact hnd'.1 hx
        · exact nohead x (hl x (by simp [hx])) p hp
  have := main hs e2 (fun x hx => hx) ([], []) w ⟨by simp, by simp, by intro a x b e; simp at e⟩ (by simp) h2
  exact ⟨this.nodup, this.order⟩

end Graph
end Spine
