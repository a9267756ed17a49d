import Verif.Lemmas.Graph
/- Facts about the traversals: loops, fuel, `__get_nodes`. -/
namespace Spine
namespace Graph
variable {T D : Type}

/-! ### loops -/

/-- A loop whose body never raises under the invariant `P`, relates states by the preorder `R`, and establishes
`post a` for each processed element. -/
theorem foldE_ok {α β : Type} {f : β → α → Except Err β} (P : β → Prop) (R : β → β → Prop) (post : α → β → Prop)
    (rrefl : ∀ b, R b b) (rtrans : ∀ a b c, R a b → R b c → R a c)
    (pmono : ∀ a b b', R b b' → post a b → post a b') (l : List α)
    (hs : ∀ a ∈ l, ∀ b, P b → ∃ b', f b a = .ok b' ∧ P b' ∧ R b b' ∧ post a b') :
    ∀ b, P b → ∃ b', foldE f b l = .ok b' ∧ P b' ∧ R b b' ∧ ∀ a ∈ l, post a b' := by
  induction l with
  | nil => intro b hb; exact ⟨b, rfl, hb, rrefl b, by simp⟩
  | cons a l ih =>
    intro b hb
    obtain ⟨b1, h1, h2, h3, h4⟩ := hs a (by simp) b hb
    obtain ⟨b2, g1, g2, g3, g4⟩ := ih (fun a ha => hs a (by simp [ha])) b1 h2
    refine ⟨b2, ?_, g2, rtrans _ _ _ h3 g3, ?_⟩
    · simp only [foldE, h1]; exact g1
    · intro x hx
      rcases List.mem_cons.1 hx with rfl | hx
      · exact pmono _ _ _ g3 h4
      · exact g4 x hx

/-- invariant of a loop, when it is known not to raise -/
theorem foldE_inv {α β : Type} {f : β → α → Except Err β} (P : β → Prop) (l : List α)
    (hs : ∀ a ∈ l, ∀ b b', P b → f b a = .ok b' → P b') :
    ∀ b b', P b → foldE f b l = .ok b' → P b' := by
  induction l with
  | nil => intro b b' hb h; simp [foldE] at h; subst h; exact hb
  | cons a l ih =>
    intro b b' hb h
    simp only [foldE] at h
    cases hf : f b a with
    | error e => simp [hf] at h
    | ok b1 =>
      simp only [hf] at h
      exact ih (fun a ha => hs a (by simp [ha])) b1 b' (hs a (by simp) b b1 hb hf) h

theorem foldE_append {α β : Type} (f : β → α → Except Err β) (l m : List α) (b : β) :
    foldE f b (l ++ m) = match foldE f b l with
      | .ok b' => foldE f b' m
      | .error e => .error e := by
  induction l generalizing b with
  | nil => rfl
  | cons a l ih =>
    simp only [List.cons_append, foldE]
    cases f b a with
    | error e => rfl
    | ok b1 => exact ih b1

/-! ### number of ids not visited yet -/

/-- how many ids of the graph are not in `vis` -/
def left (g : Graph T D) (vis : List Str) : Nat := ((Dict.keys g.nodes).filter (fun x => decide (x ∉ vis))).length

theorem left_le (g : Graph T D) (vis : List Str) : left g vis ≤ g.nodes.length := by
  have := List.length_filter_le (fun x => decide (x ∉ vis)) (Dict.keys g.nodes)
  simpa [left, Dict.keys_length] using this

theorem left_mono (g : Graph T D) {vis vis' : List Str} (h : ∀ x ∈ vis, x ∈ vis') : left g vis' ≤ left g vis := by
  unfold left
  rw [← List.countP_eq_length_filter, ← List.countP_eq_length_filter]
  apply List.countP_mono_left
  intro x _ hx
  simp at hx ⊢
  exact fun hv => hx (h x hv)

theorem left_cons (g : Graph T D) {vis : List Str} {id : Str} (hk : id ∈ Dict.keys g.nodes) (hv : id ∉ vis) :
    left g (id :: vis) < left g vis := by
  have h1 : (Dict.keys g.nodes).filter (fun x => decide (x ∉ id :: vis)) =
      ((Dict.keys g.nodes).filter (fun x => decide (x ∉ vis))).filter (fun x => decide (x ≠ id)) := by
    rw [List.filter_filter]
    apply List.filter_congr
    intro x _
    simp [not_or]
  unfold left
  rw [h1]
  apply List.length_filter_lt_length_iff_exists.2
  exact ⟨id, by simp [List.mem_filter, hk, hv], by simp⟩

theorem left_pos (g : Graph T D) {vis : List Str} {id : Str} (hk : id ∈ Dict.keys g.nodes) (hv : id ∉ vis) :
    0 < left g vis := Nat.lt_of_le_of_lt (Nat.zero_le _) (left_cons g hk hv)

/-! ### heads and tails -/

/-- `rel` leads from nodes to nodes -/
def Closed (g : Graph T D) (rel : Node T D → List Str) : Prop :=
  ∀ x n y, getNode g x = some n → y ∈ rel n → HasNode g y

/-- invariant of `__get_nodes`: the result lists, once each, the visited ids without related nodes -/
structure WalkInv (g : Graph T D) (rel : Node T D → List Str) (w : Walk) : Prop where
  nodup : w.2.Nodup
  mem : ∀ x, x ∈ w.2 ↔ x ∈ w.1 ∧ ∃ n, getNode g x = some n ∧ rel n = []

theorem walk_ok {g : Graph T D} {rel : Node T D → List Str} (hc : Closed g rel) (f : Nat) :
    ∀ w id, HasNode g id → left g w.1 < f → WalkInv g rel w →
      ∃ w', walk g rel f w id = .ok w' ∧ WalkInv g rel w' ∧ (∀ x ∈ w.1, x ∈ w'.1) ∧ id ∈ w'.1 := by
  induction f with
  | zero => intro w id _ h; omega
  | succ f ih =>
    rintro ⟨vis, res⟩ id ⟨n, hn⟩ hl hi
    simp only [walk]
    by_cases hv : id ∈ vis
    · simp only [hv, if_true]
      exact ⟨_, rfl, hi, fun x hx => hx, hv⟩
    · simp only [hv, if_false, hn]
      have hk : id ∈ Dict.keys g.nodes := (hasNode_iff_mem_keys g id).1 ⟨n, hn⟩
      by_cases hr : rel n = []
      · simp only [hr, if_true]
        refine ⟨_, rfl, ⟨?_, ?_⟩, fun x hx => List.mem_cons_of_mem _ hx, by simp⟩
        · rw [List.nodup_append]
          refine ⟨hi.nodup, by simp, ?_⟩
          intro a ha b hb; simp at hb; subst hb; rintro rfl
          exact hv ((hi.mem _).1 ha).1
        · intro x
          simp only [List.mem_append, List.mem_cons, List.not_mem_nil, or_false]
          rw [hi.mem]
          constructor
          · rintro (⟨a, b⟩ | rfl)
            · exact ⟨Or.inr a, b⟩
            · exact ⟨Or.inl rfl, n, hn, hr⟩
          · rintro ⟨rfl | a, b⟩
            · exact Or.inr rfl
            · exact Or.inl ⟨a, b⟩
      · simp only [hr, if_false]
        have hlc := left_cons g hk hv
        obtain ⟨w', h1, ⟨h2, -⟩, h3, h4⟩ := foldE_ok
          (fun w : Walk => WalkInv g rel w ∧ left g w.1 < f) (fun a b => ∀ x ∈ a.1, x ∈ b.1) (fun a b => a ∈ b.1)
          (fun _ _ h => h) (fun _ _ _ h1 h2 x hx => h2 x (h1 x hx)) (fun a b b' h1 h2 => h1 a h2) (rel n)
          (f := walk g rel f) (by
            rintro a ha b ⟨p1, p2⟩
            obtain ⟨w', q1, q2, q3, q4⟩ := ih b a (hc id n a hn ha) p2 p1
            exact ⟨w', q1, ⟨q2, Nat.lt_of_le_of_lt (left_mono g q3) p2⟩, q3, q4⟩)
          (id :: vis, res) ⟨⟨hi.nodup, by
            intro x; rw [hi.mem]; simp only [List.mem_cons]
            constructor
            · rintro ⟨a, b⟩; exact ⟨Or.inr a, b⟩
            · rintro ⟨rfl | a, b⟩
              · obtain ⟨n', e1, e2⟩ := b; rw [hn] at e1; simp at e1; subst e1; exact absurd e2 hr
              · exact ⟨a, b⟩⟩, by show left g (id :: vis) < f; simp only at hl; omega⟩
        exact ⟨w', h1, h2, fun x hx => h3 x (List.mem_cons_of_mem _ hx), h3 id (by simp)⟩

theorem getNodesBy_spec {g : Graph T D} {rel : Node T D → List Str} (hc : Closed g rel) :
    ∃ res, getNodesBy g rel = .ok res ∧ res.Nodup ∧ ∀ x, x ∈ res ↔ ∃ n, getNode g x = some n ∧ rel n = [] := by
  obtain ⟨w', h1, h2, -, h4⟩ := foldE_ok
    (fun w : Walk => WalkInv g rel w) (fun a b => ∀ x ∈ a.1, x ∈ b.1) (fun a b => a ∈ b.1)
    (fun _ _ h => h) (fun _ _ _ h1 h2 x hx => h2 x (h1 x hx)) (fun a b b' h1 h2 => h1 a h2) (Dict.keys g.nodes)
    (f := walk g rel (g.nodes.length + 1)) (by
      intro a ha b hb
      exact walk_ok hc _ b a ((hasNode_iff_mem_keys g a).2 ha) (Nat.lt_succ_of_le (left_le g _)) hb)
    ([], []) ⟨by simp, by simp⟩
  refine ⟨w'.2, ?_, h2.nodup, ?_⟩
  · simp only [getNodesBy, h1]
  · intro x
    rw [h2.mem]
    constructor
    · exact fun h => h.2
    · rintro ⟨n, hn, hr⟩
      exact ⟨h4 x ((hasNode_iff_mem_keys g x).1 ⟨n, hn⟩), n, hn, hr⟩

theorem WF.closed_children {g : Graph T D} (hg : WF g) : Closed g Node.children := by
  intro x n y hx hy; obtain ⟨m, hm, -⟩ := hg.child_link hx hy; exact ⟨m, hm⟩

theorem WF.closed_parents {g : Graph T D} (hg : WF g) : Closed g Node.parents := by
  intro x n y hx hy; obtain ⟨m, hm, -⟩ := hg.parent_link hx hy; exact ⟨m, hm⟩

theorem heads_spec {g : Graph T D} (hg : WF g) :
    ∃ res, heads g = .ok res ∧ res.Nodup ∧ ∀ x, x ∈ res ↔ ∃ n, getNode g x = some n ∧ n.parents = [] :=
  getNodesBy_spec hg.closed_parents

theorem tails_spec {g : Graph T D} (hg : WF g) :
    ∃ res, tails g = .ok res ∧ res.Nodup ∧ ∀ x, x ∈ res ↔ ∃ n, getNode g x = some n ∧ n.children = [] :=
  getNodesBy_spec hg.closed_children

/-! ### circular references -/

theorem Reach.trans {R : Str → Str → Prop} {a b c : Str} (h1 : Reach R a b) (h2 : Reach R b c) : Reach R a c := by
  induction h1 with
  | refl => exact h2
  | head h _ ih => exact Reach.head h (ih h2)

theorem Reach.single {R : Str → Str → Prop} {a b : Str} (h : R a b) : Reach R a b := Reach.head h (Reach.refl b)

theorem Reach.tail {R : Str → Str → Prop} {a b c : Str} (h1 : Reach R a b) (h2 : R b c) : Reach R a c :=
  h1.trans (Reach.single h2)

/-- `x` can reach a node that lies on a cycle -/
def ReachesCycle (g : Graph T D) (x : Str) : Prop := ∃ y, Reach (Edge g) x y ∧ OnCycle g y

theorem ReachesCycle.of_reach {g : Graph T D} {x y : Str} (h : Reach (Edge g) x y) (hy : ReachesCycle g y) :
    ReachesCycle g x := by
  obtain ⟨z, h1, h2⟩ := hy; exact ⟨z, h.trans h1, h2⟩

/-- totality: with enough fuel the search never fails, and `visited` only grows -/
theorem circVisit_total {g : Graph T D} (hg : Closed g Node.children) (f : Nat) :
    ∀ s id, HasNode g id → left g s.visited < f →
      ∃ r s', circVisit g f s id = .ok (r, s') ∧ (∀ x ∈ s.visited, x ∈ s'.visited) ∧ id ∈ s'.visited := by
  induction f with
  | zero => intro s id _ h; omega
  | succ f ih =>
    rintro s id ⟨n, hn⟩ hl
    simp only [circVisit]
    by_cases hv : id ∈ s.visited
    · simp only [hv, if_true]
      exact ⟨_, _, rfl, fun x hx => hx, hv⟩
    · simp only [hv, if_false, hn]
      have hk : id ∈ Dict.keys g.nodes := (hasNode_iff_mem_keys g id).1 ⟨n, hn⟩
      have hlc := left_cons g hk hv
      have loop : ∀ (cs : List Str) (s' : CState), (∀ c ∈ cs, HasNode g c) → left g s'.visited < f →
          ∃ r s'', circLoop (circVisit g f) cs s' = .ok (r, s'') ∧ (∀ x ∈ s'.visited, x ∈ s''.visited) := by
        intro cs
        induction cs with
        | nil => intro s' _ _; exact ⟨_, _, rfl, fun x hx => hx⟩
        | cons c cs ihc =>
          intro s' hcs hl'
          obtain ⟨r, s1, e1, e2, -⟩ := ih s' c (hcs c (by simp)) hl'
          simp only [circLoop, e1]
          split
          · exact ⟨_, _, rfl, e2⟩
          · obtain ⟨r', s2, e3, e4⟩ := ihc s1 (fun c hc => hcs c (by simp [hc])) (Nat.lt_of_le_of_lt (left_mono g e2) hl')
            exact ⟨r', s2, e3, fun x hx => e4 x (e2 x hx)⟩
      obtain ⟨r, s', h1, h2⟩ := loop n.children { path := s.path ++ [id], visited := id :: s.visited }
        (fun c hc => hg id n c hn hc) (by simp only; omega)
      exact ⟨r, s', h1, fun x hx => h2 x (by simp [hx]), h2 id (by simp)⟩

/-- every reported id reaches a cycle; an empty report restores `path` -/
theorem circVisit_sound {g : Graph T D} (f : Nat) :
    ∀ s id r s', (∀ x ∈ s.path, ReachesCycle g x ∨ Reach (Edge g) x id) → circVisit g f s id = .ok (r, s') →
      (∀ x ∈ s'.path, x ∈ s.path ∨ ReachesCycle g x) ∧ (∀ x ∈ r, ReachesCycle g x) ∧ (r ≠ [] → ReachesCycle g id) ∧
      (r = [] → s'.path = s.path) := by
  induction f with
  | zero => intro s id r s' _ h; simp [circVisit] at h
  | succ f ih =>
    intro s id r s' hp h
    simp only [circVisit] at h
    split at h
    · simp at h; obtain ⟨rfl, rfl⟩ := h
      exact ⟨fun x hx => Or.inl hx, by simp, by simp, fun _ => rfl⟩
    · split at h
      · simp at h
      · rename_i n hn
        have loop : ∀ (cs : List Str) (s0 : CState) r s', (∀ c ∈ cs, Edge g id c) →
            (∀ x ∈ s0.path, ReachesCycle g x ∨ Reach (Edge g) x id) →
            circLoop (circVisit g f) cs s0 = .ok (r, s') →
            (∀ x ∈ s'.path, x ∈ s0.path ∨ ReachesCycle g x) ∧ (∀ x ∈ r, ReachesCycle g x) ∧
            (r ≠ [] → ReachesCycle g id) ∧ (r = [] → s'.path = s0.path.dropLast) := by
          intro cs
          induction cs with
          | nil =>
            intro s0 r s' _ _ h
            simp [circLoop] at h; obtain ⟨rfl, rfl⟩ := h
            exact ⟨fun x hx => Or.inl (List.dropLast_sublist _ |>.subset hx), by simp, by simp, fun _ => rfl⟩
          | cons c cs ihc =>
            intro s0 r s' hcs hp0 h
            have hec := hcs c (by simp)
            simp only [circLoop] at h
            cases hv : circVisit g f s0 c with
            | error e => simp [hv] at h
            | ok q =>
              obtain ⟨r1, s1⟩ := q
              simp only [hv] at h
              obtain ⟨a1, a2, a3, a4⟩ := ih s0 c r1 s1 (by
                intro x hx
                rcases hp0 x hx with h | h
                · exact Or.inl h
                · exact Or.inr (h.tail hec)) hv
              split at h
              · rename_i hcond
                simp at h; obtain ⟨rfl, rfl⟩ := h
                have hrc : ReachesCycle g c := by
                  rcases hcond with hc | hc
                  · rcases a1 c hc with hc | hc
                    · rcases hp0 c hc with h | h
                      · exact h
                      · exact ⟨id, h, c, hec, h⟩
                    · exact hc
                  · exact a3 hc
                refine ⟨a1, ?_, ?_, by simp⟩
                · intro x hx
                  rcases List.mem_append.1 hx with hx | hx
                  · exact a2 x hx
                  · simp at hx; subst hx; exact hrc
                · intro _; exact hrc.of_reach (Reach.single hec)
              · rename_i hcond
                have hr1 : r1 = [] := by
                  rcases Classical.em (r1 = []) with h | h
                  · exact h
                  · exact absurd (Or.inr h) hcond
                have hpath := a4 hr1
                have := ihc s1 r s' (fun c hc => hcs c (by simp [hc])) (by rw [hpath]; exact hp0) h
                rw [hpath] at this
                exact this
        obtain ⟨b1, b2, b3, b4⟩ := loop n.children _ r s' (fun c hc => ⟨n, hn, hc⟩) (by
          intro x hx
          rcases List.mem_append.1 hx with hx | hx
          · exact hp x hx
          · simp at hx; subst hx; exact Or.inr (Reach.refl _)) h
        refine ⟨?_, b2, b3, ?_⟩
        · intro x hx
          rcases Classical.em (r = []) with hr | hr
          · rw [b4 hr] at hx; simp at hx; exact Or.inl hx
          · rcases b1 x hx with hx | hx
            · rcases List.mem_append.1 hx with hx | hx
              · exact Or.inl hx
              · simp at hx; subst hx; exact Or.inr (b3 hr)
            · exact Or.inr hx
        · intro hr; rw [b4 hr]; simp

/-- while nothing was reported: finished ids (visited, not on the path) are not on a cycle -/
def Finished (g : Graph T D) (s : CState) : Prop := ∀ x ∈ s.visited, x ∉ s.path → ¬ OnCycle g x

theorem circVisit_complete {g : Graph T D} (f : Nat) :
    ∀ s id s', (∀ x ∈ s.path, x ∈ s.visited) → Finished g s → circVisit g f s id = .ok ([], s') →
      (∀ x ∈ s.visited, x ∈ s'.visited) ∧ id ∈ s'.visited ∧ s'.path = s.path ∧ Finished g s' := by
  induction f with
  | zero => intro s id s' _ _ h; simp [circVisit] at h
  | succ f ih =>
    intro s id s' hpv hf h
    simp only [circVisit] at h
    split at h
    · rename_i hv
      simp at h; subst h
      exact ⟨fun x hx => hx, hv, rfl, hf⟩
    · rename_i hv
      split at h
      · simp at h
      · rename_i n hn
        have loop : ∀ (cs : List Str) (s0 : CState) s', (∀ x ∈ s0.path, x ∈ s0.visited) → Finished g s0 →
            circLoop (circVisit g f) cs s0 = .ok ([], s') →
            ∃ s1, s' = { s1 with path := s0.path.dropLast } ∧ s1.path = s0.path ∧ (∀ x ∈ s0.visited, x ∈ s1.visited) ∧
              Finished g s1 ∧ ∀ c ∈ cs, c ∈ s1.visited ∧ c ∉ s1.path := by
          intro cs
          induction cs with
          | nil =>
            intro s0 s' _ hf0 h
            simp [circLoop] at h; subst h
            exact ⟨s0, rfl, rfl, fun x hx => hx, hf0, by simp⟩
          | cons c cs ihc =>
            intro s0 s' hp0 hf0 h
            simp only [circLoop] at h
            cases hv : circVisit g f s0 c with
            | error e => simp [hv] at h
            | ok q =>
              obtain ⟨r1, s1⟩ := q
              simp only [hv] at h
              split at h
              · simp at h
              · rename_i hcond
                simp only [not_or, Decidable.not_not] at hcond
                obtain ⟨hcp, rfl⟩ := hcond
                obtain ⟨a1, a2, a3, a4⟩ := ih s0 c s1 hp0 hf0 hv
                obtain ⟨s2, b1, b2, b3, b4, b5⟩ := ihc s1 s' (by rw [a3]; exact fun x hx => a1 x (hp0 x hx)) a4 h
                refine ⟨s2, by rw [b1, a3], by rw [b2, a3], fun x hx => b3 x (a1 x hx), b4, ?_⟩
                intro d hd
                rcases List.mem_cons.1 hd with rfl | hd
                · exact ⟨b3 _ a2, by rw [b2]; exact hcp⟩
                · exact b5 d hd
        obtain ⟨s1, c1, c2, c3, c4, c5⟩ := loop n.children _ s' (by
          intro x hx
          simp only [List.mem_append, List.mem_cons, List.not_mem_nil, or_false] at hx ⊢
          rcases hx with hx | hx
          · exact Or.inr (hpv x hx)
          · exact Or.inl hx) (by
          intro x hx hxp
          simp only [List.mem_append, List.mem_cons, List.not_mem_nil, or_false, not_or] at hx hxp
          rcases hx with hx | hx
          · exact absurd hx hxp.2
          · exact hf x hx hxp.1) h
        have hpath : s'.path = s.path := by rw [c1]; simp
        refine ⟨fun x hx => ?_, ?_, hpath, ?_⟩
        · rw [c1]; exact c3 x (by simp [hx])
        · rw [c1]; exact c3 id (by simp)
        · intro x hx hxp
          rw [hpath] at hxp
          have hx1 : x ∈ s1.visited := by rw [c1] at hx; exact hx
          by_cases e : x = id
          · subst e
            rintro ⟨y, ⟨n', hn', hy⟩, hr⟩
            rw [hn] at hn'; simp at hn'; subst hn'
            obtain ⟨d1, d2⟩ := c5 y hy
            apply c4 y d1 d2
            cases hr with
            | refl => exact ⟨_, ⟨n, hn, hy⟩, Reach.refl _⟩
            | head h1 h2 => exact ⟨_, h1, h2.tail ⟨n, hn, hy⟩⟩
          · apply c4 x hx1
            rw [c2]; simp [hxp, e]

theorem circAll_spec {g : Graph T D} (hg : Closed g Node.children) (ids : List Str) (hids : ∀ x ∈ ids, HasNode g x) :
    ∀ acc s, (∀ x ∈ s.path, ReachesCycle g x) → (∀ x ∈ acc, ReachesCycle g x) →
      ∃ acc' s', circAll g ids (acc, s) = .ok (acc', s') ∧ (∀ x ∈ acc', ReachesCycle g x) ∧
        (∃ t, acc' = acc ++ t) ∧
        (acc' = [] → s.path = [] → Finished g s → (∀ x ∈ s.visited, x ∈ s'.visited) ∧ s'.path = [] ∧ Finished g s' ∧
          ∀ x ∈ ids, x ∈ s'.visited) := by
  induction ids with
  | nil =>
    intro acc s _ ha
    exact ⟨acc, s, rfl, ha, ⟨[], by simp⟩, fun _ h hf => ⟨fun x hx => hx, h, hf, by simp⟩⟩
  | cons id ids ih =>
    intro acc s hp ha
    obtain ⟨r, s1, e1, e2, e3⟩ := circVisit_total hg (g.nodes.length + 1) s id (hids id (by simp))
      (Nat.lt_succ_of_le (left_le g _))
    obtain ⟨a1, a2, -, -⟩ := circVisit_sound _ s id r s1 (fun x hx => Or.inl (hp x hx)) e1
    obtain ⟨acc', s', b1, b2, ⟨t, b3⟩, b4⟩ := ih (fun x hx => hids x (by simp [hx])) (acc ++ r) s1
      (fun x hx => (a1 x hx).elim (hp x) (fun h => h))
      (fun x hx => (List.mem_append.1 hx).elim (ha x) (a2 x))
    refine ⟨acc', s', by simp only [circAll, e1]; exact b1, b2, ⟨r ++ t, by rw [b3]; simp⟩, ?_⟩
    intro h hpath hf
    have hr : r = [] := by rw [b3] at h; simp at h; exact h.2.1
    subst hr
    obtain ⟨c1, c2, c3, c4⟩ := circVisit_complete _ s id s1 (by simp [hpath]) hf e1
    obtain ⟨d1, d2, d3, d4⟩ := b4 h (by rw [c3, hpath]) c4
    refine ⟨fun x hx => d1 x (c1 x hx), d2, d3, ?_⟩
    intro x hx
    rcases List.mem_cons.1 hx with rfl | hx
    · exact d1 _ c2
    · exact d4 x hx

theorem circular_spec {g : Graph T D} (hg : Closed g Node.children) :
    ∃ ids, circular g = .ok ids ∧ (∀ x ∈ ids, ReachesCycle g x) ∧ (ids ≠ [] ↔ Cyclic g) := by
  obtain ⟨acc, s', h1, h2, -, h4⟩ := circAll_spec hg (Dict.keys g.nodes)
    (fun x hx => (hasNode_iff_mem_keys g x).2 hx) [] { path := [], visited := [] } (by simp) (by simp)
  refine ⟨acc.reverse, by simp only [circular, h1], fun x hx => h2 x (by simpa using hx), ?_⟩
  constructor
  · intro h
    cases acc with
    | nil => simp at h
    | cons a l => obtain ⟨y, -, hy⟩ := h2 a (by simp); exact ⟨y, hy⟩
  · rintro ⟨x, hx⟩ he
    have he : acc = [] := by simpa using he
    obtain ⟨-, p2, p3, p4⟩ := h4 he rfl (by intro x hx; simp at hx)
    obtain ⟨y, ⟨n, hn, hy⟩, hr⟩ := hx
    exact p3 x (p4 x (Dict.mem_keys_of_get? hn)) (by rw [p2]; simp) ⟨y, ⟨n, hn, hy⟩, hr⟩

end Graph
end Spine
