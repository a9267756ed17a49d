import Verif.Model.Recursion
import Verif.Spec.Depth
import Verif.Lemmas.CoreEditor
import Verif.Lemmas.Paths
/- The searches under a recursion limit: either the limit is hit or nothing changes; chains of nodes that hit it. -/
set_option linter.unusedSectionVars false
set_option linter.unusedSimpArgs false
namespace Spine

theorem Lim.refl {α : Type} (x : Except Err α) : Lim x x := .inr rfl
theorem LimR.refl {σ α : Type} (x : Res σ α) : LimR x x := .inr rfl

namespace Graph
variable {T D : Type}

theorem foldE_lim {α β : Type} {f f' : β → α → Except Err β} (h : ∀ b a, Lim (f b a) (f' b a)) (l : List α) :
    ∀ b, Lim (foldE f b l) (foldE f' b l) := by
  induction l with
  | nil => intro b; exact Lim.refl _
  | cons a l ih =>
    intro b
    simp only [foldE]
    rcases h b a with e | e
    · rw [e]; exact .inl rfl
    · rw [e]
      cases f' b a with
      | error x => exact Lim.refl _
      | ok b' => exact ih b'

theorem walk_lim (g : Graph T D) (rel : Node T D → List Str) : ∀ (f k : Nat) (w : Walk) (id : Str),
    Lim (walk g rel f w id) (walk g rel (f + k) w id) := by
  intro f
  induction f with
  | zero => intro k w id; exact .inl rfl
  | succ f ih =>
    rintro k ⟨vis, res⟩ id
    rw [Nat.succ_add_eq_add_succ, Nat.add_succ]
    simp only [walk]
    split
    · exact Lim.refl _
    · split
      · exact Lim.refl _
      · split
        · exact Lim.refl _
        · exact foldE_lim (fun b a => ih k b a) _ _

theorem getNodesByL_lim (g : Graph T D) (rel : Node T D → List Str) (f k : Nat) :
    Lim (getNodesByL f g rel) (getNodesByL (f + k) g rel) := by
  unfold getNodesByL
  rcases foldE_lim (fun b a => walk_lim g rel f k b a) (Dict.keys g.nodes) ([], []) with e | e
  · rw [e]; exact .inl rfl
  · rw [e]; exact Lim.refl _

theorem getNodesByL_enough (g : Graph T D) (rel : Node T D → List Str) : getNodesByL (g.nodes.length + 1) g rel = getNodesBy g rel := rfl

/-- under any limit: RecursionError or the unlimited outcome -/
theorem getNodesByL_or {g : Graph T D} {rel : Node T D → List Str} (hc : Closed g rel) (lim : Nat) :
    Lim (getNodesByL lim g rel) (getNodesBy g rel) := by
  rcases Nat.le_total lim (g.nodes.length + 1) with h | h
  · obtain ⟨k, hk⟩ := Nat.exists_eq_add_of_le h
    rw [← getNodesByL_enough, hk]
    exact getNodesByL_lim g rel lim k
  · obtain ⟨k, hk⟩ := Nat.exists_eq_add_of_le h
    rcases getNodesByL_lim g rel (g.nodes.length + 1) k with e | e
    · obtain ⟨res, h1, _⟩ := getNodesBy_spec hc
      rw [getNodesByL_enough, h1] at e; cases e
    · rw [hk, ← e]; exact .inr rfl

/-! ### short chains -/

/-- `b` is listed in `rel` of the node `a` -/
def Rel (g : Graph T D) (rel : Node T D → List Str) (a b : Str) : Prop := ∃ n, getNode g a = some n ∧ b ∈ rel n

theorem walk_short {g : Graph T D} {rel : Node T D → List Str} (hc : Closed g rel) {N : Nat}
    (hN : ∀ l, Chain (fun a b => Rel g rel b a) l → l.Nodup → (∀ x ∈ l, HasNode g x) → l.length ≤ N) :
    ∀ (f : Nat) (vis res st : List Str) (id : Str), Chain (fun a b => Rel g rel b a) (id :: st) → st.Nodup → HasNode g id →
      (∀ x ∈ st, HasNode g x ∧ x ∈ vis) → N + 1 ≤ f + st.length →
      ∃ w', walk g rel f (vis, res) id = .ok w' ∧ ∀ x ∈ vis, x ∈ w'.1 := by
  intro f
  induction f with
  | zero =>
    intro vis res st id h1 h2 _ h4 h5
    cases st with
    | nil => simp at h5
    | cons a l =>
      cases h1 with
      | cons _ h1 =>
        have := hN _ h1 h2 (fun x hx => (h4 x hx).1)
        omega
  | succ f ih =>
    rintro vis res st id h1 h2 ⟨n, hn⟩ h4 h5
    simp only [walk]
    by_cases hv : id ∈ vis
    · simp only [hv, if_true]; exact ⟨_, rfl, fun x hx => hx⟩
    · simp only [hv, if_false, hn]
      by_cases hr : rel n = []
      · simp only [hr, if_true]; exact ⟨_, rfl, fun x hx => List.mem_cons_of_mem _ hx⟩
      · simp only [hr, if_false]
        have hst : (id :: st).Nodup := List.nodup_cons.2 ⟨fun h => hv (h4 id h).2, h2⟩
        have loop : ∀ (l : List Str), (∀ c ∈ l, c ∈ rel n) → ∀ w : Walk, (∀ x ∈ id :: vis, x ∈ w.1) →
            ∃ w', foldE (walk g rel f) w l = .ok w' ∧ ∀ x ∈ id :: vis, x ∈ w'.1 := by
          intro l
          induction l with
          | nil => intro _ w hw; exact ⟨w, rfl, hw⟩
          | cons c l ihl =>
            intro hl w hw
            obtain ⟨w1, e1, e2⟩ := ih w.1 w.2 (id :: st) c (Chain.cons ⟨n, hn, hl c (by simp)⟩ h1) hst
              (hc id n c hn (hl c (by simp)))
              (fun x hx => by
                rcases List.mem_cons.1 hx with rfl | hx
                · exact ⟨⟨n, hn⟩, hw _ (by simp)⟩
                · exact ⟨(h4 x hx).1, hw x (by simp [(h4 x hx).2])⟩)
              (by simp only [List.length_cons]; omega)
            simp only [foldE, e1]
            exact ihl (fun c hc => hl c (by simp [hc])) w1 (fun x hx => e2 x (hw x hx))
        obtain ⟨w', e1, e2⟩ := loop (rel n) (fun _ h => h) (id :: vis, res) (fun x hx => hx)
        exact ⟨w', e1, fun x hx => e2 x (by simp [hx])⟩

theorem getNodesByL_short {g : Graph T D} {rel : Node T D → List Str} (hc : Closed g rel) {lim : Nat}
    (hN : ∀ l, Chain (fun a b => Rel g rel b a) l → l.Nodup → (∀ x ∈ l, HasNode g x) → l.length < lim) :
    getNodesByL lim g rel = getNodesBy g rel := by
  rcases getNodesByL_or hc lim with h | h
  · exfalso
    have loop : ∀ (l : List Str), (∀ c ∈ l, HasNode g c) → ∀ w : Walk, ∃ w', foldE (walk g rel lim) w l = .ok w' := by
      intro l
      induction l with
      | nil => intro _ w; exact ⟨w, rfl⟩
      | cons c l ih =>
        intro hl w
        have hlim : 0 < lim := by have := hN [c] (Chain.single c) (by simp) (by simpa using hl c (by simp)); simp at this; omega
        obtain ⟨w1, e1, _⟩ := walk_short hc (N := lim - 1) (fun l a b c => by have := hN l a b c; omega) lim w.1 w.2 [] c
          (Chain.single c) (by simp) (hl c (by simp)) (by simp) (by simp; omega)
        simp only [foldE, e1]
        exact ih (fun c hc => hl c (by simp [hc])) w1
    obtain ⟨w', hw⟩ := loop (Dict.keys g.nodes) (fun c hc => (hasNode_iff_mem_keys g c).2 hc) ([], [])
    rw [getNodesByL, hw] at h
    cases h
  · exact h

theorem Chain.snoc {R : Str → Str → Prop} {a b : Str} : ∀ {l : List Str}, Chain R (l ++ [a]) → R a b → Chain R (l ++ [a] ++ [b])
  | [], _, h => Chain.cons h (Chain.single b)
  | [x], h1, h => by
    cases h1 with
    | cons h1 _ => exact Chain.cons h1 (Chain.cons h (Chain.single b))
  | x :: y :: l, h1, h => by
    cases h1 with
    | cons h1 h2 => exact Chain.cons h1 (Chain.snoc (l := y :: l) h2 h)

theorem Chain.reverse {R : Str → Str → Prop} : ∀ {l : List Str}, Chain R l → Chain (fun a b => R b a) l.reverse
  | _, .single a => Chain.single a
  | _, .cons (a := a) (b := b) (l := l) h1 h2 => by
    have := Chain.reverse h2
    rw [List.reverse_cons] at this
    rw [List.reverse_cons, List.reverse_cons]
    exact Chain.snoc this h1

theorem Chain.mono {R S : Str → Str → Prop} (h : ∀ a b, R a b → S a b) : ∀ {l : List Str}, Chain R l → Chain S l
  | _, .single a => .single a
  | _, .cons h1 h2 => .cons (h _ _ h1) (Chain.mono h h2)

theorem tailsL_shallow {g : Graph T D} (hg : WF g) {lim : Nat} (h : Shallow lim g) : tailsL lim g = tails g :=
  getNodesByL_short hg.closed_children (fun l h1 h2 h3 => by
    have := h l.reverse (Chain.reverse h1) (List.pairwise_reverse.2 (h2.imp Ne.symm)) (by simpa using h3)
    simpa using this)

theorem headsL_shallow {g : Graph T D} (hg : WF g) {lim : Nat} (h : Shallow lim g) : headsL lim g = heads g :=
  getNodesByL_short hg.closed_parents (fun l h1 h2 h3 =>
    h l (Chain.mono (fun _ _ ⟨_, hn, hb⟩ => hg.parent_link hn hb) h1) h2 h3)

theorem shallow_nodes (g : Graph T D) {lim : Nat} (h : g.nodes.length < lim) : Shallow lim g := by
  intro l _ hn hl
  have := length_le_of_nodup_subset hn (m := Dict.keys g.nodes) (fun x hx => (hasNode_iff_mem_keys g x).1 (hl x hx))
  rw [Dict.keys_length] at this
  omega

/-! ### long chains -/

/-- nodes of `S` are entered from `S` only, or from `p`, which has been visited: a walk that starts outside visits none of them -/
theorem walk_avoid {g : Graph T D} {rel : Node T D → List Str} (S : Str → Prop) (p : Str → Prop)
    (hS : ∀ a n c, getNode g a = some n → c ∈ rel n → S c → S a ∨ p a) :
    ∀ (f : Nat) (w : Walk) (id : Str) (w' : Walk), (∀ x, p x → x ∈ w.1) → ¬ S id → walk g rel f w id = .ok w' →
      (∀ x ∈ w.1, x ∈ w'.1) ∧ ∀ z, S z → z ∈ w'.1 → z ∈ w.1 := by
  intro f
  induction f with
  | zero => intro w id w' _ _ h; cases h
  | succ f ih =>
    rintro ⟨vis, res⟩ id w' hp hid h
    simp only [walk] at h
    split at h
    · injection h with h; subst h; exact ⟨fun x hx => hx, fun z _ hz => hz⟩
    · rename_i hv
      split at h
      · cases h
      · rename_i n hn
        split at h
        · injection h with h; subst h
          refine ⟨fun x hx => List.mem_cons_of_mem _ hx, ?_⟩
          intro z hz hm
          rcases List.mem_cons.1 hm with rfl | hm
          · exact absurd hz hid
          · exact hm
        · have loop : ∀ (l : List Str), (∀ c ∈ l, c ∈ rel n) → ∀ w w' : Walk, (∀ x, p x → x ∈ w.1) →
              foldE (walk g rel f) w l = .ok w' → (∀ x ∈ w.1, x ∈ w'.1) ∧ ∀ z, S z → z ∈ w'.1 → z ∈ w.1 := by
            intro l
            induction l with
            | nil => intro _ w w' _ h; injection h with h; subst h; exact ⟨fun x hx => hx, fun z _ hz => hz⟩
            | cons c l ihl =>
              intro hl w w' hw h
              simp only [foldE] at h
              cases hc : walk g rel f w c with
              | error x => rw [hc] at h; cases h
              | ok w1 =>
                rw [hc] at h
                have hcS : ¬ S c := by
                  intro hcS
                  rcases hS id n c hn (hl c (by simp)) hcS with h1 | h1
                  · exact hid h1
                  · exact hv (hp id h1)
                obtain ⟨a1, a2⟩ := ih w c w1 hw hcS hc
                obtain ⟨b1, b2⟩ := ihl (fun c hc => hl c (by simp [hc])) w1 w' (fun x hx => a1 x (hw x hx)) h
                exact ⟨fun x hx => b1 x (a1 x hx), fun z hz hm => a2 z hz (b2 z hz hm)⟩
          obtain ⟨a1, a2⟩ := loop (rel n) (fun _ h => h) (id :: vis, res) w' (fun x hx => List.mem_cons_of_mem _ (hp x hx)) h
          refine ⟨fun x hx => a1 x (by simp [hx]), ?_⟩
          intro z hz hm
          rcases List.mem_cons.1 (a2 z hz hm) with rfl | hm
          · exact absurd hz hid
          · exact hm

/-- every node of the list after the first is listed in `rel` of the one before it, and of no other node -/
inductive Rope (g : Graph T D) (rel : Node T D → List Str) : List Str → Prop
  | single {a : Str} : HasNode g a → Rope g rel [a]
  | cons {a b : Str} {l : List Str} : Rel g rel a b → (∀ x, Rel g rel x b → x = a) → Rope g rel (b :: l) → Rope g rel (a :: b :: l)

theorem Rope.entered {g : Graph T D} {rel : Node T D → List Str} : ∀ {a : Str} {l : List Str}, Rope g rel (a :: l) →
    ∀ x c, Rel g rel x c → c ∈ l → x ∈ l ∨ x = a
  | a, [], _, x, c, _, hc => by cases hc
  | a, b :: l, .cons _ h2 h3, x, c, hx, hc => by
    rcases List.mem_cons.1 hc with rfl | hc
    · exact .inr (h2 x hx)
    · rcases h3.entered x c hx hc with h | rfl
      · exact .inl (by simp [h])
      · exact .inl (by simp)

theorem foldE_walk_error {g : Graph T D} {rel : Node T D → List Str} (hc : Closed g rel) (f : Nat) :
    ∀ (w : Walk) (id : Str) (x : Err), HasNode g id → walk g rel f w id = .error x → x = .diverge := by
  induction f with
  | zero => intro w id x _ h; injection h with h; exact h.symm
  | succ f ih =>
    rintro ⟨vis, res⟩ id x ⟨n, hn⟩ h
    simp only [walk, hn] at h
    split at h
    · cases h
    · split at h
      · cases h
      · have loop : ∀ (l : List Str), (∀ c ∈ l, HasNode g c) → ∀ w : Walk, foldE (walk g rel f) w l = .error x → x = .diverge := by
          intro l
          induction l with
          | nil => intro _ w h; cases h
          | cons c l ihl =>
            intro hl w h
            simp only [foldE] at h
            cases hq : walk g rel f w c with
            | error y => rw [hq] at h; injection h with h; subst h; exact ih w c y (hl c (by simp)) hq
            | ok w1 => rw [hq] at h; exact ihl (fun c hc => hl c (by simp [hc])) w1 h
        exact loop (rel n) (fun c hcm => hc id n c hn hcm) _ h

/-- a walk along a rope that is longer than the fuel -/
theorem walk_rope {g : Graph T D} {rel : Node T D → List Str} (hc : Closed g rel) :
    ∀ (f : Nat) (a : Str) (l : List Str) (w : Walk), Rope g rel (a :: l) → (a :: l).Nodup → (∀ x ∈ a :: l, x ∉ w.1) → f ≤ l.length →
      walk g rel f w a = .error .diverge := by
  intro f
  induction f with
  | zero => intros; rfl
  | succ f ih =>
    rintro a l ⟨vis, res⟩ hr hnd hv hf
    cases l with
    | nil => simp at hf
    | cons b l =>
      cases hr with
      | cons h1 h2 h3 =>
        obtain ⟨n, hn, hb⟩ := h1
        simp only [walk, hn]
        have ha : a ∉ vis := hv a (by simp)
        simp only [ha, if_false]
        have hne : rel n ≠ [] := fun e => by rw [e] at hb; cases hb
        simp only [hne, if_false]
        have hent := Rope.entered (Rope.cons ⟨n, hn, hb⟩ h2 h3)
        have hal : a ∉ b :: l := (List.nodup_cons.1 hnd).1
        -- the loop over the children: none before `b` visits the rest of the rope
        have loop : ∀ (m : List Str), (∀ c ∈ m, c ∈ rel n) → b ∈ m → ∀ w : Walk, a ∈ w.1 → (∀ x ∈ b :: l, x ∉ w.1) →
            foldE (walk g rel f) w m = .error .diverge := by
          intro m
          induction m with
          | nil => intro _ hb; cases hb
          | cons c m ihm =>
            intro hm hbm w haw hw
            by_cases hcb : c = b
            · subst hcb
              simp only [foldE, ih c l w h3 (List.nodup_cons.1 hnd).2 hw (by simp at hf; omega)]
            · simp only [foldE]
              cases hq : walk g rel f w c with
              | error x =>
                rw [foldE_walk_error hc f w c x (hc a n c hn (hm c (by simp))) hq]
              | ok w1 =>
                have hcl : c ∉ b :: l := by
                  intro hcl
                  rcases List.mem_cons.1 hcl with h | h
                  · exact hcb h
                  · rcases Rope.entered h3 a c ⟨n, hn, hm c (by simp)⟩ h with h | h
                    · exact hal (by simp [h])
                    · exact hal (by simp [h])
                obtain ⟨a1, a2⟩ := walk_avoid (g := g) (rel := rel) (· ∈ b :: l) (· = a)
                  (fun x n' c' hx hc' hm' => hent x c' ⟨n', hx, hc'⟩ hm') f w c w1 (by rintro x rfl; exact haw) hcl hq
                simp only
                exact ihm (fun c hc => hm c (by simp [hc])) (by
                  rcases List.mem_cons.1 hbm with h | h
                  · exact absurd h.symm hcb
                  · exact h) w1 (a1 a haw) (fun x hx hx1 => hw x hx (a2 x hx hx1))
        refine loop (rel n) (fun _ h => h) hb (a :: vis, res) (by simp) ?_
        intro x hx hm
        rcases List.mem_cons.1 hm with rfl | hm
        · exact hal hx
        · exact hv x (by simp [List.mem_cons.1 hx]) hm

/-- a rope that starts at a node listed nowhere, before its other nodes: the search needs a limit of its length -/
theorem getNodesByL_rope {g : Graph T D} {rel : Node T D → List Str} (hc : Closed g rel) {lim : Nat} {a : Str} {l pre post : List Str}
    (hr : Rope g rel (a :: l)) (hnd : (a :: l).Nodup) (hroot : ∀ x, ¬ Rel g rel x a) (hk : Dict.keys g.nodes = pre ++ a :: post)
    (hpre : ∀ x ∈ a :: l, x ∉ pre) (hlim : lim ≤ l.length) : getNodesByL lim g rel = .error .diverge := by
  have hkeys : ∀ x ∈ pre, HasNode g x := fun x hx => (hasNode_iff_mem_keys g x).2 (by rw [hk]; simp [hx])
  have loop : ∀ (m : List Str), (∀ c ∈ m, HasNode g c ∧ c ∉ a :: l) → ∀ w : Walk, (∀ x ∈ a :: l, x ∉ w.1) →
      foldE (walk g rel lim) w (m ++ a :: post) = .error .diverge := by
    intro m
    induction m with
    | nil =>
      intro _ w hw
      simp only [List.nil_append, foldE, walk_rope hc lim a l w hr hnd hw hlim]
    | cons c m ih =>
      intro hm w hw
      simp only [List.cons_append, foldE]
      cases hq : walk g rel lim w c with
      | error x => rw [foldE_walk_error hc lim w c x (hm c (by simp)).1 hq]
      | ok w1 =>
        obtain ⟨_, a2⟩ := walk_avoid (g := g) (rel := rel) (· ∈ a :: l) (fun _ => False)
          (fun x n' c' hx hc' hm' => by
            rcases List.mem_cons.1 hm' with rfl | h
            · exact absurd ⟨n', hx, hc'⟩ (hroot x)
            · rcases hr.entered x c' ⟨n', hx, hc'⟩ h with h | h
              · exact .inl (by simp [h])
              · exact .inl (by simp [h])) lim w c w1 (by simp) (hm c (by simp)).2 hq
        exact ih (fun c hc => hm c (by simp [hc])) w1 (fun x hx hx1 => hw x hx (a2 x hx hx1))
  simp only [getNodesByL, hk, loop pre (fun c hcm => ⟨hkeys c hcm, fun h => hpre c h hcm⟩) ([], []) (by simp)]

/-! ### the other searches -/

theorem circLoop_lim {v v' : CState → Str → Except Err (List Str × CState)} (h : ∀ s c, Lim (v s c) (v' s c)) (l : List Str) :
    ∀ s, Lim (circLoop v l s) (circLoop v' l s) := by
  induction l with
  | nil => intro s; exact Lim.refl _
  | cons c l ih =>
    intro s
    simp only [circLoop]
    rcases h s c with e | e
    · rw [e]; exact .inl rfl
    · rw [e]
      cases v' s c with
      | error x => exact Lim.refl _
      | ok q =>
        simp only
        split
        · exact Lim.refl _
        · exact ih _

theorem circVisit_lim (g : Graph T D) : ∀ (f k : Nat) (s : CState) (id : Str), Lim (circVisit g f s id) (circVisit g (f + k) s id) := by
  intro f
  induction f with
  | zero => intro k s id; exact .inl rfl
  | succ f ih =>
    intro k s id
    rw [Nat.succ_add_eq_add_succ, Nat.add_succ]
    simp only [circVisit]
    split
    · exact Lim.refl _
    · split
      · exact Lim.refl _
      · exact circLoop_lim (fun s c => ih k s c) _ _

theorem circAllL_lim (g : Graph T D) (f k : Nat) (l : List Str) : ∀ a, Lim (circAllL f g l a) (circAllL (f + k) g l a) := by
  induction l with
  | nil => intro a; exact Lim.refl _
  | cons id l ih =>
    rintro ⟨acc, s⟩
    simp only [circAllL]
    rcases circVisit_lim g f k s id with e | e
    · rw [e]; exact .inl rfl
    · rw [e]
      cases circVisit g (f + k) s id with
      | error x => exact Lim.refl _
      | ok q => exact ih _

theorem circularL_lim (g : Graph T D) (f k : Nat) : Lim (circularL f g) (circularL (f + k) g) := by
  unfold circularL
  rcases circAllL_lim g f k (Dict.keys g.nodes) ([], { path := [], visited := [] }) with e | e
  · rw [e]; exact .inl rfl
  · rw [e]; exact Lim.refl _

theorem circAllL_enough (g : Graph T D) (l : List Str) : ∀ a, circAllL (g.nodes.length + 1) g l a = circAll g l a := by
  induction l with
  | nil => intro a; rfl
  | cons id l ih =>
    rintro ⟨acc, s⟩
    simp only [circAllL, circAll]
    cases circVisit g (g.nodes.length + 1) s id with
    | error x => rfl
    | ok q => exact ih _

theorem circularL_enough (g : Graph T D) : circularL (g.nodes.length + 1) g = circular g := by
  unfold circularL circular
  rw [circAllL_enough]
  rfl

theorem seqVisit_lim (g : Graph T D) : ∀ (f k : Nat) (w : Walk) (id : Str), Lim (seqVisit g f w id) (seqVisit g (f + k) w id) := by
  intro f
  induction f with
  | zero => intro k w id; exact .inl rfl
  | succ f ih =>
    rintro k ⟨vis, res⟩ id
    rw [Nat.succ_add_eq_add_succ, Nat.add_succ]
    simp only [seqVisit]
    have hgo : ∀ (w : Walk) (x : Str), Lim (if x ∈ w.1 then (.ok w : Except Err Walk) else seqVisit g f w x)
        (if x ∈ w.1 then .ok w else seqVisit g (f + k) w x) := by
      intro w x
      split
      · exact Lim.refl _
      · exact ih k w x
    cases getNode g id with
    | none => exact Lim.refl _
    | some n =>
      simp only
      rcases foldE_lim hgo n.parents (id :: vis, res) with e | e
      · rw [e]; exact .inl rfl
      · rw [e]
        cases foldE (fun (w : Walk) x => if x ∈ w.1 then (.ok w : Except Err Walk) else seqVisit g (f + k) w x) (id :: vis, res) n.parents with
        | error x => exact Lim.refl _
        | ok q => exact foldE_lim hgo _ _

theorem seqOrderL_lim (g : Graph T D) (f k : Nat) : Lim (seqOrderL f g) (seqOrderL (f + k) g) := by
  unfold seqOrderL headsL
  rcases getNodesByL_lim g Node.parents f k with e | e
  · rw [e]; exact .inl rfl
  · rw [e]
    cases getNodesByL (f + k) g Node.parents with
    | error x => exact Lim.refl _
    | ok hs =>
      simp only
      rcases foldE_lim (fun b a => seqVisit_lim g f k b a) hs ([], []) with e | e
      · rw [e]; exact .inl rfl
      · rw [e]; exact Lim.refl _

theorem seqOrderL_enough (g : Graph T D) : seqOrderL (g.nodes.length + 1) g = seqOrder g := rfl

theorem validateL_lim [DecidableEq T] (root : T) (g : Graph T D) (f k : Nat) : Lim (validateL f root g) (validateL (f + k) root g) := by
  unfold validateL unconnectedL headsL
  rcases circularL_lim g f k with e | e
  · rw [e]; exact .inl rfl
  · rw [e]
    cases circularL (f + k) g with
    | error x => exact Lim.refl _
    | ok cs =>
      simp only
      rcases getNodesByL_lim g Node.parents f k with e | e
      · rw [e]; exact .inl rfl
      · rw [e]; exact Lim.refl _

theorem validateL_enough [DecidableEq T] (root : T) (g : Graph T D) : validateL (g.nodes.length + 1) root g = validate root g := by
  unfold validateL validate
  rw [circularL_enough]
  rfl

/-- from the two ends: below the model's fuel by monotonicity, above it because the model's fuel is enough -/
theorem lim_of {α : Type} (q : Nat → Except Err α) (n : Nat) (hm : ∀ f k, Lim (q f) (q (f + k))) (hn : q n ≠ .error .diverge) (lim : Nat) :
    Lim (q lim) (q n) ∧ (n ≤ lim → q lim = q n) := by
  constructor
  · rcases Nat.le_total lim n with h | h
    · obtain ⟨k, hk⟩ := Nat.exists_eq_add_of_le h
      rw [hk]; exact hm lim k
    · obtain ⟨k, hk⟩ := Nat.exists_eq_add_of_le h
      rcases hm n k with e | e
      · exact absurd e hn
      · rw [hk, ← e]; exact .inr rfl
  · intro h
    obtain ⟨k, hk⟩ := Nat.exists_eq_add_of_le h
    rcases hm n k with e | e
    · exact absurd e hn
    · rw [hk, ← e]

end Graph

/-! ### the loops of the container -/
namespace Container
open Graph
variable {T D : Type} [DecidableEq T]

theorem endsOfType_lim {ends ends' : Graph T D → Except Err (List Str)} (t : T) (g : Graph T D) (h : Lim (ends g) (ends' g)) :
    Lim (endsOfType ends t g) (endsOfType ends' t g) := by
  unfold endsOfType
  rcases h with e | e
  · rw [e]; exact .inl rfl
  · rw [e]; exact Lim.refl _

theorem removeLoop_lim {ends ends' : Graph T D → Except Err (List Str)} {rel : Node T D → List Str} (he : Ends ends' rel)
    (hl : ∀ g, WF g → Lim (ends g) (ends' g)) (base : Str → Str) (t : T) (f : Nat) : ∀ {g : Graph T D}, WF g →
    LimR (removeLoop ends base t f g) (removeLoop ends' base t f g) := by
  induction f with
  | zero => intro g _; exact .inl rfl
  | succ f ih =>
    intro g hg
    obtain ⟨l, h1, h2, h3⟩ := endsOfType_spec he t hg
    simp only [removeLoop]
    rcases endsOfType_lim t g (hl g hg) with e | e
    · rw [e]; exact .inl rfl
    · rw [e, h1]
      cases l with
      | nil => exact LimR.refl _
      | cons a r =>
        have hrem := removeAllIds_eq base (a :: r) hg h2 (fun x hx => by obtain ⟨n, hn, _⟩ := (h3 x).1 hx; exact ⟨n, hn⟩)
        simp only [hrem]
        rcases ih (wf_restrict hg (a :: r)) with e | e
        · left
          generalize removeLoop ends base t f (restrict g (a :: r)) = q at e
          obtain ⟨q1, q2⟩ := q
          simp only at e
          rw [e]
        · rw [e]; exact LimR.refl _

theorem edge_restrict_sub {g : Graph T D} {S : List Str} {a b : Str} (h : Edge (restrict g S) a b) : Edge g a b := by
  obtain ⟨n, hn, hb⟩ := h
  rw [getNode_restrict] at hn
  split at hn
  · cases hn
  · simp only [Option.map_eq_some_iff] at hn
    obtain ⟨m, hm, rfl⟩ := hn
    simp only [List.mem_filter] at hb
    exact ⟨m, hm, hb.1⟩

theorem hasNode_restrict_sub {g : Graph T D} {S : List Str} {a : Str} (h : HasNode (restrict g S) a) : HasNode g a := by
  obtain ⟨n, hn⟩ := h
  rw [getNode_restrict] at hn
  split at hn
  · cases hn
  · simp only [Option.map_eq_some_iff] at hn
    obtain ⟨m, hm, _⟩ := hn
    exact ⟨m, hm⟩

theorem Shallow.restrict {g : Graph T D} {lim : Nat} (h : Shallow lim g) (S : List Str) : Shallow lim (restrict g S) :=
  fun l h1 h2 h3 => h l (Chain.mono (fun _ _ => edge_restrict_sub) h1) h2 (fun x hx => hasNode_restrict_sub (h3 x hx))

theorem removeLoop_shallow {ends ends' : Graph T D → Except Err (List Str)} {rel : Node T D → List Str} (he : Ends ends' rel) {lim : Nat}
    (hl : ∀ g, WF g → Shallow lim g → ends g = ends' g) (base : Str → Str) (t : T) (f : Nat) : ∀ {g : Graph T D}, WF g → Shallow lim g →
    removeLoop ends base t f g = removeLoop ends' base t f g := by
  induction f with
  | zero => intro g _ _; rfl
  | succ f ih =>
    intro g hg hs
    obtain ⟨l, h1, h2, h3⟩ := endsOfType_spec he t hg
    have e : endsOfType ends t g = endsOfType ends' t g := by simp only [endsOfType, hl g hg hs]
    simp only [removeLoop]
    rw [e, h1]
    cases l with
    | nil => rfl
    | cons a r =>
      have hrem := removeAllIds_eq base (a :: r) hg h2 (fun x hx => by obtain ⟨n, hn, _⟩ := (h3 x).1 hx; exact ⟨n, hn⟩)
      simp only [hrem, ih (wf_restrict hg (a :: r)) (Shallow.restrict hs _)]

theorem removeLeafsL_lim (lim : Nat) (base : Str → Str) (t : T) {g : Graph T D} (hg : WF g) :
    LimR (removeLeafsOfTypeL lim base t g) (removeLeafsOfType base t g) :=
  removeLoop_lim tails_ends (fun _ hg => getNodesByL_or hg.closed_children lim) base t _ hg

theorem removeHeadsL_lim (lim : Nat) (base : Str → Str) (t : T) {g : Graph T D} (hg : WF g) :
    LimR (removeHeadsOfTypeL lim base t g) (removeHeadsOfType base t g) :=
  removeLoop_lim heads_ends (fun _ hg => getNodesByL_or hg.closed_parents lim) base t _ hg

theorem removeLeafsL_shallow {lim : Nat} (base : Str → Str) (t : T) {g : Graph T D} (hg : WF g) (hs : Shallow lim g) :
    removeLeafsOfTypeL lim base t g = removeLeafsOfType base t g :=
  removeLoop_shallow tails_ends (fun _ h1 h2 => tailsL_shallow h1 h2) base t _ hg hs

theorem removeHeadsL_shallow {lim : Nat} (base : Str → Str) (t : T) {g : Graph T D} (hg : WF g) (hs : Shallow lim g) :
    removeHeadsOfTypeL lim base t g = removeHeadsOfType base t g :=
  removeLoop_shallow heads_ends (fun _ h1 h2 => headsL_shallow h1 h2) base t _ hg hs

end Container

/-! ### the editor -/
namespace Editor
open Graph Container
variable {F : Type} [PyRt F]

/-- sequencing a limited call -/
theorem LimR.bind {σ τ α β : Type} {x y : Res σ α} {k k' : Except Err α × σ → Res τ β} (h : LimR x y)
    (hd : ∀ s, (k (.error .diverge, s)).1 = .error .diverge) (hk : LimR (k y) (k' y)) : LimR (k x) (k' y) := by
  rcases h with e | e
  · obtain ⟨x1, x2⟩ := x
    simp only at e
    subst e
    exact .inl (hd x2)
  · rw [e]; exact hk

theorem cleanGraphL_lim {b : Bool} {g : SGraph F} (hc : Core b g) (lim : Nat) (slots atts : List Str) :
    LimR (cleanGraphL lim slots atts g) (cleanGraph slots atts g) := by
  unfold cleanGraphL cleanGraph
  obtain ⟨r1, S1, h1, l1⟩ := removeNamed_loose .slot (by decide) (by decide) (setList F slots) hc.wf
  rw [h1]
  cases r1 with
  | error x => exact LimR.refl _
  | ok _ =>
    have c1 := hc.restrict S1
    obtain ⟨r2, S2, h2, l2⟩ := removeNamed_loose .attachment (by decide) (by decide) (setList F atts) c1.wf
    simp only [h2]
    cases r2 with
    | error x => exact LimR.refl _
    | ok _ =>
      have c2 := c1.restrict S2
      simp only
      rcases removeLeafsL_lim lim (baseId .slot) NType.slot c2.wf with e | e
      · left
        generalize removeLeafsOfTypeL lim (baseId .slot) NType.slot (restrict (restrict g S1) S2) = q at e
        obtain ⟨q1, q2⟩ := q
        simp only at e
        rw [e]
      · rw [e]; exact LimR.refl _

theorem cleanGraphL_shallow {b : Bool} {g : SGraph F} (hc : Core b g) {lim : Nat} (hs : Shallow lim g) (slots atts : List Str) :
    cleanGraphL lim slots atts g = cleanGraph slots atts g := by
  unfold cleanGraphL cleanGraph
  obtain ⟨r1, S1, h1, l1⟩ := removeNamed_loose .slot (by decide) (by decide) (setList F slots) hc.wf
  rw [h1]
  cases r1 with
  | error x => rfl
  | ok _ =>
    have c1 := hc.restrict S1
    obtain ⟨r2, S2, h2, l2⟩ := removeNamed_loose .attachment (by decide) (by decide) (setList F atts) c1.wf
    simp only [h2]
    cases r2 with
    | error x => rfl
    | ok _ =>
      simp only [removeLeafsL_shallow (baseId .slot) NType.slot (c1.restrict S2).wf (Shallow.restrict (Shallow.restrict hs S1) S2)]
      rfl

theorem detachL_lim {b : Bool} {g : SGraph F} (hc : Core b g) (lim : Nat) : LimR (detachL lim g) (detach g) := by
  unfold detachL detach
  obtain ⟨A, hA1, _, hA2⟩ := removeHeads_spec (baseId .attachment) NType.attachment hc.wf
  have c1 := hc.restrict A
  obtain ⟨B, hB1, _, hB2⟩ := removeLeafs_spec (baseId .attachment) NType.attachment c1.wf
  have c2 := c1.restrict B
  rcases removeHeadsL_lim lim (baseId .attachment) NType.attachment hc.wf with e | e
  · left
    generalize removeHeadsOfTypeL lim (baseId .attachment) NType.attachment g = q at e
    obtain ⟨q1, q2⟩ := q
    simp only at e
    rw [e]
  · rw [e, hA1]
    simp only
    rcases removeLeafsL_lim lim (baseId .attachment) NType.attachment c1.wf with e | e
    · left
      generalize removeLeafsOfTypeL lim (baseId .attachment) NType.attachment (restrict g A) = q at e
      obtain ⟨q1, q2⟩ := q
      simp only at e
      rw [e]
    · rw [e, hB1]
      simp only
      exact removeHeadsL_lim lim _ _ c2.wf

theorem detachL_shallow {b : Bool} {g : SGraph F} (hc : Core b g) {lim : Nat} (hs : Shallow lim g) : detachL lim g = detach g := by
  unfold detachL detach
  obtain ⟨A, hA1, _, hA2⟩ := removeHeads_spec (baseId .attachment) NType.attachment hc.wf
  have c1 := hc.restrict A
  obtain ⟨B, hB1, _, hB2⟩ := removeLeafs_spec (baseId .attachment) NType.attachment c1.wf
  have c2 := c1.restrict B
  rw [removeHeadsL_shallow _ _ hc.wf hs, hA1]
  simp only
  rw [removeLeafsL_shallow _ _ c1.wf (Shallow.restrict hs _), hB1]
  simp only
  rw [removeHeadsL_shallow _ _ c2.wf (Shallow.restrict (Shallow.restrict hs _) _)]

theorem cleanL_lim {e : Editor F} (hc : ECore e) (lim : Nat) : LimR (cleanL lim e) (clean e) := by
  unfold cleanL clean
  cases AnimData.unused e.data with
  | error x => exact LimR.refl _
  | ok q =>
    obtain ⟨slots, atts⟩ := q
    simp only
    obtain ⟨r, S, h1, _⟩ := cleanGraph_loose hc.core slots atts
    rcases cleanGraphL_lim hc.core lim slots atts with h | h
    · left
      generalize cleanGraphL lim slots atts e.graph = q at h
      obtain ⟨q1, q2⟩ := q
      simp only at h
      rw [h]
    · rw [h, h1]
      cases r with
      | error x => exact LimR.refl _
      | ok ids =>
        simp only
        obtain ⟨g1, g2, g3, g4⟩ := readBack_core (e := { e with graph := restrict e.graph S }) hc.bones hc.iks
        generalize readBack { e with graph := restrict e.graph S } = q at g1 g2 g3 g4
        obtain ⟨q1, q2⟩ := q
        cases q1 with
        | error x => exact LimR.refl _
        | ok _ =>
          simp only at g1 g2 ⊢
          cases removeSlots ids e.data.slots q2.data with
          | mk p1 p2 =>
            cases p1 with
            | error x => exact LimR.refl _
            | ok _ =>
              simp only
              have hg : (q2.withData (removeAttachments atts p2)).graph = restrict e.graph S := g1
              rw [hg]
              rcases detachL_lim (hc.core.restrict S) lim with h | h
              · left
                generalize detachL lim (restrict e.graph S) = q at h
                obtain ⟨q1, q2⟩ := q
                simp only at h
                rw [h]
              · rw [h]; exact LimR.refl _

theorem cleanL_shallow {e : Editor F} (hc : ECore e) {lim : Nat} (hs : Shallow lim e.graph) : cleanL lim e = clean e := by
  unfold cleanL clean
  cases AnimData.unused e.data with
  | error x => rfl
  | ok q =>
    obtain ⟨slots, atts⟩ := q
    simp only
    obtain ⟨r, S, h1, _⟩ := cleanGraph_loose hc.core slots atts
    rw [cleanGraphL_shallow hc.core hs, h1]
    cases r with
    | error x => rfl
    | ok ids =>
      simp only
      obtain ⟨g1, g2, g3, g4⟩ := readBack_core (e := { e with graph := restrict e.graph S }) hc.bones hc.iks
      generalize readBack { e with graph := restrict e.graph S } = q at g1 g2 g3 g4
      obtain ⟨q1, q2⟩ := q
      cases q1 with
      | error x => rfl
      | ok _ =>
        simp only at g1 g2 ⊢
        cases removeSlots ids e.data.slots q2.data with
        | mk p1 p2 =>
          cases p1 with
          | error x => rfl
          | ok _ =>
            simp only
            have hg : (q2.withData (removeAttachments atts p2)).graph = restrict e.graph S := g1
            rw [hg, detachL_shallow (hc.core.restrict S) (Shallow.restrict hs S)]
            rfl

theorem cleanUnlessL_lim {e : Editor F} (hc : ECore e) (lim : Nat) (safe : Bool) : LimR (cleanUnlessL lim safe e) (cleanUnless safe e) := by
  unfold cleanUnlessL cleanUnless
  split
  · exact LimR.refl _
  · exact cleanL_lim hc lim

theorem cleanUnlessL_shallow {e : Editor F} (hc : ECore e) {lim : Nat} (safe : Bool) (hs : Shallow lim e.graph) :
    cleanUnlessL lim safe e = cleanUnless safe e := by
  unfold cleanUnlessL cleanUnless
  rw [cleanL_shallow hc hs]

theorem eraseAnimsL_lim {e : Editor F} (hc : ECore e) (lim : Nat) (arg : NamesArg) (strict safe : Bool) :
    LimR (eraseAnimsL lim arg strict safe e) (eraseAnims arg strict safe e) := by
  unfold eraseAnimsL eraseAnims
  cases arg with
  | other => exact LimR.refl _
  | list names =>
    simp only
    have hc' : ECore (e.withData { e.data with animations := (eraseRaw names e.data.animations).1 }) := ⟨hc.core, hc.bones, hc.iks⟩
    split
    · exact LimR.refl _
    · rcases cleanUnlessL_lim hc' lim safe with h | h
      · left
        generalize cleanUnlessL lim safe (e.withData { e.data with animations := (eraseRaw names e.data.animations).1 }) = q at h
        obtain ⟨q1, q2⟩ := q
        simp only at h
        rw [h]
      · rw [h]; exact LimR.refl _

theorem eraseAnimsL_shallow {e : Editor F} (hc : ECore e) {lim : Nat} (hs : Shallow lim e.graph) (arg : NamesArg) (strict safe : Bool) :
    eraseAnimsL lim arg strict safe e = eraseAnims arg strict safe e := by
  unfold eraseAnimsL eraseAnims
  cases arg with
  | other => rfl
  | list names =>
    simp only
    have hc' : ECore (e.withData { e.data with animations := (eraseRaw names e.data.animations).1 }) := ⟨hc.core, hc.bones, hc.iks⟩
    rw [cleanUnlessL_shallow hc' safe hs]
    rfl

theorem eraseSkinsL_lim {e : Editor F} (hc : ECore e) (lim : Nat) (names : List Str) (safe : Bool) :
    LimR (eraseSkinsL lim names safe e) (eraseSkins names safe e) := by
  unfold eraseSkinsL eraseSkins
  have hb := removeSkins_bones names e.data
  generalize removeSkins names e.data = q at hb
  obtain ⟨q1, a⟩ := q
  cases q1 with
  | error x => exact LimR.refl _
  | ok q =>
    obtain ⟨imgs, regions⟩ := q
    simp only
    cases hg : SpineNodes.create (e.withData a).toJson with
    | error x => exact LimR.refl _
    | ok g =>
      simp only
      rcases cleanUnlessL_lim (ecore_fresh hc hb.1 hb.2.1 hg) lim safe with h | h
      · left
        generalize cleanUnlessL lim safe { e.withData a with graph := g } = q at h
        obtain ⟨q1, q2⟩ := q
        simp only at h
        rw [h]
      · rw [h]; exact LimR.refl _

theorem eraseSkinsL_shallow {e : Editor F} (hc : ECore e) {lim : Nat} (names : List Str) (safe : Bool)
    (hs : ∀ g, SpineNodes.create (e.withData (removeSkins names e.data).2).toJson = .ok g → Shallow lim g) :
    eraseSkinsL lim names safe e = eraseSkins names safe e := by
  unfold eraseSkinsL eraseSkins
  have hb := removeSkins_bones names e.data
  generalize removeSkins names e.data = q at hb hs
  obtain ⟨q1, a⟩ := q
  cases q1 with
  | error x => rfl
  | ok q =>
    obtain ⟨imgs, regions⟩ := q
    simp only
    cases hg : SpineNodes.create (e.withData a).toJson with
    | error x => rfl
    | ok g =>
      simp only
      rw [cleanUnlessL_shallow (ecore_fresh hc hb.1 hb.2.1 hg) safe (hs g hg)]
      rfl

theorem runL_lim {e : Editor F} (hc : ECore e) (lim : Nat) (o : Op F) : LimR (o.runL lim e) (o.run e) := by
  cases o with
  | eraseSkins n s =>
    rcases eraseSkinsL_lim hc lim n s with h | h
    · left; simp only [Op.runL, h]; rfl
    · right; simp only [Op.runL, Op.run, h]
  | eraseAnims a t s =>
    rcases eraseAnimsL_lim hc lim a t s with h | h
    · left; simp only [Op.runL, h]; rfl
    · right; simp only [Op.runL, Op.run, h]
  | clean =>
    rcases cleanL_lim hc lim with h | h
    · left; simp only [Op.runL, h]; rfl
    · right; simp only [Op.runL, Op.run, h]
  | scale x y => exact LimR.refl _

end Editor
end Spine
