import Verif.Lemmas.SimCopy
/-
What is read from a tree in the heap, and the document `to_json` makes of it.
-/
set_option linter.unusedSectionVars false
namespace Spine

namespace SVal
variable {F : Type}

mutual
theorem plain_eq : ∀ {s : SVal F} {j : JVal F}, s.plain = some j → s = ofJ j
  | .null, _, h => by cases h; rfl
  | .bool _, _, h => by cases h; rfl
  | .int _, _, h => by cases h; rfl
  | .flt _, _, h => by cases h; rfl
  | .str _, _, h => by cases h; rfl
  | .list l, _, h => by
    obtain ⟨m, h1, rfl⟩ := Option.map_eq_some_iff.mp h
    rw [plains_eq h1]; rfl
  | .dict l, _, h => by
    obtain ⟨m, h1, rfl⟩ := Option.map_eq_some_iff.mp h
    rw [plaind_eq h1]; rfl
  | .obj _ _, _, h => by cases h
  | .other, _, h => by cases h
theorem plains_eq : ∀ {l : List (SVal F)} {m : List (JVal F)}, plains l = some m → l = ofJs m
  | [], _, h => by cases h; rfl
  | v :: r, m, h => by
    unfold plains at h
    cases h1 : v.plain with
    | none => simp [h1] at h
    | some w => cases h2 : plains r with
      | none => simp [h1, h2] at h
      | some s =>
        simp only [h1, h2, Option.some.injEq] at h
        subst h
        rw [plain_eq h1, plains_eq h2]; rfl
theorem plaind_eq : ∀ {l : List (Str × SVal F)} {m : List (Str × JVal F)}, plaind l = some m → l = ofJd m
  | [], _, h => by cases h; rfl
  | (k, v) :: r, m, h => by
    unfold plaind at h
    cases h1 : v.plain with
    | none => simp [h1] at h
    | some w => cases h2 : plaind r with
      | none => simp [h1, h2] at h
      | some s =>
        simp only [h1, h2, Option.some.injEq] at h
        subst h
        rw [plain_eq h1, plaind_eq h2]; rfl
end

end SVal

namespace Alias
open M
variable {F : Type} [PyRt F]

theorem read_of_readJ {h : Heap F} {n : Nat} {r : Ref F} {j : JVal F} (hr : readJ h n r = some j) : read h n r = some (SVal.ofJ j) := by
  unfold readJ at hr
  obtain ⟨s, h1, h2⟩ := Option.bind_eq_some_iff.mp hr
  rw [h1, SVal.plain_eq h2]

theorem readJ_of_read {h : Heap F} {n : Nat} {r : Ref F} {j : JVal F} (hr : read h n r = some (SVal.ofJ j)) : readJ h n r = some j := by
  unfold readJ
  rw [hr]
  exact SVal.plain_ofJ j

/-- the same is read with more fuel and in a larger heap -/
theorem read_mono {h h' : Heap F} (ho : ∀ a, a < h.length → h'[a]? = h[a]?) : ∀ {n m : Nat} {r : Ref F} {s : SVal F}, read h n r = some s →
    n ≤ m → read h' m r = some s := by
  have main : ∀ n m, (∀ {r : Ref F} {s : SVal F}, below h n r = some s → below h' m r = some s) → ∀ {r : Ref F} {s : SVal F},
      read h n r = some s → read h' m r = some s := by
    intro n m hb r s hr
    rw [read_eq] at hr ⊢
    cases r with
    | ptr a =>
      simp only [readStep] at hr ⊢
      cases h1 : h[a]? with
      | none => simp [h1] at hr
      | some o =>
        rw [ho a (List.getElem?_eq_some_iff.mp h1).1, h1]
        rw [h1] at hr
        cases o with
        | list l =>
          simp only at hr ⊢
          obtain ⟨x, h2, rfl⟩ := Option.map_eq_some_iff.mp hr
          rw [mapO_iff.mpr ((mapO_iff.mp h2).imp (fun _ _ _ _ e => hb e))]; rfl
        | dict l =>
          simp only at hr ⊢
          obtain ⟨x, h2, rfl⟩ := Option.map_eq_some_iff.mp hr
          rw [mapOD_iff.mpr ((mapOD_iff.mp h2).imp (fun _ _ _ _ e => ⟨e.1, hb e.2⟩))]; rfl
        | inst t l =>
          simp only at hr ⊢
          obtain ⟨x, h2, rfl⟩ := Option.map_eq_some_iff.mp hr
          rw [mapOD_iff.mpr ((mapOD_iff.mp h2).imp (fun _ _ _ _ e => ⟨e.1, hb e.2⟩))]; rfl
    | _ => exact hr
  intro n
  induction n with
  | zero => intro m r s hr _; exact main 0 m (fun h => by cases h) hr
  | succ n ih =>
    intro m r s hr hm
    cases m with
    | zero => omega
    | succ m => exact main (n + 1) (m + 1) (fun h => ih h (by omega)) hr

/-! ### What is read from a tree -/

def Kind.sval : Kind → List (Str × SVal F) → SVal F
  | .list, d => .list (d.map (·.2))
  | .dict, d => .dict d
  | .inst t, d => .obj t.cls d

mutual
def Tree.sval : Tree F → SVal F
  | .leaf j => SVal.ofJ j
  | .node k d => k.sval (svalK d)
def Tree.svalK : List (Str × Tree F) → List (Str × SVal F)
  | [] => []
  | (k, t) :: r => (k, t.sval) :: svalK r
end

theorem Tree.svalK_eq (d : List (Str × Tree F)) : Tree.svalK d = dmap Tree.sval d := by
  induction d with
  | nil => rfl
  | cons p r ih => unfold Tree.svalK; rw [ih]; rfl

theorem read_node {h : Heap F} {n a : Nat} {k : Kind} {rs : Dict (Ref F)} {d : Dict (SVal F)} (ho : h[a]? = some (k.obj rs))
    (hd : All₂ (fun p q => p.1 = q.1 ∧ below h n p.2 = some q.2) rs d) : read h n (.ptr a) = some (k.sval d) := by
  rw [read_eq]
  simp only [readStep, ho]
  cases k with
  | list =>
    simp only [Kind.obj, Kind.sval]
    have : mapO (below h n) (rs.map (·.2)) = some (d.map (·.2)) := by
      rw [mapO_iff]
      clear ho
      induction hd with
      | nil => exact .nil
      | cons e _ ih => exact .cons e.2 ih
    rw [this]; rfl
  | dict => simp only [Kind.obj, Kind.sval]; rw [mapOD_iff.mpr hd]; rfl
  | inst t => simp only [Kind.obj, Kind.sval]; rw [mapOD_iff.mpr hd]; rfl

mutual
theorem Rep.read {B : Nat} {N : Nat → Prop} {h : Heap F} : ∀ {t : Tree F} {r : Ref F} {S : Nat → Prop}, Rep B N h r t S →
    Alias.read h (t.height + B) r = some t.sval
  | .leaf _, _, _, .leaf _ _ _ _ h2 => by
    have := read_of_readJ h2
    simpa [Tree.height, Tree.sval] using this
  | .node .., _, _, .empty a _ _ h2 => by
    unfold Tree.sval
    exact read_node (k := .dict) h2 .nil
  | .node .., _, _, .node a k rs ts S S' h1 _ _ h4 _ => by
    unfold Tree.sval
    have e : Tree.height (.node k ts) + B = (Tree.heightK ts + B) + 1 := by simp [Tree.height]; omega
    rw [e]
    exact read_node h1 (RepK.read h4)
theorem RepK.read {B : Nat} {N : Nat → Prop} {h : Heap F} : ∀ {t : List (Str × Tree F)} {r : Dict (Ref F)} {S : Nat → Prop},
    RepK B N h r t S → All₂ (fun p q => p.1 = q.1 ∧ Alias.read h (Tree.heightK t + B) p.2 = some q.2) r (Tree.svalK t)
  | [], _, _, .nil _ => .nil
  | (_, _) :: _, _, _, .cons k r t rs ts S1 S2 _ h1 h2 _ _ _ => by
    unfold Tree.svalK
    refine .cons ⟨rfl, read_mono (fun _ _ => rfl) (Rep.read h1) (by simp [Tree.heightK]; omega)⟩ ?_
    exact (RepK.read h2).imp (fun _ _ _ _ e => ⟨e.1, read_mono (fun _ _ => rfl) e.2 (by simp [Tree.heightK]; omega)⟩)
end

/-! ### New objects only -/

/-- nothing old is changed, and the new objects refer to new objects only -/
structure Fresh (h h' : Heap F) : Prop where
  len : h.length ≤ h'.length
  old : ∀ a, a < h.length → h'[a]? = h[a]?
  zone : Zone (Btw h.length h'.length) h'

theorem Fresh.refl (h : Heap F) : Fresh h h :=
  ⟨Nat.le_refl _, fun _ _ => rfl, ⟨fun a ha => ha.2, fun a _ ha => by have := ha.1; have := ha.2; omega⟩⟩

theorem Fresh.trans {h h1 h2 : Heap F} (s : Fresh h h1) (t : Fresh h1 h2) : Fresh h h2 := by
  refine ⟨Nat.le_trans s.len t.len, fun a ha => ?_, ⟨fun a ha => ha.2, fun a o ha ho => ?_⟩⟩
  · rw [t.old a (Nat.lt_of_lt_of_le ha s.len), s.old a ha]
  · intro r hr
    by_cases hl : a < h1.length
    · rw [t.old a hl] at ho
      refine (s.zone.closed a o ⟨ha.1, hl⟩ ho r hr).mono (fun b hb => ⟨hb.1, ?_⟩)
      have := hb.2; have := t.len; omega
    · refine (t.zone.closed a o ⟨by omega, ha.2⟩ ho r hr).mono (fun b hb => ⟨?_, hb.2⟩)
      have := hb.1; have := s.len; omega

theorem Fresh.alloc (h : Heap F) {o : Obj F} {n : Nat} (hn : n ≤ h.length) (hz : Zone (Btw n h.length) h)
    (ho : ∀ r ∈ o.refs, In (Btw n h.length) r) : Zone (Btw n (h ++ [o]).length) (h ++ [o]) := by
  refine ⟨fun a ha => ha.2, fun a x ha hx r hr => ?_⟩
  by_cases hl : a < h.length
  · rw [List.getElem?_append_left hl] at hx
    refine (hz.closed a x ⟨ha.1, hl⟩ hx r hr).mono (fun b hb => ⟨hb.1, ?_⟩)
    have := hb.2; simp; omega
  · have : a = h.length := by have := ha.2; simp at this; omega
    subst this
    simp at hx
    subst hx
    refine (ho r hr).mono (fun b hb => ⟨hb.1, ?_⟩)
    have := hb.2; simp; omega

theorem Fresh.add {h h1 : Heap F} (s : Fresh h h1) {o : Obj F} (ho : ∀ r ∈ o.refs, In (Btw h.length h1.length) r) :
    Fresh h (h1 ++ [o]) :=
  ⟨by have := s.len; simp; omega, fun a ha => by rw [List.getElem?_append_left (Nat.lt_of_lt_of_le ha s.len), s.old a ha],
   Fresh.alloc h1 s.len s.zone ho⟩

theorem Iso.fresh {h h' : Heap F} {φ : Nat → Option (Ref F)} (iso : Iso h h' φ) {n : Nat} (hn : n ≤ h.length)
    {r r' : Ref F} (hr : img φ r = some r') : In (Btw n h'.length) r' := by
  rintro b rfl
  cases r with
  | ptr a =>
    obtain ⟨c, h1, h2, h3⟩ := iso.new a _ hr
    cases h1
    exact ⟨by omega, h3⟩
  | _ => cases hr

theorem Zone.belowJ {N : Nat → Prop} {h h' : Heap F} (hz : Zone N h) (hk : ∀ a, N a → h'[a]? = h[a]?) {r : Ref F} (hr : In N r) (n : Nat) :
    Alias.belowJ h' n r = Alias.belowJ h n r := by
  cases n with
  | zero => rfl
  | succ n => exact hz.readJ hk hr n

/-! ### to_json -/

/-- the function writes what is read with `R` as a new document read with `J` -/
def Writes (v38 : Bool) (h0 : Heap F) (R : Ref F → Option (SVal F)) (J : Heap F → Ref F → Option (JVal F)) (f : Ref F → M F (Ref F)) : Prop :=
  ∀ h r s j, h0.length ≤ h.length → (∀ a, a < h0.length → h[a]? = h0[a]?) → R r = some s → s.toJson v38 = .ok j →
    ∃ r' h', f r h = (.ok r', h') ∧ Fresh h h' ∧ In (Btw h.length h'.length) r' ∧ J h' r' = some j

theorem writesL {v38 : Bool} {h0 : Heap F} {m : Nat} {f : Ref F → M F (Ref F)} (hf : Writes v38 h0 (below h0 m) (fun h => belowJ h m) f) :
    ∀ (l : List (Ref F)) (ss : List (SVal F)) (js : List (JVal F)) (h : Heap F), h0.length ≤ h.length →
      (∀ a, a < h0.length → h[a]? = h0[a]?) → All₂ (fun r s => below h0 m r = some s) l ss → SVal.toJsonL v38 ss = .ok js →
      ∃ l' h', mapL f l h = (.ok l', h') ∧ Fresh h h' ∧ (∀ r ∈ l', In (Btw h.length h'.length) r) ∧
        All₂ (fun r j => belowJ h' m r = some j) l' js
  | [], _, js, h, _, _, .nil, hj => by
    simp only [SVal.toJsonL, Except.ok.injEq] at hj
    subst hj
    exact ⟨[], h, rfl, .refl h, by simp, .nil⟩
  | r :: l, _, js, h, hl, ho, .cons (y := s) (m := ss) h1 h2, hj => by
    unfold SVal.toJsonL at hj
    cases e1 : s.toJson v38 with
    | error e => simp [e1] at hj
    | ok w =>
      cases e2 : SVal.toJsonL v38 ss with
      | error e => simp [e1, e2] at hj
      | ok js' =>
        simp only [e1, e2, Except.ok.injEq] at hj
        subst hj
        obtain ⟨r', h', g1, g2, g3, g4⟩ := hf h r s w hl ho h1 e1
        obtain ⟨l', h'', k1, k2, k3, k4⟩ := writesL hf l ss js' h' (Nat.le_trans hl g2.len)
          (fun a ha => by rw [g2.old a (Nat.lt_of_lt_of_le ha hl), ho a ha]) h2 e2
        refine ⟨r' :: l', h'', ?_, g2.trans k2, ?_, .cons ?_ k4⟩
        · unfold mapL
          rw [run_bind g1, run_bind k1]; rfl
        · intro x hx
          cases hx with
          | head => exact g3.mono (fun b hb => ⟨hb.1, by have := hb.2; have := k2.len; omega⟩)
          | tail _ hx => exact (k3 x hx).mono (fun b hb => ⟨by have := hb.1; have := g2.len; omega, hb.2⟩)
        · rw [g2.zone.belowJ (fun a ha => k2.old a ha.2) g3]
          exact g4

theorem writesV {v38 : Bool} {h0 : Heap F} {m : Nat} {f : Ref F → M F (Ref F)} (hf : Writes v38 h0 (below h0 m) (fun h => belowJ h m) f) :
    ∀ (l : Dict (Ref F)) (ss : Dict (SVal F)) (js : Dict (JVal F)) (h : Heap F), h0.length ≤ h.length →
      (∀ a, a < h0.length → h[a]? = h0[a]?) → All₂ (fun p q => p.1 = q.1 ∧ below h0 m p.2 = some q.2) l ss → SVal.toJsonD v38 ss = .ok js →
      ∃ l' h', mapV f l h = (.ok l', h') ∧ Fresh h h' ∧ (∀ p ∈ l', In (Btw h.length h'.length) p.2) ∧
        All₂ (fun p q => p.1 = q.1 ∧ belowJ h' m p.2 = some q.2) l' js
  | [], _, js, h, _, _, .nil, hj => by
    simp only [SVal.toJsonD, Except.ok.injEq] at hj
    subst hj
    exact ⟨[], h, rfl, .refl h, by simp, .nil⟩
  | (k, r) :: l, _, js, h, hl, ho, .cons (y := (k', s)) (m := ss) h1 h2, hj => by
    have : k = k' := h1.1
    subst this
    unfold SVal.toJsonD at hj
    cases e1 : s.toJson v38 with
    | error e => simp [e1] at hj
    | ok w =>
      cases e2 : SVal.toJsonD v38 ss with
      | error e => simp [e1, e2] at hj
      | ok js' =>
        simp only [e1, e2, Except.ok.injEq] at hj
        subst hj
        obtain ⟨r', h', g1, g2, g3, g4⟩ := hf h r s w hl ho h1.2 e1
        obtain ⟨l', h'', k1, k2, k3, k4⟩ := writesV hf l ss js' h' (Nat.le_trans hl g2.len)
          (fun a ha => by rw [g2.old a (Nat.lt_of_lt_of_le ha hl), ho a ha]) h2 e2
        refine ⟨(k, r') :: l', h'', ?_, g2.trans k2, ?_, .cons ⟨rfl, ?_⟩ k4⟩
        · unfold mapV mapL
          have e3 : (do
              let y ← f (k, r).2
              return ((k, r).1, y) : M F (Str × Ref F)) h = (.ok (k, r'), h') := by
            rw [run_bind g1]; rfl
          rw [run_bind e3]
          unfold mapV at k1
          rw [run_bind k1]; rfl
        · intro x hx
          cases hx with
          | head => exact g3.mono (fun b hb => ⟨hb.1, by have := hb.2; have := k2.len; omega⟩)
          | tail _ hx => exact (k3 x hx).mono (fun b hb => ⟨by have := hb.1; have := g2.len; omega, hb.2⟩)
        · rw [g2.zone.belowJ (fun a ha => k2.old a ha.2) g3]
          exact g4

theorem writesA {E : Env F} {v38 : Bool} {t : Tag} {h0 : Heap F} {m : Nat} {f : Ref F → M F (Ref F)} (hm : m ≤ E.lim + 1)
    (hf : Writes v38 h0 (below h0 m) (fun h => belowJ h m) f) :
    ∀ (l : Dict (Ref F)) (ss : Dict (SVal F)) (js : Dict (JVal F)) (h : Heap F), h0.length ≤ h.length →
      (∀ a, a < h0.length → h[a]? = h0[a]?) → All₂ (fun p q => p.1 = q.1 ∧ below h0 m p.2 = some q.2) l ss →
      SVal.toJsonA v38 t.cls ss = .ok js →
      ∃ l' h', toJsonA E v38 t f l h = (.ok l', h') ∧ Fresh h h' ∧ (∀ p ∈ l', In (Btw h.length h'.length) p.2) ∧
        All₂ (fun p q => p.1 = q.1 ∧ belowJ h' m p.2 = some q.2) l' js
  | [], _, js, h, _, _, .nil, hj => by
    simp only [SVal.toJsonA, Except.ok.injEq] at hj
    subst hj
    exact ⟨[], h, rfl, .refl h, by simp, .nil⟩
  | (k, r) :: l, _, js, h, hl, ho, .cons (y := (k', s)) (m := ss) h1 h2, hj => by
    have : k = k' := h1.1
    subst this
    have hrd : read h E.lim r = some s := by
      have h1 := h1.2
      cases m with
      | zero => cases h1
      | succ m => exact read_mono ho h1 (by omega)
    unfold SVal.toJsonA at hj
    by_cases hem : SVal.emits t.cls v38 k s = true
    · rw [if_pos hem] at hj
      cases e1 : s.toJson v38 with
      | error e => simp [e1] at hj
      | ok w =>
        cases e2 : SVal.toJsonA v38 t.cls ss with
        | error e => simp [e1, e2] at hj
        | ok js' =>
          simp only [e1, e2, Except.ok.injEq] at hj
          subst hj
          obtain ⟨r', h', g1, g2, g3, g4⟩ := hf h r s w hl ho h1.2 e1
          obtain ⟨l', h'', k1, k2, k3, k4⟩ := writesA hm hf l ss js' h' (Nat.le_trans hl g2.len)
            (fun a ha => by rw [g2.old a (Nat.lt_of_lt_of_le ha hl), ho a ha]) h2 e2
          refine ⟨(k, r') :: l', h'', ?_, g2.trans k2, ?_, .cons ⟨rfl, ?_⟩ k4⟩
          · unfold Alias.toJsonA
            rw [run_bind (run_view hrd)]
            simp only [if_pos hem]
            rw [run_bind g1, run_bind k1]; rfl
          · intro x hx
            cases hx with
            | head => exact g3.mono (fun b hb => ⟨hb.1, by have := hb.2; have := k2.len; omega⟩)
            | tail _ hx => exact (k3 x hx).mono (fun b hb => ⟨by have := hb.1; have := g2.len; omega, hb.2⟩)
          · rw [g2.zone.belowJ (fun a ha => k2.old a ha.2) g3]
            exact g4
    · rw [if_neg hem] at hj
      obtain ⟨l', h', k1, k2, k3, k4⟩ := writesA hm hf l ss js h hl ho h2 hj
      refine ⟨l', h', ?_, k2, k3, k4⟩
      unfold Alias.toJsonA
      rw [run_bind (run_view hrd)]
      simp only [if_neg hem]
      exact k1

theorem writesStep {E : Env F} {v38 : Bool} {h0 : Heap F} {m : Nat} {f : Ref F → M F (Ref F)} (hm : m ≤ E.lim + 1)
    (hf : Writes v38 h0 (below h0 m) (fun h => belowJ h m) f) :
    Writes v38 h0 (read h0 m) (fun h => readJ h m) (toJsonStep E v38 f) := by
  intro h r s j hl ho hr hj
  rw [read_eq] at hr
  cases r with
  | ptr a =>
    simp only [readStep] at hr
    cases h1 : h0[a]? with
    | none => simp [h1] at hr
    | some o =>
      have h1' : h[a]? = some o := by rw [ho a (List.getElem?_eq_some_iff.mp h1).1, h1]
      rw [h1] at hr
      unfold toJsonStep
      cases o with
      | list l =>
        simp only at hr
        obtain ⟨x, h2, rfl⟩ := Option.map_eq_some_iff.mp hr
        simp only [SVal.toJson] at hj
        cases e : SVal.toJsonL v38 x with
        | error e' => simp [e] at hj
        | ok js =>
          simp only [e, Except.ok.injEq] at hj
          subst hj
          obtain ⟨l', h', g1, g2, g3, g4⟩ := writesL hf l x js h hl ho (mapO_iff.mp h2) e
          have hf2 := g2.add (o := .list l') g3
          refine ⟨.ptr h'.length, h' ++ [.list l'], ?_, hf2, ?_, ?_⟩
          · rw [run_bind (run_deref h1')]
            simp only
            rw [run_bind g1]
            rfl
          · rw [in_ptr]; exact ⟨g2.len, by simp⟩
          · refine (readJ_list (a := h'.length) (l := l') (by simp)).mpr ?_
            refine g4.imp (fun r j hr _ e => ?_)
            rw [g2.zone.belowJ (fun a ha => List.getElem?_append_left ha.2) (g3 r hr)]
            exact e
      | dict l =>
        simp only at hr
        obtain ⟨x, h2, rfl⟩ := Option.map_eq_some_iff.mp hr
        simp only [SVal.toJson] at hj
        cases e : SVal.toJsonD v38 x with
        | error e' => simp [e] at hj
        | ok js =>
          simp only [e, Except.ok.injEq] at hj
          subst hj
          obtain ⟨l', h', g1, g2, g3, g4⟩ := writesV hf l x js h hl ho (mapOD_iff.mp h2) e
          have hf2 := g2.add (o := .dict l') (by
            intro r hr
            obtain ⟨p, hp, rfl⟩ := List.mem_map.mp hr
            exact g3 p hp)
          refine ⟨.ptr h'.length, h' ++ [.dict l'], ?_, hf2, ?_, ?_⟩
          · rw [run_bind (run_deref h1')]
            simp only
            rw [run_bind g1]
            rfl
          · rw [in_ptr]; exact ⟨g2.len, by simp⟩
          · refine (readJ_dict (a := h'.length) (l := l') (by simp)).mpr ?_
            refine g4.imp (fun r j hr _ e => ⟨e.1, ?_⟩)
            rw [g2.zone.belowJ (fun a ha => List.getElem?_append_left ha.2) (g3 r hr)]
            exact e.2
      | inst t l =>
        simp only at hr
        obtain ⟨x, h2, rfl⟩ := Option.map_eq_some_iff.mp hr
        simp only [SVal.toJson] at hj
        cases e : SVal.toJsonA v38 t.cls x with
        | error e' => simp [e] at hj
        | ok js =>
          simp only [e, Except.ok.injEq] at hj
          subst hj
          obtain ⟨l', h', g1, g2, g3, g4⟩ := writesA hm hf l x js h hl ho (mapOD_iff.mp h2) e
          have hf2 := g2.add (o := .dict l') (by
            intro r hr
            obtain ⟨p, hp, rfl⟩ := List.mem_map.mp hr
            exact g3 p hp)
          refine ⟨.ptr h'.length, h' ++ [.dict l'], ?_, hf2, ?_, ?_⟩
          · rw [run_bind (run_deref h1')]
            simp only
            rw [run_bind g1]
            rfl
          · rw [in_ptr]; exact ⟨g2.len, by simp⟩
          · refine (readJ_dict (a := h'.length) (l := l') (by simp)).mpr ?_
            refine g4.imp (fun r j hr _ e => ⟨e.1, ?_⟩)
            rw [g2.zone.belowJ (fun a ha => List.getElem?_append_left ha.2) (g3 r hr)]
            exact e.2
  | null =>
    simp only [readStep, Option.some.injEq] at hr
    subst hr
    simp only [SVal.toJson, Except.ok.injEq] at hj
    subst hj
    exact ⟨_, h, rfl, .refl h, fun a ha => (by cases ha), readJ_iff.mpr .null⟩
  | bool =>
    simp only [readStep, Option.some.injEq] at hr
    subst hr
    simp only [SVal.toJson, Except.ok.injEq] at hj
    subst hj
    exact ⟨_, h, rfl, .refl h, fun a ha => (by cases ha), readJ_iff.mpr (.bool _)⟩
  | int =>
    simp only [readStep, Option.some.injEq] at hr
    subst hr
    simp only [SVal.toJson, Except.ok.injEq] at hj
    subst hj
    exact ⟨_, h, rfl, .refl h, fun a ha => (by cases ha), readJ_iff.mpr (.int _)⟩
  | flt =>
    simp only [readStep, Option.some.injEq] at hr
    subst hr
    simp only [SVal.toJson, Except.ok.injEq] at hj
    subst hj
    exact ⟨_, h, rfl, .refl h, fun a ha => (by cases ha), readJ_iff.mpr (.flt _)⟩
  | str =>
    simp only [readStep, Option.some.injEq] at hr
    subst hr
    simp only [SVal.toJson, Except.ok.injEq] at hj
    subst hj
    exact ⟨_, h, rfl, .refl h, fun a ha => (by cases ha), readJ_iff.mpr (.str _)⟩

theorem writes {E : Env F} {v38 : Bool} {h0 : Heap F} : ∀ (n m : Nat), m ≤ n → m ≤ E.lim → Writes v38 h0 (read h0 m) (fun h => readJ h m) (toJsonN E v38 n)
  | 0, m, h1, h2 => by
    unfold toJsonN
    exact writesStep (by omega) (fun h r s j _ _ hr => by
      cases m with
      | zero => cases hr
      | succ m => omega)
  | n + 1, m, h1, h2 => by
    unfold toJsonN
    refine writesStep (by omega) ?_
    cases m with
    | zero => exact fun h r s j _ _ hr => by cases hr
    | succ m => exact writes n m (by omega) (by omega)

end Alias
end Spine
