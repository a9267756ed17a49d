import Verif.Lemmas.SimJson
/-
Loops over the parts of a tree, and `set_default_values` on a tree in the heap.
-/
set_option linter.unusedSectionVars false
namespace Spine
namespace Alias
open M
variable {F : Type} [PyRt F] {B : Nat}

theorem each_nil {α : Type} {f : α → M F Unit} {h : Heap F} : each f [] h = (.ok (), h) := rfl

theorem each_cons_ok {α : Type} {f : α → M F Unit} {x : α} {l : List α} {h h1 : Heap F} (hx : f x h = (.ok (), h1)) :
    each f (x :: l) h = each f l h1 := by
  show (f x >>= fun _ => each f l) h = _
  exact run_bind hx

theorem each_cons_error {α : Type} {f : α → M F Unit} {x : α} {l : List α} {h h1 : Heap F} {e : Err} (hx : f x h = (.error e, h1)) :
    each f (x :: l) h = (.error e, h1) := by
  show (f x >>= fun _ => each f l) h = _
  exact run_fail hx

theorem each_map {α β : Type} {f : β → M F Unit} {g : α → β} : ∀ {l : List α} {h : Heap F}, each f (l.map g) h = each (fun x => f (g x)) l h
  | [], _ => rfl
  | x :: l, h => by
    simp only [List.map_cons]
    cases hx : f (g x) h with
    | mk r h1 =>
      cases r with
      | error e => rw [each_cons_error hx, each_cons_error (f := fun x => f (g x)) hx]
      | ok u =>
        cases u
        rw [each_cons_ok hx, each_cons_ok (f := fun x => f (g x)) hx]
        exact each_map

/-- a property of the heap that survives changes outside `C` -/
def Stable (C : Nat → Prop) (K : (Nat → Prop) → Heap F → Prop) : Prop :=
  ∀ N h S N' h', Zone N h → Ext N h S N' h' → (∀ a, S a → C a → a < h.length → False) → K N h → K N' h'

/-- the loop body does to the element what the function does to its value -/
def Acts (B : Nat) (C : Nat → Prop) (K : (Nat → Prop) → Heap F → Prop) {α : Type} (key : α → Str) (T : α → Tree F) (g : α → Res α Unit)
    (f : Str × Ref F → M F Unit) (x : α) : Prop :=
  ∀ N h r S, Zone N h → K N h → (∀ a, S a → C a → a < h.length → False) → Rep B N h r (T x) S →
    ∃ N' h', f (key x, r) h = ((g x).1, h') ∧ Ext N h S N' h' ∧ Rep B N' h' r (T (g x).2) (Grown S h)

theorem each_acts {C : Nat → Prop} {K : (Nat → Prop) → Heap F → Prop} (hK : Stable C K) {α : Type} {key : α → Str} {T : α → Tree F}
    {g : α → Res α Unit} {f : Str × Ref F → M F Unit} : ∀ {l : List α}, (∀ x ∈ l, Acts B C K key T g f x) → (∀ x ∈ l, key (g x).2 = key x) →
      ∀ {N : Nat → Prop} {h : Heap F} {rs : Dict (Ref F)} {S : Nat → Prop}, Zone N h → K N h → (∀ a, S a → C a → a < h.length → False) →
        RepK B N h rs (l.map (fun x => (key x, T x))) S →
        ∃ N' h', each f rs h = ((mapMut g l).1, h') ∧ Ext N h S N' h' ∧
          RepK B N' h' rs ((mapMut g l).2.map (fun x => (key x, T x))) (Grown S h)
  | [], _, _, N, h, rs, S, hz, _, _, hr => by
    cases hr
    exact ⟨N, h, rfl, .refl hz _, .nil _⟩
  | x :: l, hf, hkey, N, h, rs, S, hz, hk, hd, hr => by
    cases hr with
    | cons _ r _ rs _ S1 S2 _ h1 h2 h3 h4 h5 =>
      obtain ⟨N1, g1, e1, x1, r1⟩ := hf x (by simp) N h r (fun a => S1 a ∧ a < h.length) hz hk (fun a ha hc hl => hd a (h4 a ha.1) hc hl) h1.bound
      have hkx := hkey x (by simp)
      have hr2 : RepK B N1 g1 rs (l.map (fun x => (key x, T x))) (fun a => S2 a ∧ a < h.length) :=
        h2.bound.frame hz x1 (fun a ha hb _ => h3 a ha.1 hb.1)
      cases hgx : g x with
      | mk o y =>
        rw [hgx] at e1 r1 hkx
        cases o with
        | error e =>
          refine ⟨N1, g1, ?_, x1.mono (fun a ha _ => h4 a ha.1), ?_⟩
          · rw [each_cons_error e1]
            simp only [mapMut, hgx]
          · simp only [mapMut, hgx, List.map_cons]
            have := RepK.cons (key y) r (T y) rs (l.map (fun x => (key x, T x))) _ _ (Grown S h) r1 hr2 ?_ ?_ ?_
            · rw [hkx] at this
              rw [hkx]
              exact this
            · intro a ha hb
              rcases ha with ha | ha
              · exact h3 a ha.1 hb.1
              · have := hb.2; omega
            · intro a ha; exact ha.imp (fun h => h4 a h.1) id
            · intro a ha; exact .inl (h5 a ha.1)
        | ok u =>
          have hk1 : K N1 g1 := hK N h _ N1 g1 hz x1 (fun a ha hc hl => hd a (h4 a ha.1) hc hl) hk
          obtain ⟨N2, g2, e2, x2, r2⟩ := each_acts hK (l := l) (fun x hx => hf x (by simp [hx])) (fun x hx => hkey x (by simp [hx])) x1.zone hk1
            (fun a ha hc _ => hd a (h5 a ha.1) hc ha.2) hr2
          refine ⟨N2, g2, ?_, ?_, ?_⟩
          · rw [each_cons_ok e1, e2]
            simp only [mapMut, hgx]
          · exact (x1.mono (fun a ha _ => h4 a ha.1)).trans x2 (fun a ha _ => h5 a ha.1)
          · simp only [mapMut, hgx, List.map_cons]
            have hfr := r1.bound.frame x1.zone x2 (fun a ha hb hl => by
              rcases hb.1 with hb | hb
              · exact h3 a hb.1 ha.1
              · have := ha.2; omega)
            have := RepK.cons (key y) r (T y) rs _ _ _ (Grown S h) hfr r2 ?_ ?_ ?_
            · rw [hkx] at this
              rw [hkx]
              exact this
            · rintro a ⟨ha, hl⟩ hb
              rcases hb with hb | hb
              · rcases ha with ha | ha
                · exact h3 a ha.1 hb.1
                · have := hb.2; omega
              · omega
            · intro a ha; exact ha.1.imp (fun h => h4 a h.1) id
            · intro a ha
              rcases ha with ha | ha
              · exact .inl (h5 a ha.1)
              · exact .inr (Nat.le_trans x1.len ha)

/-! ### Defaults -/

/-- a default value as a tree -/
def dft : JVal F → Tree F
  | .dict [] => .node .dict []
  | j => .leaf j

theorem dft_rep {N : Nat → Prop} {h : Heap F} {r : Ref F} {j : JVal F} (hi : In N r) (hr : readJ h B r = some j) (S : Nat → Prop) :
    Rep B N h r (dft j) S := by
  unfold dft
  split
  · have := readJ_iff.mp hr
    cases this with
    | dict a d js ho h2 =>
      cases h2
      exact .empty a _ (in_ptr.mp hi) ho
  · exact .leaf _ _ _ hi hr

mutual
/-- `set_default_values` on a tree -/
def Tree.sd (v38 : Bool) : Tree F → Tree F
  | .leaf j => .leaf j
  | .node .list d => .node .list (sdK v38 d)
  | .node .dict d => .node .dict (sdK v38 d)
  | .node (.inst t) d => .node (.inst t) (sdA v38 t d)
def Tree.sdK (v38 : Bool) : List (Str × Tree F) → List (Str × Tree F)
  | [] => []
  | (k, t) :: r => (k, t.sd v38) :: sdK v38 r
def Tree.sdA (v38 : Bool) (c : Tag) : List (Str × Tree F) → List (Str × Tree F)
  | [] => []
  | (k, .leaf .null) :: r => (k, match Dict.get? (c.cls.defaultsFor v38) k with
    | some w => dft w
    | none => .leaf .null) :: sdA v38 c r
  | (k, t) :: r => (k, t.sd v38) :: sdA v38 c r
end

mutual
/-- no object has an attribute twice -/
def Tree.Uniq : Tree F → Prop
  | .leaf _ => True
  | .node .list d => UniqK d
  | .node .dict d => UniqK d
  | .node (.inst _) d => (d.map (·.1)).Nodup ∧ UniqK d
def Tree.UniqK : List (Str × Tree F) → Prop
  | [] => True
  | (_, t) :: r => t.Uniq ∧ UniqK r
end

theorem Tree.uniqK_iff {d : List (Str × Tree F)} : Tree.UniqK d ↔ ∀ p ∈ d, p.2.Uniq := by
  induction d with
  | nil => simp [Tree.UniqK]
  | cons p r ih => unfold Tree.UniqK; simp [ih]

theorem Tree.heightK_le {d : List (Str × Tree F)} {p : Str × Tree F} (hp : p ∈ d) : p.2.height ≤ Tree.heightK d := by
  induction d with
  | nil => cases hp
  | cons q r ih =>
    unfold Tree.heightK
    cases hp with
    | head => exact Nat.le_max_left _ _
    | tail _ hp => exact Nat.le_trans (ih hp) (Nat.le_max_right _ _)

theorem Tree.sdK_eq (v38 : Bool) (d : List (Str × Tree F)) : Tree.sdK v38 d = dmap (Tree.sd v38) d := by
  induction d with
  | nil => rfl
  | cons p r ih => unfold Tree.sdK; rw [ih]; rfl

/-- one attribute -/
def Tree.sd1 (v38 : Bool) (c : Tag) (k : Str) : Tree F → Tree F
  | .leaf .null => match Dict.get? (c.cls.defaultsFor v38) k with
    | some w => dft w
    | none => .leaf .null
  | t => t.sd v38

theorem Tree.sdA_eq (v38 : Bool) (c : Tag) (d : List (Str × Tree F)) : Tree.sdA v38 c d = d.map (fun p => (p.1, Tree.sd1 v38 c p.1 p.2)) := by
  induction d with
  | nil => rfl
  | cons p r ih =>
    obtain ⟨k, t⟩ := p
    unfold Tree.sdA
    split
    · rename_i h; cases h
    · rename_i h
      obtain ⟨h1, rfl⟩ := List.cons.inj h
      cases h1
      simp only [List.map_cons, Tree.sd1, ih]
    · rename_i hn h
      obtain ⟨h1, rfl⟩ := List.cons.inj h
      cases h1
      simp only [List.map_cons, ih]
      congr 2
      unfold Tree.sd1
      split
      · exact absurd rfl hn
      · rfl

/-- the class constants are objects of the zone with the right content -/
def Consts (B : Nat) (E : Env F) (N : Nat → Prop) (h : Heap F) : Prop :=
  ∀ v t, In N (E.consts v t) ∧ readJ h B (E.consts v t) = some (.dict ((t.cls (F := F)).defaultsFor v))

theorem Consts.stable {E : Env F} (C : Nat → Prop) : Stable C (Consts B E) := by
  intro N h S N' h' hz e _ hk v t
  exact ⟨(hk v t).1.mono e.sub, by rw [e.readJ hz (hk v t).1]; exact (hk v t).2⟩

/-- walking through a JSON value changes nothing -/
theorem sd_leaf {E : Env F} {v38 : Bool} {h : Heap F} : ∀ {n m : Nat} {r : Ref F} {j : JVal F}, readJ h m r = some j → m ≤ n →
    setDefaultsN E v38 n r h = (.ok (), h) := by
  have main : ∀ m (f : Ref F → M F Unit), (∀ {r : Ref F} {j : JVal F}, belowJ h m r = some j → f r h = (.ok (), h)) →
      ∀ {r : Ref F} {j : JVal F}, readJ h m r = some j → defaultsStep E v38 f r h = (.ok (), h) := by
    intro m f hf r j hr
    unfold defaultsStep
    cases readJ_iff.mp hr with
    | list a l js ho h2 =>
      rw [run_bind (run_deref ho)]
      simp only
      clear ho hr
      induction h2 with
      | nil => rfl
      | cons e _ ih => rw [each_cons_ok (hf e)]; exact ih
    | dict a l js ho h2 =>
      rw [run_bind (run_deref ho)]
      simp only [Dict.values]
      clear ho hr
      induction h2 with
      | nil => rfl
      | cons e _ ih => simp only [List.map_cons]; rw [each_cons_ok (hf e.2)]; exact ih
    | _ => rfl
  intro n
  induction n with
  | zero =>
    intro m r j hr hm
    cases m with
    | succ m => omega
    | zero => exact main 0 _ (fun h => by cases h) hr
  | succ n ih =>
    intro m r j hr hm
    cases m with
    | zero => exact main 0 _ (fun h => by cases h) hr
    | succ m => exact main (m + 1) _ (fun h => ih h (by omega)) hr

/-- a reference that carries a tree is null only for the null leaf -/
theorem Rep.null_iff {N : Nat → Prop} {h : Heap F} {r : Ref F} {t : Tree F} {S : Nat → Prop} (hr : Rep B N h r t S) :
    r.isNull = true ↔ t = .leaf .null := by
  cases hr with
  | leaf _ j _ h1 h2 =>
    cases readJ_iff.mp h2 <;> simp [Ref.isNull]
  | node => simp [Ref.isNull]
  | empty => simp [Ref.isNull]

theorem dict_set_mid {α : Type} {d e : Dict α} {k : Str} {v w : α} (hn : k ∉ d.map (·.1)) :
    Dict.set (d ++ (k, v) :: e) k w = d ++ (k, w) :: e := by
  induction d with
  | nil => simp [Dict.set]
  | cons p d ih =>
    simp only [List.map_cons, List.mem_cons, not_or] at hn
    simp only [List.cons_append, Dict.set]
    rw [if_neg (fun h => hn.1 h.symm), ih hn.2]

/-- what the recursive call does -/
def Sets (B : Nat) (E : Env F) (v38 : Bool) (m : Nat) (f : Ref F → M F Unit) : Prop :=
  ∀ (t : Tree F) N h r S, t.height + B ≤ m → t.Uniq → Zone N h → Consts B E N h → Rep B N h r t S →
    ∃ N' h', f r h = (.ok (), h') ∧ Ext N h S N' h' ∧ Rep B N' h' r (t.sd v38) (Grown S h)

theorem sets_kids {E : Env F} {v38 : Bool} {m : Nat} {f : Ref F → M F Unit} (hf : Sets B E v38 m f) {ts : List (Str × Tree F)}
    (hm : Tree.heightK ts + B ≤ m) (hu : Tree.UniqK ts) {N : Nat → Prop} {h : Heap F} {rs : Dict (Ref F)} {S : Nat → Prop} (hz : Zone N h)
    (hc : Consts B E N h) (hr : RepK B N h rs ts S) :
    ∃ N' h', each f (rs.map (·.2)) h = (.ok (), h') ∧ Ext N h S N' h' ∧ RepK B N' h' rs (Tree.sdK v38 ts) (Grown S h) := by
  have hr' : RepK B N h rs (ts.map (fun x => (x.1, x.2))) S := by simpa using hr
  obtain ⟨N', h', e1, e2, e3⟩ := each_acts (B := B) (C := Nil) (K := Consts B E) (Consts.stable Nil) (key := fun x : Str × Tree F => x.1)
    (T := fun x => x.2) (g := fun x => (.ok (), (x.1, x.2.sd v38))) (f := fun p => f p.2) (l := ts)
    (fun x hx N h r S hz hc _ hr => hf x.2 N h r S (by have := Tree.heightK_le hx; omega) (Tree.uniqK_iff.mp hu x hx) hz hc hr)
    (fun _ _ => rfl) hz hc (fun _ _ h => h.elim) hr'
  have hp : mapMut (fun x : Str × Tree F => (Except.ok (), (x.1, x.2.sd v38))) ts = (.ok (), ts.map (fun x => (x.1, x.2.sd v38))) :=
    mapMut_pure _ ts
  rw [hp] at e1 e3
  refine ⟨N', h', by rw [each_map]; exact e1, e2, ?_⟩
  rw [Tree.sdK_eq]
  simpa [dmap, Function.comp_def] using e3

theorem Rep.leaf_of {N : Nat → Prop} {h : Heap F} {r : Ref F} {j : JVal F} {S : Nat → Prop} (hr : Rep B N h r (.leaf j) S) :
    In N r ∧ readJ h B r = some j := by
  cases hr with
  | leaf _ _ _ h1 h2 => exact ⟨h1, h2⟩

/-- the loop over the attributes -/
theorem sets_attrs {E : Env F} {v38 : Bool} {m : Nat} {f : Ref F → M F Unit} (hf : Sets B E v38 m f) {c : Tag} {dv : Dict (Ref F)} {a : Nat} :
    ∀ (ts : List (Str × Tree F)), Tree.heightK ts + B ≤ m → Tree.UniqK ts →
      ∀ {N : Nat → Prop} {h : Heap F} {dd rs : Dict (Ref F)} {S : Nat → Prop}, Zone N h → Consts B E N h →
        All₂ (fun p q => p.1 = q.1 ∧ In N p.2 ∧ readJ h B p.2 = some q.2) dv ((c.cls (F := F)).defaultsFor v38) →
        h[a]? = some (.inst c (dd ++ rs)) → ¬ N a → ¬ S a → ((dd ++ rs).map (·.1)).Nodup → RepK B N h rs ts S →
        ∃ N' h' rs', each (fun p => if p.2.isNull then match Dict.get? dv p.1 with
            | some w => setAttr (.ptr a) p.1 w
            | none => pure ()
          else f p.2) rs h = (.ok (), h') ∧ Ext N h (fun b => S b ∨ b = a) N' h' ∧ h'[a]? = some (.inst c (dd ++ rs')) ∧
            RepK B N' h' rs' (Tree.sdA v38 c ts) (Grown S h)
  | [], _, _, N, h, dd, rs, S, hz, _, _, ho, _, _, _, hr => by
    cases hr
    exact ⟨N, h, [], rfl, .refl hz _, ho, .nil _⟩
  | (k, t) :: ts, hm, hu, N, h, dd, rs, S, hz, hc, hdv, ho, hna, hsa, hnd, hr => by
    cases hr with
    | cons _ r _ rs _ S1 S2 _ h1 h2 h3 h4 h5 =>
      have hal := (List.getElem?_eq_some_iff.mp ho).1
      have hm' : Tree.heightK ts + B ≤ m := by unfold Tree.heightK at hm; omega
      have ht' : t.height + B ≤ m := by unfold Tree.heightK at hm; omega
      have hu' : t.Uniq ∧ Tree.UniqK ts := by unfold Tree.UniqK at hu; exact hu
      have hkd : k ∉ dd.map (·.1) := by
        intro hk
        simp only [List.map_append, List.map_cons, List.nodup_append] at hnd
        exact hnd.2.2 k hk k (by simp) rfl
      -- the state after the first attribute
      have key : ∃ N1 h1 r1, (if r.isNull then match Dict.get? dv k with
            | some w => setAttr (.ptr a) k w
            | none => pure ()
          else f r) h = (.ok (), h1) ∧ Ext N h (fun b => S1 b ∨ b = a) N1 h1 ∧ h1[a]? = some (.inst c (dd ++ (k, r1) :: rs)) ∧
            Rep B N1 h1 r1 (Tree.sd1 v38 c k t) (Grown (fun b => S1 b ∧ b < h.length) h) := by
        by_cases hnull : r.isNull = true
        · have htn := h1.null_iff.mp hnull
          subst htn
          simp only [hnull, if_true]
          have hlook : ∀ w, Dict.get? dv k = some w → ∃ j, Dict.get? ((c.cls (F := F)).defaultsFor v38) k = some j ∧ In N w ∧ readJ h B w = some j := by
            clear hc
            intro w hw
            generalize (c.cls (F := F)).defaultsFor v38 = df at hdv
            induction hdv with
            | nil => cases hw
            | @cons p q _ _ e _ ih =>
              obtain ⟨e1, e2, e3⟩ := e
              unfold Dict.get? at hw ⊢
              rw [← e1]
              by_cases hk : p.1 = k
              · simp only [hk, if_true, Option.some.injEq] at hw ⊢
                subst hw
                exact ⟨_, rfl, e2, e3⟩
              · simp only [if_neg hk] at hw ⊢
                exact ih hw
          have hnone : Dict.get? dv k = none → Dict.get? ((c.cls (F := F)).defaultsFor v38) k = none := by
            clear hc
            intro hw
            generalize (c.cls (F := F)).defaultsFor v38 = df at hdv
            clear hlook
            induction hdv with
            | nil => rfl
            | @cons p q _ _ e _ ih =>
              obtain ⟨e1, e2, e3⟩ := e
              unfold Dict.get? at hw ⊢
              rw [← e1]
              by_cases hk : p.1 = k
              · simp [hk] at hw
              · simp only [if_neg hk] at hw ⊢
                exact ih hw
          cases hg : Dict.get? dv k with
          | none =>
            refine ⟨N, h, r, rfl, .refl hz _, ho, ?_⟩
            simp only [Tree.sd1, hnone hg]
            obtain ⟨i1, i2⟩ := h1.leaf_of
            exact .leaf _ _ _ i1 i2
          | some w =>
            obtain ⟨j, hj, i1, i2⟩ := hlook w hg
            refine ⟨N, h.set a (.inst c (dd ++ (k, w) :: rs)), w, ?_, Ext.set hz _ (.inr rfl) hna, List.getElem?_set_self hal, ?_⟩
            · simp only
              unfold setAttr
              rw [run_bind (run_deref ho)]
              simp only
              rw [dict_set_mid hkd]
              rfl
            · simp only [Tree.sd1, hj]
              refine dft_rep i1 ?_ _
              rw [(Ext.set (S := fun b => b = a) hz _ rfl hna).readJ hz i1]
              exact i2
        · simp only [hnull, Bool.false_eq_true, if_false]
          obtain ⟨N1, g1, e1, x1, r1⟩ := hf t N h r (fun b => S1 b ∧ b < h.length) ht' hu'.1 hz hc h1.bound
          refine ⟨N1, g1, r, e1, x1.mono (fun a ha _ => .inl ha.1), ?_, ?_⟩
          · rw [x1.keep a hal (.inr (fun h => hsa (h4 a h.1)))]
            exact ho
          · have : Tree.sd1 v38 c k t = t.sd v38 := by
              unfold Tree.sd1
              split
              · exact absurd (h1.null_iff.mpr rfl) hnull
              · rfl
            rw [this]
            exact r1
      obtain ⟨N1, g1, r1, e1, x1, o1, p1⟩ := key
      have hr2 : RepK B N1 g1 rs ts (fun b => S2 b ∧ b < h.length) := h2.bound.frame hz x1 (fun b hb hb2 _ => by
        rcases hb with hb | hb
        · exact h3 b hb hb2.1
        · subst hb; exact hsa (h5 b hb2.1))
      have hdv1 : All₂ (fun (p : Str × Ref F) (q : Str × JVal F) => p.1 = q.1 ∧ In N1 p.2 ∧ readJ g1 B p.2 = some q.2) dv
          ((c.cls (F := F)).defaultsFor v38) :=
        hdv.imp (fun p q _ _ e => ⟨e.1, e.2.1.mono x1.sub, by rw [x1.readJ hz e.2.1]; exact e.2.2⟩)
      obtain ⟨N2, g2, rs', e2, x2, o2, p2⟩ := sets_attrs hf ts hm' hu'.2 (dd := dd ++ [(k, r1)]) x1.zone
        (Consts.stable Nil _ _ _ _ _ hz x1 (fun _ _ h => h.elim) hc) hdv1 (by simpa using o1) (fun hn => hna (x1.old a hal hn))
        (fun hs => hsa (h5 a hs.1)) (by simpa using hnd) hr2
      refine ⟨N2, g2, (k, r1) :: rs', ?_, ?_, by simpa using o2, ?_⟩
      · rw [each_cons_ok (f := fun p => if p.2.isNull then match Dict.get? dv p.1 with
            | some w => setAttr (.ptr a) p.1 w
            | none => pure ()
          else f p.2) (x := (k, r)) e1]
        exact e2
      · refine (x1.mono (fun b hb _ => ?_)).trans x2 (fun b hb _ => ?_)
        · exact hb.imp (h4 b) id
        · exact hb.imp (fun h => h5 b h.1) id
      · rw [Tree.sdA_eq]
        rw [Tree.sdA_eq] at p2
        have hfr := p1.bound.frame x1.zone x2 (fun b hb hb2 hl => by
          rcases hb with hb | hb
          · rcases hb2.1 with hb2 | hb2
            · exact h3 b hb2.1 hb.1
            · have := hb.2; omega
          · subst hb
            rcases hb2.1 with hb2 | hb2
            · exact hsa (h4 b hb2.1)
            · omega)
        simp only [List.map_cons]
        refine .cons _ _ _ _ _ _ _ _ hfr p2 ?_ ?_ ?_
        · rintro b ⟨hb, hl⟩ hb2
          rcases hb2 with hb2 | hb2
          · rcases hb with hb | hb
            · exact h3 b hb.1 hb2.1
            · have := hb2.2; omega
          · omega
        · intro b hb; exact hb.1.imp (fun h => h4 b h.1) id
        · intro b hb
          rcases hb with hb | hb
          · exact .inl (h5 b hb.1)
          · exact .inr (Nat.le_trans x1.len hb)

theorem Tree.height_node {k : Kind} {d : List (Str × Tree F)} : (Tree.node k d).height = Tree.heightK d + 1 := by simp [Tree.height]

theorem sets_step {E : Env F} {v38 : Bool} {m : Nat} {f : Ref F → M F Unit} (hB : B ≤ E.lim) (hf : Sets B E v38 m f)
    (hl : ∀ {h : Heap F} {r : Ref F} {j : JVal F}, readJ h B r = some j → defaultsStep E v38 f r h = (.ok (), h)) :
    Sets B E v38 (m + 1) (defaultsStep E v38 f) := by
  intro t N h r S hm hu hz hc hr
  cases hr with
  | leaf _ j _ h1 h2 => exact ⟨N, h, hl h2, .refl hz _, by unfold Tree.sd; exact .leaf _ _ _ h1 h2⟩
  | empty a _ h1 h2 =>
    refine ⟨N, h, ?_, .refl hz _, ?_⟩
    · unfold defaultsStep
      rw [run_bind (run_deref h2)]
      rfl
    · unfold Tree.sd Tree.sdK
      exact .empty _ _ h1 h2
  | node a k rs ts _ S' h1 h2 h3 h4 h5 =>
    rw [Tree.height_node] at hm
    have hal := (List.getElem?_eq_some_iff.mp h1).1
    unfold defaultsStep
    rw [run_bind (run_deref h1)]
    have fin : ∀ (ts' : List (Str × Tree F)) N' h' rs', Ext N h (fun b => S' b ∨ b = a) N' h' → h'[a]? = some (k.obj rs') →
        RepK B N' h' rs' ts' (Grown (fun b => S' b ∧ b < h.length) h) → Ext N h S N' h' ∧ Rep B N' h' (.ptr a) (.node k ts') (Grown S h) := by
      intro ts' N' h' rs' x o p
      refine ⟨x.mono (fun b hb _ => ?_), .node a k rs' ts' _ _ o (.inl h2) (fun hn => h3 (x.old a hal hn)) p (fun b hb => ?_)⟩
      · rcases hb with hb | hb
        · exact (h5 b hb).1
        · subst hb; exact h2
      · rcases hb with hb | hb
        · exact ⟨.inl (h5 b hb.1).1, (h5 b hb.1).2⟩
        · exact ⟨.inr hb, by omega⟩
    cases k with
    | list =>
      unfold Tree.Uniq at hu
      obtain ⟨N', h', e1, x1, p1⟩ := sets_kids hf (by omega) hu hz hc h4.bound
      have ho' : h'[a]? = some (Kind.list.obj rs) := by
        rw [x1.keep a hal (.inr (fun h => (h5 a h.1).2 rfl))]; exact h1
      obtain ⟨y1, y2⟩ := fin _ _ _ _ (x1.mono (fun b hb _ => .inl hb.1)) ho' p1
      exact ⟨N', h', e1, y1, by unfold Tree.sd; exact y2⟩
    | dict =>
      unfold Tree.Uniq at hu
      obtain ⟨N', h', e1, x1, p1⟩ := sets_kids hf (by omega) hu hz hc h4.bound
      have ho' : h'[a]? = some (Kind.dict.obj rs) := by
        rw [x1.keep a hal (.inr (fun h => (h5 a h.1).2 rfl))]; exact h1
      obtain ⟨y1, y2⟩ := fin _ _ _ _ (x1.mono (fun b hb _ => .inl hb.1)) ho' p1
      exact ⟨N', h', e1, y1, by unfold Tree.sd; exact y2⟩
    | inst c =>
      unfold Tree.Uniq at hu
      obtain ⟨hc1, hc2⟩ := hc v38 c
      obtain ⟨r', g, φ, d1, iso, d2⟩ := deepcopy_iso (E := E) ((readJ_depth hc2).le hB)
      have x0 := iso.ext hz Nil
      have hin := iso.in d2 hc1
      have hrd : readJ g B r' = some (.dict ((c.cls (F := F)).defaultsFor v38)) := by rw [iso_readJ iso B d2]; exact hc2
      cases readJ_iff.mp hrd with
      | dict b dv _ hob hdv =>
        have hdv' : All₂ (fun (p : Str × Ref F) (q : Str × JVal F) => p.1 = q.1 ∧ In (copied N φ) p.2 ∧ readJ g B p.2 = some q.2) dv
            ((c.cls (F := F)).defaultsFor v38) :=
          hdv.imp (fun p q hp _ e => ⟨e.1, x0.zone.closed b _ (in_ptr.mp hin) hob p.2 (List.mem_map.mpr ⟨p, hp, rfl⟩), readJ_of_below e.2⟩)
        obtain ⟨N', h', rs', e1, x1, o1, p1⟩ := sets_attrs hf ts (by omega) hu.2 (dd := []) (a := a) (S := fun b => S' b ∧ b < h.length) x0.zone
          (Consts.stable Nil _ _ _ _ _ hz x0 (fun _ _ h => h.elim) hc) hdv' (by rw [iso.old a hal]; exact h1)
          (fun hn => h3 (x0.old a hal hn)) (fun h => (h5 a h.1).2 rfl) (by rw [List.nil_append, h4.keys]; exact hu.1)
          (h4.bound.frame hz x0 (fun _ h => h.elim))
        obtain ⟨y1, y2⟩ := fin _ _ _ _ ((x0.mono (fun _ h => h.elim)).trans x1 (fun b hb _ => hb.imp (fun h => h.1) id)) o1
          (p1.mono (fun b hb => hb.imp id (fun h => Nat.le_trans iso.len h)))
        refine ⟨N', h', ?_, y1, by unfold Tree.sd; exact y2⟩
        simp only [Kind.obj]
        rw [run_bind d1]
        have e0 : itemsOf (.ptr b) g = (.ok dv, g) := by
          unfold itemsOf
          rw [run_bind (run_deref hob)]
          rfl
        rw [run_bind e0]
        exact e1

theorem sets {E : Env F} {v38 : Bool} (hB : B ≤ E.lim) : ∀ n, B ≤ n → Sets B E v38 n (setDefaultsN E v38 n)
  | 0, hn => by
    intro t N h r S hm hu hz hc hr
    cases hr with
    | leaf _ j _ h1 h2 => exact ⟨N, h, sd_leaf h2 hn, .refl hz _, by unfold Tree.sd; exact .leaf _ _ _ h1 h2⟩
    | empty => simp [Tree.height] at hm
    | node => simp [Tree.height] at hm
  | n + 1, hn => by
    by_cases hb : B ≤ n
    · exact sets_step hB (sets hB n hb) (fun hr => sd_leaf (n := n + 1) hr hn)
    · intro t N h r S hm hu hz hc hr
      cases hr with
      | leaf _ j _ h1 h2 => exact ⟨N, h, sd_leaf h2 hn, .refl hz _, by unfold Tree.sd; exact .leaf _ _ _ h1 h2⟩
      | empty => simp [Tree.height] at hm; omega
      | node => simp [Tree.height] at hm; omega

theorem setDefaults_sim {E : Env F} {v38 : Bool} {t : Tree F} {N : Nat → Prop} {h : Heap F} {r : Ref F} {S : Nat → Prop}
    (hm : t.height + B ≤ E.lim) (hu : t.Uniq) (hz : Zone N h) (hc : Consts B E N h) (hr : Rep B N h r t S) :
    ∃ N' h', setDefaults E v38 r h = (.ok (), h') ∧ Ext N h S N' h' ∧ Rep B N' h' r (t.sd v38) (Grown S h) :=
  sets (by omega) E.lim (by omega) t N h r S hm hu hz hc hr

end Alias
end Spine
