import Verif.Lemmas.SimClean
/-
`remove_skin` on the heap.
-/
set_option linter.unusedSectionVars false
namespace Spine
namespace Alias
open M
variable {F : Type} [PyRt F] {B : Nat} {N : Nat → Prop} {h : Heap F}

theorem set_swap {α : Type} {k1 k2 : Str} (hk : k1 ≠ k2) (l : Dict α) (v v' w : α) :
    Dict.set (Dict.set (Dict.set l k1 v) k2 w) k1 v' = Dict.set (Dict.set l k1 v') k2 w := by
  induction l with
  | nil => simp [Dict.set, hk]
  | cons p l ih =>
    obtain ⟨k, x⟩ := p
    by_cases h1 : k = k1
    · subst h1
      simp [Dict.set, hk]
    · by_cases h2 : k = k2
      · subst h2
        simp [Dict.set, Ne.symm hk, set_set]
      · simp [Dict.set, h1, h2, ih]

/-- two attributes of an object -/
theorem Rep.two {r : Ref F} {tg : Tag} {ts : List (Str × Tree F)} {S : Nat → Prop} {k1 k2 : Str} {t1 t2 : Tree F} (hz : Zone N h) (hk : k1 ≠ k2)
    (hr : Rep B N h r (.node (.inst tg) ts) S) (h1 : Dict.get? ts k1 = some t1) (h2 : Dict.get? ts k2 = some t2) :
    ∃ x1 x2 T1 T2, Rep B N h x1 t1 T1 ∧ Rep B N h x2 t2 T2 ∧ (∀ b, T1 b → S b ∧ b < h.length) ∧ (∀ b, T2 b → S b ∧ b < h.length) ∧
      (∀ b, T1 b → T2 b → False) ∧
      (∀ N' h', Ext N h (fun b => T1 b ∨ T2 b) N' h' → getAttr r k1 h' = (.ok x1, h') ∧ getAttr r k2 h' = (.ok x2, h')) ∧
      (∀ N' h' t1' t2' P1 P2, Ext N h (fun b => T1 b ∨ T2 b) N' h' → Rep B N' h' x1 t1' P1 → Rep B N' h' x2 t2' P2 →
        (∀ b, P1 b → T1 b ∨ T2 b ∨ h.length ≤ b) → (∀ b, P2 b → T1 b ∨ T2 b ∨ h.length ≤ b) → (∀ b, P1 b → P2 b → False) →
        Rep B N' h' r (.node (.inst tg) (Dict.set (Dict.set ts k1 t1') k2 t2')) (Grown S h)) ∧
      (∀ N' h' x1' t1' t2' P1 P2, Ext N h (fun b => T1 b ∨ T2 b) N' h' → Rep B N' h' x1' t1' P1 → Rep B N' h' x2 t2' P2 →
        (∀ b, P1 b → T1 b ∨ T2 b ∨ h.length ≤ b) → (∀ b, P2 b → T1 b ∨ T2 b ∨ h.length ≤ b) → (∀ b, P1 b → P2 b → False) →
        ∃ h'', setAttr r k1 x1' h' = (.ok (), h'') ∧ Ext N h S N' h'' ∧
          Rep B N' h'' r (.node (.inst tg) (Dict.set (Dict.set ts k1 t1') k2 t2')) (Grown S h)) := by
  obtain ⟨a, rs, S', rfl, o1, o2, o3, o4, o5⟩ := hr.inst
  have hl := (List.getElem?_eq_some_iff.mp o1).1
  obtain ⟨x1, T1, U, g1, g2, g3, g4, g5, g6⟩ := o4.bound.blank h1
  obtain ⟨x2, T2, W, a1, a2, a3, a4, a5, a6⟩ := g3.blank (k := k2) (t := t2) (by
    rw [Dict.get?_set, if_neg (Ne.symm hk)]; exact h2)
  have ha : Dict.get? rs k2 = some x2 := by
    rw [Dict.get?_set, if_neg (Ne.symm hk)] at a1
    exact a1
  have n1 : ¬ T1 a := fun hc => (o5 a (g4 a hc).1).2 rfl
  have n2 : ¬ T2 a := fun hc => (o5 a (g5 a (a4 a hc)).1).2 rfl
  have n3 : ¬ W a := fun hc => (o5 a (g5 a (a5 a hc)).1).2 rfl
  have cell : ∀ N' h', Ext N h (fun b => T1 b ∨ T2 b) N' h' → h'[a]? = some (.inst tg rs) := by
    intro N' h' e
    rw [e.keep a hl (.inr (fun hc => hc.elim n1 n2))]
    exact o1
  have core : ∀ N' h' x1' t1' t2' P1 P2, Ext N h (fun b => T1 b ∨ T2 b) N' h' → Rep B N' h' x1' t1' P1 → Rep B N' h' x2 t2' P2 →
        (∀ b, P1 b → T1 b ∨ T2 b ∨ h.length ≤ b) → (∀ b, P2 b → T1 b ∨ T2 b ∨ h.length ≤ b) → (∀ b, P1 b → P2 b → False) →
        RepK B N' h' (Dict.set rs k1 x1') (Dict.set (Dict.set ts k1 t1') k2 t2') (fun b => (W b ∨ P2 b) ∨ P1 b) := by
    intro N' h' x1' t1' t2' P1 P2 e r1 r2 p1 p2 p12
    have hW : ∀ b, W b → (T1 b ∨ T2 b ∨ h.length ≤ b) → False := by
      rintro b hb (hc | hc | hc)
      · exact g6 b hc (a5 b hb)
      · exact a6 b hc hb
      · have := (g5 b (a5 b hb)).2; omega
    have r3 := a3.frame hz e (fun b hb hc _ => hW b hc (hb.elim .inl (fun h => .inr (.inl h))))
    have r4 := (r3.set (k := k2) r2 (fun b hb hc => hW b hb (p2 b hc))).set (k := k1) r1 (by
      rintro b (hb | hb) hc
      · exact hW b hb (p1 b hc)
      · exact p12 b hc hb)
    rw [set_set, set_same (k := k2) (l := Dict.set rs k1 .null) a1, set_set, set_set, set_swap hk] at r4
    exact r4
  have sub : ∀ P1 P2 : Nat → Prop, (∀ b, P1 b → T1 b ∨ T2 b ∨ h.length ≤ b) → (∀ b, P2 b → T1 b ∨ T2 b ∨ h.length ≤ b) → ∀ b, ((W b ∨ P2 b) ∨ P1 b) →
      Grown S h b ∧ b ≠ a := by
    intro P1 P2 p1 p2 b hb
    have : W b ∨ T1 b ∨ T2 b ∨ h.length ≤ b := by
      rcases hb with (hb | hb) | hb
      · exact .inl hb
      · exact .inr (p2 b hb)
      · exact .inr (p1 b hb)
    rcases this with hb | hb | hb | hb
    · exact ⟨.inl (o5 b (g5 b (a5 b hb)).1).1, (o5 b (g5 b (a5 b hb)).1).2⟩
    · exact ⟨.inl (o5 b (g4 b hb).1).1, (o5 b (g4 b hb).1).2⟩
    · exact ⟨.inl (o5 b (g5 b (a4 b hb)).1).1, (o5 b (g5 b (a4 b hb)).1).2⟩
    · exact ⟨.inr hb, by omega⟩
  refine ⟨x1, x2, T1, T2, g2, a2, fun b hb => ⟨(o5 b (g4 b hb).1).1, (g4 b hb).2⟩, fun b hb => ⟨(o5 b (g5 b (a4 b hb)).1).1, (g5 b (a4 b hb)).2⟩,
    fun b hb hc => g6 b hb (a4 b hc), fun N' h' e => ⟨run_getAttr (cell N' h' e) g1, run_getAttr (cell N' h' e) ha⟩, ?_, ?_⟩
  · intro N' h' t1' t2' P1 P2 e r1 r2 p1 p2 p12
    have r3 := core N' h' x1 t1' t2' P1 P2 e r1 r2 p1 p2 p12
    rw [set_same g1] at r3
    exact .node a (.inst tg) rs _ _ _ (cell N' h' e) (.inl o2) (fun hc => o3 (e.old a hl hc)) r3 (sub P1 P2 p1 p2)
  · intro N' h' x1' t1' t2' P1 P2 e r1 r2 p1 p2 p12
    have r3 := core N' h' x1' t1' t2' P1 P2 e r1 r2 p1 p2 p12
    have hn : ¬ N' a := fun hc => o3 (e.old a hl hc)
    have e2 : Ext N' h' (fun b => b = a) N' (h'.set a (.inst tg (Dict.set rs k1 x1'))) := Ext.set e.zone _ rfl hn
    have e3 : Ext N h S N' h' := e.mono (by
      rintro b (hb | hb) _
      · exact (o5 b (g4 b hb).1).1
      · exact (o5 b (g5 b (a4 b hb)).1).1)
    refine ⟨_, run_setAttr (cell N' h' e), e3.trans e2 (fun b hb _ => by rw [hb]; exact o2), ?_⟩
    refine .node a (.inst tg) (Dict.set rs k1 x1') _ _ _ ?_ (.inl o2) hn (r3.frame e.zone e2 (fun b hb hc _ => (sub P1 P2 p1 p2 b hc).2 hb)) (sub P1 P2 p1 p2)
    rw [List.getElem?_set_self (List.getElem?_eq_some_iff.mp (cell N' h' e)).1]
    rfl

/-! ### Linked meshes -/

theorem linksTo_rep {n : Str} {x : Att F} {r : Ref F} {S : Nat → Prop} (hz : Zone N h) (hr : Rep B N h r (tAtt x) S) :
    linksTo n r h = (.ok (AnimData.linksTo n x), h) := by
  obtain ⟨a, rs, S', rfl, o1, _, _, o4, _⟩ := Rep.inst (t := .att x.kind) hr
  unfold linksTo
  rw [run_bind (run_deref o1)]
  unfold AnimData.linksTo
  cases hk : x.kind with
  | linked =>
    simp only
    unfold Attrs.val
    cases hg : Dict.get? x.attrs s!!"skin" with
    | none =>
      rw [o4.get_none (by rw [get?_dmap, hg]; rfl)]
      rfl
    | some j =>
      obtain ⟨w, T, g1, g2, _⟩ := o4.get hz (k := s!!"skin") (t := .leaf j) (by rw [get?_dmap, hg]; rfl)
      rw [g1]
      have hj := readJ_iff.mp g2.leafJ.2
      cases hj <;> rfl
  | _ => rfl

theorem val_of {a : Attrs F} {k : Str} {j : JVal F} (hg : Dict.get? a k = some j) : a.val k = j := by
  unfold Attrs.val; rw [hg]; rfl

theorem get_of_key {a : Attrs F} {k : Str} (hk : k ∈ Dict.keys a) : ∃ j, Dict.get? a k = some j := by
  cases hg : Dict.get? a k with
  | none => exact absurd hk ((Dict.get?_eq_none_iff _ _).mp hg)
  | some j => exact ⟨j, rfl⟩

/-- an attribute is copied from one object to another -/
theorem copyLeaf {c r : Ref F} {tg tg' : Tag} {a b : Attrs F} {S T : Nat → Prop} {k : Str} (hz : Zone N h) (hc : Rep B N h c (tAttrs tg a) S)
    (hr : Rep B N h r (tAttrs tg' b) T) (hk : k ∈ Dict.keys b) (hd : ∀ x, S x → T x → x < h.length → False) :
    ∃ x h', getAttr r k h = (.ok x, h) ∧ setAttr c k x h = (.ok (), h') ∧ Ext N h S N h' ∧ Rep B N h' c (tAttrs tg (Dict.set a k (b.val k))) S ∧
      Rep B N h' r (tAttrs tg' b) T := by
  obtain ⟨j, hj⟩ := get_of_key hk
  obtain ⟨x, e1, i1, j1⟩ := hr.getLeaf hz hj
  obtain ⟨h2, e2, x2, r2⟩ := hc.setLeaf (k := k) hz i1 j1
  rw [val_of hj]
  exact ⟨x, h2, e1, e2, x2, r2, hr.frame hz x2 hd⟩

theorem relink_step {E : Env F} (hm : 8 + B ≤ E.lim) {gone : Skin F} {n slot k : Str} {x : Att F} {pre l : Dict (Att F)} {g en r : Ref F} {G S V : Nat → Prop}
    (hz : Zone N h) (hG : Rep B N h g (tSkin gone) G) (hV : Rep B N h r (tAtt x) V) (hS : Rep B N h en (tdict tAtt (pre ++ (k, x) :: l)) S)
    (hn : k ∉ pre.map (·.1)) (hf : x.Fit) :
    ∃ N' h', relink E g n slot en (k, r) h = ((AnimData.relinkAtt gone n slot k x).1, h') ∧ Ext N h S N' h' ∧
      Rep B N' h' en (tdict tAtt (pre ++ (k, (AnimData.relinkAtt gone n slot k x).2) :: l)) (Grown S h) := by
  unfold relink AnimData.relinkAtt
  rw [run_bind (linksTo_rep hz hV)]
  by_cases hlk : AnimData.linksTo n x = true
  · simp only [hlk, if_true]
    have hkind : x.kind = .linked := by
      unfold AnimData.linksTo at hlk
      split at hlk
      · assumption
      · cases hlk
    have hlnk := hf.link hkind
    have f1 := hlnk s!!"name" (by simp)
    have f2 := hlnk s!!"path" (by simp)
    have f3 := hlnk s!!"width" (by simp)
    have f4 := hlnk s!!"height" (by simp)
    obtain ⟨w, T, e1, r1, s1, _, _⟩ := hG.attr hz (k := s!!"attachments") (t := tdict (tdict tAtt) gone.attachments) rfl
    rw [run_bind e1]
    cases hg1 : Dict.get? gone.attachments slot with
    | none => exact ⟨N, h, run_fail (r1.item_none (by rw [get?_dmap, hg1]; rfl)), .refl hz _, hS.mono (fun a ha => .inl ha)⟩
    | some e =>
      obtain ⟨w2, T2, e2, r2, s2, _, _⟩ := r1.item hz (k := slot) (t := tdict tAtt e) (by rw [get?_dmap, hg1]; rfl)
      rw [run_bind e2]
      simp only
      cases hg2 : Dict.get? e k with
      | none => exact ⟨N, h, run_fail (r2.item_none (by rw [get?_dmap, hg2]; rfl)), .refl hz _, hS.mono (fun a ha => .inl ha)⟩
      | some p =>
        obtain ⟨w3, T3, e3, r3, s3, _, _⟩ := r2.item hz (k := k) (t := tAtt p) (by rw [get?_dmap, hg2]; rfl)
        rw [run_bind e3]
        obtain ⟨c, N4, h4, e4, x4, r4⟩ := r3.copy hz (E := E) (by have := height_attrs (.att p.kind) p.attrs; unfold tAtt; omega)
        have v4 := hV.bound.keep hz x4
        have dj : ∀ (h' : Heap F), ∀ a, Btw h.length h4.length a → (V a ∧ a < h.length) → a < h'.length → False := by
          intro _ a ha hb _; have h1 := ha.1; have h2 := hb.2; omega
        obtain ⟨y5, h5, e5, e5', x5, r5, v5⟩ := copyLeaf (k := s!!"name") x4.zone r4 v4 f1 (dj _)
        obtain ⟨y6, h6, e6, e6', x6, r6, v6⟩ := copyLeaf (k := s!!"path") x5.zone r5 v5 f2 (dj _)
        obtain ⟨y7, h7, e7, e7', x7, r7, v7⟩ := copyLeaf (k := s!!"width") x6.zone r6 v6 f3 (dj _)
        obtain ⟨y8, h8, e8, e8', x8, r8, v8⟩ := copyLeaf (k := s!!"height") x7.zone r7 v7 f4 (dj _)
        rw [run_bind e4]
        simp only
        rw [run_bind e5, run_bind e5', run_bind e6, run_bind e6', run_bind e7, run_bind e7', run_bind e8, run_bind e8']
        have hx : Ext N h Nil N4 h8 := by
          have hb : ∀ a, Btw h.length h4.length a → a < h.length → Nil a := by intro a ha hl; have := ha.1; omega
          exact (((x4.trans x5 hb).trans x6 hb).trans x7 hb).trans x8 hb
        have hget : Dict.get? (dmap tAtt (pre ++ (k, x) :: l)) k = some (tAtt x) := by rw [get?_dmap, dict_get_mid hn]; rfl
        obtain ⟨_, T9, _, _, s9, _, k9⟩ := hS.item hz hget
        have r8' : Rep B N4 h8 c (tAtt (AnimData.relinked p x)) (Btw h.length h4.length) := r8
        obtain ⟨h9, e9, x9, r9⟩ := k9 N4 h8 c _ (hx.mono (fun _ h _ => h.elim)) (r8'.mono (fun a ha => .inr ha.1))
        rw [set_dmap, dict_set_mid hn] at r9
        exact ⟨N4, h9, e9, x9, r9⟩
  · simp only [hlk]
    exact ⟨N, h, rfl, .refl hz _, hS.mono (fun a ha => .inl ha)⟩

theorem relinkLoop {E : Env F} (hm : 8 + B ≤ E.lim) {gone : Skin F} {n slot : Str} {g en : Ref F} : ∀ {l pre : Dict (Att F)} {N : Nat → Prop} {h : Heap F} {rs : Dict (Ref F)} {G S V : Nat → Prop},
    Zone N h → (Dict.keys (pre ++ l)).Nodup → (∀ p ∈ l, p.2.Fit) → Rep B N h g (tSkin gone) G → RepK B N h rs (dmap tAtt l) V →
    Rep B N h en (tdict tAtt (pre ++ l)) S → (∀ a, S a → G a → a < h.length → False) → (∀ a, S a → V a → a < h.length → False) →
    ∃ N' h', each (relink E g n slot en) rs h = ((mapMutD (fun k x => AnimData.relinkAtt gone n slot k x) l).1, h') ∧ Ext N h S N' h' ∧
      Rep B N' h' en (tdict tAtt (pre ++ (mapMutD (fun k x => AnimData.relinkAtt gone n slot k x) l).2)) (Grown S h)
  | [], pre, N, h, rs, G, S, V, hz, _, _, _, hV, hS, _, _ => by
    cases hV
    exact ⟨N, h, rfl, .refl hz _, hS.mono (fun a ha => .inl ha)⟩
  | (k, x) :: l, pre, N, h, rs, G, S, V, hz, hn, hf, hG, hV, hS, d1, d2 => by
    cases hV with
    | cons _ r _ rs _ V1 V2 _ v1 v2 v3 v4 v5 =>
      have hkp : k ∉ pre.map (·.1) := by
        intro hc
        unfold Dict.keys at hn
        simp only [List.map_append, List.map_cons] at hn
        exact (List.nodup_append.mp hn).2.2 k hc k (by simp) rfl
      obtain ⟨N1, h1, e1, x1, r1⟩ := relink_step hm (n := n) (slot := slot) hz hG v1 hS hkp (hf (k, x) (by simp))
      unfold mapMutD
      simp only [mapMut]
      cases hq : AnimData.relinkAtt gone n slot k x with
      | mk o y =>
        rw [hq] at e1 r1
        cases o with
        | error e => exact ⟨N1, h1, each_cons_error e1, x1, r1⟩
        | ok u =>
          have r1' : Rep B N1 h1 en (tdict tAtt ((pre ++ [(k, y)]) ++ l)) (Grown S h) := by simpa using r1
          obtain ⟨N2, h2, e2, x2, r2⟩ := relinkLoop hm (gone := gone) (n := n) (slot := slot) (g := g) (en := en) (l := l) (pre := pre ++ [(k, y)]) (rs := rs)
            (G := fun a => G a ∧ a < h.length) (V := fun a => V2 a ∧ a < h.length) x1.zone
            (by have : Dict.keys (pre ++ [(k, y)] ++ l) = Dict.keys (pre ++ (k, x) :: l) := by simp [Dict.keys]
                rw [this]; exact hn)
            (fun p hp => hf p (by simp [hp])) (hG.bound.frame hz x1 (fun a ha hb hl => d1 a ha hb.1 hl))
            (v2.bound.frame hz x1 (fun a ha hb hl => d2 a ha (v5 a hb.1) hl)) r1'
            (fun a ha hb _ => ha.elim (fun ha => d1 a ha hb.1 hb.2) (fun ha => by have := hb.2; omega))
            (fun a ha hb _ => ha.elim (fun ha => d2 a ha (v5 a hb.1) hb.2) (fun ha => by have := hb.2; omega))
          refine ⟨N2, h2, ?_, x1.grown x2, ?_⟩
          · rw [each_cons_ok e1]
            exact e2
          · have r3 := r2.mono (grown_grown x1.len)
            simpa [mapMutD] using r3

/-- loop body 143-164 of `remove_skin` -/
theorem relinkSkin_acts {E : Env F} (hm : 8 + B ≤ E.lim) {gone : Skin F} {n : Str} {g : Ref F} {G : Nat → Prop} {s : Skin F} (hf : s.Fit) (hu : Skin.Uniq s)
    (hs : s.name ≠ n) {r : Ref F} {S : Nat → Prop} (hz : Zone N h) (hG : Rep B N h g (tSkin gone) G) (hr : Rep B N h r (tSkin s) S)
    (hd : ∀ a, S a → G a → a < h.length → False) :
    ∃ N' h', relinkSkin E g n r h = ((AnimData.relinkSkin gone n s).1, h') ∧ Ext N h S N' h' ∧ Rep B N' h' r (tSkin (AnimData.relinkSkin gone n s).2) (Grown S h) := by
  obtain ⟨w, T, e1, r1, s1, k1, _⟩ := hr.attr hz (k := s!!"attachments") (t := tdict (tdict tAtt) s.attachments) rfl
  obtain ⟨rs, U, e2, k2, s2, f2⟩ := r1.items
  obtain ⟨N3, h3, e3, x3, r3⟩ := each_acts (B := B) (C := G) (K := fun N h => Rep B N h g (tSkin gone) (fun a => G a ∧ a < h.length)) (by
      intro N h S N' h' hz e hd hk
      exact (hk.frame hz e (fun a ha hb hl => hd a ha hb.1 hl)).mono (fun a ha => ⟨ha.1, Nat.lt_of_lt_of_le ha.2 e.len⟩))
    (key := fun p : Str × Dict (Att F) => p.1) (T := fun p => tdict tAtt p.2)
    (g := fun p => let q := mapMutD (fun key x => AnimData.relinkAtt gone n p.1 key x) p.2; (q.1, (p.1, q.2)))
    (f := fun p : Str × Ref F => do
      let c ← deepcopy E p.2
      let e ← itemsOf c
      each (relink E g n p.1 p.2) e) (l := s.attachments) (by
      intro p hp N h r S hz hG hd hr
      obtain ⟨c, N1, h1, e1, x1, r1⟩ := hr.copy hz (E := E) (by
        have := height_tdict (f := tAtt (F := F)) (fun _ => height_attrs _ _) p.2; simp only; omega)
      obtain ⟨cs, V, e2, k2, s2, _⟩ := r1.items
      obtain ⟨N3, h3, e3, x3, r3⟩ := relinkLoop hm (gone := gone) (n := n) (slot := p.1) (g := g) (en := r) (l := p.2) (pre := []) (S := fun a => S a ∧ a < h.length)
        x1.zone (hu.2 p hp) (hf p hp) (hG.keep hz x1) k2 (hr.bound.keep hz x1)
        (fun a ha hb _ => hd a ha.1 hb.1 ha.2) (fun a ha hb _ => by have h1 := (s2 a hb).1.1; have h2 := ha.2; omega)
      refine ⟨N3, h3, ?_, ?_, ?_⟩
      · simp only
        rw [run_bind e1, run_bind e2]
        exact e3
      · exact (x1.mono (fun _ h _ => h.elim)).trans x3 (fun a ha _ => ha.1)
      · refine r3.mono ?_
        rintro a (ha | ha)
        · exact .inl ha.1
        · exact .inr (Nat.le_trans x1.len ha)) (fun _ _ => rfl) hz hG.bound
    (fun a ha hb hl => hd a (s1 a (s2 a ha).1).1 hb hl) k2
  have r4 := f2 N3 h3 _ x3 r3
  have r5 := k1 N3 h3 _ (x3.mono (fun a ha _ => (s2 a ha).1)) r4
  unfold AnimData.relinkSkin
  rw [if_neg hs]
  refine ⟨N3, h3, ?_, x3.mono (fun a ha _ => (s1 a (s2 a ha).1).1), r5⟩
  unfold relinkSkin
  rw [run_bind e1, run_bind e2]
  exact e3

/-! ### One element among others -/

theorem RepK.mid {k : Str} {r : Ref F} {t : Tree F} : ∀ {l1 l2 : Dict (Ref F)} {t1 t2 : List (Str × Tree F)} {S : Nat → Prop}, l1.length = t1.length →
    RepK B N h (l1 ++ (k, r) :: l2) (t1 ++ (k, t) :: t2) S →
    ∃ G R, Rep B N h r t G ∧ RepK B N h (l1 ++ l2) (t1 ++ t2) R ∧ (∀ a, G a → S a) ∧ (∀ a, R a → S a) ∧ ∀ a, R a → G a → False
  | [], l2, [], t2, S, _, hr => by
    cases hr with
    | cons _ _ _ _ _ S1 S2 _ h1 h2 h3 h4 h5 => exact ⟨S1, S2, h1, h2, h4, h5, fun a ha hb => h3 a hb ha⟩
  | [], _, _ :: _, _, _, hl, _ => by cases hl
  | _ :: _, _, [], _, _, hl, _ => by cases hl
  | p :: l1, l2, q :: t1, t2, S, hl, hr => by
    cases hr with
    | cons k' r' t' _ _ S1 S2 _ h1 h2 h3 h4 h5 =>
      obtain ⟨G, R, g1, g2, g3, g4, g5⟩ := RepK.mid (by simpa using hl) h2
      refine ⟨G, fun a => S1 a ∨ R a, g1, ?_, fun a ha => h5 a (g3 a ha), fun a ha => ha.elim (h4 a) (fun h => h5 a (g4 a h)), ?_⟩
      · exact .cons _ _ _ _ _ S1 R _ h1 g2 (fun a ha hb => h3 a ha (g4 a hb)) (fun a ha => .inl ha) (fun a ha => .inr ha)
      · rintro a (ha | ha) hb
        · exact h3 a ha (g3 a hb)
        · exact g5 a ha hb

theorem RepK.putMid {k : Str} {r : Ref F} {t : Tree F} {G : Nat → Prop} : ∀ {l1 l2 : Dict (Ref F)} {t1 t2 : List (Str × Tree F)} {R : Nat → Prop}, l1.length = t1.length →
    RepK B N h (l1 ++ l2) (t1 ++ t2) R → Rep B N h r t G → (∀ a, R a → G a → False) →
    RepK B N h (l1 ++ (k, r) :: l2) (t1 ++ (k, t) :: t2) (fun a => R a ∨ G a)
  | [], l2, [], t2, R, _, hr, hg, hd => .cons _ _ _ _ _ G R _ hg hr (fun a ha hb => hd a hb ha) (fun _ h => .inr h) (fun _ h => .inl h)
  | [], _, _ :: _, _, _, hl, _, _, _ => by cases hl
  | _ :: _, _, [], _, _, hl, _, _, _ => by cases hl
  | p :: l1, l2, q :: t1, t2, R, hl, hr, hg, hd => by
    cases hr with
    | cons k' r' t' _ _ S1 S2 _ h1 h2 h3 h4 h5 =>
      have := RepK.putMid (k := k) (l1 := l1) (t1 := t1) (by simpa using hl) h2 hg (fun a ha hb => hd a (h5 a ha) hb)
      refine .cons _ _ _ _ _ S1 _ _ h1 this ?_ (fun a ha => .inl (h4 a ha)) (fun a ha => ha.imp (h5 a) id)
      rintro a ha (hb | hb)
      · exact h3 a ha hb
      · exact hd a (h4 a ha) hb

theorem mapMut_length {α : Type} (f : α → Res α Unit) (l : List α) : (mapMut f l).2.length = l.length := by
  have := mapMut_keys (key := fun _ => ([] : Str)) (g := f) (l := l) (fun _ _ => rfl)
  have := congrArg List.length this
  simpa using this

theorem mapMut_mid {α : Type} {f : α → Res α Unit} {g : α} (hg : f g = (.ok (), g)) : ∀ (l m : List α), mapMut f (l ++ g :: m) =
    ((mapMut f (l ++ m)).1, (mapMut f (l ++ m)).2.take l.length ++ g :: (mapMut f (l ++ m)).2.drop l.length)
  | [], m => by simp [mapMut, hg]
  | x :: l, m => by
    simp only [List.cons_append, mapMut]
    cases hx : f x with
    | mk o y =>
      cases o with
      | error e => simp
      | ok u => simp [mapMut_mid hg l m]

theorem RepK.zipped {α : Type} {T : α → Tree F} : ∀ {ss : List α} {rs : Dict (Ref F)} {S : Nat → Prop}, RepK B N h rs (ss.map (fun s => ([], T s))) S →
    ∃ zs : List (Ref F × α), rs = zs.map (fun z => ([], z.1)) ∧ zs.map (·.2) = ss
  | [], _, _, hr => by cases hr; exact ⟨[], rfl, rfl⟩
  | s :: ss, _, _, hr => by
    cases hr with
    | cons _ r _ rs _ S1 S2 _ h1 h2 h3 h4 h5 =>
      obtain ⟨zs, g1, g2⟩ := RepK.zipped h2
      exact ⟨(r, s) :: zs, by simp [g1], by simp [g2]⟩

theorem named_rep {n : Str} {s : Skin F} {r : Ref F} {S : Nat → Prop} (hz : Zone N h) (hr : Rep B N h r (tSkin s) S) : named n r h = (.ok (s.name == n), h) := by
  obtain ⟨w, _, e1, r1, _⟩ := hr.attr hz (k := s!!"name") (t := .leaf (.str s.name)) rfl
  have := r1.str
  subst this
  unfold named
  rw [run_bind e1]
  rfl

theorem filterL_run {α β : Type} {f : α → M F Bool} {p : β → Bool} {k : β → α} : ∀ {zs : List β}, (∀ z ∈ zs, f (k z) h = (.ok (p z), h)) →
    filterL f (zs.map k) h = (.ok ((zs.filter p).map k), h)
  | [], _ => rfl
  | z :: zs, hf => by
    simp only [List.map_cons, filterL]
    rw [run_bind (hf z (by simp)), run_bind (filterL_run (fun z hz => hf z (by simp [hz])))]
    cases hp : p z <;> simp [hp] <;> rfl

theorem each_filter {α : Type} {f : Ref F → M F Unit} {key : α → Str} {k : α → Ref F} {n : Str} : ∀ {zs : List α} {h : Heap F},
    each (fun p : Str × Ref F => if p.1 = n then pure () else f p.2) (zs.map (fun z => (key z, k z))) h = each f ((zs.filter (fun z => decide (key z ≠ n))).map k) h
  | [], _ => rfl
  | z :: zs, h => by
    by_cases hz : key z = n
    · simp only [List.map_cons, List.filter_cons, hz, ne_eq, not_true, decide_false, Bool.false_eq_true, if_false]
      rw [each_cons_ok (h1 := h) (by simp only [if_true]; rfl)]
      exact each_filter
    · simp only [List.map_cons, List.filter_cons, hz, ne_eq, not_false_eq_true, decide_true, if_true]
      cases hx : f (k z) h with
      | mk o h1 =>
        cases o with
        | error e => rw [each_cons_error (h1 := h1) (e := e) (by simp only [if_neg hz]; exact hx), each_cons_error hx]
        | ok u => rw [each_cons_ok (h1 := h1) (by simp only [if_neg hz]; exact hx), each_cons_ok hx]; exact each_filter

/-- the computation does to the object what the function does to its value, and returns the same -/
def DoesR (B : Nat) {α β : Type} (T : α → Tree F) (f : Ref F → M F β) (g : α → Res α β) (x : α) : Prop :=
  ∀ N h r S, Zone N h → Rep B N h r (T x) S → ∃ N' h', f r h = ((g x).1, h') ∧ Ext N h S N' h' ∧ Rep B N' h' r (T (g x).2) (Grown S h)

theorem relinkSkin_name (gone : Skin F) (n : Str) (s : Skin F) : (AnimData.relinkSkin gone n s).2.name = s.name := by
  unfold AnimData.relinkSkin
  split <;> rfl

/-- `remove_skin` -/
theorem removeSkin_does {E : Env F} (hm : 8 + B ≤ E.lim) (n : Str) (x : AnimData F) (hu : ∀ s ∈ x.skins, s.Fit ∧ Skin.Uniq s) :
    DoesR B tData (fun r => removeSkin E r n) (AnimData.removeSkin n) x := by
  intro N h r S hz hr
  obtain ⟨l, an, T1, T2, r1, r2, s1, s2, d12, reads, join, put⟩ := Rep.two hz (k1 := s!!"skins") (k2 := s!!"animations") (by decide) hr
    (t1 := tlist tSkin x.skins) (t2 := tdict tAnim x.animations) rfl rfl
  obtain ⟨b, rs, U, rfl, b1, b2, e2, k2, u2, f2⟩ := r1.elemsX
  obtain ⟨zs, rfl, hzs⟩ := k2.zipped
  have hrefs : (zs.map (fun z => (([] : Str), z.1))).map (·.2) = zs.map (·.1) := by simp [Function.comp_def]
  rw [hrefs] at e2
  have k2' : RepK B N h (zs.map (fun z => ([], z.1))) (zs.map (fun z => ([], tSkin z.2))) U := by
    have : zs.map (fun z => (([] : Str), tSkin z.2)) = x.skins.map (fun s => ([], tSkin s)) := by rw [← hzs]; simp [Function.comp_def]
    rw [this]; exact k2
  have hnamed : ∀ z ∈ zs, named n z.1 h = (.ok (z.2.name == n), h) := by
    intro z hz'
    have hall := k2'.all₂ (key := fun _ => [])
    have : ∀ z ∈ zs, ∃ S', Rep B N h z.1 (tSkin z.2) S' := by
      have h3 := All₂.map_left.mp hall
      clear hall hrefs hzs k2 k2' hz' f2 e2
      intro z hz'
      obtain ⟨i, hi, rfl⟩ := List.getElem_of_mem hz'
      exact (h3.get i hi hi).2
    obtain ⟨S', h3⟩ := this z hz'
    exact named_rep hz h3
  have e3 := filterL_run (h := h) (f := named n) (k := fun z : Ref F × Skin F => z.1) (p := fun z => z.2.name == n) (zs := zs) hnamed
  have e4 := filterL_run (h := h) (f := fun s => named n s >>= fun b => pure (!b)) (k := fun z : Ref F × Skin F => z.1) (p := fun z => !(z.2.name == n)) (zs := zs) (by
    intro z hz'
    rw [run_bind (hnamed z hz')]; rfl)
  have e1 := (reads N h (.refl hz _)).1
  show ∃ N' h', removeSkin E r n h = _ ∧ _
  unfold removeSkin
  rw [run_bind e1, run_bind e2, run_bind e4, run_bind e3]
  unfold AnimData.removeSkin AnimData.getSkin
  have hfind : x.skins.find? (fun s => s.name == n) = ((zs.filter (fun z => z.2.name == n)).head?).map (·.2) := by
    rw [← hzs, List.find?_map, List.head?_filter]
    rfl
  cases hfl : zs.filter (fun z => z.2.name == n) with
  | nil =>
    rw [hfind, hfl]
    exact ⟨N, h, rfl, .refl hz _, hr.mono (fun a ha => .inl ha)⟩
  | cons g rest' =>
    obtain ⟨gr, gone⟩ := g
    rw [hfind, hfl]
    simp only [List.head?_cons, Option.map_some, List.map_cons]
    obtain ⟨z1, z2, hz12, hz1, hgn, hz2⟩ := List.filter_eq_cons_iff.mp hfl
    subst hz12
    simp only [beq_iff_eq] at hgn
    have hgone : gone ∈ x.skins := by rw [← hzs]; simp
    have hsub : ∀ s ∈ (z1 ++ z2).map (·.2), s ∈ x.skins := by
      intro s hs
      rw [← hzs]
      simp only [List.map_append, List.map_cons, List.mem_append, List.mem_cons] at hs ⊢
      rcases hs with hs | hs
      · exact .inl hs
      · exact .inr (.inr hs)
    have hxs : x.skins = z1.map (·.2) ++ gone :: z2.map (·.2) := by rw [← hzs]; simp
    simp only [List.map_append, List.map_cons] at k2'
    obtain ⟨G, R, rG, kR, sG, sR, dRG⟩ := RepK.mid (by simp) k2'
    simp only [← List.map_append] at kR
    have kR2 := RepK.rekey (k' := fun z : Ref F × Skin F => z.2.name) (k2' := fun z : Ref F × Skin F => z.2.name) rfl kR
    have kR3 : RepK B N h ((z1 ++ z2).map (fun z => (z.2.name, z.1))) (((z1 ++ z2).map (·.2)).map (fun s => (s.name, tSkin s))) R := by
      rw [List.map_map]; exact kR2
    obtain ⟨N3, h3, e3', x3, r3⟩ := each_acts (B := B) (C := G) (K := fun N h => Rep B N h gr (tSkin gone) (fun a => G a ∧ a < h.length)) (by
        intro N h S N' h' hz e hd hk
        exact (hk.frame hz e (fun a ha hb hl => hd a ha hb.1 hl)).mono (fun a ha => ⟨ha.1, Nat.lt_of_lt_of_le ha.2 e.len⟩))
      (key := fun s : Skin F => s.name) (T := tSkin) (g := AnimData.relinkSkin gone n)
      (f := fun p : Str × Ref F => if p.1 = n then pure () else relinkSkin E gr n p.2) (l := (z1 ++ z2).map (·.2)) (by
        intro s hs N h r S hz hk hd hr
        by_cases hn : s.name = n
        · have : AnimData.relinkSkin gone n s = (.ok (), s) := by unfold AnimData.relinkSkin; simp [hn]
          rw [this]
          exact ⟨N, h, by simp only [hn, if_true]; rfl, .refl hz _, hr.mono (fun a ha => .inl ha)⟩
        · simp only [if_neg hn]
          exact relinkSkin_acts hm (hu s (hsub s hs)).1 (hu s (hsub s hs)).2 hn hz hk hr (fun a ha hb hl => hd a ha hb.1 hl))
      (fun s _ => relinkSkin_name gone n s) hz rG.bound (fun a ha hb _ => dRG a ha hb) kR3
    have hrest : ((z1 ++ (gr, gone) :: z2).filter (fun z => !(z.2.name == n))).map (·.1) =
        ((z1 ++ z2).filter (fun z => decide (z.2.name ≠ n))).map (·.1) := by
      have : ∀ z : Ref F × Skin F, (!(z.2.name == n)) = decide (z.2.name ≠ n) := by
        intro z; by_cases hz : z.2.name = n <;> simp [hz]
      simp only [this]
      rw [List.filter_append, List.filter_cons, List.filter_append]
      simp [hgn]
    rw [hrest]
    rw [each_filter (key := fun z : Ref F × Skin F => z.2.name) (k := fun z => z.1)] at e3'
    have hmid := mapMut_mid (f := AnimData.relinkSkin gone n) (g := gone) (by unfold AnimData.relinkSkin; simp [hgn]) (z1.map (·.2)) (z2.map (·.2))
    rw [← hxs, ← List.map_append] at hmid
    have hlen := mapMut_length (AnimData.relinkSkin gone n) ((z1 ++ z2).map (·.2))
    have hnames : (mapMut (AnimData.relinkSkin gone n) ((z1 ++ z2).map (·.2))).2.map (·.name) = ((z1 ++ z2).map (·.2)).map (·.name) :=
      mapMut_keys (key := fun s : Skin F => s.name) (fun s _ => relinkSkin_name gone n s)
    generalize mapMut (AnimData.relinkSkin gone n) ((z1 ++ z2).map (·.2)) = q at *
    obtain ⟨o, m⟩ := q
    simp only at hmid hlen r3 e3' hnames
    rw [hmid]
    simp only
    have xT : Ext N h (fun b => T1 b ∨ T2 b) N3 h3 := x3.mono (fun a ha _ => .inl (u2 a (sR a ha)).1)
    have rG3 : Rep B N3 h3 gr (tSkin gone) G := rG.frame hz x3 (fun a ha hb _ => dRG a ha hb)
    have hGl : ∀ a, G a → T1 a ∧ a < h.length := fun a ha => ⟨(u2 a (sG a ha)).1, (u2 a (sG a ha)).2.1⟩
    have rl : Rep B N3 h3 (.ptr b) (tlist tSkin (m.take (z1.map (·.2)).length ++ gone :: m.drop (z1.map (·.2)).length))
        (fun a => ((Grown R h a ∧ a < h3.length) ∨ G a) ∨ a = b) := by
      have r4 := RepK.rekey (k' := fun _ : Ref F × Skin F => []) (k2' := fun _ : Skin F => []) (by
        rw [List.map_const', List.map_const', hlen, List.length_map]) r3.bound
      rw [List.map_append] at r4
      rw [← List.take_append_drop (z1.map (·.2)).length m, List.map_append] at r4
      have r5 := RepK.putMid (k := []) (by simp; simp at hlen; omega) r4 rG3 (by
        rintro a ⟨ha | ha, _⟩ hb
        · exact dRG a ha hb
        · have := (hGl a hb).2; omega)
      have r6 := f2 N3 h3 _ R _ x3 (fun hc => (u2 b (sR b hc)).2.2 rfl) (by rw [List.map_append, List.map_cons]; exact r5) (by
        rintro (⟨ha | ha, _⟩ | ha)
        · exact (u2 b (sR b ha)).2.2 rfl
        · omega
        · exact (u2 b (sG b ha)).2.2 rfl)
      unfold tlist
      rw [List.map_append, List.map_cons]
      exact r6
    have hP : ∀ a, ((Grown R h a ∧ a < h3.length) ∨ G a) ∨ a = b → T1 a ∨ h.length ≤ a ∧ a < h3.length := by
      rintro a ((⟨ha | ha, hl⟩ | ha) | rfl)
      · exact .inl (u2 a (sR a ha)).1
      · exact .inr ⟨ha, hl⟩
      · exact .inl (hGl a ha).1
      · exact .inl b1
    have r2' : Rep B N3 h3 an (tdict tAnim x.animations) T2 := r2.frame hz x3 (fun a ha hb _ => d12 a (u2 a (sR a ha)).1 hb)
    have part : Rep B N3 h3 r (tData { x with skins := m.take (z1.map (·.2)).length ++ gone :: m.drop (z1.map (·.2)).length }) (Grown S h) :=
      join N3 h3 _ _ _ T2 xT rl r2' (fun a ha => (hP a ha).elim .inl (fun h => .inr (.inr h.1))) (fun a ha => .inr (.inl ha)) (by
        intro a ha hb
        rcases hP a ha with hc | hc
        · exact d12 a hc hb
        · have := (s2 a hb).2; omega)
    have xS : Ext N h S N3 h3 := xT.mono (fun a ha _ => ha.elim (fun h => (s1 a h).1) (fun h => (s2 a h).1))
    cases o with
    | error e =>
      refine ⟨N3, h3, ?_, xS, part⟩
      rw [run_fail e3']
    | ok u =>
      cases u
      rw [run_bind e3', run_bind (run_view (view_skin (n := E.lim) (by omega) (hu gone hgone).1 rG3))]
      cases hri : AnimData.removedImages gone with
      | error e =>
        refine ⟨N3, h3, ?_, xS, part⟩
        rfl
      | ok ri =>
        have ean := (reads N3 h3 xT).2
        obtain ⟨N4, h4, e4', x4, r4⟩ := dict_does (f := dropDeform n) (g := fun _ y => (.ok (), AnimData.dropDeform n y)) (fun p _ => dropDeform_does n p.2) x3.zone r2'
        rw [mapMutD_pure] at e4' r4
        simp only at e4' r4
        have xT4 : Ext N h (fun b => T1 b ∨ T2 b) N4 h4 := xT.trans x4 (fun a ha _ => .inr ha)
        have r5 := (r3.bound.frame x3.zone x4 (by
          rintro a ha ⟨hb | hb, _⟩ _
          · exact d12 a (u2 a (sR a hb)).1 ha
          · have := (s2 a ha).2; omega)).filter (fun k => decide (k ≠ n))
        rw [List.filter_map, List.filter_map] at r5
        have hle : ((z1 ++ z2).filter (fun z => decide (z.2.name ≠ n))).length = (m.filter (fun s => decide (s.name ≠ n))).length := by
          have := congrArg (fun l => (l.filter (fun k => decide (k ≠ n))).length) hnames
          simp only [List.filter_map, List.length_map] at this
          simp only [Function.comp_def] at this
          exact this.symm
        have r6 := RepK.rekey (k' := fun _ : Ref F × Skin F => []) (k2' := fun _ : Skin F => []) (by
          rw [List.map_const', List.map_const']; simp only [Function.comp_def]; rw [hle]) r5
        simp only [Function.comp_def] at r6
        obtain ⟨h5, e5, x5, r7⟩ := RepK.alloc (k := .list) x4.zone r6
        have xT5 : Ext N h (fun b => T1 b ∨ T2 b) N4 h5 := xT4.trans x5 (fun a ha _ => nomatch ha)
        obtain ⟨h6, e6, x6, r8⟩ := put N4 h5 _ _ _ _ (fun a => Grown T2 h3 a ∧ a < h4.length) xT5 r7 (r4.bound.frame x4.zone x5 (fun a ha _ _ => nomatch ha)) (by
            rintro a (⟨⟨ha | ha, _⟩, _⟩ | ha)
            · exact .inl (u2 a (sR a ha)).1
            · exact .inr (.inr ha)
            · have := xT4.len; exact .inr (.inr (by omega))) (by
            rintro a ⟨ha | ha, _⟩
            · exact .inr (.inl ha)
            · have := xT.len; exact .inr (.inr (by omega))) (by
            rintro a (⟨⟨ha | ha, hl⟩, _⟩ | ha) ⟨hb | hb, hc⟩
            · exact d12 a (u2 a (sR a ha)).1 hb
            · have := (u2 a (sR a ha)).2.1; have := xT.len; omega
            · have := (s2 a hb).2; omega
            · omega
            · have := (s2 a hb).2; have := xT4.len; omega
            · omega)
        refine ⟨N4, h6, ?_, x6, ?_⟩
        · rw [run_bind (show lift (Except.ok ri) h3 = _ from rfl), run_bind ean]
          rw [← bind_assocM, run_bind e4']
          have hobj : Kind.list.obj (((z1 ++ z2).filter (fun z : Ref F × Skin F => decide (z.2.name ≠ n))).map (fun z => (([] : Str), z.1))) =
              .list (((z1 ++ z2).filter (fun z : Ref F × Skin F => decide (z.2.name ≠ n))).map (·.1)) := by
            simp [Kind.obj, Function.comp_def]
          rw [hobj] at e5
          rw [run_bind e5, run_bind e6]
          rfl
        · have hf : (m.take (z1.map (·.2)).length ++ gone :: m.drop (z1.map (·.2)).length).filter (fun s => decide (s.name ≠ n)) =
              m.filter (fun s => decide (s.name ≠ n)) := by
            rw [List.filter_append, List.filter_cons]
            simp only [hgn, ne_eq, not_true, decide_false, Bool.false_eq_true, if_false]
            rw [← List.filter_append, List.take_append_drop]
          simp only
          rw [hf]
          exact r8

end Alias
end Spine
