import Verif.Lemmas.SimView
/-
Working on a part of a tree in the heap: what is reached by an attribute, a key or an index, and what the whole is after the part
has been changed or replaced.
-/
set_option linter.unusedSectionVars false
namespace Spine
namespace Alias
open M
variable {F : Type} [PyRt F] {B : Nat} {N : Nat → Prop} {h : Heap F}

theorem grown_mono {S T : Nat → Prop} {h : Heap F} (hs : ∀ a, S a → T a) : ∀ a, Grown S h a → Grown T h a :=
  fun a ha => ha.imp (hs a) id

/-- growing twice is growing once -/
theorem grown_grown {S : Nat → Prop} {h h' : Heap F} (hl : h.length ≤ h'.length) : ∀ a, Grown (Grown S h) h' a → Grown S h a := by
  rintro a (ha | ha)
  · exact ha
  · exact .inr (Nat.le_trans hl ha)

/-- a change of grown places is a change of the places -/
theorem Ext.grown {N' N'' : Nat → Prop} {h' h'' : Heap F} {S : Nat → Prop} (e : Ext N h S N' h') (e' : Ext N' h' (Grown S h) N'' h'') :
    Ext N h S N'' h'' :=
  e.trans e' (fun a ha hl => ha.resolve_right (by omega))

theorem RepK.swap {rs : Dict (Ref F)} {ts : List (Str × Tree F)} {S : Nat → Prop} {k : Str} {t : Tree F} (hz : Zone N h) (hr : RepK B N h rs ts S)
    (hk : Dict.get? ts k = some t) : ∃ r T, Dict.get? rs k = some r ∧ Rep B N h r t T ∧ (∀ a, T a → S a ∧ a < h.length) ∧
      (∀ N' h' r' t', Ext N h T N' h' → Rep B N' h' r' t' (Grown T h) → RepK B N' h' (Dict.set rs k r') (Dict.set ts k t') (Grown S h)) ∧
      Dict.set rs k r = rs := by
  induction ts generalizing rs S with
  | nil => cases hk
  | cons p ts ih =>
    cases hr with
    | cons k' r t0 rs _ S1 S2 _ h1 h2 h3 h4 h5 =>
      unfold Dict.get? at hk
      by_cases hkk : k' = k
      · subst hkk
        simp only [if_true] at hk
        cases hk
        refine ⟨r, fun a => S1 a ∧ a < h.length, by simp [Dict.get?], h1.bound, fun a ha => ⟨h4 a ha.1, ha.2⟩, ?_, by simp [Dict.set]⟩
        intro N' h' r' t' e hr'
        simp only [Dict.set, if_true]
        refine .cons _ _ _ _ _ _ _ _ hr' (h2.bound.frame hz e ?_) ?_ ?_ ?_
        · intro a ha hb _; exact h3 a ha.1 hb.1
        · intro a ha hb
          rcases ha with ha | ha
          · exact h3 a ha.1 hb.1
          · have := hb.2; omega
        · intro a ha; exact ha.imp (fun h => h4 a h.1) id
        · intro a ha; exact .inl (h5 a ha.1)
      · simp only [if_neg hkk] at hk
        obtain ⟨r', T, g1, g2, g3, g4, g5⟩ := ih h2 hk
        refine ⟨r', T, by simp [Dict.get?, hkk, g1], g2, fun a ha => ⟨h5 a (g3 a ha).1, (g3 a ha).2⟩, ?_, by simp [Dict.set, hkk, g5]⟩
        intro N' h' r'' t' e hr'
        simp only [Dict.set, if_neg hkk]
        refine .cons _ _ _ _ _ (fun a => S1 a ∧ a < h.length) (Grown S2 h) _ (h1.bound.frame hz e ?_) (g4 N' h' r'' t' e hr') ?_ ?_ ?_
        · intro a ha hb _; exact h3 a hb.1 (g3 a ha).1
        · intro a ha hb
          rcases hb with hb | hb
          · exact h3 a ha.1 hb
          · have := ha.2; omega
        · intro a ha; exact .inl (h4 a ha.1)
        · intro a ha; exact ha.imp (h5 a) id

/-! ### Running -/

theorem run_getAttr {a : Nat} {t : Tag} {d : Dict (Ref F)} {k : Str} {v : Ref F} (ho : h[a]? = some (.inst t d)) (hk : Dict.get? d k = some v) :
    getAttr (.ptr a) k h = (.ok v, h) := by
  unfold getAttr
  simp only [run_bind (run_deref ho), hk]
  rfl

theorem run_elems {a : Nat} {l : List (Ref F)} (ho : h[a]? = some (.list l)) : elems (.ptr a) h = (.ok l, h) := by
  unfold elems
  simp only [run_bind (run_deref ho)]
  rfl

theorem run_itemsOf {a : Nat} {d : Dict (Ref F)} (ho : h[a]? = some (.dict d)) : itemsOf (.ptr a) h = (.ok d, h) := by
  unfold itemsOf
  simp only [run_bind (run_deref ho)]
  rfl

/-! ### Parts -/

/-- an object is changed whose other parts stay as they are -/
theorem Rep.refill {a : Nat} {k : Kind} {rs : Dict (Ref F)} {ts : List (Str × Tree F)} {S S' : Nat → Prop} {N' : Nat → Prop} {h' : Heap F} (hl : a < h.length)
    (hn : ¬ N a) (hx : Ext N h S N' h') (hS : S a) (hr : RepK B N' h' rs ts (Grown S' h)) (hs : ∀ b, S' b → S b ∧ b ≠ a) :
    Ext N h S N' (h'.set a (k.obj rs)) ∧ Rep B N' (h'.set a (k.obj rs)) (.ptr a) (.node k ts) (Grown S h) := by
  have hn' : ¬ N' a := fun hc => hn (hx.old a hl hc)
  have e1 : Ext N' h' (fun b => b = a) N' (h'.set a (k.obj rs)) := Ext.set hx.zone _ rfl hn'
  refine ⟨hx.trans e1 (fun b hb _ => by rw [hb]; exact hS), ?_⟩
  refine .node a k rs ts _ (Grown S' h) ?_ (.inl hS) hn' (hr.frame hx.zone e1 ?_) ?_
  · rw [List.getElem?_set_self (Nat.lt_of_lt_of_le hl hx.len)]
  · rintro b rfl hb _
    rcases hb with hb | hb
    · exact (hs _ hb).2 rfl
    · omega
  · rintro b (hb | hb)
    · exact ⟨.inl (hs b hb).1, (hs b hb).2⟩
    · exact ⟨.inr hb, by omega⟩

/-- `obj.k`, and the object after that part has been changed in place or replaced -/
theorem Rep.attr {r : Ref F} {tg : Tag} {ts : List (Str × Tree F)} {S : Nat → Prop} {k : Str} {t : Tree F} (hz : Zone N h)
    (hr : Rep B N h r (.node (.inst tg) ts) S) (hk : Dict.get? ts k = some t) :
    ∃ x T, getAttr r k h = (.ok x, h) ∧ Rep B N h x t T ∧ (∀ a, T a → S a ∧ a < h.length) ∧
      (∀ N' h' t', Ext N h T N' h' → Rep B N' h' x t' (Grown T h) → Rep B N' h' r (.node (.inst tg) (Dict.set ts k t')) (Grown S h)) ∧
      (∀ N' h' x' t', Ext N h T N' h' → Rep B N' h' x' t' (Grown T h) → ∃ h'', setAttr r k x' h' = (.ok (), h'') ∧ Ext N h S N' h'' ∧
        Rep B N' h'' r (.node (.inst tg) (Dict.set ts k t')) (Grown S h)) := by
  obtain ⟨a, rs, S', rfl, h1, h2, h3, h4, h5⟩ := hr.inst
  obtain ⟨x, T, g1, g2, g3, g4, g5⟩ := h4.swap hz hk
  have hl := (List.getElem?_eq_some_iff.mp h1).1
  have hT : ∀ b, T b → b ≠ a := fun b hb => (h5 b (g3 b hb).1).2
  refine ⟨x, T, run_getAttr h1 g1, g2, fun b hb => ⟨(h5 b (g3 b hb).1).1, (g3 b hb).2⟩, ?_, ?_⟩
  · intro N' h' t' e hx
    have hk' := g4 N' h' x t' e hx
    rw [g5] at hk'
    refine .node a (.inst tg) rs _ _ (Grown S' h) ?_ (.inl h2) (fun hc => h3 (e.old a hl hc)) hk' ?_
    · rw [e.keep a hl (.inr (fun hc => hT a hc rfl))]; exact h1
    · rintro b (hb | hb)
      · exact ⟨.inl (h5 b hb).1, (h5 b hb).2⟩
      · exact ⟨.inr hb, by omega⟩
  · intro N' h' x' t' e hx
    have hk' := g4 N' h' x' t' e hx
    have ho : h'[a]? = some (.inst tg rs) := by rw [e.keep a hl (.inr (fun hc => hT a hc rfl))]; exact h1
    refine ⟨_, run_setAttr ho, ?_⟩
    exact Rep.refill (k := .inst tg) hl h3 (e.mono (fun b hb _ => (h5 b (g3 b hb).1).1)) h2 hk' h5

/-- `d[k]`, and the dictionary after that part has been changed in place or replaced -/
theorem Rep.item {r : Ref F} {ts : List (Str × Tree F)} {S : Nat → Prop} {k : Str} {t : Tree F} (hz : Zone N h)
    (hr : Rep B N h r (.node .dict ts) S) (hk : Dict.get? ts k = some t) :
    ∃ x T, subscript r k h = (.ok x, h) ∧ Rep B N h x t T ∧ (∀ a, T a → S a ∧ a < h.length) ∧
      (∀ N' h' t', Ext N h T N' h' → Rep B N' h' x t' (Grown T h) → Rep B N' h' r (.node .dict (Dict.set ts k t')) (Grown S h)) ∧
      (∀ N' h' x' t', Ext N h T N' h' → Rep B N' h' x' t' (Grown T h) → ∃ h'', setItem r k x' h' = (.ok (), h'') ∧ Ext N h S N' h'' ∧
        Rep B N' h'' r (.node .dict (Dict.set ts k t')) (Grown S h)) := by
  obtain ⟨a, rs, S', rfl, h1, h4, h5, h6⟩ := hr.dict
  rcases h6 with ⟨h2, h3⟩ | ⟨_, h2, _⟩
  · obtain ⟨x, T, g1, g2, g3, g4, g5⟩ := h4.swap hz hk
    have hl := (List.getElem?_eq_some_iff.mp h1).1
    have hT : ∀ b, T b → b ≠ a := fun b hb => (h5 b (g3 b hb).1).2
    refine ⟨x, T, run_subscript h1 g1, g2, fun b hb => ⟨(h5 b (g3 b hb).1).1, (g3 b hb).2⟩, ?_, ?_⟩
    · intro N' h' t' e hx
      have hk' := g4 N' h' x t' e hx
      rw [g5] at hk'
      refine .node a .dict rs _ _ (Grown S' h) ?_ (.inl h2) (fun hc => h3 (e.old a hl hc)) hk' ?_
      · rw [e.keep a hl (.inr (fun hc => hT a hc rfl))]; exact h1
      · rintro b (hb | hb)
        · exact ⟨.inl (h5 b hb).1, (h5 b hb).2⟩
        · exact ⟨.inr hb, by omega⟩
    · intro N' h' x' t' e hx
      have hk' := g4 N' h' x' t' e hx
      have ho : h'[a]? = some (.dict rs) := by rw [e.keep a hl (.inr (fun hc => hT a hc rfl))]; exact h1
      refine ⟨_, run_setItem ho, ?_⟩
      exact Rep.refill (k := .dict) hl h3 (e.mono (fun b hb _ => (h5 b (g3 b hb).1).1)) h2 hk' h5
  · subst h2; cases hk

theorem Rep.item_none {r : Ref F} {ts : List (Str × Tree F)} {S : Nat → Prop} {k : Str} (hr : Rep B N h r (.node .dict ts) S)
    (hk : Dict.get? ts k = none) : subscript r k h = (.error .key, h) := by
  obtain ⟨a, rs, S', rfl, h1, h4, h5, h6⟩ := hr.dict
  unfold subscript
  simp only [run_bind (run_deref h1), h4.get_none hk]
  rfl

/-- the entries of a dictionary, and the dictionary after they have been changed in place -/
theorem Rep.items {r : Ref F} {ts : List (Str × Tree F)} {S : Nat → Prop} (hr : Rep B N h r (.node .dict ts) S) :
    ∃ rs T, itemsOf r h = (.ok rs, h) ∧ RepK B N h rs ts T ∧ (∀ a, T a → S a ∧ a < h.length) ∧
      (∀ N' h' ts', Ext N h T N' h' → RepK B N' h' rs ts' (Grown T h) → Rep B N' h' r (.node .dict ts') (Grown S h)) := by
  obtain ⟨a, rs, S', rfl, h1, h4, h5, h6⟩ := hr.dict
  have hl := (List.getElem?_eq_some_iff.mp h1).1
  refine ⟨rs, fun b => S' b ∧ b < h.length, run_itemsOf h1, h4.bound, fun b hb => ⟨(h5 b hb.1).1, hb.2⟩, ?_⟩
  · intro N' h' ts' e hx
    rcases h6 with ⟨h2, h3⟩ | ⟨h2, h3, h7⟩
    · refine .node a .dict rs _ _ (Grown S' h) ?_ (.inl h2) (fun hc => h3 (e.old a hl hc)) (hx.mono (grown_mono (fun b hb => hb.1))) ?_
      · rw [e.keep a hl (.inr (fun hc => (h5 a hc.1).2 rfl))]; exact h1
      · rintro b (hb | hb)
        · exact ⟨.inl (h5 b hb).1, (h5 b hb).2⟩
        · exact ⟨.inr hb, by omega⟩
    · subst h2
      cases hx
      exact .empty a _ (e.sub a h7) (by rw [e.keep a hl (.inl h7)]; exact h1)

/-- the elements of a list, and the list after they have been changed in place -/
theorem Rep.elems {r : Ref F} {ts : List (Str × Tree F)} {S : Nat → Prop} (hr : Rep B N h r (.node .list ts) S) :
    ∃ rs T, elems r h = (.ok (rs.map (·.2)), h) ∧ RepK B N h rs ts T ∧ (∀ a, T a → S a ∧ a < h.length) ∧
      (∀ N' h' ts', Ext N h T N' h' → RepK B N' h' rs ts' (Grown T h) → Rep B N' h' r (.node .list ts') (Grown S h)) := by
  obtain ⟨a, rs, S', rfl, h1, h2, h3, h4, h5⟩ := hr.list
  have hl := (List.getElem?_eq_some_iff.mp h1).1
  refine ⟨rs, fun b => S' b ∧ b < h.length, run_elems h1, h4.bound, fun b hb => ⟨(h5 b hb.1).1, hb.2⟩, ?_⟩
  intro N' h' ts' e hx
  refine .node a .list rs _ _ (Grown S' h) ?_ (.inl h2) (fun hc => h3 (e.old a hl hc)) (hx.mono (grown_mono (fun b hb => hb.1))) ?_
  · rw [e.keep a hl (.inr (fun hc => (h5 a hc.1).2 rfl))]; exact h1
  · rintro b (hb | hb)
    · exact ⟨.inl (h5 b hb).1, (h5 b hb).2⟩
    · exact ⟨.inr hb, by omega⟩

theorem repK_has {rs : Dict (Ref F)} {ts : List (Str × Tree F)} {S : Nat → Prop} (hr : RepK B N h rs ts S) (k : Str) :
    Dict.has rs k = Dict.has ts k := by
  have := hr.keys
  rw [Bool.eq_iff_iff, Dict.has_iff_mem_keys, Dict.has_iff_mem_keys]
  unfold Dict.keys
  rw [this]

/-- `del d[k]` -/
theorem Rep.del {r : Ref F} {ts : List (Str × Tree F)} {S : Nat → Prop} {k : Str} (hz : Zone N h) (hr : Rep B N h r (.node .dict ts) S)
    (hk : Dict.has ts k = true) : ∃ h', delItem r k h = (.ok (), h') ∧ Ext N h S N h' ∧ Rep B N h' r (.node .dict (Dict.del ts k)) (Grown S h) := by
  obtain ⟨a, rs, S', rfl, h1, h4, h5, h6⟩ := hr.dict
  rcases h6 with ⟨h2, h3⟩ | ⟨_, h3, _⟩
  · have hl := (List.getElem?_eq_some_iff.mp h1).1
    refine ⟨_, run_delItem h1 (by rw [repK_has h4]; exact hk), ?_⟩
    have h7 : RepK B N h (Dict.del rs k) (Dict.del ts k) S' := h4.filter (fun x => x ≠ k)
    exact Rep.refill (k := .dict) hl h3 (.refl hz _) h2 (h7.mono (fun b hb => .inl hb)) h5
  · subst h3
    exact absurd hk (by simp [Dict.has, Dict.get?])

/-! ### Copies -/

/-- a deep copy of a tree is the same tree in new places -/
theorem Rep.copy {E : Env F} {r : Ref F} {t : Tree F} {S : Nat → Prop} (hz : Zone N h) (hr : Rep B N h r t S) (hm : t.height + B ≤ E.lim) :
    ∃ r' N' h', deepcopy E r h = (.ok r', h') ∧ Ext N h Nil N' h' ∧ Rep B N' h' r' t (Btw h.length h'.length) := by
  obtain ⟨r', h', φ, e, iso, hi⟩ := deepcopy_iso (hr.depth.le hm)
  exact ⟨r', copied N φ, h', e, iso.ext hz Nil, (iso.rep hz hr hi).mono (fun a ha => place_new iso ha)⟩

/-- what nothing changes stays -/
theorem Rep.keep {N' : Nat → Prop} {h' : Heap F} {r : Ref F} {t : Tree F} {S : Nat → Prop} (hz : Zone N h) (hr : Rep B N h r t S) (e : Ext N h Nil N' h') :
    Rep B N' h' r t S := hr.frame hz e (fun _ h _ _ => h.elim)

theorem RepK.keep {N' : Nat → Prop} {h' : Heap F} {r : Dict (Ref F)} {t : List (Str × Tree F)} {S : Nat → Prop} (hz : Zone N h) (hr : RepK B N h r t S)
    (e : Ext N h Nil N' h') : RepK B N' h' r t S := hr.frame hz e (fun _ h _ _ => h.elim)

/-- a new object made of parts that lie outside each other -/
theorem RepK.alloc {k : Kind} {rs : Dict (Ref F)} {ts : List (Str × Tree F)} {S : Nat → Prop} (hz : Zone N h) (hr : RepK B N h rs ts S) :
    ∃ h', M.alloc (k.obj rs) h = (.ok (.ptr h.length), h') ∧ Ext N h Nil N h' ∧ Rep B N h' (.ptr h.length) (.node k ts) (fun a => S a ∧ a < h.length ∨ a = h.length) := by
  have e : Ext N h Nil N (h ++ [k.obj rs]) := .alloc hz _ _
  refine ⟨_, run_alloc, e, .node _ k rs ts _ (fun a => S a ∧ a < h.length) ?_ (.inr rfl) (fun hc => ?_) (hr.bound.keep hz e) ?_⟩
  · simp
  · have := hz.bound _ hc; omega
  · rintro b hb
    exact ⟨.inl hb, by have := hb.2; omega⟩

/-- plain attributes -/
theorem set_leaf (a : Attrs F) (k : Str) (j : JVal F) : Dict.set (dmap Tree.leaf a) k (.leaf j) = dmap Tree.leaf (Dict.set a k j) := by
  induction a with
  | nil => rfl
  | cons p a ih =>
    show Dict.set ((p.1, Tree.leaf p.2) :: dmap Tree.leaf a) k (.leaf j) = _
    obtain ⟨k', v⟩ := p
    simp only [Dict.set]
    split
    · rfl
    · rw [ih]; rfl

/-- any attribute may be assigned a plain value -/
theorem Rep.setLeaf {r x : Ref F} {tg : Tag} {a : Attrs F} {S : Nat → Prop} {k : Str} {j : JVal F} (hz : Zone N h)
    (hr : Rep B N h r (tAttrs tg a) S) (hi : In N x) (hj : readJ h B x = some j) :
    ∃ h', setAttr r k x h = (.ok (), h') ∧ Ext N h S N h' ∧ Rep B N h' r (tAttrs tg (Dict.set a k j)) S := by
  obtain ⟨b, rs, S', rfl, h1, h2, h3, h4, h5⟩ := hr.inst
  have hl := (List.getElem?_eq_some_iff.mp h1).1
  have e1 : Ext N h S N (h.set b (.inst tg (Dict.set rs k x))) := Ext.set hz _ h2 h3
  refine ⟨_, run_setAttr h1, e1, ?_⟩
  have h6 : RepK B N h (Dict.set rs k x) (Dict.set (dmap Tree.leaf a) k (.leaf j)) S' := by
    have := h4.set (k := k) (T := Nil) (.leaf x j Nil hi hj) (fun _ _ h => h)
    exact this.mono (fun b hb => hb.resolve_right id)
  rw [set_leaf] at h6
  have e2 : Ext N h (fun c => c = b) N (h.set b (.inst tg (Dict.set rs k x))) := Ext.set hz _ rfl h3
  refine .node b (.inst tg) _ _ _ S' ?_ h2 h3 (h6.frame hz e2 ?_) h5
  · rw [List.getElem?_set_self hl]; rfl
  · rintro c rfl hc _
    exact (h5 _ hc).2 rfl

/-- an attribute of an object of plain attributes -/
theorem Rep.getLeaf {r : Ref F} {tg : Tag} {a : Attrs F} {S : Nat → Prop} {k : Str} (hz : Zone N h) (hr : Rep B N h r (tAttrs tg a) S) {j : JVal F}
    (hk : Dict.get? a k = some j) : ∃ x, getAttr r k h = (.ok x, h) ∧ In N x ∧ readJ h B x = some j := by
  have hk' : Dict.get? (dmap Tree.leaf a) k = some (.leaf j) := by
    rw [get?_dmap, hk]
    rfl
  obtain ⟨x, T, g1, g2, _⟩ := Rep.attr hz hr hk'
  exact ⟨x, g1, g2.leafJ.1, g2.leafJ.2⟩

end Alias
end Spine
