import Verif.Lemmas.SimFocus
import Verif.Lemmas.Refs
/-
The methods of `Animation` on the heap do to the tree of an animation what the value model does to the animation.
-/
set_option linter.unusedSectionVars false
namespace Spine
namespace Alias
open M
variable {F : Type} [PyRt F] {B : Nat} {N : Nat → Prop} {h : Heap F}

/-! ### Loops that change their elements in place -/

/-- the computation does to the object what the function does to its value -/
def Does (B : Nat) {α : Type} (T : α → Tree F) (f : Ref F → M F Unit) (g : α → Res α Unit) (x : α) : Prop :=
  ∀ N h r S, Zone N h → Rep B N h r (T x) S → ∃ N' h', f r h = ((g x).1, h') ∧ Ext N h S N' h' ∧ Rep B N' h' r (T (g x).2) (Grown S h)

theorem mapMut_keys {α : Type} {key : α → Str} {g : α → Res α Unit} {l : List α} (hk : ∀ x ∈ l, key (g x).2 = key x) :
    (mapMut g l).2.map key = l.map key := by
  induction l with
  | nil => rfl
  | cons x l ih =>
    have h1 := hk x (by simp)
    have h2 := ih (fun y hy => hk y (by simp [hy]))
    unfold mapMut
    cases hg : g x with
    | mk o y =>
      rw [hg] at h1
      cases o with
      | error e => simp [h1]
      | ok u => simp [h1, h2]

theorem each_does {α : Type} {key : α → Str} {T : α → Tree F} {f : Ref F → M F Unit} {g : α → Res α Unit} {l : List α}
    (hf : ∀ x ∈ l, Does B T f g x) (hkey : ∀ x ∈ l, key (g x).2 = key x) {rs : Dict (Ref F)} {S : Nat → Prop} (hz : Zone N h)
    (hr : RepK B N h rs (l.map (fun x => (key x, T x))) S) :
    ∃ N' h', each f (rs.map (·.2)) h = ((mapMut g l).1, h') ∧ Ext N h S N' h' ∧
      RepK B N' h' rs ((mapMut g l).2.map (fun x => (key x, T x))) (Grown S h) := by
  rw [each_map]
  exact each_acts (C := Nil) (K := fun _ _ => True) (fun _ _ _ _ _ _ _ _ _ => trivial) (f := fun p => f p.2)
    (fun x hx N h r S hz _ _ hr => hf x hx N h r S hz hr) hkey hz trivial (fun _ _ h _ => h) hr

/-- a loop over the elements of a list -/
theorem list_does {α : Type} {T : α → Tree F} {f : Ref F → M F Unit} {g : α → Res α Unit} {l : List α} (hf : ∀ x ∈ l, Does B T f g x)
    {r : Ref F} {S : Nat → Prop} (hz : Zone N h) (hr : Rep B N h r (tlist T l) S) :
    ∃ N' h', (elems r >>= each f) h = ((mapMut g l).1, h') ∧ Ext N h S N' h' ∧ Rep B N' h' r (tlist T (mapMut g l).2) (Grown S h) := by
  obtain ⟨rs, U, h1, h2, h3, h4⟩ := hr.elems
  obtain ⟨N', h', g1, g2, g3⟩ := each_does (key := fun _ => []) hf (fun _ _ => rfl) hz h2
  exact ⟨N', h', by rw [run_bind h1, g1], g2.mono (fun a ha _ => (h3 a ha).1), h4 N' h' _ g2 g3⟩

/-- a loop over the values of a dictionary -/
theorem dict_does {α : Type} {T : α → Tree F} {f : Ref F → M F Unit} {g : Str → α → Res α Unit} {l : Dict α}
    (hf : ∀ p ∈ l, Does B T f (g p.1) p.2) {r : Ref F} {S : Nat → Prop} (hz : Zone N h) (hr : Rep B N h r (tdict T l) S) :
    ∃ N' h', (itemsOf r >>= fun d => each f (Dict.values d)) h = ((mapMutD g l).1, h') ∧ Ext N h S N' h' ∧
      Rep B N' h' r (tdict T (mapMutD g l).2) (Grown S h) := by
  obtain ⟨rs, U, h1, h2, h3, h4⟩ := hr.items
  obtain ⟨N', h', g1, g2, g3⟩ := each_does (α := Str × α) (key := fun p => p.1) (T := fun p => T p.2) (f := f)
    (g := fun p => let q := g p.1 p.2; (q.1, (p.1, q.2))) (fun p hp N h r S hz hr => hf p hp N h r S hz hr) (fun _ _ => rfl) hz h2
  exact ⟨N', h', by rw [run_bind h1]; exact g1, g2.mono (fun a ha _ => (h3 a ha).1), h4 N' h' _ g2 g3⟩

theorem mapMut_pure {α : Type} (g : α → α) (l : List α) : mapMut (fun x => (.ok (), g x)) l = (.ok (), l.map g) := by
  induction l with
  | nil => rfl
  | cons x l ih => simp [mapMut, ih]

theorem mapMutD_pure {α : Type} (g : α → α) (l : Dict α) : mapMutD (fun _ x => (.ok (), g x)) l = (.ok (), dmap g l) := by
  unfold mapMutD
  exact mapMut_pure (fun p : Str × α => (p.1, g p.2)) l

/-! ### Heights -/

theorem height_attrs (t : Tag) (a : Attrs F) : (tAttrs t a).height ≤ 1 := by
  unfold tAttrs Tree.height
  have : Tree.heightK (dmap Tree.leaf a) ≤ 0 := heightK_of (by
    intro p hp
    obtain ⟨q, _, rfl⟩ := List.mem_map.mp hp
    simp [Tree.height])
  omega

theorem height_tlist {α : Type} {f : α → Tree F} {n : Nat} (hf : ∀ x, (f x).height ≤ n) (l : List α) : (tlist f l).height ≤ n + 1 := by
  unfold tlist Tree.height
  have : Tree.heightK (l.map (fun x => (([] : Str), f x))) ≤ n := heightK_of (by
    intro p hp
    obtain ⟨q, _, rfl⟩ := List.mem_map.mp hp
    exact hf _)
  omega

theorem height_tdict {α : Type} {f : α → Tree F} {n : Nat} (hf : ∀ x, (f x).height ≤ n) (l : Dict α) : (tdict f l).height ≤ n + 1 := by
  unfold tdict Tree.height
  have : Tree.heightK (dmap f l) ≤ n := heightK_of (by
    intro p hp
    obtain ⟨q, _, rfl⟩ := List.mem_map.mp hp
    exact hf _)
  omega

theorem height_slotTl (t : SlotTl F) : (tSlotTl t).height ≤ 3 := by
  have h1 := height_tlist (f := tKf (F := F)) (fun _ => height_attrs _ _) t.attachment
  have h2 := height_tlist (f := tKf (F := F)) (fun _ => height_attrs _ _) t.color
  have h3 := height_tlist (f := tKf (F := F)) (fun _ => height_attrs _ _) t.twoColor
  simp only [tSlotTl, Tree.height, Tree.heightK]
  omega

theorem height_skin (s : Skin F) : (tSkin s).height ≤ 4 := by
  have h1 := height_tdict (f := tdict (tAtt (F := F))) (height_tdict (fun _ => height_attrs _ _)) s.attachments
  simp only [tSkin, Tree.height, Tree.heightK]
  omega

/-! ### Deleting from a copy while its original is traversed -/

theorem del_eq_filter (ts : List (Str × Tree F)) (k : Str) : Dict.del ts k = ts.filter (fun q => decide (q.1 ≠ k)) := by
  unfold Dict.del
  rfl

theorem del_loop {P : Str → Prop} [DecidablePred P] {c : Ref F} : ∀ (d : Dict (Ref F)) {N : Nat → Prop} {h : Heap F} {ts : List (Str × Tree F)} {S : Nat → Prop},
    (Dict.keys d).Nodup → (∀ p ∈ d, P p.1 → Dict.has ts p.1 = true) → Zone N h → Rep B N h c (.node .dict ts) S →
    ∃ h', each (fun p => if P p.1 then delItem c p.1 else pure ()) d h = (.ok (), h') ∧ Ext N h S N h' ∧
      Rep B N h' c (.node .dict (ts.filter (fun q => decide (¬ (P q.1 ∧ q.1 ∈ Dict.keys d))))) (Grown S h)
  | [], N, h, ts, S, _, _, hz, hr => by
    refine ⟨h, rfl, .refl hz _, ?_⟩
    have : ts.filter (fun q => decide (¬ (P q.1 ∧ q.1 ∈ Dict.keys ([] : Dict (Ref F))))) = ts := by
      rw [List.filter_eq_self]
      intro p _
      simp [Dict.keys]
    rw [this]
    exact hr.mono (fun a ha => .inl ha)
  | (k, r) :: d, N, h, ts, S, hn, hp, hz, hr => by
    have hn1 : k ∉ Dict.keys d := (List.nodup_cons.mp hn).1
    have hn2 : (Dict.keys d).Nodup := (List.nodup_cons.mp hn).2
    by_cases hP : P k
    · obtain ⟨h1, e1, x1, r1⟩ := hr.del hz (hp (k, r) (by simp) hP)
      have hp' : ∀ p ∈ d, P p.1 → Dict.has (Dict.del ts k) p.1 = true := by
        intro p hpd hPp
        have h2 := hp p (by simp [hpd]) hPp
        rw [Dict.has_iff_mem_keys] at h2 ⊢
        rw [Dict.keys_del]
        refine List.mem_filter.mpr ⟨h2, ?_⟩
        simp only [ne_eq, decide_eq_true_eq]
        rintro rfl
        exact hn1 (List.mem_map_of_mem hpd)
      obtain ⟨h2, e2, x2, r2⟩ := del_loop d hn2 hp' x1.zone r1
      refine ⟨h2, ?_, x1.grown x2, ?_⟩
      · rw [each_cons_ok (h1 := h1) (by simp only [if_pos hP]; exact e1)]
        exact e2
      · have : (Dict.del ts k).filter (fun q => decide (¬ (P q.1 ∧ q.1 ∈ Dict.keys d))) =
            ts.filter (fun q => decide (¬ (P q.1 ∧ q.1 ∈ Dict.keys ((k, r) :: d)))) := by
          rw [del_eq_filter, List.filter_filter]
          apply List.filter_congr
          intro q _
          have : Dict.keys ((k, r) :: d) = k :: Dict.keys d := rfl
          rw [this]
          by_cases hq : q.1 = k
          · simp [hq, hP]
          · simp [hq]
        rw [← this]
        exact r2.mono (grown_grown x1.len)
    · obtain ⟨h2, e2, x2, r2⟩ := del_loop d hn2 (fun p hpd => hp p (by simp [hpd])) hz hr
      refine ⟨h2, ?_, x2, ?_⟩
      · rw [each_cons_ok (h1 := h) (by simp only [if_neg hP]; rfl)]
        exact e2
      · have : ts.filter (fun q => decide (¬ (P q.1 ∧ q.1 ∈ Dict.keys d))) = ts.filter (fun q => decide (¬ (P q.1 ∧ q.1 ∈ Dict.keys ((k, r) :: d)))) := by
          apply List.filter_congr
          intro q _
          have : Dict.keys ((k, r) :: d) = k :: Dict.keys d := rfl
          rw [this]
          by_cases hq : q.1 = k
          · simp [hq, hP]
          · simp [hq]
        rw [← this]
        exact r2

/-- a copy of a dictionary without the keys for which `P` holds -/
theorem copy_del {E : Env F} {α : Type} {T : α → Tree F} {l : Dict α} {r : Ref F} {S : Nat → Prop} {P : Str → Prop} [DecidablePred P] (hz : Zone N h)
    (hl : (Dict.keys l).Nodup) (hm : (tdict T l).height + B ≤ E.lim) (hr : Rep B N h r (tdict T l) S) :
    ∃ c N' h', (do
        let c ← deepcopy E r
        let d ← itemsOf r
        each (fun p : Str × Ref F => if P p.1 then delItem c p.1 else pure ()) d
        return c) h = (.ok c, h') ∧ Ext N h Nil N' h' ∧
      Rep B N' h' c (tdict T (l.filter (fun q => decide (¬ P q.1)))) (fun a => h.length ≤ a) := by
  obtain ⟨c, N1, h1, e1, x1, r1⟩ := hr.copy hz hm
  have hr1 := hr.keep hz x1
  obtain ⟨rs, U, e2, k2, _⟩ := hr1.items
  have hkeys : Dict.keys rs = Dict.keys l := by
    have := k2.keys
    unfold Dict.keys
    rw [this]
    simp [dmap, Function.comp_def]
  have hts : Dict.keys (dmap T l) = Dict.keys l := by simp [Dict.keys, dmap, Function.comp_def]
  obtain ⟨h2, e3, x3, r3⟩ := del_loop (P := P) rs (by rw [hkeys]; exact hl) (ts := dmap T l) (fun p hp _ => by
    rw [Dict.has_iff_mem_keys, hts, ← hkeys]
    exact List.mem_map_of_mem hp) x1.zone r1
  refine ⟨c, N1, h2, ?_, x1.trans x3 (fun a ha hl => by have := ha.1; omega), ?_⟩
  · rw [run_bind e1, run_bind e2, run_bind e3]
    rfl
  · have : (dmap T l).filter (fun q => decide (¬ (P q.1 ∧ q.1 ∈ Dict.keys rs))) = dmap T (l.filter (fun q => decide (¬ P q.1))) := by
      rw [dmap_filter T l (fun k => decide (¬ P k))]
      apply List.filter_congr
      intro q hq
      have : q.1 ∈ Dict.keys rs := by rw [hkeys, ← hts]; exact List.mem_map_of_mem hq
      simp [this]
    rw [this] at r3
    refine r3.mono ?_
    rintro a (ha | ha)
    · exact ha.1
    · exact Nat.le_trans x1.len ha

/-! ### New dictionaries with old entries -/

/-- `{k: v for k, v in d.items() if k not in ids}` -/
theorem filter_new {α : Type} {T : α → Tree F} {l : Dict α} {r : Ref F} {S : Nat → Prop} (p : Str → Bool) (hz : Zone N h) (hr : Rep B N h r (tdict T l) S) :
    ∃ x h', (itemsOf r >>= fun e => alloc (.dict (e.filter (fun q => p q.1)))) h = (.ok x, h') ∧ Ext N h Nil N h' ∧
      Rep B N h' x (tdict T (l.filter (fun q => p q.1))) (Grown (fun a => S a ∧ a < h.length) h) := by
  obtain ⟨rs, U, e1, k1, k2, _⟩ := hr.items
  obtain ⟨h1, e2, x2, r2⟩ := (k1.filter p).alloc (k := .dict) hz
  refine ⟨_, h1, by rw [run_bind e1]; exact e2, x2, ?_⟩
  rw [← dmap_filter T l p] at r2
  refine r2.mono ?_
  rintro a (ha | ha)
  · exact .inl ⟨(k2 a ha.1).1, ha.2⟩
  · exact .inr (by omega)

/-- a new dictionary whose entries are new dictionaries of old entries -/
theorem mapV_filter {α : Type} {T : α → Tree F} (p : Str → Bool) : ∀ {l : Dict (Dict α)} {N : Nat → Prop} {h : Heap F} {rs : Dict (Ref F)} {S : Nat → Prop}, Zone N h →
    RepK B N h rs (dmap (tdict T) l) S →
    ∃ rs' h', mapV (fun r => itemsOf r >>= fun e => alloc (.dict (e.filter (fun q => p q.1)))) rs h = (.ok rs', h') ∧ Ext N h Nil N h' ∧
      RepK B N h' rs' (dmap (tdict T) (dmap (fun v => v.filter (fun q => p q.1)) l)) (Grown (fun a => S a ∧ a < h.length) h)
  | [], N, h, rs, S, hz, hr => by
    cases hr
    exact ⟨[], h, rfl, .refl hz _, .nil _⟩
  | (k, v) :: l, N, h, rs, S, hz, hr => by
    cases hr with
    | cons _ r _ rs _ S1 S2 _ h1 h2 h3 h4 h5 =>
      obtain ⟨x, g1, e1, x1, r1⟩ := filter_new p hz h1
      obtain ⟨xs, g2, e2, x2, r2⟩ := mapV_filter p x1.zone (h2.bound.keep hz x1)
      refine ⟨(k, x) :: xs, g2, ?_, x1.trans x2 (fun _ h _ => h), ?_⟩
      · unfold mapV at e2 ⊢
        rw [mapL_cons, run_bind (x := (k, x)) (h' := g1) ?_, run_bind e2]
        · rfl
        · rw [run_bind e1]; rfl
      · refine .cons k x _ xs _ (fun a => Grown (fun a => S1 a ∧ a < h.length) h a ∧ a < g1.length) _ _ (r1.bound.keep x1.zone x2) r2 ?_ ?_ ?_
        · rintro a ⟨ha, hl⟩ (hb | hb)
          · rcases ha with ha | ha
            · exact h3 a ha.1 hb.1.1
            · have := hb.1.2; omega
          · omega
        · rintro a ⟨ha, hl⟩
          exact ha.imp (fun h => ⟨h4 a h.1, h.2⟩) id
        · rintro a (hb | hb)
          · exact .inl ⟨h5 a hb.1.1, hb.1.2⟩
          · exact .inr (Nat.le_trans x1.len hb)

/-! ### Animations -/

/-- `remove_deforms_using_slots` -/
theorem removeDeformSlots_does (ids : List Str) (x : Anim F) :
    Does B tAnim (removeDeformSlots ids) (fun x => (.ok (), x.removeDeformSlots ids)) x := by
  intro N h r S hz hr
  obtain ⟨w, T, e1, r1, s1, _, k1⟩ := hr.attr hz (k := s!!"deform") rfl
  obtain ⟨rs, U, e2, k2, s2, _⟩ := r1.items
  obtain ⟨rs', h1, e3, x3, r3⟩ := mapV_filter (fun k => decide (k ∉ ids)) hz k2
  obtain ⟨h2, e4, x4, r4⟩ := r3.alloc (k := .dict) x3.zone
  have x5 : Ext N h Nil N h2 := x3.trans x4 (fun _ h _ => h)
  obtain ⟨h3, e6, x6, r6⟩ := k1 N h2 _ (tdict (tdict (tdict (tlist (tAttrs .deform)))) (dmap (fun v => v.filter (fun q => decide (q.1 ∉ ids))) x.deform))
    (x5.mono (fun _ h _ => h.elim)) (r4.mono (by
      rintro a (ha | ha)
      · rcases ha.1 with hb | hb
        · exact .inl (s2 a hb.1 |>.1)
        · exact .inr hb
      · exact .inr (by have := x3.len; omega)))
  refine ⟨N, h3, ?_, x6, r6⟩
  unfold removeDeformSlots
  rw [run_bind e1, run_bind e2, run_bind e3]
  exact (run_bind e4).trans e6

theorem setDict_mid {l : Dict (Tree F)} {k : Str} {t : Tree F} (hk : Dict.get? l k = some t) : Dict.set l k t = l := by
  induction l with
  | nil => cases hk
  | cons p l ih =>
    obtain ⟨k', v⟩ := p
    unfold Dict.get? at hk
    unfold Dict.set
    split
    · rename_i e
      rw [if_pos e] at hk
      cases hk
      subst e
      rfl
    · rename_i e
      rw [if_neg e] at hk
      rw [ih hk]

/-- `remove_deforms_with_attachments_on_skin` -/
theorem removeDeformAtts_does (ids : List Str) (skin : Str) (x : Anim F) :
    Does B tAnim (removeDeformAtts ids skin) (fun x => (.ok (), x.removeDeformAtts ids skin)) x := by
  intro N h r S hz hr
  obtain ⟨w, T, e1, r1, s1, k1, _⟩ := hr.attr hz (k := s!!"deform") rfl
  obtain ⟨rs, U, e2, k2, s2, _⟩ := r1.items
  unfold removeDeformAtts
  rw [run_bind e1, run_bind e2]
  cases hd : Dict.get? x.deform skin with
  | none =>
    have h1 : Dict.get? rs skin = none := k2.get_none (by rw [get?_dmap, hd]; rfl)
    refine ⟨N, h, ?_, .refl hz _, ?_⟩
    · rw [h1]; rfl
    · simp only [Anim.removeDeformAtts, hd]
      exact hr.mono (fun a ha => .inl ha)
  | some d =>
    have hg : Dict.get? (dmap (tdict (tdict (tlist (tAttrs (F := F) .deform)))) x.deform) skin = some (tdict (tdict (tlist (tAttrs .deform))) d) := by
      rw [get?_dmap, hd]; rfl
    obtain ⟨s, T3, e3, r3, s3, _⟩ := k2.get hz hg
    obtain ⟨s', T4, e4, r4, s4, _, k4⟩ := r1.item hz hg
    have hss : s' = s := by
      obtain ⟨a, rs0, _, rfl, o1, _⟩ := r1.dict
      have e5 := run_itemsOf o1
      rw [e2] at e5
      cases e5
      have e6 := run_subscript o1 e3
      rw [e4] at e6
      cases e6
      rfl
    subst hss
    obtain ⟨rs5, U5, e5, k5, s5, _⟩ := r4.items
    obtain ⟨rs6, h6, e6, x6, r6⟩ := mapV_filter (fun k => decide (k ∉ ids)) hz k5
    obtain ⟨h7, e7, x7, r7⟩ := r6.alloc (k := .dict) x6.zone
    have x8 : Ext N h Nil N h7 := x6.trans x7 (fun _ h _ => h)
    obtain ⟨h9, e9, x9, r9⟩ := k4 N h7 _ (tdict (tdict (tlist (tAttrs .deform))) (dmap (fun v => v.filter (fun q => decide (q.1 ∉ ids))) d))
      (x8.mono (fun _ h _ => h.elim)) (r7.mono (by
        rintro a (ha | ha)
        · rcases ha.1 with hb | hb
          · exact .inl (s5 a hb.1 |>.1)
          · exact .inr hb
        · exact .inr (by have := x6.len; omega)))
    have hset : Dict.set (dmap (tdict (tdict (tlist (tAttrs (F := F) .deform)))) x.deform) skin
        (tdict (tdict (tlist (tAttrs .deform))) (dmap (fun v => v.filter (fun q => decide (q.1 ∉ ids))) d)) =
        dmap (tdict (tdict (tlist (tAttrs .deform)))) (Dict.set x.deform skin (dmap (fun v => v.filter (fun q => decide (q.1 ∉ ids))) d)) := by
      generalize x.deform = l
      induction l with
      | nil => rfl
      | cons p l ih =>
        obtain ⟨k', v⟩ := p
        show Dict.set ((k', _) :: dmap _ l) skin _ = _
        simp only [Dict.set]
        split
        · rfl
        · rw [ih]; rfl
    rw [hset] at r9
    have r10 := k1 N h9 _ x9 r9
    refine ⟨N, h9, ?_, x9.mono (fun a ha _ => (s1 a ha).1), ?_⟩
    · rw [e3]
      cases s' with
      | null => exact absurd r3 (by intro hc; obtain ⟨a, _, _, hc, _⟩ := hc.dict; cases hc)
      | ptr a =>
        simp only [run_bind e5, run_bind e6]
        exact (run_bind e7).trans e9
      | _ => exact absurd r3 (by intro hc; obtain ⟨a, _, _, hc, _⟩ := hc.dict; cases hc)
    · simp only [Anim.removeDeformAtts, hd]
      exact r10

/-- loop body of `_clean_slots_in_animations` -/
theorem slotsInAnim_does {E : Env F} (hm : 8 + B ≤ E.lim) (ids : List Str) (x : Anim F) (hx : (Dict.keys x.slots).Nodup) :
    Does B tAnim (slotsInAnim E ids) (fun x => (.ok (), (x.removeSlots ids).removeDeformSlots ids)) x := by
  intro N h r S hz hr
  obtain ⟨w, T, e1, r1, s1, _, k1⟩ := hr.attr hz (k := s!!"slots") rfl
  have hh := height_tdict (f := tSlotTl (F := F)) height_slotTl x.slots
  obtain ⟨c, N2, h2, e2, x2, r2⟩ := copy_del (E := E) (P := fun k => k ∈ ids) hz hx (by omega) r1
  obtain ⟨h3, e3, x3, r3⟩ := k1 N2 h2 c (tdict tSlotTl (x.slots.filter (fun q => decide (q.1 ∉ ids)))) (x2.mono (fun _ h _ => h.elim)) (r2.mono (fun a ha => .inr ha))
  obtain ⟨N4, h4, e4, x4, r4⟩ := removeDeformSlots_does ids (x.removeSlots ids) N2 h3 r _ x3.zone r3
  refine ⟨N4, h4, ?_, x3.grown x4, r4.mono (grown_grown x3.len)⟩
  unfold slotsInAnim
  rw [run_bind e1]
  have e5 : (do
        let c ← deepcopy E w
        let d ← itemsOf w
        each (fun p : Str × Ref F => if p.1 ∈ ids then delItem c p.1 else pure ()) d
        setAttr r s!!"slots" c
        removeDeformSlots ids r) h = (setAttr r s!!"slots" c >>= fun _ => removeDeformSlots ids r) h2 := by
    have := run_bind (k := fun c => setAttr r s!!"slots" c >>= fun _ => removeDeformSlots ids r) e2
    rw [← this]
    simp only [bind_assocM]
    rfl
  rw [e5, run_bind e3]
  exact e4

/-! ### New objects one after the other -/

theorem mapL_fresh {α β : Type} {f : α → M F β} {key : α → Str} {ref : β → Ref F} {T : α → Tree F} {K : (Nat → Prop) → Heap F → Prop}
    (hK : ∀ N h N' h', Zone N h → Ext N h Nil N' h' → K N h → K N' h') : ∀ {l : List α},
    (∀ x ∈ l, ∀ N h, Zone N h → K N h → ∃ y N' h', f x h = (.ok y, h') ∧ Ext N h Nil N' h' ∧ Rep B N' h' (ref y) (T x) (fun a => h.length ≤ a)) →
    ∀ {N : Nat → Prop} {h : Heap F}, Zone N h → K N h → ∃ ys N' h', mapL f l h = (.ok ys, h') ∧ Ext N h Nil N' h' ∧ ys.length = l.length ∧
      RepK B N' h' ((l.zip ys).map (fun q => (key q.1, ref q.2))) (l.map (fun x => (key x, T x))) (fun a => h.length ≤ a)
  | [], _, N, h, hz, _ => ⟨[], N, h, rfl, .refl hz _, rfl, .nil _⟩
  | x :: l, hf, N, h, hz, hk => by
    obtain ⟨y, N1, h1, e1, x1, r1⟩ := hf x (by simp) N h hz hk
    obtain ⟨ys, N2, h2, e2, x2, l2, r2⟩ := mapL_fresh hK (l := l) (fun x hx => hf x (by simp [hx])) x1.zone (hK _ _ _ _ hz x1 hk)
    refine ⟨y :: ys, N2, h2, ?_, x1.trans x2 (fun _ h _ => h), by simp [l2], ?_⟩
    · rw [mapL_cons, run_bind e1, run_bind e2]; rfl
    · refine .cons _ _ _ _ _ _ _ _ (r1.bound.keep x1.zone x2) r2 ?_ ?_ ?_
      · rintro a ⟨_, ha⟩ hb; omega
      · rintro a ⟨ha, _⟩; exact ha
      · intro a ha; exact Nat.le_trans x1.len ha

/-- the keys of a list do not matter -/
theorem RepK.rekey {α β : Type} {k k' : α → Str} {k2 k2' : β → Str} {r : α → Ref F} {T : β → Tree F} : ∀ {l : List α} {m : List β} {S : Nat → Prop},
    l.map k' = m.map k2' → RepK B N h (l.map (fun x => (k x, r x))) (m.map (fun x => (k2 x, T x))) S →
    RepK B N h (l.map (fun x => (k' x, r x))) (m.map (fun x => (k2' x, T x))) S
  | [], [], _, _, hr => by cases hr; exact .nil _
  | [], _ :: _, _, e, _ => by cases e
  | _ :: _, [], _, e, _ => by cases e
  | x :: l, y :: m, S, e, hr => by
    simp only [List.map_cons, List.cons.injEq] at e
    generalize hx : (x :: l).map (fun x => (k x, r x)) = lx at hr
    cases hr with
    | cons _ r0 _ rs _ S1 S2 _ h1 h2 h3 h4 h5 =>
      simp only [List.map_cons, List.cons.injEq, Prod.mk.injEq] at hx
      obtain ⟨⟨_, rfl⟩, rfl⟩ := hx
      have := RepK.rekey e.2 h2
      simp only [List.map_cons, e.1]
      exact .cons _ _ _ _ _ S1 S2 _ h1 this h3 h4 h5

theorem zip_map_fst {α β : Type} : ∀ {l : List α} {m : List β}, m.length = l.length → (l.zip m).map (·.2) = m
  | [], [], _ => rfl
  | [], _ :: _, h => by simp at h
  | _ :: _, [], h => by simp at h
  | x :: l, y :: m, h => by simp [zip_map_fst (l := l) (m := m) (by simpa using h)]

/-! ### Draw order -/

theorem views_run {E : Env F} {α : Type} {f : Heap F → Ref F → Option α} : ∀ {l : List (Ref F)} {xs : List α}, All₂ (fun r x => f h r = some x) l xs →
    mapL (fun r => M.view (fun h => f h r) (Err.unmodelled)) l h = (.ok xs, h)
  | [], [], .nil => rfl
  | _ :: _, _ :: _, .cons h1 h2 => by
    rw [mapL_cons, run_bind (run_view h1), run_bind (views_run (E := E) h2)]
    rfl

theorem offsetOf_rep {l : List (Str × Int)} {rs : Dict (Ref F)} {S : Nat → Prop} {k : Str} (hr : RepK B N h rs (l.map (fun x => ([], tOffset x))) S)
    (hk : k ∈ Dict.keys l) : ∃ i S', Rep B N h (offsetOf (l.zip (rs.map (·.2))) k) (tOffset (k, i)) S' := by
  have hall := hr.all₂ (key := fun _ => [])
  have hz : ∀ p ∈ l.zip (rs.map (·.2)), ∃ S', Rep B N h p.2 (tOffset p.1) S' := by
    clear hk hr
    induction hall with
    | nil => simp
    | cons h1 _ ih =>
      simp only [List.map_cons, List.zip_cons_cons, List.mem_cons, forall_eq_or_imp]
      exact ⟨h1.2, ih⟩
  have hlen : (rs.map (·.2)).length = l.length := by rw [List.length_map]; exact hall.length
  unfold offsetOf
  cases hf : (l.zip (rs.map (·.2))).reverse.find? (fun p => p.1.1 == k) with
  | none =>
    exfalso
    rw [List.find?_eq_none] at hf
    obtain ⟨o, ho, rfl⟩ := List.mem_map.mp hk
    have : (l.zip (rs.map (·.2))).map (·.1) = l := List.map_fst_zip (by omega)
    rw [← this] at ho
    obtain ⟨p, hp, rfl⟩ := List.mem_map.mp ho
    exact hf p (by simpa using hp) (by simp)
  | some p =>
    have h1 := List.find?_some hf
    have h2 := List.mem_of_find?_eq_some hf
    simp only [beq_iff_eq] at h1
    obtain ⟨S', h3⟩ := hz p (by simpa using h2)
    obtain ⟨⟨k', i⟩, r⟩ := p
    simp only at h1 h3
    subst h1
    exact ⟨i, S', h3⟩

theorem cleanDraw_does {E : Env F} (hm : 8 + B ≤ E.lim) (ids : List Str) (orig : List (Slot F)) (t : DrawTl F) :
    Does B tDraw (cleanDraw E ids orig) (Anim.cleanDraw ids orig) t := by
  intro N h r S hz hr
  obtain ⟨w, T, e1, r1, s1, _, k1⟩ := hr.attr hz (k := s!!"offsets") rfl
  obtain ⟨rs, U, e2, k2, s2, _⟩ := r1.elems
  have e3 : mapL (fun r => M.view (fun h => viewOffset h E.lim r) (Err.unmodelled)) (rs.map (·.2)) h = (.ok t.offsets, h) := by
    refine views_run (E := E) (f := fun h r => viewOffset h E.lim r) ?_
    exact All₂.map_left.mpr ((k2.all₂ (key := fun _ => [])).imp (fun p x _ _ ⟨_, S', h1⟩ => view_offset (by omega) h1))
  unfold cleanDraw
  rw [run_bind e1, run_bind e2, run_bind e3]
  unfold Anim.cleanDraw
  cases ho : DrawOrder.removeOffsets Slot.name ids orig t.offsets with
  | error e => exact ⟨N, h, run_fail (run_lift ..), .refl hz _, hr.mono (fun a ha => .inl ha)⟩
  | ok new =>
    rw [run_bind (run_lift ..)]
    have hnew : ∀ p ∈ new, p.1 ∈ Dict.keys t.offsets := fun p hp => removeOffsets_keys ho (List.mem_map_of_mem hp)
    obtain ⟨ys, N3, h3, e4, x4, l4, r4⟩ := mapL_fresh (B := B) (ref := fun r => r) (key := fun _ => []) (T := tOffset (F := F))
      (K := fun N h => ∃ S, RepK B N h rs (t.offsets.map (fun x => ([], tOffset x))) S)
      (f := fun p : Str × Int => do
        let c ← deepcopy E (offsetOf (t.offsets.zip (rs.map (·.2))) p.1)
        setAttr c s!!"offset" (.int p.2)
        return c) (l := new)
      (fun N h N' h' hz e ⟨S, hr⟩ => ⟨S, hr.keep hz e⟩) (by
        intro p hp N h hz ⟨S, hk⟩
        obtain ⟨i, S', hof⟩ := offsetOf_rep hk (hnew p hp)
        have hh := height_attrs (F := F) .offset [(s!!"slot", .str p.1), (s!!"offset", .int i)]
        obtain ⟨c, N1, h1, e1, x1, r1⟩ := hof.copy hz (E := E) (by unfold tOffset; simp only; omega)
        obtain ⟨h2, e2, x2, r2⟩ := Rep.setLeaf (k := s!!"offset") (x := .int p.2) (j := .int p.2) x1.zone r1 (fun b hb => nomatch hb) (readJ_iff.mpr (.int _))
        refine ⟨c, N1, h2, ?_, x1.trans x2 (fun a ha hl => by have := ha.1; omega), r2.mono (fun a ha => ha.1)⟩
        rw [run_bind e1, run_bind e2]
        rfl) hz ⟨U, k2⟩
    rw [run_bind e4]
    have r5 : RepK B N3 h3 (ys.map (fun y => ([], y))) (new.map (fun x => ([], tOffset x))) (fun a => h.length ≤ a) := by
      have : (new.zip ys).map (fun q => (([] : Str), q.2)) = ys.map (fun y => ([], y)) := by
        conv => rhs; rw [← zip_map_fst l4]
        simp [Function.comp_def]
      rw [← this]
      exact r4
    obtain ⟨h6, e6, x6, r6⟩ := r5.alloc (k := .list) x4.zone
    have x7 : Ext N h Nil N3 h6 := x4.trans x6 (fun _ h _ => h)
    obtain ⟨h8, e8, x8, r8⟩ := k1 N3 h6 _ (tlist tOffset new) (x7.mono (fun _ h _ => h.elim)) (r6.mono (by
      rintro a (ha | ha)
      · exact .inr ha.1
      · exact .inr (by have := x4.len; omega)))
    refine ⟨N3, h8, ?_, x8, r8⟩
    have : (ys.map (fun y => (([] : Str), y))).map (·.2) = ys := by simp [Function.comp_def]
    simp only [Kind.obj, this] at e6
    exact (run_bind e6).trans e8

/-- `remove_draw_order_with_ids` -/
theorem drawInAnim_does {E : Env F} (hm : 8 + B ≤ E.lim) (ids : List Str) (orig : List (Slot F)) (x : Anim F) :
    Does B tAnim (drawInAnim E ids orig) (Anim.removeDrawOrder ids orig) x := by
  intro N h r S hz hr
  obtain ⟨w, T, e1, r1, s1, k1, _⟩ := hr.attr hz (k := s!!"drawOrder") rfl
  obtain ⟨N2, h2, e2, x2, r2⟩ := list_does (fun t _ => cleanDraw_does hm ids orig t) hz r1
  refine ⟨N2, h2, ?_, x2.mono (fun a ha _ => (s1 a ha).1), k1 N2 h2 _ x2 r2⟩
  unfold drawInAnim
  rw [run_bind e1]
  exact e2

/-- loop body of the last loop of `remove_skin` -/
theorem dropDeform_does (n : Str) (x : Anim F) : Does B tAnim (dropDeform n) (fun x => (.ok (), AnimData.dropDeform n x)) x := by
  intro N h r S hz hr
  obtain ⟨w, T, e1, r1, s1, k1, _⟩ := hr.attr hz (k := s!!"deform") rfl
  obtain ⟨rs, U, e2, k2, s2, _⟩ := r1.items
  unfold dropDeform
  rw [run_bind e1, run_bind e2]
  have hh := repK_has k2 n
  have hdel : Dict.del (dmap (tdict (tdict (tlist (tAttrs (F := F) .deform)))) x.deform) n =
      dmap (tdict (tdict (tlist (tAttrs .deform)))) (Dict.del x.deform n) := by
    rw [del_eq_filter]
    exact (dmap_filter _ x.deform (fun k => decide (k ≠ n))).symm
  by_cases hn : Dict.has rs n = true
  · rw [if_pos hn]
    obtain ⟨h3, e3, x3, r3⟩ := r1.del hz (hh ▸ hn)
    rw [hdel] at r3
    exact ⟨N, h3, e3, x3.mono (fun a ha _ => (s1 a ha).1), k1 N h3 _ x3 r3⟩
  · rw [if_neg hn]
    refine ⟨N, h, rfl, .refl hz _, ?_⟩
    have : AnimData.dropDeform n x = x := by
      have hnk : n ∉ Dict.keys x.deform := by
        intro hc
        apply hn
        rw [hh, Dict.has_iff_mem_keys]
        simpa [Dict.keys, dmap, Function.comp_def] using hc
      unfold AnimData.dropDeform
      have : Dict.del x.deform n = x.deform := by
        unfold Dict.del
        rw [List.filter_eq_self]
        intro p hp
        simp only [ne_eq, decide_eq_true_eq]
        rintro rfl
        exact hnk (List.mem_map_of_mem hp)
      rw [this]
    simp only [this]
    exact hr.mono (fun a ha => .inl ha)

end Alias
end Spine
