import Verif.Lemmas.CleanSync
/- The editor calls keep graph and skins in agreement. -/
set_option linter.unusedSectionVars false
set_option linter.unusedSimpArgs false
namespace Spine
open JVal Graph Container
variable {F : Type} [PyRt F]

/-! ### Documents without repeated keys -/

theorem JVal.Proper.keys {d : Dict (JVal F)} (h : (JVal.dict d).Proper) : (Dict.keys d).Nodup := by
  cases h with | dict h _ => exact h

theorem JVal.Proper.of_mem {d : Dict (JVal F)} (h : (JVal.dict d).Proper) {p : Str × JVal F} (hp : p ∈ d) : p.2.Proper := by
  cases h with | dict _ h => exact h p hp

theorem JVal.Proper.of_get? {d : Dict (JVal F)} (h : (JVal.dict d).Proper) {k : Str} {v : JVal F} (hp : Dict.get? d k = some v) : v.Proper :=
  h.of_mem (Dict.mem_of_get? hp)

theorem JVal.Proper.of_iter {v : JVal F} (h : v.Proper) {l : List (JVal F)} (hl : iter v = .ok l) : ∀ x ∈ l, x.Proper := by
  cases v with
  | list l' => injection hl with hl; subst hl; cases h with | list h => exact h
  | dict d =>
    injection hl with hl; subst hl
    intro x hx; obtain ⟨p, _, rfl⟩ := List.mem_map.1 hx; exact .str _
  | str s =>
    injection hl with hl; subst hl
    intro x hx; obtain ⟨p, _, rfl⟩ := List.mem_map.1 hx; exact .str _
  | _ => cases hl

theorem JVal.Proper.of_getItem {d : Dict (JVal F)} (h : (JVal.dict d).Proper) {k : Str} {v : JVal F} (hp : getItem d k = .ok v) : v.Proper := by
  unfold getItem at hp
  split at hp
  · cases hp
  · rename_i w hw; injection hp with hp; subst hp; exact h.of_get? hw

theorem JVal.Proper.del {d : Dict (JVal F)} (h : (JVal.dict d).Proper) (k : Str) : (JVal.dict (Dict.del d k)).Proper :=
  .dict (Dict.nodup_keys_del h.keys k) (fun _ hp => h.of_mem (List.mem_filter.1 hp).1)

theorem JVal.Proper.orDict {v : JVal F} (h : v.Proper) {d : Dict (JVal F)} (hd : orDict v = .ok d) : (JVal.dict d).Proper := by
  unfold Spine.orDict at hd
  split at hd
  · cases v with
    | dict d' => injection hd with hd; subst hd; exact h
    | _ => cases hd
  · injection hd with hd; subst hd; exact .dict (by simp [Dict.keys]) (by simp)

theorem JVal.Proper.dictItems {v : JVal F} (h : v.Proper) {d : Dict (JVal F)} (hd : dictItems v = .ok d) : (JVal.dict d).Proper := by
  unfold Spine.dictItems at hd
  split at hd
  · injection hd with hd; subst hd; exact h
  · injection hd with hd; subst hd; exact .dict (by simp [Dict.keys]) (by simp)
  · cases hd
  · injection hd with hd; subst hd; exact .dict (by simp [Dict.keys]) (by simp)
  · cases hd

theorem Skin.keys_init {v : JVal F} {x : Skin F} (hv : v.Proper) (h : Skin.init v = .ok x) : (Dict.keys x.attachments).Nodup := by
  obtain ⟨d, hd, h⟩ := bindOk h
  have pd := hv.orDict hd
  obtain ⟨_, _, h⟩ := bindOk h
  obtain ⟨_, _, h⟩ := bindOk h
  have pw : ((Dict.get? d s!!"attachments").getD .null).Proper := by
    cases hg : Dict.get? d s!!"attachments" with
    | none => exact .null
    | some w => exact pd.of_get? hg
  generalize (Dict.get? d s!!"attachments").getD .null = w at h pw
  split at h
  · injection h with h; subst h; simp [Dict.keys]
  · obtain ⟨a, h1, h⟩ := bindOk h
    injection h with h; subst h
    obtain ⟨l, h2, h3⟩ := bindOk h1
    unfold Skin.level at h2
    split at h2
    · injection h2 with h2; subst h2
      simp only
      rw [mapD_keys h3]
      exact pw.keys
    · cases h2

theorem keys_getDict {α : Type} {d : Dict (JVal F)} (hd : (JVal.dict d).Proper) {k : Str} {f : JVal F → Except Err α} {e : Dict α}
    (h : Anim.getDict d k f = .ok e) : (Dict.keys e).Nodup := by
  unfold Anim.getDict at h
  split at h
  · injection h with h; subst h; simp [Dict.keys]
  · rename_i v hv
    obtain ⟨e', h1, h2⟩ := bindOk h
    rw [mapD_keys h2]
    exact ((hd.of_get? hv).dictItems h1).keys

theorem Anim.keys_init {v : JVal F} {x : Anim F} (hv : v.Proper) (h : Anim.init v = .ok x) :
    (Dict.keys x.slots).Nodup ∧ (Dict.keys x.deform).Nodup := by
  obtain ⟨d, hd, h⟩ := bindOk h
  have pd := hv.orDict hd
  obtain ⟨ik, _, h⟩ := bindOk h
  obtain ⟨_, _, h⟩ := bindOk h
  obtain ⟨dr, _, h⟩ := bindOk h
  obtain ⟨bo, _, h⟩ := bindOk h
  obtain ⟨sl, h1, h⟩ := bindOk h
  obtain ⟨_, _, h⟩ := bindOk h
  obtain ⟨ev, _, h⟩ := bindOk h
  obtain ⟨tr, _, h⟩ := bindOk h
  obtain ⟨pa, _, h⟩ := bindOk h
  obtain ⟨de, h2, h⟩ := bindOk h
  obtain ⟨_, _, h⟩ := bindOk h
  injection h with h; subst h
  refine ⟨keys_getDict pd h1, ?_⟩
  obtain ⟨m, h3, h4⟩ := bindOk h2
  simp only
  rw [mapD_keys h4]
  have hp : ((Dict.get? d s!!"deform").getD (.dict [])).Proper := by
    cases hg : Dict.get? d s!!"deform" with
    | none => exact .dict (by simp [Dict.keys]) (by simp)
    | some w => exact pd.of_get? hg
  unfold itemsOf at h3
  split at h3
  · rename_i w hw
    injection h3 with h3; subst h3
    rw [hw] at hp
    exact hp.keys
  · cases h3

theorem AnimData.keys_init {d : Dict (JVal F)} {x : AnimData F} (hv : (JVal.dict d).Proper) (h : AnimData.init d = .ok x) :
    x.Distinct ∧ x.DistinctAnims := by
  have pd := hv.del s!!"skeleton"
  obtain ⟨_, _, h⟩ := bindOk h
  obtain ⟨_, _, h⟩ := bindOk h
  obtain ⟨bo, h1, h⟩ := bindOk h
  obtain ⟨_, _, h⟩ := bindOk h
  obtain ⟨_, _, h⟩ := bindOk h
  obtain ⟨sl, h2, h⟩ := bindOk h
  obtain ⟨k1, g1, h⟩ := bindOk h
  obtain ⟨k2, g2, h⟩ := bindOk h
  obtain ⟨sk, h3, h⟩ := bindOk h
  obtain ⟨ev, h4, h⟩ := bindOk h
  obtain ⟨_, _, h⟩ := bindOk h
  obtain ⟨ik, h5, h⟩ := bindOk h
  obtain ⟨_, _, h⟩ := bindOk h
  obtain ⟨tr, h6, h⟩ := bindOk h
  obtain ⟨_, _, h⟩ := bindOk h
  obtain ⟨pa, h7, h⟩ := bindOk h
  obtain ⟨an, h8, h⟩ := bindOk h
  obtain ⟨_, _, h⟩ := bindOk h
  injection h with h
  subst h
  have ha : ∀ p ∈ an, (Dict.keys p.2.slots).Nodup ∧ (Dict.keys p.2.deform).Nodup := by
    intro p hp
    unfold Anim.getDict at h8
    split at h8
    · injection h8 with h8; subst h8; cases hp
    · rename_i v hg
      obtain ⟨e', h9, h8⟩ := bindOk h8
      obtain ⟨v, hm, hv⟩ := mapD_back h8 p hp
      exact Anim.keys_init (((pd.of_get? hg).dictItems h9).of_mem hm) hv
  refine ⟨?_, fun p hp => (ha p hp).1, fun p hp => (ha p hp).2, keys_getDict pd h8⟩
  intro s hs
  obtain ⟨v, hv, hi⟩ := mapE_back h3 s hs
  exact Skin.keys_init ((pd.of_getItem g1).of_iter g2 v hv) hi

theorem AnimData.distinct_setDefaults {x : AnimData F} (b : Bool) (h : x.Distinct) (h' : x.DistinctAnims) :
    (x.setDefaults b).Distinct ∧ (x.setDefaults b).DistinctAnims := by
  refine ⟨?_, ?_, ?_, ?_⟩
  · intro s hs
    obtain ⟨s0, hs0, rfl⟩ := List.mem_map.1 hs
    rw [Skin.setDefaults_eq]
    simp only [keys_dmap]
    exact h s0 hs0
  · rintro ⟨k, v⟩ hp
    obtain ⟨x, hx, rfl⟩ := (mem_dmap _ _ _ _).1 hp
    show (Dict.keys (dmap _ _)).Nodup
    rw [keys_dmap]; exact h'.slots _ hx
  · rintro ⟨k, v⟩ hp
    obtain ⟨x, hx, rfl⟩ := (mem_dmap _ _ _ _).1 hp
    show (Dict.keys (dmap _ _)).Nodup
    rw [keys_dmap]; exact h'.deform _ hx
  · show (Dict.keys (dmap _ _)).Nodup
    rw [keys_dmap]; exact h'.names

namespace Editor
variable {e e' : Editor F}

/-! ### Loading -/

theorem sync_load {doc : JVal F} (hp : doc.Proper) (h : load doc = .ok e) (hn : e.data.NamesOk) : Sync e := by
  obtain ⟨h1, h2, h3, h4⟩ := load_data h
  obtain ⟨l1, l2, l3⟩ := load_ok h
  obtain ⟨d, v, a, rfl, _, _, _, hi, hd⟩ := SpineDoc.load_ok l1
  obtain ⟨d1, d2⟩ := AnimData.keys_init hp hi
  obtain ⟨d1, d2⟩ := AnimData.distinct_setDefaults e.doc.version.is38 d1 d2
  rw [← hd] at d1 d2
  have spec := imagesReferences_spec l2
  refine sync_fresh h1 h3 h4 d1 ?_ d2 ?_ spec.2.1 hn l3
  · rintro slot k x ⟨s, hs, m, hm, hx⟩
    exact Att.Good.sane (h2 s hs _ hm _ hx)
  · rintro slot k x ⟨s, hs, m, hm, hx⟩
    obtain ⟨y, s', x', xs, ⟨l, r, e1, e2, _⟩, _, hr, _⟩ := spec.2.2.2.1 s hs _ hm
    refine ⟨s', by show s' ∈ e.doc.data.slots; rw [e1]; simp, e2, ?_⟩
    intro hb
    rw [hb] at hr
    cases hr

/-! ### scale_animation -/

theorem pyMul_ne_null {v w : JVal F} {n : Num F} (h : pyMul v n = .ok w) : w ≠ .null := by
  unfold pyMul at h
  split at h <;> first | (injection h with h; subst h; simp; done) | skip
  all_goals first
    | (split at h <;> first | (injection h with h; subst h; simp; done) | (cases h; done))
    | (cases h; done)

theorem Attrs.fixed_iff {c : Cls F} {b : Bool} {a : Attrs F} : c.setDefaults b a = a ↔ ∀ p ∈ a, p.2 = .null → Cls.dflt c b p.1 .null = .null := by
  rw [Cls.setDefaults_eq, map_fixed_iff]
  constructor
  · intro h p hp hn
    have := congrArg (·.2) (h p hp)
    simp only [hn] at this
    exact this
  · intro h p hp
    by_cases hn : p.2 = .null
    · have := h p hp hn
      obtain ⟨k, v⟩ := p
      simp only at hn; subst hn
      simp only [Prod.mk.injEq, true_and]; exact this
    · obtain ⟨k, v⟩ := p
      simp only [Prod.mk.injEq, true_and]
      cases v <;> simp_all [Cls.dflt]

theorem Attrs.fixed_set {c : Cls F} {b : Bool} {a : Attrs F} (h : c.setDefaults b a = a) (k : Str) (v : JVal F)
    (hv : v = .null → Cls.dflt c b k .null = .null) : c.setDefaults b (Dict.set a k v) = Dict.set a k v := by
  rw [Attrs.fixed_iff] at h ⊢
  intro p hp hn
  rcases mem_set hp with hp | rfl
  · exact h p hp hn
  · exact hv hn

theorem Bone.fixed_scale {b : Bool} {x : Bone F} (sx sy : Num F) (h : x.setDefaults b = x) : (x.scale sx sy).2.setDefaults b = (x.scale sx sy).2 := by
  have key : ∀ (y : Bone F), y.setDefaults b = y ↔ boneCls.setDefaults b y.rest = y.rest := by
    intro y; cases y; simp [Bone.setDefaults]
  rw [key] at h ⊢
  unfold Bone.scale
  split
  · exact h
  · exact h
  · split
    · exact h
    · rename_i x' hx
      have h1 := Attrs.fixed_set h s!!"scaleX" x' (fun e => absurd e (pyMul_ne_null hx))
      split
      · exact h1
      · rename_i y' hy
        exact Attrs.fixed_set h1 s!!"scaleY" y' (fun e => absurd e (pyMul_ne_null hy))

theorem scale_frame (sx sy : Num F) (e : Editor F) : (scale sx sy e).2 = e.withData { e.data with bones := (scale sx sy e).2.data.bones } := by
  unfold scale
  split <;> rfl

theorem onFirst_all {P : Bone F → Prop} (n : Str) (f : Bone F → Res (Bone F) Unit) (hf : ∀ b, P b → P (f b).2) (l : List (Bone F))
    (hl : ∀ b ∈ l, P b) : ∀ b ∈ (onFirst n f l).2, P b := by
  induction l with
  | nil => simp [onFirst]
  | cons x l ih =>
    rw [onFirst]
    split
    · intro b hb
      rcases List.mem_cons.1 hb with rfl | hb
      · exact hf _ (hl _ (by simp))
      · exact hl _ (by simp [hb])
    · intro b hb
      rcases List.mem_cons.1 hb with rfl | hb
      · exact hl _ (by simp)
      · exact ih (fun b hb => hl b (by simp [hb])) b hb

/-- whatever the outcome -/
theorem sync_scale (sx sy : Num F) (hs : Sync e) : Sync (scale sx sy e).2 := by
  have hfix : (scale sx sy e).2.data.bones.map (·.setDefaults e.doc.version.is38) = (scale sx sy e).2.data.bones := by
    rw [map_fixed_iff]
    have h0 := map_fixed_iff.1 (AnimData.fixed_iff.1 hs.dflt).1
    have h1 := mapMut_good (fun b => if noInherit b then b.scale sx sy else (.ok (), b)) (G := fun b : Bone F => b.setDefaults e.doc.version.is38 = b)
      (by intro b hb; split
          · exact Bone.fixed_scale sx sy hb
          · exact hb) e.data.bones h0
    unfold scale
    split
    · rename_i x bs hbs; rw [hbs] at h1; exact h1
    · rename_i x bs hbs; rw [hbs] at h1
      exact onFirst_all (P := fun b : Bone F => b.setDefaults e.doc.version.is38 = b) _ _ (fun b hb => Bone.fixed_scale sx sy hb) bs h1
  obtain ⟨hc, _, _⟩ := scale_any sx sy hs.ecore
  rw [scale_frame] at hc ⊢
  generalize (scale sx sy e).2.data.bones = bs at hc hfix ⊢
  refine ⟨hc, ?_, hs.slots, hs.edge_of, hs.edge_slot, hs.att_parent, hs.att_child, hs.img_parent, hs.img_of, hs.slot_bone, hs.cover,
    ⟨hs.names.slots, hs.names.images, hs.names.keys⟩, hs.imgs, hs.distinct, hs.sane, ⟨hs.anims.slots, hs.anims.deform, hs.anims.names⟩⟩
  have h0 := AnimData.fixed_iff.1 hs.dflt
  exact AnimData.fixed_iff.2 ⟨hfix, h0.2⟩

/-! ### erase_animations -/

theorem sync_filterAnims (hs : Sync e) (p : Str × Anim F → Bool) : Sync (e.withData { e.data with animations := e.data.animations.filter p }) := by
  refine ⟨⟨hs.ecore.core, hs.ecore.bones, hs.ecore.iks⟩, ?_, hs.slots, hs.edge_of, hs.edge_slot, hs.att_parent, hs.att_child, hs.img_parent, hs.img_of, hs.slot_bone, hs.cover,
    ⟨hs.names.slots, hs.names.images, hs.names.keys⟩, hs.imgs, hs.distinct, hs.sane, ⟨?_, ?_, ?_⟩⟩
  · have h0 := AnimData.fixed_iff.1 hs.dflt
    obtain ⟨h1, h2, h3, h4, h5, h6, h7⟩ := h0
    exact AnimData.fixed_iff.2 ⟨h1, h2, h3, h4, h5, h6, dmap_fixed_filter h7 p⟩
  · intro q hq; exact hs.anims.slots q (List.mem_filter.1 hq).1
  · intro q hq; exact hs.anims.deform q (List.mem_filter.1 hq).1
  · exact hs.anims.names.sublist (List.filter_sublist.map _)

theorem sync_cleanUnless {safe : Bool} {r : List Str × List Str} (hs : Sync e) (h : cleanUnless safe e = (.ok r, e')) : Sync e' := by
  unfold cleanUnless at h
  split at h
  · simp only [Prod.mk.injEq] at h; rw [← h.2]; exact hs
  · exact sync_clean hs h

theorem sync_eraseAnims {arg : NamesArg} {strict safe : Bool} {r : JVal F × List Str × List Str} (hs : Sync e)
    (h : eraseAnims arg strict safe e = (.ok r, e')) : Sync e' := by
  unfold eraseAnims at h
  split at h
  · simp at h
  · simp only at h
    split at h
    · simp at h
    · rw [eraseRaw_fst] at h
      split at h
      · simp at h
      · rename_i r' e1 h1
        simp only [Prod.mk.injEq] at h
        rw [← h.2]
        exact sync_cleanUnless (sync_filterAnims hs _) h1

/-- a failing call in safe mode -/
theorem sync_eraseAnims_safe {arg : NamesArg} {strict : Bool} (hs : Sync e) : Sync (eraseAnims arg strict true e).2 := by
  unfold eraseAnims
  split
  · exact hs
  · simp only
    rw [eraseRaw_fst]
    have := sync_filterAnims hs (fun p => decide (p.1 ∉ ‹List Str›))
    split
    · exact this
    · split
      · rename_i x e1 h1
        simp [cleanUnless] at h1
      · rename_i x e1 h1
        simp only [cleanUnless, if_true, Prod.mk.injEq] at h1
        rw [← h1.2]; exact this

end Editor
end Spine
