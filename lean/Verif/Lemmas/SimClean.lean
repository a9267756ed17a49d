import Verif.Lemmas.SimEdit
/-
`clean_animation` on the heap: what it does to the data object is what the value model does to the data.
-/
set_option linter.unusedSectionVars false
namespace Spine
namespace Alias
open M
variable {F : Type} [PyRt F] {B : Nat} {N : Nat → Prop} {h : Heap F}

/-! ### More about parts -/

/-- an attribute is set to an object that lies elsewhere -/
theorem Rep.put {r x : Ref F} {tg : Tag} {ts : List (Str × Tree F)} {t : Tree F} {S T : Nat → Prop} {k : Str} (hz : Zone N h)
    (hr : Rep B N h r (.node (.inst tg) ts) S) (hx : Rep B N h x t T) (hd : ∀ a, S a → T a → a < h.length → False) :
    ∃ h', setAttr r k x h = (.ok (), h') ∧ Ext N h S N h' ∧ Rep B N h' r (.node (.inst tg) (Dict.set ts k t)) (fun a => S a ∨ T a) := by
  obtain ⟨a, rs, S', rfl, h1, h2, h3, h4, h5⟩ := hr.inst
  have hl := (List.getElem?_eq_some_iff.mp h1).1
  have e1 : Ext N h S N (h.set a (.inst tg (Dict.set rs k x))) := Ext.set hz _ h2 h3
  have e2 : Ext N h (fun b => b = a) N (h.set a (.inst tg (Dict.set rs k x))) := Ext.set hz _ rfl h3
  have h6 := h4.bound.set (k := k) hx.bound (fun b hb hc => hd b (h5 b hb.1).1 hc.1 hb.2)
  refine ⟨_, run_setAttr h1, e1, .node a (.inst tg) (Dict.set rs k x) _ _ _ ?_ (.inl h2) h3 (h6.frame hz e2 ?_) ?_⟩
  · rw [List.getElem?_set_self hl]; rfl
  · rintro b rfl (hb | hb) _
    · exact (h5 b hb.1).2 rfl
    · exact hd b h2 hb.1 hl
  · rintro b (hb | hb)
    · exact ⟨.inl (h5 b hb.1).1, (h5 b hb.1).2⟩
    · refine ⟨.inr hb.1, ?_⟩
      rintro rfl
      exact hd b h2 hb.1 hl

/-- the elements of a list, and what becomes of the list when they change -/
theorem Rep.elemsX {r : Ref F} {ts : List (Str × Tree F)} {S : Nat → Prop} (hr : Rep B N h r (.node .list ts) S) :
    ∃ b rs T, r = .ptr b ∧ S b ∧ b < h.length ∧ Alias.elems r h = (.ok (rs.map (·.2)), h) ∧ RepK B N h rs ts T ∧ (∀ a, T a → S a ∧ a < h.length ∧ a ≠ b) ∧
      (∀ N' h' ts' W P, Ext N h W N' h' → ¬ W b → RepK B N' h' rs ts' P → ¬ P b → Rep B N' h' r (.node .list ts') (fun a => P a ∨ a = b)) := by
  obtain ⟨a, rs, S', rfl, h1, h2, h3, h4, h5⟩ := hr.list
  have hl := (List.getElem?_eq_some_iff.mp h1).1
  refine ⟨a, rs, fun b => S' b ∧ b < h.length, rfl, h2, hl, run_elems h1, h4.bound, fun b hb => ⟨(h5 b hb.1).1, hb.2, (h5 b hb.1).2⟩, ?_⟩
  intro N' h' ts' W P e hW hx hP
  refine .node a .list rs ts' _ P ?_ (.inr rfl) (fun hc => h3 (e.old a hl hc)) hx (fun b hb => ⟨.inl hb, ?_⟩)
  · rw [e.keep a hl (.inr hW)]; exact h1
  · rintro rfl; exact hP hb

theorem set_dmap {α : Type} (T : α → Tree F) (l : Dict α) (k : Str) (v : α) : Dict.set (dmap T l) k (T v) = dmap T (Dict.set l k v) := by
  induction l with
  | nil => rfl
  | cons p l ih =>
    obtain ⟨k', w⟩ := p
    show Dict.set ((k', T w) :: dmap T l) k (T v) = _
    simp only [Dict.set]
    split
    · rfl
    · rw [ih]; rfl

/-! ### Slots in skins -/

/-- the attachments of slots that stay -/
def keepSlots (ids : List Str) (s : Skin F) : Skin F := { s with attachments := s.attachments.filter (fun p => p.1 ∉ ids) }

theorem slotsLoop (ids : List Str) : ∀ {ss : List (Skin F)} {N : Nat → Prop} {h : Heap F} {rs rs' : Dict (Ref F)} {U V : Nat → Prop}, Zone N h →
    RepK B N h rs (ss.map (fun s => ([], tSkin s))) U → RepK B N h rs' (ss.map (fun s => ([], tSkin s))) V →
    (∀ a, U a → V a → a < h.length → False) →
    ∃ N' h', each (fun p : Ref F × Ref F => do
        let w ← getAttr p.1 s!!"attachments"
        let d ← itemsOf w
        let x ← alloc (.dict (d.filter (fun q => q.1 ∉ ids)))
        setAttr p.2 s!!"attachments" x) ((rs.map (·.2)).zip (rs'.map (·.2))) h = (.ok (), h') ∧ Ext N h V N' h' ∧
      RepK B N' h' rs' (ss.map (fun s => ([], tSkin (keepSlots ids s)))) (Grown (fun a => (U a ∨ V a) ∧ a < h.length) h)
  | [], N, h, rs, rs', U, V, hz, hr, hr', _ => by
    cases hr; cases hr'
    exact ⟨N, h, rfl, .refl hz _, .nil _⟩
  | s :: ss, N, h, rs, rs', U, V, hz, hr, hr', hd => by
    cases hr.bound with
    | cons _ r _ rs _ U1 U2 _ u1 u2 u3 u4 u5 =>
    cases hr'.bound with
    | cons _ r' _ rs' _ V1 V2 _ v1 v2 v3 v4 v5 =>
      obtain ⟨w, T, e1, r1, s1, _⟩ := u1.attr hz (k := s!!"attachments") (t := tdict (tdict tAtt) s.attachments) rfl
      obtain ⟨x, h2, e2, x2, r2⟩ := filter_new (fun k => decide (k ∉ ids)) hz r1
      obtain ⟨h3, e3, x3, r3⟩ := (v1.bound.keep hz x2).put (k := s!!"attachments") x2.zone r2 (by
        rintro a ha (hb | hb) _
        · exact hd a (u4 a (s1 a hb.1).1).1 (v4 a ha.1).1 hb.2
        · have := ha.2; omega)
      have x4 : Ext N h V1 N h3 := (x2.mono (S' := V1) (fun _ h _ => h.elim)).trans x3 (fun a ha _ => ha.1)
      have u2' := u2.bound.frame hz x4 (fun a ha hb hl => hd a (u5 a hb.1).1 (v4 a ha).1 hl)
      have v2' := v2.bound.frame hz x4 (fun a ha hb hl => v3 a ha hb.1)
      obtain ⟨N5, h5, e5, x5, r5⟩ := slotsLoop ids x4.zone u2' v2' (fun a ha hb hl => hd a (u5 a ha.1).1 (v5 a hb.1).1 ha.2)
      refine ⟨N5, h5, ?_, ?_, ?_⟩
      · simp only [List.map_cons, List.zip_cons_cons]
        rw [each_cons_ok (h1 := h3)]
        · exact e5
        · rw [run_bind e1]
          have := run_bind (k := fun x => setAttr r' s!!"attachments" x) e2
          rw [bind_assocM] at this
          exact this.trans e3
      · exact (x4.mono (fun a ha _ => (v4 a ha).1)).trans x5 (fun a ha _ => (v5 a ha.1).1)
      · refine .cons _ _ _ _ _ _ _ _ ((r3.bound).frame x4.zone x5 ?_) r5 ?_ ?_ ?_
        · rintro a hb ⟨ha | ha | ha, hl⟩ _
          · exact v3 a ha.1 hb.1
          · exact hd a (u4 a (s1 a ha.1).1).1 (v5 a hb.1).1 ha.2
          · have := hb.2; omega
        · rintro a ⟨ha, hl⟩ (hb | hb)
          · rcases ha with ha | ha | ha
            · rcases hb.1 with hc | hc
              · exact hd a (u5 a hc.1).1 (v4 a ha.1).1 hc.2
              · exact v3 a ha.1 hc.1
            · rcases hb.1 with hc | hc
              · exact u3 a (s1 a ha.1).1 hc.1
              · exact hd a (u4 a (s1 a ha.1).1).1 (v5 a hc.1).1 hc.2
            · rcases hb.1 with hc | hc
              · have := hc.2; omega
              · have := hc.2; omega
          · omega
        · rintro a ⟨ha | ha | ha, hl⟩
          · exact .inl ⟨.inr (v4 a ha.1).1, ha.2⟩
          · exact .inl ⟨.inl (u4 a (s1 a ha.1).1).1, ha.2⟩
          · exact .inr ha
        · rintro a (⟨ha | ha, _⟩ | ha)
          · exact .inl ⟨.inl (u5 a ha.1).1, ha.2⟩
          · exact .inl ⟨.inr (v5 a ha.1).1, ha.2⟩
          · exact .inr (Nat.le_trans x4.len ha)

theorem height_skins (l : List (Skin F)) : (tlist tSkin l).height ≤ 5 := height_tlist height_skin l

/-- `_clean_slots_in_skins` -/
theorem slotsInSkins_does {E : Env F} (hm : 8 + B ≤ E.lim) (ids : List Str) (a : AnimData F) :
    Does B tData (fun r => slotsInSkins E r ids) (fun a => (.ok (), Editor.slotsInSkins ids a)) a := by
  intro N h r S hz hr
  obtain ⟨l, T, e1, r1, s1, _, k1⟩ := hr.attr hz (k := s!!"skins") (t := tlist tSkin a.skins) rfl
  obtain ⟨c, N2, h2, e2, x2, r2⟩ := r1.copy hz (E := E) (by have := height_skins a.skins; omega)
  obtain ⟨rs, U, e3, k3, s3, _⟩ := (r1.keep hz x2).elems
  obtain ⟨b, rs', V, rfl, b1, b2, e4, k4, s4, f4⟩ := r2.elemsX
  obtain ⟨N5, h5, e5, x5, r5⟩ := slotsLoop ids x2.zone k3 k4 (fun a ha hb hl => by
    have h1 := (s1 a (s3 a ha).1).2
    have h2 := (s4 a hb).1.1
    omega)
  have r6 := f4 N5 h5 _ _ _ x5 (fun hc => (s4 b hc).2.2 rfl) r5 (by
    rintro (⟨hc | hc, _⟩ | hc)
    · have h1 := (s1 b (s3 b hc).1).2
      have h2 := b1.1
      omega
    · exact (s4 b hc).2.2 rfl
    · omega)
  have x7 : Ext N h T N5 h5 := (x2.mono (fun _ h _ => h.elim)).trans x5 (fun a ha hl => by have := (s4 a ha).1.1; omega)
  obtain ⟨h8, e8, x8, r8⟩ := k1 N5 h5 _ _ x7 (r6.mono (by
    rintro a ((⟨ha | ha, _⟩ | ha) | rfl)
    · exact .inl (s3 a ha).1
    · exact .inr (s4 a ha).1.1
    · exact .inr (Nat.le_trans x2.len ha)
    · exact .inr b1.1))
  refine ⟨N5, h8, ?_, x8, ?_⟩
  · show slotsInSkins E r ids h = _
    unfold slotsInSkins
    rw [run_bind e1, run_bind e2, run_bind e3, run_bind e4]
    exact (run_bind e5).trans e8
  · have : (Editor.slotsInSkins ids a) = { a with skins := a.skins.map (keepSlots ids) } := rfl
    simp only [this]
    have : tlist tSkin (a.skins.map (keepSlots ids)) = .node .list (a.skins.map (fun s => ([], tSkin (keepSlots ids s)))) := by
      simp [tlist, Function.comp_def]
    simp only [tData, this]
    exact r8

/-! ### Loops over the animations -/

theorem anims_does {f : Ref F → M F Unit} {g : Anim F → Res (Anim F) Unit} {a : AnimData F} (hf : ∀ p ∈ a.animations, Does B tAnim f g p.2) :
    Does B tData (fun r => anims r >>= each f)
      (fun a => ((mapMutD (fun _ x => g x) a.animations).1, { a with animations := (mapMutD (fun _ x => g x) a.animations).2 })) a := by
  intro N h r S hz hr
  obtain ⟨l, T, e1, r1, s1, k1, _⟩ := hr.attr hz (k := s!!"animations") (t := tdict tAnim a.animations) rfl
  obtain ⟨N2, h2, e2, x2, r2⟩ := dict_does (g := fun _ x => g x) hf hz r1
  refine ⟨N2, h2, ?_, x2.mono (fun a ha _ => (s1 a ha).1), k1 N2 h2 _ x2 r2⟩
  show ((getAttr r s!!"animations" >>= fun an => itemsOf an >>= fun an => pure (Dict.values an)) >>= each f) h = _
  rw [bind_assocM, run_bind e1, bind_assocM]
  exact e2

theorem Does.bind {α : Type} {T : α → Tree F} {f f' : Ref F → M F Unit} {g g' : α → Res α Unit} {x : α} (h1 : Does B T f g x)
    (h2 : ∀ y, g x = (.ok (), y) → Does B T f' g' y) :
    Does B T (fun r => f r >>= fun _ => f' r) (fun x => match g x with
      | (.error e, y) => (.error e, y)
      | (.ok _, y) => g' y) x := by
  intro N h r S hz hr
  obtain ⟨N1, g1, e1, x1, r1⟩ := h1 N h r S hz hr
  cases hg : g x with
  | mk o y =>
    rw [hg] at e1 r1
    simp only [hg]
    cases o with
    | error e => exact ⟨N1, g1, run_fail e1, x1, r1⟩
    | ok u =>
      obtain ⟨N2, g2, e2, x2, r2⟩ := h2 y hg N1 g1 r _ x1.zone r1
      exact ⟨N2, g2, (run_bind e1).trans e2, x1.grown x2, r2.mono (grown_grown x1.len)⟩

/-- `remove_slots` -/
theorem removeSlots_does {E : Env F} (hm : 8 + B ≤ E.lim) (ids : List Str) (orig : List (Slot F)) (a : AnimData F)
    (hk : ∀ p ∈ a.animations, (Dict.keys p.2.slots).Nodup) :
    Does B tData (fun r => removeSlots E r ids orig) (Editor.removeSlots ids orig) a := by
  have h1 := slotsInSkins_does hm ids a
  have h2 : Does B tData (fun r => anims r >>= each (slotsInAnim E ids)) _ (Editor.slotsInSkins ids a) :=
    anims_does (g := fun x => (.ok (), (x.removeSlots ids).removeDeformSlots ids)) (fun p hp => slotsInAnim_does hm ids p.2 (hk p hp))
  have h3 : ∀ a, Does B tData (fun r => anims r >>= each (drawInAnim E ids orig)) (Editor.drawOrderRefs ids orig) a :=
    fun a => anims_does (g := Anim.removeDrawOrder ids orig) (fun p _ => drawInAnim_does hm ids orig p.2)
  have h4 := h1.bind (g' := fun a => (.ok (), Editor.slotsInAnims ids a)) (f' := fun r => anims r >>= each (slotsInAnim E ids)) (by
    rintro y hy
    cases hy
    have : (fun (a : AnimData F) => ((mapMutD (fun _ x => (Except.ok (), (x.removeSlots ids).removeDeformSlots ids)) a.animations).1,
        { a with animations := (mapMutD (fun _ x => (Except.ok (), (x.removeSlots ids).removeDeformSlots ids)) a.animations).2 })) =
        fun a => ((Except.ok () : Except Err Unit), Editor.slotsInAnims ids a) := by
      funext a
      rw [mapMutD_pure (fun x : Anim F => (x.removeSlots ids).removeDeformSlots ids)]
      rfl
    rw [this] at h2
    exact h2)
  have h5 := h4.bind (f' := fun r => anims r >>= each (drawInAnim E ids orig)) (g' := Editor.drawOrderRefs ids orig) (fun y _ => h3 y)
  intro N h r S hz hr
  obtain ⟨N', h', e, x, r'⟩ := h5 N h r S hz hr
  refine ⟨N', h', ?_, x, r'⟩
  refine Eq.trans ?_ e
  show removeSlots E r ids orig h = ((slotsInSkins E r ids >>= fun _ => anims r >>= each (slotsInAnim E ids)) >>= fun _ =>
    anims r >>= each (drawInAnim E ids orig)) h
  unfold removeSlots
  simp only [bind_assocM]

/-! ### Attachments in skins -/

theorem set_same {α : Type} {l : Dict α} {k : Str} {t : α} (hk : Dict.get? l k = some t) : Dict.set l k t = l := by
  induction l with
  | nil => cases hk
  | cons p l ih =>
    obtain ⟨k', v⟩ := p
    unfold Dict.get? at hk
    unfold Dict.set
    split
    · rename_i e
      rw [if_pos e] at hk
      cases hk
      subst e
      rfl
    · rename_i e
      rw [if_neg e] at hk
      rw [ih hk]

theorem set_set {α : Type} (l : Dict α) (k : Str) (v w : α) : Dict.set (Dict.set l k v) k w = Dict.set l k w := by
  induction l with
  | nil => simp [Dict.set]
  | cons p l ih =>
    obtain ⟨k', x⟩ := p
    by_cases e : k' = k
    · simp [Dict.set, e]
    · simp [Dict.set, e, ih]

/-- one subtree is taken out -/
theorem RepK.blank {rs : Dict (Ref F)} {ts : List (Str × Tree F)} {S : Nat → Prop} {k : Str} {t : Tree F} (hr : RepK B N h rs ts S)
    (hk : Dict.get? ts k = some t) : ∃ r T U, Dict.get? rs k = some r ∧ Rep B N h r t T ∧
      RepK B N h (Dict.set rs k .null) (Dict.set ts k (.leaf .null)) U ∧ (∀ a, T a → S a) ∧ (∀ a, U a → S a) ∧ ∀ a, T a → U a → False := by
  induction ts generalizing rs S with
  | nil => cases hk
  | cons p ts ih =>
    cases hr with
    | cons k' r t0 rs _ S1 S2 _ h1 h2 h3 h4 h5 =>
      unfold Dict.get? at hk
      by_cases hkk : k' = k
      · subst hkk
        simp only [if_true] at hk
        cases hk
        refine ⟨r, S1, S2, by simp [Dict.get?], h1, ?_, h4, h5, h3⟩
        simp only [Dict.set, if_true]
        exact .cons _ _ _ _ _ Nil S2 _ (.leaf _ _ _ (fun b hb => nomatch hb) (readJ_iff.mpr .null)) h2 (fun _ h _ => h) (fun _ h => h.elim) (fun _ h => h)
      · simp only [if_neg hkk] at hk
        obtain ⟨r', T, U, g1, g2, g3, g4, g5, g6⟩ := ih h2 hk
        refine ⟨r', T, fun a => S1 a ∨ U a, by simp [Dict.get?, hkk, g1], g2, ?_, fun a ha => h5 a (g4 a ha), ?_, ?_⟩
        · simp only [Dict.set, if_neg hkk]
          exact .cons _ _ _ _ _ S1 U _ h1 g3 (fun a ha hb => h3 a ha (g5 a hb)) (fun a ha => .inl ha) (fun a ha => .inr ha)
        · rintro a (ha | ha)
          · exact h4 a ha
          · exact h5 a (g5 a ha)
        · rintro a ha (hb | hb)
          · exact h3 a hb (g4 a ha)
          · exact g6 a ha hb

/-- `del skin.attachments[k][x]` -/
theorem delAtt {c : Ref F} {s : Skin F} {S : Nat → Prop} {k x : Str} {e : Dict (Att F)} (hz : Zone N h) (hr : Rep B N h c (tSkin s) S)
    (hk : Dict.get? s.attachments k = some e) (hx : Dict.has e x = true) :
    ∃ h', (do
        let w ← getAttr c s!!"attachments"
        let w ← subscript w k
        delItem w x) h = (.ok (), h') ∧ Ext N h S N h' ∧ h'.length = h.length ∧
      Rep B N h' c (tSkin { s with attachments := Dict.set s.attachments k (Dict.del e x) }) (fun a => S a ∧ a < h.length) := by
  obtain ⟨w, T, e1, r1, s1, k1, _⟩ := hr.attr hz (k := s!!"attachments") (t := tdict (tdict tAtt) s.attachments) rfl
  obtain ⟨w2, T2, e2, r2, s2, k2, _⟩ := r1.item hz (k := k) (t := tdict tAtt e) (by rw [get?_dmap, hk]; rfl)
  have hh : Dict.has (dmap (tAtt (F := F)) e) x = true := by
    rw [Dict.has_iff_mem_keys] at hx ⊢
    simpa [Dict.keys, dmap, Function.comp_def] using hx
  obtain ⟨h3, e3, x3, r3⟩ := r2.del hz hh
  have hlen : h3.length = h.length := by
    obtain ⟨b, rs, _, rfl, o1, _⟩ := r2.dict
    by_cases hb : Dict.has rs x = true
    · rw [run_delItem o1 hb] at e3
      cases e3
      simp
    · unfold delItem at e3
      simp only [run_bind (run_deref o1), if_neg hb] at e3
      cases e3
  have hdel : Dict.del (dmap (tAtt (F := F)) e) x = dmap tAtt (Dict.del e x) := by
    rw [del_eq_filter]
    exact (dmap_filter _ e (fun k => decide (k ≠ x))).symm
  rw [hdel] at r3
  have r3' : Rep B N h3 w2 (tdict tAtt (Dict.del e x)) (Grown T2 h) := r3
  have r4 := k2 N h3 _ x3 r3'
  rw [set_dmap (tdict tAtt)] at r4
  have r5 := k1 N h3 _ (x3.mono (fun a ha _ => (s2 a ha).1)) r4
  refine ⟨h3, ?_, x3.mono (fun a ha _ => (s1 a (s2 a ha).1).1), hlen, ?_⟩
  · rw [run_bind e1, run_bind e2]; exact e3
  · refine r5.bound.mono ?_
    rintro a ⟨ha | ha, hl⟩
    · exact ⟨ha, by omega⟩
    · omega

/-- the inner loop of `_clean_attachments_in_skins` -/
theorem attLoop' {c : Ref F} {s : Skin F} {k : Str} (ids : List Str) : ∀ (d : Dict (Ref F)) {N : Nat → Prop} {h : Heap F} {e : Dict (Att F)} {m : Dict (Dict (Att F))} {S : Nat → Prop},
    (Dict.keys d).Nodup → (∀ p ∈ d, Dict.has e p.1 = true) → Dict.get? m k = some e → Zone N h → Rep B N h c (tSkin { s with attachments := m }) S →
    ∃ h', each (fun x : Str × Ref F => if x.1 ∈ ids then do
        let w ← getAttr c s!!"attachments"
        let w ← subscript w k
        delItem w x.1
      else pure ()) d h = (.ok (), h') ∧ Ext N h S N h' ∧ h'.length = h.length ∧
      Rep B N h' c (tSkin { s with attachments := Dict.set m k (e.filter (fun q => decide (¬ (q.1 ∈ ids ∧ q.1 ∈ Dict.keys d)))) }) (fun a => S a ∧ a < h.length)
  | [], N, h, e, m, S, _, _, hg, hz, hr => by
    refine ⟨h, rfl, .refl hz _, rfl, ?_⟩
    have : e.filter (fun q => decide (¬ (q.1 ∈ ids ∧ q.1 ∈ Dict.keys ([] : Dict (Ref F))))) = e := by
      rw [List.filter_eq_self]
      intro p _
      simp [Dict.keys]
    rw [this, set_same hg]
    exact hr.bound
  | (x, r) :: d, N, h, e, m, S, hn, hp, hg, hz, hr => by
    have hn1 : x ∉ Dict.keys d := (List.nodup_cons.mp hn).1
    have hn2 : (Dict.keys d).Nodup := (List.nodup_cons.mp hn).2
    by_cases hP : x ∈ ids
    · obtain ⟨h1, e1, x1, l1, r1⟩ := delAtt hz hr hg (hp (x, r) (by simp))
      have hp' : ∀ p ∈ d, Dict.has (Dict.del e x) p.1 = true := by
        intro p hpd
        have h2 := hp p (by simp [hpd])
        rw [Dict.has_iff_mem_keys] at h2 ⊢
        rw [Dict.keys_del]
        refine List.mem_filter.mpr ⟨h2, ?_⟩
        simp only [ne_eq, decide_eq_true_eq]
        rintro rfl
        exact hn1 (List.mem_map_of_mem hpd)
      obtain ⟨h2, e2, x2, l2, r2⟩ := attLoop' (s := s) ids d hn2 hp' (m := Dict.set m k (Dict.del e x)) (by rw [Dict.get?_set, if_pos rfl]) x1.zone r1
      refine ⟨h2, ?_, x1.trans x2 (fun a ha _ => ha.1), by omega, ?_⟩
      · rw [each_cons_ok (h1 := h1) (by simp only [if_pos hP]; exact e1)]
        exact e2
      · have : (Dict.del e x).filter (fun q => decide (¬ (q.1 ∈ ids ∧ q.1 ∈ Dict.keys d))) =
            e.filter (fun q => decide (¬ (q.1 ∈ ids ∧ q.1 ∈ Dict.keys ((x, r) :: d)))) := by
          show (e.filter (fun q => decide (q.1 ≠ x))).filter _ = _
          rw [List.filter_filter]
          apply List.filter_congr
          intro q _
          have : Dict.keys ((x, r) :: d) = x :: Dict.keys d := rfl
          rw [this]
          by_cases hq : q.1 = x
          · simp [hq, hP]
          · simp [hq]
        rw [set_set, this] at r2
        exact r2.mono (fun a ha => ha.1)
    · obtain ⟨h2, e2, x2, l2, r2⟩ := attLoop' (s := s) ids d hn2 (fun p hpd => hp p (by simp [hpd])) hg hz hr
      refine ⟨h2, ?_, x2, l2, ?_⟩
      · rw [each_cons_ok (h1 := h) (by simp only [if_neg hP]; rfl)]
        exact e2
      · have : e.filter (fun q => decide (¬ (q.1 ∈ ids ∧ q.1 ∈ Dict.keys d))) = e.filter (fun q => decide (¬ (q.1 ∈ ids ∧ q.1 ∈ Dict.keys ((x, r) :: d)))) := by
          apply List.filter_congr
          intro q _
          have : Dict.keys ((x, r) :: d) = x :: Dict.keys d := rfl
          rw [this]
          by_cases hq : q.1 = x
          · simp [hq, hP]
          · simp [hq]
        rw [← this]
        exact r2

/-- the loop over the slots of a skin -/
theorem attsLoop {c : Ref F} {s : Skin F} (ids : List Str) : ∀ {l pre : Dict (Dict (Att F))} {N : Nat → Prop} {h : Heap F} {rs : Dict (Ref F)} {S U : Nat → Prop},
    (Dict.keys (pre ++ l)).Nodup → (∀ p ∈ l, (Dict.keys p.2).Nodup) → Zone N h → RepK B N h rs (dmap (tdict tAtt) l) U →
    Rep B N h c (tSkin { s with attachments := pre ++ l }) S → (∀ a, U a → S a → a < h.length → False) →
    ∃ h', each (fun q : Str × Ref F => do
        let e ← itemsOf q.2
        each (fun x : Str × Ref F => if x.1 ∈ ids then do
            let w ← getAttr c s!!"attachments"
            let w ← subscript w q.1
            delItem w x.1
          else pure ()) e) rs h = (.ok (), h') ∧ Ext N h S N h' ∧ h'.length = h.length ∧
      Rep B N h' c (tSkin { s with attachments := pre ++ dmap (fun e => e.filter (fun p => decide (p.1 ∉ ids))) l }) (fun a => S a ∧ a < h.length)
  | [], pre, N, h, rs, S, U, _, _, hz, hu, hr, _ => by
    cases hu
    exact ⟨h, rfl, .refl hz _, rfl, hr.bound⟩
  | (k, e) :: l, pre, N, h, rs, S, U, hn, hp, hz, hu, hr, hd => by
    cases hu with
    | cons _ r _ rs _ U1 U2 _ u1 u2 u3 u4 u5 =>
      obtain ⟨es, T, e1, k1, s1, _⟩ := u1.items
      have hkeys : Dict.keys es = Dict.keys e := by
        have := k1.keys
        unfold Dict.keys
        rw [this]
        simp [dmap, Function.comp_def]
      have hkp : k ∉ pre.map (·.1) := by
        intro hc
        unfold Dict.keys at hn
        simp only [List.map_append, List.map_cons] at hn
        exact (List.nodup_append.mp hn).2.2 k hc k (by simp) rfl
      obtain ⟨h2, e2, x2, l2, r2⟩ := attLoop' (s := s) ids es (by rw [hkeys]; exact hp (k, e) (by simp)) (e := e) (m := pre ++ (k, e) :: l) (k := k) (by
        intro p hp
        rw [Dict.has_iff_mem_keys, ← hkeys]
        exact List.mem_map_of_mem hp) (dict_get_mid hkp) hz hr
      have hf : e.filter (fun q => decide (¬ (q.1 ∈ ids ∧ q.1 ∈ Dict.keys es))) = e.filter (fun p => decide (p.1 ∉ ids)) := by
        apply List.filter_congr
        intro q hq
        have : q.1 ∈ Dict.keys es := by rw [hkeys]; exact List.mem_map_of_mem hq
        simp [this]
      have hm : Dict.set (pre ++ (k, e) :: l) k (e.filter (fun p => decide (p.1 ∉ ids))) = (pre ++ [(k, e.filter (fun p => decide (p.1 ∉ ids)))]) ++ l := by
        rw [dict_set_mid hkp]; simp
      rw [hf, hm] at r2
      obtain ⟨h3, e3, x3, l3, r3⟩ := attsLoop (s := s) ids (pre := pre ++ [(k, e.filter (fun p => decide (p.1 ∉ ids)))]) (by
        have : Dict.keys (pre ++ [(k, e.filter (fun p => decide (p.1 ∉ ids)))] ++ l) = Dict.keys (pre ++ (k, e) :: l) := by simp [Dict.keys]
        rw [this]; exact hn) (fun p hpl => hp p (by simp [hpl])) x2.zone (u2.frame hz x2 (fun a ha hb hl => hd a (u5 a hb) ha hl)) r2
        (fun a ha hb _ => hd a (u5 a ha) hb.1 hb.2)
      refine ⟨h3, ?_, x2.trans x3 (fun a ha _ => ha.1), by omega, ?_⟩
      · rw [each_cons_ok (h1 := h2)]
        · exact e3
        · rw [run_bind e1]; exact e2
      · have : pre ++ [(k, e.filter (fun p => decide (p.1 ∉ ids)))] ++ dmap (fun e => e.filter (fun p => decide (p.1 ∉ ids))) l =
            pre ++ dmap (fun e => e.filter (fun p => decide (p.1 ∉ ids))) ((k, e) :: l) := by simp [dmap]
        rw [this] at r3
        exact r3.mono (fun a ha => ha.1)

/-- the attachments that stay -/
def keepAtts (ids : List Str) (s : Skin F) : Skin F := { s with attachments := dmap (fun e => e.filter (fun p => p.1 ∉ ids)) s.attachments }

/-- keys occur once -/
def Skin.Uniq (s : Skin F) : Prop := (Dict.keys s.attachments).Nodup ∧ ∀ p ∈ s.attachments, (Dict.keys p.2).Nodup

/-- the loop over the skins -/
theorem skinsLoop {a : Nat} {tg : Tag} {d : Dict (Ref F)} {an : Ref F} (hd : Dict.get? d s!!"animations" = some an) (ids : List Str) :
    ∀ {ss : List (Skin F)} {N : Nat → Prop} {h : Heap F} {rs rs' : Dict (Ref F)} {x : Dict (Anim F)} {U V A : Nat → Prop}, Zone N h → h[a]? = some (.inst tg d) →
    (∀ s ∈ ss, Skin.Uniq s) → RepK B N h rs (ss.map (fun s => ([], tSkin s))) U → RepK B N h rs' (ss.map (fun s => ([], tSkin s))) V →
    Rep B N h an (tdict tAnim x) A → (∀ b, U b → V b → b < h.length → False) → (∀ b, U b → A b → b < h.length → False) →
    (∀ b, V b → A b → b < h.length → False) → ¬ V a → ¬ A a →
    ∃ N' h', each (attsInSkin (.ptr a) ids) ((rs.map (·.2)).zip (rs'.map (·.2))) h = (.ok (), h') ∧ Ext N h (fun b => V b ∨ A b) N' h' ∧
      RepK B N' h' rs' (ss.map (fun s => ([], tSkin (keepAtts ids s)))) (fun b => V b ∧ b < h.length) ∧
      Rep B N' h' an (tdict tAnim (ss.foldl (fun x s => dmap (Anim.removeDeformAtts ids s.name) x) x)) (Grown A h)
  | [], N, h, rs, rs', x, U, V, A, hz, _, _, hr, hr', hA, _, _, _, _, _ => by
    cases hr; cases hr'
    exact ⟨N, h, rfl, .refl hz _, .nil _, hA.mono (fun b hb => .inl hb)⟩
  | s :: ss, N, h, rs, rs', x, U, V, A, hz, ho, hu, hr, hr', hA, d1, d2, d3, na, nb => by
    cases hr with
    | cons _ r _ rs _ U1 U2 _ u1 u2 u3 u4 u5 =>
    cases hr' with
    | cons _ r' _ rs' _ V1 V2 _ v1 v2 v3 v4 v5 =>
      obtain ⟨w, T, e1, r1, s1, _⟩ := u1.attr hz (k := s!!"attachments") (t := tdict (tdict tAtt) s.attachments) rfl
      obtain ⟨es, T2, e2, k2, s2, _⟩ := r1.items
      obtain ⟨h3, e3, x3, l3, r3⟩ := attsLoop (s := s) ids (pre := []) (hu s (by simp)).1 (hu s (by simp)).2 hz k2 v1 (fun b hb hc hl =>
        d1 b (u4 b (s1 b (s2 b hb).1).1) (v4 b hc) hl)
      have u1' := u1.bound.frame hz x3 (fun b hb hc hl => d1 b (u4 b hc.1) (v4 b hb) hl)
      have A3 := hA.bound.frame hz x3 (fun b hb hc hl => d3 b (v4 b hb) hc.1 hl)
      obtain ⟨n, _, e4, r4, _⟩ := u1'.attr x3.zone (k := s!!"name") (t := .leaf (.str s.name)) rfl
      have hn := r4.str
      subst hn
      have hl := (List.getElem?_eq_some_iff.mp ho).1
      have ho3 : h3[a]? = some (.inst tg d) := by rw [x3.keep a hl (.inr (fun hc => na (v4 a hc)))]; exact ho
      obtain ⟨N5, h5, e5, x5, r5⟩ := dict_does (f := removeDeformAtts ids s.name) (g := fun _ x => (.ok (), x.removeDeformAtts ids s.name))
        (fun p _ => removeDeformAtts_does ids s.name p.2) x3.zone A3
      rw [mapMutD_pure (fun x : Anim F => x.removeDeformAtts ids s.name)] at e5 r5
      have x35 : Ext N h (fun b => V b ∨ A b) N5 h5 := (x3.mono (S' := fun b => V b ∨ A b) (fun b hb _ => .inl (v4 b hb))).trans x5 (fun b hb _ => .inr hb.1)
      have ho5 : h5[a]? = some (.inst tg d) := by rw [x35.keep a hl (.inr (fun hc => hc.elim na nb))]; exact ho
      obtain ⟨N6, h6, e6, x6, r6, A6⟩ := skinsLoop hd ids (ss := ss) (rs := rs) (rs' := rs') (U := fun b => U2 b ∧ b < h.length) (V := fun b => V2 b ∧ b < h.length)
        (A := fun b => Grown (fun b => A b ∧ b < h.length) h3 b ∧ b < h5.length) x35.zone ho5
        (fun s hs => hu s (by simp [hs])) (u2.bound.frame hz x35 (fun b hb hc hl => hb.elim (fun hb => d1 b (u5 b hc.1) hb hl) (fun hb => d2 b (u5 b hc.1) hb hl)))
        ((v2.bound.frame hz x3 (fun b hb hc _ => v3 b hb hc.1)).frame x3.zone x5 (fun b hb hc _ => d3 b (v5 b hc.1) hb.1 hc.2)) r5.bound
        (fun b hb hc _ => d1 b (u5 b hb.1) (v5 b hc.1) hb.2)
        (fun b hb hc _ => hc.1.elim (fun hc => d2 b (u5 b hb.1) hc.1 hb.2) (fun hc => by have := hb.2; omega))
        (fun b hb hc _ => hc.1.elim (fun hc => d3 b (v5 b hb.1) hc.1 hb.2) (fun hc => by have := hb.2; omega))
        (fun hc => na (v5 a hc.1)) (fun hc => hc.1.elim (fun hc => nb hc.1) (fun hc => by omega))
      refine ⟨N6, h6, ?_, ?_, ?_, ?_⟩
      · simp only [List.map_cons, List.zip_cons_cons]
        rw [each_cons_ok (h1 := h5)]
        · exact e6
        · unfold attsInSkin
          rw [run_bind e1, run_bind e2]
          rw [run_bind e3]
          simp only
          rw [run_bind e4]
          show (anims (.ptr a) >>= fun an => each (removeDeformAtts ids s.name) an) h3 = _
          show ((getAttr (.ptr a) s!!"animations" >>= fun an => itemsOf an >>= fun an => pure (Dict.values an)) >>= each (removeDeformAtts ids s.name)) h3 = _
          rw [bind_assocM, run_bind (run_getAttr ho3 hd), bind_assocM]
          exact e5
      · refine x35.trans x6 ?_
        rintro b (hb | hb) hl
        · exact .inl (v5 b hb.1)
        · exact hb.1.elim (fun hb => .inr hb.1) (fun hb => by omega)
      · refine .cons _ _ _ _ _ (fun b => V1 b ∧ b < h.length) _ _ ((r3.frame x3.zone x5 ?_).frame x5.zone x6 ?_) r6 ?_ ?_ ?_
        · intro b hb hc _
          exact d3 b (v4 b hc.1) hb.1 hc.2
        · rintro b (hb | hb) hc _
          · exact v3 b hc.1 hb.1
          · exact hb.1.elim (fun hb => d3 b (v4 b hc.1) hb.1 hc.2) (fun hb => by have := hc.2; omega)
        · intro b hb hc; exact v3 b hb.1 hc.1.1
        · intro b hb; exact ⟨v4 b hb.1, hb.2⟩
        · intro b hb; exact ⟨v5 b hb.1.1, hb.1.2⟩
      · refine A6.mono ?_
        rintro b (hb | hb)
        · exact hb.1.elim (fun hb => .inl hb.1) (fun hb => .inr (by omega))
        · exact .inr (by have := x5.len; omega)

/-- `_clean_attachments_in_skins` -/
theorem attsInSkins_does {E : Env F} (hm : 8 + B ≤ E.lim) (ids : List Str) (x : AnimData F) (hu : ∀ s ∈ x.skins, Skin.Uniq s) :
    Does B tData (fun r => attsInSkins E r ids) (fun a => (.ok (), Editor.attsInSkins ids a)) x := by
  intro N h r S hz hr
  obtain ⟨a, rs, S', rfl, o1, o2, o3, o4, o5⟩ := hr.inst
  have hl := (List.getElem?_eq_some_iff.mp o1).1
  obtain ⟨l, T, U, g1, g2, g3, g4, g5, g6⟩ := o4.blank (k := s!!"skins") (t := tlist tSkin x.skins) rfl
  obtain ⟨c, N2, h2, e2, x2, r2⟩ := g2.copy hz (E := E) (by have := height_skins x.skins; omega)
  obtain ⟨rs3, U3, e3, k3, s3, _⟩ := (g2.bound.keep hz x2).elems
  obtain ⟨b, rs', V, rfl, b1, b2, e4, k4, s4, f4⟩ := r2.elemsX
  obtain ⟨an, A, W, a1, a2, a3, a4, a5, a6⟩ := g3.blank (k := s!!"animations") (t := tdict tAnim x.animations) rfl
  have ha1 : Dict.get? rs s!!"animations" = some an := by
    rw [Dict.get?_set] at a1
    simpa using a1
  have o1' : h2[a]? = some (.inst .document rs) := by rw [x2.keep a hl (.inr (fun h => h))]; exact o1
  obtain ⟨N5, h5, e5, x5, r5, A5⟩ := skinsLoop ha1 ids x2.zone o1' hu k3 k4 (a2.bound.keep hz x2)
    (fun c hc hb _ => by have h1 := (s3 c hc).1.2; have h2 := (s4 c hb).1.1; omega)
    (fun c hc hb _ => g6 c (s3 c hc).1.1 (a4 c hb.1))
    (fun c hc hb _ => by have h1 := (s4 c hc).1.1; have h2 := hb.2; omega)
    (fun hc => by have h1 := (s4 a hc).1.1; omega)
    (fun hc => (o5 a (g5 a (a4 a hc.1))).2 rfl)
  have r6 := f4 N5 h5 _ _ _ x5 (by
    rintro (hc | hc)
    · exact (s4 b hc).2.2 rfl
    · have h1 := hc.2; have h2 := b1.1; omega) r5 (fun hc => (s4 b hc.1).2.2 rfl)
  have hkl : Tree.node .list (x.skins.map (fun s => (([] : Str), tSkin (keepAtts ids s)))) = tlist tSkin (x.skins.map (keepAtts ids)) := by
    simp [tlist, Function.comp_def]
  rw [hkl] at r6
  have r7 := (a3.bound.keep hz x2).frame x2.zone x5 (by
    rintro c (hc | hc) hb _
    · have h1 := (s4 c hc).1.1; have h2 := hb.2; omega
    · exact a6 c hc.1 hb.1)
  have r8 := (r7.set (k := s!!"animations") A5 (by
    rintro c hc (hb | hb)
    · exact a6 c hb.1 hc.1
    · have := hc.2; have := x2.len; omega)).set (k := s!!"skins") r6 (by
    rintro c (hc | hc | hc) (hb | hb)
    · have h1 := (s4 c hb.1).1.1; have h2 := hc.2; omega
    · have h1 := b1.1; have h2 := hc.2; omega
    · have h1 := (s4 c hb.1).1.1; have h2 := hc.2; omega
    · have h1 := b1.1; have h2 := hc.2; omega
    · have h1 := hb.2; omega
    · omega)
  rw [set_set, set_same (k := s!!"animations") (l := Dict.set rs s!!"skins" .null) a1, set_set] at r8
  have ho5 : h5[a]? = some (.inst .document rs) := by
    rw [x5.keep a (Nat.lt_of_lt_of_le hl x2.len) (.inr ?_)]
    · exact o1'
    · rintro (hc | hc)
      · have := (s4 a hc).1.1; omega
      · exact (o5 a (g5 a (a4 a hc.1))).2 rfl
  have hn5 : ¬ N5 a := fun hc => o3 (x2.old a hl (x5.old a (Nat.lt_of_lt_of_le hl x2.len) hc))
  have x8 : Ext N5 h5 (fun c => c = a) N5 (h5.set a (.inst .document (Dict.set rs s!!"skins" (.ptr b)))) := Ext.set x5.zone _ rfl hn5
  have hna : ∀ c, c = a → ((((W c ∧ c < h.length) ∨ Grown (fun c => A c ∧ c < h.length) h2 c) ∨ ((V c ∧ c < h2.length) ∨ c = b)) → False) := by
    rintro c rfl ((hc | hc | hc) | hc | hc)
    · exact (o5 c (g5 c (a5 c hc.1))).2 rfl
    · exact (o5 c (g5 c (a4 c hc.1))).2 rfl
    · have := x2.len; omega
    · have := (s4 c hc.1).1.1; omega
    · have := b1.1; omega
  refine ⟨N5, _, ?_, ?_, .node a (.inst .document) _ _ _ (fun c => ((W c ∧ c < h.length) ∨ Grown (fun c => A c ∧ c < h.length) h2 c) ∨ ((V c ∧ c < h2.length) ∨ c = b))
    ?_ (.inl o2) hn5 (r8.frame x5.zone x8 (fun c hc hb _ => hna c hc hb)) ?_⟩
  · show attsInSkins E (.ptr a) ids h = _
    unfold attsInSkins
    rw [run_bind (run_getAttr o1 g1), run_bind e2, run_bind e3, run_bind e4, run_bind e5]
    exact run_setAttr ho5
  · refine ((x2.mono (S' := S) (fun _ h _ => h.elim)).trans x5 ?_).trans x8 (fun c hc _ => by rw [hc]; exact o2)
    rintro c (hc | hc) hl
    · have := (s4 c hc).1.1; omega
    · exact (o5 c (g5 c (a4 c hc.1))).1
  · rw [List.getElem?_set_self (by have := (List.getElem?_eq_some_iff.mp ho5).1; exact this)]
    rfl
  · rintro c hc
    refine ⟨?_, fun h => hna c h hc⟩
    rcases hc with (hc | hc | hc) | hc | hc
    · exact .inl (o5 c (g5 c (a5 c hc.1))).1
    · exact .inl (o5 c (g5 c (a4 c hc.1))).1
    · exact .inr (by have := x2.len; omega)
    · exact .inr (s4 c hc.1).1.1
    · exact .inr (by rw [hc]; exact b1.1)

/-! ### Attachments in slots -/

/-- the slot without an attachment that is removed -/
def keepAtt (ids : List Str) (s : Slot F) : Slot F :=
  match s.attachment with
  | some t => if graphId .attachment t ∈ ids then { s with attachment := none } else s
  | none => s

theorem slotAttLoop (ids : List Str) : ∀ {ss : List (Slot F)} {N : Nat → Prop} {h : Heap F} {rs rs' : Dict (Ref F)} {U V : Nat → Prop}, Zone N h →
    RepK B N h rs (ss.map (fun s => ([], tSlot s))) U → RepK B N h rs' (ss.map (fun s => ([], tSlot s))) V →
    (∀ a, U a → V a → a < h.length → False) →
    ∃ h', each (fun p : Ref F × Ref F => do
        match ← getAttr p.1 s!!"attachment" with
        | .str t => if graphId .attachment t ∈ ids then setAttr p.2 s!!"attachment" .null else return ()
        | .null => return ()
        | _ => raise .unmodelled) ((rs.map (·.2)).zip (rs'.map (·.2))) h = (.ok (), h') ∧ Ext N h V N h' ∧
      RepK B N h' rs' (ss.map (fun s => ([], tSlot (keepAtt ids s)))) V
  | [], N, h, rs, rs', U, V, hz, hr, hr', _ => by
    cases hr; cases hr'
    exact ⟨h, rfl, .refl hz _, .nil _⟩
  | s :: ss, N, h, rs, rs', U, V, hz, hr, hr', hd => by
    cases hr with
    | cons _ r _ rs _ U1 U2 _ u1 u2 u3 u4 u5 =>
    cases hr' with
    | cons _ r' _ rs' _ V1 V2 _ v1 v2 v3 v4 v5 =>
      obtain ⟨w, e1, w1, w2⟩ := u1.getLeaf hz (k := s!!"attachment") (j := optJ s.attachment) rfl
      have step : ∃ h1, (do
          match ← getAttr r s!!"attachment" with
          | .str t => if graphId .attachment t ∈ ids then setAttr r' s!!"attachment" .null else return ()
          | .null => return ()
          | _ => raise .unmodelled) h = (.ok (), h1) ∧ Ext N h V1 N h1 ∧ Rep B N h1 r' (tSlot (keepAtt ids s)) V1 := by
        rw [run_bind e1]
        cases ha : s.attachment with
        | none =>
          rw [ha] at w2
          cases readJ_iff.mp w2
          refine ⟨h, rfl, .refl hz _, ?_⟩
          simp only [keepAtt, ha]
          exact v1
        | some t =>
          rw [ha] at w2
          cases readJ_iff.mp w2
          by_cases hi : graphId .attachment t ∈ ids
          · obtain ⟨h1, e2, x2, r2⟩ := Rep.setLeaf (k := s!!"attachment") (x := .null) (j := .null) hz v1 (fun b hb => nomatch hb) (readJ_iff.mpr .null)
            refine ⟨h1, by simp only [if_pos hi]; exact e2, x2, ?_⟩
            simp only [keepAtt, ha, if_pos hi]
            exact r2
          · refine ⟨h, by simp only [if_neg hi]; rfl, .refl hz _, ?_⟩
            simp only [keepAtt, ha, if_neg hi]
            exact v1
      obtain ⟨h1, e2, x2, r2⟩ := step
      obtain ⟨h3, e3, x3, r3⟩ := slotAttLoop ids x2.zone (u2.bound.frame hz x2 (fun a ha hb hl => hd a (u5 a hb.1) (v4 a ha) hl))
        (v2.frame hz x2 (fun a ha hb _ => v3 a ha hb)) (fun a ha hb _ => hd a (u5 a ha.1) (v5 a hb) ha.2)
      refine ⟨h3, ?_, ?_, ?_⟩
      · simp only [List.map_cons, List.zip_cons_cons]
        rw [each_cons_ok (h1 := h1)]
        · exact e3
        · exact e2
      · exact (x2.mono (fun a ha _ => v4 a ha)).trans x3 (fun a ha _ => v5 a ha)
      · exact .cons _ _ _ _ _ V1 V2 _ (r2.frame x2.zone x3 (fun a ha hb _ => v3 a hb ha)) r3 v3 v4 v5

/-- `_clean_attachments_in_slots` -/
theorem attsInSlots_does {E : Env F} (hm : 8 + B ≤ E.lim) (ids : List Str) (a : AnimData F) :
    Does B tData (fun r => attsInSlots E r ids) (fun a => (.ok (), Editor.attsInSlots ids a)) a := by
  intro N h r S hz hr
  obtain ⟨l, T, e1, r1, s1, _, k1⟩ := hr.attr hz (k := s!!"slots") (t := tlist tSlot a.slots) rfl
  obtain ⟨c, N2, h2, e2, x2, r2⟩ := r1.copy hz (E := E) (by
    have := height_tlist (f := tSlot (F := F)) (fun _ => height_attrs _ _) a.slots; omega)
  obtain ⟨rs, U, e3, k3, s3, _⟩ := (r1.keep hz x2).elems
  obtain ⟨b, rs', V, rfl, b1, b2, e4, k4, s4, f4⟩ := r2.elemsX
  obtain ⟨h5, e5, x5, r5⟩ := slotAttLoop ids x2.zone k3 k4 (fun a ha hb hl => by
    have h1 := (s1 a (s3 a ha).1).2
    have h2 := (s4 a hb).1.1
    omega)
  have r6 := f4 N2 h5 _ _ _ x5 (fun hc => (s4 b hc).2.2 rfl) r5 (fun hc => (s4 b hc).2.2 rfl)
  have x7 : Ext N h T N2 h5 := (x2.mono (fun _ h _ => h.elim)).trans x5 (fun a ha hl => by have := (s4 a ha).1.1; omega)
  have hkl : Tree.node .list (a.slots.map (fun s => (([] : Str), tSlot (keepAtt ids s)))) = tlist tSlot (a.slots.map (keepAtt ids)) := by
    simp [tlist, Function.comp_def]
  rw [hkl] at r6
  obtain ⟨h8, e8, x8, r8⟩ := k1 N2 h5 _ _ x7 (r6.mono (by
    rintro a (ha | rfl)
    · exact .inr (s4 a ha).1.1
    · exact .inr b1.1))
  refine ⟨N2, h8, ?_, x8, r8⟩
  show attsInSlots E r ids h = _
  unfold attsInSlots
  rw [run_bind e1, run_bind e2, run_bind e3, run_bind e4]
  exact (run_bind e5).trans e8

/-- `remove_attachments` -/
theorem removeAttachments_does {E : Env F} (hm : 8 + B ≤ E.lim) (ids : List Str) (a : AnimData F) (hu : ∀ s ∈ a.skins, Skin.Uniq s) :
    Does B tData (fun r => removeAttachments E r ids) (fun a => (.ok (), Editor.removeAttachments ids a)) a :=
  (attsInSkins_does hm ids a hu).bind (g' := fun a => (.ok (), Editor.attsInSlots ids a)) (fun y _ => attsInSlots_does hm ids y)

end Alias
end Spine
