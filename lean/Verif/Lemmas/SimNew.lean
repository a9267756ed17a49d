import Verif.Lemmas.SimData
/-
The constructors of timelines and animations on the heap.
-/
set_option linter.unusedSectionVars false
namespace Spine
namespace Alias
open M
variable {F : Type} [PyRt F] {B : Nat}

theorem optStr_eq {v : JVal F} : optStr v = .error .unmodelled ∨ ∃ s, optStr v = .ok s ∧ v = optJ s := by
  cases v with
  | null => exact .inr ⟨none, rfl, rfl⟩
  | str s => exact .inr ⟨some s, rfl, rfl⟩
  | bool _ => exact .inl rfl
  | int _ => exact .inl rfl
  | flt _ => exact .inl rfl
  | list _ => exact .inl rfl
  | dict _ => exact .inl rfl

theorem newBone_makesA {A : Nat} (hA : A ≤ B + 1) : MakesA A B (newLeaf (F := F) .bone) Bone.init (fun x t => t = tBone x ∧ (Dict.keys x.attrs).Nodup) := by
  refine (newLeaf_makesA hA .bone).narrow (fun j => ?_)
  unfold Bone.init
  show _ ∨ (∃ e, boneCls.init j = _ ∧ _) ∨ ∃ x y, boneCls.init j = _ ∧ _
  cases hi : boneCls.init j with
  | error e => exact .inr (.inl ⟨e, rfl, rfl⟩)
  | ok a =>
    rcases optStr_eq (v := a.val s!!"name") with h1 | ⟨s, h1, h2⟩
    · exact .inl (by show (optStr (a.val s!!"name") >>= _) = _; rw [h1]; rfl)
    rcases optStr_eq (v := a.val s!!"parent") with h3 | ⟨p, h3, h4⟩
    · cases s with
      | none => exact .inl (by show (optStr (a.val s!!"name") >>= _) = _; rw [h1]; rfl)
      | some s => exact .inl (by
          show (optStr (a.val s!!"name") >>= _) = _; rw [h1]
          show (optStr (a.val s!!"parent") >>= _) = _; rw [h3]; rfl)
    cases s with
    | none => exact .inl (by show (optStr (a.val s!!"name") >>= _) = _; rw [h1]; rfl)
    | some s =>
      refine .inr (.inr ⟨a, { name := s, parent := p, rest := a.without [s!!"name", s!!"parent"] }, rfl, ?_, ?_⟩)
      · show (optStr (a.val s!!"name") >>= _) = _; rw [h1]
        show (optStr (a.val s!!"parent") >>= _) = _; rw [h3]; rfl
      · rintro t rfl
        have hx : a = (Bone.mk s p (a.without [s!!"name", s!!"parent"])).attrs := by
          have h2' : JVal.str s = a.val s!!"name" := h2.symm
          unfold Bone.attrs
          simp only
          rw [← h4, h2']
          obtain ⟨d, _, _, e⟩ := Cls.init_ok hi
          rw [e]
          simp [boneCls, Attrs.without, Attrs.val, Dict.get?]
        refine ⟨by rw [tBone, ← hx], ?_⟩
        rw [← hx, Cls.keys_init hi]
        exact leaf_bone.1

theorem newBone_makes : Makes B (newLeaf (F := F) .bone) Bone.init (fun x t => t = tBone x ∧ (Dict.keys x.attrs).Nodup) :=
  newBone_makesA (A := B) (Nat.le_succ _)

theorem newSlot_makesA {A : Nat} (hA : A ≤ B + 1) : MakesA A B (newLeaf (F := F) .slot) Slot.init (fun x t => t = tSlot x) := by
  refine (newLeaf_makesA hA .slot).narrow (fun j => ?_)
  unfold Slot.init
  show _ ∨ (∃ e, slotCls.init j = _ ∧ _) ∨ ∃ x y, slotCls.init j = _ ∧ _
  cases hi : slotCls.init j with
  | error e => exact .inr (.inl ⟨e, rfl, rfl⟩)
  | ok a =>
    rcases optStr_eq (v := a.val s!!"name") with h1 | ⟨s, h1, h2⟩
    · exact .inl (by show (optStr (a.val s!!"name") >>= _) = _; rw [h1]; rfl)
    cases s with
    | none => exact .inl (by show (optStr (a.val s!!"name") >>= _) = _; rw [h1]; rfl)
    | some s =>
    rcases optStr_eq (v := a.val s!!"bone") with h3 | ⟨b, h3, h4⟩
    · exact .inl (by
          show (optStr (a.val s!!"name") >>= _) = _; rw [h1]
          show (optStr (a.val s!!"bone") >>= _) = _; rw [h3]; rfl)
    rcases optStr_eq (v := a.val s!!"attachment") with h5 | ⟨t, h5, h6⟩
    · exact .inl (by
          show (optStr (a.val s!!"name") >>= _) = _; rw [h1]
          show (optStr (a.val s!!"bone") >>= _) = _; rw [h3]
          show (optStr (a.val s!!"attachment") >>= _) = _; rw [h5]; rfl)
    rcases optStr_eq (v := a.val s!!"color") with h7 | ⟨c, h7, h8⟩
    · exact .inl (by
          show (optStr (a.val s!!"name") >>= _) = _; rw [h1]
          show (optStr (a.val s!!"bone") >>= _) = _; rw [h3]
          show (optStr (a.val s!!"attachment") >>= _) = _; rw [h5]
          show (optStr (a.val s!!"color") >>= _) = _; rw [h7]; rfl)
    refine .inr (.inr ⟨a, { name := s, bone := b, attachment := t, color := c, dark := a.val s!!"dark", blend := a.val s!!"blend" }, rfl, ?_, ?_⟩)
    · show (optStr (a.val s!!"name") >>= _) = _; rw [h1]
      show (optStr (a.val s!!"bone") >>= _) = _; rw [h3]
      show (optStr (a.val s!!"attachment") >>= _) = _; rw [h5]
      show (optStr (a.val s!!"color") >>= _) = _; rw [h7]; rfl
    · rintro tr rfl
      have h2' : JVal.str s = a.val s!!"name" := h2.symm
      unfold tSlot Slot.attrs
      simp only
      rw [← h4, ← h6, ← h8, h2']
      obtain ⟨d, _, _, e⟩ := Cls.init_ok hi
      congr 1
      rw [e]
      simp [slotCls, Attrs.val, Dict.get?]

theorem newSlot_makes : Makes B (newLeaf (F := F) .slot) Slot.init (fun x t => t = tSlot x) :=
  newSlot_makesA (A := B) (Nat.le_succ _)

theorem newKf_makes : Makes B (newLeaf (F := F) .slotKf) SlotKf.init (Pre 1 SlotKf.setDefaults tKf) := by
  refine (newLeaf_makes .slotKf).narrow (fun j => ?_)
  unfold SlotKf.init
  show _ ∨ (∃ e, slotKeyframeCls.init j = _ ∧ _) ∨ ∃ x y, slotKeyframeCls.init j = _ ∧ _
  cases hi : slotKeyframeCls.init j with
  | error e => exact .inr (.inl ⟨e, rfl, rfl⟩)
  | ok a =>
    rcases optStr_eq (v := a.val s!!"name") with h1 | ⟨s, h1, h2⟩
    · exact .inl (by show (optStr (a.val s!!"name") >>= _) = _; rw [h1]; rfl)
    · refine .inr (.inr ⟨a, { name := s, rest := a.without [s!!"name"] }, rfl, ?_, ?_⟩)
      · show (optStr (a.val s!!"name") >>= _) = _; rw [h1]; rfl
      · rintro t rfl
        have hx : a = (SlotKf.mk s (a.without [s!!"name"])).attrs := by
          unfold SlotKf.attrs
          simp only
          rw [← h2]
          obtain ⟨d, _, _, e⟩ := Cls.init_ok hi
          rw [e]
          simp [slotKeyframeCls, Attrs.without, Attrs.val, Dict.get?]
        have e1 : tAttrs .slotKf a = tKf (SlotKf.mk s (a.without [s!!"name"])) := by rw [tKf, ← hx]
        rw [e1]
        refine pre_kfKeys ?_
        rw [← hx, Cls.keys_init hi]
        exact leaf_slotKf.1

theorem newOffset_makes : Makes B (newLeaf (F := F) .offset) offsetInit (Pre 1 (fun _ x => x) tOffset) := by
  refine (newLeaf_makes .offset).narrow (fun j => ?_)
  unfold offsetInit
  show _ ∨ (∃ e, offsetCls.init j = _ ∧ _) ∨ ∃ x y, offsetCls.init j = _ ∧ _
  cases hi : offsetCls.init j with
  | error e => exact .inr (.inl ⟨e, rfl, rfl⟩)
  | ok a =>
    rcases optStr_eq (v := a.val s!!"slot") with h1 | ⟨s, h1, h2⟩
    · exact .inl (by show (optStr (a.val s!!"slot") >>= _) = _; rw [h1]; rfl)
    · cases ho : a.val s!!"offset" with
      | int i =>
        refine .inr (.inr ⟨a, (s.getD [], i), rfl, ?_, ?_⟩)
        · show (optStr (a.val s!!"slot") >>= _) = _; rw [h1]
          show (match a.val s!!"offset" with
            | .int i => _
            | _ => _) = _
          rw [ho]; rfl
        · rintro t rfl
          refine ⟨fun v => ?_, tAttrs_uniq (by rw [Cls.keys_init hi]; exact leaf_offset.1), tAttrs_height _ _⟩
          rw [tAttrs_sd leaf_offset, tOffset]
          have hx : a = [(s!!"slot", optJ s), (s!!"offset", .int i)] := by
            obtain ⟨d, _, _, e⟩ := Cls.init_ok hi
            rw [← h2, ← ho, e]
            simp [offsetCls, Attrs.val, Dict.get?]
          rw [hx]
          cases s <;> cases v <;> rfl
      | _ =>
        refine .inl ?_
        show (optStr (a.val s!!"slot") >>= _) = _; rw [h1]
        show (match a.val s!!"offset" with
            | .int i => _
            | _ => _) = _
        rw [ho]

/-- objects of plain attributes -/
theorem newLeaf_pre {t : Tag} (ht : t.Leaf F) : Makes B (newLeaf (F := F) t) t.cls.init (PA t) :=
  (newLeaf_makes t).imp (fun j a tr hj e => by subst e; exact pre_attrs ht (by rw [Cls.keys_init hj]; exact ht.1))

/-! ### Several fields -/

/-- the place of a result, seen from an earlier heap -/
theorem Rep.since {N : Nat → Prop} {h : Heap F} {r : Ref F} {t : Tree F} {n m k : Nat} (hr : Rep B N h r t (Btw n k)) (hm : m ≤ n) :
    Rep B N h r t (Btw m k) := hr.mono (fun _ ha => ⟨Nat.le_trans hm ha.1, ha.2⟩)

theorem bind_assocM {α β γ : Type} (m : M F α) (f : α → M F β) (g : β → M F γ) : (m >>= f) >>= g = m >>= fun x => f x >>= g := by
  funext h
  show (match (match m h with
    | (.ok x, h) => f x h
    | (.error e, h) => (.error e, h)) with
    | (.ok x, h) => g x h
    | (.error e, h) => (.error e, h)) = (match m h with
    | (.ok x, h) => (f x >>= g) h
    | (.error e, h) => (.error e, h))
  rcases m h with ⟨x | x, h'⟩ <;> rfl

/-- a step against two steps of the value model -/
theorem Step.bind2 {α β γ δ ε : Type} {N : Nat → Prop} {h : Heap F} {m : M F β} {v : Except Err ε} {w : ε → Except Err α}
    {P : α → β → (Nat → Prop) → Heap F → Prop} {k : β → M F δ} {kv : α → Except Err γ} {Q : γ → δ → (Nat → Prop) → Heap F → Prop}
    (hs : Step N h m (v >>= w) P)
    (hk : ∀ x y N' h', Ext N h Nil N' h' → P x y N' h' → Step N' h' (k y) (kv x) Q) :
    Step N h (m >>= k) (v >>= fun x => w x >>= kv) Q := by
  rw [← bind_assoc]
  exact hs.bind (fun x y N' h' _ => hk x y N' h')

theorem newSlotTl_makes : Makes B (newSlotTl (F := F)) SlotTl.init (Pre 3 SlotTl.setDefaults tSlotTl) := by
  intro N h r j hz hr
  unfold newSlotTl SlotTl.init
  refine (orDict_step hz hr).bind ?_
  rintro e d N1 h1 - e1 g1
  have c1 := Acc.start (B := B) e1.zone
  refine (getList_step newKf_makes e1.zone g1 s!!"attachment").bind2 ?_
  rintro xa ra N2 h2 e2 ⟨ta, t1, p1⟩
  have c2 := c1.snoc e2 s!!"attachment" p1
  have g2 := g1.ext e1.zone e2
  refine (getList_step newKf_makes e2.zone g2 s!!"color").bind2 ?_
  rintro xc rc N3 h3 e3 ⟨tc, t2, p2⟩
  have c3 := c2.snoc e3 s!!"color" p2
  have g3 := g2.ext e2.zone e3
  refine (getList_step newKf_makes e3.zone g3 s!!"twoColor").bind2 ?_
  rintro xt rt N4 h4 e4 ⟨tt, t3, p3⟩
  have c4 := c3.snoc e4 s!!"twoColor" p3
  have g4 := g3.ext e3.zone e4
  refine (check_step _ _ e4.zone g4).bind ?_
  rintro - - N5 h5 - e5 -
  obtain ⟨k1, k2⟩ := (c4.ext e5).alloc (.inst .slotTl)
  exact .ok run_alloc k1 ⟨_, pre_slotTl t1 t2 t3, k2.since e1.len⟩

theorem newBoneTl_makes : Makes B (newBoneTl (F := F)) BoneTl.init (Pre 3 BoneTl.setDefaults tBoneTl) := by
  intro N h r j hz hr
  unfold newBoneTl BoneTl.init
  refine (orDict_step hz hr).bind ?_
  rintro e d N1 h1 - e1 g1
  have c1 := Acc.start (B := B) e1.zone
  refine (getList_step (newLeaf_pre leaf_boneRotate) e1.zone g1 s!!"rotate").bind2 ?_
  rintro xa ra N2 h2 e2 ⟨ta, t1, p1⟩
  have c2 := c1.snoc e2 s!!"rotate" p1
  have g2 := g1.ext e1.zone e2
  refine (getList_step (newLeaf_pre leaf_boneTranslate) e2.zone g2 s!!"translate").bind2 ?_
  rintro xc rc N3 h3 e3 ⟨tc, t2, p2⟩
  have c3 := c2.snoc e3 s!!"translate" p2
  have g3 := g2.ext e2.zone e3
  refine (getList_step (newLeaf_pre leaf_boneRotate) e3.zone g3 s!!"scale").bind2 ?_
  rintro xt rt N4 h4 e4 ⟨tt, t3, p3⟩
  have c4 := c3.snoc e4 s!!"scale" p3
  have g4 := g3.ext e3.zone e4
  refine (getList_step (newLeaf_pre leaf_boneTranslate) e4.zone g4 s!!"shear").bind2 ?_
  rintro xs rs N5 h5 e5 ⟨ts, t4, p4⟩
  have c5 := c4.snoc e5 s!!"shear" p4
  have g5 := g4.ext e4.zone e5
  refine (check_step _ _ e5.zone g5).bind ?_
  rintro - - N6 h6 - e6 -
  obtain ⟨k1, k2⟩ := (c5.ext e6).alloc (.inst .boneTl)
  exact .ok run_alloc k1 ⟨_, pre_boneTl t1 t2 t3 t4, k2.since e1.len⟩

theorem newDraw_makes : Makes B (newDraw (F := F)) DrawTl.init (Pre 3 DrawTl.setDefaults tDraw) := by
  intro N h r j hz hr
  unfold newDraw DrawTl.init
  refine (orDict_step hz hr).bind ?_
  rintro e d N1 h1 - e1 g1
  have c1 := (Acc.start (B := B) e1.zone).leaf s!!"time" (g1.getD s!!"time" (JOk.int 0))
  refine (getList_step newOffset_makes e1.zone g1 s!!"offsets").bind2 ?_
  rintro xa ra N2 h2 e2 ⟨ta, t1, p1⟩
  have c2 := c1.snoc e2 s!!"offsets" p1
  have g2 := g1.ext e1.zone e2
  refine (check_step _ _ e2.zone g2).bind ?_
  rintro - - N6 h6 - e6 -
  obtain ⟨k1, k2⟩ := (c2.ext e6).alloc (.inst .draw)
  exact .ok run_alloc k1 ⟨_, pre_draw t1, k2.since e1.len⟩

theorem listOfLeaf_makes {t : Tag} (ht : t.Leaf F) : Makes B (listOf (newLeaf (F := F) t)) (Anim.listOf t.cls) (TL (PA t)) := listOf_makes (newLeaf_pre ht)

theorem newAnim_makes : Makes B (newAnim (F := F)) Anim.init (Pre 6 Anim.setDefaults tAnim) := by
  intro N h r j hz hr
  unfold newAnim Anim.init
  refine (orDict_step hz hr).bind ?_
  rintro e d N1 h1 - e1 g1
  have c1 := Acc.start (B := B) e1.zone
  refine (getDict_step (listOfLeaf_makes leaf_ikTl) e1.zone g1 s!!"ik").bind ?_
  rintro x1 r1 N2 h2 - e2 ⟨ta, t1, p1⟩
  have c2 := c1.snoc e2 s!!"ik" p1
  have g2 := g1.ext e1.zone e2
  refine (getList_step newDraw_makes e2.zone g2 s!!"drawOrder").bind2 ?_
  rintro x2 r2 N3 h3 e3 ⟨tc, t2, p2⟩
  have c3 := c2.snoc e3 s!!"drawOrder" p2
  have g3 := g2.ext e2.zone e3
  refine (getDict_step newBoneTl_makes e3.zone g3 s!!"bones").bind ?_
  rintro x3 r3 N4 h4 - e4 ⟨tt, t3, p3⟩
  have c4 := c3.snoc e4 s!!"bones" p3
  have g4 := g3.ext e3.zone e4
  refine (getDict_step newSlotTl_makes e4.zone g4 s!!"slots").bind ?_
  rintro x4 r4 N5 h5 - e5 ⟨ts, t4, p4⟩
  have c5 := c4.snoc e5 s!!"slots" p4
  have g5 := g4.ext e4.zone e5
  refine (getList_step (newLeaf_pre leaf_eventTl) e5.zone g5 s!!"events").bind2 ?_
  rintro x5 r5 N6 h6 e6 ⟨te, t5, p5⟩
  have c6 := c5.snoc e6 s!!"events" p5
  have g6 := g5.ext e5.zone e6
  refine (getDict_step (listOfLeaf_makes leaf_transformTl) e6.zone g6 s!!"transform").bind ?_
  rintro x6 r6 N7 h7 - e7 ⟨tf, t6, p6⟩
  have c7 := c6.snoc e7 s!!"transform" p6
  have g7 := g6.ext e6.zone e7
  rw [← bind_assocM]
  have m7 : Makes B (dictOf (dictOf (listOf (newLeaf (F := F) .pathTl)))) Anim.parsePath (TD (TD (TL (PA .pathTl)))) :=
    dictOf_makes (dictOf_makes (listOfLeaf_makes leaf_pathTl))
  refine (getOrNew_step m7 e7.zone g7 s!!"path").bind ?_
  rintro x7 r7 N8 h8 - e8 ⟨tg, t7, p7⟩
  have c8 := c7.snoc e8 s!!"path" p7
  have g8 := g7.ext e7.zone e8
  rw [← bind_assocM]
  have m8 : Makes B (dictOf (dictOf (dictOf (listOf (newLeaf (F := F) .deform))))) Anim.parseDeform (TD (TD (TD (TL (PA .deform))))) :=
    dictOf_makes (dictOf_makes (dictOf_makes (listOfLeaf_makes leaf_deform)))
  refine (getOrNew_step m8 e8.zone g8 s!!"deform").bind ?_
  rintro x8 r8 N9 h9 - e9 ⟨th, t8, p8⟩
  have c9 := c8.snoc e9 s!!"deform" p8
  have g9 := g8.ext e8.zone e9
  refine (check_step _ _ e9.zone g9).bind ?_
  rintro - - N10 h10 - e10 -
  obtain ⟨k1, k2⟩ := (c9.ext e10).alloc (.inst .anim)
  exact .ok run_alloc k1 ⟨_, pre_anim t1 t2 t3 t4 t5 t6 t7 t8, k2.since e1.len⟩

end Alias
end Spine
