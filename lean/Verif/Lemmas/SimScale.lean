import Verif.Lemmas.SimGraph
/-
`scale_animation`, the loop of `erase_animations` and the table of images on the heap.
-/
set_option linter.unusedSectionVars false
namespace Spine
namespace Alias
open M
variable {F : Type} [PyRt F] {B : Nat} {N : Nat → Prop} {h : Heap F}

/-! ### erase_animations -/

/-- `_erase_raw_animations_data` -/
theorem eraseRaw_does : ∀ (ns : List Str) (x : AnimData F), DoesR B tData (fun r => eraseRaw r ns)
    (fun a => (.ok (Editor.eraseRaw ns a.animations).2, { a with animations := (Editor.eraseRaw ns a.animations).1 })) x
  | [], x => fun N h r S hz hr => ⟨N, h, rfl, .refl hz _, hr.mono (fun _ ha => .inl ha)⟩
  | n :: ns, x => by
    intro N h r S hz hr
    show ∃ N' h', eraseRaw r (n :: ns) h = _ ∧ _
    obtain ⟨w, T, e1, r1, s1, g1, _⟩ := hr.attr hz (k := s!!"animations") (t := tdict tAnim x.animations) rfl
    obtain ⟨rs, U, e2, k2, _⟩ := r1.items
    have hh : Dict.has rs n = Dict.has x.animations n := by
      rw [repK_has k2, Bool.eq_iff_iff, Dict.has_iff_mem_keys, Dict.has_iff_mem_keys, keys_dmap]
    simp only
    unfold eraseRaw Editor.eraseRaw
    rw [run_bind e1, run_bind e2]
    by_cases hc : Dict.has x.animations n = true
    · simp only [hh, hc, if_true]
      obtain ⟨h3, e3, x3, r3⟩ := r1.del hz (k := n) (by
        rw [Dict.has_iff_mem_keys, keys_dmap, ← Dict.has_iff_mem_keys]; exact hc)
      have hd : Dict.del (dmap tAnim x.animations) n = dmap tAnim (Dict.del x.animations n) := (dmap_filter tAnim x.animations (fun k => decide (k ≠ n))).symm
      rw [hd] at r3
      have r4 : Rep B N h3 r (tData { x with animations := Dict.del x.animations n }) (Grown S h) := g1 N h3 _ x3 r3
      have x4 : Ext N h S N h3 := x3.mono (fun a ha _ => (s1 a ha).1)
      obtain ⟨N5, h5, e5, x5, r5⟩ := eraseRaw_does ns _ N h3 r _ x3.zone r4
      refine ⟨N5, h5, ?_, x4.grown x5, r5.mono (grown_grown x4.len)⟩
      rw [run_bind e3]
      exact e5
    · simp only [hh, hc]
      obtain ⟨N5, h5, e5, x5, r5⟩ := eraseRaw_does ns x N h r _ hz hr
      refine ⟨N5, h5, ?_, x5, r5⟩
      simp only [Bool.false_eq_true, if_false]
      rw [run_bind e5]
      rfl

/-! ### scale_animation -/

theorem JOk.flt {N : Nat → Prop} {h : Heap F} (s : F) : JOk B N h (.flt s) (.flt s) :=
  ⟨(fun _ ha => nomatch ha), readJ_iff.mpr (.flt s)⟩

/-- a product in place, of anything but a list -/
theorem imul_run {x : Ref F} {j : JVal F} (hj : readJ h B x = some j) (hl : ∀ l, j ≠ .list l) (n : Num F) :
    match pyMul j n with
    | .error e => imul x n h = (.error e, h)
    | .ok v => ∃ y, imul x n h = (.ok y, h) ∧ ∀ N h', JOk B N h' y v := by
  cases readJ_iff.mp hj with
  | null => cases n <;> rfl
  | bool b =>
    cases n with
    | int i => exact ⟨_, rfl, fun _ _ => .int _⟩
    | flt f =>
      simp only [pyMul, imul, imul.scalar]
      cases PyRt.fofInt (F := F) (JVal.boolInt b) with
      | none => rfl
      | some f => exact ⟨_, rfl, fun _ _ => .flt _⟩
  | int b =>
    cases n with
    | int i => exact ⟨_, rfl, fun _ _ => .int _⟩
    | flt f =>
      simp only [pyMul, imul, imul.scalar]
      cases PyRt.fofInt (F := F) b with
      | none => rfl
      | some f => exact ⟨_, rfl, fun _ _ => .flt _⟩
  | flt b =>
    cases n with
    | flt i => exact ⟨_, rfl, fun _ _ => .flt _⟩
    | int f =>
      simp only [pyMul, imul, imul.scalar]
      cases PyRt.fofInt (F := F) f with
      | none => rfl
      | some f => exact ⟨_, rfl, fun _ _ => .flt _⟩
  | str b =>
    cases n with
    | int i => exact ⟨_, rfl, fun _ _ => .str _⟩
    | flt f => rfl
  | list a l js ho h2 => exact absurd rfl (hl js)
  | dict a l js ho h2 =>
    have : imul (.ptr a) n h = (.error .type, h) := by
      unfold imul
      simp only [run_bind (run_deref ho)]
      rfl
    cases n <;> exact this

theorem bone_get {b : Bone F} (hb : Bone.Good b) {k : Str} (hk : k ∈ (boneCls (F := F)).attrs) (h1 : k ≠ s!!"name") (h2 : k ≠ s!!"parent") :
    Dict.get? b.attrs k = some (b.rest.val k) := by
  have h3 : Dict.get? b.attrs k = Dict.get? b.rest k := by
    unfold Bone.attrs
    simp only [Dict.get?, Ne.symm h1, Ne.symm h2, if_false]
  have h4 : k ∈ Dict.keys b.attrs := by rw [hb]; exact hk
  rw [← Dict.has_iff_mem_keys] at h4
  unfold Dict.has at h4
  rw [h3] at h4 ⊢
  unfold Attrs.val
  cases hg : Dict.get? b.rest k with
  | none => rw [hg] at h4; cases h4
  | some v => rfl

theorem bone_set (b : Bone F) {k : Str} (h1 : k ≠ s!!"name") (h2 : k ≠ s!!"parent") (v : JVal F) :
    Dict.set b.attrs k v = Bone.attrs { b with rest := Dict.set b.rest k v } := by
  unfold Bone.attrs
  simp only [Dict.set, Ne.symm h1, Ne.symm h2, if_false]

/-- unless the value model gives up -/
def DoesX (B : Nat) {α : Type} (T : α → Tree F) (f : Ref F → M F Unit) (g : α → Res α Unit) (x : α) : Prop :=
  (g x).1 ≠ .error .unmodelled → Does B T f g x

/-- `Bone.scale` -/
theorem scaleBone_does (sx sy : Num F) (b : Bone F) (hb : Bone.Good b) : DoesX B tBone (scaleBone sx sy) (Bone.scale sx sy) b := by
  intro hne N h r S hz hr
  have kx := bone_get hb (k := s!!"scaleX") (by simp [boneCls]) (by decide) (by decide)
  have ky := bone_get hb (k := s!!"scaleY") (by simp [boneCls]) (by decide) (by decide)
  obtain ⟨x, e1, i1, j1⟩ := hr.getLeaf hz kx
  have hlx : ∀ l, b.rest.val s!!"scaleX" ≠ .list l := by
    intro l hl
    apply hne
    unfold Bone.scale
    rw [hl]
  have hly : ∀ l, b.rest.val s!!"scaleY" ≠ .list l := by
    intro l hl
    apply hne
    unfold Bone.scale
    rw [hl]
    cases hx : b.rest.val s!!"scaleX" <;> rfl
  have hs : Bone.scale sx sy b = (match pyMul (b.rest.val s!!"scaleX") sx with
      | .error e => (.error e, b)
      | .ok x' =>
        let b' := { b with rest := Dict.set b.rest s!!"scaleX" x' }
        match pyMul (b.rest.val s!!"scaleY") sy with
        | .error e => (.error e, b')
        | .ok y' => (.ok (), { b' with rest := Dict.set b'.rest s!!"scaleY" y' })) := by
    unfold Bone.scale
    split
    · rename_i hl; exact absurd hl (hlx _)
    · rename_i hl _; exact absurd hl (hly _)
    · rfl
  have m1 := imul_run j1 hlx sx
  rw [hs]
  unfold scaleBone
  rw [run_bind e1]
  cases hp : pyMul (b.rest.val s!!"scaleX") sx with
  | error e =>
    simp only [hp] at m1
    exact ⟨N, h, by rw [run_fail m1], .refl hz _, hr.mono (fun _ ha => .inl ha)⟩
  | ok x' =>
    simp only [hp] at m1
    obtain ⟨y, e2, jy⟩ := m1
    obtain ⟨h3, e3, x3, r3⟩ := hr.setLeaf hz (k := s!!"scaleX") (jy N h).1 (jy N h).2
    rw [bone_set b (by decide) (by decide)] at r3
    have ky' : Dict.get? (Bone.attrs { b with rest := Dict.set b.rest s!!"scaleX" x' }) s!!"scaleY" = some (b.rest.val s!!"scaleY") := by
      rw [← bone_set b (by decide) (by decide), Dict.get?_set, if_neg (by decide)]
      exact ky
    obtain ⟨z, e4, i4, j4⟩ := r3.getLeaf x3.zone ky'
    have m2 := imul_run j4 hly sy
    rw [run_bind e2, run_bind e3, run_bind e4]
    simp only
    cases hq : pyMul (b.rest.val s!!"scaleY") sy with
    | error e =>
      simp only [hq] at m2
      exact ⟨N, h3, by rw [run_fail m2], x3, r3.mono (fun _ ha => .inl ha)⟩
    | ok y' =>
      simp only [hq] at m2
      obtain ⟨w, e5, jw⟩ := m2
      obtain ⟨h6, e6, x6, r6⟩ := r3.setLeaf x3.zone (k := s!!"scaleY") (jw N h3).1 (jw N h3).2
      rw [bone_set _ (by decide) (by decide)] at r6
      exact ⟨N, h6, by rw [run_bind e5, e6], x3.trans x6 (fun _ ha _ => ha), r6.mono (fun _ ha => .inl ha)⟩

theorem noInherit_run {b : Bone F} (hb : Bone.Good b) {r : Ref F} {S : Nat → Prop} (hz : Zone N h) (hr : Rep B N h r (tBone b) S) :
    noInherit r h = (.ok (Editor.noInherit b), h) := by
  obtain ⟨x, e1, i1, j1⟩ := hr.getLeaf hz (bone_get hb (k := s!!"transform") (by simp [boneCls]) (by decide) (by decide))
  unfold noInherit Editor.noInherit
  rw [run_bind e1]
  generalize b.rest.val s!!"transform" = v at *
  cases readJ_iff.mp j1 <;> rfl

theorem boneNamed_run {n : Str} {b : Bone F} {r : Ref F} {S : Nat → Prop} (hz : Zone N h) (hr : Rep B N h r (tBone b) S) :
    named n r h = (.ok (b.name == n), h) := by
  obtain ⟨x, e1, i1, j1⟩ := hr.getLeaf (k := s!!"name") (j := .str b.name) hz rfl
  unfold named
  rw [run_bind e1]
  cases readJ_iff.mp j1
  rfl

theorem each_doesX {α : Type} {T : α → Tree F} {f : Ref F → M F Unit} {g : α → Res α Unit} : ∀ {l : List α} {N : Nat → Prop} {h : Heap F} {rs : Dict (Ref F)} {S : Nat → Prop},
    (∀ x ∈ l, DoesX B T f g x) → (mapMut g l).1 ≠ .error .unmodelled → Zone N h → RepK B N h rs (l.map (fun x => ([], T x))) S →
    ∃ N' h', each f (rs.map (·.2)) h = ((mapMut g l).1, h') ∧ Ext N h S N' h' ∧ RepK B N' h' rs ((mapMut g l).2.map (fun x => ([], T x))) (Grown S h)
  | [], N, h, rs, S, _, _, hz, hr => by
    cases hr
    exact ⟨N, h, rfl, .refl hz _, .nil _⟩
  | x :: l, N, h, rs, S, hf, hne, hz, hr => by
    cases hr.bound with
    | cons _ r _ rs _ U1 U2 _ u1 u2 u3 u4 u5 =>
      have hx : (g x).1 ≠ .error .unmodelled := by
        intro hc
        apply hne
        unfold mapMut
        generalize g x = q at *
        obtain ⟨o, y⟩ := q
        simp only at hc
        subst hc
        rfl
      obtain ⟨N1, h1, e1, x1, r1⟩ := hf x (by simp) hx N h r U1 hz u1
      have x1' : Ext N h S N1 h1 := x1.mono (fun a ha _ => (u4 a ha).1)
      have u2' := u2.bound.frame hz x1 (fun a ha hb hl => u3 a ha hb.1)
      unfold mapMut at hne ⊢
      generalize g x = q at *
      obtain ⟨o, y⟩ := q
      have dis : ∀ a, Grown U1 h a → U2 a ∧ a < h.length → False := by
        rintro a (ha | ha) hb
        · exact u3 a ha hb.1
        · have := hb.2; omega
      cases o with
      | error e =>
        refine ⟨N1, h1, each_cons_error e1, x1', ?_⟩
        exact .cons _ _ _ _ _ _ _ _ r1 u2' dis (fun a ha => ha.imp (fun h => (u4 a h).1) id) (fun a ha => .inl (u5 a ha.1).1)
      | ok u =>
        have hne' : (mapMut g l).1 ≠ .error .unmodelled := by
          intro hc
          apply hne
          simp only
          generalize mapMut g l = q at *
          obtain ⟨o, m⟩ := q
          simp only at hc
          subst hc
          rfl
        obtain ⟨N2, h2, e2, x2, r2⟩ := each_doesX (fun y hy => hf y (by simp [hy])) hne' x1.zone u2'
        refine ⟨N2, h2, ?_, ?_, ?_⟩
        · simp only [List.map_cons]
          rw [each_cons_ok (h1 := h1)]
          · rw [e2]
          · exact e1
        · exact x1'.trans x2 (fun a ha _ => (u5 a ha.1).1)
        · have goal : RepK B N2 h2 (([], r) :: rs) ((y :: (mapMut g l).2).map (fun x => ([], T x))) (Grown S h) := by
            refine .cons _ _ _ _ _ (fun a => Grown U1 h a ∧ a < h1.length) _ _ (r1.bound.frame x1.zone x2 ?_) r2 ?_ ?_ ?_
            · intro a ha hb _
              exact dis a hb.1 ha
            · rintro a ha (hb | hb)
              · exact dis a ha.1 hb
              · have := ha.2; omega
            · intro a ha; exact ha.1.imp (fun h => (u4 a h).1) id
            · rintro a (ha | ha)
              · exact .inl (u5 a ha.1).1
              · exact .inr (Nat.le_trans x1.len ha)
          exact goal

/-- the first element with a name -/
theorem first_does {f : Ref F → M F Unit} {g : Bone F → Res (Bone F) Unit} {n : Str} : ∀ {zs : List (Ref F × Bone F)} {N : Nat → Prop} {h : Heap F} {S : Nat → Prop},
    (∀ z ∈ zs, DoesX B tBone f g z.2) → (Editor.onFirst n g (zs.map (·.2))).1 ≠ .error .unmodelled → Zone N h →
    RepK B N h (zs.map (fun z => ([], z.1))) (zs.map (fun z => ([], tBone z.2))) S →
    ∃ N' h', (match (zs.filter (fun z : Ref F × Bone F => z.2.name == n)).map (fun z : Ref F × Bone F => z.1) with
        | [] => raise .attribute
        | b :: _ => f b) h = ((Editor.onFirst n g (zs.map (·.2))).1, h') ∧ Ext N h S N' h' ∧
      RepK B N' h' (zs.map (fun z => ([], z.1))) ((Editor.onFirst n g (zs.map (·.2))).2.map (fun b => ([], tBone b))) (Grown S h)
  | [], N, h, S, _, _, hz, hr => ⟨N, h, rfl, .refl hz _, .nil _⟩
  | z :: zs, N, h, S, hf, hne, hz, hr => by
    simp only [List.map_cons] at hr
    cases hr.bound with
    | cons _ r _ rs _ U1 U2 _ u1 u2 u3 u4 u5 =>
      by_cases hn : z.2.name = n
      · simp only [List.map_cons, Editor.onFirst, if_pos hn] at hne ⊢
        obtain ⟨N1, h1, e1, x1, r1⟩ := hf z (by simp) hne N h z.1 U1 hz u1
        have u2' := u2.bound.frame hz x1 (fun a ha hb hl => u3 a ha hb.1)
        refine ⟨N1, h1, ?_, x1.mono (fun a ha _ => (u4 a ha).1), ?_⟩
        · simp only [List.filter_cons, hn, BEq.rfl, if_true, List.map_cons]
          exact e1
        · simp only [List.map_map, Function.comp_def]
          refine .cons _ _ _ _ _ _ _ _ r1 u2' ?_ (fun a ha => ha.imp (fun h => (u4 a h).1) id) (fun a ha => .inl (u5 a ha.1).1)
          rintro a (ha | ha) hb
          · exact u3 a ha hb.1
          · have := hb.2; omega
      · simp only [List.map_cons, Editor.onFirst, if_neg hn] at hne ⊢
        obtain ⟨N1, h1, e1, x1, r1⟩ := first_does (fun y hy => hf y (by simp [hy])) hne hz u2
        refine ⟨N1, h1, ?_, x1.mono (fun a ha _ => (u5 a ha).1), ?_⟩
        · have hb : (z.2.name == n) = false := by simp [hn]
          simp only [List.filter_cons, hb]
          exact e1
        · refine .cons _ _ _ _ _ _ _ _ (u1.bound.frame hz x1 (fun a ha hb _ => u3 a hb.1 ha)) r1 ?_ (fun a ha => .inl (u4 a ha.1).1) (fun a ha => ha.imp (fun h => (u5 a h).1) id)
          rintro a ha (hb | hb)
          · exact u3 a ha.1 hb
          · have := ha.2; omega

theorem RepK.each {α : Type} {T : α → Tree F} {zs : List (Ref F × α)} {S : Nat → Prop}
    (hr : RepK B N h (zs.map (fun z => ([], z.1))) (zs.map (fun z => ([], T z.2))) S) : ∀ z ∈ zs, ∃ S', Rep B N h z.1 (T z.2) S' := by
  intro z hz
  have h3 := All₂.map_left.mp (hr.all₂ (key := fun _ => []) (T := fun z : Ref F × α => T z.2))
  obtain ⟨i, hi, rfl⟩ := List.getElem_of_mem hz
  exact (h3.get i hi hi).2

/-- what `scale_animation` does to the data -/
def scaleData (sx sy : Num F) (a : AnimData F) : Res (AnimData F) Unit :=
  match mapMut (fun b => if Editor.noInherit b then b.scale sx sy else (.ok (), b)) a.bones with
  | (.error x, bs) => (.error x, { a with bones := bs })
  | (.ok _, bs) =>
    let q := Editor.onFirst s!!"root" (Bone.scale sx sy) bs
    (q.1, { a with bones := q.2 })

theorem scale_eq (sx sy : Num F) (e : Editor F) : Editor.scale sx sy e = ((scaleData sx sy e.data).1, e.withData (scaleData sx sy e.data).2) := by
  unfold Editor.scale scaleData
  generalize mapMut _ _ = q
  obtain ⟨o, bs⟩ := q
  cases o <;> rfl

theorem good_mapMut (sx sy : Num F) : ∀ (l : List (Bone F)), (∀ b ∈ l, Bone.Good b) →
    ∀ b ∈ (mapMut (fun b => if Editor.noInherit b then b.scale sx sy else (.ok (), b)) l).2, Bone.Good b := by
  intro l hl
  refine Editor.mapMut_good _ (fun b hb => ?_) l hl
  split
  · exact Editor.good_scale sx sy b hb
  · exact hb

/-- `scale_animation` -/
theorem scale_does (sx sy : Num F) (x : AnimData F) (hb : ∀ b ∈ x.bones, Bone.Good b) : DoesX B tData (scale sx sy) (scaleData sx sy) x := by
  intro hne N h r S hz hr
  obtain ⟨l, T, e1, r1, s1, k1, _⟩ := hr.attr hz (k := s!!"bones") (t := tlist tBone x.bones) rfl
  obtain ⟨rs, U, e2, k2, s2, g2⟩ := r1.elems
  have hg := good_mapMut sx sy x.bones hb
  have hm : (mapMut (fun b => if Editor.noInherit b then b.scale sx sy else (.ok (), b)) x.bones).1 ≠ .error .unmodelled := by
    intro hc
    apply hne
    unfold scaleData
    generalize mapMut _ _ = q at *
    obtain ⟨o, bs⟩ := q
    simp only at hc
    subst hc
    rfl
  obtain ⟨N3, h3, e3, x3, r3⟩ := each_doesX (f := fun b => do if ← noInherit b then scaleBone sx sy b else return ()) (fun b hbm => by
    intro hu N h r S hz hr
    show ∃ N' h', (noInherit r >>= fun c => if c = true then scaleBone sx sy r else pure ()) h = _ ∧ _
    rw [run_bind (noInherit_run (hb b hbm) hz hr)]
    simp only at hu ⊢
    cases hi : Editor.noInherit b with
    | true =>
      simp only [hi, if_true] at hu ⊢
      exact scaleBone_does sx sy b (hb b hbm) hu N h r S hz hr
    | false =>
      simp only [Bool.false_eq_true, if_false]
      exact ⟨N, h, rfl, .refl hz _, hr.mono (fun _ ha => .inl ha)⟩) hm hz k2
  have x3' : Ext N h T N3 h3 := x3.mono (fun a ha _ => (s2 a ha).1)
  unfold scaleData at hne ⊢
  unfold scale
  simp only at hne ⊢
  rw [run_bind e1, run_bind e2]
  generalize mapMut _ _ = q at *
  obtain ⟨o, bs⟩ := q
  cases o with
  | error e =>
    refine ⟨N3, h3, ?_, x3'.mono (fun a ha _ => (s1 a ha).1), k1 N3 h3 _ x3' (g2 N3 h3 _ x3 r3)⟩
    exact run_fail e3
  | ok u =>
    simp only at hne ⊢
    obtain ⟨zs, z1, z2⟩ := r3.zipped
    subst z1
    simp only at z2
    subst z2
    rw [List.map_map] at r3
    simp only [List.map_map, Function.comp_def] at e3
    obtain ⟨N4, h4, e4, x4, r4⟩ := first_does (f := scaleBone sx sy) (fun z hz => scaleBone_does sx sy z.2 (hg z.2 (List.mem_map_of_mem hz))) hne x3.zone r3
    have e5 : filterL (named s!!"root") (zs.map (·.1)) h3 = (.ok ((zs.filter (fun z => z.2.name == s!!"root")).map (·.1)), h3) := filterL_run (by
      intro z hzz
      obtain ⟨S', hs⟩ := RepK.each r3 z hzz
      exact boneNamed_run x3.zone hs)
    refine ⟨N4, h4, ?_, ?_, ?_⟩
    · simp only [List.map_map, Function.comp_def]
      rw [run_bind e3, run_bind e5]
      exact e4
    · exact (x3'.mono (fun a ha _ => (s1 a ha).1)).trans x4 (fun a ha hl => (s1 a (s2 a (ha.resolve_right (by omega))).1).1)
    · exact k1 N4 h4 _ (x3'.trans x4 (fun a ha hl => (s2 a (ha.resolve_right (by omega))).1)) (g2 N4 h4 _ (x3.grown x4) (r4.mono (grown_grown x3.len)))

end Alias
end Spine
