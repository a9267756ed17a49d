import Verif.Lemmas.SimEditor
/-
The constructor of the editor on the heap against `Editor.load`.
-/
set_option linter.unusedSectionVars false
namespace Spine
namespace Alias
open M Editor
variable {F : Type} [PyRt F] {B : Nat} {N : Nat → Prop} {h : Heap F}

theorem DocApart.ext {N' : Nat → Prop} {h' : Heap F} {S : Nat → Prop} {r : Ref F} (hz : Zone N h) (e : Ext N h S N' h') (hr : In N r)
    (ha : DocApart h r) : DocApart h' r := by
  intro b d w hr' ho hw
  have hb := hr b hr'
  rw [e.keepN hz b hb] at ho
  exact ListApart.ext hz e (hz.closed b _ hb ho w (List.mem_map_of_mem (Dict.mem_of_get? hw))) (ha b d w hr' ho hw)

/-- subscription of anything but a dictionary -/
theorem subscript_type {r : Ref F} {j : JVal F} (hr : readJ h B r = some j) (hj : ∀ d, j ≠ .dict d) (k : Str) : subscript r k h = (.error .type, h) := by
  cases readJ_iff.mp hr with
  | null => rfl
  | bool b => rfl
  | int b => rfl
  | flt b => rfl
  | str s => rfl
  | list a l js ho h2 =>
    unfold subscript
    simp only [run_bind (run_deref ho)]
    rfl
  | dict a l js ho h2 => exact absurd rfl (hj _)

/-- the part of the document -/
theorem subscript_any (hz : Zone N h) {r : Ref F} {j : JVal F} (hr : JOk B N h r j) (k : Str) :
    Step N h (subscript r k) (match j with | .dict d => getItem d k | _ => .error .type) (fun x y N' h' => N' = N ∧ h' = h ∧ JOk B N h y x) := by
  cases j with
  | dict d =>
    obtain ⟨a, d', rfl, _, ho, hf⟩ := hr.dict hz
    exact (subscript_step hz ho hf k).imp (fun x y N' h' _ _ hp => ⟨hp.1, hp.2.1, hp.2.2.1⟩)
  | _ => exact .error (subscript_type hr.2 (by simp) k) (.refl hz _)

/-- steps that cannot fail -/
theorem Step.jump {α β : Type} {m m' : M F β} {w : Except Err α} {P : α → β → (Nat → Prop) → Heap F → Prop} {N' : Nat → Prop} {h' : Heap F} (hm : m h = m' h')
    (e : Ext N h Nil N' h') (hs : Step N' h' m' w P) : Step N h m w P := by
  cases w with
  | ok x =>
    obtain ⟨y, N2, h2, g1, g2, g3⟩ := hs
    exact ⟨y, N2, h2, hm.trans g1, e.trans g2 (fun _ h _ => h), g3⟩
  | error x =>
    by_cases hx : x = .unmodelled
    · subst hx; trivial
    · obtain ⟨N2, h2, g1, g2⟩ := hs.of_error hx
      exact .error (hm.trans g1) (e.trans g2 (fun _ h _ => h))

/-- the version as read -/
theorem str_of (hr : JOk B N h r j) : (∃ s, r = .str s ∧ j = .str s) ∨ ((∀ s, r ≠ .str s) ∧ ∀ s, j ≠ .str s) := by
  cases readJ_iff.mp hr.2 with
  | str s => exact .inl ⟨s, rfl, rfl⟩
  | _ => exact .inr ⟨by simp, by simp⟩

/-- **the constructor** -/
theorem init_sim {E : Env F} (hm : 8 + B ≤ E.lim) (hz : Zone N h) (hc : Consts B E N h) {doc : Ref F} {v : JVal F} (hr : JOk B N h doc v)
    (hp : v.Proper) (ha : DocApart h doc) : Step N h (init E doc) (Editor.load v) (fun v' e N' h' => Holds B E N' h' e v') := by
  have hB : B ≤ E.lim := by omega
  have hfine : Fine (fun _ => True) v := ⟨hp, floatsAre_true _⟩
  unfold init
  cases v with
  | dict d =>
    have hload : Editor.load (.dict d) = (do
        let sk ← getItem d s!!"skeleton"
        match sk with
        | .dict sk => do
          let v ← getItem sk s!!"spine"
          match v with
          | .str v => do
            let ver ← Version.mk? F v
            let a ← AnimData.init d
            let s : SpineDoc F := { skeleton := sk, version := ver, data := a.setDefaults ver.is38 }
            let im ← imagesReferences s
            let g ← SpineNodes.create s.toJson
            return { doc := s, images := im, graph := g }
          | _ => .error .attribute
        | _ => .error .type) := by
      unfold Editor.load SpineDoc.load
      simp only
      cases getItem d s!!"skeleton" with
      | error x => rfl
      | ok sk =>
        cases sk with
        | dict sk =>
          simp only [bind, Except.bind]
          cases getItem sk s!!"spine" with
          | error x => rfl
          | ok sp =>
            cases sp with
            | str s =>
              simp only
              cases Version.mk? F s with
              | error x => rfl
              | ok ver =>
                simp only
                cases AnimData.init d with
                | error x => rfl
                | ok a =>
                  simp only [pure, Except.pure]
                  cases imagesReferences ({ skeleton := sk, version := ver, data := a.setDefaults ver.is38 } : SpineDoc F) with
                  | error x => rfl
                  | ok im =>
                    simp only
                    cases SpineNodes.create ({ skeleton := sk, version := ver, data := a.setDefaults ver.is38 } : SpineDoc F).toJson <;> rfl
            | _ => rfl
        | _ => rfl
    rw [hload]
    refine (subscript_any hz hr s!!"skeleton").bind ?_
    rintro sj sr N h hsj _ ⟨rfl, rfl, hsk⟩
    obtain ⟨sk', N1, h1, run1, e1, hsk1⟩ := copyJ (E := E) hB hz hsk
    refine Step.jump (run_bind run1) e1 ?_
    cases sj with
    | dict skd =>
      refine (subscript_any e1.zone hsk1 s!!"spine").bind ?_
      rintro vj vr N1 h1 hvj _ ⟨rfl, rfl, hv⟩
      rcases str_of hv with ⟨s, rfl, rfl⟩ | ⟨n1, n2⟩
      · simp only
        refine (Step.lift e1.zone).bind ?_
        rintro ver _ N2 h2 hver e2 rfl
        have e12 : Ext N h Nil N2 h2 := e1.trans e2 (fun _ h _ => h)
        have hsk2 := hsk1.ext e1.zone e2
        simp only at hsj hvj
        have hhas : Dict.has d s!!"skeleton" = true := by
          unfold getItem at hsj
          unfold Dict.has
          cases hg : Dict.get? d s!!"skeleton" with
          | none => rw [hg] at hsj; cases hsj
          | some x => rfl
        have hnew := newData_step (E := E) hB e2.zone (hr.ext hz e12) hfine (ha.ext hz e12 hr.1) hhas
        cases hinit : AnimData.init d with
        | error x =>
          rw [hinit] at hnew
          by_cases hx : x = .unmodelled
          · subst hx; exact .skip
          · obtain ⟨N3, h3, run3, e3⟩ := hnew.of_error hx
            exact .error (run_fail run3) e3
        | ok a =>
          rw [hinit] at hnew
          obtain ⟨data, N3, h3, run3, e3, t, hpre, hrep⟩ := hnew.of_ok
          obtain ⟨N4, h4, run4, e4, r4⟩ := setDefaults_sim (E := E) (v38 := ver.is38) (by have := hpre.height; omega) hpre.uniq e3.zone
            ((hc.ext hz e12).ext e2.zone e3) hrep
          rw [hpre.sd] at r4
          have e34 : Ext N2 h2 Nil N4 h4 := e3.trans e4 (fun b hb hl => by have := hb.1; omega)
          have hdoc : SpineDoc.load (.dict d) = .ok { skeleton := skd, version := ver, data := a.setDefaults ver.is38 } := by
            unfold SpineDoc.load
            simp only [hsj, hvj, hver, hinit, bind, Except.bind]
            rfl
          have hok := SpineDoc.ok_load (q := fun _ => True) trivial hfine hdoc
          have hgood : AnimData.Good true a := AnimData.good_init hinit (fun _ _ _ _ => .inl rfl)
          have hfit : (a.setDefaults ver.is38).Fit :=
            ⟨good_map (G := Bone.Good) (fun _ => Bone.good_setDefaults _) hgood.bones,
              fun s hs p hp q hq => fit_good (good_map (G := Skin.Good) (fun _ => Skin.good_setDefaults _) hgood.skins s hs p hp q hq)⟩
          refine Step.jump ((run_bind run3).trans (run_bind run4)) e34 ?_
          have hsk4 := hsk2.ext e2.zone e34
          have hc4 := ((hc.ext hz e12).ext e2.zone e3).ext e3.zone e4
          refine (newImages_step (E := E) (s := { skeleton := skd, version := ver, data := a.setDefaults ver.is38 }) hB e34.zone hok.data hfit r4 hsk4).bind ?_
          rintro im imr N5 h5 him e5 ⟨_, rfl, r5⟩
          have r4' := r4.bound.keep e34.zone e5
          obtain ⟨j, N6, h6, run6, e6, j6⟩ := toJsonData_run (E := E) hm e5.zone (pre_dataOk hok.data).height r4' (hsk4.ext e34.zone e5) ver
          refine Step.jump (run_bind run6) e6 ?_
          have r6 := r4'.keep e5.zone e6
          obtain ⟨s1, s2, s3⟩ := shallow_data e6.zone r6 ver.is38
          refine (newGraph_step (E := E) hm e6.zone (s := { skeleton := skd, version := ver, data := a.setDefaults ver.is38 }) j6 s1 s2 s3).bind ?_
          rintro g gr N7 h7 hg e7 hgg
          refine .ok rfl (.refl e7.zone _) ?_
          have e57 : Ext N5 h5 Nil N7 h7 := e6.trans e7 (fun _ h _ => h)
          refine ⟨e7.zone, (hc4.ext e34.zone e5).ext e5.zone e57, (hsk4.ext e34.zone e5).ext e5.zone e57, rfl, ⟨_, _, ?_, r6.keep e6.zone e7, r5.keep e5.zone e57⟩, hgg⟩
          exact fun b hb hc _ => by have := hb.2; have := hc.1; omega
      · cases vr with
        | str s => exact absurd rfl (n1 s)
        | _ => cases vj with
          | str s => exact absurd rfl (n2 s)
          | _ => exact .error rfl (.refl e1.zone _)
    | _ => exact .error (run_fail (subscript_type hsk1.2 (by simp) _)) (.refl e1.zone _)
  | _ =>
    refine .error (run_fail (subscript_type hr.2 (by simp) _)) (.refl hz _)

end Alias
end Spine
