import Verif.Lemmas.SimBuild
/-
Bones, slots and iks are read back from the graph of the heap model as from the graph of the value model.
-/
set_option linter.unusedSectionVars false
namespace Spine
namespace Alias
open M
variable {F : Type} [PyRt F] {B : Nat} {N : Nat → Prop} {h : Heap F}

theorem all₂_map_eq {α β : Type} {P : α → β → Prop} {f : α → β} {l : List α} {m : List β} (hl : All₂ P l m) (hp : ∀ x y, P x y → y = f x) :
    m = l.map f := by
  induction hl with
  | nil => rfl
  | cons h1 _ ih => rw [List.map_cons, ih, hp _ _ h1]

/-- a list of new objects becomes an attribute -/
theorem putList {α : Type} {f : Ref F → M F (Ref F)} {init : JVal F → Except Err α} {P : α → Tree F → Prop} {T : α → Tree F} {A : Nat}
    (hf : MakesA A B f init P) (hP : ∀ x t, P x t → t = T x) {l : List (Ref F)} {js : List (JVal F)} {data : Ref F} {tg : Tag} {ts : List (Str × Tree F)}
    {S : Nat → Prop} (hz : Zone N h) (hl : All₂ (JOk A N h) l js) (hr : Rep B N h data (.node (.inst tg) ts) S) (k : Str) :
    (∀ xs, mapE init js = .ok xs → ∃ N' h', (∀ {β : Type} (c : M F β), (mapL f l >>= fun bs => alloc (.list bs) >>= fun bs => setAttr data k bs >>= fun _ => c) h = c h') ∧
      Ext N h S N' h' ∧ Rep B N' h' data (.node (.inst tg) (Dict.set ts k (tlist T xs))) (Grown S h)) ∧
    (∀ e, mapE init js = .error e → e ≠ .unmodelled → ∃ N' h', mapL f l h = (.error e, h') ∧ Ext N h Nil N' h') := by
  have hs := mapL_makesA hf hz hl
  refine ⟨fun xs hx => ?_, fun e he hne => ?_⟩
  · rw [hx] at hs
    obtain ⟨ys, N1, h1, run, e1, ts', g1, g2⟩ := hs.of_ok
    obtain ⟨k1, k2⟩ := g2.alloc .list
    have hr1 := (hr.bound.keep hz e1).keep e1.zone k1
    have e2 := e1.trans k1 (fun _ h _ => h)
    have ets : ts' = xs.map T := all₂_map_eq g1 hP
    have k3 : Rep B N1 (h1 ++ [Kind.list.obj (ys.map (fun r => ([], r)))]) (.ptr h1.length) (tlist T xs)
        (Btw h.length (h1 ++ [Kind.list.obj (ys.map (fun r => ([], r)))]).length) := by
      have : (Tree.node .list (ts'.map (fun t => (([] : Str), t)))) = tlist T xs := by
        rw [ets]; simp [tlist, Function.comp_def]
      rw [← this]
      exact k2
    obtain ⟨h2, run2, e3, r3⟩ := hr1.put (k := k) e2.zone k3 (fun a ha hb _ => by have := ha.2; have := hb.1; omega)
    refine ⟨N1, h2, ?_, (e2.mono (fun _ h _ => h.elim)).trans e3 (fun a ha _ => ha.1), r3.mono ?_⟩
    · intro β c
      have ra : (alloc (.list ys) : M F _) h1 = (.ok (.ptr h1.length), h1 ++ [Kind.list.obj (ys.map (fun r => ([], r)))]) := by
        have := run_alloc (F := F) (h := h1) (o := .list ys)
        simpa [Kind.obj, Function.comp_def] using this
      rw [run_bind run, run_bind ra, run_bind run2]
    · rintro a (ha | ha)
      · exact .inl ha.1
      · exact .inr ha.1
  · rw [he] at hs
    exact hs.of_error hne

/-- 161-165 on the data alone -/
def readBackData (g : SGraph F) (v38 : Bool) (a : AnimData F) : Res (AnimData F) Unit :=
  match SpineNodes.toJsonData g with
  | .error x => (.error x, a)
  | .ok j => match mapE Bone.init j.bones with
    | .error x => (.error x, a)
    | .ok bs => match mapE Slot.init j.slots with
      | .error x => (.error x, { a with bones := bs })
      | .ok ss => match mapE ikCls.init j.ik with
        | .error x => (.error x, { a with bones := bs, slots := ss })
        | .ok is => (.ok (), AnimData.setDefaults v38 { a with bones := bs, slots := ss, ik := is })

theorem readBack_eq (e : Editor F) : Editor.readBack e =
    ((readBackData e.graph e.doc.version.is38 e.data).1, e.withData (readBackData e.graph e.doc.version.is38 e.data).2) := by
  unfold Editor.readBack readBackData
  cases SpineNodes.toJsonData e.graph with
  | error x => rfl
  | ok j =>
    simp only
    cases mapE Bone.init j.bones with
    | error x => rfl
    | ok bs =>
      simp only
      cases mapE Slot.init j.slots with
      | error x => rfl
      | ok ss =>
        simp only
        cases mapE ikCls.init j.ik with
        | error x => rfl
        | ok is => rfl

theorem GOk.list {g : Graph NType (Int × Ref F)} {g' : SGraph F} (hg : GOk B N h g g') (t : NType) (ht : t = .bone ∨ t = .slot ∨ t = .ik) :
    All₂ (JOk (B + 1) N h) (listOfType g t) (SpineNodes.listOfType g' t) :=
  (listOfType_all₂ hg t).imp (fun _ _ _ _ hp => hp ht)

theorem all₂_ext {A : Nat} {N' : Nat → Prop} {h' : Heap F} {S : Nat → Prop} {l : List (Ref F)} {js : List (JVal F)} (hz : Zone N h) (e : Ext N h S N' h')
    (hl : All₂ (JOk A N h) l js) : All₂ (JOk A N' h') l js := hl.imp (fun _ _ _ _ hp => hp.ext hz e)

/-- 161-165 -/
theorem readBack_run {E : Env F} {q : F → Prop} (hm : 8 + B ≤ E.lim) (hz : Zone N h) (hc : Consts B E N h) {e : Ed F} {g : SGraph F} {a : AnimData F}
    {S : Nat → Prop} (hg : GOk B N h e.graph g) (hr : Rep B N h e.data (tData a) S)
    (hok : ∀ bs ss is, mapE Bone.init (SpineNodes.listOfType g .bone) = .ok bs → mapE Slot.init (SpineNodes.listOfType g .slot) = .ok ss →
      mapE ikCls.init (SpineNodes.listOfType g .ik) = .ok is → AnimData.Ok q { a with bones := bs, slots := ss, ik := is })
    (hne : (readBackData g e.version.is38 a).1 ≠ .error .unmodelled) :
    ∃ N' h', readBack E e h = ((readBackData g e.version.is38 a).1, h') ∧ Ext N h S N' h' ∧
      Rep B N' h' e.data (tData (readBackData g e.version.is38 a).2) (Grown S h) := by
  have hall := allTypes_eq hg [NType.bone, .slot, .ik, .attachment, .image]
  unfold readBack
  unfold readBackData SpineNodes.toJsonData at hne ⊢
  rw [hall]
  by_cases hb : (Dict.values g.nodes).all (fun n => decide (n.ntype ∈ [NType.bone, .slot, .ik, .attachment, .image])) = true
  · rw [if_pos hb] at hne ⊢
    rw [if_pos hb]
    simp only at hne ⊢
    have l1 := hg.list .bone (.inl rfl)
    have l2 := hg.list .slot (.inr (.inl rfl))
    have l3 := hg.list .ik (.inr (.inr rfl))
    obtain ⟨p1, p2⟩ := putList (newBone_makesA (A := B + 1) (Nat.le_refl _)) (T := tBone) (fun x t hx => hx.1) hz l1 hr s!!"bones"
    cases h1 : mapE Bone.init (SpineNodes.listOfType g .bone) with
    | error x =>
      simp only [h1] at hne ⊢
      obtain ⟨N', h', run, e1⟩ := p2 x h1 (fun hx => hne (by rw [hx]))
      exact ⟨N', h', run_fail run, e1.mono (fun _ h _ => h.elim), (hr.keep hz e1).mono (fun _ => .inl)⟩
    | ok bs =>
      simp only [h1] at hne ⊢
      obtain ⟨N1, h1', run1, e1, r1⟩ := p1 bs h1
      rw [run1]
      obtain ⟨p3, p4⟩ := putList (newSlot_makesA (A := B + 1) (Nat.le_refl _)) (T := tSlot) (fun x t hx => hx) e1.zone (all₂_ext hz e1 l2) r1 s!!"slots"
      cases h2 : mapE Slot.init (SpineNodes.listOfType g .slot) with
      | error x =>
        simp only [h2] at hne ⊢
        obtain ⟨N', h', run, e2⟩ := p4 x h2 (fun hx => hne (by rw [hx]))
        exact ⟨N', h', run_fail run, e1.trans e2 (fun _ h _ => h.elim), r1.keep e1.zone e2⟩
      | ok ss =>
        simp only [h2] at hne ⊢
        obtain ⟨N2, h2', run2, e2, r2⟩ := p3 ss h2
        rw [run2]
        have e12 := e1.grown e2
        have r2' := r2.mono (grown_grown e1.len)
        obtain ⟨p5, p6⟩ := putList (newLeaf_makesA (A := B + 1) (Nat.le_refl _) .ik) (T := tAttrs .ik) (fun x t hx => hx) e12.zone (all₂_ext hz e12 l3) r2' s!!"ik"
        cases h3 : mapE ikCls.init (SpineNodes.listOfType g .ik) with
        | error x =>
          simp only [h3] at hne ⊢
          obtain ⟨N', h', run, e3⟩ := p6 x h3 (fun hx => hne (by rw [hx]))
          exact ⟨N', h', run_fail run, e12.trans e3 (fun _ h _ => h.elim), r2'.keep e12.zone e3⟩
        | ok is =>
          simp only [h3] at hne ⊢
          obtain ⟨N3, h3', run3, e3, r3⟩ := p5 is h3
          rw [run3]
          have e13 := e12.grown e3
          have r3' : Rep B N3 h3' e.data (tData { a with bones := bs, slots := ss, ik := is }) (Grown S h) := r3.mono (grown_grown e12.len)
          have pre := pre_dataOk (hok bs ss is h1 h2 h3)
          obtain ⟨N4, h4', run4, e4, r4⟩ := setDefaults_sim (E := E) (v38 := e.version.is38) (by have := pre.height; omega) pre.uniq e13.zone
            (Consts.stable Nil _ _ _ _ _ hz e13 (fun _ _ h _ => h) hc) r3'
          refine ⟨N4, h4', run4, e13.grown e4, ?_⟩
          rw [← pre.sd]
          exact r4.mono (grown_grown e13.len)
  · rw [if_neg hb] at hne ⊢
    rw [if_neg hb]
    exact ⟨N, h, rfl, .refl hz _, hr.mono (fun _ => .inl)⟩

end Alias
end Spine
