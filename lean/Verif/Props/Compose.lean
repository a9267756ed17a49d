import Verif.Props.Clean
import Verif.Props.EditorBasic
import Verif.Lemmas.Compose
import Verif.Lemmas.SampleRan
/-
C82–C84: how editing calls combine.
-/
set_option linter.unusedSectionVars false
set_option synthInstance.maxHeartbeats 200000
set_option synthInstance.maxSize 1000
namespace Spine
open JVal Graph AnimData
variable {F : Type} [PyRt F]
namespace Editor
variable {e eA eB : Editor F} {A B : List Str} {s t : Bool} {jA jB : JVal F} {rA rB : List Str × List Str}

/-! ## C82: erasing more animations never keeps more -/

theorem Ran.less (h : Ran e) (A : List Str) : Ran (e.lessAnims A) := by
  have := Ran.failedErase (.list A) false h
  rwa [eraseAnims_safe] at this

/-- `erase_animations` without safe mode is a cleaning of the editor without these animations -/
theorem eraseAnims_clean (h : eraseAnims (.list A) t false e = (.ok (jA, rA), eA)) : clean (e.lessAnims A) = (.ok rA, eA) := by
  simp only [eraseAnims] at h
  split at h
  · cases (Prod.mk.inj h).1
  · have hl : e.withData { e.data with animations := (eraseRaw A e.data.animations).1 } = e.lessAnims A := by
      rw [eraseRaw_fst]; rfl
    rw [hl] at h
    simp only [cleanUnless, Bool.false_eq_true, if_false] at h
    generalize clean (e.lessAnims A) = q at h
    obtain ⟨o, e'⟩ := q
    cases o with
    | error x => cases (Prod.mk.inj h).1
    | ok r =>
      simp only [Prod.mk.injEq, Except.ok.injEq] at h
      rw [h.1.2, h.2]

theorem mem_less {A : List Str} {a : AnimData F} {p : Str × Anim F} : p ∈ (a.lessAnims A).animations ↔ p ∈ a.animations ∧ p.1 ∉ A := by
  unfold AnimData.lessAnims
  rw [List.mem_filter]
  simp

theorem shown_less (h : ∀ n ∈ A, n ∈ B) (a : AnimData F) (s : Slot F) (hs : (a.lessAnims B).Shown s) : (a.lessAnims A).Shown s := by
  obtain ⟨n, x, hx, h1⟩ := hs
  obtain ⟨h2, h3⟩ := mem_less.1 hx
  exact ⟨n, x, mem_less.2 ⟨h2, fun ha => h3 (h _ ha)⟩, h1⟩

theorem uses_less (h : ∀ n ∈ A, n ∈ B) (a : AnimData F) (k : Str) (hs : (a.lessAnims B).Uses k) : (a.lessAnims A).Uses k := by
  obtain ⟨n, x, hx, h1⟩ := hs
  obtain ⟨h2, h3⟩ := mem_less.1 hx
  exact ⟨n, x, mem_less.2 ⟨h2, fun ha => h3 (h _ ha)⟩, h1⟩

theorem unneeded_less (h : ∀ n ∈ A, n ∈ B) (a : AnimData F) (k : Str) (hs : Unneeded (a.lessAnims A) k) : Unneeded (a.lessAnims B) k := by
  obtain ⟨h1, slot, x, h2, h3⟩ := hs
  refine ⟨fun hu => h1 (uses_less h a k hu), slot, x, h2, fun ⟨hm, v, hv, e1, hsh⟩ => h3 ⟨hm, v, hv, e1, shown_less h a v hsh⟩⟩

/-- C82: a slot that is left after erasing the animations `B` is left, in the same order, after erasing some of them only.
Missing: names that contain the suffixes of the graph ids (`c82_counterexample`). -/
theorem c82_slots_partial (hr : Ran e) (h : ∀ n ∈ A, n ∈ B) (hA : eraseAnims (.list A) s false e = (.ok (jA, rA), eA))
    (hB : eraseAnims (.list B) t false e = (.ok (jB, rB), eB)) : eB.data.slots.Sublist eA.data.slots := by
  have cA := eraseAnims_clean hA
  have cB := eraseAnims_clean hB
  have h1 := c38_slots_partial (hr.less A) (ids := rA.1) (atts := rA.2) cA
  have h2 := c38_slots_partial (hr.less B) (ids := rB.1) (atts := rB.2) cB
  have hsub : ∀ v ∈ eB.data.slots, v ∈ eA.data.slots := by
    intro v hv
    obtain ⟨k1, k2, k, x, k3, k4⟩ := (c39_kept_partial (hr.less B) (ids := rB.1) (atts := rB.2) cB v).1 hv
    exact (c39_kept_partial (hr.less A) (ids := rA.1) (atts := rA.2) cA v).2
      ⟨k1, shown_less h _ _ k2, k, x, k3, fun hu => k4 (unneeded_less h _ _ hu)⟩
  have hd := (hr.less A).sync.slotNames
  rw [h1, h2] at hsub ⊢
  have e0 : (e.lessAnims A).data.slots = (e.lessAnims B).data.slots := rfl
  rw [← e0] at hsub ⊢
  clear h1 h2 e0
  have : List.filter (fun s => decide (s.name ∉ rB.1)) (e.lessAnims A).data.slots =
      (List.filter (fun s => decide (s.name ∉ rA.1)) (e.lessAnims A).data.slots).filter (fun s => decide (s.name ∉ rB.1)) := by
    rw [List.filter_filter]
    refine List.filter_congr (fun v hv => ?_)
    by_cases hb : v.name ∈ rB.1
    · simp [hb]
    · have := hsub v (List.mem_filter.2 ⟨hv, by simpa using hb⟩)
      have := (List.mem_filter.1 this).2
      simp only [decide_eq_true_eq] at this
      simp [hb, this]
  rw [this]
  exact List.filter_sublist

theorem all₂_self {α : Type} {R : α → α → Prop} : ∀ (l : List α), (∀ v ∈ l, R v v) → All₂ R l l
  | [], _ => .nil
  | v :: l, h => .cons (h v (by simp)) (all₂_self l (fun w hw => h w (by simp [hw])))

/-- C82: the same for the attachments of every skin. -/
theorem c82_attachments_partial (hr : Ran e) (h : ∀ n ∈ A, n ∈ B) (hA : eraseAnims (.list A) s false e = (.ok (jA, rA), eA))
    (hB : eraseAnims (.list B) t false e = (.ok (jB, rB), eB)) :
    All₂ (fun sB sA : Skin F => sB.name = sA.name ∧ ∀ slot k x, sB.Has slot k x → sA.Has slot k x) eB.data.skins eA.data.skins := by
  have cA := eraseAnims_clean hA
  have cB := eraseAnims_clean hB
  have h1 := result_skins (hr.less A).sync (ids := rA.1) (atts := rA.2) cA
  have h2 := result_skins (hr.less B).sync (ids := rB.1) (atts := rB.2) cB
  have hL := fun slot k x => c40_left_iff_partial (hr.less A) (ids := rA.1) (atts := rA.2) cA slot k x
  have hR := fun slot k x => c40_left_iff_partial (hr.less B) (ids := rB.1) (atts := rB.2) cB slot k x
  have hL' := result_hasAtt (hr.less A).sync (ids := rA.1) (atts := rA.2) cA
  have hR' := result_hasAtt (hr.less B).sync (ids := rB.1) (atts := rB.2) cB
  rw [h1, h2]
  have e0 : (e.lessAnims A).data.skins = (e.lessAnims B).data.skins := rfl
  rw [← e0]
  refine (All₂.map_left.2 (All₂.map_right.2 ?_))
  have key : ∀ v ∈ (e.lessAnims A).data.skins, (cutSkin rB.1 rB.2 v).name = (cutSkin rA.1 rA.2 v).name ∧
      ∀ slot k x, (cutSkin rB.1 rB.2 v).Has slot k x → (cutSkin rA.1 rA.2 v).Has slot k x := by
    intro v hv
    refine ⟨rfl, fun slot k x hx => ?_⟩
    obtain ⟨k1, k2, k3⟩ := mem_cutSkin.1 hx
    have ha : (e.lessAnims B).data.HasAtt slot k x := by
      obtain ⟨d, hd, hx⟩ := k1
      exact ⟨v, hv, d, hd, hx⟩
    obtain ⟨_, ⟨w, hw, e1, hsh⟩, hu⟩ := (hR slot k x).1 ((hR' slot k x).2 ⟨ha, k2, k3⟩)
    have := (hL slot k x).2 ⟨ha, ⟨w, hw, e1, shown_less h _ _ hsh⟩, fun hn => hu (unneeded_less h _ _ hn)⟩
    obtain ⟨_, k4, k5⟩ := (hL' slot k x).1 this
    exact mem_cutSkin.2 ⟨k1, k4, k5⟩
  exact all₂_self _ key

/-- C82: erasing more animations does not fail when erasing less succeeds (names that are not found aside). -/
theorem c82_succeeds_partial (hr : Ran e) (h : ∀ n ∈ A, n ∈ B) (hA : ∃ r, (eraseAnims (.list A) false false e).1 = .ok r) :
    ∃ r, (eraseAnims (.list B) false false e).1 = .ok r := by
  have hl : ∀ A, (∃ r, (eraseAnims (.list A) false false e).1 = .ok r) ↔ ¬ ∃ x, (clean (e.lessAnims A)).1 = .error x := by
    intro A
    simp only [eraseAnims]
    have hl : e.withData { e.data with animations := (eraseRaw A e.data.animations).1 } = e.lessAnims A := by
      rw [eraseRaw_fst]; rfl
    rw [hl]
    simp only [Bool.false_eq_true, and_false, if_false, cleanUnless]
    generalize clean (e.lessAnims A) = q
    obtain ⟨o, e'⟩ := q
    cases o <;> simp
  rw [hl, c55_fails_iff_partial (hr.less _)] at hA ⊢
  intro hc
  refine hA ?_
  have hm : ∀ p, p ∈ (e.lessAnims B).data.animations → p ∈ (e.lessAnims A).data.animations := by
    intro p hp
    obtain ⟨h1, h2⟩ := mem_less.1 hp
    exact mem_less.2 ⟨h1, fun ha => h2 (h _ ha)⟩
  cases hc with
  | colour h1 h2 h3 => exact .colour h1 h2 h3
  | timeline h1 h2 h3 => exact .timeline (hm _ h1) h2 h3
  | empty h1 h2 h3 => exact .empty (hm _ h1) h2 h3
  | draw h1 h2 h3 h4 => exact .draw (hm _ h1) h2 h3 h4

/-! ## C83: erasing in several calls is erasing in one -/

theorem less_append (A B : List Str) (e : Editor F) : (e.lessAnims A).lessAnims B = e.lessAnims (A ++ B) := by
  have h : List.filter (fun p => decide (p.1 ∉ B)) (List.filter (fun p => decide (p.1 ∉ A)) e.data.animations) =
      List.filter (fun p => decide (p.1 ∉ A ++ B)) e.data.animations := by
    rw [List.filter_filter]
    refine List.filter_congr (fun p _ => ?_)
    simp only [List.mem_append, not_or, Bool.decide_and]
    exact Bool.and_comm _ _
  exact congrArg (fun x => e.withData { e.data with animations := x }) h

/-- `erase_animations` of known, distinct names or in lenient mode -/
theorem eraseAnims_eq (A : List Str) (strict safe : Bool) (e : Editor F) : eraseAnims (.list A) strict safe e =
    if strict = true ∧ ¬ (A.Nodup ∧ ∀ n ∈ A, n ∈ Dict.keys e.data.animations) then (.error .value, e.lessAnims A)
    else match cleanUnless safe (e.lessAnims A) with
      | (.error x, e) => (.error x, e)
      | (.ok r, e) => (.ok (e.toJson, r), e) := by
  have h1 := eraseRaw_fst A e.data.animations
  have h2 := eraseRaw_snd_nil A e.data.animations
  have h3 : ((eraseRaw A e.data.animations).2 ≠ [] ∧ strict = true) ↔
      (strict = true ∧ ¬ (A.Nodup ∧ ∀ n ∈ A, n ∈ Dict.keys e.data.animations)) := by rw [ne_eq, h2, and_comm]
  simp only [eraseAnims]
  rw [h1]
  by_cases hc : (eraseRaw A e.data.animations).2 ≠ [] ∧ strict = true
  · rw [if_pos hc, if_pos (h3.1 hc)]; rfl
  · rw [if_neg hc, if_neg (fun h => hc (h3.2 h))]; rfl

/-- C83, lenient mode: all names in one call, or some of them before in safe mode: the same result, exception and editor.
Missing: cleaning in between, for which it is false (`c83_counterexample`). -/
theorem c83_split_partial (A B : List Str) (safe : Bool) (e : Editor F) :
    eraseAnims (.list B) false safe (eraseAnims (.list A) false true e).2 = eraseAnims (.list (A ++ B)) false safe e := by
  rw [eraseAnims_eq B, eraseAnims_eq (A ++ B), eraseAnims_safe]
  simp only [Bool.false_eq_true, false_and, if_false]
  rw [less_append]

/-- C83, strict mode: the one call raises ValueError exactly if one of the two does; otherwise they do the same. -/
theorem c83_strict_partial (A B : List Str) (safe : Bool) (e : Editor F) :
    ((∃ r, (eraseAnims (.list A) true true e).1 = .ok r) →
      eraseAnims (.list B) true safe (eraseAnims (.list A) true true e).2 = eraseAnims (.list (A ++ B)) true safe e) ∧
    (∀ x, (eraseAnims (.list A) true true e).1 = .error x → x = .value ∧ (eraseAnims (.list (A ++ B)) true safe e).1 = .error .value) := by
  have hk : Dict.keys (e.lessAnims A).data.animations = (Dict.keys e.data.animations).filter (fun n => n ∉ A) := by
    show Dict.keys (List.filter _ _) = _
    simp only [Dict.keys, List.filter_map, Function.comp_def]
  have hiff : (A.Nodup ∧ ∀ n ∈ A, n ∈ Dict.keys e.data.animations) →
      ((B.Nodup ∧ ∀ n ∈ B, n ∈ Dict.keys (e.lessAnims A).data.animations) ↔
        ((A ++ B).Nodup ∧ ∀ n ∈ A ++ B, n ∈ Dict.keys e.data.animations)) := by
    intro ⟨a1, a2⟩
    rw [hk]
    simp only [List.mem_filter, decide_eq_true_eq, List.nodup_append, List.mem_append]
    constructor
    · rintro ⟨b1, b2⟩
      exact ⟨⟨a1, b1, fun x hx y hy he => (b2 y hy).2 (he ▸ hx)⟩, fun n hn => hn.elim (a2 n) (fun h => (b2 n h).1)⟩
    · rintro ⟨⟨_, b1, b2⟩, b3⟩
      exact ⟨b1, fun n hn => ⟨b3 n (.inr hn), fun ha => b2 n ha n hn rfl⟩⟩
  have hsub : ((A ++ B).Nodup ∧ ∀ n ∈ A ++ B, n ∈ Dict.keys e.data.animations) → (A.Nodup ∧ ∀ n ∈ A, n ∈ Dict.keys e.data.animations) :=
    fun ⟨h1, h2⟩ => ⟨(List.nodup_append.1 h1).1, fun n hn => h2 n (by simp [hn])⟩
  rw [eraseAnims_safe]
  dsimp only
  constructor
  · rintro ⟨r, hr⟩
    by_cases hc : A.Nodup ∧ ∀ n ∈ A, n ∈ Dict.keys e.data.animations
    · simp only [eraseAnims_eq B, eraseAnims_eq (A ++ B), hiff hc, less_append]
    · rw [if_pos ⟨rfl, hc⟩] at hr; cases hr
  · intro x hx
    by_cases hc : A.Nodup ∧ ∀ n ∈ A, n ∈ Dict.keys e.data.animations
    · rw [if_neg (fun h => h.2 hc)] at hx; cases hx
    · rw [if_pos ⟨rfl, hc⟩] at hx
      cases hx
      refine ⟨rfl, ?_⟩
      rw [eraseAnims_eq, if_pos ⟨rfl, fun h => hc (hsub h)⟩]

/-- C83: without safe mode, `erase_animations` is the call in safe mode followed by `clean_animation`. -/
theorem c83_then_clean (A : List Str) (strict : Bool) (e : Editor F) : eraseAnims (.list A) strict false e =
    match eraseAnims (.list A) strict true e with
    | (.error x, e) => (.error x, e)
    | (.ok _, e) => match clean e with
      | (.error x, e) => (.error x, e)
      | (.ok r, e) => (.ok (e.toJson, r), e) := by
  rw [eraseAnims_eq, eraseAnims_safe]
  split
  · rfl
  · rfl

/-- C83: in lenient mode the order and the repetition of the names do not matter. -/
theorem c83_names (safe : Bool) (e : Editor F) (h : ∀ n, n ∈ A ↔ n ∈ B) :
    eraseAnims (.list A) false safe e = eraseAnims (.list B) false safe e := by
  rw [eraseAnims_eq A, eraseAnims_eq B]
  have : e.lessAnims A = e.lessAnims B := by
    have hf : List.filter (fun p => decide (p.1 ∉ A)) e.data.animations = List.filter (fun p => decide (p.1 ∉ B)) e.data.animations :=
      List.filter_congr (fun p _ => by simp only [h])
    exact congrArg (fun x => e.withData { e.data with animations := x }) hf
  simp only [Bool.false_eq_true, false_and, if_false]
  rw [this]

theorem removeSkins_split {A B : List Str} : ∀ {a a1 : AnimData F} {r : List (Option Str) × List Str}, removeSkins A a = (.ok r, a1) →
    removeSkins (A ++ B) a = match removeSkins B a1 with
      | (.error x, a2) => (.error x, a2)
      | (.ok r2, a2) => (.ok (r.1 ++ r2.1, r.2 ++ r2.2), a2) := by
  induction A with
  | nil =>
    intro a a1 r h
    simp only [removeSkins, Prod.mk.injEq, Except.ok.injEq] at h
    obtain ⟨rfl, rfl⟩ := h
    rw [List.nil_append]
    generalize removeSkins B a = q
    obtain ⟨o, a2⟩ := q
    cases o <;> rfl
  | cons n A ih =>
    intro a a1 r h
    simp only [removeSkins, List.cons_append] at h ⊢
    generalize removeSkin n a = q at h
    obtain ⟨o, a2⟩ := q
    cases o with
    | error x => cases (Prod.mk.inj h).1
    | ok v =>
      obtain ⟨i, rg⟩ := v
      simp only at h ⊢
      generalize hq : removeSkins A a2 = q at h
      obtain ⟨o, a3⟩ := q
      cases o with
      | error x => cases (Prod.mk.inj h).1
      | ok v =>
        obtain ⟨is, rs⟩ := v
        simp only [Prod.mk.injEq, Except.ok.injEq] at h
        obtain ⟨rfl, rfl⟩ := h
        rw [ih hq]
        generalize removeSkins B a3 = q
        obtain ⟨o, a4⟩ := q
        cases o with
        | error x => rfl
        | ok v => simp [List.append_assoc]

theorem clean_otherImages (im : Dict (ImageRef F)) (e : Editor F) : (clean { e with images := im }).1 = (clean e).1 ∧
    (clean { e with images := im }).2.doc = (clean e).2.doc ∧ (clean { e with images := im }).2.graph = (clean e).2.graph := by
  unfold clean
  have h1 : ({ e with images := im } : Editor F).data = e.data := rfl
  rw [h1]
  cases AnimData.unused e.data with
  | error x => exact ⟨rfl, rfl, rfl⟩
  | ok v =>
    obtain ⟨sl, at'⟩ := v
    simp only
    generalize cleanGraph sl at' e.graph = q
    obtain ⟨o, g⟩ := q
    cases o with
    | error x => exact ⟨rfl, rfl, rfl⟩
    | ok ids =>
      simp only
      have h2 : readBack { ({ e with images := im } : Editor F) with graph := g } =
          ((readBack { e with graph := g }).1, { (readBack { e with graph := g }).2 with images := im }) := by
        unfold readBack
        simp only
        cases SpineNodes.toJsonData g with
        | error x => rfl
        | ok j =>
          simp only
          cases mapE Bone.init j.bones with
          | error x => rfl
          | ok bs =>
            simp only
            cases mapE Slot.init j.slots with
            | error x => rfl
            | ok ss =>
              simp only
              cases mapE ikCls.init j.ik with
              | error x => rfl
              | ok is => rfl
      rw [h2]
      generalize readBack { e with graph := g } = q
      obtain ⟨o, e1⟩ := q
      cases o with
      | error x => exact ⟨rfl, rfl, rfl⟩
      | ok _ =>
        simp only
        have h3 : ({ e1 with images := im } : Editor F).data = e1.data := rfl
        rw [h3]
        generalize removeSlots ids e.data.slots e1.data = q
        obtain ⟨o, a⟩ := q
        cases o with
        | error x => exact ⟨rfl, rfl, rfl⟩
        | ok _ =>
          simp only
          have h4 : ∀ b, (({ e1 with images := im } : Editor F).withData b).graph = (e1.withData b).graph := fun _ => rfl
          rw [h4]
          generalize detach (e1.withData (removeAttachments at' a)).graph = q
          obtain ⟨o, g⟩ := q
          cases o <;> exact ⟨rfl, rfl, rfl⟩

/-- C83: skins erased in two calls, the first in safe mode: the second call raises what the one call raises, removes the same
slots and attachments, and leaves the same document, and the same graph if it succeeds.
Missing: the lists of images (C60), and cleaning in the first call. -/
theorem c83_skins_partial (A B : List Str) (safe : Bool) {e e1 : Editor F} {r} (h : eraseSkins A true e = (.ok r, e1)) :
    (eraseSkins B safe e1).1.map Prod.fst = (eraseSkins (A ++ B) safe e).1.map Prod.fst ∧
    (eraseSkins B safe e1).2.doc = (eraseSkins (A ++ B) safe e).2.doc ∧
    ((∃ r, (eraseSkins B safe e1).1 = .ok r) → (eraseSkins B safe e1).2.graph = (eraseSkins (A ++ B) safe e).2.graph) := by
  unfold eraseSkins at h
  generalize hq : removeSkins A e.data = q at h
  obtain ⟨o, a⟩ := q
  cases o with
  | error x => cases (Prod.mk.inj h).1
  | ok v =>
    obtain ⟨i1, r1⟩ := v
    simp only at h
    cases hc : SpineNodes.create (e.withData a).toJson with
    | error x => rw [hc] at h; cases (Prod.mk.inj h).1
    | ok g =>
      rw [hc] at h
      simp only [cleanUnless, if_true, Prod.mk.injEq] at h
      obtain ⟨_, h⟩ := h
      have hd : e1.doc = (e.withData a).doc := by rw [← h]; rfl
      have hda : e1.data = a := by rw [← h]; rfl
      unfold eraseSkins
      rw [hda, removeSkins_split hq]
      generalize removeSkins B a = q
      obtain ⟨o, b⟩ := q
      have hw : (e1.withData b).doc = (e.withData b).doc := by
        show ({ e1.doc with data := b } : SpineDoc F) = { e.doc with data := b }
        rw [hd]; rfl
      have hj : (e1.withData b).toJson = (e.withData b).toJson := congrArg SpineDoc.toJson hw
      cases o with
      | error x => exact ⟨rfl, hw, fun ⟨r, hr⟩ => by cases hr⟩
      | ok v =>
        simp only
        rw [hj]
        cases SpineNodes.create (e.withData b).toJson with
        | error x => exact ⟨rfl, hw, fun ⟨r, hr⟩ => by cases hr⟩
        | ok g =>
          simp only
          have he : ({ e1.withData b with graph := g } : Editor F) =
              { ({ e.withData b with graph := g } : Editor F) with images := e1.images } := by
            show (⟨(e1.withData b).doc, e1.images, g⟩ : Editor F) = ⟨(e.withData b).doc, e1.images, g⟩
            rw [hw]
          rw [he]
          cases safe with
          | true => exact ⟨rfl, rfl, fun _ => rfl⟩
          | false =>
            obtain ⟨k1, k2, k3⟩ := clean_otherImages e1.images ({ e.withData b with graph := g } : Editor F)
            simp only [cleanUnless, Bool.false_eq_true, if_false]
            generalize clean ({ ({ e.withData b with graph := g } : Editor F) with images := e1.images } : Editor F) = q1 at *
            generalize clean ({ e.withData b with graph := g } : Editor F) = q2 at *
            obtain ⟨o1, x1⟩ := q1
            obtain ⟨o2, x2⟩ := q2
            cases k1
            cases o1 with
            | error x => exact ⟨rfl, k2, fun _ => k3⟩
            | ok v => exact ⟨rfl, k2, fun _ => k3⟩

/-! ## C84: calls that concern different parts commute -/

theorem ite_map_snd {α β : Type} (c : Prop) [Decidable c] (x : Err) (a a' : α) (b : β) :
    Except.map Prod.snd (if c then Except.error x else .ok (a, b)) = Except.map Prod.snd (if c then Except.error x else .ok (a', b)) := by
  split <;> rfl

/-- C84: `erase_animations` and `erase_skins`, both in safe mode: each returns or raises the same before and after the other
(the JSON returned by `erase_animations` shows the skins of its time), and both orders leave the same editor. -/
theorem c84_anims_skins (A l : List Str) (strict : Bool) (e : Editor F) :
    (eraseSkins l true (eraseAnims (.list A) strict true e).2).1 = (eraseSkins l true e).1 ∧
    (eraseAnims (.list A) strict true (eraseSkins l true e).2).1.map Prod.snd = (eraseAnims (.list A) strict true e).1.map Prod.snd ∧
    (eraseSkins l true (eraseAnims (.list A) strict true e).2).2 = (eraseAnims (.list A) strict true (eraseSkins l true e).2).2 := by
  simp only [eraseAnims_safe, eraseSkins_less, eraseSkins_safe_animKeys, true_and, and_true]
  exact ite_map_snd _ _ _ _ _

theorem less_bones (A : List Str) (bs : List (Bone F)) (e : Editor F) : (e.lessAnims A).withBones bs = (e.withBones bs).lessAnims A := rfl

/-- C84: `scale_animation` and `erase_animations` in safe mode. -/
theorem c84_scale_anims (A : List Str) (strict : Bool) (sx sy : Num F) (e : Editor F) :
    (scale sx sy (eraseAnims (.list A) strict true e).2).1 = (scale sx sy e).1 ∧
    (eraseAnims (.list A) strict true (scale sx sy e).2).1.map Prod.snd = (eraseAnims (.list A) strict true e).1.map Prod.snd ∧
    (scale sx sy (eraseAnims (.list A) strict true e).2).2 = (eraseAnims (.list A) strict true (scale sx sy e).2).2 := by
  obtain ⟨h1, h2⟩ := scale_congr sx sy (e := e) (e' := e.lessAnims A) rfl
  obtain ⟨_, h3⟩ := scale_congr sx sy (e := e) (e' := e) rfl
  have hk : (scale sx sy e).2.data.animations = e.data.animations := by rw [h3]; rfl
  simp only [eraseAnims_safe]
  rw [hk]
  refine ⟨h1, ite_map_snd _ _ _ _ _, ?_⟩
  · rw [h2, less_bones]
    exact congrArg (lessAnims A) h3.symm

theorem eraseSkins_safe_bones (l : List Str) (e : Editor F) : (eraseSkins l true e).2.data.bones = e.data.bones := by
  have h := (removeSkins_bones l e.data).1
  unfold eraseSkins
  generalize removeSkins l e.data = q at h ⊢
  obtain ⟨o, a⟩ := q
  cases o with
  | error x => exact h
  | ok v =>
    obtain ⟨i, r⟩ := v
    simp only
    cases SpineNodes.create (e.withData a).toJson with
    | error x => exact h
    | ok g => exact h

/-- C84: `scale_animation` and `erase_skins` in safe mode; the documents and the images agree, and the nodes of the graph may
hold the data of the bones before or after the scaling. -/
theorem c84_scale_skins (hr : Reached e) (l : List Str) (sx sy : Num F) :
    (scale sx sy (eraseSkins l true e).2).1 = (scale sx sy e).1 ∧
    (eraseSkins l true (scale sx sy e).2).1 = (eraseSkins l true e).1 ∧
    (scale sx sy (eraseSkins l true e).2).2.doc = (eraseSkins l true (scale sx sy e).2).2.doc ∧
    (scale sx sy (eraseSkins l true e).2).2.images = (eraseSkins l true (scale sx sy e).2).2.images := by
  have hb := hr.core.bones
  obtain ⟨_, h3⟩ := scale_congr sx sy (e := e) (e' := e) rfl
  have hg : ∀ b ∈ (scale sx sy e).2.data.bones, Bone.Good b := (Reached.run (.scale sx sy) hr).core.bones
  have hs := eraseSkins_bones l hb hg (scale_tree sx sy e)
  rw [← h3] at hs
  have hbs : (eraseSkins l true e).2.data.bones = e.data.bones := eraseSkins_safe_bones l e
  obtain ⟨h1, h2⟩ := scale_congr sx sy hbs
  obtain ⟨s1, s2, s3⟩ := hs
  rw [h2]
  exact ⟨h1, s1, s2.symm, s3.symm⟩

end Editor
end Spine
