import Verif.Lemmas.CoreEditor
/- C37: `clean_animation` and bones and iks. -/
set_option linter.unusedSectionVars false
namespace Spine
open JVal Graph Container
variable {F : Type} [PyRt F]
namespace Editor

/-! ## Specification -/

/-- the serialised bones -/
def bonesJson (e : Editor F) : List (JVal F) := e.data.bones.map (·.toJson e.doc.version.is38)
/-- the serialised ik constraints -/
def iksJson (e : Editor F) : List (JVal F) := e.data.ik.map (ikCls.toJson e.doc.version.is38)

/-- an editor after a history of calls, with the bones and iks of the document its graph was last built from (by loading, or
by `erase_skins`).  `erase_animations`, `clean_animation` and `scale_animation` may also raise. -/
inductive BuiltFrom : Editor F → List (JVal F) → List (JVal F) → Prop
  | load {doc e} : load doc = .ok e → BuiltFrom e (bonesJson e) (iksJson e)
  | eraseSkins {e e' B K names safe r} : BuiltFrom e B K → eraseSkins names safe e = (.ok r, e') →
      BuiltFrom e' (bonesJson e) (iksJson e)
  | eraseAnims {e B K} (arg strict safe) : BuiltFrom e B K → BuiltFrom (eraseAnims arg strict safe e).2 B K
  | clean {e B K} : BuiltFrom e B K → BuiltFrom (clean e).2 B K
  | scale {e B K} (sx sy) : BuiltFrom e B K → BuiltFrom (scale sx sy e).2 B K

/-! ## Proofs -/

theorem readBack_bones {b : Bool} {g : SGraph F} (hc : Core b g) {bs : List (Bone F)}
    (h : mapE Bone.init ((nodesOf g .bone).map (·.2.2)) = .ok bs) :
    (bs.map (·.setDefaults b)).map (·.toJson b) = (nodesOf g .bone).map (·.2.2) := by
  rw [mapE_all₂, All₂.map_left] at h
  have h := h.mono (S := fun p y => (y.setDefaults b).toJson b = p.2.2) ?_
  · rw [List.map_map]
    exact (h.map_eq (f := fun p => p.2.2) (g := fun y => (y.setDefaults b).toJson b) (fun x y h => h.symm)).symm
  · intro p y hp hy
    obtain ⟨x, hx, e⟩ := hc.bones p hp
    obtain ⟨y', h1, h2⟩ := Bone.rt b x hx
    rw [e] at hy ⊢
    rw [h1] at hy
    injection hy with hy
    subst hy; exact h2

theorem readBack_iks {b : Bool} {g : SGraph F} (hc : Core b g) {is : List (Attrs F)}
    (h : mapE ikCls.init ((nodesOf g .ik).map (·.2.2)) = .ok is) :
    (is.map (ikCls.setDefaults b)).map (ikCls.toJson b) = (nodesOf g .ik).map (·.2.2) := by
  rw [mapE_all₂, All₂.map_left] at h
  have h := h.mono (S := fun p y => ikCls.toJson b (ikCls.setDefaults b y) = p.2.2) ?_
  · rw [List.map_map]
    exact (h.map_eq (f := fun p => p.2.2) (g := fun y => ikCls.toJson b (ikCls.setDefaults b y)) (fun x y h => h.symm)).symm
  · intro p y hp hy
    obtain ⟨x, hx, e⟩ := hc.iks p hp
    obtain ⟨y', h1, h2⟩ := Cls.rt (ikCls (F := F)) (by simp [leafClasses]) rfl b x hx
    rw [e] at hy ⊢
    rw [h1] at hy
    injection hy with hy
    subst hy; exact h2

theorem BuiltFrom.graph {e : Editor F} {B K : List (JVal F)} (h : BuiltFrom e B K) :
    ECore e ∧ (nodesOf e.graph .bone).map (·.2.2) = B ∧ (nodesOf e.graph .ik).map (·.2.2) = K := by
  induction h with
  | load h =>
    have hf := nodesOf_fresh (load_ok h).2.2
    exact ⟨ecore_load h, hf.1, hf.2.2⟩
  | @eraseSkins e e' B K names safe r _ h ih =>
    obtain ⟨hc, _, _⟩ := ih
    obtain ⟨a, g, S, hS, hb, hi, hg, hcg, hg', hc', _⟩ := eraseSkins_core (r := r.1) (gone := r.2) hc h
    have hf := nodesOf_fresh (s := { e.doc with data := a }) hg
    refine ⟨hc', ?_, ?_⟩
    · rw [hg', hS.nodesOf hcg (.inl rfl), hf.1]
      show a.bones.map _ = _
      rw [hb]; rfl
    · rw [hg', hS.nodesOf hcg (.inr rfl), hf.2.2]
      show a.ik.map _ = _
      rw [hi]; rfl
  | @eraseAnims e B K arg strict safe _ ih =>
    obtain ⟨hc, h1, h2⟩ := ih
    obtain ⟨S, hS, hg, hc', _⟩ := eraseAnims_any arg strict safe hc
    refine ⟨hc', ?_, ?_⟩
    · rw [hg, hS.nodesOf hc.core (.inl rfl), h1]
    · rw [hg, hS.nodesOf hc.core (.inr rfl), h2]
  | @clean e B K _ ih =>
    obtain ⟨hc, h1, h2⟩ := ih
    obtain ⟨S, hS, hg, hc', _⟩ := clean_any hc
    refine ⟨hc', ?_, ?_⟩
    · rw [hg, hS.nodesOf hc.core (.inl rfl), h1]
    · rw [hg, hS.nodesOf hc.core (.inr rfl), h2]
  | @scale e B K sx sy _ ih =>
    obtain ⟨hc, h1, h2⟩ := ih
    obtain ⟨hc', hg, _⟩ := scale_any sx sy hc
    exact ⟨hc', by rw [hg, h1], by rw [hg, h2]⟩

theorem clean_bones {e e' : Editor F} {r : List Str × List Str} (hc : ECore e) (h : clean e = (.ok r, e')) :
    bonesJson e' = (nodesOf e.graph .bone).map (·.2.2) ∧ iksJson e' = (nodesOf e.graph .ik).map (·.2.2) := by
  obtain ⟨slots, L, A, Bx, I, g0, g1, g2, g3, bs, ss, is, an, hr⟩ := clean_run (ids := r.1) (atts := r.2) hc.core h
  have c0 : Core e.doc.version.is38 g0 := by rw [hr.hg0]; exact hc.core.restrict _
  have c1 : Core e.doc.version.is38 g1 := by rw [hr.hg1]; exact c0.restrict _
  have l0 : Loose ((setList F slots).map (graphId .slot) ++ (setList F r.2).map (graphId .attachment)) := by
    intro x hx
    rcases List.mem_append.1 hx with hx | hx
    · obtain ⟨n, _, rfl⟩ := List.mem_map.1 hx; exact ⟨.slot, n, by decide, by decide, rfl⟩
    · obtain ⟨n, _, rfl⟩ := List.mem_map.1 hx; exact ⟨.attachment, n, by decide, by decide, rfl⟩
  have l1 : Loose L := Doomed.loose c0 (by decide) (by decide) (fun x hx => (hr.hL x).1 hx)
  have e1 : nodesOf g1 .bone = nodesOf e.graph .bone := by
    rw [hr.hg1, l1.nodesOf c0 (.inl rfl), hr.hg0, l0.nodesOf hc.core (.inl rfl)]
  have e2 : nodesOf g1 .ik = nodesOf e.graph .ik := by
    rw [hr.hg1, l1.nodesOf c0 (.inr rfl), hr.hg0, l0.nodesOf hc.core (.inr rfl)]
  constructor
  · have := readBack_bones c1 hr.hbs
    rw [e1] at this
    unfold bonesJson
    rw [hr.version, hr.data]
    exact this
  · have := readBack_iks c1 hr.his
    rw [e2] at this
    unfold iksJson
    rw [hr.version, hr.data]
    exact this

/-! ## Theorems -/

/-- C37: after `clean_animation` the bones and iks are those the editor was last built from, whatever happened since. -/
theorem c37_clean {e e' : Editor F} {B K : List (JVal F)} {r : List Str × List Str} (hb : BuiltFrom e B K)
    (h : clean e = (.ok r, e')) : bonesJson e' = B ∧ iksJson e' = K := by
  obtain ⟨hc, h1, h2⟩ := hb.graph
  rw [← h1, ← h2]
  exact clean_bones hc h

/-- C37 for `erase_animations`: unless the editor was scaled, the bones and iks stay as they are. -/
theorem c37_erase_animations {e e' : Editor F} {arg : NamesArg} {strict safe : Bool} {r : JVal F × List Str × List Str}
    (hb : BuiltFrom e (bonesJson e) (iksJson e)) (h : eraseAnims arg strict safe e = (.ok r, e')) :
    bonesJson e' = bonesJson e ∧ iksJson e' = iksJson e := by
  unfold eraseAnims at h
  split at h
  · simp at h
  rename_i names
  simp only at h
  split at h
  · simp at h
  split at h
  · simp at h
  rename_i r' e1 hc
  simp only [Prod.mk.injEq, Except.ok.injEq] at h
  obtain ⟨rfl, rfl⟩ := h
  cases safe with
  | true =>
    simp only [cleanUnless, if_true, Prod.mk.injEq, Except.ok.injEq] at hc
    obtain ⟨_, rfl⟩ := hc
    exact ⟨rfl, rfl⟩
  | false =>
    have hb' : BuiltFrom (e.withData { e.data with animations := (eraseRaw names e.data.animations).1 }) (bonesJson e) (iksJson e) := by
      have hx := BuiltFrom.eraseAnims (.list names) false true hb
      have hy : (eraseAnims (.list names) false true e).2 =
          e.withData { e.data with animations := (eraseRaw names e.data.animations).1 } := by
        simp [eraseAnims, cleanUnless]
      rw [hy] at hx; exact hx
    exact c37_clean hb' hc

/-- C53 for `erase_skins`, with or without cleaning: the bones and iks, scaled or not, stay as they are. -/
theorem c53_erase_skins_partial {e e' : Editor F} {names : List Str} {safe : Bool} {r : (List Str × List Str) × List (Option Str)}
    (hr : Reached e) (h : eraseSkins names safe e = (.ok r, e')) : bonesJson e' = bonesJson e ∧ iksJson e' = iksJson e := by
  obtain ⟨imgs, regions, a, g, e1, h1, h2, _, h4, rfl⟩ := eraseSkins_ok (r := r.1) (gone := r.2) h
  have hb := removeSkins_bones names e.data
  rw [h1] at hb
  have hc' := ecore_fresh hr.core hb.1 hb.2.1 h2
  have hf := nodesOf_fresh (s := { e.doc with data := a }) h2
  have e1' : a.bones.map (·.toJson e.doc.version.is38) = bonesJson e := by rw [hb.1]; rfl
  have e2' : a.ik.map (ikCls.toJson e.doc.version.is38) = iksJson e := by rw [hb.2.1]; rfl
  cases safe with
  | true =>
    simp only [cleanUnless, if_true, Prod.mk.injEq, Except.ok.injEq] at h4
    obtain ⟨_, rfl⟩ := h4
    exact ⟨e1', e2'⟩
  | false =>
    obtain ⟨k1, k2⟩ := clean_bones hc' h4
    exact ⟨k1.trans (hf.1.trans e1'), k2.trans (hf.2.2.trans e2')⟩

/-- C53 for `erase_animations` in safe mode. -/
theorem c53_erase_animations_safe_partial {e e' : Editor F} {arg : NamesArg} {strict : Bool} {r : JVal F × List Str × List Str}
    (h : eraseAnims arg strict true e = (.ok r, e')) : bonesJson e' = bonesJson e ∧ iksJson e' = iksJson e := by
  unfold eraseAnims at h
  split at h
  · simp at h
  simp only at h
  split at h
  · simp at h
  simp only [cleanUnless, if_true, Prod.mk.injEq, Except.ok.injEq] at h
  obtain ⟨_, rfl⟩ := h
  exact ⟨rfl, rfl⟩

section examples
open Sample
/-- a history: load, scale, clean; the call succeeds, and the bones are those loaded (the scale is lost) -/
example : (Sample.load basic).map (fun e => let s := (scale (.int 2) (.int 2) e).2
    ((clean s).1.toOption.isSome, scaleXs e, scaleXs s, scaleXs (clean s).2)) =
    some (true, [some 1, some 1], [some 2, some 1], [some 1, some 1]) := by decide +kernel

/-- C53 is false of the code: after `scale_animation`, `erase_animations` (which cleans) brings back the bones as loaded. -/
theorem c53_counterexample : (Sample.load basic).map (fun e => let s := (scale (.int 2) (.int 2) e).2
    let q := eraseAnims (.list [s!!"run"]) true false s
    (q.1.toOption.isSome, scaleXs s, scaleXs q.2)) = some (true, [some 2, some 1], [some 1, some 1]) := by decide +kernel

example : (Sample.load basic).map (fun e => let s := (scale (.int 2) (.int 2) e).2
    let q := eraseSkins [s!!"red"] false s
    (q.1.toOption.isSome, scaleXs q.2)) = some (true, [some 2, some 1]) := by decide +kernel
end examples

end Editor
end Spine
