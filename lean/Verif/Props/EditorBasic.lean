import Verif.Lemmas.Editor
import Verif.Props.Scale
/- Properties C34, C35, C36 (erase_animations) and C52 (scale_animation). -/
namespace Spine
set_option linter.unusedSectionVars false
variable {F : Type} [PyRt F]

namespace Editor

/-! ## erase_animations -/

theorem keys_removeSlots {ids : List Str} {orig : List (Slot F)} {a a' : AnimData F}
    (h : removeSlots ids orig a = (.ok (), a')) : Dict.keys a'.animations = Dict.keys a.animations := by
  obtain ⟨an, h', rfl⟩ := removeSlots_ok h
  rw [mapMutD_ok] at h'
  have := h'.map_eq (f := (·.1)) (g := (·.1)) (fun x y h => h.1.symm)
  show an.map (·.1) = _
  rw [← this]
  exact keys_dmap (fun x : Anim F => (x.removeSlots ids).removeDeformSlots ids) a.animations

theorem keys_removeAttachments (ids : List Str) (a : AnimData F) :
    Dict.keys (removeAttachments ids a).animations = Dict.keys a.animations := by
  show Dict.keys (List.foldl (fun an s => dmap (Anim.removeDeformAtts ids s.name) an) a.animations a.skins) = _
  generalize a.skins = l
  generalize a.animations = d
  induction l generalizing d with
  | nil => rfl
  | cons s l ih => rw [List.foldl_cons, ih, keys_dmap]

theorem keys_clean {e e' : Editor F} {r : List Str × List Str} (h : clean e = (.ok r, e')) :
    Dict.keys e'.data.animations = Dict.keys e.data.animations := by
  obtain ⟨slots, g1, e1, a, imgs, g2, _, _, hr, hs, _, rfl⟩ := clean_ok (ids := r.1) (atts := r.2) h
  obtain ⟨j, bs, ss, is, _, _, _, _, rfl⟩ := readBack_ok hr
  show Dict.keys (removeAttachments r.2 a).animations = _
  rw [keys_removeAttachments, keys_removeSlots hs]
  show Dict.keys (dmap _ _) = _
  rw [keys_dmap]; rfl

/-- C34: whenever `erase_animations(names)` returns, the animations of the document are the previous ones whose name is not
in `names`, in the same order; the returned document is the document of the editor. -/
theorem c34_erase_exact (names : List Str) (strict safe : Bool) (e e' : Editor F) (j : JVal F) (r : List Str × List Str)
    (h : eraseAnims (.list names) strict safe e = (.ok (j, r), e')) :
    Dict.keys e'.data.animations = (Dict.keys e.data.animations).filter (fun n => n ∉ names) ∧ j = e'.toJson := by
  simp only [eraseAnims] at h
  split at h
  · simp at h
  · split at h
    · simp at h
    · rename_i r' e'' hc
      simp only [Prod.mk.injEq, Except.ok.injEq] at h
      obtain ⟨⟨rfl, rfl⟩, rfl⟩ := h
      refine ⟨?_, rfl⟩
      unfold cleanUnless at hc
      have hk : Dict.keys ((eraseRaw names e.data.animations).1) =
          (Dict.keys e.data.animations).filter (fun n => n ∉ names) := by
        rw [eraseRaw_fst]; simp only [Dict.keys, List.filter_map, Function.comp_def]
      split at hc
      · simp only [Prod.mk.injEq, Except.ok.injEq] at hc
        obtain ⟨_, rfl⟩ := hc
        exact hk
      · rw [keys_clean hc]; exact hk

/-- C34, C36: in safe mode the call changes the animations only: the editor afterwards is the same editor with the named
animations filtered out, so bones, slots, skins, iks, constraints, events, the remaining animations, images_references and
the graph are unchanged. -/
theorem c36_safe_mode (names : List Str) (strict : Bool) (e e' : Editor F) (j : JVal F) (r : List Str × List Str)
    (h : eraseAnims (.list names) strict true e = (.ok (j, r), e')) :
    e' = e.withData { e.data with animations := e.data.animations.filter (fun p => p.1 ∉ names) } ∧ r = ([], []) := by
  simp only [eraseAnims] at h
  split at h
  · simp at h
  · simp only [cleanUnless, if_true, Prod.mk.injEq, Except.ok.injEq] at h
    obtain ⟨⟨_, rfl⟩, rfl⟩ := h
    rw [eraseRaw_fst]
    exact ⟨rfl, rfl⟩

/-- C36, spelled out. -/
theorem c36_fields (names : List Str) (strict : Bool) (e e' : Editor F) (j : JVal F) (r : List Str × List Str)
    (h : eraseAnims (.list names) strict true e = (.ok (j, r), e')) :
    e'.data.bones = e.data.bones ∧ e'.data.slots = e.data.slots ∧ e'.data.skins = e.data.skins ∧
    e'.data.events = e.data.events ∧ e'.data.ik = e.data.ik ∧ e'.data.transform = e.data.transform ∧
    e'.data.path = e.data.path ∧ e'.images = e.images ∧ e'.graph = e.graph ∧ e'.doc.skeleton = e.doc.skeleton ∧
    e'.doc.version = e.doc.version ∧
    (∀ n a, (n, a) ∈ e'.data.animations ↔ (n, a) ∈ e.data.animations ∧ n ∉ names) := by
  obtain ⟨rfl, _⟩ := c36_safe_mode names strict e e' j r h
  refine ⟨rfl, rfl, rfl, rfl, rfl, rfl, rfl, rfl, rfl, rfl, rfl, ?_⟩
  intro n a
  show (n, a) ∈ e.data.animations.filter _ ↔ _
  rw [List.mem_filter]; simp

/-- C35: with `strict_mode=True` the call raises ValueError exactly when a name is not an animation or is repeated; what
happens to the editor is stated too: the named animations that exist are gone. -/
theorem c35_strict_raises_partial (names : List Str) (safe : Bool) (e : Editor F)
    (h : ¬ (names.Nodup ∧ ∀ n ∈ names, n ∈ Dict.keys e.data.animations)) :
    eraseAnims (.list names) true safe e =
      (.error .value, e.withData { e.data with animations := e.data.animations.filter (fun p => p.1 ∉ names) }) := by
  simp only [eraseAnims]
  rw [← eraseRaw_snd_nil] at h
  rw [if_pos ⟨h, trivial⟩, eraseRaw_fst]

/-- C35: the editor is unchanged when none of the names is an animation. -/
theorem c35_all_unknown_partial (names : List Str) (safe : Bool) (e : Editor F) (hne : names ≠ [])
    (h : ∀ n ∈ names, n ∉ Dict.keys e.data.animations) :
    eraseAnims (.list names) true safe e = (.error .value, e) := by
  rw [c35_strict_raises_partial]
  · have : e.data.animations.filter (fun p => p.1 ∉ names) = e.data.animations := by
      rw [List.filter_eq_self]
      intro p hp
      simp only [decide_eq_true_eq]
      intro hn
      exact h _ hn (List.mem_map_of_mem hp)
    rw [this]; rfl
  · rintro ⟨_, hall⟩
    cases names with
    | nil => exact hne rfl
    | cons n ns => exact h n (by simp) (hall n (by simp))

/-- C35: when every name is an animation and no name is repeated, strict mode makes no difference. -/
theorem c35_strict_known (names : List Str) (safe : Bool) (e : Editor F)
    (h : names.Nodup ∧ ∀ n ∈ names, n ∈ Dict.keys e.data.animations) :
    eraseAnims (.list names) true safe e = eraseAnims (.list names) false safe e := by
  simp only [eraseAnims]
  rw [← eraseRaw_snd_nil] at h
  rw [if_neg (by simp [h]), if_neg (by simp)]

/-- C35: with `strict_mode=False` unknown names are ignored: the call does the same as for the known names only. -/
theorem c35_lenient_ignores (names : List Str) (safe : Bool) (e : Editor F) :
    eraseAnims (.list names) false safe e =
      eraseAnims (.list (names.filter (fun n => n ∈ Dict.keys e.data.animations))) false safe e := by
  simp only [eraseAnims]
  rw [if_neg (by simp), if_neg (by simp), eraseRaw_fst, eraseRaw_fst]
  have : e.data.animations.filter (fun p => decide (p.1 ∉ names)) = e.data.animations.filter
      (fun p => decide (p.1 ∉ names.filter (fun n => n ∈ Dict.keys e.data.animations))) := by
    apply List.filter_congr
    intro p hp
    have : p.1 ∈ Dict.keys e.data.animations := List.mem_map_of_mem hp
    simp [this]
  rw [this]

/-- C35: an argument that is not a list is a TypeError and changes nothing. -/
theorem c35_not_a_list (strict safe : Bool) (e : Editor F) : eraseAnims .other strict safe e = (.error .type, e) := rfl

section examples
private def noAnim : Anim Rat := ⟨[], [], [], [], [], [], [], []⟩
private def ed (l : List String) : Editor Rat :=
  { doc := { skeleton := [], version := ⟨s!!"3.8.0", 3, 8, 0⟩
             data := ⟨[], [], [], [], [], [], [], l.map (fun n => (n.toList, noAnim))⟩ }, images := []
    graph := Graph.empty }

example : ∃ j r e', eraseAnims (.list [s!!"run"]) true true (ed ["walk", "run"]) = (.ok (j, r), e') := ⟨_, _, _, rfl⟩
example : Dict.keys (eraseAnims (.list [s!!"run", s!!"fly"]) false true (ed ["walk", "run"])).2.data.animations = [s!!"walk"] := by
  decide +kernel

/-- C35 is false of the code: a strict call with a known and an unknown name raises, and the known animation is gone. -/
theorem c35_counterexample :
    ∃ (e : Editor Rat) (names : List Str), (∃ n ∈ names, n ∉ Dict.keys e.data.animations) ∧
      (eraseAnims (.list names) true true e).1.toOption.isNone = true ∧
      Dict.keys (eraseAnims (.list names) true true e).2.data.animations ≠ Dict.keys e.data.animations :=
  ⟨ed ["walk", "run"], [s!!"run", s!!"fly"], ⟨s!!"fly", by decide +kernel, by decide +kernel⟩, by decide +kernel,
    by decide +kernel⟩
end examples

/-! ## scale_animation -/

/-- `b'` is the bone `b` with `scaleX` multiplied by `sx` and `scaleY` by `sy`, and nothing else changed -/
structure ScaledBy (sx sy : Num F) (b b' : Bone F) : Prop where
  name : b'.name = b.name
  parent : b'.parent = b.parent
  x : pyMul (b.rest.val s!!"scaleX") sx = .ok (b'.rest.val s!!"scaleX")
  y : pyMul (b.rest.val s!!"scaleY") sy = .ok (b'.rest.val s!!"scaleY")
  other : ∀ k, k ≠ s!!"scaleX" → k ≠ s!!"scaleY" → Dict.get? b'.rest k = Dict.get? b.rest k
  order : s!!"scaleX" ∈ Dict.keys b.rest → s!!"scaleY" ∈ Dict.keys b.rest → Dict.keys b'.rest = Dict.keys b.rest

theorem keys_set_of_mem {α : Type} {d : Dict α} {k : Str} (h : k ∈ Dict.keys d) (v : α) :
    Dict.keys (Dict.set d k v) = Dict.keys d := by
  rw [Dict.keys_set, if_pos h]

theorem scale_ok {sx sy : Num F} {b b' : Bone F} (h : b.scale sx sy = (.ok (), b')) : ScaledBy sx sy b b' := by
  unfold Bone.scale at h
  split at h
  · simp at h
  · simp at h
  · split at h
    · simp at h
    · rename_i x' hx
      simp only at h
      split at h
      · simp at h
      · rename_i y' hy
        simp only [Prod.mk.injEq, true_and] at h
        subst h
        have hne : (s!!"scaleX" : Str) ≠ s!!"scaleY" := by decide
        refine ⟨rfl, rfl, ?_, ?_, ?_, ?_⟩
        · rw [hx]; simp [Attrs.val, Dict.get?_set]
        · rw [hy]; simp [Attrs.val, Dict.get?_set]
        · intro k h1 h2
          simp only [Dict.get?_set]
          rw [if_neg h2, if_neg h1]
        · intro h1 h2
          simp only
          rw [keys_set_of_mem (by rw [keys_set_of_mem h1]; exact h2), keys_set_of_mem h1]

/-- the transform modes that do not inherit the scale of the parent -/
def NoInherit (b : Bone F) : Prop :=
  b.rest.val s!!"transform" = .str s!!"noScale" ∨ b.rest.val s!!"transform" = .str s!!"noScaleOrReflection" ∨
  b.rest.val s!!"transform" = .str s!!"onlyTranslation"

theorem noInherit_iff (b : Bone F) : noInherit b = true ↔ NoInherit b := by
  unfold noInherit NoInherit
  split
  · rename_i t ht; simp [ht]
  · rename_i h
    constructor
    · intro h; cases h
    · rintro (h' | h' | h') <;> exact absurd h' (h _)

/-- what happens to the bones: `pre` are the bones before the first bone named root, `r` is that bone -/
theorem onFirst_ok {n : Str} {f : Bone F → Res (Bone F) Unit} {l l' : List (Bone F)} (h : onFirst n f l = (.ok (), l')) :
    ∃ pre b b' post, l = pre ++ b :: post ∧ l' = pre ++ b' :: post ∧ b.name = n ∧ (∀ x ∈ pre, x.name ≠ n) ∧
      f b = (.ok (), b') := by
  induction l generalizing l' with
  | nil => simp [onFirst] at h
  | cons b l ih =>
    rw [onFirst] at h
    split at h
    · rename_i hn
      simp only [Prod.mk.injEq] at h
      exact ⟨[], b, (f b).2, l, rfl, h.2.symm, hn, by simp, Prod.ext h.1 rfl⟩
    · rename_i hn
      simp only [Prod.mk.injEq] at h
      obtain ⟨pre, x, x', post, e1, e2, h1, h2, h3⟩ := ih (l' := (onFirst n f l).2) (Prod.ext h.1 rfl)
      refine ⟨b :: pre, x, x', post, by rw [e1]; rfl, by rw [← h.2, e2]; rfl, h1, ?_, h3⟩
      intro y hy
      rcases List.mem_cons.1 hy with rfl | hy
      · exact hn
      · exact h2 y hy

/-- C52, exact description: a successful call changes the bones only; every bone with a non-inheriting transform is scaled
once, the first bone named root is scaled once more, all other bones are unchanged. -/
theorem c52_scale_exact (sx sy : Num F) (e e' : Editor F) (h : scale sx sy e = (.ok (), e')) :
    ∃ mid pre root root' post,
      All₂ (fun b b' => (NoInherit b ∧ ScaledBy sx sy b b') ∨ (¬ NoInherit b ∧ b' = b)) e.data.bones mid ∧
      mid = pre ++ root :: post ∧ root.name = s!!"root" ∧ (∀ b ∈ pre, b.name ≠ s!!"root") ∧ ScaledBy sx sy root root' ∧
      e' = e.withData { e.data with bones := pre ++ root' :: post } := by
  unfold scale at h
  split at h
  · simp at h
  · rename_i u mid hm
    simp only [Prod.mk.injEq] at h
    obtain ⟨h1, h2⟩ := h
    rw [mapMut_ok] at hm
    obtain ⟨pre, b, b', post, e1, e2, hn, hp, hb⟩ := onFirst_ok (Prod.ext h1 rfl)
    refine ⟨mid, pre, b, b', post, ?_, e1, hn, hp, scale_ok hb, ?_⟩
    · refine hm.mono ?_
      intro x y _ hxy
      split at hxy
      · rename_i hi; exact .inl ⟨(noInherit_iff x).1 hi, scale_ok hxy⟩
      · rename_i hi
        refine .inr ⟨fun hc => hi ((noInherit_iff x).2 hc), ?_⟩
        simp only [Prod.mk.injEq, true_and] at hxy; exact hxy.symm
    · rw [← h2]; exact congrArg (fun l => e.withData { e.data with bones := l }) e2

/-- C52 when the root bone inherits the scale (`transform` absent or "normal"): bone by bone, exactly the root bone (the
first bone of that name) and the non-inheriting bones are multiplied, once, and everything else is unchanged. -/
theorem c52_exactly_once_partial (sx sy : Num F) (e e' : Editor F) (h : scale sx sy e = (.ok (), e'))
    (hroot : ∀ b ∈ e.data.bones, b.name = s!!"root" → ¬ NoInherit b) :
    ∃ pre root root' post pre' post',
      e.data.bones = pre ++ root :: post ∧ root.name = s!!"root" ∧ (∀ b ∈ pre, b.name ≠ s!!"root") ∧
      ScaledBy sx sy root root' ∧
      All₂ (fun b b' => (NoInherit b ∧ ScaledBy sx sy b b') ∨ (¬ NoInherit b ∧ b' = b)) pre pre' ∧
      All₂ (fun b b' => (NoInherit b ∧ ScaledBy sx sy b b') ∨ (¬ NoInherit b ∧ b' = b)) post post' ∧
      e' = e.withData { e.data with bones := pre' ++ root' :: post' } := by
  obtain ⟨mid, pre', root, root', post', hall, hmid, hn, hp, hs, rfl⟩ := c52_scale_exact sx sy e e' h
  subst hmid
  have key : ∀ (l : List (Bone F)) (pre' : List (Bone F)) (post' : List (Bone F)) (root : Bone F),
      All₂ (fun b b' => (NoInherit b ∧ ScaledBy sx sy b b') ∨ (¬ NoInherit b ∧ b' = b)) l (pre' ++ root :: post') →
      ∃ pre r post, l = pre ++ r :: post ∧
        All₂ (fun b b' => (NoInherit b ∧ ScaledBy sx sy b b') ∨ (¬ NoInherit b ∧ b' = b)) pre pre' ∧
        All₂ (fun b b' => (NoInherit b ∧ ScaledBy sx sy b b') ∨ (¬ NoInherit b ∧ b' = b)) post post' ∧
        ((NoInherit r ∧ ScaledBy sx sy r root) ∨ (¬ NoInherit r ∧ root = r)) := by
    intro l pre'
    induction pre' generalizing l with
    | nil =>
      intro post' root h
      cases h with
      | cons hr h => exact ⟨[], _, _, rfl, .nil, h, hr⟩
    | cons p pre' ih =>
      intro post' root h
      cases h with
      | cons hr h =>
        obtain ⟨pre, r, post, rfl, h1, h2, h3⟩ := ih _ _ _ h
        exact ⟨_ :: pre, r, post, rfl, .cons hr h1, h2, h3⟩
  obtain ⟨pre, r, post, hl, h1, h2, h3⟩ := key _ _ _ _ hall
  have hname : r.name = s!!"root" := by
    rcases h3 with ⟨_, h3⟩ | ⟨_, h3⟩
    · rw [← h3.name]; exact hn
    · rw [← h3]; exact hn
  have hr : root = r := by
    rcases h3 with ⟨h3, _⟩ | ⟨_, h3⟩
    · exact absurd h3 (hroot r (by rw [hl]; simp) hname)
    · exact h3
  subst hr
  refine ⟨pre, root, root', post, pre', post', hl, hn, ?_, hs, h1, h2, rfl⟩
  intro b hb
  obtain ⟨b', hb', hbb⟩ := h1.left hb
  rcases hbb with ⟨_, hbb⟩ | ⟨_, hbb⟩
  · rw [← hbb.name]; exact hp b' hb'
  · rw [← hbb]; exact hp b' hb'

/-- C52: without a bone named root the call raises, after having scaled the non-inheriting bones. -/
theorem c52_no_root (sx sy : Num F) (e : Editor F) (hroot : ∀ b ∈ e.data.bones, b.name ≠ s!!"root") :
    ∃ x, (scale sx sy e).1 = .error x := by
  cases h : scale sx sy e with
  | mk r e' =>
    cases r with
    | error x => exact ⟨x, rfl⟩
    | ok u =>
      obtain ⟨mid, pre, root, root', post, hall, rfl, hn, _, _, _⟩ := c52_scale_exact sx sy e e' h
      obtain ⟨b, hb, hbr⟩ := hall.right (y := root) (by simp)
      rcases hbr with ⟨_, hbr⟩ | ⟨_, hbr⟩
      · exact absurd (hbr.name ▸ hn) (hroot b hb)
      · exact absurd (hbr ▸ hn) (hroot b hb)

section examples
private def bone (n : String) (t : JVal Rat) (x : Rat) : Bone Rat :=
  ⟨n.toList, none, [(s!!"transform", t), (s!!"scaleX", .flt x), (s!!"scaleY", .flt x)]⟩
private def eb (l : List (Bone Rat)) : Editor Rat :=
  { doc := { skeleton := [], version := ⟨s!!"3.8.0", 3, 8, 0⟩, data := ⟨l, [], [], [], [], [], [], []⟩ }, images := []
    graph := Graph.empty }
private def scalesOf (r : Res (Editor Rat) Unit) : List (Option Rat × Option Rat) :=
  r.2.data.bones.map (fun b => ((match b.rest.val s!!"scaleX" with | .flt f => some f | _ => none),
    (match b.rest.val s!!"scaleY" with | .flt f => some f | _ => none)))
private def e1 : Editor Rat := eb [bone "root" .null 1, bone "arm" (.str s!!"noScale") 1, bone "leg" (.str s!!"normal") 1]

/-- the hypotheses of `c52_exactly_once_partial` hold here, and the factors are applied once -/
example : scalesOf (scale (.flt 2) (.flt 3) e1) = [(some 2, some 3), (some 2, some 3), (some 1, some 1)] := by decide +kernel
example : ∃ e', scale (.flt 2) (.flt 3) e1 = (.ok (), e') ∧
    ∀ b ∈ e1.data.bones, b.name = s!!"root" → ¬ NoInherit b := by
  refine ⟨_, rfl, ?_⟩
  intro b hb hn hi
  rw [← noInherit_iff] at hi
  have : ∀ b ∈ e1.data.bones, (b.name == s!!"root" && noInherit b) = false := by decide +kernel
  have := this b hb
  simp [hn, hi] at this

/-- C52 is false of the code: a root bone with transform noScale is scaled twice. -/
theorem c52_counterexample :
    ∃ (e e' : Editor Rat) (b b' : Bone Rat), scale (.flt 2) (.flt 2) e = (.ok (), e') ∧ e.data.bones = [b] ∧
      e'.data.bones = [b'] ∧ b.name = s!!"root" ∧ b.rest.val s!!"scaleX" = .flt 1 ∧ b'.rest.val s!!"scaleX" = .flt (1 * 2 * 2) :=
  ⟨eb [bone "root" (.str s!!"noScale") 1], _, _, _, rfl, rfl, rfl, rfl, rfl, rfl⟩
end examples

end Editor
end Spine
