import Verif.Props.World
import Verif.Spec.WorldReal
/- C94 over the real numbers: cases that meet the hypotheses, and cases in which the picture is not scaled. -/
namespace Spine
namespace World
open Editor
attribute [local instance] Lean.Grind.Ring.intCast

/-- the value of a rational number -/
noncomputable def real (q : Rat) : ℝ := (q : ℝ)

theorem exact_real : Exact (F := Rat) real where
  mul a b := by
    show ((a * b : Rat) : ℝ) = _
    rw [Rat.cast_mul]; rfl
  ofInt i f h := by
    cases h
    show (((i : Rat)) : ℝ) = _
    rw [Rat.cast_intCast]

section examples

/-- the pose in which the bones are stored -/
def setup : Str → Pose ℝ := fun _ => ⟨0, 0, 0, 1, 1, 0, 0⟩

private def bone (n : String) (p : Option String) (t : JVal Rat) (rot sx : Rat) : Bone Rat :=
  ⟨n.toList, p.map String.toList, [(s!!"transform", t), (s!!"x", .flt 10), (s!!"y", .int 5), (s!!"rotation", .flt rot),
    (s!!"scaleX", .flt sx), (s!!"scaleY", .int 1)]⟩
private def ed (l : List (Bone Rat)) : Editor Rat :=
  { doc := { skeleton := [], version := ⟨s!!"3.8.0", 3, 8, 0⟩, data := ⟨l, [], [], [], [], [], [], []⟩ }, images := []
    graph := Graph.empty }

private def e1 : Editor Rat := ed [bone "root" none .null 0 1, bone "arm" (some "root") (.str s!!"noRotationOrReflection") 30 2,
  bone "hand" (some "arm") (.str s!!"noScale") 45 1, bone "ring" (some "hand") (.str s!!"normal") 0 1]

/-- every bone of this skeleton is drawn, and the call scales it: the hypotheses of `c94_uniform_partial` hold -/
example (w : Frame ℝ) (r : Frame ℝ) (hr : Drawn real setup e1.data.bones s!!"root" r)
    (hw : Drawn real setup e1.data.bones s!!"ring" w) :
    ∃ e', Editor.scale (.int 2) (.int 2) e1 = (.ok (), e') ∧ Drawn real setup e'.data.bones s!!"ring" (w.stretch 2 2 r.x r.y) := by
  refine ⟨_, rfl, ?_⟩
  have h2 : value (K := ℝ) real (.int 2) = 2 := by
    show (((2 : Int)) : ℝ) = 2
    norm_num
  have := c94_uniform_partial (K := ℝ) exact_real setup (k := .int 2) (e := e1) (by rw [h2]; show (0 : ℝ) < 2; norm_num) rfl
    ?_ ?_ hr hw
  · rw [h2] at this; exact this
  · intro b hb hn hi
    rw [← noInherit_iff] at hi
    have : ∀ b ∈ e1.data.bones, (b.name == s!!"root" && noInherit b) = false := by decide +kernel
    have := this b hb
    simp [hn, hi] at this
  · have : ∀ b ∈ e1.data.bones, (b.parent.isNone = (b.name == s!!"root")) := by decide +kernel
    intro b hb
    have := this b hb
    cases hp : b.parent <;> simp_all

private theorem isBone {l : List (Bone Rat)} {n : Str} (i : Nat) (b : Bone Rat) (h : l = l.take i ++ b :: l.drop (i + 1))
    (hn : b.name = n) (hp : (l.take i).all (fun x => x.name != n) = true) : IsBone l n b := by
  refine ⟨_, _, h, hn, ?_⟩
  intro x hx
  have := List.all_eq_true.1 hp x hx
  simpa using this

/-- there are such frames -/
example : ∃ r w, Drawn (K := ℝ) real setup e1.data.bones s!!"root" r ∧ Drawn real setup e1.data.bones s!!"ring" w := by
  have h0 : Drawn (K := ℝ) real setup e1.data.bones s!!"root" _ :=
    .root (isBone 0 (bone "root" none .null 0 1) rfl rfl rfl) rfl rfl
  have h1 : Drawn (K := ℝ) real setup e1.data.bones s!!"arm" _ :=
    .child (isBone 1 (bone "arm" (some "root") (.str s!!"noRotationOrReflection") 30 2) rfl rfl rfl) rfl h0 rfl
  have h2 : Drawn (K := ℝ) real setup e1.data.bones s!!"hand" _ :=
    .child (isBone 2 (bone "hand" (some "arm") (.str s!!"noScale") 45 1) rfl rfl rfl) rfl h1 rfl
  have h3 : Drawn (K := ℝ) real setup e1.data.bones s!!"ring" _ :=
    .child (isBone 3 (bone "ring" (some "hand") (.str s!!"normal") 0 1) rfl rfl rfl) rfl h2 rfl
  exact ⟨_, _, h0, h3⟩

private theorem local_bone (n : String) (p : Option String) (m : Mode) (t : JVal Rat) (rot sx : Rat) (sy : Int) (k : Str)
    (hm : mode t = some m) :
    localOf (K := ℝ) real (setup k) ⟨n.toList, p.map String.toList, [(s!!"transform", t), (s!!"x", .flt 10), (s!!"y", .int 5),
      (s!!"rotation", .flt rot), (s!!"scaleX", .flt sx), (s!!"scaleY", .int sy)]⟩ =
      some ⟨10, 5, real rot, real sx, (sy : ℝ), 0, 0, m⟩ := by
  have : ∀ t', mode t' = some m → localOf (K := ℝ) real (setup k) ⟨n.toList, p.map String.toList, [(s!!"transform", t'),
      (s!!"x", .flt 10), (s!!"y", .int 5), (s!!"rotation", .flt rot), (s!!"scaleX", .flt sx), (s!!"scaleY", .int sy)]⟩ =
      (mode t').bind fun m => some ⟨real 10 + 0, ((5 : Int) : ℝ) + 0, real rot + 0, real sx * 1, (sy : ℝ) * 1,
        ((0 : Int) : ℝ) + 0, ((0 : Int) : ℝ) + 0, m⟩ := fun _ _ => rfl
  rw [this t hm, hm]
  simp [real]

private theorem cos0 : Plane.cos (0 : ℝ) = 1 := Plane.cos_zero
private theorem sin0 : Plane.sin (0 : ℝ) = 0 := Plane.sin_zero
private theorem cos90 : Plane.cos (Plane.right : ℝ) = 0 := Plane.cos_right
private theorem sin90 : Plane.sin (Plane.right : ℝ) = 1 := Plane.sin_right

private def b1 (n : String) (p : Option String) (t : JVal Rat) (rot sx : Rat) (sy : Int) : Bone Rat :=
  ⟨n.toList, p.map String.toList, [(s!!"transform", t), (s!!"x", .flt 10), (s!!"y", .int 5), (s!!"rotation", .flt rot),
    (s!!"scaleX", .flt sx), (s!!"scaleY", .int sy)]⟩

private theorem mem_ed {l : List (Bone Rat)} {b : Bone Rat} : b ∈ (ed l).data.bones ↔ b ∈ l := Iff.rfl

private theorem only_root {l : List (Bone Rat)} (h : l.all (fun b => b.parent.isNone == (b.name == s!!"root")) = true) :
    ∀ b, b ∈ (ed l).data.bones → (b.parent = none ↔ b.name = s!!"root") := by
  intro b hb
  have := List.all_eq_true.1 h b (mem_ed.1 hb)
  cases hp : b.parent <;> simp_all

private theorem inherits {l : List (Bone Rat)} (h : l.all (fun b => !(b.name == s!!"root" && noInherit b)) = true) :
    ∀ b, b ∈ (ed l).data.bones → b.name = s!!"root" → ¬ NoInherit b := by
  intro b hb hn hi
  have := List.all_eq_true.1 h b (mem_ed.1 hb)
  rw [← noInherit_iff] at hi
  simp [hn, hi] at this

private theorem two : value (K := ℝ) real (.int 2) = 2 := by
  show (((2 : Int)) : ℝ) = 2
  norm_num

/-- a case that meets the hypotheses of `c94_meshes_partial`: a vertex two bones move, one of them twice as much -/
example (r : Frame ℝ) (q q' : ℝ × ℝ) (hr : Drawn real setup e1.data.bones s!!"root" r) (e' : Editor Rat)
    (h : Editor.scale (.int 2) (.int 2) e1 = (.ok (), e'))
    (hq : Blend real setup e1.data.bones [(s!!"arm", 1 / 3, 7, 8), (s!!"hand", 2 / 3, 1, 2)] q)
    (hq' : Blend real setup e'.data.bones [(s!!"arm", 1 / 3, 7, 8), (s!!"hand", 2 / 3, 1, 2)] q') :
    q'.1 = r.x + 2 * (q.1 - r.x) := by
  have := c94_meshes_partial (K := ℝ) exact_real setup (by rw [two]; show (0 : ℝ) < 2; norm_num) h (inherits rfl)
    (only_root rfl) hr (by simp only [List.map_cons, List.map_nil, List.foldr_cons, List.foldr_nil]; norm_num) hq hq'
  rw [two] at this
  rw [this]; rfl

/-- a case that meets the hypotheses of `c94_stretch_partial`: the picture is twice as wide and upside down -/
example : ∃ (e e' : Editor Rat) (r w : Frame ℝ), Editor.scale (.int 2) (.int (-1)) e = (.ok (), e') ∧
    Drawn real setup e.data.bones s!!"root" r ∧ Drawn real setup e.data.bones s!!"arm" w ∧
    Drawn real setup e'.data.bones s!!"arm" (w.stretch 2 (-1) r.x r.y) := by
  have h0 : Drawn (K := ℝ) real setup (ed [b1 "root" none .null 0 1 1, b1 "arm" (some "root") (.str s!!"normal") 30 1 1]).data.bones
      s!!"root" _ := .root (isBone 0 (b1 "root" none .null 0 1 1) rfl rfl rfl) rfl (local_bone _ _ .normal _ _ _ _ _ rfl)
  have h1 : Drawn (K := ℝ) real setup (ed [b1 "root" none .null 0 1 1, b1 "arm" (some "root") (.str s!!"normal") 30 1 1]).data.bones
      s!!"arm" _ := .child (isBone 1 (b1 "arm" (some "root") (.str s!!"normal") 30 1 1) rfl rfl rfl) rfl h0
        (local_bone _ _ .normal _ _ _ _ _ rfl)
  refine ⟨_, _, _, _, rfl, h0, h1, ?_⟩
  have hm : value (K := ℝ) real (.int (-1)) = -1 := by
    show (((-1 : Int)) : ℝ) = -1
    norm_num
  have := c94_stretch_partial (K := ℝ) exact_real setup (kx := .int 2) (ky := .int (-1)) rfl (inherits rfl) (only_root rfl)
    ?_ ?_ h0 h1
  · rw [two, hm] at this; exact this
  · intro b l hb hl
    cases isBone_unique hb (isBone 0 (b1 "root" none .null 0 1 1) rfl rfl rfl)
    have := local_bone "root" none .normal .null 0 1 1 s!!"root" rfl
    have hl' := hl.symm.trans this
    rw [Option.some.injEq] at hl'
    rw [hl']
    simp [real]
  · intro b hb hn
    have hb := mem_ed.1 hb
    simp only [List.mem_cons, List.not_mem_nil, or_false] at hb
    rcases hb with rfl | rfl
    · exact absurd rfl hn
    · rfl

/-- C94 is false of the code when the root bone does not inherit its scale: it is scaled twice. -/
theorem c94_counterexample_root : ∃ (e e' : Editor Rat) (r : Frame ℝ), Editor.scale (.int 2) (.int 2) e = (.ok (), e') ∧
    (∀ b, b ∈ e.data.bones → (b.parent = none ↔ b.name = s!!"root")) ∧
    Drawn real setup e.data.bones s!!"root" r ∧ ¬ Drawn real setup e'.data.bones s!!"root" (r.stretch 2 2 r.x r.y) := by
  refine ⟨ed [b1 "root" none (.str s!!"noScale") 0 1 1],
    ed [b1 "root" none (.str s!!"noScale") 0 (1 * ((2 : Int) : Rat) * ((2 : Int) : Rat)) (1 * 2 * 2)], _, rfl, only_root rfl,
    .root (isBone 0 (b1 "root" none (.str s!!"noScale") 0 1 1) rfl rfl rfl) rfl (local_bone _ _ .noScale _ _ _ _ _ rfl), ?_⟩
  intro hd
  have h := congrArg (fun w => w.m.a) (c94_unique hd
    (.root (isBone 0 (b1 "root" none (.str s!!"noScale") 0 _ _) rfl rfl rfl) rfl (local_bone _ _ .noScale _ _ _ _ _ rfl)))
  simp [rootFrame, Frame.stretch, Local.axes, axes, real, cos0] at h

/-- ... when another bone has no parent: it is not scaled at all. -/
theorem c94_counterexample_roots : ∃ (e e' : Editor Rat) (r w : Frame ℝ), Editor.scale (.int 2) (.int 2) e = (.ok (), e') ∧
    (∀ b, b ∈ e.data.bones → b.name = s!!"root" → ¬ NoInherit b) ∧
    Drawn real setup e.data.bones s!!"root" r ∧ Drawn real setup e.data.bones s!!"hips" w ∧
    ¬ Drawn real setup e'.data.bones s!!"hips" (w.stretch 2 2 r.x r.y) := by
  refine ⟨ed [b1 "root" none .null 0 1 1, b1 "hips" none .null 0 1 1],
    ed [b1 "root" none .null 0 (1 * ((2 : Int) : Rat)) (1 * 2), b1 "hips" none .null 0 1 1], _, _, rfl, inherits rfl,
    .root (isBone 0 (b1 "root" none .null 0 1 1) rfl rfl rfl) rfl (local_bone _ _ .normal _ _ _ _ _ rfl),
    .root (isBone 1 (b1 "hips" none .null 0 1 1) rfl rfl rfl) rfl (local_bone _ _ .normal _ _ _ _ _ rfl), ?_⟩
  intro hd
  have h := congrArg (fun w => w.m.a) (c94_unique hd
    (.root (isBone 1 (b1 "hips" none .null 0 1 1) rfl rfl rfl) rfl (local_bone _ _ .normal _ _ _ _ _ rfl)))
  simp [rootFrame, Frame.stretch, Local.axes, axes, real, cos0] at h

/-- ... when the factor is negative: a bone that takes over the direction but not the scale of its parent is turned twice. -/
theorem c94_counterexample_negative : ∃ (e e' : Editor Rat) (r w : Frame ℝ),
    Editor.scale (.int (-1)) (.int (-1)) e = (.ok (), e') ∧
    (∀ b, b ∈ e.data.bones → b.name = s!!"root" → ¬ NoInherit b) ∧
    (∀ b, b ∈ e.data.bones → (b.parent = none ↔ b.name = s!!"root")) ∧
    Drawn real setup e.data.bones s!!"root" r ∧ Drawn real setup e.data.bones s!!"arm" w ∧
    ¬ Drawn real setup e'.data.bones s!!"arm" (w.stretch (-1) (-1) r.x r.y) := by
  refine ⟨ed [b1 "root" none .null 0 1 1, b1 "arm" (some "root") (.str s!!"noScale") 0 1 1],
    ed [b1 "root" none .null 0 (1 * ((-1 : Int) : Rat)) (1 * -1), b1 "arm" (some "root") (.str s!!"noScale") 0 (1 * ((-1 : Int) : Rat)) (1 * -1)],
    _, _, rfl, inherits rfl, only_root rfl,
    .root (isBone 0 (b1 "root" none .null 0 1 1) rfl rfl rfl) rfl (local_bone _ _ .normal _ _ _ _ _ rfl),
    .child (isBone 1 (b1 "arm" (some "root") (.str s!!"noScale") 0 1 1) rfl rfl rfl) rfl
      (.root (isBone 0 (b1 "root" none .null 0 1 1) rfl rfl rfl) rfl (local_bone _ _ .normal _ _ _ _ _ rfl))
      (local_bone _ _ .noScale _ _ _ _ _ rfl), ?_⟩
  intro hd
  have h := congrArg (fun w => w.m.a) (c94_unique hd
    (.child (isBone 1 (b1 "arm" (some "root") (.str s!!"noScale") 0 _ _) rfl rfl rfl) rfl
      (.root (isBone 0 (b1 "root" none .null 0 _ _) rfl rfl rfl) rfl (local_bone _ _ .normal _ _ _ _ _ rfl))
      (local_bone _ _ .noScale _ _ _ _ _ rfl)))
  simp [rootFrame, childFrame, inherit, Mat.mul, Mat.det, Frame.stretch, Local.axes, axes, real, cos0, sin0, cos90, sin90,
    Plane.dir, Plane.neg] at h
  norm_num at h

/-- ... when the two factors differ and a bone that does not take over the scale is turned by a right angle: it is
stretched along its own axes, not along those of the picture. -/
theorem c94_counterexample_turned : ∃ (e e' : Editor Rat) (r w : Frame ℝ),
    Editor.scale (.int 2) (.int 1) e = (.ok (), e') ∧
    (∀ b, b ∈ e.data.bones → b.name = s!!"root" → ¬ NoInherit b) ∧
    (∀ b, b ∈ e.data.bones → (b.parent = none ↔ b.name = s!!"root")) ∧
    Drawn real setup e.data.bones s!!"root" r ∧ Drawn real setup e.data.bones s!!"arm" w ∧
    ¬ Drawn real setup e'.data.bones s!!"arm" (w.stretch 2 1 r.x r.y) := by
  refine ⟨ed [b1 "root" none .null 0 1 1, b1 "arm" (some "root") (.str s!!"onlyTranslation") 90 1 1],
    ed [b1 "root" none .null 0 (1 * ((2 : Int) : Rat)) (1 * 1), b1 "arm" (some "root") (.str s!!"onlyTranslation") 90 (1 * ((2 : Int) : Rat)) (1 * 1)],
    _, _, rfl, inherits rfl, only_root rfl,
    .root (isBone 0 (b1 "root" none .null 0 1 1) rfl rfl rfl) rfl (local_bone _ _ .normal _ _ _ _ _ rfl),
    .child (isBone 1 (b1 "arm" (some "root") (.str s!!"onlyTranslation") 90 1 1) rfl rfl rfl) rfl
      (.root (isBone 0 (b1 "root" none .null 0 1 1) rfl rfl rfl) rfl (local_bone _ _ .normal _ _ _ _ _ rfl))
      (local_bone _ _ .onlyTranslation _ _ _ _ _ rfl), ?_⟩
  intro hd
  have h := congrArg (fun w => w.m.c) (c94_unique hd
    (.child (isBone 1 (b1 "arm" (some "root") (.str s!!"onlyTranslation") 90 _ _) rfl rfl rfl) rfl
      (.root (isBone 0 (b1 "root" none .null 0 _ _) rfl rfl rfl) rfl (local_bone _ _ .normal _ _ _ _ _ rfl))
      (local_bone _ _ .onlyTranslation _ _ _ _ _ rfl)))
  have h90 : Plane.sin (90 : ℝ) = 1 := Plane.sin_right
  simp [rootFrame, childFrame, inherit, Frame.stretch, Local.axes, axes, real, h90] at h

end examples
end World
end Spine
