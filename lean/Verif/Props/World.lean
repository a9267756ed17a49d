import Verif.Spec.World
import Verif.Props.EditorBasic
/- Property C94: `scale_animation` scales the picture. -/
namespace Spine
namespace World
open Plane Editor
set_option linter.unusedSectionVars false
attribute [local instance] Lean.Grind.Ring.intCast

variable {K : Type} [Lean.Grind.CommRing K] [Plane K] {F : Type} [PyRt F]

/-! ## the geometry -/

/-- a matrix times a number -/
def Mat.smul (s : K) (p : Mat K) : Mat K := ⟨s * p.a, s * p.b, s * p.c, s * p.d⟩

/-- a local transform with another scale -/
def Local.scaled (s t : K) (l : Local K) : Local K := { l with scaleX := l.scaleX * s, scaleY := l.scaleY * t }

/-- the bone does not take over the scale of its parent -/
def Mode.free : Mode → Bool
  | .normal | .noRotationOrReflection => false
  | _ => true

theorem mul_smul_left (s : K) (p q : Mat K) : (p.smul s).mul q = (p.mul q).smul s := by
  simp only [Mat.mul, Mat.smul, Mat.mk.injEq]; grind

theorem axes_scaled (s p q x y : K) : axes p q (x * s) (y * s) = (axes p q x y).smul s := by
  simp only [axes, Mat.smul, Mat.mk.injEq]; grind

theorem mul_smul_right (s : K) (p q : Mat K) : p.mul (q.smul s) = (p.mul q).smul s := by
  simp only [Mat.mul, Mat.smul, Mat.mk.injEq]; grind

theorem det_smul (s : K) (p : Mat K) : (p.smul s).det = s * s * p.det := by
  simp only [Mat.det, Mat.smul]; grind

theorem dir_smul {s : K} (hs : pos s) (p : Mat K) (u v : K) :
    dir ((p.smul s).a * u + (p.smul s).b * v) ((p.smul s).c * u + (p.smul s).d * v) =
      dir (p.a * u + p.b * v) (p.c * u + p.d * v) := by
  rw [← dir_mul (p.a * u + p.b * v) (p.c * u + p.d * v) hs]
  simp only [Mat.smul]
  congr 1 <;> grind

/-- a bone that takes over the scale of its parent grows with its parent -/
theorem inherit_smul {s : K} (hs : pos s) (p : Mat K) (l : Local K) (h : l.mode.free = false) :
    inherit (p.smul s) l = (inherit p l).smul s := by
  unfold inherit
  cases hm : l.mode <;> simp only [hm, Mode.free] at h ⊢ <;> try contradiction
  · exact mul_smul_left ..
  · simp only [det_smul]
    have hf : flat (p.smul s).a (p.smul s).c = flat p.a p.c := flat_mul _ _ hs
    have hr : ratio (s * s * p.det) ((p.smul s).a * (p.smul s).a + (p.smul s).c * (p.smul s).c) =
        ratio p.det (p.a * p.a + p.c * p.c) := by
      rw [← ratio_mul p.det (p.a * p.a + p.c * p.c) hs]
      congr 1
      simp only [Mat.smul]; grind
    have ha : ang (p.smul s).b (p.smul s).d = ang p.b p.d := ang_mul _ _ hs
    have hb : ang (p.smul s).a (p.smul s).c = ang p.a p.c := ang_mul _ _ hs
    rw [hf, hr, ha, hb]
    split
    · rw [← mul_smul_left]; congr 1
      simp only [Mat.smul, Mat.mk.injEq]; grind
    · rw [← mul_smul_left]; congr 1
      simp only [Mat.smul, Mat.mk.injEq]; grind

/-- a bone that does not take over the scale of its parent grows when it is scaled itself -/
theorem inherit_scaled {s : K} (hs : pos s) (p : Mat K) (l : Local K) (h : l.mode.free = true) :
    inherit (p.smul s) (l.scaled s s) = (inherit p l).smul s := by
  unfold inherit
  have hmode : (l.scaled s s).mode = l.mode := rfl
  cases hm : l.mode <;> simp only [hm, hmode, Mode.free] at h ⊢ <;> try contradiction
  · exact axes_scaled ..
  · simp only [Local.scaled, det_smul, neg_mul _ hs, dir_smul hs, axes_scaled, mul_smul_right]
    split <;> rfl
  · simp only [Local.scaled, dir_smul hs, axes_scaled, mul_smul_right]

theorem at_stretch (s t x y : K) (w : Frame K) (u v : K) :
    (w.stretch s t x y).at u v = stretch s t x y (w.at u v) := by
  simp only [Frame.at, Frame.stretch, stretch, Prod.mk.injEq]; grind

/-! ## the attributes -/

theorem number_mul {v : F → K} (hv : Exact v) {d : Int} {j j' : JVal F} {k : Num F} {x : K}
    (hx : number v d j = some x) (h : pyMul j k = .ok j') : number v d j' = some (x * value v k) := by
  cases j <;> simp only [number, Option.some.injEq, reduceCtorEq] at hx <;> cases k <;>
    simp only [pyMul, reduceCtorEq, Except.ok.injEq] at h
  · subst h; subst hx; simp only [number, value, Lean.Grind.Ring.intCast_mul]
  · split at h
    · rename_i f hf
      simp only [Except.ok.injEq] at h
      subst h; subst hx; simp only [number, value, hv.mul, hv.ofInt _ _ hf]
    · simp at h
  · split at h
    · rename_i f hf
      simp only [Except.ok.injEq] at h
      subst h; subst hx; simp only [number, value, hv.mul, hv.ofInt _ _ hf]
    · simp at h
  · subst h; subst hx; simp only [number, value, hv.mul]

theorem val_other {sx sy : Num F} {b b' : Bone F} (h : ScaledBy sx sy b b') {k : Str} (h1 : k ≠ s!!"scaleX")
    (h2 : k ≠ s!!"scaleY") : b'.rest.val k = b.rest.val k := by
  unfold Attrs.val; rw [h.other k h1 h2]

theorem localOf_scaled {v : F → K} (hv : Exact v) {kx ky : Num F} {p : Pose K} {b b' : Bone F} {l : Local K}
    (h : ScaledBy kx ky b b') (hl : localOf v p b = some l) :
    localOf v p b' = some (l.scaled (value v kx) (value v ky)) := by
  unfold localOf at hl ⊢
  rw [val_other h (k := s!!"x") (by decide) (by decide), val_other h (k := s!!"y") (by decide) (by decide),
    val_other h (k := s!!"rotation") (by decide) (by decide), val_other h (k := s!!"shearX") (by decide) (by decide),
    val_other h (k := s!!"shearY") (by decide) (by decide), val_other h (k := s!!"transform") (by decide) (by decide)]
  simp only [Option.bind_eq_bind, Option.bind_eq_some_iff, Option.some.injEq] at hl
  obtain ⟨x, hx, y, hy, r, hr, sx, hsx, sy, hsy, shx, hshx, shy, hshy, m, hm, rfl⟩ := hl
  simp only [hx, hy, hr, hshx, hshy, hm, number_mul hv hsx h.x, number_mul hv hsy h.y, Option.bind_eq_bind,
    Option.bind_some, Local.scaled, Option.some.injEq, Local.mk.injEq, true_and, and_true]
  grind

theorem localOf_mode {v : F → K} {p : Pose K} {b : Bone F} {l : Local K} (hl : localOf v p b = some l) :
    mode (b.rest.val s!!"transform") = some l.mode := by
  unfold localOf at hl
  simp only [Option.bind_eq_bind, Option.bind_eq_some_iff, Option.some.injEq] at hl
  obtain ⟨x, hx, y, hy, r, hr, sx, hsx, sy, hsy, shx, hshx, shy, hshy, m, hm, rfl⟩ := hl
  exact hm

/-- the bones `scale_animation` takes for not inheriting the scale are those the runtime takes for it -/
theorem c94_modes {v : F → K} {p : Pose K} {b : Bone F} {l : Local K} (hl : localOf v p b = some l) :
    l.mode.free = true ↔ NoInherit b := by
  have h := localOf_mode hl
  unfold NoInherit
  generalize b.rest.val s!!"transform" = j at h
  cases j <;> simp only [mode, reduceCtorEq, Option.some.injEq] at h
  · rw [← h]; simp [Mode.free]
  · rename_i s
    simp only [JVal.str.injEq]
    split at h
    · rename_i hs; simp only [Option.some.injEq] at h; subst hs; rw [← h]; simp [Mode.free]
    split at h
    · rename_i hs; simp only [Option.some.injEq] at h; subst hs; rw [← h]; simp [Mode.free]
    split at h
    · rename_i hs; simp only [Option.some.injEq] at h; subst hs; rw [← h]; simp [Mode.free]
    split at h
    · rename_i hs; simp only [Option.some.injEq] at h; subst hs; rw [← h]; simp [Mode.free]
    split at h
    · rename_i hs; simp only [Option.some.injEq] at h; subst hs; rw [← h]; simp [Mode.free]
    · simp at h

/-! ## the bones -/

theorem all₂_append {α β : Type} {R : α → β → Prop} {l l' : List α} {m m' : List β} (h : All₂ R l m) (h' : All₂ R l' m') :
    All₂ R (l ++ l') (m ++ m') := by
  induction h with
  | nil => exact h'
  | cons hr _ ih => exact .cons hr ih

theorem isBone_named {bones : List (Bone F)} {n : Str} {b : Bone F} (h : IsBone bones n b) : b.name = n := by
  obtain ⟨_, _, _, h, _⟩ := h; exact h

theorem isBone_all {R : Bone F → Bone F → Prop} {l l' : List (Bone F)} (h : All₂ R l l')
    (hn : ∀ b b', R b b' → b'.name = b.name) {n : Str} {b : Bone F} (hb : IsBone l n b) :
    ∃ b', IsBone l' n b' ∧ R b b' := by
  obtain ⟨p, q, rfl, hname, hp⟩ := hb
  induction p generalizing l' with
  | nil =>
    cases h with
    | cons hr h => exact ⟨_, ⟨[], _, rfl, (hn _ _ hr).trans hname, by simp⟩, hr⟩
  | cons x p ih =>
    cases h with
    | @cons _ y _ m hr h =>
      obtain ⟨b', ⟨p', q', rfl, h1, h2⟩, h3⟩ := ih h (fun z hz => hp z (by simp [hz]))
      refine ⟨b', ⟨y :: p', q', rfl, h1, ?_⟩, h3⟩
      intro z hz
      rcases List.mem_cons.1 hz with rfl | hz
      · rw [hn _ _ hr]; exact hp x (by simp)
      · exact h2 z hz

theorem isBone_unique {l : List (Bone F)} {n : Str} {b c : Bone F} (hb : IsBone l n b) (hc : IsBone l n c) : b = c := by
  obtain ⟨p, q, rfl, hb, hp⟩ := hb
  induction p with
  | nil =>
    obtain ⟨p', q', h, hc, hp'⟩ := hc
    cases p' with
    | nil => simp at h; exact h.1
    | cons x p' => simp at h; exact absurd (h.1 ▸ hb) (hp' x (by simp))
  | cons x p ih =>
    obtain ⟨p', q', h, hc, hp'⟩ := hc
    cases p' with
    | nil => simp at h; exact absurd (h.1 ▸ hc) (hp x (by simp))
    | cons x' p' =>
      simp at h
      exact ih ⟨p', q', h.2, hc, fun z hz => hp' z (by simp [hz])⟩ (fun z hz => hp z (by simp [hz]))

/-- what a successful call does to the bone of a name -/
theorem bone_after {kx ky : Num F} {e e' : Editor F} (h : Editor.scale kx ky e = (.ok (), e'))
    (hroot : ∀ b, b ∈ e.data.bones → b.name = s!!"root" → ¬ NoInherit b) {n : Str} {b : Bone F} (hb : IsBone e.data.bones n b) :
    ∃ b', IsBone e'.data.bones n b' ∧
      (((n = s!!"root" ∨ NoInherit b) ∧ ScaledBy kx ky b b') ∨ (n ≠ s!!"root" ∧ ¬ NoInherit b ∧ b' = b)) := by
  obtain ⟨pre, r, r', post, pre', post', hl, hr, hp, hs, h1, h2, rfl⟩ := c52_exactly_once_partial kx ky e e' h hroot
  have hname : ∀ b b' : Bone F, ((NoInherit b ∧ ScaledBy kx ky b b') ∨ (¬ NoInherit b ∧ b' = b)) → b'.name = b.name := by
    rintro b b' (⟨_, h⟩ | ⟨_, rfl⟩)
    · exact h.name
    · rfl
  by_cases hn : n = s!!"root"
  · subst hn
    have hbr : b = r := isBone_unique hb (hl ▸ ⟨pre, post, rfl, hr, hp⟩)
    subst hbr
    refine ⟨r', ⟨pre', post', rfl, hs.name.trans hr, ?_⟩, .inl ⟨.inl rfl, hs⟩⟩
    intro z hz
    obtain ⟨y, hy, hyz⟩ := h1.right hz
    rw [hname _ _ hyz]; exact hp y hy
  · have hall : All₂ (fun b b' => b'.name = b.name ∧
        (b.name ≠ s!!"root" → ((NoInherit b ∧ ScaledBy kx ky b b') ∨ (¬ NoInherit b ∧ b' = b))))
        e.data.bones (pre' ++ r' :: post') := by
      rw [hl]
      exact all₂_append (h1.mono fun x y _ hxy => ⟨hname _ _ hxy, fun _ => hxy⟩)
        (.cons ⟨hs.name, fun hc => absurd hr hc⟩ (h2.mono fun x y _ hxy => ⟨hname _ _ hxy, fun _ => hxy⟩))
    obtain ⟨b', hb', -, hbb⟩ := isBone_all hall (fun _ _ h => h.1) hb
    refine ⟨b', hb', ?_⟩
    have hbn : b.name ≠ s!!"root" := by rw [isBone_named hb]; exact hn
    rcases hbb hbn with ⟨h1, h2⟩ | ⟨h1, h2⟩
    · exact .inl ⟨.inr h1, h2⟩
    · exact .inr ⟨hn, h1, h2⟩

/-! ## C94 -/

/-- a bone is drawn in one frame only -/
theorem c94_unique {v : F → K} {pose : Str → Pose K} {bones : List (Bone F)} {n : Str} {w w' : Frame K}
    (h : Drawn v pose bones n w) (h' : Drawn v pose bones n w') : w = w' := by
  induction h generalizing w' with
  | root hb hp hl =>
    cases h' with
    | root hb' hp' hl' =>
      cases isBone_unique hb hb'
      rw [hl, Option.some.injEq] at hl'
      rw [hl']
    | child hb' hp' _ _ =>
      cases isBone_unique hb hb'
      rw [hp] at hp'; simp at hp'
  | child hb hp hw hl ih =>
    cases h' with
    | root hb' hp' hl' =>
      cases isBone_unique hb hb'
      rw [hp] at hp'; simp at hp'
    | child hb' hp' hw' hl' =>
      cases isBone_unique hb hb'
      rw [hl, Option.some.injEq] at hl'
      rw [hp, Option.some.injEq] at hp'
      subst hp'
      rw [hl', ih hw']

/-- Scaling by one positive factor: whatever pose an animation puts the bones in, every bone is drawn in the frame it was
drawn in before, enlarged from the position of the root bone. -/
theorem c94_uniform_partial {v : F → K} (hv : Exact v) (pose : Str → Pose K) {k : Num F} (hs : pos (value v k))
    {e e' : Editor F} (h : Editor.scale k k e = (.ok (), e'))
    (hroot : ∀ b, b ∈ e.data.bones → b.name = s!!"root" → ¬ NoInherit b)
    (honly : ∀ b, b ∈ e.data.bones → (b.parent = none ↔ b.name = s!!"root"))
    {r : Frame K} (hr : Drawn v pose e.data.bones s!!"root" r) {n : Str} {w : Frame K}
    (hw : Drawn v pose e.data.bones n w) :
    Drawn v pose e'.data.bones n (w.stretch (value v k) (value v k) r.x r.y) := by
  induction hw with
  | @root n b l hb hp hl =>
    have hmem : b ∈ e.data.bones := by obtain ⟨p, q, hpq, _⟩ := hb; rw [hpq]; simp
    have hn : n = s!!"root" := by rw [← isBone_named hb]; exact (honly b hmem).1 hp
    subst hn
    cases c94_unique hr (.root hb hp hl)
    obtain ⟨b', hb', hbb⟩ := bone_after h hroot hb
    rcases hbb with ⟨_, hbb⟩ | ⟨hc, _⟩
    · have := Drawn.root (v := v) (pose := pose) hb' (hbb.parent.trans hp) (localOf_scaled hv hbb hl)
      refine cast (congrArg _ ?_) this
      simp only [rootFrame, Frame.stretch, Local.scaled, Local.axes, axes, Frame.mk.injEq, Mat.mk.injEq]
      grind
    · exact absurd rfl hc
  | @child n b p l w hb hp hw hl ih =>
    have hmem : b ∈ e.data.bones := by obtain ⟨p, q, hpq, _⟩ := hb; rw [hpq]; simp
    have hn : n ≠ s!!"root" := by
      rintro rfl
      rw [(honly b hmem).2 (isBone_named hb)] at hp; simp at hp
    obtain ⟨b', hb', hbb⟩ := bone_after h hroot hb
    have hx : ∀ l' : Local K, inherit (w.m.smul (value v k)) l' = (inherit w.m l).smul (value v k) → l'.x = l.x → l'.y = l.y →
        (childFrame w l).stretch (value v k) (value v k) r.x r.y = childFrame (w.stretch (value v k) (value v k) r.x r.y) l' := by
      intro l' h1 h2 h3
      have : (w.stretch (value v k) (value v k) r.x r.y).m = w.m.smul (value v k) := rfl
      simp only [childFrame, this, h1, at_stretch, h2, h3]
      rfl
    rcases hbb with ⟨hc, hbb⟩ | ⟨_, hni, rfl⟩
    · have hni := hc.resolve_left hn
      have := Drawn.child (v := v) (pose := pose) hb' (hbb.parent.trans hp) ih (localOf_scaled hv hbb hl)
      rw [hx _ (inherit_scaled hs _ _ ((c94_modes hl).2 hni)) rfl rfl]
      exact this
    · rw [hx _ (inherit_smul hs _ _ (by simpa using mt (c94_modes hl).1 hni)) rfl rfl]
      exact Drawn.child hb' hp ih hl

/-- a point that is fixed to a bone (the corner of an image, say) is drawn where it was drawn before, moved away from the
root bone by the factor -/
theorem c94_points_partial {v : F → K} (hv : Exact v) (pose : Str → Pose K) {k : Num F} (hs : pos (value v k))
    {e e' : Editor F} (h : Editor.scale k k e = (.ok (), e'))
    (hroot : ∀ b, b ∈ e.data.bones → b.name = s!!"root" → ¬ NoInherit b)
    (honly : ∀ b, b ∈ e.data.bones → (b.parent = none ↔ b.name = s!!"root"))
    {r : Frame K} (hr : Drawn v pose e.data.bones s!!"root" r) {n : Str} {w w' : Frame K}
    (hw : Drawn v pose e.data.bones n w) (hw' : Drawn v pose e'.data.bones n w') (x y : K) :
    w'.at x y = stretch (value v k) (value v k) r.x r.y (w.at x y) := by
  rw [c94_unique hw' (c94_uniform_partial hv pose hs h hroot honly hr hw), at_stretch]

/-- the point of a mesh whose vertex has the given bones, weights and coordinates -/
inductive Blend (v : F → K) (pose : Str → Pose K) (bones : List (Bone F)) : List (Str × K × K × K) → K × K → Prop
  | nil : Blend v pose bones [] (0, 0)
  | cons {n t x y w l q} : Drawn v pose bones n w → Blend v pose bones l q →
      Blend v pose bones ((n, t, x, y) :: l) (t * (w.at x y).1 + q.1, t * (w.at x y).2 + q.2)

/-- a vertex of a mesh that several bones move, the weights having the sum one, is moved away from the root bone by the
factor as well -/
theorem c94_meshes_partial {v : F → K} (hv : Exact v) (pose : Str → Pose K) {k : Num F} (hs : pos (value v k))
    {e e' : Editor F} (h : Editor.scale k k e = (.ok (), e'))
    (hroot : ∀ b, b ∈ e.data.bones → b.name = s!!"root" → ¬ NoInherit b)
    (honly : ∀ b, b ∈ e.data.bones → (b.parent = none ↔ b.name = s!!"root"))
    {r : Frame K} (hr : Drawn v pose e.data.bones s!!"root" r) {vertex : List (Str × K × K × K)} {q q' : K × K}
    (hsum : (vertex.map fun x => x.2.1).foldr (· + ·) 0 = 1)
    (hq : Blend v pose e.data.bones vertex q) (hq' : Blend v pose e'.data.bones vertex q') :
    q' = stretch (value v k) (value v k) r.x r.y q := by
  have key : ∀ {vertex q q'}, Blend v pose e.data.bones vertex q → Blend v pose e'.data.bones vertex q' →
      q'.1 = value v k * q.1 + (vertex.map fun x => x.2.1).foldr (· + ·) 0 * (r.x - value v k * r.x) ∧
      q'.2 = value v k * q.2 + (vertex.map fun x => x.2.1).foldr (· + ·) 0 * (r.y - value v k * r.y) := by
    intro vertex q q' hq
    induction hq generalizing q' with
    | nil => intro hq'; cases hq'; simp only [List.map_nil, List.foldr_nil]; grind
    | @cons n t x y w l q hw _ ih =>
      intro hq'
      cases hq' with
      | cons hw' hq' =>
        have hp := c94_points_partial hv pose hs h hroot honly hr hw hw' x y
        obtain ⟨h1, h2⟩ := ih hq'
        simp only [hp, stretch, h1, h2, List.map_cons, List.foldr_cons]
        grind
  obtain ⟨h1, h2⟩ := key hq hq'
  rw [hsum] at h1 h2
  refine Prod.ext ?_ ?_
  · rw [h1]; simp only [stretch]; grind
  · rw [h2]; simp only [stretch]; grind

theorem axes_flat (l : Local K) (h1 : l.rotation = 0) (h2 : l.shearX = 0) (h3 : l.shearY = 0) :
    l.axes = ⟨l.scaleX, 0, 0, l.scaleY⟩ := by
  have ha : (0 : K) + 0 = 0 := by grind
  have hb : (0 : K) + right + 0 = right := by grind
  simp only [Local.axes, axes, h1, h2, h3, ha, hb, cos_zero, sin_zero, cos_right, sin_right, Mat.mk.injEq]
  grind

/-- Scaling by two factors of any sign: when the root bone is not rotated and every other bone has the mode "normal",
the picture is stretched along the axes of the world. -/
theorem c94_stretch_partial {v : F → K} (hv : Exact v) (pose : Str → Pose K) {kx ky : Num F}
    {e e' : Editor F} (h : Editor.scale kx ky e = (.ok (), e'))
    (hroot : ∀ b, b ∈ e.data.bones → b.name = s!!"root" → ¬ NoInherit b)
    (honly : ∀ b, b ∈ e.data.bones → (b.parent = none ↔ b.name = s!!"root"))
    (hflat : ∀ b l, IsBone e.data.bones s!!"root" b → localOf v (pose s!!"root") b = some l →
      l.rotation = 0 ∧ l.shearX = 0 ∧ l.shearY = 0)
    (hnormal : ∀ b, b ∈ e.data.bones → b.name ≠ s!!"root" → mode (b.rest.val s!!"transform") = some .normal)
    {r : Frame K} (hr : Drawn v pose e.data.bones s!!"root" r) {n : Str} {w : Frame K}
    (hw : Drawn v pose e.data.bones n w) :
    Drawn v pose e'.data.bones n (w.stretch (value v kx) (value v ky) r.x r.y) := by
  induction hw with
  | @root n b l hb hp hl =>
    have hmem : b ∈ e.data.bones := by obtain ⟨p, q, hpq, _⟩ := hb; rw [hpq]; simp
    have hn : n = s!!"root" := by rw [← isBone_named hb]; exact (honly b hmem).1 hp
    subst hn
    cases c94_unique hr (.root hb hp hl)
    obtain ⟨b', hb', hbb⟩ := bone_after h hroot hb
    rcases hbb with ⟨_, hbb⟩ | ⟨hc, _⟩
    · have := Drawn.root (v := v) (pose := pose) hb' (hbb.parent.trans hp) (localOf_scaled hv hbb hl)
      obtain ⟨f1, f2, f3⟩ := hflat b l hb hl
      refine cast (congrArg _ ?_) this
      rw [rootFrame, rootFrame, axes_flat l f1 f2 f3, axes_flat (l.scaled _ _) f1 f2 f3]
      simp only [Frame.stretch, Local.scaled, Frame.mk.injEq, Mat.mk.injEq]
      grind
    · exact absurd rfl hc
  | @child n b p l w hb hp hw hl ih =>
    have hmem : b ∈ e.data.bones := by obtain ⟨p, q, hpq, _⟩ := hb; rw [hpq]; simp
    have hn : n ≠ s!!"root" := by
      rintro rfl
      rw [(honly b hmem).2 (isBone_named hb)] at hp; simp at hp
    have hm : l.mode = .normal := by
      have := hnormal b hmem (by rw [isBone_named hb]; exact hn)
      rw [localOf_mode hl, Option.some.injEq] at this; exact this
    obtain ⟨b', hb', hbb⟩ := bone_after h hroot hb
    rcases hbb with ⟨hc, hbb⟩ | ⟨_, hni, rfl⟩
    · have := (c94_modes hl).2 (hc.resolve_left hn)
      rw [hm] at this; simp [Mode.free] at this
    · have := Drawn.child (v := v) (pose := pose) hb' hp ih hl
      refine cast (congrArg _ ?_) this
      simp only [childFrame, at_stretch]
      simp only [inherit, hm, Frame.stretch, stretch, Mat.mul, Frame.mk.injEq, Mat.mk.injEq]
      grind

end World
end Spine
