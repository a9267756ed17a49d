import Verif.Props.Scale
/-
Where the runtime draws the bones of a skeleton.

The library writes attributes; what they mean is decided by the Spine runtime that plays the document.  This file states
that meaning — the world transform of a bone, as the runtime's `Bone.updateWorldTransform` computes it — so that
`scale_animation` can be judged by the picture and not by the attributes it happens to touch.  It is a specification:
nothing in it is taken from /repo.

The runtime calculates with machine numbers and with small thresholds ("longer than 0.0001"); here the numbers are those
of any commutative ring with the functions of `Plane`, and the thresholds are zero.  Constraints (inverse kinematics,
transform, path), which change the transforms of bones after they have been computed, are left out.
-/
namespace Spine
namespace World

set_option linter.unusedSectionVars false

/-- The geometry of the plane the runtime uses, angles in degrees.  The laws say that a positive factor changes neither
directions nor ratios; `Verif.Spec.WorldReal` shows that the real numbers have all of this. -/
class Plane (K : Type) [Lean.Grind.CommRing K] where
  /-- the number is positive -/
  pos : K → Prop
  cos : K → K
  sin : K → K
  /-- ninety degrees -/
  right : K
  /-- the vector divided by its length (the zero vector stays) -/
  dir : K → K → K × K
  /-- the angle of a vector: `ang x y` is `atan2(y, x)` -/
  ang : K → K → K
  /-- the number is negative -/
  neg : K → Bool
  /-- both numbers are zero -/
  flat : K → K → Bool
  /-- `|x| / y` -/
  ratio : K → K → K
  pos_one : pos 1
  cos_zero : cos 0 = 1
  sin_zero : sin 0 = 0
  cos_right : cos right = 0
  sin_right : sin right = 1
  dir_mul {s : K} (x y : K) : pos s → dir (s * x) (s * y) = dir x y
  ang_mul {s : K} (x y : K) : pos s → ang (s * x) (s * y) = ang x y
  flat_mul {s : K} (x y : K) : pos s → flat (s * x) (s * y) = flat x y
  neg_mul {s : K} (x : K) : pos s → neg (s * s * x) = neg x
  ratio_mul {s : K} (x y : K) : pos s → ratio (s * s * x) (s * s * y) = ratio x y

/-- a matrix with rows (a, b) and (c, d) -/
structure Mat (K : Type) where
  a : K
  b : K
  c : K
  d : K

/-- the frame of a bone in the world: its axes are the columns of the matrix, its origin is (x, y) -/
structure Frame (K : Type) where
  m : Mat K
  x : K
  y : K

/-- which parts of the parent's transform a bone takes over -/
inductive Mode where
  | normal
  | onlyTranslation
  | noRotationOrReflection
  | noScale
  | noScaleOrReflection

/-- the transform of a bone relative to its parent -/
structure Local (K : Type) where
  x : K
  y : K
  rotation : K
  scaleX : K
  scaleY : K
  shearX : K
  shearY : K
  mode : Mode

/-- what an animation adds to a bone at some moment: timelines add to the position, rotation and shear, and multiply the
scale -/
structure Pose (K : Type) where
  x : K
  y : K
  rotation : K
  scaleX : K
  scaleY : K
  shearX : K
  shearY : K

section
variable {K : Type} [Lean.Grind.CommRing K] [Plane K]
open Plane
attribute [local instance] Lean.Grind.Ring.intCast

def Mat.mul (p q : Mat K) : Mat K :=
  ⟨p.a * q.a + p.b * q.c, p.a * q.b + p.b * q.d, p.c * q.a + p.d * q.c, p.c * q.b + p.d * q.d⟩

def Mat.det (p : Mat K) : K := p.a * p.d - p.b * p.c

/-- axes at the angles `p` and `q`, of lengths `sx` and `sy` -/
def axes (p q sx sy : K) : Mat K := ⟨cos p * sx, cos q * sy, sin p * sx, sin q * sy⟩

/-- the local matrix of a bone -/
def Local.axes (l : Local K) : Mat K :=
  World.axes (l.rotation + l.shearX) (l.rotation + right + l.shearY) l.scaleX l.scaleY

/-- the matrix of a bone with local transform `l` whose parent has the matrix `p` -/
def inherit (p : Mat K) (l : Local K) : Mat K :=
  match l.mode with
  | .normal => p.mul l.axes
  | .onlyTranslation => l.axes
  | .noRotationOrReflection =>
    if flat p.a p.c then
      let prx := right - ang p.b p.d
      let q : Mat K := World.axes (l.rotation + l.shearX - prx) (l.rotation + l.shearY - prx + right) l.scaleX l.scaleY
      Mat.mul ⟨0, -p.b, 0, p.d⟩ q
    else
      let s := ratio p.det (p.a * p.a + p.c * p.c)
      let prx := ang p.a p.c
      let q : Mat K := World.axes (l.rotation + l.shearX - prx) (l.rotation + l.shearY - prx + right) l.scaleX l.scaleY
      Mat.mul ⟨p.a, -(p.c * s), p.c, p.a * s⟩ q
  | .noScale =>
    let z := dir (p.a * cos l.rotation + p.b * sin l.rotation) (p.c * cos l.rotation + p.d * sin l.rotation)
    let q : Mat K := World.axes l.shearX (right + l.shearY) l.scaleX l.scaleY
    if neg p.det then Mat.mul ⟨z.1, z.2, z.2, -z.1⟩ q else Mat.mul ⟨z.1, -z.2, z.2, z.1⟩ q
  | .noScaleOrReflection =>
    let z := dir (p.a * cos l.rotation + p.b * sin l.rotation) (p.c * cos l.rotation + p.d * sin l.rotation)
    Mat.mul ⟨z.1, -z.2, z.2, z.1⟩ (World.axes l.shearX (right + l.shearY) l.scaleX l.scaleY)

/-- the frame of a bone without a parent (its mode plays no part) -/
def rootFrame (l : Local K) : Frame K := ⟨l.axes, l.x, l.y⟩

/-- where the point (u, v) of a bone's own coordinates is in the world -/
def Frame.at (w : Frame K) (u v : K) : K × K := (w.m.a * u + w.m.b * v + w.x, w.m.c * u + w.m.d * v + w.y)

/-- the frame of a bone with a parent -/
def childFrame (p : Frame K) (l : Local K) : Frame K := ⟨inherit p.m l, (p.at l.x l.y).1, (p.at l.x l.y).2⟩

/-! ### reading the attributes of a document -/

variable {F : Type}

/-- the number an attribute holds, `v` being the value of a floating point number; an attribute without a value has the
default `d` -/
def number (v : F → K) (d : Int) : JVal F → Option K
  | .int i => some (i : K)
  | .flt f => some (v f)
  | .null => some (d : K)
  | _ => none

/-- the mode the attribute `transform` of a bone names -/
def mode : JVal F → Option Mode
  | .null => some .normal
  | .str s =>
    if s = s!!"normal" then some .normal
    else if s = s!!"onlyTranslation" then some .onlyTranslation
    else if s = s!!"noRotationOrReflection" then some .noRotationOrReflection
    else if s = s!!"noScale" then some .noScale
    else if s = s!!"noScaleOrReflection" then some .noScaleOrReflection
    else none
  | _ => none

/-- the local transform of the bone `b` in the pose `p` -/
def localOf (v : F → K) (p : Pose K) (b : Bone F) : Option (Local K) := do
  let x ← number v 0 (b.rest.val s!!"x")
  let y ← number v 0 (b.rest.val s!!"y")
  let rotation ← number v 0 (b.rest.val s!!"rotation")
  let scaleX ← number v 1 (b.rest.val s!!"scaleX")
  let scaleY ← number v 1 (b.rest.val s!!"scaleY")
  let shearX ← number v 0 (b.rest.val s!!"shearX")
  let shearY ← number v 0 (b.rest.val s!!"shearY")
  let m ← mode (b.rest.val s!!"transform")
  some ⟨x + p.x, y + p.y, rotation + p.rotation, scaleX * p.scaleX, scaleY * p.scaleY, shearX + p.shearX,
    shearY + p.shearY, m⟩

/-- the bone named `n` is drawn in the frame `w` when the bones are in the given pose -/
inductive Drawn (v : F → K) (pose : Str → Pose K) (bones : List (Bone F)) : Str → Frame K → Prop
  | root {n b l} : IsBone bones n b → b.parent = none → localOf v (pose n) b = some l →
      Drawn v pose bones n (rootFrame l)
  | child {n b p l w} : IsBone bones n b → b.parent = some p → Drawn v pose bones p w →
      localOf v (pose n) b = some l → Drawn v pose bones n (childFrame w l)

/-- the value of a number a caller passes -/
def value (v : F → K) : Num F → K
  | .int i => (i : K)
  | .flt f => v f

/-- `v` is the value of floating point numbers, and calculating with them is exact -/
structure Exact [PyRt F] (v : F → K) : Prop where
  mul (a b : F) : v (PyRt.fmul a b) = v a * v b
  ofInt (i : Int) (f : F) : PyRt.fofInt i = some f → v f = (i : K)

/-- the frame `w` stretched by the factors `s` and `t` along the axes of the world, from the point (x, y) -/
def Frame.stretch (s t x y : K) (w : Frame K) : Frame K :=
  ⟨⟨s * w.m.a, s * w.m.b, t * w.m.c, t * w.m.d⟩, x + s * (w.x - x), y + t * (w.y - y)⟩

/-- the point `q` stretched by the factors `s` and `t` from the point (x, y) -/
def stretch (s t x y : K) (q : K × K) : K × K := (x + s * (q.1 - x), y + t * (q.2 - y))

end
end World
end Spine
