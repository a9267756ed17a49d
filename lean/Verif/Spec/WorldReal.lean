import Verif.Spec.World
import Mathlib.Analysis.SpecialFunctions.Complex.Arg
/-
The plane of `Verif.Spec.World` over the real numbers.
-/
namespace Spine
namespace World

noncomputable instance : Plane ℝ where
  pos s := 0 < s
  cos x := Real.cos (x * Real.pi / 180)
  sin x := Real.sin (x * Real.pi / 180)
  right := 90
  dir x y := (x / √(x * x + y * y), y / √(x * x + y * y))
  ang x y := Complex.arg ⟨x, y⟩ * 180 / Real.pi
  neg x := decide (x < 0)
  flat x y := decide (x = 0 ∧ y = 0)
  ratio x y := |x| / y
  pos_one := by simp
  cos_zero := by simp
  sin_zero := by simp
  cos_right := by
    have : (90 : ℝ) * Real.pi / 180 = Real.pi / 2 := by ring
    rw [this, Real.cos_pi_div_two]
  sin_right := by
    have : (90 : ℝ) * Real.pi / 180 = Real.pi / 2 := by ring
    rw [this, Real.sin_pi_div_two]
  dir_mul {s} x y hs := by
    have h : √(s * x * (s * x) + s * y * (s * y)) = s * √(x * x + y * y) := by
      rw [show s * x * (s * x) + s * y * (s * y) = (s * s) * (x * x + y * y) by ring,
        Real.sqrt_mul (mul_self_nonneg s), Real.sqrt_mul_self (le_of_lt hs)]
    have h0 : s ≠ 0 := ne_of_gt hs
    rw [h, mul_div_mul_left _ _ h0, mul_div_mul_left _ _ h0]
  ang_mul {s} x y hs := by
    have : (⟨s * x, s * y⟩ : ℂ) = (s : ℂ) * ⟨x, y⟩ := by apply Complex.ext <;> simp
    rw [this, Complex.arg_real_mul _ hs]
  flat_mul {s} x y hs := by
    have h0 : s ≠ 0 := ne_of_gt hs
    simp [h0]
  neg_mul {s} x hs := by
    have : s * s * x < 0 ↔ x < 0 := by
      have hp : 0 < s * s := mul_pos hs hs
      constructor
      · intro h
        by_contra hx
        exact absurd h (not_lt.2 (mul_nonneg (le_of_lt hp) (not_lt.1 hx)))
      · exact fun h => mul_neg_of_pos_of_neg hp h
    simp [this]
  ratio_mul {s} x y hs := by
    have hp : 0 < s * s := mul_pos hs hs
    rw [abs_mul, abs_of_pos hp, mul_div_mul_left _ _ (ne_of_gt hp)]

end World
end Spine
