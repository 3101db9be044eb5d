import Mathlib.Tactic.Ring
import Mathlib.Tactic.Linarith
import Mathlib.Tactic.NormNum
import Mathlib.Tactic.FieldSimp
import Mathlib.Tactic.LinearCombination
import Verif.Model.Coord

set_option linter.unusedSectionVars false
set_option linter.unusedSimpArgs false

namespace Ascot.Coord

theorem norm_mk (x y : ℝ) : ‖(⟨x, y⟩ : ℂ)‖ = Real.sqrt (x * x + y * y) := by
  rw [Complex.norm_def, Complex.normSq_mk]

theorem cos_atan2 (x y : ℝ) : Real.sqrt (x * x + y * y) * Real.cos (atan2 y x) = x := by
  rw [← norm_mk]
  exact Complex.norm_mul_cos_arg ⟨x, y⟩

theorem sin_atan2 (x y : ℝ) : Real.sqrt (x * x + y * y) * Real.sin (atan2 y x) = y := by
  rw [← norm_mk]
  exact Complex.norm_mul_sin_arg ⟨x, y⟩

theorem sc (phi : ℝ) : Real.sin phi * Real.sin phi + Real.cos phi * Real.cos phi = 1 := by
  have := Real.sin_sq_add_cos_sq phi
  nlinarith

theorem xyz_of_rpz (p : V3 ℝ) : rpz2xyz (xyz2rpz p) = p := by
  unfold rpz2xyz xyz2rpz
  ext
  · exact cos_atan2 p.x p.y
  · exact sin_atan2 p.x p.y
  · rfl

/-- Rotating a Cartesian point by the angle computed with `atan2` from cross and dot products: the way cumulative
angles are updated. -/
theorem cumulative (r phi x y : ℝ) (hr : 0 < r) :
    let x0 := r * Real.cos phi
    let y0 := r * Real.sin phi
    let phi' := phi + atan2 (x0 * y - y0 * x) (x0 * x + y0 * y)
    Real.sqrt (x * x + y * y) * Real.cos phi' = x ∧ Real.sqrt (x * x + y * y) * Real.sin phi' = y := by
  intro x0 y0 phi'
  set a := x0 * x + y0 * y with ha
  set b := x0 * y - y0 * x with hb
  have hsc := sc phi
  have hab : a * a + b * b = r * r * (x * x + y * y) := by
    rw [ha, hb]
    dsimp only [x0, y0]
    linear_combination r * r * (x * x + y * y) * hsc
  have hs : Real.sqrt (a * a + b * b) = r * Real.sqrt (x * x + y * y) := by
    rw [hab, Real.sqrt_mul (mul_self_nonneg r), Real.sqrt_mul_self hr.le]
  have h1 := cos_atan2 a b
  have h2 := sin_atan2 a b
  rw [hs] at h1 h2
  have hne : r ≠ 0 := hr.ne'
  have e1 : Real.sqrt (x * x + y * y) * Real.cos (atan2 b a) = Real.cos phi * x + Real.sin phi * y := by
    apply mul_left_cancel₀ hne
    rw [← mul_assoc, h1, ha]
    dsimp only [x0, y0]
    ring
  have e2 : Real.sqrt (x * x + y * y) * Real.sin (atan2 b a) = Real.cos phi * y - Real.sin phi * x := by
    apply mul_left_cancel₀ hne
    rw [← mul_assoc, h2, hb]
    dsimp only [x0, y0]
    ring
  constructor
  · dsimp only [phi']
    rw [Real.cos_add]
    linear_combination Real.cos phi * e1 - Real.sin phi * e2 + x * hsc
  · dsimp only [phi']
    rw [Real.sin_add]
    linear_combination Real.sin phi * e1 + Real.cos phi * e2 + y * hsc

end Ascot.Coord
