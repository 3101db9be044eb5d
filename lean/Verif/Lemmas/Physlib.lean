import Mathlib.Tactic.Ring
import Mathlib.Tactic.Linarith
import Mathlib.Tactic.NormNum
import Mathlib.Tactic.FieldSimp
import Mathlib.Tactic.Positivity
import Mathlib.Tactic.LinearCombination
import Verif.Model.Physlib

set_option linter.unusedSectionVars false
set_option linter.unusedSimpArgs false

namespace Ascot.Physlib

variable {c m : ℝ}

theorem quot_nonneg (p : ℝ) : 0 ≤ p * p / (m * m * (c * c)) :=
  div_nonneg (mul_self_nonneg p) (mul_nonneg (mul_self_nonneg m) (mul_self_nonneg c))

theorem mom_nonneg {mu B : ℝ} (hm : 0 < m) (hmu : 0 ≤ mu) (hB : 0 ≤ B) : 0 ≤ 2 * mu * B / (m * (c * c)) :=
  div_nonneg (by positivity) (mul_nonneg hm.le (mul_self_nonneg c))

theorem gammaPnorm_ge (hm : 0 < m) (p : ℝ) : 1 ≤ gammaPnorm c m p := by
  unfold gammaPnorm
  rw [Real.one_le_sqrt]
  have : 0 ≤ p * p / (m * m * (c * c)) := quot_nonneg p
  linarith

theorem gammaPnorm_pos (hm : 0 < m) (p : ℝ) : 0 < gammaPnorm c m p := lt_of_lt_of_le one_pos (gammaPnorm_ge hm p)

theorem gammaPnorm_sq (p : ℝ) : gammaPnorm c m p ^ 2 = 1 + p * p / (m * m * (c * c)) := by
  unfold gammaPnorm
  exact Real.sq_sqrt (by have := quot_nonneg (c := c) (m := m) p; linarith)

theorem gammaPpar_sq {mu B : ℝ} (hm : 0 < m) (hmu : 0 ≤ mu) (hB : 0 ≤ B) (ppar : ℝ) :
    gammaPpar c m mu ppar B ^ 2 = 1 + 2 * mu * B / (m * (c * c)) + ppar * ppar / (m * m * (c * c)) := by
  unfold gammaPpar
  exact Real.sq_sqrt (by have := quot_nonneg (c := c) (m := m) ppar; have := mom_nonneg (c := c) hm hmu hB; linarith)

theorem gammaPpar_ge {mu B : ℝ} (hm : 0 < m) (hmu : 0 ≤ mu) (hB : 0 ≤ B) (ppar : ℝ) : 1 ≤ gammaPpar c m mu ppar B := by
  unfold gammaPpar
  rw [Real.one_le_sqrt]
  have h1 := mom_nonneg (c := c) hm hmu hB
  have h2 := quot_nonneg (c := c) (m := m) ppar
  linarith

theorem one_sub_pos (hc : 0 < c) {v : ℝ} (h : |v| < c) : 0 < (1 - v / c) * (1 + v / c) := by
  obtain ⟨h1, h2⟩ := abs_lt.1 h
  have a : v / c < 1 := (div_lt_one hc).2 h2
  have b : -1 < v / c := by rw [lt_div_iff₀ hc]; linarith
  apply mul_pos <;> linarith

theorem gammaVnorm_pos (hc : 0 < c) {v : ℝ} (h : |v| < c) : 0 < gammaVnorm c v :=
  Real.sqrt_pos.2 (div_pos one_pos (one_sub_pos hc h))

theorem gammaVnorm_sq (hc : 0 < c) {v : ℝ} (h : |v| < c) : gammaVnorm c v ^ 2 * (c * c - v * v) = c * c := by
  have hp := one_sub_pos hc h
  unfold gammaVnorm
  rw [Real.sq_sqrt (div_pos one_pos hp).le]
  have : (1 - v / c) * (1 + v / c) = (c * c - v * v) / (c * c) := by field_simp; ring
  rw [this] at hp ⊢
  have hne : c * c - v * v ≠ 0 := by
    intro h0
    rw [h0, zero_div] at hp
    exact lt_irrefl _ hp
  rw [one_div_div, div_mul_cancel₀ _ hne]

/-- The total momentum from its parallel part and the magnetic moment. -/
theorem gcP_sq (hc : 0 < c) (hm : 0 < m) {mu B : ℝ} (hmu : 0 ≤ mu) (hB : 0 ≤ B) (ppar : ℝ) :
    gcP c m mu ppar B ^ 2 = 2 * m * mu * B + ppar ^ 2 ∧ 0 ≤ gcP c m mu ppar B := by
  have h := gammaPpar_sq (c := c) hm hmu hB ppar
  have hge := gammaPpar_ge (c := c) hm hmu hB ppar
  unfold gcP
  refine ⟨?_, by positivity⟩
  rw [mul_pow, Real.sq_sqrt (by nlinarith), h]
  field_simp
  ring

end Ascot.Physlib
