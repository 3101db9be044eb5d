import Mathlib.Analysis.Calculus.Deriv.MeanValue
import Mathlib.Analysis.Calculus.Deriv.Inv
import Mathlib.Analysis.SpecialFunctions.ExpDeriv
import Mathlib.MeasureTheory.Integral.IntervalIntegral.FundThmCalculus
import Mathlib.Tactic.Ring
import Mathlib.Tactic.Linarith
import Mathlib.Tactic.FieldSimp
import Mathlib.Tactic.LinearCombination
import Verif.Model.McccCoefs

set_option linter.unusedSectionVars false
set_option linter.unusedSimpArgs false

namespace Ascot.Mccc

theorem sqrtpi_pos : 0 < Real.sqrt Real.pi := Real.sqrt_pos.2 Real.pi_pos

theorem hasDerivAt_erf (x : ℝ) : HasDerivAt erf (2 / Real.sqrt Real.pi * Real.exp (-x ^ 2)) x := by
  have hc : Continuous fun t : ℝ => Real.exp (-t ^ 2) := by fun_prop
  have := intervalIntegral.integral_hasDerivAt_right (hc.intervalIntegrable 0 x)
    (hc.stronglyMeasurableAtFilter _ _) hc.continuousAt
  exact this.const_mul _

theorem erf_zero : erf 0 = 0 := by simp [erf]

/-- Numerator of `mu0`. -/
noncomputable def num (x : ℝ) : ℝ := erf x - 2 * x * Real.exp (-x * x) / Real.sqrt Real.pi

theorem hasDerivAt_gauss (x : ℝ) : HasDerivAt (fun x : ℝ => Real.exp (-x * x)) (-2 * x * Real.exp (-x * x)) x := by
  have h : HasDerivAt (fun x : ℝ => -x * x) (-2 * x) x := by
    have := ((hasDerivAt_id x).neg).mul (hasDerivAt_id x)
    refine this.congr_deriv ?_
    simp only [Pi.neg_apply, id]
    ring
  refine h.exp.congr_deriv ?_
  ring

theorem exp_sq (x : ℝ) : Real.exp (-x ^ 2) = Real.exp (-x * x) := by
  congr 1
  ring

theorem hasDerivAt_num (x : ℝ) : HasDerivAt num (4 * x * x * Real.exp (-x * x) / Real.sqrt Real.pi) x := by
  have h1 := hasDerivAt_erf x
  have h2 := (((hasDerivAt_id x).const_mul 2).mul (hasDerivAt_gauss x)).div_const (Real.sqrt Real.pi)
  refine (h1.sub h2).congr_deriv ?_
  have := sqrtpi_pos.ne'
  rw [exp_sq]
  simp only [id]
  field_simp
  ring

theorem num_zero : num 0 = 0 := by simp [num, erf_zero]

theorem pos_of_deriv {f f' : ℝ → ℝ} (h0 : f 0 = 0) (hd : ∀ x, HasDerivAt f (f' x) x) (hp : ∀ x, 0 < x → 0 < f' x) {x : ℝ}
    (hx : 0 < x) : 0 < f x := by
  have hc : Continuous f := continuous_iff_continuousAt.2 fun x => (hd x).continuousAt
  have := strictMonoOn_of_deriv_pos (convex_Ici 0) hc.continuousOn (f := f) (by
    intro y hy
    rw [interior_Ici] at hy
    rw [(hd y).deriv]
    exact hp y hy)
  have := this (Set.mem_Ici.2 le_rfl) (Set.mem_Ici.2 hx.le) hx
  rwa [h0] at this

theorem erf_pos {x : ℝ} (hx : 0 < x) : 0 < erf x :=
  pos_of_deriv erf_zero hasDerivAt_erf (fun y _ => by have := sqrtpi_pos; positivity) hx

theorem num_pos {x : ℝ} (hx : 0 < x) : 0 < num x :=
  pos_of_deriv num_zero hasDerivAt_num (fun y hy => by have := sqrtpi_pos; positivity) hx

theorem mu0_eq (x : ℝ) : mu0 x = num x / (x * x) := rfl

theorem mu0_pos {x : ℝ} (hx : 0 < x) : 0 < mu0 x := by
  rw [mu0_eq]
  exact div_pos (num_pos hx) (by positivity)

theorem mu1_pos {x : ℝ} (hx : 0 < x) : 0 < mu1 x := by
  have h : 0 < x * x * erf x - num x / 2 := by
    refine pos_of_deriv (f := fun x => x * x * erf x - num x / 2) (f' := fun x => 2 * x * erf x) ?_ ?_ ?_ hx
    · simp [num_zero]
    · intro y
      have := (((hasDerivAt_id y).mul (hasDerivAt_id y)).mul (hasDerivAt_erf y)).sub ((hasDerivAt_num y).div_const 2)
      refine this.congr_deriv ?_
      have hs := sqrtpi_pos.ne'
      rw [exp_sq]
      simp only [id, Pi.mul_apply]
      field_simp
      ring
    · intro y hy
      have := erf_pos hy
      positivity
  have : mu1 x = (x * x * erf x - num x / 2) / (x * x) := by
    unfold mu1
    rw [mu0_eq]
    field_simp
    ring
  rw [this]
  positivity

/-- `mufun[2]` is the derivative of `mufun[0]`. -/
theorem hasDerivAt_mu0 {x : ℝ} (hx : x ≠ 0) : HasDerivAt mu0 (dmu0 x) x := by
  have := (hasDerivAt_num x).div ((hasDerivAt_id x).mul (hasDerivAt_id x)) (by simpa using hx)
  refine this.congr_deriv ?_
  have hs := sqrtpi_pos.ne'
  unfold dmu0
  rw [mu0_eq]
  simp only [id, Pi.mul_apply]
  field_simp
  ring

/-- Relation between the three special functions. -/
theorem dmu0_mu1 {x : ℝ} (hx : x ≠ 0) : x * dmu0 x + mu0 x = 2 * mu1 x - 2 * x * x * mu0 x := by
  unfold dmu0 mu1
  rw [mu0_eq]
  unfold num
  have hs := sqrtpi_pos.ne'
  field_simp
  ring

theorem thermal_pos {b : Species} (hT : 0 < b.T) (hm : 0 < b.m) : 0 < thermal b := Real.sqrt_pos.2 (by positivity)

theorem thermal_sq {b : Species} (hT : 0 < b.T) (hm : 0 < b.m) : thermal b ^ 2 = 2 * b.T / b.m :=
  Real.sq_sqrt (by positivity)

end Ascot.Mccc
