import Mathlib.Analysis.SpecialFunctions.Complex.LogDeriv
import Mathlib.Analysis.SpecialFunctions.Sqrt
import Mathlib.Analysis.SpecialFunctions.Pow.Deriv
import Verif.Lemmas.BGS

set_option linter.unusedSectionVars false
set_option linter.unusedSimpArgs false

namespace Ascot.BGS
open Ascot.Coord

/-- Derivative of the angle along a curve in the plane. -/
theorem atan2_deriv {x y : ℝ → ℝ} {x' y' t : ℝ} (hx : HasDerivAt x x' t) (hy : HasDerivAt y y' t) (h : 0 < x t ∨ y t ≠ 0) :
    HasDerivAt (fun t => atan2 (y t) (x t)) ((x t * y' - y t * x') / (x t * x t + y t * y t)) t := by
  have hf : HasDerivAt (fun t => (x t : ℂ) + (y t : ℂ) * Complex.I) ((x' : ℂ) + (y' : ℂ) * Complex.I) t :=
    hx.ofReal_comp.add (hy.ofReal_comp.mul_const Complex.I)
  have hm : (x t : ℂ) + (y t : ℂ) * Complex.I ∈ Complex.slitPlane := by
    simp only [Complex.mem_slitPlane_iff]
    simpa using h
  have hl := Complex.imCLM.hasFDerivAt.comp_hasDerivAt t (hf.clog_real hm)
  refine (hl.congr_of_eventuallyEq (Filter.Eventually.of_forall fun s => ?_)).congr_deriv ?_
  · show Complex.arg ⟨x s, y s⟩ = (Complex.log ((x s : ℂ) + (y s : ℂ) * Complex.I)).im
    rw [Complex.log_im]
    congr 1
    apply Complex.ext <;> simp
  · show (((x' : ℂ) + (y' : ℂ) * Complex.I) / ((x t : ℂ) + (y t : ℂ) * Complex.I)).im = _
    rw [Complex.div_im]
    simp [Complex.normSq_apply]
    have : x t * x t + y t * y t ≠ 0 := by
      rcases h with h | h
      · nlinarith [mul_self_nonneg (y t), mul_pos h h]
      · have := mul_self_pos.mpr h
        nlinarith [mul_self_nonneg (x t)]
    field_simp

/-- Derivative of the ripple amplitude along a curve in the poloidal plane. -/
theorem ripple_deriv {x y : ℝ → ℝ} {x' y' t : ℝ} (a0 alpha0 delta0 : ℝ) (hx : HasDerivAt x x' t) (hy : HasDerivAt y y' t)
    (h : 0 < x t ∨ y t ≠ 0) (ha : 0 < a0) :
    HasDerivAt (fun t => delta0 * Real.exp (-0.5 * atan2 (y t) (x t) * atan2 (y t) (x t)) * (Real.sqrt (x t * x t + y t * y t) / a0) ^ alpha0)
      (delta0 * Real.exp (-0.5 * atan2 (y t) (x t) * atan2 (y t) (x t)) * (Real.sqrt (x t * x t + y t * y t) / a0) ^ alpha0
        * (alpha0 * (x t * x' + y t * y') / (x t * x t + y t * y t)
          - atan2 (y t) (x t) * ((x t * y' - y t * x') / (x t * x t + y t * y t)))) t := by
  have hp : 0 < x t * x t + y t * y t := by
    rcases h with h | h
    · nlinarith [mul_self_nonneg (y t), mul_pos h h]
    · have := mul_self_pos.mpr h
      nlinarith [mul_self_nonneg (x t)]
  have hth := atan2_deriv hx hy h
  have he := ((hth.mul hth).const_mul (-0.5 : ℝ)).exp
  have hr := (((hx.mul hx).add (hy.mul hy)).sqrt hp.ne').div_const a0
  have hs : 0 < Real.sqrt (x t * x t + y t * y t) := Real.sqrt_pos.mpr hp
  have hpow := hr.rpow_const (p := alpha0) (Or.inl (by
    show Real.sqrt (x t * x t + y t * y t) / a0 ≠ 0
    positivity))
  refine (((he.const_mul delta0).mul hpow).congr_of_eventuallyEq (Filter.Eventually.of_forall fun s => ?_)).congr_deriv ?_
  · show delta0 * Real.exp (-0.5 * atan2 (y s) (x s) * atan2 (y s) (x s)) * _ = delta0 * Real.exp (-0.5 * (atan2 (y s) (x s) * atan2 (y s) (x s))) * _
    rw [mul_assoc (-0.5 : ℝ)]
    rfl
  · show delta0 * (Real.exp (-0.5 * (atan2 (y t) (x t) * atan2 (y t) (x t))) * (-0.5 * ((x t * y' - y t * x') / (x t * x t + y t * y t) * atan2 (y t) (x t)
      + atan2 (y t) (x t) * ((x t * y' - y t * x') / (x t * x t + y t * y t))))) * (Real.sqrt (x t * x t + y t * y t) / a0) ^ alpha0
      + delta0 * Real.exp (-0.5 * (atan2 (y t) (x t) * atan2 (y t) (x t)))
        * ((x' * x t + x t * x' + (y' * y t + y t * y')) / (2 * Real.sqrt (x t * x t + y t * y t)) / a0 * alpha0
          * (Real.sqrt (x t * x t + y t * y t) / a0) ^ (alpha0 - 1)) = _
    rw [Real.rpow_sub_one (by positivity), mul_assoc (-0.5 : ℝ)]
    have hq : Real.sqrt (x t * x t + y t * y t) * Real.sqrt (x t * x t + y t * y t) = x t * x t + y t * y t := Real.mul_self_sqrt hp.le
    generalize Real.sqrt (x t * x t + y t * y t) = s at hq hs ⊢
    generalize Real.exp _ = E
    generalize atan2 (y t) (x t) = th
    rw [← hq]
    generalize (s / a0) ^ alpha0 = P
    field_simp
    ring

end Ascot.BGS
