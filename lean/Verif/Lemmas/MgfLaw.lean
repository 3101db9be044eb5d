import Mathlib.Probability.Moments.ComplexMGF
import Mathlib.Probability.Distributions.Gamma
import Mathlib.Analysis.SpecialFunctions.Integrals.Basic
import Mathlib.Analysis.SpecialFunctions.Trigonometric.ArctanDeriv
import Mathlib.MeasureTheory.Measure.Prod
import Mathlib.MeasureTheory.Measure.CharacteristicFunction.Basic

/-!
# Laws determined by their Laplace transform
-/
set_option linter.unusedSectionVars false
set_option linter.unusedSimpArgs false

namespace Ascot.MgfLaw
open MeasureTheory ProbabilityTheory Real Set
open scoped ENNReal Topology

/-- Laplace transform, as an extended number. -/
noncomputable def lmgf (μ : Measure ℝ) (t : ℝ) : ℝ≥0∞ := ∫⁻ x, ENNReal.ofReal (exp (t * x)) ∂μ

theorem mgf_eq (μ : Measure ℝ) (t : ℝ) : mgf id μ t = (lmgf μ t).toReal := by
  unfold mgf lmgf
  rw [integral_eq_lintegral_of_nonneg_ae]
  · rfl
  · exact Filter.Eventually.of_forall fun x => (exp_pos _).le
  · exact (by fun_prop : Measurable fun x : ℝ => exp (t * id x)).aestronglyMeasurable

theorem integrable_of_lmgf {μ : Measure ℝ} {t : ℝ} (h : lmgf μ t ≠ ∞) : t ∈ integrableExpSet id μ := by
  show Integrable (fun x => exp (t * id x)) μ
  refine ⟨(by fun_prop : Measurable fun x : ℝ => exp (t * id x)).aestronglyMeasurable, ?_⟩
  rw [hasFiniteIntegral_iff_ofReal (Filter.Eventually.of_forall fun x => (exp_pos _).le)]
  exact lt_top_iff_ne_top.2 h

theorem ext_of_lmgf {μ ν : Measure ℝ} [IsProbabilityMeasure μ] [IsProbabilityMeasure ν] (h : ∀ t, lmgf μ t = lmgf ν t)
    {t0 : ℝ} (ht0 : 0 < t0) (hfin : ∀ t < t0, lmgf μ t ≠ ∞) : μ = ν := by
  have hm : mgf id μ = mgf id ν := by funext t; rw [mgf_eq, mgf_eq, h]
  have hE := eqOn_complexMGF_of_mgf hm
  have h0 : (0 : ℝ) ∈ interior (integrableExpSet id μ) :=
    mem_interior.2 ⟨Iio t0, fun t ht => integrable_of_lmgf (hfin t ht), isOpen_Iio, ht0⟩
  apply Measure.ext_of_charFun
  funext t
  rw [← complexMGF_id_mul_I, ← complexMGF_id_mul_I]
  apply hE
  simp [h0]

theorem lmgf_gamma {a r : ℝ} (ha : 0 < a) {t : ℝ} (hr : 0 < r) (ht : t < r) :
    lmgf (gammaMeasure a r) t = ENNReal.ofReal ((r / (r - t)) ^ a) := by
  have hrt : 0 < r - t := by linarith
  unfold lmgf gammaMeasure
  rw [lintegral_withDensity_eq_lintegral_mul _ (by unfold gammaPDF; fun_prop) (by fun_prop)]
  have : ∀ x, (gammaPDF a r * fun x => ENNReal.ofReal (exp (t * x))) x = ENNReal.ofReal ((r / (r - t)) ^ a) * gammaPDF a (r - t) x := by
    intro x
    simp only [Pi.mul_apply, gammaPDF]
    rw [← ENNReal.ofReal_mul' (exp_pos _).le, ← ENNReal.ofReal_mul (by positivity)]
    congr 1
    unfold gammaPDFReal
    split_ifs with hx
    · have e : exp (-(r * x)) * exp (t * x) = exp (-((r - t) * x)) := by rw [← exp_add]; ring_nf
      have e2 : (r / (r - t)) ^ a * (r - t) ^ a = r ^ a := by
        rw [← mul_rpow (by positivity) hrt.le]; congr 1; field_simp
      calc r ^ a / Gamma a * x ^ (a - 1) * exp (-(r * x)) * exp (t * x)
          = r ^ a / Gamma a * x ^ (a - 1) * (exp (-(r * x)) * exp (t * x)) := by ring
        _ = _ := by rw [e, ← e2]; ring
    · simp
  simp only [this]
  rw [lintegral_const_mul _ (by unfold gammaPDF; fun_prop), lintegral_gammaPDF_eq_one ha hrt, mul_one]

/-- A law on the nonnegative numbers whose Laplace transform is `(r/(r-t))^a` for `t < r` is the gamma law. -/
theorem eq_gamma {μ : Measure ℝ} [IsProbabilityMeasure μ] {a r : ℝ} (ha : 0 < a) (hr : 0 < r) (hpos : ∀ᵐ x ∂μ, 0 ≤ x)
    (h : ∀ t < r, lmgf μ t = ENNReal.ofReal ((r / (r - t)) ^ a)) : μ = gammaMeasure a r := by
  haveI := isProbabilityMeasure_gammaMeasure ha hr
  have hgpos : ∀ᵐ x ∂(gammaMeasure a r), 0 ≤ x := by
    unfold gammaMeasure
    rw [ae_withDensity_iff (by unfold gammaPDF; fun_prop)]
    refine Filter.Eventually.of_forall fun x hx => ?_
    by_contra hc
    exact hx (gammaPDF_of_neg (by linarith))
  have big : ∀ (ρ : Measure ℝ), (∀ᵐ x ∂ρ, 0 ≤ x) → (∀ t < r, lmgf ρ t = ENNReal.ofReal ((r / (r - t)) ^ a)) → ∀ t, r ≤ t → lmgf ρ t = ∞ := by
    intro ρ hρ hl t ht
    refine ENNReal.eq_top_of_forall_nnreal_le fun y => ?_
    -- choose s < r with (r/(r-s))^a > y
    set z : ℝ := ((y : ℝ) + 1) ^ (1 / a) with hz
    have hy1 : (1 : ℝ) ≤ y + 1 := by linarith [y.coe_nonneg]
    have hz1 : 1 ≤ z := one_le_rpow hy1 (by positivity)
    have hzpos : 0 < z := by linarith
    have hs : r - r / z < r := by have : 0 < r / z := by positivity
                                  linarith
    have hmono : lmgf ρ (r - r / z) ≤ lmgf ρ t := by
      apply lintegral_mono_ae
      filter_upwards [hρ] with x hx
      apply ENNReal.ofReal_le_ofReal
      apply exp_le_exp.2
      exact mul_le_mul_of_nonneg_right (by linarith) hx
    refine le_trans ?_ hmono
    rw [hl _ hs]
    have e : r / (r - (r - r / z)) = z := by field_simp; ring
    rw [e, hz, ← rpow_mul (by linarith), one_div, inv_mul_cancel₀ ha.ne', rpow_one]
    rw [← ENNReal.ofReal_coe_nnreal]
    exact ENNReal.ofReal_le_ofReal (by linarith)
  apply ext_of_lmgf (t0 := r) _ hr
  · intro t ht; rw [h t ht]; exact ENNReal.ofReal_ne_top
  · intro t
    rcases lt_or_ge t r with ht | ht
    · rw [h t ht, lmgf_gamma ha hr ht]
    · rw [big μ hpos h t ht, big _ hgpos (fun t ht => lmgf_gamma ha hr ht) t ht]

/-- Uniform law on the unit interval. -/
noncomputable def uniform : Measure ℝ := volume.restrict (Icc 0 1)

instance : IsProbabilityMeasure uniform := ⟨by simp [uniform]⟩

theorem lintegral_uniform {f : ℝ → ℝ} (hf : IntervalIntegrable f volume 0 1) (hpos : ∀ x ∈ Ioo (0 : ℝ) 1, 0 ≤ f x) :
    ∫⁻ x, ENNReal.ofReal (f x) ∂uniform = ENNReal.ofReal (∫ x in (0 : ℝ)..1, f x) := by
  have e : uniform = volume.restrict (Ioo 0 1) := Measure.restrict_congr_set Ioo_ae_eq_Icc.symm
  rw [e, intervalIntegral.integral_of_le zero_le_one, integral_Ioc_eq_integral_Ioo]
  rw [ofReal_integral_eq_lintegral_ofReal]
  · exact ((intervalIntegrable_iff_integrableOn_Ioo_of_le zero_le_one).1 hf)
  · exact (ae_restrict_iff' measurableSet_Ioo).2 (Filter.Eventually.of_forall hpos)

theorem ae_uniform : ∀ᵐ x ∂uniform, 0 < x ∧ x < 1 := by
  have e : uniform = volume.restrict (Ioo 0 1) := Measure.restrict_congr_set Ioo_ae_eq_Icc.symm
  rw [e]
  exact (ae_restrict_iff' measurableSet_Ioo).2 (Filter.Eventually.of_forall fun x hx => hx)

theorem lintegral_pow {s : ℝ} (hs : -1 < s) : ∫⁻ x, ENNReal.ofReal (exp (s * log x)) ∂uniform = ENNReal.ofReal (1 / (1 + s)) := by
  have e : ∫⁻ x, ENNReal.ofReal (exp (s * log x)) ∂uniform = ∫⁻ x, ENNReal.ofReal (x ^ s) ∂uniform := by
    apply lintegral_congr_ae
    filter_upwards [ae_uniform] with x hx
    rw [rpow_def_of_pos hx.1, mul_comm]
  rw [e, lintegral_uniform (intervalIntegral.intervalIntegrable_rpow' hs) (fun x hx => rpow_nonneg hx.1.le _), integral_rpow (Or.inl hs)]
  rw [one_rpow, zero_rpow (by linarith), sub_zero, add_comm]

theorem integral_cos {s : ℝ} (hs : -1 < s) : ∫ u in (0 : ℝ)..1, 1 / (1 + s * cos (π / 2 * u) ^ 2) = 1 / √(1 + s) := by
  have h1 : 0 < 1 + s := by linarith
  have hq : 0 < √(1 + s) := sqrt_pos.2 h1
  have hden : ∀ x, 0 < 1 + s * cos x ^ 2 := by
    intro x
    have hc0 := sq_nonneg (cos x)
    have hc1 := cos_sq_le_one x
    rcases le_or_gt 0 s with h | h
    · positivity
    · nlinarith
  have hpi := pi_pos
  have key := intervalIntegral.integral_eq_sub_of_hasDerivAt_of_tendsto (a := 0) (b := 1)
    (f := fun u => 2 / π / √(1 + s) * arctan (tan (π / 2 * u) / √(1 + s))) (f' := fun u => 1 / (1 + s * cos (π / 2 * u) ^ 2))
    (fa := 0) (fb := 2 / π / √(1 + s) * (π / 2)) zero_lt_one ?_ ?_ ?_ ?_
  · rw [key]; field_simp; ring
  · intro u hu
    have hcos : 0 < cos (π / 2 * u) := cos_pos_of_mem_Ioo ⟨by nlinarith [hu.1], by nlinarith [hu.2]⟩
    have d1 : HasDerivAt (fun u => π / 2 * u) (π / 2) u := by simpa using (hasDerivAt_id u).const_mul (π / 2)
    have d2 := (Real.hasDerivAt_tan hcos.ne').comp u d1
    have d3 := ((d2.div_const (√(1 + s))).arctan).const_mul (2 / π / √(1 + s))
    refine d3.congr_deriv ?_
    show 2 / π / √(1 + s) * (1 / (1 + (tan (π / 2 * u) / √(1 + s)) ^ 2) * (1 / cos (π / 2 * u) ^ 2 * (π / 2) / √(1 + s))) =
      1 / (1 + s * cos (π / 2 * u) ^ 2)
    have hss : √(1 + s) ^ 2 = 1 + s := sq_sqrt h1.le
    have hd := hden (π / 2 * u)
    clear d1 d2 d3
    rw [tan_eq_sin_div_cos]
    have hsin := sin_sq (π / 2 * u)
    generalize sin (π / 2 * u) = y at *
    generalize cos (π / 2 * u) = c at *
    have e : 1 + (y / c / √(1 + s)) ^ 2 = (1 + s * c ^ 2) / (c ^ 2 * (1 + s)) := by
      rw [div_pow, div_pow, hss, hsin]
      field_simp
      ring
    rw [e]
    generalize √(1 + s) = q at *
    field_simp
    rw [hss]
  · apply Continuous.intervalIntegrable
    apply Continuous.div continuous_const (by fun_prop)
    intro u; exact (hden _).ne'
  · have : Filter.Tendsto (fun u : ℝ => 2 / π / √(1 + s) * arctan (tan (π / 2 * u) / √(1 + s))) (𝓝 0) (𝓝 0) := by
      have hc : ContinuousAt (fun u : ℝ => 2 / π / √(1 + s) * arctan (tan (π / 2 * u) / √(1 + s))) 0 := by
        have ht : ContinuousAt (fun u : ℝ => tan (π / 2 * u)) 0 :=
          ContinuousAt.comp (g := tan) (by rw [mul_zero]; exact continuousAt_tan.2 (by simp)) (by fun_prop)
        exact ContinuousAt.mul continuousAt_const (continuous_arctan.continuousAt.comp (ht.div_const _))
      have := hc.tendsto
      simpa using this
    exact this.mono_left nhdsWithin_le_nhds
  · apply Filter.Tendsto.const_mul
    have ht : Filter.Tendsto (fun u : ℝ => tan (π / 2 * u)) (𝓝[<] 1) Filter.atTop := by
      apply tendsto_tan_pi_div_two.comp
      rw [tendsto_nhdsWithin_iff]
      constructor
      · have : ContinuousAt (fun u : ℝ => π / 2 * u) 1 := by fun_prop
        have := this.tendsto
        simp only [mul_one] at this
        exact this.mono_left nhdsWithin_le_nhds
      · filter_upwards [self_mem_nhdsWithin] with u hu
        have : u < 1 := hu
        show π / 2 * u < π / 2
        nlinarith
    exact (tendsto_nhds_of_tendsto_nhdsWithin tendsto_arctan_atTop).comp (ht.atTop_div_const hq)

theorem lintegral_cos {s : ℝ} (hs : -1 < s) :
    ∫⁻ u, ENNReal.ofReal (1 / (1 + s * cos (π / 2 * u) ^ 2)) ∂uniform = ENNReal.ofReal (1 / √(1 + s)) := by
  have hden : ∀ x, 0 < 1 + s * cos x ^ 2 := by
    intro x
    have hc0 := sq_nonneg (cos x)
    have hc1 := cos_sq_le_one x
    rcases le_or_gt 0 s with h | h
    · positivity
    · nlinarith
  rw [lintegral_uniform, integral_cos hs]
  · apply Continuous.intervalIntegrable
    apply Continuous.div continuous_const (by fun_prop)
    intro u; exact (hden _).ne'
  · intro u _
    exact (one_div_pos.2 (hden _)).le

end Ascot.MgfLaw
