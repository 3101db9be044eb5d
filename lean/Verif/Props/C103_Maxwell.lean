import Verif.Model.Afsi
import Verif.Lemmas.MgfLaw
import Mathlib.Analysis.SpecialFunctions.Gaussian.GaussianIntegral

/-!
# C103: momenta of thermal reactants follow the Maxwell distribution
-/
set_option linter.unusedSectionVars false
set_option linter.unusedSimpArgs false

namespace Ascot.C103
open Ascot.Afsi Ascot.MgfLaw MeasureTheory ProbabilityTheory Real Set
open scoped ENNReal

/-! ## Specification -/

/-- Four independent uniform random numbers. -/
noncomputable def four : Measure ((ℝ × ℝ × ℝ) × ℝ) := (uniform.prod (uniform.prod uniform)).prod uniform

/-- Energies of a Maxwell distribution with temperature `T`: density `2/√π · √E / T^(3/2) · exp(-E/T)`. -/
noncomputable def maxwellEnergy (T : ℝ) : Measure ℝ :=
  volume.withDensity fun E => ENNReal.ofReal (if 0 ≤ E then 2 / √π * (√E / (T * √T)) * exp (-(E / T)) else 0)

/-- Pitch of an isotropic distribution: uniform between -1 and 1. -/
noncomputable def isotropicPitch : Measure ℝ := volume.withDensity fun x => if -1 ≤ x ∧ x ≤ 1 then 1 / 2 else 0

/-- Kinetic energy and pitch (cosine of the angle to the field) of a momentum, in the classical limit. -/
noncomputable def energyPitch (m : ℝ) (p : ℝ × ℝ) : ℝ × ℝ := ((p.1 ^ 2 + p.2 ^ 2) / (2 * m), p.1 / √(p.1 ^ 2 + p.2 ^ 2))

/-! ## Proofs -/

theorem maxwell_gamma {T : ℝ} (hT : 0 < T) : maxwellEnergy T = gammaMeasure (3 / 2) (1 / T) := by
  unfold maxwellEnergy gammaMeasure
  congr 1
  funext E
  unfold gammaPDF gammaPDFReal
  congr 1
  split_ifs with hE
  · have hG : Real.Gamma (3 / 2) = √π / 2 := by
      have := Real.Gamma_add_one (s := 1 / 2) (by norm_num)
      rw [Real.Gamma_one_half_eq] at this
      rw [show (3 / 2 : ℝ) = 1 / 2 + 1 by norm_num, this]; ring
    have h1 : (1 / T) ^ (3 / 2 : ℝ) = 1 / (T * √T) := by
      rw [one_div, inv_rpow hT.le, show (3 / 2 : ℝ) = 1 + 1 / 2 by norm_num, rpow_add hT, rpow_one, ← sqrt_eq_rpow, one_div]
    have h2 : E ^ ((3 / 2 : ℝ) - 1) = √E := by rw [sqrt_eq_rpow]; norm_num
    rw [hG, h1, h2]
    have e : 1 / T * E = E / T := by ring
    rw [e]
    have : √π ≠ 0 := (sqrt_pos.2 pi_pos).ne'
    have : √T ≠ 0 := (sqrt_pos.2 hT).ne'
    field_simp
  · rfl

theorem energy_nonneg {T : ℝ} (hT : 0 < T) {r1 r2 u : ℝ} (h1 : 0 < r1 ∧ r1 < 1) (h2 : 0 < r2 ∧ r2 < 1) : 0 < thermalEnergy T r1 r2 u := by
  unfold thermalEnergy
  have l1 := log_neg h1.1 h1.2
  have l2 := log_neg h2.1 h2.2
  have hc := mul_self_nonneg (cos (0.5 * u * π))
  have : log r2 * cos (0.5 * u * π) * cos (0.5 * u * π) ≤ 0 := by rw [mul_assoc]; exact mul_nonpos_of_nonpos_of_nonneg l2.le hc
  nlinarith

theorem measurable_energy (T : ℝ) : Measurable fun r : ℝ × ℝ × ℝ => thermalEnergy T r.1 r.2.1 r.2.2 := by
  unfold thermalEnergy
  fun_prop

/-- **Energy**: for independent uniform random numbers the sampled energy follows the Maxwell distribution. -/
theorem energy {T : ℝ} (hT : 0 < T) :
    (uniform.prod (uniform.prod uniform)).map (fun r => thermalEnergy T r.1 r.2.1 r.2.2) = maxwellEnergy T := by
  have hm := measurable_energy T
  haveI : IsProbabilityMeasure ((uniform.prod (uniform.prod uniform)).map (fun r : ℝ × ℝ × ℝ => thermalEnergy T r.1 r.2.1 r.2.2)) :=
    Measure.isProbabilityMeasure_map hm.aemeasurable
  rw [maxwell_gamma hT]
  apply eq_gamma (by norm_num) (by positivity)
  · rw [ae_map_iff hm.aemeasurable measurableSet_Ici]
    have a1 : ∀ᵐ r ∂(uniform.prod (uniform.prod uniform)), 0 < r.1 ∧ r.1 < 1 :=
      Measure.quasiMeasurePreserving_fst.ae ae_uniform
    have a2 : ∀ᵐ r ∂(uniform.prod (uniform.prod uniform)), 0 < r.2.1 ∧ r.2.1 < 1 :=
      Measure.quasiMeasurePreserving_snd.ae (Measure.quasiMeasurePreserving_fst.ae ae_uniform)
    filter_upwards [a1, a2] with r h1 h2
    exact (energy_nonneg hT h1 h2).le
  · intro t ht
    have htT : t * T < 1 := by rwa [lt_div_iff₀ hT] at ht
    set s := -(t * T) with hs
    have hs1 : -1 < s := by linarith
    unfold lmgf
    rw [lintegral_map (by fun_prop) hm]
    have e0 : ∀ r : ℝ × ℝ × ℝ, ENNReal.ofReal (exp (t * thermalEnergy T r.1 r.2.1 r.2.2)) =
        ENNReal.ofReal (exp (s * log r.1)) * ENNReal.ofReal (exp (s * cos (π / 2 * r.2.2) ^ 2 * log r.2.1)) := by
      intro r
      rw [← ENNReal.ofReal_mul (exp_pos _).le, ← exp_add]
      congr 2
      unfold thermalEnergy
      simp only
      rw [show (0.5 * r.2.2 * π : ℝ) = π / 2 * r.2.2 by ring, hs]
      ring
    simp only [e0]
    have hden : ∀ x, -1 < s * cos x ^ 2 := by
      intro x
      have hc0 := sq_nonneg (cos x)
      have hc1 := cos_sq_le_one x
      rcases le_or_gt 0 s with h | h
      · have : 0 ≤ s * cos x ^ 2 := by positivity
        linarith
      · nlinarith
    rw [lintegral_prod_mul (f := fun x => ENNReal.ofReal (exp (s * log x)))
      (g := fun r : ℝ × ℝ => ENNReal.ofReal (exp (s * cos (π / 2 * r.2) ^ 2 * log r.1))) (by fun_prop) (by fun_prop)]
    rw [lintegral_pow hs1, lintegral_prod_symm _ (by fun_prop)]
    have e1 : ∀ u : ℝ, ∫⁻ x, ENNReal.ofReal (exp (s * cos (π / 2 * u) ^ 2 * log x)) ∂uniform = ENNReal.ofReal (1 / (1 + s * cos (π / 2 * u) ^ 2)) :=
      fun u => lintegral_pow (hden _)
    simp only [e1]
    rw [lintegral_cos hs1, ← ENNReal.ofReal_mul (by have : 0 < 1 + s := by linarith
                                                    positivity)]
    congr 1
    have h1s : 0 < 1 + s := by linarith
    have e2 : 1 / T / (1 / T - t) = 1 / (1 + s) := by
      rw [hs]
      have : 1 / T - t = (1 + -(t * T)) / T := by field_simp; ring
      rw [this]; field_simp
    rw [e2, one_div (1 + s), inv_rpow h1s.le, show (3 / 2 : ℝ) = 1 + 1 / 2 by norm_num, rpow_add h1s, rpow_one, ← sqrt_eq_rpow]
    field_simp

theorem pitch : uniform.map (fun u => 1 - 2 * u) = isotropicPitch := by
  have hmeas : Measurable fun u : ℝ => 1 - 2 * u := by fun_prop
  have e1 : (volume : Measure ℝ).map (fun u => 1 - 2 * u) = ENNReal.ofReal (1 / 2) • volume := by
    have h1 : (fun u : ℝ => 1 - 2 * u) = (fun x => 1 + x) ∘ (fun u => (-2) * u) := by funext u; simp; ring
    rw [h1, ← Measure.map_map (by fun_prop) (by fun_prop), Real.map_volume_mul_left (by norm_num), Measure.map_smul, map_add_left_eq_self]
    norm_num
  have e2 : Icc (0 : ℝ) 1 = (fun u : ℝ => 1 - 2 * u) ⁻¹' (Icc (-1) 1) := by
    ext u
    simp only [mem_Icc, mem_preimage]
    constructor <;> rintro ⟨a, b⟩ <;> constructor <;> linarith
  unfold uniform isotropicPitch
  rw [e2, ← Measure.restrict_map hmeas measurableSet_Icc, e1]
  have e3 : (fun x : ℝ => if -1 ≤ x ∧ x ≤ 1 then (1 / 2 : ℝ≥0∞) else 0) = (Icc (-1 : ℝ) 1).indicator fun _ => 1 / 2 := by
    funext x
    simp [Set.indicator, mem_Icc]
  rw [e3, withDensity_indicator measurableSet_Icc, withDensity_const, Measure.restrict_smul]
  congr 1
  rw [ENNReal.ofReal_div_of_pos (by norm_num)]
  simp

theorem energyPitch_eq {m e u : ℝ} (hm : 0 < m) (he : 0 < e) (hu : 0 < u ∧ u < 1) : energyPitch m (thermalMomentum m e u) = (e, 1 - 2 * u) := by
  unfold energyPitch thermalMomentum
  simp only
  have hem : 0 < 2 * e * m := by positivity
  have h1 : 0 ≤ (1 - (1 - 2 * u) * (1 - 2 * u)) := by nlinarith [mul_pos hu.1 (sub_pos.2 hu.2)]
  have h2 : ((1 - 2 * u) * √(2 * e * m)) ^ 2 + √((1 - (1 - 2 * u) * (1 - 2 * u)) * 2 * e * m) ^ 2 = 2 * e * m := by
    rw [mul_pow, sq_sqrt hem.le, sq_sqrt (by have := mul_nonneg h1 hem.le; nlinarith)]
    ring
  rw [h2]
  congr 1
  · field_simp
  · have : √(2 * e * m) ≠ 0 := (sqrt_pos.2 hem).ne'
    field_simp

/-- **Maxwell distribution**: energy and pitch of the sampled momentum are independent, the energy is distributed as in a Maxwellian
with the temperature of the plasma and the direction is isotropic. -/
theorem maxwellian {m T : ℝ} (hm : 0 < m) (hT : 0 < T) :
    four.map (fun r => energyPitch m (thermalMomentum m (thermalEnergy T r.1.1 r.1.2.1 r.1.2.2) r.2)) =
      (maxwellEnergy T).prod isotropicPitch := by
  unfold four
  have hmE := measurable_energy T
  have ae : (fun r : (ℝ × ℝ × ℝ) × ℝ => energyPitch m (thermalMomentum m (thermalEnergy T r.1.1 r.1.2.1 r.1.2.2) r.2)) =ᵐ[
      (uniform.prod (uniform.prod uniform)).prod uniform]
      Prod.map (fun r : ℝ × ℝ × ℝ => thermalEnergy T r.1 r.2.1 r.2.2) (fun u : ℝ => 1 - 2 * u) := by
    have a0 : ∀ᵐ r ∂((uniform.prod (uniform.prod uniform)).prod uniform), 0 < r.1.1 ∧ r.1.1 < 1 :=
      Measure.quasiMeasurePreserving_fst.ae (Measure.quasiMeasurePreserving_fst.ae ae_uniform)
    have a1 : ∀ᵐ r ∂((uniform.prod (uniform.prod uniform)).prod uniform), 0 < r.1.2.1 ∧ r.1.2.1 < 1 :=
      Measure.quasiMeasurePreserving_fst.ae (Measure.quasiMeasurePreserving_snd.ae (Measure.quasiMeasurePreserving_fst.ae ae_uniform))
    have a2 : ∀ᵐ r ∂((uniform.prod (uniform.prod uniform)).prod uniform), 0 < r.2 ∧ r.2 < 1 :=
      Measure.quasiMeasurePreserving_snd.ae ae_uniform
    filter_upwards [a0, a1, a2] with r h0 h1 h2
    exact energyPitch_eq hm (energy_nonneg hT h0 h1) h2
  rw [Measure.map_congr ae, ← Measure.map_prod_map _ _ hmE (by fun_prop), energy hT, pitch]

/-- The momenta of `sampleThermal` are those of `maxwellian`, one for each set of random numbers; the density is that of the plasma.
If the plasma cannot be evaluated there are no thermal particles. -/
theorem sampled (m : ℝ) (dens temp : Except Nat ℝ) (us : List (ℝ × ℝ × ℝ × ℝ)) :
    (∀ n T, dens = .ok n → temp = .ok T → sampleThermal m dens temp us =
      (n, us.map fun u => thermalMomentum m (thermalEnergy T u.1 u.2.1 u.2.2.1) u.2.2.2)) ∧
    (∀ e, dens = .error e ∨ temp = .error e → sampleThermal m dens temp us = (0, [])) := by
  constructor
  · rintro n T rfl rfl; rfl
  · intro e h
    rcases h with rfl | rfl
    · rfl
    · cases dens <;> rfl

/-- **Mean energy**: the average energy is 3/2 of the temperature. -/
theorem mean_energy {T : ℝ} (hT : 0 < T) : ∫ r, thermalEnergy T r.1 r.2.1 r.2.2 ∂(uniform.prod (uniform.prod uniform)) = 3 / 2 * T := by
  have h := integral_map (μ := uniform.prod (uniform.prod uniform)) (measurable_energy T).aemeasurable (f := fun x : ℝ => x) (by fun_prop)
  rw [← h, energy hT, maxwell_gamma hT]
  unfold gammaMeasure gammaPDF
  rw [integral_withDensity_eq_integral_toReal_smul (by fun_prop) (by simp)]
  have e : ∀ x : ℝ, (ENNReal.ofReal (gammaPDFReal (3 / 2) (1 / T) x)).toReal • x = 3 / 2 * T * gammaPDFReal (5 / 2) (1 / T) x := by
    intro x
    rw [ENNReal.toReal_ofReal (gammaPDFReal_nonneg (by norm_num) (by positivity) x), smul_eq_mul]
    unfold gammaPDFReal
    split_ifs with hx
    · rcases eq_or_lt_of_le hx with rfl | hx'
      · rw [zero_rpow (by norm_num : (5 / 2 : ℝ) - 1 ≠ 0)]; simp
      · have g : Real.Gamma (5 / 2) = 3 / 2 * Real.Gamma (3 / 2) := by
          rw [show (5 / 2 : ℝ) = 3 / 2 + 1 by norm_num, Real.Gamma_add_one (by norm_num)]
        have p1 : x ^ ((5 / 2 : ℝ) - 1) = x ^ ((3 / 2 : ℝ) - 1) * x := by
          rw [show ((5 / 2 : ℝ) - 1) = (3 / 2 - 1) + 1 by norm_num, rpow_add hx', rpow_one]
        have p2 : (1 / T) ^ (5 / 2 : ℝ) = (1 / T) ^ (3 / 2 : ℝ) / T := by
          rw [show (5 / 2 : ℝ) = 3 / 2 + 1 by norm_num, rpow_add (by positivity), rpow_one]; ring
        have hG : Real.Gamma (3 / 2) ≠ 0 := (Real.Gamma_pos_of_pos (by norm_num)).ne'
        rw [g, p1, p2]
        field_simp
    · simp
  simp only [e]
  rw [integral_const_mul]
  have h1 : ∫ x, gammaPDFReal (5 / 2) (1 / T) x = 1 := by
    rw [integral_eq_lintegral_of_nonneg_ae (Filter.Eventually.of_forall fun x => gammaPDFReal_nonneg (by norm_num) (by positivity) x)
      (by fun_prop)]
    have := lintegral_gammaPDF_eq_one (a := 5 / 2) (r := 1 / T) (by norm_num) (by positivity)
    unfold gammaPDF at this
    rw [this]; rfl
  rw [h1, mul_one]

/-- The hypotheses can be met: positive mass and temperature, and a set of random numbers with a positive energy. -/
example : (0 : ℝ) < 1 ∧ (0 : ℝ) < 2 ∧ 0 < thermalEnergy 2 (1 / 2) (1 / 3) (1 / 4) :=
  ⟨by norm_num, by norm_num, energy_nonneg (by norm_num) (by norm_num) (by norm_num)⟩

end Ascot.C103
