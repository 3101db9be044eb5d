import Verif.Model.AnalyticInputs
import Verif.Props.C142_AsigmaFile
import Mathlib.Analysis.SpecialFunctions.Trigonometric.Chebyshev.RootsExtrema
import Mathlib.Analysis.SpecialFunctions.Integrals.Basic
import Mathlib.Analysis.Complex.ExponentialBounds
import Mathlib.Analysis.SpecialFunctions.Trigonometric.DerivHyp

set_option linter.unusedSectionVars false
set_option linter.unusedSimpArgs false

/-!
# C166: charge-exchange data are averages of the fitted cross section over a Maxwellian
-/
namespace Ascot.C166

open AnalyticInputs

/-! ## Cross section -/

/-- The coefficients of the fit. -/
noncomputable def coef : Fin 8 → ℝ := ![-5.49142, -3.42948, -1.98377, -0.878009, -0.198932, 0.0837431, 0.121252, 0.0827182]

theorem T_values (x : ℝ) :
    (Polynomial.Chebyshev.T ℝ 1).eval x = x ∧ (Polynomial.Chebyshev.T ℝ 2).eval x = 2 * x ^ 2 - 1 ∧
    (Polynomial.Chebyshev.T ℝ 3).eval x = 4 * x ^ 3 - 3 * x ∧ (Polynomial.Chebyshev.T ℝ 4).eval x = 8 * x ^ 4 - 8 * x ^ 2 + 1 ∧
    (Polynomial.Chebyshev.T ℝ 5).eval x = 16 * x ^ 5 - 20 * x ^ 3 + 5 * x ∧
    (Polynomial.Chebyshev.T ℝ 6).eval x = 32 * x ^ 6 - 48 * x ^ 4 + 18 * x ^ 2 - 1 ∧
    (Polynomial.Chebyshev.T ℝ 7).eval x = 64 * x ^ 7 - 112 * x ^ 5 + 56 * x ^ 3 - 7 * x ∧
    (Polynomial.Chebyshev.T ℝ 8).eval x = 128 * x ^ 8 - 256 * x ^ 6 + 160 * x ^ 4 - 32 * x ^ 2 + 1 := by
  have hrec : ∀ n : ℤ, (Polynomial.Chebyshev.T ℝ (n + 2)).eval x = 2 * x * (Polynomial.Chebyshev.T ℝ (n + 1)).eval x - (Polynomial.Chebyshev.T ℝ n).eval x := by
    intro n
    rw [Polynomial.Chebyshev.T_add_two]
    simp
  have h1 : (Polynomial.Chebyshev.T ℝ 1).eval x = x := by simp
  have h2 : (Polynomial.Chebyshev.T ℝ 2).eval x = 2 * x ^ 2 - 1 := by simp [Polynomial.Chebyshev.T_two]
  have h3 : (Polynomial.Chebyshev.T ℝ 3).eval x = 4 * x ^ 3 - 3 * x := by
    have := hrec 1; norm_num at this; rw [h2] at this; rw [this]; ring
  have h4 : (Polynomial.Chebyshev.T ℝ 4).eval x = 8 * x ^ 4 - 8 * x ^ 2 + 1 := by
    have := hrec 2; norm_num at this; rw [h2, h3] at this; rw [this]; ring
  have h5 : (Polynomial.Chebyshev.T ℝ 5).eval x = 16 * x ^ 5 - 20 * x ^ 3 + 5 * x := by
    have := hrec 3; norm_num at this; rw [h3, h4] at this; rw [this]; ring
  have h6 : (Polynomial.Chebyshev.T ℝ 6).eval x = 32 * x ^ 6 - 48 * x ^ 4 + 18 * x ^ 2 - 1 := by
    have := hrec 4; norm_num at this; rw [h4, h5] at this; rw [this]; ring
  have h7 : (Polynomial.Chebyshev.T ℝ 7).eval x = 64 * x ^ 7 - 112 * x ^ 5 + 56 * x ^ 3 - 7 * x := by
    have := hrec 5; norm_num at this; rw [h5, h6] at this; rw [this]; ring
  have h8 : (Polynomial.Chebyshev.T ℝ 8).eval x = 128 * x ^ 8 - 256 * x ^ 6 + 160 * x ^ 4 - 32 * x ^ 2 + 1 := by
    have := hrec 6; norm_num at this; rw [h6, h7] at this; rw [this]; ring
  exact ⟨h1, h2, h3, h4, h5, h6, h7, h8⟩

/-- **Fit.**  The exponent is the sum of Chebyshev polynomials of degree one to eight with the coefficients of the fit. -/
theorem chebyshev (x : ℝ) : series x = ∑ k : Fin 8, coef k * (Polynomial.Chebyshev.T ℝ (k + 1 : ℕ)).eval x := by
  obtain ⟨h1, h2, h3, h4, h5, h6, h7, h8⟩ := T_values x
  simp only [Fin.sum_univ_eight]
  show _ = coef 0 * (Polynomial.Chebyshev.T ℝ 1).eval x + coef 1 * (Polynomial.Chebyshev.T ℝ 2).eval x +
    coef 2 * (Polynomial.Chebyshev.T ℝ 3).eval x + coef 3 * (Polynomial.Chebyshev.T ℝ 4).eval x +
    coef 4 * (Polynomial.Chebyshev.T ℝ 5).eval x + coef 5 * (Polynomial.Chebyshev.T ℝ 6).eval x +
    coef 6 * (Polynomial.Chebyshev.T ℝ 7).eval x + coef 7 * (Polynomial.Chebyshev.T ℝ 8).eval x
  rw [h1, h2, h3, h4, h5, h6, h7, h8]
  simp only [coef, Fin.isValue, Matrix.cons_val]
  unfold series
  norm_num

theorem logs : Real.log Emin < Real.log Emax := by
  apply Real.log_lt_log <;> unfold Emin
  · norm_num
  · unfold Emax; norm_num

/-- **Abscissa.**  The energies of the fit are mapped to the interval from -1 to 1, in the same order. -/
theorem abscissa_range : abscissa Emin = -1 ∧ abscissa Emax = 1 ∧ StrictMonoOn abscissa (Set.Ioi 0) ∧
    ∀ e, Emin ≤ e → e ≤ Emax → |abscissa e| ≤ 1 := by
  have hl := logs
  have hd : 0 < Real.log Emax - Real.log Emin := by linarith
  have hE : 0 < Emin := by unfold Emin; norm_num
  have h1 : abscissa Emin = -1 := by unfold abscissa; rw [div_eq_iff hd.ne']; ring
  have h2 : abscissa Emax = 1 := by unfold abscissa; rw [div_eq_iff hd.ne']; ring
  have hm : StrictMonoOn abscissa (Set.Ioi 0) := by
    intro a ha b hb hab
    unfold abscissa
    have := Real.log_lt_log ha hab
    apply div_lt_div_of_pos_right _ hd
    linarith
  refine ⟨h1, h2, hm, fun e h3 h4 => ?_⟩
  have he : 0 < e := lt_of_lt_of_le hE h3
  rw [abs_le, ← h1, ← h2]
  exact ⟨hm.monotoneOn hE he h3, hm.monotoneOn he (lt_of_lt_of_le he h4) h4⟩

/-- **Cross section.**  It is positive exactly at the energies of the fit, and between the values that the sum of the coefficients
allows. -/
theorem sigma_bounds (e : ℝ) : (0 < sigma e ↔ Emin ≤ e ∧ e ≤ Emax) ∧ 0 ≤ sigma e ∧
    (Emin ≤ e → e ≤ Emax → 1e-4 * Real.exp (-48.61) ≤ sigma e ∧ sigma e ≤ 1e-4 * Real.exp (-24.06)) := by
  by_cases h : e < Emin ∨ e > Emax
  · have : sigma e = 0 := by unfold sigma; rw [if_pos h]
    rw [this]
    refine ⟨⟨fun h0 => absurd h0 (lt_irrefl _), fun h' => ?_⟩, le_refl _, fun h1 h2 => ?_⟩
    · rcases h with h | h
      · exact absurd h'.1 (not_le.2 h)
      · exact absurd h'.2 (not_le.2 h)
    · rcases h with h | h
      · exact absurd h1 (not_le.2 h)
      · exact absurd h2 (not_le.2 h)
  · have hs : sigma e = 1e-4 * Real.exp (-72.6656 / 2 + series (abscissa e)) := by unfold sigma; rw [if_neg h]
    push Not at h
    have hpos : 0 < sigma e := by rw [hs]; positivity
    refine ⟨⟨fun _ => h, fun _ => hpos⟩, hpos.le, fun h1 h2 => ?_⟩
    have hX := abscissa_range.2.2.2 e h1 h2
    have hT : ∀ n : ℤ, |(Polynomial.Chebyshev.T ℝ n).eval (abscissa e)| ≤ 1 := fun n => Polynomial.Chebyshev.abs_eval_T_real_le_one n hX
    obtain ⟨t1, t2, t3, t4, t5, t6, t7, t8⟩ := T_values (abscissa e)
    have b1 := abs_le.1 (t1 ▸ hT 1)
    have b2 := abs_le.1 (t2 ▸ hT 2)
    have b3 := abs_le.1 (t3 ▸ hT 3)
    have b4 := abs_le.1 (t4 ▸ hT 4)
    have b5 := abs_le.1 (t5 ▸ hT 5)
    have b6 := abs_le.1 (t6 ▸ hT 6)
    have b7 := abs_le.1 (t7 ▸ hT 7)
    have b8 := abs_le.1 (t8 ▸ hT 8)
    have hser : -12.27 ≤ series (abscissa e) ∧ series (abscissa e) ≤ 12.27 := by
      unfold series
      constructor <;> linarith [b1.1, b1.2, b2.1, b2.2, b3.1, b3.2, b4.1, b4.2, b5.1, b5.2, b6.1, b6.2, b7.1, b7.2, b8.1, b8.2]
    rw [hs]
    constructor <;> apply mul_le_mul_of_nonneg_left _ (by norm_num) <;> apply Real.exp_le_exp.2 <;> norm_num <;> linarith [hser.1, hser.2]

/-- **Range of energies.**  All energies of a grid that passes the check are energies of the fit. -/
theorem checked_range {a1 emin emax e : ℝ} (ha : 0 < a1) (h : checked a1 emin emax) (h1 : emin ≤ e) (h2 : e ≤ emax) :
    0 < sigma (e / a1) := by
  unfold checked at h
  push Not at h
  refine (sigma_bounds _).1.2 ⟨h.1.trans ?_, le_trans ?_ h.2⟩ <;> gcongr

/-- The defaults pass the check. -/
example : checked 2 5e1 1.5e5 := by
  unfold checked Emin Emax; norm_num

/-! ## Rates -/

/-- The density of the distribution of the relative speed `u` between a particle of speed `v` and particles of mass `m` from a
Maxwellian distribution of temperature `T`: the Maxwellian at the velocities whose difference to that of the particle has length `u`, integrated
over the sphere (`mu` is the cosine of the angle between the particle and the difference). -/
noncomputable def speedDensity (m T v u : ℝ) : ℝ :=
  2 * Real.pi * u ^ 2 * Real.sqrt (m / (2 * Real.pi * T)) ^ 3 *
    ∫ mu in (-1 : ℝ)..1, Real.exp (-m * (u ^ 2 + v ^ 2 - 2 * u * v * mu) / (2 * T))

theorem integral_exp_affine {a : ℝ} (ha : a ≠ 0) (b : ℝ) :
    ∫ mu in (-1 : ℝ)..1, Real.exp (a * mu + b) = (Real.exp (a + b) - Real.exp (-a + b)) / a := by
  have hd : ∀ x ∈ Set.uIcc (-1 : ℝ) 1, HasDerivAt (fun mu => Real.exp (a * mu + b) / a) (Real.exp (a * x + b)) x := by
    intro x _
    have h1 : HasDerivAt (fun mu : ℝ => a * mu + b) a x := by
      simpa using ((hasDerivAt_id x).const_mul a).add_const b
    exact (h1.exp.div_const a).congr_deriv (by field_simp)
  rw [intervalIntegral.integral_eq_sub_of_hasDerivAt hd]
  · simp only [mul_one, mul_neg]; ring
  · exact (Real.continuous_exp.comp (by fun_prop)).intervalIntegrable _ _

/-- The rate density: cross section times speed times the density of the speed. -/
noncomputable def exact (k m1 a1 m2 v1 T u : ℝ) : ℝ := sigma (k * (0.5 * m1 * u ^ 2 / a1)) * u * speedDensity m2 T v1 u

theorem exact_eq {m2 v1 T u : ℝ} (hm : 0 < m2) (hT : 0 < T) (hv : 0 < v1) (hu : 0 < u) (k m1 a1 : ℝ) :
    exact k m1 a1 m2 v1 T u = 2 * Real.sinh (m2 * u * v1 / T) * Real.exp (-m2 * v1 ^ 2 / (2 * T) + -m2 * u ^ 2 / (2 * T)) *
      (sigma (k * (0.5 * m1 * u ^ 2 / a1)) * u ^ 2 * Real.sqrt (m2 / (2 * Real.pi * T)) / v1) := by
  have hpi := Real.pi_pos
  have hx : m2 * u * v1 / T ≠ 0 := by positivity
  have hi : ∫ mu in (-1 : ℝ)..1, Real.exp (-m2 * (u ^ 2 + v1 ^ 2 - 2 * u * v1 * mu) / (2 * T)) =
      (2 * Real.sinh (m2 * u * v1 / T) * Real.exp (-m2 * v1 ^ 2 / (2 * T) + -m2 * u ^ 2 / (2 * T))) / (m2 * u * v1 / T) := by
    have e : ∀ mu : ℝ, -m2 * (u ^ 2 + v1 ^ 2 - 2 * u * v1 * mu) / (2 * T) =
        m2 * u * v1 / T * mu + (-m2 * v1 ^ 2 / (2 * T) + -m2 * u ^ 2 / (2 * T)) := by
      intro mu; field_simp; ring
    simp only [e]
    rw [integral_exp_affine hx, Real.exp_add, Real.exp_add (-(m2 * u * v1 / T)), Real.sinh_eq]
    ring
  unfold exact speedDensity
  rw [hi]
  have hq : 0 ≤ m2 / (2 * Real.pi * T) := by positivity
  have hs := Real.sq_sqrt hq
  have h3 : Real.sqrt (m2 / (2 * Real.pi * T)) ^ 3 = m2 / (2 * Real.pi * T) * Real.sqrt (m2 / (2 * Real.pi * T)) := by
    rw [pow_succ, hs]
  rw [h3]
  generalize Real.sqrt (m2 / (2 * Real.pi * T)) = w
  generalize Real.sinh (m2 * u * v1 / T) = sh
  generalize Real.exp (-m2 * v1 ^ 2 / (2 * T) + -m2 * u ^ 2 / (2 * T)) = ex
  generalize sigma (k * (0.5 * m1 * u ^ 2 / a1)) = s
  field_simp

theorem exp20 : 4.8e8 < Real.exp 20 ∧ Real.exp 20 < 4.9e8 := by
  have h : Real.exp 20 = Real.exp 1 ^ 20 := by rw [← Real.exp_nat_mul]; norm_num
  have h1 := Real.exp_one_gt_d9
  have h2 := Real.exp_one_lt_d9
  rw [h]
  constructor
  · refine lt_of_lt_of_le ?_ (pow_le_pow_left₀ (by norm_num) h1.le 20)
    norm_num
  · refine lt_of_le_of_lt (pow_le_pow_left₀ (Real.exp_pos 1).le h2.le 20) ?_
    norm_num

/-- **Rate.**  The integrand is the rate density up to a relative error of `2.1e-9`; it is the rate density itself where the argument of the
hyperbolic sine is below ten. -/
theorem integrand_spec {m2 v1 T u : ℝ} (hm : 0 < m2) (hT : 0 < T) (hv : 0 < v1) (hu : 0 < u) (k m1 a1 : ℝ) :
    exact k m1 a1 m2 v1 T u ≤ integrand k m1 a1 m2 v1 T u ∧
    integrand k m1 a1 m2 v1 T u ≤ (1 + 2.1e-9) * exact k m1 a1 m2 v1 T u ∧
    (m2 * u * v1 / T < 10 → integrand k m1 a1 m2 v1 T u = exact k m1 a1 m2 v1 T u) := by
  rw [exact_eq hm hT hv hu]
  unfold integrand
  simp only
  set x := m2 * u * v1 / T with hx
  have hx0 : 0 < x := by rw [hx]; positivity
  have hval : 0 ≤ sigma (k * (0.5 * m1 * u ^ 2 / a1)) * u ^ 2 * Real.sqrt (m2 / (2 * Real.pi * T)) / v1 := by
    have := (sigma_bounds (k * (0.5 * m1 * u ^ 2 / a1))).2.1
    positivity
  generalize sigma (k * (0.5 * m1 * u ^ 2 / a1)) * u ^ 2 * Real.sqrt (m2 / (2 * Real.pi * T)) / v1 = w at hval ⊢
  by_cases h : x ≥ 10
  · rw [if_pos h]
    have e : Real.exp (x + -m2 * v1 ^ 2 / (2 * T) + -m2 * u ^ 2 / (2 * T)) =
        Real.exp x * Real.exp (-m2 * v1 ^ 2 / (2 * T) + -m2 * u ^ 2 / (2 * T)) := by rw [← Real.exp_add]; ring_nf
    rw [e]
    have hE := Real.exp_pos (-m2 * v1 ^ 2 / (2 * T) + -m2 * u ^ 2 / (2 * T))
    generalize Real.exp (-m2 * v1 ^ 2 / (2 * T) + -m2 * u ^ 2 / (2 * T)) = E at hE ⊢
    have hsh : 2 * Real.sinh x = Real.exp x - Real.exp (-x) := by rw [Real.sinh_eq]; ring
    rw [hsh]
    have h1 := Real.exp_pos x
    have h2 := Real.exp_pos (-x)
    have h3 : 4.8e8 * Real.exp (-x) ≤ Real.exp x := by
      have : Real.exp 20 * Real.exp (-x) ≤ Real.exp x := by
        rw [← Real.exp_add]; apply Real.exp_le_exp.2; linarith
      nlinarith [exp20.1]
    refine ⟨?_, ?_, fun h' => absurd h (not_le.2 h')⟩
    · gcongr
      linarith
    · have : (1 + 2.1e-9) * ((Real.exp x - Real.exp (-x)) * E * w) = ((1 + 2.1e-9) * (Real.exp x - Real.exp (-x))) * E * w := by ring
      rw [this]
      gcongr
      norm_num at h3 ⊢
      linarith
  · rw [if_neg h]
    have hsh : 0 < Real.sinh x := Real.sinh_pos_iff.2 hx0
    refine ⟨le_refl _, ?_, fun _ => rfl⟩
    have : 0 ≤ 2 * Real.sinh x * Real.exp (-m2 * v1 ^ 2 / (2 * T) + -m2 * u ^ 2 / (2 * T)) * w := by positivity
    linarith

example : (0 : ℝ) < 3.3e-27 ∧ (0 : ℝ) < 1.6e-16 ∧ (0 : ℝ) < 1e6 := by norm_num

/-- The comment promises less than `2e-9`; at ten the error is larger. -/
theorem error_at_ten : 2e-9 < (Real.exp 10 / 2 - Real.sinh 10) / Real.sinh 10 := by
  have hsh : 0 < Real.sinh 10 := Real.sinh_pos_iff.2 (by norm_num)
  rw [lt_div_iff₀ hsh, Real.sinh_eq]
  have h1 : Real.exp 10 * Real.exp (-10) = 1 := by rw [← Real.exp_add]; norm_num
  have h2 : Real.exp 10 * Real.exp 10 = Real.exp 20 := by rw [← Real.exp_add]; norm_num
  have h3 := exp20.2
  have h4 := Real.exp_pos (-10)
  have h5 := Real.exp_pos 10
  have h6 : Real.exp 10 < 4.9e8 * Real.exp (-10) := by
    by_contra hc
    push Not at hc
    have := mul_le_mul_of_nonneg_left hc h5.le
    rw [h2] at this
    have e : Real.exp 10 * (4.9e8 * Real.exp (-10)) = 4.9e8 := by rw [mul_left_comm, h1, mul_one]
    rw [e] at this
    linarith
  norm_num at h6 ⊢
  linarith

/-! ## Layout -/

/-- The arguments of the output, a5py/templates/analyticalinputs.py:315-322. -/
def reaction (z1 a1 z2 a2 : ℤ) (emin emax tmin tmax : ℝ) (nekin ntemp : ℕ) (rate : ℕ → ℕ → ℝ) : C142.Reaction :=
  ⟨z1, a1, z2, a2, 6, nekin, emin, emax, 1, 1, 1e30, ntemp, tmin, tmax, fun i _ k => rate i k⟩

/-- **Layout.**  The simulation finds the rate of each energy and temperature at its place, and interpolates between them. -/
theorem layout (junk : ℕ → ℝ) (z1 a1 z2 a2 : ℤ) {emin emax tmin tmax : ℝ} {nekin ntemp : ℕ} (he : emin < emax) (ht : tmin < tmax)
    (hn : 2 ≤ nekin) (hm : 2 ≤ ntemp) (rate : ℕ → ℕ → ℝ) {sigmav : ℕ → ℝ}
    (hs : ∀ i < nekin, ∀ k < ntemp, sigmav (position nekin i k) = rate i k) :
    let r := reaction z1 a1 z2 a2 emin emax tmin tmax nekin ntemp rate
    ∃ g ds F, AsigmaFile.write (C142.args 1 (fun _ => r) sigmav) = .done g ∧
      AsigmaFile.readAsigma junk (PyFile.only "asigma_loc" g) = .ok ds ∧
      Tensor.IsSplineFun2 nekin ntemp .natural .natural emin emax tmin tmax rate F ∧
      ∀ cE ext e te t0 ni, emin ≤ e / cE → e / cE ≤ emax → tmin ≤ t0 / cE → t0 / cE ≤ tmax →
        Asigma.evalSigmav cE ⟨some ds, ext⟩ z1 a1 z2 a2 e te t0 ni 6 = ⟨0, some (max (F (e / cE, t0 / cE)) 0)⟩ := by
  intro r
  have hk : ∀ q < 1, ((fun _ => r) q).Kind ((fun _ => 2) q) := fun q _ => .two hn rfl hm he ht
  have hp : C142.Packed 1 (fun _ => r) sigmav := by
    intro q hq i hi j hj k hk
    obtain rfl : q = 0 := by omega
    have hj' : j = 0 := by simp only [r, reaction] at hj; omega
    subst hj'
    rw [show C142.start (fun _ => r) 0 = 0 from rfl]
    have := hs i hi k hk
    simp only [position] at this
    simpa [r, reaction] using this
  obtain ⟨g, ds, hg, hd, -, h2, -⟩ := C142.evaluation_partial junk (by norm_num) hk hp (fun q hq h => by omega)
  obtain ⟨F, hF, hF'⟩ := h2 rfl (.inr (.inr rfl))
  exact ⟨g, ds, F, hg, hd, hF, fun cE ext e te t0 ni x1 x2 x3 x4 => (hF' cE ext e te t0 ni).1 x1 x2 x3 x4⟩

end Ascot.C166
