import Verif.Lemmas.Physlib

/-!
# C46: kinematic conversions
-/
set_option linter.unusedSectionVars false
set_option linter.unusedSimpArgs false

namespace Ascot.C46
open Ascot.Physlib

variable {c m : ℝ}

/-- Lorentz factors are at least one. -/
theorem gamma_ge_one (hc : 0 < c) (hm : 0 < m) : (∀ p, 1 ≤ gammaPnorm c m p) ∧ (∀ v, |v| < c → 1 ≤ gammaVnorm c v) ∧
    (∀ mu B ppar, 0 ≤ mu → 0 ≤ B → 1 ≤ gammaPpar c m mu ppar B) ∧ (∀ E, 0 ≤ E → 1 ≤ gammaEkin c m E) := by
  refine ⟨gammaPnorm_ge hm, fun v hv => ?_, fun mu B ppar h1 h2 => gammaPpar_ge hm h1 h2 ppar, fun E hE => ?_⟩
  · have h := gammaVnorm_sq hc hv
    have hp := gammaVnorm_pos hc hv
    by_contra hlt
    rw [not_le] at hlt
    have : gammaVnorm c v ^ 2 < 1 := by nlinarith
    nlinarith [mul_self_nonneg v, mul_pos hc hc]
  · unfold gammaEkin
    have : 0 ≤ E / (m * (c * c)) := by positivity
    linarith

/-- Speed and Lorentz factor. -/
theorem speed_gamma (hc : 0 < c) : (∀ v, 0 ≤ v → v < c → vnormGamma c (gammaVnorm c v) = v) ∧
    (∀ g, 1 ≤ g → gammaVnorm c (vnormGamma c g) = g ∧ 0 ≤ vnormGamma c g ∧ vnormGamma c g < c) := by
  constructor
  · intro v h0 hv
    have habs : |v| < c := by rw [abs_of_nonneg h0]; exact hv
    have h := gammaVnorm_sq hc habs
    have hp := gammaVnorm_pos hc habs
    unfold vnormGamma
    have e : 1 - 1 / (gammaVnorm c v * gammaVnorm c v) = (v / c) ^ 2 := by
      have : gammaVnorm c v * gammaVnorm c v = c * c / (c * c - v * v) := by
        rw [eq_div_iff (by nlinarith)]
        linarith
      rw [this]
      have : c * c - v * v ≠ 0 := by nlinarith
      field_simp
      ring
    rw [e, Real.sqrt_sq (by positivity)]
    field_simp
  · intro g hg
    have hg0 : 0 < g := lt_of_lt_of_le one_pos hg
    have hle : 1 / (g * g) ≤ 1 := by rw [div_le_one (by positivity)]; nlinarith
    have hs : Real.sqrt (1 - 1 / (g * g)) ^ 2 = 1 - 1 / (g * g) := Real.sq_sqrt (by linarith)
    have hs0 := Real.sqrt_nonneg (1 - 1 / (g * g))
    have hs1 : Real.sqrt (1 - 1 / (g * g)) < 1 := by
      rw [Real.sqrt_lt' one_pos]
      have : 0 < 1 / (g * g) := by positivity
      linarith
    have hv0 : 0 ≤ vnormGamma c g := by unfold vnormGamma; positivity
    have hv1 : vnormGamma c g < c := by
      unfold vnormGamma
      nlinarith
    refine ⟨?_, hv0, hv1⟩
    unfold gammaVnorm
    have e : (1 - vnormGamma c g / c) * (1 + vnormGamma c g / c) = 1 / (g * g) := by
      have : vnormGamma c g / c = Real.sqrt (1 - 1 / (g * g)) := by unfold vnormGamma; field_simp
      rw [this]
      linear_combination -hs
    rw [e, one_div_one_div, Real.sqrt_mul_self hg0.le]

/-- Momentum and velocity, with sign. -/
theorem momentum_velocity (hc : 0 < c) (hm : 0 < m) : (∀ v, |v| < c → vnormPnorm c m (pnormVnorm c m v) = v) ∧
    (∀ p, pnormVnorm c m (vnormPnorm c m p) = p ∧ |vnormPnorm c m p| < c) ∧
    (∀ v, |v| < c → gammaPnorm c m (pnormVnorm c m v) = gammaVnorm c v) ∧
    (∀ p, vnormPnorm c m p = p / (gammaPnorm c m p * m)) := by
  have hA : ∀ p, Real.sqrt (m * m + p * p / (c * c)) = m * gammaPnorm c m p := by
    intro p
    have : m * m + p * p / (c * c) = (m * gammaPnorm c m p) ^ 2 := by
      rw [mul_pow, gammaPnorm_sq]
      field_simp
    rw [this, Real.sqrt_sq (mul_nonneg hm.le (gammaPnorm_pos hm p).le)]
  have hB : ∀ v, |v| < c → gammaPnorm c m (pnormVnorm c m v) = gammaVnorm c v := by
    intro v hv
    have h := gammaVnorm_sq hc hv
    have hp := gammaVnorm_pos hc hv
    have : (gammaPnorm c m (pnormVnorm c m v)) ^ 2 = (gammaVnorm c v) ^ 2 := by
      rw [gammaPnorm_sq]
      unfold pnormVnorm
      field_simp
      linarith
    exact (pow_left_inj₀ (gammaPnorm_pos hm _).le hp.le two_ne_zero).1 this
  have hC : ∀ p, vnormPnorm c m p = p / (gammaPnorm c m p * m) := by
    intro p
    unfold vnormPnorm
    rw [hA, mul_comm]
  have hD : ∀ p, |vnormPnorm c m p| < c := by
    intro p
    rw [hC]
    have hg := gammaPnorm_pos (c := c) hm p
    rw [abs_div, abs_of_pos (mul_pos hg hm), div_lt_iff₀ (mul_pos hg hm)]
    refine abs_lt_of_sq_lt_sq ?_ (by positivity)
    have := gammaPnorm_sq (c := c) (m := m) p
    have e : (c * (gammaPnorm c m p * m)) ^ 2 = c ^ 2 * m ^ 2 + p ^ 2 := by
      rw [mul_pow, mul_pow, this]
      field_simp
    rw [e]
    have : 0 < c ^ 2 * m ^ 2 := by positivity
    linarith
  refine ⟨fun v hv => ?_, fun p => ⟨?_, hD p⟩, hB, hC⟩
  · rw [hC, hB v hv]
    unfold pnormVnorm
    have := (gammaVnorm_pos hc hv).ne'
    field_simp
  · have hg := gammaPnorm_pos (c := c) hm p
    have h1 : gammaVnorm c (vnormPnorm c m p) = gammaPnorm c m p := by
      have h := gammaVnorm_sq hc (hD p)
      have hp := gammaVnorm_pos hc (hD p)
      refine (pow_left_inj₀ hp.le hg.le two_ne_zero).1 ?_
      have hs := gammaPnorm_sq (c := c) (m := m) p
      have e : gammaPnorm c m p ^ 2 * (c * c - vnormPnorm c m p * vnormPnorm c m p) = c * c := by
        rw [hC]
        have hne := hg.ne'
        have : gammaPnorm c m p ^ 2 * (m ^ 2 * c ^ 2) = m ^ 2 * c ^ 2 + p ^ 2 := by
          rw [hs]; field_simp
        field_simp
        nlinarith
      have hpos : 0 < c * c - vnormPnorm c m p * vnormPnorm c m p := by
        have := sq_lt_sq' (abs_lt.1 (hD p)).1 (abs_lt.1 (hD p)).2
        nlinarith
      have : (gammaVnorm c (vnormPnorm c m p) ^ 2 - gammaPnorm c m p ^ 2) * (c * c - vnormPnorm c m p * vnormPnorm c m p) = 0 := by
        linear_combination h - e
      rcases mul_eq_zero.1 this with h | h
      · linarith
      · exact absurd h hpos.ne'
    unfold pnormVnorm
    rw [h1, hC]
    have := hg.ne'
    field_simp

/-- Kinetic energy. -/
theorem energy (hc : 0 < c) (hm : 0 < m) : (∀ g, gammaEkin c m (ekinGamma c m g) = g) ∧ (∀ E, ekinGamma c m (gammaEkin c m E) = E) ∧
    (∀ p, ekinPnorm c m p = ekinGamma c m (gammaPnorm c m p) ∧ 0 ≤ ekinPnorm c m p) ∧
    (∀ mu ppar B, ekinPpar c m mu ppar B = ekinGamma c m (gammaPpar c m mu ppar B)) := by
  refine ⟨fun g => ?_, fun E => ?_, fun p => ⟨rfl, ?_⟩, fun mu ppar B => rfl⟩
  · unfold gammaEkin ekinGamma
    field_simp
    ring
  · unfold gammaEkin ekinGamma
    field_simp
    ring
  · unfold ekinPnorm
    have := gammaPnorm_ge (c := c) hm p
    have : 0 ≤ gammaPnorm c m p - 1 := by linarith
    positivity

/-- Guiding center: momentum and pitch to parallel momentum and magnetic moment, and back. -/
theorem pitch_to_moment (hc : 0 < c) (hm : 0 < m) {p xi B : ℝ} (hp : 0 < p) (hxi : |xi| ≤ 1) (hB : 0 < B) :
    gcP c m (gcMu m p xi B) (gcPpar p xi) B = p ∧ gcXi c m (gcMu m p xi B) (gcPpar p xi) B = xi ∧
    gammaPpar c m (gcMu m p xi B) (gcPpar p xi) B = gammaPnorm c m p ∧ 0 ≤ gcMu m p xi B := by
  have h1 : xi ^ 2 ≤ 1 := (sq_le_one_iff_abs_le_one xi).2 hxi
  have hmu : 0 ≤ gcMu m p xi B := by
    unfold gcMu
    have : 0 ≤ 1 - xi * xi := by nlinarith
    positivity
  obtain ⟨hs, h0⟩ := gcP_sq hc hm hmu hB.le (gcPpar p xi)
  have hP : gcP c m (gcMu m p xi B) (gcPpar p xi) B = p := by
    refine (pow_left_inj₀ h0 hp.le two_ne_zero).1 ?_
    rw [hs]
    unfold gcMu gcPpar
    field_simp
    ring
  refine ⟨hP, ?_, ?_, hmu⟩
  · unfold gcXi
    rw [hP]
    unfold gcPpar
    field_simp
  · refine (pow_left_inj₀ (le_trans zero_le_one (gammaPpar_ge hm hmu hB.le _)) (gammaPnorm_pos hm p).le two_ne_zero).1 ?_
    rw [gammaPpar_sq hm hmu hB.le, gammaPnorm_sq]
    unfold gcMu gcPpar
    field_simp
    ring

/-- The other direction. -/
theorem moment_to_pitch (hc : 0 < c) (hm : 0 < m) {mu ppar B : ℝ} (hmu : 0 ≤ mu) (hB : 0 < B) (hne : 0 < mu ∨ ppar ≠ 0) :
    gcMu m (gcP c m mu ppar B) (gcXi c m mu ppar B) B = mu ∧ gcPpar (gcP c m mu ppar B) (gcXi c m mu ppar B) = ppar ∧
    |gcXi c m mu ppar B| ≤ 1 ∧ 0 < gcP c m mu ppar B := by
  obtain ⟨hs, h0⟩ := gcP_sq hc hm hmu hB.le ppar
  have hpos : 0 < gcP c m mu ppar B := by
    rcases h0.lt_or_eq with h | h
    · exact h
    · rw [← h] at hs
      exfalso
      rcases hne with h' | h'
      · have : 0 < 2 * m * mu * B := by positivity
        nlinarith [sq_nonneg ppar]
      · have : 0 < ppar ^ 2 := by positivity
        have : 0 ≤ 2 * m * mu * B := by positivity
        nlinarith
  have hne := hpos.ne'
  refine ⟨?_, ?_, ?_, hpos⟩
  · unfold gcMu gcXi
    field_simp
    linarith
  · unfold gcPpar gcXi
    field_simp
  · unfold gcXi
    rw [abs_div, abs_of_pos hpos, div_le_one hpos]
    refine abs_le_of_sq_le_sq ?_ hpos.le
    rw [hs]
    have : 0 ≤ 2 * m * mu * B := by positivity
    linarith

/-- Lorentz factor from the parallel velocity of the same guiding center. -/
theorem gamma_from_parallel_velocity (hc : 0 < c) (hm : 0 < m) {mu ppar B : ℝ} (hmu : 0 ≤ mu) (hB : 0 ≤ B) :
    gammaVpar c m mu (ppar / (gammaPpar c m mu ppar B * m)) B = gammaPpar c m mu ppar B := by
  have hg := gammaPpar_ge (c := c) hm hmu hB ppar
  have hs := gammaPpar_sq (c := c) hm hmu hB ppar
  generalize gammaPpar c m mu ppar B = g at hg hs ⊢
  have hg0 : 0 < g := lt_of_lt_of_le one_pos hg
  unfold gammaVpar
  have hk : 0 < 1 + 2 * mu * B / (m * (c * c)) := by positivity
  have e : (1 - ppar / (g * m) / c) * (1 + ppar / (g * m) / c) = (1 + 2 * mu * B / (m * (c * c))) / g ^ 2 := by
    have : 1 + 2 * mu * B / (m * (c * c)) = g ^ 2 - ppar * ppar / (m * m * (c * c)) := by rw [hs]; ring
    rw [this]
    field_simp
    ring
  rw [e, div_div_cancel₀ hk.ne', Real.sqrt_sq hg0.le]

/-- Magnitude of the parallel momentum from energy, from gyrofrequency, and (with sign) from canonical momentum. -/
theorem parallel_momentum (hc : 0 < c) (hm : 0 < m) {mu ppar B : ℝ} (hmu : 0 ≤ mu) (hB : 0 < B) :
    pparEkin c m (ekinPpar c m mu ppar B) mu B = |ppar| ∧
    (∀ q, q ≠ 0 → pparMu c m mu B q (gyrofreqPpar c m q mu ppar B) = |ppar|) ∧
    (∀ q R psi Bphi, R ≠ 0 → Bphi ≠ 0 → pparPphi B R Bphi (ptoroidGc q R ppar psi B Bphi) q psi = ppar) := by
  have hg := gammaPpar_ge (c := c) hm hmu hB.le ppar
  have hs := gammaPpar_sq (c := c) hm hmu hB.le ppar
  refine ⟨?_, fun q hq => ?_, fun q R psi Bphi hR hBp => ?_⟩
  · unfold pparEkin
    have e : gammaEkin c m (ekinPpar c m mu ppar B) = gammaPpar c m mu ppar B := (energy hc hm).1 _
    rw [e]
    have : (gammaPpar c m mu ppar B * gammaPpar c m mu ppar B - 1) * m * m * (c * c) - 2 * m * mu * B = ppar ^ 2 := by
      rw [← sq, hs]
      field_simp
      ring
    rw [this, Real.sqrt_sq_eq_abs]
  · unfold pparMu gyrofreqPpar
    have hg0 : gammaPpar c m mu ppar B ≠ 0 := by linarith
    have hq' : |q| ≠ 0 := abs_ne_zero.2 hq
    have e : q * B / (|q| * B / (m * gammaPpar c m mu ppar B) * m) * (q * B / (|q| * B / (m * gammaPpar c m mu ppar B) * m)) =
        gammaPpar c m mu ppar B ^ 2 := by
      have h2 : q * q = |q| * |q| := (abs_mul_abs_self q).symm
      field_simp
      linear_combination h2
    rw [e, hs]
    have : 1 + 2 * mu * B / (m * (c * c)) + ppar * ppar / (m * m * (c * c)) - 2 * mu * B / (m * (c * c)) - 1 = (ppar / (m * c)) ^ 2 := by
      field_simp
      ring
    rw [this, Real.sqrt_sq_eq_abs, abs_div, abs_of_pos (mul_pos hm hc)]
    field_simp
  · unfold pparPphi ptoroidGc
    field_simp
    ring

/-- Perpendicular momentum and magnetic moment. -/
theorem perpendicular_momentum (hc : 0 < c) (hm : 0 < m) {mu ppar B : ℝ} (hmu : 0 ≤ mu) (hB : 0 < B) :
    pperpGc (gcP c m mu ppar B) ppar ^ 2 = 2 * m * mu * B := by
  obtain ⟨hs, -⟩ := gcP_sq hc hm hmu hB.le ppar
  unfold pperpGc
  have : 0 ≤ 2 * m * mu * B := by positivity
  rw [Real.sq_sqrt (by rw [hs]; linarith), hs]
  ring

/-- Finding: `phys_gyrolength_ppar` (not used in the sources) is too large by the square root of the Lorentz factor:
the gyroradius is the perpendicular momentum over `|q| B`. -/
theorem gyrolength_factor (hc : 0 < c) (hm : 0 < m) {mu ppar B q : ℝ} (hmu : 0 ≤ mu) (hB : 0 < B) :
    gyrolengthPpar c m q mu ppar B =
      Real.sqrt (gammaPpar c m mu ppar B) * (pperpGc (gcP c m mu ppar B) ppar / (|q| * B)) := by
  have h := perpendicular_momentum hc hm (ppar := ppar) hmu hB
  have hp : pperpGc (gcP c m mu ppar B) ppar = Real.sqrt (2 * m * mu * B) := by
    rw [← h, Real.sqrt_sq (by unfold pperpGc; exact Real.sqrt_nonneg _)]
  have hg := gammaPpar_ge (c := c) hm hmu hB.le ppar
  unfold gyrolengthPpar
  rw [hp, show 2 * m * mu * gammaPpar c m mu ppar B / B = gammaPpar c m mu ppar B * (2 * m * mu * B) / B ^ 2 by field_simp,
    Real.sqrt_div' _ (by positivity), Real.sqrt_sq hB.le, Real.sqrt_mul (by linarith)]
  field_simp

/-- Finding: `physlib_gyrolength_p` (not used in the sources) uses the parallel instead of the perpendicular momentum: it
vanishes for a gyrating particle without parallel motion. -/
theorem gyrolength_p_vanishes : gyrolengthP 1 ⟨1, 0, 0⟩ ⟨0, 0, 1⟩ = 0 := by
  unfold gyrolengthP V3.dot
  norm_num

/-- Values that satisfy the hypotheses. -/
example : (0 : ℝ) < 299792458 ∧ gcXi 1 1 (3 / 8) (1 / 2) 1 = 1 / 2 := by
  refine ⟨by norm_num, ?_⟩
  have h := (pitch_to_moment (c := 1) (m := 1) (p := 1) (xi := 1 / 2) (B := 1) (by norm_num) (by norm_num) (by norm_num)
    (by rw [abs_of_pos] <;> norm_num) (by norm_num)).2.1
  have e1 : gcMu 1 1 (1 / 2) 1 = 3 / 8 := by unfold gcMu; norm_num
  have e2 : gcPpar 1 (1 / 2) = 1 / 2 := by unfold gcPpar; norm_num
  rwa [e1, e2] at h

end Ascot.C46
