import Verif.Model.AnalyticInputs
import Verif.Spec.Partial
import Verif.Props.C52_Plasma
import Verif.Props.C105_Neutral
import Verif.Lemmas.Wall2D
import Mathlib.Analysis.SpecialFunctions.Trigonometric.Deriv
import Mathlib.Analysis.SpecialFunctions.Trigonometric.Chebyshev.Basic
import Mathlib.Analysis.SpecialFunctions.Complex.CircleAddChar
import Mathlib.Analysis.Complex.ExponentialBounds
import Mathlib.RingTheory.RootsOfUnity.Complex
import Mathlib.Algebra.Ring.GeomSum
import Mathlib.Data.List.GetD

set_option linter.unusedSectionVars false
set_option linter.unusedSimpArgs false

/-!
# C165: analytical inputs are what their descriptions say
-/
namespace Ascot.C165

open AnalyticInputs

/-! ## Ripple -/

/-- Curl of a vector field in cylindrical coordinates, from its components and their derivatives. -/
noncomputable def curl (j : Coord.Jac) (r : ℝ) : V3 ℝ :=
  ⟨j.c.d2 / r - j.b.d3, j.a.d3 - j.c.d1, (j.b.v + r * j.b.d1 - j.a.d2) / r⟩

/-- The ripple as a vector field. -/
noncomputable def ripple (b0 r0 rcoil : ℝ) (ncoil : ℕ) (R P _z : ℝ) : V3 ℝ :=
  ⟨dbr b0 r0 rcoil ncoil R P, dbphi b0 r0 rcoil ncoil R P, 0⟩

theorem amp_deriv (b0 r0 rcoil : ℝ) (n : ℕ) {R : ℝ} (hR : R ≠ 0) :
    HasDerivAt (amp b0 r0 rcoil n) ((n - 1) * amp b0 r0 rcoil n R / R) R := by
  have h1 : HasDerivAt (fun R : ℝ => b0 * r0 / R) (-(b0 * r0) / R ^ 2) R := by
    simp only [div_eq_mul_inv]
    exact ((hasDerivAt_inv hR).const_mul (b0 * r0)).congr_deriv (by ring)
  have h2 : HasDerivAt (fun R : ℝ => (R / rcoil) ^ n) (n * (R / rcoil) ^ (n - 1) * (1 / rcoil)) R :=
    ((hasDerivAt_id R).div_const rcoil).pow n
  refine (h1.mul h2).congr_deriv ?_
  unfold amp
  rcases n with _ | n
  · simp; field_simp
  · simp only [Nat.add_sub_cancel, pow_succ]
    push_cast
    field_simp
    ring

/-- **The ripple is a vacuum field**: it has neither sources nor currents, at all radii and angles. -/
theorem vacuum (b0 r0 rcoil : ℝ) (n : ℕ) {R : ℝ} (hR : R ≠ 0) (P z : ℝ) :
    ∃ j, Spec.IsJacobian (fun R P z => some (ripple b0 r0 rcoil n R P z)) j R P z ∧ Spec.divergence j R = 0 ∧ curl j R = ⟨0, 0, 0⟩ := by
  have hp : ∀ (F : ℝ → ℝ) (d x : ℝ), HasDerivAt F d x → Spec.HasPartial (fun y => some (F y)) d x :=
    fun F d x h => ⟨F, Filter.Eventually.of_forall fun _ => rfl, h⟩
  have ha := amp_deriv b0 r0 rcoil n hR
  have hs : HasDerivAt (fun y : ℝ => Real.sin (n * y)) (Real.cos (n * P) * n) P := by
    simpa using ((hasDerivAt_id P).const_mul (n : ℝ)).sin
  have hc : HasDerivAt (fun y : ℝ => Real.cos (n * y)) (-Real.sin (n * P) * n) P := by
    simpa using ((hasDerivAt_id P).const_mul (n : ℝ)).cos
  refine ⟨⟨⟨dbr b0 r0 rcoil n R P, _, _, _⟩, ⟨dbphi b0 r0 rcoil n R P, _, _, _⟩, ⟨0, 0, 0, 0⟩⟩, ⟨rfl,
    ⟨hp _ _ _ (ha.mul_const (Real.sin (n * P))), hp _ _ _ (hs.const_mul (amp b0 r0 rcoil n R)), hp _ _ _ (hasDerivAt_const _ _)⟩,
    ⟨hp _ _ _ (ha.mul_const (Real.cos (n * P))), hp _ _ _ (hc.const_mul (amp b0 r0 rcoil n R)), hp _ _ _ (hasDerivAt_const _ _)⟩,
    ⟨hp _ _ _ (hasDerivAt_const _ _), hp _ _ _ (hasDerivAt_const _ _), hp _ _ _ (hasDerivAt_const _ _)⟩⟩, ?_, ?_⟩
  · simp only [Spec.divergence, dbr]
    field_simp
    ring
  · simp only [curl, dbphi, V3.mk.injEq]
    refine ⟨by simp, by simp, ?_⟩
    field_simp
    ring

/-- **Depth of the ripple.**  Where the unperturbed toroidal field is `b0 * r0 / R`, the largest and the smallest toroidal field
along the circle of radius `R` differ by the fraction `(R / rcoil) ^ ncoil` of their sum. -/
theorem depth {b0 r0 rcoil R : ℝ} {n : ℕ} (hb : 0 < b0 * r0) (hR : 0 < R) (hc : 0 < rcoil) (hn : 0 < n) :
    ∃ M m, IsGreatest (Set.range fun P => b0 * r0 / R + dbphi b0 r0 rcoil n R P) M ∧
      IsLeast (Set.range fun P => b0 * r0 / R + dbphi b0 r0 rcoil n R P) m ∧ (M - m) / (M + m) = (R / rcoil) ^ n := by
  have hA : 0 < amp b0 r0 rcoil n R := by unfold amp; positivity
  have hn' : (n : ℝ) ≠ 0 := by exact_mod_cast hn.ne'
  refine ⟨b0 * r0 / R + amp b0 r0 rcoil n R, b0 * r0 / R - amp b0 r0 rcoil n R, ⟨⟨0, by simp [dbphi]⟩, ?_⟩,
    ⟨⟨Real.pi / n, by simp only [dbphi]; rw [mul_div_cancel₀ _ hn', Real.cos_pi]; ring⟩, ?_⟩, ?_⟩
  · rintro _ ⟨P, rfl⟩
    have := mul_le_mul_of_nonneg_left (Real.cos_le_one (n * P)) hA.le
    simp only [dbphi]; linarith
  · rintro _ ⟨P, rfl⟩
    have := mul_le_mul_of_nonneg_left (Real.neg_one_le_cos (n * P)) hA.le
    simp only [dbphi]; linarith
  · have hB : 0 < b0 * r0 / R := by positivity
    have : b0 * r0 / R + amp b0 r0 rcoil n R - (b0 * r0 / R - amp b0 r0 rcoil n R) = 2 * (b0 * r0 / R) * (R / rcoil) ^ n := by
      unfold amp; ring
    rw [this]
    have h2 : b0 * r0 / R + amp b0 r0 rcoil n R + (b0 * r0 / R - amp b0 r0 rcoil n R) = 2 * (b0 * r0 / R) := by ring
    rw [h2, mul_div_cancel_left₀ _ (by positivity)]

/-- **Period.**  The ripple repeats itself after the period of the output exactly if the period divides the number of coils. -/
theorem period_iff {b0 r0 rcoil R : ℝ} {n p : ℕ} (hb : b0 * r0 ≠ 0) (hR : R ≠ 0) (hc : rcoil ≠ 0) (hp : 0 < p) :
    (∀ P z, ripple b0 r0 rcoil n R (P + 2 * Real.pi / p) z = ripple b0 r0 rcoil n R P z) ↔ p ∣ n := by
  have hp' : (p : ℝ) ≠ 0 := by exact_mod_cast hp.ne'
  have hA : amp b0 r0 rcoil n R ≠ 0 := by
    unfold amp
    exact mul_ne_zero (div_ne_zero hb hR) (pow_ne_zero _ (div_ne_zero hR hc))
  constructor
  · intro h
    have h0 := congrArg V3.y (h 0 0)
    simp only [ripple, dbphi, zero_add, mul_zero, Real.cos_zero] at h0
    have h1 := mul_left_cancel₀ hA h0
    rw [Real.cos_eq_one_iff] at h1
    obtain ⟨k, hk⟩ := h1
    have hpi := Real.pi_pos
    have : (n : ℝ) = k * p := by
      field_simp at hk
      linarith
    have h3 : (n : ℤ) = p * k := by
      have : (n : ℝ) = ((p * k : ℤ) : ℝ) := by push_cast; rw [this]; ring
      exact_mod_cast this
    exact Int.natCast_dvd_natCast.1 ⟨k, h3⟩
  · rintro ⟨k, rfl⟩ P z
    have e : ((p * k : ℕ) : ℝ) * (P + 2 * Real.pi / p) = ((p * k : ℕ) : ℝ) * P + k * (2 * Real.pi) := by
      push_cast; field_simp
    simp only [ripple, dbr, dbphi, e, Real.sin_add_nat_mul_two_pi, Real.cos_add_nat_mul_two_pi]

/-- Twelve coils and three periods, the numbers of STEP. -/
example : (5 : ℝ) * 3 ≠ 0 ∧ (3 ∣ 12) := by norm_num

/-- **The grid covers one period**: the first point is at `b_phimin`, and the point after the last at `b_phimax` (in degrees). -/
theorem grid {p nphi : ℕ} (hn : 0 < nphi) :
    phiGrid p nphi 0 = 0 ∧ phiGrid p nphi nphi = phimax p * (Real.pi / 180) ∧
      ∀ k, phiGrid p nphi (k + 1) - phiGrid p nphi k = phimax p * (Real.pi / 180) / nphi := by
  have : (nphi : ℝ) ≠ 0 := by exact_mod_cast hn.ne'
  unfold phiGrid phimax
  refine ⟨by simp, by field_simp; ring, fun k => by push_cast; field_simp; ring⟩

/-- The sum of the powers of a root of unity. -/
theorem roots {N m : ℕ} (hN : 0 < N) (hm : ¬ N ∣ m) :
    ∑ k ∈ Finset.range N, Complex.exp (2 * Real.pi * Complex.I * (m * k / N)) = 0 := by
  set w := Complex.exp (2 * Real.pi * Complex.I * (m / N)) with hw
  have hN' : (N : ℂ) ≠ 0 := by exact_mod_cast hN.ne'
  have e : ∀ k : ℕ, Complex.exp (2 * Real.pi * Complex.I * (m * k / N)) = w ^ k := by
    intro k
    rw [hw, ← Complex.exp_nat_mul]
    congr 1; ring
  simp only [e]
  have h1 : w ≠ 1 := by
    intro h
    rw [hw, Complex.exp_eq_one_iff] at h
    obtain ⟨k, hk⟩ := h
    have hpi : (2 * Real.pi * Complex.I : ℂ) ≠ 0 := Complex.two_pi_I_ne_zero
    have h2 : (m : ℂ) / N = k := by
      apply mul_left_cancel₀ hpi
      rw [hk]; ring
    rw [div_eq_iff hN'] at h2
    have h3 : (m : ℤ) = k * N := by exact_mod_cast h2
    exact hm (Int.natCast_dvd_natCast.1 ⟨k, by rw [h3]; ring⟩)
  have h2 : w ^ N = 1 := by
    rw [hw, ← Complex.exp_nat_mul, Complex.exp_eq_one_iff]
    exact ⟨m, by push_cast; field_simp⟩
  rw [geom_sum_eq h1, h2, sub_self, zero_div]

/-- **The ripple has no toroidal average**: the mean of the output over the grid is the two-dimensional field, if the number of coils
per period is not a multiple of the number of grid points. -/
theorem average {p m nphi : ℕ} (hp : 0 < p) (hN : 0 < nphi) (hm : ¬ nphi ∣ m) (b0 r0 rcoil br bphi R : ℝ) :
    (∑ k ∈ Finset.range nphi, outBr b0 r0 rcoil (p * m) p nphi br R k) / nphi = br ∧
      (∑ k ∈ Finset.range nphi, outBphi b0 r0 rcoil (p * m) p nphi bphi R k) / nphi = bphi := by
  have hN' : (nphi : ℝ) ≠ 0 := by exact_mod_cast hN.ne'
  have hp' : (p : ℝ) ≠ 0 := by exact_mod_cast hp.ne'
  have key : ∀ k : ℕ, Complex.exp (2 * Real.pi * Complex.I * (m * k / nphi)) =
      ⟨Real.cos (((p * m : ℕ) : ℝ) * phiGrid p nphi k), Real.sin (((p * m : ℕ) : ℝ) * phiGrid p nphi k)⟩ := by
    intro k
    have : (2 * Real.pi * Complex.I * (m * k / nphi) : ℂ) = ((((p * m : ℕ) : ℝ) * phiGrid p nphi k : ℝ) : ℂ) * Complex.I := by
      have e : ((p * m : ℕ) : ℝ) * phiGrid p nphi k = 2 * Real.pi * (m * k / nphi) := by
        unfold phiGrid; push_cast; field_simp
      rw [e]; push_cast; ring
    rw [this]
    apply Complex.ext
    · rw [Complex.exp_ofReal_mul_I_re]
    · rw [Complex.exp_ofReal_mul_I_im]
  have h := roots hN hm
  simp only [key] at h
  have hc := congrArg Complex.re h
  have hs := congrArg Complex.im h
  simp only [Complex.re_sum, Complex.im_sum, Complex.zero_re, Complex.zero_im] at hc hs
  constructor
  · simp only [outBr, dbr, Finset.sum_add_distrib, ← Finset.mul_sum, hs]
    simp [hN']
  · simp only [outBphi, dbphi, Finset.sum_add_distrib, ← Finset.mul_sum, hc]
    simp [hN']

/-- The defaults: twelve coils, 180 points. -/
example : ¬ 180 ∣ 12 := by decide

/-- **Too few points**: with as many points as coils the output has no ripple at all, but a stronger toroidal field. -/
theorem aliased {p m : ℕ} (hp : 0 < p) (hm : 0 < m) (b0 r0 rcoil br bphi R : ℝ) (k : ℕ) :
    outBr b0 r0 rcoil (p * m) p m br R k = br ∧ outBphi b0 r0 rcoil (p * m) p m bphi R k = bphi + amp b0 r0 rcoil (p * m) R := by
  have hm' : (m : ℝ) ≠ 0 := by exact_mod_cast hm.ne'
  have hp' : (p : ℝ) ≠ 0 := by exact_mod_cast hp.ne'
  have e : ((p * m : ℕ) : ℝ) * phiGrid p m k = 0 + k * (2 * Real.pi) := by unfold phiGrid; push_cast; field_simp; ring
  simp only [outBr, outBphi, dbr, dbphi, e, Real.sin_add_nat_mul_two_pi, Real.cos_add_nat_mul_two_pi]
  simp

/-! ## Plasma and neutrals -/

open Plasma Profile

theorem rho_increasing : Increasing 100 rho := by
  intro i _
  unfold rho
  push_cast
  nlinarith

theorem rho_gt_one (i : ℕ) : rho i > 1 ↔ 10 ≤ i := by
  unfold rho
  constructor
  · intro h
    by_contra hc
    have : (i : ℝ) ≤ 9 := by exact_mod_cast (show i ≤ 9 by omega)
    linarith
  · intro h
    have : (10 : ℝ) ≤ i := by exact_mod_cast h
    linarith

theorem dens_low {density : ℝ} {i : ℕ} (h : i < 10) : dens density i = density := by
  unfold dens; rw [if_neg]; rw [rho_gt_one]; omega

theorem dens_high {density : ℝ} {i : ℕ} (h : 10 ≤ i) : dens density i = 1 := by
  unfold dens; rw [if_pos ((rho_gt_one i).2 h)]

/-- What the simulation gets from the flat plasma: electrons are species 0, ions species 1. -/
theorem plasma_exists (density temperature : ℝ) (vtor : ℕ → ℝ) :
    ∃ p, init1D 100 1 rho (temp temperature) (temp temperature) (dens density) (dens density) vtor = some p ∧
      (∀ v i, Between 100 rho v i → ∀ s ≤ 1, dens1D p v s = some (.ok (lerp rho (dens density) v i)) ∧
        temp1D p v s = some (.ok temperature)) := by
  obtain ⟨p, hp, h, -⟩ := C52.linear_partial 100 1 (temp temperature) (temp temperature) (dens density) (dens density) vtor (by norm_num)
    rho_increasing
  refine ⟨p, hp, fun v i hi s hs => ?_⟩
  obtain ⟨h1, h2, -⟩ := h v i hi
  rw [h1 s hs, h2 s hs]
  have e1 : species 100 (dens density) (dens density) s = dens density := by
    funext j
    unfold species
    rcases Nat.le_one_iff_eq_zero_or_eq_one.1 hs with rfl | rfl <;> simp
  have e2 : temperature = lerp rho (Profile.temperature (temp temperature) (temp temperature) s) v i := by
    unfold lerp Profile.temperature temp
    split_ifs <;> ring
  rw [e1, ← e2]
  exact ⟨rfl, rfl⟩

/-- **Plasma.**  Inside of `rho = 10/11` both densities are the given one, outside of `rho = 100/99` they are one particle per cubic
metre, and the temperatures are the given one up to `rho = 10`.  Not as in the description: the density is not flat up to the
separatrix (see `not_flat`). -/
theorem plasma_partial (density temperature : ℝ) (vtor : ℕ → ℝ) :
    ∃ p, init1D 100 1 rho (temp temperature) (temp temperature) (dens density) (dens density) vtor = some p ∧ ∀ s ≤ 1,
      (∀ v, 0 ≤ v → v < 10 → temp1D p v s = some (.ok temperature)) ∧
      (∀ v, 0 ≤ v → v ≤ 10 / 11 → dens1D p v s = some (.ok density)) ∧
      ∀ v, 100 / 99 ≤ v → v < 10 → dens1D p v s = some (.ok 1) := by
  obtain ⟨p, hp, h⟩ := plasma_exists density temperature vtor
  have cell : ∀ v, 0 ≤ v → v < 10 → ∃ i, Between 100 rho v i := by
    intro v h0 h1
    refine between_of (n := 100) (x := rho) (by unfold rho; simpa using h0) ?_
    unfold rho; push_cast; linarith
  refine ⟨p, hp, fun s hs => ⟨fun v h0 h1 => ?_, fun v h0 h1 => ?_, fun v h0 h1 => ?_⟩⟩
  · obtain ⟨i, hi⟩ := cell v h0 h1
    exact (h v i hi s hs).2
  · obtain ⟨i, hi⟩ := cell v h0 (by linarith)
    rw [(h v i hi s hs).1]
    obtain ⟨_, h2, h3⟩ := hi
    have hi9 : i ≤ 9 := by
      by_contra hc
      have : (10 : ℝ) ≤ i := by exact_mod_cast (show 10 ≤ i by omega)
      unfold rho at h2
      linarith
    rcases Nat.lt_or_ge i 9 with hlt | hge
    · unfold lerp
      rw [dens_low (by omega), dens_low (by omega), sub_self, mul_zero, add_zero]
    · obtain rfl : i = 9 := by omega
      have : v = rho 9 := by
        refine le_antisymm ?_ h2
        unfold rho; push_cast; linarith
      unfold lerp
      rw [this, sub_self, zero_div, zero_mul, add_zero, dens_low (by norm_num)]
  · obtain ⟨i, hi⟩ := cell v (by linarith) h1
    rw [(h v i hi s hs).1]
    obtain ⟨_, h2, h3⟩ := hi
    have hi10 : 10 ≤ i := by
      by_contra hc
      have : (i : ℝ) + 1 ≤ 10 := by exact_mod_cast (show i + 1 ≤ 10 by omega)
      unfold rho at h3
      push_cast at h3
      linarith
    unfold lerp
    rw [dens_high hi10, dens_high (by omega), sub_self, mul_zero, add_zero]

/-- **The plasma is not flat inside the separatrix**: between `rho = 10/11` and the separatrix the density falls, to a tenth of the given one
(and 0.9) at the separatrix itself. -/
theorem not_flat {density : ℝ} (hd : 1 < density) (temperature : ℝ) (vtor : ℕ → ℝ) :
    ∃ p, init1D 100 1 rho (temp temperature) (temp temperature) (dens density) (dens density) vtor = some p ∧
      (∀ v, 10 / 11 < v → v ≤ 1 → ∃ d < density, dens1D p v 0 = some (.ok d) ∧ dens1D p v 1 = some (.ok d)) ∧
      dens1D p 1 0 = some (.ok (0.1 * density + 0.9)) := by
  obtain ⟨p, hp, h⟩ := plasma_exists density temperature vtor
  have b : ∀ v : ℝ, 10 / 11 < v → v ≤ 1 → Between 100 rho v 9 := by
    intro v h1 h2
    refine ⟨by norm_num, ?_, ?_⟩ <;> unfold rho <;> push_cast <;> linarith
  have e : ∀ v : ℝ, lerp rho (dens density) v 9 = density - (v - 10 / 11) * (99 / 10) * (density - 1) := by
    intro v
    unfold lerp
    rw [dens_low (by norm_num), dens_high (by norm_num)]
    unfold rho
    push_cast
    ring
  refine ⟨p, hp, fun v h1 h2 => ⟨_, ?_, (h v 9 (b v h1 h2) 0 (by norm_num)).1, (h v 9 (b v h1 h2) 1 le_rfl).1⟩, ?_⟩
  · rw [e]
    have : 0 < (v - 10 / 11) * (99 / 10) * (density - 1) := by
      apply mul_pos (mul_pos (by linarith) (by norm_num)) (by linarith)
    linarith
  · rw [(h 1 9 (b 1 (by norm_num) le_rfl) 0 (by norm_num)).1, e, show density - (1 - 10 / 11) * (99 / 10) * (density - 1) = 0.1 * density + 0.9 by ring]

/-- **Charge.**  Electrons and ions have the same density, so that the plasma is neutral only for ions of charge one. -/
theorem neutral_iff {density : ℝ} (hd : 0 < density) (charge i : ℕ) : charge * dens density i = dens density i ↔ charge = 1 := by
  have h : dens density i ≠ 0 := by
    unfold dens; split_ifs
    · norm_num
    · exact hd.ne'
  rw [mul_eq_right₀ h]
  exact_mod_cast Iff.rfl

/-- **Neutrals.**  Density and temperature are the given ones for all `rho` from zero up to ten. -/
theorem neutrals (density temperature : ℝ) {v r phi z : ℝ} (h0 : 0 ≤ v) (h1 : v < 10) (a q m : ℤ) (out : ℕ → Option ℝ) :
    ∃ data, Neutral.init1D 100 0 10 1 [a] [q] [m] (neutral density) (neutral temperature) = some data ∧
      (∃ res, Neutral.evalN0 (.d1 data) v r phi z out = some (0, res) ∧ res 0 = some density) ∧
      ∃ res, Neutral.evalT0 (.d1 data) v r phi z out = some (0, res) ∧ res 0 = some temperature := by
  obtain ⟨i, d, hon⟩ := Linint.covers (n := 100) (bc := .natural) (min := (0 : ℝ)) (max := 10) (x := v) (by norm_num) (by norm_num)
    (by norm_num) fun _ => ⟨h0, h1⟩
  have const : ∀ c : ℝ, Linint.cell1 100 (fun i => (neutral c).getD i 0) i d = c := by
    intro c
    have hi : i < 100 := hon.lt
    have hj : (i + 1) % 100 < 100 := Nat.mod_lt _ (by norm_num)
    unfold Linint.cell1 Linint.line neutral
    beta_reduce
    rw [List.getD_eq_getElem _ _ (by simpa using hi), List.getD_eq_getElem _ _ (by simpa using hj), List.getElem_replicate,
      List.getElem_replicate, sub_self, mul_zero, add_zero]
  obtain ⟨data, e, hn, ht⟩ := C105.single (r := r) (phi := phi) (z := z) (by norm_num) (by simp [neutral]) (by simp [neutral]) hon a q m out
    (den := neutral density) (tem := neutral temperature)
  simp only [const] at hn ht
  exact ⟨data, e, hn, ht⟩

/-! ## Wall -/

/-- The wall that the simulation gets. -/
noncomputable def wall : Wall2D.Wall ℝ := ⟨20, fun i => wallR.getD i 0, fun i => wallZ.getD i 0⟩

/-- **Corners.**  All points of the wall are on the rectangle, its four corners are among them, and neighbours are on a common side. -/
theorem rectangle : wallR.length = 20 ∧ wallZ.length = 20 ∧
    (∀ i < 20, 4.1 ≤ wall.r i ∧ wall.r i ≤ 8.4 ∧ -3.9 ≤ wall.z i ∧ wall.z i ≤ 3.9) ∧
    ((wall.r 4 = 8.4 ∧ wall.z 4 = -3.9) ∧ (wall.r 9 = 8.4 ∧ wall.z 9 = 3.9) ∧ (wall.r 14 = 4.1 ∧ wall.z 14 = 3.9) ∧
      wall.r 19 = 4.1 ∧ wall.z 19 = -3.9) ∧
    ∀ i < 20, (wall.z i = wall.z (wall.next i) ∧ (wall.z i = -3.9 ∨ wall.z i = 3.9)) ∨
      (wall.r i = wall.r (wall.next i) ∧ (wall.r i = 4.1 ∨ wall.r i = 8.4)) := by
  refine ⟨by simp [wallR, side], by simp [wallZ, side], ?_, ?_, ?_⟩
  · intro i hi
    interval_cases i <;> simp [wall, wallR, wallZ, side, List.range_succ] <;> norm_num
  · simp [wall, wallR, wallZ, side, List.range_succ]; norm_num
  · intro i hi
    interval_cases i <;> simp [wall, Wall2D.Wall.next, wallR, wallZ, side, List.range_succ] <;> norm_num

theorem crosses_flat (r z a b c : ℝ) : Wall2D.crosses r z a c b c = false := by
  rw [← Bool.not_eq_true, Wall2D.crosses_iff, not_and]
  exact fun hc => absurd hc (not_lt.2 (mul_self_nonneg _))

theorem crosses_up {a b : ℝ} (r z x : ℝ) (hab : a < b) : Wall2D.crosses r z x a x b = (decide (a < z ∧ z < b) && decide (r < x)) := by
  rw [Bool.eq_iff_iff, Wall2D.crosses_iff]
  have hne : a - b ≠ 0 := sub_ne_zero.2 hab.ne
  have : ((a - z) * (x - r) - (b - z) * (x - r)) / (a - b) = x - r := by field_simp; ring
  rw [this, sub_pos, Bool.and_eq_true, decide_eq_true_iff, decide_eq_true_iff, mul_neg_iff]
  constructor
  · rintro ⟨h | h, h2⟩
    · linarith [h.1, h.2]
    · exact ⟨⟨by linarith [h.1], by linarith [h.2]⟩, h2⟩
  · rintro ⟨⟨h, h'⟩, h2⟩
    exact ⟨.inr ⟨by linarith, by linarith⟩, h2⟩

theorem crosses_swap (r z r1 z1 r2 z2 : ℝ) : Wall2D.crosses r z r1 z1 r2 z2 = Wall2D.crosses r z r2 z2 r1 z1 := by
  rw [Bool.eq_iff_iff, Wall2D.crosses_iff, Wall2D.crosses_iff, mul_comm (z2 - z) (z1 - z)]
  have : ((z2 - z) * (r1 - r) - (z1 - z) * (r2 - r)) / (z2 - z1) = ((z1 - z) * (r2 - r) - (z2 - z) * (r1 - r)) / (z1 - z2) := by
    rw [← neg_div_neg_eq]; congr 1 <;> ring
  rw [this]

/-- Heights between neighbours of an increasing sequence are between the first and the last. -/
theorem heights {a : ℕ → ℝ} (ha : ∀ k, a k < a (k + 1)) {z : ℝ} : ∀ n, (∀ k ≤ n, z ≠ a k) →
    ∑ k ∈ Finset.range n, (decide (a k < z ∧ z < a (k + 1))).toNat = (decide (a 0 < z ∧ z < a n)).toNat
  | 0, _ => by
    rw [Finset.sum_range_zero, decide_eq_false (fun h => absurd h.1 (not_lt.2 h.2.le))]; rfl
  | n + 1, h => by
    rw [Finset.sum_range_succ, heights ha n fun k hk => h k (by omega)]
    have h0 : a 0 ≤ a n := monotone_nat_of_le_succ (fun k => (ha k).le) (Nat.zero_le n)
    have hn := ha n
    rcases lt_or_gt_of_ne (h n (by omega)) with hz | hz
    · have e1 : decide (a n < z ∧ z < a (n + 1)) = false := decide_eq_false fun h => absurd h.1 (not_lt.2 hz.le)
      have e2 : decide (a 0 < z ∧ z < a (n + 1)) = decide (a 0 < z ∧ z < a n) := by
        rw [decide_eq_decide]; exact ⟨fun h => ⟨h.1, hz⟩, fun h => ⟨h.1, hz.trans hn⟩⟩
      rw [e1, e2]; rfl
    · have e1 : decide (a 0 < z ∧ z < a n) = false := decide_eq_false fun h => absurd h.2 (not_lt.2 hz.le)
      have e2 : decide (a 0 < z ∧ z < a (n + 1)) = decide (a n < z ∧ z < a (n + 1)) := by
        rw [decide_eq_decide]; exact ⟨fun h => ⟨hz, h.2⟩, fun h => ⟨lt_of_le_of_lt h0 hz, h.2⟩⟩
      rw [e1, e2]; simp

theorem next_eq {i : ℕ} (h : i < 19) : wall.next i = i + 1 := by
  unfold Wall2D.Wall.next
  rw [if_neg]
  show i ≠ 20 - 1
  omega

theorem next_last : wall.next 19 = 0 := rfl

theorem hr : ∀ i < 20, wall.r i = if i < 5 then 4.1 + 0.86 * ((i : ℝ) + 1) else if i < 10 then 8.4 else if i < 15 then 8.4 - 0.86 * ((i : ℝ) - 9) else 4.1 := by
  intro i hi
  interval_cases i <;> simp [wall, wallR, side, List.range_succ] <;> norm_num

theorem hz : ∀ i < 20, wall.z i = if i < 5 then -3.9 else if i < 10 then -3.9 + 1.56 * ((i : ℝ) - 4) else if i < 15 then 3.9 else 3.9 - 1.56 * ((i : ℝ) - 14) := by
  intro i hi
  interval_cases i <;> simp [wall, wallZ, side, List.range_succ] <;> norm_num

theorem flat (r z : ℝ) : ∀ i < 20, i < 4 ∨ (9 ≤ i ∧ i < 14) ∨ i = 19 → (Wall2D.crosses r z (wall.r i) (wall.z i) (wall.r (wall.next i)) (wall.z (wall.next i))).toNat = 0 := by
  intro i hi h
  have : wall.z (wall.next i) = wall.z i := by
    rcases Nat.lt_or_ge i 19 with h' | h'
    · rw [next_eq h', hz _ (by omega), hz _ hi]
      interval_cases i <;> first | omega | norm_num
    · obtain rfl : i = 19 := by omega
      rw [next_last, hz _ (by omega), hz _ hi]
      norm_num
  rw [this, crosses_flat]; rfl

theorem right (r z : ℝ) : ∀ k < 5, (Wall2D.crosses r z (wall.r (4 + k)) (wall.z (4 + k)) (wall.r (wall.next (4 + k))) (wall.z (wall.next (4 + k)))).toNat =
    (decide (-3.9 + 1.56 * (k : ℝ) < z ∧ z < -3.9 + 1.56 * ((k : ℝ) + 1)) && decide (r < 8.4)).toNat := by
  intro k hk
  have hn : wall.next (4 + k) = 5 + k := by rw [next_eq (by omega)]; omega
  have e1 : wall.r (4 + k) = 8.4 := by rw [hr _ (by omega)]; interval_cases k <;> norm_num
  have e2 : wall.r (5 + k) = 8.4 := by rw [hr _ (by omega)]; interval_cases k <;> norm_num
  have e3 : wall.z (4 + k) = -3.9 + 1.56 * (k : ℝ) := by rw [hz _ (by omega)]; interval_cases k <;> norm_num
  have e4 : wall.z (5 + k) = -3.9 + 1.56 * ((k : ℝ) + 1) := by rw [hz _ (by omega)]; interval_cases k <;> norm_num
  rw [hn, e1, e2, e3, e4, crosses_up _ _ _ (by linarith)]

theorem left (r z : ℝ) : ∀ k < 5, (Wall2D.crosses r z (wall.r (18 - k)) (wall.z (18 - k)) (wall.r (wall.next (18 - k))) (wall.z (wall.next (18 - k)))).toNat =
    (decide (-3.9 + 1.56 * (k : ℝ) < z ∧ z < -3.9 + 1.56 * ((k : ℝ) + 1)) && decide (r < 4.1)).toNat := by
  intro k hk
  have hn : wall.next (18 - k) = 19 - k := by rw [next_eq (by omega)]; omega
  have e1 : wall.r (18 - k) = 4.1 := by rw [hr _ (by omega)]; interval_cases k <;> norm_num
  have e2 : wall.r (19 - k) = 4.1 := by rw [hr _ (by omega)]; interval_cases k <;> norm_num
  have e3 : wall.z (18 - k) = -3.9 + 1.56 * ((k : ℝ) + 1) := by rw [hz _ (by omega)]; interval_cases k <;> norm_num
  have e4 : wall.z (19 - k) = -3.9 + 1.56 * (k : ℝ) := by rw [hz _ (by omega)]; interval_cases k <;> norm_num
  rw [hn, e1, e2, e3, e4, crosses_swap, crosses_up _ _ _ (by linarith)]

theorem split_sum (f : ℕ → ℕ) (flat : ∀ i < 20, i < 4 ∨ (9 ≤ i ∧ i < 14) ∨ i = 19 → f i = 0) :
    ∑ i ∈ Finset.range 20, f i = (∑ k ∈ Finset.range 5, f (4 + k)) + ∑ k ∈ Finset.range 5, f (18 - k) := by
  simp only [Finset.sum_range_succ, Finset.sum_range_zero, zero_add]
  rw [flat 0 (by norm_num) (by norm_num), flat 1 (by norm_num) (by norm_num), flat 2 (by norm_num) (by norm_num),
    flat 3 (by norm_num) (by norm_num), flat 9 (by norm_num) (by norm_num), flat 10 (by norm_num) (by norm_num),
    flat 11 (by norm_num) (by norm_num), flat 12 (by norm_num) (by norm_num), flat 13 (by norm_num) (by norm_num),
    flat 19 (by norm_num) (by norm_num)]
  norm_num
  ring

/-- The number of edges to the right of a point. -/
theorem wall_count (r z : ℝ) : Wall2D.inside wall r z =
    ((∑ k ∈ Finset.range 5, (decide (-3.9 + 1.56 * (k : ℝ) < z ∧ z < -3.9 + 1.56 * ((k : ℝ) + 1)) && decide (r < 8.4)).toNat) +
      ∑ k ∈ Finset.range 5, (decide (-3.9 + 1.56 * (k : ℝ) < z ∧ z < -3.9 + 1.56 * ((k : ℝ) + 1)) && decide (r < 4.1)).toNat) % 2 := by
  have hc : Wall2D.inside wall r z = (∑ i ∈ Finset.range 20,
      (Wall2D.crosses r z (wall.r i) (wall.z i) (wall.r (wall.next i)) (wall.z (wall.next i))).toNat) % 2 := by
    unfold Wall2D.inside
    rw [Wall2D.count_fold]
    rfl
  rw [hc, split_sum _ (flat r z), Finset.sum_congr rfl fun k hk => right r z k (Finset.mem_range.1 hk),
    Finset.sum_congr rfl fun k hk => left r z k (Finset.mem_range.1 hk)]

/-- **Wall.**  Away from the heights of the points of the wall, the simulation takes a point to be inside exactly if it is inside of
the rectangle.  Not as in the description: at these heights every point is outside (see `wall_gaps`). -/
theorem wall_inside_partial {r z : ℝ} (h : ∀ k : ℕ, k ≤ 5 → z ≠ -3.9 + 1.56 * (k : ℝ)) :
    Wall2D.inside wall r z = 1 ↔ (4.1 ≤ r ∧ r < 8.4) ∧ -3.9 < z ∧ z < 3.9 := by
  have hs := heights (a := fun k : ℕ => -3.9 + 1.56 * (k : ℝ)) (fun k => by push_cast; linarith) 5 h
  simp only [Nat.cast_add, Nat.cast_one, Nat.cast_ofNat, Nat.cast_zero, mul_zero, add_zero,
    show (-3.9 + 1.56 * 5 : ℝ) = 3.9 by norm_num] at hs
  have hc : ∀ x : ℝ, ∑ k ∈ Finset.range 5, (decide (-3.9 + 1.56 * (k : ℝ) < z ∧ z < -3.9 + 1.56 * ((k : ℝ) + 1)) && decide (r < x)).toNat =
      (decide (-3.9 < z ∧ z < 3.9) && decide (r < x)).toNat := by
    intro x
    by_cases hx : r < x
    · rw [decide_eq_true hx]
      simp only [Bool.and_true]
      exact hs
    · rw [decide_eq_false hx]
      simp only [Bool.and_false, Bool.toNat_false, Finset.sum_const_zero]
  rw [wall_count, hc, hc]
  by_cases hz : -3.9 < z ∧ z < 3.9
  · rw [decide_eq_true hz]
    by_cases h1 : r < 4.1
    · rw [decide_eq_true h1, decide_eq_true (show r < 8.4 by linarith)]
      simp
      intro h2; linarith
    · rw [decide_eq_false h1]
      by_cases h2 : r < 8.4
      · rw [decide_eq_true h2]
        simp [hz, h2]
        exact not_lt.1 h1
      · rw [decide_eq_false h2]
        simp
        intro _ h3; exact absurd h3 h2
  · rw [decide_eq_false hz]
    simp only [Bool.false_and, Bool.toNat_false]
    constructor
    · intro h; simp at h
    · intro h; exact absurd h.2 hz

/-- **Gaps.**  At the heights of the points of the wall, four of which are well inside of the rectangle, no point is inside. -/
theorem wall_gaps (r : ℝ) {k : ℕ} (hk : k ≤ 5) : Wall2D.inside wall r (-3.9 + 1.56 * (k : ℝ)) = 0 := by
  rw [wall_count]
  have hf : ∀ j : ℕ, decide (-3.9 + 1.56 * (j : ℝ) < -3.9 + 1.56 * (k : ℝ) ∧ -3.9 + 1.56 * (k : ℝ) < -3.9 + 1.56 * ((j : ℝ) + 1)) = false := by
    intro j
    apply decide_eq_false
    rintro ⟨h1, h2⟩
    have h3 : (j : ℝ) < k := by linarith
    have h4 : (k : ℝ) < j + 1 := by linarith
    have h5 : j < k := by exact_mod_cast h3
    have h6 : k < j + 1 := by exact_mod_cast h4
    omega
  simp only [hf, Bool.false_and, Bool.toNat_false, Finset.sum_const_zero]
  rfl

/-- In particular at `R = 6`, `z = 0.78`. -/
example : Wall2D.inside wall 6 0.78 = 0 := by
  have := wall_gaps 6 (k := 3) (by norm_num)
  norm_num at this ⊢
  exact this

example : Wall2D.inside wall 6 0 = 1 := by
  refine (wall_inside_partial ?_).2 (by norm_num)
  intro k hk
  interval_cases k <;> norm_num

end Ascot.C165
