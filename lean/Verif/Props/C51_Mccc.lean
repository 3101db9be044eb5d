import Verif.Lemmas.Mccc
import Verif.Props.C46_Physlib
import Verif.Props.C90_Coefs

set_option linter.unusedSectionVars false
set_option linter.unusedSimpArgs false

/-!
# C51, C91-C93: guiding-center collisions
-/
namespace Ascot.C51
open Ascot.Coord Ascot.Physlib Ascot.GcStep Ascot.Mccc

variable {C : MConsts} {o : Options} {pl : Plasma} {f : Fields} {h : ℝ} {rnd : Fin 5 → ℝ} {s s' : Gc}

theorem reflectV_ge (cut v : ℝ) : cut ≤ reflectV cut v := by
  unfold reflectV
  split <;> linarith

theorem reflectXi_le_iff (xi : ℝ) : |reflectXi xi| ≤ 1 ↔ |xi| ≤ 3 := by
  unfold reflectXi
  by_cases h1 : |xi| > 1
  · rw [if_pos h1]
    rcases lt_trichotomy xi 0 with hx | hx | hx
    · rw [if_neg (not_lt.2 hx.le), if_pos hx]
      have : |(0 - 1) * (2 - |xi|)| = |(2 : ℝ) - abs xi| := by rw [zero_sub, neg_one_mul, abs_neg]
      rw [this, abs_le]
      constructor
      · intro h; linarith [h.1]
      · intro h; constructor <;> linarith
    · rw [hx] at h1
      norm_num at h1
    · rw [if_pos hx, if_neg (not_lt.2 hx.le), sub_zero, one_mul, abs_le]
      constructor
      · intro h; linarith [h.1]
      · intro h; constructor <;> linarith
  · rw [if_neg h1]
    constructor
    · intro h; linarith
    · intro _; exact not_lt.1 h1

/-- Speed in the frame of the plasma and pitch of a guiding center, from its magnetic moment, parallel momentum and field:
`v` and `xi` are such if the marker has the momentum `p = m v / sqrt(1 - v²/c²)` of which a fraction `xi` is along the field,
the flow adds `gamma m vflow` to the parallel momentum, and the magnetic moment is that of the perpendicular part. -/
def HasSpeedPitch (c vflow m B mu ppar v xi : ℝ) : Prop :=
  |v| < c ∧ ppar = m * v / Real.sqrt (1 - v ^ 2 / c ^ 2) * xi + 1 / Real.sqrt (1 - v ^ 2 / c ^ 2) * m * vflow ∧
  2 * m * B * mu = (m * v / Real.sqrt (1 - v ^ 2 / c ^ 2)) ^ 2 * (1 - xi ^ 2)

theorem gammaVnorm_eq {c v : ℝ} (hc : 0 < c) (hv : |v| < c) : gammaVnorm c v = 1 / Real.sqrt (1 - v ^ 2 / c ^ 2) := by
  unfold gammaVnorm
  rw [Real.sqrt_div zero_le_one, Real.sqrt_one]
  congr 2
  field_simp
  ring

theorem gamma_of_pnorm {c m v : ℝ} (hc : 0 < c) (hm : 0 < m) (hv : |v| < c) :
    gammaPnorm c m (pnormVnorm c m v) = gammaVnorm c v := by
  have h1 := gammaPnorm_sq (c := c) (m := m) (pnormVnorm c m v)
  have h2 := gammaVnorm_sq hc hv
  have h3 := gammaVnorm_pos hc hv
  refine (pow_left_inj₀ (gammaPnorm_pos hm _).le h3.le two_ne_zero).1 ?_
  rw [h1]
  unfold pnormVnorm
  generalize gammaVnorm c v = g at *
  field_simp
  nlinarith

theorem stored_speed {vflow : ℝ} {i : In} {u : Out} (hc : 0 < C.c) (hm : 0 < s.mass) (hs : Stored C f vflow h s i u s') :
    HasSpeedPitch C.c vflow s'.mass (V3.norm Real.sqrt (fieldOf s')) (s'.y 4) (s'.y 3) u.v u.xi := by
  have hg := gammaVnorm_eq hc hs.slow
  have hB := hs.bnorm
  refine ⟨hs.slow, ?_, ?_⟩
  · rw [hs.ppar, gamma_of_pnorm hc hm hs.slow, hs.mass]
    unfold gcPpar pnormVnorm
    rw [hg]
    ring
  · rw [hs.mu, hs.mass]
    generalize V3.norm Real.sqrt (fieldOf s') = B at *
    unfold gcMu pnormVnorm
    rw [hg]
    field_simp

/-- The lower limit for the speed: a tenth of `sqrt(T/m)` with the temperature of the first plasma species. -/
def IsCutoff (m : ℝ) (sp : List Species) (cut : ℝ) : Prop := ∃ b, sp.head? = some b ∧ cut = 0.1 * Real.sqrt (b.T / m)

theorem isCutoff_of {m cut : ℝ} {sp : List Species} (hc : cutoff m sp = some cut) : IsCutoff m sp cut := by
  cases sp with
  | nil => simp [cutoff] at hc
  | cons b bs =>
    simp only [cutoff, Option.some.injEq] at hc
    exact ⟨b, rfl, hc.symm⟩

/-- After a collision step that changes energy and pitch the speed relative to the plasma is at least the cutoff, whatever the
random numbers; the pitch is between minus one and one exactly if the pitch computed before the reflection is between minus
three and three. -/
theorem bounds_of {out : In → Coef → ℝ → Out} (hc : 0 < C.c) (he : o.energy = true) (hpi : o.pitch = true)
    {xr : In → Coef → ℝ} (hout : ∀ i k cut, ∃ v X, out i k cut = outOf o i cut v (xr i k) X)
    (q : Collided C o pl f h s out s') :
    ∃ v xi, HasSpeedPitch C.c q.vflow s'.mass (V3.norm Real.sqrt (fieldOf s')) (s'.y 4) (s'.y 3) v xi ∧
      q.cut ≤ v ∧ (|xi| ≤ 1 ↔ |xr (inOf C q.vflow s) q.k| ≤ 3) := by
  obtain ⟨v, X, hv⟩ := hout (inOf C q.vflow s) q.k q.cut
  have := stored_speed hc q.hin.1 q.stored
  rw [hv] at this
  refine ⟨_, _, this, ?_, ?_⟩
  · unfold outOf
    rw [he, if_pos rfl]
    exact reflectV_ge _ _
  · unfold outOf
    rw [hpi, if_pos rfl]
    exact reflectXi_le_iff _

/-- C51 for the Euler scheme.  The hypothesis `hx` is needed: see `pitch_escapes`. -/
theorem euler_partial (hp : PlasmaHonest pl) (hf : FieldHonest f) (hc : 0 < C.c) (he : o.energy = true) (hpi : o.pitch = true)
    (hr : s.running = true) (hs : gcEuler C o pl f h rnd s = some s') (hr' : s'.running = true)
    (hx : ∀ vflow sp k, pl.flow s.rho (s.y 0) (s.y 1) (s.y 2) s.time = .ok vflow →
      pl.species s.rho (s.y 0) (s.y 1) (s.y 2) s.time = .ok sp → coefs C o s (inOf C vflow s) sp = some k →
      |eulerXi (inOf C vflow s) k h fun d => Real.sqrt h * rnd d| ≤ 3) :
    ∃ vflow sp cut v xi, pl.flow s.rho (s.y 0) (s.y 1) (s.y 2) s.time = .ok vflow ∧
      pl.species s.rho (s.y 0) (s.y 1) (s.y 2) s.time = .ok sp ∧ IsCutoff s.mass sp cut ∧
      HasSpeedPitch C.c vflow s'.mass (V3.norm Real.sqrt (fieldOf s')) (s'.y 4) (s'.y 3) v xi ∧ cut ≤ v ∧ |xi| ≤ 1 := by
  obtain ⟨q⟩ := gcEuler_cases hp hf hr hs hr'
  obtain ⟨v, xi, h1, h2, h3⟩ := bounds_of hc he hpi (xr := fun i k => eulerXi i k h fun d => Real.sqrt h * rnd d)
    (fun i k cut => ⟨_, _, rfl⟩) q
  exact ⟨q.vflow, q.sp, q.cut, v, xi, q.hflow, q.hsp, isCutoff_of q.hcut, h1, h2, h3.2 (hx _ _ _ q.hflow q.hsp q.hk)⟩

/-- C51 for the Milstein scheme. -/
theorem milstein_partial {n : Nat} {hin acc tol : ℝ} {w : Wiener.Arr ℝ} {junk : ℝ × ℝ} {m : MilOut} (hp : PlasmaHonest pl)
    (hf : FieldHonest f) (hc : 0 < C.c) (he : o.energy = true) (hpi : o.pitch = true) (hr : s.running = true)
    (hs : gcMilstein C o n pl f hin acc tol w rnd junk s = some m) (hr' : m.s.running = true)
    (hx : ∀ vflow sp k w' t, pl.flow s.rho (s.y 0) (s.y 1) (s.y 2) s.time = .ok vflow →
      pl.species s.rho (s.y 0) (s.y 1) (s.y 2) s.time = .ok sp → coefs C o s (inOf C vflow s) sp = some k →
      Wiener.generate Real.sqrt n w (w.time 0 + hin * acc) rnd = some (w', some t) →
      |milsteinXi (inOf C vflow s) k (hin * acc) fun d => w'.val t d - w'.val 0 d| ≤ 3) :
    ∃ vflow sp cut v xi, pl.flow s.rho (s.y 0) (s.y 1) (s.y 2) s.time = .ok vflow ∧
      pl.species s.rho (s.y 0) (s.y 1) (s.y 2) s.time = .ok sp ∧ IsCutoff s.mass sp cut ∧
      HasSpeedPitch C.c vflow m.s.mass (V3.norm Real.sqrt (fieldOf m.s)) (m.s.y 4) (m.s.y 3) v xi ∧ cut ≤ v ∧ |xi| ≤ 1 := by
  obtain ⟨t, w', hw, _, q, _⟩ := gcMilstein_cases hp hf hr hs hr'
  obtain ⟨v, xi, h1, h2, h3⟩ := bounds_of hc he hpi
    (xr := fun i k => milsteinXi i k (hin * acc) fun d => w'.val t d - w'.val 0 d) (fun i k cut => ⟨_, _, rfl⟩) q
  exact ⟨q.vflow, q.sp, q.cut, v, xi, q.hflow, q.hsp, isCutoff_of q.hcut, h1, h2, h3.2 (hx _ _ _ _ _ q.hflow q.hsp q.hk hw)⟩

/-- A step with few collisions meets the hypothesis of `euler_partial`: it is enough that `nu h ≤ 2` and that the random number is
at most `2 / sqrt(nu h)`. -/
theorem small_steps {i : In} {k : Coef} (hh : 0 ≤ h) (hnu : 0 ≤ k.nu) (h2 : k.nu * h ≤ 2) (hxi : |i.xi| ≤ 1)
    (hrnd : Real.sqrt (k.nu * h) * |rnd 4| ≤ 2) : |eulerXi i k h fun d => Real.sqrt h * rnd d| ≤ 3 := by
  unfold eulerXi
  have hx1 : i.xi * i.xi ≤ 1 := by nlinarith [abs_le.1 hxi]
  have e : Real.sqrt ((1 - i.xi * i.xi) * k.nu) * (Real.sqrt h * rnd 4) = Real.sqrt (1 - i.xi * i.xi) * (Real.sqrt (k.nu * h) * rnd 4) := by
    rw [Real.sqrt_mul (by linarith), Real.sqrt_mul hnu]
    ring
  have a1 : |i.xi - i.xi * k.nu * h| ≤ 1 := by
    have : i.xi - i.xi * k.nu * h = i.xi * (1 - k.nu * h) := by ring
    rw [this, abs_mul]
    have h0 : 0 ≤ k.nu * h := mul_nonneg hnu hh
    have : |1 - k.nu * h| ≤ 1 := abs_le.2 ⟨by linarith, by linarith⟩
    have := abs_nonneg i.xi
    have := abs_nonneg (1 - k.nu * h)
    nlinarith
  have a2 : |Real.sqrt (1 - i.xi * i.xi) * (Real.sqrt (k.nu * h) * rnd 4)| ≤ 2 := by
    rw [abs_mul, abs_mul, abs_of_nonneg (Real.sqrt_nonneg _), abs_of_nonneg (Real.sqrt_nonneg _)]
    have : Real.sqrt (1 - i.xi * i.xi) ≤ 1 := by
      rw [Real.sqrt_le_one]
      nlinarith [mul_self_nonneg i.xi]
    have h0 : 0 ≤ Real.sqrt (k.nu * h) * |rnd 4| := by positivity
    have := Real.sqrt_nonneg (1 - i.xi * i.xi)
    nlinarith
  rw [e]
  refine le_trans (abs_add_le _ _) ?_
  linarith

/-! ### C91: signs of the coefficients -/

/-- The Coulomb logarithms of the code for a marker of speed `va`. -/
noncomputable def logs (C : MConsts) (ma qa va : ℝ) (sp : List Species) (b : Species) : ℝ := clog C.e0 C.hbar ma qa va sp b

theorem coefSum_eq {ma qa va xi gyro : ℝ} {sp bs : List Species} (hphys : C90.Physical bs) (hv : 0 < va) (a : Coef) :
    ∃ k, coefSum C false ma qa va xi gyro sp bs a = some k ∧
      k.K = a.K + C90.total (C90.K C.e0 ma qa (logs C ma qa va sp)) bs va ∧
      k.dQ = a.dQ + C90.total (C90.dQ C.e0 ma qa (logs C ma qa va sp)) bs va ∧
      k.Dpara = a.Dpara + C90.total (C90.Dpara C.e0 ma qa (logs C ma qa va sp)) bs va ∧
      k.dDpara = a.dDpara + C90.total (C90.dDpara C.e0 ma qa (logs C ma qa va sp)) bs va ∧
      k.nu = a.nu + 2 * C90.total (C90.Dperp C.e0 ma qa (logs C ma qa va sp)) bs va / va ^ 2 ∧
      k.DX = a.DX + ((1 - xi ^ 2) / 2 * C90.total (C90.Dpara C.e0 ma qa (logs C ma qa va sp)) bs va +
        (1 + xi ^ 2) / 2 * C90.total (C90.Dperp C.e0 ma qa (logs C ma qa va sp)) bs va) / gyro ^ 2 := by
  induction bs generalizing a with
  | nil => exact ⟨a, rfl, by simp [C90.total], by simp [C90.total], by simp [C90.total], by simp [C90.total], by simp [C90.total],
      by simp [C90.total]⟩
  | cons b bs ih =>
    have hb := hphys b (by simp)
    have hx : va / thermal b ≠ 0 := (div_pos hv (thermal_pos hb.1 hb.2)).ne'
    have hmu : mufun false (va / thermal b) = some (mu0 (va / thermal b), mu1 (va / thermal b), dmu0 (va / thermal b)) := by
      unfold mufun
      rw [if_pos ⟨rfl, hx⟩]
    obtain ⟨k, hk, k1, k2, k3, k4, k5, k6⟩ := ih (fun b' hb' => hphys b' (by simp [hb']))
      (a.add (coefOf C ma qa va xi gyro sp b (mu0 (va / thermal b), mu1 (va / thermal b), dmu0 (va / thermal b))))
    have h1 : ∀ g : Species → ℝ → ℝ, C90.total g (b :: bs) va = g b va + C90.total g bs va := fun g => by simp [C90.total]
    refine ⟨k, ?_, ?_, ?_, ?_, ?_, ?_, ?_⟩
    · rw [coefSum, hmu]
      exact hk
    · rw [k1, h1, ← add_assoc]
      rfl
    · rw [k2, h1, ← add_assoc]
      rfl
    · rw [k3, h1, ← add_assoc]
      rfl
    · rw [k4, h1, ← add_assoc]
      rfl
    · rw [k5, h1]
      simp only [Coef.add, coefOf, coefNu, C90.Dperp, logs]
      ring
    · rw [k6, h1, h1]
      simp only [Coef.add, coefOf, coefDX, C90.Dperp, C90.Dpara, logs]
      ring

/-- The sums that the code computes are the coefficients of C90, with the Coulomb logarithms of the code. -/
theorem coefs_eq {i : In} {sp : List Species} (ht : o.tab = false) (hphys : C90.Physical sp) (hv : 0 < i.v) :
    ∃ k, coefs C o s i sp = some k ∧
      k.K = C90.total (C90.K C.e0 s.mass s.charge (logs C s.mass s.charge i.v sp)) sp i.v ∧
      k.dQ = C90.total (C90.dQ C.e0 s.mass s.charge (logs C s.mass s.charge i.v sp)) sp i.v ∧
      k.Dpara = C90.total (C90.Dpara C.e0 s.mass s.charge (logs C s.mass s.charge i.v sp)) sp i.v ∧
      k.dDpara = C90.total (C90.dDpara C.e0 s.mass s.charge (logs C s.mass s.charge i.v sp)) sp i.v ∧
      k.nu = 2 * C90.total (C90.Dperp C.e0 s.mass s.charge (logs C s.mass s.charge i.v sp)) sp i.v / i.v ^ 2 ∧
      k.DX = ((1 - i.xi ^ 2) / 2 * C90.total (C90.Dpara C.e0 s.mass s.charge (logs C s.mass s.charge i.v sp)) sp i.v +
        (1 + i.xi ^ 2) / 2 * C90.total (C90.Dperp C.e0 s.mass s.charge (logs C s.mass s.charge i.v sp)) sp i.v) /
          gyrofreqPnorm C.c s.mass s.charge i.p i.Bnorm ^ 2 := by
  obtain ⟨k, hk, k1, k2, k3, k4, k5, k6⟩ := coefSum_eq (C := C) (ma := s.mass) (qa := s.charge) (xi := i.xi)
    (gyro := gyrofreqPnorm C.c s.mass s.charge i.p i.Bnorm) (sp := sp) hphys hv ⟨0, 0, 0, 0, 0, 0⟩
  simp only [zero_add] at k1 k2 k3 k4 k5 k6
  refine ⟨k, ?_, k1, k2, k3, k4, k5, k6⟩
  unfold coefs
  rw [ht]
  exact hk

/-- If no density and no Coulomb logarithm is negative, the diffusion coefficients are not negative and all square roots in the
step are defined. -/
theorem coefficients_nonneg {i : In} {sp : List Species} (ht : o.tab = false) (hphys : C90.Physical sp) (hv : 0 < i.v)
    (hxi : |i.xi| ≤ 1) (hcl : ∀ b ∈ sp, 0 ≤ b.n ∧ 0 ≤ logs C s.mass s.charge i.v sp b) :
    ∃ k, coefs C o s i sp = some k ∧ 0 ≤ k.Dpara ∧ 0 ≤ k.nu ∧ 0 ≤ k.DX ∧ CoefOk i.xi k := by
  obtain ⟨k, hk, _, _, k3, _, k5, k6⟩ := coefs_eq (C := C) (s := s) (i := i) (sp := sp) ht hphys hv
  have h1 : 0 ≤ C90.total (C90.Dpara C.e0 s.mass s.charge (logs C s.mass s.charge i.v sp)) sp i.v :=
    C90.total_nonneg fun b hb => C90.Dpara_nonneg (hphys b hb) (hcl b hb).1 (hcl b hb).2 hv
  have h2 : 0 ≤ C90.total (C90.Dperp C.e0 s.mass s.charge (logs C s.mass s.charge i.v sp)) sp i.v :=
    C90.total_nonneg fun b hb => C90.Dperp_nonneg (hphys b hb) (hcl b hb).1 (hcl b hb).2 hv
  have hx2 : i.xi ^ 2 ≤ 1 := (sq_le_one_iff_abs_le_one _).2 hxi
  have a1 : 0 ≤ k.Dpara := k3 ▸ h1
  have a2 : 0 ≤ k.nu := by
    rw [k5]
    positivity
  have a3 : 0 ≤ k.DX := by
    rw [k6]
    have : 0 ≤ 1 - i.xi ^ 2 := by linarith
    positivity
  refine ⟨k, hk, a1, a2, a3, by linarith, by linarith, ?_⟩
  have : 0 ≤ 1 - i.xi * i.xi := by nlinarith
  positivity

end Ascot.C51
