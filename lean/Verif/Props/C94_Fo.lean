import Verif.Props.C51_Witness

set_option linter.unusedSectionVars false
set_option linter.unusedSimpArgs false

/-!
# C94: collisions of full orbits
-/
namespace Ascot.C94
open Ascot.Coord Ascot.Physlib Ascot.Mccc Ascot.C90

/-- Velocity of a marker in Cartesian coordinates: the momentum over the relativistic mass. -/
noncomputable def velocity (c : ℝ) (s : Vpa.Fo) : Fin 3 → ℝ :=
  let gm := Real.sqrt (1 + (s.p.x ^ 2 + s.p.y ^ 2 + s.p.z ^ 2) / (s.mass * c) ^ 2) * s.mass
  ![(s.p.x * Real.cos s.phi - s.p.y * Real.sin s.phi) / gm, (s.p.x * Real.sin s.phi + s.p.y * Real.cos s.phi) / gm, s.p.z / gm]

/-- Velocity of a plasma that flows with the speed `vflow` along the magnetic field of the marker. -/
noncomputable def plasmaVelocity (vflow : ℝ) (s : Vpa.Fo) : Fin 3 → ℝ :=
  let b := Real.sqrt (s.B.x ^ 2 + s.B.y ^ 2 + s.B.z ^ 2)
  ![vflow * (s.B.x * Real.cos s.phi - s.B.y * Real.sin s.phi) / b, vflow * (s.B.x * Real.sin s.phi + s.B.y * Real.cos s.phi) / b,
    vflow * s.B.z / b]

/-- Velocity of the marker relative to the plasma. -/
noncomputable def relative (c vflow : ℝ) (s : Vpa.Fo) (i : Fin 3) : ℝ := velocity c s i - plasmaVelocity vflow s i

variable {C : MConsts} {o : Options} {pl : Plasma} {h : ℝ} {rnd : V3 ℝ} {s s' : Vpa.Fo}

/-- Components of a vector. -/
def comp (v : V3 ℝ) : Fin 3 → ℝ := ![v.x, v.y, v.z]

theorem norm_eq (v : V3 ℝ) : V3.norm Real.sqrt v = Real.sqrt (v.x ^ 2 + v.y ^ 2 + v.z ^ 2) := by
  unfold V3.norm
  congr 1
  ring

theorem norm_len (v : V3 ℝ) : V3.norm Real.sqrt v = len (comp v) := norm_eq v

theorem gamma_eq (c : ℝ) (s : Vpa.Fo) :
    gammaPnorm c s.mass (V3.norm Real.sqrt s.p) = Real.sqrt (1 + (s.p.x ^ 2 + s.p.y ^ 2 + s.p.z ^ 2) / (s.mass * c) ^ 2) := by
  unfold gammaPnorm
  have : V3.norm Real.sqrt s.p * V3.norm Real.sqrt s.p = s.p.x ^ 2 + s.p.y ^ 2 + s.p.z ^ 2 := by
    rw [norm_eq, Real.mul_self_sqrt (by positivity)]
  rw [this]
  congr 3
  ring

theorem vin_eq (vflow : ℝ) (s : Vpa.Fo) : comp (foVin C vflow s) = relative C.c vflow s := by
  unfold relative velocity plasmaVelocity foVin
  rw [gamma_eq, norm_eq]
  generalize Real.sqrt _ = g
  generalize Real.sqrt _ = b
  funext i
  fin_cases i <;> simp [comp, vecRpz2xyz] <;> ring

theorem foCoefSum_eq {ma qa va : ℝ} {sp bs : List Species} (hphys : Physical bs) (hv : 0 < va) (a : FoCoef) :
    foCoefSum C false ma qa va sp bs a = some
      ⟨a.F + total (F C.e0 ma qa (C51.logs C ma qa va sp)) bs va, a.Dpara + total (Dpara C.e0 ma qa (C51.logs C ma qa va sp)) bs va,
        a.Dperp + total (Dperp C.e0 ma qa (C51.logs C ma qa va sp)) bs va⟩ := by
  induction bs generalizing a with
  | nil => simp [foCoefSum, total]
  | cons b bs ih =>
    have hb := hphys b (by simp)
    have hx : va / thermal b ≠ 0 := (div_pos hv (thermal_pos hb.1 hb.2)).ne'
    have hmu : mufun false (va / thermal b) = some (mu0 (va / thermal b), mu1 (va / thermal b), dmu0 (va / thermal b)) := by
      unfold mufun
      rw [if_pos ⟨rfl, hx⟩]
    have h1 : ∀ g : Species → ℝ → ℝ, total g (b :: bs) va = g b va + total g bs va := fun g => by simp [total]
    rw [foCoefSum, hmu]
    simp only
    rw [ih (fun b' hb' => hphys b' (by simp [hb'])), h1, h1, h1, ← add_assoc, ← add_assoc, ← add_assoc]
    rfl

/-- The matrix that multiplies the random numbers. -/
noncomputable def amp (A P : ℝ) (u : Fin 3 → ℝ) (i j : Fin 3) : ℝ :=
  Real.sqrt (2 * A) * (u i / len u * (u j / len u)) + Real.sqrt (2 * P) * ((if i = j then 1 else 0) - u i / len u * (u j / len u))

theorem amp_sq {A P : ℝ} {u : Fin 3 → ℝ} (hA : 0 ≤ 2 * A) (hP : 0 ≤ 2 * P) (hu : len u ≠ 0) (i j : Fin 3) :
    (amp A P u i 0 * amp A P u j 0 + amp A P u i 1 * amp A P u j 1 + amp A P u i 2 * amp A P u j 2) / 2 =
      A * (u i / len u * (u j / len u)) + P * ((if i = j then 1 else 0) - u i / len u * (u j / len u)) := by
  have h1 : Real.sqrt (2 * A) * Real.sqrt (2 * A) = 2 * A := Real.mul_self_sqrt hA
  have h2 : Real.sqrt (2 * P) * Real.sqrt (2 * P) = 2 * P := Real.mul_self_sqrt hP
  have hs : u 0 / len u * (u 0 / len u) + u 1 / len u * (u 1 / len u) + u 2 / len u * (u 2 / len u) = 1 := by
    have := len_sq u
    field_simp
    linarith
  unfold amp
  generalize Real.sqrt (2 * A) = a at *
  generalize Real.sqrt (2 * P) = p at *
  obtain ⟨w, hw⟩ : ∃ w : Fin 3 → ℝ, ∀ k, u k / len u = w k := ⟨_, fun _ => rfl⟩
  simp only [hw] at hs ⊢
  fin_cases i <;> fin_cases j <;> simp <;>
    [linear_combination (w 0 * w 0 / 2) * h1 + ((1 - w 0 * w 0) / 2) * h2 + (w 0 * w 0 * (a - p) ^ 2 / 2) * hs;
     linear_combination (w 0 * w 1 / 2) * h1 + ((0 - w 0 * w 1) / 2) * h2 + (w 0 * w 1 * (a - p) ^ 2 / 2) * hs;
     linear_combination (w 0 * w 2 / 2) * h1 + ((0 - w 0 * w 2) / 2) * h2 + (w 0 * w 2 * (a - p) ^ 2 / 2) * hs;
     linear_combination (w 1 * w 0 / 2) * h1 + ((0 - w 1 * w 0) / 2) * h2 + (w 1 * w 0 * (a - p) ^ 2 / 2) * hs;
     linear_combination (w 1 * w 1 / 2) * h1 + ((1 - w 1 * w 1) / 2) * h2 + (w 1 * w 1 * (a - p) ^ 2 / 2) * hs;
     linear_combination (w 1 * w 2 / 2) * h1 + ((0 - w 1 * w 2) / 2) * h2 + (w 1 * w 2 * (a - p) ^ 2 / 2) * hs;
     linear_combination (w 2 * w 0 / 2) * h1 + ((0 - w 2 * w 0) / 2) * h2 + (w 2 * w 0 * (a - p) ^ 2 / 2) * hs;
     linear_combination (w 2 * w 1 / 2) * h1 + ((0 - w 2 * w 1) / 2) * h2 + (w 2 * w 1 * (a - p) ^ 2 / 2) * hs;
     linear_combination (w 2 * w 2 / 2) * h1 + ((1 - w 2 * w 2) / 2) * h2 + (w 2 * w 2 * (a - p) ^ 2 / 2) * hs]

theorem kick_eq (v dW : V3 ℝ) (k : FoCoef) (i : Fin 3) :
    comp (foKick v k h dW) i = comp v i + k.F * (comp v i / len (comp v)) * h +
      (amp k.Dpara k.Dperp (comp v) i 0 * dW.x + amp k.Dpara k.Dperp (comp v) i 1 * dW.y + amp k.Dpara k.Dperp (comp v) i 2 * dW.z) := by
  unfold foKick amp V3.unit V3.dot
  rw [norm_len]
  generalize len (comp v) = l
  generalize Real.sqrt _ = a
  generalize Real.sqrt _ = p
  fin_cases i <;> simp [comp] <;> ring

theorem lab_eq (vflow : ℝ) (s : Vpa.Fo) (v : V3 ℝ) (i : Fin 3) :
    comp (vecRpz2xyz (foLab vflow s v) s.phi) i - plasmaVelocity vflow s i = comp v i := by
  unfold plasmaVelocity foLab
  rw [norm_eq]
  generalize Real.sqrt _ = b
  have := sc s.phi
  fin_cases i <;> simp [comp, vecRpz2xyz, vecXyz2rpz] <;> [linear_combination v.x * this; linear_combination v.y * this]

theorem velocity_eq {c m : ℝ} (hc : 0 < c) (hm : 0 < m) (s : Vpa.Fo) (hsm : s.mass = m) (v : V3 ℝ) (hv : V3.norm Real.sqrt v < c)
    (hp : s.p = ⟨v.x * gammaVnorm c (V3.norm Real.sqrt v) * m, v.y * gammaVnorm c (V3.norm Real.sqrt v) * m,
      v.z * gammaVnorm c (V3.norm Real.sqrt v) * m⟩) : velocity c s = comp (vecRpz2xyz v s.phi) := by
  have habs : |V3.norm Real.sqrt v| < c := by rwa [abs_of_nonneg (norm_nonneg v)]
  have hg := gammaVnorm_pos hc habs
  have hgp := (C46.momentum_velocity hc hm).2.2.1 _ habs
  have hn : V3.norm Real.sqrt s.p = pnormVnorm c m (V3.norm Real.sqrt v) := by
    rw [hp]
    unfold pnormVnorm
    generalize hG : gammaVnorm c (V3.norm Real.sqrt v) = g at *
    rw [norm_eq, norm_eq, show m * Real.sqrt (v.x ^ 2 + v.y ^ 2 + v.z ^ 2) * g = Real.sqrt (v.x ^ 2 + v.y ^ 2 + v.z ^ 2) * (g * m) by ring]
    simp only
    rw [show (v.x * g * m) ^ 2 + (v.y * g * m) ^ 2 + (v.z * g * m) ^ 2 = (v.x ^ 2 + v.y ^ 2 + v.z ^ 2) * (g * m) ^ 2 by ring,
      Real.sqrt_mul (by positivity), Real.sqrt_sq (by positivity)]
  unfold velocity
  rw [← gamma_eq, hsm, hn, hgp, hp]
  generalize gammaVnorm c (V3.norm Real.sqrt v) = g at *
  have := hg.ne'
  have := hm.ne'
  funext i
  fin_cases i <;> simp [comp, vecRpz2xyz] <;> field_simp

/-- A collision of a full-orbit marker changes only its momentum.  Relative to the plasma, the velocity changes by the friction
along the velocity and by a random vector whose covariance is twice the diffusion tensor times the time step: the drift and the
tensor are those for which the Maxwellian is stationary (`C90.maxwellian`).  The new speed is below the speed of light. -/
theorem fo_step (hp : PlasmaHonest pl) (hc : 0 < C.c) (ht : o.tab = false) (hr : s.running = true)
    (hs : foEuler C o pl h rnd s = some s') (hr' : s'.running = true) :
    ∃ vflow sp, pl.flow s.rho s.r s.phi s.z s.time = .ok vflow ∧ pl.species s.rho s.r s.phi s.z s.time = .ok sp ∧ Physical sp ∧
      let u := relative C.c vflow s
      let cl := C51.logs C s.mass s.charge (len u) sp
      0 < len u ∧
      (∃ b : Fin 3 → Fin 3 → ℝ,
        (∀ i j, (b i 0 * b j 0 + b i 1 * b j 1 + b i 2 * b j 2) / 2 = tensor C.e0 s.mass s.charge cl sp u i j) ∧
        ∀ i, relative C.c vflow s' i = u i + total (F C.e0 s.mass s.charge cl) sp (len u) * (u i / len u) * h +
          (b i 0 * (Real.sqrt h * rnd.x) + b i 1 * (Real.sqrt h * rnd.y) + b i 2 * (Real.sqrt h * rnd.z))) ∧
      s' = { s with p := s'.p } ∧ len (velocity C.c s') < C.c := by
  unfold foEuler at hs
  rw [if_pos hr] at hs
  split at hs
  · next e he =>
    simp only [Option.some.injEq] at hs
    subst hs
    exfalso
    have := hp.flow _ _ _ _ _ _ he
    simp [Vpa.settle, this] at hr'
  next vflow hflow =>
  split at hs
  · next e he =>
    simp only [Option.some.injEq] at hs
    subst hs
    exfalso
    have := hp.species _ _ _ _ _ _ he
    simp [Vpa.settle, this] at hr'
  next sp hsp =>
  simp only at hs
  split at hs
  · simp at hs
  next hok =>
  obtain ⟨hm, hB, hva, hpl, hh⟩ := not_not.1 hok
  have hlen : 0 < V3.norm Real.sqrt (foVin C vflow s) := lt_of_le_of_ne (norm_nonneg _) (Ne.symm hva)
  rw [ht, foCoefSum_eq hpl.2.1 hlen] at hs
  simp only [zero_add] at hs
  split at hs
  · simp at hs
  next hD =>
  obtain ⟨hA, hP⟩ := not_not.1 hD
  split at hs
  · simp at hs
  next hn =>
  have hn := not_le.1 hn
  simp only [Option.some.injEq] at hs
  have hlu : V3.norm Real.sqrt (foVin C vflow s) = len (relative C.c vflow s) := by rw [norm_len, vin_eq]
  rw [hlu] at hs hA hP hlen hn
  have hvel := velocity_eq (c := C.c) hc hm s' (by rw [← hs]) _ hn (by rw [← hs])
  refine ⟨vflow, sp, hflow, hsp, hpl.2.1, hlen, ⟨amp _ _ (relative C.c vflow s), fun i j => amp_sq hA hP hlen.ne' i j, fun i => ?_⟩, ?_, ?_⟩
  · have hphi : s'.phi = s.phi := by rw [← hs]
    have hpv : plasmaVelocity vflow s' = plasmaVelocity vflow s := by rw [← hs]; rfl
    unfold relative
    rw [hvel, hpv, hphi, lab_eq, kick_eq, vin_eq]
    rfl
  · rw [← hs]
  · rw [hvel]
    refine lt_of_eq_of_lt ?_ hn
    rw [norm_eq]
    unfold len
    congr 1
    have := sc s'.phi
    generalize foLab _ _ _ = v
    simp only [comp, vecRpz2xyz, Matrix.cons_val_zero, Matrix.cons_val_one, Matrix.cons_val]
    linear_combination (v.x ^ 2 + v.y ^ 2) * this

/-- C93 does not hold for full orbits: the switches have no effect. -/
theorem fo_ignores_switches (ho : o.tab = false) (energy pitch gcdiff : Bool) :
    foEuler C (Options.init energy pitch gcdiff) pl h rnd s = foEuler C o pl h rnd s := by
  unfold foEuler Options.init
  rw [ho]

/-- A full-orbit marker in the plasma of `C51`. -/
noncomputable def mark : Vpa.Fo := ⟨1, 0, 0, ⟨1, 0, 0⟩, 0, 1, 1, ⟨0, 0, 1⟩, fun _ => 0, 0, 0, 0, true⟩

/-- The hypotheses of `fo_step` are met with all switches off, and both the energy and the direction of the momentum change. -/
theorem fo_changes : ∃ rnd s', foEuler C51.units (Options.init false false false) (C51.bath 1 0) 1 rnd mark = some s' ∧
    mark.running = true ∧ s'.running = true ∧ s'.p.x ≠ 0 ∧ s'.p.y ≠ 0 ∧ 1 < V3.norm Real.sqrt s'.p := by
  have hg0 : 1 < Real.sqrt (1 + 1 / 100) := by
    rw [Real.lt_sqrt (by norm_num)]
    norm_num
  obtain ⟨v, hv⟩ : ∃ v, v = 1 / Real.sqrt (1 + 1 / 100) := ⟨_, rfl⟩
  have hv0 : 0 < v := by rw [hv]; positivity
  have hv1 : v < 1 := by rw [hv, div_lt_one (by positivity)]; exact hg0
  have hvin : foVin C51.units 0 mark = ⟨v, 0, 0⟩ := by
    have e : gammaPnorm C51.units.c mark.mass (V3.norm Real.sqrt mark.p) = Real.sqrt (1 + 1 / 100) := by
      unfold gammaPnorm V3.norm
      norm_num [mark, C51.units]
    unfold foVin
    rw [e]
    simp [mark, vecRpz2xyz, hv]
  have hva : V3.norm Real.sqrt (⟨v, 0, 0⟩ : V3 ℝ) = v := by
    rw [norm_eq]
    simp [hv0.le]
  have hcl := (C51.bath_clog (n := 1) (va := v) one_pos).1 le_rfl
  have hD := D_pos (e0 := C51.units.e0) (ma := mark.mass) (qa := mark.charge)
    (cl := C51.logs C51.units mark.mass mark.charge v [⟨1, 1, 1, 1⟩]) (b := ⟨1, 1, 1, 1⟩) (by norm_num) (by norm_num [mark])
    (by norm_num) (by norm_num) (by norm_num [mark]) (by norm_num [C51.units]) hcl hv0
  obtain ⟨k, hk, hA, hP⟩ : ∃ k, foCoefSum C51.units false mark.mass mark.charge v [⟨1, 1, 1, 1⟩] [⟨1, 1, 1, 1⟩] ⟨0, 0, 0⟩ = some k ∧
      0 < k.Dpara ∧ 0 < k.Dperp := by
    refine ⟨_, foCoefSum_eq (C51.bath_physical 1) hv0 _, ?_, ?_⟩
    · simpa [total] using hD.1
    · simpa [total] using hD.2
  have hsA : Real.sqrt (2 * k.Dpara) ≠ 0 := (Real.sqrt_pos.2 (by linarith)).ne'
  have hsP : Real.sqrt (2 * k.Dperp) ≠ 0 := (Real.sqrt_pos.2 (by linarith)).ne'
  let rnd : V3 ℝ := ⟨-k.F / Real.sqrt (2 * k.Dpara), 1 / Real.sqrt (2 * k.Dperp), 0⟩
  have hkick : foKick ⟨v, 0, 0⟩ k 1 ⟨Real.sqrt 1 * rnd.x, Real.sqrt 1 * rnd.y, Real.sqrt 1 * rnd.z⟩ = ⟨v, 1, 0⟩ := by
    unfold foKick V3.unit V3.dot
    rw [hva]
    have := hv0.ne'
    simp only [rnd, Real.sqrt_one, V3.mk.injEq]
    refine ⟨?_, ?_, ?_⟩ <;> field_simp <;> ring
  have hlab : foLab 0 mark ⟨v, 1, 0⟩ = ⟨v, 1, 0⟩ := by
    simp [foLab, mark, vecXyz2rpz]
  have hn : V3.norm Real.sqrt (⟨v, 1, 0⟩ : V3 ℝ) < C51.units.c := by
    rw [norm_eq, Real.sqrt_lt' C51.units_c]
    simp only [C51.units]
    nlinarith
  have hn1 : 1 < V3.norm Real.sqrt (⟨v, 1, 0⟩ : V3 ℝ) := by
    rw [norm_eq, Real.lt_sqrt (by norm_num)]
    simp only
    nlinarith
  have hg : 1 ≤ gammaVnorm C51.units.c (V3.norm Real.sqrt (⟨v, 1, 0⟩ : V3 ℝ)) :=
    (C46.gamma_ge_one C51.units_c one_pos).2.1 _ (by rwa [abs_of_nonneg (norm_nonneg _)])
  have e1 : (C51.bath 1 0).flow mark.rho mark.r mark.phi mark.z mark.time = .ok 0 := rfl
  have e2 : (C51.bath 1 0).species mark.rho mark.r mark.phi mark.z mark.time = .ok [⟨1, 1, 1, 1⟩] := rfl
  have hB : V3.norm Real.sqrt mark.B ≠ 0 := by simp [V3.norm, mark]
  generalize hG : gammaVnorm C51.units.c (V3.norm Real.sqrt (⟨v, 1, 0⟩ : V3 ℝ)) = g at hg
  refine ⟨rnd, { mark with p := ⟨v * g * mark.mass, 1 * g * mark.mass, 0 * g * mark.mass⟩ }, ?_, rfl, rfl, ?_, ?_, ?_⟩
  · unfold foEuler
    rw [if_pos (show mark.running = true from rfl), e1]
    simp only
    rw [e2]
    simp only
    rw [hvin, hva, if_neg (not_not.2 ⟨by norm_num [mark], hB, hv0.ne', C51.bath_ok one_pos, zero_le_one⟩)]
    have ht : (Options.init false false false).tab = false := rfl
    rw [ht, hk]
    simp only
    rw [if_neg (not_not.2 ⟨by linarith, by linarith⟩), hkick, hlab, if_neg (not_le.2 hn), hG]
  · simp only [mark]
    have : 0 < v * g := by positivity
    simpa using ⟨hv0.ne', by linarith⟩
  · simp only [mark]
    simp
    linarith
  · rw [norm_eq, Real.lt_sqrt (by norm_num)]
    simp only [mark]
    have : 0 < (v * g) ^ 2 := by positivity
    nlinarith

end Ascot.C94
