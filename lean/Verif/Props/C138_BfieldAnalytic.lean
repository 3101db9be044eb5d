import Verif.Props.C138_BfieldFile
set_option linter.unusedSectionVars false
set_option linter.unusedSimpArgs false

/-!
# C138, continued: fields given by parameters; what is refused; where the property fails
-/
namespace Ascot.C138
open Ascot.PyFile Ascot.BfieldFile Ascot.Tensor Ascot.Coord Ascot.Spec
open Ascot.Spline (Op)
open Ascot.Bfield (B2 B3 STS TC Data D2 Fault evalPsi evalPsiDpsi evalRho evalRhoDrho evalB evalBdB axis)
open Ascot.MarkerFile (Group readReals)
open Ascot.Options (Res)

/-! ## The Cartesian field -/

/-- The field at the Cartesian position `x`: component `i` is `b i + sum_j J i j * x_j`, where `J i j = dB_i/dx_j`. -/
def linear (b : ℕ → ℝ) (J : ℕ → ℕ → ℝ) (x : V3 ℝ) (i : ℕ) : ℝ := b i + (J i 0 * x.x + J i 1 * x.y + J i 2 * x.z)

theorem loadedTC (b : ℕ → ℝ) (J : ℕ → ℕ → ℝ) (rhoval : ℝ) (psival : Option ℝ) (axisr axisz : ℝ) (junk : ℕ → ℝ) :
    ∃ w, writeTC (tab 3 b) (nd2 3 3 J) rhoval psival axisr axisz = .done w ∧ readBfield junk (only "B_TC" w) =
      .ok (.tc ⟨axisr, axisz, psival.getD rhoval, rhoval, ⟨b 0, b 1, b 2⟩, ⟨J 0 0, J 0 1, J 0 2⟩, ⟨J 1 0, J 1 1, J 1 2⟩, ⟨J 2 0, J 2 1, J 2 2⟩⟩) := by
  have hw : ∃ w, writeTC (tab 3 b) (nd2 3 3 J) rhoval psival axisr axisz = .done w ∧ w.reals "bxyz" = some (tab 3 b) ∧
      w.reals "jacobian" = some (tab 9 fun k => J (k / 3) (k % 3)) ∧ w.reals "rhoval" = some [rhoval] ∧
      w.reals "psival" = some [psival.getD rhoval] ∧ w.reals "axisr" = some [axisr] ∧ w.reals "axisz" = some [axisz] := by
    refine ⟨?w, ?a, ?b⟩
    case a =>
      unfold writeTC
      rw [if_neg (by simp), nd2_flat]
      rw [createAll_done (by simp [Elems.length])]
    case b => simp [put, empty]
  obtain ⟨w, hw, h1, h2, h3, h4, h5, h6⟩ := hw
  refine ⟨w, hw, ?_⟩
  rw [readBfield, lastFound_only (r := readTC) (by simp) (by simp)]
  unfold readTC
  rw [readReal_eq h5, ok_bind, readReal_eq h6, ok_bind, readReal_eq h4, ok_bind, readReal_eq h3, ok_bind, readReals_tab h1, ok_bind,
    readReals_tab h2, ok_bind]
  rfl

/-- Written, read and evaluated: the field is linear in the Cartesian coordinates, with the value at the origin and the Jacobian that the user gave; it is returned in
cylindrical components.  Flux, normalised radius and axis are those given; the flux is by default that of the radius. -/
theorem cartesian (b : ℕ → ℝ) (J : ℕ → ℕ → ℝ) (rhoval : ℝ) (psival : Option ℝ) (axisr axisz : ℝ) (junk : ℕ → ℝ) :
    ∃ w data, writeTC (tab 3 b) (nd2 3 3 J) rhoval psival axisr axisz = .done w ∧ readBfield junk (only "B_TC" w) = .ok data ∧
      (∀ phi, axis data phi = some ((axisr, axisz), 0)) ∧
      (∀ r phi z, evalPsi data r phi z = some (psival.getD rhoval, 0) ∧ evalPsiDpsi data r phi z = some (⟨psival.getD rhoval, 0, 0, 0⟩, 0) ∧
        evalRhoDrho data r phi z = some (⟨rhoval, 0, 0, 0⟩, 0)) ∧
      (0 ≤ rhoval → (evalRho data (psival.getD rhoval)).1 = some rhoval ∧ (evalRho data (psival.getD rhoval)).2.2 = 0) ∧
      ∀ r phi z, ∃ B : V3 ℝ, evalB data r phi z = some (B, 0) ∧
        B.x * Real.cos phi - B.y * Real.sin phi = linear b J ⟨r * Real.cos phi, r * Real.sin phi, z⟩ 0 ∧
        B.x * Real.sin phi + B.y * Real.cos phi = linear b J ⟨r * Real.cos phi, r * Real.sin phi, z⟩ 1 ∧
        B.z = linear b J ⟨r * Real.cos phi, r * Real.sin phi, z⟩ 2 := by
  obtain ⟨w, hw, hr⟩ := loadedTC b J rhoval psival axisr axisz junk
  refine ⟨w, _, hw, hr, fun _ => rfl, fun _ _ _ => ⟨rfl, rfl, rfl⟩, ?_, fun r phi z => ⟨_, rfl, ?_⟩⟩
  · intro h0
    have e : ∀ x y : ℝ, (x - (x - y * y)) / (x - y * y + 1 - (x - y * y)) = y ^ 2 := fun x y => by
      rw [show x - y * y + 1 - (x - y * y) = 1 by ring, div_one]; ring
    unfold evalRho
    dsimp only [Bfield.limits]
    rw [if_neg (by norm_num), e, if_neg (not_lt.mpr (sq_nonneg _)), if_neg (by simp), Real.sqrt_sq h0]
    exact ⟨rfl, rfl⟩
  · rw [C85.field]
    dsimp only [C85.linearField, linear]
    have h := Real.sin_sq_add_cos_sq phi
    refine ⟨?_, ?_, rfl⟩
    · linear_combination (b 0 + (J 0 0 * (r * Real.cos phi) + J 0 1 * (r * Real.sin phi) + J 0 2 * z)) * h
    · linear_combination (b 1 + (J 1 0 * (r * Real.cos phi) + J 1 1 * (r * Real.sin phi) + J 1 2 * z)) * h

/-! ## The analytic tokamak field -/

/-- The arguments of the writer with 13 coefficients. -/
def argsGS (r0 z0 bphi0 psimult : ℝ) (c : ℕ → ℝ) (psi0 : Option ℝ) (psi1 : ℝ) (raxis zaxis : Option ℝ) (nripple : ℤ) (a0 alpha0 delta0 : ℝ) : InGS :=
  ⟨r0, z0, bphi0, psimult, tab 13 c, psi0, psi1, raxis, zaxis, nripple, a0, alpha0, delta0⟩

/-- The coefficients in memory: the 14th is never set. -/
def coefs (c : ℕ → ℝ) (junk : ℝ) (i : Fin 14) : ℝ := if (i : ℕ) < 13 then c i else junk

/-- With the flux on axis given, the file holds the arguments. -/
theorem loadedGS (found : ℝ × ℝ) (r0 z0 bphi0 psimult : ℝ) (c : ℕ → ℝ) (psi0 psi1 : ℝ) (raxis zaxis : Option ℝ) (nripple : ℤ) (a0 alpha0 delta0 : ℝ) (junk : ℕ → ℝ) :
    ∃ w, writeGS found (argsGS r0 z0 bphi0 psimult c (some psi0) psi1 raxis zaxis nripple a0 alpha0 delta0) = .done w ∧
      readBfield junk (only "B_GS" w) = .ok (.gs ⟨r0, z0, raxis.getD 0, zaxis.getD 0, bphi0, psi0, psi1, psimult, coefs c (junk 0), nripple, a0,
        alpha0, delta0⟩) := by
  have hw : ∃ w, writeGS found (argsGS r0 z0 bphi0 psimult c (some psi0) psi1 raxis zaxis nripple a0 alpha0 delta0) = .done w ∧
      w.reals "r0" = some [r0] ∧ w.reals "z0" = some [z0] ∧ w.reals "raxis" = some [raxis.getD 0] ∧ w.reals "zaxis" = some [zaxis.getD 0] ∧
      w.reals "bphi0" = some [bphi0] ∧ w.reals "psi0" = some [psi0] ∧ w.reals "psi1" = some [psi1] ∧ w.reals "psimult" = some [psimult] ∧
      w.reals "coefficients" = some (tab 13 c) ∧ w.reals "delta0" = some [delta0] ∧ w.reals "alpha0" = some [alpha0] ∧
      w.reals "a0" = some [a0] ∧ w.ints "nripple" = some [nripple] := by
    refine ⟨?w, ?a, ?b⟩
    case a =>
      unfold writeGS
      simp only [argsGS, tab_length, ne_eq, not_true, if_false]
      rw [createAll_done (by simp [Elems.length])]
    case b => simp [put, empty]
  obtain ⟨w, hw, h1, h2, h3, h4, h5, h6, h7, h8, h9, h10, h11, h12, h13⟩ := hw
  refine ⟨w, hw, ?_⟩
  rw [readBfield, lastFound_only (r := readGS (junk 0)) (by simp) (by simp)]
  unfold readGS
  rw [readReal_eq h1, ok_bind, readReal_eq h2, ok_bind, readReal_eq h3, ok_bind, readReal_eq h4, ok_bind, readReal_eq h5, ok_bind,
    readReal_eq h6, ok_bind, readReal_eq h7, ok_bind, readReal_eq h8, ok_bind, readReals_tab h9, ok_bind, readReal_eq h10, ok_bind,
    readReal_eq h11, ok_bind, readReal_eq h12, ok_bind, readInt_eq h13, ok_bind]
  rfl

/-- The flux that the writer computes at the axis which it found, moved away from that of the separatrix. -/
noncomputable def foundPsi (found : ℝ × ℝ) (psimult : ℝ) (c : ℕ → ℝ) : ℝ :=
  if pyPsi c found.1 found.2 * psimult < 0 then pyPsi c found.1 found.2 * psimult - 1e-8 else pyPsi c found.1 found.2 * psimult + 1e-8

theorem pyPsi_congr {c c' : ℕ → ℝ} (h : ∀ i < 13, c i = c' i) (x y : ℝ) : pyPsi c x y = pyPsi c' x y := by
  unfold pyPsi
  rw [h 12 (by omega)]
  congr 2
  exact Finset.sum_congr rfl fun i _ => by rw [h i (by omega)]

/-- Without it, the file holds the arguments with the axis that was found, which is `found` times the major radius, and with zero flux at the separatrix. -/
theorem foundGS (found : ℝ × ℝ) (r0 z0 bphi0 psimult : ℝ) (c : ℕ → ℝ) (psi1 : ℝ) (raxis zaxis : Option ℝ) (nripple : ℤ) (a0 alpha0 delta0 : ℝ) :
    writeGS found (argsGS r0 z0 bphi0 psimult c none psi1 raxis zaxis nripple a0 alpha0 delta0) =
      writeGS found (argsGS r0 z0 bphi0 psimult c (some (foundPsi found psimult c)) 0 (some (found.1 * r0)) (some (found.2 * r0)) nripple a0 alpha0 delta0) := by
  have e : pyPsi (fun i => (tab 13 c).getD i 0) found.1 found.2 = pyPsi c found.1 found.2 := pyPsi_congr (fun i hi => tab_getD 13 c hi) _ _
  unfold writeGS
  simp only [argsGS, tab_length, ne_eq, not_true, if_false, e, foundPsi]

theorem psiSum_eq (c : ℕ → ℝ) (junk x y : ℝ) : BGS.psiSum (coefs c junk) x y (Real.log x) = pyPsi c x y := by
  have e : ∀ i : Fin 14, (i : ℕ) < 13 → coefs c junk i = c i := fun i h => if_pos h
  unfold BGS.psiSum pyPsi
  simp only [Fin.sum_univ_succ, Finset.univ_eq_empty, Finset.sum_empty]
  rw [show coefs c junk 0 = c 0 from e 0 (by decide)]
  rw [show coefs c junk 1 = c 1 from e 1 (by decide)]
  rw [show coefs c junk 2 = c 2 from e 2 (by decide)]
  rw [show coefs c junk 3 = c 3 from e 3 (by decide)]
  rw [show coefs c junk 4 = c 4 from e 4 (by decide)]
  rw [show coefs c junk 5 = c 5 from e 5 (by decide)]
  rw [show coefs c junk 6 = c 6 from e 6 (by decide)]
  rw [show coefs c junk 7 = c 7 from e 7 (by decide)]
  rw [show coefs c junk 8 = c 8 from e 8 (by decide)]
  rw [show coefs c junk 9 = c 9 from e 9 (by decide)]
  rw [show coefs c junk 10 = c 10 from e 10 (by decide)]
  rw [show coefs c junk 11 = c 11 from e 11 (by decide)]
  rw [show coefs c junk 12 = c 12 from e 12 (by decide)]
  show _ = c 0 * 1 + (c 1 * (x ^ 2) + (c 2 * (x ^ 2 * Real.log x - y ^ 2) + (c 3 * (x ^ 4 - 4 * x ^ 2 * y ^ 2) +
    (c 4 * (3 * x ^ 4 * Real.log x - 9 * x ^ 2 * y ^ 2 - 12 * x ^ 2 * Real.log x * y ^ 2 + 2 * y ^ 4) +
    (c 5 * (x ^ 6 - 12 * x ^ 4 * y ^ 2 + 8 * x ^ 2 * y ^ 4) +
    (c 6 * (8 * y ^ 6 - 140 * x ^ 2 * y ^ 4 - 120 * x ^ 2 * Real.log x * y ^ 4 + 180 * x ^ 4 * Real.log x * y ^ 2 + 75 * x ^ 4 * y ^ 2
      - 15 * x ^ 6 * Real.log x) + (c 7 * y + (c 8 * (y * x ^ 2) + (c 9 * (y ^ 3 - 3 * y * x ^ 2 * Real.log x) +
    (c 10 * (3 * y * x ^ 4 - 4 * y ^ 3 * x ^ 2) + (c 11 * (8 * y ^ 5 - 45 * y * x ^ 4 - 80 * y ^ 3 * x ^ 2 * Real.log x + 60 * y * x ^ 4 * Real.log x)
      + 0))))))))))) + c 12 * (1 / 2 * x ^ 2 * Real.log x) + (1 - c 12) * (1 / 8 * x ^ 4)
  ring

/-- The flux in the simulation, at `r`, `z`. -/
noncomputable def flux (r0 z0 psimult : ℝ) (c : ℕ → ℝ) (r z : ℝ) : ℝ := psimult * pyPsi c (r / r0) ((z - z0) / r0)

/-- Written, read and evaluated: the flux is the Solov'ev solution with the coefficients of the user, as Python computes it, multiplied with `psimult` and moved upwards by
`z0`; the poloidal field is that of the flux, whether there is ripple or not; the toroidal field falls off as 1/R from `bphi0` at the major radius if there is no ripple, and with ripple
it oscillates around that value with the number of coils.  Axis and fluxes are those given. -/
theorem analytic (found : ℝ × ℝ) (r0 z0 bphi0 psimult : ℝ) (c : ℕ → ℝ) (psi0 psi1 raxis zaxis : ℝ) (nripple : ℤ) (a0 alpha0 delta0 : ℝ) (junk : ℕ → ℝ)
    (h0 : 0 < r0) :
    ∃ w data, writeGS found (argsGS r0 z0 bphi0 psimult c (some psi0) psi1 (some raxis) (some zaxis) nripple a0 alpha0 delta0) = .done w ∧
      readBfield junk (only "B_GS" w) = .ok data ∧
      (∀ phi, axis data phi = some ((raxis, zaxis), 0)) ∧ RhoFrom data psi0 psi1 ∧
      (∀ r phi z, 0 < r → evalPsi data r phi z = some (flux r0 z0 psimult c r z, 0)) ∧
      (∀ r phi z B e, 0 < r → evalB data r phi z = some (B, e) → e = 0 ∧
        HasDerivAt (fun y => flux r0 z0 psimult c r y) (-(r * B.x)) z ∧ HasDerivAt (fun y => flux r0 z0 psimult c y z) (r * B.z) r) ∧
      (nripple ≤ 0 → ∀ r phi z, 0 < r → ∃ B, evalB data r phi z = some (B, 0) ∧ B.y = bphi0 * r0 / r) ∧
      (0 < nripple → 0 < a0 → 0 ≤ alpha0 → ∀ r z, 0 < r → ∃ delta, ∀ phi, ∃ B, evalB data r phi z = some (B, 0) ∧
        B.y = bphi0 * r0 / r * (1 + delta * Real.cos (nripple * phi))) := by
  obtain ⟨w, hw, hr⟩ := loadedGS found r0 z0 bphi0 psimult c psi0 psi1 (some raxis) (some zaxis) nripple a0 alpha0 delta0 junk
  set d : BGS.Data := ⟨r0, z0, raxis, zaxis, bphi0, psi0, psi1, psimult, coefs c (junk 0), nripple, a0, alpha0, delta0⟩ with hd
  have hv : ∀ r, 0 < r → BGS.Valid d r := fun r h => ⟨h0.ne', div_pos h h0⟩
  have hpsi : ∀ r z, 0 < r → BGS.evalPsi d r z = some (flux r0 z0 psimult c r z) := by
    intro r z h
    unfold BGS.evalPsi
    rw [if_pos (hv r h)]
    show some (psimult * BGS.psiSum (coefs c (junk 0)) (r / r0) ((z - z0) / r0) (Real.log (r / r0))) = _
    rw [psiSum_eq]
    rfl
  have hB : ∀ {r phi z : ℝ} {B : V3 ℝ}, BGS.evalB d r phi z = some B → evalB (.gs d) r phi z = some (B, 0) := by
    intro r phi z B h
    show Bfield.withFallback _ (Bfield.ofOption (BGS.evalB d r phi z)) = _
    rw [h]; rfl
  refine ⟨w, .gs d, hw, hr, fun _ => rfl, rho_from rfl, ?_, ?_, ?_, ?_⟩
  · intro r phi z h
    show Bfield.withFallback _ (Bfield.ofOption (BGS.evalPsi d r z)) = _
    rw [hpsi r z h]; rfl
  · intro r phi z B e h hE
    change Bfield.withFallback _ (Bfield.ofOption (BGS.evalB d r phi z)) = _ at hE
    cases hb : BGS.evalB d r phi z with
    | none => rw [hb] at hE; cases hE
    | some B' =>
      rw [hb] at hE
      simp only [Bfield.ofOption, Bfield.withFallback, Option.some.injEq, Prod.mk.injEq] at hE
      obtain ⟨rfl, rfl⟩ := hE
      obtain ⟨-, ⟨g1, e1, d1⟩, ⟨g2, e2, d2⟩⟩ := C84.field_from_flux d r phi z _ hb
      refine ⟨rfl, d1.congr_of_eventuallyEq ?_, d2.congr_of_eventuallyEq ?_⟩
      · filter_upwards [e1] with y hy
        rw [hpsi r y h] at hy
        exact Option.some.inj hy
      · filter_upwards [e2, lt_mem_nhds h] with y hy hp
        rw [hpsi y z hp] at hy
        exact Option.some.inj hy
  · intro hn r phi z h
    have : ∃ B, BGS.evalB d r phi z = some B := by
      unfold BGS.evalB
      rw [if_pos (hv r h)]
      dsimp only
      rw [if_neg (by simp [hd]; exact hn)]
      exact ⟨_, rfl⟩
    obtain ⟨B, hb⟩ := this
    exact ⟨B, hB hb, C84.toroidal d r phi z B hn hb⟩
  · intro hn ha hl r z h
    have : ∃ phi B, BGS.evalB d r phi z = some B := by
      have hrip : ∀ a b, ∃ x, BGS.ripple d a b = some x := by
        intro a b
        unfold BGS.ripple
        dsimp only
        rw [if_pos]
        · exact ⟨_, rfl⟩
        · refine ⟨ha.ne', ?_⟩
          rcases (Real.sqrt_nonneg ((a - d.R0) * (a - d.R0) + (b - d.z0) * (b - d.z0))).eq_or_lt with h | h
          · exact .inr ⟨h.symm, hl⟩
          · exact .inl (div_pos h ha)
      refine ⟨0, ?_⟩
      unfold BGS.evalB
      rw [if_pos (hv r h)]
      dsimp only
      rw [if_pos (show d.Nripple > 0 from hn)]
      obtain ⟨x, hx⟩ := hrip (r / d.R0 * d.R0) ((z - d.z0) / d.R0 * d.R0)
      rw [hx]
      exact ⟨_, rfl⟩
    obtain ⟨delta, hdel⟩ := C84.toroidal_ripple d r z hn this
    refine ⟨delta, fun phi => ?_⟩
    obtain ⟨B, hb, hy⟩ := hdel phi
    exact ⟨B, hB hb, hy⟩

/-- Two fields that differ in `z0` only: the flux of one is that of the other, moved. -/
theorem flux_moved (r0 z0 psimult : ℝ) (c : ℕ → ℝ) (r z : ℝ) : flux r0 z0 psimult c r (z + z0) = flux r0 0 psimult c r z := by
  unfold flux; simp

/-- If the user leaves the axis to be found and `z0` is zero, the axis in the simulation is where Python found the minimum of the flux, and the normalised flux there is close to
zero: the flux of the axis is that of this point, off by 1e-8.  `partial`: for `z0 = 0`. -/
theorem axis_found_partial (found : ℝ × ℝ) (r0 bphi0 psimult : ℝ) (c : ℕ → ℝ) (psi1 : ℝ) (raxis zaxis : Option ℝ) (nripple : ℤ) (a0 alpha0 delta0 : ℝ)
    (junk : ℕ → ℝ) (h0 : 0 < r0) (hf : 0 < found.1) :
    ∃ w data, writeGS found (argsGS r0 0 bphi0 psimult c none psi1 raxis zaxis nripple a0 alpha0 delta0) = .done w ∧
      readBfield junk (only "B_GS" w) = .ok data ∧
      ∃ ra za, (∀ phi, axis data phi = some ((ra, za), 0)) ∧ ra / r0 = found.1 ∧ za / r0 = found.2 ∧
        ∃ psi0, RhoFrom data psi0 0 ∧ (∀ phi, evalPsi data ra phi za = some (psimult * pyPsi c found.1 found.2, 0)) ∧
          |psi0 - psimult * pyPsi c found.1 found.2| = 1e-8 := by
  rw [foundGS]
  obtain ⟨w, data, hw, hr, ha, hrho, hpsi, -⟩ := analytic found r0 0 bphi0 psimult c (foundPsi found psimult c) 0 (found.1 * r0) (found.2 * r0) nripple a0
    alpha0 delta0 junk h0
  refine ⟨w, data, hw, hr, _, _, ha, by field_simp, by field_simp, _, hrho, ?_, ?_⟩
  · intro phi
    rw [hpsi _ phi _ (mul_pos hf h0)]
    unfold flux
    rw [sub_zero, mul_div_cancel_right₀ _ h0.ne', mul_div_cancel_right₀ _ h0.ne']
  · unfold foundPsi
    split
    · rw [show pyPsi c found.1 found.2 * psimult - 1e-8 - psimult * pyPsi c found.1 found.2 = -1e-8 by ring, abs_neg, abs_of_pos (by norm_num)]
    · rw [show pyPsi c found.1 found.2 * psimult + 1e-8 - psimult * pyPsi c found.1 found.2 = 1e-8 by ring, abs_of_pos (by norm_num)]

/-! ## Where the property fails -/

/-- Coefficients with which the flux is `y^2/2`. -/
noncomputable def slab (i : ℕ) : ℝ := if i = 12 then 1 else if i = 2 then -1 / 2 else 0

theorem slab_psi (x y : ℝ) : pyPsi slab x y = y ^ 2 / 2 := by
  rw [← psiSum_eq slab 0]
  have e : ∀ i : Fin 14, coefs slab 0 i = if (i : ℕ) = 12 then 1 else if (i : ℕ) = 2 then -1 / 2 else 0 := by
    intro i
    unfold coefs slab
    split <;> rename_i h
    · rfl
    · rw [if_neg (by omega), if_neg (by omega)]
  unfold BGS.psiSum
  simp only [e]
  norm_num
  ring

/-- **Violation.** With `z0` not zero the axis that Python finds is stored without it.  Here the flux is smallest on the plane z = 1, where it is zero, and the axis
found is a point of that plane; but in the simulation the axis is on the plane z = 0, where the flux is 1/2. -/
theorem axis_found_violation (bphi0 : ℝ) (junk : ℕ → ℝ) :
    (∀ x y, pyPsi slab 1 0 ≤ pyPsi slab x y) ∧
    ∃ w data, writeGS (1, 0) (argsGS 1 1 bphi0 1 slab none 0 none none 0 2 2 0.05) = .done w ∧ readBfield junk (only "B_GS" w) = .ok data ∧
      (∀ phi, axis data phi = some ((1, 0), 0)) ∧ (∀ phi, evalPsi data 1 phi 0 = some (1 / 2, 0)) ∧ (∀ phi, evalPsi data 1 phi 1 = some (0, 0)) := by
  refine ⟨fun x y => by rw [slab_psi, slab_psi]; norm_num; positivity, ?_⟩
  rw [foundGS]
  obtain ⟨w, data, hw, hr, ha, -, hpsi, -⟩ := analytic (1, 0) 1 1 bphi0 1 slab (foundPsi (1, 0) 1 slab) 0 ((1, 0) : ℝ × ℝ).1 ((1, 0) : ℝ × ℝ).2 0 2 2 0.05 junk one_pos
  refine ⟨w, data, by simpa using hw, hr, ha, fun phi => ?_, fun phi => ?_⟩
  · rw [hpsi 1 phi 0 one_pos]
    unfold flux
    rw [slab_psi]
    norm_num
  · rw [hpsi 1 phi 1 one_pos]
    unfold flux
    rw [slab_psi]
    norm_num

/-- **Violation.** Whatever flux of the separatrix the user gives, it is replaced by zero if that of the axis is not given. -/
theorem separatrix_violation (found : ℝ × ℝ) (u v : ℝ) (r0 z0 bphi0 psimult : ℝ) (c : ℕ → ℝ) (raxis zaxis : Option ℝ) (nripple : ℤ) (a0 alpha0 delta0 : ℝ) :
    writeGS found (argsGS r0 z0 bphi0 psimult c none u raxis zaxis nripple a0 alpha0 delta0) =
      writeGS found (argsGS r0 z0 bphi0 psimult c none v raxis zaxis nripple a0 alpha0 delta0) := by
  rw [foundGS, foundGS]

/-- **Violation.** If the flux of the axis is given and its position, which is optional, is not, the axis in the simulation is at R = 0, z = 0. -/
theorem axis_omitted_violation (found : ℝ × ℝ) (r0 z0 bphi0 psimult : ℝ) (c : ℕ → ℝ) (psi0 psi1 : ℝ) (nripple : ℤ) (a0 alpha0 delta0 : ℝ) (junk : ℕ → ℝ) :
    ∃ w data, writeGS found (argsGS r0 z0 bphi0 psimult c (some psi0) psi1 none none nripple a0 alpha0 delta0) = .done w ∧
      readBfield junk (only "B_GS" w) = .ok data ∧ ∀ phi, axis data phi = some ((0, 0), 0) := by
  obtain ⟨w, hw, hr⟩ := loadedGS found r0 z0 bphi0 psimult c psi0 psi1 none none nripple a0 alpha0 delta0 junk
  exact ⟨w, _, hw, hr, fun _ => rfl⟩

/-- **Violation.** "The analytical field is defined by assuming midplane is at z=0, but it is moved to z=z0": with ripple the toroidal field is not the moved one.  Two
fields that differ in `z0` only, evaluated at the same distance from it. -/
theorem ripple_moved_violation (found : ℝ × ℝ) (junk : ℕ → ℝ) :
    ∃ w0 w1 d0 d1, writeGS found (argsGS 1 0 1 1 slab (some 0) 1 (some 1) (some 0) 1 1 0 1) = .done w0 ∧
      writeGS found (argsGS 1 1 1 1 slab (some 0) 1 (some 1) (some 1) 1 1 0 1) = .done w1 ∧
      readBfield junk (only "B_GS" w0) = .ok d0 ∧ readBfield junk (only "B_GS" w1) = .ok d1 ∧
      ∃ B0 B1 : V3 ℝ, evalB d0 2 0 0 = some (B0, 0) ∧ evalB d1 2 0 1 = some (B1, 0) ∧ B0.y ≠ B1.y := by
  obtain ⟨w0, hw0, hr0⟩ := loadedGS found 1 0 1 1 slab 0 1 (some 1) (some 0) 1 1 0 1 junk
  obtain ⟨w1, hw1, hr1⟩ := loadedGS found 1 1 1 1 slab 0 1 (some 1) (some 1) 1 1 0 1 junk
  refine ⟨w0, w1, _, _, hw0, hw1, hr0, hr1, ?_⟩
  have key : ∀ z0 z : ℝ, ∃ B : V3 ℝ, evalB (.gs ⟨1, z0, 1, z0, 1, 0, 1, 1, coefs slab (junk 0), 1, 1, 0, 1⟩) 2 0 z = some (B, 0) ∧
      B.y = 1 / 2 * (1 + Real.exp (-0.5 * atan2 (z - z0 - z0) 1 * atan2 (z - z0 - z0) 1)) := by
    intro z0 z
    have hrip : BGS.ripple ⟨1, z0, 1, z0, 1, 0, 1, 1, coefs slab (junk 0), 1, 1, 0, 1⟩ (2 / 1 * 1) ((z - z0) / 1 * 1) =
        some (Real.exp (-0.5 * atan2 (z - z0 - z0) 1 * atan2 (z - z0 - z0) 1)) := by
      unfold BGS.ripple
      have hs : 0 < Real.sqrt (((2 : ℝ) / 1 * 1 - 1) * (2 / 1 * 1 - 1) + ((z - z0) / 1 * 1 - z0) * ((z - z0) / 1 * 1 - z0)) := by
        apply Real.sqrt_pos.mpr
        nlinarith [mul_self_nonneg ((z - z0) / 1 * 1 - z0)]
      dsimp only
      rw [if_pos ⟨one_ne_zero, .inl (by simpa using hs)⟩, Real.rpow_zero]
      norm_num
    unfold evalB Bfield.modelB BGS.evalB
    dsimp only
    rw [if_pos ⟨one_ne_zero, by norm_num⟩, if_pos (by norm_num), hrip]
    refine ⟨_, rfl, ?_⟩
    norm_num
  obtain ⟨B0, h0, e0⟩ := key 0 0
  obtain ⟨B1, h1, e1⟩ := key 1 1
  refine ⟨B0, B1, h0, h1, fun h => ?_⟩
  rw [e0, e1] at h
  have hθ : atan2 (1 - 1 - 1) 1 ≠ 0 := by
    unfold atan2
    rw [Ne, Complex.arg_eq_zero_iff]
    norm_num
  have hz : atan2 (0 - 0 - 0) 1 = 0 := by
    unfold atan2
    rw [Complex.arg_eq_zero_iff]
    norm_num
  rw [hz] at h
  norm_num at h
  have hθ' : atan2 (-1) 1 ≠ 0 := by simpa using hθ
  have h1 : Real.exp (-(1 / 2 * atan2 (-1) 1 * atan2 (-1) 1)) = 1 := by linarith
  rw [Real.exp_eq_one_iff] at h1
  have h2 : atan2 (-1) 1 * atan2 (-1) 1 = 0 := by linarith
  exact hθ' (mul_self_eq_zero.mp h2)

/-- **Violation.** A time-dependent field (`B_3DST`), which the Python interface offers, is not read by the program, whatever it holds. -/
theorem time_dependent_violation (junk : ℕ → ℝ) (w : Group) : readBfield junk (only "B_3DST" w) = .fail := lastFound_unknown (by simp)

/-- **Violation.** The user of a stellarator field is told to give `br` and `bz` without the equilibrium component.  If they are zero, then so are the R and z components of the
field at every grid point, whatever the flux. -/
theorem equilibrium_component_violation (g : GridRpz) (ok : GridRpz.Ok g) (na : ℕ) (a0 a1 : ℝ) (ha : a0 < a1)
    (axisr axisz : ℕ → ℝ) (psi0 psi1 : ℝ) (psi : ℕ → ℕ → ℕ → ℝ) (junk : ℕ → ℝ) :
    ∃ w data, writeSTS (argsSTS g none na a0 a1 axisr axisz psi0 psi1 psi (fun _ _ _ => 0) (fun _ _ _ => 1) fun _ _ _ => 0) = .done w ∧
      (∀ d, readBfield junk (only "B_STS" w) = .ok d → d = data) ∧
      ∀ i j k, i + 1 < g.nr → j < g.nphi → k + 1 < g.nz →
        evalB data (g.rmin + i * ((g.rmax - g.rmin) / (g.nr - 1))) (rad (g.phimin + j * ((g.phimax - g.phimin) / g.nphi)))
          (g.zmin + k * ((g.zmax - g.zmin) / (g.nz - 1))) = some (⟨0, 1, 0⟩, 0) := by
  obtain ⟨w, data, hw, hl, -, -, -, -, -, hv⟩ := stellarator g none ok ok na a0 a1 ha axisr axisz psi0 psi1 psi (fun _ _ _ => 0) (fun _ _ _ => 1)
    (fun _ _ _ => 0) junk
  refine ⟨w, data, hw, fun d hd => ?_, fun i j k hi hj hk => ?_⟩
  · by_cases h : (Fails (axis data 0) ∨ ∃ r z, axis data 0 = some ((r, z), 0) ∧ (Fails (evalPsi data r 0 z) ∨ Fails (evalB data r 0 z)))
    · rw [hl.1 h] at hd; cases hd
    · rw [hl.2 h] at hd; injection hd with hd; exact hd.symm
  · obtain ⟨a, b, c, va, vb, vc, -, hB⟩ := hv (g.rmin + i * ((g.rmax - g.rmin) / (g.nr - 1)))
      (rad (g.phimin + j * ((g.phimax - g.phimin) / g.nphi))) (g.zmin + k * ((g.zmax - g.zmin) / (g.nz - 1))) i j k 0 0 0
      ⟨hi, le_refl _, zero_le_one, by simp, by simp⟩ (at_grid_angle hj) ⟨hk, le_refl _, zero_le_one, by simp, by simp⟩
    rw [values3_grid hi hj hk va, values3_grid hi hj hk vb, values3_grid hi hj hk vc] at hB
    exact (hB fun h => by simpa using congrArg V3.y h).1

/-! ## What is refused -/

/-- Tables that have not the shape of the grid, a field at the origin without three components and coefficients that are not thirteen are refused; no group is written. -/
theorem refused :
    (∀ u : In2D, u.psi.shape ≠ [u.nr, u.nz] ∨ u.br.shape ≠ [u.nr, u.nz] ∨ u.bphi.shape ≠ [u.nr, u.nz] ∨ u.bz.shape ≠ [u.nr, u.nz] → write2D u = .refused) ∧
    (∀ u : In3D, u.psi.shape ≠ [(u.p.getD u.b.toGridRz).nr, (u.p.getD u.b.toGridRz).nz] ∨ u.br.shape ≠ [u.b.nr, u.b.nphi, u.b.nz] ∨
      u.bphi.shape ≠ [u.b.nr, u.b.nphi, u.b.nz] ∨ u.bz.shape ≠ [u.b.nr, u.b.nphi, u.b.nz] → write3D u = .refused) ∧
    (∀ u : InSTS, u.psi.shape ≠ [(u.p.getD u.b).nr, (u.p.getD u.b).nphi, (u.p.getD u.b).nz] ∨ u.br.shape ≠ [u.b.nr, u.b.nphi, u.b.nz] ∨
      u.bphi.shape ≠ [u.b.nr, u.b.nphi, u.b.nz] ∨ u.bz.shape ≠ [u.b.nr, u.b.nphi, u.b.nz] → writeSTS u = .refused) ∧
    (∀ (b : List ℝ) (J : Nd) (rho : ℝ) (psi : Option ℝ) (r z : ℝ), b.length ≠ 3 → writeTC b J rho psi r z = .refused) ∧
    (∀ (found : ℝ × ℝ) (u : InGS), u.coefficients.length ≠ 13 → writeGS found u = .refused) := by
  have key : ∀ {a b c d : Prop} [Decidable a] [Decidable b] [Decidable c] [Decidable d] (w : Written), a ∨ b ∨ c ∨ d →
      (if a then .refused else if b then .refused else if c then .refused else if d then .refused else w) = Written.refused := by
    intro a b c d _ _ _ _ w h
    by_cases ha : a
    · rw [if_pos ha]
    · by_cases hb : b
      · rw [if_neg ha, if_pos hb]
      · by_cases hc : c
        · rw [if_neg ha, if_neg hb, if_pos hc]
        · rw [if_neg ha, if_neg hb, if_neg hc, if_pos (by tauto)]
  refine ⟨fun u h => key _ h, fun u h => key _ h, fun u h => key _ h, fun b J rho psi r z h => if_pos h, fun found u h => if_pos h⟩

/-- A Jacobian without nine elements, or axis arrays whose lengths are not the number of axis points, raise an exception after the group was added to the file; what is left there
is not read. -/
theorem incomplete_not_read (junk : ℕ → ℝ) :
    (∀ (b : ℕ → ℝ) (J : Nd) (rho : ℝ) (psi : Option ℝ) (r z : ℝ), J.flat.length ≠ 9 →
      ∃ w, writeTC (tab 3 b) J rho psi r z = .broken w ∧ readBfield junk (only "B_TC" w) = .fail) ∧
    (∀ (g : GridRpz) (p : Option GridRpz) (na : ℕ) (a0 a1 : ℝ) (axisr axisz : List ℝ) (psi0 psi1 : ℝ) (psi br bphi bz : ℕ → ℕ → ℕ → ℝ),
      axisr.length ≠ na ∨ axisz.length ≠ na →
      ∃ w, writeSTS ⟨g, psi0, psi1, nd3 g.nr g.nphi g.nz br, nd3 g.nr g.nphi g.nz bphi, nd3 g.nr g.nphi g.nz bz,
          nd3 (p.getD g).nr (p.getD g).nphi (p.getD g).nz psi, a0, a1, na, axisr, axisz, p⟩ = .broken w ∧
        readBfield junk (only "B_STS" w) = .fail) := by
  constructor
  · intro b J rho psi r z h
    have hw : ∃ w, writeTC (tab 3 b) J rho psi r z = .broken w ∧ w.reals "axisr" = none := by
      refine ⟨?w1, ?a1, ?b1⟩
      case a1 =>
        unfold writeTC
        rw [if_neg (by simp)]
        simp only [createAll, create, Elems.length, tab_length, List.prod_cons, List.prod_nil, Nat.mul_one, if_true, Nat.reduceMul, if_neg h]
        rfl
      case b1 => simp [put, empty]
    obtain ⟨w, hw, h1⟩ := hw
    refine ⟨w, hw, ?_⟩
    rw [readBfield, lastFound_only (r := readTC) (by simp) (by simp)]
    unfold readTC
    rw [show readReal w "axisr" = .fail by unfold readReal; rw [h1]]
    rfl
  · intro g p na a0 a1 axisr axisz psi0 psi1 psi br bphi bz h
    have hw : ∃ w, writeSTS ⟨g, psi0, psi1, nd3 g.nr g.nphi g.nz br, nd3 g.nr g.nphi g.nz bphi, nd3 g.nr g.nphi g.nz bz,
          nd3 (p.getD g).nr (p.getD g).nphi (p.getD g).nz psi, a0, a1, na, axisr, axisz, p⟩ = .broken w ∧
        w.reals "br" = none ∧ w.ints "b_nr" = some [(g.nr : ℤ)] ∧ w.ints "b_nz" = some [(g.nz : ℤ)] ∧ w.reals "b_rmin" = some [g.rmin] ∧
        w.reals "b_rmax" = some [g.rmax] ∧ w.reals "b_zmin" = some [g.zmin] ∧ w.reals "b_zmax" = some [g.zmax] ∧
        w.ints "b_nphi" = some [(g.nphi : ℤ)] ∧ w.reals "b_phimin" = some [g.phimin] ∧ w.reals "b_phimax" = some [g.phimax] ∧
        w.ints "psi_nr" = some [((p.getD g).nr : ℤ)] ∧ w.ints "psi_nz" = some [((p.getD g).nz : ℤ)] ∧
        w.reals "psi_rmin" = some [(p.getD g).rmin] ∧ w.reals "psi_rmax" = some [(p.getD g).rmax] ∧
        w.reals "psi_zmin" = some [(p.getD g).zmin] ∧ w.reals "psi_zmax" = some [(p.getD g).zmax] ∧
        w.ints "psi_nphi" = some [((p.getD g).nphi : ℤ)] ∧ w.reals "psi_phimin" = some [(p.getD g).phimin] ∧
        w.reals "psi_phimax" = some [(p.getD g).phimax] ∧
        w.ints "axis_nphi" = some [(na : ℤ)] ∧ w.reals "axis_phimin" = some [a0] ∧ w.reals "axis_phimax" = some [a1] ∧
        w.reals "psi0" = some [psi0] ∧ w.reals "psi1" = some [psi1] := by
      by_cases hr : axisr.length = na
      · have hz : axisz.length ≠ na := by tauto
        refine ⟨?w2, ?a2, ?b2⟩
        case a2 =>
          unfold writeSTS
          dsimp only
          rw [if_neg (by simp [nd3]), if_neg (by simp [nd3]), if_neg (by simp [nd3]), if_neg (by simp [nd3])]
          simp only [createAll, create, Elems.length, List.length_cons, List.length_nil, List.prod_cons, List.prod_nil, Nat.mul_one, Nat.zero_add, if_true, hr,
            if_neg hz]
          rfl
        case b2 => simp [put, empty]
      · refine ⟨?w3, ?a3, ?b3⟩
        case a3 =>
          unfold writeSTS
          dsimp only
          rw [if_neg (by simp [nd3]), if_neg (by simp [nd3]), if_neg (by simp [nd3]), if_neg (by simp [nd3])]
          simp only [createAll, create, Elems.length, List.length_cons, List.length_nil, List.prod_cons, List.prod_nil, Nat.mul_one, Nat.zero_add, if_true,
            if_neg hr]
          rfl
        case b3 => simp [put, empty]
    obtain ⟨w, hw, h0, h1, h2, h3, h4, h5, h6, h7, h8, h9, h10, h11, h12, h13, h14, h15, h16, h17, h18, h19, h20, h21, h22, h23⟩ := hw
    refine ⟨w, hw, ?_⟩
    rw [readBfield, lastFound_only (r := readSTS junk) (by simp) (by simp)]
    unfold readSTS
    rw [readCount_eq h1, ok_bind, readCount_eq h2, ok_bind, readReal_eq h3, ok_bind, readReal_eq h4, ok_bind, readReal_eq h5, ok_bind,
      readReal_eq h6, ok_bind, readCount_eq h7, ok_bind, readReal_eq h8, ok_bind, readReal_eq h9, ok_bind, readCount_eq h10, ok_bind,
      readCount_eq h11, ok_bind, readReal_eq h12, ok_bind, readReal_eq h13, ok_bind, readReal_eq h14, ok_bind, readReal_eq h15, ok_bind,
      readCount_eq h16, ok_bind, readReal_eq h17, ok_bind, readReal_eq h18, ok_bind, readCount_eq h19, ok_bind, readReal_eq h20, ok_bind,
      readReal_eq h21, ok_bind, readReal_eq h22, ok_bind, readReal_eq h23, ok_bind, readReals_none h0]
    rfl

/-! ## The hypotheses can be met -/

/-- A grid, a point in its interior and its upper corner. -/
example : GridRpz.Ok ⟨⟨4, 8, 5, -2, 2, 3⟩, 0, 120, 6⟩ ∧ At 5 4 8 5.25 1 0.25 ∧ At 5 4 8 8 3 1 ∧ AtPeriodic 6 (rad 0) (rad 120) (rad 130) 0 0.5 ∧
    Outside ⟨4, 8, 5, -2, 2, 3⟩ 9 0 := by
  refine ⟨⟨⟨by decide, by decide, by norm_num, by norm_num⟩, by decide, by norm_num⟩, ⟨by decide, by norm_num, by norm_num, by norm_num, by norm_num⟩,
    ⟨by decide, by norm_num, by norm_num, by norm_num, by norm_num⟩, ⟨by decide, by norm_num, by norm_num, 1, ?_⟩, .inl (.inr (by norm_num))⟩
  unfold rad; push_cast; ring

/-- An axisymmetric field that is read: the toroidal field is one everywhere and the axis is at a grid point. -/
example (junk : ℕ → ℝ) : ∃ w data, write2D (args2 ⟨4, 8, 3, -2, 2, 3⟩ 6 0 0 1 (fun i _ => i) (fun _ _ => 0) (fun _ _ => 1) fun _ _ => 0) = .done w ∧
    readBfield junk (only "B_2DS" w) = .ok data ∧ evalPsi data 6 0 0 = some (1, 0) := by
  obtain ⟨w, data, hw, hl, -, -, -, hv⟩ := axisymmetric ⟨4, 8, 3, -2, 2, 3⟩ ⟨by decide, by decide, by norm_num, by norm_num⟩ 6 0 0 1 (fun i _ => i)
    (fun _ _ => 0) (fun _ _ => 1) (fun _ _ => 0) junk
  obtain ⟨p, a, b, c, vp, va, vb, vc, hp, -, hB⟩ := hv 6 0 0 1 1 0 0 ⟨by decide, by norm_num, by norm_num, by norm_num, by norm_num⟩
    ⟨by decide, by norm_num, by norm_num, by norm_num, by norm_num⟩
  refine ⟨w, data, hw, hl.2 ?_, ?_⟩
  · rintro ⟨v, e, h, h0⟩
    rw [values2_grid (by decide) (by decide) vb] at hB
    have := ((hB (by norm_num)).2 fun h => by simpa [withFlux] using congrArg V3.y h).1
    rw [this] at h
    simp only [Option.some.injEq, Prod.mk.injEq] at h
    exact h0 h.2.symm
  · rw [hp, values2_grid (by decide) (by decide) vp]; simp

end Ascot.C138
