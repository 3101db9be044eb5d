import Mathlib.Analysis.SpecialFunctions.Trigonometric.Basic
import Mathlib.Analysis.SpecialFunctions.Log.Basic
import Mathlib.Analysis.SpecialFunctions.Pow.Real

/-!
# Analytical inputs (`a5py/templates/analyticalinputs.py`)

Tables are functions of the index.  Units are left out: energies are in eV, masses, speeds and temperatures in units that agree.
-/
namespace Ascot.AnalyticInputs

/-! ## Field ripple of rectangular coils -/

/-- The factor of `dbr` and `dbphi`, a5py/templates/analyticalinputs.py:105-106. -/
noncomputable def amp (b0 r0 rcoil : ℝ) (ncoil : ℕ) (R : ℝ) : ℝ := b0 * r0 / R * (R / rcoil) ^ ncoil

/-- `dbr`, a5py/templates/analyticalinputs.py:105. -/
noncomputable def dbr (b0 r0 rcoil : ℝ) (ncoil : ℕ) (R P : ℝ) : ℝ := amp b0 r0 rcoil ncoil R * Real.sin (ncoil * P)

/-- `dbphi`, a5py/templates/analyticalinputs.py:106. -/
noncomputable def dbphi (b0 r0 rcoil : ℝ) (ncoil : ℕ) (R P : ℝ) : ℝ := amp b0 r0 rcoil ncoil R * Real.cos (ncoil * P)

/-- `phi`, a5py/templates/analyticalinputs.py:100: `nphi + 1` points from 0 to `2 * pi / nperiod` without the last one. -/
noncomputable def phiGrid (nperiod nphi k : ℕ) : ℝ := k * (2 * Real.pi / nperiod / nphi)

/-- `b_phimax`, a5py/templates/analyticalinputs.py:128, in degrees; `b_phimin` is zero (line 127). -/
noncomputable def phimax (nperiod : ℕ) : ℝ := 360 / nperiod

/-- `out['br']` and `out['bphi']` at a point of the grid, a5py/templates/analyticalinputs.py:110-116, for the components `br` and
`bphi` of the two-dimensional field at that `R` and `z`; `bz` is left as it is. -/
noncomputable def outBr (b0 r0 rcoil : ℝ) (ncoil nperiod nphi : ℕ) (br R : ℝ) (k : ℕ) : ℝ :=
  br + dbr b0 r0 rcoil ncoil R (phiGrid nperiod nphi k)

@[inherit_doc outBr]
noncomputable def outBphi (b0 r0 rcoil : ℝ) (ncoil nperiod nphi : ℕ) (bphi R : ℝ) (k : ℕ) : ℝ :=
  bphi + dbphi b0 r0 rcoil ncoil R (phiGrid nperiod nphi k)

/-! ## Uniform plasma and neutrals -/

/-- `rho` of the plasma, a5py/templates/analyticalinputs.py:166-167: `linspace(0, 10, 100)`. -/
noncomputable def rho (i : ℕ) : ℝ := i * (10 / 99)

open Classical in
/-- `edens` and `idens`, a5py/templates/analyticalinputs.py:170-175. -/
noncomputable def dens (density : ℝ) (i : ℕ) : ℝ := if rho i > 1 then 1 else density

/-- `etemp` and `itemp`, a5py/templates/analyticalinputs.py:171 and 173. -/
def temp (temperature : ℝ) (_ : ℕ) : ℝ := temperature

/-- `density` and `temperature` of the neutrals, a5py/templates/analyticalinputs.py:187-188, on 100 points from 0 to 10. -/
noncomputable def neutral (v : ℝ) : List ℝ := List.replicate 100 v

/-! ## Rectangular wall -/

/-- `np.linspace(a, b, 6)[1:]`. -/
noncomputable def side (a b : ℝ) : List ℝ := (List.range 5).map fun (k : ℕ) => a + (k + 1) * ((b - a) / 5)

/-- `r` of the wall, a5py/templates/analyticalinputs.py:215-218. -/
noncomputable def wallR : List ℝ := side 4.1 8.4 ++ side 8.4 8.4 ++ side 8.4 4.1 ++ side 4.1 4.1

/-- `z` of the wall, a5py/templates/analyticalinputs.py:219-222. -/
noncomputable def wallZ : List ℝ := side (-3.9) (-3.9) ++ side (-3.9) 3.9 ++ side 3.9 3.9 ++ side 3.9 (-3.9)

/-! ## Charge exchange of hydrogen -/

/-- a5py/templates/analyticalinputs.py:251-252. -/
noncomputable def Emin : ℝ := 1.2e-1
@[inherit_doc Emin]
noncomputable def Emax : ℝ := 6.3e5

/-- The check of the range of energies, a5py/templates/analyticalinputs.py:253-255; `false` is an exception. -/
noncomputable def checked (a1 emin emax : ℝ) : Prop := ¬ (emin / a1 < Emin ∨ emax / a1 > Emax)

/-- `X`, a5py/templates/analyticalinputs.py:262-263. -/
noncomputable def abscissa (e : ℝ) : ℝ :=
  (2 * Real.log e - Real.log Emin - Real.log Emax) / (Real.log Emax - Real.log Emin)

/-- `np.sum(T)`, a5py/templates/analyticalinputs.py:264-273. -/
noncomputable def series (X : ℝ) : ℝ :=
  -5.49142 * X +
  -3.42948 * (2 * X ^ 2 - 1) +
  -1.98377 * (4 * X ^ 3 - 3 * X) +
  -0.878009 * (8 * X ^ 4 - 8 * X ^ 2 + 1) +
  -0.198932 * (16 * X ^ 5 - 20 * X ^ 3 + 5 * X) +
  0.0837431 * (32 * X ^ 6 - 48 * X ^ 4 + 18 * X ^ 2 - 1) +
  0.121252 * (64 * X ^ 7 - 112 * X ^ 5 + 56 * X ^ 3 - 7 * X) +
  0.0827182 * (128 * X ^ 8 - 256 * X ^ 6 + 160 * X ^ 4 - 32 * X ^ 2 + 1)

open Classical in
/-- `sigma`, a5py/templates/analyticalinputs.py:258-275. -/
noncomputable def sigma (e : ℝ) : ℝ :=
  if e < Emin ∨ e > Emax then 0 else 1e-4 * Real.exp (-72.6656 / 2 + series (abscissa e))

/-- `integrand` for the speed `v1` of the particle, a5py/templates/analyticalinputs.py:277-301.  `k` converts the kinetic energy to
eV.  The early return for a vanishing cross section (lines 287-288) gives the same value. -/
noncomputable def integrand (k m1 a1 m2 v1 T u : ℝ) : ℝ :=
  let s := sigma (k * (0.5 * m1 * u ^ 2 / a1))
  let e1 := -m2 * v1 ^ 2 / (2 * T)
  let e2 := -m2 * u ^ 2 / (2 * T)
  let x := m2 * u * v1 / T
  let val := s * u ^ 2 * Real.sqrt (m2 / (2 * Real.pi * T)) / v1
  open Classical in if x ≥ 10 then Real.exp (x + e1 + e2) * val else 2 * Real.sinh x * Real.exp (e1 + e2) * val

/-- The position in `sigmav` of the rate for the given energy and temperature, a5py/templates/analyticalinputs.py:309-313. -/
def position (nekin iekin itemp : ℕ) : ℕ := itemp * nekin + iekin

end Ascot.AnalyticInputs
