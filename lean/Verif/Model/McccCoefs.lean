import Mathlib.Analysis.SpecialFunctions.Log.Basic
import Mathlib.MeasureTheory.Integral.IntervalIntegral.Basic
import Mathlib.Analysis.Real.Pi.Bounds

/-!
# Coefficients of the Coulomb collision operator (`src/simulate/mccc/mccc_coefs.h`)

The C type `real` is modelled by the real numbers; `exp`, `log`, `sqrt` and `erf` are the exact real functions.
`e0` is `CONST_E0`, `hbar` is `CONST_HBAR`, `CONST_PI` is π and `CONST_SQRTPI` the square root of π.
-/
namespace Ascot.Mccc

/-- `erf` of the C library. -/
noncomputable def erf (x : ℝ) : ℝ := 2 / Real.sqrt Real.pi * ∫ t in (0 : ℝ)..x, Real.exp (-t ^ 2)

/-- `mccc_coefs_cab`, src/simulate/mccc/mccc_coefs.h:25-26. -/
noncomputable def cab (e0 qa qb nb clog : ℝ) : ℝ := nb * qa * qa * qb * qb * clog / (4 * Real.pi * e0 * e0)

/-- `mccc_coefs_Q`, src/simulate/mccc/mccc_coefs.h:43-44. -/
noncomputable def coefQ (e0 ma qa mb qb nb vb clog mu0 : ℝ) : ℝ := -cab e0 qa qb nb clog * mu0 / (ma * mb * vb * vb)

/-- `mccc_coefs_dQ`, src/simulate/mccc/mccc_coefs.h:61-62. -/
noncomputable def coefdQ (e0 ma qa mb qb nb vb clog dmu0 : ℝ) : ℝ :=
  -cab e0 qa qb nb clog * dmu0 / (ma * mb * vb * vb * vb)

/-- `mccc_coefs_F`, src/simulate/mccc/mccc_coefs.h:80-82. -/
noncomputable def coefF (e0 ma qa mb qb nb vb clog mu0 : ℝ) : ℝ :=
  -(1 / mb + 1 / ma) * cab e0 qa qb nb clog * mu0 / (ma * vb * vb)

/-- `mccc_coefs_Dpara`, src/simulate/mccc/mccc_coefs.h:103-107. -/
noncomputable def coefDpara (e0 ma qa va qb nb vb clog mu0 : ℝ) : ℝ :=
  if va > 0 then cab e0 qa qb nb clog * mu0 / (2 * ma * ma * va)
  else cab e0 qa qb nb clog * 4 / (6 * Real.sqrt Real.pi * ma * ma * vb)

/-- `mccc_coefs_dDpara`, src/simulate/mccc/mccc_coefs.h:126-128. -/
noncomputable def coefdDpara (e0 ma qa va qb nb vb clog mu0 dmu0 : ℝ) : ℝ :=
  cab e0 qa qb nb clog * (dmu0 / vb - mu0 / va) / (2 * ma * ma * va)

/-- `mccc_coefs_Dperp`, src/simulate/mccc/mccc_coefs.h:150-154. -/
noncomputable def coefDperp (e0 ma qa va qb nb vb clog mu1 : ℝ) : ℝ :=
  if va > 0 then cab e0 qa qb nb clog * mu1 / (2 * ma * ma * va)
  else cab e0 qa qb nb clog * 4 / (6 * Real.sqrt Real.pi * ma * ma * vb)

/-- `mccc_coefs_K`, src/simulate/mccc/mccc_coefs.h:167-168. -/
noncomputable def coefK (va dpara ddpara q : ℝ) : ℝ := q + ddpara + 2 * dpara / va

/-- `mccc_coefs_nu`, src/simulate/mccc/mccc_coefs.h:180-181. -/
noncomputable def coefNu (va dperp : ℝ) : ℝ := 2 * dperp / (va * va)

/-- `mccc_coefs_DX`, src/simulate/mccc/mccc_coefs.h:195-197. -/
noncomputable def coefDX (xi dpara dperp gyrofreq : ℝ) : ℝ :=
  (0.5 * (dpara - dperp) * (1 - xi * xi) + dperp) / (gyrofreq * gyrofreq)

/-- A plasma species where the marker is: mass, charge, density and temperature. -/
structure Species where
  m : ℝ
  q : ℝ
  n : ℝ
  T : ℝ

/-- Debye length, src/simulate/mccc/mccc_coefs.h:233-238. -/
noncomputable def debye (e0 : ℝ) (sp : List Species) : ℝ :=
  Real.sqrt (e0 / sp.foldl (fun sum b => sum + b.n * b.q * b.q / b.T) 0)

/-- `vbar`, src/simulate/mccc/mccc_coefs.h:244. -/
noncomputable def vbar (va : ℝ) (b : Species) : ℝ := va * va + 2 * b.T / b.m

/-- `mr`, src/simulate/mccc/mccc_coefs.h:245. -/
noncomputable def mred (ma : ℝ) (b : Species) : ℝ := ma * b.m / (ma + b.m)

/-- `bcl`, src/simulate/mccc/mccc_coefs.h:246. -/
noncomputable def bcl (e0 ma qa va : ℝ) (b : Species) : ℝ := |qa * b.q / (4 * Real.pi * e0 * mred ma b * vbar va b)|

/-- `bqm`, src/simulate/mccc/mccc_coefs.h:247. -/
noncomputable def bqm (hbar ma va : ℝ) (b : Species) : ℝ := |hbar / (2 * mred ma b * Real.sqrt (vbar va b))|

/-- Coulomb logarithm for one species, src/simulate/mccc/mccc_coefs.h:242-255. -/
noncomputable def clog (e0 hbar ma qa va : ℝ) (sp : List Species) (b : Species) : ℝ :=
  if bcl e0 ma qa va b > bqm hbar ma va b then Real.log (debye e0 sp / bcl e0 ma qa va b)
  else Real.log (debye e0 sp / bqm hbar ma va b)

/-- `mufun[0]` of the branch without tables, src/simulate/mccc/mccc_coefs.h:281. -/
noncomputable def mu0 (x : ℝ) : ℝ := (erf x - 2 * x * Real.exp (-x * x) / Real.sqrt Real.pi) / (x * x)

/-- `mufun[1]`, src/simulate/mccc/mccc_coefs.h:282. -/
noncomputable def mu1 (x : ℝ) : ℝ := erf x - 0.5 * mu0 x

/-- `mufun[2]`, src/simulate/mccc/mccc_coefs.h:283. -/
noncomputable def dmu0 (x : ℝ) : ℝ := 4 * Real.exp (-x * x) / Real.sqrt Real.pi - 2 * mu0 x / x

open Classical in
/-- `mccc_coefs_mufun`, src/simulate/mccc/mccc_coefs.h:275-294.  `none`: nothing is written and the caller reads an
uninitialised array. -/
noncomputable def mufun (tab : Bool) (x : ℝ) : Option (ℝ × ℝ × ℝ) :=
  if tab = false ∧ x ≠ 0 then some (mu0 x, mu1 x, dmu0 x)
  else if tab = true ∧ x ≠ 0 then none
  else some (0, 0, 4 / (3 * Real.sqrt Real.pi))

/-- Thermal velocity, src/simulate/mccc/mccc_gc_euler.c:85. -/
noncomputable def thermal (b : Species) : ℝ := Real.sqrt (2 * b.T / b.m)

end Ascot.Mccc
