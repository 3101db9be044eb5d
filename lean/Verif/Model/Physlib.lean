import Mathlib.Analysis.Real.Sqrt
import Verif.Model.Vec3

/-!
# Elementary physical quantities (`src/physlib.h`)

`c` is `CONST_C`; `CONST_C2` is taken to be its square (src/consts.h:26-29 has the square rounded to a double).
-/
namespace Ascot.Physlib

/-- `physlib_gamma_vnorm`, src/physlib.h:21-22. -/
noncomputable def gammaVnorm (c v : ℝ) : ℝ := Real.sqrt (1 / ((1 - v / c) * (1 + v / c)))

/-- `physlib_vnorm_gamma`, src/physlib.h:33-34. -/
noncomputable def vnormGamma (c gamma : ℝ) : ℝ := Real.sqrt (1 - 1 / (gamma * gamma)) * c

/-- `physlib_gamma_pnorm`, src/physlib.h:46-47. -/
noncomputable def gammaPnorm (c m p : ℝ) : ℝ := Real.sqrt (1 + p * p / (m * m * (c * c)))

/-- `physlib_gamma_vpar`, src/physlib.h:61-63. -/
noncomputable def gammaVpar (c m mu vpar B : ℝ) : ℝ :=
  Real.sqrt ((1 + 2 * mu * B / (m * (c * c))) / ((1 - vpar / c) * (1 + vpar / c)))

/-- `physlib_gamma_ppar`, src/physlib.h:77-79. -/
noncomputable def gammaPpar (c m mu ppar B : ℝ) : ℝ :=
  Real.sqrt (1 + 2 * mu * B / (m * (c * c)) + ppar * ppar / (m * m * (c * c)))

/-- `physlib_Ekin_gamma`, src/physlib.h:91. -/
noncomputable def ekinGamma (c m gamma : ℝ) : ℝ := (gamma - 1) * m * (c * c)

/-- `physlib_gamma_Ekin`, src/physlib.h:103. -/
noncomputable def gammaEkin (c m ekin : ℝ) : ℝ := ekin / (m * (c * c)) + 1

/-- `physlib_Ekin_pnorm`, src/physlib.h:115-116. -/
noncomputable def ekinPnorm (c m p : ℝ) : ℝ := (gammaPnorm c m p - 1) * m * (c * c)

/-- `physlib_Ekin_ppar`, src/physlib.h:128-129. -/
noncomputable def ekinPpar (c m mu ppar B : ℝ) : ℝ := (gammaPpar c m mu ppar B - 1) * m * (c * c)

/-- `physlib_vnorm_pnorm`, src/physlib.h:141-142. -/
noncomputable def vnormPnorm (c m p : ℝ) : ℝ := p / Real.sqrt (m * m + p * p / (c * c))

/-- `physlib_pnorm_vnorm`, src/physlib.h:154. -/
noncomputable def pnormVnorm (c m v : ℝ) : ℝ := m * v * gammaVnorm c v

/-- `physlib_gc_ppar`, src/physlib.h:167. -/
noncomputable def gcPpar (p xi : ℝ) : ℝ := p * xi

/-- `physlib_gc_mu`, src/physlib.h:182-183. -/
noncomputable def gcMu (m p xi B : ℝ) : ℝ := p * p * (1 - xi * xi) / (2 * B * m)

/-- `physlib_gc_p`, src/physlib.h:198-199. -/
noncomputable def gcP (c m mu ppar B : ℝ) : ℝ := m * c * Real.sqrt (gammaPpar c m mu ppar B ^ 2 - 1)

/-- `physlib_gc_xi`, src/physlib.h:214-215. -/
noncomputable def gcXi (c m mu ppar B : ℝ) : ℝ := ppar / gcP c m mu ppar B

/-- `physlib_gyrolength_p`, src/physlib.h:228-229. -/
noncomputable def gyrolengthP (q : ℝ) (p B : V3 ℝ) : ℝ := V3.dot p B / (|q| * V3.dot B B)

/-- `phys_gyrolength_ppar`, src/physlib.h:245-247. -/
noncomputable def gyrolengthPpar (c m q mu ppar B : ℝ) : ℝ := Real.sqrt (2 * m * mu * gammaPpar c m mu ppar B / B) / |q|

/-- `phys_gyrofreq_pnorm`, src/physlib.h:261-262. -/
noncomputable def gyrofreqPnorm (c m q p B : ℝ) : ℝ := |q| * B / (m * gammaPnorm c m p)

/-- `phys_gyrofreq_ppar`, src/physlib.h:278-279. -/
noncomputable def gyrofreqPpar (c m q mu ppar B : ℝ) : ℝ := |q| * B / (m * gammaPpar c m mu ppar B)

/-- `phys_ptoroid_fo`, src/physlib.h:295-296. -/
noncomputable def ptoroidFo (q R pphi psi : ℝ) : ℝ := R * pphi + q * psi

/-- `phys_ptoroid_gc`, src/physlib.h:314-315. -/
noncomputable def ptoroidGc (q R ppar psi B Bphi : ℝ) : ℝ := ppar * R * (Bphi / B) + q * psi

/-- `phys_pperp_gc`, src/physlib.h:343; `phys_vperp_gc`, src/physlib.h:329, is the same for velocities. -/
noncomputable def pperpGc (p ppar : ℝ) : ℝ := Real.sqrt (p ^ 2 - ppar ^ 2)

/-- `phys_ppar_Ekin`, src/physlib.h:360-361. -/
noncomputable def pparEkin (c m ekin mu B : ℝ) : ℝ :=
  Real.sqrt ((gammaEkin c m ekin * gammaEkin c m ekin - 1) * m * m * (c * c) - 2 * m * mu * B)

/-- `phys_vperp_mu`, src/physlib.h:376. -/
noncomputable def vperpMu (m mu B : ℝ) : ℝ := Real.sqrt (2 * mu * B / m)

/-- `phys_ppar_mu`, src/physlib.h:396-397. -/
noncomputable def pparMu (c m mu B q gyrof : ℝ) : ℝ :=
  m * c * Real.sqrt (q * B / (gyrof * m) * (q * B / (gyrof * m)) - 2 * mu * B / (m * (c * c)) - 1)

/-- `phys_ppar_pphi`, src/physlib.h:417. -/
noncomputable def pparPphi (B R Bphi pphi q psi : ℝ) : ℝ := B / (R * Bphi) * (pphi - q * psi)

/-- `phys_ald_force_chartime`, src/physlib.h:426-427; `k` is `6 pi e0`, `CONST_C3` the cube of `c`. -/
noncomputable def aldChartime (c k q m B gamma : ℝ) : ℝ := q * q * q * q * (B * B) / (k * gamma * (m * m * m) * (c * c * c))

end Ascot.Physlib
