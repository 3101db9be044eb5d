import Verif.Model.Coord
import Verif.Model.Physlib

/-!
# Guiding-center equations of motion (`src/simulate/step/step_gceom.h`, `step_gceom_mhd.h`)

A marker is the array of six numbers `r, phi, z, ppar, mu, zeta`.  The magnetic field and its derivatives along the
cylindrical coordinates are a `Jac`.  `none` stands for a division by zero or a square root of a negative number, after
which the results are not numbers.
-/
namespace Ascot.Gceom
open Ascot.Coord Ascot.Physlib

/-- The array `B`, src/simulate/step/step_gceom.h:31-34. -/
def field (j : Jac) : V3 ℝ := ⟨j.a.v, j.b.v, j.c.v⟩

/-- `normB`, src/simulate/step/step_gceom.h:36. -/
noncomputable def normB (j : Jac) : ℝ := Real.sqrt (V3.dot (field j) (field j))

/-- `gradB`, src/simulate/step/step_gceom.h:39-43. -/
noncomputable def gradB (j : Jac) (r : ℝ) : V3 ℝ :=
  ⟨(j.a.v * j.a.d1 + j.b.v * j.b.d1 + j.c.v * j.c.d1) / normB j,
   (j.a.v * j.a.d2 + j.b.v * j.b.d2 + j.c.v * j.c.d2) / (normB j * r),
   (j.a.v * j.a.d3 + j.b.v * j.b.d3 + j.c.v * j.c.d3) / normB j⟩

/-- `curlB`, src/simulate/step/step_gceom.h:48-51. -/
noncomputable def curlB (j : Jac) (r : ℝ) : V3 ℝ :=
  ⟨j.c.d2 / r - j.b.d3, j.a.d3 - j.c.d1, (j.b.v - j.a.d2) / r + j.b.d1⟩

/-- `Bstar`, src/simulate/step/step_gceom.h:45-59. -/
noncomputable def bstar (charge : ℝ) (j : Jac) (r ppar : ℝ) : V3 ℝ :=
  let g := V3.cross (gradB j r) (field j)
  let n := normB j
  ⟨j.a.v + ppar / charge * ((curlB j r).x / n - g.x / (n * n)),
   j.b.v + ppar / charge * ((curlB j r).y / n - g.y / (n * n)),
   j.c.v + ppar / charge * ((curlB j r).z / n - g.z / (n * n))⟩

/-- `Estar`, src/simulate/step/step_gceom.h:61-64. -/
noncomputable def estar (charge gamma mu : ℝ) (j : Jac) (r : ℝ) (E : V3 ℝ) : V3 ℝ :=
  ⟨E.x - mu * (gradB j r).x / (charge * gamma), E.y - mu * (gradB j r).y / (charge * gamma),
   E.z - mu * (gradB j r).z / (charge * gamma)⟩

/-- `Bhat`, src/simulate/step/step_gceom.h:66-69. -/
noncomputable def bhat (j : Jac) : V3 ℝ := ⟨j.a.v / normB j, j.b.v / normB j, j.c.v / normB j⟩

/-- The time derivatives from `Bstar` and `Estar`, src/simulate/step/step_gceom.h:66-89 and
src/simulate/step/step_gceom_mhd.h:83-106.  `ald` is the flag `aldforce` as a number. -/
noncomputable def motion (c k mass charge : ℝ) (y : Fin 6 → ℝ) (j : Jac) (gamma : ℝ) (Bs Es : V3 ℝ) (ald : ℝ) : Fin 6 → ℝ :=
  let b := bhat j
  let d := V3.dot b Bs
  let x := V3.cross Es b
  let t := aldChartime c k charge mass (normB j) gamma * ald
  let C := 2 * y 4 * normB j / (mass * (c * c))
  ![(y 3 * Bs.x / (gamma * mass) + x.x) / d,
    (y 3 * Bs.y / (gamma * mass) + x.y) / (y 0 * d),
    (y 3 * Bs.z / (gamma * mass) + x.z) / d,
    charge * V3.dot Bs Es / d + -t * y 3 * C,
    0 + -2 * t * y 4 * (1 + C),
    charge * normB j / (gamma * mass)]

/-- Lorentz factor, src/simulate/step/step_gceom.h:37. -/
noncomputable def gamma (c mass : ℝ) (y : Fin 6 → ℝ) (j : Jac) : ℝ := gammaPpar c mass (y 4) (y 3) (normB j)

/-- `step_gceom`, src/simulate/step/step_gceom.h:27-90. -/
noncomputable def gceom (c k mass charge : ℝ) (y : Fin 6 → ℝ) (j : Jac) (E : V3 ℝ) (ald : ℝ) : Option (Fin 6 → ℝ) :=
  let g := gamma c mass y j
  let Bs := bstar charge j (y 0) (y 3)
  if mass = 0 ∨ charge = 0 ∨ y 0 = 0 ∨ normB j = 0 ∨ g = 0 ∨ V3.dot (bhat j) Bs = 0 then none
  else some (motion c k mass charge y j g Bs (estar charge g (y 4) j (y 0) E) ald)

/-- The ten numbers `mhd_dmhd` (src/mhd.c:68-77). -/
structure Mhd where
  alpha : ℝ
  dalpha : ℝ
  gradAlpha : V3 ℝ
  phi : ℝ
  dphi : ℝ
  gradPhi : V3 ℝ

/-- `Bstar` with modes, src/simulate/step/step_gceom_mhd.h:55-73.  The second component is computed with
`gradBcrossB[0]`, as in the code. -/
noncomputable def bstarMhd (charge : ℝ) (j : Jac) (m : Mhd) (r ppar : ℝ) : V3 ℝ :=
  let g := V3.cross (gradB j r) (field j)
  let a := V3.cross m.gradAlpha (field j)
  let n := normB j
  ⟨j.a.v + a.x + m.alpha * (curlB j r).x + ppar / charge * ((curlB j r).x / n - g.x / (n * n)),
   j.b.v + a.y + m.alpha * (curlB j r).y + ppar / charge * ((curlB j r).y / n - g.x / (n * n)),
   j.c.v + a.z + m.alpha * (curlB j r).z + ppar / charge * ((curlB j r).z / n - g.z / (n * n))⟩

/-- `Estar` with modes, src/simulate/step/step_gceom_mhd.h:75-81. -/
noncomputable def estarMhd (charge gamma mu : ℝ) (j : Jac) (m : Mhd) (r : ℝ) (E : V3 ℝ) : V3 ℝ :=
  ⟨E.x - m.gradPhi.x - mu * (gradB j r).x / (charge * gamma) - j.a.v * m.dalpha,
   E.y - m.gradPhi.y - mu * (gradB j r).y / (charge * gamma) - j.b.v * m.dalpha,
   E.z - m.gradPhi.z - mu * (gradB j r).z / (charge * gamma) - j.c.v * m.dalpha⟩

/-- `step_gceom_mhd`, src/simulate/step/step_gceom_mhd.h:28-107. -/
noncomputable def gceomMhd (c k mass charge : ℝ) (y : Fin 6 → ℝ) (j : Jac) (E : V3 ℝ) (m : Mhd) (ald : ℝ) : Option (Fin 6 → ℝ) :=
  let g := gamma c mass y j
  let Bs := bstarMhd charge j m (y 0) (y 3)
  if mass = 0 ∨ charge = 0 ∨ y 0 = 0 ∨ normB j = 0 ∨ g = 0 ∨ V3.dot (bhat j) Bs = 0 then none
  else some (motion c k mass charge y j g Bs (estarMhd charge g (y 4) j m (y 0) E) ald)

end Ascot.Gceom
