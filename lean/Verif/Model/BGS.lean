import Mathlib.Analysis.SpecialFunctions.Pow.Real
import Mathlib.Analysis.SpecialFunctions.Complex.Arg
import Verif.Model.Coord
import Verif.Model.Error

/-!
# The analytic tokamak field (`src/Bfield/B_GS.c`)

`none` means that a result is infinite or not a number.  The arguments are R, phi, z; no function depends on time.
-/
namespace Ascot.BGS
open Ascot.Coord

/-- `B_GS_data`, src/Bfield/B_GS.h:14-30. -/
structure Data where
  R0 : ℝ
  z0 : ℝ
  raxis : ℝ
  zaxis : ℝ
  Bphi0 : ℝ
  psi0 : ℝ
  psi1 : ℝ
  mult : ℝ
  C : Fin 14 → ℝ
  Nripple : Int
  a0 : ℝ
  alpha0 : ℝ
  delta0 : ℝ

/-- The sum in `B_GS_eval_psi`, src/Bfield/B_GS.c:197-211; `r` and `z` are the normalised coordinates, `L` is `log(r)`. -/
noncomputable def psiSum (C : Fin 14 → ℝ) (r z L : ℝ) : ℝ :=
  let r2 := r * r
  let r3 := r2 * r
  let r4 := r3 * r
  let r5 := r4 * r
  let r6 := r5 * r
  let z2 := z * z
  let z3 := z2 * z
  let z4 := z3 * z
  let z5 := z4 * z
  let z6 := z5 * z
  (1 - C 12) * (r4 / 8)
    + C 12 * (r2 * L / 2)
    + C 0 * 1
    + C 1 * r2
    + C 2 * (r2 * L - z2)
    + C 3 * (r4 - 4 * r2 * z2)
    + C 4 * (3 * r4 * L - 9 * r2 * z2 - 12 * r2 * L * z2 + 2 * z4)
    + C 5 * (r6 - 12 * r4 * z2 + 8 * r2 * z4)
    + C 6 * (8 * z6 - 140 * r2 * z4 - 120 * r2 * L * z4 + 180 * r4 * L * z2 + 75 * r4 * z2 - 15 * r6 * L)
    + C 7 * z
    + C 8 * (z * r2)
    + C 9 * (z3 - 3 * z * r2 * L)
    + C 10 * (3 * z * r4 - 4 * z3 * r2)
    + C 11 * (8 * z5 - 45 * z * r4 - 80 * z3 * r2 * L + 60 * z * r4 * L)

/-- The sum that appears in `B_GS_eval_psi_dpsi` for the R derivative and in `B_GS_eval_B` for the z component,
src/Bfield/B_GS.c:252-264 and 365-377. -/
noncomputable def sumR (C : Fin 14 → ℝ) (r z L : ℝ) : ℝ :=
  let r2 := r * r
  let r3 := r2 * r
  let r4 := r3 * r
  let r5 := r4 * r
  let z2 := z * z
  let z3 := z2 * z
  let z4 := z3 * z
  (1 - C 12) * (r3 / 2)
    + C 12 * (r / 2 + r * L)
    + C 1 * (2 * r)
    + C 2 * (2 * r * L + r)
    + C 3 * (4 * r3 - 8 * r * z2)
    + C 4 * (12 * r3 * L + 3 * r3 - 30 * r * z2 - 24 * r * L * z2)
    + C 5 * (6 * r5 - 48 * r3 * z2 + 16 * r * z4)
    + C 6 * (-400 * r * z4 - 240 * r * L * z4 + 720 * r3 * L * z2 + 480 * r3 * z2 - 90 * r5 * L - 15 * r5)
    + C 8 * (2 * z * r)
    + C 9 * (-6 * z * r * L - 3 * z * r)
    + C 10 * (12 * z * r3 - 8 * z3 * r)
    + C 11 * (-120 * z * r3 - 160 * z3 * r * L - 80 * z3 * r + 240 * z * r3 * L)

/-- The sum that appears in `B_GS_eval_psi_dpsi` for the z derivative and in `B_GS_eval_B` for the R component,
src/Bfield/B_GS.c:270-280 and 349-358. -/
noncomputable def sumZ (C : Fin 14 → ℝ) (r z L : ℝ) : ℝ :=
  let r2 := r * r
  let r3 := r2 * r
  let r4 := r3 * r
  let z2 := z * z
  let z3 := z2 * z
  let z4 := z3 * z
  let z5 := z4 * z
  C 2 * (-2 * z)
    + C 3 * (-8 * r2 * z)
    + C 4 * (-18 * r2 * z - 24 * r2 * L * z + 8 * z3)
    + C 5 * (-24 * r4 * z + 32 * r2 * z3)
    + C 6 * (48 * z5 - 560 * r2 * z3 - 480 * r2 * L * z3 + 360 * r4 * L * z + 150 * r4 * z)
    + C 7 * 1
    + C 8 * r2
    + C 9 * (3 * z2 - 3 * r2 * L)
    + C 10 * (3 * r4 - 12 * z2 * r2)
    + C 11 * (40 * z4 - 45 * r4 - 240 * z2 * r2 * L + 60 * r4 * L)

/-- The logarithm of the normalised radius is finite. -/
def Valid (d : Data) (r : ℝ) : Prop := d.R0 ≠ 0 ∧ 0 < r / d.R0

open Classical in
/-- `B_GS_eval_psi`, src/Bfield/B_GS.c:174-214. -/
noncomputable def evalPsi (d : Data) (r z : ℝ) : Option ℝ :=
  if Valid d r then some (d.mult * psiSum d.C (r / d.R0) ((z - d.z0) / d.R0) (Real.log (r / d.R0))) else none

open Classical in
/-- `B_GS_eval_psi_dpsi`, src/Bfield/B_GS.c:227-283. -/
noncomputable def evalPsiDpsi (d : Data) (r z : ℝ) : Option Grad :=
  if Valid d r then
    let r' := r / d.R0
    let z' := (z - d.z0) / d.R0
    let L := Real.log r'
    some ⟨d.mult * psiSum d.C r' z' L, d.mult / (r' * d.R0) * sumR d.C r' z' L, 0, d.mult / (r' * d.R0) * sumZ d.C r' z' L⟩
  else none

/-- Size of the ripple relative to the field, src/Bfield/B_GS.c:384-388 and 506-510.  `z` is the coordinate relative to `z0`,
from which `z0` is subtracted again.  `none`: the power is infinite or not a number. -/
noncomputable def ripple (d : Data) (r z : ℝ) : Option ℝ :=
  let radius := Real.sqrt ((r - d.R0) * (r - d.R0) + (z - d.z0) * (z - d.z0))
  let theta := atan2 (z - d.z0) (r - d.R0)
  if d.a0 ≠ 0 ∧ (0 < radius / d.a0 ∨ (radius = 0 ∧ 0 ≤ d.alpha0)) then
    some (d.delta0 * Real.exp (-0.5 * theta * theta) * (radius / d.a0) ^ d.alpha0)
  else none

open Classical in
/-- `B_GS_eval_B`, src/Bfield/B_GS.c:327-393. -/
noncomputable def evalB (d : Data) (r phi z : ℝ) : Option (V3 ℝ) :=
  if Valid d r then
    let r' := r / d.R0
    let z' := (z - d.z0) / d.R0
    let L := Real.log r'
    let B0 := sumZ d.C r' z' L * (-d.mult / (r' * d.R0 * d.R0))
    let B1 := d.Bphi0 / r'
    let B2 := sumR d.C r' z' L * (d.mult / (r' * d.R0 * d.R0))
    if d.Nripple > 0 then
      match ripple d (r' * d.R0) (z' * d.R0) with
      | none => none
      | some delta => some ⟨B0, B1 * (1 + delta * Real.cos (d.Nripple * phi)), B2⟩
    else some ⟨B0, B1, B2⟩
  else none

/-- The part of `B_GS_eval_B_dB` without ripple, src/Bfield/B_GS.c:411-502; `z` is relative to `z0`. -/
noncomputable def smoothJac (d : Data) (r z : ℝ) : Jac :=
  let C := d.C
  let R0 := d.R0
  let r2 := r * r
  let r3 := r2 * r
  let r4 := r3 * r
  let r5 := r4 * r
  let z2 := z * z
  let z3 := z2 * z
  let z4 := z3 * z
  let z5 := z4 * z
  let L := Real.log (r / R0)
  let R02 := R0 * R0
  let R03 := R02 * R0
  let R04 := R03 * R0
  let R05 := R04 * R0
  let R06 := R05 * R0
  let B0 := (C 2 * (-2 * z) / R02
    + C 3 * (-8 * r2 * z) / R04
    + C 4 * (-18 * r2 * z - 24 * r2 * L * z + 8 * z3) / R04
    + C 5 * (-24 * r4 * z + 32 * r2 * z3) / R06
    + C 6 * (48 * z5 - 560 * r2 * z3 - 480 * r2 * L * z3 + 360 * r4 * L * z + 150 * r4 * z) / R06
    + C 7 * 1 / R0
    + C 8 * r2 / R03
    + C 9 * (3 * z2 - 3 * r2 * L) / R03
    + C 10 * (3 * r4 - 12 * z2 * r2) / R05
    + C 11 * (40 * z4 - 45 * r4 - 240 * z2 * r2 * L + 60 * r4 * L) / R05) * (-d.mult / r)
  let B1 := C 3 * (-16 * r * z) / R04
    + C 4 * (-60 * r * z - 48 * r * L * z) / R04
    + C 5 * (-96 * r3 * z + 64 * r * z3) / R06
    + C 6 * (-1600 * r * z3 - 960 * r * L * z3 + 1440 * r3 * L * z + 960 * r3 * z) / R06
    + C 8 * (2 * r) / R03
    + C 9 * (-6 * r * L - 3 * r) / R03
    + C 10 * (12 * r3 - 24 * z2 * r) / R05
    + C 11 * (-120 * r3 - 480 * z2 * r * L - 240 * z2 * r + 240 * r3 * L) / R05
  let B1 := -B0 / r - B1 * d.mult / r
  let B3 := (C 2 * (-2) / R02
    + C 3 * (-8 * r2) / R04
    + C 4 * (-18 * r2 - 24 * r2 * L + 24 * z2) / R04
    + C 5 * (-24 * r4 + 96 * r2 * z2) / R06
    + C 6 * (240 * z4 - 1680 * r2 * z2 - 1440 * r2 * L * z2 + 360 * r4 * L + 150 * r4) / R06
    + C 9 * (6 * z) / R03
    + C 10 * (-24 * z * r2) / R05
    + C 11 * (160 * z3 - 480 * z * r2 * L) / R05) * (-d.mult / r)
  let B8 := ((1 - C 12) * (r3 / 2) / R04
    + C 12 * (r / 2 + r * L) / R02
    + C 1 * (2 * r) / R02
    + C 2 * (2 * r * L + r) / R02
    + C 3 * (4 * r3 - 8 * r * z2) / R04
    + C 4 * (12 * r3 * L + 3 * r3 - 30 * r * z2 - 24 * r * L * z2) / R04
    + C 5 * (6 * r5 - 48 * r3 * z2 + 16 * r * z4) / R06
    + C 6 * (-400 * r * z4 - 240 * r * L * z4 + 720 * r3 * L * z2 + 480 * r3 * z2 - 90 * r5 * L - 15 * r5) / R06
    + C 8 * (2 * z * r) / R03
    + C 9 * (-6 * z * r * L - 3 * z * r) / R03
    + C 10 * (12 * z * r3 - 8 * z3 * r) / R05
    + C 11 * (-120 * z * r3 - 160 * z3 * r * L - 80 * z3 * r + 240 * z * r3 * L) / R05) * (d.mult / r)
  let B9 := (1 - C 12) * (3 * r2 / 2) / R04
    + C 12 * (1.5 + L) / R02
    + C 1 * 2 / R02
    + C 2 * (2 * L + 3) / R02
    + C 3 * (12 * r2 - 8 * z2) / R04
    + C 4 * (36 * r2 * L + 21 * r2 - 54 * z2 - 24 * L * z2) / R04
    + C 5 * (30 * r4 - 144 * r2 * z2 + 16 * z4) / R06
    + C 6 * (-640 * z4 - 240 * L * z4 + 2160 * r2 * L * z2 + 2160 * r2 * z2 - 450 * r4 * L - 165 * r4) / R06
    + C 8 * (2 * z) / R03
    + C 9 * (-6 * z * L - 9 * z) / R03
    + C 10 * (36 * z * r2 - 8 * z3) / R05
    + C 11 * (-120 * z * r2 - 160 * z3 * L - 240 * z3 + 720 * z * r2 * L) / R05
  let B9 := B9 * d.mult / r - B8 / r
  ⟨⟨B0, B1, 0, B3⟩, ⟨d.Bphi0 * R0 / r, -d.Bphi0 * R0 / r2, 0, 0⟩, ⟨B8, B9, 0, -B1 - B0 / r⟩⟩

open Classical in
/-- `B_GS_eval_B_dB`, src/Bfield/B_GS.c:406-547. -/
noncomputable def evalBdB (d : Data) (r phi z : ℝ) : Option Jac :=
  if Valid d r then
    let z := z - d.z0
    let j := smoothJac d r z
    if d.Nripple > 0 then
      match ripple d r z with
      | none => none
      | some delta =>
        let radius := Real.sqrt ((r - d.R0) * (r - d.R0) + (z - d.z0) * (z - d.z0))
        let theta := atan2 (z - d.z0) (r - d.R0)
        let Bphi := j.b.v
        let Bpert := Bphi * delta * Real.cos (d.Nripple * phi)
        let dR := Bpert * ((r - d.R0) / radius * (d.alpha0 / radius) + (z - d.z0) / (radius * radius) * theta)
        let dz := Bpert * ((z - d.z0) / radius * (d.alpha0 / radius) - (r - d.R0) / (radius * radius) * theta)
        if radius = 0 ∨ Bphi = 0 then none
        else some { j with b := ⟨Bphi + Bpert, j.b.d1 + (j.b.d1 * Bpert / Bphi + dR),
          j.b.d2 + -Bphi * delta * d.Nripple * Real.sin (d.Nripple * phi), j.b.d3 + dz⟩ }
    else some j
  else none

/-- `B_GS_eval_rho_drho`, src/Bfield/B_GS.c:296-314. -/
noncomputable def evalRhoDrho (d : Data) (r z : ℝ) : Option (Except Nat Grad) :=
  match evalPsiDpsi d r z with
  | none => none
  | some g =>
    let delta := d.psi1 - d.psi0
    if delta = 0 then none
    else if (g.v - d.psi0) / delta < 0 then some (.error (Error.raise 3 305 14))
    else
      let rho := Real.sqrt ((g.v - d.psi0) / delta)
      if rho = 0 then none
      else some (.ok ⟨rho, g.d1 / (2 * delta * rho), 0, g.d3 / (2 * delta * rho)⟩)

end Ascot.BGS
