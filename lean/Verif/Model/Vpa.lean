import Verif.Model.Coord
import Verif.Model.MathC
import Verif.Model.Physlib

/-!
# The full-orbit integrator (`src/simulate/step/step_fo_vpa.c`)

Field evaluations are parameters: they return either a nonzero error code or a value.  `c` is `CONST_C`, `k` is
`6 pi e0`.  One lane of the SIMD loop is modelled; lanes do not interact.
-/
namespace Ascot.Vpa
open Ascot.Coord Ascot.Physlib

/-- The fields of `particle_simd_fo` (src/particle.h) that the step reads or writes, for one marker.  The gradient of
the magnetic field is an array of nine numbers. -/
@[ext] structure Fo where
  r : ℝ
  phi : ℝ
  z : ℝ
  p : V3 ℝ
  time : ℝ
  mass : ℝ
  charge : ℝ
  B : V3 ℝ
  dB : Fin 9 → ℝ
  rho : ℝ
  theta : ℝ
  err : Nat
  running : Bool

/-- Results of the field interpolations; arguments are R, phi, z and time. -/
structure Fields where
  B : ℝ → ℝ → ℝ → ℝ → Except Nat (V3 ℝ)
  E : ℝ → ℝ → ℝ → ℝ → Except Nat (V3 ℝ)
  BdB : ℝ → ℝ → ℝ → ℝ → Except Nat (V3 ℝ × (Fin 9 → ℝ))
  psi : ℝ → ℝ → ℝ → ℝ → Except Nat ℝ
  rho : ℝ → Except Nat ℝ
  /-- Axis position and error flag; the position is used also when the flag is set. -/
  axis : ℝ → (ℝ × ℝ) × Nat
  /-- `mhd_perturbations` with `pertonly = 0`: total magnetic field and perturbed electric field. -/
  mhd : ℝ → ℝ → ℝ → ℝ → Except Nat (V3 ℝ × V3 ℝ)

/-- Position after `pos + h p / (2 gamma m)`, src/simulate/step/step_fo_vpa.c:59-62 and 126-129. -/
noncomputable def drift (c m h : ℝ) (x p : V3 ℝ) : V3 ℝ :=
  let g := gammaPnorm c m (V3.norm Real.sqrt p)
  ⟨x.x + p.x * h / (2 * g * m), x.y + p.y * h / (2 * g * m), x.z + p.z * h / (2 * g * m)⟩

/-- The 3x3 array `Bhat`, src/simulate/step/step_fo_vpa.c:99-101. -/
def bhat (B : V3 ℝ) : Nat → ℝ
  | 0 => 0
  | 1 => B.z
  | 2 => -B.y
  | 3 => -B.z
  | 4 => 0
  | 5 => B.x
  | 6 => B.y
  | 7 => -B.x
  | _ => 0

/-- A vector as an array. -/
def arr (v : V3 ℝ) : Nat → ℝ
  | 0 => v.x
  | 1 => v.y
  | _ => v.z

/-- The momentum update in Cartesian coordinates, src/simulate/step/step_fo_vpa.c:87-123.  The output arrays of the
matrix products are uninitialised before; `junk` stands for their content. -/
noncomputable def kick (c q m h : ℝ) (junk : Nat → ℝ) (E B p : V3 ℝ) : V3 ℝ :=
  let sigma := q * h / (2 * m * c)
  let pminus : V3 ℝ := ⟨p.x / (m * c) + sigma * E.x, p.y / (m * c) + sigma * E.y, p.z / (m * c) + sigma * E.z⟩
  let d := q * h / (2 * m) / Real.sqrt (1 + V3.dot pminus pminus)
  let d2 := d * d
  let bhat2 := MathC.matmul (bhat B) (bhat B) 3 3 3 junk
  let B2 := B.x * B.x + B.y * B.y + B.z * B.z
  let A : Nat → ℝ := fun j => (bhat B j + d * bhat2 j) * (2 * d / (1 + d2 * B2))
  let pplus := MathC.matmul (arr pminus) A 1 3 3 junk
  let pfinal : V3 ℝ :=
    ⟨pminus.x + pplus 0 + sigma * E.x, pminus.y + pplus 1 + sigma * E.y, pminus.z + pplus 2 + sigma * E.z⟩
  ⟨pfinal.x * m * c, pfinal.y * m * c, pfinal.z * m * c⟩

/-- Fields at the midpoint, src/simulate/step/step_fo_vpa.c:66-75. -/
def midFields (f : Fields) (r phi z t : ℝ) : Except Nat (V3 ℝ × V3 ℝ) :=
  match f.B r phi z t with
  | .error e => .error e
  | .ok B =>
    match f.E r phi z t with
    | .error e => .error e
    | .ok E => .ok (B, E)

/-- Fields at the midpoint with MHD modes, src/simulate/step/step_fo_vpa.c:267-290. -/
noncomputable def midFieldsMhd (f : Fields) (r phi z t : ℝ) : Except Nat (V3 ℝ × V3 ℝ) :=
  match f.B r phi z t with
  | .error e => .error e
  | .ok _ =>
    match f.E r phi z t with
    | .error e => .error e
    | .ok E =>
      match f.mhd r phi z t with
      | .error e => .error e
      | .ok (B1, E1) => .ok (B1, ⟨E.x + E1.x, E.y + E1.y, E.z + E1.z⟩)

/-- Position and momentum update of one marker, src/simulate/step/step_fo_vpa.c:44-146 and 244-361: the marker with the
new phase-space position, or the error of the field evaluation. -/
noncomputable def push (c : ℝ) (junk : Nat → ℝ) (mid : ℝ → ℝ → ℝ → ℝ → Except Nat (V3 ℝ × V3 ℝ)) (h : ℝ) (s : Fo) : Except Nat Fo :=
  let pxyz := vecRpz2xyz s.p s.phi
  let x0 := rpz2xyz ⟨s.r, s.phi, s.z⟩
  let x := drift c s.mass h x0 pxyz
  let pos := xyz2rpz x
  match mid pos.x pos.y pos.z (s.time + h / 2) with
  | .error e => .error e
  | .ok (B, E) =>
    let pxyz := kick c s.charge s.mass h junk (vecRpz2xyz E pos.y) (vecRpz2xyz B pos.y) pxyz
    let xf := drift c s.mass h x pxyz
    let phi := s.phi + atan2 (x0.x * xf.y - x0.y * xf.x) (x0.x * xf.x + x0.y * xf.y)
    .ok { s with
      r := Real.sqrt (xf.x * xf.x + xf.y * xf.y)
      phi := phi
      z := xf.z
      p := ⟨pxyz.x * Real.cos phi + pxyz.y * Real.sin phi, -pxyz.x * Real.sin phi + pxyz.y * Real.cos phi, pxyz.z⟩ }

/-- Field quantities at the new position, src/simulate/step/step_fo_vpa.c:148-189 and 363-404; `s0` is the marker
before the step.  The second component is `errflag`. -/
noncomputable def refresh (f : Fields) (h : ℝ) (s0 s : Fo) : Fo × Nat :=
  match f.BdB s.r s.phi s.z (s0.time + h) with
  | .error e => (s, e)
  | .ok (B, dB) =>
    match f.psi s.r s.phi s.z (s0.time + h) with
    | .error e => (s, e)
    | .ok psi =>
      match f.rho psi with
      | .error e => (s, e)
      | .ok rho =>
        let ((ar, az), e) := f.axis s.phi
        ({ s with
            B := B
            dB := dB
            rho := rho
            theta := s.theta + atan2 ((s0.r - ar) * (s.z - az) - (s0.z - az) * (s.r - ar))
              ((s0.r - ar) * (s.r - ar) + (s0.z - az) * (s.z - az)) }, e)

/-- Radiation reaction, src/simulate/step/step_fo_vpa.c:191-209.  `none`: division by zero, the momentum becomes NaN
(also when the force is disabled).  The Lorentz factor is the one of the momentum before this update. -/
noncomputable def radiate (c k : ℝ) (aldforce : ℝ) (s : Fo) : Option Fo :=
  let Bnorm := V3.norm Real.sqrt s.B
  let pnorm := V3.norm Real.sqrt s.p
  let t := aldChartime c k s.charge s.mass Bnorm (gammaPnorm c s.mass pnorm) * aldforce
  if Bnorm * Bnorm * pnorm = 0 then none
  else
    let b := V3.dot s.p s.B / (Bnorm * Bnorm * pnorm)
    let perp : V3 ℝ := ⟨s.p.x - b * s.B.x, s.p.y - b * s.B.y, s.p.z - b * s.B.z⟩
    let C := V3.dot perp perp / (s.mass * s.mass * (c * c))
    some { s with p := ⟨s.p.x - t * (perp.x + C * s.p.x), s.p.y - t * (perp.y + C * s.p.y), s.p.z - t * (perp.z + C * s.p.z)⟩ }

/-- Error handling, src/simulate/step/step_fo_vpa.c:211-215. -/
def settle (s : Fo) (e : Nat) : Fo := if e ≠ 0 then { s with err := e, running := false } else s

/-- `step_fo_vpa` on one marker, src/simulate/step/step_fo_vpa.c:36-218. -/
noncomputable def step (c k : ℝ) (junk : Nat → ℝ) (f : Fields) (aldforce h : ℝ) (s : Fo) : Option Fo :=
  if s.running then
    match push c junk (midFields f) h s with
    | .error e => (radiate c k aldforce s).map fun s => settle s e
    | .ok s1 =>
      let (s2, e) := refresh f h s s1
      (radiate c k aldforce s2).map fun s => settle s e
  else some s

/-- `step_fo_vpa_mhd` on one marker, src/simulate/step/step_fo_vpa.c:234-413.  The argument `aldforce` is not used. -/
noncomputable def stepMhd (c : ℝ) (junk : Nat → ℝ) (f : Fields) (_aldforce h : ℝ) (s : Fo) : Fo :=
  if s.running then
    match push c junk (midFieldsMhd f) h s with
    | .error e => settle s e
    | .ok s1 =>
      let (s2, e) := refresh f h s s1
      settle s2 e
  else s

/-- Any number of steps with prescribed time steps; the time of the marker is advanced between them as in
src/simulate/simulate_fo_fixed.c:148. -/
noncomputable def run (c k : ℝ) (junk : Nat → ℝ) (f : Fields) (aldforce : ℝ) : List ℝ → Fo → Option Fo
  | [], s => some s
  | h :: hs, s =>
    match step c k junk f aldforce h s with
    | none => none
    | some s => run c k junk f aldforce hs (if s.running then { s with time := s.time + h } else s)

end Ascot.Vpa
