import Mathlib.Algebra.Order.Floor.Ring
import Mathlib.Algebra.Order.Field.Basic
import Mathlib.Analysis.SpecialFunctions.Trigonometric.Inverse
import Mathlib.Analysis.SpecialFunctions.Exp
import Verif.Model.Buf
import Verif.Model.Coord
import Verif.Model.Physlib
import Verif.Model.EndCond

/-!
# Neutral beam injection (`src/bbnbi5.c`, `src/nbi.c`)
-/
namespace Ascot.Bbnbi
open Ascot.Buf Ascot.Coord

/-! ## Markers for the injectors -/

section
variable {K : Type} [Field K] [LinearOrder K] [IsStrictOrderedRing K] [FloorRing K] {M : Type}

/-- Conversion of a `real` to an `int`: the fraction is dropped. -/
def trunc (x : K) : Int := if 0 ≤ x then ⌊x⌋ else ⌈x⌉

/-- Number of markers of an injector, src/bbnbi5.c:77-83. -/
def share (total power : K) (nprt gen : Int) (last : Bool) : Int := if last then nprt - gen else trunc (power / total * nprt)

/-- The loop over the injectors, src/bbnbi5.c:74-93, as the list of assignments to the marker array.  `mk i n gen j` is what
`bbnbi_inject_markers` (src/bbnbi5.c:145-191) stores as the marker `j` out of `n` of injector `i` after `gen` markers of other
injectors. -/
def writes (mk : Nat → Int → Int → Nat → M) (total : K) (nprt : Int) : Nat → List K → Int → List (Int × M)
  | _, [], _ => []
  | i, pw :: rest, gen =>
    let n := share total pw nprt gen rest.isEmpty
    (List.range n.toNat).map (fun (j : Nat) => (gen + j, mk i n gen j)) ++ writes mk total nprt (i + 1) rest (gen + n)

/-- The generation of markers in `bbnbi_simulate`, src/bbnbi5.c:63-93.  Assignments outside the array and the conversion of the
result of a division by zero to an integer are undefined. -/
def generate (mk : Nat → Int → Int → Nat → M) (powers : List K) (nprt : Nat) : Option (Buf M) :=
  let total := powers.foldl (· + ·) 0
  let ws := writes mk total nprt 0 powers 0
  if powers ≠ [] ∧ total = 0 then none
  else if ∀ w ∈ ws, 0 ≤ w.1 then fill nprt (ws.map fun w => (w.1.toNat, w.2)) else none

end

/-! ## One injected marker -/

/-- `nbi_injector`, src/nbi.h:15-35; a beamlet is its position and its direction. -/
structure Injector where
  beamlets : List (V3 ℝ × V3 ℝ)
  power : ℝ
  energy : ℝ
  e0 : ℝ
  e1 : ℝ
  e2 : ℝ
  divH : ℝ
  divV : ℝ
  haloFrac : ℝ
  haloH : ℝ
  haloV : ℝ
  anum : ℤ
  znum : ℤ
  mass : ℝ

/-- The random numbers used for a marker, in the order they are drawn: `time`, `beamlet`, `energy` and `halo` are uniform, `h` and
`v` normal. -/
structure Draws where
  time : ℝ
  beamlet : ℝ
  energy : ℝ
  halo : ℝ
  h : ℝ
  v : ℝ

/-- Weight of the markers of an injector, src/bbnbi5.c:138-140. -/
noncomputable def weight (inj : Injector) (nprt : Int) : ℝ :=
  let f := 1 * inj.e0 + 1 / 2 * inj.e1 + 1 / 3 * inj.e2
  (inj.power / inj.energy) / (f * nprt)

/-- Energy of a marker, src/nbi.c:126-134. -/
noncomputable def sampleEnergy (inj : Injector) (r : ℝ) : ℝ :=
  if r < inj.e0 then inj.energy else if r < inj.e0 + inj.e1 then inj.energy / 2 else inj.energy / 3

/-- Vertical and horizontal normals of a beamlet, src/nbi.c:142-150.  `acos` of a number outside [-1,1] is not a number in C;
the theorems are about unit vectors. -/
noncomputable def normals (dir : V3 ℝ) : V3 ℝ × V3 ℝ :=
  let phi := atan2 dir.y dir.x
  let theta := Real.arccos dir.z
  let nv : V3 ℝ := ⟨Real.sin (theta + Real.pi / 2) * Real.cos phi, Real.sin (theta + Real.pi / 2) * Real.sin phi,
    Real.cos (theta + Real.pi / 2)⟩
  (nv, V3.unit Real.sqrt (V3.cross dir nv))

/-- Divergence angles, src/nbi.c:157-165. -/
noncomputable def divergence (inj : Injector) (d : Draws) : ℝ × ℝ :=
  if d.halo < inj.haloFrac then (inj.haloH * d.h / Real.sqrt 2, inj.haloV * d.v / Real.sqrt 2)
  else (inj.divH * d.h / Real.sqrt 2, inj.divV * d.v / Real.sqrt 2)

/-- Direction of a marker before it is normalised, src/nbi.c:169-174. -/
noncomputable def deflect (dir nv nh : V3 ℝ) (dh dv : ℝ) : V3 ℝ :=
  ⟨Real.cos dh * (Real.cos dv * dir.x + Real.sin dv * nv.x) + Real.sin dh * nh.x,
   Real.cos dh * (Real.cos dv * dir.y + Real.sin dv * nv.y) + Real.sin dh * nh.y,
   Real.cos dh * (Real.cos dv * dir.z + Real.sin dv * nv.z) + Real.sin dh * nh.z⟩

/-- `nbi_inject`, src/nbi.c:118-182: position and velocity of a marker.  `none` if the beamlet is outside the array. -/
noncomputable def inject (c : ℝ) (inj : Injector) (d : Draws) : Option (V3 ℝ × V3 ℝ) :=
  let i := ⌊d.beamlet * inj.beamlets.length⌋
  if i < 0 then none else
  (inj.beamlets[i.toNat]?).map fun b =>
    let n := normals b.2
    let a := divergence inj d
    let u := V3.unit Real.sqrt (deflect b.2 n.1 n.2 a.1 a.2)
    let gamma := Physlib.gammaEkin c inj.mass (sampleEnergy inj d.energy)
    let absv := Real.sqrt (1 - 1 / (gamma * gamma)) * c
    (b.1, ⟨absv * u.x, absv * u.y, absv * u.z⟩)

/-- One millimetre along the unit vector `u`, src/bbnbi5.c:160-162. -/
noncomputable def ahead (u x : V3 ℝ) : V3 ℝ := ⟨x.x + 1e-3 * u.x, x.y + 1e-3 * u.y, x.z + 1e-3 * u.z⟩

open Classical in
/-- The search for the magnetic field, src/bbnbi5.c:155-166: the first point where the evaluation of the poloidal flux does not
return an error.  `none` if the loop does not end. -/
noncomputable def enter (psi : V3 ℝ → Except Nat ℝ) (u x : V3 ℝ) : Option (V3 ℝ) :=
  if h : ∃ n, (psi (xyz2rpz ((ahead u)^[n] x))).isOk = true then some ((ahead u)^[Nat.find h] x) else none

/-- The part of `particle_state` filled in by `bbnbi_inject_markers`. -/
structure Marker where
  rprt : ℝ
  phiprt : ℝ
  zprt : ℝ
  pr : ℝ
  pphi : ℝ
  pz : ℝ
  mass : ℝ
  charge : ℝ
  anum : ℤ
  znum : ℤ
  weight : ℝ
  time : ℝ
  mileage : ℝ
  cputime : ℝ
  id : Int
  endcond : Nat
  walltile : Int
  err : Nat

/-- The body of the loop in `bbnbi_inject_markers`, src/bbnbi5.c:146-190: the marker `i` of `nprt`.  `psi` is the evaluation of the
poloidal flux at a position and a time. -/
noncomputable def injectMarker (c : ℝ) (psi : ℝ → V3 ℝ → Except Nat ℝ) (inj : Injector) (nprt ngenerated : Int) (t0 t1 : ℝ) (i : Nat) (d : Draws) :
    Option Marker :=
  let time := t0 + d.time * (t1 - t0)
  (inject c inj d).bind fun xv =>
  (enter (psi time) (V3.unit Real.sqrt xv.2) xv.1).map fun x =>
    let rpz := xyz2rpz x
    let v := vecXyz2rpz xv.2 rpz.y
    let gamma := Physlib.gammaVnorm c (V3.norm Real.sqrt v)
    { rprt := rpz.x, phiprt := rpz.y, zprt := rpz.z, pr := v.x * gamma * inj.mass, pphi := v.y * gamma * inj.mass,
      pz := v.z * gamma * inj.mass, mass := inj.mass, charge := 0, anum := inj.anum, znum := inj.znum, weight := weight inj nprt,
      time := time, mileage := 0, cputime := 0, id := ngenerated + i + 1, endcond := 0, walltile := 0, err := 0 }

/-! ## Tracing -/

/-- The data of one lane in `bbnbi_trace_markers` as far as it is used.  `rho` is `none` if it was copied from an uninitialised
variable. -/
structure Lane where
  r : ℝ
  phi : ℝ
  z : ℝ
  pr : ℝ
  pphi : ℝ
  pz : ℝ
  mass : ℝ
  charge : ℝ
  time : ℝ
  mileage : ℝ
  rho : Option ℝ
  remaining : ℝ
  threshold : ℝ
  shine : Bool
  endcond : Nat
  walltile : Int
  err : Nat
  running : Bool

/-- Input data used in tracing.  `rho` stands for `B_field_eval_psi` followed by `B_field_eval_rho` at `r`, `phi`, `z`, `t`;
`plasma` for `plasma_eval_densandtemp` at `rho`, `r`, `phi`, `z`, `t`; `bms` for `asigma_eval_bms` with the kinetic energy and the
plasma; `ne` is the electron density; `wall` for `wall_hit_wall`. -/
structure Env (P : Type) where
  rho : ℝ → ℝ → ℝ → ℝ → Except Nat ℝ
  plasma : ℝ → ℝ → ℝ → ℝ → ℝ → Except Nat P
  bms : ℝ → P → Except Nat ℝ
  ne : P → ℝ
  wall : V3 ℝ → V3 ℝ → Int × ℝ
  c : ℝ
  e : ℝ

variable {P : Type}

/-- Ballistic motion for the time `h`, src/bbnbi5.c:241-272. -/
noncomputable def move (c h : ℝ) (l : Lane) : Lane :=
  let pnorm := V3.norm Real.sqrt ⟨l.pr, l.pphi, l.pz⟩
  let gamma := Physlib.gammaPnorm c l.mass pnorm
  let p := vecRpz2xyz ⟨l.pr, l.pphi, l.pz⟩ l.phi
  let x := rpz2xyz ⟨l.r, l.phi, l.z⟩
  let fx := x.x + p.x * h / (gamma * l.mass)
  let fy := x.y + p.y * h / (gamma * l.mass)
  let fz := x.z + p.z * h / (gamma * l.mass)
  let phi := l.phi + atan2 (x.x * fy - x.y * fx) (x.x * fx + x.y * fy)
  { l with r := Real.sqrt (fx * fx + fy * fy), phi := phi, z := fz, pr := p.x * Real.cos phi + p.y * Real.sin phi,
           pphi := -p.x * Real.sin phi + p.y * Real.cos phi, pz := p.z, mileage := l.mileage + h }

/-- Ionisation rate at the position of the lane, src/bbnbi5.c:292-309: an error of the plasma is kept, one of the reaction data
becomes 1. -/
noncomputable def rate (e : Env P) (ekin : ℝ) (l : Lane) (rho : ℝ) : Except Nat ℝ :=
  match e.plasma rho l.r l.phi l.z l.time with
  | .error x => .error x
  | .ok p => match e.bms ekin p with
    | .error _ => .error 1
    | .ok s => .ok (e.ne p * s)

/-- Collision with the wall, src/bbnbi5.c:314-330; `l0` is the lane before the step. -/
noncomputable def wallCheck (e : Env P) (l0 l : Lane) : Lane :=
  let hit := if l.shine then e.wall ⟨l0.r, l0.phi, l0.z⟩ ⟨l.r, l.phi, l.z⟩ else (0, 0)
  if hit.1 > 0 then
    { l with time := l0.time + hit.2 * (l.time - l0.time), r := l0.r + hit.2 * (l.r - l0.r), phi := l0.phi + hit.2 * (l.phi - l0.phi),
             z := l0.z + hit.2 * (l.z - l0.z), walltile := hit.1, endcond := l.endcond ||| EndCond.wall, running := false }
  else l

/-- Maximum time, src/bbnbi5.c:332-335. -/
noncomputable def limitCheck (l : Lane) : Lane :=
  if l.mileage > 1e-3 then { l with endcond := l.endcond ||| EndCond.tlim, running := false } else l

/-- Ionisation, src/bbnbi5.c:336-340. -/
noncomputable def ionCheck (e : Env P) (l : Lane) : Lane :=
  if l.remaining < l.threshold then { l with charge := 1 * e.e, endcond := l.endcond ||| EndCond.ioniz, running := false } else l

/-- End conditions, src/bbnbi5.c:313-340. -/
noncomputable def checks (e : Env P) (l0 l : Lane) : Lane := ionCheck e (limitCheck (wallCheck e l0 l))

/-- One step of a lane, src/bbnbi5.c:233-345.  After an error the remaining fraction is not used any more. -/
noncomputable def step (e : Env P) (h : ℝ) (l0 : Lane) : Lane :=
  if l0.running then
    let ekin := Physlib.ekinPnorm e.c l0.mass (V3.norm Real.sqrt ⟨l0.pr, l0.pphi, l0.pz⟩)
    let l := move e.c h l0
    match e.rho l.r l.phi l.z l.time with
    | .error x => { l with rho := none, err := x, running := false }
    | .ok rho =>
      let l := { l with shine := l.shine || (l.rho.elim false (fun r => decide (r ≤ 1)) && decide (1 < rho)), rho := some rho }
      match rate e ekin l rho with
      | .error x => { l with err := x, running := false }
      | .ok q => checks e l0 { l with remaining := l.remaining * Real.exp (-q * h) }
  else l0

/-- What is done for a lane when its marker has finished, src/bbnbi5.c:353-354; the field components are not modelled. -/
noncomputable def finish (l : Lane) : Lane := { l with time := l.time + l.mileage }

end Ascot.Bbnbi
