import Verif.Model.Physlib
import Mathlib.Data.Int.Notation
import Mathlib.Analysis.SpecialFunctions.Trigonometric.Basic

/-!
# Kicks by radio-frequency waves (`src/rfof.c`)

The library (`librfof`, in Fortran) is a parameter: a function of the time, the step, the marker it is given and its
memory of earlier steps of that lane.  Numbers are real numbers.  Pointers to marker data are modelled by giving the
values and taking back values.
-/
namespace Ascot.Rfof

/-- One lane of `particle_simd_gc`, without what the kick does not use. -/
structure Gc where
  id : ℤ
  running : Bool
  r : ℝ
  phi : ℝ
  z : ℝ
  time : ℝ
  weight : ℝ
  charge : ℝ
  mass : ℝ
  ppar : ℝ
  mu : ℝ
  br : ℝ
  bphi : ℝ
  bz : ℝ

/-- What the library is given by pointers, src/rfof.c:257-289. -/
structure Given where
  weight : ℝ
  r : ℝ
  phi : ℝ
  z : ℝ
  psi : ℝ
  charge : ℝ
  mass : ℝ
  ekin : ℝ
  speed : ℝ
  mu : ℝ
  pphi : ℝ
  vpar : ℝ
  vperp : ℝ
  gyrof : ℝ
  tauB : ℝ
  vdriftRho : ℝ
  acc : ℝ

/-- What the library answers: the values behind the pointers to the marker, `dvpar` and `RFdt` of `rfof_output`, and
the error flag.  Values of `rfof_output` that are not used are left out. -/
structure Answer where
  weight : ℝ
  r : ℝ
  phi : ℝ
  z : ℝ
  charge : ℝ
  mass : ℝ
  mu : ℝ
  dvpar : ℝ
  dt : ℝ
  err : ℤ

/-- The norm of the field, src/rfof.c:229. -/
noncomputable def fieldNorm (p : Gc) : ℝ := Real.sqrt (p.br ^ 2 + p.bphi ^ 2 + p.bz ^ 2)

/-- The quantities for the library, src/rfof.c:225-275.  `psi` is the flux at the marker, `c` the speed of light. -/
noncomputable def given (c psi : ℝ) (p : Gc) : Given :=
  let psi := psi * (2 * Real.pi)
  let B := fieldNorm p
  let vpar := p.ppar / p.mass
  { weight := p.weight
    r := p.r
    phi := p.phi
    z := p.z
    psi := psi
    charge := p.charge
    mass := p.mass
    ekin := p.ppar * p.ppar / (2 * p.mass) + p.mu * B
    speed := Real.sqrt ((p.ppar / p.mass) * (p.ppar / p.mass) + 2 * p.mu * B / p.mass)
    mu := p.mu
    pphi := Physlib.ptoroidGc p.charge p.r p.ppar psi B p.bphi
    vpar := vpar
    vperp := Real.sqrt (2 * p.mu * B / p.mass)
    gyrof := Physlib.gyrofreqPpar c p.mass p.charge p.mu p.ppar B
    tauB := 2 * Real.pi * 1 * p.r / |vpar| * Real.sqrt (2 * 1.65 / 0.6)
    vdriftRho := 0
    acc := 1 }

/-- A lane: the marker, the step it was advanced by, the suggestion for the next, and the memory of the library. -/
structure Lane (H : Type) where
  p : Gc
  hin : ℝ
  hout : ℝ
  memory : H

/-- The library. -/
abbrev Library (H : Type) := ℝ → ℝ → Given → H → Answer × H

variable {H : Type}

/-- `rfof_resonance_check_and_kick_gc` for one lane, src/rfof.c:217-333.  The lane in the array is the same as the one of
the library's memory. -/
noncomputable def kick (c : ℝ) (psi : ℝ → ℝ → ℝ → ℝ → ℝ) (lib : Library H) (l : Lane H) : Lane H :=
  let p := l.p
  if p.id > 0 ∧ p.running = true then
    let a := lib p.time l.hin (given c (psi p.r p.phi p.z p.time) p) l.memory
    { p := { p with
        weight := a.1.weight, r := a.1.r, phi := a.1.phi, z := a.1.z, charge := a.1.charge
        mass := a.1.mass, mu := a.1.mu
        ppar := p.ppar + a.1.mass * a.1.dvpar }
      hin := l.hin
      hout := if a.1.err = 7 then -a.1.dt else a.1.dt
      memory := a.2 }
  else l

/-- The kick in a pass of the loop with a fixed step, for one running lane: a step that the library refuses is undone by
copying the marker back, src/simulate/simulate_gc_fixed.c:158-191. -/
noncomputable def attempt (c : ℝ) (psi : ℝ → ℝ → ℝ → ℝ → ℝ) (lib : Library H) (p0 : Gc) (l : Lane H) : Lane H :=
  let l := kick c psi lib l
  if l.p.running = true ∧ l.hout < 0 then { l with p := p0, hin := -l.hout } else l

end Ascot.Rfof
