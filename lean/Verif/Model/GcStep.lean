import Verif.Model.Error
import Verif.Model.Gceom
import Verif.Model.Linint
import Verif.Model.RungeKutta
import Mathlib.Algebra.Order.Archimedean.Real.Basic

/-!
# One step of a guiding center or a field line

`src/simulate/step/step_gc_rk4.c`, `step_gc_cashkarp.c`, `step_ml_cashkarp.c`.  One lane of the SIMD loop is modelled; lanes
do not interact.  Field evaluations are parameters: they return either a nonzero error code or a value.  `none` as the
outcome of a step means that a result is not a finite number or that an uninitialised variable was read.
-/
namespace Ascot.GcStep
open Ascot.Coord Ascot.Gceom Ascot.RungeKutta

/-- The fields of `particle_simd_gc` (src/particle.h) that the step reads or writes, for one marker.  `y` are r, phi, z,
ppar, mu and zeta; `jac` are the magnetic field and its derivatives. -/
@[ext] structure Gc where
  y : Fin 6 → ℝ
  time : ℝ
  mass : ℝ
  charge : ℝ
  jac : Jac
  rho : ℝ
  theta : ℝ
  err : Nat
  running : Bool

/-- Results of the interpolations; arguments are R, phi, z and time. -/
structure Fields where
  BdB : ℝ → ℝ → ℝ → ℝ → Except Nat Jac
  E : ℝ → ℝ → ℝ → ℝ → Except Nat (V3 ℝ)
  psi : ℝ → ℝ → ℝ → ℝ → Except Nat ℝ
  rho : ℝ → Except Nat ℝ
  /-- Axis position and error flag; the position is used also when the flag is set. -/
  axis : ℝ → (ℝ × ℝ) × Nat
  /-- `mhd_eval`. -/
  mhd : ℝ → ℝ → ℝ → ℝ → Except Nat Mhd

/-- Constants: speed of light, `6 pi e0`, `DBL_EPSILON`, `A5_EXTREMELY_SMALL_TIMESTEP`. -/
structure Consts where
  c : ℝ
  k : ℝ
  eps : ℝ
  tiny : ℝ

/-- Turns the outcome of the equations of motion into that of a stage. -/
def orNan : Option (Fin 6 → ℝ) → Except Fault (Fin 6 → ℝ)
  | none => .error .nan
  | some k => .ok k

/-- Electric field and equations of motion for a known magnetic field, src/simulate/step/step_gc_rk4.c:85-91. -/
noncomputable def rhsAt (C : Consts) (f : Fields) (ald : ℝ) (s : Gc) (j : Jac) (t : ℝ) (y : Fin 6 → ℝ) : Except Fault (Fin 6 → ℝ) :=
  match f.E (y 0) (y 1) (y 2) t with
  | .error e => .error (.err e)
  | .ok E => orNan (gceom C.c C.k s.mass s.charge y j E ald)

/-- Field evaluations and equations of motion of a stage, src/simulate/step/step_gc_rk4.c:101-111. -/
noncomputable def rhs (C : Consts) (f : Fields) (ald : ℝ) (s : Gc) (t : ℝ) (y : Fin 6 → ℝ) : Except Fault (Fin 6 → ℝ) :=
  match f.BdB (y 0) (y 1) (y 2) t with
  | .error e => .error (.err e)
  | .ok j => rhsAt C f ald s j t y

/-- The same with MHD modes, src/simulate/step/step_gc_rk4.c:285-297. -/
noncomputable def rhsAtMhd (C : Consts) (f : Fields) (ald : ℝ) (s : Gc) (j : Jac) (t : ℝ) (y : Fin 6 → ℝ) : Except Fault (Fin 6 → ℝ) :=
  match f.E (y 0) (y 1) (y 2) t with
  | .error e => .error (.err e)
  | .ok E =>
    match f.mhd (y 0) (y 1) (y 2) t with
    | .error e => .error (.err e)
    | .ok m => orNan (gceomMhd C.c C.k s.mass s.charge y j E m ald)

/-- The same with MHD modes, src/simulate/step/step_gc_rk4.c:305-321. -/
noncomputable def rhsMhd (C : Consts) (f : Fields) (ald : ℝ) (s : Gc) (t : ℝ) (y : Fin 6 → ℝ) : Except Fault (Fin 6 → ℝ) :=
  match f.BdB (y 0) (y 1) (y 2) t with
  | .error e => .error (.err e)
  | .ok j => rhsAtMhd C f ald s j t y

/-- `fmod` followed by the correction of negative values, src/simulate/step/step_gc_rk4.c:163-166. -/
noncomputable def wrapZeta (z : ℝ) : ℝ :=
  let m := Linint.fmod z (2 * Real.pi)
  if m < 0 then 2 * Real.pi + m else m

/-- Update of the phase-space position, src/simulate/step/step_gc_rk4.c:156-167. -/
noncomputable def place (s : Gc) (y : Fin 6 → ℝ) : Gc := { s with y := fun j => if j = 5 then wrapZeta (y 5) else y j }

/-- Field quantities at the new position, src/simulate/step/step_gc_rk4.c:169-209 and
src/simulate/step/step_gc_cashkarp.c:278-318; `s0` is the marker before the step.  The second component is `errflag`. -/
noncomputable def refresh (f : Fields) (h : ℝ) (s0 s : Gc) : Gc × Nat :=
  match f.BdB (s.y 0) (s.y 1) (s.y 2) (s0.time + h) with
  | .error e => (s, e)
  | .ok j =>
    match f.psi (s.y 0) (s.y 1) (s.y 2) (s0.time + h) with
    | .error e => (s, e)
    | .ok psi =>
      match f.rho psi with
      | .error e => (s, e)
      | .ok rho =>
        let ((ar, az), e) := f.axis (s.y 1)
        ({ s with
            jac := j
            rho := rho
            theta := s.theta + atan2 ((s0.y 0 - ar) * (s.y 2 - az) - (s0.y 2 - az) * (s.y 0 - ar))
              ((s0.y 0 - ar) * (s.y 0 - ar) + (s0.y 2 - az) * (s.y 2 - az)) }, e)

/-- Error handling, src/simulate/step/step_gc_rk4.c:211-215. -/
def settle (s : Gc) (e : Nat) : Gc := if e ≠ 0 then { s with err := e, running := false } else s

/-- The rest of a step once the new phase-space position is known. -/
noncomputable def finish (f : Fields) (h : ℝ) (s : Gc) (y : Fin 6 → ℝ) : Gc × Nat := refresh f h s (place s y)

/-- Test that results are physical, src/simulate/step/step_gc_rk4.c:148-154. -/
noncomputable def checkRk4 (y : Fin 6 → ℝ) : Nat :=
  if y 0 ≤ 0 then Error.raise 7 150 7 else if y 4 < 0 then Error.raise 7 153 7 else 0

/-- The tests with MHD modes, src/simulate/step/step_gc_rk4.c:369-378: the magnetic moment is compared with the speed of
light. -/
noncomputable def checkRk4Mhd (C : Consts) (y : Fin 6 → ℝ) : Nat :=
  if y 0 ≤ 0 then Error.raise 7 370 7 else if |y 4| ≥ C.c then Error.raise 7 373 7
  else if y 4 < 0 then Error.raise 7 376 7 else 0

/-- A fixed step for given stages and tests. -/
noncomputable def stepOf (f : Fields) (h : ℝ) (s : Gc) (res : Except Fault (Fin 6 → ℝ)) (check : (Fin 6 → ℝ) → Nat) : Option Gc :=
  match res with
  | .error .nan => none
  | .error (.err e) => some (settle s e)
  | .ok y => if check y ≠ 0 then some (settle s (check y)) else some (settle (finish f h s y).1 (finish f h s y).2)

/-- `step_gc_rk4` on one marker, src/simulate/step/step_gc_rk4.c:34-219. -/
noncomputable def stepRk4 (C : Consts) (f : Fields) (ald h : ℝ) (s : Gc) : Option Gc :=
  if s.running then
    stepOf f h s (rk4 (rhs C f ald s) (rhsAt C f ald s s.jac s.time s.y) s.time h s.y) checkRk4
  else some s

/-- `step_gc_rk4_mhd` on one marker, src/simulate/step/step_gc_rk4.c:234-442. -/
noncomputable def stepRk4Mhd (C : Consts) (f : Fields) (ald h : ℝ) (s : Gc) : Option Gc :=
  if s.running then
    stepOf f h s (rk4 (rhsMhd C f ald s) (rhsAtMhd C f ald s s.jac s.time s.y) s.time h s.y) (checkRk4Mhd C)
  else some s

/-- Test that results are physical, src/simulate/step/step_gc_cashkarp.c:251-263. -/
noncomputable def checkCk (C : Consts) (hnext : ℝ) (y : Fin 6 → ℝ) : Nat :=
  if |hnext| < C.tiny then Error.raise 5 254 6 else if y 0 ≤ 0 then Error.raise 7 258 6
  else if y 4 < 0 then Error.raise 7 262 6 else 0

/-- Error handling of the adaptive step: the marker and the next time step, src/simulate/step/step_gc_cashkarp.c:320-325. -/
def settleCk (s : Gc) (h hnext : ℝ) (e : Nat) : Gc × ℝ := (settle s e, if e ≠ 0 then h else hnext)

/-- `step_gc_cashkarp` on one marker, src/simulate/step/step_gc_cashkarp.c:36-328: the marker and the
suggestion `hnext`, which is `n0` before.  `none` also covers an infinite suggestion. -/
noncomputable def stepCk (C : Consts) (f : Fields) (ald tol h n0 : ℝ) (s : Gc) : Option (Gc × ℝ) :=
  if s.running then
  match stages (rhs C f ald s) (rhsAt C f ald s s.jac s.time s.y) s.time h s.y with
  | .error .nan => none
  | .error (.err e) => some (settleCk s h h e)
  | .ok k =>
    match nextGc h (errGc C.eps h s.y k / tol) with
    | none => none
    | some n =>
      let y := rk5 s.y h k
      if checkCk C n y ≠ 0 then some (settleCk s h n (checkCk C n y))
      else some (settleCk (finish f h s y).1 h n (finish f h s y).2)
  else some (s, n0)

/-- `step_gc_cashkarp_mhd` on one marker, src/simulate/step/step_gc_cashkarp.c:346-660.  The loop over the
components of the solution leaves out the last one (line 546), which is then read (line 605): `junk` stands for its value. -/
noncomputable def stepCkMhd (C : Consts) (f : Fields) (junk : ℝ) (ald tol h n0 : ℝ) (s : Gc) : Option (Gc × ℝ) :=
  if s.running then
  match stages (rhsMhd C f ald s) (rhsAtMhd C f ald s s.jac s.time s.y) s.time h s.y with
  | .error .nan => none
  | .error (.err e) => some (settleCk s h h e)
  | .ok k =>
    match nextGc h (errGc C.eps h s.y k / tol) with
    | none => none
    | some n =>
      let y : Fin 6 → ℝ := fun j => if j = 5 then junk else rk5 s.y h k j
      some (settleCk (finish f h s y).1 h n (finish f h s y).2)
  else some (s, n0)

end Ascot.GcStep
