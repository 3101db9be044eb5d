import Verif.Model.GcStep

/-!
# Field-line markers (`src/simulate/step/step_ml_cashkarp.c`, `src/particle.c`)

A position is the array r, phi, z.  `none` as the outcome of a step means that an uninitialised variable was read or that a
result is not a finite number.
-/
namespace Ascot.MlStep
open Ascot.Coord Ascot.RungeKutta

/-- The fields of `particle_simd_ml` (src/particle.h) that the step reads or writes, for one marker. -/
@[ext] structure Ml where
  y : Fin 3 → ℝ
  pitch : ℝ
  time : ℝ
  jac : Jac
  rho : ℝ
  theta : ℝ
  err : Nat
  running : Bool

/-- Results of the interpolations; arguments are R, phi, z and time.  `B` is the field that is followed: `B_field_eval_B`, or
the total field of `mhd_perturbations`. -/
structure Fields where
  B : ℝ → ℝ → ℝ → ℝ → Except Nat (V3 ℝ)
  BdB : ℝ → ℝ → ℝ → ℝ → Except Nat Jac
  psi : ℝ → ℝ → ℝ → ℝ → Except Nat ℝ
  rho : ℝ → Except Nat ℝ
  axis : ℝ → (ℝ × ℝ) × Nat

/-- `direction`, src/simulate/step/step_ml_cashkarp.c:51-55. -/
noncomputable def direction (s : Ml) : ℝ := if s.pitch < 0 then -1 else 1

/-- Tangent of the field line from the field, src/simulate/step/step_ml_cashkarp.c:64-73.  `none`: division by zero. -/
noncomputable def tangent (d : ℝ) (B : V3 ℝ) (r : ℝ) : Option (Fin 3 → ℝ) :=
  let n := V3.norm Real.sqrt B * d
  if n = 0 ∨ r = 0 then none else some ![B.x / n, B.y / n / r, B.z / n]

/-- A stage: if the evaluation of the field fails, a later stage reads an uninitialised variable in the
caller, src/simulate/step/step_ml_cashkarp.c:79-87. -/
noncomputable def stage (f : Fields) (d t : ℝ) (y : Fin 3 → ℝ) : Except Fault (Fin 3 → ℝ) :=
  match f.B (y 0) (y 1) (y 2) t with
  | .error e => .error (.err e)
  | .ok B =>
    match tangent d B (y 0) with
    | none => .error .nan
    | some k => .ok k

/-- The first stage uses the stored field, src/simulate/step/step_ml_cashkarp.c:63-73. -/
noncomputable def stage0 (d : ℝ) (s : Ml) : Except Fault (Fin 3 → ℝ) :=
  match tangent d ⟨s.jac.a.v, s.jac.b.v, s.jac.c.v⟩ (s.y 0) with
  | none => .error .nan
  | some k => .ok k

/-- What the step stores after the position, src/simulate/step/step_ml_cashkarp.c:197-247: the error flag of the evaluations
is overwritten by that of the axis and then dropped.  `rho` after a failed evaluation is the fallback value of
`B_field_eval_rho`; after another failure it is uninitialised. -/
noncomputable def store (f : Fields) (h : ℝ) (s : Ml) (y : Fin 3 → ℝ) : Option Ml :=
  match f.BdB (y 0) (y 1) (y 2) (s.time + h) with
  | .error _ => none
  | .ok j =>
    match f.psi (y 0) (y 1) (y 2) (s.time + h) with
    | .error _ => none
    | .ok psi =>
      let rho := match f.rho psi with
        | .error _ => 1
        | .ok rho => rho
      let ((ar, az), _) := f.axis (y 1)
      some { s with
        y := y
        jac := j
        rho := rho
        theta := s.theta + atan2 ((s.y 0 - ar) * (y 2 - az) - (s.y 2 - az) * (y 0 - ar))
          ((s.y 0 - ar) * (y 0 - ar) + (s.y 2 - az) * (y 2 - az)) }

/-- `step_ml_cashkarp` on one marker, src/simulate/step/step_ml_cashkarp.c:32-250: the marker and the suggestion for the next
step.  A failed evaluation in any stage leads to the reading of uninitialised variables in the next stage or, for the last
stage, in the stored field. -/
noncomputable def step (f : Fields) (eps tol h n0 : ℝ) (s : Ml) : Option (Ml × ℝ) :=
  if s.running then
    match stages (stage f (direction s)) (stage0 (direction s) s) s.time h s.y with
    | .error _ => none
    | .ok k =>
      match nextMl h (errMl eps h s.y k / tol) with
      | none => none
      | some n =>
        match store f h s (rk5 s.y h k) with
        | none => none
        | some s' => some (s', n)
  else some (s, n0)

/-- `step_ml_cashkarp_mhd` on one marker, src/simulate/step/step_ml_cashkarp.c:270-517: all stages are evaluated at the time
at the beginning of the step. A failed evaluation in a stage leads at the latest to uninitialised variables in the stored field. -/
noncomputable def stepMhd (f : Fields) (eps tol h n0 : ℝ) (s : Ml) : Option (Ml × ℝ) :=
  if s.running then
    match stages (fun _ => stage f (direction s) s.time) (stage f (direction s) s.time s.y) s.time h s.y with
    | .error _ => none
    | .ok k =>
      match nextMl h (errMl eps h s.y k / tol) with
      | none => none
      | some n =>
        match store f h s (rk5 s.y h k) with
        | none => none
        | some s' => some (s', n)
  else some (s, n0)

/-- The parallel momentum of the state made from an input marker, `particle_input_ml_to_state`, src/particle.c:1698. -/
noncomputable def inputPpar (pitch : ℝ) : ℝ := if pitch ≥ 0 then 1 else 0

/-- The pitch of the simulated marker, `particle_state_to_ml`, src/particle.c:1061. -/
noncomputable def statePitch (ppar : ℝ) : ℝ := 2 * (if ppar ≥ 0 then 1 else 0) - 1

/-- The parallel momentum of the final state, `particle_ml_to_state`, src/particle.c:1131. -/
def finalPpar (pitch : ℝ) : ℝ := pitch

end Ascot.MlStep
