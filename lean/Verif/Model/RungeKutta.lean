import Mathlib.Analysis.SpecialFunctions.Pow.Real

/-!
# Runge-Kutta steps of the guiding-center and field-line integrators

`src/simulate/step/step_gc_rk4.c`, `step_gc_cashkarp.c`, `step_ml_cashkarp.c`.  A state is an array indexed by `ι` (six
numbers for guiding centers, three for field lines).  The right-hand side, that is the field evaluations followed by the
equations of motion, is a parameter.  The derivative at the beginning of the step is separate because it is computed from the
field stored with the marker.
-/
namespace Ascot.RungeKutta

/-- Why a right-hand side has no value: an error flag was raised, or the result is not a number. -/
inductive Fault where
  | err (e : Nat)
  | nan
  deriving DecidableEq

variable {ι : Type}

/-- The state advanced by a weighted sum of derivatives, as in `yprev[j] + h*(...)`. -/
def advance (y : ι → ℝ) (h : ℝ) (k : ι → ℝ) : ι → ℝ := fun j => y j + h * k j

/-- Stages and result of the fixed-step integrator, src/simulate/step/step_gc_rk4.c:84-146 and 285-367. -/
noncomputable def rk4 (f : ℝ → (ι → ℝ) → Except Fault (ι → ℝ)) (k1 : Except Fault (ι → ℝ)) (t h : ℝ) (y : ι → ℝ) :
    Except Fault (ι → ℝ) :=
  match k1 with
  | .error e => .error e
  | .ok k1 =>
  match f (t + h / 2) (fun j => y j + h * k1 j / 2) with
  | .error e => .error e
  | .ok k2 =>
  match f (t + h / 2) (fun j => y j + h * k2 j / 2) with
  | .error e => .error e
  | .ok k3 =>
  match f (t + h) (fun j => y j + h * k3 j) with
  | .error e => .error e
  | .ok k4 => .ok fun j => y j + h / 6 * (k1 j + 2 * k2 j + 2 * k3 j + k4 j)

/-- The six derivatives of the adaptive integrator. -/
structure Stages (ι : Type) where
  k1 : ι → ℝ
  k2 : ι → ℝ
  k3 : ι → ℝ
  k4 : ι → ℝ
  k5 : ι → ℝ
  k6 : ι → ℝ

/-- Stages of the adaptive integrator, src/simulate/step/step_gc_cashkarp.c:85-191 and
src/simulate/step/step_ml_cashkarp.c:64-157. -/
noncomputable def stages (f : ℝ → (ι → ℝ) → Except Fault (ι → ℝ)) (k1 : Except Fault (ι → ℝ)) (t h : ℝ) (y : ι → ℝ) :
    Except Fault (Stages ι) :=
  match k1 with
  | .error e => .error e
  | .ok k1 =>
  match f (t + 1 / 5 * h) (advance y h fun j => 1 / 5 * k1 j) with
  | .error e => .error e
  | .ok k2 =>
  match f (t + 3 / 10 * h) (advance y h fun j => 3 / 40 * k1 j + 9 / 40 * k2 j) with
  | .error e => .error e
  | .ok k3 =>
  match f (t + 3 / 5 * h) (advance y h fun j => 3 / 10 * k1 j + -9 / 10 * k2 j + 6 / 5 * k3 j) with
  | .error e => .error e
  | .ok k4 =>
  match f (t + h) (advance y h fun j => -11 / 54 * k1 j + 5 / 2 * k2 j + -70 / 27 * k3 j + 35 / 27 * k4 j) with
  | .error e => .error e
  | .ok k5 =>
  match f (t + 7 / 8 * h) (advance y h fun j =>
      1631 / 55296 * k1 j + 175 / 512 * k2 j + 575 / 13824 * k3 j + 44275 / 110592 * k4 j + 253 / 4096 * k5 j) with
  | .error e => .error e
  | .ok k6 => .ok ⟨k1, k2, k3, k4, k5, k6⟩

/-- `rk5`, src/simulate/step/step_gc_cashkarp.c:200-205 and src/simulate/step/step_ml_cashkarp.c:165-170. -/
noncomputable def rk5 (y : ι → ℝ) (h : ℝ) (s : Stages ι) : ι → ℝ :=
  advance y h fun j => 37 / 378 * s.k1 j + 250 / 621 * s.k3 j + 125 / 594 * s.k4 j + 512 / 1771 * s.k6 j

/-- `rk4`, src/simulate/step/step_gc_cashkarp.c:207-213 and src/simulate/step/step_ml_cashkarp.c:172-178. -/
noncomputable def embedded (y : ι → ℝ) (h : ℝ) (s : Stages ι) : ι → ℝ :=
  advance y h fun j => 2825 / 27648 * s.k1 j + 18575 / 48384 * s.k3 j + 13525 / 55296 * s.k4 j + 277 / 14336 * s.k5 j + 1 / 4 * s.k6 j

/-- Error of one component relative to its size, src/simulate/step/step_gc_cashkarp.c:215-218 and
src/simulate/step/step_ml_cashkarp.c:180-182.  `eps` is `DBL_EPSILON`. -/
noncomputable def errOne (eps h : ℝ) (y : ι → ℝ) (s : Stages ι) (j : ι) : ℝ :=
  |rk5 y h s j - embedded y h s j| / (|y j| + |s.k1 j * h| + eps)

/-- Error of the position of a guiding center, src/simulate/step/step_gc_cashkarp.c:221-231. -/
noncomputable def errPos (eps h : ℝ) (y : Fin 6 → ℝ) (s : Stages (Fin 6)) : ℝ :=
  let a := rk5 y h s
  let b := embedded y h s
  let d : Fin 6 → ℝ := fun j => s.k1 j * h
  let yerr := a 0 * a 0 + b 0 * b 0 - 2 * a 0 * b 0 * Real.cos (a 1 - b 1) + (a 2 - b 2) * (a 2 - b 2)
  let ytol := y 0 * y 0 + d 0 * d 0 - 2 * y 0 * d 0 * Real.cos (y 1 - d 1) + (y 2 - d 2) * (y 2 - d 2) + eps
  Real.sqrt (yerr / ytol)

/-- `err` of the guiding-center integrator before the division by the tolerance,
src/simulate/step/step_gc_cashkarp.c:198-233. -/
noncomputable def errGc (eps h : ℝ) (y : Fin 6 → ℝ) (s : Stages (Fin 6)) : ℝ :=
  max (max 0 (errPos eps h y s)) (errOne eps h y s 3)

/-- `err` of the field-line integrator before the division by the tolerance,
src/simulate/step/step_ml_cashkarp.c:163-183. -/
noncomputable def errMl (eps h : ℝ) (y : Fin 3 → ℝ) (s : Stages (Fin 3)) : ℝ :=
  max (max (max 0 (errOne eps h y s 0)) (errOne eps h y s 1)) (errOne eps h y s 2)

/-- Suggestion for the next step of the guiding-center integrator from the relative error `err = error / tolerance`,
src/simulate/step/step_gc_cashkarp.c:236-248.  `none`: the value is infinite or not a number.  `pow(0, -0.2)` is infinite;
the suggestion is then the cap if the step is positive, minus infinity if it is negative and not a number if it is zero. -/
noncomputable def nextGc (h err : ℝ) : Option ℝ :=
  if err ≤ 1 then
    if err = 0 then (if 0 < h then some (1.5 * h) else none)
    else
      let n := 0.85 * h * err ^ (-0.2 : ℝ)
      some (if n > 1.5 * h then 1.5 * h else n)
  else some (-0.85 * h * err ^ (-0.25 : ℝ))

/-- Suggestion for the next step of the field-line integrator, src/simulate/step/step_ml_cashkarp.c:186-195.  `none`: the
value is infinite or not a number. -/
noncomputable def nextMl (h err : ℝ) : Option ℝ :=
  if err ≤ 1 then
    if err = 0 then none
    else some (0.85 * h * err ^ (-0.2 : ℝ))
  else some (-0.85 * h * err ^ (-0.25 : ℝ))

end Ascot.RungeKutta
