import Mathlib.Data.Real.Basic
import Mathlib.Algebra.BigOperators.Group.List.Basic

/-!
# Summary of lost markers (`getstate_losssummary`, a5py/routines/runmixin.py:297-323)

Numbers are real numbers; energies of both states are in the same unit (the library of units converts the quotient).  The
rounding to one decimal of a percent and the text are not modelled.
-/
namespace Ascot.LossSummary

/-- A marker with what is read from its two states: weight and kinetic energy, and whether its end condition is `wall`. -/
structure Mrk where
  w0 : ℝ
  e0 : ℝ
  w1 : ℝ
  e1 : ℝ
  wall : Bool

/-- What the message tells; the fractions are `none` if the denominator is zero. -/
structure Summary where
  markers : ℕ
  markersFrac : Option ℝ
  particles : ℝ
  particlesFrac : Option ℝ
  power : ℝ
  powerFrac : Option ℝ

/-- A quotient; division by zero gives no number. -/
noncomputable def quot (a b : ℝ) : Option ℝ := if b = 0 then none else some (a / b)

/-- a5py/routines/runmixin.py:302-313; `getstate(..., state="ini")` gives all markers, `getstate(..., endcond="wall")` those
that have hit the wall. -/
noncomputable def summary (l : List Mrk) : Summary :=
  let lost := l.filter (·.wall)
  { markers := lost.length
    markersFrac := quot lost.length l.length
    particles := (lost.map (·.w1)).sum
    particlesFrac := quot (lost.map (·.w1)).sum (l.map (·.w0)).sum
    power := (lost.map fun m => m.w1 * m.e1).sum
    powerFrac := quot (lost.map fun m => m.w1 * m.e1).sum (l.map fun m => m.w0 * m.e0).sum }

end Ascot.LossSummary
