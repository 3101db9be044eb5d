import Mathlib.Analysis.SpecialFunctions.Log.Deriv
import Mathlib.Analysis.Calculus.Deriv.Pow
import Mathlib.Analysis.Calculus.Deriv.Inv
import Mathlib.Tactic.NormNum
import Mathlib.Tactic.Ring
import Mathlib.Tactic.Linarith
import Mathlib.Tactic.FieldSimp
import Mathlib.Tactic.Positivity
import Mathlib.Tactic.LinearCombination
import Verif.Model.BGS

set_option linter.unusedSectionVars false
set_option linter.unusedSimpArgs false

namespace Ascot.BGS
open Ascot.Coord

/-- Derivative of a polynomial in `r^2` with logarithmic terms. -/
theorem even_log (R0 r A0 A2 A4 A6 b0 b2 b4 b6 : ℝ) (h : R0 ≠ 0) (hr : r ≠ 0) :
    HasDerivAt (fun r => A0 + A2 * r ^ 2 + A4 * r ^ 4 + A6 * r ^ 6 + (b0 + b2 * r ^ 2 + b4 * r ^ 4 + b6 * r ^ 6) * Real.log (r / R0))
      (2 * A2 * r + 4 * A4 * r ^ 3 + 6 * A6 * r ^ 5 + (2 * b2 * r + 4 * b4 * r ^ 3 + 6 * b6 * r ^ 5) * Real.log (r / R0)
        + (b0 / r + b2 * r + b4 * r ^ 3 + b6 * r ^ 5)) r := by
  have hl : HasDerivAt (fun r => Real.log (r / R0)) (1 / r) r := by
    have := ((hasDerivAt_id r).div_const R0).log (by simpa using ⟨hr, h⟩)
    refine this.congr_deriv ?_
    simp only [id]
    field_simp
  have p2 : HasDerivAt (fun r : ℝ => r ^ 2) (2 * r) r := by simpa using hasDerivAt_pow 2 r
  have p4 : HasDerivAt (fun r : ℝ => r ^ 4) (4 * r ^ 3) r := by simpa using hasDerivAt_pow 4 r
  have p6 : HasDerivAt (fun r : ℝ => r ^ 6) (6 * r ^ 5) r := by simpa using hasDerivAt_pow 6 r
  have e1 := (((hasDerivAt_const r A0).add (p2.const_mul A2)).add (p4.const_mul A4)).add (p6.const_mul A6)
  have e2 := (((hasDerivAt_const r b0).add (p2.const_mul b2)).add (p4.const_mul b4)).add (p6.const_mul b6)
  refine (e1.add (e2.mul hl)).congr_deriv ?_
  simp only [Pi.add_apply]
  field_simp
  ring

/-- Derivative of a polynomial. -/
theorem poly6 (z c0 c1 c2 c3 c4 c5 c6 : ℝ) :
    HasDerivAt (fun z => c0 + c1 * z + c2 * z ^ 2 + c3 * z ^ 3 + c4 * z ^ 4 + c5 * z ^ 5 + c6 * z ^ 6)
      (c1 + 2 * c2 * z + 3 * c3 * z ^ 2 + 4 * c4 * z ^ 3 + 5 * c5 * z ^ 4 + 6 * c6 * z ^ 5) z := by
  have p : ∀ n : ℕ, HasDerivAt (fun r : ℝ => r ^ n) (n * z ^ (n - 1)) z := fun n => hasDerivAt_pow n z
  have e := ((((((hasDerivAt_const z c0).add ((hasDerivAt_id z).const_mul c1)).add ((p 2).const_mul c2)).add ((p 3).const_mul c3)).add
    ((p 4).const_mul c4)).add ((p 5).const_mul c5)).add ((p 6).const_mul c6)
  refine e.congr_deriv ?_
  norm_num
  ring

theorem psi_r (C : Fin 14 → ℝ) (R0 r z : ℝ) (h : R0 ≠ 0) (hr : r ≠ 0) :
    HasDerivAt (fun r => psiSum C (r / R0) z (Real.log (r / R0))) (sumR C (r / R0) z (Real.log (r / R0)) / R0) r := by
  have e := even_log R0 r (C 0 - C 2 * z ^ 2 + 2 * C 4 * z ^ 4 + 8 * C 6 * z ^ 6 + C 7 * z + C 9 * z ^ 3 + 8 * C 11 * z ^ 5)
    ((C 1 - 4 * C 3 * z ^ 2 - 9 * C 4 * z ^ 2 + 8 * C 5 * z ^ 4 - 140 * C 6 * z ^ 4 + C 8 * z - 4 * C 10 * z ^ 3) / R0 ^ 2)
    (((1 - C 12) / 8 + C 3 - 12 * C 5 * z ^ 2 + 75 * C 6 * z ^ 2 + 3 * C 10 * z - 45 * C 11 * z) / R0 ^ 4)
    (C 5 / R0 ^ 6) 0
    ((C 12 / 2 + C 2 - 12 * C 4 * z ^ 2 - 120 * C 6 * z ^ 4 - 3 * C 9 * z - 80 * C 11 * z ^ 3) / R0 ^ 2)
    ((3 * C 4 + 180 * C 6 * z ^ 2 + 60 * C 11 * z) / R0 ^ 4) (-15 * C 6 / R0 ^ 6) h hr
  refine (e.congr_of_eventuallyEq (Filter.Eventually.of_forall fun r => ?_)).congr_deriv ?_
  · unfold psiSum
    dsimp only
    generalize Real.log (r / R0) = L
    ring
  · unfold sumR
    dsimp only
    generalize Real.log (r / R0) = L
    field_simp
    ring

theorem psi_z (C : Fin 14 → ℝ) (r z L : ℝ) : HasDerivAt (fun z => psiSum C r z L) (sumZ C r z L) z := by
  have e := poly6 z ((1 - C 12) * (r ^ 4 / 8) + C 12 * (r ^ 2 * L / 2) + C 0 + C 1 * r ^ 2 + C 2 * r ^ 2 * L + C 3 * r ^ 4 + 3 * C 4 * r ^ 4 * L + C 5 * r ^ 6
      - 15 * C 6 * r ^ 6 * L)
    (C 7 + C 8 * r ^ 2 - 3 * C 9 * r ^ 2 * L + 3 * C 10 * r ^ 4 + C 11 * (-45 * r ^ 4 + 60 * r ^ 4 * L))
    (-C 2 - 4 * C 3 * r ^ 2 + C 4 * (-9 * r ^ 2 - 12 * r ^ 2 * L) - 12 * C 5 * r ^ 4 + C 6 * (180 * r ^ 4 * L + 75 * r ^ 4))
    (C 9 - 4 * C 10 * r ^ 2 - 80 * C 11 * r ^ 2 * L)
    (2 * C 4 + 8 * C 5 * r ^ 2 + C 6 * (-140 * r ^ 2 - 120 * r ^ 2 * L)) (8 * C 11) (8 * C 6)
  refine (e.congr_of_eventuallyEq (Filter.Eventually.of_forall fun z => ?_)).congr_deriv ?_
  · unfold psiSum
    ring
  · unfold sumZ
    ring

theorem jac_av (d : Data) (r z : ℝ) (h : d.R0 ≠ 0) (hr : r ≠ 0) :
    (smoothJac d r z).a.v = sumZ d.C (r / d.R0) (z / d.R0) (Real.log (r / d.R0)) * (-d.mult / (r / d.R0 * d.R0 * d.R0)) := by
  unfold smoothJac sumZ
  dsimp only
  generalize Real.log (r / d.R0) = L
  field_simp

theorem jac_cv (d : Data) (r z : ℝ) (h : d.R0 ≠ 0) (hr : r ≠ 0) :
    (smoothJac d r z).c.v = sumR d.C (r / d.R0) (z / d.R0) (Real.log (r / d.R0)) * (d.mult / (r / d.R0 * d.R0 * d.R0)) := by
  unfold smoothJac sumR
  dsimp only
  generalize Real.log (r / d.R0) = L
  field_simp

theorem jac_ar (d : Data) (r z : ℝ) (h : d.R0 ≠ 0) (hr : r ≠ 0) :
    HasDerivAt (fun r => (smoothJac d r z).a.v) (smoothJac d r z).a.d1 r := by
  have e := even_log d.R0 r
    (d.C 2 * (-2 * z) / d.R0 ^ 2 + 8 * d.C 4 * z ^ 3 / d.R0 ^ 4 + 48 * d.C 6 * z ^ 5 / d.R0 ^ 6 + d.C 7 / d.R0 + 3 * d.C 9 * z ^ 2 / d.R0 ^ 3
      + 40 * d.C 11 * z ^ 4 / d.R0 ^ 5)
    (-8 * d.C 3 * z / d.R0 ^ 4 - 18 * d.C 4 * z / d.R0 ^ 4 + 32 * d.C 5 * z ^ 3 / d.R0 ^ 6 - 560 * d.C 6 * z ^ 3 / d.R0 ^ 6 + d.C 8 / d.R0 ^ 3
      - 12 * d.C 10 * z ^ 2 / d.R0 ^ 5)
    (-24 * d.C 5 * z / d.R0 ^ 6 + 150 * d.C 6 * z / d.R0 ^ 6 + 3 * d.C 10 / d.R0 ^ 5 - 45 * d.C 11 / d.R0 ^ 5) 0 0
    (-24 * d.C 4 * z / d.R0 ^ 4 - 480 * d.C 6 * z ^ 3 / d.R0 ^ 6 - 3 * d.C 9 / d.R0 ^ 3 - 240 * d.C 11 * z ^ 2 / d.R0 ^ 5)
    (360 * d.C 6 * z / d.R0 ^ 6 + 60 * d.C 11 / d.R0 ^ 5) 0 h hr
  have e2 : HasDerivAt (fun r : ℝ => -d.mult / r) (d.mult / r ^ 2) r := by
    refine ((hasDerivAt_inv hr).const_mul (-d.mult)).congr_deriv ?_
    field_simp
  refine ((e.mul e2).congr_of_eventuallyEq (Filter.Eventually.of_forall fun r => ?_)).congr_deriv ?_
  · unfold smoothJac
    dsimp only [Pi.mul_apply]
    generalize Real.log (r / d.R0) = L
    congr 1
    ring
  · unfold smoothJac
    dsimp only
    generalize Real.log (r / d.R0) = L
    field_simp
    ring

theorem jac_az (d : Data) (r z : ℝ) : HasDerivAt (fun z => (smoothJac d r z).a.v) (smoothJac d r z).a.d3 z := by
  generalize hL : Real.log (r / d.R0) = L
  have e := (poly6 z (d.C 7 / d.R0 + d.C 8 * r ^ 2 / d.R0 ^ 3 - 3 * d.C 9 * r ^ 2 * L / d.R0 ^ 3 + 3 * d.C 10 * r ^ 4 / d.R0 ^ 5
      + d.C 11 * (-45 * r ^ 4 + 60 * r ^ 4 * L) / d.R0 ^ 5)
    (-2 * d.C 2 / d.R0 ^ 2 - 8 * d.C 3 * r ^ 2 / d.R0 ^ 4 + d.C 4 * (-18 * r ^ 2 - 24 * r ^ 2 * L) / d.R0 ^ 4 - 24 * d.C 5 * r ^ 4 / d.R0 ^ 6
      + d.C 6 * (360 * r ^ 4 * L + 150 * r ^ 4) / d.R0 ^ 6)
    (3 * d.C 9 / d.R0 ^ 3 - 12 * d.C 10 * r ^ 2 / d.R0 ^ 5 - 240 * d.C 11 * r ^ 2 * L / d.R0 ^ 5)
    (8 * d.C 4 / d.R0 ^ 4 + 32 * d.C 5 * r ^ 2 / d.R0 ^ 6 + d.C 6 * (-560 * r ^ 2 - 480 * r ^ 2 * L) / d.R0 ^ 6)
    (40 * d.C 11 / d.R0 ^ 5) (48 * d.C 6 / d.R0 ^ 6) 0).mul_const (-d.mult / r)
  refine (e.congr_of_eventuallyEq (Filter.Eventually.of_forall fun z => ?_)).congr_deriv ?_
  · unfold smoothJac
    dsimp only
    rw [hL]
    congr 1
    ring
  · unfold smoothJac
    dsimp only
    rw [hL]
    congr 1
    ring

theorem jac_cr (d : Data) (r z : ℝ) (h : d.R0 ≠ 0) (hr : r ≠ 0) :
    HasDerivAt (fun r => (smoothJac d r z).c.v) (smoothJac d r z).c.d1 r := by
  have e := (even_log d.R0 r
    ((d.C 12 / 2 + 2 * d.C 1 + d.C 2) / d.R0 ^ 2 - 8 * d.C 3 * z ^ 2 / d.R0 ^ 4 - 30 * d.C 4 * z ^ 2 / d.R0 ^ 4 + 16 * d.C 5 * z ^ 4 / d.R0 ^ 6
      - 400 * d.C 6 * z ^ 4 / d.R0 ^ 6 + 2 * d.C 8 * z / d.R0 ^ 3 - 3 * d.C 9 * z / d.R0 ^ 3 - 8 * d.C 10 * z ^ 3 / d.R0 ^ 5 - 80 * d.C 11 * z ^ 3 / d.R0 ^ 5)
    (((1 - d.C 12) / 2 + 4 * d.C 3 + 3 * d.C 4) / d.R0 ^ 4 - 48 * d.C 5 * z ^ 2 / d.R0 ^ 6 + 480 * d.C 6 * z ^ 2 / d.R0 ^ 6 + 12 * d.C 10 * z / d.R0 ^ 5
      - 120 * d.C 11 * z / d.R0 ^ 5)
    ((6 * d.C 5 - 15 * d.C 6) / d.R0 ^ 6) 0
    ((d.C 12 + 2 * d.C 2) / d.R0 ^ 2 - 24 * d.C 4 * z ^ 2 / d.R0 ^ 4 - 240 * d.C 6 * z ^ 4 / d.R0 ^ 6 - 6 * d.C 9 * z / d.R0 ^ 3
      - 160 * d.C 11 * z ^ 3 / d.R0 ^ 5)
    (12 * d.C 4 / d.R0 ^ 4 + 720 * d.C 6 * z ^ 2 / d.R0 ^ 6 + 240 * d.C 11 * z / d.R0 ^ 5)
    (-90 * d.C 6 / d.R0 ^ 6) 0 h hr).const_mul d.mult
  refine (e.congr_of_eventuallyEq ?_).congr_deriv ?_
  · filter_upwards [isOpen_ne.mem_nhds hr] with r hr
    have hr : r ≠ 0 := hr
    unfold smoothJac
    dsimp only
    generalize Real.log (r / d.R0) = L
    field_simp
    ring
  · unfold smoothJac
    dsimp only
    generalize Real.log (r / d.R0) = L
    field_simp
    ring

theorem jac_cz (d : Data) (r z : ℝ) (h : d.R0 ≠ 0) (hr : r ≠ 0) :
    HasDerivAt (fun z => (smoothJac d r z).c.v) (smoothJac d r z).c.d3 z := by
  generalize hL : Real.log (r / d.R0) = L
  have e := (poly6 z
    ((1 - d.C 12) * (r ^ 3 / 2) / d.R0 ^ 4 + d.C 12 * (r / 2 + r * L) / d.R0 ^ 2 + d.C 1 * (2 * r) / d.R0 ^ 2 + d.C 2 * (2 * r * L + r) / d.R0 ^ 2
      + 4 * d.C 3 * r ^ 3 / d.R0 ^ 4 + d.C 4 * (12 * r ^ 3 * L + 3 * r ^ 3) / d.R0 ^ 4 + 6 * d.C 5 * r ^ 5 / d.R0 ^ 6
      + d.C 6 * (-90 * r ^ 5 * L - 15 * r ^ 5) / d.R0 ^ 6)
    (2 * d.C 8 * r / d.R0 ^ 3 + d.C 9 * (-6 * r * L - 3 * r) / d.R0 ^ 3 + 12 * d.C 10 * r ^ 3 / d.R0 ^ 5 + d.C 11 * (-120 * r ^ 3 + 240 * r ^ 3 * L) / d.R0 ^ 5)
    (-8 * d.C 3 * r / d.R0 ^ 4 + d.C 4 * (-30 * r - 24 * r * L) / d.R0 ^ 4 - 48 * d.C 5 * r ^ 3 / d.R0 ^ 6
      + d.C 6 * (720 * r ^ 3 * L + 480 * r ^ 3) / d.R0 ^ 6)
    (-8 * d.C 10 * r / d.R0 ^ 5 + d.C 11 * (-160 * r * L - 80 * r) / d.R0 ^ 5)
    (16 * d.C 5 * r / d.R0 ^ 6 + d.C 6 * (-400 * r - 240 * r * L) / d.R0 ^ 6) 0 0).mul_const (d.mult / r)
  refine (e.congr_of_eventuallyEq (Filter.Eventually.of_forall fun z => ?_)).congr_deriv ?_
  · unfold smoothJac
    dsimp only
    rw [hL]
    congr 1
    ring
  · unfold smoothJac
    dsimp only
    rw [hL]
    field_simp
    ring

/-- Toroidal component of the curl. -/
theorem jac_current (d : Data) (r z : ℝ) (h : d.R0 ≠ 0) (hr : r ≠ 0) :
    (smoothJac d r z).c.d1 - (smoothJac d r z).a.d3 = d.mult / (r * d.R0 ^ 2) * ((1 - d.C 12) * (r / d.R0) ^ 2 + d.C 12) := by
  unfold smoothJac
  dsimp only
  generalize Real.log (r / d.R0) = L
  field_simp
  ring

end Ascot.BGS
