import Mathlib.Data.Real.Basic
import Verif.Spec.Spline

/-!
# Splines of several variables

A table is interpolated along one axis after the other with one-dimensional splines.
-/
namespace Ascot.Tensor
open Ascot.Spline
open Ascot.Linint (BC)

/-- The distance of the `n` points from `lo` to `hi`; a periodic axis has no point at `hi`. -/
noncomputable def spacing (n : ℕ) (bc : BC) (lo hi : ℝ) : ℝ :=
  match bc with
  | .natural => (hi - lo) / (n - 1)
  | .periodic => (hi - lo) / n

/-- `x` is at the fraction `d` of the cell that begins at point `i` of the `n` points from `lo` to `hi`. -/
def At (n : ℕ) (lo hi x : ℝ) (i : ℕ) (d : ℝ) : Prop :=
  i + 1 < n ∧ 0 ≤ d ∧ d ≤ 1 ∧ (d = 1 → i + 2 = n) ∧ x = lo + (i + d) * ((hi - lo) / (n - 1))

/-- `x` is at the fraction `d` of the cell that begins at point `i` of the `n` points that divide the period from `lo` to `hi`
into equal parts, or whole periods away. -/
def AtPeriodic (n : ℕ) (lo hi x : ℝ) (i : ℕ) (d : ℝ) : Prop :=
  i < n ∧ 0 ≤ d ∧ d < 1 ∧ ∃ k : ℤ, x = lo + (i + d) * ((hi - lo) / n) + k * (hi - lo)

/-- `v` is the value, or a derivative, of the two-dimensional spline through the table `f` with `nx` and `ny` points at distances `gx`
and `gy`, at the fractions `dx`, `dy` of the cell `i`, `j`: there are splines along y through each row of the table and a spline along x through their values (or
derivatives) of which `v` is the value (or derivative). -/
def IsValue2 (nx ny : ℕ) (bx by_ : BC) (gx gy : ℝ) (f : ℕ → ℕ → ℝ) (i j : ℕ) (dx dy : ℝ) (ox oy : Op) (v : ℝ) : Prop :=
  ∃ (qy : ℕ → ℕ → Cubic ℝ) (qx : ℕ → Cubic ℝ), (∀ i < nx, IsSpline ny by_ (fun j => f i j) (qy i)) ∧
    IsSpline nx bx (fun i => (qy i j).op oy gy dy) qx ∧ v = (qx i).op ox gx dx

/-- The same in three dimensions: along z, then along y, then along x. -/
def IsValue3 (nx ny nz : ℕ) (bx by_ bz : BC) (gx gy gz : ℝ) (f : ℕ → ℕ → ℕ → ℝ) (i j k : ℕ) (dx dy dz : ℝ) (ox oy oz : Op) (v : ℝ) : Prop :=
  ∃ (qz : ℕ → ℕ → ℕ → Cubic ℝ) (qy : ℕ → ℕ → Cubic ℝ) (qx : ℕ → Cubic ℝ),
    (∀ i < nx, ∀ j < ny, IsSpline nz bz (fun k => f i j k) (qz i j)) ∧
    (∀ i < nx, IsSpline ny by_ (fun j => (qz i j k).op oz gz dz) (qy i)) ∧
    IsSpline nx bx (fun i => (qy i j).op oy gy dy) qx ∧ v = (qx i).op ox gx dx

end Ascot.Tensor
