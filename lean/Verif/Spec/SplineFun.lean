import Verif.Spec.Tensor

/-!
# Functions that are splines through a table
-/
namespace Ascot.Tensor
open Ascot.Spline
open Ascot.Linint (BC)

/-- `x` is at the fraction `d` of cell `i` of an axis. -/
def AtCell (n : ℕ) (bc : BC) (lo hi x : ℝ) (i : ℕ) (d : ℝ) : Prop :=
  match bc with
  | .natural => At n lo hi x i d
  | .periodic => AtPeriodic n lo hi x i d

/-- `F` is the natural cubic spline through the values `f` at `n` equally spaced points from `lo` to `hi`. -/
def IsSplineFun1 (n : ℕ) (lo hi : ℝ) (f : ℕ → ℝ) (F : ℝ → ℝ) : Prop :=
  ∃ q, NaturalSpline n f q ∧ ∀ x i d, At n lo hi x i d → F x = (q i).val d

/-- `F` is the two-dimensional cubic spline through the table `f`. -/
def IsSplineFun2 (nx ny : ℕ) (bx by_ : BC) (x0 x1 y0 y1 : ℝ) (f : ℕ → ℕ → ℝ) (F : ℝ × ℝ → ℝ) : Prop :=
  ∀ x y i j d e, AtCell nx bx x0 x1 x i d → AtCell ny by_ y0 y1 y j e →
    IsValue2 nx ny bx by_ (spacing nx bx x0 x1) (spacing ny by_ y0 y1) f i j d e .val .val (F (x, y))

end Ascot.Tensor
