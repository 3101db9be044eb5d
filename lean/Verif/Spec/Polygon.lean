import Mathlib.Algebra.BigOperators.Ring.Finset
import Mathlib.Data.Real.Basic

/-!
# Polygons

The corners are `P 0`, ..., `P m` where `P m = P 0`.
-/
namespace Ascot.Polygon

/-- Area of a polygon with corners in counterclockwise order. -/
noncomputable def area (P : ℕ → ℝ × ℝ) (m : ℕ) : ℝ :=
  1 / 2 * ∑ k ∈ Finset.range m, ((P k).1 * (P (k + 1)).2 - (P (k + 1)).1 * (P k).2)

/-- The integral of the first coordinate over the polygon: the volume, per radian, of the body that it makes when it is
turned about the vertical axis. -/
noncomputable def moment (P : ℕ → ℝ × ℝ) (m : ℕ) : ℝ :=
  1 / 6 * ∑ k ∈ Finset.range m, ((P k).1 + (P (k + 1)).1) * ((P k).1 * (P (k + 1)).2 - (P (k + 1)).1 * (P k).2)

/-- Seen from `o`, the corners are in counterclockwise order. -/
def Around (o : ℝ × ℝ) (P : ℕ → ℝ × ℝ) (m : ℕ) : Prop :=
  P m = P 0 ∧ ∀ k, k < m → 0 ≤ ((P k).1 - o.1) * ((P (k + 1)).2 - o.2) - ((P (k + 1)).1 - o.1) * ((P k).2 - o.2)

/-- A rectangle. -/
def rectangle (a b c d : ℝ) : ℕ → ℝ × ℝ
  | 0 => (a, c)
  | 1 => (b, c)
  | 2 => (b, d)
  | 3 => (a, d)
  | _ => (a, c)

end Ascot.Polygon
