import Mathlib.Analysis.SpecialFunctions.Sqrt
import Mathlib.Data.Real.Basic

/-!
# Field lines on a flux surface

A flux surface is a closed polygon with the corners `(r k, z k)`, `k = 0, …, N`, on which the magnetic field is given at the corners.
-/
namespace Ascot.FieldLine

/-- The number `t k` says how far one follows the field from corner `k` to the next: the side of the polygon has the projection
`t k * Bpol` on the poloidal field `Bpol`. -/
def Follows (N : ℕ) (r z br bz t : ℕ → ℝ) : Prop :=
  ∀ k, k < N → (r (k + 1) - r k) * br k + (z (k + 1) - z k) * bz k = t k * (br k ^ 2 + bz k ^ 2)

/-- The toroidal angle of the field line. -/
def Line (N : ℕ) (r bphi t phi : ℕ → ℝ) : Prop := ∀ k, k < N → r k * (phi (k + 1) - phi k) = t k * bphi k

/-- The weighted mean of `f`. -/
noncomputable def mean (N : ℕ) (w f : ℕ → ℝ) : ℝ := (∑ k ∈ Finset.range N, f k * w k) / ∑ k ∈ Finset.range N, w k

end Ascot.FieldLine
