import Mathlib.Analysis.Calculus.Deriv.Basic
import Mathlib.Analysis.Calculus.FDeriv.Prod
import Verif.Spec.Spline

/-!
# Functions with continuous second derivatives

The derivatives are those within the domain, one-sided at its edges.
-/
namespace Ascot.Smooth
open Ascot.Linint (BC)

/-- The coordinates that belong to an axis: those between its ends, or all if it is periodic. -/
def axis (bc : BC) (lo hi : ℝ) : Set ℝ :=
  match bc with
  | .natural => Set.Icc lo hi
  | .periodic => Set.univ

/-- The linear map with the given partial derivatives. -/
noncomputable def lin2 (a b : ℝ) : ℝ × ℝ →L[ℝ] ℝ :=
  a • ContinuousLinearMap.fst ℝ ℝ ℝ + b • ContinuousLinearMap.snd ℝ ℝ ℝ

noncomputable def lin3 (a b c : ℝ) : ℝ × ℝ × ℝ →L[ℝ] ℝ :=
  a • ContinuousLinearMap.fst ℝ ℝ (ℝ × ℝ) + (lin2 b c).comp (ContinuousLinearMap.snd ℝ ℝ (ℝ × ℝ))

/-- `F'` and `F''` are the first and second derivative of `F` on `D`, and `F''` is continuous. -/
structure C2 (D : Set ℝ) (F F' F'' : ℝ → ℝ) : Prop where
  first : ∀ x ∈ D, HasDerivWithinAt F (F' x) D x
  second : ∀ x ∈ D, HasDerivWithinAt F' (F'' x) D x
  cont : ContinuousOn F'' D

/-- The same for a function of two variables, with the total derivatives. -/
structure C2two (D : Set (ℝ × ℝ)) (F Fx Fy Fxx Fyy Fxy : ℝ × ℝ → ℝ) : Prop where
  first : ∀ p ∈ D, HasFDerivWithinAt F (lin2 (Fx p) (Fy p)) D p
  x : ∀ p ∈ D, HasFDerivWithinAt Fx (lin2 (Fxx p) (Fxy p)) D p
  y : ∀ p ∈ D, HasFDerivWithinAt Fy (lin2 (Fxy p) (Fyy p)) D p
  cont : ContinuousOn Fxx D ∧ ContinuousOn Fyy D ∧ ContinuousOn Fxy D

/-- The same for a function of three variables. -/
structure C2three (D : Set (ℝ × ℝ × ℝ)) (F Fx Fy Fz Fxx Fyy Fzz Fxy Fxz Fyz : ℝ × ℝ × ℝ → ℝ) : Prop where
  first : ∀ p ∈ D, HasFDerivWithinAt F (lin3 (Fx p) (Fy p) (Fz p)) D p
  x : ∀ p ∈ D, HasFDerivWithinAt Fx (lin3 (Fxx p) (Fxy p) (Fxz p)) D p
  y : ∀ p ∈ D, HasFDerivWithinAt Fy (lin3 (Fxy p) (Fyy p) (Fyz p)) D p
  z : ∀ p ∈ D, HasFDerivWithinAt Fz (lin3 (Fxz p) (Fyz p) (Fzz p)) D p
  cont : ContinuousOn Fxx D ∧ ContinuousOn Fyy D ∧ ContinuousOn Fzz D ∧ ContinuousOn Fxy D ∧ ContinuousOn Fxz D ∧ ContinuousOn Fyz D

end Ascot.Smooth
