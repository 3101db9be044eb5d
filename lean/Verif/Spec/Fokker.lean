import Mathlib.Analysis.Calculus.Deriv.Basic
import Mathlib.Analysis.SpecialFunctions.Exp
import Mathlib.Analysis.SpecialFunctions.Sqrt

/-!
# Stationary densities of stochastic differential equations

For `dX = a dt + b dW` the density `f` of `X` obeys `df/dt = -dJ/dx` with the flux `J = a f - ½ d(b² f)/dx`.  In several
dimensions, with `dX = a dt + b dW` and `D = ½ b bᵀ`, the flux is `J i = a i f - Σ j, d(D i j f)/dx j`.
-/
namespace Ascot.Fokker

/-- The flux of density `f` vanishes at `x`: `½ b² f` has the derivative `a f` there. -/
def NoFlux (a b f : ℝ → ℝ) (x : ℝ) : Prop := HasDerivAt (fun x => b x ^ 2 * f x / 2) (a x * f x) x

/-- `x` with component `j` replaced. -/
def put (x : Fin 3 → ℝ) (j : Fin 3) (t : ℝ) : Fin 3 → ℝ := fun i => if i = j then t else x i

/-- The flux vanishes at `x`, in three dimensions: the derivatives of `D i j f` along the coordinates `j` exist and add up
to `a i f`. -/
def NoFlux3 (a : (Fin 3 → ℝ) → Fin 3 → ℝ) (D : (Fin 3 → ℝ) → Fin 3 → Fin 3 → ℝ) (f : (Fin 3 → ℝ) → ℝ) (x : Fin 3 → ℝ) : Prop :=
  ∀ i, ∃ d : Fin 3 → ℝ, (∀ j, HasDerivAt (fun t => D (put x j t) i j * f (put x j t)) (d j) (x j)) ∧
    d 0 + d 1 + d 2 = a x i * f x

/-- Density of the speed in a Maxwellian of temperature `T`, up to normalisation. -/
noncomputable def maxwellSpeed (m T v : ℝ) : ℝ := v ^ 2 * Real.exp (-(m * v ^ 2 / (2 * T)))

/-- Density of the velocity in a Maxwellian of temperature `T`, up to normalisation. -/
noncomputable def maxwell (m T : ℝ) (v : Fin 3 → ℝ) : ℝ := Real.exp (-(m * (v 0 ^ 2 + v 1 ^ 2 + v 2 ^ 2) / (2 * T)))

/-- Euler-Maruyama step for `dX = a dt + sqrt(B) dW`. -/
noncomputable def eulerStep (a B : ℝ → ℝ) (x h dW : ℝ) : ℝ := x + a x * h + Real.sqrt (B x) * dW

/-- Milstein step for `dX = a dt + b dW` with `b = sqrt(B)`: the correction is `½ b b' (dW² - h)`, and `b b' = ½ B'`. -/
noncomputable def milsteinStep (a B : ℝ → ℝ) (x h dW : ℝ) : ℝ := eulerStep a B x h dW + deriv B x / 4 * (dW ^ 2 - h)

end Ascot.Fokker
