import Mathlib.Algebra.Order.Field.Basic

/-!
# Tabulated profiles

`x 0 < x 1 < … < x (n-1)` are the grid points and `y i` is the value at `x i`.
-/
namespace Ascot.Profile
variable {K : Type} [Field K] [LinearOrder K]

def Increasing (n : Nat) (x : Nat → K) : Prop := ∀ i, i + 1 < n → x i < x (i + 1)

/-- `v` is in the interval that begins at grid point `i`. -/
def Between (n : Nat) (x : Nat → K) (v : K) (i : Nat) : Prop := i + 1 < n ∧ x i ≤ v ∧ v < x (i + 1)

/-- Below the first grid point, or not below the last one. -/
def Outside (n : Nat) (x : Nat → K) (v : K) : Prop := v < x 0 ∨ x (n - 1) ≤ v

/-- The straight line through the points `(x i, y i)` and `(x (i+1), y (i+1))`. -/
def lerp (x y : Nat → K) (v : K) (i : Nat) : K := y i + (v - x i) / (x (i + 1) - x i) * (y (i + 1) - y i)

/-- The profile of species `s`: the electrons have index zero, ions are stored one after the other. -/
def species (n : Nat) (e ion : Nat → K) (s : Nat) (i : Nat) : K := if s = 0 then e i else ion ((s - 1) * n + i)

/-- The temperature of species `s`: the ions have one temperature. -/
def temperature (e ion : Nat → K) (s : Nat) : Nat → K := if s = 0 then e else ion

end Ascot.Profile
