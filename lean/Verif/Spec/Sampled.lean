import Verif.Model.MarkerGen

/-!
# Markers that represent the particles of a distribution
-/
namespace Ascot.Sampled

/-- The number of cells. -/
def size (edges : List (List ℝ)) : ℕ := (edges.map fun e => e.length - 1).prod

/-- A point lies in the `c`-th cell, where the last axis runs fastest. -/
def InCell : List (List ℝ) → ℕ → List ℝ → Prop
  | [], c, [] => c = 0
  | e :: es, c, x :: xs => ∃ i c' a b, c = i * size es + c' ∧ c' < size es ∧ e[i]? = some a ∧
      e[i + 1]? = some b ∧ a ≤ x ∧ x < b ∧ InCell es c' xs
  | _, _, _ => False

/-- Edges in increasing order. -/
def Increasing (edges : List (List ℝ)) : Prop := ∀ e ∈ edges, e.Pairwise (· < ·)

/-- The sum of the weights of the markers in a cell. -/
noncomputable def inside (l : List (ℕ × ℝ)) (c : ℕ) : ℝ := ((l.filter fun x => x.1 = c).map (·.2)).sum

/-- The Lorentz factor and the momentum that belong to a velocity. -/
noncomputable def momentumOf (c mass v : ℝ) : ℝ := mass * v / Real.sqrt (1 - v ^ 2 / c ^ 2)

/-- The momentum of a particle with this kinetic energy. -/
def HasMomentum (c mass energy p : ℝ) : Prop :=
  0 ≤ p ∧ 0 ≤ energy ∧ (energy + mass * c ^ 2) ^ 2 = (p * c) ^ 2 + (mass * c ^ 2) ^ 2

end Ascot.Sampled
