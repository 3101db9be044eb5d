import Verif.Model.DistData

/-!
# Sums over some of the indices of an array
-/
namespace Ascot.Marginal

/-- The sum of all entries of an array with the given shape. -/
def total : List ℕ → (List ℕ → ℝ) → ℝ
  | [], g => g []
  | n :: s, g => ∑ j ∈ Finset.range n, total s fun r => g (j :: r)

/-- The sum over some axes, with factors: each axis has its size, and either stays or is summed over with a factor for
each index. -/
noncomputable def marginal : List (ℕ × Option (ℕ → ℝ)) → (List ℕ → ℝ) → List ℕ → ℝ
  | [], g, _ => g []
  | (_, none) :: s, g, i :: is => marginal s (fun r => g (i :: r)) is
  | (_, none) :: _, _, [] => 0
  | (n, some w) :: s, g, is => ∑ j ∈ Finset.range n, w j * marginal s (fun r => g (j :: r)) is

/-- The indices are within the shape. -/
def Within : List ℕ → List ℕ → Prop
  | [], [] => True
  | n :: s, i :: is => i < n ∧ Within s is
  | _, _ => False

/-- Edges of bins: in increasing order, and at least two. -/
def IsEdges (l : List ℝ) : Prop := 2 ≤ l.length ∧ l.Pairwise (· < ·)

end Ascot.Marginal
