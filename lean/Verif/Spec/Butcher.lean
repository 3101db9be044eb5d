import Mathlib.Algebra.BigOperators.Fin
import Mathlib.Data.Real.Basic

/-!
# Specification: Runge-Kutta methods and their order conditions

A method with `n` stages is a tableau; it has order `p` when the order conditions hold for all rooted trees with at most
`p` nodes (Butcher).  A rooted tree is its root together with the forest of its subtrees.
-/
namespace Ascot.Butcher

/-- An explicit or implicit Runge-Kutta tableau with rational coefficients. -/
structure Tableau (n : ℕ) where
  a : Fin n → Fin n → ℚ
  b : Fin n → ℚ
  c : Fin n → ℚ

/-- Forests of rooted ordered trees: the first tree is a root with the forest `child`. -/
inductive Forest where
  | nil
  | cons (child rest : Forest)
  deriving DecidableEq

/-- Number of nodes. -/
def Forest.size : Forest → ℕ
  | nil => 0
  | cons c r => 1 + c.size + r.size

/-- Product of the densities of the trees; the density of a tree is its number of nodes times the product of the densities
of its subtrees. -/
def Forest.density : Forest → ℕ
  | nil => 1
  | cons c r => (1 + c.size) * c.density * r.density

/-- Product over the trees of the weights at stage `i`. -/
def Forest.weight {n : ℕ} (T : Tableau n) : Forest → Fin n → ℚ
  | nil, _ => 1
  | cons c r, i => (∑ j, T.a i j * c.weight T j) * r.weight T i

/-- The order conditions for all trees with at most `p` nodes. -/
def Order {n : ℕ} (T : Tableau n) (p : ℕ) : Prop :=
  (∀ i, T.c i = ∑ j, T.a i j) ∧
  ∀ F : Forest, 1 + F.size ≤ p → (∑ i, T.b i * F.weight T i) * (((1 + F.size) * F.density : ℕ) : ℚ) = 1

/-- `y'` is the result of one step of the method for the system `y' = f t y`, with the derivatives `k` of the stages. -/
def IsStep {n : ℕ} (T : Tableau n) {ι : Type} (f : ℝ → (ι → ℝ) → ι → ℝ) (t h : ℝ) (y y' : ι → ℝ) (k : Fin n → ι → ℝ) : Prop :=
  (∀ i, k i = f (t + T.c i * h) (fun l => y l + h * ∑ j, (T.a i j : ℝ) * k j l)) ∧
  ∀ l, y' l = y l + h * ∑ i, (T.b i : ℝ) * k i l

end Ascot.Butcher
