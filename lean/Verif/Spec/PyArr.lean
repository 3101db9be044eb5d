import Verif.Model.PyFile

/-!
# Arrays that a user makes from functions of the indices
-/
namespace Ascot.PyFile

/-- The list of the first `n` values of a function. -/
def tab {α : Type} (n : ℕ) (f : ℕ → α) : List α := (List.range n).map f

/-- The array of shape `(n, m)` with elements `f i j`. -/
def nd2 (n m : ℕ) (f : ℕ → ℕ → ℝ) : Nd := ⟨[n, m], fun i => match i with | [a, b] => f a b | _ => 0⟩

/-- The array of shape `(n, m, l)` with elements `f i j k`. -/
def nd3 (n m l : ℕ) (f : ℕ → ℕ → ℕ → ℝ) : Nd := ⟨[n, m, l], fun i => match i with | [a, b, c] => f a b c | _ => 0⟩

/-- The array of shape `(n, m, l, p)`. -/
def nd4 (n m l p : ℕ) (f : ℕ → ℕ → ℕ → ℕ → ℝ) : Nd :=
  ⟨[n, m, l, p], fun i => match i with | [a, b, c, d] => f a b c d | _ => 0⟩

end Ascot.PyFile
