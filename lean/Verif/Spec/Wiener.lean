import Verif.Model.Wiener

/-!
# Specification of the Wiener storage
-/
namespace Ascot.Wiener

variable {K : Type} [Field K] [LinearOrder K]

/-- Slot `i` holds a sample of the process. -/
def Live (n : Nat) (w : Arr K) (i : Nat) : Prop := i < n ∧ w.next i ≠ none

/-- The process has been sampled at time `t` with value `v`. -/
def Value (n : Nat) (w : Arr K) (t : K) (v : Fin 5 → K) : Prop :=
  ∃ i, Live n w i ∧ w.time i = t ∧ w.val i = v

/-- The stored samples form a chain ordered by time that starts from slot 0: every sample
leads to the next one in time, and the last one to itself. -/
structure WellFormed (n : Nat) (w : Arr K) : Prop where
  first : Live n w 0 ∧ ∀ i, Live n w i → w.time 0 ≤ w.time i
  distinct : ∀ i j, Live n w i → Live n w j → w.time i = w.time j → i = j
  last : ∀ i, Live n w i → w.next i = some i → ∀ j, Live n w j → w.time j ≤ w.time i
  step : ∀ i j, Live n w i → w.next i = some j → j ≠ i →
    Live n w j ∧ w.time i < w.time j ∧ ∀ k, Live n w k → w.time i < w.time k → w.time j ≤ w.time k

end Ascot.Wiener
