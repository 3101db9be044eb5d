import Mathlib.Data.Finset.Card
import Verif.Model.Memory

/-!
# What a program leaves allocated
-/
namespace Ascot.Memory

/-- All allocated blocks were handed out. -/
def Valid (s : St) : Prop := ∀ k, s.live k = true → k < s.next

/-- From every state the program runs without undefined behaviour, releases nothing that it did not allocate itself, and leaves
`n` of the blocks that it allocated. -/
def Leaves (P : List Cmd) (n : Nat) : Prop :=
  ∀ s, Valid s → ∃ s', run P s = some s' ∧ Valid s' ∧
    ∃ new : Finset Nat, new.card = n ∧ (∀ k ∈ new, s.live k = false) ∧ ∀ k, s'.live k = true ↔ s.live k = true ∨ k ∈ new

/-- Everything that the program allocates is released exactly once. -/
def Clean (P : List Cmd) : Prop := Leaves P 0

/-- The program has undefined behaviour from every state. -/
def Undefined (P : List Cmd) : Prop := ∀ s, run P s = none

end Ascot.Memory
