import Verif.Model.RunFile

/-!
# What a user expects of a file shared by several runs

Stated on the history of operations alone, without looking at files.
-/
namespace Ascot.RunDoc
open Ascot.RunFile (Kind Op)

/-- The attributes with which the run of this kind and QID began, if it did. -/
def began {C : Type} (h : List (Op C)) (k : Kind) (q : String) : Option (String → Option String) :=
  h.findSome? fun
    | .init k' q' a => if k' = k ∧ q' = q then some a else none
    | _ => none

/-- The first result of this name that the run of this kind and QID has written. -/
def result {C : Type} (h : List (Op C)) (k : Kind) (q n : String) : Option C :=
  h.findSome? fun
    | .save k' q' n' c => if k' = k ∧ q' = q ∧ n' = n then some c else none
    | _ => none

/-- The run that was begun or made active last. -/
def lastActive {C : Type} (h : List (Op C)) : Option String :=
  h.reverse.findSome? fun
    | .init _ q _ => some q
    | .activate q => some q
    | _ => none

/-- Whether an operation is in order after a history: a new run has a QID that no run has (`used`:
the QIDs that are in the file at the beginning); a run writes only after it has begun, and, unless
it is one of AFSI, while it is the active one. -/
def InOrder {C : Type} (used : String → Prop) (h : List (Op C)) : Op C → Prop
  | .init _ q _ => ¬ used q ∧ ∀ k, began h k q = none
  | .save k q _ _ => (began h k q).isSome ∧ (k ≠ .afsi → lastActive h = some q)
  | .activate _ => True

/-- A history that is in order throughout. -/
def Orderly {C : Type} (used : String → Prop) (h : List (Op C)) : Prop :=
  ∀ pre op post, h = pre ++ op :: post → InOrder used pre op

end Ascot.RunDoc
