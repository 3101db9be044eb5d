import Mathlib.Data.Fintype.Basic
import Mathlib.Data.Nat.Bitwise

/-!
# Selecting markers by end condition

What users are told about end conditions (`/repo/a5py/ascot5io/state.py:33-115`,
`/repo/a5py/routines/runmixin.py:95-116`): a marker has an end condition if that condition ended
it, `ABORTED` if its simulation terminated in an error, and `NONE` if nothing has ended it.
-/
namespace Ascot.Query

/-- What can be asked about a marker. -/
inductive Item
  | none
  | aborted
  | cond (i : Fin 12)

/-- The names, in the order of the bits of the end conditions (`/repo/src/endcond.h:19-33`). -/
def Item.name : Item → String
  | .none => "NONE"
  | .aborted => "ABORTED"
  | .cond i => (["TLIM", "EMIN", "THERMAL", "WALL", "RHOMIN", "RHOMAX", "POLMAX", "TORMAX",
      "CPUMAX", "HYBRID", "NEUTRAL", "IONIZED"] : List String).get (i.cast rfl)

/-- Whether it applies to a marker with end conditions `ec` (a set of bits) and error `err` (zero if
none). -/
def Item.Holds (ec err : ℕ) : Item → Prop
  | .none => ec = 0 ∧ err = 0
  | .aborted => err ≠ 0
  | .cond i => ec.testBit i = true

/-- A query: items, each with a mark if it is asked not to apply. -/
abbrev Query := List (Bool × Item)

/-- The words of a query. -/
def words (q : Query) : List String :=
  q.flatMap fun x => if x.1 then ["NOT", x.2.name] else [x.2.name]

/-- A marker satisfies a query if all items without `NOT` apply and none of those with it. -/
def Sat (ec err : ℕ) (q : Query) : Prop :=
  ∀ x ∈ q, (x.2.Holds ec err ↔ x.1 = false)

end Ascot.Query
