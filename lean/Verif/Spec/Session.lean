import Mathlib.Data.List.Basic

/-!
# An interactive session as the user sees it

Specification for C172, from the documentation of the functions `simulation_*` in a5py/ascotpy/libsimulate.py: there are inputs,
markers, and the results of one run; nothing is said about memory.
-/
namespace Ascot.Session

/-- What the user does. -/
inductive Op (α : Type)
  /-- make the inputs available -/
  | load
  /-- set the options: whether distributions and orbits are collected -/
  | options (dist orb : Bool)
  /-- give markers -/
  | markers (l : List α)
  /-- give markers with a column that is missing or has the wrong dimension -/
  | badMarkers
  | run
  /-- make markers of a neutral beam; `l` are the states that they end in -/
  | beam (l : List α)
  /-- release inputs, markers, results -/
  | free (inputs markers results : Bool)
  /-- release everything -/
  | freeAll
  /-- look at the initial or the final states of the last run -/
  | initial
  | final

/-- What the user sees: nothing in particular, an exception, or the states of markers. -/
inductive Ans (α : Type)
  | done
  | raised
  | states (l : List α)

structure Sess (α : Type) where
  /-- inputs are there -/
  ready : Bool
  markers : List α
  /-- final states of the run that was made -/
  results : Option (List α)

variable {α : Type} (sim : α → α)

def begin : Sess α := ⟨false, [], none⟩

/-- One call; `none` for the calls on which nothing is claimed. -/
def step (s : Sess α) : Op α → Option (Sess α × Ans α)
  | .load => some ({ s with ready := true }, .done)
  | .options _ _ => if s.results = none then some (s, .done) else none
  | .markers l => if s.ready = true ∧ l ≠ [] ∧ s.results = none then some ({ s with markers := l }, .done) else none
  | .badMarkers => none
  | .run =>
    if s.ready = true ∧ s.markers ≠ [] ∧ s.results = none then
      some ({ s with results := some (s.markers.map sim) }, .done)
    else some (s, .raised)
  | .beam _ => none
  | .free i m r =>
    if i = false ∧ m = false ∧ r = false then some (begin, .done) else
    some (⟨s.ready && !i, if m then [] else s.markers, if r then none else s.results⟩, .done)
  | .freeAll => some (begin, .done)
  | .initial => if s.results ≠ none ∧ s.markers ≠ [] then some (s, .states s.markers) else none
  | .final => s.results.map fun l => (s, .states l)

/-- A sequence of calls with what the user sees at each of them. -/
def exec : List (Op α) → Sess α → Option (Sess α × List (Ans α))
  | [], s => some (s, [])
  | o :: r, s => (step sim s o).bind fun (s, a) => (exec r s).map fun (s, as) => (s, a :: as)

end Ascot.Session
