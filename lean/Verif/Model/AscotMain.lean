import Verif.Model.RunFile
import Verif.Model.MathC
import Verif.Model.Mpi

/-!
# The main program (`src/ascot5_main.c`)

The order of what `main` does after the input has been read, in a build without MPI: choosing the
markers of this process, converting them to states, making the run group, simulating, writing the
results, and printing the summary.  The conversion of a marker (`Ascot.Particle`), the simulation
(`Ascot.Simulate`, `Ascot.Queue`) and the diagnostics are parameters.  No other program writes into
the output file meanwhile (see `Ascot.RunFile` for that).
-/
namespace Ascot.AscotMain
open Ascot.RunFile (File Kind initResults writeActive)

/-- What is stored in a run group: an array of marker states or a diagnostic. -/
inductive Stored (S X : Type)
  | states (ps : List S)
  | diag (x : X)

/-- The parts of the program that are modelled elsewhere. -/
structure Parts (M S X : Type) where
  /-- `particle_input_to_state` -/
  toState : M → S
  /-- `simulate`: the states at the end, in the same order -/
  simulate : List S → List S
  /-- the diagnostics that are collected, with the names of their groups -/
  diags : List S → List (String × X)
  /-- the fields `endcond` and `err` of a state -/
  endcond : S → Int
  err : S → Int

/-- Rank, size and root of this process, src/ascot5_main.c:123-137 and
src/mpi_interface.c:43-48: `sizeArg` and `rankArg` are the arguments `--mpi_size` and `--mpi_rank`,
zero if not given. -/
def ranks (sizeArg rankArg : Int) : Int × Int × Int :=
  if sizeArg > 0 then (rankArg, sizeArg, rankArg) else (0, 1, 0)

/-- `mpi_my_particles`, src/mpi_interface.c:93-103, for a rank that need not be below the size: start
index and number. -/
def myParticles (nTot rank size : Int) : Int × Int :=
  (rank * (nTot.tdiv size),
    if rank = size - 1 then nTot - rank * (nTot.tdiv size) else nTot.tdiv size)

/-- How far the program has come when it stops. -/
inductive Outcome (S X : Type)
  /-- The program has ended normally with this output file, having printed this summary. -/
  | done (f : File (Stored S X)) (s : MathC.Summary)
  /-- Undefined behaviour, after the output file was left in this state. -/
  | ub (f : File (Stored S X))

/-- `prepare_markers`, src/ascot5_main.c:252-283: the states of the markers of this process; `none` if
the array of the markers is left.  At the end the input markers are freed. -/
def prepare {M S X : Type} (P : Parts M S X) (ms : List M) (rank size : Int) : Option (List S) :=
  let (start, n) := myParticles ms.length rank size
  if 0 ≤ start ∧ 0 ≤ n ∧ start + n ≤ ms.length then
    some (((ms.drop start.toNat).take n.toNat).map P.toState)
  else none

/-- `hdf5_interface_write_diagnostics`, where an error is only reported. -/
def writeDiags {S X : Type} (f : File (Stored S X)) : List (String × X) → File (Stored S X)
  | [] => f
  | (n, x) :: l => writeDiags ((writeActive f n (.diag x)).getD f) l

/-- `print_marker_summary(pout, n_tot)`, src/ascot5_main.c:221-223: `n_tot` elements of the array `ps`
are read; `none` if it has fewer. -/
def printSummary {M S X : Type} (P : Parts M S X) (ps : List S) (nTot : ℕ) (u c : Nat → Int) :
    Option MathC.Summary :=
  if nTot ≤ ps.length then
    MathC.summary ((ps.take nTot).map P.endcond) ((ps.take nTot).map P.err) u c
  else none

/-- `main` after reading the input, src/ascot5_main.c:169-240, for `rank = root` (which is always
so without MPI).  If the run group or a state cannot be written, control goes to `CLEANUP_FAILURE`
(src/ascot5_main.c:231-237), where the input markers, which `prepare_markers` has freed, are freed
again; that is undefined.  `u`, `c` are the contents of fresh memory. -/
def main {M S X : Type} (P : Parts M S X) (f0 : File (Stored S X)) (ms : List M) (qid : String)
    (attrs : String → Option String) (sizeArg rankArg : Int) (u c : Nat → Int) : Outcome S X :=
  let (rank, size, _) := ranks sizeArg rankArg
  match prepare P ms rank size with
  | none => .ub f0
  | some ps =>
    match initResults f0 .run qid attrs with
    | none => .ub f0
    | some f1 =>
      match writeActive f1 "inistate" (.states ps) with
      | none => .ub f1
      | some f2 =>
        let pe := P.simulate ps
        match writeActive f2 "endstate" (.states pe) with
        | none => .ub f2
        | some f3 =>
          let f4 := writeDiags f3 (P.diags ps)
          match printSummary P pe ms.length u c with
          | none => .ub f4
          | some s => .done f4 s

/-- The output file at the end. -/
def Outcome.file {S X : Type} : Outcome S X → File (Stored S X)
  | .done f _ => f
  | .ub f => f

end Ascot.AscotMain
