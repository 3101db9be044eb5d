import Verif.Model.RunFile
import Mathlib.Data.Nat.Digits.Defs

/-!
# What can be given on the command line (`/repo/doc/simulations.rst:11-42`)

A setting is given as `--name=value` or as `--name value`.  Of several values for one setting the last one counts, and a setting
that is not given has its default.
-/
namespace Ascot.CommandLine
open Ascot.RunFile (Prog Inp)

/-- The settings of a run. -/
inductive Setting
  | input | output | description | qid (t : Inp) | size | rank | markers | start | stop
  deriving DecidableEq

/-- The names of the settings of both programs. -/
def names : Prog → List (String × Setting)
  | .ascot5 => [("in", .input), ("out", .output), ("mpi_size", .size), ("mpi_rank", .rank), ("d", .description),
      ("options", .qid .options), ("bfield", .qid .bfield), ("efield", .qid .efield), ("marker", .qid .marker),
      ("wall", .qid .wall), ("plasma", .qid .plasma), ("neutral", .qid .neutral), ("boozer", .qid .boozer),
      ("mhd", .qid .mhd), ("asigma", .qid .asigma)]
  | .bbnbi5 => [("in", .input), ("out", .output), ("mpi_size", .size), ("mpi_rank", .rank), ("d", .description),
      ("bfield", .qid .bfield), ("wall", .qid .wall), ("plasma", .qid .plasma), ("nbi", .qid .nbi), ("n", .markers),
      ("t1", .start), ("t2", .stop)]

/-- A setting as it is given: its name, its value, and whether there is a `=` between them. -/
structure Given where
  name : String
  set : Setting
  value : List Char
  eq : Bool

/-- The words on the command line. -/
def Given.words (g : Given) : List (List Char) :=
  if g.eq then ["--".toList ++ g.name.toList ++ '=' :: g.value] else ["--".toList ++ g.name.toList, g.value]

/-- The digits of a natural number in decimal notation, with or without leading zeros. -/
def Decimal (s : List Char) (n : ℕ) : Prop :=
  s ≠ [] ∧ (∀ c ∈ s, c.isDigit = true) ∧ n = Nat.ofDigits 10 (s.reverse.map fun c => c.toNat - 48)

/-- The value is of the kind that is expected: a number for numbers, texts of at most 250 characters. -/
def Given.Valid (g : Given) : Prop :=
  match g.set with
  | .size | .rank | .markers => ∃ n : ℕ, Decimal g.value n ∧ n ≤ 2147483647
  | .start | .stop => True
  | _ => g.value.length ≤ 250

/-- The last value that is given for a setting. -/
def last (gs : List Given) (s : Setting) : Option (List Char) :=
  ((gs.filter fun g => decide (g.set = s)).getLast?).map Given.value

end Ascot.CommandLine
