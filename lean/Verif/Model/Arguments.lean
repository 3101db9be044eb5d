import Verif.Model.RunFile
import Mathlib.Data.Real.Basic

/-!
# Command-line arguments (`read_arguments`, src/ascot5_main.c:451-599, `bbnbi_read_arguments`, src/bbnbi5_main.c:147-295)

`getopt_long` is modelled as documented for glibc, without the environment variable `POSIXLY_CORRECT`: words that are no options
are passed over, names may be abbreviated as long as they are unambiguous.  `atof` is a parameter.
-/
namespace Ascot.Arguments
open Ascot.Options (Res)
open Ascot.RunFile (Prog Inp strip ext)

/-- The variables that are set. -/
inductive Var
  | hdf5_in | hdf5_out | description | qid (t : Inp) | mpi_size | mpi_rank | nprt | t1 | t2
  deriving DecidableEq

/-- The arrays of characters (256 each, src/simulate.h:130-150), integers and real numbers. -/
structure Cfg where
  text : Var → List Char
  int : Var → ℤ
  real : Var → ℝ

/-- What a `case` of the `switch` does with `optarg`. -/
inductive Action
  | file (v : Var) | text (v : Var) | int (v : Var) | real (v : Var)
  deriving DecidableEq

/-- `longopts`, src/ascot5_main.c:452-469 and src/bbnbi5_main.c:151-165. -/
def longopts : Prog → List (String × ℕ)
  | .ascot5 => [("in", 1), ("out", 2), ("mpi_size", 3), ("mpi_rank", 4), ("d", 5), ("options", 6), ("bfield", 7), ("efield", 8),
      ("marker", 9), ("wall", 10), ("plasma", 11), ("neutral", 12), ("boozer", 13), ("mhd", 14), ("asigma", 15)]
  | .bbnbi5 => [("in", 1), ("out", 2), ("mpi_size", 3), ("mpi_rank", 4), ("d", 5), ("bfield", 6), ("wall", 7), ("plasma", 8),
      ("nbi", 9), ("n", 10), ("t1", 11), ("t2", 12)]

/-- The `switch`, src/ascot5_main.c:493-572 and src/bbnbi5_main.c:192-268. -/
def action : Prog → ℕ → Option Action
  | .ascot5, c => [(1, .file .hdf5_in), (2, .file .hdf5_out), (3, .int .mpi_size), (4, .int .mpi_rank), (5, .text .description),
      (6, .text (.qid .options)), (7, .text (.qid .bfield)), (8, .text (.qid .efield)), (9, .text (.qid .marker)),
      (10, .text (.qid .wall)), (11, .text (.qid .plasma)), (12, .text (.qid .neutral)), (13, .text (.qid .boozer)),
      (14, .text (.qid .mhd)), (15, .text (.qid .asigma))].lookup c
  | .bbnbi5, c => [(1, .file .hdf5_in), (2, .file .hdf5_out), (3, .int .mpi_size), (4, .int .mpi_rank), (5, .text .description),
      (6, .text (.qid .bfield)), (7, .text (.qid .wall)), (8, .text (.qid .plasma)), (9, .text (.qid .nbi)), (10, .int .nprt),
      (11, .real .t1), (12, .real .t2)].lookup c

/-- The default values, src/ascot5_main.c:472-487 and src/bbnbi5_main.c:168-186. -/
def defaults (p : Prog) : Cfg where
  text v := if v = .description then (match p with | .ascot5 => "No description.".toList | .bbnbi5 => "TAG".toList) else []
  int v := if v = .nprt then 10000 else 0
  real _ := 0

/-- `atoi`: white space, a sign, digits; whatever follows is passed over, and without digits the result is zero.  Undefined if the
number does not fit. -/
def atoi (s : List Char) : Res ℤ :=
  let s := s.dropWhile Char.isWhitespace
  let neg := s.head? = some '-'
  let s := if s.head? = some '-' ∨ s.head? = some '+' then s.tail else s
  let n : ℕ := (s.takeWhile Char.isDigit).foldl (fun n c => n * 10 + (c.toNat - 48)) 0
  let k : ℤ := if neg then -n else n
  if -2147483648 ≤ k ∧ k ≤ 2147483647 then .ok k else .ub

/-- The number of the option that a name stands for: the option of that name, or the only one that begins with it.  `none` is the
value `'?'`. -/
def resolve (p : Prog) (name : List Char) : Option ℕ :=
  match (longopts p).find? fun o => decide (o.1.toList = name) with
  | some o => some o.2
  | none =>
    match (longopts p).filter fun o => name.isPrefixOf o.1.toList with
    | [o] => some o.2
    | _ => none

/-- One pass through the `switch`. -/
def assign (p : Prog) (atof : List Char → ℝ) (c : ℕ) (optarg : List Char) (s : Cfg) : Res Cfg :=
  match action p c with
  | none => .fail
  | some (.file v) => if optarg.length < 256 then .ok { s with text := Function.update s.text v (strip optarg) } else .ub
  | some (.text v) => if optarg.length < 256 then .ok { s with text := Function.update s.text v optarg } else .ub
  | some (.int v) =>
    match atoi optarg with
    | .ok k => .ok { s with int := Function.update s.int v k }
    | .fail => .fail
    | .ub => .ub
  | some (.real v) => .ok { s with real := Function.update s.real v (atof optarg) }

/-- The loop over `getopt_long`; the words are those after the name of the program. -/
def loop (p : Prog) (atof : List Char → ℝ) : List (List Char) → Cfg → Res Cfg
  | [], s => .ok s
  | w :: l, s =>
    if w = ['-', '-'] then .ok s
    else if w.take 2 = ['-', '-'] then
      let body := w.drop 2
      match resolve p (body.takeWhile (· ≠ '=')) with
      | none => .fail
      | some c =>
        match body.dropWhile (· ≠ '=') with
        | _ :: v => (assign p atof c v s).bind (loop p atof l)
        | [] =>
          match l with
          | [] => .fail
          | v :: l => (assign p atof c v s).bind (loop p atof l)
    else if w.take 1 = ['-'] ∧ w.length > 1 then .fail
    else loop p atof l s

/-- `strcat(name, ".h5")` into an array of 256 characters. -/
def append (s : List Char) : Res (List Char) := if s.length + 3 < 256 then .ok (s ++ ext) else .ub

/-- The names of the files, src/ascot5_main.c:578-597 and src/bbnbi5_main.c:274-293. -/
def files (s : Cfg) : Res Cfg :=
  let put (i o : List Char) : Cfg := { s with text := Function.update (Function.update s.text .hdf5_in i) .hdf5_out o }
  if s.text .hdf5_in = [] ∧ s.text .hdf5_out = [] then .ok (put "ascot.h5".toList "ascot.h5".toList)
  else if s.text .hdf5_in = [] ∧ s.text .hdf5_out ≠ [] then
    (append (s.text .hdf5_out)).bind fun o => .ok (put "ascot.h5".toList o)
  else if s.text .hdf5_in ≠ [] ∧ s.text .hdf5_out = [] then
    (append (s.text .hdf5_in)).bind fun i => .ok (put i i)
  else
    (append (s.text .hdf5_in)).bind fun i => (append (s.text .hdf5_out)).bind fun o => .ok (put i o)

/-- `read_arguments` and `bbnbi_read_arguments`; `.fail` is the return value 1. -/
def readArguments (p : Prog) (atof : List Char → ℝ) (args : List (List Char)) : Res Cfg :=
  (loop p atof args (defaults p)).bind files

end Ascot.Arguments
