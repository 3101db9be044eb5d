import Mathlib.Logic.Function.Basic
import Mathlib.Data.List.Basic

/-!
# Inputs of the interactive interface (`a5py/__init__.py`, `a5py/ascotpy/__init__.py`)

The class `Ascot` keeps one C structure with the data of each kind of input and with the identifier (QID) of what is initialised.
`input_init`, `input_free` and `file_load` change them; all evaluations use the data if the identifier is not empty.
The data themselves are a parameter here: reading a group of the file and taking over a dictionary are modelled elsewhere
(`BfieldFile`, `Provide` and others).
-/
namespace Ascot.InputState

/-- The kinds of input, a5py/ascotpy/__init__.py:136-137. -/
inductive Inp
  | bfield | efield | plasma | wall | neutral | boozer | mhd | asigma | nbi
  deriving DecidableEq, Repr

/-- The order in which Python goes through them, a5py/ascotpy/__init__.py:136-137 and 187-188. -/
def order : List Inp := [.bfield, .efield, .plasma, .wall, .neutral, .boozer, .mhd, .asigma, .nbi]

/-- The order in which C reads them, src/hdf5_interface.c:94-293. -/
def readOrder : List Inp := [.bfield, .efield, .plasma, .neutral, .wall, .boozer, .mhd, .asigma, .nbi]

/-- The kinds that `_free` and the public functions know, a5py/ascotpy/__init__.py:213-222 and a5py/__init__.py:275-276. -/
def freeable : List Inp := [.bfield, .efield, .plasma, .wall, .neutral, .boozer, .mhd, .asigma]

abbrev Qid := String

/-- A file: what the C function that reads a group makes of it, or `none` if it returns an error. -/
abbrev File (D : Type) := Inp → Qid → Option D

/-- The state: the file that is open, the identifiers in the structure (`none` for the empty string that stands for
"not initialised"), and the data (`none`: no memory allocated).  `bad` records that memory which is not allocated was freed or that
allocated memory was overwritten and can no longer be freed. -/
structure St (D : Type) where
  file : File D
  qid : Inp → Option Qid
  mem : Inp → Option D
  bad : Bool

/-- An argument of `_init`: not given, the identifier of a group, or a dictionary; a dictionary comes with the data that
the C function makes of it (`none` if taking it over raises an exception) and the identifier that is generated for it
(a5py/ascotpy/libproviders.py:174-184). -/
inductive Arg (D : Type)
  | absent
  | group (q : Qid)
  | dict (d : Option D) (q : Qid)

/-- A function of the interface ends normally or with an exception; the state may have changed in both cases. -/
inductive Out (D : Type)
  | done (s : St D)
  | raised (s : St D)

def Out.st {D : Type} : Out D → St D
  | .done s => s
  | .raised s => s

variable {D : Type}

/-- One step of the loop of `_free`, a5py/ascotpy/__init__.py:220-235. -/
def freeOne (s : St D) (i : Inp) : St D :=
  if s.qid i = none then s
  else { s with qid := Function.update s.qid i none, mem := Function.update s.mem i none, bad := s.bad || (s.mem i).isNone }

/-- `_free`, a5py/ascotpy/__init__.py:213-235, and `input_free`, a5py/__init__.py:275-316, with the inputs that are to be freed. -/
def free (s : St D) (which : Inp → Bool) : St D := freeable.foldl (fun s i => if which i then freeOne s i else s) s

/-- `input_free` without arguments frees all, a5py/__init__.py:305-316. -/
def inputFree (s : St D) (which : Inp → Bool) : St D :=
  if freeable.any which then free s which else free s fun _ => true

/-- The first loop of `_init`, a5py/ascotpy/__init__.py:133-181: the state after it and the inputs to be read and to be provided.
`_free(nbi=True)` raises an exception since `_free` has no such argument. -/
def prepare (args : Inp → Arg D) (switch : Bool) : List Inp → St D → List Inp → List Inp → Option (List Inp × List Inp) × St D
  | [], s, rd, pr => (some (rd, pr), s)
  | i :: is, s, rd, pr =>
    match args i with
    | .absent => prepare args switch is s rd pr
    | .dict _ _ =>
      if s.qid i = none then prepare args switch is s rd (pr ++ [i])
      else if switch = false then (none, s)
      else if i = .nbi then (none, s)
      else prepare args switch is (freeOne s i) rd (pr ++ [i])
    | .group q =>
      if s.qid i = some q then prepare args switch is s rd pr
      else if s.qid i = none then prepare args switch is s (rd ++ [i]) pr
      else if switch = false then (none, s)
      else if i = .nbi then (none, s)
      else prepare args switch is (freeOne s i) (rd ++ [i]) pr

/-- The identifiers of what is to be read are set, a5py/ascotpy/__init__.py:183-191. -/
def mark (args : Inp → Arg D) (rd : List Inp) (s : St D) : St D :=
  { s with qid := fun i => if i ∈ rd then match args i with | .group q => some q | _ => s.qid i else s.qid i }

/-- The data of one input is put into the structure. -/
def store (s : St D) (i : Inp) (d : D) : St D :=
  { s with mem := Function.update s.mem i (some d), bad := s.bad || (s.mem i).isSome }

/-- `hdf5_interface_read_input`, src/hdf5_interface.c:52-322, called at a5py/ascotpy/__init__.py:193-203: it stops at
the first error and returns a code, which is not looked at. -/
def readAll (rd : List Inp) : List Inp → St D → St D
  | [], s => s
  | i :: is, s =>
    if i ∈ rd then
      match s.qid i with
      | none => readAll rd is s
      | some q =>
        match s.file i q with
        | none => s
        | some d => readAll rd is (store s i d)
    else readAll rd is s

/-- The dictionaries are taken over, a5py/ascotpy/__init__.py:212-214. -/
def provideAll (args : Inp → Arg D) : List Inp → St D → Out D
  | [], s => .done s
  | i :: is, s =>
    match args i with
    | .dict (some d) q => provideAll args is { store s i d with qid := Function.update s.qid i (some q) }
    | .dict none _ => .raised s
    | _ => provideAll args is s

/-- `_init`, a5py/ascotpy/__init__.py:84-214. -/
def init (s : St D) (args : Inp → Arg D) (switch : Bool) : Out D :=
  match prepare args switch order s [] [] with
  | (none, s) => .raised s
  | (some (rd, pr), s) => provideAll args pr (readAll rd readOrder (mark args rd s))

/-- `file_load`, a5py/__init__.py:126-157: `input_free` of everything, then the other file is open.  Failures to open the file are
left out. -/
def fileLoad (s : St D) (f : File D) : St D := { inputFree s (fun _ => false) with file := f }

/-- What the tree of the data, which Python builds from the file, says: the group of each kind that is active, if there is any group
of this kind, and which groups there are. -/
structure Catalog where
  active : Inp → Option Qid
  holds : Inp → Qid → Bool

/-- An argument of `input_init`: `False`, `True`, an identifier or a dictionary. -/
inductive UArg (D : Type)
  | no
  | yes
  | group (q : Qid)
  | dict (d : Option D) (q : Qid)

def UArg.given : UArg D → Bool
  | .no => false
  | _ => true

/-- One turn of the loop of `input_init` without `run`, a5py/__init__.py:243-267; `none` is an exception. -/
def resolveOne (c : Catalog) (all : Bool) (i : Inp) (a : UArg D) : Option (Arg D) :=
  match a with
  | .dict d q => some (.dict d q)
  | a =>
    if a.given && (c.active i).isNone then none
    else if all && (c.active i).isSome then (c.active i).map .group
    else match a with
      | .group q => if c.holds i q then some (.group q) else none
      | .yes => (c.active i).map .group
      | _ => some .absent

/-- `input_init` without `run`, a5py/__init__.py:236-273: there is no argument `nbi`. -/
def inputInit (c : Catalog) (s : St D) (args : Inp → UArg D) (switch : Bool) : Out D :=
  let all := !freeable.any fun i => (args i).given
  if freeable.any fun i => (resolveOne c all i (args i)).isNone then .raised s
  else init s (fun i => if i ∈ freeable then (resolveOne c all i (args i)).getD .absent else .absent) switch

/-- What a user of the interface can do.  `nbi` is the call in `simulation_initbbnbi`, a5py/ascotpy/libsimulate.py:219-222. -/
inductive Op (D : Type)
  | load (f : File D)
  | init (args : Inp → Arg D) (switch : Bool)
  | free (which : Inp → Bool)
  | nbi (a : Arg D)

/-- Only the public arguments of `input_init` are passed on. -/
def step (s : St D) : Op D → Out D
  | .load f => .done (fileLoad s f)
  | .init args switch => init s (fun i => if i ∈ freeable then args i else .absent) switch
  | .free which => .done (inputFree s which)
  | .nbi a => init s (fun i => if i = .nbi then a else .absent) false

/-- The state when the object is made. -/
def start (f : File D) : St D := ⟨f, fun _ => none, fun _ => none, false⟩

/-- A history; exceptions do not end it. -/
def run (s : St D) (ops : List (Op D)) : St D := ops.foldl (fun s o => (step s o).st) s

end Ascot.InputState
