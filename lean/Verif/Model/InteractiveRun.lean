import Verif.Spec.Session

/-!
# Interactive runs: what is allocated and when it is released

`simulation_initmarkers`, `simulation_run`, `simulation_bbnbi`, `simulation_free`, a5py/ascotpy/libsimulate.py:224-601, with the
C functions they call, in one process.  Memory is a set of blocks with contents; releasing or reading a block that is not
allocated is undefined behaviour, the outcome `none`.

Simplified: the markers that the user gives are their states at once; all arrays of the orbit diagnostics are one block; the
distribution and the orbits are the only diagnostics that interactive runs can collect (libsimulate.py:123-129); the inputs
are there or not as a whole (`InputState` has the details), and the magnetic field is one with data in memory.
-/
namespace Ascot.InteractiveRun
open Ascot.Session (Op Ans)

/-- What a block is for; the program does not look at it. -/
inductive Tag
  | input | prep | ini | copy | fin | dist | orb | queue
  deriving DecidableEq

/-- The inputs: nothing there since the beginning, in memory, or released. -/
inductive Inputs
  | never | loaded | freed
  deriving DecidableEq

variable {α : Type}

structure St (α : Type) where
  /-- `_nmrk` -/
  nmrk : ℕ
  /-- `_inistate`; `none` is the null pointer -/
  ini : Option ℕ
  /-- `_endstate` -/
  fin : Option ℕ
  /-- `_sim.diag_data.dist5D.histogram` and the arrays of `_sim.diag_data.diagorb` -/
  dist : Option ℕ
  orb : Option ℕ
  /-- `dist5D_collect` and `diagorb_collect` -/
  cDist : Bool
  cOrb : Bool
  /-- `_diag_occupied` -/
  occ : Bool
  inputs : Inputs
  heap : ℕ → Option (Tag × List α)
  next : ℕ
  /-- The last `VirtualRun`, a5py/routines/virtualrun.py:21-64 and 118-120: the number of markers and the final states.  Its
  initial states are the Python object `_inistate` itself, of which `mpi_gather_particlestate` changes the address in place
  (libsimulate.py:355-357). -/
  res : Option (ℕ × Option ℕ)

/-- `Ascotpy.__init__`, a5py/ascotpy/__init__.py:56-62. -/
def begin : St α := ⟨0, none, none, none, none, false, false, false, .never, fun _ => none, 0, none⟩

/-- `malloc` -/
def alloc (s : St α) (t : Tag) (l : List α) : St α :=
  { s with heap := fun k => if k = s.next then some (t, l) else s.heap k, next := s.next + 1 }

/-- `free`, `libascot_deallocate` (src/libascot_mem.c:48-50) -/
def release (s : St α) : Option ℕ → Option (St α)
  | none => some s
  | some b => if (s.heap b).isSome then some { s with heap := fun k => if k = b then none else s.heap k } else none

/-- Reading the first `n` elements of an array of states: `none` if they are not in memory. -/
def read (s : St α) (b n : ℕ) : Option (List α) :=
  (s.heap b).bind fun x => if n ≤ x.2.length then some (x.2.take n) else none

/-- `diag_init`, src/diag.c:66-68. -/
def initDist (s : St α) : St α := if s.cDist then { alloc s .dist [] with dist := some s.next } else s

/-- `diag_init`, src/diag.c:86-88. -/
def initOrb (s : St α) : St α := if s.cOrb then { alloc s .orb [] with orb := some s.next } else s

/-- `diag_init`, src/diag.c:37-95. -/
def diagInit (s : St α) : St α := initOrb (initDist s)

/-- `diag_free`, src/diag.c:102-124. -/
def diagFree (s : St α) : Option (St α) :=
  (if s.cDist then release s s.dist else some s).bind fun s =>
  if s.cOrb then release s s.orb else some s

/-- The first lines of `simulation_initmarkers`, libsimulate.py:242-246: previous markers are released. -/
def dropMarkers (s : St α) : Option (St α) :=
  if 0 < s.nmrk then (release s s.ini).map fun s => { s with nmrk := 0 } else some s

/-- `initmarkers`, libsimulate.py:347-363, with `prepare_markers` (src/ascot5_main.c:252-282), which evaluates the magnetic
field and releases `pin`, and `mpi_gather_particlestate`, which copies the states. -/
def prepare (s : St α) (pin : ℕ) (l : List α) : Option (St α) :=
  if s.inputs = .freed then none else
  let ps := s.next
  (release (alloc s .prep l) (some pin)).bind fun s =>
  let all := s.next
  (release (alloc s .ini l) (some ps)).map fun s => { s with ini := some all, nmrk := l.length }

/-- `simulation_initmarkers`, libsimulate.py:224-372. -/
def initMarkers (s : St α) (l : List α) : Option (St α) :=
  (dropMarkers s).bind fun s => prepare (alloc s .input []) s.next l

/-- `simulation_initmarkers` when reading the columns raises an exception, libsimulate.py:242-268. -/
def badMarkers (s : St α) : Option (St α) :=
  (dropMarkers s).map fun s => alloc s .input []

/-- `simulation_run`, libsimulate.py:399-474, from the copy of the initial states on, with `offload_and_simulate`
(src/ascot5_main.c:355-376), which releases the copy. -/
def simulate (sim : α → α) (s : St α) (l : List α) : Option (St α) :=
  let cp := s.next
  let s := { diagInit (alloc s .copy l) with occ := true }
  let out := s.next
  (release (alloc s .fin (l.map sim)) (some cp)).map fun s => { s with fin := some out, res := some (s.nmrk, some out) }

/-- `simulation_run`: the checks and the copy.  A null pointer raises an exception when it is read, after the copy was
allocated. -/
def run (sim : α → α) (s : St α) : Option (St α × Ans α) :=
  if s.inputs ≠ .loaded ∨ s.nmrk = 0 ∨ s.occ = true then some (s, .raised) else
  match s.ini with
  | none => some (alloc s .copy [], .raised)
  | some b => (read s b s.nmrk).bind fun l => (simulate sim s l).map fun s => (s, .done)

/-- `simulation_bbnbi`, libsimulate.py:517-568, with `bbnbi_simulate` (src/bbnbi5.c:56-114), which does not release the queue.
Without inputs in memory the behaviour is undefined. -/
def beam (s : St α) (l : List α) : Option (St α × Ans α) :=
  if s.nmrk ≠ 0 ∨ s.occ = true then some (s, .raised) else
  if s.inputs ≠ .loaded then none else
  let s := { diagInit s with occ := true }
  let out := s.next
  let s := alloc (alloc s .fin l) .queue []
  some ({ s with fin := some out, nmrk := l.length, res := some (l.length, some out) }, .done)

/-- `simulation_free`, libsimulate.py:587-593, the inputs. -/
def freeInputs (s : St α) (i : Bool) : St α :=
  if i = true ∧ s.inputs = .loaded then { s with inputs := .freed } else s

/-- `simulation_free`, libsimulate.py:594-597. -/
def freeMarkers (s : St α) (m : Bool) : Option (St α) :=
  if m = true ∧ 0 < s.nmrk then release { s with nmrk := 0 } s.ini else some s

/-- `simulation_free`, libsimulate.py:598-601. -/
def freeResults (s : St α) (r : Bool) : Option (St α) :=
  if r = true ∧ s.occ = true then (diagFree { s with occ := false }).bind fun s => release s s.fin else some s

def free (s : St α) (i m r : Bool) : Option (St α) :=
  let all := !i && !m && !r
  (freeMarkers (freeInputs s (i || all)) (m || all)).bind fun s => freeResults s (r || all)

/-- `VirtualState.get`, a5py/routines/virtualrun.py:126-: all states of the run; a null pointer raises an exception. -/
def look (s : St α) (p : Option ℕ) (n : ℕ) : Option (St α × Ans α) :=
  match p with
  | none => some (s, .raised)
  | some b => (read s b n).map fun l => (s, .states l)

/-- One call of the interface. -/
def step (sim : α → α) (s : St α) : Op α → Option (St α × Ans α)
  | .load => some ({ s with inputs := .loaded }, .done)
  | .options d o => some ({ s with cDist := d, cOrb := o }, .done)
  | .markers l => (initMarkers s l).map fun s => (s, .done)
  | .badMarkers => (badMarkers s).map fun s => (s, .raised)
  | .run => run sim s
  | .beam l => beam s l
  | .free i m r => (free s i m r).map fun s => (s, .done)
  | .freeAll => (free s false false false).map fun s => (s, .done)
  | .initial => match s.res with | none => some (s, .raised) | some (n, _) => look s s.ini n
  | .final => match s.res with | none => some (s, .raised) | some (n, p) => look s p n

/-- A sequence of calls. -/
def exec (sim : α → α) : List (Op α) → St α → Option (St α × List (Ans α))
  | [], s => some (s, [])
  | o :: r, s => (step sim s o).bind fun (s, a) => (exec sim r s).map fun (s, as) => (s, a :: as)

end Ascot.InteractiveRun
