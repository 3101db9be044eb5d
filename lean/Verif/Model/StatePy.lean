import Verif.Model.Options
import Verif.Model.Error

/-!
# End conditions and errors in the Python interface (`a5py/ascot5io/state.py`,
`a5py/routines/runmixin.py`)

Integer arrays are modelled element by element.  Words of a query are taken to be in upper case and
separated already (`string.upper().split()`).
-/
namespace Ascot.StatePy
open Ascot.Options (Res)

/-- The class variables `_NONE`, `_ABORTED`, ... of `State`, a5py/ascot5io/state.py:18-31, by name
(without the underscore). -/
def flag (name : String) : Option ℕ :=
  [("NONE", 0x1), ("ABORTED", 0x2), ("TLIM", 0x4), ("EMIN", 0x8), ("THERMAL", 0x10),
   ("WALL", 0x20), ("RHOMIN", 0x40), ("RHOMAX", 0x80), ("POLMAX", 0x100), ("TORMAX", 0x200),
   ("CPUMAX", 0x400), ("HYBRID", 0x800), ("NEUTRAL", 0x1000), ("IONIZED", 0x2000)].lookup name

/-- The quantity `endcond` of one marker, a5py/ascot5io/state.py:278-284, from the numbers in the
file. -/
def endcond (stored errormsg : ℕ) : ℕ :=
  let item := stored <<< 2
  let item := if errormsg > 0 then item &&& 0x2 else item
  if item = 0 then 0x1 else item

/-- The loop of `State.endcond_check`, a5py/ascot5io/state.py:450-473: flags that are asked for and
flags that are asked not to be there.  An unknown word raises `ValueError`, a `NOT` at the end
`IndexError`. -/
def parseQuery : List String → ℕ → ℕ → Res (ℕ × ℕ)
  | [], yes, non => .ok (yes, non)
  | w :: l, yes, non =>
    if w = "NOT" then
      match l with
      | [] => .fail
      | v :: l =>
        match flag v with
        | some f => parseQuery l yes (non ||| f)
        | none => .fail
    else
      match flag w with
      | some f => parseQuery l (yes ||| f) non
      | none => .fail

/-- `State.endcond_check`, a5py/ascot5io/state.py:424-475. -/
def check (bitarr : ℕ) (words : List String) : Res Bool := do
  let (yes, non) ← parseQuery words 0 0
  pure (decide (bitarr &&& yes = yes) && decide (bitarr &&& non = 0))

/-- The selection of `getstate(..., endcond=[...])`, a5py/routines/runmixin.py:147-162: a marker is
returned if any of the queries accepts it.  All queries are checked for each kind of marker
present. -/
def select (bitarr : ℕ) : List (List String) → Res Bool
  | [] => .ok false
  | q :: l => do
    let a ← check bitarr q
    let b ← select bitarr l
    pure (a || b)

/-- `State.endcond_tostring`, a5py/ascot5io/state.py:477-499: the names that are joined with
`" and "`. -/
def names (bitarr : ℕ) : List String :=
  ["NONE", "ABORTED", "TLIM", "EMIN", "THERMAL", "WALL", "RHOMIN", "RHOMAX", "POLMAX", "TORMAX",
   "CPUMAX", "HYBRID", "NEUTRAL", "IONIZED"].filter fun n =>
    match flag n with
    | some f => decide (bitarr &&& f ≠ 0)
    | none => false

/-- The text of an end condition in the summary, a5py/routines/runmixin.py:268-269. -/
def summaryText (bitarr : ℕ) : String :=
  let econd := " and ".intercalate (names bitarr)
  if econd = "none" then "aborted" else econd

/-- The list `modules`, a5py/routines/runmixin.py:274-281. -/
def modules : List String :=
  ["mccc_wiener.c", "mccc_push.c", "mccc_coefs", "mccc.c", "step_fo_vpa.c", "step_gc_cashkarp.c",
   "step_gc_rk4", "N0_1D.c", "N0_3D.c", "N0_ST.c", "B_3DS.c", "B_2DS.c", "B_STS.c", "B_GS.c",
   "plasma_1D.c", "plasma_1DS.c", "plasma.c", "E_field.c", "neutral.c", "E_1DS.c", "B_field.c",
   "particle.c", "boozer.c", "mhd.c", "atomic.c", "asigma.c", "asigma_loc.c"]

/-- The list `messages`, a5py/routines/runmixin.py:282-288. -/
def messages : List String :=
  ["Input evaluation failed", "Unknown input type", "Unphysical quantity when evaluating input",
   "Unphysical marker quantity", "Time step too small/zero/NaN",
   "Wiener array is full or inconsistent",
   "Unphysical result when integrating marker coordinates"]

/-- Indexing a Python list with `k - 1`: index `-1` is the last element, an index out of range
raises `IndexError`. -/
def pick (l : List String) (k : ℕ) : Res String :=
  match (if k = 0 then l.getLast? else l[k - 1]?) with
  | some s => .ok s
  | none => .fail

/-- One error of the loop a5py/routines/runmixin.py:290-293. -/
def errorText (e : ℕ × ℕ × ℕ) : Res (List (String × ℕ × String)) :=
  if e.1 + e.2.1 + e.2.2 > 0 then do
    let m ← pick messages e.1
    let f ← pick modules e.2.2
    pure [(m, e.2.1, f)]
  else pure []

/-- The loop over the different errors. -/
def errorTexts : List (ℕ × ℕ × ℕ) → Res (List (String × ℕ × String))
  | [] => .ok []
  | e :: l => do
    let a ← errorText e
    let b ← errorTexts l
    pure (a ++ b)

/-- `getstate_markersummary`, a5py/routines/runmixin.py:236-295: counts and texts of the end
conditions, texts of the errors; `ms` are the numbers `endcond`, `errormsg`, `errorline`,
`errormod` of the markers in the file.  The order of the entries is left out (`np.unique` sorts
them; the model keeps the first occurrence of each). -/
def summary (ms : List (ℕ × ℕ × ℕ × ℕ)) : Res (List (ℕ × String) × List (String × ℕ × String)) := do
  let ecs := ms.map fun m => endcond m.1 m.2.1
  let econds := ecs.dedup.map fun e => (ecs.count e, summaryText e)
  let emsg ← errorTexts (ms.map fun m => (m.2.1, m.2.2.1, m.2.2.2)).dedup
  pure (econds, emsg)

end Ascot.StatePy
