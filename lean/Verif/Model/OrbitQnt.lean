import Mathlib.Data.Real.Basic
import Mathlib.Data.List.Sort
import Mathlib.Data.List.Dedup

/-!
# Quantities along orbits in the Python interface (`a5py/ascot5io/orbits.py`,
`getorbit` of `a5py/routines/runmixin.py`)

The formulas for the quantities are parameters: here it matters which points they are taken at, with which marker's
mass and time, and in which order they are returned.  One quantity is asked for at a time; numbers are real numbers, and
units are left out.  `none` is an exception.
-/
namespace Ascot.OrbitQnt

/-- A point in the orbit data: its marker, the mode of the simulation when it was written (1 gyro-orbit, 2 guiding
centre, 3 field line, a5py/ascot5io/orbits.py:17-19), the mileage, the Poincaré plane, and the other
columns. -/
structure Point (D : Type) where
  id : ℕ
  mode : ℕ
  mileage : ℝ
  pncrid : ℕ
  data : D

/-- What is used from the inistate of a marker. -/
structure Ini where
  id : ℕ
  mass : ℝ
  time : ℝ
  mileage : ℝ

/-- Quantities, a5py/ascot5io/orbits.py:159-263.

* `common f`: those at lines 159-180, by the mass, the time and the point; e.g. `mass` is `fun m _ _ => m`, `r` is some
  `fun _ _ p => …`.
* `masked go gc`: those with one formula for gyro-orbits and one for guiding centres (`ppar`, `ekin`, …).
* `pperp go pnorm ppar`: `pperp`, with the formulas for gyro-orbits, and `pnorm` and `ppar` of guiding
  centres, combined by `f`. -/
inductive Quantity (D : Type) where
  | common (f : ℝ → ℝ → Point D → ℝ)
  | connlen
  | pncrdir
  | masked (go gc : ℝ → ℝ → Point D → ℝ)
  | pperp (go pnorm : ℝ → ℝ → Point D → ℝ) (ppar : Point D → ℝ) (f : ℝ → ℝ → ℝ)

variable {D : Type}

/-- `inistate.get(...)`, which orders by the ID (a5py/ascot5io/state.py:409-412). -/
def states (ini : List Ini) : List Ini := ini.insertionSort fun a b => a.id ≤ b.id

/-- `np.unique(ids)`. -/
def uniq (ids : List ℕ) : List ℕ := ids.dedup.insertionSort (· ≤ ·)

/-- The inverse from `np.unique(ids, return_inverse=True)`, a5py/ascot5io/orbits.py:71, as index of the states. -/
def stateOf (ini : List Ini) (pts : List (Point D)) (p : Point D) : Option Ini :=
  (states ini)[(uniq (pts.map (·.id))).idxOf p.id]?

/-- The points with the mass and time, and `connlen`, a5py/ascot5io/orbits.py:70-77. -/
structure Row (D : Type) where
  mass : ℝ
  time : ℝ
  connlen : ℝ
  point : Point D

/-- The row of a point, a5py/ascot5io/orbits.py:72-77. -/
def row (ini : List Ini) (pts : List (Point D)) (p : Point D) : Option (Row D) :=
  (stateOf ini pts p).map fun s =>
    { mass := s.mass
      time := if 3 ∈ pts.map (·.mode) then s.time else s.time + p.mileage
      connlen := s.mileage - p.mileage
      point := p }

/-- Arrays with one axis are broadcast if one of them has length one; other lengths must agree. -/
def broadcast (f : ℝ → ℝ → ℝ) (a b : List ℝ) : Option (List ℝ) :=
  if a.length = b.length then some (List.zipWith f a b)
  else match a, b with
    | [x], b => some (b.map (f x))
    | a, [y] => some (a.map (f · y))
    | _, _ => none

/-- `add` for the second time appends what is there already to the new values,
a5py/ascot5io/orbits.py:119-128. -/
def add : Option (List ℝ) → List ℝ → List ℝ
  | none, v => v
  | some l, v => v ++ l

/-- The values before they are ordered, a5py/ascot5io/orbits.py:157-267. -/
noncomputable def items (rows : List (Row D)) : Quantity D → Option (List ℝ)
  | .common f => some (rows.map fun r => f r.mass r.time r.point)
  | .connlen => some (rows.map (·.connlen))
  | .pncrdir => none
  | .masked go gc =>
    let modes := rows.map (·.point.mode)
    let a := if 1 ∈ modes then
        some ((rows.filter (·.point.mode = 1)).map fun r => go r.mass r.time r.point)
      else none
    if 2 ∈ modes then
      some (add a ((rows.filter (·.point.mode = 2)).map fun r => gc r.mass r.time r.point))
    else a
  | .pperp go pnorm ppar f =>
    let modes := rows.map (·.point.mode)
    let a := if 1 ∈ modes then
        some ((rows.filter (·.point.mode = 1)).map fun r => go r.mass r.time r.point)
      else none
    if 2 ∈ modes then
      (broadcast f ((rows.filter (·.point.mode = 2)).map fun r => pnorm r.mass r.time r.point)
        (rows.map fun r => ppar r.point)).map (add a)
    else a

/-- The mask after the blocks for gyro-orbits and guiding centres, a5py/ascot5io/orbits.py:184-227. -/
def mask (pts : List (Point D)) (p : Point D) : Bool :=
  if 2 ∈ pts.map (·.mode) then p.mode = 2
  else if 1 ∈ pts.map (·.mode) then p.mode = 1
  else 0 < p.mode

/-- The order of `np.lexsort((mile, ids))`. -/
def lex (a b : Point D) : Prop := a.id < b.id ∨ a.id = b.id ∧ a.mileage ≤ b.mileage

noncomputable instance : DecidableRel (lex (D := D)) := fun a b => by unfold lex; infer_instance

/-- `np.lexsort((mile, ids))`: the indices in the order of IDs and mileages, a5py/ascot5io/orbits.py:270-272. -/
noncomputable def lexsort (pts : List (Point D)) : List ℕ :=
  (pts.zipIdx.insertionSort fun a b => lex a.1 b.1).map (·.2)

/-- `Orbits.get` for one quantity, a5py/ascot5io/orbits.py:33-276. -/
noncomputable def get (ini : List Ini) (pts : List (Point D)) (q : Quantity D) : Option (List ℝ) :=
  (pts.mapM (row ini pts)).bind fun rows =>
    (items rows q).bind fun l =>
      (lexsort (pts.filter (mask pts))).mapM fun i => l[i]?

/-- `data[i][idx]` with a boolean array. -/
def select : List ℝ → List Bool → Option (List ℝ)
  | [], [] => some []
  | x :: l, b :: k => (select l k).map fun r => if b then x :: r else r
  | _, _ => none

/-- `getorbit`, a5py/routines/runmixin.py:212-233: `idsE` are the IDs of the markers with the wanted end
conditions, `pncr` the planes and `idsW` the IDs that are asked for. -/
noncomputable def getorbit (ini : List Ini) (pts : List (Point D)) (idsE pncr idsW : Option (List ℝ)) (q : Quantity D) :
    Option (List ℝ) := do
  let data ← get ini pts q
  let idarr ← get ini pts (.common fun _ _ p => p.id)
  let one : List Bool := data.map fun _ => true
  let idx := match idsE with
    | none => one
    | some e => List.zipWith (· && ·) one (idarr.map (decide <| · ∈ e))
  let idx ← match pncr with
    | none => some idx
    | some e => (get ini pts (.common fun _ _ p => p.pncrid)).map fun a =>
        List.zipWith (· && ·) idx (a.map (decide <| · ∈ e))
  let idx := match idsW with
    | none => idx
    | some e => List.zipWith (· && ·) idx (idarr.map (decide <| · ∈ e))
  select data idx

end Ascot.OrbitQnt
