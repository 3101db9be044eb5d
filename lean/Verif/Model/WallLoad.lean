import Mathlib.Analysis.SpecialFunctions.Trigonometric.Inverse
import Mathlib.Data.Finset.Sort
import Mathlib.Algebra.BigOperators.Group.List.Basic

/-!
# Wall loads (`a5py/routines/runmixin.py`, `a5py/routines/bbnbi5.py`)

Arrays with one element per marker are lists of records.  Units are left out: energies are in joules, angles `phi` in
radians (the library unyt converts them).  Real numbers stand for floating-point numbers.
-/
namespace Ascot.WallLoad

/-- What `getwall_loads` gets for each marker that ended at the wall, a5py/routines/runmixin.py:533-535: `tile` is
`walltile`, from one. -/
structure Hit where
  tile : ℕ
  energy : ℝ
  weight : ℝ
  pr : ℝ
  pphi : ℝ
  pz : ℝ
  pnorm : ℝ
  phi : ℝ

/-- The elements of the sorted arrays `ids`, `energy`, `weight`, `punit`, with `punit` in Cartesian components. -/
structure Rec where
  tile : ℕ
  energy : ℝ
  weight : ℝ
  ux : ℝ
  uy : ℝ
  uz : ℝ

/-- One element of each of the arrays that are returned. -/
structure Row where
  tile : ℕ
  area : ℝ
  edepo : ℝ
  pdepo : ℝ
  iangle : ℝ

/-- An element of `area` and `nvec`, a5py/routines/runmixin.py:567. -/
structure Cell where
  area : ℝ
  nx : ℝ
  ny : ℝ
  nz : ℝ

/-- `x[idx]` for an array of indices; all of them are in range here, as they are those of `np.argsort`. -/
def gather {α : Type} (xs : List α) (idx : List ℕ) : List α := idx.filterMap fun i => xs[i]?

/-- `np.unique`: the different elements in increasing order. -/
def unique (xs : List ℕ) : List ℕ := xs.toFinset.sort (· ≤ ·)

/-- The arrays after sorting, a5py/routines/runmixin.py:569-583.  `idx` is what `np.argsort(ids)` returned.  The array `phi`
is not sorted. -/
noncomputable def sorted (hs : List Hit) (idx : List ℕ) : List Rec :=
  List.zipWith (fun h phi =>
    have u0 := h.pr / h.pnorm
    have u1 := h.pphi / h.pnorm
    ⟨h.tile, h.energy, h.weight, u0 * Real.cos phi - u1 * Real.sin phi, u0 * Real.sin phi + u1 * Real.cos phi, h.pz / h.pnorm⟩)
    (gather hs idx) (hs.map Hit.phi)

/-- `np.append(np.argwhere(ids[1:] - ids[:-1]).ravel(), ids.size-1)`, a5py/routines/runmixin.py:577. -/
def bounds (rs : List Rec) : List ℕ :=
  ((List.range (rs.length - 1)).filter fun k => (rs.map Rec.tile).getD (k + 1) 0 ≠ (rs.map Rec.tile).getD k 0) ++ [rs.length - 1]

/-- The angles of the markers of a slice in degrees, a5py/routines/runmixin.py:588-592. -/
noncomputable def angle (c : Cell) (r : Rec) : ℝ :=
  have a := Real.arccos (r.ux * c.nx + r.uy * c.ny + r.uz * c.nz) * (180 / Real.pi)
  if a > 90 then 180 - a else a

/-- The sums of one element, a5py/routines/runmixin.py:594-602. -/
noncomputable def row (weights : Bool) (tile : ℕ) (c : Cell) (s : List Rec) : Row :=
  if weights then
    have e := (s.map fun r => r.energy * r.weight).sum
    ⟨tile, c.area, e, (s.map Rec.weight).sum, (s.map fun r => angle c r * r.energy * r.weight).sum / e⟩
  else
    ⟨tile, c.area, (s.map Rec.energy).sum, s.length, (s.map (angle c)).sum / s.length⟩

/-- The loop, a5py/routines/runmixin.py:585-603: `idx` are the bounds that are left, `i0` the beginning of the slice.
`none` for `IndexError`; the element with identifier `w` has index `w-1` (identifiers begin at one). -/
noncomputable def loop (weights : Bool) (cells : List Cell) (rs : List Rec) : List ℕ → List ℕ → ℕ → Option (List Row)
  | [], _, _ => some []
  | _ :: _, [], _ => none
  | w :: ws, b :: bs, i0 => do
    let c ← cells[w - 1]?
    let rest ← loop weights cells rs ws bs (b + 1)
    return row weights w c ((rs.take (b + 1)).drop i0) :: rest

/-- `getwall_loads` without `flags`, a5py/routines/runmixin.py:490-605. -/
noncomputable def loads (weights : Bool) (cells : List Cell) (hs : List Hit) (idx : List ℕ) : Option (List Row) :=
  have rs := sorted hs idx
  loop weights cells rs (unique (hs.map Hit.tile)) (bounds rs) 0

/-- The markers that are kept with the argument `flags`, a5py/routines/runmixin.py:536-549, for a wall of triangles; `none`
for `IndexError`. -/
def keep (flag : List ℤ) (mask : List ℤ) (hs : List Hit) : Option (List Hit) := do
  let fs ← hs.mapM fun h => flag[h.tile - 1]?
  return ((hs.zip fs).filter fun p => p.2 ∈ mask).map Prod.fst

/-- `x_tot[ids] = x`, a5py/routines/runmixin.py:644-651: what the array, not a number before, holds at `k`. -/
def scatter (rows : List Row) (x : Row → ℝ) (k : ℕ) : Option ℝ :=
  rows.foldl (fun old r => if r.tile - 1 = k then some (x r) else old) none

/-- The field `eload` of `getwall_3dmesh` at the triangle with index `k`, a5py/routines/runmixin.py:635-658; `none` for not a
number. -/
noncomputable def eload (rows : List Row) (k : ℕ) : Option ℝ := scatter rows (fun r => r.edepo / r.area) k

/-- `getwall_figuresofmerit`, a5py/routines/runmixin.py:485-488: the wetted area and the peak load; `none` for the exception of
`np.amax` for an empty array. -/
noncomputable def figuresOfMerit (rows : List Row) : Option (ℝ × ℝ) :=
  match rows.map fun r => r.edepo / r.area with
  | [] => none
  | a :: as => some ((rows.map Row.area).sum, as.foldl max a)

end Ascot.WallLoad
