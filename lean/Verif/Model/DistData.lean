import Mathlib.Data.Real.Basic
import Mathlib.Algebra.BigOperators.Group.Finset.Basic
import Mathlib.Data.List.InsertIdx

/-!
# Distributions in the Python interface (`DistData` of `a5py/ascot5io/dist.py`)

An array with several axes is a function of lists of indices; only its values at lists of indices within the shape
matter.  Names of axes are natural numbers; numbers are real numbers, and units are left out.  `none` is an
exception.
-/
namespace Ascot.DistData

/-- An abscissa: its name, and the edges of its bins. -/
structure Axis where
  name : ℕ
  edges : List ℝ

/-- The number of bins. -/
def Axis.size (a : Axis) : ℕ := a.edges.length - 1

/-- The edge with index `j`. -/
noncomputable def Axis.edge (a : Axis) (j : ℕ) : ℝ := a.edges.getD j 0

/-- `np.diff(edges)`, the width of a bin. -/
noncomputable def Axis.width (a : Axis) (j : ℕ) : ℝ := a.edge (j + 1) - a.edge j

/-- `abscissa`, the middle of a bin, a5py/ascot5io/dist.py:78-100. -/
noncomputable def Axis.center (a : Axis) (j : ℕ) : ℝ := (a.edge (j + 1) + a.edge j) / 2

/-- A distribution with its abscissae. -/
structure Data where
  axes : List Axis
  f : List ℕ → ℝ

/-- `phasespacevolume`, a5py/ascot5io/dist.py:318-331. -/
noncomputable def volume : List Axis → List ℕ → ℝ
  | a :: as, i :: is => a.width i * volume as is
  | _, _ => 1

/-- `__init__`, a5py/ascot5io/dist.py:29-44. -/
noncomputable def ofHistogram (axes : List Axis) (h : List ℕ → ℝ) : Data := ⟨axes, fun i => h i / volume axes i⟩

/-- `histogram`, a5py/ascot5io/dist.py:135-144. -/
noncomputable def histogram (d : Data) (i : List ℕ) : ℝ := d.f i * volume d.axes i

/-- `_copy`, a5py/ascot5io/dist.py:46-59. -/
noncomputable def copy (d : Data) : Data := ofHistogram d.axes (histogram d)

/-- The indices of a Python slice with a positive step, for an array of length `n`. -/
def pySlice (n : ℕ) (start stop : Option ℤ) (step : ℕ) : List ℕ :=
  let bound (s : ℤ) : ℕ := if s < 0 then (s + n).toNat else min s.toNat n
  let lo := (start.map bound).getD 0
  let hi := (stop.map bound).getD n
  (List.range n).filter fun j => lo ≤ j ∧ j < hi ∧ (j - lo) % step = 0

/-- The argument for an abscissa in `integrate`: a slice, or an array. -/
inductive Sel where
  | slice (start stop : Option ℤ) (step : ℕ)
  | array (l : List ℝ)

/-- The factor for each bin besides its width, a5py/ascot5io/dist.py:228-236.  The length of an array must be that of
the axis (NumPy also takes arrays with one entry, which are left out here). -/
noncomputable def factor (a : Axis) : Sel → Option (ℕ → ℝ)
  | .slice start stop step => some fun j => if j ∈ pySlice a.size start stop step then 1 else 0
  | .array l => if l.length = a.size then some fun j => l.getD j 0 else none

/-- `np.average(dist, axis=dim, weights=ds, returned=True)` times the sum of weights,
a5py/ascot5io/dist.py:238-246.  NumPy raises an error if the weights sum to zero. -/
noncomputable def average (dim : ℕ) (a : Axis) (w : ℕ → ℝ) (d : Data) : Option Data :=
  let s := ∑ j ∈ Finset.range a.size, w j * a.width j
  if s = 0 then none
  else some ⟨d.axes.eraseIdx dim, fun i =>
    (∑ j ∈ Finset.range a.size, d.f (i.insertIdx dim j) * (w j * a.width j)) / s * s⟩

/-- The loop in `integrate`, a5py/ascot5io/dist.py:221-249: the axes to come, and the index of the next one. -/
noncomputable def integrateLoop (sel : ℕ → Option Sel) : List Axis → ℕ → Data → Option Data
  | [], _, d => some d
  | a :: as, dim, d =>
    match sel a.name with
    | none => integrateLoop sel as (dim + 1) d
    | some s => (factor a s).bind fun w => (average dim a w d).bind fun d => integrateLoop sel as dim d

/-- `integrate`, a5py/ascot5io/dist.py:195-251.  (Whether a copy is integrated makes no difference to the result.) -/
noncomputable def integrate (args : List (ℕ × Sel)) (d : Data) : Option Data :=
  if ∀ x ∈ args, x.1 ∈ d.axes.map (·.name) then integrateLoop (fun k => args.lookup k) d.axes 0 d
  else none

/-- The bins that have one of the given values, `np.nonzero(np.histogram(values, edges)[0])`; the last bin includes its
upper edge. -/
def inBin (a : Axis) (j : ℕ) (x : ℝ) : Prop :=
  a.edge j ≤ x ∧ (x < a.edge (j + 1) ∨ j + 1 = a.size ∧ x = a.edge (j + 1))

open Classical in
/-- The bins that are taken in `slice`, a5py/ascot5io/dist.py:165-166. -/
noncomputable def bins (a : Axis) (sel : List ℕ) : List ℕ :=
  (List.range a.size).filter fun j => ∃ i ∈ sel, inBin a j (a.center i)

/-- The edges that are taken in `slice` for a slice, a5py/ascot5io/dist.py:174-189. -/
def sliceEdges (a : Axis) (start stop : Option ℤ) : List ℝ :=
  let n : ℤ := a.size
  let hi := match stop with
    | none => n + 1
    | some s => if s < 0 then n + s + 1 else s + 1
  let lo := match start with
    | none => 0
    | some s => if s < 0 then n + s else s
  (pySlice a.edges.length (some lo) (some hi) 1).map fun j => a.edges.getD j 0

/-- `slice` of the axis with index `dim`, a5py/ascot5io/dist.py:163-193. -/
noncomputable def slice (dim : ℕ) (start stop : Option ℤ) (step : ℕ) (d : Data) : Option Data :=
  d.axes[dim]?.map fun a =>
    let idx := bins a (pySlice a.size start stop step)
    ⟨d.axes.set dim { a with edges := sliceEdges a start stop }, fun i => d.f (i.modify dim fun j => idx.getD j 0)⟩

/-- `np.argmax(val < edges) - 1`: the first edge above the value; zero if there is none. -/
noncomputable def cell (a : Axis) (x : ℝ) : ℤ :=
  match a.edges.findIdx? (fun e => decide (x < e)) with
  | some j => j - 1
  | none => -1

/-- An index that counts from the end if it is negative. -/
def pyIdx (n : ℕ) (i : ℤ) : Option ℕ :=
  if 0 ≤ i then if i < n then some i.toNat else none
  else if 0 ≤ i + n then some (i + n).toNat else none

/-- `interpolate` of a distribution with one axis, a5py/ascot5io/dist.py:266-316. -/
noncomputable def interpolate (a : Axis) (f : ℕ → ℝ) (x : ℝ) : Option ℝ :=
  if x < a.edge 0 ∨ a.edge a.size < x then none
  else
    let i := cell a x
    (pyIdx a.edges.length i).bind fun e0 =>
    (pyIdx a.edges.length (i + 1)).bind fun e1 =>
    (pyIdx a.size i).bind fun i0 =>
    (pyIdx a.size (i + 1)).map fun i1 =>
      let t := (x - a.edge e0) / (a.edge e1 - a.edge e0)
      t * f i0 + (1 - t) * f i1

end Ascot.DistData
