import Mathlib.Algebra.Order.Ring.Defs
import Mathlib.Data.List.Sort

/-!
# Combining the outputs of several files (`a5py/ascot5io/coreio/tools.py`, `bin/a5combine`)

`combineoutput` adds the output of one run to that of another: markers, orbits and transport
coefficients are put one after the other and distributions are summed ("add"), or the end states are
replaced by those of the markers that were continued ("continue").

The datasets of states, orbits and transport coefficients have one dimension
(`hdf5_write_extendible_dataset_*`, src/hdf5io/hdf5_helpers.c:330-430), so that `size` is their
length.  All numbers are in one ordered ring; the integers in the files are not distinguished.
-/
namespace Ascot.Combine

variable {K : Type} [CommRing K] [LinearOrder K] [IsStrictOrderedRing K]

/-- The datasets of a group in the order of their names. -/
abbrev Fields (K : Type) := List (String × List K)

/-- `sdata[field][:]`; `none`: `KeyError`. -/
def Fields.get (s : Fields K) (n : String) : Option (List K) := (s.find? fun x => x.1 = n).map (·.2)

/-- A distribution: the edges of its bins and the values with their shape. -/
structure Dist (K : Type) where
  edges : List (List K)
  shape : List ℕ
  ordinate : List K

/-- The output of a run; `none`: there is no such group.  The distributions are those among `5d`, `6d`,
`rho5d`, `rho6d` and `com` that are there. -/
structure Run (K : Type) where
  inistate : Option (Fields K)
  endstate : Option (Fields K)
  dists : List (String × Dist K)
  orbit : Option (Fields K)
  transcoef : Option (Fields K)

/-- What can be raised: `KeyError` (a dataset is missing), `ValueError` (shapes do not match),
`IndexError`, and `TypeError` (elements of a dataset in an order other than increasing). -/
inductive Exc
  | key | value | index | type
  deriving DecidableEq, Repr

/-- The outcome of something that changes a group, which may have been changed before an exception was
raised. -/
inductive Out (α : Type)
  | ok (a : α)
  | err (e : Exc) (a : α)

/-- Appends the datasets of `s` to those of `t`, a5py/ascot5io/coreio/tools.py:209-227, 254-262 and
265-273, one after the other. -/
def append : Fields K → Fields K → Out (Fields K)
  | [], _ => .ok []
  | x :: t, s =>
    match s.get x.1 with
    | none => .err .key (x :: t)
    | some e =>
      match append t s with
      | .ok r => .ok ((x.1, x.2 ++ e) :: r)
      | .err c r => .err c ((x.1, x.2 ++ e) :: r)

/-- Both groups are there, or nothing is done. -/
def both (f : Fields K → Fields K → Out (Fields K)) :
    Option (Fields K) → Option (Fields K) → Out (Option (Fields K))
  | some t, some s =>
    match f t s with
    | .ok r => .ok (some r)
    | .err c r => .err c (some r)
  | t, _ => .ok t

/-- `tdata["ordinate"][:] += sdata["ordinate"][:]`, a5py/ascot5io/coreio/tools.py:245-251, for
all distributions of the target.  Of the rules by which `numpy` adds arrays with different shapes only
the exception is modelled. -/
def addDists : List (String × Dist K) → List (String × Dist K) → Out (List (String × Dist K))
  | [], _ => .ok []
  | x :: t, s =>
    match s.find? fun y => y.1 = x.1 with
    | none =>
      match addDists t s with
      | .ok r => .ok (x :: r)
      | .err c r => .err c (x :: r)
    | some y =>
      if x.2.shape = y.2.shape then
        match addDists t s with
        | .ok r => .ok ((x.1, ⟨x.2.edges, x.2.shape,
            List.zipWith (· + ·) x.2.ordinate y.2.ordinate⟩) :: r)
        | .err c r => .err c ((x.1, ⟨x.2.edges, x.2.shape,
            List.zipWith (· + ·) x.2.ordinate y.2.ordinate⟩) :: r)
      else .err .value (x :: t)

/-! ## Continued simulations -/

/-- `np.argsort(ids)`.  The order of equal elements is not specified in `numpy`; here they stay in
order. -/
def argsort (ids : List K) : List ℕ :=
  ((ids.zip (List.range ids.length)).insertionSort fun a b => a.1 ≤ b.1).map (·.2)

/-- `data[idx]`; `none`: `IndexError`. -/
def gather (d : List K) (idx : List ℕ) : Option (List K) := idx.mapM fun i => d[i]?

/-- `dataset[idx]` for a dataset and not an array: `h5py` selects elements in increasing order only, and
raises a `TypeError` otherwise. -/
def increasing (idx : List ℕ) : Bool := (idx.zip idx.tail).all fun x => x.1 < x.2

/-- `data[idx] = src` or `data[idx] += src` with `idx` the indices at which the mask is true. -/
def scatter (op : K → K → K) : List K → List Bool → List K → List K
  | x :: xs, true :: ms, s :: ss => op x s :: scatter op xs ms ss
  | x :: xs, false :: ms, ss => x :: scatter op xs ms ss
  | xs, _, _ => xs

/-- The same with the rules for shapes: there are as many values as indices, or there is one value, which
is then used for all. -/
def assign (op : K → K → K) (data : List K) (mask : List Bool) (src : List K) : Option (List K) :=
  if (mask.filter id).length = src.length then some (scatter op data mask src)
  else match src with
    | [v] => some (scatter op data mask (List.replicate (mask.filter id).length v))
    | _ => none

/-- The fields that are added, a5py/ascot5io/coreio/tools.py:239. -/
def summed : List String := ["time", "mileage", "cputime"]

/-- The loop over the fields of the end state, a5py/ascot5io/coreio/tools.py:237-243. -/
def contFields (pt ps : List ℕ) (mask : List Bool) : Fields K → Fields K → Out (Fields K)
  | [], _ => .ok []
  | x :: t, s =>
    match gather x.2 pt with
    | none => .err .index (x :: t)
    | some data =>
      match s.get x.1 with
      | none => .err .key (x :: t)
      | some e =>
        match gather e ps with
        | none => .err .index (x :: t)
        | some src =>
          match assign (fun a b => if x.1 ∈ summed then a + b else b) data mask src with
          | none => .err .value (x :: t)
          | some d =>
            match contFields pt ps mask t s with
            | .ok r => .ok ((x.1, d) :: r)
            | .err c r => .err c ((x.1, d) :: r)

/-- The end state of a continued simulation, a5py/ascot5io/coreio/tools.py:229-243.  The identifiers are
taken from the dataset in the order of `argsort` in lines 235-236, and as arrays afterwards. -/
def continued (t s : Fields K) : Out (Fields K) :=
  match t.get "ids", s.get "ids" with
  | some it, some is =>
    if increasing (argsort it) && increasing (argsort is) then
      match gather it (argsort it), gather is (argsort is) with
      | some st, some ss =>
        contFields (argsort it) (argsort is) (st.map fun i => decide (i ∈ ss)) t s
      | _, _ => .err .index t
    else .err .type t
  | _, _ => .err .key t

/-- `combineoutput`, a5py/ascot5io/coreio/tools.py:179-273, for the active runs of both files. -/
def combine (add : Bool) (t s : Run K) : Out (Run K) :=
  match (if add then both append t.inistate s.inistate else .ok t.inistate) with
  | .err c i => .err c ⟨i, t.endstate, t.dists, t.orbit, t.transcoef⟩
  | .ok i =>
    match both (if add then append else continued) t.endstate s.endstate with
    | .err c e => .err c ⟨i, e, t.dists, t.orbit, t.transcoef⟩
    | .ok e =>
      match addDists t.dists s.dists with
      | .err c d => .err c ⟨i, e, d, t.orbit, t.transcoef⟩
      | .ok d =>
        match both append t.orbit s.orbit with
        | .err c o => .err c ⟨i, e, d, o, t.transcoef⟩
        | .ok o =>
          match both append t.transcoef s.transcoef with
          | .err c tc => .err c ⟨i, e, d, o, tc⟩
          | .ok tc => .ok ⟨i, e, d, o, tc⟩

/-- `a5combine -a`, bin/a5combine:64-75: the run of the first file is copied, and the runs of the other
files are added to it. -/
def combineAll (first : Run K) : List (Run K) → Out (Run K)
  | [] => .ok first
  | s :: ss =>
    match combine true first s with
    | .err c r => .err c r
    | .ok r => combineAll r ss

end Ascot.Combine
