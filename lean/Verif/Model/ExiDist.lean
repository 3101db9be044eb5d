import Verif.Model.DistData
import Mathlib.Analysis.Real.Sqrt

/-!
# Conversion of distributions to energy and pitch (`Dist.ppappe2ekinpitch` of `a5py/ascot5io/dist.py`)

The distribution has axes `pre`, parallel and perpendicular momentum, and `post`, as in all 5D distributions.  Edges given
by the user are increasing.  Units are left out.
-/
namespace Ascot.ExiDist

open DistData (Axis Data volume histogram)

/-- The name of the abscissa `ekin`. -/
def ekinName : ℕ := 100

/-- The name of the abscissa `pitch`. -/
def pitchName : ℕ := 101

/-- An argument: edges, or an integer. -/
inductive Grid where
  | edges (l : List ℝ)
  | number (n : ℕ)

/-- `np.linspace(a, b, n)`. -/
noncomputable def linspace (a b : ℝ) (n : ℕ) : List ℝ := (List.range n).map fun (k : ℕ) => a + k * ((b - a) / ((n : ℝ) - 1))

/-- `physlib.gamma_momentum` for a norm, a5py/physlib/__init__.py:83-91, then `energy_gamma`, line 153. -/
noncomputable def energy (c m p : ℝ) : ℝ := (Real.sqrt (1 + p ^ 2 / (m * c) ^ 2) - 1) * m * c ^ 2

/-- The largest momentum squared, a5py/ascot5io/dist.py:1184-1186.  The third argument of `np.maximum` is the array for the
result, so that its value is not used. -/
noncomputable def p2max (par _perp : Axis) : ℝ := max (par.edge par.size ^ 2) (par.edge 0 ^ 2)

/-- The edges of the energy grid, a5py/ascot5io/dist.py:1183-1188. -/
noncomputable def ekinEdges (c m : ℝ) (par perp : Axis) : Grid → List ℝ
  | .edges l => l
  | .number n => linspace 0 (energy c m (Real.sqrt (p2max par perp))) n

/-- The edges of the pitch grid, a5py/ascot5io/dist.py:1189-1190. -/
noncomputable def pitchEdges : Grid → List ℝ
  | .edges l => l
  | .number n => linspace (-1) 1 n

/-- `pnorm0`, `pitch0` and `ekin0` of a cell, a5py/ascot5io/dist.py:1245-1251. -/
noncomputable def cellP (par perp : Axis) (i j : ℕ) : ℝ := Real.sqrt (par.center i ^ 2 + perp.center j ^ 2)

@[inherit_doc cellP]
noncomputable def cellPitch (par perp : Axis) (i j : ℕ) : ℝ := par.center i / cellP par perp i j

@[inherit_doc cellP]
noncomputable def cellEkin (c m : ℝ) (par perp : Axis) (i j : ℕ) : ℝ := energy c m (cellP par perp i j)

/-- `np.digitize(x, edges)` for increasing edges. -/
noncomputable def digitize (x : ℝ) (edges : List ℝ) : ℕ := edges.countP fun e => decide (e ≤ x)

/-- `ppappe2ekinpitch`, a5py/ascot5io/dist.py:1140-1293.  With three momentum cells, `gamma_momentum` takes the array for
a vector and returns one number, and the conditions in the mask have different shapes: an exception. -/
noncomputable def convert (c m : ℝ) (pre : List Axis) (par perp : Axis) (post : List Axis) (f : List ℕ → ℝ)
    (eg pg : Grid) : Option Data :=
  if par.size * perp.size = 3 then none
  else
    let ea : Axis := ⟨ekinName, ekinEdges c m par perp eg⟩
    let pa : Axis := ⟨pitchName, pitchEdges pg⟩
    let hist := histogram ⟨pre ++ par :: perp :: post, f⟩
    let axes := pre ++ ea :: pa :: post
    some ⟨axes, fun r =>
      let ip := r.take pre.length
      let u := r.getD pre.length 0
      let v := r.getD (pre.length + 1) 0
      let ir := r.drop (pre.length + 2)
      (∑ i ∈ Finset.range par.size, ∑ j ∈ Finset.range perp.size,
        if digitize (cellEkin c m par perp i j) ea.edges = u + 1 ∧ digitize (cellPitch par perp i j) pa.edges = v + 1 then
          hist (ip ++ i :: j :: ir)
        else 0) / volume axes r⟩

/-- `getdist(None)`, a5py/routines/runmixin.py:692-699: the loop over a list from which names are removed.  `k` is the
position of the iterator, `n` bounds the number of turns. -/
def available (has : ℕ → Bool) : ℕ → ℕ → List ℕ → List ℕ
  | 0, _, l => l
  | n + 1, k, l =>
    match l[k]? with
    | none => l
    | some x => if has x then available has n (k + 1) l else available has n (k + 1) (l.erase x)

end Ascot.ExiDist
