import Verif.Model.ExiDist

/-!
# Moments of distributions (`Dist` and `DistMoment` of `a5py/ascot5io/dist.py`, `getdist_moments` of `a5py/routines/runmixin.py`)

Names of abscissae are numbers, and `space` says which are `r`, `phi`, `z` (or `rho`, `theta`, `phi`).  Units are left
out.  `none` is an exception.
-/
namespace Ascot.Moments

open DistData (Axis Data Sel integrate histogram)
open ExiDist (energy cellP)

/-- The arguments of `integrate` for all abscissae but those that stay. -/
def others (stay : ℕ → Bool) (d : Data) : List (ℕ × Sel) :=
  (d.axes.filter fun a => !stay a.name).map fun a => (a.name, .slice none none 1)

/-- `density`, a5py/ascot5io/dist.py:547-567. -/
noncomputable def density (space : ℕ → Bool) (V : List ℕ → ℝ) (d : Data) : Option (List ℕ → ℝ) :=
  (integrate (others space d) d).map fun d i => histogram d i / V i

/-- The position of an abscissa. -/
def pos (axes : List Axis) (k : ℕ) : ℕ := axes.findIdx fun a => decide (a.name = k)

/-- `_multiply` with factors for two abscissae, a5py/ascot5io/dist.py:60-76. -/
noncomputable def multiply (fac : ℕ → ℕ → ℝ) (j k : ℕ) (d : Data) : Data :=
  ⟨d.axes, fun r => d.f r * fac (r.getD (pos d.axes j) 0) (r.getD (pos d.axes k) 0)⟩

/-- `abscissa(name)`: refused if there is none. -/
def axis (k : ℕ) (d : Data) : Option Axis := d.axes.find? fun a => decide (a.name = k)

/-- `energydensity`, a5py/ascot5io/dist.py:594-620; `ppar` and `pperp` are names.  With three momentum cells,
`gamma_momentum` returns one number, which cannot be given the shape of the cells. -/
noncomputable def energydensity (space : ℕ → Bool) (ppar pperp : ℕ) (c m : ℝ) (V : List ℕ → ℝ) (d : Data) :
    Option (List ℕ → ℝ) :=
  (integrate (others (fun k => space k || decide (k = ppar) || decide (k = pperp)) d) d).bind fun d =>
  (axis ppar d).bind fun par =>
  (axis pperp d).bind fun perp =>
  if par.size * perp.size = 3 then none
  else
    (integrate [(ppar, .slice none none 1), (pperp, .slice none none 1)]
      (multiply (fun i j => energy c m (cellP par perp i j)) ppar pperp d)).map fun d i => histogram d i / V i

/-- The sum over the momentum cells at one point in space, with factors: `_multiply`, `integrate` over both momenta and
`histogram`. -/
noncomputable def cells (par perp : Axis) (h w : ℕ → ℕ → ℝ) : ℝ :=
  ∑ i ∈ Finset.range par.size, ∑ j ∈ Finset.range perp.size, h i j * w i j

/-- `vpa` and `vpe`, a5py/ascot5io/dist.py:643-648: the momentum times `vnorm / pnorm`, where
`velocity_momentum` is `p / (m gamma)`, a5py/physlib/__init__.py:59-68. -/
noncomputable def vpa (c m : ℝ) (par perp : Axis) (i j : ℕ) : ℝ :=
  par.center i * (cellP par perp i j / (m * Real.sqrt (1 + cellP par perp i j ^ 2 / (m * c) ^ 2))) / cellP par perp i j

@[inherit_doc vpa]
noncomputable def vpe (c m : ℝ) (par perp : Axis) (i j : ℕ) : ℝ :=
  perp.center j * (cellP par perp i j / (m * Real.sqrt (1 + cellP par perp i j ^ 2 / (m * c) ^ 2))) / cellP par perp i j

/-- `vpa_avg`, a5py/ascot5io/dist.py:656-662. -/
noncomputable def vpaAvg (c m : ℝ) (par perp : Axis) (h : ℕ → ℕ → ℝ) : ℝ :=
  let N := cells par perp h fun _ _ => 1
  if N = 0 then 0 else cells par perp h (vpa c m par perp) / N

/-- `Ppa`, a5py/ascot5io/dist.py:664-674. -/
noncomputable def Ppa (c m : ℝ) (par perp : Axis) (h : ℕ → ℕ → ℝ) (V : ℝ) : ℝ :=
  let N := cells par perp h fun _ _ => 1
  if N = 0 then 0
  else m * (cells par perp h (fun i j => vpa c m par perp i j ^ 2) - N * vpaAvg c m par perp h ^ 2) / V

/-- `Ppe`, a5py/ascot5io/dist.py:676-685. -/
noncomputable def Ppe (c m : ℝ) (par perp : Axis) (h : ℕ → ℕ → ℝ) (V : ℝ) : ℝ :=
  let N := cells par perp h fun _ _ => 1
  if N = 0 then 0 else m * cells par perp h (fun i j => vpe c m par perp i j ^ 2) / V

/-- `pressure` at one point in space, a5py/ascot5io/dist.py:623-689, after the integration over the other abscissae. -/
noncomputable def pressure (c m : ℝ) (par perp : Axis) (h : ℕ → ℕ → ℝ) (V : ℝ) : ℝ :=
  1 / 3 * (Ppa c m par perp h V + 2 * Ppe c m par perp h V)

/-- `parallelcurrent` at one point in space for one charge, a5py/ascot5io/dist.py:728-755: integration with the parallel
momentum as factor (where this is not refused), then times `1 / mass`. -/
noncomputable def parallelcurrent (m q : ℝ) (par perp : Axis) (h : ℕ → ℕ → ℝ) (V : ℝ) : ℝ :=
  cells par perp h (fun i _ => q * par.center i) * (1 / m) / V

/-- The volumes of bins in cylindrical coordinates, a5py/routines/runmixin.py:757-765. -/
noncomputable def cylVolume (r phi z : Axis) (i j k : ℕ) : ℝ :=
  0.5 * (phi.edge (j + 1) - phi.edge j) * (r.edge (i + 1) ^ 2 - r.edge i ^ 2) * (z.edge (k + 1) - z.edge k)

/-- The volume between two flux surfaces, as used for bins in flux coordinates, a5py/routines/runmixin.py:744-752 and
a5py/ascotpy/__init__.py:1429: `vol` is the volume within a flux surface, and only the number of edges is passed. -/
noncomputable def shellVolume (vol : ℝ → ℝ) (rho : Axis) (i : ℕ) : ℝ :=
  vol ((ExiDist.linspace 0 1 rho.edges.length).getD (i + 1) 0) - vol ((ExiDist.linspace 0 1 rho.edges.length).getD i 0)

/-- `ordinate` with `toravg` in flux coordinates (the toroidal axis is the third), a5py/ascot5io/dist.py:450-453. -/
noncomputable def toravgRho (n3 : ℕ) (V f : ℕ → ℕ → ℕ → ℝ) (i j : ℕ) : ℝ :=
  (∑ k ∈ Finset.range n3, f i j k * V i j k) / ∑ k ∈ Finset.range n3, V i j k

/-- `ordinate` with `toravg` in cylindrical coordinates (the toroidal axis is the second),
a5py/ascot5io/dist.py:454-456. -/
noncomputable def toravgCyl (n2 : ℕ) (V f : ℕ → ℕ → ℕ → ℝ) (i k : ℕ) : ℝ :=
  (∑ j ∈ Finset.range n2, f i j k * V i j k) / ∑ j ∈ Finset.range n2, V i j k

/-- `ordinate` with `toravg` and `polavg` in flux coordinates, a5py/ascot5io/dist.py:457-461. -/
noncomputable def profile (n2 n3 : ℕ) (V f : ℕ → ℕ → ℕ → ℝ) (i : ℕ) : ℝ :=
  let vol j := ∑ k ∈ Finset.range n3, V i j k
  (∑ j ∈ Finset.range n2, toravgRho n3 V f i j * vol j) / ∑ j ∈ Finset.range n2, vol j

end Ascot.Moments
