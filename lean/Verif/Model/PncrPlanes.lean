import Verif.Model.Options
import Verif.Model.Orbit

/-!
# Poincaré planes in the Python interface (`a5py/routines/runmixin.py`)

`getorbit_poincareplanes` lists the planes of a run with the numbers by which their crossings are marked in the orbit
data; `plotorbit_poincare` plots the crossings of one of them.  Numbers are real numbers.  `none` is an exception.  The
options are lists with at least one number (`Opt.read`, a5py/ascot5io/options.py:881-921, turns a single number into
such a list, as `opt2list` does).
-/
namespace Ascot.PncrPlanes

/-- The planes that the simulation uses: the loops of src/diag/diag_orb.c:300, 335 and 371 (and those for guiding centres
and field lines) go over the first `ntoroidalplots`, `npoloidalplots` and `nradialplots` numbers. -/
def used (o : Options.Orb) : Orbit.Planes ℝ := ⟨o.tor.take o.ntor, o.pol.take o.npol, o.rad.take o.nrad⟩

/-- `opt2list`, a5py/routines/runmixin.py:404-414: the pairs, beginning with the number `n`, and the next free number. -/
noncomputable def opt2list (val : List ℝ) (n : ℕ) : List (ℝ × ℕ) × ℕ :=
  let val := if val.headD 0 < 0 then [] else val
  (val.zipIdx n, n + val.length)

/-- `getorbit_poincareplanes`, a5py/routines/runmixin.py:395-416: poloidal, toroidal, radial.  When orbits were not
collected at planes the function returns `None`. -/
noncomputable def planeLists (enabled mode : ℤ) (polval torval radval : List ℝ) :
    Option (List (ℝ × ℕ) × List (ℝ × ℕ) × List (ℝ × ℕ)) :=
  if enabled = 1 ∧ mode = 0 then
    let pol := opt2list polval 0
    let tor := opt2list torval pol.2
    let rad := opt2list radval tor.2
    some (pol.1, tor.1, rad.1)
  else none

/-- First word of the argument `plane`. -/
inductive Kind
  | pol | tor | rad

/-- Names known to `Orbits._getactual`, a5py/ascot5io/orbits.py:159-182; those that depend on the momentum
(lines 187-261) are left out. -/
def known : List String :=
  ["ids", "r", "z", "phi", "phimod", "theta", "thetamod", "x", "y", "br", "bz", "bphi", "bnorm", "rho", "psi", "mileage",
    "mass", "charge", "weight", "time", "pncrid", "pncrdir", "connlen"]

/-- The quantities on the axes, a5py/routines/runmixin.py:1344-1345, 1357-1358, 1370-1371. -/
def axes : Kind → Bool → String × String
  | .pol, alt => (if alt then "rho" else "r", if alt then "polmod" else "z")
  | .tor, alt => (if alt then "r" else "rho", "phimod")
  | .rad, _ => ("thetamod", "phimod")

/-- The list from which the plane is taken, a5py/routines/runmixin.py:1340, 1353, 1366. -/
def choice (l : List (ℝ × ℕ) × List (ℝ × ℕ) × List (ℝ × ℕ)) : Kind → List (ℝ × ℕ)
  | .pol => l.1
  | .tor => l.2.1
  | .rad => l.2.2

/-- `plotorbit_poincare(kind i)`, a5py/routines/runmixin.py:1338-1384, up to the axes and the points that are plotted;
`pncrid` reads the number of the plane of a point.  The choice of points in `getorbit` is that of
a5py/routines/runmixin.py:219-222.  Limits, labels and colours are left out. -/
noncomputable def plot {P : Type} (pncrid : P → ℕ) (pts : List P)
    (l : Option (List (ℝ × ℕ) × List (ℝ × ℕ) × List (ℝ × ℕ))) (kind : Kind) (i : ℤ) (alt : Bool) :
    Option (String × String × List P) :=
  match l with
  | none => none
  | some l =>
    if 0 ≤ i - 1 then
      match (choice l kind)[(i - 1).toNat]? with
      | none => none
      | some e =>
        if (axes kind alt).1 ∈ known ∧ (axes kind alt).2 ∈ known then
          some ((axes kind alt).1, (axes kind alt).2, pts.filter fun p => pncrid p = e.2)
        else none
    else none

end Ascot.PncrPlanes
