import Verif.Model.DistFile
import Verif.Spec.OutputDoc

/-!
# Reading distributions from the file

How a distribution in the output file is to be read (`/repo/a5py/ascot5io/dist.py:18-25`): the
ordinate is an array with one index for each abscissa, in the order of the abscissae, and cell `i` of
an abscissa lies between its edges `i` and `i + 1`, which are in the unit given with them.
-/
namespace Ascot.DistDoc
open Ascot.DistFile (HistGroup AxisSet)
open Ascot.OutputDoc (Dim unitOf)

/-- Place of an element in an array with the given dimensions, the last index running fastest. -/
def place : List ℕ → List ℕ → ℕ
  | _ :: ns, i :: is => i * ns.prod + place ns is
  | _, _ => 0

/-- The number in cell `is`. -/
def value (g : HistGroup) (is : List ℕ) : ℝ := g.data (place g.dims (0 :: is))

/-- `is` is a cell of the distribution. -/
def IsCell (g : HistGroup) (is : List ℕ) : Prop :=
  List.Forall₂ (fun i (s : AxisSet) => i < s.nbin) is g.absc

/-- The quantity `x` (in SI units, of dimension `d`) belongs to cell `i` of an abscissa. -/
def Spans (s : AxisSet) (d : Dim) (i : ℕ) (x : ℝ) : Prop :=
  ∃ f lo hi, unitOf s.unit = some (d, f) ∧ s.edges[i]? = some lo ∧ s.edges[i + 1]? = some hi ∧
    lo * f ≤ x ∧ x < hi * f

/-- The quantities belong to a cell of a distribution with the given abscissae. -/
def InCell : List AxisSet → List Dim → List ℕ → List ℝ → Prop
  | [], [], [], [] => True
  | s :: ss, d :: ds, i :: is, x :: xs => Spans s d i x ∧ InCell ss ds is xs
  | _, _, _, _ => False

/-- The distributions. -/
inductive Kind | d5 | d6 | rho5 | rho6 | com

/-- Names and dimensions of the abscissae, `/repo/a5py/ascot5io/dist.py` and
`/repo/a5py/routines/distmixin.py`. -/
def doc : Kind → List (String × Dim)
  | .d5 => [("r", .length), ("phi", .one), ("z", .length), ("ppar", .momentum),
      ("pperp", .momentum), ("time", .time), ("charge", .charge)]
  | .d6 => [("r", .length), ("phi", .one), ("z", .length), ("pr", .momentum),
      ("pphi", .momentum), ("pz", .momentum), ("time", .time), ("charge", .charge)]
  | .rho5 => [("rho", .one), ("theta", .one), ("phi", .one), ("ppar", .momentum),
      ("pperp", .momentum), ("time", .time), ("charge", .charge)]
  | .rho6 => [("rho", .one), ("theta", .one), ("phi", .one), ("pr", .momentum),
      ("pphi", .momentum), ("pz", .momentum), ("time", .time), ("charge", .charge)]
  | .com => [("mu", .moment), ("ekin", .energy), ("ptor", .action)]

/-- Abscissae of general histograms, `/repo/src/diag/hist.h:17-34`. -/
def general : List (String × Dim) :=
  [("r", .length), ("phi", .one), ("z", .length), ("rho", .one), ("theta", .one),
   ("ppar", .momentum), ("pperp", .momentum), ("pr", .momentum), ("pphi", .momentum),
   ("pz", .momentum), ("ekin", .energy), ("pitch", .one), ("mu", .moment), ("ptor", .action),
   ("time", .time), ("charge", .charge)]

end Ascot.DistDoc
