import Verif.Model.ExiDist
import Verif.Model.Coord

/-!
# Volumes of the cells between flux surfaces (`Ascot.input_rhovolume` of `a5py/ascotpy/__init__.py`)

`rz` is `input_rhotheta2rz`, the point on a flux surface at a poloidal and a toroidal angle, and `axis` the magnetic axis at
a toroidal angle; both are assumed to succeed.  Units are left out.  The angles that the points on a surface are computed
for are `np.linspace(0, 2*np.pi, 1000)`; the number is a parameter here.
-/
namespace Ascot.RhoVolume

open ExiDist (linspace)

/-- Geometry of the flux surfaces. -/
structure Field where
  rz : ℝ → ℝ → ℝ → ℝ × ℝ
  axis : ℝ → ℝ × ℝ

/-- `th`, a5py/ascotpy/__init__.py:1450: the angle with number `k` of `m + 1`. -/
noncomputable def th (m k : ℕ) : ℝ := 0 + k * ((2 * Real.pi - 0) / (((m + 1 : ℕ) : ℝ) - 1))

/-- `area` of a triangle, a5py/ascotpy/__init__.py:1467-1469. -/
noncomputable def area (o p q : ℝ × ℝ) : ℝ := 0.5 * |o.1 * (p.2 - q.2) + p.1 * (q.2 - o.2) + q.1 * (o.2 - p.2)|

/-- `volume` of a prism, a5py/ascotpy/__init__.py:1470-1472. -/
noncomputable def prism (h : ℝ) (o p q : ℝ × ℝ) : ℝ := h * ((o.1 + p.1 + q.1) / 3) * area o p q

/-- `V` within a flux surface and a sector, and `A`, a5py/ascotpy/__init__.py:1458-1481, where `g` is the quantity of a
triangle. -/
noncomputable def sector (F : Field) (m : ℕ) (g : ℝ × ℝ → ℝ × ℝ → ℝ × ℝ → ℝ) (rho phi t0 t1 : ℝ) : ℝ :=
  ∑ k ∈ Finset.range m,
    if t0 ≤ th m k ∧ th m k < t1 then g (F.axis phi) (F.rz rho (th m k) phi) (F.rz rho (th m (k + 1)) phi) else 0

/-- `integrate_prism`, a5py/ascotpy/__init__.py:1446-1485: volume and area of the cell `i`, `j`.  The volumes within the
flux surfaces `rho[1:]` are subtracted from each other. -/
noncomputable def integratePrism (F : Field) (m : ℕ) (rho theta : ℕ → ℝ) (phimin phimax : ℝ) (i j : ℕ) : ℝ × ℝ :=
  let phi := (phimin + phimax) / 2
  let V i := sector F m (prism (phimax - phimin)) (rho (i + 1)) phi (theta j) (theta (j + 1))
  let A i := sector F m area (rho (i + 1)) phi (theta j) (theta (j + 1))
  match i with
  | 0 => (V 0, A 0)
  | i + 1 => (V (i + 1) - V i, A (i + 1) - A i)

/-- The volumes of the cells as the sum of those in parts of the toroidal interval, a5py/ascotpy/__init__.py:1552-1554 and
1558-1562. -/
noncomputable def parts (I : ℝ → ℝ → ℕ → ℕ → ℝ × ℝ) (p0 p1 d : ℝ) (i j : ℕ) : ℝ :=
  ∑ k ∈ Finset.range ⌊(p1 - p0) / d⌋.toNat, (I (p0 + d * k) (p0 + d * (k + 1)) i j).1

/-- `np.sum` over the cells. -/
noncomputable def sum (nr nt : ℕ) (V : ℕ → ℕ → ℝ) : ℝ := ∑ i ∈ Finset.range nr, ∑ j ∈ Finset.range nt, V i j

/-- The loop at a5py/ascotpy/__init__.py:1555-1563: `d` is the length of the parts of `v`.  `none` if it has not ended
after `fuel` turns. -/
noncomputable def refine (I : ℝ → ℝ → ℕ → ℕ → ℝ × ℝ) (nr nt : ℕ) (tol p0 p1 : ℝ) : ℕ → ℝ → (ℕ → ℕ → ℝ) → (ℕ → ℕ → ℝ) →
    Option (ℕ → ℕ → ℝ)
  | 0, _, _, _ => none
  | fuel + 1, d, volume, v =>
    if |sum nr nt v - sum nr nt volume| > tol then refine I nr nt tol p0 p1 fuel (d / 2) v (parts I p0 p1 (d / 2))
    else some v

/-- The volumes for one toroidal interval, a5py/ascotpy/__init__.py:1548-1563. -/
noncomputable def slab (I : ℝ → ℝ → ℕ → ℕ → ℝ × ℝ) (nr nt : ℕ) (tol p0 p1 : ℝ) (fuel : ℕ) : Option (ℕ → ℕ → ℝ) :=
  let d := (p1 - p0) / 2
  refine I nr nt tol p0 p1 fuel d (fun i j => (I p0 p1 i j).1)
    fun i j => (I p0 (p0 + d) i j).1 + (I (p0 + d) (p0 + d * 2) i j).1

/-- `rho`, a5py/ascotpy/__init__.py:1429. -/
noncomputable def rhoEdge (minrho maxrho : ℝ) (n k : ℕ) : ℝ := minrho + k * ((maxrho - minrho) / ((n : ℝ) - 1))

/-- `phi` and `theta`, a5py/ascotpy/__init__.py:1430-1431, in radians, from limits in degrees. -/
noncomputable def angleEdge (min max : ℝ) (n k : ℕ) : ℝ := min + k * ((max / 180 * Real.pi - min) / ((n : ℝ) - 1))

/-- The angles of the centres of cells, a5py/ascotpy/__init__.py:1436-1439. -/
noncomputable def centre (e : ℕ → ℝ) (k : ℕ) : ℝ := (e (k + 1) + e k) / 2

/-! ## Monte Carlo -/

/-- A point with its flux surface. -/
structure Point where
  r : ℝ
  z : ℝ
  rho : ℝ

/-- `bbox`, a5py/ascotpy/__init__.py:1497-1501. -/
structure Box where
  r0 : ℝ
  r1 : ℝ
  z0 : ℝ
  z1 : ℝ

/-- The cell of a point, a5py/ascotpy/__init__.py:1529-1534; `none` if it is rejected.  `nr` and `nt` are the numbers of
cells. -/
noncomputable def cell (o : ℝ × ℝ) (nr nt : ℕ) (p : Point) : Option (ℤ × ℤ) :=
  if p.rho ≤ 1 then
    some (⌊p.rho / (1 / nr)⌋, ⌊(Coord.atan2 (p.z - o.2) (p.r - o.1) + Real.pi) / (2 * Real.pi / nt)⌋)
  else none

/-- The cell exists, as `np.add.at` requires. -/
noncomputable def valid (o : ℝ × ℝ) (nr nt : ℕ) (p : Point) : Bool :=
  match cell o nr nt p with
  | none => true
  | some c => decide (c.1 < nr) && decide (c.2 < nt)

/-- `points_in_bins`, a5py/ascotpy/__init__.py:1536; `none` if a cell does not exist. -/
noncomputable def count (o : ℝ × ℝ) (nr nt : ℕ) (l : List Point) (i j : ℕ) : Option ℕ :=
  if l.all (valid o nr nt) then
    some (l.countP fun p => decide (cell o nr nt p = some ((i : ℤ), (j : ℤ))))
  else none

/-- `integrate_mc`, a5py/ascotpy/__init__.py:1513-1542, for the points drawn until the loop ends: volume and area of a
cell. -/
noncomputable def integrateMC (o : ℝ × ℝ) (b : Box) (phimin phimax : ℝ) (nr nt : ℕ) (l : List Point) (i j : ℕ) :
    Option (ℝ × ℝ) :=
  (count o nr nt l i j).map fun (n : ℕ) =>
    (0.5 * (b.r1 ^ 2 - b.r0 ^ 2) * (b.z1 - b.z0) * (phimax - phimin) * n / l.length,
     (b.r1 - b.r0) * (b.z1 - b.z0) * n / l.length)

end Ascot.RhoVolume
