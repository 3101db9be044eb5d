import Verif.Model.Mhd
import Verif.Model.ExiDist
import Mathlib.Algebra.BigOperators.Group.Finset.Basic

/-!
# Boozer coordinates and safety factor of a tokamak

`boozer_tokamak` and `mhd_consistent_potentials` of `a5py/templates/poincare.py`, `input_eval_safetyfactor` of
`a5py/ascotpy/__init__.py`.

The corners of the contour, found by `input_rhotheta2rz` (C111), and the magnetic field at them are given.  The contour has `N + 1`
points, `nint = N + 1` in the code, and the field is evaluated at the first `N` of them.  Units are left out.
-/
namespace Ascot.BoozerMake

open Ascot.Coord

/-- Contour of a flux surface and the field on it, a5py/templates/poincare.py:254-263. -/
structure Contour where
  N : ℕ
  r : ℕ → ℝ
  z : ℕ → ℝ
  br : ℕ → ℝ
  bphi : ℕ → ℝ
  bz : ℕ → ℝ

/-- `bpol`, a5py/templates/poincare.py:265. -/
noncomputable def bpol (c : Contour) (k : ℕ) : ℝ := Real.sqrt (c.br k ^ 2 + c.bz k ^ 2)

/-- `bnorm`, a5py/templates/poincare.py:266. -/
noncomputable def bnorm (c : Contour) (k : ℕ) : ℝ := Real.sqrt (c.br k ^ 2 + c.bphi k ^ 2 + c.bz k ^ 2)

/-- `ds`, a5py/templates/poincare.py:267. -/
noncomputable def ds (c : Contour) (k : ℕ) : ℝ :=
  ((c.r (k + 1) - c.r k) * c.br k + (c.z (k + 1) - c.z k) * c.bz k) / bpol c k

/-- `Iprof`, a5py/templates/poincare.py:272 and a5py/ascotpy/__init__.py:1633. -/
noncomputable def I (c : Contour) : ℝ := (∑ k ∈ Finset.range c.N, ds c k * bpol c k) / (2 * Real.pi)

/-- `gprof`, a5py/templates/poincare.py:275 and a5py/ascotpy/__init__.py:1636. -/
def g (c : Contour) : ℝ := c.r 0 * c.bphi 0

/-- `qprof`, a5py/templates/poincare.py:278 and a5py/ascotpy/__init__.py:1639. -/
noncomputable def q (c : Contour) : ℝ := (∑ k ∈ Finset.range c.N, ds c k * g c / (c.r k ^ 2 * bpol c k)) / (2 * Real.pi)

/-- `jac`, a5py/templates/poincare.py:282. -/
noncomputable def jac (c : Contour) (k : ℕ) : ℝ := (I c + q c * g c) / bnorm c k ^ 2

/-- `btheta` before it is normalized, a5py/templates/poincare.py:283-284. -/
noncomputable def btheta0 (c : Contour) (k : ℕ) : ℝ := ∑ j ∈ Finset.range k, ds c j / (jac c j * bpol c j)

/-- `a`, a5py/templates/poincare.py:289. -/
noncomputable def a (c : Contour) : ℝ := 2 * Real.pi / btheta0 c c.N

open Classical in
/-- The check at a5py/templates/poincare.py:290-293; a division by zero gives a NaN or an infinity, which are refused. -/
noncomputable def accepted (c : Contour) : Bool := decide (btheta0 c c.N ≠ 0 ∧ ¬ |a c - 1| > 0.1)

/-- `btheta`, a5py/templates/poincare.py:294. -/
noncomputable def btheta (c : Contour) (k : ℕ) : ℝ := btheta0 c k * a c

/-- `nu` along the contour, a5py/templates/poincare.py:299-300. -/
noncomputable def nu (c : Contour) (k : ℕ) : ℝ := g c * ∑ j ∈ Finset.range k, ds c j / (c.r j ^ 2 * bpol c j)

open Classical in
/-- `interp1d(xs, ys, "linear")(x)` for `N + 1` points in increasing order: `none` is an exception for a value outside.  (`interp1d`
sorts the points; they are in order here.) -/
noncomputable def interp1d (N : ℕ) (xs ys : ℕ → ℝ) (x : ℝ) : Option ℝ :=
  if x < xs 0 ∨ xs N < x then none
  else
    let i := min (max ((List.range (N + 1)).countP fun k => decide (xs k < x)) 1) N
    some (ys (i - 1) + (ys i - ys (i - 1)) / (xs i - xs (i - 1)) * (x - xs (i - 1)))

/-- The points of `np.linspace(a, b, n)`. -/
noncomputable def grid (a b : ℝ) (n k : ℕ) : ℝ := a + k * ((b - a) / ((n : ℝ) - 1))

/-- A row of `thtable` as a function of the geometrical angle, a5py/templates/poincare.py:220 and 295. -/
noncomputable def theta (c : Contour) (x : ℝ) : Option ℝ := interp1d c.N (grid 0 (2 * Real.pi) (c.N + 1)) (btheta c) x

/-- A row of `nutable` as a function of the Boozer angle, a5py/templates/poincare.py:303-304. -/
noncomputable def nuOf (c : Contour) (x : ℝ) : Option ℝ := (interp1d c.N (btheta c) (nu c) x).map fun v => -v + q c * x

/-- `psimin` and `psimax`, a5py/templates/poincare.py:225-228. -/
noncomputable def psimin (psi0 psi1 rhomin rhomax : ℝ) : ℝ := min (psi0 + rhomin ^ 2 * (psi1 - psi0)) (psi0 + rhomax ^ 2 * (psi1 - psi0))
noncomputable def psimax (psi0 psi1 rhomin rhomax : ℝ) : ℝ := max (psi0 + rhomin ^ 2 * (psi1 - psi0)) (psi0 + rhomax ^ 2 * (psi1 - psi0))

/-- `psigrid`, a5py/templates/poincare.py:229-230. -/
noncomputable def psigrid (psi0 psi1 rhomin rhomax : ℝ) (n : ℕ) : List ℝ :=
  let l := ExiDist.linspace (psimin psi0 psi1 rhomin rhomax) (psimax psi0 psi1 rhomin rhomax) n
  if psi1 < psi0 then l.reverse else l

/-- The label of the contour for a value of psi, a5py/templates/poincare.py:252. -/
noncomputable def rhoOf (psi0 psi1 psi : ℝ) : ℝ := Real.sqrt ((psi - psi0) / (psi1 - psi0))

/-- The rows of a table, a5py/templates/poincare.py:248-309, where `row` gives the row for the contour with a label. -/
noncomputable def table {α : Type} (row : ℝ → α) (psi0 psi1 rhomin rhomax : ℝ) (n : ℕ) : List α :=
  let l := (psigrid psi0 psi1 rhomin rhomax n).map fun p => row (rhoOf psi0 psi1 p)
  if psi1 < psi0 then l.reverse else l

/-- The label of the last contour, from which `rs` and `zs` are made, a5py/templates/poincare.py:311-315; `none` without rows. -/
noncomputable def last (psi0 psi1 rhomin rhomax : ℝ) (n : ℕ) : Option ℝ :=
  (psigrid psi0 psi1 rhomin rhomax n).getLast?.map (rhoOf psi0 psi1)

/-! ## Trapped particles -/

/-- The weights `dth / bpol`, a5py/ascotpy/__init__.py:1642-1644. -/
noncomputable def weight (c : Contour) (k : ℕ) : ℝ :=
  (grid 0 (2 * Real.pi) (c.N + 1) (k + 1) - grid 0 (2 * Real.pi) (c.N + 1) k) / bpol c k

/-- `b_favg`, a5py/ascotpy/__init__.py:1644. -/
noncomputable def bAvg (c : Contour) : ℝ :=
  (∑ k ∈ Finset.range c.N, bnorm c k * weight c k) / ∑ k ∈ Finset.range c.N, weight c k

/-- `favg`, a5py/ascotpy/__init__.py:1647-1648, for the maximum `bmax` of the field. -/
noncomputable def fAvg (c : Contour) (bmax tau : ℝ) : ℝ :=
  (∑ k ∈ Finset.range c.N, Real.sqrt (1 - tau * bnorm c k / bmax) * weight c k) / ∑ k ∈ Finset.range c.N, weight c k

/-- `ftrap`, a5py/ascotpy/__init__.py:1608 and 1645-1649. -/
noncomputable def ftrap (c : Contour) (bmax : ℝ) : ℝ :=
  1 - ∑ i ∈ Finset.range 100, 3 / 4 * (bAvg c / bmax) ^ 2 * grid 0 1 100 i * (1 / 99) / fAvg c bmax (grid 0 1 100 i)

/-! ## Potentials of modes -/

open Classical in
/-- `phi` of a mode, a5py/templates/poincare.py:383-384; `none` is a division by zero. -/
noncomputable def phiOf (q I g : ℝ) (n m : ℤ) (omega alpha : ℝ) : Option ℝ :=
  if n * q - m = 0 then none else some ((g * q + I) / (n * q - m) * alpha * omega)

open Classical in
/-- `alpha` of a mode, a5py/templates/poincare.py:389-390; `none` is a division by zero. -/
noncomputable def alphaOf (q I g : ℝ) (n m : ℤ) (omega phi : ℝ) : Option ℝ :=
  if g * q + I = 0 ∨ omega = 0 then none else some ((n * q - m) / (g * q + I) * phi / omega)

end Ascot.BoozerMake
