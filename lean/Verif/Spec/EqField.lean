import Verif.Model.Geqdsk
import Verif.Spec.Equilibrium

/-!
# The magnetic field of an equilibrium file, and that of an input of type `B_2DS`
-/
namespace Ascot.EqField

open Cocos (Eqd)

/-- The major radius of the `i`-th column of the file. -/
noncomputable def rAt (e : Eqd) (i : ℕ) : ℝ := e.rleft + i * (e.rdim / (e.nx - 1))

/-- The height of the `j`-th row of the file. -/
noncomputable def zAt (e : Eqd) (j : ℕ) : ℝ := e.zmid - e.zdim / 2 + j * (e.zdim / (e.ny - 1))

/-- The major radius at which the `i`-th values of an input are. -/
noncomputable def rOf (b : Geqdsk.B2d) (i : ℕ) : ℝ := b.rmin + i * ((b.rmax - b.rmin) / (b.nr - 1))

/-- The height at which the `j`-th values of an input are. -/
noncomputable def zOf (b : Geqdsk.B2d) (j : ℕ) : ℝ := b.zmin + j * ((b.zmax - b.zmin) / (b.nz - 1))

/-- An element of a two-dimensional array. -/
def at2 (m : List (List ℝ)) (i j : ℕ) : Option ℝ := m[i]?.bind (·[j]?)

/-- The array has this shape. -/
def Shape (m : List (List ℝ)) (n k : ℕ) : Prop := m.length = n ∧ ∀ row ∈ m, row.length = k

/-- Where a value of ψ is among the samples of the profiles: zero at the axis and `nx - 1` at the boundary. -/
noncomputable def pos (e : Eqd) (psi : ℝ) : ℝ := (psi - e.simagx) / (e.sibdry - e.simagx) * (e.nx - 1)

/-- The toroidal field function at a value of ψ: linear between the samples, and constant outside the
plasma and beyond the axis. -/
inductive FOf (e : Eqd) (psi : ℝ) : ℝ → Prop
  | inside (k : ℕ) (u v : ℝ) : e.fpol[k]? = some u → e.fpol[k + 1]? = some v → (k : ℝ) ≤ pos e psi →
      pos e psi ≤ k + 1 → FOf e psi (u + (pos e psi - k) * (v - u))
  | outside (v : ℝ) : e.fpol.getLast? = some v → (e.nx - 1 : ℝ) ≤ pos e psi → FOf e psi v
  | axis (v : ℝ) : e.fpol.head? = some v → pos e psi ≤ 0 → FOf e psi v

/-- The contents of a file fit together. -/
structure Valid (e : Eqd) : Prop where
  nx : 2 ≤ e.nx
  ny : 2 ≤ e.ny
  flux : e.simagx ≠ e.sibdry
  fpol : e.fpol.length = e.nx
  psi : Shape e.psi e.nx e.ny

end Ascot.EqField
