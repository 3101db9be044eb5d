import Verif.Model.Bfield
import Verif.Model.Linint
import Verif.Model.Wall2D

/-!
# Boozer coordinates (`src/boozer.c`)

The splines are parameters, as for the magnetic field; setting them up and evaluating them is modelled in `Interp`.  Results that
are not numbers are `none`.  Printing, offloading and releasing are left out.
-/
namespace Ascot.Boozer
open Ascot.Coord Ascot.Bfield

/-- `boozer_data`, src/boozer.h:16-27.  The splines are functions of psi and an angle; `D2.r` is the derivative with respect to
psi and `D2.z` the one with respect to the angle. -/
structure Data where
  psiMin : ℝ
  psiMax : ℝ
  rs : Nat → ℝ
  zs : Nat → ℝ
  nrzs : Nat
  nu : Spline2
  theta : Spline2

/-- The error returned by `boozer_init`, src/boozer.c:49-54, from the errors of setting up the two splines. -/
def initErr (_eNu eTheta : Nat) : Nat := eTheta

/-- The array of twelve numbers with the coordinates and their partial derivatives with respect to R, phi and z. -/
@[ext] structure Ptz where
  psi : Grad
  theta : Grad
  zeta : Grad

/-- The geometrical angle, src/boozer.c:157-158. -/
noncomputable def thgeo (r z r0 z0 : ℝ) : ℝ := Linint.fmod (atan2 (z - z0) (r - r0) + 2 * Real.pi) (2 * Real.pi)

/-- The toroidal coordinate, src/boozer.c:194 and 200. -/
noncomputable def zetaOf (phi nu : ℝ) : ℝ :=
  Linint.fmod (Linint.fmod (phi + nu) (2 * Real.pi) + 2 * Real.pi) (2 * Real.pi)

/-- The values stored when the point is inside, src/boozer.c:170-200. -/
noncomputable def store (r phi z r0 z0 : ℝ) (psi : Grad) (theta nu : D2) : Ptz :=
  let asq := (r - r0) * (r - r0) + (z - z0) * (z - z0)
  let dthgeoDr := -(z - z0) / asq
  let dthgeoDz := (r - r0) / asq
  let thetaR := theta.r * psi.d1 + theta.z * dthgeoDr
  let thetaZ := theta.r * psi.d3 + theta.z * dthgeoDz
  { psi := ⟨psi.v, psi.d1, 0, psi.d3⟩
    theta := ⟨theta.v, thetaR, 0, thetaZ⟩
    zeta := ⟨zetaOf phi nu.v, nu.r * psi.d1 + nu.z * thetaR, 1, nu.r * psi.d3 + nu.z * thetaZ⟩ }

/-- `boozer_eval_psithetazeta`, src/boozer.c:124-209: an error, or the coordinates if the point is inside.  After an error of
the theta spline the nu spline is evaluated with a value that has not been set; the error is returned in any case. -/
noncomputable def eval (d : Data) (b : Bfield.Data) (r phi z : ℝ) : Option (Except Nat (Option Ptz)) :=
  if Wall2D.pointInPolygon r z d.rs d.zs d.nrzs = 0 then some (.ok none)
  else
    match evalPsiDpsi b r phi z with
    | none => none
    | some (psi, e) =>
      if e ≠ 0 then some (.error e)
      else if (evalRho b psi.v).2.2 ≠ 0 then some (.error (evalRho b psi.v).2.2)
      else
        match axis b phi with
        | none => none
        | some (rz, e) =>
          if e ≠ 0 then some (.error e)
          else if psi.v < d.psiMax ∧ psi.v > d.psiMin then
            match d.theta.df psi.v (thgeo r z rz.1 rz.2) with
            | none => some (.error (Error.raise 1 205 23))
            | some theta =>
              match d.nu.df psi.v theta.v with
              | none => some (.error (Error.raise 1 205 23))
              | some nu =>
                if (r - rz.1) * (r - rz.1) + (z - rz.2) * (z - rz.2) = 0 then none
                else some (.ok (some (store r phi z rz.1 rz.2 psi theta nu)))
          else some (.ok none)

end Ascot.Boozer
