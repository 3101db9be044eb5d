import Verif.Model.Bfield
import Verif.Model.Plasma

/-!
# Electric field (`src/E_field.c`, `src/Efield/E_1DS.c`, `src/Efield/E_TC.c`)

Results are the content of the array `E` and the error code.  `none` stands for a result that is not a number, or for a read
outside an array.  Printing, offloading and releasing are left out.
-/
namespace Ascot.Efield
open Ascot.Coord Ascot.Plasma

/-- `E_1DS_data`, src/Efield/E_1DS.h. -/
structure E1DS where
  dV : Spl

/-- `E_1DS_init`, src/Efield/E_1DS.c:29-51; `none` if the spline cannot be set up.  The scaled values `temp` (lines 33-37) are
computed and released but the unscaled ones are passed to the set-up of the spline (line 38). -/
noncomputable def init1DS (nrho : Nat) (rhomin rhomax reff : ℝ) (dvdrho : Nat → ℝ) : Option E1DS :=
  let _temp : Nat → ℝ := fun i => reff * dvdrho i
  (Spl.setup dvdrho nrho rhomin rhomax).map E1DS.mk

/-- `E_1DS_eval_E`, src/Efield/E_1DS.c:89-119.  Division by zero gives a result that is not a number.  The value of `dV` is not
set after an interpolation error; this is undefined here. -/
noncomputable def eval1DS (d : E1DS) (b : Bfield.Data) (r phi z : ℝ) (E : V3 ℝ) : Option (V3 ℝ × Nat) :=
  match Bfield.evalRhoDrho b r phi z with
  | none => none
  | some (g, err) =>
    if err ≠ 0 then some (E, Error.raise 1 96 20)
    else if r = 0 then none
    else
      let d2 := g.d2 / r
      if g.v < d.dV.axis.min ∨ g.v > d.dV.axis.max then some (⟨0, 0, 0⟩, 0)
      else
        match d.dV.eval g.v with
        | some (some dV) => some (⟨-dV * g.d1, -dV * d2, -dV * g.d3⟩, 0)
        | _ => none

/-- `E_TC_eval_E`, src/Efield/E_TC.c:70-75; the data is the vector that `E_TC_init`, lines 25-35, was given. -/
noncomputable def evalTC (exyz : V3 ℝ) (phi : ℝ) : V3 ℝ × Nat := (vecXyz2rpz exyz phi, 0)

/-- `E_field_data` with its type, src/E_field.h. -/
inductive Data
  | e1 (d : E1DS)
  | tc (exyz : V3 ℝ)
  | unknown

/-- `E_field_eval_E`, src/E_field.c:82-103. -/
noncomputable def evalE (d : Data) (b : Bfield.Data) (r phi z _t : ℝ) (E : V3 ℝ) : Option (V3 ℝ × Nat) :=
  match d with
  | .e1 d => eval1DS d b r phi z E
  | .tc exyz => some (evalTC exyz phi)
  | .unknown => some (E, Error.raise 2 98 18)

end Ascot.Efield
