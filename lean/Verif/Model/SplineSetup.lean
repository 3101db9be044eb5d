import Verif.Model.Interp
import Verif.Model.Bfield

/-!
# Splines of inputs other than the magnetic field, as functions
-/
namespace Ascot.SplineSetup
open Ascot.Interp Ascot.Bfield
open Ascot.Linint (BC Axis gridOf)

/-- `interp1Dcomp_setup`, src/spline/interp1Dcomp.c:100-109, with natural boundary conditions, and
`interp1Dcomp_eval_df`, lines 181-233: value and first derivative, `none` outside of the grid; the setup is `none` if there are too few points.
`f` is the array. -/
noncomputable def setup1 (f : ℕ → ℝ) (n : ℕ) (lo hi : ℝ) : Option (ℝ → Option (ℝ × ℝ)) :=
  (coeff1 f n .natural lo hi).map fun c x =>
    match eval1df (Axis.init n .natural lo hi) c x with
    | some (some (v, a, _)) => some (v, a)
    | _ => none

/-- `interp2Dcomp_setup`, src/spline/interp2Dcomp.c:174-186, and `interp2Dcomp_eval_f`, `interp2Dcomp_eval_df`.  `f` is the
array, the first coordinate changes fastest. -/
noncomputable def setup2 (f : ℕ → ℝ) (nx ny : ℕ) (bx by_ : BC) (x0 x1 y0 y1 : ℝ) : Option Spline2 :=
  (coeff2 (fun i j => f (j * nx + i)) nx ny bx by_ (gridOf nx bx x0 x1) (gridOf ny by_ y0 y1)).map fun c =>
    ⟨fun x y => (eval2f (Axis.init nx bx x0 x1) (Axis.init ny by_ y0 y1) c x y).join,
     fun x y => match eval2df (Axis.init nx bx x0 x1) (Axis.init ny by_ y0 y1) c x y with
       | some (some [v, a, b, aa, bb, ab]) => some ⟨v, a, b, aa, bb, ab⟩
       | _ => none⟩

end Ascot.SplineSetup
