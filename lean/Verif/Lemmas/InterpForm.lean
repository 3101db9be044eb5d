import Verif.Model.InterpForm
import Verif.Spec.Interp
import Mathlib.Algebra.Order.Field.Basic
import Mathlib.Tactic.Ring

/-!
# The expressions of the spline evaluations are tensor products
-/
set_option linter.unusedSectionVars false
set_option linter.unusedSimpArgs false

namespace Ascot.Interp
open Ascot.Spline
variable {K : Type} [Field K] [LinearOrder K] [IsStrictOrderedRing K]

theorem k3_a (d : K) : d * d * d - d = k3 d := by unfold k3; ring
theorem k3_b (d : K) : d * (d * d - 1) = k3 d := by unfold k3; ring
theorem k3'_a (d : K) : 3 * d * d - 1 = k3' d := by unfold k3'; ring
theorem k3'_b (d : K) : -3 * d * d + 1 = -k3' d := by unfold k3'; ring

theorem form1f_eq (C : Int → K) (n x1 : Int) (dx xg : K) :
    form1f C n x1 dx xg = tensor1 .val C n x1 dx xg := by
  simp only [form1f, tensor1, Op.at, k3_a, k3_b, k3'_a, k3'_b]
  generalize 1 - dx = ex
  ring_nf

theorem form1df0_eq (C : Int → K) (n x1 : Int) (dx xg : K) :
    form1df0 C n x1 dx xg = tensor1 .val C n x1 dx xg := by
  simp only [form1df0, tensor1, Op.at, k3_a, k3_b, k3'_a, k3'_b]
  generalize 1 - dx = ex
  ring_nf

theorem form1df1_eq (C : Int → K) (n x1 : Int) (dx xg : K) :
    form1df1 C n x1 dx xg = tensor1 .der C n x1 dx xg := by
  simp only [form1df1, tensor1, Op.at, k3_a, k3_b, k3'_a, k3'_b]
  generalize 1 - dx = ex
  ring_nf

theorem form1df2_eq (C : Int → K) (n x1 : Int) (dx xg : K) :
    form1df2 C n x1 dx xg = tensor1 .der2 C n x1 dx xg := rfl

theorem form2f_eq (C : Int → K) (n x1 y1 : Int) (dx dy xg yg : K) :
    form2f C n x1 y1 dx dy xg yg = tensor2 .val .val C n x1 y1 dx dy xg yg := by
  simp only [form2f, tensor2, Op.at, k3_a, k3_b, k3'_a, k3'_b]
  generalize 1 - dx = ex
  generalize 1 - dy = ey
  ring_nf

theorem form2df0_eq (C : Int → K) (n x1 y1 : Int) (dx dy xg yg : K) :
    form2df0 C n x1 y1 dx dy xg yg = tensor2 .val .val C n x1 y1 dx dy xg yg := by
  simp only [form2df0, tensor2, Op.at, k3_a, k3_b, k3'_a, k3'_b]
  generalize 1 - dx = ex
  generalize 1 - dy = ey
  ring_nf

theorem form2df1_eq (C : Int → K) (n x1 y1 : Int) (dx dy xg yg : K) :
    form2df1 C n x1 y1 dx dy xg yg = tensor2 .der .val C n x1 y1 dx dy xg yg := by
  simp only [form2df1, tensor2, Op.at, k3_a, k3_b, k3'_a, k3'_b]
  generalize 1 - dx = ex
  generalize 1 - dy = ey
  ring_nf

theorem form2df2_eq (C : Int → K) (n x1 y1 : Int) (dx dy xg yg : K) :
    form2df2 C n x1 y1 dx dy xg yg = tensor2 .val .der C n x1 y1 dx dy xg yg := by
  simp only [form2df2, tensor2, Op.at, k3_a, k3_b, k3'_a, k3'_b]
  generalize 1 - dx = ex
  generalize 1 - dy = ey
  ring_nf

theorem form2df3_eq (C : Int → K) (n x1 y1 : Int) (dx dy xg yg : K) :
    form2df3 C n x1 y1 dx dy xg yg = tensor2 .der2 .val C n x1 y1 dx dy xg yg := by
  simp only [form2df3, tensor2, Op.at, k3_a, k3_b, k3'_a, k3'_b]
  generalize 1 - dx = ex
  generalize 1 - dy = ey
  ring_nf

theorem form2df4_eq (C : Int → K) (n x1 y1 : Int) (dx dy xg yg : K) :
    form2df4 C n x1 y1 dx dy xg yg = tensor2 .val .der2 C n x1 y1 dx dy xg yg := by
  simp only [form2df4, tensor2, Op.at, k3_a, k3_b, k3'_a, k3'_b]
  generalize 1 - dx = ex
  generalize 1 - dy = ey
  ring_nf

theorem form2df5_eq (C : Int → K) (n x1 y1 : Int) (dx dy xg yg : K) :
    form2df5 C n x1 y1 dx dy xg yg = tensor2 .der .der C n x1 y1 dx dy xg yg := by
  simp only [form2df5, tensor2, Op.at, k3_a, k3_b, k3'_a, k3'_b]
  generalize 1 - dx = ex
  generalize 1 - dy = ey
  ring_nf

theorem form3f_eq (C : Int → K) (n x1 y1 z1 : Int) (dx dy dz xg yg zg : K) :
    form3f C n x1 y1 z1 dx dy dz xg yg zg = tensor3 .val .val .val C n x1 y1 z1 dx dy dz xg yg zg := by
  simp only [form3f, tensor3, Op.at, k3_a, k3_b, k3'_a, k3'_b]
  generalize 1 - dx = ex
  generalize 1 - dy = ey
  generalize 1 - dz = ez
  ring_nf

theorem form3df0_eq (C : Int → K) (n x1 y1 z1 : Int) (dx dy dz xg yg zg : K) :
    form3df0 C n x1 y1 z1 dx dy dz xg yg zg = tensor3 .val .val .val C n x1 y1 z1 dx dy dz xg yg zg := by
  simp only [form3df0, tensor3, Op.at, k3_a, k3_b, k3'_a, k3'_b]
  generalize 1 - dx = ex
  generalize 1 - dy = ey
  generalize 1 - dz = ez
  ring_nf

theorem form3df1_eq (C : Int → K) (n x1 y1 z1 : Int) (dx dy dz xg yg zg : K) :
    form3df1 C n x1 y1 z1 dx dy dz xg yg zg = tensor3 .der .val .val C n x1 y1 z1 dx dy dz xg yg zg := by
  simp only [form3df1, tensor3, Op.at, k3_a, k3_b, k3'_a, k3'_b]
  generalize 1 - dx = ex
  generalize 1 - dy = ey
  generalize 1 - dz = ez
  ring_nf

theorem form3df2_eq (C : Int → K) (n x1 y1 z1 : Int) (dx dy dz xg yg zg : K) :
    form3df2 C n x1 y1 z1 dx dy dz xg yg zg = tensor3 .val .der .val C n x1 y1 z1 dx dy dz xg yg zg := by
  simp only [form3df2, tensor3, Op.at, k3_a, k3_b, k3'_a, k3'_b]
  generalize 1 - dx = ex
  generalize 1 - dy = ey
  generalize 1 - dz = ez
  ring_nf

theorem form3df3_eq (C : Int → K) (n x1 y1 z1 : Int) (dx dy dz xg yg zg : K) :
    form3df3 C n x1 y1 z1 dx dy dz xg yg zg = tensor3 .val .val .der C n x1 y1 z1 dx dy dz xg yg zg := by
  simp only [form3df3, tensor3, Op.at, k3_a, k3_b, k3'_a, k3'_b]
  generalize 1 - dx = ex
  generalize 1 - dy = ey
  generalize 1 - dz = ez
  ring_nf

theorem form3df4_eq (C : Int → K) (n x1 y1 z1 : Int) (dx dy dz xg yg zg : K) :
    form3df4 C n x1 y1 z1 dx dy dz xg yg zg = tensor3 .der2 .val .val C n x1 y1 z1 dx dy dz xg yg zg := by
  simp only [form3df4, tensor3, Op.at, k3_a, k3_b, k3'_a, k3'_b]
  generalize 1 - dx = ex
  generalize 1 - dy = ey
  generalize 1 - dz = ez
  ring_nf

theorem form3df5_eq (C : Int → K) (n x1 y1 z1 : Int) (dx dy dz xg yg zg : K) :
    form3df5 C n x1 y1 z1 dx dy dz xg yg zg = tensor3 .val .der2 .val C n x1 y1 z1 dx dy dz xg yg zg := by
  simp only [form3df5, tensor3, Op.at, k3_a, k3_b, k3'_a, k3'_b]
  generalize 1 - dx = ex
  generalize 1 - dy = ey
  generalize 1 - dz = ez
  ring_nf

theorem form3df6_eq (C : Int → K) (n x1 y1 z1 : Int) (dx dy dz xg yg zg : K) :
    form3df6 C n x1 y1 z1 dx dy dz xg yg zg = tensor3 .val .val .der2 C n x1 y1 z1 dx dy dz xg yg zg := by
  simp only [form3df6, tensor3, Op.at, k3_a, k3_b, k3'_a, k3'_b]
  generalize 1 - dx = ex
  generalize 1 - dy = ey
  generalize 1 - dz = ez
  ring_nf

theorem form3df7_eq (C : Int → K) (n x1 y1 z1 : Int) (dx dy dz xg yg zg : K) :
    form3df7 C n x1 y1 z1 dx dy dz xg yg zg = tensor3 .der .der .val C n x1 y1 z1 dx dy dz xg yg zg := by
  simp only [form3df7, tensor3, Op.at, k3_a, k3_b, k3'_a, k3'_b]
  generalize 1 - dx = ex
  generalize 1 - dy = ey
  generalize 1 - dz = ez
  ring_nf

theorem form3df8_eq (C : Int → K) (n x1 y1 z1 : Int) (dx dy dz xg yg zg : K) :
    form3df8 C n x1 y1 z1 dx dy dz xg yg zg = tensor3 .der .val .der C n x1 y1 z1 dx dy dz xg yg zg := by
  simp only [form3df8, tensor3, Op.at, k3_a, k3_b, k3'_a, k3'_b]
  generalize 1 - dx = ex
  generalize 1 - dy = ey
  generalize 1 - dz = ez
  ring_nf

theorem form3df9_eq (C : Int → K) (n x1 y1 z1 : Int) (dx dy dz xg yg zg : K) :
    form3df9 C n x1 y1 z1 dx dy dz xg yg zg = tensor3 .val .der .der C n x1 y1 z1 dx dy dz xg yg zg := by
  simp only [form3df9, tensor3, Op.at, k3_a, k3_b, k3'_a, k3'_b]
  generalize 1 - dx = ex
  generalize 1 - dy = ey
  generalize 1 - dz = ez
  ring_nf

end Ascot.Interp
