import Verif.Model.LibBatch

/-!
# C115: safety factor and Jacobian of the Boozer coordinates

Three functions of position that the library evaluates from gradients of the coordinates and the field.  The claims use the
gradient of each coordinate at the point, the field written with them, and the vectors along the coordinate lines.
-/
set_option linter.unusedSectionVars false
set_option linter.unusedSimpArgs false

namespace Ascot.C115
open Ascot.LibBatch Ascot.Coord

/-- Gradient in cylindrical coordinates, in the basis of unit vectors. -/
noncomputable def grad (g : Grad) (R : ℝ) : V3 ℝ := ⟨g.d1, g.d2 / R, g.d3⟩

/-- `a u + b v + c w`. -/
def comb (a : ℝ) (u : V3 ℝ) (b : ℝ) (v : V3 ℝ) (c : ℝ) (w : V3 ℝ) : V3 ℝ :=
  ⟨a * u.x + b * v.x + c * w.x, a * u.y + b * v.y + c * w.y, a * u.z + b * v.z + c * w.z⟩

variable {p : Boozer.Ptz} {B : V3 ℝ} {R q : ℝ}

/-- Field lines have the pitch `q` in these coordinates: the field is `∇ψ × ∇ζ - q ∇ψ × ∇θ`. -/
def Straight (p : Boozer.Ptz) (B : V3 ℝ) (R q : ℝ) : Prop :=
  B = comb 1 (V3.cross (grad p.psi R) (grad p.zeta R)) (-q) (V3.cross (grad p.psi R) (grad p.theta R)) 0 ⟨0, 0, 0⟩

/-- The safety factor is recovered from a field with straight field lines, where the poloidal angle changes along the flux surface in
the poloidal plane. -/
theorem safety_factor (h : Straight p B R q) (h0 : (V3.cross (grad p.psi R) (grad p.theta R)).y ≠ 0) : (boozerFun p B R).1 = q := by
  unfold Straight at h
  subst h
  have e : (boozerFun p _ R).1 = ((V3.cross (grad p.psi R) (grad p.zeta R)).y - (comb 1 (V3.cross (grad p.psi R) (grad p.zeta R)) (-q)
    (V3.cross (grad p.psi R) (grad p.theta R)) 0 ⟨0, 0, 0⟩).y) / (V3.cross (grad p.psi R) (grad p.theta R)).y := rfl
  rw [e, div_eq_iff h0]
  unfold comb
  ring

/-- Along such a field the toroidal angle advances `q` times as fast as the poloidal angle, with signs: `B·∇ζ = q B·∇θ`. -/
theorem pitch (h : Straight p B R q) : V3.dot B (grad p.zeta R) = q * V3.dot B (grad p.theta R) ∧ V3.dot B (grad p.psi R) = 0 := by
  unfold Straight at h
  subst h
  generalize grad p.psi R = a, grad p.zeta R = b, grad p.theta R = c
  constructor <;> (unfold comb V3.cross V3.dot; ring)

/-- Vectors along the coordinate lines: `∂x/∂ψ`, `∂x/∂θ`, `∂x/∂ζ`, dual to the gradients. -/
structure Dual (p : Boozer.Ptz) (R : ℝ) (a b c : V3 ℝ) : Prop where
  aa : V3.dot a (grad p.psi R) = 1
  ab : V3.dot a (grad p.theta R) = 0
  ac : V3.dot a (grad p.zeta R) = 0
  ba : V3.dot b (grad p.psi R) = 0
  bb : V3.dot b (grad p.theta R) = 1
  bc : V3.dot b (grad p.zeta R) = 0
  ca : V3.dot c (grad p.psi R) = 0
  cb : V3.dot c (grad p.theta R) = 0
  cc : V3.dot c (grad p.zeta R) = 1

/-- Determinants multiply. -/
theorem det_mul (a b c u v w : V3 ℝ) : V3.dot (V3.cross b c) a * V3.dot (V3.cross v w) u =
    V3.dot a u * (V3.dot b v * V3.dot c w - V3.dot b w * V3.dot c v) - V3.dot a v * (V3.dot b u * V3.dot c w - V3.dot b w * V3.dot c u) +
    V3.dot a w * (V3.dot b u * V3.dot c v - V3.dot b v * V3.dot c u) := by
  unfold V3.dot V3.cross
  ring

/-- The Jacobian is, up to its sign, the volume spanned by the coordinate lines: volume per unit of psi, theta and zeta. -/
theorem jacobian {a b c : V3 ℝ} (h : Dual p R a b c) : (boozerFun p B R).2.1 = - V3.dot (V3.cross b c) a := by
  have e : (boozerFun p B R).2.1 = -1 / V3.dot (V3.cross (grad p.theta R) (grad p.zeta R)) (grad p.psi R) := rfl
  have hd := det_mul a b c (grad p.psi R) (grad p.theta R) (grad p.zeta R)
  rw [h.aa, h.ab, h.ac, h.ba, h.bb, h.bc, h.ca, h.cb, h.cc] at hd
  have hd1 : V3.dot (V3.cross b c) a * V3.dot (V3.cross (grad p.theta R) (grad p.zeta R)) (grad p.psi R) = 1 := by rw [hd]; ring
  have h0 : V3.dot (V3.cross (grad p.theta R) (grad p.zeta R)) (grad p.psi R) ≠ 0 := right_ne_zero_of_mul_eq_one hd1
  rw [e, div_eq_iff h0]
  linarith

theorem norm_sq (v : V3 ℝ) : V3.norm Real.sqrt v * V3.norm Real.sqrt v = V3.dot v v :=
  Real.mul_self_sqrt (add_nonneg (add_nonneg (mul_self_nonneg _) (mul_self_nonneg _)) (mul_self_nonneg _))

/-- The last function is the Jacobian times the square of the field. -/
theorem jacobian_b2 : (boozerFun p B R).2.2 = (boozerFun p B R).2.1 * V3.dot B B := by
  have e : (boozerFun p B R).2.2 = (boozerFun p B R).2.1 * V3.norm Real.sqrt B * V3.norm Real.sqrt B := rfl
  rw [e, mul_assoc, norm_sq]

/-- In Boozer coordinates, where also `B = β ∇ψ + I ∇θ + G ∇ζ`, it is `I + q G`: the same on the whole flux surface if `q`, `I` and `G`
are. -/
theorem flux_function {beta I G : ℝ} (h : Straight p B R q) (hc : B = comb beta (grad p.psi R) I (grad p.theta R) G (grad p.zeta R))
    (h0 : V3.dot (V3.cross (grad p.theta R) (grad p.zeta R)) (grad p.psi R) ≠ 0) : (boozerFun p B R).2.2 = I + q * G := by
  have e : (boozerFun p B R).2.1 = -1 / V3.dot (V3.cross (grad p.theta R) (grad p.zeta R)) (grad p.psi R) := rfl
  rw [jacobian_b2, e]
  have hb : V3.dot B B = -(I + q * G) * V3.dot (V3.cross (grad p.theta R) (grad p.zeta R)) (grad p.psi R) := by
    conv_lhs => rw [show V3.dot B B = V3.dot (comb 1 (V3.cross (grad p.psi R) (grad p.zeta R)) (-q) (V3.cross (grad p.psi R) (grad p.theta R)) 0 ⟨0, 0, 0⟩)
      (comb beta (grad p.psi R) I (grad p.theta R) G (grad p.zeta R)) by rw [← hc, ← h]]
    generalize grad p.psi R = a, grad p.zeta R = b, grad p.theta R = c
    unfold comb V3.cross V3.dot
    ring
  rw [hb, div_mul_eq_mul_div, div_eq_iff h0]
  ring

/-! ### A case -/

/-- Cylinder-like coordinates at R = 2: psi along R, theta along z, zeta = phi, and a field with q = 3. -/
noncomputable def coords : Boozer.Ptz := ⟨⟨1 / 4, 1, 0, 0⟩, ⟨0, 0, 0, 1⟩, ⟨0, 0, 1, 0⟩⟩

example : Straight coords ⟨0, 3, 1 / 2⟩ 2 3 ∧ (V3.cross (grad coords.psi 2) (grad coords.theta 2)).y ≠ 0 := by
  unfold Straight grad coords comb V3.cross
  norm_num

example : Dual coords 2 ⟨1, 0, 0⟩ ⟨0, 0, 1⟩ ⟨0, 2, 0⟩ := by
  constructor <;> norm_num [V3.dot, grad, coords]

example : (⟨0, 3, 1 / 2⟩ : V3 ℝ) = comb 0 (grad coords.psi 2) (1 / 2) (grad coords.theta 2) 6 (grad coords.zeta 2) ∧
    V3.dot (V3.cross (grad coords.theta 2) (grad coords.zeta 2)) (grad coords.psi 2) ≠ 0 := by
  unfold grad coords comb V3.cross V3.dot
  norm_num

end Ascot.C115
