import Mathlib.MeasureTheory.Integral.IntervalIntegral.FundThmCalculus
import Mathlib.Analysis.SpecialFunctions.Sqrt
import Mathlib.Analysis.Calculus.Deriv.Inv
import Mathlib.Analysis.Calculus.Deriv.Pow
import Mathlib.Analysis.Calculus.Deriv.Mul
import Mathlib.Analysis.Calculus.Deriv.Prod
import Verif.Model.Biosaw

/-!
# C116: the field of a coil is that of Biot and Savart

For a coil given as a polygon the field at a point is the line integral of Biot and Savart's law along it for a current of one
ampere.
-/
set_option linter.unusedSectionVars false
set_option linter.unusedSimpArgs false

namespace Ascot.C116
open Ascot.Biosaw Set

/-! ### The law -/

/-- The point of a segment at parameter `t`, from `p1` at 0 to `p2` at 1. -/
def wire (p1 p2 : V3 ℝ) (t : ℝ) : V3 ℝ := ⟨p1.x + t * (p2.x - p1.x), p1.y + t * (p2.y - p1.y), p1.z + t * (p2.z - p1.z)⟩

/-- `dl × r / |r|³`, with `r` the vector from the point of the wire to `x`, times `mu0 / 4 pi`. -/
noncomputable def kernel (mu0 : ℝ) (p1 p2 x : V3 ℝ) (t : ℝ) : V3 ℝ :=
  let dl := V3.sub p2 p1
  let r := V3.sub x (wire p1 p2 t)
  let k := mu0 / (4 * Real.pi) / V3.norm Real.sqrt r ^ 3
  ⟨k * (V3.cross dl r).x, k * (V3.cross dl r).y, k * (V3.cross dl r).z⟩

/-- Field of one segment. -/
noncomputable def ofSegment (mu0 : ℝ) (p1 p2 x : V3 ℝ) : V3 ℝ :=
  ⟨∫ t in (0 : ℝ)..1, (kernel mu0 p1 p2 x t).x, ∫ t in (0 : ℝ)..1, (kernel mu0 p1 p2 x t).y, ∫ t in (0 : ℝ)..1, (kernel mu0 p1 p2 x t).z⟩

/-- Field of a polygon. -/
noncomputable def ofCoil (mu0 : ℝ) (x : V3 ℝ) : List (V3 ℝ) → V3 ℝ
  | p1 :: p2 :: ps =>
    let a := ofSegment mu0 p1 p2 x
    let b := ofCoil mu0 x (p2 :: ps)
    ⟨a.x + b.x, a.y + b.y, a.z + b.z⟩
  | _ => ⟨0, 0, 0⟩

/-- `x` is not on the line through `p1` and `p2`, and these differ. -/
def OffLine (p1 p2 x : V3 ℝ) : Prop := p1 ≠ p2 ∧ ∀ t, x ≠ wire p1 p2 t

/-- `x` is on none of the lines through neighbouring coil points, which all differ. -/
def OffLines (x : V3 ℝ) : List (V3 ℝ) → Prop
  | p1 :: p2 :: ps => OffLine p1 p2 x ∧ OffLines x (p2 :: ps)
  | _ => True

/-! ### One segment -/

variable {mu0 : ℝ} {p1 p2 x : V3 ℝ}

/-- Square of the distance to the line, in terms of the squared length and two products. -/
noncomputable def gap (p1 p2 x : V3 ℝ) : ℝ :=
  let a := V3.sub p2 p1
  let w := V3.sub x p1
  V3.dot w w - (V3.dot a w / V3.dot a a) ^ 2 * V3.dot a a

theorem dot_pos {v : V3 ℝ} (h : v ≠ ⟨0, 0, 0⟩) : 0 < V3.dot v v := by
  have h0 : 0 ≤ V3.dot v v := add_nonneg (add_nonneg (mul_self_nonneg _) (mul_self_nonneg _)) (mul_self_nonneg _)
  rcases h0.lt_or_eq with h1 | h1
  · exact h1
  · exfalso
    apply h
    unfold V3.dot at h1
    have hx : v.x * v.x = 0 := by nlinarith [mul_self_nonneg v.x, mul_self_nonneg v.y, mul_self_nonneg v.z]
    have hy : v.y * v.y = 0 := by nlinarith [mul_self_nonneg v.x, mul_self_nonneg v.y, mul_self_nonneg v.z]
    have hz : v.z * v.z = 0 := by nlinarith [mul_self_nonneg v.x, mul_self_nonneg v.y, mul_self_nonneg v.z]
    ext
    · exact mul_self_eq_zero.1 hx
    · exact mul_self_eq_zero.1 hy
    · exact mul_self_eq_zero.1 hz

theorem length_pos (h : OffLine p1 p2 x) : 0 < V3.dot (V3.sub p2 p1) (V3.sub p2 p1) := dot_pos fun e => by
  apply h.1
  unfold V3.sub at e
  injection e with e1 e2 e3
  ext <;> linarith

theorem dist_sq (hL : V3.dot (V3.sub p2 p1) (V3.sub p2 p1) ≠ 0) (t : ℝ) :
    V3.dot (V3.sub x (wire p1 p2 t)) (V3.sub x (wire p1 p2 t)) =
      gap p1 p2 x + (t - V3.dot (V3.sub p2 p1) (V3.sub x p1) / V3.dot (V3.sub p2 p1) (V3.sub p2 p1)) ^ 2 * V3.dot (V3.sub p2 p1) (V3.sub p2 p1) := by
  unfold gap
  dsimp only
  generalize hs : V3.dot (V3.sub p2 p1) (V3.sub x p1) / V3.dot (V3.sub p2 p1) (V3.sub p2 p1) = s
  rw [div_eq_iff hL] at hs
  have h1 : V3.dot (V3.sub x (wire p1 p2 t)) (V3.sub x (wire p1 p2 t)) = V3.dot (V3.sub x p1) (V3.sub x p1) -
      2 * t * V3.dot (V3.sub p2 p1) (V3.sub x p1) + t ^ 2 * V3.dot (V3.sub p2 p1) (V3.sub p2 p1) := by
    unfold V3.dot V3.sub wire
    ring
  rw [h1, hs]
  ring

theorem gap_pos (h : OffLine p1 p2 x) : 0 < gap p1 p2 x := by
  have h1 := dist_sq (x := x) (length_pos h).ne' (V3.dot (V3.sub p2 p1) (V3.sub x p1) / V3.dot (V3.sub p2 p1) (V3.sub p2 p1))
  rw [sub_self, zero_pow two_ne_zero, zero_mul, add_zero] at h1
  rw [← h1]
  refine dot_pos fun e => h.2 (V3.dot (V3.sub p2 p1) (V3.sub x p1) / V3.dot (V3.sub p2 p1) (V3.sub p2 p1)) ?_
  generalize V3.dot (V3.sub p2 p1) (V3.sub x p1) / V3.dot (V3.sub p2 p1) (V3.sub p2 p1) = s at e ⊢
  unfold V3.sub at e
  injection e with e1 e2 e3
  ext
  · exact sub_eq_zero.1 e1
  · exact sub_eq_zero.1 e2
  · exact sub_eq_zero.1 e3

theorem norm_eq (v : V3 ℝ) : V3.norm Real.sqrt v = Real.sqrt (V3.dot v v) := rfl

/-- The integral in one dimension. -/
theorem integral_one {D L s : ℝ} (hD : 0 < D) (hL : 0 < L) (k : ℝ) :
    ∫ t in (0 : ℝ)..1, k / Real.sqrt (D + (t - s) ^ 2 * L) ^ 3 =
      k * (((1 - s) / Real.sqrt (D + (1 - s) ^ 2 * L) + s / Real.sqrt (D + (0 - s) ^ 2 * L)) / D) := by
  have hq : ∀ t : ℝ, 0 < D + (t - s) ^ 2 * L := fun t => by positivity
  have hder : ∀ t : ℝ, HasDerivAt (fun t => k * ((t - s) / Real.sqrt (D + (t - s) ^ 2 * L) / D)) (k / Real.sqrt (D + (t - s) ^ 2 * L) ^ 3) t := by
    intro t
    have h0 : HasDerivAt (fun t : ℝ => t - s) 1 t := (hasDerivAt_id t).sub_const s
    have h1 : HasDerivAt (fun t : ℝ => D + (t - s) ^ 2 * L) (2 * (t - s) * L) t :=
      (((h0.pow 2).mul_const L).const_add D).congr_deriv (by norm_num)
    have h2 := h1.sqrt (hq t).ne'
    have hN : 0 < Real.sqrt (D + (t - s) ^ 2 * L) := Real.sqrt_pos.2 (hq t)
    have h3 := ((h0.div h2 hN.ne').div_const D).const_mul k
    refine h3.congr_deriv ?_
    have hN2 : Real.sqrt (D + (t - s) ^ 2 * L) ^ 2 = D + (t - s) ^ 2 * L := Real.sq_sqrt (hq t).le
    generalize Real.sqrt (D + (t - s) ^ 2 * L) = N at *
    have hN' := hN.ne'
    have hD' := hD.ne'
    rw [show 1 * N - (t - s) * (2 * (t - s) * L / (2 * N)) = D / N by
      rw [eq_div_iff hN', sub_mul, show (t - s) * (2 * (t - s) * L / (2 * N)) * N = (t - s) ^ 2 * L by field_simp]
      linarith [hN2, show 1 * N * N = N ^ 2 by ring]]
    field_simp
  have hcont : Continuous fun t : ℝ => k / Real.sqrt (D + (t - s) ^ 2 * L) ^ 3 := by
    refine continuous_const.div (by fun_prop) fun t => ?_
    exact pow_ne_zero _ (Real.sqrt_pos.2 (hq t)).ne'
  rw [intervalIntegral.integral_eq_sub_of_hasDerivAt (fun t _ => hder t) (hcont.intervalIntegrable 0 1)]
  ring

theorem cross_dir (p1 p2 x : V3 ℝ) (t : ℝ) : V3.cross (V3.sub p2 p1) (V3.sub x (wire p1 p2 t)) = V3.cross (V3.sub x p1) (V3.sub x p2) := by
  unfold V3.cross V3.sub wire
  ext <;> ring_nf

theorem wire_zero : wire p1 p2 0 = p1 := by unfold wire; ext <;> simp
theorem wire_one : wire p1 p2 1 = p2 := by unfold wire; ext <;> simp

/-- The weight of the direction `p1x × p2x` in the field of a segment. -/
noncomputable def weight (mu0 : ℝ) (p1 p2 x : V3 ℝ) : ℝ :=
  let s := V3.dot (V3.sub p2 p1) (V3.sub x p1) / V3.dot (V3.sub p2 p1) (V3.sub p2 p1)
  mu0 / (4 * Real.pi) * (((1 - s) / Real.sqrt (V3.dot (V3.sub x p2) (V3.sub x p2)) + s / Real.sqrt (V3.dot (V3.sub x p1) (V3.sub x p1))) / gap p1 p2 x)

theorem integral_component (h : OffLine p1 p2 x) (k : ℝ) : ∫ t in (0 : ℝ)..1, mu0 / (4 * Real.pi) / V3.norm Real.sqrt (V3.sub x (wire p1 p2 t)) ^ 3 * k =
    weight mu0 p1 p2 x * k := by
  have hL := length_pos h
  have e : ∀ t : ℝ, mu0 / (4 * Real.pi) / V3.norm Real.sqrt (V3.sub x (wire p1 p2 t)) ^ 3 * k = (mu0 / (4 * Real.pi) * k) /
      Real.sqrt (gap p1 p2 x + (t - V3.dot (V3.sub p2 p1) (V3.sub x p1) / V3.dot (V3.sub p2 p1) (V3.sub p2 p1)) ^ 2 * V3.dot (V3.sub p2 p1) (V3.sub p2 p1)) ^ 3 :=
    fun t => by rw [norm_eq, dist_sq hL.ne' t]; ring
  simp only [e]
  rw [integral_one (gap_pos h) hL, ← dist_sq hL.ne' 1, ← dist_sq hL.ne' 0, wire_zero, wire_one]
  unfold weight
  ring

/-- The integral over a segment in closed form. -/
theorem ofSegment_eq (h : OffLine p1 p2 x) : ofSegment mu0 p1 p2 x =
    ⟨weight mu0 p1 p2 x * (V3.cross (V3.sub x p1) (V3.sub x p2)).x, weight mu0 p1 p2 x * (V3.cross (V3.sub x p1) (V3.sub x p2)).y,
      weight mu0 p1 p2 x * (V3.cross (V3.sub x p1) (V3.sub x p2)).z⟩ := by
  unfold ofSegment kernel
  dsimp only
  simp only [cross_dir]
  rw [integral_component h, integral_component h, integral_component h]

theorem cross_sq (hL : V3.dot (V3.sub p2 p1) (V3.sub p2 p1) ≠ 0) :
    V3.dot (V3.cross (V3.sub x p1) (V3.sub x p2)) (V3.cross (V3.sub x p1) (V3.sub x p2)) = V3.dot (V3.sub p2 p1) (V3.sub p2 p1) * gap p1 p2 x := by
  unfold gap
  dsimp only
  rw [mul_sub, div_pow, div_mul_eq_mul_div, ← mul_div_assoc, show ∀ A B : ℝ, A ≠ 0 → A * (B * A) / A ^ 2 = B by intro A B hA; field_simp]
  · unfold V3.dot V3.cross V3.sub
    ring
  · exact hL

/-- **One segment**: off its line the code gives the integral. -/
theorem segment_eq (h : OffLine p1 p2 x) : Biosaw.segment mu0 p1 p2 x = some (ofSegment mu0 p1 p2 x) := by
  have hL := length_pos h
  have hg := gap_pos h
  have hd1 : 0 < V3.dot (V3.sub x p1) (V3.sub x p1) := dot_pos fun e => h.2 0 (by
    rw [wire_zero]; unfold V3.sub at e; injection e with e1 e2 e3; ext <;> linarith)
  have hd2 : 0 < V3.dot (V3.sub x p2) (V3.sub x p2) := dot_pos fun e => h.2 1 (by
    rw [wire_one]; unfold V3.sub at e; injection e with e1 e2 e3; ext <;> linarith)
  have hn : V3.norm Real.sqrt (V3.cross (V3.sub x p1) (V3.sub x p2)) = Real.sqrt (V3.dot (V3.sub p2 p1) (V3.sub p2 p1)) * Real.sqrt (gap p1 p2 x) := by
    rw [norm_eq, cross_sq hL.ne', Real.sqrt_mul hL.le]
  have hxs : ∀ s, s = V3.dot (V3.sub p2 p1) (V3.sub x p1) / V3.dot (V3.sub p2 p1) (V3.sub p2 p1) →
      V3.norm Real.sqrt ⟨p1.x + s * (V3.sub p2 p1).x - x.x, p1.y + s * (V3.sub p2 p1).y - x.y, p1.z + s * (V3.sub p2 p1).z - x.z⟩ =
        Real.sqrt (gap p1 p2 x) := fun s hs => by
    have h1 := dist_sq (x := x) hL.ne' s
    rw [← hs, sub_self, zero_pow two_ne_zero, zero_mul, add_zero] at h1
    rw [norm_eq, ← h1]
    congr 1
    unfold V3.dot V3.sub wire
    ring
  unfold Biosaw.segment
  dsimp only
  rw [hxs _ rfl, hn, norm_eq, norm_eq, norm_eq, if_neg, ofSegment_eq h]
  · unfold weight
    dsimp only
    have hg2 : Real.sqrt (gap p1 p2 x) * Real.sqrt (gap p1 p2 x) = gap p1 p2 x := Real.mul_self_sqrt hg.le
    have a1 := (Real.sqrt_pos.2 hL).ne'
    have a2 := (Real.sqrt_pos.2 hg).ne'
    have a3 := (Real.sqrt_pos.2 hd1).ne'
    have a4 := (Real.sqrt_pos.2 hd2).ne'
    generalize V3.dot (V3.sub p2 p1) (V3.sub x p1) / V3.dot (V3.sub p2 p1) (V3.sub p2 p1) = s
    generalize Real.sqrt (V3.dot (V3.sub p2 p1) (V3.sub p2 p1)) = l at *
    generalize Real.sqrt (gap p1 p2 x) = g at *
    generalize Real.sqrt (V3.dot (V3.sub x p1) (V3.sub x p1)) = d1 at *
    generalize Real.sqrt (V3.dot (V3.sub x p2) (V3.sub x p2)) = d2 at *
    have e : ∀ u : ℝ, mu0 / (4 * Real.pi) * ((l - s * l) / d2 + s * l / d1) / g * u / (l * g) =
        mu0 / (4 * Real.pi) * (((1 - s) / d2 + s / d1) / (g * g)) * u := fun u => by
      rw [show (l - s * l) / d2 + s * l / d1 = l * ((1 - s) / d2 + s / d1) by ring]
      generalize (1 - s) / d2 + s / d1 = y
      field_simp
    rw [e, e, e, hg2]
  · have a1 := (Real.sqrt_pos.2 hL).ne'
    have a2 := (Real.sqrt_pos.2 hg).ne'
    have a3 := (Real.sqrt_pos.2 hd1).ne'
    have a4 := (Real.sqrt_pos.2 hd2).ne'
    rintro (h1 | h1 | h1 | h1 | h1)
    · exact hL.ne' h1
    · exact a4 h1
    · exact a3 h1
    · exact a2 h1
    · exact mul_ne_zero a1 a2 h1

/-! ### The coil -/

theorem loop_eq : ∀ (ps : List (V3 ℝ)) (p B : V3 ℝ), OffLines x (p :: ps) → loop mu0 x p ps (some B) =
    some ⟨B.x + (ofCoil mu0 x (p :: ps)).x, B.y + (ofCoil mu0 x (p :: ps)).y, B.z + (ofCoil mu0 x (p :: ps)).z⟩
  | [], p, B, _ => by simp [loop, ofCoil]
  | p2 :: ps, p, B, h => by
    unfold loop
    rw [segment_eq h.1]
    have : add (some B) (some (ofSegment mu0 p p2 x)) = some ⟨B.x + (ofSegment mu0 p p2 x).x, B.y + (ofSegment mu0 p p2 x).y, B.z + (ofSegment mu0 p p2 x).z⟩ := rfl
    rw [this, loop_eq ps p2 _ h.2]
    simp only [ofCoil, add_assoc]

/-- **The coil**: off the lines of its segments the code gives the line integral along the polygon. -/
theorem biot_savart_partial {coil : List (V3 ℝ)} (hne : coil ≠ []) (h : OffLines x coil) : calcB mu0 coil x = some (some (ofCoil mu0 x coil)) := by
  cases coil with
  | nil => exact absurd rfl hne
  | cons p ps =>
    unfold calcB
    dsimp only
    rw [loop_eq ps p _ h]
    simp

/-! ### No divergence -/

/-- The weight as a function of the position `s` along the line, in units of the length, and the square `Q` of the distance to `p1`. -/
noncomputable def shape (mu0 L : ℝ) (p : ℝ × ℝ) : ℝ :=
  mu0 / (4 * Real.pi) * (((1 - p.1) / Real.sqrt (p.2 - 2 * p.1 * L + L) + p.1 / Real.sqrt p.2) / (p.2 - p.1 ^ 2 * L))

theorem weight_shape (hL : V3.dot (V3.sub p2 p1) (V3.sub p2 p1) ≠ 0) : weight mu0 p1 p2 x =
    shape mu0 (V3.dot (V3.sub p2 p1) (V3.sub p2 p1))
      (V3.dot (V3.sub p2 p1) (V3.sub x p1) / V3.dot (V3.sub p2 p1) (V3.sub p2 p1), V3.dot (V3.sub x p1) (V3.sub x p1)) := by
  have h1 : V3.dot (V3.sub x p2) (V3.sub x p2) = V3.dot (V3.sub x p1) (V3.sub x p1) -
      2 * (V3.dot (V3.sub p2 p1) (V3.sub x p1) / V3.dot (V3.sub p2 p1) (V3.sub p2 p1)) * V3.dot (V3.sub p2 p1) (V3.sub p2 p1) +
      V3.dot (V3.sub p2 p1) (V3.sub p2 p1) := by
    rw [mul_assoc, div_mul_cancel₀ _ hL]
    unfold V3.dot V3.sub
    ring
  unfold weight shape gap
  dsimp only
  rw [h1]

theorem quot_diff {f g : ℝ × ℝ → ℝ} {p : ℝ × ℝ} (hf : DifferentiableAt ℝ f p) (hg : DifferentiableAt ℝ g p) (h0 : g p ≠ 0) :
    DifferentiableAt ℝ (fun p => f p / g p) p := by
  have := hf.fun_mul (hg.inv h0)
  exact this

theorem shape_diff {L s Q : ℝ} (h1 : 0 < Q - 2 * s * L + L) (h2 : 0 < Q) (h3 : Q - s ^ 2 * L ≠ 0) : DifferentiableAt ℝ (shape mu0 L) (s, Q) := by
  have a1 : DifferentiableAt ℝ (fun p : ℝ × ℝ => (1 - p.1) / Real.sqrt (p.2 - 2 * p.1 * L + L)) (s, Q) :=
    quot_diff (by fun_prop) (DifferentiableAt.sqrt (by fun_prop) h1.ne') (Real.sqrt_pos.2 h1).ne'
  have a2 : DifferentiableAt ℝ (fun p : ℝ × ℝ => p.1 / Real.sqrt p.2) (s, Q) :=
    quot_diff (by fun_prop) (DifferentiableAt.sqrt (by fun_prop) h2.ne') (Real.sqrt_pos.2 h2).ne'
  unfold shape
  exact DifferentiableAt.const_mul (quot_diff (a1.fun_add a2) (by fun_prop) h3) _

/-- The field of a segment off its line. -/
noncomputable def closed (mu0 : ℝ) (p1 p2 x : V3 ℝ) : V3 ℝ :=
  ⟨weight mu0 p1 p2 x * (V3.cross (V3.sub x p1) (V3.sub x p2)).x, weight mu0 p1 p2 x * (V3.cross (V3.sub x p1) (V3.sub x p2)).y,
      weight mu0 p1 p2 x * (V3.cross (V3.sub x p1) (V3.sub x p2)).z⟩

/-- A vector field `B` has partial derivatives at `x` in the directions of its components, which add up to zero. -/
def DivFree (B : V3 ℝ → V3 ℝ) (x : V3 ℝ) : Prop :=
  ∃ a b c, HasDerivAt (fun u => (B ⟨u, x.y, x.z⟩).x) a x.x ∧ HasDerivAt (fun u => (B ⟨x.x, u, x.z⟩).y) b x.y ∧
    HasDerivAt (fun u => (B ⟨x.x, x.y, u⟩).z) c x.z ∧ a + b + c = 0

theorem closed_divFree (h : OffLine p1 p2 x) : DivFree (closed mu0 p1 p2) x := by
  have hL := length_pos h
  have hg := gap_pos h
  have hd1 : 0 < V3.dot (V3.sub x p1) (V3.sub x p1) := dot_pos fun e => h.2 0 (by
    rw [wire_zero]; unfold V3.sub at e; injection e with e1 e2 e3; ext <;> linarith)
  have hd2 : 0 < V3.dot (V3.sub x p2) (V3.sub x p2) := dot_pos fun e => h.2 1 (by
    rw [wire_one]; unfold V3.sub at e; injection e with e1 e2 e3; ext <;> linarith)
  have h1 : V3.dot (V3.sub x p2) (V3.sub x p2) = V3.dot (V3.sub x p1) (V3.sub x p1) -
      2 * (V3.dot (V3.sub p2 p1) (V3.sub x p1) / V3.dot (V3.sub p2 p1) (V3.sub p2 p1)) * V3.dot (V3.sub p2 p1) (V3.sub p2 p1) +
      V3.dot (V3.sub p2 p1) (V3.sub p2 p1) := by
    rw [mul_assoc, div_mul_cancel₀ _ hL.ne']
    unfold V3.dot V3.sub
    ring
  rw [h1] at hd2
  have hG := (shape_diff (mu0 := mu0) hd2 hd1 (by unfold gap at hg; exact hg.ne')).hasFDerivAt
  generalize hG' : fderiv ℝ (shape mu0 (V3.dot (V3.sub p2 p1) (V3.sub p2 p1))) (V3.dot (V3.sub p2 p1) (V3.sub x p1) / V3.dot (V3.sub p2 p1) (V3.sub p2 p1),
    V3.dot (V3.sub x p1) (V3.sub x p1)) = G' at hG
  have split : ∀ a b : ℝ, G' (a, b) = a * G' (1, 0) + b * G' (0, 1) := fun a b => by
    have : ((a, b) : ℝ × ℝ) = a • (1, 0) + b • (0, 1) := by simp
    rw [this, map_add, map_smul, map_smul, smul_eq_mul, smul_eq_mul]
  -- derivative of the weight along a path
  have hw : ∀ (y : ℝ → V3 ℝ) (u0 ds dQ : ℝ), y u0 = x →
      HasDerivAt (fun u => V3.dot (V3.sub p2 p1) (V3.sub (y u) p1) / V3.dot (V3.sub p2 p1) (V3.sub p2 p1)) ds u0 →
      HasDerivAt (fun u => V3.dot (V3.sub (y u) p1) (V3.sub (y u) p1)) dQ u0 →
      HasDerivAt (fun u => weight mu0 p1 p2 (y u)) (ds * G' (1, 0) + dQ * G' (0, 1)) u0 := fun y u0 ds dQ hy h2 h3 => by
    have h4 := h2.prodMk h3
    have hG2 := hG
    rw [← hy] at hG2
    have h5 := hG2.comp_hasDerivAt u0 h4
    rw [split] at h5
    refine h5.congr_of_eventuallyEq (Filter.Eventually.of_forall fun u => ?_)
    exact weight_shape hL.ne'
  have lin : ∀ (a b u0 : ℝ), HasDerivAt (fun u : ℝ => u * a + b) a u0 := fun a b u0 => by
    simpa using ((hasDerivAt_id u0).mul_const a).add_const b
  have quad : ∀ (p b u0 : ℝ), HasDerivAt (fun u : ℝ => (u - p) * (u - p) + b) (2 * (u0 - p)) u0 := fun p b u0 => by
    have h0 : HasDerivAt (fun u : ℝ => u - p) 1 u0 := (hasDerivAt_id u0).sub_const p
    exact ((h0.mul h0).add_const b).congr_deriv (by ring)
  have wx := hw (fun u => ⟨u, x.y, x.z⟩) x.x ((V3.sub p2 p1).x / V3.dot (V3.sub p2 p1) (V3.sub p2 p1)) (2 * (x.x - p1.x)) rfl
    (((lin (V3.sub p2 p1).x (-(V3.sub p2 p1).x * p1.x + (V3.sub p2 p1).y * (x.y - p1.y) + (V3.sub p2 p1).z * (x.z - p1.z)) x.x).div_const _).congr_of_eventuallyEq
      (Filter.Eventually.of_forall fun u => by simp only [V3.dot, V3.sub]; congr 1; ring))
    ((quad p1.x ((x.y - p1.y) * (x.y - p1.y) + (x.z - p1.z) * (x.z - p1.z)) x.x).congr_of_eventuallyEq
      (Filter.Eventually.of_forall fun u => by simp only [V3.dot, V3.sub]; ring))
  have wy := hw (fun u => ⟨x.x, u, x.z⟩) x.y ((V3.sub p2 p1).y / V3.dot (V3.sub p2 p1) (V3.sub p2 p1)) (2 * (x.y - p1.y)) rfl
    (((lin (V3.sub p2 p1).y (-(V3.sub p2 p1).y * p1.y + (V3.sub p2 p1).x * (x.x - p1.x) + (V3.sub p2 p1).z * (x.z - p1.z)) x.y).div_const _).congr_of_eventuallyEq
      (Filter.Eventually.of_forall fun u => by simp only [V3.dot, V3.sub]; congr 1; ring))
    ((quad p1.y ((x.x - p1.x) * (x.x - p1.x) + (x.z - p1.z) * (x.z - p1.z)) x.y).congr_of_eventuallyEq
      (Filter.Eventually.of_forall fun u => by simp only [V3.dot, V3.sub]; ring))
  have wz := hw (fun u => ⟨x.x, x.y, u⟩) x.z ((V3.sub p2 p1).z / V3.dot (V3.sub p2 p1) (V3.sub p2 p1)) (2 * (x.z - p1.z)) rfl
    (((lin (V3.sub p2 p1).z (-(V3.sub p2 p1).z * p1.z + (V3.sub p2 p1).x * (x.x - p1.x) + (V3.sub p2 p1).y * (x.y - p1.y)) x.z).div_const _).congr_of_eventuallyEq
      (Filter.Eventually.of_forall fun u => by simp only [V3.dot, V3.sub]; congr 1; ring))
    ((quad p1.z ((x.x - p1.x) * (x.x - p1.x) + (x.y - p1.y) * (x.y - p1.y)) x.z).congr_of_eventuallyEq
      (Filter.Eventually.of_forall fun u => by simp only [V3.dot, V3.sub]; ring))
  refine ⟨_, _, _, wx.mul_const (V3.cross (V3.sub x p1) (V3.sub x p2)).x, wy.mul_const (V3.cross (V3.sub x p1) (V3.sub x p2)).y,
    wz.mul_const (V3.cross (V3.sub x p1) (V3.sub x p2)).z, ?_⟩
  generalize G' (1, 0) = g1, G' (0, 1) = g2
  unfold V3.cross V3.sub
  ring

/-- Being off the line, as a condition on the cross product. -/
theorem offLine_iff : OffLine p1 p2 x ↔ 0 < V3.dot (V3.cross (V3.sub x p1) (V3.sub x p2)) (V3.cross (V3.sub x p1) (V3.sub x p2)) := by
  constructor
  · intro h
    rw [cross_sq (length_pos h).ne']
    exact mul_pos (length_pos h) (gap_pos h)
  · intro h
    constructor
    · rintro rfl
      have : V3.dot (V3.cross (V3.sub x p1) (V3.sub x p1)) (V3.cross (V3.sub x p1) (V3.sub x p1)) = 0 := by
        unfold V3.dot V3.cross V3.sub
        ring
      exact h.ne' this
    · rintro t rfl
      have : V3.dot (V3.cross (V3.sub (wire p1 p2 t) p1) (V3.sub (wire p1 p2 t) p2)) (V3.cross (V3.sub (wire p1 p2 t) p1) (V3.sub (wire p1 p2 t) p2)) = 0 := by
        unfold V3.dot V3.cross V3.sub wire
        ring
      exact h.ne' this

/-- Points off the lines stay so when moved a little. -/
theorem eventually_off {y : ℝ → V3 ℝ} {u0 : ℝ} (hx : Continuous fun u => (y u).x) (hy : Continuous fun u => (y u).y) (hz : Continuous fun u => (y u).z) :
    ∀ coil : List (V3 ℝ), OffLines (y u0) coil → ∀ᶠ u in nhds u0, OffLines (y u) coil
  | [], _ => Filter.Eventually.of_forall fun _ => trivial
  | [_], _ => Filter.Eventually.of_forall fun _ => trivial
  | p1 :: p2 :: ps, h => by
    refine Filter.Eventually.and ?_ (eventually_off hx hy hz (p2 :: ps) h.2)
    have hc : Continuous fun u => V3.dot (V3.cross (V3.sub (y u) p1) (V3.sub (y u) p2)) (V3.cross (V3.sub (y u) p1) (V3.sub (y u) p2)) := by
      unfold V3.dot V3.cross V3.sub
      fun_prop
    have := hc.continuousAt.eventually_const_lt (u := 0) (offLine_iff.1 h.1)
    exact this.mono fun u hu => offLine_iff.2 hu

/-- Sum of the closed forms. -/
noncomputable def formula (mu0 : ℝ) : List (V3 ℝ) → V3 ℝ → V3 ℝ
  | p1 :: p2 :: ps, x => ⟨(closed mu0 p1 p2 x).x + (formula mu0 (p2 :: ps) x).x, (closed mu0 p1 p2 x).y + (formula mu0 (p2 :: ps) x).y,
      (closed mu0 p1 p2 x).z + (formula mu0 (p2 :: ps) x).z⟩
  | _, _ => ⟨0, 0, 0⟩

theorem formula_eq : ∀ (coil : List (V3 ℝ)) {x : V3 ℝ}, OffLines x coil → ofCoil mu0 x coil = formula mu0 coil x
  | [], _, _ => rfl
  | [_], _, _ => rfl
  | p1 :: p2 :: ps, x, h => by
    unfold ofCoil formula
    dsimp only
    rw [formula_eq (p2 :: ps) h.2, ofSegment_eq h.1]
    rfl

theorem formula_divFree : ∀ (coil : List (V3 ℝ)) {x : V3 ℝ}, OffLines x coil → DivFree (formula mu0 coil) x
  | [], x, _ => ⟨0, 0, 0, hasDerivAt_const _ _, hasDerivAt_const _ _, hasDerivAt_const _ _, by norm_num⟩
  | [_], x, _ => ⟨0, 0, 0, hasDerivAt_const _ _, hasDerivAt_const _ _, hasDerivAt_const _ _, by norm_num⟩
  | p1 :: p2 :: ps, x, h => by
    obtain ⟨a, b, c, h1, h2, h3, h4⟩ := closed_divFree (mu0 := mu0) h.1
    obtain ⟨a', b', c', h1', h2', h3', h4'⟩ := formula_divFree (p2 :: ps) h.2
    exact ⟨a + a', b + b', c + c', h1.add h1', h2.add h2', h3.add h3', by linarith⟩

/-- The field that the code stores; zero, for definiteness, where it is not a number. -/
noncomputable def stored (mu0 : ℝ) (coil : List (V3 ℝ)) (x : V3 ℝ) : V3 ℝ := ((calcB mu0 coil x).getD none).getD ⟨0, 0, 0⟩

/-- **No divergence**: the computed field, of closed and open polygons alike, is free of divergence off the lines. -/
theorem no_divergence_partial {coil : List (V3 ℝ)} (hne : coil ≠ []) (h : OffLines x coil) : DivFree (stored mu0 coil) x := by
  have he : ∀ y, OffLines y coil → stored mu0 coil y = formula mu0 coil y := fun y hy => by
    unfold stored
    rw [biot_savart_partial hne hy, formula_eq coil hy]
    rfl
  obtain ⟨a, b, c, h1, h2, h3, h4⟩ := formula_divFree (mu0 := mu0) coil h
  refine ⟨a, b, c, h1.congr_of_eventuallyEq ?_, h2.congr_of_eventuallyEq ?_, h3.congr_of_eventuallyEq ?_, h4⟩
  · exact (eventually_off (y := fun u => ⟨u, x.y, x.z⟩) continuous_id continuous_const continuous_const coil h).mono fun u hu => congrArg V3.x (he _ hu)
  · exact (eventually_off (y := fun u => ⟨x.x, u, x.z⟩) continuous_const continuous_id continuous_const coil h).mono fun u hu => congrArg V3.y (he _ hu)
  · exact (eventually_off (y := fun u => ⟨x.x, x.y, u⟩) continuous_const continuous_const continuous_id coil h).mono fun u hu => congrArg V3.z (he _ hu)

/-! ### Where it fails -/

/-- On the line through a segment, before its start or beyond its end, the segment has no field by the law, as every element points
towards or away from the point; the code divides zero by zero. -/
theorem on_extension (hne : p1 ≠ p2) {t : ℝ} (ht : t < 0 ∨ 1 < t) : (∀ u ∈ Icc (0 : ℝ) 1, wire p1 p2 t ≠ wire p1 p2 u) ∧
    (∀ u, kernel mu0 p1 p2 (wire p1 p2 t) u = ⟨0, 0, 0⟩) ∧ Biosaw.segment mu0 p1 p2 (wire p1 p2 t) = none := by
  refine ⟨fun u hu e => ?_, fun u => ?_, ?_⟩
  · apply hne
    have hne' : t - u ≠ 0 := by
      rcases ht with ht | ht
      · have := hu.1; intro h; linarith
      · have := hu.2; intro h; linarith
    unfold wire at e
    injection e with e1 e2 e3
    ext
    · exact (sub_eq_zero.1 ((mul_eq_zero.1 (show (t - u) * (p2.x - p1.x) = 0 by linarith)).resolve_left hne')).symm
    · exact (sub_eq_zero.1 ((mul_eq_zero.1 (show (t - u) * (p2.y - p1.y) = 0 by linarith)).resolve_left hne')).symm
    · exact (sub_eq_zero.1 ((mul_eq_zero.1 (show (t - u) * (p2.z - p1.z) = 0 by linarith)).resolve_left hne')).symm
  · have : V3.cross (V3.sub p2 p1) (V3.sub (wire p1 p2 t) (wire p1 p2 u)) = ⟨0, 0, 0⟩ := by
      unfold V3.cross V3.sub wire
      ext <;> ring
    unfold kernel
    dsimp only
    rw [this]
    simp
  · have : V3.cross (V3.sub (wire p1 p2 t) p1) (V3.sub (wire p1 p2 t) p2) = ⟨0, 0, 0⟩ := by
      unfold V3.cross V3.sub wire
      ext <;> ring
    unfold Biosaw.segment
    dsimp only
    rw [if_pos]
    right; right; right; right
    rw [this]
    simp [V3.norm]

theorem loop_none : ∀ (ps : List (V3 ℝ)) (p : V3 ℝ), loop mu0 x p ps none = none
  | [], _ => rfl
  | p2 :: ps, p => by
    unfold loop
    exact loop_none ps p2

/-- A square coil. -/
def square : List (V3 ℝ) := [⟨0, 0, 0⟩, ⟨1, 0, 0⟩, ⟨1, 1, 0⟩, ⟨0, 1, 0⟩, ⟨0, 0, 0⟩]

/-- Outside the square, in the plane of the coil and in line with one of its sides, the result is not a number, although the point
keeps a distance of one from the wire. -/
theorem square_fails : calcB mu0 square ⟨2, 0, 0⟩ = some none := by
  have h := (on_extension (mu0 := mu0) (p1 := ⟨0, 0, 0⟩) (p2 := ⟨1, 0, 0⟩) (by intro h; injection h with h1; norm_num at h1) (t := 2) (.inr (by norm_num))).2.2
  have e : wire ⟨0, 0, 0⟩ ⟨1, 0, 0⟩ 2 = ⟨2, 0, 0⟩ := by unfold wire; ext <;> norm_num
  rw [e] at h
  unfold calcB square
  dsimp only
  unfold loop
  rw [h]
  exact congrArg some (loop_none _ _)

/-- A point on none of the lines. -/
example : OffLines ⟨1 / 3, 1 / 2, 1 / 4⟩ square ∧ square ≠ [] := by
  refine ⟨⟨offLine_iff.2 ?_, offLine_iff.2 ?_, offLine_iff.2 ?_, offLine_iff.2 ?_, trivial⟩, by simp [square]⟩ <;>
    norm_num [V3.dot, V3.cross, V3.sub]

end Ascot.C116
