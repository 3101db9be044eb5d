import Verif.Lemmas.Coord
import Verif.Model.Gctransform
import Mathlib.Tactic.Positivity

set_option linter.unusedSectionVars false
set_option linter.unusedSimpArgs false

namespace Ascot.Gctransform
open Ascot.Coord

theorem dot_nonneg (v : V3 ℝ) : 0 ≤ V3.dot v v := by
  unfold V3.dot
  nlinarith [mul_self_nonneg v.x, mul_self_nonneg v.y, mul_self_nonneg v.z]

theorem unit_dot {v : V3 ℝ} (h : V3.dot v v ≠ 0) : V3.dot (V3.unit Real.sqrt v) (V3.unit Real.sqrt v) = 1 := by
  have hp : 0 < V3.dot v v := lt_of_le_of_ne (dot_nonneg v) h.symm
  have hs : V3.norm Real.sqrt v * V3.norm Real.sqrt v = V3.dot v v := Real.mul_self_sqrt hp.le
  have hn : V3.norm Real.sqrt v ≠ 0 := by
    intro h0
    rw [h0, zero_mul] at hs
    exact hp.ne hs
  unfold V3.unit
  generalize V3.norm Real.sqrt v = n at hs hn
  unfold V3.dot at hs ⊢
  dsimp only
  field_simp
  linarith

/-- The components of the basis vectors. -/
theorem basis_eq (b : V3 ℝ) :
    let n := Real.sqrt (b.x * b.x + b.y * b.y)
    (basis b).1 = ⟨b.y / n, -b.x / n, 0⟩ ∧ (basis b).2 = ⟨b.z * b.x / n, b.z * b.y / n, -(b.x * b.x + b.y * b.y) / n⟩ := by
  intro n
  have e : (basis b).1 = ⟨b.y / n, -b.x / n, 0⟩ := by
    unfold basis V3.unit V3.norm V3.cross
    have : Real.sqrt ((b.y * 1 - b.z * 0) * (b.y * 1 - b.z * 0) + (b.z * 0 - b.x * 1) * (b.z * 0 - b.x * 1) +
        (b.x * 0 - b.y * 0) * (b.x * 0 - b.y * 0)) = n := by
      dsimp only [n]
      congr 1
      ring
    dsimp only
    rw [this]
    ext <;> dsimp only <;> simp
  refine ⟨e, ?_⟩
  have : (basis b).2 = V3.cross b (basis b).1 := rfl
  rw [this, e]
  unfold V3.cross
  ext <;> dsimp only <;> ring

theorem basis_norm {b : V3 ℝ} (hq : b.x * b.x + b.y * b.y ≠ 0) :
    Real.sqrt (b.x * b.x + b.y * b.y) ≠ 0 ∧
    Real.sqrt (b.x * b.x + b.y * b.y) * Real.sqrt (b.x * b.x + b.y * b.y) = b.x * b.x + b.y * b.y := by
  have h0 : 0 ≤ b.x * b.x + b.y * b.y := by nlinarith [mul_self_nonneg b.x, mul_self_nonneg b.y]
  have hs := Real.mul_self_sqrt h0
  refine ⟨fun h => ?_, hs⟩
  rw [h, zero_mul] at hs
  exact hq hs.symm

/-- A vector perpendicular to `b` in the basis. -/
theorem decompose {b v : V3 ℝ} (hb : V3.dot b b = 1) (hq : b.x * b.x + b.y * b.y ≠ 0) (hv : V3.dot v b = 0) :
    v = ⟨V3.dot v (basis b).1 * (basis b).1.x + V3.dot v (basis b).2 * (basis b).2.x,
         V3.dot v (basis b).1 * (basis b).1.y + V3.dot v (basis b).2 * (basis b).2.y,
         V3.dot v (basis b).1 * (basis b).1.z + V3.dot v (basis b).2 * (basis b).2.z⟩ := by
  obtain ⟨e1, e2⟩ := basis_eq b
  obtain ⟨hn, hs⟩ := basis_norm hq
  have hs' : Real.sqrt (b.x * b.x + b.y * b.y) ^ 2 = b.x * b.x + b.y * b.y := by rw [sq, hs]
  have d2 : V3.dot v (basis b).2 = -v.z / Real.sqrt (b.x * b.x + b.y * b.y) := by
    rw [e2]
    unfold V3.dot at hb hv ⊢
    dsimp only
    linear_combination (b.z / Real.sqrt (b.x * b.x + b.y * b.y)) * hv - (v.z / Real.sqrt (b.x * b.x + b.y * b.y)) * hb
  rw [d2, e1, e2]
  generalize Real.sqrt (b.x * b.x + b.y * b.y) = n at hn hs hs'
  unfold V3.dot at hb hv ⊢
  ext
  · dsimp only
    field_simp
    linear_combination v.x * hs' + b.x * hv
  · dsimp only
    field_simp
    linear_combination v.y * hs' + b.y * hv
  · dsimp only
    field_simp
    linear_combination v.z * hs'

theorem e1_b {b : V3 ℝ} : V3.dot (basis b).1 b = 0 := by
  rw [(basis_eq b).1]
  unfold V3.dot
  dsimp only
  ring

theorem e2_b {b : V3 ℝ} : V3.dot (basis b).2 b = 0 := by
  rw [(basis_eq b).2]
  unfold V3.dot
  dsimp only
  ring

theorem e1_e2 {b : V3 ℝ} : V3.dot (basis b).1 (basis b).2 = 0 := by
  rw [(basis_eq b).1, (basis_eq b).2]
  unfold V3.dot
  dsimp only
  ring

theorem e1_e1 {b : V3 ℝ} (hq : b.x * b.x + b.y * b.y ≠ 0) : V3.dot (basis b).1 (basis b).1 = 1 := by
  obtain ⟨hn, hs⟩ := basis_norm hq
  rw [(basis_eq b).1]
  generalize Real.sqrt (b.x * b.x + b.y * b.y) = n at hn hs
  unfold V3.dot
  dsimp only
  field_simp
  linarith

theorem e2_e2 {b : V3 ℝ} (hb : V3.dot b b = 1) (hq : b.x * b.x + b.y * b.y ≠ 0) : V3.dot (basis b).2 (basis b).2 = 1 := by
  obtain ⟨hn, hs⟩ := basis_norm hq
  rw [(basis_eq b).2]
  generalize Real.sqrt (b.x * b.x + b.y * b.y) = n at hn hs
  unfold V3.dot at hb ⊢
  dsimp only
  field_simp
  have hb' : b.z ^ 2 = 1 - (b.x * b.x + b.y * b.y) := by linarith
  have : n ^ 2 = b.x * b.x + b.y * b.y := by rw [sq, hs]
  rw [this]
  linear_combination (b.x ^ 2 + b.y ^ 2) * hb'

theorem cross_e1 {b : V3 ℝ} : V3.cross b (basis b).1 = (basis b).2 := rfl

theorem cross_e2 {b : V3 ℝ} (hb : V3.dot b b = 1) :
    V3.cross b (basis b).2 = ⟨-(basis b).1.x, -(basis b).1.y, -(basis b).1.z⟩ := by
  rw [(basis_eq b).1, (basis_eq b).2]
  generalize Real.sqrt (b.x * b.x + b.y * b.y) = n
  unfold V3.dot at hb
  unfold V3.cross
  ext
  · dsimp only
    linear_combination -(b.y / n) * hb
  · dsimp only
    linear_combination (b.x / n) * hb
  · dsimp only
    ring

theorem cos_fmod (x : ℝ) : Real.cos (Linint.fmod (2 * Real.pi + x) (2 * Real.pi)) = Real.cos x := by
  unfold Linint.fmod
  rw [mul_comm (2 * Real.pi) (⌊_⌋ : ℝ), Real.cos_sub_int_mul_two_pi, add_comm, Real.cos_add_two_pi]

theorem sin_fmod (x : ℝ) : Real.sin (Linint.fmod (2 * Real.pi + x) (2 * Real.pi)) = Real.sin x := by
  unfold Linint.fmod
  rw [mul_comm (2 * Real.pi) (⌊_⌋ : ℝ), Real.sin_sub_int_mul_two_pi, add_comm, Real.sin_add_two_pi]

theorem triple_cycle (a b c : V3 ℝ) : V3.dot (V3.cross a b) c = -V3.dot b (V3.cross a c) := by
  unfold V3.dot V3.cross
  dsimp only
  ring

/-- The gyroangle computed from the gyrovector gives back the gyrovector and the direction of gyration. -/
theorem gyro {b perp : V3 ℝ} (hb : V3.dot b b = 1) (hq : b.x * b.x + b.y * b.y ≠ 0) (hp : V3.dot perp perp = 1)
    (hpb : V3.dot perp b = 0) :
    let rho := V3.cross b perp
    let zeta := atan2 (-V3.dot rho (basis b).2) (V3.dot rho (basis b).1)
    let e := basis b
    (rho = ⟨Real.cos zeta * e.1.x - Real.sin zeta * e.2.x, Real.cos zeta * e.1.y - Real.sin zeta * e.2.y,
      Real.cos zeta * e.1.z - Real.sin zeta * e.2.z⟩) ∧
    (perp = ⟨-Real.sin zeta * e.1.x - Real.cos zeta * e.2.x, -Real.sin zeta * e.1.y - Real.cos zeta * e.2.y,
      -Real.sin zeta * e.1.z - Real.cos zeta * e.2.z⟩) := by
  intro rho zeta e
  have r1 : V3.dot rho e.1 = -V3.dot perp e.2 := triple_cycle b perp e.1
  have r2 : V3.dot rho e.2 = V3.dot perp e.1 := by
    have : V3.dot rho e.2 = -V3.dot perp (V3.cross b e.2) := triple_cycle b perp e.2
    rw [this, cross_e2 hb]
    unfold V3.dot
    dsimp only
    ring
  have hd := decompose hb hq hpb
  have hsum : V3.dot perp e.1 * V3.dot perp e.1 + V3.dot perp e.2 * V3.dot perp e.2 = 1 := by
    have h11 := e1_e1 hq
    have h22 := e2_e2 hb hq
    have h12 := e1_e2 (b := b)
    have hx : perp.x = _ := congrArg V3.x hd
    have hy : perp.y = _ := congrArg V3.y hd
    have hz : perp.z = _ := congrArg V3.z hd
    dsimp only at hx hy hz
    rw [← hp]
    have : V3.dot perp perp = perp.x * perp.x + perp.y * perp.y + perp.z * perp.z := rfl
    rw [this]
    generalize V3.dot perp (basis b).1 = u at hx hy hz
    generalize V3.dot perp (basis b).2 = w at hx hy hz
    rw [hx, hy, hz]
    unfold V3.dot at h11 h22 h12
    linear_combination -u * u * h11 - w * w * h22 - 2 * u * w * h12
  have hone : Real.sqrt (V3.dot rho e.1 * V3.dot rho e.1 + -V3.dot rho e.2 * -V3.dot rho e.2) = 1 := by
    rw [r1, r2]
    have : -V3.dot perp e.2 * -V3.dot perp e.2 + -V3.dot perp e.1 * -V3.dot perp e.1 = 1 := by linarith
    rw [this, Real.sqrt_one]
  have hcos : Real.cos zeta = V3.dot rho e.1 := by
    have := cos_atan2 (V3.dot rho e.1) (-V3.dot rho e.2)
    rwa [hone, one_mul] at this
  have hsin : Real.sin zeta = -V3.dot rho e.2 := by
    have := sin_atan2 (V3.dot rho e.1) (-V3.dot rho e.2)
    rwa [hone, one_mul] at this
  constructor
  · have hrb : V3.dot rho b = 0 := by
      dsimp only [rho]
      unfold V3.dot V3.cross
      dsimp only
      ring
    rw [hcos, hsin]
    have := decompose hb hq hrb
    rw [this]
    ext <;> dsimp only [e] <;> (rw [← this]; ring)
  · rw [hcos, hsin, r1, r2]
    have hx : perp.x = _ := congrArg V3.x hd
    have hy : perp.y = _ := congrArg V3.y hd
    have hz : perp.z = _ := congrArg V3.z hd
    ext
    · dsimp only at hx ⊢
      rw [hx]; dsimp only [e]; ring
    · dsimp only at hy ⊢
      rw [hy]; dsimp only [e]; ring
    · dsimp only at hz ⊢
      rw [hz]; dsimp only [e]; ring

theorem geom_bnorm (j : Jac) (r phi : ℝ) :
    (geom j r phi).bnorm = V3.norm Real.sqrt (vecRpz2xyz ⟨j.a.v, j.b.v, j.c.v⟩ phi) := by
  unfold geom V3.norm vecRpz2xyz
  dsimp only
  congr 1
  linear_combination -(j.a.v * j.a.v + j.b.v * j.b.v) * sc phi

theorem geom_bhat (j : Jac) (r phi : ℝ) :
    (geom j r phi).bhat = V3.unit Real.sqrt (vecRpz2xyz ⟨j.a.v, j.b.v, j.c.v⟩ phi) := by
  unfold V3.unit
  rw [← geom_bnorm j r phi]
  rfl

theorem norm_ne {v : V3 ℝ} (h : V3.norm Real.sqrt v ≠ 0) : V3.dot v v ≠ 0 := by
  intro h0
  apply h
  show Real.sqrt (V3.dot v v) = 0
  rw [h0, Real.sqrt_zero]

theorem scale_unit {v : V3 ℝ} (h : V3.dot v v ≠ 0) :
    v = ⟨Real.sqrt (V3.dot v v) * (V3.unit Real.sqrt v).x, Real.sqrt (V3.dot v v) * (V3.unit Real.sqrt v).y,
      Real.sqrt (V3.dot v v) * (V3.unit Real.sqrt v).z⟩ := by
  have hn : Real.sqrt (V3.dot v v) ≠ 0 := Real.sqrt_ne_zero'.2 (lt_of_le_of_ne (dot_nonneg v) h.symm)
  have e : V3.norm Real.sqrt v = Real.sqrt (V3.dot v v) := rfl
  unfold V3.unit
  rw [e]
  ext <;> dsimp only <;> field_simp

theorem vec_back (v : V3 ℝ) (phi : ℝ) : vecXyz2rpz (vecRpz2xyz v phi) phi = v := by
  unfold vecRpz2xyz vecXyz2rpz
  have := sc phi
  ext
  · dsimp only
    linear_combination v.x * this
  · dsimp only
    linear_combination v.y * this
  · rfl

end Ascot.Gctransform
