import Mathlib.Analysis.Calculus.Deriv.Inv
import Mathlib.Analysis.SpecialFunctions.Sqrt
import Verif.Lemmas.Gctransform
import Verif.Props.C44_C45_Coord

/-!
# C78: the first-order guiding-center corrections use the local geometry of the field
-/
set_option linter.unusedSectionVars false
set_option linter.unusedSimpArgs false

namespace Ascot.C78
open Ascot.Coord Ascot.Gctransform

/-- Rate of change of the Cartesian field when moving with velocity `u`. -/
def along (X : Jac) (u : V3 ℝ) : V3 ℝ :=
  ⟨u.x * X.a.d1 + u.y * X.a.d2 + u.z * X.a.d3, u.x * X.b.d1 + u.y * X.b.d2 + u.z * X.b.d3,
   u.x * X.c.d1 + u.y * X.c.d2 + u.z * X.c.d3⟩

/-- `d` is the rate of change of the unit vector along the field when moving with velocity `u` through a field whose
value and gradient are `X`: for every field along the path that has the right value and rate of change. -/
def UnitRate (X : Jac) (u d : V3 ℝ) : Prop :=
  ∀ fx fy fz : ℝ → ℝ, fx 0 = X.a.v → fy 0 = X.b.v → fz 0 = X.c.v →
    HasDerivAt fx (along X u).x 0 → HasDerivAt fy (along X u).y 0 → HasDerivAt fz (along X u).z 0 →
    HasDerivAt (fun t => fx t / Real.sqrt (fx t * fx t + fy t * fy t + fz t * fz t)) d.x 0 ∧
    HasDerivAt (fun t => fy t / Real.sqrt (fx t * fx t + fy t * fy t + fz t * fz t)) d.y 0 ∧
    HasDerivAt (fun t => fz t / Real.sqrt (fx t * fx t + fy t * fy t + fz t * fz t)) d.z 0

/-- Curl of the Cartesian field. -/
def curl (X : Jac) : V3 ℝ := ⟨X.c.d2 - X.b.d3, X.a.d3 - X.c.d1, X.b.d1 - X.a.d2⟩

/-- The rate of change of the unit vector, computed. -/
noncomputable def rate (X : Jac) (u : V3 ℝ) : V3 ℝ :=
  let n := Real.sqrt (X.a.v * X.a.v + X.b.v * X.b.v + X.c.v * X.c.v)
  let s := (X.a.v / n) * (along X u).x + (X.b.v / n) * (along X u).y + (X.c.v / n) * (along X u).z
  ⟨((along X u).x - X.a.v / n * s) / n, ((along X u).y - X.b.v / n * s) / n, ((along X u).z - X.c.v / n * s) / n⟩

theorem unitRate_rate (X : Jac) (u : V3 ℝ) (h : X.a.v * X.a.v + X.b.v * X.b.v + X.c.v * X.c.v ≠ 0) : UnitRate X u (rate X u) := by
  intro fx fy fz ex ey ez hx hy hz
  have hq := ((hx.mul hx).add (hy.mul hy)).add (hz.mul hz)
  have hs := hq.sqrt (by simp only [Pi.add_apply, Pi.mul_apply, ex, ey, ez]; exact h)
  have hpos : 0 < X.a.v * X.a.v + X.b.v * X.b.v + X.c.v * X.c.v := lt_of_le_of_ne
    (by nlinarith [mul_self_nonneg X.a.v, mul_self_nonneg X.b.v, mul_self_nonneg X.c.v]) (Ne.symm h)
  have hn : Real.sqrt (X.a.v * X.a.v + X.b.v * X.b.v + X.c.v * X.c.v) ≠ 0 := (Real.sqrt_pos.2 hpos).ne'
  have h0 : Real.sqrt ((fx * fx + fy * fy + fz * fz) 0) ≠ 0 := by
    simp only [Pi.add_apply, Pi.mul_apply, ex, ey, ez]; exact hn
  refine ⟨(hx.div hs h0).congr_deriv ?_, (hy.div hs h0).congr_deriv ?_, (hz.div hs h0).congr_deriv ?_⟩ <;>
  · simp only [Pi.add_apply, Pi.mul_apply, ex, ey, ez]
    unfold rate
    dsimp only
    generalize Real.sqrt (X.a.v * X.a.v + X.b.v * X.b.v + X.c.v * X.c.v) = n at hn
    field_simp
    ring

theorem geom_bhat' (j : Jac) (r phi : ℝ) : (geom j r phi).bnorm = Real.sqrt ((jacRpz2xyz j r phi).a.v * (jacRpz2xyz j r phi).a.v +
    (jacRpz2xyz j r phi).b.v * (jacRpz2xyz j r phi).b.v + (jacRpz2xyz j r phi).c.v * (jacRpz2xyz j r phi).c.v) := by
  unfold geom jacRpz2xyz
  dsimp only
  congr 1
  linear_combination -(j.a.v * j.a.v + j.b.v * j.b.v) * sc phi

variable (j : Jac) (r phi : ℝ)

/-- The vector the code calls curvature differs from the curvature of the field line by `b × curl B / |B|`. -/
theorem curvature_partial (h : (geom j r phi).bnorm ≠ 0) :
    let g := geom j r phi
    let X := jacRpz2xyz j r phi
    let e := V3.cross g.bhat (curl X)
    UnitRate X g.bhat ⟨g.kappa.x - e.x / g.bnorm, g.kappa.y - e.y / g.bnorm, g.kappa.z - e.z / g.bnorm⟩ := by
  intro g X e
  have hn := geom_bhat' j r phi
  have hz : X.a.v * X.a.v + X.b.v * X.b.v + X.c.v * X.c.v ≠ 0 := by
    intro hh
    apply h
    rw [hn]
    show Real.sqrt (X.a.v * X.a.v + X.b.v * X.b.v + X.c.v * X.c.v) = 0
    rw [hh, Real.sqrt_zero]
  have key : (⟨g.kappa.x - e.x / g.bnorm, g.kappa.y - e.y / g.bnorm, g.kappa.z - e.z / g.bnorm⟩ : V3 ℝ) = rate X g.bhat := by
    have hb : g.bhat = ⟨X.a.v / g.bnorm, X.b.v / g.bnorm, X.c.v / g.bnorm⟩ := rfl
    have hsq : g.bnorm * g.bnorm = X.a.v * X.a.v + X.b.v * X.b.v + X.c.v * X.c.v := by
      rw [show g.bnorm = _ from hn]
      exact Real.mul_self_sqrt (by nlinarith [mul_self_nonneg X.a.v, mul_self_nonneg X.b.v, mul_self_nonneg X.c.v])
    have hk : g.kappa = ⟨(g.bhat.x * X.a.d1 + g.bhat.y * X.b.d1 + g.bhat.z * X.c.d1 - V3.dot g.bhat g.gradB * g.bhat.x) / g.bnorm,
       (g.bhat.x * X.a.d2 + g.bhat.y * X.b.d2 + g.bhat.z * X.c.d2 - V3.dot g.bhat g.gradB * g.bhat.y) / g.bnorm,
       (g.bhat.x * X.a.d3 + g.bhat.y * X.b.d3 + g.bhat.z * X.c.d3 - V3.dot g.bhat g.gradB * g.bhat.z) / g.bnorm⟩ := rfl
    have hg : g.gradB = ⟨g.bhat.x * X.a.d1 + g.bhat.y * X.b.d1 + g.bhat.z * X.c.d1, g.bhat.x * X.a.d2 + g.bhat.y * X.b.d2 + g.bhat.z * X.c.d2,
      g.bhat.x * X.a.d3 + g.bhat.y * X.b.d3 + g.bhat.z * X.c.d3⟩ := rfl
    have hr : rate X g.bhat = ⟨((along X g.bhat).x - X.a.v / g.bnorm * ((X.a.v / g.bnorm) * (along X g.bhat).x + (X.b.v / g.bnorm) * (along X g.bhat).y + (X.c.v / g.bnorm) * (along X g.bhat).z)) / g.bnorm,
      ((along X g.bhat).y - X.b.v / g.bnorm * ((X.a.v / g.bnorm) * (along X g.bhat).x + (X.b.v / g.bnorm) * (along X g.bhat).y + (X.c.v / g.bnorm) * (along X g.bhat).z)) / g.bnorm,
      ((along X g.bhat).z - X.c.v / g.bnorm * ((X.a.v / g.bnorm) * (along X g.bhat).x + (X.b.v / g.bnorm) * (along X g.bhat).y + (X.c.v / g.bnorm) * (along X g.bhat).z)) / g.bnorm⟩ := by
      rw [show g.bnorm = _ from hn]
      rfl
    rw [hr, hk, hg]
    dsimp only [e]
    unfold V3.cross curl V3.dot along
    rw [hb]
    clear_value g X
    generalize g.bnorm = n at h hsq
    ext <;> dsimp only <;> field_simp <;> ring
  rw [key]
  exact unitRate_rate X g.bhat hz

/-- It is the curvature of the field line when the field has no curl, or a curl along the field. -/
theorem curvature_of_curl_parallel (h : (geom j r phi).bnorm ≠ 0)
    (hc : V3.cross (geom j r phi).bhat (curl (jacRpz2xyz j r phi)) = ⟨0, 0, 0⟩) :
    UnitRate (jacRpz2xyz j r phi) (geom j r phi).bhat (geom j r phi).kappa := by
  have := curvature_partial j r phi h
  dsimp only at this
  rw [hc] at this
  simpa using this

/-- Finding: a field with a perpendicular current gets a wrong curvature.  Here the field is along y, straight
(the rate of change along itself is zero), and its strength varies with x. -/
theorem curvature_wrong : ∃ j : Jac, (geom j 1 0).bnorm = 1 ∧ UnitRate (jacRpz2xyz j 1 0) (geom j 1 0).bhat ⟨0, 0, 0⟩ ∧ (geom j 1 0).kappa = ⟨1, 0, 0⟩ := by
  let j : Jac := ⟨⟨0, 0, 1, 0⟩, ⟨1, 1, 0, 0⟩, ⟨0, 0, 0, 0⟩⟩
  have hn : (geom j 1 0).bnorm = 1 := by
    unfold geom; dsimp only [j]; norm_num
  have hX : jacRpz2xyz j 1 0 = ⟨⟨0, 0, 0, 0⟩, ⟨1, 1, 0, 0⟩, ⟨0, 0, 0, 0⟩⟩ := by
    unfold jacRpz2xyz; dsimp only [j]; simp
  have hb : (geom j 1 0).bhat = ⟨0, 1, 0⟩ := by
    have : (geom j 1 0).bhat = ⟨(jacRpz2xyz j 1 0).a.v / (geom j 1 0).bnorm, (jacRpz2xyz j 1 0).b.v / (geom j 1 0).bnorm, (jacRpz2xyz j 1 0).c.v / (geom j 1 0).bnorm⟩ := rfl
    rw [this, hX, hn]
    simp
  have hk : (geom j 1 0).kappa = ⟨1, 0, 0⟩ := by
    have hg : (geom j 1 0).gradB = ⟨(geom j 1 0).bhat.x * (jacRpz2xyz j 1 0).a.d1 + (geom j 1 0).bhat.y * (jacRpz2xyz j 1 0).b.d1 + (geom j 1 0).bhat.z * (jacRpz2xyz j 1 0).c.d1,
      (geom j 1 0).bhat.x * (jacRpz2xyz j 1 0).a.d2 + (geom j 1 0).bhat.y * (jacRpz2xyz j 1 0).b.d2 + (geom j 1 0).bhat.z * (jacRpz2xyz j 1 0).c.d2,
      (geom j 1 0).bhat.x * (jacRpz2xyz j 1 0).a.d3 + (geom j 1 0).bhat.y * (jacRpz2xyz j 1 0).b.d3 + (geom j 1 0).bhat.z * (jacRpz2xyz j 1 0).c.d3⟩ := rfl
    have : (geom j 1 0).kappa = ⟨((geom j 1 0).gradB.x - V3.dot (geom j 1 0).bhat (geom j 1 0).gradB * (geom j 1 0).bhat.x) / (geom j 1 0).bnorm,
      ((geom j 1 0).gradB.y - V3.dot (geom j 1 0).bhat (geom j 1 0).gradB * (geom j 1 0).bhat.y) / (geom j 1 0).bnorm,
      ((geom j 1 0).gradB.z - V3.dot (geom j 1 0).bhat (geom j 1 0).gradB * (geom j 1 0).bhat.z) / (geom j 1 0).bnorm⟩ := rfl
    rw [this, hg, hb, hX, hn]
    unfold V3.dot
    simp
  refine ⟨j, hn, ?_, hk⟩
  have := curvature_partial j 1 0 (by rw [hn]; exact one_ne_zero)
  dsimp only at this
  rw [hk, hb, hX, hn] at this
  rw [hb, hX]
  unfold curl V3.cross at this
  simpa using this

/-- The parts of the corrections that contract the gradient of the unit vector with the gyrovector and the perpendicular
direction use the true gradient: `a1` and `a2` are what one gets from the rates of change of the unit vector. -/
theorem contractions (h : (geom j r phi).bnorm ≠ 0) (rho perp : V3 ℝ) :
    ∃ drho dperp : V3 ℝ, UnitRate (jacRpz2xyz j r phi) rho drho ∧ UnitRate (jacRpz2xyz j r phi) perp dperp ∧
      a1 (geom j r phi) rho perp = -(1 / 2) * (V3.dot drho perp + V3.dot dperp rho) ∧
      a2 (geom j r phi) rho perp = 1 / 4 * (V3.dot dperp perp - V3.dot drho rho) := by
  have hn := geom_bhat' j r phi
  have hz : (jacRpz2xyz j r phi).a.v * (jacRpz2xyz j r phi).a.v +
    (jacRpz2xyz j r phi).b.v * (jacRpz2xyz j r phi).b.v + (jacRpz2xyz j r phi).c.v * (jacRpz2xyz j r phi).c.v ≠ 0 := by
    intro hh
    apply h
    rw [hn, hh, Real.sqrt_zero]
  refine ⟨_, _, unitRate_rate _ rho hz, unitRate_rate _ perp hz, ?_, ?_⟩
  all_goals
    unfold rate along
    rw [← hn]
    simp only [a1, a2, V3.dot]
    simp only [geom] at h ⊢
    generalize jacRpz2xyz j r phi = X at h ⊢
    generalize Real.sqrt (j.a.v * j.a.v + j.b.v * j.b.v + j.c.v * j.c.v) = n at h ⊢
    field_simp
    ring

/-- Without a gradient the first-order corrections vanish. -/
theorem first_zero {X : Jac} (hX : jacRpz2xyz j r phi = X) (ha : X.a.d1 = 0 ∧ X.a.d2 = 0 ∧ X.a.d3 = 0)
    (hb : X.b.d1 = 0 ∧ X.b.d2 = 0 ∧ X.b.d3 = 0) (hc : X.c.d1 = 0 ∧ X.c.d2 = 0 ∧ X.c.d3 = 0) (mass charge ppar mu rho0 : ℝ)
    (rho perp : V3 ℝ) : first (geom j r phi) mass charge ppar mu rho0 rho perp = (0, 0, 0) := by
  unfold first gauge a1 a2 V3.dot
  simp only [geom, hX, ha.1, ha.2.1, ha.2.2, hb.1, hb.2.1, hb.2.2, hc.1, hc.2.1, hc.2.2]
  split <;> simp [V3.dot]

/-- In a uniform field the first-order transformation must agree with the zeroth-order one, which is exact there.
Proved where the Cartesian x-component of the field is zero; see `uniform_wrong` for the rest. -/
theorem uniform_exact_partial (v : V3 ℝ) (pos p : V3 ℝ) (mass charge : ℝ) (hm : 0 < mass) (hr : pos.x ≠ 0) (hv : v.x = 0) :
    let j := jacXyz2rpz ⟨⟨v.x, 0, 0, 0⟩, ⟨v.y, 0, 0, 0⟩, ⟨v.z, 0, 0, 0⟩⟩ pos.x pos.y
    particle2gc true mass charge j pos p = particle2gc false mass charge j pos p := by
  intro j
  have hX : jacRpz2xyz j pos.x pos.y = ⟨⟨v.x, 0, 0, 0⟩, ⟨v.y, 0, 0, 0⟩, ⟨v.z, 0, 0, 0⟩⟩ :=
    (C45.xyz_round_trip_iff _ pos.y hr).2 hv
  have hf := fun ppar mu rho0 rho perp => first_zero j pos.x pos.y hX ⟨rfl, rfl, rfl⟩ ⟨rfl, rfl, rfl⟩ ⟨rfl, rfl, rfl⟩ mass charge ppar mu rho0 rho perp
  unfold particle2gc
  dsimp only
  simp only [hf]
  by_cases hn : (geom j pos.x pos.y).bnorm = 0
  · rw [if_pos (Or.inl hn), if_pos (Or.inl hn)]
  have hpos : 0 < (geom j pos.x pos.y).bnorm := lt_of_le_of_ne (by unfold geom; exact Real.sqrt_nonneg _) (Ne.symm hn)
  simp only [hr, and_false, or_false, add_zero, if_true, Bool.false_eq_true, if_false]
  split
  · rfl
  · congr 2
    exact abs_of_nonneg (div_nonneg (dot_nonneg _) (by positivity))

/-- Finding: in the uniform field along x, a particle without any velocity along the field gets a parallel momentum from the
first-order transformation, which takes it for a field with a gradient. -/
theorem uniform_wrong : ∃ j : Jac, j = jacXyz2rpz ⟨⟨1, 0, 0, 0⟩, ⟨0, 0, 0, 0⟩, ⟨0, 0, 0, 0⟩⟩ 1 0 ∧
    (∃ gc, particle2gc false 1 1 j ⟨1, 0, 0⟩ ⟨0, 1, 1⟩ = some gc ∧ gc.ppar = 0) ∧
    (∃ gc, particle2gc true 1 1 j ⟨1, 0, 0⟩ ⟨0, 1, 1⟩ = some gc ∧ gc.ppar ≠ 0) := by
  have hj : jacXyz2rpz ⟨⟨1, 0, 0, 0⟩, ⟨0, 0, 0, 0⟩, ⟨0, 0, 0, 0⟩⟩ 1 0 = ⟨⟨1, 0, 0, 0⟩, ⟨0, 0, -1, 0⟩, ⟨0, 0, 0, 0⟩⟩ := by
    unfold jacXyz2rpz
    simp
  refine ⟨_, rfl, ?_⟩
  rw [hj]
  set j : Jac := ⟨⟨1, 0, 0, 0⟩, ⟨0, 0, -1, 0⟩, ⟨0, 0, 0, 0⟩⟩ with hjd
  have hX : jacRpz2xyz j 1 0 = ⟨⟨1, 0, 0, 0⟩, ⟨0, 0, -2, 0⟩, ⟨0, 0, 0, 0⟩⟩ := by
    rw [← hj, C45.xyz_round_trip_partial _ _ one_ne_zero]
    simp
  have hn : (geom j 1 0).bnorm = 1 := by
    unfold geom; dsimp only [j]; norm_num
  have hb : (geom j 1 0).bhat = ⟨1, 0, 0⟩ := by
    have : (geom j 1 0).bhat = ⟨(jacRpz2xyz j 1 0).a.v / (geom j 1 0).bnorm, (jacRpz2xyz j 1 0).b.v / (geom j 1 0).bnorm, (jacRpz2xyz j 1 0).c.v / (geom j 1 0).bnorm⟩ := rfl
    rw [this, hX, hn]
    simp
  have hpx : vecRpz2xyz ⟨0, 1, 1⟩ 0 = ⟨0, 1, 1⟩ := by unfold vecRpz2xyz; simp
  constructor
  · unfold particle2gc
    dsimp only
    rw [hb, hpx, hn, if_neg (by unfold V3.dot; norm_num), if_neg (by simp)]
    refine ⟨_, rfl, ?_⟩
    simp
  · unfold particle2gc
    dsimp only
    rw [hb, hpx, hn, if_neg (by unfold V3.dot; norm_num), if_pos rfl]
    refine ⟨_, rfl, ?_⟩
    · dsimp only
      have hf : ∀ rho0 : ℝ, ∀ mu rho perp, (first (geom j 1 0) 1 1 0 mu rho0 rho perp).1 = mu * (2 * (rho.y * perp.y)) := by
        intro rho0 mu rho perp
        unfold first a1
        simp only [geom, hX]
        simp [V3.dot, j]
        left
        ring
      simp only [hf, mul_zero, zero_mul, add_zero, mul_one, zero_add, sub_zero, V3.unit, V3.norm, V3.dot, V3.cross]
      norm_num

end Ascot.C78
