import Verif.Lemmas.Gctransform

/-!
# C47 and C78: guiding-center transformation
-/
set_option linter.unusedSectionVars false
set_option linter.unusedSimpArgs false

namespace Ascot.C47
open Ascot.Coord Ascot.Gctransform

/-- The three components of the field without its derivatives. -/
def fld (j : Jac) : V3 ℝ := ⟨j.a.v, j.b.v, j.c.v⟩

/-- What the zeroth-order transformation returns. -/
theorem zeroth {mass charge : ℝ} {j : Jac} {pos p : V3 ℝ} {gc : Gc} (h : particle2gc false mass charge j pos p = some gc) :
    ∃ b w : V3 ℝ, ∃ zeta : ℝ, b = V3.unit Real.sqrt (vecRpz2xyz (fld j) pos.y) ∧ V3.norm Real.sqrt (vecRpz2xyz (fld j) pos.y) ≠ 0 ∧
      b.x * b.x + b.y * b.y ≠ 0 ∧ V3.dot b b = 1 ∧ V3.dot w w ≠ 0 ∧ V3.dot w b = 0 ∧
      vecRpz2xyz p pos.y = ⟨gc.ppar * b.x + w.x, gc.ppar * b.y + w.y, gc.ppar * b.z + w.z⟩ ∧
      gc.mu = V3.dot w w / (2 * mass * V3.norm Real.sqrt (vecRpz2xyz (fld j) pos.y)) ∧
      gc.zeta = Linint.fmod (2 * Real.pi + zeta) (2 * Real.pi) ∧
      (let s : ℝ := if charge < 0 then -1 else 1
       let perp : V3 ℝ := ⟨s * (V3.unit Real.sqrt w).x, s * (V3.unit Real.sqrt w).y, s * (V3.unit Real.sqrt w).z⟩
       zeta = atan2 (-V3.dot (V3.cross b perp) (basis b).2) (V3.dot (V3.cross b perp) (basis b).1) ∧
       rpz2xyz gc.pos = V3.sub (rpz2xyz pos) ⟨gyrolength mass charge gc.mu (V3.norm Real.sqrt (vecRpz2xyz (fld j) pos.y)) * (V3.cross b perp).x,
         gyrolength mass charge gc.mu (V3.norm Real.sqrt (vecRpz2xyz (fld j) pos.y)) * (V3.cross b perp).y,
         gyrolength mass charge gc.mu (V3.norm Real.sqrt (vecRpz2xyz (fld j) pos.y)) * (V3.cross b perp).z⟩) := by
  unfold particle2gc at h
  dsimp only at h
  split at h
  · cases h
  · rename_i hne
    rw [not_or, not_or, not_or] at hne
    obtain ⟨hB, hw, hq, -⟩ := hne
    rw [if_neg (by simp)] at h
    injection h with h
    have hbn := geom_bnorm j pos.x pos.y
    have hbh := geom_bhat j pos.x pos.y
    rw [hbn] at hB
    have hdot : V3.dot (geom j pos.x pos.y).bhat (geom j pos.x pos.y).bhat = 1 := by
      rw [hbh]
      exact unit_dot (norm_ne hB)
    have hsgn : ∀ v : V3 ℝ, (if charge < 0 then (⟨-v.x, -v.y, -v.z⟩ : V3 ℝ) else v) =
        ⟨(if charge < 0 then -1 else 1 : ℝ) * v.x, (if charge < 0 then -1 else 1 : ℝ) * v.y, (if charge < 0 then -1 else 1 : ℝ) * v.z⟩ := by
      intro v
      split <;> ext <;> simp
    have hz0 := congrArg Gc.zeta h
    dsimp only at hz0
    refine ⟨(geom j pos.x pos.y).bhat, _, _, hbh, hB, hq, hdot, hw, ?_, ?_, ?_, hz0.symm, ?_, ?_⟩
    · unfold V3.dot at hdot ⊢
      dsimp only
      linear_combination -((vecRpz2xyz p pos.y).x * (geom j pos.x pos.y).bhat.x + (vecRpz2xyz p pos.y).y * (geom j pos.x pos.y).bhat.y + (vecRpz2xyz p pos.y).z * (geom j pos.x pos.y).bhat.z) * hdot
    · rw [← h]
      ext <;> dsimp only <;> ring
    · rw [← h, hbn]
      rfl
    · rw [hsgn]
    · rw [← h]
      dsimp only
      rw [xyz_of_rpz, hsgn, hbn]
      rfl

/-- At zeroth order, converting a momentum to parallel momentum, magnetic moment and gyroangle and back gives the same
momentum, for either sign of the charge. -/
theorem momentum_round_trip {mass charge : ℝ} {j : Jac} {pos p : V3 ℝ} {gc : Gc} (hm : 0 < mass)
    (h : particle2gc false mass charge j pos p = some gc) :
    momentum mass charge (fld j) pos.y gc.ppar gc.mu gc.zeta = some p := by
  obtain ⟨b, w, zeta, hb, hB, hq, hbb, hw, hwb, hp, hmu, hz, hzeta, -⟩ := zeroth h
  set sg : ℝ := if charge < 0 then -1 else 1 with hsg
  have hsg2 : sg * sg = 1 := by rw [hsg]; split <;> norm_num
  have hww := unit_dot hw
  have hwu := scale_unit hw
  have hs0 : Real.sqrt (V3.dot w w) ≠ 0 := Real.sqrt_ne_zero'.2 (lt_of_le_of_ne (dot_nonneg w) hw.symm)
  have hub : V3.dot (V3.unit Real.sqrt w) b = 0 := by
    have hx : w.x = _ := congrArg V3.x hwu
    have hy : w.y = _ := congrArg V3.y hwu
    have hz : w.z = _ := congrArg V3.z hwu
    dsimp only at hx hy hz
    unfold V3.dot at hwb
    rw [hx, hy, hz] at hwb
    apply mul_left_cancel₀ hs0
    unfold V3.dot at hwb ⊢
    linear_combination hwb
  have hgy := gyro (perp := ⟨sg * (V3.unit Real.sqrt w).x, sg * (V3.unit Real.sqrt w).y, sg * (V3.unit Real.sqrt w).z⟩) hbb hq
    (by unfold V3.dot at hww ⊢; dsimp only; linear_combination sg * sg * hww + hsg2)
    (by unfold V3.dot at hub ⊢; dsimp only; linear_combination sg * hub)
  dsimp only at hgy
  rw [← hzeta] at hgy
  obtain ⟨-, hperp⟩ := hgy
  have hn : 0 < V3.norm Real.sqrt (vecRpz2xyz (fld j) pos.y) := lt_of_le_of_ne (Real.sqrt_nonneg _) (Ne.symm hB)
  have hpp : Real.sqrt (2 * mass * V3.norm Real.sqrt (vecRpz2xyz (fld j) pos.y) * gc.mu) = Real.sqrt (V3.dot w w) := by
    rw [hmu]
    congr 1
    field_simp
  unfold momentum
  dsimp only
  rw [← hb, if_neg (by rw [not_or]; exact ⟨hB, hq⟩), hpp, hz, cos_fmod, sin_fmod]
  congr 1
  have hpx := congrArg V3.x hperp
  have hpy := congrArg V3.y hperp
  have hpz := congrArg V3.z hperp
  dsimp only at hpx hpy hpz
  rw [← hpx, ← hpy, ← hpz]
  have hfin : (if charge < 0 then -Real.sqrt (V3.dot w w) else Real.sqrt (V3.dot w w)) = sg * Real.sqrt (V3.dot w w) := by
    rw [hsg]; split <;> ring
  rw [hfin]
  have hx : w.x = _ := congrArg V3.x hwu
  have hy : w.y = _ := congrArg V3.y hwu
  have hzz : w.z = _ := congrArg V3.z hwu
  dsimp only at hx hy hzz
  have e : (⟨gc.ppar * b.x + sg * Real.sqrt (V3.dot w w) * (sg * (V3.unit Real.sqrt w).x),
      gc.ppar * b.y + sg * Real.sqrt (V3.dot w w) * (sg * (V3.unit Real.sqrt w).y),
      gc.ppar * b.z + sg * Real.sqrt (V3.dot w w) * (sg * (V3.unit Real.sqrt w).z)⟩ : V3 ℝ) = vecRpz2xyz p pos.y := by
    rw [hp]
    ext
    · dsimp only
      linear_combination -hx + Real.sqrt (V3.dot w w) * (V3.unit Real.sqrt w).x * hsg2
    · dsimp only
      linear_combination -hy + Real.sqrt (V3.dot w w) * (V3.unit Real.sqrt w).y * hsg2
    · dsimp only
      linear_combination -hzz + Real.sqrt (V3.dot w w) * (V3.unit Real.sqrt w).z * hsg2
  rw [e, vec_back]

/-- Position at zeroth order: from the particle to the guiding center and back, when the magnetic field (as a Cartesian
vector) is the same at the two places. -/
theorem position_round_trip {mass charge : ℝ} {j j' : Jac} {pos p : V3 ℝ} {gc q : Gc}
    (h : particle2gc false mass charge j pos p = some gc) (h' : gc2particle false mass charge j' gc = some q)
    (hB : vecRpz2xyz (fld j') gc.pos.y = vecRpz2xyz (fld j) pos.y) :
    rpz2xyz q.pos = rpz2xyz pos ∧ q.ppar = gc.ppar ∧ q.mu = gc.mu ∧ q.zeta = gc.zeta := by
  obtain ⟨b, w, zeta, hb, hBn, hq, hbb, hw, hwb, hp, hmu, hz, hzeta, hpos⟩ := zeroth h
  set sg : ℝ := if charge < 0 then -1 else 1 with hsg
  have hsg2 : sg * sg = 1 := by rw [hsg]; split <;> norm_num
  have hww := unit_dot hw
  have hwu := scale_unit hw
  have hs0 : Real.sqrt (V3.dot w w) ≠ 0 := Real.sqrt_ne_zero'.2 (lt_of_le_of_ne (dot_nonneg w) hw.symm)
  have hub : V3.dot (V3.unit Real.sqrt w) b = 0 := by
    have hx : w.x = _ := congrArg V3.x hwu
    have hy : w.y = _ := congrArg V3.y hwu
    have hz : w.z = _ := congrArg V3.z hwu
    dsimp only at hx hy hz
    unfold V3.dot at hwb
    rw [hx, hy, hz] at hwb
    apply mul_left_cancel₀ hs0
    unfold V3.dot at hwb ⊢
    linear_combination hwb
  have hgy := gyro (perp := ⟨sg * (V3.unit Real.sqrt w).x, sg * (V3.unit Real.sqrt w).y, sg * (V3.unit Real.sqrt w).z⟩) hbb hq
    (by unfold V3.dot at hww ⊢; dsimp only; linear_combination sg * sg * hww + hsg2)
    (by unfold V3.dot at hub ⊢; dsimp only; linear_combination sg * hub)
  dsimp only at hgy
  rw [← hzeta] at hgy
  obtain ⟨hrho, -⟩ := hgy
  unfold gc2particle at h'
  dsimp only at h'
  split at h'
  · cases h'
  · injection h' with h'
    have e1 := geom_bnorm j' gc.pos.x gc.pos.y
    have e2 := geom_bhat j' gc.pos.x gc.pos.y
    have e3 : (⟨j'.a.v, j'.b.v, j'.c.v⟩ : V3 ℝ) = fld j' := rfl
    rw [e3, hB] at e1 e2
    rw [← hb] at e2
    rw [e1, e2] at h'
    rw [← h']
    refine ⟨?_, rfl, rfl, rfl⟩
    dsimp only
    rw [xyz_of_rpz, if_neg (by simp), hz, cos_fmod, sin_fmod]
    have hrx := congrArg V3.x hrho
    have hry := congrArg V3.y hrho
    have hrz := congrArg V3.z hrho
    dsimp only at hrx hry hrz
    rw [← hrx, ← hry, ← hrz, hpos]
    unfold V3.sub
    ext <;> dsimp only <;> ring

/-- The guiding center lies at the center of the gyration: the particle is displaced from it by `B × p / (q B²)`. -/
theorem guiding_center {mass charge : ℝ} {j : Jac} {pos p : V3 ℝ} {gc : Gc} (hm : 0 < mass) (hq : charge ≠ 0)
    (h : particle2gc false mass charge j pos p = some gc) :
    let B := vecRpz2xyz (fld j) pos.y
    let P := vecRpz2xyz p pos.y
    V3.sub (rpz2xyz pos) (rpz2xyz gc.pos) = ⟨(V3.cross B P).x / (charge * V3.dot B B), (V3.cross B P).y / (charge * V3.dot B B),
      (V3.cross B P).z / (charge * V3.dot B B)⟩ := by
  intro B P
  obtain ⟨b, w, zeta, hb, hBn, -, hbb, hw, hwb, hp, hmu, -, -, hpos⟩ := zeroth h
  have hn : 0 < V3.norm Real.sqrt B := lt_of_le_of_ne (Real.sqrt_nonneg _) (Ne.symm hBn)
  have hwp : 0 < V3.dot w w := lt_of_le_of_ne (dot_nonneg w) hw.symm
  have hs : 0 < Real.sqrt (V3.dot w w) := Real.sqrt_pos.2 hwp
  have hlen : gyrolength mass charge gc.mu (V3.norm Real.sqrt B) = Real.sqrt (V3.dot w w) / (V3.norm Real.sqrt B * |charge|) := by
    unfold gyrolength
    rw [if_pos hq, hmu]
    have : 2 * mass * (V3.dot w w / (2 * mass * V3.norm Real.sqrt B)) / V3.norm Real.sqrt B = V3.dot w w / (V3.norm Real.sqrt B * V3.norm Real.sqrt B) := by
      field_simp
    rw [show (vecRpz2xyz (fld j) pos.y) = B from rfl, this, Real.sqrt_div hwp.le, Real.sqrt_mul_self hn.le, div_div]
  have hsg : (if charge < 0 then -1 else 1 : ℝ) / |charge| = 1 / charge := by
    split
    · rename_i hc
      rw [abs_of_neg hc]
      field_simp
    · rename_i hc
      rw [abs_of_pos (lt_of_le_of_ne (not_lt.1 hc) hq.symm)]
  have hbB : b = ⟨B.x / V3.norm Real.sqrt B, B.y / V3.norm Real.sqrt B, B.z / V3.norm Real.sqrt B⟩ := hb
  have hBB : V3.dot B B = V3.norm Real.sqrt B * V3.norm Real.sqrt B := (Real.mul_self_sqrt (dot_nonneg B)).symm
  have hu : V3.unit Real.sqrt w = ⟨w.x / Real.sqrt (V3.dot w w), w.y / Real.sqrt (V3.dot w w), w.z / Real.sqrt (V3.dot w w)⟩ := rfl
  rw [hpos, show P = _ from hp, hu, show (vecRpz2xyz (fld j) pos.y) = B from rfl, hlen, hBB, hbB]
  generalize V3.norm Real.sqrt B = n at hn
  generalize Real.sqrt (V3.dot w w) = m at hs
  have hc0 : |charge| ≠ 0 := abs_ne_zero.2 hq
  generalize (if charge < 0 then -1 else 1 : ℝ) = sg at hsg
  have hsg' : sg = |charge| / charge := by
    field_simp at hsg ⊢
    linarith
  rw [hsg']
  unfold V3.sub V3.cross
  ext <;> dsimp only <;> field_simp <;> ring

/-- The zeroth-order transformation is defined exactly when the field is not vertical (or zero) and the momentum is not
parallel to the field. -/
theorem defined_iff (mass charge : ℝ) (j : Jac) (pos p : V3 ℝ) :
    (∃ gc, particle2gc false mass charge j pos p = some gc) ↔
      (¬ (j.a.v = 0 ∧ j.b.v = 0) ∧ V3.cross p (fld j) ≠ ⟨0, 0, 0⟩) := by
  have hbn := geom_bnorm j pos.x pos.y
  have hbh := geom_bhat j pos.x pos.y
  set B := vecRpz2xyz (fld j) pos.y with hBdef
  have hBdef' : B = vecRpz2xyz ⟨j.a.v, j.b.v, j.c.v⟩ pos.y := rfl
  rw [← hBdef'] at hbn hbh
  have hBxy : B.x * B.x + B.y * B.y = j.a.v * j.a.v + j.b.v * j.b.v := by
    rw [hBdef]
    unfold vecRpz2xyz fld
    dsimp only
    linear_combination (j.a.v * j.a.v + j.b.v * j.b.v) * sc pos.y
  have hnn : (geom j pos.x pos.y).bnorm * (geom j pos.x pos.y).bnorm = V3.dot B B := by
    rw [hbn]
    exact Real.mul_self_sqrt (dot_nonneg B)
  have hcomp : (geom j pos.x pos.y).bhat = ⟨B.x / (geom j pos.x pos.y).bnorm, B.y / (geom j pos.x pos.y).bnorm, B.z / (geom j pos.x pos.y).bnorm⟩ := by
    rw [hbh, hbn]
    rfl
  have hzero : (j.a.v = 0 ∧ j.b.v = 0) ↔ j.a.v * j.a.v + j.b.v * j.b.v = 0 := by
    constructor
    · rintro ⟨h1, h2⟩
      rw [h1, h2]
      simp
    · intro h
      exact ⟨mul_self_eq_zero.1 (by nlinarith [mul_self_nonneg j.a.v, mul_self_nonneg j.b.v]),
        mul_self_eq_zero.1 (by nlinarith [mul_self_nonneg j.a.v, mul_self_nonneg j.b.v])⟩
  set P := vecRpz2xyz p pos.y with hP
  have hcross : V3.dot (V3.cross p (fld j)) (V3.cross p (fld j)) = V3.dot P P * V3.dot B B - V3.dot P B * V3.dot P B := by
    have d1 : V3.dot P P = V3.dot p p := by
      rw [hP]; unfold vecRpz2xyz V3.dot; dsimp only; linear_combination (p.x * p.x + p.y * p.y) * sc pos.y
    have d2 : V3.dot B B = V3.dot (fld j) (fld j) := by
      rw [hBdef]; unfold vecRpz2xyz V3.dot; dsimp only
      linear_combination ((fld j).x * (fld j).x + (fld j).y * (fld j).y) * sc pos.y
    have d3 : V3.dot P B = V3.dot p (fld j) := by
      rw [hBdef, hP]; unfold vecRpz2xyz V3.dot; dsimp only
      linear_combination (p.x * (fld j).x + p.y * (fld j).y) * sc pos.y
    rw [d1, d2, d3]
    unfold V3.cross V3.dot
    dsimp only
    ring
  have hcz : V3.cross p (fld j) = ⟨0, 0, 0⟩ ↔ V3.dot (V3.cross p (fld j)) (V3.cross p (fld j)) = 0 := by
    constructor
    · intro h
      rw [h]
      unfold V3.dot
      simp
    · intro h
      generalize V3.cross p (fld j) = v at h
      unfold V3.dot at h
      ext
      · exact mul_self_eq_zero.1 (by nlinarith [mul_self_nonneg v.x, mul_self_nonneg v.y, mul_self_nonneg v.z])
      · exact mul_self_eq_zero.1 (by nlinarith [mul_self_nonneg v.x, mul_self_nonneg v.y, mul_self_nonneg v.z])
      · exact mul_self_eq_zero.1 (by nlinarith [mul_self_nonneg v.x, mul_self_nonneg v.y, mul_self_nonneg v.z])
  have hperp : (geom j pos.x pos.y).bnorm ≠ 0 → ∀ w : V3 ℝ, ∀ a : ℝ, a = P.x * (geom j pos.x pos.y).bhat.x + P.y * (geom j pos.x pos.y).bhat.y + P.z * (geom j pos.x pos.y).bhat.z →
      w = ⟨P.x - a * (geom j pos.x pos.y).bhat.x, P.y - a * (geom j pos.x pos.y).bhat.y, P.z - a * (geom j pos.x pos.y).bhat.z⟩ →
      V3.dot w w * V3.dot B B = V3.dot (V3.cross p (fld j)) (V3.cross p (fld j)) := by
    intro hn w a ha hw
    rw [hw, hcross, ha, hcomp]
    generalize (geom j pos.x pos.y).bnorm = n at hn hnn
    unfold V3.dot at hnn ⊢
    dsimp only
    rw [← hnn]
    have hnn' : B.z * B.z = n * n - B.x * B.x - B.y * B.y := by linarith
    field_simp
    linear_combination (P.x * B.x + P.y * B.y + P.z * B.z) ^ 2 * hnn'
  unfold particle2gc
  dsimp only
  rw [← hP]
  have key : ((geom j pos.x pos.y).bnorm = 0 ∨ V3.dot (⟨P.x - (P.x * (geom j pos.x pos.y).bhat.x + P.y * (geom j pos.x pos.y).bhat.y + P.z * (geom j pos.x pos.y).bhat.z) * (geom j pos.x pos.y).bhat.x,
        P.y - (P.x * (geom j pos.x pos.y).bhat.x + P.y * (geom j pos.x pos.y).bhat.y + P.z * (geom j pos.x pos.y).bhat.z) * (geom j pos.x pos.y).bhat.y,
        P.z - (P.x * (geom j pos.x pos.y).bhat.x + P.y * (geom j pos.x pos.y).bhat.y + P.z * (geom j pos.x pos.y).bhat.z) * (geom j pos.x pos.y).bhat.z⟩ : V3 ℝ)
        (⟨P.x - (P.x * (geom j pos.x pos.y).bhat.x + P.y * (geom j pos.x pos.y).bhat.y + P.z * (geom j pos.x pos.y).bhat.z) * (geom j pos.x pos.y).bhat.x,
        P.y - (P.x * (geom j pos.x pos.y).bhat.x + P.y * (geom j pos.x pos.y).bhat.y + P.z * (geom j pos.x pos.y).bhat.z) * (geom j pos.x pos.y).bhat.y,
        P.z - (P.x * (geom j pos.x pos.y).bhat.x + P.y * (geom j pos.x pos.y).bhat.y + P.z * (geom j pos.x pos.y).bhat.z) * (geom j pos.x pos.y).bhat.z⟩ : V3 ℝ) = 0 ∨
      (geom j pos.x pos.y).bhat.x * (geom j pos.x pos.y).bhat.x + (geom j pos.x pos.y).bhat.y * (geom j pos.x pos.y).bhat.y = 0 ∨
      (false = true ∧ pos.x = 0)) ↔ ((j.a.v = 0 ∧ j.b.v = 0) ∨ V3.cross p (fld j) = ⟨0, 0, 0⟩) := by
    by_cases hn : (geom j pos.x pos.y).bnorm = 0
    · refine iff_of_true (Or.inl hn) (Or.inl (hzero.2 ?_))
      rw [hn, zero_mul] at hnn
      rw [← hBxy]
      unfold V3.dot at hnn
      nlinarith [mul_self_nonneg B.x, mul_self_nonneg B.y, mul_self_nonneg B.z]
    · have hpe := hperp hn _ _ rfl rfl
      have hBB : V3.dot B B ≠ 0 := by rw [← hnn]; exact mul_self_ne_zero.2 hn
      have hxy : (geom j pos.x pos.y).bhat.x * (geom j pos.x pos.y).bhat.x + (geom j pos.x pos.y).bhat.y * (geom j pos.x pos.y).bhat.y = 0 ↔ j.a.v * j.a.v + j.b.v * j.b.v = 0 := by
        rw [← hBxy, hcomp]
        dsimp only
        have : B.x / (geom j pos.x pos.y).bnorm * (B.x / (geom j pos.x pos.y).bnorm) + B.y / (geom j pos.x pos.y).bnorm * (B.y / (geom j pos.x pos.y).bnorm) = (B.x * B.x + B.y * B.y) / ((geom j pos.x pos.y).bnorm * (geom j pos.x pos.y).bnorm) := by
          field_simp
        rw [this, div_eq_zero_iff]
        constructor
        · rintro (h | h)
          · exact h
          · exact absurd h (mul_self_ne_zero.2 hn)
        · exact Or.inl
      rw [hxy, hzero, hcz, ← hpe, mul_eq_zero]
      constructor
      · rintro (h | h | h | ⟨h, -⟩)
        · exact absurd h hn
        · exact Or.inr (Or.inl h)
        · exact Or.inl h
        · cases h
      · rintro (h | h | h)
        · exact Or.inr (Or.inr (Or.inl h))
        · exact Or.inr (Or.inl h)
        · exact absurd h hBB
  constructor
  · rintro ⟨gc, h⟩
    split at h
    · cases h
    · rename_i hne
      exact not_or.1 (fun hh => hne (key.2 hh))
  · rintro ⟨h1, h2⟩
    rw [if_neg (fun hh => (key.1 hh).elim h1 h2), if_neg (by simp)]
    exact ⟨_, rfl⟩

/-- A case in which the transformation is defined. -/
example : ∃ gc, particle2gc false 1 (-1) ⟨⟨0, 0, 0, 0⟩, ⟨1, 0, 0, 0⟩, ⟨0, 0, 0, 0⟩⟩ ⟨2, 0, 0⟩ ⟨1, 1, 0⟩ = some gc ∧
    momentum 1 (-1) ⟨0, 1, 0⟩ 0 gc.ppar gc.mu gc.zeta = some ⟨1, 1, 0⟩ := by
  obtain ⟨gc, h⟩ := (defined_iff 1 (-1) ⟨⟨0, 0, 0, 0⟩, ⟨1, 0, 0, 0⟩, ⟨0, 0, 0, 0⟩⟩ ⟨2, 0, 0⟩ ⟨1, 1, 0⟩).2
    ⟨fun h => one_ne_zero h.2, by
      unfold V3.cross fld
      intro h
      have := congrArg V3.z h
      norm_num at this⟩
  exact ⟨gc, h, momentum_round_trip one_pos h⟩

end Ascot.C47
