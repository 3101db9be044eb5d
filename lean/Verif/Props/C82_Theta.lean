import Mathlib.Analysis.SpecialFunctions.Complex.Arg
import Mathlib.Tactic.NormNum
import Mathlib.Tactic.Ring
import Mathlib.Tactic.Linarith
import Mathlib.Tactic.FieldSimp
import Mathlib.Tactic.Positivity
import Mathlib.Tactic.LinearCombination
import Verif.Model.GcStep
import Verif.Model.MlStep
import Verif.Model.Vpa
import Verif.Props.C81_Step

/-!
# C82: the poloidal angle points from the magnetic axis to the marker
-/
set_option linter.unusedSectionVars false
set_option linter.unusedSimpArgs false

namespace Ascot.C82
open Ascot.Coord

/-- The angle `th` is the direction from the point `a` to the point `(r, z)`. -/
def Points (th : ℝ) (a : ℝ × ℝ) (r z : ℝ) : Prop := ∃ d > 0, r - a.1 = d * Real.cos th ∧ z - a.2 = d * Real.sin th

/-- The increment of the angle that all integrators compute. -/
noncomputable def turn (a : ℝ × ℝ) (r0 z0 r z : ℝ) : ℝ :=
  atan2 ((r0 - a.1) * (z - a.2) - (z0 - a.2) * (r - a.1)) ((r0 - a.1) * (r - a.1) + (z0 - a.2) * (z - a.2))

/-- It turns the direction to the old position into that to the new one. -/
theorem points_turn {th : ℝ} {a : ℝ × ℝ} {r0 z0 r z : ℝ} (h : Points th a r0 z0) (hne : (r, z) ≠ a) : Points (th + turn a r0 z0 r z) a r z := by
  obtain ⟨d, hd, h1, h2⟩ := h
  unfold turn atan2
  rw [h1, h2]
  set u := r - a.1 with hu
  set v := z - a.2 with hv
  set w : ℂ := ⟨d * Real.cos th * u + d * Real.sin th * v, d * Real.cos th * v - d * Real.sin th * u⟩ with hw
  have hcs := Real.sin_sq_add_cos_sq th
  have huv : 0 < u ^ 2 + v ^ 2 := by
    by_contra hn
    have h3 : u ^ 2 + v ^ 2 = 0 := le_antisymm (not_lt.mp hn) (by positivity)
    have h4 : u = 0 := by nlinarith [sq_nonneg u, sq_nonneg v]
    have h5 : v = 0 := by nlinarith [sq_nonneg u, sq_nonneg v]
    apply hne
    ext
    · show r = a.1; linarith
    · show z = a.2; linarith
  have hnorm : ‖w‖ = d * Real.sqrt (u ^ 2 + v ^ 2) := by
    rw [Complex.norm_eq_sqrt_sq_add_sq]
    have : w.re ^ 2 + w.im ^ 2 = d ^ 2 * (u ^ 2 + v ^ 2) := by
      rw [hw]
      show (d * Real.cos th * u + d * Real.sin th * v) ^ 2 + (d * Real.cos th * v - d * Real.sin th * u) ^ 2 = _
      linear_combination d ^ 2 * (u ^ 2 + v ^ 2) * hcs
    rw [this, Real.sqrt_mul (sq_nonneg d), Real.sqrt_sq hd.le]
  have hs : 0 < Real.sqrt (u ^ 2 + v ^ 2) := Real.sqrt_pos.mpr huv
  have hw0 : w ≠ 0 := by
    intro h0
    rw [h0, norm_zero] at hnorm
    have := mul_pos hd hs
    linarith
  have hc : Real.cos (Complex.arg w) = w.re / ‖w‖ := Complex.cos_arg hw0
  have hsn : Real.sin (Complex.arg w) = w.im / ‖w‖ := Complex.sin_arg w
  have e1 : w.re = d * Real.cos th * u + d * Real.sin th * v := rfl
  have e2 : w.im = d * Real.cos th * v - d * Real.sin th * u := rfl
  refine ⟨Real.sqrt (u ^ 2 + v ^ 2), hs, ?_, ?_⟩
  · rw [Real.cos_add, hc, hsn, hnorm, e1, e2]
    field_simp
    linear_combination -u * hcs
  · rw [Real.sin_add, hc, hsn, hnorm, e1, e2]
    field_simp
    linear_combination -v * hcs

/-- The angle that the input conversions start with (src/particle.c:1468, 1606 and 1689) points from the axis to the marker. -/
theorem initial_points {a : ℝ × ℝ} {r z : ℝ} (hne : (r, z) ≠ a) : Points (atan2 (z - a.2) (r - a.1)) a r z := by
  unfold atan2
  set w : ℂ := ⟨r - a.1, z - a.2⟩ with hw
  have hw0 : w ≠ 0 := by
    intro h0
    have h1 : r - a.1 = 0 := congrArg Complex.re h0
    have h2 : z - a.2 = 0 := congrArg Complex.im h0
    apply hne
    ext
    · show r = a.1; linarith
    · show z = a.2; linarith
  refine ⟨‖w‖, norm_pos_iff.mpr hw0, ?_, ?_⟩
  · rw [Complex.cos_arg hw0]
    field_simp
    rfl
  · rw [Complex.sin_arg]
    have := norm_ne_zero_iff.mpr hw0
    field_simp
    rfl

/-- It is at most half a turn. -/
theorem turn_le (a : ℝ × ℝ) (r0 z0 r z : ℝ) : |turn a r0 z0 r z| ≤ Real.pi := Complex.abs_arg_le_pi _

/-- The part of a guiding-center step that updates the angle. -/
theorem gc_refresh (f : GcStep.Fields) (a : ℝ × ℝ) (ha : ∀ p, f.axis p = (a, 0)) (h : ℝ) (s0 s : GcStep.Gc)
    (hth : s.theta = s0.theta) (hp : Points s0.theta a (s0.y 0) (s0.y 2)) (hne : (s.y 0, s.y 2) ≠ a)
    (he : (GcStep.refresh f h s0 s).2 = 0) (hB : ∀ r p z t e, f.BdB r p z t = .error e → e ≠ 0)
    (hpsi : ∀ r p z t e, f.psi r p z t = .error e → e ≠ 0) (hrho : ∀ x e, f.rho x = .error e → e ≠ 0) :
    let s' := (GcStep.refresh f h s0 s).1
    Points s'.theta a (s'.y 0) (s'.y 2) ∧ |s'.theta - s0.theta| ≤ Real.pi := by
  unfold GcStep.refresh at he ⊢
  split at he
  · next e h1 => exact absurd he (hB _ _ _ _ _ h1)
  · next j h1 =>
    try rw [h1]
    split at he
    · next e h2 => exact absurd he (hpsi _ _ _ _ _ h2)
    · next psi h2 =>
      try dsimp only
      try rw [h2]
      split at he
      · next e h3 => exact absurd he (hrho _ _ h3)
      · next rho h3 =>
        try dsimp only
        try rw [h3]
        simp only [ha, hth]
        refine ⟨points_turn hp hne, ?_⟩
        have := turn_le a (s0.y 0) (s0.y 2) (s.y 0) (s.y 2)
        unfold turn at this
        simpa using this

theorem gc_finish (f : GcStep.Fields) (hf : C81.Codes f) (a : ℝ × ℝ) (ha : ∀ p, f.axis p = (a, 0)) (h : ℝ)
    (s s' : GcStep.Gc) (y : Fin 6 → ℝ) (hp : Points s.theta a (s.y 0) (s.y 2))
    (hs : GcStep.settle (GcStep.finish f h s y).1 (GcStep.finish f h s y).2 = s') (he : s'.running = true) (hne : (s'.y 0, s'.y 2) ≠ a) :
    Points s'.theta a (s'.y 0) (s'.y 2) ∧ |s'.theta - s.theta| ≤ Real.pi := by
  by_cases h0 : (GcStep.finish f h s y).2 = 0
  · rw [GcStep.settle, if_neg (by simpa using h0)] at hs
    have hy : s'.y = (GcStep.place s y).y := by
      rw [← hs]
      unfold GcStep.finish GcStep.refresh
      split
      · rfl
      · split
        · rfl
        · split <;> rfl
    rw [← hs]
    refine gc_refresh f a ha h s (GcStep.place s y) rfl hp ?_ h0 hf.BdB hf.psi hf.rho
    rw [← hy]
    exact hne
  · rw [GcStep.settle, if_pos h0] at hs
    rw [← hs] at he
    cases he

/-- Guiding centers: if the axis does not depend on the toroidal angle, then after every fixed step without error the angle
still points from the axis to the marker, and it changes by at most half a turn. -/
theorem gc_partial (C : GcStep.Consts) (f : GcStep.Fields) (hf : C81.Codes f) (a : ℝ × ℝ) (ha : ∀ p, f.axis p = (a, 0)) (ald h : ℝ)
    (s s' : GcStep.Gc) (hp : Points s.theta a (s.y 0) (s.y 2)) (hr : s.running = true)
    (hs : GcStep.stepRk4 C f ald h s = some s') (he : s'.running = true) (hne : (s'.y 0, s'.y 2) ≠ a) :
    Points s'.theta a (s'.y 0) (s'.y 2) ∧ |s'.theta - s.theta| ≤ Real.pi := by
  unfold GcStep.stepRk4 GcStep.stepOf at hs
  rw [if_pos hr] at hs
  split at hs
  · cases hs
  · next e h1 =>
    have hs := (Option.some.inj hs).symm
    have h0 : e ≠ 0 := by
      rcases C81.rk4_err h1 with h2 | ⟨t, y, h2⟩
      · exact C81.rhsAt_err C f hf ald s _ _ _ e h2
      · exact C81.rhs_err C f hf ald s _ _ e h2
    rw [hs, GcStep.settle, if_pos h0] at he
    cases he
  · next y h1 =>
    split at hs
    · next hc =>
      have hs := (Option.some.inj hs).symm
      rw [hs, GcStep.settle, if_pos hc] at he
      cases he
    · exact gc_finish f hf a ha h s s' y hp (Option.some.inj hs) he hne

/-- The same for the adaptive step, also if it is rejected. -/
theorem gc_adaptive_partial (C : GcStep.Consts) (f : GcStep.Fields) (hf : C81.Codes f) (a : ℝ × ℝ) (ha : ∀ p, f.axis p = (a, 0))
    (ald tol h n0 n : ℝ) (s s' : GcStep.Gc) (hp : Points s.theta a (s.y 0) (s.y 2)) (hr : s.running = true)
    (hs : GcStep.stepCk C f ald tol h n0 s = some (s', n)) (he : s'.running = true) (hne : (s'.y 0, s'.y 2) ≠ a) :
    Points s'.theta a (s'.y 0) (s'.y 2) ∧ |s'.theta - s.theta| ≤ Real.pi := by
  unfold GcStep.stepCk at hs
  rw [if_pos hr] at hs
  split at hs
  · cases hs
  · next e h1 =>
    have h0 : e ≠ 0 := by
      rcases C81.stages_err h1 with h2 | ⟨t, y, h2⟩
      · exact C81.rhsAt_err C f hf ald s _ _ _ e h2
      · exact C81.rhs_err C f hf ald s _ _ e h2
    have hs := (Option.some.inj hs)
    unfold GcStep.settleCk at hs
    rw [GcStep.settle, if_pos h0] at hs
    cases hs
    cases he
  · next k hk =>
    split at hs
    · cases hs
    · next m hm =>
      dsimp only at hs
      split at hs
      · next hc =>
        have hs := Option.some.inj hs
        unfold GcStep.settleCk at hs
        rw [GcStep.settle, if_pos hc] at hs
        cases hs
        cases he
      · have hs := Option.some.inj hs
        unfold GcStep.settleCk at hs
        exact gc_finish f hf a ha h s s' _ hp (Prod.mk.inj hs).1 he hne

/-- The part of a full-orbit step that updates the angle. -/
theorem fo_refresh (f : Vpa.Fields) (a : ℝ × ℝ) (ha : ∀ p, f.axis p = (a, 0)) (h : ℝ) (s0 s : Vpa.Fo)
    (hth : s.theta = s0.theta) (hp : Points s0.theta a s0.r s0.z) (hne : (s.r, s.z) ≠ a)
    (he : (Vpa.refresh f h s0 s).2 = 0) (hB : ∀ r p z t e, f.BdB r p z t = .error e → e ≠ 0)
    (hpsi : ∀ r p z t e, f.psi r p z t = .error e → e ≠ 0) (hrho : ∀ x e, f.rho x = .error e → e ≠ 0) :
    let s' := (Vpa.refresh f h s0 s).1
    Points s'.theta a s'.r s'.z ∧ |s'.theta - s0.theta| ≤ Real.pi := by
  unfold Vpa.refresh at he ⊢
  split at he
  · next e h1 => exact absurd he (hB _ _ _ _ _ h1)
  · next j d h1 =>
    try rw [h1]
    split at he
    · next e h2 => exact absurd he (hpsi _ _ _ _ _ h2)
    · next psi h2 =>
      try dsimp only
      try rw [h2]
      split at he
      · next e h3 => exact absurd he (hrho _ _ h3)
      · next rho h3 =>
        try dsimp only
        try rw [h3]
        simp only [ha, hth]
        refine ⟨points_turn hp hne, ?_⟩
        have := turn_le a s0.r s0.z s.r s.z
        unfold turn at this
        simpa using this

/-- Full orbits: the same for every step without error. -/
theorem fo_partial (c k : ℝ) (junk : Nat → ℝ) (f : Vpa.Fields) (a : ℝ × ℝ) (ha : ∀ p, f.axis p = (a, 0)) (ald h : ℝ) (s s' : Vpa.Fo)
    (hp : Points s.theta a s.r s.z) (hr : s.running = true) (hs : Vpa.step c k junk f ald h s = some s') (he : s'.running = true)
    (hmid : ∀ r p z t e, Vpa.midFields f r p z t = .error e → e ≠ 0) (hB : ∀ r p z t e, f.BdB r p z t = .error e → e ≠ 0)
    (hpsi : ∀ r p z t e, f.psi r p z t = .error e → e ≠ 0) (hrho : ∀ x e, f.rho x = .error e → e ≠ 0) (hne : (s'.r, s'.z) ≠ a) :
    Points s'.theta a s'.r s'.z ∧ |s'.theta - s.theta| ≤ Real.pi := by
  have hrad : ∀ s s1 : Vpa.Fo, Vpa.radiate c k ald s = some s1 → s1.theta = s.theta ∧ s1.r = s.r ∧ s1.z = s.z := by
    intro s s1 h
    unfold Vpa.radiate at h
    dsimp only at h
    split at h
    · cases h
    · cases h
      exact ⟨rfl, rfl, rfl⟩
  unfold Vpa.step at hs
  rw [if_pos hr] at hs
  split at hs
  · next e h1 =>
    have h0 : e ≠ 0 := by
      unfold Vpa.push at h1
      dsimp only at h1
      split at h1
      · next e' h2 => cases h1; exact hmid _ _ _ _ _ h2
      · cases h1
    obtain ⟨s1, -, h3⟩ := Option.map_eq_some_iff.mp hs
    rw [Vpa.settle, if_pos h0] at h3
    rw [← h3] at he
    cases he
  · next s1 h1 =>
    have ht : s1.theta = s.theta := by
      unfold Vpa.push at h1
      dsimp only at h1
      split at h1
      · cases h1
      · cases h1; rfl
    generalize hq : Vpa.refresh f h s s1 = q at hs
    obtain ⟨s2, h2, h3⟩ := Option.map_eq_some_iff.mp hs
    by_cases h0 : q.2 = 0
    · rw [Vpa.settle, if_neg (by simpa using h0)] at h3
      obtain ⟨q1, q2, q3⟩ := hrad _ _ h2
      rw [← h3] at hne ⊢
      rw [q1, q2, q3]
      rw [q2, q3] at hne
      rw [← hq] at hne h0 ⊢
      refine fo_refresh f a ha h s s1 ht hp ?_ h0 hB hpsi hrho
      have : (Vpa.refresh f h s s1).1.r = s1.r ∧ (Vpa.refresh f h s s1).1.z = s1.z := by
        unfold Vpa.refresh
        split
        · exact ⟨rfl, rfl⟩
        · split
          · exact ⟨rfl, rfl⟩
          · split <;> exact ⟨rfl, rfl⟩
      rw [← this.1, ← this.2]
      exact hne
    · rw [Vpa.settle, if_pos h0] at h3
      rw [← h3] at he
      cases he

/-- Field lines. -/
theorem ml_partial (f : MlStep.Fields) (a : ℝ × ℝ) (ha : ∀ p, f.axis p = (a, 0)) (h : ℝ) (s s' : MlStep.Ml) (y : Fin 3 → ℝ)
    (hp : Points s.theta a (s.y 0) (s.y 2)) (hne : (y 0, y 2) ≠ a) (hs : MlStep.store f h s y = some s') :
    Points s'.theta a (s'.y 0) (s'.y 2) ∧ |s'.theta - s.theta| ≤ Real.pi := by
  unfold MlStep.store at hs
  split at hs
  · cases hs
  · split at hs
    · cases hs
    · simp only [ha] at hs
      cases hs
      refine ⟨points_turn hp hne, ?_⟩
      have := turn_le a (s.y 0) (s.y 2) (y 0) (y 2)
      unfold turn at this
      simpa using this

/-- If the axis depends on the toroidal angle this is wrong: both positions are related to the axis at the new angle, so the
angle misses the part due to the motion of the axis. -/
theorem moving_axis_wrong : ∃ (f : GcStep.Fields) (s0 s : GcStep.Gc) (h : ℝ), s.theta = s0.theta ∧
    (GcStep.refresh f h s0 s).2 = 0 ∧
    Points s0.theta (f.axis (s0.y 1)).1 (s0.y 0) (s0.y 2) ∧ (s.y 0, s.y 2) ≠ (f.axis (s.y 1)).1 ∧
    let s' := (GcStep.refresh f h s0 s).1
    ¬Points s'.theta (f.axis (s'.y 1)).1 (s'.y 0) (s'.y 2) := by
  refine ⟨⟨fun _ _ _ _ => .ok ⟨⟨1, 0, 0, 0⟩, ⟨0, 0, 0, 0⟩, ⟨0, 0, 0, 0⟩⟩, fun _ _ _ _ => .ok ⟨0, 0, 0⟩, fun _ _ _ _ => .ok 0, fun _ => .ok 0,
      fun p => ((p, -p), 0), fun _ _ _ _ => .error 1⟩,
    ⟨![1, 0, 0, 0, 0, 0], 0, 1, 1, ⟨⟨1, 0, 0, 0⟩, ⟨0, 0, 0, 0⟩, ⟨0, 0, 0, 0⟩⟩, 0, 0, 0, true⟩,
    ⟨![1, 1, 0, 0, 0, 0], 0, 1, 1, ⟨⟨1, 0, 0, 0⟩, ⟨0, 0, 0, 0⟩, ⟨0, 0, 0, 0⟩⟩, 0, 0, 0, true⟩, 1, rfl, rfl, ?_, ?_, ?_⟩
  · refine ⟨1, by norm_num, ?_, ?_⟩ <;> simp
  · simp
  · intro s'
    rintro ⟨d, hd, h1, h2⟩
    have ht : atan2 0 1 = 0 := by
      unfold atan2
      have : (⟨1, 0⟩ : ℂ) = 1 := rfl
      rw [this, Complex.arg_one]
    simp [s', GcStep.refresh, ht] at h1
    linarith

/-- A marker that meets the hypotheses. -/
example : Points (Real.pi / 2) (1, 0) 1 2 := ⟨2, by norm_num, by simp, by simp⟩

end Ascot.C82
