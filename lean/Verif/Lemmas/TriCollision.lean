import Verif.Spec.Wall3D
import Mathlib.Tactic.NormNum
import Mathlib.Tactic.Ring
import Mathlib.Tactic.Linarith
import Mathlib.Tactic.FieldSimp
import Mathlib.Tactic.LinearCombination
import Mathlib.Tactic.Positivity

set_option linter.unusedSectionVars false
set_option linter.unusedSimpArgs false

namespace Ascot.Wall3D
variable {K : Type} [Field K] [LinearOrder K] [IsStrictOrderedRing K]

/-- Cramer's rule for the intersection of a line with a plane. -/
theorem cramer (Q tq e f : V3 K) :
    let D := (Q.cross f).dot e
    let n := tq.cross e
    D * tq.x + n.dot f * Q.x = (Q.cross f).dot tq * e.x + Q.dot n * f.x ∧
    D * tq.y + n.dot f * Q.y = (Q.cross f).dot tq * e.y + Q.dot n * f.y ∧
    D * tq.z + n.dot f * Q.z = (Q.cross f).dot tq * e.z + Q.dot n * f.z := by
  dsimp only [V3.cross, V3.dot]
  refine ⟨?_, ?_, ?_⟩ <;> ring

theorem norm_pos {sqrt : K → K} (hs : IsSqrt sqrt) {a : V3 K} (h : a.norm sqrt ≠ 0) : 0 < a.norm sqrt := by
  have := hs (a.x * a.x + a.y * a.y + a.z * a.z) (by nlinarith [mul_self_nonneg a.x, mul_self_nonneg a.y, mul_self_nonneg a.z])
  exact lt_of_le_of_ne this.1 (Ne.symm h)

theorem norm_nonneg {sqrt : K → K} (hs : IsSqrt sqrt) (a : V3 K) : 0 ≤ a.norm sqrt :=
  (hs (a.x * a.x + a.y * a.y + a.z * a.z) (by nlinarith [mul_self_nonneg a.x, mul_self_nonneg a.y, mul_self_nonneg a.z])).1

theorem norm_sq {sqrt : K → K} (hs : IsSqrt sqrt) (a : V3 K) : a.norm sqrt * a.norm sqrt = a.dot a :=
  (hs (a.x * a.x + a.y * a.y + a.z * a.z) (by nlinarith [mul_self_nonneg a.x, mul_self_nonneg a.y, mul_self_nonneg a.z])).2

theorem norm_eq_zero {sqrt : K → K} (hs : IsSqrt sqrt) {a : V3 K} (h : a.norm sqrt = 0) : a.x = 0 ∧ a.y = 0 ∧ a.z = 0 := by
  have h2 := norm_sq hs a
  rw [h] at h2
  unfold V3.dot at h2
  have := mul_self_nonneg a.x
  have := mul_self_nonneg a.y
  have := mul_self_nonneg a.z
  refine ⟨mul_self_eq_zero.1 ?_, mul_self_eq_zero.1 ?_, mul_self_eq_zero.1 ?_⟩ <;> linarith

/-- The last part of the test for a direction `Q` that is not parallel to the triangle. -/
theorem rest_spec (sqrt : K → K) (Q q1 t1 e f : V3 K) (hL : Q.norm sqrt ≠ 0)
    (hD : (Q.cross f).dot e ≠ 0) :
    let r := collisionRest sqrt Q (Q.unit sqrt) ((Q.unit sqrt).cross f) (((Q.unit sqrt).cross f).dot e) q1 t1 e f
    (0 ≤ r → r ≤ 1 ∧ ∃ u v, 0 ≤ u ∧ 0 ≤ v ∧ u + v ≤ 1 ∧ q1.x + r * Q.x = t1.x + u * e.x + v * f.x ∧
      q1.y + r * Q.y = t1.y + u * e.y + v * f.y ∧ q1.z + r * Q.z = t1.z + u * e.z + v * f.z) ∧
    (∀ w u v, 0 ≤ w → w ≤ 1 → 0 ≤ u → 0 ≤ v → u + v ≤ 1 → q1.x + w * Q.x = t1.x + u * e.x + v * f.x →
      q1.y + w * Q.y = t1.y + u * e.y + v * f.y → q1.z + w * Q.z = t1.z + u * e.z + v * f.z → r = w) := by
  intro r
  obtain ⟨L, hLd⟩ : ∃ L, Q.norm sqrt = L := ⟨_, rfl⟩
  rw [hLd] at hL
  obtain ⟨D, hDd⟩ : ∃ D, (Q.cross f).dot e = D := ⟨_, rfl⟩
  rw [hDd] at hD
  have hdet : ((Q.unit sqrt).cross f).dot e = D / L := by
    rw [← hDd]; unfold V3.unit V3.cross V3.dot; rw [hLd]; field_simp
  have hu : ((Q.unit sqrt).cross f).dot (q1.sub t1) / (D / L) = (Q.cross f).dot (q1.sub t1) / D := by
    have : ((Q.unit sqrt).cross f).dot (q1.sub t1) = (Q.cross f).dot (q1.sub t1) / L := by
      unfold V3.unit V3.cross V3.dot; rw [hLd]; field_simp
    rw [this]; field_simp
  have hv : (Q.unit sqrt).dot ((q1.sub t1).cross e) / (D / L) = Q.dot ((q1.sub t1).cross e) / D := by
    have : (Q.unit sqrt).dot ((q1.sub t1).cross e) = Q.dot ((q1.sub t1).cross e) / L := by
      unfold V3.unit V3.dot; rw [hLd]; field_simp
    rw [this]; field_simp
  have hw : (((q1.sub t1).cross e).dot f / (D / L)) / L = ((q1.sub t1).cross e).dot f / D := by field_simp
  have hr : r = if ((Q.cross f).dot (q1.sub t1) / D ≥ 0 ∧ (Q.cross f).dot (q1.sub t1) / D ≤ 1) ∧
      (Q.dot ((q1.sub t1).cross e) / D ≥ 0 ∧
        (Q.cross f).dot (q1.sub t1) / D + Q.dot ((q1.sub t1).cross e) / D ≤ 1) then
      (if ((q1.sub t1).cross e).dot f / D > 1 then -1 else ((q1.sub t1).cross e).dot f / D) else -1 := by
    have hne : D / L ≠ 0 := div_ne_zero hD hL
    show collisionRest sqrt Q (Q.unit sqrt) ((Q.unit sqrt).cross f) (((Q.unit sqrt).cross f).dot e) q1 t1 e f = _
    unfold collisionRest
    rw [hdet, if_neg hne]
    simp only [hu, hv, hLd, hw]
  obtain ⟨c1, c2, c3⟩ := cramer Q (q1.sub t1) e f
  simp only [hDd] at c1 c2 c3
  constructor
  · intro h0
    rw [hr] at h0
    split at h0
    · rename_i hcond
      split at h0
      · exact absurd h0 (by norm_num)
      · rename_i hle
        rw [hr, if_pos hcond, if_neg hle]
        refine ⟨not_lt.1 hle, _, _, hcond.1.1, hcond.2.1, hcond.2.2, ?_, ?_, ?_⟩
        · have : (q1.sub t1).x = q1.x - t1.x := rfl
          rw [this] at c1
          field_simp
          linear_combination c1
        · have : (q1.sub t1).y = q1.y - t1.y := rfl
          rw [this] at c2
          field_simp
          linear_combination c2
        · have : (q1.sub t1).z = q1.z - t1.z := rfl
          rw [this] at c3
          field_simp
          linear_combination c3
    · exact absurd h0 (by norm_num)
  · intro w u v hw0 hw1 hu0 hv0 huv e1 e2 e3
    have hu' : (Q.cross f).dot (q1.sub t1) / D = u := by
      rw [div_eq_iff hD, ← hDd]
      unfold V3.cross V3.dot V3.sub
      dsimp only
      linear_combination (Q.y * f.z - Q.z * f.y) * e1 + (Q.z * f.x - Q.x * f.z) * e2 + (Q.x * f.y - Q.y * f.x) * e3
    have hv' : Q.dot ((q1.sub t1).cross e) / D = v := by
      rw [div_eq_iff hD, ← hDd]
      unfold V3.cross V3.dot V3.sub
      dsimp only
      linear_combination (e.y * Q.z - e.z * Q.y) * e1 + (e.z * Q.x - e.x * Q.z) * e2 + (e.x * Q.y - e.y * Q.x) * e3
    have hw' : ((q1.sub t1).cross e).dot f / D = w := by
      rw [div_eq_iff hD, ← hDd]
      unfold V3.cross V3.dot V3.sub
      dsimp only
      linear_combination (e.y * f.z - e.z * f.y) * e1 + (e.z * f.x - e.x * f.z) * e2 + (e.x * f.y - e.y * f.x) * e3
    rw [hr, hu', hv', hw', if_pos ⟨⟨hu0, by linarith⟩, hv0, huv⟩, if_neg (not_lt.2 hw1)]

theorem det_normal (Q t1 t2 t3 : V3 K) :
    (Q.cross (t3.sub t1)).dot (t2.sub t1) = - Q.dot (normalOf t1 t2 t3) := by
  unfold normalOf V3.cross V3.dot; dsimp only; ring

theorem unit_det {sqrt : K → K} {Q f e : V3 K} :
    ((Q.unit sqrt).cross f).dot e = (Q.cross f).dot e / Q.norm sqrt := by
  unfold V3.cross V3.dot V3.unit; dsimp only; ring

theorem not_small {sqrt : K → K} (hs : IsSqrt sqrt) {eps : K} {q1 q2 t1 t2 t3 : V3 K}
    (h : Transversal sqrt eps q1 q2 t1 t2 t3) :
    ¬ |(((q2.sub q1).unit sqrt).cross (t3.sub t1)).dot (t2.sub t1)| < eps := by
  have hL := norm_pos hs h.2
  rw [unit_det, det_normal, neg_div, abs_neg, abs_div, abs_of_pos hL, not_lt, le_div_iff₀ hL]
  exact h.1

/-- The test for a step that is not parallel to the triangle, in terms of geometry. -/
theorem transversal_spec {sqrt : K → K} (hs : IsSqrt sqrt) {eps : K} (he : 0 < eps) {q1 q2 t1 t2 t3 : V3 K}
    (h : Transversal sqrt eps q1 q2 t1 t2 t3) (ha : eps < (normalOf t1 t2 t3).norm sqrt) :
    (0 ≤ triCollision sqrt eps q1 q2 t1 t2 t3 → triCollision sqrt eps q1 q2 t1 t2 t3 ≤ 1 ∧
      InTri t1 t2 t3 (pointAt q1 q2 (triCollision sqrt eps q1 q2 t1 t2 t3))) ∧
    (∀ w, 0 ≤ w → w ≤ 1 → InTri t1 t2 t3 (pointAt q1 q2 w) → triCollision sqrt eps q1 q2 t1 t2 t3 = w) := by
  have hD : ((q2.sub q1).cross (t3.sub t1)).dot (t2.sub t1) ≠ 0 := by
    rw [det_normal]
    have hL := norm_pos hs h.2
    have := h.1
    have h3 : 0 < |(q2.sub q1).dot (normalOf t1 t2 t3)| := lt_of_lt_of_le (mul_pos he hL) this
    exact neg_ne_zero.2 (abs_pos.1 h3)
  have heq : triCollision sqrt eps q1 q2 t1 t2 t3 =
      collisionRest sqrt (q2.sub q1) ((q2.sub q1).unit sqrt) (((q2.sub q1).unit sqrt).cross (t3.sub t1))
        ((((q2.sub q1).unit sqrt).cross (t3.sub t1)).dot (t2.sub t1)) q1 t1 (t2.sub t1) (t3.sub t1) := by
    unfold triCollision
    dsimp only
    rw [if_neg h.2, if_pos (show ((t2.sub t1).cross (t3.sub t1)).norm sqrt > eps from ha), if_neg (not_small hs h)]
  obtain ⟨r1, r2⟩ := rest_spec sqrt (q2.sub q1) q1 t1 (t2.sub t1) (t3.sub t1) h.2 hD
  rw [← heq] at r1 r2
  constructor
  · intro h0
    obtain ⟨h1, u, v, hu, hv, huv, e1, e2, e3⟩ := r1 h0
    exact ⟨h1, u, v, hu, hv, huv, V3.ext e1 e2 e3⟩
  · rintro w hw0 hw1 ⟨u, v, hu, hv, huv, hp⟩
    have e1 := congrArg V3.x hp
    have e2 := congrArg V3.y hp
    have e3 := congrArg V3.z hp
    exact r2 w u v hw0 hw1 hu hv huv e1 e2 e3

/-- A segment in the plane of the triangle that starts inside it is reported at its start. -/
theorem inplane_spec {sqrt : K → K} (hs : IsSqrt sqrt) {eps : K} (he : 0 < eps) {q1 q2 t1 t2 t3 : V3 K}
    (hL : (q2.sub q1).norm sqrt ≠ 0) (h : (q2.sub q1).dot (normalOf t1 t2 t3) = 0)
    (ha : eps < (normalOf t1 t2 t3).norm sqrt) (hin : InTri t1 t2 t3 q1) :
    triCollision sqrt eps q1 q2 t1 t2 t3 = 0 := by
  obtain ⟨A, hA⟩ : ∃ A, (normalOf t1 t2 t3).norm sqrt = A := ⟨_, rfl⟩
  have hA0 : 0 < A := by rw [← hA]; linarith
  have hAsq : A * A = (normalOf t1 t2 t3).dot (normalOf t1 t2 t3) := by rw [← hA]; exact norm_sq hs _
  obtain ⟨N, hN⟩ : ∃ N, normalOf t1 t2 t3 = N := ⟨_, rfl⟩
  obtain ⟨Q', hQ'⟩ : ∃ Q' : V3 K, Q' = ⟨q2.x - q1.x + 2 * eps * N.x / A, q2.y - q1.y + 2 * eps * N.y / A,
      q2.z - q1.z + 2 * eps * N.z / A⟩ := ⟨_, rfl⟩
  have hQN : Q'.dot N = 2 * eps * A := by
    rw [hN] at h hAsq
    unfold V3.dot V3.sub at h
    unfold V3.dot at hAsq
    rw [hQ']
    unfold V3.dot
    dsimp only at h ⊢
    have : N.x * N.x + N.y * N.y + N.z * N.z = A * A := hAsq.symm
    field_simp
    linear_combination A * h + 2 * eps * this
  have hne : Q'.dot N ≠ 0 := by rw [hQN]; positivity
  have hL' : Q'.norm sqrt ≠ 0 := by
    intro h0
    obtain ⟨hx, hy, hz⟩ := norm_eq_zero hs h0
    apply hne
    unfold V3.dot
    rw [hx, hy, hz]; ring
  have hD : (Q'.cross (t3.sub t1)).dot (t2.sub t1) ≠ 0 := by
    rw [det_normal, hN]; exact neg_ne_zero.2 hne
  have heq : triCollision sqrt eps q1 q2 t1 t2 t3 =
      collisionRest sqrt Q' (Q'.unit sqrt) ((Q'.unit sqrt).cross (t3.sub t1))
        (((Q'.unit sqrt).cross (t3.sub t1)).dot (t2.sub t1)) q1 t1 (t2.sub t1) (t3.sub t1) := by
    unfold triCollision
    dsimp only
    have hdet : (((q2.sub q1).unit sqrt).cross (t3.sub t1)).dot (t2.sub t1) = 0 := by
      rw [unit_det, det_normal, h]; simp
    have hn : (t2.sub t1).cross (t3.sub t1) = N := hN
    rw [hN] at hA
    rw [if_neg hL, hdet, hn, hA, if_pos (show A > eps by rw [← hA, ← hN]; exact ha), if_pos (by simpa using he), ← hQ',
      if_neg hL']
  rw [heq]
  obtain ⟨u, v, hu, hv, huv, hp⟩ := hin
  have e1 := congrArg V3.x hp
  have e2 := congrArg V3.y hp
  have e3 := congrArg V3.z hp
  dsimp only at e1 e2 e3
  exact (rest_spec sqrt Q' q1 t1 (t2.sub t1) (t3.sub t1) hL' hD).2 0 u v le_rfl zero_le_one hu hv huv
    (by unfold V3.sub; dsimp only; linear_combination e1) (by unfold V3.sub; dsimp only; linear_combination e2)
    (by unfold V3.sub; dsimp only; linear_combination e3)

/-- In all cases a reported parameter belongs to a point that is not further than `2*eps` from the
triangle. -/
theorem near_spec {sqrt : K → K} (hs : IsSqrt sqrt) {eps : K} (he : 0 < eps) {q1 q2 t1 t2 t3 : V3 K}
    (h0 : 0 ≤ triCollision sqrt eps q1 q2 t1 t2 t3) :
    triCollision sqrt eps q1 q2 t1 t2 t3 ≤ 1 ∧ ∃ p, InTri t1 t2 t3 p ∧
      (p.sub (pointAt q1 q2 (triCollision sqrt eps q1 q2 t1 t2 t3))).norm sqrt ≤ 2 * eps := by
  by_cases hL : (q2.sub q1).norm sqrt = 0
  · unfold triCollision at h0; dsimp only at h0; rw [if_pos hL] at h0; exact absurd h0 (by norm_num)
  by_cases ha : eps < (normalOf t1 t2 t3).norm sqrt
  swap
  · unfold triCollision at h0; dsimp only at h0
    rw [if_neg hL, if_neg (show ¬ ((t2.sub t1).cross (t3.sub t1)).norm sqrt > eps from ha)] at h0; exact absurd h0 (by norm_num)
  have hLp := norm_pos hs hL
  by_cases ht : eps * (q2.sub q1).norm sqrt ≤ |(q2.sub q1).dot (normalOf t1 t2 t3)|
  · obtain ⟨h1, h2⟩ := (transversal_spec hs he ⟨ht, hL⟩ ha).1 h0
    refine ⟨h1, _, h2, ?_⟩
    have : ∀ p : V3 K, (p.sub p).norm sqrt = 0 := by
      intro p
      have := norm_sq hs (p.sub p)
      have hz : (p.sub p).dot (p.sub p) = 0 := by unfold V3.sub V3.dot; ring
      rw [hz] at this
      exact mul_self_eq_zero.1 this
    rw [this]; positivity
  · have hsm : |(((q2.sub q1).unit sqrt).cross (t3.sub t1)).dot (t2.sub t1)| < eps := by
      rw [unit_det, det_normal, neg_div, abs_neg, abs_div, abs_of_pos hLp, div_lt_iff₀ hLp]
      exact not_le.1 ht
    obtain ⟨N, hN⟩ : ∃ N, (t2.sub t1).cross (t3.sub t1) = N := ⟨_, rfl⟩
    have hN' : normalOf t1 t2 t3 = N := hN
    obtain ⟨A, hA⟩ : ∃ A, N.norm sqrt = A := ⟨_, rfl⟩
    rw [hN', hA] at ha
    have hA0 : 0 < A := by linarith
    have hAsq : A * A = N.dot N := by rw [← hA]; exact norm_sq hs _
    obtain ⟨Q', hQ'⟩ : ∃ Q' : V3 K, Q' = ⟨q2.x - q1.x + 2 * eps * N.x / A, q2.y - q1.y + 2 * eps * N.y / A,
      q2.z - q1.z + 2 * eps * N.z / A⟩ := ⟨_, rfl⟩
    have heq : triCollision sqrt eps q1 q2 t1 t2 t3 = if Q'.norm sqrt = 0 then -1 else
      collisionRest sqrt Q' (Q'.unit sqrt) ((Q'.unit sqrt).cross (t3.sub t1))
        (((Q'.unit sqrt).cross (t3.sub t1)).dot (t2.sub t1)) q1 t1 (t2.sub t1) (t3.sub t1) := by
      unfold triCollision
      dsimp only
      rw [if_neg hL, hN, hA, if_pos (show A > eps from ha), if_pos hsm, ← hQ']
    by_cases hL' : Q'.norm sqrt = 0
    · rw [heq, if_pos hL'] at h0; exact absurd h0 (by norm_num)
    rw [if_neg hL'] at heq
    by_cases hD : (Q'.cross (t3.sub t1)).dot (t2.sub t1) = 0
    · rw [heq] at h0
      unfold collisionRest at h0
      rw [unit_det, hD] at h0
      simp at h0
      exact absurd h0 (by norm_num)
    · obtain ⟨r1, _⟩ := rest_spec sqrt Q' q1 t1 (t2.sub t1) (t3.sub t1) hL' hD
      rw [← heq] at r1
      obtain ⟨h1, u, v, hu, hv, huv, e1, e2, e3⟩ := r1 h0
      refine ⟨h1, _, ⟨u, v, hu, hv, huv, rfl⟩, ?_⟩
      obtain ⟨w, hw⟩ : ∃ w, triCollision sqrt eps q1 q2 t1 t2 t3 = w := ⟨_, rfl⟩
      rw [hw] at h0 h1 e1 e2 e3 ⊢
      rw [hQ'] at e1 e2 e3
      unfold V3.sub at e1 e2 e3
      dsimp only at e1 e2 e3
      obtain ⟨d, hd⟩ : ∃ d : V3 K, d = V3.sub ⟨t1.x + u * (t2.x - t1.x) + v * (t3.x - t1.x),
        t1.y + u * (t2.y - t1.y) + v * (t3.y - t1.y), t1.z + u * (t2.z - t1.z) + v * (t3.z - t1.z)⟩
        (pointAt q1 q2 w) := ⟨_, rfl⟩
      rw [← hd]
      have d1 : d.x = w * (2 * eps * N.x / A) := by rw [hd]; unfold V3.sub pointAt; dsimp only; linear_combination -e1
      have d2 : d.y = w * (2 * eps * N.y / A) := by rw [hd]; unfold V3.sub pointAt; dsimp only; linear_combination -e2
      have d3 : d.z = w * (2 * eps * N.z / A) := by rw [hd]; unfold V3.sub pointAt; dsimp only; linear_combination -e3
      have hsq : d.norm sqrt * d.norm sqrt = (2 * eps * w) * (2 * eps * w) := by
        rw [norm_sq hs]
        unfold V3.dot at hAsq ⊢
        rw [d1, d2, d3]
        field_simp
        linear_combination -w ^ 2 * hAsq
      have hd0 := norm_nonneg hs d
      have h2 : d.norm sqrt = 2 * eps * w := by
        have h3 : 0 ≤ 2 * eps * w := by positivity
        rcases mul_self_eq_mul_self_iff.1 hsq with h | h
        · exact h
        · linarith
      rw [h2]
      nlinarith

end Ascot.Wall3D
