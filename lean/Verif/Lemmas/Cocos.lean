import Mathlib.Tactic.IntervalCases
import Mathlib.Tactic.FieldSimp
import Mathlib.Tactic.Ring
import Mathlib.Tactic.Linarith
import Mathlib.Tactic.Positivity
import Verif.Spec.Equilibrium

set_option linter.unusedSectionVars false
set_option linter.unusedSimpArgs false

/-! # Lemmas on coordinate conventions -/
namespace Ascot.Cocos

open Equilibrium

theorem cases16 {n : ℤ} (h : IsCocos n) : n = 1 ∨ n = 2 ∨ n = 3 ∨ n = 4 ∨ n = 5 ∨ n = 6 ∨ n = 7 ∨ n = 8 ∨
    n = 11 ∨ n = 12 ∨ n = 13 ∨ n = 14 ∨ n = 15 ∨ n = 16 ∨ n = 17 ∨ n = 18 := by
  unfold IsCocos at h; omega

/-- The table of the code is that of the conventions. -/
theorem cocos_eq {n : ℤ} (h : IsCocos n) : ∃ c, cocos n = some c ∧ (c.sigmaRpZ : ℝ) = sRpZ n ∧
    (c.sigmaBp : ℝ) = sBp n ∧ (c.sigmaRhotp : ℝ) = sRtp n ∧ c.expBp = (if n ≤ 8 then 0 else 1) := by
  rcases cases16 h with h | h | h | h | h | h | h | h | h | h | h | h | h | h | h | h <;> subst h <;>
    exact ⟨_, rfl, by simp [sRpZ], by simp [sBp], by simp [sRtp], rfl⟩

theorem cocos_none {n : ℤ} (h : ¬ IsCocos n) : cocos n = none := by
  unfold IsCocos at h
  unfold cocos
  repeat rw [if_neg (by omega)]

theorem turn_eq {n : ℤ} : turn n = (2 * Real.pi) ^ (if n ≤ 8 then (0 : ℤ) else 1) := by
  unfold turn; split_ifs <;> simp

theorem turn_pos (n : ℤ) : 0 < turn n := by
  unfold turn; split_ifs <;> positivity

theorem sq_sRpZ (n : ℤ) : sRpZ n * sRpZ n = 1 := by unfold sRpZ; split_ifs <;> norm_num
theorem sq_sBp (n : ℤ) : sBp n * sBp n = 1 := by unfold sBp; split_ifs <;> norm_num
theorem sq_sRtp (n : ℤ) : sRtp n * sRtp n = 1 := by unfold sRtp; split_ifs <;> norm_num

theorem ne_of_sq {a : ℝ} (h : a * a = 1) : a ≠ 0 := by rintro rfl; norm_num at h

/-- The factor by which ψ is multiplied. -/
noncomputable def fac (n m : ℤ) : ℝ := sRpZ n * sRpZ m * (sBp n * sBp m) * (turn m / turn n)

theorem fac_ne (n m : ℤ) : fac n m ≠ 0 := by
  unfold fac
  have := ne_of_sq (sq_sRpZ n); have := ne_of_sq (sq_sRpZ m)
  have := ne_of_sq (sq_sBp n); have := ne_of_sq (sq_sBp m)
  have := (turn_pos n).ne'; have := (turn_pos m).ne'
  positivity

theorem transform_eq {n m : ℤ} (hn : IsCocos n) (hm : IsCocos m) {i o : Cocos} (hi : cocos n = some i)
    (ho : cocos m = some o) : transform i o {} =
    { R := 1, Z := 1, PRES := 1, PSI := fac n m, TOR := sRpZ n * sRpZ m,
      PPRIME := 1 / fac n m, FFPRIME := 1 / fac n m, B := sRpZ n * sRpZ m, F := sRpZ n * sRpZ m,
      I := sRpZ n * sRpZ m, J := sRpZ n * sRpZ m, Q := sRtp n * sRtp m } := by
  obtain ⟨c, c0, c1, c2, c3, c4⟩ := cocos_eq hn
  obtain ⟨d, d0, d1, d2, d3, d4⟩ := cocos_eq hm
  rw [hi] at c0; rw [ho] at d0
  cases c0; cases d0
  have t : (2 * Real.pi) ^ (o.expBp - i.expBp) = turn m / turn n := by
    rw [zpow_sub₀ (by positivity), d4, c4, turn_eq, turn_eq]
  have hp : sRpZ n * sRpZ m * (sRpZ n * sRpZ m) = 1 := by
    rw [show sRpZ n * sRpZ m * (sRpZ n * sRpZ m) = (sRpZ n * sRpZ n) * (sRpZ m * sRpZ m) by ring,
      sq_sRpZ, sq_sRpZ, one_mul]
  have hb : sBp n * sBp m * (sBp n * sBp m) = 1 := by
    rw [show sBp n * sBp m * (sBp n * sBp m) = (sBp n * sBp n) * (sBp m * sBp m) by ring,
      sq_sBp, sq_sBp, one_mul]
  have hinv : 1 / fac n m = sRpZ n * sRpZ m * (sBp n * sBp m) / (turn m / turn n) := by
    rw [div_eq_div_iff (fac_ne n m) (div_pos (turn_pos m) (turn_pos n)).ne', one_mul]
    unfold fac
    rw [show sRpZ n * sRpZ m * (sBp n * sBp m) * (sRpZ n * sRpZ m * (sBp n * sBp m) * (turn m / turn n)) =
      (sRpZ n * sRpZ m * (sRpZ n * sRpZ m)) * (sBp n * sBp m * (sBp n * sBp m)) * (turn m / turn n) by ring,
      hp, hb]
    ring
  unfold transform
  dsimp only
  rw [t, hinv]
  push_cast
  rw [c1, c2, c3, d1, d2, d3]
  simp only [div_one, sub_self, zpow_zero, one_pow, mul_one, one_mul, hp]
  rfl

theorem scale_one (l : List ℝ) : scale 1 l = l := by simp [scale]

theorem map_scale {f g : ℝ → ℝ} {c : ℝ} (h : ∀ x, f x = g (x * c)) (l : List ℝ) :
    l.map f = (scale c l).map g := by
  unfold scale
  rw [List.map_map]
  exact List.map_congr_left fun x _ => h x

theorem flux_fac (n m : ℤ) (x : ℝ) : flux n x = flux m (x * fac n m) := by
  unfold flux fac
  have := (turn_pos n).ne'; have := (turn_pos m).ne'
  field_simp
  rw [show sRpZ m ^ 2 = 1 by rw [sq, sq_sRpZ], show sBp m ^ 2 = 1 by rw [sq, sq_sBp]]
  ring

theorem perFlux_fac (n m : ℤ) (x : ℝ) : perFlux n x = perFlux m (x * (1 / fac n m)) := by
  have h1 := fac_ne n m
  have e : sRpZ n * sBp n / turn n = sRpZ m * sBp m / turn m * fac n m := by
    have := flux_fac n m 1
    unfold flux at this
    rw [mul_one, one_mul] at this
    exact this
  unfold perFlux
  rw [e]
  field_simp

theorem ccw_fac (n m : ℤ) (x : ℝ) : ccw n x = ccw m (x * (sRpZ n * sRpZ m)) := by
  unfold ccw
  rw [show sRpZ m * (x * (sRpZ n * sRpZ m)) = (sRpZ m * sRpZ m) * (sRpZ n * x) by ring, sq_sRpZ, one_mul]

theorem safety_fac (n m : ℤ) (x : ℝ) : safety n x = safety m (x * (sRtp n * sRtp m)) := by
  unfold safety
  rw [show sRtp m * (x * (sRtp n * sRtp m)) = (sRtp m * sRtp m) * (sRtp n * x) by ring, sq_sRtp, one_mul]

theorem flux_inj {n : ℤ} : Function.Injective (flux n) := by
  intro x y h
  unfold flux at h
  have : sRpZ n * sBp n / turn n ≠ 0 :=
    div_ne_zero (mul_ne_zero (ne_of_sq (sq_sRpZ n)) (ne_of_sq (sq_sBp n))) (turn_pos n).ne'
  exact mul_left_cancel₀ this h

theorem perFlux_inj {n : ℤ} : Function.Injective (perFlux n) := by
  intro x y h
  unfold perFlux at h
  have : sRpZ n * sBp n / turn n ≠ 0 :=
    div_ne_zero (mul_ne_zero (ne_of_sq (sq_sRpZ n)) (ne_of_sq (sq_sBp n))) (turn_pos n).ne'
  exact (div_left_inj' this).1 h

theorem ccw_inj {n : ℤ} : Function.Injective (ccw n) := fun _ _ h =>
  mul_left_cancel₀ (ne_of_sq (sq_sRpZ n)) h

theorem safety_inj {n : ℤ} : Function.Injective (safety n) := fun _ _ h =>
  mul_left_cancel₀ (ne_of_sq (sq_sRtp n)) h

theorem sgn_pos {x : ℝ} (h : 0 < x) : sgn x = 1 := by unfold sgn; rw [if_pos h]
theorem sgn_neg {x : ℝ} (h : x < 0) : sgn x = -1 := by
  unfold sgn; rw [if_neg (not_lt.2 h.le), if_pos h]

theorem quotPos_eq {x y : ℝ} (h : x * y ≠ 0) : quotPos (sgn x) (sgn y) = decide (0 < x * y) := by
  rcases lt_trichotomy x 0 with hx | rfl | hx
  · rcases lt_trichotomy y 0 with hy | rfl | hy
    · rw [sgn_neg hx, sgn_neg hy, decide_eq_true (mul_pos_of_neg_of_neg hx hy)]; rfl
    · simp at h
    · rw [sgn_neg hx, sgn_pos hy, decide_eq_false (not_lt.2 (mul_neg_of_neg_of_pos hx hy).le)]; rfl
  · simp at h
  · rcases lt_trichotomy y 0 with hy | rfl | hy
    · rw [sgn_pos hx, sgn_neg hy, decide_eq_false (not_lt.2 (mul_neg_of_pos_of_neg hx hy).le)]; rfl
    · simp at h
    · rw [sgn_pos hx, sgn_pos hy, decide_eq_true (mul_pos hx hy)]; rfl

theorem sgn_mul {x y : ℝ} : sgn (x * y) = sgn x * sgn y := by
  rcases lt_trichotomy x 0 with hx | rfl | hx
  · rcases lt_trichotomy y 0 with hy | rfl | hy
    · rw [sgn_neg hx, sgn_neg hy, sgn_pos (mul_pos_of_neg_of_neg hx hy)]; rfl
    · simp [sgn]
    · rw [sgn_neg hx, sgn_pos hy, sgn_neg (mul_neg_of_neg_of_pos hx hy)]; rfl
  · simp [sgn]
  · rcases lt_trichotomy y 0 with hy | rfl | hy
    · rw [sgn_pos hx, sgn_neg hy, sgn_neg (mul_neg_of_pos_of_neg hx hy)]; rfl
    · simp [sgn]
    · rw [sgn_pos hx, sgn_pos hy, sgn_pos (mul_pos hx hy)]; rfl

theorem quotNeg_eq {x y : ℝ} (h : x * y ≠ 0) : quotNeg (sgn x) (sgn y) = decide (x * y < 0) := by
  rcases lt_trichotomy x 0 with hx | rfl | hx
  · rcases lt_trichotomy y 0 with hy | rfl | hy
    · rw [sgn_neg hx, sgn_neg hy, decide_eq_false (not_lt.2 (mul_pos_of_neg_of_neg hx hy).le)]; rfl
    · simp at h
    · rw [sgn_neg hx, sgn_pos hy, decide_eq_true (mul_neg_of_neg_of_pos hx hy)]; rfl
  · simp at h
  · rcases lt_trichotomy y 0 with hy | rfl | hy
    · rw [sgn_pos hx, sgn_neg hy, decide_eq_true (mul_neg_of_pos_of_neg hx hy)]; rfl
    · simp at h
    · rw [sgn_pos hx, sgn_pos hy, decide_eq_false (not_lt.2 (mul_pos hx hy).le)]; rfl

/-- The number is found from three signs. -/
theorem assign_eq {n : ℤ} (hn : IsCocos n) {q ip b0 a b : ℝ} (h1 : 0 < sBp n * ((b - a) * ip))
    (h2 : 0 < sRtp n * (q * (ip * b0))) :
    assign q ip b0 a b (decide (n % 2 = 0)) (decide (n ≤ 8)) = some n := by
  have k1 : (b - a) * ip ≠ 0 := by intro h; rw [h] at h1; simp at h1
  have k2 : q * (ip * b0) ≠ 0 := by intro h; rw [h] at h2; simp at h2
  have p1 : decide (0 < (b - a) * ip) = decide (sBp n = 1) := by
    rw [decide_eq_decide]
    unfold sBp at h1 ⊢
    split_ifs at h1 ⊢ with h
    · simpa using h1
    · constructor
      · intro h'; linarith
      · intro h'; norm_num at h'
  have p2 : decide (q * (ip * b0) < 0) = decide (sRtp n = -1) := by
    rw [decide_eq_decide]
    unfold sRtp at h2 ⊢
    split_ifs at h2 ⊢ with h
    · constructor
      · intro h'; linarith
      · intro h'; norm_num at h'
    · constructor
      · intro h'; rfl
      · intro h'; linarith
  have e1 : decide (sBp n = 1) = decide (n % 10 = 1 ∨ n % 10 = 2 ∨ n % 10 = 5 ∨ n % 10 = 6) := by
    rw [decide_eq_decide]; unfold sBp; split_ifs with h
    · simp [h]
    · simp only [h, iff_false]; norm_num
  have e2 : decide (sRtp n = -1) = !decide (n % 10 = 1 ∨ n % 10 = 2 ∨ n % 10 = 7 ∨ n % 10 = 8) := by
    unfold sRtp; split_ifs with h
    · simp only [h, decide_true, Bool.not_true]; norm_num
    · simp [h]
  unfold assign candidates
  dsimp only
  rw [quotPos_eq k1, ← sgn_mul, quotNeg_eq k2, p1, p2, e1, e2]
  rcases cases16 hn with h | h | h | h | h | h | h | h | h | h | h | h | h | h | h | h <;> subst h <;>
    rfl

end Ascot.Cocos
