import Verif.Model.Spline
import Verif.Spec.Spline
import Mathlib.Algebra.Order.Floor.Ring
import Mathlib.Algebra.Order.AbsoluteValue.Basic
import Mathlib.Algebra.Order.Group.Unbundled.Abs
import Mathlib.Data.Finset.Max
import Mathlib.Tactic.Linarith
import Mathlib.Tactic.FieldSimp
import Mathlib.Tactic.Ring
import Mathlib.Tactic.Positivity
import Mathlib.Tactic.NormNum
import Mathlib.Tactic.LinearCombination

set_option linter.unusedSectionVars false
set_option linter.unusedSimpArgs false

namespace Ascot.Spline
open Ascot.Linint
variable {K : Type} [Field K] [LinearOrder K] [IsStrictOrderedRing K]

theorem sweepP_bounds {p0 : K} (h0 : 0 ≤ p0) (h1 : p0 ≤ 1 / 2) : ∀ i, 0 ≤ sweepP p0 i ∧ sweepP p0 i ≤ 1 / 2
  | 0 => ⟨h0, h1⟩
  | i + 1 => by
    obtain ⟨a, b⟩ := sweepP_bounds h0 h1 i
    have hp : (0 : K) < 4 - sweepP p0 i := by linarith
    refine ⟨(div_pos one_pos hp).le, ?_⟩
    show 1 / (4 - sweepP p0 i) ≤ 1 / 2
    rw [div_le_div_iff₀ hp (by norm_num)]
    linarith

theorem sweepP_third : ∀ i, 0 ≤ sweepP (1 / 4 : K) i ∧ sweepP (1 / 4 : K) i ≤ 1 / 3
  | 0 => ⟨by unfold sweepP; norm_num, by unfold sweepP; norm_num⟩
  | i + 1 => by
    obtain ⟨a, b⟩ := sweepP_third i
    have hp : (0 : K) < 4 - sweepP (1 / 4) i := by linarith
    refine ⟨(div_pos one_pos hp).le, ?_⟩
    show 1 / (4 - sweepP (1 / 4 : K) i) ≤ 1 / 3
    rw [div_le_div_iff₀ hp (by norm_num)]
    linarith

theorem back_step (p y r : Nat → K) (last : K) {n i : Nat} (h : i + 2 ≤ n) :
    back p y r last n (n - 1 - i) = y i - p i * back p y r last n (n - 1 - (i + 1)) - r i * last := by
  have e1 : n - 1 - i = (n - 1 - (i + 1)) + 1 := by omega
  have e2 : n - 2 - (n - 1 - (i + 1)) = i := by omega
  rw [e1]
  show y (n - 2 - (n - 1 - (i + 1))) - _ * back p y r last n (n - 1 - (i + 1)) - _ = _
  rw [e2]

theorem back_last (p y r : Nat → K) (last : K) (n : Nat) : back p y r last n (n - 1 - (n - 1)) = last := by
  rw [Nat.sub_self]; rfl

/-- Interior rows of the tridiagonal systems. -/
theorem tri_row {p0 y0 last : K} {y : Nat → K} {n i : Nat} (h0 : 0 ≤ p0) (h1 : p0 ≤ 1 / 2) (hi : i + 3 ≤ n) :
    back (sweepP p0) (sweepY p0 y0 y) (fun _ => 0) last n (n - 1 - i)
      + 4 * back (sweepP p0) (sweepY p0 y0 y) (fun _ => 0) last n (n - 1 - (i + 1))
      + back (sweepP p0) (sweepY p0 y0 y) (fun _ => 0) last n (n - 1 - (i + 2)) = y (i + 1) := by
  rw [back_step _ _ _ _ (show i + 2 ≤ n by omega), back_step _ _ _ _ (show i + 1 + 2 ≤ n by omega)]
  generalize back (sweepP p0) (sweepY p0 y0 y) (fun _ => 0) last n (n - 1 - (i + 1 + 1)) = X
  have hb := sweepP_bounds h0 h1 i
  show sweepY p0 y0 y i - sweepP p0 i * ((y (i + 1) - sweepY p0 y0 y i) / (4 - sweepP p0 i) - 1 / (4 - sweepP p0 i) * X - 0 * last) - 0 * last
    + 4 * ((y (i + 1) - sweepY p0 y0 y i) / (4 - sweepP p0 i) - 1 / (4 - sweepP p0 i) * X - 0 * last) + X = _
  have hp : (4 : K) - sweepP p0 i ≠ 0 := by
    have : (0 : K) < 4 - sweepP p0 i := by linarith
    exact this.ne'
  field_simp
  ring

/-- The equations that say that `s` are the second derivatives of the spline at unit spacing. -/
structure Rows (n : Nat) (bc : BC) (f s : Nat → K) : Prop where
  ends : bc = .natural → s 0 = 0 ∧ s (n - 1) = 0
  inner : bc = .natural → ∀ i, i + 2 < n → s i + 4 * s (i + 1) + s (i + 2) = 6 * (f (i + 2) - 2 * f (i + 1) + f i)
  cyc : bc = .periodic → ∀ i < n, s i + 4 * s ((i + 1) % n) + s ((i + 2) % n) = 6 * (f ((i + 2) % n) - 2 * f ((i + 1) % n) + f i)

theorem natural_rows {n : Nat} (hn : 2 ≤ n) (f : Nat → K) : Rows n .natural f (naturalComp f n) := by
  refine ⟨fun _ => ⟨?_, ?_⟩, fun _ i hi => ?_, by simp⟩
  · unfold naturalComp
    dsimp only
    rw [back_step _ _ _ _ (show 0 + 2 ≤ n by omega)]
    simp [sweepP, sweepY]
  · exact back_last _ _ _ _ n
  · exact tri_row (y := fun i => 6 * (f (i + 1) - 2 * f i + f (i - 1))) le_rfl (by norm_num) (by omega)

/-! ### The periodic system -/

theorem sweepR_eq (y : Nat → K) (ylast : K) : ∀ k, sweepR k = (sweepLast y ylast k).1 * sweepP (1 / 4 : K) k
  | 0 => by simp [sweepR, sweepLast, sweepP]
  | k + 1 => by
    have := sweepR_eq y ylast k
    show -sweepR k / (4 - sweepP (1 / 4) k) = (-(sweepLast y ylast k).1 * sweepP (1 / 4) k) * (1 / (4 - sweepP (1 / 4) k))
    rw [this]
    ring

theorem sweepLast_bounds (y : Nat → K) (ylast : K) : ∀ k,
    (sweepLast y ylast k).1 ^ 2 ≤ 1 ∧ 29 / 8 + 3 / 8 * (sweepLast y ylast k).1 ^ 2 ≤ (sweepLast y ylast k).2.1
  | 0 => by simp [sweepLast]; norm_num
  | k + 1 => by
    obtain ⟨h1, h2⟩ := sweepLast_bounds y ylast k
    obtain ⟨p0, p1⟩ := sweepP_third (K := K) k
    have hr := sweepR_eq y ylast k
    show (-(sweepLast y ylast k).1 * sweepP (1 / 4) k) ^ 2 ≤ 1 ∧
      29 / 8 + 3 / 8 * (-(sweepLast y ylast k).1 * sweepP (1 / 4) k) ^ 2 ≤ (sweepLast y ylast k).2.1 - (sweepLast y ylast k).1 * sweepR k
    rw [hr]
    generalize (sweepLast y ylast k).1 = l at *
    generalize (sweepLast y ylast k).2.1 = dl at *
    generalize sweepP (1 / 4 : K) k = p at *
    have hl : 0 ≤ l ^ 2 := sq_nonneg l
    have hp2 : p ^ 2 ≤ 1 / 9 := by nlinarith
    have e : (-l * p) ^ 2 = l ^ 2 * p ^ 2 := by ring
    have e' : l * (l * p) = l ^ 2 * p := by ring
    rw [e, e']
    have a1 : l ^ 2 * p ^ 2 ≤ l ^ 2 * (1 / 9) := mul_le_mul_of_nonneg_left hp2 hl
    have a2 : l ^ 2 * p ≤ l ^ 2 * (1 / 3) := mul_le_mul_of_nonneg_left p1 hl
    constructor
    · linarith
    · linarith

theorem sweepR_bounds (k : Nat) : -1 / 3 ≤ sweepR (K := K) k ∧ sweepR (K := K) k ≤ 1 / 3 := by
  have hr := sweepR_eq (K := K) (fun _ => 0) 0 k
  obtain ⟨h1, -⟩ := sweepLast_bounds (K := K) (fun _ => 0) 0 k
  obtain ⟨p0, p1⟩ := sweepP_third (K := K) k
  rw [hr]
  generalize (sweepLast (fun _ => 0) (0 : K) k).1 = l at *
  generalize sweepP (1 / 4 : K) k = p at *
  have l1 : l ≤ 1 := by nlinarith
  have l2 : -1 ≤ l := by nlinarith
  constructor <;> nlinarith

/-- The solution of the periodic system satisfies its equations. -/
theorem cyclic_rows {y : Nat → K} {n : Nat} (hn : 3 ≤ n) :
    (4 * cyclic y n 0 + cyclic y n 1 + cyclic y n (n - 1) = y 0) ∧
    (∀ i, i + 2 < n → cyclic y n i + 4 * cyclic y n (i + 1) + cyclic y n (i + 2) = y (i + 1)) ∧
    (cyclic y n 0 + cyclic y n (n - 2) + 4 * cyclic y n (n - 1) = y (n - 1)) := by
  obtain ⟨l, hl⟩ : ∃ l, (sweepLast y (y (n - 1)) (n - 3)).1 = l := ⟨_, rfl⟩
  obtain ⟨dl, hdl⟩ : ∃ l, (sweepLast y (y (n - 1)) (n - 3)).2.1 = l := ⟨_, rfl⟩
  obtain ⟨yl, hyl⟩ : ∃ l, (sweepLast y (y (n - 1)) (n - 3)).2.2 = l := ⟨_, rfl⟩
  obtain ⟨y2, hy2⟩ : ∃ x, (y (n - 2) - sweepY (1 / 4) (y 0 / 4) y (n - 3)) / (4 - sweepP (1 / 4) (n - 3)) = x := ⟨_, rfl⟩
  obtain ⟨p2, hp2⟩ : ∃ x, (1 - sweepR (n - 3)) / (4 - sweepP (1 / 4 : K) (n - 3)) = x := ⟨_, rfl⟩
  obtain ⟨last, hlast⟩ : ∃ x, (yl - l * sweepY (1 / 4) (y 0 / 4) y (n - 3) - (1 - l * sweepP (1 / 4) (n - 3)) * y2) /
      (dl - l * sweepR (n - 3) - (1 - l * sweepP (1 / 4) (n - 3)) * p2) = x := ⟨_, rfl⟩
  have hD : ∀ i, cyclic y n i = back (fun i => if i = n - 2 then p2 else sweepP (1 / 4) i)
      (fun i => if i = n - 2 then y2 else sweepY (1 / 4) (y 0 / 4) y i) (fun i => if i = n - 2 then 0 else sweepR i) last n (n - 1 - i) := by
    intro i
    unfold cyclic
    dsimp only
    rw [hl, hdl, hyl, hy2, hp2, hlast]
  have Dlast : cyclic y n (n - 1) = last := by rw [hD, back_last]
  have Dpen : cyclic y n (n - 2) = y2 - p2 * last := by
    rw [hD, back_step _ _ _ _ (by omega), show n - 2 + 1 = n - 1 by omega, back_last]
    simp
  have Dstep : ∀ i, i + 2 < n → cyclic y n i = sweepY (1 / 4) (y 0 / 4) y i - sweepP (1 / 4) i * cyclic y n (i + 1) - sweepR i * last := by
    intro i hi
    have hne : ¬ i = n - 2 := by omega
    rw [hD, back_step _ _ _ _ (by omega), ← hD]
    simp only [hne, if_false]
  have pne : ∀ i, (4 : K) - sweepP (1 / 4) i ≠ 0 := by
    intro i
    have := sweepP_third (K := K) i
    have : (0 : K) < 4 - sweepP (1 / 4) i := by linarith
    exact this.ne'
  have hk : n - 3 + 1 = n - 2 := by omega
  -- interior rows
  have hin : ∀ i, i + 2 < n → cyclic y n i + 4 * cyclic y n (i + 1) + cyclic y n (i + 2) = y (i + 1) := by
    intro i hi
    by_cases hc : i + 3 < n
    · rw [Dstep i hi, Dstep (i + 1) (by omega)]
      generalize cyclic y n (i + 1 + 1) = X
      show sweepY (1 / 4) (y 0 / 4) y i - sweepP (1 / 4) i *
          ((y (i + 1) - sweepY (1 / 4) (y 0 / 4) y i) / (4 - sweepP (1 / 4) i) - 1 / (4 - sweepP (1 / 4) i) * X - -sweepR i / (4 - sweepP (1 / 4) i) * last)
          - sweepR i * last
        + 4 * ((y (i + 1) - sweepY (1 / 4) (y 0 / 4) y i) / (4 - sweepP (1 / 4) i) - 1 / (4 - sweepP (1 / 4) i) * X - -sweepR i / (4 - sweepP (1 / 4) i) * last)
        + X = _
      have := pne i
      field_simp
      ring
    · have e : i = n - 3 := by omega
      rw [Dstep i hi, show i + 1 = n - 2 by omega, show i + 2 = n - 1 by omega, Dpen, Dlast, ← hy2, ← hp2, e]
      have := pne (n - 3)
      field_simp
      ring
  refine ⟨?_, hin, ?_⟩
  · have h0 := Dstep 0 (by omega)
    rw [Dlast]
    have e : sweepY (1 / 4 : K) (y 0 / 4) y 0 = y 0 / 4 := rfl
    have e1 : sweepP (1 / 4 : K) 0 = 1 / 4 := rfl
    have e2 : sweepR (K := K) 0 = 1 / 4 := rfl
    rw [e, e1, e2] at h0
    linear_combination 4 * h0
  · -- the last row after k rounds
    have hrow : ∀ k, k ≤ n - 3 → (sweepLast y (y (n - 1)) k).1 * cyclic y n k + (sweepLast y (y (n - 1)) k).2.1 * last + cyclic y n (n - 2) - (sweepLast y (y (n - 1)) k).2.2
        = cyclic y n 0 + 4 * last + cyclic y n (n - 2) - y (n - 1) := by
      intro k
      induction k with
      | zero => intro _; simp [sweepLast]
      | succ k ih =>
        intro hk
        rw [← ih (by omega), Dstep k (by omega)]
        show (-(sweepLast y (y (n - 1)) k).1 * sweepP (1 / 4) k) * _ + ((sweepLast y (y (n - 1)) k).2.1 - (sweepLast y (y (n - 1)) k).1 * sweepR k) * last + _
          - ((sweepLast y (y (n - 1)) k).2.2 - (sweepLast y (y (n - 1)) k).1 * sweepY (1 / 4) (y 0 / 4) y k) = _
        ring
    have h := hrow (n - 3) le_rfl
    rw [hl, hdl, hyl, Dstep (n - 3) (by omega), hk, Dpen] at h
    rw [Dlast, Dpen]
    have hden : dl - l * sweepR (n - 3) - (1 - l * sweepP (1 / 4) (n - 3)) * p2 ≠ 0 := by
      obtain ⟨l1, l2⟩ := sweepLast_bounds y (y (n - 1)) (n - 3)
      obtain ⟨r1, r2⟩ := sweepR_bounds (K := K) (n - 3)
      obtain ⟨p0, p1⟩ := sweepP_third (K := K) (n - 3)
      have hr := sweepR_eq y (y (n - 1)) (n - 3)
      rw [hl] at hr l1 l2
      rw [hdl] at l2
      rw [← hr, ← hp2]
      have hlr : l * sweepR (n - 3) ≤ 1 / 3 := by
        rw [hr, show l * (l * sweepP (1 / 4) (n - 3)) = l ^ 2 * sweepP (1 / 4 : K) (n - 3) by ring]
        nlinarith [sq_nonneg l]
      have hq : (1 - sweepR (n - 3)) * ((1 - sweepR (n - 3)) / (4 - sweepP (1 / 4 : K) (n - 3))) ≤ 1 := by
        rw [← mul_div_assoc, div_le_one (by linarith)]
        nlinarith
      have : (0 : K) < dl - l * sweepR (n - 3) - (1 - sweepR (n - 3)) * ((1 - sweepR (n - 3)) / (4 - sweepP (1 / 4 : K) (n - 3))) := by
        nlinarith [sq_nonneg l]
      exact this.ne'
    rw [div_eq_iff hden] at hlast
    linear_combination -h - hlast

theorem next_mod {n i : Nat} (hi : i < n) : (i + 1) % n = if i + 1 = n then 0 else i + 1 := by
  split
  · rename_i h; rw [h, Nat.mod_self]
  · exact Nat.mod_eq_of_lt (by omega)

theorem next2_mod {n i : Nat} (hn : 3 ≤ n) (hi : i < n) : (i + 2) % n = if i + 2 = n then 0 else if i + 1 = n then 1 else i + 2 := by
  split
  · rename_i h; rw [h, Nat.mod_self]
  · split
    · rename_i h
      rw [show i + 2 = 1 + n by omega, Nat.add_mod_right, Nat.mod_eq_of_lt (by omega)]
    · exact Nat.mod_eq_of_lt (by omega)

theorem cyclic_rows' {y : Nat → K} {n : Nat} (hn : 3 ≤ n) {i : Nat} (hi : i < n) :
    cyclic y n i + 4 * cyclic y n ((i + 1) % n) + cyclic y n ((i + 2) % n) = y ((i + 1) % n) := by
  obtain ⟨h0, hin, hl⟩ := cyclic_rows (y := y) hn
  rw [next_mod hi, next2_mod hn hi]
  by_cases h1 : i + 1 = n
  · have e : i = n - 1 := by omega
    rw [if_pos h1, if_neg (by omega), if_pos h1, e]
    linear_combination h0
  · rw [if_neg h1, if_neg h1]
    by_cases h2 : i + 2 = n
    · rw [if_pos h2, show i = n - 2 by omega, show n - 2 + 1 = n - 1 by omega]
      linear_combination hl
    · rw [if_neg h2]
      exact hin i (by omega)

theorem rhsComp_eq {f : Nat → K} {n i : Nat} (hn : 3 ≤ n) (hi : i < n) :
    rhsComp f n ((i + 1) % n) = 6 * (f ((i + 2) % n) - 2 * f ((i + 1) % n) + f i) := by
  rw [next_mod hi, next2_mod hn hi]
  unfold rhsComp
  by_cases h1 : i + 1 = n
  · simp only [if_pos h1, if_neg (show ¬ i + 2 = n by omega), if_true, show n - 1 = i by omega]
  · by_cases h2 : i + 2 = n
    · simp only [if_neg h1, if_pos h2, if_neg (show ¬ i + 1 = 0 by omega), if_pos (show i + 1 = n - 1 by omega), show n - 2 = i by omega,
        show n - 1 = i + 1 by omega, if_true]
    · simp only [if_neg h1, if_neg h2, if_neg (show ¬ i + 1 = 0 by omega), if_neg (show ¬ i + 1 = n - 1 by omega), Nat.add_sub_cancel]

theorem rhsExpl_eq {f : Nat → K} {n i : Nat} (hn : 3 ≤ n) (hi : i < n) :
    rhsExpl f n ((i + 1) % n) = 3 * (f ((i + 2) % n) - f i) := by
  rw [next_mod hi, next2_mod hn hi]
  unfold rhsExpl
  by_cases h1 : i + 1 = n
  · simp only [if_pos h1, if_neg (show ¬ i + 2 = n by omega), if_true, show n - 1 = i by omega]
  · by_cases h2 : i + 2 = n
    · simp only [if_neg h1, if_pos h2, if_neg (show ¬ i + 1 = 0 by omega), if_pos (show i + 1 = n - 1 by omega), show n - 2 = i by omega]
    · simp only [if_neg h1, if_neg h2, if_neg (show ¬ i + 1 = 0 by omega), if_neg (show ¬ i + 1 = n - 1 by omega), Nat.add_sub_cancel]

theorem second_rows {n : Nat} {bc : BC} (h : sizeOk n bc = true) (f : Nat → K) : Rows n bc f (second f n bc) := by
  cases bc with
  | natural => exact natural_rows (by simpa [sizeOk] using h) f
  | periodic =>
    have hn : 3 ≤ n := by simpa [sizeOk] using h
    refine ⟨by simp, by simp, fun _ i hi => ?_⟩
    rw [← rhsComp_eq hn hi]
    exact cyclic_rows' hn hi

/-- The equations have at most one solution. -/
theorem rows_unique {n : Nat} {bc : BC} (h : sizeOk n bc = true) {f s t : Nat → K} (hs : Rows n bc f s) (ht : Rows n bc f t) :
    ∀ i < n, s i = t i := by
  have hn : 2 ≤ n := by cases bc <;> simp [sizeOk] at h <;> omega
  obtain ⟨m, hm, hmax⟩ := Finset.exists_max_image (Finset.range n) (fun i => |s i - t i|) ⟨0, by simp; omega⟩
  rw [Finset.mem_range] at hm
  have hmax' : ∀ i < n, |s i - t i| ≤ |s m - t m| := fun i hi => hmax i (Finset.mem_range.2 hi)
  have key : s m - t m = 0 := by
    have tri : ∀ a b, a < n → b < n → (s a - t a) + 4 * (s m - t m) + (s b - t b) = 0 → s m - t m = 0 := by
      intro a b ha hb he
      have h1 := hmax' a ha
      have h2 := hmax' b hb
      have h4 : 4 * |s m - t m| ≤ |s a - t a| + |s b - t b| := by
        have e : 4 * (s m - t m) = -((s a - t a) + (s b - t b)) := by linear_combination he
        calc 4 * |s m - t m| = |4 * (s m - t m)| := by rw [abs_mul]; norm_num
          _ = |(s a - t a) + (s b - t b)| := by rw [e, abs_neg]
          _ ≤ _ := abs_add_le _ _
      have : |s m - t m| ≤ 0 := by linarith
      exact abs_eq_zero.1 (le_antisymm this (abs_nonneg _))
    cases bc with
    | natural =>
      by_cases h0 : m = 0
      · rw [h0, (hs.ends rfl).1, (ht.ends rfl).1, sub_self]
      · by_cases h1 : m = n - 1
        · rw [h1, (hs.ends rfl).2, (ht.ends rfl).2, sub_self]
        · obtain ⟨k, rfl⟩ : ∃ k, m = k + 1 := ⟨m - 1, by omega⟩
          have e1 := hs.inner rfl k (by omega)
          have e2 := ht.inner rfl k (by omega)
          exact tri k (k + 2) (by omega) (by omega) (by linear_combination e1 - e2)
    | periodic =>
      have hn3 : 3 ≤ n := by simpa [sizeOk] using h
      by_cases h0 : m = 0
      · have e1 := hs.cyc rfl (n - 1) (by omega)
        have e2 := ht.cyc rfl (n - 1) (by omega)
        rw [next_mod (by omega), next2_mod hn3 (by omega), if_pos (by omega), if_neg (by omega), if_pos (by omega)] at e1 e2
        rw [h0] at tri ⊢
        exact tri (n - 1) 1 (by omega) (by omega) (by linear_combination e1 - e2)
      · obtain ⟨k, rfl⟩ : ∃ k, m = k + 1 := ⟨m - 1, by omega⟩
        have e1 := hs.cyc rfl k (by omega)
        have e2 := ht.cyc rfl k (by omega)
        rw [Nat.mod_eq_of_lt hm] at e1 e2
        exact tri k ((k + 2) % n) (by omega) (Nat.mod_lt _ (by omega)) (by linear_combination e1 - e2)
  intro i hi
  have := hmax' i hi
  rw [key, abs_zero] at this
  exact sub_eq_zero.1 (abs_eq_zero.1 (le_antisymm this (abs_nonneg _)))

/-- The second derivatives depend linearly on the data. -/
theorem second_linear {n : Nat} {bc : BC} (h : sizeOk n bc = true) (f g : Nat → K) (a b : K) {i : Nat} (hi : i < n) :
    second (fun i => a * f i + b * g i) n bc i = a * second f n bc i + b * second g n bc i := by
  have hf := second_rows h f
  have hg := second_rows h g
  refine rows_unique h (second_rows h _) (t := fun i => a * second f n bc i + b * second g n bc i) ⟨?_, ?_, ?_⟩ i hi
  · intro e
    rw [(hf.ends e).1, (hf.ends e).2, (hg.ends e).1, (hg.ends e).2]
    simp
  · intro e i hi
    linear_combination a * hf.inner e i hi + b * hg.inner e i hi
  · intro e i hi
    linear_combination a * hf.cyc e i hi + b * hg.cyc e i hi

/-- Only the first `n` values matter. -/
theorem second_congr {n : Nat} {bc : BC} (h : sizeOk n bc = true) {f g : Nat → K} (e : ∀ i < n, f i = g i) {i : Nat} (hi : i < n) :
    second f n bc i = second g n bc i := by
  have hf := second_rows h f
  have hg := second_rows h g
  have hn : 0 < n := by omega
  refine rows_unique h hf ⟨hg.ends, fun b i hi => ?_, fun b i hi => ?_⟩ i hi
  · rw [hg.inner b i hi, e _ (by omega), e _ (by omega), e _ (by omega)]
  · rw [hg.cyc b i hi, e _ (Nat.mod_lt _ hn), e _ (Nat.mod_lt _ hn), e _ (by omega)]

/-! ### Pieces -/

/-- The cubic with end values `u`, `v` and end second derivatives `s`, `t`. -/
def ofSecond (u v s t : K) : Cubic K := ⟨u, v - u - (2 * s + t) / 6, s / 2, (t - s) / 6⟩

/-- The cubic with end values `u`, `v` and end slopes `s`, `t`. -/
def ofFirst (u v s t : K) : Cubic K := ⟨u, s, 3 * (v - u) - 2 * s - t, 2 * (u - v) + s + t⟩

theorem cubic_eq {q : Cubic K} : q = ofSecond (q.val 0) (q.val 1) (q.der2 0) (q.der2 1) := by
  obtain ⟨a, b, c, e⟩ := q
  simp only [ofSecond, Cubic.val, Cubic.der2, Cubic.mk.injEq]
  refine ⟨by ring, by ring, by ring, by ring⟩

theorem ofSecond_vals (u v s t : K) : (ofSecond u v s t).val 0 = u ∧ (ofSecond u v s t).val 1 = v ∧
    (ofSecond u v s t).der2 0 = s ∧ (ofSecond u v s t).der2 1 = t ∧
    (ofSecond u v s t).der 0 = v - u - (2 * s + t) / 6 ∧ (ofSecond u v s t).der 1 = v - u + (s + 2 * t) / 6 := by
  simp only [ofSecond, Cubic.val, Cubic.der2, Cubic.der]
  refine ⟨by ring, by ring, by ring, by ring, by ring, by ring⟩

theorem ofFirst_vals (u v s t : K) : (ofFirst u v s t).val 0 = u ∧ (ofFirst u v s t).val 1 = v ∧
    (ofFirst u v s t).der 0 = s ∧ (ofFirst u v s t).der 1 = t ∧
    (ofFirst u v s t).der2 0 = 6 * (v - u) - 4 * s - 2 * t ∧ (ofFirst u v s t).der2 1 = 6 * (u - v) + 2 * s + 4 * t := by
  simp only [ofFirst, Cubic.val, Cubic.der2, Cubic.der]
  refine ⟨by ring, by ring, by ring, by ring, by ring, by ring⟩

/-- The piece of the compact spline on cell `i`. -/
def pieceComp (f : Nat → K) (n : Nat) (bc : BC) (i : Nat) : Cubic K :=
  ofSecond (f i) (f ((i + 1) % n)) (second f n bc i) (second f n bc ((i + 1) % n))

/-- The piece of the explicit spline on cell `i`. -/
def pieceExpl (f : Nat → K) (n : Nat) (bc : BC) (i : Nat) : Cubic K :=
  ofFirst (f i) (f ((i + 1) % n)) (first f n bc i) (first f n bc ((i + 1) % n))

theorem mod_add {n i : Nat} : ((i + 1) % n + 1) % n = (i + 2) % n := by
  rw [Nat.mod_add_mod]

theorem rows_natural {n : Nat} (hn : 2 ≤ n) {f s : Nat → K} (h : Rows n .natural f s) :
    NaturalSpline n f (fun i => ofSecond (f i) (f ((i + 1) % n)) (s i) (s ((i + 1) % n))) := by
  have hv := fun u v s t => ofSecond_vals (K := K) u v s t
  refine ⟨fun i hi => (hv _ _ _ _).1, fun i hi => ?_, fun i hi => ?_, fun i hi => ?_, ?_, ?_⟩
  · rw [(hv _ _ _ _).2.1, Nat.mod_eq_of_lt hi]
  · rw [(hv _ _ _ _).2.2.2.2.2, (hv _ _ _ _).2.2.2.2.1, Nat.mod_eq_of_lt (show i + 1 < n by omega), Nat.mod_eq_of_lt (show i + 1 + 1 < n by omega)]
    have := h.inner rfl i hi
    linear_combination (1 / 6) * this
  · rw [(hv _ _ _ _).2.2.2.1, (hv _ _ _ _).2.2.1, Nat.mod_eq_of_lt (show i + 1 < n by omega)]
  · rw [(hv _ _ _ _).2.2.1, (h.ends rfl).1]
  · rw [(hv _ _ _ _).2.2.2.1, show n - 2 + 1 = n - 1 by omega, Nat.mod_eq_of_lt (by omega), (h.ends rfl).2]

theorem rows_periodic {n : Nat} (hn : 3 ≤ n) {f s : Nat → K} (h : Rows n .periodic f s) :
    PeriodicSpline n f (fun i => ofSecond (f i) (f ((i + 1) % n)) (s i) (s ((i + 1) % n))) := by
  have hv := fun u v s t => ofSecond_vals (K := K) u v s t
  refine ⟨fun i hi => (hv _ _ _ _).1, fun i hi => (hv _ _ _ _).2.1, fun i hi => ?_, fun i hi => ?_⟩
  · rw [(hv _ _ _ _).2.2.2.2.2, (hv _ _ _ _).2.2.2.2.1, mod_add]
    have := h.cyc rfl i hi
    linear_combination (1 / 6) * this
  · rw [(hv _ _ _ _).2.2.2.1, (hv _ _ _ _).2.2.1]

/-- A natural spline is the one given by the equations. -/
theorem natural_unique {n : Nat} (hn : 2 ≤ n) {f : Nat → K} {q : Nat → Cubic K} (h : NaturalSpline n f q) :
    ∀ i, i + 1 < n → q i = pieceComp f n .natural i := by
  let s := fun i => if i + 1 < n then (q i).der2 0 else 0
  have hq : ∀ i, i + 1 < n → q i = ofSecond (f i) (f (i + 1)) (s i) (s (i + 1)) := by
    intro i hi
    rw [cubic_eq (q := q i), h.left i hi, h.right i hi]
    congr 1
    · simp only [s]; rw [if_pos hi]
    · simp only [s]
      by_cases h2 : i + 1 + 1 < n
      · rw [if_pos h2, h.der2 i (by omega)]
      · rw [if_neg h2]
        have := h.last
        rwa [show n - 2 = i by omega] at this
  have hv := fun u v s t => ofSecond_vals (K := K) u v s t
  have hr : Rows n .natural f s := by
    refine ⟨fun _ => ⟨?_, ?_⟩, fun _ i hi => ?_, by simp⟩
    · simp only [s]; rw [if_pos (by omega), h.first]
    · simp only [s]; rw [if_neg (by omega)]
    · have := h.der i hi
      rw [hq i (by omega), hq (i + 1) (by omega), (hv _ _ _ _).2.2.2.2.2, (hv _ _ _ _).2.2.2.2.1] at this
      linear_combination 6 * this
  have hu := rows_unique (by simpa [sizeOk] using hn) hr (second_rows (by simpa [sizeOk] using hn) f)
  intro i hi
  rw [hq i hi, hu i (by omega), hu (i + 1) hi]
  unfold pieceComp
  rw [Nat.mod_eq_of_lt hi]

theorem periodic_unique {n : Nat} (hn : 3 ≤ n) {f : Nat → K} {q : Nat → Cubic K} (h : PeriodicSpline n f q) :
    ∀ i < n, q i = pieceComp f n .periodic i := by
  have hq : ∀ i < n, q i = ofSecond (f i) (f ((i + 1) % n)) ((q i).der2 0) ((q ((i + 1) % n)).der2 0) := by
    intro i hi
    rw [cubic_eq (q := q i), h.left i hi, h.right i hi, h.der2 i hi]
    congr 1
    exact ((ofSecond_vals _ _ _ _).2.2.1).symm
  have hv := fun u v s t => ofSecond_vals (K := K) u v s t
  have hr : Rows n .periodic f (fun i => (q i).der2 0) := by
    refine ⟨by simp, by simp, fun _ i hi => ?_⟩
    have := h.der i hi
    have hi' : (i + 1) % n < n := Nat.mod_lt _ (by omega)
    rw [hq i hi, hq _ hi', (hv _ _ _ _).2.2.2.2.2, (hv _ _ _ _).2.2.2.2.1, mod_add, (hv _ _ _ _).2.2.1] at this
    linear_combination 6 * this
  have hu := rows_unique (by simpa [sizeOk] using hn) hr (second_rows (by simpa [sizeOk] using hn) f)
  intro i hi
  have hi' : (i + 1) % n < n := Nat.mod_lt _ (by omega)
  rw [hq i hi]
  have a := hu i hi
  have b := hu _ hi'
  rw [a, b]
  rfl

theorem pieceComp_natural {n : Nat} (hn : 2 ≤ n) (f : Nat → K) : NaturalSpline n f (pieceComp f n .natural) :=
  rows_natural hn (second_rows (by simpa [sizeOk] using hn) f)

theorem pieceComp_periodic {n : Nat} (hn : 3 ≤ n) (f : Nat → K) : PeriodicSpline n f (pieceComp f n .periodic) :=
  rows_periodic hn (second_rows (by simpa [sizeOk] using hn) f)

/-! ### The explicit form -/

theorem naturalExpl_rows {n : Nat} (hn : 2 ≤ n) (f : Nat → K) :
    2 * naturalExpl f n 0 + naturalExpl f n 1 = 3 * (f 1 - f 0) ∧
    (∀ i, i + 2 < n → naturalExpl f n i + 4 * naturalExpl f n (i + 1) + naturalExpl f n (i + 2) = 3 * (f (i + 2) - f i)) ∧
    naturalExpl f n (n - 2) + 2 * naturalExpl f n (n - 1) = 3 * (f (n - 1) - f (n - 2)) := by
  refine ⟨?_, fun i hi => ?_, ?_⟩
  · have : naturalExpl f n 0 = 3 * (f 1 - f 0) / 2 - 1 / 2 * naturalExpl f n 1 := by
      unfold naturalExpl
      dsimp only
      rw [back_step _ _ _ _ (show 0 + 2 ≤ n by omega)]
      simp [sweepP, sweepY]
    linear_combination 2 * this
  · exact tri_row (y := fun i => 3 * (f (i + 1) - f (i - 1))) (by norm_num) (by norm_num) (by omega)
  · obtain ⟨last, hlast⟩ : ∃ x, (3 * (f (n - 1) - f (n - 2)) - sweepY (1 / 2) (3 * (f 1 - f 0) / 2) (fun i => 3 * (f (i + 1) - f (i - 1))) (n - 2)) /
        (2 - sweepP (1 / 2) (n - 2)) = x := ⟨_, rfl⟩
    have h1 : naturalExpl f n (n - 1) = last := by
      unfold naturalExpl
      dsimp only
      rw [back_last, hlast]
    have h2 : naturalExpl f n (n - 2) = sweepY (1 / 2) (3 * (f 1 - f 0) / 2) (fun i => 3 * (f (i + 1) - f (i - 1))) (n - 2) - sweepP (1 / 2) (n - 2) * last := by
      unfold naturalExpl
      dsimp only
      rw [back_step _ _ _ _ (show n - 2 + 2 ≤ n by omega), show n - 2 + 1 = n - 1 by omega, back_last, hlast]
      ring
    have hb := sweepP_bounds (K := K) (p0 := 1 / 2) (by norm_num) le_rfl (n - 2)
    have hd : (2 : K) - sweepP (1 / 2) (n - 2) ≠ 0 := by
      have : (0 : K) < 2 - sweepP (1 / 2) (n - 2) := by linarith
      exact this.ne'
    rw [div_eq_iff hd] at hlast
    rw [h1, h2]
    linear_combination -hlast

theorem pieceExpl_natural {n : Nat} (hn : 2 ≤ n) (f : Nat → K) : NaturalSpline n f (pieceExpl f n .natural) := by
  obtain ⟨r0, ri, rl⟩ := naturalExpl_rows hn f
  have hv := fun u v s t => ofFirst_vals (K := K) u v s t
  unfold pieceExpl first
  refine ⟨fun i hi => (hv _ _ _ _).1, fun i hi => ?_, fun i hi => ?_, fun i hi => ?_, ?_, ?_⟩
  · rw [(hv _ _ _ _).2.1, Nat.mod_eq_of_lt hi]
  · rw [(hv _ _ _ _).2.2.2.1, (hv _ _ _ _).2.2.1, Nat.mod_eq_of_lt (show i + 1 < n by omega)]
  · rw [(hv _ _ _ _).2.2.2.2.2, (hv _ _ _ _).2.2.2.2.1, Nat.mod_eq_of_lt (show i + 1 < n by omega), Nat.mod_eq_of_lt (show i + 1 + 1 < n by omega)]
    linear_combination 2 * ri i hi
  · rw [(hv _ _ _ _).2.2.2.2.1, Nat.mod_eq_of_lt (by omega)]
    linear_combination (-2) * r0
  · rw [(hv _ _ _ _).2.2.2.2.2, show n - 2 + 1 = n - 1 by omega, Nat.mod_eq_of_lt (by omega)]
    linear_combination 2 * rl

theorem pieceExpl_periodic {n : Nat} (hn : 3 ≤ n) (f : Nat → K) : PeriodicSpline n f (pieceExpl f n .periodic) := by
  have hv := fun u v s t => ofFirst_vals (K := K) u v s t
  unfold pieceExpl first
  refine ⟨fun i hi => (hv _ _ _ _).1, fun i hi => (hv _ _ _ _).2.1, fun i hi => ?_, fun i hi => ?_⟩
  · rw [(hv _ _ _ _).2.2.2.1, (hv _ _ _ _).2.2.1]
  · rw [(hv _ _ _ _).2.2.2.2.2, (hv _ _ _ _).2.2.2.2.1, mod_add]
    have := cyclic_rows' (y := rhsExpl f n) hn hi
    rw [rhsExpl_eq hn hi] at this
    linear_combination 2 * this

theorem pieces_eq {n : Nat} {bc : BC} (h : sizeOk n bc = true) (f : Nat → K) {i : Nat} (hi : i < cells n bc) :
    pieceExpl f n bc i = pieceComp f n bc i := by
  cases bc with
  | natural => exact natural_unique (by simpa [sizeOk] using h) (pieceExpl_natural (by simpa [sizeOk] using h) f) i (by simp only [cells] at hi; omega)
  | periodic => exact periodic_unique (by simpa [sizeOk] using h) (pieceExpl_periodic (by simpa [sizeOk] using h) f) i hi

end Ascot.Spline
