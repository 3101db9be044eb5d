import Verif.Model.RhoVolume
import Verif.Spec.Polygon
import Verif.Lemmas.Coord
import Mathlib.Algebra.BigOperators.Intervals
import Mathlib.Tactic.Ring
import Mathlib.Tactic.Linarith
import Mathlib.Tactic.FieldSimp

set_option linter.unusedSectionVars false
set_option linter.unusedSimpArgs false

/-!
# Lemmas on volumes between flux surfaces
-/
namespace Ascot.RhoVolume

/-- The corners on a flux surface. -/
noncomputable def corners (F : Field) (m : ℕ) (rho phi : ℝ) (k : ℕ) : ℝ × ℝ := F.rz rho (th m k) phi

theorem area_around {o : ℝ × ℝ} {P : ℕ → ℝ × ℝ} {m k : ℕ} (h : Polygon.Around o P m) (hk : k < m) :
    area o (P k) (P (k + 1))
      = 1 / 2 * (o.1 * ((P k).2 - (P (k + 1)).2) + (P k).1 * ((P (k + 1)).2 - o.2) + (P (k + 1)).1 * (o.2 - (P k).2)) := by
  unfold area
  have h1 := h.2 k hk
  rw [abs_of_nonneg (by nlinarith)]
  norm_num

theorem sum_area {o : ℝ × ℝ} {P : ℕ → ℝ × ℝ} {m : ℕ} (h : Polygon.Around o P m) :
    ∑ k ∈ Finset.range m, area o (P k) (P (k + 1)) = Polygon.area P m := by
  rw [Finset.sum_congr rfl fun k hk => area_around h (Finset.mem_range.mp hk), Polygon.area, Finset.mul_sum,
    ← sub_eq_zero, ← Finset.sum_sub_distrib]
  have e : ∀ k ∈ Finset.range m,
      1 / 2 * (o.1 * ((P k).2 - (P (k + 1)).2) + (P k).1 * ((P (k + 1)).2 - o.2) + (P (k + 1)).1 * (o.2 - (P k).2))
        - 1 / 2 * ((P k).1 * (P (k + 1)).2 - (P (k + 1)).1 * (P k).2)
      = (fun k => 1 / 2 * (o.2 * (P k).1 - o.1 * (P k).2)) (k + 1) - (fun k => 1 / 2 * (o.2 * (P k).1 - o.1 * (P k).2)) k := by
    intro k _
    ring
  rw [Finset.sum_congr rfl e]
  exact (Finset.sum_range_sub (fun k => 1 / 2 * (o.2 * (P k).1 - o.1 * (P k).2)) m).trans (by simp only [h.1, sub_self])

theorem sum_prism {o : ℝ × ℝ} {P : ℕ → ℝ × ℝ} {m : ℕ} (h : Polygon.Around o P m) (d : ℝ) :
    ∑ k ∈ Finset.range m, prism d o (P k) (P (k + 1)) = d * Polygon.moment P m := by
  unfold prism
  rw [Finset.sum_congr rfl fun k hk => by rw [area_around h (Finset.mem_range.mp hk)], Polygon.moment, Finset.mul_sum,
    Finset.mul_sum, ← sub_eq_zero, ← Finset.sum_sub_distrib]
  have e : ∀ k ∈ Finset.range m,
      d * ((o.1 + (P k).1 + (P (k + 1)).1) / 3) * (1 / 2 * (o.1 * ((P k).2 - (P (k + 1)).2)
          + (P k).1 * ((P (k + 1)).2 - o.2) + (P (k + 1)).1 * (o.2 - (P k).2)))
        - d * (1 / 6 * (((P k).1 + (P (k + 1)).1) * ((P k).1 * (P (k + 1)).2 - (P (k + 1)).1 * (P k).2)))
      = (fun k => d / 6 * (o.2 * (P k).1 ^ 2 - o.1 * (P k).1 * (P k).2 + o.1 * o.2 * (P k).1 - o.1 ^ 2 * (P k).2)) (k + 1)
        - (fun k => d / 6 * (o.2 * (P k).1 ^ 2 - o.1 * (P k).1 * (P k).2 + o.1 * o.2 * (P k).1 - o.1 ^ 2 * (P k).2)) k := by
    intro k _
    ring
  rw [Finset.sum_congr rfl e]
  exact (Finset.sum_range_sub
    (fun k => d / 6 * (o.2 * (P k).1 ^ 2 - o.1 * (P k).1 * (P k).2 + o.1 * o.2 * (P k).1 - o.1 ^ 2 * (P k).2)) m).trans
    (by simp only [h.1, sub_self])

/-- A number is in one interval between increasing edges. -/
theorem sum_sector {e : ℕ → ℝ} (he : Monotone e) {x : ℝ} (c : ℝ) : ∀ n : ℕ, e 0 ≤ x →
    (∑ j ∈ Finset.range n, if e j ≤ x ∧ x < e (j + 1) then c else 0) = if x < e n then c else 0
  | 0, h0 => by simp [not_lt.mpr h0]
  | n + 1, h0 => by
    rw [Finset.sum_range_succ, sum_sector he c n h0]
    rcases lt_or_ge x (e n) with h | h
    · rw [if_pos h, if_neg (fun hh => absurd hh.1 (not_le.mpr h)), add_zero, if_pos (lt_of_lt_of_le h (he (Nat.le_succ n)))]
    · rw [if_neg (not_lt.mpr h), zero_add]
      by_cases h' : x < e (n + 1)
      · rw [if_pos ⟨h, h'⟩, if_pos h']
      · rw [if_neg (fun hh => h' hh.2), if_neg h']

theorem th_nonneg (m k : ℕ) : 0 ≤ th m k := by
  unfold th
  have : (0 : ℝ) ≤ ((m + 1 : ℕ) : ℝ) - 1 := by push_cast; linarith [(Nat.cast_nonneg m : (0 : ℝ) ≤ m)]
  have h2 : 0 ≤ (2 * Real.pi - 0) / (((m + 1 : ℕ) : ℝ) - 1) := div_nonneg (by linarith [Real.pi_pos]) this
  have := mul_nonneg (Nat.cast_nonneg k : (0 : ℝ) ≤ k) h2
  linarith

theorem th_eq (m k : ℕ) : th m k = k * (2 * Real.pi / m) := by
  unfold th
  push_cast
  rw [zero_add, sub_zero, add_sub_cancel_right]

theorem th_lt {m k : ℕ} (h : k < m) : th m k < 2 * Real.pi := by
  have hm : (0 : ℝ) < m := by exact_mod_cast lt_of_le_of_lt (Nat.zero_le k) h
  have hk : (k : ℝ) < m := by exact_mod_cast h
  rw [th_eq, ← mul_div_assoc, div_lt_iff₀ hm]
  nlinarith [Real.pi_pos]

theorem sum_sectors (F : Field) (m : ℕ) (g : ℝ × ℝ → ℝ × ℝ → ℝ × ℝ → ℝ) (rho phi : ℝ) {theta : ℕ → ℝ} (hm : Monotone theta)
    {nt : ℕ} (h0 : theta 0 = 0) (h1 : theta nt = 2 * Real.pi) :
    ∑ j ∈ Finset.range nt, sector F m g rho phi (theta j) (theta (j + 1))
      = ∑ k ∈ Finset.range m, g (F.axis phi) (corners F m rho phi k) (corners F m rho phi (k + 1)) := by
  unfold sector
  rw [Finset.sum_comm]
  refine Finset.sum_congr rfl fun k hk => ?_
  rw [sum_sector hm _ nt (by rw [h0]; exact th_nonneg m k), h1, if_pos (th_lt (Finset.mem_range.mp hk))]
  rfl

theorem floor_parts {p0 p1 : ℝ} (h : p0 ≠ p1) (n : ℕ) : ⌊(p1 - p0) / ((p1 - p0) / 2 ^ n)⌋.toNat = 2 ^ n := by
  have h1 : p1 - p0 ≠ 0 := sub_ne_zero.mpr (Ne.symm h)
  have e : (p1 - p0) / ((p1 - p0) / 2 ^ n) = ((2 ^ n : ℕ) : ℝ) := by
    push_cast
    field_simp
  rw [e, Int.floor_natCast, Int.toNat_natCast]

/-- The volumes as sums over `2 ^ n` equal parts. -/
noncomputable def halves (I : ℝ → ℝ → ℕ → ℕ → ℝ × ℝ) (p0 p1 : ℝ) (n i j : ℕ) : ℝ :=
  ∑ k ∈ Finset.range (2 ^ n), (I (p0 + (p1 - p0) / 2 ^ n * k) (p0 + (p1 - p0) / 2 ^ n * (k + 1)) i j).1

theorem refine_spec {I : ℝ → ℝ → ℕ → ℕ → ℝ × ℝ} {nr nt : ℕ} {tol p0 p1 : ℝ} (hp : p0 ≠ p1) {w : ℕ → ℕ → ℝ} :
    ∀ {fuel n : ℕ}, refine I nr nt tol p0 p1 fuel ((p1 - p0) / 2 ^ (n + 1)) (halves I p0 p1 n) (halves I p0 p1 (n + 1)) = some w →
    ∃ n', n ≤ n' ∧ w = halves I p0 p1 (n' + 1) ∧ |sum nr nt (halves I p0 p1 (n' + 1)) - sum nr nt (halves I p0 p1 n')| ≤ tol
  | 0, _, h => by simp [refine] at h
  | fuel + 1, n, h => by
    unfold refine at h
    split_ifs at h with hc
    · have e : parts I p0 p1 ((p1 - p0) / 2 ^ (n + 1) / 2) = halves I p0 p1 (n + 1 + 1) := by
        funext i j
        unfold parts halves
        rw [div_div, ← pow_succ, floor_parts hp]
      rw [e, div_div, ← pow_succ] at h
      obtain ⟨n', h1, h2⟩ := refine_spec hp h
      exact ⟨n', by omega, h2⟩
    · exact ⟨n, le_refl _, (Option.some.inj h).symm, not_lt.mp hc⟩

theorem halves_zero (I : ℝ → ℝ → ℕ → ℕ → ℝ × ℝ) (p0 p1 : ℝ) : halves I p0 p1 0 = fun i j => (I p0 p1 i j).1 := by
  funext i j
  unfold halves
  simp

theorem halves_one (I : ℝ → ℝ → ℕ → ℕ → ℝ × ℝ) (p0 p1 : ℝ) : halves I p0 p1 1 = fun i j =>
    (I p0 (p0 + (p1 - p0) / 2) i j).1 + (I (p0 + (p1 - p0) / 2) (p0 + (p1 - p0) / 2 * 2) i j).1 := by
  funext i j
  unfold halves
  rw [pow_one, Finset.sum_range_succ, Finset.sum_range_one]
  norm_num

end Ascot.RhoVolume
