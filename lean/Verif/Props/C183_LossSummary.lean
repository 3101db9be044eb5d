import Verif.Model.LossSummary
import Mathlib.Algebra.Order.BigOperators.Group.List
import Mathlib.Tactic.Ring
import Mathlib.Tactic.Linarith
import Mathlib.Tactic.NormNum

/-!
# C183: the summary of losses gives fractions of what was there
-/
set_option linter.unusedSectionVars false
set_option linter.unusedSimpArgs false

namespace Ascot.C183
open Ascot.LossSummary

/-- The sum over the lost markers is at most that over all, if no term grows and none is negative. -/
theorem sum_le (l : List Mrk) (f g : Mrk → ℝ) (h0 : ∀ m ∈ l, 0 ≤ f m) (h1 : ∀ m ∈ l, f m ≤ g m) :
    0 ≤ ((l.filter (·.wall)).map f).sum ∧ ((l.filter (·.wall)).map f).sum ≤ (l.map g).sum := by
  induction l with
  | nil => simp
  | cons m l ih =>
    obtain ⟨i1, i2⟩ := ih (fun m hm => h0 m (List.mem_cons_of_mem _ hm)) fun m hm => h1 m (List.mem_cons_of_mem _ hm)
    have a := h0 m (by simp)
    have b := h1 m (by simp)
    cases hw : m.wall
    · simp only [List.filter_cons, hw, List.map_cons, List.sum_cons]
      constructor
      · simpa using i1
      · simp only [Bool.false_eq_true, if_false]; linarith
    · simp only [List.filter_cons, hw, if_true, List.map_cons, List.sum_cons]
      constructor <;> linarith

theorem sum_eq (l : List Mrk) (f : Mrk → ℝ) (h0 : ∀ m ∈ l, 0 < f m) :
    (((l.filter (·.wall)).map f).sum = (l.map f).sum ↔ ∀ m ∈ l, m.wall = true) ∧
    (((l.filter (·.wall)).map f).sum = 0 ↔ ∀ m ∈ l, m.wall = false) := by
  induction l with
  | nil => simp
  | cons m l ih =>
    have hl : ∀ m ∈ l, 0 < f m := fun m hm => h0 m (List.mem_cons_of_mem _ hm)
    obtain ⟨i1, i2⟩ := ih hl
    obtain ⟨s1, s2⟩ := sum_le l f f (fun m hm => (hl m hm).le) fun _ _ => le_rfl
    have a := h0 m (by simp)
    cases hw : m.wall
    · simp only [List.filter_cons, hw, List.map_cons, List.sum_cons, Bool.false_eq_true, if_false, List.forall_mem_cons,
        false_and, true_and, iff_false]
      exact ⟨fun h => by linarith, i2⟩
    · simp only [List.filter_cons, hw, List.map_cons, List.sum_cons, if_true, List.forall_mem_cons, true_and,
        Bool.true_eq_false, false_and, iff_false, add_right_inj]
      exact ⟨i1, fun h => by linarith⟩

/-- The number of lost markers is that of the markers at the wall, and its fraction is between zero and one; it is zero just
if none and one just if all are lost. -/
theorem markers (l : List Mrk) (hl : l ≠ []) : (summary l).markers = l.countP (·.wall) ∧
    ∃ x, (summary l).markersFrac = some x ∧ x * l.length = l.countP (·.wall) ∧ 0 ≤ x ∧ x ≤ 1 ∧
      (x = 0 ↔ ∀ m ∈ l, m.wall = false) ∧ (x = 1 ↔ ∀ m ∈ l, m.wall = true) := by
  have hn : (0 : ℝ) < l.length := by exact_mod_cast List.length_pos_iff.mpr hl
  have e : (l.filter (·.wall)).length = l.countP (·.wall) := List.countP_eq_length_filter.symm
  refine ⟨e, ((l.countP (·.wall) : ℕ) : ℝ) / l.length, ?_, ?_, ?_, ?_, ?_, ?_⟩
  · simp only [summary, quot, if_neg hn.ne', e]
  · rw [div_mul_cancel₀ _ hn.ne']
  · positivity
  · rw [div_le_one hn]; exact_mod_cast List.countP_le_length
  · rw [div_eq_zero_iff, or_iff_left hn.ne']
    rw [Nat.cast_eq_zero, List.countP_eq_zero]
    simp
  · rw [div_eq_one_iff_eq hn.ne', Nat.cast_inj, List.countP_eq_length]

/-- The same for the particles that the markers stand for, if weights are positive and stay the same. -/
theorem particles (l : List Mrk) (hl : l ≠ []) (hw : ∀ m ∈ l, 0 < m.w0 ∧ m.w1 = m.w0) :
    ∃ x, (summary l).particlesFrac = some x ∧ (summary l).particles = x * (l.map (·.w0)).sum ∧ 0 ≤ x ∧ x ≤ 1 ∧
      (x = 0 ↔ ∀ m ∈ l, m.wall = false) ∧ (x = 1 ↔ ∀ m ∈ l, m.wall = true) := by
  have e : (l.filter (·.wall)).map (·.w1) = (l.filter (·.wall)).map (·.w0) :=
    List.map_congr_left fun m hm => (hw m (List.mem_of_mem_filter hm)).2
  have hp : 0 < (l.map (·.w0)).sum := by
    apply List.sum_pos
    · intro x hx
      obtain ⟨m, hm, rfl⟩ := List.mem_map.mp hx
      exact (hw m hm).1
    · simpa using hl
  obtain ⟨s1, s2⟩ := sum_le l (·.w0) (·.w0) (fun m hm => (hw m hm).1.le) fun _ _ => le_rfl
  obtain ⟨t1, t2⟩ := sum_eq l (·.w0) fun m hm => (hw m hm).1
  refine ⟨((l.filter (·.wall)).map (·.w0)).sum / (l.map (·.w0)).sum, ?_, ?_, ?_, ?_, ?_, ?_⟩
  · simp only [summary, quot, e, if_neg hp.ne']
  · simp only [summary, e]; rw [div_mul_cancel₀ _ hp.ne']
  · exact div_nonneg s1 hp.le
  · rw [div_le_one hp]; exact s2
  · rw [div_eq_zero_iff, or_iff_left hp.ne']; exact t2
  · rw [div_eq_one_iff_eq hp.ne']; exact t1

/-- The fraction of energy is between zero and one if no marker has gained energy.  Missing: markers that are accelerated
(`energy_violation`). -/
theorem energy_partial (l : List Mrk) (hl : l ≠ [])
    (hw : ∀ m ∈ l, 0 < m.w0 ∧ m.w1 = m.w0 ∧ 0 < m.e0 ∧ 0 ≤ m.e1 ∧ m.e1 ≤ m.e0) :
    ∃ x, (summary l).powerFrac = some x ∧ (summary l).power = x * (l.map fun m => m.w0 * m.e0).sum ∧ 0 ≤ x ∧ x ≤ 1 := by
  have hp : 0 < (l.map fun m => m.w0 * m.e0).sum := by
    apply List.sum_pos
    · intro x hx
      obtain ⟨m, hm, rfl⟩ := List.mem_map.mp hx
      exact mul_pos (hw m hm).1 (hw m hm).2.2.1
    · simpa using hl
  obtain ⟨s1, s2⟩ := sum_le l (fun m => m.w1 * m.e1) (fun m => m.w0 * m.e0)
    (fun m hm => by
      obtain ⟨h1, h2, -, h4, -⟩ := hw m hm
      rw [h2]; exact mul_nonneg h1.le h4)
    (fun m hm => by
      obtain ⟨h1, h2, -, -, h5⟩ := hw m hm
      rw [h2]; exact mul_le_mul_of_nonneg_left h5 h1.le)
  refine ⟨((l.filter (·.wall)).map fun m => m.w1 * m.e1).sum / (l.map fun m => m.w0 * m.e0).sum, ?_, ?_, ?_, ?_⟩
  · simp only [summary, quot, if_neg hp.ne']
  · simp only [summary]; rw [div_mul_cancel₀ _ hp.ne']
  · exact div_nonneg s1 hp.le
  · rw [div_le_one hp]; exact s2

/-- Two markers, one of which reaches the wall with half of its energy. -/
noncomputable def exL : List Mrk := [⟨2, 10, 2, 5, true⟩, ⟨3, 10, 3, 1, false⟩]

example : exL ≠ [] ∧ ∀ m ∈ exL, 0 < m.w0 ∧ m.w1 = m.w0 ∧ 0 < m.e0 ∧ 0 ≤ m.e1 ∧ m.e1 ≤ m.e0 := by
  refine ⟨by simp [exL], ?_⟩
  intro m hm
  simp only [exL, List.mem_cons, List.not_mem_nil, or_false] at hm
  rcases hm with rfl | rfl <;> norm_num

example : ∃ x, (summary exL).particlesFrac = some x ∧ x = 2 / 5 := by
  refine ⟨_, ?_, rfl⟩
  norm_num [summary, quot, exL, List.filter_cons]

/-- A marker that has gained energy on its way to the wall: more than all energy is reported as lost. -/
theorem energy_violation : ∃ l : List Mrk, (∀ m ∈ l, 0 < m.w0 ∧ m.w1 = m.w0 ∧ 0 < m.e0 ∧ 0 < m.e1) ∧
    ∃ x, (summary l).powerFrac = some x ∧ 1 < x := by
  refine ⟨[⟨1, 1, 1, 2, true⟩], ?_, 2, ?_, by norm_num⟩
  · intro m hm
    simp only [List.mem_cons, List.not_mem_nil, or_false] at hm
    subst hm
    norm_num
  · norm_num [summary, quot, List.filter_cons]

end Ascot.C183
