import Verif.Model.Wall2D
import Verif.Spec.Wall2D
import Mathlib.Algebra.BigOperators.Group.Finset.Basic
import Mathlib.Algebra.BigOperators.Group.Finset.Piecewise
import Mathlib.Algebra.BigOperators.Intervals
import Mathlib.Tactic.Linarith
import Mathlib.Tactic.FieldSimp
import Mathlib.Tactic.Ring
import Mathlib.Tactic.LinearCombination
import Mathlib.Tactic.Positivity

set_option linter.unusedSectionVars false
set_option linter.unusedSimpArgs false

namespace Ascot.Wall2D

theorem count_fold (c : Nat → Bool) : ∀ (n : Nat),
    (List.range n).foldl (fun hits i => if c i then hits + 1 else hits) 0 = ∑ i ∈ Finset.range n, (c i).toNat
  | 0 => rfl
  | n + 1 => by
    rw [List.range_succ, List.foldl_append, count_fold c n, Finset.sum_range_succ]
    cases h : c n <;> simp [h]

variable {K : Type}

theorem sum_next (w : Wall K) (g : Nat → Nat) : ∑ i ∈ Finset.range w.n, g (w.next i) = ∑ i ∈ Finset.range w.n, g i := by
  obtain ⟨n, r, z⟩ := w
  cases n with
  | zero => rfl
  | succ m =>
    rw [Finset.sum_range_succ, Finset.sum_range_succ']
    congr 1
    · apply Finset.sum_congr rfl
      intro i hi
      rw [Finset.mem_range] at hi
      unfold Wall.next
      simp only [Nat.add_sub_cancel]
      rw [if_neg (by omega)]
    · unfold Wall.next; simp

theorem next_lt (w : Wall K) {i : Nat} (h : i < w.n) : w.next i < w.n := by
  unfold Wall.next; split <;> omega

theorem parity_of_edges (w : Wall K) (c1 c2 f : Nat → Bool)
    (h : ∀ i, i < w.n → ((c1 i ≠ c2 i) ↔ (f i ≠ f (w.next i)))) :
    (∑ i ∈ Finset.range w.n, (c1 i).toNat) % 2 = (∑ i ∈ Finset.range w.n, (c2 i).toNat) % 2 := by
  have key : ∀ s : Finset Nat, (∀ i ∈ s, ((c1 i ≠ c2 i) ↔ (f i ≠ f (w.next i)))) →
      (∑ i ∈ s, (c1 i).toNat + ∑ i ∈ s, (c2 i).toNat) % 2 = (∑ i ∈ s, (f i).toNat + ∑ i ∈ s, (f (w.next i)).toNat) % 2 := by
    intro s
    induction s using Finset.induction_on with
    | empty => simp
    | insert a s ha ih =>
      intro hs
      have ih' := ih (fun i hi => hs i (Finset.mem_insert_of_mem hi))
      have h1 := hs a (Finset.mem_insert_self a s)
      simp only [Finset.sum_insert ha]
      have h2 : ((c1 a).toNat + (c2 a).toNat) % 2 = ((f a).toNat + (f (w.next a)).toNat) % 2 := by
        revert h1
        generalize c1 a = x; generalize c2 a = y; generalize f a = u; generalize f (w.next a) = v
        revert x y u v; decide
      omega
  have k := key (Finset.range w.n) (fun i hi => h i (Finset.mem_range.1 hi))
  rw [sum_next w (fun i => (f i).toNat)] at k
  omega

variable [Field K] [LinearOrder K] [IsStrictOrderedRing K]

theorem crosses_iff {r z r1 z1 r2 z2 : K} :
    crosses r z r1 z1 r2 z2 = true ↔ (z1 - z) * (z2 - z) < 0 ∧
      0 < ((z1 - z) * (r2 - r) - (z2 - z) * (r1 - r)) / (z1 - z2) := by
  unfold crosses
  dsimp only
  split
  · rename_i h
    have hne : z1 - z2 ≠ 0 := by
      intro hc
      have : z1 - z = z2 - z := by linarith
      rw [this] at h
      exact absurd h (not_lt.2 (mul_self_nonneg _))
    have e : r1 - r + (z1 - z) * (r2 - r - (r1 - r)) / (z1 - z - (z2 - z)) =
        ((z1 - z) * (r2 - r) - (z2 - z) * (r1 - r)) / (z1 - z2) := by
      have e1 : z1 - z - (z2 - z) = z1 - z2 := by ring
      rw [e1]; field_simp; ring
    rw [decide_eq_true_eq, e]
    exact ⟨fun k => ⟨h, k⟩, fun k => k.2⟩
  · rename_i h
    simp [h]

theorem mul_neg_cases {a b : K} : a * b < 0 ↔ (a < 0 ∧ 0 < b) ∨ (0 < a ∧ b < 0) := by
  rw [mul_neg_iff]; tauto

theorem meets_iff {r1 z1 r2 z2 r3 z3 r4 z4 t : K} (h : (r1 - r2) * (z3 - z4) - (z1 - z2) * (r3 - r4) ≠ 0) :
    MeetsSeg r1 z1 r2 z2 r3 z3 r4 z4 t ↔
      (t = ((r1 - r3) * (z3 - z4) - (z1 - z3) * (r3 - r4)) / ((r1 - r2) * (z3 - z4) - (z1 - z2) * (r3 - r4)) ∧ 0 ≤ t ∧ t ≤ 1 ∧
      0 ≤ ((r1 - r3) * (z1 - z2) - (z1 - z3) * (r1 - r2)) / ((r1 - r2) * (z3 - z4) - (z1 - z2) * (r3 - r4)) ∧
      ((r1 - r3) * (z1 - z2) - (z1 - z3) * (r1 - r2)) / ((r1 - r2) * (z3 - z4) - (z1 - z2) * (r3 - r4)) ≤ 1) := by
  constructor
  · rintro ⟨_, h0, h1, u, u0, u1, e1, e2⟩
    have et : t = ((r1 - r3) * (z3 - z4) - (z1 - z3) * (r3 - r4)) / ((r1 - r2) * (z3 - z4) - (z1 - z2) * (r3 - r4)) := by
      rw [eq_div_iff h]; linear_combination (-(z3 - z4)) * e1 + (r3 - r4) * e2
    have eu : ((r1 - r3) * (z1 - z2) - (z1 - z3) * (r1 - r2)) / ((r1 - r2) * (z3 - z4) - (z1 - z2) * (r3 - r4)) = u := by
      rw [div_eq_iff h]; linear_combination (z1 - z2) * e1 - (r1 - r2) * e2
    rw [eu]
    exact ⟨et, h0, h1, u0, u1⟩
  · rintro ⟨et, h0, h1, u0, u1⟩
    refine ⟨h, h0, h1, _, u0, u1, ?_, ?_⟩
    · obtain ⟨D, hD⟩ : ∃ D, (r1 - r2) * (z3 - z4) - (z1 - z2) * (r3 - r4) = D := ⟨_, rfl⟩
      rw [et, hD]
      rw [hD] at h
      field_simp
      rw [← hD]; ring
    · obtain ⟨D, hD⟩ : ∃ D, (r1 - r2) * (z3 - z4) - (z1 - z2) * (r3 - r4) = D := ⟨_, rfl⟩
      rw [et, hD]
      rw [hD] at h
      field_simp
      rw [← hD]; ring

theorem meets_swap {r1 z1 r2 z2 r3 z3 r4 z4 t : K} (h : MeetsSeg r1 z1 r2 z2 r3 z3 r4 z4 t) :
    MeetsSeg r2 z2 r1 z1 r3 z3 r4 z4 (1 - t) := by
  obtain ⟨h, h0, h1, u, u0, u1, e1, e2⟩ := h
  refine ⟨fun hc => h (by linear_combination -hc), by linarith, by linarith, u, u0, u1, ?_, ?_⟩
  · linear_combination e1
  · linear_combination e2

/-- Right of the line from (p, s) to (q, e), between the two heights. -/
def right (p s q e : K) (r z : K) : Bool := decide (s < z ∧ z < e ∧ 0 < (r - p) * (e - s) - (q - p) * (z - s))

/-- The crossings of one edge with the two rays, if the edge does not meet the step. -/
theorem edge_up {p s q e ar az br bz : K} (hd : s < e) (a1 : az ≠ s) (a2 : az ≠ e) (b1 : bz ≠ s) (b2 : bz ≠ e)
    (hno : ∀ t, ¬ MeetsSeg p s q e ar az br bz t) :
    (crosses p s ar az br bz ≠ crosses q e ar az br bz) ↔ (right p s q e ar az ≠ right p s q e br bz) := by
  -- edges from one side of the line to the other
  have half : ∀ (ar az br bz : K), az ≠ s → az ≠ e → bz ≠ s → bz ≠ e → (∀ t, ¬ MeetsSeg p s q e ar az br bz t) →
      0 < (ar - p) * (e - s) - (q - p) * (az - s) → (br - p) * (e - s) - (q - p) * (bz - s) ≤ 0 →
      ((crosses p s ar az br bz ≠ crosses q e ar az br bz) ↔ (s < az ∧ az < e)) := by
    intro ar az br bz a1 a2 b1 b2 hno hA hB
    obtain ⟨A, hAd⟩ : ∃ A, (ar - p) * (e - s) - (q - p) * (az - s) = A := ⟨_, rfl⟩
    obtain ⟨B, hBd⟩ : ∃ B, (br - p) * (e - s) - (q - p) * (bz - s) = B := ⟨_, rfl⟩
    rw [hAd] at hA
    rw [hBd] at hB
    have hdiv : (p - q) * (az - bz) - (s - e) * (ar - br) = A - B := by rw [← hAd, ← hBd]; ring
    have hAB : 0 < A - B := by linarith
    have hne : (p - q) * (az - bz) - (s - e) * (ar - br) ≠ 0 := by rw [hdiv]; exact hAB.ne'
    have hu : (p - ar) * (s - e) - (s - az) * (p - q) = A := by rw [← hAd]; ring
    have hd' : 0 < e - s := by linarith
    -- numerators of the two tests
    have n1 : (e - s) * ((az - s) * (br - p) - (bz - s) * (ar - p)) = (az - s) * B - (bz - s) * A := by rw [← hAd, ← hBd]; ring
    have n2 : (e - s) * ((az - e) * (br - q) - (bz - e) * (ar - q)) = (az - e) * B - (bz - e) * A := by rw [← hAd, ← hBd]; ring
    have hN : (bz - s) * A - (az - s) * B < 0 ∨ 0 < (bz - e) * A - (az - e) * B := by
      by_contra hc
      rw [not_or, not_lt, not_lt] at hc
      obtain ⟨c1, c2⟩ := hc
      apply hno (((p - ar) * (az - bz) - (s - az) * (ar - br)) / ((p - q) * (az - bz) - (s - e) * (ar - br)))
      rw [meets_iff hne, hu, hdiv]
      have ht : (p - ar) * (az - bz) - (s - az) * (ar - br) = ((bz - s) * A - (az - s) * B) / (e - s) := by
        rw [eq_div_iff hd'.ne']; linear_combination -n1
      rw [ht]
      refine ⟨rfl, ?_, ?_, div_nonneg hA.le hAB.le, ?_⟩
      · exact div_nonneg (div_nonneg c1 hd'.le) hAB.le
      · rw [div_le_one hAB, div_le_iff₀ hd']; nlinarith
      · rw [div_le_one hAB]; linarith
    have hc1 : crosses p s ar az br bz = true ↔ (az - s) * (bz - s) < 0 ∧ 0 < ((az - s) * B - (bz - s) * A) / (az - bz) := by
      rw [crosses_iff, ← n1, mul_div_assoc]
      rw [mul_pos_iff_of_pos_left hd']
    have hc2 : crosses q e ar az br bz = true ↔ (az - e) * (bz - e) < 0 ∧ 0 < ((az - e) * B - (bz - e) * A) / (az - bz) := by
      rw [crosses_iff, ← n2, mul_div_assoc]
      rw [mul_pos_iff_of_pos_left hd']
    have za1 : az - s ≠ 0 := sub_ne_zero.2 a1
    have zb1 : bz - s ≠ 0 := sub_ne_zero.2 b1
    have za2 : az - e ≠ 0 := sub_ne_zero.2 a2
    have zb2 : bz - e ≠ 0 := sub_ne_zero.2 b2
    rcases hN with hN | hN
    · -- the edge crosses the line below the step
      have k1 : crosses p s ar az br bz = true ↔ s < az := by
        rw [hc1]
        constructor
        · rintro ⟨hm, hq⟩
          rcases div_pos_iff.1 hq with ⟨_, h⟩ | ⟨h, _⟩
          · rcases mul_neg_cases.1 hm with ⟨x, y⟩ | ⟨x, y⟩
            · linarith
            · linarith
          · linarith
        · intro h
          have hb : bz - s < 0 := by
            by_contra hc
            have : 0 ≤ (bz - s) * A := mul_nonneg (not_lt.1 hc) hA.le
            have : (az - s) * B ≤ 0 := mul_nonpos_of_nonneg_of_nonpos (by linarith) hB
            linarith
          exact ⟨mul_neg_of_pos_of_neg (by linarith) hb, div_pos (by linarith) (by linarith)⟩
      have k2 : crosses q e ar az br bz = true ↔ e < az := by
        have hN2 : (bz - e) * A - (az - e) * B < 0 := by nlinarith
        rw [hc2]
        constructor
        · rintro ⟨hm, hq⟩
          rcases div_pos_iff.1 hq with ⟨_, h⟩ | ⟨h, _⟩
          · rcases mul_neg_cases.1 hm with ⟨x, y⟩ | ⟨x, y⟩
            · linarith
            · linarith
          · linarith
        · intro h
          have hb : bz - e < 0 := by
            by_contra hc
            have : 0 ≤ (bz - e) * A := mul_nonneg (not_lt.1 hc) hA.le
            have : (az - e) * B ≤ 0 := mul_nonpos_of_nonneg_of_nonpos (by linarith) hB
            linarith
          exact ⟨mul_neg_of_pos_of_neg (by linarith) hb, div_pos (by linarith) (by linarith)⟩
      rw [Ne, Bool.eq_iff_iff, k1, k2]
      constructor
      · intro h
        rcases lt_or_gt_of_ne a2 with h2 | h2
        · by_cases h1 : s < az
          · exact ⟨h1, h2⟩
          · exact absurd ⟨fun k => absurd k h1, fun k => by linarith⟩ h
        · exact absurd ⟨fun _ => h2, fun _ => by linarith⟩ h
      · rintro ⟨h1, h2⟩ h
        have := h.1 h1
        linarith
    · -- above
      have k1 : crosses p s ar az br bz = true ↔ az < s := by
        have hN2 : 0 < (bz - s) * A - (az - s) * B := by nlinarith
        rw [hc1]
        constructor
        · rintro ⟨hm, hq⟩
          rcases div_pos_iff.1 hq with ⟨h, _⟩ | ⟨_, h⟩
          · linarith
          · rcases mul_neg_cases.1 hm with ⟨x, y⟩ | ⟨x, y⟩
            · linarith
            · linarith
        · intro h
          have hb : 0 < bz - s := by
            by_contra hc
            have : (bz - s) * A ≤ 0 := mul_nonpos_of_nonpos_of_nonneg (not_lt.1 hc) hA.le
            have : 0 ≤ (az - s) * B := mul_nonneg_of_nonpos_of_nonpos (by linarith) hB
            linarith
          exact ⟨mul_neg_of_neg_of_pos (by linarith) hb, div_pos_of_neg_of_neg (by linarith) (by linarith)⟩
      have k2 : crosses q e ar az br bz = true ↔ az < e := by
        rw [hc2]
        constructor
        · rintro ⟨hm, hq⟩
          rcases div_pos_iff.1 hq with ⟨h, _⟩ | ⟨_, h⟩
          · linarith
          · rcases mul_neg_cases.1 hm with ⟨x, y⟩ | ⟨x, y⟩
            · linarith
            · linarith
        · intro h
          have hb : 0 < bz - e := by
            by_contra hc
            have : (bz - e) * A ≤ 0 := mul_nonpos_of_nonpos_of_nonneg (not_lt.1 hc) hA.le
            have : 0 ≤ (az - e) * B := mul_nonneg_of_nonpos_of_nonpos (by linarith) hB
            linarith
          exact ⟨mul_neg_of_neg_of_pos (by linarith) hb, div_pos_of_neg_of_neg (by linarith) (by linarith)⟩
      rw [Ne, Bool.eq_iff_iff, k1, k2]
      constructor
      · intro h
        rcases lt_or_gt_of_ne a1 with h1 | h1
        · exact absurd ⟨fun _ => by linarith, fun _ => h1⟩ h
        · by_cases h2 : az < e
          · exact ⟨h1, h2⟩
          · exact absurd ⟨fun k => by linarith, fun k => absurd k h2⟩ h
      · rintro ⟨h1, h2⟩ h
        have := h.2 h2
        linarith
  -- crossing tests do not depend on the direction of the edge
  have sym : ∀ (r z ar az br bz : K), crosses r z br bz ar az = crosses r z ar az br bz := by
    intro r z ar az br bz
    rw [Bool.eq_iff_iff, crosses_iff, crosses_iff, mul_comm (bz - z) (az - z)]
    have : ((bz - z) * (ar - r) - (az - z) * (br - r)) / (bz - az) = ((az - z) * (br - r) - (bz - z) * (ar - r)) / (az - bz) := by
      rw [← neg_div_neg_eq]; congr 1 <;> ring
    rw [this]
  have symM : ∀ t, ¬ MeetsSeg p s q e br bz ar az t := by
    rintro t ⟨h, h0, h1, u, u0, u1, e1, e2⟩
    exact hno t ⟨fun hc => h (by linear_combination -hc), h0, h1, 1 - u, by linarith, by linarith,
      by linear_combination e1, by linear_combination e2⟩
  by_cases hA : 0 < (ar - p) * (e - s) - (q - p) * (az - s) <;> by_cases hB : 0 < (br - p) * (e - s) - (q - p) * (bz - s)
  · -- both on the right
    obtain ⟨A, hAd⟩ : ∃ A, (ar - p) * (e - s) - (q - p) * (az - s) = A := ⟨_, rfl⟩
    obtain ⟨B, hBd⟩ : ∃ B, (br - p) * (e - s) - (q - p) * (bz - s) = B := ⟨_, rfl⟩
    have hd' : 0 < e - s := by linarith
    have n1 : (e - s) * ((az - s) * (br - p) - (bz - s) * (ar - p)) = (az - s) * B - (bz - s) * A := by rw [← hAd, ← hBd]; ring
    have n2 : (e - s) * ((az - e) * (br - q) - (bz - e) * (ar - q)) = (az - e) * B - (bz - e) * A := by rw [← hAd, ← hBd]; ring
    unfold right
    rw [hAd] at hA ⊢
    rw [hBd] at hB ⊢
    have k1 : crosses p s ar az br bz = true ↔ (az - s) * (bz - s) < 0 := by
      rw [crosses_iff]
      refine ⟨fun h => h.1, fun h => ⟨h, ?_⟩⟩
      rcases mul_neg_cases.1 h with ⟨x, y⟩ | ⟨x, y⟩
      · apply div_pos_of_neg_of_neg _ (by linarith)
        have : (az - s) * B < 0 := mul_neg_of_neg_of_pos x hB
        have : 0 < (bz - s) * A := mul_pos y hA
        by_contra hc
        have := mul_nonneg hd'.le (not_lt.1 hc)
        linarith
      · apply div_pos _ (by linarith)
        have : 0 < (az - s) * B := mul_pos x hB
        have : (bz - s) * A < 0 := mul_neg_of_neg_of_pos y hA
        by_contra hc
        have := mul_nonpos_of_nonneg_of_nonpos hd'.le (not_lt.1 hc)
        linarith
    have k2 : crosses q e ar az br bz = true ↔ (az - e) * (bz - e) < 0 := by
      rw [crosses_iff]
      refine ⟨fun h => h.1, fun h => ⟨h, ?_⟩⟩
      rcases mul_neg_cases.1 h with ⟨x, y⟩ | ⟨x, y⟩
      · apply div_pos_of_neg_of_neg _ (by linarith)
        have : (az - e) * B < 0 := mul_neg_of_neg_of_pos x hB
        have : 0 < (bz - e) * A := mul_pos y hA
        by_contra hc
        have := mul_nonneg hd'.le (not_lt.1 hc)
        linarith
      · apply div_pos _ (by linarith)
        have : 0 < (az - e) * B := mul_pos x hB
        have : (bz - e) * A < 0 := mul_neg_of_neg_of_pos y hA
        by_contra hc
        have := mul_nonpos_of_nonneg_of_nonpos hd'.le (not_lt.1 hc)
        linarith
    rw [Ne, Bool.eq_iff_iff, k1, k2, Ne, Bool.eq_iff_iff, decide_eq_true_eq, decide_eq_true_eq]
    rw [mul_neg_cases, mul_neg_cases]
    simp only [hA, hB, and_true, sub_neg, sub_pos]
    rcases lt_or_gt_of_ne a1 with x1 | x1 <;> rcases lt_or_gt_of_ne a2 with x2 | x2 <;>
      rcases lt_or_gt_of_ne b1 with y1 | y1 <;> rcases lt_or_gt_of_ne b2 with y2 | y2 <;>
      first
      | (exfalso; linarith)
      | simp [x1, x2, y1, y2, not_lt.2 (le_of_lt x1), not_lt.2 (le_of_lt x2), not_lt.2 (le_of_lt y1), not_lt.2 (le_of_lt y2)]
  · -- from right to left
    rw [half ar az br bz a1 a2 b1 b2 hno hA (not_lt.1 hB)]
    unfold right
    simp only [hA, hB, and_true, and_false, decide_false]
    simp
  · -- from left to right
    rw [← sym p s, ← sym q e, half br bz ar az b1 b2 a1 a2 symM hB (not_lt.1 hA)]
    unfold right
    simp only [hA, hB, and_true, and_false, decide_false]
    simp
  · -- both on the left
    obtain ⟨A, hAd⟩ : ∃ A, (ar - p) * (e - s) - (q - p) * (az - s) = A := ⟨_, rfl⟩
    obtain ⟨B, hBd⟩ : ∃ B, (br - p) * (e - s) - (q - p) * (bz - s) = B := ⟨_, rfl⟩
    have hd' : 0 < e - s := by linarith
    have n1 : (e - s) * ((az - s) * (br - p) - (bz - s) * (ar - p)) = (az - s) * B - (bz - s) * A := by rw [← hAd, ← hBd]; ring
    have n2 : (e - s) * ((az - e) * (br - q) - (bz - e) * (ar - q)) = (az - e) * B - (bz - e) * A := by rw [← hAd, ← hBd]; ring
    unfold right
    rw [hAd] at hA ⊢
    rw [hBd] at hB ⊢
    have hA' := not_lt.1 hA
    have hB' := not_lt.1 hB
    have gen : ∀ x y N : K, (e - s) * N = x * B - y * A → x - y = az - bz → x * y < 0 → ¬ 0 < N / (az - bz) := by
      intro x y N hN hxy hm hq
      rcases mul_neg_cases.1 hm with ⟨h1, h2⟩ | ⟨h1, h2⟩
      · rcases div_pos_iff.1 hq with ⟨_, h⟩ | ⟨h, _⟩
        · linarith
        · have : (e - s) * N < 0 := mul_neg_of_pos_of_neg hd' h
          have : 0 ≤ x * B := mul_nonneg_of_nonpos_of_nonpos h1.le hB'
          have : y * A ≤ 0 := mul_nonpos_of_nonneg_of_nonpos h2.le hA'
          linarith
      · rcases div_pos_iff.1 hq with ⟨h, _⟩ | ⟨_, h⟩
        · have : 0 < (e - s) * N := mul_pos hd' h
          have : x * B ≤ 0 := mul_nonpos_of_nonneg_of_nonpos h1.le hB'
          have : 0 ≤ y * A := mul_nonneg_of_nonpos_of_nonpos h2.le hA'
          linarith
        · linarith
    have k1 : crosses p s ar az br bz = false := by
      rw [← Bool.not_eq_true, crosses_iff]
      rintro ⟨h1, h2⟩
      exact gen _ _ _ n1 (by ring) h1 h2
    have k2 : crosses q e ar az br bz = false := by
      rw [← Bool.not_eq_true, crosses_iff]
      rintro ⟨h1, h2⟩
      exact gen _ _ _ n2 (by ring) h1 h2
    rw [k1, k2]
    simp [hA, hB]

/-- The same for a horizontal step. -/
theorem edge_flat {p q s ar az br bz : K} (hpq : p ≤ q) (hno : ∀ t, ¬ MeetsSeg p s q s ar az br bz t) :
    crosses p s ar az br bz = crosses q s ar az br bz := by
  rw [Bool.eq_iff_iff, crosses_iff, crosses_iff]
  constructor
  · rintro ⟨h1, h2⟩
    refine ⟨h1, ?_⟩
    by_contra h3
    have hz : az - bz ≠ 0 := by
      intro hc
      have : az - s = bz - s := by linarith
      rw [this] at h1
      exact absurd h1 (not_lt.2 (mul_self_nonneg _))
    have hlt : p < q := by
      rcases lt_or_eq_of_le hpq with h | h
      · exact h
      · rw [← h] at h3; exact absurd h2 h3
    -- r coordinate of the crossing point, relative to p and q
    obtain ⟨X, hX⟩ : ∃ X, ((az - s) * (br - p) - (bz - s) * (ar - p)) / (az - bz) = X := ⟨_, rfl⟩
    have hXq : ((az - s) * (br - q) - (bz - s) * (ar - q)) / (az - bz) = X - (q - p) := by
      rw [← hX]; field_simp; ring
    rw [hX] at h2
    rw [hXq] at h3
    have hqp : q - p ≠ 0 := by linarith
    have hu : 0 ≤ (az - s) / (az - bz) ∧ (az - s) / (az - bz) ≤ 1 := by
      rcases mul_neg_cases.1 h1 with ⟨x, y⟩ | ⟨x, y⟩
      · refine ⟨div_nonneg_of_nonpos x.le (by linarith), ?_⟩
        rw [div_le_one_of_neg (by linarith)]; linarith
      · refine ⟨div_nonneg x.le (by linarith), ?_⟩
        rw [div_le_one (by linarith)]; linarith
    apply hno (X / (q - p))
    refine ⟨?_, div_nonneg h2.le (by linarith), ?_, (az - s) / (az - bz), hu.1, hu.2, ?_, ?_⟩
    · simp only [sub_self, zero_mul, sub_zero]
      exact mul_ne_zero (by linarith) hz
    · rw [div_le_one (by linarith)]; linarith
    · rw [← hX]; field_simp; ring
    · field_simp; ring
  · rintro ⟨h1, h2⟩
    refine ⟨h1, ?_⟩
    have hz : az - bz ≠ 0 := by
      intro hc
      have : az - s = bz - s := by linarith
      rw [this] at h1
      exact absurd h1 (not_lt.2 (mul_self_nonneg _))
    have : ((az - s) * (br - p) - (bz - s) * (ar - p)) / (az - bz) = ((az - s) * (br - q) - (bz - s) * (ar - q)) / (az - bz) + (q - p) := by
      field_simp; ring
    rw [this]; linarith

end Ascot.Wall2D
