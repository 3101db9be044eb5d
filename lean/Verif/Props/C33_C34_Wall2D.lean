import Verif.Lemmas.Wall2D
import Mathlib.Tactic.NormNum
import Mathlib.Algebra.Order.Ring.Rat

/-!
# C33, C34 and C70: the two-dimensional wall
-/
set_option linter.unusedSectionVars false
set_option linter.unusedSimpArgs false

namespace Ascot.Wall2D
variable {K : Type}

theorem next_eq (w : Wall K) {i : Nat} (h : i < w.n) : w.next i = (i + 1) % w.n := by
  unfold Wall.next
  split
  · rename_i e
    have : i + 1 = w.n := by omega
    rw [this, Nat.mod_self]
  · rw [Nat.mod_eq_of_lt (by omega)]

end Ascot.Wall2D

namespace Ascot.C33
open Ascot.Wall2D
variable {K : Type} [Field K] [LinearOrder K] [IsStrictOrderedRing K]

theorem scan (w : Wall K) (r1 z1 r2 z2 : K) : ∀ (n : Nat), n ≤ w.n →
    let h := (List.range n).foldl (testOne w r1 z1 r2 z2) ⟨2, 0⟩
    ((h.id = 0 ∧ h.w = 2 ∧ ∀ i < n, ∀ t, ¬ Meets w r1 z1 r2 z2 i t) ∨
      ∃ i < n, h.id = i + 1 ∧ Meets w r1 z1 r2 z2 i h.w ∧ (∀ j < n, ∀ t, Meets w r1 z1 r2 z2 j t → h.w ≤ t) ∧
        ∀ j < i, ∀ t, Meets w r1 z1 r2 z2 j t → h.w < t)
  | 0, _ => by left; exact ⟨rfl, rfl, by simp⟩
  | n + 1, hn => by
    have ih := scan w r1 z1 r2 z2 n (by omega)
    dsimp only at ih ⊢
    rw [List.range_succ, List.foldl_append, List.foldl_cons, List.foldl_nil]
    obtain ⟨b, hb⟩ : ∃ b, (List.range n).foldl (testOne w r1 z1 r2 z2) ⟨2, 0⟩ = b := ⟨_, rfl⟩
    rw [hb] at ih ⊢
    have hnext := next_eq w (show n < w.n by omega)
    -- the new segment
    have split : (∀ t, ¬ Meets w r1 z1 r2 z2 n t) ∧ testOne w r1 z1 r2 z2 b n = b ∨
        ∃ t, Meets w r1 z1 r2 z2 n t ∧ (∀ s, Meets w r1 z1 r2 z2 n s → s = t) ∧
          testOne w r1 z1 r2 z2 b n = if t < b.w then ⟨t, n + 1⟩ else b := by
      unfold Meets testOne
      dsimp only
      rw [hnext]
      by_cases hd : (r1 - r2) * (w.z n - w.z ((n + 1) % w.n)) - (z1 - z2) * (w.r n - w.r ((n + 1) % w.n)) = 0
      · left; rw [if_pos hd]; exact ⟨fun t ht => ht.1 hd, rfl⟩
      · rw [if_neg hd]
        by_cases hc : ∃ t, MeetsSeg r1 z1 r2 z2 (w.r n) (w.z n) (w.r ((n + 1) % w.n)) (w.z ((n + 1) % w.n)) t
        · right
          obtain ⟨t, ht⟩ := hc
          refine ⟨t, ht, ?_, ?_⟩
          · intro s hs
            rw [((meets_iff hd).1 hs).1, ((meets_iff hd).1 ht).1]
          · obtain ⟨e1, e2, e3, e4, e5⟩ := (meets_iff hd).1 ht
            rw [← e1]
            by_cases hlt : t < b.w
            · rw [if_pos ⟨e2, e3, e4, e5, hlt⟩, if_pos hlt]
            · rw [if_neg (fun h => hlt h.2.2.2.2), if_neg hlt]
        · left
          refine ⟨fun t ht => hc ⟨t, ht⟩, ?_⟩
          rw [if_neg]
          rintro ⟨e2, e3, e4, e5, _⟩
          exact hc ⟨_, (meets_iff hd).2 ⟨rfl, e2, e3, e4, e5⟩⟩
    rcases split with ⟨hno, e⟩ | ⟨t, ht, huniq, e⟩
    · rw [e]
      rcases ih with ⟨i1, i2, i3⟩ | ⟨i, hi, i1, i2, i3, i4⟩
      · left
        refine ⟨i1, i2, fun i hi t => ?_⟩
        rcases Nat.lt_succ_iff_lt_or_eq.1 hi with h | rfl
        · exact i3 i h t
        · exact hno t
      · right
        refine ⟨i, by omega, i1, i2, fun j hj s hs => ?_, i4⟩
        rcases Nat.lt_succ_iff_lt_or_eq.1 hj with h | rfl
        · exact i3 j h s hs
        · exact absurd hs (hno s)
    · rw [e]
      have ht1 : t ≤ 1 := ht.2.2.1
      rcases ih with ⟨i1, i2, i3⟩ | ⟨i, hi, i1, i2, i3, i4⟩
      · right
        rw [if_pos (by rw [i2]; linarith)]
        refine ⟨n, by omega, rfl, ht, fun j hj s hs => ?_, fun j hj s hs => absurd hs (i3 j hj s)⟩
        rcases Nat.lt_succ_iff_lt_or_eq.1 hj with h | rfl
        · exact absurd hs (i3 j h s)
        · exact le_of_eq (huniq s hs).symm
      · right
        by_cases hlt : t < b.w
        · rw [if_pos hlt]
          refine ⟨n, by omega, rfl, ht, fun j hj s hs => ?_, fun j hj s hs => lt_of_lt_of_le hlt (i3 j hj s hs)⟩
          rcases Nat.lt_succ_iff_lt_or_eq.1 hj with h | rfl
          · exact le_trans hlt.le (i3 j h s hs)
          · exact le_of_eq (huniq s hs).symm
        · rw [if_neg hlt]
          refine ⟨i, by omega, i1, i2, fun j hj s hs => ?_, i4⟩
          rcases Nat.lt_succ_iff_lt_or_eq.1 hj with h | rfl
          · exact i3 j h s hs
          · rw [huniq s hs]; exact not_lt.1 hlt

/-- **C33.** For all walls and steps: if no segment is met, zero is returned; otherwise the number of
a segment that is met, with the parameter where it is met, which is the smallest of all. -/
theorem nearest (w : Wall K) (r1 z1 r2 z2 : K) :
    let h := findIntersection w r1 z1 r2 z2
    (h.id = 0 ∧ ∀ i < w.n, ∀ t, ¬ Meets w r1 z1 r2 z2 i t) ∨
      ∃ i < w.n, h.id = i + 1 ∧ Meets w r1 z1 r2 z2 i h.w ∧ (∀ j < w.n, ∀ t, Meets w r1 z1 r2 z2 j t → h.w ≤ t) := by
  have := scan w r1 z1 r2 z2 w.n le_rfl
  dsimp only at this ⊢
  rcases this with ⟨a, _, b⟩ | ⟨i, a, b, c, d, _⟩
  · exact .inl ⟨a, b⟩
  · exact .inr ⟨i, a, b, c, d⟩

/-- A square, crossed twice by a step to the right: the first crossing is reported. -/
example : (findIntersection (K := ℚ) ⟨4, fun i => [0, 1, 1, 0].getD i 0, fun i => [0, 0, 1, 1].getD i 0⟩ (-1) (1 / 2) 2 (1 / 2)).id = 4 := by
  decide +kernel

/-- A step along a wall segment is not reported by that segment, as the test leaves out parallel
segments: here a step that begins and ends on the only wall segments. -/
theorem parallel_missed : ∃ (w : Wall ℚ), w.n = 2 ∧ (findIntersection w 0 0 1 0).id = 0 ∧
    w.r 0 = 0 ∧ w.z 0 = 0 ∧ w.r 1 = 1 ∧ w.z 1 = 0 :=
  ⟨⟨2, fun i => if i = 1 then 1 else 0, fun _ => 0⟩, rfl, by decide +kernel, rfl, rfl, rfl, rfl⟩

end Ascot.C33

namespace Ascot.C34
open Ascot.Wall2D
variable {K : Type} [Field K] [LinearOrder K] [IsStrictOrderedRing K]

theorem crosses_spec {r z r1 z1 r2 z2 : K} (h1 : z1 ≠ z) (h2 : z2 ≠ z) :
    crosses r z r1 z1 r2 z2 = true ↔ CrossesRay r z r1 z1 r2 z2 := by
  rw [crosses_iff]
  constructor
  · rintro ⟨hm, hq⟩
    have hz : z1 - z2 ≠ 0 := by
      intro hc
      have : z1 - z = z2 - z := by linarith
      rw [this] at hm
      exact absurd hm (not_lt.2 (mul_self_nonneg _))
    refine ⟨(z1 - z) / (z1 - z2), ?_, ?_, by field_simp; ring, ?_⟩
    · rcases mul_neg_cases.1 hm with ⟨x, y⟩ | ⟨x, y⟩
      · exact div_pos_of_neg_of_neg x (by linarith)
      · exact div_pos x (by linarith)
    · rcases mul_neg_cases.1 hm with ⟨x, y⟩ | ⟨x, y⟩
      · rw [div_lt_one_of_neg (by linarith)]; linarith
      · rw [div_lt_one (by linarith)]; linarith
    · have : r1 + (z1 - z) / (z1 - z2) * (r2 - r1) - r = ((z1 - z) * (r2 - r) - (z2 - z) * (r1 - r)) / (z1 - z2) := by
        field_simp; ring
      linarith
  · rintro ⟨u, u0, u1, hu, hr⟩
    have hz : z1 - z2 ≠ 0 := by
      intro hc
      have : z2 - z1 = 0 := by linarith
      rw [this, mul_zero, add_zero] at hu
      exact h1 hu
    have e1 : z1 - z = u * (z1 - z2) := by linarith
    have e2 : z2 - z = -((1 - u) * (z1 - z2)) := by linarith
    constructor
    · rw [e1, e2]
      have : 0 < (z1 - z2) * (z1 - z2) := by
        rcases lt_or_gt_of_ne hz with h | h
        · exact mul_pos_of_neg_of_neg h h
        · exact mul_pos h h
      have : 0 < (u * (1 - u)) * ((z1 - z2) * (z1 - z2)) := mul_pos (mul_pos u0 (by linarith)) this
      nlinarith
    · have : ((z1 - z) * (r2 - r) - (z2 - z) * (r1 - r)) / (z1 - z2) = r1 + u * (r2 - r1) - r := by
        rw [e1, e2]; field_simp; ring
      rw [this]; linarith

open Classical in
/-- **C34**, parity: for a polygon without a vertex at the height of the point, the result is the
number of edges that cross the ray to larger major radius, modulo two. -/
theorem parity_partial (w : Wall K) (r z : K) (hz : ∀ i < w.n, w.z i ≠ z) :
    inside w r z = ((Finset.range w.n).filter fun i =>
      CrossesRay r z (w.r i) (w.z i) (w.r ((i + 1) % w.n)) (w.z ((i + 1) % w.n))).card % 2 := by
  unfold inside
  rw [count_fold, Finset.card_filter]
  congr 1
  apply Finset.sum_congr rfl
  intro i hi
  rw [Finset.mem_range] at hi
  have hn := next_eq w hi
  have hlt := next_lt w hi
  rw [← hn]
  by_cases h : CrossesRay r z (w.r i) (w.z i) (w.r (w.next i)) (w.z (w.next i))
  · rw [if_pos h, (crosses_spec (hz i hi) (hz _ hlt)).2 h]; rfl
  · rw [if_neg h, Bool.eq_false_iff.2 (fun hc => h ((crosses_spec (hz i hi) (hz _ hlt)).1 hc))]; rfl

/-- **C34**, start: the result does not depend on the vertex from which the polygon is listed. -/
theorem start (w : Wall K) (k : Nat) (r z : K) :
    inside ⟨w.n, fun i => w.r ((i + k) % w.n), fun i => w.z ((i + k) % w.n)⟩ r z = inside w r z := by
  unfold inside
  rw [count_fold, count_fold]
  congr 1
  have cyc : ∀ (g : Nat → Nat) (k : Nat), ∑ i ∈ Finset.range w.n, g ((i + k) % w.n) = ∑ i ∈ Finset.range w.n, g i := by
    intro g k
    induction k with
    | zero =>
      apply Finset.sum_congr rfl
      intro i hi
      rw [Finset.mem_range] at hi
      rw [Nat.add_zero, Nat.mod_eq_of_lt hi]
    | succ k ih =>
      rw [← ih, ← sum_next w (fun i => g ((i + k) % w.n))]
      apply Finset.sum_congr rfl
      intro i hi
      rw [Finset.mem_range] at hi
      rw [next_eq w hi, Nat.mod_add_mod]
      congr 2; omega
  rw [← cyc (fun i => (crosses r z (w.r i) (w.z i) (w.r (w.next i)) (w.z (w.next i))).toNat) k]
  apply Finset.sum_congr rfl
  intro i hi
  rw [Finset.mem_range] at hi
  dsimp only at hi ⊢
  have hlt : (i + k) % w.n < w.n := Nat.mod_lt _ (by omega)
  have e : (Wall.next ⟨w.n, fun i => w.r ((i + k) % w.n), fun i => w.z ((i + k) % w.n)⟩ i + k) % w.n = w.next ((i + k) % w.n) := by
    have e0 : Wall.next ⟨w.n, fun i => w.r ((i + k) % w.n), fun i => w.z ((i + k) % w.n)⟩ i = w.next i := rfl
    rw [e0, next_eq w hlt, next_eq w hi, Nat.mod_add_mod, Nat.mod_add_mod]
    congr 1; omega
  rw [e]

/-- The routine for a closed list of points gives the same as the one for the wall. -/
theorem closed_list (w : Wall K) (r z : K) (rv zv : Nat → K) (h0 : 0 < w.n) (hr : ∀ i < w.n, rv i = w.r i) (hz : ∀ i < w.n, zv i = w.z i)
    (hr' : rv w.n = w.r 0) (hz' : zv w.n = w.z 0) : pointInPolygon r z rv zv (w.n + 1) = inside w r z := by
  unfold inside pointInPolygon
  rw [count_fold, count_fold, Nat.add_sub_cancel]
  congr 1
  apply Finset.sum_congr rfl
  intro i hi
  rw [Finset.mem_range] at hi
  rw [hr i hi, hz i hi]
  unfold Wall.next
  split
  · rename_i e
    have : i + 1 = w.n := by omega
    rw [this, hr', hz']
  · rw [hr (i + 1) (by omega), hz (i + 1) (by omega)]

example : 0 < (⟨4, fun i => [0, 1, 1, 0].getD i 0, fun i => [0, 0, 1, 1].getD i 0⟩ : Wall ℚ).n ∧
    (∀ i < 4, (fun i => [0, 1, 1, 0, 0].getD i 0 : Nat → ℚ) i = (fun i => [0, 1, 1, 0].getD i 0 : Nat → ℚ) i) := by
  refine ⟨by decide, ?_⟩
  decide +kernel

/-- **C34**, rectangles: away from the heights of the vertices, the result is one exactly between the
left (inclusive) and the right edge (exclusive) and between the lower and the upper edge. -/
theorem rectangle {x0 x1 y0 y1 r z : K} (hx : x0 < x1) (hy : y0 < y1) (h0 : z ≠ y0) (h1 : z ≠ y1) :
    inside ⟨4, fun i => [x0, x1, x1, x0].getD i 0, fun i => [y0, y0, y1, y1].getD i 0⟩ r z = 1 ↔
      x0 ≤ r ∧ r < x1 ∧ y0 < z ∧ z < y1 := by
  unfold inside
  rw [count_fold]
  dsimp only
  rw [Finset.sum_range_succ, Finset.sum_range_succ, Finset.sum_range_succ, Finset.sum_range_one]
  simp only [Wall.next, Nat.add_one_sub_one, List.getD_cons_zero, List.getD_cons_succ]
  norm_num
  have flat : ∀ a b c d : K, crosses r z a c b c = false := by
    intro a b c d
    rw [← Bool.not_eq_true, crosses_iff, not_and]
    intro hc
    exact absurd hc (not_lt.2 (mul_self_nonneg _))
  rw [flat x0 x1 y0 0, flat x1 x0 y1 0]
  have vert : ∀ x a b : K, a ≠ b → (crosses r z x a x b = true ↔ (a - z) * (b - z) < 0 ∧ r < x) := by
    intro x a b hab
    rw [crosses_iff]
    have hne : a - b ≠ 0 := sub_ne_zero.2 hab
    have : ((a - z) * (x - r) - (b - z) * (x - r)) / (a - b) = x - r := by field_simp; ring
    rw [this, sub_pos]
  have v1 := vert x1 y0 y1 hy.ne
  have v2 := vert x0 y1 y0 hy.ne'
  have hs : (y0 - z) * (y1 - z) < 0 ↔ y0 < z ∧ z < y1 := by
    rw [mul_neg_cases]
    constructor
    · rintro (⟨a, b⟩ | ⟨a, b⟩)
      · exact ⟨by linarith, by linarith⟩
      · linarith
    · rintro ⟨a, b⟩
      left; exact ⟨by linarith, by linarith⟩
  rw [hs] at v1
  rw [mul_comm, hs] at v2
  by_cases c1 : crosses r z x1 y0 x1 y1 = true <;> by_cases c2 : crosses r z x0 y1 x0 y0 = true
  · rw [c1, c2]
    have := v2.1 c2
    simp
    intro hr
    exact absurd this.2 (not_lt.2 hr)
  · have d1 := v1.1 c1
    rw [c1, Bool.eq_false_iff.2 c2]; simp
    refine ⟨?_, d1.2, d1.1.1, d1.1.2⟩
    by_contra hc
    exact c2 (v2.2 ⟨d1.1, not_le.1 hc⟩)
  · have d2 := v2.1 c2
    exact absurd (v1.2 ⟨d2.1, lt_trans d2.2 hx⟩) c1
  · rw [Bool.eq_false_iff.2 c1, Bool.eq_false_iff.2 c2]
    simp
    intro hr hr' hz
    by_contra hc
    exact c1 (v1.2 ⟨⟨hz, not_le.1 hc⟩, hr'⟩)

example : (0 : ℚ) < 1 ∧ (1 / 2 : ℚ) ≠ 0 ∧ (1 / 2 : ℚ) ≠ 1 := by norm_num

/-- The centre of a diamond, which is at the height of two vertices, is reported as outside: the claim
does not hold at the heights of the vertices. -/
theorem vertex_height_fails : ∃ w : Wall ℚ, w.n = 4 ∧
    inside w 0 0 = 0 ∧ inside w 0 (1 / 10) = 1 ∧ inside w 0 (-1 / 10) = 1 :=
  ⟨⟨4, fun i => [1, 0, -1, 0].getD i 0, fun i => [0, 1, 0, -1].getD i 0⟩, rfl, by decide +kernel, by decide +kernel, by decide +kernel⟩

end Ascot.C34

namespace Ascot.C70
open Ascot.Wall2D
variable {K : Type} [Field K] [LinearOrder K] [IsStrictOrderedRing K]

/-- A step that meets no segment does not change the result of the inside test. -/
theorem same_side (w : Wall K) {r1 z1 r2 z2 : K} (h1 : ∀ i < w.n, w.z i ≠ z1) (h2 : ∀ i < w.n, w.z i ≠ z2)
    (hno : ∀ i < w.n, ∀ t, ¬ Meets w r1 z1 r2 z2 i t) : inside w r1 z1 = inside w r2 z2 := by
  unfold inside
  rw [count_fold, count_fold]
  have hno1 : ∀ i < w.n, ∀ t, ¬ MeetsSeg r1 z1 r2 z2 (w.r i) (w.z i) (w.r (w.next i)) (w.z (w.next i)) t := by
    intro i hi t
    have := hno i hi t
    unfold Meets at this
    rwa [← next_eq w hi] at this
  have hno2 : ∀ i < w.n, ∀ t, ¬ MeetsSeg r2 z2 r1 z1 (w.r i) (w.z i) (w.r (w.next i)) (w.z (w.next i)) t :=
    fun i hi t ht => hno1 i hi (1 - t) (meets_swap ht)
  rcases lt_trichotomy z1 z2 with hz | hz | hz
  · exact parity_of_edges w _ _ (fun i => right r1 z1 r2 z2 (w.r i) (w.z i)) fun i hi =>
      edge_up hz (h1 i hi) (h2 i hi) (h1 _ (next_lt w hi)) (h2 _ (next_lt w hi)) (hno1 i hi)
  · subst hz
    congr 1
    apply Finset.sum_congr rfl
    intro i hi
    rw [Finset.mem_range] at hi
    congr 1
    rcases le_total r1 r2 with h | h
    · exact edge_flat h (hno1 i hi)
    · exact (edge_flat h (hno2 i hi)).symm
  · exact (parity_of_edges w _ _ (fun i => right r2 z2 r1 z1 (w.r i) (w.z i)) fun i hi =>
      edge_up hz (h2 i hi) (h1 i hi) (h2 _ (next_lt w hi)) (h1 _ (next_lt w hi)) (hno2 i hi)).symm

/-- **C70.** For every polygon, convex or not, and every step between points whose heights are not
those of vertices: if the inside test differs at the two points, a wall hit is reported.  At the
heights of vertices the inside test is not reliable (`C34.vertex_height_fails`), so the claim is not
proved there. -/
theorem no_escape_partial (w : Wall K) {r1 z1 r2 z2 : K} (h1 : ∀ i < w.n, w.z i ≠ z1) (h2 : ∀ i < w.n, w.z i ≠ z2)
    (hdiff : inside w r1 z1 ≠ inside w r2 z2) :
    ∃ i < w.n, (findIntersection w r1 z1 r2 z2).id = i + 1 ∧
      Meets w r1 z1 r2 z2 i (findIntersection w r1 z1 r2 z2).w := by
  rcases C33.nearest w r1 z1 r2 z2 with ⟨_, h⟩ | ⟨i, hi, a, b, _⟩
  · exact absurd (same_side w h1 h2 h) hdiff
  · exact ⟨i, hi, a, b⟩

/-- An L-shaped wall, with a step from inside to outside. -/
example : let w : Wall ℚ := ⟨6, fun i => [0, 2, 2, 1, 1, 0].getD i 0, fun i => [0, 0, 1, 1, 2, 2].getD i 0⟩
    inside w (1 / 2) (3 / 2) ≠ inside w (3 / 2) (3 / 2) ∧ (∀ i < w.n, w.z i ≠ 3 / 2) ∧
      (findIntersection w (1 / 2) (3 / 2) (3 / 2) (3 / 2)).id = 4 := by
  decide +kernel

/-- With a vertex at the height of a point, the test can differ although no segment is met. -/
theorem vertex_height_fails : ∃ w : Wall ℚ, inside w 0 (1 / 10) ≠ inside w 0 0 ∧ (findIntersection w 0 (1 / 10) 0 0).id = 0 :=
  ⟨⟨4, fun i => [1, 0, -1, 0].getD i 0, fun i => [0, 1, 0, -1].getD i 0⟩, by decide +kernel, by decide +kernel⟩

end Ascot.C70
