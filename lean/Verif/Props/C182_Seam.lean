import Verif.Model.Seam
import Mathlib.Tactic.Ring
import Mathlib.Tactic.FieldSimp
import Mathlib.Tactic.Linarith
import Mathlib.Tactic.NormNum

/-!
# C182: the check for missing planes looks at the data around the seam, at the position asked for
-/
set_option linter.unusedSectionVars false
set_option linter.unusedSimpArgs false

namespace Ascot.C182
open Ascot.Seam

/-! ## Around the seam -/

theorem roll_get {α : Type} (l : List α) (s k : ℕ) (hs : s ≤ l.length) (hk : k < l.length) :
    (roll l s)[k]? = if k < s then l[l.length - s + k]? else l[k - s]? := by
  unfold roll
  by_cases h : k < s
  · rw [if_pos h, List.getElem?_append_left (by simp; omega), List.getElem?_drop]
  · rw [if_neg h, List.getElem?_append_right (by simp; omega)]
    simp only [List.length_drop]
    rw [show l.length - (l.length - s) = s by omega, List.getElem?_take, if_pos (by omega)]

theorem slice_get {α : Type} (l : List α) (a b k : ℕ) : (slice l a b)[k]? = if a + k < b then l[a + k]? else none := by
  unfold slice
  rw [List.getElem?_drop, List.getElem?_take]

/-- The plane of a period of `n` planes at `k` steps from the first one. -/
def plane (n : ℕ) (k : ℤ) : ℕ := (k % n).toNat

/-- Every point that is looked at is the value of a plane, at the angle of that plane up to whole periods; the points are in
the order of the angles, one step apart, and symmetric about the seam in number. -/
theorem window_get (lo hi p : ℝ) (l : List ℝ) (s : ℕ) (hs : s = (start l.length p).toNat) (k : ℕ)
    (hk : s + k < l.length - s) :
    ∃ v, l[plane l.length ((s : ℤ) + k - (l.length / 2 : ℕ))]? = some v ∧
      (window lo hi p l).1[k]? = some (lo + ((s : ℝ) + k - (l.length / 2 : ℕ)) * ((hi - lo) / l.length)) ∧
      (window lo hi p l).2[k]? = some v := by
  have hn : s + k < l.length := by omega
  have e : l[plane l.length ((s : ℤ) + k - (l.length / 2 : ℕ))]? = (roll l (l.length / 2))[s + k]? := by
    rw [roll_get l _ _ (Nat.div_le_self _ _) hn]
    by_cases h : s + k < l.length / 2
    · rw [if_pos h]
      congr 1
      unfold plane
      rw [← Int.add_emod_right, Int.emod_eq_of_lt (by omega) (by omega)]
      omega
    · rw [if_neg h]
      congr 1
      unfold plane
      rw [Int.emod_eq_of_lt (by omega) (by omega)]
      omega
  have hlt : plane l.length ((s : ℤ) + k - (l.length / 2 : ℕ)) < l.length := by
    unfold plane
    have h1 := Int.emod_lt_of_pos ((s : ℤ) + k - (l.length / 2 : ℕ)) (show (0 : ℤ) < l.length by omega)
    have h2 := Int.emod_nonneg ((s : ℤ) + k - (l.length / 2 : ℕ)) (show (l.length : ℤ) ≠ 0 by omega)
    omega
  refine ⟨_, List.getElem?_eq_getElem hlt, ?_⟩
  unfold window
  simp only [← hs]
  constructor
  · rw [slice_get, if_pos hk, List.getElem?_map, List.getElem?_range hn, Option.map_some]
    congr 1
    unfold phi
    push_cast
    ring
  · rw [slice_get, if_pos hk, ← e]
    exact List.getElem?_eq_getElem hlt

/-- There are as many angles as values, namely those that are not left out at the two ends. -/
theorem window_len (lo hi p : ℝ) (l : List ℝ) : (window lo hi p l).1.length = l.length - 2 * (start l.length p).toNat ∧
    (window lo hi p l).2.length = l.length - 2 * (start l.length p).toNat := by
  unfold window slice roll
  simp
  omega

/-- The start: at most half of the planes are left out on either side, so the plane at the seam is looked at. -/
theorem seam (n : ℕ) (hn : 0 < n) (p : ℝ) (h0 : 0 < p) (h1 : p ≤ 100) :
    0 ≤ start n p ∧ start n p ≤ (n / 2 : ℕ) ∧ ((n / 2 : ℕ) : ℤ) < n - start n p := by
  have hn' : (0 : ℝ) < n := by exact_mod_cast hn
  have hx : (0 : ℝ) ≤ n * (1 - 0.01 * p) / 2 := by
    apply div_nonneg _ (by norm_num)
    apply mul_nonneg hn'.le
    linarith
  have h2 : (n : ℝ) * (1 - 0.01 * p) / 2 < n / 2 := by
    have : (n : ℝ) * (0.01 * p) > 0 := by positivity
    linarith
  have h3 : start n p = ⌊(n : ℝ) * (1 - 0.01 * p) / 2⌋ := by unfold start trunc; rw [if_pos hx]
  have h4 := Int.floor_le ((n : ℝ) * (1 - 0.01 * p) / 2)
  have h5 : (2 * start n p : ℤ) < n := by
    have : ((2 * start n p : ℤ) : ℝ) < (n : ℤ) := by
      rw [h3]; push_cast; linarith
    exact_mod_cast this
  have h6 : 0 ≤ start n p := by rw [h3]; exact Int.floor_nonneg.mpr hx
  omega

/-- At the seam the value is that of the first plane, at its own angle. -/
theorem seam_value (lo hi p : ℝ) (v : ℝ) (l : List ℝ) (h0 : 0 < p) (h1 : p ≤ 100) :
    ∃ k : ℕ, (window lo hi p (v :: l)).1[k]? = some lo ∧ (window lo hi p (v :: l)).2[k]? = some v := by
  obtain ⟨a, b, c⟩ := seam (v :: l).length (by simp) p h0 h1
  obtain ⟨w, hw, hg, hv⟩ := window_get lo hi p (v :: l) (start (v :: l).length p).toNat rfl
    ((v :: l).length / 2 - (start (v :: l).length p).toNat) (by omega)
  have e : (((start (v :: l).length p).toNat : ℤ) + ((v :: l).length / 2 - (start (v :: l).length p).toNat : ℕ)
      - ((v :: l).length / 2 : ℕ)) = 0 := by omega
  have e' : (((start (v :: l).length p).toNat : ℝ) + ((v :: l).length / 2 - (start (v :: l).length p).toNat : ℕ)
      - ((v :: l).length / 2 : ℕ)) = 0 := by exact_mod_cast e
  rw [e] at hw
  rw [e'] at hg
  simp [plane] at hw
  subst hw
  exact ⟨_, by rw [hg]; simp, hv⟩

example : ∃ k : ℕ, (window 5 365 10 (7 :: List.replicate 39 8)).1[k]? = some 5 ∧
    (window 5 365 10 (7 :: List.replicate 39 8)).2[k]? = some 7 := seam_value 5 365 10 7 _ (by norm_num) (by norm_num)

/-- The points used for the fit: as many as asked for, and on either side equally many are left out, up to one. -/
theorem centre {α : Type} (l : List α) (n : ℕ) (hn : n ≤ l.length) : ∃ a m b, centremost l n = some m ∧ l = a ++ m ++ b ∧
    m.length = n ∧ a.length ≤ b.length ∧ b.length ≤ a.length + 1 := by
  refine ⟨l.take ((l.length - n) / 2), slice l ((l.length - n) / 2) ((l.length - n) / 2 + n),
    l.drop ((l.length - n) / 2 + n), ?_, ?_, ?_, ?_, ?_⟩
  · unfold centremost; rw [if_neg (by omega)]
  · unfold slice
    have h : l.take ((l.length - n) / 2) = (l.take ((l.length - n) / 2 + n)).take ((l.length - n) / 2) := by
      rw [List.take_take, Nat.min_eq_left (by omega)]
    rw [h, List.take_append_drop, List.take_append_drop]
  · simp [slice]; omega
  · simp; omega
  · simp; omega

/-- More points than there are are refused. -/
theorem centre_refused {α : Type} (l : List α) (n : ℕ) : centremost l n = none ↔ l.length < n := by
  unfold centremost
  by_cases h : l.length < n
  · simp [h]
  · simp [h]

/-! ## The position -/

/-- For a position within the grid, its end excluded, a grid point within one step is taken.  Missing: the closest one
(`nearest_violation`), the end of the grid (`end_violation`), and refusing positions outside (`below_violation`). -/
theorem near_partial (x lo hi : ℝ) (n : ℕ) (hn : 2 ≤ n) (h0 : lo ≤ x) (h1 : x < hi) :
    ∃ i, mid (some x) lo hi n = some i ∧ i < n ∧ |linspace lo hi n i - x| ≤ (hi - lo) / ((n : ℝ) - 1) := by
  have hd : 0 < hi - lo := by linarith
  have hn' : (2 : ℝ) ≤ n := by exact_mod_cast hn
  obtain ⟨u, hu⟩ : ∃ u, u = (x - lo) / (hi - lo) := ⟨_, rfl⟩
  have hx : x = lo + u * (hi - lo) := by rw [hu]; field_simp; ring
  have u0 : 0 ≤ u := by rw [hu]; exact div_nonneg (by linarith) hd.le
  have u1 : u < 1 := by rw [hu, div_lt_one hd]; linarith
  have hp : 0 ≤ u * n := by positivity
  have f1 := Int.floor_le (u * n)
  have f2 := Int.lt_floor_add_one (u * n)
  have f0 : 0 ≤ ⌊u * n⌋ := Int.floor_nonneg.mpr hp
  have f3 : ⌊u * n⌋ < n := by
    rw [Int.floor_lt]
    push_cast
    nlinarith
  refine ⟨⌊u * n⌋.toNat, ?_, by omega, ?_⟩
  · unfold mid trunc index
    simp only [← hu, if_pos hp, if_pos (And.intro f0 f3)]
  · have hc : ((⌊u * n⌋.toNat : ℕ) : ℝ) = (⌊u * n⌋ : ℝ) := by
      have : ((⌊u * n⌋.toNat : ℕ) : ℤ) = ⌊u * n⌋ := Int.toNat_of_nonneg f0
      exact_mod_cast this
    have hm : (0 : ℝ) < n - 1 := by linarith
    have e : linspace lo hi n ⌊u * n⌋.toNat - x = ((⌊u * n⌋ : ℝ) - u * (n - 1)) * ((hi - lo) / ((n : ℝ) - 1)) := by
      unfold linspace
      rw [hc, hx]
      field_simp
      ring
    rw [e, abs_mul, abs_of_pos (div_pos hd hm)]
    have : |(⌊u * n⌋ : ℝ) - u * (n - 1)| ≤ 1 := by
      rw [abs_le]
      constructor <;> nlinarith
    calc _ ≤ 1 * ((hi - lo) / ((n : ℝ) - 1)) := mul_le_mul_of_nonneg_right this (div_pos hd hm).le
      _ = _ := one_mul _

example : ∃ i, mid (some 3) 0 10 3 = some i ∧ i < 3 ∧ |linspace 0 10 3 i - 3| ≤ (10 - 0) / (((3 : ℕ) : ℝ) - 1) :=
  near_partial 3 0 10 3 (by norm_num) (by norm_num) (by norm_num)

/-- Without a position the middle of the grid is taken. -/
theorem middle (lo hi : ℝ) (n : ℕ) (hn : 0 < n) : mid none lo hi n = some (n / 2) := by
  unfold mid index
  simp only
  rw [if_pos (by omega), Int.toNat_natCast]

/-- The documented closest point is not taken: 3 in the grid 0, 5, 10 gives 0. -/
theorem nearest_violation : ∃ i, mid (some 3) 0 10 3 = some i ∧ |linspace 0 10 3 1 - 3| < |linspace 0 10 3 i - 3| := by
  refine ⟨0, ?_, ?_⟩
  · have : ⌊((3 : ℝ) - 0) / (10 - 0) * ((3 : ℕ) : ℝ)⌋ = 0 := by rw [Int.floor_eq_iff]; norm_num
    unfold mid trunc index
    simp only [this]
    norm_num
  · norm_num [linspace]

/-- At the end of the grid the function stops with an error. -/
theorem end_violation (lo hi : ℝ) (h : lo < hi) (n : ℕ) : mid (some hi) lo hi n = none := by
  have e : (hi - lo) / (hi - lo) * (n : ℝ) = n := by rw [div_self (by linarith), one_mul]
  unfold mid trunc index
  simp only [e, if_pos (Nat.cast_nonneg n : (0 : ℝ) ≤ n), Int.floor_natCast]
  rw [if_neg (by omega), if_neg (by omega)]

/-- A position below the grid can give its last point. -/
theorem below_violation (lo hi : ℝ) (h : lo < hi) (n : ℕ) (hn : 0 < n) :
    ∃ x < lo, mid (some x) lo hi n = some (n - 1) := by
  have hn' : (0 : ℝ) < n := by exact_mod_cast hn
  have hd : 0 < hi - lo := by linarith
  refine ⟨lo - (hi - lo) / n, by have := div_pos hd hn'; linarith, ?_⟩
  have e : (lo - (hi - lo) / n - lo) / (hi - lo) * (n : ℝ) = ((-1 : ℤ) : ℝ) := by
    push_cast; field_simp; ring
  have t : trunc (((-1 : ℤ) : ℝ)) = -1 := by
    unfold trunc
    rw [if_neg (by norm_num), Int.ceil_intCast]
  unfold mid
  simp only [e, t]
  unfold index
  rw [if_neg (by omega), if_pos (by omega)]
  congr 1
  omega

example : ∃ x < (4 : ℝ), mid (some x) 4 8 100 = some 99 := below_violation 4 8 (by norm_num) 100 (by norm_num)

end Ascot.C182
