import Verif.Spec.Linint
import Mathlib.Algebra.Order.Floor.Ring
import Mathlib.Tactic.Linarith
import Mathlib.Tactic.FieldSimp
import Mathlib.Tactic.Ring
import Mathlib.Tactic.Positivity
import Mathlib.Tactic.NormNum

set_option linter.unusedSectionVars false
set_option linter.unusedSimpArgs false

namespace Ascot.Linint
variable {K : Type} [Field K] [LinearOrder K] [IsStrictOrderedRing K] [FloorRing K]

theorem denom_pos {n : Nat} {bc : BC} (hn : 1 ≤ n) (hb : bc = .natural → 2 ≤ n) :
    (0 : K) < (n : K) - 1 * (if bc = .natural then 1 else 0) := by
  split
  · rename_i h
    have : (2 : K) ≤ n := by exact_mod_cast hb h
    linarith
  · have : (1 : K) ≤ n := by exact_mod_cast hn
    linarith

theorem grid_pos {n : Nat} {bc : BC} {min max : K} (hn : 1 ≤ n) (hb : bc = .natural → 2 ≤ n) (h : min < max) :
    0 < gridOf n bc min max := div_pos (by linarith) (denom_pos hn hb)

theorem grid_mul {n : Nat} {bc : BC} {min max : K} (hn : 1 ≤ n) (hb : bc = .natural → 2 ≤ n) :
    max - min = gridOf n bc min max * ((n : K) - 1 * (if bc = .natural then 1 else 0)) := by
  unfold gridOf
  rw [div_mul_cancel₀ _ (denom_pos hn hb).ne']

theorem toInt_cell {i : Nat} {d : K} (h0 : 0 ≤ d) (h1 : d < 1) : toInt ((i : K) + d) = (i : Int) := by
  unfold toInt
  rw [if_pos (by positivity), Int.floor_eq_iff]
  push_cast
  constructor <;> linarith

theorem locate_on {n : Nat} {bc : BC} {min max x d : K} {i : Nat} (hm : min < max)
    (h : On (Axis.init n bc min max) x i d) :
    locate (Axis.init n bc min max) x = ⟨i, d, ((i + 1) % n : Nat) - (i : Int), false⟩ := by
  obtain ⟨lt, last, d0, d1, k, hk, hx⟩ := h
  dsimp only [Axis.init] at lt last hk hx
  have hn : 1 ≤ n := by omega
  have hb : bc = .natural → 2 ≤ n := fun e => by have := last e; omega
  have hg := grid_pos (K := K) hn hb hm
  have hL := grid_mul (K := K) (min := min) (max := max) hn hb
  have hw : wrap (Axis.init n bc min max) x = min + (i + d) * gridOf n bc min max := by
    unfold wrap
    dsimp only [Axis.init]
    cases bc with
    | natural => rw [if_neg (by simp), hx, hk rfl]; simp
    | periodic =>
      rw [if_pos rfl]
      have hq : (x - min) / (max - min) = k + (i + d) / n := by
        have : (n : K) ≠ 0 := by positivity
        rw [hx, hL]
        simp only [if_neg (show ¬ BC.periodic = BC.natural by simp), mul_zero, sub_zero]
        field_simp
        ring
      have hfl : ⌊(x - min) / (max - min)⌋ = k := by
        rw [hq, Int.floor_eq_iff]
        have hn0 : (0 : K) < n := by positivity
        have hi : (i : K) + 1 ≤ n := by exact_mod_cast lt
        have h1 : 0 ≤ ((i : K) + d) / n := by positivity
        have h2 : ((i : K) + d) / n < 1 := by rw [div_lt_one hn0]; linarith
        constructor <;> linarith
      have hf : fmod (x - min) (max - min) + min = min + (i + d) * gridOf n .periodic min max := by
        unfold fmod
        rw [hfl, hx]
        ring
      rw [hf, if_neg]
      · ring
      · have : 0 ≤ ((i : K) + d) * gridOf n .periodic min max := by positivity
        linarith
  unfold locate
  rw [hw]
  dsimp only [Axis.init]
  have hq : (min + (i + d) * gridOf n bc min max - min) / gridOf n bc min max = i + d := by
    field_simp; ring
  have hd : (min + (i + d) * gridOf n bc min max - (min + ((i : Int) : K) * gridOf n bc min max)) / gridOf n bc min max = d := by
    push_cast
    field_simp; ring
  rw [hq, toInt_cell d0 d1, hd]
  by_cases hl : i + 1 = n
  · have hp : bc = .periodic := by
      cases bc with
      | natural => have := last rfl; omega
      | periodic => rfl
    rw [if_pos ⟨hp, by omega⟩, hl, Nat.mod_self]
    congr 1
    omega
  · rw [if_neg (by omega), if_neg, Nat.mod_eq_of_lt (by omega)]
    · congr 1; omega
    · rintro ⟨hb', hn'⟩
      apply hn'
      have hi : (i : K) + 1 ≤ (n : K) - 1 := by
        have := last hb'
        have : ((i + 1 + 1 : Nat) : K) ≤ n := by exact_mod_cast this
        push_cast at this
        linarith
      have h0 : 0 ≤ ((i : K) + d) * gridOf n bc min max := by positivity
      have hmax : max = min + gridOf n bc min max * ((n : K) - 1) := by
        rw [if_pos hb'] at hL
        linarith
      refine ⟨by linarith, ?_⟩
      have := mul_le_mul_of_nonneg_right (show (i : K) + d ≤ n - 1 by linarith) hg.le
      rw [mul_comm] at hmax
      linarith

/-- Every coordinate of a periodic axis, and every one below the last point of another axis, is in a cell. -/
theorem covers {n : Nat} {bc : BC} {min max x : K} (hn : 1 ≤ n) (hb : bc = .natural → 2 ≤ n) (hm : min < max)
    (hx : bc = .natural → min ≤ x ∧ x < max) : ∃ i d, On (Axis.init n bc min max) x i d := by
  have hg := grid_pos (K := K) hn hb hm
  have hL := grid_mul (K := K) (min := min) (max := max) hn hb
  have key : ∀ y : K, 0 ≤ y → y < max - min → ∃ (i : Nat) (d : K), i < n ∧ (bc = .natural → i + 1 < n) ∧ 0 ≤ d ∧ d < 1 ∧
      y = (i + d) * gridOf n bc min max := by
    intro y h0 h1
    have hq : 0 ≤ y / gridOf n bc min max := div_nonneg h0 hg.le
    obtain ⟨i, hi⟩ : ∃ i : Nat, ⌊y / gridOf n bc min max⌋ = (i : Int) :=
      ⟨⌊y / gridOf n bc min max⌋.toNat, (Int.toNat_of_nonneg (Int.floor_nonneg.2 hq)).symm⟩
    have ha := Int.floor_le (y / gridOf n bc min max)
    have hbb := Int.lt_floor_add_one (y / gridOf n bc min max)
    rw [hi] at ha hbb
    push_cast at ha hbb
    have hlt : (i : K) < (n : K) - 1 * (if bc = .natural then 1 else 0) := by
      refine lt_of_le_of_lt ha ?_
      rw [div_lt_iff₀ hg, mul_comm, ← hL]
      exact h1
    have hq' : y = y / gridOf n bc min max * gridOf n bc min max := by rw [div_mul_cancel₀ _ hg.ne']
    refine ⟨i, y / gridOf n bc min max - i, ?_, ?_, by linarith, by linarith, ?_⟩
    · split at hlt
      · exact_mod_cast (show (i : K) < n by linarith)
      · exact_mod_cast (show (i : K) < n by linarith)
    · intro e
      rw [if_pos e] at hlt
      have : (i : K) + 1 < n := by linarith
      exact_mod_cast this
    · rw [add_sub_cancel]; exact hq'
  cases bc with
  | natural =>
    obtain ⟨h0, h1⟩ := hx rfl
    obtain ⟨i, d, a, b, c, e, f⟩ := key (x - min) (by linarith) (by linarith)
    exact ⟨i, d, a, b, c, e, 0, fun _ => rfl, by simp only [Axis.init]; push_cast; linarith⟩
  | periodic =>
    have hl : 0 < max - min := by linarith
    have ha := Int.floor_le ((x - min) / (max - min))
    have hbb := Int.lt_floor_add_one ((x - min) / (max - min))
    rw [le_div_iff₀ hl] at ha
    rw [div_lt_iff₀ hl] at hbb
    obtain ⟨i, d, a, b, c, e, f⟩ := key (x - min - ⌊(x - min) / (max - min)⌋ * (max - min)) (by linarith) (by linarith)
    exact ⟨i, d, a, b, c, e, ⌊(x - min) / (max - min)⌋, fun h => by simp [Axis.init] at h, by simp only [Axis.init]; linarith⟩

theorem locate_outside {n : Nat} {min max x : K} (h : x < min ∨ max < x) :
    (locate (Axis.init n .natural min max) x).err = true := by
  unfold locate wrap
  dsimp only [Axis.init]
  have hn : ¬ (x ≥ min ∧ x ≤ max) := by
    rintro ⟨a, b⟩
    rcases h with h | h
    · exact absurd a (not_le.2 h)
    · exact absurd b (not_le.2 h)
  simp [hn]

theorem read_nat {c : List K} {i : Nat} (h : i < c.length) : read c (i : Int) = some (c.getD i 0) := by
  unfold read
  rw [if_pos (by omega), Int.toNat_natCast, List.getD_eq_getElem?_getD, List.getElem?_eq_getElem h]
  rfl

theorem line_eq (u v d : K) : u * (1 - d) + v * d = line u v d := by unfold line; ring

theorem line_bounds {u v d lo hi : K} (d0 : 0 ≤ d) (d1 : d < 1) (hu : lo ≤ u ∧ u ≤ hi) (hv : lo ≤ v ∧ v ≤ hi) :
    lo ≤ line u v d ∧ line u v d ≤ hi := by
  rw [← line_eq]
  constructor
  · nlinarith [mul_nonneg d0 (sub_nonneg.2 hv.1), mul_nonneg (sub_nonneg.2 d1.le) (sub_nonneg.2 hu.1)]
  · nlinarith [mul_nonneg d0 (sub_nonneg.2 hv.2), mul_nonneg (sub_nonneg.2 d1.le) (sub_nonneg.2 hu.2)]

theorem line_zero (u v : K) : line u v 0 = u := by unfold line; ring

end Ascot.Linint
