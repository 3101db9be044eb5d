import Mathlib.Algebra.Order.Ring.Rat
import Mathlib.Algebra.Order.Field.Rat
import Mathlib.Algebra.Field.Rat
import Mathlib.Analysis.Calculus.Deriv.Pow
import Mathlib.Analysis.Calculus.Deriv.Add
import Mathlib.Analysis.Calculus.Deriv.Mul
import Mathlib.Analysis.Real.Sqrt
import Mathlib.Analysis.Calculus.MeanValue
import Verif.Props.C07_C12_EndCond
import Verif.Lemmas.MathC

/-!
# C55-C58, C65, C66, C73-C75: utility functions of `math.c` and the run summary
-/
set_option linter.unusedSectionVars false
set_option linter.unusedSimpArgs false

namespace Ascot.C55
open Ascot.MathC
variable {K : Type} [LinearOrder K]

/-- In a strictly ascending table any conforming `bsearch` finds exactly the interval that contains the key. -/
theorem rsearch_bracket_partial {bs : (Nat → Int) → Nat → Option Nat} (hbs : Conforms bs) (key : K) (base : Nat → K) {num : Nat}
    (hnum : 1 ≤ num) (hs : ∀ i j, i < j → j < num → base i < base j) :
    (∀ i, rsearch bs key base num = some i ↔ i + 1 < num ∧ base i ≤ key ∧ key < base (i + 1)) ∧
    (rsearch bs key base num = none ↔ key < base 0 ∨ base (num - 1) ≤ key) := by
  have hle : ∀ i j, i ≤ j → j < num → base i ≤ base j := fun i j h hj => by
    rcases Nat.eq_or_lt_of_le h with e | e
    · rw [e]
    · exact (hs i j e hj).le
  have c0 : ∀ i, rcomp key base i = 0 ↔ base i ≤ key ∧ key < base (i + 1) := by
    intro i
    unfold rcomp
    split_ifs with h1 h2
    · exact ⟨fun _ => h1, fun _ => rfl⟩
    · exact ⟨fun h => absurd h (by decide), fun h => absurd h h1⟩
    · exact ⟨fun h => absurd h (by decide), fun h => absurd h h1⟩
  have cp : ∀ i, i + 1 < num → (0 < rcomp key base i ↔ base (i + 1) ≤ key) := by
    intro i hi
    have := hs i (i + 1) (by omega) hi
    unfold rcomp
    split_ifs with h1 h2
    · exact ⟨fun h => by omega, fun h => absurd h (not_le.2 h1.2)⟩
    · exact ⟨fun _ => not_lt.1 fun h => h1 ⟨h2.le, h⟩, fun _ => by omega⟩
    · exact ⟨fun h => by omega, fun h => absurd (this.trans_le h) h2⟩
  have cn : ∀ i, i + 1 < num → (0 ≤ rcomp key base i ↔ base i ≤ key) := by
    intro i hi
    unfold rcomp
    split_ifs with h1 h2
    · exact ⟨fun _ => h1.1, fun _ => by omega⟩
    · exact ⟨fun _ => h2.le, fun _ => by omega⟩
    · refine ⟨fun h => by omega, fun h => ?_⟩
      rcases h.lt_or_eq with h | h
      · exact absurd h h2
      · exact absurd ⟨h.le, h ▸ hs i (i + 1) (by omega) hi⟩ h1
  obtain ⟨a, b⟩ := hbs (rcomp key base) (num - 1)
    (fun i j hij hj h => (cn i (by omega)).2 ((hle i j hij.le (by omega)).trans ((cn j (by omega)).1 h)))
    (fun i j hij hj h => (cp i (by omega)).2 ((hle (i + 1) (j + 1) (by omega) (by omega)).trans ((cp j (by omega)).1 h)))
  have huniq : ∀ i j, i + 1 < num → j + 1 < num → base i ≤ key → key < base (i + 1) → base j ≤ key → key < base (j + 1) → i = j := by
    intro i j hi hj h1 h2 h3 h4
    rcases Nat.lt_trichotomy i j with h | h | h
    · exact absurd ((hle (i + 1) j h (by omega)).trans h3) (not_le.2 h2)
    · exact h
    · exact absurd ((hle (j + 1) i h (by omega)).trans h1) (not_le.2 h4)
  refine ⟨fun i => ⟨fun h => ?_, fun ⟨hi, h1, h2⟩ => ?_⟩, fun h => ?_, fun h => ?_⟩
  · obtain ⟨hi, e⟩ := a i h
    have := (c0 i).1 e
    exact ⟨by omega, this.1, this.2⟩
  · unfold rsearch
    rcases h : bs (rcomp key base) (num - 1) with _ | j
    · exact absurd ((c0 i).2 ⟨h1, h2⟩) (b h i (by omega))
    · obtain ⟨hj, e⟩ := a j h
      have := (c0 j).1 e
      rw [huniq j i (by omega) hi this.1 this.2 h1 h2]
  · have hb := b h
    by_contra hcon
    push Not at hcon
    have key' : ∀ k < num, base k ≤ key := by
      intro k
      induction k with
      | zero => exact fun _ => hcon.1
      | succ k ih =>
        intro hk
        by_contra hlt
        exact hb k (by omega) ((c0 k).2 ⟨ih (by omega), not_le.1 hlt⟩)
    exact absurd (key' (num - 1) (by omega)) (not_le.2 hcon.2)
  · unfold rsearch
    rcases h' : bs (rcomp key base) (num - 1) with _ | j
    · rfl
    · obtain ⟨hj, e⟩ := a j h'
      have := (c0 j).1 e
      rcases h with h | h
      · exact absurd ((hle 0 j (by omega) (by omega)).trans this.1) (not_le.2 h)
      · exact absurd ((hle (j + 1) (num - 1) (by omega) (by omega)).trans h) (not_le.2 this.2)

/-- The `bsearch` of glibc conforms. -/
theorem glibc_conforms : Conforms bsearch := bsearch_conforms

/-- Finding: with a repeated value in the table the search fails for a key inside of the table. -/
theorem repeated_value_not_found : rsearch bsearch (1 : ℚ) (fun i => if i = 0 then 0 else if i < 3 then 1 else 2) 4 = none := by
  decide

example : rsearch bsearch (3 / 2 : ℚ) (fun i => i) 4 = some 1 ∧ rsearch bsearch (3 : ℚ) (fun i => i) 4 = none ∧
    rsearch bsearch (2 : ℚ) (fun i => i) 4 = some 2 := by decide +kernel

end Ascot.C55

namespace Ascot.C56
open Ascot.MathC

/-- Each value of the input appears once with its number of occurrences; the remaining entries are zero; the counts
add up to the length of the input. -/
theorem unique_count (inp : List Int) (u c : Nat → Int) :
    let o := uniquecount inp u c
    ∃ k ≤ inp.length, (∀ i < k, ∀ j < k, o.unique i = o.unique j → i = j) ∧ (∀ v, v ∈ inp ↔ ∃ j < k, o.unique j = v) ∧
      (∀ j < k, o.count j = inp.count (o.unique j)) ∧ (∀ j, k ≤ j → j < inp.length → o.unique j = 0 ∧ o.count j = 0) ∧
      ∑ j ∈ Finset.range inp.length, o.count j = inp.length := by
  have h := uniquecount_inv inp u c
  refine ⟨_, h.le, h.inj, h.mem, h.cnt, h.rest, ?_⟩
  rw [← Finset.sum_range_add_sum_Ico _ h.le, h.sum, Finset.sum_eq_zero, add_zero]
  intro j hj
  rw [Finset.mem_Ico] at hj
  exact (h.rest j hj.1 hj.2).2

/-- Nothing beyond the arrays is written. -/
theorem frame (inp : List Int) (u c : Nat → Int) (j : Nat) (hj : inp.length ≤ j) :
    (uniquecount inp u c).unique j = u j ∧ (uniquecount inp u c).count j = c j := by
  have step : ∀ (l : List Int) (s : Unique), s.n + l.length ≤ inp.length →
      (l.foldl uniqueStep s).unique j = s.unique j ∧ (l.foldl uniqueStep s).count j = s.count j := by
    intro l
    induction l with
    | nil => exact fun s _ => ⟨rfl, rfl⟩
    | cons t l ih =>
      intro s hs
      rw [List.length_cons] at hs
      have one : (uniqueStep s t).unique j = s.unique j ∧ (uniqueStep s t).count j = s.count j ∧ (uniqueStep s t).n ≤ s.n + 1 := by
        unfold uniqueStep
        rw [inner_loop]
        dsimp only
        split_ifs
        · simp only [write]
          rw [if_neg (by omega), if_neg (by omega), if_neg (by omega)]
          exact ⟨rfl, rfl, Nat.le_refl _⟩
        · dsimp only
          rw [if_neg (by omega)]
          exact ⟨rfl, rfl, by omega⟩
      obtain ⟨h1, h2⟩ := ih (uniqueStep s t) (by omega)
      rw [List.foldl_cons]
      exact ⟨h1.trans one.1, h2.trans one.2.1⟩
  obtain ⟨h1, h2⟩ := step inp ⟨_, _, 0⟩ (by dsimp only; omega)
  refine ⟨h1.trans ?_, h2.trans ?_⟩
  · dsimp only
    rw [write_loop (fun _ => (0 : Int))]
    dsimp only
    rw [if_neg (by omega)]
  · dsimp only
    rw [write_loop (fun _ => (0 : Int))]
    dsimp only
    rw [if_neg (by omega)]

example : let o := uniquecount [5, 7, 5, 0] (fun _ => 99) (fun _ => 99)
    (List.range 5).map o.unique = [5, 7, 0, 0, 99] ∧ (List.range 5).map o.count = [2, 1, 1, 0, 99] := by decide

end Ascot.C56

namespace Ascot.C57
open Ascot.MathC
variable {K : Type} [Field K] [LinearOrder K] [IsStrictOrderedRing K]

/-- The vector begins with `a`, ends with `b`, has equal increments, and nothing beyond it is written. -/
theorem linspace_spec (v : Nat → K) (a b : K) {n : Nat} (hn : 2 ≤ n) :
    linspace v a b n 0 = a ∧ linspace v a b n (n - 1) = b ∧
    (∀ i j, i + 1 < n → j + 1 < n → linspace v a b n (i + 1) - linspace v a b n i = linspace v a b n (j + 1) - linspace v a b n j) ∧
    ∀ i, n ≤ i → linspace v a b n i = v i := by
  have hne : (n : K) - 1 ≠ 0 := by
    have : (2 : K) ≤ n := by exact_mod_cast hn
    have : (0 : K) < n - 1 := by linarith
    exact this.ne'
  rw [linspace_eq v a b n (by omega)]
  dsimp only
  refine ⟨?_, ?_, fun i j hi hj => ?_, fun i hi => ?_⟩
  · rw [if_pos (by omega)]
    simp
  · rw [if_pos (by omega), Nat.cast_sub (by omega), Nat.cast_one]
    field_simp
    ring
  · rw [if_pos hi, if_pos (by omega), if_pos hj, if_pos (by omega)]
    push_cast
    ring
  · rw [if_neg (by omega)]

/-- One element: the end point. -/
theorem linspace_one (v : Nat → K) (a b : K) : linspace v a b 1 0 = b ∧ ∀ i, 1 ≤ i → linspace v a b 1 i = v i :=
  ⟨rfl, fun i hi => if_neg (show i ≠ 0 by omega)⟩

example : (List.range 4).map (linspace (fun _ => (9 : ℚ)) 1 2 3) = [1, 3 / 2, 2, 9] := by decide +kernel

end Ascot.C57

namespace Ascot.C58
open Ascot.MathC

private theorem fold_pow (a : Int) (n : Nat) (h : IsInt (a ^ n)) :
    (List.range n).foldl (fun (pow : Option Int) _ => pow.bind fun v => if IsInt (v * a) then some (v * a) else none) (some 1) = some (a ^ n) := by
  induction n with
  | zero => rw [pow_zero]; rfl
  | succ n ih =>
    have hn : IsInt (a ^ n) := by
      by_cases h0 : a = 0
      · subst h0
        obtain _ | n := n
        · decide
        · rw [zero_pow (by omega)]; decide
      have hm : |a ^ n| ≤ |a ^ (n + 1)| := by
        rw [pow_succ, abs_mul]
        have : 1 ≤ |a| := Int.one_le_abs h0
        nlinarith [abs_nonneg (a ^ n)]
      by_cases h1 : |a| = 1
      · have : |a ^ n| = 1 := by rw [abs_pow, h1, one_pow]
        have := abs_le.1 this.le
        exact ⟨by omega, by omega⟩
      · have h2 : 2 ≤ |a| := by have := Int.one_le_abs h0; omega
        have hm2 : 2 * |a ^ n| ≤ |a ^ (n + 1)| := by
          rw [pow_succ, abs_mul]
          nlinarith [abs_nonneg (a ^ n)]
        have hb : |a ^ (n + 1)| ≤ 2147483648 := abs_le.2 ⟨by have := h.1; omega, by have := h.2; omega⟩
        have := abs_le.1 (show |a ^ n| ≤ 1073741824 by omega)
        exact ⟨by omega, by omega⟩
    rw [List.range_succ, List.foldl_append, ih hn]
    simp only [List.foldl_cons, List.foldl_nil, Option.bind_some]
    rw [pow_succ] at h
    rw [if_pos h, pow_succ]

/-- Non-negative exponents: the power, if it is a value of `int`; otherwise the program overflows. -/
theorem ipow_spec (a : Int) (p : Nat) : (IsInt (a ^ p) → ipow a p = some (a ^ p)) ∧ (¬ IsInt (a ^ p) → ipow a p = none) := by
  unfold ipow
  rw [Int.toNat_natCast]
  refine ⟨fold_pow a p, fun h => ?_⟩
  have key : ∀ n v, (List.range n).foldl (fun (pow : Option Int) _ => pow.bind fun v => if IsInt (v * a) then some (v * a) else none) (some 1) = some v →
      v = a ^ n ∧ IsInt v := by
    intro n
    induction n with
    | zero =>
      intro v hv
      simp only [List.range_zero, List.foldl_nil, Option.some.injEq] at hv
      rw [← hv, pow_zero]
      exact ⟨rfl, by decide⟩
    | succ n ih =>
      intro v hv
      rw [List.range_succ, List.foldl_append] at hv
      simp only [List.foldl_cons, List.foldl_nil] at hv
      rw [Option.bind_eq_some_iff] at hv
      obtain ⟨w, hw, hv⟩ := hv
      split_ifs at hv with hi
      rw [Option.some.injEq] at hv
      rw [← hv, pow_succ, ← (ih w hw).1]
      exact ⟨rfl, hi⟩
  rcases e : (List.range p).foldl (fun (pow : Option Int) _ => pow.bind fun v => if IsInt (v * a) then some (v * a) else none) (some 1) with _ | v
  · rfl
  · obtain ⟨h1, h2⟩ := key p v e
    rw [h1] at h2
    exact absurd h2 h

/-- Negative exponents give one. -/
theorem ipow_negative (a : Int) {p : Int} (hp : p ≤ 0) : ipow a p = some 1 := by
  unfold ipow
  rw [Int.toNat_of_nonpos hp]
  rfl

example : ipow (-2) 31 = some (-2147483648) ∧ ipow 2 31 = none ∧ ipow 0 0 = some 1 := by decide

end Ascot.C58

namespace Ascot.C65
open Ascot.MathC
variable {K : Type} [Field K]

/-- Two ways to store a matrix with `rows` rows and `cols` columns. -/
inductive Layout
  | rowMajor
  | columnMajor

/-- Position of an element. -/
def Layout.pos (l : Layout) (rows cols i j : Nat) : Nat :=
  match l with
  | .rowMajor => i * cols + j
  | .columnMajor => j * rows + i

/-- `c` is the product of the `d1`×`d2` matrix `a` and the `d2`×`d3` matrix `b`, with the given layouts. -/
def IsProduct (la lb lc : Layout) (a b : Nat → K) (d1 d2 d3 : Nat) (c : Nat → K) : Prop :=
  ∀ i < d1, ∀ j < d3, c (lc.pos d1 d3 i j) = ∑ k ∈ Finset.range d2, a (la.pos d1 d2 i k) * b (lb.pos d2 d3 k j)

/-- Arguments by columns, result by rows. -/
theorem mixed_layout_partial (a b c : Nat → K) (d1 d2 d3 : Nat) :
    IsProduct .columnMajor .columnMajor .rowMajor a b d1 d2 d3 (matmul a b d1 d2 d3 c) ∧
    ∀ x, d1 * d3 ≤ x → matmul a b d1 d2 d3 c x = c x := by
  obtain ⟨h1, h2⟩ := matmul_rows a b d1 d2 d3 d1 c
  exact ⟨fun i hi j hj => (h1 i hi j hj).trans (matSum_eq a b d1 d2 i j), h2⟩

/-- Finding: with one layout for arguments and result the product is wrong for some square matrices, whichever layout. -/
theorem no_uniform_layout (l : Layout) : ∃ a b : Nat → ℚ, ∀ c, ¬ IsProduct l l l a b 2 2 2 (matmul a b 2 2 2 c) := by
  refine ⟨fun i => i, fun i => if i = 1 then 1 else 0, fun c h => ?_⟩
  obtain ⟨hm, -⟩ := mixed_layout_partial (fun i => (i : ℚ)) (fun i => if i = 1 then 1 else 0) c 2 2 2
  have m00 := hm 0 (by decide) 0 (by decide)
  have m01 := hm 0 (by decide) 1 (by decide)
  have m10 := hm 1 (by decide) 0 (by decide)
  have m11 := hm 1 (by decide) 1 (by decide)
  have c00 := h 0 (by decide) 0 (by decide)
  have c01 := h 0 (by decide) 1 (by decide)
  have c10 := h 1 (by decide) 0 (by decide)
  have c11 := h 1 (by decide) 1 (by decide)
  cases l <;> simp [Layout.pos, Finset.sum_range_succ] at * <;> linarith

/-- A row vector times a matrix, and the square of a matrix whose square is symmetric, do not depend on it
(the two uses in `step_fo_vpa.c`). -/
theorem row_vector_any (a b c : Nat → K) (d2 d3 : Nat) : IsProduct .columnMajor .columnMajor .columnMajor a b 1 d2 d3 (matmul a b 1 d2 d3 c) := by
  intro i hi j hj
  obtain rfl : i = 0 := by omega
  have := (mixed_layout_partial a b c 1 d2 d3).1 0 hi j hj
  simpa [Layout.pos] using this

example : (List.range 5).map (matmul (fun i => (i : ℚ)) (fun i => (i : ℚ) + 1) 2 2 2 (fun _ => 9)) = [4, 8, 7, 15, 9] := by decide +kernel

end Ascot.C65

namespace Ascot.C66
open Ascot.MathC

/-- The polynomial `p 0 + p 1 x + ... + p 5 x^5`. -/
noncomputable def P (p : Fin 6 → ℝ) (x : ℝ) : ℝ := ∑ i : Fin 6, p i * x ^ (i : Nat)

/-- Exact for every polynomial of degree at most five (cubics have `p 4 = p 5 = 0`), any limits, any tolerance:
the result is the difference of any antiderivative. -/
theorem exact_to_degree_five (p : Fin 6 → ℝ) (F : ℝ → ℝ) (hF : ∀ x, HasDerivAt F (P p x) x) (a b eps : ℝ) :
    simpson (P p) a b eps = F b - F a := by
  have e : P p = poly p := by
    funext x
    unfold P poly
    simp only [Fin.sum_univ_succ, Fin.sum_univ_zero]
    simp
    ring
  have hA : ∀ x, HasDerivAt (anti p) (poly p x) x := by
    intro x
    have h1 := (hasDerivAt_id x).const_mul (p 0)
    have h2 := ((hasDerivAt_pow 2 x).const_mul (p 1)).div_const 2
    have h3 := ((hasDerivAt_pow 3 x).const_mul (p 2)).div_const 3
    have h4 := ((hasDerivAt_pow 4 x).const_mul (p 3)).div_const 4
    have h5 := ((hasDerivAt_pow 5 x).const_mul (p 4)).div_const 5
    have h6 := ((hasDerivAt_pow 6 x).const_mul (p 5)).div_const 6
    have h := ((((h1.add h2).add h3).add h4).add h5).add h6
    have := h.congr_deriv (g' := poly p x) (by unfold poly; push_cast; ring)
    exact this
  have hd : ∀ x, HasDerivAt (fun x => F x - anti p x) 0 x := by
    intro x
    have := (hF x).sub (hA x)
    rw [e, sub_self] at this
    exact this
  have hc : F b - anti p b = F a - anti p a := is_const_of_deriv_eq_zero (fun x => (hd x).differentiableAt) (fun x => (hd x).deriv) b a
  rw [e]
  have := helper_exact p eps maxSimpsonDepth a b
  unfold simpson
  dsimp only
  rw [this]
  linarith

/-- A cubic, with the tolerance zero. -/
example : simpson (fun x : ℚ => x ^ 3 + 2 * x) 1 3 0 = 28 := by decide +kernel

end Ascot.C66

namespace Ascot.C73
open Ascot.MathC
variable {K : Type} [Field K] [DecidableEq K]

/-- `q` is in the plane of the three points. -/
def InPlane (q t1 t2 t3 : V3 K) : Prop := ∃ s t : K, q = ⟨t1.x + s * (t2.x - t1.x) + t * (t3.x - t1.x),
  t1.y + s * (t2.y - t1.y) + t * (t3.y - t1.y), t1.z + s * (t2.z - t1.z) + t * (t3.z - t1.z)⟩

/-- Points that are not in the plane are reported so. -/
theorem off_plane_partial (q t1 t2 t3 : V3 K) (_ : ¬ InPlane q t1 t2 t3) : pointOnPlane q t1 t2 t3 = 0 := by
  unfold pointOnPlane
  simp

/-- Finding: points of the plane are reported not to be in it, all of them. -/
theorem never_on_plane (q t1 t2 t3 : V3 K) (_ : InPlane q t1 t2 t3) : pointOnPlane q t1 t2 t3 = 0 := by
  unfold pointOnPlane
  simp

example : InPlane (⟨1, 1, 0⟩ : V3 ℚ) ⟨0, 0, 0⟩ ⟨1, 0, 0⟩ ⟨0, 1, 0⟩ ∧ ¬ InPlane (⟨1, 1, 1⟩ : V3 ℚ) ⟨0, 0, 0⟩ ⟨1, 0, 0⟩ ⟨0, 1, 0⟩ := by
  refine ⟨⟨1, 1, by norm_num⟩, ?_⟩
  rintro ⟨s, t, h⟩
  have := congrArg V3.z h
  norm_num at this

end Ascot.C73

namespace Ascot.C74
open Ascot.MathC

/-- The coordinates reproduce the point up to a displacement along the normal. -/
theorem barycentric_spec {K : Type} [Field K] (sqrt : K → K) (ap ab ac n : V3 K) (hn : V3.norm sqrt n ≠ 0)
    (h : triple ab ac n ≠ 0) :
    let o := barycentric sqrt ap ab ac n
    ∃ l : K, ap = ⟨o.1 * ab.x + o.2 * ac.x + l * n.x, o.1 * ab.y + o.2 * ac.y + l * n.y, o.1 * ab.z + o.2 * ac.z + l * n.z⟩ := by
  have ht : ∀ a b : V3 K, triple a b (V3.unit sqrt n) = triple a b n / V3.norm sqrt n := by
    intro a b
    simp only [triple, V3.unit]
    field_simp
  dsimp only [barycentric]
  rw [ht, ht, ht, div_div_div_cancel_right₀ hn, div_div_div_cancel_right₀ hn]
  refine ⟨triple ab ac ap / triple ab ac n, ?_⟩
  ext
  · dsimp only
    field_simp
    simp only [triple]
    ring
  · dsimp only
    field_simp
    simp only [triple]
    ring
  · dsimp only
    field_simp
    simp only [triple]
    ring

/-- For a point of the plane they are its coordinates. -/
theorem barycentric_in_plane {K : Type} [Field K] (sqrt : K → K) (ab ac n : V3 K) (s t : K) (hn : V3.norm sqrt n ≠ 0)
    (h : triple ab ac n ≠ 0) :
    barycentric sqrt ⟨s * ab.x + t * ac.x, s * ab.y + t * ac.y, s * ab.z + t * ac.z⟩ ab ac n = (s, t) := by
  have ht : ∀ a b : V3 K, triple a b (V3.unit sqrt n) = triple a b n / V3.norm sqrt n := by
    intro a b
    simp only [triple, V3.unit]
    field_simp
  dsimp only [barycentric]
  rw [ht, ht, ht, div_div_div_cancel_right₀ hn, div_div_div_cancel_right₀ hn]
  refine Prod.ext ?_ ?_
  · dsimp only
    rw [div_eq_iff h]
    simp only [triple]
    ring
  · dsimp only
    rw [div_eq_iff h]
    simp only [triple]
    ring

example : V3.norm Real.sqrt (⟨0, 0, 4⟩ : V3 ℝ) ≠ 0 ∧ triple (⟨2, 0, 0⟩ : V3 ℝ) ⟨0, 2, 0⟩ ⟨0, 0, 4⟩ ≠ 0 := by
  refine ⟨?_, by norm_num [triple]⟩
  have : V3.norm Real.sqrt (⟨0, 0, 4⟩ : V3 ℝ) = 4 := by
    unfold V3.norm
    rw [show (0 : ℝ) * 0 + 0 * 0 + 4 * 4 = 4 * 4 by norm_num, Real.sqrt_mul_self (by norm_num)]
  rw [this]
  norm_num

end Ascot.C74

namespace Ascot.C75
open Ascot.MathC

/-- `l` lists the values of `inp` that satisfy `P`, each once, with their numbers of occurrences. -/
def Tally (inp : List Int) (P : Int → Prop) (l : List (Int × Int)) : Prop :=
  (l.map (·.1)).Nodup ∧ ∀ v k, (v, k) ∈ l ↔ P v ∧ v ∈ inp ∧ k = inp.count v

private theorem tally_of_inv {inp : List Int} {s : Unique} (h : UInv inp.length inp s) (hz : s.count inp.length ≤ 0) :
    ∃ l, visited s inp.length (inp.length + 2) 0 = some l ∧ Tally inp (fun _ => True) l := by
  refine ⟨_, visited_spec h hz s.n 0 (by omega) _ (by have := h.le; omega), ?_, fun v k => ?_⟩
  · rw [List.map_map]
    refine List.Nodup.map_on (fun i hi j hj e => ?_) (List.nodup_range)
    simp only [Function.comp, Nat.zero_add] at e
    exact h.inj i (List.mem_range.1 hi) j (List.mem_range.1 hj) e
  · simp only [List.mem_map, List.mem_range, Prod.mk.injEq, Nat.zero_add, true_and]
    constructor
    · rintro ⟨j, hj, e1, e2⟩
      rw [← e1, ← e2]
      exact ⟨(h.mem _).2 ⟨j, hj, rfl⟩, h.cnt j hj⟩
    · rintro ⟨hv, hk⟩
      obtain ⟨j, hj, e⟩ := (h.mem v).1 hv
      exact ⟨j, hj, e, by rw [h.cnt j hj, e, hk]⟩

/-- The summary lists each end condition once with the number of markers that have it and each error likewise, and says
that no marker was aborted exactly when that is the case.  The arrays are never read beyond their ends. -/
theorem summary_spec (endconds errs : List Int) (u c : Nat → Int) (hl : errs.length = endconds.length) (hne : endconds ≠ []) :
    ∃ s, summary endconds errs u c = some s ∧ Tally endconds (fun _ => True) s.endconds ∧
      Tally errs (fun v => v ≠ 0) s.errors ∧ (s.noneAborted = true ↔ ∀ e ∈ errs, e = 0) := by
  have h1 := uniquecount_inv endconds u c
  have hs1 : UInv endconds.length endconds ⟨(uniquecount endconds u c).unique,
      write (uniquecount endconds u c).count endconds.length 0, (uniquecount endconds u c).n⟩ := by
    have hw : ∀ j < endconds.length, write (uniquecount endconds u c).count endconds.length 0 j = (uniquecount endconds u c).count j :=
      fun j hj => if_neg (show j ≠ endconds.length by omega)
    refine ⟨h1.le, h1.inj, h1.mem, fun j hj => ?_, fun j hj hj' => ?_, ?_⟩
    · have := h1.le
      exact (hw j (Nat.lt_of_lt_of_le hj this)).trans (h1.cnt j hj)
    · exact ⟨(h1.rest j hj hj').1, (hw j hj').trans (h1.rest j hj hj').2⟩
    · rw [← h1.sum]
      refine Finset.sum_congr rfl fun j hj => hw j ?_
      have := h1.le
      have : j < (uniquecount endconds u c).n := Finset.mem_range.1 hj
      omega
  obtain ⟨l1, e1, t1⟩ := tally_of_inv hs1 (by simp [write])
  have h2 := uniquecount_inv errs (uniquecount endconds u c).unique (write (uniquecount endconds u c).count endconds.length 0)
  obtain ⟨l2, e2, t2⟩ := tally_of_inv h2 (by
    rw [(Ascot.C56.frame _ _ _ _ (Nat.le_refl _)).2, hl]
    simp [write])
  unfold summary
  dsimp only
  rw [e1]
  dsimp only
  rw [hl] at e2
  rw [e2]
  refine ⟨_, rfl, t1, ⟨?_, fun v k => ?_⟩, ?_⟩
  · exact t2.1.sublist ((List.filter_sublist).map _)
  · rw [List.mem_filter, t2.2]
    simp only [decide_eq_true_eq, ne_eq, true_and, and_comm]
  · simp only [decide_eq_true_eq]
    set s2 := uniquecount errs (uniquecount endconds u c).unique (write (uniquecount endconds u c).count endconds.length 0)
    have hpos : 0 < endconds.length := List.length_pos_iff.2 hne
    constructor
    · rintro ⟨hc, hu⟩ e he
      have hn : 0 < s2.n := by
        obtain ⟨j, hj, -⟩ := (h2.mem e).1 he
        omega
      have := h2.cnt 0 hn
      rw [hc, hu] at this
      have hcl : errs.count 0 = errs.length := by rw [hl]; exact_mod_cast this.symm
      exact ((List.count_eq_length.1 hcl) e he).symm
    · intro hall
      have hlen : 0 < errs.length := by rw [hl]; exact hpos
      obtain ⟨e, he⟩ := List.exists_mem_of_length_pos hlen
      have hn : 0 < s2.n := by
        obtain ⟨j, hj, -⟩ := (h2.mem e).1 he
        omega
      have hu : s2.unique 0 = 0 := hall _ ((h2.mem _).2 ⟨0, hn, rfl⟩)
      refine ⟨?_, hu⟩
      rw [h2.cnt 0 hn, hu, List.count_eq_length.2 (fun b hb => (hall b hb).symm), hl]

example : ((summary [8, 1, 8] [0, 5, 0] (fun _ => 7) (fun _ => 7)).map fun s => (s.endconds, s.errors, s.noneAborted)) =
    some ([(8, 2), (1, 1)], [(5, 1)], false) := by decide

/-- Length of the text of a code. -/
def len (c : Nat) : Nat := ((EndCond.parse2str c).getD "").length

private theorem text_length : ∀ (l : List Nat) (first : Bool) (s : String), (∀ c ∈ l, EndCond.parse2str c ≠ none) →
    ∃ t, endcondText first s l = some t ∧ t.length ≤ s.length + (l.map fun c => len c + 5).sum := by
  intro l
  induction l with
  | nil => exact fun first s _ => ⟨s, rfl, by simp⟩
  | cons c l ih =>
    intro first s h
    obtain ⟨tc, hc⟩ := Option.ne_none_iff_exists'.1 (h c (by simp))
    obtain ⟨t, ht, hle⟩ := ih false ((if first then s else s ++ " and ") ++ tc) (fun c' hc' => h c' (by simp [hc']))
    refine ⟨t, ?_, hle.trans ?_⟩
    · unfold endcondText
      rw [hc]
      exact ht
    · have e : len c = tc.length := by unfold len; rw [hc]; rfl
      have e5 : (" and " : String).length = 5 := by decide
      rw [List.map_cons, List.sum_cons, e, String.length_append]
      split
      · omega
      · rw [String.length_append, e5]; omega

/-- The text of every end condition value fits into the buffer of 256 characters, and every part of it is written. -/
theorem text_fits (ec : Nat) : ∃ t, endcondLine ec = some t ∧ t.length < 256 := by
  unfold endcondLine
  split_ifs
  · exact ⟨_, rfl, by decide⟩
  obtain ⟨-, hcode, -, -⟩ := C12.parse_spec ec
  obtain ⟨t, ht, hle⟩ := text_length (EndCond.parse ec) true "" (fun c hc => by
    obtain ⟨k, rfl⟩ := hcode c hc
    exact C12.text_of_code k)
  refine ⟨t, ht, ?_⟩
  have hsub : (EndCond.parse ec).Sublist ((List.range 12).map (· + 1)) := by
    rw [C12.parse_eq]
    unfold C12.codesOf
    have : ∀ l : List Nat, (l.filterMap fun b => if ec.testBit b then some (b + 1) else none).Sublist (l.map (· + 1)) := by
      intro l
      induction l with
      | nil => exact List.Sublist.refl _
      | cons a l ih =>
        rw [List.filterMap_cons, List.map_cons]
        split
        · exact ih.cons _
        · rename_i b hb
          split at hb
          · rw [Option.some.injEq] at hb
            rw [hb]
            exact ih.cons_cons _
          · simp at hb
    exact this _
  have hs := (hsub.map fun c => len c + 5).sum_le_sum (fun a _ => Nat.zero_le a)
  have : ((((List.range 12).map (· + 1)).map fun c => len c + 5).sum) = 221 := by decide +kernel
  have : ("" : String).length = 0 := by decide
  omega

example : endcondLine 0x209 = some "Sim time limit and Wall collision and Hybrid condition" := by decide +kernel

end Ascot.C75
