import Verif.Model.Interp
import Verif.Spec.Interp
import Verif.Lemmas.Spline
import Verif.Lemmas.InterpForm
import Verif.Lemmas.Linint
import Mathlib.Algebra.BigOperators.Ring.Finset
import Mathlib.Algebra.BigOperators.Field
import Mathlib.Algebra.BigOperators.Group.Finset.Basic
import Mathlib.Algebra.BigOperators.Group.Finset.Piecewise

set_option linter.unusedSectionVars false
set_option linter.unusedSimpArgs false

namespace Ascot.Interp
open Ascot.Linint Ascot.Spline
variable {K : Type} [Field K] [LinearOrder K] [IsStrictOrderedRing K] [FloorRing K]

theorem wrap_on {n : Nat} {bc : BC} {min max x d : K} {i : Nat} (h : On (Axis.init n bc min max) x i d) :
    wrap (Axis.init n bc min max) x = min + (i + d) * gridOf n bc min max ∨ ¬ min < max := by
  by_cases hm : min < max
  swap
  · exact .inr hm
  left
  obtain ⟨lt, last, d0, d1, one, k, hk, hx⟩ := h
  dsimp only [Axis.init] at lt last hk hx one
  have hn : 1 ≤ n := by omega
  have hb : bc = .natural → 2 ≤ n := fun e => by have := last e; omega
  have hg := grid_pos (K := K) hn hb hm
  have hL := grid_mul (K := K) (min := min) (max := max) hn hb
  unfold wrap
  dsimp only [Axis.init]
  cases bc with
  | natural => rw [if_neg (by simp), hx, hk rfl]; simp
  | periodic =>
    rw [if_pos rfl]
    have d1' : d < 1 := lt_of_le_of_ne d1 fun e => by simpa using (one e).1
    have hq : (x - min) / (max - min) = k + (i + d) / n := by
      have : (n : K) ≠ 0 := by positivity
      rw [hx, hL]
      simp only [if_neg (show ¬ BC.periodic = BC.natural by simp), mul_zero, sub_zero]
      field_simp
      ring
    have hfl : ⌊(x - min) / (max - min)⌋ = k := by
      rw [hq, Int.floor_eq_iff]
      have hn0 : (0 : K) < n := by positivity
      have hi : (i : K) + 1 ≤ n := by exact_mod_cast lt
      have h1 : 0 ≤ ((i : K) + d) / n := by positivity
      have h2 : ((i : K) + d) / n < 1 := by rw [div_lt_one hn0]; linarith
      constructor <;> linarith
    have hf : fmod (x - min) (max - min) + min = min + (i + d) * gridOf n .periodic min max := by
      unfold fmod
      rw [hfl, hx]
      ring
    rw [hf, if_neg]
    · ring
    · have : 0 ≤ ((i : K) + d) * gridOf n .periodic min max := by positivity
      linarith

theorem locate_on {n : Nat} {bc : BC} {min max x d : K} {i : Nat} (hm : min < max)
    (h : On (Axis.init n bc min max) x i d) :
    locate (Axis.init n bc min max) x = ⟨i, d, ((i + 1) % n : Nat) - (i : Int), false⟩ := by
  have hw := (wrap_on h).resolve_right (by simpa using hm)
  obtain ⟨lt, last, d0, d1, one, k, hk, hx⟩ := h
  dsimp only [Axis.init] at lt last hk hx one
  have hn : 1 ≤ n := by omega
  have hb : bc = .natural → 2 ≤ n := fun e => by have := last e; omega
  have hg := grid_pos (K := K) hn hb hm
  have hL := grid_mul (K := K) (min := min) (max := max) hn hb
  obtain ⟨N, hN⟩ : ∃ N : K, (n : K) - 1 * (if bc = .natural then 1 else 0) = N := ⟨_, rfl⟩
  rw [hN] at hL
  have hiN : (i : K) + 1 ≤ N := by
    rw [← hN]
    split
    · rename_i e
      have := last e
      have : ((i + 1 + 1 : Nat) : K) ≤ n := by exact_mod_cast this
      push_cast at this
      linarith
    · have : ((i + 1 : Nat) : K) ≤ n := by exact_mod_cast lt
      push_cast at this
      linarith
  have hmax : (min + ((i : K) + d) * gridOf n bc min max = max) ↔ (i : K) + d = N := by
    constructor
    · intro e
      have : ((i : K) + d) * gridOf n bc min max = N * gridOf n bc min max := by linear_combination e + hL
      exact mul_right_cancel₀ hg.ne' this
    · intro e
      rw [e]
      linear_combination -hL
  unfold locate
  rw [hw]
  dsimp only [Axis.init]
  have hq : (min + (i + d) * gridOf n bc min max - min) / gridOf n bc min max = i + d := by
    field_simp; ring
  have hd : (min + (i + d) * gridOf n bc min max - (min + ((i : Int) : K) * gridOf n bc min max)) / gridOf n bc min max = d := by
    push_cast
    field_simp; ring
  have hi : toInt ((i : K) + d - 1 * (if min + (i + d) * gridOf n bc min max = max then 1 else 0)) = (i : Int) := by
    by_cases hd1 : d = 1
    · obtain ⟨e, e'⟩ := one hd1
      have : (i : K) + d = N := by
        rw [← hN, if_pos e, hd1]
        have : ((i + 2 : Nat) : K) = n := by exact_mod_cast e'
        push_cast at this
        linarith
      rw [if_pos (hmax.2 this), hd1]
      have := toInt_cell (K := K) (i := i) (d := 0) le_rfl (by norm_num)
      rw [add_zero] at this
      rw [mul_one, add_sub_cancel_right, this]
    · have hlt : d < 1 := lt_of_le_of_ne d1 hd1
      rw [if_neg]
      · rw [mul_zero, sub_zero, toInt_cell d0 hlt]
      · rw [hmax]
        intro e
        linarith
  rw [hq, hi, hd]
  by_cases hl : i + 1 = n
  · have hp : bc = .periodic := by
      cases bc with
      | natural => have := last rfl; omega
      | periodic => rfl
    rw [if_pos ⟨hp, by omega⟩, hl, Nat.mod_self]
    congr 1
    omega
  · rw [if_neg (by omega), if_neg, Nat.mod_eq_of_lt (by omega)]
    · congr 1; omega
    · rintro ⟨hb', hn'⟩
      apply hn'
      have h0 : 0 ≤ ((i : K) + d) * gridOf n bc min max := by positivity
      have h1 := mul_le_mul_of_nonneg_right (show (i : K) + d ≤ N by linarith) hg.le
      refine ⟨by linarith, by linarith⟩

/-- Every coordinate of a periodic axis, and every one between the ends of another axis, is in a cell. -/
theorem covers {n : Nat} {bc : BC} {min max x : K} (hn : 1 ≤ n) (hb : bc = .natural → 2 ≤ n) (hm : min < max)
    (hx : bc = .natural → min ≤ x ∧ x ≤ max) : ∃ i d, On (Axis.init n bc min max) x i d := by
  by_cases he : bc = .natural ∧ x = max
  · obtain ⟨e, rfl⟩ := he
    have hL := grid_mul (K := K) (min := min) (max := x) hn hb
    rw [if_pos e] at hL
    have h2 := hb e
    refine ⟨n - 2, 1, ?_, fun _ => ?_, by norm_num, le_rfl, fun _ => ⟨e, ?_⟩, 0, fun _ => rfl, ?_⟩
    all_goals simp only [Axis.init]
    · omega
    · omega
    · omega
    · rw [Nat.cast_sub h2]
      push_cast
      linear_combination hL
  · obtain ⟨i, d, h⟩ := Linint.covers hn hb hm (x := x) (fun e => ⟨(hx e).1, lt_of_le_of_ne (hx e).2 fun e' => he ⟨e, e'⟩⟩)
    exact ⟨i, d, h.lt, h.last, h.d0, h.d1.le, fun e => absurd e h.d1.ne, h.at_⟩

theorem locate_outside {n : Nat} {min max x : K} (h : x < min ∨ max < x) :
    (locate (Axis.init n .natural min max) x).err = true := by
  unfold locate wrap
  dsimp only [Axis.init]
  have hn : ¬ (x ≥ min ∧ x ≤ max) := by
    rintro ⟨a, b⟩
    rcases h with h | h
    · exact absurd a (not_le.2 h)
    · exact absurd b (not_le.2 h)
  simp [hn]

/-! ### Tables -/

theorem flatMap_length {α : Type} {m : Nat} (g : Nat → List α) : ∀ (n : Nat), (∀ i < n, (g i).length = m) →
    ((List.range n).flatMap g).length = n * m
  | 0, _ => by simp
  | n + 1, hg => by
    rw [List.range_succ, List.flatMap_append, List.length_append, flatMap_length g n fun i hi => hg i (by omega)]
    simp only [List.flatMap_cons, List.flatMap_nil, List.append_nil]
    rw [hg n (by omega)]
    ring

theorem flatMap_get {α : Type} {m : Nat} (g : Nat → List α) : ∀ (n : Nat), (∀ i < n, (g i).length = m) → ∀ {i q : Nat}, i < n → q < m →
    ((List.range n).flatMap g)[i * m + q]? = (g i)[q]?
  | 0, _, _, _, hi, _ => by omega
  | n + 1, hg, i, q, hi, hq => by
    have hl := flatMap_length g n fun i hi => hg i (by omega)
    rw [List.range_succ, List.flatMap_append]
    simp only [List.flatMap_cons, List.flatMap_nil, List.append_nil]
    by_cases h : i < n
    · have hlt : i * m + q < n * m := by
        calc i * m + q < i * m + m := by omega
          _ = (i + 1) * m := by ring
          _ ≤ n * m := Nat.mul_le_mul_right _ h
      rw [List.getElem?_append_left (by omega)]
      exact flatMap_get g n (fun i hi => hg i (by omega)) h hq
    · have e : i = n := by omega
      rw [List.getElem?_append_right (by rw [hl, e]; omega), hl, e]
      congr 1
      omega

theorem elem_nat (c : List K) (k : Nat) : elem c (k : Int) = c.getD k 0 := by
  unfold elem; rw [Int.toNat_natCast]

/-- The coefficients of a one-dimensional spline. -/
theorem coeff1_eq {f : Nat → K} {n : Nat} {bc : BC} {min max : K} (h : sizeOk n bc = true) :
    ∃ c, coeff1 f n bc min max = some c ∧ c.length = n * 2 ∧ ∀ i < n, elem c ((i * 2 : Nat) : Int) = f i ∧
      elem c ((i * 2 + 1 : Nat) : Int) = second f n bc i / (gridOf n bc min max * gridOf n bc min max) := by
  have hl : ((List.range n).flatMap fun i => [f i, second f n bc i]).length = n * 2 := flatMap_length _ n fun i _ => rfl
  refine ⟨((List.range n).flatMap fun i => [f i, second f n bc i]).mapIdx fun k v =>
      if k % 2 = 1 then v / (gridOf n bc min max * gridOf n bc min max) else v, ?_, ?_, ?_⟩
  · unfold coeff1 splinecomp
    rw [if_pos h]
    rfl
  · rw [List.length_mapIdx, hl]
  · intro i hi
    have g0 := flatMap_get (m := 2) (fun i => [f i, second f n bc i]) n (fun i _ => rfl) hi (q := 0) (by omega)
    have g1 := flatMap_get (m := 2) (fun i => [f i, second f n bc i]) n (fun i _ => rfl) hi (q := 1) (by omega)
    rw [elem_nat, elem_nat, List.getD_eq_getElem?_getD, List.getD_eq_getElem?_getD, List.getElem?_mapIdx, List.getElem?_mapIdx, g1]
    rw [add_zero] at g0
    rw [g0]
    simp

theorem inside_iff {len : Nat} {l : List Int} : inside len l = true ↔ ∀ i ∈ l, 0 ≤ i ∧ i < (len : Int) := by
  unfold inside
  simp [List.all_eq_true]

/-! ### Splines as linear functionals of the data -/

theorem at_ofSecond {o : Op} {g : K} (hg : g ≠ 0) (d u v s t : K) :
    o.at g d u v (s / (g * g)) (t / (g * g)) = (ofSecond u v s t).op o g d := by
  cases o <;> simp only [Op.at, Cubic.op, ofSecond, Cubic.val, Cubic.der, Cubic.der2, k3, k3'] <;> field_simp <;> ring

/-- The spline through `f` (or one of its derivatives) at the fraction `d` of cell `i`. -/
def spl (o : Op) (n : Nat) (bc : BC) (g : K) (i : Nat) (d : K) (f : Nat → K) : K := (pieceComp f n bc i).op o g d

theorem spl_eq {o : Op} {n : Nat} {bc : BC} {g : K} (hg : g ≠ 0) (i : Nat) (d : K) (f : Nat → K) :
    o.at g d (f i) (f ((i + 1) % n)) (second f n bc i / (g * g)) (second f n bc ((i + 1) % n) / (g * g)) = spl o n bc g i d f :=
  at_ofSecond hg ..

theorem second_sum {n : Nat} {bc : BC} (h : sizeOk n bc = true) (w : Nat → K) (g : Nat → Nat → K) {i : Nat} (hi : i < n) :
    ∀ m, second (fun i => ∑ k ∈ Finset.range m, w k * g k i) n bc i = ∑ k ∈ Finset.range m, w k * second (g k) n bc i
  | 0 => by
    have := second_linear h (fun _ => (0 : K)) (fun _ => 0) 0 0 hi
    simpa using this
  | m + 1 => by
    rw [Finset.sum_range_succ, ← second_sum h w g hi m]
    have := second_linear h (fun i => ∑ k ∈ Finset.range m, w k * g k i) (g m) 1 (w m) hi
    rw [one_mul] at this
    rw [← this]
    congr 1
    funext i
    rw [Finset.sum_range_succ, one_mul]

theorem second_weights {n : Nat} {bc : BC} (h : sizeOk n bc = true) {i : Nat} (hi : i < n) :
    ∃ w : Nat → K, ∀ f, second f n bc i = ∑ k ∈ Finset.range n, w k * f k := by
  refine ⟨fun k => second (fun i => if i = k then 1 else 0) n bc i, fun f => ?_⟩
  have e := second_sum h f (fun k i => if i = k then 1 else 0) hi n
  rw [second_congr h (g := f) (fun j hj => ?_) hi] at e
  · rw [e]
    exact Finset.sum_congr rfl fun k _ => mul_comm _ _
  · simp [hj]

theorem at_linear (o : Op) (g d : K) : ∃ α β γ δ : K, ∀ u v s t, o.at g d u v s t = α * u + β * v + γ * s + δ * t := by
  cases o
  · exact ⟨1 - d, d, g * g / 6 * k3 (1 - d), g * g / 6 * k3 d, fun u v s t => by simp only [Op.at]; ring⟩
  · exact ⟨-(1 / g), 1 / g, -(g / 6 * k3' (1 - d)), g / 6 * k3' d, fun u v s t => by simp only [Op.at]; ring⟩
  · exact ⟨0, 0, 1 - d, d, fun u v s t => by simp only [Op.at]; ring⟩

theorem spl_weights {n : Nat} {bc : BC} (h : sizeOk n bc = true) {o : Op} {g : K} (hg : g ≠ 0) {i : Nat} (hi : i < n) (d : K) :
    ∃ w : Nat → K, ∀ f, spl o n bc g i d f = ∑ k ∈ Finset.range n, w k * f k := by
  obtain ⟨i', hi'⟩ : ∃ i', (i + 1) % n = i' := ⟨_, rfl⟩
  have hin : i' < n := hi' ▸ Nat.mod_lt _ (by omega)
  obtain ⟨w, hw⟩ := second_weights (K := K) h hi
  obtain ⟨w', hw'⟩ := second_weights (K := K) h hin
  obtain ⟨α, β, γ, δ, hl⟩ := at_linear o g d
  refine ⟨fun k => α * (if k = i then 1 else 0) + β * (if k = i' then 1 else 0) + γ / (g * g) * w k + δ / (g * g) * w' k, fun f => ?_⟩
  rw [← spl_eq hg, hl, hi', hw, hw']
  simp only [add_mul, Finset.sum_add_distrib]
  have e : ∀ (a : K) (j : Nat), j < n → ∑ k ∈ Finset.range n, a * (if k = j then 1 else 0) * f k = a * f j := by
    intro a j hj
    simp [hj]
  rw [e _ _ hi, e _ _ hin]
  simp only [mul_assoc, ← Finset.mul_sum]
  ring

theorem spl_congr {n : Nat} {bc : BC} (h : sizeOk n bc = true) {o : Op} {g : K} (hg : g ≠ 0) {i : Nat} (hi : i < n) (d : K)
    {f f' : Nat → K} (e : ∀ k < n, f k = f' k) : spl o n bc g i d f = spl o n bc g i d f' := by
  obtain ⟨w, hw⟩ := spl_weights h (o := o) hg hi d
  rw [hw, hw]
  exact Finset.sum_congr rfl fun k hk => by rw [e k (Finset.mem_range.1 hk)]

/-- Splines along different axes commute. -/
theorem spl_comm {n m : Nat} {bc bc' : BC} (h : sizeOk n bc = true) (h' : sizeOk m bc' = true) {o o' : Op} {g g' : K} (hg : g ≠ 0)
    (hg' : g' ≠ 0) {i j : Nat} (hi : i < n) (hj : j < m) (d d' : K) (f : Nat → Nat → K) :
    spl o n bc g i d (fun i => spl o' m bc' g' j d' (f i)) = spl o' m bc' g' j d' (fun j => spl o n bc g i d (fun i => f i j)) := by
  obtain ⟨w, hw⟩ := spl_weights h (o := o) hg hi d
  obtain ⟨w', hw'⟩ := spl_weights h' (o := o') hg' hj d'
  simp only [hw, hw', Finset.mul_sum]
  rw [Finset.sum_comm]
  exact Finset.sum_congr rfl fun k _ => Finset.sum_congr rfl fun l _ => by ring

theorem spl_second {n m : Nat} {bc bc' : BC} (h : sizeOk n bc = true) (h' : sizeOk m bc' = true) {o' : Op} {g' : K}
    (hg' : g' ≠ 0) {i j : Nat} (hi : i < n) (hj : j < m) (d' a : K) (f : Nat → Nat → K) :
    spl o' m bc' g' j d' (fun j => second (fun i => f i j) n bc i / a) = second (fun i => spl o' m bc' g' j d' (f i)) n bc i / a := by
  obtain ⟨w, hw⟩ := second_weights (K := K) h hi
  obtain ⟨w', hw'⟩ := spl_weights h' (o := o') hg' hj d'
  simp only [hw, hw', Finset.mul_sum, Finset.sum_div]
  rw [Finset.sum_comm]
  exact Finset.sum_congr rfl fun k _ => Finset.sum_congr rfl fun l _ => by ring

theorem spline_unique {n : Nat} {bc : BC} (h : sizeOk n bc = true) {f : Nat → K} {q : Nat → Cubic K} (hq : IsSpline n bc f q) :
    ∀ i < cells n bc, q i = pieceComp f n bc i := by
  cases bc with
  | natural =>
    intro i hi
    exact natural_unique (by simpa [sizeOk] using h) hq i (by simp only [cells] at hi; omega)
  | periodic => exact fun i hi => periodic_unique (by simpa [sizeOk] using h) hq i hi

theorem spline_exists {n : Nat} {bc : BC} (h : sizeOk n bc = true) (f : Nat → K) : IsSpline n bc f (pieceComp f n bc) := by
  cases bc with
  | natural => exact pieceComp_natural (by simpa [sizeOk] using h) f
  | periodic => exact pieceComp_periodic (by simpa [sizeOk] using h) f

theorem On.cell {n : Nat} {bc : BC} {min max x d : K} {i : Nat} (h : On (Axis.init n bc min max) x i d) : i < cells n bc := by
  cases bc with
  | natural => have := h.last rfl; simp only [Axis.init] at this; simp only [cells]; omega
  | periodic => exact h.lt

/-! ### Evaluation -/

theorem grid_ne {n : Nat} {bc : BC} {min max : K} (h : sizeOk n bc = true) (hm : min < max) : gridOf n bc min max ≠ 0 := by
  refine (grid_pos ?_ ?_ hm).ne'
  · cases bc <;> simp [sizeOk] at h <;> omega
  · rintro rfl; simpa [sizeOk] using h

theorem eval1_eq {f : Nat → K} {n : Nat} {bc : BC} {min max x d : K} {i : Nat} (h : sizeOk n bc = true) (hm : min < max)
    (hx : On (Axis.init n bc min max) x i d) :
    ∃ c, coeff1 f n bc min max = some c ∧
      eval1f (Axis.init n bc min max) c x = some (some (spl .val n bc (gridOf n bc min max) i d f)) ∧
      eval1df (Axis.init n bc min max) c x = some (some (spl .val n bc (gridOf n bc min max) i d f,
        spl .der n bc (gridOf n bc min max) i d f, spl .der2 n bc (gridOf n bc min max) i d f)) := by
  obtain ⟨c, hc, hl, hel⟩ := coeff1_eq (f := f) (min := min) (max := max) h
  have hi : i < n := hx.lt
  obtain ⟨i', hi'⟩ : ∃ i', (i + 1) % n = i' := ⟨_, rfl⟩
  have hin : i' < n := hi' ▸ Nat.mod_lt _ (by omega)
  have hg := grid_ne h hm
  obtain ⟨e0, e1⟩ := hel i hi
  obtain ⟨e2, e3⟩ := hel i' hin
  have x0 : ((i : Int) * 2) = ((i * 2 : Nat) : Int) := by push_cast; ring
  have x1 : ((i : Int) * 2) + 1 = ((i * 2 + 1 : Nat) : Int) := by push_cast; ring
  have x2 : ((i : Int) * 2) + (((i' : Int) - (i : Int)) * 2) = ((i' * 2 : Nat) : Int) := by push_cast; ring
  have x3 : ((i : Int) * 2) + (((i' : Int) - (i : Int)) * 2) + 1 = ((i' * 2 + 1 : Nat) : Int) := by push_cast; ring
  have hins : inside c.length (reads1 ((i : Int) * 2) (((i' : Int) - (i : Int)) * 2)) = true := by
    rw [inside_iff]
    intro k hk
    simp only [reads1, List.mem_cons, List.not_mem_nil, or_false] at hk
    rw [hl]
    rcases hk with rfl | rfl | rfl | rfl <;> omega
  have key : ∀ o, tensor1 o (elem c) ((i : Int) * 2) (((i' : Int) - (i : Int)) * 2) d (gridOf n bc min max) = spl o n bc (gridOf n bc min max) i d f := by
    intro o
    unfold tensor1
    rw [x3, x2, x1, x0, e0, e1, e2, e3, ← hi', spl_eq hg]
  refine ⟨c, hc, ?_, ?_⟩
  · unfold eval1f
    rw [locate_on hm hx, hi']
    simp only [hins, if_true, Bool.false_eq_true, if_false, form1f_eq, key]
  · unfold eval1df
    rw [locate_on hm hx, hi']
    simp only [hins, if_true, Bool.false_eq_true, if_false, form1df0_eq, form1df1_eq, form1df2_eq, key]

/-! Two dimensions -/

theorem flatMap_get2 {α : Type} {m nx ny : Nat} (g : Nat → Nat → List α) (hg : ∀ i j, (g i j).length = m) {i j q : Nat} (hi : i < nx)
    (hj : j < ny) (hq : q < m) :
    ((List.range ny).flatMap fun j => (List.range nx).flatMap fun i => g i j)[j * (nx * m) + (i * m + q)]? = (g i j)[q]? := by
  have hlt : i * m + q < nx * m := by
    calc i * m + q < i * m + m := by omega
      _ = (i + 1) * m := by ring
      _ ≤ nx * m := Nat.mul_le_mul_right _ hi
  rw [flatMap_get (m := nx * m) (fun j => (List.range nx).flatMap fun i => g i j) ny (fun j _ => flatMap_length _ nx fun i _ => hg i j) hj hlt]
  exact flatMap_get _ nx (fun i _ => hg i j) hi hq

theorem flatMap_length2 {α : Type} {m nx ny : Nat} (g : Nat → Nat → List α) (hg : ∀ i j, (g i j).length = m) :
    ((List.range ny).flatMap fun j => (List.range nx).flatMap fun i => g i j).length = ny * (nx * m) :=
  flatMap_length _ ny fun j _ => flatMap_length _ nx fun i _ => hg i j

theorem coeff2_eq {f : Nat → Nat → K} {nx ny : Nat} {bx by_ : BC} {xg yg : K} (hx : sizeOk nx bx = true) (hy : sizeOk ny by_ = true) :
    ∃ c, coeff2 f nx ny bx by_ xg yg = some c ∧ c.length = ny * (nx * 4) ∧ ∀ i < nx, ∀ j < ny,
      elem c ((j * (nx * 4) + i * 4 : Nat) + 0) = f i j ∧
      elem c ((j * (nx * 4) + i * 4 : Nat) + 1) = second (fun i => f i j) nx bx i / (xg * xg) ∧
      elem c ((j * (nx * 4) + i * 4 : Nat) + 2) = second (fun j => f i j) ny by_ j / (yg * yg) ∧
      elem c ((j * (nx * 4) + i * 4 : Nat) + 3) =
        second (fun j => second (fun i => f i j) nx bx i / (xg * xg)) ny by_ j / (yg * yg) := by
  unfold coeff2
  rw [hx, hy]
  refine ⟨_, rfl, flatMap_length2 _ fun i j => rfl, fun i hi j hj => ?_⟩
  have key : ∀ q < 4, ∀ (g : Nat → Nat → List K), (∀ i j, (g i j).length = 4) →
      elem ((List.range ny).flatMap fun j => (List.range nx).flatMap fun i => g i j) ((j * (nx * 4) + i * 4 : Nat) + (q : Nat)) = (g i j).getD q 0 := by
    intro q hq g hg
    have e : (((j * (nx * 4) + i * 4 : Nat) : Int) + (q : Nat)) = ((j * (nx * 4) + (i * 4 + q) : Nat) : Int) := by push_cast; ring
    rw [e, elem_nat, List.getD_eq_getElem?_getD, List.getD_eq_getElem?_getD, flatMap_get2 g hg hi hj hq]
  exact ⟨key 0 (by omega) (fun i j => [f i j, second (fun i => f i j) nx bx i / (xg * xg), second (fun j => f i j) ny by_ j / (yg * yg),
      second (fun j => second (fun i => f i j) nx bx i / (xg * xg)) ny by_ j / (yg * yg)]) fun _ _ => rfl,
    key 1 (by omega) (fun i j => [f i j, second (fun i => f i j) nx bx i / (xg * xg), second (fun j => f i j) ny by_ j / (yg * yg),
      second (fun j => second (fun i => f i j) nx bx i / (xg * xg)) ny by_ j / (yg * yg)]) fun _ _ => rfl,
    key 2 (by omega) (fun i j => [f i j, second (fun i => f i j) nx bx i / (xg * xg), second (fun j => f i j) ny by_ j / (yg * yg),
      second (fun j => second (fun i => f i j) nx bx i / (xg * xg)) ny by_ j / (yg * yg)]) fun _ _ => rfl,
    key 3 (by omega) (fun i j => [f i j, second (fun i => f i j) nx bx i / (xg * xg), second (fun j => f i j) ny by_ j / (yg * yg),
      second (fun j => second (fun i => f i j) nx bx i / (xg * xg)) ny by_ j / (yg * yg)]) fun _ _ => rfl⟩

/-- A spline in `x` of splines in `y`. -/
def spl2 (ox oy : Op) (ax ay : Axis K) (ix iy : Nat) (dx dy : K) (f : Nat → Nat → K) : K :=
  spl ox ax.n ax.bc ax.grid ix dx fun i => spl oy ay.n ay.bc ay.grid iy dy fun j => f i j

theorem eval2_eq {f : Nat → Nat → K} {nx ny : Nat} {bx by_ : BC} {xmin xmax ymin ymax x y dx dy : K} {i j : Nat}
    (hsx : sizeOk nx bx = true) (hsy : sizeOk ny by_ = true) (hmx : xmin < xmax) (hmy : ymin < ymax)
    (hx : On (Axis.init nx bx xmin xmax) x i dx) (hy : On (Axis.init ny by_ ymin ymax) y j dy)
    (S : Op → Op → K) (hS : S = fun ox oy => spl2 ox oy (Axis.init nx bx xmin xmax) (Axis.init ny by_ ymin ymax) i j dx dy f) :
    ∃ c, coeff2 f nx ny bx by_ (gridOf nx bx xmin xmax) (gridOf ny by_ ymin ymax) = some c ∧
      eval2f (Axis.init nx bx xmin xmax) (Axis.init ny by_ ymin ymax) c x y = some (some (S .val .val)) ∧
      eval2df (Axis.init nx bx xmin xmax) (Axis.init ny by_ ymin ymax) c x y = some (some [S .val .val,
        S .der .val, S .val .der, S .der2 .val, S .val .der2, S .der .der]) := by
  obtain ⟨c, hc, hl, hel⟩ := coeff2_eq (f := f) (xg := gridOf nx bx xmin xmax) (yg := gridOf ny by_ ymin ymax) hsx hsy
  have hi : i < nx := hx.lt
  have hj : j < ny := hy.lt
  obtain ⟨i', hi'⟩ : ∃ i', (i + 1) % nx = i' := ⟨_, rfl⟩
  have hin : i' < nx := hi' ▸ Nat.mod_lt _ (by omega)
  obtain ⟨j', hj'⟩ : ∃ i', (j + 1) % ny = i' := ⟨_, rfl⟩
  have hjn : j' < ny := hj' ▸ Nat.mod_lt _ (by omega)
  have hgx := grid_ne hsx hmx
  have hgy := grid_ne hsy hmy
  have x0 : ((j : Int) * nx * 4 + (i : Int) * 4) = ((j * (nx * 4) + i * 4 : Nat) : Int) := by push_cast; ring
  obtain ⟨N, hN⟩ : ∃ N, ((j : Int) * nx * 4 + (i : Int) * 4) = N := ⟨_, rfl⟩
  obtain ⟨X, hX⟩ : ∃ N, ((i' : Int) - (i : Int)) * 4 = N := ⟨_, rfl⟩
  obtain ⟨Y, hY⟩ : ∃ N, ((j' : Int) - (j : Int)) * (nx * 4) = N := ⟨_, rfl⟩
  have n0 : N = ((j * (nx * 4) + i * 4 : Nat) : Int) := by rw [← hN]; push_cast; ring
  have n1 : N + X = ((j * (nx * 4) + i' * 4 : Nat) : Int) := by rw [← hN, ← hX]; push_cast; ring
  have n2 : N + Y = ((j' * (nx * 4) + i * 4 : Nat) : Int) := by rw [← hN, ← hY]; push_cast; ring
  have n3 : N + X + Y = ((j' * (nx * 4) + i' * 4 : Nat) : Int) := by rw [← hN, ← hX, ← hY]; push_cast; ring
  have n3' : N + Y + X = ((j' * (nx * 4) + i' * 4 : Nat) : Int) := by rw [← hN, ← hX, ← hY]; push_cast; ring
  have bnd : ∀ i < nx, ∀ j < ny, j * (nx * 4) + i * 4 + 3 < c.length := by
    intro i hi j hj
    rw [hl]
    calc j * (nx * 4) + i * 4 + 3 < j * (nx * 4) + nx * 4 := by omega
      _ = (j + 1) * (nx * 4) := by ring
      _ ≤ ny * (nx * 4) := Nat.mul_le_mul_right _ hj
  have hins : inside c.length (reads2 N X Y) = true := by
    rw [inside_iff]
    intro k hk
    unfold reads2 at hk
    rw [n0, ← n0, n1, n3', n2, n0] at hk
    have b0 := bnd i hi j hj
    have b1 := bnd i' hin j hj
    have b2 := bnd i hi j' hjn
    have b3 := bnd i' hin j' hjn
    simp only [List.flatMap_cons, List.flatMap_nil, List.append_nil, List.cons_append, List.nil_append, List.mem_cons, List.not_mem_nil, or_false] at hk
    generalize j * (nx * 4) + i * 4 = a0 at *
    generalize j * (nx * 4) + i' * 4 = a1 at *
    generalize j' * (nx * 4) + i * 4 = a2 at *
    generalize j' * (nx * 4) + i' * 4 = a3 at *
    omega
  have key : ∀ ox oy, tensor2 ox oy (elem c) N X Y dx dy (gridOf nx bx xmin xmax) (gridOf ny by_ ymin ymax) = S ox oy := by
    intro ox oy
    unfold tensor2
    dsimp only
    have col : ∀ i < nx, ∀ m : Int, m = ((j * (nx * 4) + i * 4 : Nat) : Int) → m + Y = ((j' * (nx * 4) + i * 4 : Nat) : Int) →
        oy.at (gridOf ny by_ ymin ymax) dy (elem c (m + 0)) (elem c (m + Y + 0)) (elem c (m + 0 + 2)) (elem c (m + Y + 0 + 2)) =
          spl oy ny by_ (gridOf ny by_ ymin ymax) j dy (fun j => f i j) ∧
        oy.at (gridOf ny by_ ymin ymax) dy (elem c (m + 1)) (elem c (m + Y + 1)) (elem c (m + 1 + 2)) (elem c (m + Y + 1 + 2)) =
          spl oy ny by_ (gridOf ny by_ ymin ymax) j dy (fun j => second (fun i => f i j) nx bx i / (gridOf nx bx xmin xmax * gridOf nx bx xmin xmax)) := by
      intro i hi m hm hmY
      obtain ⟨a0, a1, a2, a3⟩ := hel i hi j hj
      obtain ⟨b0, b1, b2, b3⟩ := hel i hi j' hjn
      rw [show m + 0 + 2 = m + 2 by ring, show m + Y + 0 + 2 = m + Y + 2 by ring, show m + 1 + 2 = m + 3 by ring, show m + Y + 1 + 2 = m + Y + 3 by ring,
        hmY, hm, a0, a1, a2, a3, b0, b1, b2, b3, ← hj']
      exact ⟨spl_eq hgy j dy (f i), spl_eq hgy j dy (fun j => second (fun i => f i j) nx bx i / (gridOf nx bx xmin xmax * gridOf nx bx xmin xmax))⟩
    rw [(col i hi N n0 n2).1, (col i hi N n0 n2).2, (col i' hin (N + X) n1 n3).1, (col i' hin (N + X) n1 n3).2,
      spl_second hsx hsy hgy hi hj, spl_second hsx hsy hgy hin hj, ← hi', hS]
    exact spl_eq hgx i dx (fun i => spl oy ny by_ (gridOf ny by_ ymin ymax) j dy fun j => f i j)
  refine ⟨c, hc, ?_, ?_⟩
  · unfold eval2f
    rw [locate_on hmx hx, locate_on hmy hy, hi', hj']
    simp only [hN, hX, hY, hins, if_true, Bool.or_self, Bool.false_eq_true, if_false, form2f_eq, key]
  · unfold eval2df
    rw [locate_on hmx hx, locate_on hmy hy, hi', hj']
    simp only [hN, hX, hY, hins, if_true, Bool.or_self, Bool.false_eq_true, if_false, form2df0_eq, form2df1_eq, form2df2_eq, form2df3_eq, form2df4_eq, form2df5_eq, key]

/-! Three dimensions -/

theorem flatMap_get3 {α : Type} {m nx ny nz : Nat} (g : Nat → Nat → Nat → List α) (hg : ∀ i j k, (g i j k).length = m) {i j k q : Nat}
    (hi : i < nx) (hj : j < ny) (hk : k < nz) (hq : q < m) :
    ((List.range nz).flatMap fun k => (List.range ny).flatMap fun j => (List.range nx).flatMap fun i => g i j k)[
      k * (ny * (nx * m)) + (j * (nx * m) + (i * m + q))]? = (g i j k)[q]? := by
  have h1 : i * m + q < nx * m := by
    calc i * m + q < i * m + m := by omega
      _ = (i + 1) * m := by ring
      _ ≤ nx * m := Nat.mul_le_mul_right _ hi
  have h2 : j * (nx * m) + (i * m + q) < ny * (nx * m) := by
    calc j * (nx * m) + (i * m + q) < j * (nx * m) + nx * m := by omega
      _ = (j + 1) * (nx * m) := by ring
      _ ≤ ny * (nx * m) := Nat.mul_le_mul_right _ hj
  rw [flatMap_get (m := ny * (nx * m)) (fun k => (List.range ny).flatMap fun j => (List.range nx).flatMap fun i => g i j k) nz
    (fun k _ => flatMap_length2 _ fun i j => hg i j k) hk h2]
  exact flatMap_get2 (fun i j => g i j k) (fun i j => hg i j k) hi hj hq

/-- The second derivatives along each axis of a table of values. -/
def d2x (nx : Nat) (bx : BC) (xg : K) (f : Nat → Nat → Nat → K) (i j k : Nat) : K := second (fun i => f i j k) nx bx i / (xg * xg)
def d2y (ny : Nat) (by_ : BC) (yg : K) (f : Nat → Nat → Nat → K) (i j k : Nat) : K := second (fun j => f i j k) ny by_ j / (yg * yg)
def d2z (nz : Nat) (bz : BC) (zg : K) (f : Nat → Nat → Nat → K) (i j k : Nat) : K := second (fun k => f i j k) nz bz k / (zg * zg)

theorem coeff3_eq {f : Nat → Nat → Nat → K} {nx ny nz : Nat} {bx by_ bz : BC} {xg yg zg : K} (hx : sizeOk nx bx = true)
    (hy : sizeOk ny by_ = true) (hz : sizeOk nz bz = true) :
    ∃ c, coeff3 f nx ny nz bx by_ bz xg yg zg = some c ∧ c.length = nz * (ny * (nx * 8)) ∧
      ∀ i < nx, ∀ j < ny, ∀ k < nz, ∀ m : Int, m = (k * (ny * (nx * 8)) + j * (nx * 8) + i * 8 : Nat) →
      elem c (m + 0) = f i j k ∧ elem c (m + 1) = d2x nx bx xg f i j k ∧ elem c (m + 2) = d2y ny by_ yg f i j k ∧
      elem c (m + 3) = d2z nz bz zg f i j k ∧ elem c (m + 4) = d2y ny by_ yg (d2x nx bx xg f) i j k ∧
      elem c (m + 5) = d2z nz bz zg (d2x nx bx xg f) i j k ∧ elem c (m + 6) = d2z nz bz zg (d2y ny by_ yg f) i j k ∧
      elem c (m + 7) = d2z nz bz zg (d2y ny by_ yg (d2x nx bx xg f)) i j k := by
  have hc : coeff3 f nx ny nz bx by_ bz xg yg zg = some ((List.range nz).flatMap fun k => (List.range ny).flatMap fun j =>
      (List.range nx).flatMap fun i => [f i j k, d2x nx bx xg f i j k, d2y ny by_ yg f i j k, d2z nz bz zg f i j k,
        d2y ny by_ yg (d2x nx bx xg f) i j k, d2z nz bz zg (d2x nx bx xg f) i j k, d2z nz bz zg (d2y ny by_ yg f) i j k,
        d2z nz bz zg (d2y ny by_ yg (d2x nx bx xg f)) i j k]) := by
    unfold coeff3
    rw [hx, hy, hz]
    rfl
  refine ⟨_, hc, flatMap_length _ nz fun k _ => flatMap_length2 _ fun i j => rfl, fun i hi j hj k hk m hm => ?_⟩
  generalize hg : (fun i j k => [f i j k, d2x nx bx xg f i j k, d2y ny by_ yg f i j k, d2z nz bz zg f i j k,
        d2y ny by_ yg (d2x nx bx xg f) i j k, d2z nz bz zg (d2x nx bx xg f) i j k, d2z nz bz zg (d2y ny by_ yg f) i j k,
        d2z nz bz zg (d2y ny by_ yg (d2x nx bx xg f)) i j k]) = g
  have hg' : ∀ i j k, (g i j k).length = 8 := fun i j k => by rw [← hg]; rfl
  have key : ∀ q < 8, elem ((List.range nz).flatMap fun k => (List.range ny).flatMap fun j => (List.range nx).flatMap fun i => g i j k)
      (m + (q : Nat)) = (g i j k).getD q 0 := by
    intro q hq
    have e : m + (q : Nat) = ((k * (ny * (nx * 8)) + (j * (nx * 8) + (i * 8 + q)) : Nat) : Int) := by rw [hm]; push_cast; ring
    rw [e, elem_nat, List.getD_eq_getElem?_getD, List.getD_eq_getElem?_getD, flatMap_get3 g hg' hi hj hk hq]
  have e : ((List.range nz).flatMap fun k => (List.range ny).flatMap fun j => (List.range nx).flatMap fun i => g i j k) = 
    ((List.range nz).flatMap fun k => (List.range ny).flatMap fun j => (List.range nx).flatMap fun i => [f i j k, d2x nx bx xg f i j k, d2y ny by_ yg f i j k, d2z nz bz zg f i j k,
        d2y ny by_ yg (d2x nx bx xg f) i j k, d2z nz bz zg (d2x nx bx xg f) i j k, d2z nz bz zg (d2y ny by_ yg f) i j k,
        d2z nz bz zg (d2y ny by_ yg (d2x nx bx xg f)) i j k]) := by rw [← hg]
  rw [← e]
  refine ⟨(key 0 (by omega)).trans ?_, (key 1 (by omega)).trans ?_, (key 2 (by omega)).trans ?_, (key 3 (by omega)).trans ?_,
    (key 4 (by omega)).trans ?_, (key 5 (by omega)).trans ?_, (key 6 (by omega)).trans ?_, (key 7 (by omega)).trans ?_⟩
  all_goals rw [← hg]; rfl

/-- A spline in `x` of splines in `y` of splines in `z`. -/
def spl3 (ox oy oz : Op) (ax ay az : Axis K) (ix iy iz : Nat) (dx dy dz : K) (f : Nat → Nat → Nat → K) : K :=
  spl ox ax.n ax.bc ax.grid ix dx fun i => spl oy ay.n ay.bc ay.grid iy dy fun j => spl oz az.n az.bc az.grid iz dz fun k => f i j k

theorem eval3_eq {f : Nat → Nat → Nat → K} {nx ny nz : Nat} {bx by_ bz : BC} {xmin xmax ymin ymax zmin zmax x y z dx dy dz : K} {i j k : Nat}
    (hsx : sizeOk nx bx = true) (hsy : sizeOk ny by_ = true) (hsz : sizeOk nz bz = true)
    (hmx : xmin < xmax) (hmy : ymin < ymax) (hmz : zmin < zmax)
    (hx : On (Axis.init nx bx xmin xmax) x i dx) (hy : On (Axis.init ny by_ ymin ymax) y j dy) (hz : On (Axis.init nz bz zmin zmax) z k dz)
    (S : Op → Op → Op → K) (hS : S = fun ox oy oz => spl3 ox oy oz (Axis.init nx bx xmin xmax) (Axis.init ny by_ ymin ymax)
      (Axis.init nz bz zmin zmax) i j k dx dy dz f) :
    ∃ c, coeff3 f nx ny nz bx by_ bz (gridOf nx bx xmin xmax) (gridOf ny by_ ymin ymax) (gridOf nz bz zmin zmax) = some c ∧
      eval3f (Axis.init nx bx xmin xmax) (Axis.init ny by_ ymin ymax) (Axis.init nz bz zmin zmax) c x y z =
        some (some (S .val .val .val)) ∧
      eval3df (Axis.init nx bx xmin xmax) (Axis.init ny by_ ymin ymax) (Axis.init nz bz zmin zmax) c x y z =
        some (some [S .val .val .val, S .der .val .val, S .val .der .val, S .val .val .der,
          S .der2 .val .val, S .val .der2 .val, S .val .val .der2, S .der .der .val, S .der .val .der, S .val .der .der]) := by
  obtain ⟨gx, egx⟩ : ∃ g, gridOf nx bx xmin xmax = g := ⟨_, rfl⟩
  obtain ⟨gy, egy⟩ : ∃ g, gridOf ny by_ ymin ymax = g := ⟨_, rfl⟩
  obtain ⟨gz, egz⟩ : ∃ g, gridOf nz bz zmin zmax = g := ⟨_, rfl⟩
  obtain ⟨c, hc, hl, hel⟩ := coeff3_eq (f := f) (xg := gx) (yg := gy) (zg := gz) hsx hsy hsz
  have hi : i < nx := hx.lt
  have hj : j < ny := hy.lt
  have hk : k < nz := hz.lt
  obtain ⟨i', hi'⟩ : ∃ i', (i + 1) % nx = i' := ⟨_, rfl⟩
  have hin : i' < nx := hi' ▸ Nat.mod_lt _ (by omega)
  obtain ⟨j', hj'⟩ : ∃ i', (j + 1) % ny = i' := ⟨_, rfl⟩
  have hjn : j' < ny := hj' ▸ Nat.mod_lt _ (by omega)
  obtain ⟨k', hk'⟩ : ∃ i', (k + 1) % nz = i' := ⟨_, rfl⟩
  have hkn : k' < nz := hk' ▸ Nat.mod_lt _ (by omega)
  have hgx := grid_ne hsx hmx
  have hgy := grid_ne hsy hmy
  have hgz := grid_ne hsz hmz
  rw [egx] at hgx
  rw [egy] at hgy
  rw [egz] at hgz
  obtain ⟨N, hN⟩ : ∃ N, ((k : Int) * ny * nx * 8 + (j : Int) * nx * 8 + (i : Int) * 8) = N := ⟨_, rfl⟩
  obtain ⟨X, hX⟩ : ∃ N, ((i' : Int) - (i : Int)) * 8 = N := ⟨_, rfl⟩
  obtain ⟨Y, hY⟩ : ∃ N, ((j' : Int) - (j : Int)) * (nx * 8) = N := ⟨_, rfl⟩
  obtain ⟨Z, hZ⟩ : ∃ N, ((k' : Int) - (k : Int)) * (ny * nx * 8) = N := ⟨_, rfl⟩
  have n000 : N = ((k * (ny * (nx * 8)) + j * (nx * 8) + i * 8 : Nat) : Int) := by rw [← hN]; push_cast; ring
  have n100 : N + X = ((k * (ny * (nx * 8)) + j * (nx * 8) + i' * 8 : Nat) : Int) := by rw [← hN, ← hX]; push_cast; ring
  have n010 : N + Y = ((k * (ny * (nx * 8)) + j' * (nx * 8) + i * 8 : Nat) : Int) := by rw [← hN, ← hY]; push_cast; ring
  have n110 : N + X + Y = ((k * (ny * (nx * 8)) + j' * (nx * 8) + i' * 8 : Nat) : Int) := by rw [← hN, ← hX, ← hY]; push_cast; ring
  have n001 : N + Z = ((k' * (ny * (nx * 8)) + j * (nx * 8) + i * 8 : Nat) : Int) := by rw [← hN, ← hZ]; push_cast; ring
  have n101 : N + X + Z = ((k' * (ny * (nx * 8)) + j * (nx * 8) + i' * 8 : Nat) : Int) := by rw [← hN, ← hX, ← hZ]; push_cast; ring
  have n011 : N + Y + Z = ((k' * (ny * (nx * 8)) + j' * (nx * 8) + i * 8 : Nat) : Int) := by rw [← hN, ← hY, ← hZ]; push_cast; ring
  have n111 : N + X + Y + Z = ((k' * (ny * (nx * 8)) + j' * (nx * 8) + i' * 8 : Nat) : Int) := by rw [← hN, ← hX, ← hY, ← hZ]; push_cast; ring
  have bnd : ∀ i < nx, ∀ j < ny, ∀ k < nz, ∀ m : Int, m = (k * (ny * (nx * 8)) + j * (nx * 8) + i * 8 : Nat) → 0 ≤ m ∧ m + 7 < c.length := by
    intro i hi j hj k hk m hm
    have : k * (ny * (nx * 8)) + j * (nx * 8) + i * 8 + 7 < c.length := by
      rw [hl]
      calc k * (ny * (nx * 8)) + j * (nx * 8) + i * 8 + 7 < k * (ny * (nx * 8)) + j * (nx * 8) + nx * 8 := by omega
        _ = k * (ny * (nx * 8)) + (j + 1) * (nx * 8) := by ring
        _ ≤ k * (ny * (nx * 8)) + ny * (nx * 8) := Nat.add_le_add_left (Nat.mul_le_mul_right _ hj) _
        _ = (k + 1) * (ny * (nx * 8)) := by ring
        _ ≤ nz * (ny * (nx * 8)) := Nat.mul_le_mul_right _ hk
    rw [hm]
    generalize k * (ny * (nx * 8)) + j * (nx * 8) + i * 8 = a at *
    omega
  have hins : inside c.length (reads3 N X Y Z) = true := by
    rw [inside_iff]
    intro q hq
    unfold reads3 at hq
    have b0 := bnd i hi j hj k hk N n000
    have b1 := bnd i' hin j hj k hk _ n100
    have b2 := bnd i hi j' hjn k hk _ n010
    have b3 := bnd i' hin j' hjn k hk _ n110
    have b4 := bnd i hi j hj k' hkn _ n001
    have b5 := bnd i' hin j hj k' hkn _ n101
    have b6 := bnd i hi j' hjn k' hkn _ n011
    have b7 := bnd i' hin j' hjn k' hkn _ n111
    rw [List.mem_flatMap] at hq
    obtain ⟨m, hm, hq⟩ := hq
    have hb : 0 ≤ m ∧ m + 7 < c.length := by
      simp only [List.mem_cons, List.not_mem_nil, or_false] at hm
      omega
    simp only [List.mem_cons, List.not_mem_nil, or_false] at hq
    omega
  have key : ∀ ox oy oz, tensor3 ox oy oz (elem c) N X Y Z dx dy dz gx gy gz = S ox oy oz := by
    intro ox oy oz
    unfold tensor3
    dsimp only
    have line : ∀ i < nx, ∀ j < ny, ∀ m : Int, m = (k * (ny * (nx * 8)) + j * (nx * 8) + i * 8 : Nat) →
        m + Z = (k' * (ny * (nx * 8)) + j * (nx * 8) + i * 8 : Nat) →
        oz.at gz dz (elem c (m + 0)) (elem c (m + Z + 0)) (elem c (m + 3)) (elem c (m + Z + 3)) = spl oz nz bz gz k dz (fun k => f i j k) ∧
        oz.at gz dz (elem c (m + 1)) (elem c (m + Z + 1)) (elem c (m + 5)) (elem c (m + Z + 5)) = spl oz nz bz gz k dz (fun k => d2x nx bx gx f i j k) ∧
        oz.at gz dz (elem c (m + 2)) (elem c (m + Z + 2)) (elem c (m + 6)) (elem c (m + Z + 6)) = spl oz nz bz gz k dz (fun k => d2y ny by_ gy f i j k) ∧
        oz.at gz dz (elem c (m + 4)) (elem c (m + Z + 4)) (elem c (m + 7)) (elem c (m + Z + 7)) =
          spl oz nz bz gz k dz (fun k => d2y ny by_ gy (d2x nx bx gx f) i j k) := by
      intro i hi j hj m hm hmZ
      obtain ⟨a0, a1, a2, a3, a4, a5, a6, a7⟩ := hel i hi j hj k hk m hm
      obtain ⟨b0, b1, b2, b3, b4, b5, b6, b7⟩ := hel i hi j hj k' hkn (m + Z) hmZ
      rw [a0, a1, a2, a3, a4, a5, a6, a7, b0, b1, b2, b3, b4, b5, b6, b7, ← hk']
      exact ⟨spl_eq hgz k dz (f i j), spl_eq hgz k dz (d2x nx bx gx f i j), spl_eq hgz k dz (d2y ny by_ gy f i j),
        spl_eq hgz k dz (d2y ny by_ gy (d2x nx bx gx f) i j)⟩
    have sy : ∀ (g : Nat → Nat → Nat → K) (i j : Nat), j < ny → spl oz nz bz gz k dz (fun k => d2y ny by_ gy g i j k) =
        second (fun j => spl oz nz bz gz k dz (g i j)) ny by_ j / (gy * gy) := fun g i j hj => spl_second hsy hsz hgz hj hk dz _ (g i)
    have sx : ∀ (i j : Nat), i < nx → spl oz nz bz gz k dz (fun k => d2x nx bx gx f i j k) =
        second (fun i => spl oz nz bz gz k dz (f i j)) nx bx i / (gx * gx) :=
      fun i j hi => spl_second hsx hsz hgz hi hk dz _ (fun i => f i j)
    have plane : ∀ i < nx, ∀ m : Int, m = (k * (ny * (nx * 8)) + j * (nx * 8) + i * 8 : Nat) →
        m + Z = (k' * (ny * (nx * 8)) + j * (nx * 8) + i * 8 : Nat) →
        m + Y = (k * (ny * (nx * 8)) + j' * (nx * 8) + i * 8 : Nat) → 
        m + Y + Z = (k' * (ny * (nx * 8)) + j' * (nx * 8) + i * 8 : Nat) → 
        oy.at gy dy (oz.at gz dz (elem c (m + 0)) (elem c (m + Z + 0)) (elem c (m + 3)) (elem c (m + Z + 3)))
          (oz.at gz dz (elem c (m + Y + 0)) (elem c (m + Y + Z + 0)) (elem c (m + Y + 3)) (elem c (m + Y + Z + 3)))
          (oz.at gz dz (elem c (m + 2)) (elem c (m + Z + 2)) (elem c (m + 6)) (elem c (m + Z + 6)))
          (oz.at gz dz (elem c (m + Y + 2)) (elem c (m + Y + Z + 2)) (elem c (m + Y + 6)) (elem c (m + Y + Z + 6))) =
          spl oy ny by_ gy j dy (fun j => spl oz nz bz gz k dz (f i j)) ∧
        oy.at gy dy (oz.at gz dz (elem c (m + 1)) (elem c (m + Z + 1)) (elem c (m + 5)) (elem c (m + Z + 5)))
          (oz.at gz dz (elem c (m + Y + 1)) (elem c (m + Y + Z + 1)) (elem c (m + Y + 5)) (elem c (m + Y + Z + 5)))
          (oz.at gz dz (elem c (m + 4)) (elem c (m + Z + 4)) (elem c (m + 7)) (elem c (m + Z + 7)))
          (oz.at gz dz (elem c (m + Y + 4)) (elem c (m + Y + Z + 4)) (elem c (m + Y + 7)) (elem c (m + Y + Z + 7))) =
          second (fun i => spl oy ny by_ gy j dy (fun j => spl oz nz bz gz k dz (f i j))) nx bx i / (gx * gx) := by
      intro i hi m hm hmZ hmY hmYZ
      obtain ⟨a0, a1, a2, a4⟩ := line i hi j hj m hm hmZ
      obtain ⟨b0, b1, b2, b4⟩ := line i hi j' hjn (m + Y) hmY hmYZ
      rw [a0, a1, a2, a4, b0, b1, b2, b4]
      constructor
      · rw [sy f i j hj, sy f i j' hjn, ← hj']
        exact spl_eq hgy j dy fun j => spl oz nz bz gz k dz (f i j)
      · rw [sy _ i j hj, sy _ i j' hjn, ← hj', ← spl_second hsx hsy hgy hi hj dy (gx * gx) (fun i j => spl oz nz bz gz k dz (f i j)),
          ← spl_congr hsy hgy hj dy (fun j hj => sx i j hi)]
        exact spl_eq hgy j dy fun j => spl oz nz bz gz k dz (d2x nx bx gx f i j)
    rw [(plane i hi N n000 n001 n010 n011).1, (plane i hi N n000 n001 n010 n011).2, (plane i' hin (N + X) n100 n101 n110 n111).1,
      (plane i' hin (N + X) n100 n101 n110 n111).2, ← hi', hS]
    subst egx
    subst egy
    subst egz
    exact spl_eq hgx i dx (fun i => spl oy ny by_ _ j dy fun j => spl oz nz bz _ k dz (f i j))
  refine ⟨c, by rw [egx, egy, egz]; exact hc, ?_, ?_⟩
  · unfold eval3f
    rw [locate_on hmx hx, locate_on hmy hy, locate_on hmz hz, hi', hj', hk']
    simp only [Axis.init, hN, hX, hY, hZ, hins, egx, egy, egz, if_true, Bool.or_self, Bool.false_eq_true, if_false, form3f_eq, key]
  · unfold eval3df
    rw [locate_on hmx hx, locate_on hmy hy, locate_on hmz hz, hi', hj', hk']
    simp only [Axis.init, hN, hX, hY, hZ, hins, egx, egy, egz, if_true, Bool.or_self, Bool.false_eq_true, if_false, form3df0_eq, form3df1_eq, form3df2_eq,
      form3df3_eq, form3df4_eq, form3df5_eq, form3df6_eq, form3df7_eq, form3df8_eq, form3df9_eq, key]

/-! Explicit form -/

theorem expl_eq {f : Nat → K} {n : Nat} {bc : BC} {min max x d : K} {i : Nat} (h : sizeOk n bc = true) (hm : min < max)
    (hx : On (Axis.init n bc min max) x i d) :
    ∃ c, splineexpl f n bc = some c ∧
      expl1f (Axis.init n bc min max) c x = some (some ((pieceExpl f n bc i).op .val (gridOf n bc min max) d)) ∧
      expl1df (Axis.init n bc min max) c x = some (some ((pieceExpl f n bc i).op .val (gridOf n bc min max) d,
        (pieceExpl f n bc i).op .der (gridOf n bc min max) d, (pieceExpl f n bc i).op .der2 (gridOf n bc min max) d)) := by
  have hi := hx.cell
  have hlt : i < n := hx.lt
  have hlen : ∀ i, (cellExpl f n bc i).length = 4 := by
    intro i
    unfold cellExpl
    dsimp only
    split <;> rfl
  have hl := flatMap_length (m := 4) (cellExpl f n bc) (cells n bc) fun i _ => hlen i
  obtain ⟨c, hc⟩ : ∃ c, (List.range (cells n bc)).flatMap (cellExpl f n bc) = c := ⟨_, rfl⟩
  rw [hc] at hl
  have hcell : cellExpl f n bc i = [(pieceExpl f n bc i).a, (pieceExpl f n bc i).b, (pieceExpl f n bc i).c, (pieceExpl f n bc i).e] := by
    unfold cellExpl pieceExpl ofFirst
    dsimp only
    rw [next_mod hlt]
    by_cases e : i = n - 1
    · rw [if_pos e, if_pos (by omega), ← e]
    · rw [if_neg e, if_neg (by omega)]
  have el : ∀ q < 4, elem c ((i : Int) * 4 + (q : Nat)) = (cellExpl f n bc i).getD q 0 := by
    intro q hq
    have e : (i : Int) * 4 + (q : Nat) = ((i * 4 + q : Nat) : Int) := by push_cast; ring
    rw [e, elem_nat, List.getD_eq_getElem?_getD, List.getD_eq_getElem?_getD, ← hc, flatMap_get _ _ (fun i _ => hlen i) hi hq]
  have e0 : elem c ((i : Int) * 4 + 0) = _ := el 0 (by omega)
  have e1 : elem c ((i : Int) * 4 + 1) = _ := el 1 (by omega)
  have e2 : elem c ((i : Int) * 4 + 2) = _ := el 2 (by omega)
  have e3 : elem c ((i : Int) * 4 + 3) = _ := el 3 (by omega)
  rw [hcell] at e0 e1 e2 e3
  have hins : inside c.length [(i : Int) * 4, (i : Int) * 4 + 1, (i : Int) * 4 + 2, (i : Int) * 4 + 3] = true := by
    rw [inside_iff]
    intro k hk
    simp only [List.mem_cons, List.not_mem_nil, or_false] at hk
    rw [hl]
    omega
  have hg := grid_ne h hm
  refine ⟨c, ?_, ?_, ?_⟩
  · unfold splineexpl
    rw [if_pos h, hc]
  · unfold expl1f
    rw [locate_on hm hx]
    simp only [hins, if_true, Bool.false_eq_true, if_false, e0, e1, e2, e3]
    congr 2
    simp only [List.getD_cons_zero, List.getD_cons_succ, Cubic.op, Cubic.val]
    ring
  · unfold expl1df
    rw [locate_on hm hx]
    simp only [hins, if_true, Bool.false_eq_true, if_false, e0, e1, e2, e3]
    simp only [List.getD_cons_zero, List.getD_cons_succ, Cubic.op, Cubic.val, Cubic.der, Cubic.der2, Option.some.injEq, Prod.mk.injEq]
    refine ⟨by ring, ?_, ?_⟩ <;> field_simp

theorem poly_coef {f : Nat → K} {n : Nat} {bc : BC} (h : sizeOk n bc = true) (g : K) {i : Nat} (hi : i < cells n bc) (d : K) :
    poly d (coefExpl f n bc i) = spl .val n bc g i d f := by
  have hlt : i < n := by cases bc <;> simp only [cells] at hi <;> omega
  unfold spl
  rw [← pieces_eq h f hi]
  unfold poly coefExpl cellExpl pieceExpl ofFirst
  dsimp only
  rw [next_mod hlt]
  by_cases e : i = n - 1
  · rw [if_pos e, if_pos (by omega), ← e]
    simp only [List.getD_cons_zero, List.getD_cons_succ, Cubic.op, Cubic.val]
    ring
  · rw [if_neg e, if_neg (by omega)]
    simp only [List.getD_cons_zero, List.getD_cons_succ, Cubic.op, Cubic.val]
    ring

theorem spl_poly {n : Nat} {bc : BC} (h : sizeOk n bc = true) {g : K} (hg : g ≠ 0) {i : Nat} (hi : i < n) (d e : K) (c : Nat → Nat → K) :
    poly e (fun p => spl .val n bc g i d (c p)) = spl .val n bc g i d (fun k => poly e fun p => c p k) := by
  obtain ⟨w, hw⟩ := spl_weights h (o := .val) hg hi d
  simp only [hw, poly, Finset.mul_sum]
  rw [← Finset.sum_add_distrib, ← Finset.sum_add_distrib, ← Finset.sum_add_distrib]
  exact Finset.sum_congr rfl fun k _ => by ring

theorem poly_swap (d e : K) (c : Nat → Nat → K) : poly d (fun p => poly e fun q => c p q) = poly e (fun q => poly d fun p => c p q) := by
  simp only [poly]
  ring

theorem cells_lt {n : Nat} {bc : BC} {i : Nat} (h : i < cells n bc) : i < n := by cases bc <;> simp only [cells] at h <;> omega

theorem expl2_eq {f : Nat → Nat → K} {nx ny : Nat} {xmin xmax ymin ymax x y dx dy : K} {i j : Nat}
    (hsx : 2 ≤ nx) (hsy : 2 ≤ ny) (hmx : xmin < xmax) (hmy : ymin < ymax)
    (hx : On (Axis.init nx .natural xmin xmax) x i dx) (hy : On (Axis.init ny .natural ymin ymax) y j dy) :
    expl2f (Axis.init nx .natural xmin xmax) (Axis.init ny .natural ymin ymax) f x y =
      some (some (spl2 .val .val (Axis.init nx .natural xmin xmax) (Axis.init ny .natural ymin ymax) i j dx dy f)) := by
  have hx' : sizeOk nx .natural = true := by simpa [sizeOk] using hsx
  have hy' : sizeOk ny .natural = true := by simpa [sizeOk] using hsy
  have hi := hx.cell
  have hj := hy.cell
  have hw : written2 nx ny i j = true := by
    unfold written2
    simp only [cells] at hi hj
    rw [decide_eq_true_eq]
    omega
  unfold expl2f
  rw [locate_on hmx hx, locate_on hmy hy]
  simp only [hx', hy', hw, Bool.or_self, Bool.and_self, Bool.false_eq_true, if_false, if_true, Int.toNat_natCast]
  congr 2
  unfold coefExpl2 spl2
  rw [poly_swap]
  simp only [poly_coef hy' (gridOf ny .natural ymin ymax) hj]
  rw [spl_poly hy' (grid_ne hy' hmy) (cells_lt hj)]
  simp only [poly_coef hx' (gridOf nx .natural xmin xmax) hi]
  exact spl_comm hy' hx' (grid_ne hy' hmy) (grid_ne hx' hmx) (cells_lt hj) (cells_lt hi) dy dx (fun j i => f i j)

theorem expl3_eq {f : Nat → Nat → Nat → K} {nx ny nz : Nat} {bx by_ bz : BC} {xmin xmax ymin ymax zmin zmax x y z dx dy dz : K} {i j k : Nat}
    (hsx : sizeOk nx bx = true) (hsy : sizeOk ny by_ = true) (hsz : sizeOk nz bz = true)
    (hmx : xmin < xmax) (hmy : ymin < ymax) (hmz : zmin < zmax)
    (hx : On (Axis.init nx bx xmin xmax) x i dx) (hy : On (Axis.init ny by_ ymin ymax) y j dy) (hz : On (Axis.init nz bz zmin zmax) z k dz) :
    expl3f (Axis.init nx bx xmin xmax) (Axis.init ny by_ ymin ymax) (Axis.init nz bz zmin zmax) f x y z =
      some (some (spl3 .val .val .val (Axis.init nx bx xmin xmax) (Axis.init ny by_ ymin ymax) (Axis.init nz bz zmin zmax) i j k dx dy dz f)) := by
  have hi := hx.cell
  have hj := hy.cell
  have hk := hz.cell
  have gx := grid_ne hsx hmx
  have gy := grid_ne hsy hmy
  have gz := grid_ne hsz hmz
  have hw : written3 nx ny nz bx by_ bz i j k = true := by
    unfold written3
    rw [decide_eq_true_eq]
    omega
  unfold expl3f
  rw [locate_on hmx hx, locate_on hmy hy, locate_on hmz hz]
  simp only [hsx, hsy, hsz, hw, Bool.or_self, Bool.and_self, Bool.false_eq_true, if_false, if_true, Int.toNat_natCast]
  congr 2
  unfold coefExpl3 spl3
  rw [poly_swap]
  have e1 : ∀ py, (poly dz fun pz => poly dx fun px => coefExpl (fun k => coefExpl (fun j => coefExpl (fun i => f i j k) nx bx i px) ny by_ j py) nz bz k pz)
      = spl .val nz bz (gridOf nz bz zmin zmax) k dz (fun k => poly dx fun px => coefExpl (fun j => coefExpl (fun i => f i j k) nx bx i px) ny by_ j py) := by
    intro py
    rw [poly_swap]
    simp only [poly_coef hsz (gridOf nz bz zmin zmax) hk]
    rw [spl_poly hsz gz (cells_lt hk)]
  simp only [e1]
  rw [spl_poly hsz gz (cells_lt hk)]
  have e2 : ∀ k, (poly dy fun py => poly dx fun px => coefExpl (fun j => coefExpl (fun i => f i j k) nx bx i px) ny by_ j py)
      = spl .val ny by_ (gridOf ny by_ ymin ymax) j dy (fun j => spl .val nx bx (gridOf nx bx xmin xmax) i dx fun i => f i j k) := by
    intro k
    rw [poly_swap]
    simp only [poly_coef hsy (gridOf ny by_ ymin ymax) hj]
    rw [spl_poly hsy gy (cells_lt hj)]
    simp only [poly_coef hsx (gridOf nx bx xmin xmax) hi]
  simp only [e2]
  rw [spl_comm hsz hsy gz gy (cells_lt hk) (cells_lt hj) dz dy (fun k j => spl .val nx bx (gridOf nx bx xmin xmax) i dx fun i => f i j k)]
  have e3 : ∀ j, spl .val nz bz (gridOf nz bz zmin zmax) k dz (fun k => spl .val nx bx (gridOf nx bx xmin xmax) i dx fun i => f i j k) =
      spl .val nx bx (gridOf nx bx xmin xmax) i dx (fun i => spl .val nz bz (gridOf nz bz zmin zmax) k dz fun k => f i j k) :=
    fun j => spl_comm hsz hsx gz gx (cells_lt hk) (cells_lt hi) dz dx (fun k i => f i j k)
  simp only [e3]
  exact spl_comm hsy hsx gy gx (cells_lt hj) (cells_lt hi) dy dx (fun j i => spl .val nz bz (gridOf nz bz zmin zmax) k dz fun k => f i j k)

end Ascot.Interp
