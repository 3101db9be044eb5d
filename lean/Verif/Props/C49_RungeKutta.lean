import Mathlib.Algebra.Module.Rat
import Mathlib.Algebra.Module.LinearMap.Basic
import Mathlib.Analysis.Calculus.Deriv.Pow
import Mathlib.Analysis.Calculus.Deriv.Add
import Mathlib.Analysis.Calculus.Deriv.Mul
import Mathlib.Tactic.FieldSimp
import Mathlib.Tactic.Positivity
import Mathlib.Analysis.SpecialFunctions.Trigonometric.Basic
import Mathlib.Tactic.LinearCombination
import Mathlib.Tactic.Linarith
import Mathlib.Tactic.FinCases
import Mathlib.Tactic.NormNum
import Mathlib.Tactic.Ring
import Mathlib.Tactic.Module
import Mathlib.Data.Real.Basic
import Verif.Model.RungeKutta
import Verif.Spec.Butcher

/-!
# C49: Runge-Kutta steps
-/
set_option linter.unusedSectionVars false
set_option linter.unusedSimpArgs false

namespace Ascot.C49
open Ascot.RungeKutta Ascot.Butcher

/-- The classical method with four stages. -/
def classical : Tableau 4 where
  a := ![![0, 0, 0, 0], ![1 / 2, 0, 0, 0], ![0, 1 / 2, 0, 0], ![0, 0, 1, 0]]
  b := ![1 / 6, 1 / 3, 1 / 3, 1 / 6]
  c := ![0, 1 / 2, 1 / 2, 1]

/-- The stages of Cash and Karp with given weights. -/
def cashKarp (b : Fin 6 → ℚ) : Tableau 6 where
  a := ![![0, 0, 0, 0, 0, 0], ![1 / 5, 0, 0, 0, 0, 0], ![3 / 40, 9 / 40, 0, 0, 0, 0], ![3 / 10, -9 / 10, 6 / 5, 0, 0, 0],
    ![-11 / 54, 5 / 2, -70 / 27, 35 / 27, 0, 0], ![1631 / 55296, 175 / 512, 575 / 13824, 44275 / 110592, 253 / 4096, 0]]
  b := b
  c := ![0, 1 / 5, 3 / 10, 3 / 5, 1, 7 / 8]

/-- Weights of the fifth-order solution. -/
def w5 : Fin 6 → ℚ := ![37 / 378, 0, 250 / 621, 125 / 594, 0, 512 / 1771]

/-- Weights of the fourth-order solution. -/
def w4 : Fin 6 → ℚ := ![2825 / 27648, 0, 18575 / 48384, 13525 / 55296, 277 / 14336, 1 / 4]

/-- All forests with `n` nodes. -/
def forests : ℕ → ℕ → List Forest
  | 0, _ => []
  | _ + 1, 0 => [.nil]
  | fuel + 1, n + 1 => (List.range (n + 1)).flatMap fun k => (forests fuel k).flatMap fun c => (forests fuel (n - k)).map fun r => .cons c r

theorem mem_forests (F : Forest) : ∀ fuel, F.size < fuel → F ∈ forests fuel F.size := by
  induction F with
  | nil =>
    intro fuel h
    cases fuel with
    | zero => simp [Forest.size] at h
    | succ fuel => simp [forests, Forest.size]
  | cons c r ihc ihr =>
    intro fuel h
    cases fuel with
    | zero => simp at h
    | succ fuel =>
      have e : (Forest.cons c r).size = (c.size + r.size) + 1 := by simp only [Forest.size]; omega
      rw [e] at h ⊢
      unfold forests
      rw [List.mem_flatMap]
      refine ⟨c.size, by rw [List.mem_range]; omega, ?_⟩
      rw [List.mem_flatMap]
      refine ⟨c, ihc fuel (by omega), ?_⟩
      rw [List.mem_map]
      refine ⟨r, ?_, rfl⟩
      have : c.size + r.size - c.size = r.size := by omega
      rw [this]
      exact ihr fuel (by omega)

/-- The order conditions follow from those for the listed forests. -/
theorem order_of_list {n : ℕ} (T : Tableau n) (p : ℕ) (hc : ∀ i, T.c i = ∑ j, T.a i j)
    (h : ∀ m < p, ∀ F ∈ forests p m, (∑ i, T.b i * F.weight T i) * (((1 + F.size) * F.density : ℕ) : ℚ) = 1) : Order T p :=
  ⟨hc, fun F hF => h F.size (by omega) F (mem_forests F p (by omega))⟩

/-- The fixed-step integrator has order four. -/
theorem classical_order : Order classical 4 := order_of_list _ _ (by decide +kernel) (by decide +kernel)

/-- The solution used by the adaptive integrators has order five. -/
theorem cashKarp_order5 : Order (cashKarp w5) 5 := order_of_list _ _ (by decide +kernel) (by decide +kernel)

/-- The solution that the adaptive integrators compare with has order four. -/
theorem cashKarp_order4 : Order (cashKarp w4) 4 := order_of_list _ _ (by decide +kernel) (by decide +kernel)

variable {ι : Type}

/-- The fixed-step integrator performs one step of the classical method. -/
theorem rk4_is_step (f : ℝ → (ι → ℝ) → ι → ℝ) (t h : ℝ) (y : ι → ℝ) :
    ∃ y' k, rk4 (fun t y => .ok (f t y)) (.ok (f t y)) t h y = .ok y' ∧ IsStep classical f t h y y' k := by
  let k1 := f t y
  let k2 := f (t + h / 2) (fun j => y j + h * k1 j / 2)
  let k3 := f (t + h / 2) (fun j => y j + h * k2 j / 2)
  let k4 := f (t + h) (fun j => y j + h * k3 j)
  refine ⟨_, ![k1, k2, k3, k4], rfl, ?_, ?_⟩
  · intro i
    fin_cases i
    · simp [classical, Fin.sum_univ_four, k1]
    · simp only [classical, Fin.sum_univ_four, k2]
      simp
      congr 1
      · ring
      · funext l; ring
    · simp only [classical, Fin.sum_univ_four, k3]
      simp
      congr 1
      · ring
      · funext l; ring
    · simp only [classical, Fin.sum_univ_four, k4]
      simp
  · intro l
    show y l + h / 6 * (k1 l + 2 * k2 l + 2 * k3 l + k4 l) = _
    simp [classical, Fin.sum_univ_four]
    ring

/-- The derivatives of the stages in order. -/
def Stages.list (s : Stages ι) : Fin 6 → ι → ℝ := ![s.k1, s.k2, s.k3, s.k4, s.k5, s.k6]

/-- The adaptive integrators perform one step of the methods of Cash and Karp, for the solution and for the comparison. -/
theorem cashKarp_is_step (f : ℝ → (ι → ℝ) → ι → ℝ) (t h : ℝ) (y : ι → ℝ) :
    ∃ s, stages (fun t y => .ok (f t y)) (.ok (f t y)) t h y = .ok s ∧
      IsStep (cashKarp w5) f t h y (rk5 y h s) (Stages.list s) ∧ IsStep (cashKarp w4) f t h y (embedded y h s) (Stages.list s) := by
  let k1 := f t y
  let k2 := f (t + 1 / 5 * h) (advance y h fun j => 1 / 5 * k1 j)
  let k3 := f (t + 3 / 10 * h) (advance y h fun j => 3 / 40 * k1 j + 9 / 40 * k2 j)
  let k4 := f (t + 3 / 5 * h) (advance y h fun j => 3 / 10 * k1 j + -9 / 10 * k2 j + 6 / 5 * k3 j)
  let k5 := f (t + h) (advance y h fun j => -11 / 54 * k1 j + 5 / 2 * k2 j + -70 / 27 * k3 j + 35 / 27 * k4 j)
  let k6 := f (t + 7 / 8 * h) (advance y h fun j =>
      1631 / 55296 * k1 j + 175 / 512 * k2 j + 575 / 13824 * k3 j + 44275 / 110592 * k4 j + 253 / 4096 * k5 j)
  have hk : ∀ b i, (Stages.list ⟨k1, k2, k3, k4, k5, k6⟩) i = f (t + (cashKarp b).c i * h)
      (fun l => y l + h * ∑ j, ((cashKarp b).a i j : ℝ) * (Stages.list ⟨k1, k2, k3, k4, k5, k6⟩) j l) := by
    intro b i
    fin_cases i
    · simp [cashKarp, Stages.list, Fin.sum_univ_six, k1]
    · simp [cashKarp, Stages.list, Fin.sum_univ_six, k2, advance]; rfl
    · simp [cashKarp, Stages.list, Fin.sum_univ_six, k3, advance]; rfl
    · simp [cashKarp, Stages.list, Fin.sum_univ_six, k4, advance]; rfl
    · simp [cashKarp, Stages.list, Fin.sum_univ_six, k5, advance]; rfl
    · simp [cashKarp, Stages.list, Fin.sum_univ_six, k6, advance]; rfl
  refine ⟨⟨k1, k2, k3, k4, k5, k6⟩, rfl, ⟨hk _, ?_⟩, hk _, ?_⟩
  · intro l
    simp [cashKarp, Stages.list, Fin.sum_univ_six, rk5, w5, advance]
  · intro l
    simp [cashKarp, Stages.list, Fin.sum_univ_six, embedded, w4, advance]

/-- The right-hand side given by a polynomial in time of degree less than `d`. -/
def poly (d : ℕ) (a : ℕ → ι → ℝ) (t : ℝ) (l : ι) : ℝ := ∑ i ∈ Finset.range d, a i l * t ^ i

/-- Its integral from zero. -/
noncomputable def polyInt (d : ℕ) (a : ℕ → ι → ℝ) (t : ℝ) (l : ι) : ℝ := ∑ i ∈ Finset.range d, a i l * t ^ (i + 1) / (i + 1)

theorem polyInt_deriv (d : ℕ) (a : ℕ → ι → ℝ) (t : ℝ) (l : ι) : HasDerivAt (fun t => polyInt d a t l) (poly d a t l) t := by
  unfold polyInt poly
  refine HasDerivAt.fun_sum fun i _ => ?_
  have h := (((hasDerivAt_id t).pow (i + 1)).const_mul (a i l)).div_const ((i : ℝ) + 1)
  refine h.congr_deriv ?_
  have : (i : ℝ) + 1 ≠ 0 := by positivity
  push_cast
  simp
  field_simp

/-- The fixed-step integrator is exact when the rates are polynomials of degree three in time. -/
theorem rk4_exact (a : ℕ → ι → ℝ) (t h : ℝ) (y : ι → ℝ) :
    rk4 (fun t _ => .ok (poly 4 a t)) (.ok (poly 4 a t)) t h y = .ok fun l => y l + (polyInt 4 a (t + h) l - polyInt 4 a t l) := by
  unfold rk4
  dsimp only
  congr 1
  funext l
  simp only [poly, polyInt, Finset.sum_range_succ, Finset.sum_range_zero]
  push_cast
  ring

/-- The adaptive integrators are exact when the rates are polynomials of degree four in time. -/
theorem rk5_exact (a : ℕ → ι → ℝ) (t h : ℝ) (y : ι → ℝ) :
    ∃ s, stages (fun t _ => .ok (poly 5 a t)) (.ok (poly 5 a t)) t h y = .ok s ∧
      rk5 y h s = fun l => y l + (polyInt 5 a (t + h) l - polyInt 5 a t l) := by
  refine ⟨_, rfl, ?_⟩
  funext l
  simp only [rk5, advance, poly, polyInt, Finset.sum_range_succ, Finset.sum_range_zero]
  push_cast
  ring

/-- For rates of degree three in time the two solutions of the adaptive integrators agree, so the error estimates vanish. -/
theorem estimate_zero (a : ℕ → ι → ℝ) (t h : ℝ) (y : ι → ℝ) :
    ∃ s, stages (fun t _ => .ok (poly 4 a t)) (.ok (poly 4 a t)) t h y = .ok s ∧ embedded y h s = rk5 y h s := by
  refine ⟨_, rfl, ?_⟩
  funext l
  simp only [rk5, embedded, advance, poly, Finset.sum_range_succ, Finset.sum_range_zero]
  ring

theorem errOne_zero (eps h : ℝ) (y : ι → ℝ) (s : Stages ι) (hs : embedded y h s = rk5 y h s) (j : ι) : errOne eps h y s j = 0 := by
  unfold errOne
  rw [hs]
  simp

theorem errGc_zero (eps h : ℝ) (y : Fin 6 → ℝ) (s : Stages (Fin 6)) (hs : embedded y h s = rk5 y h s) : errGc eps h y s = 0 := by
  have : errPos eps h y s = 0 := by
    unfold errPos
    rw [hs]
    dsimp only
    rw [sub_self, sub_self, Real.cos_zero]
    have : rk5 y h s 0 * rk5 y h s 0 + rk5 y h s 0 * rk5 y h s 0 - 2 * rk5 y h s 0 * rk5 y h s 0 * 1 + 0 * 0 = 0 := by ring
    rw [this, zero_div, Real.sqrt_zero]
  unfold errGc
  rw [this, errOne_zero _ _ _ _ hs]
  simp

theorem errMl_zero (eps h : ℝ) (y : Fin 3 → ℝ) (s : Stages (Fin 3)) (hs : embedded y h s = rk5 y h s) : errMl eps h y s = 0 := by
  unfold errMl
  simp [errOne_zero _ _ _ _ hs]

/-- For a linear system the fixed-step integrator gives the exponential series up to the fourth power of the step. -/
theorem rk4_linear (A : (ι → ℝ) →ₗ[ℝ] (ι → ℝ)) (t h : ℝ) (y : ι → ℝ) :
    rk4 (fun _ y => .ok (A y)) (.ok (A y)) t h y = .ok fun l => ∑ i ∈ Finset.range 5, h ^ i / (i.factorial : ℝ) * (A ^ i) y l := by
  have e : ∀ (c : ℝ) (u v : ι → ℝ), A (fun j => u j + c * v j) = A u + c • A v := by
    intro c u v
    rw [← map_smul, ← map_add]; rfl
  have e2 : ∀ (c : ℝ) (u v : ι → ℝ), A (fun j => u j + c * v j / 2) = A u + (c / 2) • A v := by
    intro c u v
    rw [← map_smul, ← map_add]
    congr 1
    funext j
    simp
    ring
  unfold rk4
  dsimp only
  congr 1
  funext l
  simp only [e, e2, map_add, map_smul, Finset.sum_range_succ, Finset.sum_range_zero, Pi.add_apply, Pi.smul_apply, smul_eq_mul,
    pow_succ, pow_zero, Module.End.mul_apply, Module.End.one_apply, Nat.factorial]
  push_cast
  ring

/-- For a linear system the adaptive integrators give the exponential series up to the fifth power of the step, and the
comparison solution up to the fourth. -/
theorem cashKarp_linear (A : (ι → ℝ) →ₗ[ℝ] (ι → ℝ)) (t h : ℝ) (y : ι → ℝ) :
    ∃ s, stages (fun _ y => .ok (A y)) (.ok (A y)) t h y = .ok s ∧
      (∀ l, rk5 y h s l = ∑ i ∈ Finset.range 6, h ^ i / (i.factorial : ℝ) * (A ^ i) y l + h ^ 6 / 800 * (A ^ 6) y l) ∧
      ∀ l, embedded y h s l = ∑ i ∈ Finset.range 5, h ^ i / (i.factorial : ℝ) * (A ^ i) y l +
        10517 / 1228800 * h ^ 5 * (A ^ 5) y l + 1771 / 1638400 * h ^ 6 * (A ^ 6) y l := by
  have e : ∀ (u v : ι → ℝ), A (advance u h v) = A u + h • A v := by
    intro u v
    rw [← map_smul, ← map_add]; rfl
  have e1 : ∀ (c : ℝ) (u : ι → ℝ), A (fun j => c * u j) = c • A u := by
    intro c u
    rw [← map_smul]; rfl
  have ea : ∀ (u v : ι → ℝ), A (fun j => u j + v j) = A u + A v := by
    intro u v
    rw [← map_add]; rfl
  refine ⟨_, rfl, ?_, ?_⟩
  · intro l
    simp only [rk5, advance, e, e1, ea, map_add, map_smul, Finset.sum_range_succ, Finset.sum_range_zero, Pi.add_apply, Pi.smul_apply, smul_eq_mul,
      pow_succ, pow_zero, Module.End.mul_apply, Module.End.one_apply, Nat.factorial]
    push_cast
    ring
  · intro l
    simp only [embedded, advance, e, e1, ea, map_add, map_smul, Finset.sum_range_succ, Finset.sum_range_zero, Pi.add_apply, Pi.smul_apply, smul_eq_mul,
      pow_succ, pow_zero, Module.End.mul_apply, Module.End.one_apply, Nat.factorial]
    push_cast
    ring

/-- The point with the cylindrical coordinates in the first three components. -/
noncomputable def point (y : Fin 6 → ℝ) : Fin 3 → ℝ := ![y 0 * Real.cos (y 1), y 0 * Real.sin (y 1), y 2]

/-- Euclidean distance. -/
noncomputable def dist3 (u v : Fin 3 → ℝ) : ℝ := Real.sqrt ((u 0 - v 0) ^ 2 + (u 1 - v 1) ^ 2 + (u 2 - v 2) ^ 2)

theorem dist_point (a b : Fin 6 → ℝ) :
    dist3 (point a) (point b) = Real.sqrt (a 0 * a 0 + b 0 * b 0 - 2 * a 0 * b 0 * Real.cos (a 1 - b 1) + (a 2 - b 2) * (a 2 - b 2)) := by
  unfold dist3 point
  congr 1
  rw [Real.cos_sub]
  simp
  linear_combination (a 0) ^ 2 * Real.sin_sq_add_cos_sq (a 1) + (b 0) ^ 2 * Real.sin_sq_add_cos_sq (b 1)

/-- The scale of the position in the error estimate: the distance from the position to the point whose coordinates are the
first-order changes of the coordinates, squared. -/
noncomputable def scale2 (eps h : ℝ) (y : Fin 6 → ℝ) (s : Stages (Fin 6)) : ℝ :=
  dist3 (point y) (point fun j => s.k1 j * h) ^ 2 + eps

theorem errPos_eq (eps h : ℝ) (heps : 0 < eps) (y : Fin 6 → ℝ) (s : Stages (Fin 6)) :
    errPos eps h y s = dist3 (point (rk5 y h s)) (point (embedded y h s)) / Real.sqrt (scale2 eps h y s) ∧ 0 < scale2 eps h y s := by
  have hp : ∀ a b : Fin 6 → ℝ, 0 ≤ a 0 * a 0 + b 0 * b 0 - 2 * a 0 * b 0 * Real.cos (a 1 - b 1) + (a 2 - b 2) * (a 2 - b 2) := by
    intro a b
    have h1 := Real.sin_sq_add_cos_sq (a 1 - b 1)
    have : a 0 * a 0 + b 0 * b 0 - 2 * a 0 * b 0 * Real.cos (a 1 - b 1) + (a 2 - b 2) * (a 2 - b 2) =
        (a 0 - b 0 * Real.cos (a 1 - b 1)) ^ 2 + (b 0 * Real.sin (a 1 - b 1)) ^ 2 + (a 2 - b 2) ^ 2 := by
      linear_combination -(b 0) ^ 2 * h1
    rw [this]
    positivity
  refine ⟨?_, ?_⟩
  · unfold errPos scale2
    have hk : ∀ a b : Fin 6 → ℝ, dist3 (point a) (point b) ^ 2 =
        a 0 * a 0 + b 0 * b 0 - 2 * a 0 * b 0 * Real.cos (a 1 - b 1) + (a 2 - b 2) * (a 2 - b 2) := by
      intro a b
      rw [dist_point, Real.sq_sqrt (hp a b)]
    rw [hk, dist_point, ← Real.sqrt_div (hp _ _)]
  · unfold scale2
    positivity

/-- A guiding-center step is accepted exactly if the two solutions are close: their positions in space and their parallel
momenta differ by at most the tolerance relative to the scales. -/
theorem accepted_iff (eps h tol : ℝ) (heps : 0 < eps) (htol : 0 < tol) (y : Fin 6 → ℝ) (s : Stages (Fin 6)) :
    errGc eps h y s / tol ≤ 1 ↔
      dist3 (point (rk5 y h s)) (point (embedded y h s)) ≤ tol * Real.sqrt (scale2 eps h y s) ∧
      |rk5 y h s 3 - embedded y h s 3| ≤ tol * (|y 3| + |s.k1 3 * h| + eps) := by
  obtain ⟨hp, hs⟩ := errPos_eq eps h heps y s
  rw [div_le_one htol]
  unfold errGc errOne
  rw [max_le_iff, max_le_iff, hp, div_le_iff₀ (Real.sqrt_pos.mpr hs), div_le_iff₀ (by positivity)]
  constructor
  · rintro ⟨⟨_, a⟩, b⟩; exact ⟨a, b⟩
  · rintro ⟨a, b⟩; exact ⟨⟨htol.le, a⟩, b⟩

/-- A field-line step is accepted exactly if the two solutions agree in every coordinate to the tolerance. -/
theorem accepted_ml_iff (eps h tol : ℝ) (heps : 0 < eps) (htol : 0 < tol) (y : Fin 3 → ℝ) (s : Stages (Fin 3)) :
    errMl eps h y s / tol ≤ 1 ↔ ∀ j, |rk5 y h s j - embedded y h s j| ≤ tol * (|y j| + |s.k1 j * h| + eps) := by
  have e : ∀ j, errOne eps h y s j ≤ tol ↔ |rk5 y h s j - embedded y h s j| ≤ tol * (|y j| + |s.k1 j * h| + eps) := by
    intro j
    unfold errOne
    rw [div_le_iff₀ (by positivity)]
  rw [div_le_one htol]
  unfold errMl
  rw [max_le_iff, max_le_iff, max_le_iff, e, e, e]
  constructor
  · rintro ⟨⟨⟨_, a⟩, b⟩, c⟩ j
    fin_cases j
    exacts [a, b, c]
  · intro a
    exact ⟨⟨⟨htol.le, a 0⟩, a 1⟩, a 2⟩

/-- After an accepted step the next one is between 0.85 and 1.5 times as long. -/
theorem nextGc_accepted (h err : ℝ) (hh : 0 < h) (h0 : 0 ≤ err) (h1 : err ≤ 1) : ∃ n, nextGc h err = some n ∧ 0.85 * h ≤ n ∧ n ≤ 1.5 * h := by
  unfold nextGc
  rw [if_pos h1]
  by_cases he : err = 0
  · rw [if_pos he, if_pos hh]
    exact ⟨_, rfl, by linarith, le_refl _⟩
  · rw [if_neg he]
    have hp : 0 < err := lt_of_le_of_ne h0 (Ne.symm he)
    have h2 : 1 ≤ err ^ (-0.2 : ℝ) := Real.one_le_rpow_of_pos_of_le_one_of_nonpos hp h1 (by norm_num)
    dsimp only
    refine ⟨_, rfl, ?_, ?_⟩
    · split_ifs
      · linarith
      · nlinarith
    · split_ifs with h3
      · exact le_refl _
      · exact not_lt.mp h3

/-- A rejected step is reported by a negative number, and the step to retry with is shorter than 0.85 times the rejected one. -/
theorem nextGc_rejected (h err : ℝ) (hh : 0 < h) (h1 : 1 < err) : ∃ n, nextGc h err = some n ∧ n < 0 ∧ -n < 0.85 * h := by
  unfold nextGc
  rw [if_neg (not_le.mpr h1)]
  have h2 : err ^ (-0.25 : ℝ) < 1 := Real.rpow_lt_one_of_one_lt_of_neg h1 (by norm_num)
  have h3 : 0 < err ^ (-0.25 : ℝ) := Real.rpow_pos_of_pos (by linarith) _
  refine ⟨_, rfl, ?_, ?_⟩
  · nlinarith [mul_pos hh h3]
  · nlinarith

/-- Hence the sign of the suggestion tells whether a step forward in time was accepted. -/
theorem nextGc_sign (h err : ℝ) (hh : 0 < h) (h0 : 0 ≤ err) : ∃ n, nextGc h err = some n ∧ n ≠ 0 ∧ (0 < n ↔ err ≤ 1) := by
  by_cases h1 : err ≤ 1
  · obtain ⟨n, a, b, c⟩ := nextGc_accepted h err hh h0 h1
    exact ⟨n, a, by linarith, fun _ => h1, fun _ => by linarith⟩
  · obtain ⟨n, a, b, c⟩ := nextGc_rejected h err hh (not_le.mp h1)
    exact ⟨n, a, by linarith, fun h => absurd h (by linarith), fun h => absurd h h1⟩

/-- A larger error never leads to a longer step. -/
theorem nextGc_antitone (h e1 e2 : ℝ) (hh : 0 < h) (h0 : 0 ≤ e1) (h12 : e1 ≤ e2) (n1 n2 : ℝ) (a1 : nextGc h e1 = some n1) (a2 : nextGc h e2 = some n2) :
    |n2| ≤ |n1| := by
  by_cases h2 : e2 ≤ 1
  · have h1 : e1 ≤ 1 := h12.trans h2
    obtain ⟨m1, b1, c1, d1⟩ := nextGc_accepted h e1 hh h0 h1
    obtain ⟨m2, b2, c2, d2⟩ := nextGc_accepted h e2 hh (h0.trans h12) h2
    rw [a1] at b1; rw [a2] at b2
    cases b1; cases b2
    rw [abs_of_pos (by linarith), abs_of_pos (by linarith)]
    unfold nextGc at a1 a2
    rw [if_pos h1] at a1
    rw [if_pos h2] at a2
    by_cases z1 : e1 = 0
    · rw [if_pos z1, if_pos hh] at a1
      cases a1
      exact d2
    · have p1 : 0 < e1 := lt_of_le_of_ne h0 (Ne.symm z1)
      have z2 : e2 ≠ 0 := by linarith
      rw [if_neg z1] at a1
      rw [if_neg z2] at a2
      have hm : e2 ^ (-0.2 : ℝ) ≤ e1 ^ (-0.2 : ℝ) := Real.rpow_le_rpow_of_nonpos p1 h12 (by norm_num)
      dsimp only at a1 a2
      have e1' := Option.some.inj a1
      have e2' := Option.some.inj a2
      rw [← e1', ← e2']
      have : 0.85 * h * e2 ^ (-0.2 : ℝ) ≤ 0.85 * h * e1 ^ (-0.2 : ℝ) := by
        apply mul_le_mul_of_nonneg_left hm; linarith
      split_ifs <;> linarith
  · have h2' := not_le.mp h2
    by_cases h1 : e1 ≤ 1
    · obtain ⟨m1, b1, c1, d1⟩ := nextGc_accepted h e1 hh h0 h1
      obtain ⟨m2, b2, c2, d2⟩ := nextGc_rejected h e2 hh h2'
      rw [a1] at b1; rw [a2] at b2
      cases b1; cases b2
      rw [abs_of_neg c2, abs_of_pos (by linarith)]
      linarith
    · unfold nextGc at a1 a2
      rw [if_neg h1] at a1
      rw [if_neg h2] at a2
      cases a1; cases a2
      have hm : e2 ^ (-0.25 : ℝ) ≤ e1 ^ (-0.25 : ℝ) := Real.rpow_le_rpow_of_nonpos (by linarith) h12 (by norm_num)
      have p2 : 0 ≤ e2 ^ (-0.25 : ℝ) := Real.rpow_nonneg (by linarith) _
      rw [abs_mul, abs_mul (-0.85 * h), abs_of_nonneg p2, abs_of_nonneg (p2.trans hm)]
      exact mul_le_mul_of_nonneg_left hm (abs_nonneg _)

/-- With a step backward in time the cap works the other way: every accepted step is followed by one at least half again as
long, however large the error was. -/
theorem nextGc_backward (h err : ℝ) (hh : h < 0) (h0 : 0 < err) (h1 : err ≤ 1) : ∃ n, nextGc h err = some n ∧ n ≤ 1.5 * h := by
  unfold nextGc
  rw [if_pos h1, if_neg h0.ne']
  dsimp only
  refine ⟨_, rfl, ?_⟩
  split_ifs with h3
  · exact le_refl _
  · exact not_lt.mp h3

/-- The step of a field line has no upper bound after an accepted step: for every factor there is an error that multiplies
the step by more than it. -/
theorem nextMl_unbounded (h : ℝ) (hh : 0 < h) (C : ℝ) : ∃ err n, 0 < err ∧ err ≤ 1 ∧ nextMl h err = some n ∧ C * h < n := by
  set D : ℝ := max C 1 / 0.85 + 1 with hD
  have hm : 1 ≤ max C 1 := le_max_right _ _
  have hd : 1 < D := by
    rw [hD]
    have : 0 < max C 1 / 0.85 := by positivity
    linarith
  refine ⟨D ^ (-5 : ℝ), 0.85 * h * D, Real.rpow_pos_of_pos (by linarith) _, Real.rpow_le_one_of_one_le_of_nonpos hd.le (by norm_num), ?_, ?_⟩
  · unfold nextMl
    rw [if_pos (Real.rpow_le_one_of_one_le_of_nonpos hd.le (by norm_num)), if_neg (Real.rpow_pos_of_pos (by linarith) _).ne',
      ← Real.rpow_mul (by linarith)]
    norm_num
  · have : C < 0.85 * D := by
      have h1 := le_max_left C 1
      have h2 : 0.85 * D = max C 1 + 0.85 := by rw [hD]; ring
      rw [h2]
      linarith
    nlinarith

theorem nextMl_accepted (h err : ℝ) (hh : 0 < h) (h0 : 0 < err) (h1 : err ≤ 1) : ∃ n, nextMl h err = some n ∧ 0.85 * h ≤ n := by
  unfold nextMl
  rw [if_pos h1, if_neg h0.ne']
  have h2 : 1 ≤ err ^ (-0.2 : ℝ) := Real.one_le_rpow_of_pos_of_le_one_of_nonpos h0 h1 (by norm_num)
  exact ⟨_, rfl, by nlinarith⟩

theorem nextMl_rejected (h err : ℝ) (hh : 0 < h) (h1 : 1 < err) : ∃ n, nextMl h err = some n ∧ n < 0 ∧ -n < 0.85 * h := by
  obtain ⟨n, a, b⟩ := nextGc_rejected h err hh h1
  refine ⟨n, ?_, b⟩
  unfold nextGc at a
  unfold nextMl
  rw [if_neg (not_le.mpr h1)] at a ⊢
  exact a

/-- The error estimate of a guiding center depends on the direction from which the toroidal angle is measured: the same
motion gives another estimate when the marker is turned by half a turn about the axis of the torus. -/
theorem estimate_depends_on_angle : ∃ (y y' : Fin 6 → ℝ) (s : Stages (Fin 6)), (∀ j, j ≠ 1 → y' j = y j) ∧ y' 1 = y 1 + Real.pi ∧
    ∀ eps, 0 < eps → errPos eps 1 y s ≠ errPos eps 1 y' s := by
  refine ⟨![1, 0, 0, 0, 0, 0], ![1, Real.pi, 0, 0, 0, 0], ⟨![1, 0, 0, 0, 0, 0], 0, 0, 0, 0, 0⟩, ?_, ?_, ?_⟩
  · intro j hj
    fin_cases j <;> simp_all
  · simp
  · intro eps he
    simp [errPos, rk5, embedded, advance]
    norm_num
    intro h
    have hc : (0 : ℝ) < Real.sqrt 76729 / Real.sqrt 4161798144 := by positivity
    have h1 : (0 : ℝ) < Real.sqrt eps := by positivity
    have h2 : (0 : ℝ) < Real.sqrt (4 + eps) := by positivity
    rw [div_eq_div_iff h1.ne' h2.ne'] at h
    have h3 := mul_left_cancel₀ hc.ne' h
    have h4 := congrArg (fun x => x ^ 2) h3
    simp only [Real.sq_sqrt he.le, Real.sq_sqrt (by linarith : (0 : ℝ) ≤ 4 + eps)] at h4
    linarith

/-- Steps that meet the hypotheses. -/
example : ∃ s : Stages (Fin 1), stages (fun _ y => .ok (fun l => 2 * y l)) (.ok fun _ => 2) 0 1 (fun _ => 1) = .ok s ∧
    rk5 (fun _ => 1) 1 s 0 = 1 + 2 + 2 + 4 / 3 + 2 / 3 + 4 / 15 + 2 / 25 := by
  refine ⟨_, rfl, ?_⟩
  simp [rk5, advance]
  norm_num

end Ascot.C49
