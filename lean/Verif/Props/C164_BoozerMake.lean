import Verif.Model.BoozerMake
import Verif.Spec.FieldLine
import Mathlib.Algebra.BigOperators.Field
import Mathlib.Algebra.Order.BigOperators.Group.Finset
import Mathlib.Algebra.Order.Chebyshev
import Mathlib.Tactic.Ring
import Mathlib.Tactic.Linarith
import Mathlib.Tactic.FieldSimp
import Mathlib.Tactic.LinearCombination
import Mathlib.Tactic.NormNum

set_option linter.unusedSectionVars false
set_option linter.unusedSimpArgs false

/-!
# C164: Boozer coordinates made for a tokamak have straight field lines and make modes without parallel electric field
-/
namespace Ascot.C164

open BoozerMake

variable {c : Contour}

/-- The polygon is passed along the poloidal field everywhere, or against it everywhere; the field does not vanish. -/
structure Regular (c : Contour) (s : ℝ) : Prop where
  sign : s = 1 ∨ s = -1
  along : ∀ k, k < c.N → 0 < s * ((c.r (k + 1) - c.r k) * c.br k + (c.z (k + 1) - c.z k) * c.bz k)
  right : ∀ k, k < c.N → 0 < c.r k
  sides : 0 < c.N

/-- R times the toroidal field is constant on the surface, as in an equilibrium. -/
def Equilibrium (c : Contour) : Prop := ∀ k, k < c.N → c.r k * c.bphi k = c.r 0 * c.bphi 0

theorem bpol_sq (c : Contour) (k : ℕ) : bpol c k ^ 2 = c.br k ^ 2 + c.bz k ^ 2 := by
  unfold bpol
  exact Real.sq_sqrt (by positivity)

theorem bnorm_sq (c : Contour) (k : ℕ) : bnorm c k ^ 2 = bpol c k ^ 2 + c.bphi k ^ 2 := by
  rw [bpol_sq]
  unfold bnorm
  rw [Real.sq_sqrt (by positivity)]
  ring

theorem Regular.bpol_pos {s : ℝ} (h : Regular c s) {k : ℕ} (hk : k < c.N) : 0 < bpol c k := by
  have h1 := h.along k hk
  unfold bpol
  refine Real.sqrt_pos.2 ?_
  by_contra hn
  have h2 : c.br k = 0 := by nlinarith [sq_nonneg (c.br k), sq_nonneg (c.bz k)]
  have h3 : c.bz k = 0 := by nlinarith [sq_nonneg (c.br k), sq_nonneg (c.bz k)]
  rw [h2, h3] at h1
  simp at h1

theorem Regular.bnorm_pos {s : ℝ} (h : Regular c s) {k : ℕ} (hk : k < c.N) : 0 < bnorm c k ^ 2 := by
  rw [bnorm_sq]
  have := h.bpol_pos hk
  positivity

theorem Regular.ds_pos {s : ℝ} (h : Regular c s) {k : ℕ} (hk : k < c.N) : 0 < s * ds c k := by
  unfold ds
  rw [← mul_div_assoc]
  exact div_pos (h.along k hk) (h.bpol_pos hk)

/-- Current and safety factor have the sign with which the polygon is passed. -/
theorem Regular.sum_pos {s : ℝ} (h : Regular c s) : 0 < s * (I c + q c * g c) := by
  have hpi := Real.pi_pos
  have h1 : 0 < s * I c := by
    unfold I
    rw [← mul_div_assoc, Finset.mul_sum]
    refine div_pos (Finset.sum_pos (fun k hk => ?_) (Finset.nonempty_range_iff.2 h.sides.ne')) (by positivity)
    rw [Finset.mem_range] at hk
    rw [← mul_assoc]
    exact mul_pos (h.ds_pos hk) (h.bpol_pos hk)
  have h2 : 0 ≤ s * (q c * g c) := by
    unfold q
    rw [div_mul_eq_mul_div, ← mul_div_assoc, Finset.sum_mul, Finset.mul_sum]
    refine div_nonneg (Finset.sum_nonneg fun k hk => ?_) (by positivity)
    rw [Finset.mem_range] at hk
    have e : s * (ds c k * g c / (c.r k ^ 2 * bpol c k) * g c) = (s * ds c k) * (g c ^ 2 / (c.r k ^ 2 * bpol c k)) := by ring
    rw [e]
    have := h.ds_pos hk
    have := h.bpol_pos hk
    have := h.right k hk
    positivity
  linarith

theorem Regular.sum_ne {s : ℝ} (h : Regular c s) : I c + q c * g c ≠ 0 := by
  intro e
  have := h.sum_pos
  rw [e, mul_zero] at this
  exact lt_irrefl _ this

theorem step_eq {s : ℝ} (h : Regular c s) {k : ℕ} (hk : k < c.N) :
    ds c k / (jac c k * bpol c k) = ds c k / bpol c k * bnorm c k ^ 2 / (I c + q c * g c) := by
  have h1 := h.sum_ne
  have h2 := (h.bnorm_pos hk).ne'
  have h3 := (h.bpol_pos hk).ne'
  unfold jac
  field_simp

theorem step_pos {s : ℝ} (h : Regular c s) {k : ℕ} (hk : k < c.N) : 0 < ds c k / (jac c k * bpol c k) := by
  have h1 := h.sum_pos
  have h2 := h.bnorm_pos hk
  have h3 := h.bpol_pos hk
  have h4 := h.ds_pos hk
  rw [step_eq h hk]
  rcases h.sign with rfl | rfl
  · rw [one_mul] at h1 h4
    positivity
  · have e : ds c k / bpol c k * bnorm c k ^ 2 / (I c + q c * g c)
        = (-1 * ds c k) / bpol c k * bnorm c k ^ 2 / (-1 * (I c + q c * g c)) := by
      rw [neg_one_mul, neg_one_mul, div_neg, neg_div, neg_mul, neg_div, neg_neg]
    rw [e]
    positivity

/-- **Closed angle.**  In an equilibrium the Boozer angle increases by 2 pi around the surface without being normalized. -/
theorem closed {s : ℝ} (h : Regular c s) (he : Equilibrium c) : btheta0 c c.N = 2 * Real.pi ∧ a c = 1 ∧ accepted c = true := by
  have hpi := Real.pi_pos
  have h0 : btheta0 c c.N = 2 * Real.pi := by
    unfold btheta0
    have h1 : ∀ k ∈ Finset.range c.N, ds c k / (jac c k * bpol c k)
        = (ds c k * bpol c k + ds c k * g c / (c.r k ^ 2 * bpol c k) * g c) / (I c + q c * g c) := by
      intro k hk
      rw [Finset.mem_range] at hk
      rw [step_eq h hk]
      congr 1
      have h3 := (h.bpol_pos hk).ne'
      have h4 := (h.right k hk).ne'
      have h5 : c.bphi k = g c / c.r k := by
        rw [eq_div_iff h4, mul_comm]
        exact he k hk
      rw [bnorm_sq, h5]
      field_simp
    rw [Finset.sum_congr rfl h1, ← Finset.sum_div, Finset.sum_add_distrib, ← Finset.sum_mul, div_eq_iff h.sum_ne]
    have e1 : ∑ k ∈ Finset.range c.N, ds c k * bpol c k = I c * (2 * Real.pi) := by
      unfold I
      rw [div_mul_cancel₀]
      positivity
    have e2 : ∑ k ∈ Finset.range c.N, ds c k * g c / (c.r k ^ 2 * bpol c k) = q c * (2 * Real.pi) := by
      unfold q
      rw [div_mul_cancel₀]
      positivity
    rw [e1, e2]
    ring
  have h1 : a c = 1 := by
    unfold a
    rw [h0, div_self]
    positivity
  refine ⟨h0, h1, ?_⟩
  unfold accepted
  rw [decide_eq_true_eq, h0, h1]
  refine ⟨by positivity, ?_⟩
  norm_num

theorem btheta0_lt {s : ℝ} (h : Regular c s) : ∀ {j k : ℕ}, j < k → k ≤ c.N → btheta0 c j < btheta0 c k := by
  intro j k hjk
  induction k with
  | zero => omega
  | succ k ih =>
    intro hk
    have h1 : btheta0 c (k + 1) = btheta0 c k + ds c k / (jac c k * bpol c k) := by
      unfold btheta0
      rw [Finset.sum_range_succ]
    have h2 := step_pos h (show k < c.N by omega)
    rcases Nat.lt_succ_iff_lt_or_eq.1 hjk with h3 | rfl
    · linarith [ih h3 (by omega)]
    · linarith

/-- **Increasing angle.**  The Boozer angle at the corners increases from 0 to 2 pi, whatever the direction of the field. -/
theorem increasing {s : ℝ} (h : Regular c s) :
    btheta c 0 = 0 ∧ btheta c c.N = 2 * Real.pi ∧ ∀ j k, j < k → k ≤ c.N → btheta c j < btheta c k := by
  have hpi := Real.pi_pos
  have h0 : btheta0 c 0 = 0 := by simp [btheta0]
  have hN : 0 < btheta0 c c.N := h0 ▸ btheta0_lt h h.sides le_rfl
  have ha : 0 < a c := by unfold a; positivity
  refine ⟨?_, ?_, fun j k hj hk => ?_⟩
  · unfold btheta
    rw [h0, zero_mul]
  · unfold btheta a
    exact mul_div_cancel₀ _ hN.ne'
  · unfold btheta
    exact mul_lt_mul_of_pos_right (btheta0_lt h hj hk) ha

/-! ## Interpolation -/

theorem countP_lt (xs : ℕ → ℝ) (x : ℝ) : ∀ (n m : ℕ), m ≤ n → (∀ k, k < m → xs k < x) → (∀ k, m ≤ k → k < n → ¬ xs k < x) →
    ∀ [DecidablePred fun k => xs k < x], (List.range n).countP (fun k => decide (xs k < x)) = m
  | 0, m, hm, _, _, _ => by
    have : m = 0 := by omega
    subst this
    rfl
  | n + 1, m, hm, h1, h2, inst => by
    rw [List.range_succ, List.countP_append, List.countP_singleton]
    by_cases hmn : m = n + 1
    · subst hmn
      rw [countP_lt xs x n n le_rfl (fun k hk => h1 k (by omega)) (fun k hk hk' => by omega), if_pos (by simpa using h1 n (by omega))]
    · rw [countP_lt xs x n m (by omega) h1 (fun k hk hk' => h2 k hk (by omega)), if_neg (by simpa using h2 n (by omega) (by omega))]
      rfl

/-- Linear interpolation between points in increasing order. -/
theorem interp_between {N : ℕ} {xs ys : ℕ → ℝ} (hx : ∀ j k, j < k → k ≤ N → xs j < xs k) {k : ℕ} (hk : k < N) {x : ℝ}
    (h1 : xs k ≤ x) (h2 : x ≤ xs (k + 1)) :
    interp1d N xs ys x = some (ys k + (ys (k + 1) - ys k) / (xs (k + 1) - xs k) * (x - xs k)) := by
  have mono : ∀ j k, j ≤ k → k ≤ N → xs j ≤ xs k := by
    intro j k hjk hk
    rcases hjk.lt_or_eq with h | rfl
    · exact (hx j k h hk).le
    · exact le_rfl
  unfold interp1d
  rw [if_neg (by
    rintro (h | h)
    · linarith [mono 0 k (by omega) (by omega)]
    · linarith [mono (k + 1) N (by omega) le_rfl])]
  rcases h1.lt_or_eq with h1 | h1
  · have e : (List.range (N + 1)).countP (fun j => decide (xs j < x)) = k + 1 :=
      countP_lt xs x (N + 1) (k + 1) (by omega) (fun j hj => lt_of_le_of_lt (mono j k (by omega) (by omega)) h1)
        (fun j hj hj' => not_lt.2 (h2.trans (mono (k + 1) j hj (by omega))))
    simp only [e]
    rw [show min (max (k + 1) 1) N = k + 1 by omega, Nat.add_sub_cancel]
  · have e : (List.range (N + 1)).countP (fun j => decide (xs j < x)) = k :=
      countP_lt xs x (N + 1) k (by omega) (fun j hj => h1 ▸ hx j k hj (by omega))
        (fun j hj hj' => not_lt.2 (h1 ▸ mono k j hj (by omega)))
    simp only [e]
    subst h1
    rw [sub_self, mul_zero, add_zero, Option.some.injEq]
    cases k with
    | zero =>
      rw [show min (max 0 1) N = 1 by omega, Nat.sub_self, sub_self, mul_zero, add_zero]
    | succ k =>
      rw [show min (max (k + 1) 1) N = k + 1 by omega, Nat.add_sub_cancel]
      have := (sub_pos.2 (hx k (k + 1) (by omega) (by omega))).ne'
      rw [div_mul_cancel₀ _ this]
      ring

/-- At a point the value there. -/
theorem interp_node {N : ℕ} (hN : 0 < N) {xs ys : ℕ → ℝ} (hx : ∀ j k, j < k → k ≤ N → xs j < xs k) {k : ℕ} (hk : k ≤ N) :
    interp1d N xs ys (xs k) = some (ys k) := by
  rcases hk.lt_or_eq with h | rfl
  · rw [interp_between hx h le_rfl (hx k (k + 1) (by omega) (by omega)).le, sub_self, mul_zero, add_zero]
  · obtain ⟨n, rfl⟩ : ∃ n, k = n + 1 := ⟨k - 1, by omega⟩
    rw [interp_between hx (Nat.lt_succ_self n) (hx n (n + 1) (by omega) le_rfl).le le_rfl, Option.some.injEq]
    have := (sub_pos.2 (hx n (n + 1) (by omega) le_rfl)).ne'
    rw [div_mul_cancel₀ _ this]
    ring

/-- Every value within the points is between two of them. -/
theorem located {xs : ℕ → ℝ} {x : ℝ} : ∀ {N : ℕ}, 0 < N → xs 0 ≤ x → x ≤ xs N → ∃ k, k < N ∧ xs k ≤ x ∧ x ≤ xs (k + 1)
  | 0, h, _, _ => by omega
  | N + 1, _, h0, h1 => by
    by_cases h : xs N ≤ x
    · exact ⟨N, by omega, h, h1⟩
    · rcases Nat.eq_zero_or_pos N with rfl | hN
      · exact absurd h0 h
      · obtain ⟨k, hk, h2⟩ := located hN h0 (not_le.1 h).le
        exact ⟨k, by omega, h2⟩

/-! ## Tables -/

theorem grid_lt {N : ℕ} (hN : 0 < N) {j k : ℕ} (h : j < k) : grid 0 (2 * Real.pi) (N + 1) j < grid 0 (2 * Real.pi) (N + 1) k := by
  have hpi := Real.pi_pos
  have hN' : (0 : ℝ) < N := by exact_mod_cast hN
  have h' : (j : ℝ) < k := by exact_mod_cast h
  unfold grid
  push_cast
  rw [add_sub_cancel_right]
  have : 0 < (2 * Real.pi - 0) / N := by
    rw [sub_zero]
    positivity
  nlinarith

theorem grid_ends {N : ℕ} (hN : 0 < N) : grid 0 (2 * Real.pi) (N + 1) 0 = 0 ∧ grid 0 (2 * Real.pi) (N + 1) N = 2 * Real.pi := by
  have hN' : (N : ℝ) ≠ 0 := by exact_mod_cast hN.ne'
  unfold grid
  push_cast
  rw [add_sub_cancel_right]
  constructor
  · ring
  · field_simp
    ring

/-- **Poloidal angle.**  Every geometrical angle from 0 to 2 pi has a Boozer angle; it is 0 at 0, 2 pi at 2 pi, and at the corners that
of the contour. -/
theorem poloidal {s : ℝ} (h : Regular c s) :
    theta c 0 = some 0 ∧ theta c (2 * Real.pi) = some (2 * Real.pi) ∧
    (∀ k, k ≤ c.N → theta c (grid 0 (2 * Real.pi) (c.N + 1) k) = some (btheta c k)) ∧
    ∀ x, 0 ≤ x → x ≤ 2 * Real.pi → ∃ y, theta c x = some y ∧ 0 ≤ y ∧ y ≤ 2 * Real.pi := by
  obtain ⟨i1, i2, i3⟩ := increasing h
  obtain ⟨g0, g1⟩ := grid_ends h.sides
  have hx : ∀ j k, j < k → k ≤ c.N → grid 0 (2 * Real.pi) (c.N + 1) j < grid 0 (2 * Real.pi) (c.N + 1) k :=
    fun j k hj _ => grid_lt h.sides hj
  have hn : ∀ k, k ≤ c.N → theta c (grid 0 (2 * Real.pi) (c.N + 1) k) = some (btheta c k) :=
    fun k hk => interp_node h.sides hx hk
  refine ⟨?_, ?_, hn, fun x h1 h2 => ?_⟩
  · have := hn 0 (by omega)
    rwa [g0, i1] at this
  · have := hn c.N le_rfl
    rwa [g1, i2] at this
  · obtain ⟨k, hk, h3, h4⟩ := located h.sides (g0.le.trans h1) (h2.trans g1.ge)
    refine ⟨_, interp_between hx hk h3 h4, ?_⟩
    have hw := sub_pos.2 (hx k (k + 1) (by omega) (by omega))
    have hy := i3 k (k + 1) (by omega) (by omega)
    have hy0 : 0 ≤ btheta c k := by
      rcases Nat.eq_zero_or_pos k with rfl | h5
      · exact i1.ge
      · exact i1 ▸ (i3 0 k h5 (by omega)).le
    have hy1 : btheta c (k + 1) ≤ 2 * Real.pi := by
      rcases (show k + 1 ≤ c.N by omega).lt_or_eq with h5 | h5
      · exact i2 ▸ (i3 (k + 1) c.N h5 le_rfl).le
      · rw [h5, i2]
    have hr0 : 0 ≤ (x - grid 0 (2 * Real.pi) (c.N + 1) k) / (grid 0 (2 * Real.pi) (c.N + 1) (k + 1) - grid 0 (2 * Real.pi) (c.N + 1) k) :=
      div_nonneg (by linarith) hw.le
    have hr1 : (x - grid 0 (2 * Real.pi) (c.N + 1) k) / (grid 0 (2 * Real.pi) (c.N + 1) (k + 1) - grid 0 (2 * Real.pi) (c.N + 1) k) ≤ 1 := by
      rw [div_le_one hw]
      linarith
    rw [div_mul_eq_mul_div, mul_div_assoc]
    constructor <;> nlinarith

theorem nu_end {s : ℝ} (_h : Regular c s) : nu c 0 = 0 ∧ nu c c.N = q c * (2 * Real.pi) := by
  have hpi := Real.pi_pos
  constructor
  · simp [nu]
  · unfold nu q
    rw [div_mul_cancel₀ _ (by positivity), Finset.mul_sum]
    exact Finset.sum_congr rfl fun k _ => by ring

/-- **Periodic.**  The table of nu is periodic: it is zero at both ends. -/
theorem periodic {s : ℝ} (h : Regular c s) : nuOf c 0 = some 0 ∧ nuOf c (2 * Real.pi) = some 0 := by
  obtain ⟨i1, i2, i3⟩ := increasing h
  obtain ⟨n0, n1⟩ := nu_end h
  have h0 := interp_node (ys := nu c) h.sides i3 (Nat.zero_le _)
  have h1 := interp_node (ys := nu c) h.sides i3 le_rfl
  rw [i1] at h0
  rw [i2] at h1
  unfold nuOf
  rw [h0, h1, n0, n1, Option.map_some, Option.map_some]
  exact ⟨by simp, by simp⟩

/-- **Straight field lines.**  Along a field line the toroidal coordinate, phi plus nu at the Boozer angle, increases by the safety factor
times the Boozer angle. -/
theorem straight {s : ℝ} (h : Regular c s) (he : Equilibrium c) {t phi : ℕ → ℝ} (hf : FieldLine.Follows c.N c.r c.z c.br c.bz t)
    (hl : FieldLine.Line c.N c.r c.bphi t phi) {k : ℕ} (hk : k ≤ c.N) :
    (nuOf c (btheta c k)).map (phi k + ·) = some (phi 0 + q c * btheta c k) := by
  obtain ⟨i1, i2, i3⟩ := increasing h
  have hphi : ∀ k, k ≤ c.N → phi k = phi 0 + nu c k := by
    intro k
    induction k with
    | zero => intro _; simp [nu]
    | succ k ih =>
      intro hk
      have h1 := hl k (by omega)
      have h2 := hf k (by omega)
      have h3 := (h.bpol_pos (show k < c.N by omega)).ne'
      have h4 := (h.right k (by omega)).ne'
      have h5 : c.r k * c.bphi k = g c := he k (by omega)
      have h6 : nu c (k + 1) = nu c k + g c * (ds c k / (c.r k ^ 2 * bpol c k)) := by
        unfold nu
        rw [Finset.sum_range_succ, mul_add]
      have h7 : ds c k = t k * bpol c k := by
        unfold ds
        rw [h2, ← bpol_sq, div_eq_iff h3]
        ring
      have h8 : phi (k + 1) - phi k = t k * c.bphi k / c.r k := by
        rw [eq_div_iff h4, ← h1]
        ring
      rw [h6, h7, ← h5]
      have h9 : c.r k * c.bphi k * (t k * bpol c k / (c.r k ^ 2 * bpol c k)) = t k * c.bphi k / c.r k := by
        field_simp
      rw [h9]
      linarith [ih (by omega)]
  unfold nuOf
  rw [interp_node h.sides i3 hk, Option.map_some, Option.map_some, Option.some.injEq, hphi k hk]
  ring

/-- **Jacobian.**  Following the field, the Boozer angle changes by the square of the field over `I + q g`. -/
theorem jacobian {s : ℝ} (h : Regular c s) (he : Equilibrium c) {t : ℕ → ℝ} (hf : FieldLine.Follows c.N c.r c.z c.br c.bz t) {k : ℕ}
    (hk : k < c.N) :
    btheta c (k + 1) - btheta c k = t k * (c.br k ^ 2 + c.bphi k ^ 2 + c.bz k ^ 2) / (I c + q c * g c) := by
  have h3 := (h.bpol_pos hk).ne'
  have h7 : ds c k / bpol c k = t k := by
    unfold ds
    rw [hf k hk, ← bpol_sq]
    field_simp
  unfold btheta
  rw [(closed h he).2.1, mul_one, mul_one]
  unfold btheta0
  rw [Finset.sum_range_succ, add_sub_cancel_left, step_eq h hk, h7, bnorm_sq, bpol_sq]
  ring

/-- A surface with four corners. -/
noncomputable def diamond : Contour where
  N := 4
  r := fun k => if k = 0 ∨ k = 4 then 3 else if k = 2 then 1 else 2
  z := fun k => if k = 1 then 1 else if k = 3 then -1 else 0
  br := fun k => if k = 0 ∨ k = 1 then 1 else -1
  bphi := fun k => 6 / (if k = 0 ∨ k = 4 then 3 else if k = 2 then 1 else 2)
  bz := fun k => if k = 0 ∨ k = 3 then -1 else 1

example : Regular diamond (-1) ∧ Equilibrium diamond ∧
    FieldLine.Follows diamond.N diamond.r diamond.z diamond.br diamond.bz (fun _ => -1) := by
  refine ⟨⟨Or.inr rfl, ?_, ?_, by norm_num [diamond]⟩, ?_, ?_⟩
  all_goals
    intro k hk
    have hk' : k < 4 := hk
    have hc : k = 0 ∨ k = 1 ∨ k = 2 ∨ k = 3 := by omega
    rcases hc with rfl | rfl | rfl | rfl <;> norm_num [diamond]

/-- The toroidal field exists: a field line on that surface. -/
example : ∃ phi, FieldLine.Line diamond.N diamond.r diamond.bphi (fun _ => -1) phi := by
  refine ⟨fun k => ∑ j ∈ Finset.range k, (-1) * diamond.bphi j / diamond.r j, fun k hk => ?_⟩
  have hr : diamond.r k ≠ 0 := by
    have hk' : k < 4 := hk
    have hc : k = 0 ∨ k = 1 ∨ k = 2 ∨ k = 3 := by omega
    rcases hc with rfl | rfl | rfl | rfl <;> norm_num [diamond]
  simp only [Finset.sum_range_succ, add_sub_cancel_left]
  exact mul_div_cancel₀ _ hr

/-! ## Signs -/

/-- The field with the toroidal part reversed. -/
def Contour.reverseTor (c : Contour) : Contour := { c with bphi := fun k => -c.bphi k }

/-- The field with the poloidal part reversed. -/
def Contour.reversePol (c : Contour) : Contour := { c with br := fun k => -c.br k, bz := fun k => -c.bz k }

theorem bpol_reverse (c : Contour) (k : ℕ) : bpol (Contour.reversePol c) k = bpol c k := by
  simp [bpol, Contour.reversePol]

theorem ds_reverse (c : Contour) (k : ℕ) : ds (Contour.reversePol c) k = -ds c k := by
  unfold ds
  rw [bpol_reverse]
  simp only [Contour.reversePol]
  ring

/-- **Signs.**  The safety factor changes sign with the toroidal and with the poloidal field, the current term with the poloidal field. -/
theorem signs (c : Contour) : q (Contour.reverseTor c) = -q c ∧ I (Contour.reverseTor c) = I c ∧ g (Contour.reverseTor c) = -g c ∧
    q (Contour.reversePol c) = -q c ∧ I (Contour.reversePol c) = -I c ∧ g (Contour.reversePol c) = g c := by
  have hg : g (Contour.reverseTor c) = -g c := by simp [g, Contour.reverseTor]
  have hg' : g (Contour.reversePol c) = g c := rfl
  refine ⟨?_, rfl, hg, ?_, ?_, hg'⟩
  · unfold q
    rw [hg, ← neg_div, ← Finset.sum_neg_distrib]
    congr 1
    refine Finset.sum_congr rfl fun k _ => ?_
    simp only [ds, bpol, Contour.reverseTor]
    ring
  · unfold q
    rw [hg', ← neg_div, ← Finset.sum_neg_distrib]
    congr 1
    refine Finset.sum_congr rfl fun k _ => ?_
    rw [ds_reverse, bpol_reverse]
    simp only [Contour.reversePol]
    ring
  · unfold I
    rw [← neg_div, ← Finset.sum_neg_distrib]
    congr 1
    refine Finset.sum_congr rfl fun k _ => ?_
    rw [ds_reverse, bpol_reverse]
    ring

/-! ## Rows of the tables -/

theorem psi_rho {psi0 psi1 rho : ℝ} (h : psi0 ≠ psi1) (hr : 0 ≤ rho) : rhoOf psi0 psi1 (psi0 + rho ^ 2 * (psi1 - psi0)) = rho := by
  have h' : psi1 - psi0 ≠ 0 := sub_ne_zero.2 h.symm
  unfold rhoOf
  rw [add_sub_cancel_left, mul_div_assoc, div_self h', mul_one, Real.sqrt_sq hr]

/-- **Rows.**  Row `k` of a table is that of the value of psi with number `k` on the grid from `psimin` to `psimax`, which the simulation
uses, whether psi increases or decreases outwards. -/
theorem rows {α : Type} (row : ℝ → α) (psi0 psi1 rhomin rhomax : ℝ) (n : ℕ) :
    table row psi0 psi1 rhomin rhomax n
      = (List.range n).map fun k => row (rhoOf psi0 psi1 (grid (psimin psi0 psi1 rhomin rhomax) (psimax psi0 psi1 rhomin rhomax) n k)) := by
  unfold table psigrid
  by_cases h : psi1 < psi0
  · simp only [if_pos h]
    rw [List.map_reverse, List.reverse_reverse]
    unfold ExiDist.linspace
    rw [List.map_map]
    rfl
  · simp only [if_neg h]
    unfold ExiDist.linspace
    rw [List.map_map]
    rfl

/-- **Last contour.**  The contour that bounds the region of the coordinates is the one with the largest rho. -/
theorem outermost {psi0 psi1 rhomin rhomax : ℝ} (h : psi0 ≠ psi1) (h0 : 0 ≤ rhomin) (h1 : rhomin ≤ rhomax) {n : ℕ} (hn : 2 ≤ n) :
    last psi0 psi1 rhomin rhomax n = some rhomax := by
  obtain ⟨m, rfl⟩ : ∃ m, n = m + 1 := ⟨n - 1, by omega⟩
  have hm : (m : ℝ) ≠ 0 := by exact_mod_cast (show m ≠ 0 by omega)
  have hsq : rhomin ^ 2 ≤ rhomax ^ 2 := pow_le_pow_left₀ h0 h1 2
  unfold last psigrid
  by_cases hd : psi1 < psi0
  · simp only [if_pos hd]
    rw [List.getLast?_reverse]
    unfold ExiDist.linspace
    rw [List.range_succ_eq_map, List.map_cons, List.head?_cons, Option.map_some, Nat.cast_zero, zero_mul, add_zero]
    have : psimin psi0 psi1 rhomin rhomax = psi0 + rhomax ^ 2 * (psi1 - psi0) := by
      unfold psimin
      exact min_eq_right (by nlinarith)
    rw [this, psi_rho h (h0.trans h1)]
  · have hd' : psi0 < psi1 := lt_of_le_of_ne (not_lt.1 hd) h
    simp only [if_neg hd]
    unfold ExiDist.linspace
    rw [List.range_succ, List.map_append, List.map_singleton, List.getLast?_concat, Option.map_some]
    have e : psimin psi0 psi1 rhomin rhomax + (m : ℝ) * ((psimax psi0 psi1 rhomin rhomax - psimin psi0 psi1 rhomin rhomax) / (((m + 1 : ℕ) : ℝ) - 1))
        = psimax psi0 psi1 rhomin rhomax := by
      push_cast
      rw [add_sub_cancel_right, mul_div_cancel₀ _ hm]
      ring
    have : psimax psi0 psi1 rhomin rhomax = psi0 + rhomax ^ 2 * (psi1 - psi0) := by
      unfold psimax
      exact max_eq_right (by nlinarith)
    rw [e, this, psi_rho h (h0.trans h1)]

/-! ## Trapped particles -/

/-- The fraction of trapped particles by the usual formula, in which the square of the field is averaged, on the same points. -/
noncomputable def usual (c : Contour) (bmax : ℝ) : ℝ :=
  1 - ∑ i ∈ Finset.range 100, 3 / 4 * (FieldLine.mean c.N (weight c) (fun k => bnorm c k ^ 2) / bmax ^ 2) * grid 0 1 100 i * (1 / 99)
    / FieldLine.mean c.N (weight c) fun k => Real.sqrt (1 - grid 0 1 100 i * bnorm c k / bmax)

theorem weight_pos {s : ℝ} (h : Regular c s) {k : ℕ} (hk : k < c.N) : 0 < weight c k :=
  div_pos (sub_pos.2 (grid_lt h.sides (Nat.lt_succ_self k))) (h.bpol_pos hk)

theorem mean_sq {s : ℝ} (h : Regular c s) : bAvg c ^ 2 ≤ FieldLine.mean c.N (weight c) fun k => bnorm c k ^ 2 := by
  have hW : 0 < ∑ k ∈ Finset.range c.N, weight c k :=
    Finset.sum_pos (fun k hk => weight_pos h (Finset.mem_range.1 hk)) (Finset.nonempty_range_iff.2 h.sides.ne')
  have h1 := Finset.sum_sq_le_sum_mul_sum_of_sq_eq_mul (Finset.range c.N) (r := fun k => bnorm c k * weight c k)
    (f := fun k => bnorm c k ^ 2 * weight c k) (g := fun k => weight c k)
    (fun k hk => mul_nonneg (sq_nonneg _) (weight_pos h (Finset.mem_range.1 hk)).le) (fun k hk => (weight_pos h (Finset.mem_range.1 hk)).le)
    (fun k _ => by ring)
  unfold bAvg FieldLine.mean
  rw [div_pow, div_le_div_iff₀ (by positivity) hW]
  nlinarith

/-- **Trapped particles.**  The fraction returned is not below that of the usual formula, as the square of the average of the field is used
instead of the average of the square. -/
theorem trapped {s : ℝ} (h : Regular c s) {bmax : ℝ} (hb : 0 < bmax) : usual c bmax ≤ ftrap c bmax ∧ ftrap c bmax ≤ 1 := by
  have hW : 0 < ∑ k ∈ Finset.range c.N, weight c k :=
    Finset.sum_pos (fun k hk => weight_pos h (Finset.mem_range.1 hk)) (Finset.nonempty_range_iff.2 h.sides.ne')
  have hf : ∀ tau, 0 ≤ fAvg c bmax tau := fun tau =>
    div_nonneg (Finset.sum_nonneg fun k hk => mul_nonneg (Real.sqrt_nonneg _) (weight_pos h (Finset.mem_range.1 hk)).le) hW.le
  have hg : ∀ i : ℕ, 0 ≤ grid 0 1 100 i := fun i => by
    unfold grid
    have : (0 : ℝ) ≤ i := Nat.cast_nonneg i
    norm_num
  constructor
  · unfold usual ftrap
    refine sub_le_sub_left (Finset.sum_le_sum fun i _ => ?_) 1
    have e : FieldLine.mean c.N (weight c) (fun k => Real.sqrt (1 - grid 0 1 100 i * bnorm c k / bmax)) = fAvg c bmax (grid 0 1 100 i) := rfl
    rw [e, div_pow]
    refine div_le_div_of_nonneg_right ?_ (hf _)
    have h1 : bAvg c ^ 2 / bmax ^ 2 ≤ FieldLine.mean c.N (weight c) (fun k => bnorm c k ^ 2) / bmax ^ 2 :=
      div_le_div_of_nonneg_right (mean_sq h) (by positivity)
    have h2 := hg i
    refine mul_le_mul_of_nonneg_right (mul_le_mul_of_nonneg_right (mul_le_mul_of_nonneg_left h1 (by norm_num)) h2) (by norm_num)
  · unfold ftrap
    have : 0 ≤ ∑ i ∈ Finset.range 100, 3 / 4 * (bAvg c / bmax) ^ 2 * grid 0 1 100 i * (1 / 99) / fAvg c bmax (grid 0 1 100 i) :=
      Finset.sum_nonneg fun i _ => div_nonneg (mul_nonneg (mul_nonneg (by positivity) (hg i)) (by norm_num)) (hf _)
    linarith

/-- **Too many.**  If the strength of the field is not constant, the fraction returned is too large. -/
theorem too_many {s : ℝ} (h : Regular c s) {bmax : ℝ} (hb : ∀ k, k < c.N → bnorm c k ≤ bmax)
    (hne : ∃ k, k < c.N ∧ bnorm c k ≠ bAvg c) : usual c bmax < ftrap c bmax := by
  obtain ⟨k0, hk0, hk1⟩ := hne
  have hb0 : 0 < bmax := by
    refine lt_of_lt_of_le ?_ (hb k0 hk0)
    have h1 := h.bnorm_pos hk0
    have h2 : 0 ≤ bnorm c k0 := Real.sqrt_nonneg _
    rcases h2.lt_or_eq with h3 | h3
    · exact h3
    · rw [← h3] at h1
      simp at h1
  have hwp : ∀ k ∈ Finset.range c.N, 0 < weight c k := fun k hk => weight_pos h (Finset.mem_range.1 hk)
  have hW : 0 < ∑ k ∈ Finset.range c.N, weight c k := Finset.sum_pos hwp (Finset.nonempty_range_iff.2 h.sides.ne')
  have hsq : bAvg c ^ 2 < FieldLine.mean c.N (weight c) fun k => bnorm c k ^ 2 := by
    have h1 : 0 < ∑ k ∈ Finset.range c.N, (bnorm c k - bAvg c) ^ 2 * weight c k := by
      refine Finset.sum_pos' (fun k hk => mul_nonneg (sq_nonneg _) (hwp k hk).le) ⟨k0, Finset.mem_range.2 hk0, ?_⟩
      have := sub_ne_zero.2 hk1
      have := hwp k0 (Finset.mem_range.2 hk0)
      positivity
    have h2 : ∑ k ∈ Finset.range c.N, (bnorm c k - bAvg c) ^ 2 * weight c k
        = (∑ k ∈ Finset.range c.N, bnorm c k ^ 2 * weight c k) - 2 * bAvg c * (∑ k ∈ Finset.range c.N, bnorm c k * weight c k)
          + bAvg c ^ 2 * ∑ k ∈ Finset.range c.N, weight c k := by
      rw [Finset.mul_sum, Finset.mul_sum, ← Finset.sum_sub_distrib, ← Finset.sum_add_distrib]
      exact Finset.sum_congr rfl fun k _ => by ring
    have h3 : ∑ k ∈ Finset.range c.N, bnorm c k * weight c k = bAvg c * ∑ k ∈ Finset.range c.N, weight c k := by
      unfold bAvg
      rw [div_mul_cancel₀ _ hW.ne']
    rw [h2, h3] at h1
    unfold FieldLine.mean
    rw [lt_div_iff₀ hW]
    nlinarith
  have hg : ∀ i : ℕ, 0 ≤ grid 0 1 100 i := fun i => by
    unfold grid
    have : (0 : ℝ) ≤ i := Nat.cast_nonneg i
    norm_num
  have hf : ∀ tau, 0 ≤ fAvg c bmax tau := fun tau =>
    div_nonneg (Finset.sum_nonneg fun k hk => mul_nonneg (Real.sqrt_nonneg _) (hwp k hk).le) hW.le
  have h1 : bAvg c ^ 2 / bmax ^ 2 < FieldLine.mean c.N (weight c) (fun k => bnorm c k ^ 2) / bmax ^ 2 :=
    div_lt_div_of_pos_right hsq (by positivity)
  unfold usual ftrap
  refine sub_lt_sub_left (Finset.sum_lt_sum (fun i _ => ?_) ⟨1, by simp, ?_⟩) 1
  · have e : FieldLine.mean c.N (weight c) (fun k => Real.sqrt (1 - grid 0 1 100 i * bnorm c k / bmax)) = fAvg c bmax (grid 0 1 100 i) := rfl
    rw [e, div_pow]
    refine div_le_div_of_nonneg_right ?_ (hf _)
    exact mul_le_mul_of_nonneg_right (mul_le_mul_of_nonneg_right (mul_le_mul_of_nonneg_left h1.le (by norm_num)) (hg i)) (by norm_num)
  · have e : FieldLine.mean c.N (weight c) (fun k => Real.sqrt (1 - grid 0 1 100 1 * bnorm c k / bmax)) = fAvg c bmax (grid 0 1 100 1) := rfl
    have hg1 : grid 0 1 100 1 = 1 / 99 := by
      unfold grid
      norm_num
    have hfp : 0 < fAvg c bmax (1 / 99) := by
      refine div_pos (Finset.sum_pos (fun k hk => mul_pos (Real.sqrt_pos.2 ?_) (hwp k hk)) (Finset.nonempty_range_iff.2 h.sides.ne')) hW
      have h3 := hb k (Finset.mem_range.1 hk)
      have h4 : 1 / 99 * bnorm c k / bmax ≤ 1 / 99 := by
        rw [div_le_iff₀ hb0]
        linarith
      linarith
    rw [e, div_pow, hg1]
    refine div_lt_div_of_pos_right ?_ hfp
    nlinarith

example : (∀ k, k < diamond.N → bnorm diamond k ≤ 7) ∧ ∃ k, k < diamond.N ∧ bnorm diamond k ≠ bAvg diamond := by
  constructor
  · intro k hk
    unfold bnorm
    rw [show (7 : ℝ) = Real.sqrt (7 ^ 2) from (Real.sqrt_sq (by norm_num)).symm]
    refine Real.sqrt_le_sqrt ?_
    have hk' : k < 4 := hk
    have hc : k = 0 ∨ k = 1 ∨ k = 2 ∨ k = 3 := by omega
    rcases hc with rfl | rfl | rfl | rfl <;> norm_num [diamond]
  · by_contra hn
    push Not at hn
    have h0 := hn 0 (by norm_num [diamond])
    have h1 := hn 1 (by norm_num [diamond])
    have h2 : bnorm diamond 0 ^ 2 = bnorm diamond 1 ^ 2 := by rw [h0, h1]
    rw [bnorm_sq, bnorm_sq, bpol_sq, bpol_sq] at h2
    norm_num [diamond] at h2

/-! ## Potentials -/

/-- The coordinates at a point are Boozer coordinates of the field `j` there: the field is tangential to the flux surface, and the angles
change along it as in `jacobian` and `straight`. -/
structure Aligned (p : Boozer.Ptz) (j : Coord.Jac) (r q I g : ℝ) : Prop where
  psi : j.a.v * p.psi.d1 + j.b.v * (p.psi.d2 / r) + j.c.v * p.psi.d3 = 0
  theta : (j.a.v * p.theta.d1 + j.b.v * (p.theta.d2 / r) + j.c.v * p.theta.d3) * (I + q * g) = j.a.v ^ 2 + j.b.v ^ 2 + j.c.v ^ 2
  zeta : j.a.v * p.zeta.d1 + j.b.v * (p.zeta.d2 / r) + j.c.v * p.zeta.d3
    = q * (j.a.v * p.theta.d1 + j.b.v * (p.theta.d2 / r) + j.c.v * p.theta.d3)

/-- The parallel electric field times the field. -/
noncomputable def Epar (d : Mhd.Dmhd) (j : Coord.Jac) (r : ℝ) : ℝ :=
  V3.dot (Mhd.combine d j r true).E ⟨j.a.v, j.b.v, j.c.v⟩

theorem Epar_add (d e : Mhd.Dmhd) (j : Coord.Jac) (r : ℝ) : Epar (d.add e) j r = Epar d j r + Epar e j r := by
  unfold Epar Mhd.combine Mhd.Dmhd.add Mhd.Part.add V3.dot
  simp only
  ring

theorem Epar_zero (j : Coord.Jac) (r : ℝ) : Epar .zero j r = 0 := by
  unfold Epar Mhd.combine Mhd.Dmhd.zero Mhd.Part.zero V3.dot
  simp

/-- The parallel electric field of one mode. -/
theorem Epar_mode {P : Type} {p : Boozer.Ptz} {j : Coord.Jac} {r q I g : ℝ} (hp : Aligned p j r q I g) (hI : I + q * g ≠ 0) (k : Mhd.Mode P)
    (t drho av ad fv fd : ℝ) :
    Epar ⟨Mhd.part k p r t drho ⟨av, ad, 0⟩, Mhd.part k p r t drho ⟨fv, fd, 0⟩⟩ j r
      = k.amplitude * Real.sin (Mhd.arg k p t) * (j.a.v ^ 2 + j.b.v ^ 2 + j.c.v ^ 2) * (fv * (k.n * q - k.m) / (I + q * g) - av * k.omega) := by
  have h1 := hp.psi
  have h2 := hp.theta
  have h3 := hp.zeta
  obtain ⟨X, hX⟩ : ∃ X, X = j.a.v * p.theta.d1 + j.b.v * (p.theta.d2 / r) + j.c.v * p.theta.d3 := ⟨_, rfl⟩
  obtain ⟨B, hB⟩ : ∃ B, B = j.a.v ^ 2 + j.b.v ^ 2 + j.c.v ^ 2 := ⟨_, rfl⟩
  rw [← hX] at h2 h3
  rw [← hB] at h2 ⊢
  have hd : fv * (k.n * q - k.m) / (I + q * g) * B = fv * (k.n * q - k.m) * X := by
    rw [← h2]
    field_simp
  have e : k.amplitude * Real.sin (Mhd.arg k p t) * B * (fv * (k.n * q - k.m) / (I + q * g) - av * k.omega)
      = k.amplitude * Real.sin (Mhd.arg k p t) * (fv * (k.n * q - k.m) / (I + q * g) * B - av * k.omega * B) := by ring
  rw [e, hd]
  unfold Epar Mhd.combine Mhd.part V3.dot
  simp only
  linear_combination (-k.amplitude * fd * drho * Real.cos (Mhd.arg k p t)) * h1
    + (k.amplitude * fv * k.n * Real.sin (Mhd.arg k p t)) * h3 + (k.amplitude * fv * k.m * Real.sin (Mhd.arg k p t)) * hX
    + (k.amplitude * av * k.omega * Real.sin (Mhd.arg k p t)) * hB

/-- A mode whose two potentials at `rho` are related as by `mhd_consistent_potentials`. -/
def Consistent (q I g rho : ℝ) (k : Mhd.Mode Mhd.Spline1) : Prop :=
  ∀ a f, k.alpha rho = some a → k.phi rho = some f →
    phiOf q I g k.n k.m k.omega a.1 = some f.1 ∨ alphaOf q I g k.n k.m k.omega f.1 = some a.1

theorem consistent_eq {q I g : ℝ} (hI : I + q * g ≠ 0) {n m : ℤ} {omega av fv : ℝ}
    (h : phiOf q I g n m omega av = some fv ∨ alphaOf q I g n m omega fv = some av) :
    fv * (n * q - m) / (I + q * g) - av * omega = 0 := by
  rcases h with h | h
  · unfold phiOf at h
    split_ifs at h with h1
    rw [Option.some.injEq] at h
    rw [← h, show I + q * g = g * q + I by ring]
    have h2 : g * q + I ≠ 0 := by
      rw [show g * q + I = I + q * g by ring]
      exact hI
    have h3 : (n : ℝ) * q - m ≠ 0 := h1
    obtain ⟨x, hx⟩ : ∃ x, x = (n : ℝ) * q - m := ⟨_, rfl⟩
    rw [← hx] at h3 ⊢
    field_simp
    ring
  · unfold alphaOf at h
    split_ifs at h with h1
    rw [Option.some.injEq] at h
    rw [not_or] at h1
    have h2 := h1.1
    have h3 := h1.2
    rw [← h, show I + q * g = g * q + I by ring]
    field_simp
    ring

/-- **No parallel electric field.**  With potentials made consistent, at points where the coordinates are Boozer coordinates of the field, the
sum of all modes has no electric field along the magnetic field. -/
theorem parallel {p : Boozer.Ptz} {j : Coord.Jac} {r q I g rho : ℝ} (hp : Aligned p j r q I g) (hI : I + q * g ≠ 0) (t drho : ℝ)
    (includemode : ℤ) {modes : List (Mhd.Mode Mhd.Spline1)} (hm : ∀ k ∈ modes, Consistent q I g rho k) :
    Epar (Mhd.loop (fun a => Mhd.statProf a rho t) includemode p r t drho modes).2 j r = 0 := by
  have key : ∀ (l : List (Mhd.Mode Mhd.Spline1 × ℕ)) (acc : ℕ × Mhd.Dmhd), (∀ k ∈ l, Consistent q I g rho k.1) → Epar acc.2 j r = 0 →
      Epar (l.foldl (fun acc ki =>
        if Mhd.included includemode ki.2 then
          match Mhd.statProf ki.1.alpha rho t, Mhd.statProf ki.1.phi rho t with
          | some a, some f => (acc.1, acc.2.add ⟨Mhd.part ki.1 p r t drho a, Mhd.part ki.1 p r t drho f⟩)
          | _, _ => (acc.1 + 1, acc.2)
        else acc) acc).2 j r = 0 := by
    intro l
    induction l with
    | nil => intro acc _ h; exact h
    | cons ki l ih =>
      intro acc hl h
      rw [List.foldl_cons]
      refine ih _ (fun k hk => hl k (List.mem_cons_of_mem _ hk)) ?_
      split_ifs
      · have hc := hl ki List.mem_cons_self
        unfold Mhd.statProf
        cases ha : ki.1.alpha rho with
        | none => exact h
        | some a =>
          cases hf : ki.1.phi rho with
          | none => exact h
          | some f =>
            simp only [Option.map_some]
            rw [Epar_add, h, Epar_mode hp hI, consistent_eq hI (hc a f ha hf)]
            ring
      · exact h
  unfold Mhd.loop
  refine key _ _ (fun k hk => hm k.1 ?_) (Epar_zero j r)
  exact List.fst_mem_of_mem_zipIdx hk

/-- A point with a field and coordinates aligned with it, and a consistent mode. -/
example : Aligned ⟨⟨1, 1, 0, 0⟩, ⟨0, 0, 0, 1⟩, ⟨0, 0, 3, 1⟩⟩ ⟨⟨0, 0, 0, 0⟩, ⟨2, 0, 0, 0⟩, ⟨1, 0, 0, 0⟩⟩ 2 4 1 1 ∧ (1 : ℝ) + 4 * 1 ≠ 0 ∧
    phiOf 4 1 1 1 2 3 2 = some 15 := by
  refine ⟨⟨by norm_num, by norm_num, by norm_num⟩, by norm_num, ?_⟩
  unfold phiOf
  norm_num

/-- On a resonant surface there is no consistent electric potential: the code divides by zero, and also if a magnetic potential is
asked for at zero frequency. -/
theorem resonant (q I g : ℝ) (n m : ℤ) (alpha omega : ℝ) (h : n * q = m) :
    phiOf q I g n m omega alpha = none ∧ ∀ phi, alphaOf q I g n m 0 phi = none := by
  constructor
  · unfold phiOf
    rw [if_pos (by rw [h, sub_self])]
  · intro phi
    unfold alphaOf
    rw [if_pos (Or.inr rfl)]

example : ((2 : ℤ) : ℝ) * (3 / 2) = ((3 : ℤ) : ℝ) := by norm_num

end Ascot.C164
