import Verif.Model.Libascot
import Mathlib.Topology.Order.IntermediateValue
import Mathlib.Topology.Instances.Real.Lemmas

/-!
# C111: from flux surface and poloidal angle to a position

A query of rho and theta returns a point of that angle, seen from the magnetic axis, whose rho is within the tolerance, or
leaves the output alone.  If rho grows along the ray and crosses the requested value, enough iterations find it.
-/
set_option linter.unusedSectionVars false
set_option linter.unusedSimpArgs false

namespace Ascot.C111
open Ascot.Libascot

/-! ### Specification -/

/-- The point at distance `d` from `a` in the direction `theta`. -/
noncomputable def ray (a : ℝ × ℝ) (theta d : ℝ) : ℝ × ℝ := (a.1 + d * Real.cos theta, a.2 + d * Real.sin theta)

/-- The value of rho at distance `d` along the ray; none where R is negative or the field cannot be evaluated. -/
def Along (rhoAt : ℝ → ℝ → Option ℝ) (a : ℝ × ℝ) (theta d v : ℝ) : Prop :=
  0 ≤ (ray a theta d).1 ∧ rhoAt (ray a theta d).1 (ray a theta d).2 = some v

variable {rhoAt : ℝ → ℝ → Option ℝ} {a : ℝ × ℝ} {rho theta tol : ℝ}

/-! ### Soundness -/

theorem bisect_sound : ∀ {n : Nat} {lo hi : ℝ} {p : ℝ × ℝ}, lo < hi → bisect rhoAt a rho theta tol n lo hi = some p →
    ∃ d v, lo < d ∧ d < hi ∧ p = ray a theta d ∧ Along rhoAt a theta d v ∧ |rho - v| < tol
  | 0, lo, hi, p, _, h => by simp [bisect] at h
  | n + 1, lo, hi, p, hl, h => by
    unfold bisect at h
    dsimp only at h
    have h1 : lo < 0.5 * (lo + hi) := by norm_num; linarith
    have h2 : 0.5 * (lo + hi) < hi := by norm_num; linarith
    generalize 0.5 * (lo + hi) = c at *
    have left : bisect rhoAt a rho theta tol n lo c = some p →
        ∃ d v, lo < d ∧ d < hi ∧ p = ray a theta d ∧ Along rhoAt a theta d v ∧ |rho - v| < tol := fun h => by
      obtain ⟨d, v, k1, k2, k⟩ := bisect_sound h1 h
      exact ⟨d, v, k1, k2.trans h2, k⟩
    by_cases hr : a.1 + c * Real.cos theta < 0
    · rw [if_pos hr] at h; exact left h
    · rw [if_neg hr] at h
      cases hv : rhoAt (a.1 + c * Real.cos theta) (a.2 + c * Real.sin theta) with
      | none => rw [hv] at h; exact left h
      | some v =>
        rw [hv] at h
        dsimp only at h
        by_cases ht : |rho - v| < tol
        · rw [if_pos ht] at h
          cases h
          exact ⟨c, v, h1, h2, rfl, ⟨not_lt.1 hr, hv⟩, ht⟩
        · rw [if_neg ht] at h
          by_cases hlt : rho < v
          · rw [if_pos hlt] at h; exact left h
          · rw [if_neg hlt] at h
            obtain ⟨d, v, k1, k2, k⟩ := bisect_sound h2 h
            exact ⟨d, v, h1.trans k1, k2, k⟩

variable {axis : ℝ → Option (ℝ × ℝ)} {rhoF : ℝ → ℝ → ℝ → Option ℝ} {phi : ℝ} {n : Nat}

/-- A point that is returned is the axis, if rho there is already above the requested value, or a point less than five metres
from the axis, in the requested direction, with nonnegative R and rho within the tolerance. -/
theorem sound {p : ℝ × ℝ} (h : rhotheta2rz axis rhoF n tol rho theta phi = some p) :
    ∃ a v, axis phi = some a ∧ rhoF a.1 phi a.2 = some v ∧
      ((rho < v ∧ p = a) ∨
       (v ≤ rho ∧ ∃ d, 0 < d ∧ d < 5 ∧ p = ray a theta d ∧ 0 ≤ p.1 ∧ ∃ w, rhoF p.1 phi p.2 = some w ∧ |rho - w| < tol)) := by
  unfold rhotheta2rz at h
  cases ha : axis phi with
  | none => simp [ha] at h
  | some a =>
    rw [ha] at h
    dsimp only at h
    cases hv : rhoF a.1 phi a.2 with
    | none => simp [hv] at h
    | some v =>
      rw [hv] at h
      dsimp only at h
      refine ⟨a, v, rfl, hv, ?_⟩
      by_cases hlt : v > rho
      · rw [if_pos hlt] at h
        cases h
        exact .inl ⟨hlt, rfl⟩
      · rw [if_neg hlt] at h
        obtain ⟨d, w, k1, k2, rfl, ⟨k3, k4⟩, k5⟩ := bisect_sound (by norm_num) h
        exact .inr ⟨not_lt.1 hlt, d, k1, k2, rfl, k3, w, k4, k5⟩

/-! ### Completeness -/

theorem bisect_complete {d δ B : ℝ} (hlow : ∀ x, 0 < x → x < d → x < B → ∃ v, Along rhoAt a theta x v ∧ v ≤ rho)
    (hhigh : ∀ x v, d < x → x < B → Along rhoAt a theta x v → rho ≤ v)
    (hnear : ∀ x, 0 < x → x < B → |x - d| < δ → ∃ v, Along rhoAt a theta x v ∧ |rho - v| < tol) (htol : 0 < tol) :
    ∀ (n : Nat) (lo hi : ℝ), 0 ≤ lo → lo < hi → hi ≤ B → lo ≤ d → d ≤ hi → hi - lo < δ * 2 ^ (n + 1) →
      ∃ p, bisect rhoAt a rho theta tol (n + 1) lo hi = some p := by
  intro n
  induction n with
  | zero =>
    intro lo hi h0 hl hB hd1 hd2 hw
    unfold bisect
    dsimp only
    have hc : (0.5 : ℝ) * (lo + hi) = (lo + hi) / 2 := by norm_num; ring
    rw [hc]
    obtain ⟨v, ⟨hv1, hv2⟩, hv3⟩ := hnear ((lo + hi) / 2) (by linarith) (by linarith)
      (by rw [abs_lt]; norm_num at hw; constructor <;> linarith)
    simp only [ray] at hv1 hv2
    rw [if_neg (not_lt.2 hv1), hv2]
    dsimp only
    rw [if_pos hv3]
    exact ⟨_, rfl⟩
  | succ n ih =>
    intro lo hi h0 hl hB hd1 hd2 hw
    have hw' : (hi - lo) / 2 < δ * 2 ^ (n + 1) := by
      rw [pow_succ] at hw
      linarith
    unfold bisect
    dsimp only
    have hc : (0.5 : ℝ) * (lo + hi) = (lo + hi) / 2 := by norm_num; ring
    rw [hc]
    have c1 : lo < (lo + hi) / 2 := by linarith
    have c2 : (lo + hi) / 2 < hi := by linarith
    have hleft : (lo + hi) / 2 - lo < δ * 2 ^ (n + 1) := by linarith
    have hright : hi - (lo + hi) / 2 < δ * 2 ^ (n + 1) := by linarith
    generalize (lo + hi) / 2 = c at *
    by_cases hn : |c - d| < δ
    · obtain ⟨v, ⟨hv1, hv2⟩, hv3⟩ := hnear c (by linarith) (by linarith) hn
      simp only [ray] at hv1 hv2
      rw [if_neg (not_lt.2 hv1), hv2]
      dsimp only
      rw [if_pos hv3]
      exact ⟨_, rfl⟩
    · have hδ : 0 < δ := by
        by_contra hδ
        have : δ * 2 ^ (n + 1) ≤ 0 := mul_nonpos_of_nonpos_of_nonneg (not_lt.1 hδ) (by positivity)
        linarith
      have hne : c ≠ d := fun e => hn (by rw [e]; simpa using hδ)
      by_cases hcd : c < d
      · obtain ⟨v, ⟨hv1, hv2⟩, hv3⟩ := hlow c (by linarith) hcd (by linarith)
        simp only [ray] at hv1 hv2
        rw [if_neg (not_lt.2 hv1), hv2]
        dsimp only
        by_cases ht : |rho - v| < tol
        · rw [if_pos ht]; exact ⟨_, rfl⟩
        · rw [if_neg ht, if_neg (not_lt.2 hv3)]
          exact ih c hi (by linarith) c2 hB hcd.le hd2 hright
      · have hdc : d < c := lt_of_le_of_ne (not_lt.1 hcd) (Ne.symm hne)
        have left := ih lo c h0 c1 (by linarith) hd1 hdc.le hleft
        by_cases hr : a.1 + c * Real.cos theta < 0
        · rw [if_pos hr]; exact left
        · rw [if_neg hr]
          cases hv : rhoAt (a.1 + c * Real.cos theta) (a.2 + c * Real.sin theta) with
          | none => exact left
          | some v =>
            dsimp only
            by_cases ht : |rho - v| < tol
            · rw [if_pos ht]; exact ⟨_, rfl⟩
            · rw [if_neg ht]
              have hle := hhigh c v hdc (by linarith) ⟨not_lt.1 hr, hv⟩
              have hlt : rho < v := lt_of_le_of_ne hle fun e => ht (by rw [e]; simpa using htol)
              rw [if_pos hlt]
              exact left

/-- If rho is at most the requested value up to some distance `d` along the ray and at least this value, or unknown, beyond, and
is within the tolerance of it closer than `δ` to that place, then `n` iterations are enough when `5 < δ 2 ^ n`. -/
theorem complete_partial {b : ℝ × ℝ} {d δ v0 : ℝ} (ha : axis phi = some b) (hv : rhoF b.1 phi b.2 = some v0) (hd : 0 ≤ d) (hd5 : d ≤ 5)
    (hlow : ∀ x, 0 < x → x < d → ∃ v, Along (fun r z => rhoF r phi z) b theta x v ∧ v ≤ rho)
    (hhigh : ∀ x v, d < x → x < 5 → Along (fun r z => rhoF r phi z) b theta x v → rho ≤ v)
    (hnear : ∀ x, 0 < x → x < 5 → |x - d| < δ → ∃ v, Along (fun r z => rhoF r phi z) b theta x v ∧ |rho - v| < tol)
    (htol : 0 < tol) (hn : 0 < n) (hδ : 5 < δ * 2 ^ n) : ∃ p, rhotheta2rz axis rhoF n tol rho theta phi = some p := by
  unfold rhotheta2rz
  rw [ha]
  dsimp only
  rw [hv]
  dsimp only
  by_cases hlt : v0 > rho
  · rw [if_pos hlt]; exact ⟨_, rfl⟩
  · rw [if_neg hlt]
    obtain ⟨m, rfl⟩ := Nat.exists_eq_succ_of_ne_zero hn.ne'
    exact bisect_complete (fun x h1 h2 _ => hlow x h1 h2) hhigh hnear htol m 0 5 le_rfl (by norm_num) le_rfl hd hd5 (by simpa using hδ)

/-- If rho is continuous and does not decrease along the ray up to the distance `L`, where it exceeds the requested value, and
further out is at least this value or unknown, then for every tolerance enough iterations find a point. -/
theorem complete_monotone_partial {b : ℝ × ℝ} {L : ℝ} {f : ℝ → ℝ} (ha : axis phi = some b) (hL : 0 < L) (hL5 : L ≤ 5)
    (hf : ∀ x, 0 ≤ x → x ≤ L → Along (fun r z => rhoF r phi z) b theta x (f x)) (hc : ContinuousOn f (Set.Icc 0 L))
    (hm : MonotoneOn f (Set.Icc 0 L)) (h0 : f 0 ≤ rho) (h1 : rho < f L)
    (hout : ∀ x v, L < x → x < 5 → Along (fun r z => rhoF r phi z) b theta x v → rho ≤ v) (htol : 0 < tol) :
    ∃ N, ∀ n, N ≤ n → ∃ p, rhotheta2rz axis rhoF n tol rho theta phi = some p := by
  obtain ⟨d, ⟨hd0, hdL⟩, hd⟩ := intermediate_value_Icc hL.le hc ⟨h0, h1.le⟩
  have hdL' : d < L := lt_of_le_of_ne hdL fun e => by rw [e] at hd; exact absurd hd h1.ne'
  obtain ⟨δ, hδ, hδ'⟩ := Metric.continuousWithinAt_iff.1 (hc d ⟨hd0, hdL⟩) tol htol
  have hδ2 : 0 < min δ (L - d) := lt_min hδ (by linarith)
  obtain ⟨N, hN⟩ := pow_unbounded_of_one_lt (5 / min δ (L - d)) (one_lt_two)
  have h00 := hf 0 le_rfl hL.le
  have hax : rhoF b.1 phi b.2 = some (f 0) := by
    have := h00.2
    simpa [ray] using this
  refine ⟨N + 1, fun n hn => complete_partial (d := d) (δ := min δ (L - d)) ha hax hd0 (by linarith) ?_ ?_ ?_ htol (by omega) ?_⟩
  · intro x hx hxd
    refine ⟨f x, hf x hx.le (by linarith), ?_⟩
    rw [← hd]
    exact hm ⟨hx.le, by linarith⟩ ⟨hd0, hdL⟩ hxd.le
  · intro x v hdx hx5 hv
    by_cases hxL : x ≤ L
    · have h2 := hf x (by linarith) hxL
      have h3 : some v = some (f x) := hv.2.symm.trans h2.2
      cases h3
      rw [← hd]
      exact hm ⟨hd0, hdL⟩ ⟨by linarith, hxL⟩ hdx.le
    · exact hout x v (not_le.1 hxL) hx5 hv
  · intro x hx hx5 hxd
    have k1 := (lt_min_iff.1 hxd).1
    have k2 := (lt_min_iff.1 hxd).2
    have hxL : x ≤ L := by have := (abs_lt.1 k2).2; linarith
    refine ⟨f x, hf x hx.le hxL, ?_⟩
    have := hδ' ⟨hx.le, hxL⟩ (by rw [Real.dist_eq]; exact k1)
    rw [Real.dist_eq, hd, abs_sub_comm] at this
    exact this
  · have : (2 : ℝ) ^ N ≤ 2 ^ n := pow_le_pow_right₀ one_le_two (by omega)
    rw [div_lt_iff₀ hδ2] at hN
    nlinarith

/-- With a Lipschitz constant: the tolerance is reached when `5 M < tol 2 ^ n`. -/
theorem complete_lipschitz_partial {b : ℝ × ℝ} {M : ℝ} {f : ℝ → ℝ} (ha : axis phi = some b) (hM : 0 < M)
    (hf : ∀ x, 0 ≤ x → x ≤ 5 → Along (fun r z => rhoF r phi z) b theta x (f x))
    (hl : ∀ x y, 0 ≤ x → x ≤ y → y ≤ 5 → 0 ≤ f y - f x ∧ f y - f x ≤ M * (y - x)) (h0 : f 0 ≤ rho) (h1 : rho ≤ f 5) (htol : 0 < tol)
    (hn : 0 < n) (hN : 5 * M < tol * 2 ^ n) : ∃ p, rhotheta2rz axis rhoF n tol rho theta phi = some p := by
  have hlip : ∀ x y, 0 ≤ x → x ≤ 5 → 0 ≤ y → y ≤ 5 → |f x - f y| ≤ M * |x - y| := by
    intro x y hx hx5 hy hy5
    rcases le_total x y with h | h
    · obtain ⟨k1, k2⟩ := hl x y hx h hy5
      rw [abs_sub_comm, abs_of_nonneg k1, abs_sub_comm, abs_of_nonneg (by linarith)]
      exact k2
    · obtain ⟨k1, k2⟩ := hl y x hy h hx5
      rw [abs_of_nonneg k1, abs_of_nonneg (by linarith)]
      exact k2
  have hc : ContinuousOn f (Set.Icc 0 5) := by
    rw [Metric.continuousOn_iff]
    intro x hx e he
    refine ⟨e / M, by positivity, fun y hy hxy => ?_⟩
    rw [Real.dist_eq] at *
    calc |f y - f x| ≤ M * |y - x| := hlip y x hy.1 hy.2 hx.1 hx.2
      _ < M * (e / M) := by gcongr
      _ = e := by field_simp
  obtain ⟨d, ⟨hd0, hd5⟩, hd⟩ := intermediate_value_Icc (by norm_num : (0 : ℝ) ≤ 5) hc ⟨h0, h1⟩
  have h00 := hf 0 le_rfl (by norm_num)
  have hax : rhoF b.1 phi b.2 = some (f 0) := by simpa [ray] using h00.2
  refine complete_partial (d := d) (δ := tol / M) ha hax hd0 hd5 ?_ ?_ ?_ htol hn ?_
  · intro x hx hxd
    refine ⟨f x, hf x hx.le (by linarith), ?_⟩
    have := (hl x d hx.le hxd.le hd5).1
    linarith
  · intro x v hdx hx5 hv
    have h3 : some v = some (f x) := hv.2.symm.trans (hf x (by linarith) hx5.le).2
    cases h3
    have := (hl d x hd0 hdx.le hx5.le).1
    linarith
  · intro x hx hx5 hxd
    refine ⟨f x, hf x hx.le hx5.le, ?_⟩
    rw [← hd]
    calc |f d - f x| ≤ M * |d - x| := hlip d x hd0 hd5 hx.le hx5.le
      _ = M * |x - d| := by rw [abs_sub_comm]
      _ < M * (tol / M) := by gcongr
      _ = tol := by field_simp
  · rw [div_mul_eq_mul_div, lt_div_iff₀ hM]
    exact hN

/-! ### Example -/

/-- A field with circular flux surfaces around R = 6, z = 0: rho is the distance from the axis over four, known for R > 0. -/
noncomputable def round (r _phi z : ℝ) : Option ℝ := if 0 < r then some (Real.sqrt ((r - 6) ^ 2 + z ^ 2) / 4) else none

theorem round_along (theta phi x : ℝ) (hx : 0 ≤ x) (hx5 : x ≤ 5) : Along (fun r z => round r phi z) (6, 0) theta x (x / 4) := by
  have hc := Real.neg_one_le_cos theta
  have hp : 0 < 6 + x * Real.cos theta := by nlinarith
  refine ⟨hp.le, ?_⟩
  unfold round ray
  dsimp only
  rw [if_pos hp]
  have : (6 + x * Real.cos theta - 6) ^ 2 + (0 + x * Real.sin theta) ^ 2 = x ^ 2 := by
    linear_combination x ^ 2 * Real.sin_sq_add_cos_sq theta
  rw [this, Real.sqrt_sq hx]

/-- Eleven iterations find every surface of this field up to rho = 5 / 4 to one in a thousand, and every other number of
iterations above does so too. -/
example (rho theta phi : ℝ) (h0 : 0 ≤ rho) (h1 : rho ≤ 5 / 4) (n : Nat) (hn : 11 ≤ n) :
    ∃ p, rhotheta2rz (fun _ => some (6, 0)) round n (1 / 1000) rho theta phi = some p := by
  refine complete_lipschitz_partial (M := 1 / 4) (f := fun x => x / 4) rfl (by norm_num) (fun x h h' => round_along theta phi x h h')
    (fun x y _ _ _ => ⟨by linarith, by linarith⟩) (by simpa using h0) h1 (by norm_num) (by omega) ?_
  have : (2 : ℝ) ^ 11 ≤ 2 ^ n := pow_le_pow_right₀ one_le_two hn
  norm_num at this ⊢
  linarith

/-- The hypotheses of `complete_monotone_partial` hold for it, with the boundary of the field at four metres. -/
example (theta phi : ℝ) : ∃ N, ∀ n, N ≤ n → ∃ p,
    rhotheta2rz (fun _ => some (6, 0)) (fun r p z => (round r p z).bind fun v => if v ≤ 1 then some v else none) n 1e-9 (1 / 2) theta phi = some p := by
  refine complete_monotone_partial (L := 4) (f := fun x => x / 4) rfl (by norm_num) (by norm_num) (fun x h h' => ?_) ?_ ?_ (by norm_num) (by norm_num)
    (fun x v h4 h5 hv => ?_) (by norm_num)
  · obtain ⟨k1, k2⟩ := round_along theta phi x h (by linarith)
    refine ⟨k1, ?_⟩
    dsimp only at k2 ⊢
    rw [k2]
    simp only [Option.bind_some]
    rw [if_pos (by linarith)]
  · fun_prop
  · intro x _ y _ h
    dsimp only
    linarith
  · obtain ⟨k1, k2⟩ := round_along theta phi x (by linarith) h5.le
    obtain ⟨-, k3⟩ := hv
    dsimp only at k2 k3
    rw [k2] at k3
    simp only [Option.bind_some] at k3
    rw [if_neg (by linarith)] at k3
    cases k3

/-! ### Where the surface is missed -/

/-- A field in which rho rises away from the axis to the separatrix at one metre, where it is 1, and falls again beyond, as in the
private region below an X point. -/
noncomputable def xpoint (r _phi z : ℝ) : Option ℝ :=
  let d := Real.sqrt ((r - 6) ^ 2 + z ^ 2)
  some (if d ≤ 1 then d else 1 - (d - 1) / 5)

theorem xpoint_along {x v : ℝ} (hx : 0 ≤ x) (phi : ℝ) (h : Along (fun r z => xpoint r phi z) (6, 0) 0 x v) :
    v = if x ≤ 1 then x else 1 - (x - 1) / 5 := by
  have h2 := h.2
  unfold xpoint ray at h2
  dsimp only at h2
  have : (6 + x * Real.cos 0 - 6) ^ 2 + (0 + x * Real.sin 0) ^ 2 = x ^ 2 := by simp
  rw [this, Real.sqrt_sq hx] at h2
  exact (Option.some.inj h2).symm

/-- Then a surface inside the plasma is never found, although it crosses the ray (at 0.8 m) and the field is known on the whole
ray: the first midpoint, at 2.5 m, has a smaller rho, and the search goes on outside. -/
theorem missed (phi : ℝ) (n : Nat) : Along (fun r z => xpoint r phi z) (6, 0) 0 (4 / 5) (4 / 5) ∧
    rhotheta2rz (fun _ => some (6, 0)) xpoint n (1 / 100) (4 / 5) 0 phi = none := by
  constructor
  · refine ⟨by simp [ray]; norm_num, ?_⟩
    unfold xpoint ray
    dsimp only
    have : (6 + 4 / 5 * Real.cos 0 - 6) ^ 2 + (0 + 4 / 5 * Real.sin 0) ^ 2 = (4 / 5 : ℝ) ^ 2 := by simp
    rw [this, Real.sqrt_sq (by norm_num), if_pos (by norm_num)]
  · have hax : xpoint (6, 0).1 phi (6, 0).2 = some 0 := by simp [xpoint]
    unfold rhotheta2rz
    dsimp only
    rw [show xpoint 6 phi 0 = some 0 by simp [xpoint]]
    dsimp only
    rw [if_neg (by norm_num)]
    cases n with
    | zero => rfl
    | succ n =>
      have hm : xpoint (6 + 0.5 * (0 + 5) * Real.cos 0) phi (0 + 0.5 * (0 + 5) * Real.sin 0) = some (7 / 10) := by
        unfold xpoint
        dsimp only
        have : (6 + 0.5 * (0 + 5) * Real.cos 0 - 6) ^ 2 + (0 + 0.5 * (0 + 5) * Real.sin 0) ^ 2 = (5 / 2 : ℝ) ^ 2 := by simp; norm_num
        rw [this, Real.sqrt_sq (by norm_num), if_neg (by norm_num)]
        norm_num
      unfold bisect
      dsimp only
      rw [if_neg (by simp; norm_num), hm]
      dsimp only
      rw [if_neg (by rw [abs_of_nonneg] <;> norm_num), if_neg (by norm_num)]
      rw [Option.eq_none_iff_forall_ne_some]
      intro p hp
      obtain ⟨d, v, k1, k2, -, k3, k4⟩ := bisect_sound (by norm_num) hp
      have hd : 5 / 2 < d := by norm_num at k1; linarith
      rw [xpoint_along (by linarith) phi k3, if_neg (by linarith), abs_lt] at k4
      linarith [k4.2]

/-- Nothing further than five metres from the axis is ever returned, however large the device. -/
theorem reach {p : ℝ × ℝ} (h : rhotheta2rz axis rhoF n tol rho theta phi = some p) :
    ∃ a, axis phi = some a ∧ (p.1 - a.1) ^ 2 + (p.2 - a.2) ^ 2 < 25 := by
  obtain ⟨a, v, h1, -, h | ⟨-, d, k1, k2, rfl, -⟩⟩ := sound h
  · refine ⟨a, h1, ?_⟩
    rw [h.2]
    norm_num
  · refine ⟨a, h1, ?_⟩
    have : ((ray a theta d).1 - a.1) ^ 2 + ((ray a theta d).2 - a.2) ^ 2 = d ^ 2 := by
      simp only [ray]
      linear_combination d ^ 2 * Real.sin_sq_add_cos_sq theta
    rw [this]
    nlinarith

end Ascot.C111
