import Verif.Lemmas.RhoVolume
import Mathlib.Analysis.Real.Pi.Bounds

set_option linter.unusedSectionVars false
set_option linter.unusedSimpArgs false

/-!
# C161: volumes of the cells between flux surfaces

The volume of a cell is that of the body between two flux surfaces in a poloidal and toroidal interval.  A flux surface is
replaced by the polygon through the points computed on it.
-/
namespace Ascot.C161

open RhoVolume

/-- A torus with circular flux surfaces. -/
noncomputable def torus : Field where
  rz rho t _ := (3 + rho * Real.cos t, rho * Real.sin t)
  axis _ := (3, 0)

theorem torus_around {m : ℕ} (hm : 2 ≤ m) (rho phi : ℝ) : Polygon.Around (torus.axis phi) (corners torus m rho phi) m := by
  have hm' : (0 : ℝ) < m := by exact_mod_cast (by omega : 0 < m)
  constructor
  · unfold corners torus
    simp only [th_eq]
    rw [mul_div_cancel₀ _ hm'.ne']
    simp
  · intro k hk
    unfold corners torus
    simp only
    have e : (3 + rho * Real.cos (th m k) - 3) * (rho * Real.sin (th m (k + 1)) - 0)
        - (3 + rho * Real.cos (th m (k + 1)) - 3) * (rho * Real.sin (th m k) - 0)
        = rho ^ 2 * Real.sin (th m (k + 1) - th m k) := by
      rw [Real.sin_sub]
      ring
    rw [e]
    have e2 : th m (k + 1) - th m k = 2 * Real.pi / m := by
      rw [th_eq, th_eq]
      push_cast
      ring
    rw [e2]
    refine mul_nonneg (sq_nonneg _) (Real.sin_nonneg_of_nonneg_of_le_pi (by positivity) ?_)
    rw [div_le_iff₀ hm']
    have : (2 : ℝ) ≤ m := by exact_mod_cast hm
    nlinarith [Real.pi_pos]

/-- The specification gives the area of a rectangle and the volume of a hollow cylinder. -/
theorem rectangle (a b c d : ℝ) :
    Polygon.area (Polygon.rectangle a b c d) 4 = (b - a) * (d - c) ∧
    Polygon.moment (Polygon.rectangle a b c d) 4 = (b ^ 2 - a ^ 2) / 2 * (d - c) := by
  unfold Polygon.area Polygon.moment
  simp only [Finset.sum_range_succ, Finset.sum_range_zero, Polygon.rectangle]
  constructor <;> ring

/-- **Prisms, between two flux surfaces.**  All cells between two flux surfaces together have the volume of the body
between them, and the area between them, however the poloidal angle is divided. -/
theorem between (F : Field) (m : ℕ) {rho theta : ℕ → ℝ} (hmono : Monotone theta) {nt : ℕ} (h0 : theta 0 = 0)
    (h1 : theta nt = 2 * Real.pi) (p0 p1 : ℝ) (i : ℕ)
    (hin : Polygon.Around (F.axis ((p0 + p1) / 2)) (corners F m (rho (i + 1)) ((p0 + p1) / 2)) m)
    (hout : Polygon.Around (F.axis ((p0 + p1) / 2)) (corners F m (rho (i + 2)) ((p0 + p1) / 2)) m) :
    ∑ j ∈ Finset.range nt, (integratePrism F m rho theta p0 p1 (i + 1) j).1
      = (p1 - p0) * (Polygon.moment (corners F m (rho (i + 2)) ((p0 + p1) / 2)) m
          - Polygon.moment (corners F m (rho (i + 1)) ((p0 + p1) / 2)) m) ∧
    ∑ j ∈ Finset.range nt, (integratePrism F m rho theta p0 p1 (i + 1) j).2
      = Polygon.area (corners F m (rho (i + 2)) ((p0 + p1) / 2)) m
          - Polygon.area (corners F m (rho (i + 1)) ((p0 + p1) / 2)) m := by
  unfold integratePrism
  simp only [Finset.sum_sub_distrib]
  rw [sum_sectors F m _ _ _ hmono h0 h1, sum_sectors F m _ _ _ hmono h0 h1, sum_sectors F m _ _ _ hmono h0 h1,
    sum_sectors F m _ _ _ hmono h0 h1, sum_prism hin, sum_prism hout, sum_area hin, sum_area hout, mul_sub]
  exact ⟨rfl, rfl⟩

/-- **Prisms, first cell.**  The first cells together have the volume within the second of the given flux surfaces. -/
theorem first (F : Field) (m : ℕ) {rho theta : ℕ → ℝ} (hmono : Monotone theta) {nt : ℕ} (h0 : theta 0 = 0)
    (h1 : theta nt = 2 * Real.pi) (p0 p1 : ℝ)
    (hout : Polygon.Around (F.axis ((p0 + p1) / 2)) (corners F m (rho 1) ((p0 + p1) / 2)) m) :
    ∑ j ∈ Finset.range nt, (integratePrism F m rho theta p0 p1 0 j).1
      = (p1 - p0) * Polygon.moment (corners F m (rho 1) ((p0 + p1) / 2)) m ∧
    ∑ j ∈ Finset.range nt, (integratePrism F m rho theta p0 p1 0 j).2
      = Polygon.area (corners F m (rho 1) ((p0 + p1) / 2)) m := by
  unfold integratePrism
  simp only
  rw [sum_sectors F m _ _ _ hmono h0 h1, sum_sectors F m _ _ _ hmono h0 h1]
  exact ⟨sum_prism hout _, sum_area hout⟩

/-- This is not the volume of the cells if the first flux surface is not the magnetic axis (`minrho`). -/
theorem first_wrong (F : Field) (m : ℕ) {rho theta : ℕ → ℝ} (hmono : Monotone theta) {nt : ℕ} (h0 : theta 0 = 0)
    (h1 : theta nt = 2 * Real.pi) {p0 p1 : ℝ} (hp : p0 < p1)
    (hout : Polygon.Around (F.axis ((p0 + p1) / 2)) (corners F m (rho 1) ((p0 + p1) / 2)) m)
    (hpos : 0 < Polygon.moment (corners F m (rho 0) ((p0 + p1) / 2)) m) :
    (p1 - p0) * (Polygon.moment (corners F m (rho 1) ((p0 + p1) / 2)) m
        - Polygon.moment (corners F m (rho 0) ((p0 + p1) / 2)) m)
      < ∑ j ∈ Finset.range nt, (integratePrism F m rho theta p0 p1 0 j).1 := by
  rw [(first F m hmono h0 h1 p0 p1 hout).1]
  nlinarith [sub_pos.mpr hp]

/-- **Prisms, total.**  If the surfaces start at the magnetic axis, all cells together have the volume within the last
surface. -/
theorem total (F : Field) (m : ℕ) {rho theta : ℕ → ℝ} (hmono : Monotone theta) {nt : ℕ} (h0 : theta 0 = 0)
    (h1 : theta nt = 2 * Real.pi) (p0 p1 : ℝ) : ∀ nr : ℕ,
    (∀ i, i < nr + 1 → Polygon.Around (F.axis ((p0 + p1) / 2)) (corners F m (rho (i + 1)) ((p0 + p1) / 2)) m) →
    sum (nr + 1) nt (fun i j => (integratePrism F m rho theta p0 p1 i j).1)
      = (p1 - p0) * Polygon.moment (corners F m (rho (nr + 1)) ((p0 + p1) / 2)) m ∧
    sum (nr + 1) nt (fun i j => (integratePrism F m rho theta p0 p1 i j).2)
      = Polygon.area (corners F m (rho (nr + 1)) ((p0 + p1) / 2)) m
  | 0, h => by
    unfold sum
    rw [Finset.sum_range_one, Finset.sum_range_one]
    exact first F m hmono h0 h1 p0 p1 (h 0 (by omega))
  | nr + 1, h => by
    have ih := total F m hmono h0 h1 p0 p1 nr fun i hi => h i (by omega)
    have hb := between F m hmono h0 h1 p0 p1 nr (h nr (by omega)) (h (nr + 1) (by omega))
    unfold sum at ih ⊢
    rw [Finset.sum_range_succ, Finset.sum_range_succ _ (nr + 1), ih.1, ih.2, hb.1, hb.2]
    constructor <;> ring

example : Polygon.Around (torus.axis 0) (corners torus 1000 0.5 0) 1000 ∧
    Monotone (fun k : ℕ => (k : ℝ) * Real.pi) ∧ (fun k : ℕ => (k : ℝ) * Real.pi) 0 = 0 ∧
    (fun k : ℕ => (k : ℝ) * Real.pi) 2 = 2 * Real.pi := by
  refine ⟨torus_around (by norm_num) _ _, fun a b h => ?_, by simp, by simp⟩
  have : (a : ℝ) ≤ b := by exact_mod_cast h
  simp only
  nlinarith [Real.pi_pos]

/-- **Toroidal refinement.**  If the computation for a toroidal interval ends, the result is the sum over `2 ^ (n + 1)`
equal parts of the interval, and that over `2 ^ n` parts differs by at most the tolerance in total. -/
theorem refined {I : ℝ → ℝ → ℕ → ℕ → ℝ × ℝ} {nr nt : ℕ} {tol p0 p1 : ℝ} (hp : p0 ≠ p1) {fuel : ℕ} {w : ℕ → ℕ → ℝ}
    (h : slab I nr nt tol p0 p1 fuel = some w) :
    ∃ n, w = halves I p0 p1 (n + 1) ∧ |sum nr nt w - sum nr nt (halves I p0 p1 n)| ≤ tol := by
  unfold slab at h
  have h2 : refine I nr nt tol p0 p1 fuel ((p1 - p0) / 2 ^ (0 + 1)) (halves I p0 p1 0) (halves I p0 p1 (0 + 1)) = some w := by
    rw [halves_zero, zero_add, pow_one, halves_one]
    exact h
  obtain ⟨n, -, h3, h4⟩ := refine_spec hp h2
  exact ⟨n, h3, h3 ▸ h4⟩

/-- **Axisymmetric field.**  The first computation is the result. -/
theorem axisymmetric (F : Field) (hF : ∀ rho t a b, F.rz rho t a = F.rz rho t b) (hA : ∀ a b, F.axis a = F.axis b) (m : ℕ)
    (rho theta : ℕ → ℝ) (nr nt : ℕ) {tol : ℝ} (ht : 0 ≤ tol) (p0 p1 : ℝ) (fuel : ℕ) :
    slab (integratePrism F m rho theta) nr nt tol p0 p1 (fuel + 1)
      = some fun i j => (integratePrism F m rho theta p0 p1 i j).1 := by
  have hs : ∀ (a b c d r t0 t1 : ℝ),
      sector F m (prism a) r c t0 t1 + sector F m (prism b) r d t0 t1 = sector F m (prism (a + b)) r 0 t0 t1 := by
    intro a b c d r t0 t1
    unfold sector
    rw [← Finset.sum_add_distrib]
    refine Finset.sum_congr rfl fun k _ => ?_
    rw [hA c 0, hA d 0, hF r _ c 0, hF r _ d 0, hF r (th m (k + 1)) c 0, hF r (th m (k + 1)) d 0]
    split_ifs
    · unfold prism
      ring
    · ring
  have hz : ∀ (a c r t0 t1 : ℝ), sector F m (prism a) r c t0 t1 = sector F m (prism a) r 0 t0 t1 := by
    intro a c r t0 t1
    unfold sector
    refine Finset.sum_congr rfl fun k _ => ?_
    rw [hA c 0, hF r _ c 0, hF r (th m (k + 1)) c 0]
  have e : (fun i j => (integratePrism F m rho theta p0 (p0 + (p1 - p0) / 2) i j).1
      + (integratePrism F m rho theta (p0 + (p1 - p0) / 2) (p0 + (p1 - p0) / 2 * 2) i j).1)
      = fun i j => (integratePrism F m rho theta p0 p1 i j).1 := by
    funext i j
    have ed : p0 + (p1 - p0) / 2 - p0 + (p0 + (p1 - p0) / 2 * 2 - (p0 + (p1 - p0) / 2)) = p1 - p0 := by ring
    unfold integratePrism
    cases i with
    | zero =>
      simp only
      rw [hs, ed, hz (p1 - p0) ((p0 + p1) / 2)]
    | succ i =>
      simp only
      rw [sub_add_sub_comm, hs, hs, ed, hz (p1 - p0) ((p0 + p1) / 2), hz (p1 - p0) ((p0 + p1) / 2)]
  unfold slab refine
  simp only
  rw [e, if_neg (by rw [sub_self, abs_zero]; exact not_lt.mpr ht)]

example : ∀ rho t a b, torus.rz rho t a = torus.rz rho t b := fun _ _ _ _ => rfl

/-- **Limits.**  The last edge of an angle is the upper limit, in radians, and the first edge is the lower limit if it is
zero; otherwise the limit in degrees is taken for radians. -/
theorem limits (min max : ℝ) {n : ℕ} (hn : 2 ≤ n) :
    angleEdge min max n (n - 1) = max * Real.pi / 180 ∧ (angleEdge min max n 0 = min * Real.pi / 180 ↔ min = 0) := by
  have hn' : ((n : ℝ) - 1) ≠ 0 := by
    have : (2 : ℝ) ≤ n := by exact_mod_cast hn
    linarith
  constructor
  · unfold angleEdge
    rw [Nat.cast_sub (by omega), Nat.cast_one, mul_div_cancel₀ _ hn']
    ring
  · unfold angleEdge
    rw [Nat.cast_zero, zero_mul, add_zero]
    constructor
    · intro h
      have h2 : min * (180 - Real.pi) = 0 := by linarith
      rcases mul_eq_zero.mp h2 with h3 | h3
      · exact h3
      · linarith [Real.pi_lt_d2]
    · rintro rfl
      simp

example : angleEdge 0 360 10 9 = 2 * Real.pi := by
  rw [(limits 0 360 (n := 10) (by norm_num)).1]
  ring

/-- With the limits 90 and 180 degrees, the volume is negative. -/
theorem negative (F : Field) (m : ℕ) {rho theta : ℕ → ℝ} (hmono : Monotone theta) {nt : ℕ} (h0 : theta 0 = 0)
    (h1 : theta nt = 2 * Real.pi) (nr : ℕ)
    (h : ∀ phi i, i < nr + 1 → Polygon.Around (F.axis phi) (corners F m (rho (i + 1)) phi) m)
    (hpos : ∀ phi, 0 < Polygon.moment (corners F m (rho (nr + 1)) phi) m) :
    sum (nr + 1) nt (fun i j =>
      (integratePrism F m rho theta (angleEdge 90 180 2 0) (angleEdge 90 180 2 1) i j).1) < 0 := by
  rw [(total F m hmono h0 h1 _ _ nr fun i hi => h _ i hi).1]
  refine mul_neg_of_neg_of_pos ?_ (hpos _)
  unfold angleEdge
  norm_num
  linarith [Real.pi_lt_d2]

example (rho phi : ℝ) (h : 0 < rho) : 0 < Polygon.moment (corners torus 4 rho phi) 4 := by
  have e : ∀ k, corners torus 4 rho phi k = (3 + rho * Real.cos (k * (2 * Real.pi / 4)), rho * Real.sin (k * (2 * Real.pi / 4))) := by
    intro k
    unfold corners torus
    rw [th_eq]
    norm_num
  unfold Polygon.moment
  simp only [Finset.sum_range_succ, Finset.sum_range_zero, e]
  have c2 : 2 * (2 * Real.pi / 4) = Real.pi := by ring
  have c3 : 3 * (2 * Real.pi / 4) = Real.pi / 2 + Real.pi := by ring
  have c4 : 4 * (2 * Real.pi / 4) = 2 * Real.pi := by ring
  have c1 : 2 * Real.pi / 4 = Real.pi / 2 := by ring
  push_cast
  norm_num only [zero_add]
  rw [c2, c3, c4, Real.cos_add_pi, Real.sin_add_pi]
  rw [show (1 : ℝ) * (2 * Real.pi / 4) = Real.pi / 2 by ring]
  simp
  nlinarith [mul_pos h h]

/-! ## Monte Carlo -/

/-- **Monte Carlo, ratio.**  The volume of every cell is its area times the length of the arc through the middle of the box
around the plasma. -/
theorem ratio {o : ℝ × ℝ} {b : Box} {p0 p1 : ℝ} {nr nt : ℕ} {l : List Point} {i j : ℕ} {V A : ℝ}
    (h : integrateMC o b p0 p1 nr nt l i j = some (V, A)) : V = (b.r0 + b.r1) / 2 * (p1 - p0) * A := by
  unfold integrateMC at h
  cases hc : count o nr nt l i j with
  | none => simp [hc] at h
  | some n =>
    rw [hc] at h
    obtain ⟨h1, h2⟩ := Prod.mk.inj (Option.some.inj h)
    rw [← h1, ← h2]
    ring

/-- Hence it is too large for a cell on the inner side and too small for one on the outer side: a body made by turning an
area `A` whose centre is at `R` has volume `R * A` per radian. -/
theorem inner {o : ℝ × ℝ} {b : Box} {p0 p1 : ℝ} (hp : p0 < p1) {nr nt : ℕ} {l : List Point} {i j : ℕ} {V A : ℝ}
    (h : integrateMC o b p0 p1 nr nt l i j = some (V, A)) (hA : 0 < A) {R : ℝ} :
    (R < (b.r0 + b.r1) / 2 → (p1 - p0) * (R * A) < V) ∧ ((b.r0 + b.r1) / 2 < R → V < (p1 - p0) * (R * A)) := by
  rw [ratio h]
  have := mul_pos (sub_pos.mpr hp) hA
  constructor <;> intro hR <;> nlinarith

/-- A count over cells. -/
theorem sum_count {o : ℝ × ℝ} {nr nt : ℕ} : ∀ {l : List Point},
    (∀ p ∈ l, ∀ c, cell o nr nt p = some c → 0 ≤ c.1 ∧ c.1 < nr ∧ 0 ≤ c.2 ∧ c.2 < nt) →
    ∑ i ∈ Finset.range nr, ∑ j ∈ Finset.range nt,
      l.countP (fun p => decide (cell o nr nt p = some ((i : ℤ), (j : ℤ)))) = l.countP fun p => decide (p.rho ≤ 1)
  | [], _ => by simp
  | p :: l, h => by
    simp only [List.countP_cons, Finset.sum_add_distrib, sum_count fun q hq => h q (List.mem_cons_of_mem _ hq)]
    congr 1
    by_cases hr : p.rho ≤ 1
    · obtain ⟨c, hc⟩ : ∃ c, cell o nr nt p = some c := by
        unfold cell
        rw [if_pos hr]
        exact ⟨_, rfl⟩
      obtain ⟨h1, h2, h3, h4⟩ := h p List.mem_cons_self c hc
      obtain ⟨a, ha⟩ := Int.eq_ofNat_of_zero_le h1
      obtain ⟨b, hb⟩ := Int.eq_ofNat_of_zero_le h3
      have hcc : c = ((a : ℤ), (b : ℤ)) := Prod.ext ha hb
      rw [Finset.sum_eq_single a, Finset.sum_eq_single b]
      · rw [hc, hcc]
        simp [hr]
      · intro j _ hj
        rw [hc, hcc]
        simp
        omega
      · intro hb'
        exact absurd (Finset.mem_range.mpr (by omega)) hb'
      · intro i _ hi
        refine Finset.sum_eq_zero fun j _ => ?_
        rw [hc, hcc]
        simp
        omega
      · intro ha'
        exact absurd (Finset.mem_range.mpr (by omega)) ha'
    · have hc : cell o nr nt p = none := by
        unfold cell
        rw [if_neg hr]
      simp [hc, hr]

theorem cell_nonneg {o : ℝ × ℝ} {nr nt : ℕ} {p : Point} (hr : 0 ≤ p.rho) {c : ℤ × ℤ} (h : cell o nr nt p = some c) :
    0 ≤ c.1 ∧ 0 ≤ c.2 := by
  unfold cell at h
  split_ifs at h
  obtain rfl := Option.some.inj h
  constructor
  · exact Int.floor_nonneg.mpr (div_nonneg hr (by positivity))
  · refine Int.floor_nonneg.mpr (div_nonneg ?_ (by positivity))
    have : -Real.pi < Coord.atan2 (p.z - o.2) (p.r - o.1) := Complex.neg_pi_lt_arg _
    linarith

/-- **Monte Carlo, total.**  All cells together have the part of the volume of the box that is the part of the points
within the last closed flux surface. -/
theorem mc_total {o : ℝ × ℝ} {b : Box} {p0 p1 : ℝ} {nr nt : ℕ} {l : List Point} (hr : ∀ p ∈ l, 0 ≤ p.rho)
    {V : ℕ → ℕ → ℝ × ℝ} (h : ∀ i j, integrateMC o b p0 p1 nr nt l i j = some (V i j)) :
    sum nr nt (fun i j => (V i j).1)
      = 0.5 * (b.r1 ^ 2 - b.r0 ^ 2) * (b.z1 - b.z0) * (p1 - p0) * l.countP (fun p => decide (p.rho ≤ 1)) / l.length := by
  have hall : l.all (valid o nr nt) = true := by
    by_contra hn
    have := h 0 0
    unfold integrateMC count at this
    rw [if_neg hn] at this
    simp at this
  have hV : ∀ i j, (V i j).1 = 0.5 * (b.r1 ^ 2 - b.r0 ^ 2) * (b.z1 - b.z0) * (p1 - p0) / l.length
      * (l.countP fun p => decide (cell o nr nt p = some ((i : ℤ), (j : ℤ))) : ℕ) := by
    intro i j
    have := h i j
    unfold integrateMC count at this
    rw [if_pos hall] at this
    rw [← Option.some.inj this]
    simp only
    ring
  unfold sum
  simp only [hV, ← Finset.mul_sum]
  rw [show (∑ i ∈ Finset.range nr, ∑ j ∈ Finset.range nt,
      ((l.countP fun p => decide (cell o nr nt p = some ((i : ℤ), (j : ℤ))) : ℕ) : ℝ))
      = ((l.countP fun p => decide (p.rho ≤ 1) : ℕ) : ℝ) by
    rw [← sum_count (o := o) (nr := nr) (nt := nt)]
    · push_cast
      rfl
    · intro p hp c hc
      have h1 := List.all_eq_true.mp hall p hp
      unfold valid at h1
      rw [hc] at h1
      simp only [Bool.and_eq_true, decide_eq_true_eq] at h1
      obtain ⟨h2, h3⟩ := cell_nonneg (hr p hp) hc
      exact ⟨h2, h1.1, h3, h1.2⟩]
  ring

/-- **Monte Carlo, poloidal angle.**  With an even number of cells, a point on the upper side, whose angle is in the
poloidal cell `s`, is counted in the cell on the opposite side. -/
theorem opposite {o : ℝ × ℝ} {nr n : ℕ} (hn : 0 < n) {p : Point} (hr : p.rho ≤ 1) {s : ℕ}
    (h1 : (s : ℝ) * (2 * Real.pi / (2 * n : ℕ)) ≤ Coord.atan2 (p.z - o.2) (p.r - o.1))
    (h2 : Coord.atan2 (p.z - o.2) (p.r - o.1) < ((s : ℝ) + 1) * (2 * Real.pi / (2 * n : ℕ))) :
    (cell o nr (2 * n) p).map Prod.snd = some ((s : ℤ) + n) := by
  unfold cell
  rw [if_pos hr, Option.map_some, Option.some.injEq]
  have hn' : (0 : ℝ) < n := by exact_mod_cast hn
  have hw : 0 < 2 * Real.pi / ((2 * n : ℕ) : ℝ) := by
    push_cast
    have := Real.pi_pos
    positivity
  have hpi : Real.pi = n * (2 * Real.pi / ((2 * n : ℕ) : ℝ)) := by
    push_cast
    field_simp
  rw [Int.floor_eq_iff, le_div_iff₀ hw, div_lt_iff₀ hw]
  push_cast at *
  constructor <;> nlinarith

example : ∃ p : Point, p.rho ≤ 1 ∧ ((0 : ℕ) : ℝ) * (2 * Real.pi / (2 * 1 : ℕ)) ≤ Coord.atan2 (p.z - 0) (p.r - 3) ∧
    Coord.atan2 (p.z - 0) (p.r - 3) < (((0 : ℕ) : ℝ) + 1) * (2 * Real.pi / (2 * 1 : ℕ)) := by
  refine ⟨⟨4, 0, 0.5⟩, by norm_num, ?_⟩
  have : Coord.atan2 ((0 : ℝ) - 0) (4 - 3) = 0 := by
    unfold Coord.atan2
    rw [Complex.arg_eq_zero_iff]
    norm_num
  simp only
  rw [this]
  have := Real.pi_pos
  norm_num
  exact this

/-- **Monte Carlo, separatrix.**  A point on the last closed flux surface makes the computation fail. -/
theorem separatrix {o : ℝ × ℝ} {b : Box} {p0 p1 : ℝ} {nr nt : ℕ} (hn : 0 < nr) {l : List Point} {p : Point} (hp : p ∈ l)
    (h1 : p.rho = 1) (i j : ℕ) : integrateMC o b p0 p1 nr nt l i j = none := by
  have hn' : (nr : ℝ) ≠ 0 := by exact_mod_cast hn.ne'
  unfold integrateMC count
  rw [if_neg, Option.map_none]
  intro hall
  have := List.all_eq_true.mp hall p hp
  unfold valid cell at this
  rw [if_pos h1.le] at this
  simp only [h1, one_div_one_div, Int.floor_natCast] at this
  simp at this

end Ascot.C161
