import Verif.Model.OrbitAverage
import Mathlib.Tactic.Ring
import Mathlib.Tactic.Linarith
import Mathlib.Tactic.NormNum

/-!
# C184: the orbit average is an average over a single poloidal transit
-/
set_option linter.unusedSectionVars false
set_option linter.unusedSimpArgs false

namespace Ascot.C184
open Ascot.OrbitAverage

/-! ## The average -/

theorem sums_bounds (lo hi : ℝ) (w : List Pt) (h : ∀ p ∈ w, lo ≤ p.val ∧ p.val ≤ hi) :
    0 ≤ (sums w).2 ∧ lo * (sums w).2 ≤ (sums w).1 ∧ (sums w).1 ≤ hi * (sums w).2 := by
  induction w with
  | nil => simp [sums]
  | cons p l ih =>
    cases l with
    | nil => simp [sums]
    | cons q l =>
      obtain ⟨i0, i1, i2⟩ := ih fun p hp => h p (List.mem_cons_of_mem _ hp)
      obtain ⟨a, b⟩ := h q (by simp)
      have hd : 0 ≤ ds p q := Real.sqrt_nonneg _
      have e1 := mul_le_mul_of_nonneg_right a hd
      have e2 := mul_le_mul_of_nonneg_right b hd
      simp only [sums]
      refine ⟨by linarith, ?_, ?_⟩ <;> rw [mul_add] <;> linarith

/-- The average is between the least and the greatest value on the transit. -/
theorem between (lo hi : ℝ) (w : List Pt) (h : ∀ p ∈ w, lo ≤ p.val ∧ p.val ≤ hi) (x : ℝ) (hx : avg w = some x) :
    lo ≤ x ∧ x ≤ hi := by
  obtain ⟨h0, h1, h2⟩ := sums_bounds lo hi w h
  unfold avg at hx
  by_cases hz : (sums w).2 = 0
  · rw [if_pos hz] at hx; cases hx
  · rw [if_neg hz] at hx
    cases hx
    have hp : 0 < (sums w).2 := lt_of_le_of_ne h0 (Ne.symm hz)
    exact ⟨by rw [le_div_iff₀ hp]; exact h1, by rw [div_le_iff₀ hp]; exact h2⟩

/-- There is an average as soon as two successive points differ. -/
theorem defined (u v : List Pt) (p q : Pt) (h : p.x ≠ q.x ∨ p.y ≠ q.y ∨ p.z ≠ q.z) : ∃ x, avg (u ++ p :: q :: v) = some x := by
  have hd : 0 < ds p q := by
    apply Real.sqrt_pos.mpr
    rcases h with h | h | h
    · have := sq_pos_of_ne_zero (sub_ne_zero.mpr h.symm); positivity
    · have := sq_pos_of_ne_zero (sub_ne_zero.mpr h.symm); positivity
    · have := sq_pos_of_ne_zero (sub_ne_zero.mpr h.symm); positivity
  have nn : ∀ w : List Pt, 0 ≤ (sums w).2 := by
    intro w
    induction w with
    | nil => simp [sums]
    | cons a l ih =>
      cases l with
      | nil => simp [sums]
      | cons b l => simp only [sums]; have : 0 ≤ ds a b := Real.sqrt_nonneg _; linarith
  have hp : 0 < (sums (u ++ p :: q :: v)).2 := by
    induction u with
    | nil => simp only [List.nil_append, sums]; have := nn (q :: v); linarith
    | cons a u ih =>
      cases u with
      | nil => simp only [List.cons_append, List.nil_append, sums] at ih ⊢; have : 0 ≤ ds a p := Real.sqrt_nonneg _; linarith
      | cons b u => simp only [List.cons_append, sums] at ih ⊢; have : 0 ≤ ds a b := Real.sqrt_nonneg _; linarith
  exact ⟨_, if_neg hp.ne'⟩

/-! ## The transit -/

theorem argmax_append {α : Type} (c : α → Bool) (u v : List α) (x : α) (hu : ∀ p ∈ u, c p = false) (hx : c x = true) :
    argmax c (u ++ x :: v) = u.length := by
  have e : (u ++ x :: v).findIdx c = u.length := by
    rw [List.findIdx_append, List.findIdx_eq_length_of_false hu, if_neg (by omega), List.findIdx_cons, hx]
    simp
  unfold argmax
  rw [e, if_pos (by simp)]

theorem argmax_none {α : Type} (c : α → Bool) (u : List α) (hu : ∀ p ∈ u, c p = false) : argmax c u = 0 := by
  unfold argmax
  rw [List.findIdx_eq_length_of_false hu, if_neg (by omega)]

/-- A passing orbit in the direction of growing angle that goes once around: all points until the angle has grown by 360
degrees.  Missing: orbits that do not go around (`passing_violation`). -/
theorem passing_partial (a : Pt) (u v : List Pt) (x : Pt) (hp : ∀ p ∈ a :: (u ++ x :: v), 0 < p.pitch)
    (hl : a.pol < ((u ++ x :: v).getLastD a).pol) (hu : ∀ p ∈ u, p.pol ≤ a.pol + 360) (hx : a.pol + 360 < x.pol) :
    transit a (u ++ x :: v) = some (a :: u) := by
  have hn : ¬ ((a :: (u ++ x :: v)).any neg = true ∧ (a :: (u ++ x :: v)).any pos = true) := by
    rintro ⟨h, -⟩
    obtain ⟨p, hm, hq⟩ := List.any_eq_true.mp h
    have := hp p hm
    simp only [neg, decide_eq_true_eq] at hq
    linarith
  have e : argmax (fun p => decide (p.pol > a.pol + 360)) ((a :: u) ++ x :: v) = (a :: u).length := by
    apply argmax_append
    · intro p hm
      rcases List.mem_cons.mp hm with rfl | hm
      · simp
      · simpa using hu p hm
    · simpa using hx
  have hlim : limits a (u ++ x :: v) = (1, (a :: u).length) := by
    unfold limits
    rw [if_neg hn, if_pos hl]
    rw [List.cons_append] at e
    rw [e]
  unfold transit
  rw [hlim]
  simp [slice]

/-- A passing orbit that ends before it has gone around: the function stops with an error. -/
theorem passing_violation (a : Pt) (l : List Pt) (hp : ∀ p ∈ a :: l, 0 < p.pitch)
    (hl : a.pol < (l.getLastD a).pol) (hu : ∀ p ∈ l, p.pol ≤ a.pol + 360) : transit a l = none := by
  have hn : ¬ ((a :: l).any neg = true ∧ (a :: l).any pos = true) := by
    rintro ⟨h, -⟩
    obtain ⟨p, hm, hq⟩ := List.any_eq_true.mp h
    have := hp p hm
    simp only [neg, decide_eq_true_eq] at hq
    linarith
  have e : argmax (fun p => decide (p.pol > a.pol + 360)) (a :: l) = 0 := by
    apply argmax_none
    intro p hm
    rcases List.mem_cons.mp hm with rfl | hm
    · simp
    · simpa using hu p hm
  have hlim : limits a l = (1, 0) := by
    unfold limits
    rw [if_neg hn, if_pos hl, e]
  unfold transit
  rw [hlim]
  simp [slice]

theorem turns_get {α : Type} (c c' : α → Bool) (u v w r : List α) (y : α) (z : α) (x : α) (hu : ∀ p ∈ u, c p = false)
    (hx : c x = true) (hx' : c' x = false) (hv : ∀ p ∈ v, c' p = false) (hy : c' y = true) (hy' : c y = false)
    (hw : ∀ p ∈ w, c p = false) (hz : c z = true) :
    turns c c' (u ++ x :: v ++ y :: w ++ z :: r) = (u.length, (u ++ x :: v ++ y :: w).length) := by
  have e1 : argmax c (u ++ x :: v ++ y :: w ++ z :: r) = u.length := by
    have := argmax_append c u (v ++ y :: w ++ z :: r) x hu hx
    simpa using this
  have e2 : (u ++ x :: v ++ y :: w ++ z :: r).drop u.length = (x :: v) ++ y :: (w ++ z :: r) := by
    simp [List.append_assoc]
  have e3 : argmax c' ((x :: v) ++ y :: (w ++ z :: r)) = (x :: v).length := by
    apply argmax_append
    · intro p hp
      rcases List.mem_cons.mp hp with rfl | hp
      · exact hx'
      · exact hv p hp
    · exact hy
  have e4 : (u ++ x :: v ++ y :: w ++ z :: r).drop ((x :: v).length + u.length) = (y :: w) ++ z :: r := by
    have : (x :: v).length + u.length = (u ++ x :: v).length := by simp; omega
    rw [this]
    simp [List.append_assoc]
  have e5 : argmax c ((y :: w) ++ z :: r) = (y :: w).length := by
    apply argmax_append
    · intro p hp
      rcases List.mem_cons.mp hp with rfl | hp
      · exact hy'
      · exact hw p hp
    · exact hz
  unfold turns
  simp only [e1, e2, e3, e4, e5]
  refine Prod.ext rfl ?_
  simp
  omega

/-- A trapped orbit that starts backwards: from the last point before it turns forwards to the last point before it turns
forwards again.  Missing: orbits of which only the second point is backwards (`turn_violation`). -/
theorem trapped_partial (a : Pt) (u v r : List Pt) (b x y z : Pt) (h : a :: u = v ++ [b]) (hu : ∀ p ∈ a :: u, p.pitch < 0)
    (s t : List Pt) (hx : 0 < x.pitch) (hs : ∀ p ∈ s, 0 < p.pitch) (hy : y.pitch < 0) (ht : ∀ p ∈ t, p.pitch < 0)
    (hz : 0 < z.pitch) : transit a (u ++ x :: s ++ y :: t ++ z :: r) = some (b :: x :: s ++ y :: t) := by
  have ng : ∀ p : Pt, p.pitch < 0 → pos p = false := fun p hp => by simp [pos, hp.le]
  have ps : ∀ p : Pt, 0 < p.pitch → neg p = false := fun p hp => by simp [neg, hp.le]
  have e := turns_get pos neg (a :: u) s t r y z x (fun p hp => ng p (hu p hp)) (by simp [pos, hx]) (ps x hx)
    (fun p hp => ps p (hs p hp)) (by simp [neg, hy]) (ng y hy) (fun p hp => ng p (ht p hp)) (by simp [pos, hz])
  have ha : neg a = true := by simp [neg, hu a (by simp)]
  have hlim : limits a (u ++ x :: s ++ y :: t ++ z :: r) = ((a :: u).length, ((a :: u) ++ x :: s ++ y :: t).length) := by
    unfold limits
    rw [if_pos, if_pos (Or.inl ha)]
    · exact e
    · constructor
      · simp [ha]
      · rw [List.any_eq_true]
        exact ⟨x, by simp, by simp [pos, hx]⟩
  have hc : a :: (u ++ x :: s ++ y :: t ++ z :: r) = (v ++ [b]) ++ x :: s ++ y :: t ++ z :: r := by rw [← h]; simp
  unfold transit
  rw [hlim, hc, h]
  have : slice (v ++ [b] ++ x :: s ++ y :: t ++ z :: r) (v ++ [b]).length (v ++ [b] ++ x :: s ++ y :: t).length
      = b :: x :: s ++ y :: t := by
    unfold slice
    rw [List.take_left, if_neg (by simp)]
    simp [List.append_assoc]
  rw [this]
  rfl

theorem argmax_lt {α : Type} (c : α → Bool) (a : α) (l : List α) : argmax c (a :: l) < (a :: l).length := by
  unfold argmax
  by_cases h : (a :: l).findIdx c < (a :: l).length
  · rw [if_pos h]; exact h
  · rw [if_neg h]; simp

/-- An orbit that turns backwards after its first point: the function stops with an error, however many transits follow. -/
theorem turn_violation (a b : Pt) (l : List Pt) (ha : 0 < a.pitch) (hb : b.pitch < 0) : transit a (b :: l) = none := by
  have pa : pos a = true := by simp [pos, ha]
  have na : neg a = false := by simp [neg, ha.le]
  have nb : neg b = true := by simp [neg, hb]
  have e1 : argmax pos (a :: b :: l) = 0 := argmax_append pos [] (b :: l) a (by simp) pa
  have e2 : argmax neg (a :: b :: l) = 1 := argmax_append neg [a] l b (by simp [na]) nb
  have e3 := argmax_lt pos b l
  have hlim : limits a (b :: l) = (0, argmax pos (b :: l) + 1) := by
    unfold limits
    rw [if_pos (by simp [pa, nb]), if_pos (Or.inr (by simp [nb]))]
    simp only [turns, e1, List.drop_zero, e2, Nat.add_zero, List.drop_succ_cons]
  unfold transit
  have : slice (a :: b :: l) (limits a (b :: l)).1 (limits a (b :: l)).2 = [] := by
    unfold slice
    rw [hlim, if_pos rfl]
    apply List.drop_eq_nil_of_le
    rw [List.length_take]
    simp only [List.length_cons] at e3 ⊢
    omega
  rw [this]

/-- Points with a given pitch and poloidal angle. -/
noncomputable def pt (pitch pol : ℝ) : Pt := ⟨0, pol, 0, 0, pitch, pol, pol⟩

example : transit (pt 1 0) ([pt 1 180] ++ pt 1 361 :: [pt 1 400]) = some [pt 1 0, pt 1 180] := by
  apply passing_partial
  · intro p hp
    simp only [List.cons_append, List.nil_append, List.mem_cons, List.not_mem_nil, or_false] at hp
    rcases hp with rfl | rfl | rfl | rfl <;> norm_num [pt]
  · norm_num [pt]
  · intro p hp
    simp only [List.mem_cons, List.not_mem_nil, or_false] at hp
    subst hp
    norm_num [pt]
  · norm_num [pt]

example : transit (pt (-1) 0) ([] ++ pt 1 10 :: [pt 1 20] ++ pt (-1) 10 :: [] ++ pt 1 10 :: [])
    = some (pt (-1) 0 :: pt 1 10 :: [pt 1 20] ++ pt (-1) 10 :: []) := by
  apply trapped_partial (pt (-1) 0) [] [] [] (pt (-1) 0) (pt 1 10) (pt (-1) 10) (pt 1 10) rfl <;> simp [pt]

example : transit (pt 1 0) [pt (-1) 10, pt 1 20, pt (-1) 10, pt 1 0, pt (-1) 10] = none :=
  turn_violation _ _ _ (by norm_num [pt]) (by norm_num [pt])

example : transit (pt 1 0) [pt 1 180, pt 1 350] = none := by
  apply passing_violation
  · intro p hp
    simp only [List.mem_cons, List.not_mem_nil, or_false] at hp
    rcases hp with rfl | rfl | rfl <;> norm_num [pt]
  · norm_num [pt]
  · intro p hp
    simp only [List.mem_cons, List.not_mem_nil, or_false] at hp
    rcases hp with rfl | rfl <;> norm_num [pt]

example : ∃ x, avg [pt 1 0, pt 1 180] = some x := defined [] [] _ _ (Or.inl (by norm_num [pt]))

end Ascot.C184
