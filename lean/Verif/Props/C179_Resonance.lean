import Verif.Model.Resonance
import Mathlib.Tactic.Ring
import Mathlib.Tactic.FieldSimp
import Mathlib.Tactic.Linarith
import Mathlib.Tactic.NormNum
import Mathlib.Algebra.BigOperators.Group.List.Basic

/-!
# C179: orbit frequencies evaluated in Python belong to their grid points

Element `[a, b]` of the matrices is that of the marker at node `a` of the first and node `b` of the second grid; the
frequencies are turns over time.
-/
set_option linter.unusedSectionVars false
set_option linter.unusedSimpArgs false

namespace Ascot.C179
open Ascot.Resonance

/-! ## Places -/

theorem fill_get {α : Type} (n1 : ℕ) (f : ℕ → Option α) (a b : ℕ) (ha : a < n1) (nmrk : ℕ) :
    fill n1 nmrk f a b = if b * n1 + a < nmrk then f (b * n1 + a) else none := by
  induction nmrk with
  | zero => simp [fill]
  | succ m ih =>
    unfold fill at ih ⊢
    rw [List.range_succ, List.foldl_append, List.foldl_cons, List.foldl_nil, ih]
    by_cases h : a = m % n1 ∧ b = m / n1
    · have e : b * n1 + a = m := by rw [h.1, h.2, Nat.mul_comm]; exact Nat.div_add_mod m n1
      rw [if_pos h, if_pos (by omega), e]
    · have e : b * n1 + a ≠ m := by
        rintro rfl
        apply h
        constructor
        · rw [Nat.mul_comm, Nat.mul_add_mod, Nat.mod_eq_of_lt ha]
        · rw [Nat.mul_comm, Nat.mul_add_div (by omega), Nat.div_eq_of_lt ha]; omega
      rw [if_neg h]
      by_cases h2 : b * n1 + a < m
      · rw [if_pos h2, if_pos (by omega)]
      · rw [if_neg h2, if_neg (by omega)]

theorem flat_get {α β : Type} (f : α → List β) (n : ℕ) (hf : ∀ a, (f a).length = n) (l : List α) (i j : ℕ) (hj : j < n) :
    (l.flatMap f)[i * n + j]? = l[i]?.bind fun a => (f a)[j]? := by
  induction l generalizing i with
  | nil => simp
  | cons a l ih =>
    rw [List.flatMap_cons]
    cases i with
    | zero => simp [List.getElem?_append_left, hf, hj]
    | succ i =>
      rw [List.getElem?_append_right (by rw [hf]; nlinarith), hf, show (i + 1) * n + j - n = i * n + j by
        rw [Nat.add_mul]; omega, ih i]
      simp

theorem flat_len {α β : Type} (f : α → List β) (n : ℕ) (hf : ∀ a, (f a).length = n) (l : List α) :
    (l.flatMap f).length = l.length * n := by
  induction l with
  | nil => simp
  | cons a l ih => rw [List.flatMap_cons, List.length_append, hf, ih, List.length_cons, Nat.add_mul]; omega

theorem mesh_get (rho xi e : List ℝ) (i j k : ℕ) (hi : i < rho.length) (hj : j < xi.length) (hk : k < e.length) :
    (mesh rho xi e)[(k * xi.length + j) * rho.length + i]? = some ⟨e[k], xi[j], rho[i]⟩ := by
  have h1 : ∀ a b, (rho.map fun c => (⟨a, b, c⟩ : Mrk)).length = rho.length := by simp
  have h2 : ∀ a, (xi.flatMap fun b => rho.map fun c => (⟨a, b, c⟩ : Mrk)).length = xi.length * rho.length :=
    fun a => flat_len _ _ (h1 a) xi
  have b2 : j * rho.length + i < xi.length * rho.length := by nlinarith
  unfold mesh
  rw [show (k * xi.length + j) * rho.length + i = k * (xi.length * rho.length) + (j * rho.length + i) by ring,
    flat_get _ _ h2 e _ _ b2, List.getElem?_eq_getElem hk, Option.bind_some, flat_get _ _ (h1 _) xi _ _ hi,
    List.getElem?_eq_getElem hj, Option.bind_some, List.getElem?_map, List.getElem?_eq_getElem hi]
  rfl

theorem pad_length (l : List ℝ) : (pad l).length = l.length := by
  have h1 : (padFirst l).length = l.length := by
    unfold padFirst
    cases l with
    | nil => rfl
    | cons a t => dsimp only; split <;> rfl
  unfold pad padLast
  split
  · rename_i h
    have : padFirst l ≠ [] := by rintro h2; rw [h2] at h; simp at h
    have : 0 < (padFirst l).length := List.length_pos_iff.mpr this
    simp; omega
  · exact h1

/-- The two grids over which the matrices are given, and the three coordinates of node `[a, b]` (documentation of the
function: radius and pitch, radius and energy, or pitch and energy). -/
def node (nrho nxi : ℕ) (a b : ℕ) : ℕ × ℕ × ℕ :=
  if nrho = 1 then (0, a, b) else if nxi = 1 then (a, 0, b) else (a, b, 0)

/-- **Each value is that of its node**: element `[a, b]` is made from the crossings of one marker, and this marker was
started with the radius, the pitch and the energy of the node. -/
theorem nodes (rho xi e : List ℝ) (mrks : List Mrk) (hm : markers rho xi e = some mrks) (phi0 omp : List Cross)
    (M : ℕ → ℕ → Option (Option ℝ × Option ℝ)) (h : matrices rho.length xi.length e.length phi0 omp = some M) (a b : ℕ)
    (hr : (node rho.length xi.length a b).1 < rho.length) (hx : (node rho.length xi.length a b).2.1 < xi.length)
    (he : (node rho.length xi.length a b).2.2 < e.length) :
    ∃ i mrk x, mrks[i]? = some mrk ∧ rho[(node rho.length xi.length a b).1]? = some mrk.rho ∧
      (pad xi)[(node rho.length xi.length a b).2.1]? = some x ∧ mrk.pitch = x ∧
      e[(node rho.length xi.length a b).2.2]? = some mrk.ekin ∧
      M a b = some (freqs (phi0.filter fun c => c.id = i + 1) (omp.filter fun c => c.id = i + 1)) := by
  unfold markers at hm
  split at hm
  · exact absurd hm (by simp)
  injection hm with hm
  subst hm
  have hx' : (node rho.length xi.length a b).2.1 < (pad xi).length := by rw [pad_length]; exact hx
  have hg := mesh_get rho (pad xi) e _ _ _ hr hx' he
  rw [pad_length] at hg
  refine ⟨_, _, _, hg, List.getElem?_eq_getElem hr, List.getElem?_eq_getElem hx', rfl, List.getElem?_eq_getElem he, ?_⟩
  unfold matrices at h
  have key : ∀ n1 n2, dims rho.length xi.length e.length = some (n1, n2) → a < n1 → b * n1 + a < rho.length * xi.length * e.length →
      ((node rho.length xi.length a b).2.2 * xi.length + (node rho.length xi.length a b).2.1) * rho.length +
        (node rho.length xi.length a b).1 = b * n1 + a →
      M a b = some (freqs (phi0.filter fun c => c.id = ((node rho.length xi.length a b).2.2 * xi.length +
        (node rho.length xi.length a b).2.1) * rho.length + (node rho.length xi.length a b).1 + 1)
        (omp.filter fun c => c.id = ((node rho.length xi.length a b).2.2 * xi.length +
        (node rho.length xi.length a b).2.1) * rho.length + (node rho.length xi.length a b).1 + 1)) := by
    intro n1 n2 hd ha hb hk
    rw [hd] at h
    simp only [Option.map_some, Option.some.injEq] at h
    rw [← h, fill_get n1 _ a b ha, if_pos hb, hk]
    rfl
  unfold node at hr hx he key ⊢
  by_cases h1 : rho.length = 1
  · simp only [h1, if_true] at hr hx he key ⊢
    exact key xi.length e.length (by simp [dims]) hx (by nlinarith) (by ring)
  · by_cases h2 : xi.length = 1
    · simp only [h1, h2, if_true, if_false] at hr hx he key ⊢
      exact key rho.length e.length (by simp [dims, h1]) hr (by nlinarith) (by ring)
    · by_cases h3 : e.length = 1
      · simp only [h1, h2, h3, if_true, if_false] at hr hx he key ⊢
        exact key rho.length xi.length (by simp [dims, h1, h2]) hr (by nlinarith) (by ring)
      · simp [dims, h1, h2, h3] at h

/-! ## Frequencies -/

theorem diffs_sum : ∀ (x : ℝ) (l : List ℝ), (diffs (x :: l)).sum = (x :: l).getLast (by simp) - x := by
  intro x l
  induction l generalizing x with
  | nil => simp [diffs]
  | cons y l ih =>
    have := ih y
    simp only [diffs, List.tail_cons] at this ⊢
    have e : (x :: y :: l).getLast (by simp) = (y :: l).getLast (by simp) := List.getLast_cons (by simp)
    rw [List.zipWith_cons_cons, List.sum_cons, this, e]
    ring

theorem diffs_length (l : List ℝ) : (diffs l).length = l.length - 1 := by simp [diffs]

/-- Frequency of events: number of intervals over the time between the first and the last. -/
theorem freq_diffs (l : List ℝ) (hl : 2 ≤ l.length) :
    freq (diffs l) = some (((l.length - 1 : ℕ) : ℝ) / (l.getLast?.getD 0 - l.headD 0)) := by
  cases l with
  | nil => simp at hl
  | cons x l =>
    have h1 : diffs (x :: l) ≠ [] := by
      intro h
      have := diffs_length (x :: l)
      rw [h] at this
      simp at this hl
      omega
    unfold freq mean
    rw [if_neg h1, Option.map_some, diffs_sum, diffs_length, List.getLast?_eq_some_getLast (by simp)]
    simp only [Option.getD_some, List.headD_cons, one_div, inv_div]

/-- **Passing markers**: both frequencies are the number of turns over the time they took, that is crossings of the toroidal
and of the poloidal plane after the first. -/
theorem passing_turns (phi0 omp : List Cross) (h : (∀ c ∈ omp, c.pitch < 0) ∨ ∀ c ∈ omp, 0 < c.pitch) (h1 : 2 ≤ phi0.length)
    (h2 : 2 ≤ omp.length) (_ : (phi0.map Cross.t).headD 0 < (phi0.map Cross.t).getLast?.getD 0)
    (_ : (omp.map Cross.t).headD 0 < (omp.map Cross.t).getLast?.getD 0) :
    freqs phi0 omp =
      (some (((phi0.length - 1 : ℕ) : ℝ) / ((phi0.map Cross.t).getLast?.getD 0 - (phi0.map Cross.t).headD 0)),
       some (((omp.length - 1 : ℕ) : ℝ) / ((omp.map Cross.t).getLast?.getD 0 - (omp.map Cross.t).headD 0))) := by
  have hp : passing omp = true := by simp [passing, h]
  unfold freqs
  rw [if_pos hp, freq_diffs _ (by simpa using h1), freq_diffs _ (by simpa using h2)]
  simp

/-- A banana orbit: it crosses the outer midplane with a pitch of one sign at times `t0 + k T` and angles `p0 + k d`, and in
between with a pitch of the other sign, `n` times each. -/
structure Banana (omp : List Cross) (n : ℕ) (t0 T p0 d : ℝ) : Prop where
  len : omp.length = 2 * n
  time : ∀ k < n, (omp[2 * k]?).map Cross.t = some (t0 + k * T)
  angle : ∀ k < n, (omp[2 * k]?).map Cross.phi = some (p0 + k * d)
  signs : ∃ c ∈ omp, ∃ c' ∈ omp, c.pitch < 0 ∧ 0 < c'.pitch

theorem evens_get {α : Type} : ∀ (l : List α) (k : ℕ), (evens l)[k]? = l[2 * k]?
  | [], k => by simp [evens]
  | [a], k => by cases k <;> simp [evens, Nat.mul_add]
  | a :: b :: l, k => by
    cases k with
    | zero => simp [evens]
    | succ k => simp only [evens, List.getElem?_cons_succ, Nat.mul_add, evens_get l k]

theorem evens_steady (l : List ℝ) (n : ℕ) (x d : ℝ) (hl : l.length = 2 * n) (h : ∀ k < n, l[2 * k]? = some (x + k * d)) :
    diffs (evens l) = List.replicate (n - 1) d := by
  have he : ∀ k, (evens l)[k]? = if k < n then some (x + k * d) else none := by
    intro k
    rw [evens_get]
    by_cases hk : k < n
    · rw [if_pos hk, h k hk]
    · rw [if_neg hk, List.getElem?_eq_none (by omega)]
  apply List.ext_getElem?
  intro k
  unfold diffs
  rw [List.getElem?_zipWith, List.getElem?_tail, he, he, List.getElem?_replicate]
  by_cases hk : k + 1 < n
  · rw [if_pos (by omega), if_pos hk, if_pos (by omega)]
    simp only [Option.some.injEq]
    push_cast
    ring
  · rw [if_neg hk, if_neg (show ¬ k < n - 1 by omega)]
    cases (if k < n then some (x + (k : ℝ) * d) else none) <;> rfl

theorem freq_replicate (n : ℕ) (x : ℝ) (hn : 0 < n) : freq (List.replicate n x) = some (1 / x) := by
  have h0 : (n : ℝ) ≠ 0 := by positivity
  unfold freq mean
  rw [if_neg (by simp; omega)]
  simp only [List.sum_replicate, List.length_replicate, nsmul_eq_mul, Option.map_some, Option.some.injEq]
  rw [mul_div_cancel_left₀ _ h0]

/-- **Trapped markers** (full claim: toroidal frequency is turns over time): on a steady banana orbit with bounce time `T` and
a precession of `d` degrees per bounce, the poloidal frequency is `1/T` and the toroidal one `|d|/360` turns per `T`. -/
theorem trapped_partial (phi0 omp : List Cross) (n : ℕ) (hn : 2 ≤ n) (t0 T p0 d : ℝ) (h : Banana omp n t0 T p0 d) (hd : d ≠ 0)
    (hT : T ≠ 0) : freqs phi0 omp = (some (|d| / 360 / T), some (1 / T)) := by
  have hp : passing omp = false := by
    obtain ⟨c, hc, c', hc', h1, h2⟩ := h.signs
    simp only [passing, decide_eq_false_iff_not, not_or, not_forall]
    exact ⟨⟨c', hc', by linarith⟩, ⟨c, hc, by linarith⟩⟩
  have e1 := evens_steady (omp.map Cross.t) n t0 T (by simp [h.len]) (fun k hk => by rw [List.getElem?_map]; exact h.time k hk)
  have e2 := evens_steady (omp.map Cross.phi) n p0 d (by simp [h.len]) (fun k hk => by rw [List.getElem?_map]; exact h.angle k hk)
  unfold freqs
  rw [hp]
  simp only [Bool.false_eq_true, if_false, e1, e2, List.map_replicate, List.zipWith_replicate, Nat.min_self]
  rw [freq_replicate _ _ (by omega), freq_replicate _ _ (by omega)]
  congr 2
  have : |d| ≠ 0 := abs_ne_zero.mpr hd
  field_simp

/-- The claim fails when the precession varies: after 10 and 30 degrees in two bounces of time 1, the result is 15 degrees
per bounce instead of 20. -/
theorem trapped_violation : ∃ omp : List Cross, (evens (omp.map Cross.t)) = [0, 1, 2] ∧
    (evens (omp.map Cross.phi)) = [0, 10, 40] ∧ ∃ x, (freqs [] omp).1 = some x ∧ x = 15 / 360 ∧ x ≠ (40 - 0) / 360 / (2 - 0) := by
  refine ⟨[⟨1, 0, 0, 1⟩, ⟨1, 0.5, 5, -1⟩, ⟨1, 1, 10, 1⟩, ⟨1, 1.5, 25, -1⟩, ⟨1, 2, 40, 1⟩], by simp [evens], by simp [evens], ?_⟩
  have hp : passing [(⟨1, 0, 0, 1⟩ : Cross), ⟨1, 0.5, 5, -1⟩, ⟨1, 1, 10, 1⟩, ⟨1, 1.5, 25, -1⟩, ⟨1, 2, 40, 1⟩] = false := by
    simp only [passing, decide_eq_false_iff_not, not_or, not_forall]
    exact ⟨⟨⟨1, 0, 0, 1⟩, by simp, by norm_num⟩, ⟨⟨1, 0.5, 5, -1⟩, by simp, by norm_num⟩⟩
  refine ⟨1 / ((1 * 360 / 10 + 1 * 360 / 30) / 2), ?_, by norm_num, by norm_num⟩
  unfold freqs
  rw [hp]
  simp [diffs, evens, freq, mean]
  norm_num

/-- Markers with fewer than two crossings of a plane, and the crossings all in one direction, have no frequency. -/
theorem few (phi0 omp : List Cross) (h : omp.length ≤ 1) (h0 : ∀ c ∈ omp, c.pitch ≠ 0) : (freqs phi0 omp).2 = none := by
  have hp : passing omp = true := by
    simp only [passing, decide_eq_true_eq]
    match omp, h, h0 with
    | [], _, _ => simp
    | [c], _, h0 => simpa using lt_or_gt_of_ne (h0 c (by simp))
    | _ :: _ :: _, h, _ => simp at h
  unfold freqs
  rw [if_pos hp]
  have : diffs (omp.map Cross.t) = [] := List.length_eq_zero_iff.mp (by rw [diffs_length]; simp; omega)
  simp [this, freq, mean]

/-! ## Starting pitch and resonance -/

theorem pad_ends (a z : ℝ) (l : List ℝ) (ha : -1 ≤ a) (haz : a < z) (hz : z ≤ 1) :
    ∃ a' z', pad (a :: l ++ [z]) = a' :: l ++ [z'] ∧ -1 < a' ∧ a' < 1 ∧ -1 < z' ∧ z' < 1 ∧ a ≤ a' ∧ z' ≤ z ∧
      a' - a ≤ (z - a) / 100 ∧ z - z' ≤ (z - a) / 100 := by
  have hn : (2 : ℝ) ≤ ((a :: l ++ [z]).length : ℝ) := by
    have : 2 ≤ (a :: l ++ [z]).length := by simp
    exact_mod_cast this
  generalize hN : ((a :: l ++ [z]).length : ℝ) = N at hn
  have hlast : ∀ x : ℝ, (x :: l ++ [z]).getLast? = some z := fun x => List.getLast?_concat
  have hlen : ∀ x : ℝ, ((x :: l ++ [z]).length : ℝ) = N := fun x => by rw [← hN]; simp
  have hfrac : ∀ x : ℝ, 0 < x → 0 < 0.01 * x / N ∧ 0.01 * x / N ≤ x / 200 := fun x hx => by
    refine ⟨by positivity, ?_⟩
    rw [div_le_div_iff₀ (by linarith) (by norm_num)]
    nlinarith
  have h1 : ∃ a', padFirst (a :: l ++ [z]) = a' :: l ++ [z] ∧ a ≤ a' ∧ -1 < a' ∧ a' - a ≤ (z - a) / 200 := by
    by_cases hm : a = -1
    · refine ⟨a + 0.01 * (z - a) / N, ?_, ?_⟩
      · have := hlast a
        have h3 := hlen a
        simp only [List.cons_append] at this h3 ⊢
        simp only [padFirst, this, h3, Option.getD_some]
        rw [if_pos hm]
      · have := hfrac (z - a) (by linarith)
        exact ⟨by linarith, by linarith, by linarith⟩
    · refine ⟨a, ?_, le_refl _, lt_of_le_of_ne ha (Ne.symm hm), by linarith⟩
      simp only [List.cons_append, padFirst]
      rw [if_neg hm]
  obtain ⟨a', e1, g1, g2, g3⟩ := h1
  have hlt : a' < z := by linarith
  by_cases hm : z = 1
  · have := hfrac (1 - a') (by linarith)
    refine ⟨a', 1 - 0.01 * (1 - a') / N, ?_, g2, by linarith, by linarith, by linarith, g1, by linarith, by linarith, by linarith⟩
    unfold pad padLast
    rw [e1, hlast, hm, if_pos rfl]
    have h3 := hlen a'
    rw [hm] at h3
    rw [h3]
    rw [List.dropLast_concat]
    rfl
  · refine ⟨a', z, ?_, g2, by linarith, by linarith, lt_of_le_of_ne hz hm, g1, le_refl _, by linarith, by linarith⟩
    unfold pad padLast
    rw [e1, hlast, if_neg (by simpa using hm)]

/-- **Pitch of the markers** (full claim: it is strictly between -1 and 1 as the simulation needs): for a grid of two or more
points within [-1, 1] whose inner points are not ±1. -/
theorem pitch_partial (a z : ℝ) (l : List ℝ) (ha : -1 ≤ a) (haz : a < z) (hz : z ≤ 1) (hl : ∀ x ∈ l, -1 < x ∧ x < 1)
    (rho e : List ℝ) (mrks : List Mrk) (h : markers rho (a :: l ++ [z]) e = some mrks) :
    ∀ m ∈ mrks, -1 < m.pitch ∧ m.pitch < 1 := by
  obtain ⟨a', z', e1, h1, h2, h3, h4, -⟩ := pad_ends a z l ha haz hz
  unfold markers at h
  split at h
  · exact absurd h (by simp)
  injection h with h
  subst h
  intro m hm
  rw [e1] at hm
  simp only [mesh, List.mem_flatMap, List.mem_map] at hm
  obtain ⟨_, -, b, hb, _, -, rfl⟩ := hm
  simp only [List.cons_append, List.mem_cons, List.mem_append, List.not_mem_nil, or_false] at hb
  rcases hb with rfl | hb | rfl
  · exact ⟨h1, h2⟩
  · exact hl b hb
  · exact ⟨h3, h4⟩

/-- **The grid is changed little**: only its ends, towards its middle and by at most a hundredth of its width. -/
theorem padding (a z : ℝ) (l : List ℝ) (ha : -1 ≤ a) (haz : a < z) (hz : z ≤ 1) :
    ∃ a' z', pad (a :: l ++ [z]) = a' :: l ++ [z'] ∧ a ≤ a' ∧ z' ≤ z ∧ a' - a ≤ (z - a) / 100 ∧ z - z' ≤ (z - a) / 100 := by
  obtain ⟨a', z', e1, -, -, -, -, h⟩ := pad_ends a z l ha haz hz
  exact ⟨a', z', e1, h⟩

/-- The claim fails for a single pitch of 1 or -1, as the padding is a part of the width of the grid. -/
theorem pitch_violation (x : ℝ) (h : x = 1 ∨ x = -1) : markers [0.5] [x] [1] = some [⟨1, x, 0.5⟩] := by
  have : pad [x] = [x] := by
    rcases h with rfl | rfl
    · have h1 : padFirst [(1 : ℝ)] = [1] := by unfold padFirst; dsimp only; rw [if_neg (by norm_num)]
      unfold pad padLast; rw [h1]; simp
    · have h1 : padFirst [(-1 : ℝ)] = [-1] := by unfold padFirst; dsimp only; rw [if_pos rfl]; simp
      unfold pad padLast; rw [h1, if_neg (by simp; norm_num)]
  unfold markers
  rw [this, if_neg (by rcases h with rfl | rfl <;> norm_num)]
  rfl

/-- **Resonance** (full claim: what is plotted is the distance `|n f_tor - p f_pol - omega|` from the resonance): it is for a
perturbation at rest. -/
theorem resonance_partial (n p tor pol : ℝ) : detuning 0 n p tor pol = |n * tor - p * pol - 0| := by
  unfold detuning
  congr 1
  ring

/-- The claim fails for all others: the frequency of the perturbation makes no difference, and a marker in resonance with it
is not shown as such. -/
theorem resonance_violation (omega : ℝ) (h : omega ≠ 0) : ∃ n p tor pol : ℝ, |n * tor - p * pol - omega| = 0 ∧
    0 < detuning omega n p tor pol :=
  ⟨1, 0, omega, 0, by simp, by simpa [detuning] using h⟩

/-! ## Concrete cases -/

/-- Two radii, three pitches and one energy; the marker of `[1, 2]` is the sixth. -/
example : ∃ mrks M, markers [0.1, 0.9] [-0.5, 0, 0.5] [7] = some mrks ∧ matrices 2 3 1 [] [] = some M ∧
    node 2 3 1 2 = (1, 2, 0) := by
  refine ⟨mesh [0.1, 0.9] (pad [-0.5, 0, 0.5]) [7], _, ?_, rfl, by simp [node]⟩
  unfold markers
  rw [if_neg (by norm_num)]

example : freqs [] [⟨1, 0, 0, 1⟩, ⟨1, 1, 3, -1⟩, ⟨1, 2, 6, 1⟩, ⟨1, 3, 9, -1⟩] = (some (|6| / 360 / 2), some (1 / 2)) := by
  refine trapped_partial [] _ 2 (le_refl _) 0 2 0 6 ⟨rfl, ?_, ?_, ⟨_, by simp; exact .inr (.inl rfl), _, by simp; exact .inl rfl, by norm_num, by norm_num⟩⟩
    (by norm_num) (by norm_num)
  · intro k hk
    rcases k with _ | _ | k
    · simp
    · simp
    · omega
  · intro k hk
    rcases k with _ | _ | k
    · simp
    · simp
    · omega

example : (freqs [⟨1, 0, 0, 1⟩, ⟨1, 2, 360, 1⟩] [⟨1, 0, 0, 1⟩, ⟨1, 3, 0, 1⟩]).1 = some (1 / 2) := by
  rw [passing_turns _ _ (.inr (by simp)) (by simp) (by simp) (by simp) (by simp)]
  norm_num

example : ∃ mrks, markers [0.5] [-1, 0, 1] [1] = some mrks ∧ ∀ m ∈ mrks, -1 < m.pitch ∧ m.pitch < 1 := by
  have h : markers [0.5] [-1, 0, 1] [1] = some (mesh [0.5] (pad [-1, 0, 1]) [1]) := by
    unfold markers
    rw [if_neg (by norm_num)]
  exact ⟨_, h, pitch_partial (-1) 1 [0] (le_refl _) (by norm_num) (le_refl _) (by simp) [0.5] [1] _ h⟩

end Ascot.C179
