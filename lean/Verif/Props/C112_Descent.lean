import Verif.Model.Libascot

/-!
# C112: search for the magnetic axis

The gradient descent moves downhill to a place where the flux is stationary within the tolerance, returns the flux there, and
leaves the flux argument alone when it fails.
-/
set_option linter.unusedSectionVars false
set_option linter.unusedSimpArgs false

namespace Ascot.C112
open Ascot.Libascot Ascot.Coord

/-! ### Specification -/

/-- Distance of two points of the poloidal plane. -/
noncomputable def dist2 (p q : ℝ × ℝ) : ℝ := Real.sqrt ((p.1 - q.1) ^ 2 + (p.2 - q.2) ^ 2)

/-- Length of the poloidal gradient. -/
noncomputable def slope (psi : ℝ → ℝ → Grad × Nat) (p : ℝ × ℝ) : ℝ := Real.sqrt ((psi p.1 p.2).1.d1 ^ 2 + (psi p.1 p.2).1.d3 ^ 2)

/-- The flux at a point. -/
def flux (psi : ℝ → ℝ → Grad × Nat) (p : ℝ × ℝ) : ℝ := (psi p.1 p.2).1.v

/-- The flux is known everywhere and its gradient does not change faster than `L`: it lies below every parabola of curvature `L`
that touches it. -/
def Smooth (psi : ℝ → ℝ → Grad × Nat) (L : ℝ) : Prop :=
  (∀ r z, (psi r z).2 = 0) ∧ ∀ p q : ℝ × ℝ, flux psi q ≤ flux psi p + (psi p.1 p.2).1.d1 * (q.1 - p.1) + (psi p.1 p.2).1.d3 * (q.2 - p.2)
    + L / 2 * ((q.1 - p.1) ^ 2 + (q.2 - p.2) ^ 2)

/-- The flux with opposite sign. -/
def neg (psi : ℝ → ℝ → ℝ → Grad × Nat) : ℝ → ℝ → ℝ → Grad × Nat :=
  fun r phi z => (⟨-(psi r phi z).1.v, -(psi r phi z).1.d1, -(psi r phi z).1.d2, -(psi r phi z).1.d3⟩, (psi r phi z).2)

variable {psi : ℝ → ℝ → Grad × Nat} {step tol : ℝ} {p q : ℝ × ℝ}

/-! ### One pass -/

theorem pass_stop : pass psi step tol p = .stop ↔ (psi p.1 p.2).2 ≠ 0 := by
  unfold pass
  dsimp only
  split_ifs with h1 h2 <;> simp [h1]

theorem pass_next (h : pass psi step tol p = .next q) : (psi p.1 p.2).2 = 0 ∧ q.1 = p.1 - step * (psi p.1 p.2).1.d1 ∧
    q.2 = p.2 - step * (psi p.1 p.2).1.d3 ∧ tol ≤ dist2 q p := by
  unfold pass at h
  dsimp only at h
  split_ifs at h with h1 h2
  · cases h
    refine ⟨not_not.1 h1, rfl, rfl, ?_⟩
    unfold dist2
    rw [pow_two, pow_two]
    exact not_lt.1 h2

theorem pass_found {v : ℝ} (h : pass psi step tol p = .found v q) : (psi p.1 p.2).2 = 0 ∧ q.1 = p.1 - step * (psi p.1 p.2).1.d1 ∧
    q.2 = p.2 - step * (psi p.1 p.2).1.d3 ∧ dist2 q p < tol ∧
    v = flux psi p + tol * ((psi q.1 q.2).1.d1 + (psi q.1 q.2).1.d3) := by
  unfold pass at h
  dsimp only at h
  split_ifs at h with h1 h2
  · cases h
    refine ⟨not_not.1 h1, rfl, rfl, ?_, ?_⟩
    · unfold dist2
      rw [pow_two, pow_two]
      exact h2
    · unfold flux
      ring

/-- Everything that holds at the start and after each move holds at the last position before the end. -/
theorem loop_inv {P : Type} {pass : P → Pass P} {Q : P → Prop} (hQ : ∀ p q, Q p → pass p = .next q → Q q) :
    ∀ (n : Nat) (p : P), Q p → (∀ v q, loop pass n p = (some v, q) → ∃ p', Q p' ∧ pass p' = .found v q) ∧
      (∀ q, loop pass n p = (none, q) → Q q)
  | 0, p, h => ⟨fun v q h => by simp [loop] at h, fun q h' => by simp [loop] at h'; rw [← h']; exact h⟩
  | n + 1, p, h => by
    unfold loop
    cases hp : pass p with
    | stop => exact ⟨fun v q h => by simp at h, fun q h' => by simp at h'; rw [← h']; exact h⟩
    | found v q =>
      refine ⟨fun v' q' h' => ?_, fun q h => by simp at h⟩
      simp only [Prod.mk.injEq, Option.some.injEq] at h'
      obtain ⟨rfl, rfl⟩ := h'
      exact ⟨p, h, hp⟩
    | next q => exact loop_inv hQ n q (hQ p q h hp)

variable {psi3 : ℝ → ℝ → ℝ → Grad × Nat} {phi : ℝ} {n : Nat} {ascent : Bool} {start : ℝ × ℝ}

/-! ### What a result means -/

/-- A result is reached by a last step shorter than the tolerance along the gradient, so that the slope before that step is less
than tolerance over step size; the flux returned is that before the step, plus the tolerance times the sum of the derivatives
after it. -/
theorem found (hs : 0 < step) {v : ℝ} {q : ℝ × ℝ} (h : gradientDescent psi3 start phi step tol n ascent = (some v, q)) :
    ∃ p : ℝ × ℝ, (psi3 p.1 phi p.2).2 = 0 ∧ dist2 q p < tol ∧ step * slope (fun r z => psi3 r phi z) p < tol ∧
      v = flux (fun r z => psi3 r phi z) p + tol * ((psi3 q.1 phi q.2).1.d1 + (psi3 q.1 phi q.2).1.d3) := by
  unfold gradientDescent at h
  obtain ⟨p, -, hp⟩ := (loop_inv (Q := fun _ => True) (fun _ _ _ _ => trivial) n start trivial).1 v q h
  obtain ⟨k1, k2, k3, k4, k5⟩ := pass_found hp
  refine ⟨p, k1, k4, ?_, k5⟩
  refine lt_of_eq_of_lt ?_ k4
  unfold slope dist2
  dsimp only
  rw [k2, k3]
  conv_lhs => rw [← abs_of_pos hs, ← Real.sqrt_sq_eq_abs, ← Real.sqrt_mul (sq_nonneg _)]
  congr 1
  cases ascent <;> simp <;> ring

/-- Near a single stationary point, from which the slope grows at least as `m` times the distance, the result is that point to
within `tol / (step m) + tol`. -/
theorem near_axis {m : ℝ} {axis : ℝ × ℝ} (hm : 0 < m) (hs : 0 < step)
    (hax : ∀ p, m * dist2 p axis ≤ slope (fun r z => psi3 r phi z) p) {v : ℝ} {q : ℝ × ℝ}
    (h : gradientDescent psi3 start phi step tol n ascent = (some v, q)) :
    ∃ p, dist2 q p < tol ∧ dist2 p axis < tol / (step * m) := by
  obtain ⟨p, -, k1, k2, -⟩ := found hs h
  refine ⟨p, k1, ?_⟩
  rw [lt_div_iff₀ (by positivity)]
  have := hax p
  nlinarith

/-- Ascending is descending on the flux of opposite sign. -/
theorem ascent_mirror : gradientDescent psi3 start phi step tol n true =
    ((gradientDescent (neg psi3) start phi step tol n false).1.map (- ·), (gradientDescent (neg psi3) start phi step tol n false).2) := by
  unfold gradientDescent
  simp only [if_true, if_false, Bool.false_eq_true]
  induction n generalizing start with
  | zero => rfl
  | succ n ih =>
    have hp : pass (fun r z => psi3 r phi z) (-1 * step) tol start =
        match pass (fun r z => neg psi3 r phi z) step tol start with
        | .stop => .stop
        | .found v q => .found (-v) q
        | .next q => .next q := by
      unfold pass neg
      dsimp only
      by_cases h1 : (psi3 start.1 phi start.2).2 ≠ 0
      · rw [if_pos h1, if_pos h1]
      · rw [if_neg h1, if_neg h1]
        have e : ∀ a b : ℝ, a - -1 * step * b = a - step * -b := fun a b => by ring
        simp only [e]
        split_ifs with h2
        · simp only [Pass.found.injEq, and_true]
          ring
        · rfl
    unfold loop
    rw [hp]
    cases pass (fun r z => neg psi3 r phi z) step tol start with
    | stop => rfl
    | found v q => rfl
    | next q => exact ih

/-! ### Descent and convergence -/

/-- One move of a smooth flux goes downhill by an amount that depends on its length. -/
theorem downhill {L : ℝ} (hL : Smooth psi L) (hs : 0 < step) (hq1 : q.1 = p.1 - step * (psi p.1 p.2).1.d1)
    (hq2 : q.2 = p.2 - step * (psi p.1 p.2).1.d3) : flux psi q ≤ flux psi p - (1 / step - L / 2) * (dist2 q p) ^ 2 := by
  have h := hL.2 p q
  unfold dist2
  rw [Real.sq_sqrt (by positivity)]
  have e1 : (psi p.1 p.2).1.d1 = -(q.1 - p.1) / step := by rw [hq1]; field_simp; ring
  have e2 : (psi p.1 p.2).1.d3 = -(q.2 - p.2) / step := by rw [hq2]; field_simp; ring
  rw [e1, e2] at h
  calc _ ≤ _ := h
    _ = _ := by field_simp; ring

/-- With a step size of at most `2 / L` the flux at the returned position is not above that at the start. -/
theorem descends {L : ℝ} (hL : Smooth (fun r z => psi3 r phi z) L) (hs : 0 < step) (hsL : step * L ≤ 2) {w : Option ℝ} {q : ℝ × ℝ}
    (h : gradientDescent psi3 start phi step tol n false = (w, q)) : flux (fun r z => psi3 r phi z) q ≤ flux (fun r z => psi3 r phi z) start := by
  have hc : 0 ≤ 1 / step - L / 2 := by
    rw [sub_nonneg, div_le_div_iff₀ two_pos hs]
    linarith
  have hd : ∀ p q : ℝ × ℝ, q.1 = p.1 - step * (psi3 p.1 phi p.2).1.d1 → q.2 = p.2 - step * (psi3 p.1 phi p.2).1.d3 →
      flux (fun r z => psi3 r phi z) q ≤ flux (fun r z => psi3 r phi z) p := fun p q h1 h2 => by
    have := downhill hL hs h1 h2
    have : 0 ≤ (1 / step - L / 2) * (dist2 q p) ^ 2 := mul_nonneg hc (sq_nonneg _)
    linarith
  unfold gradientDescent at h
  simp only [Bool.false_eq_true, if_false] at h
  have hinv := loop_inv (pass := pass (fun r z => psi3 r phi z) step tol)
    (Q := fun p => flux (fun r z => psi3 r phi z) p ≤ flux (fun r z => psi3 r phi z) start)
    (fun p q hp hn => (hd p q (pass_next hn).2.1 (pass_next hn).2.2.1).trans hp) n start le_rfl
  cases w with
  | none => exact hinv.2 q h
  | some v =>
    obtain ⟨p, hp, hf⟩ := hinv.1 v q h
    exact (hd p q (pass_found hf).2.1 (pass_found hf).2.2.1).trans hp

/-- With a step size below `2 / L`, for a flux bounded below, enough iterations give a result. -/
theorem converges {L m : ℝ} (hL : Smooth (fun r z => psi3 r phi z) L) (hs : 0 < step) (hsL : step * L < 2) (htol : 0 < tol)
    (hm : ∀ p, m ≤ flux (fun r z => psi3 r phi z) p) :
    ∀ (n : Nat) (start : ℝ × ℝ), flux (fun r z => psi3 r phi z) start - m < n * ((1 / step - L / 2) * tol ^ 2) →
      ∃ v q, gradientDescent psi3 start phi step tol n false = (some v, q) := by
  intro n
  unfold gradientDescent
  simp only [Bool.false_eq_true, if_false]
  induction n with
  | zero =>
    intro start h
    have := hm start
    simp at h
    linarith
  | succ n ih =>
    intro start h
    unfold loop
    cases hp : pass (fun r z => psi3 r phi z) step tol start with
    | stop => exact absurd (hL.1 _ _) (pass_stop.1 hp)
    | found v q => exact ⟨v, q, rfl⟩
    | next q =>
      obtain ⟨-, k1, k2, k3⟩ := pass_next hp
      have hd := downhill hL hs k1 k2
      refine ih q ?_
      have hc : 0 < 1 / step - L / 2 := by
        rw [sub_pos, div_lt_div_iff₀ two_pos hs]
        linarith
      have : tol ^ 2 ≤ dist2 q start ^ 2 := pow_le_pow_left₀ htol.le k3 2
      have := mul_le_mul_of_nonneg_left this hc.le
      push_cast at h
      linarith

/-! ### Number of iterations -/

theorem counted_aux {P : Type} {pass : P → Pass P} : ∀ (k fuel : Nat) (iter : Int) (p : P), k < fuel →
    loopCount pass (iter + (k + 1 : Nat)) fuel iter p = some (loop pass (k + 1) p)
  | k, 0, iter, p, h => absurd h (by omega)
  | 0, fuel + 1, iter, p, _ => by
    unfold loopCount loop
    cases pass p with
    | stop => rfl
    | found v q => rfl
    | next q =>
      dsimp only
      rw [if_pos (by simp)]
      rfl
  | k + 1, fuel + 1, iter, p, h => by
    unfold loopCount loop
    cases pass p with
    | stop => rfl
    | found v q => rfl
    | next q =>
      dsimp only
      rw [if_neg (by push_cast; omega)]
      have := counted_aux (pass := pass) k fuel (iter + 1) q (by omega)
      rw [← this]
      congr 1
      push_cast
      ring

/-- For a positive maximum the loop ends after at most that number of passes. -/
theorem counted {P : Type} {pass : P → Pass P} (n fuel : Nat) (p : P) (hn : 0 < n) (hf : n ≤ fuel) :
    loopCount pass n fuel 0 p = some (loop pass n p) := by
  obtain ⟨k, rfl⟩ := Nat.exists_eq_succ_of_ne_zero hn.ne'
  have := counted_aux (pass := pass) k fuel 0 p (by omega)
  simpa using this

/-- A flux that grows with R at a constant rate. -/
def slide (r _z : ℝ) : Grad × Nat := (⟨r, 1, 0, 0⟩, 0)

/-- For a maximum of zero or less the loop need not end at all. -/
theorem endless (maxiter : Int) (hm : maxiter ≤ 0) (p : ℝ × ℝ) (fuel : Nat) : loopCount (pass slide 1 (1 / 2)) maxiter fuel 0 p = none := by
  have hp : ∀ p : ℝ × ℝ, pass slide 1 (1 / 2) p = .next (p.1 - 1, p.2) := fun p => by
    unfold pass slide
    dsimp only
    rw [if_neg (by simp), if_neg]
    · simp
    · rw [not_lt]
      have : (p.1 - 1 * 1 - p.1) * (p.1 - 1 * 1 - p.1) + (p.2 - 1 * 0 - p.2) * (p.2 - 1 * 0 - p.2) = 1 := by ring
      rw [this, Real.sqrt_one]
      norm_num
  have h : ∀ (fuel : Nat) (iter : Int), 0 ≤ iter → ∀ p, loopCount (pass slide 1 (1 / 2)) maxiter fuel iter p = none := by
    intro fuel
    induction fuel with
    | zero => intros; rfl
    | succ fuel ih =>
      intro iter hi p
      unfold loopCount
      rw [hp]
      dsimp only
      rw [if_neg (by omega)]
      exact ih (iter + 1) (by omega) _
  exact h fuel 0 le_rfl p

/-! ### Example: circular flux surfaces -/

/-- Flux surfaces around R = 6, z = 0. -/
noncomputable def bowl (r _phi z : ℝ) : Grad × Nat := (⟨(r - 6) ^ 2 + z ^ 2, 2 * (r - 6), 0, 2 * z⟩, 0)

theorem bowl_smooth (phi : ℝ) : Smooth (fun r z => bowl r phi z) 2 :=
  ⟨fun _ _ => rfl, fun p q => by simp only [flux, bowl]; nlinarith⟩

theorem bowl_slope (phi : ℝ) (p : ℝ × ℝ) : 2 * dist2 p (6, 0) ≤ slope (fun r z => bowl r phi z) p := by
  unfold dist2 slope bowl
  dsimp only
  have : (2 * (p.1 - 6)) ^ 2 + (2 * p.2) ^ 2 = 2 ^ 2 * ((p.1 - 6) ^ 2 + (p.2 - 0) ^ 2) := by ring
  rw [this, Real.sqrt_mul (by norm_num), Real.sqrt_sq (by norm_num)]

/-- From a start one metre away in both directions the axis is found to four millimetres, for every step size of at most 1/2 that is
not too small. -/
example (phi : ℝ) : ∃ v q, gradientDescent bowl (7, 1) phi (1 / 4) (1 / 1000) 1000000 false = (some v, q) ∧
    ∃ p, dist2 q p < 1 / 1000 ∧ dist2 p (6, 0) < 1 / 500 := by
  obtain ⟨v, q, h⟩ := converges (m := 0) (bowl_smooth phi) (step := 1 / 4) (tol := 1 / 1000) (by norm_num) (by norm_num) (by norm_num)
    (fun p => by simp only [flux, bowl]; positivity) 1000000 (7, 1) (by simp only [flux, bowl]; norm_num)
  refine ⟨v, q, h, ?_⟩
  obtain ⟨p, h1, h2⟩ := near_axis (m := 2) (by norm_num) (by norm_num) (bowl_slope phi) h
  exact ⟨p, h1, by norm_num at h2 ⊢; exact h2⟩

/-! ### The padding -/

/-- Whatever tolerance and step size below 1/2: from a start outside and above the axis the flux that is returned as that of
the axis is larger than the flux at the returned position. -/
theorem padding_fails {v : ℝ} (htol : 0 < tol) (hs : 0 < step) (hs2 : step < 1 / 2) (h1 : 6 < start.1) (h2 : 0 ≤ start.2)
    (h : gradientDescent bowl start phi step tol n false = (some v, q)) : flux (fun r z => bowl r phi z) q < v := by
  unfold gradientDescent at h
  simp only [Bool.false_eq_true, if_false] at h
  obtain ⟨p, ⟨hp1, hp2⟩, hf⟩ := (loop_inv (Q := fun p : ℝ × ℝ => 6 < p.1 ∧ 0 ≤ p.2) (fun p q hp hn => by
    obtain ⟨-, k1, k2, -⟩ := pass_next hn
    simp only [bowl] at k1 k2
    rw [k1, k2]
    exact ⟨by nlinarith [hp.1], by nlinarith [hp.2]⟩) n start ⟨h1, h2⟩).1 v q h
  obtain ⟨-, k1, k2, -, k3⟩ := pass_found hf
  rw [k3]
  have hd := downhill (bowl_smooth phi) hs k1 k2
  have hc : 0 ≤ 1 / step - 2 / 2 := by
    rw [sub_nonneg, le_div_iff₀ hs]
    linarith
  have := mul_nonneg hc (sq_nonneg (dist2 q p))
  simp only [bowl] at k1 k2
  have hq1 : 6 < q.1 := by rw [k1]; nlinarith
  have hq2 : 0 ≤ q.2 := by rw [k2]; nlinarith
  have hpos : 0 < tol * ((bowl q.1 phi q.2).1.d1 + (bowl q.1 phi q.2).1.d3) :=
    mul_pos htol (show 0 < 2 * (q.1 - 6) + 2 * q.2 by linarith)
  linarith

/-- With that flux as the flux of the axis, rho cannot be evaluated at the returned position. -/
theorem padding_refused {v : ℝ} (htol : 0 < tol) (hs : 0 < step) (hs2 : step < 1 / 2) (h1 : 6 < start.1) (h2 : 0 ≤ start.2)
    (h : gradientDescent bowl start phi step tol n false = (some v, q)) (d : Bfield.B2) (h0 : d.psi0 = v) (hv : v < d.psi1) :
    (Bfield.evalRho (.b2 d) (flux (fun r z => bowl r phi z) q)).2.2 ≠ 0 := by
  have hlt := padding_fails htol hs hs2 h1 h2 h
  have e0 : (Bfield.limits (.b2 d)).1 = d.psi0 := rfl
  have e1 : (Bfield.limits (.b2 d)).2.1 = d.psi1 := rfl
  unfold Bfield.evalRho
  dsimp only
  rw [e0, e1, if_neg (by rw [h0]; exact (sub_pos.2 hv).ne'),
    if_pos (div_neg_of_neg_of_pos (by rw [h0]; linarith) (by rw [h0]; linarith))]
  decide

/-- Such a start gives a result. -/
example (phi : ℝ) : ∃ v q, gradientDescent bowl (7, 1) phi (1 / 4) (1 / 1000) 1000000 false = (some v, q) ∧
    flux (fun r z => bowl r phi z) q < v := by
  obtain ⟨v, q, h⟩ := converges (m := 0) (bowl_smooth phi) (step := 1 / 4) (tol := 1 / 1000) (by norm_num) (by norm_num) (by norm_num)
    (fun p => by simp only [flux, bowl]; positivity) 1000000 (7, 1) (by simp only [flux, bowl]; norm_num)
  exact ⟨v, q, h, padding_fails (by norm_num) (by norm_num) (by norm_num) (by norm_num) (by norm_num) h⟩

/-! ### Three dimensions -/

/-- Poloidal displacement and arc along phi from `p` to `q`. -/
noncomputable def arc (p q : V3 ℝ) : ℝ := p.x * (q.y - p.y)

variable {phimin phimax : ℝ} {u w : V3 ℝ}

theorem clamp_mem (h : phimin ≤ phimax) (x : ℝ) : phimin ≤ clamp phimin phimax x ∧ clamp phimin phimax x ≤ phimax := by
  unfold clamp
  dsimp only
  split_ifs <;> constructor <;> linarith

theorem clamp_inside {x : ℝ} (h1 : phimin ≤ x) (h2 : x ≤ phimax) : clamp phimin phimax x = x := by
  unfold clamp
  dsimp only
  rw [if_neg (not_lt.2 h2), if_neg (not_lt.2 h1)]

theorem pass3_cases : (pass3 psi3 phimin phimax step tol u = .stop ∧ (psi3 u.x u.y u.z).2 ≠ 0) ∨
    ((psi3 u.x u.y u.z).2 = 0 ∧ ∃ w : V3 ℝ, w.x = u.x - step * (psi3 u.x u.y u.z).1.d1 ∧ w.z = u.z - step * (psi3 u.x u.y u.z).1.d3 ∧
      w.y = clamp phimin phimax (u.y - step / u.x * (psi3 u.x u.y u.z).1.d2) ∧
      ((pass3 psi3 phimin phimax step tol u = .next w ∧ tol ≤ Real.sqrt ((w.x - u.x) ^ 2 + (w.z - u.z) ^ 2 + arc u w ^ 2)) ∨
       (pass3 psi3 phimin phimax step tol u = .found ((psi3 u.x u.y u.z).1.v +
          tol * ((psi3 w.x w.y w.z).1.d1 + (psi3 w.x w.y w.z).1.d2 / w.x + (psi3 w.x w.y w.z).1.d3)) w ∧
        Real.sqrt ((w.x - u.x) ^ 2 + (w.z - u.z) ^ 2 + arc u w ^ 2) < tol))) := by
  unfold pass3
  dsimp only
  by_cases h : (psi3 u.x u.y u.z).2 ≠ 0
  · rw [if_pos h]; exact .inl ⟨rfl, h⟩
  · rw [if_neg h]
    refine .inr ⟨not_not.1 h, ⟨u.x - step * (psi3 u.x u.y u.z).1.d1, clamp phimin phimax (u.y - step / u.x * (psi3 u.x u.y u.z).1.d2),
      u.z - step * (psi3 u.x u.y u.z).1.d3⟩, rfl, rfl, rfl, ?_⟩
    generalize clamp phimin phimax (u.y - step / u.x * (psi3 u.x u.y u.z).1.d2) = y
    have e : ∀ a b c : ℝ, a * a + b * b + u.x * c * u.x * c = a ^ 2 + b ^ 2 + (u.x * c) ^ 2 := fun a b c => by ring
    rw [e]
    simp only [arc]
    split_ifs with h2
    · exact .inr ⟨rfl, h2⟩
    · exact .inl ⟨rfl, not_lt.1 h2⟩

/-- The search stays in the sector. -/
theorem sector {start : V3 ℝ} (h : phimin ≤ phimax) (h1 : phimin ≤ start.y) (h2 : start.y ≤ phimax) {v : Option ℝ}
    (hr : gradientDescent3d psi3 start phimin phimax step tol n ascent = (v, w)) : phimin ≤ w.y ∧ w.y ≤ phimax := by
  unfold gradientDescent3d at hr
  generalize (if ascent = true then -1 * step else step) = s at hr
  have hinv := loop_inv (pass := pass3 psi3 phimin phimax s tol) (Q := fun u => phimin ≤ u.y ∧ u.y ≤ phimax) (fun u w _ hn => by
    rcases pass3_cases (psi3 := psi3) (phimin := phimin) (phimax := phimax) (step := s) (tol := tol) (u := u) with ⟨k, -⟩ | ⟨-, w', -, -, k, ⟨k1, -⟩ | ⟨k1, -⟩⟩
    · rw [hn] at k; cases k
    · rw [hn] at k1; cases k1
      rw [k]; exact clamp_mem h _
    · rw [hn] at k1; cases k1) n start ⟨h1, h2⟩
  cases v with
  | none => exact hinv.2 w hr
  | some v =>
    obtain ⟨u, -, hf⟩ := hinv.1 v w hr
    rcases pass3_cases (psi3 := psi3) (phimin := phimin) (phimax := phimax) (step := s) (tol := tol) (u := u) with ⟨k, -⟩ | ⟨-, w', -, -, k, ⟨k1, -⟩ | ⟨k1, -⟩⟩
    · rw [hf] at k; cases k
    · rw [hf] at k1; cases k1
    · rw [hf] at k1
      cases k1
      rw [k]; exact clamp_mem h _

/-- A result is reached by a last step, poloidal and along phi, shorter than the tolerance; the flux returned is that before the
step plus padding. -/
theorem found_3d {start : V3 ℝ} {v : ℝ} (hr : gradientDescent3d psi3 start phimin phimax step tol n ascent = (some v, w)) :
    ∃ u : V3 ℝ, (psi3 u.x u.y u.z).2 = 0 ∧ Real.sqrt ((w.x - u.x) ^ 2 + (w.z - u.z) ^ 2 + arc u w ^ 2) < tol ∧
      w.x = u.x - (if ascent then -1 else 1) * step * (psi3 u.x u.y u.z).1.d1 ∧
      w.z = u.z - (if ascent then -1 else 1) * step * (psi3 u.x u.y u.z).1.d3 ∧
      w.y = clamp phimin phimax (u.y - (if ascent then -1 else 1) * step / u.x * (psi3 u.x u.y u.z).1.d2) ∧
      v = (psi3 u.x u.y u.z).1.v + tol * ((psi3 w.x w.y w.z).1.d1 + (psi3 w.x w.y w.z).1.d2 / w.x + (psi3 w.x w.y w.z).1.d3) := by
  unfold gradientDescent3d at hr
  have es : (if ascent = true then -1 * step else step) = (if ascent = true then -1 else 1) * step := by split_ifs <;> ring
  rw [es] at hr
  generalize (if ascent = true then -1 else 1) * step = s at *
  obtain ⟨u, -, hf⟩ := (loop_inv (pass := pass3 psi3 phimin phimax s tol) (Q := fun _ => True) (fun _ _ _ _ => trivial) n start trivial).1 v w hr
  rcases pass3_cases (psi3 := psi3) (phimin := phimin) (phimax := phimax) (step := s) (tol := tol) (u := u) with ⟨k, -⟩ | ⟨k0, w', k1, k2, k3, ⟨k, -⟩ | ⟨k, k4⟩⟩
  · rw [hf] at k; cases k
  · rw [hf] at k; cases k
  · rw [hf] at k
    cases k
    exact ⟨u, k0, k4, k1, k2, k3, rfl⟩

/-- Inside the sector the arc is the step size times the derivative by phi, while that component of the gradient is the
derivative over R: unless R = 1 the move is not along the gradient. -/
theorem not_along_gradient (hx : u.x ≠ 0) (hn : pass3 psi3 phimin phimax step tol u = .next w)
    (h1 : phimin ≤ u.y - step / u.x * (psi3 u.x u.y u.z).1.d2) (h2 : u.y - step / u.x * (psi3 u.x u.y u.z).1.d2 ≤ phimax)
    (hs : step ≠ 0) (hd : (psi3 u.x u.y u.z).1.d2 ≠ 0) :
    w.x - u.x = -step * (psi3 u.x u.y u.z).1.d1 ∧ arc u w = -step * (psi3 u.x u.y u.z).1.d2 ∧
    (u.x ≠ 1 → arc u w ≠ -step * ((psi3 u.x u.y u.z).1.d2 / u.x)) := by
  rcases pass3_cases (psi3 := psi3) (phimin := phimin) (phimax := phimax) (step := step) (tol := tol) (u := u) with ⟨k, -⟩ | ⟨k0, w', k1, k2, k3, ⟨k, -⟩ | ⟨k, -⟩⟩
  · rw [hn] at k; cases k
  · rw [hn] at k
    cases k
    rw [clamp_inside h1 h2] at k3
    have ha : arc u w = -step * (psi3 u.x u.y u.z).1.d2 := by
      unfold arc
      rw [k3]
      field_simp
      ring
    refine ⟨by rw [k1]; ring, ha, fun hx1 h => ?_⟩
    rw [ha] at h
    field_simp at h
    exact hx1 (by linarith)
  · rw [hn] at k; cases k

/-- A flux with its minimum at R = 10, phi = 0, z = 0; its curvature is 1 along phi (arc length, at R = 10) and 2 in the poloidal
plane. -/
noncomputable def trough (r phi z : ℝ) : Grad × Nat := (⟨(r - 10) ^ 2 + 50 * phi ^ 2 + z ^ 2, 2 * (r - 10), 100 * phi, 2 * z⟩, 0)

theorem trough_pass {s tol : ℝ} (hs : s = 1 ∨ s = -1) (htol : tol ≤ 20) :
    pass3 trough (-1) 1 (1 / 2) tol ⟨10, s, 0⟩ = .next ⟨10, -s, 0⟩ := by
  unfold pass3 trough
  dsimp only
  rw [if_neg (by simp)]
  have hc : clamp (-1) 1 (s - 1 / 2 / 10 * (100 * s)) = -s := by
    unfold clamp
    rcases hs with rfl | rfl <;> norm_num
  rw [hc]
  have : (10 - 1 / 2 * (2 * (10 - 10)) - 10) * (10 - 1 / 2 * (2 * (10 - 10)) - 10) + (0 - 1 / 2 * (2 * 0) - 0) * (0 - 1 / 2 * (2 * 0) - 0)
      + 10 * (-s - s) * 10 * (-s - s) = (20 : ℝ) ^ 2 := by rcases hs with rfl | rfl <;> norm_num
  rw [this, Real.sqrt_sq (by norm_num), if_neg (not_lt.2 htol)]
  norm_num

/-- The search for this minimum, with a step size for which descent along the gradient halves the distance each time, jumps between
the ends of the sector for ever and finds nothing, for every number of iterations and every reasonable tolerance. -/
theorem misses_3d (n : Nat) (htol : tol ≤ 20) :
    (∀ phi : ℝ, phi - 1 / 2 * ((trough 10 phi 0).1.d2 / 10) / 10 = phi / 2) ∧
    ∃ w, gradientDescent3d trough ⟨10, 1, 0⟩ (-1) 1 (1 / 2) tol n false = (none, w) ∧ (w = ⟨10, 1, 0⟩ ∨ w = ⟨10, -1, 0⟩) := by
  constructor
  · intro phi
    simp only [trough]
    ring
  · have h : ∀ (n : Nat) (s : ℝ), s = 1 ∨ s = -1 → ∃ w, loop (pass3 trough (-1) 1 (1 / 2) tol) n ⟨10, s, 0⟩ = (none, w) ∧
        (w = ⟨10, 1, 0⟩ ∨ w = ⟨10, -1, 0⟩) := by
      intro n
      induction n with
      | zero =>
        intro s hs
        exact ⟨_, rfl, by rcases hs with rfl | rfl <;> simp⟩
      | succ n ih =>
        intro s hs
        unfold loop
        rw [trough_pass hs htol]
        exact ih (-s) (by rcases hs with rfl | rfl <;> simp)
    exact h n 1 (.inl rfl)

/-- It even climbs: one iteration makes the flux sixteen times as large. -/
theorem climbs_3d : ∃ w, gradientDescent3d trough ⟨10, 1 / 4, 0⟩ (-1) 1 (1 / 2) 1 1 false = (none, w) ∧
    (trough w.x w.y w.z).1.v = 16 * (trough 10 (1 / 4) 0).1.v := by
  refine ⟨⟨10, -1, 0⟩, ?_, by simp only [trough]; norm_num⟩
  have hp : pass3 trough (-1) 1 (1 / 2) 1 ⟨10, 1 / 4, 0⟩ = .next ⟨10, -1, 0⟩ := by
    unfold pass3 trough
    dsimp only
    rw [if_neg (by simp)]
    have hc : clamp (-1) 1 (1 / 4 - 1 / 2 / 10 * (100 * (1 / 4))) = -1 := by
      unfold clamp
      norm_num
    rw [hc]
    have : (10 - 1 / 2 * (2 * (10 - 10)) - 10) * (10 - 1 / 2 * (2 * (10 - 10)) - 10) + (0 - 1 / 2 * (2 * 0) - 0) * (0 - 1 / 2 * (2 * 0) - 0)
      + 10 * (-1 - 1 / 4) * 10 * (-1 - 1 / 4) = (12.5 : ℝ) ^ 2 := by norm_num
    rw [this, Real.sqrt_sq (by norm_num), if_neg (by norm_num)]
    norm_num
  unfold gradientDescent3d
  simp only [Bool.false_eq_true, if_false]
  unfold loop
  rw [hp]
  rfl

/-- With a step size that suits it, the same search succeeds. -/
example : ∃ v w, gradientDescent3d trough ⟨10, 1 / 4, 0⟩ (-1) 1 (1 / 20) 3 1 false = (some v, w) := by
  have hp : pass3 trough (-1) 1 (1 / 20) 3 ⟨10, 1 / 4, 0⟩ = .found (55 / 8) ⟨10, 1 / 8, 0⟩ := by
    unfold pass3 trough
    dsimp only
    rw [if_neg (by simp)]
    have hc : clamp (-1) 1 (1 / 4 - 1 / 20 / 10 * (100 * (1 / 4))) = 1 / 8 := by
      unfold clamp
      norm_num
    rw [hc]
    have : (10 - 1 / 20 * (2 * (10 - 10)) - 10) * (10 - 1 / 20 * (2 * (10 - 10)) - 10) + (0 - 1 / 20 * (2 * 0) - 0) * (0 - 1 / 20 * (2 * 0) - 0)
      + 10 * (1 / 8 - 1 / 4) * 10 * (1 / 8 - 1 / 4) = (1.25 : ℝ) ^ 2 := by norm_num
    rw [this, Real.sqrt_sq (by norm_num), if_pos (by norm_num)]
    norm_num
  refine ⟨55 / 8, ⟨10, 1 / 8, 0⟩, ?_⟩
  unfold gradientDescent3d
  simp only [Bool.false_eq_true, if_false]
  unfold loop
  rw [hp]

end Ascot.C112
