import Mathlib.MeasureTheory.Measure.Lebesgue.Basic
import Mathlib.Algebra.BigOperators.Group.Finset.Basic
import Mathlib.Tactic.Linarith
import Mathlib.Tactic.FieldSimp
import Mathlib.Tactic.LinearCombination
import Verif.Model.Bbnbi
import Verif.Lemmas.Coord
import Verif.Props.C44_C45_Coord

/-!
# C100: neutrals move along straight lines and are ionised at the rate of the plasma
-/
set_option linter.unusedSectionVars false
set_option linter.unusedSimpArgs false

namespace Ascot.C100
open Ascot.Bbnbi Ascot.Coord Ascot.Physlib

variable {P : Type}

/-- Cartesian position of a lane. -/
noncomputable def pos (l : Lane) : V3 ℝ := rpz2xyz ⟨l.r, l.phi, l.z⟩

/-- Cartesian momentum of a lane. -/
noncomputable def mom (l : Lane) : V3 ℝ := vecRpz2xyz ⟨l.pr, l.pphi, l.pz⟩ l.phi

/-- The point reached from `x` with the momentum `p` after the time `t`. -/
noncomputable def line (c m : ℝ) (x p : V3 ℝ) (t : ℝ) : V3 ℝ :=
  ⟨x.x + t * (p.x / (gammaPnorm c m (Real.sqrt (V3.dot p p)) * m)), x.y + t * (p.y / (gammaPnorm c m (Real.sqrt (V3.dot p p)) * m)),
   x.z + t * (p.z / (gammaPnorm c m (Real.sqrt (V3.dot p p)) * m))⟩

theorem norm_mom (l : Lane) : V3.norm Real.sqrt ⟨l.pr, l.pphi, l.pz⟩ = Real.sqrt (V3.dot (mom l) (mom l)) := by
  unfold mom
  rw [(C44.vec_dot _ _ _).1]
  rfl

/-- One ballistic step: the Cartesian momentum does not change and the Cartesian position moves with the velocity. -/
theorem move_spec (c h : ℝ) (l : Lane) (hr : 0 < l.r) : pos (move c h l) = line c l.mass (pos l) (mom l) h ∧ mom (move c h l) = mom l := by
  set fx := (pos l).x + h * ((mom l).x / (gammaPnorm c l.mass (Real.sqrt (V3.dot (mom l) (mom l))) * l.mass)) with hfx
  set fy := (pos l).y + h * ((mom l).y / (gammaPnorm c l.mass (Real.sqrt (V3.dot (mom l) (mom l))) * l.mass)) with hfy
  set fz := (pos l).z + h * ((mom l).z / (gammaPnorm c l.mass (Real.sqrt (V3.dot (mom l) (mom l))) * l.mass)) with hfz
  have ex : (rpz2xyz ⟨l.r, l.phi, l.z⟩).x + (vecRpz2xyz ⟨l.pr, l.pphi, l.pz⟩ l.phi).x * h /
      (gammaPnorm c l.mass (V3.norm Real.sqrt ⟨l.pr, l.pphi, l.pz⟩) * l.mass) = fx := by
    rw [norm_mom, hfx]; unfold pos mom; ring
  have ey : (rpz2xyz ⟨l.r, l.phi, l.z⟩).y + (vecRpz2xyz ⟨l.pr, l.pphi, l.pz⟩ l.phi).y * h /
      (gammaPnorm c l.mass (V3.norm Real.sqrt ⟨l.pr, l.pphi, l.pz⟩) * l.mass) = fy := by
    rw [norm_mom, hfy]; unfold pos mom; ring
  have ez : (rpz2xyz ⟨l.r, l.phi, l.z⟩).z + (vecRpz2xyz ⟨l.pr, l.pphi, l.pz⟩ l.phi).z * h /
      (gammaPnorm c l.mass (V3.norm Real.sqrt ⟨l.pr, l.pphi, l.pz⟩) * l.mass) = fz := by
    rw [norm_mom, hfz]; unfold pos mom; ring
  obtain ⟨c1, c2⟩ := cumulative l.r l.phi fx fy hr
  constructor
  · have hl : line c l.mass (pos l) (mom l) h = ⟨fx, fy, fz⟩ := rfl
    rw [hl]
    clear hl
    clear_value fx fy fz
    unfold pos move
    simp only [ex, ey, ez]
    simp only [rpz2xyz, V3.mk.injEq]
    exact ⟨c1, c2, trivial⟩
  · unfold mom move
    simp only []
    generalize l.phi + atan2 _ _ = f
    have h := (C44.vec_round_trips (vecRpz2xyz ⟨l.pr, l.pphi, l.pz⟩ l.phi) f).2
    exact h

/-- The marker meets the wall on the way from `l0` to `l`, as far as this is looked at. -/
def Hits (e : Env P) (l0 l : Lane) : Prop := l.shine = true ∧ (e.wall ⟨l0.r, l0.phi, l0.z⟩ ⟨l.r, l.phi, l.z⟩).1 > 0

theorem wallCheck_spec (e : Env P) (l0 l : Lane) :
    (Hits e l0 l → wallCheck e l0 l =
      let hit := e.wall ⟨l0.r, l0.phi, l0.z⟩ ⟨l.r, l.phi, l.z⟩
      { l with time := l0.time + hit.2 * (l.time - l0.time), r := l0.r + hit.2 * (l.r - l0.r), phi := l0.phi + hit.2 * (l.phi - l0.phi),
               z := l0.z + hit.2 * (l.z - l0.z), walltile := hit.1, endcond := l.endcond ||| EndCond.wall, running := false }) ∧
    (¬ Hits e l0 l → wallCheck e l0 l = l) := by
  constructor
  · rintro ⟨h1, h2⟩
    unfold wallCheck
    simp only [h1, if_true]
    rw [if_pos h2]
  · intro h
    unfold wallCheck
    by_cases hs : l.shine = true
    · simp only [hs, if_true]
      rw [if_neg (fun hc => h ⟨hs, hc⟩)]
    · simp [hs]

open Classical in
/-- End conditions and the other results of the checks. -/
theorem checks_spec (e : Env P) (l0 l : Lane) (hec : l.endcond = 0) :
    ((checks e l0 l).endcond.testBit 3 = true ↔ Hits e l0 l) ∧
    ((checks e l0 l).endcond.testBit 0 = true ↔ 1e-3 < l.mileage) ∧
    ((checks e l0 l).endcond.testBit 11 = true ↔ l.remaining < l.threshold) ∧
    ((checks e l0 l).charge = if l.remaining < l.threshold then e.e else l.charge) ∧
    ((checks e l0 l).running = true ↔ l.running = true ∧ ¬ Hits e l0 l ∧ l.mileage ≤ 1e-3 ∧ l.threshold ≤ l.remaining) ∧
    ((checks e l0 l).running = true → checks e l0 l = l) ∧ (checks e l0 l).err = l.err ∧ (checks e l0 l).mileage = l.mileage := by
  have bits : ∀ x y z : Bool,
      (((0 ||| (if x then 8 else 0)) ||| (if y then 1 else 0)) ||| (if z then 0x800 else 0) : Nat).testBit 3 = x ∧
      (((0 ||| (if x then 8 else 0)) ||| (if y then 1 else 0)) ||| (if z then 0x800 else 0) : Nat).testBit 0 = y ∧
      (((0 ||| (if x then 8 else 0)) ||| (if y then 1 else 0)) ||| (if z then 0x800 else 0) : Nat).testBit 11 = z := by decide
  obtain ⟨w, hw1, hw2, hw3, hw4, hw5, hw6, hw7⟩ : ∃ w, wallCheck e l0 l = w ∧ w.endcond = 0 ||| (if decide (Hits e l0 l) then 8 else 0) ∧
      w.mileage = l.mileage ∧ w.remaining = l.remaining ∧ w.threshold = l.threshold ∧ w.charge = l.charge ∧ w.err = l.err ∧
      (w.running = true ↔ l.running = true ∧ ¬ Hits e l0 l) ∧ (¬ Hits e l0 l → w = l) := by
    by_cases hh : Hits e l0 l
    · exact ⟨_, (wallCheck_spec e l0 l).1 hh, by simp [hh, hec, EndCond.wall], rfl, rfl, rfl, rfl, rfl, by simp [hh], by simp [hh]⟩
    · exact ⟨_, (wallCheck_spec e l0 l).2 hh, by simp [hh, hec], rfl, rfl, rfl, rfl, rfl, by simp [hh], fun _ => rfl⟩
  obtain ⟨hw7, hw8, hw9⟩ := hw7
  have hec' : (checks e l0 l).endcond = ((0 ||| (if decide (Hits e l0 l) then 8 else 0)) ||| (if decide (1e-3 < l.mileage) then 1 else 0)) |||
      (if decide (l.remaining < l.threshold) then 0x800 else 0) := by
    unfold checks ionCheck limitCheck
    rw [hw1]
    by_cases hm : w.mileage > 1e-3 <;> by_cases ht : w.remaining < w.threshold <;>
      simp [hw2, hm, ht, ← hw3, ← hw4, ← hw5, EndCond.tlim, EndCond.ioniz]
  obtain ⟨b1, b2, b3⟩ := bits (decide (Hits e l0 l)) (decide (1e-3 < l.mileage)) (decide (l.remaining < l.threshold))
  rw [← hec'] at b1 b2 b3
  refine ⟨by rw [b1, decide_eq_true_iff], by rw [b2, decide_eq_true_iff], by rw [b3, decide_eq_true_iff], ?_⟩
  clear b1 b2 b3 hec'
  rw [← hw3, ← hw4, ← hw5, ← hw6, ← hw7]
  unfold checks ionCheck limitCheck
  rw [hw1]
  by_cases hm : w.mileage > 1e-3
  · have hm' : ¬ w.mileage ≤ 1e-3 := not_le.2 hm
    by_cases ht : w.remaining < w.threshold
    · simp only [if_pos hm, if_pos ht]
      exact ⟨one_mul _, by simp [hm'], by simp, (by trivial), (by trivial)⟩
    · simp only [if_pos hm, if_neg ht]
      exact ⟨(by trivial), by simp [hm'], by simp, (by trivial), (by trivial)⟩
  · have hm' : w.mileage ≤ 1e-3 := not_lt.1 hm
    by_cases ht : w.remaining < w.threshold
    · have ht' : ¬ w.threshold ≤ w.remaining := not_le.2 ht
      simp only [if_neg hm, if_pos ht]
      exact ⟨one_mul _, by simp [ht'], by simp, (by trivial), (by trivial)⟩
    · have ht' : w.threshold ≤ w.remaining := not_lt.1 ht
      simp only [if_neg hm, if_neg ht]
      exact ⟨(by trivial), by rw [hw8]; simp [hm', ht'], fun hr => hw9 (hw8.1 hr).2, (by trivial), (by trivial)⟩

/-- The lane after `n` steps. -/
noncomputable def after (e : Env P) (h : ℝ) (l : Lane) (n : Nat) : Lane := (step e h)^[n] l

theorem after_succ (e : Env P) (h : ℝ) (l : Lane) (n : Nat) : after e h l (n + 1) = step e h (after e h l n) :=
  Function.iterate_succ_apply' _ _ _

/-- Kinetic energy of a lane. -/
noncomputable def ekin (e : Env P) (l : Lane) : ℝ := ekinPnorm e.c l.mass (Real.sqrt (V3.dot (mom l) (mom l)))

/-- The radial coordinate and the ionisation rate (electron density times rate coefficient) at the point reached by a step that starts
from the lane `l`. -/
def Seen (e : Env P) (h : ℝ) (l : Lane) (rho q : ℝ) : Prop :=
  e.rho (move e.c h l).r (move e.c h l).phi (move e.c h l).z l.time = .ok rho ∧
  ∃ p s, e.plasma rho (move e.c h l).r (move e.c h l).phi (move e.c h l).z l.time = .ok p ∧ e.bms (ekin e l) p = .ok s ∧ q = e.ne p * s

/-- The lane at the new point, before the end conditions are checked. -/
noncomputable def arrive (e : Env P) (h : ℝ) (l : Lane) (rho q : ℝ) : Lane :=
  { move e.c h l with shine := l.shine || (l.rho.elim false (fun r => decide (r ≤ 1)) && decide (1 < rho)), rho := some rho,
                      remaining := l.remaining * Real.exp (-q * h) }

theorem arrive_fields (e : Env P) (h : ℝ) (l : Lane) (rho q : ℝ) :
    pos (arrive e h l rho q) = pos (move e.c h l) ∧ mom (arrive e h l rho q) = mom (move e.c h l) ∧ (arrive e h l rho q).mass = l.mass ∧
    (arrive e h l rho q).mileage = l.mileage + h ∧ (arrive e h l rho q).time = l.time ∧ (arrive e h l rho q).threshold = l.threshold ∧
    (arrive e h l rho q).endcond = l.endcond ∧ (arrive e h l rho q).charge = l.charge ∧ (arrive e h l rho q).err = l.err ∧
    (arrive e h l rho q).running = l.running ∧ (arrive e h l rho q).remaining = l.remaining * Real.exp (-q * h) ∧
    (arrive e h l rho q).rho = some rho :=
  ⟨rfl, rfl, rfl, rfl, rfl, rfl, rfl, rfl, rfl, rfl, rfl, rfl⟩

/-- A step from a running lane in terms of the data it finds. -/
theorem step_seen (e : Env P) (h : ℝ) (l : Lane) (hrun : l.running = true) {rho q : ℝ} (hs : Seen e h l rho q) :
    step e h l = checks e l (arrive e h l rho q) := by
  obtain ⟨h1, p, s, h2, h3, rfl⟩ := hs
  have hek : ekin e l = ekinPnorm e.c l.mass (V3.norm Real.sqrt ⟨l.pr, l.pphi, l.pz⟩) := by rw [norm_mom]; rfl
  rw [hek] at h3
  unfold step
  rw [if_pos hrun]
  have ht : (move e.c h l).time = l.time := rfl
  simp only [ht, h1]
  unfold rate
  simp only [ht, h2, h3]
  rfl

/-- A step that leaves the marker running found data everywhere. -/
theorem running_seen (e : Env P) (h : ℝ) (l : Lane) (hrun : l.running = true) (hr : (step e h l).running = true) : ∃ rho q, Seen e h l rho q := by
  have ht : (move e.c h l).time = l.time := rfl
  unfold step at hr
  rw [if_pos hrun] at hr
  have hek : ekin e l = ekinPnorm e.c l.mass (V3.norm Real.sqrt ⟨l.pr, l.pphi, l.pz⟩) := by rw [norm_mom]; rfl
  simp only [ht] at hr
  cases h1 : e.rho (move e.c h l).r (move e.c h l).phi (move e.c h l).z l.time with
  | error x => simp [h1] at hr
  | ok rho =>
    simp only [h1] at hr
    unfold rate at hr
    simp only [ht] at hr
    cases h2 : e.plasma rho (move e.c h l).r (move e.c h l).phi (move e.c h l).z l.time with
    | error x => simp [h2] at hr
    | ok p =>
      simp only [h2] at hr
      cases h3 : e.bms (ekinPnorm e.c l.mass (V3.norm Real.sqrt ⟨l.pr, l.pphi, l.pz⟩)) p with
      | error x => simp [h3] at hr
      | ok s => exact ⟨rho, _, h1, p, s, h2, by rw [hek]; exact h3, rfl⟩

theorem running_before {e : Env P} {h : ℝ} {l : Lane} {n : Nat} (hr : (after e h l (n + 1)).running = true) : (after e h l n).running = true := by
  by_contra hc
  rw [after_succ] at hr
  unfold step at hr
  rw [if_neg hc] at hr
  exact hc hr

theorem running_of_after {e : Env P} {h : ℝ} {l : Lane} {n : Nat} (hr : (after e h l n).running = true) : ∀ k ≤ n, (after e h l k).running = true := by
  induction n with
  | zero => intro k hk; obtain rfl : k = 0 := by omega
            exact hr
  | succ n ih =>
    intro k hk
    rcases Nat.lt_succ_iff_lt_or_eq.1 (Nat.lt_succ_of_le hk) with h' | h'
    · exact ih (running_before hr) k (by omega)
    · subst h'; exact hr

/-- One step of a running marker: either it runs on and is at the new point, or it is not running any more. -/
theorem step_running {e : Env P} {h : ℝ} {a : Lane} (ha : a.running = true) (hec : a.endcond = 0) (hr : (step e h a).running = true) :
    ∃ rho q, Seen e h a rho q ∧ step e h a = arrive e h a rho q ∧ ¬ Hits e a (arrive e h a rho q) ∧ a.mileage + h ≤ 1e-3 ∧
      a.threshold ≤ a.remaining * Real.exp (-q * h) := by
  obtain ⟨rho, q, hs⟩ := running_seen e h a ha hr
  have f := arrive_fields e h a rho q
  obtain ⟨-, -, -, -, c5, c6, -⟩ := checks_spec e a (arrive e h a rho q) (f.2.2.2.2.2.2.1.trans hec)
  rw [step_seen e h a ha hs] at hr ⊢
  exact ⟨rho, q, hs, c6 hr, (c5.1 hr).2.1, (c5.1 hr).2.2.1, (c5.1 hr).2.2.2⟩

/-- As long as a marker is running, its mileage is the time it has flown, its time is that of the injection, and no end condition has
been set. -/
theorem clock (e : Env P) (h : ℝ) (l : Lane) (hec : l.endcond = 0) (n : Nat) (hr : (after e h l n).running = true) :
    (after e h l n).mileage = l.mileage + n * h ∧ (after e h l n).time = l.time ∧ (after e h l n).endcond = 0 ∧
    (0 < n → l.mileage + n * h ≤ 1e-3) := by
  induction n with
  | zero => simp [after, hec]
  | succ n ih =>
    have hn := running_before hr
    obtain ⟨i1, i2, i3, -⟩ := ih hn
    rw [after_succ] at hr ⊢
    generalize after e h l n = a at *
    obtain ⟨rho, q, -, ha, -, hm, -⟩ := step_running hn i3 hr
    obtain ⟨-, -, -, f4, f5, -, f7, -⟩ := arrive_fields e h a rho q
    have hc : a.mileage + h = l.mileage + ((n : ℝ) + 1) * h := by rw [i1]; ring
    rw [ha, f4, f5, f7]
    push_cast
    exact ⟨hc, i2, i3, fun _ => hc ▸ hm⟩

/-- Tracing ends: once the time since injection exceeds a millisecond, the marker is not running any more. -/
theorem ends (e : Env P) (h : ℝ) (l : Lane) (hec : l.endcond = 0) (n : Nat) (hn : 0 < n) (hlong : 1e-3 < l.mileage + n * h) :
    (after e h l n).running = false := by
  by_contra hc
  have := (clock e h l hec n (by simpa using hc)).2.2.2 hn
  linarith

/-- As long as a marker is running, it has moved along the straight line of its velocity, with unchanged Cartesian momentum and
mass; its mileage is the time it has flown, and its time is that of the injection. -/
theorem straight (e : Env P) (h : ℝ) (l : Lane) (hec : l.endcond = 0) (n : Nat) (hr : (after e h l n).running = true)
    (haxis : ∀ k < n, 0 < (after e h l k).r) :
    pos (after e h l n) = line e.c l.mass (pos l) (mom l) (n * h) ∧ mom (after e h l n) = mom l ∧ (after e h l n).mass = l.mass ∧
    (after e h l n).mileage = l.mileage + n * h ∧ (after e h l n).time = l.time ∧ (after e h l n).threshold = l.threshold ∧
    (after e h l n).endcond = l.endcond ∧ (after e h l n).charge = l.charge ∧ (after e h l n).err = l.err := by
  induction n with
  | zero => simp [after, line]
  | succ n ih =>
    have hn := running_before hr
    obtain ⟨i1, i2, i3, i4, i5, i6, i7, i8, i9⟩ := ih hn (fun k hk => haxis k (by omega))
    have hax := haxis n (by omega)
    rw [after_succ] at hr ⊢
    generalize after e h l n = a at *
    obtain ⟨rho, q, -, ha, -⟩ := step_running hn (i7.trans hec) hr
    obtain ⟨f1, f2, f3, f4, f5, f6, f7, f8, f9, -⟩ := arrive_fields e h a rho q
    obtain ⟨m1, m2⟩ := move_spec e.c h a hax
    rw [ha, f1, f2, f3, f4, f5, f6, f7, f8, f9, m1, m2, i1, i2, i3, i4]
    refine ⟨?_, rfl, rfl, by push_cast; ring, i5, i6, i7, i8, i9⟩
    unfold line
    push_cast
    simp only [V3.mk.injEq]
    refine ⟨by ring, by ring, by ring⟩

/-- The remaining fraction of a running marker is the exponential of minus the rates met so far times the time step, and it has never
been below the threshold. -/
theorem attenuation (e : Env P) (h : ℝ) (l : Lane) (hec : l.endcond = 0) (n : Nat) (hr : (after e h l n).running = true) (q rho : Nat → ℝ)
    (hs : ∀ k < n, Seen e h (after e h l k) (rho k) (q k)) :
    (after e h l n).remaining = l.remaining * Real.exp (-h * ∑ k ∈ Finset.range n, q k) ∧
    (∀ k < n, l.threshold ≤ l.remaining * Real.exp (-h * ∑ j ∈ Finset.range (k + 1), q j)) ∧ (after e h l n).threshold = l.threshold ∧
    (after e h l n).endcond = 0 := by
  induction n with
  | zero => simp [after, hec]
  | succ n ih =>
    have hn := running_before hr
    obtain ⟨i1, i2, i3, i4⟩ := ih hn (fun k hk => hs k (by omega))
    have hsn := hs n (by omega)
    rw [after_succ] at hr ⊢
    generalize after e h l n = a at hn i1 i3 i4 hsn hr ⊢
    obtain ⟨rho', q', hs', ha, -, -, ht⟩ := step_running hn i4 hr
    have hq : q' = q n := by
      obtain ⟨a1, p1, s1, a2, a3, rfl⟩ := hs'
      obtain ⟨b1, p2, s2, b2, b3, b4⟩ := hsn
      rw [a1] at b1
      rw [← Except.ok.inj b1, a2] at b2
      rw [← Except.ok.inj b2, a3] at b3
      rw [b4, ← Except.ok.inj b2, Except.ok.inj b3]
    subst hq
    obtain ⟨-, -, -, -, -, f6, f7, -, -, -, f11, -⟩ := arrive_fields e h a rho' (q n)
    have hx : a.remaining * Real.exp (-q n * h) = l.remaining * Real.exp (-h * ∑ k ∈ Finset.range (n + 1), q k) := by
      rw [i1, Finset.sum_range_succ, mul_assoc, ← Real.exp_add]; congr 2; ring
    rw [ha, f6, f7, f11, hx]
    refine ⟨rfl, fun k hk => ?_, i3, i4⟩
    rcases Nat.lt_succ_iff_lt_or_eq.1 hk with h' | h'
    · exact i2 k h'
    · subst h'; rw [← i3, ← hx]; exact ht

/-- The next step of a running marker that finds its data ionises it if and only if the remaining fraction falls below the threshold:
then it stops with this end condition, charged; otherwise the condition is not set and the charge is as before. -/
theorem ionised_iff (e : Env P) (h : ℝ) (l : Lane) (hec : l.endcond = 0) (n : Nat) (hr : (after e h l n).running = true) (q rho : Nat → ℝ)
    (hs : ∀ k < n + 1, Seen e h (after e h l k) (rho k) (q k)) :
    let f := after e h l (n + 1)
    let x := l.remaining * Real.exp (-h * ∑ k ∈ Finset.range (n + 1), q k)
    (f.endcond.testBit 11 = true ↔ x < l.threshold) ∧ (x < l.threshold → f.charge = e.e ∧ f.running = false) ∧
    (l.threshold ≤ x → f.charge = (after e h l n).charge) := by
  intro f x
  obtain ⟨i1, -, i3, i4⟩ := attenuation e h l hec n hr q rho (fun k hk => hs k (by omega))
  have hsn := hs n (by omega)
  have hf : f = step e h (after e h l n) := after_succ e h l n
  rw [hf]
  clear_value f
  clear hf
  generalize after e h l n = a at *
  rw [step_seen e h a hr hsn]
  obtain ⟨-, -, -, -, -, f6, f7, f8, -, -, f11, -⟩ := arrive_fields e h a (rho n) (q n)
  have hx : a.remaining * Real.exp (-q n * h) = x := by
    rw [i1]; simp only [x]; rw [Finset.sum_range_succ, mul_assoc, ← Real.exp_add]; congr 2; ring
  obtain ⟨-, -, c3, c4, c5, -⟩ := checks_spec e a (arrive e h a (rho n) (q n)) (f7.trans i4)
  rw [f6, f11, hx, i3] at c3 c4 c5
  refine ⟨c3, fun hlt => ⟨by rw [c4, if_pos hlt], ?_⟩, fun hle => by rw [c4, if_neg (not_lt.2 hle), f8]⟩
  by_contra hc
  have := (c5.1 (by simpa using hc)).2.2.2
  exact absurd hlt (not_lt.2 this)

/-! ### The law of attenuation -/

/-- There are data all along the way of the marker and no wall, whatever the random threshold. -/
def Free (e : Env P) (h : ℝ) (l : Lane) (n : Nat) (rho q : Nat → ℝ) : Prop :=
  ∀ u : ℝ, ∀ k < n, (after e h { l with threshold := u } k).running = true →
    Seen e h (after e h { l with threshold := u } k) (rho k) (q k) ∧
    ¬ Hits e (after e h { l with threshold := u } k) (arrive e h (after e h { l with threshold := u } k) (rho k) (q k))

/-- With rates that are not negative, a free marker is still neutral after `n` steps iff its threshold is at most the exponential of
minus the sum of the rates times the time step. -/
theorem survives_iff (e : Env P) {h : ℝ} (hh : 0 ≤ h) (l : Lane) (hrun : l.running = true) (hec : l.endcond = 0) (hrem : l.remaining = 1)
    (hmil : l.mileage = 0) (n : Nat) (rho q : Nat → ℝ) (hq : ∀ k, 0 ≤ q k) (hfree : Free e h l n rho q) (hn : n * h ≤ 1e-3) {u : ℝ} (hu : u ≤ 1) :
    (after e h { l with threshold := u } n).running = true ↔ u ≤ Real.exp (-h * ∑ k ∈ Finset.range n, q k) := by
  induction n with
  | zero => simpa [after, hrun] using hu
  | succ n ih =>
    have hnh : (n : ℝ) * h ≤ 1e-3 := by push_cast at hn; nlinarith
    have ih := ih (fun u k hk => hfree u k (by omega)) hnh
    have hsee : (after e h { l with threshold := u } n).running = true → ∀ k < n + 1, Seen e h (after e h { l with threshold := u } k) (rho k) (q k) :=
      fun hr k hk => (hfree u k hk (running_of_after hr k (by omega))).1
    constructor
    · intro hr
      have := (attenuation e h { l with threshold := u } hec (n + 1) hr q rho (hsee (running_before hr))).2.1 n (by omega)
      simpa [hrem] using this
    · intro hle
      have hmono : Real.exp (-h * ∑ k ∈ Finset.range (n + 1), q k) ≤ Real.exp (-h * ∑ k ∈ Finset.range n, q k) := by
        apply Real.exp_le_exp.2
        rw [Finset.sum_range_succ]
        nlinarith [mul_nonneg hh (hq n)]
      have hr := ih.2 (hle.trans hmono)
      obtain ⟨i1, -, i3, i4⟩ := attenuation e h { l with threshold := u } hec n hr q rho (fun k hk => hsee hr k (by omega))
      obtain ⟨c1, -⟩ := clock e h { l with threshold := u } hec n hr
      obtain ⟨hs, hw⟩ := hfree u n (by omega) hr
      rw [after_succ]
      generalize after e h { l with threshold := u } n = a at hr i1 i3 i4 c1 hs hw ⊢
      rw [step_seen e h a hr hs]
      obtain ⟨-, -, -, f4, -, f6, f7, -, -, f10, f11, -⟩ := arrive_fields e h a (rho n) (q n)
      obtain ⟨-, -, -, -, c5, -⟩ := checks_spec e a (arrive e h a (rho n) (q n)) (f7.trans i4)
      rw [c5, f4, f6, f10, f11]
      refine ⟨hr, hw, ?_, ?_⟩
      · rw [c1]
        simp only [hmil]
        push_cast at hn
        linarith
      · rw [i1, i3]
        simp only [hrem, one_mul]
        rw [← Real.exp_add]
        refine hle.trans (le_of_eq ?_)
        congr 1
        rw [Finset.sum_range_succ]; ring

/-- For a threshold that is uniformly distributed on the unit interval, the probability that a free marker is still neutral after `n`
steps is the exponential of minus the sum of the rates met times the time step. -/
theorem law (e : Env P) {h : ℝ} (hh : 0 ≤ h) (l : Lane) (hrun : l.running = true) (hec : l.endcond = 0) (hrem : l.remaining = 1)
    (hmil : l.mileage = 0) (n : Nat) (rho q : Nat → ℝ) (hq : ∀ k, 0 ≤ q k) (hfree : Free e h l n rho q) (hn : n * h ≤ 1e-3) :
    MeasureTheory.volume {u : ℝ | u ∈ Set.Icc (0 : ℝ) 1 ∧ (after e h { l with threshold := u } n).running = true} =
      ENNReal.ofReal (Real.exp (-h * ∑ k ∈ Finset.range n, q k)) := by
  have hle : Real.exp (-h * ∑ k ∈ Finset.range n, q k) ≤ 1 := by
    rw [Real.exp_le_one_iff]
    nlinarith [mul_nonneg hh (Finset.sum_nonneg (fun k (_ : k ∈ Finset.range n) => hq k))]
  have : {u : ℝ | u ∈ Set.Icc (0 : ℝ) 1 ∧ (after e h { l with threshold := u } n).running = true} =
      Set.Icc 0 (Real.exp (-h * ∑ k ∈ Finset.range n, q k)) := by
    ext u
    constructor
    · rintro ⟨⟨h0, h1⟩, h2⟩
      exact ⟨h0, (survives_iff e hh l hrun hec hrem hmil n rho q hq hfree hn h1).1 h2⟩
    · rintro ⟨h0, h1⟩
      exact ⟨⟨h0, h1.trans hle⟩, (survives_iff e hh l hrun hec hrem hmil n rho q hq hfree hn (h1.trans hle)).2 h1⟩
  rw [this, Real.volume_Icc, sub_zero]

/-! ### A beam of unit momentum along `x` in a uniform plasma -/

/-- Uniform plasma, no wall. -/
noncomputable def exEnv : Env Unit where
  rho _ _ _ _ := .ok (1 / 2)
  plasma _ _ _ _ _ := .ok ()
  bms _ _ := .ok 3
  ne _ := 2
  wall _ _ := (0, 0)
  c := 1
  e := 1

/-- A marker on the `x` axis that moves outwards. -/
noncomputable def exLane : Lane where
  r := 1
  phi := 0
  z := 0
  pr := 1
  pphi := 0
  pz := 0
  mass := 1
  charge := 0
  time := 0
  mileage := 0
  rho := some (1 / 2)
  remaining := 1
  threshold := 1 / 2
  shine := false
  endcond := 0
  walltile := 0
  err := 0
  running := true

theorem exFree (n : Nat) (h : ℝ) : Free exEnv h exLane n (fun _ => 1 / 2) (fun _ => 6) := by
  intro u k _ _
  refine ⟨⟨rfl, (), 3, rfl, rfl, ?_⟩, ?_⟩
  · show (6 : ℝ) = 2 * 3
    norm_num
  · intro hc
    exact absurd hc.2 (by simp [exEnv])

example : MeasureTheory.volume {u : ℝ | u ∈ Set.Icc (0 : ℝ) 1 ∧ (after exEnv 1e-10 { exLane with threshold := u } 1000).running = true} =
    ENNReal.ofReal (Real.exp (-1e-10 * ∑ k ∈ Finset.range 1000, (6 : ℝ))) :=
  law exEnv (by norm_num) exLane rfl rfl rfl rfl 1000 (fun _ => 1 / 2) (fun _ => 6) (fun _ => by norm_num) (exFree _ _) (by norm_num)

end Ascot.C100
