import Mathlib.Tactic.NormNum
import Mathlib.Tactic.Ring
import Mathlib.Tactic.Linarith
import Mathlib.Tactic.FieldSimp
import Mathlib.Tactic.Positivity
import Mathlib.Tactic.FinCases
import Verif.Model.MlStep

/-!
# C64: direction of field lines; C83: field-line steps
-/
set_option linter.unusedSectionVars false
set_option linter.unusedSimpArgs false

namespace Ascot.C64
open Ascot.Coord Ascot.RungeKutta Ascot.MlStep

/-- The velocity of a point with cylindrical coordinates that change at the rates `k`, in the local orthonormal frame. -/
def velocity (r : ℝ) (k : Fin 3 → ℝ) : V3 ℝ := ⟨k 0, r * k 1, k 2⟩

theorem norm_pos_of (B : V3 ℝ) (h : V3.norm Real.sqrt B ≠ 0) : 0 < V3.dot B B := by
  unfold V3.norm at h
  exact Real.sqrt_ne_zero'.mp h

theorem norm_sq (B : V3 ℝ) (h : 0 < V3.dot B B) : V3.norm Real.sqrt B * V3.norm Real.sqrt B = V3.dot B B :=
  Real.mul_self_sqrt h.le

/-- Multiple of a vector. -/
def times (c : ℝ) (v : V3 ℝ) : V3 ℝ := ⟨c * v.x, c * v.y, c * v.z⟩

/-- The simulation traces a field line with unit speed: along the field for a non-negative pitch of the simulated marker,
against it for a negative one. -/
theorem tangent_unit (s : Ml) (B : V3 ℝ) (r : ℝ) (k : Fin 3 → ℝ) (h : tangent (direction s) B r = some k) :
    let v := velocity r k
    V3.dot v v = 1 ∧ (0 ≤ s.pitch → v = times (1 / V3.norm Real.sqrt B) B) ∧
      (s.pitch < 0 → v = times (-(1 / V3.norm Real.sqrt B)) B) := by
  unfold tangent at h
  dsimp only at h
  split at h
  · cases h
  · next h0 =>
    push Not at h0
    obtain ⟨h1, h2⟩ := h0
    have hn : V3.norm Real.sqrt B ≠ 0 := left_ne_zero_of_mul h1
    have hd : direction s * direction s = 1 := by unfold direction; split_ifs <;> norm_num
    have hd0 : direction s ≠ 0 := right_ne_zero_of_mul h1
    have hB := norm_sq B (norm_pos_of B hn)
    cases h
    have hv : velocity r ![B.x / (V3.norm Real.sqrt B * direction s), B.y / (V3.norm Real.sqrt B * direction s) / r,
        B.z / (V3.norm Real.sqrt B * direction s)] = times (1 / (V3.norm Real.sqrt B * direction s)) B := by
      unfold velocity times
      simp only [Matrix.cons_val_zero, Matrix.cons_val_one, Matrix.cons_val]
      congr 1
      · ring
      · field_simp
      · ring
    refine ⟨?_, ?_, ?_⟩
    · rw [hv]
      have : V3.dot (times (1 / (V3.norm Real.sqrt B * direction s)) B) (times (1 / (V3.norm Real.sqrt B * direction s)) B) =
          V3.dot B B / ((V3.norm Real.sqrt B * V3.norm Real.sqrt B) * (direction s * direction s)) := by
        unfold times V3.dot
        field_simp
      rw [this, hB, hd, mul_one]
      exact div_self (norm_pos_of B hn).ne'
    · intro hp
      rw [hv, direction, if_neg (not_lt.mpr hp), mul_one]
    · intro hp
      rw [hv, direction, if_pos hp]
      congr 1
      field_simp

/-- The pitch of the simulated marker for an input marker: the sign of the input is lost. -/
theorem direction_lost : ¬∀ p : ℝ, p < 0 → statePitch (inputPpar p) < 0 := by
  intro h
  have := h (-1) (by norm_num)
  norm_num [statePitch, inputPpar] at this

/-- Every input marker is traced along the field. -/
theorem always_along (p : ℝ) : statePitch (inputPpar p) = 1 := by
  unfold statePitch inputPpar
  split_ifs with h1 h2 <;> norm_num at *

/-- Markers with a non-negative pitch have the direction that was asked for, and if a simulated marker is taken out of the
simulation and put in again it keeps its direction. -/
theorem direction_partial :
    (∀ p : ℝ, 0 ≤ p → 0 ≤ statePitch (inputPpar p)) ∧
    (∀ q : ℝ, (statePitch (finalPpar q) < 0 ↔ q < 0)) ∧ (∀ q : ℝ, q = 1 ∨ q = -1 → statePitch (finalPpar q) = q) := by
  refine ⟨fun p _ => by rw [always_along]; norm_num, fun q => ?_, fun q h => ?_⟩
  · unfold statePitch finalPpar
    split_ifs with h
    · constructor <;> intro h' <;> linarith
    · constructor <;> intro h' <;> linarith
  · rcases h with rfl | rfl <;> norm_num [statePitch, finalPpar]

theorem store_keeps {f : Fields} {h : ℝ} {s s' : Ml} {y : Fin 3 → ℝ} (hs : store f h s y = some s') :
    (s'.pitch = s.pitch ∧ s'.err = s.err ∧ s'.running = s.running ∧ s'.time = s.time) ∧ s'.y = y ∧
      f.BdB (y 0) (y 1) (y 2) (s.time + h) = .ok s'.jac := by
  unfold store at hs
  split at hs
  · cases hs
  · next j h1 =>
    split at hs
    · cases hs
    · cases hs
      exact ⟨⟨rfl, rfl, rfl, rfl⟩, rfl, h1⟩

/-- Tracing does not change the direction, the error flag or the running flag of a marker, nor its time, and the stored field
is that at the new position. -/
theorem step_keeps (f : Fields) (eps tol h n0 n : ℝ) (s s' : Ml) (hs : step f eps tol h n0 s = some (s', n)) :
    (s'.pitch = s.pitch ∧ s'.err = s.err ∧ s'.running = s.running ∧ s'.time = s.time) ∧
      (s.running = true → f.BdB (s'.y 0) (s'.y 1) (s'.y 2) (s.time + h) = .ok s'.jac) := by
  unfold step at hs
  split at hs
  · split at hs
    · cases hs
    · split at hs
      · cases hs
      · split at hs
        · cases hs
        · next k _ n h1 s1 h2 =>
          cases hs
          obtain ⟨h3, h4, h5⟩ := store_keeps h2
          exact ⟨h3, fun _ => by rw [h4]; exact h5⟩
  · next hr =>
    cases hs
    exact ⟨⟨rfl, rfl, rfl, rfl⟩, fun h => absurd h hr⟩

theorem stepMhd_keeps (f : Fields) (eps tol h n0 n : ℝ) (s s' : Ml) (hs : stepMhd f eps tol h n0 s = some (s', n)) :
    (s'.pitch = s.pitch ∧ s'.err = s.err ∧ s'.running = s.running ∧ s'.time = s.time) ∧
      (s.running = true → f.BdB (s'.y 0) (s'.y 1) (s'.y 2) (s.time + h) = .ok s'.jac) := by
  unfold stepMhd at hs
  split at hs
  · split at hs
    · cases hs
    · split at hs
      · cases hs
      · split at hs
        · cases hs
        · next k _ n h1 s1 h2 =>
          cases hs
          obtain ⟨h3, h4, h5⟩ := store_keeps h2
          exact ⟨h3, fun _ => by rw [h4]; exact h5⟩
  · next hr =>
    cases hs
    exact ⟨⟨rfl, rfl, rfl, rfl⟩, fun h => absurd h hr⟩

/-- Stages of the opposite direction. -/
def neg (k : Stages (Fin 3)) : Stages (Fin 3) := ⟨-k.k1, -k.k2, -k.k3, -k.k4, -k.k5, -k.k6⟩

theorem tangent_neg (d : ℝ) (B : V3 ℝ) (r : ℝ) : tangent (-d) B r = (tangent d B r).map fun k => -k := by
  unfold tangent
  dsimp only
  have : V3.norm Real.sqrt B * -d = -(V3.norm Real.sqrt B * d) := by ring
  rw [this]
  by_cases h : V3.norm Real.sqrt B * d = 0 ∨ r = 0
  · rw [if_pos h, if_pos (by simpa using h)]
    rfl
  · rw [if_neg h, if_neg (by simpa using h)]
    simp only [Option.map_some]
    congr 1
    funext j
    fin_cases j <;> simp [div_neg, neg_div]

theorem stages_neg {f g : ℝ → (Fin 3 → ℝ) → Except Fault (Fin 3 → ℝ)} {k1 : Fin 3 → ℝ} {t h : ℝ} {y : Fin 3 → ℝ} {k : Stages (Fin 3)}
    (hfg : ∀ t t' y k, f t y = .ok k → g t' y = .ok (-k)) (hk : stages f (.ok k1) t h y = .ok k) :
    stages g (.ok (-k1)) t (-h) y = .ok (neg k) := by
  unfold stages at hk
  dsimp only at hk
  split at hk
  · cases hk
  · next k2 h2 =>
  split at hk
  · cases hk
  · next k3 h3 =>
  split at hk
  · cases hk
  · next k4 h4 =>
  split at hk
  · cases hk
  · next k5 h5 =>
  split at hk
  · cases hk
  · next k6 h6 =>
  cases hk
  have ha : ∀ a b : Fin 3 → ℝ, (∀ j, b j = -a j) → advance y (-h) b = advance y h a := by
    intro a b hab
    funext j
    unfold advance
    rw [hab]
    ring
  unfold stages
  dsimp only
  rw [ha (fun j => 1 / 5 * k1 j) (fun j => 1 / 5 * (-k1) j) (fun j => by simp only [Pi.neg_apply]; ring), hfg _ (t + 1 / 5 * -h) _ _ h2]
  dsimp only
  rw [ha (fun j => 3 / 40 * k1 j + 9 / 40 * k2 j) (fun j => 3 / 40 * (-k1) j + 9 / 40 * (-k2) j) (fun j => by simp only [Pi.neg_apply]; ring), hfg _ (t + 3 / 10 * -h) _ _ h3]
  dsimp only
  rw [ha (fun j => 3 / 10 * k1 j + -9 / 10 * k2 j + 6 / 5 * k3 j) (fun j => 3 / 10 * (-k1) j + -9 / 10 * (-k2) j + 6 / 5 * (-k3) j) (fun j => by simp only [Pi.neg_apply]; ring),
    hfg _ (t + 3 / 5 * -h) _ _ h4]
  dsimp only
  rw [ha (fun j => -11 / 54 * k1 j + 5 / 2 * k2 j + -70 / 27 * k3 j + 35 / 27 * k4 j) (fun j => -11 / 54 * (-k1) j + 5 / 2 * (-k2) j + -70 / 27 * (-k3) j + 35 / 27 * (-k4) j) (fun j => by simp only [Pi.neg_apply]; ring),
    hfg _ (t + -h) _ _ h5]
  dsimp only
  rw [ha (fun j => 1631 / 55296 * k1 j + 175 / 512 * k2 j + 575 / 13824 * k3 j + 44275 / 110592 * k4 j + 253 / 4096 * k5 j) (fun j => 1631 / 55296 * (-k1) j + 175 / 512 * (-k2) j + 575 / 13824 * (-k3) j + 44275 / 110592 * (-k4) j + 253 / 4096 * (-k5) j)
    (fun j => by simp only [Pi.neg_apply]; ring), hfg _ (t + 7 / 8 * -h) _ _ h6]
  rfl

/-- In a field that does not depend on time, tracing against the field with step `h` arrives at the same point as tracing along
the field with step `-h`. -/
theorem reversed (f : Fields) (hst : ∀ r p z t t', f.B r p z t = f.B r p z t') (h : ℝ) (s : Ml) (q : ℝ) (hp : 0 ≤ s.pitch) (hq : q < 0)
    (k : Stages (Fin 3)) (hk : stages (stage f (direction s)) (stage0 (direction s) s) s.time h s.y = .ok k) :
    let s' := { s with pitch := q }
    ∃ k', stages (stage f (direction s')) (stage0 (direction s') s') s'.time (-h) s'.y = .ok k' ∧ rk5 s'.y (-h) k' = rk5 s.y h k := by
  intro s'
  have hd : direction s = 1 := if_neg (not_lt.mpr hp)
  have hd' : direction s' = -1 := if_pos hq
  rw [hd] at hk
  rw [hd']
  unfold stage0 at hk ⊢
  show ∃ k', stages (stage f (-1)) (match tangent (-1) ⟨s.jac.a.v, s.jac.b.v, s.jac.c.v⟩ (s.y 0) with
    | none => .error .nan
    | some k => .ok k) s.time (-h) s.y = .ok k' ∧ rk5 s.y (-h) k' = rk5 s.y h k
  rw [tangent_neg]
  cases ht : tangent 1 ⟨s.jac.a.v, s.jac.b.v, s.jac.c.v⟩ (s.y 0) with
  | none =>
    rw [ht] at hk
    unfold stages at hk
    cases hk
  | some k1 =>
    rw [ht] at hk
    refine ⟨neg k, stages_neg ?_ hk, ?_⟩
    · intro t t' y k hk
      unfold stage at hk ⊢
      rw [hst _ _ _ t' t]
      split at hk
      · cases hk
      · next B hB =>
        rw [tangent_neg]
        split at hk
        · cases hk
        · next k' h' =>
          rw [h']
          cases hk
          rfl
    · funext j
      unfold rk5 advance neg
      simp only [Pi.neg_apply]
      ring

/-- A failure to determine the flux label or the magnetic axis is not reported: the marker keeps running without error and
gets the flux label one. -/
theorem failure_unreported (f : Fields) (eps tol h n0 n : ℝ) (s s' : Ml) (hr : s.running = true) (he : s.err = 0)
    (hrho : ∀ x, ∃ e, f.rho x = .error e) (hs : step f eps tol h n0 s = some (s', n)) :
    s'.running = true ∧ s'.err = 0 ∧ s'.rho = 1 := by
  obtain ⟨⟨h1, h2, h3, h4⟩, -⟩ := step_keeps f eps tol h n0 n s s' hs
  refine ⟨by rw [h3, hr], by rw [h2, he], ?_⟩
  unfold step at hs
  rw [if_pos hr] at hs
  split at hs
  · cases hs
  · split at hs
    · cases hs
    · split at hs
      · cases hs
      · next k _ n h1 s1 h2 =>
        cases hs
        unfold store at h2
        split at h2
        · cases h2
        · split at h2
          · cases h2
          · next psi _ =>
            obtain ⟨e, he⟩ := hrho psi
            cases h2
            simp only [he]

/-- A field along the major radius at the beginning and along the axis afterwards, and no flux label. -/
noncomputable def kicked : Fields where
  B _ _ _ t := .ok (if t = 0 then ⟨1, 0, 0⟩ else ⟨0, 0, 1⟩)
  BdB _ _ _ _ := .ok ⟨⟨0, 0, 0, 0⟩, ⟨0, 0, 0, 0⟩, ⟨1, 0, 0, 0⟩⟩
  psi _ _ _ _ := .ok 0
  rho _ := .error 1
  axis _ := ((0, 0), 0)

/-- A field-line marker. -/
def line : Ml := ⟨![1, 0, 0], 1, 0, ⟨⟨1, 0, 0, 0⟩, ⟨0, 0, 0, 0⟩, ⟨0, 0, 0, 0⟩⟩, 0, 0, 0, true⟩

/-- The hypotheses of `failure_unreported` can be met. -/
theorem kicked_step : ∃ s' n, step kicked 1 1 1 0 line = some (s', n) := by
  have hd : direction line = 1 := by norm_num [direction, line]
  have h0 : stage0 1 line = .ok ![1, 0, 0] := by
    simp [stage0, tangent, line, V3.norm, V3.dot]
  have h1 : ∀ t y, t ≠ 0 → y 0 ≠ 0 → stage kicked 1 t y = .ok ![0, 0, 1] := by
    intro t y ht hy
    simp [stage, tangent, kicked, V3.norm, V3.dot, ht, hy]
  have hk : stages (stage kicked 1) (.ok ![1, 0, 0]) 0 1 line.y =
      .ok ⟨![1, 0, 0], ![0, 0, 1], ![0, 0, 1], ![0, 0, 1], ![0, 0, 1], ![0, 0, 1]⟩ := by
    unfold stages
    dsimp only
    rw [h1 _ _ (by norm_num) (by norm_num [advance, line])]
    dsimp only
    rw [h1 _ _ (by norm_num) (by norm_num [advance, line])]
    dsimp only
    rw [h1 _ _ (by norm_num) (by norm_num [advance, line])]
    dsimp only
    rw [h1 _ _ (by norm_num) (by norm_num [advance, line])]
    dsimp only
    rw [h1 _ _ (by norm_num) (by norm_num [advance, line])]
  unfold step
  rw [if_pos (show line.running = true from rfl), hd, h0]
  show ∃ s' n, (match stages (stage kicked 1) (.ok ![1, 0, 0]) 0 1 line.y with
    | .error _ => none
    | .ok k =>
      match nextMl 1 (errMl 1 1 line.y k / 1) with
      | none => none
      | some n =>
        match store kicked 1 line (rk5 line.y 1 k) with
        | none => none
        | some s' => some (s', n)) = some (s', n)
  rw [hk]
  dsimp only
  set e := errMl 1 1 line.y ⟨![1, 0, 0], ![0, 0, 1], ![0, 0, 1], ![0, 0, 1], ![0, 0, 1], ![0, 0, 1]⟩ / 1 with he
  have hpos : 0 < e := by
    have h2 : 0 < errOne 1 1 line.y ⟨![1, 0, 0], ![0, 0, 1], ![0, 0, 1], ![0, 0, 1], ![0, 0, 1], ![0, 0, 1]⟩ 0 := by
      norm_num [errOne, rk5, embedded, advance, line, abs_pos]
    rw [he, div_one]
    unfold errMl
    exact lt_of_lt_of_le h2 (le_trans (le_max_right _ _) (le_trans (le_max_left _ _) (le_max_left _ _)))
  have hn : ∃ n, nextMl 1 e = some n := by
    unfold nextMl
    split_ifs with h1 h2
    · exact absurd h2 hpos.ne'
    · exact ⟨_, rfl⟩
    · exact ⟨_, rfl⟩
  obtain ⟨n, hn⟩ := hn
  rw [hn]
  dsimp only
  unfold store
  exact ⟨_, _, rfl⟩

end Ascot.C64
