import Mathlib.Algebra.Order.Floor.Ring
import Mathlib.Tactic.NormNum
import Mathlib.Tactic.Ring
import Mathlib.Tactic.Linarith
import Mathlib.Tactic.FinCases
import Mathlib.Tactic.FieldSimp
import Mathlib.Tactic.Positivity
import Verif.Model.GcStep
import Verif.Model.MlStep

/-!
# C81: a failed guiding-center step is reported; C64: direction of field lines
-/
set_option linter.unusedSectionVars false
set_option linter.unusedSimpArgs false

namespace Ascot.C81
open Ascot.Coord Ascot.RungeKutta Ascot.Gceom Ascot.GcStep

/-- Error codes are not zero. -/
structure Codes (f : Fields) : Prop where
  BdB : ∀ r p z t e, f.BdB r p z t = .error e → e ≠ 0
  E : ∀ r p z t e, f.E r p z t = .error e → e ≠ 0
  psi : ∀ r p z t e, f.psi r p z t = .error e → e ≠ 0
  rho : ∀ x e, f.rho x = .error e → e ≠ 0
  mhd : ∀ r p z t e, f.mhd r p z t = .error e → e ≠ 0

/-- The marker `s'` is a healthy result of a step of length `h`: it runs without error, its position is physical and what is
stored about the field belongs to the new position and time. -/
structure Sound (f : Fields) (h : ℝ) (s s' : Gc) : Prop where
  running : s'.running = true
  err : s'.err = 0
  zeta : 0 ≤ s'.y 5 ∧ s'.y 5 < 2 * Real.pi
  field : f.BdB (s'.y 0) (s'.y 1) (s'.y 2) (s.time + h) = .ok s'.jac
  rho : ∃ psi, f.psi (s'.y 0) (s'.y 1) (s'.y 2) (s.time + h) = .ok psi ∧ f.rho psi = .ok s'.rho
  kept : s'.mass = s.mass ∧ s'.charge = s.charge ∧ s'.time = s.time

/-- The marker was stopped with an error code. -/
structure Stopped (s s' : Gc) : Prop where
  running : s'.running = false
  err : s'.err ≠ 0
  kept : s'.mass = s.mass ∧ s'.charge = s.charge ∧ s'.time = s.time

theorem wrapZeta_range (z : ℝ) : 0 ≤ wrapZeta z ∧ wrapZeta z < 2 * Real.pi := by
  have hp : (0 : ℝ) < 2 * Real.pi := by positivity
  have h1 : 0 ≤ Linint.fmod z (2 * Real.pi) := by
    unfold Linint.fmod
    have := Int.floor_le (z / (2 * Real.pi))
    rw [le_div_iff₀ hp] at this
    linarith
  have h2 : Linint.fmod z (2 * Real.pi) < 2 * Real.pi := by
    unfold Linint.fmod
    have := Int.lt_floor_add_one (z / (2 * Real.pi))
    rw [div_lt_iff₀ hp] at this
    linarith
  unfold wrapZeta
  dsimp only
  rw [if_neg (not_lt.mpr h1)]
  exact ⟨h1, h2⟩

/-- The stored gyroangle differs from the integrated one by whole turns. -/
theorem wrapZeta_turns (z : ℝ) : ∃ n : ℤ, wrapZeta z = z + n * (2 * Real.pi) := by
  have hp : (0 : ℝ) < 2 * Real.pi := by positivity
  have h1 : 0 ≤ Linint.fmod z (2 * Real.pi) := by
    unfold Linint.fmod
    have := Int.floor_le (z / (2 * Real.pi))
    rw [le_div_iff₀ hp] at this
    linarith
  unfold wrapZeta
  dsimp only
  rw [if_neg (not_lt.mpr h1)]
  refine ⟨-⌊z / (2 * Real.pi)⌋, ?_⟩
  unfold Linint.fmod
  push_cast
  ring

/-- After the position is placed, either everything is refreshed or the error is recorded. -/
theorem finish_cases (f : Fields) (hf : Codes f) (h : ℝ) (s : Gc) (y : Fin 6 → ℝ) (hr : s.running = true) (he : s.err = 0) :
    let s' := settle (finish f h s y).1 (finish f h s y).2
    (s'.y = (place s y).y) ∧ ((Sound f h s s' ∧ (finish f h s y).2 = 0) ∨ (Stopped s s' ∧ (finish f h s y).2 ≠ 0)) := by
  have hz : ∀ y, (place s y).y 5 = wrapZeta (y 5) := fun y => rfl
  have e1 : (place s y).running = s.running := rfl
  have e2 : (place s y).err = s.err := rfl
  have e3 : (place s y).mass = s.mass := rfl
  have e4 : (place s y).charge = s.charge := rfl
  have e5 : (place s y).time = s.time := rfl
  unfold finish refresh
  dsimp only
  split
  · next e h1 =>
    have := hf.BdB _ _ _ _ _ h1
    refine ⟨by simp [settle, this], Or.inr ⟨⟨by simp [settle, this], by simp [settle, this], by simp [settle, this, e3, e4, e5]⟩, this⟩⟩
  · next j h1 =>
    split
    · next e h2 =>
      have := hf.psi _ _ _ _ _ h2
      refine ⟨by simp [settle, this], Or.inr ⟨⟨by simp [settle, this], by simp [settle, this], by simp [settle, this, e3, e4, e5]⟩, this⟩⟩
    · next psi h2 =>
      split
      · next e h3 =>
        have := hf.rho _ _ h3
        refine ⟨by simp [settle, this], Or.inr ⟨⟨by simp [settle, this], by simp [settle, this], by simp [settle, this, e3, e4, e5]⟩, this⟩⟩
      · next rho h3 =>
        by_cases h0 : (f.axis ((place s y).y 1)).2 = 0
        · refine ⟨by simp [settle, h0], Or.inl ⟨⟨by simp [settle, h0, e1, hr], by simp [settle, h0, e2, he], ?_, ?_, ?_, ?_⟩, h0⟩⟩
          · simpa [settle, h0, hz] using wrapZeta_range (y 5)
          · simpa [settle, h0] using h1
          · exact ⟨psi, by simpa [settle, h0] using h2, by simpa [settle, h0] using h3⟩
          · simp [settle, h0, e3, e4, e5]
        · refine ⟨by simp [settle, h0], Or.inr ⟨⟨by simp [settle, h0], by simp [settle, h0], by simp [settle, h0, e3, e4, e5]⟩, h0⟩⟩

/-- The new phase-space position of a healthy marker is the given one up to whole turns of the gyroangle. -/
structure Placed (y : Fin 6 → ℝ) (s' : Gc) : Prop where
  same : ∀ j, j ≠ 5 → s'.y j = y j
  turns : ∃ n : ℤ, s'.y 5 = y 5 + n * (2 * Real.pi)

theorem placed_of {s s' : Gc} {y : Fin 6 → ℝ} (h : s'.y = (place s y).y) : Placed y s' := by
  refine ⟨?_, ?_⟩
  · intro j hj
    rw [h]
    exact if_neg hj
  · obtain ⟨n, hn⟩ := wrapZeta_turns (y 5)
    refine ⟨n, ?_⟩
    rw [h]
    exact hn

theorem raise_ne (a b c : Nat) (h : a ≠ 0) : Error.raise a b c ≠ 0 := by
  unfold Error.raise
  omega

/-- What a guiding-center step with a result `res` of the integrator may do to a marker: nothing else than placing it at
that result with consistent field data, or stopping it with an error; in the latter case an error of the integrator leaves
everything else unchanged. -/
inductive Outcome (bad : (Fin 6 → ℝ) → Prop) (f : Fields) (h : ℝ) (s : Gc) (res : Except Fault (Fin 6 → ℝ)) (s' : Gc) : Prop
  | moved (y : Fin 6 → ℝ) (hy : res = .ok y) (placed : Placed y s') (r : 0 < s'.y 0) (mu : 0 ≤ s'.y 4) (sound : Sound f h s s')
  | failed (e : Nat) (hy : res = .error (.err e)) (eq : s' = { s with err := e, running := false }) (ne : e ≠ 0)
  | unphysical (y : Fin 6 → ℝ) (hy : res = .ok y) (bad : bad y) (eq : s' = { s with err := s'.err, running := false }) (ne : s'.err ≠ 0)
  | outside (y : Fin 6 → ℝ) (hy : res = .ok y) (placed : Placed y s') (stop : Stopped s s')

theorem stepOf_outcome {bad : (Fin 6 → ℝ) → Prop} {check : (Fin 6 → ℝ) → Nat} (hbad : ∀ y, check y ≠ 0 ↔ bad y)
    (hgood : ∀ y, ¬bad y → 0 < y 0 ∧ 0 ≤ y 4) (f : Fields) (hf : Codes f) (h : ℝ) (s s' : Gc) (res : Except Fault (Fin 6 → ℝ)) (hr : s.running = true) (he : s.err = 0)
    (hres : ∀ e, res = .error (.err e) → e ≠ 0) (hs : stepOf f h s res check = some s') : Outcome bad f h s res s' := by
  unfold stepOf at hs
  split at hs
  · cases hs
  · next e =>
    have h0 := hres e rfl
    rw [settle, if_pos h0] at hs
    exact .failed e rfl (Option.some.inj hs).symm h0
  · next y =>
    split at hs
    · next hc =>
      rw [settle, if_pos hc] at hs
      have hs := (Option.some.inj hs).symm
      refine .unphysical y rfl ((hbad y).mp hc) ?_ ?_
      · rw [hs]
      · rw [hs]; exact hc
    · next hc =>
      have hb := hgood y fun h => hc ((hbad y).mpr h)
      have hs := (Option.some.inj hs).symm
      obtain ⟨hy, hd⟩ := finish_cases f hf h s y hr he
      rw [← hs] at hy hd
      have hp := placed_of hy
      rcases hd with ⟨hd, _⟩ | ⟨hd, _⟩
      · exact .moved y rfl hp (by rw [hp.same 0 (by decide)]; exact hb.1) (by rw [hp.same 4 (by decide)]; exact hb.2) hd
      · exact .outside y rfl hp hd

theorem orNan_err (o : Option (Fin 6 → ℝ)) (e : Nat) : orNan o ≠ .error (.err e) := by
  cases o <;> simp [orNan]

theorem rhsAt_err (C : Consts) (f : Fields) (hf : Codes f) (ald : ℝ) (s : Gc) (j : Jac) (t : ℝ) (y : Fin 6 → ℝ) (e : Nat)
    (h : rhsAt C f ald s j t y = .error (.err e)) : e ≠ 0 := by
  unfold rhsAt at h
  split at h
  · next e' h1 =>
    cases h
    exact hf.E _ _ _ _ _ h1
  · exact absurd h (orNan_err _ _)

theorem rhs_err (C : Consts) (f : Fields) (hf : Codes f) (ald : ℝ) (s : Gc) (t : ℝ) (y : Fin 6 → ℝ) (e : Nat)
    (h : rhs C f ald s t y = .error (.err e)) : e ≠ 0 := by
  unfold rhs at h
  split at h
  · next e' h1 =>
    cases h
    exact hf.BdB _ _ _ _ _ h1
  · exact rhsAt_err C f hf ald s _ t y e h

theorem rhsAtMhd_err (C : Consts) (f : Fields) (hf : Codes f) (ald : ℝ) (s : Gc) (j : Jac) (t : ℝ) (y : Fin 6 → ℝ) (e : Nat)
    (h : rhsAtMhd C f ald s j t y = .error (.err e)) : e ≠ 0 := by
  unfold rhsAtMhd at h
  split at h
  · next e' h1 =>
    cases h
    exact hf.E _ _ _ _ _ h1
  · split at h
    · next e' h1 =>
      cases h
      exact hf.mhd _ _ _ _ _ h1
    · exact absurd h (orNan_err _ _)

theorem rhsMhd_err (C : Consts) (f : Fields) (hf : Codes f) (ald : ℝ) (s : Gc) (t : ℝ) (y : Fin 6 → ℝ) (e : Nat)
    (h : rhsMhd C f ald s t y = .error (.err e)) : e ≠ 0 := by
  unfold rhsMhd at h
  split at h
  · next e' h1 =>
    cases h
    exact hf.BdB _ _ _ _ _ h1
  · exact rhsAtMhd_err C f hf ald s _ t y e h

theorem rk4_err {f : ℝ → (Fin 6 → ℝ) → Except Fault (Fin 6 → ℝ)} {k1 : Except Fault (Fin 6 → ℝ)} {t h : ℝ} {y : Fin 6 → ℝ} {e : Fault}
    (he : rk4 f k1 t h y = .error e) : k1 = .error e ∨ ∃ t y, f t y = .error e := by
  unfold rk4 at he
  repeat' split at he
  · cases he; exact Or.inl rfl
  · next e' h => cases he; exact Or.inr ⟨_, _, h⟩
  · next e' h => cases he; exact Or.inr ⟨_, _, h⟩
  · next e' h => cases he; exact Or.inr ⟨_, _, h⟩
  · cases he

theorem stages_err {f : ℝ → (Fin 6 → ℝ) → Except Fault (Fin 6 → ℝ)} {k1 : Except Fault (Fin 6 → ℝ)} {t h : ℝ} {y : Fin 6 → ℝ} {e : Fault}
    (he : stages f k1 t h y = .error e) : k1 = .error e ∨ ∃ t y, f t y = .error e := by
  unfold stages at he
  repeat' split at he
  · cases he; exact Or.inl rfl
  · next e' h => cases he; exact Or.inr ⟨_, _, h⟩
  · next e' h => cases he; exact Or.inr ⟨_, _, h⟩
  · next e' h => cases he; exact Or.inr ⟨_, _, h⟩
  · next e' h => cases he; exact Or.inr ⟨_, _, h⟩
  · next e' h => cases he; exact Or.inr ⟨_, _, h⟩
  · cases he

/-- The fixed step: a running marker without error is either moved soundly or stopped with an error. -/
theorem rk4_outcome (C : Consts) (f : Fields) (hf : Codes f) (ald h : ℝ) (s s' : Gc) (hr : s.running = true) (he : s.err = 0)
    (hs : stepRk4 C f ald h s = some s') :
    Outcome (fun y => y 0 ≤ 0 ∨ y 4 < 0) f h s (rk4 (rhs C f ald s) (rhsAt C f ald s s.jac s.time s.y) s.time h s.y) s' := by
  unfold stepRk4 at hs
  rw [if_pos hr] at hs
  refine stepOf_outcome ?_ ?_ f hf h s s' _ hr he ?_ hs
  · intro y
    unfold checkRk4
    split_ifs with h1 h2
    · exact ⟨fun _ => Or.inl h1, fun _ => raise_ne _ _ _ (by norm_num)⟩
    · exact ⟨fun _ => Or.inr h2, fun _ => raise_ne _ _ _ (by norm_num)⟩
    · exact ⟨fun h => absurd rfl h, fun h => (h.elim h1 h2).elim⟩
  · intro y hy
    push Not at hy
    exact hy
  · intro e h1
    rcases rk4_err h1 with h2 | ⟨t, y, h2⟩
    · exact rhsAt_err C f hf ald s _ _ _ e h2
    · exact rhs_err C f hf ald s _ _ e h2

/-- The fixed step with MHD modes: the same, except that a marker is also stopped if its magnetic moment in joules per tesla
exceeds the number that is the speed of light. -/
theorem rk4_mhd_outcome (C : Consts) (f : Fields) (hf : Codes f) (ald h : ℝ) (s s' : Gc) (hr : s.running = true) (he : s.err = 0)
    (hs : stepRk4Mhd C f ald h s = some s') :
    Outcome (fun y => y 0 ≤ 0 ∨ C.c ≤ |y 4| ∨ y 4 < 0) f h s
      (rk4 (rhsMhd C f ald s) (rhsAtMhd C f ald s s.jac s.time s.y) s.time h s.y) s' := by
  unfold stepRk4Mhd at hs
  rw [if_pos hr] at hs
  refine stepOf_outcome ?_ ?_ f hf h s s' _ hr he ?_ hs
  · intro y
    unfold checkRk4Mhd
    split_ifs with h1 h2 h3
    · exact ⟨fun _ => Or.inl h1, fun _ => raise_ne _ _ _ (by norm_num)⟩
    · exact ⟨fun _ => Or.inr (Or.inl h2), fun _ => raise_ne _ _ _ (by norm_num)⟩
    · exact ⟨fun _ => Or.inr (Or.inr h3), fun _ => raise_ne _ _ _ (by norm_num)⟩
    · exact ⟨fun h => absurd rfl h, fun h => (h.elim h1 fun h => h.elim h2 h3).elim⟩
  · intro y hy
    push Not at hy
    exact ⟨hy.1, hy.2.2⟩
  · intro e h1
    rcases rk4_err h1 with h2 | ⟨t, y, h2⟩
    · exact rhsAtMhd_err C f hf ald s _ _ _ e h2
    · exact rhsMhd_err C f hf ald s _ _ e h2

/-- Markers that are not running are left alone by every integrator. -/
theorem not_running (C : Consts) (f : Fields) (ald tol h n0 junk : ℝ) (s : Gc) (hr : s.running = false) :
    stepRk4 C f ald h s = some s ∧ stepRk4Mhd C f ald h s = some s ∧ stepCk C f ald tol h n0 s = some (s, n0) ∧
      stepCkMhd C f junk ald tol h n0 s = some (s, n0) := by
  refine ⟨?_, ?_, ?_, ?_⟩
  · unfold stepRk4; rw [hr]; rfl
  · unfold stepRk4Mhd; rw [hr]; rfl
  · unfold stepCk; rw [hr]; rfl
  · unfold stepCkMhd; rw [hr]; rfl

/-- The adaptive step: as the fixed step, and the suggestion for the next step is negative exactly if the two solutions
disagree, unless the marker was stopped; then the step is returned unchanged. -/
theorem cashkarp_outcome (C : Consts) (f : Fields) (hf : Codes f) (ald tol h n0 n : ℝ) (s s' : Gc) (hr : s.running = true) (he : s.err = 0)
    (hs : stepCk C f ald tol h n0 s = some (s', n)) :
    (∃ k, stages (rhs C f ald s) (rhsAt C f ald s s.jac s.time s.y) s.time h s.y = .ok k ∧ Placed (rk5 s.y h k) s' ∧
      0 < s'.y 0 ∧ 0 ≤ s'.y 4 ∧ Sound f h s s' ∧ nextGc h (errGc C.eps h s.y k / tol) = some n ∧ C.tiny ≤ |n|) ∨
    (Stopped s s' ∧ n = h) := by
  unfold stepCk at hs
  rw [if_pos hr] at hs
  split at hs
  · cases hs
  · next e h1 =>
    have h0 : e ≠ 0 := by
      rcases stages_err h1 with h2 | ⟨t, y, h2⟩
      · exact rhsAt_err C f hf ald s _ _ _ e h2
      · exact rhs_err C f hf ald s _ _ e h2
    have hs := Option.some.inj hs
    unfold settleCk at hs
    rw [if_pos h0, settle, if_pos h0] at hs
    cases hs
    exact Or.inr ⟨⟨rfl, h0, rfl, rfl, rfl⟩, rfl⟩
  · next k hk =>
    split at hs
    · cases hs
    · next m hm =>
      dsimp only at hs
      split at hs
      · next hc =>
        have hs := Option.some.inj hs
        unfold settleCk at hs
        rw [if_pos hc, settle, if_pos hc] at hs
        cases hs
        exact Or.inr ⟨⟨rfl, hc, rfl, rfl, rfl⟩, rfl⟩
      · next hc =>
        have hc : checkCk C m (rk5 s.y h k) = 0 := by simpa using hc
        have hb : C.tiny ≤ |m| ∧ 0 < rk5 s.y h k 0 ∧ 0 ≤ rk5 s.y h k 4 := by
          unfold checkCk at hc
          split_ifs at hc with h1 h2 h3
          · exact absurd hc (raise_ne _ _ _ (by norm_num))
          · exact absurd hc (raise_ne _ _ _ (by norm_num))
          · exact absurd hc (raise_ne _ _ _ (by norm_num))
          · exact ⟨not_lt.mp h1, not_le.mp h2, not_lt.mp h3⟩
        obtain ⟨hy, hd⟩ := finish_cases f hf h s (rk5 s.y h k) hr he
        have hs := Option.some.inj hs
        unfold settleCk at hs
        obtain ⟨hs1, hs2⟩ := Prod.mk.inj hs
        rw [hs1] at hy hd
        have hp := placed_of hy
        rcases hd with ⟨hd, h0⟩ | ⟨hd, h0⟩
        · rw [if_neg (by simpa using h0)] at hs2
          refine Or.inl ⟨k, hk, hp, by rw [hp.same 0 (by decide)]; exact hb.2.1, by rw [hp.same 4 (by decide)]; exact hb.2.2, hd, ?_, ?_⟩
          · rw [← hs2]; exact hm
          · rw [← hs2]; exact hb.1
        · rw [if_pos h0] at hs2
          exact Or.inr ⟨hd, hs2.symm⟩

/-- With MHD modes the adaptive step stores a gyroangle that has nothing to do with the motion: it is computed from a
variable that was never set. -/
theorem mhd_gyroangle (C : Consts) (f : Fields) (hf : Codes f) (ald tol h n0 n junk : ℝ) (s s' : Gc) (hr : s.running = true) (he : s.err = 0)
    (hs : stepCkMhd C f junk ald tol h n0 s = some (s', n)) (hok : s'.err = 0) : s'.y 5 = wrapZeta junk := by
  unfold stepCkMhd at hs
  rw [if_pos hr] at hs
  split at hs
  · cases hs
  · next e h1 =>
    have h0 : e ≠ 0 := by
      rcases stages_err h1 with h2 | ⟨t, y, h2⟩
      · exact rhsAtMhd_err C f hf ald s _ _ _ e h2
      · exact rhsMhd_err C f hf ald s _ _ e h2
    have hs := Option.some.inj hs
    unfold settleCk at hs
    rw [if_pos h0, settle, if_pos h0] at hs
    cases hs
    exact absurd hok h0
  · next k hk =>
    split at hs
    · cases hs
    · next m hm =>
      dsimp only at hs
      obtain ⟨hy, hd⟩ := finish_cases f hf h s (fun j => if j = 5 then junk else rk5 s.y h k j) hr he
      have hs := Option.some.inj hs
      unfold settleCk at hs
      obtain ⟨hs1, hs2⟩ := Prod.mk.inj hs
      rw [hs1] at hy hd
      rw [hy]
      rfl

/-- A magnetic field along the major radius, an electric field along it that depends on time, and no perturbation. -/
def straight (E : ℝ → ℝ) : Fields where
  BdB _ _ _ _ := .ok ⟨⟨1, 0, 0, 0⟩, ⟨0, 0, 0, 0⟩, ⟨0, 0, 0, 0⟩⟩
  E _ _ _ t := .ok ⟨E t, 0, 0⟩
  psi _ _ _ _ := .ok 0
  rho _ := .ok 0
  axis _ := ((0, 0), 0)
  mhd _ _ _ _ := .ok ⟨0, 0, ⟨0, 0, 0⟩, 0, 0, ⟨0, 0, 0⟩⟩

theorem straight_codes (E : ℝ → ℝ) : Codes (straight E) := by
  constructor <;> intros <;> simp_all [straight]

/-- Constants for the examples. -/
noncomputable def C0 : Consts := ⟨4, 1, 1, 1 / 1000⟩

/-- A marker that moves inward. -/
def inward : Gc := ⟨![1, 0, 0, -3, 0, 0], 0, 1, 1, ⟨⟨1, 0, 0, 0⟩, ⟨0, 0, 0, 0⟩, ⟨0, 0, 0, 0⟩⟩, 0, 0, 0, true⟩

/-- Its Lorentz factor for a given parallel momentum. -/
noncomputable def G (p : ℝ) : ℝ := Real.sqrt (1 + (p / 4) * (p / 4))

theorem G_pos (p : ℝ) : 0 < G p := Real.sqrt_pos.mpr (by nlinarith [mul_self_nonneg (p / 4)])

theorem straight_eom (E : ℝ) (y : Fin 6 → ℝ) (h0 : y 0 ≠ 0) (h4 : y 4 = 0) :
    gceom 4 1 1 1 y ⟨⟨1, 0, 0, 0⟩, ⟨0, 0, 0, 0⟩, ⟨0, 0, 0, 0⟩⟩ ⟨E, 0, 0⟩ 0 = some ![y 3 / G (y 3), 0, 0, E, 0, 1 / G (y 3)] := by
  have hn : normB ⟨⟨1, 0, 0, 0⟩, ⟨0, 0, 0, 0⟩, ⟨0, 0, 0, 0⟩⟩ = 1 := by simp [normB, V3.dot, field]
  have hg : gamma 4 1 y ⟨⟨1, 0, 0, 0⟩, ⟨0, 0, 0, 0⟩, ⟨0, 0, 0, 0⟩⟩ = G (y 3) := by
    unfold gamma Physlib.gammaPpar G
    rw [h4]
    congr 1
    ring
  have hp := G_pos (y 3)
  unfold gceom
  dsimp only
  rw [hg, hn]
  rw [if_neg (by simp [h0, hp.ne', V3.dot, bhat, bstar, hn, curlB, V3.cross, gradB, field])]
  simp [motion, estar, bstar, bhat, V3.dot, V3.cross, gradB, curlB, field, hn, h4]

theorem straight_eom_mhd (E : ℝ) (y : Fin 6 → ℝ) (h0 : y 0 ≠ 0) (h4 : y 4 = 0) :
    gceomMhd 4 1 1 1 y ⟨⟨1, 0, 0, 0⟩, ⟨0, 0, 0, 0⟩, ⟨0, 0, 0, 0⟩⟩ ⟨E, 0, 0⟩ ⟨0, 0, ⟨0, 0, 0⟩, 0, 0, ⟨0, 0, 0⟩⟩ 0 =
      some ![y 3 / G (y 3), 0, 0, E, 0, 1 / G (y 3)] := by
  have hn : normB ⟨⟨1, 0, 0, 0⟩, ⟨0, 0, 0, 0⟩, ⟨0, 0, 0, 0⟩⟩ = 1 := by simp [normB, V3.dot, field]
  have hg : gamma 4 1 y ⟨⟨1, 0, 0, 0⟩, ⟨0, 0, 0, 0⟩, ⟨0, 0, 0, 0⟩⟩ = G (y 3) := by
    unfold gamma Physlib.gammaPpar G
    rw [h4]
    congr 1
    ring
  have hp := G_pos (y 3)
  unfold gceomMhd
  dsimp only
  rw [hg, hn]
  rw [if_neg (by simp [h0, hp.ne', V3.dot, bhat, bstarMhd, hn, curlB, V3.cross, gradB, field])]
  simp [motion, estarMhd, bstarMhd, bhat, V3.dot, V3.cross, gradB, curlB, field, hn, h4]

theorem G3 : G (-3) = 5 / 4 := by
  unfold G
  rw [show (1 + -3 / 4 * (-3 / 4) : ℝ) = (5 / 4) ^ 2 by norm_num, Real.sqrt_sq (by norm_num)]

theorem straight_rhs (E : ℝ → ℝ) (t : ℝ) (y : Fin 6 → ℝ) (h0 : y 0 ≠ 0) (h4 : y 4 = 0) :
    rhs C0 (straight E) 0 inward t y = .ok ![y 3 / G (y 3), 0, 0, E t, 0, 1 / G (y 3)] := by
  simp only [rhs, rhsAt, straight, inward, C0]
  rw [straight_eom _ _ h0 h4]
  rfl

theorem straight_rhs_mhd (E : ℝ → ℝ) (t : ℝ) (y : Fin 6 → ℝ) (h0 : y 0 ≠ 0) (h4 : y 4 = 0) :
    rhsMhd C0 (straight E) 0 inward t y = .ok ![y 3 / G (y 3), 0, 0, E t, 0, 1 / G (y 3)] := by
  simp only [rhsMhd, rhsAtMhd, straight, inward, C0]
  rw [straight_eom_mhd _ _ h0 h4]
  rfl

/-- Derivatives of the marker moving inward. -/
noncomputable def kA (e : ℝ) : Fin 6 → ℝ := ![-12 / 5, 0, 0, e, 0, 4 / 5]

/-- Derivatives for another momentum. -/
noncomputable def kP (p : ℝ) : Fin 6 → ℝ := ![p / G p, 0, 0, 0, 0, 1 / G p]

theorem kA_of (y : Fin 6 → ℝ) (e : ℝ) (h3 : y 3 = -3) : ![y 3 / G (y 3), 0, 0, e, 0, 1 / G (y 3)] = kA e := by
  rw [h3, G3]
  unfold kA
  norm_num

/-- The stages when the electric field acts only in the fifth one. -/
theorem straight_stages (R : ℝ → (Fin 6 → ℝ) → Except Fault (Fin 6 → ℝ)) (E : ℝ → ℝ) (e h : ℝ)
    (hR : ∀ t y, y 0 ≠ 0 → y 4 = 0 → R t y = .ok ![y 3 / G (y 3), 0, 0, E t, 0, 1 / G (y 3)])
    (hE : ∀ t, t < h → E t = 0) (hEh : E h = e) (hh : 0 < h) (h1 : 1 - 12 / 25 * h ≠ 0) (h2 : 1 - 18 / 25 * h ≠ 0)
    (h3 : 1 - 36 / 25 * h ≠ 0) (h4 : 1 - 12 / 5 * h ≠ 0) (h5 : 1 - 21 / 10 * h ≠ 0) :
    stages R (.ok (kA 0)) inward.time h inward.y = .ok ⟨kA 0, kA 0, kA 0, kA 0, kA e, kP (-3 + h * (253 / 4096 * e))⟩ := by
  have y0 : inward.y 0 = 1 := rfl
  have y3 : inward.y 3 = -3 := rfl
  have y4 : inward.y 4 = 0 := rfl
  have t0 : inward.time = 0 := rfl
  have a0 : ∀ e, kA e 0 = -12 / 5 := fun _ => rfl
  have a3 : ∀ e, kA e 3 = e := fun _ => rfl
  have a4 : ∀ e, kA e 4 = 0 := fun _ => rfl
  unfold stages
  dsimp only
  have s2 : R (inward.time + 1 / 5 * h) (advance inward.y h fun j => 1 / 5 * kA 0 j) = .ok (kA 0) := by
    rw [hR, hE, kA_of]
    · simp only [advance, a3, y3]; ring
    · rw [t0]; linarith
    · simp only [advance, a0, y0]; intro hc; apply h1; linarith
    · simp only [advance, a4, y4]; ring
  have s3 : R (inward.time + 3 / 10 * h) (advance inward.y h fun j => 3 / 40 * kA 0 j + 9 / 40 * kA 0 j) = .ok (kA 0) := by
    rw [hR, hE, kA_of]
    · simp only [advance, a3, y3]; ring
    · rw [t0]; linarith
    · simp only [advance, a0, y0]; intro hc; apply h2; linarith
    · simp only [advance, a4, y4]; ring
  have s4 : R (inward.time + 3 / 5 * h) (advance inward.y h fun j => 3 / 10 * kA 0 j + -9 / 10 * kA 0 j + 6 / 5 * kA 0 j) = .ok (kA 0) := by
    rw [hR, hE, kA_of]
    · simp only [advance, a3, y3]; ring
    · rw [t0]; linarith
    · simp only [advance, a0, y0]; intro hc; apply h3; linarith
    · simp only [advance, a4, y4]; ring
  have s5 : R (inward.time + h) (advance inward.y h fun j => -11 / 54 * kA 0 j + 5 / 2 * kA 0 j + -70 / 27 * kA 0 j + 35 / 27 * kA 0 j) = .ok (kA e) := by
    rw [hR, t0, zero_add, hEh, kA_of]
    · simp only [advance, a3, y3]; ring
    · simp only [advance, a0, y0]; intro hc; apply h4; linarith
    · simp only [advance, a4, y4]; ring
  have s6 : R (inward.time + 7 / 8 * h) (advance inward.y h fun j => 1631 / 55296 * kA 0 j + 175 / 512 * kA 0 j + 575 / 13824 * kA 0 j +
      44275 / 110592 * kA 0 j + 253 / 4096 * kA e j) = .ok (kP (-3 + h * (253 / 4096 * e))) := by
    rw [hR, hE]
    · have : advance inward.y h (fun j => 1631 / 55296 * kA 0 j + 175 / 512 * kA 0 j + 575 / 13824 * kA 0 j +
          44275 / 110592 * kA 0 j + 253 / 4096 * kA e j) 3 = -3 + h * (253 / 4096 * e) := by
        simp only [advance, a3, y3]; ring
      rw [this]
      rfl
    · rw [t0]; linarith
    · simp only [advance, a0, y0]; intro hc; apply h5; linarith
    · simp only [advance, a4, y4]; ring
  rw [s2]; dsimp only
  rw [s3]; dsimp only
  rw [s4]; dsimp only
  rw [s5]; dsimp only
  rw [s6]

/-- The electric field of the examples: a short pulse at time 100. -/
noncomputable def pulse (t : ℝ) : ℝ := if t = 100 then -1 else 0

theorem start (E : ℝ → ℝ) (hE : E 0 = 0) : rhsAt C0 (straight E) 0 inward inward.jac inward.time inward.y = .ok (kA 0) := by
  have h := straight_rhs E 0 inward.y (by simp [inward]) (by simp [inward])
  rw [kA_of _ _ (by simp [inward]), hE] at h
  exact h

theorem start_mhd (E : ℝ → ℝ) (hE : E 0 = 0) : rhsAtMhd C0 (straight E) 0 inward inward.jac inward.time inward.y = .ok (kA 0) := by
  have h := straight_rhs_mhd E 0 inward.y (by simp [inward]) (by simp [inward])
  rw [kA_of _ _ (by simp [inward]), hE] at h
  exact h

/-- A trial step that the error estimate rejects, and that would be retried with a shorter step, can end the marker with an
error because the rejected position is tested too.  A shorter step of the same marker is fine. -/
theorem rejected_step_stops_marker : ∃ (C : Consts) (f : Fields) (s : Gc) (tol h : ℝ), Codes f ∧ s.running = true ∧ s.err = 0 ∧ 0 < tol ∧ 0 < h ∧
    (∃ k, stages (rhs C f 0 s) (rhsAt C f 0 s s.jac s.time s.y) s.time h s.y = .ok k ∧ 1 < errGc C.eps h s.y k / tol) ∧
    (∀ n0, ∃ s', stepCk C f 0 tol h n0 s = some (s', h) ∧ Stopped s s') ∧
    ∃ h', 0 < h' ∧ h' < h ∧ ∀ n0, ∃ s' n, stepCk C f 0 tol h' n0 s = some (s', n) ∧ 0 < n ∧ Sound f h' s s' := by
  have hst := straight_stages (rhs C0 (straight pulse) 0 inward) pulse (-1) 100 (straight_rhs pulse)
    (fun t ht => if_neg ht.ne) (if_pos rfl) (by norm_num) (by norm_num) (by norm_num) (by norm_num) (by norm_num) (by norm_num)
  have hs0 := start pulse (if_neg (by norm_num))
  rw [← hs0] at hst
  set p6 : ℝ := -3 + 100 * (253 / 4096 * -1) with hp6
  have herr : 1 < errGc C0.eps 100 inward.y ⟨kA 0, kA 0, kA 0, kA 0, kA (-1), kP p6⟩ / (1 / 10) := by
    have : errOne C0.eps 100 inward.y ⟨kA 0, kA 0, kA 0, kA 0, kA (-1), kP p6⟩ 3 = 100 * (277 / 14336) / 4 := by
      simp [errOne, rk5, embedded, advance, kA, kP, inward, C0]
      norm_num
    have h2 : errOne C0.eps 100 inward.y ⟨kA 0, kA 0, kA 0, kA 0, kA (-1), kP p6⟩ 3 ≤ errGc C0.eps 100 inward.y ⟨kA 0, kA 0, kA 0, kA 0, kA (-1), kP p6⟩ :=
      le_max_right _ _
    rw [this] at h2
    rw [lt_div_iff₀ (by norm_num)]
    refine lt_of_lt_of_le ?_ h2
    norm_num
  have hneg : rk5 inward.y 100 ⟨kA 0, kA 0, kA 0, kA 0, kA (-1), kP p6⟩ 0 ≤ 0 := by
    have hp : p6 / G p6 < 0 := div_neg_of_neg_of_pos (by rw [hp6]; norm_num) (G_pos _)
    have : rk5 inward.y 100 ⟨kA 0, kA 0, kA 0, kA 0, kA (-1), kP p6⟩ 0 =
        1 + 100 * (37 / 378 * (-12 / 5) + 250 / 621 * (-12 / 5) + 125 / 594 * (-12 / 5) + 512 / 1771 * (p6 / G p6)) := by
      simp [rk5, advance, kA, kP, inward]
    rw [this]
    linarith
  have hst2 := straight_stages (rhs C0 (straight pulse) 0 inward) pulse 0 (1 / 10) (straight_rhs pulse)
    (fun t ht => if_neg (by linarith)) (if_neg (by norm_num))
    (by norm_num) (by norm_num) (by norm_num) (by norm_num) (by norm_num) (by norm_num)
  have hk6 : kP (-3 + 1 / 10 * (253 / 4096 * 0)) = kA 0 := by
    unfold kP kA
    norm_num [G3]
  rw [← hs0, hk6] at hst2
  refine ⟨C0, straight pulse, inward, 1 / 10, 100, straight_codes _, rfl, rfl, by norm_num, by norm_num, ⟨_, hst, herr⟩, ?_, 1 / 10, by norm_num, by norm_num, ?_⟩
  · intro n0
    have hn : ∃ n, nextGc 100 (errGc C0.eps 100 inward.y ⟨kA 0, kA 0, kA 0, kA 0, kA (-1), kP p6⟩ / (1 / 10)) = some n := by
      unfold nextGc
      rw [if_neg (not_le.mpr herr)]
      exact ⟨_, rfl⟩
    obtain ⟨n, hn⟩ := hn
    have hc : checkCk C0 n (rk5 inward.y 100 ⟨kA 0, kA 0, kA 0, kA 0, kA (-1), kP p6⟩) ≠ 0 := by
      unfold checkCk
      split_ifs
      · exact raise_ne _ _ _ (by norm_num)
      · exact raise_ne _ _ _ (by norm_num)
    unfold stepCk
    rw [if_pos (show inward.running = true from rfl), hst]
    dsimp only
    rw [hn]
    dsimp only
    rw [if_pos hc]
    unfold settleCk
    rw [if_pos hc, settle, if_pos hc]
    exact ⟨_, rfl, rfl, hc, rfl, rfl, rfl⟩
  · intro n0
    have hrk : ∀ j, embedded inward.y (1 / 10) ⟨kA 0, kA 0, kA 0, kA 0, kA 0, kA 0⟩ j = rk5 inward.y (1 / 10) ⟨kA 0, kA 0, kA 0, kA 0, kA 0, kA 0⟩ j := by
      intro j
      simp only [embedded, rk5, advance]
      ring
    have he : errGc C0.eps (1 / 10) inward.y ⟨kA 0, kA 0, kA 0, kA 0, kA 0, kA 0⟩ = 0 := by
      have h1 : errPos C0.eps (1 / 10) inward.y ⟨kA 0, kA 0, kA 0, kA 0, kA 0, kA 0⟩ = 0 := by
        unfold errPos
        dsimp only
        rw [hrk, hrk, hrk, sub_self, sub_self, Real.cos_zero]
        ring_nf
        simp
      unfold errGc errOne
      rw [h1, hrk]
      simp
    have hn : nextGc (1 / 10) (errGc C0.eps (1 / 10) inward.y ⟨kA 0, kA 0, kA 0, kA 0, kA 0, kA 0⟩ / (1 / 10)) = some (1.5 * (1 / 10)) := by
      rw [he]
      unfold nextGc
      rw [if_pos (by norm_num), if_pos (by norm_num), if_pos (by norm_num)]
    have h0 : rk5 inward.y (1 / 10) ⟨kA 0, kA 0, kA 0, kA 0, kA 0, kA 0⟩ 0 = 1 - 24 / 100 := by
      simp [rk5, advance, kA, inward]
      norm_num
    have h4 : rk5 inward.y (1 / 10) ⟨kA 0, kA 0, kA 0, kA 0, kA 0, kA 0⟩ 4 = 0 := by
      simp [rk5, advance, kA, inward]
    have hc : checkCk C0 (1.5 * (1 / 10)) (rk5 inward.y (1 / 10) ⟨kA 0, kA 0, kA 0, kA 0, kA 0, kA 0⟩) = 0 := by
      unfold checkCk
      rw [h0, h4, if_neg (by unfold C0; norm_num), if_neg (by norm_num), if_neg (by norm_num)]
    obtain ⟨hy, hd⟩ := finish_cases (straight pulse) (straight_codes _) (1 / 10) inward (rk5 inward.y (1 / 10) ⟨kA 0, kA 0, kA 0, kA 0, kA 0, kA 0⟩) rfl rfl
    have hf : (finish (straight pulse) (1 / 10) inward (rk5 inward.y (1 / 10) ⟨kA 0, kA 0, kA 0, kA 0, kA 0, kA 0⟩)).2 = 0 := rfl
    unfold stepCk
    rw [if_pos (show inward.running = true from rfl), hst2]
    dsimp only
    rw [hn]
    dsimp only
    rw [if_neg (by simpa using hc)]
    refine ⟨_, _, rfl, ?_, ?_⟩
    · rw [hf]; norm_num
    · rcases hd with ⟨hd, _⟩ | ⟨_, hd⟩
      · exact hd
      · exact absurd hf hd

/-- With MHD modes the adaptive step does not test its result: a marker is moved to a negative major radius without error and
with the step accepted. -/
theorem mhd_negative_radius : ∃ (C : Consts) (f : Fields) (s : Gc) (tol h : ℝ), Codes f ∧ s.running = true ∧ s.err = 0 ∧ 0 < s.y 0 ∧ 0 < tol ∧ 0 < h ∧
    ∀ junk n0, ∃ s' n, stepCkMhd C f junk 0 tol h n0 s = some (s', n) ∧ 0 < n ∧ s'.running = true ∧ s'.err = 0 ∧ s'.y 0 < 0 := by
  have hst := straight_stages (rhsMhd C0 (straight fun _ => 0) 0 inward) (fun _ => 0) 0 100 (straight_rhs_mhd fun _ => 0)
    (fun t ht => rfl) rfl (by norm_num) (by norm_num) (by norm_num) (by norm_num) (by norm_num) (by norm_num)
  have hk6 : kP (-3 + 100 * (253 / 4096 * 0)) = kA 0 := by
    unfold kP kA
    norm_num [G3]
  rw [← start_mhd (fun _ => 0) rfl, hk6] at hst
  refine ⟨C0, straight fun _ => 0, inward, 1 / 10, 100, straight_codes _, rfl, rfl, ?_, by norm_num, by norm_num, ?_⟩
  · simp [inward]
  · intro junk n0
    have hrk : ∀ j, embedded inward.y 100 ⟨kA 0, kA 0, kA 0, kA 0, kA 0, kA 0⟩ j = rk5 inward.y 100 ⟨kA 0, kA 0, kA 0, kA 0, kA 0, kA 0⟩ j := by
      intro j
      simp only [embedded, rk5, advance]
      ring
    have he : errGc C0.eps 100 inward.y ⟨kA 0, kA 0, kA 0, kA 0, kA 0, kA 0⟩ = 0 := by
      have h1 : errPos C0.eps 100 inward.y ⟨kA 0, kA 0, kA 0, kA 0, kA 0, kA 0⟩ = 0 := by
        unfold errPos
        dsimp only
        rw [hrk, hrk, hrk, sub_self, sub_self, Real.cos_zero]
        ring_nf
        simp
      unfold errGc errOne
      rw [h1, hrk]
      simp
    have hn : nextGc 100 (errGc C0.eps 100 inward.y ⟨kA 0, kA 0, kA 0, kA 0, kA 0, kA 0⟩ / (1 / 10)) = some (1.5 * 100) := by
      rw [he]
      unfold nextGc
      rw [if_pos (by norm_num), if_pos (by norm_num), if_pos (by norm_num)]
    have h0 : rk5 inward.y 100 ⟨kA 0, kA 0, kA 0, kA 0, kA 0, kA 0⟩ 0 = 1 - 240 := by
      simp [rk5, advance, kA, inward]
      norm_num
    unfold stepCkMhd
    rw [if_pos (show inward.running = true from rfl), hst]
    dsimp only
    rw [hn]
    dsimp only
    refine ⟨_, _, rfl, ?_, rfl, rfl, ?_⟩
    · show (0 : ℝ) < 1.5 * 100
      norm_num
    · show rk5 inward.y 100 ⟨kA 0, kA 0, kA 0, kA 0, kA 0, kA 0⟩ 0 < 0
      rw [h0]
      norm_num

end Ascot.C81
