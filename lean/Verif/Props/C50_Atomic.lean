import Verif.Model.Atomic
import Verif.Props.C54_Asigma
import Mathlib.MeasureTheory.Measure.Lebesgue.Basic
import Mathlib.Tactic.NormNum
import Mathlib.Tactic.Ring
import Mathlib.Tactic.Linarith
import Mathlib.Tactic.FieldSimp
import Mathlib.Tactic.Positivity

/-!
# C50 and C89: atomic reactions

C50: an atomic reaction step changes the charge state by at most one, keeps it between zero and the atomic number, uses
probabilities between zero and one, and stops with an error for unsupported charge states without changing the charge.

C89: a reaction happens in a time step with the probability of an exponential decay with the reaction rate.  Full statement: the rate
of charge exchange is that with the neutral species of the neutral data.  The code takes the identity of the neutral species from the
plasma ions (`neutral_identity_ignored`), so the rate is right only if the two lists agree.
-/
set_option linter.unusedSectionVars false
set_option linter.unusedSimpArgs false

namespace Ascot.C50

open Asigma Atomic

private theorem cround_int (k : ℤ) : cround (k : ℝ) = k := by
  unfold cround
  split
  · rw [Int.floor_eq_iff]
    constructor <;> linarith
  · rw [Int.ceil_eq_iff]
    constructor <;> linarith

private theorem cround_charge {cE : ℝ} (hc : 0 < cE) (k : ℤ) : cround (k * cE / cE) = k := by
  rw [mul_div_assoc, div_self hc.ne', mul_one, cround_int]

/-- A reaction changes the charge state by at most one and keeps it between zero and the atomic number. -/
theorem react_bounds (q : ℤ) (dt : ℝ) (ion rec' : Option ℝ) (z : ℤ) (rnd : ℝ) (h0 : 0 ≤ q) (hz : q ≤ z) :
    |react q dt ion rec' z rnd - q| ≤ 1 ∧ 0 ≤ react q dt ion rec' z rnd ∧ react q dt ion rec' z rnd ≤ z := by
  unfold react
  split
  · split
    · rename_i h; refine ⟨by simp, by omega, by omega⟩
    · split
      · rename_i h; refine ⟨by simp, by omega, by omega⟩
      · simp [h0, hz]
  · simp [h0, hz]

/-- For non-negative rates and time steps the two probabilities are non-negative and their sum is at most one; if anything can
happen the sum is the probability that an exponential decay with the total rate happens in the time step. -/
theorem probabilities (ion rec' dt : ℝ) (hi : 0 ≤ ion) (hr : 0 ≤ rec') (ht : 0 ≤ dt) :
    0 ≤ prob ion ion rec' dt ∧ 0 ≤ prob rec' ion rec' dt ∧
      prob ion ion rec' dt + prob rec' ion rec' dt = 1 - Real.exp (-(ion + rec') * dt) ∧
      prob ion ion rec' dt + prob rec' ion rec' dt ≤ 1 := by
  have hexp : Real.exp (-(ion + rec') * dt) ≤ 1 := by
    rw [Real.exp_le_one_iff]
    have := mul_nonneg (add_nonneg hi hr) ht
    linarith
  have hpos : ∀ x, 0 ≤ x → 0 ≤ prob x ion rec' dt := by
    intro x hx
    unfold prob
    split
    · exact le_refl _
    · exact mul_nonneg (div_nonneg hx (add_nonneg hi hr)) (by linarith)
  have hsum : prob ion ion rec' dt + prob rec' ion rec' dt = 1 - Real.exp (-(ion + rec') * dt) := by
    unfold prob
    by_cases h1 : ion = 0
    · by_cases h2 : rec' = 0
      · simp [h1, h2]
      · simp only [h1, h2, if_true, if_false, zero_add]
        rw [div_self h2, one_mul]
    · by_cases h2 : rec' = 0
      · simp only [h1, h2, if_true, if_false, add_zero]
        rw [div_self h1, one_mul]
      · simp only [h1, h2, if_false]
        have h3 : ion + rec' ≠ 0 := by
          have : 0 < ion := lt_of_le_of_ne hi (Ne.symm h1)
          linarith
        rw [← add_mul, ← add_div, div_self h3, one_mul]
  refine ⟨hpos ion hi, hpos rec' hr, hsum, ?_⟩
  rw [hsum]
  linarith [Real.exp_pos (-(ion + rec') * dt)]

/-- With a uniform random number the probability that a reaction happens in two successive steps does not depend on how the time is
divided. -/
theorem step_division (ion rec' t1 t2 : ℝ) (hi : 0 ≤ ion) (hr : 0 ≤ rec') (h1 : 0 ≤ t1) (h2 : 0 ≤ t2) :
    (1 - (prob ion ion rec' t1 + prob rec' ion rec' t1)) * (1 - (prob ion ion rec' t2 + prob rec' ion rec' t2)) =
      1 - (prob ion ion rec' (t1 + t2) + prob rec' ion rec' (t1 + t2)) := by
  rw [(probabilities ion rec' t1 hi hr h1).2.2.1, (probabilities ion rec' t2 hi hr h2).2.2.1,
    (probabilities ion rec' (t1 + t2) hi hr (add_nonneg h1 h2)).2.2.1, mul_add (-(ion + rec')), Real.exp_add]
  ring

/-- The rates computed for a marker are never negative if the electron density is not negative. -/
theorem rates_nonneg (c cE : ℝ) (d : Data) (b : Bkg) (z1 a1 : ℤ) (m1 : ℝ) (q : ℤ) (e : ℝ) (temp dens n0 t0 : List ℝ) (r : Rates)
    (hne : ∀ x ∈ dens.head?, 0 ≤ x) (h : rates c cE d b z1 a1 m1 q e temp dens n0 t0 = some r) :
    (∀ v, r.ion = some v → 0 ≤ v) ∧ (∀ v, r.rec' = some v → 0 ≤ v) := by
  unfold rates at h
  split at h
  · simp only [Option.bind_eq_some_iff, Option.map_eq_some_iff] at h
    obtain ⟨spec, _, t, _, rfl⟩ := h
    refine ⟨fun v hv => by simp at hv; exact hv.le, fun v hv => ?_⟩
    exact (C87.nonneg c cE d z1 a1 0 0 e 0 t 0 m1 v 0 spec).2.2.1 hv
  · split at h
    · simp only [Option.bind_eq_some_iff, Option.map_eq_some_iff] at h
      obtain ⟨spec, _, te, _, ne, hne', x, hx, rfl⟩ := h
      refine ⟨fun v hv => ?_, fun v hv => by simp at hv; exact hv.le⟩
      rw [Option.map_eq_some_iff] at hv
      obtain ⟨w, hw, rfl⟩ := hv
      exact mul_nonneg ((C87.nonneg c cE d z1 a1 0 0 e te 0 0 m1 w 0 spec).2.2.2 x hx hw) (hne ne (by simp [hne']))
    · simp only [Option.some.injEq] at h
      subst h
      exact ⟨fun v hv => by simp at hv; exact hv.le, fun v hv => by simp at hv; exact hv.le⟩

/-- Everything but charge, error code and running flag is unchanged. -/
def SameRest (p p' : Lane) : Prop := { p' with charge := p.charge, err := p.err, running := p.running } = p

/-- One step for a marker with charge state `k`: the new charge state differs by at most one and is between zero and the atomic
number; nothing else changes but the error code and the running flag; on an error the charge is unchanged. -/
theorem fo_step (c cE : ℝ) (hc : 0 < cE) (d : Data) (b : Bkg) (h rnd : ℝ) (p p' : Lane) (k : ℤ) (hk : p.charge = k * cE) (h0 : 0 ≤ k)
    (hz : k ≤ p.znum) (hs : fo c cE d b h rnd p = some p') :
    SameRest p p' ∧ (∃ k' : ℤ, p'.charge = k' * cE ∧ |k' - k| ≤ 1 ∧ 0 ≤ k' ∧ k' ≤ p.znum) ∧
      (p'.running = p.running ∧ p'.err = p.err ∨ p'.running = false ∧ p'.charge = p.charge) := by
  have hsame : ∀ er, SameRest p { p with err := er, running := false } := fun _ => rfl
  have hk0 : ∃ k' : ℤ, p.charge = k' * cE ∧ |k' - k| ≤ 1 ∧ 0 ≤ k' ∧ k' ≤ p.znum := ⟨k, hk, by simp, h0, hz⟩
  unfold fo at hs
  split at hs
  · split at hs
    · simp only [Option.some.injEq] at hs; subst hs; exact ⟨hsame _, hk0, Or.inr ⟨rfl, rfl⟩⟩
    · split at hs
      · simp only [Option.some.injEq] at hs; subst hs; exact ⟨hsame _, hk0, Or.inr ⟨rfl, rfl⟩⟩
      · split at hs
        · simp only [Option.some.injEq] at hs; subst hs; exact ⟨hsame _, hk0, Or.inr ⟨rfl, rfl⟩⟩
        · unfold finish at hs
          have hq : cround (p.charge / cE) = k := by rw [hk]; exact cround_charge hc k
          rw [hq, Option.map_eq_some_iff] at hs
          obtain ⟨r, _, hs⟩ := hs
          split at hs
          · subst hs; exact ⟨hsame _, hk0, Or.inr ⟨rfl, rfl⟩⟩
          · have hb := react_bounds k h r.ion r.rec' p.znum rnd h0 hz
            simp only at hs
            split at hs
            · subst hs; exact ⟨rfl, ⟨_, rfl, hb⟩, Or.inl ⟨rfl, rfl⟩⟩
            · subst hs; exact ⟨rfl, hk0, Or.inl ⟨rfl, rfl⟩⟩
  · simp only [Option.some.injEq] at hs; subst hs; exact ⟨rfl, hk0, Or.inl ⟨rfl, rfl⟩⟩

/-- Charge states other than zero and one: the marker is stopped with an error and its charge is unchanged. -/
theorem unsupported (c cE : ℝ) (hc : 0 < cE) (d : Data) (b : Bkg) (h rnd : ℝ) (p : Lane) (k : ℤ) (hk : p.charge = k * cE)
    (hk0 : k ≠ 0) (hk1 : k ≠ 1) (hr : p.running = true) (hpl : ∀ er, b.plasma p = .error er → er ≠ 0)
    (hn : ∀ er, b.n0 p = .error er → er ≠ 0) (ht : ∀ er, b.t0 p = .error er → er ≠ 0) :
    ∃ p', fo c cE d b h rnd p = some p' ∧ p'.charge = p.charge ∧ p'.running = false ∧ p'.err ≠ 0 := by
  unfold fo
  rw [if_pos hr]
  cases h1 : b.plasma p with
  | error er => exact ⟨_, rfl, rfl, rfl, hpl er h1⟩
  | ok x =>
    obtain ⟨dens, temp⟩ := x
    cases h2 : b.n0 p with
    | error er => exact ⟨_, rfl, rfl, rfl, hn er h2⟩
    | ok n0 =>
      cases h3 : b.t0 p with
      | error er => exact ⟨_, rfl, rfl, rfl, ht er h3⟩
      | ok t0 =>
        have hq : cround (p.charge / cE) = k := by rw [hk]; exact cround_charge hc k
        simp only [finish]
        rw [hq]
        unfold rates
        rw [if_neg hk1, if_neg hk0]
        simp only [Option.map_some]
        rw [if_pos (by decide)]
        exact ⟨_, rfl, rfl, rfl, (by decide : Error.raise 8 193 25 ≠ 0)⟩

/-- A run: before every atomic step the rest of the simulation changes the lane in any way that keeps charge and atomic number. -/
inductive Run (c cE : ℝ) (d : Data) : Lane → Lane → Prop where
  | done (p) : Run c cE d p p
  | step (p p1 p2 p3) (b : Bkg) (h rnd : ℝ) : p1.charge = p.charge → p1.znum = p.znum → fo c cE d b h rnd p1 = some p2 →
      Run c cE d p2 p3 → Run c cE d p p3

/-- Along every run the charge stays a multiple of the elementary charge between zero and the atomic number. -/
theorem run_invariant (c cE : ℝ) (hc : 0 < cE) (d : Data) (p p' : Lane) (hrun : Run c cE d p p') (k : ℤ) (hk : p.charge = k * cE)
    (h0 : 0 ≤ k) (hz : k ≤ p.znum) : ∃ k' : ℤ, p'.charge = k' * cE ∧ 0 ≤ k' ∧ k' ≤ p'.znum ∧ p'.znum = p.znum := by
  induction hrun generalizing k with
  | done p => exact ⟨k, hk, h0, hz, rfl⟩
  | step p p1 p2 p3 b h rnd e1 e2 hs _ ih =>
    obtain ⟨s1, ⟨k', s2, _, s3, s4⟩, _⟩ := fo_step c cE hc d b h rnd p1 p2 k (e1.trans hk) h0 (by omega) hs
    have hzn : p2.znum = p1.znum := by unfold SameRest at s1; rw [← s1]
    obtain ⟨k'', t1, t2, t3, t4⟩ := ih k' s2 s3 (by omega)
    exact ⟨k'', t1, t2, t3, by omega⟩

/-- A deuterium atom in a background whose evaluation succeeds. -/
noncomputable def sampleLane : Lane := ⟨true, 0, 0, 1, 1, 2, 0, 0, 0, 0, 0, 0, 0, 0⟩

example : sampleLane.charge = ((0 : ℤ) : ℝ) * 1 ∧ (0 : ℤ) ≤ 0 ∧ (0 : ℤ) ≤ sampleLane.znum := by simp [sampleLane]

end Ascot.C50

namespace Ascot.C89

open Asigma Atomic C50

private theorem prob_only (l dt : ℝ) : prob l l 0 dt = 1 - Real.exp (-l * dt) ∧ prob l 0 l dt = 1 - Real.exp (-l * dt) := by
  unfold prob
  by_cases h : l = 0
  · simp [h]
  · simp only [h, if_false, add_zero, zero_add, div_self h, one_mul, and_self]

/-- Ionisation of a neutral: with `lam` the beam-stopping coefficient times the electron density, the marker becomes singly charged
exactly if the random number is below the decay probability. -/
theorem ionisation_law (c cE : ℝ) (hc : 0 < cE) (d : Data) (b : Bkg) (h rnd : ℝ) (p : Lane) (hr : p.running = true)
    (hk : p.charge = 0) (hz : 0 < p.znum) (ne te coeff : ℝ) (dens temp n0 t0 : List ℝ) (spec : List Species)
    (hp : b.plasma p = .ok (ne :: dens, te :: temp)) (hn : b.n0 p = .ok n0) (ht : b.t0 p = .ok t0)
    (hsp : species b.ionZ.length b.ionZ b.ionA dens = some spec)
    (hb : evalBms c cE d p.znum p.anum (Physlib.ekinPnorm c p.mass (Real.sqrt (p.pr * p.pr + p.pphi * p.pphi + p.pz * p.pz))) p.mass te
      spec = some ⟨0, some coeff⟩) :
    fo c cE d b h rnd p = some (if rnd < 1 - Real.exp (-(coeff * ne) * h) then { p with charge := cE } else p) := by
  have hq : cround (p.charge / cE) = 0 := by
    have := cround_charge hc 0
    simpa [hk] using this
  unfold fo
  rw [if_pos hr]
  simp only [hp, hn, ht, finish, hq, rates]
  simp only [zero_ne_one, if_false, if_true, List.tail_cons, hsp, List.head?_cons, Option.bind_some, hb, Option.map_some, ne_eq,
    not_true_eq_false, react, hz, true_and, (prob_only _ _).1]
  by_cases hlt : rnd < 1 - Real.exp (-(coeff * ne) * h)
  · rw [if_pos hlt, if_pos hlt]; simp
  · rw [if_neg hlt, if_neg hlt]; simp

/-- Neutralisation of a singly charged ion by charge exchange. -/
theorem charge_exchange_law (c cE : ℝ) (hc : 0 < cE) (d : Data) (b : Bkg) (h rnd : ℝ) (p : Lane) (hr : p.running = true)
    (hk : p.charge = cE) (hrnd : 0 ≤ rnd) (lam t : ℝ) (dens temp n0 t0 : List ℝ) (spec : List Species)
    (hp : b.plasma p = .ok (dens, temp)) (hn : b.n0 p = .ok n0) (ht : b.t0 p = .ok (t :: t0))
    (hsp : species b.neutralZ.length b.ionZ b.ionA n0 = some spec)
    (hb : evalCx cE d p.znum p.anum (Physlib.ekinPnorm c p.mass (Real.sqrt (p.pr * p.pr + p.pphi * p.pphi + p.pz * p.pz))) t
      spec = ⟨0, some lam⟩) :
    fo c cE d b h rnd p = some (if rnd < 1 - Real.exp (-lam * h) then { p with charge := 0 } else p) := by
  have hq : cround (p.charge / cE) = 1 := by
    have := cround_charge hc 1
    simpa [hk] using this
  have h0 : prob 0 0 lam h = 0 := by simp [prob]
  unfold fo
  rw [if_pos hr]
  simp only [hp, hn, ht, finish, hq, rates]
  simp only [if_true, hsp, List.head?_cons, Option.bind_some, hb, Option.map_some, ne_eq, not_true_eq_false, if_false, react, h0,
    not_lt.2 hrnd, and_false, zero_add, (prob_only _ _).2]
  generalize 1 - Real.exp (-lam * h) = pr
  by_cases hlt : rnd < pr
  · simp [hlt]
  · simp [hlt]

/-- The random numbers in `[0, 1)` below the decay probability have that probability as their measure. -/
theorem decay_measure (lam h : ℝ) (hl : 0 ≤ lam) (hh : 0 ≤ h) :
    MeasureTheory.volume {rnd : ℝ | 0 ≤ rnd ∧ rnd < 1 ∧ rnd < 1 - Real.exp (-lam * h)} = ENNReal.ofReal (1 - Real.exp (-lam * h)) := by
  have : {rnd : ℝ | 0 ≤ rnd ∧ rnd < 1 ∧ rnd < 1 - Real.exp (-lam * h)} = Set.Ico 0 (1 - Real.exp (-lam * h)) := by
    ext x
    simp only [Set.mem_setOf_eq, Set.mem_Ico]
    constructor
    · rintro ⟨h1, _, h3⟩; exact ⟨h1, h3⟩
    · rintro ⟨h1, h3⟩; exact ⟨h1, by linarith [Real.exp_pos (-lam * h)], h3⟩
  rw [this, Real.volume_Ico, sub_zero]

example : ∃ lam h : ℝ, 0 < lam ∧ 0 < h := ⟨1, 1, one_pos, one_pos⟩

/-- The step does not depend on the identities of the neutral species, only on their number: the entries of the plasma ions at the
same positions are used. -/
theorem neutral_identity_ignored (c cE : ℝ) (d : Data) (b : Bkg) (z' a' : List ℤ) (hz : z'.length = b.neutralZ.length) (h rnd : ℝ)
    (p : Lane) : fo c cE d { b with neutralZ := z', neutralA := a' } h rnd p = fo c cE d b h rnd p := by
  unfold fo finish rates
  rw [hz]

/-- One neutral species of the neutral data: identities and density. -/
def neutralSpecies (b : Bkg) (n0 : List ℝ) : Option (List Species) := species b.neutralZ.length b.neutralZ b.neutralA n0

/-- The rate is that of the neutral species if they are the plasma ions in the same order. -/
theorem neutral_identity_partial (b : Bkg) (n0 : List ℝ) (hz : b.neutralZ = b.ionZ) (ha : b.neutralA = b.ionA) :
    species b.neutralZ.length b.ionZ b.ionA n0 = neutralSpecies b n0 := by
  unfold neutralSpecies
  rw [hz, ha]

/-- With more neutral species than plasma ions the identifiers are read past the end of the array: undefined behaviour. -/
theorem more_neutrals_undefined (c cE : ℝ) (hc : 0 < cE) (d : Data) (b : Bkg) (h rnd : ℝ) (p : Lane) (hr : p.running = true)
    (hk : p.charge = cE) (dens temp n0 t0 : List ℝ) (hp : b.plasma p = .ok (dens, temp)) (hn : b.n0 p = .ok n0)
    (ht : b.t0 p = .ok t0) (hlt : b.ionZ.length < b.neutralZ.length) : fo c cE d b h rnd p = none := by
  have hq : cround (p.charge / cE) = 1 := by
    have := cround_charge hc 1
    simpa [hk] using this
  unfold fo
  rw [if_pos hr]
  simp only [hp, hn, ht, finish, hq, rates, if_true, species]
  rw [if_neg (fun h => by omega)]
  rfl

/-- The code violates the full statement of C89: a deuteron in neutral hydrogen gets the rate of the deuterium atoms of the same
density because the plasma is deuterium. -/
theorem wrong_neutral (cE e t : ℝ) : ∃ (d : Data) (b : Bkg) (n0 : List ℝ) (used given : List Species),
    species b.neutralZ.length b.ionZ b.ionA n0 = some used ∧ neutralSpecies b n0 = some given ∧
    evalCx cE d 1 2 e t used = ⟨0, some 5⟩ ∧ evalCx cE d 1 2 e t given = ⟨0, some 3⟩ := by
  let r1 : Reac := ⟨1, 2, 1, 1, 6, fun _ => none, fun _ _ => some 3, fun _ _ _ => none⟩
  let r2 : Reac := ⟨1, 2, 1, 2, 6, fun _ => none, fun _ _ => some 5, fun _ _ _ => none⟩
  refine ⟨⟨some [r1, r2], false⟩, ⟨[1], [2], fun _ => .error 1, [1], [1], fun _ => .error 1, fun _ => .error 1⟩, [1],
    [⟨1, 2, 1⟩], [⟨1, 1, 1⟩], by simp [species, List.range, List.range.loop], by simp [neutralSpecies, species, List.range, List.range.loop], ?_, ?_⟩
  · rw [C87.cx_sum cE [r1, r2] false 1 2 e t [⟨1, 2, 1⟩] (fun _ => r2) (fun _ => 5)
      (fun s hs => by simp at hs; subst hs; exact ⟨[r1], [], rfl, by simp [C87.Matches, r2], by simp⟩)
      (fun s hs => Or.inl rfl)]
    norm_num
  · rw [C87.cx_sum cE [r1, r2] false 1 2 e t [⟨1, 1, 1⟩] (fun _ => r1) (fun _ => 3)
      (fun s hs => by simp at hs; subst hs; exact ⟨[], [r2], rfl, by simp [C87.Matches, r1], by simp [C87.Matches, r2]⟩)
      (fun s hs => Or.inl rfl)]
    norm_num

end Ascot.C89
