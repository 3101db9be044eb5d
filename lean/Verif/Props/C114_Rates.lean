import Verif.Model.LibBatch
import Verif.Props.C46_Physlib

/-!
# C114: reaction rates given by the library

The rate coefficients a user gets from the library should be the rates with which the simulation changes the charge of a marker of
the same species, mass and speed in the same background.  For charge exchange with at most one neutral species they are; for beam
stopping they are not, as the densities handed over start with that of the electrons.
-/
set_option linter.unusedSectionVars false
set_option linter.unusedSimpArgs false

namespace Ascot.C114
open Ascot.LibBatch Ascot.Asigma Ascot.Physlib

variable {c cE m v : ℝ} {d : Data} {b : Atomic.Bkg} {Za Aa : ℤ} {dens temp n0 t0 : List ℝ}

/-- What the library stores for a reaction (6: charge exchange, 7: beam stopping) in background `b`. -/
noncomputable def library (c cE : ℝ) (d : Data) (b : Atomic.Bkg) (Za Aa : ℤ) (m v : ℝ) (reac : Nat) (dens temp n0 t0 : List ℝ) : Entry :=
  rateCoeff c cE d b.ionZ b.ionA b.neutralZ.length Za Aa m v reac dens temp n0 t0

/-- The rates with which the simulation changes a marker of charge `q` and speed `v`. -/
noncomputable def simulation (c cE : ℝ) (d : Data) (b : Atomic.Bkg) (Za Aa : ℤ) (m v : ℝ) (q : ℤ) (dens temp n0 t0 : List ℝ) : Option Atomic.Rates :=
  Atomic.rates c cE d b Za Aa m q (ekinPnorm c m (pnormVnorm c m v)) temp dens n0 t0

/-- The kinetic energy of a speed and of its momentum are the same. -/
theorem same_energy (hc : 0 < c) (hm : 0 < m) (hv : |v| < c) : (gammaVnorm c v - 1) * m * (c * c) = ekinPnorm c m (pnormVnorm c m v) := by
  have h1 : gammaPnorm c m (pnormVnorm c m v) = gammaVnorm c v := by
    obtain ⟨h2, h3⟩ := abs_lt.1 hv
    have h4 : 0 < (1 - v / c) * (1 + v / c) := by
      have : v / c < 1 := (div_lt_one hc).2 h3
      have : -1 < v / c := by rw [lt_div_iff₀ hc]; linarith
      exact mul_pos (by linarith) (by linarith)
    unfold gammaPnorm pnormVnorm
    have h5 : gammaVnorm c v * gammaVnorm c v = 1 / ((1 - v / c) * (1 + v / c)) := Real.mul_self_sqrt (by positivity)
    have h6 : 1 + m * v * gammaVnorm c v * (m * v * gammaVnorm c v) / (m * m * (c * c)) = 1 / ((1 - v / c) * (1 + v / c)) := by
      rw [show m * v * gammaVnorm c v * (m * v * gammaVnorm c v) = m * m * (v * v) * (gammaVnorm c v * gammaVnorm c v) by ring, h5]
      have h7 : (1 - v / c) * (1 + v / c) = (c * c - v * v) / (c * c) := by field_simp; ring
      rw [h7] at h4 ⊢
      have h8 : 0 < c * c - v * v := by
        by_contra h
        exact absurd h4 (not_lt.2 (div_nonpos_of_nonpos_of_nonneg (by linarith) (by positivity)))
      have h9 : c * c - v * v ≠ 0 := h8.ne'
      rw [one_div_div, ← mul_div_assoc, div_div, eq_div_iff h9, add_mul, div_mul_eq_mul_div, one_mul]
      have : m * m * (v * v) * (c * c) * (c * c - v * v) / ((c * c - v * v) * (m * m * (c * c))) = v * v := by
        generalize c * c - v * v = w at h9
        field_simp
      rw [this]
      ring
    rw [h6]
    rfl
  unfold ekinPnorm
  rw [h1]

/-- Charge exchange: with at most one neutral species the library stores a value exactly when the simulation has a rate for the
neutralisation of a singly charged marker, and they are the same. -/
theorem charge_exchange_partial (hc : 0 < c) (hm : 0 < m) (hv : |v| < c) (hn : b.neutralZ.length ≤ 1) (val : Option ℝ) :
    library c cE d b Za Aa m v 6 dens temp n0 t0 = some (some val) ↔
      ∃ r, simulation c cE d b Za Aa m v 1 dens temp n0 t0 = some r ∧ r.err = 0 ∧ r.rec' = val := by
  unfold library simulation rateCoeff Atomic.rates
  rw [if_neg (by omega), same_energy hc hm hv, if_pos rfl, if_pos rfl]
  generalize ekinPnorm c m (pnormVnorm c m v) = e
  cases Atomic.species b.neutralZ.length b.ionZ b.ionA n0 with
  | none => simp
  | some spec =>
    cases t0 with
    | nil => simp
    | cons t ts =>
      simp only [Option.bind_some, List.head?_cons, Option.map_some, Option.some.injEq, exists_eq_left']
      by_cases h : (evalCx cE d Za Aa e t spec).err = 0
      · rw [if_neg (not_not.2 h)]
        simp [h]
      · rw [if_pos h]
        simp [h]

/-- Beam stopping: the same for the ionisation of a neutral marker, if there is a single ion species whose density is that of the
electrons. -/
theorem beam_stopping_partial (hc : 0 < c) (hm : 0 < m) (hv : |v| < c) (hn : b.neutralZ.length ≤ 1) (hz : b.ionZ.length = 1)
    {x : ℝ} (val : Option ℝ) :
    library c cE d b Za Aa m v 7 [x, x] temp n0 t0 = some (some val) ↔
      ∃ r, simulation c cE d b Za Aa m v 0 [x, x] temp n0 t0 = some r ∧ r.err = 0 ∧ r.ion = val := by
  unfold library simulation rateCoeff Atomic.rates
  rw [if_neg (by omega), same_energy hc hm hv, if_neg (by norm_num), if_pos rfl, if_neg (by norm_num), if_pos rfl, hz]
  generalize ekinPnorm c m (pnormVnorm c m v) = e
  have hs : Atomic.species 1 b.ionZ b.ionA [x, x] = Atomic.species 1 b.ionZ b.ionA [x, x].tail := by
    simp [Atomic.species, hz]
  rw [hs]
  cases Atomic.species 1 b.ionZ b.ionA [x, x].tail with
  | none => simp
  | some spec =>
    cases temp with
    | nil => simp
    | cons t ts =>
      simp only [Option.bind_some, List.head?_cons, Option.map_some, Option.some.injEq, exists_eq_left']
      cases evalBms c cE d Za Aa e m t spec with
      | none => simp
      | some r =>
        simp only [Option.map_some, Option.some.injEq, exists_eq_left']
        by_cases h : r.err = 0
        · rw [if_neg (not_not.2 h)]
          simp [h]
        · rw [if_pos h]
          simp [h]

/-! ### A plasma with an impurity -/

/-- Tables for a deuterium beam: rate coefficient 1 for stopping by deuterium, 2 by carbon, and 3 for charge exchange with
deuterium. -/
noncomputable def tables : Data :=
  ⟨some [⟨1, 2, 1, 2, 7, fun _ => none, fun _ _ => none, fun _ _ _ => some 1⟩,
    ⟨1, 2, 6, 12, 7, fun _ => none, fun _ _ => none, fun _ _ _ => some 2⟩,
    ⟨1, 2, 1, 2, 6, fun _ => none, fun _ _ => some 3, fun _ _ _ => none⟩], false⟩

/-- Deuterium and carbon; deuterium neutrals. -/
noncomputable def carbon : Atomic.Bkg :=
  ⟨[1, 6], [2, 12], fun _ => .ok ([1, 2 / 5, 1 / 10], [1, 1, 1]), [1], [2], fun _ => .ok [1 / 10], fun _ => .ok [1]⟩

theorem evalBms_tables {e : ℝ} (x y : ℝ) (hx : 0 < x) (hy : 0 < y) : evalBms c cE tables 1 2 e m 1 [⟨x, 2, 1⟩, ⟨y, 12, 6⟩] =
    some ⟨0, some ((x + 12 * y) / (x + 6 * y))⟩ := by
  have hpos : x + 6 * y ≠ 0 := by positivity
  have h0 : ¬ (x + 12 * y) / (x + 6 * y) < 0 := not_lt.2 (by positivity)
  have h1 : (x + 2 * (6 * y)) / (x + 6 * y) = (x + 12 * y) / (x + 6 * y) := by ring
  unfold evalBms tables
  simp [locBms, bmsInner, bmsMatch, fromInterp, hpos, clip, h1, h0]

/-- In a quasi-neutral plasma with some carbon, the ionisation rate in the simulation is 1.6 while the library gives 5.8/3.4 ≈ 1.7: it takes
the electron density for that of deuterium and the deuterium density for that of carbon. -/
theorem beam_stopping_wrong : (∃ r, simulation c cE tables carbon 1 2 m v 0 [1, 2 / 5, 1 / 10] [1, 1, 1] [1 / 10] [1] = some r ∧
      r.err = 0 ∧ r.ion = some (8 / 5)) ∧
    library c cE tables carbon 1 2 m v 7 [1, 2 / 5, 1 / 10] [1, 1, 1] [1 / 10] [1] = some (some (some (29 / 17))) := by
  constructor
  · refine ⟨⟨0, some (8 / 5), some 0⟩, ?_, rfl, rfl⟩
    unfold simulation Atomic.rates
    rw [if_neg (by norm_num), if_pos rfl]
    have : Atomic.species carbon.ionZ.length carbon.ionZ carbon.ionA [1, 2 / 5, 1 / 10].tail = some [⟨2 / 5, 2, 1⟩, ⟨1 / 10, 12, 6⟩] := by
      simp [Atomic.species, carbon, show List.range 2 = [0, 1] from rfl]
    rw [this]
    simp only [Option.bind_some, List.head?_cons]
    rw [evalBms_tables _ _ (by norm_num) (by norm_num)]
    simp
    norm_num
  · unfold library rateCoeff
    rw [if_neg (by simp [carbon]), if_neg (by norm_num), if_pos rfl]
    have : Atomic.species carbon.ionZ.length carbon.ionZ carbon.ionA [1, 2 / 5, 1 / 10] = some [⟨1, 2, 1⟩, ⟨2 / 5, 12, 6⟩] := by
      simp [Atomic.species, carbon, show List.range 2 = [0, 1] from rfl]
    rw [this]
    simp only [Option.bind_some, List.head?_cons]
    rw [evalBms_tables _ _ (by norm_num) (by norm_num)]
    simp
    norm_num

/-- The hypotheses of the partial theorems are met: charge exchange in the same plasma gives 0.3 both times. -/
example : library 1 cE tables carbon 1 2 1 (1 / 2) 6 [1, 2 / 5, 1 / 10] [1, 1, 1] [1 / 10] [1] = some (some (some (3 / 10))) := by
  rw [charge_exchange_partial one_pos one_pos (by rw [abs_of_pos] <;> norm_num) (by simp [carbon])]
  refine ⟨⟨0, some 0, some (3 / 10)⟩, ?_, rfl, rfl⟩
  unfold simulation Atomic.rates
  rw [if_pos rfl]
  have : Atomic.species carbon.neutralZ.length carbon.ionZ carbon.ionA [1 / 10] = some [⟨1 / 10, 2, 1⟩] := by
    simp [Atomic.species, carbon]
  rw [this]
  simp [evalCx, tables, locCx, cxStep, lastMatch, fromInterp, clip]
  norm_num

/-- Deuterium alone. -/
noncomputable def pure : Atomic.Bkg :=
  ⟨[1], [2], fun _ => .ok ([1, 1], [1, 1]), [1], [2], fun _ => .ok [1 / 10], fun _ => .ok [1]⟩

example : library 1 cE tables pure 1 2 1 (1 / 2) 7 [1, 1] [1, 1] [1 / 10] [1] = some (some (some 1)) := by
  rw [beam_stopping_partial one_pos one_pos (by rw [abs_of_pos] <;> norm_num) (by simp [pure]) rfl]
  refine ⟨⟨0, some 1, some 0⟩, ?_, rfl, rfl⟩
  unfold simulation Atomic.rates
  rw [if_neg (by norm_num), if_pos rfl]
  have : Atomic.species pure.ionZ.length pure.ionZ pure.ionA [1, 1].tail = some [⟨1, 2, 1⟩] := by
    simp [Atomic.species, pure]
  rw [this]
  simp [evalBms, tables, locBms, bmsInner, bmsMatch, fromInterp, clip, show ¬ (1 : ℝ) < 0 by norm_num]

/-! ### Several neutral species -/

/-- With two neutral species, both calls write past the end of an array of one element. -/
theorem neutrals_overflow (reac : Nat) (x y : ℝ) (hn : b.neutralZ.length = 2) :
    library c cE d b Za Aa m v reac dens temp n0 t0 = none ∧ neutralDensity (.ok [x, y]) = none := by
  unfold library rateCoeff neutralDensity
  rw [if_pos (by omega)]
  simp

/-- The density of a single neutral species is passed on. -/
theorem neutral_density_partial (x : ℝ) (e : Nat) : neutralDensity (.ok [x]) = some (some (some x)) ∧ neutralDensity (.error e) = some none := by
  simp [neutralDensity]

end Ascot.C114
