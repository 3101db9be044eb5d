import Verif.Lemmas.Plasma
import Verif.Props.C36_C39_Spline
import Mathlib.Tactic.NormNum
import Mathlib.Algebra.Order.Ring.Rat

/-!
# C52, C96 and C97: plasma profiles

`Between`, `Outside` and `lerp` (in `Verif.Spec.Profile`) are the interval of the grid, the region outside of it and the straight
line between two grid points.
-/
set_option linter.unusedSectionVars false
set_option linter.unusedSimpArgs false

namespace Ascot.C52
open Ascot.Plasma Ascot.Profile
variable {K : Type} [Field K] [LinearOrder K] [IsStrictOrderedRing K]

/-- Every radius is outside of the grid or in exactly one interval. -/
theorem cases {n : Nat} {x : Nat → K} (hx : Increasing n x) (v : K) : Xor' (Outside n x v) (∃! i, Between n x v i) := by
  by_cases h : Outside n x v
  · exact .inl ⟨h, fun ⟨i, hi, _⟩ => hi.not_outside hx h⟩
  · have h' := not_or.1 h
    obtain ⟨i, hi⟩ := between_of (not_lt.1 h'.1) (not_le.1 h'.2)
    exact .inr ⟨⟨i, hi, fun j hj => hj.unique hx hi⟩, h⟩

/-- Density and temperature are interpolated linearly, whether they are asked for one by one or together, and there is an error
outside of the grid.  Not as in the property: the last grid point counts as outside (see `last_point_rejected`). -/
theorem linear_partial (nrho nion : Nat) {rho : Nat → K} (Te Ti ne ni vtor : Nat → K) (hn : 0 < nrho) (hr : Increasing nrho rho) :
    ∃ p, init1D nrho nion rho Te Ti ne ni vtor = some p ∧
      (∀ v i, Between nrho rho v i →
        (∀ s ≤ nion, dens1D p v s = some (.ok (lerp rho (species nrho ne ni s) v i))) ∧
        (∀ s ≤ nion, temp1D p v s = some (.ok (lerp rho (temperature Te Ti s) v i))) ∧
        densandtemp1D p v = some (.ok ((List.range (nion + 1)).map fun s =>
          (lerp rho (species nrho ne ni s) v i, lerp rho (temperature Te Ti s) v i)))) ∧
      (∀ v, Outside nrho rho v → ∃ e1 e2 e3, e1 ≠ 0 ∧ e2 ≠ 0 ∧ e3 ≠ 0 ∧
        (∀ s, dens1D p v s = some (.error e1)) ∧ (∀ s, temp1D p v s = some (.error e2)) ∧ densandtemp1D p v = some (.error e3)) := by
  obtain ⟨p, hp, h⟩ := init1D_good nrho nion rho Te Ti ne ni vtor
  refine ⟨p, hp, ?_, ?_⟩
  · intro v i hi
    have hi1 := hi.1
    refine ⟨?_, ?_, ?_⟩
    · intro s hs
      unfold dens1D
      rw [h.n, onGrid_in h.rho hr hi, weight_between h.rho hr hi, Option.bind_some, line_species h.dens hi1 (by omega)]
      rfl
    · intro s _
      unfold temp1D
      rw [h.n, onGrid_in h.rho hr hi, weight_between h.rho hr hi, Option.bind_some]
      have e : ((if s > 0 then 1 else 0 : Int)) = ((if s > 0 then 1 else 0 : Nat) : Int) := by split <;> rfl
      rw [e, line_species h.temp hi1 (by split <;> omega), species_temp, species_temp]
      rfl
    · unfold densandtemp1D
      rw [h.n, h.ns, onGrid_in h.rho hr hi, weight_between h.rho hr hi, Option.bind_some,
        speciesLoop_eq (fun s hs => line_species h.dens hi1 hs _) (fun s hs => line_species h.temp hi1 hs _), Option.map_some]
      congr 3
      funext s
      rw [species_temp, species_temp]
      rfl
  · intro v hv
    have hz : ∀ e : Nat, e % 256 = 1 → e ≠ 0 := by intro e h h'; subst h'; simp at h
    have H : ∀ l1 l2 : Nat, ∃ e, e ≠ 0 ∧ ∀ {α : Type} (k : Res α), onGrid p.rho nrho v l1 l2 k = some (.error e) := by
      intro l1 l2
      have h0 := h.rho.get (z := 0) (i := 0) rfl hn
      have h1 := h.rho.get (z := (nrho : Int) - 1) (i := nrho - 1) (by omega) (by omega)
      by_cases hl : v < rho 0
      · refine ⟨Error.raise 1 l1 15, by unfold Error.raise; omega, fun k => ?_⟩
        unfold onGrid; rw [h0, Option.bind_some, if_pos hl]
      · refine ⟨Error.raise 1 l2 15, by unfold Error.raise; omega, fun k => ?_⟩
        unfold onGrid; rw [h0, Option.bind_some, if_neg hl, h1, Option.bind_some, if_pos (hv.resolve_left hl)]
    obtain ⟨e1, z1, g1⟩ := H 192 195
    obtain ⟨e2, z2, g2⟩ := H 152 155
    obtain ⟨e3, z3, g3⟩ := H 231 234
    refine ⟨e1, e2, e3, z1, z2, z3, fun s => ?_, fun s => ?_, ?_⟩
    · unfold dens1D; rw [h.n]; exact g1 _
    · unfold temp1D; rw [h.n]; exact g2 _
    · unfold densandtemp1D; rw [h.n]; exact g3 _

/-- The tabulated values are reproduced at all grid points except the last. -/
theorem tabulated_partial (nrho nion : Nat) {rho : Nat → K} (Te Ti ne ni vtor : Nat → K) (hr : Increasing nrho rho) :
    ∃ p, init1D nrho nion rho Te Ti ne ni vtor = some p ∧ ∀ i, i + 1 < nrho → ∀ s ≤ nion,
      dens1D p (rho i) s = some (.ok (species nrho ne ni s i)) ∧ temp1D p (rho i) s = some (.ok (temperature Te Ti s i)) := by
  by_cases hn : 0 < nrho
  · obtain ⟨p, hp, h, -⟩ := linear_partial nrho nion Te Ti ne ni vtor hn hr
    refine ⟨p, hp, fun i hi s hs => ?_⟩
    obtain ⟨h1, h2, -⟩ := h (rho i) i ⟨hi, le_rfl, hr i hi⟩
    rw [h1 s hs, h2 s hs]
    simp [lerp]
  · obtain ⟨p, hp, -⟩ := init1D_good nrho nion rho Te Ti ne ni vtor
    exact ⟨p, hp, fun i hi => absurd hi (by omega)⟩

/-- Finding: at the last point of the grid, for which there is data, the evaluation fails. -/
theorem last_point_rejected (nrho nion : Nat) {rho : Nat → K} (Te Ti ne ni vtor : Nat → K) (hn : 0 < nrho) (hr : Increasing nrho rho) :
    ∃ p, init1D nrho nion rho Te Ti ne ni vtor = some p ∧ ∀ s, ∃ e, dens1D p (rho (nrho - 1)) s = some (.error e) := by
  obtain ⟨p, hp, -, h⟩ := linear_partial nrho nion Te Ti ne ni vtor hn hr
  obtain ⟨e1, _, _, _, _, _, h1, _⟩ := h (rho (nrho - 1)) (.inr le_rfl)
  exact ⟨p, hp, fun s => ⟨e1, h1 s⟩⟩

/-- Finding: the flow is not interpolated; it is that of the grid point to the left over the whole interval. -/
theorem flow_is_a_step (nrho nion : Nat) {rho : Nat → K} (Te Ti ne ni vtor : Nat → K) (hr : Increasing nrho rho) :
    ∃ p, init1D nrho nion rho Te Ti ne ni vtor = some p ∧ ∀ v r i, Between nrho rho v i → flow1D p v r = some (.ok (vtor i * r)) := by
  obtain ⟨p, hp, h⟩ := init1D_good nrho nion rho Te Ti ne ni vtor
  refine ⟨p, hp, fun v r i hi => ?_⟩
  have hi1 := hi.1
  unfold flow1D
  rw [h.n, onGrid_in h.rho hr hi, scan_between h.rho hr hi, Option.bind_some, h.vtor.get (i := i) (by push_cast; ring) (by omega)]
  rfl

/-- Three grid points, one ion. -/
example : Increasing 3 (fun i => ([0, 1, 3] : List ℚ).getD i 0) ∧ Between 3 (fun i => ([0, 1, 3] : List ℚ).getD i 0) 2 1 ∧
    Outside 3 (fun i => ([0, 1, 3] : List ℚ).getD i 0) (-1) := by
  refine ⟨?_, ⟨by decide, by decide +kernel, by decide +kernel⟩, .inl (by decide +kernel)⟩
  intro i hi
  have : i = 0 ∨ i = 1 := by omega
  rcases this with rfl | rfl <;> decide +kernel

example : ((init1D 3 1 (fun i => ([0, 1, 3] : List ℚ).getD i 0) (fun i => i) (fun i => 10 * i) (fun i => i + 1) (fun i => ([7, 9, 4] : List ℚ).getD i 0)
    (fun _ => 0)).bind fun p => (dens1D p 2 1).map fun e => e.toOption) = some (some (13 / 2)) := by decide +kernel

end Ascot.C52

namespace Ascot.C96
open Ascot.Plasma Ascot.Profile
variable {K : Type} [Field K] [LinearOrder K] [IsStrictOrderedRing K]

/-- A profile at each time. -/
def row (nrho : Nat) (f : Nat → K) (j : Nat) : Nat → K := fun k => f (j * nrho + k)

/-- Linear in radius and in time. -/
def bilinear (rho time : Nat → K) (f : Nat → Nat → K) (v t : K) (i j : Nat) : K := lerp time (fun j => lerp rho (f j) v i) t j

/-- The temperatures are interpolated linearly in radius and time in all but the last time interval and are those of the last
profile after the last time.  Not as in the property: densities and flow, the last interval, times before the first. -/
theorem temperature_partial (nrho ntime nion : Nat) {rho time : Nat → K} (Te Ti ne ni vtor : Nat → K) (h2 : 2 ≤ ntime)
    (hr : Increasing nrho rho) (ht : Increasing ntime time) :
    ∃ p, init1Dt nrho ntime nion rho time Te Ti ne ni vtor = some p ∧ ∀ v i, Between nrho rho v i → ∀ s ≤ nion,
      (∀ t j, Between ntime time t j → j + 2 < ntime →
        temp1Dt p v t s = some (.ok (bilinear rho time (fun j => temperature (row nrho Te j) (row nrho Ti j) s) v t i j))) ∧
      (∀ t, time (ntime - 1) ≤ t →
        temp1Dt p v t s = some (.ok (lerp rho (temperature (row nrho Te (ntime - 1)) (row nrho Ti (ntime - 1)) s) v i))) := by
  obtain ⟨p, hp, h⟩ := init1Dt_good nrho ntime nion rho time Te Ti ne ni vtor
  refine ⟨p, hp, fun v i hi s hs => ⟨fun t j hj hl => ?_, fun t hl => ?_⟩⟩
  · unfold temp1Dt
    rw [densandtemp_eq h hr hi (timeWeight_between h ht hj hl) (by omega), Option.bind_some]
    simp only [List.getElem?_map, List.getElem?_range (show s < nion + 1 by omega), Option.map_some]
    rfl
  · have hl' : time (ntime - 2) ≤ t := (ht.le (by omega) (by omega)).trans hl
    unfold temp1Dt
    rw [densandtemp_eq h hr hi (timeWeight_late h ht h2 hl') (by omega), Option.bind_some]
    simp only [List.getElem?_map, List.getElem?_range (show s < nion + 1 by omega), Option.map_some, mix]
    rw [show ntime - 2 + 1 = ntime - 1 by omega, one_mul, add_sub_cancel]
    rfl

/-- With electrons only, the density is interpolated as well. -/
theorem electrons_only_partial (nrho ntime : Nat) {rho time : Nat → K} (Te Ti ne ni vtor : Nat → K) (h2 : 2 ≤ ntime)
    (hr : Increasing nrho rho) (ht : Increasing ntime time) :
    ∃ p, init1Dt nrho ntime 0 rho time Te Ti ne ni vtor = some p ∧ ∀ v i, Between nrho rho v i →
      (∀ t j, Between ntime time t j → j + 2 < ntime →
        dens1Dt p v t 0 = some (.ok (bilinear rho time (row nrho ne) v t i j))) ∧
      (∀ t, time (ntime - 1) ≤ t → dens1Dt p v t 0 = some (.ok (lerp rho (row nrho ne (ntime - 1)) v i))) := by
  obtain ⟨p, hp, h⟩ := init1Dt_good nrho ntime 0 rho time Te Ti ne ni vtor
  have hb : ∀ b < ntime, blockD nrho ntime ne ni (b * (0 + 1) + 0) = row nrho ne b := by
    intro b hb
    funext k
    simp only [blockD, Nat.zero_add, Nat.mul_one, Nat.add_zero]
    rw [Nat.div_eq_of_lt hb, Nat.mod_eq_of_lt hb]
    simp [species, row]
  refine ⟨p, hp, fun v i hi => ⟨fun t j hj hl => ?_, fun t hl => ?_⟩⟩
  · unfold dens1Dt
    rw [densandtemp_eq h hr hi (timeWeight_between h ht hj hl) (by omega), Option.bind_some]
    simp only [List.getElem?_map, List.getElem?_range (show 0 < 0 + 1 by omega), Option.map_some]
    rw [hb j (by omega), hb (j + 1) (by omega)]
    rfl
  · have hl' : time (ntime - 2) ≤ t := (ht.le (by omega) (by omega)).trans hl
    unfold dens1Dt
    rw [densandtemp_eq h hr hi (timeWeight_late h ht h2 hl') (by omega), Option.bind_some]
    simp only [List.getElem?_map, List.getElem?_range (show 0 < 0 + 1 by omega), Option.map_some, mix]
    rw [hb (ntime - 2 + 1) (by omega), show ntime - 2 + 1 = ntime - 1 by omega, one_mul, add_sub_cancel]

/-- Outside of the radial grid there is an error, whatever the time. -/
theorem outside (nrho ntime nion : Nat) {rho time : Nat → K} (Te Ti ne ni vtor : Nat → K) (hn : 0 < nrho) :
    ∃ p, init1Dt nrho ntime nion rho time Te Ti ne ni vtor = some p ∧ ∀ v t, Outside nrho rho v →
      ∃ e, e ≠ 0 ∧ densandtemp1Dt p v t = some (.error e) ∧ (∀ s, temp1Dt p v t s = some (.error e)) ∧
        (∀ s, dens1Dt p v t s = some (.error e)) ∧ ∀ r, ∃ e', e' ≠ 0 ∧ flow1Dt p v t r = some (.error e') := by
  obtain ⟨p, hp, h⟩ := init1Dt_good nrho ntime nion rho time Te Ti ne ni vtor
  refine ⟨p, hp, fun v t hv => ?_⟩
  have hz : ∀ e : Nat, e % 256 = 1 → e ≠ 0 := by intro e h h'; subst h'; simp at h
  have hd : ∃ e, densandtemp1Dt p v t = some (.error e) ∧ e % 256 = 1 := by
    unfold densandtemp1Dt; rw [h.n]; exact onGrid_out h.rho hn hv _ _ _
  obtain ⟨e, he, h1⟩ := hd
  refine ⟨e, hz e h1, he, fun s => ?_, fun s => ?_, fun r => ?_⟩
  · unfold temp1Dt; rw [he]; rfl
  · unfold dens1Dt; rw [he]; rfl
  · have : ∃ e, flow1Dt p v t r = some (.error e) ∧ e % 256 = 1 := by
      unfold flow1Dt; rw [h.n]; exact onGrid_out h.rho hn hv _ _ _
    obtain ⟨e', a, b⟩ := this
    exact ⟨e', hz e' b, a⟩

/-- Finding: the densities are written species by species and read time by time.  With at least one ion and three times, the
density returned for the first ion at the first time is that of the electrons at the second time. -/
theorem ion_density_is_electron_density (nrho ntime nion : Nat) {rho time : Nat → K} (Te Ti ne ni vtor : Nat → K) (h3 : 3 ≤ ntime) (h1 : 1 ≤ nion)
    (hr : Increasing nrho rho) (ht : Increasing ntime time) :
    ∃ p, init1Dt nrho ntime nion rho time Te Ti ne ni vtor = some p ∧ ∀ v i, Between nrho rho v i →
      dens1Dt p v (time 0) 1 = some (.ok (lerp rho (row nrho ne 1) v i)) := by
  obtain ⟨p, hp, h⟩ := init1Dt_good nrho ntime nion rho time Te Ti ne ni vtor
  refine ⟨p, hp, fun v i hi => ?_⟩
  have hj : Between ntime time (time 0) 0 := ⟨by omega, le_rfl, ht 0 (by omega)⟩
  unfold dens1Dt
  rw [densandtemp_eq h hr hi (timeWeight_between h ht hj (by omega)) (by omega), Option.bind_some]
  simp only [List.getElem?_map, List.getElem?_range (show 1 < nion + 1 by omega), Option.map_some, mix, sub_self, zero_div, zero_mul, add_zero,
    Nat.zero_mul, Nat.zero_add]
  have e : blockD nrho ntime ne ni 1 = row nrho ne 1 := by
    funext k
    simp only [blockD]
    rw [Nat.div_eq_of_lt (by omega), Nat.mod_eq_of_lt (by omega)]
    simp [species, row]
  rw [e]

/-- Finding: over the whole of the last interval the temperature is that of the last profile, so it jumps at the beginning of
the interval and is not interpolated in it. -/
theorem last_interval_not_interpolated (nrho ntime nion : Nat) {rho time : Nat → K} (Te Ti ne ni vtor : Nat → K) (h2 : 2 ≤ ntime)
    (hr : Increasing nrho rho) (ht : Increasing ntime time) :
    ∃ p, init1Dt nrho ntime nion rho time Te Ti ne ni vtor = some p ∧ ∀ v i, Between nrho rho v i → ∀ t, time (ntime - 2) ≤ t → ∀ s ≤ nion,
      temp1Dt p v t s = some (.ok (lerp rho (temperature (row nrho Te (ntime - 1)) (row nrho Ti (ntime - 1)) s) v i)) := by
  obtain ⟨p, hp, h⟩ := init1Dt_good nrho ntime nion rho time Te Ti ne ni vtor
  refine ⟨p, hp, fun v i hi t hl s hs => ?_⟩
  unfold temp1Dt
  rw [densandtemp_eq h hr hi (timeWeight_late h ht h2 hl) (by omega), Option.bind_some]
  simp only [List.getElem?_map, List.getElem?_range (show s < nion + 1 by omega), Option.map_some, mix]
  rw [show ntime - 2 + 1 = ntime - 1 by omega, one_mul, add_sub_cancel]
  rfl

/-- Finding: for a time before the first one an element before the beginning of the array is read. -/
theorem early_time_undefined (nrho ntime nion : Nat) {rho time : Nat → K} (Te Ti ne ni vtor : Nat → K) (h2 : 2 ≤ ntime)
    (hr : Increasing nrho rho) :
    ∃ p, init1Dt nrho ntime nion rho time Te Ti ne ni vtor = some p ∧ ∀ v i, Between nrho rho v i → ∀ t, t < time 0 →
      densandtemp1Dt p v t = none ∧ ∀ r, flow1Dt p v t r = none := by
  obtain ⟨p, hp, h⟩ := init1Dt_good nrho ntime nion rho time Te Ti ne ni vtor
  refine ⟨p, hp, fun v i hi t hl => ⟨?_, fun r => ?_⟩⟩
  · unfold densandtemp1Dt
    rw [h.n, onGrid_in h.rho hr hi, weight_between h.rho hr hi, Option.bind_some, timeWeight_early h h2 hl]; rfl
  · unfold flow1Dt
    rw [h.n, onGrid_in h.rho hr hi, weight_between h.rho hr hi, Option.bind_some, timeWeight_early h h2 hl]; rfl

/-- The flow at the grid points is the tabulated one, except in the last interval. -/
theorem flow_tabulated_partial (nrho ntime nion : Nat) {rho time : Nat → K} (Te Ti ne ni vtor : Nat → K)
    (hr : Increasing nrho rho) (ht : Increasing ntime time) :
    ∃ p, init1Dt nrho ntime nion rho time Te Ti ne ni vtor = some p ∧ ∀ i j r, i + 1 < nrho → j + 2 < ntime →
      flow1Dt p (rho i) (time j) r = some (.ok (row nrho vtor j i * r)) := by
  obtain ⟨p, hp, h⟩ := init1Dt_good nrho ntime nion rho time Te Ti ne ni vtor
  refine ⟨p, hp, fun i j r hi hj => ?_⟩
  have bi : Between nrho rho (rho i) i := ⟨hi, le_rfl, hr i hi⟩
  have bj : Between ntime time (time j) j := ⟨by omega, le_rfl, ht j (by omega)⟩
  rw [flow_eq h hr bi (timeWeight_between h ht bj hj) (by omega)]
  simp [mix, row]

/-- Finding: between grid points the weights of radius and time are exchanged.  At a given time the flow at a radius inside an
interval is interpolated in time, with the relative position in radius as weight. -/
theorem flow_weights_exchanged (nrho ntime nion : Nat) {rho time : Nat → K} (Te Ti ne ni vtor : Nat → K)
    (hr : Increasing nrho rho) (ht : Increasing ntime time) :
    ∃ p, init1Dt nrho ntime nion rho time Te Ti ne ni vtor = some p ∧ ∀ v i j r, Between nrho rho v i → j + 2 < ntime →
      flow1Dt p v (time j) r = some (.ok ((row nrho vtor j i + (v - rho i) / (rho (i + 1) - rho i) * (row nrho vtor (j + 1) i - row nrho vtor j i)) * r)) := by
  obtain ⟨p, hp, h⟩ := init1Dt_good nrho ntime nion rho time Te Ti ne ni vtor
  refine ⟨p, hp, fun v i j r bi hj => ?_⟩
  have bj : Between ntime time (time j) j := ⟨by omega, le_rfl, ht j (by omega)⟩
  rw [flow_eq h hr bi (timeWeight_between h ht bj hj) (by omega)]
  simp [mix, row]

/-- A plasma with one ion at three times: the electron density is 1, 2 and 3 at the three times and the ion density is 100, but
the ion density at the first time comes out as 2. -/
theorem density_wrong : ((init1Dt 2 3 1 (fun i => (i : ℚ)) (fun i => (i : ℚ)) (fun _ => 1) (fun _ => 1) (fun i => (i / 2 : Nat) + 1) (fun _ => 100)
    (fun _ => 0)).bind fun p => (dens1Dt p (1 / 2) 0 1).map fun e => e.toOption) = some (some 2) := by decide +kernel

/-- The flow is 0 at the inner and 1 at the outer point at all times, but 0 half way between them. -/
theorem flow_wrong : ((init1Dt 2 3 0 (fun i => (i : ℚ)) (fun i => (i : ℚ)) (fun _ => 1) (fun _ => 1) (fun _ => 1) (fun _ => 1)
    (fun i => (i % 2 : Nat))).bind fun p => (flow1Dt p (1 / 2) 0 1).map fun e => e.toOption) = some (some 0) := by decide +kernel

example : Increasing 2 (fun i => (i : ℚ)) ∧ Increasing 3 (fun i => (i : ℚ)) ∧ Between 2 (fun i => (i : ℚ)) (1 / 2) 0 ∧
    Between 3 (fun i => (i : ℚ)) 0 0 := by
  refine ⟨fun i _ => by push_cast; linarith, fun i _ => by push_cast; linarith, ⟨by decide, ?_, ?_⟩, ⟨by decide, ?_, ?_⟩⟩ <;> norm_num

end Ascot.C96
