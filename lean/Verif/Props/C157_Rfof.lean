import Verif.Model.Rfof
import Mathlib.Analysis.Real.Pi.Bounds
import Mathlib.Analysis.SpecialFunctions.Sqrt
import Mathlib.Tactic.Linarith
import Mathlib.Tactic.FieldSimp
import Mathlib.Tactic.Positivity
import Mathlib.Tactic.NormNum
import Mathlib.Tactic.Ring

set_option linter.unusedSectionVars false
set_option linter.unusedSimpArgs false

/-!
# C157: the wave library is given one guiding centre, and its kick reaches the marker

With radio-frequency heating, after each step the library is given the quantities of each running guiding centre: they
belong to one particle with the marker's mass, parallel momentum and magnetic moment, and the canonical momentum is
that of the marker (so that it is constant along an unperturbed orbit in an axisymmetric field).  The kick changes the
parallel velocity by what the library says; markers that are not running are left as they are; a step that overshot the
resonance is reported by a negative suggestion.

The quantities are those of Newtonian mechanics; the canonical momentum is not that of the marker.
-/
namespace Ascot.C157

open Rfof

variable {H : Type} {c : ℝ} {psi : ℝ → ℝ → ℝ → ℝ → ℝ} {lib : Library H}

/-- Lanes without a running marker are not touched. -/
theorem idle (l : Lane H) (h : l.p.id ≤ 0 ∨ l.p.running = false) : kick c psi lib l = l := by
  unfold kick
  rw [if_neg]
  rintro ⟨h1, h2⟩
  rcases h with h | h
  · exact absurd h1 (by omega)
  · rw [h] at h2
    exact absurd h2 (by decide)

example : (⟨⟨-1, true, 1, 0, 0, 0, 1, 1, 1, 1, 1, 0, 1, 0⟩, 1, 1, ()⟩ : Lane Unit).p.id ≤ 0 := by decide

/-- The library is given the marker's own place, weight, charge, mass and moment, and energy, speed and its components
of one particle, by Newtonian mechanics, with this moment and parallel momentum. -/
theorem consistent {f : ℝ} {p : Gc} (hm : 0 < p.mass) (hmu : 0 ≤ p.mu) :
    let g := given c f p
    g.r = p.r ∧ g.phi = p.phi ∧ g.z = p.z ∧ g.weight = p.weight ∧ g.charge = p.charge ∧ g.mass = p.mass ∧
      g.mu = p.mu ∧ g.psi = 2 * Real.pi * f ∧
      p.mass * g.vpar = p.ppar ∧ 0 ≤ g.vperp ∧ 0 ≤ g.speed ∧ g.vpar ^ 2 + g.vperp ^ 2 = g.speed ^ 2 ∧
      g.ekin = p.mass * g.speed ^ 2 / 2 ∧ p.mu * fieldNorm p = p.mass * g.vperp ^ 2 / 2 := by
  have hB : 0 ≤ fieldNorm p := Real.sqrt_nonneg _
  have h1 : 0 ≤ 2 * p.mu * fieldNorm p / p.mass := by positivity
  have h2 : 0 ≤ (p.ppar / p.mass) * (p.ppar / p.mass) + 2 * p.mu * fieldNorm p / p.mass :=
    add_nonneg (mul_self_nonneg _) h1
  have hm' := hm.ne'
  refine ⟨rfl, rfl, rfl, rfl, rfl, rfl, rfl, mul_comm _ _, ?_, Real.sqrt_nonneg _, Real.sqrt_nonneg _, ?_, ?_, ?_⟩
  · show p.mass * (p.ppar / p.mass) = p.ppar
    field_simp
  · show (p.ppar / p.mass) ^ 2 + Real.sqrt _ ^ 2 = Real.sqrt _ ^ 2
    rw [Real.sq_sqrt h1, Real.sq_sqrt h2]
    ring
  · show p.ppar * p.ppar / (2 * p.mass) + p.mu * fieldNorm p = p.mass * Real.sqrt _ ^ 2 / 2
    rw [Real.sq_sqrt h2]
    field_simp
  · show p.mu * fieldNorm p = p.mass * Real.sqrt _ ^ 2 / 2
    rw [Real.sq_sqrt h1]
    field_simp

/-- A proton-like marker. -/
noncomputable def exGc : Gc := ⟨1, true, 1, 0, 0, 0, 1, 1, 2, 3, 1, 0, 1, 0⟩

example : 0 < exGc.mass ∧ 0 ≤ exGc.mu := by
  constructor <;> simp [exGc]

/-- The kick of a running marker: the parallel velocity changes by what the library says, and the magnetic moment (and
the rest the library has pointers to) is what the library left there.  Time, ID and the field are as before. -/
theorem kicked {l : Lane H} (hid : 0 < l.p.id) (hrun : l.p.running = true) {a : Answer} {m : H}
    (ha : lib l.p.time l.hin (given c (psi l.p.r l.p.phi l.p.z l.p.time) l.p) l.memory = (a, m))
    (hmass : a.mass = l.p.mass) (hpos : 0 < l.p.mass) :
    let k := kick c psi lib l
    k.p.ppar / k.p.mass = l.p.ppar / l.p.mass + a.dvpar ∧ k.p.mass = l.p.mass ∧ k.p.mu = a.mu ∧
      k.p.weight = a.weight ∧ (k.p.r, k.p.phi, k.p.z) = (a.r, a.phi, a.z) ∧ k.p.charge = a.charge ∧
      k.p.id = l.p.id ∧ k.p.running = true ∧ k.p.time = l.p.time ∧
      (k.p.br, k.p.bphi, k.p.bz) = (l.p.br, l.p.bphi, l.p.bz) ∧ k.hin = l.hin ∧ k.memory = m := by
  unfold kick
  rw [if_pos ⟨hid, hrun⟩, ha]
  refine ⟨?_, hmass, rfl, rfl, rfl, rfl, rfl, hrun, rfl, rfl, rfl, rfl⟩
  show (l.p.ppar + a.mass * a.dvpar) / a.mass = _
  rw [hmass]
  field_simp

/-- The suggestion is negative just if the resonance was overshot, and has the size of the library's suggestion. -/
theorem overshot {l : Lane H} (hid : 0 < l.p.id) (hrun : l.p.running = true) {a : Answer} {m : H}
    (ha : lib l.p.time l.hin (given c (psi l.p.r l.p.phi l.p.z l.p.time) l.p) l.memory = (a, m)) (hdt : 0 < a.dt) :
    ((kick c psi lib l).hout < 0 ↔ a.err = 7) ∧ |(kick c psi lib l).hout| = a.dt := by
  unfold kick
  rw [if_pos ⟨hid, hrun⟩, ha]
  show ((if a.err = 7 then -a.dt else a.dt) < 0 ↔ a.err = 7) ∧ |if a.err = 7 then -a.dt else a.dt| = a.dt
  by_cases h : a.err = 7
  · rw [if_pos h]
    exact ⟨⟨fun _ => h, fun _ => by linarith⟩, by rw [abs_neg, abs_of_pos hdt]⟩
  · rw [if_neg h]
    exact ⟨⟨fun h' => absurd h' (by linarith), fun h' => absurd h' h⟩, abs_of_pos hdt⟩

/-- A library that pushes every marker. -/
noncomputable def exLib : Library ℕ := fun _ h g n =>
  (⟨g.weight, g.r, g.phi, g.z, g.charge, g.mass, g.mu + 1, 1 / 2, h / 2, if n = 2 then 7 else 0⟩, n + 1)

example : ∃ a m, exLib exGc.time 1 (given 10 0 exGc) 0 = (a, m) ∧ a.mass = exGc.mass ∧ 0 < a.dt ∧ 0 < exGc.id ∧
    exGc.running = true :=
  ⟨_, _, rfl, rfl, by show (0 : ℝ) < 1 / 2; norm_num, by decide, rfl⟩

/-- A step that is refused puts the marker back, and the length is that which the library suggests; but the library's
memory of the lane still has the step that did not happen. -/
theorem refused {l : Lane H} {p0 : Gc} (hid : 0 < l.p.id) (hrun : l.p.running = true) {a : Answer} {m : H}
    (ha : lib l.p.time l.hin (given c (psi l.p.r l.p.phi l.p.z l.p.time) l.p) l.memory = (a, m)) (hdt : 0 < a.dt)
    (herr : a.err = 7) :
    (attempt c psi lib p0 l).p = p0 ∧ (attempt c psi lib p0 l).hin = a.dt ∧ (attempt c psi lib p0 l).memory = m := by
  have ho := overshot hid hrun ha hdt
  have hneg := ho.1.2 herr
  have hr : (kick c psi lib l).p.running = true := by
    unfold kick
    rw [if_pos ⟨hid, hrun⟩]
    exact hrun
  have hm : (kick c psi lib l).memory = m := by
    unfold kick
    rw [if_pos ⟨hid, hrun⟩, ha]
  unfold attempt
  simp only
  rw [if_pos ⟨hr, hneg⟩]
  refine ⟨rfl, ?_, hm⟩
  show -(kick c psi lib l).hout = a.dt
  rw [← ho.2, abs_of_neg hneg]

example : ∃ a m, exLib exGc.time 1 (given 10 0 exGc) 2 = (a, m) ∧ a.err = 7 ∧ m ≠ 2 :=
  ⟨_, _, rfl, rfl, by decide⟩

/-! ## What the library is not given -/

/-- The canonical momentum that is given exceeds that of the marker: the flux was multiplied by `2π` before. -/
theorem pphi_excess (f : ℝ) (p : Gc) :
    (given c f p).pphi =
      Physlib.ptoroidGc p.charge p.r p.ppar f (fieldNorm p) p.bphi + (2 * Real.pi - 1) * p.charge * f := by
  show Physlib.ptoroidGc _ _ _ (f * (2 * Real.pi)) _ _ = _
  unfold Physlib.ptoroidGc
  ring

/-- So it is not constant along an orbit: two points with the same canonical momentum at different flux are given as
different. -/
theorem pphi_not_constant {f f' : ℝ} {p p' : Gc} (hq : p'.charge = p.charge) (hq0 : p.charge ≠ 0) (hf : f' ≠ f)
    (h : Physlib.ptoroidGc p'.charge p'.r p'.ppar f' (fieldNorm p') p'.bphi =
      Physlib.ptoroidGc p.charge p.r p.ppar f (fieldNorm p) p.bphi) :
    (given c f' p').pphi ≠ (given c f p).pphi := by
  rw [pphi_excess, pphi_excess, h, hq]
  intro e
  have e1 : (2 * Real.pi - 1) * p.charge * (f' - f) = 0 := by linarith
  have hpi := Real.pi_gt_three
  rcases mul_eq_zero.1 e1 with e2 | e2
  · rcases mul_eq_zero.1 e2 with e3 | e3
    · linarith
    · exact hq0 e3
  · exact hf (by linarith)

/-- A marker that moved outwards to a flux higher by 1, with `ppar` lower by 1. -/
example : Physlib.ptoroidGc 1 1 2 1 (fieldNorm { exGc with ppar := 2 }) 1 = Physlib.ptoroidGc 1 1 3 0 (fieldNorm exGc) 1 := by
  have h : fieldNorm exGc = 1 := by simp [fieldNorm, exGc]
  have h' : fieldNorm { exGc with ppar := 2 } = 1 := by simp [fieldNorm, exGc]
  rw [h, h']
  unfold Physlib.ptoroidGc
  norm_num

theorem gamma_sq {p : Gc} (hc : c ≠ 0) (hm : 0 < p.mass) (hmu : 0 ≤ p.mu) :
    Physlib.gammaPpar c p.mass p.mu p.ppar (fieldNorm p) ^ 2 = 1 + (given c 0 p).speed ^ 2 / c ^ 2 := by
  have hB : 0 ≤ fieldNorm p := Real.sqrt_nonneg _
  have hc2 : 0 < c * c := mul_self_pos.2 hc
  have h1 : 0 ≤ 2 * p.mu * fieldNorm p / p.mass := by positivity
  have h2 : 0 ≤ (p.ppar / p.mass) * (p.ppar / p.mass) + 2 * p.mu * fieldNorm p / p.mass :=
    add_nonneg (mul_self_nonneg _) h1
  unfold Physlib.gammaPpar
  rw [Real.sq_sqrt]
  · show _ = 1 + Real.sqrt _ ^ 2 / c ^ 2
    rw [Real.sq_sqrt h2]
    have hm' := hm.ne'
    field_simp
    ring
  · have h3 : 0 ≤ p.ppar * p.ppar := mul_self_nonneg _
    have h4 : 0 ≤ p.mass * p.mass * (c * c) := by positivity
    have h5 : 0 ≤ 2 * p.mu * fieldNorm p / (p.mass * (c * c)) := by positivity
    have h6 := div_nonneg h3 h4
    linarith

/-- The energy that is given is above that of the marker by the factor `(γ + 1) / 2`. -/
theorem ekin_excess {f : ℝ} {p : Gc} (hc : c ≠ 0) (hm : 0 < p.mass) (hmu : 0 ≤ p.mu) :
    (given c f p).ekin = Physlib.ekinPpar c p.mass p.mu p.ppar (fieldNorm p) *
      ((Physlib.gammaPpar c p.mass p.mu p.ppar (fieldNorm p) + 1) / 2) := by
  have h := gamma_sq (c := c) hc hm hmu
  have h2 := (consistent (c := c) (f := 0) hm hmu).2.2.2.2.2.2.2.2.2.2.2.2.1
  have h3 : (given c f p).ekin = (given c 0 p).ekin := rfl
  rw [h3, h2]
  unfold Physlib.ekinPpar
  generalize Physlib.gammaPpar c p.mass p.mu p.ppar (fieldNorm p) = g at *
  have h4 : (given c 0 p).speed ^ 2 = (g ^ 2 - 1) * c ^ 2 := by
    rw [h]
    field_simp
    ring
  rw [h4]
  ring

/-- The speed that is given is the momentum over the mass; it is above that of light if the momentum is above `m c`. -/
theorem speed_above_light {f : ℝ} {p : Gc} (hc : 0 < c) (hm : 0 < p.mass) (hmu : 0 ≤ p.mu)
    (hp : p.mass * c < |p.ppar|) : c < (given c f p).speed := by
  have hB : 0 ≤ fieldNorm p := Real.sqrt_nonneg _
  show c < Real.sqrt _
  apply Real.lt_sqrt_of_sq_lt
  have h1 : 0 ≤ 2 * p.mu * fieldNorm p / p.mass := by positivity
  have h2 : c ^ 2 < (p.ppar / p.mass) * (p.ppar / p.mass) := by
    have : (p.mass * c) ^ 2 < p.ppar ^ 2 := by
      rw [← sq_abs p.ppar]
      exact pow_lt_pow_left₀ hp (by positivity) two_ne_zero
    rw [div_mul_div_comm, lt_div_iff₀ (by positivity)]
    nlinarith
  linarith

example : ∃ p : Gc, 0 < p.mass ∧ 0 ≤ p.mu ∧ p.mass * 1 < |p.ppar| :=
  ⟨exGc, by simp [exGc], by simp [exGc], by simp [exGc]; norm_num⟩

end Ascot.C157
