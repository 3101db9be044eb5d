import Mathlib.Tactic.Linarith
import Mathlib.Tactic.FieldSimp
import Mathlib.Tactic.LinearCombination
import Mathlib.Tactic.Positivity
import Mathlib.Analysis.SpecialFunctions.Integrals.Basic
import Verif.Model.Afsi
import Verif.Props.C46_Physlib

/-!
# C61: fusion products conserve momentum and energy
-/
set_option linter.unusedSectionVars false
set_option linter.unusedSimpArgs false

namespace Ascot.C61
open Ascot.Afsi Ascot.Physlib

/-! ## Specification -/

/-- Square of the length of a vector. -/
def sq (v : V3 ℝ) : ℝ := v.x ^ 2 + v.y ^ 2 + v.z ^ 2

/-- Difference of two vectors. -/
def sub (a b : V3 ℝ) : V3 ℝ := ⟨a.x - b.x, a.y - b.y, a.z - b.z⟩

/-- Velocity of the centre of mass of two particles. -/
noncomputable def com (m1 m2 : ℝ) (v1 v2 : V3 ℝ) : V3 ℝ :=
  ⟨(m1 * v1.x + m2 * v2.x) / (m1 + m2), (m1 * v1.y + m2 * v2.y) / (m1 + m2), (m1 * v1.z + m2 * v2.z) / (m1 + m2)⟩

/-- Kinetic energy of two particles in the frame that moves with the velocity `w`. -/
noncomputable def kinetic (m1 m2 : ℝ) (v1 v2 w : V3 ℝ) : ℝ := m1 * sq (sub v1 w) / 2 + m2 * sq (sub v2 w) / 2

/-- Positive masses and a released energy that is not negative. -/
structure Valid (k : Reaction) : Prop where
  m1 : 0 < k.m1
  m2 : 0 < k.m2
  mprod1 : 0 < k.mprod1
  mprod2 : 0 < k.mprod2
  Q : 0 ≤ k.Q

/-! ## Proofs -/

/-- Velocities of the two reactants of a sample. -/
noncomputable def reactants (k : Reaction) (s : Sample) : V3 ℝ × V3 ℝ :=
  (velocity k.m1 s.ppara1 s.pperp1 s.u1, velocity k.m2 s.ppara2 s.pperp2 s.u2)

/-- The reactants have the sampled momenta. -/
theorem reactants_spec {k : Reaction} (hk : Valid k) (s : Sample) :
    k.m1 * (reactants k s).1.z = s.ppara1 ∧ (k.m1 * (reactants k s).1.x) ^ 2 + (k.m1 * (reactants k s).1.y) ^ 2 = s.pperp1 ^ 2 ∧
    k.m2 * (reactants k s).2.z = s.ppara2 ∧ (k.m2 * (reactants k s).2.x) ^ 2 + (k.m2 * (reactants k s).2.y) ^ 2 = s.pperp2 ^ 2 := by
  have h1 := hk.m1.ne'
  have h2 := hk.m2.ne'
  unfold reactants velocity
  refine ⟨by field_simp, ?_, by field_simp, ?_⟩
  · have := Real.sin_sq_add_cos_sq (2 * Real.pi * s.u1)
    field_simp
    linear_combination s.pperp1 ^ 2 * this
  · have := Real.sin_sq_add_cos_sq (2 * Real.pi * s.u2)
    field_simp
    linear_combination s.pperp2 ^ 2 * this

/-- **Momentum.**  The centre of mass of the products moves with the velocity of the centre of mass of the reactants. -/
theorem momentum {k : Reaction} (hk : Valid k) (s : Sample) :
    com k.mprod1 k.mprod2 (products k s).1 (products k s).2 = com k.m1 k.m2 (reactants k s).1 (reactants k s).2 := by
  have h3 := hk.mprod1
  have h4 := hk.mprod2
  have h5 : k.mprod1 + k.mprod2 ≠ 0 := by positivity
  unfold products
  simp only
  change com _ _ _ _ = comVelocity k.m1 k.m2 (velocity k.m1 s.ppara1 s.pperp1 s.u1) (velocity k.m2 s.ppara2 s.pperp2 s.u2)
  generalize comVelocity k.m1 k.m2 _ _ = vcm
  generalize emission k _ _ _ = w
  obtain ⟨a, b, d⟩ := vcm
  have ext : ∀ p q : V3 ℝ, p.x = q.x → p.y = q.y → p.z = q.z → p = q := by rintro ⟨_, _, _⟩ ⟨_, _, _⟩ rfl rfl rfl; rfl
  apply ext <;> simp only [com]
  · field_simp; ring
  · field_simp; ring
  · field_simp; ring

theorem sq_emission (k : Reaction) (ekin u3 u4 : ℝ) (h : 0 ≤ 2 * ekin / (k.mprod2 * (1 + k.mprod2 / k.mprod1))) :
    sq (emission k ekin u3 u4) = 2 * ekin / (k.mprod2 * (1 + k.mprod2 / k.mprod1)) := by
  unfold sq emission
  simp only
  have e1 := Real.sin_sq_add_cos_sq (2 * Real.pi * u3)
  have e2 := Real.sin_sq_add_cos_sq (Real.arccos (2 * (u4 - 0.5)))
  have e3 := Real.sq_sqrt h
  generalize Real.sqrt _ = r at *
  generalize Real.sin (Real.arccos _) = a at *
  generalize Real.cos (Real.arccos _) = b at *
  linear_combination e3 + r ^ 2 * a ^ 2 * e1 + r ^ 2 * e2

/-- **Energy.**  In the frame of the centre of mass the products carry the released energy and the kinetic energy of the reactants. -/
theorem energy {k : Reaction} (hk : Valid k) (s : Sample) :
    let w := com k.m1 k.m2 (reactants k s).1 (reactants k s).2
    kinetic k.mprod1 k.mprod2 (products k s).1 (products k s).2 w = k.Q + kinetic k.m1 k.m2 (reactants k s).1 (reactants k s).2 w := by
  intro w
  have h1 := hk.m1
  have h2 := hk.m2
  have h3 := hk.mprod1
  have h4 := hk.mprod2
  have hE : comEnergy k (reactants k s).1 (reactants k s).2 w = k.Q + kinetic k.m1 k.m2 (reactants k s).1 (reactants k s).2 w := by
    unfold comEnergy kinetic sq sub; ring
  have hpos : 0 ≤ comEnergy k (reactants k s).1 (reactants k s).2 w := by
    rw [hE]
    have := hk.Q
    unfold kinetic sq
    positivity
  rw [← hE]
  have hw : comVelocity k.m1 k.m2 (reactants k s).1 (reactants k s).2 = w := rfl
  have hq := sq_emission k (comEnergy k (reactants k s).1 (reactants k s).2 w) s.u3 s.u4 (by positivity)
  unfold products
  simp only
  change kinetic _ _ (_ : V3 ℝ) _ w = _
  rw [show comVelocity k.m1 k.m2 (velocity k.m1 s.ppara1 s.pperp1 s.u1) (velocity k.m2 s.ppara2 s.pperp2 s.u2) = w from rfl]
  rw [show comEnergy k (velocity k.m1 s.ppara1 s.pperp1 s.u1) (velocity k.m2 s.ppara2 s.pperp2 s.u2) w =
    comEnergy k (reactants k s).1 (reactants k s).2 w from rfl]
  generalize comEnergy k (reactants k s).1 (reactants k s).2 w = E at *
  generalize emission k E s.u3 s.u4 = v at *
  have : kinetic k.mprod1 k.mprod2 ⟨-(k.mprod2 / k.mprod1) * v.x + w.x, -(k.mprod2 / k.mprod1) * v.y + w.y, -(k.mprod2 / k.mprod1) * v.z + w.z⟩
      ⟨v.x + w.x, v.y + w.y, v.z + w.z⟩ w = k.mprod2 * (1 + k.mprod2 / k.mprod1) / 2 * sq v := by
    unfold kinetic sq sub
    field_simp
    ring
  rw [this, hq]
  field_simp

/-- The kinetic energy of the reactants in the frame of the centre of mass is that of the reduced mass with the relative velocity: the
energy used for the cross section. -/
theorem relative_energy {k : Reaction} (hk : Valid k) (s : Sample) :
    kinetic k.m1 k.m2 (reactants k s).1 (reactants k s).2 (com k.m1 k.m2 (reactants k s).1 (reactants k s).2) =
      0.5 * (k.m1 * k.m2) / (k.m1 + k.m2) * sampleRelative2 k s := by
  have h5 : k.m1 + k.m2 ≠ 0 := by have := hk.m1; have := hk.m2; positivity
  unfold sampleRelative2
  change kinetic _ _ (reactants k s).1 (reactants k s).2 _ = _ * relative2 (reactants k s).1 (reactants k s).2
  generalize (reactants k s).1 = a
  generalize (reactants k s).2 = b
  unfold kinetic sq sub com relative2
  field_simp
  ring

/-- **Isotropy.**  For random numbers in the unit interval the cosine of the angle between the velocity of product 2 in the frame of the
centre of mass and the magnetic field is `2 u - 1`, so it is uniformly distributed on [-1,1], and the angle around the field
is `2 π u`. -/
theorem isotropic (k : Reaction) (ekin u3 : ℝ) {u4 : ℝ} (h0 : 0 ≤ u4) (h1 : u4 ≤ 1) :
    let w := emission k ekin u3 u4
    let v := Real.sqrt (2 * ekin / (k.mprod2 * (1 + k.mprod2 / k.mprod1)))
    w.z = v * (2 * u4 - 1) ∧ w.x = v * Real.sqrt (1 - (2 * u4 - 1) ^ 2) * Real.cos (2 * Real.pi * u3) ∧
    w.y = v * Real.sqrt (1 - (2 * u4 - 1) ^ 2) * Real.sin (2 * Real.pi * u3) := by
  have e : (2 : ℝ) * (u4 - 0.5) = 2 * u4 - 1 := by norm_num; ring
  unfold emission
  simp only [e, Real.sin_arccos]
  rw [Real.cos_arccos (by linarith) (by linarith)]
  exact ⟨rfl, trivial, trivial⟩

/-! ## What is reported -/

/-- In the basis of parallel and perpendicular momentum the reported momenta are mass times velocity. -/
theorem reported_momentum (c : ℝ) {m : ℝ} (hm : 0 < m) (v : V3 ℝ) :
    (coordinates c m true v).1 = m * v.z ∧ (coordinates c m true v).2 ^ 2 = (m * v.x) ^ 2 + (m * v.y) ^ 2 ∧ 0 ≤ (coordinates c m true v).2 := by
  unfold coordinates
  simp only [if_true]
  refine ⟨by ring, ?_, by positivity⟩
  rw [mul_pow, Real.sq_sqrt (by nlinarith [mul_self_nonneg v.x, mul_self_nonneg v.y])]; ring

/-- In the basis of energy and pitch a product that moves has a reported energy above its kinetic energy `m v² / 2` of the energy
balance. -/
theorem reported_energy {c m : ℝ} (hc : 0 < c) (hm : 0 < m) {v : V3 ℝ} (h0 : 0 < sq v) (h1 : sq v < c ^ 2) :
    m * sq v / 2 < (coordinates c m false v).1 := by
  have hn : V3.norm Real.sqrt v = Real.sqrt (sq v) := by unfold V3.norm sq; congr 1; ring
  unfold coordinates
  simp only [Bool.false_eq_true, if_false]
  rw [hn]
  set x := sq v / c ^ 2 with hx
  have hx0 : 0 < x := by positivity
  have hx1 : x < 1 := by rw [hx, div_lt_one (by positivity)]; exact h1
  have hg : gammaVnorm c (Real.sqrt (sq v)) = Real.sqrt (1 / (1 - x)) := by
    unfold gammaVnorm
    congr 2
    have := Real.mul_self_sqrt h0.le
    rw [hx]
    field_simp
    linear_combination -this
  have hgt : 1 + x / 2 < Real.sqrt (1 / (1 - x)) := by
    apply Real.lt_sqrt_of_sq_lt
    rw [lt_div_iff₀ (by linarith)]
    nlinarith [mul_pos hx0 hx0, mul_pos (mul_pos hx0 hx0) hx0]
  rw [hg]
  unfold ekinGamma
  have hv : sq v = x * c ^ 2 := by rw [hx]; field_simp
  rw [hv]
  have : 0 < m * c ^ 2 := by positivity
  nlinarith [mul_lt_mul_of_pos_right hgt this]

/-- **Violation** of the energy balance in the basis of energy and pitch: the products of reactants at rest are reported with more than
the released energy, for every reaction and random numbers, as long as they are slower than light. -/
theorem too_much_energy {c : ℝ} (hc : 0 < c) {k : Reaction} (hk : Valid k) (hQ : 0 < k.Q) (s : Sample)
    (hrest : s.ppara1 = 0 ∧ s.pperp1 = 0 ∧ s.ppara2 = 0 ∧ s.pperp2 = 0) (h1 : sq (products k s).1 < c ^ 2) (h2 : sq (products k s).2 < c ^ 2) :
    k.Q < (coordinates c k.mprod1 false (products k s).1).1 + (coordinates c k.mprod2 false (products k s).2).1 := by
  obtain ⟨e1, e2, e3, e4⟩ := hrest
  have hr : reactants k s = (⟨0, 0, 0⟩, ⟨0, 0, 0⟩) := by unfold reactants velocity; simp [e1, e2, e3, e4]
  have hw : com k.m1 k.m2 (reactants k s).1 (reactants k s).2 = ⟨0, 0, 0⟩ := by rw [hr]; simp [com]
  have he := energy hk s
  have hm := momentum hk s
  simp only [hw] at he hm
  have hz : ∀ v : V3 ℝ, sub v ⟨0, 0, 0⟩ = v := by intro v; simp [sub]
  unfold kinetic at he
  rw [hr] at he
  simp only [hz] at he
  have h0 : sq ⟨0, 0, 0⟩ = (0 : ℝ) := by simp [sq]
  rw [h0] at he
  generalize products k s = p at *
  have m3 := hk.mprod1
  have m4 := hk.mprod2
  have h5 : k.mprod1 + k.mprod2 ≠ 0 := by positivity
  unfold com at hm
  simp only [V3.mk.injEq, div_eq_zero_iff, h5, or_false] at hm
  obtain ⟨a1, a2, a3⟩ := hm
  have hrel : k.mprod1 ^ 2 * sq p.1 = k.mprod2 ^ 2 * sq p.2 := by
    unfold sq
    linear_combination (k.mprod1 * p.1.x - k.mprod2 * p.2.x) * a1 + (k.mprod1 * p.1.y - k.mprod2 * p.2.y) * a2 +
      (k.mprod1 * p.1.z - k.mprod2 * p.2.z) * a3
  have s1 : 0 ≤ sq p.1 := by unfold sq; positivity
  have s2 : 0 ≤ sq p.2 := by unfold sq; positivity
  have s1' : 0 < sq p.1 := by
    rcases s1.lt_or_eq with h | h
    · exact h
    · exfalso
      rw [← h] at hrel he
      have : sq p.2 = 0 := by
        have h6 : k.mprod2 ^ 2 ≠ 0 := by positivity
        have : k.mprod2 ^ 2 * sq p.2 = 0 := by linarith
        exact (mul_eq_zero.1 this).resolve_left h6
      rw [this] at he
      simp at he; linarith
  have s2' : 0 < sq p.2 := by
    rcases s2.lt_or_eq with h | h
    · exact h
    · exfalso
      rw [← h] at hrel
      have : 0 < k.mprod1 ^ 2 * sq p.1 := by positivity
      simp at hrel
      rcases hrel with h' | h' <;> simp_all
  have r1 := reported_energy hc m3 s1' h1
  have r2 := reported_energy hc m4 s2' h2
  simp at he
  linarith

/-- A reaction with round numbers: masses 2, 3, 4 and 1, energy 1. -/
noncomputable def exReaction : Reaction := ⟨2, 3, 4, 1, 1⟩

theorem exValid : Valid exReaction := by constructor <;> norm_num [exReaction]

/-- The hypotheses of `too_much_energy` can be met. -/
example : ∃ s : Sample, (s.ppara1 = 0 ∧ s.pperp1 = 0 ∧ s.ppara2 = 0 ∧ s.pperp2 = 0) ∧ sq (products exReaction s).1 < (10 : ℝ) ^ 2 ∧
    sq (products exReaction s).2 < (10 : ℝ) ^ 2 := by
  have he := energy exValid ⟨0, 0, 0, 0, 0, 0, 0, 0⟩
  have hr : reactants exReaction ⟨0, 0, 0, 0, 0, 0, 0, 0⟩ = (⟨0, 0, 0⟩, ⟨0, 0, 0⟩) := by unfold reactants velocity; simp
  have hw : com exReaction.m1 exReaction.m2 ⟨0, 0, 0⟩ ⟨0, 0, 0⟩ = ⟨0, 0, 0⟩ := by simp [com]
  simp only [hr, hw] at he
  have hz : ∀ v : V3 ℝ, sub v ⟨0, 0, 0⟩ = v := by intro v; simp [sub]
  unfold kinetic at he
  simp only [hz] at he
  have h0 : sq ⟨0, 0, 0⟩ = (0 : ℝ) := by simp [sq]
  rw [h0] at he
  refine ⟨⟨0, 0, 0, 0, 0, 0, 0, 0⟩, ⟨rfl, rfl, rfl, rfl⟩, ?_⟩
  generalize products exReaction _ = p at *
  have s1 : 0 ≤ sq p.1 := by unfold sq; positivity
  have s2 : 0 ≤ sq p.2 := by unfold sq; positivity
  simp only [exReaction] at he
  norm_num at he ⊢
  constructor <;> linarith

end Ascot.C61
