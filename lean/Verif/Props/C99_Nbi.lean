import Mathlib.Tactic.Linarith
import Mathlib.Tactic.FieldSimp
import Mathlib.Tactic.LinearCombination
import Mathlib.Analysis.SpecialFunctions.Trigonometric.Inverse
import Verif.Model.Bbnbi
import Verif.Lemmas.Coord
import Verif.Props.C44_C45_Coord
import Verif.Props.C46_Physlib
import Verif.Props.C60_Bbnbi

/-!
# C99: a neutral starts at a beamlet, with one of the three energies and the given divergence
-/
set_option linter.unusedSectionVars false
set_option linter.unusedSimpArgs false

namespace Ascot.C99
open Ascot.Bbnbi Ascot.Coord Ascot.Physlib

theorem norm_eq (a : V3 ℝ) : V3.norm Real.sqrt a = Real.sqrt (V3.dot a a) := rfl

theorem unit_of_unit {a : V3 ℝ} (h : V3.dot a a = 1) : V3.unit Real.sqrt a = a := by
  unfold V3.unit
  rw [norm_eq, h, Real.sqrt_one]
  simp

/-- The beamlet direction and the two normals are orthonormal. -/
theorem normals_orthonormal {d : V3 ℝ} (h : V3.dot d d = 1) :
    let n := normals d
    V3.dot n.1 n.1 = 1 ∧ V3.dot n.2 n.2 = 1 ∧ V3.dot d n.1 = 0 ∧ V3.dot d n.2 = 0 ∧ V3.dot n.1 n.2 = 0 := by
  intro n
  have hz1 : -1 ≤ d.z := by
    unfold V3.dot at h; nlinarith [mul_self_nonneg d.x, mul_self_nonneg d.y]
  have hz2 : d.z ≤ 1 := by
    unfold V3.dot at h; nlinarith [mul_self_nonneg d.x, mul_self_nonneg d.y]
  have hs : Real.sin (Real.arccos d.z) = Real.sqrt (d.x * d.x + d.y * d.y) := by
    rw [Real.sin_arccos]; congr 1; unfold V3.dot at h; linarith
  have hc := Real.cos_arccos hz1 hz2
  have h1 := cos_atan2 d.x d.y
  have h2 := sin_atan2 d.x d.y
  have h3 := sc (atan2 d.y d.x)
  set s := Real.sqrt (d.x * d.x + d.y * d.y) with hsdef
  have hs2 : s * s = d.x * d.x + d.y * d.y := Real.mul_self_sqrt (by nlinarith [mul_self_nonneg d.x, mul_self_nonneg d.y])
  set C := Real.cos (atan2 d.y d.x)
  set S := Real.sin (atan2 d.y d.x)
  have e1 : n.1 = ⟨d.z * C, d.z * S, -s⟩ := by
    show V3.mk _ _ _ = _
    rw [Real.sin_add_pi_div_two, Real.cos_add_pi_div_two, hs, hc]
  have hd : d.x * d.x + d.y * d.y + d.z * d.z = 1 := h
  have a1 : V3.dot n.1 n.1 = 1 := by
    rw [e1]; simp only [V3.dot]; linear_combination d.z * d.z * h3 + hs2 + hd
  have a3 : V3.dot d n.1 = 0 := by
    rw [e1]; simp only [V3.dot]; linear_combination -d.z * C * h1 - d.z * S * h2 + s * d.z * h3
  have hcr : V3.dot (V3.cross d n.1) (V3.cross d n.1) = 1 := by
    have : V3.dot (V3.cross d n.1) (V3.cross d n.1) = V3.dot d d * V3.dot n.1 n.1 - V3.dot d n.1 * V3.dot d n.1 := by
      simp only [V3.dot, V3.cross]; ring
    rw [this, h, a1, a3]; ring
  have e2 : n.2 = V3.cross d n.1 := unit_of_unit hcr
  refine ⟨a1, by rw [e2]; exact hcr, a3, ?_, ?_⟩
  · rw [e2]; simp only [V3.dot, V3.cross]; ring
  · rw [e2]; simp only [V3.dot, V3.cross]; ring

/-- The deflected direction is a unit vector; its components along the beamlet and its two normals are given by the two angles. -/
theorem deflect_spec {d : V3 ℝ} (h : V3.dot d d = 1) (dh dv : ℝ) :
    let n := normals d
    let u := deflect d n.1 n.2 dh dv
    V3.dot u u = 1 ∧ V3.dot u d = Real.cos dh * Real.cos dv ∧ V3.dot u n.1 = Real.cos dh * Real.sin dv ∧ V3.dot u n.2 = Real.sin dh := by
  intro n u
  obtain ⟨a1, a2, a3, a4, a5⟩ := normals_orthonormal h
  have hd : V3.dot d d = 1 := h
  change V3.dot n.1 n.1 = 1 at a1
  change V3.dot n.2 n.2 = 1 at a2
  change V3.dot d n.1 = 0 at a3
  change V3.dot d n.2 = 0 at a4
  change V3.dot n.1 n.2 = 0 at a5
  have hs1 := sc dh
  have hs2 := sc dv
  have b1 : V3.dot u d = Real.cos dh * Real.cos dv := by
    simp only [V3.dot, u, deflect] at *
    linear_combination Real.cos dh * Real.cos dv * hd + Real.cos dh * Real.sin dv * a3 + Real.sin dh * a4
  have b2 : V3.dot u n.1 = Real.cos dh * Real.sin dv := by
    simp only [V3.dot, u, deflect] at *
    linear_combination Real.cos dh * Real.cos dv * a3 + Real.cos dh * Real.sin dv * a1 + Real.sin dh * a5
  have b3 : V3.dot u n.2 = Real.sin dh := by
    simp only [V3.dot, u, deflect] at *
    linear_combination Real.cos dh * Real.cos dv * a4 + Real.cos dh * Real.sin dv * a5 + Real.sin dh * a2
  refine ⟨?_, b1, b2, b3⟩
  have : V3.dot u u = Real.cos dh * (Real.cos dv * V3.dot u d + Real.sin dv * V3.dot u n.1) + Real.sin dh * V3.dot u n.2 := by
    simp only [V3.dot, u, deflect]; ring
  rw [this, b1, b2, b3]
  linear_combination Real.cos dh * Real.cos dh * hs2 + hs1

/-- The injector is physical: positive mass and energy, at least one beamlet, and beamlet directions are unit vectors. -/
structure Valid (inj : Injector) : Prop where
  mass : 0 < inj.mass
  energy : 0 ≤ inj.energy
  beamlets : inj.beamlets ≠ []
  dirs : ∀ b ∈ inj.beamlets, V3.dot b.2 b.2 = 1

/-- The energy is the full one, one half or one third of it. -/
theorem sampleEnergy_cases (inj : Injector) (r : ℝ) :
    sampleEnergy inj r = inj.energy ∨ sampleEnergy inj r = inj.energy / 2 ∨ sampleEnergy inj r = inj.energy / 3 := by
  unfold sampleEnergy
  split
  · exact .inl rfl
  · split
    · exact .inr (.inl rfl)
    · exact .inr (.inr rfl)

theorem sampleEnergy_nonneg {inj : Injector} (h : 0 ≤ inj.energy) (r : ℝ) : 0 ≤ sampleEnergy inj r := by
  rcases sampleEnergy_cases inj r with e | e | e <;> rw [e] <;> linarith

/-- Position and velocity of an injected marker: it is at the beamlet selected by the random number, its speed is below `c` and gives
the selected kinetic energy, and its direction deviates from that of the beamlet by the two divergence angles. -/
theorem start {c : ℝ} (hc : 0 < c) {inj : Injector} (hi : Valid inj) (d : Draws) (h0 : 0 ≤ d.beamlet) (h1 : d.beamlet < 1) :
    ∃ (k : Nat) (b : V3 ℝ × V3 ℝ) (v : V3 ℝ), inj.beamlets[k]? = some b ∧ (k : ℝ) ≤ d.beamlet * inj.beamlets.length ∧
      d.beamlet * inj.beamlets.length < k + 1 ∧ inject c inj d = some (b.1, v) ∧
      Real.sqrt (V3.dot v v) < c ∧ ekinGamma c inj.mass (gammaVnorm c (Real.sqrt (V3.dot v v))) = sampleEnergy inj d.energy ∧
      V3.dot v b.2 = Real.sqrt (V3.dot v v) * (Real.cos (divergence inj d).1 * Real.cos (divergence inj d).2) ∧
      V3.dot v (normals b.2).1 = Real.sqrt (V3.dot v v) * (Real.cos (divergence inj d).1 * Real.sin (divergence inj d).2) ∧
      V3.dot v (normals b.2).2 = Real.sqrt (V3.dot v v) * Real.sin (divergence inj d).1 := by
  have hlen : 0 < inj.beamlets.length := List.length_pos_iff.2 hi.beamlets
  have hx0 : 0 ≤ d.beamlet * inj.beamlets.length := by positivity
  have hf0 : 0 ≤ ⌊d.beamlet * (inj.beamlets.length : ℝ)⌋ := Int.floor_nonneg.2 hx0
  have hk : (⌊d.beamlet * (inj.beamlets.length : ℝ)⌋.toNat : ℝ) = (⌊d.beamlet * (inj.beamlets.length : ℝ)⌋ : ℝ) := by
    have := Int.toNat_of_nonneg hf0
    exact_mod_cast this
  have hlt : ⌊d.beamlet * (inj.beamlets.length : ℝ)⌋.toNat < inj.beamlets.length := by
    have : d.beamlet * (inj.beamlets.length : ℝ) < inj.beamlets.length := by
      have : (0 : ℝ) < inj.beamlets.length := by exact_mod_cast hlen
      nlinarith
    have h2 := Int.floor_le (d.beamlet * (inj.beamlets.length : ℝ))
    rw [← hk] at h2
    have : (⌊d.beamlet * (inj.beamlets.length : ℝ)⌋.toNat : ℝ) < inj.beamlets.length := by linarith
    exact_mod_cast this
  set k := ⌊d.beamlet * (inj.beamlets.length : ℝ)⌋.toNat with hkdef
  have hb : inj.beamlets[k]? = some inj.beamlets[k] := List.getElem?_eq_getElem hlt
  set b := inj.beamlets[k]
  have hu := hi.dirs b (List.getElem_mem hlt)
  obtain ⟨u1, u2, u3, u4⟩ := deflect_spec hu (divergence inj d).1 (divergence inj d).2
  have hg : 1 ≤ gammaEkin c inj.mass (sampleEnergy inj d.energy) :=
    (C46.gamma_ge_one hc hi.mass).2.2.2 _ (sampleEnergy_nonneg hi.energy _)
  obtain ⟨g1, g2, g3⟩ := (C46.speed_gamma hc).2 _ hg
  have e : inject c inj d = some (b.1, ⟨vnormGamma c (gammaEkin c inj.mass (sampleEnergy inj d.energy)) *
        (deflect b.2 (normals b.2).1 (normals b.2).2 (divergence inj d).1 (divergence inj d).2).x,
      vnormGamma c (gammaEkin c inj.mass (sampleEnergy inj d.energy)) *
        (deflect b.2 (normals b.2).1 (normals b.2).2 (divergence inj d).1 (divergence inj d).2).y,
      vnormGamma c (gammaEkin c inj.mass (sampleEnergy inj d.energy)) *
        (deflect b.2 (normals b.2).1 (normals b.2).2 (divergence inj d).1 (divergence inj d).2).z⟩) := by
    unfold inject
    simp only [← hkdef, hb, Option.map_some, unit_of_unit u1]
    rw [if_neg (not_lt.2 hf0)]
    rfl
  generalize deflect b.2 (normals b.2).1 (normals b.2).2 (divergence inj d).1 (divergence inj d).2 = u at *
  set w := vnormGamma c (gammaEkin c inj.mass (sampleEnergy inj d.energy)) with hw
  have hn : ∀ a : V3 ℝ, V3.dot ⟨w * u.x, w * u.y, w * u.z⟩ a = w * V3.dot u a := by
    intro a; simp only [V3.dot]; ring
  have hvv : Real.sqrt (V3.dot (⟨w * u.x, w * u.y, w * u.z⟩ : V3 ℝ) ⟨w * u.x, w * u.y, w * u.z⟩) = w := by
    have : V3.dot (⟨w * u.x, w * u.y, w * u.z⟩ : V3 ℝ) ⟨w * u.x, w * u.y, w * u.z⟩ = w * w * V3.dot u u := by
      simp only [V3.dot]; ring
    rw [this, u1, mul_one, Real.sqrt_mul_self g2]
  refine ⟨k, b, _, hb, ?_, ?_, e, ?_, ?_, ?_, ?_, ?_⟩
  · rw [hk]; exact Int.floor_le _
  · rw [hk]; exact Int.lt_floor_add_one _
  · rw [hvv]; exact g3
  · rw [hvv, g1]; exact (C46.energy hc hi.mass).2.1 _
  · rw [hvv, hn, u2]
  · rw [hvv, hn, u3]
  · rw [hvv, hn, u4]

/-- With the random number 1, which the generator of the GPU version can return, the beamlet is outside the array. -/
theorem beamlet_out_of_bounds (c : ℝ) (inj : Injector) (d : Draws) (h : d.beamlet = 1) : inject c inj d = none := by
  unfold inject
  simp [h]

theorem ahead_iterate (u x : V3 ℝ) (n : Nat) : (ahead u)^[n] x = ⟨x.x + n * (1e-3 * u.x), x.y + n * (1e-3 * u.y), x.z + n * (1e-3 * u.z)⟩ := by
  induction n with
  | zero => simp
  | succ n ih =>
    rw [Function.iterate_succ_apply', ih]
    unfold ahead
    push_cast
    congr 1 <;> ring

/-- The point `n` millimetres from `x` in the direction of `v`. -/
noncomputable def along (x v : V3 ℝ) (n : Nat) : V3 ℝ :=
  ⟨x.x + n * (1e-3 * (v.x / Real.sqrt (V3.dot v v))), x.y + n * (1e-3 * (v.y / Real.sqrt (V3.dot v v))),
   x.z + n * (1e-3 * (v.z / Real.sqrt (V3.dot v v)))⟩

/-- Where the marker is placed: at the first of the points at whole millimetres along the velocity where the magnetic field data is
defined.  Its momentum is that of the velocity, its kinetic energy the selected one and its time within the injection interval. -/
theorem marker {c : ℝ} (hc : 0 < c) {inj : Injector} (hi : Valid inj) {psi : ℝ → V3 ℝ → Except Nat ℝ} {d : Draws} {t0 t1 : ℝ} {n g : Int} {i : Nat}
    (h0 : 0 ≤ d.beamlet) (h1 : d.beamlet < 1) {m : Marker} (hm : injectMarker c psi inj n g t0 t1 i d = some m) :
    ∃ (x v : V3 ℝ) (N : Nat), inject c inj d = some (x, v) ∧ m.time = t0 + d.time * (t1 - t0) ∧
      rpz2xyz ⟨m.rprt, m.phiprt, m.zprt⟩ = along x v N ∧ (psi m.time ⟨m.rprt, m.phiprt, m.zprt⟩).isOk = true ∧
      (∀ k < N, (psi m.time (xyz2rpz (along x v k))).isOk = false) ∧
      vecRpz2xyz ⟨m.pr, m.pphi, m.pz⟩ m.phiprt =
        ⟨inj.mass * gammaVnorm c (Real.sqrt (V3.dot v v)) * v.x, inj.mass * gammaVnorm c (Real.sqrt (V3.dot v v)) * v.y,
         inj.mass * gammaVnorm c (Real.sqrt (V3.dot v v)) * v.z⟩ ∧
      ekinPnorm c m.mass (Real.sqrt (V3.dot ⟨m.pr, m.pphi, m.pz⟩ ⟨m.pr, m.pphi, m.pz⟩)) = sampleEnergy inj d.energy := by
  obtain ⟨k, b, v, -, -, -, hin, hv, hE, -⟩ := start hc hi d h0 h1
  unfold injectMarker at hm
  simp only [hin, Option.bind_some] at hm
  obtain ⟨x, hx, rfl⟩ := Option.map_eq_some_iff.1 hm
  unfold enter at hx
  by_cases hex : ∃ n, (psi (t0 + d.time * (t1 - t0)) (xyz2rpz ((ahead (V3.unit Real.sqrt v))^[n] b.1))).isOk = true
  · rw [dif_pos hex] at hx
    have hx := Option.some.inj hx
    have hal : ∀ n, (ahead (V3.unit Real.sqrt v))^[n] b.1 = along b.1 v n := by
      intro n; rw [ahead_iterate]; rfl
    have hok := Nat.find_spec hex
    have hmin := fun k => Nat.find_min hex (m := k)
    rw [hx] at hok
    rw [hal] at hx
    have hvec := C44.vec_round_trips v (xyz2rpz x).y
    have hdot : V3.dot (vecXyz2rpz v (xyz2rpz x).y) (vecXyz2rpz v (xyz2rpz x).y) = V3.dot v v := by
      have := (C44.vec_dot (vecXyz2rpz v (xyz2rpz x).y) (vecXyz2rpz v (xyz2rpz x).y) (xyz2rpz x).y).1
      rw [hvec.2] at this
      exact this.symm
    refine ⟨b.1, v, Nat.find hex, hin, rfl, ?_, hok, ?_, ?_, ?_⟩
    · rw [hx]; exact xyz_of_rpz x
    · intro k hk
      have := hmin k hk
      rw [hal] at this
      simpa using this
    · simp only [norm_eq, hdot]
      have h := hvec.2
      generalize gammaVnorm c (Real.sqrt (V3.dot v v)) = γ
      generalize vecXyz2rpz v (xyz2rpz x).y = w at h ⊢
      rw [← h]
      simp only [vecRpz2xyz, V3.mk.injEq]
      refine ⟨by ring, by ring, by ring⟩
    · simp only [norm_eq, hdot]
      have hg0 : 0 ≤ gammaVnorm c (Real.sqrt (V3.dot v v)) := Real.sqrt_nonneg _
      have hp : Real.sqrt (V3.dot (⟨(vecXyz2rpz v (xyz2rpz x).y).x * gammaVnorm c (Real.sqrt (V3.dot v v)) * inj.mass,
          (vecXyz2rpz v (xyz2rpz x).y).y * gammaVnorm c (Real.sqrt (V3.dot v v)) * inj.mass,
          (vecXyz2rpz v (xyz2rpz x).y).z * gammaVnorm c (Real.sqrt (V3.dot v v)) * inj.mass⟩ : V3 ℝ)
          ⟨(vecXyz2rpz v (xyz2rpz x).y).x * gammaVnorm c (Real.sqrt (V3.dot v v)) * inj.mass,
          (vecXyz2rpz v (xyz2rpz x).y).y * gammaVnorm c (Real.sqrt (V3.dot v v)) * inj.mass,
          (vecXyz2rpz v (xyz2rpz x).y).z * gammaVnorm c (Real.sqrt (V3.dot v v)) * inj.mass⟩) = pnormVnorm c inj.mass (Real.sqrt (V3.dot v v)) := by
        have e : ∀ (w : V3 ℝ) (a : ℝ), V3.dot (⟨w.x * a * inj.mass, w.y * a * inj.mass, w.z * a * inj.mass⟩ : V3 ℝ)
            ⟨w.x * a * inj.mass, w.y * a * inj.mass, w.z * a * inj.mass⟩ = V3.dot w w * (a * inj.mass) ^ 2 := by
          intro w a; simp only [V3.dot]; ring
        rw [e, hdot, Real.sqrt_mul' _ (sq_nonneg _), Real.sqrt_sq (mul_nonneg hg0 hi.mass.le)]
        unfold pnormVnorm
        ring
      rw [hp, ((C46.energy hc hi.mass).2.2.1 _).1, (C46.momentum_velocity hc hi.mass).2.2.1 _ (by rw [abs_of_nonneg (Real.sqrt_nonneg _)]; exact hv)]
      exact hE
  · rw [dif_neg hex] at hx; cases hx

/-- If no point at whole millimetres along the velocity is within the magnetic field data, the generation of markers does not end. -/
theorem never_ends {c : ℝ} (hc : 0 < c) {inj : Injector} (hi : Valid inj) (psi : ℝ → V3 ℝ → Except Nat ℝ) (d : Draws) (t0 t1 : ℝ) (n g : Int) (i : Nat)
    (h0 : 0 ≤ d.beamlet) (h1 : d.beamlet < 1) :
    injectMarker c psi inj n g t0 t1 i d = none ↔
      ∃ x v, inject c inj d = some (x, v) ∧ ∀ k, (psi (t0 + d.time * (t1 - t0)) (xyz2rpz (along x v k))).isOk = false := by
  obtain ⟨k, b, v, -, -, -, hin, hv, hE, -⟩ := start hc hi d h0 h1
  have hal : ∀ n, (ahead (V3.unit Real.sqrt v))^[n] b.1 = along b.1 v n := by
    intro n; rw [ahead_iterate]; rfl
  unfold injectMarker
  simp only [hin, Option.bind_some, Option.map_eq_none_iff, Option.some.injEq, Prod.mk.injEq]
  unfold enter
  constructor
  · intro h
    refine ⟨b.1, v, ⟨rfl, rfl⟩, fun k => ?_⟩
    by_contra hk
    rw [dif_pos ⟨k, by rw [hal]; simpa using hk⟩] at h
    cases h
  · rintro ⟨x, v', ⟨rfl, rfl⟩, h⟩
    rw [dif_neg]
    rintro ⟨k, hk⟩
    rw [hal, h k] at hk
    cases hk

/-- The hypotheses can be met: an injector and a field that begins two millimetres from the beamlet. -/
theorem exValid : Valid (C60.exInj 1) := ⟨by simp [C60.exInj], by simp [C60.exInj], by simp [C60.exInj], by simp [C60.exInj, V3.dot]⟩

example : ∃ m, injectMarker 1 (fun _ _ => .ok 0) (C60.exInj 1) 1 0 0 1 0 ⟨0, 0, 0, 0, 0, 0⟩ = some m := by
  obtain ⟨mk, h⟩ := C60.exInjected
  by_contra hne
  have hnone : injectMarker 1 (fun _ _ => .ok 0) (C60.exInj 1) 1 0 0 1 0 ⟨0, 0, 0, 0, 0, 0⟩ = none := by
    cases e : injectMarker 1 (fun _ _ => .ok 0) (C60.exInj 1) 1 0 0 1 0 ⟨0, 0, 0, 0, 0, 0⟩ with
    | none => rfl
    | some m => exact absurd ⟨m, e⟩ hne
  obtain ⟨x, v, -, h2⟩ := (never_ends one_pos exValid _ _ _ _ _ _ _ (by simp) (by simp)).1 hnone
  have := h2 0
  cases this

end Ascot.C99
