import Verif.Model.Particle
import Verif.Lemmas.Gctransform
import Verif.Props.C44_C45_Coord
import Verif.Props.C47_Gctransform

/-!
# Lemmas about marker conversions
-/
set_option linter.unusedSectionVars false
set_option linter.unusedSimpArgs false

namespace Ascot.Particle
open Ascot.Coord Ascot.Bfield
open Ascot.Gctransform (Gc particle2gc gc2particle momentum)
open Ascot.C47 (fld)

/-- Field, gradient and rho at a point, evaluated without error. -/
def FieldOf (b : Data) (pos : V3 ℝ) (jac : Jac) (rho : ℝ) : Prop :=
  evalBdB b pos.x pos.y pos.z = some (jac, 0) ∧
    ∃ psi, evalPsi b pos.x pos.y pos.z = some (psi, 0) ∧ (evalRho b psi).1 = some rho ∧ (evalRho b psi).2.2 = 0

theorem fieldAt_zero {b : Data} {rho0 : ℝ} {pos : V3 ℝ} {jac : Jac} {rho : ℝ} :
    fieldAt b rho0 pos = some (jac, rho, 0) ↔ FieldOf b pos jac rho := by
  unfold fieldAt FieldOf
  constructor
  · intro h
    cases h1 : evalBdB b pos.x pos.y pos.z with
    | none => simp [h1] at h
    | some x =>
      obtain ⟨j, e⟩ := x
      rw [h1] at h
      dsimp only at h
      by_cases he : e ≠ 0
      · rw [if_pos he] at h
        simp only [Option.some.injEq, Prod.mk.injEq] at h
        exact absurd h.2.2 he
      · rw [if_neg he] at h
        rw [not_not] at he
        cases h2 : evalPsi b pos.x pos.y pos.z with
        | none => simp [h2] at h
        | some y =>
          obtain ⟨psi, e'⟩ := y
          rw [h2] at h
          dsimp only at h
          by_cases he' : e' ≠ 0
          · rw [if_pos he'] at h
            simp only [Option.some.injEq, Prod.mk.injEq] at h
            exact absurd h.2.2 he'
          · rw [if_neg he'] at h
            rw [not_not] at he'
            cases h3 : (evalRho b psi).1 with
            | none => simp [h3] at h
            | some rr =>
              rw [h3] at h
              simp only [Option.some.injEq, Prod.mk.injEq] at h
              obtain ⟨rfl, rfl, h4⟩ := h
              exact ⟨by rw [he], psi, by rw [he'], h3, h4⟩
  · rintro ⟨h1, psi, h2, h3, h4⟩
    rw [h1]
    dsimp only
    rw [if_neg (by simp), h2]
    dsimp only
    rw [if_neg (by simp), h3, h4]

/-- The square of the momentum computed from parallel momentum and magnetic moment. -/
theorem momentum_sq {mass charge : ℝ} {B : V3 ℝ} {phi ppar mu zeta : ℝ} {p : V3 ℝ} (hm : 0 < mass) (hmu : 0 ≤ mu)
    (h : momentum mass charge B phi ppar mu zeta = some p) :
    V3.dot p p = ppar ^ 2 + 2 * mass * V3.norm Real.sqrt B * mu := by
  unfold momentum at h
  dsimp only at h
  split at h
  · cases h
  · rename_i hne
    rw [not_or] at hne
    obtain ⟨hB, hq⟩ := hne
    injection h with h
    have hn : V3.norm Real.sqrt (vecRpz2xyz B phi) = V3.norm Real.sqrt B := by
      unfold V3.norm vecRpz2xyz
      dsimp only
      congr 1
      linear_combination (B.x * B.x + B.y * B.y) * Real.cos_sq_add_sin_sq phi
    have hb := Gctransform.unit_dot (Gctransform.norm_ne hB)
    rw [hn] at h
    set b := V3.unit Real.sqrt (vecRpz2xyz B phi) with hbdef
    have h11 := Gctransform.e1_e1 hq
    have h22 := Gctransform.e2_e2 hb hq
    have h12 := Gctransform.e1_e2 (b := b)
    have h1b := Gctransform.e1_b (b := b)
    have h2b := Gctransform.e2_b (b := b)
    have hS : Real.sqrt (2 * mass * V3.norm Real.sqrt B * mu) * Real.sqrt (2 * mass * V3.norm Real.sqrt B * mu) =
        2 * mass * V3.norm Real.sqrt B * mu := by
      refine Real.mul_self_sqrt ?_
      have : 0 ≤ V3.norm Real.sqrt B := Real.sqrt_nonneg _
      positivity
    set S := Real.sqrt (2 * mass * V3.norm Real.sqrt B * mu) with hSdef
    have hS' : (if charge < 0 then -S else S) * (if charge < 0 then -S else S) = S * S := by split <;> ring
    rw [hS] at hS'
    have hcs := Real.cos_sq_add_sin_sq zeta
    have hcs' := Real.cos_sq_add_sin_sq phi
    rw [← h]
    clear h hSdef hbdef
    generalize (if charge < 0 then -S else S) = T at hS'
    rw [← hS']
    generalize Gctransform.basis b = e at h11 h22 h12 h1b h2b
    obtain ⟨⟨e1, e2, e3⟩, f1, f2, f3⟩ := e
    obtain ⟨b1, b2, b3⟩ := b
    unfold V3.dot at *
    unfold vecXyz2rpz
    dsimp only at *
    generalize Real.cos zeta = c at *
    generalize Real.sin zeta = s at *
    generalize Real.cos phi = C at *
    generalize Real.sin phi = D at *
    linear_combination ((ppar * b1 + T * (-s * e1 - c * f1)) ^ 2 + (ppar * b2 + T * (-s * e2 - c * f2)) ^ 2) * hcs' + ppar ^ 2 * hb +
      T ^ 2 * hcs + T ^ 2 * s ^ 2 * h11 + T ^ 2 * c ^ 2 * h22 + 2 * T ^ 2 * s * c * h12 - 2 * ppar * T * s * h1b - 2 * ppar * T * c * h2b

/-- The momentum computed with the same field vector, at another toroidal angle. -/
theorem momentum_frame {mass charge : ℝ} {B B' : V3 ℝ} {phi phi' ppar mu zeta : ℝ} {p : V3 ℝ}
    (h : momentum mass charge B phi ppar mu zeta = some p) (hB : vecRpz2xyz B' phi' = vecRpz2xyz B phi) :
    ∃ p', momentum mass charge B' phi' ppar mu zeta = some p' ∧ vecRpz2xyz p' phi' = vecRpz2xyz p phi := by
  unfold momentum at h ⊢
  dsimp only at h ⊢
  rw [hB]
  split at h
  · cases h
  · rename_i hne
    rw [if_neg hne]
    injection h with h
    refine ⟨_, rfl, ?_⟩
    rw [← h, (C44.vec_round_trips _ _).2, (C44.vec_round_trips _ _).2]

end Ascot.Particle
