import Mathlib.Analysis.SpecialFunctions.Sqrt
import Mathlib.Analysis.Calculus.Deriv.Mul
import Mathlib.Analysis.Calculus.Deriv.Add
import Mathlib.Tactic.NormNum
import Mathlib.Tactic.Ring
import Mathlib.Tactic.Linarith
import Mathlib.Tactic.FieldSimp
import Mathlib.Tactic.Positivity
import Verif.Model.Bfield

/-!
# C63: the magnetic field interface
-/
set_option linter.unusedSectionVars false
set_option linter.unusedSimpArgs false

namespace Ascot.C63
open Ascot.Bfield Ascot.Coord

/-- If an evaluation fails with an error code, that code is not zero. -/
def CodesNonzero {α : Type} (x : Except Fault α) : Prop := ∀ e, x = .error (.err e) → e ≠ 0

theorem fallback_or {α : Type} {f v : α} {e : Nat} {x : Except Fault α} (hx : CodesNonzero x) (h : withFallback f x = some (v, e)) :
    (e ≠ 0 ∧ v = f) ∨ (e = 0 ∧ x = .ok v) := by
  unfold withFallback at h
  split at h
  · simp only [Option.some.injEq, Prod.mk.injEq] at h
    obtain ⟨rfl, rfl⟩ := h
    exact Or.inr ⟨rfl, rfl⟩
  · simp only [Option.some.injEq, Prod.mk.injEq] at h
    obtain ⟨rfl, rfl⟩ := h
    exact Or.inl ⟨hx _ rfl, rfl⟩
  · cases h

theorem codes_option {α : Type} (o : Option α) : CodesNonzero (ofOption o) := by
  intro e h
  cases o <;> simp [ofOption] at h

macro "codes" : tactic => `(tactic| (
  intro e h
  try dsimp only at h
  repeat' split at h
  all_goals first
    | (cases h; done)
    | (simp [Error.raise] at h; omega)
    | (simp [Error.raise] at h)))

theorem of_option {α : Type} {o : Option α} {v : α} (h : ofOption o = .ok v) : o = some v := by
  cases o <;> simp [ofOption] at h
  rw [h]

theorem codes_psi (b : Data) (r phi z : ℝ) : CodesNonzero (modelPsi b r phi z) := by
  cases b with
  | gs d => exact codes_option _
  | b2 d => show CodesNonzero (d.evalPsi r z); unfold B2.evalPsi; codes
  | b3 d => show CodesNonzero (d.evalPsi r z); unfold B3.evalPsi; codes
  | sts d => show CodesNonzero (d.evalPsi r phi z); unfold STS.evalPsi; codes
  | tc d => intro e h; cases h
  | unknown => intro e h; simp [modelPsi, Error.raise] at h; omega

theorem codes_psi_dpsi (b : Data) (r phi z : ℝ) : CodesNonzero (modelPsiDpsi b r phi z) := by
  cases b with
  | gs d => exact codes_option _
  | b2 d => show CodesNonzero (d.evalPsiDpsi r z); unfold B2.evalPsiDpsi; codes
  | b3 d => show CodesNonzero (d.evalPsiDpsi r z); unfold B3.evalPsiDpsi; codes
  | sts d => show CodesNonzero (d.evalPsiDpsi r phi z); unfold STS.evalPsiDpsi; codes
  | tc d => intro e h; cases h
  | unknown => intro e h; simp [modelPsiDpsi, Error.raise] at h; omega

theorem gs_rho_codes (d : BGS.Data) (r z : ℝ) (e : Nat) (h : BGS.evalRhoDrho d r z = some (.error e)) : e ≠ 0 := by
  unfold BGS.evalRhoDrho at h
  split at h
  · cases h
  · dsimp only at h
    split at h
    · cases h
    · split at h
      · simp [Error.raise] at h
        omega
      · split at h
        · cases h
        · simp at h

theorem codes_rho_drho (b : Data) (r phi z : ℝ) : CodesNonzero (modelRhoDrho b r phi z) := by
  cases b with
  | gs d =>
    intro e h
    unfold modelRhoDrho at h
    dsimp only at h
    split at h
    · cases h
    · rename_i e' he
      simp only [Except.error.injEq, Fault.err.injEq] at h
      subst h
      exact gs_rho_codes d r z _ he
    · cases h
  | b2 d => show CodesNonzero (d.evalRhoDrho r z); unfold B2.evalRhoDrho; codes
  | b3 d => show CodesNonzero (d.evalRhoDrho r z); unfold B3.evalRhoDrho; codes
  | sts d => show CodesNonzero (d.evalRhoDrho r phi z); unfold STS.evalRhoDrho; codes
  | tc d => intro e h; cases h
  | unknown => intro e h; simp [modelRhoDrho, Error.raise] at h; omega

theorem codes_B (b : Data) (r phi z : ℝ) : CodesNonzero (modelB b r phi z) := by
  cases b with
  | gs d => exact codes_option _
  | b2 d => show CodesNonzero (d.evalB r z); unfold B2.evalB; codes
  | b3 d => show CodesNonzero (d.evalB r phi z); unfold B3.evalB; codes
  | sts d => show CodesNonzero (d.evalB r phi z); unfold STS.evalB; codes
  | tc d => intro e h; cases h
  | unknown => intro e h; simp [modelB, Error.raise] at h; omega

theorem codes_B_dB (b : Data) (r phi z : ℝ) : CodesNonzero (modelBdB b r phi z) := by
  cases b with
  | gs d => exact codes_option _
  | b2 d => show CodesNonzero (d.evalBdB r z); unfold B2.evalBdB; codes
  | b3 d => show CodesNonzero (d.evalBdB r phi z); unfold B3.evalBdB; codes
  | sts d => show CodesNonzero (d.evalBdB r phi z); unfold STS.evalBdB; codes
  | tc d => intro e h; cases h
  | unknown => intro e h; simp [modelBdB, Error.raise] at h; omega

theorem codes_axis (b : Data) (phi : ℝ) : CodesNonzero (modelAxis b phi) := by
  cases b with
  | sts d => show CodesNonzero (d.axis phi); unfold STS.axis; codes
  | unknown => intro e h; simp [modelAxis, Error.raise] at h; omega
  | gs d => intro e h; cases h
  | b2 d => intro e h; cases h
  | b3 d => intro e h; cases h
  | tc d => intro e h; cases h

/-- The flux: an error and the value one, or no error and the value of the selected field; an unknown type is an error. -/
theorem psi_result (b : Data) (r phi z v : ℝ) (e : Nat) (h : evalPsi b r phi z = some (v, e)) :
    (e ≠ 0 ∧ v = 1) ∨ (e = 0 ∧ match (generalizing := false) b with
      | .gs d => BGS.evalPsi d r z = some v
      | .b2 d => d.psi.f r z = some v
      | .b3 d => d.psi.f r z = some v
      | .sts d => d.psi.f r phi z = some v
      | .tc d => v = d.psival
      | .unknown => False) := by
  rcases fallback_or (codes_psi b r phi z) h with h | ⟨h, h2⟩
  · exact Or.inl h
  · refine Or.inr ⟨h, ?_⟩
    cases b with
    | gs d => exact of_option h2
    | b2 d =>
      simp only [modelPsi, B2.evalPsi] at h2
      split at h2 <;> simp_all
    | b3 d =>
      simp only [modelPsi, B3.evalPsi] at h2
      split at h2 <;> simp_all
    | sts d =>
      simp only [modelPsi, STS.evalPsi] at h2
      split at h2 <;> simp_all
    | tc d =>
      simp only [modelPsi, Except.ok.injEq] at h2
      exact h2.symm
    | unknown => cases h2

/-- The flux and its gradient. -/
theorem psi_dpsi_result (b : Data) (r phi z : ℝ) (g : Grad) (e : Nat) (h : evalPsiDpsi b r phi z = some (g, e)) :
    (e ≠ 0 ∧ g = ⟨1, 0, 0, 0⟩) ∨ (e = 0 ∧ match (generalizing := false) b with
      | .gs d => BGS.evalPsiDpsi d r z = some g
      | .b2 d => ∃ p, d.psi.df r z = some p ∧ g = ⟨p.v, p.r, 0, p.z⟩
      | .b3 d => ∃ p, d.psi.df r z = some p ∧ g = ⟨p.v, p.r, 0, p.z⟩
      | .sts d => d.psi.df r phi z = some g
      | .tc d => g = ⟨d.psival, 0, 0, 0⟩
      | .unknown => False) := by
  rcases fallback_or (codes_psi_dpsi b r phi z) h with h | ⟨h, h2⟩
  · exact Or.inl h
  · refine Or.inr ⟨h, ?_⟩
    cases b with
    | gs d => exact of_option h2
    | b2 d =>
      simp only [modelPsiDpsi, B2.evalPsiDpsi] at h2
      split at h2
      · cases h2
      · simp only [Except.ok.injEq] at h2
        exact ⟨_, by assumption, h2.symm⟩
    | b3 d =>
      simp only [modelPsiDpsi, B3.evalPsiDpsi] at h2
      split at h2
      · cases h2
      · simp only [Except.ok.injEq] at h2
        exact ⟨_, by assumption, h2.symm⟩
    | sts d =>
      simp only [modelPsiDpsi, STS.evalPsiDpsi] at h2
      split at h2 <;> simp_all
    | tc d =>
      simp only [modelPsiDpsi, Except.ok.injEq] at h2
      exact h2.symm
    | unknown => cases h2

/-- The field: an error and the vector (1, 0, 0), or no error and the value of the selected field. -/
theorem B_result (b : Data) (r phi z : ℝ) (B : V3 ℝ) (e : Nat) (h : evalB b r phi z = some (B, e)) :
    (e ≠ 0 ∧ B = ⟨1, 0, 0⟩) ∨ (e = 0 ∧ match (generalizing := false) b with
      | .gs d => BGS.evalB d r phi z = some B
      | .b2 d => d.evalB r z = .ok B
      | .b3 d => d.evalB r phi z = .ok B
      | .sts d => d.evalB r phi z = .ok B
      | .tc d => B = d.evalB r phi z
      | .unknown => False) := by
  rcases fallback_or (codes_B b r phi z) h with h | ⟨h, h2⟩
  · exact Or.inl h
  · refine Or.inr ⟨h, ?_⟩
    cases b with
    | gs d => exact of_option h2
    | b2 d => exact h2
    | b3 d => exact h2
    | sts d => exact h2
    | tc d =>
      simp only [modelB, Except.ok.injEq] at h2
      exact h2.symm
    | unknown => cases h2

/-- The field and its gradient: an error and a uniform unit field, or no error and the value of the selected field. -/
theorem B_dB_result (b : Data) (r phi z : ℝ) (j : Jac) (e : Nat) (h : evalBdB b r phi z = some (j, e)) :
    (e ≠ 0 ∧ j = ⟨⟨1, 0, 0, 0⟩, ⟨0, 0, 0, 0⟩, ⟨0, 0, 0, 0⟩⟩) ∨ (e = 0 ∧ match (generalizing := false) b with
      | .gs d => BGS.evalBdB d r phi z = some j
      | .b2 d => d.evalBdB r z = .ok j
      | .b3 d => d.evalBdB r phi z = .ok j
      | .sts d => d.evalBdB r phi z = .ok j
      | .tc d => j = d.evalBdB r phi z
      | .unknown => False) := by
  rcases fallback_or (codes_B_dB b r phi z) h with h | ⟨h, h2⟩
  · exact Or.inl h
  · refine Or.inr ⟨h, ?_⟩
    cases b with
    | gs d => exact of_option h2
    | b2 d => exact h2
    | b3 d => exact h2
    | sts d => exact h2
    | tc d =>
      simp only [modelBdB, Except.ok.injEq] at h2
      exact h2.symm
    | unknown => cases h2

/-- The normalised radius and its gradient. -/
theorem rho_drho_result (b : Data) (r phi z : ℝ) (g : Grad) (e : Nat) (h : evalRhoDrho b r phi z = some (g, e)) :
    (e ≠ 0 ∧ g = ⟨1, 0, 0, 0⟩) ∨ (e = 0 ∧ match (generalizing := false) b with
      | .gs d => BGS.evalRhoDrho d r z = some (.ok g)
      | .b2 d => d.evalRhoDrho r z = .ok g
      | .b3 d => d.evalRhoDrho r z = .ok g
      | .sts d => d.evalRhoDrho r phi z = .ok g
      | .tc d => g = ⟨d.rhoval, 0, 0, 0⟩
      | .unknown => False) := by
  rcases fallback_or (codes_rho_drho b r phi z) h with h | ⟨h, h2⟩
  · exact Or.inl h
  · refine Or.inr ⟨h, ?_⟩
    cases b with
    | gs d =>
      simp only [modelRhoDrho] at h2
      split at h2 <;> simp_all
    | b2 d => exact h2
    | b3 d => exact h2
    | sts d => exact h2
    | tc d =>
      simp only [modelRhoDrho, Except.ok.injEq] at h2
      exact h2.symm
    | unknown => cases h2

/-- The magnetic axis. -/
theorem axis_result (b : Data) (phi : ℝ) (rz : ℝ × ℝ) (e : Nat) (h : axis b phi = some (rz, e)) :
    (e ≠ 0 ∧ rz = (1, 0)) ∨ (e = 0 ∧ match (generalizing := false) b with
      | .gs d => rz = (d.raxis, d.zaxis)
      | .b2 d => rz = (d.axisR, d.axisZ)
      | .b3 d => rz = (d.axisR, d.axisZ)
      | .sts d => d.axisR phi = some rz.1 ∧ d.axisZ phi = some rz.2
      | .tc d => rz = (d.axisr, d.axisz)
      | .unknown => False) := by
  rcases fallback_or (codes_axis b phi) h with h | ⟨h, h2⟩
  · exact Or.inl h
  · refine Or.inr ⟨h, ?_⟩
    cases b with
    | sts d =>
      simp only [modelAxis, STS.axis] at h2
      split at h2
      · rename_i h3 h4
        simp only [Except.ok.injEq] at h2
        subst h2
        exact ⟨h3, h4⟩
      · cases h2
    | unknown => cases h2
    | gs d => simp only [modelAxis, Except.ok.injEq] at h2; exact h2.symm
    | b2 d => simp only [modelAxis, Except.ok.injEq] at h2; exact h2.symm
    | b3 d => simp only [modelAxis, Except.ok.injEq] at h2; exact h2.symm
    | tc d => simp only [modelAxis, Except.ok.injEq] at h2; exact h2.symm

/-- An unknown type gives an error with the fallback values in every function. -/
theorem unknown_type (r phi z psi : ℝ) :
    (∃ e, e ≠ 0 ∧ evalPsi .unknown r phi z = some (1, e)) ∧ (∃ e, e ≠ 0 ∧ evalPsiDpsi .unknown r phi z = some (⟨1, 0, 0, 0⟩, e))
      ∧ (∃ e, e ≠ 0 ∧ evalRhoDrho .unknown r phi z = some (⟨1, 0, 0, 0⟩, e)) ∧ (∃ e, e ≠ 0 ∧ evalB .unknown r phi z = some (⟨1, 0, 0⟩, e))
      ∧ (∃ e, e ≠ 0 ∧ evalBdB .unknown r phi z = some (⟨⟨1, 0, 0, 0⟩, ⟨0, 0, 0, 0⟩, ⟨0, 0, 0, 0⟩⟩, e))
      ∧ (∃ e, e ≠ 0 ∧ axis .unknown phi = some ((1, 0), e)) ∧ ∃ e, e ≠ 0 ∧ evalRho .unknown psi = (some 1, some 0, e) := by
  refine ⟨⟨_, ?_, rfl⟩, ⟨_, ?_, rfl⟩, ⟨_, ?_, rfl⟩, ⟨_, ?_, rfl⟩, ⟨_, ?_, rfl⟩, ⟨_, ?_, rfl⟩, ?_⟩ <;> try decide
  unfold evalRho
  rw [show limits .unknown = (0, 1, Error.raise 2 261 21) from rfl]
  dsimp only
  rw [if_neg (by norm_num)]
  split
  · exact ⟨_, by decide, rfl⟩
  · rw [if_pos (by decide)]
    exact ⟨_, by decide, rfl⟩

/-- Flux at the axis and at the separatrix. -/
noncomputable def fluxRange : Data → Option (ℝ × ℝ)
  | .gs d => some (d.psi0, d.psi1)
  | .b2 d => some (d.psi0, d.psi1)
  | .b3 d => some (d.psi0, d.psi1)
  | .sts d => some (d.psi0, d.psi1)
  | .tc d => some (d.psival - d.rhoval ^ 2, d.psival - d.rhoval ^ 2 + 1)
  | .unknown => none

theorem limits_eq {b : Data} {psi0 psi1 : ℝ} (h : fluxRange b = some (psi0, psi1)) : limits b = (psi0, psi1, 0) := by
  cases b <;> simp [fluxRange, limits] at h ⊢ <;> first | exact h | (rw [← h.1, ← h.2]; constructor <;> ring)

/-- The normalised radius: real and non-negative on success, the root of the normalised flux; fallback values on error.
Success is when the flux is on the same side of the axis value as the separatrix value. -/
theorem rho_result_partial (b : Data) (psi psi0 psi1 : ℝ) (hb : fluxRange b = some (psi0, psi1)) (hd : psi0 ≠ psi1) :
    (0 ≤ (psi - psi0) / (psi1 - psi0) ∧ (evalRho b psi).2.2 = 0
        ∧ ∃ rho, (evalRho b psi).1 = some rho ∧ 0 ≤ rho ∧ rho ^ 2 = (psi - psi0) / (psi1 - psi0))
      ∨ ((psi - psi0) / (psi1 - psi0) < 0 ∧ ∃ e, e ≠ 0 ∧ evalRho b psi = (some 1, some 0, e)) := by
  unfold evalRho
  rw [limits_eq hb]
  dsimp only
  rw [if_neg (sub_ne_zero.mpr hd.symm)]
  split
  · rename_i h
    exact Or.inr ⟨h, _, by decide, rfl⟩
  · rename_i h
    refine Or.inl ⟨not_lt.mp h, ?_⟩
    rw [if_neg (by simp)]
    exact ⟨rfl, _, rfl, Real.sqrt_nonneg _, Real.sq_sqrt (not_lt.mp h)⟩

/-- Zero at the axis, one at the separatrix. -/
theorem rho_ends (b : Data) (psi0 psi1 : ℝ) (hb : fluxRange b = some (psi0, psi1)) (hd : psi0 ≠ psi1) :
    (evalRho b psi0).1 = some 0 ∧ (evalRho b psi1).1 = some 1 := by
  have hd' := sub_ne_zero.mpr hd.symm
  constructor
  · rcases rho_result_partial b psi0 psi0 psi1 hb hd with ⟨-, -, rho, h, h0, h2⟩ | ⟨h, -⟩
    · rw [h]
      have : rho ^ 2 = 0 := by rw [h2]; simp
      rw [pow_eq_zero_iff (by norm_num)] at this
      rw [this]
    · simp at h
  · rcases rho_result_partial b psi1 psi0 psi1 hb hd with ⟨-, -, rho, h, h0, h2⟩ | ⟨h, -⟩
    · rw [h]
      rw [div_self hd'] at h2
      have : rho = 1 := by nlinarith
      rw [this]
    · rw [div_self hd'] at h
      linarith

/-- Away from the axis the second result is the derivative of the first with respect to the flux. -/
theorem rho_derivative_partial (b : Data) (psi psi0 psi1 : ℝ) (hb : fluxRange b = some (psi0, psi1)) (hd : psi0 ≠ psi1)
    (h : 0 < (psi - psi0) / (psi1 - psi0)) :
    ∃ f : ℝ → ℝ, (∀ᶠ y in nhds psi, (evalRho b y).1 = some (f y)) ∧ ∃ d, (evalRho b psi).2.1 = some d ∧ HasDerivAt f d psi := by
  have hd' := sub_ne_zero.mpr hd.symm
  have e : ∀ y, 0 < (y - psi0) / (psi1 - psi0) → evalRho b y = (some (Real.sqrt ((y - psi0) / (psi1 - psi0))),
      some (1 / (2 * (psi1 - psi0) * Real.sqrt ((y - psi0) / (psi1 - psi0)))), 0) := by
    intro y hy
    unfold evalRho
    rw [limits_eq hb]
    dsimp only
    rw [if_neg hd', if_neg (not_lt.mpr hy.le), if_neg (by simp), if_neg (Real.sqrt_pos.mpr hy).ne']
  have hq : HasDerivAt (fun y : ℝ => (y - psi0) / (psi1 - psi0)) (1 / (psi1 - psi0)) psi :=
    ((hasDerivAt_id psi).sub_const psi0).div_const (psi1 - psi0)
  refine ⟨fun y => Real.sqrt ((y - psi0) / (psi1 - psi0)), ?_, _, by rw [e psi h], (hq.sqrt h.ne').congr_deriv ?_⟩
  · filter_upwards [hq.continuousAt.eventually (lt_mem_nhds h)] with y hy
    rw [e y hy]
  · have := Real.sqrt_pos.mpr h
    generalize Real.sqrt _ = s at this ⊢
    field_simp

/-- A field whose axis is where the flux vanishes. -/
def sample : Data := .tc ⟨1, 0, 1, 1, ⟨1, 0, 0⟩, ⟨0, 0, 0⟩, ⟨0, 0, 0⟩, ⟨0, 0, 0⟩⟩

/-- Finding: at the axis the derivative is infinite and no error is reported, for every field. -/
theorem rho_derivative_axis (b : Data) (psi0 psi1 : ℝ) (hb : fluxRange b = some (psi0, psi1)) (hd : psi0 ≠ psi1) :
    evalRho b psi0 = (some 0, none, 0) := by
  unfold evalRho
  rw [limits_eq hb]
  dsimp only
  rw [if_neg (sub_ne_zero.mpr hd.symm), sub_self, zero_div, if_neg (lt_irrefl _), if_neg (by simp), Real.sqrt_zero, if_pos rfl]

/-- Finding: if the flux at the axis equals that at the separatrix, every larger flux gives values that are not numbers, and
no error is reported. -/
theorem rho_degenerate (b : Data) (psi psi0 : ℝ) (hb : fluxRange b = some (psi0, psi0)) (h : psi0 ≤ psi) :
    evalRho b psi = (none, none, 0) := by
  unfold evalRho
  rw [limits_eq hb]
  dsimp only
  rw [if_pos (sub_self _), if_neg (by linarith), if_neg (by simp)]

example : fluxRange sample = some (0, 1) := by norm_num [fluxRange, sample]
example : fluxRange (.gs ⟨1, 0, 1, 0, 1, 2, 2, 1, fun _ => 0, 0, 1, 1, 0⟩) = some (2, 2) := rfl
example : evalPsi sample 1 0 0 = some (1, 0) := rfl

end Ascot.C63
