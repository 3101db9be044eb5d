import Verif.Model.Efield
import Verif.Props.C97_Plasma
import Verif.Props.C44_C45_Coord
import Mathlib.Analysis.SpecialFunctions.Sqrt

/-!
# C106: electric field

The radial electric field is minus the gradient of a potential that is a function of the flux coordinate rho; the derivative
of the potential with respect to rho is the spline through the values given, multiplied by the effective minor radius.  Outside
the profile the field is zero.  The other model is a constant vector in Cartesian coordinates.
-/
set_option linter.unusedSectionVars false
set_option linter.unusedSimpArgs false

namespace Ascot.C106
open Ascot.Coord Ascot.Efield Ascot.C97
open Ascot.Plasma (Spl)

/-- Minus the gradient of a function, in cylindrical components, at a position with `r ≠ 0`. -/
def IsMinusGradient (f : ℝ → ℝ → ℝ → ℝ) (r phi z : ℝ) (E : V3 ℝ) : Prop :=
  HasDerivAt (fun x => f x phi z) (-E.x) r ∧ HasDerivAt (fun p => f r p z) (-(r * E.y)) phi ∧
    HasDerivAt (fun y => f r phi y) (-E.z) z

/-- `rho` has the value and the partial derivatives `g`. -/
def HasGrad (rho : ℝ → ℝ → ℝ → ℝ) (r phi z : ℝ) (g : Grad) : Prop :=
  rho r phi z = g.v ∧ HasDerivAt (fun x => rho x phi z) g.d1 r ∧ HasDerivAt (fun p => rho r p z) g.d2 phi ∧
    HasDerivAt (fun y => rho r phi y) g.d3 z

theorem init_eq {n : Nat} {lo hi : ℝ} (hn : 2 ≤ n) (hm : lo < hi) (reff : ℝ) (dv : Nat → ℝ) :
    ∃ d F, init1DS n lo hi reff dv = some d ∧ SplineOf n lo hi dv F ∧ d.dV.axis.min = lo ∧ d.dV.axis.max = hi ∧
      ∀ x, lo ≤ x → x ≤ hi → d.dV.eval x = some (some (F x)) := by
  obtain ⟨s, F, e, h, hin, -⟩ := setup_spec hn hm dv
  have ha : s.axis = Linint.Axis.init n .natural lo hi := by
    unfold Spl.setup at e
    cases hc : Interp.coeff1 dv n .natural lo hi with
    | none => rw [hc] at e; cases e
    | some c => rw [hc] at e; cases e; rfl
  exact ⟨⟨s⟩, F, by simp [init1DS, e], h, by rw [ha], by rw [ha], hin⟩

theorem eval_in {d : E1DS} {b : Bfield.Data} {r phi z t y : ℝ} {g : Grad} (hr : r ≠ 0)
    (hg : Bfield.evalRhoDrho b r phi z = some (g, 0)) (h0 : d.dV.axis.min ≤ g.v) (h1 : g.v ≤ d.dV.axis.max)
    (he : d.dV.eval g.v = some (some y)) (E : V3 ℝ) :
    evalE (.e1 d) b r phi z t E = some (⟨-y * g.d1, -y * (g.d2 / r), -y * g.d3⟩, 0) := by
  unfold evalE eval1DS
  rw [hg]
  simp only [ne_eq, not_true_eq_false, if_false, if_neg hr]
  rw [if_neg (by rintro (h | h) <;> linarith), he]

/-- Inside the profile the field is minus the gradient of any potential `V(rho)` whose derivative is the spline through the
values given, scaled by the effective minor radius.  `partial`: only if the effective minor radius is one. -/
theorem radial_partial {n : Nat} {lo hi reff : ℝ} {dv : Nat → ℝ} (hn : 2 ≤ n) (hm : lo < hi) (hreff : reff = 1) :
    ∃ d F, init1DS n lo hi reff dv = some d ∧ SplineOf n lo hi (fun i => reff * dv i) F ∧
      ∀ (b : Bfield.Data) (r phi z t : ℝ) (g : Grad) (old : V3 ℝ), r ≠ 0 → Bfield.evalRhoDrho b r phi z = some (g, 0) →
        lo ≤ g.v → g.v ≤ hi → ∃ E, evalE (.e1 d) b r phi z t old = some (E, 0) ∧
          ∀ (rho : ℝ → ℝ → ℝ → ℝ) (V : ℝ → ℝ), HasGrad rho r phi z g → HasDerivAt V (F g.v) g.v →
            IsMinusGradient (fun r phi z => V (rho r phi z)) r phi z E := by
  obtain ⟨d, F, e, h, ha, hb, hin⟩ := init_eq hn hm reff dv
  refine ⟨d, F, e, by simpa [hreff] using h, fun b r phi z t g old hr hg h0 h1 =>
    ⟨_, eval_in hr hg (ha ▸ h0) (hb ▸ h1) (hin _ h0 h1) old, ?_⟩⟩
  rintro rho V ⟨hv, d1, d2, d3⟩ hV
  rw [← hv] at hV
  refine ⟨?_, ?_, ?_⟩
  · exact (HasDerivAt.comp r hV d1).congr_deriv (by rw [← hv]; ring)
  · exact (HasDerivAt.comp phi hV d2).congr_deriv (by rw [← hv]; field_simp)
  · exact (HasDerivAt.comp z hV d3).congr_deriv (by rw [← hv]; ring)

/-- A field with flux surfaces on which the magnetic field lies has no component along the magnetic field. -/
theorem perpendicular {n : Nat} {lo hi reff : ℝ} {dv : Nat → ℝ} (hn : 2 ≤ n) (hm : lo < hi) :
    ∃ d, init1DS n lo hi reff dv = some d ∧
      ∀ (b : Bfield.Data) (r phi z t : ℝ) (g : Grad) (B old : V3 ℝ), r ≠ 0 → Bfield.evalRhoDrho b r phi z = some (g, 0) →
        lo ≤ g.v → g.v ≤ hi → B.x * g.d1 + B.y * (g.d2 / r) + B.z * g.d3 = 0 →
          ∃ E, evalE (.e1 d) b r phi z t old = some (E, 0) ∧ V3.dot E B = 0 := by
  obtain ⟨d, F, e, h, ha, hb, hin⟩ := init_eq hn hm reff dv
  refine ⟨d, e, fun b r phi z t g B old hr hg h0 h1 ht =>
    ⟨_, eval_in hr hg (ha ▸ h0) (hb ▸ h1) (hin _ h0 h1) old, ?_⟩⟩
  simp only [V3.dot]
  linear_combination (-F g.v) * ht

/-- Outside the profile the field is zero and there is no error; an error of the magnetic field gives an error. -/
theorem outside {n : Nat} {lo hi reff : ℝ} {dv : Nat → ℝ} (hn : 2 ≤ n) (hm : lo < hi) :
    ∃ d, init1DS n lo hi reff dv = some d ∧
      (∀ (b : Bfield.Data) (r phi z t : ℝ) (g : Grad) (old : V3 ℝ), r ≠ 0 → Bfield.evalRhoDrho b r phi z = some (g, 0) →
        (g.v < lo ∨ hi < g.v) → evalE (.e1 d) b r phi z t old = some (⟨0, 0, 0⟩, 0)) ∧
      ∀ (b : Bfield.Data) (r phi z t : ℝ) (g : Grad) (err : Nat) (old : V3 ℝ), Bfield.evalRhoDrho b r phi z = some (g, err) →
        err ≠ 0 → ∃ e, evalE (.e1 d) b r phi z t old = some (old, e) ∧ e ≠ 0 := by
  obtain ⟨d, F, e, h, ha, hb, hin⟩ := init_eq hn hm reff dv
  refine ⟨d, e, fun b r phi z t g old hr hg ho => ?_, fun b r phi z t g err old hg he => ⟨Error.raise 1 96 20, ?_, ?_⟩⟩
  · unfold evalE eval1DS
    rw [hg]
    simp only [ne_eq, not_true_eq_false, if_false, if_neg hr]
    rw [if_pos (by rw [ha, hb]; exact ho)]
  · unfold evalE eval1DS
    rw [hg]
    simp only [ne_eq, he, not_false_eq_true, if_true]
  · decide

/-- The constant field has the Cartesian components given, at every position. -/
theorem uniform (exyz : V3 ℝ) (b : Bfield.Data) (r phi z t : ℝ) (old : V3 ℝ) :
    ∃ E, evalE (.tc exyz) b r phi z t old = some (E, 0) ∧ vecRpz2xyz E phi = exyz :=
  ⟨_, rfl, (C44.vec_round_trips exyz phi).2⟩

/-- Input of unknown type gives an error. -/
theorem unknown (b : Bfield.Data) (r phi z t : ℝ) (old : V3 ℝ) : ∃ e, evalE .unknown b r phi z t old = some (old, e) ∧ e ≠ 0 :=
  ⟨_, rfl, by decide⟩

/-! ### The effective minor radius -/

/-- A constant profile gives a constant spline. -/
theorem spline_const {n : Nat} {lo hi c : ℝ} {F : ℝ → ℝ} (hn : 2 ≤ n) (hm : lo < hi) (h : SplineOf n lo hi (fun _ => c) F)
    {x : ℝ} (h0 : lo ≤ x) (h1 : x ≤ hi) : F x = c := by
  obtain ⟨q, hq, h⟩ := h
  obtain ⟨i, d, hi⟩ := C36.on_axis hn hm ⟨h0, h1⟩
  have hc : Spline.NaturalSpline n (fun _ => c) (fun _ => (⟨c, 0, 0, 0⟩ : Spline.Cubic ℝ)) := by
    constructor <;> intros <;> simp [Spline.Cubic.val, Spline.Cubic.der, Spline.Cubic.der2]
  rw [h x i d hi, C36.unique hn hq hc i (hi.last rfl)]
  simp [Spline.Cubic.val]

/-- A field with psi = R, so that rho is the square root of R. -/
noncomputable def wedge : Bfield.Data :=
  .b2 ⟨0, 1, 0, 0, ⟨fun r _ => some r, fun r _ => some ⟨r, 1, 0, 0, 0, 0⟩⟩, ⟨fun _ _ => some 0, fun _ _ => some ⟨0, 0, 0, 0, 0, 0⟩⟩,
    ⟨fun _ _ => some 1, fun _ _ => some ⟨1, 0, 0, 0, 0, 0⟩⟩, ⟨fun _ _ => some 0, fun _ _ => some ⟨0, 0, 0, 0, 0, 0⟩⟩⟩

theorem wedge_rho (phi z : ℝ) : Bfield.evalRhoDrho wedge (1 / 4) phi z = some (⟨1 / 2, 1, 0, 0⟩, 0) := by
  have hs : Real.sqrt (1 / 4) = 1 / 2 := by
    rw [show (1 / 4 : ℝ) = (1 / 2) ^ 2 by norm_num, Real.sqrt_sq (by norm_num)]
  have hs' : Real.sqrt 4⁻¹ = 2⁻¹ := by
    have := hs; norm_num at this; simpa using this
  unfold Bfield.evalRhoDrho Bfield.modelRhoDrho wedge Bfield.B2.evalRhoDrho
  norm_num [Bfield.withFallback, hs, hs']

/-- **Violation.** The effective minor radius has no effect: the potential gradient is 1, the radius 2, the gradient of rho at
R = 1/4 is 1, and the field is -1 instead of -2. -/
theorem reff_fails : ∃ d, init1DS 2 0 1 2 (fun _ => 1) = some d ∧
    evalE (.e1 d) wedge (1 / 4) 0 0 0 ⟨0, 0, 0⟩ = some (⟨-1, 0, 0⟩, 0) := by
  obtain ⟨d, F, e, h, ha, hb, hin⟩ := init_eq (n := 2) le_rfl (zero_lt_one' ℝ) 2 (fun _ => 1)
  refine ⟨d, e, ?_⟩
  have hF : F (1 / 2) = 1 := spline_const le_rfl zero_lt_one h (by norm_num) (by norm_num)
  rw [eval_in (by norm_num) (wedge_rho 0 0) (by rw [ha]; norm_num) (by rw [hb]; norm_num) (hin _ (by norm_num) (by norm_num)), hF]
  norm_num

/-! ### The hypotheses can be met -/

example : ∃ g, Bfield.evalRhoDrho wedge (1 / 4) 0 0 = some (g, 0) ∧ (0 : ℝ) ≤ g.v ∧ g.v ≤ 1 ∧
    HasGrad (fun r _ _ => Real.sqrt r) (1 / 4) 0 0 g := by
  have hs : Real.sqrt (1 / 4) = 1 / 2 := by
    rw [show (1 / 4 : ℝ) = (1 / 2) ^ 2 by norm_num, Real.sqrt_sq (by norm_num)]
  refine ⟨_, wedge_rho 0 0, by norm_num, by norm_num, hs, ?_, hasDerivAt_const _ _, hasDerivAt_const _ _⟩
  exact (Real.hasDerivAt_sqrt (by norm_num : (1 / 4 : ℝ) ≠ 0)).congr_deriv (by rw [hs]; norm_num)

example (b : Bfield.Data) : ∃ E, evalE (.tc ⟨1, 2, 3⟩) b 1 0 0 0 ⟨0, 0, 0⟩ = some (E, 0) := ⟨_, rfl⟩

end Ascot.C106
