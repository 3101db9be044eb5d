import Verif.Model.Vec3
import Mathlib.Analysis.SpecialFunctions.Trigonometric.Basic

/-!
# Rotation about the vertical axis
-/
namespace Ascot.Revolve

/-- A vector turned by an angle. -/
noncomputable def turn (a : ℝ) (v : V3 ℝ) : V3 ℝ :=
  ⟨v.x * Real.cos a - v.y * Real.sin a, v.x * Real.sin a + v.y * Real.cos a, v.z⟩

/-- Coils with their currents, turned by an angle. -/
noncomputable def turnCoils (a : ℝ) (cs : List (List (V3 ℝ) × ℝ)) : List (List (V3 ℝ) × ℝ) :=
  cs.map fun c => (c.1.map (turn a), c.2)

/-- `m` copies of the coils, turned by given angles. -/
noncomputable def copies (a : ℕ → ℝ) (m : ℕ) (cs : List (List (V3 ℝ) × ℝ)) : List (List (V3 ℝ) × ℝ) :=
  (List.range m).flatMap fun i => turnCoils (a i) cs

end Ascot.Revolve
