import Mathlib.Analysis.Calculus.Deriv.Basic
import Mathlib.Analysis.Real.Sqrt
import Verif.Model.Vec3

/-!
# Motion of a charge in a uniform magnetic field

The relativistic equation of motion `dp/dt = q v × B` with `p = γ m v`.
-/
namespace Ascot.Gyration

/-- Lorentz factor of momentum `p`. -/
noncomputable def lorentz (c m : ℝ) (p : V3 ℝ) : ℝ := Real.sqrt (1 + V3.dot p p / (m * c) ^ 2)

/-- `p` is the momentum, as a function of time, of a particle of mass `m` and charge `q` in the uniform magnetic field `B`. -/
def Moves (c m q : ℝ) (B : V3 ℝ) (p : ℝ → V3 ℝ) : Prop :=
  ∀ t,
    HasDerivAt (fun u => (p u).x) (q / (m * lorentz c m (p t)) * (V3.cross (p t) B).x) t ∧
    HasDerivAt (fun u => (p u).y) (q / (m * lorentz c m (p t)) * (V3.cross (p t) B).y) t ∧
    HasDerivAt (fun u => (p u).z) (q / (m * lorentz c m (p t)) * (V3.cross (p t) B).z) t

/-- Magnetic moment and parallel momentum of a particle of mass `m` with momentum `p` where the field is `B`. -/
noncomputable def parallel (p B : V3 ℝ) : ℝ := V3.dot p B / Real.sqrt (V3.dot B B)

noncomputable def moment (m : ℝ) (p B : V3 ℝ) : ℝ :=
  (V3.dot p p - parallel p B ^ 2) / (2 * m * Real.sqrt (V3.dot B B))

end Ascot.Gyration
