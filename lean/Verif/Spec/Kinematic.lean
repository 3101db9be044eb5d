import Verif.Model.StateQnt

/-!
# Quantities of a particle with momentum `p` in a field `b`
-/
namespace Ascot.Kinematic

open StateQnt (Qnt)

/-- `v` is the velocity of a particle with mass `m` and momentum `p`: less than that of light, and
`p = m v / √(1 - v²/c²)`. -/
def IsVelocity (c m : ℝ) (v p : V3 ℝ) : Prop :=
  V3.dot v v < c ^ 2 ∧ p.x * Real.sqrt (1 - V3.dot v v / c ^ 2) = m * v.x ∧
    p.y * Real.sqrt (1 - V3.dot v v / c ^ 2) = m * v.y ∧ p.z * Real.sqrt (1 - V3.dot v v / c ^ 2) = m * v.z

/-- The values are those of a particle with mass `m` and momentum `p` in the field `b`. -/
structure Correct (c m : ℝ) (p b : V3 ℝ) (val : Qnt → ℝ) : Prop where
  mass : val .mass = m
  momentum : val .pr = p.x ∧ val .pphi = p.y ∧ val .pz = p.z
  pnorm : 0 ≤ val .pnorm ∧ val .pnorm ^ 2 = V3.dot p p
  ppar : val .ppar * Real.sqrt (V3.dot b b) = V3.dot p b
  pperp : 0 ≤ val .pperp ∧ val .ppar ^ 2 + val .pperp ^ 2 = V3.dot p p
  velocity : IsVelocity c m ⟨val .vr, val .vphi, val .vz⟩ p
  vnorm : 0 ≤ val .vnorm ∧ val .vnorm ^ 2 = val .vr ^ 2 + val .vphi ^ 2 + val .vz ^ 2
  vpar : val .vpar * Real.sqrt (V3.dot b b) = V3.dot ⟨val .vr, val .vphi, val .vz⟩ b
  vperp : 0 ≤ val .vperp ∧ val .vpar ^ 2 + val .vperp ^ 2 = val .vnorm ^ 2
  ekin : 0 ≤ val .ekin ∧ (val .ekin + m * c ^ 2) ^ 2 = V3.dot p p * c ^ 2 + (m * c ^ 2) ^ 2
  pitch : val .pitch * val .pnorm = val .ppar
  mu : val .mu * (2 * m * Real.sqrt (V3.dot b b)) = val .pperp ^ 2
  field : val .br = b.x ∧ val .bphi = b.y ∧ val .bz = b.z ∧ val .bnorm = Real.sqrt (V3.dot b b)

/-- The values are those at the position `(r, φ, z)`. -/
structure Placed (r phi z : ℝ) (val : Qnt → ℝ) : Prop where
  coords : val .r = r ∧ val .phi = phi ∧ val .z = z
  phimod : 0 ≤ val .phimod ∧ val .phimod < 2 * Real.pi ∧ ∃ k : ℤ, val .phimod = phi + k * (2 * Real.pi)
  cartesian : val .x = r * Real.cos phi ∧ val .y = r * Real.sin phi

/-- A direction of the poloidal angle, counted from the outside of the axis. -/
def Poloidal (dr dz t : ℝ) : Prop :=
  Real.sqrt (dr ^ 2 + dz ^ 2) * Real.cos t = dr ∧ Real.sqrt (dr ^ 2 + dz ^ 2) * Real.sin t = dz

end Ascot.Kinematic
