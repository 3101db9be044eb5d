import Verif.Model.Wall2D

/-!
# Geometry of the two-dimensional wall
-/
namespace Ascot.Wall2D
variable {K : Type} [Field K] [LinearOrder K]

/-- The point at parameter `t` of the step from `(r1, z1)` to `(r2, z2)` is on the segment from
`(r3, z3)` to `(r4, z4)`, end points included, and the two are not parallel. -/
def MeetsSeg (r1 z1 r2 z2 r3 z3 r4 z4 t : K) : Prop :=
  (r1 - r2) * (z3 - z4) - (z1 - z2) * (r3 - r4) ≠ 0 ∧ 0 ≤ t ∧ t ≤ 1 ∧
    ∃ u, 0 ≤ u ∧ u ≤ 1 ∧ r1 + t * (r2 - r1) = r3 + u * (r4 - r3) ∧ z1 + t * (z2 - z1) = z3 + u * (z4 - z3)

/-- The step meets segment `i` of the polygon, which ends at the next vertex, the last one at the
first. -/
def Meets (w : Wall K) (r1 z1 r2 z2 : K) (i : Nat) (t : K) : Prop :=
  MeetsSeg r1 z1 r2 z2 (w.r i) (w.z i) (w.r ((i + 1) % w.n)) (w.z ((i + 1) % w.n)) t

/-- The edge crosses the ray from `(r, z)` in the direction of increasing major radius. -/
def CrossesRay (r z r1 z1 r2 z2 : K) : Prop :=
  ∃ u, 0 < u ∧ u < 1 ∧ z1 + u * (z2 - z1) = z ∧ r < r1 + u * (r2 - r1)

end Ascot.Wall2D
