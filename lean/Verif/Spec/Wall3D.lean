import Verif.Model.Vec3
import Verif.Model.Wall3D

/-!
# Geometry for the three-dimensional wall
-/
namespace Ascot.Wall3D
variable {K : Type} [Field K] [LinearOrder K]

/-- The square root of non-negative numbers. -/
def IsSqrt (sqrt : K → K) : Prop := ∀ x, 0 ≤ x → 0 ≤ sqrt x ∧ sqrt x * sqrt x = x

/-- The point at parameter `w` of the segment from `a` to `b`. -/
def pointAt (a b : V3 K) (w : K) : V3 K := ⟨a.x + w * (b.x - a.x), a.y + w * (b.y - a.y), a.z + w * (b.z - a.z)⟩

/-- `p` is a point of the (filled, closed) triangle. -/
def InTri (t1 t2 t3 p : V3 K) : Prop :=
  ∃ u v : K, 0 ≤ u ∧ 0 ≤ v ∧ u + v ≤ 1 ∧
    p = ⟨t1.x + u * (t2.x - t1.x) + v * (t3.x - t1.x), t1.y + u * (t2.y - t1.y) + v * (t3.y - t1.y),
      t1.z + u * (t2.z - t1.z) + v * (t3.z - t1.z)⟩

/-- `p` is in the closed box. -/
structure InBox (lo hi p : V3 K) : Prop where
  x1 : lo.x ≤ p.x
  x2 : p.x ≤ hi.x
  y1 : lo.y ≤ p.y
  y2 : p.y ≤ hi.y
  z1 : lo.z ≤ p.z
  z2 : p.z ≤ hi.z

/-- A vector orthogonal to the triangle, with twice its area as length. -/
def normalOf (t1 t2 t3 : V3 K) : V3 K := (t2.sub t1).cross (t3.sub t1)

/-- The step is so far from parallel to the triangle that it is not changed before the test. -/
def Transversal (sqrt : K → K) (eps : K) (q1 q2 t1 t2 t3 : V3 K) : Prop :=
  eps * (q2.sub q1).norm sqrt ≤ |(q2.sub q1).dot (normalOf t1 t2 t3)| ∧ (q2.sub q1).norm sqrt ≠ 0

/-- A box of the tree without padding. -/
structure Box (K : Type) where
  lo : V3 K
  hi : V3 K

/-- The half of an interval a coordinate is in. -/
def half (lo hi p : K) : K × K := if p < (hi + lo) / 2 then (lo, (hi + lo) / 2) else ((hi + lo) / 2, hi)

/-- The eighth of a box a point is in. -/
def eighth (b : Box K) (p : V3 K) : Box K :=
  ⟨⟨(half b.lo.x b.hi.x p.x).1, (half b.lo.y b.hi.y p.y).1, (half b.lo.z b.hi.z p.z).1⟩,
   ⟨(half b.lo.x b.hi.x p.x).2, (half b.lo.y b.hi.y p.y).2, (half b.lo.z b.hi.z p.z).2⟩⟩

/-- The boxes a point is in at the levels 1 to `d` of repeated division of `b`. -/
def path (p : V3 K) : Nat → Box K → List (Box K)
  | 0, _ => []
  | d + 1, b => eighth b p :: path p d (eighth b p)

/-- The point is on none of the planes that divide the boxes it is in. -/
def OffPlanes (p : V3 K) : Nat → Box K → Prop
  | 0, _ => True
  | d + 1, b => p.x ≠ (b.hi.x + b.lo.x) / 2 ∧ p.y ≠ (b.hi.y + b.lo.y) / 2 ∧ p.z ≠ (b.hi.z + b.lo.z) / 2 ∧
    OffPlanes p d (eighth b p)

/-- A box with padding. -/
def padded (pad : K) (b : Box K) : V3 K × V3 K :=
  (⟨b.lo.x - pad, b.lo.y - pad, b.lo.z - pad⟩, ⟨b.hi.x + pad, b.hi.y + pad, b.hi.z + pad⟩)

/-- An edge of a triangle is not almost parallel to a face of a box with faces of at least the given
areas: each component is zero or not too small. -/
structure EdgeOk (sqrt : K → K) (eps : K) (d : V3 K) (a b : V3 K) : Prop where
  x : b.x - a.x = 0 ∨ eps * (b.sub a).norm sqrt ≤ |b.x - a.x| * (d.y * d.z)
  y : b.y - a.y = 0 ∨ eps * (b.sub a).norm sqrt ≤ |b.y - a.y| * (d.x * d.z)
  z : b.z - a.z = 0 ∨ eps * (b.sub a).norm sqrt ≤ |b.z - a.z| * (d.x * d.y)

/-- The normal of a triangle is not almost parallel to a coordinate plane. -/
structure NormalOk (eps : K) (n : V3 K) : Prop where
  x : n.x = 0 ∨ eps ≤ |n.x|
  y : n.y = 0 ∨ eps ≤ |n.y|
  z : n.z = 0 ∨ eps ≤ |n.z|

/-- Conditions under which the overlap test is exact. -/
structure TriOk (sqrt : K → K) (eps : K) (d : V3 K) (t : Tri K) : Prop where
  area : eps < (normalOf t.t1 t.t2 t.t3).norm sqrt
  normal : NormalOk eps (normalOf t.t1 t.t2 t.t3)
  e12 : EdgeOk sqrt eps d t.t1 t.t2
  e32 : EdgeOk sqrt eps d t.t3 t.t2
  e13 : EdgeOk sqrt eps d t.t1 t.t3

/-- The domain of the wall. -/
def domain (w : Wall K) : Box K := ⟨⟨w.xmin, w.ymin, w.zmin⟩, ⟨w.xmax, w.ymax, w.zmax⟩⟩

/-- The low corner of a cell. -/
def corner (w : Wall K) (ix iy iz : Nat) : V3 K := ⟨w.xmin + ix * w.xgrid, w.ymin + iy * w.ygrid, w.zmin + iz * w.zgrid⟩

/-- The size of the cells. -/
def gridOf (w : Wall K) : V3 K := ⟨w.xgrid, w.ygrid, w.zgrid⟩

end Ascot.Wall3D
