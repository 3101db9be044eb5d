import Mathlib.Algebra.Order.Field.Basic

/-!
# Two-dimensional wall (`src/wall/wall_2d.c`) and point in polygon (`src/math.c`)

`K` stands for `real`.  Arrays are functions of the index; the theorems are about indices below `n`.
-/
namespace Ascot.Wall2D

variable {K : Type} [Field K] [LinearOrder K]

/-- `wall_2d_data`, src/wall/wall_2d.h:13-19, without the flags. -/
structure Wall (K : Type) where
  n : Nat
  r : Nat → K
  z : Nat → K

/-- The end point of segment `i`, src/wall/wall_2d.c:91-100, 156-166. -/
def Wall.next (w : Wall K) (i : Nat) : Nat := if i = w.n - 1 then 0 else i + 1

/-- The test of one edge, src/wall/wall_2d.c:101-106 and src/math.c:432-441. -/
def crosses (r z r1 z1 r2 z2 : K) : Bool :=
  let wz1 := z1 - z
  let wz2 := z2 - z
  let wr1 := r1 - r
  let wr2 := r2 - r
  if wz1 * wz2 < 0 then decide (wr1 + (wz1 * (wr2 - wr1)) / (wz1 - wz2) > 0) else false

/-- `wall_2d_inside`, src/wall/wall_2d.c:87-110. -/
def inside (w : Wall K) (r z : K) : Nat :=
  (List.range w.n).foldl (fun hits i =>
    if crosses r z (w.r i) (w.z i) (w.r (w.next i)) (w.z (w.next i)) then hits + 1 else hits) 0 % 2

/-- `math_point_in_polygon`, src/math.c:427-444. -/
def pointInPolygon (r z : K) (rv zv : Nat → K) (n : Nat) : Nat :=
  (List.range (n - 1)).foldl (fun hits i =>
    if crosses r z (rv i) (zv i) (rv (i + 1)) (zv (i + 1)) then hits + 1 else hits) 0 % 2

/-- Result of `wall_2d_find_intersection`: `w_coll` and the returned identifier. -/
structure Hit (K : Type) where
  w : K
  id : Nat

/-- One segment, src/wall/wall_2d.c:168-174.  With `div = 0` the quotients are infinite or not
numbers and the condition does not hold. -/
def testOne (w : Wall K) (r1 z1 r2 z2 : K) (b : Hit K) (i : Nat) : Hit K :=
  let r3 := w.r i
  let z3 := w.z i
  let r4 := w.r (w.next i)
  let z4 := w.z (w.next i)
  let div := (r1 - r2) * (z3 - z4) - (z1 - z2) * (r3 - r4)
  if div = 0 then b
  else
    let t := ((r1 - r3) * (z3 - z4) - (z1 - z3) * (r3 - r4)) / div
    let u := ((r1 - r3) * (z1 - z2) - (z1 - z3) * (r1 - r2)) / div
    if 0 ≤ t ∧ t ≤ 1 ∧ 0 ≤ u ∧ u ≤ 1 ∧ t < b.w then ⟨t, i + 1⟩ else b

/-- `wall_2d_find_intersection`, src/wall/wall_2d.c:149-177; `wall_2d_hit_wall` (lines 128-131) calls
it with the same points. -/
def findIntersection (w : Wall K) (r1 z1 r2 z2 : K) : Hit K :=
  (List.range w.n).foldl (testOne w r1 z1 r2 z2) ⟨2, 0⟩

end Ascot.Wall2D
