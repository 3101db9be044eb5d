import Verif.Model.Vec3
import Mathlib.Algebra.Order.Floor.Defs

/-!
# Three-dimensional wall (`src/wall/wall_3d.c`, `src/octree.c`)

`K` stands for `real`; `sqrt` is a parameter.  `eps` is `WALL_EPSILON`, `pad` is the `epsilon` of
`octree_create` and `margin` the 0.1 of `wall_3d_init`.  Integers do not overflow.
-/
namespace Ascot.Wall3D

variable {K : Type} [Field K] [LinearOrder K]

/-- Nine numbers of `wall_tris`, the three vertices of a triangle. -/
structure Tri (K : Type) where
  t1 : V3 K
  t2 : V3 K
  t3 : V3 K

/-- The part of `wall_3d_tri_collision` after `det` is known, src/wall/wall_3d.c:567-583.
With `det = 0` the two quotients are infinite or not numbers and no branch of the condition holds. -/
def collisionRest (sqrt : K → K) (Q12 q12 h : V3 K) (det : K) (q1 t1 edge12 edge13 : V3 K) : K :=
  if det = 0 then -1
  else
    let tq11 := q1.sub t1
    let n := tq11.cross edge12
    let u := h.dot tq11 / det
    let v := q12.dot n / det
    if (u ≥ 0 ∧ u ≤ 1) ∧ (v ≥ 0 ∧ u + v ≤ 1) then
      let w := (n.dot edge13 / det) / Q12.norm sqrt
      if w > 1 then -1 else w
    else -1

/-- `wall_3d_tri_collision`, src/wall/wall_3d.c:527-588.  For a segment of length zero `math_unit`
gives components that are not numbers, all comparisons with them are false, and -1 is returned;
the same for the nudged segment. -/
def triCollision (sqrt : K → K) (eps : K) (q1 q2 t1 t2 t3 : V3 K) : K :=
  let Q12 := q2.sub q1
  if Q12.norm sqrt = 0 then -1
  else
    let q12 := Q12.unit sqrt
    let edge12 := t2.sub t1
    let edge13 := t3.sub t1
    let h := q12.cross edge13
    let det := h.dot edge12
    let normal := edge12.cross edge13
    let area := normal.norm sqrt
    if area > eps then
      if |det| < eps then
        let Q12' : V3 K := ⟨q2.x - q1.x + 2 * eps * normal.x / area, q2.y - q1.y + 2 * eps * normal.y / area,
          q2.z - q1.z + 2 * eps * normal.z / area⟩
        if Q12'.norm sqrt = 0 then -1
        else
          let q12' := Q12'.unit sqrt
          let h' := q12'.cross edge13
          collisionRest sqrt Q12' q12' h' (h'.dot edge12) q1 t1 edge12 edge13
      else collisionRest sqrt Q12 q12 h det q1 t1 edge12 edge13
    else -1

/-- `wall_3d_quad_collision`, src/wall/wall_3d.c:602-609. -/
def quadCollision (sqrt : K → K) (eps : K) (q1 q2 t1 t2 t3 t4 : V3 K) : Bool :=
  decide (triCollision sqrt eps q1 q2 t1 t2 t3 ≥ 0 ∨ triCollision sqrt eps q1 q2 t1 t3 t4 ≥ 0)

/-- `wall_3d_tri_in_cube`, src/wall/wall_3d.c:447-510. -/
def triInCube (sqrt : K → K) (eps : K) (t : Tri K) (bb1 bb2 : V3 K) : Bool :=
  let t1 := t.t1
  let t2 := t.t2
  let t3 := t.t3
  if bb1.x ≤ t1.x ∧ t1.x ≤ bb2.x ∧ bb1.y ≤ t1.y ∧ t1.y ≤ bb2.y ∧ bb1.z ≤ t1.z ∧ t1.z ≤ bb2.z then true
  else if bb1.x < t2.x ∧ t2.x ≤ bb2.x ∧ bb1.y ≤ t2.y ∧ t2.y ≤ bb2.y ∧ bb1.z ≤ t2.z ∧ t2.z ≤ bb2.z then true
  else if bb1.x ≤ t3.x ∧ t3.x ≤ bb2.x ∧ bb1.y ≤ t3.y ∧ t3.y ≤ bb2.y ∧ bb1.z ≤ t3.z ∧ t3.z ≤ bb2.z then true
  else
    let c000 : V3 K := ⟨bb1.x, bb1.y, bb1.z⟩
    let c100 : V3 K := ⟨bb2.x, bb1.y, bb1.z⟩
    let c010 : V3 K := ⟨bb1.x, bb2.y, bb1.z⟩
    let c110 : V3 K := ⟨bb2.x, bb2.y, bb1.z⟩
    let c001 : V3 K := ⟨bb1.x, bb1.y, bb2.z⟩
    let c101 : V3 K := ⟨bb2.x, bb1.y, bb2.z⟩
    let c011 : V3 K := ⟨bb1.x, bb2.y, bb2.z⟩
    let c111 : V3 K := ⟨bb2.x, bb2.y, bb2.z⟩
    let edge (a b : V3 K) : Bool := decide (triCollision sqrt eps a b t1 t2 t3 ≥ 0)
    let quad := quadCollision sqrt eps
    if edge c000 c100 || edge c000 c010 || edge c110 c010 || edge c110 c100 || edge c000 c001 ||
        edge c010 c011 || edge c100 c101 || edge c110 c111 || edge c001 c101 || edge c001 c011 ||
        edge c111 c011 || edge c111 c101 then true
    else if quad t1 t2 c000 c100 c110 c010 || quad t1 t2 c000 c010 c011 c001 || quad t1 t2 c000 c100 c101 c001 ||
        quad t1 t2 c010 c110 c111 c011 || quad t1 t2 c100 c101 c111 c110 || quad t1 t2 c001 c101 c111 c011 then true
    else if quad t3 t2 c000 c100 c110 c010 || quad t3 t2 c000 c010 c011 c001 || quad t3 t2 c000 c100 c101 c001 ||
        quad t3 t2 c010 c110 c111 c011 || quad t3 t2 c100 c101 c111 c110 || quad t3 t2 c001 c101 c111 c011 then true
    else if quad t1 t3 c000 c100 c110 c010 || quad t1 t3 c000 c010 c011 c001 || quad t1 t3 c000 c100 c101 c001 ||
        quad t1 t3 c010 c110 c111 c011 || quad t1 t3 c100 c101 c111 c110 || quad t1 t3 c001 c101 c111 c011 then true
    else false

/-- `octree_node`, src/octree.h:17-29.  In a leaf all children are null, in other nodes the list is.
The linked list is represented by its contents (see C03). -/
inductive Tree (K : Type)
  | leaf (bb1 bb2 : V3 K) (list : List Nat)
  | node (bb1 bb2 : V3 K) (n000 n100 n010 n110 n001 n101 n011 n111 : Tree K)

def Tree.bb1 : Tree K → V3 K
  | .leaf a _ _ => a
  | .node a _ _ _ _ _ _ _ _ _ => a

def Tree.bb2 : Tree K → V3 K
  | .leaf _ b _ => b
  | .node _ b _ _ _ _ _ _ _ _ => b

/-- `octree_create`, src/octree.c:46-82, with `depth - 1` as the argument (all calls have
`depth ≥ 1`). -/
def create (pad : K) : Nat → (xmin xmax ymin ymax zmin zmax : K) → Tree K
  | 0, xmin, xmax, ymin, ymax, zmin, zmax =>
    .leaf ⟨xmin - pad, ymin - pad, zmin - pad⟩ ⟨xmax + pad, ymax + pad, zmax + pad⟩ []
  | d + 1, xmin, xmax, ymin, ymax, zmin, zmax =>
    let x := (xmax + xmin) / 2
    let y := (ymax + ymin) / 2
    let z := (zmax + zmin) / 2
    .node ⟨xmin - pad, ymin - pad, zmin - pad⟩ ⟨xmax + pad, ymax + pad, zmax + pad⟩
      (create pad d xmin x ymin y zmin z)
      (create pad d x xmax ymin y zmin z)
      (create pad d xmin x y ymax zmin z)
      (create pad d x xmax y ymax zmin z)
      (create pad d xmin x ymin y z zmax)
      (create pad d x xmax ymin y z zmax)
      (create pad d xmin x y ymax z zmax)
      (create pad d x xmax y ymax z zmax)

/-- `octree_add`, src/octree.c:123-146; `test` is `wall_3d_tri_in_cube` of the triangle with the
given corners. -/
def Tree.add (test : V3 K → V3 K → Bool) (id : Nat) : Tree K → Tree K
  | .leaf a b l => .leaf a b (l ++ [id])
  | .node a b n000 n100 n010 n110 n001 n101 n011 n111 =>
    .node a b
      (if test n000.bb1 n000.bb2 then n000.add test id else n000)
      (if test n100.bb1 n100.bb2 then n100.add test id else n100)
      (if test n010.bb1 n010.bb2 then n010.add test id else n010)
      (if test n110.bb1 n110.bb2 then n110.add test id else n110)
      (if test n001.bb1 n001.bb2 then n001.add test id else n001)
      (if test n101.bb1 n101.bb2 then n101.add test id else n101)
      (if test n011.bb1 n011.bb2 then n011.add test id else n011)
      (if test n111.bb1 n111.bb2 then n111.add test id else n111)

/-- `octree_get`, src/octree.c:164-194; `none` is the null pointer. -/
def Tree.get (p : V3 K) : Tree K → Option (List Nat)
  | .leaf _ _ l => some l
  | .node a b n000 n100 n010 n110 n001 n101 n011 n111 =>
    let x := (a.x + b.x) / 2
    let y := (a.y + b.y) / 2
    let z := (a.z + b.z) / 2
    if p.x < x ∧ p.y < y ∧ p.z < z then n000.get p
    else if p.x > x ∧ p.y < y ∧ p.z < z then n100.get p
    else if p.x < x ∧ p.y > y ∧ p.z < z then n010.get p
    else if p.x > x ∧ p.y > y ∧ p.z < z then n110.get p
    else if p.x < x ∧ p.y < y ∧ p.z > z then n001.get p
    else if p.x > x ∧ p.y < y ∧ p.z > z then n101.get p
    else if p.x < x ∧ p.y > y ∧ p.z > z then n011.get p
    else if p.x > x ∧ p.y > y ∧ p.z > z then n111.get p
    else none

/-- The members of `wall_3d_data` used here; `depth` is one less than in the code. -/
structure Wall (K : Type) where
  depth : Nat
  ngrid : Nat
  xmin : K
  xmax : K
  ymin : K
  ymax : K
  zmin : K
  zmax : K
  xgrid : K
  ygrid : K
  zgrid : K
  tris : List (Tri K)
  table : List Nat

/-- The tree with all triangles, src/wall/wall_3d.c:237-257. -/
def buildTree (sqrt : K → K) (eps pad : K) (w : Wall K) : Tree K :=
  w.tris.zipIdx.foldl (fun t q => t.add (triInCube sqrt eps q.1) q.2)
    (create pad w.depth w.xmin w.xmax w.ymin w.ymax w.zmin w.zmax)

/-- Centre of a cell, src/wall/wall_3d.c:268-271. -/
def centre (w : Wall K) (ix iy iz : Nat) : V3 K :=
  ⟨w.xmin + ix * w.xgrid + 1 / 2 * w.xgrid, w.ymin + iy * w.ygrid + 1 / 2 * w.ygrid,
    w.zmin + iz * w.zgrid + 1 / 2 * w.zgrid⟩

/-- `tri_list`, src/wall/wall_3d.c:259-277.  The loops over `ix`, `iy`, `iz` fill the elements
`cell_index` from 0 on.  `none` if a null pointer is stored (it would be dereferenced in line 282). -/
def triLists (w : Wall K) (t : Tree K) : Option (List (List Nat)) :=
  (List.range (w.ngrid * w.ngrid * w.ngrid)).mapM fun c =>
    t.get (centre w (c / (w.ngrid * w.ngrid)) (c / w.ngrid % w.ngrid) (c % w.ngrid))

/-- A write to `tree_array`; `none` if it is out of bounds. -/
def store (a : List Nat) (i v : Nat) : Option (List Nat) := if i < a.length then some (a.set i v) else none

/-- The loop over the identifiers of a cell, src/wall/wall_3d.c:297-299. -/
def storeIds (a : List Nat) (pos : Nat) : Nat → List Nat → Option (List Nat)
  | _, [] => some a
  | j, id :: l => do
    let a ← store a (pos + j + 1) id
    storeIds a pos (j + 1) l

/-- The loop over the cells, src/wall/wall_3d.c:288-301, from cell `i` on. -/
def storeCells (a : List Nat) : Nat → Nat → List (List Nat) → Option (List Nat)
  | _, _, [] => some a
  | i, next, l :: ls => do
    let a ← store a i next
    let a ← store a next l.length
    let a ← storeIds a next 0 l
    storeCells a (i + 1) (next + (l.length + 1)) ls

/-- `tree_array`, src/wall/wall_3d.c:279-301.  The memory returned by `malloc` is represented by
zeros; the theorems show which elements are written. -/
def flatten (ls : List (List Nat)) : Option (List Nat) :=
  storeCells (List.replicate (2 * ls.length + (ls.map List.length).sum) 0) 0 ls.length ls

/-- The least and the greatest value of a coordinate, src/wall/wall_3d.c:53-71. -/
def minOf (f : V3 K → K) (a : K) (ts : List (Tri K)) : K :=
  ts.foldl (fun m t => min (min (min m (f t.t1)) (f t.t2)) (f t.t3)) a

def maxOf (f : V3 K → K) (a : K) (ts : List (Tri K)) : K :=
  ts.foldl (fun m t => max (max (max m (f t.t1)) (f t.t2)) (f t.t3)) a

/-- Members set before the tree is built, src/wall/wall_3d.c:51-93.  `depth` is
`WALL_OCTREE_DEPTH - 1`; `none` if there are no triangles (the first vertex is read). -/
def limits (margin : K) (depth : Nat) (ts : List (Tri K)) : Option (Wall K) :=
  match ts with
  | [] => none
  | t :: _ =>
    let xmin := minOf V3.x t.t1.x ts - margin
    let xmax := maxOf V3.x t.t1.x ts + margin
    let ymin := minOf V3.y t.t1.y ts - margin
    let ymax := maxOf V3.y t.t1.y ts + margin
    let zmin := minOf V3.z t.t1.z ts - margin
    let zmax := maxOf V3.z t.t1.z ts + margin
    let ngrid := 2 ^ depth
    some { depth := depth, ngrid := ngrid, xmin := xmin, xmax := xmax, ymin := ymin, ymax := ymax,
           zmin := zmin, zmax := zmax, xgrid := (xmax - xmin) / ngrid, ygrid := (ymax - ymin) / ngrid,
           zgrid := (zmax - zmin) / ngrid, tris := ts, table := [] }

/-- `wall_3d_init` with `wall_3d_init_octree`, src/wall/wall_3d.c:45-110, 229-304, without output and
flags. -/
def init (sqrt : K → K) (eps pad margin : K) (depth : Nat) (ts : List (Tri K)) : Option (Wall K) := do
  let w ← limits margin depth ts
  let ls ← triLists w (buildTree sqrt eps pad w)
  let a ← flatten ls
  return { w with table := a }

variable [FloorRing K]

/-- Cell of a coordinate, src/wall/wall_3d.c:335-347. -/
def cellOf (q lo hi : K) (n : Nat) : Int := ⌊(q - lo) / ((hi - lo) / n)⌋

/-- One loop index along an axis, src/wall/wall_3d.c:355-357: `i1 + i*copysign(1, i2-i1)`. -/
def along (i1 i2 : Int) (i : Nat) : Int := i1 + i * (if i2 - i1 < 0 then -1 else 1)

/-- The identifiers in a cell, read from `tree_array`, src/wall/wall_3d.c:362-366; `none` if out of
bounds. -/
def readCell (w : Wall K) (ix iy iz : Nat) : Option (List Nat) := do
  let ilist ← w.table[ix * w.ngrid * w.ngrid + iy * w.ngrid + iz]?
  let n ← w.table[ilist]?
  (List.range n).mapM fun l => w.table[ilist + l + 1]?

/-- The triangles that are tested, in order, src/wall/wall_3d.c:352-366. -/
def tested (w : Wall K) (q1 q2 : V3 K) : Option (List Nat) := do
  let ix1 := cellOf q1.x w.xmin w.xmax w.ngrid
  let iy1 := cellOf q1.y w.ymin w.ymax w.ngrid
  let iz1 := cellOf q1.z w.zmin w.zmax w.ngrid
  let ix2 := cellOf q2.x w.xmin w.xmax w.ngrid
  let iy2 := cellOf q2.y w.ymin w.ymax w.ngrid
  let iz2 := cellOf q2.z w.zmin w.zmax w.ngrid
  let cells := (List.range ((ix2 - ix1).natAbs + 1)).flatMap fun i =>
    (List.range ((iy2 - iy1).natAbs + 1)).flatMap fun j =>
      (List.range ((iz2 - iz1).natAbs + 1)).map fun k => (along ix1 ix2 i, along iy1 iy2 j, along iz1 iz2 k)
  let ls ← cells.mapM fun c =>
    if c.1 ≥ 0 ∧ c.1 < (w.ngrid : Int) ∧ c.2.1 ≥ 0 ∧ c.2.1 < (w.ngrid : Int) ∧ c.2.2 ≥ 0 ∧ c.2.2 < (w.ngrid : Int) then
      readCell w c.1.toNat c.2.1.toNat c.2.2.toNat
    else some []
  return ls.flatten

/-- Result of `wall_3d_hit_wall`: `w_coll` and the returned identifier. -/
structure Hit (K : Type) where
  w : K
  id : Nat

/-- One triangle, src/wall/wall_3d.c:366-375; `none` if out of bounds. -/
def testOne (sqrt : K → K) (eps : K) (w : Wall K) (q1 q2 : V3 K) (b : Hit K) (itri : Nat) : Option (Hit K) := do
  let t ← w.tris[itri]?
  let c := triCollision sqrt eps q1 q2 t.t1 t.t2 t.t3
  return if c ≥ 0 ∧ c < b.w then ⟨c, itri + 1⟩ else b

/-- `wall_3d_hit_wall` for points in Cartesian coordinates, src/wall/wall_3d.c:333-384. -/
def hitWallXyz (sqrt : K → K) (eps : K) (w : Wall K) (q1 q2 : V3 K) : Option (Hit K) := do
  (← tested w q1 q2).foldlM (testOne sqrt eps w q1 q2) ⟨11 / 10, 0⟩

/-- `math_rpz2xyz`, src/math.h:82-83. -/
def rpz2xyz (cos sin : K → K) (p : V3 K) : V3 K := ⟨p.x * cos p.y, p.x * sin p.y, p.z⟩

/-- `wall_3d_hit_wall`, src/wall/wall_3d.c:322-384. -/
def hitWall (sqrt cos sin : K → K) (eps : K) (w : Wall K) (rpz1 rpz2 : V3 K) : Option (Hit K) :=
  hitWallXyz sqrt eps w (rpz2xyz cos sin rpz1) (rpz2xyz cos sin rpz2)

/-- `wall_3d_hit_wall_full`, src/wall/wall_3d.c:402-434, for points in Cartesian coordinates. -/
def hitWallFull (sqrt : K → K) (eps : K) (ts : List (Tri K)) (q1 q2 : V3 K) : Hit K :=
  ts.zipIdx.foldl (fun b t =>
    let c := triCollision sqrt eps q1 q2 t.1.t1 t.1.t2 t.1.t3
    if c > 0 then (if c < b.w then ⟨c, t.2 + 1⟩ else b) else b) ⟨11 / 10, 0⟩

end Ascot.Wall3D
