import Verif.Model.Wall3D
import Mathlib.Analysis.SpecialFunctions.Trigonometric.Basic
import Mathlib.Analysis.SpecialFunctions.Sqrt

/-!
# Geometry of walls in Python (`a5py/ascot5io/wall.py`)

Arrays with one element per vertex or wall element are lists.  Units are left out.
-/
namespace Ascot.WallGeom
open Ascot.Wall3D (Tri)

/-! ### The contour -/

/-- A vertex. -/
structure RZ where
  r : ℝ
  z : ℝ

/-- The contour is closed unless its last vertex is the first, a5py/ascot5io/wall.py:93-95 and 155-157; `none` for the exception for
no vertices. -/
noncomputable def closed (vs : List RZ) : Option (List RZ) :=
  match vs.head?, vs.getLast? with
  | some a, some b => some (if a.r ≠ b.r ∨ a.z ≠ b.z then vs ++ [a] else vs)
  | _, _ => none

/-- `wall_2D.getwallcontour`, a5py/ascot5io/wall.py:77-102: the segments. -/
noncomputable def contour (vs : List RZ) : Option (List (RZ × RZ)) := (closed vs).map fun c => c.zip c.tail

/-- The area of an element, a5py/ascot5io/wall.py:158-159. -/
noncomputable def area2 (a b : RZ) : ℝ := Real.pi * (b.r + a.r) * Real.sqrt ((b.r - a.r) ^ 2 + (b.z - a.z) ^ 2)

/-- The components in R and z of the normal of an element, a5py/ascot5io/wall.py:163. -/
noncomputable def normal2 (a b : RZ) : RZ :=
  have norm := Real.sqrt ((b.r - a.r) ^ 2 + (b.z - a.z) ^ 2)
  ⟨(b.z - a.z) / norm, -(b.r - a.r) / norm⟩

/-- `wall_2D.area`, a5py/ascot5io/wall.py:125-164. -/
noncomputable def areas2 (vs : List RZ) : Option (List ℝ) := (closed vs).map fun c => List.zipWith area2 c c.tail

/-- `wall_2D.getwalloutline`, a5py/ascot5io/wall.py:104-122, at one toroidal angle: `rmin` and `rmax`; `none` for the exception for
no vertices. -/
noncomputable def outline (vs : List RZ) : Option (ℝ × ℝ) :=
  match vs with
  | [] => none
  | v :: t => some ((t.map RZ.r).foldl max v.r, (t.map RZ.r).foldl min v.r)

/-! ### Triangles -/

/-- `nvec` before it is divided by its length, a5py/ascot5io/wall.py:449-455, 462-466. -/
def cross (t : Tri ℝ) : V3 ℝ :=
  have ab : V3 ℝ := ⟨t.t2.x - t.t1.x, t.t2.y - t.t1.y, t.t2.z - t.t1.z⟩
  have ac : V3 ℝ := ⟨t.t3.x - t.t1.x, t.t3.y - t.t1.y, t.t3.z - t.t1.z⟩
  ⟨ab.y * ac.z - ab.z * ac.y, ab.z * ac.x - ab.x * ac.z, ab.x * ac.y - ab.y * ac.x⟩

/-- `area`, a5py/ascot5io/wall.py:457-459. -/
noncomputable def area3 (t : Tri ℝ) : ℝ := 1 / 2 * Real.sqrt ((cross t).x ^ 2 + (cross t).y ^ 2 + (cross t).z ^ 2)

/-- `nvec`, a5py/ascot5io/wall.py:462-467. -/
noncomputable def normal3 (t : Tri ℝ) : V3 ℝ :=
  have l := Real.sqrt ((cross t).x ^ 2 + (cross t).y ^ 2 + (cross t).z ^ 2)
  ⟨(cross t).x / l, (cross t).y / l, (cross t).z / l⟩

/-- `barycenters`, a5py/ascot5io/wall.py:470-513, Cartesian. -/
noncomputable def barycenter (t : Tri ℝ) : V3 ℝ :=
  ⟨(t.t1.x + t.t2.x + t.t3.x) / 3, (t.t1.y + t.t2.y + t.t3.y) / 3, (t.t1.z + t.t2.z + t.t3.z) / 3⟩

/-- The array `vertices` of `noderepresentation`, a5py/ascot5io/wall.py:411-419. -/
def vertices (ts : List (Tri ℝ)) : List (V3 ℝ) := ts.flatMap fun t => [t.t1, t.t2, t.t3]

/-- The array `faces`, a5py/ascot5io/wall.py:406-409. -/
def faces (n : ℕ) : List (List ℕ) := (List.range n).map fun i => [3, i * 3 + 0, i * 3 + 1, i * 3 + 2]

/-! ### From the contour to triangles -/

/-- An element of a Python list or array by index; negative ones count from the end; `none` for `IndexError`. -/
def pyIndex (n : ℕ) (i : ℤ) : Option ℕ :=
  if 0 ≤ i ∧ i < n then some i.toNat else if -n ≤ i ∧ i < 0 then some (i + n).toNat else none

/-- A row of the arrays `r1r2r3`, `p1p2p3`, `z1z2z3`: vertices by R, phi and z. -/
abbrev Row := V3 ℝ × V3 ℝ × V3 ℝ

/-- `np.linspace(0, 2*np.pi, nphi+1)[i]`. -/
noncomputable def pv (nphi i : ℕ) : ℝ := 2 * Real.pi * (i / nphi)

/-- The two assignments of the inner loop, a5py/ascot5io/wall.py:729-735, for `i = i' + 1`: indices and rows. -/
noncomputable def writes (nphi : ℕ) (vs : List RZ) (i' j : ℕ) : Option (List (ℤ × Row)) := do
  let n := vs.length
  let a ← vs[j]?
  let b ← (pyIndex n ((j : ℤ) - 1)).bind fun k => vs[k]?
  let p := pv nphi i'
  let q := pv nphi (i' + 1)
  let at' : ℤ := i' * 2 * n + 2 * ((j : ℤ) - 1)
  return [(at', (⟨a.r, p, a.z⟩, ⟨a.r, q, a.z⟩, ⟨b.r, q, b.z⟩)), (at' + 1, (⟨a.r, p, a.z⟩, ⟨b.r, p, b.z⟩, ⟨b.r, q, b.z⟩))]

/-- An assignment to a row. -/
def store (rows : List Row) (w : ℤ × Row) : Option (List Row) := (pyIndex rows.length w.1).map fun k => rows.set k w.2

/-- `pol2cart` on a row, a5py/ascot5io/wall.py:719-724, 737. -/
noncomputable def pol2cart (w : Row) : Tri ℝ :=
  have f (p : V3 ℝ) : V3 ℝ := ⟨p.x * Real.cos p.y, p.x * Real.sin p.y, p.z⟩
  ⟨f w.1, f w.2.1, f w.2.2⟩

/-- `wall_3D.convert_wall_2D`, a5py/ascot5io/wall.py:688-740; `none` for `IndexError`. -/
noncomputable def convert (nphi : ℕ) (vs : List RZ) : Option (List (Tri ℝ)) := do
  let n := vs.length
  let ws ← ((List.range nphi).flatMap fun i' => (List.range n).map fun j => (i', j)).mapM fun p => writes nphi vs p.1 p.2
  let one : V3 ℝ := ⟨1, 1, 1⟩
  let rows ← ws.flatten.foldlM store (List.replicate (2 * n * nphi) (one, one, one))
  return rows.map pol2cart

end Ascot.WallGeom
