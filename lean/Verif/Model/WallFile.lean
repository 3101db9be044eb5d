import Verif.Model.PyFile
import Verif.Model.Wall2D
import Verif.Model.Wall3D
import Mathlib.Analysis.SpecialFunctions.Trigonometric.Basic
import Mathlib.Analysis.SpecialFunctions.Sqrt

/-!
# Wall files (`a5py/ascot5io/wall.py`, `src/hdf5io/hdf5_wall.c`) and the wall interface (`src/wall.c`)
-/
namespace Ascot.WallFile
open Ascot.PyFile
open Ascot.MarkerFile (Group readReals readInts)
open Ascot.Options (Res)

/-! ### The Python side -/

/-- The argument `flag`: left out, or an array of some shape. -/
inductive Flag where
  | none
  | array (shape : List ℕ) (xs : List ℤ)

/-- The default and the check of the shape, a5py/ascot5io/wall.py:224-229 and 634-639; `none` for `ValueError`. -/
def Flag.resolve (n : ℕ) : Flag → Option (List ℤ)
  | .none => some (List.replicate n 0)
  | .array s xs => if s = [n, 1] then some xs else Option.none

/-- `wall_2D.write_hdf5`, a5py/ascot5io/wall.py:184-262, without the names of flags. -/
def write2D (nelements : ℕ) (r z : List ℝ) (flag : Flag) : Written :=
  if r.length ≠ nelements then .refused else
  if z.length ≠ nelements then .refused else
  match flag.resolve nelements with
  | none => .refused
  | some fl => createAll empty
      [⟨"r", [nelements, 1], .reals r⟩, ⟨"z", [nelements, 1], .reals z⟩, ⟨"nelements", [1, 1], .ints [nelements]⟩,
       ⟨"flag", [nelements, 1], .ints fl⟩]

/-- `wall_3D.write_hdf5`, a5py/ascot5io/wall.py:581-665, for an integer `nelements`, without the labels of flags. -/
def write3D (nelements : ℕ) (x y z : Nd) (flag : Flag) : Written :=
  if x.shape ≠ [nelements, 3] then .refused else
  if y.shape ≠ [nelements, 3] then .refused else
  if z.shape ≠ [nelements, 3] then .refused else
  match flag.resolve nelements with
  | none => .refused
  | some fl => createAll empty
      [⟨"nelements", [1, 1], .ints [nelements]⟩, ⟨"x1x2x3", [nelements, 3], .reals x.flat⟩,
       ⟨"y1y2y3", [nelements, 3], .reals y.flat⟩, ⟨"z1z2z3", [nelements, 3], .reals z.flat⟩,
       ⟨"flag", [nelements, 1], .ints fl⟩]

/-! ### The C side -/

/-- `wall_data`, src/wall.h:26-35, with the flags of the elements. -/
inductive Data where
  | w2 (w : Wall2D.Wall ℝ) (flag : List ℤ)
  | w3 (w : Wall3D.Wall ℝ) (flag : List ℤ)

/-- `WALL_EPSILON`, src/wall/wall_3d.h:11. -/
noncomputable def eps : ℝ := 1 / 10 ^ 9
/-- `epsilon`, src/octree.c:50. -/
noncomputable def pad : ℝ := 1 / 10 ^ 6
/-- The margin of src/wall/wall_3d.c:74-79. -/
noncomputable def margin : ℝ := 1 / 10

/-- `wall_2d_init`, src/wall/wall_2d.c:22-46.  The first vertex is read, also if there is none. -/
def init2D (n : ℕ) (r z : Fin n → ℝ) (flag : Fin n → ℤ) : Res Data :=
  if n = 0 then .ub else .ok (.w2 ⟨n, ext (fun _ => 0) r, ext (fun _ => 0) z⟩ (List.ofFn flag))

/-- `hdf5_wall_read_2D`, src/hdf5io/hdf5_wall.c:69-90. -/
def read2D (g : Group) : Res Data := do
  let n ← readCount g "nelements"
  let r ← readReals g "r" n
  let z ← readReals g "z" n
  let flag ← readInts g "flag" n
  init2D n r z flag

/-- The vertices of triangle `i`, src/wall/wall_3d.c:56-61. -/
def triangle {n : ℕ} (x y z : Fin (3 * n) → ℝ) (i : ℕ) : Wall3D.Tri ℝ :=
  have v (j : ℕ) : V3 ℝ := ⟨ext (fun _ => 0) x (3 * i + j), ext (fun _ => 0) y (3 * i + j), ext (fun _ => 0) z (3 * i + j)⟩
  ⟨v 0, v 1, v 2⟩

/-- `WALL_OCTREE_DEPTH - 1`, src/ascot5.h:134. -/
def depth : ℕ := 6

/-- `hdf5_wall_read_3D`, src/hdf5io/hdf5_wall.c:102-131. -/
noncomputable def read3D (g : Group) : Res Data := do
  let n ← readCount g "nelements"
  let x ← readReals g "x1x2x3" (3 * n)
  let y ← readReals g "y1y2y3" (3 * n)
  let z ← readReals g "z1z2z3" (3 * n)
  let flag ← readInts g "flag" n
  match Wall3D.init Real.sqrt eps pad margin depth ((List.range n).map (triangle x y z)) with
  | some w => .ok (.w3 w (List.ofFn flag))
  | none => .ub

/-- `hdf5_wall_init`, src/hdf5io/hdf5_wall.c:40-57. -/
noncomputable def readWall (f : String → Option Group) : Res Data :=
  lastFound f [("wall_2D", read2D), ("wall_3D", read3D)]

/-- `wall_hit_wall`, src/wall.c:80-97: the identifier and `w_coll`; `none` for an invalid access. -/
noncomputable def hitWall (d : Data) (p1 p2 : V3 ℝ) : Option (ℕ × ℝ) :=
  match d with
  | .w2 w _ => have h := Wall2D.findIntersection w p1.x p1.z p2.x p2.z; some (h.id, h.w)
  | .w3 w _ => (Wall3D.hitWall Real.sqrt Real.cos Real.sin eps w p1 p2).map fun h => (h.id, h.w)

/-- `wall_get_n_elements`, src/wall.c:106-118. -/
def nElements : Data → ℕ
  | .w2 w _ => w.n
  | .w3 w _ => w.tris.length

/-- `wall_get_flag`, src/wall.c:126-138; `none` for an index out of bounds. -/
def getFlag (d : Data) (idx : ℕ) : Option ℤ :=
  match d with
  | .w2 _ flag => flag[idx]?
  | .w3 _ flag => flag[idx]?

end Ascot.WallFile
