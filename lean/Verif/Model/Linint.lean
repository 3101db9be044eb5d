import Mathlib.Algebra.Order.Field.Basic
import Mathlib.Algebra.Order.Floor.Defs

/-!
# Linear interpolation (`src/linint/linint1D.c`, `linint2D.c`, `linint3D.c`)

`K` stands for `real`.  Conversions to `int` do not overflow.  A result `none` means that an element
outside the table was read, `some none` is the error return and `some (some f)` a value.
-/
namespace Ascot.Linint

variable {K : Type} [Field K] [LinearOrder K] [FloorRing K]

/-- `NATURALBC` and `PERIODICBC`, src/spline/interp.h:36-39. -/
inductive BC
  | natural
  | periodic
  deriving DecidableEq

/-- The members of the structures that belong to one axis, src/linint/linint.h:20-71. -/
structure Axis (K : Type) where
  n : Nat
  bc : BC
  min : K
  max : K
  grid : K

/-- The grid interval, src/linint/linint1D.c:25 and the same in two and three dimensions.  The number of
points of a non-periodic axis must be at least two. -/
def gridOf (n : Nat) (bc : BC) (min max : K) : K :=
  (max - min) / ((n : K) - 1 * (if bc = .natural then 1 else 0))

/-- The members set for one axis in `linint1D_init` and `linint3D_init`, src/linint/linint1D.c:22-33,
src/linint/linint3D.c:28-56. -/
@[reducible] def Axis.init (n : Nat) (bc : BC) (min max : K) : Axis K := ⟨n, bc, min, max, gridOf n bc min max⟩

/-- The members set for one axis in `linint2D_init`, src/linint/linint2D.c:25-43: the boundary
condition, `old`, is whatever the structure had before. -/
@[reducible] def Axis.init2D (old : BC) (n : Nat) (bc : BC) (min max : K) : Axis K := ⟨n, old, min, max, gridOf n bc min max⟩

/-- `fmod`, src/math.c:22-24. -/
def fmod (x y : K) : K := x - y * ⌊x / y⌋

/-- Conversion of a real to `int`. -/
def toInt (x : K) : Int := if 0 ≤ x then ⌊x⌋ else ⌈x⌉

/-- Periodic coordinates, src/linint/linint1D.c:50-53. -/
def wrap (a : Axis K) (x : K) : K :=
  if a.bc = .periodic then
    let x := fmod (x - a.min) (a.max - a.min) + a.min
    x + (if x < a.min then 1 else 0) * (a.max - a.min)
  else x

/-- Index of the cell, position in it, steps to the next point along the axis, and error, for one
axis, src/linint/linint1D.c:55-70.  The code is repeated for each axis in two and three dimensions. -/
structure Loc (K : Type) where
  i : Int
  d : K
  next : Int
  err : Bool

def locate (a : Axis K) (x0 : K) : Loc K :=
  let x := wrap a x0
  let i := toInt ((x - a.min) / a.grid)
  let d := (x - (a.min + i * a.grid)) / a.grid
  if a.bc = .periodic ∧ i = (a.n : Int) - 1 then ⟨i, d, -((a.n : Int) - 1), false⟩
  else if a.bc = .natural ∧ ¬ (x ≥ a.min ∧ x ≤ a.max) then ⟨i, d, 1, true⟩
  else ⟨i, d, 1, false⟩

/-- An array access, `none` if out of bounds. -/
def read (c : List K) (i : Int) : Option K := if 0 ≤ i then c[i.toNat]? else none

/-- `linint1D_eval_f`, src/linint/linint1D.c:47-76. -/
def eval1D (a : Axis K) (c : List K) (x : K) : Option (Option K) :=
  let l := locate a x
  if l.err then some none
  else do
    let c0 ← read c l.i
    let c1 ← read c (l.i + l.next)
    return some (c0 * (1 - l.d) + c1 * l.d)

/-- `linint2D_eval_f`, src/linint/linint2D.c:58-116. -/
def eval2D (ax ay : Axis K) (c : List K) (x y : K) : Option (Option K) :=
  let lx := locate ax x
  let ly := locate ay y
  let n := ly.i * ax.n + lx.i
  let x1 := lx.next
  let y1 := ly.next * ax.n
  if lx.err || ly.err then some none
  else do
    let c00 ← read c n
    let c10 ← read c (n + x1)
    let c01 ← read c (n + y1)
    let c11 ← read c (n + y1 + x1)
    let c0 := c00 * (1 - lx.d) + c10 * lx.d
    let c1 := c01 * (1 - lx.d) + c11 * lx.d
    return some (c0 * (1 - ly.d) + c1 * ly.d)

/-- `linint3D_eval_f`, src/linint/linint3D.c:70-154. -/
def eval3D (ax ay az : Axis K) (c : List K) (x y z : K) : Option (Option K) :=
  let lx := locate ax x
  let ly := locate ay y
  let lz := locate az z
  let n := ly.i * az.n * ax.n + lz.i * ax.n + lx.i
  let x1 := lx.next
  let y1 := ly.next * (az.n * ax.n)
  let z1 := lz.next * ax.n
  if lx.err || ly.err || lz.err then some none
  else do
    let c000 ← read c n
    let c100 ← read c (n + x1)
    let c001 ← read c (n + y1)
    let c101 ← read c (n + y1 + x1)
    let c010 ← read c (n + z1)
    let c110 ← read c (n + z1 + x1)
    let c011 ← read c (n + y1 + z1)
    let c111 ← read c (n + y1 + z1 + x1)
    let c00 := c000 * (1 - lx.d) + c100 * lx.d
    let c01 := c001 * (1 - lx.d) + c101 * lx.d
    let c10 := c010 * (1 - lx.d) + c110 * lx.d
    let c11 := c011 * (1 - lx.d) + c111 * lx.d
    let c0 := c00 * (1 - lz.d) + c10 * lz.d
    let c1 := c01 * (1 - lz.d) + c11 * lz.d
    return some (c0 * (1 - ly.d) + c1 * ly.d)

end Ascot.Linint
