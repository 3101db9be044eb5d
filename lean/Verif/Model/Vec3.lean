import Mathlib.Algebra.Order.Field.Basic

/-!
# Three-component vectors (macros of `src/math.h`)

`K` stands for `real`.
-/
namespace Ascot

/-- `real v[3]`. -/
@[ext] structure V3 (K : Type) where
  x : K
  y : K
  z : K

namespace V3
variable {K : Type} [Field K]

/-- Componentwise difference, as written out in `wall_3d_tri_collision`. -/
def sub (a b : V3 K) : V3 K := ⟨a.x - b.x, a.y - b.y, a.z - b.z⟩

/-- `math_dot`, src/math.h:32. -/
def dot (a b : V3 K) : K := a.x * b.x + a.y * b.y + a.z * b.z

/-- `math_cross`, src/math.h:35-37. -/
def cross (a b : V3 K) : V3 K := ⟨a.y * b.z - a.z * b.y, a.z * b.x - a.x * b.z, a.x * b.y - a.y * b.x⟩

/-- `math_norm`, src/math.h:68; `sqrt` is a parameter. -/
def norm (sqrt : K → K) (a : V3 K) : K := sqrt (a.x * a.x + a.y * a.y + a.z * a.z)

/-- `math_unit`, src/math.h:74-75. -/
def unit (sqrt : K → K) (a : V3 K) : V3 K := ⟨a.x / norm sqrt a, a.y / norm sqrt a, a.z / norm sqrt a⟩

end V3
end Ascot
