import Mathlib.Analysis.SpecialFunctions.Complex.Arg
import Verif.Model.Vec3

/-!
# Coordinate conversions (macros of `src/math.h`, functions of `src/math.c`)

The C type `real` is modelled by the real numbers; `sin`, `cos` and `sqrt` are the real functions and
`atan2(y, x)` is the argument of `x + iy`, in `(-π, π]`.
-/
namespace Ascot.Coord

/-- `atan2` of the C library. -/
noncomputable def atan2 (y x : ℝ) : ℝ := Complex.arg ⟨x, y⟩

/-- `math_xyz2rpz`, src/math.h:78-79.  The components of the result are R, phi, z. -/
noncomputable def xyz2rpz (p : V3 ℝ) : V3 ℝ := ⟨Real.sqrt (p.x * p.x + p.y * p.y), atan2 p.y p.x, p.z⟩

/-- `math_rpz2xyz`, src/math.h:82-83. -/
noncomputable def rpz2xyz (p : V3 ℝ) : V3 ℝ := ⟨p.x * Real.cos p.y, p.x * Real.sin p.y, p.z⟩

/-- `math_vec_rpz2xyz`, src/math.h:87-90. -/
noncomputable def vecRpz2xyz (v : V3 ℝ) (phi : ℝ) : V3 ℝ :=
  ⟨v.x * Real.cos phi - v.y * Real.sin phi, v.x * Real.sin phi + v.y * Real.cos phi, v.z⟩

/-- `math_vec_xyz2rpz`, src/math.h:94-97. -/
noncomputable def vecXyz2rpz (v : V3 ℝ) (phi : ℝ) : V3 ℝ :=
  ⟨v.x * Real.cos phi + v.y * Real.sin phi, -v.x * Real.sin phi + v.y * Real.cos phi, v.z⟩

/-- One component of a field with its derivatives along the three coordinates. -/
@[ext] structure Grad where
  v : ℝ
  d1 : ℝ
  d2 : ℝ
  d3 : ℝ

/-- The array of twelve numbers used for a field and its gradient. -/
@[ext] structure Jac where
  a : Grad
  b : Grad
  c : Grad

/-- `math_jac_rpz2xyz`, src/math.c:44-83. -/
noncomputable def jacRpz2xyz (j : Jac) (r phi : ℝ) : Jac :=
  let c := Real.cos phi
  let s := Real.sin phi
  let t0 := j.a.d1 * c - j.b.d1 * s
  let t1 := j.a.d2 * c - j.b.d2 * s
  let t2 := j.a.d3 * c - j.b.d3 * s
  let u0 := j.a.d1 * s + j.b.d1 * c
  let u1 := j.a.d2 * s + j.b.d2 * c
  let u2 := j.a.d3 * s + j.b.d3 * c
  let w0 := j.c.d1
  let w1 := j.c.d2
  let w2 := j.c.d3
  ⟨⟨j.a.v * c - j.b.v * s,
    t0 * c - t1 * s / r + (j.a.v * s + j.b.v * c) * s / r,
    t0 * s + t1 * c / r - (j.a.v * s + j.b.v * c) * c / r,
    t2⟩,
   ⟨j.a.v * s + j.b.v * c,
    u0 * c - u1 * s / r + (j.a.v * c - j.b.v * s) * s / r,
    u0 * s + u1 * c / r - (j.a.v * c - j.b.v * s) * c / r,
    u2⟩,
   ⟨j.c.v, w0 * c - w1 * s / r, w0 * s + w1 * c / r, w2⟩⟩

/-- `math_jac_xyz2rpz`, src/math.c:103-144. -/
noncomputable def jacXyz2rpz (j : Jac) (r phi : ℝ) : Jac :=
  let c := Real.cos phi
  let s := Real.sin phi
  let t0 := j.a.d1 * c + j.b.d1 * s
  let t1 := j.a.d2 * c + j.b.d2 * s
  let t2 := j.a.d3 * c + j.b.d3 * s
  let u0 := -j.a.d1 * s + j.b.d1 * c
  let u1 := -j.a.d2 * s + j.b.d2 * c
  let u2 := -j.a.d3 * s + j.b.d3 * c
  let w0 := j.c.d1
  let w1 := j.c.d2
  let w2 := j.c.d3
  ⟨⟨j.a.v * c + j.b.v * s,
    t0 * c + t1 * s,
    -t0 * s * r + t1 * c * r - j.a.v * s + j.b.v * c,
    t2⟩,
   ⟨-j.a.v * s + j.b.v * c,
    u0 * c + u1 * s,
    -u0 * s * r + u1 * c * r - j.a.v * c - j.b.v * s,
    u2⟩,
   ⟨j.c.v, w0 * c + w1 * s, -w0 * s * r + w1 * c * r, w2⟩⟩

end Ascot.Coord
