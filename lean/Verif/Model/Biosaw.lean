import Mathlib.Analysis.SpecialFunctions.Trigonometric.Basic
import Verif.Model.Vec3

/-!
# Field of a coil (`src/biosaw.c`)

`mu0` is `CONST_MU0`, and `CONST_PI` is taken to be pi.
-/
namespace Ascot.Biosaw

open Classical in
/-- Contribution of the segment from `p1` to `p2` at `x`, src/biosaw.c:50-81.  The outcome `none` is a division by zero, which gives
a NaN or an infinity. -/
noncomputable def segment (mu0 : ℝ) (p1 p2 x : V3 ℝ) : Option (V3 ℝ) :=
  let p1p2 := V3.sub p2 p1
  let p1x := V3.sub x p1
  let p2x := V3.sub x p2
  let d1 := V3.norm Real.sqrt p1x
  let d2 := V3.norm Real.sqrt p2x
  let l := V3.norm Real.sqrt p1p2
  let s := V3.dot p1p2 p1x / V3.dot p1p2 p1p2
  let h := s * l
  let xs : V3 ℝ := ⟨p1.x + s * p1p2.x - x.x, p1.y + s * p1p2.y - x.y, p1.z + s * p1p2.z - x.z⟩
  let d := V3.norm Real.sqrt xs
  let absB := mu0 / (4 * Real.pi) * ((l - h) / d2 + h / d1) / d
  let dirB := V3.cross p1x p2x
  let n := V3.norm Real.sqrt dirB
  if V3.dot p1p2 p1p2 = 0 ∨ d2 = 0 ∨ d1 = 0 ∨ d = 0 ∨ n = 0 then none
  else some ⟨absB * dirB.x / n, absB * dirB.y / n, absB * dirB.z / n⟩

/-- `+=` on the three components; a NaN stays one. -/
noncomputable def add (a b : Option (V3 ℝ)) : Option (V3 ℝ) := a.bind fun u => b.map fun v => ⟨u.x + v.x, u.y + v.y, u.z + v.z⟩

/-- The loop over coil points, src/biosaw.c:43-82: `p2` is the point before, `B` the field so far. -/
noncomputable def loop (mu0 : ℝ) (x : V3 ℝ) : V3 ℝ → List (V3 ℝ) → Option (V3 ℝ) → Option (V3 ℝ)
  | _, [], B => B
  | p1, p2 :: ps, B => loop mu0 x p2 ps (add B (segment mu0 p1 p2 x))

/-- `biosaw_calc_B` for one query point, src/biosaw.c:34-83.  The first coil point is read whatever their number: without points
this is undefined (outer `none`). -/
noncomputable def calcB (mu0 : ℝ) (coil : List (V3 ℝ)) (x : V3 ℝ) : Option (Option (V3 ℝ)) :=
  match coil with
  | [] => none
  | p :: ps => some (loop mu0 x p ps (some ⟨0, 0, 0⟩))

end Ascot.Biosaw
