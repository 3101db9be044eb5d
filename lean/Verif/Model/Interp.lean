import Verif.Model.Spline
import Verif.Model.InterpForm

/-!
# Cubic spline interpolation in one, two and three dimensions

`src/spline/interp1Dcomp.c`, `interp2Dcomp.c`, `interp3Dcomp.c`, `interp1Dexpl.c`, `interp2Dexpl.c`.
Conventions as in `Verif.Model.Linint`: `none` means that an element outside of the coefficient table or
one that has not been written was read, `some none` is the error return.
-/
namespace Ascot.Interp
open Ascot.Linint Ascot.Spline

variable {K : Type} [Field K] [LinearOrder K] [FloorRing K]

/-- Cell, position in it, steps to the next point and error for one axis,
src/spline/interp1Dcomp.c:126-151.  The code is repeated for each axis in two and three dimensions. -/
def locate (a : Axis K) (x0 : K) : Loc K :=
  let x := wrap a x0
  let i := toInt ((x - a.min) / a.grid - 1 * (if x = a.max then 1 else 0))
  let d := (x - (a.min + i * a.grid)) / a.grid
  if a.bc = .periodic ∧ i = (a.n : Int) - 1 then ⟨i, d, -((a.n : Int) - 1), false⟩
  else if a.bc = .natural ∧ ¬ (x ≥ a.min ∧ x ≤ a.max) then ⟨i, d, 1, true⟩
  else ⟨i, d, 1, false⟩

/-- All the indices are inside the table. -/
def inside (len : Nat) (l : List Int) : Bool := l.all fun i => decide (0 ≤ i ∧ i < len)

/-- The element of the table, for indices that are inside. -/
def elem (c : List K) (i : Int) : K := c.getD i.toNat 0

/-! ### One dimension -/

/-- `interp1Dcomp_init_coeff`, src/spline/interp1Dcomp.c:25-56, for the two valid boundary conditions. -/
def coeff1 (f : Nat → K) (n : Nat) (bc : BC) (min max : K) : Option (List K) :=
  let g := gridOf n bc min max
  (splinecomp f n bc).map fun c => c.mapIdx fun k v => if k % 2 = 1 then v / (g * g) else v

/-- Elements read, src/spline/interp1Dcomp.c:155-157. -/
def reads1 (n x1 : Int) : List Int := [n, n + 1, n + x1, n + x1 + 1]

/-- `interp1Dcomp_eval_f`, src/spline/interp1Dcomp.c:123-161. -/
def eval1f (a : Axis K) (c : List K) (x : K) : Option (Option K) :=
  let l := locate a x
  let n := l.i * 2
  let x1 := l.next * 2
  if l.err then some none
  else if inside c.length (reads1 n x1) then some (some (form1f (elem c) n x1 l.d a.grid))
  else none

/-- `interp1Dcomp_eval_df`, src/spline/interp1Dcomp.c:181-232: value, first and second derivative. -/
def eval1df (a : Axis K) (c : List K) (x : K) : Option (Option (K × K × K)) :=
  let l := locate a x
  let n := l.i * 2
  let x1 := l.next * 2
  if l.err then some none
  else if inside c.length (reads1 n x1) then
    some (some (form1df0 (elem c) n x1 l.d a.grid, form1df1 (elem c) n x1 l.d a.grid, form1df2 (elem c) n x1 l.d a.grid))
  else none

/-! ### Two dimensions -/

/-- `interp2Dcomp_init_coeff`, src/spline/interp2Dcomp.c:33-114: the contents of the table `c` at the end.
`f i j` is `f[j*n_x+i]`. -/
def coeff2 (f : Nat → Nat → K) (nx ny : Nat) (bx by_ : BC) (xg yg : K) : Option (List K) :=
  if sizeOk nx bx && sizeOk ny by_ then
    let fxx := fun i j => second (fun i => f i j) nx bx i / (xg * xg)
    let fyy := fun i j => second (fun j => f i j) ny by_ j / (yg * yg)
    let fxxyy := fun i j => second (fun j => fxx i j) ny by_ j / (yg * yg)
    some ((List.range ny).flatMap fun j => (List.range nx).flatMap fun i => [f i j, fxx i j, fyy i j, fxxyy i j])
  else none

/-- Elements read, src/spline/interp2Dcomp.c:254-265. -/
def reads2 (n x1 y1 : Int) : List Int :=
  [n, n + x1, n + y1, n + y1 + x1].flatMap fun m => [m, m + 1, m + 2, m + 3]

/-- `interp2Dcomp_eval_f`, src/spline/interp2Dcomp.c:201-269. -/
def eval2f (ax ay : Axis K) (c : List K) (x y : K) : Option (Option K) :=
  let lx := locate ax x
  let ly := locate ay y
  let n := ly.i * ax.n * 4 + lx.i * 4
  let x1 := lx.next * 4
  let y1 := ly.next * (ax.n * 4)
  if lx.err || ly.err then some none
  else if inside c.length (reads2 n x1 y1) then some (some (form2f (elem c) n x1 y1 lx.d ly.d ax.grid ay.grid))
  else none

/-- `interp2Dcomp_eval_df`, src/spline/interp2Dcomp.c:293-428: `f`, `f_x`, `f_y`, `f_xx`, `f_yy`, `f_xy`. -/
def eval2df (ax ay : Axis K) (c : List K) (x y : K) : Option (Option (List K)) :=
  let lx := locate ax x
  let ly := locate ay y
  let n := ly.i * ax.n * 4 + lx.i * 4
  let x1 := lx.next * 4
  let y1 := ly.next * (ax.n * 4)
  if lx.err || ly.err then some none
  else if inside c.length (reads2 n x1 y1) then
    let ev := fun (e : (Int → K) → Int → Int → Int → K → K → K → K → K) => e (elem c) n x1 y1 lx.d ly.d ax.grid ay.grid
    some (some [ev form2df0, ev form2df1, ev form2df2, ev form2df3, ev form2df4, ev form2df5])
  else none

/-! ### Three dimensions -/

/-- `interp3Dcomp_init_coeff`, src/spline/interp3Dcomp.c:37-183: the contents of the table `c` at the end.
`f i j k` is `f[k*n_y*n_x+j*n_x+i]`. -/
def coeff3 (f : Nat → Nat → Nat → K) (nx ny nz : Nat) (bx by_ bz : BC) (xg yg zg : K) : Option (List K) :=
  if sizeOk nx bx && sizeOk ny by_ && sizeOk nz bz then
    let fxx := fun i j k => second (fun i => f i j k) nx bx i / (xg * xg)
    let fyy := fun i j k => second (fun j => f i j k) ny by_ j / (yg * yg)
    let fxxyy := fun i j k => second (fun j => fxx i j k) ny by_ j / (yg * yg)
    let fzz := fun i j k => second (fun k => f i j k) nz bz k / (zg * zg)
    let fxxzz := fun i j k => second (fun k => fxx i j k) nz bz k / (zg * zg)
    let fyyzz := fun i j k => second (fun k => fyy i j k) nz bz k / (zg * zg)
    let fxxyyzz := fun i j k => second (fun k => fxxyy i j k) nz bz k / (zg * zg)
    some ((List.range nz).flatMap fun k => (List.range ny).flatMap fun j => (List.range nx).flatMap fun i =>
      [f i j k, fxx i j k, fyy i j k, fzz i j k, fxxyy i j k, fxxzz i j k, fyyzz i j k, fxxyyzz i j k])
  else none

/-- Elements read, src/spline/interp3Dcomp.c:548-618. -/
def reads3 (n x1 y1 z1 : Int) : List Int :=
  [n, n + x1, n + y1, n + z1, n + y1 + x1, n + z1 + x1, n + z1 + y1, n + z1 + y1 + x1].flatMap fun m =>
    [m, m + 1, m + 2, m + 3, m + 4, m + 5, m + 6, m + 7]

/-- `interp3Dcomp_eval_f`, src/spline/interp3Dcomp.c:288-425. -/
def eval3f (ax ay az : Axis K) (c : List K) (x y z : K) : Option (Option K) :=
  let lx := locate ax x
  let ly := locate ay y
  let lz := locate az z
  let n := lz.i * ay.n * ax.n * 8 + ly.i * ax.n * 8 + lx.i * 8
  let x1 := lx.next * 8
  let y1 := ly.next * (ax.n * 8)
  let z1 := lz.next * (ay.n * ax.n * 8)
  if lx.err || ly.err || lz.err then some none
  else if inside c.length (reads3 n x1 y1 z1) then
    some (some (form3f (elem c) n x1 y1 z1 lx.d ly.d lz.d ax.grid ay.grid az.grid))
  else none

/-- `interp3Dcomp_eval_df`, src/spline/interp3Dcomp.c:454-1120: `f`, the three first derivatives, the three
second derivatives, and `f_xy`, `f_xz`, `f_yz`. -/
def eval3df (ax ay az : Axis K) (c : List K) (x y z : K) : Option (Option (List K)) :=
  let lx := locate ax x
  let ly := locate ay y
  let lz := locate az z
  let n := lz.i * ay.n * ax.n * 8 + ly.i * ax.n * 8 + lx.i * 8
  let x1 := lx.next * 8
  let y1 := ly.next * (ax.n * 8)
  let z1 := lz.next * (ay.n * ax.n * 8)
  if lx.err || ly.err || lz.err then some none
  else if inside c.length (reads3 n x1 y1 z1) then
    let ev := fun (e : (Int → K) → Int → Int → Int → Int → K → K → K → K → K → K → K) =>
      e (elem c) n x1 y1 z1 lx.d ly.d lz.d ax.grid ay.grid az.grid
    some (some [ev form3df0, ev form3df1, ev form3df2, ev form3df3, ev form3df4, ev form3df5, ev form3df6, ev form3df7, ev form3df8, ev form3df9])
  else none

/-! ### Explicit form -/

/-- `interp1Dexpl_eval_f`, src/spline/interp1Dexpl.c:81-111; `c` holds the elements that have been written. -/
def expl1f (a : Axis K) (c : List K) (x : K) : Option (Option K) :=
  let l := locate a x
  let n := l.i * 4
  if l.err then some none
  else if inside c.length [n, n + 1, n + 2, n + 3] then
    let dx := l.d
    let dx2 := dx * dx
    let dx3 := dx2 * dx
    let C := elem c
    some (some (C (n + 0) + dx * C (n + 1) + dx2 * C (n + 2) + dx3 * C (n + 3)))
  else none

/-- `interp1Dexpl_eval_df`, src/spline/interp1Dexpl.c:131-169. -/
def expl1df (a : Axis K) (c : List K) (x : K) : Option (Option (K × K × K)) :=
  let l := locate a x
  let n := l.i * 4
  if l.err then some none
  else if inside c.length [n, n + 1, n + 2, n + 3] then
    let dx := l.d
    let dx2 := dx * dx
    let dx3 := dx2 * dx
    let xgi := 1 / a.grid
    let C := elem c
    some (some (C (n + 0) + dx * C (n + 1) + dx2 * C (n + 2) + dx3 * C (n + 3),
      xgi * (C (n + 1) + 2 * dx * C (n + 2) + 3 * dx2 * C (n + 3)),
      xgi * xgi * (2 * C (n + 2) + 6 * dx * C (n + 3))))
  else none

/-- `c[n+0]+dx*c[n+1]+dx2*c[n+2]+dx3*c[n+3]`, src/spline/interp2Dexpl.c:188. -/
def poly (d : K) (c : Nat → K) : K := c 0 + d * c 1 + d * d * c 2 + d * d * d * c 3

/-- Coefficient `p` of the explicit spline of the data on cell `i`. -/
def coefExpl (f : Nat → K) (n : Nat) (bc : BC) (i p : Nat) : K := (cellExpl f n bc i).getD p 0

/-- `interp2Dexpl_init_coeff`, src/spline/interp2Dexpl.c:33-92: the element `4 py + px` of cell `(i, j)`,
for cells whose elements are all written.  The table is written as a function of the cell. -/
def coefExpl2 (f : Nat → Nat → K) (nx ny : Nat) (bx by_ : BC) (i j px py : Nat) : K :=
  coefExpl (fun j => coefExpl (fun i => f i j) nx bx i px) ny by_ j py

/-- The cells of which all elements are written: the loops end at `n_x-1` and `n_y-1` for every boundary
condition, src/spline/interp2Dexpl.c:60, 69, 75. -/
def written2 (nx ny : Nat) (i j : Int) : Bool := decide (0 ≤ i ∧ i < (nx : Int) - 1 ∧ 0 ≤ j ∧ j < (ny : Int) - 1)

/-- `interp2Dexpl_eval_f`, src/spline/interp2Dexpl.c:146-198, on the table that is initialised from `f`. -/
def expl2f (ax ay : Axis K) (f : Nat → Nat → K) (x y : K) : Option (Option K) :=
  let lx := locate ax x
  let ly := locate ay y
  if lx.err || ly.err then some none
  else if sizeOk ax.n ax.bc && sizeOk ay.n ay.bc && written2 ax.n ay.n lx.i ly.i then
    some (some (poly ly.d fun py => poly lx.d fun px => coefExpl2 f ax.n ay.n ax.bc ay.bc lx.i.toNat ly.i.toNat px py))
  else none

/-- `interp3Dexpl_init_coeff`, src/spline/interp3Dexpl.c:37-133: the element `16 pz + 4 py + px` of cell `(i, j, k)`. -/
def coefExpl3 (f : Nat → Nat → Nat → K) (nx ny nz : Nat) (bx by_ bz : BC) (i j k px py pz : Nat) : K :=
  coefExpl (fun k => coefExpl (fun j => coefExpl (fun i => f i j k) nx bx i px) ny by_ j py) nz bz k pz

/-- The cells of which all elements are written, src/spline/interp3Dexpl.c:73, 82, 88, 102, 103, 111. -/
def written3 (nx ny nz : Nat) (bx by_ bz : BC) (i j k : Int) : Bool :=
  decide (0 ≤ i ∧ i < cells nx bx ∧ 0 ≤ j ∧ j < cells ny by_ ∧ 0 ≤ k ∧ k < cells nz bz)

/-- `interp3Dexpl_eval_f`, src/spline/interp3Dexpl.c:200-311, on the table that is initialised from `f`. -/
def expl3f (ax ay az : Axis K) (f : Nat → Nat → Nat → K) (x y z : K) : Option (Option K) :=
  let lx := locate ax x
  let ly := locate ay y
  let lz := locate az z
  if lx.err || ly.err || lz.err then some none
  else if sizeOk ax.n ax.bc && sizeOk ay.n ay.bc && sizeOk az.n az.bc && written3 ax.n ay.n az.n ax.bc ay.bc az.bc lx.i ly.i lz.i then
    some (some (poly lz.d fun pz => poly ly.d fun py => poly lx.d fun px =>
      coefExpl3 f ax.n ay.n az.n ax.bc ay.bc az.bc lx.i.toNat ly.i.toNat lz.i.toNat px py pz))
  else none

end Ascot.Interp
