import Mathlib.Algebra.Order.Field.Basic
import Verif.Model.Vec3
import Verif.Model.EndCond
import Verif.Model.Error

/-!
# Utility functions of `src/math.c` and the run summary of `src/ascot5_main.c`

`K` stands for `real`.  Output arrays are functions of the index; `write` is an assignment to one element.
-/
namespace Ascot.MathC

/-- An array after `r[i] = v`. -/
def write {V : Type} (r : Nat → V) (i : Nat) (v : V) : Nat → V := fun j => if j = i then v else r j

section field
variable {K : Type} [Field K]

/-- The inner loop of `math_matmul`, src/math.c:163-166. -/
def matSum (a b : Nat → K) (d1 d2 i j : Nat) : K :=
  (List.range d2).foldl (fun sum k => sum + a (k * d1 + i) * b (j * d2 + k)) 0

/-- `math_matmul`, src/math.c:159-170.  `c` is the previous content of the output array. -/
def matmul (a b : Nat → K) (d1 d2 d3 : Nat) (c : Nat → K) : Nat → K :=
  (List.range d1).foldl (fun c i => (List.range d3).foldl (fun c j => write c (i * d3 + j) (matSum a b d1 d2 i j)) c) c

/-- `math_linspace`, src/math.c:251-261.  `v` is the previous content. -/
def linspace (v : Nat → K) (a b : K) (n : Nat) : Nat → K :=
  if n = 1 then write v 0 b
  else
    let d := (b - a) / ((n : K) - 1)
    (List.range n).foldl (fun v i => write v i (a + i * d)) v

/-- The macro `math_determinant3x3`, src/math.h:101-108. -/
def det3 (x1 x2 x3 y1 y2 y3 z1 z2 z3 : K) : K :=
  x1 * (y2 * z3 - y3 * z2) + x2 * (y3 * z1 - y1 * z3) + x3 * (y1 * z2 - y2 * z1)

/-- `math_point_on_plane`, src/math.c:324-344. -/
def pointOnPlane [DecidableEq K] (q t1 t2 t3 : V3 K) : Int :=
  let val := 0
  if det3 (q.x - t1.x) (q.y - t1.y) (q.z - t1.z) (t2.x - t1.x) (t2.y - t1.y) (t2.z - t1.z)
      (t3.x - t1.x) (t3.y - t1.y) (t3.z - t1.z) ≠ 0 then val
  else if det3 (q.x - t1.x) (q.y - t1.y) (q.z - t1.z) (q.x - t2.x) (q.y - t2.y) (q.z - t2.z)
      (q.x - t3.x) (q.y - t3.y) (q.z - t3.z) ≠ 0 then val
  else val

/-- The macro `math_scalar_triple_product`, src/math.h:43-49. -/
def triple (a b c : V3 K) : K :=
  -(a.z * b.y * c.x) + a.y * b.z * c.x + a.z * b.x * c.y - a.x * b.z * c.y - a.y * b.x * c.z + a.x * b.y * c.z

/-- `math_barycentric_coords_triangle`, src/math.c:360-367: `(s, t)`. -/
def barycentric (sqrt : K → K) (ap ab ac n : V3 K) : K × K :=
  let n0 := V3.unit sqrt n
  let area := triple ab ac n0
  (triple ap ac n0 / area, triple ab ap n0 / area)

variable [LinearOrder K]

/-- `math_simpson_helper`, src/math.c:449-463.  `bottom` starts at 20 and a call with `bottom <= 0` does not recurse. -/
def simpsonHelper (f : K → K) (eps : K) : (bottom : Nat) → (a b s fa fb fc : K) → K
  | bottom, a, b, s, fa, fb, fc =>
    let c := (a + b) / 2
    let h := b - a
    let d := (a + c) / 2
    let e := (c + b) / 2
    let fd := f d
    let fe := f e
    let sleft := h / 12 * (fa + 4 * fd + fc)
    let sright := h / 12 * (fc + 4 * fe + fb)
    let s2 := sleft + sright
    match bottom with
    | 0 => s2 + (s2 - s) / 15
    | k + 1 =>
      if |s2 - s| ≤ eps * |s| then s2 + (s2 - s) / 15
      else simpsonHelper f eps k a c sleft fa fc fd + simpsonHelper f eps k c b sright fc fb fe

/-- `math_maxSimpsonDepth`, src/math.h:19. -/
def maxSimpsonDepth : Nat := 20

/-- `math_simpson`, src/math.c:232-239. -/
def simpson (f : K → K) (a b eps : K) : K :=
  let c := (a + b) / 2
  let h := b - a
  let fa := f a
  let fb := f b
  let fc := f c
  let s := h / 6 * (fa + 4 * fc + fb)
  simpsonHelper f eps maxSimpsonDepth a b s fa fb fc

end field

/-- Values of the C type `int`. -/
def IsInt (v : Int) : Prop := -2147483648 ≤ v ∧ v ≤ 2147483647

instance (v : Int) : Decidable (IsInt v) := by unfold IsInt; infer_instance

/-- `math_ipow`, src/math.c:210-216.  `none` is signed overflow. -/
def ipow (a : Int) (p : Int) : Option Int :=
  (List.range p.toNat).foldl (fun pow _ => pow.bind fun v => if IsInt (v * a) then some (v * a) else none) (some 1)

section search
variable {K : Type} [LinearOrder K]

/-- `rcomp`, src/math.c:381-390: the key against the elements `i` and `i + 1` of the table. -/
def rcomp (key : K) (base : Nat → K) (i : Nat) : Int :=
  if key ≥ base i ∧ key < base (i + 1) then 0 else if key > base i then 1 else -1

/-- `bsearch` of the C library (the algorithm of glibc): elements `l` to `u - 1` are left. -/
def bsearchLoop (cmp : Nat → Int) : (fuel l u : Nat) → Option Nat
  | 0, _, _ => none
  | fuel + 1, l, u =>
    if l < u then
      let idx := (l + u) / 2
      if cmp idx < 0 then bsearchLoop cmp fuel l idx
      else if cmp idx > 0 then bsearchLoop cmp fuel (idx + 1) u
      else some idx
    else none

/-- `bsearch` over `num` elements. -/
def bsearch (cmp : Nat → Int) (num : Nat) : Option Nat := bsearchLoop cmp (num + 1) 0 num

/-- `math_rsearch`, src/math.c:405-407: the index of the element found.  `bs` is the `bsearch` of the C library; `num ≥ 1`. -/
def rsearch (bs : (Nat → Int) → Nat → Option Nat) (key : K) (base : Nat → K) (num : Nat) : Option Nat :=
  bs (rcomp key base) (num - 1)

end search

/-- The arrays of `math_uniquecount`. -/
structure Unique where
  unique : Nat → Int
  count : Nat → Int
  n : Nat

/-- One round of the loop of `math_uniquecount`, src/math.c:284-300. -/
def uniqueStep (s : Unique) (test : Int) : Unique :=
  let o := (List.range s.n).foldl (fun (o : Bool × (Nat → Int)) j =>
    if test = s.unique j then (false, write o.2 j (o.2 j + 1)) else o) (true, s.count)
  if o.1 then ⟨write s.unique s.n test, write o.2 s.n 1, s.n + 1⟩ else ⟨s.unique, o.2, s.n⟩

/-- `math_uniquecount`, src/math.c:276-301; `u`, `c` are the previous contents of the arrays. -/
def uniquecount (inp : List Int) (u c : Nat → Int) : Unique :=
  let n := inp.length
  let z := fun (a : Nat → Int) => (List.range n).foldl (fun a i => write a i 0) a
  inp.foldl uniqueStep ⟨z u, z c, 0⟩

/-! ### The summary printed at the end of a run -/

/-- The text built from the end condition codes, src/ascot5_main.c:643-660; `none` if `endcond_parse2str` does not
write its buffer. -/
def endcondText : (first : Bool) → String → List Nat → Option String
  | _, s, [] => some s
  | first, s, c :: l =>
    match EndCond.parse2str c with
    | none => none
    | some t => endcondText false ((if first then s else s ++ " and ") ++ t) l

/-- The text of one end condition value, src/ascot5_main.c:635-660. -/
def endcondLine (ec : Nat) : Option String :=
  if EndCond.parse ec = [] then some "Aborted" else endcondText true "" (EndCond.parse ec)

/-- The loop `while(count[i] > 0)`, src/ascot5_main.c:634-664, 676-693: the pairs of value and count that are visited;
`none` if it leaves the array of `n + 1` elements. -/
def visited (s : Unique) (n : Nat) : (fuel i : Nat) → Option (List (Int × Int))
  | 0, _ => none
  | fuel + 1, i =>
    if i > n then none
    else if s.count i > 0 then (visited s n fuel (i + 1)).map ((s.unique i, s.count i) :: ·)
    else some []

/-- What `print_marker_summary` prints, src/ascot5_main.c:615-701. -/
structure Summary where
  endconds : List (Int × Int)
  errors : List (Int × Int)
  noneAborted : Bool

/-- `print_marker_summary`, src/ascot5_main.c:615-701, for the end conditions and errors of the markers.  `u`, `c` are
the contents of fresh memory. -/
def summary (endconds errs : List Int) (u c : Nat → Int) : Option Summary :=
  let n := endconds.length
  let s := uniquecount endconds u c
  let c' := write s.count n 0
  let s1 : Unique := ⟨s.unique, c', s.n⟩
  match visited s1 n (n + 2) 0 with
  | none => none
  | some l1 =>
    let s2 := uniquecount errs s1.unique s1.count
    match visited s2 n (n + 2) 0 with
    | none => none
    | some l2 => some ⟨l1, l2.filter (fun x => x.1 ≠ 0), decide (s2.count 0 = n ∧ s2.unique 0 = 0)⟩

end Ascot.MathC
