import Mathlib.Analysis.SpecialFunctions.Log.Basic
import Mathlib.Analysis.SpecialFunctions.Pow.Real
import Verif.Model.Error

/-!
# Suzuki beam-stopping coefficients (`src/suzuki.c`)

`real` is ℝ.  An access outside a table or a local array is undefined behaviour and is the outcome `none`.
Inside a defined outcome the value `none` stands for a NaN or an infinity.
-/
namespace Ascot.Suzuki

/-- One background ion species: the entries of the arrays `ni`, `anum` and `znum`, src/suzuki.c:140-148. -/
structure Ion where
  dens : ℝ
  anum : ℤ
  znum : ℤ

/-- `MAX_SPECIES`, src/ascot5.h. -/
def maxSpecies : Nat := 16

/-- `A_highE`, src/suzuki.c:31-35. -/
noncomputable def aHigh : List (List ℝ) :=
  [[12.7, 1.25, 0.452, 0.0105, 0.547, -0.102, 0.360, -0.0298, -0.0959, 4.21e-3],
   [14.1, 1.11, 0.408, 0.0105, 0.547, -0.0403, 0.345, -0.0288, -0.0971, 4.74e-3],
   [12.7, 1.26, 0.449, 0.0105, 0.547, -0.00577, 0.336, -0.0282, -0.0974, 4.87e-3]]

/-- `A_lowE`, src/suzuki.c:46-50. -/
noncomputable def aLow : List (List ℝ) :=
  [[-52.9, -1.36, 0.0719, 0.0137, 0.454, 0.403, -0.220, 0.0666, -0.0677, -1.48e-3],
   [-67.9, -1.22, 0.0814, 0.0139, 0.454, 0.465, -0.273, 0.0751, -0.0630, -5.08e-4],
   [-74.2, -1.18, 0.0843, 0.0139, 0.453, 0.491, -0.294, 0.0788, -0.0612, -1.85e-4]]

/-- `Z_imp`, src/suzuki.c:55. -/
def zImp : List ℤ := [2, 6, 6, 4, 8, 7, 3, 5, 26]

/-- `Zeffmin_imp`, src/suzuki.c:60. -/
noncomputable def zeffMin : List ℝ := [1.0, 1.0, 5.0, 1.0, 1.0, 1.0, 1.0, 1.0, 1.0]

/-- `Zeffmax_imp`, src/suzuki.c:65. -/
noncomputable def zeffMax : List ℝ := [2.1, 5.0, 6.0, 4.0, 5.0, 5.0, 3.0, 5.0, 5.0]

/-- `B_highE`, src/suzuki.c:74-93. -/
noncomputable def bHigh : List (List ℝ) :=
  [[0.231, 0.343, -0.185, -0.162e-1, 0.105, -0.703e-1, 0.531e-1, 0.342e-2, -0.838e-2, 0.415e-2, -0.335e-2, -0.221e-3],
   [-0.101e1, -0.865e-2, -0.124, -0.145e-1, 0.391, 0.161e-1, 0.298e-1, 0.332e-2, -0.248e-1, -0.104e-2, -0.152e-2, -0.189e-3],
   [-0.100e1, -0.255e-1, -0.125, -0.142e-1, 0.388, 0.206e-1, 0.297e-1, 0.326e-2, -0.246e-1, -0.131e-2, -0.148e-2, -0.180e-3],
   [-0.613, 0.552e-1, -0.167, -0.159e-1, 0.304, 0.154e-2, 0.436e-1, 0.378e-2, -0.201e-1, -0.216e-3, -0.251e-2, -0.227e-3],
   [-0.102e1, -0.148e-1, -0.674e-1, -0.917e-2, 0.359, 0.143e-1, 0.139e-1, 0.184e-2, -0.209e-1, -0.732e-3, -0.502e-3, -0.949e-4],
   [-0.102e1, -0.139e-1, -0.979e-1, -0.117e-1, 0.375, 0.156e-1, 0.224e-1, 0.254e-2, -0.226e-1, -0.889e-3, -0.104e-2, -0.139e-3],
   [-0.441, 0.129, -0.170, -0.162e-1, 0.277, -0.156e-1, 0.466e-1, 0.379e-2, -0.193e-1, 0.753e-3, -0.286e-2, -0.239e-3],
   [-0.732, 0.183e-1, -0.155, -0.172e-1, 0.321, 0.946e-2, 0.397e-1, 0.420e-2, -0.204e-1, -0.619e-3, -0.224e-2, -0.254e-3],
   [-0.820, -0.636e-2, 0.542e-1, 0.395e-2, 0.202, 0.806e-3, -0.200e-2, -0.178e-2, -0.610e-2, 0.651e-3, 0.175e-2, 0.146e-3]]

/-- `B_lowE`, src/suzuki.c:102-121. -/
noncomputable def bLow : List (List ℝ) :=
  [[-0.792, 0.420e-1, 0.530e-1, -0.139e-1, 0.301, -0.264e-1, -0.299e-1, 0.607e-2, 0.272e-3, 0.611e-2, 0.347e-2, -0.919e-3],
   [0.161, 0.598e-1, -0.336e-2, -0.426e-2, -0.157, -0.396e-1, 0.460e-2, 0.219e-2, 0.391e-1, 0.711e-2, -0.144e-2, -0.385e-3],
   [0.158, 0.554e-1, -0.431e-2, -0.335e-2, -0.155, -0.374e-1, 0.537e-2, 0.174e-2, 0.388e-1, 0.683e-2, -0.160e-2, -0.322e-3],
   [0.112, 0.495e-1, 0.116e-1, -0.286e-2, -0.149, -0.331e-1, -0.426e-2, 0.980e-3, 0.447e-1, 0.652e-2, -0.356e-3, -0.203e-3],
   [0.111, 0.541e-1, -0.346e-3, -0.368e-2, -0.108, -0.347e-1, 0.193e-2, 0.181e-2, 0.280e-1, 0.604e-2, -0.841e-3, -0.317e-3],
   [0.139, 0.606e-1, -0.306e-2, -0.455e-2, -0.133, -0.394e-1, 0.399e-2, 0.236e-2, 0.335e-1, 0.690e-2, -0.124e-2, -0.405e-3],
   [0.112, 0.495e-1, 0.116e-1, -0.286e-2, -0.149, -0.331e-1, -0.426e-2, 0.980e-3, 0.447e-1, 0.652e-2, -0.356e-3, -0.203e-3],
   [0.122, 0.527e-1, -0.430e-3, -0.318e-2, -0.151, -0.364e-1, 0.343e-2, 0.151e-2, 0.420e-1, 0.692e-2, -0.141e-2, -0.290e-3],
   [-0.110e-1, 0.202e-1, 0.946e-3, -0.409e-2, -0.666e-2, -0.117e-1, -0.236e-3, 0.202e-2, 0.408e-2, 0.185e-2, -0.648e-4, -0.313e-3]]

/-- State of the loop that sorts the species, src/suzuki.c:147-168.  The index arrays `ind_H` and `ind_Z` are modelled by the
species they refer to. -/
structure Sorted where
  hyd : List Ion
  imp : List Ion
  densH : ℝ
  sum1 : ℝ
  sum2 : ℝ

/-- One pass of the loop, src/suzuki.c:156-168: storing past the end of `ind_H[3]` or `ind_Z[MAX_SPECIES]` is undefined. -/
noncomputable def sortStep (s : Sorted) (i : Ion) : Option Sorted :=
  let s1 := s.sum1 + i.dens * i.znum * i.znum
  let s2 := s.sum2 + i.dens * i.znum
  if i.znum = 1 then
    if s.hyd.length < 3 then
      some { s with hyd := s.hyd ++ [i], densH := s.densH + i.dens, sum1 := s1, sum2 := s2 }
    else none
  else
    if s.imp.length < maxSpecies then
      some { s with imp := s.imp ++ [i], sum1 := s1, sum2 := s2 }
    else none

/-- The sorting loop, src/suzuki.c:147-168. -/
noncomputable def sortIons : List Ion → Sorted → Option Sorted
  | [], s => some s
  | i :: is, s => (sortStep s i).bind (sortIons is)

/-- Row access `A[k]`, `B[k]` with a signed index; outside the table it is undefined. -/
def row (t : List (List ℝ)) (k : ℤ) : Option (List ℝ) := if 0 ≤ k then t[k.toNat]? else none

/-- The loop that looks for the impurity in the tables, src/suzuki.c:214-220: the last matching row, `-1` if none. -/
noncomputable def indB (zeff : ℝ) (z : ℤ) : ℤ :=
  (List.range 9).foldl (fun acc j =>
    if zImp.getD j 0 = z ∧ zeff > zeffMin.getD j 0 ∧ zeff < zeffMax.getD j 0 then (j : ℤ) else acc) (-1)

/-- One term of the hydrogen sum, src/suzuki.c:201-208. -/
noncomputable def hTerm (a : List ℝ) (ni e n logE u : ℝ) : ℝ :=
  ni * (a.getD 0 0 * 1e-16 / e)
    * (1 + a.getD 1 0 * logE + a.getD 2 0 * logE * logE)
    * (1 + (1 - Real.exp (-(a.getD 3 0) * n)) ^ (a.getD 4 0)
        * (a.getD 5 0 + a.getD 6 0 * logE + a.getD 7 0 * logE * logE))
    * (1 + a.getD 8 0 * u + a.getD 9 0 * u * u)

/-- One term of the impurity sum, src/suzuki.c:225-237. -/
noncomputable def zTerm (b : List ℝ) (ni ne z logE logN u : ℝ) : ℝ :=
  ni / ne * z * (b.getD 0 0 + b.getD 1 0 * u + b.getD 2 0 * logN + b.getD 3 0 * logN * u + b.getD 4 0 * logE
    + b.getD 5 0 * logE * u + b.getD 6 0 * logE * logN + b.getD 7 0 * logE * logN * u + b.getD 8 0 * logE * logE
    + b.getD 9 0 * logE * logE * u + b.getD 10 0 * logE * logE * logN + b.getD 11 0 * logE * logE * logN * u)

/-- The hydrogen loop, src/suzuki.c:199-209, reading row `anum - 1`. -/
noncomputable def sumH (t : List (List ℝ)) (e n logE u : ℝ) : List Ion → Option ℝ
  | [] => some 0
  | i :: is => (row t (i.anum - 1)).bind fun a => (sumH t e n logE u is).map fun s => hTerm a i.dens e n logE u + s

/-- The impurity loop, src/suzuki.c:213-238; returns the sum and whether a species was not tabulated.  The row `B[ind_B]` is read
also when `ind_B` is -1. -/
noncomputable def sumZ (t : List (List ℝ)) (zeff ne logE logN u : ℝ) : List Ion → Option (ℝ × Bool)
  | [] => some (0, false)
  | i :: is =>
    let k := indB zeff i.znum
    (row t k).bind fun b => (sumZ t zeff ne logE logN u is).map fun s =>
      (zTerm b i.dens ne i.znum logE logN u + s.1, decide (k < 0) || s.2)

/-- Selection of the tables, src/suzuki.c:179-190: tables A and B, and whether the energy is outside the range.  `e` in keV/amu. -/
noncomputable def tables (e : ℝ) : List (List ℝ) × List (List ℝ) × Bool :=
  if 9 ≤ e ∧ e < 100 then (aLow, bLow, false)
  else if e < 10000 then (aHigh, bHigh, false)
  else (aLow, bLow, true)

/-- Whether all the arithmetic stays finite: the arguments of `log` are positive and the divisors are not zero. -/
def Finite (e ne te densH sum2 : ℝ) : Prop := 0 < e ∧ 0 < ne ∧ 0 < te ∧ densH ≠ 0 ∧ sum2 ≠ 0

open Classical in
/-- `suzuki_sigmav`, src/suzuki.c:139-246; `cE` is `CONST_E`.  `none` is undefined behaviour; otherwise the error code and the value
stored in `*sigmav`, where the value `none` is a NaN or an infinity.  If `Zeff_sum2` is zero, `Zeff` is a NaN or an infinity and no
row of the impurity table matches; the model then takes `Zeff` to be zero, for which no row matches either. -/
noncomputable def sigmav (cE ePerAmu vnorm ne te : ℝ) (ions : List Ion) : Option (Nat × Option ℝ) :=
  let e := ePerAmu / (1e3 * cE)
  let te := te / cE
  (sortIons ions ⟨[], [], 0, 0, 0⟩).bind fun s =>
    let zeff := s.sum1 / s.sum2
    let err := if s.hyd.length = 0 then Error.raise 1 173 28 else 0
    let tb := tables e
    let err := if tb.2.2 then Error.raise 1 189 28 else err
    let logE := Real.log e
    let n := ne * 1.0e-19
    let logN := Real.log n
    let u := Real.log (te * 1.0e-3)
    (sumH tb.1 e n logE u s.hyd).bind fun sH =>
      (sumZ tb.2.1 zeff ne logE logN u s.imp).map fun sZ =>
        let sigmaH := sH / s.densH
        let err := if sZ.2 = true ∧ err = 0 then Error.raise 1 223 28 else err
        let v := sigmaH * (1 + (zeff - 1) * sZ.1) * 1e-4 * vnorm
        if err ≠ 0 then (err, some 0)
        else (0, if Finite e ne te s.densH s.sum2 then some v else none)

end Ascot.Suzuki
