import Verif.Model.Dist

/-!
# General histograms (`src/diag/hist.c`)

Lists of axes have the `HIST_ALLDIM` = 16 entries R, PHI, Z, RHO, THETA, PPAR, PPERP, PR,
PPHI, PZ, EKIN, XI, MU, PTOR, TIME, CHARGE (src/diag/hist.h:17-34); an unused axis has
`n = 0`, `min = 0`, `max = 1`.
-/
namespace Ascot.HistG
open Ascot.Dist

variable {K : Type} [Field K] [LinearOrder K] [FloorRing K]

/-- Axis `i` after the inner loop of `hist_init`, src/diag/hist.c:42-53; the requested axes are
given by coordinate, `binmin`, `binmax`, `nbin`. -/
def axisOf (req : List (Nat × K × K × Nat)) (i : Nat) : Axis K :=
  req.foldl (fun a q => if q.1 = i then ⟨q.2.2.2, q.2.1, q.2.2.1⟩ else a) ⟨0, 0, 1⟩

/-- All axes, src/diag/hist.c:42-53. -/
def axesOf (req : List (Nat × K × K × Nat)) : List (Axis K) := (List.range 16).map (axisOf req)

/-- `nbin`, src/diag/hist.c:41-52: multiplied for every requested axis that matches. -/
def nbin (req : List (Nat × K × K × Nat)) : Nat :=
  (List.range 16).foldr (fun i n =>
    req.foldl (fun n q => if q.1 = i then n * q.2.2.2 else n) n) 1

/-- `axes[i].n ? axes[i].n : 1`, src/diag/hist.c:55. -/
def eff (n : Nat) : Nat := if n ≠ 0 then n else 1

/-- `strides`, src/diag/hist.c:54-59, computed from the last axis on. -/
def strides : List Nat → List Nat
  | [] => []
  | [_] => []
  | [_, n] => [eff n]
  | _ :: n :: m :: rest =>
    let s := strides (n :: m :: rest)
    (eff n * s.headD 1) :: s

/-- `math_bin_index`, src/math.h:22. -/
def binIndex (a : Axis K) (x : K) : Int := ⌊a.n * (x - a.min) / (a.max - a.min)⌋

/-- Coordinates used by `hist_update_fo`, src/diag/hist.c:96-172; `none` where the code uses
bin 0. -/
def coordsFo (v : Env K) (p : Fo K) : List (Option K) :=
  [some p.r, some (wrap v.twoPi p.phi), some p.z, some p.rho, some (wrap v.twoPi p.theta),
   some (foPpara v p), some (foPperp v p), some p.p_r, some p.p_phi, some p.p_z,
   none, none, none, none, some p.time, none]

/-- Bin of one axis, src/diag/hist.c:114-172. -/
def binOpt (a : Axis K) : Option K → Int
  | some x => binIndex a x
  | none => 0

/-- Bins, src/diag/hist.c:114-172. -/
def binsOf (axes : List (Axis K)) (xs : List (Option K)) : List Int :=
  List.zipWith binOpt axes xs

/-- `index[i]`, src/diag/hist.c:184-188: `i0*n[0] + ... + i14*n[14] + i15` with `size_t` bins.
`none` if a bin is negative, since the conversion to `size_t` is then undefined. -/
def index (axes : List (Axis K)) (xs : List (Option K)) : Option Nat :=
  let b := binsOf axes xs
  if b.any (· < 0) then none
  else some ((List.zipWith (· * ·) (b.map Int.toNat) (strides (axes.map Axis.n) ++ [1])).sum)

/-- A marker: whether it runs, coordinates, weight. -/
structure Marker (K : Type) where
  running : Bool
  coords : List (Option K)
  weight : K

/-- `hist_update_fo` (CPU build), src/diag/hist.c:83-196.  `none` is undefined behaviour. -/
def updateFo (axes : List (Axis K)) (nbin : Nat) (ms : List (Marker K)) (h : Nat → K) :
    Option (Nat → K) :=
  ms.foldl (fun h m => do
    let h ← h
    let i ← index axes m.coords
    return if m.running ∧ i < nbin then addAt h i m.weight else h) (some h)

end Ascot.HistG
