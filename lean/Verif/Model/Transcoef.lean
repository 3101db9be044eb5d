import Verif.Model.Dist

/-!
# Transport coefficients (`src/diag/diag_transcoef.c`)

`K` stands for `real`.  The chain of links of a marker is a list that begins with the latest
link (`prevlink` leads to the rest).
-/
namespace Ascot.Transcoef
open Ascot.Dist (fmod)

variable {K : Type} [Field K] [LinearOrder K] [FloorRing K]

/-- `diag_transcoef_link` without `prevlink`, src/diag/diag_transcoef.h:15-22. -/
structure Link (K : Type) where
  rho : K
  time : K
  sign : K

/-- `diag_transcoef_check_omp_crossing`, src/diag/diag_transcoef.c:342-361. -/
def ompCrossing (pi fang iang : K) : K :=
  if ⌊fang / (2 * pi)⌋ ≠ ⌊iang / (2 * pi)⌋ then
    let a := fmod iang (2 * pi)
    let a := if a < 0 then 2 * pi + a else a
    let a := |a|
    let a := if a > pi then 2 * pi - a else a
    |a / (fang - iang)|
  else 0

/-- What an update passes to `diag_transcoef_record`; `sign` is `1 - 2*(... < 0)`,
src/diag/diag_transcoef.c:66-73, 99-103, 131-135. -/
structure Step (K : Type) where
  id : Nat
  rho : K
  r : K
  sign : K
  tF : K
  tI : K
  thetaF : K
  thetaI : K

/-- `diag_transcoef_record` for the chain of one marker, src/diag/diag_transcoef.c:166-212. -/
def record (pi interval : K) (recordrho : Bool) (s : Step K) (chain : List (Link K)) : List (Link K) :=
  if s.id > 0 then
    let rec' : K :=
      if s.tF > s.tI then
        match chain with
        | [] => ompCrossing pi s.thetaF s.thetaI
        | l :: _ => if s.tF - l.time > interval then ompCrossing pi s.thetaF s.thetaI else 0
      else 0
    if rec' > 0 then ⟨if recordrho then s.rho else s.r, s.tF, s.sign⟩ :: chain else chain
  else chain

/-- Counting loop, src/diag/diag_transcoef.c:229-239: positive and negative crossings. -/
def count (chain : List (Link K)) : Nat × Nat :=
  chain.foldl (fun c l => if l.sign < 0 then (c.1, c.2 + 1) else (c.1 + 1, c.2)) (0, 0)

/-- Following `prevlink` to the next link with the right sign,
src/diag/diag_transcoef.c:261-263, 273-275, 288-290.  `none` is a null pointer access. -/
def next (sign : K) : List (Link K) → Option (Link K × List (Link K))
  | [] => none
  | p :: l => if p.sign * sign < 0 then next sign l else some (p, l)

/-- Sums over the next `k` links, src/diag/diag_transcoef.c:264-280, 283-296. -/
def sumN (sign : K) : Nat → K × K → List (Link K) → Option ((K × K) × List (Link K))
  | 0, acc, l => some (acc, l)
  | k + 1, acc, l => do
    let (p, l) ← next sign l
    sumN sign k (acc.1 + p.rho, acc.2 + p.time) l

/-- The full averages, src/diag/diag_transcoef.c:283-296, for `j = n-1` down to 0. -/
def chunks (sign : K) (navg : Nat) : Nat → List (Link K) → Option (List (K × K))
  | 0, _ => some []
  | j + 1, l => do
    let (s, l) ← sumN sign navg (0, 0) l
    let rest ← chunks sign navg j l
    return (s.1 / navg, s.2 / navg) :: rest

/-- `rho` and `time` after averaging, src/diag/diag_transcoef.c:254-296, in the order of the
index.  `datasize/data->Navg` is an integer division, so `ceil` has no effect. -/
def averages (navg datasize : Nat) (sign : K) (chain : List (Link K)) : Option (List (K × K)) := do
  let navgpnt := datasize / navg
  let nextra := if datasize - navgpnt * navg = 0 then navg else datasize - navgpnt * navg
  let (s, l) ← sumN sign nextra (0, 0) chain
  let rest ← chunks sign navg (navgpnt - 1) l
  return ((s.1 / nextra, s.2 / nextra) :: rest).reverse

/-- `K`, src/diag/diag_transcoef.c:300-304. -/
def advection (a : List (K × K)) : K :=
  (List.zipWith (fun x y => (y.1 - x.1) / (y.2 - x.2)) a a.tail).sum / a.length

/-- `D`, src/diag/diag_transcoef.c:306-311. -/
def diffusion (k : K) (a : List (K × K)) : K :=
  (List.zipWith (fun x y => 1 / 2 * (y.1 - x.1 - k * (y.2 - x.2)) * (y.1 - x.1 - k * (y.2 - x.2)) /
    (y.2 - x.2)) a a.tail).sum / a.length

/-- `diag_transcoef_process_and_clean`, src/diag/diag_transcoef.c:225-336.  `none` is undefined
behaviour; `some none` if there are too few points; otherwise the coefficients. -/
def process (navg : Nat) (chain : List (Link K)) : Option (Option (K × K)) :=
  let c := count chain
  let datasize := if c.1 ≥ c.2 then c.1 else c.2
  let sign : K := if c.1 ≥ c.2 then 1 else -1
  if datasize > navg then
    if navg = 0 then none
    else do
      let a ← averages navg datasize sign chain
      let k := advection a
      return some (k, diffusion k a)
  else some none

end Ascot.Transcoef
