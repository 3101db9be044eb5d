import Mathlib.Analysis.SpecialFunctions.Trigonometric.Basic
import Mathlib.Data.Sign.Defs

/-!
# Coordinate conventions of equilibria (`a5py/physlib/cocos.py`)

Numbers are real numbers.  Arrays are lists.
-/
namespace Ascot.Cocos

/-- The identifier of the convention that is used in the code, a5py/physlib/cocos.py:8. -/
def ascot : ℤ := 3

/-- `COCOS`, a5py/physlib/cocos.py:10-40. -/
structure Cocos where
  cocos : ℤ
  expBp : ℤ
  sigmaBp : ℤ
  sigmaRpZ : ℤ
  sigmaRhotp : ℤ
  signQ : ℤ
  signPprime : ℤ

/-- `cocos`, a5py/physlib/cocos.py:42-82; `none`: `ValueError`. -/
def cocos (n : ℤ) : Option Cocos :=
  let e : ℤ := if n ≥ 11 then 1 else 0
  if n = 1 ∨ n = 11 then some ⟨n, e, 1, 1, 1, 1, -1⟩
  else if n = 2 ∨ n = 12 then some ⟨n, e, 1, -1, 1, 1, -1⟩
  else if n = 3 ∨ n = 13 then some ⟨n, e, -1, 1, -1, -1, 1⟩
  else if n = 4 ∨ n = 14 then some ⟨n, e, -1, -1, -1, -1, 1⟩
  else if n = 5 ∨ n = 15 then some ⟨n, e, 1, 1, -1, -1, -1⟩
  else if n = 6 ∨ n = 16 then some ⟨n, e, 1, -1, -1, -1, -1⟩
  else if n = 7 ∨ n = 17 then some ⟨n, e, -1, 1, 1, 1, 1⟩
  else if n = 8 ∨ n = 18 then some ⟨n, e, -1, -1, 1, 1, 1⟩
  else none

/-- `np.sign`. -/
noncomputable def sgn (x : ℝ) : ℤ := if 0 < x then 1 else if x < 0 then -1 else 0

/-- `a / b > 0`; the quotient is infinite if only `b` is zero. -/
def quotPos (a b : ℤ) : Bool := if b = 0 then decide (0 < a) else decide (0 < a * b)

/-- `a / b < 0`. -/
def quotNeg (a b : ℤ) : Bool := if b = 0 then decide (a < 0) else decide (a * b < 0)

/-- The numbers of the conventions that are left, a5py/physlib/cocos.py:118-141. -/
noncomputable def candidates (q ip b0 psiaxis psibndr : ℝ) (phiclockwise : Bool) : List ℤ :=
  let c : List ℤ := [1, 2, 3, 4, 5, 6, 7, 8]
  let c := if quotPos (sgn (psibndr - psiaxis)) (sgn ip) then c.filter (· ∉ [3, 4, 7, 8])
    else c.filter (· ∉ [1, 2, 5, 6])
  let c := if quotNeg (sgn q) (sgn ip * sgn b0) then c.filter (· ∉ [1, 2, 7, 8])
    else c.filter (· ∉ [3, 4, 5, 6])
  if phiclockwise then c.filter (· ∉ [1, 3, 5, 7]) else c.filter (· ∉ [2, 4, 6, 8])

/-- `assign`, a5py/physlib/cocos.py:84-148; `none`: `ValueError` or `KeyError`. -/
noncomputable def assign (q ip b0 psiaxis psibndr : ℝ) (phiclockwise weberperrad : Bool) : Option ℤ :=
  match candidates q ip b0 psiaxis psibndr phiclockwise with
  | [n] => some (if weberperrad then n else n + 10)
  | _ => none

/-- The factors that `transform_cocos` returns. -/
structure Factors where
  R : ℝ
  Z : ℝ
  PRES : ℝ
  PSI : ℝ
  TOR : ℝ
  PPRIME : ℝ
  FFPRIME : ℝ
  B : ℝ
  F : ℝ
  I : ℝ
  J : ℝ
  Q : ℝ

/-- `mu0`, a5py/physlib/cocos.py:202. -/
noncomputable def mu0 : ℝ := 4 * Real.pi * (1 / 10000000)

/-- The arguments of `transform_cocos` that have a default value, with these. -/
structure Scales where
  sigmaIp : Option (ℤ × ℤ) := none
  sigmaB0 : Option (ℤ × ℤ) := none
  ld : ℝ × ℝ := (1, 1)
  lB : ℝ × ℝ := (1, 1)
  expMu0 : ℤ × ℤ := (0, 0)

/-- `transform_cocos`, a5py/physlib/cocos.py:150-223. -/
noncomputable def transform (i o : Cocos) (s : Scales) : Factors :=
  let ld := s.ld.2 / s.ld.1
  let lB := s.lB.2 / s.lB.1
  let em := s.expMu0.2 - s.expMu0.1
  let sIp : ℝ := match s.sigmaIp with
    | none => ((i.sigmaRpZ * o.sigmaRpZ : ℤ) : ℝ)
    | some x => ((x.1 * x.2 : ℤ) : ℝ)
  let sB0 : ℝ := match s.sigmaB0 with
    | none => ((i.sigmaRpZ * o.sigmaRpZ : ℤ) : ℝ)
    | some x => ((x.1 * x.2 : ℤ) : ℝ)
  let sBp : ℝ := ((i.sigmaBp * o.sigmaBp : ℤ) : ℝ)
  let e := o.expBp - i.expBp
  let sRtp : ℝ := ((i.sigmaRhotp * o.sigmaRhotp : ℤ) : ℝ)
  { R := ld
    Z := ld
    PRES := lB ^ 2 / mu0 ^ em
    PSI := lB * ld ^ 2 * sIp * sBp * (2 * Real.pi) ^ e * ld ^ 2 * lB
    TOR := lB * ld ^ 2 * sB0
    PPRIME := lB / (ld ^ 2 * mu0 ^ em) * sIp * sBp / (2 * Real.pi) ^ e
    FFPRIME := lB * sIp * sBp / (2 * Real.pi) ^ e
    B := lB * sB0
    F := sB0 * ld * lB
    I := sIp * ld * lB / mu0 ^ em
    J := sIp * lB / (mu0 ^ em * ld)
    Q := sIp * sB0 * sRtp }

/-- The contents of an equilibrium file that are used. -/
@[ext] structure Eqd where
  nx : ℕ
  ny : ℕ
  rdim : ℝ
  zdim : ℝ
  rcentr : ℝ
  rleft : ℝ
  zmid : ℝ
  rmagx : ℝ
  zmagx : ℝ
  simagx : ℝ
  sibdry : ℝ
  bcentr : ℝ
  cpasma : ℝ
  fpol : List ℝ
  pres : List ℝ
  ffprime : List ℝ
  pprime : List ℝ
  psi : List (List ℝ)
  qpsi : List ℝ
  rbdry : List ℝ
  zbdry : List ℝ
  rlim : List ℝ
  zlim : List ℝ

/-- An array times a number. -/
noncomputable def scale (f : ℝ) (l : List ℝ) : List ℝ := l.map (· * f)

/-- The new contents, a5py/physlib/cocos.py:248-272. -/
noncomputable def apply (f : Factors) (e : Eqd) : Eqd where
  nx := e.nx
  ny := e.ny
  rdim := e.rdim * f.R
  zdim := e.zdim * f.Z
  rcentr := e.rcentr * f.R
  rleft := e.rleft * f.R
  zmid := e.zmid * f.Z
  rmagx := e.rmagx * f.R
  zmagx := e.zmagx * f.Z
  simagx := e.simagx * f.PSI
  sibdry := e.sibdry * f.PSI
  bcentr := e.bcentr * f.B
  cpasma := e.cpasma * f.I
  fpol := scale f.F e.fpol
  pres := scale f.PRES e.pres
  ffprime := scale f.FFPRIME e.ffprime
  pprime := scale f.PPRIME e.pprime
  psi := e.psi.map (scale f.PSI)
  qpsi := scale f.Q e.qpsi
  rbdry := scale f.R e.rbdry
  zbdry := scale f.Z e.zbdry
  rlim := scale f.R e.rlim
  zlim := scale f.Z e.zlim

/-- `assign` for an equilibrium, a5py/physlib/cocos.py:243-246 and a5py/templates/importdata.py:359-361. -/
noncomputable def assignEqd (e : Eqd) (phiclockwise weberperrad : Bool) : Option ℤ :=
  match e.qpsi with
  | [] => none
  | q :: _ => assign q e.cpasma e.bcentr e.simagx e.sibdry phiclockwise weberperrad

/-- `fromCocosNtoCocosM`, a5py/physlib/cocos.py:225-272.  Zero is no number of a convention either. -/
noncomputable def convert (e : Eqd) (m : ℤ) (n : Option ℤ) (phiclockwise weberperrad : Bool) : Option Eqd :=
  let n' := match n with
    | none => assignEqd e phiclockwise weberperrad
    | some n => if n = 0 then assignEqd e phiclockwise weberperrad else some n
  match n' with
  | none => none
  | some n =>
    match cocos n, cocos m with
    | some i, some o => some (apply (transform i o {}) e)
    | _, _ => none

end Ascot.Cocos
