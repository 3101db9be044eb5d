import Mathlib.Algebra.Order.Field.Basic
import Mathlib.Algebra.Order.Floor.Defs
import Mathlib.Algebra.Order.Group.Abs

/-!
# End conditions (`src/endcond.c`, `src/endcond.h`)

One lane of the SIMD loops; the lanes do not interact.  `K` is an ordered field
standing for `real`.  Wall, plasma temperature and kinetic energy are parameters
(`Env`), so the theorems hold for whatever these modules compute.
-/
namespace Ascot.EndCond

/-- `enum ENDCOND_FLAG`, src/endcond.h:19-33. -/
def tlim : Nat := 0x1
def emin : Nat := 0x2
def therm : Nat := 0x4
def wall : Nat := 0x8
def rhomin : Nat := 0x10
def rhomax : Nat := 0x20
def polmax : Nat := 0x40
def tormax : Nat := 0x80
def cpumax : Nat := 0x100
def hybrid : Nat := 0x200
def neutr : Nat := 0x400
def ioniz : Nat := 0x800

/-- The fields of `sim_data` that the end conditions read (src/simulate.h). -/
structure Opts (K : Type) where
  active : Nat
  reverseTime : Bool
  torAndPol : Bool
  simMode : Nat
  limSimtime : K
  maxMileage : K
  maxCputime : K
  minRho : K
  maxRho : K
  minEkin : K
  minThermal : K
  maxTororb : K
  maxPolorb : K

/-- Fields common to `particle_simd_fo`, `_gc` and `_ml` (src/particle.h).
`bounces` does not exist for field lines and is then unused. -/
structure Lane (K : Type) where
  time : K
  mileage : K
  cputime : K
  r : K
  phi : K
  z : K
  rho : K
  theta : K
  bounces : Int
  walltile : Nat
  endcond : Nat
  err : Nat
  running : Bool
  deriving DecidableEq

/-- Other modules: `wall_hit_wall` returns a positive tile number and the relative
position of the hit, or zero; `plasma_eval_temp` at (rho, r, phi, z, t) returns
either a nonzero error or the temperature of species 1. -/
structure Env (K : Type) where
  wallHit : K → K → K → K → K → K → Nat × K
  temp : K → K → K → K → K → Nat × K
  /-- `CONST_2PI`, src/consts.h -/
  twoPi : K

variable {K : Type} [Field K] [LinearOrder K] [IsStrictOrderedRing K] [FloorRing K]

/-- `p->endcond[i] |= f; p->running[i] = 0;` -/
def Lane.stop (p : Lane K) (f : Nat) : Lane K :=
  { p with endcond := p.endcond ||| f, running := false }

/-- Conversion `(int) x` of C. -/
def cInt (x : K) : Int := if 0 ≤ x then ⌊x⌋ else ⌈x⌉

/-- Bounce counter at a sign change of the parallel momentum,
src/endcond.c:100-112, 283-295. -/
def bounce (b : Int) : Int :=
  if b > 0 then -b else if b < 0 then -b + 1 else b + 1

/-- src/endcond.c:96-113 and 281-296; `changed` is the sign test. -/
def stepBounce (changed : Bool) (p : Lane K) : Lane K :=
  if changed then { p with bounces := bounce p.bounces } else p

/-- src/endcond.c:116-129, 299-312, 453-466. -/
def stepTlim (o : Opts K) (p : Lane K) : Lane K :=
  if o.active &&& tlim ≠ 0 then
    let p := if o.reverseTime = false ∧ p.time > o.limSimtime then p.stop tlim else p
    let p := if o.reverseTime = true ∧ p.time < o.limSimtime then p.stop tlim else p
    if p.mileage > o.maxMileage then p.stop tlim else p
  else p

/-- Full orbit: position and time are moved to the hit point, src/endcond.c:133-149. -/
def stepWallFo (o : Opts K) (e : Env K) (i p : Lane K) : Lane K :=
  if o.active &&& wall ≠ 0 then
    let h := e.wallHit i.r i.phi i.z p.r p.phi p.z
    if h.1 > 0 then
      { p with
        time := i.time + h.2 * (p.time - i.time)
        r := i.r + h.2 * (p.r - i.r)
        phi := i.phi + h.2 * (p.phi - i.phi)
        z := i.z + h.2 * (p.z - i.z)
        walltile := h.1 }.stop wall
    else p
  else p

/-- Guiding centers and field lines, src/endcond.c:316-326, 470-480. -/
def stepWall (o : Opts K) (e : Env K) (i p : Lane K) : Lane K :=
  if o.active &&& wall ≠ 0 then
    let h := e.wallHit i.r i.phi i.z p.r p.phi p.z
    if h.1 > 0 then { p with walltile := h.1 }.stop wall else p
  else p

/-- Energy conditions; `ekin` is the kinetic energy computed from the momentum of the
lane, src/endcond.c:153-181, 330-359. -/
def stepEnergy (o : Opts K) (e : Env K) (ekin : K) (p : Lane K) : Lane K :=
  if o.active &&& emin ≠ 0 ∨ o.active &&& therm ≠ 0 then
    let t := e.temp p.rho p.r p.phi p.z p.time
    let p := if t.1 ≠ 0 then { p with err := t.1, running := false } else p
    let Ti := if t.1 ≠ 0 then 0 else t.2
    let p := if o.active &&& emin ≠ 0 ∧ ekin < o.minEkin then p.stop emin else p
    if o.active &&& therm ≠ 0 ∧ ekin < o.minThermal * Ti then p.stop therm else p
  else p

/-- src/endcond.c:184-195, 362-373, 483-494. -/
def stepRho (o : Opts K) (p : Lane K) : Lane K :=
  let p := if o.active &&& rhomax ≠ 0 then
    (if p.rho > o.maxRho then p.stop rhomax else p) else p
  if o.active &&& rhomin ≠ 0 then
    (if p.rho < o.minRho then p.stop rhomin else p) else p

/-- The value of `maxorb`, src/endcond.c:198-212, 376-390, and 497-507 without the
bounce criterion (`useBounces = false`). -/
def maxorb (o : Opts K) (e : Env K) (useBounces : Bool) (p : Lane K) : Nat :=
  let m := if o.active &&& tormax ≠ 0 then (if |p.phi| > o.maxTororb then tormax else 0) else 0
  if o.active &&& polmax ≠ 0 then
    if |p.theta| > o.maxPolorb then m ||| polmax
    else if useBounces = true ∧ p.bounces - 1 ≥ cInt (o.maxPolorb / e.twoPi) then m ||| polmax
    else m
  else m

/-- src/endcond.c:213-221, 391-399, 508-516. -/
def stepOrb (o : Opts K) (e : Env K) (useBounces : Bool) (p : Lane K) : Lane K :=
  let m := maxorb o e useBounces p
  if o.torAndPol = true ∧ m &&& tormax ≠ 0 ∧ m &&& polmax ≠ 0 then p.stop m
  else if o.torAndPol = false ∧ m ≠ 0 then p.stop m
  else p

/-- src/endcond.c:224-229, 403-408, 520-525. -/
def stepCpu (o : Opts K) (p : Lane K) : Lane K :=
  if o.active &&& cpumax ≠ 0 then
    (if p.cputime > o.maxCputime then p.stop cpumax else p) else p

/-- src/endcond.c:231-244; charges before and after the step. -/
def stepCharge (o : Opts K) (qi qf : K) (p : Lane K) : Lane K :=
  let p := if o.active &&& neutr ≠ 0 then
    (if qi ≠ 0 ∧ qf = 0 then p.stop neutr else p) else p
  if o.active &&& ioniz ≠ 0 then
    (if qi = 0 ∧ qf ≠ 0 then p.stop ioniz else p) else p

/-- src/endcond.c:412-417. -/
def stepHybrid (o : Opts K) (p : Lane K) : Lane K :=
  if o.simMode = 3 then
    (if p.rho > o.maxRho then p.stop hybrid else p) else p

/-- src/endcond.c:247-249, 420-422. -/
def stepErr (p : Lane K) : Lane K := if p.err ≠ 0 then { p with endcond := 0 } else p

/-- Momentum and field of a full-orbit lane. -/
structure Fo (K : Type) extends Lane K where
  pr : K
  pphi : K
  pz : K
  br : K
  bphi : K
  bz : K
  charge : K

/-- `endcond_check_fo` for lane `i`, src/endcond.c:73-252.  `ekin` stands for
`physlib_Ekin_pnorm(mass, |p|)`. -/
def checkFo (o : Opts K) (e : Env K) (ekin : Fo K → K) (i f : Fo K) : Lane K :=
  if f.running then
    let changed := decide ((i.pr * i.br + i.pphi * i.bphi + i.pz * i.bz) *
      (f.pr * f.br + f.pphi * f.bphi + f.pz * f.bz) < 0)
    stepErr <| stepCharge o i.charge f.charge <| stepCpu o <| stepOrb o e true <| stepRho o <|
      stepEnergy o e (ekin f) <| stepWallFo o e i.toLane <| stepTlim o <|
      stepBounce changed f.toLane
  else f.toLane

/-- Momentum of a guiding-center lane. -/
structure Gc (K : Type) extends Lane K where
  ppar : K

/-- `endcond_check_gc` for lane `i`, src/endcond.c:262-425.  `ekin` stands for
`physlib_Ekin_ppar(mass, mu, ppar, |B|)`. -/
def checkGc (o : Opts K) (e : Env K) (ekin : Gc K → K) (i f : Gc K) : Lane K :=
  if f.running then
    stepErr <| stepHybrid o <| stepCpu o <| stepOrb o e true <| stepRho o <|
      stepEnergy o e (ekin f) <| stepWall o e i.toLane <| stepTlim o <|
      stepBounce (decide (i.ppar * f.ppar < 0)) f.toLane
  else f.toLane

/-- `endcond_check_ml` for lane `i`, src/endcond.c:435-529. -/
def checkMl (o : Opts K) (e : Env K) (i f : Lane K) : Lane K :=
  if f.running then
    stepCpu o <| stepOrb o e false <| stepRho o <| stepWall o e i <| stepTlim o f
  else f

/-! ### `endcond_parse` -/

/-- `if(endcond & flag) {endconds[i++] = code;}` -/
def parse1 (ec flag code : Nat) (out : List Nat) : List Nat :=
  if ec &&& flag ≠ 0 then out ++ [code] else out

/-- `endcond_parse`, src/endcond.c:538-553: the written prefix of the output array. -/
def parse (ec : Nat) : List Nat :=
  parse1 ec ioniz 12 <| parse1 ec neutr 11 <| parse1 ec hybrid 10 <| parse1 ec cpumax 9 <|
  parse1 ec tormax 8 <| parse1 ec polmax 7 <| parse1 ec rhomax 6 <| parse1 ec rhomin 5 <|
  parse1 ec wall 4 <| parse1 ec therm 3 <| parse1 ec emin 2 <| parse1 ec tlim 1 []

/-- `endcond_parse2str`, src/endcond.c:564-606: the `switch` over its argument.
`none` means that nothing is written to `str`. -/
def parse2str (ec : Nat) : Option String :=
  match ec with
  | 1 => some "Sim time limit"
  | 2 => some "Min energy"
  | 3 => some "Thermalization"
  | 4 => some "Wall collision"
  | 5 => some "Min rho"
  | 6 => some "Max rho"
  | 7 => some "Max poloidal orbits"
  | 8 => some "Max toroidal orbits"
  | 9 => some "CPU time exceeded"
  | 10 => some "Hybrid condition"
  | 11 => some "Neutralization"
  | 12 => some "Ionization"
  | _ => none

end Ascot.EndCond
