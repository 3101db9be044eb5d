import Verif.Model.EndCond

/-!
# Specification of the end conditions

When an end condition is met, in the words of the user documentation (the comment
at the top of `src/endcond.c`).  Only the option and marker records of the model
are used, none of its functions.
-/
namespace Ascot.EndCond

/-- The end conditions. -/
inductive Cond where
  | tlim | emin | therm | wall | rhomin | rhomax | polmax | tormax | cpumax | hybrid | neutr | ioniz
  deriving DecidableEq, Repr

/-- Position of the flag in the bit arrays. -/
def Cond.bit : Cond → Nat
  | .tlim => 0 | .emin => 1 | .therm => 2 | .wall => 3 | .rhomin => 4 | .rhomax => 5
  | .polmax => 6 | .tormax => 7 | .cpumax => 8 | .hybrid => 9 | .neutr => 10 | .ioniz => 11

/-- The user has enabled the condition. -/
def Opts.on {K : Type} (o : Opts K) (c : Cond) : Prop := o.active.testBit c.bit = true

variable {K : Type} [Field K] [LinearOrder K] [IsStrictOrderedRing K] [FloorRing K]

/-- Time is over: the limit has been passed in the direction of time, or the marker
has been followed for too long. -/
def TimeOver (o : Opts K) (time mileage : K) : Prop :=
  (o.reverseTime = false ∧ o.limSimtime < time) ∨ (o.reverseTime = true ∧ time < o.limSimtime) ∨
    o.maxMileage < mileage

/-- Toroidal / poloidal turns: with `torAndPol` both limits have to be exceeded, and
both conditions have to be enabled. -/
def TorMet (o : Opts K) (tor pol : Prop) : Prop :=
  o.on .tormax ∧ tor ∧ (o.torAndPol = true → o.on .polmax ∧ pol)

def PolMet (o : Opts K) (tor pol : Prop) : Prop :=
  o.on .polmax ∧ pol ∧ (o.torAndPol = true → o.on .tormax ∧ tor)

/-- What a check looks at. -/
structure Facts (K : Type) where
  time : K
  mileage : K
  cputime : K
  rho : K
  /-- the marker crossed the wall during the step -/
  hit : Prop
  /-- kinetic energy and temperature of the plasma where the marker ended up;
  `none` for field lines -/
  energy : Option (K × K)
  /-- toroidal angle where the marker ended up -/
  phi : K
  theta : K
  /-- the number of bounces completed reached the limit; `False` for field lines -/
  bounced : Prop
  /-- charge before and after; `none` if not checked -/
  charge : Option (K × K)
  /-- hand-over to full orbit applies -/
  mayHandOver : Prop

/-- The condition is enabled and met. -/
def Met (o : Opts K) (x : Facts K) : Cond → Prop
  | .tlim => o.on .tlim ∧ TimeOver o x.time x.mileage
  | .emin => o.on .emin ∧ ∃ et, x.energy = some et ∧ et.1 < o.minEkin
  | .therm => o.on .therm ∧ ∃ et, x.energy = some et ∧ et.1 < o.minThermal * et.2
  | .wall => o.on .wall ∧ x.hit
  | .rhomin => o.on .rhomin ∧ x.rho < o.minRho
  | .rhomax => o.on .rhomax ∧ o.maxRho < x.rho
  | .polmax => PolMet o (o.maxTororb < |x.phi|) (o.maxPolorb < |x.theta| ∨ x.bounced)
  | .tormax => TorMet o (o.maxTororb < |x.phi|) (o.maxPolorb < |x.theta| ∨ x.bounced)
  | .cpumax => o.on .cpumax ∧ o.maxCputime < x.cputime
  | .hybrid => x.mayHandOver ∧ o.maxRho < x.rho
  | .neutr => o.on .neutr ∧ ∃ q, x.charge = some q ∧ q.1 ≠ 0 ∧ q.2 = 0
  | .ioniz => o.on .ioniz ∧ ∃ q, x.charge = some q ∧ q.1 = 0 ∧ q.2 ≠ 0

/-- What the full-orbit check looks at: `i` is the marker before the step, `f` after
the step and `res` the result of the check, which is at the hit point if the marker
hit the wall (`fo_position`). -/
def foFacts (o : Opts K) (e : Env K) (ekin : Fo K → K) (i f : Fo K) (res : Lane K) : Facts K where
  time := f.time
  mileage := f.mileage
  cputime := f.cputime
  rho := f.rho
  hit := 0 < (e.wallHit i.r i.phi i.z f.r f.phi f.z).1
  energy := some (ekin f, (e.temp f.rho res.r res.phi res.z res.time).2)
  phi := res.phi
  theta := f.theta
  bounced := (if 0 ≤ o.maxPolorb / e.twoPi then ⌊o.maxPolorb / e.twoPi⌋
    else ⌈o.maxPolorb / e.twoPi⌉) ≤ res.bounces - 1
  charge := some (i.charge, f.charge)
  mayHandOver := False

/-- The parallel momentum has opposite signs before and after the step. -/
def FoTurned (i f : Fo K) : Prop :=
  (i.pr * i.br + i.pphi * i.bphi + i.pz * i.bz) * (f.pr * f.br + f.pphi * f.bphi + f.pz * f.bz) < 0

instance (i f : Fo K) : Decidable (FoTurned i f) := inferInstanceAs (Decidable (_ < _))

/-- What the guiding-center check looks at; in hybrid mode (3) a marker beyond the
maximum rho is handed over to the full-orbit simulation. -/
def gcFacts (o : Opts K) (e : Env K) (ekin : Gc K → K) (i f : Gc K) (res : Lane K) : Facts K where
  time := f.time
  mileage := f.mileage
  cputime := f.cputime
  rho := f.rho
  hit := 0 < (e.wallHit i.r i.phi i.z f.r f.phi f.z).1
  energy := some (ekin f, (e.temp f.rho f.r f.phi f.z f.time).2)
  phi := f.phi
  theta := f.theta
  bounced := (if 0 ≤ o.maxPolorb / e.twoPi then ⌊o.maxPolorb / e.twoPi⌋
    else ⌈o.maxPolorb / e.twoPi⌉) ≤ res.bounces - 1
  charge := none
  mayHandOver := o.simMode = 3

/-- What the field-line check looks at. -/
def mlFacts (e : Env K) (i f : Lane K) : Facts K where
  time := f.time
  mileage := f.mileage
  cputime := f.cputime
  rho := f.rho
  hit := 0 < (e.wallHit i.r i.phi i.z f.r f.phi f.z).1
  energy := none
  phi := f.phi
  theta := f.theta
  bounced := False
  charge := none
  mayHandOver := False

end Ascot.EndCond
