import Verif.Model.EndCond

/-!
# Main loops of the simulations, one lane
(`src/simulate/simulate_fo_fixed.c`, `simulate_gc_fixed.c`,
`simulate_gc_adaptive.c`, `simulate_ml_adaptive.c`)

One pass of the `while(n_running > 0)` loop for one lane that holds a marker.  The
physics operators are parameters and may be different in every pass (they use random
numbers and the Wiener arrays); they are called only for running lanes, as each
of them starts with `if(p->running[i])`.  Diagnostics read the markers only.
Reloading the lane from the queue is in `Verif/Model/Queue.lean`.
-/
namespace Ascot.TimeLoop
open Ascot.EndCond

variable {K X : Type} [Field K] [LinearOrder K] [IsStrictOrderedRing K] [FloorRing K]

/-- A guiding-center lane; `rest` is everything else that `particle_copy_gc` copies
(mu, zeta, weight, mass, charge, magnetic field and its gradient). -/
structure GcM (K X : Type) extends Gc K where
  id : Int
  rest : X

/-- A field-line lane; `rest` is pitch, weight, magnetic field and its gradient. -/
structure MlM (K X : Type) extends Lane K where
  id : Int
  rest : X

/-- A full-orbit lane. -/
structure FoM (K X : Type) extends Fo K where
  id : Int
  rest : X

/-- `particle_copy_gc(&p1, i, &p2, i)`, src/particle.c:1355-1394: everything but `err`
(and `index`, which no physics changes). -/
def copyGc (p1 p2 : GcM K X) : GcM K X := { p1 with err := p2.err }

/-- `particle_copy_ml`, src/particle.c:1404-1438. -/
def copyMl (p1 p2 : MlM K X) : MlM K X := { p1 with err := p2.err }

/-- `if(sim->reverse_time) {h = -h;}` -/
def along (rev : Bool) (h : K) : K := if rev then -h else h

/-- `1.0 - 2.0 * ( sim->reverse_time > 0 )` -/
def dir (rev : Bool) : K := 1 - 2 * (if rev then 1 else 0)

/-! ## Full orbit, fixed step -/

/-- Physics of one pass. -/
structure FoOps (K X : Type) where
  orbfol : Bool
  clmbcol : Bool
  atomic : Bool
  orb : FoM K X → K → FoM K X
  col : FoM K X → K → FoM K X
  atm : FoM K X → K → FoM K X
  /-- CPU time since the last pass -/
  dcpu : K
  env : Env K
  ekin : Fo K → K

/-- An operator called for running lanes only. -/
def onRunning (run : FoM K X → Bool) (on : Bool) (f : FoM K X → K → FoM K X) (p : FoM K X) (h : K) :
    FoM K X :=
  if on = true ∧ run p = true then f p h else p

/-- Update of time, mileage and CPU time, src/simulate/simulate_fo_fixed.c:127-139. -/
def advanceFo (rev : Bool) (hin dcpu : K) (p : FoM K X) : FoM K X :=
  { p with time := p.time + dir rev * hin, mileage := p.mileage + hin, cputime := p.cputime + dcpu }

/-- One pass of the loop, src/simulate/simulate_fo_fixed.c:93-156. -/
def foFixed (o : Opts K) (ops : FoOps K X) (s : FoM K X × K) : FoM K X × K :=
  let p := s.1
  let hin := s.2
  let p0 := p
  let hin := along o.reverseTime hin
  let p := onRunning (·.running) ops.orbfol ops.orb p hin
  let hin := along o.reverseTime hin
  let p := onRunning (·.running) ops.clmbcol ops.col p hin
  let p := onRunning (·.running) ops.atomic ops.atm p hin
  let p := if p.running then advanceFo o.reverseTime hin ops.dcpu p else p
  ({ p with toLane := checkFo o ops.env ops.ekin p0.toFo p.toFo }, hin)

/-! ## Guiding center, fixed step -/

/-- Physics of one pass. -/
structure GcFixOps (K X : Type) where
  orb : GcM K X → K → GcM K X
  col : GcM K X → K → GcM K X
  /-- RFOF: new marker and `hout_rfof` -/
  rf : GcM K X → K → GcM K X × K
  dcpu : K
  env : Env K
  ekin : Gc K → K

/-- Which physics is enabled. -/
structure GcOn where
  orbfol : Bool
  clmbcol : Bool
  icrh : Bool

/-- Lane and time-step variables: `hin`, `hin_default`, `hnext_recom`. -/
structure GcFixSt (K X : Type) where
  p : GcM K X
  hin : K
  hdef : K
  hrec : K

/-- Update of time, mileage and CPU time, src/simulate/simulate_gc_fixed.c:193-199. -/
def advanceGc (rev : Bool) (hin dcpu : K) (p : GcM K X) : GcM K X :=
  { p with time := p.time + dir rev * hin, mileage := p.mileage + hin, cputime := p.cputime + dcpu }

/-- One pass of the loop, src/simulate/simulate_gc_fixed.c:110-206.
`DUMMY_TIMESTEP_VAL` is 1. -/
def gcFixed (o : Opts K) (c : GcOn) (ops : GcFixOps K X) (s : GcFixSt K X) : GcFixSt K X :=
  let p := s.p
  let p0 := p
  let hin := along o.reverseTime s.hin
  let p := if c.orbfol = true ∧ p.running = true then ops.orb p hin else p
  let hin := along o.reverseTime hin
  let p := if c.clmbcol = true ∧ p.running = true then ops.col p hin else p
  -- ICRH, lines 158-178
  let t : GcM K X × K × K :=
    if c.icrh = true ∧ p.running = true then
      let q := ops.rf p hin
      if q.1.running = true ∧ q.2 < 0 then ({ q.1 with running := false }, hin, q.2)
      else if q.1.running = true then (q.1, s.hdef, s.hrec)
      else (q.1, hin, s.hrec)
    else (p, hin, s.hrec)
  let p := t.1
  let hin := t.2.1
  let hrec := t.2.2
  -- lines 181-202
  let p1 := if hrec < 0 then copyGc p0 p else p
  let hin := if hrec < 0 then -hrec else hin
  let u : GcM K X × K :=
    if p1.running then
      if hrec < 0 then (p1, 1)
      else (advanceGc o.reverseTime hin ops.dcpu p1, hrec)
    else (p1, hrec)
  { p := { u.1 with toLane := checkGc o ops.env ops.ekin p0.toGc u.1.toGc }
    hin := hin, hdef := s.hdef, hrec := u.2 }

/-- Loading a new marker into the lane inside the main loop,
src/simulate/simulate_gc_fixed.c:214-224: `hin_default` is not updated. -/
def gcFixedLoad (p : GcM K X) (inidt : K) (s : GcFixSt K X) : GcFixSt K X :=
  { s with p := p, hin := inidt }

/-- Loading a marker before the main loop, src/simulate/simulate_gc_fixed.c:78-98. -/
def gcFixedFirst (p : GcM K X) (inidt : K) : GcFixSt K X :=
  { p := p, hin := inidt, hdef := inidt, hrec := 1 }

/-! ## Guiding center, adaptive step -/

/-- `Acceleration` of one lane, src/simulate/simulate_gc_adaptive.h. -/
structure Acc (K : Type) where
  acc : K
  orbittime : K
  collfreq : K
  once : Bool
  twice : Bool
  firstPpar : Bool

/-- `recalculate_acceleration` of one lane, src/simulate/simulate_gc_adaptive.c:385-422.
`axis` are the coordinates of the magnetic axis, `safety` is
`enable_ada / 1000`. -/
def recalc (safety : K) (axis : K × K) (a : Acc K) (p p0 : GcM K X) : Acc K :=
  let omp := decide ((p.z - axis.2) * (p0.z - axis.2) < 0) && decide (p.r > axis.1)
  let same := decide (((if a.firstPpar then (1 : K) else 0) - 1 / 2) * p.ppar > 0)
  let faster := max 1 (safety / (a.orbittime * a.collfreq))
  if omp && a.twice then
    { a with acc := if same then faster else 1, once := true, twice := false,
             firstPpar := decide (p.ppar > 0), orbittime := 0 }
  else if omp && a.once then
    if same then
      { a with acc := faster, once := true, twice := false,
               firstPpar := decide (p.ppar > 0), orbittime := 0 }
    else { a with twice := true }
  else if omp then
    { a with once := true, firstPpar := decide (p.ppar > 0), orbittime := 0 }
  else a

/-- Options of the adaptive loop. -/
structure AdaCfg (K : Type) where
  on : GcOn
  /-- `sim->enable_ada > 1` -/
  accelerate : Bool
  safety : K
  maxDphi : K
  maxDrho : K

/-- Physics of one pass.  Each operator returns the marker and the suggestion for the
next step, which is negative (in the direction of time) if the step is rejected;
the collision operator also returns the collision frequency. -/
structure AdaOps (K X : Type) where
  orb : GcM K X → K → GcM K X × K
  col : GcM K X → K → K → (GcM K X × K) × K
  rf : GcM K X → K → GcM K X × K
  dcpu : K
  axis : K × K
  env : Env K
  ekin : Gc K → K

structure AdaSt (K X : Type) where
  p : GcM K X
  hin : K
  acc : Acc K

/-- `if(p.running[i] && hout[i] < 0) {p.running[i] = 0; hnext[i] = hout[i];}` -/
def reject (p : GcM K X) (hout hnext : K) : GcM K X × K :=
  if p.running = true ∧ hout < 0 then ({ p with running := false }, hout) else (p, hnext)

/-- Result of the update of time and step, src/simulate/simulate_gc_adaptive.c:209-278. -/
def adaUpdate (o : Opts K) (c : AdaCfg K) (dcpu : K) (p0 p : GcM K X) (hin hnext ho hc hr : K)
    (a : Acc K) : AdaSt K X :=
  if p.id > 0 ∧ p.err = 0 then
    let hnext :=
      if hnext > 0 then
        let dphi := |p0.phi - p.phi| / c.maxDphi
        let drho := |p0.rho - p.rho| / c.maxDrho
        if dphi > 1 ∧ dphi > drho then -hin / dphi
        else if drho > 1 ∧ drho > dphi then -hin / drho
        else hnext
      else hnext
    let p := if hnext < 0 then copyGc p0 p else p
    if p.running then
      if hnext < 0 then
        { p := { p with cputime := p.cputime + dcpu }, hin := -hnext, acc := a }
      else
        let p := { p with time := p.time + dir o.reverseTime * hin * a.acc,
                          mileage := p.mileage + hin * a.acc,
                          cputime := p.cputime + dcpu }
        let a := if a.orbittime ≥ 0 then { a with orbittime := a.orbittime + hin * a.acc } else a
        let hnext := if hnext > ho then ho else hnext
        let hnext := if hnext > hc then hc else hnext
        let hnext := if hnext > hr then hr else hnext
        let hnext := if hnext = 1 then hin else hnext
        { p := p, hin := hnext, acc := a }
    else { p := p, hin := hin, acc := a }
  else { p := p, hin := hin, acc := a }

/-- What the physics of one pass gives: marker, `hin`, `hnext` (negative if rejected),
the suggestions of the three operators, and the acceleration data. -/
structure Trial (K X : Type) where
  p : GcM K X
  hin : K
  hnext : K
  ho : K
  hc : K
  hr : K
  acc : Acc K

/-- The physics of one pass, src/simulate/simulate_gc_adaptive.c:126-206. -/
def gcTrial (o : Opts K) (c : AdaCfg K) (ops : AdaOps K X) (s : AdaSt K X) : Trial K X :=
  let p0 := s.p
  -- lines 138-145
  let hin := along o.reverseTime s.hin
  -- orbit-following, lines 146-173; (marker, hnext), hout_orb, hin
  let t : (GcM K X × K) × K × K :=
    if c.on.orbfol then
      let q := if p0.running then ops.orb p0 hin else (p0, 1)
      let ho := along o.reverseTime q.2
      (reject q.1 ho 1, ho, along o.reverseTime hin)
    else ((p0, 1), 1, hin)
  let hin := t.2.2
  -- collisions, lines 175-191
  let u : (GcM K X × K) × K × Acc K :=
    if c.on.clmbcol then
      let p := t.1.1
      let q := if p.running then ops.col p hin s.acc.acc else ((p, 1), s.acc.collfreq)
      (reject q.1.1 q.1.2 t.1.2, q.1.2, { s.acc with collfreq := q.2 })
    else (t.1, 1, s.acc)
  -- ICRH, lines 194-206
  let v : (GcM K X × K) × K :=
    if c.on.icrh then
      let p := u.1.1
      let q := if p.running then ops.rf p hin else (p, 1)
      (reject q.1 q.2 u.1.2, q.2)
    else (u.1, 1)
  { p := v.1.1, hin := hin, hnext := v.1.2, ho := t.2.1, hc := u.2.1, hr := v.2, acc := u.2.2 }

/-- One pass of the loop, src/simulate/simulate_gc_adaptive.c:124-287. -/
def gcAda (o : Opts K) (c : AdaCfg K) (ops : AdaOps K X) (s : AdaSt K X) : AdaSt K X :=
  let t := gcTrial o c ops s
  let r := adaUpdate o c ops.dcpu s.p t.p t.hin t.hnext t.ho t.hc t.hr t.acc
  let a := if c.accelerate then recalc c.safety ops.axis r.acc r.p s.p else r.acc
  { p := { r.p with toLane := checkGc o ops.env ops.ekin s.p.toGc r.p.toGc }, hin := r.hin, acc := a }

/-! ## Field lines, adaptive step -/

structure MlOps (K X : Type) where
  orb : MlM K X → K → MlM K X × K
  dcpu : K
  env : Env K

structure MlTrial (K X : Type) where
  p : MlM K X
  hin : K
  hnext : K
  ho : K

/-- The physics of one pass, src/simulate/simulate_ml_adaptive.c:100-144.  `dummy` is
`DUMMY_STEP_VAL` (100). -/
def mlTrial (o : Opts K) (orbfol : Bool) (dummy : K) (ops : MlOps K X) (s : MlM K X × K) :
    MlTrial K X :=
  let p0 := s.1
  if orbfol then
    let hin := along o.reverseTime s.2
    let q := if p0.running then ops.orb p0 hin else (p0, dummy)
    let ho := along o.reverseTime q.2
    if q.1.running = true ∧ ho < 0 then
      { p := { q.1 with running := false }, hin := along o.reverseTime hin, hnext := ho, ho := ho }
    else { p := q.1, hin := along o.reverseTime hin, hnext := dummy, ho := ho }
  else { p := p0, hin := s.2, hnext := dummy, ho := dummy }

/-- Update of mileage and step, src/simulate/simulate_ml_adaptive.c:149-198.  `light` is
`CONST_C`. -/
def mlUpdate (maxDphi maxDrho dummy light dcpu : K) (p0 : MlM K X) (t : MlTrial K X) :
    MlM K X × K :=
  let p := t.p
  if p.err = 0 then
    let hnext :=
      if t.hnext > 0 then
        let dphi := |p0.phi - p.phi| / maxDphi
        let drho := |p0.rho - p.rho| / maxDrho
        if dphi > 1 ∧ dphi > drho then -t.hin / dphi
        else if drho > 1 ∧ drho > dphi then -t.hin / drho
        else t.hnext
      else t.hnext
    let p := if hnext < 0 then copyMl p0 p else p
    if p.running then
      if hnext < 0 then ({ p with cputime := p.cputime + dcpu }, -hnext)
      else
        ({ p with mileage := p.mileage + t.hin / light, cputime := p.cputime + dcpu },
          if hnext > t.ho then t.ho else if hnext = dummy then t.hin else hnext)
    else (p, t.hin)
  else (p, t.hin)

/-- One pass of the loop, src/simulate/simulate_ml_adaptive.c:98-201. -/
def mlAda (o : Opts K) (orbfol : Bool) (maxDphi maxDrho dummy light : K) (ops : MlOps K X)
    (s : MlM K X × K) : MlM K X × K :=
  let r := mlUpdate maxDphi maxDrho dummy light ops.dcpu s.1 (mlTrial o orbfol dummy ops s)
  ({ r.1 with toLane := checkMl o ops.env s.1.toLane r.1.toLane }, r.2)

end Ascot.TimeLoop
