import Verif.Model.Bfield
import Verif.Model.Gctransform
import Verif.Model.Physlib

/-!
# Marker input and conversions between marker types (`src/particle.c`)

A SIMD structure is modelled one lane at a time.  Structures are records; conversions get the previous content of the structure
that they fill and return the new one with the error code.  `none`: a number that is stored or tested is infinite or not a
number.  `c` is the speed of light and `order` is `GCTRANSFORM_ORDER`.  `cputime` is an ordinary number.  The magnetic field does
not depend on time (as in all field models), so the time is not passed on.
-/
namespace Ascot.Particle
open Ascot.Coord Ascot.Bfield
open Ascot.Gctransform (Gc particle2gc gc2particle momentum)

/-- `particle_state`, src/particle.h:40-80: particle position and momentum, guiding-center position, parallel momentum, magnetic
moment and gyroangle, and the other fields. -/
structure State where
  prt : V3 ℝ
  p : V3 ℝ
  gc : Gc
  mass : ℝ
  charge : ℝ
  anum : Int
  znum : Int
  weight : ℝ
  time : ℝ
  mileage : ℝ
  cputime : ℝ
  rho : ℝ
  theta : ℝ
  id : Int
  endcond : Nat
  walltile : Int
  B : Jac
  err : Nat

/-- A lane of `particle_simd_fo`, src/particle.h. -/
structure Fo where
  pos : V3 ℝ
  p : V3 ℝ
  mass : ℝ
  charge : ℝ
  anum : Int
  znum : Int
  bounces : Int
  weight : ℝ
  time : ℝ
  mileage : ℝ
  cputime : ℝ
  rho : ℝ
  theta : ℝ
  id : Int
  endcond : Nat
  walltile : Int
  B : Jac
  running : Bool
  index : Nat
  err : Nat

/-- A lane of `particle_simd_gc`, src/particle.h. -/
structure GcM where
  gc : Gc
  mass : ℝ
  charge : ℝ
  bounces : Int
  weight : ℝ
  time : ℝ
  mileage : ℝ
  cputime : ℝ
  rho : ℝ
  theta : ℝ
  id : Int
  endcond : Nat
  walltile : Int
  B : Jac
  running : Bool
  index : Nat
  err : Nat

/-- A lane of `particle_simd_ml`, src/particle.h. -/
structure Ml where
  pos : V3 ℝ
  pitch : ℝ
  weight : ℝ
  time : ℝ
  mileage : ℝ
  cputime : ℝ
  rho : ℝ
  theta : ℝ
  id : Int
  endcond : Nat
  walltile : Int
  B : Jac
  running : Bool
  index : Nat
  err : Nat

/-- The three evaluations at a point, each only if there is no error so far: src/particle.c:687-698, 799-807, 1238-1248,
1494-1502, 1545-1553, 1661-1669.  The result is the content of `B_dB` and `rho[0]` afterwards, and the error; `rho0` is the
content of `rho[0]` before. -/
noncomputable def fieldAt (b : Data) (rho0 : ℝ) (pos : V3 ℝ) : Option (Jac × ℝ × Nat) :=
  match evalBdB b pos.x pos.y pos.z with
  | none => none
  | some (jac, e) =>
    if e ≠ 0 then some (jac, rho0, e)
    else
      match evalPsi b pos.x pos.y pos.z with
      | none => none
      | some (psi, e) =>
        if e ≠ 0 then some (jac, rho0, e)
        else
          match (evalRho b psi).1 with
          | none => none
          | some rho => some (jac, rho, (evalRho b psi).2.2)

/-- `particle_state_to_fo`, src/particle.c:659-728. -/
noncomputable def stateToFo (b : Data) (s : State) (i : Nat) (f : Fo) : Option (Fo × Nat) :=
  if s.err ≠ 0 then some (f, s.err)
  else
    let f := { f with pos := s.prt, p := s.p, mass := s.mass, charge := s.charge, znum := s.znum, anum := s.anum, bounces := 0,
                      weight := s.weight, time := s.time, theta := s.theta, id := s.id, endcond := s.endcond,
                      walltile := s.walltile, mileage := s.mileage }
    match fieldAt b 0 s.prt with
    | none => none
    | some (jac, rho, e) =>
      if e ≠ 0 then some (f, e)
      else some ({ f with rho := rho, B := jac, running := s.endcond = 0, cputime := s.cputime, index := i, err := 0 }, 0)

/-- The tests of a guiding center after the transformation, src/particle.c:796-797, 1234-1235, 1486-1491. -/
noncomputable def gcErr (line1 line2 : Nat) (g : Gc) : Nat :=
  if g.pos.x ≤ 0 then Error.raise 4 line1 22 else if g.mu < 0 then Error.raise 4 line2 22 else 0

/-- `particle_fo_to_state`, src/particle.c:744-846. -/
noncomputable def foToState (order : Bool) (c : ℝ) (b : Data) (f : Fo) (s : State) : Option State :=
  match particle2gc order f.mass f.charge f.B f.pos f.p with
  | none => none
  | some g =>
    let s := { s with prt := f.pos, p := f.p, mass := f.mass, charge := f.charge, znum := f.znum, anum := f.anum,
                      weight := f.weight, time := f.time, theta := f.theta, id := f.id, endcond := f.endcond,
                      walltile := f.walltile, cputime := f.cputime, mileage := f.mileage,
                      gc := { g with ppar := s.gc.ppar } }
    let e0 := gcErr 796 797 g
    if e0 ≠ 0 then some { s with rho := f.rho, B := f.B, err := if f.err ≠ 0 then f.err else e0 }
    else
      match fieldAt b f.rho g.pos with
      | none => none
      | some (jac, rho, e) =>
        if e ≠ 0 then some { s with rho := rho, B := jac, err := if f.err ≠ 0 then f.err else e }
        else
          let e := if g.ppar ≥ c then Error.raise 4 813 22 else 0
          some { s with gc := g, rho := rho, B := jac, err := if f.err ≠ 0 then f.err else e }

/-- `particle_state_to_gc`, src/particle.c:871-920. -/
def stateToGc (s : State) (i : Nat) (g : GcM) : GcM × Nat :=
  if s.err ≠ 0 then (g, s.err)
  else
    ({ gc := s.gc, mass := s.mass, charge := s.charge, time := s.time, bounces := 0, weight := s.weight, rho := s.rho,
       theta := s.theta, id := s.id, endcond := s.endcond, walltile := s.walltile, mileage := s.mileage, B := s.B,
       running := s.endcond = 0, cputime := s.cputime, index := i, err := 0 }, 0)

/-- `particle_gc_to_state`, src/particle.c:936-1020.  The error of the field evaluation at the particle position (line 997) is not
looked at. -/
noncomputable def gcToState (order : Bool) (b : Data) (g : GcM) (s : State) : Option State :=
  match gc2particle order g.mass g.charge g.B g.gc with
  | none => none
  | some q =>
    match evalBdB b q.pos.x q.pos.y q.pos.z with
    | none => none
    | some (jac, _) =>
      match momentum g.mass g.charge ⟨jac.a.v, jac.b.v, jac.c.v⟩ q.pos.y q.ppar q.mu q.zeta with
      | none => none
      | some p =>
        let s := { s with gc := g.gc, mass := g.mass, charge := g.charge, time := g.time, weight := g.weight, id := g.id,
                          cputime := g.cputime, rho := g.rho, theta := g.theta, endcond := g.endcond,
                          walltile := g.walltile, mileage := g.mileage, B := g.B, prt := q.pos }
        let e := if q.pos.x ≤ 0 then Error.raise 4 1004 22 else 0
        let s := if e = 0 then { s with p := p } else s
        some { s with err := if g.err ≠ 0 then g.err else e }

/-- `particle_state_to_ml`, src/particle.c:1052-1097. -/
noncomputable def stateToMl (s : State) (i : Nat) (m : Ml) : Ml × Nat :=
  if s.err ≠ 0 then (m, s.err)
  else
    ({ pos := s.gc.pos, pitch := 2 * (if s.gc.ppar ≥ 0 then 1 else 0) - 1, time := s.time, weight := s.weight, id := s.id,
       cputime := s.cputime, rho := s.rho, theta := s.theta, endcond := s.endcond, walltile := s.walltile,
       mileage := s.mileage, B := s.B, running := s.endcond = 0, index := i, err := 0 }, 0)

/-- `particle_ml_to_state`, src/particle.c:1117-1172.  The last assignment (line 1171) sets the error to zero. -/
def mlToState (m : Ml) (s : State) : State :=
  { s with prt := m.pos, p := ⟨0, 0, 0⟩, gc := ⟨m.pos, m.pitch, 0, 0⟩, mass := 0, charge := 0, time := m.time,
           weight := m.weight, id := m.id, cputime := m.cputime, rho := m.rho, theta := m.theta, endcond := m.endcond,
           walltile := m.walltile, mileage := m.mileage, B := m.B, err := 0 }

/-- The angle by which the poloidal angle changes, src/particle.c:1264-1267. -/
noncomputable def turn (a : ℝ × ℝ) (r0 z0 r z : ℝ) : ℝ :=
  atan2 ((r0 - a.1) * (z - a.2) - (z0 - a.2) * (r - a.1)) ((r0 - a.1) * (r - a.1) + (z0 - a.2) * (z - a.2))

/-- `particle_fo_to_gc`, src/particle.c:1185-1291.  The axis is looked up at the toroidal angle that the guiding-center structure
holds before it is updated (line 1250). -/
noncomputable def foToGc (order : Bool) (b : Data) (f : Fo) (g : GcM) : Option GcM :=
  let g := { g with id := f.id, index := f.index }
  if f.err ≠ 0 then some { g with err := f.err, running := false, endcond := 0 }
  else
    let g := { g with mass := f.mass, charge := f.charge, weight := f.weight, time := f.time, mileage := f.mileage,
                      endcond := f.endcond, running := f.running, walltile := f.walltile, cputime := f.cputime }
    match particle2gc order f.mass f.charge f.B f.pos f.p with
    | none => none
    | some q =>
      let e0 := gcErr 1234 1235 q
      if e0 ≠ 0 then some { g with err := e0, running := false, endcond := 0 }
      else
        match fieldAt b 0 q.pos with
        | none => none
        | some (jac, rho, e) =>
          if e ≠ 0 then some { g with err := e, running := false, endcond := 0 }
          else
            match axis b g.gc.pos.y with
            | none => none
            | some (a, e) =>
              if e ≠ 0 then some { g with err := e, running := false, endcond := 0 }
              else some { g with gc := q, rho := rho, theta := f.theta + turn a f.pos.x f.pos.z q.pos.x q.pos.z, B := jac, err := 0 }

/-- `particle_copy_fo`, src/particle.c:1302-1344: `err` and `index` are not copied. -/
def copyFo (p1 p2 : Fo) : Fo := { p1 with err := p2.err, index := p2.index }

/-- `particle_copy_gc`, src/particle.c:1354-1394: `err` and `index` are not copied. -/
def copyGc (p1 p2 : GcM) : GcM := { p1 with err := p2.err, index := p2.index }

/-- `particle_copy_ml`, src/particle.c:1404-1438: `err` and `index` are not copied. -/
def copyMl (p1 p2 : Ml) : Ml := { p1 with err := p2.err, index := p2.index }

/-! ### Input -/

/-- `particle`, src/particle.h:88-102. -/
structure InP where
  pos : V3 ℝ
  p : V3 ℝ
  mass : ℝ
  charge : ℝ
  anum : Int
  znum : Int
  weight : ℝ
  time : ℝ
  id : Int

/-- `particle_gc`, src/particle.h:110-124. -/
structure InGc where
  pos : V3 ℝ
  energy : ℝ
  pitch : ℝ
  zeta : ℝ
  mass : ℝ
  charge : ℝ
  anum : Int
  znum : Int
  weight : ℝ
  time : ℝ
  id : Int

/-- `particle_ml`, src/particle.h:132-140. -/
structure InMl where
  pos : V3 ℝ
  pitch : ℝ
  weight : ℝ
  time : ℝ
  id : Int

/-- `particle_input_p_to_state`, src/particle.c:1449-1529.  The error of looking up the axis is overwritten (line 1477). -/
noncomputable def inputP (order : Bool) (b : Data) (i : InP) (s : State) : Option (State × Nat) :=
  match axis b i.pos.y with
  | none => none
  | some (a, _) =>
    let s := { s with prt := i.pos, p := i.p, mass := i.mass, charge := i.charge, anum := i.anum, znum := i.znum,
                      weight := i.weight, time := i.time, theta := atan2 (i.pos.z - a.2) (i.pos.x - a.1), id := i.id,
                      mileage := 0, endcond := 0, walltile := 0, cputime := 0 }
    match evalBdB b i.pos.x i.pos.y i.pos.z with
    | none => none
    | some (jac, e) =>
      if e ≠ 0 then some (s, e)
      else
        match particle2gc order i.mass i.charge jac i.pos i.p with
        | none => none
        | some g =>
          let e0 := gcErr 1487 1490 g
          if e0 ≠ 0 then some (s, e0)
          else
            match fieldAt b 0 g.pos with
            | none => none
            | some (jac, rho, e) =>
              if e ≠ 0 then some (s, e)
              else some ({ s with gc := g, rho := rho, B := jac, err := 0 }, 0)

/-- `particle_input_gc_to_state`, src/particle.c:1540-1645.  The error of the field evaluation at the particle position (line 1623)
is not looked at. -/
noncomputable def inputGc (order : Bool) (c : ℝ) (b : Data) (i : InGc) (s : State) : Option (State × Nat) :=
  match fieldAt b 0 i.pos with
  | none => none
  | some (jac, rho, e) =>
    if e ≠ 0 then some (s, e)
    else
      let s := { s with rho := rho, B := jac }
      let gamma := 1 + i.energy / (i.mass * (c * c))
      let pnorm := Real.sqrt (gamma * gamma - 1) * i.mass * c
      let bnorm := Real.sqrt (jac.a.v * jac.a.v + jac.b.v * jac.b.v + jac.c.v * jac.c.v)
      let ppar := Physlib.gcPpar pnorm i.pitch
      let mu := Physlib.gcMu i.mass pnorm i.pitch bnorm
      if i.mass * (c * c) = 0 ∨ 2 * bnorm * i.mass = 0 ∨ gamma * gamma - 1 < 0 then none
      else if mu < 0 then some (s, Error.raise 4 1587 22)
      else
        match axis b i.pos.y with
        | none => none
        | some (a, e) =>
          if e ≠ 0 then some (s, e)
          else
            let gc : Gc := ⟨i.pos, ppar, mu, i.zeta⟩
            let s := { s with gc := gc, mass := i.mass, charge := i.charge, anum := i.anum, znum := i.znum, weight := i.weight,
                              time := i.time, theta := atan2 (i.pos.z - a.2) (i.pos.x - a.1), id := i.id, mileage := 0,
                              endcond := 0, walltile := 0, cputime := 0 }
            match gc2particle order i.mass i.charge jac gc with
            | none => none
            | some q =>
              match evalBdB b q.pos.x q.pos.y q.pos.z with
              | none => none
              | some (jac, _) =>
                match momentum i.mass i.charge ⟨jac.a.v, jac.b.v, jac.c.v⟩ q.pos.y q.ppar q.mu q.zeta with
                | none => none
                | some p =>
                  if q.pos.x ≤ 0 then some (s, Error.raise 4 1631 22)
                  else some ({ s with prt := q.pos, p := p, err := 0 }, 0)

/-- `particle_input_ml_to_state`, src/particle.c:1656-1719. -/
noncomputable def inputMl (b : Data) (i : InMl) (s : State) : Option (State × Nat) :=
  match fieldAt b 0 i.pos with
  | none => none
  | some (jac, rho, e) =>
    if e ≠ 0 then some (s, e)
    else
      match axis b i.pos.y with
      | none => none
      | some (a, e) =>
        if e ≠ 0 then some (s, e)
        else
          some ({ prt := i.pos, p := ⟨0, 0, 0⟩, mass := 0, charge := 0, anum := 0, znum := 0, weight := i.weight, time := i.time,
                  id := i.id, theta := atan2 (i.pos.z - a.2) (i.pos.x - a.1), endcond := 0, walltile := 0, cputime := 0,
                  mileage := 0, gc := ⟨i.pos, if i.pitch ≥ 0 then 1 else 0, 0, 0⟩, rho := rho, B := jac, err := 0 }, 0)

/-- `input_particle`, src/particle.h; a state, or any other type, is `other`. -/
inductive Input
  | p (i : InP)
  | gc (i : InGc)
  | ml (i : InMl)
  | other

/-- If the marker was rejected, src/particle.c:625-630. -/
def reject (id : Int) (r : State × Nat) : State := if r.2 ≠ 0 then { r.1 with id := id, endcond := 0, err := r.2 } else r.1

/-- `particle_input_to_state`, src/particle.c:550-631. -/
noncomputable def inputToState (order : Bool) (c : ℝ) (b : Data) (i : Input) (s : State) : Option State :=
  match i with
  | .p i =>
    (if i.pos.x ≤ 0 then some (s, Error.raise 4 558 22)
     else if i.mass ≤ 0 then some (s, Error.raise 4 561 22)
     else if i.weight ≤ 0 then some (s, Error.raise 4 564 22)
     else if i.id ≤ 0 then some (s, Error.raise 4 567 22)
     else inputP order b i s).map (reject i.id)
  | .gc i =>
    (if i.pos.x ≤ 0 then some (s, Error.raise 4 580 22)
     else if |i.pitch| > 1 then some (s, Error.raise 4 583 22)
     else if i.energy ≤ 0 then some (s, Error.raise 4 586 22)
     else if i.mass ≤ 0 then some (s, Error.raise 4 589 22)
     else if i.weight ≤ 0 then some (s, Error.raise 4 592 22)
     else if i.id ≤ 0 then some (s, Error.raise 4 595 22)
     else inputGc order c b i s).map (reject i.id)
  | .ml i =>
    (if i.pos.x ≤ 0 then some (s, Error.raise 4 608 22)
     else if i.weight ≤ 0 then some (s, Error.raise 4 611 22)
     else if i.id ≤ 0 then some (s, Error.raise 4 614 22)
     else inputMl b i s).map (reject i.id)
  | .other => some s

end Ascot.Particle
