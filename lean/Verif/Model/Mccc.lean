import Verif.Model.GcStep
import Verif.Model.Vpa
import Verif.Model.Wiener
import Verif.Model.McccCoefs
import Mathlib.Analysis.SpecialFunctions.Pow.Real

/-!
# The Coulomb collision operator (`src/simulate/mccc/mccc_gc_euler.c`, `mccc_gc_milstein.c`, `mccc_fo_euler.c`)

One lane of the SIMD loop is modelled; lanes do not interact.  Evaluations of the plasma and of the magnetic field are
parameters.  The outcome `none` means that a value used is not a finite number or was not initialised.  After a failed
evaluation of the plasma the C functions go on computing with what the evaluation left behind, but store nothing of it in
the marker: in the model the marker then ends at once.
-/
namespace Ascot.Mccc
open Ascot.Coord Ascot.Physlib Ascot.GcStep

/-- `mccc_data`, src/simulate/mccc/mccc.h. -/
structure Options where
  tab : Bool
  energy : Bool
  pitch : Bool
  gcdiff : Bool

/-- `mccc_init`, src/simulate/mccc/mccc.c. -/
def Options.init (energy pitch gcdiff : Bool) : Options := ⟨false, energy, pitch, gcdiff⟩

/-- Constants: speed of light, `CONST_E0`, `CONST_HBAR`, `DBL_EPSILON`. -/
structure MConsts where
  c : ℝ
  e0 : ℝ
  hbar : ℝ
  eps : ℝ

/-- Plasma evaluations at (rho, R, phi, z, time): parallel flow velocity, and the species with their densities and
temperatures.  Masses and charges do not depend on the position in the code; they are part of the result here. -/
structure Plasma where
  flow : ℝ → ℝ → ℝ → ℝ → ℝ → Except Nat ℝ
  species : ℝ → ℝ → ℝ → ℝ → ℝ → Except Nat (List Species)

/-- Quantities of the guiding center before the collisions. -/
structure In where
  Bnorm : ℝ
  Bxyz : V3 ℝ
  X : V3 ℝ
  p : ℝ
  xi : ℝ
  v : ℝ

/-- Magnetic field of the marker. -/
def fieldOf (s : Gc) : V3 ℝ := ⟨s.jac.a.v, s.jac.b.v, s.jac.c.v⟩

/-- Parallel momentum relative to the flow, src/simulate/mccc/mccc_gc_euler.c:60-61. -/
noncomputable def pparFlow (C : MConsts) (vflow : ℝ) (s : Gc) : ℝ :=
  s.y 3 - gammaPpar C.c s.mass (s.y 4) (s.y 3) (V3.norm Real.sqrt (fieldOf s)) * vflow * s.mass

/-- src/simulate/mccc/mccc_gc_euler.c:43-64. -/
noncomputable def inOf (C : MConsts) (vflow : ℝ) (s : Gc) : In :=
  let B := V3.norm Real.sqrt (fieldOf s)
  let pf := pparFlow C vflow s
  let p := gcP C.c s.mass (s.y 4) pf B
  { Bnorm := B
    Bxyz := vecRpz2xyz (fieldOf s) (s.y 1)
    X := ⟨s.y 0 * Real.cos (s.y 1), s.y 0 * Real.sin (s.y 1), s.y 2⟩
    p := p
    xi := gcXi C.c s.mass (s.y 4) pf B
    v := vnormPnorm C.c s.mass p }

/-- The quantities before the collisions are finite numbers: masses are positive, the fields and the momentum do not vanish
and no square root has a negative argument. -/
def InOk (C : MConsts) (vflow : ℝ) (s : Gc) : Prop :=
  0 < s.mass ∧ (inOf C vflow s).Bnorm ≠ 0 ∧ (inOf C vflow s).p ≠ 0 ∧
  0 ≤ 1 + 2 * s.y 4 * (inOf C vflow s).Bnorm / (s.mass * (C.c * C.c)) + s.y 3 * s.y 3 / (s.mass * s.mass * (C.c * C.c)) ∧
  0 ≤ 2 * s.y 4 * (inOf C vflow s).Bnorm / (s.mass * (C.c * C.c)) +
    pparFlow C vflow s * pparFlow C vflow s / (s.mass * s.mass * (C.c * C.c))

/-- Collision coefficients, summed over species. -/
@[ext] structure Coef where
  K : ℝ
  dQ : ℝ
  Dpara : ℝ
  dDpara : ℝ
  nu : ℝ
  DX : ℝ

/-- Contribution of one species, src/simulate/mccc/mccc_gc_milstein.c:91-115; mccc_gc_euler.c:85-106 is the same without
`dQ` and `dDpara`. -/
noncomputable def coefOf (C : MConsts) (ma qa va xi gyro : ℝ) (sp : List Species) (b : Species) (mu : ℝ × ℝ × ℝ) : Coef :=
  let vb := thermal b
  let cl := clog C.e0 C.hbar ma qa va sp b
  let Q := coefQ C.e0 ma qa b.m b.q b.n vb cl mu.1
  let D := coefDpara C.e0 ma qa va b.q b.n vb cl mu.1
  let Dp := coefDperp C.e0 ma qa va b.q b.n vb cl mu.2.1
  let dD := coefdDpara C.e0 ma qa va b.q b.n vb cl mu.1 mu.2.2
  { K := coefK va D dD Q
    dQ := coefdQ C.e0 ma qa b.m b.q b.n vb cl mu.2.2
    Dpara := D
    dDpara := dD
    nu := coefNu va Dp
    DX := coefDX xi D Dp gyro }

/-- `+=` on all sums. -/
noncomputable def Coef.add (a b : Coef) : Coef :=
  ⟨a.K + b.K, a.dQ + b.dQ, a.Dpara + b.Dpara, a.dDpara + b.dDpara, a.nu + b.nu, a.DX + b.DX⟩

/-- The loop over species, src/simulate/mccc/mccc_gc_milstein.c:89-116. -/
noncomputable def coefSum (C : MConsts) (tab : Bool) (ma qa va xi gyro : ℝ) (sp : List Species) : List Species → Coef → Option Coef
  | [], a => some a
  | b :: bs, a =>
    match mufun tab (va / thermal b) with
    | none => none
    | some mu => coefSum C tab ma qa va xi gyro sp bs (a.add (coefOf C ma qa va xi gyro sp b mu))

/-- The gyrofrequency and the sums, src/simulate/mccc/mccc_gc_milstein.c:80-116. -/
noncomputable def coefs (C : MConsts) (o : Options) (s : Gc) (i : In) (sp : List Species) : Option Coef :=
  coefSum C o.tab s.mass s.charge i.v i.xi (gyrofreqPnorm C.c s.mass s.charge i.p i.Bnorm) sp sp ⟨0, 0, 0, 0, 0, 0⟩

/-- The plasma quantities are finite numbers: there is a species, temperatures and masses are positive, the sum in the Debye
length is positive, no Coulomb logarithm is infinite, and the marker has a charge. -/
def PlasmaOk (C : MConsts) (ma qa va : ℝ) (sp : List Species) : Prop :=
  sp ≠ [] ∧ (∀ b ∈ sp, 0 < b.T ∧ 0 < b.m) ∧ 0 < sp.foldl (fun sum b => sum + b.n * b.q * b.q / b.T) 0 ∧ 0 < C.e0 ∧
  (∀ b ∈ sp, 0 < max (bcl C.e0 ma qa va b) (bqm C.hbar ma va b)) ∧ qa ≠ 0

/-- The coefficients whose square roots are taken are not negative, src/simulate/mccc/mccc_gc_euler.c:121-129. -/
def CoefOk (xi : ℝ) (k : Coef) : Prop := 0 ≤ 2 * k.DX ∧ 0 ≤ 2 * k.Dpara ∧ 0 ≤ (1 - xi * xi) * k.nu

/-- Unit vector of the magnetic field. -/
noncomputable def bhat (i : In) : V3 ℝ := V3.unit Real.sqrt i.Bxyz

/-- `dW[0..2]`. -/
def dW3 (dW : Fin 5 → ℝ) : V3 ℝ := ⟨dW 0, dW 1, dW 2⟩

/-- Position after spatial diffusion, src/simulate/mccc/mccc_gc_euler.c:118-127. -/
noncomputable def diffuse (i : In) (DX : ℝ) (dW : Fin 5 → ℝ) : V3 ℝ :=
  let b := bhat i
  let k1 := Real.sqrt (2 * DX)
  let k2 := V3.dot b (dW3 dW)
  ⟨i.X.x + k1 * (dW 0 - k2 * b.x), i.X.y + k1 * (dW 1 - k2 * b.y), i.X.z + k1 * (dW 2 - k2 * b.z)⟩

/-- Speed and pitch after an Euler-Maruyama step, src/simulate/mccc/mccc_gc_euler.c:128-129. -/
noncomputable def eulerV (i : In) (k : Coef) (h : ℝ) (dW : Fin 5 → ℝ) : ℝ := i.v + k.K * h + Real.sqrt (2 * k.Dpara) * dW 3

/-- See `eulerV`. -/
noncomputable def eulerXi (i : In) (k : Coef) (h : ℝ) (dW : Fin 5 → ℝ) : ℝ :=
  i.xi - i.xi * k.nu * h + Real.sqrt ((1 - i.xi * i.xi) * k.nu) * dW 4

/-- Speed and pitch after a Milstein step, src/simulate/mccc/mccc_gc_milstein.c:145-148; `h` is `hin[i]*acc[i]`. -/
noncomputable def milsteinV (i : In) (k : Coef) (h : ℝ) (dW : Fin 5 → ℝ) : ℝ :=
  i.v + k.K * h + Real.sqrt (2 * k.Dpara) * dW 3 + 0.5 * k.dDpara * (dW 3 * dW 3 - h)

/-- See `milsteinV`. -/
noncomputable def milsteinXi (i : In) (k : Coef) (h : ℝ) (dW : Fin 5 → ℝ) : ℝ :=
  i.xi - i.xi * k.nu * h + Real.sqrt ((1 - i.xi * i.xi) * k.nu) * dW 4 - 0.5 * i.xi * k.nu * (dW 4 * dW 4 - h)

/-- `cutoff`, src/simulate/mccc/mccc_gc_euler.c:132 with `MCCC_CUTOFF`, src/simulate/mccc/mccc.h; the temperature is that of the
first species. -/
noncomputable def cutoff (m : ℝ) (sp : List Species) : Option ℝ :=
  match sp with
  | [] => none
  | b :: _ => some (0.1 * Real.sqrt (b.T / m))

/-- src/simulate/mccc/mccc_gc_euler.c:133-135. -/
noncomputable def reflectV (cut v : ℝ) : ℝ := if v < cut then 2 * cut - v else v

/-- src/simulate/mccc/mccc_gc_euler.c:137-140. -/
noncomputable def reflectXi (xi : ℝ) : ℝ :=
  if |xi| > 1 then ((if xi > 0 then 1 else 0) - (if xi < 0 then 1 else 0)) * (2 - |xi|) else xi

/-- The coordinates after the collisions. -/
structure Out where
  v : ℝ
  xi : ℝ
  X : V3 ℝ

/-- Boundary conditions and switches, src/simulate/mccc/mccc_gc_euler.c:131-154. -/
noncomputable def outOf (o : Options) (i : In) (cut v xi : ℝ) (X : V3 ℝ) : Out :=
  { v := if o.energy then reflectV cut v else i.v
    xi := if o.pitch then reflectXi xi else i.xi
    X := if o.gcdiff then X else i.X }

/-- The azimuth of the displacement, src/simulate/mccc/mccc_gc_euler.c:223-226. -/
noncomputable def turn (X Y : V3 ℝ) : ℝ := atan2 (X.x * Y.y - X.y * Y.x) (X.x * Y.x + X.y * Y.y)

open Classical in
/-- Update of the marker, src/simulate/mccc/mccc_gc_euler.c:155-227.  The second component is `errflag`.  `none`: the
new speed is not below the speed of light or the new magnetic field vanishes. -/
noncomputable def store (C : MConsts) (f : Fields) (vflow h : ℝ) (s : Gc) (i : In) (u : Out) : Option (Gc × Nat) :=
  if C.c ≤ |u.v| then none
  else
    let pout := pnormVnorm C.c s.mass u.v
    let x := xyz2rpz u.X
    match f.BdB x.x x.y x.z (s.time + h) with
    | .error e => some (s, e)
    | .ok j =>
      match f.psi x.x x.y x.z (s.time + h) with
      | .error e => some (s, e)
      | .ok psi =>
        match f.rho psi with
        | .error e => some (s, e)
        | .ok rho =>
          let B := V3.norm Real.sqrt ⟨j.a.v, j.b.v, j.c.v⟩
          if B = 0 then none
          else
            let ((ar, az), e) := f.axis (s.y 1)
            some ({ s with
              jac := j
              rho := rho
              theta := s.theta + atan2 ((s.y 0 - ar) * (x.z - az) - (s.y 2 - az) * (x.x - ar))
                ((s.y 0 - ar) * (x.x - ar) + (s.y 2 - az) * (x.z - az))
              y := fun d =>
                match d with
                | 0 => x.x
                | 1 => s.y 1 + turn i.X u.X
                | 2 => x.z
                | 3 => gcPpar pout u.xi + gammaPnorm C.c s.mass pout * s.mass * vflow
                | 4 => gcMu s.mass pout u.xi B
                | 5 => s.y 5 }, e)

/-- Outcome of a lane. -/
noncomputable def settleO : Option (Gc × Nat) → Option Gc
  | none => none
  | some (s, e) => some (settle s e)

open Classical in
/-- `mccc_gc_euler` on one marker, src/simulate/mccc/mccc_gc_euler.c:29-236; `rnd` are the five numbers of this marker. -/
noncomputable def gcEuler (C : MConsts) (o : Options) (pl : Plasma) (f : Fields) (h : ℝ) (rnd : Fin 5 → ℝ) (s : Gc) : Option Gc :=
  if s.running then
    match pl.flow s.rho (s.y 0) (s.y 1) (s.y 2) s.time with
    | .error e => some (settle s e)
    | .ok vflow =>
      match pl.species s.rho (s.y 0) (s.y 1) (s.y 2) s.time with
      | .error e => some (settle s e)
      | .ok sp =>
        let i := inOf C vflow s
        if ¬ (InOk C vflow s ∧ PlasmaOk C s.mass s.charge i.v sp ∧ 0 ≤ h) then none
        else
          match coefs C o s i sp, cutoff s.mass sp with
          | some k, some cut =>
            if ¬ CoefOk i.xi k then none
            else
              let dW := fun d => Real.sqrt h * rnd d
              settleO (store C f vflow h s i (outOf o i cut (eulerV i k h dW) (eulerXi i k h dW) (diffuse i k.DX dW)))
          | _, _ => none
  else some s

/-- Error estimates of the Milstein step, src/simulate/mccc/mccc_gc_milstein.c:165-168; `h` is `hin[i]*acc[i]`. -/
noncomputable def refSpeed (C : MConsts) (i : In) (k : Coef) (h : ℝ) : ℝ :=
  i.v + |k.K| * h + Real.sqrt (2 * k.Dpara * h) + C.eps

/-- Drift error, src/simulate/mccc/mccc_gc_milstein.c:167-177. -/
noncomputable def kappaK (C : MConsts) (i : In) (k : Coef) (tol h : ℝ) : ℝ :=
  let verr := |k.K * k.dQ| / (2 * tol * refSpeed C i k h)
  let xierr := |i.xi * k.nu * k.nu| / (2 * tol)
  if verr > xierr then verr * h * h else xierr * h * h

/-- Error of the velocity diffusion, src/simulate/mccc/mccc_gc_milstein.c:180-181. -/
noncomputable def kappaD0 (C : MConsts) (i : In) (k : Coef) (tol h : ℝ) (dW : Fin 5 → ℝ) : ℝ :=
  |dW 3 * dW 3 * dW 3 * k.dDpara * k.dDpara / Real.sqrt k.Dpara| / (6 * tol * refSpeed C i k h)

/-- Error of the pitch diffusion, src/simulate/mccc/mccc_gc_milstein.c:182-183. -/
noncomputable def kappaD1 (i : In) (k : Coef) (tol h : ℝ) (dW : Fin 5 → ℝ) : ℝ :=
  Real.sqrt (1 - i.xi * i.xi) * k.nu * Real.sqrt k.nu * |dW 4 + Real.sqrt (h / 3)| * h / (2 * tol)

open Classical in
/-- Suggestion for the next step, src/simulate/mccc/mccc_gc_milstein.c:273-293.  If the largest estimate is zero the value before
line 286 is infinite, and the step is limited to `1.5*hin`. -/
noncomputable def suggest (hin kk kd0 kd1 : ℝ) : ℝ :=
  let raw : Option ℝ :=
    if kk ≥ kd0 ∧ kk ≥ kd1 then (if kk = 0 then none else some (0.8 * hin / Real.sqrt kk))
    else if kd0 ≥ kk ∧ kd0 ≥ kd1 then (if kd0 = 0 then none else some (0.9 * hin * kd0 ^ (-2 / 3 : ℝ)))
    else (if kd1 = 0 then none else some (0.9 * hin * kd1 ^ (-2 / 3 : ℝ)))
  match raw with
  | none => 1.5 * hin
  | some r => if kk > 1 ∨ kd0 > 1 ∨ kd1 > 1 then -r else if r > 1.5 * hin then 1.5 * hin else r

/-- What a Milstein step leaves behind: marker, Wiener processes, suggestion for the next step and pitch collision
frequency. -/
structure MilOut where
  s : Gc
  w : Wiener.Arr ℝ
  hout : ℝ
  collfreq : ℝ

open Classical in
/-- `mccc_gc_milstein` on one marker, src/simulate/mccc/mccc_gc_milstein.c:34-304.  `n` is `MCCC_NSLOTS`.  After an error the
suggestion and the collision frequency are computed from leftovers; the model says nothing about them (`junk`). -/
noncomputable def gcMilstein (C : MConsts) (o : Options) (n : Nat) (pl : Plasma) (f : Fields) (hin acc tol : ℝ)
    (w : Wiener.Arr ℝ) (rnd : Fin 5 → ℝ) (junk : ℝ × ℝ) (s : Gc) : Option MilOut :=
  if s.running then
    match pl.flow s.rho (s.y 0) (s.y 1) (s.y 2) s.time with
    | .error e => some ⟨settle s e, w, junk.1, junk.2⟩
    | .ok vflow =>
      match pl.species s.rho (s.y 0) (s.y 1) (s.y 2) s.time with
      | .error e => some ⟨settle s e, w, junk.1, junk.2⟩
      | .ok sp =>
        let i := inOf C vflow s
        let h := hin * acc
        if ¬ (InOk C vflow s ∧ PlasmaOk C s.mass s.charge i.v sp ∧ 0 ≤ h ∧ 0 < tol ∧ 0 ≤ C.eps) then none
        else
          match coefs C o s i sp, cutoff s.mass sp with
          | some k, some cut =>
            if ¬ (CoefOk i.xi k ∧ 0 < k.Dpara ∧ 0 ≤ k.nu ∧ i.xi * i.xi ≤ 1) then none
            else
              match Wiener.generate Real.sqrt n w (w.time 0 + h) rnd with
              | none => none
              | some (w', none) => some ⟨settle s (Error.raise 6 115 1), w', junk.1, junk.2⟩
              | some (w', some t) =>
                let dW := fun d => w'.val t d - w'.val 0 d
                match settleO (store C f vflow h s i (outOf o i cut (milsteinV i k h dW) (milsteinXi i k h dW) (diffuse i k.DX dW))) with
                | none => none
                | some s' =>
                  some ⟨s', w', suggest hin (kappaK C i k tol h) (kappaD0 C i k tol h dW) (kappaD1 i k tol h dW), k.nu⟩
          | _, _ => none
  else some ⟨s, w, junk.1, junk.2⟩

/-! ### Full orbits -/

/-- Velocity relative to the flow, in Cartesian coordinates, src/simulate/mccc/mccc_fo_euler.c:46-68. -/
noncomputable def foVin (C : MConsts) (vflow : ℝ) (s : Vpa.Fo) : V3 ℝ :=
  let b := V3.norm Real.sqrt s.B
  let g := gammaPnorm C.c s.mass (V3.norm Real.sqrt s.p)
  vecRpz2xyz ⟨s.p.x / (g * s.mass) - vflow * s.B.x / b, s.p.y / (g * s.mass) - vflow * s.B.y / b,
    s.p.z / (g * s.mass) - vflow * s.B.z / b⟩ s.phi

/-- Sums over species. -/
@[ext] structure FoCoef where
  F : ℝ
  Dpara : ℝ
  Dperp : ℝ

/-- Contribution of one species, src/simulate/mccc/mccc_fo_euler.c:89-99. -/
noncomputable def foCoefOf (C : MConsts) (ma qa va : ℝ) (sp : List Species) (b : Species) (mu : ℝ × ℝ × ℝ) : FoCoef :=
  let vb := thermal b
  let cl := clog C.e0 C.hbar ma qa va sp b
  { F := coefF C.e0 ma qa b.m b.q b.n vb cl mu.1
    Dpara := coefDpara C.e0 ma qa va b.q b.n vb cl mu.1
    Dperp := coefDperp C.e0 ma qa va b.q b.n vb cl mu.2.1 }

/-- The loop over species, src/simulate/mccc/mccc_fo_euler.c:86-100. -/
noncomputable def foCoefSum (C : MConsts) (tab : Bool) (ma qa va : ℝ) (sp : List Species) : List Species → FoCoef → Option FoCoef
  | [], a => some a
  | b :: bs, a =>
    match mufun tab (va / thermal b) with
    | none => none
    | some mu =>
      let k := foCoefOf C ma qa va sp b mu
      foCoefSum C tab ma qa va sp bs ⟨a.F + k.F, a.Dpara + k.Dpara, a.Dperp + k.Dperp⟩

/-- The new velocity, src/simulate/mccc/mccc_fo_euler.c:109-123. -/
noncomputable def foKick (v : V3 ℝ) (k : FoCoef) (h : ℝ) (dW : V3 ℝ) : V3 ℝ :=
  let u := V3.unit Real.sqrt v
  let t1 := V3.dot u dW
  let k1 := k.F * h
  let k2 := Real.sqrt (2 * k.Dpara) * t1
  let k3 := Real.sqrt (2 * k.Dperp)
  ⟨v.x + k1 * u.x + k2 * u.x + k3 * (dW.x - t1 * u.x), v.y + k1 * u.y + k2 * u.y + k3 * (dW.y - t1 * u.y),
    v.z + k1 * u.z + k2 * u.z + k3 * (dW.z - t1 * u.z)⟩

/-- The velocity in the laboratory frame, src/simulate/mccc/mccc_fo_euler.c:126-130. -/
noncomputable def foLab (vflow : ℝ) (s : Vpa.Fo) (v : V3 ℝ) : V3 ℝ :=
  let b := V3.norm Real.sqrt s.B
  let w := vecXyz2rpz v s.phi
  ⟨w.x + vflow * s.B.x / b, w.y + vflow * s.B.y / b, w.z + vflow * s.B.z / b⟩

open Classical in
/-- `mccc_fo_euler` on one marker, src/simulate/mccc/mccc_fo_euler.c:27-146.  The switches are not used. -/
noncomputable def foEuler (C : MConsts) (o : Options) (pl : Plasma) (h : ℝ) (rnd : V3 ℝ) (s : Vpa.Fo) : Option Vpa.Fo :=
  if s.running then
    match pl.flow s.rho s.r s.phi s.z s.time with
    | .error e => some (Vpa.settle s e)
    | .ok vflow =>
      match pl.species s.rho s.r s.phi s.z s.time with
      | .error e => some (Vpa.settle s e)
      | .ok sp =>
        let vin := foVin C vflow s
        let va := V3.norm Real.sqrt vin
        if ¬ (0 < s.mass ∧ V3.norm Real.sqrt s.B ≠ 0 ∧ va ≠ 0 ∧ PlasmaOk C s.mass s.charge va sp ∧ 0 ≤ h) then none
        else
          match foCoefSum C o.tab s.mass s.charge va sp sp ⟨0, 0, 0⟩ with
          | none => none
          | some k =>
            if ¬ (0 ≤ 2 * k.Dpara ∧ 0 ≤ 2 * k.Dperp) then none
            else
              let sdt := Real.sqrt h
              let v := foLab vflow s (foKick vin k h ⟨sdt * rnd.x, sdt * rnd.y, sdt * rnd.z⟩)
              let n := V3.norm Real.sqrt v
              if C.c ≤ n then none
              else
                let g := gammaVnorm C.c n
                some { s with p := ⟨v.x * g * s.mass, v.y * g * s.mass, v.z * g * s.mass⟩ }
  else some s

end Ascot.Mccc
