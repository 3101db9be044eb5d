import Verif.Model.Dist

/-!
# Orbit diagnostics (`src/diag/diag_orb.c`)

`K` stands for `real`.  The arrays are functions of the index, all initially zero (`calloc`,
src/diag/diag_orb.c:26-112); one function holds the records of all arrays together.  Lanes are
handled one after another.
-/
namespace Ascot.Orbit
open Ascot.Dist (fmod)

variable {K : Type} [Field K] [LinearOrder K] [FloorRing K]

/-- Simulation mode of an update; the value stored in `simmode` is
src/diag/diag_orb.h:23-25. -/
inductive Mode
  | fo | gc | ml

def Mode.code : Mode → K
  | .fo => 1
  | .gc => 2
  | .ml => 3

/-- One element of each array of `diag_orb_data`, src/diag/diag_orb.h:42-64. -/
structure Pt (K : Type) where
  id : K
  mileage : K
  r : K
  phi : K
  z : K
  p_r : K
  p_phi : K
  p_z : K
  ppar : K
  mu : K
  zeta : K
  weight : K
  charge : K
  rho : K
  theta : K
  B_r : K
  B_phi : K
  B_z : K
  simmode : K
  pncrid : K
  pncrdi : K

/-- Fields of a marker that are recorded.  Guiding centers have no `p_r`, `p_phi`, `p_z`; full-orbit
markers no `ppar`, `mu`, `zeta`; field lines none of these, nor a weight or a charge. -/
structure Mrk (K : Type) where
  id : Nat
  index : Nat
  endcond : Nat
  mileage : K
  r : K
  phi : K
  z : K
  p_r : K
  p_phi : K
  p_z : K
  ppar : K
  mu : K
  zeta : K
  weight : K
  charge : K
  rho : K
  theta : K
  B_r : K
  B_phi : K
  B_z : K

/-- The assignments of a record in interval mode, src/diag/diag_orb.c:228-243, 260-275 (FO),
432-447, 465-480 (GC), 640-650, 666-676 (ML). -/
def setPt (m : Mode) (p : Mrk K) (o : Pt K) : Pt K :=
  match m with
  | .fo => { o with id := (p.id : K), mileage := p.mileage, r := p.r, phi := p.phi, z := p.z, p_r := p.p_r, p_phi := p.p_phi, p_z := p.p_z, weight := p.weight, charge := p.charge, rho := p.rho, theta := p.theta, B_r := p.B_r, B_phi := p.B_phi, B_z := p.B_z, simmode := Mode.fo.code }
  | .gc => { o with id := (p.id : K), mileage := p.mileage, r := p.r, phi := p.phi, z := p.z, ppar := p.ppar, mu := p.mu, zeta := p.zeta, weight := p.weight, charge := p.charge, rho := p.rho, theta := p.theta, B_r := p.B_r, B_phi := p.B_phi, B_z := p.B_z, simmode := Mode.gc.code }
  | .ml => { o with id := (p.id : K), mileage := p.mileage, r := p.r, phi := p.phi, z := p.z, rho := p.rho, theta := p.theta, B_r := p.B_r, B_phi := p.B_phi, B_z := p.B_z, simmode := Mode.ml.code }

/-- The assignments of a record in Poincare mode except `pncrid`, `pncrdi`, `simmode`,
src/diag/diag_orb.c:306-320 (FO), 510-524 (GC), 706-715 (ML). -/
def interp (m : Mode) (k d : K) (f i : Mrk K) (o : Pt K) : Pt K :=
  match m with
  | .fo => { o with id := (f.id : K), mileage := k * f.mileage + d * i.mileage, r := k * f.r + d * i.r, phi := k * f.phi + d * i.phi, z := k * f.z + d * i.z, p_r := k * f.p_r + d * i.p_r, p_phi := k * f.p_phi + d * i.p_phi, p_z := k * f.p_z + d * i.p_z, weight := k * f.weight + d * i.weight, charge := i.charge, rho := k * f.rho + d * i.rho, theta := k * f.theta + d * i.theta, B_r := k * f.B_r + d * i.B_r, B_phi := k * f.B_phi + d * i.B_phi, B_z := k * f.B_z + d * i.B_z }
  | .gc => { o with id := (f.id : K), mileage := k * f.mileage + d * i.mileage, r := k * f.r + d * i.r, phi := k * f.phi + d * i.phi, z := k * f.z + d * i.z, ppar := k * f.ppar + d * i.ppar, mu := k * f.mu + d * i.mu, zeta := k * f.zeta + d * i.zeta, weight := k * f.weight + d * i.weight, charge := i.charge, rho := k * f.rho + d * i.rho, theta := k * f.theta + d * i.theta, B_r := k * f.B_r + d * i.B_r, B_phi := k * f.B_phi + d * i.B_phi, B_z := k * f.B_z + d * i.B_z }
  | .ml => { o with id := (f.id : K), mileage := k * f.mileage + d * i.mileage, r := k * f.r + d * i.r, phi := k * f.phi + d * i.phi, z := k * f.z + d * i.z, rho := k * f.rho + d * i.rho, theta := k * f.theta + d * i.theta, B_r := k * f.B_r + d * i.B_r, B_phi := k * f.B_phi + d * i.B_phi, B_z := k * f.B_z + d * i.B_z }

/-- `diag_orb_data`: `Npnt`, `mrk_pnt`, `mrk_recorded` and the arrays. -/
structure Orb (K : Type) where
  npnt : Nat
  pnt : Nat → Nat
  recorded : Nat → K
  buf : Nat → Pt K

/-- `diag_orb_init`, src/diag/diag_orb.c:26-112. -/
def init (npnt : Nat) : Orb K where
  npnt := npnt
  pnt := fun _ => 0
  recorded := fun _ => 0
  buf := fun _ => { id := 0, mileage := 0, r := 0, phi := 0, z := 0, p_r := 0, p_phi := 0, p_z := 0, ppar := 0, mu := 0, zeta := 0, weight := 0, charge := 0, rho := 0, theta := 0, B_r := 0, B_phi := 0, B_z := 0, simmode := 0, pncrid := 0, pncrdi := 0 }

/-- Storing one point, src/diag/diag_orb.c:228-250 and the same code in all other records:
`idx = imrk * Npnt + ipoint`, the assignments `g`, the next point, `mrk_recorded`.  The local
variable `ipoint` always equals `mrk_pnt[imrk]`. -/
def record (d : Orb K) (imrk : Nat) (g : Pt K → Pt K) (mileage : K) : Orb K :=
  { d with
    buf := fun j => if j = imrk * d.npnt + d.pnt imrk then g (d.buf j) else d.buf j
    pnt := fun j => if j = imrk then (if d.pnt imrk + 1 = d.npnt then 0 else d.pnt imrk + 1) else d.pnt j
    recorded := fun j => if j = imrk then mileage else d.recorded j }

/-- One lane in interval mode, src/diag/diag_orb.c:217-285 (FO), 422-490 (GC), 630-686 (ML). -/
def interval (wI : K) (m : Mode) (f i : Mrk K) (d : Orb K) : Orb K :=
  if f.id > 0 then
    let d := if (d.buf (f.index * d.npnt)).id = 0 then record d f.index (setPt m i) i.mileage else d
    let dt := d.recorded f.index + wI - f.mileage
    if dt ≤ 0 ∨ f.endcond > 0 then record d f.index (setPt m f) f.mileage else d
  else d

/-- `diag_orb_check_plane_crossing`, src/diag/diag_orb.c:808-828, with the project's `fmod`. -/
def planeCrossing (pi fang iang ang0 : K) : K :=
  if ⌊(fang - ang0) / (2 * pi)⌋ ≠ ⌊(iang - ang0) / (2 * pi)⌋ then
    let a := fmod iang (2 * pi)
    let a := if a < 0 then 2 * pi + a else a
    let a := |ang0 - a|
    let a := if a > pi then 2 * pi - a else a
    |a / (fang - iang)|
  else 0

/-- `diag_orb_check_radial_crossing`, src/diag/diag_orb.c:842-849. -/
def radialCrossing (frho irho rho0 : K) : K :=
  if (frho ≤ rho0 ∧ irho > rho0) ∨ (irho ≤ rho0 ∧ frho > rho0) then |(irho - rho0) / (frho - irho)|
  else 0

/-- `1 - 2 * (f < i)`, src/diag/diag_orb.c:322. -/
def direction (f i : K) : K := if f < i then 1 - 2 * 1 else 1 - 2 * 0

/-- Surfaces: `toroidalangles`, `poloidalangles`, `radialdistances`. -/
structure Planes (K : Type) where
  tor : List K
  pol : List K
  rad : List K

/-- The record for a toroidal plane, src/diag/diag_orb.c:300-332 (FO), 504-536 (GC), 700-727 (ML);
`none` if there is no crossing. -/
def torRecord (pi : K) (m : Mode) (f i : Mrk K) (x : K × Nat) : Option (Pt K → Pt K) :=
  let k := planeCrossing pi f.phi i.phi x.1
  if k ≠ 0 then
    some (fun o => { interp m k (1 - k) f i o with
      pncrid := (x.2 : K), pncrdi := direction f.phi i.phi, simmode := m.code })
  else none

/-- The record for a poloidal plane, src/diag/diag_orb.c:335-368 (FO), 539-572 (GC),
730-758 (ML). -/
def polRecord (pi : K) (m : Mode) (ntor : Nat) (f i : Mrk K) (x : K × Nat) : Option (Pt K → Pt K) :=
  let k := planeCrossing pi f.theta i.theta x.1
  if k ≠ 0 then
    some (fun o => { interp m k (1 - k) f i o with
      pncrid := ((x.2 + ntor : Nat) : K), pncrdi := direction f.theta i.theta, simmode := m.code })
  else none

/-- The record for a radial surface, src/diag/diag_orb.c:371-402 (FO), 576-609 (GC), 761-789 (ML).
For full-orbit markers the two factors are the other way round; `simmode` is not stored, and
`pncrdi` not for field lines. -/
def radRecord (m : Mode) (nother : Nat) (f i : Mrk K) (x : K × Nat) : Option (Pt K → Pt K) :=
  let k := radialCrossing f.rho i.rho x.1
  if k ≠ 0 then
    match m with
    | .fo => some (fun o => { interp .fo (1 - k) k f i o with
        pncrid := ((x.2 + nother : Nat) : K), pncrdi := direction f.rho i.rho })
    | .gc => some (fun o => { interp .gc k (1 - k) f i o with
        pncrid := ((x.2 + nother : Nat) : K), pncrdi := direction f.rho i.rho })
    | .ml => some (fun o => { interp .ml k (1 - k) f i o with pncrid := ((x.2 + nother : Nat) : K) })
  else none

/-- All records of one lane in one step, in order. -/
def poincareRecords (pi : K) (m : Mode) (s : Planes K) (f i : Mrk K) : List (Pt K → Pt K) :=
  s.tor.zipIdx.filterMap (torRecord pi m f i) ++ s.pol.zipIdx.filterMap (polRecord pi m s.tor.length f i) ++
    s.rad.zipIdx.filterMap (radRecord m (s.tor.length + s.pol.length) f i)

/-- One lane in Poincare mode, src/diag/diag_orb.c:290-405 (FO), 494-612 (GC), 690-792 (ML). -/
def poincare (pi : K) (m : Mode) (s : Planes K) (f i : Mrk K) (d : Orb K) : Orb K :=
  if f.id > 0 ∧ f.mileage ≠ i.mileage then
    (poincareRecords pi m s f i).foldl (fun d g => record d f.index g f.mileage) d
  else d

end Ascot.Orbit
