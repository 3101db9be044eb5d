import Mathlib.Algebra.Order.Field.Basic
import Mathlib.Algebra.Order.Floor.Defs

/-!
# Distribution histograms
(`src/diag/dist_5D.c`, `dist_6D.c`, `dist_rho5D.c`, `dist_rho6D.c`, `dist_com.c`,
`src/diag.c: diag_sum`)

`K` stands for `real`.  Array indices (`size_t`) are natural numbers without overflow and
`int` values have no bounds.  The histogram array is a function of the index.
`sqrt`, `CONST_E` and `2*CONST_PI` are parameters.
-/
namespace Ascot.Dist

variable {K : Type} [Field K] [LinearOrder K] [FloorRing K]

/-- One axis of a histogram: `n_x`, `min_x`, `max_x`, src/diag/dist_5D.h:15-41. -/
structure Axis (K : Type) where
  n : Nat
  min : K
  max : K

/-- Bin on one axis, src/diag/dist_5D.c:110-111 (same expression for every axis of every
distribution). -/
def bin (a : Axis K) (x : K) : Int := ⌊(x - a.min) / ((a.max - a.min) / a.n)⌋

/-- The range check of one axis, src/diag/dist_5D.c:144-150. -/
def binOk (a : Axis K) (i : Int) : Bool := 0 ≤ i ∧ i ≤ (a.n : Int) - 1

/-- `fmod` of the project, src/math.c:22-24. -/
def fmod (x y : K) : K := x - y * ⌊x / y⌋

/-- Angle used for binning, src/diag/dist_5D.c:113-116. -/
def wrap (twoPi x : K) : K :=
  let p := fmod x twoPi
  if p < 0 then p + twoPi else p

/-- A histogram: its axes from the slowest to the fastest, the index function and the number
of allocated elements. -/
structure Hist (K : Type) where
  axes : List (Axis K)
  index : List Nat → Nat
  size : Nat

/-! ## Index functions and initialisation -/

/-- `dist_5D_index`, src/diag/dist_5D.c:17-28. -/
def dist5DIndex (ir iphi iz ippara ipperp itime iq s6 s5 s4 s3 s2 s1 : Nat) : Nat :=
  ir * s6 + iphi * s5 + iz * s4 + ippara * s3 + ipperp * s2 + itime * s1 + iq

/-- `dist_5D_init`, src/diag/dist_5D.c:35-52. -/
def dist5D (r phi z ppara pperp time q : Axis K) : Hist K where
  axes := [r, phi, z, ppara, pperp, time, q]
  index
    | [ir, iphi, iz, ippara, ipperp, itime, iq] =>
      dist5DIndex ir iphi iz ippara ipperp itime iq
        (q.n * time.n * pperp.n * ppara.n * z.n * phi.n)
        (q.n * time.n * pperp.n * ppara.n * z.n)
        (q.n * time.n * pperp.n * ppara.n)
        (q.n * time.n * pperp.n)
        (q.n * time.n)
        q.n
    | _ => 0
  size := (q.n * time.n * pperp.n * ppara.n * z.n * phi.n) * r.n

/-- `dist_6D_index`, src/diag/dist_6D.c:18-31. -/
def dist6DIndex (ir iphi iz ipr ipphi ipz itime iq s7 s6 s5 s4 s3 s2 s1 : Nat) : Nat :=
  ir * s7 + iphi * s6 + iz * s5 + ipr * s4 + ipphi * s3 + ipz * s2 + itime * s1 + iq

/-- `dist_6D_init`, src/diag/dist_6D.c:36-55. -/
def dist6D (r phi z pr pphi pz time q : Axis K) : Hist K where
  axes := [r, phi, z, pr, pphi, pz, time, q]
  index
    | [ir, iphi, iz, ipr, ipphi, ipz, itime, iq] =>
      dist6DIndex ir iphi iz ipr ipphi ipz itime iq
        (q.n * time.n * pz.n * pphi.n * pr.n * z.n * phi.n)
        (q.n * time.n * pz.n * pphi.n * pr.n * z.n)
        (q.n * time.n * pz.n * pphi.n * pr.n)
        (q.n * time.n * pz.n * pphi.n)
        (q.n * time.n * pz.n)
        (q.n * time.n)
        q.n
    | _ => 0
  size := (q.n * time.n * pz.n * pphi.n * pr.n * z.n * phi.n) * r.n

/-- `dist_rho5D_index`, src/diag/dist_rho5D.c:17-28. -/
def distRho5DIndex (irho itheta iphi ippara ipperp itime iq s6 s5 s4 s3 s2 s1 : Nat) : Nat :=
  irho * s6 + itheta * s5 + iphi * s4 + ippara * s3 + ipperp * s2 + itime * s1 + iq

/-- `dist_rho5D_init`, src/diag/dist_rho5D.c:35-52. -/
def distRho5D (rho theta phi ppara pperp time q : Axis K) : Hist K where
  axes := [rho, theta, phi, ppara, pperp, time, q]
  index
    | [irho, itheta, iphi, ippara, ipperp, itime, iq] =>
      distRho5DIndex irho itheta iphi ippara ipperp itime iq
        (q.n * time.n * pperp.n * ppara.n * phi.n * theta.n)
        (q.n * time.n * pperp.n * ppara.n * phi.n)
        (q.n * time.n * pperp.n * ppara.n)
        (q.n * time.n * pperp.n)
        (q.n * time.n)
        q.n
    | _ => 0
  size := (q.n * time.n * pperp.n * ppara.n * phi.n * theta.n) * rho.n

/-- `dist_rho6D_index`, src/diag/dist_rho6D.c:17-30. -/
def distRho6DIndex (irho itheta iphi ipr ipphi ipz itime iq s7 s6 s5 s4 s3 s2 s1 : Nat) : Nat :=
  irho * s7 + itheta * s6 + iphi * s5 + ipr * s4 + ipphi * s3 + ipz * s2 + itime * s1 + iq

/-- `dist_rho6D_init`, src/diag/dist_rho6D.c:35-54. -/
def distRho6D (rho theta phi pr pphi pz time q : Axis K) : Hist K where
  axes := [rho, theta, phi, pr, pphi, pz, time, q]
  index
    | [irho, itheta, iphi, ipr, ipphi, ipz, itime, iq] =>
      distRho6DIndex irho itheta iphi ipr ipphi ipz itime iq
        (q.n * time.n * pz.n * pphi.n * pr.n * phi.n * theta.n)
        (q.n * time.n * pz.n * pphi.n * pr.n * phi.n)
        (q.n * time.n * pz.n * pphi.n * pr.n)
        (q.n * time.n * pz.n * pphi.n)
        (q.n * time.n * pz.n)
        (q.n * time.n)
        q.n
    | _ => 0
  size := (q.n * time.n * pz.n * pphi.n * pr.n * phi.n * theta.n) * rho.n

/-- `dist_COM_index`, src/diag/dist_com.c:17-22. -/
def distComIndex (imu iEkin iPtor s2 s1 : Nat) : Nat := imu * s2 + iEkin * s1 + iPtor

/-- `dist_COM_init`, src/diag/dist_com.c:29-38. -/
def distCom (mu Ekin Ptor : Axis K) : Hist K where
  axes := [mu, Ekin, Ptor]
  index
    | [imu, iEkin, iPtor] => distComIndex imu iEkin iPtor (Ptor.n * Ekin.n) Ptor.n
    | _ => 0
  size := (Ptor.n * Ekin.n) * mu.n

/-! ## Coordinates -/

/-- Fields of a full-orbit marker that the distributions use. -/
structure Fo (K : Type) where
  r : K
  phi : K
  z : K
  rho : K
  theta : K
  p_r : K
  p_phi : K
  p_z : K
  B_r : K
  B_phi : K
  B_z : K
  mass : K
  charge : K
  time : K
  weight : K
  running : Bool

/-- Fields of a guiding-center marker that the distributions use. -/
structure Gc (K : Type) where
  r : K
  phi : K
  z : K
  rho : K
  theta : K
  ppar : K
  mu : K
  zeta : K
  B_r : K
  B_phi : K
  B_z : K
  mass : K
  charge : K
  time : K
  weight : K
  running : Bool

/-- Constants and external functions: `sqrt`, `2*CONST_PI`, `CONST_E`, `CONST_C2`, the
poloidal flux (`B_field_eval_psi`) and `gctransform_pparmuzeta2prpphipz`. -/
structure Env (K : Type) where
  sqrt : K → K
  twoPi : K
  e : K
  c2 : K
  psi : K → K → K → K → K
  toP : Gc K → K × K × K

/-- `ppara` of a full-orbit marker, src/diag/dist_5D.c:123-128. -/
def foPpara (v : Env K) (p : Fo K) : K :=
  (p.p_r * p.B_r + p.p_phi * p.B_phi + p.p_z * p.B_z) /
    v.sqrt (p.B_r * p.B_r + p.B_phi * p.B_phi + p.B_z * p.B_z)

/-- `pperp` of a full-orbit marker, src/diag/dist_5D.c:132-136. -/
def foPperp (v : Env K) (p : Fo K) : K :=
  v.sqrt (p.p_r * p.p_r + p.p_phi * p.p_phi + p.p_z * p.p_z - foPpara v p * foPpara v p)

/-- `pperp` of a guiding center, src/diag/dist_5D.c:229-232. -/
def gcPperp (v : Env K) (p : Gc K) : K :=
  v.sqrt (2 * v.sqrt (p.B_r * p.B_r + p.B_phi * p.B_phi + p.B_z * p.B_z) * p.mu * p.mass)

/-- Coordinates of `dist_5D_update_fo`, src/diag/dist_5D.c:110-142. -/
def coords5DFo (v : Env K) (p : Fo K) : List K :=
  [p.r, wrap v.twoPi p.phi, p.z, foPpara v p, foPperp v p, p.time, p.charge / v.e]

/-- Coordinates of `dist_5D_update_gc`, src/diag/dist_5D.c:213-239. -/
def coords5DGc (v : Env K) (p : Gc K) : List K :=
  [p.r, wrap v.twoPi p.phi, p.z, p.ppar, gcPperp v p, p.time, p.charge / v.e]

/-- Coordinates of `dist_6D_update_fo`, src/diag/dist_6D.c:110-136. -/
def coords6DFo (v : Env K) (p : Fo K) : List K :=
  [p.r, wrap v.twoPi p.phi, p.z, p.p_r, p.p_phi, p.p_z, p.time, p.charge / v.e]

/-- Coordinates of `dist_6D_update_gc`, src/diag/dist_6D.c:206-243. -/
def coords6DGc (v : Env K) (p : Gc K) : List K :=
  [p.r, wrap v.twoPi p.phi, p.z, (v.toP p).1, (v.toP p).2.1, (v.toP p).2.2, p.time, p.charge / v.e]

/-- Coordinates of `dist_rho5D_update_fo`, src/diag/dist_rho5D.c:111-152. -/
def coordsRho5DFo (v : Env K) (p : Fo K) : List K :=
  [p.rho, wrap v.twoPi p.theta, wrap v.twoPi p.phi, foPpara v p, foPperp v p, p.time, p.charge / v.e]

/-- Coordinates of `dist_rho5D_update_gc`, src/diag/dist_rho5D.c:222-258. -/
def coordsRho5DGc (v : Env K) (p : Gc K) : List K :=
  [p.rho, wrap v.twoPi p.theta, wrap v.twoPi p.phi, p.ppar, gcPperp v p, p.time, p.charge / v.e]

/-- Coordinates of `dist_rho6D_update_fo`, src/diag/dist_rho6D.c:110-144. -/
def coordsRho6DFo (v : Env K) (p : Fo K) : List K :=
  [p.rho, wrap v.twoPi p.theta, wrap v.twoPi p.phi, p.p_r, p.p_phi, p.p_z, p.time, p.charge / v.e]

/-- Coordinates of `dist_rho6D_update_gc`, src/diag/dist_rho6D.c:214-266. -/
def coordsRho6DGc (v : Env K) (p : Gc K) : List K :=
  [p.rho, wrap v.twoPi p.theta, wrap v.twoPi p.phi, (v.toP p).1, (v.toP p).2.1, (v.toP p).2.2, p.time,
   p.charge / v.e]

/-- Coordinates of `dist_COM_update_fo`, src/diag/dist_com.c:93-121, with the macros
`physlib_gc_mu` (src/physlib.h:182-183), `physlib_Ekin_pnorm` (src/physlib.h:115-116) and
`phys_ptoroid_fo`. -/
def coordsComFo (v : Env K) (p : Fo K) : List K :=
  let psi := v.psi p.r p.phi p.z p.time
  let bnorm := v.sqrt (p.B_r * p.B_r + p.B_phi * p.B_phi + p.B_z * p.B_z)
  let pnorm := v.sqrt (p.p_r * p.p_r + p.p_phi * p.p_phi + p.p_z * p.p_z)
  let ppar := (p.p_r * p.B_r + p.p_phi * p.B_phi + p.p_z * p.B_z) / bnorm
  let xi := ppar / pnorm
  [pnorm * pnorm * (1 - xi * xi) / (2 * bnorm * p.mass),
   (v.sqrt (1 + pnorm * pnorm / (p.mass * p.mass * v.c2)) - 1) * p.mass * v.c2,
   p.r * p.p_phi + p.charge * psi]

/-- Coordinates of `dist_COM_update_gc`, src/diag/dist_com.c:174-192, with the macros
`physlib_Ekin_ppar` (src/physlib.h:128-129) and `phys_ptoroid_gc`. -/
def coordsComGc (v : Env K) (p : Gc K) : List K :=
  let psi := v.psi p.r p.phi p.z p.time
  let b := v.sqrt (p.B_r * p.B_r + p.B_phi * p.B_phi + p.B_z * p.B_z)
  [p.mu,
   (v.sqrt (1 + 2 * p.mu * b / (p.mass * v.c2) + p.ppar * p.ppar / (p.mass * p.mass * v.c2)) - 1) *
     p.mass * v.c2,
   p.ppar * p.r * (p.B_phi / b) + p.charge * psi]

/-! ## Updates -/

/-- `histogram[i] += w`. -/
def addAt (h : Nat → K) (i : Nat) (w : K) : Nat → K := fun j => if j = i then h i + w else h j

/-- One marker lane: whether it runs, its coordinates at the end of the step, its weight and
the times at the end and at the beginning of the step. -/
structure Lane (K : Type) where
  running : Bool
  coords : List K
  weight : K
  timeF : K
  timeI : K

/-- Lane of a guiding center at the end (`f`) and at the beginning (`i`) of a step. -/
def laneGc (coords : Gc K → List K) (f i : Gc K) : Lane K :=
  ⟨f.running, coords f, f.weight, f.time, i.time⟩

/-- Lane of a full-orbit marker. -/
def laneFo (coords : Fo K → List K) (f i : Fo K) : Lane K :=
  ⟨f.running, coords f, f.weight, f.time, i.time⟩

/-- All range checks of a marker and its bins. -/
def bins (d : Hist K) (l : Lane K) : List Int := List.zipWith bin d.axes l.coords

/-- All range checks. -/
def allOk (d : Hist K) (l : Lane K) : Bool := (List.zipWith binOk d.axes (bins d l)).all id

/-- Element of the array for the bins of a marker; `(size_t)` of each bin. -/
def element (d : Hist K) (l : Lane K) : Nat := d.index ((bins d l).map Int.toNat)

/-- First loop of `dist_*_update_gc` for one lane, src/diag/dist_5D.c:211-256: `ok[i]` and
`weight[i]`, `none` for the lanes that are not running, where they stay unwritten. -/
def gcFirst (d : Hist K) (l : Lane K) : Option (Bool × K) :=
  if l.running then
    if allOk d l then some (true, l.weight * (l.timeF - l.timeI)) else some (false, 0)
  else none

/-- `dist_*_update_gc`, src/diag/dist_5D.c:194-268, src/diag/dist_6D.c:182-274,
src/diag/dist_rho5D.c:200-287, src/diag/dist_rho6D.c:190-295, src/diag/dist_com.c:157-217:
second loop over the lanes. -/
def updateGc (d : Hist K) (lanes : List (Lane K)) (h : Nat → K) : Nat → K :=
  lanes.foldl (fun h l =>
    if l.running then
      match gcFirst d l with
      | some (true, w) => addAt h (element d l) w
      | _ => h
    else h) h

/-- First loop of `dist_*_update_fo` (CPU build) for one lane, src/diag/dist_5D.c:107-167:
`index[i]` and `weight[i]`.  `old` is what the uninitialised local arrays contain. -/
def foFirst (d : Hist K) (l : Lane K) (old : Nat × K) : Nat × K :=
  if l.running then
    if allOk d l then (element d l, l.weight * (l.timeF - l.timeI)) else old
  else old

/-- `dist_*_update_fo` (CPU build), src/diag/dist_5D.c:96-181 and the same code in
src/diag/dist_6D.c:95-176, src/diag/dist_rho5D.c:96-186, src/diag/dist_rho6D.c:95-177,
src/diag/dist_com.c:77-143.  Each lane comes with the old content of its array elements. -/
def updateFo (d : Hist K) (lanes : List (Lane K × (Nat × K))) (h : Nat → K) : Nat → K :=
  lanes.foldl (fun h l =>
    let iw := foFirst d l.1 l.2
    if l.1.running ∧ iw.1 < d.size then addAt h iw.1 iw.2 else h) h

/-- `dist_*_update_fo` in the GPU build, src/diag/dist_5D.c:152-159. -/
def updateFoGpu (d : Hist K) (lanes : List (Lane K)) (h : Nat → K) : Nat → K :=
  lanes.foldl (fun h l =>
    if l.running then
      if allOk d l then addAt h (element d l) (l.weight * (l.timeF - l.timeI)) else h
    else h) h

/-! ## Summation -/

/-- `diag_arraysum` with `start = 0`, src/diag.c:351-355. -/
def arraysum (stop : Nat) (a b : Nat → K) : Nat → K := fun i => if i < stop then a i + b i else a i

/-- The enabled distributions of one diagnostics structure and their arrays, for `diag_sum`.
The number of bins of each axis is that of the first structure. -/
structure Diag (K : Type) where
  h5D : Nat → K
  h6D : Nat → K
  hRho5D : Nat → K
  hRho6D : Nat → K
  hCom : Nat → K

/-- Which distributions are collected and the number of bins of each axis. -/
structure Sizes where
  on5D : Bool
  on6D : Bool
  onRho5D : Bool
  onRho6D : Bool
  onCom : Bool
  d5 : (Nat × Nat × Nat × Nat × Nat × Nat × Nat)
  d6 : (Nat × Nat × Nat × Nat × Nat × Nat × Nat × Nat)
  r5 : (Nat × Nat × Nat × Nat × Nat × Nat × Nat)
  r6 : (Nat × Nat × Nat × Nat × Nat × Nat × Nat × Nat)
  com : (Nat × Nat × Nat)

/-- `diag_sum`, src/diag.c:282-338.  The tuples list the axes in the order of the histogram. -/
def diagSum (s : Sizes) (a b : Diag K) : Diag K :=
  let a := if s.on5D then
    let (r, _phi, z, ppara, pperp, time, q) := s.d5
    { a with h5D := arraysum (r * z * ppara * pperp * time * q) a.h5D b.h5D } else a
  let a := if s.on6D then
    let (r, phi, z, pr, pphi, pz, time, q) := s.d6
    { a with h6D := arraysum (r * phi * z * pr * pphi * pz * time * q) a.h6D b.h6D } else a
  let a := if s.onRho5D then
    let (rho, theta, phi, ppara, pperp, time, q) := s.r5
    { a with hRho5D := arraysum (rho * theta * phi * ppara * pperp * time * q) a.hRho5D b.hRho5D } else a
  let a := if s.onRho6D then
    let (rho, theta, phi, pr, pphi, pz, time, q) := s.r6
    { a with hRho6D := arraysum (rho * theta * phi * pr * pphi * pz * time * q) a.hRho6D b.hRho6D } else a
  let a := if s.onCom then
    let (mu, Ekin, Ptor) := s.com
    { a with h6D := arraysum (mu * Ekin * Ptor) a.h6D b.h6D } else a
  a

end Ascot.Dist
