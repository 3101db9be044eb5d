import Verif.Model.PyFile
import Verif.Model.Bfield
import Verif.Model.Interp
import Verif.Model.Linint

/-!
# Magnetic field files (`a5py/ascot5io/bfield.py`, `src/hdf5io/hdf5_bfield.c`)

The magnetic fields are those of `Bfield`, in which the splines are parameters; here they are the splines of `Interp`, set up
from the tables that were read.
-/
namespace Ascot.BfieldFile
open Ascot.PyFile
open Ascot.Bfield (Spline2 Spline3 D2 TC B2 B3 STS Data Fault)
open Ascot.MarkerFile (Group readReals)
open Ascot.Options (Res deg2rad)
open Ascot.Linint (Axis BC gridOf)
open Ascot.Interp (coeff2 eval2f eval2df coeff3 eval3f eval3df)

/-! ### The Python side -/

/-- `B_TC.write_hdf5`, a5py/ascot5io/bfield.py:49-103.  `psival` is by default that of rho, `axisr` 1 and `axisz` 0. -/
def writeTC (bxyz : List ℝ) (jacobian : Nd) (rhoval : ℝ) (psival : Option ℝ := none) (axisr : ℝ := 1) (axisz : ℝ := 0) : Written :=
  if bxyz.length ≠ 3 then .refused else
  createAll empty
    [⟨"bxyz", [3, 1], .reals bxyz⟩, ⟨"jacobian", [3, 3], .reals jacobian.flat⟩, ⟨"rhoval", [1], .reals [rhoval]⟩,
     ⟨"psival", [1], .reals [psival.getD rhoval]⟩, ⟨"axisr", [1], .reals [axisr]⟩, ⟨"axisz", [1], .reals [axisz]⟩]

/-- `psi`, a5py/physlib/analyticequilibrium.py:13-34. -/
noncomputable def pyBasis (x y : ℝ) : Fin 12 → ℝ
  | 0 => 1
  | 1 => x ^ 2
  | 2 => x ^ 2 * Real.log x - y ^ 2
  | 3 => x ^ 4 - 4 * x ^ 2 * y ^ 2
  | 4 => 3 * x ^ 4 * Real.log x - 9 * x ^ 2 * y ^ 2 - 12 * x ^ 2 * Real.log x * y ^ 2 + 2 * y ^ 4
  | 5 => x ^ 6 - 12 * x ^ 4 * y ^ 2 + 8 * x ^ 2 * y ^ 4
  | 6 => 8 * y ^ 6 - 140 * x ^ 2 * y ^ 4 - 120 * x ^ 2 * Real.log x * y ^ 4 + 180 * x ^ 4 * Real.log x * y ^ 2 + 75 * x ^ 4 * y ^ 2
      - 15 * x ^ 6 * Real.log x
  | 7 => y
  | 8 => y * x ^ 2
  | 9 => y ^ 3 - 3 * y * x ^ 2 * Real.log x
  | 10 => 3 * y * x ^ 4 - 4 * y ^ 3 * x ^ 2
  | 11 => 8 * y ^ 5 - 45 * y * x ^ 4 - 80 * y ^ 3 * x ^ 2 * Real.log x + 60 * y * x ^ 4 * Real.log x

/-- `psi0`, a5py/physlib/analyticequilibrium.py:204-220, with `psipart`, lines 112-118; `x` must be positive. -/
noncomputable def pyPsi (c : ℕ → ℝ) (x y : ℝ) : ℝ :=
  (∑ i : Fin 12, c i * pyBasis x y i) + c 12 * (1 / 2 * x ^ 2 * Real.log x) + (1 - c 12) * (1 / 8 * x ^ 4)

/-- The arguments of `B_GS.write_hdf5`, a5py/ascot5io/bfield.py:157-159; some of them need not be given. -/
structure InGS where
  r0 : ℝ
  z0 : ℝ
  bphi0 : ℝ
  psimult : ℝ
  coefficients : List ℝ
  psi0 : Option ℝ := none
  psi1 : ℝ := 0
  raxis : Option ℝ := none
  zaxis : Option ℝ := none
  nripple : ℤ := 0
  a0 : ℝ := 2
  alpha0 : ℝ := 2
  delta0 : ℝ := 0.05

/-- `B_GS.write_hdf5`, a5py/ascot5io/bfield.py:205-251.  `found` is the result of `find_axis`
(a5py/physlib/analyticequilibrium.py:222-244), a numerical minimisation of `psi0`.  A data set of which the data is `None`
is filled with zeros by h5py. -/
noncomputable def writeGS (found : ℝ × ℝ) (u : InGS) : Written :=
  if u.coefficients.length ≠ 13 then .refused else
  let file (psi0 psi1 : ℝ) (raxis zaxis : Option ℝ) : Written :=
    createAll empty
      [⟨"r0", [1], .reals [u.r0]⟩, ⟨"z0", [1], .reals [u.z0]⟩, ⟨"raxis", [1], .reals [raxis.getD 0]⟩,
       ⟨"zaxis", [1], .reals [zaxis.getD 0]⟩, ⟨"bphi0", [1], .reals [u.bphi0]⟩, ⟨"psi0", [1], .reals [psi0]⟩,
       ⟨"psi1", [1], .reals [psi1]⟩, ⟨"psimult", [1], .reals [u.psimult]⟩, ⟨"nripple", [1], .ints [u.nripple]⟩,
       ⟨"a0", [1], .reals [u.a0]⟩, ⟨"alpha0", [1], .reals [u.alpha0]⟩, ⟨"delta0", [1], .reals [u.delta0]⟩,
       ⟨"coefficients", [13, 1], .reals u.coefficients⟩]
  match u.psi0 with
  | some psi0 => file psi0 u.psi1 u.raxis u.zaxis
  | none =>
    let psi := pyPsi (fun i => u.coefficients.getD i 0) found.1 found.2 * u.psimult
    file (if psi < 0 then psi - 1e-8 else psi + 1e-8) 0 (some (found.1 * u.r0)) (some (found.2 * u.r0))

/-- The arguments of `B_2DS.write_hdf5`, a5py/ascot5io/bfield.py:316-318. -/
structure In2D where
  rmin : ℝ
  rmax : ℝ
  nr : ℕ
  zmin : ℝ
  zmax : ℝ
  nz : ℕ
  axisr : ℝ
  axisz : ℝ
  psi : Nd
  psi0 : ℝ
  psi1 : ℝ
  br : Nd
  bphi : Nd
  bz : Nd

/-- `B_2DS.write_hdf5`, a5py/ascot5io/bfield.py:371-409. -/
def write2D (u : In2D) : Written :=
  if u.psi.shape ≠ [u.nr, u.nz] then .refused else
  if u.br.shape ≠ [u.nr, u.nz] then .refused else
  if u.bphi.shape ≠ [u.nr, u.nz] then .refused else
  if u.bz.shape ≠ [u.nr, u.nz] then .refused else
  createAll empty
    [⟨"rmin", [1], .reals [u.rmin]⟩, ⟨"rmax", [1], .reals [u.rmax]⟩, ⟨"nr", [1], .ints [u.nr]⟩,
     ⟨"zmin", [1], .reals [u.zmin]⟩, ⟨"zmax", [1], .reals [u.zmax]⟩, ⟨"nz", [1], .ints [u.nz]⟩,
     ⟨"axisr", [1], .reals [u.axisr]⟩, ⟨"axisz", [1], .reals [u.axisz]⟩, ⟨"psi0", [1], .reals [u.psi0]⟩,
     ⟨"psi1", [1], .reals [u.psi1]⟩, ⟨"psi", [u.nz, u.nr], .reals u.psi.T.flat⟩, ⟨"br", [u.nz, u.nr], .reals u.br.T.flat⟩,
     ⟨"bphi", [u.nz, u.nr], .reals u.bphi.T.flat⟩, ⟨"bz", [u.nz, u.nr], .reals u.bz.T.flat⟩]

/-- A grid in R and z. -/
structure GridRz where
  rmin : ℝ
  rmax : ℝ
  nr : ℕ
  zmin : ℝ
  zmax : ℝ
  nz : ℕ

/-- A grid in R, phi (degrees) and z. -/
structure GridRpz extends GridRz where
  phimin : ℝ
  phimax : ℝ
  nphi : ℕ

/-- The arguments of `B_3DS.write_hdf5`, a5py/ascot5io/bfield.py:565-569.  The six arguments `psi_*` are one here: if one of
them is not given, the others are not used (lines 636-643). -/
structure In3D where
  b : GridRpz
  axisr : ℝ
  axisz : ℝ
  psi : Nd
  psi0 : ℝ
  psi1 : ℝ
  br : Nd
  bphi : Nd
  bz : Nd
  p : Option GridRz := none

/-- `B_3DS.write_hdf5`, a5py/ascot5io/bfield.py:631-702. -/
def write3D (u : In3D) : Written :=
  let p := u.p.getD u.b.toGridRz
  if u.psi.shape ≠ [p.nr, p.nz] then .refused else
  if u.br.shape ≠ [u.b.nr, u.b.nphi, u.b.nz] then .refused else
  if u.bphi.shape ≠ [u.b.nr, u.b.nphi, u.b.nz] then .refused else
  if u.bz.shape ≠ [u.b.nr, u.b.nphi, u.b.nz] then .refused else
  createAll empty
    [⟨"b_rmin", [1], .reals [u.b.rmin]⟩, ⟨"b_rmax", [1], .reals [u.b.rmax]⟩, ⟨"b_nr", [1], .ints [u.b.nr]⟩,
     ⟨"b_phimin", [1], .reals [u.b.phimin]⟩, ⟨"b_phimax", [1], .reals [u.b.phimax]⟩, ⟨"b_nphi", [1], .ints [u.b.nphi]⟩,
     ⟨"b_zmin", [1], .reals [u.b.zmin]⟩, ⟨"b_zmax", [1], .reals [u.b.zmax]⟩, ⟨"b_nz", [1], .ints [u.b.nz]⟩,
     ⟨"psi_rmin", [1], .reals [p.rmin]⟩, ⟨"psi_rmax", [1], .reals [p.rmax]⟩, ⟨"psi_nr", [1], .ints [p.nr]⟩,
     ⟨"psi_zmin", [1], .reals [p.zmin]⟩, ⟨"psi_zmax", [1], .reals [p.zmax]⟩, ⟨"psi_nz", [1], .ints [p.nz]⟩,
     ⟨"axisr", [1], .reals [u.axisr]⟩, ⟨"axisz", [1], .reals [u.axisz]⟩, ⟨"psi0", [1], .reals [u.psi0]⟩,
     ⟨"psi1", [1], .reals [u.psi1]⟩, ⟨"psi", [p.nz, p.nr], .reals u.psi.T.flat⟩,
     ⟨"br", [u.b.nz, u.b.nphi, u.b.nr], .reals u.br.T.flat⟩, ⟨"bphi", [u.b.nz, u.b.nphi, u.b.nr], .reals u.bphi.T.flat⟩,
     ⟨"bz", [u.b.nz, u.b.nphi, u.b.nr], .reals u.bz.T.flat⟩]

/-- The arguments of `B_STS.write_hdf5`, a5py/ascot5io/bfield.py:1036-1043; the nine arguments `psi_*` are one here. -/
structure InSTS where
  b : GridRpz
  psi0 : ℝ
  psi1 : ℝ
  br : Nd
  bphi : Nd
  bz : Nd
  psi : Nd
  axisPhimin : ℝ
  axisPhimax : ℝ
  axisNphi : ℕ
  axisr : List ℝ
  axisz : List ℝ
  p : Option GridRpz := none

/-- `B_STS.write_hdf5`, a5py/ascot5io/bfield.py:1116-1203. -/
def writeSTS (u : InSTS) : Written :=
  let p := u.p.getD u.b
  if u.psi.shape ≠ [p.nr, p.nphi, p.nz] then .refused else
  if u.br.shape ≠ [u.b.nr, u.b.nphi, u.b.nz] then .refused else
  if u.bphi.shape ≠ [u.b.nr, u.b.nphi, u.b.nz] then .refused else
  if u.bz.shape ≠ [u.b.nr, u.b.nphi, u.b.nz] then .refused else
  createAll empty
    [⟨"b_rmin", [1], .reals [u.b.rmin]⟩, ⟨"b_rmax", [1], .reals [u.b.rmax]⟩, ⟨"b_nr", [1], .ints [u.b.nr]⟩,
     ⟨"b_phimin", [1], .reals [u.b.phimin]⟩, ⟨"b_phimax", [1], .reals [u.b.phimax]⟩, ⟨"b_nphi", [1], .ints [u.b.nphi]⟩,
     ⟨"b_zmin", [1], .reals [u.b.zmin]⟩, ⟨"b_zmax", [1], .reals [u.b.zmax]⟩, ⟨"b_nz", [1], .ints [u.b.nz]⟩,
     ⟨"psi_rmin", [1], .reals [p.rmin]⟩, ⟨"psi_rmax", [1], .reals [p.rmax]⟩, ⟨"psi_nr", [1], .ints [p.nr]⟩,
     ⟨"psi_phimin", [1], .reals [p.phimin]⟩, ⟨"psi_phimax", [1], .reals [p.phimax]⟩, ⟨"psi_nphi", [1], .ints [p.nphi]⟩,
     ⟨"psi_zmin", [1], .reals [p.zmin]⟩, ⟨"psi_zmax", [1], .reals [p.zmax]⟩, ⟨"psi_nz", [1], .ints [p.nz]⟩,
     ⟨"axis_phimin", [1], .reals [u.axisPhimin]⟩, ⟨"axis_phimax", [1], .reals [u.axisPhimax]⟩, ⟨"axis_nphi", [1], .ints [u.axisNphi]⟩,
     ⟨"psi0", [1], .reals [u.psi0]⟩, ⟨"psi1", [1], .reals [u.psi1]⟩,
     ⟨"axisr", [u.axisNphi], .reals u.axisr⟩, ⟨"axisz", [u.axisNphi], .reals u.axisz⟩,
     ⟨"br", [u.b.nz, u.b.nphi, u.b.nr], .reals u.br.T.flat⟩, ⟨"bphi", [u.b.nz, u.b.nphi, u.b.nr], .reals u.bphi.T.flat⟩,
     ⟨"bz", [u.b.nz, u.b.nphi, u.b.nr], .reals u.bz.T.flat⟩, ⟨"psi", [p.nz, p.nphi, p.nr], .reals u.psi.T.flat⟩]

/-! ### The C side -/

/-- `interp2Dcomp_setup`, src/spline/interp2Dcomp.c:174-186, with natural boundary conditions; `none` if there are too few
points.  `f` is the array.  An evaluation that would read outside of the table of coefficients is counted as an error; C39 shows that
there is none. -/
noncomputable def spline2 (f : ℕ → ℝ) (nr nz : ℕ) (r0 r1 z0 z1 : ℝ) : Option Spline2 :=
  (coeff2 (fun i j => f (j * nr + i)) nr nz .natural .natural (gridOf nr .natural r0 r1) (gridOf nz .natural z0 z1)).map fun c =>
    ⟨fun r z => (eval2f (Axis.init nr .natural r0 r1) (Axis.init nz .natural z0 z1) c r z).join,
     fun r z => match eval2df (Axis.init nr .natural r0 r1) (Axis.init nz .natural z0 z1) c r z with
       | some (some [v, a, b, aa, bb, ab]) => some ⟨v, a, b, aa, bb, ab⟩
       | _ => none⟩

/-- `interp3Dcomp_setup`, src/spline/interp3Dcomp.c:259-272, with natural boundary conditions in R and z and a periodic one
in phi. -/
noncomputable def spline3 (f : ℕ → ℝ) (nr np nz : ℕ) (r0 r1 p0 p1 z0 z1 : ℝ) : Option Spline3 :=
  (coeff3 (fun i j k => f (k * np * nr + j * nr + i)) nr np nz .natural .periodic .natural
      (gridOf nr .natural r0 r1) (gridOf np .periodic p0 p1) (gridOf nz .natural z0 z1)).map fun c =>
    ⟨fun r p z => (eval3f (Axis.init nr .natural r0 r1) (Axis.init np .periodic p0 p1) (Axis.init nz .natural z0 z1) c r p z).join,
     fun r p z => match eval3df (Axis.init nr .natural r0 r1) (Axis.init np .periodic p0 p1) (Axis.init nz .natural z0 z1) c r p z with
       | some (some (v :: a :: b :: d :: _)) => some ⟨v, a, b, d⟩
       | _ => none⟩

/-- The end of `B_2DS_init` and `B_3DS_init`: the initialisation fails if the evaluation of the field on the axis returned an error. -/
def check {α : Type} (b : α) : Except Fault (V3 ℝ) → Res α
  | .error (.err _) => .fail
  | _ => .ok b

/-- `B_2DS_init`, src/Bfield/B_2DS.c:55-118. -/
noncomputable def init2D (nr : ℕ) (r0 r1 : ℝ) (nz : ℕ) (z0 z1 axisr axisz psi0 psi1 : ℝ) (psi br bphi bz : ℕ → ℝ) : Res B2 :=
  match spline2 psi nr nz r0 r1 z0 z1, spline2 br nr nz r0 r1 z0 z1, spline2 bphi nr nz r0 r1 z0 z1, spline2 bz nr nz r0 r1 z0 z1 with
  | some p, some a, some b, some c =>
    let d : B2 := ⟨psi0, psi1, axisr, axisz, p, a, b, c⟩
    check d (d.evalB axisr axisz)
  | _, _, _, _ => .ub

/-- `B_3DS_init`, src/Bfield/B_3DS.c:106-184. -/
noncomputable def init3D (pnr : ℕ) (pr0 pr1 : ℝ) (pnz : ℕ) (pz0 pz1 : ℝ) (nr : ℕ) (r0 r1 : ℝ) (np : ℕ) (p0 p1 : ℝ) (nz : ℕ) (z0 z1 : ℝ)
    (axisr axisz psi0 psi1 : ℝ) (psi br bphi bz : ℕ → ℝ) : Res B3 :=
  match spline2 psi pnr pnz pr0 pr1 pz0 pz1, spline3 br nr np nz r0 r1 p0 p1 z0 z1, spline3 bphi nr np nz r0 r1 p0 p1 z0 z1,
      spline3 bz nr np nz r0 r1 p0 p1 z0 z1 with
  | some p, some a, some b, some c =>
    let d : B3 := ⟨psi0, psi1, axisr, axisz, p, a, b, c⟩
    check d (d.evalB axisr 0 axisz)
  | _, _, _, _ => .ub

/-- `B_STS_init`, src/Bfield/B_STS.c:81-170: the flux and the field are evaluated on the axis at phi = 0. -/
noncomputable def initSTS (pnr : ℕ) (pr0 pr1 : ℝ) (pnp : ℕ) (pp0 pp1 : ℝ) (pnz : ℕ) (pz0 pz1 : ℝ)
    (nr : ℕ) (r0 r1 : ℝ) (np : ℕ) (p0 p1 : ℝ) (nz : ℕ) (z0 z1 : ℝ) (na : ℕ) (a0 a1 : ℝ) (axisr axisz : List ℝ)
    (psi0 psi1 : ℝ) (psi br bphi bz : ℕ → ℝ) : Res STS :=
  match spline3 psi pnr pnp pnz pr0 pr1 pp0 pp1 pz0 pz1, spline3 br nr np nz r0 r1 p0 p1 z0 z1,
      spline3 bphi nr np nz r0 r1 p0 p1 z0 z1, spline3 bz nr np nz r0 r1 p0 p1 z0 z1 with
  | some p, some a, some b, some c =>
    let d : STS := ⟨psi0, psi1, fun phi => (Linint.eval1D (Axis.init na .periodic a0 a1) axisr phi).join,
      fun phi => (Linint.eval1D (Axis.init na .periodic a0 a1) axisz phi).join, p, a, b, c⟩
    match d.axis 0 with
    | .error _ => .fail
    | .ok (r, z) =>
      match d.evalPsi r 0 z with
      | .error (.err _) => .fail
      | _ => check d (d.evalB r 0 z)
  | _, _, _, _ => .ub

/-- `hdf5_bfield_read_2DS`, src/hdf5io/hdf5_bfield.c:136-187. -/
noncomputable def read2D (junk : ℕ → ℝ) (g : Group) : Res Data := do
  let nr ← readCount g "nr"
  let nz ← readCount g "nz"
  let rmin ← readReal g "rmin"
  let rmax ← readReal g "rmax"
  let zmin ← readReal g "zmin"
  let zmax ← readReal g "zmax"
  let psi ← readReals g "psi" (nr * nz)
  let br ← readReals g "br" (nr * nz)
  let bphi ← readReals g "bphi" (nr * nz)
  let bz ← readReals g "bz" (nr * nz)
  let psi0 ← readReal g "psi0"
  let psi1 ← readReal g "psi1"
  let axisr ← readReal g "axisr"
  let axisz ← readReal g "axisz"
  let d ← init2D nr rmin rmax nz zmin zmax axisr axisz psi0 psi1 (ext junk psi) (ext junk br) (ext junk bphi) (ext junk bz)
  pure (.b2 d)

/-- `hdf5_bfield_read_3DS`, src/hdf5io/hdf5_bfield.c:236-319. -/
noncomputable def read3D (junk : ℕ → ℝ) (g : Group) : Res Data := do
  let nr ← readCount g "b_nr"
  let nz ← readCount g "b_nz"
  let rmin ← readReal g "b_rmin"
  let rmax ← readReal g "b_rmax"
  let zmin ← readReal g "b_zmin"
  let zmax ← readReal g "b_zmax"
  let np ← readCount g "b_nphi"
  let phimin ← readReal g "b_phimin"
  let phimax ← readReal g "b_phimax"
  let pnr ← readCount g "psi_nr"
  let pnz ← readCount g "psi_nz"
  let prmin ← readReal g "psi_rmin"
  let prmax ← readReal g "psi_rmax"
  let pzmin ← readReal g "psi_zmin"
  let pzmax ← readReal g "psi_zmax"
  let psi ← readReals g "psi" (pnr * pnz)
  let br ← readReals g "br" (nr * np * nz)
  let bphi ← readReals g "bphi" (nr * np * nz)
  let bz ← readReals g "bz" (nr * np * nz)
  let psi0 ← readReal g "psi0"
  let psi1 ← readReal g "psi1"
  let axisr ← readReal g "axisr"
  let axisz ← readReal g "axisz"
  let d ← init3D pnr prmin prmax pnz pzmin pzmax nr rmin rmax np (deg2rad phimin) (deg2rad phimax) nz zmin zmax axisr axisz psi0 psi1
    (ext junk psi) (ext junk br) (ext junk bphi) (ext junk bz)
  pure (.b3 d)

/-- `hdf5_bfield_read_STS`, src/hdf5io/hdf5_bfield.c:378-491. -/
noncomputable def readSTS (junk : ℕ → ℝ) (g : Group) : Res Data := do
  let nr ← readCount g "b_nr"
  let nz ← readCount g "b_nz"
  let rmin ← readReal g "b_rmin"
  let rmax ← readReal g "b_rmax"
  let zmin ← readReal g "b_zmin"
  let zmax ← readReal g "b_zmax"
  let np ← readCount g "b_nphi"
  let phimin ← readReal g "b_phimin"
  let phimax ← readReal g "b_phimax"
  let pnr ← readCount g "psi_nr"
  let pnz ← readCount g "psi_nz"
  let prmin ← readReal g "psi_rmin"
  let prmax ← readReal g "psi_rmax"
  let pzmin ← readReal g "psi_zmin"
  let pzmax ← readReal g "psi_zmax"
  let pnp ← readCount g "psi_nphi"
  let pphimin ← readReal g "psi_phimin"
  let pphimax ← readReal g "psi_phimax"
  let na ← readCount g "axis_nphi"
  let amin ← readReal g "axis_phimin"
  let amax ← readReal g "axis_phimax"
  let psi0 ← readReal g "psi0"
  let psi1 ← readReal g "psi1"
  let br ← readReals g "br" (nr * np * nz)
  let bphi ← readReals g "bphi" (nr * np * nz)
  let bz ← readReals g "bz" (nr * np * nz)
  let psi ← readReals g "psi" (pnr * pnp * pnz)
  let axisr ← readReals g "axisr" na
  let axisz ← readReals g "axisz" na
  let d ← initSTS pnr prmin prmax pnp (deg2rad pphimin) (deg2rad pphimax) pnz pzmin pzmax nr rmin rmax np (deg2rad phimin)
    (deg2rad phimax) nz zmin zmax na (deg2rad amin) (deg2rad amax) (List.ofFn axisr) (List.ofFn axisz) psi0 psi1
    (ext junk psi) (ext junk br) (ext junk bphi) (ext junk bz)
  pure (.sts d)

/-- `hdf5_bfield_read_TC`, src/hdf5io/hdf5_bfield.c:520-539, with `B_TC_init`, src/Bfield/B_TC.c:46-78. -/
noncomputable def readTC (g : Group) : Res Data := do
  let axisr ← readReal g "axisr"
  let axisz ← readReal g "axisz"
  let psival ← readReal g "psival"
  let rhoval ← readReal g "rhoval"
  let b ← readReals g "bxyz" 3
  let d ← readReals g "jacobian" 9
  pure (.tc ⟨axisr, axisz, psival, rhoval, ⟨b 0, b 1, b 2⟩, ⟨d 0, d 1, d 2⟩, ⟨d 3, d 4, d 5⟩, ⟨d 6, d 7, d 8⟩⟩)

/-- `hdf5_bfield_read_GS`, src/hdf5io/hdf5_bfield.c:568-607, with `B_GS_init`, src/Bfield/B_GS.c:96-143.  The array of
coefficients has 14 elements of which the file sets 13; `junk` is the content of the last one.  The evaluation on the axis at the end of the
initialisation never returns an error. -/
noncomputable def readGS (junk : ℝ) (g : Group) : Res Data := do
  let r0 ← readReal g "r0"
  let z0 ← readReal g "z0"
  let raxis ← readReal g "raxis"
  let zaxis ← readReal g "zaxis"
  let bphi0 ← readReal g "bphi0"
  let psi0 ← readReal g "psi0"
  let psi1 ← readReal g "psi1"
  let mult ← readReal g "psimult"
  let c ← readReals g "coefficients" 13
  let delta0 ← readReal g "delta0"
  let alpha0 ← readReal g "alpha0"
  let a0 ← readReal g "a0"
  let nripple ← readInt g "nripple"
  pure (.gs ⟨r0, z0, raxis, zaxis, bphi0, psi0, psi1, mult, fun i => ext (fun _ => junk) c i, nripple, a0, alpha0, delta0⟩)

/-- `hdf5_bfield_init`, src/hdf5io/hdf5_bfield.c:62-100. -/
noncomputable def readBfield (junk : ℕ → ℝ) (f : String → Option Group) : Res Data :=
  lastFound f [("B_TC", readTC), ("B_GS", readGS (junk 0)), ("B_2DS", read2D junk), ("B_3DS", read3D junk), ("B_STS", readSTS junk)]

end Ascot.BfieldFile
