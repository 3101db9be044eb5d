import Mathlib.Analysis.SpecialFunctions.Sqrt
import Mathlib.Data.Real.Sign

/-!
# Evaluation of inputs in the Python interface (`input_eval`, a5py/ascotpy/__init__.py)

Numbers are real numbers, without units; angles are in radians.  `ev name p` is what the library stores for a quantity at
a point, `none` if it stores nothing there, so that the array keeps its `nan` (the loops of the library are in `LibBatch`).
An exception is `none` as well.
-/
namespace Ascot.InputEval

/-- `(r, phi, z, t)` -/
abbrev Pt := ℝ × ℝ × ℝ × ℝ

/-- What the library stores, `nan` as `none`. -/
abbrev Ev := String → Pt → Option ℝ

/-- Quantities from `B_field_eval_rho`, a5py/ascotpy/__init__.py:520-522. -/
def rhoNames : List String := ["rho", "psi", "rhodpsi", "psidr", "psidphi", "psidz"]

/-- Quantities from `B_field_eval_B_dB`, a5py/ascotpy/__init__.py:523-528. -/
def bNames : List String :=
  ["br", "bphi", "bz", "brdr", "brdphi", "brdz", "bphidr", "bphidphi", "bphidz", "bzdr", "bzdphi", "bzdz", "divb", "bnorm",
    "jnorm", "jr", "jphi", "jz", "gradbr", "gradbphi", "gradbz", "curlbr", "curlbphi", "curlbz"]

/-- a5py/ascotpy/__init__.py:548 -/
def axisNames : List String := ["axisr", "axisz", "rminor", "bpol"]

/-- The other quantities, a5py/ascotpy/__init__.py:556-585, without those of ions (`ni1`, `ti1`, ...).  The derivatives
of the eigenfunctions, which come along with `alphaeig` and `phieig`, are left out. -/
def otherNames : List String :=
  ["er", "ephi", "ez", "enorm", "n0", "psi (bzr)", "theta", "zeta", "dpsidr (bzr)", "dpsidphi (bzr)", "dpsidz (bzr)",
    "dthetadr", "dthetadphi", "dthetadz", "dzetadr", "dzetadphi", "dzetadz", "rho (bzr)", "qprof", "bjac", "bjacxb2",
    "alphaeig", "phieig", "mhd_br", "mhd_bphi", "mhd_bz", "mhd_er", "mhd_ephi", "mhd_ez", "mhd_phi", "db/b (mhd)", "ne",
    "te", "zeff"]

/-- The names that can be asked for. -/
def names : List String := rhoNames ++ bNames ++ axisNames ++ otherNames

/-- The field and its derivatives at a point, stored together. -/
structure Field where
  br : ℝ
  bphi : ℝ
  bz : ℝ
  brdr : ℝ
  brdphi : ℝ
  brdz : ℝ
  bphidr : ℝ
  bphidphi : ℝ
  bphidz : ℝ
  bzdr : ℝ
  bzdphi : ℝ
  bzdz : ℝ

/-- The arrays filled by `_eval_bfield(evalb=True)`, a5py/ascotpy/libascot.py:131-157. -/
def field (ev : Ev) (p : Pt) : Option Field := do
  let br ← ev "br" p
  let bphi ← ev "bphi" p
  let bz ← ev "bz" p
  let brdr ← ev "brdr" p
  let brdphi ← ev "brdphi" p
  let brdz ← ev "brdz" p
  let bphidr ← ev "bphidr" p
  let bphidphi ← ev "bphidphi" p
  let bphidz ← ev "bphidz" p
  let bzdr ← ev "bzdr" p
  let bzdphi ← ev "bzdphi" p
  let bzdz ← ev "bzdz" p
  return ⟨br, bphi, bz, brdr, brdphi, brdz, bphidr, bphidphi, bphidz, bzdr, bzdphi, bzdz⟩

/-- `bnorm`, a5py/ascotpy/__init__.py:532. -/
noncomputable def bnorm (b : Field) : ℝ := Real.sqrt (b.br ^ 2 + b.bphi ^ 2 + b.bz ^ 2)

/-- `jr`, `jphi`, `jz`, a5py/ascotpy/__init__.py:533-536. -/
noncomputable def jr (mu0 r : ℝ) (b : Field) : ℝ := (b.bzdphi / r - b.bphidz) / mu0
noncomputable def jphi (mu0 : ℝ) (b : Field) : ℝ := (b.brdz - b.bzdr) / mu0
noncomputable def jz (mu0 r : ℝ) (b : Field) : ℝ := (b.bphi / r + b.bphidr - b.brdphi / r) / mu0

/-- Quantities derived from the field, a5py/ascotpy/__init__.py:530-547. -/
noncomputable def derived (mu0 r : ℝ) (b : Field) : String → Option ℝ
  | "divb" => some (b.br / r + b.brdr + b.bphidphi / r + b.bzdz)
  | "bnorm" => some (bnorm b)
  | "jr" => some (jr mu0 r b)
  | "jphi" => some (jphi mu0 b)
  | "jz" => some (jz mu0 r b)
  | "jnorm" => some (Real.sqrt (jr mu0 r b ^ 2 + jphi mu0 b ^ 2 + jz mu0 r b ^ 2))
  | "gradbr" => some ((b.br * b.brdr + b.bphi * b.bphidr + b.bz * b.bzdr) / bnorm b)
  | "gradbphi" => some ((b.br * b.brdphi + b.bphi * b.bphidphi + b.bz * b.bzdphi) / (bnorm b * r))
  | "gradbz" => some ((b.br * b.brdz + b.bphi * b.bphidz + b.bz * b.bzdz) / bnorm b)
  | "curlbr" => some (b.bzdphi / r - b.bphidz)
  | "curlbphi" => some (b.brdz - b.bzdr)
  | "curlbz" => some ((b.bphi - b.brdphi) / r + b.bphidr)
  | _ => none

/-- `rminor` and `bpol`, a5py/ascotpy/__init__.py:550-555. -/
noncomputable def rminor (p : Pt) (axisr axisz : ℝ) : ℝ := Real.sqrt ((axisr - p.1) ^ 2 + (axisz - p.2.2.1) ^ 2)
noncomputable def bpol (p : Pt) (axisr axisz br bz : ℝ) : ℝ :=
  Real.sign ((p.1 - axisr) * bz - (p.2.2.1 - axisz) * br) * Real.sqrt (br ^ 2 + bz ^ 2)

/-- An ion species at a point: density, charge state and charge number. -/
structure Ion where
  dens : ℝ
  charge : ℝ
  znum : ℤ

/-- `zeff`, a5py/ascotpy/libascot.py:282-287; `charge` is the last value of `input_getplasmaspecies`, the charge numbers
(libascot.py:268 and 761-762). -/
noncomputable def zeff (ne : ℝ) (ions : List Ion) : ℝ :=
  ions.foldl (fun s i => s + i.dens * (i.znum : ℝ) ^ 2) (ne * 0) / ne

/-- The value of a quantity at a point, `none` for `nan`. -/
noncomputable def value (mu0 : ℝ) (ev : Ev) (ions : Pt → List Ion) (q : String) (p : Pt) : Option ℝ :=
  if q ∈ ["divb", "bnorm", "jnorm", "jr", "jphi", "jz", "gradbr", "gradbphi", "gradbz", "curlbr", "curlbphi", "curlbz"] then
    (field ev p).bind fun b => derived mu0 p.1 b q
  else if q = "rminor" then do
    let ar ← ev "axisr" p
    let az ← ev "axisz" p
    return rminor p ar az
  else if q = "bpol" then do
    let ar ← ev "axisr" p
    let az ← ev "axisz" p
    let br ← ev "br" p
    let bz ← ev "bz" p
    return bpol p ar az br bz
  else if q = "enorm" then do
    let er ← ev "er" p
    let ephi ← ev "ephi" p
    let ez ← ev "ez" p
    return Real.sqrt (er ^ 2 + ephi ^ 2 + ez ^ 2)
  else if q = "db/b (mhd)" then do
    let mr ← ev "mhd_br" p
    let mphi ← ev "mhd_bphi" p
    let mz ← ev "mhd_bz" p
    let br ← ev "br" p
    let bphi ← ev "bphi" p
    let bz ← ev "bz" p
    return Real.sqrt (mr ^ 2 + mphi ^ 2 + mz ^ 2) / Real.sqrt (br ^ 2 + bphi ^ 2 + bz ^ 2)
  else if q = "zeff" then (ev "ne" p).map fun ne => zeff ne (ions p)
  else ev q p

/-- `np.meshgrid(r, phi, z, t, indexing="ij")` and `ravel`, a5py/ascotpy/__init__.py:492-498. -/
def mesh (r phi z t : List ℝ) : List Pt :=
  r.flatMap fun a => phi.flatMap fun b => z.flatMap fun c => t.map fun d => (a, b, c, d)

/-- `if r.size == 1: r = r[0]*np.ones((arrsize,))`, e.g. a5py/ascotpy/__init__.py:510-511. -/
def spread (n : ℕ) (l : List ℝ) : List ℝ :=
  match l with
  | [x] => List.replicate n x
  | l => l

/-- Points that are not on a grid, a5py/ascotpy/__init__.py:499-517. -/
def broadcast (r phi z t : List ℝ) : Option (List Pt) :=
  let n := max (max r.length phi.length) (max z.length t.length)
  if (r.length = 1 ∨ r.length = n) ∧ (phi.length = 1 ∨ phi.length = n) ∧ (z.length = 1 ∨ z.length = n) ∧
      (t.length = 1 ∨ t.length = n) then
    some ((spread n r).zip ((spread n phi).zip ((spread n z).zip (spread n t))))
  else none

/-- `input_eval`, a5py/ascotpy/__init__.py:485-595: one list for each quantity, in the order of the names.  A name that is
not known is a key error.  On a grid the lists are given a new shape, see `entry`. -/
noncomputable def eval (mu0 : ℝ) (ev : Ev) (ions : Pt → List Ion) (r phi z t : List ℝ) (qnt : List String) (grid : Bool) :
    Option (List (List (Option ℝ))) :=
  (if grid then some (mesh r phi z t) else broadcast r phi z t).bind fun pts =>
    if ∀ q ∈ qnt, q ∈ names then some (qnt.map fun q => pts.map (value mu0 ev ions q)) else none

/-- Element `[i, j, k, l]` after `np.reshape(out[q], arrsize)`, a5py/ascotpy/__init__.py:591. -/
def entry (nphi nz nt : ℕ) (l : List (Option ℝ)) (i j k m : ℕ) : Option (Option ℝ) :=
  l[((i * nphi + j) * nz + k) * nt + m]?

end Ascot.InputEval
