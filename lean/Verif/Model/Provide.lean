import Verif.Model.BfieldFile

/-!
# Magnetic fields given as a dictionary (`a5py/ascotpy/libproviders.py`)

`input_init(bfield=...)` of the interactive interface takes, instead of the identifier of a group in the file, a dictionary with the arguments of
a writer.  The arrays are handed to the C functions by the address of their memory, so the order in which numpy stores the elements
matters here.  Conversions between number types are left out.  An exception is `.fail`.
-/
namespace Ascot.Provide
open Ascot.PyFile
open Ascot.Bfield (Data B2 B3 STS)
open Ascot.BfieldFile
open Ascot.Options (Res)
open Ascot.Linint (Axis)

/-- The orders in which numpy stores an array: by default rows (`order="C"`, the last index fastest), while a transposed view of
such an array is stored by columns (`order="F"`, the first index fastest). -/
inductive Layout where
  | rows
  | cols
deriving DecidableEq

/-- The memory of an array. -/
def mem (l : Layout) (a : Nd) : List ℝ :=
  match l with
  | .rows => a.flat
  | .cols => a.T.flat

/-- `a.ctypes.data_as(...)`: what is found from the address of the memory on; `junk` lies behind the array. -/
def ptr (junk : ℕ → ℝ) (xs : List ℝ) (i : ℕ) : ℝ := xs.getD i (junk i)

/-- The C function reads `n` numbers from this memory; it must not read more than there are. -/
def reads (n : ℕ) (xs : List ℝ) : Res Unit := if n ≤ xs.length then .ok () else .ub

/-- `_provide_B_TC`, a5py/ascotpy/libproviders.py:186-197, with `B_TC_init`, src/Bfield/B_TC.c:46-78.  `None` is not a number, so the call
raises an exception if there is no `psival`; so do too many numbers for the arrays of `ctypes`, and missing ones are zero. -/
noncomputable def provideTC (bxyz : List ℝ) (jacobian : Nd) (rhoval : ℝ) (psival : Option ℝ := none) (axisr : ℝ := 1) (axisz : ℝ := 0) : Res Data :=
  match psival with
  | none => .fail
  | some psival =>
    let d (i : ℕ) : ℝ := jacobian.T.flat.getD i 0
    let b (i : ℕ) : ℝ := bxyz.getD i 0
    if 3 < bxyz.length then .fail else
    if 9 < jacobian.T.flat.length then .fail else
    .ok (.tc ⟨axisr, axisz, psival, rhoval, ⟨b 0, b 1, b 2⟩, ⟨d 0, d 1, d 2⟩, ⟨d 3, d 4, d 5⟩, ⟨d 6, d 7, d 8⟩⟩)

/-- `_provide_B_GS`, a5py/ascotpy/libproviders.py:199-228, with `B_GS_init`, src/Bfield/B_GS.c:96-143.  `found` is the result of
`find_axis`, which is not called if `psi0` is given. -/
noncomputable def provideGS (found : ℝ × ℝ) (u : InGS) : Res Data :=
  if 14 < u.coefficients.length then .fail else
  let init (psi0 psi1 : ℝ) (raxis zaxis : Option ℝ) : Res Data :=
    match raxis, zaxis with
    | some raxis, some zaxis =>
      .ok (.gs ⟨u.r0, u.z0, raxis, zaxis, u.bphi0, psi0, psi1, u.psimult, fun i => u.coefficients.getD i 0, u.nripple, u.a0, u.alpha0, u.delta0⟩)
    | _, _ => .fail
  match u.psi0 with
  | some psi0 => init psi0 u.psi1 u.raxis u.zaxis
  | none =>
    if u.coefficients.length < 13 then .fail else
    let psi := pyPsi (fun i => u.coefficients.getD i 0) found.1 found.2 * u.psimult
    init (if psi < 0 then psi - 1e-8 else psi + 1e-8) 0 (some (found.1 * u.r0)) (some (found.2 * u.r0))

/-- `_provide_B_2DS`, a5py/ascotpy/libproviders.py:230-245: the value that `B_2DS_init` returns is not looked at.  `lay` is the
order of storage of each array. -/
noncomputable def provide2D (junk : ℕ → ℝ) (lay : String → Layout) (u : In2D) : Res Data := do
  reads (u.nr * u.nz) (mem (lay "psi") u.psi)
  reads (u.nr * u.nz) (mem (lay "br") u.br)
  reads (u.nr * u.nz) (mem (lay "bphi") u.bphi)
  reads (u.nr * u.nz) (mem (lay "bz") u.bz)
  let s (x : List ℝ) := spline2 (ptr junk x) u.nr u.nz u.rmin u.rmax u.zmin u.zmax
  match s (mem (lay "psi") u.psi), s (mem (lay "br") u.br), s (mem (lay "bphi") u.bphi), s (mem (lay "bz") u.bz) with
  | some p, some a, some b, some c => .ok (.b2 ⟨u.psi0, u.psi1, u.axisr, u.axisz, p, a, b, c⟩)
  | _, _, _, _ => .ub

/-- Degrees to radians as in `_provide_B_3DS`: multiplied by `np.pi / 180` from the left. -/
noncomputable def radians (x : ℝ) : ℝ := x * Real.pi / 180

/-- `_provide_B_3DS`, a5py/ascotpy/libproviders.py:247-279.  The test whether the grid of psi is missing (lines 250-258) compares arrays to
`None` and is never true, since `None` has been made an array of one element (lines 97-102); `int(None)` then raises an exception. -/
noncomputable def provide3D (junk : ℕ → ℝ) (lay : String → Layout) (u : In3D) : Res Data :=
  match u.p with
  | none => .fail
  | some p => do
    reads (p.nr * p.nz) (mem (lay "psi") u.psi)
    reads (u.b.nr * u.b.nphi * u.b.nz) (mem (lay "br") u.br)
    reads (u.b.nr * u.b.nphi * u.b.nz) (mem (lay "bphi") u.bphi)
    reads (u.b.nr * u.b.nphi * u.b.nz) (mem (lay "bz") u.bz)
    let s (x : List ℝ) := spline3 (ptr junk x) u.b.nr u.b.nphi u.b.nz u.b.rmin u.b.rmax (radians u.b.phimin) (radians u.b.phimax) u.b.zmin u.b.zmax
    match spline2 (ptr junk (mem (lay "psi") u.psi)) p.nr p.nz p.rmin p.rmax p.zmin p.zmax, s (mem (lay "br") u.br),
        s (mem (lay "bphi") u.bphi), s (mem (lay "bz") u.bz) with
    | some p, some a, some b, some c => .ok (.b3 ⟨u.psi0, u.psi1, u.axisr, u.axisz, p, a, b, c⟩)
    | _, _, _, _ => .ub

/-- `_provide_B_STS`, a5py/ascotpy/libproviders.py:281-307. -/
noncomputable def provideSTS (junk : ℕ → ℝ) (lay : String → Layout) (u : InSTS) : Res Data :=
  match u.p with
  | none => .fail
  | some p => do
    reads (p.nr * p.nphi * p.nz) (mem (lay "psi") u.psi)
    reads (u.b.nr * u.b.nphi * u.b.nz) (mem (lay "br") u.br)
    reads (u.b.nr * u.b.nphi * u.b.nz) (mem (lay "bphi") u.bphi)
    reads (u.b.nr * u.b.nphi * u.b.nz) (mem (lay "bz") u.bz)
    reads u.axisNphi u.axisr
    reads u.axisNphi u.axisz
    let s (x : List ℝ) := spline3 (ptr junk x) u.b.nr u.b.nphi u.b.nz u.b.rmin u.b.rmax (radians u.b.phimin) (radians u.b.phimax) u.b.zmin u.b.zmax
    let line (x : List ℝ) (phi : ℝ) :=
      (Linint.eval1D (Axis.init u.axisNphi .periodic (radians u.axisPhimin) (radians u.axisPhimax)) (x.take u.axisNphi) phi).join
    match spline3 (ptr junk (mem (lay "psi") u.psi)) p.nr p.nphi p.nz p.rmin p.rmax (radians p.phimin) (radians p.phimax) p.zmin p.zmax,
        s (mem (lay "br") u.br), s (mem (lay "bphi") u.bphi), s (mem (lay "bz") u.bz) with
    | some p, some a, some b, some c => .ok (.sts ⟨u.psi0, u.psi1, line u.axisr, line u.axisz, p, a, b, c⟩)
    | _, _, _, _ => .ub

end Ascot.Provide
