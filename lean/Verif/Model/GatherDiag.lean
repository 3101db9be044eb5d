import Verif.Model.Mpi
import Verif.Model.Options
import Mathlib.Data.Real.Basic

/-!
# Diagnostics of several processes (`mpi_gather_diag`, src/mpi_interface.c)

The program built with MPI.  The root is process 0; messages arrive, and in order.  Arrays are functions of the index.
Conversions of units when orbits are written are left out (`Output` has them).  Record modes are those of src/simulate.h:34-45:
1 full orbit, 2 guiding centre, 3 hybrid, 4 field line.
-/
namespace Ascot.GatherDiag
open Ascot.Mpi (myParticles gatherOrb)
open Ascot.Options (Res)

/-- The arrays of `diag_orb_data`, src/diag/diag_orb.h:42-64. -/
inductive Col
  | id | mileage | r | phi | z | p_r | p_phi | p_z | ppar | mu | zeta | weight | charge | rho | theta | B_r | B_phi | B_z
  | simmode | pncrid | pncrdi
  deriving DecidableEq

open Col

/-- The arrays that `diag_orb_init` allocates, src/diag/diag_orb.c:26-106.  Pointers to the others are not set: `sim` is a
local variable of `main`, src/ascot5_main.c:117. -/
def allocated (mode : ℕ) (poincare : Bool) : List Col :=
  [.id] ++ (if poincare then [pncrid, pncrdi] else []) ++
  (if mode = 1 then [mileage, r, phi, z, p_r, p_phi, p_z, weight, charge, rho, theta, B_r, B_phi, B_z, simmode] else []) ++
  (if mode = 2 then [mileage, r, phi, z, ppar, mu, zeta, weight, charge, rho, theta, B_r, B_phi, B_z, simmode] else []) ++
  (if mode = 4 then [mileage, r, phi, z, rho, theta, B_r, B_phi, B_z, simmode] else []) ++
  (if mode = 3 then [mileage, r, phi, z, p_r, p_phi, p_z, ppar, mu, zeta, weight, charge, rho, theta, B_r, B_phi, B_z,
    simmode] else [])

/-- The arrays that the root makes larger, src/mpi_interface.c:339-367.  `DIAG_ORB_FO`, `DIAG_ORB_GC` and `DIAG_ORB_ML` are
1, 2 and 3, src/diag/diag_orb.h:22-24. -/
def enlarged (mode : ℕ) (poincare : Bool) : List Col :=
  [.id, mileage, r, phi, z] ++ (if mode = 1 then [p_r, p_phi, p_z] else []) ++
  (if mode = 2 then [ppar, mu, zeta] else []) ++ (if mode ≠ 3 then [charge] else []) ++
  [weight, rho, theta, B_r, B_phi, B_z, simmode] ++ (if poincare then [pncrid, pncrdi] else [])

/-- The arrays that the root receives from every other process, in order, src/mpi_interface.c:371-463. -/
def received (mode : ℕ) (poincare : Bool) : List Col :=
  [.id, mileage, r, phi, z] ++ (if mode = 1 then [p_r, p_phi, p_z] else []) ++
  (if mode = 2 then [ppar, mu, zeta] else []) ++ (if mode ≠ 3 then [charge] else []) ++
  [weight, rho, theta, B_r, B_phi, B_z, simmode] ++ (if poincare then [pncrid, pncrdi] else [])

/-- The arrays that the other processes send, in order, src/mpi_interface.c:469-518. -/
def sent (mode : ℕ) (poincare : Bool) : List Col :=
  [.id, mileage, r, phi, z] ++ (if mode = 1 then [p_r, p_phi, p_z] else []) ++
  (if mode = 2 then [ppar, mu, zeta] else []) ++ (if mode ≠ 3 then [charge] else []) ++
  [weight, rho, theta, B_r, B_phi, B_z, simmode] ++ (if poincare then [pncrid, pncrdi] else [])

/-- What an array on the root holds afterwards: the array that the other processes sent at the same place of the
sequence is put behind the own one. -/
def gatherCol (mode : ℕ) (poincare : Bool) (nTot size npnt : ℕ) (d : ℕ → Col → ℕ → ℝ) (c : Col) : ℕ → Option ℝ :=
  match ((received mode poincare).zip (sent mode poincare)).lookup c with
  | some c' => gatherOrb nTot size npnt fun rank => if rank = 0 then d 0 c else d rank c'
  | none => fun k => if k < (myParticles nTot 0 size).2 * npnt then some (d 0 c k) else none

/-- Orbits in `mpi_gather_diag`, src/mpi_interface.c:336-520, on the root; `d rank` are the arrays of a process.  The
pointers that are passed to `realloc`, and those from which is sent and to which is received if there are other
processes, must have been set, and those to which is received made larger. -/
def gatherOrbits (mode : ℕ) (poincare : Bool) (nTot size npnt : ℕ) (d : ℕ → Col → ℕ → ℝ) :
    Res (Col → Option (ℕ → Option ℝ)) :=
  if (∀ c ∈ enlarged mode poincare, c ∈ allocated mode poincare) ∧
      (1 < size → (∀ c ∈ received mode poincare, c ∈ enlarged mode poincare) ∧
        ∀ c ∈ sent mode poincare, c ∈ allocated mode poincare) then
    .ok fun c => if c ∈ allocated mode poincare then some (gatherCol mode poincare nTot size npnt d c) else none
  else .ub

/-- `n` elements of an array; `none` if one of them was never set. -/
def elements (a : ℕ → Option ℝ) (n : ℕ) : Option (List ℝ) := (List.range n).mapM a

/-- `hdf5_orbit_write` for one data set, src/hdf5io/hdf5_orbit.c:32-50 and 205-255: the elements with a marker ID, out of
`Nmrk*Npnt`. -/
noncomputable def writeColumn (nmrk npnt : ℕ) (arr : Col → Option (ℕ → Option ℝ)) (c : Col) : Res (List ℝ) :=
  match (arr .id).bind (elements · (nmrk * npnt)), (arr c).bind (elements · (nmrk * npnt)) with
  | some ids, some v => .ok (((ids.zip v).filter fun x => decide (x.1 > 0.1)).map Prod.snd)
  | _, _ => .ub

/-- A data set of orbits in the file, src/ascot5_main.c:357-375 and src/hdf5_interface.c:626-636.  `Nmrk` is the number of
markers of the process, set by `diag_init` (src/diag.c:40, src/simulate.c:130) and not changed when the
arrays of the other processes are added. -/
noncomputable def orbitFile (mode : ℕ) (poincare : Bool) (nTot size npnt : ℕ) (d : ℕ → Col → ℕ → ℝ) (c : Col) :
    Res (List ℝ) :=
  (gatherOrbits mode poincare nTot size npnt d).bind fun arr => writeColumn (myParticles nTot 0 size).2 npnt arr c

/-- The data sets that are written, src/hdf5io/hdf5_orbit.c:52-198. -/
def stored (mode : ℕ) (poincare : Bool) : List Col :=
  (if mode = 1 then [.id, mileage, r, phi, z, p_r, p_phi, p_z, weight, charge, rho, theta, B_r, B_phi, B_z, simmode]
    else []) ++
  (if mode = 2 then [.id, mileage, r, phi, z, ppar, mu, zeta, weight, charge, rho, theta, B_r, B_phi, B_z, simmode]
    else []) ++
  (if mode = 4 then [.id, mileage, r, phi, z, rho, theta, B_r, B_phi, B_z, simmode] else []) ++
  (if mode = 3 then [.id, mileage, r, phi, z, p_r, p_phi, p_z, ppar, mu, zeta, weight, charge, rho, theta, B_r, B_phi, B_z,
    simmode] else []) ++
  (if poincare then [pncrid, pncrdi] else [])

/-- Conversion of a number of cells from `size_t` to the `int` that `MPI_Reduce` takes (two's complement). -/
def toCount (n : ℕ) : ℤ := if n % 2 ^ 32 < 2 ^ 31 then (n % 2 ^ 32 : ℕ) else (n % 2 ^ 32 : ℕ) - (2 : ℤ) ^ 32

/-- A distribution in `mpi_gather_diag`, e.g. src/mpi_interface.c:300-306, on the root.  A negative count is refused, and
the program ends. -/
noncomputable def reduce (cells size : ℕ) (h : ℕ → ℕ → ℝ) : Res (ℕ → ℝ) :=
  if toCount cells < 0 then .fail
  else .ok fun i => if (i : ℤ) < toCount cells then ((List.range size).map fun rank => h rank i).sum else h 0 i

/-- Transport coefficients in `mpi_gather_diag`, src/mpi_interface.c:521-560, as far as the IDs go: process `rank` sends
`n` numbers of eight bytes (`MPI_LONG`, src/mpi_interface.h:15) from an array with `n` numbers of four bytes
(src/diag/diag_transcoef.c:31).  The result is what `hdf5_transcoef_write` (src/hdf5io/hdf5_transcoef.c:33-52) writes, out of
`Nmrk` elements. -/
def coefFile (nTot size : ℕ) (ids : ℕ → ℕ → ℤ) : Res (List ℤ) :=
  if ∀ rank < size, 0 < rank → 8 * (myParticles nTot rank size).2 ≤ 4 * (myParticles nTot rank size).2 then
    .ok (((List.range (myParticles nTot 0 size).2).map (ids 0)).filter fun x => decide (x > 0))
  else .ub

end Ascot.GatherDiag
