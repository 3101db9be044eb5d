/-!
# Division of markers among processes and gathering of results
(`src/mpi_interface.c`)

`R`, `Z`, `E` stand for `real`, `integer` and `a5err`; the values are only copied.
`int` arithmetic is without overflow.  Message passing is assumed to deliver the messages
of one sender in order and unchanged.  Buffers are functions of the index; `none` is
memory that has not been written.
-/
namespace Ascot.Mpi

/-- `particle_state`, src/particle.h:40-80. -/
structure PState (R Z E : Type) where
  r : R
  phi : R
  z : R
  ppar : R
  mu : R
  zeta : R
  rprt : R
  phiprt : R
  zprt : R
  p_r : R
  p_phi : R
  p_z : R
  mass : R
  charge : R
  anum : Z
  znum : Z
  weight : R
  time : R
  mileage : R
  cputime : R
  rho : R
  theta : R
  id : Z
  endcond : Z
  walltile : Z
  B_r : R
  B_phi : R
  B_z : R
  B_r_dr : R
  B_phi_dr : R
  B_z_dr : R
  B_r_dphi : R
  B_phi_dphi : R
  B_z_dphi : R
  B_r_dz : R
  B_phi_dz : R
  B_z_dz : R
  err : E

/-- `mpi_my_particles`, src/mpi_interface.c:92-102.  Returns `start_index` and `n`. -/
def myParticles (nTot rank size : Nat) : Nat × Nat :=
  (rank * (nTot / size),
   if rank = size - 1 then nTot - rank * (nTot / size) else nTot / size)

variable {R Z E : Type}

/-- Assignments `realdata[k*n+j] = ps[j].field`, src/mpi_interface.c:213-251: the `k` and
the field of each. -/
def realSlots : List (Nat × (PState R Z E → R)) :=
  [(0, fun p => p.r),
   (1, fun p => p.phi),
   (2, fun p => p.z),
   (3, fun p => p.ppar),
   (4, fun p => p.mu),
   (5, fun p => p.zeta),
   (6, fun p => p.rprt),
   (7, fun p => p.phiprt),
   (8, fun p => p.zprt),
   (9, fun p => p.p_r),
   (10, fun p => p.p_phi),
   (11, fun p => p.p_z),
   (12, fun p => p.mass),
   (13, fun p => p.charge),
   (14, fun p => p.weight),
   (15, fun p => p.time),
   (16, fun p => p.cputime),
   (17, fun p => p.rho),
   (18, fun p => p.theta),
   (19, fun p => p.B_r),
   (20, fun p => p.B_phi),
   (21, fun p => p.B_z),
   (22, fun p => p.B_r_dr),
   (23, fun p => p.B_phi_dr),
   (24, fun p => p.B_z_dr),
   (25, fun p => p.B_r_dphi),
   (26, fun p => p.B_phi_dphi),
   (27, fun p => p.B_z_dphi),
   (28, fun p => p.B_r_dz),
   (29, fun p => p.B_phi_dz),
   (30, fun p => p.B_z_dz),
   (31, fun p => p.mileage)]

/-- Assignments `intdata[k*n+j] = ps[j].field`, src/mpi_interface.c:227-237. -/
def intSlots : List (Nat × (PState R Z E → Z)) :=
  [(0, fun p => p.anum), (1, fun p => p.znum), (2, fun p => p.id), (3, fun p => p.endcond), (4, fun p => p.walltile)]

/-- Assignment to one array element. -/
def write {A : Type} (f : Nat → Option A) (i : Nat) (a : A) : Nat → Option A :=
  fun j => if j = i then some a else f j

/-- The assignments to one buffer for one `j`. -/
def packOne {A P : Type} (slots : List (Nat × (P → A))) (n : Nat) (ps : Nat → P) (b : Nat → Option A)
    (j : Nat) : Nat → Option A :=
  slots.foldl (fun b s => write b (s.1 * n + j) (s.2 (ps j))) b

/-- Packing loop over `j`, src/mpi_interface.c:212-252, for one buffer.  The three buffers are
filled independently. -/
def pack {A P : Type} (slots : List (Nat × (P → A))) (n : Nat) (ps : Nat → P) : Nat → Option A :=
  (List.range n).foldl (packOne slots n ps) (fun _ => none)

/-- Unpacking of marker `j`, src/mpi_interface.c:156-193. -/
def unpackOne (n j : Nat) (realdata : Nat → Option R) (intdata : Nat → Option Z)
    (errdata : Nat → Option E) : Option (PState R Z E) := do
  let r ← realdata (0 * n + j)
  let phi ← realdata (1 * n + j)
  let z ← realdata (2 * n + j)
  let ppar ← realdata (3 * n + j)
  let mu ← realdata (4 * n + j)
  let zeta ← realdata (5 * n + j)
  let rprt ← realdata (6 * n + j)
  let phiprt ← realdata (7 * n + j)
  let zprt ← realdata (8 * n + j)
  let p_r ← realdata (9 * n + j)
  let p_phi ← realdata (10 * n + j)
  let p_z ← realdata (11 * n + j)
  let mass ← realdata (12 * n + j)
  let charge ← realdata (13 * n + j)
  let weight ← realdata (14 * n + j)
  let time ← realdata (15 * n + j)
  let cputime ← realdata (16 * n + j)
  let rho ← realdata (17 * n + j)
  let theta ← realdata (18 * n + j)
  let B_r ← realdata (19 * n + j)
  let B_phi ← realdata (20 * n + j)
  let B_z ← realdata (21 * n + j)
  let B_r_dr ← realdata (22 * n + j)
  let B_phi_dr ← realdata (23 * n + j)
  let B_z_dr ← realdata (24 * n + j)
  let B_r_dphi ← realdata (25 * n + j)
  let B_phi_dphi ← realdata (26 * n + j)
  let B_z_dphi ← realdata (27 * n + j)
  let B_r_dz ← realdata (28 * n + j)
  let B_phi_dz ← realdata (29 * n + j)
  let B_z_dz ← realdata (30 * n + j)
  let mileage ← realdata (31 * n + j)
  let anum ← intdata (0 * n + j)
  let znum ← intdata (1 * n + j)
  let id ← intdata (2 * n + j)
  let endcond ← intdata (3 * n + j)
  let walltile ← intdata (4 * n + j)
  let err ← errdata j
  return { r := r, phi := phi, z := z, ppar := ppar, mu := mu, zeta := zeta, rprt := rprt, phiprt := phiprt, zprt := zprt, p_r := p_r, p_phi := p_phi, p_z := p_z, mass := mass, charge := charge, anum := anum, znum := znum, weight := weight, time := time, mileage := mileage, cputime := cputime, rho := rho, theta := theta, id := id, endcond := endcond, walltile := walltile, B_r := B_r, B_phi := B_phi, B_z := B_z, B_r_dr := B_r_dr, B_phi_dr := B_phi_dr, B_z_dr := B_z_dr, B_r_dphi := B_r_dphi, B_phi_dphi := B_phi_dphi, B_z_dphi := B_z_dphi, B_r_dz := B_r_dz, B_phi_dz := B_phi_dz, B_z_dz := B_z_dz, err := err }

/-- Messages sent by a process other than the root, src/mpi_interface.c:197-256. -/
structure Message (R Z E : Type) where
  realdata : Nat → Option R
  intdata : Nat → Option Z
  errdata : Nat → Option E

/-- Sender side, src/mpi_interface.c:197-256; `ps` are the states of the process. -/
def send (nTot rank size : Nat) (ps : Nat → PState R Z E) : Message R Z E :=
  let n := (myParticles nTot rank size).2
  { realdata := pack realSlots n ps
    intdata := pack intSlots n ps
    errdata := pack [(0, fun p => p.err)] n ps }

/-- Root's loop over `j` for the message of one process, src/mpi_interface.c:155-194. -/
def receive (nTot rank size : Nat) (m : Message R Z E) (psAll : Nat → Option (PState R Z E)) :
    Nat → Option (PState R Z E) :=
  let sn := myParticles nTot rank size
  (List.range sn.2).foldl (fun a j => fun k =>
    if k = sn.1 + j then unpackOne sn.2 j m.realdata m.intdata m.errdata else a k) psAll

/-- `mpi_gather_particlestate` on the root (rank 0, src/mpi_interface.c:42) with the other
processes running the sender side, src/mpi_interface.c:122-260 (MPI build).
`ps rank` are the states of process `rank`. -/
def gather (nTot size : Nat) (ps : Nat → Nat → PState R Z E) : Nat → Option (PState R Z E) :=
  let own := (List.range (myParticles nTot 0 size).2).foldl
    (fun a j => write a j (ps 0 j)) (fun _ => none)
  (List.range (size - 1)).foldl
    (fun a i => receive nTot (i + 1) size (send nTot (i + 1) size (ps (i + 1))) a) own

/-- Gathering of one orbit array, src/mpi_interface.c:343-524: the root keeps its own data at
the beginning, and receives `n*Npnt` elements of process `i` at `start_index*Npnt`. -/
def gatherOrb {A : Type} (nTot size npnt : Nat) (loc : Nat → Nat → A) : Nat → Option A :=
  let own := fun k => if k < (myParticles nTot 0 size).2 * npnt then some (loc 0 k) else none
  (List.range (size - 1)).foldl (fun a i =>
    let sn := myParticles nTot (i + 1) size
    fun k => if sn.1 * npnt ≤ k ∧ k < sn.1 * npnt + sn.2 * npnt
      then some (loc (i + 1) (k - sn.1 * npnt)) else a k) own

end Ascot.Mpi
