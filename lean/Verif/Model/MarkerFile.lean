import Verif.Model.Options
import Verif.Model.Particle

/-!
# Marker input files (`src/hdf5io/hdf5_marker.c`)

A group of the file is a map from the names of data sets to their contents.  Data sets that are
read with `hdf5_read_double` hold real numbers, those read with `hdf5_read_int` or
`hdf5_read_long` integers.  Conversions that the HDF5 library makes between number types are left
out.  Outcomes are those of `Ascot.Options.Res`: success, a read that fails, undefined behaviour.
-/
namespace Ascot.MarkerFile
open Ascot.Options (Res)
open Ascot.Particle (InP InGc InMl Input)

/-- `CONST_C`, `CONST_E`, `CONST_U`, src/consts.h:23-35; `CONST_C2` is the square of
`CONST_C` rounded to a multiple of 16, the model uses the square. -/
noncomputable def cLight : ℝ := 299792458
@[inherit_doc cLight] noncomputable def eCharge : ℝ := 1.602176565e-19
@[inherit_doc cLight] noncomputable def amu : ℝ := 1.660538921e-27

/-- A group of the HDF5 file, such as `/marker/prt_0123456789/`. -/
structure Group where
  reals : String → Option (List ℝ)
  ints : String → Option (List ℤ)

/-- `hdf5_read_double`, src/hdf5io/hdf5_helpers.c:166-175, into an array of `n` numbers.  The
library writes all of the data set: a longer one overruns the array, a shorter one leaves
uninitialised numbers that are used afterwards. -/
def readReals (g : Group) (name : String) (n : ℕ) : Res (Fin n → ℝ) :=
  match g.reals name with
  | none => .fail
  | some xs => if h : xs.length = n then .ok (fun i => xs.get (i.cast h.symm)) else .ub

/-- `hdf5_read_int` and `hdf5_read_long`, src/hdf5io/hdf5_helpers.c:236-245 and 271-280. -/
def readInts (g : Group) (name : String) (n : ℕ) : Res (Fin n → ℤ) :=
  match g.ints name with
  | none => .fail
  | some xs => if h : xs.length = n then .ok (fun i => xs.get (i.cast h.symm)) else .ub

/-- The number of markers, src/hdf5io/hdf5_marker.c:91-95 (and 189-193, 279-283): a `long` that is
copied to an `int`. -/
def readN (g : Group) : Res ℕ :=
  match g.ints "n" with
  | none => .fail
  | some [k] => if 0 ≤ k ∧ k ≤ 2147483647 then .ok k.toNat else .ub
  | some _ => .ub

/-- The Lorentz factor of a velocity, src/hdf5io/hdf5_marker.c:142-143; infinite or not a number
from the speed of light on. -/
noncomputable def gammaV (v : V3 ℝ) : Option ℝ :=
  let a := 1 - (v.x * v.x + v.y * v.y + v.z * v.z) / (cLight * cLight)
  if 0 < a then some (1 / Real.sqrt a) else none

/-- One marker of the loop src/hdf5io/hdf5_marker.c:141-158. -/
noncomputable def particle (r phi z vr vphi vz mass : ℝ) (charge anum znum : ℤ)
    (weight time : ℝ) (id : ℤ) : Option InP :=
  (gammaV ⟨vr, vphi, vz⟩).map fun gamma =>
    { pos := ⟨r, phi * Real.pi / 180, z⟩
      p := ⟨vr * gamma * mass * amu, vphi * gamma * mass * amu, vz * gamma * mass * amu⟩
      mass := mass * amu
      charge := charge * eCharge
      anum := anum
      znum := znum
      weight := weight
      time := time
      id := id }

/-- `hdf5_marker_read_particle`, src/hdf5io/hdf5_marker.c:87-176; `none` for a marker with a
momentum that is not a number. -/
noncomputable def readParticles (g : Group) : Res (List (Option InP)) := do
  let n ← readN g
  let r ← readReals g "r" n
  let phi ← readReals g "phi" n
  let z ← readReals g "z" n
  let vr ← readReals g "vr" n
  let vphi ← readReals g "vphi" n
  let vz ← readReals g "vz" n
  let mass ← readReals g "mass" n
  let charge ← readInts g "charge" n
  let anum ← readInts g "anum" n
  let znum ← readInts g "znum" n
  let weight ← readReals g "weight" n
  let time ← readReals g "time" n
  let id ← readInts g "id" n
  pure (List.ofFn fun i => particle (r i) (phi i) (z i) (vr i) (vphi i) (vz i) (mass i)
    (charge i) (anum i) (znum i) (weight i) (time i) (id i))

/-- `hdf5_marker_read_guiding_center`, src/hdf5io/hdf5_marker.c:189-273. -/
noncomputable def readGuidingCenters (g : Group) : Res (List InGc) := do
  let n ← readN g
  let r ← readReals g "r" n
  let phi ← readReals g "phi" n
  let z ← readReals g "z" n
  let energy ← readReals g "energy" n
  let pitch ← readReals g "pitch" n
  let zeta ← readReals g "zeta" n
  let mass ← readReals g "mass" n
  let charge ← readInts g "charge" n
  let anum ← readInts g "anum" n
  let znum ← readInts g "znum" n
  let weight ← readReals g "weight" n
  let time ← readReals g "time" n
  let id ← readInts g "id" n
  pure (List.ofFn fun i =>
    { pos := ⟨r i, phi i * Real.pi / 180, z i⟩
      energy := energy i * eCharge
      pitch := pitch i
      zeta := zeta i
      mass := mass i * amu
      charge := charge i * eCharge
      anum := anum i
      znum := znum i
      weight := weight i
      time := time i
      id := id i })

/-- `hdf5_marker_read_field_line`, src/hdf5io/hdf5_marker.c:289-343. -/
noncomputable def readFieldLines (g : Group) : Res (List InMl) := do
  let n ← readN g
  let r ← readReals g "r" n
  let phi ← readReals g "phi" n
  let z ← readReals g "z" n
  let pitch ← readReals g "pitch" n
  let weight ← readReals g "weight" n
  let time ← readReals g "time" n
  let id ← readInts g "id" n
  pure (List.ofFn fun i =>
    { pos := ⟨r i, phi i * Real.pi / 180, z i⟩
      pitch := pitch i
      weight := weight i
      time := time i
      id := id i })

/-- `round`, half-way cases away from zero. -/
noncomputable def cRound (x : ℝ) : ℤ := if 0 ≤ x then ⌊x + 1 / 2⌋ else ⌈x - 1 / 2⌉

/-- The Lorentz factor when writing, src/hdf5io/hdf5_marker.c:381-386: the sum of the squared
momenta is divided by the mass, not by its square. -/
noncomputable def gammaW (m : InP) : ℝ :=
  Real.sqrt (1 + (m.p.x * m.p.x + m.p.y * m.p.y + m.p.z * m.p.z) / (cLight * cLight * m.mass))

/-- `hdf5_marker_write_particle`, src/hdf5io/hdf5_marker.c:359-438: the contents of the new group.
With no markers the data sets are not created (the chunk size is zero).  Overflow of `int` in the
charge is left out. -/
noncomputable def writeParticles (ps : List InP) : Group where
  reals := fun name =>
    let col (f : InP → ℝ) : Option (List ℝ) := if ps.length = 0 then none else some (ps.map f)
    if name = "r" then col (fun m => m.pos.x)
    else if name = "phi" then col (fun m => m.pos.y * 180 / Real.pi)
    else if name = "z" then col (fun m => m.pos.z)
    else if name = "vr" then col (fun m => m.p.x / (m.mass * gammaW m))
    else if name = "vphi" then col (fun m => m.p.y / (m.mass * gammaW m))
    else if name = "vz" then col (fun m => m.p.z / (m.mass * gammaW m))
    else if name = "mass" then col (fun m => m.mass / amu)
    else if name = "weight" then col (fun m => m.weight)
    else if name = "time" then col (fun m => m.time)
    else none
  ints := fun name =>
    let col (f : InP → ℤ) : Option (List ℤ) := if ps.length = 0 then none else some (ps.map f)
    if name = "n" then some [(ps.length : ℤ)]
    else if name = "charge" then col (fun m => cRound (m.charge / eCharge))
    else if name = "anum" then col (fun m => m.anum)
    else if name = "znum" then col (fun m => m.znum)
    else if name = "id" then col (fun m => m.id)
    else none

/-- What `hdf5_marker_read` leaves behind: the return value and the markers, if any were read.
The numbers of markers is stored by the readers as well, see `markerRead`. -/
inductive Markers
  | prt (ps : List (Option InP))
  | gc (ps : List InGc)
  | ml (ps : List InMl)

/-- The groups with the given identifier: `/marker/prt_<qid>`, `/marker/gc_<qid>`,
`/marker/fl_<qid>`. -/
structure Groups where
  prt : Option Group
  gc : Option Group
  fl : Option Group

/-- One of the three parts of `hdf5_marker_read`: `acc` holds the markers read before. -/
def part {α : Type} (g : Option Group) (read : Group → Res α) (wrap : α → Markers)
    (acc : Option Markers) : Res (Option Markers) :=
  match g with
  | none => .ok acc
  | some g =>
    match read g with
    | .ok a => .ok (some (wrap a))
    | .fail => .ok acc
    | .ub => .ub

/-- `hdf5_marker_read`, src/hdf5io/hdf5_marker.c:42-74; a result `none` stands for the return
value one.  Simplification: when a group that is found cannot be read after another one was, the
code leaves the number of markers of the former with the array of the latter; the model keeps
number and array together. -/
noncomputable def markerRead (g : Groups) : Res (Option Markers) := do
  let a ← part g.prt readParticles .prt none
  let b ← part g.gc readGuidingCenters .gc a
  part g.fl readFieldLines .ml b

end Ascot.MarkerFile
