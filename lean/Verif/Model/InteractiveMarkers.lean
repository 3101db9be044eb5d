import Verif.Model.MarkerFile

/-!
# Markers of interactive runs

`simulation_initmarkers`, a5py/ascotpy/libsimulate.py:219-345, which makes the markers of an interactive run from columns of
numbers, and `write_hdf5` of the three kinds of markers, a5py/ascot5io/marker.py:320-381, 451-537, 620-706, which write the same
columns to a file for the program.

Columns may carry a unit.  A unit of the wrong kind raises an exception and is left out, and so are columns of the wrong length.
The units package is taken to have the same constants as the program.
-/
namespace Ascot.InteractiveMarkers
open Ascot.MarkerFile
open Ascot.Particle (InP InGc InMl)

/-- A column of `n` numbers; `unit` is the value of its unit in SI units and radians, `none` for plain numbers. -/
structure Col (n : ℕ) where
  val : Fin n → ℝ
  unit : Option ℝ

/-- `parseunits` with the default unit `u`, a5py/physlib/__init__.py:302-327: the number in SI units and radians. -/
def Col.si {n : ℕ} (c : Col n) (u : ℝ) (i : Fin n) : ℝ := c.val i * c.unit.getD u

/-- `parseunits(strip=True)`: the number in the unit `u`. -/
noncomputable def Col.inUnit {n : ℕ} (c : Col n) (u : ℝ) (i : Fin n) : ℝ := c.si u i / u

/-- One degree. -/
noncomputable def deg : ℝ := Real.pi / 180

/-- Particles as the user gives them. -/
structure PrtIn (n : ℕ) where
  r : Col n
  phi : Col n
  z : Col n
  vr : Col n
  vphi : Col n
  vz : Col n
  mass : Col n
  charge : Col n
  anum : Fin n → ℤ
  znum : Fin n → ℤ
  weight : Col n
  time : Col n
  ids : Fin n → ℤ

/-- Guiding centers as the user gives them; the pitch has no unit. -/
structure GcIn (n : ℕ) where
  r : Col n
  phi : Col n
  z : Col n
  energy : Col n
  pitch : Fin n → ℝ
  zeta : Col n
  mass : Col n
  charge : Col n
  anum : Fin n → ℤ
  znum : Fin n → ℤ
  weight : Col n
  time : Col n
  ids : Fin n → ℤ

/-- Field lines as the user gives them. -/
structure FlIn (n : ℕ) where
  r : Col n
  phi : Col n
  z : Col n
  pitch : Fin n → ℝ
  weight : Col n
  time : Col n
  ids : Fin n → ℤ

/-- `gamma_velocity`, a5py/physlib/__init__.py:93-100; infinite or not a number from the speed of light on. -/
noncomputable def gammaVelocity (v : V3 ℝ) : Option ℝ :=
  let s := Real.sqrt (v.x ^ 2 + v.y ^ 2 + v.z ^ 2)
  let a := (1 - s / cLight) * (1 + s / cLight)
  if 0 < a then some (Real.sqrt (1 / a)) else none

/-- One particle, libsimulate.py:270-289.  The momentum is made with the column of masses as the user gave it, and what is stored
is its number without the unit. -/
noncomputable def particle {n : ℕ} (d : PrtIn n) (i : Fin n) : Option InP :=
  let v : V3 ℝ := ⟨d.vr.si 1 i, d.vphi.si 1 i, d.vz.si 1 i⟩
  (gammaVelocity v).map fun g =>
    { pos := ⟨d.r.si 1 i, d.phi.si deg i, d.z.si 1 i⟩
      p := ⟨g * d.mass.val i * v.x, g * d.mass.val i * v.y, g * d.mass.val i * v.z⟩
      mass := d.mass.si amu i
      charge := d.charge.si eCharge i
      anum := d.anum i
      znum := d.znum i
      weight := d.weight.val i
      time := d.time.si 1 i
      id := d.ids i }

/-- One guiding center, libsimulate.py:306-324. -/
noncomputable def guidingCenter {n : ℕ} (d : GcIn n) (i : Fin n) : InGc where
  pos := ⟨d.r.si 1 i, d.phi.si deg i, d.z.si 1 i⟩
  energy := d.energy.si eCharge i
  pitch := d.pitch i
  zeta := d.zeta.si 1 i
  mass := d.mass.si amu i
  charge := d.charge.si eCharge i
  anum := d.anum i
  znum := d.znum i
  weight := d.weight.val i
  time := d.time.si 1 i
  id := d.ids i

/-- One field line, libsimulate.py:335-345. -/
noncomputable def fieldLine {n : ℕ} (d : FlIn n) (i : Fin n) : InMl where
  pos := ⟨d.r.si 1 i, d.phi.si deg i, d.z.si 1 i⟩
  pitch := d.pitch i
  weight := d.weight.val i
  time := d.time.si 1 i
  id := d.ids i

/-- Conversion to an integer data set rounds towards zero. -/
noncomputable def trunc (x : ℝ) : ℤ := if 0 ≤ x then ⌊x⌋ else ⌈x⌉

/-- A group with these columns. -/
def group (n : ℕ) (reals : List (String × (Fin n → ℝ))) (ints : List (String × (Fin n → ℤ))) : Group where
  reals := fun k => (reals.lookup k).map List.ofFn
  ints := fun k => if k = "n" then some [(n : ℤ)] else (ints.lookup k).map List.ofFn

/-- `Prt.write_hdf5`, a5py/ascot5io/marker.py:614-706. -/
noncomputable def writePrt {n : ℕ} (d : PrtIn n) : Group :=
  group n
    [("r", d.r.inUnit 1), ("phi", d.phi.inUnit deg), ("z", d.z.inUnit 1), ("vr", d.vr.inUnit 1), ("vphi", d.vphi.inUnit 1),
     ("vz", d.vz.inUnit 1), ("mass", d.mass.inUnit amu), ("weight", d.weight.inUnit 1), ("time", d.time.inUnit 1)]
    [("charge", fun i => trunc (d.charge.inUnit eCharge i)), ("anum", d.anum), ("znum", d.znum), ("id", d.ids)]

/-- `GC.write_hdf5`, a5py/ascot5io/marker.py:447-537. -/
noncomputable def writeGc {n : ℕ} (d : GcIn n) : Group :=
  group n
    [("r", d.r.inUnit 1), ("phi", d.phi.inUnit deg), ("z", d.z.inUnit 1), ("energy", d.energy.inUnit eCharge), ("pitch", d.pitch),
     ("zeta", d.zeta.inUnit 1), ("mass", d.mass.inUnit amu), ("weight", d.weight.inUnit 1), ("time", d.time.inUnit 1)]
    [("charge", fun i => trunc (d.charge.inUnit eCharge i)), ("anum", d.anum), ("znum", d.znum), ("id", d.ids)]

/-- `FL.write_hdf5`, a5py/ascot5io/marker.py:319-381: units are not looked at, the numbers are written as they are. -/
def writeFl {n : ℕ} (d : FlIn n) : Group :=
  group n
    [("r", d.r.val), ("phi", d.phi.val), ("z", d.z.val), ("pitch", d.pitch), ("weight", d.weight.val), ("time", d.time.val)]
    [("id", d.ids)]

end Ascot.InteractiveMarkers
