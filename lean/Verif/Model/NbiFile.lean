import Mathlib.Data.Nat.Find
import Verif.Model.PyFile
import Verif.Model.Bbnbi

/-!
# Files with neutral beam injectors (`a5py/ascot5io/nbi.py`, `src/hdf5io/hdf5_nbi.c`, `nbi_init`)
-/
namespace Ascot.NbiFile
open Ascot.PyFile
open Ascot.MarkerFile (Group readReals)
open Ascot.Options (Res)
open Ascot.Bbnbi (Injector)

/-! ### The Python side -/

/-- The arguments of `Injector.__init__`, a5py/ascot5io/nbi.py:61-63; they are also the attributes. -/
structure PyInj where
  ids : ℤ
  anum : ℤ
  znum : ℤ
  mass : ℝ
  energy : ℝ
  efrac : List ℝ
  power : ℝ
  divh : ℝ
  divv : ℝ
  divhalofrac : ℝ
  divhaloh : ℝ
  divhalov : ℝ
  nbeamlet : ℕ
  x : List ℝ
  y : List ℝ
  z : List ℝ
  dx : List ℝ
  dy : List ℝ
  dz : List ℝ

/-- `Injector.__init__`, a5py/ascot5io/nbi.py:64-92; `none` is a `ValueError`. -/
def construct (u : PyInj) : Option PyInj :=
  if u.efrac.length ≠ 3 then none else
  if [u.x, u.y, u.z, u.dx, u.dy, u.dz].any (fun v => v.length ≠ u.nbeamlet) then none else some u

/-- A group of type nbi: its data sets, and the subgroups.  Subgroup `inj<i>` is denoted by the number `i`. -/
structure File where
  top : Group
  inj : ℕ → Option Group

/-- The data sets of one injector, a5py/ascot5io/nbi.py:225-260. -/
def writeInj (u : PyInj) : Written :=
  createAll empty
    [⟨"ids", [1], .ints [u.ids]⟩, ⟨"anum", [1], .ints [u.anum]⟩, ⟨"znum", [1], .ints [u.znum]⟩, ⟨"mass", [1], .reals [u.mass]⟩,
     ⟨"divh", [1], .reals [u.divh]⟩, ⟨"divv", [1], .reals [u.divv]⟩, ⟨"divhalofrac", [1], .reals [u.divhalofrac]⟩,
     ⟨"divhaloh", [1], .reals [u.divhaloh]⟩, ⟨"divhalov", [1], .reals [u.divhalov]⟩, ⟨"energy", [1], .reals [u.energy]⟩,
     ⟨"efrac", [3], .reals u.efrac⟩, ⟨"power", [1], .reals [u.power]⟩, ⟨"nbeamlet", [1], .ints [(u.nbeamlet : ℤ)]⟩,
     ⟨"beamletx", [u.nbeamlet], .reals u.x⟩, ⟨"beamlety", [u.nbeamlet], .reals u.y⟩, ⟨"beamletz", [u.nbeamlet], .reals u.z⟩,
     ⟨"beamletdx", [u.nbeamlet], .reals u.dx⟩, ⟨"beamletdy", [u.nbeamlet], .reals u.dy⟩, ⟨"beamletdz", [u.nbeamlet], .reals u.dz⟩]

/-- Outcome of the writer, see `PyFile.Written`. -/
inductive Outcome where
  | refused
  | broken (f : File)
  | done (f : File)

def File.add (f : File) (i : ℕ) (g : Group) : File := ⟨f.top, fun k => if k = i then some g else f.inj k⟩

/-- The loop over the injectors, a5py/ascot5io/nbi.py:224-260, from the one with index `i` on. -/
def writeAll (f : File) (i : ℕ) : List PyInj → Outcome
  | [] => .done f
  | u :: us => match writeInj u with
    | .refused => .broken f
    | .broken g => .broken (f.add (i + 1) g)
    | .done g => writeAll (f.add (i + 1) g) (i + 1) us

/-- `NBI.write_hdf5`, a5py/ascot5io/nbi.py:212-262. -/
def write (ninj : ℕ) (us : List PyInj) : Outcome :=
  if ninj ≠ us.length then .refused else
  writeAll ⟨put empty ⟨"ninj", [1], .ints [(ninj : ℤ)]⟩, fun _ => none⟩ 0 us

/-! ### The C side -/

/-- The arrays of `hdf5_nbi_init`, src/hdf5io/hdf5_nbi.c:46-59, except for that of the beamlets. -/
structure Arrays where
  id : ℕ → ℤ
  anum : ℕ → ℤ
  znum : ℕ → ℤ
  nbeamlet : ℕ → ℕ
  mass : ℕ → ℝ
  power : ℕ → ℝ
  efrac : ℕ → ℝ
  energy : ℕ → ℝ
  divh : ℕ → ℝ
  divv : ℕ → ℝ
  haloh : ℕ → ℝ
  halov : ℕ → ℝ
  halofrac : ℕ → ℝ

/-- `n` numbers are stored in an array from `off` on. -/
def store (a : ℕ → ℝ) (off : ℕ) {n : ℕ} (v : Fin n → ℝ) (i : ℕ) : ℝ :=
  if h : off ≤ i ∧ i < off + n then v ⟨i - off, by omega⟩ else a i

/-- A subgroup; `H5LTread_dataset_*` fails if there is none. -/
def sub (f : File) (i : ℕ) : Res Group := match f.inj i with
  | none => .fail
  | some g => .ok g

/-- One pass of the first loop, src/hdf5io/hdf5_nbi.c:60-107; `cE` and `cU` are the elementary charge and the atomic mass unit. -/
noncomputable def pass1 (cE cU : ℝ) (f : File) (a : Arrays) (i : ℕ) : Res Arrays := do
  let g ← sub f (i + 1)
  let id ← readInt g "ids"
  let nb ← readCount g "nbeamlet"
  let power ← readReal g "power"
  let energy ← readReal g "energy"
  let efrac ← readReals g "efrac" 3
  let divh ← readReal g "divh"
  let divv ← readReal g "divv"
  let frac ← readReal g "divhalofrac"
  let haloh ← readReal g "divhaloh"
  let halov ← readReal g "divhalov"
  let anum ← readInt g "anum"
  let znum ← readInt g "znum"
  let mass ← readReal g "mass"
  return ⟨Function.update a.id i id, Function.update a.anum i anum, Function.update a.znum i znum, Function.update a.nbeamlet i nb,
    Function.update a.mass i (mass * cU), Function.update a.power i power, store a.efrac (i * 3) efrac,
    Function.update a.energy i (energy * cE), Function.update a.divh i divh, Function.update a.divv i divv,
    Function.update a.haloh i haloh, Function.update a.halov i halov, Function.update a.halofrac i frac⟩

/-- The first `n` passes of the first loop; `junk` are the arrays as allocated. -/
noncomputable def loop1 (cE cU : ℝ) (f : File) (junk : Arrays) : ℕ → Res Arrays
  | 0 => .ok junk
  | n + 1 => do
    let a ← loop1 cE cU f junk n
    pass1 cE cU f a n

/-- One pass of the second loop, src/hdf5io/hdf5_nbi.c:113-135: `m` is the array `beamlet_xyz` and `idx` the position in it. -/
def pass2 (f : File) (nbeamlet : ℕ → ℕ) (m : (ℕ → ℝ) × ℕ) (i : ℕ) : Res ((ℕ → ℝ) × ℕ) := do
  let n := nbeamlet i
  let idx := m.2
  let g ← sub f (i + 1)
  let x ← readReals g "beamletx" n
  let y ← readReals g "beamlety" n
  let z ← readReals g "beamletz" n
  let dx ← readReals g "beamletdx" n
  let dy ← readReals g "beamletdy" n
  let dz ← readReals g "beamletdz" n
  return (store (store (store (store (store (store m.1 (idx + 0 * n) x) (idx + 1 * n) y) (idx + 2 * n) z) (idx + 3 * n) dx)
    (idx + 4 * n) dy) (idx + 5 * n) dz, idx + 6 * n)

/-- The first `n` passes of the second loop. -/
def loop2 (f : File) (nbeamlet : ℕ → ℕ) (junk : ℕ → ℝ) : ℕ → Res ((ℕ → ℝ) × ℕ)
  | 0 => .ok (junk, 0)
  | n + 1 => do
    let m ← loop2 f nbeamlet junk n
    pass2 f nbeamlet m n

/-- One pass of both loops of `nbi_init`, src/nbi.c:29-61 and 80-86: the identifier and the injector. -/
noncomputable def initOne (a : Arrays) (xyz : ℕ → ℝ) (idx i : ℕ) : ℤ × Injector :=
  let n := a.nbeamlet i
  let none := a.halofrac i = 0
  haveI := Classical.dec none
  (a.id i,
    { anum := a.anum i, znum := a.znum i, mass := a.mass i, power := a.power i, energy := a.energy i,
      e0 := a.efrac (3 * i + 0), e1 := a.efrac (3 * i + 1), e2 := a.efrac (3 * i + 2),
      divH := a.divh i, divV := a.divv i, haloFrac := a.halofrac i,
      haloH := if none then 1e-10 else a.haloh i, haloV := if none then 1e-10 else a.halov i,
      beamlets := (List.range n).map fun j =>
        (⟨xyz (idx + 0 * n + j), xyz (idx + 1 * n + j), xyz (idx + 2 * n + j)⟩,
         ⟨xyz (idx + 3 * n + j), xyz (idx + 4 * n + j), xyz (idx + 5 * n + j)⟩) })

/-- The first `n` passes of the loop of `nbi_init`, src/nbi.c:26-62, with the position in the array of the beamlets. -/
noncomputable def init (a : Arrays) (xyz : ℕ → ℝ) : ℕ → List (ℤ × Injector) × ℕ
  | 0 => ([], 0)
  | n + 1 =>
    let s := init a xyz n
    (s.1 ++ [initOne a xyz s.2 n], s.2 + 6 * a.nbeamlet n)

/-- `hdf5_nbi_init`, src/hdf5io/hdf5_nbi.c:25-145, for a group that exists. -/
noncomputable def readNbi (cE cU : ℝ) (junk : Arrays) (junk' : ℕ → ℝ) (f : File) : Res (List (ℤ × Injector)) := do
  let ninj ← readCount f.top "ninj"
  let a ← loop1 cE cU f junk ninj
  let m ← loop2 f a.nbeamlet junk' ninj
  return (init a m.1 ninj).1

/-! ### Generic injectors -/

/-- The size of the grid: the diameter of a circle, or width and height of a rectangle. -/
inductive Grid where
  | circle (d : ℝ)
  | rect (w h : ℝ)

/-- The arguments of `NBI.generate` that determine the geometry, a5py/ascot5io/nbi.py:291-293. -/
structure Geom where
  r : ℝ
  phi : ℝ
  z : ℝ
  tanrad : ℝ
  focallen : ℝ
  dgrid : Grid
  tilt : Option ℝ
  tanz : Option ℝ

/-- `phi` and `phidir`, a5py/ascot5io/nbi.py:348-349. -/
noncomputable def Geom.phiRad (u : Geom) : ℝ := u.phi * Real.pi / 180
noncomputable def Geom.phidir (u : Geom) : ℝ := Real.pi + u.phiRad - Real.arcsin (u.tanrad / u.r)

/-- a5py/ascot5io/nbi.py:350. -/
noncomputable def Geom.center (u : Geom) : V3 ℝ := ⟨u.r * Real.cos u.phiRad, u.r * Real.sin u.phiRad, u.z⟩

/-- a5py/ascot5io/nbi.py:352-354. -/
noncomputable def Geom.unitd (u : Geom) : V3 ℝ := ⟨Real.cos u.phidir, Real.sin u.phidir, 0⟩
def unitz : V3 ℝ := ⟨0, 0, 1⟩
noncomputable def Geom.unith (u : Geom) : V3 ℝ := V3.cross u.unitd unitz

/-- a5py/ascot5io/nbi.py:356-361. -/
noncomputable def Geom.tiltRad (u : Geom) : ℝ := match u.tilt, u.tanz with
  | some t, _ => t * Real.pi / 180
  | none, some t => t / u.r * Real.cos u.phidir
  | none, none => 0

/-- a5py/ascot5io/nbi.py:363. -/
noncomputable def Geom.focus (u : Geom) : V3 ℝ :=
  ⟨u.center.x + u.focallen * u.unitd.x + u.focallen * Real.tan u.tiltRad * unitz.x,
   u.center.y + u.focallen * u.unitd.y + u.focallen * Real.tan u.tiltRad * unitz.y,
   u.center.z + u.focallen * u.unitd.z + u.focallen * Real.tan u.tiltRad * unitz.z⟩

open Classical in
/-- The place of a beamlet in the grid, a5py/ascot5io/nbi.py:395-405, with the random numbers `rand k` of the attempts.  `none` if
the loop does not end. -/
noncomputable def offset (g : Grid) (rand : ℕ → ℝ × ℝ) : Option (ℝ × ℝ) := match g with
  | .circle d =>
    let at' := fun k => (0.5 * d * (2 * (rand k).1 - 1), 0.5 * d * (2 * (rand k).2 - 1))
    if h : ∃ k, ¬ Real.sqrt ((at' k).1 ^ 2 + (at' k).2 ^ 2) > 0.5 * d then some (at' (Nat.find h)) else none
  | .rect w h => some (0.5 * w * (2 * (rand 0).1 - 1), 0.5 * h * (2 * (rand 0).2 - 1))

/-- Position and direction of a beamlet, a5py/ascot5io/nbi.py:407-409. -/
noncomputable def Geom.beamlet (u : Geom) (o : ℝ × ℝ) : V3 ℝ × V3 ℝ :=
  let b : V3 ℝ := ⟨u.center.x + o.1 * u.unith.x + o.2 * unitz.x, u.center.y + o.1 * u.unith.y + o.2 * unitz.y,
    u.center.z + o.1 * u.unith.z + o.2 * unitz.z⟩
  (b, V3.unit Real.sqrt ⟨u.focus.x - b.x, u.focus.y - b.y, u.focus.z - b.z⟩)

/-- The other arguments of `NBI.generate`, a5py/ascot5io/nbi.py:291-293; `divhalo` is only used with `divhalofrac`. -/
structure Beam where
  anum : ℤ
  znum : ℤ
  mass : ℝ
  energy : ℝ
  efrac : List ℝ
  power : ℝ
  divh : ℝ
  divv : ℝ
  halo : Option (ℝ × ℝ × ℝ)
  ids : ℤ

/-- The beamlets one after the other; `rand i k` are the random numbers of attempt `k` for beamlet `i`. -/
noncomputable def beamlets (u : Geom) (rand : ℕ → ℕ → ℝ × ℝ) : ℕ → Option (List (V3 ℝ × V3 ℝ))
  | 0 => some []
  | n + 1 => do
    let l ← beamlets u rand n
    let o ← offset u.dgrid (rand n)
    return l ++ [u.beamlet o]

/-- `NBI.generate`, a5py/ascot5io/nbi.py:348-418.  `none` if it does not return or raises an exception. -/
noncomputable def generate (u : Geom) (b : Beam) (nbeamlet : ℕ) (rand : ℕ → ℕ → ℝ × ℝ) : Option PyInj := do
  let l ← beamlets u rand nbeamlet
  construct
    { ids := b.ids, nbeamlet := nbeamlet, divh := b.divh, divv := b.divv,
      divhalofrac := match b.halo with | some h => h.1 | none => 0,
      divhaloh := match b.halo with | some h => h.2.1 | none => 1e-10,
      divhalov := match b.halo with | some h => h.2.2 | none => 1e-10,
      anum := b.anum, znum := b.znum, mass := b.mass, energy := b.energy, efrac := b.efrac, power := b.power,
      x := l.map fun q => q.1.x, y := l.map fun q => q.1.y, z := l.map fun q => q.1.z,
      dx := l.map fun q => q.2.x, dy := l.map fun q => q.2.y, dz := l.map fun q => q.2.z }

end Ascot.NbiFile
