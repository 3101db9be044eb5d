import Verif.Model.PyFile
import Verif.Model.SplineSetup
import Verif.Model.Asigma

/-!
# Files with atomic reaction data (`a5py/ascot5io/asigma.py`, `src/hdf5io/hdf5_asigma.c`)
-/
namespace Ascot.AsigmaFile
open Ascot.PyFile Ascot.SplineSetup Ascot.Interp
open Ascot.Linint (BC Axis gridOf)
open Ascot.Asigma (Reac)
open Ascot.MarkerFile (Group readReals readInts)
open Ascot.Options (Res)

/-! ### The Python side -/

/-- The arguments of `Asigma_loc.write_hdf5`, a5py/ascot5io/asigma.py:36-39. -/
structure In where
  nreac : ℕ
  z1 : List ℤ
  a1 : List ℤ
  z2 : List ℤ
  a2 : List ℤ
  reactype : List ℤ
  nenergy : List ℕ
  energymin : List ℝ
  energymax : List ℝ
  ndensity : List ℕ
  densitymin : List ℝ
  densitymax : List ℝ
  ntemperature : List ℕ
  temperaturemin : List ℝ
  temperaturemax : List ℝ
  sigma : Nd

/-- The loop for `ntot`, a5py/ascot5io/asigma.py:97-99; `none` is an `IndexError`. -/
def ntot (ne nn nT : List ℕ) : List ℕ → Option ℕ
  | [] => some 0
  | i :: is => do
    let a ← ne[i]?
    let b ← nn[i]?
    let c ← nT[i]?
    let t ← ntot ne nn nT is
    return a * b * c + t

/-- `Asigma_loc.write_hdf5`, a5py/ascot5io/asigma.py:92-132. -/
def write (u : In) : Written :=
  if u.z1.length ≠ u.nreac then .refused else
  match ntot u.nenergy u.ndensity u.ntemperature (List.range u.nreac) with
  | none => .refused
  | some t =>
    if u.sigma.shape ≠ [1, t] then .refused else
    createAll empty
      [⟨"nreac", [1, 1], .ints [u.nreac]⟩, ⟨"z1", [u.nreac, 1], .ints u.z1⟩, ⟨"a1", [u.nreac, 1], .ints u.a1⟩,
       ⟨"z2", [u.nreac, 1], .ints u.z2⟩, ⟨"a2", [u.nreac, 1], .ints u.a2⟩, ⟨"reactype", [u.nreac, 1], .ints u.reactype⟩,
       ⟨"nenergy", [u.nreac, 1], .ints (u.nenergy.map fun k : ℕ => (k : ℤ))⟩, ⟨"energymin", [u.nreac, 1], .reals u.energymin⟩,
       ⟨"energymax", [u.nreac, 1], .reals u.energymax⟩, ⟨"ndensity", [u.nreac, 1], .ints (u.ndensity.map fun k : ℕ => (k : ℤ))⟩,
       ⟨"densitymin", [u.nreac, 1], .reals u.densitymin⟩, ⟨"densitymax", [u.nreac, 1], .reals u.densitymax⟩,
       ⟨"ntemperature", [u.nreac, 1], .ints (u.ntemperature.map fun k : ℕ => (k : ℤ))⟩,
       ⟨"temperaturemin", [u.nreac, 1], .reals u.temperaturemin⟩, ⟨"temperaturemax", [u.nreac, 1], .reals u.temperaturemax⟩,
       ⟨"sigma", [1, t], .reals u.sigma.flat⟩]

/-! ### The C side -/

/-- `interp1Dcomp_setup` and `interp1Dcomp_eval_f` with natural boundary conditions. -/
noncomputable def spline1 (f : ℕ → ℝ) (n : ℕ) (lo hi : ℝ) : Option (ℝ → Option ℝ) :=
  (coeff1 f n .natural lo hi).map fun c x => (eval1f (Axis.init n .natural lo hi) c x).join

/-- `interp3Dcomp_setup`, src/spline/interp3Dcomp.c:203-219, and `interp3Dcomp_eval_f` with natural boundary conditions. -/
noncomputable def spline3 (f : ℕ → ℝ) (nx ny nz : ℕ) (x0 x1 y0 y1 z0 z1 : ℝ) : Option (ℝ → ℝ → ℝ → Option ℝ) :=
  (coeff3 (fun i j k => f (k * ny * nx + j * nx + i)) nx ny nz .natural .natural .natural (gridOf nx .natural x0 x1)
    (gridOf ny .natural y0 y1) (gridOf nz .natural z0 z1)).map fun c x y z =>
    (eval3f (Axis.init nx .natural x0 x1) (Axis.init ny .natural y0 y1) (Axis.init nz .natural z0 z1) c x y z).join

/-- What the arrays hold for one reaction. -/
structure Entry where
  z1 : ℤ
  a1 : ℤ
  z2 : ℤ
  a2 : ℤ
  type : ℤ
  ne : ℕ
  emin : ℝ
  emax : ℝ
  nn : ℕ
  nmin : ℝ
  nmax : ℝ
  nT : ℕ
  Tmin : ℝ
  Tmax : ℝ

/-- The body of the loop of `asigma_loc_init`, src/asigma/asigma_loc.c:46-85, with the error that it sets.  `sigma` is the array, of
which `size` elements are allocated; `none` is undefined: a setup that reads beyond the array, or with too few points.  The other
spline structures of the reaction stay uninitialised; here they give no value.  A type that is no reaction type, such as a negative
one, becomes 0, which is none either. -/
noncomputable def initOne (sigma : ℕ → ℝ) (size : ℕ) (r : Entry) : Option (Reac × ℕ) :=
  let x : Reac := ⟨r.z1, r.a1, r.z2, r.a2, r.type.toNat, fun _ => none, fun _ _ => none, fun _ _ _ => none⟩
  let dim := (if r.ne > 1 then 1 else 0) + (if r.nn > 1 then 1 else 0) + (if r.nT > 1 then 1 else 0)
  let pos := sigma
  match dim with
  | 1 => if r.ne ≤ size then (spline1 pos r.ne r.emin r.emax).map fun s => ({ x with sigma := s }, 0) else none
  | 2 => if r.ne * r.nT ≤ size then
      (setup2 pos r.ne r.nT .natural .natural r.emin r.emax r.Tmin r.Tmax).map fun s => ({ x with sigmav := s.f }, 0) else none
  | 3 => if r.ne * r.nn * r.nT ≤ size then
      (spline3 pos r.ne r.nn r.nT r.emin r.emax r.nmin r.nmax r.Tmin r.Tmax).map fun s => ({ x with bms := s }, 0) else none
  | _ => some (x, 1)

/-- `asigma_loc_init`, src/asigma/asigma_loc.c:29-107: the error is that of the last pass. -/
noncomputable def locInit (sigma : ℕ → ℝ) (size : ℕ) : List Entry → ℕ → Option (List Reac × ℕ)
  | [], err => some ([], err)
  | r :: rs, _ => do
    let x ← initOne sigma size r
    let y ← locInit sigma size rs x.2
    return (x.1 :: y.1, y.2)

/-- The three numbers of points as sizes; a negative product is not a size for `malloc`. -/
def counts {n : ℕ} (f : Fin n → ℤ) : Res (Fin n → ℕ) := if ∀ i, 0 ≤ f i then .ok fun i => (f i).toNat else .ub

/-- `hdf5_asigma_read_loc`, src/hdf5io/hdf5_asigma.c:55-134. -/
noncomputable def readLoc (junk : ℕ → ℝ) (g : Group) : Res (List Reac) := do
  let nreac ← readCount g "nreac"
  let ne ← readInts g "nenergy" nreac
  let nn ← readInts g "ndensity" nreac
  let nT ← readInts g "ntemperature" nreac
  let z1 ← readInts g "z1" nreac
  let a1 ← readInts g "a1" nreac
  let z2 ← readInts g "z2" nreac
  let a2 ← readInts g "a2" nreac
  let type ← readInts g "reactype" nreac
  let emin ← readReals g "energymin" nreac
  let emax ← readReals g "energymax" nreac
  let nmin ← readReals g "densitymin" nreac
  let nmax ← readReals g "densitymax" nreac
  let Tmin ← readReals g "temperaturemin" nreac
  let Tmax ← readReals g "temperaturemax" nreac
  let ne ← counts ne
  let nn ← counts nn
  let nT ← counts nT
  let size := ((List.finRange nreac).map fun i => ne i * nn i * nT i).sum
  let sigma ← readReals g "sigma" size
  match locInit (ext junk sigma) size ((List.finRange nreac).map fun i =>
      ⟨z1 i, a1 i, z2 i, a2 i, type i, ne i, emin i, emax i, nn i, nmin i, nmax i, nT i, Tmin i, Tmax i⟩) 0 with
  | some (l, 0) => pure l
  | some (_, _ + 1) => .fail
  | none => .ub

/-- `hdf5_asigma_init`, src/hdf5io/hdf5_asigma.c:30-43; the name of the type in the file is that of the group. -/
noncomputable def readAsigma (junk : ℕ → ℝ) (f : String → Option Group) : Res (List Reac) :=
  lastFound f [("asigma_loc", readLoc junk)]

end Ascot.AsigmaFile
