import Verif.Model.PyFile
import Verif.Model.Plasma

/-!
# Plasma files (`a5py/ascot5io/plasma.py`, `src/hdf5io/hdf5_plasma.c`)

The writers of the Python interface and the readers of the program, with the report of
quasi-neutrality that the program prints after reading.
-/
namespace Ascot.PlasmaFile
open Ascot.PyFile
open Ascot.Plasma hiding Res
open Ascot.MarkerFile (Group readReals readInts eCharge amu)
open Ascot.Options (Res)

/-- `CONST_M_E`, src/consts.h. -/
noncomputable def eMass : ℝ := 9.10938291e-31

/-! ### The Python side -/

/-- The arguments of `plasma_1D.write_hdf5`, a5py/ascot5io/plasma.py:168-169. -/
structure In1D where
  nrho : ℕ
  nion : ℕ
  anum : List ℤ
  znum : List ℤ
  mass : List ℝ
  charge : List ℤ
  rho : List ℝ
  vtor : List ℝ
  edensity : List ℝ
  etemperature : List ℝ
  idensity : Nd
  itemperature : List ℝ

/-- `plasma_1D.write_hdf5`, a5py/ascot5io/plasma.py:214-257. -/
def write1D (u : In1D) : Written :=
  if u.vtor.length ≠ u.nrho then .refused else
  if u.etemperature.length ≠ u.nrho then .refused else
  if u.itemperature.length ≠ u.nrho then .refused else
  if u.edensity.length ≠ u.nrho then .refused else
  if u.idensity.shape ≠ [u.nrho, u.nion] then .refused else
  let idensity := u.idensity.T
  createAll empty
    [⟨"nion", [1, 1], .ints [u.nion]⟩, ⟨"nrho", [1, 1], .ints [u.nrho]⟩,
     ⟨"znum", [u.nion, 1], .ints u.znum⟩, ⟨"anum", [u.nion, 1], .ints u.anum⟩,
     ⟨"charge", [u.nion, 1], .ints u.charge⟩, ⟨"mass", [u.nion, 1], .reals u.mass⟩,
     ⟨"rho", [u.nrho, 1], .reals u.rho⟩, ⟨"vtor", [u.nrho, 1], .reals u.vtor⟩,
     ⟨"etemperature", [u.nrho, 1], .reals u.etemperature⟩,
     ⟨"edensity", [u.nrho, 1], .reals u.edensity⟩,
     ⟨"itemperature", [u.nrho, 1], .reals u.itemperature⟩,
     ⟨"idensity", [u.nion, u.nrho], .reals idensity.flat⟩]

/-- The arguments of `plasma_1DS.write_hdf5`, a5py/ascot5io/plasma.py:432-434. -/
structure In1DS where
  nrho : ℕ
  nion : ℕ
  anum : List ℤ
  znum : List ℤ
  mass : List ℝ
  charge : List ℤ
  rhomin : ℝ
  rhomax : ℝ
  vtor : List ℝ
  edensity : List ℝ
  etemperature : List ℝ
  idensity : Nd
  itemperature : List ℝ

/-- `plasma_1DS.write_hdf5`, a5py/ascot5io/plasma.py:481-520. -/
def write1DS (u : In1DS) : Written :=
  if u.vtor.length ≠ u.nrho then .refused else
  if u.etemperature.length ≠ u.nrho then .refused else
  if u.itemperature.length ≠ u.nrho then .refused else
  if u.edensity.length ≠ u.nrho then .refused else
  if u.idensity.shape ≠ [u.nrho, u.nion] then .refused else
  let idensity := u.idensity.T
  createAll empty
    [⟨"nion", [1, 1], .ints [u.nion]⟩, ⟨"nrho", [1, 1], .ints [u.nrho]⟩,
     ⟨"znum", [u.nion, 1], .ints u.znum⟩, ⟨"anum", [u.nion, 1], .ints u.anum⟩,
     ⟨"charge", [u.nion, 1], .ints u.charge⟩, ⟨"mass", [u.nion, 1], .reals u.mass⟩,
     ⟨"rhomin", [1, 1], .reals [u.rhomin]⟩, ⟨"rhomax", [1, 1], .reals [u.rhomax]⟩,
     ⟨"vtor", [u.nrho, 1], .reals u.vtor⟩,
     ⟨"etemperature", [u.nrho, 1], .reals u.etemperature⟩,
     ⟨"edensity", [u.nrho, 1], .reals u.edensity⟩,
     ⟨"itemperature", [u.nrho, 1], .reals u.itemperature⟩,
     ⟨"idensity", [u.nion, u.nrho], .reals idensity.flat⟩]

/-- The arguments of `plasma_1Dt.write_hdf5`, a5py/ascot5io/plasma.py:572-574. -/
structure In1Dt where
  nrho : ℕ
  ntime : ℕ
  nion : ℕ
  anum : List ℤ
  znum : List ℤ
  mass : List ℝ
  charge : List ℤ
  rho : List ℝ
  time : List ℝ
  vtor : Nd
  edensity : Nd
  etemperature : Nd
  idensity : Nd
  itemperature : Nd

/-- `plasma_1Dt.write_hdf5`, a5py/ascot5io/plasma.py:622-660. -/
def write1Dt (u : In1Dt) : Written :=
  if u.vtor.shape ≠ [u.ntime, u.nrho] then .refused else
  if u.etemperature.shape ≠ [u.ntime, u.nrho] then .refused else
  if u.itemperature.shape ≠ [u.ntime, u.nrho] then .refused else
  if u.edensity.shape ≠ [u.ntime, u.nrho] then .refused else
  if u.idensity.shape ≠ [u.ntime, u.nion, u.nrho] then .refused else
  createAll empty
    [⟨"nion", [1, 1], .ints [u.nion]⟩, ⟨"nrho", [1, 1], .ints [u.nrho]⟩,
     ⟨"ntime", [1, 1], .ints [u.ntime]⟩,
     ⟨"znum", [u.nion, 1], .ints u.znum⟩, ⟨"anum", [u.nion, 1], .ints u.anum⟩,
     ⟨"charge", [u.nion, 1], .ints u.charge⟩, ⟨"mass", [u.nion, 1], .reals u.mass⟩,
     ⟨"rho", [u.nrho, 1], .reals u.rho⟩, ⟨"time", [u.ntime, 1], .reals u.time⟩,
     ⟨"vtor", [u.ntime, u.nrho], .reals u.vtor.flat⟩,
     ⟨"etemperature", [u.ntime, u.nrho], .reals u.etemperature.flat⟩,
     ⟨"edensity", [u.ntime, u.nrho], .reals u.edensity.flat⟩,
     ⟨"itemperature", [u.ntime, u.nrho], .reals u.itemperature.flat⟩,
     ⟨"idensity", [u.ntime, u.nion, u.nrho], .reals u.idensity.flat⟩]

/-! ### The C side -/

/-- The tables of species, src/plasma/plasma_1D.h: mass and charge of electrons and ions, charge
and mass number of ions; kept by `plasma_*_init` as they are (src/plasma/plasma_1D.c:30-43,
plasma_1Dt.c:31-43, plasma_1DS.c:47-59). -/
structure Species where
  anum : List ℤ
  znum : List ℤ
  mass : List ℝ
  charge : List ℝ

/-- Reading of the species, src/hdf5io/hdf5_plasma.c:79-102 (and 161-184, 248-271). -/
noncomputable def readSpecies (g : Group) (nion : ℕ) : Res Species := do
  let znum ← readInts g "znum" nion
  let anum ← readInts g "anum" nion
  let q ← readInts g "charge" nion
  let mass ← readReals g "mass" nion
  pure
    { anum := List.ofFn anum
      znum := List.ofFn znum
      mass := eMass :: List.ofFn fun i => mass i * amu
      charge := -1 * eCharge :: List.ofFn fun i => q i * eCharge }

/-- The outcome of an initialisation, `none` for undefined behaviour. -/
def lift {α : Type} : Option α → Res α
  | none => .ub
  | some a => .ok a

/-- `hdf5_plasma_read_1D`, src/hdf5io/hdf5_plasma.c:69-137. -/
noncomputable def read1D (junk : ℕ → ℝ) (g : Group) : Res (P1D ℝ × Species) := do
  let nion ← readCount g "nion"
  let nrho ← readCount g "nrho"
  let sp ← readSpecies g nion
  let rho ← readReals g "rho" nrho
  let vtor ← readReals g "vtor" nrho
  let te ← readReals g "etemperature" nrho
  let ne ← readReals g "edensity" nrho
  let ti ← readReals g "itemperature" nrho
  let ni ← readReals g "idensity" (nrho * nion)
  let p ← lift (init1D nrho nion (ext junk rho) (ext junk fun i => te i * eCharge)
    (ext junk fun i => ti i * eCharge) (ext junk ne) (ext junk ni) (ext junk vtor))
  pure (p, sp)

/-- `hdf5_plasma_read_1Dt`, src/hdf5io/hdf5_plasma.c:149-224. -/
noncomputable def read1Dt (junk : ℕ → ℝ) (g : Group) : Res (P1Dt ℝ × Species) := do
  let nion ← readCount g "nion"
  let nrho ← readCount g "nrho"
  let ntime ← readCount g "ntime"
  let sp ← readSpecies g nion
  let rho ← readReals g "rho" nrho
  let time ← readReals g "time" ntime
  let te ← readReals g "etemperature" (ntime * nrho)
  let ti ← readReals g "itemperature" (ntime * nrho)
  let vtor ← readReals g "vtor" (ntime * nrho)
  let ne ← readReals g "edensity" (ntime * nrho)
  let ni ← readReals g "idensity" (ntime * nion * nrho)
  let p ← lift (init1Dt nrho ntime nion (ext junk rho) (ext junk time)
    (ext junk fun i => te i * eCharge) (ext junk fun i => ti i * eCharge)
    (ext junk ne) (ext junk ni) (ext junk vtor))
  pure (p, sp)

/-- `hdf5_plasma_read_1DS`, src/hdf5io/hdf5_plasma.c:234-311. -/
noncomputable def read1DS (junk : ℕ → ℝ) (g : Group) : Res (P1DS × Species) := do
  let nion ← readCount g "nion"
  let nrho ← readCount g "nrho"
  let rhomin ← readReal g "rhomin"
  let rhomax ← readReal g "rhomax"
  let sp ← readSpecies g nion
  let vtor ← readReals g "vtor" nrho
  let te ← readReals g "etemperature" nrho
  let ne ← readReals g "edensity" nrho
  let ti ← readReals g "itemperature" nrho
  let ni ← readReals g "idensity" (nrho * nion)
  let p ← lift (init1DS nrho rhomin rhomax nion (ext junk fun i => te i * eCharge)
    (ext junk fun i => ti i * eCharge) (ext junk ne) (ext junk ni) (ext junk vtor))
  pure (p, sp)

/-- The groups of the file that have the identifier in question. -/
structure Groups where
  g1D : Option Group
  g1Dt : Option Group
  g1DS : Option Group

/-- `hdf5_plasma_init`, src/hdf5io/hdf5_plasma.c:36-58: each of the types that is found is read,
the last one counts. -/
noncomputable def readPlasma (junk : ℕ → ℝ) (f : Groups) : Res (Data × Species) :=
  let step {α : Type} (old : Res (Data × Species)) (g : Option Group)
      (read : Group → Res (α × Species)) (mk : α → Data) : Res (Data × Species) :=
    match old, g with
    | .ub, _ => .ub
    | r, none => r
    | _, some g => match read g with
      | .ok (p, sp) => .ok (mk p, sp)
      | .fail => .fail
      | .ub => .ub
  step (step (step .fail f.g1D (read1D junk) .p1D) f.g1Dt (read1Dt junk) .p1Dt)
    f.g1DS (read1DS junk) .p1DS

/-! ### The report of quasi-neutrality -/

/-- `fmax(a, b)` for numbers. -/
noncomputable def fmax (a b : ℝ) : ℝ := if a < b then b else a

/-- `x / y`, undefined for zero. -/
noncomputable def cdiv (x y : ℝ) : Option ℝ := if y = 0 then none else some (x / y)

/-- The loop over radii with `quasineutrality = fmax(quasineutrality, fabs(1 - ion/ele))`;
`ele` and `ion` are the charge densities of electrons and ions. -/
noncomputable def neutral (n : ℕ) (ele ion : ℕ → Option ℝ) : Option ℝ :=
  (List.range n).foldlM (fun q k => do
    let e ← ele k
    let i ← ion k
    let x ← cdiv i e
    some (fmax q |1 - x|)) 0

/-- `for(int i = 0; i < nion; i++) ion_qdens += ...`. -/
def sumLoop (n : ℕ) (f : ℕ → Option ℝ) : Option ℝ :=
  (List.range n).foldlM (fun s i => do let x ← f i; some (s + x)) 0

/-- The report of `plasma_1D_init`, src/plasma/plasma_1D.c:87-98. -/
noncomputable def report1D (p : P1D ℝ) (sp : Species) (nion : ℕ) : Option ℝ :=
  neutral p.nRho
    (fun k => (p.dens.get k).map fun d => d * eCharge)
    (fun k => sumLoop nion fun i => do
      let d ← p.dens.get (((i : ℤ) + 1) * p.nRho + k)
      let q ← sp.charge[i + 1]?
      some (d * q))

/-- The report of `plasma_1Dt_init`, src/plasma/plasma_1Dt.c:102-113. -/
noncomputable def report1Dt (p : P1Dt ℝ) (sp : Species) (nion : ℕ) : Option ℝ :=
  neutral p.nRho
    (fun k => (p.dens.get (p.nTime + p.nRho + k)).map fun d => d * eCharge)
    (fun k => sumLoop nion fun i => do
      let d ← p.dens.get (p.nRho * p.nTime + p.nTime + p.nRho * (2 + 1) + k)
      let q ← sp.charge[i + 1]?
      some (d * q))

/-- The number left in the output variable by `plasma_1DS_eval_dens`; in case of an error it is not
written. -/
def out (old : ℝ) : Except Nat ℝ → ℝ
  | .ok v => v
  | .error _ => old

/-- The report of `plasma_1DS_init`, src/plasma/plasma_1DS.c:171-184; `old` is what the variables
of the densities held before, `rhomin`, `rhomax`, `nrho` the arguments of the initialisation. -/
noncomputable def report1DS (p : P1DS) (nrho nion : ℕ) (rhomin rhomax old : ℝ) : Option ℝ :=
  let rho (k : ℕ) := rhomin + k * (rhomax - rhomin) / (nrho - 1)
  neutral nrho
    (fun k => (dens1DS p (rho k) 0).map (out old))
    (fun k => sumLoop nion fun i => (dens1DS p (rho k) (i + 1)).map (out old))

end Ascot.PlasmaFile
