import Mathlib.Data.Int.Notation
import Mathlib.Data.List.Basic
import Verif.Model.InputState

/-!
# Which type of input a dictionary is (`a5py/ascotpy/libproviders.py`)

The interactive interface looks for the type of input whose writer takes the entries of the dictionary as arguments.
-/
namespace Ascot.ProvideType
open Ascot.InputState (Inp)

/-- Default values of arguments. -/
inductive Dflt
  | none
  | num (n : ℤ) (d : ℕ)
  deriving DecidableEq, Repr

/-- The arguments of a writer without `fn` and `desc`: those without and those with a default value, and the default values as
`inspect` lists them, the one of `desc` last. -/
structure Sig where
  required : List String
  optional : List String
  defaults : List Dflt
  deriving DecidableEq, Repr

/-- The arguments of `write_hdf5` of the classes in `HDF5TOOBJ`, a5py/ascot5io/__init__.py:31-54; the lines are given at each.  The
types of results and of markers are left out. -/
def sig : String → Option Sig
  -- a5py/ascot5io/bfield.py:49
  | "B_TC" => some ⟨["bxyz", "jacobian", "rhoval"],
      ["psival", "axisr", "axisz"], [.none, .num 1 1, .num 0 1, .none]⟩
  -- a5py/ascot5io/bfield.py:157
  | "B_GS" => some ⟨["r0", "z0", "bphi0", "psimult", "coefficients"],
      ["psi0", "psi1", "raxis", "zaxis", "nripple", "a0", "alpha0", "delta0"], [.none, .num 0 1, .none, .none, .num 0 1, .num 2 1, .num 2 1, .num 1 20, .none]⟩
  -- a5py/ascot5io/bfield.py:316
  | "B_2DS" => some ⟨["rmin", "rmax", "nr", "zmin", "zmax", "nz", "axisr", "axisz", "psi", "psi0", "psi1", "br", "bphi", "bz"],
      [], [.none]⟩
  -- a5py/ascot5io/bfield.py:565
  | "B_3DS" => some ⟨["b_rmin", "b_rmax", "b_nr", "b_zmin", "b_zmax", "b_nz", "b_phimin", "b_phimax", "b_nphi", "axisr", "axisz", "psi",
      "psi0", "psi1", "br", "bphi", "bz"],
      ["psi_rmin", "psi_rmax", "psi_nr", "psi_zmin", "psi_zmax", "psi_nz"], [.none, .none, .none, .none, .none, .none, .none]⟩
  -- a5py/ascot5io/bfield.py:839
  | "B_3DST" => some ⟨["b_rmin", "b_rmax", "b_nr", "b_zmin", "b_zmax", "b_nz", "b_phimin", "b_phimax", "b_nphi", "b_tmin", "b_tmax", "b_nt",
      "axisr", "axisz", "psi", "psi0", "psi1", "br", "bphi", "bz"],
      ["psi_rmin", "psi_rmax", "psi_nr", "psi_zmin", "psi_zmax", "psi_nz"], [.none, .none, .none, .none, .none, .none, .none]⟩
  -- a5py/ascot5io/bfield.py:1036
  | "B_STS" => some ⟨["b_rmin", "b_rmax", "b_nr", "b_zmin", "b_zmax", "b_nz", "b_phimin", "b_phimax", "b_nphi", "psi0", "psi1", "br", "bphi",
      "bz", "psi", "axis_phimin", "axis_phimax", "axis_nphi", "axisr", "axisz"],
      ["psi_rmin", "psi_rmax", "psi_nr", "psi_zmin", "psi_zmax", "psi_nz", "psi_phimin", "psi_phimax", "psi_nphi"], [.none, .none, .none, .none, .none, .none, .none, .none, .none, .none]⟩
  -- a5py/ascot5io/efield.py:43
  | "E_TC" => some ⟨["exyz"],
      [], [.none]⟩
  -- a5py/ascot5io/efield.py:550
  | "E_1DS" => some ⟨["nrho", "rhomin", "rhomax", "dvdrho", "reff"],
      [], [.none]⟩
  -- a5py/ascot5io/plasma.py:166
  | "plasma_1D" => some ⟨["nrho", "nion", "anum", "znum", "mass", "charge", "rho", "vtor", "edensity", "etemperature", "idensity", "itemperature"],
      [], [.none]⟩
  -- a5py/ascot5io/plasma.py:433
  | "plasma_1DS" => some ⟨["nrho", "nion", "anum", "znum", "mass", "charge", "rhomin", "rhomax", "vtor", "edensity", "etemperature", "idensity",
      "itemperature"],
      [], [.none]⟩
  -- a5py/ascot5io/plasma.py:572
  | "plasma_1Dt" => some ⟨["nrho", "ntime", "nion", "anum", "znum", "mass", "charge", "rho", "time", "vtor", "edensity", "etemperature", "idensity",
      "itemperature"],
      [], [.none]⟩
  -- a5py/ascot5io/wall.py:184
  | "wall_2D" => some ⟨["nelements", "r", "z"],
      ["flag", "flagIdList", "flagIdStrings"], [.none, .none, .none, .none]⟩
  -- a5py/ascot5io/wall.py:581
  | "wall_3D" => some ⟨["nelements", "x1x2x3", "y1y2y3", "z1z2z3"],
      ["flag", "labels"], [.none, .none, .none]⟩
  -- a5py/ascot5io/neutral.py:38
  | "N0_1D" => some ⟨["rhomin", "rhomax", "nrho", "nspecies", "anum", "znum", "density", "temperature"],
      ["maxwellian"], [.num 1 1, .none]⟩
  -- a5py/ascot5io/neutral.py:171
  | "N0_3D" => some ⟨["rmin", "rmax", "nr", "zmin", "zmax", "nz", "phimin", "phimax", "nphi", "nspecies", "anum", "znum", "density",
      "temperature"],
      ["maxwellian"], [.num 1 1, .none]⟩
  -- a5py/ascot5io/boozer.py:52
  | "Boozer" => some ⟨["psimin", "psimax", "npsi", "ntheta", "nthetag", "rmin", "rmax", "nr", "zmin", "zmax", "nz", "r0", "z0", "psi0", "psi1",
      "psi_rz", "theta_psithetageom", "nu_psitheta", "nrzs", "rs", "zs"],
      [], [.none]⟩
  -- a5py/ascot5io/mhd.py:94
  | "MHD_STAT" => some ⟨["nmode", "nmodes", "mmodes", "amplitude", "omega", "phase", "alpha", "phi", "nrho", "rhomin", "rhomax"],
      [], [.none]⟩
  -- a5py/ascot5io/mhd.py:268
  | "MHD_NONSTAT" => some ⟨["nmode", "nmodes", "mmodes", "amplitude", "omega", "phase", "alpha", "phi", "nrho", "rhomin", "rhomax", "ntime", "tmin",
      "tmax"],
      [], [.none]⟩
  -- a5py/ascot5io/asigma.py:37
  | "asigma_loc" => some ⟨["nreac", "z1", "a1", "z2", "a2", "reactype", "nenergy", "energymin", "energymax", "ndensity", "densitymin", "densitymax",
      "ntemperature", "temperaturemin", "temperaturemax", "sigma"],
      [], [.none]⟩
  -- a5py/ascot5io/nbi.py:193
  | "nbi" => some ⟨["ninj", "injectors"],
      [], [.none]⟩
  | _ => none

/-- The types that are looked at for each kind of input, a5py/ascotpy/libproviders.py:183-184, 315-316, 346-347, 442-443, 483-484, 530-531,
566-567, 616-617, 654-655. -/
def types : Inp → List String
  | .bfield => ["B_TC", "B_GS", "B_2DS", "B_3DS", "B_STS"]
  | .efield => ["E_TC", "E_1DS"]
  | .plasma => ["plasma_1D", "plasma_1DS", "plasma_1Dt"]
  | .wall => ["wall_2D", "wall_3D"]
  | .neutral => ["N0_1D", "N0_3D"]
  | .boozer => ["Boozer"]
  | .mhd => ["MHD_STAT", "MHD_NONSTAT"]
  | .asigma => ["asigma_loc"]
  | .nbi => ["nbi"]

/-- The outcome: the type that was recognised, or an error message with the best match and the parameters that are missing or unknown
(`none` in the list is printed as `None`). -/
inductive Found
  | type (t : String)
  | missing (best : Option String) (ps : List (Option String))
  | unknown (best : Option String) (ps : List (Option String))
  deriving DecidableEq, Repr

/-- `args` of the function: all arguments. -/
def Sig.args (s : Sig) : List String := s.required ++ s.optional

def Sig.missing (s : Sig) (keys : List String) : List String := s.required.filter fun k => !keys.contains k

def Sig.unknown (s : Sig) (keys : List String) : List String := keys.filter fun k => !s.args.contains k

/-- The loop over the types and the error messages, a5py/ascotpy/libproviders.py:58-128.  A type that is not in the table would raise an
exception of its own; there is none (`C147.known`). -/
def go (keys : List String) : List String → List (Option String) → List (Option String) → Option String → Found
  | [], lm, lu, best => if lm.length > 0 then .missing best lm else .unknown best lu
  | t :: ts, lm, lu, best =>
    match sig t with
    | none => go keys ts lm lu best
    | some s =>
      if (s.missing keys).length > 0 then
        if (s.missing keys).length < lm.length then go keys ts ((s.missing keys).map some) lu (some t)
        else go keys ts lm lu best
      else if (s.unknown keys).length > 0 then
        if (s.unknown keys).length < lu.length then go keys ts [] ((s.unknown keys).map some) (some t)
        else go keys ts [] lu (some t)
      else .type t

/-- `_find_input_based_on_kwargs`, a5py/ascotpy/libproviders.py:24-128. -/
def find (inputs keys : List String) : Found := go keys inputs (List.replicate 100 none) (List.replicate 100 none) none

/-- An entry of the completed dictionary: what the user gave, or a default value. -/
inductive Entry
  | given (k : String)
  | dflt (d : Dflt)
  deriving DecidableEq, Repr

/-- The loop that adds default values, a5py/ascotpy/libproviders.py:96-103, over the arguments with the counter `i`; `none` is an index
that is out of range. -/
def fill (s : Sig) (keys : List String) : List String → ℕ → List (String × Entry) → Option (List (String × Entry))
  | [], _, acc => some acc
  | k :: ks, i, acc =>
    if s.required.contains k then fill s keys ks i acc
    else if keys.contains k then fill s keys ks (i + 1) acc
    else match s.defaults[i]? with
      | none => none
      | some d => fill s keys ks (i + 1) (acc ++ [(k, .dflt d)])

/-- The dictionary that is passed on, a5py/ascotpy/libproviders.py:96-103. -/
def complete (s : Sig) (keys : List String) : Option (List (String × Entry)) := fill s keys s.args 0 (keys.map fun k => (k, .given k))

/-- `_provide_nbi`, a5py/ascotpy/libproviders.py:646-658: the name of the type is `nbi`, so that the function `_provide_nbi` is called again,
with the completed dictionary.  `depth` is how many nested calls Python allows; `none` is an exception, `some` the return to the caller. -/
def provideNbi : ℕ → List String → Option Unit
  | 0, _ => none
  | depth + 1, keys =>
    match find ["nbi"] keys with
    | .type t =>
      if "_provide_" ++ t = "_provide_nbi" then provideNbi depth keys
      else some ()
    | _ => none

end Ascot.ProvideType
