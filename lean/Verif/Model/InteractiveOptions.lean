import Verif.Model.Options

/-!
# Options of interactive runs

`simulation_initoptions`, a5py/ascotpy/libsimulate.py:27-182, which stores the options of an interactive run in the simulation data,
and `Opt.write_hdf5`, a5py/ascot5io/options.py:1063-1113, which stores the same options in a file for the program.

The options are a dictionary from names to Python values.  Exceptions are the outcome `Res.fail`.
-/
namespace Ascot.InteractiveOptions
open Ascot.Options

/-- A Python value of an option. -/
inductive Val where
  | int (k : ℤ)
  | float (x : ℝ)
  | list (xs : List ℝ)
  | array (xs : List ℝ)

/-- The dictionary of options; a name that is missing is `none`. -/
abbrev Dict := String → Option Val

/-- `np.asarray(data).astype("f8")`, a5py/ascot5io/options.py:1108-1110. -/
def Val.flat : Val → List ℝ
  | .int k => [(k : ℝ)]
  | .float x => [x]
  | .list xs => xs
  | .array xs => xs

/-- The group that `write_hdf5` makes, a5py/ascot5io/options.py:1102-1111.  (The checks for missing and unknown names are left
out: a name that is missing here is a data set that is missing.) -/
def written (d : Dict) : File := fun k => (d k).map Val.flat

/-- `opt[name]`: a name that is missing raises `KeyError`. -/
def get (d : Dict) (name : String) : Res Val :=
  match d name with
  | none => .fail
  | some v => .ok v

/-- Assignment to a `c_double`: numbers and arrays of one number are taken, anything else raises `TypeError`. -/
def real (d : Dict) (name : String) : Res ℝ := do
  match ← get d name with
  | .int k => pure (k : ℝ)
  | .float x => pure x
  | .array [x] => pure x
  | _ => .fail

/-- A number kept in a `c_int32`: only the lowest 32 bits are kept, without a check. -/
def wrap (k : ℤ) : ℤ := Int.bmod k (2 ^ 32)

/-- Truncation of Python's `int(x)`. -/
noncomputable def trunc (x : ℝ) : ℤ := if 0 ≤ x then ⌊x⌋ else ⌈x⌉

/-- `int(opt[name])` assigned to a `c_int32`. -/
noncomputable def int (d : Dict) (name : String) : Res ℤ := do
  let x ← real d name
  pure (wrap (trunc x))

/-- `opt[name]` assigned to a `c_int32` as it is: only integers are taken (an integer array of one number too, which the model
leaves out). -/
def bare (d : Dict) (name : String) : Res ℤ := do
  match ← get d name with
  | .int k => pure (wrap k)
  | _ => .fail

/-- `if opt[name]:`.  An array of one number has the truth value of its number, a longer one raises `ValueError`, and an empty one is
false. -/
noncomputable def truth (d : Dict) (name : String) : Res Bool := do
  match ← get d name with
  | .int k => pure (decide (k ≠ 0))
  | .float x => pure (decide (x ≠ 0))
  | .list xs => pure (decide (xs ≠ []))
  | .array [] => pure false
  | .array [x] => pure (decide (x ≠ 0))
  | _ => .fail

/-- libsimulate.py:49-51. -/
noncomputable def mode (d : Dict) : Res Mode := do
  let a ← int d "SIM_MODE"
  let b ← int d "ENABLE_ADAPTIVE"
  let c ← int d "RECORD_MODE"
  pure ⟨a, b, c⟩

/-- libsimulate.py:54-60. -/
noncomputable def steps (d : Dict) : Res Steps := do
  let a ← int d "FIXEDSTEP_USE_USERDEFINED"
  let b ← real d "FIXEDSTEP_USERDEFINED"
  let c ← int d "FIXEDSTEP_GYRODEFINED"
  let e ← real d "ADAPTIVE_TOL_ORBIT"
  let g ← real d "ADAPTIVE_TOL_CCOL"
  let h ← real d "ADAPTIVE_MAX_DRHO"
  let i ← real d "ADAPTIVE_MAX_DPHI"
  pure ⟨a, b, c, e, g, h, i⟩

/-- libsimulate.py:63-73. -/
noncomputable def physics (d : Dict) : Res Physics := do
  let a ← int d "ENABLE_ORBIT_FOLLOWING"
  let b ← int d "ENABLE_COULOMB_COLLISIONS"
  let c ← int d "ENABLE_MHD"
  let e ← int d "ENABLE_ATOMIC"
  let g ← int d "ENABLE_ICRH"
  let h ← int d "ENABLE_ALDFORCE"
  let i ← int d "DISABLE_FIRSTORDER_GCTRANS"
  let j ← int d "DISABLE_ENERGY_CCOLL"
  let k ← int d "DISABLE_PITCH_CCOLL"
  let l ← int d "DISABLE_GCDIFF_CCOLL"
  let m ← int d "REVERSE_TIME"
  pure ⟨a, b, c, e, g, h, i, j, k, l, m⟩

/-- Set the bits of `flag` when the option is on. -/
def on (flag : ℕ) (b : Bool) (active : ℕ) : ℕ := if b then active ||| flag else active

/-- The name `ascot2py.endcond_neutrz`, libsimulate.py:104: the module has no such name (it is `endcond_neutr`, ascot2py.py:2276),
which raises `AttributeError`. -/
def neutrz : Res ℕ := .fail

/-- `if opt["ENDCOND_NEUTRALIZED"]:`, libsimulate.py:102-104; the name is looked up only when the option is on. -/
def withNeutrz (b : Bool) (a : ℕ) : Res ℕ :=
  match b with
  | true => do
    let flag ← neutrz
    pure (a ||| flag)
  | false => pure a

/-- libsimulate.py:76-107; the flag values are those of ascot2py.py:2266-2277. -/
noncomputable def active (d : Dict) : Res Active := do
  let b ← truth d "ENDCOND_SIMTIMELIM"
  let a := on 0x1 b 0
  let b ← truth d "ENDCOND_CPUTIMELIM"
  let a := on 0x100 b a
  let b ← truth d "ENDCOND_RHOLIM"
  let a := on 0x20 b (on 0x10 b a)
  let b ← truth d "ENDCOND_ENERGYLIM"
  let a := on 0x4 b (on 0x2 b a)
  let b ← truth d "ENDCOND_WALLHIT"
  let a := on 0x8 b a
  let b ← truth d "ENDCOND_MAXORBS"
  let a := on 0x80 b (on 0x40 b a)
  let x ← real d "ENDCOND_MAXORBS"
  let both : ℤ := if x = 2 then 1 else 0
  let b ← truth d "ENDCOND_NEUTRALIZED"
  let a ← withNeutrz b a
  let b ← truth d "ENDCOND_IONIZED"
  let a := on 0x800 b a
  pure ⟨a, both⟩

/-- libsimulate.py:110-119; `eV` is the value of the elementary charge that the units package has. -/
noncomputable def limits (eV : ℝ) (d : Dict) : Res Limits := do
  let a ← real d "ENDCOND_LIM_SIMTIME"
  let b ← real d "ENDCOND_MAX_MILEAGE"
  let c ← real d "ENDCOND_MAX_CPUTIME"
  let e ← real d "ENDCOND_MAX_RHO"
  let g ← real d "ENDCOND_MIN_RHO"
  let h ← real d "ENDCOND_MIN_THERMAL"
  let i ← real d "ENDCOND_MIN_ENERGY"
  let p ← real d "ENDCOND_MAX_POLOIDALORBS"
  let t ← real d "ENDCOND_MAX_TOROIDALORBS"
  pure ⟨a, b, c, e, g, i * eV, h, 2 * Real.pi * p, 2 * Real.pi * t⟩

/-- libsimulate.py:122-129. -/
noncomputable def collect (d : Dict) : Res Collect := do
  let a ← int d "ENABLE_DIST_5D"
  let b ← int d "ENABLE_DIST_6D"
  let c ← int d "ENABLE_DIST_RHO5D"
  let e ← int d "ENABLE_DIST_RHO6D"
  let g ← int d "ENABLE_DIST_COM"
  let h ← int d "ENABLE_TRANSCOEF"
  let i ← int d "ENABLE_ORBITWRITE"
  pure ⟨a, b * 0, c * 0, e * 0, g * 0, i, h * 0⟩

/-- `x if isinstance(x, list) else [x]` and the loop that stores the numbers, libsimulate.py:142-159.  The C array has 30 entries
and raises `IndexError` beyond; an array that is wrapped into a list is one entry, which must be a single number. -/
def planeList (d : Dict) (name : String) : Res (List ℝ) := do
  match ← get d name with
  | .list xs => if xs.length ≤ maxPoincares then pure xs else .fail
  | .int k => pure [(k : ℝ)]
  | .float x => pure [x]
  | .array [x] => pure [x]
  | .array _ => .fail

/-- What `simulation_initoptions` stores for the orbit diagnostics; the lists are the entries in use. -/
structure OrbSet where
  recordMode : ℤ
  mode : ℤ
  npnt : ℤ
  interval : ℝ
  tor : List ℝ
  pol : List ℝ
  rad : List ℝ

/-- libsimulate.py:131-159. -/
noncomputable def orb (d : Dict) (recordMode : ℤ) : Res OrbSet := do
  let m ← int d "ORBITWRITE_MODE"
  let n ← int d "ORBITWRITE_NPOINT"
  let i ← real d "ORBITWRITE_INTERVAL"
  let tor ← planeList d "ORBITWRITE_TOROIDALANGLES"
  let pol ← planeList d "ORBITWRITE_POLOIDALANGLES"
  let rad ← planeList d "ORBITWRITE_RADIALDISTANCES"
  pure ⟨recordMode, m, n, i, tor.map (fun x => x * Real.pi / 180), pol.map (fun x => x * Real.pi / 180), rad⟩

/-- One coordinate of the distribution, e.g. libsimulate.py:162-164. -/
def axis (d : Dict) (s : String) : Res Axis := do
  let a ← real d ("DIST_MIN_" ++ s)
  let b ← real d ("DIST_MAX_" ++ s)
  let n ← bare d ("DIST_NBIN_" ++ s)
  pure ⟨a, b, n⟩

/-- The coordinate in degrees, libsimulate.py:165-167. -/
noncomputable def axisDeg (d : Dict) (s : String) : Res Axis := do
  let x ← axis d s
  pure ⟨x.min * Real.pi / 180, x.max * Real.pi / 180, x.n⟩

/-- libsimulate.py:161-182. -/
noncomputable def dist5 (d : Dict) : Res Dist5 := do
  let r ← axis d "R"
  let phi ← axisDeg d "PHI"
  let z ← axis d "Z"
  let ppara ← axis d "PPA"
  let pperp ← axis d "PPE"
  let time ← axis d "TIME"
  let q ← axis d "CHARGE"
  pure ⟨r, phi, z, ppara, pperp, time, q⟩

/-- Everything that `simulation_initoptions` stores. -/
structure Stored where
  mode : Mode
  steps : Steps
  physics : Physics
  active : Active
  limits : Limits
  collect : Collect
  orb : OrbSet
  dist5 : Dist5

/-- `simulation_initoptions`, libsimulate.py:27-182, with the library loaded and options given (when none are given, those in the
file are read into the dictionary first). -/
noncomputable def initOptions (eV : ℝ) (d : Dict) : Res Stored := do
  let m ← mode d
  let s ← steps d
  let p ← physics d
  let a ← active d
  let l ← limits eV d
  let c ← collect d
  let o ← orb d (orbRecord m)
  let h ← dist5 d
  pure ⟨m, s, p, a, l, c, o, h⟩

end Ascot.InteractiveOptions
