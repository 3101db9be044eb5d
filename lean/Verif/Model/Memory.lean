import Mathlib.Data.List.Basic

/-!
# Memory of the inputs and diagnostics

What `*_init` allocates and `*_free` releases, in the order of the code.  A function is the list of its `malloc`/`calloc`
and `free` calls; loops are `flatMap`.  Left out: sizes and contents of the blocks, failing allocations (and the branches
that handle them), and the temporary arrays inside of the spline setup (src/spline), which are released there.
Releasing an uninitialised pointer or a block that is not allocated is undefined behaviour: the outcome `none`.
-/
namespace Ascot.Memory

/-- Places in which a pointer is stored: a field, the pointer in an element of an array, an octree node, a cell of the list of
an octree leaf, a link of a chain of recorded points. -/
inductive Name
  | fld (s : String)
  | elt (s : String) (i : Nat)
  | node (path : List Nat)
  | cell (path : List Nat) (j : Nat)
  | link (i j : Nat)
  deriving DecidableEq

inductive Cmd
  /-- `x = malloc(...)` -/
  | alloc (x : Name)
  /-- `free(x)` -/
  | free (x : Name)
  /-- the pointer is in memory that was just allocated: its value is unspecified -/
  | junk (x : Name)

/-- The pointers (`none` if unspecified), the blocks that are allocated, and a bound of the blocks used so far. -/
structure St where
  ptr : Name → Option Nat
  live : Nat → Bool
  next : Nat

def step (s : St) : Cmd → Option St
  | .alloc x =>
    some { ptr := fun y => if y = x then some s.next else s.ptr y
           live := fun k => k == s.next || s.live k
           next := s.next + 1 }
  | .free x =>
    match s.ptr x with
    | none => none
    | some b => if s.live b then some { s with live := fun k => k != b && s.live k } else none
  | .junk x => some { s with ptr := fun y => if y = x then none else s.ptr y }

def run : List Cmd → St → Option St
  | [], s => some s
  | c :: r, s => (step s c).bind (run r)

def allocs (l : List Name) : List Cmd := l.map .alloc
def frees (l : List Name) : List Cmd := l.map .free
def junks (l : List Name) : List Cmd := l.map .junk
def flds (st : String) (l : List String) : List Name := l.map fun x => .fld (st ++ x)

/-! ## Magnetic and electric field -/

/-- `B_2DS_init`, src/Bfield/B_2DS.c:56-118, with the coefficients of `interp2Dcomp_setup`, src/spline/interp2Dcomp.c:177.
`B_3DS_init`, src/Bfield/B_3DS.c, is the same with `interp3Dcomp_setup`. -/
def b2dsInit : List Name := flds "B." ["psi", "B_r", "B_phi", "B_z"]
/-- `B_2DS_free`, src/Bfield/B_2DS.c:125-130; `B_3DS_free`, src/Bfield/B_3DS.c:191-196. -/
def b2dsFree : List Name := flds "B." ["psi", "B_r", "B_phi", "B_z"]

/-- `B_STS_init`, src/Bfield/B_STS.c:80-170; `linint1D_init` keeps the pointers `c1` and `c2`. -/
def bstsInit : List Name := flds "B." ["psi", "B_r", "B_phi", "B_z", "axis_r", "axis_z"]
/-- `B_STS_free`, src/Bfield/B_STS.c:177-182. -/
def bstsFree : List Name := flds "B." ["psi", "B_r", "B_phi", "B_z"]

/-- `E_1DS_init`, src/Efield/E_1DS.c:29-51. -/
def e1dsInit : List Cmd := allocs (flds "E." ["temp", "dV"]) ++ frees (flds "E." ["temp"])
/-- `E_1DS_free`, src/Efield/E_1DS.c:58-60. -/
def e1dsFree : List Name := flds "E." ["dV"]

/-! ## Plasma -/

/-- `plasma_1D_init`, src/plasma/plasma_1D.c:25-102. -/
def p1dInit : List Name := flds "plasma." ["anum", "znum", "mass", "charge", "rho", "vtor", "temp", "dens"]
/-- `plasma_1D_free`, src/plasma/plasma_1D.c:109-117. -/
def p1dFree : List Name := flds "plasma." ["mass", "charge", "anum", "znum", "rho", "temp", "dens"]

/-- `plasma_1Dt_init`, src/plasma/plasma_1Dt.c:23-116. -/
def p1dtInit : List Name := flds "plasma." ["anum", "znum", "mass", "charge", "rho", "time", "vtor", "temp", "dens"]
/-- `plasma_1Dt_free`, src/plasma/plasma_1Dt.c:124-133. -/
def p1dtFree : List Name := flds "plasma." ["mass", "charge", "anum", "znum", "rho", "time", "temp", "dens"]

/-- The temporary arrays of `plasma_1DS_init`, src/plasma/plasma_1DS.c:61-64. -/
def p1dsTemp : List Name := flds "plasma." ["Te_scaled", "Ti_scaled", "ne_scaled", "ni_scaled"]
/-- `plasma_1DS_init` up to the last spline of a density, src/plasma/plasma_1DS.c:47-128. -/
def p1dsHead (nion : Nat) : List Name :=
  flds "plasma." ["anum", "znum", "mass", "charge"] ++ p1dsTemp ++
    [.elt "plasma.temp" 0, .elt "plasma.temp" 1, .fld "plasma.dens"] ++ (List.range (nion + 1)).map (.elt "plasma.dens")
/-- `plasma_1DS_init`, src/plasma/plasma_1DS.c:43-190. -/
def p1dsInit (nion : Nat) : List Cmd := allocs (p1dsHead nion) ++ frees p1dsTemp ++ allocs [.elt "plasma.vtor" 0]
/-- `plasma_1DS_free`, src/plasma/plasma_1DS.c:196-205. -/
def p1dsFree (nion : Nat) : List Name :=
  flds "plasma." ["mass", "charge", "anum", "znum"] ++ (List.range (nion + 1)).map (.elt "plasma.dens") ++ [.fld "plasma.dens"]

/-! ## Neutrals -/

/-- `N0_1D_init`, src/neutral/N0_1D.c:30-72, and `N0_3D_init`, src/neutral/N0_3D.c:20-74; `linint1D_init` and
`linint3D_init` keep the pointer `c`. -/
def n0Init (n : Nat) : List Name :=
  flds "neutral." ["anum", "znum", "maxwellian", "n0", "t0"] ++
    (List.range n).flatMap fun i => [.elt "neutral.n0" i, .elt "neutral.t0" i]
/-- `N0_1D_free`, src/neutral/N0_1D.c:79-89, and `N0_3D_free`, src/neutral/N0_3D.c:81-91: `data->n0->c` is the pointer of the
first element in each turn of the loop. -/
def n0Free (n : Nat) : List Name :=
  flds "neutral." ["anum", "znum", "maxwellian"] ++
    ((List.range n).flatMap fun _ => [.elt "neutral.n0" 0, .elt "neutral.t0" 0]) ++ flds "neutral." ["n0", "t0"]

/-! ## Walls -/

/-- `wall_2d_init`, src/wall/wall_2d.c:22-46. -/
def w2dInit : List Name := flds "wall." ["flag", "wall_r", "wall_z"]
/-- `wall_2d_free`, src/wall/wall_2d.c:53-56. -/
def w2dFree : List Name := flds "wall." ["wall_r", "wall_z"]

/-- `octree_create`, src/octree.c:46-81: the tree below the node at `p` with `d` levels below it; a leaf has an empty list,
which is one cell (`list_int_create`, src/list.c:16-21). -/
def treeCreate : Nat → List Nat → List Name
  | 0, p => [.node p, .cell p 0]
  | d + 1, p => .node p :: (List.range 8).flatMap fun i => treeCreate d (p ++ [i])

/-- `list_int_add`, src/list.c:48-59, for the leaves in the given order; `done` are the leaves of the earlier calls. -/
def treeAdd : List (List Nat) → List (List Nat) → List Name
  | _, [] => []
  | done, p :: r => .cell p (done.count p + 1) :: treeAdd (p :: done) r

/-- `octree_free`, src/octree.c:91-107, with `list_int_free`, src/list.c:28-40; `size` is `list_int_size`. -/
def treeFree (size : List Nat → Nat) : Nat → List Nat → List Name
  | 0, p => (List.range (size p + 1)).map (.cell p) ++ [.node p]
  | d + 1, p => ((List.range 8).flatMap fun i => treeFree size d (p ++ [i])) ++ [.node p]

/-- `wall_3d_init`, src/wall/wall_3d.c:46-110, with `wall_3d_init_octree`, lines 229-304: `d` is the depth of the octree less
one, `adds` are the leaves to which triangles are added, in the order of the calls of `list_int_add`. -/
def w3dInit (d : Nat) (adds : List (List Nat)) : List Cmd :=
  allocs (flds "wall." ["wall_tris"] ++ treeCreate d [] ++ treeAdd [] adds ++ flds "wall." ["tri_list", "tree_array"]) ++
    frees (flds "wall." ["tri_list"] ++ treeFree (fun p => adds.count p) d []) ++ allocs (flds "wall." ["flag"])
/-- `wall_3d_free`, src/wall/wall_3d.c:117-120. -/
def w3dFree : List Name := flds "wall." ["tree_array", "wall_tris"]

/-! ## Boozer coordinates, MHD modes, beams, atomic data -/

/-- `boozer_init`, src/boozer.c:38-72. -/
def boozerInit : List Name := flds "boozer." ["nu_psitheta", "theta_psithetageom", "rs", "zs"]
/-- `boozer_free`, src/boozer.c:79-84. -/
def boozerFree : List Name := flds "boozer." ["rs", "zs", "nu_psitheta", "theta_psithetageom"]

/-- `mhd_stat_init`, src/mhd/mhd_stat.c:23-75, and `mhd_nonstat_init`, src/mhd/mhd_nonstat.c:23-79. -/
def mhdInit (n : Nat) : List Name :=
  flds "mhd." ["nmode", "mmode", "omega_nm", "phase_nm", "amplitude_nm", "phi_nm", "alpha_nm"] ++
    (List.range n).flatMap fun i => [.elt "mhd.alpha_nm" i, .elt "mhd.phi_nm" i]
/-- `mhd_stat_free`, src/mhd/mhd_stat.c:82-94. -/
def mhdStatFree (n : Nat) : List Name :=
  ((List.range n).flatMap fun i => [.elt "mhd.phi_nm" i, .elt "mhd.alpha_nm" i]) ++
    flds "mhd." ["phi_nm", "alpha_nm", "nmode", "mmode", "phase_nm", "omega_nm", "amplitude_nm"]
/-- `mhd_nonstat_free`, src/mhd/mhd_nonstat.c:86-98. -/
def mhdNonstatFree (n : Nat) : List Name :=
  ((List.range n).flatMap fun i => [.elt "mhd.phi_nm" i, .elt "mhd.alpha_nm" i]) ++
    flds "mhd." ["nmode", "mmode", "phase_nm", "omega_nm", "amplitude_nm", "phi_nm", "alpha_nm"]

def beamlet (i : Nat) : List Name :=
  [.elt "nbi.x" i, .elt "nbi.y" i, .elt "nbi.z" i, .elt "nbi.dx" i, .elt "nbi.dy" i, .elt "nbi.dz" i]
/-- `nbi_init`, src/nbi.c:22-89. -/
def nbiInit (n : Nat) : List Name := .fld "nbi.inj" :: (List.range n).flatMap beamlet
/-- `nbi_free`, src/nbi.c:96-108. -/
def nbiFree (n : Nat) : List Name := (List.range n).flatMap beamlet ++ [.fld "nbi.inj"]

/-- The arrays of `asigma_loc_init`, src/asigma/asigma_loc.c:37-44. -/
def asigmaArrays : List Name := flds "asigma." ["z_1", "a_1", "z_2", "a_2", "reac_type", "sigma", "sigmav", "BMSsigmav"]

/-- The three spline structs of reaction `i`. -/
def asigmaElts (i : Nat) : List Name := [.elt "asigma.sigma" i, .elt "asigma.sigmav" i, .elt "asigma.BMSsigmav" i]

/-- The spline of reaction `i`, which depends on the dimension of the data, src/asigma/asigma_loc.c:54-86. -/
def asigmaSpline (dim : Nat) (i : Nat) : List Name :=
  match dim with
  | 1 => [.elt "asigma.sigma" i]
  | 2 => [.elt "asigma.sigmav" i]
  | 3 => [.elt "asigma.BMSsigmav" i]
  | _ => []

/-- What is freed of reaction `i`, which depends on the type of the reaction (src/asigma.h:34-45), src/asigma/asigma_loc.c:115-125. -/
def asigmaDrop (type : Nat) (i : Nat) : List Name :=
  match type with
  | 3 => [.elt "asigma.sigma" i]
  | 6 => [.elt "asigma.sigmav" i]
  | 7 => [.elt "asigma.BMSsigmav" i]
  | _ => []

/-- `asigma_loc_init`, src/asigma/asigma_loc.c:29-107, for reactions of the given types and dimensions. -/
def asigmaInit (n : Nat) (dim : Nat → Nat) : List Cmd :=
  allocs asigmaArrays ++ junks ((List.range n).flatMap asigmaElts) ++ allocs ((List.range n).flatMap fun i => asigmaSpline (dim i) i)
/-- `asigma_loc_free`, src/asigma/asigma_loc.c:114-134. -/
def asigmaFree (n : Nat) (type : Nat → Nat) : List Name := ((List.range n).flatMap fun i => asigmaDrop (type i) i) ++ asigmaArrays

/-! ## Diagnostics -/

inductive Mode
  | fo
  | gc
  | ml
  | hybrid

/-- The arrays of each `record_mode` that `diag_orb_init` allocates, src/diag/diag_orb.c:34-105. -/
def orbFields : Mode → List String
  | .fo => ["mileage", "r", "phi", "z", "p_r", "p_phi", "p_z", "weight", "charge", "rho", "theta", "B_r", "B_phi", "B_z", "simmode"]
  | .gc => ["mileage", "r", "phi", "z", "ppar", "mu", "zeta", "weight", "charge", "rho", "theta", "B_r", "B_phi", "B_z", "simmode"]
  | .ml => ["mileage", "r", "phi", "z", "rho", "theta", "B_r", "B_phi", "B_z", "simmode"]
  | .hybrid => ["mileage", "r", "phi", "z", "p_r", "p_phi", "p_z", "ppar", "mu", "zeta", "weight", "charge", "rho", "theta",
      "B_r", "B_phi", "B_z", "simmode"]

/-- The arrays of each `record_mode` that `diag_orb_free` releases, src/diag/diag_orb.c:128-199. -/
def orbDrop : Mode → List String
  | .fo => ["mileage", "r", "phi", "z", "p_r", "p_phi", "p_z", "weight", "charge", "rho", "theta", "B_r", "B_phi", "B_z", "simmode"]
  | .gc => ["mileage", "r", "phi", "z", "ppar", "mu", "zeta", "weight", "charge", "rho", "theta", "B_r", "B_phi", "B_z", "simmode"]
  | .ml => ["mileage", "r", "phi", "z", "rho", "theta", "B_r", "B_phi", "B_z", "simmode"]
  | .hybrid => ["mileage", "r", "phi", "z", "p_r", "p_phi", "p_z", "ppar", "mu", "zeta", "weight", "charge", "rho", "theta",
      "B_r", "B_phi", "B_z", "simmode"]

/-- `diag_orb_init`, src/diag/diag_orb.c:26-112. -/
def orbInit (m : Mode) (poincare : Bool) : List Name :=
  flds "orb." (["id"] ++ (if poincare then ["pncrid", "pncrdi"] else []) ++ orbFields m ++ ["mrk_pnt", "mrk_recorded"])
/-- `diag_orb_free`, src/diag/diag_orb.c:119-200. -/
def orbFree (m : Mode) (poincare : Bool) : List Name :=
  flds "orb." (["mrk_pnt", "mrk_recorded", "id"] ++ (if poincare then ["pncrid", "pncrdi"] else []) ++ orbDrop m)

/-- `diag_transcoef_init`, src/diag/diag_transcoef.c:30-40. -/
def trcofInit : List Name := flds "trcof." ["id", "Kcoef", "Dcoef", "datapoints"]
/-- `diag_transcoef_free`, src/diag/diag_transcoef.c:47-52. -/
def trcofFree : List Name := flds "trcof." ["datapoints", "id", "Kcoef", "Dcoef"]

/-- What happens to a marker in the transport diagnostics: a point is recorded (src/diag/diag_transcoef.c:188-211), or its
simulation ended and the data are processed, with two temporary arrays if there are enough points, and the chain is
released (lines 226-331). -/
inductive Event
  | record (i : Nat)
  | clean (i : Nat) (enough : Bool)

/-- The calls of a history of events; `chain i` is the length of the chain of marker `i`.  The chain is released from the newest
link on. -/
def trcofRun (chain : Nat → Nat) : List Event → List Cmd
  | [] => []
  | .record i :: r => .alloc (.link i (chain i)) :: trcofRun (fun k => if k = i then chain i + 1 else chain k) r
  | .clean i enough :: r =>
    (if enough then allocs (flds "trcof." ["rho", "time"]) ++ frees (flds "trcof." ["rho", "time"]) else []) ++
      frees ((List.range (chain i)).reverse.map (.link i)) ++ trcofRun (fun k => if k = i then 0 else chain k) r

/-! ## The program -/

/-- The end of `main` before the output is written, src/ascot5_main.c:194-206: what is left of the inputs after the
simulation is released in this order. -/
def mainFree (bfield efield plasma : List Name) (nneutral : Nat) (rest : List Name) : List Cmd :=
  frees bfield ++ frees efield ++ frees plasma ++ frees (n0Free nneutral) ++ frees rest

end Ascot.Memory
