# Formal model of ASCOT5

This document says what is modelled, how each property of `properties.jsonl`
is proved, and what has to be trusted.  The Lean sources are under
`lean/Verif`:

* `Verif/Model/*.lean`  the model: one definition per C function (or per loop of
  a C function), each with a comment citing the file and lines in `/repo`;
* `Verif/Spec/*.lean`   small specifications that do not use the model;
* `Verif/Lemmas/*.lean` helper lemmas;
* `Verif/Props/*.lean`  the property theorems, one namespace per property, with
  `example`s showing that the hypotheses can be met.

## Modelling conventions

* C `real` is a linearly ordered field `K`, or `ℝ` where square roots or
  trigonometric functions occur.  Rounding, overflow to infinity and NaN are not
  modelled.
* C `int` is `Int` or `Nat` unless the property is about the machine width
  (error codes, random generator), where `BitVec`/modular arithmetic is used.
* Undefined behaviour (reading an uninitialised element, reading outside an
  array) is an explicit outcome (`Option.none` or a dedicated constructor).
* `#pragma omp simd` lanes are independent; threads are modelled by an
  interleaving semantics whose atomic steps are the `#pragma omp critical` /
  `atomic` sections of the code.
* Functions called through a data interface (magnetic field, plasma, wall in
  the end conditions) are parameters of the model.

## Trusted base

* The Lean 4.33.0 kernel and the Mathlib definitions used in statements.
* The axioms `propext`, `Classical.choice`, `Quot.sound`.  No other axiom,
  no `sorry`, no `native_decide`, no `bv_decide`.  `AXIOMS.md` (written by
  `tools/axioms.py`) lists the axioms of each theorem.
* The reading of the C sources into the definitions of `Verif/Model`
  (the citations are there to check this), and the conventions above.
  The expressions of `Model/InterpForm.lean` are copied from the C source by
  `tools/interp_forms.py`.
* The compiler, OpenMP, MPI and HDF5 runtimes.
* Assumptions on what is passed as a parameter of the model.  They are
  hypotheses of the theorems, named in the statements: an evaluation that
  fails returns a nonzero code, a rejecting integrator suggests a shorter step,
  a spline returns the derivatives of its value (proved for the splines in
  C36-C38 and C71), `bsearch` conforms to the C standard, `malloc` returns
  memory that is not in use, messages arrive unchanged and in order.

## What is modelled

| Lean module | C source | modelled | left out |
|---|---|---|---|
| Error | error.h, error.c | packing, unpacking, tables of texts | assembling the text with `sprintf` |
| ListInt | list.c | heap of nodes, all operations | - |
| Queue, Simulate | particle.c (cycling), simulate.c | claiming, storing, counters, hybrid stage | monitoring output, offloading to a GPU |
| ToState, MlStep | particle.c | error and end-condition fields of the conversions; field-line conversions | the other fields, which are in Particle |
| Particle | particle.c | input of markers and conversions between state, full orbit, guiding center and field line, all fields, one lane | queue handling (in Queue) and dummy markers |
| EndCond | endcond.c | all checks, parsing, texts | - |
| TimeLoop | simulate/simulate_*.c | one pass of each main loop | CPU time measurement |
| Wiener, Mccc, McccCoefs | simulate/mccc/*.c, .h | arrays of the Wiener process, coefficients, Euler and Milstein steps, step control | tabulated special functions |
| Vpa | simulate/step/step_fo_vpa.c | whole step | - |
| Gceom, GcStep, RungeKutta | simulate/step/step_gc*.c, .h, step_ml_cashkarp.c | equations of motion, tableaus, steps, error estimates | - |
| Gctransform | gctransform.c | all transformations | - |
| Atomic | simulate/atomic.c | whole module | - |
| Asigma, Suzuki | asigma.c, asigma/asigma_loc.c, suzuki.c | initialisation, evaluation | the splines are parameters |
| Bfield, BGS | B_field.c, Bfield/*.c | evaluation functions and interface | initialisation printouts, offload copies |
| Plasma | plasma.c, plasma/*.c | initialisation, evaluation | mass and charge tables, printouts |
| Neutral | neutral.c, neutral/*.c | initialisation, evaluation, allocation and release | offloading |
| Efield | E_field.c, Efield/*.c | initialisation, evaluation | offloading, release |
| Boozer, Mhd | boozer.c, mhd.c, mhd/*.c | evaluation, perturbed fields | the splines are parameters; allocation and release |
| Interp, InterpForm, Spline, Linint | spline/*.c, linint/*.c | solvers, initialisation, evaluation | - |
| Wall2D, Wall3D | wall/*.c, octree.c | collision tests, searches, octree, table | offload copies |
| Dist, HistG, Orbit, Transcoef | diag/*.c, diag.c | indices, updates, sums, recorder, averaging | initialisation of options |
| Mpi | mpi_interface.c | division, packing, gathering of states and orbits | MPI itself; reduction of distributions |
| MathC, Coord, Vec3 | math.c, math.h | utilities, quadrature, conversions | - |
| Physlib | physlib.h | all macros | - |
| Random | random.c | the congruential generator, normal numbers | generators of libraries |
| Bbnbi | bbnbi5.c, nbi.c | generation, tracing | `nbi_init`, input and output |
| Libascot, LibBatch | libascot.c | search for flux surfaces and axis, parallel evaluation loops, coefficients and rates | initialisation, getters, ICRH |
| Biosaw | biosaw.c | whole function | - |
| Afsi, BoschHale | afsi.c, boschhale.c | sampling, kinematics, collection, tables | input and output |
| Options | hdf5io/hdf5_options.c | all options | the HDF5 library: a file is a map from names to arrays |
| MarkerFile | hdf5io/hdf5_marker.c | reading of all marker types, writing of particles | - |
| Output | hdf5io/hdf5_state.c, hdf5_orbit.c, hdf5_transcoef.c, extendible data sets of hdf5_helpers.c | what is written, with units | the HDF5 library: a group is a map from names to columns |
| PyFile, PlasmaFile | hdf5io/hdf5_plasma.c, a5py/ascot5io/plasma.py (writers) | writing in Python, reading in C, report of quasi-neutrality | numpy and h5py: arrays are functions of the indices; number types |
| EfieldFile | hdf5io/hdf5_efield.c, a5py/ascot5io/efield.py (writers) | writing in Python, reading in C | as for PyFile |
| NeutralFile | hdf5io/hdf5_neutral.c, a5py/ascot5io/neutral.py (writers) | writing in Python, reading in C | as for PyFile |
| WallFile | hdf5io/hdf5_wall.c, wall.c (dispatch), wall_2d_init, wall_3d_init (bounding box), a5py/ascot5io/wall.py (writers) | writing in Python, reading in C, hits and flags of the wall as read | as for PyFile; labels of flags (attributes of the data set) are not modelled |
| WallLoad | a5py/routines/runmixin.py (getwall_loads, getwall_figuresofmerit, getwall_3dmesh) | grouping of the markers by element, sums, angles, selection by flags, values for the mesh | `np.argsort` is a parameter with its documented property; reals; plotting is not modelled |
| WallGeom | a5py/ascot5io/wall.py (getwallcontour, getwalloutline, area, barycenters, noderepresentation, convert_wall_2D) | geometry of walls, conversion of a contour into triangles including array updates by index | reals; drawing is not modelled |
| BfieldFile | a5py/ascot5io/bfield.py (write_hdf5 of B_TC, B_GS, B_2DS, B_3DS, B_STS), a5py/physlib/analyticequilibrium.py (psi0), src/hdf5io/hdf5_bfield.c, B_*_init | magnetic fields from the arguments of the writers through the file to the evaluation | splines and linear interpolation of the earlier models; the numerical search of the axis is a parameter; conversions between types are not modelled |
| SplineSetup | interp1Dcomp_setup, interp2Dcomp_setup with an array | splines with one and two axes as functions | the array is a function of the index, its layout is that of the code |
| MhdFile | a5py/ascot5io/mhd.py (write_hdf5 of MHD_STAT, MHD_NONSTAT), src/hdf5io/hdf5_mhd.c, mhd_stat_init, mhd_nonstat_init | MHD modes from the arguments of the writers to the evaluation | evaluation by the model Mhd |
| BoozerFile | a5py/ascot5io/boozer.py (write_hdf5), src/hdf5io/hdf5_boozer.c, boozer_init | Boozer coordinates from the arguments of the writer, with the padding, to the evaluation | evaluation by the model Boozer; pi is the real number on both sides |
| AsigmaFile | a5py/ascot5io/asigma.py (write_hdf5), src/hdf5io/hdf5_asigma.c, asigma_loc_init | reaction tables from the arguments of the writer, packed, to the splines of every reaction | evaluation by Asigma; splines by Spline and Interp |
| NbiFile | a5py/ascot5io/nbi.py (Injector, write_hdf5, generate), src/hdf5io/hdf5_nbi.c, nbi_init | bundles of injectors from the arguments of the writer to the injectors of the simulation; geometry of generated injectors | random numbers are a parameter; plots and the Python reader are left out |
| Provide | a5py/ascotpy/libproviders.py (_provide_bfield) | magnetic fields given as dictionaries: arrays as raw memory, by rows or by columns, read by the C initialisation | memory behind the end of an array is a parameter; the other inputs are left out |
| InputState | a5py/__init__.py (input_init, input_free, file_load), a5py/ascotpy/__init__.py (_init, _free) | the inputs held by the interactive interface as a state machine over histories of calls | what reading a group or taking over a dictionary gives is a parameter; the argument `run`, output and failures to open a file are left out |
| ProvideType | a5py/ascotpy/libproviders.py (_find_input_based_on_kwargs, _provide_nbi) | which type of input a dictionary is, default values, error messages | the table of arguments was taken from the writers; values are not looked at |
| FileTree | a5py/ascot5io/coreio/fileapi.py, treeview.py, tools.py (removegroup, copygroup), a5py/ascot5io/__init__.py (create_input), src/hdf5_interface.c (hdf5_interface_init_results) | names, QIDs, descriptions, dates, active groups, inputs of results; creating, removing, activating, describing, copying; the tree with its tags | datasets, other attributes, classes of the groups, the virtual runs; the file is a list in the order of the names, random numbers and the clock are parameters, descriptions are ASCII |
| Combine | a5py/ascot5io/coreio/tools.py `combineoutput`, bin/a5combine `-a`, `-c` | groups as lists of named columns; `argsort` keeps the order of equal elements; that `h5py` reads elements of a dataset in increasing order only is assumed; of the broadcasting of arrays only what applies to one-dimensional columns |
| Cocos | a5py/physlib/cocos.py | dictionaries of an equilibrium as a structure; arrays as lists; warnings are left out; the arguments sigma_Ip and sigma_B0, which no caller gives, are left out |
| Geqdsk | a5py/templates/importdata.py `import_geqdsk`, `wall_geqdsk` | `np.interp` and `np.linspace` as functions on lists; reading of the file is the external package freeqdsk; `interpolate_psi0` and 3D walls are left out |
| PlasmaImport | a5py/templates/importdata.py `import_plasma_profiles` | `np.loadtxt`, units and the table of species are external; data are lists; a last electron density of zero and a last charge of zero, which give NaN, are errors |
| MarkerGen | `MarkerGenerator.generate` of a5py/routines/markergen.py; `histogram` and `phasespacevolume` of a5py/ascot5io/dist.py | random numbers and the shuffle are parameters; `while` by fuel; exceptions and values that are not numbers are `none`; `input_rhotheta2rz` and the field are parameters; units left out |
| StateQnt | `State._getactual` of a5py/ascot5io/state.py; the functions of a5py/physlib/__init__.py that it uses | units, file access and `input_eval` are external; arrays have shape (n,) or (3, n); names of quantities are a finite type; quantities that are passed through are represented by one of them; division by zero is excluded in theorems |
| OrbitQnt | `Orbits.get`, `Orbits._getactual` of a5py/ascot5io/orbits.py; `getorbit` of a5py/routines/runmixin.py | formulas of quantities are parameters; one quantity at a time; units, file access and `input_eval` are external; columns other than ID, mode, mileage and plane are one parameter |
| Rfof | `rfof_resonance_check_and_kick_gc` of src/rfof.c for one lane; undoing of refused steps in src/simulate/simulate_gc_fixed.c | librfof is a parameter with a memory per lane; pointers are values given and taken back; initialisation and freeing are left out |
| DistData | `DistData` of a5py/ascot5io/dist.py: making from a histogram, copying, `histogram`, `phasespacevolume`, `integrate`, `slice`, `interpolate` | arrays are functions of index lists; units left out; slices by single indices or arrays left out; interpolation for one axis |
| ExiDist | `Dist.ppappe2ekinpitch` of a5py/ascot5io/dist.py; `getdist(None)` of a5py/routines/runmixin.py | momentum axes are neighbours; increasing edges; units left out |
| Moments | `Dist.density`, `energydensity`, `pressure`, `parallelcurrent`, `DistMoment.ordinate` of a5py/ascot5io/dist.py; volumes in `getdist_moments` of a5py/routines/runmixin.py | pressure and current at one point in space, after integration over other abscissae; units left out; the volume within a flux surface is a parameter |
| RhoVolume | `input_rhovolume` of a5py/ascotpy/__init__.py: prisms, Monte Carlo, refinement | points on flux surfaces and the axis are functions; random points are arguments; units left out; the loops have fuel or their points as arguments |
| AfsiSetup | `Afsi.thermal`, `beamthermal`, `beambeam`, `_init_dist_5d`, `_init_histogram`, `reactions` of a5py/routines/afsi5.py | angles in radians; units left out; some but not all momentum arguments are not considered; ctypes pointers left out |
| CoilField | `BioSaw.calculate`, `addto2d`, `addto3d` of a5py/routines/biosaw5.py | arrays as functions of indices; the spline at the axis is a parameter; coils without points are not considered |
| BoozerMake | `boozer_tokamak`, `mhd_consistent_potentials` of a5py/templates/poincare.py; `input_eval_safetyfactor` of a5py/ascotpy/__init__.py | the contour and the field at its points are given; units left out; `interp1d` for points in order |
| AnalyticInputs | a5py/templates/analyticalinputs.py without `bfield_analytical_iter_circular` | units left out; the field on the axis (`interpn`) and the quadrature (`quad`) are given |
| AnalyticInputs (charge exchange) | `asigma_chebyshev_cx_hh0` of a5py/templates/analyticalinputs.py | in the same module; the quadrature is left out |
| TimeStep | `simulate_fo_fixed_inidt`, `simulate_gc_fixed_inidt`, `simulate_gc_adaptive_inidt`, `simulate_ml_adaptive_inidt`, the options of the step in src/hdf5io/hdf5_options.c | real numbers; an infinite step is the outcome `none` |
| Memory | the calls of malloc and free in the init and free functions of the inputs (src/Bfield, src/Efield, src/plasma, src/neutral, src/wall, src/octree.c, src/boozer.c, src/mhd, src/asigma, src/nbi.c), `diag_orb_init/free`, `diag_transcoef_*`, the order of release in `main` | pointers and blocks; sizes and contents left out, allocation does not fail |
| PoincareRun | `options_poincare` (a5py/templates/poincare.py:107-178), the loop of `simulate_ml_adaptive` with end conditions and orbit diagnostics | positions from the integrator are given; uses Orbit and EndCond |
| InteractiveOptions | `simulation_initoptions` (a5py/ascotpy/libsimulate.py:27-182), `Opt.write_hdf5` (a5py/ascot5io/options.py:1063-1113) | Python values are integers, floats, lists or arrays; exceptions are one outcome |
| InteractiveMarkers | `simulation_initmarkers` (a5py/ascotpy/libsimulate.py:219-345), `write_hdf5` of `Prt`, `GC`, `FL` (a5py/ascot5io/marker.py:320-381, 451-537, 620-706), `parseunits`, `gamma_velocity` | columns of reals with an optional unit; the constants of the units package are those of the program |
| InteractiveRun | `simulation_initmarkers`, `simulation_run`, `simulation_bbnbi`, `simulation_free` (a5py/ascotpy/libsimulate.py:224-601), `VirtualRun` (a5py/routines/virtualrun.py), `diag_init`/`diag_free` (src/diag.c) | one process; memory is a set of blocks, misuse is the outcome `none`; specification in Spec/Session |
| VirtualRun | `VirtualState.get`, `VirtualOrbits.get`, `VirtualDist` (a5py/routines/virtualrun.py:103-444), `read_data` (a5py/ascot5io/coreio/fileapi.py:613-637), `_val` of `Orbits.get` (a5py/ascot5io/orbits.py:57-66) | quantities are dimension and SI values; numbers that do not fit an integer give an arbitrary one |
| Arguments | `read_arguments` (src/ascot5_main.c:451-599), `bbnbi_read_arguments` (src/bbnbi5_main.c:147-295) | words are lists of characters; `getopt_long` as documented for glibc; `atoi` modelled, `atof` a parameter; specification in Spec/CommandLine |
| PncrPlanes | `getorbit_poincareplanes`, `plotorbit_poincare` (a5py/routines/runmixin.py:379-416, 1290-1408), the use of the planes in src/diag/diag_orb.c | axes and chosen points only; limits, labels and colours left out |
| GatherDiag | `mpi_gather_diag` (src/mpi_interface.c:296-562), `diag_orb_init`, `hdf5_orbit_write` and `hdf5_transcoef_write` by arrays and numbers of markers | program built with MPI; messages arrive in order; of the transport coefficients only the IDs |
| InputEval | `input_eval` (a5py/ascotpy/__init__.py:446-595) and `zeff` of `_eval_plasma` (a5py/ascotpy/libascot.py:279-287) | values stored by the library are a parameter, with nan as none; real numbers without units; ions by number and derivatives of eigenfunctions left out |
| PyCoefs | `input_eval_collcoefs` and `input_eval_atomiccoefs` (a5py/ascotpy/libascot.py:539-717) on top of LibBatch | units left out; arrays as functions of the position in memory; reaction rates at one point and speed |
| Resonance | `marker_resonance` (a5py/templates/poincare.py:395-455) and `input_eval_orbitresonance` (a5py/ascotpy/__init__.py:1830-1951) | crossings recorded by the simulation are a parameter; no units; the radius of a marker stands for its rho; division by zero excluded |
| MhdPotentials | `mhd_consistent_potentials` (a5py/templates/poincare.py:327-393) | the profiles of `input_eval_safetyfactor` are a parameter; stationary modes only; no units; infinities and `nan` are one outcome |
| Species | `species`, `autodetect`, `speciesdict` (a5py/physlib/species.py) | charges in e, masses in 1e-7 amu, no units |
| Seam | selection of data in `input_check_bfield_seam` (a5py/ascotpy/__init__.py:693-772) | fit, differences and figure are not modelled; real numbers |
| LossSummary | `getstate_losssummary` (a5py/routines/runmixin.py:297-323) | no rounding, units or text; what is read of the two states is a list of markers |
| OrbitAverage | `getorbit_average` (a5py/routines/runmixin.py:418-468) | Cartesian positions in place of `pol2cart`; real numbers; angles in degrees |
| StatePy | a5py state.py, runmixin.py | end-condition queries, marker summary | other quantities |
| DistFile | hdf5_dist.c, hdf5_histogram.c | abscissas, units and data of the distribution files | unit of the ordinate |
| RunFile | hdf5_interface.c, arguments of ascot5_main.c and bbnbi5_main.c | selection of inputs, record of QIDs, file names, run groups shared by several programs | contents of the inputs and results, generation of QIDs |
| AscotMain | ascot5_main.c | order of the main program, division of markers, summary, in a build without MPI | parts of the program modelled elsewhere are parameters; freeing of memory except for the double free |

Not modelled at all: the parts of `hdf5io/` that are not
named above,
the Python interface (`a5py/`) except for what is named above, `libascot_mem.c`, `rfof.c`, GPU
offloading, the build system.

## Violations

Where the code does not have a property, the negation is proved with a concrete
witness next to a theorem for the part that holds (`_partial`).  The notes in
`MANIFEST.json`, repeated below, name these theorems.

## Plan per property

| id | model | proof |
|----|-------|-------|
| C01 | `error_raise`, `error_parse` on integers | round trip iff type < 256 and line < 1024; counterexample for the raise sites of `particle.c` beyond line 1023 |
| C02 | the two `switch` tables of `error_parse2str` | case analysis over the declared enums; counterexamples for the undescribed ones |
| C03 | heap of nodes with addresses, `malloc`/`free` | chain invariant by induction over add sequences |
| C04, C05 | particle queue with atomic claim and atomic finish; threads with lanes; interleaving semantics | inductive invariant over all executions |
| C06 | same with the guiding-center cycling rule | counterexample execution, and proof when no marker has ended initially |
| C07-C09 | `endcond_check_*` per lane with wall and plasma as parameters | decision logic, flag by flag |
| C10 | same plus the conversions back to the state | decision logic; counterexample for field lines |
| C11 | bounce update as a fold over sign history | induction over histories |
| C12 | `endcond_parse` | exact characterisation for all flag values |
| C13, C14, C16 | one iteration of the adaptive loop with integrator outcomes as parameters | case analysis; counterexamples for ties and for the sign |
| C15 | fixed-step loop | induction over steps |
| C17-C19, C67 | the Wiener arrays with slot links | representation invariant: the array is a chain for a sorted list |
| C20, C21 | block partition; pack and unpack buffers | arithmetic; index lemmas |
| C22-C26 | index functions, updates, summation ranges | arithmetic; sums; counterexamples |
| C27, C28 | ring buffer; crossing functions | induction over histories; ordered-field algebra |
| C29 | averaging loop | arithmetic; counterexample |
| C30, C31 | octree as an inductive tree; minimum search | structural induction; fold invariant |
| C32, C33 | collision tests over an ordered field | algebra; fold invariant |
| C34 | crossing parity | rotation invariance by permutation of edges; counterexample at vertices |
| C35, C39 | index computation plus table access in `Option` | floor arithmetic; counterexample at the upper boundary |
| C36-C38 | the elimination loops of the spline solvers | loop invariants of the Thomas algorithm; uniqueness by diagonal dominance |
| C40 | the generator modulo 2^64 | Hull-Dobell argument by induction on the exponent |
| C41 | index set written by the loop | arithmetic |
| C42, C43 | one momentum update with the 3x3 matrices of the code | polynomial identities |
| C44-C48 | formulas of the macros and functions over ℝ | algebraic and trigonometric identities |
| C49 | the two tableaus | order conditions for all trees by polynomial identities; linear systems; step control by case analysis |
| C50, C51 | reaction and reflection logic | case analysis; counterexample for large kicks |
| C52, C55 | interval search | induction |
| C53 | hybrid stage over a population, as executions of the queue | case analysis; counterexample |
| C54, C59, C62 | offset and index computations | exact sets of safe inputs; counterexamples |
| C56-C58, C65, C66 | the utility functions | induction and algebra |
| C60 | apportionment loop | induction |
| C61 | kinematics of a reaction | algebra over ℝ |
| C63 | wrappers | case analysis |
| C64, C83 | the three conversions of field-line markers, the step | case analysis; counterexample |
| C68 | gathering of the orbit arrays | index lemmas |
| C69, C70 | searches together with the tests of C32-C34 | geometry over an ordered field |
| C71 | spline of splines | uniqueness of C36 and C37 along each axis |
| C72 | rejection loop on the states of the generator | period of C40 |
| C73-C75 | utilities, run summary | algebra; induction |
| C76, C77 | full-orbit step | polynomial identities; counterexamples |
| C78 | first-order transformation | vector calculus identities; counterexamples |
| C79, C80 | guiding-center equations as differential equations | derivative along solutions |
| C81, C82 | steps with every outcome of the evaluations | case analysis; trigonometry |
| C84-C86 | field models | derivatives of the formulas of the code |
| C87-C89 | rates and reactions | sums; permutation; exponential law |
| C90-C95 | collision coefficients and steps | derivatives, stationary flux, case analysis |
| C96-C98 | profiles in radius and time, interface | interval search, splines of C36 |
| C99-C101 | injection and tracing | vector algebra, induction over steps, probability of the threshold |
| C102 | histogram of the products | fold over samples; injectivity of the index |
| C103 | sampling formula for thermal energies | Laplace transform of the law and its uniqueness |
| C104 | tables and fits | Bernstein coefficients of the polynomials on each range |
| C105 | tables per species, evaluation loops, heap of blocks | equality with the interpolation of C35; counting of live blocks; witnesses with two species |
| C106 | evaluation from rho and its gradient | chain rule with the spline of C36 and the field of C86 |
| C107 | evaluation, contour test, range | chain rule for the angle around the axis; witnesses for the violations |
| C108 | loop over modes, curl and gradients | derivative of the sum over modes by induction over their list; curl as a derivative in cylindrical coordinates |
| C109 | input of the three marker types with all tests | case analysis over tests and evaluations; energy and pitch through the relativistic identities of C46; counterexamples in a toroidal field |
| C110 | conversions between marker structures | record equalities; round trips of C47; counterexamples for the poloidal angle |
| C111 | bisection along the ray | invariant of the interval; completeness for monotone and Lipschitz rho; counterexample with an X-point |
| C112 | gradient descent in two and three dimensions | induction over passes; descent lemma and a telescoping sum for convergence; counterexamples |
| C113 | loop iterations as lists of stores, executions as permutations | stores into distinct places commute; injectivity of the index formulas; sums over species |
| C114 | entry of the rate array as undefined, untouched or stored | case comparison with `atomic_rates`; counterexample with an impurity |
| C115 | vector algebra of the three functions | product of determinants, dual bases |
| C116 | closed form per segment | fundamental theorem of calculus; chain rule for the divergence |
| C117 | reader as a monad over files that are maps from names to arrays | inversion of the reads, table of documented options |
| C118 | reader composed with `endcond_check_gc` | C117 and C08 |
| C119 | filling and counting of the plane arrays | induction over the list |
| C120 | reader monad of C117, one row per marker | inversion of the reads; the momentum map is inverted |
| C121 | group as a map from names to columns, table of documented quantities | each write leaves the others alone; case by case over the table |
| C122 | same for orbits, mask of the written points | same, with C27 for the contents |
| C123 | same for coefficients | same |
| C124 | bit operations of the Python code, as lists of words | induction over the query; bitwise extensionality; table of raise sites |
| C125 | axes and data of the five distribution files; reading of the stored edges as a specification | per-axis agreement of edges, then C22-C24 for the cells |
| C126 | axes in use of a general histogram | same with C25 |
| C127 | file as a map from kind and QID to groups, histories of operations | invariant by induction over the history; witnesses for overlapping runs |
| C128 | selection of one input, folded over the kinds | induction over the list of kinds |
| C129 | argument strings as lists of characters | case analysis |
| C130 | main program in a build without MPI | C127 for a single run, C20 for the blocks, C75 for the summary |
| C131 | writers of the Python interface and readers of the program, arrays with several indices in order of storage | element formulas for flattened and transposed arrays; C52, C96, C97 |
| C132 | the loops over radii and ions, on the tables made by the initialisation | induction over the loops; bounds of the table of densities |
| C133 | writers of constant, radial and gridded fields, the reader, joined to the model of evaluation | composition with C106; the last group that is found decides |
| C134 | writers and reader of neutral data with the transposes and flat indices | flat index of the transposed array by division with remainder; composition with C105 |
| C135 | writers and reader of walls, with the wall models of C30-C34 on the data as read | composition of the file lemmas with C33 and C31 |
| C136 | load sums as in Python for any result of argsort | the slice between two search positions of sorted identifiers is the filter of that identifier; sums over permutations |
| C137 | geometry functions and the conversion as array updates | explicit index arithmetic of the updates; sides of the grid as pairs of nodes modulo the sizes, each counted twice |
| C138 | writers, reader, initialisation and evaluation composed | index arithmetic of the transposed tables; C71 for the splines, C35 for the axis, C84 and C85 for the analytic fields |
| C139 | evaluations of the compact splines, initialisation of the spline fields | the pieces are joined to one function on the axis; at each position the one-sided derivatives of the two cells agree by the spline conditions; in more dimensions the value is a finite sum of products of one-dimensional splines (linearity in the table); the fields by C86 |
| C140 | writers, reader and initialisation of the MHD modes | the array index of mode, radius and time is followed through the file; splines by C36 and C71; sums over modes by C108 |
| C141 | writer with padding, reader and initialisation of the Boozer coordinates | the padded table is shown to be the table continued by whole turns; splines by C71 and C139; evaluation by C107; straight coordinates by uniqueness of splines |
| C142 | writer, reader and initialisation of the reaction data | position in the packed array followed through the loop; splines by C36 and C71; evaluation by the model of asigma.c; negation for the second reaction with a concrete file |
| C143 | writer, reader and initialisation of injectors | invariant of the two reading loops and of the unpacking loop; injection by C99 |
| C144 | NBI.generate | geometry from the angle addition formulas; negations with concrete injectors |
| C145 | dictionaries of magnetic fields | the data are compared with those of writer and reader (C138); negations with concrete arrays |
| C146 | state machine of the interactive interface | simulation of a small specification, by induction over histories; invariant for safety; negations with concrete histories |
| C147 | choice of the type of a dictionary | the loop over types by induction; ambiguity excluded by a check of the whole table of arguments, lifted to all dictionaries |
| C148 | histories of the groups of a file | an invariant on files, kept by each operation, by induction over histories; the effect of each operation on the set of groups and on the active ones |
| C149 | opening a file | the tree of a file that meets the invariant is built step by step; tags by an invariant of the loop over the groups from the most recent on |
| C150 | combining outputs | a group is a table of rows; appending columns appends rows; induction over the files; for continued runs the masked assignment on sorted identifiers is a lookup, by induction over both sorted lists |
| C151 | equilibrium conventions | specification: what a value means in terms of the counter-clockwise angle; factors of the conversion are quotients of meanings, by cases over the table of conventions; composition from uniqueness |
| C152 | equilibrium files | conversion by C151; interpolation by induction over the samples; positions of rows from the grid; the imported field referred to the meaning of the file |
| C153 | plasma profiles | the value at a position is a mean of two entries of the table which depend on the positions only; sums of charges are linear, by induction over species; limits scale with the last entry |
| C154 | markers from distributions | invariant of the rejection loop over all random numbers; sums over cells; cells by division with remainder; findings on flux coordinates, velocities, the marker distribution and termination |
| C155 | quantities of states | arrays of all markers reduced to functions of one marker by lemmas on element-wise operations; relations to a specification of relativistic kinematics; findings for three markers and poloidal angles |
| C156 | quantities along orbits | masks, index arrays and stable sorting on lists; alignment of markers from sorted unique identifiers; findings for unrecorded markers and for data of two modes |
| C157 | kicks by waves | one lane with the library as a parameter; algebra of Newtonian and relativistic kinematics; findings on the canonical momentum and on fast markers |
| C158 | operations on distributions | arrays as functions of index lists; integration by induction over the axes against marginal sums; slices by sorted lists of bins; findings on factors that sum to zero, steps and interpolation |
| C159 | energy and pitch | sums over cells against sums over bins by counting of edges; monotonicity of energy; the loop over a shrinking list for all sets of distributions |
| C160 | moments | totals over marginal sums with factors; sums of squares; telescoping sums; findings on perpendicular pressure, relativistic currents, volumes and three cells |
| C161 | flux-surface volumes | signed triangle sums telescope to the polygon's area and moment; induction on refinement; counting points by cells; findings on limits, first cells and Monte Carlo |
| C162 | fusion setup | last match in a fold; rounding of the table; mixed-radix numbers of flat arrays with seven and sixteen axes, joined to C59; all cases of given arguments; findings |
| C163 | fields of coils | Spec/Revolve turns coils; equivariance of every step of the Biot-Savart law; induction over the loop of `revolve`; averages as finite sums; findings |
| C164 | Boozer coordinates of a tokamak | sums around a polygon (Spec/FieldLine); positivity of every step for both directions; interpolation at nodes; algebra of the E field of C108 summed over modes; finding |
| C165 | analytical inputs | derivatives of the ripple (Spec/Partial), geometric sum of roots of unity, interpolation of C52 and C105 applied to the tables, edges of the wall counted; findings |
| C166 | charge-exchange data | Chebyshev polynomials of Mathlib, integral over the sphere for the relative speed, bounds of the exponential, C142 applied to the table; finding |
| C167 | first time step | exact solution of the equation of motion (Spec/Gyration, uniqueness from the conserved length of the difference), angle of the rotation of the full-orbit scheme; findings |
| C168 | memory of inputs and diagnostics | a program of allocations and releases as a state machine; symbolic set of owned names as invariant; induction over the octree, the triangles, the history of the markers; findings |
| C169 | crossings of a Poincare run | telescoping count of full turns along the loop with its end conditions, ring memory (C28); findings |
| C170 | options of interactive runs | refinement between the two option readers, block by block (C117–C119 for the program); findings |
| C171 | markers of interactive runs | refinement: reading the written columns (C120) gives the interactive markers; findings |
| C172 | sequences of interactive runs | refinement of a session without memory, invariant over all sequences of calls; findings |
| C173 | results of interactive runs | equality with writing the same data to a file (C121, C122) and reading it; findings |
| C174 | command-line settings | induction over the settings given, last value counts; findings |
| C175 | Poincaré planes in the Python interface | numbers of the recorded crossings compared with the listed ones; exact conditions for agreement; findings |
| C176 | diagnostics of runs with several processes | arrays compared by lists; C68 for the places; findings |
| C177 | inputs evaluated in Python | index arithmetic of grids by induction; derivatives of Mathlib for divergence, curl and gradient; findings on bpol and zeff |
| C178 | coefficients and rates evaluated in Python | from the stores of C113, for every schedule; names matched one by one; findings |
| C179 | orbit frequencies on grids | loop over markers by induction, index arithmetic; telescoping sums; findings |
| C180 | potentials of MHD modes | loop over modes by induction, field identities; findings at zeros of the denominators and on the sign |
| C181 | names and numbers of species | induction over the branches for arbitrary strings; the whole table checked by the kernel; finding |
| C182 | check for missing planes | index arithmetic of rolled and cut lists modulo the period; findings on the position |
| C183 | summary of losses | induction over the markers; finding on the energy |
| C184 | orbit average | weighted mean by induction; first indices in concatenated lists; findings on incomplete orbits |

## Results

<!-- results -->
| id | title | status | remarks |
|---|---|---|---|
| C01 | Error codes decode to the values they were raised with | partial | False for six raise sites of particle.c beyond line 1023 (not_all_sites, misreported_sites); proved for all others. |
| C02 | Every error that can be raised has a readable description | partial | False for ERR_INTEGRATION and EF_SUZUKI; errors of plasma_1Dt.c name another file. Proved for all others. |
| C03 | Integer list behaves as a sequence and is freed exactly once | proved | Pointer-level model with any allocator. |
| C04 | No marker is ever simulated twice | proved | All interleavings of all numbers of threads and lanes; atomicity of the omp critical sections is assumed. |
| C05 | A full-orbit simulation finishes every marker exactly once | proved | All interleavings. Termination of the physics of a marker is not part of the model. |
| C06 | A guiding-center or field-line simulation finishes every marker exactly once | partial | False if markers have ended before the start (gc_leaves_markers); proved when none has. |
| C07 | Full-orbit end conditions are exactly the ones the user enabled and met | proved | Wall and plasma are parameters. The time limit is checked before the marker is moved to the wall-hit point. |
| C08 | Guiding-center end conditions are exactly the ones the user enabled and met | proved | Wall and plasma are parameters. |
| C09 | Field-line end conditions are exactly the ones the user enabled and met | proved | Wall is a parameter. |
| C10 | A finished marker shows either an error or an end condition | partial | False for field lines (errors are never reported) and when the final conversion fails after an end condition; proved otherwise. |
| C11 | Completed bounces are counted correctly | partial | The counter is determined by the number of turns; the compared number decreases at every even turn, but the limit is first reached at the right turn. |
| C12 | The reported list of end conditions matches the stored flags | proved |  |
| C13 | A rejected step leaves no trace | proved | Guiding centers and field lines. The integrators are parameters; assumed: a rejecting integrator suggests a shorter step and no wall is hit by a segment of zero length. CPU time does advance. |
| C14 | Accepted adaptive steps respect the user's step limits | partial | Holds unless both limits are exceeded by the same factor; in that case the step is accepted (witness). |
| C15 | Simulated time moves in the chosen direction and mileage never decreases | partial | Full orbit and guiding center without ICRH proved. With ICRH the claim is false: after a shortened step succeeds, time advances by the default step (witness). |
| C16 | Adaptive step length keeps its sign in reversed time | partial | Proved with orbit following enabled. With it disabled the sign of the step is never restored and time moves forwards (witness). |
| C17 | Wiener process bookkeeping stays well formed | partial | Proved for requests at or after the first stored time. An earlier request succeeds and makes the chain circular (witness); a failing clean frees the first slot (witness). |
| C18 | The Wiener process has one value per time | proved | For all histories as in C17. |
| C19 | Exhausting the Wiener storage is reported and harmless | proved | For all histories as in C17. |
| C20 | Every marker belongs to exactly one process | proved |  |
| C21 | Gathering marker states preserves every field and the order | proved | Message passing is assumed to be reliable and in order. |
| C22 | Distribution bins are distinct and inside the array | proved | Array indices without overflow. |
| C23 | Guiding-center distributions conserve weight | proved | Over an ordered field with floor in place of floating point; lanes are added one after another. |
| C24 | Markers outside the grid do not contribute to full-orbit distributions | partial | In the CPU build a running marker outside the grid uses an uninitialised index (witness). Proved if all running markers are inside, and without this condition for the GPU build. |
| C25 | General histograms bin only markers inside their axes | partial | Markers outside an axis are counted in another cell, and five of the axes are not evaluated (witnesses). |
| C26 | Summing diagnostics adds every bin of every enabled distribution | partial | The toroidal bins of the 5D distribution are left out and the constants-of-motion distribution is not summed (witnesses). |
| C27 | The orbit recorder keeps the latest points | proved | Over an ordered field in place of floating point; lanes one after another. |
| C28 | Poincare points lie on the requested surface | partial | Proved for steps below half a turn that do not end on the surface. Larger steps, steps that end on the surface, and radial surfaces in full-orbit mode give wrong records (witnesses). |
| C29 | Transport coefficients reproduce exact drift | partial | The claim is false: with n averaged points the reported advection is (n-1)/n of the velocity, and points are dropped when the averaging length does not divide the record (witnesses). Proved: the exact value reported, and zero for a marker that does not move. |
| C30 | The wall octree finds every triangle near a point | proved | Exact contents for all trees and points off the dividing planes; initialisation and table read-back for every wall. near_partial adds that a triangle with a point in the cell is listed, for triangles not almost parallel to an axis or plane. |
| C31 | The first wall hit along a step is reported | proved | Both searches. They differ for a step that begins on a triangle (C69.full_ignores_start). |
| C32 | A reported triangle collision is a real intersection | partial | Soundness in full. Completeness is false for triangles whose normal is not longer than the tolerance (witness), and proved for all others. |
| C33 | The two-dimensional wall reports the nearest crossing | proved | For all polygons and steps; a step that runs along a segment is not reported by that segment (witness). |
| C34 | Point-in-polygon test is a crossing parity and is insensitive to where the polygon starts | partial | Parity proved for points that are not at the height of a vertex, where the claim is false (witness: the centre of a diamond is outside). Independence of the first vertex holds without exception. |
| C35 | Linear interpolation is exact at grid nodes, bounded by its cell corners and reads only stored data | partial | False at the last point of a non-periodic axis, where an element after the table is read (upper_end_fails, for every table), and for the two-dimensional initialisation, which does not store the boundary conditions (witness). Proved elsewhere. |
| C36 | Natural cubic splines interpolate the data and are smooth | proved | For every table of two or more points (with a single point the solver leaves its work array: one_point_undefined), compact and explicit form, with value and both derivatives at every coordinate of the axis including its end. |
| C37 | Periodic cubic splines interpolate the data and are smooth across the period | partial | Proved for three or more points and every coordinate. Finding: with two points the solver writes outside of its work array. |
| C38 | Compact and explicit splines are the same function | partial | One dimension: value, derivatives and errors. Three dimensions: value and errors. Two dimensions: if no axis is periodic. Finding: with a periodic axis the two-dimensional explicit form never writes the coefficients of the last cell of the period and reads them. |
| C39 | Spline evaluation reads only stored coefficients | proved | Value and derivative evaluations of the compact splines in one, two and three dimensions, all boundary conditions; exactly the coordinates outside are rejected. |
| C40 | The random number generator has full period | proved | 64-bit wrap-around arithmetic as in C. Finding: both 0 and 1 are returned as uniform numbers at some point of every sequence. |
| C41 | Filling an array with normal random numbers writes exactly that array | proved | Exact arithmetic; the transformation x*sqrt(-2 log w / w) is a parameter. |
| C42 | Magnetic field does no work on a full-orbit marker | proved | Exact arithmetic. Finding: a marker at rest gets an undefined momentum even with radiation reaction disabled. |
| C43 | Full-orbit momentum update is reversible and ballistic for neutrals | proved | Exact arithmetic, without radiation reaction for the reversal, away from R = 0. |
| C44 | Coordinate conversions are inverse to each other | proved | Exact arithmetic. |
| C45 | Field gradient conversions are inverse to each other | partial | Finding: the conversion of a gradient to Cartesian coordinates has two wrong signs, so the round trip holds only when the x component of the field vanishes. |
| C46 | Kinematic conversions are mutually consistent | proved | Exact arithmetic. Finding: the two gyroradius macros, which no source uses, are not the gyroradius. |
| C47 | Zeroth-order guiding-center transform round trip | proved | Real arithmetic. Defined exactly when the momentum is not parallel to the field and the field is not vertical; otherwise the C code divides by zero (finding). |
| C48 | Guiding-center equations conserve energy and magnetic moment | proved | The equations of motion as differential equations over the reals, for arbitrary differentiable fields. |
| C49 | Runge-Kutta steps integrate polynomials exactly | proved | Order conditions for all rooted trees; exactness for polynomials and the exponential series for linear systems. Findings: the cap on the next step works the wrong way for backward steps, field-line steps have no cap, the error estimate depends on the origin of the toroidal angle. |
| C50 | Atomic reactions change the charge state by at most one and keep it physical | proved | Charges are multiples of the elementary charge; cast of the rounded charge to int assumed in range. |
| C51 | Collisions keep velocity above the cutoff and pitch within bounds | partial | The bound on the speed holds for all random numbers. Finding: the pitch leaves its bounds if it exceeds three in size before the mirror, and the marker then has a negative magnetic moment without an error; the exact condition is proved. |
| C52 | One-dimensional plasma profiles are interpolated between the right grid points | partial | Linear interpolation of density and temperature, one by one or together, and an error outside, for every table. The property fails at the last grid point, where there is data but an error is returned (last_point_rejected). The flow is not interpolated (flow_is_a_step). |
| C53 | Hybrid mode treats each marker independently of the others | partial | Which markers are continued and what becomes of the others, for all schedules of the second stage. The second half of the property fails: the hand-over bit of a marker that is not continued is taken off only if some other marker is continued (depends_on_others). With rhomax enabled no marker is handed over (rhomax_prevents_handover). |
| C54 | Atomic data of each reaction is its own | partial | Violated by the code: every reaction is built from the start of the packed data, so only the first reaction holds its own block; errors of all but the last reaction are lost. |
| C55 | Sorted search brackets the key | partial | Proved for strictly ascending tables and any bsearch that conforms to the C standard. Finding: with repeated values in the table a key inside of it may not be found. |
| C56 | Unique counting | proved |  |
| C57 | Evenly spaced vectors | proved | Exact arithmetic. |
| C58 | Integer powers | proved | Signed overflow is a separate outcome, shown to occur exactly when the power is not an int. |
| C59 | Sampling from a beam distribution returns momenta of the sampled bin | partial | Bins are selected with probability proportional to their content. The momentum is the centre of the selected bin if both momentum axes have the same number of bins (momentum_partial); in general the parallel bin is wrong (momentum_bins, parallel_outside), the pitch is taken from the energy index (energy_pitch_bins, pitch_outside), a random number equal to one leaves the momentum unset (one_unset), and distributions in flux coordinates are read outside of the array (flux_cell_outside). |
| C60 | Injected markers are shared among injectors without loss and carry the injected power | partial | Numbers, slots and identifiers hold for all powers. The power is carried by every injector that gets at least one marker; the power of an injector whose share rounds to zero is lost (power_lost). |
| C61 | Fusion products conserve momentum and energy | partial | Proved for the velocities and for the reported momenta. In the energy/pitch basis the relativistic energy of the classically computed velocity is reported, so that the reported energies exceed the available energy (too_much_energy). |
| C62 | Beam stopping evaluation reads only its tables | partial | Violated by the code: the exact set of compositions without out-of-bounds access is proved, with witnesses outside it. |
| C63 | Field evaluation errors give defined fallback values | partial | Fallback or selected value, for every function of the interface. Findings: at the axis the derivative of rho is infinite without an error; if the flux at the axis equals that at the separatrix, rho is not a number without an error. Spline evaluation is a parameter. |
| C64 | Field-line markers keep the direction the user asked for | partial | Finding: input markers with negative pitch are traced along the field, because the input conversion stores pitch >= 0 (0 or 1) and the state conversion tests this number for >= 0. Proved for non-negative pitch and for markers that are taken out of and put back into the simulation. |
| C65 | Matrix product | partial | Finding: arguments are read by columns and the result is written by rows, so no single storage convention gives the product. |
| C66 | Adaptive quadrature is exact for cubics | proved | Proved up to degree five, in exact arithmetic. |
| C67 | New Wiener samples follow the Brownian bridge | proved | The random numbers and the square root are parameters. |
| C68 | Gathered orbits are in the place of their marker | partial | Proved for every array that is gathered, and so for all arrays of full orbits and guiding centres. Momenta and charges of hybrid runs are not gathered, and for field lines pointers that were never set are used (C176). Message passing is assumed to be reliable and in order. |
| C69 | No wall crossing of a step is missed by the accelerated search | partial | Proved for triangles and steps that are not almost parallel; the code's tests use tolerances outside of that. |
| C70 | A step from one side of the two-dimensional wall to the other is reported | partial | Proved for end points that are not at the height of a vertex; false there (witness). |
| C71 | Two- and three-dimensional splines are splines of splines and their derivatives are derivatives | proved | The evaluation expressions in the model are transcribed mechanically from the C source by tools/interp_forms.py. |
| C72 | Sampling a normal random number always ends | proved | Exact arithmetic for the uniform numbers (in double precision the ratio rounds). |
| C73 | Points of a plane are recognised | partial | Finding: the function returns zero for every point, also for those of the plane. |
| C74 | Barycentric coordinates reproduce the point | proved |  |
| C75 | The run summary counts every marker once | proved | For at least one marker. The error codes are integers that fit into int. |
| C76 | Radiation reaction acts on gyrating markers in proportion to time | partial | Findings: the time step is missing, the parallel part is divided by the momentum, and with MHD modes the setting has no effect. Proved: no effect on neutral markers and when disabled. |
| C77 | A full-orbit step obeys the Lorentz force | proved | Exact arithmetic, without radiation reaction. |
| C78 | First-order guiding-center corrections use the local field geometry | partial | Curvature is right only when the current is parallel to the field (the exact difference is b x curl B / B); the uniform-field case holds only where Bx = 0. Both failures are shown by witnesses. The gyrophase gauge term is modelled but not specified. |
| C79 | Guiding-center equations conserve canonical toroidal momentum in axisymmetric fields | proved | Real arithmetic, differentiable fields. |
| C80 | Guiding centers follow the effective field, and a silent mode changes nothing | partial | Finding: with modes enabled the second component of the effective field is computed from the wrong component of grad B x B, so a silent mode changes the motion unless that term vanishes. |
| C81 | A guiding-center step either succeeds consistently or stops the marker with an error | partial | Proved for the fixed step and the adaptive step without modes. Findings: a trial step that would be rejected can stop the marker with an error; the adaptive step with modes stores an uninitialised gyroangle and accepts negative radii; the fixed step with modes compares the magnetic moment with the speed of light. |
| C82 | The poloidal angle points from the magnetic axis to the marker | partial | Proved for an axis that does not depend on the toroidal angle. Finding: for a moving axis both positions are related to the axis at the new toroidal angle, so the angle drifts away from the direction. |
| C83 | Field lines are traced with unit speed and failures are reported | partial | Finding: no failure is ever reported; a failed flux label silently becomes one, other failures lead to uninitialised variables (undefined outcome in the model). |
| C84 | The analytic tokamak field is consistent | partial | Findings: the gradients of the flux and of rho have an extra factor R0/R; the ripple is centred at twice the midplane height; the rippled field has a divergence. The rest holds for all coefficients and positions. |
| C85 | The Cartesian test field is the linear field the user gave | partial | Finding: the gradient evaluation returns the field at the origin and phi-derivatives computed from it; gradient_iff says exactly where this is right. |
| C86 | Spline fields: field, gradient, flux and radius belong together | proved | Assumes that the splines return derivatives of their values at the point (Smooth2, Smooth3). Findings: the test field may be zero without an error; at the axis the evaluation with gradient gives no number without an error (2DS, 3DS) or an error (STS), while the evaluation from the flux gives zero. |
| C87 | Atomic rate coefficients are non-negative, complete and explicit about missing data | partial | The beam-stopping part holds only if each ion species has exactly one entry; the code counts the tables of several isotopes repeatedly and ignores species without data. |
| C88 | Beam stopping depends on the composition only | proved | Splitting as long as the longer list fits in the local arrays. |
| C89 | Reactions follow the exponential decay law with the rate of the present species | partial | The decay law is proved; the identity of the neutral species is taken from the plasma ions, so the rate is right only if both lists agree. |
| C90 | Collisions with a plasma in equilibrium keep a Maxwellian | proved | Coulomb logarithms held fixed; the error function is defined by its integral. |
| C91 | Collisional diffusion is never negative | partial | Proved for non-negative Coulomb logarithms. Finding: in a dense, cold plasma the logarithm is negative and the step takes the square root of a negative number without an error. |
| C92 | Collisional displacement of a guiding center is across the field | proved | Includes the size of the displacement. |
| C93 | Each collisional effect can be switched off | partial | Proved for guiding centers in a plasma at rest. Findings: in a flowing plasma the parallel momentum changes even with everything switched off; the full-orbit operator ignores the switches. |
| C94 | A collision step is a step of the stochastic equations of motion | proved | With tabulated special functions off, as mccc_init sets it; Coulomb logarithms held fixed within a step. |
| C95 | The adaptive collision step is controlled by the tolerance | proved |  |
| C96 | Time-dependent plasma profiles are interpolated in radius and time | partial | Temperatures (and densities without ions) are bilinear in all but the last time interval and constant after the last time. Violations proved: densities are stored and read in different orders, the last interval is not interpolated, times before the first read outside of the array, the flow exchanges the weights of radius and time. |
| C97 | Spline plasma profiles are positive and pass through the table | partial | Full for densities and temperatures. For the flow the error outside of the grid is lost (flow_error_lost). |
| C98 | All ways of evaluating the plasma agree | partial | Full for the three kinds of plasma data that exist, for time-dependent profiles from the first time on (earlier times are undefined behaviour, see C96). For an unknown kind the evaluation of one species reports no error (unknown_type). |
| C99 | Injected neutrals start on a beamlet with the energy and divergence of the beam | partial | For random numbers below one and beams that reach the field data. A uniform number equal to one selects a beamlet outside of the array (beamlet_out_of_bounds); a beam that misses the field data makes the search for the field run forever (never_ends). |
| C100 | Beam neutrals fly straight and are ionised at the rate of the plasma | proved | In exact arithmetic, for paths that do not touch the axis of the torus. |
| C101 | The tracing of beam neutrals ends for a stated reason | partial | Ends and end conditions hold. The wall is only looked at after the neutral has left the plasma: one that misses the plasma passes through every wall (wall_ignored, passes_through_wall). The final time counts the whole of the last step although the position is that of the wall (wall_time). |
| C102 | Fusion products are collected in the bin of their momentum, with the reaction rate as weight | partial | For products that are not below the range of the momentum axes; for those the conversion of a negative number to an unsigned one is undefined (below_range). The random generator shared by the threads is not modelled. |
| C103 | Thermal reactants follow the Maxwell distribution of the plasma | proved | For real random numbers; a random number that is exactly zero (infinite energy in C) has probability zero in the model. |
| C104 | Fusion cross sections are never negative and the reaction tables conserve charge | proved | The reactivity of DD_He3n is positive up to 900 keV; far above the range of the fit it is not a number (reactivity_fails). |
| C105 | Neutral density and temperature are interpolated from the table of the asked species | partial | Holds for one species. With several, each species gets the table of the first one (species_fails), only the first has the fallback value outside the grid (fallback_fails) and releasing frees the first table twice (free_fails). |
| C106 | The radial electric field is minus the gradient of the potential | partial | The radial field is minus the gradient for an effective minor radius of 1; other values are ignored (reff_fails). |
| C107 | Boozer coordinates come with their own gradients | partial | The derivatives with respect to phi are right for axisymmetric fields only (toroidal_fails); the sign of nu is opposite to the documented one (nu_sign_fails); an error in setting up the nu spline is lost (init_fails). |
| C108 | MHD perturbations derive from the potentials of the modes | proved | With respect to the Boozer coordinates and derivatives that C107 is about; B does not depend on time. |
| C109 | Accepted input markers are physical and start as the user asked | partial | Violated for markers along the field: a charged guiding center with pitch 1 or -1 (first order), or a particle with momentum along the field, passes all tests and gets coordinates that are not numbers (parallel_fails, along_fails).  The energy of the particle of a guiding center is the given one only if the field is equally strong at both positions (zeroth order); if the field cannot be evaluated at the particle position the error is ignored and the momentum belongs to a field of 1 T (edge_fails, edge_witness).  The direction of field lines is in C64. |
| C110 | Markers survive conversions between marker types | partial | The round trip of a particle through the guiding center is exact at zeroth order in uniform fields only.  Violated for the poloidal angle: that of a guiding center is used for the full orbit (theta_fails, theta_witness), and the direct conversion in three-dimensional fields takes the axis at a stale toroidal angle (direct_theta_fails).  Errors of field lines are lost, see C10. |
| C111 | Positions found from rho and theta lie on the asked flux surface and ray | partial | Soundness is proved in full.  Completeness holds if rho stays below the asked value before the surface and above it beyond; with an X-point on the ray a surface inside the plasma is never found (missed). |
| C112 | The search for the magnetic axis goes downhill and ends near it | partial | Violated: the returned psi lies on the wrong side of the flux at the position, so that rho is refused there (padding_fails, padding_refused); the 3D version steps in phi without the factor 1/R and is not a descent along the gradient (not_along_gradient): it oscillates past the axis or climbs (misses_3d, climbs_3d); with an iteration limit of zero or less it need not end (endless). |
| C113 | Batch evaluation gives each point its own value, whatever the threads do | proved | Output arrays are assumed not to overlap and to be large enough; the rates and neutral densities are in C114. |
| C114 | Reaction rates given by the library are those of the simulation | partial | Violated for beam stopping: the density array handed over starts with the electrons, so that with impurities the result differs from the rate in the simulation (beam_stopping_wrong); it agrees for one ion species with the electron density.  With two neutral species an array of one element is overrun (neutrals_overflow). |
| C115 | Safety factor and Jacobian of the Boozer coordinates | proved | At a point where the gradients are those returned for the coordinates (C107). |
| C116 | The field of a coil is that of Biot and Savart | partial | Off the lines through the segments, for neighbouring coil points that differ.  Violated on the extension of a segment, where it contributes nothing by the law but the code divides zero by zero (on_extension, square_fails). |
| C117 | Simulation options mean what they are documented to mean | proved | Documented meaning in Spec/OptionDoc.lean.  The poloidal and toroidal planes are in C119, the switches of the end conditions in C118. |
| C118 | Markers stop exactly when the end conditions in the options say so | partial | Violated: the request for both orbit limits (ENDCOND_MAXORBS = 2) is ignored, since the option read last is tested instead; ENDCOND_IONIZED = 2 has that effect (both_limits_wrong, both_flag).  gc_stops states what the code does in all cases. |
| C119 | Poincare planes are those in the options | partial | Violated for 30 planes, where the number of planes is never set, for more than 30, where the array overflows (thirty_undefined, thirty_wrong), and for planes equal to the filler value 361 degrees or 1000 (filler_wrong). |
| C120 | The simulated markers are those in the marker file | partial | Reading is proved in full.  Violated for writing: the Lorentz factor divides by the mass instead of its square, so that a fast particle is written with a velocity above that of light (write_violation); all but the momentum survives (write_read_partial). |
| C121 | The marker states in the output file are the markers of the simulation | proved | Documented quantities and units in Spec/OutputDoc.lean; charges are assumed to be multiples of the elementary charge. |
| C122 | The orbits in the output file are the recorded orbits | proved | interval joins the file with the recording (C27); numbers of markers and charge numbers are assumed to fit an int. Runs with several processes are in C176. |
| C123 | The transport coefficients in the output file are the evaluated ones | proved | The evaluation of the coefficients is C29. Runs with several processes are in C176. |
| C124 | Queries for end conditions and the marker summary tell the truth | partial | Violated for markers with errors: they are shown as NONE whatever ended them, never as ABORTED (aborted_violation); the summary raises an exception if an error came from the evaluation of atomic reactions or the beam-stopping coefficients (summary_violation, summary_sites). |
| C125 | A distribution file describes its own cells: each marker is found where the stored axes say | partial | Guiding centers and field lines in full.  For full orbits only markers inside the grid: those outside may be added to cells they are not in (C24.outside_fails).  The unit of the ordinate is not covered; it is that of a density although the numbers are sums of weights. |
| C126 | A general histogram file describes its own cells | partial | Violated for the magnetic moment, written in J/T with the unit T/eV, and the toroidal angular momentum, written with the unit of a momentum. |
| C127 | The results of a run end up in its own group, whatever else is in the file | partial | Proved for histories in which every run is the active one whenever it writes and QIDs are not shared.  Violated otherwise: programs look up their group by the attribute active, so that results of runs that overlap in time are mixed up (overlap_violation), also when the user activates another run (activate_violation), and runs of different programs with the same QID (qid_violation). |
| C128 | The inputs used are those that were asked for, and the run records them | proved | The readers of the separate inputs are a parameter.  bbnbi5 has no arguments for neutral gas, atomic data and options, so its runs cannot be repeated from the record (bbnbi_again_violation); the property does not claim it. |
| C129 | Files may be named with or without extension, or not at all | proved | Names that fit the arrays of 256 characters. |
| C130 | A run leaves all its markers and diagnostics in the output file and ends with a correct summary | partial | In full for one process.  Violated when a run is split: each process prints the summary for all markers from an array that has only its own (split_violation).  A failure to make the run group leads to a double free (taken_violation); ranks are not checked (rank_violation).  Conversion of markers, simulation and diagnostics are parameters, see C109, C01-C19, C22-C29. |
| C131 | The plasma that the simulation sees is the one the user wrote | partial | In full for splines.  On a grid the rotation is not interpolated (flow_violation) and the last point is rejected (C52).  For profiles that depend on time, densities are assigned to other species and times (time_density_violation), see also C96. |
| C132 | The deviation from quasi-neutrality that is printed is the right one | partial | In full for profiles on a grid.  With splines the charges of the ions are left out (spline_violation).  For profiles that depend on time the report reads outside of the table, also for the plasma of create_dummy (time_violation). |
| C133 | An electric field written from Python is the one used in the simulation | partial | In full for constant fields.  For potentials on a grid in rho with effective minor radius one: other radii have no effect (reff_violation).  Fields on grids in R, phi and z are written, and refused by the program (threeD_violation). |
| C134 | Neutral densities and temperatures written from Python are the ones used in the simulation | partial | For the first species and those with the same tables, at points below the last grid point.  A second species gets the values of the first (species_violation).  The documented array argument maxwellian is refused for two species (maxwellian_violation). |
| C135 | A wall written from Python is the one used in the simulation | partial | In full for contours.  For triangles within the tolerances of the intersection test, as in C31.  A wall without elements is written, and reading it is undefined behaviour (empty_violation). |
| C136 | Wall loads are the sums over the markers that hit the element | partial | In full except for the angle of incidence, proved for markers at one toroidal angle.  The toroidal angles are not sorted along with the momenta, so that other angles are wrong (incidence_violation). |
| C137 | Geometry of walls: areas, normals, centres and conversion to triangles | partial | In full except for the outline: the smallest and the largest radius are returned in the wrong order (outline_violation).  watertight for three or more vertices and sectors. |
| C138 | The magnetic field of the simulation is the one written with the Python interface | partial | In full for B_2DS, B_3DS, B_STS and B_TC, and for B_GS with axis and fluxes given.  With the axis left to be found, for z0 = 0: otherwise it is stored without z0 (axis_found_violation) and the flux of the separatrix is overwritten (separatrix_violation); with the axis omitted it is at the origin (axis_omitted_violation).  The ripple is moved by z0 twice (ripple_moved_violation).  The documentation of B_STS asks for br and bz without the equilibrium component, which is never added (equilibrium_component_violation).  B_3DST is written but cannot be read (time_dependent_violation). |
| C139 | The derivatives returned with spline data are the derivatives of that data, also across cell edges | proved | Derivatives are those within the domain, one-sided at its edges; over the reals.  The assumptions that C86 makes about the splines are met by every field that the initialisation sets up. |
| C140 | The MHD modes of the simulation are those written with the Python interface | partial | Proved from the arguments of the writers to the evaluated potentials.  Findings: the numbers of amplitudes, frequencies and phases are not checked, so that a wrong number leaves an unreadable group in the file; a grid with one radius is accepted and then undefined in the program. |
| C141 | The Boozer coordinates of the simulation are those written with the Python interface | partial | Proved from the arguments of the writer to the evaluated coordinates if the angle of every row begins at 0 and ends at 2 pi.  Findings: the documentation only asks for rows that grow by 2 pi, but with another first value the padding is wrong and so is the angle between the points of the table; fewer than five angles leave an unreadable group in the file.  The derivative along phi is that of C107. |
| C142 | The reaction data of the simulation are those written with the Python interface | partial | Proved from the arguments of the writer to the evaluated data for the first reaction of a file; species, types and axes for all.  Findings: the position in the packed array starts again at the beginning for every reaction, so all reactions but the first are evaluated with the data of the first; the writer does not check the sizes of all of its arrays and can leave an unreadable group in the file. |
| C143 | The injectors of a beam simulation are those written with the Python interface | proved | From the arguments of the Python class to the injectors of the simulation and the markers they inject, for any number of injectors. |
| C144 | Generated injectors have the geometry the user asked for | partial | Proved: position, tangency radius, grid, aim at a common focus, tilt.  Findings: with a tilt the focus is further away than the focal length, by the inverse of the cosine of the tilt; the shift of the tangency point is not the one asked for, and depends on the toroidal angle of the injector (it can be zero or have the wrong sign). |
| C145 | A magnetic field given as a dictionary is the one that the file would give | partial | Proved: the three tabulated fields are the same if the arrays are stored by columns, the linear field if its Jacobian is symmetric, the analytic field if flux and axis are given or searched for.  Findings: arrays stored by rows, which is what Python makes by default, arrive transposed; the Jacobian of the linear field arrives transposed; optional arguments may not be left out; wrong shapes and axes outside of the grid are not noticed. |
| C146 | The interactive interface holds the inputs that were asked for | partial | Proved for all histories without injectors in which the groups can be read: the state is that of the specification and exceptions are raised exactly where it says; safety also if dictionaries raise exceptions, and with injectors.  Findings: a group that C cannot read is marked as initialised without an exception, and so are the inputs after it in the same call, and freeing them frees memory that was never allocated; injectors are never freed, stay after another file was loaded, and cannot be replaced. |
| C147 | A dictionary is taken for the type of input whose writer takes it | partial | Proved for all sets of entries: the right type is found, there are never two, default values, the message about missing parameters.  Findings: the message about unknown parameters can name a type to which they are known; time-dependent fields are refused; for injectors the function calls itself until Python raises an exception. |
| C148 | After any history of a file everything in it refers to something that is there | proved | Proved by induction over histories, with the effect of each operation on all groups.  The assumption that generated QIDs are new is needed: nothing checks it (collision_not_detected).  Findings about comments in the code that are not part of the statement: the argument force of removegroup has no effect on inputs that have been used; activating or describing a group that is not there ends in an AttributeError; a copy is not set as active if the parent has other groups. |
| C149 | Any file can be opened and shows its groups under their names, QIDs and tags | partial | Proved for all histories of C148, in which a result is only copied together with its inputs.  Findings: a run that is copied to a file without its inputs, or a simulation with different files for input and output, leaves a file that cannot be opened; so does an input whose writing is interrupted, and any electric field of type E_3D, E_3DS or E_3DST.  Tags are not cut to ten characters. |
| C150 | Combined outputs of several files are the output of the whole simulation | partial | Proved for files that have been split, by induction over the files. For continued simulations proved if the identifiers increase in both files. Findings: the times of continued markers are the sums of the times at which the two simulations have ended, although the second starts at the time at which the first has ended; nothing can be combined if identifiers are not in increasing order, since h5py reads elements of a dataset in increasing order only; distributions with other axes are added bin by bin; orbits and distributions that are in one file only are dropped without notice; a missing dataset leaves the first file with columns of different lengths. |
| C151 | Equilibria are recognised and converted without changing what they say | partial | Proved for all pairs of conventions and all equilibria in the same units.  Findings: with other units of length or magnetic field the derivatives with respect to ψ do not belong to ψ any more, since its factor contains the change of units twice (units_wrong); data without sign, such as q = 0, are accepted. |
| C152 | The magnetic field of an equilibrium file is imported as it is | partial | Proved for all files whose grid does not begin at R = 0 and in which no ψ is beyond that at the axis, or ψ increases from the axis in the convention of the code.  Findings: if the grid begins at R = 0 the first column is left out, but the others are put on a grid whose left end is at the n-th part of the width instead of the (n-1)-th, so that all but the last are at wrong positions (left_zero); if ψ decreases from the axis, the toroidal field where ψ is beyond that at the axis is that of the boundary (beyond_axis).  The search for ψ at the axis is not modelled. |
| C153 | Imported plasma profiles are those of the data, and the plasma is quasi-neutral | partial | Values are proved for all tables.  Quasi-neutrality is proved for fractions, and for data in one file that end within the plasma or are not extrapolated.  Findings: for data beyond rho = 1 the limits of the ions do not belong to those of the electrons (beyond_one); for data in a dictionary the limit is the same for electrons and all ions, so that wherever it is reached the charge of the ions is that of the electrons times the sum of the charge numbers (dict_not_neutral); toroidal rotation decays outside of the plasma only if it is negative (rotation). |
| C154 | Markers generated from a distribution represent the particles of that distribution | partial | Weights, cells and totals proved for all random numbers and shuffles; coordinates in (R, phi, z) with guiding centres proved. The code violates the rest: in (rho, theta, phi) the cell indices are given to the wrong axes (rho_not_in_cell, rho_refused); velocities of particles are p/m instead of p/(gamma m), beyond the speed of light for p > mc (velocity_wrong), and not numbers in a vertical field (velocity_vertical); the loop never ends if no cell has the minimum weight (never_ends); the returned marker distribution is not divided by the volume of cells (marker_dist_wrong). Real numbers instead of floating point; random numbers are parameters. |
| C155 | Quantities of marker states are those of each marker | partial | All quantities proved for every number of markers other than three. The code violates the rest: with exactly three markers an array with one number per marker is taken for one vector, so that speeds of particles become nine numbers (three_particles) and speeds of guiding centres depend on the other markers (three_guiding_centers); the poloidal angle of particles points from the particle to the axis instead of the other way (thetamod_shifted), and the cumulative angle of particles is not cumulative (theta_not_cumulative); a quantity that is requested twice is refused (twice). Units, file access and input_eval are external; divisions by zero are excluded by hypotheses. |
| C156 | Quantities along orbits belong to the recorded points in order | partial | Proved for data of one mode in which every marker has a recorded point. The code violates the rest: if a marker has no recorded point, points of markers after it get the mass and time of another marker (unrecorded, unrecorded_wrong); with gyro-orbits and guiding centres in the same data only as many values as guiding-centre points are returned (hybrid_length, hybrid_lost), common quantities and the others are of different points (hybrid_mixed), and pperp is refused (hybrid_pperp); pncrdir is always refused (pncrdir_refused); connlen is minus the mileage so far (connlen_travelled). The formulas are parameters (those shared with marker states are in C155), one quantity at a time, units and file access are external. |
| C157 | The wave library is given one guiding centre and its kick reaches the marker | partial | Proved: untouched lanes, Newtonian consistency of the quantities, kicks, reports of overshooting and undoing of the step. The code violates the rest: the canonical momentum is computed with the flux multiplied by 2 pi, so that it is not that of the marker and not constant along orbits (pphi_excess, pphi_not_constant); energy and speed are Newtonian and can exceed those of the marker, the speed even that of light (ekin_excess, speed_above_light); a step that is undone stays in the memory of the library (refused). The library is a parameter; setting up and freeing of its memory are not modelled. |
| C158 | Integration, slices and interpolation of distributions keep the particles | partial | Proved for histograms, integration and slices without step. The code violates the rest: integration with the abscissa as factor is refused on a grid with opposite ends (symmetric_refused), so that current densities fail on a symmetric momentum grid; slices with a step take all edges but not all bins (step_wrong); interpolation swaps its two weights (lower_edge), fails in the last cell (last_cell) and returns the first bin at the last edge (last_edge). Interpolation is modelled for one axis; slices by a single index or by arrays are left out. |
| C159 | Conversion of a distribution to energy and pitch keeps the particles | partial | Proved: which cells go to which bins, and that the number of particles stays just as far as cells are within the new grid. The code violates the rest: on the default grid, cells with momentum above the largest parallel momentum are lost, since the third argument of np.maximum is not a value (default_kept, default_lost); a number n gives n - 1 bins (one_less); with three momentum cells the conversion fails (three_refused); getdist(None) lists missing distributions, since it removes from the list it loops over (listed_iff, listed_wrong). |
| C160 | Moments of distributions are those of the particles | partial | Proved: totals of density and energy, parallel pressure, volumes in cylindrical coordinates, averages. The code violates the rest: the pressure counts the perpendicular motion twice (pressure_excess, twice); the current has the momentum over the mass in place of the velocity and can exceed that at the speed of light (current, faster_than_light); volumes in flux coordinates are those of a uniform grid on [0, 1], whatever the edges of the distribution (shells_uniform, shells_wrong); energy density fails with three momentum cells. Power deposition, torques and current drive are not modelled. |
| C161 | Volumes of the cells between flux surfaces are those of the bodies | partial | Proved for prisms with lower limits zero: volumes and areas between surfaces and in total, for polygons through the computed points; the toroidal refinement. The code violates the rest: the first cells reach to the axis whatever the first surface (first_wrong); lower limits in degrees are taken for radians, which can make volumes negative (limits, negative); with random points every volume is the area times the same arc, so that inner cells are too large and outer cells too small (ratio, inner), poloidal cells are on the opposite side (opposite), and a point on the separatrix is an error (separatrix). That the loops end is not proved; random points are arguments. |
| C162 | A fusion calculation is set up for the populations and cells that the user asks for | partial | Proved: reactants and the factor for thermal populations, coordinates for complete arguments, volumes and bins for equal widths, beams with one bin in time and charge. The code violates the rest: indices of reactions are refused (index_refused); a beam given twice counts every pair twice (beam_twice); incomplete coordinates fail only after the inputs have been initialized, or are ignored (incomplete, ignored); bins of unequal width are taken as equal (unequal); particles in other bins of time and charge do not react (beam_lost); the bins in space of a second beam are not compared with those of the first (grid_ignored). Cells in flux coordinates are C161. Pointers and the lifetime of arrays passed to C are not modelled. |
| C163 | The field of coils is the sum over the coils and their revolved copies, and keeps the axisymmetric field it is added to | partial | Proved: superposition, rotation, linearity in currents, revolved coils on a grid of the whole torus, averages. The code violates the rest: coils beyond the list of currents are left out (left_out); on a part of the torus revolved copies come from the other end of the grid (part); revolve=0 does not end (endless); the value on the axis is ignored unless the field of the input is excluded (value_ignored); values of the input at other radii are used if the grid is given by the user (other_grid). The spline at the axis is a linear functional. Floating point is not modelled. |
| C164 | Boozer coordinates made for a tokamak have straight field lines, and potentials made consistent have no parallel electric field | partial | Proved for polygons on which R times the toroidal field is constant. Straightness is proved at the corners of the polygon; between them the tables are linear. The parallel field vanishes where the coordinates are Boozer coordinates of the field (hypothesis Aligned, the continuous form of jacobian and straight). The code violates the last part: the fraction of trapped particles uses the square of the average field instead of the average square and is too large (too_many). On resonant surfaces the potential is a division by zero (resonant). Contours are those of C111, the tables are read as in C141; splines between the points are not considered here. |
| C165 | Analytical inputs are what their descriptions say | partial | The code violates parts of the property: the period is not checked against the number of coils (period_iff: it fits only if it divides it); with as many grid points as coils the ripple becomes an axisymmetric field (aliased); the plasma is flat only up to rho = 10/11 and has a tenth of its density at the separatrix (not_flat); electrons have the density of the ions whatever their charge (neutral_iff); at the heights of the points of the wall, four of them inside, all points are outside (wall_gaps). The conversion to a three-dimensional wall is that of C137; the ITER-like field consists of constants only and is not considered. |
| C166 | Charge-exchange data are averages of the fitted cross section over a Maxwellian | partial | The quadrature (scipy quad up to 2e7 m/s) and units are not modelled. The code violates one part by a little: the comment promises a relative error below 2e-9 for arguments from ten on, at ten it is larger (error_at_ten; integrand_spec has 2.1e-9). |
| C167 | The first time step is the given fraction of the relativistic gyration period | partial | The code violates two parts: a neutral marker and a number of steps below one give an infinite step (infinite); the adaptive scheme does not begin with the fixed step but with a whole gyration period, and the collision frequency is the constant one (adaptive_is_period, adaptive_constant). |
| C168 | Loading an input and releasing it again releases every block of memory exactly once | partial | Proved for the axisymmetric field, radial electric field, Boozer, MHD, beam, atomic and diagnostic data, for any number of rounds. The code violates the rest: neutral data with two species or more are released twice, and the main program does so before the results are written (neutral_twice, output_lost); the stellarator field, the plasma profiles and the walls lose blocks at every round (fixed_leaks, spline_plasma, wall3d); atomic data lose a block for every type of reaction without a branch and release an unset pointer if type and dimension disagree (asigma_leak, asigma_undefined). Failing allocations, sizes and contents of the blocks and the distributions and histograms (one block each) are not modelled. |
| C169 | A Poincare run keeps every crossing of its planes | partial | Proved: if either limit stops the line, at most two crossings of each plane exceed the reserved points, and all are kept if some orbits of one kind are left (with one plane of each kind four; e.g. safety factor above 1.01 with the default numbers). The code violates the rest: a line against the angles with safety factor one loses the first crossing of each plane for every number of orbits (one_over, lost), and if both limits must be reached, a line with safety factor q makes q times as many crossings as reserved and all but the latest are lost (both_over, both_lost). Not modelled: particles and trapped orbits, lines that turn round. |
| C170 | Interactive runs and runs of the program see the same options | partial | Proved: for options of the documented types all settings agree, and the interactive run accepts all of them, with the exceptions that follow. The code violates the property: stopping on neutralization raises an exception (misspelt name); 'both numbers of orbits' works in interactive runs only (see C118); the 6D, rho and constants-of-motion distributions and the transport coefficients are silently left out; planes given as an array are refused unless there is just one; a negative first angle means no planes to the program only; fractions of orbits and negative switches differ. Not modelled: the value of the elementary charge of the units package (taken to be that of the program), reading the options back from the file. |
| C171 | Interactive runs and runs of the program begin with the same markers | partial | Proved: guiding centers in any units, with whole charges and weights in particles per second, are the same; field lines in the documented units are the same; particles are the same if their masses are given in kilograms. The code violates the property: the momentum of interactive particles is made with the number of the mass column, so with masses in atomic mass units (the documented unit) it is more than 10^26 times too large; units of field line columns are ignored when written; the unit of the weight is ignored by interactive runs; charges that are not whole are cut off in the file. Not modelled: columns of wrong length or dimension, the constants of the units package (taken to be those of the program). |
| C172 | A sequence of interactive runs keeps its results and releases its memory | partial | Proved by an invariant for all sequences in which markers and options are not changed while there are results, all markers are well formed and given while inputs are loaded, and no beam is simulated. The code violates the property otherwise: releasing after a simulated beam releases the previous markers twice, and the queue of the beam is never released; a run after a beam passes the check that markers exist; new markers replace the initial states of the old run, or make them unreadable; options changed before the release leave memory behind or release it twice; markers given after the inputs were released use released memory; refused markers leave memory behind. Not modelled: several processes, details of the inputs (see model InputState), a magnetic field without data in memory. |
| C173 | The results of an interactive run read like those of a run in a file | partial | Proved for all quantities except those where the code violates the property: weights are plain numbers in interactive runs and rates from a file; message, line and module of an error are all the whole error code in interactive runs, so that the summary raises an exception as soon as one marker ended with an error; the momentum of particles in hybrid runs cannot be read in interactive runs; the direction of a Poincare crossing can be read in neither; the momentum axes of distributions have the dimension of an angular momentum in interactive runs. Not modelled: the derived quantities (the same code for both), reading released memory (C172), the order of rows after sorting (the same code for both). |
| C174 | Settings on the command line take effect | partial | The first part is proved in full for values of at most 250 characters, and so is the refusal of unknown names and of missing values. The code does not refuse other command lines: words that belong to no setting are passed over, so that a file named without --in is not used; a number of processes that is no number counts as zero, so that every process simulates all markers; file names of 253 characters or more overflow an array. The behaviour of getopt_long is the documented one of glibc; atof is a parameter. |
| C175 | Poincare planes are listed and plotted with their own crossings | partial | Flux surfaces are always listed and plotted rightly. The interface numbers the planes of ORBITWRITE_POLOIDALANGLES first, while the simulation numbers those of ORBITWRITE_TOROIDALANGLES first: the listed kinds are right exactly for runs with as many planes of either kind, and the listed angles exactly for runs where both options hold the same angles. Otherwise crossings of one kind of plane are plotted as the other, or cannot be plotted. Plots of poloidal planes in (rho, theta) always fail, because the quantity is asked for by an unknown name. |
| C176 | A run with several processes leaves the diagnostics of all its markers | partial | Proved for one process with particles, for the arrays in memory of full orbits and guiding centres, and for distributions with fewer than 2^31 cells. The number of markers is not updated when orbits are gathered, so that the file has only those of the first process; in hybrid runs momenta and charges are not gathered; for field lines pointers that were never set are passed to realloc, because the constant for field lines in the orbit diagnostics is the number of the hybrid mode; the number of cells is cut to an int; IDs of transport coefficients are sent as numbers of twice their size. Message passing is assumed to be reliable and in order. |
| C177 | Inputs evaluated in the Python interface are those of each point, and their derived quantities are right | partial | Proved except for two quantities. bpol is 0 wherever the poloidal field is along the line to the axis, because the sign that is multiplied is 0 there. zeff is computed from the charge numbers of the nuclei instead of the charge states, so that it is right for fully ionised species only. Units, ions by number (ni1, ti1, ...) and the derivatives of eigenfunctions are not modelled. |
| C178 | Collision coefficients and reaction rates asked for in Python are those of the names, points and speeds | partial | Proved for all speeds at all points. With grid=False only the first speed is passed, so that the values are right only if all speeds are the same; points outside of the plasma get zeros instead of nan; ionization and recombination are swapped when passed to the library, which evaluates neither, so that their rates are nan. Units are not modelled. |
| C179 | Orbit frequencies belong to their grid points and are turns over time | partial | Proved for the nodes, for passing markers, and for trapped markers on steady orbits. When the precession varies the inverse of the mean inverse is returned; a single pitch of 1 or -1 is not padded; the frequency of the perturbation is overwritten and has no effect. The simulation that gives the crossings is a parameter, and infinities are excluded by hypotheses. |
| C180 | Potentials of MHD modes can be made consistent with a vanishing parallel electric field | partial | Proved with sign one, for the electric potential away from resonant radii and for the magnetic potential of modes with a frequency. At resonant radii and for modes at rest the result is not a number; the documented sign is left out. The profiles are parameters; only stationary modes are modelled. |
| C181 | Species are found by name and by numbers, and the two ways agree | partial | Proved for all strings and numbers, except that fourteen species of the table are refused by the name that autodetect returns for them. Units are not modelled. |
| C182 | The check for missing planes looks at the data around the seam at the position asked for | partial | Proved for the planes and the fit points. The grid point is within one step but not always the closest; the end of the grid gives an error, and positions below it can give its last point. The fit and the figure are not modelled. |
| C183 | The summary of losses gives fractions of what was there | partial | Proved for markers and particles, and for energy if no marker gains energy; otherwise the fraction can exceed one. Rounding, units and the text are not modelled; that weights stay the same is a hypothesis. |
| C184 | The orbit average is an average over a single poloidal transit | partial | Proved for the average, for passing orbits of growing angle that go around, and for trapped orbits that start backwards. An orbit that does not go around and an orbit that turns backwards after its first point end in an error. The mirror cases use the same functions with exchanged signs and are not stated. |
<!-- end results -->
