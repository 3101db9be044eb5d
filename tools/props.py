# Source data for properties.jsonl.  Run: python3 tools/props.py
import json, os
P = []
def p(id, title, statement, quantifier, why, anchors):
    P.append(dict(id=id, title=title, statement=statement, quantifier=quantifier,
                  why_tests_cant=why, anchors=anchors))

p("C01", "Error codes decode to the values they were raised with",
  "Whenever the library raises an error with some error type, source line and source file, decoding the returned error code gives back the same type, line and file, so the location printed to the user is the place that failed.",
  "all error types, all source line numbers that occur at a raise site, all source-file identifiers",
  "The code is a positional encoding with a fixed width per field; a test tries a few lines, but the claim is about every raise site and every field value, including files that grow past the field width.",
  ["src/error.c: error_raise, error_parse", "src/particle.c: error_raise call sites beyond line 1023"])
p("C02", "Every error that can be raised has a readable description",
  "For every error type and every source-file identifier that the library declares, the text shown to the user for a raised error contains a description of that type and the name of that file.",
  "all declared error types and all declared source-file identifiers",
  "Tests exercise only errors they manage to trigger; the claim covers the whole declared set including types nobody triggers.",
  ["src/error.c: error_parse2str", "src/error.h: error_type, error_file"])
p("C03", "Integer list behaves as a sequence and is freed exactly once",
  "After any sequence of insertions into an integer list, its reported size is the number of insertions, the element at position k is the k-th inserted value, and freeing the list releases every node it allocated exactly once and leaves the handle null.",
  "all finite sequences of add operations and all positions",
  "Sequences are unbounded; leaks and double frees depend on the heap history.",
  ["src/list.c: list_int_create, list_int_add, list_int_get, list_int_size, list_int_free"])
p("C04", "No marker is ever simulated twice",
  "With any number of threads taking markers from the shared queue in any interleaving, every marker is handed to at most one vector lane of one thread, and a result is written back for a marker only by the lane that received it.",
  "all queue lengths, all numbers of threads and lanes, all interleavings of the atomic steps",
  "It is a statement about schedules; a test run samples one schedule.",
  ["src/particle.c: particle_cycle_fo, particle_cycle_gc, particle_cycle_ml", "src/simulate.c: simulate"])
p("C05", "A full-orbit simulation finishes every marker exactly once",
  "When every thread of a full-orbit simulation has left its main loop, every marker of the queue has been finished exactly once: its result is stored in its own slot, the finished counter equals the number of markers, and markers that already had an end condition were left untouched.",
  "all queue contents including markers that already ended, all numbers of threads and lanes, all interleavings, all orders in which lanes finish",
  "Needs an invariant over all schedules and all termination orders.",
  ["src/particle.c: particle_cycle_fo", "src/simulate/simulate_fo_fixed.c: simulate_fo_fixed"])
p("C06", "A guiding-center or field-line simulation finishes every marker exactly once",
  "When every thread of a guiding-center or field-line simulation has left its main loop, every marker of the queue has been finished exactly once, whatever state the markers were in when the simulation started.",
  "all queue contents including markers that already ended, all numbers of threads and lanes, all interleavings",
  "Needs an invariant over all schedules; the failing case needs a particular mix of initial markers.",
  ["src/particle.c: particle_cycle_gc, particle_cycle_ml", "src/simulate/simulate_gc_adaptive.c", "src/simulate/simulate_ml_adaptive.c"])
p("C07", "Full-orbit end conditions are exactly the ones the user enabled and met",
  "After an end-condition check of a running full-orbit marker without errors, an end condition is newly reported if and only if it is enabled in the options and its physical criterion holds for the marker, and the marker stops if and only if at least one end condition is reported. Markers that are not running are not changed.",
  "all option settings, all marker states before and after the step, all wall-hit outcomes, all plasma temperatures",
  "The decision is a product of a dozen independent switches and real-valued comparisons, including combination rules between two of them.",
  ["src/endcond.c: endcond_check_fo"])
p("C08", "Guiding-center end conditions are exactly the ones the user enabled and met",
  "Same as the full-orbit property for guiding-center markers, including the hand-over condition of the hybrid mode.",
  "all option settings, all marker states before and after the step, all wall-hit outcomes, all plasma temperatures",
  "Same combinatorial decision as for full orbits.",
  ["src/endcond.c: endcond_check_gc"])
p("C09", "Field-line end conditions are exactly the ones the user enabled and met",
  "Same as the full-orbit property for field-line markers, which have no energy conditions.",
  "all option settings, all marker states before and after the step, all wall-hit outcomes",
  "Same combinatorial decision as for full orbits.",
  ["src/endcond.c: endcond_check_ml"])
p("C10", "A finished marker shows either an error or an end condition",
  "A marker that stops running because of an error reports that error in its final state and no end condition; a marker that stops because of an end condition reports no error.",
  "all markers of all simulation modes, all sequences of steps",
  "The claim is about what survives every path from the failing step to the stored state.",
  ["src/endcond.c: endcond_check_fo, endcond_check_gc, endcond_check_ml", "src/particle.c: particle_fo_to_state, particle_gc_to_state, particle_ml_to_state"])
p("C11", "Completed bounces are counted correctly",
  "After any history of steps, the bounce counter of a marker is determined by the number of sign changes of its parallel momentum since the counter was reset, and the number of completed bounces that the maximum-orbit condition compares with the limit never decreases.",
  "all histories of parallel-momentum signs",
  "The counter encodes phase in its sign; correctness is an invariant over unbounded histories.",
  ["src/endcond.c: endcond_check_fo, endcond_check_gc"])
p("C12", "The reported list of end conditions matches the stored flags",
  "For any stored end-condition value, the list of end-condition codes given to the user contains the code of a condition if and only if its flag is set, in increasing order without repetition, and fits in the output array; distinct sets of flags give distinct lists.",
  "all end-condition values",
  "The output must be right for every subset of flags.",
  ["src/endcond.c: endcond_parse, endcond_parse2str", "src/endcond.h"])
p("C13", "A rejected step leaves no trace",
  "In an adaptive simulation, after a time step that was rejected, the marker's phase-space position, time, mileage, field values, bounce counter and end conditions are exactly those before the step, and it is retried with the shorter step suggested by the integrator.",
  "all marker states, all outcomes of the integrator and collision operator",
  "Every field must be restored for every outcome; tests compare a few fields on a few orbits.",
  ["src/simulate/simulate_gc_adaptive.c: simulate_gc_adaptive", "src/simulate/simulate_ml_adaptive.c: simulate_ml_adaptive", "src/particle.c: particle_copy_gc, particle_copy_ml"])
p("C14", "Accepted adaptive steps respect the user's step limits",
  "With the maximum toroidal and radial step limits set, no accepted adaptive step changes the toroidal angle or the radial coordinate by more than the limit.",
  "all steps, all limits, all time-step histories",
  "Holds or fails on measure-zero ties and on combinations of the two limits.",
  ["src/simulate/simulate_gc_adaptive.c", "src/simulate/simulate_ml_adaptive.c"])
p("C15", "Simulated time moves in the chosen direction and mileage never decreases",
  "In a fixed-step simulation the marker time after n accepted steps is the initial time plus (or, in reversed time, minus) the sum of the step lengths, and mileage grows by the sum of the step lengths.",
  "all numbers of steps, all step lengths, forward and reversed time",
  "Unbounded histories.",
  ["src/simulate/simulate_fo_fixed.c", "src/simulate/simulate_gc_fixed.c", "src/simulate/simulate_gc_adaptive.c"])
p("C16", "Adaptive step length keeps its sign in reversed time",
  "In an adaptive guiding-center simulation with reversed time, every step taken has negative length.",
  "all step histories and all combinations of enabled physics",
  "A sign error shows up only for some combination of switches and only after the first step.",
  ["src/simulate/simulate_gc_adaptive.c"])
p("C17", "Wiener process bookkeeping stays well formed",
  "After any sequence of generate and clean calls that succeed, the stored Wiener process is a time-ordered chain starting from the first slot that contains every live entry exactly once, so later calls terminate and never read an unused slot.",
  "all sequences of generate and clean calls, all times, all random numbers",
  "Linked structure inside arrays with slot reuse: needs an invariant over unbounded histories.",
  ["src/simulate/mccc/mccc_wiener.c: mccc_wiener_initialize, mccc_wiener_generate, mccc_wiener_clean"])
p("C18", "The Wiener process has one value per time",
  "Once the process has been sampled at some time, asking again for the same time returns the stored value without changing anything, sampling other times does not alter values already sampled, and cleaning up to a time keeps every value at or after that time.",
  "all sequences of calls, all times, all random numbers",
  "Correctness of adaptive collisions after a rejected step depends on it for every history.",
  ["src/simulate/mccc/mccc_wiener.c"])
p("C19", "Exhausting the Wiener storage is reported and harmless",
  "When all slots are in use and a new time is requested, the call reports an error and the stored process is unchanged; while a free slot exists a request for a later time never fails.",
  "all reachable states of the process and all requests",
  "Depends on the exact count of live slots after any history.",
  ["src/simulate/mccc/mccc_wiener.c: mccc_wiener_generate"])
p("C20", "Every marker belongs to exactly one process",
  "When markers are divided among processes, the blocks of the processes are consecutive, disjoint and cover all markers exactly.",
  "all numbers of markers and all numbers of processes",
  "Integer division for arbitrary sizes, including fewer markers than processes.",
  ["src/mpi_interface.c: mpi_my_particles"])
p("C21", "Gathering marker states preserves every field and the order",
  "After gathering the marker states from all processes the gathered array contains every marker state with all its transferred fields unchanged and in the original order.",
  "all numbers of markers, all numbers of processes, all field values",
  "Packing and unpacking index arithmetic over arbitrary sizes.",
  ["src/mpi_interface.c: mpi_gather_particlestate"])
p("C22", "Distribution bins are distinct and inside the array",
  "Distinct in-range cells of a distribution histogram are stored in distinct array elements inside the allocated array, and every array element belongs to a cell.",
  "all grid sizes and all in-range index tuples",
  "Index arithmetic over arbitrary dimensions.",
  ["src/diag/dist_5D.c: dist_5D_index, dist_5D_init", "src/diag/dist_6D.c", "src/diag/dist_rho5D.c", "src/diag/dist_rho6D.c", "src/diag/dist_com.c"])
p("C23", "Guiding-center distributions conserve weight",
  "A guiding-center distribution update increases the total content of the histogram by the sum of weight times time step over the running markers that lie inside the grid, each in the bin that contains it, and changes nothing else.",
  "all marker populations, all positions inside and outside the grid, any number of updates",
  "Conservation over arbitrary histories of updates.",
  ["src/diag/dist_5D.c: dist_5D_update_gc", "src/diag/dist_com.c: dist_COM_update_gc"])
p("C24", "Markers outside the grid do not contribute to full-orbit distributions",
  "A full-orbit distribution update changes the histogram only for running markers that lie inside the grid.",
  "all marker populations and positions",
  "The failing case depends on stale memory from earlier markers, which tests do not control.",
  ["src/diag/dist_5D.c: dist_5D_update_fo", "src/diag/dist_com.c: dist_COM_update_fo"])
p("C25", "General histograms bin only markers inside their axes",
  "Updating a general histogram adds a marker's weight to a bin only if all its coordinates lie within the axes of the histogram, and then to the bin that contains it.",
  "all axes, all marker coordinates",
  "An out-of-range coordinate can alias to a valid bin for particular sizes only.",
  ["src/hist.c: histogram_update_fo, histogram_init"])
p("C26", "Summing diagnostics adds every bin of every enabled distribution",
  "Combining the diagnostics of two runs adds, for each enabled distribution, every bin of the second to the corresponding bin of the first and touches no other memory.",
  "all combinations of enabled distributions and all grid sizes",
  "Failures depend on which combination is enabled and on grid dimensions.",
  ["src/diag.c: diag_sum, diag_arraysum"])
p("C27", "The orbit recorder keeps the latest points",
  "In interval mode the recorder of a marker holds, after any number of recorded points, exactly the latest points up to its capacity, each intact, and the recording of one marker never alters the points of another.",
  "all capacities, all numbers of markers and all recording histories",
  "Ring-buffer behaviour over unbounded histories.",
  ["src/diag/diag_orb.c: diag_orb_update_fo, diag_orb_update_gc, diag_orb_update_ml"])
p("C28", "Poincare points lie on the requested surface",
  "Whenever a step crosses a requested toroidal, poloidal or radial surface, a point is recorded and the recorded coordinate interpolated along the step lies on that surface; when the step does not cross it nothing is recorded.",
  "all pairs of step end points, all surfaces, all modes",
  "Exact boundary cases and winding of angles.",
  ["src/diag/diag_orb.c: diag_orb_check_plane_crossing, diag_orb_check_radial_crossing, diag_orb_update_fo, diag_orb_update_gc"])
p("C29", "Transport coefficients reproduce exact drift",
  "For a marker whose recorded radial positions move with a constant drift velocity, the reported advection coefficient is that velocity, and all recorded points are used.",
  "all record lengths, averaging lengths and drift velocities",
  "Averaging arithmetic with arbitrary lengths that need not divide evenly.",
  ["src/diag/diag_transcoef.c: diag_transcoef_process_and_clean"])
p("C30", "The wall octree finds every triangle near a point",
  "For every point strictly inside the domain of the wall octree and not on a cell boundary, the list of triangles returned contains every triangle that was added and passes the overlap test with the cells on the path to the point, and the lookup of a cell centre always succeeds.",
  "all depths, all domains, all triangle sets, all points",
  "Recursive structure with arbitrary depth.",
  ["src/octree.c: octree_create, octree_add, octree_get", "src/wall/wall_3d.c: wall_3d_init_octree"])
p("C31", "The first wall hit along a step is reported",
  "If a step crosses one or more triangles of a three-dimensional wall, the tile reported is one whose intersection parameter is smallest among the triangles that were tested, and if no tested triangle is hit, zero is reported.",
  "all wall geometries and all steps",
  "A minimum over arbitrary sets with tie and boundary behaviour.",
  ["src/wall/wall_3d.c: wall_3d_hit_wall, wall_3d_hit_wall_full"])
p("C32", "A reported triangle collision is a real intersection",
  "Whenever the triangle collision test reports a non-negative parameter for a segment that is not parallel to the triangle, the point at that parameter lies on the segment and in the triangle; conversely every proper intersection of the segment with the triangle is reported.",
  "all segments and all triangles",
  "Geometric statement over all reals.",
  ["src/wall/wall_3d.c: wall_3d_tri_collision"])
p("C33", "The two-dimensional wall reports the nearest crossing",
  "For a step in the poloidal plane the two-dimensional wall intersection search returns a segment crossed by the step with the smallest parameter, and reports none only if no non-parallel segment is crossed.",
  "all wall polygons and all steps",
  "Minimum over arbitrary polygons.",
  ["src/wall/wall_2d.c: wall_2d_find_intersection"])
p("C34", "Point-in-polygon test is a crossing parity and is insensitive to where the polygon starts",
  "The inside test gives the parity of the crossings of a horizontal ray with the polygon edges, so that it does not depend on the vertex from which the polygon is listed, and for rectangles it is true exactly for the interior points away from vertex heights.",
  "all polygons and all points",
  "Vertex-height degeneracies are measure zero.",
  ["src/math.c: math_point_in_polygon", "src/wall/wall_2d.c: wall_2d_inside"])
p("C35", "Linear interpolation is exact at grid nodes, bounded by its cell corners and reads only stored data",
  "Linear interpolation in one, two or three dimensions reproduces the tabulated values at the nodes, never leaves the range of the corner values of the cell, is periodic on periodic axes, and reads only elements of the table for every accepted coordinate.",
  "all tables, all grids and all coordinates",
  "All real coordinates including the upper grid boundary.",
  ["src/linint/linint1D.c: linint1D_eval_f", "src/linint/linint2D.c: linint2D_eval_f", "src/linint/linint3D.c: linint3D_eval_f"])
p("C36", "Natural cubic splines interpolate the data and are smooth",
  "For any tabulated data, the spline with natural boundary conditions reproduces every tabulated value, has continuous first and second derivatives at interior nodes and zero second derivative at the ends.",
  "all numbers of points and all data values",
  "It is a theorem about a linear solver for every size and right-hand side.",
  ["src/spline/splinecomp.c: splinecomp", "src/spline/interp1Dcomp.c", "src/spline/splineexpl.c: splineexpl"])
p("C37", "Periodic cubic splines interpolate the data and are smooth across the period",
  "For any tabulated periodic data, the periodic spline reproduces every tabulated value and has continuous first and second derivatives everywhere including across the period boundary.",
  "all numbers of points and all data values",
  "Cyclic solver correctness for every size and right-hand side.",
  ["src/spline/splinecomp.c: splinecomp", "src/spline/splineexpl.c: splineexpl"])
p("C38", "Compact and explicit splines are the same function",
  "For the same data and boundary condition the compact and the explicit spline evaluate to the same value at every point.",
  "all data, all sizes, all evaluation points",
  "Needs uniqueness of the spline for every size.",
  ["src/spline/splinecomp.c", "src/spline/splineexpl.c", "src/spline/interp1Dcomp.c", "src/spline/interp1Dexpl.c"])
p("C39", "Spline evaluation reads only stored coefficients",
  "For every coordinate that a spline evaluation accepts, every coefficient it reads is inside the coefficient table, and coordinates outside a non-periodic axis are rejected with an error.",
  "all grids, all coordinates, all boundary conditions",
  "Boundary coordinates and wrap-around indices.",
  ["src/spline/interp1Dcomp.c: interp1Dcomp_eval_f", "src/spline/interp2Dcomp.c: interp2Dcomp_eval_f", "src/spline/interp3Dcomp.c: interp3Dcomp_eval_f"])
p("C40", "The random number generator has full period",
  "From any seed, the linear congruential generator visits all 2^64 states before repeating, so no seed gives a short cycle.",
  "all seeds",
  "The period is 2^64; it cannot be run.",
  ["src/random.c: random_lcg_integer, random_lcg_init"])
p("C41", "Filling an array with normal random numbers writes exactly that array",
  "Requesting n normally distributed numbers writes each of the n elements of the output and nothing beyond it, for odd and even n.",
  "all n",
  "Array bounds for every length.",
  ["src/random.c: random_lcg_normal_simd"])
p("C42", "Magnetic field does no work on a full-orbit marker",
  "With zero electric field and no radiation reaction, one full-orbit step leaves the magnitude of the momentum (hence the kinetic energy) exactly unchanged for every magnetic field, time step, charge and mass.",
  "all momenta, fields, time steps, charges, masses and any number of steps",
  "Exact conservation for all inputs and unbounded numbers of steps.",
  ["src/simulate/step/step_fo_vpa.c: step_fo_vpa"])
p("C43", "Full-orbit momentum update is reversible and ballistic for neutrals",
  "The momentum update of a full-orbit step can be undone by a step with the opposite time step in the same fields, and a marker with zero charge moves on a straight line with constant momentum.",
  "all momenta, fields, time steps",
  "Algebraic identity over all reals.",
  ["src/simulate/step/step_fo_vpa.c: step_fo_vpa"])
p("C44", "Coordinate conversions are inverse to each other",
  "Converting positions and vectors between Cartesian and cylindrical coordinates and back returns the original, and vector conversion preserves length.",
  "all positions away from the axis, all vectors, all angles",
  "Identity over all reals.",
  ["src/math.h: math_xyz2rpz, math_rpz2xyz, math_vec_rpz2xyz, math_vec_xyz2rpz"])
p("C45", "Field gradient conversions are inverse to each other",
  "Converting a vector field with its gradient from cylindrical to Cartesian components and back returns the original field and gradient.",
  "all field values, gradients and positions with positive radius",
  "Twelve components depending on each other and on the position.",
  ["src/math.c: math_jac_rpz2xyz, math_jac_xyz2rpz"])
p("C46", "Kinematic conversions are mutually consistent",
  "Converting between momentum, velocity, Lorentz factor, kinetic energy, pitch and magnetic moment and back returns the original quantities, and Lorentz factors are at least one.",
  "all physically valid values",
  "Identities over all reals.",
  ["src/physlib.h"])
p("C47", "Zeroth-order guiding-center transform round trip",
  "Converting a momentum vector to parallel momentum, magnetic moment and gyroangle at zeroth order and back returns the same momentum vector.",
  "all momenta, charges and magnetic fields that are not degenerate",
  "Trigonometric identity for all directions.",
  ["src/gctransform.c: gctransform_particle2guidingcenter, gctransform_pparmuzeta2prpphipz"])
p("C48", "Guiding-center equations conserve energy and magnetic moment",
  "Without electric field and radiation reaction, the time derivative of the kinetic energy and of the magnetic moment along the guiding-center equations of motion is exactly zero for every magnetic field and gradient.",
  "all positions, momenta, magnetic moments, fields and gradients",
  "Identity over all reals.",
  ["src/simulate/step/step_gceom.h: step_gceom", "src/physlib.h: physlib_gamma_ppar"])
p("C49", "Runge-Kutta steps integrate polynomials exactly",
  "The fixed-step and adaptive integrators reproduce exactly the solution of equations whose right-hand side is a polynomial in time up to their order, the adaptive error estimate vanishes there, and rejected or accepted step suggestions follow the error.",
  "all polynomial coefficients, start times and step lengths",
  "Identity over all reals.",
  ["src/simulate/step/step_gc_rk4.c: step_gc_rk4", "src/simulate/step/step_gc_cashkarp.c: step_gc_cashkarp", "src/simulate/step/step_ml_cashkarp.c"])
p("C50", "Atomic reactions change the charge state by at most one and keep it physical",
  "An atomic reaction step changes the charge state by at most one, keeps it between zero and the atomic number, uses probabilities between zero and one, and stops with an error for unsupported charge states without changing the charge.",
  "all charge states, rates, time steps and random numbers",
  "Histories of random events.",
  ["src/simulate/atomic.c: atomic_fo, atomic_rates, atomic_react"])
p("C51", "Collisions keep velocity above the cutoff and pitch within bounds",
  "After a guiding-center collision step the speed is at least the thermal cutoff and the pitch is between minus one and one.",
  "all markers, plasma parameters and random numbers",
  "Random kicks are unbounded.",
  ["src/simulate/mccc/mccc_gc_euler.c: mccc_gc_euler", "src/simulate/mccc/mccc_gc_milstein.c: mccc_gc_milstein"])
p("C52", "One-dimensional plasma profiles are interpolated between the right grid points",
  "For every radius inside the profile grid the evaluated density and temperature are the linear interpolation between the two neighbouring grid points, and outside the grid an error is returned.",
  "all monotone grids, profiles and radii",
  "All real radii including grid points.",
  ["src/plasma/plasma_1D.c: plasma_1D_eval_temp, plasma_1D_eval_dens, plasma_1D_eval_densandtemp, plasma_1D_eval_flow"])
p("C53", "Hybrid mode treats each marker independently of the others",
  "In the hybrid mode a marker is continued as a full orbit if and only if it reached the hand-over condition, and its final end condition does not depend on which other markers were simulated with it.",
  "all marker populations",
  "Depends on the whole population.",
  ["src/simulate.c: simulate", "src/endcond.c: endcond_check_gc"])
p("C54", "Atomic data of each reaction is its own",
  "After initialising the atomic data, evaluating a reaction uses the tabulated data given for that reaction.",
  "all numbers of reactions and all table sizes",
  "Offsets into packed data for arbitrary table sizes.",
  ["src/asigma/asigma_loc.c: asigma_loc_init"])
p("C55", "Sorted search brackets the key",
  "For a sorted table and a key inside it, the search returns the interval that contains the key, and null outside the table.",
  "all sorted tables and all keys",
  "All sizes and keys.",
  ["src/math.c: math_rsearch, rcomp"])
p("C56", "Unique counting",
  "Counting unique integers returns every distinct value of the input exactly once with its number of occurrences, and the counts add up to the input length.",
  "all inputs",
  "All inputs of all lengths.",
  ["src/math.c: math_uniquecount"])
p("C57", "Evenly spaced vectors",
  "A generated evenly spaced vector starts at the first end point, ends at the second, and has equal increments.",
  "all end points and lengths of at least two",
  "All lengths.",
  ["src/math.c: math_linspace"])
p("C58", "Integer powers",
  "The integer power function returns the mathematical power for every base and non-negative exponent, modulo machine overflow.",
  "all bases and exponents",
  "All inputs.",
  ["src/math.c: math_ipow"])
p("C59", "Sampling from a beam distribution returns momenta of the sampled bin",
  "When reactant momenta are sampled from a distribution, the sampled momentum is the centre of the momentum bin that the random number selected.",
  "all numbers of bins on the two momentum axes, all contents, all random numbers",
  "The index decomposition is right for square grids only, which is what tests tend to use.",
  ["src/afsi.c: afsi_sample_beam_2d"])
p("C60", "Injected markers are shared among injectors without loss and carry the injected power",
  "The markers generated for the injectors add up to the requested number, occupy disjoint consecutive slots with unique consecutive identifiers, and the sum over an injector's markers of weight times mean energy equals its power.",
  "all injector powers and marker numbers",
  "Rounding for arbitrary power ratios.",
  ["src/bbnbi5.c: bbnbi_simulate, bbnbi_inject_markers"])
p("C61", "Fusion products conserve momentum and energy",
  "The velocities of the two fusion products conserve the centre-of-mass velocity and carry the reaction energy plus the kinetic energy in the centre-of-mass frame.",
  "all reactant velocities, masses, reaction energies and emission angles",
  "Identity over all reals.",
  ["src/afsi.c: afsi_compute_product_momenta_2d"])
p("C62", "Beam stopping evaluation reads only its tables",
  "For every plasma composition, the beam-stopping evaluation reads only elements of its coefficient tables and writes only inside its local arrays, and reports an error for unsupported compositions.",
  "all numbers of species, charges and masses",
  "All compositions.",
  ["src/suzuki.c: suzuki_sigmav"])
p("C63", "Field evaluation errors give defined fallback values",
  "Every magnetic-field evaluation either succeeds with the value of the selected field model or returns an error together with fixed fallback values, and the normalised radius is real and non-negative on success.",
  "all field types, positions and flux values",
  "All inputs.",
  ["src/B_field.c"])
p("C64", "Field-line markers keep the direction the user asked for",
  "A field-line marker given with a negative pitch is traced against the magnetic field and one with non-negative pitch along it.",
  "all pitch values",
  "All inputs through input conversion, state and lane representations.",
  ["src/particle.c: particle_input_to_state, particle_input_ml_to_state, particle_state_to_ml, particle_ml_to_state"])
p("C65", "Matrix product",
  "The matrix product routine computes the product of its arguments under one fixed storage convention for arguments and result.",
  "all dimensions and entries",
  "All dimensions.",
  ["src/math.c: math_matmul"])
p("C66", "Adaptive quadrature is exact for cubics",
  "The adaptive quadrature returns the exact integral of every polynomial of degree at most three for every interval and tolerance.",
  "all coefficients, intervals and tolerances",
  "All reals; recursion depth depends on data.",
  ["src/math.c: math_simpson, math_simpson_helper"])
p("C67", "New Wiener samples follow the Brownian bridge",
  "A new sample after all stored times equals the latest stored value plus a normal increment whose variance is the time difference; a new sample between stored times is drawn from the Brownian bridge between the two nearest stored samples, whatever the order in which times were requested and cleaned.",
  "all histories of requests and cleanings, all times from the first stored one on",
  "Nearest samples must be found for every history.",
  ["src/simulate/mccc/mccc_wiener.c: mccc_wiener_generate"])

p("C68","Gathered orbits are in the place of their marker",
  "After the orbit diagnostics of all processes have been gathered on the root, point i of the marker with global index m is at position m*Npnt+i of every orbit array, whichever process simulated the marker.",
  "all numbers of markers, processes and stored points, all orbit data",
  "tests run with few processes and divisible marker numbers",
  ["src/mpi_interface.c: mpi_gather_diag", "src/mpi_interface.c: mpi_my_particles"])
p("C69", "No wall crossing of a step is missed by the accelerated search",
  "For every three-dimensional wall set up by the initialisation, if the straight line of a step crosses a triangle of the wall, the accelerated wall search reports a hit, at a point of the step not after that crossing.",
  "all sets of triangles, all tree depths, all steps, all crossing points",
  "The search only tests triangles listed in the cells between the two end points; that none is lost depends on the tree, the flattened table, the overlap test and the cell arithmetic together.",
  ["src/wall/wall_3d.c: wall_3d_hit_wall, wall_3d_init, wall_3d_init_octree, wall_3d_tri_in_cube", "src/octree.c: octree_add, octree_get"])
p("C70", "A step from one side of the two-dimensional wall to the other is reported",
  "If one end point of a step in the poloidal plane is inside the two-dimensional wall and the other outside according to the inside test, the intersection search reports a wall segment that the step crosses.",
  "all wall polygons, also self-intersecting ones, and all steps",
  "Two independent algorithms have to agree for every polygon.",
  ["src/wall/wall_2d.c: wall_2d_inside, wall_2d_find_intersection"])
p("C71", "Two- and three-dimensional splines are splines of splines and their derivatives are derivatives",
  "A two- or three-dimensional spline reproduces every tabulated value; along each axis it is the one-dimensional spline through the values it takes at the grid points of that axis; and each derivative that the evaluation returns is that derivative of it, in the documented order of the outputs.",
  "all table sizes, all data, all combinations of natural and periodic axes, all coordinates",
  "Dozens of long hand-written expressions and a chain of one-dimensional solves; a test compares a few points with a tolerance.",
  ["src/spline/interp2Dcomp.c: interp2Dcomp_init_coeff, interp2Dcomp_eval_f, interp2Dcomp_eval_df", "src/spline/interp3Dcomp.c: interp3Dcomp_init_coeff, interp3Dcomp_eval_f, interp3Dcomp_eval_df"])
p("C72", "Sampling a normal random number always ends",
  "From every generator state the rejection loop ends after finitely many rounds, and the number passed to the logarithm and used as a divisor is then strictly between zero and one.",
  "all generator states",
  "A loop without bound on the number of rounds; 2^64 starting states.",
  ["src/random.c: random_lcg_normal_simd, random_lcg_uniform"])
p("C73", "Points of a plane are recognised",
  "The test whether a point lies in the plane of three given points succeeds for the points of the plane and only for them.",
  "all points and triangles",
  "All reals.",
  ["src/math.c: math_point_on_plane"])
p("C74", "Barycentric coordinates reproduce the point",
  "The two barycentric coordinates computed for a point reproduce it from the triangle's edges, up to a displacement along the given normal.",
  "all triangles with a non-degenerate normal, all points",
  "Identity over all reals.",
  ["src/math.c: math_barycentric_coords_triangle", "src/math.h: math_scalar_triple_product"])
p("C75", "The run summary counts every marker once",
  "The summary printed at the end of a run lists each end condition and each error that occurred once, with the number of markers that have it, states that no marker was aborted exactly when this is so, and never leaves its buffers.",
  "all marker populations and all end condition values",
  "All combinations of end conditions; array bounds for populations where every marker is different.",
  ["src/ascot5_main.c: print_marker_summary", "src/math.c: math_uniquecount", "src/endcond.c: endcond_parse, endcond_parse2str"])
p("C76", "Radiation reaction acts on gyrating markers in proportion to time",
  "When radiation reaction is enabled, each full-orbit step changes the momentum of a charged marker by the reaction force times the time step, in every full-orbit mode; motion along the magnetic field, neutral markers and runs with the force disabled are not affected.",
  "all momenta, fields, time steps, charges, masses",
  "Relation between all momenta, fields and time steps.",
  ["src/simulate/step/step_fo_vpa.c: step_fo_vpa, step_fo_vpa_mhd", "src/physlib.h: phys_ald_force_chartime"])
p("C77", "A full-orbit step obeys the Lorentz force",
  "In one full-orbit step the momentum changes by the time step times charge times (E + v x B), with the fields at the position and time in the middle of the step and the velocity of the mean momentum, and the position changes by the time step times the mean of the velocities before and after.",
  "all momenta, positions, fields, time steps, charges and masses",
  "An identity over all reals; a wrong sign or a swapped component can keep the energy exactly.",
  ["src/simulate/step/step_fo_vpa.c: step_fo_vpa"])
p("C78", "First-order guiding-center corrections use the local field geometry",
  "The first-order transformation between particle and guiding center uses the curvature of the field line and the gradient of the field direction at the given point, and changes nothing in a uniform field.",
  "all fields, gradients, positions, momenta and charges",
  "Tests use a few hand-picked fields; errors that vanish for curl-free fields or at one toroidal angle are not seen.",
  ["src/gctransform.c: gctransform_particle2guidingcenter, gctransform_guidingcenter2particle", "src/math.c: math_jac_rpz2xyz"])
p("C79", "Guiding-center equations conserve canonical toroidal momentum in axisymmetric fields",
  "In a field and potential that do not depend on the toroidal angle, the canonical toroidal momentum of a guiding center, as computed by the code from parallel momentum, field and poloidal flux, is constant along every solution of the guiding-center equations of motion.",
  "all axisymmetric fields with a poloidal flux, all marker states, charges, masses, electric fields without toroidal component",
  "An identity between derivatives for all fields and all marker states; a test follows a few orbits and compares to a tolerance.",
  ["src/simulate/step/step_gceom.h: step_gceom", "src/physlib.h: phys_ptoroid_gc"])
p("C80", "Guiding centers follow the effective field, and a silent mode changes nothing",
  "The guiding-center equations use the effective field B + (ppar/q) curl b; enabling MHD modes whose perturbation is zero at the position of the marker gives the same motion as running without modes.",
  "all fields and gradients, marker states, charges, masses",
  "Holds for all field gradients; a swapped component is invisible in the symmetric fields that tests use.",
  ["src/simulate/step/step_gceom.h: step_gceom", "src/simulate/step/step_gceom_mhd.h: step_gceom_mhd"])
p("C81", "A guiding-center step either succeeds consistently or stops the marker with an error",
  "After a guiding-center time step a running marker is either at the position that the integrator computed, with positive major radius, non-negative magnetic moment, gyroangle in [0, 2 pi) and field data that belong to the new position, or it is stopped with a non-zero error; a rejected trial step never ends the simulation of a marker; markers that are not running are unchanged.",
  "all markers, fields, failing field evaluations, step lengths, tolerances",
  "Depends on every combination of evaluation failures and results of the integrator.",
  ["src/simulate/step/step_gc_rk4.c: step_gc_rk4, step_gc_rk4_mhd", "src/simulate/step/step_gc_cashkarp.c: step_gc_cashkarp, step_gc_cashkarp_mhd"])
p("C82", "The poloidal angle points from the magnetic axis to the marker",
  "The poloidal angle of a marker is the direction from the magnetic axis at the toroidal angle of the marker to the marker, at the beginning and after every step of every integrator, and it is continuous: it changes by at most half a turn per step.",
  "all markers, axis shapes, steps",
  "An invariant of the whole history of the marker that is accumulated from increments.",
  ["src/simulate/step/step_fo_vpa.c: step_fo_vpa", "src/simulate/step/step_gc_rk4.c: step_gc_rk4", "src/simulate/step/step_gc_cashkarp.c: step_gc_cashkarp", "src/simulate/step/step_ml_cashkarp.c: step_ml_cashkarp", "src/particle.c: particle_input_p_to_state, particle_input_gc_to_state, particle_input_ml_to_state"])
p("C83", "Field lines are traced with unit speed and failures are reported",
  "A field-line marker moves with unit speed along (or against) the magnetic field, tracing against a static field with some step is tracing along it with the opposite step, and a failed evaluation during a step is reported as an error of the marker.",
  "all fields, positions, steps, failing evaluations",
  "Holds for all fields and every failing evaluation.",
  ["src/simulate/step/step_ml_cashkarp.c: step_ml_cashkarp, step_ml_cashkarp_mhd"])
p("C84", "The analytic tokamak field is consistent",
  "The analytic field is the curl of its flux function plus the toroidal field (B_R = -(1/R) dpsi/dz, B_z = (1/R) dpsi/dR, B_phi = B0 R0/R), satisfies the Grad-Shafranov equation with its two-parameter source, has no divergence, and every returned gradient (of the flux, the normalised radius and the field, with and without ripple) is the gradient of the returned quantity; the ripple is centred at the midplane.",
  "all coefficients, positions, ripple parameters",
  "Identities of functions and their derivatives at all points and for all thirteen coefficients; a test compares a few points of a symmetric case.",
  ["src/Bfield/B_GS.c: B_GS_eval_psi, B_GS_eval_psi_dpsi, B_GS_eval_rho_drho, B_GS_eval_B, B_GS_eval_B_dB"])
p("C85", "The Cartesian test field is the linear field the user gave",
  "The trivial Cartesian field evaluates at every position to the field at the origin plus the constant gradient times the position, in cylindrical components, and its gradient evaluation returns the same field and its derivatives along the cylindrical coordinates.",
  "all fields, gradients and positions",
  "All positions and gradients; the error vanishes for the uniform fields that tests use.",
  ["src/Bfield/B_TC.c: B_TC_eval_B, B_TC_eval_B_dB"])
p("C86", "Spline fields: field, gradient, flux and radius belong together",
  "For the axisymmetric, 3D and stellarator spline fields the gradient evaluation returns the field and its derivatives, the flux contributes no divergence and no field across flux surfaces, a zero field is an error, and the normalised radius with gradient agrees with the radius computed from the flux and with the chain rule.",
  "all splines and positions at which the splines are smooth",
  "Identities for all splines.",
  ["src/Bfield/B_2DS.c", "src/Bfield/B_3DS.c", "src/Bfield/B_STS.c", "src/B_field.c"])
p("C87", "Atomic rate coefficients are non-negative, complete and explicit about missing data",
  "A rate evaluation never returns a negative value; missing data, or data outside its table when extrapolation is off, give an error and the value zero; otherwise the charge-exchange rate is the sum over the neutral species of coefficient times density, and the beam-stopping coefficient is the mean over the ion species weighted with charge density.",
  "all sets of reaction data, all species, energies, temperatures and densities",
  "All combinations of reaction data and species.",
  ["src/asigma.c", "src/asigma/asigma_loc.c: asigma_loc_eval_sigma, asigma_loc_eval_sigmav, asigma_loc_eval_cx, asigma_loc_eval_bms"])
p("C88", "Beam stopping depends on the composition only",
  "The beam-stopping coefficient does not depend on the order in which the plasma species are listed, nor on whether a species is listed once or with its density shared between two entries.",
  "all plasma compositions",
  "All permutations and splittings.",
  ["src/suzuki.c: suzuki_sigmav"])
p("C89", "Reactions follow the exponential decay law with the rate of the present species",
  "In a time step a neutral is ionised, and a singly charged ion is neutralised, with the probability of an exponential decay with the reaction rate, and the charge-exchange rate is that with the neutral species given in the neutral data.",
  "all rates, time steps, random numbers and backgrounds",
  "Statement about probabilities for all rates and steps.",
  ["src/simulate/atomic.c: atomic_fo, atomic_rates, atomic_react"])
p("C90", "Collisions with a plasma in equilibrium keep a Maxwellian",
  "If all plasma species have the same temperature, a Maxwellian distribution of markers at that temperature with isotropic pitch carries no probability flux under the collisional drift and diffusion coefficients, of the guiding-center and of the full-orbit operator, and both operators give the speed the same drift.",
  "all plasma compositions, marker species and velocities, for fixed Coulomb logarithms",
  "A statement about all velocities and compositions; a Monte Carlo test sees only statistical noise around it.",
  ["src/simulate/mccc/mccc_coefs.h: mccc_coefs_Q, mccc_coefs_Dpara, mccc_coefs_dDpara, mccc_coefs_Dperp, mccc_coefs_K, mccc_coefs_nu, mccc_coefs_F"])
p("C91", "Collisional diffusion is never negative",
  "For every plasma with non-negative densities and positive temperatures, the diffusion coefficients are not negative, so that every collision step is defined.",
  "all plasmas, markers and options",
  "All parameter combinations.",
  ["src/simulate/mccc/mccc_coefs.h: mccc_coefs_clog, mccc_coefs_Dpara, mccc_coefs_Dperp, mccc_coefs_DX", "src/simulate/mccc/mccc_gc_euler.c", "src/simulate/mccc/mccc_gc_milstein.c"])
p("C92", "Collisional displacement of a guiding center is across the field",
  "The displacement that collisions give a guiding center is perpendicular to the magnetic field at its old position and has the size given by the diffusion coefficient and the random numbers.",
  "all markers, plasmas, fields and random numbers",
  "All directions of the field and all random numbers.",
  ["src/simulate/mccc/mccc_gc_euler.c: mccc_gc_euler", "src/simulate/mccc/mccc_gc_milstein.c: mccc_gc_milstein"])
p("C93", "Each collisional effect can be switched off",
  "With energy collisions switched off the kinetic energy does not change in a collision step, with pitch collisions switched off the pitch does not change, and with spatial diffusion switched off the position does not change.",
  "all markers, plasmas, random numbers and combinations of the switches, for guiding centers and full orbits",
  "All combinations of switches with all plasmas, including flowing ones.",
  ["src/simulate/mccc/mccc.h: mccc_data", "src/simulate/mccc/mccc_gc_euler.c", "src/simulate/mccc/mccc_gc_milstein.c", "src/simulate/mccc/mccc_fo_euler.c"])
p("C94", "A collision step is a step of the stochastic equations of motion",
  "A collision step advances the velocity relative to the plasma by one Euler-Maruyama or Milstein step with the drift and diffusion for which the Maxwellian is stationary, mirrored at the bounds for speed and pitch of guiding centers, and for full orbits changes nothing but the momentum, which stays below the speed of light.",
  "all markers, plasmas, time steps and random numbers",
  "All random numbers and plasmas; the covariance of the kicks is a statement about a matrix identity.",
  ["src/simulate/mccc/mccc_gc_euler.c: mccc_gc_euler", "src/simulate/mccc/mccc_gc_milstein.c: mccc_gc_milstein", "src/simulate/mccc/mccc_fo_euler.c: mccc_fo_euler"])
p("C95", "The adaptive collision step is controlled by the tolerance",
  "The suggestion for the next collision step is negative exactly if one of the error estimates exceeds the tolerance; a rejected step is retried with less than 0.9 of its length, and an accepted step is followed by one of 0.8 to 1.5 times its length.",
  "all error estimates and step lengths",
  "All combinations of estimates.",
  ["src/simulate/mccc/mccc_gc_milstein.c: mccc_gc_milstein"])
p("C96", "Time-dependent plasma profiles are interpolated in radius and time",
  "With time-dependent profiles the evaluated density, temperature and flow of each species are those given for that species, interpolated linearly in radius and in time, and equal to the first or the last profile before or after the given times.",
  "every table of profiles, every number of species, radial and time points, every radius and time",
  "The index arithmetic of the packed tables and the choice of interval must be right for every shape of table and every coordinate; a test with one species or a constant profile cannot see a wrong layout.",
  ["src/plasma/plasma_1Dt.c: plasma_1Dt_init, plasma_1Dt_eval_densandtemp, plasma_1Dt_eval_temp, plasma_1Dt_eval_dens, plasma_1Dt_eval_flow"])
p("C97", "Spline plasma profiles are positive and pass through the table",
  "With spline profiles the evaluated densities and temperatures are positive everywhere on the grid and equal to the tabulated values at the grid points, and every evaluation outside of the grid returns an error.",
  "every table of positive profiles, every species and radius",
  "Splines overshoot for some tables only; positivity must hold for every table and every radius.",
  ["src/plasma/plasma_1DS.c: plasma_1DS_init, plasma_1DS_eval_temp, plasma_1DS_eval_dens, plasma_1DS_eval_densandtemp, plasma_1DS_eval_flow"])
p("C98", "All ways of evaluating the plasma agree",
  "For every kind of plasma data, evaluating density and temperature of all species together gives the same values as evaluating each species on its own; both succeed or both report an error, and in case of an error defined fallback values are stored.",
  "every kind of plasma data, every table, species, radius and time",
  "Collision, atomic and beam code use different entry points; that they agree must hold for every input, not for sampled ones.",
  ["src/plasma.c: plasma_eval_temp, plasma_eval_dens, plasma_eval_densandtemp, plasma_eval_flow, plasma_get_n_species"])
p("C99", "Injected neutrals start on a beamlet with the energy and divergence of the beam",
  "Each injected marker starts on the line through one of the injector's beamlets, at the first point along its direction where the magnetic field is defined; its direction differs from that of the beamlet by the sampled divergence angles, its kinetic energy is the full, a half or a third of the injection energy as selected by the energy fractions, it is neutral, and its time lies in the injection interval.",
  "all injectors, beamlet directions, random numbers and magnetic fields",
  "All directions including vertical ones, and all random numbers.",
  ["src/nbi.c: nbi_inject", "src/bbnbi5.c: bbnbi_inject_markers"])
p("C100", "Beam neutrals fly straight and are ionised at the rate of the plasma",
  "While it is neutral a beam marker moves on a straight line with constant velocity; the probability that it is still neutral after some steps is the exponential of minus the time integral (step sum) of electron density times beam-stopping coefficient along its way; once ionised it has charge +e and the ionisation end condition.",
  "all plasmas, injection points, directions and numbers of steps",
  "A probability law over all paths; tests see one random sequence.",
  ["src/bbnbi5.c: bbnbi_trace_markers"])
p("C101", "The tracing of beam neutrals ends for a stated reason",
  "Tracing of a neutral always ends, and does so at ionisation, at the wall, at the time limit or with an error, with the matching end conditions set; a neutral that flies into the wall ends on it, with the number of the wall element and the time at which it got there.",
  "all plasmas, walls, injection points and directions",
  "All geometries and all orders in which ionisation, wall and limit may occur.",
  ["src/bbnbi5.c: bbnbi_trace_markers"])
p("C102", "Fusion products are collected in the bin of their momentum, with the reaction rate as weight",
  "Each bin of a product distribution holds the sum of the weights of those samples that were taken in its cell and whose momentum lies in the bin; products above the range of the distribution are left out, no other bin changes, and threads working on different cells never touch the same bin. The weights of the samples of a cell add up to volume times both densities times the average of relative speed and cross section at the centre-of-mass energy.",
  "all distributions, cells, samples and random numbers",
  "All numbers of bins and all samples; absence of overlap between threads is a statement about all pairs of cells.",
  ["src/afsi.c: afsi_run", "src/diag/hist.c: hist_init"])
p("C103", "Thermal reactants follow the Maxwell distribution of the plasma",
  "If the random numbers are independent and uniform, kinetic energy and pitch of a sampled thermal reactant are independent, the energy is distributed as in a Maxwell distribution with the local temperature (mean 3/2 T) and the direction is isotropic; the density is that of the plasma, and zero if the plasma cannot be evaluated.",
  "all temperatures, masses and plasma data; a statement about the law, i.e. all random numbers",
  "A probability law cannot be established by drawing samples.",
  ["src/afsi.c: afsi_sample_thermal_2d"])
p("C104", "Fusion cross sections are never negative and the reaction tables conserve charge",
  "For each of the reactions the cross section is defined and not negative for every energy, and positive exactly above the threshold of the fit; the fits for low and high energy agree where they meet; charge is conserved and the released energy is that of the mass defect within 1 MeV; the reactivity is positive for positive temperatures.",
  "all reactions, all energies and temperatures",
  "Sign of rational functions over a continuum of energies.",
  ["src/boschhale.c: boschhale_reaction, boschhale_sigma, boschhale_sigmav"])
p("C105", "Neutral density and temperature are interpolated from the table of the asked species",
  "The density and temperature of each neutral species at a point are the (tri)linear interpolation of the table given for this species; outside the grid an error is returned with density 0 and temperature 1 for every species; the number of species is the one given; all memory is released exactly once.",
  "all tables, numbers of species, grids and points",
  "All grids, tables and numbers of species; unit tests use one species.",
  ["src/neutral.c: neutral_eval_n0, neutral_eval_t0, neutral_get_n_species", "src/neutral/N0_1D.c: N0_1D_init, N0_1D_free, N0_1D_eval_n0, N0_1D_eval_t0", "src/neutral/N0_3D.c: N0_3D_init, N0_3D_free, N0_3D_eval_n0, N0_3D_eval_t0"])
p("C106", "The radial electric field is minus the gradient of the potential",
  "With a radial potential profile the electric field is minus the derivative of the potential with respect to rho (scaled with the effective minor radius) times the gradient of rho, so that it is perpendicular to the flux surfaces, and zero outside of the profile; a uniform field has the same Cartesian vector everywhere.",
  "all profiles, magnetic fields and points",
  "A statement about derivatives at all points for all field data.",
  ["src/E_field.c: E_field_eval_E", "src/Efield/E_1DS.c: E_1DS_init, E_1DS_eval_E", "src/Efield/E_TC.c: E_TC_eval_E"])
p("C107", "Boozer coordinates come with their own gradients",
  "For a point within the boundary contour and the psi range, psi, theta and zeta are the tabulated functions of the flux, the geometrical angle around the axis and the toroidal angle, and the derivatives returned are their partial derivatives with respect to R, phi and z; elsewhere the point is reported as outside without an error.",
  "all tables, magnetic fields and points",
  "A statement about derivatives at all points for all field data.",
  ["src/boozer.c: boozer_init, boozer_eval_psithetazeta"])
p("C108", "MHD perturbations derive from the potentials of the modes",
  "The functions alpha and Phi are the sums over the selected modes of amplitude, profile and cos(n zeta - m theta - omega t + phase), returned with their gradients and time derivatives; the magnetic perturbation is the curl of alpha B, the electric one minus the gradient of Phi minus the time derivative of alpha B; outside the data there is no perturbation.",
  "all numbers of modes, profiles, fields, points and times",
  "A statement about derivatives, for any number of modes and at all points and times.",
  ["src/mhd.c: mhd_eval, mhd_perturbations", "src/mhd/mhd_stat.c: mhd_stat_eval, mhd_stat_perturbations", "src/mhd/mhd_nonstat.c: mhd_nonstat_eval, mhd_nonstat_perturbations"])
p("C109", "Accepted input markers are physical and start as the user asked",
  "An input particle, guiding center or field line is accepted only if its major radius, mass, weight and number are positive (for a guiding center also: energy positive, pitch between -1 and 1); otherwise it gets an error and keeps its number.  An accepted marker starts unsimulated, with the given position, momentum, energy, pitch, gyroangle, species, weight and time, with the field and rho at its guiding center, and a poloidal angle that points from the axis to the given position.",
  "all input markers, magnetic fields, orders of the guiding-center transformation and previous contents of the state",
  "Markers are real vectors; the tests of a suite can only try a few of them, and only in a few fields.",
  ["src/particle.c: particle_input_to_state, particle_input_p_to_state, particle_input_gc_to_state, particle_input_ml_to_state", "src/physlib.h: physlib_gc_ppar, physlib_gc_mu"])
p("C110", "Markers survive conversions between marker types",
  "Converting the stored state of a marker for simulation as full orbit, guiding center or field line, and back, keeps everything that both sides hold; an accepted marker that is converted and stored again is unchanged.  Errors are kept; a state with an error is not simulated.  The guiding center stored with a full orbit is that of the particle, with the field there; converting a full orbit directly gives the same guiding center as going through the state.",
  "all markers, magnetic fields and previous contents of the structures",
  "A round-trip law over all markers and fields, with many fields of the structures and several error paths.",
  ["src/particle.c: particle_state_to_fo, particle_fo_to_state, particle_state_to_gc, particle_gc_to_state, particle_state_to_ml, particle_ml_to_state, particle_fo_to_gc"])
p("C111", "Positions found from rho and theta lie on the asked flux surface and ray",
  "Every position returned for given rho, theta and phi lies on the ray at angle theta from the magnetic axis, within 5 m, and the rho there differs from the asked one by less than the tolerance; if the field is known along the ray up to the surface and rho increases along it, a position is returned provided that enough halvings of the interval are allowed.",
  "all magnetic fields, values of rho, theta and phi, tolerances and numbers of iterations",
  "Quantifies over all fields and tolerances; a test shows single bisections.",
  ["src/libascot.c: libascot_B_field_rhotheta2rz"])
p("C112", "The search for the magnetic axis goes downhill and ends near it",
  "The gradient descent for the extremum of psi, when it reports success, ends at a position one step from a point with a step size below the tolerance, where the gradient is small; with a step below two over the curvature bound each step lowers psi, the search ends, and for strongly convex psi the result is near the axis; ascent is the mirror image.  In three dimensions the toroidal angle stays within the given limits.  The returned psi bounds the flux in the plasma, so that rho is defined at the axis.",
  "all flux functions, starting points, steps, tolerances and iteration limits",
  "Convergence for every smooth flux function, step and starting point.",
  ["src/libascot.c: libascot_B_field_gradient_descent, libascot_B_field_gradient_descent_3d"])
p("C113", "Batch evaluation gives each point its own value, whatever the threads do",
  "When the library evaluates fields, flux, potential, electric field, mode functions, plasma or collision coefficients at many points in parallel, the entry of each output array for a point holds the value at that point if all evaluations succeed there and keeps its old content otherwise, and no other memory changes, for every schedule.  Summed over species, the collision coefficients are those with which the collision operators move a marker of the same mass, charge and speed.",
  "all numbers of points, velocities and species, all field evaluation functions, all thread schedules and interleavings of stores",
  "All interleavings and index ranges; a test sees one schedule.",
  ["src/libascot.c: libascot_B_field_eval_B_dB, libascot_B_field_eval_rho, libascot_B_field_rhotheta2rz, libascot_E_field_eval_E, libascot_plasma_eval_background, libascot_mhd_eval, libascot_eval_collcoefs"])
p("C114", "Reaction rates given by the library are those of the simulation",
  "The rate coefficient that the library stores for charge exchange or beam stopping at a point and speed is the rate with which the simulation changes the charge of a marker of the same species, mass and speed there; nothing is stored when the evaluation fails; any number of neutral species is handled, also when neutral densities are asked for.",
  "all atomic data, plasma and neutral compositions, densities, temperatures, masses and speeds",
  "Two independent call chains have to agree for all compositions.",
  ["src/libascot.c: libascot_eval_ratecoeff, libascot_neutral_eval_density", "src/simulate/atomic.c: atomic_rates", "src/asigma/asigma_loc.c: asigma_loc_eval_cx, asigma_loc_eval_bms"])
p("C115", "Safety factor and Jacobian of the Boozer coordinates",
  "If the field is the cross product of the gradient of psi with that of zeta minus q times that with the gradient of theta, then the evaluated safety factor is q and field lines have that pitch; the Jacobian is, up to sign, the volume spanned by the coordinate lines; times the squared field it is I + q G in Boozer coordinates, and so a flux function.",
  "all gradients and fields at a point, all q, I and G",
  "An identity between vectors for all coordinate systems.",
  ["src/libascot.c: libascot_boozer_eval_fun"])
p("C116", "The field of a coil is that of Biot and Savart",
  "The magnetic field computed for a coil given as a polygon is the line integral of mu0/4pi dl x r / |r|^3 along the polygon, at every point that is not on the wire; it is free of divergence.",
  "all coils with any number of points and all query points",
  "Equality with an integral for all geometries.",
  ["src/biosaw.c: biosaw_calc_B"])
p("C117", "Simulation options mean what they are documented to mean",
  "If the options are read, every option of the simulation has the value in the file, in the documented unit; angles are converted from degrees to radians, energies from electron volts to joules, also for the axes of the distributions, which exist exactly if they are enabled.  Every option that is needed is present then; conversely, if all needed options are in the file as single numbers in range, reading succeeds; if one is missing, it fails.",
  "all contents of the options group in the input file",
  "More than a hundred options, each with its own name, type and unit, and optional groups that depend on others.",
  ["src/hdf5io/hdf5_options.c: hdf5_options_read, hdf5_options_read_mode, hdf5_options_read_endcond, hdf5_options_read_diagorb, hdf5_options_read_dist5D", "a5py/ascot5io/options.py"])
p("C118", "Markers stop exactly when the end conditions in the options say so",
  "With given options, the simulation of a guiding center ends at a check exactly if one of the switched-on end conditions is met, with the limits that are in the file: time and mileage, CPU time, rho, energy in electron volts or in multiples of the temperature, wall, number of toroidal or poloidal orbits, or both of these if the option for them is two.",
  "all options files, markers, plasmas and walls",
  "Joins the reader of the options with the checks after each step, for all values of the options.",
  ["src/hdf5io/hdf5_options.c: hdf5_options_read_endcond", "src/endcond.c: endcond_check_gc"])
p("C119", "Poincare planes are those in the options",
  "The planes where orbits are recorded are exactly those listed in the options, up to the 30 that fit: toroidal and poloidal angles in degrees, radial positions in rho; a negative first entry switches planes of that kind off.",
  "all lists of planes in the options file",
  "All lengths of lists and all values, including those that the code uses as markers.",
  ["src/hdf5io/hdf5_options.c: hdf5_options_read_diagorb"])
p("C120", "The simulated markers are those in the marker file",
  "Reading the marker group gives all markers of the table, in its order: position, velocity (as momentum), energy, pitch, gyroangle, mass, charge, species, weight, time and number, converted from degrees, electron volts, atomic mass units and elementary charges to SI units.  It succeeds only if the whole table is there.  Particles that are written and read again are the same.",
  "all contents of the marker group, all numbers of markers",
  "Every value of every column, and every way in which the table can be incomplete.",
  ["src/hdf5io/hdf5_marker.c: hdf5_marker_read, hdf5_marker_read_particle, hdf5_marker_read_guiding_center, hdf5_marker_read_field_line, hdf5_marker_write_particle"])
p("C121", "The marker states in the output file are the markers of the simulation",
  "After writing the initial or final state, every documented quantity of every marker is in the file in the order of the markers, with a unit that together with the number gives the quantity; the data sets hold nothing else; message, line and module of an error can be read from the file.",
  "all lists of marker states with charges that are multiples of the elementary charge",
  "Thirty data sets for any number of markers, each with its own conversion.",
  ["src/hdf5io/hdf5_state.c: hdf5_state_write", "src/hdf5io/hdf5_helpers.c: hdf5_write_extendible_dataset_double, hdf5_write_extendible_dataset_int, hdf5_write_extendible_dataset_long", "a5py/ascot5io/state.py"])
p("C122", "The orbits in the output file are the recorded orbits",
  "After a run with one process every recorded point of every marker is in the file with all quantities of the simulation mode, in the documented units, and unused space of the buffer is left out; in Poincare mode also the crossing number and direction.  With the record at intervals the points in the file are the last ones that were due in the simulation.",
  "all recordings in all simulation modes, all numbers of markers and points",
  "All fill levels of the ring buffers and all values; a test looks at one file.",
  ["src/hdf5io/hdf5_orbit.c: hdf5_orbit_write, writeorbset", "src/diag/diag_orb.c", "a5py/ascot5io/orbits.py"])
p("C123", "The transport coefficients in the output file are the evaluated ones",
  "After a run with one process every evaluated coefficient is in the file with the number of its marker, drift and diffusion in the documented units; nothing is written if none was evaluated.",
  "all numbers of markers and values of the coefficients",
  "All lengths and all values.",
  ["src/hdf5io/hdf5_transcoef.c: hdf5_transcoef_write"])
p("C124", "Queries for end conditions and the marker summary tell the truth",
  "A query for end conditions, with or without NOT, returns exactly the markers for which all asked conditions hold; markers that ended in an error have the end condition ABORTED, and NONE means that nothing has ended the marker; several queries return markers that satisfy any of them; unknown names are refused.  The summary counts each marker once under the names of its end conditions and lists every error with message, line and source file.",
  "all sets of markers with all combinations of end conditions and errors, all queries",
  "All combinations of fourteen conditions, all queries, and all errors that the code can raise.",
  ["a5py/ascot5io/state.py: State.get, State.endcond_check, State.endcond_tostring", "a5py/routines/runmixin.py: getstate, getstate_markersummary", "src/error.h"])
p("C125", "A distribution file describes its own cells: each marker is found where the stored axes say",
  "For each of the five fixed distributions, the stored abscissas have the documented names, order and units, their edges expressed in SI units are those of the collected distribution, and every deposition of a marker's weight goes into the one stored cell whose edges enclose the marker's coordinates.",
  "all axes, all markers and all histories of updates",
  "Names, order, units, conversion of edges and the linear index must agree for all axes and all coordinates at once.",
  ["src/hdf5io/hdf5_dist.c: hdf5_dist_write_5D, hdf5_dist_write_6D, hdf5_dist_write_rho5D, hdf5_dist_write_rho6D, hdf5_dist_write_COM", "src/diag/dist_5D.c: dist_5D_update_gc, dist_5D_update_fo", "doc/simulations.rst", "a5py/ascot5io/dist.py"])
p("C126", "A general histogram file describes its own cells",
  "The cells of a written histogram are those of the histogram in memory, axes that are not in use are left out without changing the order of the numbers, and each abscissa is given in a unit of its quantity.",
  "all choices of axes, all markers",
  "2^16 choices of axes, all coordinates.",
  ["src/hdf5io/hdf5_histogram.c: hdf5_hist_write", "src/diag/hist.c: hist_update_gc, hist_update_fo"])
p("C127", "The results of a run end up in its own group, whatever else is in the file",
  "In an output file that is shared by any number of runs of ascot5_main, bbnbi5 and AFSI, the group of each run holds the attributes it was given and the results that this run has written, and nothing else, and groups that were there before are not changed.",
  "all histories of beginning runs, writing results and activating runs",
  "All interleavings of several programs that work on one file.",
  ["src/hdf5_interface.c: hdf5_interface_init_results, hdf5_interface_write_state, hdf5_interface_write_diagnostics", "src/afsi.c: afsi_run"])
p("C128", "The inputs used are those that were asked for, and the run records them",
  "A program reads, for every kind of input it needs, the group given as an argument or, if none is given, the active one; it fails exactly if one of them cannot be read; the QIDs stored with the results are those of the inputs that were read, no more and no less; ascot5_main called with the stored QIDs reads the same data again, whatever has become active since.",
  "all input files, all arguments",
  "All combinations of given and active inputs, and all later changes of the active inputs.",
  ["src/hdf5_interface.c: hdf5_interface_read_input, hdf5_interface_init_results, hdf5_get_active_qid", "src/ascot5_main.c: main, read_arguments", "src/bbnbi5_main.c: main, bbnbi_read_arguments"])
p("C129", "Files may be named with or without extension, or not at all",
  "The input and output files used are those named in the arguments, where the extension .h5 may be left out; by default the input file is ascot.h5 and the output file is the input file.",
  "all strings given as arguments",
  "All strings, among them those that contain the extension elsewhere or nothing else.",
  ["src/ascot5_main.c: read_arguments", "src/bbnbi5_main.c: bbnbi_read_arguments"])
p("C130", "A run leaves all its markers and diagnostics in the output file and ends with a correct summary",
  "A run leaves one new group with the initial and final states of all its markers in the order of the input and with all its diagnostics, and touches nothing else; the summary at the end counts all markers by end condition and error.  A run that is split over independent processes leaves every marker exactly once in the output files together.",
  "all markers, output files, numbers of processes and ranks",
  "All numbers of markers and processes, all contents of the output file.",
  ["src/ascot5_main.c: main, prepare_markers, write_rungroup, write_output, print_marker_summary", "src/mpi_interface.c: mpi_my_particles, mpi_gather_particlestate"])
p("C131", "The plasma that the simulation sees is the one the user wrote",
  "Densities, temperatures, rotation and species that a user writes with the Python interface (m^-3, eV, rad/s, atomic mass units, elementary charges) are what the program evaluates after reading the file, species by species, in its own units: between grid points by linear or spline interpolation, at grid points exactly.  A group left by a writer that failed is not accepted.",
  "all tables, numbers of radii, times and ions, all points",
  "All sizes of tables with several indices: an order of indices that differs between writer and reader shows only for certain sizes.",
  ["a5py/ascot5io/plasma.py: plasma_1D.write_hdf5, plasma_1DS.write_hdf5, plasma_1Dt.write_hdf5", "src/hdf5io/hdf5_plasma.c: hdf5_plasma_init, hdf5_plasma_read_1D, hdf5_plasma_read_1DS, hdf5_plasma_read_1Dt", "src/plasma.c: plasma_eval_dens, plasma_eval_temp, plasma_eval_flow"])
p("C132", "The deviation from quasi-neutrality that is printed is the right one",
  "After reading a plasma the program prints the largest relative deviation of the charge density of the ions from that of the electrons over the tabulated radii.",
  "all plasmas with nonzero electron density",
  "All numbers of radii, times and ions, all charges.",
  ["src/plasma/plasma_1D.c: plasma_1D_init", "src/plasma/plasma_1DS.c: plasma_1DS_init", "src/plasma/plasma_1Dt.c: plasma_1Dt_init"])
p("C133", "An electric field written from Python is the one used in the simulation",
  "For every constant field, given by three Cartesian components, and every table of the potential gradient on a grid in rho, the group that the Python interface writes is accepted by the simulation program, and the field evaluated at any point is the given vector, or minus the gradient of a potential whose derivative in rho is the spline through the given table times the given effective minor radius, and zero outside of the grid; arrays of other sizes are refused. Fields on grids in R, phi and z that the Python interface writes are accepted as well.",
  "all tables, grid limits, sizes and evaluation points",
  "Two programs in two languages agree on names, order, units and meaning of the data; a test covers single tables.",
  ["a5py/ascot5io/efield.py:E_TC.write_hdf5,E_1DS.write_hdf5,E_3D.write_hdf5,E_3DS.write_hdf5", "src/hdf5io/hdf5_efield.c:hdf5_efield_init,hdf5_efield_read_TC,hdf5_efield_read_1DS", "src/E_field.c", "src/Efield/E_1DS.c"])
p("C134", "Neutral densities and temperatures written from Python are the ones used in the simulation",
  "For every set of neutral species with densities and temperatures tabulated in rho or in R, phi and z, the group that the Python interface writes is accepted by the simulation program, and at every point of the grid the density of each species is the linear interpolation of the values given for that species, and the temperature that of the given values in eV times the electronvolt; outside of the grid there is an error. The angle is given in degrees and is periodic. The documented arguments are accepted.",
  "all numbers of species, grids, tables and evaluation points",
  "The two programs order the axes differently (transposes and flat indices); a mistake shows only for particular sizes and species.",
  ["a5py/ascot5io/neutral.py:N0_1D.write_hdf5,N0_3D.write_hdf5", "src/hdf5io/hdf5_neutral.c:hdf5_neutral_init,hdf5_neutral_read_1D,hdf5_neutral_read_3D", "src/neutral.c", "src/neutral/N0_1D.c", "src/neutral/N0_3D.c"])
p("C135", "A wall written from Python is the one used in the simulation",
  "For every contour and every set of triangles with at least one element, with or without flags, the group that the Python interface writes is accepted by the simulation program; the number of elements and the flag of each element are the given ones; a step hits exactly the elements of the given geometry, and the identifier of a hit is one plus the index of the element in the given arrays. Arrays of other sizes are refused, and a wall without elements is refused.",
  "all contours, triangles, flags and steps of a marker",
  "Numbering and geometry are agreed between two programs in two languages for every wall; a test covers single walls.",
  ["a5py/ascot5io/wall.py:wall_2D.write_hdf5,wall_3D.write_hdf5", "src/hdf5io/hdf5_wall.c:hdf5_wall_init,hdf5_wall_read_2D,hdf5_wall_read_3D", "src/wall.c", "src/wall/wall_2d.c:wall_2d_init", "src/wall/wall_3d.c:wall_3d_init"])
p("C136", "Wall loads are the sums over the markers that hit the element",
  "For every set of markers that ended at the wall, the loads have one entry for each element hit, in increasing order, with its area; the particle load is the sum of the weights of the markers on the element, the energy load that of energy times weight, and without weights the count and the sum of energies; the sums over all elements equal those over all markers; with flags only the elements with these flags are listed, with their complete loads; the peak load is the largest and the wetted area the sum; and the angle of incidence is the average over the markers on the element of the angle between momentum and normal.",
  "all sets of markers, walls, flags, and all orders that argsort can return for equal identifiers",
  "The grouping depends on the order and the repetitions of identifiers; a test covers single populations.",
  ["a5py/routines/runmixin.py:getwall_loads,getwall_figuresofmerit,getwall_3dmesh"])
p("C137", "Geometry of walls: areas, normals, centres and conversion to triangles",
  "The conversion of a contour into a 3D wall gives for every contour and number of toroidal sectors two triangles for each segment and sector, with corners on the given vertices turned by multiples of the sector angle, none missing; the surface is closed: every side belongs to exactly two triangles. The area of a contour element is that of the surface swept around the axis and that of a triangle is its area; the normals have length one and are orthogonal to the element; the elements are numbered as in the simulation; the corners of each face in the node representation are those of the triangle. The outline gives the smallest and the largest radius.",
  "all contours, numbers of sectors and triangles",
  "Index arithmetic in array updates must be right for all sizes, with the wrap-around at the ends.",
  ["a5py/ascot5io/wall.py:wall_2D.getwallcontour,wall_2D.getwalloutline,wall_2D.area,wall_3D.convert_wall_2D,wall_3D.area,wall_3D.barycenters,wall_3D.noderepresentation"])
p("C138", "The magnetic field of the simulation is the one written with the Python interface",
  "A user writes a magnetic field with write_hdf5 of B_2DS, B_3DS, B_STS, B_TC or B_GS and runs a simulation with it.  At every position of the grid, evaluating flux, field and gradients gives the cubic splines through the tables of the user (grid in m and degrees), with the field of the flux added for B_2DS and B_3DS; the tabulated numbers at the grid points; errors outside; the axis and the fluxes at axis and separatrix that were given.  B_TC is the linear Cartesian field with the given Jacobian and B_GS the Solov'ev equilibrium with the given coefficients, moved to z0.  A field that cannot be evaluated on its axis stops the program.  Tables of the wrong shape are refused.",
  "all grids (at least two points in R and z, three in phi), tables, axes, fluxes, coefficients, Jacobians and positions",
  "The layout of the tables, the units and the boundary conditions pass through two languages and a file; tests use constant or symmetric tables and z0 = 0, for which transposed indices or a forgotten shift have no effect.",
  ["a5py/ascot5io/bfield.py: write_hdf5", "a5py/physlib/analyticequilibrium.py: psi0, find_axis", "src/hdf5io/hdf5_bfield.c: hdf5_bfield_init", "src/Bfield/B_2DS.c: B_2DS_init", "src/Bfield/B_3DS.c: B_3DS_init", "src/Bfield/B_STS.c: B_STS_init", "src/Bfield/B_GS.c: B_GS_eval_B", "src/B_field.c: B_field_eval_B"])
p("C139", "The derivatives returned with spline data are the derivatives of that data, also across cell edges",
  "Interpolating tabulated data with splines in one, two or three dimensions, natural or periodic along each axis, gives a function of the coordinates with continuous second derivatives on the whole domain, and the first and second derivatives that the evaluation returns are its derivatives.  Hence inside of the grid the gradients of flux and field of the axisymmetric, three-dimensional and stellarator fields are the gradients of the flux and the field that are evaluated there, and an axisymmetric field given by flux and toroidal field alone has no divergence and follows the flux surfaces.",
  "all tables, numbers of points (two or more on natural, three or more on periodic axes), axis limits and positions, on and off the edges of cells",
  "derivatives at each of the infinitely many positions, and continuity at the edges of cells, are limits that no finite set of evaluations shows",
  ["src/spline/interp1Dcomp.c", "src/spline/interp2Dcomp.c", "src/spline/interp3Dcomp.c", "src/spline/splinecomp.c", "src/Bfield/B_2DS.c:B_2DS_eval_B_dB", "src/Bfield/B_3DS.c:B_3DS_eval_B_dB", "src/Bfield/B_STS.c:B_STS_eval_B_dB"])
p("C140", "The MHD modes of the simulation are those written with the Python interface",
  "A user writes stationary or time-dependent MHD modes with write_hdf5 of MHD_STAT or MHD_NONSTAT and runs a simulation with them.  The electric and the magnetic potential that the simulation evaluates, for all modes or for one selected mode, are the sums over these modes of the user's amplitude times the cubic spline through the user's profile of that mode times the cosine of n zeta - m theta - omega t + phase with the user's numbers; the spline goes through the tabulated numbers; beyond the grid the evaluation fails.  Tables of the wrong shape are refused.",
  "all numbers of modes, mode numbers, amplitudes, frequencies, phases, profiles on grids with at least two points, positions and times",
  "The order of the array indices passes through two languages and a file, and mode and radius are easily exchanged; tests use one mode or profiles that are equal for all modes.",
  ["a5py/ascot5io/mhd.py:MHD_STAT.write_hdf5,MHD_NONSTAT.write_hdf5", "src/hdf5io/hdf5_mhd.c:hdf5_mhd_init", "src/mhd/mhd_stat.c:mhd_stat_init,mhd_stat_eval", "src/mhd/mhd_nonstat.c:mhd_nonstat_init,mhd_nonstat_eval"])
p("C141", "The Boozer coordinates of the simulation are those written with the Python interface",
  "A user writes the tables of the Boozer angle and of nu with Boozer.write_hdf5 and runs a simulation with them.  At every position inside of the user's contour and range of flux the evaluation gives the flux, the value of the cubic spline through the user's table of the angle, continued by whole turns, at the flux and the geometrical angle, and the toroidal angle plus nu up to whole turns, with the derivatives of these functions; outside there are no coordinates.  The splines go through the tables.  If the table of the angle is the geometrical angle and nu is zero, the coordinates are the geometrical ones.  Tables of the wrong shape are refused.",
  "all grids (at least two points in psi, five in the geometrical angle, three in the Boozer angle), tables, contours, magnetic fields and positions",
  "The writer pads the table and the program undoes it with a formula of its own; both must agree for every number of points, and a wrong padding shows only between grid points near the ends.",
  ["a5py/ascot5io/boozer.py:Boozer.write_hdf5", "src/hdf5io/hdf5_boozer.c:hdf5_boozer_init", "src/boozer.c:boozer_init,boozer_eval_psithetazeta"])
p("C142", "The reaction data of the simulation are those written with the Python interface",
  "A user writes tables of cross-sections and rate coefficients with Asigma_loc.write_hdf5 and runs a simulation with them.  The simulation has exactly the user's reactions, each with its species, type and axes; the cross-section or rate it evaluates for a reaction is the value of the cubic spline through the user's table of that reaction at the energy (and the density and the temperature, in the units of the tables), or zero where the spline is negative; outside of the axes the value is zero or the evaluation fails, as selected.  Tables of the wrong size are refused.",
  "all numbers of reactions, species, types, axes with at least two points, tables, energies, densities and temperatures",
  "The tables of all reactions are packed into one array whose parts must be found again by a program in another language; tests use files with a single reaction.",
  ["a5py/ascot5io/asigma.py:Asigma_loc.write_hdf5", "src/hdf5io/hdf5_asigma.c:hdf5_asigma_init,hdf5_asigma_read_loc", "src/asigma/asigma_loc.c:asigma_loc_init", "src/asigma.c:asigma_eval_sigma,asigma_eval_sigmav"])
p("C143", "The injectors of a beam simulation are those written with the Python interface",
  "A user writes a bundle of neutral beam injectors with NBI.write_hdf5 and runs BBNBI with it.  The simulation has the same injectors in the same order, each with the user's identifier, species, power, energy fractions and divergences, with mass and energy converted to SI units, and with exactly the user's beamlets in the same order.  Markers start at the user's beamlets with the user's energy or one half or one third of it.  Arrays of the wrong shape and a wrong number of injectors are refused.",
  "all numbers of injectors, numbers of beamlets that differ between injectors, parameters, beamlets and random numbers",
  "The beamlets of all injectors are packed into one array and unpacked again by another function; a wrong offset shows only for bundles of injectors with different numbers of beamlets.",
  ["a5py/ascot5io/nbi.py:Injector,NBI.write_hdf5", "src/hdf5io/hdf5_nbi.c:hdf5_nbi_init", "src/nbi.c:nbi_init,nbi_inject"])
p("C144", "Generated injectors have the geometry the user asked for",
  "The function NBI.generate gives an injector whose grid centre is at the user's coordinates and whose centre line, seen from above, has the user's tangency radius and sense.  Every beamlet lies on the grid, inside of the user's circle or rectangle, and its direction is a unit vector towards one common focus on the centre line, at the user's focal length from the centre of the grid.  The centre line has the user's vertical tilt, or passes the tangency point with the user's vertical shift.  The other parameters are passed on unchanged.",
  "all positions of the injector, tangency radii up to the distance from the axis, focal lengths, grids, tilts, shifts, numbers of beamlets and random numbers",
  "The geometry must be right for all toroidal positions and tilts; at the position and without the tilt used in a test, wrong formulas can agree with right ones.",
  ["a5py/ascot5io/nbi.py:NBI.generate,Injector"])
p("C145", "A magnetic field given as a dictionary is the one that the file would give",
 "The interactive interface accepts, instead of a group of the file, a dictionary with what would be given to the corresponding writer.  The field is then the same as if the writer had been called with these arguments and the file had been read: same values, same flux, same axis, everywhere, and arguments that the writer refuses are refused.",
 "all five kinds of magnetic field, grids, tables, optional arguments left out or not, and arrangements of the arrays in memory",
 "The dictionary is handed over as raw memory of arrays; whether the entries arrive at the right grid points depends on the arrangement of the arrays and the shape of the grid, and agrees by chance for symmetric data.",
 ["a5py/ascotpy/libproviders.py:_provide_bfield", "a5py/ascot5io/bfield.py:B_TC.write_hdf5,B_GS.write_hdf5,B_2DS.write_hdf5,B_3DS.write_hdf5,B_STS.write_hdf5", "src/hdf5io/hdf5_bfield.c:hdf5_bfield_init"])
p("C146", "The interactive interface holds the inputs that were asked for",
 "After any history of loading files, initialising and freeing inputs: each kind of input that the interface uses is the one that was asked for last, with the data of its group in the file or of its dictionary; what was freed, or belonged to a file that is no longer open, is gone; asking for what is initialised already does nothing; asking for something else raises an exception and changes nothing unless a switch was asked for.  What is marked as initialised has data, and memory is neither freed twice nor lost.",
 "all histories of calls, also those in which calls raise exceptions, files, groups, dictionaries and combinations of arguments",
 "The state after a call depends on all calls before; wrong bookkeeping shows only after particular sequences, often as a crash or as silent use of old data.",
 ["a5py/__init__.py:input_init,input_free,file_load", "a5py/ascotpy/__init__.py:_init,_free", "a5py/ascotpy/libsimulate.py:simulation_initbbnbi", "src/hdf5_interface.c:hdf5_interface_read_input"])
p("C147", "A dictionary is taken for the type of input whose writer takes it",
 "Given a dictionary for an input, the interface finds the type whose writer takes its entries as arguments: all arguments without default value, and nothing else.  If there is such a type it is found, there are never two, and arguments that were left out get the default values of the writer.  Otherwise there is an error, whose message names the type that fits best and what is missing or unknown.",
 "all kinds of input and all sets of entries of a dictionary",
 "The number of sets of entries is unbounded; whether a set is ambiguous depends on all pairs of types.",
 ["a5py/ascotpy/libproviders.py:_find_input_based_on_kwargs,_provide_nbi", "a5py/ascot5io/__init__.py:HDF5TOOBJ"])
p("C148", "After any history of a file everything in it refers to something that is there",
  "Inputs are created, activated, described, copied from other files and removed, one by one or a whole parent at a time, from Python or with a5manage, and simulations write their results.  After any such history no two groups have the same QID, every group has a type, a description and a date, every parent has an active group, which is one of its own, and the inputs of every result are there.  Each operation does what its documentation says to the group it names and nothing to the others: a new input is active if this was asked for or if it is the only one, the newest result is active, an input that a result has used is not removed, the last group takes its parent with it, a removed active group is replaced by a most recent one, and a call that names nothing changes nothing.",
  "all sequences of operations from an empty file, all names and descriptions, also of groups that do not exist, and all copies from files with such a history; QIDs that are generated are new",
  "The state of a file depends on everything that was done to it; tests try single operations on files with one or two groups.",
  ["a5py/ascot5io/coreio/fileapi.py:set_active,get_active,set_desc,get_group,add_group,remove_group,copy_group", "a5py/ascot5io/coreio/tools.py:removegroup,copygroup", "a5py/ascot5io/__init__.py:create_input", "src/hdf5_interface.c:hdf5_interface_init_results"])
p("C149", "Any file can be opened and shows its groups under their names, QIDs and tags",
  "Whatever has been done to a file, it can be opened.  Each parent lists its groups once, from the most recent to the oldest, and names its active group.  A group is found under its name and its QID.  The first word of its description, in capital letters and without special characters, refers to the group if no other group of the parent has this tag; otherwise the tag with the number i refers to the i-th of them, from the most recent on.  No name refers to a group of another parent, and every result finds its inputs.",
  "all files with a history as in C148, all descriptions, any number of groups with the same tag",
  "Tags depend on all descriptions and dates in a file and on the order in which they are read; that a file cannot be opened shows only after a particular history.",
  ["a5py/ascot5io/coreio/treeview.py:_ParsedNode,InputNode,ResultNode,RootNode._build", "a5py/ascot5io/__init__.py:HDF5TOOBJ,Ascot5IO", "a5py/ascot5io/coreio/fileapi.py:get_inputqids"])
p("C150","Combined outputs of several files are the output of the whole simulation","If a simulation has been split into several files, then combining them gives the initial and end states, orbits and transport coefficients of all markers, in the order of the files, and the sums of the distributions, for any number of files; the distributions do not depend on the order of the files, and the rows only by their order. If a simulation has been continued in a second file, then combining the two gives all markers of the first, each with its state when it has ended, and the sums of the distributions.","all runs with any number of markers, columns, recorded points, distributions and bins; any number and order of files; any set of continued markers","a test combines a few files in one order; the claim is on all numbers and orders of files and on all sets of markers",["bin/a5combine","a5py/ascot5io/coreio/tools.py:combineoutput","a5py/routines/runmixin.py:getstate_markers"])
p("C151", "Equilibria are recognised and converted without changing what they say",
  "There are sixteen conventions for the signs and the normalisation of an equilibrium.  From the signs of the data the convention of an equilibrium is found, given whether the toroidal angle increases clockwise and whether the flux was divided by 2π.  A conversion to any other convention gives the equilibrium that says the same about flux, field, current, pressure and safety factor in the other convention, so that conversions compose and can be undone; other numbers are refused.  The convention used by the code is the one of the magnetic field that the code computes.",
  "all pairs of the sixteen conventions, chains of conversions of any length, all equilibria with any data, all integers as number of a convention",
  "There are 256 pairs of conventions and sixteen combinations of signs each; wrong signs cancel for the equilibrium of a test.",
  ["a5py/physlib/cocos.py:cocos,assign,transform_cocos,fromCocosNtoCocosM", "src/Bfield/B_2DS.c:B_2DS_eval_B"])
p("C152", "The magnetic field of an equilibrium file is imported as it is",
  "The input made from an equilibrium file in any convention has the flux of the file at each position of the grid of the file, the same axis and the same flux at axis and boundary, and the toroidal field F(ψ)/R, where F is linear between its samples, constant outside of the boundary and equal to the value at the axis where ψ is beyond that at the axis.  The wall has the points of the file.",
  "all conventions, grids, fluxes and profiles, grids that begin at R = 0 or not, fluxes that increase or decrease from the axis",
  "Whether values and positions belong together depends on the grid, its left end, the direction of the flux and the convention; a test has one file.",
  ["a5py/templates/importdata.py:ImportData.import_geqdsk,ImportData.wall_geqdsk"])
p("C153", "Imported plasma profiles are those of the data, and the plasma is quasi-neutral",
  "The import of plasma profiles gives, at each position of the grid, the value of the data: linear between the positions that are given, in either radial coordinate, and that of the nearest position where there are none.  If profiles are extrapolated, they decay exponentially outside of the plasma, but not below the limit; positive data give positive profiles.  If the data are quasi-neutral then the input is quasi-neutral, and if fractions of the ions are given then the density of the last species makes it quasi-neutral.  An extrapolation that ends within the plasma is refused.",
  "all tables with any number of positions and species, grids, limits, lengths of decay, fractions and charges",
  "Whether the charges cancel at each position depends on where the data end, on the limits and on the number of species; a test has one set of profiles.",
  ["a5py/templates/importdata.py:ImportData.import_plasma_profiles"])
p("C154", "Markers generated from a distribution represent the particles of that distribution",
 "When MarkerGenerator.generate returns, it has made the requested number of markers; the weights of the markers of each occupied cell add up to the number of particles of that cell; no weight is below the minimum weight; no marker lies in a cell that the marker distribution leaves empty; each marker has coordinates inside of its cell; and the returned distributions are those of the generated markers. If all cells with particles are occupied, the total weight is the number of particles.",
 "all particle and marker distributions, all grids in (R, phi, z) or (rho, theta, phi) and in (ppar, pperp) or (energy, pitch), all numbers of markers and minimum weights, all sequences of random numbers, and all orders into which the markers are shuffled",
 "The result depends on random numbers and on a loop that repeats until no marker is rejected; a test sees a few seeds on one grid, usually in one coordinate system where indices happen to agree.",
 ["a5py/routines/markergen.py:MarkerGenerator.generate", "a5py/ascot5io/dist.py:DistData.histogram", "a5py/ascot5io/dist.py:DistData.phasespacevolume", "a5py/physlib/__init__.py:energy_momentum"])
p("C155", "Quantities of marker states are those of each marker",
 "getstate returns each requested quantity once for each marker, in the order of marker identifiers. The values of a marker depend on that marker only and are those of a particle with its momentum in the field: momentum and its components along and across the field, velocity (below that of light) and its components, kinetic energy, pitch, magnetic moment, canonical momentum, position and angles. For guiding centres there is a momentum with the parallel momentum and magnetic moment of the marker to which all quantities belong.",
 "all numbers of markers, all marker data with positive mass and nonzero momentum and field, all input fields, all lists of quantities, in particle and guiding-centre mode",
 "Formulas are applied to arrays whose number of dimensions and lengths decide what is done; a test uses a few markers of one kind, and does not try the lengths for which arrays are misread.",
 ["a5py/ascot5io/state.py:State.get", "a5py/ascot5io/state.py:State._getactual", "a5py/physlib/__init__.py:velocity_momentum", "a5py/physlib/__init__.py:gamma_momentum", "a5py/physlib/__init__.py:momentum_muppar", "a5py/routines/runmixin.py:getstate"])
p("C156", "Quantities along orbits belong to the recorded points in order",
 "getorbit returns every quantity at all recorded points of the requested markers, end conditions and Poincaré planes, ordered by the marker and then by mileage. Entries at the same place in two quantities are of the same point, and the mass and initial time that enter are those of the point's own marker. The connection length is the distance to where the marker is lost.",
 "all orbit data and initial states, all quantities (with any formula for gyro-orbits and guiding centres), all filters",
 "Values are brought to the markers by index arrays, so that a wrong alignment shows only for particular sets of recorded markers and modes; a test looks at one simulation in which every marker was recorded in one mode.",
 ["a5py/ascot5io/orbits.py:Orbits.get", "a5py/ascot5io/orbits.py:Orbits._getactual", "a5py/routines/runmixin.py:getorbit"])
p("C157", "The wave library is given one guiding centre and its kick reaches the marker",
 "With radio-frequency heating, the library is given, for each running guiding centre, the quantities of one particle with the marker's mass, parallel momentum and magnetic moment, and the marker's canonical toroidal momentum. The kick changes the parallel velocity by what the library says and other coordinates to what it leaves there. Lanes without a running marker are not touched. A step that overshot the resonance is reported by a negative suggestion, and is then undone.",
 "all markers with positive mass and nonnegative magnetic moment, all fluxes, steps and all behaviours of the library (a function of time, step, marker and its memory)",
 "The library is not available in tests, and whether the quantities are those of one particle depends on the marker; a canonical momentum that is off by a multiple of the flux shows only along an orbit.",
 ["src/rfof.c:rfof_resonance_check_and_kick_gc", "src/simulate/simulate_gc_fixed.c:simulate_gc_fixed"])
p("C158", "Integration, slices and interpolation of distributions keep the particles",
 "A distribution made from a histogram, and a copy, have that histogram. Integrating over abscissae gives, in each remaining bin, the sum of the particles in the bins summed over (times factors, if given), and the number of particles stays. A slice has the chosen bins with their edges, and each has the particles it had. Interpolation at a point gives the value of the distribution there.",
 "all distributions with any number of abscissae and increasing edges, all arguments of integrate, all slices, all points",
 "The result depends on the order and number of axes, on which are removed, and on the edges of the grid; tests use a few grids.",
 ["a5py/ascot5io/dist.py:DistData.integrate", "a5py/ascot5io/dist.py:DistData.slice", "a5py/ascot5io/dist.py:DistData.interpolate", "a5py/ascot5io/dist.py:DistData.histogram", "a5py/ascot5io/dist.py:DistData.phasespacevolume"])
p("C159", "Conversion of a distribution to energy and pitch keeps the particles",
 "Converting a distribution from parallel and perpendicular momentum to energy and pitch moves the particles of each momentum cell to the bin that has the energy and pitch at the middle of the cell, and keeps the number of particles. If a number of bins is given instead of edges, the new grid has so many bins and reaches from zero to the highest energy on the momentum grid. The list of available distributions has those that are there.",
 "all distributions with any other abscissae, all momentum grids, all grids of energy and pitch, all sets of distributions in a run",
 "Particles are lost only for certain combinations of momentum grids and contents, which a test with a slowed-down beam does not reach.",
 ["a5py/ascot5io/dist.py:Dist.ppappe2ekinpitch", "a5py/routines/distmixin.py:_getdist", "a5py/routines/runmixin.py:getdist"])
p("C160", "Moments of distributions are those of the particles",
 "The density times the volume of the bins sums to the number of particles, and the energy density to their kinetic energy. The pressure is a third of the trace of the pressure tensor and not negative. The parallel current is the sum of charge times parallel velocity. The volumes of bins sum to that of the grid. Averages over the angles keep the total.",
 "all distributions with any abscissae and contents, all masses, volumes and grids",
 "Sums over five and more dimensions with factors that depend on two of them; the factor by which pressures are off depends on how particles move, and tests compare with expressions in the same form.",
 ["a5py/ascot5io/dist.py:Dist.density", "a5py/ascot5io/dist.py:Dist.energydensity", "a5py/ascot5io/dist.py:Dist.pressure", "a5py/ascot5io/dist.py:Dist.parallelcurrent", "a5py/ascot5io/dist.py:DistMoment.ordinate", "a5py/routines/runmixin.py:getdist_moments"])
p("C161", "Volumes of the cells between flux surfaces are those of the bodies",
 "All cells between two flux surfaces have together the volume between the surfaces, however the poloidal angle is divided, and all cells together have the volume within the last surface, for the limits given in degrees. The result changes by at most the tolerance when the toroidal intervals are halved. Both methods refer to the same cells.",
 "all fields whose flux surfaces go around the axis, all divisions of radius and angles, all limits, all random points",
 "The volume is a difference of sums over thousands of prisms or of counts of random points; limits other than zero, first surfaces other than the axis and the order of poloidal cells need cases that a comparison of total volumes does not see.",
 ["a5py/ascotpy/__init__.py:input_rhovolume", "a5py/ascotpy/__init__.py:integrate_prism", "a5py/ascotpy/__init__.py:integrate_mc"])
p("C162", "A fusion calculation is set up for the populations and cells that the user asks for",
 "The reactants are the species of the reaction, taken from the plasma, and the calculation is refused if the plasma does not contain them. Reactions are halved exactly if both reactants are one population. The volumes of cells are those in space, a cell is counted in the bin of the products where it is, and all particles of a beam take part. Incomplete sets of coordinates are refused with a message.",
 "all lists of plasma species, all reactions, all grids, all beam distributions, all combinations of arguments",
 "The setup joins tables in C, loops over species and seven-dimensional arrays with sixteen-dimensional ones; unequal bins, second grids, more charge states and incomplete arguments are a large set of combinations.",
 ["a5py/routines/afsi5.py:Afsi.thermal", "a5py/routines/afsi5.py:Afsi.beamthermal", "a5py/routines/afsi5.py:Afsi.beambeam", "a5py/routines/afsi5.py:_init_dist_5d", "a5py/routines/afsi5.py:_init_histogram", "a5py/routines/afsi5.py:reactions"])
p("C163", "The field of coils is the sum over the coils and their revolved copies, and keeps the axisymmetric field it is added to",
 "The field on a grid is the sum of the fields of all coils with their currents. Turning the coils turns the field. With `revolve` it is the field of the coils and of their copies turned by every so many points of the toroidal grid. Added to an axisymmetric input, its toroidal average is that of the input, or the value on the axis asked for; added to a three-dimensional input, it can be taken away again.",
 "all coils, currents, grids, numbers of toroidal points and of points to revolve, all inputs to which the field is added",
 "A test compares one coil with one formula; equivariance under rotation, the wrap-around of the grid and the partial torus are statements about all coils and grids.",
 ["a5py/routines/biosaw5.py:BioSaw.calculate", "a5py/routines/biosaw5.py:BioSaw.addto2d", "a5py/routines/biosaw5.py:BioSaw.addto3d", "src/biosaw.c:biosaw_calc_B"])
p("C164", "Boozer coordinates made for a tokamak have straight field lines, and potentials made consistent have no parallel electric field",
 "The template for Boozer coordinates gives a poloidal angle that increases from 0 to 2 pi around every flux surface, in both directions of the field, and a toroidal angle that increases by the safety factor times the poloidal one along every field line. The rows of the tables are those of the psi grid that the simulation uses. Mode potentials made consistent give no electric field along the magnetic field. The safety factor changes sign with the field, and the fraction of trapped particles is that of the usual formula.",
 "all contours of flux surfaces and fields on them, all numbers of points, both signs of psi, all modes and times",
 "A test compares one equilibrium within a tolerance; that the sums close exactly, that field lines are straight and that the parallel field vanishes are identities for all surfaces and modes.",
 ["a5py/templates/poincare.py:boozer_tokamak", "a5py/templates/poincare.py:mhd_consistent_potentials", "a5py/ascotpy/__init__.py:input_eval_safetyfactor", "src/boozer.c:boozer_eval_psithetazeta", "src/mhd/mhd_stat.c:mhd_stat_perturbations"])
p("C165", "Analytical inputs are what their descriptions say",
 "The field ripple of rectangular coils is a field without sources and currents, has the depth given by the coil radius and number, repeats itself after the period that is written to the output, and has no toroidal average. The uniform plasma has the given density inside the separatrix and none outside, and is neutral; the uniform neutrals have the given density and temperature. Points are inside of the rectangular wall exactly if they are inside of the rectangle.",
 "all fields, numbers of coils, periods and grid points; all densities and temperatures; all positions",
 "A test looks at a few positions; the wall fails only on four lines and the plasma only between two grid points, and vanishing divergence is a statement about all positions.",
 ["a5py/templates/analyticalinputs.py:bfield_analytical_step_ripple", "a5py/templates/analyticalinputs.py:plasma_flat", "a5py/templates/analyticalinputs.py:neutral_flat", "a5py/templates/analyticalinputs.py:wall_rectangular", "src/wall/wall_2d.c:wall_2d_inside", "src/plasma/plasma_1D.c:plasma_1D_eval_dens"])
p("C166", "Charge-exchange data are averages of the fitted cross section over a Maxwellian",
 "The charge-exchange data for hydrogen are made from a Chebyshev fit of the cross section, which is positive exactly at the energies of the fit; a grid of energies that is accepted has no other energies. The integrand of the rate is cross section times relative speed times the density of the relative speed between the particle and a Maxwellian of the given temperature, up to the error that the comment promises. The simulation finds the rate of each energy and temperature at its place in the table.",
 "all energies, temperatures, masses, speeds and grid sizes",
 "A test integrates for one energy and temperature within a tolerance; that the integrand is that of a Maxwellian, that the two branches agree and that no energy falls out of the fit are statements about all values.",
 ["a5py/templates/analyticalinputs.py:asigma_chebyshev_cx_hh0", "src/asigma/asigma_loc.c:asigma_loc_init", "src/asigma/asigma_loc.c:asigma_loc_eval_sigmav"])
p("C167", "The first time step is the given fraction of the relativistic gyration period",
 "A marker begins with the time step that the user gave, in every mode. If the user gave a number of steps per gyration instead, that many steps make exactly one gyration of the exact relativistic motion in the field at the marker, and fewer do not; a guiding center has the step of its particle; a step of the full-orbit scheme turns the momentum by slightly less than its part of a turn. The first step of the adaptive scheme is positive and at most a gyration period, and the adaptive scheme begins with the fixed step.",
 "all masses, charges, momenta, fields, numbers of steps and options",
 "A test compares the step of one marker with a number; that the steps close the gyration of the equation of motion and that particle and guiding center agree are statements about all markers, and the markers without a step (neutral ones) are not tried.",
 ["src/simulate/simulate_fo_fixed.c:simulate_fo_fixed_inidt", "src/simulate/simulate_gc_fixed.c:simulate_gc_fixed_inidt", "src/simulate/simulate_gc_adaptive.c:simulate_gc_adaptive_inidt", "src/physlib.h:phys_gyrofreq_pnorm", "a5py/ascot5io/options.py:_FIXEDSTEP_USE_USERDEFINED"])
p("C168", "Loading an input and releasing it again releases every block of memory exactly once",
 "In one session inputs and diagnostics are initialised and released any number of times. Between initialisation and release of an input or diagnostic no block is released twice, no pointer is released that was never set, and afterwards exactly the blocks are allocated that were allocated before, so that the inputs can be changed without limit and the results of a run are still written after the inputs have been released.",
 "all numbers of species, modes, beamlets, reactions and triangles, all trees of the wall, all histories of recorded markers, all numbers of rounds of loading and releasing, all states of the memory before",
 "A test loads an input once, with one neutral species and a small wall; a leak does not show in it, and a double release shows only for some numbers of species and some allocators.",
 ["src/neutral/N0_1D.c:N0_1D_free", "src/neutral/N0_3D.c:N0_3D_free", "src/Bfield/B_STS.c:B_STS_free", "src/plasma/plasma_1D.c:plasma_1D_free", "src/plasma/plasma_1DS.c:plasma_1DS_free", "src/wall/wall_2d.c:wall_2d_free", "src/wall/wall_3d.c:wall_3d_init_octree", "src/octree.c:octree_free", "src/asigma/asigma_loc.c:asigma_loc_free", "src/mhd/mhd_stat.c:mhd_stat_free", "src/nbi.c:nbi_free", "src/diag/diag_orb.c:diag_orb_free", "src/diag/diag_transcoef.c:diag_transcoef_process_and_clean", "src/ascot5_main.c:main"])
p("C169", "A Poincare run keeps every crossing of its planes",
 "The template for Poincare plots reserves for each marker as many points as the numbers of orbits and planes that the user asks for. When a field line is followed until it reaches either limit, or both if the user asks for both, every crossing of every plane is found in the output, in the order in which it was made, and none is overwritten by a later one.",
 "all field lines that go on in one direction in steps of at most half a turn, all planes, all numbers of orbits, all other end conditions",
 "A test traces a few lines and looks at the plot; a missing first crossing does not show, and whether the memory suffices depends on the line, its direction, its safety factor and the limits.",
 ["a5py/templates/poincare.py:options_poincare", "src/diag/diag_orb.c:diag_orb_update_ml", "src/diag/diag_orb.c:diag_orb_check_plane_crossing", "src/endcond.c:endcond_check_ml", "src/simulate/simulate_ml_adaptive.c:simulate_ml_adaptive", "a5py/ascotpy/libsimulate.py"])
p("C170", "Interactive runs and runs of the program see the same options",
 "A user who gives a set of options to an interactive run gets the simulation that the program would run with the same options written to a file: the same mode, time steps, physics, end conditions with their limits, and the same diagnostics with the same settings. Options that the file accepts are accepted by the interactive run too.",
 "all sets of options, with any numbers, lists and arrays as values",
 "There are two readers in two languages for about a hundred options; a test compares them for one set of options at a time, and most options leave the result of a short run unchanged.",
 ["a5py/ascotpy/libsimulate.py:simulation_initoptions", "a5py/ascot5io/options.py:write_hdf5", "src/hdf5io/hdf5_options.c:hdf5_options_read", "a5py/ascotpy/ascot2py.py"])
p("C171", "Interactive runs and runs of the program begin with the same markers",
 "A user who gives markers to an interactive run gets the markers that the program would read from a file to which the same markers were written: the same position, momentum or energy and pitch, mass, charge, species, weight, time and id, in whatever units the columns were given.",
 "all numbers of markers, all values and units of the columns, for particles, guiding centers and field lines",
 "Two paths in two languages convert a dozen columns; a test compares one set of markers in one choice of units, and the tests of interactive runs use guiding centers only.",
 ["a5py/ascotpy/libsimulate.py:simulation_initmarkers", "a5py/ascot5io/marker.py:write_hdf5", "a5py/physlib/__init__.py:parseunits", "a5py/physlib/__init__.py:momentum_velocity", "src/hdf5io/hdf5_marker.c:hdf5_marker_read"])
p("C172", "A sequence of interactive runs keeps its results and releases its memory",
 "In an interactive session the user loads inputs, sets options, gives markers, makes runs and releases things in any order. Every call either does what is documented or raises an exception; the initial and final states of a run can be read until its results are released and are those of the markers it was run with; and after everything is released no memory is left allocated, however many runs were made.",
 "all sequences of calls of the interactive interface, all markers, all choices of diagnostics",
 "A test goes through one sequence of calls; double releases and reads of released memory usually go unnoticed, and the memory that is left behind shows only in long sessions.",
 ["a5py/ascotpy/libsimulate.py:simulation_initmarkers", "a5py/ascotpy/libsimulate.py:simulation_run", "a5py/ascotpy/libsimulate.py:simulation_bbnbi", "a5py/ascotpy/libsimulate.py:simulation_free", "a5py/routines/virtualrun.py:VirtualState", "src/diag.c:diag_init", "src/diag.c:diag_free", "src/bbnbi5.c:bbnbi_simulate"])
p("C173", "The results of an interactive run read like those of a run in a file",
 "The results of an interactive run can be used in place of those of a run in a file: every quantity of the marker states and of the orbits, the summary of end conditions and errors, and the axes of the distribution have the dimension and the values they would have if the same run had been written to a file and read from there.",
 "all marker states, all orbit data in all simulation modes with and without Poincare planes, all axes of distributions, all quantities",
 "The two ways have separate tables of names, units and fields; a test reads a few quantities in one simulation mode without errors.",
 ["a5py/routines/virtualrun.py:VirtualState", "a5py/routines/virtualrun.py:VirtualOrbits", "a5py/routines/virtualrun.py:VirtualDist", "a5py/ascot5io/coreio/fileapi.py:read_data", "a5py/ascot5io/orbits.py:Orbits", "a5py/routines/runmixin.py:getstate_markersummary", "src/hdf5io/hdf5_state.c:hdf5_state_write", "src/hdf5io/hdf5_orbit.c:hdf5_orbit_write"])
p("C174", "Settings on the command line take effect",
 "With a command line made of settings in the documented form, in any number and order, written with or without an equals sign, both programs use the last value given for each setting (input and output file, description, processes, rank, inputs, number of markers, times) and the default for settings that are not given. Command lines that are not of this form are refused.",
 "all command lines of both programs, all values",
 "A test tries a few command lines; repeated settings, abbreviations, stray words, long values and values that are no numbers are unlimited in number.",
 ["src/ascot5_main.c:read_arguments", "src/bbnbi5_main.c:bbnbi_read_arguments", "doc/simulations.rst"])
p("C175", "Poincare planes are listed and plotted with their own crossings",
 "For every run with orbits collected at Poincare planes, the planes listed by the Python interface are those of the options, each with its angle or radius and with the number by which the simulation marks its crossings; a plot of the i-th plane of a kind shows the crossings of that plane, in the documented coordinates, and a plane that is not there is refused.",
 "all options of planes, all steps of markers, all planes and coordinates asked for",
 "A test uses a run with one plane of each kind at the same angle, where several mistakes in the numbering cannot be seen; the combinations of planes are unlimited.",
 ["a5py/routines/runmixin.py:getorbit_poincareplanes", "a5py/routines/runmixin.py:plotorbit_poincare", "src/diag/diag_orb.c:diag_orb_update_gc", "src/hdf5io/hdf5_options.c:hdf5_options_read_diagorb", "a5py/ascot5io/options.py"])
p("C176", "A run with several processes leaves the diagnostics of all its markers",
 "With the program built with MPI, the output file of a run has the recorded orbit points of the markers of all processes with all their quantities, distributions that are the sums over all processes, and the transport coefficients of all markers, for any number of processes and any simulation mode.",
 "all numbers of processes, markers and points, all modes, all recorded values, all sizes of distributions",
 "A test runs one process, or looks at the states only; the divisions of markers into processes, the modes and the sizes are unlimited.",
 ["src/mpi_interface.c:mpi_gather_diag", "src/diag.c:diag_init", "src/diag/diag_orb.c:diag_orb_init", "src/hdf5io/hdf5_orbit.c:hdf5_orbit_write", "src/hdf5io/hdf5_transcoef.c:hdf5_transcoef_write", "src/ascot5_main.c:offload_and_simulate"])
p("C177", "Inputs evaluated in the Python interface are those of each point, and their derived quantities are right",
 "input_eval gives on a grid at [i,j,k,l] the value at (r_i, phi_j, z_k, t_l) and otherwise the value at each point, an array of one element standing for all points; it evaluates every quantity that input_eval_list lists and refuses sizes that do not fit; divb, curlb, j and gradb are the divergence and the curl of the field, the current density of Ampere's law and the gradient of the magnitude; rminor is the distance to the axis; bpol has the magnitude of the poloidal field; zeff is the sum of density times squared charge over the electron density; values are nan where the field cannot be evaluated.",
 "all arrays of coordinates, all lists of quantities, all fields with derivatives, all plasmas",
 "Tests evaluate a few points of a few fields; grids, fields, plasmas and combinations of quantities are unlimited, and a wrong formula agrees with the right one for axisymmetric or simple fields.",
 ["a5py/ascotpy/__init__.py:input_eval", "a5py/ascotpy/__init__.py:input_eval_list", "a5py/ascotpy/libascot.py:_eval_bfield", "a5py/ascotpy/libascot.py:_eval_plasma"])
p("C178", "Collision coefficients and reaction rates asked for in Python are those of the names, points and speeds",
 "input_eval_collcoefs returns arrays in the order of the names; with grid=True element [ib,k,iv] is the named coefficient for plasma species ib at point k and speed iv, with grid=False element [ib,k] is that for speed k; points where the plasma cannot be evaluated can be told from others; unknown names are refused. input_eval_atomiccoefs evaluates the reaction that was asked for.",
 "all lists of names, numbers of points, speeds and species, all plasmas, all atomic data, all thread schedules",
 "Tests compare a few points with one schedule and look at one coefficient; arguments passed in a wrong order or a reshape of a wrong size only show for particular names, sizes and speeds.",
 ["a5py/ascotpy/libascot.py:input_eval_collcoefs", "a5py/ascotpy/libascot.py:input_eval_atomiccoefs", "a5py/ascotpy/ascot2py.py:asigma_reac_type__enumvalues", "src/libascot.c:libascot_eval_collcoefs", "src/libascot.c:libascot_eval_ratecoeff"])
p("C179", "Orbit frequencies belong to their grid points and are turns over time",
 "input_eval_orbitresonance gives at [a,b] the toroidal and poloidal frequency of the marker that was started at node a of the first and node b of the second grid, for any two of radius, pitch and energy; the frequencies are numbers of turns over the time they took; all markers start with a pitch strictly between -1 and 1; what is plotted is the distance from the resonance with the perturbation of the given frequency.",
 "all grids of radius, pitch and energy of which one is a scalar, all recorded crossings, all perturbations",
 "A test has one grid and one field; sizes of grids, orbits and their crossings are unlimited, and swapped axes do not show on square grids.",
 ["a5py/ascotpy/__init__.py:input_eval_orbitresonance", "a5py/templates/poincare.py:marker_resonance"])
p("C180", "Potentials of MHD modes can be made consistent with a vanishing parallel electric field",
 "mhd_consistent_potentials replaces the electric potential (or the magnetic one) and nothing else, such that alpha * omega = Phi * sign * (n*q - m) / (I + g*q) holds between numbers at every radius and for every mode; any other name of a potential is refused; adjusting one potential to the other and then the other to the first changes nothing more.",
 "all stationary MHD inputs, all profiles of q, I and g, all numbers of modes and radii, all signs",
 "A test has a few modes and one equilibrium; whether a radius hits a resonance depends on the profile, and a wrong sign does not show without a kinetic reference.",
 ["a5py/templates/poincare.py:mhd_consistent_potentials", "a5py/ascot5io/mhd.py:MHD_STAT"])
p("C181", "Species are found by name and by numbers, and the two ways agree",
 "species gives for every documented name the mass number, the atomic number, a mass that suits them, and the charge that is given or that of the bare nucleus; any other name is refused with a message that lists all names that are taken; autodetect gives the only species with the given numbers, and a name by which species gives the same data.",
 "all strings, all pairs of numbers, all charges",
 "Names are arbitrary strings and numbers arbitrary integers; a test tries a few of them, and shadowed branches or duplicates show only when all are compared.",
 ["a5py/physlib/species.py:species", "a5py/physlib/species.py:autodetect", "a5py/physlib/species.py:speciesdict"])
p("C182", "The check for missing planes looks at the data around the seam at the position asked for",
 "input_check_bfield_seam looks at the values of the planes around the first one, each with the angle of its plane up to whole periods, in the order of the angles; the first plane is always among them; the points used for the fit are the middle ones, as many as asked for; the data are taken at the grid point that is closest to the given radius and height, and positions outside the grid are refused.",
 "all numbers of planes, all values, all percentages, all grids and positions",
 "Rolled and cut arrays depend on whether numbers are odd or even; a test has one grid and one position.",
 ["a5py/ascotpy/__init__.py:input_check_bfield_seam"])
p("C183", "The summary of losses gives fractions of what was there",
 "getstate_losssummary counts the markers that have hit the wall; the fractions of markers, particles and energy that are lost are between zero and one, are zero for markers and particles just if none is lost and one just if all are lost, and multiplied by the totals give the amounts that are reported.",
 "all results of simulations: any number of markers with any positive weights and energies, lost or not",
 "A test has a few markers with equal weights; sums over lost markers and over all markers differ only for unequal ones.",
 ["a5py/routines/runmixin.py:getstate_losssummary"])
p("C184", "The orbit average is an average over a single poloidal transit",
 "getorbit_average returns the points of one poloidal transit of the marker: for a passing marker those until the poloidal angle has changed by a full turn, for a trapped marker those from one turning point to the next turning point of the same kind; the average is between the least and the greatest value on the transit and exists if the marker moves; this holds for every orbit.",
 "all orbits with any number of points, passing and trapped, complete or not, and all quantities",
 "Where an orbit starts, turns and ends is arbitrary; a test follows one orbit from one position.",
 ["a5py/routines/runmixin.py:getorbit_average"])

if __name__ == "__main__":
    here = os.path.dirname(os.path.abspath(__file__))
    with open(os.path.join(here, "..", "properties.jsonl"), "w") as f:
        for x in P:
            f.write(json.dumps(x) + "\n")
