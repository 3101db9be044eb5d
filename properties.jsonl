{"id": "C01", "title": "Error codes decode to the values they were raised with", "statement": "Whenever the library raises an error with some error type, source line and source file, decoding the returned error code gives back the same type, line and file, so the location printed to the user is the place that failed.", "quantifier": "all error types, all source line numbers that occur at a raise site, all source-file identifiers", "why_tests_cant": "The code is a positional encoding with a fixed width per field; a test tries a few lines, but the claim is about every raise site and every field value, including files that grow past the field width.", "anchors": ["src/error.c: error_raise, error_parse", "src/particle.c: error_raise call sites beyond line 1023"]}
{"id": "C02", "title": "Every error that can be raised has a readable description", "statement": "For every error type and every source-file identifier that the library declares, the text shown to the user for a raised error contains a description of that type and the name of that file.", "quantifier": "all declared error types and all declared source-file identifiers", "why_tests_cant": "Tests exercise only errors they manage to trigger; the claim covers the whole declared set including types nobody triggers.", "anchors": ["src/error.c: error_parse2str", "src/error.h: error_type, error_file"]}
{"id": "C03", "title": "Integer list behaves as a sequence and is freed exactly once", "statement": "After any sequence of insertions into an integer list, its reported size is the number of insertions, the element at position k is the k-th inserted value, and freeing the list releases every node it allocated exactly once and leaves the handle null.", "quantifier": "all finite sequences of add operations and all positions", "why_tests_cant": "Sequences are unbounded; leaks and double frees depend on the heap history.", "anchors": ["src/list.c: list_int_create, list_int_add, list_int_get, list_int_size, list_int_free"]}
{"id": "C04", "title": "No marker is ever simulated twice", "statement": "With any number of threads taking markers from the shared queue in any interleaving, every marker is handed to at most one vector lane of one thread, and a result is written back for a marker only by the lane that received it.", "quantifier": "all queue lengths, all numbers of threads and lanes, all interleavings of the atomic steps", "why_tests_cant": "It is a statement about schedules; a test run samples one schedule.", "anchors": ["src/particle.c: particle_cycle_fo, particle_cycle_gc, particle_cycle_ml", "src/simulate.c: simulate"]}
{"id": "C05", "title": "A full-orbit simulation finishes every marker exactly once", "statement": "When every thread of a full-orbit simulation has left its main loop, every marker of the queue has been finished exactly once: its result is stored in its own slot, the finished counter equals the number of markers, and markers that already had an end condition were left untouched.", "quantifier": "all queue contents including markers that already ended, all numbers of threads and lanes, all interleavings, all orders in which lanes finish", "why_tests_cant": "Needs an invariant over all schedules and all termination orders.", "anchors": ["src/particle.c: particle_cycle_fo", "src/simulate/simulate_fo_fixed.c: simulate_fo_fixed"]}
{"id": "C06", "title": "A guiding-center or field-line simulation finishes every marker exactly once", "statement": "When every thread of a guiding-center or field-line simulation has left its main loop, every marker of the queue has been finished exactly once, whatever state the markers were in when the simulation started.", "quantifier": "all queue contents including markers that already ended, all numbers of threads and lanes, all interleavings", "why_tests_cant": "Needs an invariant over all schedules; the failing case needs a particular mix of initial markers.", "anchors": ["src/particle.c: particle_cycle_gc, particle_cycle_ml", "src/simulate/simulate_gc_adaptive.c", "src/simulate/simulate_ml_adaptive.c"]}
{"id": "C07", "title": "Full-orbit end conditions are exactly the ones the user enabled and met", "statement": "After an end-condition check of a running full-orbit marker without errors, an end condition is newly reported if and only if it is enabled in the options and its physical criterion holds for the marker, and the marker stops if and only if at least one end condition is reported. Markers that are not running are not changed.", "quantifier": "all option settings, all marker states before and after the step, all wall-hit outcomes, all plasma temperatures", "why_tests_cant": "The decision is a product of a dozen independent switches and real-valued comparisons, including combination rules between two of them.", "anchors": ["src/endcond.c: endcond_check_fo"]}
{"id": "C08", "title": "Guiding-center end conditions are exactly the ones the user enabled and met", "statement": "Same as the full-orbit property for guiding-center markers, including the hand-over condition of the hybrid mode.", "quantifier": "all option settings, all marker states before and after the step, all wall-hit outcomes, all plasma temperatures", "why_tests_cant": "Same combinatorial decision as for full orbits.", "anchors": ["src/endcond.c: endcond_check_gc"]}
{"id": "C09", "title": "Field-line end conditions are exactly the ones the user enabled and met", "statement": "Same as the full-orbit property for field-line markers, which have no energy conditions.", "quantifier": "all option settings, all marker states before and after the step, all wall-hit outcomes", "why_tests_cant": "Same combinatorial decision as for full orbits.", "anchors": ["src/endcond.c: endcond_check_ml"]}
{"id": "C10", "title": "A finished marker shows either an error or an end condition", "statement": "A marker that stops running because of an error reports that error in its final state and no end condition; a marker that stops because of an end condition reports no error.", "quantifier": "all markers of all simulation modes, all sequences of steps", "why_tests_cant": "The claim is about what survives every path from the failing step to the stored state.", "anchors": ["src/endcond.c: endcond_check_fo, endcond_check_gc, endcond_check_ml", "src/particle.c: particle_fo_to_state, particle_gc_to_state, particle_ml_to_state"]}
{"id": "C11", "title": "Completed bounces are counted correctly", "statement": "After any history of steps, the bounce counter of a marker is determined by the number of sign changes of its parallel momentum since the counter was reset, and the number of completed bounces that the maximum-orbit condition compares with the limit never decreases.", "quantifier": "all histories of parallel-momentum signs", "why_tests_cant": "The counter encodes phase in its sign; correctness is an invariant over unbounded histories.", "anchors": ["src/endcond.c: endcond_check_fo, endcond_check_gc"]}
{"id": "C12", "title": "The reported list of end conditions matches the stored flags", "statement": "For any stored end-condition value, the list of end-condition codes given to the user contains the code of a condition if and only if its flag is set, in increasing order without repetition, and fits in the output array; distinct sets of flags give distinct lists.", "quantifier": "all end-condition values", "why_tests_cant": "The output must be right for every subset of flags.", "anchors": ["src/endcond.c: endcond_parse, endcond_parse2str", "src/endcond.h"]}
{"id": "C13", "title": "A rejected step leaves no trace", "statement": "In an adaptive simulation, after a time step that was rejected, the marker's phase-space position, time, mileage, field values, bounce counter and end conditions are exactly those before the step, and it is retried with the shorter step suggested by the integrator.", "quantifier": "all marker states, all outcomes of the integrator and collision operator", "why_tests_cant": "Every field must be restored for every outcome; tests compare a few fields on a few orbits.", "anchors": ["src/simulate/simulate_gc_adaptive.c: simulate_gc_adaptive", "src/simulate/simulate_ml_adaptive.c: simulate_ml_adaptive", "src/particle.c: particle_copy_gc, particle_copy_ml"]}
{"id": "C14", "title": "Accepted adaptive steps respect the user's step limits", "statement": "With the maximum toroidal and radial step limits set, no accepted adaptive step changes the toroidal angle or the radial coordinate by more than the limit.", "quantifier": "all steps, all limits, all time-step histories", "why_tests_cant": "Holds or fails on measure-zero ties and on combinations of the two limits.", "anchors": ["src/simulate/simulate_gc_adaptive.c", "src/simulate/simulate_ml_adaptive.c"]}
{"id": "C15", "title": "Simulated time moves in the chosen direction and mileage never decreases", "statement": "In a fixed-step simulation the marker time after n accepted steps is the initial time plus (or, in reversed time, minus) the sum of the step lengths, and mileage grows by the sum of the step lengths.", "quantifier": "all numbers of steps, all step lengths, forward and reversed time", "why_tests_cant": "Unbounded histories.", "anchors": ["src/simulate/simulate_fo_fixed.c", "src/simulate/simulate_gc_fixed.c", "src/simulate/simulate_gc_adaptive.c"]}
{"id": "C16", "title": "Adaptive step length keeps its sign in reversed time", "statement": "In an adaptive guiding-center simulation with reversed time, every step taken has negative length.", "quantifier": "all step histories and all combinations of enabled physics", "why_tests_cant": "A sign error shows up only for some combination of switches and only after the first step.", "anchors": ["src/simulate/simulate_gc_adaptive.c"]}
{"id": "C17", "title": "Wiener process bookkeeping stays well formed", "statement": "After any sequence of generate and clean calls that succeed, the stored Wiener process is a time-ordered chain starting from the first slot that contains every live entry exactly once, so later calls terminate and never read an unused slot.", "quantifier": "all sequences of generate and clean calls, all times, all random numbers", "why_tests_cant": "Linked structure inside arrays with slot reuse: needs an invariant over unbounded histories.", "anchors": ["src/simulate/mccc/mccc_wiener.c: mccc_wiener_initialize, mccc_wiener_generate, mccc_wiener_clean"]}
{"id": "C18", "title": "The Wiener process has one value per time", "statement": "Once the process has been sampled at some time, asking again for the same time returns the stored value without changing anything, sampling other times does not alter values already sampled, and cleaning up to a time keeps every value at or after that time.", "quantifier": "all sequences of calls, all times, all random numbers", "why_tests_cant": "Correctness of adaptive collisions after a rejected step depends on it for every history.", "anchors": ["src/simulate/mccc/mccc_wiener.c"]}
{"id": "C19", "title": "Exhausting the Wiener storage is reported and harmless", "statement": "When all slots are in use and a new time is requested, the call reports an error and the stored process is unchanged; while a free slot exists a request for a later time never fails.", "quantifier": "all reachable states of the process and all requests", "why_tests_cant": "Depends on the exact count of live slots after any history.", "anchors": ["src/simulate/mccc/mccc_wiener.c: mccc_wiener_generate"]}
{"id": "C20", "title": "Every marker belongs to exactly one process", "statement": "When markers are divided among processes, the blocks of the processes are consecutive, disjoint and cover all markers exactly.", "quantifier": "all numbers of markers and all numbers of processes", "why_tests_cant": "Integer division for arbitrary sizes, including fewer markers than processes.", "anchors": ["src/mpi_interface.c: mpi_my_particles"]}
{"id": "C21", "title": "Gathering marker states preserves every field and the order", "statement": "After gathering the marker states from all processes the gathered array contains every marker state with all its transferred fields unchanged and in the original order.", "quantifier": "all numbers of markers, all numbers of processes, all field values", "why_tests_cant": "Packing and unpacking index arithmetic over arbitrary sizes.", "anchors": ["src/mpi_interface.c: mpi_gather_particlestate"]}
{"id": "C22", "title": "Distribution bins are distinct and inside the array", "statement": "Distinct in-range cells of a distribution histogram are stored in distinct array elements inside the allocated array, and every array element belongs to a cell.", "quantifier": "all grid sizes and all in-range index tuples", "why_tests_cant": "Index arithmetic over arbitrary dimensions.", "anchors": ["src/diag/dist_5D.c: dist_5D_index, dist_5D_init", "src/diag/dist_6D.c", "src/diag/dist_rho5D.c", "src/diag/dist_rho6D.c", "src/diag/dist_com.c"]}
{"id": "C23", "title": "Guiding-center distributions conserve weight", "statement": "A guiding-center distribution update increases the total content of the histogram by the sum of weight times time step over the running markers that lie inside the grid, each in the bin that contains it, and changes nothing else.", "quantifier": "all marker populations, all positions inside and outside the grid, any number of updates", "why_tests_cant": "Conservation over arbitrary histories of updates.", "anchors": ["src/diag/dist_5D.c: dist_5D_update_gc", "src/diag/dist_com.c: dist_COM_update_gc"]}
{"id": "C24", "title": "Markers outside the grid do not contribute to full-orbit distributions", "statement": "A full-orbit distribution update changes the histogram only for running markers that lie inside the grid.", "quantifier": "all marker populations and positions", "why_tests_cant": "The failing case depends on stale memory from earlier markers, which tests do not control.", "anchors": ["src/diag/dist_5D.c: dist_5D_update_fo", "src/diag/dist_com.c: dist_COM_update_fo"]}
{"id": "C25", "title": "General histograms bin only markers inside their axes", "statement": "Updating a general histogram adds a marker's weight to a bin only if all its coordinates lie within the axes of the histogram, and then to the bin that contains it.", "quantifier": "all axes, all marker coordinates", "why_tests_cant": "An out-of-range coordinate can alias to a valid bin for particular sizes only.", "anchors": ["src/hist.c: histogram_update_fo, histogram_init"]}
{"id": "C26", "title": "Summing diagnostics adds every bin of every enabled distribution", "statement": "Combining the diagnostics of two runs adds, for each enabled distribution, every bin of the second to the corresponding bin of the first and touches no other memory.", "quantifier": "all combinations of enabled distributions and all grid sizes", "why_tests_cant": "Failures depend on which combination is enabled and on grid dimensions.", "anchors": ["src/diag.c: diag_sum, diag_arraysum"]}
{"id": "C27", "title": "The orbit recorder keeps the latest points", "statement": "In interval mode the recorder of a marker holds, after any number of recorded points, exactly the latest points up to its capacity, each intact, and the recording of one marker never alters the points of another.", "quantifier": "all capacities, all numbers of markers and all recording histories", "why_tests_cant": "Ring-buffer behaviour over unbounded histories.", "anchors": ["src/diag/diag_orb.c: diag_orb_update_fo, diag_orb_update_gc, diag_orb_update_ml"]}
{"id": "C28", "title": "Poincare points lie on the requested surface", "statement": "Whenever a step crosses a requested toroidal, poloidal or radial surface, a point is recorded and the recorded coordinate interpolated along the step lies on that surface; when the step does not cross it nothing is recorded.", "quantifier": "all pairs of step end points, all surfaces, all modes", "why_tests_cant": "Exact boundary cases and winding of angles.", "anchors": ["src/diag/diag_orb.c: diag_orb_check_plane_crossing, diag_orb_check_radial_crossing, diag_orb_update_fo, diag_orb_update_gc"]}
{"id": "C29", "title": "Transport coefficients reproduce exact drift", "statement": "For a marker whose recorded radial positions move with a constant drift velocity, the reported advection coefficient is that velocity, and all recorded points are used.", "quantifier": "all record lengths, averaging lengths and drift velocities", "why_tests_cant": "Averaging arithmetic with arbitrary lengths that need not divide evenly.", "anchors": ["src/diag/diag_transcoef.c: diag_transcoef_process_and_clean"]}
{"id": "C30", "title": "The wall octree finds every triangle near a point", "statement": "For every point strictly inside the domain of the wall octree and not on a cell boundary, the list of triangles returned contains every triangle that was added and passes the overlap test with the cells on the path to the point, and the lookup of a cell centre always succeeds.", "quantifier": "all depths, all domains, all triangle sets, all points", "why_tests_cant": "Recursive structure with arbitrary depth.", "anchors": ["src/octree.c: octree_create, octree_add, octree_get", "src/wall/wall_3d.c: wall_3d_init_octree"]}
{"id": "C31", "title": "The first wall hit along a step is reported", "statement": "If a step crosses one or more triangles of a three-dimensional wall, the tile reported is one whose intersection parameter is smallest among the triangles that were tested, and if no tested triangle is hit, zero is reported.", "quantifier": "all wall geometries and all steps", "why_tests_cant": "A minimum over arbitrary sets with tie and boundary behaviour.", "anchors": ["src/wall/wall_3d.c: wall_3d_hit_wall, wall_3d_hit_wall_full"]}
{"id": "C32", "title": "A reported triangle collision is a real intersection", "statement": "Whenever the triangle collision test reports a non-negative parameter for a segment that is not parallel to the triangle, the point at that parameter lies on the segment and in the triangle; conversely every proper intersection of the segment with the triangle is reported.", "quantifier": "all segments and all triangles", "why_tests_cant": "Geometric statement over all reals.", "anchors": ["src/wall/wall_3d.c: wall_3d_tri_collision"]}
{"id": "C33", "title": "The two-dimensional wall reports the nearest crossing", "statement": "For a step in the poloidal plane the two-dimensional wall intersection search returns a segment crossed by the step with the smallest parameter, and reports none only if no non-parallel segment is crossed.", "quantifier": "all wall polygons and all steps", "why_tests_cant": "Minimum over arbitrary polygons.", "anchors": ["src/wall/wall_2d.c: wall_2d_find_intersection"]}
{"id": "C34", "title": "Point-in-polygon test is a crossing parity and is insensitive to where the polygon starts", "statement": "The inside test gives the parity of the crossings of a horizontal ray with the polygon edges, so that it does not depend on the vertex from which the polygon is listed, and for rectangles it is true exactly for the interior points away from vertex heights.", "quantifier": "all polygons and all points", "why_tests_cant": "Vertex-height degeneracies are measure zero.", "anchors": ["src/math.c: math_point_in_polygon", "src/wall/wall_2d.c: wall_2d_inside"]}
{"id": "C35", "title": "Linear interpolation is exact at grid nodes, bounded by its cell corners and reads only stored data", "statement": "Linear interpolation in one, two or three dimensions reproduces the tabulated values at the nodes, never leaves the range of the corner values of the cell, is periodic on periodic axes, and reads only elements of the table for every accepted coordinate.", "quantifier": "all tables, all grids and all coordinates", "why_tests_cant": "All real coordinates including the upper grid boundary.", "anchors": ["src/linint/linint1D.c: linint1D_eval_f", "src/linint/linint2D.c: linint2D_eval_f", "src/linint/linint3D.c: linint3D_eval_f"]}
{"id": "C36", "title": "Natural cubic splines interpolate the data and are smooth", "statement": "For any tabulated data, the spline with natural boundary conditions reproduces every tabulated value, has continuous first and second derivatives at interior nodes and zero second derivative at the ends.", "quantifier": "all numbers of points and all data values", "why_tests_cant": "It is a theorem about a linear solver for every size and right-hand side.", "anchors": ["src/spline/splinecomp.c: splinecomp", "src/spline/interp1Dcomp.c", "src/spline/splineexpl.c: splineexpl"]}
{"id": "C37", "title": "Periodic cubic splines interpolate the data and are smooth across the period", "statement": "For any tabulated periodic data, the periodic spline reproduces every tabulated value and has continuous first and second derivatives everywhere including across the period boundary.", "quantifier": "all numbers of points and all data values", "why_tests_cant": "Cyclic solver correctness for every size and right-hand side.", "anchors": ["src/spline/splinecomp.c: splinecomp", "src/spline/splineexpl.c: splineexpl"]}
{"id": "C38", "title": "Compact and explicit splines are the same function", "statement": "For the same data and boundary condition the compact and the explicit spline evaluate to the same value at every point.", "quantifier": "all data, all sizes, all evaluation points", "why_tests_cant": "Needs uniqueness of the spline for every size.", "anchors": ["src/spline/splinecomp.c", "src/spline/splineexpl.c", "src/spline/interp1Dcomp.c", "src/spline/interp1Dexpl.c"]}
{"id": "C39", "title": "Spline evaluation reads only stored coefficients", "statement": "For every coordinate that a spline evaluation accepts, every coefficient it reads is inside the coefficient table, and coordinates outside a non-periodic axis are rejected with an error.", "quantifier": "all grids, all coordinates, all boundary conditions", "why_tests_cant": "Boundary coordinates and wrap-around indices.", "anchors": ["src/spline/interp1Dcomp.c: interp1Dcomp_eval_f", "src/spline/interp2Dcomp.c: interp2Dcomp_eval_f", "src/spline/interp3Dcomp.c: interp3Dcomp_eval_f"]}
{"id": "C40", "title": "The random number generator has full period", "statement": "From any seed, the linear congruential generator visits all 2^64 states before repeating, so no seed gives a short cycle.", "quantifier": "all seeds", "why_tests_cant": "The period is 2^64; it cannot be run.", "anchors": ["src/random.c: random_lcg_integer, random_lcg_init"]}
{"id": "C41", "title": "Filling an array with normal random numbers writes exactly that array", "statement": "Requesting n normally distributed numbers writes each of the n elements of the output and nothing beyond it, for odd and even n.", "quantifier": "all n", "why_tests_cant": "Array bounds for every length.", "anchors": ["src/random.c: random_lcg_normal_simd"]}
{"id": "C42", "title": "Magnetic field does no work on a full-orbit marker", "statement": "With zero electric field and no radiation reaction, one full-orbit step leaves the magnitude of the momentum (hence the kinetic energy) exactly unchanged for every magnetic field, time step, charge and mass.", "quantifier": "all momenta, fields, time steps, charges, masses and any number of steps", "why_tests_cant": "Exact conservation for all inputs and unbounded numbers of steps.", "anchors": ["src/simulate/step/step_fo_vpa.c: step_fo_vpa"]}
{"id": "C43", "title": "Full-orbit momentum update is reversible and ballistic for neutrals", "statement": "The momentum update of a full-orbit step can be undone by a step with the opposite time step in the same fields, and a marker with zero charge moves on a straight line with constant momentum.", "quantifier": "all momenta, fields, time steps", "why_tests_cant": "Algebraic identity over all reals.", "anchors": ["src/simulate/step/step_fo_vpa.c: step_fo_vpa"]}
{"id": "C44", "title": "Coordinate conversions are inverse to each other", "statement": "Converting positions and vectors between Cartesian and cylindrical coordinates and back returns the original, and vector conversion preserves length.", "quantifier": "all positions away from the axis, all vectors, all angles", "why_tests_cant": "Identity over all reals.", "anchors": ["src/math.h: math_xyz2rpz, math_rpz2xyz, math_vec_rpz2xyz, math_vec_xyz2rpz"]}
{"id": "C45", "title": "Field gradient conversions are inverse to each other", "statement": "Converting a vector field with its gradient from cylindrical to Cartesian components and back returns the original field and gradient.", "quantifier": "all field values, gradients and positions with positive radius", "why_tests_cant": "Twelve components depending on each other and on the position.", "anchors": ["src/math.c: math_jac_rpz2xyz, math_jac_xyz2rpz"]}
{"id": "C46", "title": "Kinematic conversions are mutually consistent", "statement": "Converting between momentum, velocity, Lorentz factor, kinetic energy, pitch and magnetic moment and back returns the original quantities, and Lorentz factors are at least one.", "quantifier": "all physically valid values", "why_tests_cant": "Identities over all reals.", "anchors": ["src/physlib.h"]}
{"id": "C47", "title": "Zeroth-order guiding-center transform round trip", "statement": "Converting a momentum vector to parallel momentum, magnetic moment and gyroangle at zeroth order and back returns the same momentum vector.", "quantifier": "all momenta, charges and magnetic fields that are not degenerate", "why_tests_cant": "Trigonometric identity for all directions.", "anchors": ["src/gctransform.c: gctransform_particle2guidingcenter, gctransform_pparmuzeta2prpphipz"]}
{"id": "C48", "title": "Guiding-center equations conserve energy and magnetic moment", "statement": "Without electric field and radiation reaction, the time derivative of the kinetic energy and of the magnetic moment along the guiding-center equations of motion is exactly zero for every magnetic field and gradient.", "quantifier": "all positions, momenta, magnetic moments, fields and gradients", "why_tests_cant": "Identity over all reals.", "anchors": ["src/simulate/step/step_gceom.h: step_gceom", "src/physlib.h: physlib_gamma_ppar"]}
{"id": "C49", "title": "Runge-Kutta steps integrate polynomials exactly", "statement": "The fixed-step and adaptive integrators reproduce exactly the solution of equations whose right-hand side is a polynomial in time up to their order, the adaptive error estimate vanishes there, and rejected or accepted step suggestions follow the error.", "quantifier": "all polynomial coefficients, start times and step lengths", "why_tests_cant": "Identity over all reals.", "anchors": ["src/simulate/step/step_gc_rk4.c: step_gc_rk4", "src/simulate/step/step_gc_cashkarp.c: step_gc_cashkarp", "src/simulate/step/step_ml_cashkarp.c"]}
{"id": "C50", "title": "Atomic reactions change the charge state by at most one and keep it physical", "statement": "An atomic reaction step changes the charge state by at most one, keeps it between zero and the atomic number, uses probabilities between zero and one, and stops with an error for unsupported charge states without changing the charge.", "quantifier": "all charge states, rates, time steps and random numbers", "why_tests_cant": "Histories of random events.", "anchors": ["src/simulate/atomic.c: atomic_fo, atomic_rates, atomic_react"]}
{"id": "C51", "title": "Collisions keep velocity above the cutoff and pitch within bounds", "statement": "After a guiding-center collision step the speed is at least the thermal cutoff and the pitch is between minus one and one.", "quantifier": "all markers, plasma parameters and random numbers", "why_tests_cant": "Random kicks are unbounded.", "anchors": ["src/simulate/mccc/mccc_gc_euler.c: mccc_gc_euler", "src/simulate/mccc/mccc_gc_milstein.c: mccc_gc_milstein"]}
{"id": "C52", "title": "One-dimensional plasma profiles are interpolated between the right grid points", "statement": "For every radius inside the profile grid the evaluated density and temperature are the linear interpolation between the two neighbouring grid points, and outside the grid an error is returned.", "quantifier": "all monotone grids, profiles and radii", "why_tests_cant": "All real radii including grid points.", "anchors": ["src/plasma/plasma_1D.c: plasma_1D_eval_temp, plasma_1D_eval_dens, plasma_1D_eval_densandtemp, plasma_1D_eval_flow"]}
{"id": "C53", "title": "Hybrid mode treats each marker independently of the others", "statement": "In the hybrid mode a marker is continued as a full orbit if and only if it reached the hand-over condition, and its final end condition does not depend on which other markers were simulated with it.", "quantifier": "all marker populations", "why_tests_cant": "Depends on the whole population.", "anchors": ["src/simulate.c: simulate", "src/endcond.c: endcond_check_gc"]}
{"id": "C54", "title": "Atomic data of each reaction is its own", "statement": "After initialising the atomic data, evaluating a reaction uses the tabulated data given for that reaction.", "quantifier": "all numbers of reactions and all table sizes", "why_tests_cant": "Offsets into packed data for arbitrary table sizes.", "anchors": ["src/asigma/asigma_loc.c: asigma_loc_init"]}
{"id": "C55", "title": "Sorted search brackets the key", "statement": "For a sorted table and a key inside it, the search returns the interval that contains the key, and null outside the table.", "quantifier": "all sorted tables and all keys", "why_tests_cant": "All sizes and keys.", "anchors": ["src/math.c: math_rsearch, rcomp"]}
{"id": "C56", "title": "Unique counting", "statement": "Counting unique integers returns every distinct value of the input exactly once with its number of occurrences, and the counts add up to the input length.", "quantifier": "all inputs", "why_tests_cant": "All inputs of all lengths.", "anchors": ["src/math.c: math_uniquecount"]}
{"id": "C57", "title": "Evenly spaced vectors", "statement": "A generated evenly spaced vector starts at the first end point, ends at the second, and has equal increments.", "quantifier": "all end points and lengths of at least two", "why_tests_cant": "All lengths.", "anchors": ["src/math.c: math_linspace"]}
{"id": "C58", "title": "Integer powers", "statement": "The integer power function returns the mathematical power for every base and non-negative exponent, modulo machine overflow.", "quantifier": "all bases and exponents", "why_tests_cant": "All inputs.", "anchors": ["src/math.c: math_ipow"]}
{"id": "C59", "title": "Sampling from a beam distribution returns momenta of the sampled bin", "statement": "When reactant momenta are sampled from a distribution, the sampled momentum is the centre of the momentum bin that the random number selected.", "quantifier": "all numbers of bins on the two momentum axes, all contents, all random numbers", "why_tests_cant": "The index decomposition is right for square grids only, which is what tests tend to use.", "anchors": ["src/afsi.c: afsi_sample_beam_2d"]}
{"id": "C60", "title": "Injected markers are shared among injectors without loss and carry the injected power", "statement": "The markers generated for the injectors add up to the requested number, occupy disjoint consecutive slots with unique consecutive identifiers, and the sum over an injector's markers of weight times mean energy equals its power.", "quantifier": "all injector powers and marker numbers", "why_tests_cant": "Rounding for arbitrary power ratios.", "anchors": ["src/bbnbi5.c: bbnbi_simulate, bbnbi_inject_markers"]}
{"id": "C61", "title": "Fusion products conserve momentum and energy", "statement": "The velocities of the two fusion products conserve the centre-of-mass velocity and carry the reaction energy plus the kinetic energy in the centre-of-mass frame.", "quantifier": "all reactant velocities, masses, reaction energies and emission angles", "why_tests_cant": "Identity over all reals.", "anchors": ["src/afsi.c: afsi_compute_product_momenta_2d"]}
{"id": "C62", "title": "Beam stopping evaluation reads only its tables", "statement": "For every plasma composition, the beam-stopping evaluation reads only elements of its coefficient tables and writes only inside its local arrays, and reports an error for unsupported compositions.", "quantifier": "all numbers of species, charges and masses", "why_tests_cant": "All compositions.", "anchors": ["src/suzuki.c: suzuki_sigmav"]}
{"id": "C63", "title": "Field evaluation errors give defined fallback values", "statement": "Every magnetic-field evaluation either succeeds with the value of the selected field model or returns an error together with fixed fallback values, and the normalised radius is real and non-negative on success.", "quantifier": "all field types, positions and flux values", "why_tests_cant": "All inputs.", "anchors": ["src/B_field.c"]}
{"id": "C64", "title": "Field-line markers keep the direction the user asked for", "statement": "A field-line marker given with a negative pitch is traced against the magnetic field and one with non-negative pitch along it.", "quantifier": "all pitch values", "why_tests_cant": "All inputs through input conversion, state and lane representations.", "anchors": ["src/particle.c: particle_input_to_state, particle_input_ml_to_state, particle_state_to_ml, particle_ml_to_state"]}
{"id": "C65", "title": "Matrix product", "statement": "The matrix product routine computes the product of its arguments under one fixed storage convention for arguments and result.", "quantifier": "all dimensions and entries", "why_tests_cant": "All dimensions.", "anchors": ["src/math.c: math_matmul"]}
{"id": "C66", "title": "Adaptive quadrature is exact for cubics", "statement": "The adaptive quadrature returns the exact integral of every polynomial of degree at most three for every interval and tolerance.", "quantifier": "all coefficients, intervals and tolerances", "why_tests_cant": "All reals; recursion depth depends on data.", "anchors": ["src/math.c: math_simpson, math_simpson_helper"]}
{"id": "C67", "title": "New Wiener samples follow the Brownian bridge", "statement": "A new sample after all stored times equals the latest stored value plus a normal increment whose variance is the time difference; a new sample between stored times is drawn from the Brownian bridge between the two nearest stored samples, whatever the order in which times were requested and cleaned.", "quantifier": "all histories of requests and cleanings, all times from the first stored one on", "why_tests_cant": "Nearest samples must be found for every history.", "anchors": ["src/simulate/mccc/mccc_wiener.c: mccc_wiener_generate"]}
{"id": "C68", "title": "Gathered orbits are in the place of their marker", "statement": "After the orbit diagnostics of all processes have been gathered on the root, point i of the marker with global index m is at position m*Npnt+i of every orbit array, whichever process simulated the marker.", "quantifier": "all numbers of markers, processes and stored points, all orbit data", "why_tests_cant": "tests run with few processes and divisible marker numbers", "anchors": ["src/mpi_interface.c: mpi_gather_diag", "src/mpi_interface.c: mpi_my_particles"]}
{"id": "C69", "title": "No wall crossing of a step is missed by the accelerated search", "statement": "For every three-dimensional wall set up by the initialisation, if the straight line of a step crosses a triangle of the wall, the accelerated wall search reports a hit, at a point of the step not after that crossing.", "quantifier": "all sets of triangles, all tree depths, all steps, all crossing points", "why_tests_cant": "The search only tests triangles listed in the cells between the two end points; that none is lost depends on the tree, the flattened table, the overlap test and the cell arithmetic together.", "anchors": ["src/wall/wall_3d.c: wall_3d_hit_wall, wall_3d_init, wall_3d_init_octree, wall_3d_tri_in_cube", "src/octree.c: octree_add, octree_get"]}
{"id": "C70", "title": "A step from one side of the two-dimensional wall to the other is reported", "statement": "If one end point of a step in the poloidal plane is inside the two-dimensional wall and the other outside according to the inside test, the intersection search reports a wall segment that the step crosses.", "quantifier": "all wall polygons, also self-intersecting ones, and all steps", "why_tests_cant": "Two independent algorithms have to agree for every polygon.", "anchors": ["src/wall/wall_2d.c: wall_2d_inside, wall_2d_find_intersection"]}
{"id": "C71", "title": "Two- and three-dimensional splines are splines of splines and their derivatives are derivatives", "statement": "A two- or three-dimensional spline reproduces every tabulated value; along each axis it is the one-dimensional spline through the values it takes at the grid points of that axis; and each derivative that the evaluation returns is that derivative of it, in the documented order of the outputs.", "quantifier": "all table sizes, all data, all combinations of natural and periodic axes, all coordinates", "why_tests_cant": "Dozens of long hand-written expressions and a chain of one-dimensional solves; a test compares a few points with a tolerance.", "anchors": ["src/spline/interp2Dcomp.c: interp2Dcomp_init_coeff, interp2Dcomp_eval_f, interp2Dcomp_eval_df", "src/spline/interp3Dcomp.c: interp3Dcomp_init_coeff, interp3Dcomp_eval_f, interp3Dcomp_eval_df"]}
{"id": "C72", "title": "Sampling a normal random number always ends", "statement": "From every generator state the rejection loop ends after finitely many rounds, and the number passed to the logarithm and used as a divisor is then strictly between zero and one.", "quantifier": "all generator states", "why_tests_cant": "A loop without bound on the number of rounds; 2^64 starting states.", "anchors": ["src/random.c: random_lcg_normal_simd, random_lcg_uniform"]}
{"id": "C73", "title": "Points of a plane are recognised", "statement": "The test whether a point lies in the plane of three given points succeeds for the points of the plane and only for them.", "quantifier": "all points and triangles", "why_tests_cant": "All reals.", "anchors": ["src/math.c: math_point_on_plane"]}
{"id": "C74", "title": "Barycentric coordinates reproduce the point", "statement": "The two barycentric coordinates computed for a point reproduce it from the triangle's edges, up to a displacement along the given normal.", "quantifier": "all triangles with a non-degenerate normal, all points", "why_tests_cant": "Identity over all reals.", "anchors": ["src/math.c: math_barycentric_coords_triangle", "src/math.h: math_scalar_triple_product"]}
{"id": "C75", "title": "The run summary counts every marker once", "statement": "The summary printed at the end of a run lists each end condition and each error that occurred once, with the number of markers that have it, states that no marker was aborted exactly when this is so, and never leaves its buffers.", "quantifier": "all marker populations and all end condition values", "why_tests_cant": "All combinations of end conditions; array bounds for populations where every marker is different.", "anchors": ["src/ascot5_main.c: print_marker_summary", "src/math.c: math_uniquecount", "src/endcond.c: endcond_parse, endcond_parse2str"]}
{"id": "C76", "title": "Radiation reaction acts on gyrating markers in proportion to time", "statement": "When radiation reaction is enabled, each full-orbit step changes the momentum of a charged marker by the reaction force times the time step, in every full-orbit mode; motion along the magnetic field, neutral markers and runs with the force disabled are not affected.", "quantifier": "all momenta, fields, time steps, charges, masses", "why_tests_cant": "Relation between all momenta, fields and time steps.", "anchors": ["src/simulate/step/step_fo_vpa.c: step_fo_vpa, step_fo_vpa_mhd", "src/physlib.h: phys_ald_force_chartime"]}
{"id": "C77", "title": "A full-orbit step obeys the Lorentz force", "statement": "In one full-orbit step the momentum changes by the time step times charge times (E + v x B), with the fields at the position and time in the middle of the step and the velocity of the mean momentum, and the position changes by the time step times the mean of the velocities before and after.", "quantifier": "all momenta, positions, fields, time steps, charges and masses", "why_tests_cant": "An identity over all reals; a wrong sign or a swapped component can keep the energy exactly.", "anchors": ["src/simulate/step/step_fo_vpa.c: step_fo_vpa"]}
{"id": "C78", "title": "First-order guiding-center corrections use the local field geometry", "statement": "The first-order transformation between particle and guiding center uses the curvature of the field line and the gradient of the field direction at the given point, and changes nothing in a uniform field.", "quantifier": "all fields, gradients, positions, momenta and charges", "why_tests_cant": "Tests use a few hand-picked fields; errors that vanish for curl-free fields or at one toroidal angle are not seen.", "anchors": ["src/gctransform.c: gctransform_particle2guidingcenter, gctransform_guidingcenter2particle", "src/math.c: math_jac_rpz2xyz"]}
{"id": "C79", "title": "Guiding-center equations conserve canonical toroidal momentum in axisymmetric fields", "statement": "In a field and potential that do not depend on the toroidal angle, the canonical toroidal momentum of a guiding center, as computed by the code from parallel momentum, field and poloidal flux, is constant along every solution of the guiding-center equations of motion.", "quantifier": "all axisymmetric fields with a poloidal flux, all marker states, charges, masses, electric fields without toroidal component", "why_tests_cant": "An identity between derivatives for all fields and all marker states; a test follows a few orbits and compares to a tolerance.", "anchors": ["src/simulate/step/step_gceom.h: step_gceom", "src/physlib.h: phys_ptoroid_gc"]}
{"id": "C80", "title": "Guiding centers follow the effective field, and a silent mode changes nothing", "statement": "The guiding-center equations use the effective field B + (ppar/q) curl b; enabling MHD modes whose perturbation is zero at the position of the marker gives the same motion as running without modes.", "quantifier": "all fields and gradients, marker states, charges, masses", "why_tests_cant": "Holds for all field gradients; a swapped component is invisible in the symmetric fields that tests use.", "anchors": ["src/simulate/step/step_gceom.h: step_gceom", "src/simulate/step/step_gceom_mhd.h: step_gceom_mhd"]}
{"id": "C81", "title": "A guiding-center step either succeeds consistently or stops the marker with an error", "statement": "After a guiding-center time step a running marker is either at the position that the integrator computed, with positive major radius, non-negative magnetic moment, gyroangle in [0, 2 pi) and field data that belong to the new position, or it is stopped with a non-zero error; a rejected trial step never ends the simulation of a marker; markers that are not running are unchanged.", "quantifier": "all markers, fields, failing field evaluations, step lengths, tolerances", "why_tests_cant": "Depends on every combination of evaluation failures and results of the integrator.", "anchors": ["src/simulate/step/step_gc_rk4.c: step_gc_rk4, step_gc_rk4_mhd", "src/simulate/step/step_gc_cashkarp.c: step_gc_cashkarp, step_gc_cashkarp_mhd"]}
{"id": "C82", "title": "The poloidal angle points from the magnetic axis to the marker", "statement": "The poloidal angle of a marker is the direction from the magnetic axis at the toroidal angle of the marker to the marker, at the beginning and after every step of every integrator, and it is continuous: it changes by at most half a turn per step.", "quantifier": "all markers, axis shapes, steps", "why_tests_cant": "An invariant of the whole history of the marker that is accumulated from increments.", "anchors": ["src/simulate/step/step_fo_vpa.c: step_fo_vpa", "src/simulate/step/step_gc_rk4.c: step_gc_rk4", "src/simulate/step/step_gc_cashkarp.c: step_gc_cashkarp", "src/simulate/step/step_ml_cashkarp.c: step_ml_cashkarp", "src/particle.c: particle_input_p_to_state, particle_input_gc_to_state, particle_input_ml_to_state"]}
{"id": "C83", "title": "Field lines are traced with unit speed and failures are reported", "statement": "A field-line marker moves with unit speed along (or against) the magnetic field, tracing against a static field with some step is tracing along it with the opposite step, and a failed evaluation during a step is reported as an error of the marker.", "quantifier": "all fields, positions, steps, failing evaluations", "why_tests_cant": "Holds for all fields and every failing evaluation.", "anchors": ["src/simulate/step/step_ml_cashkarp.c: step_ml_cashkarp, step_ml_cashkarp_mhd"]}
{"id": "C84", "title": "The analytic tokamak field is consistent", "statement": "The analytic field is the curl of its flux function plus the toroidal field (B_R = -(1/R) dpsi/dz, B_z = (1/R) dpsi/dR, B_phi = B0 R0/R), satisfies the Grad-Shafranov equation with its two-parameter source, has no divergence, and every returned gradient (of the flux, the normalised radius and the field, with and without ripple) is the gradient of the returned quantity; the ripple is centred at the midplane.", "quantifier": "all coefficients, positions, ripple parameters", "why_tests_cant": "Identities of functions and their derivatives at all points and for all thirteen coefficients; a test compares a few points of a symmetric case.", "anchors": ["src/Bfield/B_GS.c: B_GS_eval_psi, B_GS_eval_psi_dpsi, B_GS_eval_rho_drho, B_GS_eval_B, B_GS_eval_B_dB"]}
{"id": "C85", "title": "The Cartesian test field is the linear field the user gave", "statement": "The trivial Cartesian field evaluates at every position to the field at the origin plus the constant gradient times the position, in cylindrical components, and its gradient evaluation returns the same field and its derivatives along the cylindrical coordinates.", "quantifier": "all fields, gradients and positions", "why_tests_cant": "All positions and gradients; the error vanishes for the uniform fields that tests use.", "anchors": ["src/Bfield/B_TC.c: B_TC_eval_B, B_TC_eval_B_dB"]}
{"id": "C86", "title": "Spline fields: field, gradient, flux and radius belong together", "statement": "For the axisymmetric, 3D and stellarator spline fields the gradient evaluation returns the field and its derivatives, the flux contributes no divergence and no field across flux surfaces, a zero field is an error, and the normalised radius with gradient agrees with the radius computed from the flux and with the chain rule.", "quantifier": "all splines and positions at which the splines are smooth", "why_tests_cant": "Identities for all splines.", "anchors": ["src/Bfield/B_2DS.c", "src/Bfield/B_3DS.c", "src/Bfield/B_STS.c", "src/B_field.c"]}
{"id": "C87", "title": "Atomic rate coefficients are non-negative, complete and explicit about missing data", "statement": "A rate evaluation never returns a negative value; missing data, or data outside its table when extrapolation is off, give an error and the value zero; otherwise the charge-exchange rate is the sum over the neutral species of coefficient times density, and the beam-stopping coefficient is the mean over the ion species weighted with charge density.", "quantifier": "all sets of reaction data, all species, energies, temperatures and densities", "why_tests_cant": "All combinations of reaction data and species.", "anchors": ["src/asigma.c", "src/asigma/asigma_loc.c: asigma_loc_eval_sigma, asigma_loc_eval_sigmav, asigma_loc_eval_cx, asigma_loc_eval_bms"]}
{"id": "C88", "title": "Beam stopping depends on the composition only", "statement": "The beam-stopping coefficient does not depend on the order in which the plasma species are listed, nor on whether a species is listed once or with its density shared between two entries.", "quantifier": "all plasma compositions", "why_tests_cant": "All permutations and splittings.", "anchors": ["src/suzuki.c: suzuki_sigmav"]}
{"id": "C89", "title": "Reactions follow the exponential decay law with the rate of the present species", "statement": "In a time step a neutral is ionised, and a singly charged ion is neutralised, with the probability of an exponential decay with the reaction rate, and the charge-exchange rate is that with the neutral species given in the neutral data.", "quantifier": "all rates, time steps, random numbers and backgrounds", "why_tests_cant": "Statement about probabilities for all rates and steps.", "anchors": ["src/simulate/atomic.c: atomic_fo, atomic_rates, atomic_react"]}
{"id": "C90", "title": "Collisions with a plasma in equilibrium keep a Maxwellian", "statement": "If all plasma species have the same temperature, a Maxwellian distribution of markers at that temperature with isotropic pitch carries no probability flux under the collisional drift and diffusion coefficients, of the guiding-center and of the full-orbit operator, and both operators give the speed the same drift.", "quantifier": "all plasma compositions, marker species and velocities, for fixed Coulomb logarithms", "why_tests_cant": "A statement about all velocities and compositions; a Monte Carlo test sees only statistical noise around it.", "anchors": ["src/simulate/mccc/mccc_coefs.h: mccc_coefs_Q, mccc_coefs_Dpara, mccc_coefs_dDpara, mccc_coefs_Dperp, mccc_coefs_K, mccc_coefs_nu, mccc_coefs_F"]}
{"id": "C91", "title": "Collisional diffusion is never negative", "statement": "For every plasma with non-negative densities and positive temperatures, the diffusion coefficients are not negative, so that every collision step is defined.", "quantifier": "all plasmas, markers and options", "why_tests_cant": "All parameter combinations.", "anchors": ["src/simulate/mccc/mccc_coefs.h: mccc_coefs_clog, mccc_coefs_Dpara, mccc_coefs_Dperp, mccc_coefs_DX", "src/simulate/mccc/mccc_gc_euler.c", "src/simulate/mccc/mccc_gc_milstein.c"]}
{"id": "C92", "title": "Collisional displacement of a guiding center is across the field", "statement": "The displacement that collisions give a guiding center is perpendicular to the magnetic field at its old position and has the size given by the diffusion coefficient and the random numbers.", "quantifier": "all markers, plasmas, fields and random numbers", "why_tests_cant": "All directions of the field and all random numbers.", "anchors": ["src/simulate/mccc/mccc_gc_euler.c: mccc_gc_euler", "src/simulate/mccc/mccc_gc_milstein.c: mccc_gc_milstein"]}
{"id": "C93", "title": "Each collisional effect can be switched off", "statement": "With energy collisions switched off the kinetic energy does not change in a collision step, with pitch collisions switched off the pitch does not change, and with spatial diffusion switched off the position does not change.", "quantifier": "all markers, plasmas, random numbers and combinations of the switches, for guiding centers and full orbits", "why_tests_cant": "All combinations of switches with all plasmas, including flowing ones.", "anchors": ["src/simulate/mccc/mccc.h: mccc_data", "src/simulate/mccc/mccc_gc_euler.c", "src/simulate/mccc/mccc_gc_milstein.c", "src/simulate/mccc/mccc_fo_euler.c"]}
{"id": "C94", "title": "A collision step is a step of the stochastic equations of motion", "statement": "A collision step advances the velocity relative to the plasma by one Euler-Maruyama or Milstein step with the drift and diffusion for which the Maxwellian is stationary, mirrored at the bounds for speed and pitch of guiding centers, and for full orbits changes nothing but the momentum, which stays below the speed of light.", "quantifier": "all markers, plasmas, time steps and random numbers", "why_tests_cant": "All random numbers and plasmas; the covariance of the kicks is a statement about a matrix identity.", "anchors": ["src/simulate/mccc/mccc_gc_euler.c: mccc_gc_euler", "src/simulate/mccc/mccc_gc_milstein.c: mccc_gc_milstein", "src/simulate/mccc/mccc_fo_euler.c: mccc_fo_euler"]}
{"id": "C95", "title": "The adaptive collision step is controlled by the tolerance", "statement": "The suggestion for the next collision step is negative exactly if one of the error estimates exceeds the tolerance; a rejected step is retried with less than 0.9 of its length, and an accepted step is followed by one of 0.8 to 1.5 times its length.", "quantifier": "all error estimates and step lengths", "why_tests_cant": "All combinations of estimates.", "anchors": ["src/simulate/mccc/mccc_gc_milstein.c: mccc_gc_milstein"]}
{"id": "C96", "title": "Time-dependent plasma profiles are interpolated in radius and time", "statement": "With time-dependent profiles the evaluated density, temperature and flow of each species are those given for that species, interpolated linearly in radius and in time, and equal to the first or the last profile before or after the given times.", "quantifier": "every table of profiles, every number of species, radial and time points, every radius and time", "why_tests_cant": "The index arithmetic of the packed tables and the choice of interval must be right for every shape of table and every coordinate; a test with one species or a constant profile cannot see a wrong layout.", "anchors": ["src/plasma/plasma_1Dt.c: plasma_1Dt_init, plasma_1Dt_eval_densandtemp, plasma_1Dt_eval_temp, plasma_1Dt_eval_dens, plasma_1Dt_eval_flow"]}
{"id": "C97", "title": "Spline plasma profiles are positive and pass through the table", "statement": "With spline profiles the evaluated densities and temperatures are positive everywhere on the grid and equal to the tabulated values at the grid points, and every evaluation outside of the grid returns an error.", "quantifier": "every table of positive profiles, every species and radius", "why_tests_cant": "Splines overshoot for some tables only; positivity must hold for every table and every radius.", "anchors": ["src/plasma/plasma_1DS.c: plasma_1DS_init, plasma_1DS_eval_temp, plasma_1DS_eval_dens, plasma_1DS_eval_densandtemp, plasma_1DS_eval_flow"]}
{"id": "C98", "title": "All ways of evaluating the plasma agree", "statement": "For every kind of plasma data, evaluating density and temperature of all species together gives the same values as evaluating each species on its own; both succeed or both report an error, and in case of an error defined fallback values are stored.", "quantifier": "every kind of plasma data, every table, species, radius and time", "why_tests_cant": "Collision, atomic and beam code use different entry points; that they agree must hold for every input, not for sampled ones.", "anchors": ["src/plasma.c: plasma_eval_temp, plasma_eval_dens, plasma_eval_densandtemp, plasma_eval_flow, plasma_get_n_species"]}
{"id": "C99", "title": "Injected neutrals start on a beamlet with the energy and divergence of the beam", "statement": "Each injected marker starts on the line through one of the injector's beamlets, at the first point along its direction where the magnetic field is defined; its direction differs from that of the beamlet by the sampled divergence angles, its kinetic energy is the full, a half or a third of the injection energy as selected by the energy fractions, it is neutral, and its time lies in the injection interval.", "quantifier": "all injectors, beamlet directions, random numbers and magnetic fields", "why_tests_cant": "All directions including vertical ones, and all random numbers.", "anchors": ["src/nbi.c: nbi_inject", "src/bbnbi5.c: bbnbi_inject_markers"]}
{"id": "C100", "title": "Beam neutrals fly straight and are ionised at the rate of the plasma", "statement": "While it is neutral a beam marker moves on a straight line with constant velocity; the probability that it is still neutral after some steps is the exponential of minus the time integral (step sum) of electron density times beam-stopping coefficient along its way; once ionised it has charge +e and the ionisation end condition.", "quantifier": "all plasmas, injection points, directions and numbers of steps", "why_tests_cant": "A probability law over all paths; tests see one random sequence.", "anchors": ["src/bbnbi5.c: bbnbi_trace_markers"]}
{"id": "C101", "title": "The tracing of beam neutrals ends for a stated reason", "statement": "Tracing of a neutral always ends, and does so at ionisation, at the wall, at the time limit or with an error, with the matching end conditions set; a neutral that flies into the wall ends on it, with the number of the wall element and the time at which it got there.", "quantifier": "all plasmas, walls, injection points and directions", "why_tests_cant": "All geometries and all orders in which ionisation, wall and limit may occur.", "anchors": ["src/bbnbi5.c: bbnbi_trace_markers"]}
{"id": "C102", "title": "Fusion products are collected in the bin of their momentum, with the reaction rate as weight", "statement": "Each bin of a product distribution holds the sum of the weights of those samples that were taken in its cell and whose momentum lies in the bin; products above the range of the distribution are left out, no other bin changes, and threads working on different cells never touch the same bin. The weights of the samples of a cell add up to volume times both densities times the average of relative speed and cross section at the centre-of-mass energy.", "quantifier": "all distributions, cells, samples and random numbers", "why_tests_cant": "All numbers of bins and all samples; absence of overlap between threads is a statement about all pairs of cells.", "anchors": ["src/afsi.c: afsi_run", "src/diag/hist.c: hist_init"]}
{"id": "C103", "title": "Thermal reactants follow the Maxwell distribution of the plasma", "statement": "If the random numbers are independent and uniform, kinetic energy and pitch of a sampled thermal reactant are independent, the energy is distributed as in a Maxwell distribution with the local temperature (mean 3/2 T) and the direction is isotropic; the density is that of the plasma, and zero if the plasma cannot be evaluated.", "quantifier": "all temperatures, masses and plasma data; a statement about the law, i.e. all random numbers", "why_tests_cant": "A probability law cannot be established by drawing samples.", "anchors": ["src/afsi.c: afsi_sample_thermal_2d"]}
{"id": "C104", "title": "Fusion cross sections are never negative and the reaction tables conserve charge", "statement": "For each of the reactions the cross section is defined and not negative for every energy, and positive exactly above the threshold of the fit; the fits for low and high energy agree where they meet; charge is conserved and the released energy is that of the mass defect within 1 MeV; the reactivity is positive for positive temperatures.", "quantifier": "all reactions, all energies and temperatures", "why_tests_cant": "Sign of rational functions over a continuum of energies.", "anchors": ["src/boschhale.c: boschhale_reaction, boschhale_sigma, boschhale_sigmav"]}
{"id": "C105", "title": "Neutral density and temperature are interpolated from the table of the asked species", "statement": "The density and temperature of each neutral species at a point are the (tri)linear interpolation of the table given for this species; outside the grid an error is returned with density 0 and temperature 1 for every species; the number of species is the one given; all memory is released exactly once.", "quantifier": "all tables, numbers of species, grids and points", "why_tests_cant": "All grids, tables and numbers of species; unit tests use one species.", "anchors": ["src/neutral.c: neutral_eval_n0, neutral_eval_t0, neutral_get_n_species", "src/neutral/N0_1D.c: N0_1D_init, N0_1D_free, N0_1D_eval_n0, N0_1D_eval_t0", "src/neutral/N0_3D.c: N0_3D_init, N0_3D_free, N0_3D_eval_n0, N0_3D_eval_t0"]}
{"id": "C106", "title": "The radial electric field is minus the gradient of the potential", "statement": "With a radial potential profile the electric field is minus the derivative of the potential with respect to rho (scaled with the effective minor radius) times the gradient of rho, so that it is perpendicular to the flux surfaces, and zero outside of the profile; a uniform field has the same Cartesian vector everywhere.", "quantifier": "all profiles, magnetic fields and points", "why_tests_cant": "A statement about derivatives at all points for all field data.", "anchors": ["src/E_field.c: E_field_eval_E", "src/Efield/E_1DS.c: E_1DS_init, E_1DS_eval_E", "src/Efield/E_TC.c: E_TC_eval_E"]}
{"id": "C107", "title": "Boozer coordinates come with their own gradients", "statement": "For a point within the boundary contour and the psi range, psi, theta and zeta are the tabulated functions of the flux, the geometrical angle around the axis and the toroidal angle, and the derivatives returned are their partial derivatives with respect to R, phi and z; elsewhere the point is reported as outside without an error.", "quantifier": "all tables, magnetic fields and points", "why_tests_cant": "A statement about derivatives at all points for all field data.", "anchors": ["src/boozer.c: boozer_init, boozer_eval_psithetazeta"]}
{"id": "C108", "title": "MHD perturbations derive from the potentials of the modes", "statement": "The functions alpha and Phi are the sums over the selected modes of amplitude, profile and cos(n zeta - m theta - omega t + phase), returned with their gradients and time derivatives; the magnetic perturbation is the curl of alpha B, the electric one minus the gradient of Phi minus the time derivative of alpha B; outside the data there is no perturbation.", "quantifier": "all numbers of modes, profiles, fields, points and times", "why_tests_cant": "A statement about derivatives, for any number of modes and at all points and times.", "anchors": ["src/mhd.c: mhd_eval, mhd_perturbations", "src/mhd/mhd_stat.c: mhd_stat_eval, mhd_stat_perturbations", "src/mhd/mhd_nonstat.c: mhd_nonstat_eval, mhd_nonstat_perturbations"]}
{"id": "C109", "title": "Accepted input markers are physical and start as the user asked", "statement": "An input particle, guiding center or field line is accepted only if its major radius, mass, weight and number are positive (for a guiding center also: energy positive, pitch between -1 and 1); otherwise it gets an error and keeps its number.  An accepted marker starts unsimulated, with the given position, momentum, energy, pitch, gyroangle, species, weight and time, with the field and rho at its guiding center, and a poloidal angle that points from the axis to the given position.", "quantifier": "all input markers, magnetic fields, orders of the guiding-center transformation and previous contents of the state", "why_tests_cant": "Markers are real vectors; the tests of a suite can only try a few of them, and only in a few fields.", "anchors": ["src/particle.c: particle_input_to_state, particle_input_p_to_state, particle_input_gc_to_state, particle_input_ml_to_state", "src/physlib.h: physlib_gc_ppar, physlib_gc_mu"]}
{"id": "C110", "title": "Markers survive conversions between marker types", "statement": "Converting the stored state of a marker for simulation as full orbit, guiding center or field line, and back, keeps everything that both sides hold; an accepted marker that is converted and stored again is unchanged.  Errors are kept; a state with an error is not simulated.  The guiding center stored with a full orbit is that of the particle, with the field there; converting a full orbit directly gives the same guiding center as going through the state.", "quantifier": "all markers, magnetic fields and previous contents of the structures", "why_tests_cant": "A round-trip law over all markers and fields, with many fields of the structures and several error paths.", "anchors": ["src/particle.c: particle_state_to_fo, particle_fo_to_state, particle_state_to_gc, particle_gc_to_state, particle_state_to_ml, particle_ml_to_state, particle_fo_to_gc"]}
{"id": "C111", "title": "Positions found from rho and theta lie on the asked flux surface and ray", "statement": "Every position returned for given rho, theta and phi lies on the ray at angle theta from the magnetic axis, within 5 m, and the rho there differs from the asked one by less than the tolerance; if the field is known along the ray up to the surface and rho increases along it, a position is returned provided that enough halvings of the interval are allowed.", "quantifier": "all magnetic fields, values of rho, theta and phi, tolerances and numbers of iterations", "why_tests_cant": "Quantifies over all fields and tolerances; a test shows single bisections.", "anchors": ["src/libascot.c: libascot_B_field_rhotheta2rz"]}
{"id": "C112", "title": "The search for the magnetic axis goes downhill and ends near it", "statement": "The gradient descent for the extremum of psi, when it reports success, ends at a position one step from a point with a step size below the tolerance, where the gradient is small; with a step below two over the curvature bound each step lowers psi, the search ends, and for strongly convex psi the result is near the axis; ascent is the mirror image.  In three dimensions the toroidal angle stays within the given limits.  The returned psi bounds the flux in the plasma, so that rho is defined at the axis.", "quantifier": "all flux functions, starting points, steps, tolerances and iteration limits", "why_tests_cant": "Convergence for every smooth flux function, step and starting point.", "anchors": ["src/libascot.c: libascot_B_field_gradient_descent, libascot_B_field_gradient_descent_3d"]}
{"id": "C113", "title": "Batch evaluation gives each point its own value, whatever the threads do", "statement": "When the library evaluates fields, flux, potential, electric field, mode functions, plasma or collision coefficients at many points in parallel, the entry of each output array for a point holds the value at that point if all evaluations succeed there and keeps its old content otherwise, and no other memory changes, for every schedule.  Summed over species, the collision coefficients are those with which the collision operators move a marker of the same mass, charge and speed.", "quantifier": "all numbers of points, velocities and species, all field evaluation functions, all thread schedules and interleavings of stores", "why_tests_cant": "All interleavings and index ranges; a test sees one schedule.", "anchors": ["src/libascot.c: libascot_B_field_eval_B_dB, libascot_B_field_eval_rho, libascot_B_field_rhotheta2rz, libascot_E_field_eval_E, libascot_plasma_eval_background, libascot_mhd_eval, libascot_eval_collcoefs"]}
{"id": "C114", "title": "Reaction rates given by the library are those of the simulation", "statement": "The rate coefficient that the library stores for charge exchange or beam stopping at a point and speed is the rate with which the simulation changes the charge of a marker of the same species, mass and speed there; nothing is stored when the evaluation fails; any number of neutral species is handled, also when neutral densities are asked for.", "quantifier": "all atomic data, plasma and neutral compositions, densities, temperatures, masses and speeds", "why_tests_cant": "Two independent call chains have to agree for all compositions.", "anchors": ["src/libascot.c: libascot_eval_ratecoeff, libascot_neutral_eval_density", "src/simulate/atomic.c: atomic_rates", "src/asigma/asigma_loc.c: asigma_loc_eval_cx, asigma_loc_eval_bms"]}
{"id": "C115", "title": "Safety factor and Jacobian of the Boozer coordinates", "statement": "If the field is the cross product of the gradient of psi with that of zeta minus q times that with the gradient of theta, then the evaluated safety factor is q and field lines have that pitch; the Jacobian is, up to sign, the volume spanned by the coordinate lines; times the squared field it is I + q G in Boozer coordinates, and so a flux function.", "quantifier": "all gradients and fields at a point, all q, I and G", "why_tests_cant": "An identity between vectors for all coordinate systems.", "anchors": ["src/libascot.c: libascot_boozer_eval_fun"]}
{"id": "C116", "title": "The field of a coil is that of Biot and Savart", "statement": "The magnetic field computed for a coil given as a polygon is the line integral of mu0/4pi dl x r / |r|^3 along the polygon, at every point that is not on the wire; it is free of divergence.", "quantifier": "all coils with any number of points and all query points", "why_tests_cant": "Equality with an integral for all geometries.", "anchors": ["src/biosaw.c: biosaw_calc_B"]}
{"id": "C117", "title": "Simulation options mean what they are documented to mean", "statement": "If the options are read, every option of the simulation has the value in the file, in the documented unit; angles are converted from degrees to radians, energies from electron volts to joules, also for the axes of the distributions, which exist exactly if they are enabled.  Every option that is needed is present then; conversely, if all needed options are in the file as single numbers in range, reading succeeds; if one is missing, it fails.", "quantifier": "all contents of the options group in the input file", "why_tests_cant": "More than a hundred options, each with its own name, type and unit, and optional groups that depend on others.", "anchors": ["src/hdf5io/hdf5_options.c: hdf5_options_read, hdf5_options_read_mode, hdf5_options_read_endcond, hdf5_options_read_diagorb, hdf5_options_read_dist5D", "a5py/ascot5io/options.py"]}
{"id": "C118", "title": "Markers stop exactly when the end conditions in the options say so", "statement": "With given options, the simulation of a guiding center ends at a check exactly if one of the switched-on end conditions is met, with the limits that are in the file: time and mileage, CPU time, rho, energy in electron volts or in multiples of the temperature, wall, number of toroidal or poloidal orbits, or both of these if the option for them is two.", "quantifier": "all options files, markers, plasmas and walls", "why_tests_cant": "Joins the reader of the options with the checks after each step, for all values of the options.", "anchors": ["src/hdf5io/hdf5_options.c: hdf5_options_read_endcond", "src/endcond.c: endcond_check_gc"]}
{"id": "C119", "title": "Poincare planes are those in the options", "statement": "The planes where orbits are recorded are exactly those listed in the options, up to the 30 that fit: toroidal and poloidal angles in degrees, radial positions in rho; a negative first entry switches planes of that kind off.", "quantifier": "all lists of planes in the options file", "why_tests_cant": "All lengths of lists and all values, including those that the code uses as markers.", "anchors": ["src/hdf5io/hdf5_options.c: hdf5_options_read_diagorb"]}
{"id": "C120", "title": "The simulated markers are those in the marker file", "statement": "Reading the marker group gives all markers of the table, in its order: position, velocity (as momentum), energy, pitch, gyroangle, mass, charge, species, weight, time and number, converted from degrees, electron volts, atomic mass units and elementary charges to SI units.  It succeeds only if the whole table is there.  Particles that are written and read again are the same.", "quantifier": "all contents of the marker group, all numbers of markers", "why_tests_cant": "Every value of every column, and every way in which the table can be incomplete.", "anchors": ["src/hdf5io/hdf5_marker.c: hdf5_marker_read, hdf5_marker_read_particle, hdf5_marker_read_guiding_center, hdf5_marker_read_field_line, hdf5_marker_write_particle"]}
{"id": "C121", "title": "The marker states in the output file are the markers of the simulation", "statement": "After writing the initial or final state, every documented quantity of every marker is in the file in the order of the markers, with a unit that together with the number gives the quantity; the data sets hold nothing else; message, line and module of an error can be read from the file.", "quantifier": "all lists of marker states with charges that are multiples of the elementary charge", "why_tests_cant": "Thirty data sets for any number of markers, each with its own conversion.", "anchors": ["src/hdf5io/hdf5_state.c: hdf5_state_write", "src/hdf5io/hdf5_helpers.c: hdf5_write_extendible_dataset_double, hdf5_write_extendible_dataset_int, hdf5_write_extendible_dataset_long", "a5py/ascot5io/state.py"]}
{"id": "C122", "title": "The orbits in the output file are the recorded orbits", "statement": "After a run with one process every recorded point of every marker is in the file with all quantities of the simulation mode, in the documented units, and unused space of the buffer is left out; in Poincare mode also the crossing number and direction.  With the record at intervals the points in the file are the last ones that were due in the simulation.", "quantifier": "all recordings in all simulation modes, all numbers of markers and points", "why_tests_cant": "All fill levels of the ring buffers and all values; a test looks at one file.", "anchors": ["src/hdf5io/hdf5_orbit.c: hdf5_orbit_write, writeorbset", "src/diag/diag_orb.c", "a5py/ascot5io/orbits.py"]}
{"id": "C123", "title": "The transport coefficients in the output file are the evaluated ones", "statement": "After a run with one process every evaluated coefficient is in the file with the number of its marker, drift and diffusion in the documented units; nothing is written if none was evaluated.", "quantifier": "all numbers of markers and values of the coefficients", "why_tests_cant": "All lengths and all values.", "anchors": ["src/hdf5io/hdf5_transcoef.c: hdf5_transcoef_write"]}
{"id": "C124", "title": "Queries for end conditions and the marker summary tell the truth", "statement": "A query for end conditions, with or without NOT, returns exactly the markers for which all asked conditions hold; markers that ended in an error have the end condition ABORTED, and NONE means that nothing has ended the marker; several queries return markers that satisfy any of them; unknown names are refused.  The summary counts each marker once under the names of its end conditions and lists every error with message, line and source file.", "quantifier": "all sets of markers with all combinations of end conditions and errors, all queries", "why_tests_cant": "All combinations of fourteen conditions, all queries, and all errors that the code can raise.", "anchors": ["a5py/ascot5io/state.py: State.get, State.endcond_check, State.endcond_tostring", "a5py/routines/runmixin.py: getstate, getstate_markersummary", "src/error.h"]}
{"id": "C125", "title": "A distribution file describes its own cells: each marker is found where the stored axes say", "statement": "For each of the five fixed distributions, the stored abscissas have the documented names, order and units, their edges expressed in SI units are those of the collected distribution, and every deposition of a marker's weight goes into the one stored cell whose edges enclose the marker's coordinates.", "quantifier": "all axes, all markers and all histories of updates", "why_tests_cant": "Names, order, units, conversion of edges and the linear index must agree for all axes and all coordinates at once.", "anchors": ["src/hdf5io/hdf5_dist.c: hdf5_dist_write_5D, hdf5_dist_write_6D, hdf5_dist_write_rho5D, hdf5_dist_write_rho6D, hdf5_dist_write_COM", "src/diag/dist_5D.c: dist_5D_update_gc, dist_5D_update_fo", "doc/simulations.rst", "a5py/ascot5io/dist.py"]}
{"id": "C126", "title": "A general histogram file describes its own cells", "statement": "The cells of a written histogram are those of the histogram in memory, axes that are not in use are left out without changing the order of the numbers, and each abscissa is given in a unit of its quantity.", "quantifier": "all choices of axes, all markers", "why_tests_cant": "2^16 choices of axes, all coordinates.", "anchors": ["src/hdf5io/hdf5_histogram.c: hdf5_hist_write", "src/diag/hist.c: hist_update_gc, hist_update_fo"]}
{"id": "C127", "title": "The results of a run end up in its own group, whatever else is in the file", "statement": "In an output file that is shared by any number of runs of ascot5_main, bbnbi5 and AFSI, the group of each run holds the attributes it was given and the results that this run has written, and nothing else, and groups that were there before are not changed.", "quantifier": "all histories of beginning runs, writing results and activating runs", "why_tests_cant": "All interleavings of several programs that work on one file.", "anchors": ["src/hdf5_interface.c: hdf5_interface_init_results, hdf5_interface_write_state, hdf5_interface_write_diagnostics", "src/afsi.c: afsi_run"]}
{"id": "C128", "title": "The inputs used are those that were asked for, and the run records them", "statement": "A program reads, for every kind of input it needs, the group given as an argument or, if none is given, the active one; it fails exactly if one of them cannot be read; the QIDs stored with the results are those of the inputs that were read, no more and no less; ascot5_main called with the stored QIDs reads the same data again, whatever has become active since.", "quantifier": "all input files, all arguments", "why_tests_cant": "All combinations of given and active inputs, and all later changes of the active inputs.", "anchors": ["src/hdf5_interface.c: hdf5_interface_read_input, hdf5_interface_init_results, hdf5_get_active_qid", "src/ascot5_main.c: main, read_arguments", "src/bbnbi5_main.c: main, bbnbi_read_arguments"]}
{"id": "C129", "title": "Files may be named with or without extension, or not at all", "statement": "The input and output files used are those named in the arguments, where the extension .h5 may be left out; by default the input file is ascot.h5 and the output file is the input file.", "quantifier": "all strings given as arguments", "why_tests_cant": "All strings, among them those that contain the extension elsewhere or nothing else.", "anchors": ["src/ascot5_main.c: read_arguments", "src/bbnbi5_main.c: bbnbi_read_arguments"]}
{"id": "C130", "title": "A run leaves all its markers and diagnostics in the output file and ends with a correct summary", "statement": "A run leaves one new group with the initial and final states of all its markers in the order of the input and with all its diagnostics, and touches nothing else; the summary at the end counts all markers by end condition and error.  A run that is split over independent processes leaves every marker exactly once in the output files together.", "quantifier": "all markers, output files, numbers of processes and ranks", "why_tests_cant": "All numbers of markers and processes, all contents of the output file.", "anchors": ["src/ascot5_main.c: main, prepare_markers, write_rungroup, write_output, print_marker_summary", "src/mpi_interface.c: mpi_my_particles, mpi_gather_particlestate"]}
{"id": "C131", "title": "The plasma that the simulation sees is the one the user wrote", "statement": "Densities, temperatures, rotation and species that a user writes with the Python interface (m^-3, eV, rad/s, atomic mass units, elementary charges) are what the program evaluates after reading the file, species by species, in its own units: between grid points by linear or spline interpolation, at grid points exactly.  A group left by a writer that failed is not accepted.", "quantifier": "all tables, numbers of radii, times and ions, all points", "why_tests_cant": "All sizes of tables with several indices: an order of indices that differs between writer and reader shows only for certain sizes.", "anchors": ["a5py/ascot5io/plasma.py: plasma_1D.write_hdf5, plasma_1DS.write_hdf5, plasma_1Dt.write_hdf5", "src/hdf5io/hdf5_plasma.c: hdf5_plasma_init, hdf5_plasma_read_1D, hdf5_plasma_read_1DS, hdf5_plasma_read_1Dt", "src/plasma.c: plasma_eval_dens, plasma_eval_temp, plasma_eval_flow"]}
{"id": "C132", "title": "The deviation from quasi-neutrality that is printed is the right one", "statement": "After reading a plasma the program prints the largest relative deviation of the charge density of the ions from that of the electrons over the tabulated radii.", "quantifier": "all plasmas with nonzero electron density", "why_tests_cant": "All numbers of radii, times and ions, all charges.", "anchors": ["src/plasma/plasma_1D.c: plasma_1D_init", "src/plasma/plasma_1DS.c: plasma_1DS_init", "src/plasma/plasma_1Dt.c: plasma_1Dt_init"]}
{"id": "C133", "title": "An electric field written from Python is the one used in the simulation", "statement": "For every constant field, given by three Cartesian components, and every table of the potential gradient on a grid in rho, the group that the Python interface writes is accepted by the simulation program, and the field evaluated at any point is the given vector, or minus the gradient of a potential whose derivative in rho is the spline through the given table times the given effective minor radius, and zero outside of the grid; arrays of other sizes are refused. Fields on grids in R, phi and z that the Python interface writes are accepted as well.", "quantifier": "all tables, grid limits, sizes and evaluation points", "why_tests_cant": "Two programs in two languages agree on names, order, units and meaning of the data; a test covers single tables.", "anchors": ["a5py/ascot5io/efield.py:E_TC.write_hdf5,E_1DS.write_hdf5,E_3D.write_hdf5,E_3DS.write_hdf5", "src/hdf5io/hdf5_efield.c:hdf5_efield_init,hdf5_efield_read_TC,hdf5_efield_read_1DS", "src/E_field.c", "src/Efield/E_1DS.c"]}
{"id": "C134", "title": "Neutral densities and temperatures written from Python are the ones used in the simulation", "statement": "For every set of neutral species with densities and temperatures tabulated in rho or in R, phi and z, the group that the Python interface writes is accepted by the simulation program, and at every point of the grid the density of each species is the linear interpolation of the values given for that species, and the temperature that of the given values in eV times the electronvolt; outside of the grid there is an error. The angle is given in degrees and is periodic. The documented arguments are accepted.", "quantifier": "all numbers of species, grids, tables and evaluation points", "why_tests_cant": "The two programs order the axes differently (transposes and flat indices); a mistake shows only for particular sizes and species.", "anchors": ["a5py/ascot5io/neutral.py:N0_1D.write_hdf5,N0_3D.write_hdf5", "src/hdf5io/hdf5_neutral.c:hdf5_neutral_init,hdf5_neutral_read_1D,hdf5_neutral_read_3D", "src/neutral.c", "src/neutral/N0_1D.c", "src/neutral/N0_3D.c"]}
{"id": "C135", "title": "A wall written from Python is the one used in the simulation", "statement": "For every contour and every set of triangles with at least one element, with or without flags, the group that the Python interface writes is accepted by the simulation program; the number of elements and the flag of each element are the given ones; a step hits exactly the elements of the given geometry, and the identifier of a hit is one plus the index of the element in the given arrays. Arrays of other sizes are refused, and a wall without elements is refused.", "quantifier": "all contours, triangles, flags and steps of a marker", "why_tests_cant": "Numbering and geometry are agreed between two programs in two languages for every wall; a test covers single walls.", "anchors": ["a5py/ascot5io/wall.py:wall_2D.write_hdf5,wall_3D.write_hdf5", "src/hdf5io/hdf5_wall.c:hdf5_wall_init,hdf5_wall_read_2D,hdf5_wall_read_3D", "src/wall.c", "src/wall/wall_2d.c:wall_2d_init", "src/wall/wall_3d.c:wall_3d_init"]}
{"id": "C136", "title": "Wall loads are the sums over the markers that hit the element", "statement": "For every set of markers that ended at the wall, the loads have one entry for each element hit, in increasing order, with its area; the particle load is the sum of the weights of the markers on the element, the energy load that of energy times weight, and without weights the count and the sum of energies; the sums over all elements equal those over all markers; with flags only the elements with these flags are listed, with their complete loads; the peak load is the largest and the wetted area the sum; and the angle of incidence is the average over the markers on the element of the angle between momentum and normal.", "quantifier": "all sets of markers, walls, flags, and all orders that argsort can return for equal identifiers", "why_tests_cant": "The grouping depends on the order and the repetitions of identifiers; a test covers single populations.", "anchors": ["a5py/routines/runmixin.py:getwall_loads,getwall_figuresofmerit,getwall_3dmesh"]}
{"id": "C137", "title": "Geometry of walls: areas, normals, centres and conversion to triangles", "statement": "The conversion of a contour into a 3D wall gives for every contour and number of toroidal sectors two triangles for each segment and sector, with corners on the given vertices turned by multiples of the sector angle, none missing; the surface is closed: every side belongs to exactly two triangles. The area of a contour element is that of the surface swept around the axis and that of a triangle is its area; the normals have length one and are orthogonal to the element; the elements are numbered as in the simulation; the corners of each face in the node representation are those of the triangle. The outline gives the smallest and the largest radius.", "quantifier": "all contours, numbers of sectors and triangles", "why_tests_cant": "Index arithmetic in array updates must be right for all sizes, with the wrap-around at the ends.", "anchors": ["a5py/ascot5io/wall.py:wall_2D.getwallcontour,wall_2D.getwalloutline,wall_2D.area,wall_3D.convert_wall_2D,wall_3D.area,wall_3D.barycenters,wall_3D.noderepresentation"]}
{"id": "C138", "title": "The magnetic field of the simulation is the one written with the Python interface", "statement": "A user writes a magnetic field with write_hdf5 of B_2DS, B_3DS, B_STS, B_TC or B_GS and runs a simulation with it.  At every position of the grid, evaluating flux, field and gradients gives the cubic splines through the tables of the user (grid in m and degrees), with the field of the flux added for B_2DS and B_3DS; the tabulated numbers at the grid points; errors outside; the axis and the fluxes at axis and separatrix that were given.  B_TC is the linear Cartesian field with the given Jacobian and B_GS the Solov'ev equilibrium with the given coefficients, moved to z0.  A field that cannot be evaluated on its axis stops the program.  Tables of the wrong shape are refused.", "quantifier": "all grids (at least two points in R and z, three in phi), tables, axes, fluxes, coefficients, Jacobians and positions", "why_tests_cant": "The layout of the tables, the units and the boundary conditions pass through two languages and a file; tests use constant or symmetric tables and z0 = 0, for which transposed indices or a forgotten shift have no effect.", "anchors": ["a5py/ascot5io/bfield.py: write_hdf5", "a5py/physlib/analyticequilibrium.py: psi0, find_axis", "src/hdf5io/hdf5_bfield.c: hdf5_bfield_init", "src/Bfield/B_2DS.c: B_2DS_init", "src/Bfield/B_3DS.c: B_3DS_init", "src/Bfield/B_STS.c: B_STS_init", "src/Bfield/B_GS.c: B_GS_eval_B", "src/B_field.c: B_field_eval_B"]}
{"id": "C139", "title": "The derivatives returned with spline data are the derivatives of that data, also across cell edges", "statement": "Interpolating tabulated data with splines in one, two or three dimensions, natural or periodic along each axis, gives a function of the coordinates with continuous second derivatives on the whole domain, and the first and second derivatives that the evaluation returns are its derivatives.  Hence inside of the grid the gradients of flux and field of the axisymmetric, three-dimensional and stellarator fields are the gradients of the flux and the field that are evaluated there, and an axisymmetric field given by flux and toroidal field alone has no divergence and follows the flux surfaces.", "quantifier": "all tables, numbers of points (two or more on natural, three or more on periodic axes), axis limits and positions, on and off the edges of cells", "why_tests_cant": "derivatives at each of the infinitely many positions, and continuity at the edges of cells, are limits that no finite set of evaluations shows", "anchors": ["src/spline/interp1Dcomp.c", "src/spline/interp2Dcomp.c", "src/spline/interp3Dcomp.c", "src/spline/splinecomp.c", "src/Bfield/B_2DS.c:B_2DS_eval_B_dB", "src/Bfield/B_3DS.c:B_3DS_eval_B_dB", "src/Bfield/B_STS.c:B_STS_eval_B_dB"]}
{"id": "C140", "title": "The MHD modes of the simulation are those written with the Python interface", "statement": "A user writes stationary or time-dependent MHD modes with write_hdf5 of MHD_STAT or MHD_NONSTAT and runs a simulation with them.  The electric and the magnetic potential that the simulation evaluates, for all modes or for one selected mode, are the sums over these modes of the user's amplitude times the cubic spline through the user's profile of that mode times the cosine of n zeta - m theta - omega t + phase with the user's numbers; the spline goes through the tabulated numbers; beyond the grid the evaluation fails.  Tables of the wrong shape are refused.", "quantifier": "all numbers of modes, mode numbers, amplitudes, frequencies, phases, profiles on grids with at least two points, positions and times", "why_tests_cant": "The order of the array indices passes through two languages and a file, and mode and radius are easily exchanged; tests use one mode or profiles that are equal for all modes.", "anchors": ["a5py/ascot5io/mhd.py:MHD_STAT.write_hdf5,MHD_NONSTAT.write_hdf5", "src/hdf5io/hdf5_mhd.c:hdf5_mhd_init", "src/mhd/mhd_stat.c:mhd_stat_init,mhd_stat_eval", "src/mhd/mhd_nonstat.c:mhd_nonstat_init,mhd_nonstat_eval"]}
{"id": "C141", "title": "The Boozer coordinates of the simulation are those written with the Python interface", "statement": "A user writes the tables of the Boozer angle and of nu with Boozer.write_hdf5 and runs a simulation with them.  At every position inside of the user's contour and range of flux the evaluation gives the flux, the value of the cubic spline through the user's table of the angle, continued by whole turns, at the flux and the geometrical angle, and the toroidal angle plus nu up to whole turns, with the derivatives of these functions; outside there are no coordinates.  The splines go through the tables.  If the table of the angle is the geometrical angle and nu is zero, the coordinates are the geometrical ones.  Tables of the wrong shape are refused.", "quantifier": "all grids (at least two points in psi, five in the geometrical angle, three in the Boozer angle), tables, contours, magnetic fields and positions", "why_tests_cant": "The writer pads the table and the program undoes it with a formula of its own; both must agree for every number of points, and a wrong padding shows only between grid points near the ends.", "anchors": ["a5py/ascot5io/boozer.py:Boozer.write_hdf5", "src/hdf5io/hdf5_boozer.c:hdf5_boozer_init", "src/boozer.c:boozer_init,boozer_eval_psithetazeta"]}
{"id": "C142", "title": "The reaction data of the simulation are those written with the Python interface", "statement": "A user writes tables of cross-sections and rate coefficients with Asigma_loc.write_hdf5 and runs a simulation with them.  The simulation has exactly the user's reactions, each with its species, type and axes; the cross-section or rate it evaluates for a reaction is the value of the cubic spline through the user's table of that reaction at the energy (and the density and the temperature, in the units of the tables), or zero where the spline is negative; outside of the axes the value is zero or the evaluation fails, as selected.  Tables of the wrong size are refused.", "quantifier": "all numbers of reactions, species, types, axes with at least two points, tables, energies, densities and temperatures", "why_tests_cant": "The tables of all reactions are packed into one array whose parts must be found again by a program in another language; tests use files with a single reaction.", "anchors": ["a5py/ascot5io/asigma.py:Asigma_loc.write_hdf5", "src/hdf5io/hdf5_asigma.c:hdf5_asigma_init,hdf5_asigma_read_loc", "src/asigma/asigma_loc.c:asigma_loc_init", "src/asigma.c:asigma_eval_sigma,asigma_eval_sigmav"]}
{"id": "C143", "title": "The injectors of a beam simulation are those written with the Python interface", "statement": "A user writes a bundle of neutral beam injectors with NBI.write_hdf5 and runs BBNBI with it.  The simulation has the same injectors in the same order, each with the user's identifier, species, power, energy fractions and divergences, with mass and energy converted to SI units, and with exactly the user's beamlets in the same order.  Markers start at the user's beamlets with the user's energy or one half or one third of it.  Arrays of the wrong shape and a wrong number of injectors are refused.", "quantifier": "all numbers of injectors, numbers of beamlets that differ between injectors, parameters, beamlets and random numbers", "why_tests_cant": "The beamlets of all injectors are packed into one array and unpacked again by another function; a wrong offset shows only for bundles of injectors with different numbers of beamlets.", "anchors": ["a5py/ascot5io/nbi.py:Injector,NBI.write_hdf5", "src/hdf5io/hdf5_nbi.c:hdf5_nbi_init", "src/nbi.c:nbi_init,nbi_inject"]}
{"id": "C144", "title": "Generated injectors have the geometry the user asked for", "statement": "The function NBI.generate gives an injector whose grid centre is at the user's coordinates and whose centre line, seen from above, has the user's tangency radius and sense.  Every beamlet lies on the grid, inside of the user's circle or rectangle, and its direction is a unit vector towards one common focus on the centre line, at the user's focal length from the centre of the grid.  The centre line has the user's vertical tilt, or passes the tangency point with the user's vertical shift.  The other parameters are passed on unchanged.", "quantifier": "all positions of the injector, tangency radii up to the distance from the axis, focal lengths, grids, tilts, shifts, numbers of beamlets and random numbers", "why_tests_cant": "The geometry must be right for all toroidal positions and tilts; at the position and without the tilt used in a test, wrong formulas can agree with right ones.", "anchors": ["a5py/ascot5io/nbi.py:NBI.generate,Injector"]}
{"id": "C145", "title": "A magnetic field given as a dictionary is the one that the file would give", "statement": "The interactive interface accepts, instead of a group of the file, a dictionary with what would be given to the corresponding writer.  The field is then the same as if the writer had been called with these arguments and the file had been read: same values, same flux, same axis, everywhere, and arguments that the writer refuses are refused.", "quantifier": "all five kinds of magnetic field, grids, tables, optional arguments left out or not, and arrangements of the arrays in memory", "why_tests_cant": "The dictionary is handed over as raw memory of arrays; whether the entries arrive at the right grid points depends on the arrangement of the arrays and the shape of the grid, and agrees by chance for symmetric data.", "anchors": ["a5py/ascotpy/libproviders.py:_provide_bfield", "a5py/ascot5io/bfield.py:B_TC.write_hdf5,B_GS.write_hdf5,B_2DS.write_hdf5,B_3DS.write_hdf5,B_STS.write_hdf5", "src/hdf5io/hdf5_bfield.c:hdf5_bfield_init"]}
{"id": "C146", "title": "The interactive interface holds the inputs that were asked for", "statement": "After any history of loading files, initialising and freeing inputs: each kind of input that the interface uses is the one that was asked for last, with the data of its group in the file or of its dictionary; what was freed, or belonged to a file that is no longer open, is gone; asking for what is initialised already does nothing; asking for something else raises an exception and changes nothing unless a switch was asked for.  What is marked as initialised has data, and memory is neither freed twice nor lost.", "quantifier": "all histories of calls, also those in which calls raise exceptions, files, groups, dictionaries and combinations of arguments", "why_tests_cant": "The state after a call depends on all calls before; wrong bookkeeping shows only after particular sequences, often as a crash or as silent use of old data.", "anchors": ["a5py/__init__.py:input_init,input_free,file_load", "a5py/ascotpy/__init__.py:_init,_free", "a5py/ascotpy/libsimulate.py:simulation_initbbnbi", "src/hdf5_interface.c:hdf5_interface_read_input"]}
{"id": "C147", "title": "A dictionary is taken for the type of input whose writer takes it", "statement": "Given a dictionary for an input, the interface finds the type whose writer takes its entries as arguments: all arguments without default value, and nothing else.  If there is such a type it is found, there are never two, and arguments that were left out get the default values of the writer.  Otherwise there is an error, whose message names the type that fits best and what is missing or unknown.", "quantifier": "all kinds of input and all sets of entries of a dictionary", "why_tests_cant": "The number of sets of entries is unbounded; whether a set is ambiguous depends on all pairs of types.", "anchors": ["a5py/ascotpy/libproviders.py:_find_input_based_on_kwargs,_provide_nbi", "a5py/ascot5io/__init__.py:HDF5TOOBJ"]}
{"id": "C148", "title": "After any history of a file everything in it refers to something that is there", "statement": "Inputs are created, activated, described, copied from other files and removed, one by one or a whole parent at a time, from Python or with a5manage, and simulations write their results.  After any such history no two groups have the same QID, every group has a type, a description and a date, every parent has an active group, which is one of its own, and the inputs of every result are there.  Each operation does what its documentation says to the group it names and nothing to the others: a new input is active if this was asked for or if it is the only one, the newest result is active, an input that a result has used is not removed, the last group takes its parent with it, a removed active group is replaced by a most recent one, and a call that names nothing changes nothing.", "quantifier": "all sequences of operations from an empty file, all names and descriptions, also of groups that do not exist, and all copies from files with such a history; QIDs that are generated are new", "why_tests_cant": "The state of a file depends on everything that was done to it; tests try single operations on files with one or two groups.", "anchors": ["a5py/ascot5io/coreio/fileapi.py:set_active,get_active,set_desc,get_group,add_group,remove_group,copy_group", "a5py/ascot5io/coreio/tools.py:removegroup,copygroup", "a5py/ascot5io/__init__.py:create_input", "src/hdf5_interface.c:hdf5_interface_init_results"]}
{"id": "C149", "title": "Any file can be opened and shows its groups under their names, QIDs and tags", "statement": "Whatever has been done to a file, it can be opened.  Each parent lists its groups once, from the most recent to the oldest, and names its active group.  A group is found under its name and its QID.  The first word of its description, in capital letters and without special characters, refers to the group if no other group of the parent has this tag; otherwise the tag with the number i refers to the i-th of them, from the most recent on.  No name refers to a group of another parent, and every result finds its inputs.", "quantifier": "all files with a history as in C148, all descriptions, any number of groups with the same tag", "why_tests_cant": "Tags depend on all descriptions and dates in a file and on the order in which they are read; that a file cannot be opened shows only after a particular history.", "anchors": ["a5py/ascot5io/coreio/treeview.py:_ParsedNode,InputNode,ResultNode,RootNode._build", "a5py/ascot5io/__init__.py:HDF5TOOBJ,Ascot5IO", "a5py/ascot5io/coreio/fileapi.py:get_inputqids"]}
{"id": "C150", "title": "Combined outputs of several files are the output of the whole simulation", "statement": "If a simulation has been split into several files, then combining them gives the initial and end states, orbits and transport coefficients of all markers, in the order of the files, and the sums of the distributions, for any number of files; the distributions do not depend on the order of the files, and the rows only by their order. If a simulation has been continued in a second file, then combining the two gives all markers of the first, each with its state when it has ended, and the sums of the distributions.", "quantifier": "all runs with any number of markers, columns, recorded points, distributions and bins; any number and order of files; any set of continued markers", "why_tests_cant": "a test combines a few files in one order; the claim is on all numbers and orders of files and on all sets of markers", "anchors": ["bin/a5combine", "a5py/ascot5io/coreio/tools.py:combineoutput", "a5py/routines/runmixin.py:getstate_markers"]}
{"id": "C151", "title": "Equilibria are recognised and converted without changing what they say", "statement": "There are sixteen conventions for the signs and the normalisation of an equilibrium.  From the signs of the data the convention of an equilibrium is found, given whether the toroidal angle increases clockwise and whether the flux was divided by 2\u03c0.  A conversion to any other convention gives the equilibrium that says the same about flux, field, current, pressure and safety factor in the other convention, so that conversions compose and can be undone; other numbers are refused.  The convention used by the code is the one of the magnetic field that the code computes.", "quantifier": "all pairs of the sixteen conventions, chains of conversions of any length, all equilibria with any data, all integers as number of a convention", "why_tests_cant": "There are 256 pairs of conventions and sixteen combinations of signs each; wrong signs cancel for the equilibrium of a test.", "anchors": ["a5py/physlib/cocos.py:cocos,assign,transform_cocos,fromCocosNtoCocosM", "src/Bfield/B_2DS.c:B_2DS_eval_B"]}
{"id": "C152", "title": "The magnetic field of an equilibrium file is imported as it is", "statement": "The input made from an equilibrium file in any convention has the flux of the file at each position of the grid of the file, the same axis and the same flux at axis and boundary, and the toroidal field F(\u03c8)/R, where F is linear between its samples, constant outside of the boundary and equal to the value at the axis where \u03c8 is beyond that at the axis.  The wall has the points of the file.", "quantifier": "all conventions, grids, fluxes and profiles, grids that begin at R = 0 or not, fluxes that increase or decrease from the axis", "why_tests_cant": "Whether values and positions belong together depends on the grid, its left end, the direction of the flux and the convention; a test has one file.", "anchors": ["a5py/templates/importdata.py:ImportData.import_geqdsk,ImportData.wall_geqdsk"]}
{"id": "C153", "title": "Imported plasma profiles are those of the data, and the plasma is quasi-neutral", "statement": "The import of plasma profiles gives, at each position of the grid, the value of the data: linear between the positions that are given, in either radial coordinate, and that of the nearest position where there are none.  If profiles are extrapolated, they decay exponentially outside of the plasma, but not below the limit; positive data give positive profiles.  If the data are quasi-neutral then the input is quasi-neutral, and if fractions of the ions are given then the density of the last species makes it quasi-neutral.  An extrapolation that ends within the plasma is refused.", "quantifier": "all tables with any number of positions and species, grids, limits, lengths of decay, fractions and charges", "why_tests_cant": "Whether the charges cancel at each position depends on where the data end, on the limits and on the number of species; a test has one set of profiles.", "anchors": ["a5py/templates/importdata.py:ImportData.import_plasma_profiles"]}
{"id": "C154", "title": "Markers generated from a distribution represent the particles of that distribution", "statement": "When MarkerGenerator.generate returns, it has made the requested number of markers; the weights of the markers of each occupied cell add up to the number of particles of that cell; no weight is below the minimum weight; no marker lies in a cell that the marker distribution leaves empty; each marker has coordinates inside of its cell; and the returned distributions are those of the generated markers. If all cells with particles are occupied, the total weight is the number of particles.", "quantifier": "all particle and marker distributions, all grids in (R, phi, z) or (rho, theta, phi) and in (ppar, pperp) or (energy, pitch), all numbers of markers and minimum weights, all sequences of random numbers, and all orders into which the markers are shuffled", "why_tests_cant": "The result depends on random numbers and on a loop that repeats until no marker is rejected; a test sees a few seeds on one grid, usually in one coordinate system where indices happen to agree.", "anchors": ["a5py/routines/markergen.py:MarkerGenerator.generate", "a5py/ascot5io/dist.py:DistData.histogram", "a5py/ascot5io/dist.py:DistData.phasespacevolume", "a5py/physlib/__init__.py:energy_momentum"]}
{"id": "C155", "title": "Quantities of marker states are those of each marker", "statement": "getstate returns each requested quantity once for each marker, in the order of marker identifiers. The values of a marker depend on that marker only and are those of a particle with its momentum in the field: momentum and its components along and across the field, velocity (below that of light) and its components, kinetic energy, pitch, magnetic moment, canonical momentum, position and angles. For guiding centres there is a momentum with the parallel momentum and magnetic moment of the marker to which all quantities belong.", "quantifier": "all numbers of markers, all marker data with positive mass and nonzero momentum and field, all input fields, all lists of quantities, in particle and guiding-centre mode", "why_tests_cant": "Formulas are applied to arrays whose number of dimensions and lengths decide what is done; a test uses a few markers of one kind, and does not try the lengths for which arrays are misread.", "anchors": ["a5py/ascot5io/state.py:State.get", "a5py/ascot5io/state.py:State._getactual", "a5py/physlib/__init__.py:velocity_momentum", "a5py/physlib/__init__.py:gamma_momentum", "a5py/physlib/__init__.py:momentum_muppar", "a5py/routines/runmixin.py:getstate"]}
{"id": "C156", "title": "Quantities along orbits belong to the recorded points in order", "statement": "getorbit returns every quantity at all recorded points of the requested markers, end conditions and Poincar\u00e9 planes, ordered by the marker and then by mileage. Entries at the same place in two quantities are of the same point, and the mass and initial time that enter are those of the point's own marker. The connection length is the distance to where the marker is lost.", "quantifier": "all orbit data and initial states, all quantities (with any formula for gyro-orbits and guiding centres), all filters", "why_tests_cant": "Values are brought to the markers by index arrays, so that a wrong alignment shows only for particular sets of recorded markers and modes; a test looks at one simulation in which every marker was recorded in one mode.", "anchors": ["a5py/ascot5io/orbits.py:Orbits.get", "a5py/ascot5io/orbits.py:Orbits._getactual", "a5py/routines/runmixin.py:getorbit"]}
{"id": "C157", "title": "The wave library is given one guiding centre and its kick reaches the marker", "statement": "With radio-frequency heating, the library is given, for each running guiding centre, the quantities of one particle with the marker's mass, parallel momentum and magnetic moment, and the marker's canonical toroidal momentum. The kick changes the parallel velocity by what the library says and other coordinates to what it leaves there. Lanes without a running marker are not touched. A step that overshot the resonance is reported by a negative suggestion, and is then undone.", "quantifier": "all markers with positive mass and nonnegative magnetic moment, all fluxes, steps and all behaviours of the library (a function of time, step, marker and its memory)", "why_tests_cant": "The library is not available in tests, and whether the quantities are those of one particle depends on the marker; a canonical momentum that is off by a multiple of the flux shows only along an orbit.", "anchors": ["src/rfof.c:rfof_resonance_check_and_kick_gc", "src/simulate/simulate_gc_fixed.c:simulate_gc_fixed"]}
{"id": "C158", "title": "Integration, slices and interpolation of distributions keep the particles", "statement": "A distribution made from a histogram, and a copy, have that histogram. Integrating over abscissae gives, in each remaining bin, the sum of the particles in the bins summed over (times factors, if given), and the number of particles stays. A slice has the chosen bins with their edges, and each has the particles it had. Interpolation at a point gives the value of the distribution there.", "quantifier": "all distributions with any number of abscissae and increasing edges, all arguments of integrate, all slices, all points", "why_tests_cant": "The result depends on the order and number of axes, on which are removed, and on the edges of the grid; tests use a few grids.", "anchors": ["a5py/ascot5io/dist.py:DistData.integrate", "a5py/ascot5io/dist.py:DistData.slice", "a5py/ascot5io/dist.py:DistData.interpolate", "a5py/ascot5io/dist.py:DistData.histogram", "a5py/ascot5io/dist.py:DistData.phasespacevolume"]}
{"id": "C159", "title": "Conversion of a distribution to energy and pitch keeps the particles", "statement": "Converting a distribution from parallel and perpendicular momentum to energy and pitch moves the particles of each momentum cell to the bin that has the energy and pitch at the middle of the cell, and keeps the number of particles. If a number of bins is given instead of edges, the new grid has so many bins and reaches from zero to the highest energy on the momentum grid. The list of available distributions has those that are there.", "quantifier": "all distributions with any other abscissae, all momentum grids, all grids of energy and pitch, all sets of distributions in a run", "why_tests_cant": "Particles are lost only for certain combinations of momentum grids and contents, which a test with a slowed-down beam does not reach.", "anchors": ["a5py/ascot5io/dist.py:Dist.ppappe2ekinpitch", "a5py/routines/distmixin.py:_getdist", "a5py/routines/runmixin.py:getdist"]}
{"id": "C160", "title": "Moments of distributions are those of the particles", "statement": "The density times the volume of the bins sums to the number of particles, and the energy density to their kinetic energy. The pressure is a third of the trace of the pressure tensor and not negative. The parallel current is the sum of charge times parallel velocity. The volumes of bins sum to that of the grid. Averages over the angles keep the total.", "quantifier": "all distributions with any abscissae and contents, all masses, volumes and grids", "why_tests_cant": "Sums over five and more dimensions with factors that depend on two of them; the factor by which pressures are off depends on how particles move, and tests compare with expressions in the same form.", "anchors": ["a5py/ascot5io/dist.py:Dist.density", "a5py/ascot5io/dist.py:Dist.energydensity", "a5py/ascot5io/dist.py:Dist.pressure", "a5py/ascot5io/dist.py:Dist.parallelcurrent", "a5py/ascot5io/dist.py:DistMoment.ordinate", "a5py/routines/runmixin.py:getdist_moments"]}
{"id": "C161", "title": "Volumes of the cells between flux surfaces are those of the bodies", "statement": "All cells between two flux surfaces have together the volume between the surfaces, however the poloidal angle is divided, and all cells together have the volume within the last surface, for the limits given in degrees. The result changes by at most the tolerance when the toroidal intervals are halved. Both methods refer to the same cells.", "quantifier": "all fields whose flux surfaces go around the axis, all divisions of radius and angles, all limits, all random points", "why_tests_cant": "The volume is a difference of sums over thousands of prisms or of counts of random points; limits other than zero, first surfaces other than the axis and the order of poloidal cells need cases that a comparison of total volumes does not see.", "anchors": ["a5py/ascotpy/__init__.py:input_rhovolume", "a5py/ascotpy/__init__.py:integrate_prism", "a5py/ascotpy/__init__.py:integrate_mc"]}
{"id": "C162", "title": "A fusion calculation is set up for the populations and cells that the user asks for", "statement": "The reactants are the species of the reaction, taken from the plasma, and the calculation is refused if the plasma does not contain them. Reactions are halved exactly if both reactants are one population. The volumes of cells are those in space, a cell is counted in the bin of the products where it is, and all particles of a beam take part. Incomplete sets of coordinates are refused with a message.", "quantifier": "all lists of plasma species, all reactions, all grids, all beam distributions, all combinations of arguments", "why_tests_cant": "The setup joins tables in C, loops over species and seven-dimensional arrays with sixteen-dimensional ones; unequal bins, second grids, more charge states and incomplete arguments are a large set of combinations.", "anchors": ["a5py/routines/afsi5.py:Afsi.thermal", "a5py/routines/afsi5.py:Afsi.beamthermal", "a5py/routines/afsi5.py:Afsi.beambeam", "a5py/routines/afsi5.py:_init_dist_5d", "a5py/routines/afsi5.py:_init_histogram", "a5py/routines/afsi5.py:reactions"]}
{"id": "C163", "title": "The field of coils is the sum over the coils and their revolved copies, and keeps the axisymmetric field it is added to", "statement": "The field on a grid is the sum of the fields of all coils with their currents. Turning the coils turns the field. With `revolve` it is the field of the coils and of their copies turned by every so many points of the toroidal grid. Added to an axisymmetric input, its toroidal average is that of the input, or the value on the axis asked for; added to a three-dimensional input, it can be taken away again.", "quantifier": "all coils, currents, grids, numbers of toroidal points and of points to revolve, all inputs to which the field is added", "why_tests_cant": "A test compares one coil with one formula; equivariance under rotation, the wrap-around of the grid and the partial torus are statements about all coils and grids.", "anchors": ["a5py/routines/biosaw5.py:BioSaw.calculate", "a5py/routines/biosaw5.py:BioSaw.addto2d", "a5py/routines/biosaw5.py:BioSaw.addto3d", "src/biosaw.c:biosaw_calc_B"]}
{"id": "C164", "title": "Boozer coordinates made for a tokamak have straight field lines, and potentials made consistent have no parallel electric field", "statement": "The template for Boozer coordinates gives a poloidal angle that increases from 0 to 2 pi around every flux surface, in both directions of the field, and a toroidal angle that increases by the safety factor times the poloidal one along every field line. The rows of the tables are those of the psi grid that the simulation uses. Mode potentials made consistent give no electric field along the magnetic field. The safety factor changes sign with the field, and the fraction of trapped particles is that of the usual formula.", "quantifier": "all contours of flux surfaces and fields on them, all numbers of points, both signs of psi, all modes and times", "why_tests_cant": "A test compares one equilibrium within a tolerance; that the sums close exactly, that field lines are straight and that the parallel field vanishes are identities for all surfaces and modes.", "anchors": ["a5py/templates/poincare.py:boozer_tokamak", "a5py/templates/poincare.py:mhd_consistent_potentials", "a5py/ascotpy/__init__.py:input_eval_safetyfactor", "src/boozer.c:boozer_eval_psithetazeta", "src/mhd/mhd_stat.c:mhd_stat_perturbations"]}
{"id": "C165", "title": "Analytical inputs are what their descriptions say", "statement": "The field ripple of rectangular coils is a field without sources and currents, has the depth given by the coil radius and number, repeats itself after the period that is written to the output, and has no toroidal average. The uniform plasma has the given density inside the separatrix and none outside, and is neutral; the uniform neutrals have the given density and temperature. Points are inside of the rectangular wall exactly if they are inside of the rectangle.", "quantifier": "all fields, numbers of coils, periods and grid points; all densities and temperatures; all positions", "why_tests_cant": "A test looks at a few positions; the wall fails only on four lines and the plasma only between two grid points, and vanishing divergence is a statement about all positions.", "anchors": ["a5py/templates/analyticalinputs.py:bfield_analytical_step_ripple", "a5py/templates/analyticalinputs.py:plasma_flat", "a5py/templates/analyticalinputs.py:neutral_flat", "a5py/templates/analyticalinputs.py:wall_rectangular", "src/wall/wall_2d.c:wall_2d_inside", "src/plasma/plasma_1D.c:plasma_1D_eval_dens"]}
{"id": "C166", "title": "Charge-exchange data are averages of the fitted cross section over a Maxwellian", "statement": "The charge-exchange data for hydrogen are made from a Chebyshev fit of the cross section, which is positive exactly at the energies of the fit; a grid of energies that is accepted has no other energies. The integrand of the rate is cross section times relative speed times the density of the relative speed between the particle and a Maxwellian of the given temperature, up to the error that the comment promises. The simulation finds the rate of each energy and temperature at its place in the table.", "quantifier": "all energies, temperatures, masses, speeds and grid sizes", "why_tests_cant": "A test integrates for one energy and temperature within a tolerance; that the integrand is that of a Maxwellian, that the two branches agree and that no energy falls out of the fit are statements about all values.", "anchors": ["a5py/templates/analyticalinputs.py:asigma_chebyshev_cx_hh0", "src/asigma/asigma_loc.c:asigma_loc_init", "src/asigma/asigma_loc.c:asigma_loc_eval_sigmav"]}
{"id": "C167", "title": "The first time step is the given fraction of the relativistic gyration period", "statement": "A marker begins with the time step that the user gave, in every mode. If the user gave a number of steps per gyration instead, that many steps make exactly one gyration of the exact relativistic motion in the field at the marker, and fewer do not; a guiding center has the step of its particle; a step of the full-orbit scheme turns the momentum by slightly less than its part of a turn. The first step of the adaptive scheme is positive and at most a gyration period, and the adaptive scheme begins with the fixed step.", "quantifier": "all masses, charges, momenta, fields, numbers of steps and options", "why_tests_cant": "A test compares the step of one marker with a number; that the steps close the gyration of the equation of motion and that particle and guiding center agree are statements about all markers, and the markers without a step (neutral ones) are not tried.", "anchors": ["src/simulate/simulate_fo_fixed.c:simulate_fo_fixed_inidt", "src/simulate/simulate_gc_fixed.c:simulate_gc_fixed_inidt", "src/simulate/simulate_gc_adaptive.c:simulate_gc_adaptive_inidt", "src/physlib.h:phys_gyrofreq_pnorm", "a5py/ascot5io/options.py:_FIXEDSTEP_USE_USERDEFINED"]}
{"id": "C168", "title": "Loading an input and releasing it again releases every block of memory exactly once", "statement": "In one session inputs and diagnostics are initialised and released any number of times. Between initialisation and release of an input or diagnostic no block is released twice, no pointer is released that was never set, and afterwards exactly the blocks are allocated that were allocated before, so that the inputs can be changed without limit and the results of a run are still written after the inputs have been released.", "quantifier": "all numbers of species, modes, beamlets, reactions and triangles, all trees of the wall, all histories of recorded markers, all numbers of rounds of loading and releasing, all states of the memory before", "why_tests_cant": "A test loads an input once, with one neutral species and a small wall; a leak does not show in it, and a double release shows only for some numbers of species and some allocators.", "anchors": ["src/neutral/N0_1D.c:N0_1D_free", "src/neutral/N0_3D.c:N0_3D_free", "src/Bfield/B_STS.c:B_STS_free", "src/plasma/plasma_1D.c:plasma_1D_free", "src/plasma/plasma_1DS.c:plasma_1DS_free", "src/wall/wall_2d.c:wall_2d_free", "src/wall/wall_3d.c:wall_3d_init_octree", "src/octree.c:octree_free", "src/asigma/asigma_loc.c:asigma_loc_free", "src/mhd/mhd_stat.c:mhd_stat_free", "src/nbi.c:nbi_free", "src/diag/diag_orb.c:diag_orb_free", "src/diag/diag_transcoef.c:diag_transcoef_process_and_clean", "src/ascot5_main.c:main"]}
{"id": "C169", "title": "A Poincare run keeps every crossing of its planes", "statement": "The template for Poincare plots reserves for each marker as many points as the numbers of orbits and planes that the user asks for. When a field line is followed until it reaches either limit, or both if the user asks for both, every crossing of every plane is found in the output, in the order in which it was made, and none is overwritten by a later one.", "quantifier": "all field lines that go on in one direction in steps of at most half a turn, all planes, all numbers of orbits, all other end conditions", "why_tests_cant": "A test traces a few lines and looks at the plot; a missing first crossing does not show, and whether the memory suffices depends on the line, its direction, its safety factor and the limits.", "anchors": ["a5py/templates/poincare.py:options_poincare", "src/diag/diag_orb.c:diag_orb_update_ml", "src/diag/diag_orb.c:diag_orb_check_plane_crossing", "src/endcond.c:endcond_check_ml", "src/simulate/simulate_ml_adaptive.c:simulate_ml_adaptive", "a5py/ascotpy/libsimulate.py"]}
{"id": "C170", "title": "Interactive runs and runs of the program see the same options", "statement": "A user who gives a set of options to an interactive run gets the simulation that the program would run with the same options written to a file: the same mode, time steps, physics, end conditions with their limits, and the same diagnostics with the same settings. Options that the file accepts are accepted by the interactive run too.", "quantifier": "all sets of options, with any numbers, lists and arrays as values", "why_tests_cant": "There are two readers in two languages for about a hundred options; a test compares them for one set of options at a time, and most options leave the result of a short run unchanged.", "anchors": ["a5py/ascotpy/libsimulate.py:simulation_initoptions", "a5py/ascot5io/options.py:write_hdf5", "src/hdf5io/hdf5_options.c:hdf5_options_read", "a5py/ascotpy/ascot2py.py"]}
{"id": "C171", "title": "Interactive runs and runs of the program begin with the same markers", "statement": "A user who gives markers to an interactive run gets the markers that the program would read from a file to which the same markers were written: the same position, momentum or energy and pitch, mass, charge, species, weight, time and id, in whatever units the columns were given.", "quantifier": "all numbers of markers, all values and units of the columns, for particles, guiding centers and field lines", "why_tests_cant": "Two paths in two languages convert a dozen columns; a test compares one set of markers in one choice of units, and the tests of interactive runs use guiding centers only.", "anchors": ["a5py/ascotpy/libsimulate.py:simulation_initmarkers", "a5py/ascot5io/marker.py:write_hdf5", "a5py/physlib/__init__.py:parseunits", "a5py/physlib/__init__.py:momentum_velocity", "src/hdf5io/hdf5_marker.c:hdf5_marker_read"]}
{"id": "C172", "title": "A sequence of interactive runs keeps its results and releases its memory", "statement": "In an interactive session the user loads inputs, sets options, gives markers, makes runs and releases things in any order. Every call either does what is documented or raises an exception; the initial and final states of a run can be read until its results are released and are those of the markers it was run with; and after everything is released no memory is left allocated, however many runs were made.", "quantifier": "all sequences of calls of the interactive interface, all markers, all choices of diagnostics", "why_tests_cant": "A test goes through one sequence of calls; double releases and reads of released memory usually go unnoticed, and the memory that is left behind shows only in long sessions.", "anchors": ["a5py/ascotpy/libsimulate.py:simulation_initmarkers", "a5py/ascotpy/libsimulate.py:simulation_run", "a5py/ascotpy/libsimulate.py:simulation_bbnbi", "a5py/ascotpy/libsimulate.py:simulation_free", "a5py/routines/virtualrun.py:VirtualState", "src/diag.c:diag_init", "src/diag.c:diag_free", "src/bbnbi5.c:bbnbi_simulate"]}
{"id": "C173", "title": "The results of an interactive run read like those of a run in a file", "statement": "The results of an interactive run can be used in place of those of a run in a file: every quantity of the marker states and of the orbits, the summary of end conditions and errors, and the axes of the distribution have the dimension and the values they would have if the same run had been written to a file and read from there.", "quantifier": "all marker states, all orbit data in all simulation modes with and without Poincare planes, all axes of distributions, all quantities", "why_tests_cant": "The two ways have separate tables of names, units and fields; a test reads a few quantities in one simulation mode without errors.", "anchors": ["a5py/routines/virtualrun.py:VirtualState", "a5py/routines/virtualrun.py:VirtualOrbits", "a5py/routines/virtualrun.py:VirtualDist", "a5py/ascot5io/coreio/fileapi.py:read_data", "a5py/ascot5io/orbits.py:Orbits", "a5py/routines/runmixin.py:getstate_markersummary", "src/hdf5io/hdf5_state.c:hdf5_state_write", "src/hdf5io/hdf5_orbit.c:hdf5_orbit_write"]}
{"id": "C174", "title": "Settings on the command line take effect", "statement": "With a command line made of settings in the documented form, in any number and order, written with or without an equals sign, both programs use the last value given for each setting (input and output file, description, processes, rank, inputs, number of markers, times) and the default for settings that are not given. Command lines that are not of this form are refused.", "quantifier": "all command lines of both programs, all values", "why_tests_cant": "A test tries a few command lines; repeated settings, abbreviations, stray words, long values and values that are no numbers are unlimited in number.", "anchors": ["src/ascot5_main.c:read_arguments", "src/bbnbi5_main.c:bbnbi_read_arguments", "doc/simulations.rst"]}
{"id": "C175", "title": "Poincare planes are listed and plotted with their own crossings", "statement": "For every run with orbits collected at Poincare planes, the planes listed by the Python interface are those of the options, each with its angle or radius and with the number by which the simulation marks its crossings; a plot of the i-th plane of a kind shows the crossings of that plane, in the documented coordinates, and a plane that is not there is refused.", "quantifier": "all options of planes, all steps of markers, all planes and coordinates asked for", "why_tests_cant": "A test uses a run with one plane of each kind at the same angle, where several mistakes in the numbering cannot be seen; the combinations of planes are unlimited.", "anchors": ["a5py/routines/runmixin.py:getorbit_poincareplanes", "a5py/routines/runmixin.py:plotorbit_poincare", "src/diag/diag_orb.c:diag_orb_update_gc", "src/hdf5io/hdf5_options.c:hdf5_options_read_diagorb", "a5py/ascot5io/options.py"]}
{"id": "C176", "title": "A run with several processes leaves the diagnostics of all its markers", "statement": "With the program built with MPI, the output file of a run has the recorded orbit points of the markers of all processes with all their quantities, distributions that are the sums over all processes, and the transport coefficients of all markers, for any number of processes and any simulation mode.", "quantifier": "all numbers of processes, markers and points, all modes, all recorded values, all sizes of distributions", "why_tests_cant": "A test runs one process, or looks at the states only; the divisions of markers into processes, the modes and the sizes are unlimited.", "anchors": ["src/mpi_interface.c:mpi_gather_diag", "src/diag.c:diag_init", "src/diag/diag_orb.c:diag_orb_init", "src/hdf5io/hdf5_orbit.c:hdf5_orbit_write", "src/hdf5io/hdf5_transcoef.c:hdf5_transcoef_write", "src/ascot5_main.c:offload_and_simulate"]}
{"id": "C177", "title": "Inputs evaluated in the Python interface are those of each point, and their derived quantities are right", "statement": "input_eval gives on a grid at [i,j,k,l] the value at (r_i, phi_j, z_k, t_l) and otherwise the value at each point, an array of one element standing for all points; it evaluates every quantity that input_eval_list lists and refuses sizes that do not fit; divb, curlb, j and gradb are the divergence and the curl of the field, the current density of Ampere's law and the gradient of the magnitude; rminor is the distance to the axis; bpol has the magnitude of the poloidal field; zeff is the sum of density times squared charge over the electron density; values are nan where the field cannot be evaluated.", "quantifier": "all arrays of coordinates, all lists of quantities, all fields with derivatives, all plasmas", "why_tests_cant": "Tests evaluate a few points of a few fields; grids, fields, plasmas and combinations of quantities are unlimited, and a wrong formula agrees with the right one for axisymmetric or simple fields.", "anchors": ["a5py/ascotpy/__init__.py:input_eval", "a5py/ascotpy/__init__.py:input_eval_list", "a5py/ascotpy/libascot.py:_eval_bfield", "a5py/ascotpy/libascot.py:_eval_plasma"]}
{"id": "C178", "title": "Collision coefficients and reaction rates asked for in Python are those of the names, points and speeds", "statement": "input_eval_collcoefs returns arrays in the order of the names; with grid=True element [ib,k,iv] is the named coefficient for plasma species ib at point k and speed iv, with grid=False element [ib,k] is that for speed k; points where the plasma cannot be evaluated can be told from others; unknown names are refused. input_eval_atomiccoefs evaluates the reaction that was asked for.", "quantifier": "all lists of names, numbers of points, speeds and species, all plasmas, all atomic data, all thread schedules", "why_tests_cant": "Tests compare a few points with one schedule and look at one coefficient; arguments passed in a wrong order or a reshape of a wrong size only show for particular names, sizes and speeds.", "anchors": ["a5py/ascotpy/libascot.py:input_eval_collcoefs", "a5py/ascotpy/libascot.py:input_eval_atomiccoefs", "a5py/ascotpy/ascot2py.py:asigma_reac_type__enumvalues", "src/libascot.c:libascot_eval_collcoefs", "src/libascot.c:libascot_eval_ratecoeff"]}
{"id": "C179", "title": "Orbit frequencies belong to their grid points and are turns over time", "statement": "input_eval_orbitresonance gives at [a,b] the toroidal and poloidal frequency of the marker that was started at node a of the first and node b of the second grid, for any two of radius, pitch and energy; the frequencies are numbers of turns over the time they took; all markers start with a pitch strictly between -1 and 1; what is plotted is the distance from the resonance with the perturbation of the given frequency.", "quantifier": "all grids of radius, pitch and energy of which one is a scalar, all recorded crossings, all perturbations", "why_tests_cant": "A test has one grid and one field; sizes of grids, orbits and their crossings are unlimited, and swapped axes do not show on square grids.", "anchors": ["a5py/ascotpy/__init__.py:input_eval_orbitresonance", "a5py/templates/poincare.py:marker_resonance"]}
{"id": "C180", "title": "Potentials of MHD modes can be made consistent with a vanishing parallel electric field", "statement": "mhd_consistent_potentials replaces the electric potential (or the magnetic one) and nothing else, such that alpha * omega = Phi * sign * (n*q - m) / (I + g*q) holds between numbers at every radius and for every mode; any other name of a potential is refused; adjusting one potential to the other and then the other to the first changes nothing more.", "quantifier": "all stationary MHD inputs, all profiles of q, I and g, all numbers of modes and radii, all signs", "why_tests_cant": "A test has a few modes and one equilibrium; whether a radius hits a resonance depends on the profile, and a wrong sign does not show without a kinetic reference.", "anchors": ["a5py/templates/poincare.py:mhd_consistent_potentials", "a5py/ascot5io/mhd.py:MHD_STAT"]}
{"id": "C181", "title": "Species are found by name and by numbers, and the two ways agree", "statement": "species gives for every documented name the mass number, the atomic number, a mass that suits them, and the charge that is given or that of the bare nucleus; any other name is refused with a message that lists all names that are taken; autodetect gives the only species with the given numbers, and a name by which species gives the same data.", "quantifier": "all strings, all pairs of numbers, all charges", "why_tests_cant": "Names are arbitrary strings and numbers arbitrary integers; a test tries a few of them, and shadowed branches or duplicates show only when all are compared.", "anchors": ["a5py/physlib/species.py:species", "a5py/physlib/species.py:autodetect", "a5py/physlib/species.py:speciesdict"]}
{"id": "C182", "title": "The check for missing planes looks at the data around the seam at the position asked for", "statement": "input_check_bfield_seam looks at the values of the planes around the first one, each with the angle of its plane up to whole periods, in the order of the angles; the first plane is always among them; the points used for the fit are the middle ones, as many as asked for; the data are taken at the grid point that is closest to the given radius and height, and positions outside the grid are refused.", "quantifier": "all numbers of planes, all values, all percentages, all grids and positions", "why_tests_cant": "Rolled and cut arrays depend on whether numbers are odd or even; a test has one grid and one position.", "anchors": ["a5py/ascotpy/__init__.py:input_check_bfield_seam"]}
{"id": "C183", "title": "The summary of losses gives fractions of what was there", "statement": "getstate_losssummary counts the markers that have hit the wall; the fractions of markers, particles and energy that are lost are between zero and one, are zero for markers and particles just if none is lost and one just if all are lost, and multiplied by the totals give the amounts that are reported.", "quantifier": "all results of simulations: any number of markers with any positive weights and energies, lost or not", "why_tests_cant": "A test has a few markers with equal weights; sums over lost markers and over all markers differ only for unequal ones.", "anchors": ["a5py/routines/runmixin.py:getstate_losssummary"]}
{"id": "C184", "title": "The orbit average is an average over a single poloidal transit", "statement": "getorbit_average returns the points of one poloidal transit of the marker: for a passing marker those until the poloidal angle has changed by a full turn, for a trapped marker those from one turning point to the next turning point of the same kind; the average is between the least and the greatest value on the transit and exists if the marker moves; this holds for every orbit.", "quantifier": "all orbits with any number of points, passing and trapped, complete or not, and all quantities", "why_tests_cant": "Where an orbit starts, turns and ends is arbitrary; a test follows one orbit from one position.", "anchors": ["a5py/routines/runmixin.py:getorbit_average"]}
