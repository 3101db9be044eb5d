# Source data for MANIFEST.json.  Run: python3 tools/manifest.py
import json, os, re
C = []
def c(prop, status, theorems, note):
    C.append(dict(property=prop, status=status, theorems=theorems, note=note))

c("C01", "partial", ["Ascot.C01.roundtrip_iff", "Ascot.C01.overlong_line", "Ascot.C01.raise_injective",
   "Ascot.C01.raise_ne_zero", "Ascot.C01.sites_decode_partial", "Ascot.C01.misreported_sites",
   "Ascot.C01.not_all_sites"],
  "False for six raise sites of particle.c beyond line 1023 (not_all_sites, misreported_sites); proved for all others.")
c("C02", "partial", ["Ascot.C02.message_defined_partial", "Ascot.C02.file_defined_partial",
   "Ascot.C02.message_injective", "Ascot.C02.file_injective", "Ascot.C02.location_shown_partial",
   "Ascot.C02.message_shown_partial", "Ascot.C02.not_all_described"],
  "False for ERR_INTEGRATION and EF_SUZUKI; errors of plasma_1Dt.c name another file. Proved for all others.")
c("C03", "proved", ["Ascot.C03.list_is_sequence"], "Pointer-level model with any allocator.")
c("C04", "proved", ["Ascot.C04.marker_life", "Ascot.C04.claimed_once", "Ascot.C04.lanes_distinct"],
  "All interleavings of all numbers of threads and lanes; atomicity of the omp critical sections is assumed.")
c("C05", "proved", ["Ascot.C05.fo_all_finished", "Ascot.C05.fo_ended_untouched", "Ascot.C05.progress"],
  "All interleavings. Termination of the physics of a marker is not part of the model.")
c("C06", "partial", ["Ascot.C06.gc_all_finished_partial", "Ascot.C06.gc_leaves_markers"],
  "False if markers have ended before the start (gc_leaves_markers); proved when none has.")
c("C07", "proved", ["Ascot.C07.fo_endcond", "Ascot.C07.fo_position", "Ascot.C07.fo_error", "Ascot.C07.fo_not_running"],
  "Wall and plasma are parameters. The time limit is checked before the marker is moved to the wall-hit point.")
c("C08", "proved", ["Ascot.C08.gc_endcond", "Ascot.C08.gc_rest", "Ascot.C08.gc_error", "Ascot.C08.gc_not_running"],
  "Wall and plasma are parameters.")
c("C09", "proved", ["Ascot.C09.ml_endcond", "Ascot.C09.ml_rest", "Ascot.C09.ml_not_running"], "Wall is a parameter.")
c("C10", "partial", ["Ascot.C10.lane_consistent", "Ascot.C10.report_partial", "Ascot.C10.end_condition_and_error",
   "Ascot.C10.ml_error_lost", "Ascot.C10.ml_error_unreported"],
  "False for field lines (errors are never reported) and when the final conversion fails after an end condition; proved otherwise.")
c("C11", "partial", ["Ascot.C11.gc_counter", "Ascot.C11.fo_counter", "Ascot.C11.compared_at_odd_turns_partial",
   "Ascot.C11.compared_decreases", "Ascot.C11.first_met"],
  "The counter is determined by the number of turns; the compared number decreases at every even turn, but the limit is first reached at the right turn.")
c("C12", "proved", ["Ascot.C12.parse_spec", "Ascot.C12.parse_injective", "Ascot.C12.text_of_code", "Ascot.C12.text_injective"], "")

c("C13", "proved", ["Ascot.C13.gc_rejected", "Ascot.C13.gc_rejected_endcond", "Ascot.C13.trial_rejected",
  "Ascot.C13.ml_rejected"],
  "Guiding centers and field lines. The integrators are parameters; assumed: a rejecting integrator suggests "
  "a shorter step and no wall is hit by a segment of zero length. CPU time does advance.")
c("C14", "partial", ["Ascot.C14.gc_limits_partial", "Ascot.C14.gc_tie", "Ascot.C14.gc_limits_fail",
  "Ascot.C14.ml_limits_partial"],
  "Holds unless both limits are exceeded by the same factor; in that case the step is accepted (witness).")
c("C15", "partial", ["Ascot.C15.fo_pass", "Ascot.C15.fo_time", "Ascot.C15.gc_pass", "Ascot.C15.gc_time_partial",
  "Ascot.C15.gc_icrh_rejected", "Ascot.C15.gc_icrh_time", "Ascot.C15.gc_icrh_fails"],
  "Full orbit and guiding center without ICRH proved. With ICRH the claim is false: after a shortened "
  "step succeeds, time advances by the default step (witness).")
c("C16", "partial", ["Ascot.C16.gc_pass", "Ascot.C16.gc_direction_partial", "Ascot.C16.orbit_steps_negative_partial",
  "Ascot.C16.orbfol_off_forward"],
  "Proved with orbit following enabled. With it disabled the sign of the step is never restored and "
  "time moves forwards (witness).")
c("C17", "partial", ["Ascot.C17.reachable_partial", "Ascot.C17.generate_before_start", "Ascot.C17.clean_error_destroys"],
  "Proved for requests at or after the first stored time. An earlier request succeeds and makes the chain "
  "circular (witness); a failing clean frees the first slot (witness).")
c("C18", "proved", ["Ascot.C18.unique", "Ascot.C18.generate_again", "Ascot.C18.generate_values",
  "Ascot.C18.clean_values", "Ascot.C18.clean_succeeds"], "For all histories as in C17.")
c("C19", "proved", ["Ascot.C19.full", "Ascot.C19.free_slot"], "For all histories as in C17.")
c("C67", "proved", ["Ascot.C67.bridge"], "The random numbers and the square root are parameters.")
c("C20", "proved", ["Ascot.C20.partition", "Ascot.C20.consecutive", "Ascot.C20.balance"], "")
c("C21", "proved", ["Ascot.C21.gather_all"], "Message passing is assumed to be reliable and in order.")
c("C22", "proved", ["Ascot.C22.dist5D_good", "Ascot.C22.dist6D_good", "Ascot.C22.distRho5D_good",
  "Ascot.C22.distRho6D_good", "Ascot.C22.distCom_good"], "Array indices without overflow.")
c("C23", "proved", ["Ascot.C23.gc_update", "Ascot.C23.one_cell", "Ascot.C23.angle", "Ascot.C23.coords_gc",
  "Ascot.C23.coords_com_gc"],
  "Over an ordered field with floor in place of floating point; lanes are added one after another.")
c("C24", "partial", ["Ascot.C24.fo_update_partial", "Ascot.C24.fo_update_gpu", "Ascot.C24.fo_bounds",
  "Ascot.C24.outside_fails", "Ascot.C23.coords_5D_fo", "Ascot.C23.coords_6D_fo", "Ascot.C23.coords_com_fo"],
  "In the CPU build a running marker outside the grid uses an uninitialised index (witness). Proved if all "
  "running markers are inside, and without this condition for the GPU build.")
c("C25", "partial", ["Ascot.C25.within_partial", "Ascot.C25.cells", "Ascot.C25.nbin_eq", "Ascot.C25.alias_fails",
  "Ascot.C25.charge_fails"],
  "Markers outside an axis are counted in another cell, and five of the axes are not evaluated (witnesses).")
c("C26", "partial", ["Ascot.C26.sum_partial", "Ascot.C26.phi_fails", "Ascot.C26.com_fails"],
  "The toroidal bins of the 5D distribution are left out and the constants-of-motion distribution is not "
  "summed (witnesses).")
c("C68", "partial", ["Ascot.C68.gather_orbits", "Ascot.C176.memory_partial", "Ascot.C176.hybrid_violation", "Ascot.C176.field_line_violation"], "Proved for every array that is gathered, and so for all arrays of full orbits and guiding centres. Momenta and charges of hybrid runs are not gathered, and for field lines pointers that were never set are used (C176). Message passing is assumed to be reliable and in order.")
c("C27", "proved", ["Ascot.C27.interval_mode", "Ascot.C27.bounds"],
  "Over an ordered field in place of floating point; lanes one after another.")
c("C28", "partial", ["Ascot.C28.toroidal_partial", "Ascot.C28.poloidal_partial", "Ascot.C28.radial_partial",
  "Ascot.C28.surfaces", "Ascot.C28.poincare_ring", "Ascot.C28.plane_fails", "Ascot.C28.touch_fails",
  "Ascot.C28.radial_fo_fails", "Ascot.C28.radial_simmode_fails"],
  "Proved for steps below half a turn that do not end on the surface. Larger steps, steps that end on the surface, "
  "and radial surfaces in full-orbit mode give wrong records (witnesses).")
c("C29", "partial", ["Ascot.C29.advection_partial", "Ascot.C29.still_partial", "Ascot.C29.record_times",
  "Ascot.C29.advection_fails", "Ascot.C29.points_unused"],
  "The claim is false: with n averaged points the reported advection is (n-1)/n of the velocity, and points are "
  "dropped when the averaging length does not divide the record (witnesses). Proved: the exact value reported, and zero "
  "for a marker that does not move.")
c("C30", "proved", ["Ascot.C30.lookup", "Ascot.C30.cells", "Ascot.C30.path_contains", "Ascot.C30.on_plane", "Ascot.C30.near_partial"],
  "Exact contents for all trees and points off the dividing planes; initialisation and table read-back for every wall. "
  "near_partial adds that a triangle with a point in the cell is listed, for triangles not almost parallel to an axis or plane.")
c("C31", "proved", ["Ascot.C31.first", "Ascot.C31.full"],
  "Both searches. They differ for a step that begins on a triangle (C69.full_ignores_start).")
c("C32", "partial", ["Ascot.C32.sound", "Ascot.C32.complete_partial", "Ascot.C32.near", "Ascot.C32.inplane",
  "Ascot.C32.small_never", "Ascot.C32.not_complete"],
  "Soundness in full. Completeness is false for triangles whose normal is not longer than the tolerance (witness), "
  "and proved for all others.")
c("C69", "partial", ["Ascot.C69.no_miss_partial", "Ascot.C69.full_ignores_start"],
  "Proved for triangles and steps that are not almost parallel; the code's tests use tolerances outside of that.")
c("C33", "proved", ["Ascot.C33.nearest", "Ascot.C33.scan", "Ascot.C33.parallel_missed"],
  "For all polygons and steps; a step that runs along a segment is not reported by that segment (witness).")
c("C34", "partial", ["Ascot.C34.parity_partial", "Ascot.C34.crosses_spec", "Ascot.C34.start", "Ascot.C34.closed_list",
  "Ascot.C34.rectangle", "Ascot.C34.vertex_height_fails"],
  "Parity proved for points that are not at the height of a vertex, where the claim is false (witness: the centre of a "
  "diamond is outside). Independence of the first vertex holds without exception.")
c("C70", "partial", ["Ascot.C70.no_escape_partial", "Ascot.C70.same_side", "Ascot.C70.vertex_height_fails"],
  "Proved for end points that are not at the height of a vertex; false there (witness).")
c("C35", "partial", ["Ascot.C35.value1", "Ascot.C35.value2_partial", "Ascot.C35.value3", "Ascot.C35.domain_partial",
  "Ascot.C35.nodes1_partial", "Ascot.C35.nodes3_partial", "Ascot.C35.bounds1", "Ascot.C35.bounds2", "Ascot.C35.bounds3",
  "Ascot.C35.periodic1", "Ascot.C35.periodic3", "Ascot.C35.outside1", "Ascot.C35.outside3", "Ascot.C35.upper_end_fails",
  "Ascot.C35.upper_end3_fails", "Ascot.C35.init2D_fails"],
  "False at the last point of a non-periodic axis, where an element after the table is read (upper_end_fails, for every table), "
  "and for the two-dimensional initialisation, which does not store the boundary conditions (witness). Proved elsewhere.")
c("C36", "proved", ["Ascot.C36.natural_spline", "Ascot.C36.natural_spline_explicit", "Ascot.C36.unique", "Ascot.C36.tabulated", "Ascot.C36.on_axis",
   "Ascot.C36.derivative", "Ascot.C36.derivative2"],
  "For every table of two or more points (with a single point the solver leaves its work array: one_point_undefined), compact and explicit form, with value and both derivatives at every coordinate of the axis including its end.")
c("C37", "partial", ["Ascot.C37.periodic_spline_partial", "Ascot.C37.periodic_spline_explicit_partial", "Ascot.C37.unique", "Ascot.C37.tabulated",
   "Ascot.C37.on_periodic_axis", "Ascot.C37.periods", "Ascot.C37.two_points_undefined"],
  "Proved for three or more points and every coordinate. Finding: with two points the solver writes outside of its work array.")
c("C38", "partial", ["Ascot.C38.compact_eq_explicit", "Ascot.C38.compact_eq_explicit_3D", "Ascot.C38.compact_eq_explicit_2D_partial",
   "Ascot.C38.explicit_2D_periodic_reads_unwritten"],
  "One dimension: value, derivatives and errors. Three dimensions: value and errors. Two dimensions: if no axis is periodic. Finding: with a periodic axis the two-dimensional explicit form never writes the coefficients of the last cell of the period and reads them.")
c("C39", "proved", ["Ascot.C39.safe_1D", "Ascot.C39.safe_2D", "Ascot.C39.safe_3D"],
  "Value and derivative evaluations of the compact splines in one, two and three dimensions, all boundary conditions; exactly the coordinates outside are rejected.")
c("C71", "proved", ["Ascot.C71.spline_of_splines_2D", "Ascot.C71.spline_of_splines_3D", "Ascot.C71.tabulated_2D", "Ascot.C71.tabulated_3D",
   "Ascot.C71.exists_spline", "Ascot.C36.derivative", "Ascot.C36.derivative2"],
  "The evaluation expressions in the model are transcribed mechanically from the C source by tools/interp_forms.py.")
c("C40","proved",["Ascot.C40.full_period","Ascot.C40.visits_all","Ascot.C40.no_repetition","Ascot.C40.uniform_range","Ascot.C40.uniform_ends_occur"],"64-bit wrap-around arithmetic as in C. Finding: both 0 and 1 are returned as uniform numbers at some point of every sequence.")
c("C41","proved",["Ascot.C41.fills","Ascot.C41.overwrites"],"Exact arithmetic; the transformation x*sqrt(-2 log w / w) is a parameter.")
c("C72","proved",["Ascot.C72.rejection_ends","Ascot.C72.argument_range"],"Exact arithmetic for the uniform numbers (in double precision the ratio rounds).")
c("C55","partial",["Ascot.C55.rsearch_bracket_partial","Ascot.C55.glibc_conforms","Ascot.C55.repeated_value_not_found"],"Proved for strictly ascending tables and any bsearch that conforms to the C standard. Finding: with repeated values in the table a key inside of it may not be found.")
c("C56","proved",["Ascot.C56.unique_count","Ascot.C56.frame"],"")
c("C57","proved",["Ascot.C57.linspace_spec","Ascot.C57.linspace_one"],"Exact arithmetic.")
c("C58","proved",["Ascot.C58.ipow_spec","Ascot.C58.ipow_negative"],"Signed overflow is a separate outcome, shown to occur exactly when the power is not an int.")
c("C65","partial",["Ascot.C65.mixed_layout_partial","Ascot.C65.no_uniform_layout","Ascot.C65.row_vector_any"],"Finding: arguments are read by columns and the result is written by rows, so no single storage convention gives the product.")
c("C66","proved",["Ascot.C66.exact_to_degree_five"],"Proved up to degree five, in exact arithmetic.")
c("C73","partial",["Ascot.C73.off_plane_partial","Ascot.C73.never_on_plane"],"Finding: the function returns zero for every point, also for those of the plane.")
c("C74","proved",["Ascot.C74.barycentric_spec","Ascot.C74.barycentric_in_plane"],"")
c("C75","proved",["Ascot.C75.summary_spec","Ascot.C75.text_fits"],"For at least one marker. The error codes are integers that fit into int.")
c("C42","proved",["Ascot.C42.one_step","Ascot.C42.many_steps","Ascot.C42.with_modes","Ascot.C42.step_defined","Ascot.C42.rest_undefined"],"Exact arithmetic. Finding: a marker at rest gets an undefined momentum even with radiation reaction disabled.")
c("C43","proved",["Ascot.C43.kick_reversible","Ascot.C43.step_reversible","Ascot.C43.neutral_ballistic"],"Exact arithmetic, without radiation reaction for the reversal, away from R = 0.")
c("C44","proved",["Ascot.C44.xyz_round_trip","Ascot.C44.rpz_round_trip","Ascot.C44.rpz_round_trip_principal","Ascot.C44.vec_round_trips","Ascot.C44.vec_dot","Ascot.C44.vec_is_velocity"],"Exact arithmetic.")
c("C45","partial",["Ascot.C45.to_cylindrical","Ascot.C45.xyz_round_trip_partial","Ascot.C45.xyz_round_trip_iff","Ascot.C45.rpz_round_trip_partial","Ascot.C45.uniform_field_gets_gradient"],"Finding: the conversion of a gradient to Cartesian coordinates has two wrong signs, so the round trip holds only when the x component of the field vanishes.")
c("C46","proved",["Ascot.C46.gamma_ge_one","Ascot.C46.speed_gamma","Ascot.C46.momentum_velocity","Ascot.C46.energy","Ascot.C46.pitch_to_moment","Ascot.C46.moment_to_pitch","Ascot.C46.gamma_from_parallel_velocity","Ascot.C46.parallel_momentum","Ascot.C46.perpendicular_momentum","Ascot.C46.gyrolength_factor","Ascot.C46.gyrolength_p_vanishes"],"Exact arithmetic. Finding: the two gyroradius macros, which no source uses, are not the gyroradius.")
c("C76","partial",["Ascot.C76.off_partial","Ascot.C76.ignored_with_modes","Ascot.C76.parallel_motion_changes","Ascot.C76.zero_step_radiates"],"Findings: the time step is missing, the parallel part is divided by the momentum, and with MHD modes the setting has no effect. Proved: no effect on neutral markers and when disabled.")
c("C77","proved",["Ascot.C77.momentum_change","Ascot.C77.step_equations"],"Exact arithmetic, without radiation reaction.")
c("C47", "proved", ["Ascot.C47.momentum_round_trip", "Ascot.C47.position_round_trip", "Ascot.C47.guiding_center", "Ascot.C47.defined_iff"],
  "Real arithmetic. Defined exactly when the momentum is not parallel to the field and the field is not vertical; otherwise the C code divides by zero (finding).")
c("C78", "partial", ["Ascot.C78.curvature_partial", "Ascot.C78.curvature_of_curl_parallel", "Ascot.C78.curvature_wrong", "Ascot.C78.contractions", "Ascot.C78.uniform_exact_partial", "Ascot.C78.uniform_wrong"],
  "Curvature is right only when the current is parallel to the field (the exact difference is b x curl B / B); the uniform-field case holds only where Bx = 0. Both failures are shown by witnesses. The gyrophase gauge term is modelled but not specified.")
c("C48","proved",["Ascot.C48.energy_balance","Ascot.C48.energy_conserved","Ascot.C48.mu_conserved","Ascot.C48.mhd_energy_balance"],"The equations of motion as differential equations over the reals, for arbitrary differentiable fields.")
c("C49","proved",["Ascot.C49.classical_order","Ascot.C49.cashKarp_order5","Ascot.C49.cashKarp_order4","Ascot.C49.rk4_is_step","Ascot.C49.cashKarp_is_step","Ascot.C49.rk4_exact","Ascot.C49.rk5_exact","Ascot.C49.estimate_zero","Ascot.C49.errGc_zero","Ascot.C49.errMl_zero","Ascot.C49.rk4_linear","Ascot.C49.cashKarp_linear","Ascot.C49.accepted_iff","Ascot.C49.accepted_ml_iff","Ascot.C49.nextGc_accepted","Ascot.C49.nextGc_rejected","Ascot.C49.nextGc_sign","Ascot.C49.nextGc_antitone","Ascot.C49.nextMl_accepted","Ascot.C49.nextMl_rejected","Ascot.C49.nextGc_backward","Ascot.C49.nextMl_unbounded","Ascot.C49.estimate_depends_on_angle"],"Order conditions for all rooted trees; exactness for polynomials and the exponential series for linear systems. Findings: the cap on the next step works the wrong way for backward steps, field-line steps have no cap, the error estimate depends on the origin of the toroidal angle.")
c("C79","proved",["Ascot.C79.ptoroid_conserved"],"Real arithmetic, differentiable fields.")
c("C80","partial",["Ascot.C80.bstar_is","Ascot.C80.quiet_partial","Ascot.C80.quiet_wrong"],"Finding: with modes enabled the second component of the effective field is computed from the wrong component of grad B x B, so a silent mode changes the motion unless that term vanishes.")
c("C64","partial",["Ascot.C64.direction_partial","Ascot.C64.direction_lost","Ascot.C64.always_along"],"Finding: input markers with negative pitch are traced along the field, because the input conversion stores pitch >= 0 (0 or 1) and the state conversion tests this number for >= 0. Proved for non-negative pitch and for markers that are taken out of and put back into the simulation.")
c("C81","partial",["Ascot.C81.rk4_outcome","Ascot.C81.rk4_mhd_outcome","Ascot.C81.cashkarp_outcome","Ascot.C81.not_running","Ascot.C81.mhd_gyroangle","Ascot.C81.mhd_negative_radius","Ascot.C81.rejected_step_stops_marker"],"Proved for the fixed step and the adaptive step without modes. Findings: a trial step that would be rejected can stop the marker with an error; the adaptive step with modes stores an uninitialised gyroangle and accepts negative radii; the fixed step with modes compares the magnetic moment with the speed of light.")
c("C82","partial",["Ascot.C82.gc_partial","Ascot.C82.gc_adaptive_partial","Ascot.C82.fo_partial","Ascot.C82.ml_partial","Ascot.C82.initial_points","Ascot.C82.moving_axis_wrong"],"Proved for an axis that does not depend on the toroidal angle. Finding: for a moving axis both positions are related to the axis at the new toroidal angle, so the angle drifts away from the direction.")
c("C83","partial",["Ascot.C64.tangent_unit","Ascot.C64.reversed","Ascot.C64.step_keeps","Ascot.C64.stepMhd_keeps","Ascot.C64.failure_unreported","Ascot.C64.kicked_step"],"Finding: no failure is ever reported; a failed flux label silently becomes one, other failures lead to uninitialised variables (undefined outcome in the model).")
c("C63","partial",["Ascot.C63.psi_result","Ascot.C63.psi_dpsi_result","Ascot.C63.B_result","Ascot.C63.B_dB_result","Ascot.C63.rho_drho_result","Ascot.C63.axis_result","Ascot.C63.unknown_type","Ascot.C63.rho_result_partial","Ascot.C63.rho_ends","Ascot.C63.rho_derivative_partial","Ascot.C63.rho_derivative_axis","Ascot.C63.rho_degenerate"],"Fallback or selected value, for every function of the interface. Findings: at the axis the derivative of rho is infinite without an error; if the flux at the axis equals that at the separatrix, rho is not a number without an error. Spline evaluation is a parameter.")
c("C84","partial",["Ascot.C84.psi_defined","Ascot.C84.same_psi","Ascot.C84.psi_gradient_partial","Ascot.C84.psi_gradient_at_R0","Ascot.C84.psi_gradient_wrong","Ascot.C84.field_from_flux","Ascot.C84.toroidal","Ascot.C84.toroidal_ripple","Ascot.C84.same_field","Ascot.C84.jacobian_smooth","Ascot.C84.jacobian_ripple","Ascot.C84.divergence_free","Ascot.C84.divergence_ripple","Ascot.C84.divergence_wrong","Ascot.C84.grad_shafranov","Ascot.C84.tangent","Ascot.C84.rho_gradient_partial","Ascot.C84.ripple_symmetric","Ascot.C84.ripple_midplane_partial","Ascot.C84.ripple_midplane_wrong"],"Findings: the gradients of the flux and of rho have an extra factor R0/R; the ripple is centred at twice the midplane height; the rippled field has a divergence. The rest holds for all coefficients and positions.")
c("C85","partial",["Ascot.C85.field","Ascot.C85.gradient_partial","Ascot.C85.gradient_iff","Ascot.C85.gradient_uniform","Ascot.C85.gradient_wrong"],"Finding: the gradient evaluation returns the field at the origin and phi-derivatives computed from it; gradient_iff says exactly where this is right.")
c("C86","proved",["Ascot.C86.b2_jacobian","Ascot.C86.b3_jacobian","Ascot.C86.sts_jacobian","Ascot.C86.b2_divergence","Ascot.C86.b3_divergence","Ascot.C86.b2_tangent","Ascot.C86.nonzero","Ascot.C86.zero_field","Ascot.C86.rho_consistent","Ascot.C86.at_axis"],"Assumes that the splines return derivatives of their values at the point (Smooth2, Smooth3). Findings: the test field may be zero without an error; at the axis the evaluation with gradient gives no number without an error (2DS, 3DS) or an error (STS), while the evaluation from the flux gives zero.")
c("C50","proved",["Ascot.C50.react_bounds","Ascot.C50.probabilities","Ascot.C50.step_division","Ascot.C50.rates_nonneg","Ascot.C50.fo_step","Ascot.C50.unsupported","Ascot.C50.run_invariant"],"Charges are multiples of the elementary charge; cast of the rounded charge to int assumed in range.")
c("C54","partial",["Ascot.C54.offset_always_zero","Ascot.C54.first_reaction_partial","Ascot.C54.second_reaction_wrong","Ascot.C54.error_lost"],"Violated by the code: every reaction is built from the start of the packed data, so only the first reaction holds its own block; errors of all but the last reaction are lost.")
c("C62","partial",["Ascot.C62.defined_iff","Ascot.C62.error_iff_partial","Ascot.C62.neon_undefined","Ascot.C62.vanishing_impurity_undefined","Ascot.C62.carbon_five_undefined","Ascot.C62.four_hydrogen_undefined"],"Violated by the code: the exact set of compositions without out-of-bounds access is proved, with witnesses outside it.")
c("C87","partial",["Ascot.C87.nonneg","Ascot.C87.error_zero","Ascot.C87.missing_error","Ascot.C87.sigma_value","Ascot.C87.sigmav_value","Ascot.C87.cx_sum","Ascot.C87.cx_error","Ascot.C87.bms_mean_partial","Ascot.C87.bms_counts_isotopes_twice","Ascot.C87.bms_missing_species_silent","Ascot.C87.bms_sigmav_agree_partial","Ascot.C87.bms_sigmav_disagree"],"The beam-stopping part holds only if each ion species has exactly one entry; the code counts the tables of several isotopes repeatedly and ignores species without data.")
c("C88","proved",["Ascot.C88.order_irrelevant","Ascot.C88.split_irrelevant"],"Splitting as long as the longer list fits in the local arrays.")
c("C89","partial",["Ascot.C89.ionisation_law","Ascot.C89.charge_exchange_law","Ascot.C89.decay_measure","Ascot.C89.neutral_identity_ignored","Ascot.C89.neutral_identity_partial","Ascot.C89.more_neutrals_undefined","Ascot.C89.wrong_neutral"],"The decay law is proved; the identity of the neutral species is taken from the plasma ions, so the rate is right only if both lists agree.")
c("C51","partial",["Ascot.C51.euler_partial","Ascot.C51.milstein_partial","Ascot.C51.small_steps","Ascot.C51.reflectXi_le_iff","Ascot.C51.reflectV_ge","Ascot.C51.pitch_escapes","Ascot.C51.mark_milstein"],"The bound on the speed holds for all random numbers. Finding: the pitch leaves its bounds if it exceeds three in size before the mirror, and the marker then has a negative magnetic moment without an error; the exact condition is proved.")
c("C90","proved",["Ascot.C90.derivatives","Ascot.C90.einstein","Ascot.C90.friction","Ascot.C90.same_drift","Ascot.C90.maxwellian_speed","Ascot.C90.isotropic_pitch","Ascot.C90.maxwellian"],"Coulomb logarithms held fixed; the error function is defined by its integral.")
c("C91","partial",["Ascot.C51.coefficients_nonneg","Ascot.C51.coefs_eq","Ascot.C51.negative_logarithm"],"Proved for non-negative Coulomb logarithms. Finding: in a dense, cold plasma the logarithm is negative and the step takes the square root of a negative number without an error.")
c("C92","proved",["Ascot.C92.euler_perpendicular","Ascot.C92.milstein_perpendicular"],"Includes the size of the displacement.")
c("C93","partial",["Ascot.C92.euler_switches_partial","Ascot.C92.milstein_switches_partial","Ascot.C92.flow_changes_momentum","Ascot.C51.flow_violation","Ascot.C94.fo_ignores_switches","Ascot.C94.fo_changes"],"Proved for guiding centers in a plasma at rest. Findings: in a flowing plasma the parallel momentum changes even with everything switched off; the full-orbit operator ignores the switches.")
c("C94","proved",["Ascot.C94.fo_step","Ascot.C94.gc_euler_step","Ascot.C94.gc_milstein_step"],"With tabulated special functions off, as mccc_init sets it; Coulomb logarithms held fixed within a step.")
c("C95","proved",["Ascot.C95.suggest_controlled","Ascot.C95.milstein_controlled","Ascot.C95.estimates_scale"],"")
c("C52", "partial", ["Ascot.C52.cases", "Ascot.C52.linear_partial", "Ascot.C52.tabulated_partial", "Ascot.C52.last_point_rejected", "Ascot.C52.flow_is_a_step"],
  "Linear interpolation of density and temperature, one by one or together, and an error outside, for every table. The property fails at the last grid point, where there is data but an error is returned (last_point_rejected). The flow is not interpolated (flow_is_a_step).")
c("C96", "partial", ["Ascot.C96.temperature_partial", "Ascot.C96.electrons_only_partial", "Ascot.C96.outside", "Ascot.C96.flow_tabulated_partial", "Ascot.C96.ion_density_is_electron_density", "Ascot.C96.last_interval_not_interpolated", "Ascot.C96.early_time_undefined", "Ascot.C96.flow_weights_exchanged", "Ascot.C96.density_wrong", "Ascot.C96.flow_wrong"],
  "Temperatures (and densities without ions) are bilinear in all but the last time interval and constant after the last time. Violations proved: densities are stored and read in different orders, the last interval is not interpolated, times before the first read outside of the array, the flow exchanges the weights of radius and time.")
c("C97", "partial", ["Ascot.C97.spline_profiles", "Ascot.C97.positive_and_tabulated", "Ascot.C97.SplineOf.tabulated", "Ascot.C97.flow_error_lost"],
  "Full for densities and temperatures. For the flow the error outside of the grid is lost (flow_error_lost).")
c("C98", "partial", ["Ascot.C98.agree", "Ascot.C98.defined_from_first_time", "Ascot.C98.unknown_type"],
  "Full for the three kinds of plasma data that exist, for time-dependent profiles from the first time on (earlier times are undefined behaviour, see C96). For an unknown kind the evaluation of one species reports no error (unknown_type).")
c("C53", "partial", ["Ascot.C53.continued_iff", "Ascot.C53.continued_result", "Ascot.C53.not_continued_partial", "Ascot.C53.independent_partial",
  "Ascot.C53.depends_on_others", "Ascot.C53.rhomax_prevents_handover"],
  "Which markers are continued and what becomes of the others, for all schedules of the second stage. The second half of the property fails: the hand-over bit of a marker that is not continued is taken off only if some other marker is continued (depends_on_others). With rhomax enabled no marker is handed over (rhomax_prevents_handover).")
c("C60", "partial", ["Ascot.C60.markers", "Ascot.C60.mean_energy", "Ascot.C60.power_partial", "Ascot.C60.power_lost"],
  "Numbers, slots and identifiers hold for all powers. The power is carried by every injector that gets at least one marker; the power of an injector whose share rounds to zero is lost (power_lost).")
c("C99", "partial", ["Ascot.C99.normals_orthonormal", "Ascot.C99.deflect_spec", "Ascot.C99.start", "Ascot.C99.marker", "Ascot.C99.beamlet_out_of_bounds", "Ascot.C99.never_ends"],
  "For random numbers below one and beams that reach the field data. A uniform number equal to one selects a beamlet outside of the array (beamlet_out_of_bounds); a beam that misses the field data makes the search for the field run forever (never_ends).")
c("C100", "proved", ["Ascot.C100.straight", "Ascot.C100.attenuation", "Ascot.C100.ionised_iff", "Ascot.C100.survives_iff", "Ascot.C100.law"],
  "In exact arithmetic, for paths that do not touch the axis of the torus.")
c("C101", "partial", ["Ascot.C100.ends", "Ascot.C101.end_conditions", "Ascot.C101.wall_end", "Ascot.C101.shine_iff", "Ascot.C101.wall_ignored", "Ascot.C101.passes_through_wall", "Ascot.C101.final_time", "Ascot.C101.wall_time"],
  "Ends and end conditions hold. The wall is only looked at after the neutral has left the plasma: one that misses the plasma passes through every wall (wall_ignored, passes_through_wall). The final time counts the whole of the last step although the position is that of the wall (wall_time).")
c("C59", "partial", ["Ascot.C59.selection", "Ascot.C59.momentum_partial", "Ascot.C59.momentum_bins", "Ascot.C59.energy_pitch_bins", "Ascot.C59.parallel_outside", "Ascot.C59.pitch_outside", "Ascot.C59.one_unset", "Ascot.C59.flux_cell_outside"],
  "Bins are selected with probability proportional to their content. The momentum is the centre of the selected bin if both momentum axes have the same number of bins (momentum_partial); in general the parallel bin is wrong (momentum_bins, parallel_outside), the pitch is taken from the energy index (energy_pitch_bins, pitch_outside), a random number equal to one leaves the momentum unset (one_unset), and distributions in flux coordinates are read outside of the array (flux_cell_outside).")
c("C61", "partial", ["Ascot.C61.reactants_spec", "Ascot.C61.momentum", "Ascot.C61.energy", "Ascot.C61.relative_energy", "Ascot.C61.isotropic", "Ascot.C61.reported_momentum", "Ascot.C61.reported_energy", "Ascot.C61.too_much_energy"],
  "Proved for the velocities and for the reported momenta. In the energy/pitch basis the relativistic energy of the classically computed velocity is reported, so that the reported energies exceed the available energy (too_much_energy).")
c("C102", "partial", ["Ascot.C102.collected", "Ascot.C102.bin", "Ascot.C102.no_overlap", "Ascot.C102.no_race", "Ascot.C102.rate", "Ascot.C102.below_range"],
  "For products that are not below the range of the momentum axes; for those the conversion of a negative number to an unsigned one is undefined (below_range). The random generator shared by the threads is not modelled.")
c("C103", "proved", ["Ascot.C103.energy", "Ascot.C103.maxwellian", "Ascot.C103.mean_energy", "Ascot.C103.sampled"],
  "For real random numbers; a random number that is exactly zero (infinite energy in C) has probability zero in the model.")
c("C104", "proved", ["Ascot.C104.charge", "Ascot.C104.valid", "Ascot.C104.cross_section", "Ascot.C104.joined", "Ascot.C104.reactivity", "Ascot.C104.reactivity_fails", "Ascot.C104.mass_defect", "Ascot.C104.unknown"],
  "The reactivity of DD_He3n is positive up to 900 keV; far above the range of the fit it is not a number (reactivity_fails).")
c("C105", "partial", ["Ascot.C105.density1_partial", "Ascot.C105.temperature1_partial", "Ascot.C105.single", "Ascot.C105.outside1_partial", "Ascot.C105.density3_partial", "Ascot.C105.temperature3_partial", "Ascot.C105.outside3_partial", "Ascot.C105.species_fails", "Ascot.C105.fallback_fails", "Ascot.C105.unknown", "Ascot.C105.species", "Ascot.C105.free_partial", "Ascot.C105.free_fails"],
  "Holds for one species. With several, each species gets the table of the first one (species_fails), only the first has the fallback value outside the grid (fallback_fails) and releasing frees the first table twice (free_fails).")
c("C106", "partial", ["Ascot.C106.radial_partial", "Ascot.C106.perpendicular", "Ascot.C106.outside", "Ascot.C106.uniform", "Ascot.C106.unknown", "Ascot.C106.reff_fails"],
  "The radial field is minus the gradient for an effective minor radius of 1; other values are ignored (reff_fails).")
c("C107", "partial", ["Ascot.C107.inside", "Ascot.C107.values", "Ascot.C107.poloidal", "Ascot.C107.toroidal_partial", "Ascot.C107.outside", "Ascot.C107.nu_sign_fails", "Ascot.C107.toroidal_fails", "Ascot.C107.init_fails"],
  "The derivatives with respect to phi are right for axisymmetric fields only (toroidal_fails); the sign of nu is opposite to the documented one (nu_sign_fails); an error in setting up the nu spline is lost (init_fails).")
c("C108", "proved", ["Ascot.C108.functions", "Ascot.C108.stationary", "Ascot.C108.time_dependent", "Ascot.C108.superposition", "Ascot.C108.outside", "Ascot.C108.fields", "Ascot.C108.no_perturbation", "Ascot.C108.errors"],
  "With respect to the Boozer coordinates and derivatives that C107 is about; B does not depend on time.")
c("C109", "partial", ["Ascot.C109.unphysical", "Ascot.C109.accepted", "Ascot.C109.identified", "Ascot.C109.particle", "Ascot.C109.guiding_center", "Ascot.C109.guiding_center_particle_partial", "Ascot.C109.field_line", "Ascot.C109.accepts", "Ascot.C109.accepts_particle", "Ascot.C109.accepts_line", "Ascot.C109.parallel_fails", "Ascot.C109.along_fails", "Ascot.C109.edge_fails", "Ascot.C109.edge_witness"],
  "Violated for markers along the field: a charged guiding center with pitch 1 or -1 (first order), or a particle with momentum along the field, passes all tests and gets coordinates that are not numbers (parallel_fails, along_fails).  The energy of the particle of a guiding center is the given one only if the field is equally strong at both positions (zeroth order); if the field cannot be evaluated at the particle position the error is ignored and the momentum belongs to a field of 1 T (edge_fails, edge_witness).  The direction of field lines is in C64.")
c("C110", "partial", ["Ascot.C110.refused", "Ascot.C110.state_to_fo", "Ascot.C110.state_to_gc", "Ascot.C110.state_to_ml", "Ascot.C110.fo_to_state", "Ascot.C110.fo_to_state_center", "Ascot.C110.gc_to_state", "Ascot.C110.gc_to_state_particle", "Ascot.C110.ml_to_state", "Ascot.C110.fo_round_trip", "Ascot.C110.gc_round_trip", "Ascot.C110.particle_unchanged", "Ascot.C110.center_unchanged", "Ascot.C110.line_unchanged", "Ascot.C110.particle_round_trip_partial", "Ascot.C110.direct_agrees", "Ascot.C110.direct_ok", "Ascot.C110.direct_failed", "Ascot.C110.direct_theta_partial", "Ascot.C110.theta_fails", "Ascot.C110.theta_witness", "Ascot.C110.stored_field_fails", "Ascot.C110.momentum_bound", "Ascot.C110.direct_theta_fails"],
  "The round trip of a particle through the guiding center is exact at zeroth order in uniform fields only.  Violated for the poloidal angle: that of a guiding center is used for the full orbit (theta_fails, theta_witness), and the direct conversion in three-dimensional fields takes the axis at a stale toroidal angle (direct_theta_fails).  Errors of field lines are lost, see C10.")
c("C111", "partial", ["Ascot.C111.sound", "Ascot.C111.reach", "Ascot.C111.complete_partial", "Ascot.C111.complete_monotone_partial", "Ascot.C111.complete_lipschitz_partial", "Ascot.C111.missed"],
  "Soundness is proved in full.  Completeness holds if rho stays below the asked value before the surface and above it beyond; with an X-point on the ray a surface inside the plasma is never found (missed).")
c("C112", "partial", ["Ascot.C112.found", "Ascot.C112.near_axis", "Ascot.C112.ascent_mirror", "Ascot.C112.descends", "Ascot.C112.converges", "Ascot.C112.counted", "Ascot.C112.endless", "Ascot.C112.padding_fails", "Ascot.C112.padding_refused", "Ascot.C112.sector", "Ascot.C112.found_3d", "Ascot.C112.not_along_gradient", "Ascot.C112.misses_3d", "Ascot.C112.climbs_3d"],
  "Violated: the returned psi lies on the wrong side of the flux at the position, so that rho is refused there (padding_fails, padding_refused); the 3D version steps in phi without the factor 1/R and is not a descent along the gradient (not_along_gradient): it oscillates past the axis or climbs (misses_3d, climbs_3d); with an iteration limit of zero or less it need not end (endless).")
c("C113", "proved", ["Ascot.C113.distinct", "Ascot.C113.pointwise", "Ascot.C113.field", "Ascot.C113.rho", "Ascot.C113.rhotheta", "Ascot.C113.electric", "Ascot.C113.mhd", "Ascot.C113.background", "Ascot.C113.coll_stores", "Ascot.C113.untouched", "Ascot.C113.guiding_centre", "Ascot.C113.full_orbit", "Ascot.C113.sums_exist"],
  "Output arrays are assumed not to overlap and to be large enough; the rates and neutral densities are in C114.")
c("C114", "partial", ["Ascot.C114.same_energy", "Ascot.C114.charge_exchange_partial", "Ascot.C114.beam_stopping_partial", "Ascot.C114.beam_stopping_wrong", "Ascot.C114.neutrals_overflow", "Ascot.C114.neutral_density_partial"],
  "Violated for beam stopping: the density array handed over starts with the electrons, so that with impurities the result differs from the rate in the simulation (beam_stopping_wrong); it agrees for one ion species with the electron density.  With two neutral species an array of one element is overrun (neutrals_overflow).")
c("C115", "proved", ["Ascot.C115.safety_factor", "Ascot.C115.pitch", "Ascot.C115.jacobian", "Ascot.C115.jacobian_b2", "Ascot.C115.flux_function"],
  "At a point where the gradients are those returned for the coordinates (C107).")
c("C116", "partial", ["Ascot.C116.segment_eq", "Ascot.C116.biot_savart_partial", "Ascot.C116.no_divergence_partial", "Ascot.C116.on_extension", "Ascot.C116.square_fails"],
  "Off the lines through the segments, for neighbouring coil points that differ.  Violated on the extension of a segment, where it contributes nothing by the law but the code divides zero by zero (on_extension, square_fails).")
c("C117", "proved", ["Ascot.C117.integer_options", "Ascot.C117.real_options", "Ascot.C117.turn_options", "Ascot.C117.distributions", "Ascot.C117.needed_present", "Ascot.C117.complete", "Ascot.C117.orbit_options"],
  "Documented meaning in Spec/OptionDoc.lean.  The poloidal and toroidal planes are in C119, the switches of the end conditions in C118.")
c("C118", "partial", ["Ascot.C118.switches", "Ascot.C118.both_flag", "Ascot.C118.gc_stops", "Ascot.C118.gc_stops_partial", "Ascot.C118.both_limits_wrong"],
  "Violated: the request for both orbit limits (ENDCOND_MAXORBS = 2) is ignored, since the option read last is tested instead; ENDCOND_IONIZED = 2 has that effect (both_limits_wrong, both_flag).  gc_stops states what the code does in all cases.")
c("C119", "partial", ["Ascot.C119.planes_partial", "Ascot.C119.negative_off", "Ascot.C119.thirty_undefined", "Ascot.C119.thirty_wrong", "Ascot.C119.filler_wrong"],
  "Violated for 30 planes, where the number of planes is never set, for more than 30, where the array overflows (thirty_undefined, thirty_wrong), and for planes equal to the filler value 361 degrees or 1000 (filler_wrong).")
c("C120", "partial", ["Ascot.C120.particles", "Ascot.C120.particles_needed", "Ascot.C120.guiding_centers", "Ascot.C120.field_lines", "Ascot.C120.kind", "Ascot.C120.missing", "Ascot.C120.write_read_partial", "Ascot.C120.write_violation"],
  "Reading is proved in full.  Violated for writing: the Lorentz factor divides by the mass instead of its square, so that a fast particle is written with a velocity above that of light (write_violation); all but the momentum survives (write_read_partial).")
c("C121", "proved", ["Ascot.C121.state", "Ascot.C121.errors", "Ascot.C121.empty"],
  "Documented quantities and units in Spec/OutputDoc.lean; charges are assumed to be multiples of the elementary charge.")
c("C122", "proved", ["Ascot.C122.orbits", "Ascot.C122.interval", "Ascot.C122.nothing"],
  "interval joins the file with the recording (C27); numbers of markers and charge numbers are assumed to fit an int. Runs with several processes are in C176.")
c("C123", "proved", ["Ascot.C123.coefficients", "Ascot.C123.nothing"],
  "The evaluation of the coefficients is C29. Runs with several processes are in C176.")
c("C124", "partial", ["Ascot.C124.query_partial", "Ascot.C124.select_partial", "Ascot.C124.unknown", "Ascot.C124.aborted_violation", "Ascot.C124.names_spec", "Ascot.C124.summary_partial", "Ascot.C124.module_names", "Ascot.C124.summary_violation", "Ascot.C124.summary_sites"],
  "Violated for markers with errors: they are shown as NONE whatever ended them, never as ABORTED (aborted_violation); the summary raises an exception if an error came from the evaluation of atomic reactions or the beam-stopping coefficients (summary_violation, summary_sites).")
c("C125", "partial", ["Ascot.C125.names", "Ascot.C125.si_gc", "Ascot.C125.gc", "Ascot.C125.fo_partial", "Ascot.C125.one_cell"],
  "Guiding centers and field lines in full.  For full orbits only markers inside the grid: those outside may be added to cells they are not in (C24.outside_fails).  The unit of the ordinate is not covered; it is that of a density although the numbers are sums of weights.")
c("C126", "partial", ["Ascot.C126.abscissa_partial", "Ascot.C126.cells", "Ascot.C126.cells_back", "Ascot.C126.inCell", "Ascot.C126.update_partial", "Ascot.C126.moment_violation", "Ascot.C126.ptor_violation"],
  "Violated for the magnetic moment, written in J/T with the unit T/eV, and the toroidal angular momentum, written with the unit of a momentum.")
c("C127", "partial", ["Ascot.C127.groups_partial", "Ascot.C127.begin_active", "Ascot.C127.overlap_violation", "Ascot.C127.activate_violation", "Ascot.C127.qid_violation"],
  "Proved for histories in which every run is the active one whenever it writes and QIDs are not shared.  Violated otherwise: programs look up their group by the attribute active, so that results of runs that overlap in time are mixed up (overlap_violation), also when the user activates another run (activate_violation), and runs of different programs with the same QID (qid_violation).")
c("C128", "proved", ["Ascot.C128.chosen", "Ascot.C128.reads_iff", "Ascot.C128.recorded", "Ascot.C128.args_given", "Ascot.C128.again", "Ascot.C128.bbnbi_again_violation"],
  "The readers of the separate inputs are a parameter.  bbnbi5 has no arguments for neutral gas, atomic data and options, so its runs cannot be repeated from the record (bbnbi_again_violation); the property does not claim it.")
c("C129", "proved", ["Ascot.C129.files", "Ascot.C129.same"], "Names that fit the arrays of 256 characters.")
c("C130", "partial", ["Ascot.C130.serial", "Ascot.C130.split_partial", "Ascot.C130.split_violation", "Ascot.C130.taken_violation", "Ascot.C130.rank_violation"],
  "In full for one process.  Violated when a run is split: each process prints the summary for all markers from an array that has only its own (split_violation).  A failure to make the run group leads to a double free (taken_violation); ranks are not checked (rank_violation).  Conversion of markers, simulation and diagnostics are parameters, see C109, C01-C19, C22-C29.")
c("C131", "partial", ["Ascot.C131.grid_partial", "Ascot.C131.spline", "Ascot.C131.broken_refused", "Ascot.C131.flow_violation", "Ascot.C131.time_temperature_partial", "Ascot.C131.time_density_violation"],
  "In full for splines.  On a grid the rotation is not interpolated (flow_violation) and the last point is rejected (C52).  For profiles that depend on time, densities are assigned to other species and times (time_density_violation), see also C96.")
c("C132", "partial", ["Ascot.C132.grid_partial", "Ascot.C132.spline_partial", "Ascot.C132.spline_violation", "Ascot.C132.time_violation"],
  "In full for profiles on a grid.  With splines the charges of the ions are left out (spline_violation).  For profiles that depend on time the report reads outside of the table, also for the plasma of create_dummy (time_violation).")
c("C133", "partial", ["Ascot.C133.uniform", "Ascot.C133.uniform_refused", "Ascot.C133.radial_partial", "Ascot.C133.radial_refused", "Ascot.C133.reff_violation", "Ascot.C133.threeD_violation"], "In full for constant fields.  For potentials on a grid in rho with effective minor radius one: other radii have no effect (reff_violation).  Fields on grids in R, phi and z are written, and refused by the program (threeD_violation).")
c("C134", "partial", ["Ascot.C134.rho_partial", "Ascot.C134.rpz_partial", "Ascot.C134.species_violation", "Ascot.C134.maxwellian_violation"], "For the first species and those with the same tables, at points below the last grid point.  A second species gets the values of the first (species_violation).  The documented array argument maxwellian is refused for two species (maxwellian_violation).")
c("C135", "partial", ["Ascot.C135.contour", "Ascot.C135.triangles_partial", "Ascot.C135.refused", "Ascot.C135.empty_violation"], "In full for contours.  For triangles within the tolerances of the intersection test, as in C31.  A wall without elements is written, and reading it is undefined behaviour (empty_violation).")
c("C136", "partial", ["Ascot.C136.deposition", "Ascot.C136.counts", "Ascot.C136.total", "Ascot.C136.kept", "Ascot.C136.flagged", "Ascot.C136.mesh", "Ascot.C136.figures", "Ascot.C136.incidence_partial", "Ascot.C136.incidence_violation"], "In full except for the angle of incidence, proved for markers at one toroidal angle.  The toroidal angles are not sorted along with the momenta, so that other angles are wrong (incidence_violation).")
c("C137", "partial", ["Ascot.C137.converted", "Ascot.C137.watertight", "Ascot.C137.strip", "Ascot.C137.contour_elements", "Ascot.C137.triangle", "Ascot.C137.nodes", "Ascot.C137.outline_violation"], "In full except for the outline: the smallest and the largest radius are returned in the wrong order (outline_violation).  watertight for three or more vertices and sectors.")
c("C138", "partial", ["Ascot.C138.axisymmetric", "Ascot.C138.three_dimensional", "Ascot.C138.stellarator", "Ascot.C138.values2_unique", "Ascot.C138.values3_unique", "Ascot.C138.values2_grid", "Ascot.C138.values3_grid", "Ascot.C138.cartesian", "Ascot.C138.analytic", "Ascot.C138.axis_found_partial", "Ascot.C138.refused", "Ascot.C138.incomplete_not_read", "Ascot.C138.axis_found_violation", "Ascot.C138.separatrix_violation", "Ascot.C138.axis_omitted_violation", "Ascot.C138.ripple_moved_violation", "Ascot.C138.equilibrium_component_violation", "Ascot.C138.time_dependent_violation"], "In full for B_2DS, B_3DS, B_STS and B_TC, and for B_GS with axis and fluxes given.  With the axis left to be found, for z0 = 0: otherwise it is stored without z0 (axis_found_violation) and the flux of the separatrix is overwritten (separatrix_violation); with the axis omitted it is at the origin (axis_omitted_violation).  The ripple is moved by z0 twice (ripple_moved_violation).  The documentation of B_STS asks for br and bz without the equilibrium component, which is never added (equilibrium_component_violation).  B_3DST is written but cannot be read (time_dependent_violation).")
c("C139", "proved", ["Ascot.C139.one_dimension", "Ascot.C139.two_dimensions", "Ascot.C139.three_dimensions", "Ascot.C139.inside", "Ascot.C139.axisymmetric", "Ascot.C139.three_dimensional", "Ascot.C139.stellarator", "Ascot.C139.flux_field"],
  "Derivatives are those within the domain, one-sided at its edges; over the reals.  The assumptions that C86 makes about the splines are met by every field that the initialisation sets up.")
c("C140", "partial", ["Ascot.C140.stationary", "Ascot.C140.time_dependent", "Ascot.C140.refused", "Ascot.C140.phases_violation", "Ascot.C140.one_radius_violation"],
  "Proved from the arguments of the writers to the evaluated potentials.  Findings: the numbers of amplitudes, frequencies and phases are not checked, so that a wrong number leaves an unreadable group in the file; a grid with one radius is accepted and then undefined in the program.")
c("C141", "partial", ["Ascot.C141.transformation", "Ascot.C141.tabulated", "Ascot.C141.identity", "Ascot.C141.refused", "Ascot.C141.offset_violation", "Ascot.C141.few_angles_violation"],
  "Proved from the arguments of the writer to the evaluated coordinates if the angle of every row begins at 0 and ends at 2 pi.  Findings: the documentation only asks for rows that grow by 2 pi, but with another first value the padding is wrong and so is the angle between the points of the table; fewer than five angles leave an unreadable group in the file.  The derivative along phi is that of C107.")
c("C142", "partial", ["Ascot.C142.first_reaction_partial", "Ascot.C142.evaluation_partial", "Ascot.C142.second_reaction_violation", "Ascot.C142.refused", "Ascot.C142.mass_numbers_violation"],
  "Proved from the arguments of the writer to the evaluated data for the first reaction of a file; species, types and axes for all.  Findings: the position in the packed array starts again at the beginning for every reaction, so all reactions but the first are evaluated with the data of the first; the writer does not check the sizes of all of its arrays and can leave an unreadable group in the file.")
c("C143", "proved", ["Ascot.C143.injectors", "Ascot.C143.markers", "Ascot.C143.checked", "Ascot.C143.refused", "Ascot.C143.args_of_construct"],
  "From the arguments of the Python class to the injectors of the simulation and the markers they inject, for any number of injectors.")
c("C144", "partial", ["Ascot.C144.geometry_partial", "Ascot.C144.numbers", "Ascot.C144.returns", "Ascot.C144.focal_length_violation", "Ascot.C144.tanz_violation"],
  "Proved: position, tangency radius, grid, aim at a common focus, tilt.  Findings: with a tilt the focus is further away than the focal length, by the inverse of the cosine of the tilt; the shift of the tangency point is not the one asked for, and depends on the toroidal angle of the injector (it can be zero or have the wrong sign).")
c("C145", "partial", ["Ascot.C145.axisymmetric_partial", "Ascot.C145.three_dimensional_partial", "Ascot.C145.stellarator_partial", "Ascot.C145.cartesian_partial", "Ascot.C145.analytic_partial", "Ascot.C145.axis_search", "Ascot.C145.jacobian_violation", "Ascot.C145.flux_omitted_violation", "Ascot.C145.axis_omitted_violation", "Ascot.C145.grid_omitted_violation", "Ascot.C145.rows_violation", "Ascot.C145.shape_violation", "Ascot.C145.unchecked_violation", "Ascot.C145.example_violation"],
 "Proved: the three tabulated fields are the same if the arrays are stored by columns, the linear field if its Jacobian is symmetric, the analytic field if flux and axis are given or searched for.  Findings: arrays stored by rows, which is what Python makes by default, arrive transposed; the Jacobian of the linear field arrives transposed; optional arguments may not be left out; wrong shapes and axes outside of the grid are not noticed.")
c("C146", "partial", ["Ascot.C146.follows_partial", "Ascot.C146.safe_partial", "Ascot.C146.conflict", "Ascot.C146.init_done", "Ascot.C146.refused", "Ascot.C146.inputFree_spec", "Ascot.C146.init_same", "Ascot.C146.missing", "Ascot.C146.given", "Ascot.C146.without_arguments", "Ascot.C146.unreadable_violation", "Ascot.C146.stale_injectors_violation", "Ascot.C146.injectors_stay_violation"],
 "Proved for all histories without injectors in which the groups can be read: the state is that of the specification and exceptions are raised exactly where it says; safety also if dictionaries raise exceptions, and with injectors.  Findings: a group that C cannot read is marked as initialised without an exception, and so are the inputs after it in the same call, and freeing them frees memory that was never allocated; injectors are never freed, stay after another file was loaded, and cannot be replaced.")
c("C147", "partial", ["Ascot.C147.recognised", "Ascot.C147.right", "Ascot.C147.unique", "Ascot.C147.completed", "Ascot.C147.message_missing", "Ascot.C147.message_violation", "Ascot.C147.time_dependent_violation", "Ascot.C147.injectors_violation"],
 "Proved for all sets of entries: the right type is found, there are never two, default values, the message about missing parameters.  Findings: the message about unknown parameters can name a type to which they are known; time-dependent fields are refused; for injectors the function calls itself until Python raises an exception.")
c("C148", "proved", ["Ascot.C148.history", "Ascot.C148.created", "Ascot.C148.simulated", "Ascot.C148.activated", "Ascot.C148.described", "Ascot.C148.missing", "Ascot.C148.remove_used", "Ascot.C148.removed", "Ascot.C148.removed_last", "Ascot.C148.removed_parent", "Ascot.C148.copied", "Ascot.C148.force_not_honoured", "Ascot.C148.wrong_exception", "Ascot.C148.collision_not_detected", "Ascot.C148.copy_not_active"],
  "Proved by induction over histories, with the effect of each operation on all groups.  The assumption that generated QIDs are new is needed: nothing checks it (collision_not_detected).  Findings about comments in the code that are not part of the statement: the argument force of removegroup has no effect on inputs that have been used; activating or describing a group that is not there ends in an AttributeError; a copy is not set as active if the parent has other groups.")
c("C149", "partial", ["Ascot.C149.view_partial", "Ascot.C149.inputs_found", "Ascot.C149.tag_alone", "Ascot.C149.tag_shared", "Ascot.C149.long_tag", "Ascot.C149.copied_run_not_openable", "Ascot.C149.other_file_not_openable", "Ascot.C149.crash_not_openable", "Ascot.C149.e3d_not_openable"],
  "Proved for all histories of C148, in which a result is only copied together with its inputs.  Findings: a run that is copied to a file without its inputs, or a simulation with different files for input and output, leaves a file that cannot be opened; so does an input whose writing is interrupted, and any electric field of type E_3D, E_3DS or E_3DST.  Tags are not cut to ten characters.")
c("C150","partial",["Ascot.C150.added","Ascot.C150.all_files","Ascot.C150.any_order","Ascot.C150.continued_partial","Ascot.C150.marker","Ascot.C150.time_wrong","Ascot.C150.unordered","Ascot.C150.other_axes","Ascot.C150.distribution_dropped","Ascot.C150.orbits_dropped","Ascot.C150.half_way","Ascot.C150.unknown_marker"],"Proved for files that have been split, by induction over the files. For continued simulations proved if the identifiers increase in both files. Findings: the times of continued markers are the sums of the times at which the two simulations have ended, although the second starts at the time at which the first has ended; nothing can be combined if identifiers are not in increasing order, since h5py reads elements of a dataset in increasing order only; distributions with other axes are added bin by bin; orbits and distributions that are in one file only are dropped without notice; a missing dataset leaves the first file with columns of different lengths.")
c("C151", "partial", ["Ascot.C151.converted", "Ascot.C151.unique", "Ascot.C151.chain", "Ascot.C151.round_trip", "Ascot.C151.refused", "Ascot.C151.recognised", "Ascot.C151.recognised_again", "Ascot.C151.always_found", "Ascot.C151.ascot_field", "Ascot.C151.units_wrong", "Ascot.C151.zero_q_accepted"],
  "Proved for all pairs of conventions and all equilibria in the same units.  Findings: with other units of length or magnetic field the derivatives with respect to ψ do not belong to ψ any more, since its factor contains the change of units twice (units_wrong); data without sign, such as q = 0, are accepted.")
c("C152", "partial", ["Ascot.C152.imported_partial", "Ascot.C152.import_unknown", "Ascot.C152.left_zero", "Ascot.C152.beyond_axis", "Ascot.C152.wall"],
  "Proved for all files whose grid does not begin at R = 0 and in which no ψ is beyond that at the axis, or ψ increases from the axis in the convention of the code.  Findings: if the grid begins at R = 0 the first column is left out, but the others are put on a grid whose left end is at the n-th part of the width instead of the (n-1)-th, so that all but the last are at wrong positions (left_zero); if ψ decreases from the axis, the toroidal field where ψ is beyond that at the axis is that of the boundary (beyond_axis).  The search for ψ at the axis is not modelled.")
c("C153", "partial", ["Ascot.C153.imported", "Ascot.C153.grid", "Ascot.C153.imported_dict", "Ascot.C153.too_short", "Ascot.C153.positive", "Ascot.C153.neutral_partial", "Ascot.C153.neutral_fractions", "Ascot.C153.dict_not_neutral", "Ascot.C153.beyond_one", "Ascot.C153.rotation"],
  "Values are proved for all tables.  Quasi-neutrality is proved for fractions, and for data in one file that end within the plasma or are not extrapolated.  Findings: for data beyond rho = 1 the limits of the ions do not belong to those of the electrons (beyond_one); for data in a dictionary the limit is the same for electrons and all ions, so that wherever it is reached the charge of the ions is that of the electrons times the sum of the charge numbers (dict_not_neutral); toroidal rotation decays outside of the plasma only if it is negative (rotation).")
c("C154", "partial",
 ["Ascot.C154.sampled", "Ascot.C154.total", "Ascot.C154.ends", "Ascot.C154.never_ends", "Ascot.C154.gc_momentum", "Ascot.C154.gc_energy", "Ascot.C154.momentum_energy", "Ascot.C154.velocity_direction", "Ascot.C154.velocity_wrong", "Ascot.C154.velocity_vertical", "Ascot.C154.rho_wrong_cell", "Ascot.C154.rho_not_in_cell", "Ascot.C154.rho_refused", "Ascot.C154.particle_dist", "Ascot.C154.particle_dist_eq", "Ascot.C154.marker_dist_wrong"],
 "Weights, cells and totals proved for all random numbers and shuffles; coordinates in (R, phi, z) with guiding centres proved. The code violates the rest: in (rho, theta, phi) the cell indices are given to the wrong axes (rho_not_in_cell, rho_refused); velocities of particles are p/m instead of p/(gamma m), beyond the speed of light for p > mc (velocity_wrong), and not numbers in a vertical field (velocity_vertical); the loop never ends if no cell has the minimum weight (never_ends); the returned marker distribution is not divided by the volume of cells (marker_dist_wrong). Real numbers instead of floating point; random numbers are parameters.")
c("C155", "partial",
 ["Ascot.C155.particles", "Ascot.C155.guiding_centers", "Ascot.C155.twice", "Ascot.C155.three_particles", "Ascot.C155.three_guiding_centers", "Ascot.C155.thetamod_shifted", "Ascot.C155.theta_not_cumulative"],
 "All quantities proved for every number of markers other than three. The code violates the rest: with exactly three markers an array with one number per marker is taken for one vector, so that speeds of particles become nine numbers (three_particles) and speeds of guiding centres depend on the other markers (three_guiding_centers); the poloidal angle of particles points from the particle to the axis instead of the other way (thetamod_shifted), and the cumulative angle of particles is not cumulative (theta_not_cumulative); a quantity that is requested twice is refused (twice). Units, file access and input_eval are external; divisions by zero are excluded by hypotheses.")
c("C156", "partial",
 ["Ascot.C156.gyro_orbits", "Ascot.C156.guiding_centers", "Ascot.C156.field_lines", "Ascot.C156.unrecorded", "Ascot.C156.unrecorded_wrong", "Ascot.C156.hybrid_length", "Ascot.C156.hybrid_lost", "Ascot.C156.hybrid_mixed", "Ascot.C156.hybrid_pperp", "Ascot.C156.pncrdir_refused", "Ascot.C156.connlen_travelled"],
 "Proved for data of one mode in which every marker has a recorded point. The code violates the rest: if a marker has no recorded point, points of markers after it get the mass and time of another marker (unrecorded, unrecorded_wrong); with gyro-orbits and guiding centres in the same data only as many values as guiding-centre points are returned (hybrid_length, hybrid_lost), common quantities and the others are of different points (hybrid_mixed), and pperp is refused (hybrid_pperp); pncrdir is always refused (pncrdir_refused); connlen is minus the mileage so far (connlen_travelled). The formulas are parameters (those shared with marker states are in C155), one quantity at a time, units and file access are external.")
c("C157", "partial",
 ["Ascot.C157.idle", "Ascot.C157.consistent", "Ascot.C157.kicked", "Ascot.C157.overshot", "Ascot.C157.refused", "Ascot.C157.pphi_excess", "Ascot.C157.pphi_not_constant", "Ascot.C157.ekin_excess", "Ascot.C157.speed_above_light"],
 "Proved: untouched lanes, Newtonian consistency of the quantities, kicks, reports of overshooting and undoing of the step. The code violates the rest: the canonical momentum is computed with the flux multiplied by 2 pi, so that it is not that of the marker and not constant along orbits (pphi_excess, pphi_not_constant); energy and speed are Newtonian and can exceed those of the marker, the speed even that of light (ekin_excess, speed_above_light); a step that is undone stays in the memory of the library (refused). The library is a parameter; setting up and freeing of its memory are not modelled.")
c("C158", "partial",
 ["Ascot.C158.made", "Ascot.C158.copied", "Ascot.C158.integrated", "Ascot.C158.factor_array", "Ascot.C158.factor_full", "Ascot.C158.number", "Ascot.C158.symmetric_refused", "Ascot.C158.sliced", "Ascot.C158.step_wrong", "Ascot.C158.interpolated", "Ascot.C158.lower_edge", "Ascot.C158.last_cell", "Ascot.C158.last_edge"],
 "Proved for histograms, integration and slices without step. The code violates the rest: integration with the abscissa as factor is refused on a grid with opposite ends (symmetric_refused), so that current densities fail on a symmetric momentum grid; slices with a step take all edges but not all bins (step_wrong); interpolation swaps its two weights (lower_edge), fails in the last cell (last_cell) and returns the first bin at the last edge (last_edge). Interpolation is modelled for one axis; slices by a single index or by arrays are left out.")
c("C159", "partial",
 ["Ascot.C159.binned", "Ascot.C159.number", "Ascot.C159.conserved", "Ascot.C159.converted", "Ascot.C159.default_kept", "Ascot.C159.default_lost", "Ascot.C159.one_less", "Ascot.C159.three_refused", "Ascot.C159.listed_iff", "Ascot.C159.listed_wrong"],
 "Proved: which cells go to which bins, and that the number of particles stays just as far as cells are within the new grid. The code violates the rest: on the default grid, cells with momentum above the largest parallel momentum are lost, since the third argument of np.maximum is not a value (default_kept, default_lost); a number n gives n - 1 bins (one_less); with three momentum cells the conversion fails (three_refused); getdist(None) lists missing distributions, since it removes from the list it loops over (listed_iff, listed_wrong).")
c("C160", "partial",
 ["Ascot.C160.density_total", "Ascot.C160.energy_total", "Ascot.C160.spread", "Ascot.C160.nonneg", "Ascot.C160.pressure_excess", "Ascot.C160.twice", "Ascot.C160.current", "Ascot.C160.faster_than_light", "Ascot.C160.volumes", "Ascot.C160.shells_uniform", "Ascot.C160.shells_wrong", "Ascot.C160.toroidal", "Ascot.C160.radial"],
 "Proved: totals of density and energy, parallel pressure, volumes in cylindrical coordinates, averages. The code violates the rest: the pressure counts the perpendicular motion twice (pressure_excess, twice); the current has the momentum over the mass in place of the velocity and can exceed that at the speed of light (current, faster_than_light); volumes in flux coordinates are those of a uniform grid on [0, 1], whatever the edges of the distribution (shells_uniform, shells_wrong); energy density fails with three momentum cells. Power deposition, torques and current drive are not modelled.")
c("C161", "partial",
 ["Ascot.C161.rectangle", "Ascot.C161.between", "Ascot.C161.first", "Ascot.C161.first_wrong", "Ascot.C161.total", "Ascot.C161.refined", "Ascot.C161.axisymmetric", "Ascot.C161.limits", "Ascot.C161.negative", "Ascot.C161.ratio", "Ascot.C161.inner", "Ascot.C161.mc_total", "Ascot.C161.opposite", "Ascot.C161.separatrix"],
 "Proved for prisms with lower limits zero: volumes and areas between surfaces and in total, for polygons through the computed points; the toroidal refinement. The code violates the rest: the first cells reach to the axis whatever the first surface (first_wrong); lower limits in degrees are taken for radians, which can make volumes negative (limits, negative); with random points every volume is the area times the same arc, so that inner cells are too large and outer cells too small (ratio, inner), poloidal cells are on the opposite side (opposite), and a point on the separatrix is an error (separatrix). That the loops end is not proved; random points are arguments.")
c("C162", "partial",
 ["Ascot.C162.named", "Ascot.C162.index_refused", "Ascot.C162.table", "Ascot.C162.thermal_reactants", "Ascot.C162.thermal_of_beam", "Ascot.C162.beam_twice", "Ascot.C162.coordinates", "Ascot.C162.incomplete", "Ascot.C162.refused_iff", "Ascot.C162.ignored", "Ascot.C162.volume_cell", "Ascot.C162.volume_total", "Ascot.C162.bin_cell", "Ascot.C162.unequal", "Ascot.C162.charge", "Ascot.C162.beam_content", "Ascot.C162.beam_density", "Ascot.C162.beam_number", "Ascot.C162.beam_lost", "Ascot.C162.grid_ignored"],
 "Proved: reactants and the factor for thermal populations, coordinates for complete arguments, volumes and bins for equal widths, beams with one bin in time and charge. The code violates the rest: indices of reactions are refused (index_refused); a beam given twice counts every pair twice (beam_twice); incomplete coordinates fail only after the inputs have been initialized, or are ignored (incomplete, ignored); bins of unequal width are taken as equal (unequal); particles in other bins of time and charge do not react (beam_lost); the bins in space of a second beam are not compared with those of the first (grid_ignored). Cells in flux coordinates are C161. Pointers and the lifetime of arrays passed to C are not modelled.")
c("C163", "partial",
 ["Ascot.C163.rotated", "Ascot.C163.superposed", "Ascot.C163.scaled", "Ascot.C163.left_out", "Ascot.C163.same", "Ascot.C163.checked", "Ascot.C163.revolved_grid", "Ascot.C163.revolved", "Ascot.C163.number", "Ascot.C163.part", "Ascot.C163.endless", "Ascot.C163.average", "Ascot.C163.value_ignored", "Ascot.C163.value", "Ascot.C163.other_grid", "Ascot.C163.angles", "Ascot.C163.undone"],
 "Proved: superposition, rotation, linearity in currents, revolved coils on a grid of the whole torus, averages. The code violates the rest: coils beyond the list of currents are left out (left_out); on a part of the torus revolved copies come from the other end of the grid (part); revolve=0 does not end (endless); the value on the axis is ignored unless the field of the input is excluded (value_ignored); values of the input at other radii are used if the grid is given by the user (other_grid). The spline at the axis is a linear functional. Floating point is not modelled.")
c("C164", "partial",
 ["Ascot.C164.closed", "Ascot.C164.increasing", "Ascot.C164.poloidal", "Ascot.C164.periodic", "Ascot.C164.straight", "Ascot.C164.jacobian", "Ascot.C164.signs", "Ascot.C164.rows", "Ascot.C164.outermost", "Ascot.C164.trapped", "Ascot.C164.too_many", "Ascot.C164.parallel", "Ascot.C164.resonant"],
 "Proved for polygons on which R times the toroidal field is constant. Straightness is proved at the corners of the polygon; between them the tables are linear. The parallel field vanishes where the coordinates are Boozer coordinates of the field (hypothesis Aligned, the continuous form of jacobian and straight). The code violates the last part: the fraction of trapped particles uses the square of the average field instead of the average square and is too large (too_many). On resonant surfaces the potential is a division by zero (resonant). Contours are those of C111, the tables are read as in C141; splines between the points are not considered here.")
c("C165", "partial",
 ["Ascot.C165.vacuum", "Ascot.C165.depth", "Ascot.C165.period_iff", "Ascot.C165.grid", "Ascot.C165.average", "Ascot.C165.aliased", "Ascot.C165.plasma_partial", "Ascot.C165.not_flat", "Ascot.C165.neutral_iff", "Ascot.C165.neutrals", "Ascot.C165.rectangle", "Ascot.C165.wall_inside_partial", "Ascot.C165.wall_gaps"],
 "The code violates parts of the property: the period is not checked against the number of coils (period_iff: it fits only if it divides it); with as many grid points as coils the ripple becomes an axisymmetric field (aliased); the plasma is flat only up to rho = 10/11 and has a tenth of its density at the separatrix (not_flat); electrons have the density of the ions whatever their charge (neutral_iff); at the heights of the points of the wall, four of them inside, all points are outside (wall_gaps). The conversion to a three-dimensional wall is that of C137; the ITER-like field consists of constants only and is not considered.")
c("C166", "partial",
 ["Ascot.C166.chebyshev", "Ascot.C166.abscissa_range", "Ascot.C166.sigma_bounds", "Ascot.C166.checked_range", "Ascot.C166.exact_eq", "Ascot.C166.integrand_spec", "Ascot.C166.error_at_ten", "Ascot.C166.layout"],
 "The quadrature (scipy quad up to 2e7 m/s) and units are not modelled. The code violates one part by a little: the comment promises a relative error below 2e-9 for arguments from ten on, at ten it is larger (error_at_ten; integrand_spec has 2.1e-9).")
c("C167", "partial",
 ["Ascot.C167.user", "Ascot.C167.one_gyration", "Ascot.C167.same_step", "Ascot.C167.vpa_turn", "Ascot.C167.infinite", "Ascot.C167.adaptive_bounds", "Ascot.C167.adaptive_is_period", "Ascot.C167.adaptive_constant"],
 "The code violates two parts: a neutral marker and a number of steps below one give an infinite step (infinite); the adaptive scheme does not begin with the fixed step but with a whole gyration period, and the collision frequency is the constant one (adaptive_is_period, adaptive_constant).")
c("C168", "partial",
 ["Ascot.C168.fixed_clean", "Ascot.C168.mhd_clean", "Ascot.C168.nbi_clean", "Ascot.C168.neutral_one", "Ascot.C168.asigma_clean", "Ascot.C168.transcoef_clean", "Ascot.C168.rounds", "Ascot.C168.fixed_leaks", "Ascot.C168.spline_plasma", "Ascot.C168.wall3d", "Ascot.C168.asigma_leak", "Ascot.C168.asigma_undefined", "Ascot.C168.neutral_twice", "Ascot.C168.output_lost"],
 "Proved for the axisymmetric field, radial electric field, Boozer, MHD, beam, atomic and diagnostic data, for any number of rounds. The code violates the rest: neutral data with two species or more are released twice, and the main program does so before the results are written (neutral_twice, output_lost); the stellarator field, the plasma profiles and the walls lose blocks at every round (fixed_leaks, spline_plasma, wall3d); atomic data lose a block for every type of reaction without a branch and release an unset pointer if type and dimension disagree (asigma_leak, asigma_undefined). Failing allocations, sizes and contents of the blocks and the distributions and histograms (one block each) are not modelled.")
c("C169", "partial",
 ["Ascot.C169.kept", "Ascot.C169.kept_toroidal", "Ascot.C169.nearly", "Ascot.C169.lost", "Ascot.C169.one_over", "Ascot.C169.both_over", "Ascot.C169.both_lost"],
 "Proved: if either limit stops the line, at most two crossings of each plane exceed the reserved points, and all are kept if some orbits of one kind are left (with one plane of each kind four; e.g. safety factor above 1.01 with the default numbers). The code violates the rest: a line against the angles with safety factor one loses the first crossing of each plane for every number of orbits (one_over, lost), and if both limits must be reached, a line with safety factor q makes q times as many crossings as reserved and all but the latest are lost (both_over, both_lost). Not modelled: particles and trapped orbits, lines that turn round.")
c("C170", "partial",
 ["Ascot.C170.same_partial", "Ascot.C170.accepted", "Ascot.C170.neutralized_refused", "Ascot.C170.both_differs", "Ascot.C170.diagnostics_dropped", "Ascot.C170.array_refused", "Ascot.C170.negative_differs", "Ascot.C170.half_orbit", "Ascot.C170.negative_switch"],
 "Proved: for options of the documented types all settings agree, and the interactive run accepts all of them, with the exceptions that follow. The code violates the property: stopping on neutralization raises an exception (misspelt name); 'both numbers of orbits' works in interactive runs only (see C118); the 6D, rho and constants-of-motion distributions and the transport coefficients are silently left out; planes given as an array are refused unless there is just one; a negative first angle means no planes to the program only; fractions of orbits and negative switches differ. Not modelled: the value of the elementary charge of the units package (taken to be that of the program), reading the options back from the file.")
c("C171", "partial",
 ["Ascot.C171.guiding_centers", "Ascot.C171.field_lines_partial", "Ascot.C171.particles_partial", "Ascot.C171.particles_read", "Ascot.C171.momentum_wrong", "Ascot.C171.field_lines_units", "Ascot.C171.guiding_centers_read", "Ascot.C171.charge_cut", "Ascot.C171.weight_unit"],
 "Proved: guiding centers in any units, with whole charges and weights in particles per second, are the same; field lines in the documented units are the same; particles are the same if their masses are given in kilograms. The code violates the property: the momentum of interactive particles is made with the number of the mass column, so with masses in atomic mass units (the documented unit) it is more than 10^26 times too large; units of field line columns are ignored when written; the unit of the weight is ignored by interactive runs; charges that are not whole are cut off in the file. Not modelled: columns of wrong length or dimension, the constants of the units package (taken to be those of the program).")
c("C172", "partial",
 ["Ascot.C172.session_partial", "Ascot.C172.released_partial", "Ascot.C172.bounded_partial", "Ascot.C172.beam_double_free", "Ascot.C172.beam_leak", "Ascot.C172.beam_run", "Ascot.C172.old_run_changed", "Ascot.C172.old_run_unreadable", "Ascot.C172.options_leak", "Ascot.C172.options_double_free", "Ascot.C172.markers_without_field", "Ascot.C172.bad_markers_leak"],
 "Proved by an invariant for all sequences in which markers and options are not changed while there are results, all markers are well formed and given while inputs are loaded, and no beam is simulated. The code violates the property otherwise: releasing after a simulated beam releases the previous markers twice, and the queue of the beam is never released; a run after a beam passes the check that markers exist; new markers replace the initial states of the old run, or make them unreadable; options changed before the release leave memory behind or release it twice; markers given after the inputs were released use released memory; refused markers leave memory behind. Not modelled: several processes, details of the inputs (see model InputState), a magnetic field without data in memory.")
c("C173", "partial",
 ["Ascot.C173.state_partial", "Ascot.C173.weight_violation", "Ascot.C173.error_violation", "Ascot.C173.endcond", "Ascot.C173.summary_violation", "Ascot.C173.summary_file", "Ascot.C173.orbits_partial", "Ascot.C173.orbit_weight_violation", "Ascot.C173.hybrid_violation", "Ascot.C173.direction_violation", "Ascot.C173.dist_partial", "Ascot.C173.dist_violation"],
 "Proved for all quantities except those where the code violates the property: weights are plain numbers in interactive runs and rates from a file; message, line and module of an error are all the whole error code in interactive runs, so that the summary raises an exception as soon as one marker ended with an error; the momentum of particles in hybrid runs cannot be read in interactive runs; the direction of a Poincare crossing can be read in neither; the momentum axes of distributions have the dimension of an angular momentum in interactive runs. Not modelled: the derived quantities (the same code for both), reading released memory (C172), the order of rows after sorting (the same code for both).")
c("C174", "partial",
 ["Ascot.C174.settings", "Ascot.C174.unknown", "Ascot.C174.missing", "Ascot.C174.stray_violation", "Ascot.C174.stray_file", "Ascot.C174.number_violation", "Ascot.C174.long_violation"],
 "The first part is proved in full for values of at most 250 characters, and so is the refusal of unknown names and of missing values. The code does not refuse other command lines: words that belong to no setting are passed over, so that a file named without --in is not used; a number of processes that is no number counts as zero, so that every process simulates all markers; file names of 253 characters or more overflow an array. The behaviour of getopt_long is the documented one of glibc; atof is a parameter.")
c("C175", "partial",
 ["Ascot.C175.recorded", "Ascot.C175.radial", "Ascot.C175.kinds_partial", "Ascot.C175.angles_partial", "Ascot.C175.angle_violation", "Ascot.C175.plot_radial", "Ascot.C175.plot_partial", "Ascot.C175.refused_partial", "Ascot.C175.plot_violation", "Ascot.C175.alternative_violation"],
 "Flux surfaces are always listed and plotted rightly. The interface numbers the planes of ORBITWRITE_POLOIDALANGLES first, while the simulation numbers those of ORBITWRITE_TOROIDALANGLES first: the listed kinds are right exactly for runs with as many planes of either kind, and the listed angles exactly for runs where both options hold the same angles. Otherwise crossings of one kind of plane are plotted as the other, or cannot be plotted. Plots of poloidal planes in (rho, theta) always fail, because the quantity is asked for by an unknown name.")
c("C176", "partial",
 ["Ascot.C176.orbits_partial", "Ascot.C176.single", "Ascot.C176.several_violation", "Ascot.C176.memory_partial", "Ascot.C176.hybrid_violation", "Ascot.C176.field_line_violation", "Ascot.C176.distribution_partial", "Ascot.C176.distribution_violation", "Ascot.C176.coefficients_partial", "Ascot.C176.coefficients_violation"],
 "Proved for one process with particles, for the arrays in memory of full orbits and guiding centres, and for distributions with fewer than 2^31 cells. The number of markers is not updated when orbits are gathered, so that the file has only those of the first process; in hybrid runs momenta and charges are not gathered; for field lines pointers that were never set are passed to realloc, because the constant for field lines in the orbit diagnostics is the number of the hybrid mode; the number of cells is cut to an int; IDs of transport coefficients are sent as numbers of twice their size. Message passing is assumed to be reliable and in order.")
c("C177", "partial",
 ["Ascot.C177.grid", "Ascot.C177.points", "Ascot.C177.refused", "Ascot.C177.listed", "Ascot.C177.divergence_curl", "Ascot.C177.gradient", "Ascot.C177.failed", "Ascot.C177.magnitudes", "Ascot.C177.poloidal_partial", "Ascot.C177.poloidal_violation", "Ascot.C177.charge_partial", "Ascot.C177.charge_violation"],
 "Proved except for two quantities. bpol is 0 wherever the poloidal field is along the line to the axis, because the sign that is multiplied is 0 there. zeff is computed from the charge numbers of the nuclei instead of the charge states, so that it is right for fully ionised species only. Units, ions by number (ni1, ti1, ...) and the derivatives of eigenfunctions are not modelled.")
c("C178", "partial",
 ["Ascot.C178.grid", "Ascot.C178.names", "Ascot.C178.orbit_partial", "Ascot.C178.first_speed", "Ascot.C178.orbit_violation", "Ascot.C178.outside_violation", "Ascot.C178.reaction_partial", "Ascot.C178.swapped_violation", "Ascot.C178.unavailable_violation"],
 "Proved for all speeds at all points. With grid=False only the first speed is passed, so that the values are right only if all speeds are the same; points outside of the plasma get zeros instead of nan; ionization and recombination are swapped when passed to the library, which evaluates neither, so that their rates are nan. Units are not modelled.")
c("C179", "partial",
 ["Ascot.C179.nodes", "Ascot.C179.passing_turns", "Ascot.C179.trapped_partial", "Ascot.C179.trapped_violation", "Ascot.C179.few", "Ascot.C179.pitch_partial", "Ascot.C179.padding", "Ascot.C179.pitch_violation", "Ascot.C179.resonance_partial", "Ascot.C179.resonance_violation"],
 "Proved for the nodes, for passing markers, and for trapped markers on steady orbits. When the precession varies the inverse of the mean inverse is returned; a single pitch of 1 or -1 is not padded; the frequency of the perturbation is overwritten and has no effect. The simulation that gives the crossings is a parameter, and infinities are excluded by hypotheses.")
c("C180", "partial",
 ["Ascot.C180.refused", "Ascot.C180.phi_keeps", "Ascot.C180.alpha_keeps", "Ascot.C180.phi_partial", "Ascot.C180.alpha_partial", "Ascot.C180.round_trip", "Ascot.C180.resonant", "Ascot.C180.resonant_violation", "Ascot.C180.rest", "Ascot.C180.rest_violation", "Ascot.C180.sign_violation"],
 "Proved with sign one, for the electric potential away from resonant radii and for the magnetic potential of modes with a frequency. At resonant radii and for modes at rest the result is not a number; the documented sign is left out. The profiles are parameters; only stationary modes are modelled.")
c("C181", "partial",
 ["Ascot.C181.named", "Ascot.C181.refused", "Ascot.C181.detected", "Ascot.C181.found", "Ascot.C181.agree", "Ascot.C181.name_partial", "Ascot.C181.name_violation"],
 "Proved for all strings and numbers, except that fourteen species of the table are refused by the name that autodetect returns for them. Units are not modelled.")
c("C182", "partial",
 ["Ascot.C182.window_get", "Ascot.C182.window_len", "Ascot.C182.seam", "Ascot.C182.seam_value", "Ascot.C182.centre", "Ascot.C182.centre_refused", "Ascot.C182.near_partial", "Ascot.C182.middle", "Ascot.C182.nearest_violation", "Ascot.C182.end_violation", "Ascot.C182.below_violation"],
 "Proved for the planes and the fit points. The grid point is within one step but not always the closest; the end of the grid gives an error, and positions below it can give its last point. The fit and the figure are not modelled.")
c("C183", "partial",
 ["Ascot.C183.markers", "Ascot.C183.particles", "Ascot.C183.energy_partial", "Ascot.C183.energy_violation"],
 "Proved for markers and particles, and for energy if no marker gains energy; otherwise the fraction can exceed one. Rounding, units and the text are not modelled; that weights stay the same is a hypothesis.")
c("C184", "partial",
 ["Ascot.C184.between", "Ascot.C184.defined", "Ascot.C184.passing_partial", "Ascot.C184.passing_violation", "Ascot.C184.trapped_partial", "Ascot.C184.turn_violation"],
 "Proved for the average, for passing orbits of growing angle that go around, and for trapped orbits that start backwards. An orbit that does not go around and an orbit that turns backwards after its first point end in an error. The mirror cases use the same functions with exchanged signs and are not stated.")

if __name__ == "__main__":
    here = os.path.dirname(os.path.abspath(__file__))
    names = set()
    for d, _, fs in os.walk(os.path.join(here, "..", "lean", "Verif")):
        for f in fs:
            if not f.endswith(".lean"): continue
            ns = []
            for line in open(os.path.join(d, f)):
                m = re.match(r"namespace\s+(\S+)", line)
                if m: ns.append(m.group(1))
                m = re.match(r"end\s+(\S+)", line)
                if m and ns and ns[-1] == m.group(1): ns.pop()
                m = re.match(r"(?:private\s+|protected\s+)?theorem\s+([^\s:({\[]+)", line)
                if m: names.add(".".join(ns + [m.group(1)]))
    for x in C:
        for t in x["theorems"]:
            if t not in names: print("MISSING", x["property"], t)
    done = {x["property"] for x in C}
    props = [json.loads(l)["id"] for l in open(os.path.join(here, "..", "properties.jsonl"))]
    print("not in manifest:", [q for q in props if q not in done])
    json.dump({"claims": C}, open(os.path.join(here, "..", "MANIFEST.json"), "w"), indent=1)
