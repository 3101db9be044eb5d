# Axioms of the property theorems

Written by `tools/axioms.py` from `#print axioms`.

## Classical.choice, Quot.sound, propext (1141)

* `Ascot.C01.roundtrip_iff`
* `Ascot.C01.overlong_line`
* `Ascot.C01.raise_injective`
* `Ascot.C01.sites_decode_partial`
* `Ascot.C01.not_all_sites`
* `Ascot.C04.marker_life`
* `Ascot.C04.claimed_once`
* `Ascot.C04.lanes_distinct`
* `Ascot.C05.fo_all_finished`
* `Ascot.C05.fo_ended_untouched`
* `Ascot.C05.progress`
* `Ascot.C06.gc_all_finished_partial`
* `Ascot.C06.gc_leaves_markers`
* `Ascot.C07.fo_endcond`
* `Ascot.C07.fo_position`
* `Ascot.C07.fo_error`
* `Ascot.C08.gc_endcond`
* `Ascot.C08.gc_rest`
* `Ascot.C08.gc_error`
* `Ascot.C09.ml_endcond`
* `Ascot.C09.ml_rest`
* `Ascot.C10.lane_consistent`
* `Ascot.C10.report_partial`
* `Ascot.C10.end_condition_and_error`
* `Ascot.C10.ml_error_unreported`
* `Ascot.C11.gc_counter`
* `Ascot.C11.fo_counter`
* `Ascot.C11.compared_at_odd_turns_partial`
* `Ascot.C12.parse_spec`
* `Ascot.C12.parse_injective`
* `Ascot.C13.gc_rejected`
* `Ascot.C13.gc_rejected_endcond`
* `Ascot.C13.trial_rejected`
* `Ascot.C13.ml_rejected`
* `Ascot.C14.gc_limits_partial`
* `Ascot.C14.gc_tie`
* `Ascot.C14.gc_limits_fail`
* `Ascot.C14.ml_limits_partial`
* `Ascot.C15.fo_pass`
* `Ascot.C15.fo_time`
* `Ascot.C15.gc_pass`
* `Ascot.C15.gc_time_partial`
* `Ascot.C15.gc_icrh_rejected`
* `Ascot.C15.gc_icrh_time`
* `Ascot.C15.gc_icrh_fails`
* `Ascot.C16.gc_pass`
* `Ascot.C16.gc_direction_partial`
* `Ascot.C16.orbit_steps_negative_partial`
* `Ascot.C16.orbfol_off_forward`
* `Ascot.C17.reachable_partial`
* `Ascot.C17.generate_before_start`
* `Ascot.C17.clean_error_destroys`
* `Ascot.C18.unique`
* `Ascot.C18.generate_again`
* `Ascot.C18.generate_values`
* `Ascot.C18.clean_values`
* `Ascot.C18.clean_succeeds`
* `Ascot.C19.full`
* `Ascot.C19.free_slot`
* `Ascot.C67.bridge`
* `Ascot.C20.balance`
* `Ascot.C21.gather_all`
* `Ascot.C23.gc_update`
* `Ascot.C23.one_cell`
* `Ascot.C23.angle`
* `Ascot.C23.coords_gc`
* `Ascot.C23.coords_com_gc`
* `Ascot.C24.fo_update_partial`
* `Ascot.C24.fo_update_gpu`
* `Ascot.C24.outside_fails`
* `Ascot.C23.coords_5D_fo`
* `Ascot.C23.coords_6D_fo`
* `Ascot.C23.coords_com_fo`
* `Ascot.C25.within_partial`
* `Ascot.C25.nbin_eq`
* `Ascot.C25.alias_fails`
* `Ascot.C25.charge_fails`
* `Ascot.C26.phi_fails`
* `Ascot.C68.gather_orbits`
* `Ascot.C176.memory_partial`
* `Ascot.C176.hybrid_violation`
* `Ascot.C176.field_line_violation`
* `Ascot.C27.interval_mode`
* `Ascot.C28.toroidal_partial`
* `Ascot.C28.poloidal_partial`
* `Ascot.C28.radial_partial`
* `Ascot.C28.poincare_ring`
* `Ascot.C28.plane_fails`
* `Ascot.C28.touch_fails`
* `Ascot.C28.radial_fo_fails`
* `Ascot.C29.advection_partial`
* `Ascot.C29.still_partial`
* `Ascot.C29.record_times`
* `Ascot.C29.advection_fails`
* `Ascot.C29.points_unused`
* `Ascot.C30.lookup`
* `Ascot.C30.cells`
* `Ascot.C30.on_plane`
* `Ascot.C30.near_partial`
* `Ascot.C31.first`
* `Ascot.C31.full`
* `Ascot.C32.sound`
* `Ascot.C32.complete_partial`
* `Ascot.C32.near`
* `Ascot.C32.inplane`
* `Ascot.C32.not_complete`
* `Ascot.C69.no_miss_partial`
* `Ascot.C69.full_ignores_start`
* `Ascot.C33.nearest`
* `Ascot.C33.scan`
* `Ascot.C33.parallel_missed`
* `Ascot.C34.parity_partial`
* `Ascot.C34.crosses_spec`
* `Ascot.C34.start`
* `Ascot.C34.closed_list`
* `Ascot.C34.rectangle`
* `Ascot.C34.vertex_height_fails`
* `Ascot.C70.no_escape_partial`
* `Ascot.C70.same_side`
* `Ascot.C70.vertex_height_fails`
* `Ascot.C35.value1`
* `Ascot.C35.value2_partial`
* `Ascot.C35.value3`
* `Ascot.C35.domain_partial`
* `Ascot.C35.nodes1_partial`
* `Ascot.C35.nodes3_partial`
* `Ascot.C35.bounds1`
* `Ascot.C35.bounds2`
* `Ascot.C35.bounds3`
* `Ascot.C35.periodic1`
* `Ascot.C35.periodic3`
* `Ascot.C35.upper_end_fails`
* `Ascot.C35.upper_end3_fails`
* `Ascot.C35.init2D_fails`
* `Ascot.C36.natural_spline`
* `Ascot.C36.natural_spline_explicit`
* `Ascot.C36.unique`
* `Ascot.C36.tabulated`
* `Ascot.C36.on_axis`
* `Ascot.C36.derivative`
* `Ascot.C36.derivative2`
* `Ascot.C37.periodic_spline_partial`
* `Ascot.C37.periodic_spline_explicit_partial`
* `Ascot.C37.unique`
* `Ascot.C37.tabulated`
* `Ascot.C37.on_periodic_axis`
* `Ascot.C38.compact_eq_explicit`
* `Ascot.C38.compact_eq_explicit_3D`
* `Ascot.C38.compact_eq_explicit_2D_partial`
* `Ascot.C38.explicit_2D_periodic_reads_unwritten`
* `Ascot.C39.safe_1D`
* `Ascot.C39.safe_2D`
* `Ascot.C39.safe_3D`
* `Ascot.C71.spline_of_splines_2D`
* `Ascot.C71.spline_of_splines_3D`
* `Ascot.C71.tabulated_2D`
* `Ascot.C71.tabulated_3D`
* `Ascot.C71.exists_spline`
* `Ascot.C40.full_period`
* `Ascot.C40.visits_all`
* `Ascot.C40.no_repetition`
* `Ascot.C40.uniform_range`
* `Ascot.C40.uniform_ends_occur`
* `Ascot.C41.fills`
* `Ascot.C41.overwrites`
* `Ascot.C72.rejection_ends`
* `Ascot.C72.argument_range`
* `Ascot.C55.rsearch_bracket_partial`
* `Ascot.C55.repeated_value_not_found`
* `Ascot.C56.unique_count`
* `Ascot.C56.frame`
* `Ascot.C57.linspace_spec`
* `Ascot.C58.ipow_spec`
* `Ascot.C65.mixed_layout_partial`
* `Ascot.C65.no_uniform_layout`
* `Ascot.C65.row_vector_any`
* `Ascot.C66.exact_to_degree_five`
* `Ascot.C74.barycentric_spec`
* `Ascot.C74.barycentric_in_plane`
* `Ascot.C75.summary_spec`
* `Ascot.C75.text_fits`
* `Ascot.C42.one_step`
* `Ascot.C42.many_steps`
* `Ascot.C42.with_modes`
* `Ascot.C42.step_defined`
* `Ascot.C42.rest_undefined`
* `Ascot.C43.kick_reversible`
* `Ascot.C43.step_reversible`
* `Ascot.C43.neutral_ballistic`
* `Ascot.C44.xyz_round_trip`
* `Ascot.C44.rpz_round_trip`
* `Ascot.C44.rpz_round_trip_principal`
* `Ascot.C44.vec_round_trips`
* `Ascot.C44.vec_dot`
* `Ascot.C44.vec_is_velocity`
* `Ascot.C45.to_cylindrical`
* `Ascot.C45.xyz_round_trip_partial`
* `Ascot.C45.xyz_round_trip_iff`
* `Ascot.C45.rpz_round_trip_partial`
* `Ascot.C45.uniform_field_gets_gradient`
* `Ascot.C46.gamma_ge_one`
* `Ascot.C46.speed_gamma`
* `Ascot.C46.momentum_velocity`
* `Ascot.C46.energy`
* `Ascot.C46.pitch_to_moment`
* `Ascot.C46.moment_to_pitch`
* `Ascot.C46.gamma_from_parallel_velocity`
* `Ascot.C46.parallel_momentum`
* `Ascot.C46.perpendicular_momentum`
* `Ascot.C46.gyrolength_factor`
* `Ascot.C46.gyrolength_p_vanishes`
* `Ascot.C76.off_partial`
* `Ascot.C76.ignored_with_modes`
* `Ascot.C76.parallel_motion_changes`
* `Ascot.C76.zero_step_radiates`
* `Ascot.C77.momentum_change`
* `Ascot.C77.step_equations`
* `Ascot.C47.momentum_round_trip`
* `Ascot.C47.position_round_trip`
* `Ascot.C47.guiding_center`
* `Ascot.C47.defined_iff`
* `Ascot.C78.curvature_partial`
* `Ascot.C78.curvature_of_curl_parallel`
* `Ascot.C78.curvature_wrong`
* `Ascot.C78.contractions`
* `Ascot.C78.uniform_exact_partial`
* `Ascot.C78.uniform_wrong`
* `Ascot.C48.energy_balance`
* `Ascot.C48.energy_conserved`
* `Ascot.C48.mu_conserved`
* `Ascot.C48.mhd_energy_balance`
* `Ascot.C49.classical_order`
* `Ascot.C49.cashKarp_order5`
* `Ascot.C49.cashKarp_order4`
* `Ascot.C49.rk4_is_step`
* `Ascot.C49.cashKarp_is_step`
* `Ascot.C49.rk4_exact`
* `Ascot.C49.rk5_exact`
* `Ascot.C49.estimate_zero`
* `Ascot.C49.errGc_zero`
* `Ascot.C49.errMl_zero`
* `Ascot.C49.rk4_linear`
* `Ascot.C49.cashKarp_linear`
* `Ascot.C49.accepted_iff`
* `Ascot.C49.accepted_ml_iff`
* `Ascot.C49.nextGc_accepted`
* `Ascot.C49.nextGc_rejected`
* `Ascot.C49.nextGc_sign`
* `Ascot.C49.nextGc_antitone`
* `Ascot.C49.nextMl_accepted`
* `Ascot.C49.nextMl_rejected`
* `Ascot.C49.nextGc_backward`
* `Ascot.C49.nextMl_unbounded`
* `Ascot.C49.estimate_depends_on_angle`
* `Ascot.C79.ptoroid_conserved`
* `Ascot.C80.bstar_is`
* `Ascot.C80.quiet_partial`
* `Ascot.C80.quiet_wrong`
* `Ascot.C64.direction_partial`
* `Ascot.C64.direction_lost`
* `Ascot.C64.always_along`
* `Ascot.C81.rk4_outcome`
* `Ascot.C81.rk4_mhd_outcome`
* `Ascot.C81.cashkarp_outcome`
* `Ascot.C81.not_running`
* `Ascot.C81.mhd_gyroangle`
* `Ascot.C81.mhd_negative_radius`
* `Ascot.C81.rejected_step_stops_marker`
* `Ascot.C82.gc_partial`
* `Ascot.C82.gc_adaptive_partial`
* `Ascot.C82.fo_partial`
* `Ascot.C82.ml_partial`
* `Ascot.C82.initial_points`
* `Ascot.C82.moving_axis_wrong`
* `Ascot.C64.tangent_unit`
* `Ascot.C64.reversed`
* `Ascot.C64.step_keeps`
* `Ascot.C64.stepMhd_keeps`
* `Ascot.C64.failure_unreported`
* `Ascot.C64.kicked_step`
* `Ascot.C63.psi_result`
* `Ascot.C63.psi_dpsi_result`
* `Ascot.C63.B_result`
* `Ascot.C63.B_dB_result`
* `Ascot.C63.rho_drho_result`
* `Ascot.C63.axis_result`
* `Ascot.C63.unknown_type`
* `Ascot.C63.rho_result_partial`
* `Ascot.C63.rho_ends`
* `Ascot.C63.rho_derivative_partial`
* `Ascot.C63.rho_derivative_axis`
* `Ascot.C63.rho_degenerate`
* `Ascot.C84.psi_defined`
* `Ascot.C84.same_psi`
* `Ascot.C84.psi_gradient_partial`
* `Ascot.C84.psi_gradient_at_R0`
* `Ascot.C84.psi_gradient_wrong`
* `Ascot.C84.field_from_flux`
* `Ascot.C84.toroidal`
* `Ascot.C84.toroidal_ripple`
* `Ascot.C84.same_field`
* `Ascot.C84.jacobian_smooth`
* `Ascot.C84.jacobian_ripple`
* `Ascot.C84.divergence_free`
* `Ascot.C84.divergence_ripple`
* `Ascot.C84.divergence_wrong`
* `Ascot.C84.grad_shafranov`
* `Ascot.C84.tangent`
* `Ascot.C84.rho_gradient_partial`
* `Ascot.C84.ripple_symmetric`
* `Ascot.C84.ripple_midplane_partial`
* `Ascot.C84.ripple_midplane_wrong`
* `Ascot.C85.field`
* `Ascot.C85.gradient_partial`
* `Ascot.C85.gradient_iff`
* `Ascot.C85.gradient_uniform`
* `Ascot.C85.gradient_wrong`
* `Ascot.C86.b2_jacobian`
* `Ascot.C86.b3_jacobian`
* `Ascot.C86.sts_jacobian`
* `Ascot.C86.b2_divergence`
* `Ascot.C86.b3_divergence`
* `Ascot.C86.b2_tangent`
* `Ascot.C86.nonzero`
* `Ascot.C86.zero_field`
* `Ascot.C86.rho_consistent`
* `Ascot.C86.at_axis`
* `Ascot.C50.react_bounds`
* `Ascot.C50.probabilities`
* `Ascot.C50.step_division`
* `Ascot.C50.rates_nonneg`
* `Ascot.C50.fo_step`
* `Ascot.C50.unsupported`
* `Ascot.C50.run_invariant`
* `Ascot.C54.offset_always_zero`
* `Ascot.C54.first_reaction_partial`
* `Ascot.C54.second_reaction_wrong`
* `Ascot.C62.defined_iff`
* `Ascot.C62.error_iff_partial`
* `Ascot.C62.neon_undefined`
* `Ascot.C62.vanishing_impurity_undefined`
* `Ascot.C62.carbon_five_undefined`
* `Ascot.C62.four_hydrogen_undefined`
* `Ascot.C87.nonneg`
* `Ascot.C87.error_zero`
* `Ascot.C87.missing_error`
* `Ascot.C87.sigma_value`
* `Ascot.C87.sigmav_value`
* `Ascot.C87.cx_sum`
* `Ascot.C87.cx_error`
* `Ascot.C87.bms_mean_partial`
* `Ascot.C87.bms_counts_isotopes_twice`
* `Ascot.C87.bms_missing_species_silent`
* `Ascot.C87.bms_sigmav_agree_partial`
* `Ascot.C87.bms_sigmav_disagree`
* `Ascot.C88.order_irrelevant`
* `Ascot.C88.split_irrelevant`
* `Ascot.C89.ionisation_law`
* `Ascot.C89.charge_exchange_law`
* `Ascot.C89.decay_measure`
* `Ascot.C89.neutral_identity_ignored`
* `Ascot.C89.neutral_identity_partial`
* `Ascot.C89.more_neutrals_undefined`
* `Ascot.C89.wrong_neutral`
* `Ascot.C51.euler_partial`
* `Ascot.C51.milstein_partial`
* `Ascot.C51.small_steps`
* `Ascot.C51.reflectXi_le_iff`
* `Ascot.C51.reflectV_ge`
* `Ascot.C51.pitch_escapes`
* `Ascot.C51.mark_milstein`
* `Ascot.C90.derivatives`
* `Ascot.C90.einstein`
* `Ascot.C90.friction`
* `Ascot.C90.same_drift`
* `Ascot.C90.maxwellian_speed`
* `Ascot.C90.isotropic_pitch`
* `Ascot.C90.maxwellian`
* `Ascot.C51.coefficients_nonneg`
* `Ascot.C51.coefs_eq`
* `Ascot.C51.negative_logarithm`
* `Ascot.C92.euler_perpendicular`
* `Ascot.C92.milstein_perpendicular`
* `Ascot.C92.euler_switches_partial`
* `Ascot.C92.milstein_switches_partial`
* `Ascot.C92.flow_changes_momentum`
* `Ascot.C51.flow_violation`
* `Ascot.C94.fo_ignores_switches`
* `Ascot.C94.fo_changes`
* `Ascot.C94.fo_step`
* `Ascot.C94.gc_euler_step`
* `Ascot.C94.gc_milstein_step`
* `Ascot.C95.suggest_controlled`
* `Ascot.C95.milstein_controlled`
* `Ascot.C95.estimates_scale`
* `Ascot.C52.cases`
* `Ascot.C52.linear_partial`
* `Ascot.C52.tabulated_partial`
* `Ascot.C52.last_point_rejected`
* `Ascot.C52.flow_is_a_step`
* `Ascot.C96.temperature_partial`
* `Ascot.C96.electrons_only_partial`
* `Ascot.C96.outside`
* `Ascot.C96.flow_tabulated_partial`
* `Ascot.C96.ion_density_is_electron_density`
* `Ascot.C96.last_interval_not_interpolated`
* `Ascot.C96.early_time_undefined`
* `Ascot.C96.flow_weights_exchanged`
* `Ascot.C96.density_wrong`
* `Ascot.C96.flow_wrong`
* `Ascot.C97.spline_profiles`
* `Ascot.C97.positive_and_tabulated`
* `Ascot.C97.SplineOf.tabulated`
* `Ascot.C97.flow_error_lost`
* `Ascot.C98.agree`
* `Ascot.C98.defined_from_first_time`
* `Ascot.C98.unknown_type`
* `Ascot.C53.continued_iff`
* `Ascot.C53.continued_result`
* `Ascot.C53.not_continued_partial`
* `Ascot.C53.independent_partial`
* `Ascot.C53.depends_on_others`
* `Ascot.C53.rhomax_prevents_handover`
* `Ascot.C60.markers`
* `Ascot.C60.mean_energy`
* `Ascot.C60.power_partial`
* `Ascot.C60.power_lost`
* `Ascot.C99.normals_orthonormal`
* `Ascot.C99.deflect_spec`
* `Ascot.C99.start`
* `Ascot.C99.marker`
* `Ascot.C99.beamlet_out_of_bounds`
* `Ascot.C99.never_ends`
* `Ascot.C100.straight`
* `Ascot.C100.attenuation`
* `Ascot.C100.ionised_iff`
* `Ascot.C100.survives_iff`
* `Ascot.C100.law`
* `Ascot.C100.ends`
* `Ascot.C101.end_conditions`
* `Ascot.C101.wall_end`
* `Ascot.C101.shine_iff`
* `Ascot.C101.wall_ignored`
* `Ascot.C101.passes_through_wall`
* `Ascot.C101.final_time`
* `Ascot.C101.wall_time`
* `Ascot.C59.selection`
* `Ascot.C59.momentum_partial`
* `Ascot.C59.momentum_bins`
* `Ascot.C59.energy_pitch_bins`
* `Ascot.C59.parallel_outside`
* `Ascot.C59.pitch_outside`
* `Ascot.C59.one_unset`
* `Ascot.C59.flux_cell_outside`
* `Ascot.C61.reactants_spec`
* `Ascot.C61.momentum`
* `Ascot.C61.energy`
* `Ascot.C61.relative_energy`
* `Ascot.C61.isotropic`
* `Ascot.C61.reported_momentum`
* `Ascot.C61.reported_energy`
* `Ascot.C61.too_much_energy`
* `Ascot.C102.collected`
* `Ascot.C102.bin`
* `Ascot.C102.no_overlap`
* `Ascot.C102.no_race`
* `Ascot.C102.rate`
* `Ascot.C102.below_range`
* `Ascot.C103.energy`
* `Ascot.C103.maxwellian`
* `Ascot.C103.mean_energy`
* `Ascot.C103.sampled`
* `Ascot.C104.charge`
* `Ascot.C104.valid`
* `Ascot.C104.cross_section`
* `Ascot.C104.joined`
* `Ascot.C104.reactivity`
* `Ascot.C104.reactivity_fails`
* `Ascot.C104.mass_defect`
* `Ascot.C104.unknown`
* `Ascot.C105.density1_partial`
* `Ascot.C105.temperature1_partial`
* `Ascot.C105.single`
* `Ascot.C105.outside1_partial`
* `Ascot.C105.density3_partial`
* `Ascot.C105.temperature3_partial`
* `Ascot.C105.outside3_partial`
* `Ascot.C105.species_fails`
* `Ascot.C105.fallback_fails`
* `Ascot.C105.unknown`
* `Ascot.C105.free_partial`
* `Ascot.C105.free_fails`
* `Ascot.C106.radial_partial`
* `Ascot.C106.perpendicular`
* `Ascot.C106.outside`
* `Ascot.C106.uniform`
* `Ascot.C106.unknown`
* `Ascot.C106.reff_fails`
* `Ascot.C107.inside`
* `Ascot.C107.values`
* `Ascot.C107.poloidal`
* `Ascot.C107.toroidal_partial`
* `Ascot.C107.outside`
* `Ascot.C107.nu_sign_fails`
* `Ascot.C107.toroidal_fails`
* `Ascot.C108.functions`
* `Ascot.C108.stationary`
* `Ascot.C108.time_dependent`
* `Ascot.C108.superposition`
* `Ascot.C108.outside`
* `Ascot.C108.fields`
* `Ascot.C108.no_perturbation`
* `Ascot.C108.errors`
* `Ascot.C109.unphysical`
* `Ascot.C109.accepted`
* `Ascot.C109.identified`
* `Ascot.C109.particle`
* `Ascot.C109.guiding_center`
* `Ascot.C109.guiding_center_particle_partial`
* `Ascot.C109.field_line`
* `Ascot.C109.accepts`
* `Ascot.C109.accepts_particle`
* `Ascot.C109.accepts_line`
* `Ascot.C109.parallel_fails`
* `Ascot.C109.along_fails`
* `Ascot.C109.edge_fails`
* `Ascot.C109.edge_witness`
* `Ascot.C110.refused`
* `Ascot.C110.state_to_fo`
* `Ascot.C110.state_to_gc`
* `Ascot.C110.state_to_ml`
* `Ascot.C110.fo_to_state`
* `Ascot.C110.fo_to_state_center`
* `Ascot.C110.gc_to_state`
* `Ascot.C110.gc_to_state_particle`
* `Ascot.C110.ml_to_state`
* `Ascot.C110.fo_round_trip`
* `Ascot.C110.gc_round_trip`
* `Ascot.C110.particle_unchanged`
* `Ascot.C110.center_unchanged`
* `Ascot.C110.line_unchanged`
* `Ascot.C110.particle_round_trip_partial`
* `Ascot.C110.direct_agrees`
* `Ascot.C110.direct_ok`
* `Ascot.C110.direct_failed`
* `Ascot.C110.direct_theta_partial`
* `Ascot.C110.theta_fails`
* `Ascot.C110.theta_witness`
* `Ascot.C110.stored_field_fails`
* `Ascot.C110.momentum_bound`
* `Ascot.C110.direct_theta_fails`
* `Ascot.C111.sound`
* `Ascot.C111.reach`
* `Ascot.C111.complete_partial`
* `Ascot.C111.complete_monotone_partial`
* `Ascot.C111.complete_lipschitz_partial`
* `Ascot.C111.missed`
* `Ascot.C112.found`
* `Ascot.C112.near_axis`
* `Ascot.C112.ascent_mirror`
* `Ascot.C112.descends`
* `Ascot.C112.converges`
* `Ascot.C112.counted`
* `Ascot.C112.endless`
* `Ascot.C112.padding_fails`
* `Ascot.C112.padding_refused`
* `Ascot.C112.sector`
* `Ascot.C112.found_3d`
* `Ascot.C112.not_along_gradient`
* `Ascot.C112.misses_3d`
* `Ascot.C112.climbs_3d`
* `Ascot.C113.distinct`
* `Ascot.C113.pointwise`
* `Ascot.C113.field`
* `Ascot.C113.rho`
* `Ascot.C113.rhotheta`
* `Ascot.C113.electric`
* `Ascot.C113.mhd`
* `Ascot.C113.background`
* `Ascot.C113.coll_stores`
* `Ascot.C113.untouched`
* `Ascot.C113.guiding_centre`
* `Ascot.C113.full_orbit`
* `Ascot.C113.sums_exist`
* `Ascot.C114.same_energy`
* `Ascot.C114.charge_exchange_partial`
* `Ascot.C114.beam_stopping_partial`
* `Ascot.C114.beam_stopping_wrong`
* `Ascot.C114.neutrals_overflow`
* `Ascot.C114.neutral_density_partial`
* `Ascot.C115.safety_factor`
* `Ascot.C115.pitch`
* `Ascot.C115.jacobian`
* `Ascot.C115.jacobian_b2`
* `Ascot.C115.flux_function`
* `Ascot.C116.segment_eq`
* `Ascot.C116.biot_savart_partial`
* `Ascot.C116.no_divergence_partial`
* `Ascot.C116.on_extension`
* `Ascot.C116.square_fails`
* `Ascot.C117.integer_options`
* `Ascot.C117.real_options`
* `Ascot.C117.turn_options`
* `Ascot.C117.distributions`
* `Ascot.C117.needed_present`
* `Ascot.C117.complete`
* `Ascot.C117.orbit_options`
* `Ascot.C118.switches`
* `Ascot.C118.both_flag`
* `Ascot.C118.gc_stops`
* `Ascot.C118.gc_stops_partial`
* `Ascot.C118.both_limits_wrong`
* `Ascot.C119.planes_partial`
* `Ascot.C119.negative_off`
* `Ascot.C119.thirty_undefined`
* `Ascot.C119.thirty_wrong`
* `Ascot.C119.filler_wrong`
* `Ascot.C120.particles`
* `Ascot.C120.particles_needed`
* `Ascot.C120.guiding_centers`
* `Ascot.C120.field_lines`
* `Ascot.C120.kind`
* `Ascot.C120.missing`
* `Ascot.C120.write_read_partial`
* `Ascot.C120.write_violation`
* `Ascot.C121.state`
* `Ascot.C121.errors`
* `Ascot.C121.empty`
* `Ascot.C122.orbits`
* `Ascot.C122.interval`
* `Ascot.C122.nothing`
* `Ascot.C123.coefficients`
* `Ascot.C123.nothing`
* `Ascot.C124.query_partial`
* `Ascot.C124.select_partial`
* `Ascot.C124.aborted_violation`
* `Ascot.C124.names_spec`
* `Ascot.C124.summary_partial`
* `Ascot.C124.summary_violation`
* `Ascot.C125.names`
* `Ascot.C125.si_gc`
* `Ascot.C125.gc`
* `Ascot.C125.fo_partial`
* `Ascot.C125.one_cell`
* `Ascot.C126.abscissa_partial`
* `Ascot.C126.cells`
* `Ascot.C126.cells_back`
* `Ascot.C126.inCell`
* `Ascot.C126.update_partial`
* `Ascot.C126.moment_violation`
* `Ascot.C126.ptor_violation`
* `Ascot.C127.activate_violation`
* `Ascot.C128.chosen`
* `Ascot.C128.reads_iff`
* `Ascot.C128.recorded`
* `Ascot.C128.again`
* `Ascot.C128.bbnbi_again_violation`
* `Ascot.C129.files`
* `Ascot.C129.same`
* `Ascot.C130.serial`
* `Ascot.C130.split_partial`
* `Ascot.C130.split_violation`
* `Ascot.C130.rank_violation`
* `Ascot.C131.grid_partial`
* `Ascot.C131.spline`
* `Ascot.C131.broken_refused`
* `Ascot.C131.flow_violation`
* `Ascot.C131.time_temperature_partial`
* `Ascot.C131.time_density_violation`
* `Ascot.C132.grid_partial`
* `Ascot.C132.spline_partial`
* `Ascot.C132.spline_violation`
* `Ascot.C132.time_violation`
* `Ascot.C133.uniform`
* `Ascot.C133.uniform_refused`
* `Ascot.C133.radial_partial`
* `Ascot.C133.radial_refused`
* `Ascot.C133.reff_violation`
* `Ascot.C133.threeD_violation`
* `Ascot.C134.rho_partial`
* `Ascot.C134.rpz_partial`
* `Ascot.C134.species_violation`
* `Ascot.C134.maxwellian_violation`
* `Ascot.C135.contour`
* `Ascot.C135.triangles_partial`
* `Ascot.C135.refused`
* `Ascot.C135.empty_violation`
* `Ascot.C136.deposition`
* `Ascot.C136.counts`
* `Ascot.C136.total`
* `Ascot.C136.kept`
* `Ascot.C136.flagged`
* `Ascot.C136.mesh`
* `Ascot.C136.figures`
* `Ascot.C136.incidence_partial`
* `Ascot.C136.incidence_violation`
* `Ascot.C137.converted`
* `Ascot.C137.watertight`
* `Ascot.C137.strip`
* `Ascot.C137.contour_elements`
* `Ascot.C137.triangle`
* `Ascot.C137.nodes`
* `Ascot.C137.outline_violation`
* `Ascot.C138.axisymmetric`
* `Ascot.C138.three_dimensional`
* `Ascot.C138.stellarator`
* `Ascot.C138.values2_unique`
* `Ascot.C138.values3_unique`
* `Ascot.C138.values2_grid`
* `Ascot.C138.values3_grid`
* `Ascot.C138.cartesian`
* `Ascot.C138.analytic`
* `Ascot.C138.axis_found_partial`
* `Ascot.C138.refused`
* `Ascot.C138.incomplete_not_read`
* `Ascot.C138.axis_found_violation`
* `Ascot.C138.separatrix_violation`
* `Ascot.C138.axis_omitted_violation`
* `Ascot.C138.ripple_moved_violation`
* `Ascot.C138.equilibrium_component_violation`
* `Ascot.C138.time_dependent_violation`
* `Ascot.C139.one_dimension`
* `Ascot.C139.two_dimensions`
* `Ascot.C139.three_dimensions`
* `Ascot.C139.inside`
* `Ascot.C139.axisymmetric`
* `Ascot.C139.three_dimensional`
* `Ascot.C139.stellarator`
* `Ascot.C139.flux_field`
* `Ascot.C140.stationary`
* `Ascot.C140.time_dependent`
* `Ascot.C140.refused`
* `Ascot.C140.phases_violation`
* `Ascot.C140.one_radius_violation`
* `Ascot.C141.transformation`
* `Ascot.C141.tabulated`
* `Ascot.C141.identity`
* `Ascot.C141.refused`
* `Ascot.C141.offset_violation`
* `Ascot.C141.few_angles_violation`
* `Ascot.C142.first_reaction_partial`
* `Ascot.C142.evaluation_partial`
* `Ascot.C142.second_reaction_violation`
* `Ascot.C142.refused`
* `Ascot.C142.mass_numbers_violation`
* `Ascot.C143.injectors`
* `Ascot.C143.markers`
* `Ascot.C143.checked`
* `Ascot.C143.refused`
* `Ascot.C143.args_of_construct`
* `Ascot.C144.geometry_partial`
* `Ascot.C144.numbers`
* `Ascot.C144.returns`
* `Ascot.C144.focal_length_violation`
* `Ascot.C144.tanz_violation`
* `Ascot.C145.axisymmetric_partial`
* `Ascot.C145.three_dimensional_partial`
* `Ascot.C145.stellarator_partial`
* `Ascot.C145.cartesian_partial`
* `Ascot.C145.analytic_partial`
* `Ascot.C145.axis_search`
* `Ascot.C145.jacobian_violation`
* `Ascot.C145.flux_omitted_violation`
* `Ascot.C145.axis_omitted_violation`
* `Ascot.C145.grid_omitted_violation`
* `Ascot.C145.rows_violation`
* `Ascot.C145.shape_violation`
* `Ascot.C145.unchecked_violation`
* `Ascot.C145.example_violation`
* `Ascot.C146.follows_partial`
* `Ascot.C146.safe_partial`
* `Ascot.C146.init_done`
* `Ascot.C146.refused`
* `Ascot.C146.inputFree_spec`
* `Ascot.C146.stale_injectors_violation`
* `Ascot.C147.recognised`
* `Ascot.C147.right`
* `Ascot.C147.message_missing`
* `Ascot.C147.time_dependent_violation`
* `Ascot.C147.injectors_violation`
* `Ascot.C148.history`
* `Ascot.C148.created`
* `Ascot.C148.simulated`
* `Ascot.C148.activated`
* `Ascot.C148.described`
* `Ascot.C148.missing`
* `Ascot.C148.remove_used`
* `Ascot.C148.removed`
* `Ascot.C148.removed_last`
* `Ascot.C148.removed_parent`
* `Ascot.C148.copied`
* `Ascot.C148.force_not_honoured`
* `Ascot.C148.wrong_exception`
* `Ascot.C148.collision_not_detected`
* `Ascot.C148.copy_not_active`
* `Ascot.C149.view_partial`
* `Ascot.C149.inputs_found`
* `Ascot.C149.tag_alone`
* `Ascot.C149.tag_shared`
* `Ascot.C149.long_tag`
* `Ascot.C149.copied_run_not_openable`
* `Ascot.C149.other_file_not_openable`
* `Ascot.C149.crash_not_openable`
* `Ascot.C149.e3d_not_openable`
* `Ascot.C150.continued_partial`
* `Ascot.C150.time_wrong`
* `Ascot.C150.unordered`
* `Ascot.C151.converted`
* `Ascot.C151.unique`
* `Ascot.C151.chain`
* `Ascot.C151.round_trip`
* `Ascot.C151.refused`
* `Ascot.C151.recognised`
* `Ascot.C151.recognised_again`
* `Ascot.C151.always_found`
* `Ascot.C151.ascot_field`
* `Ascot.C151.units_wrong`
* `Ascot.C151.zero_q_accepted`
* `Ascot.C152.imported_partial`
* `Ascot.C152.import_unknown`
* `Ascot.C152.left_zero`
* `Ascot.C152.beyond_axis`
* `Ascot.C152.wall`
* `Ascot.C153.imported`
* `Ascot.C153.grid`
* `Ascot.C153.imported_dict`
* `Ascot.C153.too_short`
* `Ascot.C153.positive`
* `Ascot.C153.neutral_partial`
* `Ascot.C153.neutral_fractions`
* `Ascot.C153.dict_not_neutral`
* `Ascot.C153.beyond_one`
* `Ascot.C153.rotation`
* `Ascot.C154.sampled`
* `Ascot.C154.total`
* `Ascot.C154.ends`
* `Ascot.C154.never_ends`
* `Ascot.C154.gc_momentum`
* `Ascot.C154.gc_energy`
* `Ascot.C154.momentum_energy`
* `Ascot.C154.velocity_direction`
* `Ascot.C154.velocity_wrong`
* `Ascot.C154.velocity_vertical`
* `Ascot.C154.rho_wrong_cell`
* `Ascot.C154.rho_not_in_cell`
* `Ascot.C154.rho_refused`
* `Ascot.C154.particle_dist`
* `Ascot.C154.particle_dist_eq`
* `Ascot.C154.marker_dist_wrong`
* `Ascot.C155.particles`
* `Ascot.C155.guiding_centers`
* `Ascot.C155.twice`
* `Ascot.C155.three_particles`
* `Ascot.C155.three_guiding_centers`
* `Ascot.C155.thetamod_shifted`
* `Ascot.C155.theta_not_cumulative`
* `Ascot.C156.gyro_orbits`
* `Ascot.C156.guiding_centers`
* `Ascot.C156.field_lines`
* `Ascot.C156.unrecorded`
* `Ascot.C156.unrecorded_wrong`
* `Ascot.C156.hybrid_length`
* `Ascot.C156.hybrid_lost`
* `Ascot.C156.hybrid_mixed`
* `Ascot.C156.hybrid_pperp`
* `Ascot.C156.pncrdir_refused`
* `Ascot.C156.connlen_travelled`
* `Ascot.C157.idle`
* `Ascot.C157.consistent`
* `Ascot.C157.kicked`
* `Ascot.C157.overshot`
* `Ascot.C157.refused`
* `Ascot.C157.pphi_excess`
* `Ascot.C157.pphi_not_constant`
* `Ascot.C157.ekin_excess`
* `Ascot.C157.speed_above_light`
* `Ascot.C158.made`
* `Ascot.C158.copied`
* `Ascot.C158.integrated`
* `Ascot.C158.factor_array`
* `Ascot.C158.factor_full`
* `Ascot.C158.number`
* `Ascot.C158.symmetric_refused`
* `Ascot.C158.sliced`
* `Ascot.C158.step_wrong`
* `Ascot.C158.interpolated`
* `Ascot.C158.lower_edge`
* `Ascot.C158.last_cell`
* `Ascot.C158.last_edge`
* `Ascot.C159.binned`
* `Ascot.C159.number`
* `Ascot.C159.conserved`
* `Ascot.C159.converted`
* `Ascot.C159.default_kept`
* `Ascot.C159.default_lost`
* `Ascot.C159.one_less`
* `Ascot.C159.three_refused`
* `Ascot.C159.listed_iff`
* `Ascot.C159.listed_wrong`
* `Ascot.C160.density_total`
* `Ascot.C160.energy_total`
* `Ascot.C160.spread`
* `Ascot.C160.nonneg`
* `Ascot.C160.pressure_excess`
* `Ascot.C160.twice`
* `Ascot.C160.current`
* `Ascot.C160.faster_than_light`
* `Ascot.C160.volumes`
* `Ascot.C160.shells_uniform`
* `Ascot.C160.shells_wrong`
* `Ascot.C160.toroidal`
* `Ascot.C160.radial`
* `Ascot.C161.rectangle`
* `Ascot.C161.between`
* `Ascot.C161.first`
* `Ascot.C161.first_wrong`
* `Ascot.C161.total`
* `Ascot.C161.refined`
* `Ascot.C161.axisymmetric`
* `Ascot.C161.limits`
* `Ascot.C161.negative`
* `Ascot.C161.ratio`
* `Ascot.C161.inner`
* `Ascot.C161.mc_total`
* `Ascot.C161.opposite`
* `Ascot.C161.separatrix`
* `Ascot.C162.named`
* `Ascot.C162.table`
* `Ascot.C162.thermal_reactants`
* `Ascot.C162.beam_twice`
* `Ascot.C162.volume_cell`
* `Ascot.C162.volume_total`
* `Ascot.C162.bin_cell`
* `Ascot.C162.unequal`
* `Ascot.C162.charge`
* `Ascot.C162.beam_content`
* `Ascot.C162.beam_density`
* `Ascot.C162.beam_number`
* `Ascot.C162.beam_lost`
* `Ascot.C162.grid_ignored`
* `Ascot.C163.rotated`
* `Ascot.C163.superposed`
* `Ascot.C163.scaled`
* `Ascot.C163.left_out`
* `Ascot.C163.same`
* `Ascot.C163.checked`
* `Ascot.C163.revolved_grid`
* `Ascot.C163.revolved`
* `Ascot.C163.number`
* `Ascot.C163.part`
* `Ascot.C163.endless`
* `Ascot.C163.average`
* `Ascot.C163.value_ignored`
* `Ascot.C163.value`
* `Ascot.C163.other_grid`
* `Ascot.C163.angles`
* `Ascot.C163.undone`
* `Ascot.C164.closed`
* `Ascot.C164.increasing`
* `Ascot.C164.poloidal`
* `Ascot.C164.periodic`
* `Ascot.C164.straight`
* `Ascot.C164.jacobian`
* `Ascot.C164.signs`
* `Ascot.C164.rows`
* `Ascot.C164.outermost`
* `Ascot.C164.trapped`
* `Ascot.C164.too_many`
* `Ascot.C164.parallel`
* `Ascot.C164.resonant`
* `Ascot.C165.vacuum`
* `Ascot.C165.depth`
* `Ascot.C165.period_iff`
* `Ascot.C165.grid`
* `Ascot.C165.average`
* `Ascot.C165.aliased`
* `Ascot.C165.plasma_partial`
* `Ascot.C165.not_flat`
* `Ascot.C165.neutral_iff`
* `Ascot.C165.neutrals`
* `Ascot.C165.rectangle`
* `Ascot.C165.wall_inside_partial`
* `Ascot.C165.wall_gaps`
* `Ascot.C166.chebyshev`
* `Ascot.C166.abscissa_range`
* `Ascot.C166.sigma_bounds`
* `Ascot.C166.checked_range`
* `Ascot.C166.exact_eq`
* `Ascot.C166.integrand_spec`
* `Ascot.C166.error_at_ten`
* `Ascot.C166.layout`
* `Ascot.C167.user`
* `Ascot.C167.one_gyration`
* `Ascot.C167.same_step`
* `Ascot.C167.vpa_turn`
* `Ascot.C167.infinite`
* `Ascot.C167.adaptive_bounds`
* `Ascot.C167.adaptive_is_period`
* `Ascot.C167.adaptive_constant`
* `Ascot.C168.fixed_clean`
* `Ascot.C168.mhd_clean`
* `Ascot.C168.nbi_clean`
* `Ascot.C168.neutral_one`
* `Ascot.C168.asigma_clean`
* `Ascot.C168.transcoef_clean`
* `Ascot.C168.rounds`
* `Ascot.C168.fixed_leaks`
* `Ascot.C168.spline_plasma`
* `Ascot.C168.wall3d`
* `Ascot.C168.asigma_leak`
* `Ascot.C168.asigma_undefined`
* `Ascot.C169.kept`
* `Ascot.C169.kept_toroidal`
* `Ascot.C169.nearly`
* `Ascot.C169.lost`
* `Ascot.C169.one_over`
* `Ascot.C169.both_over`
* `Ascot.C169.both_lost`
* `Ascot.C170.same_partial`
* `Ascot.C170.accepted`
* `Ascot.C170.neutralized_refused`
* `Ascot.C170.both_differs`
* `Ascot.C170.diagnostics_dropped`
* `Ascot.C170.array_refused`
* `Ascot.C170.negative_differs`
* `Ascot.C170.half_orbit`
* `Ascot.C170.negative_switch`
* `Ascot.C171.guiding_centers`
* `Ascot.C171.field_lines_partial`
* `Ascot.C171.particles_partial`
* `Ascot.C171.particles_read`
* `Ascot.C171.momentum_wrong`
* `Ascot.C171.field_lines_units`
* `Ascot.C171.guiding_centers_read`
* `Ascot.C171.charge_cut`
* `Ascot.C171.weight_unit`
* `Ascot.C172.session_partial`
* `Ascot.C172.released_partial`
* `Ascot.C172.bounded_partial`
* `Ascot.C172.beam_double_free`
* `Ascot.C172.old_run_changed`
* `Ascot.C172.old_run_unreadable`
* `Ascot.C172.options_leak`
* `Ascot.C172.options_double_free`
* `Ascot.C172.markers_without_field`
* `Ascot.C173.state_partial`
* `Ascot.C173.weight_violation`
* `Ascot.C173.error_violation`
* `Ascot.C173.endcond`
* `Ascot.C173.summary_violation`
* `Ascot.C173.summary_file`
* `Ascot.C173.orbits_partial`
* `Ascot.C173.orbit_weight_violation`
* `Ascot.C173.hybrid_violation`
* `Ascot.C173.direction_violation`
* `Ascot.C173.dist_partial`
* `Ascot.C173.dist_violation`
* `Ascot.C174.settings`
* `Ascot.C174.unknown`
* `Ascot.C174.missing`
* `Ascot.C174.stray_violation`
* `Ascot.C174.stray_file`
* `Ascot.C174.number_violation`
* `Ascot.C174.long_violation`
* `Ascot.C175.recorded`
* `Ascot.C175.radial`
* `Ascot.C175.kinds_partial`
* `Ascot.C175.angles_partial`
* `Ascot.C175.angle_violation`
* `Ascot.C175.plot_radial`
* `Ascot.C175.plot_partial`
* `Ascot.C175.refused_partial`
* `Ascot.C175.plot_violation`
* `Ascot.C175.alternative_violation`
* `Ascot.C176.orbits_partial`
* `Ascot.C176.single`
* `Ascot.C176.several_violation`
* `Ascot.C176.distribution_partial`
* `Ascot.C176.distribution_violation`
* `Ascot.C177.grid`
* `Ascot.C177.points`
* `Ascot.C177.refused`
* `Ascot.C177.listed`
* `Ascot.C177.divergence_curl`
* `Ascot.C177.gradient`
* `Ascot.C177.failed`
* `Ascot.C177.magnitudes`
* `Ascot.C177.poloidal_partial`
* `Ascot.C177.poloidal_violation`
* `Ascot.C177.charge_partial`
* `Ascot.C177.charge_violation`
* `Ascot.C178.grid`
* `Ascot.C178.names`
* `Ascot.C178.orbit_partial`
* `Ascot.C178.first_speed`
* `Ascot.C178.orbit_violation`
* `Ascot.C178.outside_violation`
* `Ascot.C178.reaction_partial`
* `Ascot.C178.swapped_violation`
* `Ascot.C178.unavailable_violation`
* `Ascot.C179.nodes`
* `Ascot.C179.passing_turns`
* `Ascot.C179.trapped_partial`
* `Ascot.C179.trapped_violation`
* `Ascot.C179.few`
* `Ascot.C179.pitch_partial`
* `Ascot.C179.padding`
* `Ascot.C179.pitch_violation`
* `Ascot.C179.resonance_partial`
* `Ascot.C179.resonance_violation`
* `Ascot.C180.refused`
* `Ascot.C180.phi_keeps`
* `Ascot.C180.alpha_keeps`
* `Ascot.C180.phi_partial`
* `Ascot.C180.alpha_partial`
* `Ascot.C180.round_trip`
* `Ascot.C180.resonant`
* `Ascot.C180.resonant_violation`
* `Ascot.C180.rest`
* `Ascot.C180.rest_violation`
* `Ascot.C180.sign_violation`
* `Ascot.C182.window_get`
* `Ascot.C182.window_len`
* `Ascot.C182.seam`
* `Ascot.C182.seam_value`
* `Ascot.C182.centre`
* `Ascot.C182.near_partial`
* `Ascot.C182.middle`
* `Ascot.C182.nearest_violation`
* `Ascot.C182.end_violation`
* `Ascot.C182.below_violation`
* `Ascot.C183.markers`
* `Ascot.C183.particles`
* `Ascot.C183.energy_partial`
* `Ascot.C183.energy_violation`
* `Ascot.C184.between`
* `Ascot.C184.defined`
* `Ascot.C184.passing_partial`
* `Ascot.C184.passing_violation`
* `Ascot.C184.trapped_partial`
* `Ascot.C184.turn_violation`

## Quot.sound, propext (63)

* `Ascot.C03.list_is_sequence`
* `Ascot.C07.fo_not_running`
* `Ascot.C08.gc_not_running`
* `Ascot.C09.ml_not_running`
* `Ascot.C11.compared_decreases`
* `Ascot.C11.first_met`
* `Ascot.C20.partition`
* `Ascot.C20.consecutive`
* `Ascot.C22.dist5D_good`
* `Ascot.C22.dist6D_good`
* `Ascot.C22.distRho5D_good`
* `Ascot.C22.distRho6D_good`
* `Ascot.C22.distCom_good`
* `Ascot.C24.fo_bounds`
* `Ascot.C25.cells`
* `Ascot.C26.sum_partial`
* `Ascot.C26.com_fails`
* `Ascot.C27.bounds`
* `Ascot.C28.surfaces`
* `Ascot.C28.radial_simmode_fails`
* `Ascot.C30.path_contains`
* `Ascot.C32.small_never`
* `Ascot.C35.outside1`
* `Ascot.C35.outside3`
* `Ascot.C37.periods`
* `Ascot.C37.two_points_undefined`
* `Ascot.C55.glibc_conforms`
* `Ascot.C57.linspace_one`
* `Ascot.C73.off_plane_partial`
* `Ascot.C73.never_on_plane`
* `Ascot.C54.error_lost`
* `Ascot.C105.species`
* `Ascot.C124.unknown`
* `Ascot.C124.module_names`
* `Ascot.C127.groups_partial`
* `Ascot.C127.begin_active`
* `Ascot.C128.args_given`
* `Ascot.C130.taken_violation`
* `Ascot.C146.conflict`
* `Ascot.C146.init_same`
* `Ascot.C146.missing`
* `Ascot.C146.given`
* `Ascot.C146.without_arguments`
* `Ascot.C146.unreadable_violation`
* `Ascot.C147.unique`
* `Ascot.C147.completed`
* `Ascot.C150.added`
* `Ascot.C150.all_files`
* `Ascot.C150.any_order`
* `Ascot.C150.marker`
* `Ascot.C162.thermal_of_beam`
* `Ascot.C168.neutral_twice`
* `Ascot.C168.output_lost`
* `Ascot.C172.beam_leak`
* `Ascot.C172.beam_run`
* `Ascot.C172.bad_markers_leak`
* `Ascot.C176.coefficients_partial`
* `Ascot.C176.coefficients_violation`
* `Ascot.C181.detected`
* `Ascot.C181.found`
* `Ascot.C181.agree`
* `Ascot.C181.name_partial`
* `Ascot.C181.name_violation`

## none (18)

* `Ascot.C01.misreported_sites`
* `Ascot.C02.message_defined_partial`
* `Ascot.C02.file_defined_partial`
* `Ascot.C02.message_injective`
* `Ascot.C02.file_injective`
* `Ascot.C02.location_shown_partial`
* `Ascot.C02.message_shown_partial`
* `Ascot.C02.not_all_described`
* `Ascot.C12.text_of_code`
* `Ascot.C12.text_injective`
* `Ascot.C58.ipow_negative`
* `Ascot.C107.init_fails`
* `Ascot.C124.summary_sites`
* `Ascot.C147.message_violation`
* `Ascot.C162.index_refused`
* `Ascot.C162.coordinates`
* `Ascot.C162.refused_iff`
* `Ascot.C162.ignored`

## propext (14)

* `Ascot.C01.raise_ne_zero`
* `Ascot.C10.ml_error_lost`
* `Ascot.C127.overlap_violation`
* `Ascot.C127.qid_violation`
* `Ascot.C146.injectors_stay_violation`
* `Ascot.C150.other_axes`
* `Ascot.C150.distribution_dropped`
* `Ascot.C150.orbits_dropped`
* `Ascot.C150.half_way`
* `Ascot.C150.unknown_marker`
* `Ascot.C162.incomplete`
* `Ascot.C181.named`
* `Ascot.C181.refused`
* `Ascot.C182.centre_refused`
