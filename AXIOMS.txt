C01 Entity.Decomp.C01_decompose1D: propext, Classical.choice, Quot.sound
C02 Entity.Decomp.C02_decompose_partial: propext, Classical.choice, Quot.sound
C02 Entity.Decomp.C02_decompose_auto: propext, Classical.choice, Quot.sound
C02 Entity.Decomp.C02_wraparound_counterexample: propext, Quot.sound
C02 Entity.Decomp.C02_request: propext, Classical.choice, Quot.sound
C02 Entity.Decomp.C02_request_1D_counterexample: propext, Quot.sound
C03 Entity.Decomp.C03_tiling: propext, Classical.choice, Quot.sound
C03 Entity.Decomp.C03_decompose_tiles: propext, Classical.choice, Quot.sound
C04 Entity.Topology.C04_neighbors: propext, Classical.choice, Quot.sound
C05 Entity.Topology.C05_sends_match_receives: propext, Classical.choice, Quot.sound
C05 Entity.Topology.C05_message_sizes: propext, Classical.choice, Quot.sound
C05 Entity.Topology.C05_no_deadlock: propext, Classical.choice, Quot.sound
C06 Entity.Topology.C06_no_exchange_across_wall_partial: propext, Classical.choice, Quot.sound
C06 Entity.Topology.C06_counterexample: propext
C07 Entity.Dir.C07_direction_tables: propext, Classical.choice, Quot.sound
C08 Entity.Tags.C08_send_tag: propext, Classical.choice, Quot.sound
C08 Entity.Tags.C08_codes_inverse: propext, Classical.choice, Quot.sound
C09 Entity.Dir.C09_get_sign: propext, Classical.choice, Quot.sound
C09 Entity.Dir.C09_get_dim_partial: propext, Classical.choice, Quot.sound
C09 Entity.Dir.C09_get_dim_rejects_beyond_x1: propext, Classical.choice, Quot.sound
C09 Entity.Dir.C09_get_dim_counterexample: none
C10 Entity.Dir.C10_assoc_orth: propext, Classical.choice, Quot.sound
C11 Entity.Enums.C11_names_round_trip: propext, Quot.sound
C11 Entity.Enums.C11_invalid_not_printable: propext
C11 Entity.Enums.C11_names_mean: propext, Classical.choice, Quot.sound
C11 Entity.Enums.C11_flags: propext, Classical.choice, Quot.sound
C12 Entity.Params.C12_map_with_promises: propext, Quot.sound
C12 Entity.Params.C12_write_isolated: propext, Quot.sound
C13 Entity.BoundaryInput.C13_two_sided_partial: propext, Classical.choice, Quot.sound
C13 Entity.BoundaryInput.C13_fields_particles_counterexample: propext
C13 Entity.BoundaryInput.C13_sync_accepted_counterexample: propext
C13 Entity.BoundaryInput.C13_spherical_counterexample: propext
C13 Entity.BoundaryInput.C13_spherical_gr: propext, Quot.sound
C14 Entity.Topology.C14_halo_exchange: propext, Classical.choice, Quot.sound
C14 Entity.Topology.C14_narrow_counterexample: propext, Classical.choice, Quot.sound
C15 Entity.Topology.C15_sync_sum: propext, Classical.choice, Quot.sound
C15 Entity.Topology.C15_sync_conserves: propext, Classical.choice, Quot.sound
C16 Entity.Prtl.C16_exchange: propext, Classical.choice, Quot.sound
C16 Entity.Prtl.C16_no_loss_no_duplication: propext, Classical.choice, Quot.sound
C17 Entity.Prtl.C17_global_position: propext, Classical.choice, Quot.sound
C17 Entity.Prtl.C17_all_ranks: propext, Classical.choice, Quot.sound
C18 Entity.Prtl.C18_remove_dead: propext, Classical.choice, Quot.sound
C19 Entity.Prtl.C19_tag_counts: propext, Classical.choice, Quot.sound
C19 Entity.Prtl.C19_invalid_tag_raises: propext, Quot.sound
C20 Entity.Prtl.C20_tile_index: propext, Classical.choice, Quot.sound
C20 Entity.Prtl.C20_spatial_sort: propext, Classical.choice, Quot.sound
C21 Entity.Inject.C21_injection_partial: propext, Classical.choice, Quot.sound
C21 Entity.Inject.C21_injection_counterexample: propext, Classical.choice, Quot.sound
C21 Entity.Prtl.C21_exchange_capacity: propext, Classical.choice, Quot.sound
C22 Entity.Prtl.C22_clearing_counterexample: propext
C22 Entity.Prtl.C22_clearing_partial: propext, Classical.choice, Quot.sound
C22 Entity.Prtl.C22_cleared_partial: propext, Quot.sound
C23 Entity.Push.C23_push: propext, Classical.choice, Quot.sound
C24 Entity.Push.C24_axis: propext, Classical.choice, Quot.sound
C24 Entity.Push.C24_boundaries: propext, Classical.choice, Quot.sound
C24 Entity.Push.C24_serial_partial: propext, Classical.choice, Quot.sound
C24 Entity.Push.C24_custom_counterexample: propext, Classical.choice, Quot.sound
C25 Entity.Push.C25_offset_partial: propext, Classical.choice, Quot.sound
C25 Entity.Push.C25_no_mirror_partial: propext, Classical.choice, Quot.sound
C25 Entity.Push.C25_counterexample: propext, Classical.choice, Quot.sound
C26 Entity.Push.C26_boris_energy: propext, Classical.choice, Quot.sound
C26 Entity.Push.C26_boris_impulse: propext, Classical.choice, Quot.sound
C26 Entity.Push.C26_vay_energy: propext, Classical.choice, Quot.sound
C26 Entity.Push.C26_force_impulse: propext, Classical.choice, Quot.sound
C27 Entity.Push.C27_combined_partial: propext, Classical.choice, Quot.sound
C27 Entity.Push.C27_compton_alone_partial: propext, Classical.choice, Quot.sound
C27 Entity.Push.C27_counterexample: propext, Classical.choice, Quot.sound
C28 Entity.Push.C28_conversion: propext, Classical.choice, Quot.sound
C28 Entity.Push.C28_below: propext, Classical.choice, Quot.sound
C28 Entity.Push.C28_curvilinear_push: propext, Classical.choice, Quot.sound
C29 Entity.Deposit.C29_zigzag_continuity_partial: propext, Classical.choice, Quot.sound
C29 Entity.Deposit.C29_zigzag_3d_defect: propext, Classical.choice, Quot.sound
C29 Entity.Deposit.C29_zigzag_3d_counterexample: propext, Classical.choice, Quot.sound
C30 Entity.Deposit.C30_esirkepov_continuity: propext, Classical.choice, Quot.sound
C31 Entity.Shapes.C31_shape_is_bspline: propext, Classical.choice, Quot.sound
C31 Entity.Shapes.C31_weights: propext, Classical.choice, Quot.sound
C31 Entity.Shapes.C31_other_orders: propext, Quot.sound
C32 Entity.Interp.C32_uniform_field: propext, Classical.choice, Quot.sound
C33 Entity.Deposit.C33_deposit_in_bounds_partial: propext, Classical.choice, Quot.sound
C33 Entity.Deposit.C33_even_order_counterexample: propext, Classical.choice, Quot.sound
C33 Entity.Interp.C33_interpolation_in_bounds: propext, Classical.choice, Quot.sound
C34 Entity.FieldSolver.C34_divergence_extended: propext, Classical.choice, Quot.sound
C34 Entity.FieldSolver.C34_divergence_standard: propext, Classical.choice, Quot.sound
C34 Entity.FieldSolver.C34_ordinary_divergence_counterexample: propext, Classical.choice, Quot.sound
C35 Entity.Gauss.C35_gauss_partial: propext, Classical.choice, Quot.sound
C35 Entity.Gauss.C35_gauss_unfiltered_partial: propext, Classical.choice, Quot.sound
C35 Entity.Gauss.C35_vacuum: propext, Classical.choice, Quot.sound
C36 Entity.FieldSolver.C36_schedule_independent: propext, Classical.choice, Quot.sound
C37 Entity.Filter.C37_total: propext, Classical.choice, Quot.sound
C37 Entity.Filter.C37_uniform: propext, Classical.choice, Quot.sound
C37 Entity.Filter.C37_divergence: propext, Classical.choice, Quot.sound
C38 Entity.Filter.C38_separable_partial: propext, Classical.choice, Quot.sound
C38 Entity.Filter.C38_three_dimensions_counterexample: propext, Classical.choice, Quot.sound
C39 Entity.Filter.C39_one_side_partial: propext, Classical.choice, Quot.sound
C39 Entity.Filter.C39_both_sides_counterexample: propext, Classical.choice, Quot.sound
C39 Entity.Filter.C39_corner_counterexample: propext, Classical.choice, Quot.sound
C40 Entity.Output.C40_tiling: propext, Classical.choice, Quot.sound
C40 Entity.Output.C40_contents: propext, Classical.choice, Quot.sound
C40 Entity.Output.C40_ghosts_counterexample: propext, Quot.sound
C41 Entity.Output.C41_tiling: propext, Classical.choice, Quot.sound
C41 Entity.Output.C41_round_trip: propext, Classical.choice, Quot.sound
C42 Entity.PrtlIO.C42_blocks: propext, Classical.choice, Quot.sound
C43 Entity.PrtlIO.C43_names: propext, Classical.choice, Quot.sound
C43 Entity.PrtlIO.C43_round_trip_partial: propext, Classical.choice, Quot.sound
C43 Entity.PrtlIO.C43_deferred_counterexample: propext, Classical.choice, Quot.sound
C43 Entity.PrtlIO.C43_capacity: propext, Classical.choice, Quot.sound
C44 Entity.Schedule.C44_step_interval: propext, Classical.choice, Quot.sound
C44 Entity.Schedule.C44_time_interval: propext, Classical.choice, Quot.sound
C44 Entity.Schedule.C44_walltime_once: propext, Classical.choice, Quot.sound
C44 Entity.Schedule.C44_walltime_format: propext, Classical.choice, Quot.sound
C45 Entity.Schedule.C45_due_is_written_partial: propext, Classical.choice, Quot.sound
C45 Entity.Schedule.C45_time_counterexample: propext, Classical.choice, Quot.sound
C45 Entity.Schedule.C45_walltime_counterexample: propext, Classical.choice, Quot.sound
C46 Entity.Checkpoint.C46_crash_safe: propext, Classical.choice, Quot.sound
C46 Entity.Checkpoint.C46_bounded: propext, Classical.choice, Quot.sound
C47 Entity.Checkpoint.C47_untracked_partial: propext, Classical.choice, Quot.sound
C47 Entity.Checkpoint.C47_counterexample: propext, Classical.choice, Quot.sound
C48 Entity.Checkpoint.C48_latest_partial: propext, Classical.choice, Quot.sound
C48 Entity.Checkpoint.C48_after_crash_partial: propext, Classical.choice, Quot.sound
C48 Entity.Checkpoint.C48_crash_counterexample: propext, Classical.choice, Quot.sound
C48 Entity.Checkpoint.C48_large_counterexample: propext, Classical.choice, Quot.sound
C49 Entity.Restart.C49_first_restart_partial: propext, Classical.choice, Quot.sound
C49 Entity.Restart.C49_unedited_partial: propext, Classical.choice, Quot.sound
C49 Entity.Restart.C49_second_restart_counterexample: propext, Classical.choice, Quot.sound
C50 Entity.Restart.C50_time_partial: propext, Classical.choice, Quot.sound
C50 Entity.Restart.C50_counterexample: propext, Classical.choice, Quot.sound
C51 Entity.PrtlIO.C51_redecompose_partial: propext, Classical.choice, Quot.sound
C51 Entity.PrtlIO.C51_inconsistent_counterexample: propext
C52 Entity.Props.Stats.C52_rows_match_header_partial: propext, Classical.choice, Quot.sound
C52 Entity.Props.Stats.C52_same_width_partial: propext, Classical.choice, Quot.sound
C52 Entity.Props.Stats.C52_vector_names: propext, Classical.choice, Quot.sound
C52 Entity.Props.Stats.C52_counterexample: propext, Classical.choice, Quot.sound
C52 Entity.Props.Stats.C52_changed_requests_counterexample: propext, Classical.choice, Quot.sound
C53 Entity.Props.Prompt.C53_species_partial: propext, Classical.choice, Quot.sound
C53 Entity.Props.Prompt.C53_species_counterexample: propext
C53 Entity.Props.Prompt.C53_species_rejected: propext, Quot.sound
C53 Entity.Props.Prompt.C53_range_counterexample: propext, Classical.choice, Quot.sound
C53 Entity.Props.Prompt.C53_components: propext, Quot.sound
C53 Entity.Props.Prompt.C53_component: propext, Quot.sound
C53 Entity.Props.Prompt.C53_too_many: propext
C54 Entity.Props.Session.C54_file_names: propext, Classical.choice, Quot.sound
C54 Entity.Props.Session.C54_sessions: propext, Classical.choice, Quot.sound
C54 Entity.Props.Session.C54_rejected: propext, Classical.choice, Quot.sound
C54 Entity.Props.Session.C54_accepted: propext, Classical.choice, Quot.sound
C55 Entity.Props.MeshBox.C55_intersection_partial: propext, Classical.choice, Quot.sound
C55 Entity.Props.MeshBox.C55_intersects_partial: propext, Classical.choice, Quot.sound
C55 Entity.Props.MeshBox.C55_counterexample: propext, Classical.choice, Quot.sound
C56 Entity.Window.C56_fields_partial: propext, Classical.choice, Quot.sound
C56 Entity.Window.C56_particles_partial: propext, Classical.choice, Quot.sound
C56 Entity.Window.C56_extents: propext, Classical.choice, Quot.sound
C56 Entity.Window.C56_counterexample: propext, Quot.sound
C56 Entity.Window.C56_zombie_counterexample: propext
C56 Entity.Window.C56_serial_counterexample: propext
C56 Entity.Window.C56_whole_partial: propext, Classical.choice, Quot.sound
C57 Entity.Inject.C57_exactly_once: propext, Classical.choice, Quot.sound
C57 Entity.Inject.C57_columns: propext, Quot.sound
C58 Entity.Inject.C58_unweighted_partial: propext, Classical.choice, Quot.sound
C58 Entity.Inject.C58_weights_counterexample: propext, Classical.choice, Quot.sound
C59 Entity.Inject.C59_unique_partial: propext, Classical.choice, Quot.sound
C59 Entity.Inject.C59_remove_dead: propext, Classical.choice, Quot.sound
C59 Entity.Inject.C59_exchange: propext, Classical.choice, Quot.sound
C59 Entity.Inject.C59_wraparound_counterexample: propext, Classical.choice, Quot.sound
C60 Entity.Moments.C60_total: propext, Classical.choice, Quot.sound
C60 Entity.Moments.C60_cells: propext, Classical.choice, Quot.sound
C61 Entity.Moments.C61_lower_axis_partial: propext, Classical.choice, Quot.sound
C61 Entity.Moments.C61_upper_axis_counterexample: propext, Classical.choice, Quot.sound
C61 Entity.Moments.C61_mirror_counterexample: propext, Classical.choice, Quot.sound
C62 Entity.Metric.C62_minkowski_inverse: propext, Classical.choice, Quot.sound
C62 Entity.Metric.C62_minkowski_local: propext, Classical.choice, Quot.sound
C62 Entity.Metric.C62_spherical: propext, Classical.choice, Quot.sound
C62 Entity.Metric.C62_kerr_schild: propext, Classical.choice, Quot.sound
C62 Entity.Metric.C62_kerr_schild_0: propext, Classical.choice, Quot.sound
C62 Entity.Metric.C62_qspherical_partial: propext, Classical.choice, Quot.sound
C62 Entity.Metric.C62_negative_stretch_counterexample: propext, Classical.choice, Quot.sound
C62 Entity.Metric.C62_xyz_of_sph: propext, Classical.choice, Quot.sound
C62 Entity.Metric.C62_sph_of_xyz: propext, Classical.choice, Quot.sound
C63 Entity.Push.C63_one_cell: propext, Classical.choice, Quot.sound
C63 Entity.Push.C63_step_safe: propext, Classical.choice, Quot.sound
C64 Entity.Piston.C64_reflection: propext, Classical.choice, Quot.sound
C64 Entity.Piston.C64_position: propext, Classical.choice, Quot.sound
C64 Entity.Piston.C64_offset: propext, Classical.choice, Quot.sound
C65 Entity.Maxwell.C65_rotation: propext, Classical.choice, Quot.sound
C65 Entity.Maxwell.C65_drift_partial: propext, Classical.choice, Quot.sound
C65 Entity.Maxwell.C65_no_drift: propext, Classical.choice, Quot.sound
C65 Entity.Maxwell.C65_cold: propext, Classical.choice, Quot.sound
C65 Entity.Maxwell.C65_sample_boost: propext, Classical.choice, Quot.sound
C65 Entity.Maxwell.C65_counterexample: propext, Classical.choice, Quot.sound
C66 Entity.MainLoop.C66_accounting: propext, Classical.choice, Quot.sound
C66 Entity.MainLoop.C66_number: propext, Classical.choice, Quot.sound
C66 Entity.MainLoop.C66_resume: propext, Classical.choice, Quot.sound
C67 Entity.VecPot.C67_running_integral: propext, Classical.choice, Quot.sound
C67 Entity.VecPot.C67_no_deadlock: propext, Classical.choice, Quot.sound
C68 Entity.Props.SetBC.C68_set_boundary_partial: propext, Quot.sound
C68 Entity.Props.SetBC.C68_counterexample: propext
C68 Entity.Props.SetBC.C68_subdomains_partial: propext, Classical.choice, Quot.sound
C69 Entity.SpeciesInput.C69_pusher_flags: propext, Classical.choice, Quot.sound
C69 Entity.SpeciesInput.C69_species_partial: propext, Classical.choice, Quot.sound
C69 Entity.SpeciesInput.C69_massive_photon_counterexample: propext, Classical.choice, Quot.sound
C70 Entity.Push.C70_midpoint_partial: propext, Classical.choice, Quot.sound
C70 Entity.Push.C70_counterexample: propext, Classical.choice, Quot.sound
C71 Entity.Push.C71_curvilinear_reflection: propext, Classical.choice, Quot.sound
C72 Entity.Push.C72_boris_lorentz: propext, Classical.choice, Quot.sound
C72 Entity.Push.C72_vay_lorentz: propext, Classical.choice, Quot.sound
C73 Entity.Deposit.C73_total_current: propext, Classical.choice, Quot.sound
C74 Entity.Interp.C74_linear_fields: propext, Classical.choice, Quot.sound
C75 Entity.FieldSolver.C75_decomposition_independent: propext, Classical.choice, Quot.sound
C75 Entity.FieldSolver.C75_bitwise: propext, Classical.choice, Quot.sound
C76 Entity.FieldSolver.C76_in_bounds: propext, Classical.choice, Quot.sound
C77 Entity.Filter.C77_axis: propext, Classical.choice, Quot.sound
C78 Entity.Filter.C78_mirror_partial: propext, Classical.choice, Quot.sound
C78 Entity.Filter.C78_tangential_counterexample: propext, Classical.choice, Quot.sound
C79 Entity.MainLoop.C79_checkpoint_partial: propext, Classical.choice, Quot.sound
C79 Entity.MainLoop.C79_counterexample: propext, Classical.choice, Quot.sound
C80 Entity.MainLoop.C80_same_dt_partial: propext, Classical.choice, Quot.sound
C80 Entity.MainLoop.C80_wrong_end: propext, Classical.choice, Quot.sound
C80 Entity.MainLoop.C80_counterexample: propext, Classical.choice, Quot.sound
C81 Entity.Output.C81_entries: propext, Classical.choice, Quot.sound
C81 Entity.Output.C81_last_edge_partial: propext, Classical.choice, Quot.sound
C81 Entity.Output.C81_counterexample: propext, Classical.choice, Quot.sound
C82 Entity.PrtlIO.C82_strided: propext, Classical.choice, Quot.sound
C82 Entity.PrtlIO.C82_tracked: propext, Classical.choice, Quot.sound
C83 Entity.FieldSolver.C83_faraday: propext, Classical.choice, Quot.sound
C83 Entity.FieldSolver.C83_ampere: propext, Classical.choice, Quot.sound
C83 Entity.FieldSolver.C83_ampere_vacuum: propext, Classical.choice, Quot.sound
C84 Entity.Props.Stats.C84_particle_statistic_partial: propext, Classical.choice, Quot.sound
C84 Entity.Props.Stats.C84_decomposition_independent_partial: propext, Classical.choice, Quot.sound
C84 Entity.Props.Stats.C84_weighted_charge_counterexample: propext, Classical.choice, Quot.sound
C84 Entity.Props.Stats.C84_stress_mass_counterexample: propext, Classical.choice, Quot.sound
C84 Entity.Props.Stats.C84_stress_weight_counterexample: propext, Classical.choice, Quot.sound
C85 Entity.Props.MeshBox.C85_cells_of_box_partial: propext, Classical.choice, Quot.sound
C85 Entity.Props.MeshBox.C85_disjoint_partial: propext, Classical.choice, Quot.sound
C85 Entity.Props.MeshBox.C85_counterexample: propext, Classical.choice, Quot.sound
C86 Entity.Metric.C86_kerr_schild: propext, Classical.choice, Quot.sound
C86 Entity.Metric.C86_qkerr_schild: propext, Classical.choice, Quot.sound
C86 Entity.Metric.C86_kerr_schild_0: propext, Classical.choice, Quot.sound
C86 Entity.Metric.C86_diagonal: propext, Classical.choice, Quot.sound
C87 Entity.Metric.C87_diagonal: propext, Classical.choice, Quot.sound
C87 Entity.Metric.C87_minkowski: propext, Classical.choice, Quot.sound
C87 Entity.Metric.C87_kerr_schild: propext, Classical.choice, Quot.sound
C87 Entity.Metric.C87_qkerr_schild: propext, Classical.choice, Quot.sound
C87 Entity.Metric.C87_kerr_schild_0: propext, Classical.choice, Quot.sound
C87 Entity.Metric.C87_tetrad_xyz: propext, Classical.choice, Quot.sound
C87 Entity.Metric.C87_four_vectors: propext, Classical.choice, Quot.sound
C88 Entity.Metric.C88_kerr_schild: propext, Classical.choice, Quot.sound
C88 Entity.Metric.C88_kerr_schild_0: propext, Classical.choice, Quot.sound
C88 Entity.Metric.C88_qkerr_schild_partial: propext, Classical.choice, Quot.sound
C88 Entity.Metric.C88_qkerr_schild_counterexample: propext, Classical.choice, Quot.sound
C89 Entity.Metric.C89_uniform: propext, Classical.choice, Quot.sound
C89 Entity.Metric.C89_stretched_partial: propext, Classical.choice, Quot.sound
C89 Entity.Metric.C89_stretched_counterexample: propext, Classical.choice, Quot.sound
C90 Entity.Metric.C90_energy: propext, Classical.choice, Quot.sound
C91 Entity.Inject.C91_uniform_pairs: propext, Classical.choice, Quot.sound
C91 Entity.Inject.C91_nonuniform_pairs: propext, Classical.choice, Quot.sound
C91 Entity.Inject.C91_same_species_counterexample: propext, Classical.choice, Quot.sound
C92 Entity.Inject.C92_uniform_where: propext, Classical.choice, Quot.sound
C92 Entity.Inject.C92_nonuniform_where: propext, Classical.choice, Quot.sound
C93 Entity.Emission.C93_compton: propext, Classical.choice, Quot.sound
C93 Entity.Emission.C93_synchrotron: propext, Classical.choice, Quot.sound
C94 Entity.Emission.C94_compton_partial: propext, Classical.choice, Quot.sound
C94 Entity.Emission.C94_synchrotron_partial: propext, Classical.choice, Quot.sound
C94 Entity.Emission.C94_counterexample: propext, Classical.choice, Quot.sound
C95 Entity.Curvi.C95_sr: propext, Classical.choice, Quot.sound
C95 Entity.Curvi.C95_gr: propext, Classical.choice, Quot.sound
C96 Entity.Curvi.C96_sr: propext, Classical.choice, Quot.sound
C96 Entity.Curvi.C96_sr_caps_partial: propext, Classical.choice, Quot.sound
C96 Entity.Curvi.C96_axis_current_counterexample: propext, Classical.choice, Quot.sound
C97 Entity.Curvi.C97_gr_partial: propext, Classical.choice, Quot.sound
C97 Entity.Curvi.C97_axis_copied: propext, Classical.choice, Quot.sound
C97 Entity.Curvi.C97_pole_counterexample: propext, Classical.choice, Quot.sound
C98 Entity.Curvi.C98_schedule_partial: propext, Classical.choice, Quot.sound
C98 Entity.Curvi.C98_in_place_partial: propext, Classical.choice, Quot.sound
C98 Entity.Curvi.C98_race_counterexample: propext, Classical.choice, Quot.sound
C99 Entity.Curvi.C99_faraday: propext, Classical.choice, Quot.sound
C99 Entity.Curvi.C99_ampere_partial: propext, Classical.choice, Quot.sound
C99 Entity.Curvi.C99_axis_counterexample: propext, Classical.choice, Quot.sound
C100 Entity.Curvi.C100_divided_partial: propext, Classical.choice, Quot.sound
C100 Entity.Curvi.C100_counterexample: propext, Classical.choice, Quot.sound
C101 Entity.GRPush.C101_velocity_kerr_schild: propext, Classical.choice, Quot.sound
C101 Entity.GRPush.C101_velocity_kerr_schild_0: propext, Classical.choice, Quot.sound
C101 Entity.GRPush.C101_velocity_qkerr_schild_partial: propext, Classical.choice, Quot.sound
C101 Entity.GRPush.C101_position: propext, Classical.choice, Quot.sound
C101 Entity.GRPush.C101_qkerr_schild_counterexample: propext, Classical.choice, Quot.sound
C102 Entity.GRPush.C102_photons: propext, Classical.choice, Quot.sound
C102 Entity.GRPush.C102_massive: propext, Classical.choice, Quot.sound
C103 Entity.GRPush.C103_force: propext, Classical.choice, Quot.sound
C103 Entity.GRPush.C103_magnetic: propext, Classical.choice, Quot.sound
C103 Entity.GRPush.C103_electric: propext, Classical.choice, Quot.sound
C104 Entity.GRPush.C104_counterexample: propext, Classical.choice, Quot.sound
C104 Entity.GRPush.C104_computed_partial: propext, Classical.choice, Quot.sound
C105 Entity.GRPush.C105_force_reversible: propext, Classical.choice, Quot.sound
C105 Entity.GRPush.C105_geodesic_reversible: propext, Classical.choice, Quot.sound
C106 Entity.GRPush.C106_bookkeeping: propext, Classical.choice, Quot.sound
C106 Entity.GRPush.C106_operators: propext, Classical.choice, Quot.sound
C106 Entity.GRPush.C106_walls: propext, Classical.choice, Quot.sound
C107 Entity.GRPush.C107_species: propext, Classical.choice, Quot.sound
C107 Entity.GRPush.C107_dispatch: propext, Classical.choice, Quot.sound
C107 Entity.GRPush.C107_fields: propext, Classical.choice, Quot.sound
C108 Entity.FieldBC.C108_lower: propext, Classical.choice, Quot.sound
C108 Entity.FieldBC.C108_upper_partial: propext, Classical.choice, Quot.sound
C108 Entity.FieldBC.C108_deterministic: propext, Classical.choice, Quot.sound
C108 Entity.FieldBC.C108_counterexample: propext, Classical.choice, Quot.sound
C108 Entity.FieldBC.C108_no_flux: propext, Classical.choice, Quot.sound
C109 Entity.FieldBC.C109_value: propext, Classical.choice, Quot.sound
C109 Entity.FieldBC.C109_frame: propext, Classical.choice, Quot.sound
C109 Entity.FieldBC.C109_between: propext, Classical.choice, Quot.sound
C109 Entity.FieldBC.C109_converges: propext, Classical.choice, Quot.sound
C110 Entity.FieldBC.C110_active: propext, Classical.choice, Quot.sound
C110 Entity.FieldBC.C110_ghosts_partial: propext, Classical.choice, Quot.sound
C110 Entity.FieldBC.C110_counterexample: propext, Classical.choice, Quot.sound
C111 Entity.FieldBC.C111_upper: propext, Classical.choice, Quot.sound
C111 Entity.FieldBC.C111_lower_partial: propext, Classical.choice, Quot.sound
C111 Entity.FieldBC.C111_frame: propext, Classical.choice, Quot.sound
C111 Entity.FieldBC.C111_counterexample: propext, Classical.choice, Quot.sound
C112 Entity.FieldBC.C112_upper: propext, Classical.choice, Quot.sound
C112 Entity.FieldBC.C112_lower_partial: propext, Classical.choice, Quot.sound
C112 Entity.FieldBC.C112_frame: propext, Classical.choice, Quot.sound
C112 Entity.FieldBC.C112_counterexample: propext, Classical.choice, Quot.sound
C113 Entity.FieldBC.C113_copy: propext, Classical.choice, Quot.sound
C113 Entity.FieldBC.C113_copy_partial: propext, Classical.choice, Quot.sound
C113 Entity.FieldBC.C113_frame: propext, Classical.choice, Quot.sound
C113 Entity.FieldBC.C113_deterministic: propext, Classical.choice, Quot.sound
C113 Entity.FieldBC.C113_counterexample: propext, Classical.choice, Quot.sound
C114 Entity.FieldBC.C114_value: propext, Classical.choice, Quot.sound
C114 Entity.FieldBC.C114_frame: propext, Classical.choice, Quot.sound
C115 Entity.FieldBC.C115_lower_partial: propext, Classical.choice, Quot.sound
C115 Entity.FieldBC.C115_upper_partial: propext, Classical.choice, Quot.sound
C115 Entity.FieldBC.C115_frame: propext, Classical.choice, Quot.sound
C115 Entity.FieldBC.C115_counterexample: propext, Classical.choice, Quot.sound
C116 Entity.Spectra.C116_spectrum_partial: propext, Classical.choice, Quot.sound
C116 Entity.Spectra.C116_one_bin: propext, Classical.choice, Quot.sound
C116 Entity.Spectra.C116_overflow_counterexample: propext, Classical.choice, Quot.sound
C116 Entity.Spectra.C116_energy: propext, Classical.choice, Quot.sound
C117 Entity.FieldOut.C117_custom_partial: propext, Classical.choice, Quot.sound
C117 Entity.FieldOut.C117_only_custom: propext, Classical.choice, Quot.sound
C117 Entity.FieldOut.C117_custom_counterexample: propext, Classical.choice, Quot.sound
C118 Entity.FieldOut.C118_written_partial: propext, Classical.choice, Quot.sound
C118 Entity.FieldOut.C118_placement: propext, Quot.sound
C118 Entity.FieldOut.C118_accepted: propext, Classical.choice, Quot.sound
C118 Entity.FieldOut.C118_written_counterexample: propext, Classical.choice, Quot.sound
C119 Entity.FieldOut.C119_accepted: propext, Classical.choice, Quot.sound
C119 Entity.FieldOut.C119_names_identify: propext, Classical.choice, Quot.sound
C120 Entity.FieldsToPhys.C120_centres: propext, Classical.choice, Quot.sound
C120 Entity.FieldsToPhys.C120_as_is: propext, Quot.sound
C120 Entity.FieldsToPhys.C120_ends: propext, Quot.sound
C121 Entity.Divergence.C121_gauss2: propext, Classical.choice, Quot.sound
C121 Entity.Divergence.C121_gauss3: propext, Classical.choice, Quot.sound
C121 Entity.Divergence.C121_gauss1_partial: propext, Classical.choice, Quot.sound
C121 Entity.Divergence.C121_place_counterexample: propext, Classical.choice, Quot.sound
C122 Entity.Moments.C122_subluminal: propext, Classical.choice, Quot.sound
C122 Entity.Moments.C122_mean: propext, Classical.choice, Quot.sound
C122 Entity.Moments.C122_massless_counterexample: propext, Quot.sound
C123 Entity.Metric.C123_kerr_schild: propext, Classical.choice, Quot.sound
C123 Entity.Metric.C123_qkerr_schild: propext, Classical.choice, Quot.sound
C123 Entity.Metric.C123_kerr_schild_0: propext, Classical.choice, Quot.sound
C123 Entity.Metric.C123_flux_partial: propext, Classical.choice, Quot.sound
C123 Entity.Metric.C123_off_centre_counterexample: propext, Classical.choice, Quot.sound
C124 Entity.Atmosphere.C124_pairs: propext, Classical.choice, Quot.sound
C124 Entity.Atmosphere.C124_restores_partial: propext, Classical.choice, Quot.sound
C124 Entity.Atmosphere.C124_no_ghosts: propext, Classical.choice, Quot.sound
C124 Entity.Atmosphere.C124_mass_counterexample: propext, Classical.choice, Quot.sound
C124 Entity.Atmosphere.C124_ds_counterexample: propext, Classical.choice, Quot.sound
C125 Entity.Atmosphere.C125_equilibrium: propext, Classical.choice, Quot.sound
C125 Entity.Atmosphere.C125_layer: propext, Classical.choice, Quot.sound
C125 Entity.Atmosphere.C125_accepted: propext, Classical.choice, Quot.sound
C125 Entity.Atmosphere.C125_confined_partial: propext, Classical.choice, Quot.sound
C125 Entity.Atmosphere.C125_upper_counterexample: propext, Classical.choice, Quot.sound
C125 Entity.Atmosphere.C125_ds_counterexample: propext, Quot.sound
C126 Entity.GRScheme.C126_step: propext, Classical.choice, Quot.sound
C126 Entity.GRScheme.C126_vacuum: propext, Classical.choice, Quot.sound
C126 Entity.GRScheme.C126_constitutive: propext, Classical.choice, Quot.sound
C127 Entity.GRScheme.C127_first: propext, Classical.choice, Quot.sound
C127 Entity.GRScheme.C127_later_partial: propext, Classical.choice, Quot.sound
C127 Entity.GRScheme.C127_first_counterexample: propext, Classical.choice, Quot.sound
C128 Entity.GRScheme.C128_step: propext, Classical.choice, Quot.sound
C129 Entity.FieldSolver.C129_poynting: propext, Classical.choice, Quot.sound
C129 Entity.FieldSolver.C129_vacuum: propext, Classical.choice, Quot.sound
C129 Entity.FieldSolver.C129_stable: propext, Classical.choice, Quot.sound
C129 Entity.FieldSolver.C129_courant: propext, Classical.choice, Quot.sound
C129 Entity.FieldSolver.C129_limit_counterexample: propext, Classical.choice, Quot.sound
C130 Entity.FieldStats.C130_requests: propext, Quot.sound
C130 Entity.FieldStats.C130_decomposition: propext, Classical.choice, Quot.sound
C130 Entity.FieldStats.C130_mean: propext, Classical.choice, Quot.sound
C130 Entity.FieldStats.C130_energy: propext, Classical.choice, Quot.sound
C130 Entity.FieldStats.C130_uniform: propext, Classical.choice, Quot.sound
C130 Entity.FieldStats.C130_work_counterexample: propext, Classical.choice, Quot.sound
C130 Entity.FieldStats.C130_spherical_counterexample: propext, Classical.choice, Quot.sound
C130 Entity.FieldStats.C130_kerr_counterexample: propext, Quot.sound
C131 Entity.FieldSetter.C131_values: propext, Classical.choice, Quot.sound
C131 Entity.FieldSetter.C131_untouched: propext, Classical.choice, Quot.sound
C131 Entity.FieldSetter.C131_ends: propext, Classical.choice, Quot.sound
C131 Entity.FieldSetter.C131_decomposition: propext, Classical.choice, Quot.sound
C131 Entity.FieldSetter.C131_cartesian: propext, Classical.choice, Quot.sound
C131 Entity.FieldSetter.C131_gr_partial: propext, Classical.choice, Quot.sound
C131 Entity.FieldSetter.C131_basis_counterexample: propext, Classical.choice, Quot.sound
C132 Entity.FieldSetter.C132_buffer_counterexample: propext, Classical.choice, Quot.sound
C132 Entity.FieldSetter.C132_grpic: propext, Quot.sound
C132 Entity.FieldSetter.C132_update_partial: propext, Classical.choice, Quot.sound
C132 Entity.FieldSetter.C132_interpolation: propext, Classical.choice, Quot.sound
C133 Entity.Full.C133_box_refinement_partial: propext, Classical.choice, Quot.sound
C134 Entity.Full.C134_whole_simulation_partial: propext, Classical.choice, Quot.sound
C135 Entity.Full.C135_no_step_fails_partial: propext, Classical.choice, Quot.sound
C135 Entity.Full.C135_courant: propext, Classical.choice, Quot.sound
C136 Entity.Full.C136_gauss_forever_partial: propext, Classical.choice, Quot.sound
C136 Entity.Full.C136_gauss_unfiltered_partial: propext, Classical.choice, Quot.sound
C137 Entity.Resume.C137_restart_partial: propext, Classical.choice, Quot.sound
C137 Entity.Resume.C137_resume_safe_partial: propext, Classical.choice, Quot.sound
C138 Entity.Float.C138_rounding: propext, Classical.choice, Quot.sound
C138 Entity.Float.C138_push: propext, Classical.choice, Quot.sound
C138 Entity.Float.C138_many_pushes: propext, Classical.choice, Quot.sound
C138 Entity.Float.C138_offset_one_counterexample: propext, Classical.choice, Quot.sound
C138 Entity.Float.C138_deposit_in_bounds: propext, Classical.choice, Quot.sound
C139 Entity.Float.C139_conversion_partial: propext, Classical.choice, Quot.sound
C139 Entity.Float.C139_negative_offset_counterexample: propext, Classical.choice, Quot.sound
C139 Entity.Float.C139_stall_counterexample: propext, Classical.choice, Quot.sound
C140 Entity.OutIn.C140_schedule_partial: propext, Classical.choice, Quot.sound
C140 Entity.OutIn.C140_interval_counterexample: propext, Classical.choice, Quot.sound
C140 Entity.OutIn.C140_disabled_counterexample: propext, Classical.choice, Quot.sound
C140 Entity.OutIn.C140_downsampling_partial: propext, Classical.choice, Quot.sound
C140 Entity.OutIn.C140_short_list_counterexample: propext, Classical.choice, Quot.sound
C140 Entity.OutIn.C140_species_partial: propext, Classical.choice, Quot.sound
C140 Entity.OutIn.C140_species_counterexample: propext, Quot.sound
C141 Entity.Launch.C141_launch: propext, Classical.choice, Quot.sound
C141 Entity.Launch.C141_command_line_partial: propext, Classical.choice, Quot.sound
C141 Entity.Launch.C141_default_input_counterexample: propext
C142 Entity.Launch.C142_policies_partial: propext, Quot.sound
C142 Entity.Launch.C142_species_zero_counterexample: propext, Quot.sound
C143 Entity.Walls.C143_images_partial: propext, Classical.choice, Quot.sound
C143 Entity.Walls.C143_active_partial: propext, Classical.choice, Quot.sound
C143 Entity.Walls.C143_decomposition_partial: propext, Classical.choice, Quot.sound
C143 Entity.Walls.C143_walls_partial: propext, Classical.choice, Quot.sound
C143 Entity.Walls.C143_divergence_partial: propext, Classical.choice, Quot.sound
C143 Entity.Walls.C143_runs_exist_partial: propext, Classical.choice, Quot.sound
C144 Entity.PrtlPhys.C144_output_partial: propext, Classical.choice, Quot.sound
C145 Entity.EnergyDist.C145_thermal_partial: propext, Classical.choice, Quot.sound
C145 Entity.EnergyDist.C145_tolerance: propext, Classical.choice, Quot.sound
C145 Entity.EnergyDist.C145_drift_partial: propext, Classical.choice, Quot.sound
C145 Entity.EnergyDist.C145_axis_partial: propext, Classical.choice, Quot.sound
C145 Entity.EnergyDist.C145_cold_partial: propext, Classical.choice, Quot.sound
C145 Entity.EnergyDist.C145_counterexample: propext, Classical.choice, Quot.sound
C146 Entity.EnergyDist.C146_density: propext, Classical.choice, Quot.sound
C146 Entity.EnergyDist.C146_energy: propext, Classical.choice, Quot.sound
C146 Entity.EnergyDist.C146_counterexample: propext, Classical.choice, Quot.sound
C147 Entity.PrtlWalls.C147_absorbed_charges_partial: propext, Classical.choice, Quot.sound
C147 Entity.PrtlWalls.C147_reflected_charges_partial: propext, Classical.choice, Quot.sound
C147 Entity.PrtlWalls.C147_counterexample: propext, Classical.choice, Quot.sound
C148 Entity.Options.C148_options_partial: propext, Classical.choice, Quot.sound
C148 Entity.Options.C148_physics_partial: propext, Classical.choice, Quot.sound
C148 Entity.Options.C148_inferred: propext, Classical.choice, Quot.sound
C148 Entity.Options.C148_nominal: propext, Classical.choice, Quot.sound
C148 Entity.Options.C148_default_counterexample: propext, Classical.choice, Quot.sound
C148 Entity.Options.C148_type_counterexample: propext, Classical.choice, Quot.sound
C149 Entity.Options.C149_species_partial: propext, Classical.choice, Quot.sound
C149 Entity.Options.C149_maxnpart_counterexample: propext, Classical.choice, Quot.sound
C150 Entity.Options.C150_grid: propext, Classical.choice, Quot.sound
C150 Entity.Options.C150_layers_partial: propext, Classical.choice, Quot.sound
C150 Entity.Options.C150_layers_counterexample: propext, Classical.choice, Quot.sound
C151 Entity.Diag.C151_table: propext, Classical.choice, Quot.sound
C151 Entity.Diag.C151_overlap: propext, Classical.choice, Quot.sound
C151 Entity.Diag.C151_species_partial: propext, Classical.choice, Quot.sound
C151 Entity.Diag.C151_species_counterexample: propext, Classical.choice, Quot.sound
C152 Entity.Diag.C152_duration: propext, Classical.choice, Quot.sound
C152 Entity.Diag.C152_convert: propext, Classical.choice, Quot.sound
C152 Entity.Diag.C152_average: propext, Classical.choice, Quot.sound
C152 Entity.Diag.C152_progress: propext, Classical.choice, Quot.sound
C153 Entity.Diag.C153_timers_partial: propext, Classical.choice, Quot.sound
C153 Entity.Diag.C153_timers_mpi_partial: propext, Classical.choice, Quot.sound
C153 Entity.Diag.C153_timers_counterexample: propext, Classical.choice, Quot.sound
C153 Entity.Diag.C153_particles_partial: propext, Quot.sound
C153 Entity.Diag.C153_particles_counterexample: propext
C153 Entity.Diag.C153_variation_counterexample: propext, Classical.choice, Quot.sound
C153 Entity.Diag.C153_highlight: propext
C153 Entity.Diag.C153_highlight_counterexample: propext
C154 Entity.Full.C154_translation_partial: propext, Classical.choice, Quot.sound
C155 Entity.Full.C155_distribution_partial: propext, Classical.choice, Quot.sound
C155 Entity.Full.C155_split: propext, Quot.sound
C155 Entity.Full.C155_distinct: propext, Quot.sound
C156 Entity.Setup.C156_setup_options_partial: propext, Classical.choice, Quot.sound
C156 Entity.Setup.C156_counterexample: propext
C157 Entity.Setup.C157_attributes_partial: propext, Classical.choice, Quot.sound
C157 Entity.Setup.C157_never_throws: propext
C157 Entity.Setup.C157_told_apart: propext
C157 Entity.Setup.C157_setup_recorded: propext, Classical.choice, Quot.sound
C157 Entity.Setup.C157_counterexample: propext
C158 Entity.Full.C158_axes_partial: propext, Classical.choice, Quot.sound
C158 Entity.Full.C158_boris: propext, Classical.choice, Quot.sound
C158 Entity.Full.C158_vay: propext, Classical.choice, Quot.sound
C158 Entity.Full.C158_gca: propext, Classical.choice, Quot.sound
C158 Entity.Full.C158_drag: propext, Classical.choice, Quot.sound
C158 Entity.Full.C158_filter_counterexample: propext, Classical.choice, Quot.sound
C159 Entity.Full.C159_mirror_partial: propext, Classical.choice, Quot.sound
C159 Entity.Full.C159_boris: propext, Classical.choice, Quot.sound
C159 Entity.Full.C159_drag: propext, Classical.choice, Quot.sound
C159 Entity.Full.C159_filter_counterexample: propext, Classical.choice, Quot.sound
C160 Entity.Full.C160_units_partial: propext, Classical.choice, Quot.sound
C160 Entity.Full.C160_conjugation_partial: propext, Classical.choice, Quot.sound
C160 Entity.Full.C160_boris: propext, Classical.choice, Quot.sound
C160 Entity.Full.C160_vay: propext, Classical.choice, Quot.sound
C161 Entity.Deposit.C161_plane_partial: propext, Classical.choice, Quot.sound
C161 Entity.Deposit.C161_space_partial: propext, Classical.choice, Quot.sound
C161 Entity.Deposit.C161_drift_partial: propext, Classical.choice, Quot.sound
C161 Entity.Deposit.C161_total_partial: propext, Classical.choice, Quot.sound
C161 Entity.Deposit.C161_order7_sum: propext, Classical.choice, Quot.sound
C161 Entity.Deposit.C161_size: propext, Classical.choice, Quot.sound
C161 Entity.Deposit.C161_literals: propext, Classical.choice, Quot.sound
C161 Entity.Deposit.C161_counterexample: propext, Classical.choice, Quot.sound
C162 Entity.DepositVel.C162_spherical: propext, Classical.choice, Quot.sound
C162 Entity.DepositVel.C162_qspherical: propext, Classical.choice, Quot.sound
C162 Entity.DepositVel.C162_axis: propext, Classical.choice, Quot.sound
C162 Entity.DepositVel.C162_minkowski: propext, Classical.choice, Quot.sound
C162 Entity.DepositVel.C162_kerr_schild: propext, Classical.choice, Quot.sound
C162 Entity.DepositVel.C162_qkerr_schild_partial: propext, Classical.choice, Quot.sound
C162 Entity.DepositVel.C162_current: propext, Classical.choice, Quot.sound
C162 Entity.DepositVel.C162_speed: propext, Classical.choice, Quot.sound
C163 Entity.Startup.C163_exact: propext, Classical.choice, Quot.sound
C163 Entity.Startup.C163_extents: propext, Classical.choice, Quot.sound
C163 Entity.Startup.C163_float_partial: propext, Classical.choice, Quot.sound
C163 Entity.Startup.C163_counterexample_many: propext, Classical.choice, Quot.sound
C163 Entity.Startup.C163_counterexample_far: propext, Classical.choice, Quot.sound
C164 Entity.Clock.C164_number: propext, Classical.choice, Quot.sound
C164 Entity.Clock.C164_number_exact: propext, Classical.choice, Quot.sound
C164 Entity.Clock.C164_counterexample_number: propext, Classical.choice, Quot.sound
C164 Entity.Clock.C164_time: propext, Classical.choice, Quot.sound
C164 Entity.Clock.C164_outputs: propext, Classical.choice, Quot.sound
C164 Entity.Clock.C164_outputs_partial: propext, Classical.choice, Quot.sound
C164 Entity.Clock.C164_counterexample_outputs: propext, Classical.choice, Quot.sound
C165 Entity.Construct.C165_constructs: propext, Classical.choice, Quot.sound
C165 Entity.Construct.C165_divides: propext, Classical.choice, Quot.sound
C165 Entity.Construct.C165_wraparound: propext, Classical.choice, Quot.sound
C166 Entity.Startup.C166_exact: propext, Classical.choice, Quot.sound
C166 Entity.Startup.C166_dyadic_partial: propext, Classical.choice, Quot.sound
C166 Entity.Startup.C166_counterexample: propext, Classical.choice, Quot.sound
C166 Entity.Startup.C166_counterexample_line: propext, Classical.choice, Quot.sound
C167 Entity.Startup.C167_exact: propext, Classical.choice, Quot.sound
C167 Entity.Startup.C167_dyadic_partial: propext, Classical.choice, Quot.sound
C167 Entity.Startup.C167_counterexample: propext, Classical.choice, Quot.sound
C167 Entity.Startup.C167_counterexample_refused: propext, Classical.choice, Quot.sound
C168 Entity.Tuning.C168_uniform_partial: propext, Classical.choice, Quot.sound
C168 Entity.Tuning.C168_counterexample: propext
C168 Entity.Tuning.C168_settings: propext, Classical.choice, Quot.sound
C169 Entity.Filter.C169_normal_partial: propext, Classical.choice, Quot.sound
C169 Entity.Filter.C169_tangential_partial: propext, Classical.choice, Quot.sound
C169 Entity.Filter.C169_both_counterexample: propext, Classical.choice, Quot.sound
C169 Entity.Filter.C169_corner_counterexample: propext, Classical.choice, Quot.sound
C170 Entity.Footprint.C170_report: propext, Classical.choice, Quot.sound
C170 Entity.Footprint.C170_unambiguous: propext, Classical.choice, Quot.sound
C170 Entity.Footprint.C170_counterexample: propext, Classical.choice, Quot.sound
C171 Entity.GRPush.C171_kerr_schild: propext, Classical.choice, Quot.sound
C171 Entity.GRPush.C171_kerr_schild_0: propext, Classical.choice, Quot.sound
C172 Entity.Push.C172_guiding_centre: propext, Classical.choice, Quot.sound
C173 Entity.Atmosphere.C173_uniform: propext, Classical.choice, Quot.sound
C173 Entity.Atmosphere.C173_variable: propext, Classical.choice, Quot.sound
C174 Entity.Dir.C174_hash: propext, Classical.choice, Quot.sound
C174 Entity.Dir.C174_equality: propext
C175 Entity.Push.C175_guiding_centre: propext, Classical.choice, Quot.sound
C175 Entity.Push.C175_conventional: propext, Classical.choice, Quot.sound
C176 Entity.FieldSolver.C176_external_current: propext, Classical.choice, Quot.sound
