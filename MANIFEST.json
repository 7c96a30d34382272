{
 "claims": [
  {
   "property": "C01",
   "status": "proved",
   "theorems": [
    "Entity.Decomp.C01_decompose1D"
   ],
   "note": ""
  },
  {
   "property": "C02",
   "status": "partial",
   "theorems": [
    "Entity.Decomp.C02_decompose_partial",
    "Entity.Decomp.C02_decompose_auto",
    "Entity.Decomp.C02_wraparound_counterexample",
    "Entity.Decomp.C02_request",
    "Entity.Decomp.C02_request_1D_counterexample"
   ],
   "note": "Proved when the product of the chosen numbers of domains is below 2^32, for every value of the floating-point guesses; the 32-bit product check of the code accepts a wrapped product (C02_wraparound_counterexample)."
  },
  {
   "property": "C03",
   "status": "proved",
   "theorems": [
    "Entity.Decomp.C03_tiling",
    "Entity.Decomp.C03_decompose_tiles"
   ],
   "note": ""
  },
  {
   "property": "C04",
   "status": "proved",
   "theorems": [
    "Entity.Topology.C04_neighbors"
   ],
   "note": "For any number of dimensions and any per-axis sizes."
  },
  {
   "property": "C05",
   "status": "proved",
   "theorems": [
    "Entity.Topology.C05_sends_match_receives",
    "Entity.Topology.C05_message_sizes",
    "Entity.Topology.C05_no_deadlock"
   ],
   "note": "Matching, message sizes, and absence of deadlock for every interleaving of unbuffered blocking exchanges."
  },
  {
   "property": "C06",
   "status": "partial",
   "theorems": [
    "Entity.Topology.C06_no_exchange_across_wall_partial",
    "Entity.Topology.C06_counterexample"
   ],
   "note": "Fails in the code: the condition of a corner is that of the first non-periodic axis (C06_counterexample)."
  },
  {
   "property": "C07",
   "status": "proved",
   "theorems": [
    "Entity.Dir.C07_direction_tables"
   ],
   "note": "Finite tables, decided completely, compared with a specification by sign vectors."
  },
  {
   "property": "C08",
   "status": "proved",
   "theorems": [
    "Entity.Tags.C08_send_tag",
    "Entity.Tags.C08_codes_inverse"
   ],
   "note": ""
  },
  {
   "property": "C09",
   "status": "partial",
   "theorems": [
    "Entity.Dir.C09_get_sign",
    "Entity.Dir.C09_get_dim_partial",
    "Entity.Dir.C09_get_dim_rejects_beyond_x1",
    "Entity.Dir.C09_get_dim_counterexample"
   ],
   "note": "get_sign is proved for all vectors; get_dim accepts diagonals that involve x1 (C09_get_dim_counterexample)."
  },
  {
   "property": "C10",
   "status": "proved",
   "theorems": [
    "Entity.Dir.C10_assoc_orth"
   ],
   "note": ""
  },
  {
   "property": "C11",
   "status": "proved",
   "theorems": [
    "Entity.Enums.C11_names_round_trip",
    "Entity.Enums.C11_invalid_not_printable",
    "Entity.Enums.C11_names_mean",
    "Entity.Enums.C11_flags"
   ],
   "note": ""
  },
  {
   "property": "C12",
   "status": "proved",
   "theorems": [
    "Entity.Params.C12_map_with_promises",
    "Entity.Params.C12_write_isolated"
   ],
   "note": ""
  },
  {
   "property": "C13",
   "status": "partial",
   "theorems": [
    "Entity.BoundaryInput.C13_two_sided_partial",
    "Entity.BoundaryInput.C13_fields_particles_counterexample",
    "Entity.BoundaryInput.C13_sync_accepted_counterexample",
    "Entity.BoundaryInput.C13_spherical_counterexample",
    "Entity.BoundaryInput.C13_spherical_gr"
   ],
   "note": "Two-sidedness and the single atmosphere are proved; agreement between fields and particles is not checked by the code (C13_fields_particles_counterexample), SYNC is accepted from the input file, and spherical radial boundaries may be one-sidedly periodic."
  },
  {
   "property": "C14",
   "status": "proved",
   "theorems": [
    "Entity.Topology.C14_halo_exchange",
    "Entity.Topology.C14_narrow_counterexample"
   ],
   "note": "Proved for any decomposition into subdomains at least as wide as the ghost depth, periodic, wall or mixed; fails for narrower subdomains, which the code accepts for interpolation orders 9 to 11 (C14_narrow_counterexample)."
  },
  {
   "property": "C15",
   "status": "proved",
   "theorems": [
    "Entity.Topology.C15_sync_sum",
    "Entity.Topology.C15_sync_conserves"
   ],
   "note": "Each active cell becomes the sum of exactly the array cells that denote the same position; the grand total is conserved on periodic boxes. Additions are exact (commutative monoid), so rounding is not covered."
  },
  {
   "property": "C16",
   "status": "proved",
   "theorems": [
    "Entity.Prtl.C16_exchange",
    "Entity.Prtl.C16_no_loss_no_duplication"
   ],
   "note": "Any decomposition in 1-3 dimensions, any admissible boundary conditions, any schedule, any species content. A particle marked for a direction in which the box ends is shown to be removed if the rank communicates at all in that direction (it receives from the other side); otherwise it keeps its mark, which is excluded by the hypothesis. Messages are lists handed over whole (MPI itself is trusted)."
  },
  {
   "property": "C17",
   "status": "proved",
   "theorems": [
    "Entity.Prtl.C17_global_position",
    "Entity.Prtl.C17_all_ranks"
   ],
   "note": "Cell indices (integer arithmetic), per message and, as a multiset over all ranks, together with everything else the particle carries."
  },
  {
   "property": "C18",
   "status": "proved",
   "theorems": [
    "Entity.Prtl.C18_remove_dead"
   ],
   "note": "All schedules of the three kernels; all attributes of the species kind."
  },
  {
   "property": "C19",
   "status": "proved",
   "theorems": [
    "Entity.Prtl.C19_tag_counts",
    "Entity.Prtl.C19_invalid_tag_raises"
   ],
   "note": ""
  },
  {
   "property": "C20",
   "status": "proved",
   "theorems": [
    "Entity.Prtl.C20_tile_index",
    "Entity.Prtl.C20_spatial_sort"
   ],
   "note": "Kokkos::BinSort is an external call: any permutation along which bins do not decrease."
  },
  {
   "property": "C21",
   "status": "partial",
   "theorems": [
    "Entity.Inject.C21_injection_partial",
    "Entity.Inject.C21_injection_counterexample",
    "Entity.Prtl.C21_exchange_capacity"
   ],
   "note": "Exchange: never out of bounds, error before any write when too full. Injection: after any that reports success the count is within capacity (C21_injection_partial), but the kernels write before the check, so an overfull injection writes out of bounds (C21_injection_counterexample)."
  },
  {
   "property": "C22",
   "status": "partial",
   "theorems": [
    "Entity.Prtl.C22_clearing_counterexample",
    "Entity.Prtl.C22_clearing_partial",
    "Entity.Prtl.C22_cleared_partial"
   ],
   "note": "Fails in the code: the inner loop clears all species (C22_clearing_counterexample). Proved: nothing is cleared when no species is due, and whatever is due is cleared."
  },
  {
   "property": "C23",
   "status": "proved",
   "theorems": [
    "Entity.Push.C23_push"
   ],
   "note": "One axis of the Cartesian push, over any ordered field; the three textual copies are one function."
  },
  {
   "property": "C24",
   "status": "partial",
   "theorems": [
    "Entity.Push.C24_axis",
    "Entity.Push.C24_boundaries",
    "Entity.Push.C24_serial_partial",
    "Entity.Push.C24_custom_counterexample"
   ],
   "note": "Full claim for the MPI build (all boundary kinds, 1-3 dimensions). Serial build: proved for the kinds the pusher acts on; violated for CUSTOM/HORIZON sides (C24_custom_counterexample)."
  },
  {
   "property": "C25",
   "status": "partial",
   "theorems": [
    "Entity.Push.C25_offset_partial",
    "Entity.Push.C25_no_mirror_partial",
    "Entity.Push.C25_counterexample"
   ],
   "note": "Violated exactly when a particle lands on a mirroring upper wall (C25_counterexample: offset 1). Proved for every other landing point and for all non-mirroring sides."
  },
  {
   "property": "C26",
   "status": "proved",
   "theorems": [
    "Entity.Push.C26_boris_energy",
    "Entity.Push.C26_boris_impulse",
    "Entity.Push.C26_vay_energy",
    "Entity.Push.C26_force_impulse"
   ],
   "note": "Exact real arithmetic. Boris and Vay with E=0; Boris with B=0; external force impulse."
  },
  {
   "property": "C27",
   "status": "partial",
   "theorems": [
    "Entity.Push.C27_combined_partial",
    "Entity.Push.C27_compton_alone_partial",
    "Entity.Push.C27_counterexample"
   ],
   "note": "Violated: the synchrotron routine rescales the shared time-centred momentum, so the Compton drag uses the velocity instead (C27_counterexample). The theorems state what the code does."
  },
  {
   "property": "C28",
   "status": "proved",
   "theorems": [
    "Entity.Push.C28_conversion",
    "Entity.Push.C28_below",
    "Entity.Push.C28_curvilinear_push"
   ],
   "note": "Over any floor ring; also the sharpness of the bound -1 and the curvilinear push."
  },
  {
   "property": "C29",
   "status": "partial",
   "theorems": [
    "Entity.Deposit.C29_zigzag_continuity_partial",
    "Entity.Deposit.C29_zigzag_3d_defect",
    "Entity.Deposit.C29_zigzag_3d_counterexample"
   ],
   "note": "1D and 2D, and motion in a coordinate plane in 3D: proved over every ordered field, for any set of particles and any order of additions. The general 3D claim is false: C29_zigzag_3d_counterexample, and C29_zigzag_3d_defect gives the size of the defect for a particle that stays in its cell."
  },
  {
   "property": "C30",
   "status": "proved",
   "theorems": [
    "Entity.Deposit.C30_esirkepov_continuity"
   ],
   "note": "Orders 1-11 in 1D, 2D and 3D over every ordered field; charge weights are the Cox-de Boor B-splines, an independent definition. Rounding is not modelled."
  },
  {
   "property": "C31",
   "status": "proved",
   "theorems": [
    "Entity.Shapes.C31_shape_is_bspline",
    "Entity.Shapes.C31_weights",
    "Entity.Shapes.C31_other_orders"
   ],
   "note": "Orders 1-11, both staggerings, against the Cox-de Boor recursion; exact arithmetic."
  },
  {
   "property": "C32",
   "status": "proved",
   "theorems": [
    "Entity.Interp.C32_uniform_field"
   ],
   "note": "Orders 0-11, 1D-3D, exact arithmetic; every component at its staggered position."
  },
  {
   "property": "C33",
   "status": "partial",
   "theorems": [
    "Entity.Deposit.C33_deposit_in_bounds_partial",
    "Entity.Deposit.C33_even_order_counterexample",
    "Entity.Interp.C33_interpolation_in_bounds"
   ],
   "note": "Deposit and interpolation kernels, orders 0-11, 1D-3D. The interpolation stays in the array always (C33_interpolation_in_bounds). The deposit claim is false at even orders for positions in [n+1/2, n+1): C33_even_order_counterexample."
  },
  {
   "property": "C34",
   "status": "proved",
   "theorems": [
    "Entity.FieldSolver.C34_divergence_extended",
    "Entity.FieldSolver.C34_divergence_standard",
    "Entity.FieldSolver.C34_ordinary_divergence_counterexample"
   ],
   "note": "Cartesian grids 1D/2D/3D, any decomposition of a periodic box, any number of Faraday updates with arbitrary other operations in between; exact arithmetic. With the extended stencil the conserved divergence is the one built with the extended differences; the ordinary divergence is not conserved if the stencil is anisotropic (counterexample). Curvilinear kernels are not modelled."
  },
  {
   "property": "C35",
   "status": "partial",
   "theorems": [
    "Entity.Gauss.C35_gauss_partial",
    "Entity.Gauss.C35_gauss_unfiltered_partial",
    "Entity.Gauss.C35_vacuum"
   ],
   "note": "Exact arithmetic; periodic Cartesian box, any decomposition, any schedule; deposit and field solver enabled; the particles only move (no injection or removal). Missing: 3D zigzag deposit of particles moving along all three axes, which violates continuity (C29)."
  },
  {
   "property": "C36",
   "status": "proved",
   "theorems": [
    "Entity.FieldSolver.C36_schedule_independent"
   ],
   "note": "Interleavings of the instructions (loads, arithmetic, stores) of all cells on a sequentially consistent memory. Covers Faraday, Ampere, CurrentsAmpere with and without external current, divergence, and both filters. No law of arithmetic is used, so the statement holds for rounded operations too."
  },
  {
   "property": "C37",
   "status": "proved",
   "theorems": [
    "Entity.Filter.C37_total",
    "Entity.Filter.C37_uniform",
    "Entity.Filter.C37_divergence"
   ],
   "note": "Periodic boxes on any decomposition, 1D-3D, any number of passes: the sum of each component over the box and uniform currents are preserved, and filtering commutes with the (backward) divergence, so a filtered current satisfies the continuity equation of the filtered density."
  },
  {
   "property": "C38",
   "status": "partial",
   "theorems": [
    "Entity.Filter.C38_separable_partial",
    "Entity.Filter.C38_three_dimensions_counterexample"
   ],
   "note": "Proved in one and two dimensions on any periodic decomposition. In three dimensions the code is not the separable filter (C38_three_dimensions_counterexample): two of the diagonal neighbours in the x2-x3 plane are missing, the x3 neighbours counted twice."
  },
  {
   "property": "C39",
   "status": "partial",
   "theorems": [
    "Entity.Filter.C39_one_side_partial",
    "Entity.Filter.C39_both_sides_counterexample",
    "Entity.Filter.C39_corner_counterexample"
   ],
   "note": "Proved when only one side of one axis of the subdomain is conducting. False with conductors on both sides of an axis and in corners (counterexamples); the code has a TODO for corners."
  },
  {
   "property": "C40",
   "status": "proved",
   "theorems": [
    "Entity.Output.C40_tiling",
    "Entity.Output.C40_contents",
    "Entity.Output.C40_ghosts_counterexample"
   ],
   "note": "Tiling and contents of the output array for every decomposition, factor and writing order (double-precision ceil taken as exact). C40_ghosts_counterexample: with output.debug.ghosts the layout loop runs past its vectors."
  },
  {
   "property": "C41",
   "status": "proved",
   "theorems": [
    "Entity.Output.C41_tiling",
    "Entity.Output.C41_round_trip"
   ],
   "note": "Tiling and round trip for every decomposition, ghost width and writing order; ADIOS2 Put/Get of a block by contract."
  },
  {
   "property": "C42",
   "status": "proved",
   "theorems": [
    "Entity.PrtlIO.C42_blocks"
   ],
   "note": "For every list of counts; totals in 64 bits as unbounded naturals."
  },
  {
   "property": "C43",
   "status": "partial",
   "theorems": [
    "Entity.PrtlIO.C43_names",
    "Entity.PrtlIO.C43_round_trip_partial",
    "Entity.PrtlIO.C43_deferred_counterexample",
    "Entity.PrtlIO.C43_capacity"
   ],
   "note": "Round trip for any ranks, species and payload memory order, assuming the engine copies small data when put; reading respects the capacity. C43_deferred_counterexample: under the documented deferred contract the numbers are put from dangling temporaries."
  },
  {
   "property": "C44",
   "status": "proved",
   "theorems": [
    "Entity.Schedule.C44_step_interval",
    "Entity.Schedule.C44_time_interval",
    "Entity.Schedule.C44_walltime_once",
    "Entity.Schedule.C44_walltime_format"
   ],
   "note": "Tracker::shouldWrite for the three kinds of schedule; exact arithmetic, the wall clock is an argument."
  },
  {
   "property": "C45",
   "status": "partial",
   "theorems": [
    "Entity.Schedule.C45_due_is_written_partial",
    "Entity.Schedule.C45_time_counterexample",
    "Entity.Schedule.C45_walltime_counterexample"
   ],
   "note": "Steps not written although due: time schedules in the first two steps, and a step due when the wall time limit fires; proved for step schedules."
  },
  {
   "property": "C46",
   "status": "proved",
   "theorems": [
    "Entity.Checkpoint.C46_crash_safe",
    "Entity.Checkpoint.C46_bounded"
   ],
   "note": "Every state between two file operations; the operations on a file are open/complete or remove, the file system is otherwise perfect."
  },
  {
   "property": "C47",
   "status": "partial",
   "theorems": [
    "Entity.Checkpoint.C47_untracked_partial",
    "Entity.Checkpoint.C47_counterexample"
   ],
   "note": "Bound proved when outsiders delete untracked files; lost for ever after deletion of the oldest tracked checkpoint (counterexample)."
  },
  {
   "property": "C48",
   "status": "partial",
   "theorems": [
    "Entity.Checkpoint.C48_latest_partial",
    "Entity.Checkpoint.C48_after_crash_partial",
    "Entity.Checkpoint.C48_crash_counterexample",
    "Entity.Checkpoint.C48_large_counterexample"
   ],
   "note": "Proved if the newest data on disk are complete, in particular after a crash outside writing; a crash while writing makes the restart use (or fail on) the incomplete checkpoint, and steps of 2^31 or more cannot be read back (counterexamples)."
  },
  {
   "property": "C49",
   "status": "partial",
   "theorems": [
    "Entity.Restart.C49_first_restart_partial",
    "Entity.Restart.C49_unedited_partial",
    "Entity.Restart.C49_second_restart_counterexample"
   ],
   "note": "First restart and unedited files proved; a second restart uses the edited file (counterexample)."
  },
  {
   "property": "C50",
   "status": "partial",
   "theorems": [
    "Entity.Restart.C50_time_partial",
    "Entity.Restart.C50_counterexample"
   ],
   "note": "Exact characterisation of the restored time (rational arithmetic); times that are no multiples of 1e-6 change (counterexample)."
  },
  {
   "property": "C51",
   "status": "partial",
   "theorems": [
    "Entity.PrtlIO.C51_redecompose_partial",
    "Entity.PrtlIO.C51_inconsistent_counterexample"
   ],
   "note": "Sizes coming from a decomposition are restored with prefix-sum offsets or rejected; C51_inconsistent_counterexample: sizes that disagree between domains at the same position are accepted."
  },
  {
   "property": "C52",
   "status": "partial",
   "theorems": [
    "Entity.Props.Stats.C52_rows_match_header_partial",
    "Entity.Props.Stats.C52_same_width_partial",
    "Entity.Props.Stats.C52_vector_names",
    "Entity.Props.Stats.C52_counterexample",
    "Entity.Props.Stats.C52_changed_requests_counterexample"
   ],
   "note": "For statistics requests without repeated-component expansion mismatch every row has one cell per header column, in the same order, over any sequence of runs on one file with unchanged requests. The code breaks the general claim: a request of stress components writes one header cell for several numbers (C52_counterexample), and changed requests are appended below the old header (C52_changed_requests_counterexample)."
  },
  {
   "property": "C53",
   "status": "partial",
   "theorems": [
    "Entity.Props.Prompt.C53_species_partial",
    "Entity.Props.Prompt.C53_species_counterexample",
    "Entity.Props.Prompt.C53_species_rejected",
    "Entity.Props.Prompt.C53_range_counterexample",
    "Entity.Props.Prompt.C53_components",
    "Entity.Props.Prompt.C53_component",
    "Entity.Props.Prompt.C53_too_many"
   ],
   "note": "Full grammar of requests. Species numbers above 255 wrap because the species index is one byte, negative numbers are accepted and trailing text is ignored (C53_species_counterexample, C53_range_counterexample); C53_species_partial covers numbers up to 255."
  },
  {
   "property": "C54",
   "status": "proved",
   "theorems": [
    "Entity.Props.Session.C54_file_names",
    "Entity.Props.Session.C54_sessions",
    "Entity.Props.Session.C54_rejected",
    "Entity.Props.Session.C54_accepted"
   ],
   "note": "Every sequence of calls including rejected ones and failed opens; ADIOS2 contract (Open/Put/EndStep/Close) is assumed."
  },
  {
   "property": "C55",
   "status": "partial",
   "theorems": [
    "Entity.Props.MeshBox.C55_intersection_partial",
    "Entity.Props.MeshBox.C55_intersects_partial",
    "Entity.Props.MeshBox.C55_counterexample"
   ],
   "note": "Exact over ordered fields, AlmostEqual read as equality. Missing: sides bounded below and unbounded above, where the code returns too few intervals (C55_counterexample)."
  },
  {
   "property": "C56",
   "status": "partial",
   "theorems": [
    "Entity.Window.C56_fields_partial",
    "Entity.Window.C56_particles_partial",
    "Entity.Window.C56_extents",
    "Entity.Window.C56_counterexample",
    "Entity.Window.C56_zombie_counterexample",
    "Entity.Window.C56_serial_counterexample",
    "Entity.Window.C56_whole_partial"
   ],
   "note": "Fields: every shift not above the ghost width, every decomposition and value type; particles: every shift of at most one subdomain's reach, counted over all ranks with their global cell. Fails for larger shifts (stale cells, no check in the code), with walls on one subdomain (particle keeps its send tag) and in the build without MPI (particle stays alive outside the domain): three counterexamples."
  },
  {
   "property": "C57",
   "status": "proved",
   "theorems": [
    "Entity.Inject.C57_exactly_once",
    "Entity.Inject.C57_columns"
   ],
   "note": "Exact arithmetic. The metric conversions are monotone maps (`GeoOk`). The hypothesis that the list is no longer than the capacity is only for weighted lists (see C58)."
  },
  {
   "property": "C58",
   "status": "partial",
   "theorems": [
    "Entity.Inject.C58_unweighted_partial",
    "Entity.Inject.C58_weights_counterexample"
   ],
   "note": "Without weights every injected particle has weight 1. With weights the kernel reads the weight array of the species at the index in the list instead of the supplied one (counterexample)."
  },
  {
   "property": "C59",
   "status": "partial",
   "theorems": [
    "Entity.Inject.C59_unique_partial",
    "Entity.Inject.C59_remove_dead",
    "Entity.Inject.C59_exchange",
    "Entity.Inject.C59_wraparound_counterexample"
   ],
   "note": "Proved for up to 2^32 particles ever created per rank and species; beyond that the 32-bit counter wraps (counterexample). Histories consist of creations, removals, exchanges and restarts; the steps that keep identifiers are justified by C59_remove_dead and C59_exchange."
  },
  {
   "property": "C60",
   "status": "proved",
   "theorems": [
    "Entity.Moments.C60_total",
    "Entity.Moments.C60_cells"
   ],
   "note": "Exact arithmetic; square root and metric are parameters. Sums include ghost cells, which the synchronisation adds to the neighbours (C15)."
  },
  {
   "property": "C61",
   "status": "partial",
   "theorems": [
    "Entity.Moments.C61_lower_axis_partial",
    "Entity.Moments.C61_upper_axis_counterexample",
    "Entity.Moments.C61_mirror_counterexample"
   ],
   "note": "Holds at the lower axis (nothing is lost, though folded one row off, C61_mirror_counterexample); at the upper axis the row next to the axis goes to a ghost row and is lost (C61_upper_axis_counterexample)."
  },
  {
   "property": "C62",
   "status": "partial",
   "theorems": [
    "Entity.Metric.C62_minkowski_inverse",
    "Entity.Metric.C62_minkowski_local",
    "Entity.Metric.C62_spherical",
    "Entity.Metric.C62_kerr_schild",
    "Entity.Metric.C62_kerr_schild_0",
    "Entity.Metric.C62_qspherical_partial",
    "Entity.Metric.C62_negative_stretch_counterexample",
    "Entity.Metric.C62_xyz_of_sph",
    "Entity.Metric.C62_sph_of_xyz"
   ],
   "note": "Exact real arithmetic. Stretching between 0 and 1 or switched off; for negative stretching (documented as allowed) the angular conversion is not a number (C62_negative_stretch_counterexample)."
  },
  {
   "property": "C63",
   "status": "proved",
   "theorems": [
    "Entity.Push.C63_one_cell",
    "Entity.Push.C63_step_safe"
   ],
   "note": "Minkowski metric; massive and massless particles; combined with C23 and C24 into a safety theorem of one position update."
  },
  {
   "property": "C64",
   "status": "proved",
   "theorems": [
    "Entity.Piston.C64_reflection",
    "Entity.Piston.C64_position",
    "Entity.Piston.C64_offset"
   ],
   "note": "Proved over the reals for every momentum and subluminal wall speed."
  },
  {
   "property": "C65",
   "status": "partial",
   "theorems": [
    "Entity.Maxwell.C65_rotation",
    "Entity.Maxwell.C65_drift_partial",
    "Entity.Maxwell.C65_no_drift",
    "Entity.Maxwell.C65_cold",
    "Entity.Maxwell.C65_sample_boost",
    "Entity.Maxwell.C65_counterexample"
   ],
   "note": "Real arithmetic; every sample and random number is an argument; the distribution of the samples is C145. Drifts with a nonzero component below the comparison tolerance lose that component (C65_counterexample)."
  },
  {
   "property": "C66",
   "status": "proved",
   "theorems": [
    "Entity.MainLoop.C66_accounting",
    "Entity.MainLoop.C66_number",
    "Entity.MainLoop.C66_resume"
   ],
   "note": "Exact arithmetic for times; the stages inside step_forward are one event."
  },
  {
   "property": "C67",
   "status": "proved",
   "theorems": [
    "Entity.VecPot.C67_running_integral",
    "Entity.VecPot.C67_no_deadlock"
   ],
   "note": "Exact arithmetic. That a halo cell holds the neighbour's value (C14) and that local and global metric agree are the hypotheses `Split`. Messages are blocking; every order in which each rank keeps its own order is covered."
  },
  {
   "property": "C68",
   "status": "partial",
   "theorems": [
    "Entity.Props.SetBC.C68_set_boundary_partial",
    "Entity.Props.SetBC.C68_counterexample",
    "Entity.Props.SetBC.C68_subdomains_partial"
   ],
   "note": "Proved for x1 and x3 sides and for 1D; setting an x2 side also changes the x1 side of the same sign (C68_counterexample)."
  },
  {
   "property": "C69",
   "status": "partial",
   "theorems": [
    "Entity.SpeciesInput.C69_pusher_flags",
    "Entity.SpeciesInput.C69_species_partial",
    "Entity.SpeciesInput.C69_massive_photon_counterexample"
   ],
   "note": "Flags are proved; a massive species can get the photon flag through a list such as photon,boris (C69_massive_photon_counterexample)."
  },
  {
   "property": "C70",
   "status": "partial",
   "theorems": [
    "Entity.Push.C70_midpoint_partial",
    "Entity.Push.C70_counterexample"
   ],
   "note": "Violated without custom update: averaging is applied twice (C70_counterexample)."
  },
  {
   "property": "C71",
   "status": "proved",
   "theorems": [
    "Entity.Push.C71_curvilinear_reflection"
   ],
   "note": "The metric transformations are parameters assumed inverse to each other."
  },
  {
   "property": "C72",
   "status": "proved",
   "theorems": [
    "Entity.Push.C72_boris_lorentz",
    "Entity.Push.C72_vay_lorentz"
   ],
   "note": "Exact real arithmetic."
  },
  {
   "property": "C73",
   "status": "proved",
   "theorems": [
    "Entity.Deposit.C73_total_current"
   ],
   "note": "Orders 0-11, 1D-3D, exact arithmetic."
  },
  {
   "property": "C74",
   "status": "proved",
   "theorems": [
    "Entity.Interp.C74_linear_fields"
   ],
   "note": "Orders 1-11 as the theorem states; 1D-3D, exact arithmetic."
  },
  {
   "property": "C75",
   "status": "proved",
   "theorems": [
    "Entity.FieldSolver.C75_decomposition_independent",
    "Entity.FieldSolver.C75_bitwise"
   ],
   "note": "Periodic boxes; initial exchange of all components. No law of arithmetic is used: C75_bitwise is the instance for binary floating-point formats. Particles are not part of this claim."
  },
  {
   "property": "C76",
   "status": "proved",
   "theorems": [
    "Entity.FieldSolver.C76_in_bounds"
   ],
   "note": "Cartesian kernels and the spherical filter on active cells; N_GHOSTS >= 2 as in every configuration."
  },
  {
   "property": "C77",
   "status": "proved",
   "theorems": [
    "Entity.Filter.C77_axis"
   ],
   "note": "2D axisymmetric grids with at least three cells in polar angle; all fields, both axes, any schedule of the kernel."
  },
  {
   "property": "C78",
   "status": "partial",
   "theorems": [
    "Entity.Filter.C78_mirror_partial",
    "Entity.Filter.C78_tangential_counterexample"
   ],
   "note": "Proved for the normal component in one dimension; false for the tangential components (C78_tangential_counterexample)."
  },
  {
   "property": "C79",
   "status": "partial",
   "theorems": [
    "Entity.MainLoop.C79_checkpoint_partial",
    "Entity.MainLoop.C79_counterexample"
   ],
   "note": "Checkpoint flag right; the output flag is always false (counterexample)."
  },
  {
   "property": "C80",
   "status": "partial",
   "theorems": [
    "Entity.MainLoop.C80_same_dt_partial",
    "Entity.MainLoop.C80_wrong_end",
    "Entity.MainLoop.C80_counterexample"
   ],
   "note": "Proved for an unchanged time step; CFL may be changed on restart and then the run ends at the wrong time (counterexample)."
  },
  {
   "property": "C81",
   "status": "partial",
   "theorems": [
    "Entity.Output.C81_entries",
    "Entity.Output.C81_last_edge_partial",
    "Entity.Output.C81_counterexample"
   ],
   "note": "Entries proved for every factor; the last edge only without downsampling. C81_counterexample: with a factor above 1 the last edge is wrong (or 0)."
  },
  {
   "property": "C82",
   "status": "proved",
   "theorems": [
    "Entity.PrtlIO.C82_strided",
    "Entity.PrtlIO.C82_tracked"
   ],
   "note": "Strided and tracked selection, every schedule. Stride 0 (division by zero) is excluded."
  },
  {
   "property": "C83",
   "status": "proved",
   "theorems": [
    "Entity.FieldSolver.C83_faraday",
    "Entity.FieldSolver.C83_ampere",
    "Entity.FieldSolver.C83_ampere_vacuum"
   ],
   "note": "Exact arithmetic; periodic Cartesian box, any decomposition, any interleaving of the kernel threads; no external current."
  },
  {
   "property": "C84",
   "status": "partial",
   "theorems": [
    "Entity.Props.Stats.C84_particle_statistic_partial",
    "Entity.Props.Stats.C84_decomposition_independent_partial",
    "Entity.Props.Stats.C84_weighted_charge_counterexample",
    "Entity.Props.Stats.C84_stress_mass_counterexample",
    "Entity.Props.Stats.C84_stress_weight_counterexample"
   ],
   "note": "Order and distribution independent, equal to the documented contribution for the quantities and weight settings listed in the theorem; violated when weights are used for charge and mass, and for stresses with mass other than one or with weights (three counterexamples). Exact arithmetic; floating-point reduction order is not modelled."
  },
  {
   "property": "C85",
   "status": "partial",
   "theorems": [
    "Entity.Props.MeshBox.C85_cells_of_box_partial",
    "Entity.Props.MeshBox.C85_disjoint_partial",
    "Entity.Props.MeshBox.C85_counterexample"
   ],
   "note": "Cartesian metric, no ghost cells requested, exact arithmetic. Boxes bounded below and unbounded above are affected by C55 (C85_counterexample selects ghost cells for a box outside of the mesh)."
  },
  {
   "property": "C86",
   "status": "proved",
   "theorems": [
    "Entity.Metric.C86_kerr_schild",
    "Entity.Metric.C86_qkerr_schild",
    "Entity.Metric.C86_kerr_schild_0",
    "Entity.Metric.C86_diagonal"
   ],
   "note": "Exact real arithmetic, off the axis, positive cell sizes and Jacobian."
  },
  {
   "property": "C87",
   "status": "proved",
   "theorems": [
    "Entity.Metric.C87_diagonal",
    "Entity.Metric.C87_minkowski",
    "Entity.Metric.C87_kerr_schild",
    "Entity.Metric.C87_qkerr_schild",
    "Entity.Metric.C87_kerr_schild_0",
    "Entity.Metric.C87_tetrad_xyz",
    "Entity.Metric.C87_four_vectors"
   ],
   "note": "Exact real arithmetic, off the axis."
  },
  {
   "property": "C88",
   "status": "partial",
   "theorems": [
    "Entity.Metric.C88_kerr_schild",
    "Entity.Metric.C88_kerr_schild_0",
    "Entity.Metric.C88_qkerr_schild_partial",
    "Entity.Metric.C88_qkerr_schild_counterexample"
   ],
   "note": "Exact real arithmetic. The second diagonal component of the quasi-spherical Kerr-Schild metric lacks the factor 1/(dtheta/deta)^2 (C88_qkerr_schild_counterexample); all other derivatives of all metrics are proved."
  },
  {
   "property": "C89",
   "status": "partial",
   "theorems": [
    "Entity.Metric.C89_uniform",
    "Entity.Metric.C89_stretched_partial",
    "Entity.Metric.C89_stretched_counterexample"
   ],
   "note": "Spherical and both Kerr-Schild metrics within 1e-14; the quasi-spherical metrics give a quarter of the area when the small-angle formula is used (C89_stretched_counterexample)."
  },
  {
   "property": "C90",
   "status": "proved",
   "theorems": [
    "Entity.Metric.C90_energy"
   ],
   "note": "Exact real arithmetic, off the axis."
  },
  {
   "property": "C91",
   "status": "partial",
   "theorems": [
    "Entity.Inject.C91_uniform_pairs",
    "Entity.Inject.C91_nonuniform_pairs",
    "Entity.Inject.C91_same_species_counterexample"
   ],
   "note": "Random numbers and distributions are parameters. Requires two different species: with the same species twice the second particle of each pair overwrites the first (counterexample)."
  },
  {
   "property": "C92",
   "status": "proved",
   "theorems": [
    "Entity.Inject.C92_uniform_where",
    "Entity.Inject.C92_nonuniform_where"
   ],
   "note": "Random numbers in [0,1) are parameters. Exact arithmetic."
  },
  {
   "property": "C93",
   "status": "proved",
   "theorems": [
    "Entity.Emission.C93_compton",
    "Entity.Emission.C93_synchrotron"
   ],
   "note": "Real arithmetic. Random numbers are parameters, non-negative."
  },
  {
   "property": "C94",
   "status": "partial",
   "theorems": [
    "Entity.Emission.C94_compton_partial",
    "Entity.Emission.C94_synchrotron_partial",
    "Entity.Emission.C94_counterexample"
   ],
   "note": "Compton: equal if charge times mass is one, otherwise they differ by this factor (counterexample). Synchrotron: mean recoil is parallel to the drag, reduced by the cosine of its angle with the velocity."
  },
  {
   "property": "C95",
   "status": "proved",
   "theorems": [
    "Entity.Curvi.C95_sr",
    "Entity.Curvi.C95_gr"
   ],
   "note": "2D, exact arithmetic. One subdomain (its content outside the active radial range is arbitrary after every communication). Polar: metric functions nonzero where divided by."
  },
  {
   "property": "C96",
   "status": "partial",
   "theorems": [
    "Entity.Curvi.C96_sr",
    "Entity.Curvi.C96_sr_caps_partial",
    "Entity.Curvi.C96_axis_current_counterexample"
   ],
   "note": "Off the axis in full. Around the poles: proved if no radial current flows along the axis; otherwise only half of that current enters the flux (counterexample for every metric)."
  },
  {
   "property": "C97",
   "status": "partial",
   "theorems": [
    "Entity.Curvi.C97_gr_partial",
    "Entity.Curvi.C97_axis_copied",
    "Entity.Curvi.C97_pole_counterexample"
   ],
   "note": "Off the axis in full (in the first step of a simulation except for the row next to the lower axis, see C98). On the axis D1 is replaced by its neighbour in the next row, so the flux around the pole is not conserved (counterexample)."
  },
  {
   "property": "C98",
   "status": "partial",
   "theorems": [
    "Entity.Curvi.C98_schedule_partial",
    "Entity.Curvi.C98_in_place_partial",
    "Entity.Curvi.C98_race_counterexample"
   ],
   "note": "All kernels but the in-place Ampere pushes of the GR engine, for which everything off the axis rows is determined and the axis rows race (counterexample). No law of arithmetic is used."
  },
  {
   "property": "C99",
   "status": "partial",
   "theorems": [
    "Entity.Curvi.C99_faraday",
    "Entity.Curvi.C99_ampere_partial",
    "Entity.Curvi.C99_axis_counterexample"
   ],
   "note": "Faraday in full; Ampere off the axis rows. On the axis the GR engine copies the radial field from the next row, so the engines differ there (counterexample)."
  },
  {
   "property": "C100",
   "status": "partial",
   "theorems": [
    "Entity.Curvi.C100_divided_partial",
    "Entity.Curvi.C100_counterexample"
   ],
   "note": "For metrics without cross term, i.e. not for spinning or standard Kerr-Schild ones: with a cross term the first active column reads a ghost column that was not time-averaged (counterexample). Division in radius, right part."
  },
  {
   "property": "C101",
   "status": "partial",
   "theorems": [
    "Entity.GRPush.C101_velocity_kerr_schild",
    "Entity.GRPush.C101_velocity_kerr_schild_0",
    "Entity.GRPush.C101_velocity_qkerr_schild_partial",
    "Entity.GRPush.C101_position",
    "Entity.GRPush.C101_qkerr_schild_counterexample"
   ],
   "note": "Kerr-Schild and flat metric in full off the axis; quasi-Kerr-Schild velocity only for the unstretched angle (h = 0), with a counterexample for stretched ones (radial derivative of h^22 misses the Jacobian). Real arithmetic."
  },
  {
   "property": "C102",
   "status": "proved",
   "theorems": [
    "Entity.GRPush.C102_photons",
    "Entity.GRPush.C102_massive"
   ],
   "note": "Real arithmetic; massive case at zero fields off the axis."
  },
  {
   "property": "C103",
   "status": "proved",
   "theorems": [
    "Entity.GRPush.C103_force",
    "Entity.GRPush.C103_magnetic",
    "Entity.GRPush.C103_electric"
   ],
   "note": "Real arithmetic; hypothesis VectorRules is C87 for the three metrics."
  },
  {
   "property": "C104",
   "status": "partial",
   "theorems": [
    "Entity.GRPush.C104_counterexample",
    "Entity.GRPush.C104_computed_partial"
   ],
   "note": "Refuted: UpdatePhi takes the azimuth by value, so no push changes it (counterexample for all particles). Partial: the dropped value is the right one."
  },
  {
   "property": "C105",
   "status": "proved",
   "theorems": [
    "Entity.GRPush.C105_force_reversible",
    "Entity.GRPush.C105_geodesic_reversible"
   ],
   "note": "Real arithmetic. The geodesic part is about converged iterations; with finitely many passes reversal is approximate in the code as well."
  },
  {
   "property": "C106",
   "status": "proved",
   "theorems": [
    "Entity.GRPush.C106_bookkeeping",
    "Entity.GRPush.C106_operators",
    "Entity.GRPush.C106_walls"
   ],
   "note": "2D (the only dimension the GR kernel supports). Beyond one cell outside the conversion loses the cell, see C28."
  },
  {
   "property": "C107",
   "status": "proved",
   "theorems": [
    "Entity.GRPush.C107_species",
    "Entity.GRPush.C107_dispatch",
    "Entity.GRPush.C107_fields"
   ],
   "note": "Threads touch disjoint particles, so a schedule is an order of particles."
  },
  {
   "property": "C108",
   "status": "partial",
   "theorems": [
    "Entity.FieldBC.C108_lower",
    "Entity.FieldBC.C108_upper_partial",
    "Entity.FieldBC.C108_deterministic",
    "Entity.FieldBC.C108_counterexample",
    "Entity.FieldBC.C108_no_flux"
   ],
   "note": "Lower wall in full. Upper wall: the fields that vanish on the wall in all ghost nodes, the even ones in all but the outermost ghost cell, which is not written (counterexample)."
  },
  {
   "property": "C109",
   "status": "proved",
   "theorems": [
    "Entity.FieldBC.C109_value",
    "Entity.FieldBC.C109_frame",
    "Entity.FieldBC.C109_between",
    "Entity.FieldBC.C109_converges"
   ],
   "note": "Real arithmetic, the metric and the setter are arbitrary functions."
  },
  {
   "property": "C110",
   "status": "partial",
   "theorems": [
    "Entity.FieldBC.C110_active",
    "Entity.FieldBC.C110_ghosts_partial",
    "Entity.FieldBC.C110_counterexample"
   ],
   "note": "Cartesian coordinates. Active cells of every subdomain and ghost cells beyond the boundary; refuted for copies of a cell in the ghost cells of a neighbour (counterexample)."
  },
  {
   "property": "C111",
   "status": "partial",
   "theorems": [
    "Entity.FieldBC.C111_upper",
    "Entity.FieldBC.C111_lower_partial",
    "Entity.FieldBC.C111_frame",
    "Entity.FieldBC.C111_counterexample"
   ],
   "note": "Undivided Cartesian grid. Upper end in full; at the lower end the condition stops one cell before the surface (counterexample)."
  },
  {
   "property": "C112",
   "status": "partial",
   "theorems": [
    "Entity.FieldBC.C112_upper",
    "Entity.FieldBC.C112_lower_partial",
    "Entity.FieldBC.C112_frame",
    "Entity.FieldBC.C112_counterexample"
   ],
   "note": "Cartesian coordinates. Upper end in full; at the lower end the components on the boundary are not set (counterexample)."
  },
  {
   "property": "C113",
   "status": "partial",
   "theorems": [
    "Entity.FieldBC.C113_copy",
    "Entity.FieldBC.C113_copy_partial",
    "Entity.FieldBC.C113_frame",
    "Entity.FieldBC.C113_deterministic",
    "Entity.FieldBC.C113_counterexample"
   ],
   "note": "In full with two ghost cells; with three or more the kernel's fixed count leaves cells out (counterexample)."
  },
  {
   "property": "C114",
   "status": "proved",
   "theorems": [
    "Entity.FieldBC.C114_value",
    "Entity.FieldBC.C114_frame"
   ],
   "note": "Real arithmetic; the metric is an arbitrary function."
  },
  {
   "property": "C115",
   "status": "partial",
   "theorems": [
    "Entity.FieldBC.C115_lower_partial",
    "Entity.FieldBC.C115_upper_partial",
    "Entity.FieldBC.C115_frame",
    "Entity.FieldBC.C115_counterexample"
   ],
   "note": "The first row beyond the axis; the radial electric field there is not set (counterexample)."
  },
  {
   "property": "C116",
   "status": "partial",
   "theorems": [
    "Entity.Spectra.C116_spectrum_partial",
    "Entity.Spectra.C116_one_bin",
    "Entity.Spectra.C116_overflow_counterexample",
    "Entity.Spectra.C116_energy"
   ],
   "note": "All energies below the upper limit; a live particle at or above it is counted beyond the end of the array (counterexample, for every number of bins). Logarithm and power with their laws are parameters; the energy of GR particles is taken from the metric (C87)."
  },
  {
   "property": "C117",
   "status": "partial",
   "theorems": [
    "Entity.FieldOut.C117_custom_partial",
    "Entity.FieldOut.C117_only_custom",
    "Entity.FieldOut.C117_custom_counterexample"
   ],
   "note": "Names that are not reserved; a registered name beginning with a built-in name and an underscore, or with a letter taken for a field, is taken for that field (counterexample)."
  },
  {
   "property": "C118",
   "status": "partial",
   "theorems": [
    "Entity.FieldOut.C118_written_partial",
    "Entity.FieldOut.C118_placement",
    "Entity.FieldOut.C118_accepted",
    "Entity.FieldOut.C118_written_counterexample"
   ],
   "note": "Fails for single stress components requested by letters, e.g. Ttt, a form the example input file documents (counterexample); otherwise in full."
  },
  {
   "property": "C119",
   "status": "proved",
   "theorems": [
    "Entity.FieldOut.C119_accepted",
    "Entity.FieldOut.C119_names_identify"
   ],
   "note": "Names as lists of characters."
  },
  {
   "property": "C120",
   "status": "proved",
   "theorems": [
    "Entity.FieldsToPhys.C120_centres",
    "Entity.FieldsToPhys.C120_as_is",
    "Entity.FieldsToPhys.C120_ends"
   ],
   "note": "Exact arithmetic; the conversion of the basis is a matrix at the centre (parameter, see C87)."
  },
  {
   "property": "C121",
   "status": "partial",
   "theorems": [
    "Entity.Divergence.C121_gauss2",
    "Entity.Divergence.C121_gauss3",
    "Entity.Divergence.C121_gauss1_partial",
    "Entity.Divergence.C121_place_counterexample"
   ],
   "note": "Gauss's law in full in two and three dimensions with the volume at the cell centre; the numbers are not the divergences at a place, since fluxes and volume belong to different cells (counterexample); the one-dimensional branch, used by no metric, is consistent at the lower edge."
  },
  {
   "property": "C122",
   "status": "partial",
   "theorems": [
    "Entity.Moments.C122_subluminal",
    "Entity.Moments.C122_mean",
    "Entity.Moments.C122_massless_counterexample"
   ],
   "note": "Massive species; for massless species the computation ends with an error (counterexample). The mean in Cartesian coordinates."
  },
  {
   "property": "C123",
   "status": "partial",
   "theorems": [
    "Entity.Metric.C123_kerr_schild",
    "Entity.Metric.C123_qkerr_schild",
    "Entity.Metric.C123_kerr_schild_0",
    "Entity.Metric.C123_flux_partial",
    "Entity.Metric.C123_off_centre_counterexample"
   ],
   "note": "Norm, future and rest in full. Flux along the velocity when all particles of the cell are at its centre; the code takes the flux at the place of the particle and the norm at the centre, so that a fast particle off the centre gives a fluid at rest (counterexample). Tests for non-finite numbers are not modelled."
  },
  {
   "property": "C124",
   "status": "partial",
   "theorems": [
    "Entity.Atmosphere.C124_pairs",
    "Entity.Atmosphere.C124_restores_partial",
    "Entity.Atmosphere.C124_no_ghosts",
    "Entity.Atmosphere.C124_mass_counterexample",
    "Entity.Atmosphere.C124_ds_counterexample"
   ],
   "note": "Proved for species of mass one; the number of pairs added is characterised for all masses. Counterexamples: the density compared with the target is the mass density, so other masses are over- or underfilled; ds = 0 (the default, documented as no limit) injects nothing. Exact arithmetic; exp is any function with values in [0,1] at negative arguments."
  },
  {
   "property": "C125",
   "status": "partial",
   "theorems": [
    "Entity.Atmosphere.C125_equilibrium",
    "Entity.Atmosphere.C125_layer",
    "Entity.Atmosphere.C125_accepted",
    "Entity.Atmosphere.C125_confined_partial",
    "Entity.Atmosphere.C125_upper_counterexample",
    "Entity.Atmosphere.C125_ds_counterexample"
   ],
   "note": "Equilibrium and layer proved for both ends; confinement of gravity proved at the lower end for ds > 0. Counterexamples: at the upper end gravity acts on the whole grid; for ds = 0 it acts nowhere. Real exponential."
  },
  {
   "property": "C126",
   "status": "proved",
   "theorems": [
    "Entity.GRScheme.C126_step",
    "Entity.GRScheme.C126_vacuum",
    "Entity.GRScheme.C126_constitutive"
   ],
   "note": "Exact arithmetic; cells at least 7 (one step) away from the edges of the region no boundary condition writes; later steps lose 6 more cells each."
  },
  {
   "property": "C127",
   "status": "partial",
   "theorems": [
    "Entity.GRScheme.C127_first",
    "Entity.GRScheme.C127_later_partial",
    "Entity.GRScheme.C127_first_counterexample"
   ],
   "note": "Holds for every step but the first (in the flat-space clock fields used as a probe); in the first call B is advanced by 2 dt and D by 2.5 dt while particles are pushed once."
  },
  {
   "property": "C128",
   "status": "proved",
   "theorems": [
    "Entity.GRScheme.C128_step"
   ],
   "note": "Exact arithmetic; cells at least 4 away from the edges."
  },
  {
   "property": "C129",
   "status": "proved",
   "theorems": [
    "Entity.FieldSolver.C129_poynting",
    "Entity.FieldSolver.C129_vacuum",
    "Entity.FieldSolver.C129_stable",
    "Entity.FieldSolver.C129_courant",
    "Entity.FieldSolver.C129_limit_counterexample"
   ],
   "note": "Exact arithmetic, Minkowski metric, standard (Yee) stencil coefficients, correction = 1 in the Courant version. C129_limit_counterexample shows that the limit is sharp: above it there are fields whose energy grows geometrically, and the code accepts any CFL."
  },
  {
   "property": "C130",
   "status": "proved",
   "theorems": [
    "Entity.FieldStats.C130_requests",
    "Entity.FieldStats.C130_decomposition",
    "Entity.FieldStats.C130_mean",
    "Entity.FieldStats.C130_energy",
    "Entity.FieldStats.C130_uniform",
    "Entity.FieldStats.C130_work_counterexample",
    "Entity.FieldStats.C130_spherical_counterexample",
    "Entity.FieldStats.C130_kerr_counterexample"
   ],
   "note": "Diagonal metrics, exact arithmetic, one active list of cells per rank. Outside the statement: C130_spherical_counterexample (totVolume of the spherical metrics is not a volume), C130_kerr_counterexample (it is zero for Kerr-Schild), C130_work_counterexample (JdotE averages J and E separately)."
  },
  {
   "property": "C131",
   "status": "partial",
   "theorems": [
    "Entity.FieldSetter.C131_values",
    "Entity.FieldSetter.C131_untouched",
    "Entity.FieldSetter.C131_ends",
    "Entity.FieldSetter.C131_decomposition",
    "Entity.FieldSetter.C131_cartesian",
    "Entity.FieldSetter.C131_gr_partial",
    "Entity.FieldSetter.C131_basis_counterexample"
   ],
   "note": "Special relativity complete. General relativity: values are stored as returned (C131_gr_partial); the header documents physical components, which are not converted (C131_basis_counterexample)."
  },
  {
   "property": "C132",
   "status": "partial",
   "theorems": [
    "Entity.FieldSetter.C132_buffer_counterexample",
    "Entity.FieldSetter.C132_grpic",
    "Entity.FieldSetter.C132_update_partial",
    "Entity.FieldSetter.C132_interpolation"
   ],
   "note": "The constructor ignores its buffer argument, so every call with at least one function reads a default-constructed view (C132_buffer_counterexample). With the buffer used, the kernel does what it should (C132_update_partial, C132_interpolation)."
  },
  {
   "property": "C133",
   "status": "partial",
   "theorems": [
    "Entity.Full.C133_box_refinement_partial"
   ],
   "note": "Exact arithmetic; Cartesian metric, periodic box, MPI build with one subdomain per rank, no injection or emission. Missing: rounding, the order of floating-point sums, other metrics and boundaries."
  },
  {
   "property": "C134",
   "status": "partial",
   "theorems": [
    "Entity.Full.C134_whole_simulation_partial"
   ],
   "note": "Exact arithmetic; same scope as C133. Missing: rounding (sums of floats depend on their order, so decompositions agree only up to rounding)."
  },
  {
   "property": "C135",
   "status": "partial",
   "theorems": [
    "Entity.Full.C135_no_step_fails_partial",
    "Entity.Full.C135_courant"
   ],
   "note": "Exact arithmetic: a rounded offset can become 1. Even shape orders excluded, for them the deposit does leave the array (C33_even_order_counterexample). C135_courant shows the speed condition for dt <= dx and the Lorentz factor."
  },
  {
   "property": "C136",
   "status": "partial",
   "theorems": [
    "Entity.Full.C136_gauss_forever_partial",
    "Entity.Full.C136_gauss_unfiltered_partial"
   ],
   "note": "Exact arithmetic; scope of C133. The zigzag deposit in three dimensions is excluded because it violates the continuity equation (C29). Unlike C35 the continuity of the trajectories from step to step (through push, exchange, removal and sorting) is proved, not assumed."
  },
  {
   "property": "C137",
   "status": "partial",
   "theorems": [
    "Entity.Resume.C137_restart_partial",
    "Entity.Resume.C137_resume_safe_partial"
   ],
   "note": "Simulations with any number of interruptions (Session) compute what uninterrupted ones compute (C137_restart_partial) and cannot fail (C137_resume_safe_partial). Partial: exact arithmetic; SR engine, Cartesian periodic box as in C133; numbers put from temporaries are taken at once (see C43)."
  },
  {
   "property": "C138",
   "status": "proved",
   "theorems": [
    "Entity.Float.C138_rounding",
    "Entity.Float.C138_push",
    "Entity.Float.C138_many_pushes",
    "Entity.Float.C138_offset_one_counterexample",
    "Entity.Float.C138_deposit_in_bounds"
   ],
   "note": "IEEE rounding to nearest even is defined in the model and shown to be rounding to nearest (C138_rounding). Proved as stated, for each axis separately and any displacement; offsets below 1 are refuted (C138_offset_one_counterexample). The displacement itself (momentum, metric) is an arbitrary number."
  },
  {
   "property": "C139",
   "status": "partial",
   "theorems": [
    "Entity.Float.C139_conversion_partial",
    "Entity.Float.C139_negative_offset_counterexample",
    "Entity.Float.C139_stall_counterexample"
   ],
   "note": "Partial: the claims that the offset is never negative and that moving particles move are refuted (C139_negative_offset_counterexample, C139_stall_counterexample); the conversions to and from Cartesian coordinates are exact in the model."
  },
  {
   "property": "C140",
   "status": "partial",
   "theorems": [
    "Entity.OutIn.C140_schedule_partial",
    "Entity.OutIn.C140_interval_counterexample",
    "Entity.OutIn.C140_disabled_counterexample",
    "Entity.OutIn.C140_downsampling_partial",
    "Entity.OutIn.C140_short_list_counterexample",
    "Entity.OutIn.C140_species_partial",
    "Entity.OutIn.C140_species_counterexample"
   ],
   "note": "Proved for inputs without the four defects, each of which is refuted (C140_interval_counterexample, C140_disabled_counterexample, C140_short_list_counterexample, C140_species_counterexample)."
  },
  {
   "property": "C141",
   "status": "partial",
   "theorems": [
    "Entity.Launch.C141_launch",
    "Entity.Launch.C141_command_line_partial",
    "Entity.Launch.C141_default_input_counterexample"
   ],
   "note": "C141_launch is proved in full; of the command line the case without -input is refuted (C141_default_input_counterexample: std::next of the end iterator). The rest of the input is assumed valid; the lists declared by the problem generator do not depend on the specialization."
  },
  {
   "property": "C142",
   "status": "partial",
   "theorems": [
    "Entity.Launch.C142_policies_partial",
    "Entity.Launch.C142_species_zero_counterexample"
   ],
   "note": "Proved except for photon_species = 0, which is refuted (C142_species_zero_counterexample)."
  },
  {
   "property": "C143",
   "status": "partial",
   "theorems": [
    "Entity.Walls.C143_images_partial",
    "Entity.Walls.C143_active_partial",
    "Entity.Walls.C143_decomposition_partial",
    "Entity.Walls.C143_walls_partial",
    "Entity.Walls.C143_divergence_partial",
    "Entity.Walls.C143_runs_exist_partial"
   ],
   "note": "Partial: exact arithmetic; without current filters, which depend on the decomposition next to conductors (C39); the currents are given as what deposit and synchronisation leave in the active cells; only conducting and periodic boundaries, both ends of an axis alike. The ghost layer is included except for the outermost layer beyond an upper wall of components between the nodes, which PerfectConductorFieldsIn never writes (and no kernel of the solver reads)."
  },
  {
   "property": "C144",
   "status": "partial",
   "theorems": [
    "Entity.PrtlPhys.C144_output_partial"
   ],
   "note": "Partial: exact arithmetic (the conversions of positions are rounded in the code); stretching of the radial coordinate nonnegative; the removal of dead particles and the division of dead from alive, which the engine runs before the output, is C18 and is not repeated here."
  },
  {
   "property": "C145",
   "status": "partial",
   "theorems": [
    "Entity.EnergyDist.C145_thermal_partial",
    "Entity.EnergyDist.C145_tolerance",
    "Entity.EnergyDist.C145_drift_partial",
    "Entity.EnergyDist.C145_axis_partial",
    "Entity.EnergyDist.C145_cold_partial",
    "Entity.EnergyDist.C145_counterexample"
   ],
   "note": "Partial. Exact real arithmetic and an ideal generator (independent, uniform in [0,1)), which the code's Random_XorShift64 is only meant to approximate. For T >= 1/2 the exact law including the redrawing of small numbers is proved for every tolerance up to 1/10, and differs from exp(-gamma/T) pointwise by at most the tolerance. For T < 1/2 the code draws from the non-relativistic Maxwellian exp(-|u|^2/2T), proved for tolerance 0, which is not exp(-gamma/T) at any such temperature (C145_counterexample). Drift components below the tolerance: C65_counterexample."
  },
  {
   "property": "C146",
   "status": "proved",
   "theorems": [
    "Entity.EnergyDist.C146_density",
    "Entity.EnergyDist.C146_energy",
    "Entity.EnergyDist.C146_counterexample"
   ],
   "note": "Exact real arithmetic and an ideal generator. The limits are those of gamma - 1: Lorentz factors between 1 + g_min and 1 + g_max. The unit test requires Lorentz factors between g_min and g_max, which fails with positive probability (C146_counterexample)."
  },
  {
   "property": "C147",
   "status": "partial",
   "theorems": [
    "Entity.PrtlWalls.C147_absorbed_charges_partial",
    "Entity.PrtlWalls.C147_reflected_charges_partial",
    "Entity.PrtlWalls.C147_counterexample"
   ],
   "note": "Violated by absorbing walls (C147_counterexample): the pusher marks a particle as dead before the deposit, which skips dead particles, so the current of the last step is missing and the charge stays in the field where it was before that step. C147_absorbed_charges_partial states exactly what remains after any number of steps; C147_reflected_charges_partial is the claim for reflecting walls. Partial: exact arithmetic, no current filter, one subdomain, no zigzag deposit in three dimensions (C29)."
  },
  {
   "property": "C148",
   "status": "partial",
   "theorems": [
    "Entity.Options.C148_options_partial",
    "Entity.Options.C148_physics_partial",
    "Entity.Options.C148_inferred",
    "Entity.Options.C148_nominal",
    "Entity.Options.C148_default_counterexample",
    "Entity.Options.C148_type_counterexample"
   ],
   "note": "Violated in two ways: four documented defaults differ from the code (C148_default_counterexample: output.format, output.interval, diagnostics.colored_stdout, photon_energy_min), and a value of the wrong type, e.g. an integer where a float is documented, is silently replaced by the default (C148_type_counterexample). C148_options_partial, C148_physics_partial, C148_inferred, C148_nominal prove the rest. Not modelled: [setup], the command line, parsing of TOML text, rounding."
  },
  {
   "property": "C149",
   "status": "partial",
   "theorems": [
    "Entity.Options.C149_species_partial",
    "Entity.Options.C149_maxnpart_counterexample"
   ],
   "note": "Violated for maxnpart, which is documented as an unsigned integer but refused as such (C149_maxnpart_counterexample); C149_species_partial proves the rest, for up to 255 species (the index has 8 bits)."
  },
  {
   "property": "C150",
   "status": "partial",
   "theorems": [
    "Entity.Options.C150_grid",
    "Entity.Options.C150_layers_partial",
    "Entity.Options.C150_layers_counterexample"
   ],
   "note": "Violated for entries of a wrong shape in grid.boundaries.match.ds, which are not refused but replaced by or mixed with the default (C150_layers_counterexample). C150_grid and C150_layers_partial prove the rest. The smallest cell and its volume (scales.dx0, scales.V0) are parameters of the model (C12, C14 treat the metrics); exact arithmetic."
  },
  {
   "property": "C151",
   "status": "partial",
   "theorems": [
    "Entity.Diag.C151_table",
    "Entity.Diag.C151_overlap",
    "Entity.Diag.C151_species_partial",
    "Entity.Diag.C151_species_counterexample"
   ],
   "note": "Violated: a species with a label of 22 or more characters ends the run with an exception at the first diagnostics (C151_species_counterexample). C151_table: rows whose entries fit are exactly as specified, with any UTF-8; C151_overlap: all others are exceptions, never wrong rows; C151_species_partial: labels up to 14 characters. Only the row of a species without MPI is built from the table; the other rows are instances of C151_table."
  },
  {
   "property": "C152",
   "status": "proved",
   "theorems": [
    "Entity.Diag.C152_duration",
    "Entity.Diag.C152_convert",
    "Entity.Diag.C152_average",
    "Entity.Diag.C152_progress"
   ],
   "note": "Exact arithmetic instead of double; the clock does not go back; durations below 2^31 hours. The step reported is the one before the last completed step, so the remaining time includes the step just done."
  },
  {
   "property": "C153",
   "status": "partial",
   "theorems": [
    "Entity.Diag.C153_timers_partial",
    "Entity.Diag.C153_timers_mpi_partial",
    "Entity.Diag.C153_timers_counterexample",
    "Entity.Diag.C153_particles_partial",
    "Entity.Diag.C153_particles_counterexample",
    "Entity.Diag.C153_variation_counterexample",
    "Entity.Diag.C153_highlight",
    "Entity.Diag.C153_highlight_counterexample"
   ],
   "note": "Violated in four ways: percentage of an output longer than 655 times the step is undefined (C153_timers_counterexample), the total of more than 2^32 particles wraps (C153_particles_counterexample), the variation of equal ranks is shown as 99 or 100 % (C153_variation_counterexample), output is never highlighted (C153_highlight_counterexample). C153_timers_partial, C153_timers_mpi_partial, C153_particles_partial and C153_highlight prove the rest. Exact arithmetic; how timers are started and stopped is not modelled."
  },
  {
   "property": "C154",
   "status": "partial",
   "theorems": [
    "Entity.Full.C154_translation_partial"
   ],
   "note": "Corollary of the refinement C133 and of the equivariance of the box without ranks under translations: interpolation, push, deposit, filters and field solvers only read at offsets from a cell. Partial: exact arithmetic."
  },
  {
   "property": "C155",
   "status": "partial",
   "theorems": [
    "Entity.Full.C155_distribution_partial",
    "Entity.Full.C155_split",
    "Entity.Full.C155_distinct"
   ],
   "note": "Corollary of the refinement C133 and of the linearity of the deposit in the weight, which the pusher does not read. C155_split and C155_distinct say what the relation between distributions identifies and what it tells apart. Partial: exact arithmetic."
  },
  {
   "property": "C156",
   "status": "partial",
   "theorems": [
    "Entity.Setup.C156_setup_options_partial",
    "Entity.Setup.C156_counterexample"
   ],
   "note": "Partial because the code does not have the full property: integers outside of 32 bits are stored as another number, and empty arrays, dates and tables are dropped without a message (C156_counterexample). The parser of the file is outside of the model."
  },
  {
   "property": "C157",
   "status": "partial",
   "theorems": [
    "Entity.Setup.C157_attributes_partial",
    "Entity.Setup.C157_never_throws",
    "Entity.Setup.C157_told_apart",
    "Entity.Setup.C157_setup_recorded",
    "Entity.Setup.C157_counterexample"
   ],
   "note": "Partial because the code does not have the full property: arrays of truth values and parameters of 8-bit species indices are left out, and of arrays of arrays only the entries are recorded (C157_counterexample). ADIOS2 is outside of the model: DefineAttribute adds an attribute and throws if the name is in use."
  },
  {
   "property": "C158",
   "status": "partial",
   "theorems": [
    "Entity.Full.C158_axes_partial",
    "Entity.Full.C158_boris",
    "Entity.Full.C158_vay",
    "Entity.Full.C158_gca",
    "Entity.Full.C158_drag",
    "Entity.Full.C158_filter_counterexample"
   ],
   "note": "By evaluating the kernels at a cell, exchanging the sums of interpolation and deposit, and the refinement C133. Boris, Vay, guiding centre and drag are shown to have no preferred axis. Partial: exact arithmetic; without current filtering. With filtering the claim is false (C158_filter_counterexample): the three-dimensional filter of the code is not symmetric."
  },
  {
   "property": "C159",
   "status": "partial",
   "theorems": [
    "Entity.Full.C159_mirror_partial",
    "Entity.Full.C159_boris",
    "Entity.Full.C159_drag",
    "Entity.Full.C159_filter_counterexample"
   ],
   "note": "As C158, with the signs of axial vectors. Includes the separate formulas of two dimensions and the filter there. Partial: exact arithmetic; in three dimensions without current filtering, with which the claim is false (C159_filter_counterexample)."
  },
  {
   "property": "C160",
   "status": "partial",
   "theorems": [
    "Entity.Full.C160_units_partial",
    "Entity.Full.C160_conjugation_partial",
    "Entity.Full.C160_boris",
    "Entity.Full.C160_vay"
   ],
   "note": "Every kernel is shown to be homogeneous in the fields and currents; with the refinement C133. Boris and Vay are shown to respond as required (C160_boris, C160_vay). Partial: exact arithmetic."
  },
  {
   "property": "C161",
   "status": "partial",
   "theorems": [
    "Entity.Deposit.C161_plane_partial",
    "Entity.Deposit.C161_space_partial",
    "Entity.Deposit.C161_drift_partial",
    "Entity.Deposit.C161_total_partial",
    "Entity.Deposit.C161_order7_sum",
    "Entity.Deposit.C161_size",
    "Entity.Deposit.C161_literals",
    "Entity.Deposit.C161_counterexample"
   ],
   "note": "False in three dimensions (C161_counterexample): the deposited current is short by the factor 3 THIRD. In single precision, the default, THIRD is 0.333333f and the defect 1 - 3 THIRD exceeds the rounding error of a number of order one more than seventeen times (C161_size). Proved instead: the exact factor of divergence and total current; the charge missing at a node after any number of steps is the defect times the change of the charge, so it does not accumulate; no defect along the axes in one and two dimensions. Order 7, whose weights contain the constant as well, is excluded; the sum of its weights is C161_order7_sum. Partial: exact arithmetic apart from the constant."
  },
  {
   "property": "C162",
   "status": "partial",
   "theorems": [
    "Entity.DepositVel.C162_spherical",
    "Entity.DepositVel.C162_qspherical",
    "Entity.DepositVel.C162_axis",
    "Entity.DepositVel.C162_minkowski",
    "Entity.DepositVel.C162_kerr_schild",
    "Entity.DepositVel.C162_qkerr_schild_partial",
    "Entity.DepositVel.C162_current",
    "Entity.DepositVel.C162_speed"
   ],
   "note": "Special relativity: chain rule, a point whose coordinates change at the computed rates has velocity u / gamma. General relativity: Hamilton's equations with the energy of C101; near the axis at the polar angle 1e-5, as the code evaluates it. The velocity is taken at the position after the push. Partial: quasi-Kerr-Schild only more than 1e-5 from the axis (near it the code converts the angle with the inverse of the stretching, see C62); exact arithmetic."
  },
  {
   "property": "C163",
   "status": "partial",
   "theorems": [
    "Entity.Startup.C163_exact",
    "Entity.Startup.C163_extents",
    "Entity.Startup.C163_float_partial",
    "Entity.Startup.C163_counterexample_many",
    "Entity.Startup.C163_counterexample_far"
   ],
   "note": "Proved in exact arithmetic for all decompositions (C163_exact, C163_extents). In the numbers of the program the claim is false: 572 cells on [0,5] in double precision start on one process but not on 143 (C163_counterexample_many), 300 cells on [1000,1001] in single precision start on one or two processes but not on three (C163_counterexample_far). C163_float_partial: decompositions into subdomains no narrower than a 20th of the box, of boxes whose ends are within 20 subdomain widths of the origin, are always accepted, in float and double, fused or not. Missing: curvilinear metrics."
  },
  {
   "property": "C164",
   "status": "partial",
   "theorems": [
    "Entity.Clock.C164_number",
    "Entity.Clock.C164_number_exact",
    "Entity.Clock.C164_counterexample_number",
    "Entity.Clock.C164_time",
    "Entity.Clock.C164_outputs",
    "Entity.Clock.C164_outputs_partial",
    "Entity.Clock.C164_counterexample_outputs"
   ],
   "note": "Proved: number of steps up to one rounding (exact when the runtime is a multiple of the time step), clock up to 2k rounding errors, outputs separated by the interval rounded up to steps up to 4n+6 rounding errors, hence m or m+1 steps when the interval is m steps. False as stated for decimal inputs: runtime 0.3 with time step 0.1 makes two steps (C164_counterexample_number); outputs every 1.0 with time step 0.1 are eleven steps apart instead of ten (C164_counterexample_outputs). Model without wall-time limit."
  },
  {
   "property": "C165",
   "status": "proved",
   "theorems": [
    "Entity.Construct.C165_constructs",
    "Entity.Construct.C165_divides",
    "Entity.Construct.C165_wraparound"
   ],
   "note": "Proved as an equivalence; the metrics and the last check (metricCompatibilityCheck) are C163. C165_wraparound: the wrap of the 32-bit product (counterexample of C02) is caught by the search for neighbours."
  },
  {
   "property": "C166",
   "status": "partial",
   "theorems": [
    "Entity.Startup.C166_exact",
    "Entity.Startup.C166_dyadic_partial",
    "Entity.Startup.C166_counterexample",
    "Entity.Startup.C166_counterexample_line"
   ],
   "note": "Proved in exact arithmetic for every list of shifts, and in floating-point numbers for boxes on multiples of a power of two (C166_dyadic_partial). False for other boxes in floating-point numbers: C166_counterexample (aborted at the 18th shift), C166_counterexample_line (one dimension: the cell size changes by more than the tolerance)."
  },
  {
   "property": "C167",
   "status": "partial",
   "theorems": [
    "Entity.Startup.C167_exact",
    "Entity.Startup.C167_dyadic_partial",
    "Entity.Startup.C167_counterexample",
    "Entity.Startup.C167_counterexample_refused"
   ],
   "note": "Proved in exact arithmetic and in floating-point numbers for boxes on multiples of a power of two (C167_dyadic_partial). False for other boxes: C167_counterexample (41 cells on [0, 1]: the restored box ends before 1), C167_counterexample_refused (a running simulation with three subdomains cannot be restarted after 17 shifts). Changed numbers of cells are C51."
  },
  {
   "property": "C168",
   "status": "partial",
   "theorems": [
    "Entity.Tuning.C168_uniform_partial",
    "Entity.Tuning.C168_counterexample",
    "Entity.Tuning.C168_settings"
   ],
   "note": "C168_uniform_partial shows that the claim holds exactly if all nodes carry the same number of processes: the number of nodes is computed as all processes divided by those on the own node. C168_counterexample: nodes with 4, 4 and 1 processes give 2 and 9. C168_settings: agreement of all settings on uniform nodes and for the default."
  },
  {
   "property": "C169",
   "status": "partial",
   "theorems": [
    "Entity.Filter.C169_normal_partial",
    "Entity.Filter.C169_tangential_partial",
    "Entity.Filter.C169_both_counterexample",
    "Entity.Filter.C169_corner_counterexample"
   ],
   "note": "Proved for cells away from other walls; at the upper wall of an axis with conductors at both ends, and in corners, the claim is false (counterexamples). At an upper wall the layer whose tangential currents are left alone is one cell in front of the wall (C78)."
  },
  {
   "property": "C170",
   "status": "proved",
   "theorems": [
    "Entity.Footprint.C170_report",
    "Entity.Footprint.C170_unambiguous",
    "Entity.Footprint.C170_counterexample"
   ],
   "note": "Exact numbers; conversion of bytes to double is exact up to 2^53. Grids whose side with ghost cells reaches 2^32 wrap around (counterexample). Printing with two decimals is not modelled."
  },
  {
   "property": "C171",
   "status": "proved",
   "theorems": [
    "Entity.GRPush.C171_kerr_schild",
    "Entity.GRPush.C171_kerr_schild_0"
   ],
   "note": "Exact numbers. Kerr-Schild and its limit without spin (the metrics with equidistant angles); stretched angles are treated away from the axis in C101."
  },
  {
   "property": "C172",
   "status": "proved",
   "theorems": [
    "Entity.Push.C172_guiding_centre"
   ],
   "note": "Exact numbers. Perpendicular fields of equal strength make the code divide by zero and are excluded."
  },
  {
   "property": "C173",
   "status": "proved",
   "theorems": [
    "Entity.Atmosphere.C173_uniform",
    "Entity.Atmosphere.C173_variable"
   ],
   "note": "Exact numbers. The conversion of coordinates by the metric is a parameter."
  },
  {
   "property": "C174",
   "status": "proved",
   "theorems": [
    "Entity.Dir.C174_hash",
    "Entity.Dir.C174_equality"
   ],
   "note": "Hash in unbounded integers, shown to fit in 16 bits; exhaustive over the finite set of directions."
  },
  {
   "property": "C175",
   "status": "proved",
   "theorems": [
    "Entity.Push.C175_guiding_centre",
    "Entity.Push.C175_conventional"
   ],
   "note": "Exact numbers. Larmor radius of a particle without charge is infinite, as in IEEE arithmetic with a positive time step. Limits on the ratio above one are allowed by the code but excluded in the theorem on the guiding centre."
  },
  {
   "property": "C176",
   "status": "proved",
   "theorems": [
    "Entity.FieldSolver.C176_external_current"
   ],
   "note": "Exact numbers; one cell. That cells do not interfere in any interleaving is C36."
  }
 ]
}