{
 "C02": {
  "note": "Proved when the product of the chosen numbers of domains is below 2^32, for every value of the floating-point guesses; the 32-bit product check of the code accepts a wrapped product (C02_wraparound_counterexample)."
 },
 "C04": {
  "note": "For any number of dimensions and any per-axis sizes."
 },
 "C05": {
  "note": "Matching, message sizes, and absence of deadlock for every interleaving of unbuffered blocking exchanges."
 },
 "C06": {
  "note": "Fails in the code: the condition of a corner is that of the first non-periodic axis (C06_counterexample)."
 },
 "C07": {
  "note": "Finite tables, decided completely, compared with a specification by sign vectors."
 },
 "C09": {
  "note": "get_sign is proved for all vectors; get_dim accepts diagonals that involve x1 (C09_get_dim_counterexample)."
 },
 "C13": {
  "note": "Two-sidedness and the single atmosphere are proved; agreement between fields and particles is not checked by the code (C13_fields_particles_counterexample), SYNC is accepted from the input file, and spherical radial boundaries may be one-sidedly periodic."
 },
 "C69": {
  "note": "Flags are proved; a massive species can get the photon flag through a list such as photon,boris (C69_massive_photon_counterexample)."
 },
 "C14": {
  "note": "Proved for any decomposition into subdomains at least as wide as the ghost depth, periodic, wall or mixed; fails for narrower subdomains, which the code accepts for interpolation orders 9 to 11 (C14_narrow_counterexample)."
 },
 "C15": {
  "note": "Each active cell becomes the sum of exactly the array cells that denote the same position; the grand total is conserved on periodic boxes. Additions are exact (commutative monoid), so rounding is not covered."
 },
 "C18": {
  "note": "All schedules of the three kernels; all attributes of the species kind."
 },
 "C20": {
  "note": "Kokkos::BinSort is an external call: any permutation along which bins do not decrease."
 },
 "C22": {
  "note": "Fails in the code: the inner loop clears all species (C22_clearing_counterexample). Proved: nothing is cleared when no species is due, and whatever is due is cleared."
 },
 "C16": {
  "note": "Any decomposition in 1-3 dimensions, any admissible boundary conditions, any schedule, any species content. A particle marked for a direction in which the box ends is shown to be removed if the rank communicates at all in that direction (it receives from the other side); otherwise it keeps its mark, which is excluded by the hypothesis. Messages are lists handed over whole (MPI itself is trusted)."
 },
 "C17": {
  "note": "Cell indices (integer arithmetic), per message and, as a multiset over all ranks, together with everything else the particle carries."
 },
 "C21": {
  "status": "partial",
  "note": "Exchange: never out of bounds, error before any write when too full. Injection: after any that reports success the count is within capacity (C21_injection_partial), but the kernels write before the check, so an overfull injection writes out of bounds (C21_injection_counterexample)."
 },
 "C23": {
  "note": "One axis of the Cartesian push, over any ordered field; the three textual copies are one function."
 },
 "C24": {
  "note": "Full claim for the MPI build (all boundary kinds, 1-3 dimensions). Serial build: proved for the kinds the pusher acts on; violated for CUSTOM/HORIZON sides (C24_custom_counterexample)."
 },
 "C25": {
  "note": "Violated exactly when a particle lands on a mirroring upper wall (C25_counterexample: offset 1). Proved for every other landing point and for all non-mirroring sides."
 },
 "C26": {
  "note": "Exact real arithmetic. Boris and Vay with E=0; Boris with B=0; external force impulse."
 },
 "C27": {
  "note": "Violated: the synchrotron routine rescales the shared time-centred momentum, so the Compton drag uses the velocity instead (C27_counterexample). The theorems state what the code does."
 },
 "C28": {
  "note": "Over any floor ring; also the sharpness of the bound -1 and the curvilinear push."
 },
 "C63": {
  "note": "Minkowski metric; massive and massless particles; combined with C23 and C24 into a safety theorem of one position update."
 },
 "C70": {
  "note": "Violated without custom update: averaging is applied twice (C70_counterexample)."
 },
 "C71": {
  "note": "The metric transformations are parameters assumed inverse to each other."
 },
 "C72": {
  "note": "Exact real arithmetic."
 },
 "C29": {
  "note": "1D and 2D, and motion in a coordinate plane in 3D: proved over every ordered field, for any set of particles and any order of additions. The general 3D claim is false: C29_zigzag_3d_counterexample, and C29_zigzag_3d_defect gives the size of the defect for a particle that stays in its cell."
 },
 "C30": {
  "note": "Orders 1-11 in 1D, 2D and 3D over every ordered field; charge weights are the Cox-de Boor B-splines, an independent definition. Rounding is not modelled.",
  "status": "proved"
 },
 "C31": {
  "note": "Orders 1-11, both staggerings, against the Cox-de Boor recursion; exact arithmetic.",
  "status": "proved"
 },
 "C33": {
  "note": "Deposit and interpolation kernels, orders 0-11, 1D-3D. The interpolation stays in the array always (C33_interpolation_in_bounds). The deposit claim is false at even orders for positions in [n+1/2, n+1): C33_even_order_counterexample."
 },
 "C73": {
  "note": "Orders 0-11, 1D-3D, exact arithmetic."
 },
 "C32": {
  "note": "Orders 0-11, 1D-3D, exact arithmetic; every component at its staggered position."
 },
 "C74": {
  "note": "Orders 1-11 as the theorem states; 1D-3D, exact arithmetic."
 },
 "C34": {
  "note": "Cartesian grids 1D/2D/3D, any decomposition of a periodic box, any number of Faraday updates with arbitrary other operations in between; exact arithmetic. With the extended stencil the conserved divergence is the one built with the extended differences; the ordinary divergence is not conserved if the stencil is anisotropic (counterexample). Curvilinear kernels are not modelled.",
  "status": "proved"
 },
 "C36": {
  "note": "Interleavings of the instructions (loads, arithmetic, stores) of all cells on a sequentially consistent memory. Covers Faraday, Ampere, CurrentsAmpere with and without external current, divergence, and both filters. No law of arithmetic is used, so the statement holds for rounded operations too."
 },
 "C75": {
  "note": "Periodic boxes; initial exchange of all components. No law of arithmetic is used: C75_bitwise is the instance for binary floating-point formats. Particles are not part of this claim."
 },
 "C76": {
  "note": "Cartesian kernels and the spherical filter on active cells; N_GHOSTS >= 2 as in every configuration."
 },
 "C37": {
  "note": "Periodic boxes on any decomposition, 1D-3D, any number of passes: the sum of each component over the box and uniform currents are preserved, and filtering commutes with the (backward) divergence, so a filtered current satisfies the continuity equation of the filtered density."
 },
 "C38": {
  "note": "Proved in one and two dimensions on any periodic decomposition. In three dimensions the code is not the separable filter (C38_three_dimensions_counterexample): two of the diagonal neighbours in the x2-x3 plane are missing, the x3 neighbours counted twice."
 },
 "C39": {
  "note": "Proved when only one side of one axis of the subdomain is conducting. False with conductors on both sides of an axis and in corners (counterexamples); the code has a TODO for corners."
 },
 "C77": {
  "note": "2D axisymmetric grids with at least three cells in polar angle; all fields, both axes, any schedule of the kernel."
 },
 "C78": {
  "note": "Proved for the normal component in one dimension; false for the tangential components (C78_tangential_counterexample)."
 },
 "C44": {
  "note": "Tracker::shouldWrite for the three kinds of schedule; exact arithmetic, the wall clock is an argument."
 },
 "C45": {
  "note": "Steps not written although due: time schedules in the first two steps, and a step due when the wall time limit fires; proved for step schedules."
 },
 "C46": {
  "note": "Every state between two file operations; the operations on a file are open/complete or remove, the file system is otherwise perfect."
 },
 "C47": {
  "note": "Bound proved when outsiders delete untracked files; lost for ever after deletion of the oldest tracked checkpoint (counterexample)."
 },
 "C48": {
  "note": "Proved if the newest data on disk are complete, in particular after a crash outside writing; a crash while writing makes the restart use (or fail on) the incomplete checkpoint, and steps of 2^31 or more cannot be read back (counterexamples)."
 },
 "C49": {
  "note": "First restart and unedited files proved; a second restart uses the edited file (counterexample)."
 },
 "C50": {
  "note": "Exact characterisation of the restored time (rational arithmetic); times that are no multiples of 1e-6 change (counterexample)."
 },
 "C66": {
  "note": "Exact arithmetic for times; the stages inside step_forward are one event."
 },
 "C79": {
  "note": "Checkpoint flag right; the output flag is always false (counterexample)."
 },
 "C80": {
  "note": "Proved for an unchanged time step; CFL may be changed on restart and then the run ends at the wrong time (counterexample)."
 },
 "C40": {
  "note": "Tiling and contents of the output array for every decomposition, factor and writing order (double-precision ceil taken as exact). C40_ghosts_counterexample: with output.debug.ghosts the layout loop runs past its vectors."
 },
 "C41": {
  "note": "Tiling and round trip for every decomposition, ghost width and writing order; ADIOS2 Put/Get of a block by contract."
 },
 "C42": {
  "note": "For every list of counts; totals in 64 bits as unbounded naturals."
 },
 "C43": {
  "note": "Round trip for any ranks, species and payload memory order, assuming the engine copies small data when put; reading respects the capacity. C43_deferred_counterexample: under the documented deferred contract the numbers are put from dangling temporaries."
 },
 "C51": {
  "note": "Sizes coming from a decomposition are restored with prefix-sum offsets or rejected; C51_inconsistent_counterexample: sizes that disagree between domains at the same position are accepted."
 },
 "C81": {
  "note": "Entries proved for every factor; the last edge only without downsampling. C81_counterexample: with a factor above 1 the last edge is wrong (or 0)."
 },
 "C82": {
  "note": "Strided and tracked selection, every schedule. Stride 0 (division by zero) is excluded."
 },
 "C35": {
  "note": "Exact arithmetic; periodic Cartesian box, any decomposition, any schedule; deposit and field solver enabled; the particles only move (no injection or removal). Missing: 3D zigzag deposit of particles moving along all three axes, which violates continuity (C29)."
 },
 "C83": {
  "note": "Exact arithmetic; periodic Cartesian box, any decomposition, any interleaving of the kernel threads; no external current."
 },
 "C52": {
  "note": "For statistics requests without repeated-component expansion mismatch every row has one cell per header column, in the same order, over any sequence of runs on one file with unchanged requests. The code breaks the general claim: a request of stress components writes one header cell for several numbers (C52_counterexample), and changed requests are appended below the old header (C52_changed_requests_counterexample)."
 },
 "C53": {
  "note": "Full grammar of requests. Species numbers above 255 wrap because the species index is one byte, negative numbers are accepted and trailing text is ignored (C53_species_counterexample, C53_range_counterexample); C53_species_partial covers numbers up to 255."
 },
 "C54": {
  "note": "Every sequence of calls including rejected ones and failed opens; ADIOS2 contract (Open/Put/EndStep/Close) is assumed."
 },
 "C55": {
  "note": "Exact over ordered fields, AlmostEqual read as equality. Missing: sides bounded below and unbounded above, where the code returns too few intervals (C55_counterexample)."
 },
 "C68": {
  "note": "Proved for x1 and x3 sides and for 1D; setting an x2 side also changes the x1 side of the same sign (C68_counterexample)."
 },
 "C84": {
  "note": "Order and distribution independent, equal to the documented contribution for the quantities and weight settings listed in the theorem; violated when weights are used for charge and mass, and for stresses with mass other than one or with weights (three counterexamples). Exact arithmetic; floating-point reduction order is not modelled."
 },
 "C85": {
  "note": "Cartesian metric, no ghost cells requested, exact arithmetic. Boxes bounded below and unbounded above are affected by C55 (C85_counterexample selects ghost cells for a box outside of the mesh)."
 },
 "C56": {
  "note": "Fields: every shift not above the ghost width, every decomposition and value type; particles: every shift of at most one subdomain's reach, counted over all ranks with their global cell. Fails for larger shifts (stale cells, no check in the code), with walls on one subdomain (particle keeps its send tag) and in the build without MPI (particle stays alive outside the domain): three counterexamples."
 },
 "C64": {
  "note": "Proved over the reals for every momentum and subluminal wall speed."
 },
 "C65": {
  "note": "Real arithmetic; every sample and random number is an argument; the distribution of the samples is C145. Drifts with a nonzero component below the comparison tolerance lose that component (C65_counterexample)."
 },
 "C62": {
  "note": "Exact real arithmetic. Stretching between 0 and 1 or switched off; for negative stretching (documented as allowed) the angular conversion is not a number (C62_negative_stretch_counterexample)."
 },
 "C86": {
  "note": "Exact real arithmetic, off the axis, positive cell sizes and Jacobian."
 },
 "C87": {
  "note": "Exact real arithmetic, off the axis."
 },
 "C88": {
  "note": "Exact real arithmetic. The second diagonal component of the quasi-spherical Kerr-Schild metric lacks the factor 1/(dtheta/deta)^2 (C88_qkerr_schild_counterexample); all other derivatives of all metrics are proved."
 },
 "C89": {
  "note": "Spherical and both Kerr-Schild metrics within 1e-14; the quasi-spherical metrics give a quarter of the area when the small-angle formula is used (C89_stretched_counterexample)."
 },
 "C90": {
  "note": "Exact real arithmetic, off the axis."
 },
 "C60": {
  "note": "Exact arithmetic; square root and metric are parameters. Sums include ghost cells, which the synchronisation adds to the neighbours (C15)."
 },
 "C61": {
  "note": "Holds at the lower axis (nothing is lost, though folded one row off, C61_mirror_counterexample); at the upper axis the row next to the axis goes to a ghost row and is lost (C61_upper_axis_counterexample)."
 },
 "C67": {
  "note": "Exact arithmetic. That a halo cell holds the neighbour's value (C14) and that local and global metric agree are the hypotheses `Split`. Messages are blocking; every order in which each rank keeps its own order is covered."
 },
 "C57": {
  "note": "Exact arithmetic. The metric conversions are monotone maps (`GeoOk`). The hypothesis that the list is no longer than the capacity is only for weighted lists (see C58)."
 },
 "C58": {
  "status": "partial",
  "note": "Without weights every injected particle has weight 1. With weights the kernel reads the weight array of the species at the index in the list instead of the supplied one (counterexample)."
 },
 "C59": {
  "status": "partial",
  "note": "Proved for up to 2^32 particles ever created per rank and species; beyond that the 32-bit counter wraps (counterexample). Histories consist of creations, removals, exchanges and restarts; the steps that keep identifiers are justified by C59_remove_dead and C59_exchange."
 },
 "C91": {
  "note": "Random numbers and distributions are parameters. Requires two different species: with the same species twice the second particle of each pair overwrites the first (counterexample).",
  "status": "partial"
 },
 "C92": {
  "note": "Random numbers in [0,1) are parameters. Exact arithmetic."
 },
 "C93": {
  "note": "Real arithmetic. Random numbers are parameters, non-negative."
 },
 "C94": {
  "status": "partial",
  "note": "Compton: equal if charge times mass is one, otherwise they differ by this factor (counterexample). Synchrotron: mean recoil is parallel to the drag, reduced by the cosine of its angle with the velocity."
 },
 "C95": {
  "note": "2D, exact arithmetic. One subdomain (its content outside the active radial range is arbitrary after every communication). Polar: metric functions nonzero where divided by."
 },
 "C96": {
  "note": "Off the axis in full. Around the poles: proved if no radial current flows along the axis; otherwise only half of that current enters the flux (counterexample for every metric)."
 },
 "C97": {
  "note": "Off the axis in full (in the first step of a simulation except for the row next to the lower axis, see C98). On the axis D1 is replaced by its neighbour in the next row, so the flux around the pole is not conserved (counterexample)."
 },
 "C98": {
  "note": "All kernels but the in-place Ampere pushes of the GR engine, for which everything off the axis rows is determined and the axis rows race (counterexample). No law of arithmetic is used."
 },
 "C99": {
  "note": "Faraday in full; Ampere off the axis rows. On the axis the GR engine copies the radial field from the next row, so the engines differ there (counterexample)."
 },
 "C100": {
  "note": "For metrics without cross term, i.e. not for spinning or standard Kerr-Schild ones: with a cross term the first active column reads a ghost column that was not time-averaged (counterexample). Division in radius, right part."
 },
 "C101": {
  "note": "Kerr-Schild and flat metric in full off the axis; quasi-Kerr-Schild velocity only for the unstretched angle (h = 0), with a counterexample for stretched ones (radial derivative of h^22 misses the Jacobian). Real arithmetic.",
  "status": "partial"
 },
 "C102": {
  "note": "Real arithmetic; massive case at zero fields off the axis."
 },
 "C103": {
  "note": "Real arithmetic; hypothesis VectorRules is C87 for the three metrics."
 },
 "C104": {
  "note": "Refuted: UpdatePhi takes the azimuth by value, so no push changes it (counterexample for all particles). Partial: the dropped value is the right one.",
  "status": "partial"
 },
 "C105": {
  "note": "Real arithmetic. The geodesic part is about converged iterations; with finitely many passes reversal is approximate in the code as well."
 },
 "C106": {
  "note": "2D (the only dimension the GR kernel supports). Beyond one cell outside the conversion loses the cell, see C28."
 },
 "C107": {
  "note": "Threads touch disjoint particles, so a schedule is an order of particles."
 },
 "C108": {
  "note": "Lower wall in full. Upper wall: the fields that vanish on the wall in all ghost nodes, the even ones in all but the outermost ghost cell, which is not written (counterexample)."
 },
 "C109": {
  "note": "Real arithmetic, the metric and the setter are arbitrary functions.",
  "status": "proved"
 },
 "C110": {
  "note": "Cartesian coordinates. Active cells of every subdomain and ghost cells beyond the boundary; refuted for copies of a cell in the ghost cells of a neighbour (counterexample)."
 },
 "C111": {
  "note": "Undivided Cartesian grid. Upper end in full; at the lower end the condition stops one cell before the surface (counterexample)."
 },
 "C112": {
  "note": "Cartesian coordinates. Upper end in full; at the lower end the components on the boundary are not set (counterexample)."
 },
 "C113": {
  "note": "In full with two ghost cells; with three or more the kernel's fixed count leaves cells out (counterexample)."
 },
 "C114": {
  "note": "Real arithmetic; the metric is an arbitrary function."
 },
 "C115": {
  "note": "The first row beyond the axis; the radial electric field there is not set (counterexample)."
 },
 "C116": {
  "note": "All energies below the upper limit; a live particle at or above it is counted beyond the end of the array (counterexample, for every number of bins). Logarithm and power with their laws are parameters; the energy of GR particles is taken from the metric (C87)."
 },
 "C117": {
  "note": "Names that are not reserved; a registered name beginning with a built-in name and an underscore, or with a letter taken for a field, is taken for that field (counterexample)."
 },
 "C118": {
  "note": "Fails for single stress components requested by letters, e.g. Ttt, a form the example input file documents (counterexample); otherwise in full."
 },
 "C119": {
  "note": "Names as lists of characters."
 },
 "C120": {
  "note": "Exact arithmetic; the conversion of the basis is a matrix at the centre (parameter, see C87)."
 },
 "C121": {
  "note": "Gauss's law in full in two and three dimensions with the volume at the cell centre; the numbers are not the divergences at a place, since fluxes and volume belong to different cells (counterexample); the one-dimensional branch, used by no metric, is consistent at the lower edge."
 },
 "C122": {
  "status": "partial",
  "note": "Massive species; for massless species the computation ends with an error (counterexample). The mean in Cartesian coordinates."
 },
 "C123": {
  "note": "Norm, future and rest in full. Flux along the velocity when all particles of the cell are at its centre; the code takes the flux at the place of the particle and the norm at the centre, so that a fast particle off the centre gives a fluid at rest (counterexample). Tests for non-finite numbers are not modelled."
 },
 "C124": {
  "note": "Proved for species of mass one; the number of pairs added is characterised for all masses. Counterexamples: the density compared with the target is the mass density, so other masses are over- or underfilled; ds = 0 (the default, documented as no limit) injects nothing. Exact arithmetic; exp is any function with values in [0,1] at negative arguments."
 },
 "C125": {
  "note": "Equilibrium and layer proved for both ends; confinement of gravity proved at the lower end for ds > 0. Counterexamples: at the upper end gravity acts on the whole grid; for ds = 0 it acts nowhere. Real exponential."
 },
 "C126": {
  "note": "Exact arithmetic; cells at least 7 (one step) away from the edges of the region no boundary condition writes; later steps lose 6 more cells each."
 },
 "C127": {
  "note": "Holds for every step but the first (in the flat-space clock fields used as a probe); in the first call B is advanced by 2 dt and D by 2.5 dt while particles are pushed once."
 },
 "C128": {
  "note": "Exact arithmetic; cells at least 4 away from the edges."
 },
 "C129": {
  "note": "Exact arithmetic, Minkowski metric, standard (Yee) stencil coefficients, correction = 1 in the Courant version. C129_limit_counterexample shows that the limit is sharp: above it there are fields whose energy grows geometrically, and the code accepts any CFL."
 },
 "C130": {
  "note": "Diagonal metrics, exact arithmetic, one active list of cells per rank. Outside the statement: C130_spherical_counterexample (totVolume of the spherical metrics is not a volume), C130_kerr_counterexample (it is zero for Kerr-Schild), C130_work_counterexample (JdotE averages J and E separately)."
 },
 "C131": {
  "note": "Special relativity complete. General relativity: values are stored as returned (C131_gr_partial); the header documents physical components, which are not converted (C131_basis_counterexample)."
 },
 "C132": {
  "note": "The constructor ignores its buffer argument, so every call with at least one function reads a default-constructed view (C132_buffer_counterexample). With the buffer used, the kernel does what it should (C132_update_partial, C132_interpolation)."
 },
 "C133": {
  "note": "Exact arithmetic; Cartesian metric, periodic box, MPI build with one subdomain per rank, no injection or emission. Missing: rounding, the order of floating-point sums, other metrics and boundaries."
 },
 "C134": {
  "note": "Exact arithmetic; same scope as C133. Missing: rounding (sums of floats depend on their order, so decompositions agree only up to rounding)."
 },
 "C135": {
  "note": "Exact arithmetic: a rounded offset can become 1. Even shape orders excluded, for them the deposit does leave the array (C33_even_order_counterexample). C135_courant shows the speed condition for dt <= dx and the Lorentz factor."
 },
 "C136": {
  "note": "Exact arithmetic; scope of C133. The zigzag deposit in three dimensions is excluded because it violates the continuity equation (C29). Unlike C35 the continuity of the trajectories from step to step (through push, exchange, removal and sorting) is proved, not assumed."
 },
 "C137": {
  "note": "Simulations with any number of interruptions (Session) compute what uninterrupted ones compute (C137_restart_partial) and cannot fail (C137_resume_safe_partial). Partial: exact arithmetic; SR engine, Cartesian periodic box as in C133; numbers put from temporaries are taken at once (see C43)."
 },
 "C138": {
  "note": "IEEE rounding to nearest even is defined in the model and shown to be rounding to nearest (C138_rounding). Proved as stated, for each axis separately and any displacement; offsets below 1 are refuted (C138_offset_one_counterexample). The displacement itself (momentum, metric) is an arbitrary number.",
  "status": "proved"
 },
 "C139": {
  "note": "Partial: the claims that the offset is never negative and that moving particles move are refuted (C139_negative_offset_counterexample, C139_stall_counterexample); the conversions to and from Cartesian coordinates are exact in the model."
 },
 "C140": {
  "note": "Proved for inputs without the four defects, each of which is refuted (C140_interval_counterexample, C140_disabled_counterexample, C140_short_list_counterexample, C140_species_counterexample)."
 },
 "C141": {
  "note": "C141_launch is proved in full; of the command line the case without -input is refuted (C141_default_input_counterexample: std::next of the end iterator). The rest of the input is assumed valid; the lists declared by the problem generator do not depend on the specialization."
 },
 "C142": {
  "note": "Proved except for photon_species = 0, which is refuted (C142_species_zero_counterexample)."
 },
 "C143": {
  "note": "Partial: exact arithmetic; without current filters, which depend on the decomposition next to conductors (C39); the currents are given as what deposit and synchronisation leave in the active cells; only conducting and periodic boundaries, both ends of an axis alike. The ghost layer is included except for the outermost layer beyond an upper wall of components between the nodes, which PerfectConductorFieldsIn never writes (and no kernel of the solver reads)."
 },
 "C144": {
  "note": "Partial: exact arithmetic (the conversions of positions are rounded in the code); stretching of the radial coordinate nonnegative; the removal of dead particles and the division of dead from alive, which the engine runs before the output, is C18 and is not repeated here."
 },
 "C145": {
  "note": "Partial. Exact real arithmetic and an ideal generator (independent, uniform in [0,1)), which the code's Random_XorShift64 is only meant to approximate. For T >= 1/2 the exact law including the redrawing of small numbers is proved for every tolerance up to 1/10, and differs from exp(-gamma/T) pointwise by at most the tolerance. For T < 1/2 the code draws from the non-relativistic Maxwellian exp(-|u|^2/2T), proved for tolerance 0, which is not exp(-gamma/T) at any such temperature (C145_counterexample). Drift components below the tolerance: C65_counterexample."
 },
 "C146": {
  "note": "Exact real arithmetic and an ideal generator. The limits are those of gamma - 1: Lorentz factors between 1 + g_min and 1 + g_max. The unit test requires Lorentz factors between g_min and g_max, which fails with positive probability (C146_counterexample)."
 },
 "C147": {
  "note": "Violated by absorbing walls (C147_counterexample): the pusher marks a particle as dead before the deposit, which skips dead particles, so the current of the last step is missing and the charge stays in the field where it was before that step. C147_absorbed_charges_partial states exactly what remains after any number of steps; C147_reflected_charges_partial is the claim for reflecting walls. Partial: exact arithmetic, no current filter, one subdomain, no zigzag deposit in three dimensions (C29)."
 },
 "C148": {
  "status": "partial",
  "note": "Violated in two ways: four documented defaults differ from the code (C148_default_counterexample: output.format, output.interval, diagnostics.colored_stdout, photon_energy_min), and a value of the wrong type, e.g. an integer where a float is documented, is silently replaced by the default (C148_type_counterexample). C148_options_partial, C148_physics_partial, C148_inferred, C148_nominal prove the rest. Not modelled: [setup], the command line, parsing of TOML text, rounding."
 },
 "C149": {
  "status": "partial",
  "note": "Violated for maxnpart, which is documented as an unsigned integer but refused as such (C149_maxnpart_counterexample); C149_species_partial proves the rest, for up to 255 species (the index has 8 bits)."
 },
 "C150": {
  "status": "partial",
  "note": "Violated for entries of a wrong shape in grid.boundaries.match.ds, which are not refused but replaced by or mixed with the default (C150_layers_counterexample). C150_grid and C150_layers_partial prove the rest. The smallest cell and its volume (scales.dx0, scales.V0) are parameters of the model (C12, C14 treat the metrics); exact arithmetic."
 },
 "C151": {
  "status": "partial",
  "note": "Violated: a species with a label of 22 or more characters ends the run with an exception at the first diagnostics (C151_species_counterexample). C151_table: rows whose entries fit are exactly as specified, with any UTF-8; C151_overlap: all others are exceptions, never wrong rows; C151_species_partial: labels up to 14 characters. Only the row of a species without MPI is built from the table; the other rows are instances of C151_table."
 },
 "C152": {
  "note": "Exact arithmetic instead of double; the clock does not go back; durations below 2^31 hours. The step reported is the one before the last completed step, so the remaining time includes the step just done."
 },
 "C153": {
  "status": "partial",
  "note": "Violated in four ways: percentage of an output longer than 655 times the step is undefined (C153_timers_counterexample), the total of more than 2^32 particles wraps (C153_particles_counterexample), the variation of equal ranks is shown as 99 or 100 % (C153_variation_counterexample), output is never highlighted (C153_highlight_counterexample). C153_timers_partial, C153_timers_mpi_partial, C153_particles_partial and C153_highlight prove the rest. Exact arithmetic; how timers are started and stopped is not modelled."
 },
 "C154": {
  "note": "Corollary of the refinement C133 and of the equivariance of the box without ranks under translations: interpolation, push, deposit, filters and field solvers only read at offsets from a cell. Partial: exact arithmetic."
 },
 "C155": {
  "note": "Corollary of the refinement C133 and of the linearity of the deposit in the weight, which the pusher does not read. C155_split and C155_distinct say what the relation between distributions identifies and what it tells apart. Partial: exact arithmetic."
 },
 "C156": {
  "note": "Partial because the code does not have the full property: integers outside of 32 bits are stored as another number, and empty arrays, dates and tables are dropped without a message (C156_counterexample). The parser of the file is outside of the model."
 },
 "C157": {
  "note": "Partial because the code does not have the full property: arrays of truth values and parameters of 8-bit species indices are left out, and of arrays of arrays only the entries are recorded (C157_counterexample). ADIOS2 is outside of the model: DefineAttribute adds an attribute and throws if the name is in use."
 },
 "C158": {
  "note": "By evaluating the kernels at a cell, exchanging the sums of interpolation and deposit, and the refinement C133. Boris, Vay, guiding centre and drag are shown to have no preferred axis. Partial: exact arithmetic; without current filtering. With filtering the claim is false (C158_filter_counterexample): the three-dimensional filter of the code is not symmetric."
 },
 "C159": {
  "note": "As C158, with the signs of axial vectors. Includes the separate formulas of two dimensions and the filter there. Partial: exact arithmetic; in three dimensions without current filtering, with which the claim is false (C159_filter_counterexample)."
 },
 "C160": {
  "note": "Every kernel is shown to be homogeneous in the fields and currents; with the refinement C133. Boris and Vay are shown to respond as required (C160_boris, C160_vay). Partial: exact arithmetic."
 },
 "C161": {
  "note": "False in three dimensions (C161_counterexample): the deposited current is short by the factor 3 THIRD. In single precision, the default, THIRD is 0.333333f and the defect 1 - 3 THIRD exceeds the rounding error of a number of order one more than seventeen times (C161_size). Proved instead: the exact factor of divergence and total current; the charge missing at a node after any number of steps is the defect times the change of the charge, so it does not accumulate; no defect along the axes in one and two dimensions. Order 7, whose weights contain the constant as well, is excluded; the sum of its weights is C161_order7_sum. Partial: exact arithmetic apart from the constant."
 },
 "C162": {
  "note": "Special relativity: chain rule, a point whose coordinates change at the computed rates has velocity u / gamma. General relativity: Hamilton's equations with the energy of C101; near the axis at the polar angle 1e-5, as the code evaluates it. The velocity is taken at the position after the push. Partial: quasi-Kerr-Schild only more than 1e-5 from the axis (near it the code converts the angle with the inverse of the stretching, see C62); exact arithmetic."
 },
 "C163": {
  "note": "Proved in exact arithmetic for all decompositions (C163_exact, C163_extents). In the numbers of the program the claim is false: 572 cells on [0,5] in double precision start on one process but not on 143 (C163_counterexample_many), 300 cells on [1000,1001] in single precision start on one or two processes but not on three (C163_counterexample_far). C163_float_partial: decompositions into subdomains no narrower than a 20th of the box, of boxes whose ends are within 20 subdomain widths of the origin, are always accepted, in float and double, fused or not. Missing: curvilinear metrics.",
  "status": "partial"
 },
 "C164": {
  "note": "Proved: number of steps up to one rounding (exact when the runtime is a multiple of the time step), clock up to 2k rounding errors, outputs separated by the interval rounded up to steps up to 4n+6 rounding errors, hence m or m+1 steps when the interval is m steps. False as stated for decimal inputs: runtime 0.3 with time step 0.1 makes two steps (C164_counterexample_number); outputs every 1.0 with time step 0.1 are eleven steps apart instead of ten (C164_counterexample_outputs). Model without wall-time limit.",
  "status": "partial"
 },
 "C165": {
  "note": "Proved as an equivalence; the metrics and the last check (metricCompatibilityCheck) are C163. C165_wraparound: the wrap of the 32-bit product (counterexample of C02) is caught by the search for neighbours."
 },
 "C166": {
  "status": "partial",
  "note": "Proved in exact arithmetic for every list of shifts, and in floating-point numbers for boxes on multiples of a power of two (C166_dyadic_partial). False for other boxes in floating-point numbers: C166_counterexample (aborted at the 18th shift), C166_counterexample_line (one dimension: the cell size changes by more than the tolerance)."
 },
 "C167": {
  "status": "partial",
  "note": "Proved in exact arithmetic and in floating-point numbers for boxes on multiples of a power of two (C167_dyadic_partial). False for other boxes: C167_counterexample (41 cells on [0, 1]: the restored box ends before 1), C167_counterexample_refused (a running simulation with three subdomains cannot be restarted after 17 shifts). Changed numbers of cells are C51."
 },
 "C168": {
  "status": "partial",
  "note": "C168_uniform_partial shows that the claim holds exactly if all nodes carry the same number of processes: the number of nodes is computed as all processes divided by those on the own node. C168_counterexample: nodes with 4, 4 and 1 processes give 2 and 9. C168_settings: agreement of all settings on uniform nodes and for the default."
 },
 "C169": {
  "note": "Proved for cells away from other walls; at the upper wall of an axis with conductors at both ends, and in corners, the claim is false (counterexamples). At an upper wall the layer whose tangential currents are left alone is one cell in front of the wall (C78)."
 },
 "C170": {
  "note": "Exact numbers; conversion of bytes to double is exact up to 2^53. Grids whose side with ghost cells reaches 2^32 wrap around (counterexample). Printing with two decimals is not modelled."
 },
 "C171": {
  "note": "Exact numbers. Kerr-Schild and its limit without spin (the metrics with equidistant angles); stretched angles are treated away from the axis in C101."
 },
 "C172": {
  "note": "Exact numbers. Perpendicular fields of equal strength make the code divide by zero and are excluded."
 },
 "C173": {
  "note": "Exact numbers. The conversion of coordinates by the metric is a parameter."
 },
 "C174": {
  "note": "Hash in unbounded integers, shown to fit in 16 bits; exhaustive over the finite set of directions."
 },
 "C175": {
  "note": "Exact numbers. Larmor radius of a particle without charge is infinite, as in IEEE arithmetic with a positive time step. Limits on the ratio above one are allowed by the code but excluded in the theorem on the guiding centre."
 },
 "C176": {
  "note": "Exact numbers; one cell. That cells do not interfere in any interleaving is C36."
 }
}