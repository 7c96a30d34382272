{"id": "C01", "title": "Splitting one axis among domains is exact and balanced", "statement": "Splitting n cells among k domains along one axis either fails with an error or returns exactly k sizes, each at least 5, that add up to n and differ by at most one cell; it fails only if k does not leave at least 5 cells per domain.", "quantifier": "every number of cells and every positive number of domains", "why_tests_cant": "The size list depends on n mod k for unbounded n and k; tests sample a handful of pairs.", "anchors": ["src/global/utils/tools.h: tools::decompose1D"]}
{"id": "C02", "title": "Automatic 2D/3D decompositions use all the ranks exactly", "statement": "Whenever the decomposition routine returns instead of failing, the product of the numbers of domains along the axes equals the number of ranks and the per-axis sizes add up to the number of cells along that axis, whatever mixture of fixed and automatic entries the user asked for and whatever the floating-point aspect-ratio guess evaluates to.", "quantifier": "every grid size, every number of ranks, every user decomposition vector and every value of the rounded square/cube-root guess", "why_tests_cant": "The starting guess comes from floating-point roots; only a proof covers every guess and every rank count.", "anchors": ["src/global/utils/tools.h: tools::divideInProportions2D, tools::divideInProportions3D, tools::Decompose"]}
{"id": "C03", "title": "Subdomains tile the global grid", "statement": "The boxes of cells owned by the subdomains are pairwise disjoint and their union is the whole global grid: every global cell is owned by exactly one subdomain, at the local index given by the subdomain offset.", "quantifier": "every decomposition in 1, 2 or 3 dimensions and every global cell", "why_tests_cant": "Coverage is a statement about all cells of all decompositions; tests check counts for small cases.", "anchors": ["src/framework/domain/metadomain.cpp: Metadomain::createEmptyDomains", "src/global/utils/tools.h: tools::TensorProduct, tools::Decompose"]}
{"id": "C04", "title": "Neighbour relation is symmetric", "statement": "If subdomain s is the neighbour of subdomain r in direction d, then r is the neighbour of s in direction -d, and the neighbour is the one whose box touches that of r across d with periodic wrap-around.", "quantifier": "every grid of subdomains (including one subdomain along an axis), every subdomain and every direction", "why_tests_cant": "Every rank relies on the others having computed the mirror image of its own table; a test only sees small rank grids.", "anchors": ["src/framework/domain/metadomain.cpp: Metadomain::redefineNeighbors"]}
{"id": "C05", "title": "Every send has its matching receive (no communication deadlock)", "statement": "In a halo exchange, rank r sends to rank s in direction d if and only if rank s receives from rank r for direction d, so the exchange can complete; this holds for faces, edges and corners.", "quantifier": "every rank grid, every two-sided choice of periodic / non-periodic global boundaries, every direction", "why_tests_cant": "A mismatch deadlocks only for particular rank grids and boundary mixes, which cannot be enumerated by tests.", "anchors": ["src/framework/domain/metadomain.cpp: Metadomain::redefineBoundaries", "src/framework/domain/metadomain_comm.cpp: GetSendRecvRanks"]}
{"id": "C06", "title": "No halo exchange across a non-periodic corner", "statement": "A subdomain never exchanges halo data or particles in a diagonal direction that leaves the global box through a non-periodic boundary.", "quantifier": "every rank grid, every mixture of periodic and non-periodic axes, every diagonal direction", "why_tests_cant": "Only specific mixtures of boundaries at specific corners expose it.", "anchors": ["src/framework/domain/metadomain.cpp: Metadomain::redefineBoundaries", "src/global/arch/directions.h: direction_t::get_assoc_orth"]}
{"id": "C07", "title": "Direction tables are complete and closed under reversal", "statement": "The list of neighbour directions contains every non-zero vector of {-1,0,1}^D exactly once, is closed under reversal, the face list contains exactly the axis-aligned ones, and the 'unique' list contains exactly one of each pair of opposite directions.", "quantifier": "all directions in dimensions 1, 2 and 3", "why_tests_cant": "A table typo makes one corner silently uncommunicated; tests do not enumerate the semantic requirement.", "anchors": ["src/global/arch/directions.h: Directions<D>::all, Directions<D>::orth, Directions<D>::unique"]}
{"id": "C08", "title": "Particle send tags and directions are mutually inverse", "statement": "A live particle that left the local box through a given combination of sides is tagged with the code that decodes to exactly that direction; a particle that did not leave keeps the alive tag; a dead particle stays dead whatever its position; distinct directions have distinct codes, none colliding with alive or dead.", "quantifier": "every combination of leaving flags that can occur, every dimension, every tag", "why_tests_cant": "The encoding is an arithmetic expression with 26 products; a swapped constant loses particles only in rare corner crossings.", "anchors": ["src/global/arch/mpi_tags.h: mpi::SendTag, mpi::tag2dir, mpi::dir2tag, PrtlSendTag"]}
{"id": "C09", "title": "Direction queries only succeed on axis-aligned directions", "statement": "Asking a direction for its axis or its sign returns the unique non-zero axis and its sign for axis-aligned directions and reports an error for every diagonal direction.", "quantifier": "every direction in dimensions 1, 2 and 3", "why_tests_cant": "Diagonal directions are reached only in corner handling.", "anchors": ["src/global/arch/directions.h: direction_t::get_dim, direction_t::get_sign"]}
{"id": "C10", "title": "Associated faces of a direction", "statement": "The faces associated with a direction are exactly the axis-aligned directions with the same sign along each non-zero axis, in axis order, and summing them gives back the direction.", "quantifier": "every direction vector of any length", "why_tests_cant": "Corner boundary conditions are derived from this list.", "anchors": ["src/global/arch/directions.h: direction_t::get_assoc_orth"]}
{"id": "C11", "title": "Enumeration names round-trip", "statement": "For every enumeration used in the input file, picking a value by its printed name returns that value, distinct values have distinct names, and a name is accepted by pick exactly when contains reports it; unknown names are rejected.", "quantifier": "every enumeration, every value and every string", "why_tests_cant": "Rejection must hold for every string, not just for sampled ones.", "anchors": ["src/global/enums.h: EnumBase::pick, EnumBase::contains, EnumBase::to_string"]}
{"id": "C12", "title": "Parameter container behaves as a map with promises", "statement": "Reading a parameter returns the value last written under that name with that type; writing one parameter never changes another; a read of a missing parameter yields the supplied default or an error; the promise check succeeds exactly if every promised name has been defined.", "quantifier": "every sequence of set / promise / get operations", "why_tests_cant": "Must hold after every history of operations.", "anchors": ["src/global/utils/param_container.h: prm::Parameters::set, get, promiseToDefine, promisesFulfilled"]}
{"id": "C13", "title": "Parsed Cartesian boundary conditions are two-sided in periodicity", "statement": "Whenever parsing of Cartesian boundary conditions succeeds, each axis is periodic on both sides or on neither, fields and particles agree about periodicity, and at most one boundary is an atmosphere.", "quantifier": "every pair of boundary-condition string lists", "why_tests_cant": "The whole communication layer assumes it for all inputs.", "anchors": ["src/framework/parameters/grid.cpp: GetBoundaryConditions"]}
{"id": "C14", "title": "Halo exchange makes local arrays a window of the global field", "statement": "After a field halo exchange on a periodic domain every ghost cell (faces, edges, corners) equals the active cell that is its image in the neighbouring subdomain (or in itself for a single subdomain), and active cells are unchanged.", "quantifier": "every number of cells, every ghost width not larger than the smallest subdomain, every field", "why_tests_cant": "Requires all indices for all sizes; off-by-one errors show only at specific slabs.", "anchors": ["src/framework/domain/metadomain_comm.cpp: Metadomain::CommunicateFields, GetSendRecvParams", "src/framework/domain/comm_nompi.hpp", "src/framework/domain/comm_mpi.hpp"]}
{"id": "C15", "title": "Current synchronisation conserves and completes deposited charge flux", "statement": "After synchronising deposited currents each active cell holds the sum of everything deposited into any of its images (its own value plus the ghost-cell contributions of all neighbours), each contribution counted exactly once, and the total over active cells equals the previous total over active and ghost cells.", "quantifier": "every number of cells, every ghost width not larger than the subdomain, every deposited field", "why_tests_cant": "Double counting in corners is invisible for most deposits.", "anchors": ["src/framework/domain/metadomain_comm.cpp: Metadomain::SynchronizeFields, AddBufferedFields, GetSendRecvParams"]}
{"id": "C16", "title": "Particle exchange neither loses nor duplicates particles", "statement": "Exchanging particles between subdomains keeps the multiset of live particles of the whole system: every particle tagged to leave appears exactly once in the destination subdomain, all other live particles stay where they are, and no live particle is overwritten.", "quantifier": "every distribution of tags, every number of subdomains and every order in which the parallel kernels process particles", "why_tests_cant": "Depends on buffer offsets for every possible tag distribution and every schedule.", "anchors": ["src/framework/containers/particles_comm.cpp: Particles::Communicate", "src/kernels/comm.hpp: PrepareOutgoingPrtls_kernel, PopulatePrtlSendBuffer_kernel, ExtractReceivedPrtls_kernel"]}
{"id": "C17", "title": "Exchanged particles keep their global position", "statement": "A particle that leaves through some sides by less than one subdomain width has, after the exchange, a local cell index inside the destination box, and its global cell position (modulo the periodic box) is unchanged; current and previous indices are shifted alike.", "quantifier": "every particle index, every subdomain size, every crossed direction, periodic wrap included", "why_tests_cant": "Subdomains of unequal sizes and wrap-around give many index cases.", "anchors": ["src/framework/domain/metadomain_comm.cpp: Metadomain::CommunicateParticles", "src/kernels/comm.hpp: PopulatePrtlSendBuffer_kernel"]}
{"id": "C18", "title": "Removal of dead particles keeps exactly the live ones", "statement": "Removing dead particles leaves a prefix that is a rearrangement of precisely the previously live particles with all their attributes kept together, marks the rest dead and sets the count to the number of live particles, for every interleaving of the parallel compaction.", "quantifier": "every particle array with alive/dead tags and every schedule", "why_tests_cant": "The compaction order is nondeterministic; tests see one schedule.", "anchors": ["src/framework/containers/particles_sort.cpp: Particles::RemoveDead, RemoveDeadInArray"]}
{"id": "C19", "title": "Tag counts and offsets partition the particle array", "statement": "The per-tag counts computed before an exchange add up to the number of particles and the per-tag offsets delimit disjoint, gap-free ranges for the non-alive, non-dead tags.", "quantifier": "every tag array", "why_tests_cant": "Off-by-one in prefix sums only matters for particular tag mixes.", "anchors": ["src/framework/containers/particles_sort.cpp: Particles::NpartsPerTagAndOffsets"]}
{"id": "C20", "title": "Spatial sorting is a tile-ordered permutation that keeps live particles first", "statement": "Spatial sorting permutes the particles (no loss or duplication), live particles come out ordered by tile, dead ones come last, and each live particle is assigned a tile index inside the tile grid containing its cell.", "quantifier": "every particle array, every tile size and grid size", "why_tests_cant": "Permutation and order must hold for all inputs.", "anchors": ["src/framework/containers/particles_sort.cpp: Particles::SortSpatially", "src/global/utils/sorting.h: sort::PositionToTileIndex, sort::BinTag"]}
{"id": "C21", "title": "Particle count never exceeds capacity, and writes stay inside the arrays", "statement": "The number of active particles of a species never exceeds its configured maximum: an operation that would exceed it reports an error before any array element outside the capacity is written.", "quantifier": "every sequence of injections, exchanges and removals", "why_tests_cant": "Overflow needs specific loads; memory-safety for all histories cannot be sampled.", "anchors": ["src/framework/containers/particles.h: Particles::set_npart", "src/archetypes/particle_injector.h: InjectUniform, InjectNonUniform", "src/framework/containers/particles_comm.cpp: Particles::Communicate"]}
{"id": "C22", "title": "Clearing interval is honoured per species", "statement": "Dead particles of a species are removed at a step only when that species' own clearing interval divides the step; a species with interval 0 is never cleared by the periodic sorting stage.", "quantifier": "every list of species intervals and every step", "why_tests_cant": "Needs several species with different intervals.", "anchors": ["src/framework/domain/metadomain_sort.cpp: Metadomain::SortParticles"]}
{"id": "C23", "title": "Cartesian position update is exact and keeps normalised offsets", "statement": "Moving a particle by less than one cell keeps the in-cell offset in [0,1), changes the cell index by at most one, advances cell+offset by exactly the displacement and records the old position as previous.", "quantifier": "every offset in [0,1), every displacement smaller than one cell, every index", "why_tests_cant": "Boundary values of the offset are measure-zero for random tests.", "anchors": ["src/kernels/pushers/sr.hpp: Pusher_kernel::positionPush"]}
{"id": "C24", "title": "Particle boundary conditions keep live particles inside the box", "statement": "After boundary conditions a particle that moved less than one cell is either dead, tagged for exchange, or inside the box: periodic wrap keeps the position modulo the box, reflection mirrors it about the wall and flips the normal velocity, absorption only removes particles that are outside.", "quantifier": "every box size, every position within one cell of the box, every boundary type per side", "why_tests_cant": "Exact landing on a wall is not sampled by tests.", "anchors": ["src/kernels/pushers/sr.hpp: Pusher_kernel::boundaryConditions"]}
{"id": "C25", "title": "In-cell offsets stay normalised through reflections", "statement": "The in-cell offset of every live particle stays in [0,1) after boundary conditions are applied.", "quantifier": "every particle state, including one landing exactly on the wall", "why_tests_cant": "The violating state is a single point.", "anchors": ["src/kernels/pushers/sr.hpp: Pusher_kernel::boundaryConditions"]}
{"id": "C26", "title": "Magnetic rotation conserves particle energy", "statement": "With no electric field the Boris and Vay momentum updates leave the Lorentz factor of a particle exactly unchanged; with no magnetic field the Boris update adds exactly the electric impulse.", "quantifier": "every momentum, every field, every time step, in exact arithmetic", "why_tests_cant": "An algebraic identity over all reals.", "anchors": ["src/kernels/pushers/sr.hpp: Pusher_kernel::velocityPush (Boris, Vay)"]}
{"id": "C27", "title": "Radiative drags act independently", "statement": "With several drag mechanisms enabled, the change of momentum in a step equals the sum of the changes each mechanism would produce on its own from the same time-centred momentum.", "quantifier": "every momentum and coefficient", "why_tests_cant": "Tests enable one drag at a time.", "anchors": ["src/kernels/pushers/sr.hpp: Pusher_kernel::synchrotronDrag, inverseComptonDrag"]}
{"id": "C28", "title": "Conversion from continuous coordinate to cell and offset", "statement": "Converting a continuous code coordinate to cell and offset returns the cell containing it with an offset in [0,1), for every coordinate inside the box or its first ghost cell.", "quantifier": "every coordinate not smaller than -1", "why_tests_cant": "Truncation towards zero differs from floor only on negatives.", "anchors": ["src/kernels/pushers/sr.hpp: from_Xi_to_i, from_Xi_to_i_di"]}
{"id": "C29", "title": "Zigzag deposit satisfies the discrete continuity equation", "statement": "For each particle the deposited current satisfies the discrete continuity equation: at every node the discrete divergence of the deposit equals minus the change of the linearly-weighted charge divided by the time step.", "quantifier": "1D, 2D and 3D, every particle charge and weight, every pair of positions at most one cell apart, every node", "why_tests_cant": "An identity over a continuum of positions and all crossing cases.", "anchors": ["src/kernels/currents_deposit.hpp: DepositCurrents_kernel (O == 0)"]}
{"id": "C30", "title": "Esirkepov deposit satisfies the discrete continuity equation", "statement": "For every shape order the deposited current satisfies the discrete continuity equation with the charge density built from the tensor product of the particle shape weights at the old and new positions.", "quantifier": "1D, 2D and 3D, every shape order, every pair of positions at most one cell apart, every node", "why_tests_cant": "An identity over all weights and all orders.", "anchors": ["src/kernels/currents_deposit.hpp: DepositCurrents_kernel (O >= 1)", "src/kernels/particle_shapes.hpp: prtl_shape::for_deposit"]}
{"id": "C31", "title": "Particle shape weights sum to one", "statement": "For every shape order the weights of a particle sum to exactly one and are non-negative for every in-cell offset, for both staggered and unstaggered nodes.", "quantifier": "orders 1 to 11, every offset in [0,1)", "why_tests_cant": "Coefficients of degree-11 splines: a wrong digit is below test tolerances.", "anchors": ["src/kernels/particle_shapes.hpp: prtl_shape::S1..S11, prtl_shape::order"]}
{"id": "C32", "title": "Uniform fields are interpolated exactly", "statement": "A particle in a spatially uniform electromagnetic field feels exactly that field, whatever its position and the interpolation order.", "quantifier": "every order, every position, every uniform field, 1D/2D/3D", "why_tests_cant": "Continuum of positions and orders.", "anchors": ["src/kernels/pushers/sr.hpp: Pusher_kernel::getInterpolatedEMFields"]}
{"id": "C33", "title": "Deposit and interpolation stencils stay inside the allocated arrays", "statement": "For every particle inside the active box or at most one cell outside it, every array element touched by the deposit lies inside the allocated array including ghost cells.", "quantifier": "every shape order, every offset, every box size", "why_tests_cant": "Out-of-bounds writes do not fail deterministically.", "anchors": ["src/global/global.h: N_GHOSTS", "src/kernels/particle_shapes.hpp: prtl_shape::for_deposit", "src/kernels/currents_deposit.hpp"]}
{"id": "C34", "title": "Magnetic field stays divergence-free", "statement": "The magnetic field update leaves the discrete divergence of B unchanged in every cell, for the standard and the extended stencil.", "quantifier": "1D/2D/3D, every electric field, every stencil coefficient and time step, every cell, any number of steps", "why_tests_cant": "An identity over all fields; round-off hides structural errors in tests.", "anchors": ["src/kernels/faraday_mink.hpp: Faraday_kernel"]}
{"id": "C35", "title": "Gauss's law is preserved by a full step", "statement": "If the discrete Gauss law holds initially, then after any number of steps, each made of electric-field update plus deposition of any particles' charge-conserving current, it still holds in every cell.", "quantifier": "every particle set, every trajectory with per-step displacement below one cell, any number of steps", "why_tests_cant": "A whole-history invariant.", "anchors": ["src/kernels/ampere_mink.hpp: Ampere_kernel, CurrentsAmpere_kernel", "src/kernels/currents_deposit.hpp", "src/engines/srpic/fieldsolvers.h"]}
{"id": "C36", "title": "Field updates do not depend on the order cells are processed", "statement": "The parallel field-update kernels give the same result for every order and interleaving in which the cells are processed.", "quantifier": "every execution order of the cells, every field", "why_tests_cant": "Schedules cannot be enumerated.", "anchors": ["src/kernels/faraday_mink.hpp: Faraday_kernel", "src/kernels/ampere_mink.hpp: Ampere_kernel, CurrentsAmpere_kernel", "src/kernels/digital_filter.hpp"]}
{"id": "C37", "title": "Current filtering conserves total current and charge conservation", "statement": "Any number of filter passes with halo exchange on a periodic domain conserves the total current, leaves uniform currents unchanged, and turns the divergence of the current into the filtered divergence (so continuity survives with the filtered charge).", "quantifier": "every current field, every number of passes, 1D/2D/3D", "why_tests_cant": "Must hold for all fields and pass counts.", "anchors": ["src/kernels/digital_filter.hpp: DigitalFilter_kernel", "src/engines/srpic/currents.h: CurrentsFilter"]}
{"id": "C38", "title": "The filter is the separable 1-2-1 binomial filter", "statement": "One filter pass equals the successive application of the one-dimensional (1/4,1/2,1/4) filter along each axis.", "quantifier": "1D/2D/3D, every field", "why_tests_cant": "A wrong index in a 27-point stencil keeps all sum rules tests look at.", "anchors": ["src/kernels/digital_filter.hpp: DigitalFilter_kernel"]}
{"id": "C39", "title": "Filtering next to conductors only uses cells inside the box", "statement": "Next to a perfectly conducting wall the filter uses only values from the conducting side's interior, whichever sides of the box are conducting.", "quantifier": "every combination of conducting sides", "why_tests_cant": "Requires conductors on both sides.", "anchors": ["src/kernels/digital_filter.hpp: DigitalFilter_kernel"]}
{"id": "C40", "title": "Downsampled outputs of the subdomains tile the global output array", "statement": "For any downsampling factor the sampled blocks written by the subdomains are disjoint, contiguous and cover the global downsampled array exactly, and entry k of the output is global cell k times the factor.", "quantifier": "every decomposition, every downsampling factor", "why_tests_cant": "Depends on residues of all offsets modulo the factor.", "anchors": ["src/output/writer.cpp: Writer::defineMeshLayout", "src/framework/domain/metadomain_io.cpp: Metadomain::InitWriter, Metadomain::Write"]}
{"id": "C41", "title": "Checkpoint field blocks tile the checkpoint array", "statement": "The field blocks (with ghost cells) written to a checkpoint by the subdomains are disjoint and cover the declared global array exactly, and each subdomain reads back exactly what it wrote.", "quantifier": "every decomposition and ghost width", "why_tests_cant": "All decompositions.", "anchors": ["src/framework/domain/metadomain_chckpt.cpp: Metadomain::InitCheckpointWriter, Metadomain::ContinueFromCheckpoint"]}
{"id": "C42", "title": "Particle blocks in files are disjoint and complete", "statement": "The offsets at which ranks write their particles are the prefix sums of the counts: blocks are disjoint, in rank order, and fill the declared global size.", "quantifier": "every list of per-rank particle counts (zeros included)", "why_tests_cant": "All count vectors.", "anchors": ["src/framework/containers/particles_io.cpp: Particles::OutputWrite, Particles::CheckpointWrite"]}
{"id": "C43", "title": "Checkpoint and restart restore particles and counters exactly", "statement": "Writing a checkpoint and reading it back restores for each rank the particle count, the creation counter and all particle attributes.", "quantifier": "every particle state of every rank", "why_tests_cant": "Round trip for all states.", "anchors": ["src/framework/containers/particles_io.cpp: Particles::CheckpointWrite, Particles::CheckpointRead"]}
{"id": "C44", "title": "Output and checkpoint schedule", "statement": "With a step interval, output happens exactly at multiples of the interval; with a time interval, consecutive outputs are at least the interval apart and an output happens at the first opportunity; the wall-clock checkpoint fires at most once.", "quantifier": "every history of (step, time, wall-clock) queries", "why_tests_cant": "History dependent state.", "anchors": ["src/global/utils/tools.h: tools::Tracker"]}
{"id": "C45", "title": "A due checkpoint is not skipped", "statement": "If a checkpoint is due according to its interval and no checkpoint is written at that query, it remains due at the next query.", "quantifier": "every step and time", "why_tests_cant": "The first-step guard interacts with the schedule state.", "anchors": ["src/framework/domain/metadomain_chckpt.cpp: Metadomain::WriteCheckpoint", "src/global/utils/tools.h: tools::Tracker::shouldWrite"]}
{"id": "C46", "title": "Checkpoint retention is crash safe", "statement": "At every crash point during checkpointing, the number of complete checkpoints on disk is at least the smaller of the retention count and the number of checkpoints completed so far, and without outside interference never exceeds the retention count after a checkpoint completes.", "quantifier": "every sequence of checkpoints and every crash point between file operations", "why_tests_cant": "Crash points cannot be enumerated by tests.", "anchors": ["src/output/checkpoint.cpp: checkpoint::Writer::beginSaving, endSaving"]}
{"id": "C47", "title": "Retention resumes after outside deletions", "statement": "If somebody deletes an old checkpoint, later checkpoints still keep the number of stored checkpoints bounded by the retention count.", "quantifier": "every history of checkpoints and deletions", "why_tests_cant": "Needs interleaved outside actions.", "anchors": ["src/output/checkpoint.cpp: checkpoint::Writer::endSaving"]}
{"id": "C48", "title": "Restart picks the latest complete checkpoint", "statement": "Restarting selects the complete checkpoint with the largest step present on disk.", "quantifier": "every set of files, including partially written checkpoints", "why_tests_cant": "Depends on crash leftovers.", "anchors": ["src/framework/simulation.cpp: Simulation::Simulation"]}
{"id": "C49", "title": "Immutable parameters survive chains of restarts", "statement": "Parameters documented as immutable keep the values of the original run through any number of checkpoint/restart cycles even if the input file is edited between restarts.", "quantifier": "every sequence of edited input files", "why_tests_cant": "Requires at least two restarts.", "anchors": ["src/framework/simulation.cpp", "src/framework/parameters/parameters.cpp: SimulationParams::saveTOML, setImmutableParams"]}
{"id": "C50", "title": "Restart restores simulation time exactly", "statement": "The time restored from a checkpoint equals the time at which it was written.", "quantifier": "every time value", "why_tests_cant": "Formatting loses digits only for some values.", "anchors": ["src/framework/parameters/parameters.cpp: SimulationParams::saveTOML"]}
{"id": "C51", "title": "Redecomposition from a checkpoint is consistent", "statement": "The decomposition rebuilt from a checkpoint has the stored subdomain sizes, offsets that are prefix sums, and is rejected if sizes do not add up to the global grid.", "quantifier": "every stored list of sizes", "why_tests_cant": "All decompositions.", "anchors": ["src/framework/domain/metadomain_chckpt.cpp: Metadomain::redecomposeFromCheckpoint"]}
{"id": "C52", "title": "Stats file rows match their header", "statement": "Every row of the statistics file has as many columns as the header.", "quantifier": "every set of requested statistics", "why_tests_cant": "All requests.", "anchors": ["src/output/stats.cpp", "src/framework/domain/metadomain_stats.cpp: Metadomain::WriteStats"]}
{"id": "C53", "title": "Field name prompts are interpreted completely", "statement": "Component lists requested in output field names expand to exactly the component pairs denoted, in order, without duplicates, and species suffixes give exactly the listed species.", "quantifier": "every component string and every list of species digits", "why_tests_cant": "All strings.", "anchors": ["src/output/utils/interpret_prompt.cpp: InterpretComponents, InterpretSpecies"]}
{"id": "C54", "title": "Output session protocol", "statement": "Output files are only written between a begin and the end of the same mode; nested or mismatched begin/end are rejected without corrupting the session state.", "quantifier": "every sequence of begin/end/write calls", "why_tests_cant": "All histories.", "anchors": ["src/output/writer.cpp: Writer::beginWriting, Writer::endWriting"]}
{"id": "C55", "title": "Box intersection", "statement": "The intersection of the grid extent with a user box is, along every axis, the overlap of the two intervals, also when the box is unbounded on one or both sides.", "quantifier": "every box including half-open ones", "why_tests_cant": "Half-open boxes are rarely tested.", "anchors": ["src/framework/domain/mesh.h: Mesh::Intersection, Mesh::Intersects"]}
{"id": "C56", "title": "Moving window shifts the global field", "statement": "After moving the window by s cells each active cell of each subdomain holds the value the global field had s cells ahead, and particles keep their position relative to the plasma.", "quantifier": "every window shift, every number of subdomains, every field", "why_tests_cant": "Depends on the shift against the ghost width.", "anchors": ["src/archetypes/moving_window.h: MoveWindow, FieldShift_kernel"]}
{"id": "C57", "title": "Globally specified particles are injected exactly once", "statement": "Every particle of a user-supplied list that lies inside the global box is injected by exactly one subdomain, at its position, and particles outside are injected by none.", "quantifier": "every particle list and decomposition", "why_tests_cant": "Boundary coincidences between subdomains.", "anchors": ["src/kernels/injectors.hpp: GlobalInjector_kernel", "src/archetypes/particle_injector.h: InjectGlobally"]}
{"id": "C58", "title": "Injected weights are the requested ones", "statement": "A particle injected from a user-supplied list with weights carries the weight supplied for it.", "quantifier": "every particle list", "why_tests_cant": "Uses uninitialised memory that is often zero or one.", "anchors": ["src/kernels/injectors.hpp: GlobalInjector_kernel"]}
{"id": "C59", "title": "Tracked particle identifiers are unique", "statement": "With tracking enabled no two particles ever created (over the whole run, on all ranks, across restarts) carry the same identifier.", "quantifier": "every history of injections, exchanges, removals and restarts, every schedule of the parallel injection", "why_tests_cant": "Whole-history uniqueness under nondeterminism.", "anchors": ["src/kernels/injectors.hpp: InjectParticle", "src/archetypes/particle_injector.h", "src/framework/containers/particles.h: counter, set_counter"]}
{"id": "C60", "title": "Smoothed moments conserve totals", "statement": "The sum over cells of a smoothed particle moment equals the sum of the particles' contributions for every smoothing order and method, away from boundaries.", "quantifier": "every smoothing order, every offset", "why_tests_cant": "Continuum of offsets.", "anchors": ["src/kernels/particle_moments.hpp: ParticleMoments_kernel"]}
{"id": "C61", "title": "Moments conserve totals at the polar axis", "statement": "Contributions that fall beyond the polar axis are folded back into active cells so that nothing is lost.", "quantifier": "every particle next to the axis, every smoothing order", "why_tests_cant": "Only visible next to the axis.", "anchors": ["src/kernels/particle_moments.hpp: ParticleMoments_kernel"]}
{"id": "C62", "title": "Local and global coordinates agree in every metric", "statement": "Converting code coordinates to physical ones and back is the identity, the cells fill the requested extent, and a cell's physical position computed from its subdomain equals the one computed from the global grid; on spherical grids the conversion to Cartesian coordinates and back is the identity. This holds for every documented value of the stretching parameter.", "quantifier": "every metric, position, decomposition and stretching parameter", "why_tests_cant": "All decompositions.", "anchors": ["src/metrics/minkowski.h: Minkowski::convert", "src/metrics/spherical.h: Spherical::convert", "src/metrics/qspherical.h: QSpherical::theta2eta, convert", "src/metrics/kerr_schild.h: KerrSchild::convert", "src/metrics/kerr_schild_0.h: KerrSchild0::convert", "src/metrics/qkerr_schild.h: QKerrSchild::convert", "src/framework/domain/metadomain.cpp: Metadomain::createEmptyDomains"]}
{"id": "C63", "title": "Time step respects the one-cell limit", "statement": "With the configured time step (Courant number below one) no particle can move by one cell or more along any axis in a step.", "quantifier": "every particle momentum, every dimension, every resolution", "why_tests_cant": "All momenta.", "anchors": ["src/framework/parameters/algorithms.cpp", "src/metrics/minkowski.h: find_dxMin", "src/kernels/pushers/sr.hpp: positionPush"]}
{"id": "C64", "title": "Moving piston reflects elastically", "statement": "A particle reflected by a moving wall keeps its mass-shell relation and transverse momentum, and its velocity relative to the wall is reversed in the wall frame.", "quantifier": "every momentum, every subluminal wall speed", "why_tests_cant": "Algebraic identity.", "anchors": ["src/archetypes/piston.h: Piston"]}
{"id": "C65", "title": "Drifting Maxwellian: boost and rotation are exact", "statement": "The boost applied to sampled momenta is a Lorentz boost and the rotation preserves lengths and takes the first axis to the drift direction.", "quantifier": "every sampled momentum and drift direction", "why_tests_cant": "Algebraic identity.", "anchors": ["src/archetypes/energy_dist.h: Maxwellian::operator(), SampleFromMaxwellian"]}
{"id": "C66", "title": "Main loop accounting", "statement": "After any number of iterations simulation time equals start time plus steps times the time step, every stage runs once per step in order, and the loop stops exactly at the configured number of steps.", "quantifier": "any number of steps", "why_tests_cant": "Induction over steps.", "anchors": ["src/engines/engine.hpp: Engine::run"]}
{"id": "C67", "title": "Vector-potential output is the running integral of the flux", "statement": "The output vector potential is the prefix sum of the flux over the whole column independent of how the column is split among subdomains.", "quantifier": "every decomposition and every field", "why_tests_cant": "All decompositions.", "anchors": ["src/framework/domain/metadomain_io.cpp: ComputeVectorPotential, ExtractVectorPotential, CommunicateVectorPotential"]}
{"id": "C68", "title": "Setting boundary conditions changes the requested boundary", "statement": "Changing the boundary condition of one side at run time changes that side and no other.", "quantifier": "every side in every dimension", "why_tests_cant": "All sides and dimensions.", "anchors": ["src/framework/domain/metadomain.cpp: Metadomain::setFldsBC, Metadomain::setPrtlBC"]}
{"id": "C69", "title": "Pusher and species consistency from input", "statement": "A comma-separated pusher string is accepted exactly if every word is a pusher name and photon is not combined with gca, and sets exactly the named flags; no accepted species is charged and massless, and no massive species gets the photon pusher.", "quantifier": "every string, mass and charge", "why_tests_cant": "Rejection and flag correctness must hold for every string.", "anchors": ["src/framework/parameters/particles.cpp: getPusherFlags, GetParticleSpecies"]}
{"id": "C70", "title": "Curvilinear reflections use the mid-step position", "statement": "On a curvilinear mesh, the position at which the boundary conditions decompose the momentum is the midpoint between the positions before and after the step.", "quantifier": "every pair of old and new positions, with and without a custom particle update", "why_tests_cant": "The difference is second order in the step and within the tolerances of tests.", "anchors": ["src/kernels/pushers/sr.hpp: Pusher_kernel::positionPush (606-643)"]}
{"id": "C71", "title": "Curvilinear reflections flip only the normal component", "statement": "A reflecting wall on a curvilinear mesh flips exactly the contravariant momentum component normal to the wall and leaves the other contravariant components unchanged.", "quantifier": "every momentum, every wall, every pair of mutually inverse basis transformations", "why_tests_cant": "Ranges over all metrics and momenta.", "anchors": ["src/kernels/pushers/sr.hpp: Pusher_kernel::boundaryConditions"]}
{"id": "C72", "title": "Momentum updates solve the discretised Lorentz equation", "statement": "The Boris update rotates the half-kicked momentum so that the change equals the magnetic force on the average of the momenta before and after (direction and angle included); the Vay update satisfies u' = u + 2cE + c(v + v') x B with v, v' the velocities before and after.", "quantifier": "every momentum, electric and magnetic field, charge-to-mass ratio and time step", "why_tests_cant": "An identity over all reals; tests check a few orbits within tolerance.", "anchors": ["src/kernels/pushers/sr.hpp: velocityEMPush_Boris, velocityEMPush_Vay"]}
{"id": "C73", "title": "The deposited current sums up to charge times velocity", "statement": "Summed over the whole array, what the deposit adds to a component of the current equals, per particle, its charge and weight times its displacement over the time step along the axes of the grid and times its velocity along the other axes; dead particles add nothing.", "quantifier": "every shape order, 1D to 3D, every set of particles that move less than one cell", "why_tests_cant": "An identity over a continuum of positions for every order and crossing case.", "anchors": ["src/kernels/currents_deposit.hpp: DepositCurrents_kernel"]}
{"id": "C74", "title": "Fields that vary linearly are interpolated exactly", "statement": "If a field component is an affine function of position on the staggered grid, then the field a particle sees is the value of that function at the particle's position, for every component and its own staggering.", "quantifier": "every shape order from 1 up, 1D to 3D, every affine field, every particle position in the box", "why_tests_cant": "Ranges over all positions, fields, orders and components; tests sample a few.", "anchors": ["src/kernels/pushers/sr.hpp: getInterpolatedEMFields", "src/kernels/particle_shapes.hpp"]}
{"id": "C75", "title": "Fields do not depend on how the box is divided among ranks", "statement": "On a periodic box, starting from the same fields, any sequence of magnetic updates, electric updates and filter passes gives the same fields in every cell for every decomposition of the box among ranks.", "quantifier": "every two decompositions of the same box, every initial field, every sequence of operations, every interleaving of the kernels, 1D/2D/3D", "why_tests_cant": "Tests compare a few rank counts on a few fields; the claim is over all decompositions and histories.", "anchors": ["src/engines/srpic/fieldsolvers.h", "src/engines/srpic/currents.h: CurrentsFilter", "src/framework/domain/metadomain_comm.cpp: CommunicateFields"]}
{"id": "C76", "title": "Field kernels stay inside the arrays", "statement": "Launched on the active cells of any subdomain, the field-update, divergence and filter kernels read and write only elements of the field arrays.", "quantifier": "every subdomain of every decomposition, every active cell, every kernel and parameter, two or more ghost layers", "why_tests_cant": "Out-of-bounds reads are silent; sizes and decompositions cannot be enumerated.", "anchors": ["src/kernels/faraday_mink.hpp", "src/kernels/ampere_mink.hpp", "src/kernels/divergences.hpp", "src/kernels/digital_filter.hpp"]}
{"id": "C77", "title": "Filtering at the polar axis is the plain filter on the reflected field", "statement": "Next to a polar axis the filter of the currents equals the plain filter applied to the field continued across the axis by reflection (radial current even, polar and azimuthal currents odd), so the axis is not a special location.", "quantifier": "every current field, both axes, every cell", "why_tests_cant": "A statement about every field; tests look at a constant or a single cell.", "anchors": ["src/kernels/digital_filter.hpp: DigitalFilter_kernel"]}
{"id": "C78", "title": "Lower and upper conducting walls are treated alike by the filter", "statement": "Filtering the mirror image of a current next to a conducting upper wall gives the mirror image of filtering the current next to a conducting lower wall.", "quantifier": "every current field, every component, every cell", "why_tests_cant": "A symmetry statement about every field.", "anchors": ["src/kernels/digital_filter.hpp: DigitalFilter_kernel"]}
{"id": "C79", "title": "Step reports are truthful", "statement": "The report printed for a step says that output (or a checkpoint) was written exactly if it was written at that step.", "quantifier": "every run, every schedule of output", "why_tests_cant": "Depends on which writers fire at which step; reports are only printed text.", "anchors": ["src/engines/engine.hpp: Engine::run", "src/global/utils/diag.cpp: printDiagnostics"]}
{"id": "C80", "title": "Resumed runs end at the configured runtime", "statement": "A run resumed from a checkpoint ends within one time step of the configured runtime, also if runtime or CFL number were changed, as the program allows.", "quantifier": "every checkpoint step, runtime and time step", "why_tests_cant": "Needs whole runs with restarts.", "anchors": ["src/engines/engine.hpp: Engine::Engine, Engine::run", "src/framework/parameters/algorithms.cpp: Algorithms::read"]}
{"id": "C81", "title": "Coordinates written with the fields are those of the sampled cells", "statement": "Entry k of the cell-centre (cell-edge) array in the output is the physical position of the centre (lower edge) of the cell sampled by entry k of the fields, and the last edge is the upper end of the grid.", "quantifier": "every subdomain position and size, every downsampling factor, every coordinate map", "why_tests_cant": "Depends on the residue of the subdomain offset and size modulo the factor, for all decompositions.", "anchors": ["src/framework/domain/metadomain_io.cpp: Metadomain::Write", "src/output/writer.cpp: Writer::defineMeshLayout"]}
{"id": "C82", "title": "Which particles are written to the output", "statement": "Without tracking, the particles written are numbers 0, stride, 2*stride, ... of the rank, each once. With tracking, every live particle whose identification number is a multiple of the stride is written exactly once and no other particle is written, whatever the order in which parallel threads run.", "quantifier": "every number of particles, stride, tags and identification numbers, every thread schedule", "why_tests_cant": "All schedules of a parallel kernel with an atomic counter.", "anchors": ["src/framework/containers/particles_io.cpp: Particles::OutputWrite", "src/kernels/prtls_to_phys.hpp: PrtlToPhys_kernel"]}
{"id": "C83", "title": "The field solver advances Maxwell's equations", "statement": "In every active cell of every rank, the magnetic update changes physical B by -(dT/dx) times the discrete curl of physical E and nothing else, and the electric update changes physical E by +(dT/dx) times the discrete curl of physical B plus coeff times the current and nothing else (the current is then divided by ppc0).", "quantifier": "every dimension, every decomposition of a periodic Cartesian box, every field configuration, every coefficient set of the extended solver, every schedule of the kernels", "why_tests_cant": "Wrong sign, stencil offset or metric factor of one component in one dimension is visible only for fields that excite it; tests use a few smooth fields.", "anchors": ["src/kernels/faraday_mink.hpp: Faraday_kernel", "src/kernels/ampere_mink.hpp: Ampere_kernel, CurrentsAmpere_kernel", "src/engines/srpic/fieldsolvers.h"]}
{"id": "C84", "title": "Reduced particle statistics", "statement": "A number written to the statistics file for a particle quantity (number, charge, mass density, energy, momentum, stress component) is the sum, over all live particles of the requested species on all ranks, of the particle's contribution; it does not depend on how particles are distributed over subdomains or on the order of the parallel reduction.", "quantifier": "every particle population, species selection, component and distribution over subdomains", "why_tests_cant": "All populations and decompositions.", "anchors": ["src/kernels/reduced_stats.hpp: ReducedParticleMoments_kernel", "src/framework/domain/metadomain_stats.cpp: ComputeMoments", "src/output/stats.h: Writer::write"]}
{"id": "C85", "title": "Cells of a box", "statement": "The index range computed for a physical box contains, along each axis, exactly the active cells that overlap the box, and nothing when the box misses the subdomain.", "quantifier": "every box, every Cartesian mesh and resolution", "why_tests_cant": "All boxes and resolutions, including coincidences with cell edges.", "anchors": ["src/framework/domain/mesh.h: Mesh::ExtentToRange"]}
{"id": "C86", "title": "Metric components are consistent with one another", "statement": "Components with upper indices are the inverse of those with lower indices, in space and in space-time; lapse, shift and spatial metric make up the space-time metric; sqrt_det_h is the positive root of the determinant of the spatial metric and sqrt_det_h_tilde is the same without the factor sin(theta); sqrt_h_ is the root of h_.", "quantifier": "every metric, spin, grid and point off the axis", "why_tests_cant": "Identities between real functions of position, spin and stretching.", "anchors": ["src/metrics/kerr_schild.h: h_, h, g_, g, alpha, beta1, sqrt_det_h, sqrt_det_h_tilde", "src/metrics/kerr_schild_0.h: h_, h, g_, g, alpha, beta1, sqrt_det_h, sqrt_det_h_tilde", "src/metrics/qkerr_schild.h: h_, h, g_, g, alpha, beta1, sqrt_det_h, sqrt_det_h_tilde", "src/metrics/spherical.h: h_, sqrt_h_, sqrt_det_h", "src/metrics/qspherical.h: h_, sqrt_h_, sqrt_det_h", "src/metrics/minkowski.h: h_, sqrt_h_, sqrt_det_h"]}
{"id": "C87", "title": "Vector transformations compose and invert", "statement": "Transforming a vector between tetrad, Cartesian or spherical, contravariant and covariant components gives the same result along every path, going back gives the original, and contracting contravariant with covariant components gives the product of the tetrad components; the physical bases are inverse scalings of the code bases; raising and lowering four-vectors are inverse.", "quantifier": "every metric, point off the axis and vector", "why_tests_cant": "All vectors, points and pairs of bases.", "anchors": ["src/metrics/kerr_schild.h: transform, transform_4d", "src/metrics/kerr_schild_0.h: transform, transform_4d", "src/metrics/qkerr_schild.h: transform, transform_4d", "src/metrics/minkowski.h: transform", "src/metrics/spherical.h: transform, transform_xyz", "src/metrics/qspherical.h: transform, transform_xyz"]}
{"id": "C88", "title": "Analytic derivatives of the metric are derivatives", "statement": "The functions a general-relativistic metric offers as derivatives of lapse, shift and inverse spatial metric along the two code coordinates are the derivatives of the functions it offers for these quantities (except where the angular derivatives are so small that they are set to zero).", "quantifier": "every spin, grid and point off the axis", "why_tests_cant": "Derivatives are limits; tests compare finite differences at sample points.", "anchors": ["src/metrics/kerr_schild.h: dr_alpha, dt_alpha, dr_beta1, dt_beta1, dr_h11 ... dt_h13", "src/metrics/kerr_schild_0.h: dr_alpha, dt_alpha, dr_beta1, dt_beta1, dr_h11 ... dt_h13", "src/metrics/qkerr_schild.h: dr_alpha, dt_alpha, dr_beta1, dt_beta1, dr_h11 ... dt_h13"]}
{"id": "C89", "title": "Area of the half cell at the axis", "statement": "The area next to the axis used by the field solver is the integral of the area element from the axis to the middle of the first cell, also when the small-angle formula is used.", "quantifier": "every grid starting on the axis and every radius", "why_tests_cant": "Statement about an integral with an error bound for all small angles.", "anchors": ["src/metrics/spherical.h: polar_area", "src/metrics/qspherical.h: polar_area", "src/metrics/kerr_schild.h: polar_area", "src/metrics/kerr_schild_0.h: polar_area", "src/metrics/qkerr_schild.h: polar_area"]}
{"id": "C90", "title": "Energy of a particle from its velocity", "statement": "For every covariant velocity the time component computed by the metric puts the four-velocity on the mass shell pointing to the future, for massive and massless particles, and no other number does.", "quantifier": "every general-relativistic metric, point off the axis, velocity and norm", "why_tests_cant": "All real velocities and points.", "anchors": ["src/metrics/kerr_schild.h: u_0", "src/metrics/kerr_schild_0.h: u_0", "src/metrics/qkerr_schild.h: u_0", "src/kernels/particle_moments.hpp"]}
{"id": "C91", "title": "Injected particles come in pairs at the same place", "statement": "Injecting two species creates the same number of particles of each, one pair at each position, with equal weights, and leaves all particles already present untouched.", "quantifier": "every density, box, spatial distribution, random numbers and order of the parallel threads", "why_tests_cant": "All thread orders and all random numbers.", "anchors": ["src/archetypes/particle_injector.h: InjectUniform, InjectNonUniform", "src/kernels/injectors.hpp: UniformInjector_kernel, NonUniformInjector_kernel"]}
{"id": "C92", "title": "Particles are injected where and as densely as requested", "statement": "Uniform injection creates density times overlap volume particles (up to truncation) and every one lies inside the requested box and the subdomain; non-uniform injection creates in each active cell a number within one of the requested one, all inside that cell, and none elsewhere.", "quantifier": "every density, box, subdomain, distribution, random numbers and thread order", "why_tests_cant": "Coincidences of box edges with subdomain edges; all random numbers.", "anchors": ["src/archetypes/particle_injector.h: ComputeNumInject, InjectUniform, InjectNonUniform", "src/kernels/injectors.hpp: UniformInjector_kernel, NonUniformInjector_kernel"]}
{"id": "C93", "title": "Photon emission conserves momentum", "statement": "An emitted photon starts at the place of its parent, carries the configured energy and weight, and its momentum together with that of the parent after recoil equals the momentum of the parent before.", "quantifier": "every particle, fields, random number and parameters, for inverse Compton and synchrotron emission", "why_tests_cant": "All real velocities and fields, including those for which the direction of the recoil degenerates.", "anchors": ["src/archetypes/emission/compton.h", "src/archetypes/emission/synchrotron.h", "src/kernels/pushers/sr.hpp"]}
{"id": "C94", "title": "Mean recoil equals the continuous drag", "statement": "For the same parameters, the recoil of discrete photon emission times its probability equals the change of momentum by continuous radiative drag.", "quantifier": "every particle, fields and parameters in the regime in which photons are emitted", "why_tests_cant": "Statement about a mean, for all masses, charges and velocities.", "anchors": ["src/archetypes/emission/compton.h", "src/archetypes/emission/synchrotron.h", "src/kernels/pushers/sr.hpp: synchrotronDrag, inverseComptonDrag"]}
{"id": "C95", "title": "Curvilinear grids: magnetic flux through closed surfaces stays constant", "statement": "In a two-dimensional polar grid the net magnetic flux out of every cell, up to and including the cells at the axes, is the same after any number of steps as before, both for the special-relativistic and the general-relativistic engine.", "quantifier": "every metric, grid size, number of steps, currents, time step parameters, content of the boundary region and thread interleaving", "why_tests_cant": "Every initial field and every metric function; the GR leapfrog with its swapped, averaged and copied arrays interleaves in many ways.", "anchors": ["src/kernels/faraday_sr.hpp", "src/kernels/faraday_gr.hpp", "src/engines/srpic/srpic.hpp: step_forward", "src/engines/grpic/grpic.hpp: step_forward", "src/kernels/fields_bcs.hpp: AxisBoundaries_kernel"]}
{"id": "C96", "title": "Curvilinear grids: Gauss's law, special relativity", "statement": "If the deposited currents obey the continuity equation, electric flux out of every dual cell minus the charge in it (in code units) is preserved by any number of steps, including the caps around the two poles.", "quantifier": "every metric, grid, number of steps, currents, charge history, parameters and thread interleaving", "why_tests_cant": "Involves all current patterns; the treatment of the axis is exercised by no periodic test.", "anchors": ["src/kernels/ampere_sr.hpp: Ampere_kernel, CurrentsAmpere_kernel", "src/engines/srpic/fieldsolvers.h", "src/engines/srpic/srpic.hpp: step_forward"]}
{"id": "C97", "title": "Curvilinear grids: Gauss's law, general relativity", "statement": "The same for the general-relativistic engine: the flux of D out of every dual cell follows the charge inside, including the caps around the poles.", "quantifier": "every metric (lapse, shift, cross term), grid, number of steps from any step number on, currents and thread interleaving", "why_tests_cant": "The GR step keeps two time levels of every field which are averaged, pushed and swapped; a wrong level conserves the law in simple tests.", "anchors": ["src/kernels/ampere_gr.hpp", "src/engines/grpic/fieldsolvers.h", "src/engines/grpic/grpic.hpp: step_forward"]}
{"id": "C98", "title": "Curvilinear field kernels do not depend on thread scheduling", "statement": "Each field kernel of the SR and GR engines on a curvilinear grid leaves the same fields whatever the order and interleaving of its threads.", "quantifier": "every metric, grid, state of the fields, time step and interleaving of single memory accesses", "why_tests_cant": "A test sees the schedules the machine happens to choose.", "anchors": ["src/kernels/faraday_sr.hpp", "src/kernels/ampere_sr.hpp", "src/kernels/faraday_gr.hpp", "src/kernels/ampere_gr.hpp: Ampere_kernel", "src/kernels/aux_fields_gr.hpp", "src/engines/grpic/fieldsolvers.h: Ampere"]}
{"id": "C99", "title": "Without gravity the GR field solver is the SR one", "statement": "With lapse one, no shift and no cross term, one curl update of each field by the general-relativistic engine equals the update by the special-relativistic engine from the same fields, in every cell.", "quantifier": "every such metric, grid, state of the fields, time step and thread interleaving", "why_tests_cant": "The two solvers are different kernels writing to different arrays; equality of all cells for all fields is not a finite check.", "anchors": ["src/kernels/faraday_gr.hpp", "src/kernels/faraday_sr.hpp", "src/kernels/ampere_gr.hpp", "src/kernels/ampere_sr.hpp", "src/kernels/aux_fields_gr.hpp"]}
{"id": "C100", "title": "Dividing the grid does not change the GR auxiliary field", "statement": "The electric field entering Faraday's law in a general-relativistic step is the same in a cell whether the grid is one domain or divided in radius, if the ghost cells hold the neighbour's values at the start of the step.", "quantifier": "every metric, grid, place of division, state of the fields and thread interleaving", "why_tests_cant": "Needs runs with different decompositions, metrics and fields; a stale ghost column gives a small error at one column.", "anchors": ["src/engines/grpic/grpic.hpp: step_forward", "src/engines/grpic/fieldsolvers.h: TimeAverageDB, ComputeAuxE", "src/kernels/aux_fields_gr.hpp"]}
{"id": "C101", "title": "GR particles follow geodesics", "statement": "Without fields the pusher advances covariant velocity and position by Hamilton's equations of the energy at infinity −u_0 of the metric, with the implicit midpoint rule: each pass uses the derivative of the energy at the mean of start and last iterate.", "quantifier": "every position off the axis, velocity, mass (zero or not), time step, number of passes, spin, grid, for each of the three metrics", "why_tests_cant": "The derivatives coded by hand have to agree with the metric everywhere; a test compares a few orbits within tolerance.", "anchors": ["src/kernels/pushers/gr.hpp: GeodesicMomentumPush, GeodesicCoordinatePush", "src/metrics/kerr_schild.h: dr_*, dt_*", "src/metrics/qkerr_schild.h: dr_*, dt_*", "src/metrics/kerr_schild_0.h"]}
{"id": "C102", "title": "GR pusher conserves angular momentum", "statement": "The covariant azimuthal velocity of a photon, and of a massive particle where the fields vanish, is not changed by a push.", "quantifier": "every metric of the code, position, velocity, time step, number of passes and boundary conditions", "why_tests_cant": "Exact conservation for all orbits is not visible in a test within tolerance.", "anchors": ["src/kernels/pushers/gr.hpp: operator()(Massless_t), operator()(Massive_t)"]}
{"id": "C103", "title": "GR electromagnetic push is the Lorentz force", "statement": "In the local tetrad the half push changes the velocity by the Lorentz force over half a step times the lapse: kicks by D around a time-centred rotation by B. A magnetic field alone keeps the Lorentz factor; an electric field alone gives exactly (q/m) ω_B α D dt/2.", "quantifier": "every metric obeying the vector rules of C87, velocity, fields, charge, mass, time step", "why_tests_cant": "A wrong factor (lapse, half step, γ) shows only in particular combinations of fields and position.", "anchors": ["src/kernels/pushers/gr.hpp: EMHalfPush"]}
{"id": "C104", "title": "GR particles move in azimuth", "statement": "The azimuth of a particle is advanced by dt ∂E/∂u_φ, reduced to one turn.", "quantifier": "every position off the axis, velocity, mass, time step, metric", "why_tests_cant": "The azimuth does not enter the axisymmetric dynamics, so no test of orbits in the meridional plane notices it.", "anchors": ["src/kernels/pushers/gr.hpp: UpdatePhi"]}
{"id": "C105", "title": "GR push is time-reversible", "statement": "The electromagnetic half push with the opposite time step undoes the half push; where the iterations have converged the same holds for the geodesic push of velocity and position.", "quantifier": "every metric obeying the vector rules, position, velocity, fields, time step", "why_tests_cant": "Reversibility over all states cannot be sampled; drift from irreversibility is slow.", "anchors": ["src/kernels/pushers/gr.hpp: EMHalfPush, GeodesicMomentumPush, GeodesicCoordinatePush"]}
{"id": "C106", "title": "GR pusher: cells, axis, horizon", "statement": "After the push a particle holds its previous cell and offset, its new cell and offset represent the new coordinates (mirrored in the axis if it was crossed, the polar velocity reversed exactly then), particles beyond an absorbing radius or horizon are dead, others are tagged with the direction in which they leave. Dead particles are left alone, undefined tags are an error.", "quantifier": "every particle, new coordinates less than a cell outside, grid, boundary conditions, serial and MPI builds", "why_tests_cant": "All combinations of boundaries, sides and tags.", "anchors": ["src/kernels/pushers/gr.hpp: boundaryConditions, operator()", "src/kernels/pushers/context.h: gr::PusherBoundaries"]}
{"id": "C107", "title": "GR push of a species", "statement": "The push of a species gives every particle the result of its own push, whatever the order of the threads, and touches no other array element; species without pusher or particles are left alone; an unknown pusher is an error.", "quantifier": "every number of particles, schedule, metric, fields", "why_tests_cant": "A test sees one schedule.", "anchors": ["src/engines/grpic/particle_pusher.h: ParticlePush", "src/kernels/pushers/gr.hpp: Pusher_kernel"]}
{"id": "C108", "title": "Conducting wall", "statement": "After the perfect-conductor condition at an end of the grid, the tangential electric and the normal magnetic field vanish on the wall and are odd about it, the normal electric and the tangential magnetic field are even, in all ghost cells; components that are not selected and the interior do not change, the result does not depend on the order of the threads, and Faraday's law then leaves the normal magnetic field on the wall unchanged.", "quantifier": "every field, dimension, axis, side, selection of components, number of ghost cells, schedule", "why_tests_cant": "All ghost cells at all walls for all fields; a test checks one wall and one field.", "anchors": ["src/kernels/fields_bcs.hpp: ConductorBoundaries_kernel", "src/engines/srpic/fields_bcs.h: PerfectConductorFieldsIn"]}
{"id": "C109", "title": "Matching layer", "statement": "In the matching layer every selected component the problem generator provides moves towards the value prescribed at its own position: it becomes s F + (1-s) F_target with s = tanh(4 d/ds), d the distance from the edge. The new value lies between the old and the target, equals the target at the edge, keeps the target once reached, and converges to it under repetition; on an axis the third electric component is only damped. Nothing else changes.", "quantifier": "every metric, setter, field, dimension, axis, side, cell, number of repetitions", "why_tests_cant": "Convergence and all staggered positions.", "anchors": ["src/kernels/fields_bcs.hpp: MatchBoundaries_kernel"]}
{"id": "C110", "title": "Cells of the matching layer", "statement": "The matching condition acts on exactly the active cells that overlap the layer of the given thickness at that end of the global grid, however the grid is divided, and on the ghost cells beyond that end; a ghost cell that is a copy of another subdomain's cell is treated like that cell.", "quantifier": "every grid, decomposition, thickness, side", "why_tests_cant": "All thicknesses and all positions of subdomain borders.", "anchors": ["src/engines/srpic/fields_bcs.h: MatchFieldsIn", "src/engines/grpic/fields_bcs.h: MatchFieldsIn", "src/framework/domain/mesh.h: Intersects, ExtentToRange"]}
{"id": "C111", "title": "Fields enforced in the atmosphere", "statement": "In an atmosphere boundary every selected component at or beyond the surface (max(filters + 2, 5) cells from the end) gets the value given by the problem generator for its position; every other component keeps its value.", "quantifier": "every field, setter, grid, dimension, axis, side, number of filter passes", "why_tests_cant": "Surface and staggering at both ends for all components.", "anchors": ["src/kernels/fields_bcs.hpp: EnforcedBoundaries_kernel", "src/engines/srpic/fields_bcs.h: AtmosphereFieldsIn", "src/engines/srpic/utils.h: GetAtmosphereExtent"]}
{"id": "C112", "title": "Fixed fields", "statement": "In a fixed boundary every selected component on or beyond the end of the grid for which the problem generator gives a value has that value; every other component keeps its value.", "quantifier": "every field, grid, dimension, axis, side, selection of components", "why_tests_cant": "All components on and beyond both ends.", "anchors": ["src/engines/srpic/fields_bcs.h: FixedFieldsIn"]}
{"id": "C113", "title": "Field at the horizon", "statement": "After the condition at the horizon every selected component is constant along the radius from the innermost ghost cell to the (filters + 1)-th cell after the first active one; cells further out and other components do not change; the result does not depend on the order of the threads.", "quantifier": "every field, grid, number of filter passes, number of ghost cells, schedule", "why_tests_cant": "Number of ghost cells is a build option.", "anchors": ["src/kernels/fields_bcs.hpp: gr::HorizonBoundaries_kernel", "src/engines/grpic/fields_bcs.h: HorizonFieldsIn"]}
{"id": "C114", "title": "Absorption of currents", "statement": "In the absorbing layer of the GR engine all components of the current are multiplied by the same factor tanh(4 d/ds), which is in [0,1) and zero at the edge of the grid, so currents are never amplified; nothing else changes.", "quantifier": "every metric, current, cell, thickness", "why_tests_cant": "All distances.", "anchors": ["src/kernels/fields_bcs.hpp: gr::AbsorbCurrents_kernel"]}
{"id": "C115", "title": "Fields at the polar axis", "statement": "After the axis condition the azimuthal electric and the polar magnetic field vanish on the axis, and the fields beyond it mirror those before it: polar components odd, the others even. The interior does not change.", "quantifier": "every field, column, both axes, selection of components, schedule", "why_tests_cant": "All columns and both axes.", "anchors": ["src/kernels/fields_bcs.hpp: AxisBoundaries_kernel", "src/engines/srpic/fields_bcs.h: AxisFieldsIn", "src/engines/grpic/fields_bcs.h: AxisFieldsIn"]}
{"id": "C116", "title": "Energy spectra", "statement": "Every bin of a written energy spectrum holds the total weight of the live particles, of all ranks together, whose energies lie between the two edges written with it; the first and last edges are the requested limits; no particle is counted twice or lost between bins.", "quantifier": "every set of particles on any number of ranks, every order of treating them, every number of bins and limits, linear and logarithmic bins", "why_tests_cant": "Energies on and beyond the edges, any number of particles and ranks.", "anchors": ["src/kernels/particle_moments.hpp: ParticleDistribution_kernel", "src/framework/domain/metadomain_io.cpp: Metadomain::Write", "src/output/writer.cpp: Writer::writeSpectrum"]}
{"id": "C117", "title": "User-defined output fields", "statement": "A user-defined output field is computed by the user's function, called with the name that was registered, and is written under that name; the function is called for nothing else.", "quantifier": "every name, dimension and engine", "why_tests_cant": "All names.", "anchors": ["src/output/fields.h: OutputField", "src/output/fields.cpp: OutputField::OutputField", "src/framework/domain/metadomain_io.cpp: Metadomain::Write"]}
{"id": "C118", "title": "Declared and written variables agree", "statement": "For every accepted list of output fields each output writes exactly the variables declared at initialization, each once, with the component, species and interpolation that were requested.", "quantifier": "every list of requests and user-defined fields, dimension and engine", "why_tests_cant": "Names are composed at run time from field, component and species.", "anchors": ["src/output/writer.cpp: Writer::defineFieldOutputs", "src/output/fields.h: OutputField::name", "src/framework/domain/metadomain_io.cpp: Metadomain::Write, Metadomain::InitWriter"]}
{"id": "C119", "title": "Names of output variables identify quantities", "statement": "A list of valid requests is accepted if and only if no quantity is requested twice; from the name of a variable one can tell field, component and species.", "quantifier": "every list of requests", "why_tests_cant": "All combinations of fields, components and species.", "anchors": ["src/output/writer.cpp: Writer::defineFieldOutputs", "src/output/fields.h: OutputField::name"]}
{"id": "C120", "title": "Written vector fields are those at the cell centres", "statement": "Unless raw output is requested, a vector field in the output is the field at the centre of each cell in the requested basis: a field that varies linearly along each axis between its staggered places is written with its exact values at the centres, and the simulation's own fields are not changed by writing. With raw output the stored components are written unchanged.", "quantifier": "one to three dimensions, edge and face fields, every conversion of the basis, every set of cells, every interleaving of the threads", "why_tests_cant": "All fields, all cells, all orders of execution, source and target in one buffer.", "anchors": ["src/kernels/fields_to_phys.hpp: FieldsToPhys_kernel", "src/framework/domain/metadomain_io.cpp: Metadomain::Write"]}
{"id": "C121", "title": "Written divergence obeys Gauss's law", "statement": "On curvilinear grids the written divergence of the electric field times the cell volume, summed over any block of cells, equals the flux of the field out of the block; and each number is the divergence at the place it is written for.", "quantifier": "every volume element, every field, every block of cells, every interleaving of the threads", "why_tests_cant": "All metrics, blocks and fields.", "anchors": ["src/kernels/divergences.hpp: ComputeDivergence_kernel"]}
{"id": "C122", "title": "Written bulk velocity is physical", "statement": "In special relativity the written bulk velocity of every cell is the mass-weighted mean of the velocities of the chosen particles and never exceeds the speed of light.", "quantifier": "every set of particles on any number of ranks, every set of species, every order of execution, every cell", "why_tests_cant": "All particle distributions and decompositions.", "anchors": ["src/kernels/particle_moments.hpp: ParticleMoments_kernel, NormalizeVectorByRho_kernel", "src/framework/domain/metadomain_io.cpp: Metadomain::Write"]}
{"id": "C123", "title": "Written bulk four-velocity has unit norm (GR)", "statement": "In general relativity the written bulk four-velocity of every cell has norm -1 in the space-time metric, points to the future, is along the particle flux of the cell wherever there are massive particles, and is that of the observer at rest in empty cells.", "quantifier": "every flux, every position away from the origin, all three general-relativistic metrics, every set of particles", "why_tests_cant": "All fluxes, positions and spins.", "anchors": ["src/kernels/particle_moments.hpp: ParticleMoments_kernel::computeEckartVelocityFluxComponent, Normalize4VelocityByNorm_kernel, Transform4VelocitySpatialToPhysical_kernel", "src/framework/domain/metadomain_io.cpp: Metadomain::Write"]}
{"id": "C124", "title": "Replenishing an atmosphere restores its density", "statement": "With an atmosphere boundary, every cell of the atmosphere whose number density has dropped below nine tenths of the target is brought back to the target (to within one pair of particles), in Cartesian and curvilinear coordinates; cells that are full enough and cells outside the layer receive nothing; with the atmosphere assumed empty the full target is injected. The density seen by the call needs no exchange of ghost cells.", "quantifier": "all grids of one to three dimensions, metrics, target profiles, particle contents, random numbers, schedules of the density and injection kernels", "why_tests_cant": "The result combines the density deposit, the profile, the spatial distribution and the injector with random rounding; tests can only sample some profiles, and use species of mass one, for which mass and number density agree.", "anchors": ["src/engines/srpic/particles_bcs.h: AtmosphereParticlesIn, ParticleInjector", "src/archetypes/spatial_dist.h: Replenish", "src/archetypes/particle_injector.h: AtmosphereDensityProfile, InjectNonUniform", "src/kernels/injectors.hpp: NonUniformInjector_kernel", "src/kernels/particle_moments.hpp: ParticleMoments_kernel"]}
{"id": "C125", "title": "The atmosphere is in hydrostatic equilibrium and confined to its layer", "statement": "Gravity and target density of an atmosphere balance: the gradient of the pressure T n equals n times the force on a particle, everywhere in the layer, in Cartesian coordinates at either end of the grid and in curvilinear coordinates at the inner end. Particles are only injected in the layer of thickness ds next to a buffer of at least five cells at the end of the grid, and gravity acts only within ds of the surface (without limit if ds is zero).", "quantifier": "all temperatures, scale heights, layer thicknesses, positions, coordinate systems with increasing coordinates, numbers of filter passes", "why_tests_cant": "A statement about derivatives of functions of a continuous position; tests compare single values of the force and of the density with each other's formulas.", "anchors": ["src/engines/srpic/utils.h: GetAtmosphereExtent", "src/engines/srpic/particle_pusher.h: ParticlePush", "src/kernels/pushers/sr.hpp: getExternalForce", "src/archetypes/particle_injector.h: AtmosphereDensityProfile"]}
{"id": "C126", "title": "GR field step is the staggered leapfrog it is documented to be", "statement": "Away from the boundaries, each step of the GR engine other than the first takes B from n-1/2 to n+1/2 with the curl of E = alpha D + beta x B at n, and D from n to n+1 with the curl of H = alpha B - beta x D and the deposited current at n+1/2; the intermediate levels are computed by the same laws from the means of the two stored levels, the previous fields and the current are kept for the next step, and no other field or current enters.", "quantifier": "every metric, all fields and currents, every grid size and number of ghost cells, any order of the threads, whatever the boundary conditions do at the edges", "why_tests_cant": "A wrong time level, sign of the shift term or averaging factor still gives plausible fields; a test on one metric and one field cannot separate an error of the scheme from its truncation error.", "anchors": ["src/engines/grpic/grpic.hpp: step_forward", "src/engines/grpic/fieldsolvers.h", "src/engines/grpic/utils.h", "src/kernels/aux_fields_gr.hpp", "src/kernels/faraday_gr.hpp", "src/kernels/ampere_gr.hpp"]}
{"id": "C127", "title": "Each GR step advances fields and particles by the same time", "statement": "Each call of step_forward of the GR engine advances D and B by one time step, the time by which the particles are pushed and the simulation time is increased.", "quantifier": "every step number, time step and correction factor; fields with constant curls on a grid of any size", "why_tests_cant": "A shift in time between fields and particles of one or two steps is invisible in a steady solution and looks like truncation error elsewhere.", "anchors": ["src/engines/grpic/grpic.hpp: step_forward (step == 0)", "src/engines/engine.hpp: run"]}
{"id": "C128", "title": "SR field step on curvilinear grids", "statement": "Away from the boundaries, a step of the SR engine on a curvilinear grid changes B by minus dt times the curl of E and then E by dt times the curl of the new B minus dt q0/B0 times the deposited current over the cell volume, component by component, with covariant components inside the curls; the normalisation n0 cancels.", "quantifier": "every diagonal metric, all fields and currents, every grid size, with and without deposition, any order of the threads", "why_tests_cant": "Flux conservation does not see the third component of the electric field, and reference solutions are known for few metrics and only up to truncation error.", "anchors": ["src/engines/srpic/srpic.hpp: step_forward", "src/engines/srpic/fieldsolvers.h", "src/kernels/faraday_sr.hpp", "src/kernels/ampere_sr.hpp"]}
{"id": "C129", "title": "Energy balance and stability of the field solver", "statement": "In a periodic box with the standard stencil, a step changes the field energy (electric field squared plus the product of the magnetic fields half a step before and after) exactly by minus the work of the deposited current in the mean electric field; without current this energy is constant for ever, and with a Courant number below one the ordinary energy of the fields never exceeds (1 + CFL)/(1 - CFL) times the initial one.", "quantifier": "1, 2 and 3 dimensions, every decomposition into subdomains, all initial fields and particles, any number of steps, any order of the threads", "why_tests_cant": "Stability is a statement about all fields and all times; a slow instability or a leak of energy at a subdomain boundary is hidden by noise in any finite run.", "anchors": ["src/engines/srpic/srpic.hpp: step_forward", "src/engines/srpic/fieldsolvers.h", "src/kernels/faraday_mink.hpp", "src/kernels/ampere_mink.hpp", "src/framework/parameters/algorithms.cpp: timestep.CFL", "src/metrics/minkowski.h: find_dxMin"]}
{"id": "C130", "title": "Field statistics are averages over the grid", "statement": "The columns E2, B2, ExB and JdotE of the statistics file do not depend on the number of ranks or on the decomposition; on a Cartesian grid the E2 and B2 columns are the averages over all cells of the squared physical components, so that their sum is the field energy per cell, and ExB and JdotE are exact for uniform fields; requests with other components, or for another engine, are errors.", "quantifier": "every decomposition of every grid in 1, 2 and 3 dimensions, all fields and currents, every metric given by its components (decomposition); all extents and cell sizes (Cartesian)", "why_tests_cant": "A test compares one decomposition and one field; a cell counted twice or a stale ghost cell changes the average only for particular decompositions.", "anchors": ["src/kernels/reduced_stats.hpp: ReducedFields_kernel", "src/framework/domain/metadomain_stats.cpp: ReduceFields, WriteStats", "src/metrics/*.h: totVolume"]}
{"id": "C131", "title": "Initial fields are the prescribed functions", "statement": "After initialisation every field component for which the problem generator provides a function holds, in every active cell, the value of that function at the physical position where the component is defined, converted from the documented basis; components without a function, ghost cells and other arrays are untouched; the result does not depend on the decomposition, and after the first exchange of a periodic box the ghost cells agree with it.", "quantifier": "all user functions, metrics, dimensions, decompositions, numbers of ghost cells, thread interleavings", "why_tests_cant": "The functions, metric and decomposition are arbitrary; the existing test covers a one-dimensional Cartesian grid with two functions.", "anchors": ["src/archetypes/field_setter.h:SetEMFields_kernel", "src/engines/engine.hpp:Engine::init"]}
{"id": "C132", "title": "Conditional update of the fields", "statement": "UpdateEMFields sets each component of each active cell to the value returned by the user's function for the position and the old fields interpolated to that component (exact for fields linear along every axis), where the function asks for it, and leaves everything else unchanged, in whatever order cells are processed.", "quantifier": "all conditional setters, metrics, dimensions, fields and orders of cells", "why_tests_cant": "The fields and functions are arbitrary and the outcome must not depend on scheduling; no test calls the kernel.", "anchors": ["src/archetypes/utils.h:UpdateEMFields", "src/archetypes/field_setter.h:CustomSetEMFields_kernel"]}
{"id": "C133", "title": "Complete steps on many ranks compute what the undivided box computes", "statement": "A run of the special-relativistic engine in a periodic Cartesian box on any number of MPI ranks, through complete steps (magnetic half-step, push of all species in the interpolated fields, current deposit, synchronisation, filter passes, particle exchange, second magnetic half-step, electric step, removal of dead particles, sorting), leaves on all cells of all ranks, ghost cells included, exactly the electric and magnetic fields that the same algorithm computes on one undivided periodic box with no ranks, ghost cells, tags or buffers, and leaves the live particles of that box, each exactly once, on the rank that owns its cell.", "quantifier": "all decompositions, dimensions 1-3, shape orders, numbers of filter passes and species, all momentum updates (any function of step, position, fields, momentum), all initial fields and particles inside their subdomains, all numbers of steps, all kernel schedules and orders of additions", "why_tests_cant": "A test runs one setup with a few ranks and compares dumps; the claim is about every decomposition, every particle trajectory across edges and corners and every interleaving, over unbounded numbers of steps.", "anchors": ["src/engines/srpic/srpic.hpp: step_forward", "src/kernels/pushers/sr.hpp: Pusher_kernel", "src/engines/srpic/particle_pusher.h: ParticlePush", "src/engines/srpic/currents.h", "src/framework/domain/metadomain_comm.cpp: CommunicateFields, CommunicateParticles, SynchronizeFields", "src/framework/domain/metadomain_sort.cpp: SortParticles"]}
{"id": "C134", "title": "A simulation does not depend on the decomposition", "statement": "If the same periodic box is divided among ranks in two different ways and both divisions start from the same fields and the same particles (in any order in memory), then after any number of complete steps both hold the same fields in cells that stand for the same cell of the box and the same particles.", "quantifier": "all pairs of decompositions of the same box, all numbers of complete steps, all species, momentum updates, initial states and schedules", "why_tests_cant": "Comparing two runs covers two decompositions and one initial state; agreement for every pair of decompositions and every state needs a proof.", "anchors": ["src/engines/srpic/srpic.hpp: step_forward", "src/framework/domain/metadomain.cpp", "src/framework/domain/metadomain_comm.cpp", "src/kernels/pushers/sr.hpp", "src/kernels/currents_deposit.hpp"]}
{"id": "C135", "title": "No step of a simulation fails", "statement": "In a periodic Cartesian box with the number of ghost cells of the build, the zigzag deposit or an odd shape order, a time step within the Courant condition, particles with offsets in [0, 1) and arrays with room for all particles of the box beside those in use, no step ever fails: after any number of steps the push interpolates inside the arrays, the deposit writes inside the arrays, the exchange raises no overflow or tag error, and removal and sorting succeed; the offsets are in [0, 1) again and the room needed does not grow. Hence a simulation of any length exists.", "quantifier": "all decompositions, dimensions, odd shape orders up to 11 and the zigzag, species, momentum updates, initial states meeting the conditions, numbers of steps, schedules", "why_tests_cant": "An out-of-bounds access or overflow needs a particular particle at a particular edge after many steps; a test that does not crash says nothing about other trajectories.", "anchors": ["src/kernels/pushers/sr.hpp", "src/kernels/currents_deposit.hpp", "src/kernels/particle_shapes.hpp", "src/framework/containers/particles_comm.cpp", "src/framework/containers/particles_sort.cpp", "src/framework/domain/metadomain_comm.cpp: CommunicateParticles"]}
{"id": "C136", "title": "Gauss's law holds through complete simulations", "statement": "In a simulation of the special-relativistic engine in a periodic Cartesian box on any number of ranks, if the particles start inside their cells and the time step obeys the Courant condition, then in every active cell of every rank the divergence of the electric field minus the normalised, equally filtered density of the charges of all live particles (all species, frozen ones included, on all ranks, periodic images included) is after any number of complete steps what it was at the beginning. A simulation that starts with Gauss's law satisfied satisfies it forever.", "quantifier": "all decompositions, dimensions 1-3, shape orders 1-11 (and the zigzag deposit in one and two dimensions), numbers of filter passes, species, momentum updates, initial fields and particles, numbers of steps, schedules", "why_tests_cant": "A test monitors the residual for one setup over a finite time; a violation may need a particle that crosses a corner between ranks in the step in which it is also sorted or tagged.", "anchors": ["src/engines/srpic/srpic.hpp: step_forward", "src/kernels/currents_deposit.hpp", "src/kernels/pushers/sr.hpp", "src/kernels/ampere_mink.hpp", "src/framework/domain/metadomain_comm.cpp", "src/kernels/digital_filter.hpp"]}
{"id": "C137", "title": "Stopping a simulation and continuing it from a checkpoint changes nothing", "statement": "In a periodic Cartesian box, a simulation that is stopped after any step for which a checkpoint was written and continued from it, any number of times, has after n steps in total the same electric and magnetic field in every cell of every rank (ghost cells included) and the same particles (positions, momenta, weights, payloads) as a simulation of n steps that was never stopped. This does not depend on the schedules, the order in which ranks write, the capacity of the new arrays or the content of memory that is not read from the file (currents, unused slots). With room in the arrays, neither writing nor reading nor any further step fails.", "quantifier": "all box sizes in 1D/2D/3D, decompositions, numbers of ranks, species, initial fields and particles, numbers of steps, positions and numbers of interruptions, schedules, write orders, capacities, contents of uninitialised memory", "why_tests_cant": "the existing tests write and read single containers; that nothing else influences the rest of the run (ghost cells are exchanged only at step 0, currents are not saved) is a statement about all later steps of all simulations", "anchors": ["src/framework/domain/metadomain_chckpt.cpp: Metadomain::WriteCheckpoint, ContinueFromCheckpoint", "src/framework/containers/fields_io.cpp: Fields::CheckpointWrite, CheckpointRead", "src/framework/containers/particles_io.cpp: Particles::CheckpointWrite, CheckpointRead", "src/engines/srpic/srpic.hpp: step_forward", "src/engines/engine.hpp: Engine::init"]}
{"id": "C138", "title": "In the floating-point numbers of the code, Cartesian pushes keep offsets in range and positions accurate", "statement": "In single and in double precision, a push along an axis of a Cartesian grid by at most a cell leaves an offset from 0 to 1 (1 included), changes the cell by at most one and yields the exact new position up to 2^-23 of a cell; after n pushes the error is at most n 2^-23 of a cell, whichever cell the particle is in. Particles pushed in this way from inside a box are deposited (odd orders and zigzag) without an access outside the arrays. The offset is not always below 1.", "quantifier": "all cells, offsets in [0, 1], displacements up to a cell, numbers of steps, binary formats with at least one digit", "why_tests_cant": "there are 2^30 offsets times 2^31 displacements per push, and the dangerous ones (results rounded to the end of the cell) are rare; the tests push a few particles", "anchors": ["src/kernels/pushers/sr.hpp: positionPush", "src/global/global.h: prtldx_t, real_t", "src/kernels/currents_deposit.hpp: DepositCurrents_kernel"]}
{"id": "C139", "title": "In the floating-point numbers of the code, curvilinear pushes resolve a fraction of a cell that depends on the cell", "statement": "The conversion of a code coordinate into cell and offset yields the cell of the coordinate or the next one, an offset in [0, 1] in the first case, and a position within 2^k 2^-24 of a cell of the coordinate on grids of 2^k cells. Expected but false: the offset is never negative, and a moving particle moves (in cell 4096 displacements of 2^-13 cells per step are lost, also in double precision, for any number of steps).", "quantifier": "all coordinates from -1 to 2^24, binary formats, all displacements and numbers of steps", "why_tests_cant": "tests use grids of a few dozen cells, where the effect is below their tolerance; the statement is about all cells and numbers of steps", "anchors": ["src/kernels/pushers/sr.hpp: from_Xi_to_i_di, positionPush", "src/kernels/pushers/gr.hpp: from_Xi_to_i_di", "src/global/global.h: prtldx_t"]}
{"id": "C140", "title": "Output follows the documented parameters", "statement": "For every combination of [output] entries, each category (fields, particles, spectra) is written at exactly the steps documented: at its own interval if given, otherwise at the common one, after every multiple of the interval of time if one is given, never if disabled; downsampling factors apply to the axes for which they are given; exactly the listed species (all by default) are written. Expected but false: intervals of 0 fall back to the common interval, format = \"disabled\" disables output, lists of factors shorter than the dimension are rejected, species out of range are rejected.", "quantifier": "all values of the entries (absent or present), all runs of any length, all grids and numbers of species", "why_tests_cant": "tests read single input files and ask the writer for a few steps; the claim is about all combinations of defaults and overrides over runs of any length", "anchors": ["src/framework/parameters/output.cpp: Output::read", "src/framework/domain/metadomain_io.cpp: InitWriter, Write", "src/output/writer.cpp: Writer::init, addTracker, shouldWrite, defineMeshLayout", "input.example.toml: [output]"]}
{"id": "C141", "title": "The program starts the requested engine exactly once or fails", "statement": "For every input and problem generator, exactly the engine requested (simulation.engine, grid.metric, dimension of grid.resolution) is run, once, and the exit code is 0 if it finishes; for unknown names, combinations that are not supported and combinations the problem generator does not declare nothing is run and the exit code is 1. The input file is the argument after the first -input; a run is resumed exactly if one of the four flags is given. Expected but false: without -input the default is used.", "quantifier": "all strings for engine and metric, dimensions, problem generators (sets of engines, metrics, dimensions), command lines", "why_tests_cant": "every combination is a separately compiled program; the table of combinations has no test of its own", "anchors": ["src/entity.cpp: main", "src/framework/specialization_registry.h: kSpecializations", "src/framework/simulation.cpp: Simulation::Simulation", "src/global/utils/cargs.cpp: CommandLineArguments"]}
{"id": "C142", "title": "The pusher is run once with the processes configured", "statement": "For each species the pusher is launched exactly once, with the emission configured for the species, the particle update and external fields of the problem generator if it has them and the atmosphere if there is one; built-in emission goes into an existing species without mass and charge, other configurations end with an error. Expected but false: photon_species = 0 is an error.", "quantifier": "all sets of species, photon species other than 0, emission types and problem generators", "why_tests_cant": "32 compiled variants, selected by run-time parameters; tests construct the kernels directly and bypass the selection", "anchors": ["src/kernels/pushers/sr_policies.h: MakePusherPolicy", "src/engines/srpic/particle_pusher.h: ParticlePush", "src/framework/parameters/extra.cpp: Extra::read"]}
{"id": "C143", "title": "A box with conducting walls evolves by the method of images, however it is divided", "statement": "In a box whose axes are periodic or end in conducting walls, any sequence of field updates (with or without currents, each followed by the exchange and the boundary conditions) leaves on every rank what the same equations make of the mirror images of the initial fields and currents on an unbounded lattice. Hence the fields do not depend on the decomposition, the tangential electric and normal magnetic field vanish on the walls at all times, the divergence of B is conserved next to the walls, and no sequence of operations fails.", "quantifier": "all boxes in 1, 2, 3 dimensions with any mixture of periodic and conducting axes, all decompositions into subdomains wider than the ghost layer, all initial fields, currents, stencils and sequences of updates", "why_tests_cant": "tests apply the boundary kernel once on one subdomain; the claim is about the interplay of solver, exchange and walls (corners and edges included) over any number of steps and any decomposition", "anchors": ["src/engines/srpic/srpic.hpp: step_forward", "src/engines/srpic/fields_bcs.h: FieldBoundaries, PerfectConductorFieldsIn", "src/kernels/fields_bcs.hpp: ConductorBoundaries_kernel", "src/framework/domain/metadomain_comm.cpp: CommunicateFields", "src/kernels/faraday_mink.hpp, src/kernels/ampere_mink.hpp"]}
{"id": "C144", "title": "The particle output contains the chosen particles of the simulation in physical units, and nothing else", "statement": "The file written for an output step contains, for each species of the output, exactly the variables of that species (coordinates, three velocities, weight, and, if the species has them, tracking numbers and payloads), each declared once. Entry k of the part of a rank in each of these variables belongs to the same particle, the k-th one chosen by the stride (or all, with tracking): its position in physical coordinates of the metric, its velocity in Cartesian components (SR) or in the orthonormal spherical frame or as covariant components (GR), its weight, its identity and its payloads.", "quantifier": "all sets of species and numbers of ranks, all positions, velocities, weights and payloads, strides, dimensions, engines and metrics with the coordinate maps of the code", "why_tests_cant": "tests compare a few columns of one rank in one metric; the claim is about all columns and ranks, the absence of clashes of names, and that the entries at the same place of different columns describe one particle", "anchors": ["src/kernels/prtls_to_phys.hpp: PrtlToPhys_kernel", "src/framework/containers/particles_io.cpp: OutputDeclare, OutputWrite", "src/framework/domain/metadomain_io.cpp: InitWriter, Write", "src/output/utils/writers.cpp"]}
{"id": "C145", "title": "Thermal samplers return four-velocities with the relativistic thermal distribution, with and without drift", "statement": "Initialising particles with the thermal distribution of temperature T (in units of the rest energy) gives, with probability one after finitely many random numbers, a four-velocity; its probability density is proportional to exp(-gamma/T), where gamma is its Lorentz factor. With a drift four-velocity d the density is the same function of the Lorentz factor in the frame moving with d, in any direction; a request to flip the velocity reverses the drift.", "quantifier": "all temperatures, drifts (any direction), axes and measurable sets of four-velocities; probabilities over infinite sequences of independent uniform random numbers", "why_tests_cant": "tests compare histograms of a finite number of samples, or only check that the numbers are finite; the law of a rejection loop is a statement about all sequences of random numbers", "anchors": ["src/archetypes/energy_dist.h: JuttnerSinge, Maxwellian, SampleFromMaxwellian", "src/global/arch/kokkos_aliases.h: Random"]}
{"id": "C146", "title": "The power-law sampler returns isotropic four-velocities whose kinetic energies follow the power law between the limits", "statement": "The sampler of the power law with limits g_min, g_max and index p returns four-velocities with uniform direction whose kinetic energy gamma - 1 lies between the limits and has probability density proportional to its p-th power (also for p = -1).", "quantifier": "all positive limits g_min < g_max, all indices, all measurable sets of energies or four-velocities; probabilities over infinite sequences of independent uniform random numbers", "why_tests_cant": "the unit test draws 100 numbers and checks that the Lorentz factor is between the limits, which is false with small positive probability", "anchors": ["src/archetypes/energy_dist.h: Powerlaw", "tests/archetypes/powerlaw.cpp"]}
{"id": "C147", "title": "The charge of particles that leave the box through its walls is accounted for", "statement": "In a box with conducting walls, each of which absorbs or reflects particles, Gauss's law holds at all times off the walls: the divergence of the electric field minus the density of the charges in the box (in the units of the code) does not change, whatever the particles do.", "quantifier": "all sizes of the box in one to three dimensions, initial fields, species, particles and weights, numbers of steps, motions by less than a cell per step, orders of the deposit, kinds of walls, orders of additions", "why_tests_cant": "the tests of the pusher check the position after one reflection, those of the deposit check particles away from walls; the claim is about the divergence of the field after any number of steps in which pusher, boundary conditions, deposit and field solver act together", "anchors": ["src/kernels/pushers/sr.hpp: boundaryConditions", "src/kernels/currents_deposit.hpp: DepositCurrents_kernel", "src/engines/srpic/srpic.hpp: step_forward", "src/engines/srpic/currents.h: CurrentsDeposit"]}
{"id": "C148", "title": "Options of the input file mean what the documentation says", "statement": "For every input file that is accepted: the value given for an option is the one the program and problem generators see, an option that is not given has its documented default, a required option is given, and the inferred parameters have the documented values; on a restart, scales and particle options come from the file of the first run and all others from the new one.", "quantifier": "all input files and stored files, engines, metrics, numbers of species", "why_tests_cant": "the tests read three files; options interact (promises made by species, defaults from other options, order in which values are stored), so the claim is about all combinations of options", "anchors": ["src/framework/parameters/parameters.cpp: setImmutableParams, setMutableParams, checkPromises", "src/framework/parameters/algorithms.cpp: Algorithms", "src/framework/parameters/extra.cpp: Extra", "src/framework/parameters/output.cpp: Output", "src/global/utils/param_container.h: Parameters", "src/global/defaults.h", "input.example.toml"]}
{"id": "C149", "title": "Species have the properties given in the input file", "statement": "The particle species of a run are those of the input file in the same order, with the documented defaults: label, mass, charge, pusher, payloads, tracking, intervals, emission, and the drag that comes with an emission unless it is set; on a restart the maximum number of particles is taken from the new file and everything else from the file of the first run.", "quantifier": "all input files, numbers of species, options of each species", "why_tests_cant": "the tests read a few species; defaults depend on other options of the species and of the file", "anchors": ["src/framework/parameters/particles.cpp: GetParticleSpecies, getRadiativeDragFlags, getEmissionPolicyFlag", "src/framework/parameters/parameters.cpp: setImmutableParams, setMutableParams", "input.example.toml"]}
{"id": "C150", "title": "Grid and boundary layers are those of the input file", "statement": "The grid of a run has the resolution, extent, metric, stretching, spin and decomposition given in the input file, with the documented defaults; curvilinear grids are two-dimensional and reach from pole to pole. Matching and absorbing layers have the given widths, or 1% of the shortest extent (of the radius), and the atmosphere has the given parameters, whenever one of the boundaries uses them; input that does not have the documented form is refused.", "quantifier": "all input files and stored files, metrics, dimensions, lists of widths", "why_tests_cant": "the tests read three files with well-formed entries; the claim is about all files, including those with entries of a wrong shape", "anchors": ["src/framework/parameters/grid.cpp: Grid::read, Boundaries::read, Boundaries::setParams, GetBoundaryConditions", "input.example.toml"]}
{"id": "C151", "title": "Tables of the diagnostics are aligned and complete", "statement": "Each row of the tables printed during a run shows every entry at the position of its column, whatever characters it contains; the row of a species shows its label, number of particles and percentage of the allocated room for every label the input file may give.", "quantifier": "all lists of columns with texts, colours, anchors and fillers; all labels, numbers of particles and species", "why_tests_cant": "the tests print a few rows; the claim is about all texts, including those too long for their column", "anchors": ["src/global/utils/formatting.h: fmt::alignedTable, fmt::strlenUTF8, fmt::repeat", "src/global/utils/diag.cpp: printDiagnostics"]}
{"id": "C152", "title": "Durations, remaining time and progress are those of the run", "statement": "Durations are shown in suitable units, rounded down by less than one of the smaller unit; the duration of a time step is the mean over the last thousand steps of the slowest rank; the remaining time is that duration times the number of remaining steps; bar and percentage show the fraction of the steps.", "quantifier": "all durations, clock readings, numbers of steps and ranks", "why_tests_cant": "a test measures the few durations that occur on the machine it runs on", "anchors": ["src/global/utils/progressbar.cpp: normalize_duration_fmt, to_human_readable, ProgressBar", "src/global/utils/progressbar.h: DurationHistory", "src/global/utils/timer.h: convertTime"]}
{"id": "C153", "title": "Timers and numbers of particles in the diagnostics", "statement": "Timers show the largest duration over the ranks, its share of the total of that rank and its value per particle and per cell; the total excludes sorting, output and checkpoints; the variation is zero if all ranks need the same time; numbers of particles are the sum, the minimum and the maximum over the ranks, with the share of the allocated room; the rows of output, checkpoint and sorting are highlighted in the steps that did them.", "quantifier": "all timers, durations, ranks, numbers of particles and cells", "why_tests_cant": "tests run on one machine with durations they cannot prescribe and with few particles", "anchors": ["src/global/utils/timer.cpp: Timers::gather, Timers::printAll", "src/global/utils/diag.cpp: npart_stats, printDiagnostics", "src/global/utils/tools.h: ArrayImbalance", "src/engines/engine.hpp: Engine::run"]}
{"id": "C154", "title": "A periodic simulation has no preferred origin", "statement": "If the initial fields and particles of a periodic simulation are translated by a whole number of cells along each axis (across the periodic boundary where need be), the fields and particles after any number of steps are those of the original simulation translated by the same number of cells, however either simulation is divided among ranks.", "quantifier": "all periodic Cartesian boxes in 1, 2 and 3 dimensions, all divisions of both boxes, all translations, all parameters and forces that do not depend on the position, all initial fields and particles, all numbers of steps, all schedules of all kernels", "why_tests_cant": "A test runs one translation of one initial state for some steps on some division; an index that is compared with a fixed cell, a missed image of a particle at the periodic boundary or a stale previous cell only shows for particular positions relative to the boundaries.", "anchors": ["src/engines/srpic/srpic.hpp: step_forward", "src/kernels/pushers/sr.hpp: Pusher_kernel", "src/engines/srpic/particle_pusher.h: ParticlePush", "src/engines/srpic/currents.h", "src/framework/domain/metadomain_comm.cpp: CommunicateFields, CommunicateParticles, SynchronizeFields", "src/framework/domain/metadomain_sort.cpp: SortParticles", "src/kernels/currents_deposit.hpp: DepositCurrents_kernel", "src/kernels/digital_filter.hpp: DigitalFilter_kernel"]}
{"id": "C155", "title": "Only the distribution of weight matters", "statement": "The fields of a periodic simulation depend on the particles only through the distribution of weight of the charged, pushed species over positions and momenta: a particle may be replaced by any number of particles at the same place with the same momentum whose weights add up to its weight, particles of weight zero and of neutral species do not act on the fields, and neither the order nor the payloads of the particles matter. The distribution of every species evolves in the same way, whatever the number of particles that carry it and however the box is divided among ranks.", "quantifier": "all periodic Cartesian boxes in 1, 2 and 3 dimensions, all divisions of both boxes, all pairs of initial particles with the same distribution of weight, all parameters, all initial fields, all numbers of steps, all schedules of all kernels", "why_tests_cant": "A test compares one state with one way of splitting its particles; a nonlinear dependence on the weight in one branch of the deposit, or a weight left out on one path, only shows where such a particle takes this branch.", "anchors": ["src/kernels/currents_deposit.hpp: DepositCurrents_kernel", "src/engines/srpic.hpp: CurrentsDeposit, step_forward", "src/kernels/particle_pusher_sr.hpp: Pusher_kernel"]}
{"id": "C156", "title": "Options of the user in [setup] arrive with their values", "statement": "A section [setup] of the input file is accepted exactly when every value is a truth value, number, string, date or table, or an array of entries of one kind in one or two dimensions; every option that is not empty, a date or a table can then be read under setup.<name> with its type and value, whatever the other options and their order, and no other parameter changes.", "quantifier": "all tables of options with distinct names in any order, with values of all kinds and arrays of all lengths and nestings, all parameters set before", "why_tests_cant": "The kind of an array is taken from its first entry and there is a branch for every kind and dimension; tests read a few options of a few kinds.", "anchors": ["src/framework/parameters/parameters.cpp: SimulationParams::setSetupParams", "src/global/utils/param_container.h: Parameters::set, Parameters::get"]}
{"id": "C157", "title": "The parameters of a run are recorded in its output", "statement": "The attributes of the output contain every parameter for whose type there is a function, under its own name (entries of a map under their own names) and such that its value can be decoded; one parameter that cannot be written does not keep the others from being written; different values give different attributes. So every option of [setup] other than an array of truth values is recorded.", "quantifier": "all sets of parameters of all types, all attributes present before, as long as no two attributes have the same name", "why_tests_cant": "Functions are registered for types, and a parameter whose type is missing is skipped with a warning; tests write parameters of a few types.", "anchors": ["src/global/utils/param_container.cpp: Parameters::write, write_any, write, write_pair, write_vec, write_vec_pair, write_vec_vec, write_dict", "src/output/writer.cpp: Writer::writeAttrs"]}
{"id": "C158", "title": "The axes of a three-dimensional simulation are interchangeable (cyclic renaming)", "statement": "Renaming the axes of a three-dimensional periodic simulation cyclically - box, lower corner, coefficients of the field solver, positions, momenta and field components, the forces not depending on the names - and running it gives the result of the original simulation with the axes renamed in the same way, after any number of steps and however the two boxes are divided among ranks.", "quantifier": "all three-dimensional periodic Cartesian boxes, all divisions of both boxes, all fields and particles, all shape orders, all coefficients of the field solver, all forces without preferred axis, all numbers of steps, all schedules", "why_tests_cant": "The formulas of interpolation, push, deposit and field solver are written out separately for each component, axis and order; an index or component mixed up in one of them only shows for particles and fields that vary along the right axis, and a test would have to compare complete runs of boxes with unequal sides.", "anchors": ["src/kernels/pushers/sr.hpp: Pusher_kernel, getInterpolatedEMFields", "src/kernels/currents_deposit.hpp: DepositCurrents_kernel", "src/kernels/faraday_mink.hpp: Faraday_kernel", "src/kernels/ampere_mink.hpp: Ampere_kernel, CurrentsAmpere_kernel", "src/kernels/digital_filter.hpp: DigitalFilter_kernel"]}
{"id": "C159", "title": "The mirror image of a simulation is a simulation", "statement": "Exchanging the first two axes of a periodic simulation in two or three dimensions - the magnetic field changing its sign as an axial vector does - and running it gives the mirror image of the original simulation, after any number of steps and however the two boxes are divided among ranks.", "quantifier": "all two- and three-dimensional periodic Cartesian boxes, all divisions of both boxes, all fields and particles, all shape orders, all coefficients of the field solver, all numbers of filter passes in two dimensions, all forces with a mirror image, all numbers of steps, all schedules", "why_tests_cant": "A sign of one term of a curl or cross product, or a coefficient of one axis used for the other, shows only for fields that vary in a particular way; tests of single kernels use symmetric data and equal coefficients.", "anchors": ["src/kernels/pushers/sr.hpp: Pusher_kernel, getInterpolatedEMFields", "src/kernels/currents_deposit.hpp: DepositCurrents_kernel", "src/kernels/faraday_mink.hpp: Faraday_kernel", "src/kernels/ampere_mink.hpp: Ampere_kernel, CurrentsAmpere_kernel", "src/kernels/digital_filter.hpp: DigitalFilter_kernel"]}
{"id": "C160", "title": "Units of charge, field and particle weight do not matter; exchanging positive and negative charges", "statement": "Multiplying all fields, all charges and all weights of a periodic simulation by constants, with the fiducial values (charge, field, volume) changed so that the current keeps its ratio to the field and with particles that respond to the larger fields as before, gives a simulation with the same particle positions and momenta and the fields multiplied, after any number of steps and however the box is divided. In particular reversing the signs of all charges and fields changes nothing else, and the number of particles per cell taken as reference has no effect on the evolution.", "quantifier": "all periodic Cartesian boxes in one, two and three dimensions, all divisions of both boxes, all fields and particles, all shape orders and numbers of filter passes, all constants and fiducial values satisfying the relation, all numbers of steps, all schedules", "why_tests_cant": "A term that is not proportional to field or charge (a leftover constant, a charge or weight used twice, a fiducial value dropped in one of the branches) shows up only when runs in different units are compared over many steps; tests run in one system of units.", "anchors": ["src/kernels/currents_deposit.hpp: DepositCurrents_kernel", "src/kernels/ampere_mink.hpp: CurrentsAmpere_kernel", "src/kernels/pushers/sr.hpp: Pusher_kernel", "src/engines/srpic/fieldsolvers.h: CurrentsAmpere", "src/kernels/digital_filter.hpp: DigitalFilter_kernel"]}
{"id": "C161", "title": "Charge conservation with the constant one third of the program", "statement": "With the shape orders above zero, the divergence of the current a step deposits is minus the change of the charge density over the time step, also when the constant that stands for 1/3 has the value it has in the program in single and in double precision.", "quantifier": "all particles that move less than a cell, all grids in one, two and three dimensions, all orders, both precisions, all orders of the additions, all numbers of steps", "why_tests_cant": "The unit test of the deposit compares with tolerances that hide a relative error of a millionth, and it uses one particle; whether such an error accumulates over the steps of a run is a question about all runs.", "anchors": ["src/global/utils/numeric.h: THIRD", "src/kernels/currents_deposit.hpp: DepositCurrents_kernel", "src/kernels/particle_shapes.hpp: S7"]}
{"id": "C162", "title": "The current across the grid is charge times coordinate velocity", "statement": "On grids with fewer than three dimensions the current deposited along a direction the grid does not resolve is the charge of the particles times the rate of change of their coordinate in that direction: on Cartesian grids the component of the velocity, on (quasi-)spherical grids the angular velocity of straight motion, in general relativity the derivative of the energy with respect to the angular momentum.", "quantifier": "all particles (all positions and four-velocities), all Cartesian, spherical, quasi-spherical and Kerr-Schild metrics, all shape orders", "why_tests_cant": "The conversion from Cartesian or covariant components to rates of coordinates involves the metric at the particle; tests of the deposit use flat space or particles at a few places, and a wrong factor (lapse, Lorentz factor, stretching of the grid) changes the toroidal current smoothly.", "anchors": ["src/kernels/currents_deposit.hpp: DepositCurrents_kernel", "src/metrics/spherical.h: transform_xyz", "src/metrics/qspherical.h: transform_xyz", "src/metrics/minkowski.h: transform_xyz", "src/metrics/kerr_schild.h: transform"]}
{"id": "C163", "title": "A simulation that starts on one process starts on many", "statement": "The checks made while the box is divided (cells of every subdomain are cubes, all subdomains have the cell size of the box) accept every box and decomposition for which the undivided box is accepted; every subdomain extends over exactly its cells, from the end of the one before it.", "quantifier": "all Cartesian boxes in one to three dimensions, all decompositions, exact arithmetic and floating-point formats with and without fused multiply-add", "why_tests_cant": "Rejections come from the accumulation of rounding errors and depend on the number of processes, the number of cells and the position of the box; tests use a handful of processes and boxes at the origin.", "anchors": ["src/framework/domain/metadomain.cpp: createEmptyDomains, metricCompatibilityCheck", "src/metrics/minkowski.h: Minkowski, convert, find_dxMin", "src/global/utils/comparators.h: AlmostEqual, AlmostEqual_host"]}
{"id": "C164", "title": "Number of steps, time and outputs by time are the requested ones in the floating-point numbers of the code", "statement": "A run makes as many steps as fit into the runtime, its clock shows the start time plus the number of steps times the time step, and outputs scheduled by simulation time are one interval (rounded up to steps) apart, up to stated multiples of the rounding error.", "quantifier": "all runtimes, time steps, numbers of steps, output intervals and start times; floating-point formats such as double", "why_tests_cant": "The errors accumulate over the steps of a run and depend on how the time step is rounded; whether an output is early or late by a step cannot be seen from single calls.", "anchors": ["src/engines/engine.hpp: Engine (max_steps), run", "src/global/utils/tools.h: Tracker::shouldWrite", "src/framework/domain/metadomain_io.cpp: Write"]}
{"id": "C165", "title": "The division into subdomains is set up exactly for admissible requests", "statement": "For every number of processes, grid, decomposition request and set of boundary conditions: the division of the domain is set up exactly if the arguments have one entry per dimension, the number of subdomains is that of the processes (or one, or any number in a debug build, without MPI), a condition is given for fields and particles at every end of every axis, and the request can be met with exactly that many subdomains; the consistency checks on neighbours, boundary conditions, local subdomains and memory never refuse an admissible set-up. What is set up divides the grid and each process holds its own subdomain only. A request whose product of subdomains per axis overflows 32 bits is refused.", "quantifier": "all dimensions 1 to 3, builds with and without MPI, ranks, numbers of subdomains below 2^32, grids, decomposition requests, roundings of the roots, boundary conditions", "why_tests_cant": "the checks run over all subdomains and directions of arbitrary decompositions; tests construct a few; overflow of the product needs billions of requested subdomains", "anchors": ["src/framework/domain/metadomain.cpp: Metadomain, initialValidityCheck, createEmptyDomains, redefineNeighbors, redefineBoundaries, finalValidityCheck", "src/framework/domain/domain.h: is_placeholder", "src/framework/containers/fields.h: memory_footprint", "src/framework/containers/particles.h: memory_footprint"]}
{"id": "C166", "title": "A moving window can be shifted any number of times", "statement": "Start a simulation with cubic cells on any decomposition and shift the window any number of times by nonzero numbers of cells along any axes. The shift never aborts the simulation, the box and every subdomain move by exactly the cells shifted in total with unchanged cell size, and the meshes are those of a simulation started on the moved box.", "quantifier": "all dimensions, Cartesian boxes, decompositions, lists of shifts; exact arithmetic, and floating-point formats for boxes on multiples of a power of two", "why_tests_cant": "every shift makes a new metric out of a rounded extent and checks it again; rounding errors add up over thousands of shifts and depend on position, cell size and decomposition", "anchors": ["src/framework/domain/metadomain_reshape.cpp: ShiftByCells", "src/framework/domain/mesh.h: set_extent", "src/metrics/minkowski.h: Minkowski, get_dx", "src/archetypes/moving_window.h: MoveWindow"]}
{"id": "C167", "title": "A restart puts a moving window back where it was", "statement": "Start a simulation with cubic cells on any decomposition, shift the window in any way, write a checkpoint and restart with the input file, whose box has not moved: the box and all subdomains are restored to where they were at the checkpoint, and later shifts act as in an uninterrupted simulation.", "quantifier": "all dimensions, Cartesian boxes, decompositions, lists of shifts before and after; exact arithmetic, and floating-point formats for boxes on multiples of a power of two", "why_tests_cant": "the box is not stored but put together from the extents of the subdomains, whose rounding depends on decomposition, position and history of shifts", "anchors": ["src/framework/domain/metadomain_chckpt.cpp: WriteCheckpoint, ContinueFromCheckpoint", "src/framework/domain/mesh.h: set_extent", "src/metrics/minkowski.h: Minkowski"]}
{"id": "C168", "title": "All processes pass the same settings to the parallel writer", "statement": "If the input file asks for a number of writing processes per node, every process asks the writer for that number times the number of nodes; opening the writer is collective, so all must agree. With the default of 0 the choice is left to the library.", "quantifier": "all allocations of processes to nodes, all requested numbers per node", "why_tests_cant": "needs several nodes, in particular a last node that is not full, as schedulers allocate when the number of processes is not divisible", "anchors": ["src/output/utils/tuning.cpp: TotalAggregators, ApplyBp5Tuning"]}
{"id": "C169", "title": "Filtering at a conducting wall", "statement": "In the two layers of cells at a perfectly conducting wall, one pass of the current filter acts like the ordinary filter on currents continued across the wall: the component normal to the wall is continued evenly, and components along the wall are left alone in the layer at the wall and do not spread from it into the box.", "quantifier": "every current, 1D to 3D Cartesian grids of every size, every axis and both of its ends, every number and placement of other walls, every cell of the two layers, every order in which the cells are processed", "why_tests_cant": "The branches differ by dimension, axis, end and layer; a wrong neighbour in one of them still smooths the current and conserves it elsewhere.", "anchors": ["src/kernels/digital_filter.hpp: DigitalFilter_kernel::operator(), FILTER2D_IN_I1, FILTER3D_IN_I1_I2"]}
{"id": "C170", "title": "Memory shown in the report of a subdomain", "statement": "The report printed for a subdomain has one line for the fields and one for each species, in order; each shows the number of bytes that the arrays allocated for it need, no more and no less, in the largest suitable unit from B to TB, and determines that number.", "quantifier": "every dimension, engine, precision, number of ghost cells, grid size, set of species with any capacity and numbers of additional quantities, as long as sizes fit their types", "why_tests_cant": "The arrays made depend on dimension, coordinates, engine and payloads; forgetting one of twenty in the sum changes the figure by a few percent.", "anchors": ["src/framework/containers/fields.h: Fields::memory_footprint", "src/framework/containers/particles.h: Particles::memory_footprint", "src/framework/containers/fields.cpp: Fields::Fields", "src/framework/containers/particles.cpp: Particles::Particles", "src/global/utils/reporter.cpp: Bytes2HumanReadable", "src/framework/domain/domain.h: Domain::Report"]}
{"id": "C171", "title": "Particles near the axis of a black hole", "statement": "In general relativity with equidistant angles, each pass of the update of the position of a particle succeeds also when the particle is on the axis or next to it, and moves it by the time step times the derivative of its conserved energy with respect to its momentum, evaluated at the mean radius and at the closest angle that is not within 1e-5 of the axis.", "quantifier": "every spin, extent and resolution of the grid, time step, particle with or without mass, number of passes and position with positive mean radius, including those on and beyond the axis", "why_tests_cant": "The inverse metric is singular on the axis; runs meet it only when a particle passes within 1e-5 of the axis, and a wrong pole differs only there.", "anchors": ["src/kernels/pushers/gr.hpp: Pusher_kernel::GeodesicCoordinatePush", "src/metrics/kerr_schild.h: KerrSchild", "src/metrics/kerr_schild_0.h: KerrSchild0"]}
{"id": "C172", "title": "Guiding-centre push", "statement": "The guiding-centre push changes the momentum along the magnetic field by the time step times charge over mass times the electric field along it; the rest of the new velocity is perpendicular to both fields, slower than light, and is the velocity of the frame in which the electric and magnetic fields are parallel, up to a relative error below 15 x^4 when the square x of E×B/(E²+B²) is below 0.01, and exactly otherwise.", "quantifier": "every momentum, time step, charge-to-mass ratio and every pair of fields with nonzero magnetic field, except perpendicular fields of equal strength", "why_tests_cant": "The drift is computed with one of two formulas depending on the fields; a wrong coefficient of the series changes the velocity by less than the tolerance of a test in single precision.", "anchors": ["src/kernels/pushers/sr.hpp: Pusher_kernel::velocityEMPush_GCA"]}
{"id": "C173", "title": "Distributions that replenish the density", "statement": "At every place of an active cell, the distributions that replenish the density, to a uniform or a variable target, return a number between zero and one, which is exactly the missing density in units of the largest target if the density in that cell is below nine tenths of the target there, and zero otherwise.", "quantifier": "every dimension, number of ghost cells, metric, array of nonnegative densities, positive target and place in an active cell", "why_tests_cant": "The cell is found from a continuous coordinate and shifted by the ghost cells; tests on uniform densities do not see the wrong cell.", "anchors": ["src/archetypes/spatial_dist.h: arch::spatial_dist::ReplenishUniform", "src/archetypes/spatial_dist.h: arch::spatial_dist::Replenish"]}
{"id": "C174", "title": "Comparison and hash of directions", "statement": "Comparing two directions of the same dimension is defined and true exactly when all entries agree; the hash of a direction fits in a short integer and two directions have the same hash only if they are equal.", "quantifier": "one, two and three dimensions, all pairs of directions; comparison for vectors of any length", "why_tests_cant": "A collision concerns a single pair of the 26 directions of a box, and shows only where that pair is looked up.", "anchors": ["src/global/arch/directions.h: dir::direction_t::hash", "src/global/arch/directions.h: dir::direction_t::operator=="]}
{"id": "C175", "title": "Hybrid pusher", "statement": "A species with the hybrid pusher is pushed as a guiding centre exactly if there is a magnetic field, the Larmor radius of the particle is below its limit and the ratio of squared fields is below its limit; then its momentum along the magnetic field changes by the electric and the external force along the field and the rest is a drift slower than light across both fields. Otherwise it gets the push of the chosen conventional algorithm with the external force in two halves; choosing none is an error.", "quantifier": "every momentum, fields, external force, time step, charge, limits (the ratio limit at most one for the guiding centre) and combination of flags", "why_tests_cant": "The branch depends on the momentum and the fields at the particle; a wrong comparison selects the other push only in part of the parameter space.", "anchors": ["src/kernels/pushers/sr.hpp: Pusher_kernel::operator()", "src/kernels/pushers/sr.hpp: Pusher_kernel::velocityEMPush_GCA_ExtForce"]}
{"id": "C176", "title": "External currents", "statement": "With an external current, the electric field in every active cell receives, besides the current of the particles, the external current evaluated at the place of the component, half a cell ahead along its own axis; the current that is left for the output is the sum of both in physical units.", "quantifier": "one, two and three dimensions, every cell, number of ghost cells, cell size, corner of the box, external current and content of the arrays", "why_tests_cant": "A uniform external current does not depend on where it is evaluated; half a cell of shift is a small error of a smooth one.", "anchors": ["src/kernels/ampere_mink.hpp: CurrentsAmpere_kernel::operator()"]}
