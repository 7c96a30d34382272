# Formal model of entity (pinned commit in /repo)

This file says, property by property (`properties.jsonl`), what is modelled, how it is
proved, where the code disagrees with the property, and what is trusted.  It was first written
before the proofs and is kept current.

## Method

* Lean 4.33.0 + Mathlib.  All modules live in `lean/Verif/`.
* For each topic `X` there are up to four kinds of file:
  * `Verif/Model/X.lean`: executable transcription of the C++ functions, each definition with a
    comment citing file and lines in /repo and every simplification made;
  * `Verif/Lemmas/X.lean`: helper lemmas (only where they are long);
  * `Verif/Spec/X.lean`: small specifications that several properties share (the periodic global
    box, Maxwell's update, Gauss's law, ...), stated without the model;
  * `Verif/Props/X.lean`: the property theorems `Cnn_*`, their local specifications, and beside
    them `example`s exhibiting concrete cases that meet the hypotheses.  Where the code violates
    the property there is a theorem `*_counterexample` proving the negation on a concrete witness,
    and a `*_partial` theorem for the part that holds.
* Numbers: indices and sizes are unbounded `Nat`/`Int` (wrap-around is not modelled unless
  stated: C02, C48, C53 do model it); `real_t`/`prtldx_t` values are exact elements of `ℚ`, of an
  arbitrary ordered field, or of `ℝ` where roots occur.  Rounding is exhibited
  only in C138, C139, C161, C163, C164, C166 and C167; elsewhere `cmp::AlmostEqual` is equality.
* Errors: `Outcome α = ok | err | ub`; `raise::Error`/`raise::Fatal` are `err` (they throw, or abort
  under MPI), out-of-bounds accesses and other undefined behaviour are `ub`.
* Parallel kernels: particle kernels are folds over an arbitrary order of the range with the atomic
  operations of the code; field kernels are arbitrary interleavings of the loads, arithmetic and
  stores of all cells (`Verif/Model/Kernel.lean`) on a sequentially consistent memory.
* External calls (MPI, ADIOS2, Kokkos, toml11, file system, `sqrt`/`cbrt`, RNG) are parameters or
  small abstract machines with the behaviour stated at the definition.

## Per property

| id | model (`Verif/Model/...`) | how it is proved |
|----|-------|-----------|
| C01 | `Decomp`: `Decompose1D` | division algorithm |
| C02 | `Decomp`: `divideInProportions2D/3D`, `Decompose`, float guesses as parameters | the increment loop ends at a divisor; case analysis |
| C03 | `Decomp`: `TensorProduct`, offsets of `createEmptyDomains` | uniqueness of the interval containing a cell, induction on sizes |
| C04 | `Topology`: index maps with wrap-around, neighbours | modular arithmetic, any dimension |
| C05, C06 | `Topology`, `Rounds`: `redefineBoundaries`, `GetSendRecvRanks`, blocking exchange rounds | case analysis; progress argument on interleavings of sends/receives |
| C07, C08, C09, C10 | `Directions`, `Tags` | finite tables decided completely against sign vectors; C10 by induction |
| C11 | `Enums`: `EnumBase` and its tables | finite tables, arbitrary strings by lookup |
| C12 | `Params`: parameter container with promises | induction over operation sequences |
| C13 | `BoundaryInput`: `GetBoundaryConditions` | case analysis over arbitrary lists |
| C14, C15 | `Halo`: slab copies/additions on arrays of all ranks | pointwise reasoning on the periodic box, finite sums |
| C16, C17 | `Prtl`, `PrtlComm`: tag counting, permutation, packing, receiving | multiset equalities for every schedule |
| C18, C19, C20 | `Prtl`: counting, compaction, sorting | permutation arguments |
| C21 | `Prtl`, `PrtlComm`, `Inject`: capacity | invariants, `ub` outcome; injections that report success stay within capacity, overfull ones write out of bounds |
| C22 | `Step`: `SortParticles` loop | counterexample + partial |
| C23-C25, C28, C63 | `Push`: Cartesian position push, boundaries, time step | linear arithmetic over ordered fields |
| C26, C27, C72 | `Push`: Boris, Vay, drags, external force, over ℝ | ring identities |
| C29, C30, C33 | `Deposit`: zigzag and Esirkepov deposits | ring identities, telescoping, B-spline recursion; index bounds |
| C31, C74 | `Shapes`: shape functions | against the Cox-de Boor recursion |
| C32, C73 | `Interp`: field interpolation | tensor product of splines |
| C34, C36, C75, C76, C83 | `Kernel`, `FieldSolver`, `Ranks`, `FieldOps` | refinement of the multi-rank arrays to one field on the periodic box; ring identities there (C34, C83 only; C36, C75, C76 use no law of arithmetic and hold for rounded operations, `Rounded`) |
| C35 | the above with `Deposit` and `Step` | induction over whole simulations |
| C37, C38, C39, C77, C78 | `Filter` | the same refinement, finite sums |
| C40, C41, C81 | `Output` | ceil-division lemmas, tilings |
| C42, C43, C82 | `PrtlIO` | prefix sums, permutations |
| C44, C45 | `Tracker` | induction over query histories |
| C46, C47, C48 | `CheckpointFiles`: file-system machine with a crash point between any two operations | invariants over traces |
| C49, C50, C51 | `Restart` | induction over restart chains |
| C52, C84 | `Stats`: statistics file, reduced particle moments | list induction, permutation of sums |
| C53 | `Prompt` | induction over strings |
| C54 | `Session`: `beginWriting`, `put`, `endWriting` | invariant over call histories |
| C55, C85 | `MeshBox`: `Intersection`, `Intersects`, `ExtentToRange` | order reasoning, floor/ceil |
| C56 | `MovingWindow`: field shift, communication after it, particle retagging | reduction to C14 (fields) and C16, C17 (particles) |
| C57 | `Inject`: `globalData`, `injectGlobally` on every subdomain of a decomposition | half-open intervals of the decomposition tile the box; parallel append for every schedule |
| C58 | `Inject`: `injectGlobally` | unweighted proved, weighted refuted |
| C59 | `Inject`: identifiers and counter, 32-bit; histories over all ranks with creation, removal, exchange, restart | invariant over histories |
| C64 | `Piston`: wall crossing time, reflection | identities over the reals |
| C65 | `Maxwellian`: flip, boost, rotation; sample and random number are arguments | identities over the reals, orthogonality of the rotation |
| C66, C79, C80 | `MainLoop`: `Engine::run` | induction over iterations |
| C68 | `SetBC`: `setFldsBC`, `setPrtlBC` | case analysis |
| C69, C70, C71 | `SpeciesInput`, `Step` | case analysis, counterexamples |
| C60, C61 | `Moments`: `ParticleMoments_kernel`, `ComputeMoments`; all moments, orders, methods, dimensions; metric and square root are parameters | partition of unity of the B-splines; sums over lists of additions |
| C67 | `VecPot`: `ComputeVectorPotential`, `ExtractVectorPotential`, `CommunicateVectorPotential` over all ranks, for any order of the messages that keeps each rank's own order | invariant over the prefix of messages: a row is corrected exactly once, by the completed row below it |
| C62 | `Metric`, `MetricGR`: conversions of all six metrics, constructors, extents of subdomains | linear maps; Cardano's formula for the stretched angle; polar form of complex numbers |
| C86, C87, C90 | `MetricGR`: components, `transform`, `transform_4d`, `u_0` | one general form with arbitrary Jacobians, matrix identities, quadratic equation |
| C88 | `KS.deriv`, `KS0.deriv`, `QKS.deriv` | `HasDerivAt` with chain and quotient rules |
| C89 | `polarArea` of all spherical metrics | integral of sin, Taylor bounds of sixth order |
| C91 | `Inject`: `injectUniform`, `injectNonUniform`, random numbers as parameters | parallel append for every schedule, related pairwise |
| C92 | as C91, with the overlap of box and subdomain | order arguments for box edges; counting per cell |
| C93 | `Emission`: `compton`, `synchrotron`, `processEmission` over the reals | algebra; probability vanishes with the recoil direction |
| C94 | `Emission` and `Push`: continuous drag | algebra, existence of the threshold |
| C95 | `Curvi`: all curvilinear field kernels of the SR and GR engines, axis boundary, `step_forward` of both (fields) | each launch determined cell by cell, telescoping fluxes, invariant through the sequence of calls |
| C96, C97 | `Curvi`, fluxes as in `Spec/Curvi` | as C95; induction on the history of currents |
| C98 | `Curvi`, interleavings of `Kernel` | threads read only their own writes; witness: two sequential orders |
| C99, C100 | `Curvi` | value of each kernel in a cell (`CurviAt`), metric specialised; witnesses over ℚ |
| C101 | `GRPush` over the metrics of `MetricGR`; energy = −u_0 of the four-metric (spec) | derivatives of the energy through the 3+1 form of the metric, `HasDerivAt` |
| C102, C103, C105 | `GRPush` (electromagnetic half push = Boris in the tetrad) | vector rules of C87, C26/C72 for Boris; uniqueness of the rotation equation |
| C104 | `GRPush`, azimuth passed by value | frame property (refutation); derivative in u_φ for the dropped value |
| C106 | `GRPush`: conversion, axis, absorption, send tags | C28 and case distinction |
| C107 | `GRPush`, schedule of particles | induction on the schedule |
| C108 | `FieldBC.conductor` (one kernel for all dimensions, axes, sides); `Conducting` (spec) | ownership of locations by threads (`KernelOwn`); with `FieldSolver.faraday` for the flux through the wall |
| C109 | `FieldBC.matchKernel`, positions from `Spec/FieldBC.sites` | cell-local kernel; geometric sequence for the limit |
| C110 | `FieldBC.matchRange` over `MeshBox` | floor and ceiling bounds |
| C111, C112 | `FieldBC.atmosphere`, `FieldBC.fixed` | cell-local kernels and their ranges |
| C113–C115 | `FieldBC.horizon`, `absorbCurrents`, `Curvi.axisBody` | ownership of rows or columns by threads |
| C116 | `Spectra` | the bin of an energy against the written edges (`bin_iff`), induction on the schedule and on the ranks |
| C117–C119 | `FieldOut`: names as lists of characters, constructor, declaration and writing of fields; `Quantity` (spec) | injectivity of the names (`nm_inj`), reading a name back (`fieldId_nm`), induction on the requests |
| C120 | `FieldsToPhys`: interpolation and conversion on the memory of `Kernel`; specification by multilinear functions | locality of the threads (`OwnedL`), evaluation of the averages |
| C121 | `Divergence`: curvilinear branches; fluxes and volumes in the specification | telescoping sums (`row`) |
| C122 | `Bulk` on top of `Moments` | cone of velocities closed under weighted sums; linearity of the deposit |
| C123 | `Bulk4`: flux of a particle, normalisation, conversion; the Kerr metric written out (`kerrForm`) | the form as minus one plus three squares (`kerr_squares`), convexity of the cone |
| C124 | density buffer, profile, `Replenish`, `InjectNonUniform` composed (`Model/Atmosphere`) | count of new pairs per cell through C91/C92, sums over particles; mass-density and `ds = 0` counterexamples |
| C125 | `GetAtmosphereExtent`, gravity, profile (`Model/Atmosphere`) | derivatives over the reals; case analysis; counterexamples for the upper end and `ds = 0` |
| C126 | GR step = staggered leapfrog with E = αD + β×B, H = αB − β×D | lattice specification (Spec/GRScheme), every kernel maps agreeing inner cells to agreeing inner cells, chained over the step |
| C127 | fields and particles advance together | clock fields with constant curls: one dt per later step (partial), 2 dt and 2.5 dt in the first (counterexample) |
| C128 | SR step on curvilinear grids, all components | as C126 |
| C129 | Energy and stability | Steps of the engine on all ranks (as C35, C83); `Spec/Energy.lean` defines the sums over the active cells of all ranks. The active cells form a finite torus with commuting shifts (`Lemmas/Energy.lean`); forward and backward curl are adjoint, and the curl is bounded by 2 sqrt(D) (`Lemmas/Lattice.lean`). Balance by one step, conservation and bound by induction over the steps. Extended stencils (non-zero `fieldsolver.delta*`, `beta*`) are not covered: the two curls are then not adjoint. |
| C130 | Field statistics | `Model/FieldStats.lean`: the reduction kernel on every cell of every rank, division by the volume of the global grid, sum over ranks. `Spec/FieldStats.lean`: cells of the global grid, metrics of the ranks as views of one metric. The sum over active cells is carried to the cells of the grid by the bijection of C01/C03. |
| C131 | Kernel bodies store literals computed from arbitrary user functions; multi-rank launch as any interleaving; metric as arbitrary functions seen from the corner of each subdomain. | Independence of threads (`OwnedL`), table of staggered positions against the specification of edges and faces, `shows_of_comm` for the ghost cells. |
| C132 | Conditional setter cell by cell in any order, reading a view that may have no memory; stencils transcribed as tables. | Invariant over the cells and components done so far; stencils are permutations of the nearest places (checked for the whole table), exactness for multilinear fields by induction on axes; `ub` for the constructor as written. |
| C133 | Model/FullStep.lean: `pushOne`, `pushStore`, `depositors`, `ExchangeAll`, `Tidy`, `FullStep`, `Run` over the kernels, exchanges and stores of the other models; Spec/FullStep.lean: `boxRun` | refinement by induction over steps: simulation relation `Holds` (fields shown on every cell, held particles a permutation of the box's, arrays tame); translation invariance of interpolation and deposit, wrap arithmetic |
| C134 | same | two instances of C133 with the same box |
| C135 | same; Spec/FullSafe.lean: `StepSafe`, `Fits` | induction over steps: offsets, room and tameness are invariant and imply success of every kernel (via C16, C18, C20, C33); counting of arrivals by padding the arrays |
| C136 | same as C133; Spec/FullGauss.lean: `chargeOf`, `chargesOf` | change of the density of all held charges in a step = change of the density of the deposited ones (permutation of held particles, previous positions are the positions before the push, modulo the box), then the per-step divergence identity of C35 and induction over steps |
| C137 | Model/Resume.lean: the checkpoint of a state of Model/FullStep.lean (`em` with ghost cells, the columns of all species), reading it into new containers whose other memory is arbitrary, and runs interrupted any number of times; file contents by Model/Output.lean and Model/PrtlIO.lean | What is read is what was written (C41, C43 carried over to records), so the state after reading holds the same box as before (`Holds`), and C133 applies to the remaining steps: induction on the session. Not covered: GR engine (saves `em0` and `cur` too), changed decomposition, moving window |
| C138 | Model/Float.lean: binary formats, rounding to nearest even on rational numbers, the Cartesian push with all roundings | Rounding is monotone, exact on numbers of the format, and within half a unit; case distinction on the two carries (the subtraction of 1 is exact by the spacing of numbers in [1, 2]); induction on the steps; the result satisfies the hypotheses of C33 |
| C139 | Model/Float.lean: `from_Xi_to_i_di` with its casts to `float` | Error bound by the spacing below 2^k; the stall theorem by the uniqueness of the nearest number, for all cells between 2^k and 2^(k+1), k <= 22, induction on the steps |
| C140 | Model/OutputInput.lean: reading of the entries, trackers of the categories, schedule, downsampling factors, species | The tracker of each category is related to the documented schedule by an invariant over queries; case distinction on defaults | 
| C141 | Model/Launch.lean: command line, request, table of specializations, loop of main | The request occurs at most once in the table; induction over the rest of the table | 
| C142 | Model/Launch.lean: emission policies and callback chain | Case distinction on the emission type | 
| C143 | Model/Walls.lean: the loop of FieldBoundaries over the orthogonal directions on all ranks, after each update and at the start; kernels, exchange and conductor kernel of C34, C14, C108 | Lattice fields symmetric under the mirrors and translations stay symmetric under the updates; each exchange and each wall extends the set of cells that agree with the lattice field; induction over the operations |
| C144 | Model/PrtlPhys.lean: `PrtlToPhys_kernel` (bufferX, bufferU with their branches on dimension, coordinates, engine), `OutputDeclare`, `OutputWrite` of all species and ranks into one file | The kernel's branches are computed for each metric; names of variables are injective in (kind, component, species); each column is the map over the selection of one function of the particle's index |
| C145, C146 | Model/EnergyDist.lean: `JuttnerSinge`, `Maxwellian`, `SampleFromMaxwellian`, `Powerlaw` as programs that read an infinite sequence of random numbers, with loops without bound (`whileM`, nontermination is `none`) | Measure theory: laws of draws, pairs, images and rejection loops (monotone limit of the unrolled loop); changes of variables (exponential, sum of three, polar, spherical, boost, rotation) identify the density |
| C147 | Model/PrtlWalls.lean: complete steps in an undivided box with conducting walls (C143) whose ends absorb or reflect particles: `boundaryConditions` of the pusher, deposit of the particles it leaves, field updates | Off the walls the image of the current is the current; its divergence is the change of the density of the particles that survive (C29, C30), each fit for the deposit after any reflection; induction over the steps, with the absorbed charges as a history variable |
| C148, C149 | Model/Options.lean: `SimulationParams` as a function of the parsed TOML files: `find`, `find_or`, the container with its promises, grid, scales, species, boundaries, output, algorithms, radiation, checkpoint, diagnostics. Spec/Options.lean: the documentation input.example.toml as a table | For each group of stored values the names are distinct and not stored again by a later group (by `decide` on the lists of names), so the value stored is the value seen; `find_or` against the table entry by entry; species by induction over the list |
| C150 | Model/Options.lean: `Grid::read`, `Boundaries::read` as part of the parameters of C148 | As C148; the extent by the shape of the list, the default width by a fold with `min`, the widths of the matching layers by induction over the directions |
| C151 | Model/Diag.lean: `fmt::alignedTable` with the wrap-around of `std::size_t`, `strlenUTF8` on bytes, the row of a species | Characters of UTF-8 have one byte that does not continue; induction over the columns with the position reached |
| C152 | Model/Diag.lean: `normalize_duration_fmt`, `to_human_readable`, `DurationHistory`, `ProgressBar`, `convertTime` | Cases over the units; the history by induction over the ticks, telescoping sum |
| C153 | Model/Diag.lean: `Timers::gather`, `npart_stats`, `ArrayImbalance`, flags of the main loop and of `printAll` | First maximum of a list by induction; the exponential bounded by its quadratic Taylor polynomial |
| C154 | Model/FullStep (complete step on all ranks), Spec/FullTranslate (translations by whole cells) | every operation of the undivided box commutes with translations (Lemmas/FullTranslate: reads only at offsets, interpolation and deposit succeed for a translated particle exactly when they do for the original one); combined with the refinement C133 for both decompositions. Partial: exact arithmetic; forces depending on the position are excluded by hypothesis |
| C155 | Model/FullStep (complete step on all ranks), Spec/FullWeights (same distribution of weight) | the current deposited by a particle is its weight times a function of cell, offset and momentum (Lemmas/FullWeights: the tables of both deposit algorithms are homogeneous in the coefficient, and whether the deposit succeeds does not depend on it); the pusher commutes with changing weight and payload; combined with the refinement C133 for both decompositions. Partial: exact arithmetic |
| C156 | Model/Setup (setSetupParams, typed access to parameters) | case analysis on the first entries of arrays, induction on arrays and on the table; acceptance characterised by a predicate on the values (Spec/Setup: Accepted) |
| C157 | Model/Setup (Parameters::write, registered functions, conversions) | induction on the container with names of attributes kept distinct; decoding of every conversion (enumerators by C11) |
| C158 | Model/FullStep (complete step on all ranks), Spec/FullRotate (renaming the axes) | field solver: evaluation of the transcribed bodies at a cell; interpolation: closed form as a triple sum, order of summation exchanged; deposit: both algorithms, sums exchanged, the running sums compared under the sum; combined with the refinement C133 for both decompositions (Lemmas/FullRotate). False with current filtering: C158_filter_counterexample. Partial: exact arithmetic, no filter |
| C159 | Model/FullStep, Spec/FullMirror (exchanging the first two axes, signs of axial vectors) | as C158, for the formulas of two and of three dimensions (Lemmas/FullMirror), including the filter in two dimensions. False with filtering in three dimensions: C159_filter_counterexample. Partial: exact arithmetic, no filter in three dimensions |
| C160 | Model/FullStep, Spec/FullUnits (rescaled fields, charges, weights) | each kernel of the step commutes with the multiplication of fields and currents (Lemmas/FullUnits), combined with the refinement C133 for both decompositions. Partial: exact arithmetic |
| C161 | Model/Third (deposit with the constant THIRD as a parameter, its two values) | the updates are those of Model/Deposit with each component multiplied by 3 THIRD or 1 (Lemmas/Third), then C30 and C73; induction over the steps. False as stated in three dimensions: C161_counterexample. Partial: exact arithmetic apart from the constant; order 7 excluded |
| C162 | Model/DepositVel (velocity of the deposit, SR on all grids, GR), Model/Metric, Model/MetricGR | derivative of the Cartesian position along the rates (Lemmas/DepositVel: moves_sph), derivative of the Hamiltonian (ham_du), sum of the deposit by C73. Partial: quasi-Kerr-Schild near the axis |
| C163 | `Model/Startup.lean`: constructor of the Cartesian metric, extents of the subdomains, `metricCompatibilityCheck`, every operation rounded by a parameter (identity or `Fmt.round`) | exact arithmetic: all decompositions; floating-point numbers: error analysis with relative rounding errors (at most 86 u for the cell size of a subdomain, tolerance 200 u), counterexamples for many subdomains and for boxes far from the origin |
| C164 | `Model/Clock.lean`: `max_steps`, `time += dt`, `time - dt`, `Tracker::shouldWrite` by simulation time, all with rounding (`Fmt.round`) | induction over the steps with relative rounding errors; first-due characterisation of the list of outputs; counterexamples in `double` by evaluation |
| C165 | `Model/Construct.lean`: the constructor of the metadomain with its checks before and after, the list of local subdomains and the memory of placeholders | equivalence with a readable condition on the arguments; the neighbour of subdomain 0 in direction (-1,..,-1) is the last position, so a product that is too large is refused; an unset condition is found at the subdomain at that end |
| C166 | `Model/Reshape.lean`: `ShiftByCells` with the metric made anew by `set_extent`, in the arithmetic of C163, for the box and all subdomains | induction over the shifts, with the invariant that all numbers of all axes are exact; exact arithmetic and floating point are two instances; counterexamples by computation in single precision |
| C167 | `Model/Reshape.lean` (`collect`, `restore`): extents stored for the subdomains, box of the restarted simulation as their hull, metrics made anew | the hull of the subdomains is the box: bounds as an invariant of the loop, attained at the first and the last subdomain of the table; counterexamples by computation in single precision |
| C168 | `Model/Tuning.lean`: `TotalAggregators` as seen by a process on a node, the parameters set | equivalence: the fullest node counts all nodes only if its number of processes times the number of nodes does not exceed the sum, i.e. all are equal |
| C169 | `FilterWall` | the bodies are evaluated at both layers for every dimension, axis and end, compared with the separable filter of the continued current |
| C170 | `Footprint` | constructors and sums evaluated for every dimension; case analysis on the unit |
| C171 | `GRPush` | angle replaced near the axis shown to be the closest admissible one; then as C101 |
| C172 | `Push`: `gca` | algebra with the quadratic equation of the drift; remainder of the series |
| C173 | `Atmosphere.replenish`, `replenishUniform` | floor of the coordinates, case analysis |
| C174 | `Dir.hash`, `Dir.eqUpTo` | exhaustive for the hash (the domain is finite), induction for the comparison |
| C175 | `Hybrid` | force reduced to a change of momentum before the push of C172; case analysis on the flags |
| C176 | `FieldSolver`: `extCurrent`, `currentsAmpere` | evaluation of the assignments; positions by index |

## Disagreements between code and property

Each is a theorem with a concrete witness.

* C02: the check that the numbers of domains multiply to the requested number wraps at 2^32. In one dimension
  the requested number of domains is ignored.
* C06: the boundary condition of an edge or corner is that of its first non-periodic axis.
* C09: `get_dim` accepts diagonal directions that involve x1.
* C13: fields and particles may disagree on periodicity; `SYNC` is accepted from the input file;
  spherical radial boundaries may be periodic on one side.
* C14: subdomains narrower than the ghost depth are accepted but not exchanged correctly.
* C22: clearing one species clears all.
* C24: in the serial build nothing is done at CUSTOM/HORIZON sides.
* C25: a particle landing exactly on a mirroring upper wall ends with offset 1.
* C27: synchrotron and Compton drag are not additive: the first rescales the vector used by the second.
* C29 (hence C35): the 3D zigzag deposit violates continuity for motion along all three axes.
* C33: even-order deposits leave the ghost region for positions in the last half cell.
* C34: with an anisotropic extended stencil the ordinary divergence of B is not conserved.
* C38: the 3D filter misses two diagonal neighbours.
* C39: conductors on both sides of an axis, and corners.
* C40: `output.debug.ghosts` makes the layout loop run past its vectors.
* C43: deferred `Put` of temporaries.
* C45: the first two steps of a time schedule, and the step at the wall-time limit.
* C47: deleting the oldest tracked checkpoint by hand disables the limit for ever.
* C48: a crash while writing leaves a checkpoint the restart picks up; steps of 2^31 and above.
* C49: the second restart uses an edited input file.
* C50: times are rounded to six decimals in the meta file.
* C51: inconsistent subdomain sizes are accepted.
* C52: stress components have one header cell and several numbers; changed requests keep the old header.
* C53: species numbers wrap at 256; trailing text is ignored.
* C56: nothing compares the shift with the ghost width, so a larger shift leaves stale cells; with walls on a
  single subdomain a particle keeps its send tag for ever; without MPI a particle stays alive outside.
* C65: a drift component below the comparison tolerance is given to the leading axis.
* C55, C85: a box bounded below and unbounded above loses its interval.
* C61: reflection at the polar axis is off by one row; at the upper axis the contribution is lost in a ghost row.
* C62: a negative stretching parameter, documented as allowed, gives NaN coordinates.
* C68: setting an x2 side changes the x1 side.
* C69: a massive species can get the photon flag. C70: averaging applied twice.
* C78: tangential currents are treated differently at the two conducting walls.
* C79: the output flag passed to diagnostics is always false. C80: a changed time step after a
  restart ends the run at the wrong time. C81: the last edge with downsampling.
* C88: in the quasi-spherical Kerr-Schild metric the derivatives of the second diagonal component ignore the
  stretching. C89: the small-angle formula of the quasi-spherical metrics is evaluated at half the angle.
* C84: weights replace charge and mass; stresses ignore weights and misuse the mass.
* C21: injection kernels write before the capacity check, so an overfull injection is out of bounds.
* C58: weights of a user-supplied list are read from the species' own array. C59: the 32-bit counter of
  identifiers wraps. C91: a pair injected into one species twice overwrites itself.
* C94: the probability of emission scales with charge over mass, the recoil with one over mass, the continuous
  drag with one over mass squared; and synchrotron emission loses the angle between drag and velocity.
* C96: the radial current on the axis enters the flux around the pole with weight one half.
* C97: the radial field on the axis is copied from the next row instead of being advanced.
* C98: in the in-place Ampere pushes of the GR engine the axis thread reads what its neighbour writes.
* C99: hence on the axis the GR engine without gravity is not the SR engine.
* C100: the time average is taken in active cells only, so next to a border of a subdomain the cross term of
  the metric mixes an averaged with a not averaged column.
* C101: on stretched angles the radial derivative of h^22 of the quasi-Kerr-Schild metric misses the Jacobian.
* C104: `UpdatePhi` takes the azimuth by value; the azimuth of GR particles never changes.
* C108: at an upper conducting wall the kernel runs over `N_GHOSTS` indices instead of `N_GHOSTS + 1`, so the
  even components are not mirrored into the outermost ghost cell.
* C110: the matching condition runs after the exchange of ghost cells and leaves ghost cells at inner borders
  alone; where the layer spans several subdomains the copies of a cell differ afterwards.
* C111: at a lower end the edge of the kernel is the last cell of the range, at an upper end the first; so the
  lower atmosphere ends one cell before its surface.
* C112: fixed fields are written to ghost cells only, which at a lower end excludes the components on the
  boundary itself.
* C113: the horizon kernel copies to `3 + filters` cells, which reaches the copied cell only with two ghost
  cells.
* C115: the row of radial electric field beyond an axis is not set.
* C116: energies at or above the upper limit are counted at index `n_bins` of an array of `n_bins` elements.
* C117: user-defined fields such as `E_dot_B` or `Hist` are taken for built-in ones, the user's function is not called.
* C118: the documented request `Ttt` is declared as `fT00` but written as `fTtt`, so the first output fails.
* C121: in two and three dimensions the net flux out of the cell around a node is divided by the volume of the cell above that node.
* C122: bulk velocity of a massless species is refused, since it is normalised by the mass density.
* C123: a particle off the centre of its cell may give a spacelike flux, for which a fluid at rest is written.
* C53: `N_-1` is accepted and means species 255.
* C124: `AtmosphereParticlesIn` compares the *mass* density of the two species with the target *number* density: for masses other than one the atmosphere is not restored (or is refilled forever).
* C124, C125: `grid.boundaries.atmosphere.ds = 0` (default) is documented as "no limit", but then nothing is injected and gravity acts on no particle.
* C125: at the upper end of the grid gravity is not limited to `ds`: it acts on the whole grid.
* C127: in the first call of `GRPICEngine::step_forward` the fields are prepared (advanced from -1/2 to B(1/2), D(1)) and then advanced by a further step, while the particles are pushed once (the comment `!ADD: GR -- particles?` marks the place): afterwards B has moved by 2 dt and D by 2.5 dt.
* C129: `algorithms.timestep.CFL` is not checked; with CFL > 1 (1D) there are fields whose energy is multiplied by rho^4 in every step (`C129_limit_counterexample`).
* C130: `totVolume` of `Spherical`, `QSpherical` and `KerrSchild0` is (r2^2 - r1^2)(theta2 - theta1), which has the dimension of an area; all averages on these grids (fields and particle moments) scale with the unit of length (`C130_spherical_counterexample`). `KerrSchild` and `QKerrSchild` return zero, so the statistics are infinite or NaN (`C130_kerr_counterexample`). JdotE multiplies J and E after averaging each to the cell centres, so it is not the work that changes the field energy (`C130_work_counterexample`, compare C129).
* C131: the header of field_setter.h says the functions of a general-relativistic problem generator return physical contravariant components; they are stored without conversion, i.e. taken as code components (`C131_basis_counterexample`). A vector with only one or two functions is silently ignored by the kernel (the concept requires one complete vector).
* C132: `CustomSetEMFields_kernel` does not keep its `buffer` argument; the member is a default-constructed view and every read of it is undefined (`C132_buffer_counterexample`). After the update no exchange follows (`// comm here`), so ghost cells keep the old fields.
* C138: after a push by a tiny negative displacement the offset is exactly 1 (belongs to the next cell); kernels that need offsets below 1 would be wrong for it, the deposit is not.
* C139: `from_Xi_to_i_di` converts the coordinate to `float` before it subtracts the cell, so that on curvilinear grids positions are resolved to `2^-24` of the distance from the origin of the grid, also in double precision: slow particles in far cells stand still (`C139_stall_counterexample`). Where `xi + 1` is rounded up, the offset is negative.
* C140: `interval = 0` or `interval_time <= 0` (other than -1) for a category leads to `step % 0` instead of the common interval; `output.format = "disabled"` does not disable output (the condition in `Metadomain::Write` is inverted); a list `downsampling` shorter than the dimension is accepted and read past its end; `output.particles.species = []` writes nothing, numbers out of range index `species` out of range. The documented defaults (`interval = 1`, `format = "hdf5"`) are not those of the code (100, `BPFile`).
* C141: without `-input`, `getArgument` evaluates `std::next(end())` before comparing with `end()`.
* C142: `photon_species = 0` passes the check `photon_species > size` and reads `species[-1]`.
* C143: the range of `PerfectConductorFieldsIn` at an upper wall is one shorter than needed for the components between the nodes: their outermost ghost cells keep the values of the start. The solver does not read them.
* C145: below temperature 1/2 the thermal sampler is the non-relativistic Maxwellian; its density differs from exp(-gamma/T) at every such temperature (the code's comment calls both branches Jüttner-Synge).
* C146: `Powerlaw` adds 1 to the power-law number, so Lorentz factors are in (1 + g_min, 1 + g_max); the unit test demands g_min to g_max and passes only because the event is rare.
* C147: walls that absorb particles break Gauss's law. `boundaryConditions` (sr.hpp:666-669) tags the particle as dead before `CurrentsDeposit` runs, and the kernel returns for dead particles (currents_deposit.hpp:109-111): the current of the last step is not deposited, not even up to the wall, and the charge stays in the field for ever where the particle was before its last step. With many particles absorbed this charges the cells next to the wall.
* C148: documented defaults that the code does not use: `output.format` ("hdf5", code: "BPFile"), `output.interval` (1, code: 100), `diagnostics.colored_stdout` (true, code: false), `photon_energy_min` (1e-4, code: 1e-3); `gamma_rad` is documented as required but has a default.
* C148: `toml::find_or` returns the default also if the entry has another type. `CFL = 1` or `ds = 1` (integers) are read as the default without a message; the same holds for a string where a number is expected.
* C149: `maxnpart` is documented as uint, but it is read by `toml::find<real_t>`, which throws for integers: `maxnpart = 1000` is refused, `maxnpart = 1000.0` accepted.
* C148: `output.particles.species = []` is documented to select all species (input.example.toml:556); it selects none. Only leaving the option out selects all.
* C150: in `Boundaries::read` the errors for a wrong number of entries (grid.cpp:277-279) or more than two widths in an entry (grid.cpp:288) of `grid.boundaries.match.ds` are raised inside a `try` with `catch (...)` and never reach the user; the default for all directions is appended to what was stored already. `ds = [[1.0], [1.0, 2.0, 3.0]]` in two dimensions gives three pairs, with the default in the second direction.
* C151: `fmt::alignedTable` (formatting.h:186-209) subtracts unsigned lengths: if an entry does not fit, a length near 2^64 is reserved and `std::length_error` ends the run. Labels of species are not limited: 22 characters are enough, 15 with more than 9999 particles.
* C152: `normalize_duration_fmt` limits the index to the number of units (progressbar.cpp:52-53), one too many; it is never reached from `to_human_readable` with microseconds. `printDiagnostics` is called with `step - 1`, so the last report of a run shows one step remaining and less than 100 %.
* C153: `tools::ArrayImbalance` (tools.h:52-54) divides the mean square by the mean instead of its square and maps 0 to 50 %; equal ranks with at least 1 ms show 99 or 100 %. `print_output` starts as false and is combined with `&=` (engine.hpp:287-330), it is never true. `tot_npart` has 32 bits (diag.cpp:62-64). The percentage of ignored timers may exceed `unsigned short` (timer.cpp:98, 121).
* C156: `[setup]` options: integers are cast to 32 bits (5000000000 becomes 705032704), empty arrays, dates and tables are dropped silently (`C156_counterexample`).
* C157: `output.particles.species`, `radiation.emission.*.photon_species` and `grid.boundaries.atmosphere.species` (8-bit indices) and `[setup]` arrays of truth values have no write function and are missing in the attributes of the output; arrays of arrays are flattened (`C157_counterexample`).
* C158, C159: with current filtering a three-dimensional simulation prefers axes: digital_filter.hpp:346-379 leaves out the diagonal neighbours (0, 1, -1) and (0, -1, 1) and counts (0, 0, ±1) twice.
* C161: `THIRD` is `0.333333f` in single precision (numeric.h:41), six digits of the seven that fit, instead of `1.0f/3.0f`. In three dimensions the deposited current of orders 1 ... 11 (currents_deposit.hpp:626-634) is too small by a relative 1.04e-6, 17 times the rounding error; the component across the grid in two dimensions (line 507) likewise, and the weights of order 7 (particle_shapes.hpp:181) do not add up to one. C30, C31 and C73 take the constant to be exactly 1/3.
* C163: `metricCompatibilityCheck` (and the check of cube cells in the constructor of the metric) compares cell sizes recomputed from rounded corners with a tolerance of 100 epsilon. The error of the recomputed size grows with the number of subdomains along an axis and with the distance of the box from the origin: 572 cells on [0,5] in double precision start on 1 process and are rejected on 143; 300 cells on [1000,1001] in single precision start on 1 or 2 processes and are rejected on 3.
* C164: `max_steps = runtime / dt` truncates a rounded quotient: runtime 0.3 with dt 0.1 gives 2 steps. `Tracker::shouldWrite` compares the difference of two accumulated times with the interval and restarts the interval at the actual output time: with dt = 0.1 and an interval of 1.0 outputs come every 11 steps instead of 10 (from step 41 on always), so the files lag behind the requested times more and more.
* C166: `ShiftByCells` adds `n_cells * dx` to the rounded ends of every mesh and makes a new metric, with `dx` computed from the rounded ends. The width of the window drifts. In two and three dimensions the metric raises `dx2 must be equal to dx1` when the drift exceeds 100 epsilon: in single precision with 10 x 10 cells on [60, 61] x [0, 1] and two processes at the 18th shift by two cells. In one dimension the cell size changes without notice. Extents computed from the initial ones and the total number of cells shifted would not drift.
* C167: the extent of the box is not stored in checkpoints; `ContinueFromCheckpoint` takes the hull of the subdomains, whose rounded ends differ from those of the box. In single precision a box of 41 cells on [0, 1] ends at 0.99999994 after a restart, and a window of 12 x 12 cells on [7, 8] x [0, 1] with three subdomains, shifted 17 times by two cells, raises `dx2 must be equal to dx1` at the restart although it runs without interruption.
* C168: `TotalAggregators` divides the number of processes by that on the own node. On unequally filled nodes the processes of different nodes obtain different numbers (nodes with 4, 4 and 1 processes and one writing process per node: 2 and 9) and pass them to a collective call.
* C169: with conductors at both ends of an axis the filter reads behind the upper wall; in a corner of two walls the current along the second wall is filtered.
* C170: the extent of a grid with ghost cells is computed in 32 bits and wraps around.

## Trusted base

* Lean's kernel.  Axioms: `AXIOMS.txt` lists, for every theorem of the manifest, the axioms it
  depends on as reported by `#print axioms`; they are among `propext`, `Classical.choice` and
  `Quot.sound`.  No `sorry`, no added axioms, no `native_decide`/`bv_decide`.
  `Verif/Lemmas/KernelRfl.lean` defines a tactic that hands `Eq.refl` to the kernel without
  elaborator checks; it adds nothing to the trusted base.
* The transcription of the C++ into the definitions of `Verif/Model`, as cited there.
* Contracts assumed of the environment:
  * MPI: a blocking exchange completes when both sides have entered it, messages arrive whole and
    unaltered, reductions combine all ranks; a failing rank aborts all.
  * ADIOS2: `Open` for writing starts an empty file, a `Put` block is stored at its selection, `Get`
    returns it, files become visible when closed; deferred data are read at `EndStep` unless stated;
    defining a variable twice and writing one that was not defined are errors.
  * Kokkos: a parallel launch runs every index once; atomics are atomic; memory is sequentially
    consistent; `ScatterView` contributions are summed; `BinSort` yields some permutation sorted by bin.
  * The file system performs single operations atomically, `std::filesystem` listings are complete.
  * toml11, the C++ standard library, `math::sqrt`, `floor`, `ceil`, `pow`,
    `exp`, `log`, `sin`, `cos`, `atan2`, `tanh` (as functions of real numbers) and the random numbers;
    for C145 and C146 the generator is ideal: independent numbers, uniform in [0, 1).
* IEEE 754 arithmetic with rounding to nearest even, without overflow (C138, C139, C163, C164, C166, C167, `C75_bitwise`; C161 for one constant). C36, C75, C76 and C98
  are about arbitrary operations, all other theorems about exact numbers.
* Not modelled: floating-point rounding (except C36, C75, C98 and the properties just named), 32-bit overflow of sizes (unless stated), performance,
  device memory, of the general-relativistic engine all but metrics, field
  solver, boundary conditions of the fields and pusher, the spherical branches of kernels except where cited, problem generators, diagnostics printing except C151-C153, logging.
