{"id": "C01", "title": "Domain decomposition is an exact partition", "statement": "For every number of cells and every number of MPI ranks, the physical sub-domains reported by the communicator (without guard cells) are contiguous and ordered by rank, do not overlap, and together cover every cell of the global grid exactly once; the same holds when damping cells are included. A request that would leave sub-domains smaller than what guard exchange needs is rejected with an error instead of producing a wrong layout.", "quantifier": "all global cell counts, all communicator sizes, all guard/damp cell counts, all ranks", "why_tests_cant": "Remainder handling and first/last-rank special cases depend on Nz mod size; tests run one or two (Nz, size) pairs.", "anchors": ["fbpic/boundaries/boundary_communicator.py:BoundaryCommunicator.get_Nz_and_iz", "fbpic/boundaries/boundary_communicator.py:BoundaryCommunicator.divide_into_domain"]}
{"id": "C02", "title": "Coordinates of shared cells agree between ranks for the whole run", "statement": "After any history of moving-window and Galilean shifts of the global domain, the z extent reported for each rank satisfies zmax-zmin = Nz*dz, neighbouring physical sub-domains share their edge, and a cell that is stored by two neighbouring ranks (as guard cell of one, physical cell of the other) is assigned the same z by both.", "quantifier": "all shift histories, all ranks, all options with_damp/with_guard", "why_tests_cant": "An off-by-one in a guard offset shows up only for particular rank positions and after particular shift sequences.", "anchors": ["fbpic/boundaries/boundary_communicator.py:BoundaryCommunicator.get_zmin_zmax", "fbpic/boundaries/boundary_communicator.py:BoundaryCommunicator.shift_global_domain_positions", "fbpic/boundaries/boundary_communicator.py:BoundaryCommunicator.get_Nz_and_iz"]}
{"id": "C03", "title": "Neighbour topology is symmetric and every message is matched", "statement": "If rank a considers rank b its right neighbour then rank b considers rank a its left neighbour, for open and for periodic boundaries; every field or particle message posted in an exchange has exactly one matching receive (peer and tag) and vice versa, so that an exchange cannot deadlock or mix up directions, including when the same rank is both neighbours (2 periodic ranks).", "quantifier": "all communicator sizes, all ranks, both boundary types", "why_tests_cant": "The two-rank periodic case, where both neighbours are the same process, and the ends of an open domain differ from the generic case; tests run few sizes.", "anchors": ["fbpic/boundaries/boundary_communicator.py:BoundaryCommunicator.__init__", "fbpic/boundaries/boundary_communicator.py:BoundaryCommunicator.exchange_domains"]}
{"id": "C04", "title": "Guard-cell exchange delivers the neighbour's valid cells", "statement": "After exchanging E or B between sub-domains, every guard cell of every rank that lies inside the global domain holds exactly the value that the owning rank holds for that global cell, cells owned by the rank are unchanged, and repeating the exchange changes nothing.", "quantifier": "all field contents, all domain sizes and rank counts accepted by the constructor, all ranks", "why_tests_cant": "A slice off by one only shifts data by one cell for some layouts and is invisible with smooth fields.", "anchors": ["fbpic/boundaries/field_buffer_handling.py:BufferHandler.handle_vec_buffer", "fbpic/boundaries/boundary_communicator.py:BoundaryCommunicator.exchange_fields"]}
{"id": "C05", "title": "Guard-cell reduction neither loses nor double counts deposited charge and current", "statement": "After the additive exchange of J or rho, the value stored by every rank for a global cell is the sum of what all ranks had deposited for that global cell before the exchange, so two ranks that both store the cell agree and the total over owned cells equals the total deposited inside the global domain.", "quantifier": "all deposited contents, all domain sizes and rank counts accepted by the constructor", "why_tests_cant": "Double counting only occurs where overlap regions touch; depends on the number of cells per rank versus guard cells.", "anchors": ["fbpic/boundaries/field_buffer_handling.py:BufferHandler", "fbpic/boundaries/boundary_communicator.py:BoundaryCommunicator.exchange_fields", "fbpic/boundaries/boundary_communicator.py:BoundaryCommunicator.divide_into_domain"]}
{"id": "C06", "title": "Gathering then scattering a grid reproduces every sub-domain", "statement": "Gathering a field on the first rank yields the global array in which each cell has the value held by its owner, and scattering a global array gives every rank exactly its own cells; scatter followed by gather, and gather followed by scatter, are the identity on owned cells.", "quantifier": "all arrays, all rank counts, with and without damping cells", "why_tests_cant": "Index arithmetic differs for first, last and middle ranks and for remainder cells.", "anchors": ["fbpic/boundaries/boundary_communicator.py:BoundaryCommunicator.gather_grid_array", "fbpic/boundaries/boundary_communicator.py:BoundaryCommunicator.scatter_grid_array"]}
{"id": "C07", "title": "Particle exchange conserves particles and delivers them to the owner", "statement": "An exchange of particles between sub-domains neither duplicates nor loses macroparticles (except those leaving through an open outer boundary): the multiset of particles over all ranks after the exchange equals the multiset before; with at most one sub-domain of displacement every particle ends on the rank whose physical domain contains it; a periodic domain of several ranks shifts crossing particles by exactly one box length.", "quantifier": "all particle populations and positions, all rank counts, open and periodic boundaries", "why_tests_cant": "Edge positions, empty buffers, wrap-around between first and last rank cannot be covered by samples.", "anchors": ["fbpic/boundaries/particle_buffer_handling.py:remove_particles_cpu", "fbpic/boundaries/particle_buffer_handling.py:add_buffers_cpu", "fbpic/boundaries/boundary_communicator.py:BoundaryCommunicator.exchange_particles_aperiodic_subdomain"]}
{"id": "C08", "title": "Particle ids and ionization levels survive a transfer between ranks", "statement": "The unique id and the ionization level of a macroparticle are the same after it has been moved to a neighbouring MPI rank, whatever the direction of the transfer.", "quantifier": "all 64-bit ids and levels, both directions of transfer, CPU implementation", "why_tests_cant": "Tests with small or zero ids, or that only check particle counts or leftward transfers, pass even when integers are mangled in one direction.", "anchors": ["fbpic/boundaries/particle_buffer_handling.py:remove_particles_cpu", "fbpic/boundaries/particle_buffer_handling.py:add_buffers_cpu"]}
{"id": "C09", "title": "Periodic wrapping puts every particle back in the box by whole box lengths", "statement": "With periodic boundaries on one rank, after the exchange every particle satisfies zmin <= z < zmax, the displacement applied is an integer multiple of the box length, a particle already inside is not moved, wrapping twice equals wrapping once, and the wrapping loop terminates for every finite position.", "quantifier": "all positions (any number of box lengths away), all box limits with zmin < zmax", "why_tests_cant": "Loop termination and half-open boundary equality are all-input facts.", "anchors": ["fbpic/boundaries/particle_buffer_handling.py:shift_particles_periodic_numba", "fbpic/boundaries/particle_buffer_handling.py:shift_particles_periodic_cuda"]}
{"id": "C10", "title": "Open boundaries remove escaping particles", "statement": "When open boundaries are requested, a particle that leaves the global domain is removed and never re-enters at the opposite end, for every accepted choice of guard cells; with periodic boundaries no particle is ever removed.", "quantifier": "all accepted (boundaries, n_guard, size) combinations, all positions", "why_tests_cant": "The behaviour is decided by an internal count being zero, not by the boundary type, which coincides in the tested configurations.", "anchors": ["fbpic/boundaries/boundary_communicator.py:BoundaryCommunicator.exchange_particles", "fbpic/boundaries/boundary_communicator.py:BoundaryCommunicator.__init__"]}
{"id": "C11", "title": "Moving window follows its prescribed motion within one cell, forever", "statement": "With a moving window of speed v, after any number of iterations (with any calling interval) the position of the grid differs from the ideal position z0 + v*(t - t_start + dt) by less than one cell, the grid only moves by whole cells, and field grids of all modes, communicator and window agree on the position.", "quantifier": "all v (both signs), all dt, dz, all numbers of iterations and any schedule of calls", "why_tests_cant": "Drift accumulates over the run length; truncation toward zero differs for negative v.", "anchors": ["fbpic/boundaries/moving_window.py:MovingWindow.move_grids", "fbpic/boundaries/moving_window.py:MovingWindow.__init__"]}
{"id": "C12", "title": "Spectral shift by n cells translates the data by exactly n cells", "statement": "Shifting a field in spectral space by n cells equals a cyclic translation of its values on the z grid by n cells; shifts compose additively, shifting by n and then by -n restores the field, and a shift by the number of cells is the identity.", "quantifier": "all fields, all grid sizes, all integers n of either sign", "why_tests_cant": "Requires an identity of the discrete Fourier transform for all sizes and all n.", "anchors": ["fbpic/boundaries/moving_window.py:shift_spect_array_cpu", "fbpic/fields/spectral_grid.py:SpectralGrid.__init__"]}
{"id": "C13", "title": "Continuous injection fills space without gaps or overlaps", "statement": "Over any history of moving-window updates and injections, the particle slabs created for a continuously injected species are adjacent: they tile one interval of space with constant spacing, in the frame moving with the plasma, without gap and without overlap, and injection always keeps up with the injection plane to within one particle spacing.", "quantifier": "all histories of window moves and injections, all velocities of window and plasma, all spacings", "why_tests_cant": "Accumulated counters and truncation over an arbitrary number of steps and arbitrary injection periods.", "anchors": ["fbpic/particles/injection/continuous_injection.py:ContinuousInjector.increment_injection_positions", "fbpic/particles/injection/continuous_injection.py:ContinuousInjector.generate_particles"]}
{"id": "C14", "title": "Particle ids are globally unique over every history of creation", "statement": "The ids attributed to macroparticles by all MPI ranks, over any interleaving of initial tracking, continuous injection, ionization and Compton creation, are pairwise different.", "quantifier": "all rank counts, all interleavings and batch sizes of id creation on all ranks, no restart", "why_tests_cant": "Uniqueness is a property of all histories over all ranks.", "anchors": ["fbpic/particles/tracking/tracking.py:ParticleTracker.__init__", "fbpic/particles/tracking/tracking.py:ParticleTracker.generate_new_ids", "fbpic/particles/tracking/tracking.py:generate_ids_gpu"]}
{"id": "C15", "title": "Particle ids stay unique after a restart from a checkpoint", "statement": "After a restart that reloads the ids of existing particles, ids attributed to new particles differ from all reloaded ids, on every rank.", "quantifier": "all sets of reloaded ids, all ranks, all later creations", "why_tests_cant": "The failing case needs a restart, plus later particle creation, plus a comparison of old and new ids.", "anchors": ["fbpic/particles/tracking/tracking.py:ParticleTracker.overwrite_ids", "fbpic/openpmd_diag/checkpoint_restart.py:load_species"]}
{"id": "C16", "title": "Ionization conserves charge and never exceeds the allowed level", "statement": "For every sequence of ionization steps, the level of an ion never decreases and never exceeds the configured maximum, each increase of one level creates exactly one electron with the position and weight of its parent, electrons are routed to the target species of the level that was ionized, and the summed charge of ions plus created electrons is constant.", "quantifier": "all fields/probabilities/random draws, all batches, all level assignments", "why_tests_cant": "Random outcomes and batch boundaries cannot be enumerated.", "anchors": ["fbpic/particles/elementary_process/ionization/numba_methods.py:ionize_ions_numba", "fbpic/particles/elementary_process/ionization/numba_methods.py:copy_ionized_electrons_numba", "fbpic/particles/elementary_process/ionization/ionizer.py:Ionizer.handle_ionization"]}
{"id": "C17", "title": "Ionized electrons are independent of the batch decomposition", "statement": "The set of electrons created in one ionization step is the same whatever the batch size used internally: no ion is processed twice and none is skipped, and the destination indices of new electrons are distinct and cover exactly the newly allocated slots.", "quantifier": "all particle numbers, all batch sizes, all ionization outcomes", "why_tests_cant": "Batch remainder and cumulative offsets must hold for all N modulo batch size.", "anchors": ["fbpic/particles/elementary_process/ionization/inline_functions.py:copy_ionized_electrons_batch", "fbpic/particles/elementary_process/ionization/ionizer.py:Ionizer.handle_ionization", "fbpic/particles/elementary_process/cuda_numba_utils.py:perform_cumsum_2d"]}
{"id": "C18", "title": "Compton scattering emits the right photons and is frame-consistent", "statement": "The number of photons created per electron is the integer part of probability*ratio plus a uniform draw (hence zero or more, and its mean equals probability*ratio); forward and backward Lorentz transforms used in the process are inverse to each other and preserve the invariant mass, so emitted photons are light-like in the simulation frame.", "quantifier": "all electron momenta, all photon momenta, all random draws", "why_tests_cant": "Algebraic identities over all real momenta.", "anchors": ["fbpic/particles/elementary_process/compton/numba_methods.py:determine_scatterings_numba", "fbpic/particles/elementary_process/compton/inline_functions.py:lorentz_transform"]}
{"id": "C19", "title": "Electron state stays consistent after Compton recoil", "statement": "After a scattering event the stored inverse Lorentz factor of the recoiling electron equals 1/sqrt(1+|u|^2) of its stored momentum.", "quantifier": "all scattering events", "why_tests_cant": "Only visible by comparing two redundant stored quantities after a rare event.", "anchors": ["fbpic/particles/elementary_process/compton/numba_methods.py:scatter_photons_electrons_numba"]}
{"id": "C20", "title": "GPU cell sorting groups particles and its prefix sum bounds each cell", "statement": "After sorting, the particle arrays are a permutation of the originals (all attributes moved together), particles are ordered by cell index, and for every cell the prefix-sum entries delimit exactly the particles of that cell, including empty cells at the beginning, middle and end.", "quantifier": "all particle counts and cell assignments, all grid sizes", "why_tests_cant": "Empty-cell runs at either end are prefilled by separate code; every distribution of empty cells matters.", "anchors": ["fbpic/particles/utilities/cuda_sorting.py:incl_prefix_sum", "fbpic/particles/utilities/cuda_sorting.py:prefill_prefix_sum", "fbpic/particles/utilities/cuda_sorting.py:write_sorting_buffer"]}
{"id": "C21", "title": "Thread chunks partition the particles", "statement": "For every number of particles and threads, the chunks handed to the threads are consecutive, disjoint and cover every particle exactly once, so that the deposited field does not depend on the number of threads.", "quantifier": "all particle counts (including fewer than threads), all thread counts >= 1", "why_tests_cant": "Remainder goes to the last chunk; must hold for all N mod nthreads.", "anchors": ["fbpic/utils/threading.py:get_chunk_indices", "fbpic/fields/numba_methods.py:sum_reduce_2d_array"]}
{"id": "C22", "title": "Particle shape factors form a partition of unity", "statement": "For linear and cubic shapes, at every longitudinal position the weights over the touched cells sum to one and are non-negative; radial weights sum to one for every radius, every mode-dependent Ruyten coefficient and on both sides of the axis.", "quantifier": "all real positions, all coefficients", "why_tests_cant": "Polynomial identities over the reals; corner cases at cell edges and at the axis.", "anchors": ["fbpic/particles/deposition/particle_shapes.py", "fbpic/fields/interpolation_grid.py:InterpolationGrid.__init__"]}
{"id": "C23", "title": "Charge deposition conserves total charge for any thread count", "statement": "For all particle sets, the sum over the grid of the deposited mode-0 charge (before division by cell volume) equals the sum of particle charges q*w whenever the particles are in the region where the index computation is in bounds, independently of the number of threads; guard contributions are folded back, not dropped.", "quantifier": "all particle positions in the allowed region, all weights, all thread counts, linear and cubic shapes", "why_tests_cant": "Folding of axis/outer/periodic guard cells has several special rows and columns.", "anchors": ["fbpic/particles/deposition/threading_methods.py:deposit_rho_numba_linear", "fbpic/particles/deposition/threading_methods.py:deposit_rho_numba_cubic", "fbpic/fields/numba_methods.py:sum_reduce_2d_array"]}
{"id": "C24", "title": "Deposition never writes outside its buffers", "statement": "For every particle that can be present at a deposition during a run (after at most one time step of motion beyond the last wrap or exchange), all array indices written by the charge and current deposition are inside the allocated buffers.", "quantifier": "all particle positions reachable between two exchanges, all grid sizes, linear and cubic shapes", "why_tests_cant": "Memory-safety requires bounding every reachable position; numba does not check bounds.", "anchors": ["fbpic/particles/deposition/threading_methods.py:deposit_rho_numba_cubic", "fbpic/particles/deposition/threading_methods.py:deposit_rho_numba_linear", "fbpic/main.py:Simulation.step"]}
{"id": "C25", "title": "Gathering a uniform field returns that field", "statement": "If the mode-0 longitudinal field is uniform on the grid, every particle inside the gathering radius receives exactly that value wherever it is (weights sum to one, including near the axis and at periodic ends), and gathered values are linear in the grid field.", "quantifier": "all particle positions inside the box, all grid sizes, linear and cubic shapes", "why_tests_cant": "All real positions including edges.", "anchors": ["fbpic/particles/gathering/threading_methods.py", "fbpic/particles/gathering/inline_functions.py"]}
{"id": "C26", "title": "Gathering and deposition are adjoint (no self-force bookkeeping error)", "statement": "In the bulk of the grid, the longitudinal weights used to gather a field at a particle position are identical to those used to deposit at that position, for the linear shape and for the cubic shape.", "quantifier": "all real positions", "why_tests_cant": "Two separately written formulas must agree for every position.", "anchors": ["fbpic/particles/gathering/threading_methods.py", "fbpic/particles/deposition/particle_shapes.py"]}
{"id": "C27", "title": "Momentum push is consistent and preserves energy in a magnetic field", "statement": "For every particle state and field, the momentum push returns an inverse Lorentz factor consistent with the new momentum; without fields the momentum is unchanged; with only a magnetic field |u| is unchanged; the push with reversed fields/velocities is the time-reversed push.", "quantifier": "all momenta, all fields, all time steps, all charge/mass ratios", "why_tests_cant": "Non-linear algebraic identities over all reals.", "anchors": ["fbpic/particles/push/inline_functions.py:push_p_vay", "fbpic/particles/push/numba_methods.py:push_p_numba"]}
{"id": "C28", "title": "Ionization level enters the push as the charge state", "statement": "The momentum push of an ionizable species uses level*e as charge: neutral atoms are not accelerated, and level-one ions behave as a species of charge e.", "quantifier": "all levels, fields, momenta", "why_tests_cant": "All levels and states.", "anchors": ["fbpic/particles/push/numba_methods.py:push_p_ioniz_numba"]}
{"id": "C29", "title": "Cross-deposition leaves particles and grid where they were", "statement": "The extra pushes used for the cross-deposition current correction leave every particle position, antenna position and Galilean grid position exactly as they were.", "quantifier": "all positions, momenta, time steps, Galilean velocities", "why_tests_cant": "Requires exact cancellation in all directions.", "anchors": ["fbpic/main.py:Simulation.cross_deposit", "fbpic/particles/push/numba_methods.py:push_x_numba"]}
{"id": "C30", "title": "Charge conservation holds after current correction", "statement": "After the current correction the spectral sources satisfy the discrete continuity equation (rho_next-rho_prev)/dt + div J = 0 at every wavenumber, for both correction methods, in the standard and the Galilean/comoving solver.", "quantifier": "all spectral sources and all wavenumbers including kz=0 and kr=0", "why_tests_cant": "All spectral components; the degenerate wavenumbers are special-cased in code.", "anchors": ["fbpic/fields/numba_methods.py:numba_correct_currents_curlfree_standard", "fbpic/fields/numba_methods.py:numba_correct_currents_crossdeposition_standard", "fbpic/fields/numba_methods.py:numba_correct_currents_curlfree_comoving", "fbpic/fields/numba_methods.py:numba_correct_currents_crossdeposition_comoving"]}
{"id": "C31", "title": "Gauss law is preserved by the field solver", "statement": "If div E = rho/eps0 holds before a step and the sources satisfy the discrete continuity equation, it holds after the step, hence for any number of steps, for every time step size.", "quantifier": "all fields and sources, all wavenumbers, all dt (for the Galilean/comoving solver: kz V dt not a non-zero multiple of 2 pi, always true for c dt <= 2 dz), any number of steps", "why_tests_cant": "Inductive property over the number of steps.", "anchors": ["fbpic/fields/numba_methods.py:numba_push_eb_standard", "fbpic/fields/psatd_coefs.py:PsatdCoeffs"]}
{"id": "C32", "title": "The magnetic field stays divergence free", "statement": "If div B = 0 in spectral space before a step it is 0 after it, for arbitrary currents (even not charge conserving), so for the whole run, in the standard and the comoving solver.", "quantifier": "all fields and currents, all wavenumbers, any number of steps", "why_tests_cant": "Inductive property over the number of steps.", "anchors": ["fbpic/fields/numba_methods.py:numba_push_eb_standard", "fbpic/fields/numba_methods.py:numba_push_eb_comoving"]}
{"id": "C33", "title": "Vacuum propagation is exact, energy conserving and unconditionally stable", "statement": "Without sources, one step of size dt1 followed by one of size dt2 equals one step of size dt1+dt2, a step of -dt undoes a step of dt, the electromagnetic energy of each wavenumber of a transverse field is conserved for every dt, and no field amplitude can grow with the number of steps.", "quantifier": "all fields with div E = div B = 0, all wavenumbers, all dt without CFL restriction, any number of steps", "why_tests_cant": "Stability is a statement about infinitely many steps.", "anchors": ["fbpic/fields/numba_methods.py:numba_push_eb_standard", "fbpic/fields/psatd_coefs.py:PsatdCoeffs"]}
{"id": "C34", "title": "Using the true charge density is equivalent when charge is conserved", "statement": "If Gauss law and the continuity equation hold, the field push with use_true_rho and without it give identical results, for the standard and the comoving solver.", "quantifier": "all fields and sources satisfying Gauss and continuity", "why_tests_cant": "Identity over all inputs.", "anchors": ["fbpic/fields/numba_methods.py:numba_push_eb_standard", "fbpic/fields/numba_methods.py:numba_push_eb_comoving"]}
{"id": "C35", "title": "Galilean/comoving solver reduces to the standard solver", "statement": "With comoving velocity zero the comoving push and comoving current corrections give the same result as the standard ones; in vacuum the Galilean solver equals the standard solver up to the phase of the grid motion.", "quantifier": "all fields, sources, wavenumbers and dt", "why_tests_cant": "Limit formulas are implemented in separate branches.", "anchors": ["fbpic/fields/numba_methods.py:numba_push_eb_comoving", "fbpic/fields/psatd_coefs.py:PsatdCoeffs"]}
{"id": "C36", "title": "Radial PML only absorbs", "statement": "The PML damping multiplies only PML-split and longitudinal components in the outermost radial cells by factors in (0,1], leaves all other cells and components unchanged, never increases |Ez| or |Bz|, and the regular field always stays the sum of its split parts: the non-PML part of the azimuthal components is unchanged.", "quantifier": "all field values, all PML widths >= 1, all radial sizes, all time steps", "why_tests_cant": "All fields and sizes, repeated over any number of steps.", "anchors": ["fbpic/boundaries/pml_damping.py:PMLDamper.damp_pml_EB", "fbpic/boundaries/pml_damping.py:generate_pml_damp_array"]}
{"id": "C37", "title": "Longitudinal damping absorbs only near open ends", "statement": "The damping profile applied at open boundaries is between 0 and 1, zero in the guard and injection cells, non-decreasing toward the interior, one beyond the damping region, and applied mirror-symmetrically at the right end; interior ranks and periodic runs are not damped.", "quantifier": "all numbers of guard, injection and damping cells", "why_tests_cant": "All cell counts.", "anchors": ["fbpic/boundaries/boundary_communicator.py:BoundaryCommunicator.generate_damp_array", "fbpic/boundaries/boundary_communicator.py:BoundaryCommunicator.damp_EB_open_boundary"]}
{"id": "C38", "title": "Current smoothing is a contraction that preserves total charge", "statement": "The binomial filter factor (with or without compensator, any number of passes) lies between 0 and 1 for every wavenumber, equals one at zero wavenumber, is zero at the Nyquist wavenumber when passes >= 1, and filtering commutes with the continuity equation.", "quantifier": "all pass counts, all wavenumbers, all sources", "why_tests_cant": "Bernoulli-type inequality for all exponents.", "anchors": ["fbpic/fields/smoothing.py:BinomialSmoother.get_filter_array", "fbpic/fields/numba_methods.py:numba_filter_vector"]}
{"id": "C39", "title": "Finite-order stencil coefficients are consistent for every order", "statement": "For every even order, the coefficients of the longitudinal finite-difference stencil sum to one so that the modified wavenumber agrees with the true one to first order for long waves, the modified wavenumber is odd in k, and invalid orders are rejected.", "quantifier": "all even orders", "why_tests_cant": "Infinite family of orders.", "anchors": ["fbpic/fields/utility_methods.py:get_modified_k"]}
{"id": "C40", "title": "The PIC cycle keeps positions, momenta, time and iteration in step", "statement": "Over any number of steps in any number of calls to step(), time equals the initial time plus iteration count times dt, every particle receives exactly one momentum push and two half position pushes per iteration, charge density used as \"previous\" is the \"next\" of the preceding iteration unless particles were exchanged, and the internal consistency assertions on exchanged sources never fail.", "quantifier": "all call sequences of step(N), all exchange periods, current-correction and divE options, single and multi rank", "why_tests_cant": "Interleavings of step calls with exchange periods and options.", "anchors": ["fbpic/main.py:Simulation.step", "fbpic/fields/fields.py:Fields.push", "fbpic/fields/fields.py:Fields.correct_currents"]}
{"id": "C41", "title": "Splitting a run into several calls does not change the schedule of diagnostics", "statement": "step(a) followed by step(b) writes the same diagnostics and checkpoints at the same iterations as step(a+b).", "quantifier": "all a, b, periods, iteration bounds", "why_tests_cant": "All splits of a run.", "anchors": ["fbpic/main.py:Simulation.step", "fbpic/openpmd_diag/generic_diag.py:OpenPMDDiagnostic.write"]}
{"id": "C42", "title": "Output schedule: a diagnostic is written exactly at its period within its bounds", "statement": "A diagnostic with a period writes at iteration i iff i is a multiple of the period and iteration_min <= i < iteration_max; a time period is converted to at least one iteration; passing both or none of the two period arguments is rejected.", "quantifier": "all periods, bounds, iterations", "why_tests_cant": "Decision logic over all integers.", "anchors": ["fbpic/openpmd_diag/generic_diag.py:OpenPMDDiagnostic.__init__", "fbpic/openpmd_diag/generic_diag.py:OpenPMDDiagnostic.write"]}
{"id": "C43", "title": "Checkpoint followed by restart restores the simulation state", "statement": "Fields of every azimuthal mode, particle positions, momenta, weights, Lorentz factors, ids and ionization levels that were written to a checkpoint are restored by a restart from that checkpoint, and the grid position, time and iteration are those of the checkpoint that was read.", "quantifier": "all states, all modes, all requested iterations", "why_tests_cant": "Round trip over all states; requested iteration may not match a stored one.", "anchors": ["fbpic/openpmd_diag/checkpoint_restart.py:restart_from_checkpoint", "fbpic/openpmd_diag/checkpoint_restart.py:load_fields", "fbpic/openpmd_diag/checkpoint_restart.py:load_species", "fbpic/openpmd_diag/field_diag.py:FieldDiagnostic.write_dataset"]}
{"id": "C44", "title": "Restart refuses unusable checkpoints", "statement": "A restart raises an error (and does not silently continue) when the checkpoint directory is missing, was written by a different number of processes, when the number of species differs, or when a moving window was already set.", "quantifier": "all combinations of conditions", "why_tests_cant": "Decision logic over all combinations.", "anchors": ["fbpic/openpmd_diag/checkpoint_restart.py:check_restart", "fbpic/openpmd_diag/checkpoint_restart.py:restart_from_checkpoint"]}
{"id": "C45", "title": "Back-transformed field slices land in consecutive, correct lab-frame cells", "statement": "In a boosted-frame run, the slices of a lab-frame snapshot recorded at successive iterations go to successive (decreasing) cells of the lab snapshot, each within the allocated range and at the lab position of the slice to within one cell, no cell is written twice by a rank, and flushing at any period produces the same result as flushing at any other period.", "quantifier": "all boosts, snapshot times, windows, flush periods, iterations", "why_tests_cant": "All schedules of flushes and all snapshot/window combinations.", "anchors": ["fbpic/openpmd_diag/boosted_field_diag.py:LabSnapshot.register_slice", "fbpic/openpmd_diag/boosted_field_diag.py:LabSnapshot.compact_slices", "fbpic/openpmd_diag/boosted_field_diag.py:LabSnapshot.update_current_output_positions"]}
{"id": "C46", "title": "Back-transformed field slices interpolate between the two nearest cells", "statement": "The field recorded on a slice is a convex combination of the two grid cells surrounding the slice position.", "quantifier": "all slice positions inside the physical domain of a rank", "why_tests_cant": "All real positions including the first half cell.", "anchors": ["fbpic/openpmd_diag/boosted_field_diag.py:SliceHandler.extract_slice"]}
{"id": "C47", "title": "Every particle crossing a lab-time plane is recorded exactly once", "statement": "In a boosted-frame run, a macroparticle moving slower than light crosses the plane of a lab snapshot once and is recorded in exactly one iteration, whatever its trajectory; its recorded position and time correspond to the snapshot lab time.", "quantifier": "all trajectories with speed below c, all dt, boosts, snapshot times", "why_tests_cant": "All trajectories; equality cases on the plane.", "anchors": ["fbpic/openpmd_diag/boosted_particle_diag.py:ParticleCatcher.get_particle_slice", "fbpic/openpmd_diag/boosted_particle_diag.py:ParticleCatcher.interpolate_particles_to_lab_frame"]}
{"id": "C48", "title": "Lab-frame transform of fields is the Lorentz transform", "statement": "The transform of E, B, J, rho to the lab frame is inverse to the transform to the boosted frame and preserves E.B and E^2-c^2B^2 and the four-current norm.", "quantifier": "all fields and boosts", "why_tests_cant": "Identities over all inputs.", "anchors": ["fbpic/openpmd_diag/boosted_field_diag.py:SliceHandler.transform_fields_to_lab_frame"]}
{"id": "C49", "title": "Boost converter is a consistent Lorentz transform", "statement": "Converted velocity, momentum and gamma agree with each other for every forward moving particle; speeds remain below c; momentum conversion preserves mass shell; boosted particle arrays describe the same straight world lines at boosted time zero; static lengths and densities keep their product.", "quantifier": "all velocities below c, all momenta, all gamma0 >= 1", "why_tests_cant": "Identities over all inputs; sign conventions matter.", "anchors": ["fbpic/lpa_utils/boosted_frame.py:BoostConverter"]}
{"id": "C50", "title": "External fields in a boosted frame are the transformed lab fields", "statement": "An external field of any component given in the lab frame is applied in the boosted frame with the amplitudes of the Lorentz transformed field, evaluated at the lab position and time of the particle.", "quantifier": "all six components, all amplitudes, boosts, positions and times", "why_tests_cant": "Sign of every component; two-component coupling.", "anchors": ["fbpic/lpa_utils/external_fields.py:ExternalField"]}
{"id": "C51", "title": "A mirror zeroes the fields between its start and end positions", "statement": "Applying a mirror sets the E and B fields of the selected modes to zero in the cells between z_start and z_end and leaves all other cells and modes unchanged.", "quantifier": "all mirror positions, grids, times", "why_tests_cant": "Region depends on index arithmetic for all positions.", "anchors": ["fbpic/lpa_utils/mirrors.py:Mirror.set_fields_to_zero"]}
{"id": "C52", "title": "Laser antenna is charge neutral and emits on exactly one rank", "statement": "The antenna adds no net charge at any time, deposits equal currents from both signs, and for every position inside the global domain exactly one rank deposits it; outside none does.", "quantifier": "all antenna positions, excursions, rank counts", "why_tests_cant": "All positions including sub-domain edges.", "anchors": ["fbpic/lpa_utils/laser/antenna_injection.py:LaserAntenna.update_current_rank", "fbpic/lpa_utils/laser/antenna_injection.py:LaserAntenna.deposit_virtual_particles_cpu"]}
{"id": "C53", "title": "Initial space-charge fields satisfy Maxwell's equations of the solver", "statement": "The fields added for a relativistic bunch whose spectral current equals its velocity times its charge density satisfy Gauss law and div B = 0 at every non-zero wavenumber.", "quantifier": "all charge distributions, all gamma, both directions", "why_tests_cant": "Identity over all inputs.", "anchors": ["fbpic/lpa_utils/bunch.py:get_space_charge_spect"]}
{"id": "C54", "title": "Accepted communicator parameters keep particles inside the guard region", "statement": "For every accepted choice of guard cells and exchange period, a particle travelling at the speed of light in a moving or Galilean grid cannot leave the guard region of its sub-domain between two particle exchanges; unusable combinations are rejected with an error.", "quantifier": "all guard numbers, time steps, exchange periods, trajectories below c", "why_tests_cant": "All trajectories and all parameter combinations.", "anchors": ["fbpic/boundaries/boundary_communicator.py:BoundaryCommunicator.__init__"]}
{"id": "C55", "title": "Transverse components convert to the spectral basis and back without loss", "statement": "Converting radial/azimuthal components to the +/- components and back is the identity in both orders, also when input and output share memory, and storing a complex array as two real halves and back is the identity.", "quantifier": "all field values and sizes, aliased or separate buffers", "why_tests_cant": "Aliasing depends on statement order.", "anchors": ["fbpic/fields/spectral_transform/numba_methods.py"]}
{"id": "C56", "title": "New species are loaded on exactly one rank, evenly spaced and clipped to the box", "statement": "When a species is created with given bounds, the global set of macroparticles along z is independent of the number of ranks up to the sub-domain alignment, no particle position is created twice at sub-domain edges, every particle lies in the rank's physical domain, and the spacing is the requested number per cell.", "quantifier": "all bounds, cell counts, particles per cell, ranks", "why_tests_cant": "Rounding to particle positions per rank for all bounds.", "anchors": ["fbpic/main.py:Simulation.add_new_species", "fbpic/main.py:adapt_to_grid", "fbpic/particles/injection/continuous_injection.py:generate_evenly_spaced"]}
{"id": "C57", "title": "Electron bunch helpers pass their arguments through", "statement": "The electron-bunch convenience function creates the same bunch as the general function with the electron charge and mass, for the same arguments.", "quantifier": "all arguments", "why_tests_cant": "Argument swaps are invisible when the two arguments are equal, as in the defaults.", "anchors": ["fbpic/lpa_utils/bunch.py:add_elec_bunch", "fbpic/lpa_utils/bunch.py:add_particle_bunch"]}
{"id": "C58", "title": "Divergence cleaning restores Gauss law", "statement": "When divergence correction is enabled, after it Gauss law holds at every non-zero wavenumber and no magnetic or transverse component is changed; the option works for every current-correction method.", "quantifier": "all fields, all wavenumbers, all current-correction options", "why_tests_cant": "All spectral components and option combinations.", "anchors": ["fbpic/fields/spectral_grid.py:SpectralGrid.correct_divE", "fbpic/fields/numba_methods.py:numba_correct_currents_curlfree_standard"]}
{"id": "C59", "title": "Time reversal is an involution", "statement": "Reversing time twice restores all fields and momenta, reversal negates exactly the magnetic fields and momenta, and kinetic energies are unchanged.", "quantifier": "all states", "why_tests_cant": "All states.", "anchors": ["fbpic/main.py:Simulation.reverse_time"]}
{"id": "C60", "title": "Particle selection in diagnostics keeps exactly the requested particles", "statement": "With selection rules, the particles written are exactly those satisfying every rule strictly, in their original order, all attributes staying aligned; gathering over ranks concatenates the ranks in order and loses none.", "quantifier": "all rule sets, all particle sets, all rank counts", "why_tests_cant": "All rule combinations.", "anchors": ["fbpic/openpmd_diag/particle_diag.py:ParticleDiagnostic.apply_selection", "fbpic/boundaries/boundary_communicator.py:BoundaryCommunicator.gather_ptcl_array"]}
{"id": "C61", "title": "Ballistic injection plane blocks acceleration until the plane is passed", "statement": "Particles before the injection plane keep their momentum exactly and move ballistically; particles beyond it are pushed as usual; the plane position in the simulation frame is the Lorentz transform of its fixed lab position.", "quantifier": "all positions, fields, boosts, times", "why_tests_cant": "All positions and times.", "anchors": ["fbpic/particles/injection/ballistic_before_plane.py:BallisticBeforePlane", "fbpic/particles/push/numba_methods.py:push_p_after_plane_numba"]}
{"id": "C62", "title": "A bunch carries the requested total charge", "statement": "The Gaussian bunch helpers create macroparticles whose weights are positive and sum to |Q|/e for every requested charge Q of either sign, also after removal of unphysical particles and with 4-fold symmetrization (which in addition makes the mean transverse position and momentum exactly zero).", "quantifier": "all Q of either sign, all random draws, with and without symmetrization", "why_tests_cant": "All draws, and the sign convention is only visible for negative Q.", "anchors": ["fbpic/lpa_utils/bunch.py:add_particle_bunch_gaussian", "fbpic/lpa_utils/bunch.py:add_elec_bunch_gaussian"]}
{"id": "C63", "title": "Loading a bunch from arrays distributes every particle to exactly one rank", "statement": "Every particle passed to the bunch loader whose position is inside the global physical domain is created on exactly one rank, with all its attributes, and particles outside are created on none.", "quantifier": "all particle sets, all rank counts", "why_tests_cant": "Positions exactly on sub-domain edges.", "anchors": ["fbpic/lpa_utils/bunch.py:add_particle_bunch_from_arrays"]}
{"id": "C64", "title": "The antenna emits the field of the laser profile", "statement": "The wave that a laser antenna emits in its direction of propagation has the amplitude and the polarity of the laser profile given by the user (Lorentz transformed in a boosted frame), at rest or moving at the requested velocity; an antenna asked to move does move.", "quantifier": "all profiles, antenna velocities below c, boosts, both directions of propagation", "why_tests_cant": "The existing test compares the absolute value of the fitted amplitude; a sign is invisible to it.", "anchors": ["fbpic/lpa_utils/laser/antenna_injection.py:LaserAntenna"]}
{"id": "C65", "title": "A directly injected laser is a vacuum solution moving in one direction only", "statement": "The fields put on the grid by direct injection have zero divergence of E and B and are advanced by the field solver as a wave that only propagates in the requested direction; in a boosted frame the amplitude is that of the Lorentz transformed wave; the azimuthal decomposition reproduces every profile whose azimuthal content is below the number of modes.", "quantifier": "all profiles, all wavenumbers, both directions, all boosts, all numbers of modes", "why_tests_cant": "Identity per wavenumber; the backward boosted case is never run.", "anchors": ["fbpic/lpa_utils/laser/direct_injection.py:add_laser_direct", "fbpic/lpa_utils/laser/direct_injection.py:calculate_laser_fields", "fbpic/lpa_utils/laser/direct_injection.py:get_laser_Er_Et"]}
{"id": "C66", "title": "Going to spectral space and back loses nothing the simulation uses", "statement": "Transforming a field from spectral space to the spatial grid and back reproduces it, for scalar and transverse vector fields, on CPU and GPU and with the shared work buffers; the only exception, the zero radial wavenumber of the modes m>0 for the components that vanish there, is never populated by the solver; for the mode 0 the opposite round trip is exact as well, and for all modes it is a projection.", "quantifier": "all fields, all modes, all grid sizes, both back ends, all thread schedules", "why_tests_cant": "All fields and all schedules; aliasing of the work buffers is an execution-order property.", "anchors": ["fbpic/fields/spectral_transform/spectral_transformer.py:SpectralTransformer", "fbpic/fields/spectral_transform/hankel.py:DHT", "fbpic/fields/spectral_transform/fourier.py:FFT"]}
{"id": "C67", "title": "The GPU particle exchange moves the same particles as the CPU one", "statement": "With GPU arrays, the exchange of particles between sub-domains (based on the cell-sorted order and the per-cell prefix sum, also when the sorting is one moving-window shift old) conserves every particle with all its attributes, id and ionization level, leaves each rank with the particles within half a cell of its own region, and does for the selected particles what the CPU exchange does, for every thread schedule; the particles are where this needs them with the automatic exchange period.", "quantifier": "all particle sets, rank counts, boundary types, grids, thread schedules and sort orders, window shifts since the last sort", "why_tests_cant": "No GPU in continuous integration; the prefix sum may be stale by a window shift, and the cut is on cell indices.", "anchors": ["fbpic/boundaries/particle_buffer_handling.py:remove_particles_gpu", "fbpic/boundaries/particle_buffer_handling.py:add_buffers_gpu", "fbpic/boundaries/particle_buffer_handling.py:split_particles_to_buffers", "fbpic/boundaries/particle_buffer_handling.py:copy_particles", "fbpic/particles/particles.py:sort_particles", "fbpic/boundaries/moving_window.py:move_grids"]}
{"id": "C68", "title": "Back-transformed particle snapshots do not depend on the back end", "statement": "With GPU arrays, the particles written to a lab-frame snapshot are those that crossed the output plane during the last time step, each once and with the same attributes as on the CPU, although only the cells near the plane are searched, also when the sorting is one or more moving-window shifts old.", "quantifier": "all particle sets, snapshots, times, grids, sort orders, thread schedules, window shifts since the last sort", "why_tests_cant": "No GPU in continuous integration; the set of searched cells must contain every possible crossing particle.", "anchors": ["fbpic/openpmd_diag/boosted_particle_diag.py:ParticleCatcher.get_particle_data", "fbpic/openpmd_diag/boosted_particle_diag.py:ParticleCatcher.get_particle_slice", "fbpic/openpmd_diag/cuda_methods.py:extract_slice_from_gpu"]}
{"id": "C69", "title": "A uniform plasma deposits a uniform density", "statement": "A plasma of uniform density loaded by the code (evenly spaced rings, any number of particles along z and in azimuth, any random rotation of the rings) produces, as the number of particles along r grows, exactly the density q*n (and the current q*n*v for a uniform drift along z) in every cell of mode 0 away from the edge of the plasma, including the cells at the axis, for linear and cubic shapes with the default (Ruyten) shape factors and either definition of the cell volume. In the other azimuthal modes that are not multiples of the number of particles per ring nothing at all is deposited, whatever the axisymmetric profile.", "quantifier": "All grids, shapes, cell volumes, densities, numbers of particles, ring rotations, thread counts, cells", "why_tests_cant": "Tests look at a few cells for one resolution with a tolerance; an error in the coefficient of one cell is of the order of the noise of finite particle numbers.", "anchors": ["fbpic/fields/interpolation_grid.py: InterpolationGrid.__init__, divide_by_volume", "fbpic/particles/deposition/particle_shapes.py: Sr_linear, Sr_cubic", "fbpic/particles/injection/continuous_injection.py: generate_evenly_spaced, unalign_angles"]}
{"id": "C70", "title": "Deposition on the GPU equals deposition on the CPU", "statement": "For particles within reach of the guard cells and particle arrays sorted on the current grid, every possible outcome of the depositions of charge and current on the GPU (any order of the atomic additions, any block size, any valid sort) is the array that the CPU computes with any number of threads, for all species and laser antennas; no access is out of bounds and the total charge is conserved. Whenever positions are pushed, the arrays are sorted on the current grid at each deposition of the simulation.", "quantifier": "all species, particles, antennas, azimuthal modes, both particle shapes, all grids with at least 2x2 cells, all interleavings of the threads; all sequences of calls to step", "why_tests_cant": "GPU races only show for some interleavings and hardware; tests compare CPU and GPU for a few setups, and none displaces the grid without pushing the positions.", "anchors": ["fbpic/particles/deposition/cuda_methods.py, cuda_methods_one_mode.py, cuda_methods_unsorted.py", "fbpic/particles/particles.py: Particles.deposit, sort_particles", "fbpic/lpa_utils/laser/antenna_injection.py: deposit_virtual_particles", "fbpic/main.py: Simulation.step, shift_galilean_boundaries"]}
{"id": "C71", "title": "Continuous injection goes on after a restart as if there had been none", "statement": "Over any number of runs, each restarted from a checkpoint of the one before, the plasma injected by the moving window is one uniform plasma appended to the one loaded initially: no gap, no layer created twice, the right density everywhere, as long as the front end of the plasma is not disturbed.", "quantifier": "all windows, plasma velocities, Galilean velocities, time steps, exchange periods, numbers of steps between checkpoints and numbers of restarts", "why_tests_cant": "Tests restart once, at one iteration, with the time step for which the window moves by one cell per step; the position of the window within a cell is not in the checkpoint.", "anchors": ["fbpic/particles/injection/continuous_injection.py:ContinuousInjector", "fbpic/openpmd_diag/checkpoint_restart.py:restart_from_checkpoint, load_species", "fbpic/boundaries/moving_window.py:MovingWindow", "fbpic/main.py:Simulation.step, set_moving_window"]}
{"id": "C72", "title": "Laser profiles give the documented fields", "statement": "The Gaussian (with chirp), Laguerre-Gauss, donut-like and flattened Gaussian pulses have, in their focal plane, the documented transverse and temporal profile, amplitude, polarization and carrier phase; a Gaussian pulse never exceeds a0*E0 anywhere; a chirp keeps the spectrum and only adds the requested spectral phase; pulses towards -z are mirror images of pulses towards +z; the sum of two pulses adds their fields; only a wrong direction, a negative azimuthal order and the sum of opposite pulses are refused.", "quantifier": "all parameters, positions and times", "why_tests_cant": "The identities hold between functions on the whole of space and time, for all parameters; tests fit a few profiles on a grid with a tolerance.", "anchors": ["fbpic/lpa_utils/laser/laser_profiles.py: GaussianLaser, LaguerreGaussLaser, DonutLikeLaguerreGaussLaser, FlattenedGaussianLaser, LaserProfile.__add__", "fbpic/lpa_utils/laser/transverse_laser_profiles.py", "fbpic/lpa_utils/laser/longitudinal_laser_profiles.py"]}
{"id": "C73", "title": "Laser profiles are solutions of the paraxial wave equation", "statement": "Every transverse laser profile obeys the paraxial wave equation at every point, for both directions of propagation; the flattened Gaussian profile tends far from focus to the documented super-Gaussian-like sum.", "quantifier": "all profiles, orders, waists, focal planes and positions", "why_tests_cant": "A differential equation at all points cannot be settled by sampling; out-of-focus initialisation relies on it.", "anchors": ["fbpic/lpa_utils/laser/transverse_laser_profiles.py"]}
{"id": "C74", "title": "Laser pulses have the requested energy", "statement": "The integrals that the transverse and longitudinal profiles report are those of their squared modulus at every z and time; a ParaxialApproximationLaser has the requested energy at every time; the energy of a pulse of given a0 does not depend on chirp, and is the same for all Laguerre-Gauss and donut-like orders.", "quantifier": "all profiles, parameters, focal planes, chirps and times", "why_tests_cant": "Integrals over the infinite plane and line, for every order of the polynomials.", "anchors": ["fbpic/lpa_utils/laser/laser_profiles.py: ParaxialApproximationLaser", "fbpic/lpa_utils/laser/transverse_laser_profiles.py: squared_profile_integral", "fbpic/lpa_utils/laser/longitudinal_laser_profiles.py: squared_profile_integral"]}
{"id": "C75", "title": "The few-cycle pulse is a short-pulse solution of duration tau_fwhm", "statement": "FewCycleLaser never exceeds a0*E0, obeys the wave equation in which only the second derivative along z in the frame of the pulse is neglected, its shape parameter exists for every duration, pulses of opposite direction are mirror images, and tau_fwhm is the full width at half maximum of the intensity of its envelope.", "quantifier": "all parameters, positions and times", "why_tests_cant": "A differential equation at all points; the error of the duration is of a few per cent for usual pulses, within the tolerance of tests.", "anchors": ["fbpic/lpa_utils/laser/laser_profiles.py: FewCycleLaser"]}
{"id": "C76", "title": "A laser read from a lasy file is the one recorded", "statement": "A lasy file is accepted exactly if it was written by lasy 0.3.0 or later with a known geometry; the emitted field is the recorded envelope, interpolated between the samples of the file (equal to them at the nodes), with the frequency, polarization and carrier phase of the file, starting at t_start; nothing is emitted outside of the recorded box and duration; no sample outside of the array is read and the field is never larger than the largest sample; the unit of length of the file does not matter.", "quantifier": "all files (geometry, number of modes, shape, units), positions and times", "why_tests_cant": "Tests read one file, of one geometry, in SI units.", "anchors": ["fbpic/lpa_utils/laser/laser_profiles.py: FromLasyFileLaser"]}
{"id": "C77", "title": "A field output file is the field of the simulation", "statement": "A field output file written through the communicator covers exactly the physical domain; every row belongs to one rank; a reader that follows the openPMD standard finds, for each component, at the position of the centre of each cell and at each angle, the real field whose azimuthal modes the owner of the cell holds; the densities are the sums of what all ranks have deposited; time, units and dimensions are right; requests that are not documented are refused.", "quantifier": "all decompositions, window positions, numbers of modes, lists of quantities, angles", "why_tests_cant": "Tests read back a few files of one- or two-rank runs.", "anchors": ["fbpic/openpmd_diag/field_diag.py: FieldDiagnostic", "fbpic/openpmd_diag/generic_diag.py", "fbpic/openpmd_diag/data_dict.py"]}
{"id": "C78", "title": "Diagnostics do not influence the simulation, nor each other", "statement": "Adding, removing, reordering or changing the period of diagnostics and checkpoints changes neither the particles, fields, positions and time of the simulation nor what the remaining diagnostics record, nor whether the run raises an error.", "quantifier": "all scripts of calls of step, options, lists of diagnostics of all types (fields, densities, particles, boosted frame), periods, and whatever the steps of the cycle compute", "why_tests_cant": "Diagnostics use the arrays of the simulation as working space (they deposit densities into rho_next, bring rho and J back to the interpolation grid, exchange guard cells); tests run one list of diagnostics and compare nothing with a run without them.", "anchors": ["fbpic/main.py: Simulation.step", "fbpic/openpmd_diag/field_diag.py, particle_density_diag.py, particle_diag.py, boosted_field_diag.py, boosted_particle_diag.py", "fbpic/fields/fields.py: Fields"]}
{"id": "C79", "title": "The arrays of the spectral grid stand for smooth fields in the cylinder", "statement": "The arrays of each azimuthal mode stand for a field defined at every point of the cylinder: its values at the centres of the cells are those on the interpolation grid, divergence, curl and gradient in spectral space are the true ones of this field in cylindrical coordinates (along z with the derivative, exact or finite-difference, that n_order selects), scalars and longitudinal components vanish on the wall, and different arrays are different fields.", "quantifier": "all modes, numbers of cells, box sizes, arrays, positions and angles, all n_order", "why_tests_cant": "Derivatives of Bessel series at all points, for every mode and number of cells; tests compare a few samples with a tolerance.", "anchors": ["fbpic/fields/spectral_transform/hankel.py: DHT", "fbpic/fields/spectral_transform/spectral_transformer.py", "fbpic/fields/spectral_grid.py", "fbpic/fields/fields.py: Fields.__init__"]}
{"id": "C80", "title": "Maxwell's equations and charge conservation in physical space", "statement": "A push of the fields is, at every point of the cylinder, the exact solution over one time step of Maxwell's equations with the current of the scheme (standard, Galilean or comoving); after the current correction the charge is conserved at every point; if Gauss's law and div B = 0 hold at every point before the push they hold after it.", "quantifier": "all modes, fields, currents, charge densities, time steps, n_order, Galilean and comoving velocities off the resonance", "why_tests_cant": "Partial differential equations at all points of space and over continuous time.", "anchors": ["fbpic/fields/spectral_grid.py: push_eb_with, correct_currents", "fbpic/fields/numba_methods.py", "fbpic/fields/psatd_coefs.py"]}
{"id": "C81", "title": "The density on the grid integrates to the deposited charge", "statement": "The integral over the cylinder of the density, defined at every point by its mode 0, equals the sum over the cells of the array times the volume used to divide the deposited charge: the total charge and the total current of the particles, whatever the shape. Without the modified volume, and in the other modes, the volume of a cell is that of its ring.", "quantifier": "all deposited charges, numbers of cells and box sizes", "why_tests_cant": "The integral is over the continuous field that the solver uses, and the identity is one between Bessel functions.", "anchors": ["fbpic/fields/interpolation_grid.py: InterpolationGrid", "fbpic/fields/spectral_transform/hankel.py", "fbpic/fields/fields.py: divide_by_volume"]}
{"id": "C82", "title": "The ionization probability is the ADK one, in every frame", "statement": "For every element shipped with the code (and for no other string), every level, momentum and field, an ion is ionized in one time step with probability 1 - exp(-W dtau), where W is the published ADK rate for the listed ionization energy and the field in the rest frame of the ion, and dtau the proper time elapsed. The probability is in [0, 1), vanishes exactly without field, is the same seen from any frame moving along z, and over any number of steps the probability that the ion stays at its level is exp(- sum of W dtau), whatever the time step. The energies returned do not depend on what was requested before.", "quantifier": "all elements (all strings), levels, momenta, fields, time steps, frames, numbers of steps, draws of the other ions, histories of the cache", "why_tests_cant": "A probability over all draws and a formula with real powers and gamma functions over all fields and momenta; tests compare a few mean levels with a statistical tolerance.", "anchors": ["fbpic/particles/elementary_process/ionization/ionizer.py: Ionizer.initialize_ADK_parameters", "fbpic/particles/elementary_process/ionization/inline_functions.py: get_E_amplitude, get_ionization_probability", "fbpic/particles/elementary_process/ionization/read_atomic_data.py", "fbpic/particles/elementary_process/ionization/atomic_data.txt"]}
{"id": "C83", "title": "A simulation described through PICMI is the one that FBPIC runs", "statement": "A PICMI script describes grid, time step, boundaries, lasers, species, ionization, diagnostics and applied fields. Whatever the description, either it is refused or FBPIC runs what it says: with a given cfl the time step obeys the Courant condition of the grid that is really used, in the lab frame and in a boosted frame; the laser has the wavelength, phase and direction described; species have the density, momentum, charge, mass and, for bunches, the transverse moments described; ionizable species ionize; all MPI ranks write the requested fields in the same order; applied fields act with their values in the frame of the simulation.", "quantifier": "all descriptions (numbers, optional arguments left out or given), orders of the calls that add species and interactions, orders of iteration over a Python set, Lorentz factors of the boost", "why_tests_cant": "The combinations of optional arguments and call orders are unbounded and most mistakes are silent: the simulation runs, with other physics; the only test checks that one script does not crash.", "anchors": ["fbpic/picmi/simulation.py: Simulation.init, add_laser, add_species, _add_species_generic, _create_new_fbpic_species, add_diagnostic, add_applied_field", "fbpic/boundaries/particle_buffer_handling.py: remove_particles_gpu", "fbpic/particles/particles.py: make_ionizable, track"]}
{"id": "C84", "title": "Turning a simulation around the axis turns its result", "statement": "If all particles, momenta, fields and external fields are turned around the axis by an angle, any sequence of calls to step does the same thing, turned by this angle: every particle ends at the turned position with the turned momentum, and every field at the angle theta + a equals the original one at theta.", "quantifier": "all angles, configurations (modes, shapes, species, schemes, corrections, filters), initial states, sequences of calls and options", "why_tests_cant": "A relation between two whole runs, for a continuum of angles and unboundedly many steps; it fails only for particles exactly on the axis, which random tests do not contain.", "anchors": ["fbpic/main.py: Simulation.step, Simulation.deposit", "fbpic/particles/particles.py", "fbpic/particles/deposition/threading_methods.py", "fbpic/particles/gathering/threading_methods.py"]}
{"id": "C85", "title": "Reversing all charges reverses the fields and keeps the trajectories", "statement": "If the sign of all charges is reversed, with the same positions, momenta and weights, and all fields and external fields are reversed, any sequence of calls to step gives the same trajectories and opposite fields, in spectral space too.", "quantifier": "all configurations, initial states, external fields, sequences of calls and options, ionizable and ballistic species included", "why_tests_cant": "A relation between two whole runs over unboundedly many steps.", "anchors": ["fbpic/main.py: Simulation.step, Simulation.deposit", "fbpic/particles/particles.py: push_p, gather, deposit"]}
{"id": "C86", "title": "A displaced simulation gives the displaced result", "statement": "If the box, all particles, the planes of ballistic injection and the external fields are displaced along z, any sequence of calls to step gives the same arrays of fields and the displaced particles (also when particles are wrapped around the periodic box and when the grid moves with the Galilean frame).", "quantifier": "all displacements, configurations, initial states, sequences of calls and options", "why_tests_cant": "A relation between two whole runs for a continuum of displacements.", "anchors": ["fbpic/main.py: Simulation.step, shift_galilean_boundaries", "fbpic/boundaries/particle_buffer_handling.py: shift_particles_periodic_subdomain", "fbpic/particles/particles.py"]}
{"id": "C87", "title": "A run never raises and never leaves its arrays", "statement": "In a periodic box on one process, whatever the fields, a run neither raises an exception nor reads or writes an array out of its bounds, for any number of steps: particles that are at most one box length outside are brought back, and no particle gets further from the grid within a step than the deposition supports.", "quantifier": "all configurations with consistent grid and time step, initial states, fields, sequences of calls and options", "why_tests_cant": "For every field and every number of steps; the numba kernels do not check bounds, so a failure is silent memory corruption.", "anchors": ["fbpic/main.py: Simulation.step", "fbpic/particles/deposition/threading_methods.py", "fbpic/particles/gathering/threading_methods.py", "fbpic/boundaries/particle_buffer_handling.py"]}
{"id": "C88", "title": "The result depends on the cloud of particles only, not on the macroparticles or the threads", "statement": "If the macroparticles of a species are put in another order, or split and merged at the same position and momentum without changing the total weight there, and with any number of threads, any sequence of calls to step gives the same fields and the same clouds of particles.", "quantifier": "all configurations, initial states, sets of macroparticles with the same weights in phase space, numbers of threads, sequences of calls and options", "why_tests_cant": "A relation between two whole runs over all representations of a cloud; sorting, exchange and the partition between threads change the order at every step.", "anchors": ["fbpic/main.py: Simulation.step, Simulation.deposit", "fbpic/particles/particles.py: deposit, gather, push_p, push_x", "fbpic/particles/deposition/threading_methods.py"]}
{"id": "C89", "title": "Tracers and neutral particles do not influence a run", "statement": "Adding tracer species or neutral species, or leaving out some of their particles, changes neither the fields nor any other particle, after any sequence of calls to step.", "quantifier": "all configurations, initial states, added species, sequences of calls and options", "why_tests_cant": "A relation between two whole runs; any stage that forgets to skip the species changes the result only slightly.", "anchors": ["fbpic/main.py: Simulation.step, Simulation.deposit", "fbpic/particles/particles.py: is_tracer, deposit, gather, push_p"]}
{"id": "C90", "title": "A symmetric state stays symmetric and the other modes stay zero", "statement": "If fields, external fields and clouds of particles are unchanged by one n-th of a revolution around the axis, they remain so in any sequence of calls to step, and the fields of all azimuthal modes that are not multiples of n are exactly zero. In particular a plasma loaded with n evenly spaced particles per ring, without laser, excites no mode between 1 and n-1.", "quantifier": "all n, configurations, symmetric initial states, sequences of calls and options, as long as no particle sits exactly on the axis", "why_tests_cant": "For every symmetry and unboundedly many steps; in finite precision the statement is only approximate.", "anchors": ["fbpic/main.py: Simulation.step", "fbpic/particles/deposition/threading_methods.py", "fbpic/fields/fields.py"]}
{"id": "C91", "title": "Gauss' law and the absence of magnetic charges persist over whole runs", "statement": "In a periodic box, if the charge deposited by the particles and the electric field on the grid satisfy div E = rho/epsilon_0 at the beginning, they do so after any sequence of calls to step that correct the currents or the divergence of E, for both kinds of current correction, with or without filter, in any frame. A call with correct_divE=True of at least one step establishes it from any fields. div B = 0 is kept by every run. With cross-deposition this needs that the longitudinal wavenumbers vanish only at zero or where the filter removes everything.", "quantifier": "all configurations of the solver without resonance, particles slower than light that cross at most half a cell or one cell per step, initial fields, sequences of calls and options", "why_tests_cant": "An invariant of unboundedly many steps that involves particles, deposition, wrapping, filter, transforms in both directions, current correction and field push at once.", "anchors": ["fbpic/main.py: Simulation.step, Simulation.deposit, Simulation.cross_deposit", "fbpic/fields/fields.py", "fbpic/fields/spectral_grid.py", "fbpic/boundaries/particle_buffer_handling.py: remove_outside_particles, shift_particles_periodic_subdomain"]}
{"id": "C92", "title": "A run can be interrupted and resumed, and depends only on what is stored", "statement": "In a periodic box with one process, the results of calls to step depend only on the position of the grid, the time and iteration, the particles (positions, momenta, weights) and the fields E and B on the interpolation grid; the values left in the spectral grids, in J and rho, and in the field arrays of the particles have no effect. Making the same iterations in one call or in several, with empty calls between them, leads to exactly the same particles, fields, currents, charge density, time and iteration, or to an exception in both cases.", "quantifier": "all states, configurations with particles exchanged at every step, options, numbers of iterations and ways to divide them into calls", "why_tests_cant": "The division of a run into calls adds an exchange of particles, a deposition of the current, and round trips of the fields through the transforms, which are not invertible for the modes m > 0; whether all this is without effect is a relation between two programs over unboundedly many steps.", "anchors": ["fbpic/main.py: Simulation.step", "fbpic/fields/fields.py", "fbpic/fields/spectral_transform", "fbpic/openpmd_diag/checkpoint_restart.py"]}
{"id": "C93", "title": "One iteration is the leap-frog PIC cycle of the textbooks", "statement": "In a periodic box with one process, one iteration does the following. Every particle is brought into the box by whole periods; its momentum, known half a step before, is advanced by a whole step by the equation of motion with the fields at its position (those of the grid, interpolated, plus the external ones); its position is advanced by a whole step with the new velocity; weight and level are kept. The charge density is the one that the particles deposit at the end of the step, the current density the one that they deposit at the middle of the step, smoothed and corrected by a gradient such that the charge is conserved. E and B are the exact solution at the end of the step of Maxwell's equations with this current, from their values at the beginning; with correct_divE a gradient is added to E so that Gauss' law holds. After N iterations the time has advanced by N dt, the iteration number by N, and the grid by N dt V (Galilean) or not at all.", "quantifier": "all configurations (modes, shapes, threads, corrections, filters, schemes, external fields), options of step, states, and particles; for the fields, wavenumbers at which the coefficients are defined", "why_tests_cant": "The times at which each quantity is known are spread over half pushes, exchanges and depositions in one long function; a test compares with an analytical solution to a few percent, which a field gathered or a current deposited half a step too early also passes.", "anchors": ["fbpic/main.py: Simulation.step, deposit, cross_deposit", "fbpic/particles/particles.py", "fbpic/fields/fields.py", "fbpic/fields/spectral_grid.py"]}
{"id": "C94", "title": "One iteration with open boundaries, moving window, lasers and mirrors", "statement": "With one process, one iteration does the following. When particles are exchanged, those beyond the guard cells are removed (in a periodic box all are wrapped), the plasma waiting at the front of the moving window is added, and each laser antenna emits from then on exactly if its plane is in the box; otherwise the particles stay. Each particle makes one leap-frog step with the fields of the beginning. The virtual particles of the antennas swing in the field of the laser at the middle of the step. Charge and current are those of particles and emitting antennas, at the end and at the middle of the step. The fields are the exact solution of Maxwell's equations with these sources, moved by the number of cells by which the window moves, multiplied by the damping profile of the open boundaries, and zero in the mirrors. The window advances with its velocity and the grid follows within one cell, however long the run is. Before each call the fields are damped once more.", "quantifier": "all configurations with one process and no PML (guard, damping and injection cells, exchange period, mirrors, antennas, window, Galilean frame, corrections, filters), options of step, states and numbers of iterations", "why_tests_cant": "It is a statement about the composition of all stages for every state; a stage done in the wrong order (moving the window before the push of the fields, damping before the move, updating the antenna after the deposition) changes the physics by a small amount that no test threshold sees.", "anchors": ["fbpic/main.py: Simulation.step, exchange_and_damp_EB, shift_galilean_boundaries", "fbpic/boundaries/boundary_communicator.py", "fbpic/boundaries/moving_window.py", "fbpic/boundaries/particle_buffer_handling.py", "fbpic/lpa_utils/mirrors.py", "fbpic/lpa_utils/laser/antenna_injection.py", "fbpic/particles/injection/continuous_injection.py"]}
{"id": "C95", "title": "A simulation with open boundaries never leaves its arrays", "statement": "With one process and open boundaries in z, every run completes: no particle and no virtual particle of a laser antenna is ever outside of the grid when it deposits or gathers, and after at least one iteration everything that carries charge is between the ends of the grid. This holds with or without moving window, continuous injection, Galilean frame, cross-deposition, antennas and mirrors, for every list of calls and wherever the particles are at the beginning, if the exchange period satisfies exchange_period * 2 c dt <= (n_guard/2 - 3) dz, and the period that the code chooses satisfies this.", "quantifier": "all configurations with one process, states with a grid in its place, injected plasma that is not faster than the window, lists of calls, fields and momenta", "why_tests_cant": "An access out of bounds in a compiled kernel corrupts memory silently, and happens only for the fastest particles just before an exchange, after the window has moved, with injected layers waiting: a state that tests do not visit.", "anchors": ["fbpic/main.py:Simulation.step", "fbpic/boundaries/boundary_communicator.py:BoundaryCommunicator", "fbpic/boundaries/particle_buffer_handling.py:remove_outside_particles", "fbpic/boundaries/moving_window.py:MovingWindow.move_grids", "fbpic/particles/injection/continuous_injection.py:ContinuousInjector", "fbpic/lpa_utils/laser/antenna_injection.py:LaserAntenna"]}
{"id": "C96", "title": "The moving window always meets plasma, without gaps", "statement": "With one process and a moving window, over any sequence of calls to step, the plasma that a continuously injected species receives continues the plasma of the beginning: seen in the frame of the plasma all layers have the same spacing and the prescribed weights, without gaps and overlaps, across exchanges and calls. In every iteration there is plasma up to the end of the physical domain and of the damping region, and it is never created further ahead than the injection plane.", "quantifier": "all configurations with one process and open boundaries, plasmas (spacing, density, velocity up to that of the window) that end inside of the physical domain at the beginning, lists of calls and options", "why_tests_cant": "The bookkeeping of the injection is spread over the start of each call, the move of the window in each iteration and the exchange in some of them; a missing layer, or a front of the domain without plasma for some iterations, is not visible in the results of a test.", "anchors": ["fbpic/main.py:Simulation.step, Simulation.add_new_species", "fbpic/particles/injection/continuous_injection.py:ContinuousInjector", "fbpic/boundaries/moving_window.py:MovingWindow.move_grids", "fbpic/boundaries/boundary_communicator.py:BoundaryCommunicator.exchange_particles"]}
{"id": "C97", "title": "The axisymmetric mode stays real", "statement": "In a periodic box with one process, if the azimuthal mode 0 of all fields is real on the grid at the beginning (as it is when all fields are zero), then it is real after every iteration of every sequence of calls to step. The mode 0 is the mean over the azimuth of a real field; diagnostics and checkpoints store only its real part, so nothing is lost.", "quantifier": "all configurations (shapes, threads, corrections, smoothers, schemes, comoving currents), states, options and lists of calls", "why_tests_cant": "It rests on a symmetry in kz between opposite rows of the spectral coefficients of all stages; the row at the Nyquist frequency is its own opposite, and a test with fields at wavelengths well above the grid spacing never excites it.", "anchors": ["fbpic/fields/spectral_grid.py: SpectralGrid", "fbpic/fields/psatd_coefs.py", "fbpic/fields/utility_methods.py: get_modified_k", "fbpic/openpmd_diag/checkpoint_restart.py", "fbpic/main.py:Simulation.step"]}
{"id": "C98", "title": "Without charges, light propagates exactly over whole runs", "statement": "In a periodic box with one process, without charged particles and with fields whose divergence vanishes, the fields after any sequence of calls to step are the exact solution of Maxwell's equations in vacuum at the time (number of iterations) * dt from the fields at the beginning, in each mode and at each wavenumber: no dispersion, no growth and no damping, for any time step. The energy at each wavenumber is conserved.", "quantifier": "all configurations (modes, corrections of the current and of E, use_true_rho, cross-deposition, Galilean frame), lists of calls and options, transverse initial fields, wavenumbers with k^2 != 0 as well as k = 0", "why_tests_cant": "A test measures the phase and the amplitude of one pulse after some number of steps with a tolerance; exactness after any number of iterations, with the fields transformed to the grid and back in each, for every wavenumber is not measurable.", "anchors": ["fbpic/main.py:Simulation.step", "fbpic/fields/spectral_grid.py:SpectralGrid.push_eb_with, correct_currents, correct_divE", "fbpic/fields/psatd_coefs.py:PsatdCoeffs"]}
{"id": "C99", "title": "Crashes and restarts do not change the result of a run", "statement": "In a periodic box with one process that writes checkpoints, a run may be interrupted any number of times at any moment: between two iterations, by an exception, or while a checkpoint is being written. After each crash the same script sets up the simulation again, restart_from_checkpoint fills it from the last checkpoint or from one that is asked for, and the remaining iterations are made, in any number of calls, writing checkpoints again. The run then ends with the same fields, particles, time and iteration as the run that was never interrupted. Every checkpoint that was completed can be used, an incomplete one is refused, and at most one period of iterations is lost.", "quantifier": "all configurations and states in which the particles are exchanged at every step and mode 0 stays real, all histories of crashes and restarts, positions of the crash (including inside of the writing of a checkpoint), periods, requests, and ways to divide the iterations into calls", "why_tests_cant": "The crash points, the files left by earlier attempts and the choices of the user give unboundedly many histories; a test restarts once, after a clean end.", "anchors": ["fbpic/openpmd_diag/checkpoint_restart.py: set_periodic_checkpoint, restart_from_checkpoint, load_fields, load_species", "fbpic/openpmd_diag/field_diag.py: write_hdf5, create_file_empty_meshes", "fbpic/openpmd_diag/particle_diag.py: write_hdf5", "fbpic/main.py: Simulation.step"]}
{"id": "C100", "title": "Field ionization over whole runs conserves charge and Gauss' law", "statement": "In a periodic box with one process and any number of ionizable species, whose electrons go to one species or to one per level, a run never raises an exception. In each step exactly those ions go up one level that are below the maximal level and whose random number is smaller than the ADK probability; each releases one electron with its position, momentum and weight into the species for its level. The deposited charge and current densities are the same before and after ionization, the total charge never changes, the number of macroparticles grows exactly by the number of released electrons, levels never decrease nor exceed the maximum, and Gauss' law holds at the end of every run that corrects the currents if it holds at the beginning.", "quantifier": "all configurations of the assembled cycle, ionizable species and targets (electrons that have the particle shape of the ions and are tracers iff the ions are), random numbers, contents of uninitialised memory, lists of calls and options, both current corrections", "why_tests_cant": "The random numbers decide which ions are ionized in which iteration, the arrays are reallocated at each step from uninitialised memory and the species refer to each other; a test sees one sequence of random numbers and the final spectrum.", "anchors": ["fbpic/main.py:Simulation.step", "fbpic/particles/particles.py:Particles.make_ionizable, handle_elementary_processes", "fbpic/particles/elementary_process/ionization/ionizer.py:Ionizer.handle_ionization", "fbpic/particles/elementary_process/ionization/numba_methods.py:ionize_ions_numba, copy_ionized_electrons_numba"]}
{"id": "C101", "title": "The number of processes changes neither the deposited charge and current nor the gathered fields", "statement": "Take the same simulation once on one process and once on n processes, with open or periodic boundaries. As long as each particle, with its shape, is inside the cells stored by its process (which the automatically chosen exchange period ensures between two exchanges), the charge density and the current density after deposition and exchange of the guard cells have, in every cell stored by every process, including guard cells, exactly the value of the single process, for all modes and components. If the cells owned by the processes hold the fields of the single process, every particle gathers after the exchange of the guard cells exactly the field it gathers on the single process.", "quantifier": "all domain sizes, numbers of processes, guard and damping cells, boundary conditions, numbers of modes and threads, shapes, particles and their distribution over the processes, all field arrays", "why_tests_cant": "A run on several processes is compared with a run on one at most for one domain, one number of processes and up to a tolerance; a wrong guard cell or a particle counted twice at a sub-domain edge is visible only for particles near that edge.", "anchors": ["fbpic/main.py:Simulation.deposit, Simulation.step", "fbpic/boundaries/boundary_communicator.py:BoundaryCommunicator.divide_into_domain, exchange_fields", "fbpic/particles/particles.py:Particles.deposit, Particles.gather", "fbpic/fields/fields.py:Fields.sum_reduce_deposition_array, divide_by_volume"]}
{"id": "C102", "title": "Threads and GPU: every parallel loop gives exactly the result of the sequential code", "statement": "The loops over cells and particles are executed by CPU threads or by GPU threads in an order that nobody controls. For the field push, the PML push, the push of the charge density, both current corrections, the smoothing, the push of positions and momenta (with a ballistic plane, or with ionizable species), the gathering of E and B, erasing and dividing by the volume, the filling of the send buffers and the addition or replacement of received guard cells, the damping at the open ends and in the PML, the deposition of charge and current on CPU threads (erasing, all species, reduction), the ionization in batches and the copy of the electrons into the target species, the shift of the fields with the moving window: every interleaving of the threads, whatever their local variables contain at the start, ends with the same arrays, which are those of the sequential CPU code, on the GPU as on the CPU. Every cell and particle is handled by exactly one thread.", "quantifier": "all grids, numbers of particles, threads and blocks, all schedules (interleavings of the statements of all threads), all contents of uninitialised local variables, all options of each kernel, number of modes, shapes", "why_tests_cant": "A race depends on the timing: a test run on one machine may never see it, and the GPU kernels are not run at all by tests without a GPU.", "anchors": ["fbpic/utils/cuda.py: cuda_tpb_bpg_1d, cuda_tpb_bpg_2d", "fbpic/utils/threading.py: prange, get_chunk_indices", "fbpic/fields/numba_methods.py", "fbpic/fields/cuda_methods.py", "fbpic/particles/push/numba_methods.py", "fbpic/particles/push/cuda_methods.py", "fbpic/particles/gathering/threading_methods.py", "fbpic/particles/gathering/cuda_methods.py", "fbpic/boundaries/cuda_methods.py", "fbpic/boundaries/boundary_communicator.py: damp_EB_open_boundary", "fbpic/boundaries/pml_damping.py", "fbpic/boundaries/moving_window.py: shift_spect_array_cpu, shift_spect_array_gpu", "fbpic/particles/deposition/threading_methods.py", "fbpic/particles/elementary_process/ionization/numba_methods.py", "fbpic/particles/elementary_process/ionization/cuda_methods.py"]}
{"id": "C103", "title": "The result does not depend on the system of units, and obeys the scaling law of plasmas", "statement": "If all the lengths, times, charges, masses and weights that are given to a simulation, and the constants of nature, are multiplied by constant factors according to their dimensions, then the arrays that the constructor computes (volumes, shape coefficients, Hankel matrices, wavenumbers, filters) change by the corresponding factors, and every sequence of calls to step finishes exactly if it did before, with the same momenta, and with positions, fields, charge and current densities and time multiplied by the factors of their dimensions. In particular, without a change of the constants of nature or of the particles: a box that is larger by the factor l, with the density divided by l^2, gives the same motion with fields divided by l. The frame of the Galilean or comoving solver moves at less than the velocity of light.", "quantifier": "all factors, grids, numbers of modes, particles and species, shapes, solvers (standard, Galilean, comoving), current corrections, options, external fields, numbers of steps and calls", "why_tests_cant": "Tests run one case in SI units. A missing factor, a threshold or a default value with a dimension changes the result only at other scales.", "anchors": ["fbpic/main.py: Simulation.step", "fbpic/fields/psatd_coefs.py: PsatdCoeffs", "fbpic/fields/interpolation_grid.py: InterpolationGrid", "fbpic/fields/spectral_transform/hankel.py: DHT", "fbpic/fields/smoothing.py: BinomialSmoother", "fbpic/fields/utility_methods.py: get_modified_k", "fbpic/particles/push/numba_methods.py", "fbpic/particles/deposition/threading_methods.py", "fbpic/particles/gathering/threading_methods.py"]}
{"id": "C104", "title": "Scattered photons follow the Klein-Nishina law, in every frame", "statement": "The probability that an electron scatters a photon of the laser during a step is 1 - exp(-sigma n c dtau) with the total Klein-Nishina cross section at the photon energy, the photon density and the proper time of the rest frame of the electron. The cosine of the scattering angle in that frame follows the Klein-Nishina law exactly, and the loop that draws it ends with probability one. The photons of the pulse, counted in space at any time and in any boosted frame, are the energy of the pulse divided by that of one photon; the density changes between frames like the photon momentum, and the pulse moves with the photons. The probability does not depend on the frame of the simulation. The electron recoils with the probability of the scattering, whatever the ratio of the weights.", "quantifier": "all momenta of electron and photon, densities, durations, energies, wavelengths, waists, boosts, ratios of weights; for the angle the distribution over all infinite sequences of independent uniform random numbers", "why_tests_cant": "A distribution can be tested only up to statistical noise and at a few energies; the end of a rejection loop with probability one is not testable, and a wrong envelope of the rejection method shows only at energies where it is exceeded.", "anchors": ["fbpic/particles/elementary_process/compton/compton.py: ComptonScatterer", "fbpic/particles/elementary_process/compton/inline_functions.py: get_scattering_probability, get_photon_density_gaussian", "fbpic/particles/elementary_process/compton/numba_methods.py: determine_scatterings_numba, scatter_photons_electrons_numba"]}
{"id": "C105", "title": "A run with Compton scattering conserves the electrons, moves the photons in straight lines and keeps Gauss' law", "statement": "In a simulation in which species of electrons scatter on a laser pulse (activate_compton), for all random numbers: the run raises no exception; the charged species keep their macroparticles and weights; each scattering adds to the target species one photon at the position of its electron, with the weight of the electron divided by ratio_w_electron_photon, and nothing else is added or changed; photons move in straight lines at the speed of light; the total charge is constant; with the curl-free correction Gauss' law on the grid is kept although electrons recoil in the middle of an iteration. activate_compton accepts exactly the neutral targets with a ratio of at least 1. Electrons should never be faster than light.", "quantifier": "all sizes, species and scatterers, all initial states within a box length of the periodic box, all sequences of calls to step, all random numbers and uninitialised memory", "why_tests_cant": "The photons are written by batches into arrays allocated from a cumulated count, in the middle of an iteration whose depositions must see consistent positions; a test sees one sequence of random numbers.", "anchors": ["fbpic/particles/elementary_process/compton/compton.py:ComptonScatterer.handle_scattering", "fbpic/particles/elementary_process/compton/numba_methods.py:scatter_photons_electrons_numba", "fbpic/particles/particles.py:Particles.handle_elementary_processes", "fbpic/particles/particles.py:Particles.activate_compton", "fbpic/main.py:Simulation.step"]}
{"id": "C106", "title": "A run on the GPU gives the result of the run on the CPU", "statement": "For any sequence of calls to step of a periodic simulation, the run on the GPU (kernels with one thread per cell or particle, sorting of the particles, deposition cell by cell from the prefix sum, transforms with flattened arrays) ends with the same fields on the interpolation and spectral grids and the same macroparticles (position, momentum, weight, level) as the run on the CPU, up to the order of the particles, whatever the order of the threads, of the sums and of equal keys in the sorting. When the diagnostics are written, the fields on the charged particles are those of the CPU too. The arrays of the fields on the particles should belong to the particles at the same index at any time.", "quantifier": "all sizes, shapes, modes, species, fields, external fields, options, current corrections, sequences of calls, all orders of threads and all results of a sorting with equal keys, any subset of species sorted by the diagnostics", "why_tests_cant": "The GPU code reorders the particles at each deposition and reuses the order as long as a flag says so, in a cycle with wraps, pushes and frame shifts in between; a test compares one run with rounding noise.", "anchors": ["fbpic/main.py:Simulation.step", "fbpic/main.py:Simulation.deposit", "fbpic/main.py:Simulation.cross_deposit", "fbpic/particles/particles.py:Particles.sort_particles", "fbpic/particles/particles.py:Particles.rearrange_particle_arrays", "fbpic/particles/particles.py:Particles.deposit", "fbpic/particles/particles.py:Particles.push_x", "fbpic/particles/utilities/cuda_sorting.py:incl_prefix_sum", "fbpic/particles/deposition/cuda_methods.py:deposit_rho_gpu_linear"]}
{"id": "C107", "title": "A laser pulse put on the grid propagates exactly and in its direction over whole runs", "statement": "add_laser_pulse with method='direct' adds to the fields of the simulation, at each wavenumber of each mode, a field without divergence whose transverse part is the smoothed profile, and touches nothing else. In a simulation without charged particles the pulse then propagates as in vacuum: after any calls to step with N iterations the fields are those of the same run without the pulse plus the added field times exp(-i omega N dt), with omega^2 = c^2 (kz^2 + kr^2) and the phase velocity in the direction propag_direction, without loss of energy, on fixed and Galilean grids (at the wavenumbers with kz different from 0; see C65 for kz = 0).", "quantifier": "all profiles, boosts, grids, numbers of modes, time steps, sequences of calls and options, fields already on the grid without divergence at the wavenumber", "why_tests_cant": "Tests propagate one Gaussian pulse in one geometry and compare within a tolerance; the transforms on the grid, the azimuthal decomposition, the smoother and the solver all have to agree for every profile.", "anchors": ["fbpic/lpa_utils/laser/laser.py:add_laser_pulse", "fbpic/lpa_utils/laser/direct_injection.py:add_laser_direct", "fbpic/lpa_utils/laser/direct_injection.py:get_laser_Er_Et", "fbpic/lpa_utils/laser/direct_injection.py:calculate_laser_fields", "fbpic/main.py:Simulation.step"]}
{"id": "C108", "title": "Reflecting a simulation in a plane through the axis reflects its result", "statement": "If the positions, momenta, fields and external fields of a simulation are replaced by their reflections in the plane y = 0 (the magnetic field as an axial vector), any calls to step that succeed before succeed after, and lead to the reflected fields and particles, also for particles on the axis. A symmetric simulation stays symmetric, whatever the order of the macroparticles: each component of the fields stays even or odd in the angle, and particles that move in the plane never leave it.", "quantifier": "all grids, numbers of modes, species and particles, shapes, solvers (standard, Galilean, comoving), current corrections, orders of the stencil, smoothers, external fields, options, numbers of steps and calls", "why_tests_cant": "A test can compare a few reflected runs only up to rounding; the code stores complex azimuthal modes and no component along y, so that every sign in the deposition, gathering, transforms and solver has to agree, also at wavenumbers that a test does not excite.", "anchors": ["fbpic/main.py: Simulation.step", "fbpic/particles/deposition/threading_methods.py", "fbpic/particles/gathering/threading_methods.py", "fbpic/fields/spectral_transform/spectral_transformer.py: SpectralTransformer", "fbpic/fields/numba_methods.py", "fbpic/fields/spectral_grid.py: SpectralGrid", "fbpic/fields/utility_methods.py: get_modified_k"]}
{"id": "C109", "title": "A run with open boundaries depends only on what is stored, and may be divided into several calls", "statement": "In a run with open boundaries, moving window, continuous injection, antennas and mirrors, the result of any calls to step depends only on the position of the grid and of the window, the injectors, the antennas, the time, the particles and the fields E and B on the grid, never on what the other arrays hold. Interrupting a run and continuing it with another call gives the same particles and fields as one call.", "quantifier": "all grids, exchange periods, species, particles, injectors, antennas, mirrors, frames, options, numbers of steps and of calls, contents of the spectral grids, of J, rho and of the fields on the particles", "why_tests_cant": "A test can compare only a few divisions of a few runs; whether stale arrays are read depends on the iteration at which the call ends relative to the exchange period, on the window and on the fields in the damping cells.", "anchors": ["fbpic/main.py: Simulation.step", "fbpic/boundaries/boundary_communicator.py: BoundaryCommunicator.exchange_particles", "fbpic/boundaries/boundary_communicator.py: BoundaryCommunicator.damp_EB_open_boundary", "fbpic/boundaries/moving_window.py: MovingWindow", "fbpic/particles/injection/continuous_injection.py: ContinuousInjector", "fbpic/lpa_utils/laser/antenna_injection.py: LaserAntenna"]}
{"id": "C110", "title": "A laser pulse from a measured spectrum has that spectrum, and its time of arrival is that of its phase", "statement": "The profile that is built from a file with wavelengths, spectral intensities and phases is the superposition of plane waves whose intensity per unit of frequency is that of the file and whose phase is that of the file plus the chirps that are asked for; it travels with the speed of light, its largest absolute value is 1, its central wavelength lies within the measured range. A phase linear in the frequency delays the pulse; chirps in the file and as arguments are the same; with subtract_linear_phase the slope of the phase, which shifts the pulse in time, has no effect.", "quantifier": "all files with at least two rows, in any order, all phases and chirps, both directions, all positions and times", "why_tests_cant": "A test can compare a few spectra with a few pulses; the relation between phase and delay, and what is subtracted as slope, must hold for every measured phase.", "anchors": ["fbpic/lpa_utils/laser/longitudinal_laser_profiles.py: CustomSpectrumLongitudinalProfile.__init__", "fbpic/lpa_utils/laser/longitudinal_laser_profiles.py: CustomSpectrumLongitudinalProfile.evaluate"]}
{"id": "C111", "title": "A plasma at rest without fields stays at rest", "statement": "If at the beginning of a run all particles are at rest and there are no fields, and nothing drives the plasma (no external fields, no antenna, no Galilean grid; neither use_true_rho nor correct_divE), then there are no fields and all particles are at rest in every iteration of every later call to step, with periodic or open boundaries, with or without moving window and continuous injection of plasma at rest, for every plasma density and particle shape. No particle moves: each one stands exactly where it stood, or where it was injected; without a moving window the particles in the box are all kept, in the same order.", "quantifier": "all configurations of one process (any number of modes, cells, exchange period, mirrors, particle shapes, current correction), all initial particles at rest, all lists of calls to step", "why_tests_cant": "a test runs one plasma for some steps and compares the fields with a threshold; that nothing at all is produced when layers are injected, when particles leave, when the grid is moved under the particles and the old charge density is shifted in spectral space, for every density, needs an argument over all histories", "anchors": ["fbpic/main.py: Simulation.step", "fbpic/boundaries/moving_window.py: MovingWindow.move_grids", "fbpic/fields/spectral_transform/spectral_transformer.py: SpectralTransformer", "fbpic/fields/fields.py: Fields.correct_currents"]}
{"id": "C112", "title": "The finite-order field solver reaches only a few cells: with enough guard cells, several processes compute the fields of one", "statement": "With a finite order n_order the push of the fields in a cell depends on the values of far cells only through factors that decrease faster than every power rho^-distance, with a constant that does not depend on the number of cells. Hence a run of the solver on several processes, which push the fields on their own rows and exchange G guard cells after each step, agrees with the run on one process up to a constant times rho^-G, for every division of the grid among processes; the division of the code is one of these. The number of guard cells that the code chooses from the reach of the stencil is bounded independently of the length of the grid, it is determined for every grid, and beyond it the stencil is below the threshold 1e-16.", "quantifier": "all even orders, time steps, spacings, radial wavenumbers, grids, divisions, fields and sources, numbers of steps; for the reach also comoving and Galilean solvers", "why_tests_cant": "A test compares a few grids and numbers of guard cells within a tolerance; the decrease with the distance and its independence of the length of the grid are statements about all grids.", "anchors": ["fbpic/fields/utility_methods.py: stencil_reach", "fbpic/fields/utility_methods.py: get_stencil_reach", "fbpic/fields/utility_methods.py: get_modified_k", "fbpic/fields/psatd_coefs.py: PsatdCoeffs", "fbpic/fields/numba_methods.py: numba_push_eb_standard", "fbpic/boundaries/boundary_communicator.py: BoundaryCommunicator"]}
{"id": "C113", "title": "Moving the data between CPU and GPU changes nothing: a run on a GPU does what the run without GPU does, and gives the data back", "statement": "A call of step on a GPU has the same exceptions, the same contents of all arrays and the same output of the diagnostics as the same call without GPU, wherever the data is at the start (for instance after an earlier call that raised an exception), and if it ends well all arrays of particles, trackers, ionizers and fields are on the CPU again and the flags say so. The memory manager leaves the data of each species and of the fields where it was, also after an exception. Diagnostics can be written at any time.", "quantifier": "all numbers and kinds of species, modes, PML and cross-deposition arrays, all sequences of calls of step with any computations and diagnostics in any order, any placement of the arrays at the start, all exceptions", "why_tests_cant": "A test on a GPU compares a few runs; that no array is forgotten in one of the transfers and that every history of calls and exceptions restores the data concerns all configurations and histories.", "anchors": ["fbpic/utils/cuda.py: send_data_to_gpu", "fbpic/utils/cuda.py: receive_data_from_gpu", "fbpic/utils/cuda.py: GpuMemoryManager", "fbpic/particles/particles.py: Particles.send_particles_to_gpu", "fbpic/particles/particles.py: Particles.receive_particles_from_gpu", "fbpic/fields/fields.py: Fields.send_fields_to_gpu", "fbpic/fields/fields.py: Fields.receive_fields_from_gpu", "fbpic/main.py: Simulation.step", "fbpic/openpmd_diag/particle_diag.py: ParticleDiagnostic.write_hdf5", "fbpic/openpmd_diag/field_diag.py: FieldDiagnostic.write_hdf5"]}
{"id": "C114", "title": "The processes of a node share its GPUs evenly", "statement": "When the code is imported by several MPI processes, each process selects a GPU of its node; no GPU is selected by more processes than the rounded-up share, so that with at least as many GPUs as processes on each node no two processes share one; the selection ends for every process, and rank 0 warns exactly if a GPU is used twice.", "quantifier": "all numbers of processes, distributions over nodes, names of nodes, numbers of GPUs", "why_tests_cant": "Tests run on one machine with one distribution of the processes; the property concerns all distributions and names.", "anchors": ["fbpic/utils/cuda.py: mpi_select_gpus", "fbpic/utils/cuda.py: check_consecutive_ranks_on_same_nodes"]}
{"id": "C115", "title": "A call of a GPU kernel launches the kernel that was compiled for the types of its arguments, with these arguments", "statement": "After any sequence of calls of a decorated kernel, a call launches the kernel compiled for the types of its own arguments, whatever was called before; no kernel is compiled twice for the same types; the values passed on determine the address, shape and strides of each array and each scalar.", "quantifier": "all sequences of calls, all lists of arguments (dtypes, dimensions, shapes, strides)", "why_tests_cant": "A test calls a few kernels with a few types; that a cached kernel never fits another call is a statement about all histories of calls.", "anchors": ["fbpic/utils/cuda.py: compile_cupy", "fbpic/utils/cuda.py: get_args_hash"]}
{"id": "C116", "title": "Particle files have the structure of the openPMD standard, and diagnostics can share a file", "statement": "A particle output file contains, for each species of the diagnostic, exactly the datasets asked for (with the ids of tracked and the charges of ionizable particles), in records with the right dimension, weighting and unit attributes, the constants, the time and time step of the iteration, and nothing else; writing it changes nothing that other diagnostics have put into the same file; writing over an older file leaves only the new data.", "quantifier": "all lists of quantities, sets of species, tracked or ionizable or not, iterations, and previous contents of the file", "why_tests_cant": "Tests open files that a fresh run has written into an empty directory; what is in the file depends on all diagnostics and runs that have written into it before.", "anchors": ["fbpic/openpmd_diag/particle_diag.py: ParticleDiagnostic", "fbpic/openpmd_diag/generic_diag.py: OpenPMDDiagnostic", "fbpic/openpmd_diag/data_dict.py"]}
{"id": "C117", "title": "Seeded runs can be repeated", "statement": "After `set_random_seed`, the same input script gives the same simulation, the same output and the same exceptions on each process, whatever random numbers were drawn before in the same Python process: loading of species and bunches, ionization, Compton scattering, subsampled diagnostics and steps in any order. Runs with different seeds, and different calls within a run, use different random numbers.", "quantifier": "all scripts (any number and order of commands), seeds, numbers of processes, states of all generators before the seed, contents of uninitialised memory, generator libraries", "why_tests_cant": "A test that runs a script twice with one seed cannot reach all states that the generators can be in before; which generator each random number comes from is not visible in the results.", "anchors": ["fbpic/utils/random_seed.py: set_random_seed", "fbpic/particles/elementary_process/compton/compton.py: ComptonScatterer.handle_scattering", "fbpic/particles/elementary_process/ionization/ionizer.py: Ionizer.handle_ionization", "fbpic/particles/injection/continuous_injection.py: generate_evenly_spaced", "fbpic/lpa_utils/bunch.py: add_particle_bunch_gaussian", "fbpic/openpmd_diag/particle_diag.py: ParticleDiagnostic"]}
{"id": "C118", "title": "Field files keep what other diagnostics have written, and hold the fields of their run", "statement": "The diagnostics of the fields and of the charge densities of species write into one file per iteration. Whatever the file holds already, after an output it holds exactly the fields that were asked for, with their attributes and the time of the iteration, nothing of older data in these fields, and everything else as before; so any number of diagnostics can share a file, in any order. A run into the directory of an earlier run gives the files of a run into an empty directory.", "quantifier": "all lists of fields and species, grids, numbers of modes and processes, previous contents of the file, sequences of diagnostics", "why_tests_cant": "Tests look at files that one diagnostic has written into an empty directory.", "anchors": ["fbpic/openpmd_diag/field_diag.py: FieldDiagnostic", "fbpic/openpmd_diag/particle_density_diag.py: ParticleChargeDensityDiagnostic", "fbpic/openpmd_diag/generic_diag.py: OpenPMDDiagnostic"]}
{"id": "C119", "title": "The plasma has the density given by the user's function, in either form", "statement": "The argument dens_func of add_new_species can be a function of (z, r) or of (x, y, z), or an object that is called with these arguments. At the beginning and at every injection the particles created are the evenly spaced ones where the density is positive, with the charge of their volume times the density there; in a boosted frame the density is that of the corresponding position in the laboratory, and it moves with the plasma. The same density in the two forms gives the same plasma. Any other list of arguments is refused with ValueError.", "quantifier": "all density functions of either form, slabs, numbers of particles, angles, boosts, velocities of the plasma, times; all lists of arguments", "why_tests_cant": "Tests use a few profiles, and never the two forms of one profile, nor a function that is wrong.", "anchors": ["fbpic/particles/injection/continuous_injection.py: _check_dens_func_arguments, generate_evenly_spaced, ContinuousInjector", "fbpic/main.py: Simulation.add_new_species"]}
{"id": "C120", "title": "The files hold the input script of the run", "statement": "A diagnostic for the input script adds to the file of each iteration that is due (period, first and last iteration) the text of the script that is being run, as it was when the diagnostic was created, and the parameters given by the user, as strings, arrays and numbers. Whatever the directory held before, all other attributes and all other files stay as they are, and of several processes only the first one writes.", "quantifier": "all command lines, texts, dictionaries of parameters, periods and bounds, lists of iterations, previous contents of the directory, ranks", "why_tests_cant": "No test exists for this diagnostic; a few files say nothing on other command lines and dictionaries.", "anchors": ["fbpic/openpmd_diag/inputscript_diag.py: InputScriptDiagnostic", "fbpic/openpmd_diag/generic_diag.py: OpenPMDDiagnostic.write"]}
{"id": "C121", "title": "Progress, remaining time, summary and errors of a run are reported as they are", "statement": "During step(N) the progress bar shows the number of the iteration and a bar of constant length, filled in proportion to the iterations, never going back and full exactly at the last one; from iteration 20 on it shows the remaining time, which lies between the shortest and the longest iteration so far (without the first, which includes the compilation) times the number of iterations left. The summary gives the time that the run has taken. The handling of GPU memory errors changes no result and no other exception, and ends all processes of a job if one of them is out of memory.", "quantifier": "all numbers of iterations, times at which the iterations begin, results and exceptions of functions, numbers of processes, with and without cupy", "why_tests_cant": "Tests do not look at what is printed, and no test runs out of memory.", "anchors": ["fbpic/utils/printing.py: ProgressBar, catch_gpu_memory_error, handle_cuda_memory_error", "fbpic/main.py: Simulation.step"]}
{"id": "C122", "title": "The fields stored on the particles are those at their position", "statement": "After a call of step with at least one iteration, the fields E and B that are stored on the particles (and written by the particle diagnostics) are the fields of the grid, interpolated with the shape of the species, plus the external fields, at the position and the time at which the last iteration began. They do not depend on what was stored before.", "quantifier": "all configurations of the periodic box, states, species, numbers of particles, external fields, numbers of iterations, options of step", "why_tests_cant": "Tests look at the motion of charged particles in a few fields; the values on neutral particles are never compared.", "anchors": ["fbpic/particles/particles.py: Particles.gather", "fbpic/lpa_utils/external_fields.py: ExternalField.apply_expression", "fbpic/main.py: Simulation.step", "fbpic/openpmd_diag/particle_diag.py: ParticleDiagnostic"]}
{"id": "C123", "title": "A bunch loaded from an openPMD file is the bunch of the file", "statement": "add_particle_bunch_openPMD and add_elec_bunch_openPMD create the particles of the file that fulfil the rules of select (positions in microns, momenta in units of mc), with their transverse positions, momenta and weights, shifted along z by one common length such that the weighted mean of z is z_off. The place of the bunch in the file and the installed version of openPMD-viewer do not matter. All ranks together create each particle inside the box once.", "quantifier": "all files, rules, offsets, versions of openPMD-viewer, numbers of ranks, boosts", "why_tests_cant": "The tests load one file with one version and one rank, without rules for positions.", "anchors": ["fbpic/lpa_utils/bunch.py: add_particle_bunch_openPMD, add_elec_bunch_openPMD, add_particle_bunch_from_arrays"]}
{"id": "C124", "title": "Lab-frame particle snapshots hold every particle once, also after restarts", "statement": "After a simulation in the boosted frame, possibly stopped at any iteration and continued from a checkpoint in the same directory, the file of each lab-frame snapshot of BackTransformedParticleDiagnostic holds every particle found on the plane of the snapshot exactly once, with all quantities in the same order; repeating a simulation in the same directory gives the same file.", "quantifier": "all sequences of runs, iterations at which they stop or restart, periods, numbers of ranks, particles found", "why_tests_cant": "The tests run one simulation in an empty directory, without a restart.", "anchors": ["fbpic/openpmd_diag/boosted_particle_diag.py: BackTransformedParticleDiagnostic", "fbpic/openpmd_diag/generic_diag.py: open_file", "fbpic/openpmd_diag/checkpoint_restart.py: restart_from_checkpoint", "fbpic/main.py: step"]}
{"id": "C125", "title": "Lab-frame field snapshots are complete, also after restarts", "statement": "After a simulation in the boosted frame, possibly stopped at any iteration and continued from a checkpoint in the same directory, each lab-frame field snapshot is the one of the simulation without interruption; repeating a simulation in the same directory leaves its snapshots as they are; a directory with snapshots of another size is refused.", "quantifier": "all sequences of runs, iterations at which they stop or restart, periods, numbers of ranks, boosts, fields", "why_tests_cant": "The tests run one simulation in an empty directory, without a restart.", "anchors": ["fbpic/openpmd_diag/boosted_field_diag.py: BackTransformedFieldDiagnostic", "fbpic/openpmd_diag/field_diag.py: create_file_empty_meshes", "fbpic/openpmd_diag/generic_diag.py: open_file", "fbpic/openpmd_diag/checkpoint_restart.py: restart_from_checkpoint"]}
{"id": "C126", "title": "Lab-frame snapshots can be divided between simulations by their lab time", "statement": "With t_min_snapshots_lab and t_max_snapshots_lab, a simulation creates the files of exactly the lab-frame field snapshots whose lab time is in the range (lower bound included, upper bound excluded), under the number they have without a range, and leaves all other files as they are. Two simulations with adjacent ranges give together the same directory as one simulation with the whole range.", "quantifier": "all ranges, bounds, numbers and intervals of snapshots, sequences of simulations, iterations at which they stop, ranks, boosts, fields", "why_tests_cant": "The tests use the default range in one directory.", "anchors": ["fbpic/openpmd_diag/boosted_field_diag.py: BackTransformedFieldDiagnostic"]}
{"id": "C127", "title": "Lab-frame particle snapshots can be divided between simulations by their lab time", "statement": "With t_min_snapshots_lab and t_max_snapshots_lab, a simulation creates the files of exactly the lab-frame particle snapshots whose lab time is in the range (lower bound included, upper bound excluded), under the number they have without a range, and leaves all other files as they are. Two simulations of the same system with adjacent ranges give together the same directory as one simulation with the whole range. If ranges overlap, the particles of a snapshot in both ranges are there once.", "quantifier": "all ranges, bounds, numbers and intervals of snapshots, sequences of simulations, iterations at which they stop, ranks, particles, output quantities", "why_tests_cant": "The tests use the default range in one directory.", "anchors": ["fbpic/openpmd_diag/boosted_particle_diag.py: BackTransformedParticleDiagnostic"]}
{"id": "C128", "title": "GPUDirect does not change what the processes exchange", "statement": "The environment variable FBPIC_ENABLE_GPUDIRECT takes effect only with the value 1 and mpi4py 3.1 or later. Whether it takes effect or not, on the CPU and on the GPU, the guard cells receive the fields of the neighbouring processes, whatever earlier exchanges left in the buffers.", "quantifier": "all versions and values of the variable, machines (CUDA installed or not, simulation on CPU or GPU), decompositions, methods of exchange, numbers of modes and components, fields, contents of the buffers", "why_tests_cant": "The tests run on one process or without the variable; a CPU simulation with the variable set needs several processes on a machine with a GPU.", "anchors": ["fbpic/utils/mpi.py: gpudirect_enabled", "fbpic/boundaries/boundary_communicator.py: exchange_fields", "fbpic/boundaries/field_buffer_handling.py: BufferHandler"]}
