# Formal model of fbpic — design

Source: `/repo` (fbpic, Python), read as text. Model and proofs: Lean 4.33.0 + Mathlib,
under `/verif/lean/Verif/`.

## 1. Layout

For each topic `T` there are up to four files:

* `Verif/Model/T.lean` – executable (or, where `sqrt`/`cos`/`exp` enter, plain mathematical)
  definitions that mirror the Python functions branch by branch. Every definition cites
  file and lines. Exceptions are values (`Except`/`Option`).
* `Verif/Spec/T.lean` – small independent specification (what the English property says),
  not using the model's helpers.
* `Verif/Lemmas/T.lean` – helper lemmas. Nothing here is claimed.
* `Verif/Props/T.lean` – the property theorems, named `Cxx_...`, each with an `example`
  showing a concrete non-trivial case that meets its hypotheses.

`MANIFEST.json` maps the properties of `properties.jsonl` to exact theorem names.

## 2. Trusted base

* Lean 4 kernel; axioms `propext`, `Classical.choice`, `Quot.sound` (what Mathlib uses). No
  axioms of our own, no `sorry`, no `native_decide`/`bv_decide`.
* The reading of `/repo` that produced the model. The code is never executed.
* Global simplifications, valid for all files unless said otherwise:
  1. **Floating point is replaced by exact arithmetic** (a linearly ordered field with floor,
     ℝ or ℂ). Rounding, overflow, NaN and infinities are not modelled. `int(x)` is truncation
     toward zero and is modelled exactly. Where the *bit representation* matters (C08) it is
     modelled on 64-bit words.
  2. **Physical constants** are parameters; where needed `mu0*eps0*c^2 = 1`, `c > 0` are hypotheses.
  3. **numpy/numba/cupy primitives** (slices, boolean masks, `hstack`, `cumsum`, `argsort`,
     `searchsorted`, FFT, matrix inverse) are modelled by their documented mathematical meaning.
     `prange` loops are modelled as sequential loops where each iteration writes disjoint data;
     per-thread buffers are modelled explicitly (C21, C23).
  4. **MPI**: a communicator is modelled by the family of all ranks' states. `Isend/Irecv` pairs
     deliver the posted buffer to the matching receive (that they match is itself C03);
     `bcast/allgather/Gatherv/Scatterv` deliver as documented. No failures, no message reordering within
     one (source, tag).
  5. **HDF5 / openPMD-viewer** are modelled as a store that returns what was written, at the iteration
     closest to the one requested (documented behaviour of openPMD-viewer).
  6. GPU kernels and CPU threads: an abstract machine with arbitrary interleaving of the statements of the
     threads (`Model/Parallel.lean`, C102) covers the loops of the fields, push, gathering, deposition on CPU
     threads, reduction, ionization, guard cells, damping and window shift. Atomics of the GPU deposition are
     modelled as addition (commutative, C70); weak memory (reordering within one thread) is not modelled.
* Not modelled at all: performance, description of the setup, GPU memory management,
  FFT/Bessel library internals.

## 3. Plan per property

Shapes: (L) algebraic law / round trip, (I) invariant by induction over operations,
(R) refinement to an abstract spec, (D) decision logic. "NEG" marks places where, on reading, the code seems
to violate the property: there we prove the negation with a concrete witness and the strongest true
`_partial` statement.

| id | what is modelled | how it is proved |
|----|------------------|------------------|
| C01 | `get_Nz_and_iz`, `divide_into_domain` for all (size, rank, Nz, n_guard, n_damp) | (L) intervals `[iz, iz+Nz)` of ranks form a partition of `[0, Nz_global)`; arithmetic over Nat/Int; error branch (D) |
| C02 | `get_zmin_zmax`, `shift_global_domain_positions`, communicator state machine | (I) over list of shifts; cell centre of shared cell equal on both ranks |
| C03 | neighbour computation, Isend/Irecv list of `exchange_domains` | (D) set of sends of all ranks = set of receives of all ranks (bijection), symmetric neighbours |
| C04 | `handle_vec_buffer`/`handle_scal_buffer` slices, `exchange_fields` 'replace' | (R) spec: "owner's value"; guard cells equal global owner's array |
| C05 | same, 'add' | (R) spec: sum over ranks of contributions for that global cell, under the accepted size condition |
| C06 | `gather_grid_array`, `scatter_grid_array` | (L) round trips |
| C07 | `remove_particles_cpu`, `add_buffers_cpu`, `exchange_particles_aperiodic_subdomain` | (R) multiset conservation over all ranks; localisation |
| C08 | integer send buffers incl. dtype | NEG: right buffer is float64; 64-bit IEEE encoding of naturals; leftward transfer proved |
| C09 | `shift_particles_periodic_numba` | (L) loop as recursion with termination proof; membership, integer multiple, idempotence |
| C10 | branch of `exchange_particles` | NEG for `n_guard = 0` with open boundaries; partial for n_guard > 0 |
| C11 | `MovingWindow.__init__`, `move_grids` | (I) over arbitrary list of call times |
| C12 | `shift_spect_array_cpu`, `field_shift` | (L) DFT shift theorem on ZMod n, group law |
| C13 | `ContinuousInjector` | (I) over arbitrary op list (increment / generate) |
| C14 | `ParticleTracker` on all ranks | (I) over arbitrary interleavings |
| C15 | `overwrite_ids` incl. the misspelt attribute | NEG: witness of duplicate; partial: what a correct assignment of the computed number would give |
| C16 | `ionize_ions_numba`, `copy_ionized_electrons_*`, bookkeeping in `handle_ionization` | (I) charge sum, level bound, one electron per level |
| C17 | batches, `perform_cumsum_2d`, destination index | (R) equals a plain filter over all ions, for all batch sizes |
| C18 | `determine_scatterings`, `lorentz_transform` | (L) identities over ℝ |
| C19 | recoil update | NEG |
| C20 | `get_cell_idx`, sort, `incl_prefix_sum`, `prefill_prefix_sum`, `write_sorting_buffer` | (R) prefix sum = count of particles with cell index ≤ i |
| C21 | `get_chunk_indices` | (L) partition |
| C22 | `particle_shapes.py` | (L) over ordered field |
| C23 | deposition kernels with guard cells, `sum_reduce_2d_array`, `reduce_slice` | (R) total = Σ q w |
| C24 | index bounds | NEG for cubic on a periodic box, partial bounds |
| C25 | gather kernels | (L) weights sum to one |
| C26 | gather vs deposit weights | (L) |
| C27 | `push_p_vay` | (L) over ℝ |
| C28 | `push_p_ioniz_numba` | (D)+(L) |
| C29 | `cross_deposit` pushes | (L) |
| C30 | current-correction kernels; cross-deposition also from the particles on (`Props/CrossDeposit.lean`) | (L) for k ≠ 0; column sums of the deposition at kz=0; NEG for arbitrary sources at kz=0 or kr=0 |
| C31–C35 | `push_eb_*` kernels, `PsatdCoeffs` | (L) over ℂ with `C²+w²S_w²=1`, angle addition; (I) over steps |
| C36 | PML damping | (L),(I) |
| C37 | `generate_damp_array`, `damp_EB_open_boundary` | (L) over ℝ (`sin`) |
| C38 | `BinomialSmoother.get_filter_array`, filter kernels | (L) with Bernoulli inequality |
| C39 | `get_modified_k` coefficient recursion | (L) closed form of partial sums by induction |
| C40 | `Simulation.step` as a state machine on a trace of operations and flags | (I) |
| C41, C42 | write schedule | (D) |
| C43, C44 | checkpoint data path, `restart_from_checkpoint`, `check_restart` | (L),(D); NEG when requested iteration is not stored |
| C45, C46 | `LabSnapshot`, `extract_slice` | (I) over iterations; NEG for convexity in first half cell |
| C47 | `get_particle_slice`, `interpolate_particles_to_lab_frame` | (I) over trajectory; NEG when a particle is exactly on the plane |
| C48–C50 | Lorentz transforms | (L) |
| C51 | `Mirror.set_fields_to_zero` | NEG (region is on the other side of z_start), partial |
| C52 | antenna | (L)+(D) using C01/C02 |
| C53 | `get_space_charge_spect` | (L) |
| C54 | guard/exchange period computation | (L) over trajectories |
| C55 | rt/pm conversion, 2dC/2dR copies | (L) |
| C56 | `adapt_to_grid`, `add_new_species` bounds | (R) |
| C57 | `add_elec_bunch` argument passing | NEG (`p_nt=p_nz`) |
| C58 | `correct_divE` | (L); NEG for availability with the default correction |
| C59 | `reverse_time` | (L) |
| C60 | `apply_selection`, `gather_ptcl_array` | (R) |
| C61 | ballistic plane | (D)+(L) |
| C62 | Gaussian bunch weights | (L); NEG for negative Q |
| C63 | selection by rank | (L) using C01/C02 |
| C64 | antenna particles' prescribed motion, deposited sheet current | (L) field of a plane sheet = minus half mu0 c times its current; NEG: the polarity |
| C65 | `get_laser_spect`-style direct injection in spectral space | (L) divergence, dispersion relation, one vacuum push; NEG at kz = 0 |
| C66 | `SpectralTransformer`, `DHT`, `FFT` | (L) round trips from the invertibility of the Hankel matrix and DFT orthogonality |
| C67 | GPU particle exchange (`remove_particles_gpu`, prefix-sum split, `add_buffers_gpu`) | (R) same multisets as the CPU path for sorted arrays; NEG for the last half cell |
| C68 | GPU extraction of particle slices for back-transformed diagnostics | (R) same list as the CPU path; NEG for the weights of ionizable species and for the last half cell |
| C69 | cell volumes, Ruyten coefficients, `divide_by_volume`, evenly spaced loading | (L) first moments of the splines (truncated powers), Riemann sums; geometric sums for the modes |
| C70 | GPU deposition kernels (sorted: species; unsorted: antennas), the flag `sorted` along the PIC cycle | (R) a launch is any permutation of its atomic additions; closed form per particle; prefix sum delimits cells (C20); induction over the log of `step`; NEG when the grid moves and the particles do not |
| C71 | injector, window and global position along `step` and restarts (`Model/InjRestart.lean`) | (I) invariant over iterations and restarts (position of the plane within the cell, layers created and waiting); NEG for time steps in which window and plasma separate by less than a cell |
| C72 | laser profile classes (`Model/LaserProfile.lean`), complex-valued, over the reals | (D) closed forms in the focal plane; Gaussian Fourier integral for the chirp |
| C73 | transverse profiles | (L) derivatives of q-parameter beams; Laguerre differential equation; flattened profile folded into Laguerre modes |
| C74 | `squared_profile_integral`, `ParaxialApproximationLaser` | (L) polar coordinates, orthogonality of Laguerre polynomials; energy averaged over two carrier phases in quadrature |
| C75 | `FewCycleLaser`; the root found by `fsolve` is a parameter assumed to be a positive root | (L) derivatives of complex powers; intermediate value theorem; NEG for the documented meaning of `tau_fwhm` |
| C76 | `FromLasyFileLaser` (`Model/Lasy.lean`): the HDF5 file is a record of the attributes read, the version string is already split into integers | (D) floor arithmetic, interpolation weights; NEG for `gridUnitSI` |
| C77 | `FieldDiagnostic` with `create_file_empty_meshes`, `write_dataset`, `data_dict.py` (`Model/FieldDiag.lean`), all ranks together; the reader is `Spec/FieldDiag.lean` | (D) closed form of the file; C01, C05, C06; NEG for the dimension of the mass |
| C78 | the data flow of `Simulation.step` with all types of diagnostics and checkpoints (`Model/DiagFlow.lean`): which arrays each part reads and writes; what the parts compute is a parameter | (I) relation between two runs that is kept by every part of the cycle; NEG for subsampling |
| C79 | `DHT` matrices with true Bessel functions and zeros (`Model/Hankel.lean`), k-arrays, transforms of C66; the fields are `Spec/Cylinder.lean` | (L) Bessel recurrences from the power series; sampling of the waves at the cell centres; linear independence of the radial functions |
| C80 | `SpecGrid.push`, `correctCurrents` on all wavenumbers together; differential equations in `Spec/CylMaxwell.lean` | C30, C31 at every wavenumber carried to space by C79 |
| C81 | modified cell volumes, `divide_by_volume`, forward transform; integral in `Spec/CylCharge.lean` | (L) integral of r J_0; volumes are the dual weights; C23 |
| C82 | `initialize_ADK_parameters`, `get_E_amplitude`, `get_ionization_probability`, `read_atomic_data.py` with the table `atomic_data.txt`; ADK rate, rest-frame field and change of frame in `Spec/Adk.lean` | (L) algebra of real powers, Lorentz invariance; whole table by kernel evaluation; Lebesgue measure of the draws for which the ion survives, through C16/C17 |
| C83 | `picmi/simulation.py`: init, add_laser, add_species, interactions, field lists, applied fields, as calls of the functions modelled elsewhere; what a description stands for in `Spec/Picmi.lean` | (L) case analysis; Courant condition in both frames by the algebra of `copropag_length`; moments of the bunch by linearity of the mean; negations by concrete descriptions |
| C84 | the assembled simulation `Model/Pic.lean` (`step`, `deposit`, `cross_deposit`, gathering, pushes, wrapping, transforms, field solver in one state); motions in `Spec/Pic.lean` | (R) forward simulation between two runs: every stage maps related states to related states, lifted over the loop and over calls; NEG on the axis with two modes |
| C85 | same | (R) same simulation with sign -1 |
| C86 | same | (R) same simulation with a shift of z |
| C87 | same | (I) invariant on the distance travelled since the last wrapping through the half steps, relative to the moving grid; NEG for cubic particles and c dt = dz |
| C88 | same; weighted sums of test functions over the macroparticles (`SameCloud`) | (R) forward simulation: moves do not look at weights, deposition is linear in them |
| C89 | same | (R) forward simulation with passive species reduced or dropped |
| C90 | same | corollary of C84 and C88: the state equals its rotation, so mode m = e^{2 pi i m / n} times itself |
| C91 | same; Gauss' law between particles and grid in `Spec/PicGauss.lean` | (I) `div E = rho/eps0` at every wavenumber is an invariant of the cycle: deposition does not see the periodic wrapping, C30 with the transverse positions unchanged at kz = 0, C31, C58, C32, round trips of C66 |
| C92 | same; what is stored and what is seen in `Spec/PicSplit.lean` | (I) two runs side by side: cells of the spectral grids agree except for the components that the inverse Hankel matrices ignore (their radial wavenumber is 0, so that they never influence the others), densities and currents agree from the point where they are written anew; the additional deposition at the beginning of a call writes only what is overwritten before use. Needs `exchange_period = 1`, the default of one process in a periodic box (boundary_communicator.py:281-304): otherwise positions may differ by the length of the box |
| C93 | same; the textbook cycle in `Spec/PicCycle.lean`: leap-frog step of one particle (equation of motion of C27), sources seen back from the end of the step, Fourier-Hankel transforms as sums, Maxwell's equations of C33 | (R) every stage of the iteration is characterised (which fields the particle sees, at which position and time; which density is stored under which name), then composed: two half pushes give one whole one, deposition does not see the wrapping, the corrected current differs by a gradient, C33/C34 on each cell. `C33_solution`: the equations have a solution for any current and fields with div B = 0 |
| C94 | the assembled simulation with open boundaries `Model/PicOpen.lean` (exchange with removal and injection, antennas, moving window, damping, mirrors around the pieces of `Model/Pic.lean`); what an iteration should do in `Spec/PicOpen.lean` | (R) the virtual particles of the antennas are embedded as two more species of a simulation without antennas, so the sources follow from C93; the shift by phase factors in spectral space is a shift of rows (C12), damping (C37) and mirrors (C51) multiply rows, both commute with the Hankel transforms; the window by induction over iterations and calls |
| C95 | same; which simulations cannot go wrong in `Spec/PicOpenTotal.lean` | (I) an invariant over iterations: `k` iterations after an exchange the charges are within `2 k c dt` of a region fixed to the window, and the waiting layers of the injection too; with the inequality for the exchange period this stays inside of the grid with a margin of a cell |
| C96 | same; the iterations of a run as a list of states, and the plasma that arrives in them, in `Spec/PicPlasma.lean` | (I) over the list of iterations: number of layers created and waiting, distance of the plasma from the injection plane, iterations since the last exchange; the violation by a run of two iterations |
| C97 | same; the opposite row, real arrays in `Spec/PicReal.lean` | (I) over the calls: every spectral array of mode 0 is the conjugate of itself at the opposite row (with a sign for + and -), through each kernel; mode 0 as the mean over the azimuth by the deposition kernels; the violation by one iteration with one wave at the Nyquist frequency |
| C98 | same; evolution by Maxwell's equations without current between two states in `Spec/PicVacuum.lean` | (I) over the calls: with zero sources one iteration is the free propagator of C33 at each wavenumber, which composes; the round trips through the grid are the identity (C66) |
| C99 | `Model/PicCheckpoint.lean`: the assembled run with checkpoints as a function of state and directory, the files at the moments between which they are closed, restart into a new simulation; histories of crashes and restarts as an inductive relation in `Spec/PicCheckpoint.lean` | (I) over the history: the state is one of the uninterrupted run up to what is stored, every file is its checkpoint or has no particles; steps by C92 (a run depends only on what is stored), C43 (restart restores what is stored), C97 (nothing is lost) |
| C100 | `Model/PicIonize.lean`: the assembled run with the call to the ionizers at mid-step, several ionizable species, shared targets, arbitrary random numbers and memory; `make_ionizable`; which ions, which electrons, totals in `Spec/PicIonize.lean` | (R) one call is the specification of C17 species by species; the sum of charge times any function of place and momentum is unchanged, so every deposited array is; (I) over the calls: the invariants of C87 and C91 for any neutral process at mid-step |
| C101 | `Model/Ranks.lean`: `deposit` with exchange and `gather` on all processes, each with its own `divide_into_domain` grid, built from the models of C01, C04, C24 and C25; cells are compared by their global number (modulo the box if periodic), particles up to order and box lengths, in `Spec/Ranks.lean` | (R) the deposited value of a cell is a sum over all particles of an indicator of global rows; the sum over all local rows of one process of the same cell is the sum over its particles; `C04_add` adds the processes; existence from the bounds of the rows; `C101_inside` from C54 |
| C102 | `Model/Parallel.lean`: an abstract machine (shared memory, threads with private registers, arbitrary schedule), GPU launches (`cuda_tpb_bpg_1d/2d`) and `prange` loops; `Model/Kernels.lean`: every CUDA and numba kernel of the fields, push, gathering, guard cells and damping, statement by statement; `Model/KernelsBatch.lean`: erasing of the buffers, deposition on CPU threads (load and store of every `+=`), reduction, ionization in batches, copy of the electrons, shift with the window; `Spec/Parallel.lean`: possible outcomes of a launch | (I) along the schedule: what is left to do of a thread, executed alone, always gives the same content of its own cells; so every complete schedule gives the sequential result, and one exists; then per kernel: its statements compute the function of the sequential model; for threads with many particles: the loop gives the fold of the iterations (`result_seq`), and the copy of electrons is race-free because the offsets are the cumulated counts |
| C103 | `Spec/PicUnits.lean`: factors of length, time, charge, mass and weight; rescaled parameters, particles, arrays; `Spec/PicSetup.lean`: the arrays that the constructor computes from its arguments (Bessel matrices, volumes, shape coefficients, filters, wavenumbers) | simulation relation between the two runs: every piece of the cycle of `Model/Pic.lean` keeps the relation (solver coefficients are homogeneous, matrices are areas, cell indices and weights have no dimension, Vay push depends on q E dt/mc and q B dt/m only), induction over iterations and calls; the converse by the inverse factors |
| C104 | `Model/ComptonLaw.lean`: rejection loop on an infinite supply of draws, density of the laser pulse and its parameters, rule of the recoil; `Spec/ComptonLaw.lean`: Klein-Nishina formula, uniform draws (product measure), boosts | primitive of the Klein-Nishina formula gives the total of the code; envelope inequality; law of one turn by change of variables, geometric series over the turns; Gaussian integrals; invariance of the product of four-momenta; measure of the recoil event |
| C105 | `Model/PicCompton.lean`: the cycle of `Model/Pic.lean` with `handle_scattering` for every species with a scatterer in the middle of the iteration, `activate_compton`; `Spec/PicCompton.lean`: outcome of a species, free flight, velocity | exact result of one call from C18_batches; invariant on the speeds (at most (1+k) c after a recoil, at most c after the push) and on the distance to the box, so that all depositions and gatherings stay in their arrays; composition of free flights modulo the length of the box; Gauss' law from the lemmas of C91 with the particles moved back along their new velocity |
| C106 | `Model/PicGpu.lean`: the cycle of `Model/Pic.lean` on the GPU as a relation between states (what the scheduler and the sorting leave open is existentially quantified): species with the flags `sorted`, `keep_fields_sorted` and the prefix sum, sorting before depositions if needed, kernels of the transforms on flattened arrays, sorting by diagnostics; `Spec/PicGpu.lean`: same fields, same macroparticles up to the order | simulation relation between the two runs: the macroparticles are a permutation of each other, with the fields on them between gathering and momentum push; `sorted` implies that the prefix sum delimits the cells of the particles as they are now, an invariant that wraps (cells are periodic), gathers and momentum pushes keep; depositions through C70 (GPU) and C23 (CPU); transforms through the lemmas of C72/C102 |
| C107 | `Model/PicLaser.lean`: `add_laser_direct` on the state of `Model/Pic.lean` with the transforms of the simulation; `Spec/PicLaser.lean`: sum of fields, smoother, state with given Er and Et | linearity of the transforms and their inverse (also in the first column, where the added field vanishes); C98 at one wavenumber by itself (`free_calls`, `C98_wavenumber`); the phase from C65_push |
| C108 | the assembled run of `Model/Pic.lean`; `Spec/PicMirror.lean`: reflection of particles, species, arrays and spectral cells (complex conjugate at the opposite wavenumber, sign of axial vectors) | (R) forward simulation between the run and the reflected run with the stages of C84: deposition, gathering and pushes commute with the reflection; the solver by the symmetry of its coefficients in kz (C97); symmetric clouds by C88; NEG at the Nyquist wavenumber by C98 at one wavenumber |
| C109 | the cycle with open boundaries of C94 (`Model/PicOpen.lean`); `Spec/PicOpenSplit.lean`: what is stored, what can be seen, fields that vanish where they are damped | relation between two states through every part of the iteration (exchange, injection, depositions, window, mirrors, damping), induction over iterations and calls; round trip of the transforms at the junction of two calls; counterexamples with an exchange period of two and with empty calls |
| C110 | `CustomSpectrumLongitudinalProfile` (`Model/CustomSpectrum.lean`): columns of the file, subtraction of the slope, mean wavelength, chirps, interpolation, FFT, normalisation; `Spec/CustomSpectrum.lean`: interpolation, pulse as a sum of plane waves, least squares | interpolation by induction over the sorted points, aliasing of the FFT, uniqueness and existence of the best fit, periodicity of the sum |
| C111 | the cycle with open boundaries of C94; `Spec/PicRest.lean`: no fields, particles at rest, nothing that drives the plasma | the field equations with zero current, zero correction (old and new charge density agree) have the solution zero; the old charge density that is shifted with the grid in spectral space is the one of the particles on the moved grid, as long as no particle leaves the grid (C95); induction over iterations and calls |
| C112 | the push of C02 between the transforms of C05 on two grids; `Model/StencilReach.lean`: `stencil_reach`, `get_stencil_reach`; `Spec/Locality.lean`: division of the grid, run on several processes | the symbols of all coefficients of the push are entire functions of the modified wavenumber, hence absolutely convergent sums of translations with weights `rho^abs(n)`, for every `rho`; the same sum acts on every periodic grid, which compares two grids term by term; induction over the steps; the stencil of the code is the same operator on a unit pulse |
| C113 | `Model/Placement.lean`: every array of species, tracker, ionizer and grids with its place; `send_*`/`receive_*`, `step`, the diagnostics, `GpuMemoryManager`; computations arbitrary | the simulation without GPU is the image of the one on the GPU under a map that forgets the place; each action commutes with it as long as all data is on the GPU; induction over the actions and over the calls |
| C114 | `Model/GpuSelect.lean`: `check_consecutive_ranks_on_same_nodes`, `mpi_select_gpus` with the collective calls of each process | induction over the list of the nodes; ranks of a node are distinct and lie in an interval as long as their number, so each remainder is taken at most the rounded-up share of times |
| C115 | `Model/KernelCache.lean`: `get_args_hash`, `compile_cupy` (dictionary of kernels, list of kernel arguments), compilation and hash arbitrary | invariant of the dictionary over all histories of calls; the flat list of types can be read back |
| C116 | `Model/PtclFile.lean`: HDF5 groups, datasets, attributes (`require_group`, `create_dataset`, `del`), `ParticleDiagnostic.__init__` (lists of quantities), `setup_openpmd_file`, `setup_openpmd_species_group/record/component`, `write_particles`, `write_dataset`, dictionaries of data_dict.py | every operation on "tree W written over tree T" is again of that form; induction over quantities, vectors and species; the final W is the tree of the standard |
| C117 | `Model/Seed.lean`: every function that draws random numbers as a tree of requests to the generators (`Ask`: NumPy, CuPy, xoroshiro states, Numba), `set_random_seed`, the whole periodic run with loading, bunches, subsampling, ionization and Compton scattering as commands of a script | scripts ask only seeded generators; induction over the tree; refinement to the runs of C100/C105; NEG for Numba, for seed + rank, and for the 256 GPU seeds |
| C118 | `Model/FieldFile.lean`: the file as a map from paths to datasets, `require_dataset`, setting of attributes, `write_dataset` slice by slice, `create_file_empty_meshes`, `FieldDiagnostic.write_hdf5`, `ParticleChargeDensityDiagnostic.write_hdf5`, with the file as it is when an exception is raised | induction over the lists of operations; the loop over the modes overwrites all entries; refinement to the new file of C77; induction over the diagnostics; NEG for reruns |
| C119 | `Model/DensFunc.lean`: callables with their list of arguments, calls by position and by keyword, `_check_dens_func_arguments`, the wrapped functions of `add_new_species` and `generate_particles`, `generate_evenly_spaced` with the positions `x`, `y` | meaning of a callable as a density in space; each wrapper changes the meaning by a change of coordinates; NEG for functions without arguments and for late refusal |
| C120 | `Model/Script.lean`: choice of the script among the arguments of the command line, loop over the parameters, `write_hdf5`, `write`, calls of a run | induction over the items and over the iterations; NEG for the choice of the file and for runs without script |
| C121 | `Model/Report.lean`: `ProgressBar` (time, print_progress, print_summary) with the times of the iterations as input, `catch_gpu_memory_error` with the clause `except` evaluated as Python does | floor arithmetic; induction over the iterations (the average stays between the bounds); case analysis; NEG for the summary, `step(0)` and the exceptions without cupy |
| C122 | `Model/Pic.lean` (gather, external fields, iterations), any number of iterations of `step` | one iteration on every particle with the same number (`Paired`), last iteration of the loop; induction over the iterations for neutral species; NEG in an empty box with a uniform field |
| C123 | `Model/BunchPmd.lean`: `get_particle` of openPMD-viewer (two versions, rules), conversion to meters, `np.average`, shift, `add_particle_bunch_from_arrays` of C63 | the two conversions cancel; linearity of the weighted mean; C63 for the ranks; NEG for the unit of the rules and for empty selections |
| C124 | `Model/LabRuns.lean`: `create_file_empty_slice` on an existing file (two versions of h5py), the runs in one directory with `Lab.write` of C60 | refinement to `Lab.run`, C60 at the last multiple of the period, induction over the runs; counting for the exact condition; NEG for usual checkpoints and repetitions |
| C125 | `Model/LabFieldRuns.lean`: `create_file_empty_meshes` on an existing file, the runs in one directory with `write` of C45 | the lemma for `flush_to_disk` of C45 for any set of iterations written before; induction over the iterations and the runs; the dataset is determined by that set; NEG for slices in memory at the end of a run |
| C126 | `Model/LabSplit.lean`: list of the snapshots, directory after several simulations, with the runs of C125 | invariant for every file over the simulations; the ranges are compared with their English form; the dataset is determined by the iterations written |
| C127 | `Model/LabPtclSplit.lean`: directory of the particle snapshots after several simulations, with the list of C126 and the runs of C124 | each file sees the runs of the simulations that select it (induction on the simulations), then C124; negation for overlapping ranges |
| C128 | `Model/GpuDirect.lean`: import of `utils/mpi.py`; buffers of CPU and GPU with their old content, `exchange_fields` with the choice of buffers | comparison with `exchangeFields` of C04, C05 component by component; the negations follow from the buffers that are used |

No property of the list is "not expressible"; where run-time effects matter (e.g. actual memory
corruption in C24, actual MPI transport) the model carries the index/bookkeeping logic only.

## 4. Disagreements between code and property

Each is modelled as the code is, and (where a theorem is named) proved as a negation with a concrete
witness that meets the hypotheses of the corresponding positive theorem except for the one that fails.

* C08 (`C08_right_violated`): `particle_buffer_handling.py:133,153` allocates `uint_send_right` as `float64` on
  CPU while the receiving buffer is `uint64`: the bit pattern of the float is received as the integer. Not on GPU.
* C10 (`C10_nguard0_violated`): `exchange_particles` tests `n_guard == 0` and not the boundary type: particles
  are wrapped in an open box without guard cells.
* C15 (`C15_violated`): `tracking.py:132` assigns `next_attibuted_id` (typo), so the counter is not advanced.
* C19 (`C19_violated`): Compton recoil changes `ux,uy,uz` but not `inv_gamma`.
* C24 (`C24_violated`): cubic deposition needs `0 <= ceil(z_cell) <= Nz`, which fails for a particle that left the
  periodic single-process box within the step.
* C30 (`C30_violated`): cross-deposition leaves the residual at `kz = 0`/`kr = 0` (harmless for sources as deposited,
  `C30_cross_deposited`). With a finite `n_order`, an even `Nz` and `filter_currents=False` the modified `kz` also vanishes at the
  Nyquist wavenumber; in floating point it is some 1e-16/dz there, and `numba_methods.py:112-114` divides by it.
* C31 (`C31_resonance`): the Galilean/comoving coefficients are not those of the resonant limit.
* C43 (`C43_violated_iteration`, `_photons`, `_ranks`): `sim.iteration` is set to the requested iteration although data of
  the nearest one are loaded; photons are reloaded with `inv_gamma = 1/sqrt(1+u^2)`, so not at c; a crash while the
  checkpoint is being written leaves ranks that restart at different iterations.
* C45 (`C45_violated`, `C45_lost_on_edge`): lab slice lost when the sub-domain moves left by several cells at once; when
  exactly on a sub-domain edge.
* C46, C47 (`C46_violated`, `C46_violated_last`, `C47_violated`): extrapolation in the first half cell; IndexError in the last;
  double recording exactly on the plane.
* C51 (`C51_violated`, `C51_violated_ranks`): zeroed region is `[z_start-(z_end-z_start), z_start)`, cut at the sub-domain.
* C54 (`C54_violated`), C40 (`C40_errors`): a user-given `exchange_period` (zero, too long) is not checked.
* C57 (`C57_violated`): `add_elec_bunch` passes `p_nt=p_nz`.
* C58 (`C58_violated`): `correct_divE` uses `inv_k2`, only created for `curl-free`.
* C62 (`C62_violated`, `C62_violated_ranks`): negative `Q` gives negative weights although documented as absolute value; on
  several ranks each draws its own random bunch and keeps its part, so that the total is not `Q`.
* C64 (`C64_violated`): the antenna emits minus the requested field.
* C64 (`C64_excursion`): the transverse excursion of the antenna particles exceeds the documented fraction of a cell for `a0 > 4*pi`.
* C75 (`C75_fwhm_violated`): `FewCycleLaser.tau_fwhm` is not the FWHM of the intensity of the envelope but that of the field divided by
  sqrt(2), equal only in the limit of long pulses.
* C76 (`C76_units_violated`): `gridUnitSI` of a lasy file multiplies the spacing but not the offset of its axes.
* C77 (`C77_mass_violated`): `unit_dimension_dict["mass"]` is the dimension of a length.
* C78 (`C78_violated`): `subsampling_fraction` draws from `np.random` (particle_diag.py:386), the generator of
  ionization (ionizer.py:247) and of continuous injection (continuous_injection.py:304), so that enabling the diagnostic
  changes a seeded run. (Also, see C117: `set_random_seed` does not seed the generator that Numba uses for Compton
  scattering on CPU, compton/numba_methods.py:92.)
* C65 (`C65_violated_kz0`): direct injection does not remove the divergence of E at `kz = 0`.
* C67 (`C67_violated_last_half_cell`), C68 (`C68_violated_last_half_cell`): GPU cell indices wrap the last half cell
  of the local grid to cell 0; not reachable with guard cells and the automatic exchange period (`C67_in_grid`).
* C68 (`C68_violated_weight`): `openpmd_diag/cuda_methods.py:62` writes `w*ionization_level` for `w` on GPU only.
* C70 (`C70_stale_step`, `C70_stale_violated`): on the GPU, `step(move_positions=False)` in a Galilean frame displaces the grid
  without resetting `Particles.sorted`; the depositions then use the cell indices of an earlier grid.
* C71 (`C71_violated`): the position of the moving window within a cell is not in the checkpoint; after a restart the injection plane is
  computed from the grid, up to a cell behind. If this is more than what window and plasma separate in a step plus one layer, the
  number of new layers is negative, is forgotten at the next exchange, and the last layers of the plasma are created a second time.
* C83: `picmi/simulation.py` ignores the wavelength and the phase of a laser (`C83_violated_wavelength`) and its direction
  (`C83_violated_direction`); the `density_scale` of a uniform species (`C83_violated_density`); drift, thermal spread and inner radius of a
  plasma and the sign of the velocity of a beam (`C83_violated_momentum`, `C83_violated_backward`); a compensation requested in one
  direction only (`C83_violated_compensation`). `make_ionizable` is called again each time a species is added, after which the
  exchange of particles on GPU raises IndexError (`C83_violated_ionization`), and interactions registered before or after
  all species fail or are ignored (`C83_violated_order`). Lab-frame field diagnostics receive the raw list of fields
  (`C83_violated_lab`). Constant applied fields are not transformed to the boosted frame (`C83_violated_applied_boost`). Mirrors and applied
  fields given by expressions always raise (`C83_violated_mirror_analytic`).

Found while reading, outside any property of the list or not formalised:

* `boundary_communicator.gather_ptcl` uses `self.zmin/zmax`, which do not exist.
* `save_beam` with symmetrisation stores the unreplicated `inv_gamma`.
* C84 (`C84_violated`): the kernels give cos = 1, sin = 0 to a particle exactly on the axis, so its contribution to the modes m >= 1 does not turn with
  its momentum. With one mode there is no effect (`C84_rotation_partial`).
* C87 (`C87_violated`): consequence of C24 for whole runs.
* C96 (`C96_front_violated`, `C96_first_period`): contrary to the comment in `initialize_injection_positions` ("there are always particles inside the
  damped region"), nothing is injected before the second exchange: the initial plasma is cut at the end of the physical domain (main.py:952-957),
  `nz_inject` starts at 0, the first exchange is before the first move of the window, and the layers that the first move asks for are only
  created `exchange_period` iterations later. Until then the front of the physical domain, up to `exchange_period - 1` steps of the window,
  is empty, and the plasma is then created inside of the physical domain where the fields need not be zero.
* C97 (`C97_nyquist`, `C97_violated`): with `n_order=-1` (the default) and an even number of cells, the row at the Nyquist frequency has a modified
  wavenumber -pi/dz without a row of the opposite sign. A real mode 0 of E with a component there gets an imaginary B in one step. Diagnostics and
  checkpoints keep the real part only. The charges and currents do not excite it when there is a smoother (its factor vanishes there).
* A restarted script that calls `track()` again increments `n_integer_quantities` twice (on GPU the exchange then raises, see `C83_gpu_pack`).
* `ParticleDiagnostic` reads `dt`, `use_cuda` and `tracker` of a species that is `None` although `write_hdf5` skips such species.
* An invalid string in `fieldtypes` raises on rank 0 only (`create_file_empty_meshes`); the other ranks go on to the gather.
* Negative drawn gammas are kept by the Gaussian bunch helper.
* A rule on `gamma` in the `select` of a back-transformed particle diagnostic raises KeyError.
* Splitting a run in several `step` calls damps the fields one more time per call (see `C40_calls`).
* C99 (`C99_blank`, `C99_violated_vacuum`): the number of species is the only check that a checkpoint is complete. The file is created with
  meshes of zeros and closed before the fields are written (`create_file_empty_meshes`), so a simulation without species that is killed in between
  leaves a file that `restart_from_checkpoint` takes as the last checkpoint: the run continues at that iteration with zero fields and no message.
* C99 (`C99_real_part`, `C99_violated_complex`): where mode 0 is not real (C97), the restart drops the imaginary part, and the run continues from
  other fields than the uninterrupted one.
* C100 (`C100_tracer_violated`): `make_ionizable` checks charge and mass of the target species, but not `is_tracer`. With tracer electrons as the
  target of ions that are not tracers the charge of the ions grows and that of the electrons is never deposited: the plasma becomes positive.

* C101: only the deposition and the gathering are equal to those of one process. The fields are not: each process transforms and pushes
  its own rows with guard cells, which is an approximation for infinite order and exact only up to the reach of the stencil (C65, C54).

* C102 (`C102_receive_buffers_needs_check`): the kernel that adds received guard cells lets one thread add to a row at the left and to one at the
  right end. If the two regions overlapped, an update could be lost, on the GPU only. The check `Nz >= 4 n_guard` of the decomposition excludes it.

* C103 (`C103_violated`): where `w**2 == kz**2*V**2` the code replaces the denominator by 1, which has no dimension. This happens for a frame at
  exactly the velocity of light, at `kr = 0` (which is in the grid of every mode but 0). There `xi_1` is not the limit, and for `exp(i kz V dt) = 1` `xi_2` is 1, so
  that a simulation at another scale gives other fields. The theorem asks for a slower frame.
* C104 (`C104_recoil_violated`): the comment in compton/numba_methods.py:252-261 says that at least one photon is created with the probability
  `p*ratio_w_elec_photon`, so that a recoil with the probability `inv_ratio_w_elec_photon` gives `p` in total. This holds only while
  `p*ratio <= 1` (and `ratio >= 1`): beyond, the recoil saturates at `1/ratio` and the electrons lose less momentum than the photons carry.
* C105 (`C105_superluminal_violated`): the recoil leaves `inv_gamma` unchanged (see C19) and happens between the two halves of the position push,
  so an electron that takes a recoil is moved by u·inv_gamma·c·dt/2 with |u|·inv_gamma > 1, that is faster than light, in the second half. The
  momentum push of the next iteration repairs it. `C105_run_partial` proves the bound (1+k) c, with k the momentum of the incoming photons over m c. With
  `step(move_momenta=False)` the repair never happens, which is why C105 asks for calls that push the momenta.
* C106 (`C106_fields_order_violated`): `step` sets `keep_fields_sorted = False` before the depositions, so these reorder positions, momenta, weights
  (and levels, ids) but not the arrays `Ex … Bz`. After a call to `step` on the GPU, `species.Ex[i]` is not the field felt by the particle `i`. Everything
  inside the cycle regathers the fields before it uses them, and the diagnostics run while the flag is set, so only a user (or a callback) that reads the
  arrays between calls is affected.
* C108 (`C108_violated`): with `n_order = -1` and an even number of cells the modified wavenumber at Nyquist is `-pi/dz`, not 0, and the row is its own opposite. An electric field along x at this wavenumber then creates a magnetic field along x instead of none, and the reflection in the plane y = 0 is broken. Same cause as C97; a finite order (the wavenumber vanishes there) or an odd number of cells does not have it, and the default smoother removes this wavenumber from the sources but not from the fields.

* C109 (division of a run with open boundaries into calls): two parts of `step` are done once per call and not once per
  iteration. `damp_EB_open_boundary` is applied before the loop (main.py:404-410), so that the fields in the damping cells are
  multiplied by the profile once more at every call (`C109_empty_calls`, `C109_damped_violated`). The particles are exchanged in the first
  iteration of every call, also if the exchange period (two or more iterations) has not passed, so that a particle that has left the
  box is removed earlier (`C109_violated`). What happens otherwise does not depend on how the run is divided
  (`C109_split_partial`), and never on stale arrays (`C109_stored`).
* C110 (measured spectrum): `subtract_linear_phase` subtracts the linear coefficient of a polynomial in `omega`, which is the
  slope at `omega = 0` and not at the central frequency. For a phase `phi2/2 (omega - omega0)^2`, without slope at the centre, it adds
  `phi2 omega0 omega` and delays the pulse by `phi2 omega0` (`C110_subtract_violated`); in a concrete case the field at the centre changes its sign
  (`C110_opposite_sign_violated`). The docstring says that the integrand is multiplied by `k`; the code divides by `k`, which is right for
  an intensity per unit of wavelength (`C110_documented_violated`, `C110_intensity`). For a file whose wavelengths are not in order the mean
  wavelength (`np.trapz`) can be outside of the measured range, while the interpolation sorts; `C110_mean` asks for the order.
* C112 (reach of the stencil): `stencil_reach` takes the first cell below `1.e-16` in the first half of the grid. On a short grid
  there is none, and `[0][0]` raises `IndexError` instead of a message (`C112_reach_violated`, four cells, `c dt = π/2`). A cell in which the
  three stencils vanish by accident is taken as the reach, although the stencil is large beyond it (`C112_suffices_violated`,
  four cells, `c dt = π`, `dz = 2/√3`: reach 1, stencil 1/2 in the cell 2).
* C113 (data on CPU and GPU): `write_hdf5` of the particle diagnostics calls `receive_particles_from_gpu` whenever `use_cuda` is set, not
  when the data is on the GPU (`data_is_on_gpu`). Outside of `step`, for a species under two names in one diagnostic, and for a species that is not in `sim.ptcl`,
  this raises `AttributeError: 'numpy.ndarray' object has no attribute 'get'` on a GPU, while the same script works on the CPU
  (`C113_outside_violated`, `C113_names_violated`).
* C114 (selection of the GPUs): if the ranks of a node are not consecutive, `rank` is the rank in the communicator of the node, but the UUIDs are
  gathered on rank 0 of `COMM_WORLD`; the first process of every other node evaluates `None in None` and stops with a `TypeError` when the code is
  imported (`C114_split_violated`, for every such distribution). The colour of a node is its name as a number modulo 10^8; with the names `nid03040`
  and `nid10204` it is the same (`C114_colour_violated`). The barrier stands in a loop over the GPUs of the own node: with different numbers of
  GPUs the processes wait without end (`C114_unequal_violated`).
* C115 (compiled kernels): the key of the dictionary is the hash of dtypes and numbers of dimensions; numba also specialises on the layout. A
  kernel compiled for contiguous arrays is reused for views with other strides (`C115_layout_violated`). All kernels of the code itself are called with
  contiguous arrays as far as could be seen. Different types with the same hash would share a kernel (hypothesis of `C115_kernel`).
* C116 (particle files): files are opened with mode "a" and only the datasets that are written again are removed. A second diagnostic for the
  same species (other selection, other quantities), or a second run in the same directory, leaves a file in which the arrays of one
  species belong to different particles (`C116_mixed_violated`, in general `C116_leftover`). If a species was ionizable in the earlier run
  and is not now, the first output raises `TypeError` (`C116_ionizable_violated`; the other order works, `C116_again`). Single components
  (`particle_data=["y"]`) are accepted, but the record has no `unitDimension` (`C116_component_violated`).
* C117 (`set_random_seed`): the functions compiled by Numba use generators of their own, which are not seeded; Compton scattering on CPU is
  not repeated (`C117_compton_violated`). The seed of a process is the sum of the seed and its rank, so runs with neighbouring seeds use the
  same numbers on neighbouring processes (`C117_overlap_violated`). On GPU the Compton process takes `np.random.randint(256)` as seed, so among
  257 calls two use the same random numbers (`C117_repeat_violated`).
* C118 (field files): datasets that exist are required to have the same shape. A run with another number of cells in the directory of an
  earlier run stops with `TypeError` at the first output, after the time of the file has been changed (`C118_shape_violated`). Fields of an
  earlier run that are not written again stay in the files, under the time of the new run (`C118_stale_violated`). `rho_<species>` as a
  field type of `FieldDiagnostic` raises `ValueError` only after a dataset of zeros has been created (`C118_name_violated`).
* C119 (density functions): a function without arguments ends with `IndexError` instead of the documented `ValueError`
  (`C119_noargs_violated`). The check is only made where particles are created or in a boosted frame: a species that has no particles in the
  box at first is accepted with a function of `(r, z)`, and the run stops when its injection begins (`C119_late_violated`).
* C120 (input script): the script is the first argument that contains `.py` anywhere, so a program in a directory `.pyenv` is saved instead
  of `run.py` (`C120_path_violated`). If no script is found (interactive session), `param_dict` is not written either, against its
  documentation (`C120_params_violated`).
* C121 (reports): the clock is not read after the last iteration, so the summary lacks it: a run of one iteration is reported with 0 seconds
  (`C121_summary_violated`). `step(0)` with the progress bar ends with `ZeroDivisionError` (`C121_zero_violated`). Without cupy the name
  `OutOfMemoryError` of the clause `except` does not exist, so that any exception in ionization or Compton scattering (also Ctrl-C) is
  replaced by `NameError` (`C121_name_violated`).
* C122 (fields on the particles): `gather` returns at once for neutral species and the external fields are then added to what the arrays hold
  already, so that a uniform field of 1 is reported as n after n iterations on photons and other neutral particles (`C122_neutral_violated`).
  The motion is not affected.
* C123 (bunches from openPMD files): `select` is passed to openPMD-viewer as it is; the documentation gives microns, but version 1, which is
  tried first, uses meters: `[-4., 10.]` then keeps everything (`C123_microns_violated`). If no particle is left, `np.average` raises
  `ZeroDivisionError` (`C123_empty_violated`).
* C124 (lab-frame particle snapshots over several runs): the files are opened with mode `"a"` and appended to, and the buffers are not part of
  a checkpoint. A restart gives every particle once only if the stopped run wrote its buffers last at the iteration just before the checkpoint
  (`C124_restart_iff`), which never holds for checkpoints at multiples of the period (`C124_multiple_violated`: the particles since the last
  multiple are lost; if the run went on after the checkpoint they may be there twice). A repetition in the same directory doubles every particle
  (`C124_repeat_violated`); h5py before version 3 raises `TypeError` instead (`C124_old_h5py_iff`). If a run is killed between two
  quantities of one snapshot, the columns stay shifted against each other whatever follows (`C124_killed_violated`).
* C125 (lab-frame field snapshots over several runs): slices are written by their index, so that repeated iterations do no harm (`C125_repeat`),
  but the buffers are not part of a checkpoint: if a run ends with a checkpoint at a multiple of the period (at least 2), the slices since the last
  multiple stay zero in the snapshots of the restarted simulation (`C125_lost_violated`). `C125_restart` and
  `C125_killed` (run killed between two quantities of a snapshot) give the condition under which nothing is missing.
* C126 (ranges of lab times): no disagreement found; for the particle snapshots overlapping ranges double the particles (C124).
* C127 (ranges of lab times, particles): the file of a snapshot in the ranges of two simulations holds each particle twice, whereas overlapping ranges of field snapshots do no harm (C126).
* C128 (GPUDirect): `exchange_fields` chooses the GPU buffers by `gpudirect_enabled` alone (boundary_communicator.py:637-649), while
  `handle_vec_buffer` fills and uses the CPU buffers if the simulation runs on the CPU. With FBPIC_ENABLE_GPUDIRECT=1 a CPU simulation on several
  processes ends with NameError (no CUDA) or fills its guard cells with uninitialised memory (CUDA installed).

## 5. Coverage

'E' executable or mathematical model of the function's logic, 'P' passed as a parameter, '-' not modelled.

| file in fbpic/ | modelled | not modelled |
|---|---|---|
| main.py | __init__ decomposition/guards/exchange period, step, deposit, exchange calls, add_new_species, adapt_to_grid, set_moving_window, reverse_time | plotting |
| boundaries/* | domain decomposition, exchanges of fields and particles (CPU and GPU), gather/scatter, periodic wrap, damping, PML, moving window | MPI itself |
| fields/* | transforms, k-arrays, modified k, reach of the stencil, PSATD coefficients, all pushes, current corrections, filters, partial/divide-by-volume steps | mkl/cufft; `jn`, `jn_zeros`, `j1` of scipy are taken to be the Bessel functions and their zeros in increasing order, `np.linalg.pinv/inv` to be the inverse |
| particles/deposition | shapes, CPU and GPU kernels, guard cells, reductions | int32 conversions on the GPU |
| particles/gathering, push, utilities, injection, tracking | all CPU and GPU kernels, threads with arbitrary interleaving (`Model/Kernels.lean`) | memory model of the GPU below single statements |
| particles/elementary_process | ionization and Compton loops, batching, copying, Lorentz transforms, Klein-Nishina sampling, ADK rate and table of ionization energies | the regular expression that parses the table |
| lpa_utils | antenna, direct injection of laser, boosted frame, mirrors, external fields, bunch loading (also from openPMD files), space charge, laser profiles, custom spectrum | `fsolve` |
| openpmd_diag | schedule, checkpoint/restart, back-transformed fields and particles (CPU, GPU extraction), selection, contents and attributes of field files (new or existing), tree and attributes of particle files, input script | attributes that describe the solver |
| main.py (assembled) | `Model/Pic.lean` assembles the kernels for one process on the CPU, periodic in z; `Model/PicOpen.lean` adds open boundaries, moving window with continuous injection, antennas, mirrors; `Model/PicIonize.lean` adds ionization and `Model/PicCompton.lean` Compton scattering to the periodic cycle; `Model/PicLaser.lean` puts a laser pulse on its grid; `Model/Ranks.lean` deposition and gathering on several processes | `Model/PicGpu.lean` is the periodic run on the GPU. PML and several processes are modelled separately, not in the assembled run. `Model/PicCheckpoint.lean` adds checkpoints, crashes and restarts to the periodic run. A periodic communicator with guard cells on one process does not occur (`mkComm`) and its exchange is not modelled |
| picmi | grid, time step, smoother, lasers, species, ionization, fields of the diagnostics, applied fields | particle diagnostics (passed on), `picmistandard` itself, evaluation of expressions |
| utils | thread chunks, placement of the data, selection of the GPUs, cache of compiled kernels, random seed, progress bar, GPU memory errors, GPUDirect | description of the setup, dummy communicator without MPI, versions of numba and cupy |

## 6. Axioms

`#print axioms` gives a subset of `propext, Classical.choice, Quot.sound` for every theorem in the manifest
(checked by a script over all declarations named `Fbpic.Cxx_*`).

## 7. Wrong programs

`seeded/LOG.jsonl` records edits of model definitions in a scratch copy. `declarations_failed` are the
declarations reported by `lake build` (in the first modules that break), `theorems_failed` the property theorems
that depend on one of them. Entries with `survived: true` list the theorem that was added or tightened, or why the edit does not
falsify a claim.
