{
 "claims": [
  {
   "property": "C01",
   "status": "proved",
   "theorems": [
    "Fbpic.C01_partition",
    "Fbpic.C01_guard_extension",
    "Fbpic.C01_even",
    "Fbpic.C01_missing_rank",
    "Fbpic.C01_reject_iff",
    "Fbpic.C01_accepted_size"
   ],
   "note": ""
  },
  {
   "property": "C02",
   "status": "proved",
   "theorems": [
    "Fbpic.C02_extent",
    "Fbpic.C02_shared_edge",
    "Fbpic.C02_shared_cell",
    "Fbpic.C02_same_centre"
   ],
   "note": ""
  },
  {
   "property": "C03",
   "status": "proved",
   "theorems": [
    "Fbpic.C03_symmetric",
    "Fbpic.C03_peers",
    "Fbpic.C03_matched",
    "Fbpic.C03_delivery"
   ],
   "note": ""
  },
  {
   "property": "C04",
   "status": "proved",
   "theorems": [
    "Fbpic.C04_replace",
    "Fbpic.C04_owned_unchanged",
    "Fbpic.C04_idempotent",
    "Fbpic.C04_ok_iff"
   ],
   "note": ""
  },
  {
   "property": "C05",
   "status": "proved",
   "theorems": [
    "Fbpic.C05_add",
    "Fbpic.C05_agree",
    "Fbpic.C05_conserves"
   ],
   "note": ""
  },
  {
   "property": "C06",
   "status": "proved",
   "theorems": [
    "Fbpic.C06_gather",
    "Fbpic.C06_scatter",
    "Fbpic.C06_gather_scatter",
    "Fbpic.C06_scatter_gather"
   ],
   "note": ""
  },
  {
   "property": "C07",
   "status": "proved",
   "theorems": [
    "Fbpic.C07_exchange"
   ],
   "note": ""
  },
  {
   "property": "C08",
   "status": "partial",
   "theorems": [
    "Fbpic.C08_left_partial",
    "Fbpic.C08_right_received",
    "Fbpic.C08_right_changed",
    "Fbpic.C08_right_bits",
    "Fbpic.C08_right_violated"
   ],
   "note": "Leftward transfers proved; the property is false for rightward transfers (uint_send_right is float64): general statement of what is received, and a concrete reachable violation."
  },
  {
   "property": "C09",
   "status": "proved",
   "theorems": [
    "Fbpic.C09_wrap",
    "Fbpic.C09_idempotent",
    "Fbpic.C09_species"
   ],
   "note": ""
  },
  {
   "property": "C10",
   "status": "partial",
   "theorems": [
    "Fbpic.C10_open_partial",
    "Fbpic.C10_nguard0_violated",
    "Fbpic.C10_periodic"
   ],
   "note": "Proved for n_guard>0 (open) and for periodic; false for the accepted combination open + n_guard=0 (C10_nguard0_violated)."
  },
  {
   "property": "C11",
   "status": "proved",
   "theorems": [
    "Fbpic.C11_within_one_cell",
    "Fbpic.C11_whole_cells",
    "Fbpic.C11_monotone",
    "Fbpic.C11_total",
    "Fbpic.C11_periodic_rejected"
   ],
   "note": ""
  },
  {
   "property": "C12",
   "status": "proved",
   "theorems": [
    "Fbpic.C12_translation",
    "Fbpic.C12_compose",
    "Fbpic.C12_restore",
    "Fbpic.C12_full_turn",
    "Fbpic.C12_fft_inverse"
   ],
   "note": ""
  },
  {
   "property": "C13",
   "status": "proved",
   "theorems": [
    "Fbpic.C13_tiling",
    "Fbpic.C13_tiling_slow_window",
    "Fbpic.C13_keeps_up",
    "Fbpic.C13_start"
   ],
   "note": ""
  },
  {
   "property": "C14",
   "status": "proved",
   "theorems": [
    "Fbpic.C14_unique",
    "Fbpic.C14_extend"
   ],
   "note": ""
  },
  {
   "property": "C15",
   "status": "partial",
   "theorems": [
    "Fbpic.C15_violated",
    "Fbpic.C15_iff_partial",
    "Fbpic.C15_intended"
   ],
   "note": "The property is false of the code on restart of more than one process history (typo in overwrite_ids keeps the old counter): C15_violated gives a concrete run, C15_iff_partial says exactly when it holds, C15_intended proves it for the evidently intended code."
  },
  {
   "property": "C16",
   "status": "proved",
   "theorems": [
    "Fbpic.C16_levels",
    "Fbpic.C16_charge",
    "Fbpic.C16_one_electron_per_level"
   ],
   "note": ""
  },
  {
   "property": "C17",
   "status": "proved",
   "theorems": [
    "Fbpic.C17_refines"
   ],
   "note": ""
  },
  {
   "property": "C18",
   "status": "proved",
   "theorems": [
    "Fbpic.C18_number",
    "Fbpic.C18_number_mean",
    "Fbpic.C18_probability",
    "Fbpic.C18_incoming",
    "Fbpic.C18_lorentz",
    "Fbpic.C18_photon",
    "Fbpic.C18_batches",
    "Fbpic.C18_stored"
   ],
   "note": ""
  },
  {
   "property": "C19",
   "status": "partial",
   "theorems": [
    "Fbpic.C19_iff_partial",
    "Fbpic.C19_violated"
   ],
   "note": "The property is false of the code: the recoil changes ux,uy,uz and not inv_gamma. C19_violated is a concrete event, C19_iff_partial proves that consistency is kept exactly when the photon energy is unchanged."
  },
  {
   "property": "C20",
   "status": "proved",
   "theorems": [
    "Fbpic.C20_cell_range",
    "Fbpic.C20_prefix",
    "Fbpic.C20_ranges",
    "Fbpic.C20_rearrange",
    "Fbpic.C20_sort"
   ],
   "note": ""
  },
  {
   "property": "C21",
   "status": "proved",
   "theorems": [
    "Fbpic.C21_chunks",
    "Fbpic.C21_thread_independent"
   ],
   "note": ""
  },
  {
   "property": "C22",
   "status": "proved",
   "theorems": [
    "Fbpic.C22_longitudinal",
    "Fbpic.C22_radial"
   ],
   "note": ""
  },
  {
   "property": "C23",
   "status": "proved",
   "theorems": [
    "Fbpic.C23_charge",
    "Fbpic.C23_current",
    "Fbpic.C23_transverse",
    "Fbpic.C23_even_modes"
   ],
   "note": ""
  },
  {
   "property": "C24",
   "status": "partial",
   "theorems": [
    "Fbpic.C24_bounds_iff_partial",
    "Fbpic.C24_deposit_partial",
    "Fbpic.C24_one_step_partial",
    "Fbpic.C24_violated"
   ],
   "note": "Exact region in which every write is in bounds (linear +-1.5 cells, cubic +-0.5 cells), deposition succeeds there, one step of motion keeps linear particles there. False for the cubic shape in the periodic single-process box: C24_violated."
  },
  {
   "property": "C25",
   "status": "proved",
   "theorems": [
    "Fbpic.C25_uniform",
    "Fbpic.C25_outside",
    "Fbpic.C25_linear",
    "Fbpic.C25_kernels_agree"
   ],
   "note": ""
  },
  {
   "property": "C26",
   "status": "proved",
   "theorems": [
    "Fbpic.C26_adjoint",
    "Fbpic.C26_longitudinal"
   ],
   "note": ""
  },
  {
   "property": "C27",
   "status": "proved",
   "theorems": [
    "Fbpic.C27_push_iff",
    "Fbpic.C27_consistent",
    "Fbpic.C27_no_field",
    "Fbpic.C27_magnetic",
    "Fbpic.C27_reversible",
    "Fbpic.C27_position"
   ],
   "note": ""
  },
  {
   "property": "C28",
   "status": "proved",
   "theorems": [
    "Fbpic.C28_levels"
   ],
   "note": ""
  },
  {
   "property": "C29",
   "status": "proved",
   "theorems": [
    "Fbpic.C29_restores",
    "Fbpic.C29_intermediate"
   ],
   "note": ""
  },
  {
   "property": "C30",
   "status": "partial",
   "theorems": [
    "Fbpic.C30_curl_free",
    "Fbpic.C30_cross",
    "Fbpic.C30_cross_all",
    "Fbpic.C30_kz0",
    "Fbpic.C30_zero_iff",
    "Fbpic.C30_violated",
    "Fbpic.C30_cross_deposited",
    "Fbpic.C30_kz_zero"
   ],
   "note": "Curl-free: proved at every non-zero wavenumber (C30_zero_iff says what happens at zero). Cross-deposition: proved for kz,kr non-zero for any sources and, from the particles through deposition, transforms and filter, at all wavenumbers (C30_cross_deposited), with the filter or n_order=-1 or an odd number of cells (C30_kz_zero: otherwise kz also vanishes at the Nyquist wavenumber); false for arbitrary sources on the axes (C30_violated). Galilean/comoving: for kz V dt not a non-zero multiple of 2 pi."
  },
  {
   "property": "C31",
   "status": "proved",
   "theorems": [
    "Fbpic.C31_gauss",
    "Fbpic.C31_run",
    "Fbpic.C31_corrected",
    "Fbpic.C31_regular",
    "Fbpic.C31_resonance"
   ],
   "note": "Galilean/comoving: for kz V dt not a non-zero multiple of 2 pi, which always holds for c dt <= 2 dz (C31_regular); C31_resonance shows the restriction is needed."
  },
  {
   "property": "C32",
   "status": "proved",
   "theorems": [
    "Fbpic.C32_divB",
    "Fbpic.C32_run"
   ],
   "note": ""
  },
  {
   "property": "C33",
   "status": "proved",
   "theorems": [
    "Fbpic.C33_exact",
    "Fbpic.C33_solution",
    "Fbpic.C33_vacuum",
    "Fbpic.C33_semigroup",
    "Fbpic.C33_inverse",
    "Fbpic.C33_energy"
   ],
   "note": ""
  },
  {
   "property": "C34",
   "status": "proved",
   "theorems": [
    "Fbpic.C34_true_rho"
   ],
   "note": ""
  },
  {
   "property": "C35",
   "status": "proved",
   "theorems": [
    "Fbpic.C35_zero_velocity",
    "Fbpic.C35_vacuum"
   ],
   "note": ""
  },
  {
   "property": "C36",
   "status": "proved",
   "theorems": [
    "Fbpic.C36_profile",
    "Fbpic.C36_cpu",
    "Fbpic.C36_absorbs",
    "Fbpic.C36_gpu",
    "Fbpic.C36_refused"
   ],
   "note": ""
  },
  {
   "property": "C37",
   "status": "proved",
   "theorems": [
    "Fbpic.C37_profile",
    "Fbpic.C37_applied",
    "Fbpic.C37_interior"
   ],
   "note": ""
  },
  {
   "property": "C38",
   "status": "proved",
   "theorems": [
    "Fbpic.C38_factor",
    "Fbpic.C38_continuity",
    "Fbpic.C38_correction_commutes",
    "Fbpic.C38_refused",
    "Fbpic.C38_arrays",
    "Fbpic.C38_nyquist"
   ],
   "note": ""
  },
  {
   "property": "C39",
   "status": "proved",
   "theorems": [
    "Fbpic.C39_moments",
    "Fbpic.C39_exact",
    "Fbpic.C39_symbol",
    "Fbpic.C39_modified",
    "Fbpic.C39_refused",
    "Fbpic.C39_sign"
   ],
   "note": ""
  },
  {
   "property": "C40",
   "status": "proved",
   "theorems": [
    "Fbpic.C40_cycle",
    "Fbpic.C40_calls",
    "Fbpic.C40_step",
    "Fbpic.C40_errors"
   ],
   "note": ""
  },
  {
   "property": "C41",
   "status": "proved",
   "theorems": [
    "Fbpic.C41_schedule",
    "Fbpic.C41_iterations"
   ],
   "note": ""
  },
  {
   "property": "C42",
   "status": "proved",
   "theorems": [
    "Fbpic.C42_schedule",
    "Fbpic.C42_run"
   ],
   "note": ""
  },
  {
   "property": "C43",
   "status": "partial",
   "theorems": [
    "Fbpic.C43_restored_partial",
    "Fbpic.C43_program_partial",
    "Fbpic.C43_violated_iteration",
    "Fbpic.C43_violated_photons",
    "Fbpic.C43_violated_ranks"
   ],
   "note": "Proved for every rank and the whole program when the requested iteration is stored, species are massive and all ranks hold the same checkpoints. False otherwise: C43_violated_iteration (counter not that of the data), C43_violated_photons (photons stop), C43_violated_ranks (crash during a checkpoint leaves ranks at different iterations)."
  },
  {
   "property": "C44",
   "status": "proved",
   "theorems": [
    "Fbpic.C44_refused",
    "Fbpic.C44_species"
   ],
   "note": ""
  },
  {
   "property": "C45",
   "status": "partial",
   "theorems": [
    "Fbpic.C45_plane",
    "Fbpic.C45_run",
    "Fbpic.C45_cells",
    "Fbpic.C45_period",
    "Fbpic.C45_violated",
    "Fbpic.C45_lost_on_edge"
   ],
   "note": "Proved for all boosts, ranks, periods and iterations when the sub-domain edges do not move left faster than the plane (fixed, Galilean, right-moving windows). False for a window moving left by several cells at once (C45_violated); a plane exactly on a sub-domain edge is lost (C45_lost_on_edge)."
  },
  {
   "property": "C46",
   "status": "partial",
   "theorems": [
    "Fbpic.C46_convex_partial",
    "Fbpic.C46_violated",
    "Fbpic.C46_violated_last",
    "Fbpic.C46_gpu"
   ],
   "note": "Proved from the centre of the first cell on. False in the first half cell (C46_violated: extrapolation) and in the last one without guard cells (C46_violated_last: IndexError)."
  },
  {
   "property": "C47",
   "status": "partial",
   "theorems": [
    "Fbpic.C47_once_partial",
    "Fbpic.C47_caught",
    "Fbpic.C47_ranks",
    "Fbpic.C47_violated",
    "Fbpic.C47_event",
    "Fbpic.C47_momentum"
   ],
   "note": "Caught at least once, and at most once unless exactly on the plane at an iteration, where it is recorded twice (C47_violated). Trajectory: straight within a step with the momentum known at its end."
  },
  {
   "property": "C48",
   "status": "proved",
   "theorems": [
    "Fbpic.C48_transform",
    "Fbpic.C48_inverse",
    "Fbpic.C48_invariants"
   ],
   "note": ""
  },
  {
   "property": "C49",
   "status": "proved",
   "theorems": [
    "Fbpic.C49_boost",
    "Fbpic.C49_velocity",
    "Fbpic.C49_momentum",
    "Fbpic.C49_gamma",
    "Fbpic.C49_gamma_backward",
    "Fbpic.C49_length",
    "Fbpic.C49_density",
    "Fbpic.C49_wavenumber",
    "Fbpic.C49_arrays",
    "Fbpic.C49_interaction"
   ],
   "note": ""
  },
  {
   "property": "C50",
   "status": "proved",
   "theorems": [
    "Fbpic.C50_error",
    "Fbpic.C50_lab",
    "Fbpic.C50_boost"
   ],
   "note": ""
  },
  {
   "property": "C51",
   "status": "partial",
   "theorems": [
    "Fbpic.C51_position",
    "Fbpic.C51_zeroed_partial",
    "Fbpic.C51_violated",
    "Fbpic.C51_violated_ranks"
   ],
   "note": "The property is false of the code: the zeroed slab lies before z_start instead of between z_start and z_end (C51_violated, for every mirror at least one cell thick), and it is cut at the left end of the sub-domain that holds z_start (C51_violated_ranks). C51_zeroed_partial says exactly which cells are zeroed and that all else is unchanged; C51_position: faces at rest in the lab."
  },
  {
   "property": "C52",
   "status": "proved",
   "theorems": [
    "Fbpic.C52_one_rank",
    "Fbpic.C52_neutral",
    "Fbpic.C52_neutral_current",
    "Fbpic.C52_superimposed",
    "Fbpic.C52_plane",
    "Fbpic.C52_event"
   ],
   "note": ""
  },
  {
   "property": "C53",
   "status": "proved",
   "theorems": [
    "Fbpic.C53_gauss",
    "Fbpic.C53_maxwell",
    "Fbpic.C53_source",
    "Fbpic.C53_gamma",
    "Fbpic.C53_ranks"
   ],
   "note": ""
  },
  {
   "property": "C54",
   "status": "partial",
   "theorems": [
    "Fbpic.C54_rejected",
    "Fbpic.C54_enough_cells",
    "Fbpic.C54_guard_partial",
    "Fbpic.C54_cells_partial",
    "Fbpic.C54_history_partial",
    "Fbpic.C54_deposit_partial",
    "Fbpic.C54_violated"
   ],
   "note": "Proved for the automatically chosen exchange period (any number of guard cells, time step, Galilean velocity and moving window up to c, any trajectories): guard region, grid indices, deposition, and delivery after every exchange of every run. A period given by the user is not checked by the code: C54_violated. A single-process periodic box has no guard cells (see C10, C24)."
  },
  {
   "property": "C55",
   "status": "proved",
   "theorems": [
    "Fbpic.C55_threads",
    "Fbpic.C55_rt_to_pm",
    "Fbpic.C55_pm_to_rt",
    "Fbpic.C55_roundtrip",
    "Fbpic.C55_halves"
   ],
   "note": ""
  },
  {
   "property": "C56",
   "status": "proved",
   "theorems": [
    "Fbpic.C56_load",
    "Fbpic.C56_ranks",
    "Fbpic.C56_positions",
    "Fbpic.C56_arguments",
    "Fbpic.C56_boost"
   ],
   "note": ""
  },
  {
   "property": "C57",
   "status": "partial",
   "theorems": [
    "Fbpic.C57_partial",
    "Fbpic.C57_violated",
    "Fbpic.C57_violated_count",
    "Fbpic.C57_self_field"
   ],
   "note": "The helper passes p_nz as p_nt: equal to the general function exactly if they agree (C57_partial); C57_violated says what differs for all arguments, C57_violated_count shows it with the default values. "
  },
  {
   "property": "C58",
   "status": "partial",
   "theorems": [
    "Fbpic.C58_gauss_partial",
    "Fbpic.C58_zero_partial",
    "Fbpic.C58_violated"
   ],
   "note": "Proved for the curl-free current correction; false for cross-deposition, where correct_divE raises AttributeError for every state (C58_violated)."
  },
  {
   "property": "C59",
   "status": "proved",
   "theorems": [
    "Fbpic.C59_reverse_time"
   ],
   "note": ""
  },
  {
   "property": "C60",
   "status": "proved",
   "theorems": [
    "Fbpic.C60_gather",
    "Fbpic.C60_selection",
    "Fbpic.C60_no_subsampling",
    "Fbpic.C60_dataset",
    "Fbpic.C60_ids",
    "Fbpic.C60_rejected",
    "Fbpic.C60_lab_selection",
    "Fbpic.C60_lab_file"
   ],
   "note": ""
  },
  {
   "property": "C61",
   "status": "proved",
   "theorems": [
    "Fbpic.C61_ballistic",
    "Fbpic.C61_lab_frame",
    "Fbpic.C61_straight_line"
   ],
   "note": ""
  },
  {
   "property": "C62",
   "status": "partial",
   "theorems": [
    "Fbpic.C62_charge",
    "Fbpic.C62_symmetric",
    "Fbpic.C62_focus",
    "Fbpic.C62_refused",
    "Fbpic.C62_file",
    "Fbpic.C62_elec_partial",
    "Fbpic.C62_violated",
    "Fbpic.C62_ranks_partial",
    "Fbpic.C62_violated_ranks"
   ],
   "note": "General function, file loader, symmetrization: proved for all draws. False for the electron helpers with negative Q (C62_violated: all weights negative) and on several ranks with independent random generators (C62_violated_ranks); C62_ranks_partial is the case of equal draws."
  },
  {
   "property": "C63",
   "status": "proved",
   "theorems": [
    "Fbpic.C63_distribution",
    "Fbpic.C63_attributes"
   ],
   "note": ""
  },
  {
   "property": "C64",
   "status": "partial",
   "theorems": [
    "Fbpic.C64_emitted_partial",
    "Fbpic.C64_violated",
    "Fbpic.C64_excursion",
    "Fbpic.C64_pulse"
   ],
   "note": "Amplitude proved for antennas at rest, moving, and in a boosted frame, and for everything add_laser_pulse accepts (C64_pulse); the polarity is reversed for every profile (C64_violated). The emitted field is that of a plane sheet carrying the deposited current (not through the grid)."
  },
  {
   "property": "C65",
   "status": "partial",
   "theorems": [
    "Fbpic.C65_div",
    "Fbpic.C65_wave",
    "Fbpic.C65_push",
    "Fbpic.C65_azimuthal",
    "Fbpic.C65_polarized",
    "Fbpic.C65_boost",
    "Fbpic.C65_violated_kz0",
    "Fbpic.C65_ranks"
   ],
   "note": "Everything proved for kz != 0; at kz = 0 the divergence of E is not removed (C65_violated_kz0). The Hankel/Fourier transforms around the calculation are a parameter here; C107 has the calculation with the transforms in the assembled simulation."
  },
  {
   "property": "C66",
   "status": "proved",
   "theorems": [
    "Fbpic.C66_hankel",
    "Fbpic.C66_fourier",
    "Fbpic.C66_scal_spect",
    "Fbpic.C66_scal_interp",
    "Fbpic.C66_scal_roundtrip",
    "Fbpic.C66_scal_interp_roundtrip",
    "Fbpic.C66_vect_spect",
    "Fbpic.C66_vect_interp",
    "Fbpic.C66_vect_roundtrip",
    "Fbpic.C66_vect_interp_roundtrip",
    "Fbpic.C66_scal_projection",
    "Fbpic.C66_low_kept"
   ],
   "note": ""
  },
  {
   "property": "C67",
   "status": "proved",
   "theorems": [
    "Fbpic.C67_exchange",
    "Fbpic.C67_same_as_cpu",
    "Fbpic.C67_in_grid",
    "Fbpic.C67_violated_last_half_cell"
   ],
   "note": "The particles must not be in the last half cell of the local grid (they would be sent left: C67_violated_last_half_cell); C67_in_grid proves that they are not, with the automatic exchange period."
  },
  {
   "property": "C68",
   "status": "partial",
   "theorems": [
    "Fbpic.C68_gpu_partial",
    "Fbpic.C68_same",
    "Fbpic.C68_violated_weight",
    "Fbpic.C68_violated_last_half_cell"
   ],
   "note": "Proved for non-ionizable species (C68_same), and for ionizable ones up to the weight, which the GPU replaces by weight times level (C68_violated_weight). Particles in the last half cell of a grid without guard cells are missed (C68_violated_last_half_cell)."
  },
  {
   "property": "C69",
   "status": "proved",
   "theorems": [
    "Fbpic.C69_modes",
    "Fbpic.C69_uniform_charge",
    "Fbpic.C69_uniform_current",
    "Fbpic.C69_standard_axis"
   ],
   "note": ""
  },
  {
   "property": "C70",
   "status": "proved",
   "theorems": [
    "Fbpic.C70_gpu_cpu",
    "Fbpic.C70_coefs",
    "Fbpic.C70_gpu_charge",
    "Fbpic.C70_stale_violated",
    "Fbpic.C70_fresh",
    "Fbpic.C70_stale_step"
   ],
   "note": "C70_gpu_cpu, C70_gpu_charge, C70_coefs for arrays sorted on the current grid; C70_fresh proves that they are in every run with move_positions=True. With move_positions=False and a Galilean frame they are not (C70_stale_step), and then the result differs (C70_stale_violated)."
  },
  {
   "property": "C71",
   "status": "partial",
   "theorems": [
    "Fbpic.C71_tiling_partial",
    "Fbpic.C71_keeps_up",
    "Fbpic.C71_total",
    "Fbpic.C71_violated"
   ],
   "note": "Proved, for any number of restarts, if window and plasma separate by a cell minus one particle spacing in a time step (the usual dt = dz/c). False for shorter time steps: C71_violated (layers at the end of the plasma created twice). The front of the plasma is taken as undisturbed, with a particle on the last rank."
  },
  {
   "property": "C72",
   "status": "proved",
   "theorems": [
    "Fbpic.LaserProf.C72_gaussian",
    "Fbpic.LaserProf.C72_laguerre_gauss",
    "Fbpic.LaserProf.C72_donut",
    "Fbpic.LaserProf.C72_flattened",
    "Fbpic.LaserProf.C72_peak",
    "Fbpic.LaserProf.C72_chirp",
    "Fbpic.LaserProf.C72_mirror",
    "Fbpic.LaserProf.C72_refused",
    "Fbpic.LaserProf.C72_sum"
   ],
   "note": ""
  },
  {
   "property": "C73",
   "status": "proved",
   "theorems": [
    "Fbpic.LaserProf.C73_paraxial",
    "Fbpic.LaserProf.C73_far_field"
   ],
   "note": ""
  },
  {
   "property": "C74",
   "status": "proved",
   "theorems": [
    "Fbpic.LaserProf.C74_transverse",
    "Fbpic.LaserProf.C74_longitudinal",
    "Fbpic.LaserProf.C74_energy",
    "Fbpic.LaserProf.C74_same_energy",
    "Fbpic.LaserProf.C74_refused"
   ],
   "note": ""
  },
  {
   "property": "C75",
   "status": "partial",
   "theorems": [
    "Fbpic.LaserProf.C75_solvable",
    "Fbpic.LaserProf.C75_peak",
    "Fbpic.LaserProf.C75_wave",
    "Fbpic.LaserProf.C75_fwhm_violated",
    "Fbpic.LaserProf.C75_fwhm_partial",
    "Fbpic.LaserProf.C75_mirror"
   ],
   "note": "Peak, wave equation, existence of the parameter, mirror images: proved. The duration is wrong: C75_fwhm_violated (tau_fwhm is never the FWHM of the intensity; sqrt(2)*tau_fwhm is the FWHM of the field). C75_fwhm_partial bounds the difference: below 18 %, at most 3/(omega*tau)^2 of the squared duration."
  },
  {
   "property": "C76",
   "status": "partial",
   "theorems": [
    "Fbpic.Lasy.C76_accepted",
    "Fbpic.Lasy.C76_refused",
    "Fbpic.Lasy.C76_cartesian_partial",
    "Fbpic.Lasy.C76_thetaMode_partial",
    "Fbpic.Lasy.C76_delay",
    "Fbpic.Lasy.C76_outside",
    "Fbpic.Lasy.C76_in_bounds",
    "Fbpic.Lasy.C76_units_violated",
    "Fbpic.Lasy.C76_thetaMode_outside",
    "Fbpic.Lasy.C76_thetaMode_in_bounds"
   ],
   "note": "Proved for files in SI units or whose axes start at zero. Other units: C76_units_violated (gridUnitSI is not applied to gridGlobalOffset). On the axis a file with several modes divides zero by zero (C76_thetaMode_outside)."
  },
  {
   "property": "C77",
   "status": "partial",
   "theorems": [
    "Fbpic.FieldDiag.C77_fields",
    "Fbpic.FieldDiag.C77_rho",
    "Fbpic.FieldDiag.C77_J",
    "Fbpic.FieldDiag.C77_all_cells",
    "Fbpic.FieldDiag.C77_local",
    "Fbpic.FieldDiag.C77_written_iff",
    "Fbpic.FieldDiag.C77_dimensions",
    "Fbpic.FieldDiag.C77_mass_violated",
    "Fbpic.FieldDiag.C77_record_dimension"
   ],
   "note": "Proved for all records of field files. The dimension written with the particle mass is that of a length (C77_mass_violated); the other dimensions are right. What spect2interp puts on the grid is a parameter here (see C66); the attributes describing the solver are not modelled."
  },
  {
   "property": "C78",
   "status": "partial",
   "theorems": [
    "Fbpic.Flow.C78_no_influence_partial",
    "Fbpic.Flow.C78_without_partial",
    "Fbpic.Flow.C78_violated"
   ],
   "note": "Proved for all diagnostics that draw no random numbers, or if the simulation draws none. False for particle diagnostics with subsampling_fraction, which draw from the generator that ionization and continuous injection use (C78_violated)."
  },
  {
   "property": "C79",
   "status": "proved",
   "theorems": [
    "Fbpic.C79_diff",
    "Fbpic.C79_div",
    "Fbpic.C79_curl",
    "Fbpic.C79_grad",
    "Fbpic.C79_wall",
    "Fbpic.C79_scal_faithful",
    "Fbpic.C79_vec_faithful",
    "Fbpic.C79_wavenumbers",
    "Fbpic.C79_symbol",
    "Fbpic.C79_scal_samples",
    "Fbpic.C79_vect_samples"
   ],
   "note": ""
  },
  {
   "property": "C80",
   "status": "proved",
   "theorems": [
    "Fbpic.C80_exact",
    "Fbpic.C80_continuity",
    "Fbpic.C80_continuity_curl_free",
    "Fbpic.C80_continuity_cross",
    "Fbpic.C80_gauss",
    "Fbpic.C80_divB"
   ],
   "note": "For the curl-free correction; C80_continuity_cross is the cross-deposition under the agreement at kz = 0 that sources as deposited have (C30_kz0). Velocity of the Galilean/comoving frame off the resonance of C31_resonance."
  },
  {
   "property": "C81",
   "status": "proved",
   "theorems": [
    "Fbpic.C81_integral",
    "Fbpic.C81_charge",
    "Fbpic.C81_current",
    "Fbpic.C81_ring"
   ],
   "note": "Hypothesis: no modified cell volume is zero (numpy would divide by zero). The concrete case shown has one radial cell, with a true zero of J_0."
  },
  {
   "property": "C82",
   "status": "proved",
   "theorems": [
    "Fbpic.C82_field",
    "Fbpic.C82_init",
    "Fbpic.C82_rate",
    "Fbpic.C82_range",
    "Fbpic.C82_frame",
    "Fbpic.C82_hydrogen",
    "Fbpic.C82_weak_field",
    "Fbpic.C82_survival",
    "Fbpic.C82_table",
    "Fbpic.C82_any_table",
    "Fbpic.C82_cache"
   ],
   "note": ""
  },
  {
   "property": "C83",
   "status": "partial",
   "theorems": [
    "Fbpic.C83_courant",
    "Fbpic.C83_grid",
    "Fbpic.C83_smoother_partial",
    "Fbpic.C83_violated_compensation",
    "Fbpic.C83_laser_partial",
    "Fbpic.C83_violated_direction",
    "Fbpic.C83_violated_wavelength",
    "Fbpic.C83_charge",
    "Fbpic.C83_gridded_partial",
    "Fbpic.C83_violated_density",
    "Fbpic.C83_violated_momentum",
    "Fbpic.C83_bunch_moments",
    "Fbpic.C83_bunch_centroid_partial",
    "Fbpic.C83_violated_backward",
    "Fbpic.C83_gpu_pack",
    "Fbpic.C83_ionization_partial",
    "Fbpic.C83_violated_ionization",
    "Fbpic.C83_violated_order",
    "Fbpic.C83_fields",
    "Fbpic.C83_lab_fields_partial",
    "Fbpic.C83_violated_lab",
    "Fbpic.C83_applied_constant_partial",
    "Fbpic.C83_violated_applied_boost",
    "Fbpic.C83_violated_mirror_analytic"
   ],
   "note": "Proved: grid, boundaries, Courant condition in both frames, charges and masses, densities given by expressions, moments and centroid of forward Gaussian bunches, field lists, constant fields in the lab frame, ionization if the species is added last. False for the rest of the description, with a witness for each case (C83_violated_*): wavelength, phase and direction of lasers, density_scale of uniform species, drift and temperature, backward motion, compensation in one direction, order of interactions, further species after an ionizable one on GPU, lab-frame field lists, mirrors, applied fields in a boosted frame or given by expressions."
  },
  {
   "property": "C84",
   "status": "partial",
   "theorems": [
    "Fbpic.Pic.C84_rotation_partial",
    "Fbpic.Pic.C84_fields",
    "Fbpic.Pic.C84_violated"
   ],
   "note": "Proved when no particle is exactly on the axis at a deposition or gathering, or with a single mode (and beta[0] = 0, as the code computes it). False for particles on the axis with several modes (C84_violated): they are deposited as if their azimuth were 0."
  },
  {
   "property": "C85",
   "status": "proved",
   "theorems": [
    "Fbpic.Pic.C85_conjugation"
   ],
   "note": ""
  },
  {
   "property": "C86",
   "status": "proved",
   "theorems": [
    "Fbpic.Pic.C86_translation"
   ],
   "note": "Planes of ballistic injection with invGammaBoost different from 0."
  },
  {
   "property": "C87",
   "status": "partial",
   "theorems": [
    "Fbpic.Pic.C87_total_partial",
    "Fbpic.Pic.C87_off_axis",
    "Fbpic.Pic.C87_violated"
   ],
   "note": "Proved when (c + |grid velocity|) dt is at most 3/2 cell (linear) or 1/2 cell (cubic). False for cubic particles with c dt = dz (C87_violated). correct_divE together with cross-deposition raises (finding under C31), and is excluded, as are ionizable species with ballistic injection (NotImplementedError)."
  },
  {
   "property": "C88",
   "status": "proved",
   "theorems": [
    "Fbpic.Pic.C88_representation",
    "Fbpic.Pic.C88_order",
    "Fbpic.Pic.C88_split"
   ],
   "note": ""
  },
  {
   "property": "C89",
   "status": "proved",
   "theorems": [
    "Fbpic.Pic.C89_passive_particles",
    "Fbpic.Pic.C89_passive_species"
   ],
   "note": ""
  },
  {
   "property": "C90",
   "status": "proved",
   "theorems": [
    "Fbpic.Pic.C90_fold_symmetry"
   ],
   "note": "The statement excludes particles exactly on the axis when there are several modes (there C84 fails)."
  },
  {
   "property": "C91",
   "status": "proved",
   "theorems": [
    "Fbpic.Pic.C91_gauss",
    "Fbpic.Pic.C91_divE",
    "Fbpic.Pic.C91_divB"
   ],
   "note": ""
  },
  {
   "property": "C92",
   "status": "proved",
   "theorems": [
    "Fbpic.Pic.C92_stored",
    "Fbpic.Pic.C92_calls",
    "Fbpic.Pic.C92_split"
   ],
   "note": ""
  },
  {
   "property": "C93",
   "status": "proved",
   "theorems": [
    "Fbpic.Pic.C93_counters",
    "Fbpic.Pic.C93_particles",
    "Fbpic.Pic.C93_sound",
    "Fbpic.Pic.C93_fields"
   ],
   "note": "With use_true_rho the fields are claimed to solve Maxwell's equations where Gauss' law holds at the beginning and the charge is conserved (C91: they do); C33_solution shows that the solution exists. Boxes without window, damping, antennas and mirrors, as in C84."
  },
  {
   "property": "C94",
   "status": "proved",
   "theorems": [
    "Fbpic.Pic.C94_particles",
    "Fbpic.Pic.C94_antennas",
    "Fbpic.Pic.C94_window",
    "Fbpic.Pic.C94_healthy",
    "Fbpic.Pic.C94_fields",
    "Fbpic.Pic.C94_run",
    "Fbpic.Pic.C94_follows"
   ],
   "note": ""
  },
  {
   "property": "C95",
   "status": "proved",
   "theorems": [
    "Fbpic.Pic.C95_total",
    "Fbpic.Pic.C95_accepted"
   ],
   "note": "Hypotheses: the exchange period satisfies the inequality that the code enforces for an automatic period (C95_accepted; a period given by the user is not checked, see C54_violated), velocities of the window, of the frame and of the injected plasma up to c, plasma not faster than the window, spacing of the injected layers at most the physical domain, plasma at the beginning not entirely left of the box. correct_divE with cross-deposition and ionizable species with ballistic injection raise, and are excluded as in C87. No PML."
  },
  {
   "property": "C96",
   "status": "partial",
   "theorems": [
    "Fbpic.Pic.C96_tiling",
    "Fbpic.Pic.C96_front_partial",
    "Fbpic.Pic.C96_first_period",
    "Fbpic.Pic.C96_front_violated"
   ],
   "note": "Proved: tiling over whole runs, and a filled domain in every iteration not before the second exchange. False before the second exchange (C96_front_violated, C96_first_period): the initial plasma ends at the end of the physical domain, no layers are waiting at the first exchange, so the front of the physical domain is empty for exchange_period iterations."
  },
  {
   "property": "C97",
   "status": "partial",
   "theorems": [
    "Fbpic.Pic.C97_real",
    "Fbpic.Pic.C97_matrices",
    "Fbpic.Pic.C97_wavenumbers",
    "Fbpic.Pic.C97_solver",
    "Fbpic.Pic.C97_nyquist",
    "Fbpic.Pic.C97_violated"
   ],
   "note": "Proved for every run if the wavenumbers that the solver uses are odd in kz including the row at the Nyquist frequency (C97_real; C97_solver: always with a finite order or an odd number of cells, and otherwise with a smoother if the initial fields have no component at the Nyquist frequency, as when they are zero). False for n_order=-1 with an even number of cells when the initial fields have a component at the Nyquist frequency (C97_nyquist, C97_violated)."
  },
  {
   "property": "C98",
   "status": "proved",
   "theorems": [
    "Fbpic.Pic.C98_vacuum",
    "Fbpic.Pic.C98_wavenumber",
    "Fbpic.Pic.C98_energy",
    "Fbpic.Pic.C98_calls"
   ],
   "note": ""
  },
  {
   "property": "C99",
   "status": "partial",
   "theorems": [
    "Fbpic.Pic.C99_history",
    "Fbpic.Pic.C99_restart",
    "Fbpic.Pic.C99_torn",
    "Fbpic.Pic.C99_written",
    "Fbpic.Pic.C99_blank",
    "Fbpic.Pic.C99_real_part",
    "Fbpic.Pic.C99_violated_vacuum",
    "Fbpic.Pic.C99_violated_complex"
   ],
   "note": "Proved for every history if the simulation has at least one species, particles are exchanged at every step and mode 0 stays real (C97). False without species (C99_blank, C99_violated_vacuum): a crash after the file of a checkpoint has been created leaves a file that the restart accepts, with zero fields. False if mode 0 is not real (C99_real_part, C99_violated_complex). A file cut while it is open, tracked species, PML, moving window and several processes are not in this model (C43, C44 treat ids, PML and several processes for one restart)."
  },
  {
   "property": "C100",
   "status": "proved",
   "theorems": [
    "Fbpic.Pic.C100_neutral",
    "Fbpic.Pic.C100_local",
    "Fbpic.Pic.C100_run",
    "Fbpic.Pic.C100_gauss",
    "Fbpic.Pic.C100_none",
    "Fbpic.Pic.C100_levels",
    "Fbpic.Pic.C100_electrons",
    "Fbpic.Pic.C100_targets",
    "Fbpic.Pic.C100_make",
    "Fbpic.Pic.C100_tracer_violated"
   ],
   "note": "For electrons that deposit like their ions (same particle shape, both or none tracers). make_ionizable does not check this; with tracer electrons the deposited charge changes (C100_tracer_violated)."
  },
  {
   "property": "C101",
   "status": "proved",
   "theorems": [
    "Fbpic.C101_deposit",
    "Fbpic.C101_ok",
    "Fbpic.C101_gather",
    "Fbpic.C101_single",
    "Fbpic.C101_inside"
   ],
   "note": "For particles whose shape is inside the stored rows; C101_inside derives this from the automatic exchange period (C54). Sums are exact (no rounding). Up to the transform to spectral space, which every process does on its own rows; the field solver on several sub-domains is an approximation of the solver on one and not claimed to be equal."
  },
  {
   "property": "C102",
   "status": "proved",
   "theorems": [
    "Fbpic.Parallel.C102_schedule",
    "Fbpic.Parallel.C102_threads_1d",
    "Fbpic.Parallel.C102_threads_2d",
    "Fbpic.Parallel.C102_correct_currents_gpu",
    "Fbpic.Parallel.C102_correct_currents_cpu",
    "Fbpic.Parallel.C102_push_gpu",
    "Fbpic.Parallel.C102_push_cpu",
    "Fbpic.Parallel.C102_filter",
    "Fbpic.Parallel.C102_push_x",
    "Fbpic.Parallel.C102_push_p",
    "Fbpic.Parallel.C102_gather",
    "Fbpic.Parallel.C102_grid_ops",
    "Fbpic.Parallel.C102_send_buffers",
    "Fbpic.Parallel.C102_receive_buffers",
    "Fbpic.Parallel.C102_receive_buffers_needs_check",
    "Fbpic.Parallel.C102_damping",
    "Fbpic.Parallel.C102_pml_damping",
    "Fbpic.Parallel.C102_deposit",
    "Fbpic.Parallel.C102_erase_buffers",
    "Fbpic.Parallel.C102_reduce",
    "Fbpic.Parallel.C102_deposit_all",
    "Fbpic.Parallel.C102_ionize",
    "Fbpic.Parallel.C102_copy_ionized",
    "Fbpic.Parallel.C102_copy_needs_cumsum",
    "Fbpic.Parallel.C102_shift"
   ],
   "note": "A statement of a kernel is atomic except the += on received guard cells. The addition of received guard cells needs the check that a sub-domain has at least 4 n_guard cells (C102_receive_buffers_needs_check: otherwise an update can be lost). The gathering is compared where the sequential code stays inside its arrays, the damping where it does not raise. The deposition on the GPU (atomics, sorting) is C70."
  },
  {
   "property": "C103",
   "status": "proved",
   "theorems": [
    "Fbpic.Pic.C103_units",
    "Fbpic.Pic.C103_finish",
    "Fbpic.Pic.C103_setup",
    "Fbpic.Pic.C103_similarity",
    "Fbpic.Pic.C103_violated"
   ],
   "note": "Whole runs of the periodic simulation (Model/Pic.lean). C103_setup: the arrays of the constructor for the rescaled arguments are those of the rescaled simulation. C103_violated: at exactly the velocity of light of the frame, a coefficient is replaced by the dimensionless 1."
  },
  {
   "property": "C104",
   "status": "partial",
   "theorems": [
    "Fbpic.C104_rate",
    "Fbpic.C104_angle",
    "Fbpic.C104_ends",
    "Fbpic.C104_quotient",
    "Fbpic.C104_photons",
    "Fbpic.C104_frame",
    "Fbpic.C104_invariant",
    "Fbpic.C104_recoil_partial",
    "Fbpic.C104_recoil_violated"
   ],
   "note": "Everything but the recoil is proved in full (real arithmetic, independent uniform draws). C104_recoil_partial: the recoil has the right probability exactly if the ratio of the weights is at least 1 and the expected number of macrophotons per electron and step at most 1; otherwise it is wrong (C104_recoil_violated)."
  },
  {
   "property": "C105",
   "status": "partial",
   "theorems": [
    "Fbpic.Pic.C105_scatter",
    "Fbpic.Pic.C105_run_partial",
    "Fbpic.Pic.C105_gauss",
    "Fbpic.Pic.C105_divE",
    "Fbpic.Pic.C105_init",
    "Fbpic.Pic.C105_none",
    "Fbpic.Pic.C105_superluminal_violated"
   ],
   "note": "Proved for the periodic box, exchange period 1, curl-free correction, calls that push the momenta, sources that are charged, not ionizable and without ballistic plane, at most `maxCells` cells per step at the speed (1 + k/2) c (k: momentum of the incoming photons in units of m c). Missing: 'electrons are never faster than light' is false (C105_superluminal_violated: after a recoil the stored inv_gamma is stale for half a step); C105_run_partial gives the bound (1 + k) c instead."
  },
  {
   "property": "C106",
   "status": "partial",
   "theorems": [
    "Fbpic.Pic.Gpu.C106_gpu_run",
    "Fbpic.Pic.Gpu.C106_gpu_reasonable",
    "Fbpic.Pic.Gpu.C106_reproducible",
    "Fbpic.Pic.Gpu.C106_diagnostics",
    "Fbpic.Pic.Gpu.C106_fields_order_violated"
   ],
   "note": "Proved for the periodic box on one process, particles within the reach of the arrays (always so for the reasonable simulations of C87), and no frozen particles in a Galilean frame (there the cells of the last sort are stale, C70). Missing: 'the arrays of the fields belong to the particles at any time' is false (C106_fields_order_violated); C106_diagnostics proves it at the time of the diagnostics."
  },
  {
   "property": "C107",
   "status": "proved",
   "theorems": [
    "Fbpic.Pic.C107_added",
    "Fbpic.Pic.C107_propagates",
    "Fbpic.Pic.C107_alone"
   ],
   "note": ""
  },
  {
   "property": "C108",
   "status": "partial",
   "theorems": [
    "Fbpic.Pic.C108_reflection_partial",
    "Fbpic.Pic.C108_fields",
    "Fbpic.Pic.C108_symmetry_partial",
    "Fbpic.Pic.C108_plane_partial",
    "Fbpic.Pic.C108_solver",
    "Fbpic.Pic.C108_nyquist",
    "Fbpic.Pic.C108_violated"
   ],
   "note": "Proved for the periodic run if the modified wavenumbers of opposite rows are opposite or nothing is at the Nyquist wavenumber (C108_solver: odd number of cells, or finite order, or smoother with one pass and no field there at the start). Missing: with infinite order and an even number of cells it is false for fields at the Nyquist wavenumber (C108_violated)."
  },
  {
   "property": "C109",
   "status": "partial",
   "theorems": [
    "Fbpic.Pic.C109_stored",
    "Fbpic.Pic.C109_split_partial",
    "Fbpic.Pic.C109_empty_calls",
    "Fbpic.Pic.C109_violated",
    "Fbpic.Pic.C109_damped_violated"
   ],
   "note": "What the result depends on is proved in full (C109_stored, one process). The division into calls is proved if the interruption is at an iteration where particles are exchanged and the fields vanish in the damping cells (C109_split_partial). Missing: it is false otherwise (C109_violated: a particle that has left the box is removed earlier; C109_damped_violated, C109_empty_calls: the fields are damped once more at the beginning of every call)."
  },
  {
   "property": "C110",
   "status": "partial",
   "theorems": [
    "Fbpic.CustomSpectrum.C110_accepted",
    "Fbpic.CustomSpectrum.C110_two_columns",
    "Fbpic.CustomSpectrum.C110_field",
    "Fbpic.CustomSpectrum.C110_intensity",
    "Fbpic.CustomSpectrum.C110_documented_violated",
    "Fbpic.CustomSpectrum.C110_normalised",
    "Fbpic.CustomSpectrum.C110_rigid",
    "Fbpic.CustomSpectrum.C110_mean",
    "Fbpic.CustomSpectrum.C110_delay",
    "Fbpic.CustomSpectrum.C110_chirp_in_file",
    "Fbpic.CustomSpectrum.C110_subtract",
    "Fbpic.CustomSpectrum.C110_subtract_violated",
    "Fbpic.CustomSpectrum.C110_opposite_sign_violated"
   ],
   "note": "Proved for every file: the profile is the normalised superposition of plane waves with the intensity I(lambda) lambda^2 and the phase of the file plus chirps, on a grid of 10^6 points, linear between them; bound 1, rigid motion, mean wavelength within the range, delay by a linear phase, chirp in the file = chirp as argument, independence of an added slope with subtract_linear_phase. Violated: the slope that is subtracted is that of the fitted polynomial at the frequency 0, not at the centre, so that a pure chirp in the file is delayed by phi2*omega0 (C110_subtract_violated, concrete case C110_opposite_sign_violated); the documented factor k of the amplitude is 1/k in the code (C110_documented_violated). np.polyfit is a parameter with the contract of least squares."
  },
  {
   "property": "C111",
   "status": "proved",
   "theorems": [
    "Fbpic.Pic.C111_rest",
    "Fbpic.Pic.C111_still"
   ],
   "note": ""
  },
  {
   "property": "C112",
   "status": "partial",
   "theorems": [
    "Fbpic.C112_local",
    "Fbpic.C112_parallel",
    "Fbpic.C112_division",
    "Fbpic.C112_reach_partial",
    "Fbpic.C112_reach_first",
    "Fbpic.C112_reach_violated",
    "Fbpic.C112_suffices_violated"
   ],
   "note": "Proved: locality of the push on any two grids (C112_local), agreement of the runs on several processes and on one up to K M / rho^G for every division and given sources (C112_parallel), the code's division is an instance (C112_division), the reach is at most a number that does not depend on the length of the grid and is the first cell below the threshold (C112_reach_partial, C112_reach_first). Violated: on short grids the function raises IndexError (C112_reach_violated), and the first cell below the threshold may be an accidental zero beyond which the stencil is large (C112_suffices_violated). The sources are given on the whole grid; the current correction, which is not local, is not part of the statement."
  },
  {
   "property": "C113",
   "status": "partial",
   "theorems": [
    "Fbpic.C113_step",
    "Fbpic.C113_history",
    "Fbpic.C113_manager",
    "Fbpic.C113_outside_violated",
    "Fbpic.C113_names_violated"
   ],
   "note": "Proved for every sequence of calls of step, with exceptions, from any placement, for diagnostics of species of the simulation that are listed once (C113_step, C113_history), and for the memory manager (C113_manager). Violated: a particle diagnostic that is written while the data is on the CPU, or that has a species under two names or a species outside the simulation, raises AttributeError on a GPU only (C113_outside_violated, C113_names_violated)."
  },
  {
   "property": "C114",
   "status": "partial",
   "theorems": [
    "Fbpic.C114_standard",
    "Fbpic.C114_balanced",
    "Fbpic.C114_distinct",
    "Fbpic.C114_standard_ends",
    "Fbpic.C114_split_violated",
    "Fbpic.C114_colour_violated",
    "Fbpic.C114_unequal_violated"
   ],
   "note": "Proved for the same number of GPUs everywhere: the share of each GPU (C114_balanced, C114_distinct; if the ranks of a node are not consecutive, provided that the colours of the nodes differ), the test of the distribution (C114_standard), the end of the selection for consecutive ranks (C114_standard_ends). Violated: in every other distribution one process stops with a TypeError (C114_split_violated), the colours of different nodes can be equal (C114_colour_violated), with different numbers of GPUs the processes wait for each other without end (C114_unequal_violated)."
  },
  {
   "property": "C115",
   "status": "partial",
   "theorems": [
    "Fbpic.C115_types",
    "Fbpic.C115_kernel",
    "Fbpic.C115_once",
    "Fbpic.C115_specialized",
    "Fbpic.C115_arguments",
    "Fbpic.C115_layout_violated"
   ],
   "note": "Proved for contiguous arrays and a hash that tells apart the types that are used (C115_types, C115_kernel, C115_once, C115_specialized, C115_arguments). Violated for arrays with other strides: the layout is not part of the hash (C115_layout_violated)."
  },
  {
   "property": "C116",
   "status": "partial",
   "theorems": [
    "Fbpic.PFile.C116_file",
    "Fbpic.PFile.C116_again",
    "Fbpic.PFile.C116_leftover",
    "Fbpic.PFile.C116_ionizable_violated",
    "Fbpic.PFile.C116_mixed_violated",
    "Fbpic.PFile.C116_component_violated"
   ],
   "note": "Proved: the file of a diagnostic with documented quantities is exactly the tree of the standard and everything else in the file is kept (C116_file); an older group of the species is replaced entirely if it held no more quantities (C116_again). Violated: quantities that are not written again stay, with other particles (C116_leftover, C116_mixed_violated); a species that is no longer ionizable raises TypeError (C116_ionizable_violated); single components lack the attributes of the record (C116_component_violated)."
  },
  {
   "property": "C117",
   "status": "partial",
   "theorems": [
    "Fbpic.Seed.C117_seed_partial",
    "Fbpic.Seed.C117_ionization",
    "Fbpic.Seed.C117_ionize",
    "Fbpic.Seed.C117_compton",
    "Fbpic.Seed.C117_spread",
    "Fbpic.Seed.C117_load",
    "Fbpic.Seed.C117_bunch",
    "Fbpic.Seed.C117_sample",
    "Fbpic.Seed.C117_overlap_violated",
    "Fbpic.Seed.C117_compton_violated",
    "Fbpic.Seed.C117_repeat_violated"
   ],
   "note": "Proved: every script is repeated exactly after the seed, unless electrons Compton-scatter on CPU (C117_seed_partial), also with other contents of the uninitialised memory for runs with ionization (C117_ionization); runs with generators are runs of C100 / C105 (C117_ionize, C117_compton); plasmas, bunches and selections for the numbers of the generators (C117_spread, C117_load, C117_bunch, C117_sample). Violated: Numba's generators are not seeded, so Compton scattering on CPU is not repeated (C117_compton_violated); seed s on process r+1 is seed s+1 on process r (C117_overlap_violated); on GPU, of 257 calls of the Compton process two use the same random numbers (C117_repeat_violated)."
  },
  {
   "property": "C118",
   "status": "partial",
   "theorems": [
    "Fbpic.FFile.C118_field",
    "Fbpic.FFile.C118_density",
    "Fbpic.FFile.C118_share",
    "Fbpic.FFile.C118_shape",
    "Fbpic.FFile.C118_unknown",
    "Fbpic.FFile.C118_shape_violated",
    "Fbpic.FFile.C118_name_violated",
    "Fbpic.FFile.C118_stale_violated"
   ],
   "note": "Proved: field and density diagnostics over any existing content with the same shapes (C118_field, C118_density), any number of diagnostics in one file (C118_share), unknown names (C118_unknown). Violated: another number of cells in the earlier run raises TypeError and leaves old fields under the new time (C118_shape, C118_shape_violated); fields of an earlier run that are not written again stay in the file (C118_stale_violated); the name of the density of a species, given to the field diagnostic, leaves a dataset of zeros before the exception (C118_name_violated)."
  },
  {
   "property": "C119",
   "status": "partial",
   "theorems": [
    "Fbpic.DensF.C119_load",
    "Fbpic.DensF.C119_load_boost",
    "Fbpic.DensF.C119_inject",
    "Fbpic.DensF.C119_forms",
    "Fbpic.DensF.C119_refuse",
    "Fbpic.DensF.C119_noargs_violated",
    "Fbpic.DensF.C119_late_violated"
   ],
   "note": "Proved: loading, boosted loading, injection, equality of the two forms, refusal of other arguments where particles are created (C119_load, C119_load_boost, C119_inject, C119_forms, C119_refuse). Violated: a function without arguments ends with IndexError (C119_noargs_violated); a species without particles at the beginning is accepted with any function, and stops the run later (C119_late_violated)."
  },
  {
   "property": "C120",
   "status": "partial",
   "theorems": [
    "Fbpic.Script.C120_run",
    "Fbpic.Script.C120_ranks",
    "Fbpic.Script.C120_text",
    "Fbpic.Script.C120_path_violated",
    "Fbpic.Script.C120_params_violated"
   ],
   "note": "Proved: the files of a run (C120_run), the other processes (C120_ranks), the text (C120_text). Violated: a program with .py inside its path is taken for the script (C120_path_violated); without script the parameters are not written (C120_params_violated)."
  },
  {
   "property": "C121",
   "status": "partial",
   "theorems": [
    "Fbpic.Report.C121_bar",
    "Fbpic.Report.C121_monotone",
    "Fbpic.Report.C121_eta",
    "Fbpic.Report.C121_summary_partial",
    "Fbpic.Report.C121_summary_violated",
    "Fbpic.Report.C121_zero_violated",
    "Fbpic.Report.C121_guard",
    "Fbpic.Report.C121_guard_cpu",
    "Fbpic.Report.C121_name_violated"
   ],
   "note": "Proved: bar, monotony, remaining time, memory errors with cupy (C121_bar, C121_monotone, C121_eta, C121_guard, C121_guard_cpu), and what the summary does give (C121_summary_partial). Violated: the summary does not contain the last iteration (C121_summary_violated); step(0) raises ZeroDivisionError (C121_zero_violated); without cupy every exception in a guarded function becomes NameError (C121_name_violated)."
  },
  {
   "property": "C122",
   "status": "partial",
   "theorems": [
    "Fbpic.Pic.C122_charged",
    "Fbpic.Pic.C122_neutral",
    "Fbpic.Pic.C122_neutral_violated"
   ],
   "note": "Proved for charged species and any number of iterations (C122_charged). Violated for neutral species: gather is skipped for them but the external fields are applied, so that they add up (C122_neutral gives the value after n iterations, C122_neutral_violated a run)."
  },
  {
   "property": "C123",
   "status": "partial",
   "theorems": [
    "Fbpic.BunchPmd.C123_bunch",
    "Fbpic.BunchPmd.C123_loads_iff",
    "Fbpic.BunchPmd.C123_translate",
    "Fbpic.BunchPmd.C123_versions",
    "Fbpic.BunchPmd.C123_ranks",
    "Fbpic.BunchPmd.C123_microns_violated",
    "Fbpic.BunchPmd.C123_empty_violated"
   ],
   "note": "Proved: content and centre of the bunch in the units of the installed version (C123_bunch), when it can be loaded (C123_loads_iff), invariance (C123_translate, C123_versions), ranks (C123_ranks). Violated: with version 1 of openPMD-viewer the bounds of positions are meters, not microns (C123_microns_violated); an empty selection raises an exception of numpy (C123_empty_violated). Taken as given: what openPMD-viewer returns."
  },
  {
   "property": "C124",
   "status": "partial",
   "theorems": [
    "Fbpic.C124_runs",
    "Fbpic.C124_restart_iff",
    "Fbpic.C124_multiple_violated",
    "Fbpic.C124_repeat_violated",
    "Fbpic.C124_killed_violated",
    "Fbpic.C124_old_h5py_iff",
    "Fbpic.C124_quantities"
   ],
   "note": "Proved: content of the file after any sequence of runs (C124_runs), exactly when a restart gives every particle once (C124_restart_iff), when an older h5py refuses the directory (C124_old_h5py_iff), unsupported quantities are refused (C124_quantities). Violated: with checkpoints at multiples of the period particles are lost (C124_multiple_violated); a repetition doubles every particle (C124_repeat_violated); a run killed while a snapshot is written leaves datasets that never belong together again (C124_killed_violated). Taken as given: require_dataset of h5py."
  },
  {
   "property": "C125",
   "status": "partial",
   "theorems": [
    "Fbpic.C125_runs",
    "Fbpic.C125_restart",
    "Fbpic.C125_killed",
    "Fbpic.C125_repeat",
    "Fbpic.C125_lost_violated",
    "Fbpic.C125_shape"
   ],
   "note": "Proved: content of the dataset after any sequence of runs (C125_runs), the snapshot of the uninterrupted simulation if all iterations before the checkpoint were written (C125_restart), also for runs killed while a snapshot is written (C125_killed), repetitions (C125_repeat), other sizes (C125_shape). Violated: slices in memory that are older than the checkpoint are missing for ever (C125_lost_violated), e.g. if the run ends with a checkpoint at a multiple of the period. Taken as given: require_dataset of h5py."
  },
  {
   "property": "C126",
   "status": "proved",
   "theorems": [
    "Fbpic.C126_files",
    "Fbpic.C126_split"
   ],
   "note": "C126_files: for which snapshots there are files after any simulations, and what they hold. C126_split: adjacent ranges. Numbers are exact: the lab time i*dt of a snapshot is compared without rounding. Taken as given: require_dataset of h5py."
  },
  {
   "property": "C127",
   "status": "partial",
   "theorems": [
    "Fbpic.C127_files",
    "Fbpic.C127_split",
    "Fbpic.C127_overlap_violated"
   ],
   "note": "C127_files: for which snapshots there are files after any simulations, and which particles they hold. C127_split: adjacent ranges give the same directory. Overlapping ranges: C127_overlap_violated, each particle is there twice. Numbers are exact: the lab time i*dt of a snapshot is compared without rounding. Taken as given: require_dataset of h5py version 3 or later."
  },
  {
   "property": "C128",
   "status": "partial",
   "theorems": [
    "Fbpic.C128_enabled_iff",
    "Fbpic.C128_same",
    "Fbpic.C128_nocuda_violated",
    "Fbpic.C128_stale_violated",
    "Fbpic.C128_iff"
   ],
   "note": "C128_enabled_iff: when GPUDirect is enabled. C128_same: the same fields with and without GPUDirect on the GPU, and on the CPU without it. With GPUDirect enabled, a CPU simulation on several processes is wrong: C128_nocuda_violated (NameError if CUDA is not installed), C128_stale_violated (guard cells replaced by the content of buffers that are never written if it is). C128_iff: the exchange is right for all fields and buffers if and only if GPUDirect is disabled or the simulation runs on the GPU. Taken as given: MPI transfers between GPU arrays."
  }
 ]
}