{
 "claims": [
  {
   "property": "C01",
   "status": "proved",
   "theorems": [
    "Verif.Props.C01_periodic_laplace",
    "Verif.Props.C01_periodic_gradient_y",
    "Verif.Props.C01_periodic_gradient_x",
    "Verif.Props.C01_rejects"
   ],
   "note": "Every array of positive size, every scalar type with the operations (no algebraic laws used); malformed arguments raise."
  },
  {
   "property": "C02",
   "status": "proved",
   "theorems": [
    "Verif.Props.C02_backends_identical"
   ],
   "note": "Bit-exact: stated for scalars without any algebraic law, so it covers floating point."
  },
  {
   "property": "C03",
   "status": "proved",
   "theorems": [
    "Verif.Props.C03_fused_identical",
    "Verif.Props.C03_all_agree"
   ],
   "note": "The fused forms are identical without algebraic laws; the three groupings agree over any field (real arithmetic)."
  },
  {
   "property": "C04",
   "status": "partial",
   "theorems": [
    "Verif.Props.C04_phiml_bracket_partial",
    "Verif.Props.C04_phiml_bracket_violated"
   ],
   "note": "The code violates the property: the PhiML bracket has the opposite sign. _partial proves what holds (it is exactly the negative), _violated gives the witness."
  },
  {
   "property": "C05",
   "status": "proved",
   "theorems": [
    "Verif.Props.C05_bracket_conserves"
   ],
   "note": "Exact arithmetic over any field."
  },
  {
   "property": "C06",
   "status": "proved",
   "theorems": [
    "Verif.Props.C06_bracket_algebra"
   ],
   "note": "Exact arithmetic over any field."
  },
  {
   "property": "C07",
   "status": "proved",
   "theorems": [
    "Verif.Props.C07_translation"
   ],
   "note": "All integer shifts, bit-exact."
  },
  {
   "property": "C08",
   "status": "proved",
   "theorems": [
    "Verif.Props.C08_summation_by_parts"
   ],
   "note": "Exact real arithmetic."
  },
  {
   "property": "C09",
   "status": "proved",
   "theorems": [
    "Verif.Props.C09_hyperdiffusion_dissipative"
   ],
   "note": "Real arithmetic; the order N and the sign chosen by HW.init enter as in the code."
  },
  {
   "property": "C10",
   "status": "proved",
   "theorems": [
    "Verif.Props.C10_gradient_y",
    "Verif.Props.C10_gradient_x",
    "Verif.Props.C10_laplace",
    "Verif.Props.C10_laplace_N"
   ],
   "note": "Real arithmetic; second-order accuracy of both gradients, the Laplacian and the iterated Laplacian for every smooth periodic field and every grid."
  },
  {
   "property": "C11",
   "status": "proved",
   "theorems": [
    "Verif.Props.C11_get_phi_inverts_laplacian",
    "Verif.Props.C11_coef_determines_samples"
   ],
   "note": "Exact complex DFT; spectrum relation stated with an independent Fourier specification."
  },
  {
   "property": "C12",
   "status": "proved",
   "theorems": [
    "Verif.Props.C12_get_phi_backends_agree",
    "Verif.Props.C12_direct_difference"
   ],
   "note": "Real arithmetic; grids up to 65536 points per axis for Numba (see C14)."
  },
  {
   "property": "C13",
   "status": "proved",
   "theorems": [
    "Verif.Props.C13_get_phi_structure"
   ],
   "note": "Real arithmetic."
  },
  {
   "property": "C14",
   "status": "proved",
   "theorems": [
    "Verif.Props.C14_fftfreq",
    "Verif.Props.C14_fftfreq_overflow"
   ],
   "note": "The int16 wrap-around of the Numba table is modelled; C14_fftfreq_overflow shows the bound 65536 is sharp."
  },
  {
   "property": "C15",
   "status": "partial",
   "theorems": [
    "Verif.Props.C15_times_partial",
    "Verif.Props.C15_times_violated"
   ],
   "note": "The code violates the property: `times` raises only the eigenvalue power, not the dx factor. _partial proves what is computed, _violated gives a witness."
  },
  {
   "property": "C16",
   "status": "partial",
   "theorems": [
    "Verif.Props.C16_general_solver_partial",
    "Verif.Props.C16_general_solver_violated"
   ],
   "note": "Holds on every square grid (_partial); every non-square grid raises or returns another shape (_violated)."
  },
  {
   "property": "C17",
   "status": "partial",
   "theorems": [
    "Verif.Props.C17_fourier_laplace_violated"
   ],
   "note": "fourier_laplace always raises NameError: the property is refuted for every input."
  },
  {
   "property": "C18",
   "status": "proved",
   "theorems": [
    "Verif.Props.C18_signs"
   ],
   "note": "Real arithmetic."
  },
  {
   "property": "C19",
   "status": "proved",
   "theorems": [
    "Verif.Props.C19_parseval"
   ],
   "note": "Real arithmetic."
  },
  {
   "property": "C20",
   "status": "proved",
   "theorems": [
    "Verif.Props.C20_kinetic_energy",
    "Verif.Props.C20_nonsquare_raises",
    "Verif.Props.C20_single_row",
    "Verif.Props.C20_single_row_wrong"
   ],
   "note": "Square grids; non-square grids raise; the value on a single row (a defect: positive for a constant potential)."
  },
  {
   "property": "C21",
   "status": "partial",
   "theorems": [
    "Verif.Props.C21_spectral_flux_partial",
    "Verif.Props.C21_odd_grid_violated",
    "Verif.Props.C21_every_grid_partial"
   ],
   "note": "Proved for every even square grid (_partial); fails on odd grids (_violated, witness 3x3). C21_every_grid_partial gives the value on every square grid."
  },
  {
   "property": "C22",
   "status": "proved",
   "theorems": [
    "Verif.Props.C22_energy_le_spectral"
   ],
   "note": "Real arithmetic, all grids."
  },
  {
   "property": "C23",
   "status": "proved",
   "theorems": [
    "Verif.Props.C23_gradient_2d"
   ],
   "note": "Evaluates the modelled gradient_2d/hw2d_gradient on every grid, both backends, zonal on or off; each array entry is compared with an independently written formula."
  },
  {
   "property": "C24",
   "status": "proved",
   "theorems": [
    "Verif.Props.C24_energy_budget"
   ],
   "note": "Real arithmetic, semi-discrete budget; the flux terms are the values returned by the modelled diagnostics."
  },
  {
   "property": "C25",
   "status": "proved",
   "theorems": [
    "Verif.Props.C25_enstrophy_budget"
   ],
   "note": "Real arithmetic; proved for every state, no mean-vorticity hypothesis needed."
  },
  {
   "property": "C26",
   "status": "partial",
   "theorems": [
    "Verif.Props.C26_reported_rates_partial",
    "Verif.Props.C26_reported_rates_violated"
   ],
   "note": "The code's dE/dU entries are the true rates only when the dissipation vanishes (partial); a concrete state with nu>0 where they differ is exhibited (violated)."
  },
  {
   "property": "C27",
   "status": "proved",
   "theorems": [
    "Verif.Props.C27_mean_difference_conserved"
   ],
   "note": "Needs hyperdiffusion order N>=1 or nu=0."
  },
  {
   "property": "C28",
   "status": "proved",
   "theorems": [
    "Verif.Props.C28_mean_density"
   ],
   "note": "Exact stability polynomial over arbitrary histories of rk4/euler steps; needs N>=1 or nu=0."
  },
  {
   "property": "C29",
   "status": "proved",
   "theorems": [
    "Verif.Props.C29_translation"
   ],
   "note": "Over arbitrary histories; both runs are shown to succeed."
  },
  {
   "property": "C30",
   "status": "proved",
   "theorems": [
    "Verif.Props.C30_parity"
   ],
   "note": "Over arbitrary histories."
  },
  {
   "property": "C31",
   "status": "proved",
   "theorems": [
    "Verif.Props.C31_age"
   ],
   "note": "Over arbitrary mixed rk4/euler histories."
  },
  {
   "property": "C32",
   "status": "proved",
   "theorems": [
    "Verif.Props.C32_phi_consistent"
   ],
   "note": "Over arbitrary mixed rk4/euler histories, with phi compared to the modelled get_phi."
  },
  {
   "property": "C33",
   "status": "proved",
   "theorems": [
    "Verif.Props.C33_linear_dynamics"
   ],
   "note": "Linear map and RK4 polynomial stated generically (Module End)."
  },
  {
   "property": "C34",
   "status": "proved",
   "theorems": [
    "Verif.Props.C34_rk4_local_error",
    "Verif.Props.C34_euler_local_error",
    "Verif.Props.C34_exact_solution_exists"
   ],
   "note": "Real arithmetic, both backends. Exact solutions of d/dt (n,Omega) = gradient_2d are proved to exist uniquely for every initial state and interval; the constant is uniform in the starting time and the step size. The stored potential must be get_phi(omega)."
  },
  {
   "property": "C35",
   "status": "proved",
   "theorems": [
    "Verif.Props.C35_missing_phi",
    "Verif.Props.C35_argument_name",
    "Verif.Props.C35_missing_age",
    "Verif.Props.C35_foreign_entry",
    "Verif.Props.C35_result_keys"
   ],
   "note": "Five theorems: missing phi, missing age, foreign entries, argument name, keys of the result."
  },
  {
   "property": "C36",
   "status": "proved",
   "theorems": [
    "Verif.Props.C36_counters"
   ],
   "note": "Counter table after any mixed history."
  },
  {
   "property": "C37",
   "status": "proved",
   "theorems": [
    "Verif.Props.C37_backends_same_trajectory"
   ],
   "note": "Backends compared over arbitrary histories in exact arithmetic."
  },
  {
   "property": "C38",
   "status": "partial",
   "theorems": [
    "Verif.Props.C38_entrywise_partial",
    "Verif.Props.C38_subtraction_violated",
    "Verif.Props.C38_division_violated",
    "Verif.Props.C38_copy"
   ],
   "note": "Entry-wise laws of +, *, / proved; subtraction is reversed in the code, and dividing a plain value by a dictionary raises TypeError (violated)."
  },
  {
   "property": "C39",
   "status": "proved",
   "theorems": [
    "Verif.Props.C39_nothing_lost"
   ],
   "note": "Law-free storage types; arbitrary file, buffer contents and start index; final append included."
  },
  {
   "property": "C40",
   "status": "proved",
   "theorems": [
    "Verif.Props.C40_index",
    "Verif.Props.C40_zero_length"
   ],
   "note": "Index law plus the buffer_length=0 error."
  },
  {
   "property": "C41",
   "status": "partial",
   "theorems": [
    "Verif.Props.C41_other_fields_partial",
    "Verif.Props.C41_stale_row_violated"
   ],
   "note": "Other fields of the same save are stored correctly (partial); the missing field repeats a stale buffer row (violated)."
  },
  {
   "property": "C42",
   "status": "proved",
   "theorems": [
    "Verif.Props.C42_crash_safe"
   ],
   "note": "Crash points are modelled as the file systems between primitive h5py operations; holds for all inputs, including those on which append_h5 raises."
  },
  {
   "property": "C43",
   "status": "partial",
   "theorems": [
    "Verif.Props.C43_last_state_partial",
    "Verif.Props.C43_stale_state_violated",
    "Verif.Props.C43_demo_violated",
    "Verif.Props.C43_run2_partial",
    "Verif.Props.C43_run2_violated"
   ],
   "note": "Law-free times and storage. Proved when the number of frames is a multiple of buffer_length; otherwise the stored state is an older frame or zeros (general law proved, plus a concrete witness): the code violates the property. Same for run2."
  },
  {
   "property": "C44",
   "status": "proved",
   "theorems": [
    "Verif.Props.C44_frames",
    "Verif.Props.C44_first_frame",
    "Verif.Props.C44_frames_exact",
    "Verif.Props.C44_frames_physics"
   ],
   "note": "Law-free version (any time arithmetic, physics, storage), exact-arithmetic version, and an end-to-end version with the model of model.py as simulation (all grid sizes, parameters, initial fields; no hypothesis about steps succeeding)."
  },
  {
   "property": "C45",
   "status": "partial",
   "theorems": [
    "Verif.Props.C45_recording_start",
    "Verif.Props.C45_recording_start_exact",
    "Verif.Props.C45_run2_partial"
   ],
   "note": "Law-free version and exact-arithmetic version. For run2 when the run ends after recording_start_time (otherwise C52 loses frames)."
  },
  {
   "property": "C46",
   "status": "partial",
   "theorems": [
    "Verif.Props.C46_first_frame_violated",
    "Verif.Props.C46_later_frames_partial",
    "Verif.Props.C46_run2_violated",
    "Verif.Props.C46_run2_partial"
   ],
   "note": "Proved for every frame recorded after a step with the simulation of model.py; the initial frame stores the random phi (violated). Same for run2."
  },
  {
   "property": "C47",
   "status": "partial",
   "theorems": [
    "Verif.Props.C47_physics_partial",
    "Verif.Props.C47_split_partial",
    "Verif.Props.C47_stale_state_violated",
    "Verif.Props.C47_refused_violated",
    "Verif.Props.C47_demo_violated"
   ],
   "note": "Exact arithmetic. Equal if the first run's number of frames is a multiple of buffer_length, the last frame is stored exactly and zonal is off; otherwise the state datasets are stale and the continued file differs (violated, witness: densities 10,12,14,14,16 instead of 10,12,14,16,18), or the continuation is refused. C47_physics_partial: the same with the simulation of model.py for every grid, physics and initial state that never reaches zero density or vorticity."
  },
  {
   "property": "C48",
   "status": "partial",
   "theorems": [
    "Verif.Props.C48_time_restarts_violated",
    "Verif.Props.C48_demo_violated"
   ],
   "note": "Violated: appended times restart at step 1 whatever the last stored time is; general law and concrete witness."
  },
  {
   "property": "C49",
   "status": "partial",
   "theorems": [
    "Verif.Props.C49_zonal_violated",
    "Verif.Props.C49_params_restored_partial",
    "Verif.Props.C49_dx_violated"
   ],
   "note": "Simulation object restored exactly for run() (partial); the steps use the dx of the continuing call (violated). run2 additionally forgets zonal (violated)."
  },
  {
   "property": "C50",
   "status": "proved",
   "theorems": [
    "Verif.Props.C50_protected",
    "Verif.Props.C50_replaced",
    "Verif.Props.C50_run2_protected"
   ],
   "note": "Protection: complete state unchanged, result independent of the simulation. Replacement: same file as without an old one. Protection also for run2."
  },
  {
   "property": "C51",
   "status": "partial",
   "theorems": [
    "Verif.Props.C51_nan_stops",
    "Verif.Props.C51_run2_partial",
    "Verif.Props.C51_run2_violated"
   ],
   "note": "run: for every first NaN step; law-free. run2: only NaNs in recorded states stop the run (partial/violated)."
  },
  {
   "property": "C52",
   "status": "partial",
   "theorems": [
    "Verif.Props.C52_all_written_partial",
    "Verif.Props.C52_all_written_continued_partial",
    "Verif.Props.C52_lost_frames_violated",
    "Verif.Props.C52_demo_violated"
   ],
   "note": "All frames and property values in the file if the run ends after recording_start_time (new and continued files); otherwise the frames left in the buffer are lost (general law and concrete witness)."
  },
  {
   "property": "C53",
   "status": "proved",
   "theorems": [
    "Verif.Props.C53_terminates",
    "Verif.Props.C53_step_count",
    "Verif.Props.C53_extra_step"
   ],
   "note": "Exact arithmetic. run2 returns iff it is given more loop tests than the least k with round(k*dt,4) >= end_time, which exists; the usual case k = end_time/dt; an example of an extra step."
  },
  {
   "property": "C54",
   "status": "partial",
   "theorems": [
    "Verif.Props.C54_never_reported_violated",
    "Verif.Props.C54_base_exception_partial"
   ],
   "note": "Violated: an Exception in rk4_step is swallowed and retried forever (no fuel suffices); only BaseExceptions are reported."
  },
  {
   "property": "C55",
   "status": "partial",
   "theorems": [
    "Verif.Props.C55_no_output_violated",
    "Verif.Props.C55_run2_violated"
   ],
   "note": "Violated: every call with output_path='' raises UnboundLocalError before the first step."
  },
  {
   "property": "C56",
   "status": "proved",
   "theorems": [
    "Verif.Props.C56_square_files",
    "Verif.Props.C56_batch_independent"
   ],
   "note": "All frame counts, batch sizes and property lists; the property functions are parameters. Explicit values and equality of the complete file system for two batch sizes."
  },
  {
   "property": "C57",
   "status": "partial",
   "theorems": [
    "Verif.Props.C57_others_unchanged",
    "Verif.Props.C57_existing_unchanged",
    "Verif.Props.C57_unknown_zero_violated"
   ],
   "note": "Other datasets/attributes/files unchanged at every crash point; existing datasets unchanged without force_recompute; unknown names silently give zeros (violated part); filling of the known ones is C56."
  },
  {
   "property": "C58",
   "status": "partial",
   "theorems": [
    "Verif.Props.C58_independent_partial",
    "Verif.Props.C58_leak_violated",
    "Verif.Props.C58_leak_in_file_violated"
   ],
   "note": "Independent if the list is given or earlier calls showed only default properties; otherwise the shown property leaks through the mutable default argument into later calls and their files (violated)."
  },
  {
   "property": "C59",
   "status": "proved",
   "theorems": [
    "Verif.Props.C59_shape",
    "Verif.Props.C59_succeeds",
    "Verif.Props.C59_run_saves"
   ],
   "note": "fourier_downsample is modelled (scipy.signal.resample along both axes) with law-free rounding int(round(n/f)). C59_run_saves discharges the hypothesis SavesAs of the theorems about run and run2."
  },
  {
   "property": "C60",
   "status": "partial",
   "theorems": [
    "Verif.Props.C60_block_means",
    "Verif.Props.C60_images",
    "Verif.Props.C60_mean",
    "Verif.Props.C60_odd_rejected_partial",
    "Verif.Props.C60_size_three_violated",
    "Verif.Props.C60_mean_violated"
   ],
   "note": "Arrays of any rank. Holds for even sizes; odd sizes >= 5 are rejected, but size 3 (and 1) is silently broadcast and the mean changes (C60_mean_violated)."
  },
  {
   "property": "C61",
   "status": "partial",
   "theorems": [
    "Verif.Props.C61_returns_input_violated",
    "Verif.Props.C61_block_median_violated",
    "Verif.Props.C61_scale_one_partial"
   ],
   "note": "The code violates the property: the function returns its argument unchanged for every scale (it compares x.shape with itself to find the axes to reduce)."
  },
  {
   "property": "C62",
   "status": "partial",
   "theorems": [
    "Verif.Props.C62_projection",
    "Verif.Props.C62_fixes_nonzonal",
    "Verif.Props.C62_kills_zonal",
    "Verif.Props.C62_linear",
    "Verif.Props.C62_translation",
    "Verif.Props.C62_fourier_violated"
   ],
   "note": "Exact arithmetic over any field of suitable characteristic. Zero y-mean, idempotence, linearity, fixed points and translations are proved for zonal_transform; zonal_transform_fourier always raises TypeError (np.fft.fft has no argument axes), so the 'spectral twin' part is violated."
  },
  {
   "property": "C63",
   "status": "partial",
   "theorems": [
    "Verif.Props.C63_mean_std",
    "Verif.Props.C63_assertion",
    "Verif.Props.C63_defined",
    "Verif.Props.C63_run",
    "Verif.Props.C63_float_mask_violated"
   ],
   "note": "Exact arithmetic for mean, standard deviation and the assertion (iff). In double precision the mask is negative at k=0 for 0.05 <= min <= max <= 0.5 (C63_float_mask_violated, from a few facts about rounding to nearest), so the assertion fails although the bounds are in order. The random draw is an arbitrary complex array."
  },
  {
   "property": "C64",
   "status": "partial",
   "theorems": [
    "Verif.Props.C64_values",
    "Verif.Props.C64_shape_partial",
    "Verif.Props.C64_shape_violated"
   ],
   "note": "Values proved for every size. The returned array has the transposed shape (w,h): right for square grids only."
  },
  {
   "property": "C65",
   "status": "partial",
   "theorems": [
    "Verif.Props.C65_equally_spaced_partial",
    "Verif.Props.C65_initial_time_violated",
    "Verif.Props.C65_unequally_spaced_partial",
    "Verif.Props.C65_unequally_spaced_once_partial",
    "Verif.Props.C65_unequally_spaced_violated",
    "Verif.Props.C65_unequally_spaced_double_violated",
    "Verif.Props.C65_movie_succeeds"
   ],
   "note": "Equally spaced movies: all indices valid, increasing, each once, in any floating point arithmetic satisfying the rounding law, for files with initial_time 0; violated for other initial times (frames shown are wrong or missing). Unequally spaced movies: exact arithmetic only; a concrete double precision run raises IndexError."
  },
  {
   "property": "C66",
   "status": "proved",
   "theorems": [
    "Verif.Props.C66_min_fps",
    "Verif.Props.C66_speed"
   ],
   "note": "The fps returned by the plan of create_movie, both for speed given and for min_fps."
  },
  {
   "property": "C67",
   "status": "proved",
   "theorems": [
    "Verif.Props.C67_frame",
    "Verif.Props.C67_movie"
   ],
   "note": "Every frame of every movie: vmin/vmax contain all values of the frame; limit between new maximum and previous limit."
  },
  {
   "property": "C68",
   "status": "partial",
   "theorems": [
    "Verif.Props.C68_path",
    "Verif.Props.C68_overwrites_violated",
    "Verif.Props.C68_distinct_partial"
   ],
   "note": "Violated for all times below 10000 with equal number of digits (the last four characters are cut off); distinct paths proved for times that differ before the last four digits; C68_path gives the path for every file name and time."
  },
  {
   "property": "C69",
   "status": "partial",
   "theorems": [
    "Verif.Props.C69_table_partial",
    "Verif.Props.C69_prints",
    "Verif.Props.C69_too_narrow_violated",
    "Verif.Props.C69_no_numbers_violated",
    "Verif.Props.C69_text_violated",
    "Verif.Props.C69_width_violated"
   ],
   "note": "Whatever is printed is a table with every number once, in order, in aligned columns; lines shorter than the allowed width if no number is longer than value_length. Violated: nothing printed in a narrow terminal, ValueError without numbers or with a text value, too long lines for numbers such as -1.2e-05."
  },
  {
   "property": "C70",
   "status": "partial",
   "theorems": [
    "Verif.Props.C70_labels",
    "Verif.Props.C70_distinct",
    "Verif.Props.C70_shared_violated",
    "Verif.Props.C70_metric_partial",
    "Verif.Props.C70_metric_empty",
    "Verif.Props.C70_metric_violated",
    "Verif.Props.C70_latex",
    "Verif.Props.C70_zero_partial",
    "Verif.Props.C70_zero_violated"
   ],
   "note": "latex_format is total and agrees with the table, entry by entry. std_gamma_n has the label of another quantity and three pairs of names share a label (C70_shared_violated); metric_format raises KeyError for names without label and cuts off a character of names without underscore (C70_metric_violated). is_zero_included is False when 0 lies in the top frac of the range."
  },
  {
   "property": "C71",
   "status": "proved",
   "theorems": [
    "Verif.Props.C71_run_refuses",
    "Verif.Props.C71_run2_refuses"
   ],
   "note": "run and run2; law-free scalars. Broken = NaN in density, omega, phi or time, or density or omega all zero."
  },
  {
   "property": "C72",
   "status": "proved",
   "theorems": [
    "Verif.Props.C72_phase_range",
    "Verif.Props.C72_in_phase",
    "Verif.Props.C72_translated_phase"
   ],
   "note": "Exact arithmetic (reals)."
  },
  {
   "property": "C73",
   "status": "partial",
   "theorems": [
    "Verif.Props.C73_run_parameters",
    "Verif.Props.C73_run2_parameters",
    "Verif.Props.C73_run_times",
    "Verif.Props.C73_run2_times",
    "Verif.Props.C73_time_of_frame_partial",
    "Verif.Props.C73_time_of_frame_violated"
   ],
   "note": "Parameters: law-free, all calls that create a file. Times (exact arithmetic): frame j has the time (ceil(initial_time/frame_dt)+j)*frame_dt, which is initial_time+j*frame_dt iff initial_time is a multiple of frame_dt; otherwise every frame is later (violated)."
  },
  {
   "property": "C74",
   "status": "proved",
   "theorems": [
    "Verif.Props.C74_bracket_second_order"
   ],
   "note": "Real arithmetic; bound 22/9*A*C*dx^2 where A and C bound the partial derivatives of total order up to 4."
  },
  {
   "property": "C75",
   "status": "proved",
   "theorems": [
    "Verif.Props.C75_rhs_second_order"
   ],
   "note": "Real arithmetic; both forms of the coupling. The constant pdeK depends only on the coefficients and the bound of the derivatives. phi is given as the sampled smooth potential (gradient_2d(phi=...))."
  },
  {
   "property": "C76",
   "status": "proved",
   "theorems": [
    "Verif.Props.C76_time_stepping_converges"
   ],
   "note": "Real arithmetic. Existence comes from an enstrophy bound (the bracket conserves sum n^2 + sum Omega^2) and Picard-Lindelof; convergence from the local error and a Lipschitz bound of the increment on a ball around the solution."
  },
  {
   "property": "C77",
   "status": "partial",
   "theorems": [
    "Verif.Props.C77_stored_potential_weight",
    "Verif.Props.C77_converges_anyway_partial",
    "Verif.Props.C77_cache_violated"
   ],
   "note": "The code violates the property: rk4_step uses the stored potential with weight 1/6 (C77_stored_potential_weight is the exact first-order statement), so a step from a state whose potential was not computed by get_phi is not even second-order accurate (C77_cache_violated). What holds: the steppers still converge to the same exact solution, with first order (C77_converges_anyway_partial). run() and run2 are not affected: they call get_phi before the first step."
  },
  {
   "property": "C78",
   "status": "proved",
   "theorems": [
    "Verif.Props.C78_mean",
    "Verif.Props.C78_resolved"
   ],
   "note": "Exact real arithmetic for the transforms; the rounding of the size is law-free."
  },
  {
   "property": "C79",
   "status": "proved",
   "theorems": [
    "Verif.Props.C79_every_kth"
   ],
   "note": "Any rank and any kind of entries."
  },
  {
   "property": "C80",
   "status": "partial",
   "theorems": [
    "Verif.Props.C80_frame_partial",
    "Verif.Props.C80_double_violated",
    "Verif.Props.C80_before_start_violated"
   ],
   "note": "Exact arithmetic; violated in double precision by floor division (frame_dt=0.1, t=0.9) and, silently, for times before the start of the file."
  },
  {
   "property": "C81",
   "status": "partial",
   "theorems": [
    "Verif.Props.C81_uniform_x",
    "Verif.Props.C81_time_axis_partial",
    "Verif.Props.C81_initial_time_violated",
    "Verif.Props.C81_comparison_violated"
   ],
   "note": "Proved for files with initial_time 0 and t0 a multiple of frame_dt; violated for every other initial time by plot_timetraces, and by plot_timetrace_comparison for initial times that are multiples of frame_dt."
  },
  {
   "property": "C82",
   "status": "partial",
   "theorems": [
    "Verif.Props.C82_limits_partial",
    "Verif.Props.C82_comparison_violated",
    "Verif.Props.C82_cutoff_violated"
   ],
   "note": "plot_timetraces keeps limits that contain the data if some value is negative and none exceeds the cutoff. Violated: plot_timetrace_comparison always starts the axis at 0; the cutoff is not applied to diverged data because the minimum is used instead of the maximum."
  },
  {
   "property": "C83",
   "status": "partial",
   "theorems": [
    "Verif.Props.C83_crash_partial",
    "Verif.Props.C83_zero_rows_violated"
   ],
   "note": "Every crash point of every fresh run, also one that raises or becomes NaN. Violated only by rows of zeros: a crash between resize and write leaves up to buffer_length zero rows in one dataset. A property dataset named like a field is excluded."
  },
  {
   "property": "C84",
   "status": "partial",
   "theorems": [
    "Verif.Props.C84_exception_partial",
    "Verif.Props.C84_frames_lost_violated"
   ],
   "note": "Exact description of the file after an exception. Violated: the buffer is not flushed, so n % buffer_length frames are lost."
  },
  {
   "property": "C85",
   "status": "partial",
   "theorems": [
    "Verif.Props.C85_crash_continued_partial",
    "Verif.Props.C85_zero_rows_violated"
   ],
   "note": "Every crash point of every continued run. Same violation as C83; the old rows are never lost."
  },
  {
   "property": "C86",
   "status": "proved",
   "theorems": [
    "Verif.Props.C86_converges_to_pde",
    "Verif.Props.C86_converges_pointwise"
   ],
   "note": "Real arithmetic. Energy estimate for the difference of the semi-discrete solution (C76) and the samples: Arakawa's bracket conserves the square of the error, hyperdiffusion damps it, the spectral potential is bounded by a discrete Poincare inequality, consistency from C75 and the spectral-versus-stencil symbol; Gronwall. The largest allowed dt depends on the grid. The order 2 in the maximum norm is not claimed (1 is proved). The example is an unstable resistive drift wave, an exact solution, on every square grid."
  },
  {
   "property": "C87",
   "status": "proved",
   "theorems": [
    "Verif.Props.C87_run2_file_approximates_pde",
    "Verif.Props.C87_file_approximates_pde"
   ],
   "note": "End-to-end combination of C44 (frames of the file), C86 (convergence to the equations) and the exact-arithmetic model; only the float32 cast on writing is kept abstract. run() always uses the plain (non-zonal) coupling; C87_run2_file_approximates_pde is the statement for run2, with either coupling, any recording_start_time and properties. The example is the growing drift wave on every square grid."
  },
  {
   "property": "C88",
   "status": "proved",
   "theorems": [
    "Verif.Props.C88_modes_evolve_separately",
    "Verif.Props.C88_simple_states_are_linear",
    "Verif.Props.C88_growth_rate"
   ],
   "note": "Real arithmetic. The matrix is written with the symbols of the program's own operators (central difference, five-point Laplacian, spectral potential) in Spec/Modes.lean. The bracket of a wave with itself vanishes because it is translation invariant, hence constant, and has zero mean."
  },
  {
   "property": "C89",
   "status": "proved",
   "theorems": [
    "Verif.Props.C89_stable",
    "Verif.Props.C89_unstable"
   ],
   "note": "Real arithmetic. Follows from C88 and Parseval. Both directions are proved; necessity needs even grids (the checkerboard is not periodic otherwise)."
  },
  {
   "property": "C90",
   "status": "partial",
   "theorems": [
    "Verif.Props.C90_phiml_differences",
    "Verif.Props.C90_phiml_poisson",
    "Verif.Props.C90_phiml_fourier_laplace",
    "Verif.Props.C90_phiml_inverse",
    "Verif.Props.C90_phiml_powers_partial",
    "Verif.Props.C90_phiml_powers_violated"
   ],
   "note": "Exact arithmetic, under the documented meaning of convolve, spatial_gradient, fft, fftfreq and safe_div (listed in Model/Phiml.lean). Powers: fourier_laplace divides by dx^2 once instead of N times, so order N+1 is dx^2 times the Laplacian of order N (_partial) and order 2 is not two Laplacians for dx=2 (_violated)."
  },
  {
   "property": "C91",
   "status": "partial",
   "theorems": [
    "Verif.Props.C91_intrinsic_gradient",
    "Verif.Props.C91_benchmark_passes_partial",
    "Verif.Props.C91_benchmark_violated",
    "Verif.Props.C91_unknown_name"
   ],
   "note": "The four benchmarks pass for all data with dx=1 (and the three others for all dx^2<=1e9); the np.gradient variant is bit-identical to periodic_gradient for dx=1 and ignores dx, so the gradient benchmark raises for every dx with |1/dx-1|>=1e-3 on data that are not nearly constant (_violated). An unknown name raises TypeError."
  },
  {
   "property": "C92",
   "status": "proved",
   "theorems": [
    "Verif.Props.C92_budgets_over_time",
    "Verif.Props.C92_energy_reported"
   ],
   "note": "Exact arithmetic. Proved with the energy conserved by the bracket (mean(n^2-phi*omega)/2). The finite-difference get_energy is a different number (C22) and is not covered; dissipation is taken from diffuse, because the reported DE/DU are not the true dissipation (C26)."
  },
  {
   "property": "C93",
   "status": "partial",
   "theorems": [
    "Verif.Props.C93_crash2_partial",
    "Verif.Props.C93_zero_rows_violated"
   ],
   "note": "Proved for every crash point and every number of loop iterations (retried steps included); fails because h5py datasets are enlarged before they are filled: at most one dataset may end with rows of zeros (witness)."
  },
  {
   "property": "C94",
   "status": "partial",
   "theorems": [
    "Verif.Props.C94_crash2_continued_partial",
    "Verif.Props.C94_zero_rows_violated"
   ],
   "note": "Proved for every crash point; fails only for the rows of zeros of the dataset that is being enlarged (witness)."
  },
  {
   "property": "C95",
   "status": "partial",
   "theorems": [
    "Verif.Props.C95_stencils",
    "Verif.Props.C95_axis0_violated",
    "Verif.Props.C95_diagnostics",
    "Verif.Props.C95_spectra",
    "Verif.Props.C95_fields",
    "Verif.Props.C95_phase_partial",
    "Verif.Props.C95_phase_violated",
    "Verif.Props.C95_batches"
   ],
   "note": "Proved for every leading shape for all stencils with negative axis, all diagnostics and spectra; get_delta_ky only for single frames and rank-3 stacks of square frames, because it takes shape[1] for the number of columns (witness); axis=0 on a stack is not frame-wise (witness). C95_batches links the batches of calculate_properties to the frame-by-frame model."
  },
  {
   "property": "C96",
   "status": "partial",
   "theorems": [
    "Verif.Props.C96_new_file_partial",
    "Verif.Props.C96_continued_partial",
    "Verif.Props.C96_continued_violated"
   ],
   "note": "Proved in exact arithmetic and exact storage, without downsampling, for new files and for continued files if c1 and dx of the call are those of the file; violated by a continuation whose argument c1 differs from the file's: the simulation and gamma_c use the stored c1, fullres_gamma_c the argument (witness for every new frame with n != phi)."
  },
  {
   "property": "C97",
   "status": "proved",
   "theorems": [
    "Verif.Props.C97_gradient",
    "Verif.Props.C97_laplace_N",
    "Verif.Props.C97_laplace",
    "Verif.Props.C97_bracket",
    "Verif.Props.C97_bracket_conserves",
    "Verif.Props.C97_laplace_total"
   ],
   "note": "Standard model of floating-point arithmetic (Spec/Rounding.lean), instantiated by binary arithmetic with p-bit significands and rounding to nearest. Overflow and underflow are excluded. The unfused brackets and the Poisson solver are not covered."
  },
  {
   "property": "C98",
   "status": "proved",
   "theorems": [
    "Verif.Props.C98_errors_stay_small"
   ],
   "note": "C98_errors_stay_small covers both steppers; computedRun_exists shows that computed runs with errors exist. The size of eps for the operators of one step is C97."
  },
  {
   "property": "C99",
   "status": "proved",
   "theorems": [
    "Verif.Props.C99_growing_mode_iff",
    "Verif.Props.C99_drift_waves_unstable",
    "Verif.Props.C99_unstable_wave_grows",
    "Verif.Props.C99_damped_mode_decays"
   ],
   "note": "C99_growing_mode_iff (threshold of the mode matrix of C88), C99_drift_waves_unstable (nu=0), C99_unstable_wave_grows (full program with brackets), C99_damped_mode_decays (program without brackets)."
  },
  {
   "property": "C100",
   "status": "proved",
   "theorems": [
    "Verif.Props.C100_exact_energy_bound",
    "Verif.Props.C100_energy_bound"
   ],
   "note": "C100_exact_energy_bound (exact solutions), C100_energy_bound (the program). Exact arithmetic; the energy is the one of C92, not get_energy (C22)."
  },
  {
   "property": "C101",
   "status": "proved",
   "theorems": [
    "Verif.Props.C101_property_values",
    "Verif.Props.C101_recorded_values",
    "Verif.Props.C101_derivatives_exist",
    "Verif.Props.C101_get_D"
   ],
   "note": "Formulas in Spec/Properties.lean, independent of the model. Odd grids (spectral flux) are C21, non-square grids C20; in exact arithmetic."
  },
  {
   "property": "C102",
   "status": "proved",
   "theorems": [
    "Verif.Props.C102_properties_converge",
    "Verif.Props.C102_recorded_properties"
   ],
   "note": "C102_properties_converge: for every smooth HWSolution (Spec/PDE.lean) one constant C serves all grids, both integrators, all eight properties. C102_recorded_properties: the datasets run2 writes. The physical quantities are integrals (Spec/Measured.lean). The first frame (j = 0) is excluded because its phi is whatever the caller passed. Square box; dt0 depends on the grid; exact real arithmetic. Example: the growing drift wave has flux 2/3*exp(19/5*t), and this is what the runs record up to C*dx^2."
  },
  {
   "property": "C103",
   "status": "proved",
   "theorems": [
    "Verif.Props.C103_floating_point",
    "Verif.Props.C103_mean_accuracy",
    "Verif.Props.C103_same_program",
    "Verif.Props.C103_arithmetic_exists"
   ],
   "note": "C103_floating_point: no-error and error bounds of the run evaluated operation by operation in rounded arithmetic, from C98 and a bound for the error of one step that is uniform on bounded sets (Lemmas/Accurate, HWFloat). C103_same_program: the generic model of the steps is Model/HW for real numbers. C103_mean_accuracy: means summed in any order satisfy the accuracy assumed. C103_arithmetic_exists: arithmetics of every accuracy exist. The accuracy of the FFT-based solver is a hypothesis; overflow and underflow are excluded."
  },
  {
   "property": "C104",
   "status": "proved",
   "theorems": [
    "Verif.Props.C104_raises_at_once",
    "Verif.Props.C104_raises_at_first_frame",
    "Verif.Props.C104_file_is_stuck"
   ],
   "note": "C104_raises_at_once: recording_start_time=0. C104_raises_at_first_frame: any other start; error is one of the bad names' (propLoop stops at the first bad one). C104_file_is_stuck: any file without frames makes continue_file=True raise, for arbitrary arguments. Exact real arithmetic is used only for the property values of the valid names (so that they do not raise)."
  },
  {
   "property": "C105",
   "status": "partial",
   "theorems": [
    "Verif.Props.C105_same_frames_partial",
    "Verif.Props.C105_run_and_run2_partial",
    "Verif.Props.C105_run_and_run2_violated"
   ],
   "note": "Proved: equal files whenever both take the same number of steps and compute the same times, in any arithmetic (C105_same_frames_partial); in exact arithmetic this is so if end_time is a multiple of step_size with at most four decimals, later than recording_start_time, and step_size >= 1e-4 (C105_run_and_run2_partial). Missing because false: for other end_time run stops before it and run2 after it, and the files differ in length (C105_run_and_run2_violated); frames lost by run2 when end_time <= recording_start_time are C52."
  },
  {
   "property": "C106",
   "status": "proved",
   "theorems": [
    "Verif.Props.C106_zonal_mean_rates",
    "Verif.Props.C106_zonal_flow_persists",
    "Verif.Props.C106_only_viscosity"
   ],
   "note": "Exact arithmetic (reals). C106_zonal_mean_rates expresses column means of the computed rates in column means of the backend's own bracket and diffuse_N arrays; it covers both settings of zonal. The other two are about whole histories."
  },
  {
   "property": "C107",
   "status": "proved",
   "theorems": [
    "Verif.Props.C107_copies",
    "Verif.Props.C107_measured",
    "Verif.Props.C107_period_persists",
    "Verif.Props.C107_parity_persists"
   ],
   "note": "Exact arithmetic (reals). C107_copies compares histories on two grids of different size; C107_measured the diagnostics; the two persistence theorems follow from C29 and C30."
  },
  {
   "property": "C108",
   "status": "proved",
   "theorems": [
    "Verif.Props.C108_floating_point_converges"
   ],
   "note": "Combination of C86 and C103; assumptions on the arithmetic as in C103 (every elementary operation rounded with relative error u, means and FFT-based solver accurate to eta)."
  },
  {
   "property": "C109",
   "status": "proved",
   "theorems": [
    "Verif.Props.C109_first_frame2",
    "Verif.Props.C109_reproducible",
    "Verif.Props.C109_reproducible2",
    "Verif.Props.C109_invalid_start",
    "Verif.Props.C109_invalid_start2",
    "Verif.Props.C109_errors",
    "Verif.Props.C109_no_spacing",
    "Verif.Props.C109_sine_ignores_seed",
    "Verif.Props.C109_existing_kept",
    "Verif.Props.C109_existing_kept2",
    "Verif.Props.C109_sine_first_frame",
    "Verif.Props.C109_random_first_frame",
    "Verif.Props.C109_fourier_first_frame",
    "Verif.Props.C109_fourier_zero_mean",
    "Verif.Props.C109_fourier_zero_mean2"
   ],
   "note": "Exact arithmetic for the frames; the law-free part (reproducibility, invalid arguments) holds for any scalars and any generator. The random number generator is an arbitrary state machine."
  },
  {
   "property": "C110",
   "status": "partial",
   "theorems": [
    "Verif.Props.C110_rk4_partial",
    "Verif.Props.C110_euler_partial",
    "Verif.Props.C110_accumulates",
    "Verif.Props.C110_follow_violated"
   ],
   "note": "Full: dE and dU accumulate the reported rates (trapezoidal rule, C dt^2), all parameters. Partial: they follow energy and enstrophy with order dt^4 (rk4_step) and dt (euler_step) for nu=0, kappa=1, no zonal coupling, dx of the constructor. Violated otherwise: for N=1 and every nu>0 a gap bounded away from zero opens for every small dt."
  },
  {
   "property": "C111",
   "status": "proved",
   "theorems": [
    "Verif.Props.C111_units",
    "Verif.Props.C111_amplitude",
    "Verif.Props.C111_measured",
    "Verif.Props.C111_gradient_direction",
    "Verif.Props.C111_axes"
   ],
   "note": "Exact arithmetic. C111_units (time and amplitude), C111_amplitude (all entries and counters), C111_measured, C111_gradient_direction, C111_axes (also non-square grids). dE and dU do not follow a change of the time unit or of the sign of kappa_coeff, because the reported gamma_n carries no kappa_coeff (C26)."
  },
  {
   "property": "C112",
   "status": "proved",
   "theorems": [
    "Verif.Props.C112_offset",
    "Verif.Props.C112_flux"
   ],
   "note": "Exact arithmetic; N >= 1 or nu = 0 (with N = 0 the diffusion term is a drag that also acts on the mean)."
  },
  {
   "property": "C113",
   "status": "proved",
   "theorems": [
    "Verif.Props.C113_laplace",
    "Verif.Props.C113_arakawa",
    "Verif.Props.C113_periodic_laplace",
    "Verif.Props.C113_periodic_arakawa",
    "Verif.Props.C113_fftfreq_sq"
   ],
   "note": "Shared memory, one read or write at a time, any interleaving, any split among any number of threads; barrier after each loop. Both termination (no infinite and no stuck execution) and the value are proved; the values are those of the sequential definitions used by the other properties, and on periodic fields the torus stencils. Assumes sequentially consistent memory, no fastmath."
  },
  {
   "property": "C114",
   "status": "partial",
   "theorems": [
    "Verif.Props.C114_spectrum",
    "Verif.Props.C114_band_partial",
    "Verif.Props.C114_square",
    "Verif.Props.C114_wavelength_violated"
   ],
   "note": "The spectrum (C114_spectrum) is proved in full. The wavelength bounds are not what the documentation says: they are compared with K, which for the default factor=2 is the inverse square of the wavelength (C114_square), so that in run(grid_pts=128, k0=0.15) waves of 6.4 grid spacings keep 99 % of their amplitude although min_wavelength is 12 (C114_wavelength_violated). C114_band_partial says what is suppressed in terms of K."
  },
  {
   "property": "C115",
   "status": "partial",
   "theorems": [
    "Verif.Props.C115_bracket_partial",
    "Verif.Props.C115_bracket_violated",
    "Verif.Props.C115_solver_partial",
    "Verif.Props.C115_solver_stack",
    "Verif.Props.C115_solver_violated"
   ],
   "note": "Violated for every stack: the bracket slices the first two axes and pads all of them, the solver takes leading indices for wave numbers (each frame solves a screened equation; C115_solver_stack says exactly what is computed). Proved for single frames (rank 2)."
  },
  {
   "property": "C116",
   "status": "proved",
   "theorems": [
    "Verif.Props.C116_exact_fluctuations",
    "Verif.Props.C116_run_fluctuations",
    "Verif.Props.C116_fluctuations_die_out"
   ],
   "note": "Exact solutions: C116_exact_fluctuations; simulations: C116_run_fluctuations; the limit: C116_fluctuations_die_out. All over the reals."
  },
  {
   "property": "C117",
   "status": "partial",
   "theorems": [
    "Verif.Props.C117_run_times_partial",
    "Verif.Props.C117_run2_times_partial",
    "Verif.Props.C117_equal_times_violated"
   ],
   "note": "Holds for runs of at most 2^23 recorded frames (C117_run_times_partial, C117_run2_times_partial); the violation for longer runs is C117_equal_times_violated."
  },
  {
   "property": "C118",
   "status": "partial",
   "theorems": [
    "Verif.Props.C118_bar_is_harmless_partial",
    "Verif.Props.C118_bar_shows_zero_violated",
    "Verif.Props.C118_empty_name_violated"
   ],
   "note": "The code violates the main part: C118_bar_shows_zero_violated, C118_empty_name_violated. C118_bar_is_harmless_partial is the part that holds."
  },
  {
   "property": "C119",
   "status": "partial",
   "theorems": [
    "Verif.Props.C119_interrupted",
    "Verif.Props.C119_retry_partial",
    "Verif.Props.C119_retry_violated"
   ],
   "note": "Crash states described exactly (C119_interrupted); repeating with force_recompute=True (default, and what run and run2 use) gives the uninterrupted result from every crash point (C119_retry_partial); with force_recompute=False zeros remain, for every file and list (C119_retry_violated)."
  },
  {
   "property": "C120",
   "status": "partial",
   "theorems": [
    "Verif.Props.C120_same_list_partial",
    "Verif.Props.C120_left_out_violated",
    "Verif.Props.C120_added_violated"
   ],
   "note": "Proved when the file records every property of the continuing call (any order, possibly others too): time, fields and the listed properties all gain the same number of rows. Violated otherwise: a property left out of the later call silently keeps its old rows while time grows; a property added in the later call makes append_h5 raise KeyError at the first flush, after time, fields and the properties before it were extended but before the later ones and state_* were, so the next continuation starts from the old state at the new time."
  },
  {
   "property": "C121",
   "status": "proved",
   "theorems": [
    "Verif.Props.C121_contents",
    "Verif.Props.C121_errors",
    "Verif.Props.C121_fixed",
    "Verif.Props.C121_run",
    "Verif.Props.C121_run2"
   ],
   "note": "The run statements range over FreshRun/FreshRun2 as in C44 and C52 (run2: recording starts before the end, see C52); a property with the name of a field is excluded as there."
  },
  {
   "property": "C122",
   "status": "partial",
   "theorems": [
    "Verif.Props.C122_blends",
    "Verif.Props.C122_exact",
    "Verif.Props.C122_number_partial",
    "Verif.Props.C122_number_exact",
    "Verif.Props.C122_valid",
    "Verif.Props.C122_negative",
    "Verif.Props.C122_default_violated"
   ],
   "note": "Violated for the default vals=600: double precision yields 596 colours (C122_default_violated), since every segment truncates a rounded product; proved instead: vals-15 to vals colours, exactly vals in exact arithmetic for multiples of 100; the blends hold to 2^-48. Numbers from -7 to -1 give no colours rather than an error (not claimed)."
  },
  {
   "property": "C123",
   "status": "partial",
   "theorems": [
    "Verif.Props.C123_equally_spaced",
    "Verif.Props.C123_late_violated",
    "Verif.Props.C123_late_raises_violated",
    "Verif.Props.C123_caption_violated",
    "Verif.Props.C123_adaptive",
    "Verif.Props.C123_run",
    "Verif.Props.C123_run2_adaptive",
    "Verif.Props.C123_run2_fixed"
   ],
   "note": "Violated for fixed steps if the recording starts late: the movie of such a file begins with a later frame labelled with a negative time (C123_late_violated) or raises IndexError, which with movie=True aborts run() before the properties are computed (C123_late_raises_violated); with t0 and t1 given the frames are right but the captions are not (C123_caption_violated). Proved for recordings from time 0 and for all adaptive files; exact arithmetic for the times of frames."
  },
  {
   "property": "C124",
   "status": "partial",
   "theorems": [
    "Verif.Props.C124_figure_name",
    "Verif.Props.C124_own_figures_partial",
    "Verif.Props.C124_shared_figure_violated",
    "Verif.Props.C124_comparison_partial",
    "Verif.Props.C124_nan_violated",
    "Verif.Props.C124_label_violated",
    "Verif.Props.C124_late_statistics_violated",
    "Verif.Props.C124_late_violated",
    "Verif.Props.C124_adaptive_partial",
    "Verif.Props.C124_adaptive_violated",
    "Verif.Props.C124_overwrites_violated",
    "Verif.Props.C124_paths_partial"
   ],
   "note": "Violated: plot_timetraces labels every curve <class 'property'> (C124_label_violated); the statistics are NaN if t0_std is one frame after the end (C124_nan_violated); for files that start later the statistics use the wrong values (C124_late_statistics_violated, C124_adaptive_violated) and plot_timetrace_comparison draws nothing or raises TypeError (C124_late_violated); main with out_path overwrites its first figure (C124_overwrites_violated). Proved for plot_timetrace_comparison and files that start at time 0. Names of the figures: C124_figure_name and C124_own_figures_partial for names without a .h5 before the extension; otherwise different files share a figure (C124_shared_figure_violated)."
  },
  {
   "property": "C125",
   "status": "partial",
   "theorems": [
    "Verif.Props.C125_dict_partial",
    "Verif.Props.C125_single_violated",
    "Verif.Props.C125_file_partial",
    "Verif.Props.C125_before_violated",
    "Verif.Props.C125_adaptive_violated",
    "Verif.Props.C125_ticks_violated",
    "Verif.Props.C125_run_partial",
    "Verif.Props.C125_late_violated"
   ],
   "note": "Violated: a dictionary with one entry raises TypeError (C125_single_violated); a time before the first frame shows a frame from the end (C125_before_violated); adaptive files are read as if equally spaced (C125_adaptive_violated); if recording starts between two frames a frame later than t is shown (C125_late_violated); with ticks=True the ticks of the axes are swapped on grids that are not square (C125_ticks_violated). Proved for dictionaries of two or more entries and files recorded from the start with fixed steps; exact arithmetic."
  },
  {
   "property": "C126",
   "status": "partial",
   "theorems": [
    "Verif.Props.C126_files",
    "Verif.Props.C126_run_partial",
    "Verif.Props.C126_late_violated",
    "Verif.Props.C126_no_properties_violated",
    "Verif.Props.C126_files2",
    "Verif.Props.C126_run2_partial",
    "Verif.Props.C126_run2_adaptive",
    "Verif.Props.C126_run2_late_violated",
    "Verif.Props.C126_run2_late_frames"
   ],
   "note": "Violated: if recording starts in the second half of the run, the default movie=True ends the call with an IndexError before any property is calculated (C126_late_violated); properties=[] with the default plot_properties ends the call with a KeyError (C126_no_properties_violated). the figure of the second module is missing, or the call ends with a TypeError, if recording starts later (C126_run2_late_violated). Proved for recordings from the start with exact arithmetic; C126_files, C126_files2 hold for all arguments. matplotlib and the encoder are not modelled."
  },
  {
   "property": "C127",
   "status": "proved",
   "theorems": [
    "Verif.Props.C127_continue",
    "Verif.Props.C127_run",
    "Verif.Props.C127_run2",
    "Verif.Props.C127_missing_parameter"
   ],
   "note": "Datasets of other kinds than the two functions write are modelled as TypeError."
  },
  {
   "property": "C128",
   "status": "partial",
   "theorems": [
    "Verif.Props.C128_pieces_partial",
    "Verif.Props.C128_physics_partial"
   ],
   "note": "Holds if, at every cut, the stored state is the last frame (number of frames a multiple of buffer_length) or, without add_last_state, the last frame is recorded exactly. False otherwise (C47_stale_state_violated)."
  },
  {
   "property": "C129",
   "status": "proved",
   "theorems": [
    "Verif.Props.C129_errors_add_up",
    "Verif.Props.C129_float_drift"
   ],
   "note": "C129_errors_add_up: any source of errors of at most eps per entry and step (drift <= 2 k eps). C129_float_drift: the floating-point steps of C103. Accuracy of np.mean and of the FFT solver is assumed (`Accurate`), and N >= 1 or nu = 0 as in C27."
  },
  {
   "property": "C130",
   "status": "proved",
   "theorems": [
    "Verif.Props.C130_arguments",
    "Verif.Props.C130_rejects",
    "Verif.Props.C130_same_values",
    "Verif.Props.C130_run"
   ],
   "note": "C130_arguments and C130_rejects describe every call; C130_same_values: order and kind of passing do not matter; C130_run: links the constructor call of run/run2 with the simulation object used in their models. Values are Python numbers and booleans; a NumPy scalar k0=0 warns instead of raising."
  },
  {
   "property": "C131",
   "status": "partial",
   "theorems": [
    "Verif.Props.C131_same_simulation",
    "Verif.Props.C131_times",
    "Verif.Props.C131_prints",
    "Verif.Props.C131_table",
    "Verif.Props.C131_outside_violated"
   ],
   "note": "C131_same_simulation: results, counters and exceptions are those of the model without clock, for every clock. C131_times, C131_table, C131_prints. Violated when the object is also used outside its steps: run calls get_phi before its first step and the time goes into the same total (C131_outside_violated). debug is off."
  },
  {
   "property": "C132",
   "status": "proved",
   "theorems": [
    "Verif.Props.C132_history",
    "Verif.Props.C132_kept",
    "Verif.Props.C132_enstrophy",
    "Verif.Props.C132_diffuse_same_object"
   ],
   "note": "C132_history: same values, counters and exceptions as the model without memory (the subject of the other properties), old arrays unchanged, arrays of the result new and distinct. C132_kept, C132_enstrophy. C132_diffuse_same_object: with N = 0 the NumPy diffuse hands out its argument. The numerical schemes are taken to create their results (their in-place writes go to arrays they allocate), and arrays to be whole objects, not overlapping views."
  },
  {
   "property": "C133",
   "status": "partial",
   "theorems": [
    "Verif.Props.C133_off",
    "Verif.Props.C133_gradient",
    "Verif.Props.C133_on",
    "Verif.Props.C133_lines",
    "Verif.Props.C133_array_age_violated"
   ],
   "note": "C133_off (any dictionary), C133_on, C133_lines, C133_gradient. Numbers before rounding for print; the elapsed seconds at the end of the line of rk4_step are left out. That the means vanish needs N >= 1 or nu = 0. For states whose age is an array the step succeeds without debugging and raises TypeError with it: C133_array_age_violated."
  },
  {
   "property": "C134",
   "status": "proved",
   "theorems": [
    "Verif.Props.C134_floating_point_file"
   ],
   "note": "C134_floating_point_file. Standard model of floating-point arithmetic (no overflow or underflow); accuracy of means and of the FFT Poisson solver is assumed (Accurate, as in C103). Step numbers are exact. The first frame is excluded (C46: it holds the initial potential)."
  },
  {
   "property": "C135",
   "status": "proved",
   "theorems": [
    "Verif.Props.C135_floating_point_file"
   ],
   "note": "C135_floating_point_file. Standard model of floating-point arithmetic (no overflow or underflow); accuracy of means, of the FFT Poisson solver (Accurate, as in C103) and of np.sum (theta <= 1/4) is assumed. Step numbers are exact. The first frame is excluded (C46: it holds the initial potential). The run must end after recording has begun (otherwise frames are lost, C52)."
  },
  {
   "property": "C136",
   "status": "partial",
   "theorems": [
    "Verif.Props.C136_continue_repeats",
    "Verif.Props.C136_same_fields",
    "Verif.Props.C136_repeated_rows_violated",
    "Verif.Props.C136_simulation"
   ],
   "note": "C136_continue_repeats (general), C136_same_fields (full buffer), C136_simulation (the steps of model.py satisfy the assumption, in any arithmetic). The last sentence is false: C136_repeated_rows_violated shows that when the frames do not fill the buffer a whole number of times the rows after the stored state are written a second time, bit for bit, under later time stamps. Non-zonal calls only (a continued zonal run loses the option, C49)."
  },
  {
   "property": "C137",
   "status": "partial",
   "theorems": [
    "Verif.Props.C137_continued_file_partial"
   ],
   "note": "C137_continued_file_partial: the frame of step j of the second call is within C(dx^2+v) of the solution at (k+j) step_size, with k the step of the stored states, and stamped (l+j) step_size up to (6 theta + 2 v) relatively, with l the last recorded step. k = l exactly when the claim holds (buffer filled a whole number of times is enough); otherwise the stamps are late by (l-k) step_size (C136_repeated_rows_violated). Needs zonal = False (C49), add_last_state, stored states that do not vanish."
  },
  {
   "property": "C138",
   "status": "proved",
   "theorems": [
    "Verif.Props.C138_same_functions",
    "Verif.Props.C138_property_rounding",
    "Verif.Props.C138_properties_converge",
    "Verif.Props.C138_recorded_properties"
   ],
   "note": "C138_same_functions: with real numbers the generic table of property functions is the one of run2. C138_property_rounding: the eight property functions in floating point against the exact ones on the same arrays. C138_properties_converge: after any number of rk4 or euler steps in floating point. C138_recorded_properties: the datasets fullres_<name> of a run2 call to a new file. Assumed of the arithmetic: means, Poisson solver (Accurate) and the three FFT-based functions (AccurateSpectra) are accurate to eta relative to the size (squared) of their arguments; the spectral particle flux needs an even grid."
  },
  {
   "property": "C139",
   "status": "proved",
   "theorems": [
    "Verif.Props.C139_run_file_properties",
    "Verif.Props.C139_run2_file_properties"
   ],
   "note": "C139_run_file_properties and C139_run2_file_properties. The property functions applied to stored arrays are assumed accurate to eps on arrays with bounded entries and to return a number on all grids of the right size (AccurateProps; met by the functions of C138 evaluated on the numbers read back). The spectral particle flux needs an even grid; without downsampling."
  },
  {
   "property": "C140",
   "status": "partial",
   "theorems": [
    "Verif.Props.C140_continue_repeats",
    "Verif.Props.C140_same_fields_partial",
    "Verif.Props.C140_repeated_rows_violated",
    "Verif.Props.C140_gap_violated"
   ],
   "note": "C140_continue_repeats is the general statement: the appended frames are those of the steps k+j, stamped with the time of step j. C140_same_fields_partial gives the equality of the fields with an uninterrupted run and says exactly how the times differ. The code violates the property in three ways, each with a theorem: the times restart from 0 (stated in C140_same_fields_partial, see C48), frames after the last full buffer are written twice (C140_repeated_rows_violated), and with recording_start_time > 0 the continuing call waits for that time again and may append nothing (C140_gap_violated)."
  },
  {
   "property": "C141",
   "status": "partial",
   "theorems": [
    "Verif.Props.C141_continued_file_partial"
   ],
   "note": "C141_continued_file_partial: the fields of the appended frames satisfy the error bound at the times (k+j) step_size, with an explicit formula for the stored step k and for the number of frames. The code violates the claim about the times: the stamps restart from 0, as the theorem says (the appended frame of step j is stamped j step_size). Assumes add_last_state, a buffer that was filled at least once, a state that does not vanish and recording from the start."
  },
  {
   "property": "C142",
   "status": "proved",
   "theorems": [
    "Verif.Props.C142_every_frame",
    "Verif.Props.C142_continued_properties"
   ],
   "note": "C142_every_frame is law-free: all frames old and new, in order, with the value the property function returns for the stored fields of that frame. C142_continued_properties adds the error bound C dx^2 for every frame but that of the initial state (whose potential is the one the user gives)."
  },
  {
   "property": "C143",
   "status": "partial",
   "theorems": [
    "Verif.Props.C143_every_frame",
    "Verif.Props.C143_continued_properties_partial"
   ],
   "note": "C143_every_frame is law-free and covers the fields, the properties computed afterwards and those recorded during the simulation; it needs that the time passes recording_start_time, otherwise the last buffer is dropped (C136). C143_continued_properties_partial is for the original coupling (without zonal correction) and stored states that are not all zero; the frames show the steps l, l repeated when the buffer was not full (C136), which shownSteps lists."
  },
  {
   "property": "C144",
   "status": "partial",
   "theorems": [
    "Verif.Props.C144_limit",
    "Verif.Props.C144_limits_return",
    "Verif.Props.C144_sqrt_violated"
   ],
   "note": "C144_limit gives the exact limit of each frame, C144_limits_return the bound for every movie. The last sentence is false: C144_sqrt_violated shows that with new_cbar_max (defined in the file, not used by the movies) the limits tend to the size of the data plus 1, whatever the unit of the data, and grow when they are less than 1 above it. Exact arithmetic."
  },
  {
   "property": "C145",
   "status": "proved",
   "theorems": [
    "Verif.Props.C145_file_budgets",
    "Verif.Props.C145_run_budgets"
   ],
   "note": "Exact arithmetic; frames from the first step on (frame 0 shows the potential the user gives). get_energy is not used: its kinetic part uses central differences and is not the energy that the discrete equations conserve (C92, C22); the spectral properties thermal_energy and kinetic_energy are. For run (C145_run_budgets): no downsampling, dx = 2 pi / k0 / grid_pts, and storing the fields is exact."
  },
  {
   "property": "C146",
   "status": "proved",
   "theorems": [
    "Verif.Props.C146_recorded",
    "Verif.Props.C146_computed",
    "Verif.Props.C146_pieces"
   ],
   "note": "Exact arithmetic; the rounding to float32 is applied to the values afterwards. On odd grids gamma_n_spectral is not the flux (C21) and no bound is claimed. C146_pieces covers files written in pieces, under the conditions of C128."
  },
  {
   "property": "C147",
   "status": "proved",
   "theorems": [
    "Verif.Props.C147_recorded_growth",
    "Verif.Props.C147_run_growth"
   ],
   "note": "Exact arithmetic; frames from the first step on; recording_start_time = 0. The kinetic energy of the initial fields is that of the potential computed from the vorticity (frame 0 shows the potential the user gives). For run (C147_run_growth): no downsampling, dx = 2 pi / k0 / grid_pts, and storing the fields is exact."
  },
  {
   "property": "C148",
   "status": "proved",
   "theorems": [
    "Verif.Props.C148_run2_means",
    "Verif.Props.C148_run_means",
    "Verif.Props.C148_pieces"
   ],
   "note": "Exact arithmetic, before the rounding to float32; recording_start_time = 0; the call writes a new file. C148_pieces covers files written in pieces, under the conditions of C128."
  },
  {
   "property": "C149",
   "status": "proved",
   "theorems": [
    "Verif.Props.C149_run2_coupling",
    "Verif.Props.C149_run_coupling"
   ],
   "note": "Exact arithmetic, before the rounding to float32; recording_start_time = 0; the call writes a new file. Between 2.78 and 2.8 nothing is claimed."
  },
  {
   "property": "C150",
   "status": "partial",
   "theorems": [
    "Verif.Props.C150_period_iff",
    "Verif.Props.C150_never_periodic_violated",
    "Verif.Props.C150_neighbours_partial",
    "Verif.Props.C150_seam_violated",
    "Verif.Props.C150_neighbours2_partial",
    "Verif.Props.C150_seam2_violated"
   ],
   "note": "Violated: get_2d_sine uses sin(2 pi x + 1) with x in [0, L), L = 2 pi / k0, so the wave has the period 1 and fits only if L is an integer, which is the case for no rational k0 (C150_never_periodic_violated). With the default k0 = 0.15 the fields in frame 0 jump by more than 0.44 init_scale across the edges on every grid of at least 77 points (C150_seam_violated). What holds: neighbours inside the box, and across the edges if L is an integer (C150_neighbours_partial)."
  },
  {
   "property": "C151",
   "status": "proved",
   "theorems": [
    "Verif.Props.C151_recorded_decay",
    "Verif.Props.C151_transport_dies_out",
    "Verif.Props.C151_run_decay",
    "Verif.Props.C151_run_dies_out"
   ],
   "note": "Exact arithmetic, before the rounding to float32; recording_start_time = 0; the call writes a new file; frames from the first step on (frame 0 shows the potential the user gives). C and the largest step size depend on the horizon. For run (C151_run_decay, C151_run_dies_out): no downsampling, dx = 2 pi / k0 / grid_pts, and storing the fields is exact."
  }
 ]
}