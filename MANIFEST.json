{
 "claims": [
  {
   "property": "C01",
   "status": "proved",
   "theorems": [
    "Redmapper.Solver.C01_richness_range"
   ],
   "note": "any linearly ordered field; pow/exp/erf are parameters"
  },
  {
   "property": "C02",
   "status": "proved",
   "theorems": [
    "Redmapper.Solver.C02_exactly_17_steps"
   ],
   "note": ""
  },
  {
   "property": "C03",
   "status": "proved",
   "theorems": [
    "Redmapper.Solver.C03_bracket",
    "Redmapper.Solver.C03_unique_crossing"
   ],
   "note": "unique-crossing corollary added"
  },
  {
   "property": "C04",
   "status": "proved",
   "theorems": [
    "Redmapper.Solver.C04_unit_interval"
   ],
   "note": "assumes the NFW normalisation (an exp) is non-negative and the soft step is in [0,1]"
  },
  {
   "property": "C05",
   "status": "partial",
   "theorems": [
    "Redmapper.Solver.C05_hard_cut_partial",
    "Redmapper.Solver.C05_theta_outside_false"
   ],
   "note": "weight half proved; theta_r = 0 outside is false of the code (stale entries), witness proved"
  },
  {
   "property": "C06",
   "status": "proved",
   "theorems": [
    "Redmapper.Solver.C06_permutation"
   ],
   "note": "exact arithmetic: floating-point summation order is not modelled"
  },
  {
   "property": "C07",
   "status": "proved",
   "theorems": [
    "Redmapper.Solver.C07_zero_weight"
   ],
   "note": ""
  },
  {
   "property": "C08",
   "status": "proved",
   "theorems": [
    "Redmapper.Solver.C08_constructor"
   ],
   "note": ""
  },
  {
   "property": "C09",
   "status": "partial",
   "theorems": [
    "Redmapper.Runner.C09_availability_partial",
    "Redmapper.Runner.C09_overuse_false"
   ],
   "note": "monotone, starts at 1, at most 1, exact accounting proved; the lower bound 0 is false of the code (a galaxy can be taken by several clusters), witness proved"
  },
  {
   "property": "C10",
   "status": "proved",
   "theorems": [
    "Redmapper.Runner.C10_causality",
    "Redmapper.Runner.C10_causality_at"
   ],
   "note": ""
  },
  {
   "property": "C11",
   "status": "partial",
   "theorems": [
    "Redmapper.Runner.C11_ids_partial",
    "Redmapper.Runner.C11_single_id_lost"
   ],
   "note": "false for a one-cluster catalog (id replaced by 1), witness proved; everything else proved"
  },
  {
   "property": "C12",
   "status": "proved",
   "theorems": [
    "Redmapper.Runner.C12_postprocess",
    "Redmapper.Runner.C12_no_members",
    "Redmapper.Runner.C12_run"
   ],
   "note": "esutil.match is modelled by its contract"
  },
  {
   "property": "C13",
   "status": "proved",
   "theorems": [
    "Redmapper.Runner.C13_rejected",
    "Redmapper.Runner.C13_only_accepted_contribute"
   ],
   "note": "rejection = no neighbours, fully masked, depthless, or the processing step says bad"
  },
  {
   "property": "C14",
   "status": "proved",
   "theorems": [
    "Redmapper.Runner.C14_mask_radius",
    "Redmapper.Runner.C14_inside_is_masked"
   ],
   "note": ""
  },
  {
   "property": "C15",
   "status": "proved",
   "theorems": [
    "Redmapper.Finders.C15_rank_by_likelihood",
    "Redmapper.Finders.C15_rank_by_id"
   ],
   "note": "np.argsort is any sorting routine (ties arbitrary); keepid part needs >= 2 seeds with distinct ids (see C11)"
  },
  {
   "property": "C16",
   "status": "partial",
   "theorems": [
    "Redmapper.Finders.C16_sum_partial",
    "Redmapper.Finders.C16_uncalibrated_false"
   ],
   "note": "false before the central model is calibrated (lnlike is not written), witness proved"
  },
  {
   "property": "C17",
   "status": "proved",
   "theorems": [
    "Redmapper.Consolidate.C17_C18_consolidate",
    "Redmapper.Consolidate.C17_nothing_kept"
   ],
   "note": "members=True path; with no surviving cluster the code raises (proved)"
  },
  {
   "property": "C18",
   "status": "proved",
   "theorems": [
    "Redmapper.Consolidate.C17_C18_consolidate",
    "Redmapper.Consolidate.C18_runcat_orphans_false"
   ],
   "note": "catalog-mode consolidation keeps orphan members (witness proved)"
  },
  {
   "property": "C19",
   "status": "partial",
   "theorems": [
    "Redmapper.Consolidate.C19_one_numbering_partial",
    "Redmapper.Consolidate.C19_empty_cut_fails",
    "Redmapper.Consolidate.C19_scaleval_false",
    "Redmapper.Consolidate.C19_scaleval_partial",
    "Redmapper.Consolidate.C19_scaleval_stops"
   ],
   "note": "select_scaleval on: the task raises as soon as a cluster is cut (witness proved); off: proved"
  },
  {
   "property": "C20",
   "status": "proved",
   "theorems": [
    "Redmapper.Consolidate.C20_one_pixel"
   ],
   "note": "HEALPix nesting is an assumption on the geometry"
  },
  {
   "property": "C21",
   "status": "proved",
   "theorems": [
    "Redmapper.Catalog.C21_history"
   ],
   "note": "type promotion between tables with the same names is not modelled"
  },
  {
   "property": "C22",
   "status": "proved",
   "theorems": [
    "Redmapper.Catalog.C22_add_fields"
   ],
   "note": ""
  },
  {
   "property": "C23",
   "status": "partial",
   "theorems": [
    "Redmapper.Catalog.C23_indices_partial",
    "Redmapper.Catalog.C23_one_row_false"
   ],
   "note": "false for one-row catalogs (indices ignored), witness proved"
  },
  {
   "property": "C24",
   "status": "partial",
   "theorems": [
    "Redmapper.Centering.C24_normalised_partial",
    "Redmapper.Centering.C24_qmiss_not_reported",
    "Redmapper.Centering.C24_qmiss_false"
   ],
   "note": "P_cen sums to 1; Q_cen sums to 1 only with a missed-center probability that the q_miss attribute does not report (proved to be 0 whenever there is a candidate)"
  },
  {
   "property": "C25",
   "status": "proved",
   "theorems": [
    "Redmapper.Centering.C25_bcg"
   ],
   "note": ""
  },
  {
   "property": "C26",
   "status": "proved",
   "theorems": [
    "Redmapper.Utilities.C26_interpol"
   ],
   "note": "exact arithmetic"
  },
  {
   "property": "C27",
   "status": "proved",
   "theorems": [
    "Redmapper.Utilities.C27_conserves",
    "Redmapper.Utilities.C27_weights"
   ],
   "note": "exact arithmetic; 1, 2 and 3 dimensions"
  },
  {
   "property": "C28",
   "status": "partial",
   "theorems": [
    "Redmapper.Utilities.C28_nodes_partial",
    "Redmapper.Utilities.C28_one_node_false",
    "Redmapper.Utilities.C28_low_maxnode"
   ],
   "note": "false when the node size exceeds the range (the single node is moved to the upper limit), witness proved"
  },
  {
   "property": "C29",
   "status": "proved",
   "theorems": [
    "Redmapper.Utilities.C29_nodes",
    "Redmapper.Utilities.C29_fixextrap"
   ],
   "note": "holds for whatever the banded solver returns"
  },
  {
   "property": "C30",
   "status": "proved",
   "theorems": [
    "Redmapper.Utilities.C30_mutex",
    "Redmapper.Utilities.C30_undisturbed",
    "Redmapper.Utilities.C30_returns",
    "Redmapper.Utilities.C30_returns_bound",
    "Redmapper.Utilities.C30_stale"
   ],
   "note": "including processes killed between any two system calls (which leave the lock behind)"
  },
  {
   "property": "C31",
   "status": "proved",
   "theorems": [
    "Redmapper.GalMaker.C31_files",
    "Redmapper.GalMaker.C31_order",
    "Redmapper.GalMaker.C31_never_overwrites"
   ],
   "note": "serial mode; the order within one call follows the reverse-index order of esutil.stat.histogram (any permutation in C31_files, input order in C31_order if the sort is stable)"
  },
  {
   "property": "C32",
   "status": "proved",
   "theorems": [
    "Redmapper.GalMaker.C32_nothing_lost",
    "Redmapper.GalMaker.C32_galaxies",
    "Redmapper.GalMaker.C32_any_time",
    "Redmapper.GalMaker.C32_progress"
   ],
   "note": "lock acquisition is atomic test-and-set, justified by C30"
  },
  {
   "property": "C33",
   "status": "partial",
   "theorems": [
    "Redmapper.GalMaker.C33_unique",
    "Redmapper.GalMaker.C33_parallel_partial",
    "Redmapper.GalMaker.C33_parallel_false"
   ],
   "note": "serial mode proved outright; parallel mode misreads the pixel number when the output path contains an underscore followed by seven digits"
  },
  {
   "property": "C34",
   "status": "partial",
   "theorems": [
    "Redmapper.GalMaker.C34_false",
    "Redmapper.GalMaker.C34_table_partial",
    "Redmapper.GalMaker.C34_stale_lock"
   ],
   "note": "false of the code: the master table is written before ids are checked or assigned"
  },
  {
   "property": "C35",
   "status": "partial",
   "theorems": [
    "Redmapper.PixelTasks.C35_safe_partial",
    "Redmapper.PixelTasks.C35_complete_partial",
    "Redmapper.PixelTasks.C35_timeout_false",
    "Redmapper.PixelTasks.C35_stray_false"
   ],
   "note": "safety for every interleaving, kill and timeout in a fresh directory; completeness without master-lock timeouts; false with a timeout or a stray file matching the pattern (witnesses proved)"
  },
  {
   "property": "C36",
   "status": "partial",
   "theorems": [
    "Redmapper.PixelTasks.C36_resume_partial",
    "Redmapper.PixelTasks.C36_checks",
    "Redmapper.PixelTasks.C36_members_false",
    "Redmapper.PixelTasks.C36_members_lost",
    "Redmapper.PixelTasks.C36_torn_false",
    "Redmapper.PixelTasks.C36_empty"
   ],
   "note": "holds for the three catalogs when each file is written as a whole; false for the members file and for truncated files (witnesses proved)"
  },
  {
   "property": "C37",
   "status": "partial",
   "theorems": [
    "Redmapper.Config.C37_attrs_partial",
    "Redmapper.Config.C37_d_partial",
    "Redmapper.Config.C37_shared",
    "Redmapper.Config.C37_false",
    "Redmapper.Config.C37_construct_false"
   ],
   "note": "false of all declared fields (values live in the class); holds for plain attributes, and for config.d up to copies"
  },
  {
   "property": "C38",
   "status": "partial",
   "theorems": [
    "Redmapper.Config.C38_construct_partial",
    "Redmapper.Config.C38_unknown",
    "Redmapper.Config.C38_sequence",
    "Redmapper.Config.C38_scalar_accepts",
    "Redmapper.Config.C38_scalar_false",
    "Redmapper.Config.C38_null_false",
    "Redmapper.Config.C38_string_list"
   ],
   "note": "required and length checks proved; false for sequences in scalar fields and nulls in array fields (witnesses proved)"
  },
  {
   "property": "C39",
   "status": "partial",
   "theorems": [
    "Redmapper.Config.C39_partial",
    "Redmapper.Config.C39_slope",
    "Redmapper.Config.C39_false"
   ],
   "note": "all values but phi1_mmstar_slope, which is set from the wrong column"
  },
  {
   "property": "C40",
   "status": "partial",
   "theorems": [
    "Redmapper.Background.C40_partial",
    "Redmapper.Background.C40_edge",
    "Redmapper.Background.C40_edge_false"
   ],
   "note": "all queries but the lowest chisq edge, where the last bin is read (witness proved)"
  },
  {
   "property": "C41",
   "status": "partial",
   "theorems": [
    "Redmapper.Background.C41_partial",
    "Redmapper.Background.C41_above",
    "Redmapper.Background.C41_above_false"
   ],
   "note": "in-range queries and queries below the range; false above the range, where the last bin is read (witness proved)"
  },
  {
   "property": "C42",
   "status": "partial",
   "theorems": [
    "Redmapper.Background.C42_partial",
    "Redmapper.Background.C42_disjoint",
    "Redmapper.Background.C42_iff",
    "Redmapper.Background.C42_edge_false"
   ],
   "note": "exact characterisation: a bin is computed iff it does not equal an inner edge between processes; real arithmetic; range starting above 0.001"
  },
  {
   "property": "C43",
   "status": "partial",
   "theorems": [
    "Redmapper.Background.C43_partial",
    "Redmapper.Background.C43_nonpix_nothing",
    "Redmapper.Background.C43_nonpix_false",
    "Redmapper.Background.C43_chunk_skips"
   ],
   "note": "pixelized input proved; a catalog in one file is never read (witness proved)"
  },
  {
   "property": "C44",
   "status": "partial",
   "theorems": [
    "Redmapper.PixelTasks.C44_partial",
    "Redmapper.PixelTasks.C44_nperproc",
    "Redmapper.PixelTasks.C44_ranges",
    "Redmapper.PixelTasks.C44_false"
   ],
   "note": "exact characterisation: fails exactly when there are fewer galaxies than cores; exact arithmetic; random samples are not part of the columns, see C276"
  },
  {
   "property": "C45",
   "status": "partial",
   "theorems": [
    "Redmapper.Zred.C45_partial",
    "Redmapper.Zred.C45_false"
   ],
   "note": "false of zred with corrections, which are added to the sentinel (witness proved); holds for the uncorrected columns and without corrections"
  },
  {
   "property": "C46",
   "status": "proved",
   "theorems": [
    "Redmapper.PixelTasks.C46_lines_up",
    "Redmapper.PixelTasks.C46_made_iff",
    "Redmapper.PixelTasks.C46_task_table"
   ],
   "note": ""
  },
  {
   "property": "C47",
   "status": "proved",
   "theorems": [
    "Redmapper.Mask.C47",
    "Redmapper.Mask.C47_value",
    "Redmapper.Mask.C47_pole",
    "Redmapper.Mask.C47_calc",
    "Redmapper.Mask.median_spec"
   ],
   "note": ""
  },
  {
   "property": "C48",
   "status": "partial",
   "theorems": [
    "Redmapper.Mask.C48_partial",
    "Redmapper.Mask.C48_excess",
    "Redmapper.Mask.C48_false",
    "Redmapper.Mask.C48_single_false"
   ],
   "note": "monotone and bounded with two or more pixels; false as the area of the deep enough pixels: two pixels too many (C48_excess); one pixel raises"
  },
  {
   "property": "C49",
   "status": "partial",
   "theorems": [
    "Redmapper.Mask.C49_partial",
    "Redmapper.Mask.C49_excess",
    "Redmapper.Mask.C49_false"
   ],
   "note": "monotone, bounded and exact below the smallest zmax; false elsewhere: one pixel too many (C49_excess)"
  },
  {
   "property": "C50",
   "status": "partial",
   "theorems": [
    "Redmapper.Mask.C50_partial",
    "Redmapper.Mask.C50_beyond",
    "Redmapper.Mask.C50_false"
   ],
   "note": "tabulated, monotone and at most one bin too high; false of the exact bin (C50_beyond: always beyond the depth between the ends)"
  },
  {
   "property": "C51",
   "status": "proved",
   "theorems": [
    "Redmapper.Mask.C51"
   ],
   "note": "the draws are any numbers in [0,1)"
  },
  {
   "property": "C52",
   "status": "proved",
   "theorems": [
    "Redmapper.Mask.C52",
    "Redmapper.Mask.C52_position"
   ],
   "note": ""
  },
  {
   "property": "C53",
   "status": "proved",
   "theorems": [
    "Redmapper.Randoms.C53",
    "Redmapper.Randoms.C53_never_more",
    "Redmapper.Randoms.C53_redmagic"
   ],
   "note": "when the loop returns; that it does depends on the draws and is not claimed"
  },
  {
   "property": "C54",
   "status": "partial",
   "theorems": [
    "Redmapper.Randoms.C54_redmagic",
    "Redmapper.Randoms.C54_partial",
    "Redmapper.Randoms.C54_false"
   ],
   "note": "proved for redMaGiC randoms; false for redMaPPer randoms, where zmax is that of another position (witness proved), true there when no position of the batch is rejected"
  },
  {
   "property": "C55",
   "status": "proved",
   "theorems": [
    "Redmapper.Randoms.C55",
    "Redmapper.Randoms.C55_lost",
    "Redmapper.Randoms.C55_errors",
    "Redmapper.Randoms.C55_cuts",
    "Redmapper.Randoms.selectRands_ok"
   ],
   "note": "exact arithmetic"
  },
  {
   "property": "C56",
   "status": "partial",
   "theorems": [
    "Redmapper.RedSequence.C56_valid",
    "Redmapper.RedSequence.C56_partial",
    "Redmapper.RedSequence.C56_nearest",
    "Redmapper.RedSequence.C56_mstar",
    "Redmapper.RedSequence.C56_range",
    "Redmapper.RedSequence.integers_sorted",
    "Redmapper.RedSequence.C56_false"
   ],
   "note": "validity and monotonicity proved for every grid; exactness for tabulated values proved when the bin size divides one and the start is not halfway between two multiples of it, false otherwise (witness proved)"
  },
  {
   "property": "C57",
   "status": "partial",
   "theorems": [
    "Redmapper.RedSequence.C57_partial",
    "Redmapper.RedSequence.C57_two",
    "Redmapper.RedSequence.C57_weak",
    "Redmapper.RedSequence.C57_false"
   ],
   "note": "symmetry, variance floor and correlation limit proved for every parameter file; positive definite for one or two colors and for weak correlations; false for three colors (witness proved)"
  },
  {
   "property": "C58",
   "status": "partial",
   "theorems": [
    "Redmapper.Chisq.C58_modes01",
    "Redmapper.Chisq.C58_partial",
    "Redmapper.Chisq.C58_cobs",
    "Redmapper.Chisq.C58_total",
    "Redmapper.Chisq.C58_false"
   ],
   "note": "modes 0 and 1 agree; mode 2 agrees only without reference-magnitude error or with the slope of the first entry (line 354 uses the slope of entry 0; witness proved)"
  },
  {
   "property": "C59",
   "status": "proved",
   "theorems": [
    "Redmapper.Chisq.C59",
    "Redmapper.Chisq.C59_sentinel",
    "Redmapper.Chisq.C59_lkhd",
    "Redmapper.Chisq.fix_quad",
    "Redmapper.Chisq.fix_same",
    "Redmapper.Chisq.fix_repair",
    "Redmapper.Chisq.LibOK_exists"
   ],
   "note": "exact arithmetic; GSL eigen and LU routines by contract, satisfiable over the reals"
  },
  {
   "property": "C60",
   "status": "partial",
   "theorems": [
    "Redmapper.Chisq.C60_checked",
    "Redmapper.Chisq.C60_partial",
    "Redmapper.Chisq.C60_accepts",
    "Redmapper.Chisq.C60_false"
   ],
   "note": "all reads in bounds given the shapes that are not validated; false without (covariance and refmag of a mode 2 call; witnesses proved)"
  },
  {
   "property": "C61",
   "status": "proved",
   "theorems": [
    "Redmapper.Zlambda.C61"
   ],
   "note": "exact arithmetic; exponential positive, increasing and one at zero; any argsort"
  },
  {
   "property": "C62",
   "status": "partial",
   "theorems": [
    "Redmapper.Zlambda.C62_partial",
    "Redmapper.Zlambda.C62_window",
    "Redmapper.Zlambda.C62_vertex",
    "Redmapper.Zlambda.gaussianErr_range",
    "Redmapper.Zlambda.C62_false"
   ],
   "note": "a fit without minimum is clipped to the window, so it is a failure only below 5.5 steps (C62_false: never above); the vertex of a parabola is found exactly"
  },
  {
   "property": "C63",
   "status": "proved",
   "theorems": [
    "Redmapper.Zlambda.C63_error",
    "Redmapper.Zlambda.C63_quadrature",
    "Redmapper.Zlambda.C63_bins",
    "Redmapper.Zlambda.C63_succeeds",
    "Redmapper.Zlambda.C63_shift",
    "Redmapper.Zlambda.C63_one"
   ],
   "note": "exact arithmetic; square root and Simpson rule are parameters"
  },
  {
   "property": "C64",
   "status": "partial",
   "theorems": [
    "Redmapper.Zlambda.C64_evals",
    "Redmapper.Zlambda.C64_partial",
    "Redmapper.Zlambda.C64_pz_partial",
    "Redmapper.Zlambda.C64_failure",
    "Redmapper.Zlambda.C64_valid",
    "Redmapper.Zlambda.C64_stops",
    "Redmapper.Zlambda.pzCheck_err",
    "Redmapper.Zlambda.pzCheck_peak",
    "Redmapper.Zlambda.C64_false"
   ],
   "note": "evaluation bounds proved; a failure always has error -1 but its redshift may be a small negative number or zero instead of -1 (witness proved)"
  },
  {
   "property": "C65",
   "status": "proved",
   "theorems": [
    "Redmapper.Redmagic.C65",
    "Redmapper.Redmagic.C65_unknown",
    "Redmapper.Redmagic.C65_luminosity"
   ],
   "note": "exact arithmetic; absolute magnitudes, volume limit and nearest spectroscopic match are parameters; catalogs without redshift samples not modelled"
  },
  {
   "property": "C66",
   "status": "partial",
   "theorems": [
    "Redmapper.Finders.C66_scan_partial",
    "Redmapper.Finders.C66_low_likelihood_false"
   ],
   "note": "false when every likelihood is <= -1 (filler of empty steps wins), witness proved"
  },
  {
   "property": "C67",
   "status": "partial",
   "theorems": [
    "Redmapper.Utilities.C67_member_file_partial",
    "Redmapper.Utilities.C67_rstrip_false"
   ],
   "note": "exact characterisation: false for base names ending in . f i t"
  },
  {
   "property": "C68",
   "status": "partial",
   "theorems": [
    "Redmapper.Consolidate.C68_split_covers_partial",
    "Redmapper.Consolidate.C68_returns",
    "Redmapper.Consolidate.C68_choice",
    "Redmapper.Consolidate.C68_fewer_than_processes",
    "Redmapper.Consolidate.C68_coarse_table_false"
   ],
   "note": "coverage proved; \"at least as many pixels as processes\" is false, coverage is false when the minimum nside is finer than the table (witnesses proved)"
  },
  {
   "property": "C69",
   "status": "partial",
   "theorems": [
    "Redmapper.GalRead.C69",
    "Redmapper.GalRead.C69_whole",
    "Redmapper.GalRead.C69_errors",
    "Redmapper.GalRead.C69_range_false",
    "Redmapper.GalRead.C69_empty_false",
    "Redmapper.GalRead.C69_plain_false"
   ],
   "note": "proved for pixelated tables with HEALPix nesting as contract; pixels out of range raise NameError, a region without table pixels IndexError, and a galaxy file that is not pixelated ignores the request (all proved)"
  },
  {
   "property": "C70",
   "status": "proved",
   "theorems": [
    "Redmapper.Solver.C70_more_neighbours",
    "Redmapper.Solver.C70_more_available"
   ],
   "note": ""
  },
  {
   "property": "C71",
   "status": "proved",
   "theorems": [
    "Redmapper.Solver.C71_probabilities_near_richness"
   ],
   "note": ""
  },
  {
   "property": "C72",
   "status": "proved",
   "theorems": [
    "Redmapper.Runner.C72_locality"
   ],
   "note": "for computations that carry no hidden state"
  },
  {
   "property": "C73",
   "status": "proved",
   "theorems": [
    "Redmapper.Runner.C73_members"
   ],
   "note": ""
  },
  {
   "property": "C74",
   "status": "proved",
   "theorems": [
    "Redmapper.Finders.C74_percolation_accepts",
    "Redmapper.Finders.C74_central_available"
   ],
   "note": ""
  },
  {
   "property": "C75",
   "status": "proved",
   "theorems": [
    "Redmapper.Finders.C75_firstpass"
   ],
   "note": ""
  },
  {
   "property": "C76",
   "status": "proved",
   "theorems": [
    "Redmapper.Finders.C76_runcat"
   ],
   "note": ""
  },
  {
   "property": "C77",
   "status": "proved",
   "theorems": [
    "Redmapper.Finders.C77_color_mode",
    "Redmapper.Finders.C77_second_pass_order"
   ],
   "note": ""
  },
  {
   "property": "C78",
   "status": "partial",
   "theorems": [
    "Redmapper.Finders.C78_spec_modes_partial",
    "Redmapper.Finders.C78_on_bound_false"
   ],
   "note": "false exactly at an interior bound, witness proved"
  },
  {
   "property": "C79",
   "status": "proved",
   "theorems": [
    "Redmapper.Catalog.C79_set_column",
    "Redmapper.Catalog.C79_unknown_name",
    "Redmapper.Catalog.C79_shadow_false"
   ],
   "note": "reading back assumes no python attribute of that name was set before the column existed (witness shows the assumption is needed)"
  },
  {
   "property": "C80",
   "status": "proved",
   "theorems": [
    "Redmapper.Catalog.C80_construct"
   ],
   "note": ""
  },
  {
   "property": "C81",
   "status": "partial",
   "theorems": [
    "Redmapper.Catalog.C81_roundtrip_partial",
    "Redmapper.Catalog.C81_no_clobber_false"
   ],
   "note": "false without clobber onto an existing file (fitsio appends), witness proved"
  },
  {
   "property": "C82",
   "status": "proved",
   "theorems": [
    "Redmapper.Catalog.C82_view",
    "Redmapper.Catalog.C82_detached",
    "Redmapper.Catalog.C82_fields"
   ],
   "note": ""
  },
  {
   "property": "C83",
   "status": "proved",
   "theorems": [
    "Redmapper.Centering.C83_exhaustive",
    "Redmapper.Centering.C83_none"
   ],
   "note": ""
  },
  {
   "property": "C84",
   "status": "partial",
   "theorems": [
    "Redmapper.Centering.C84_answers",
    "Redmapper.Centering.C84_no_center",
    "Redmapper.Centering.C84_no_candidate_false"
   ],
   "note": "answers iff there is a candidate; ValueError otherwise (witness proved)"
  },
  {
   "property": "C85",
   "status": "partial",
   "theorems": [
    "Redmapper.Centering.C85_neighbours_partial",
    "Redmapper.Centering.C85_zspec_false"
   ],
   "note": "false with centering_use_zspec: the redshift columns are overwritten in place (witness proved)"
  },
  {
   "property": "C86",
   "status": "proved",
   "theorems": [
    "Redmapper.Centering.C86_random_satellite"
   ],
   "note": ""
  },
  {
   "property": "C87",
   "status": "proved",
   "theorems": [
    "Redmapper.Centering.C87_candidates"
   ],
   "note": ""
  },
  {
   "property": "C88",
   "status": "proved",
   "theorems": [
    "Redmapper.Utilities.C88_average"
   ],
   "note": ""
  },
  {
   "property": "C89",
   "status": "proved",
   "theorems": [
    "Redmapper.Utilities.C89_smooth"
   ],
   "note": "assumes solve_banded solves the system it is given"
  },
  {
   "property": "C90",
   "status": "partial",
   "theorems": [
    "Redmapper.Utilities.C90_sample_partial",
    "Redmapper.Utilities.C90_first_point_false"
   ],
   "note": "false at the first grid point (witness proved)"
  },
  {
   "property": "C91",
   "status": "proved",
   "theorems": [
    "Redmapper.GalMaker.C91_only_valid",
    "Redmapper.GalMaker.C91_accepts_iff",
    "Redmapper.GalMaker.C91_columns",
    "Redmapper.GalMaker.C91_accepts"
   ],
   "note": "truth and spectroscopic columns not modelled"
  },
  {
   "property": "C92",
   "status": "partial",
   "theorems": [
    "Redmapper.Config.C92_partial",
    "Redmapper.Config.C92_writable",
    "Redmapper.Config.C92_false"
   ],
   "note": "exact characterisation: writable iff every array field is set; false when b is unset. Values computed after reading (galaxy file statistics, wcen) are not part of the statement"
  },
  {
   "property": "C93",
   "status": "proved",
   "theorems": [
    "Redmapper.Config.C93_injective"
   ],
   "note": "without the version string"
  },
  {
   "property": "C94",
   "status": "proved",
   "theorems": [
    "Redmapper.Config.C94_ok_iff",
    "Redmapper.Config.C94_error"
   ],
   "note": "ValueError only if the requested names are set"
  },
  {
   "property": "C95",
   "status": "partial",
   "theorems": [
    "Redmapper.Config.C95_border_partial",
    "Redmapper.Config.C95_gamma_false"
   ],
   "note": "false when percolation_rmask_gamma is not zero; exact arithmetic; monotonicity of the angular diameter distance is a hypothesis"
  },
  {
   "property": "C96",
   "status": "partial",
   "theorems": [
    "Redmapper.Background.C96_partial",
    "Redmapper.Background.C96_below",
    "Redmapper.Background.C96_below_false"
   ],
   "note": "false below the range, where the first bin is read (witness proved)"
  },
  {
   "property": "C97",
   "status": "partial",
   "theorems": [
    "Redmapper.Background.C97_value",
    "Redmapper.Background.C97_missing",
    "Redmapper.Background.C97_partial",
    "Redmapper.Background.C97_reversed",
    "Redmapper.Background.C97_false"
   ],
   "note": "stored order proved; with the indices reversed the colors are not swapped (witness proved)"
  },
  {
   "property": "C98",
   "status": "partial",
   "theorems": [
    "Redmapper.Background.C98_offdiag_partial",
    "Redmapper.Background.C98_diag_value",
    "Redmapper.Background.C98_fine",
    "Redmapper.Background.C98_diag_false"
   ],
   "note": "two-color tables proved; one-color tables are normalised to the wrong constant (witness proved)"
  },
  {
   "property": "C99",
   "status": "proved",
   "theorems": [
    "Redmapper.Zred.C99_moments",
    "Redmapper.Zred.C99_range",
    "Redmapper.Zred.C99_reset_iff"
   ],
   "note": "exact arithmetic; exp and sqrt are parameters (positive, exp 0 = 1)"
  },
  {
   "property": "C100",
   "status": "partial",
   "theorems": [
    "Redmapper.Zred.C100_window",
    "Redmapper.Zred.C100_partial",
    "Redmapper.Zred.C100_holes_false"
   ],
   "note": "position and size of the window proved; false if the usable bins have holes (witness proved)"
  },
  {
   "property": "C101",
   "status": "partial",
   "theorems": [
    "Redmapper.Zred.C101_partial",
    "Redmapper.Zred.C101_false"
   ],
   "note": "false of zred2 (the slope term is only in one version); the uncorrected columns agree"
  },
  {
   "property": "C102",
   "status": "proved",
   "theorems": [
    "Redmapper.Mask.C102_theta",
    "Redmapper.Mask.C102_maskfrac",
    "Redmapper.Mask.C102_errors"
   ],
   "note": "the error function is a parameter with range [-1,1] and monotone; exact arithmetic; the polynomial fit that follows is not modelled"
  },
  {
   "property": "C103",
   "status": "proved",
   "theorems": [
    "Redmapper.Mask.C103_maps",
    "Redmapper.Mask.C103_uncovered"
   ],
   "note": "limiting magnitudes increasing with redshift"
  },
  {
   "property": "C104",
   "status": "proved",
   "theorems": [
    "Redmapper.Mask.C104_positive",
    "Redmapper.Mask.C104_limit"
   ],
   "note": "exact arithmetic; square root and logarithm are parameters"
  },
  {
   "property": "C105",
   "status": "proved",
   "theorems": [
    "Redmapper.Mask.C105_rescaled",
    "Redmapper.Mask.C105_same"
   ],
   "note": "exact arithmetic; square root is a parameter"
  },
  {
   "property": "C106",
   "status": "proved",
   "theorems": [
    "Redmapper.Randoms.C106_prefix",
    "Redmapper.Randoms.C106_round",
    "Redmapper.Randoms.C106_first"
   ],
   "note": ""
  },
  {
   "property": "C107",
   "status": "proved",
   "theorems": [
    "Redmapper.Randoms.C107"
   ],
   "note": "exact arithmetic; the spline is a parameter"
  },
  {
   "property": "C108",
   "status": "partial",
   "theorems": [
    "Redmapper.Chisq.C108_partial",
    "Redmapper.Chisq.C108_false",
    "Redmapper.Chisq.readCov_model"
   ],
   "note": "right for the layout produced by fancy indexing and, for symmetric matrices, Fortran order; a C-ordered array is misread (witness proved)"
  },
  {
   "property": "C109",
   "status": "proved",
   "theorems": [
    "Redmapper.Chisq.C109",
    "Redmapper.Chisq.chisq_mono"
   ],
   "note": "exact arithmetic; GSL routines by contract"
  },
  {
   "property": "C110",
   "status": "proved",
   "theorems": [
    "Redmapper.RedSequence.C110"
   ],
   "note": "exact arithmetic; splines and the luminosity function are inputs"
  },
  {
   "property": "C111",
   "status": "partial",
   "theorems": [
    "Redmapper.Zlambda.C111_partial",
    "Redmapper.Zlambda.C111_window_partial",
    "Redmapper.Zlambda.C111_false"
   ],
   "note": "proved when fewer than the maximum number of iterations were used; false at the maximum, where an unconverged redshift is returned as good (witness proved)"
  },
  {
   "property": "C112",
   "status": "partial",
   "theorems": [
    "Redmapper.Zlambda.C112_partial",
    "Redmapper.Zlambda.C112_false"
   ],
   "note": "the default limit is used; a given limit is overwritten and has no effect (proved)"
  },
  {
   "property": "C113",
   "status": "partial",
   "theorems": [
    "Redmapper.Zlambda.C113_fast",
    "Redmapper.Zlambda.C113_slow",
    "Redmapper.Zlambda.C113_values",
    "Redmapper.Zlambda.C113_fast_false"
   ],
   "note": "all proved, except that with an even number of bins the fast grid does not hold the redshift (witness proved)"
  },
  {
   "property": "C114",
   "status": "partial",
   "theorems": [
    "Redmapper.Zlambda.C114_partial",
    "Redmapper.Zlambda.C114_only",
    "Redmapper.Zlambda.C114_low",
    "Redmapper.Zlambda.C114_high",
    "Redmapper.Zlambda.C114_false"
   ],
   "note": "lower end, termination and end points of the search proved; the upper end is tested against a chained comparison and is missed (witness proved)"
  },
  {
   "property": "C115",
   "status": "partial",
   "theorems": [
    "Redmapper.Zlambda.C115_partial",
    "Redmapper.Zlambda.C115_raises",
    "Redmapper.Zlambda.C115_ignored",
    "Redmapper.Zlambda.C115_false"
   ],
   "note": "false: without p(z) the call raises TypeError, with p(z) noerr is ignored (both proved for all inputs); the redshift does not depend on it"
  },
  {
   "property": "C116",
   "status": "partial",
   "theorems": [
    "Redmapper.Zlambda.C116_partial",
    "Redmapper.Zlambda.C116_false"
   ],
   "note": "proved for odd bin counts; false for even ones (witness proved)"
  },
  {
   "property": "C117",
   "status": "proved",
   "theorems": [
    "Redmapper.Zlambda.C117"
   ],
   "note": "exact arithmetic; Simpson rule linear, and positive for values not negative and not all zero on an increasing grid (shown for the composite rule)"
  },
  {
   "property": "C118",
   "status": "partial",
   "theorems": [
    "Redmapper.Redmagic.C118",
    "Redmapper.Redmagic.C118_complete",
    "Redmapper.Redmagic.C118_split",
    "Redmapper.Redmagic.C118_crash",
    "Redmapper.Redmagic.C118_clobber",
    "Redmapper.Redmagic.C118_false"
   ],
   "note": "proved for different modes and at least one pixel; false when a mode is given twice (witness proved)"
  },
  {
   "property": "C119",
   "status": "partial",
   "theorems": [
    "Redmapper.Redmagic.C119_partial",
    "Redmapper.Redmagic.C119_samples",
    "Redmapper.Redmagic.C119_false"
   ],
   "note": "proved for raw redshifts within the nodes and no afterburner; beyond the nodes the fit extrapolates and the selection does not (witness proved); samples differ when the afterburner is not applied"
  },
  {
   "property": "C120",
   "status": "partial",
   "theorems": [
    "Redmapper.Redmagic.C120_name",
    "Redmapper.Redmagic.C120_partial",
    "Redmapper.Redmagic.C120_false",
    "Redmapper.Redmagic.C120_run_name"
   ],
   "note": "the name is always another; the run reads the base name from the working directory, which is what was written only for an empty output path (proved false for every other)"
  },
  {
   "property": "C121",
   "status": "partial",
   "theorems": [
    "Redmapper.GalRead.C121",
    "Redmapper.GalRead.C121_none",
    "Redmapper.GalRead.C121_plain",
    "Redmapper.GalRead.C121_length_partial",
    "Redmapper.GalRead.C121_length_false"
   ],
   "note": "join and missing files proved; a zred file of the wrong length is an error except with a single row, which is given to every galaxy (proved)"
  },
  {
   "property": "C122",
   "status": "partial",
   "theorems": [
    "Redmapper.GalRead.C122_partial",
    "Redmapper.GalRead.C122_several"
   ],
   "note": "complete for the boundary points that HEALPix samples at both resolutions, and up to nside 512; query_disc contract: pixels of all positions within the border"
  },
  {
   "property": "C123",
   "status": "partial",
   "theorems": [
    "Redmapper.GalRead.C123",
    "Redmapper.GalRead.C123_plain_false"
   ],
   "note": "proved for pixelated tables; a file that is not pixelated is not cut (proved)"
  },
  {
   "property": "C124",
   "status": "proved",
   "theorems": [
    "Redmapper.GalRead.C124",
    "Redmapper.GalRead.C124_missing"
   ],
   "note": "for pixelated tables; the flags of the table say which columns it has"
  },
  {
   "property": "C125",
   "status": "proved",
   "theorems": [
    "Redmapper.Cluster.C125_members",
    "Redmapper.Cluster.C125_values",
    "Redmapper.Cluster.C125_colour"
   ],
   "note": "Hypotheses: densities not negative, probabilities of the inputs in [0,1], index without repetitions. The noise that calc_maskcorr draws is inside the environment."
  },
  {
   "property": "C126",
   "status": "proved",
   "theorems": [
    "Redmapper.Cluster.C126_history_free",
    "Redmapper.Cluster.C126_history_free_index"
   ],
   "note": "Earlier calls may use any other environment (mask, calibration, random draws); the two final computations share one environment, i.e. the same draw of the mask noise."
  },
  {
   "property": "C127",
   "status": "partial",
   "theorems": [
    "Redmapper.Cluster.C127_scales",
    "Redmapper.Cluster.C127_radii_partial",
    "Redmapper.Cluster.C127_setting_restores",
    "Redmapper.Cluster.C127_set_neighbors_false"
   ],
   "note": "Scales proved for all histories. Radii proved for histories without set_neighbors; false after set_neighbors on a cluster with a redshift, because the radii are not computed until the redshift is set again."
  },
  {
   "property": "C128",
   "status": "partial",
   "theorems": [
    "Redmapper.Cluster.C128_copy_partial",
    "Redmapper.Cluster.C128_values_lost",
    "Redmapper.Cluster.C128_copy_false"
   ],
   "note": "Redshift, scales, neighbors and the richness are those of the original. Position and catalog values are not copied (they are zero in every copy), so equality is false; a cluster without redshift cannot be copied."
  },
  {
   "property": "C129",
   "status": "proved",
   "theorems": [
    "Redmapper.Cluster.C129_error",
    "Redmapper.Cluster.C129_no_error",
    "Redmapper.Cluster.lambdaCerr_spec"
   ],
   "note": "The square root is a parameter with its defining property on non-negative numbers."
  },
  {
   "property": "C130",
   "status": "partial",
   "theorems": [
    "Redmapper.Cluster.C130_solver",
    "Redmapper.Cluster.C130_same_fraction_partial",
    "Redmapper.Cluster.C130_false",
    "Redmapper.Cluster.C130_consequence"
   ],
   "note": "False: the error evaluates the fitted polynomial with ascending powers, the solver (and the fit) with descending ones. They agree at radius 1 and for palindromic polynomials; with 20% masked everywhere a cluster of radius 0.3 gets no masking error."
  },
  {
   "property": "C131",
   "status": "proved",
   "theorems": [
    "Redmapper.Cluster.C131_fit",
    "Redmapper.Cluster.C131_error_unusable"
   ],
   "note": "The color line, median and Gaussian are parameters."
  },
  {
   "property": "C132",
   "status": "proved",
   "theorems": [
    "Redmapper.Cluster.C132_radial",
    "Redmapper.Cluster.C132_positive",
    "Redmapper.Cluster.C132_brighter",
    "Redmapper.Cluster.C132_chisq_one",
    "Redmapper.Cluster.nfwIn_pos",
    "Redmapper.Cluster.nfwOut_pos"
   ],
   "note": "Over the real numbers."
  },
  {
   "property": "C133",
   "status": "partial",
   "theorems": [
    "Redmapper.Cluster.C133_local_partial",
    "Redmapper.Cluster.C133_nonneg",
    "Redmapper.Cluster.C133_false"
   ],
   "note": "False: the code computes the mask galaxies' magnitudes for this cluster but uses those left by the last mask correction. Proved when that correction was at the luminosity scale of this cluster."
  },
  {
   "property": "C134",
   "status": "proved",
   "theorems": [
    "Redmapper.Cluster.C134_find"
   ],
   "note": "match_one (HTM matcher) is a parameter with the contract MatchOK."
  },
  {
   "property": "C135",
   "status": "proved",
   "theorems": [
    "Redmapper.Calibrate.C135_products_never_change"
   ],
   "note": "The stages are arbitrary functions with random draws; a session may stop before any write. Writing one file is atomic in the model."
  },
  {
   "property": "C136",
   "status": "partial",
   "theorems": [
    "Redmapper.Calibrate.C136_provenance_partial",
    "Redmapper.Calibrate.C136_false",
    "Redmapper.Calibrate.C136_configured_correction_false"
   ],
   "note": "False of the code: RedSequenceCalibrator saves the parameter file twice, so a crash between the saves leaves preliminary parameters that the restart silently uses for everything after (C136_false). Proved: it holds for every product other than the parameters, parameters are preliminary or final ones of the right inputs, and it holds in full whenever no multi-file stage was cut short. A user-configured zlambdafile is excluded; C136_configured_correction_false shows why."
  },
  {
   "property": "C137",
   "status": "partial",
   "theorems": [
    "Redmapper.Calibrate.C137_completes_partial",
    "Redmapper.Calibrate.C137_first_session",
    "Redmapper.Calibrate.C137_false",
    "Redmapper.Calibrate.C137_members_false",
    "Redmapper.Calibrate.C137_not_pixelized_false"
   ],
   "note": "False of the code: after a crash between the red galaxies and their model (and likewise between a catalog and its members) every later session fails until the file is deleted; a catalog that is not pixelized never completes because the zred background raises. Proved: completion from every directory where no multi-file stage was cut short."
  },
  {
   "property": "C138",
   "status": "proved",
   "theorems": [
    "Redmapper.Calibrate.C138_output_configuration"
   ],
   "note": "Existence of the red galaxy model file is not claimed (it can be missing after a crash, C137)."
  },
  {
   "property": "C139",
   "status": "proved",
   "theorems": [
    "Redmapper.Calibrate.C139_completed_is_not_redone"
   ],
   "note": "run_default.yml is written again; it is not among the modelled products."
  },
  {
   "property": "C140",
   "status": "proved",
   "theorems": [
    "Redmapper.Calibrate.C140_run_is_elsewhere",
    "Redmapper.Calibrate.replace_none",
    "Redmapper.Calibrate.replace_first"
   ],
   "note": "Strings as lists of characters."
  },
  {
   "property": "C141",
   "status": "partial",
   "theorems": [
    "Redmapper.Calibrate.C141_check_partial",
    "Redmapper.Calibrate.C141_false"
   ],
   "note": "False of the code: the check looks only at the last cluster (the loop variable after the loop), and fails with a NameError when there is none."
  },
  {
   "property": "C142",
   "status": "proved",
   "theorems": [
    "Redmapper.RedRun.C142_restart_and_schedule",
    "Redmapper.RedRun.C142_terminates",
    "Redmapper.RedRun.C142_percolation_only"
   ],
   "note": "The stages are deterministic parameters; writing one file is atomic; the catalogs (not the members, C143) are claimed. The resolution is that of the run."
  },
  {
   "property": "C143",
   "status": "partial",
   "theorems": [
    "Redmapper.RedRun.C143_members_partial",
    "Redmapper.RedRun.C143_false"
   ],
   "note": "False of the code for every pixel: after a crash between the percolated catalog and its members the members are missing after every later history of runs with check. Proved for pixels that were not interrupted there."
  },
  {
   "property": "C144",
   "status": "proved",
   "theorems": [
    "Redmapper.RedRun.C144_no_check"
   ],
   "note": "Files of a stage that yields nothing this time are left in place but not reported."
  },
  {
   "property": "C145",
   "status": "proved",
   "theorems": [
    "Redmapper.RedRun.C145_names"
   ],
   "note": ""
  },
  {
   "property": "C146",
   "status": "partial",
   "theorems": [
    "Redmapper.RedRun.C146_names_partial",
    "Redmapper.RedRun.C146_false"
   ],
   "note": "False of the code: the name in the percolation-only worker has no resolution, so for every pixel number a restart with another split reuses the catalog of another area. Proved at one resolution."
  },
  {
   "property": "C147",
   "status": "partial",
   "theorems": [
    "Redmapper.RedRun.C147_arguments",
    "Redmapper.RedRun.C147_restored_false"
   ],
   "note": "False when a worker or the consolidation raises: the split resolution (and the seed file) stay in the configuration. The rest is proved."
  },
  {
   "property": "C148",
   "status": "proved",
   "theorems": [
    "Redmapper.SpecPrep.C148_members"
   ],
   "note": "esutil match by its contract; output columns are single precision in the code, exact here."
  },
  {
   "property": "C149",
   "status": "partial",
   "theorems": [
    "Redmapper.SpecPrep.C149_marker_partial",
    "Redmapper.SpecPrep.C149_false"
   ],
   "note": "False of the code: with the default tolerance of five sigma a cluster without spectrum and with a large photometric error passes the consistency cut and its members get redshift -1. Proved when the tolerance is smaller than the distance to the marker."
  },
  {
   "property": "C150",
   "status": "proved",
   "theorems": [
    "Redmapper.SpecPrep.C150_seeds",
    "Redmapper.SpecPrep.C150_at_most_one"
   ],
   "note": "The HTM matcher is a parameter with the contract MatchOK (closest neighbor within the radius, one per position), shown to be satisfiable by lineMatcher_ok."
  },
  {
   "property": "C151",
   "status": "partial",
   "theorems": [
    "Redmapper.SpecPrep.C151_galaxy_once_partial",
    "Redmapper.SpecPrep.C151_false"
   ],
   "note": "False of the code: two spectra of one object give two seeds on one galaxy. Proved if no two spectra share their closest galaxy."
  },
  {
   "property": "C152",
   "status": "proved",
   "theorems": [
    "Redmapper.SpecPrep.C152_color_training"
   ],
   "note": ""
  },
  {
   "property": "C153",
   "status": "proved",
   "theorems": [
    "Redmapper.SpecPrep.C153_cut_seeds"
   ],
   "note": "The HTM matcher is a parameter with the contract MatchOK."
  },
  {
   "property": "C154",
   "status": "proved",
   "theorems": [
    "Redmapper.ZlamCal.C154_fit",
    "Redmapper.ZlamCal.C154_sequence",
    "Redmapper.ZlamCal.C154_scatter",
    "Redmapper.ZlamCal.C154_likelihood"
   ],
   "note": "The minimizer is a parameter with the contract FminOK (same dimension, not worse than the start), the spline and the logarithm of the Gaussian are parameters."
  },
  {
   "property": "C155",
   "status": "proved",
   "theorems": [
    "Redmapper.ZlamCal.C155_bins"
   ],
   "note": ""
  },
  {
   "property": "C156",
   "status": "proved",
   "theorems": [
    "Redmapper.ZlamCal.C156_iterations",
    "Redmapper.ZlamCal.C156_fitted",
    "Redmapper.ZlamCal.C156_total"
   ],
   "note": "The spline is a parameter of which only SplineZero is used (through zeros it is zero)."
  },
  {
   "property": "C157",
   "status": "partial",
   "theorems": [
    "Redmapper.ZlamCal.C157_errors_partial",
    "Redmapper.ZlamCal.C157_false"
   ],
   "note": "False of the code: the scatter tables are clipped at 0.001, so every iteration not fitted yet adds 0.001 in quadrature to the errors. Proved for the first iteration and after the last."
  },
  {
   "property": "C158",
   "status": "partial",
   "theorems": [
    "Redmapper.ZlamCal.C158_richness_partial",
    "Redmapper.ZlamCal.C158_false"
   ],
   "note": "False of the code: the fit uses the richness over the scale, the application the richness. Proved for a scale of one and for corrections without slope (the default)."
  },
  {
   "property": "C159",
   "status": "proved",
   "theorems": [
    "Redmapper.ZlamCal.C159_outliers"
   ],
   "note": ""
  },
  {
   "property": "C160",
   "status": "proved",
   "theorems": [
    "Redmapper.Zscan.C160_steps",
    "Redmapper.Zscan.C160_record"
   ],
   "note": ""
  },
  {
   "property": "C161",
   "status": "partial",
   "theorems": [
    "Redmapper.Zscan.C161_no_miss_partial",
    "Redmapper.Zscan.C161_false",
    "Redmapper.Zscan.logOK_real"
   ],
   "note": "False of the code: a step with several members at the position itself can have a likelihood below minus one, the placeholder of steps without anything, so that an empty step is taken and the position given up. Proved if the members left out of the likelihood add up to at most one. The richness is a parameter with the contract RichOK, which is what C125 proves."
  },
  {
   "property": "C162",
   "status": "proved",
   "theorems": [
    "Redmapper.Zscan.C162_refine"
   ],
   "note": "Richness, redshift fit and centering are functions of the redshift; the fit returns a positive redshift or a negative one for failure."
  },
  {
   "property": "C163",
   "status": "proved",
   "theorems": [
    "Redmapper.Fitters.C163_construct",
    "Redmapper.Fitters.C163_fit"
   ],
   "note": "The minimizer is an arbitrary program that asks for values of the cost, with the contract MinOK (ends within bounds that can be met; for a cost without state it does not end worse than a start within the bounds), shown satisfiable by exM_ok. Spline, Gaussian, truncation and logarithm are parameters."
  },
  {
   "property": "C164",
   "status": "partial",
   "theorems": [
    "Redmapper.Fitters.C164_function_partial",
    "Redmapper.Fitters.C164_false",
    "Redmapper.Fitters.C164_false_default",
    "Redmapper.Fitters.C164_false_second",
    "Redmapper.Fitters.C164_false_fit",
    "Redmapper.Fitters.C164_false_color"
   ],
   "note": "False of the code: `e2 = self._mag_err2s[:, 0]; e2 += ...` adds the squared error of the second band to the stored one of the first at every evaluation, unless the ratio of the first band is fitted; this is the case with the default configuration. Proved when the scatter is not fitted (between fits) or the ratio of the first band is."
  },
  {
   "property": "C165",
   "status": "partial",
   "theorems": [
    "Redmapper.Fitters.C165_fit_partial",
    "Redmapper.Fitters.C165_false"
   ],
   "note": "Follows C164: proved if the scatter is not fitted or the error ratio of the first band is fitted."
  },
  {
   "property": "C166",
   "status": "partial",
   "theorems": [
    "Redmapper.Fitters.C166_color_partial",
    "Redmapper.Fitters.C166_false"
   ],
   "note": "False of the code: besides C164, the last fit starts from the initial error ratio rather than the fitted one, so it can end less likely than the scatter fit. Proved against the values from which each fit starts."
  },
  {
   "property": "C167",
   "status": "proved",
   "theorems": [
    "Redmapper.Fitters.C167_fit",
    "Redmapper.Fitters.C167_corrections"
   ],
   "note": "Minimizer with the contract MinOK; spline, Gaussian and logarithm are parameters."
  },
  {
   "property": "C168",
   "status": "proved",
   "theorems": [
    "Redmapper.Fitters.C168_mixture"
   ],
   "note": "Minimizer with the contract MinOK. If the minimizer raises, the offset stays in the stored colors; this is outside the model."
  },
  {
   "property": "C169",
   "status": "proved",
   "theorems": [
    "Redmapper.RedSeqCal.C169_order"
   ],
   "note": ""
  },
  {
   "property": "C170",
   "status": "proved",
   "theorems": [
    "Redmapper.RedSeqCal.C170_lupcorr"
   ],
   "note": "The luptitude of a magnitude is an arbitrary function per band. The model colors are those at the times of the calls: the colors of the finished red sequence differ from them by the later fits of the color."
  },
  {
   "property": "C171",
   "status": "proved",
   "theorems": [
    "Redmapper.RedSeqCal.C171_ratios",
    "Redmapper.RedSeqCal.C171_all_bands",
    "Redmapper.RedSeqCal.C171_plain"
   ],
   "note": "The binned fit is an arbitrary function of its inputs."
  },
  {
   "property": "C172",
   "status": "proved",
   "theorems": [
    "Redmapper.RedSeqCal.C172_bins",
    "Redmapper.RedSeqCal.C172_startvals"
   ],
   "note": "Median and robust line are parameters. A galaxy exactly halfway between two nodes counts nowhere."
  },
  {
   "property": "C173",
   "status": "proved",
   "theorems": [
    "Redmapper.RedSeqCal.C173_slopes",
    "Redmapper.RedSeqCal.makeNodes_last"
   ],
   "note": ""
  },
  {
   "property": "C174",
   "status": "partial",
   "theorems": [
    "Redmapper.RedSeqCal.C174_elements",
    "Redmapper.RedSeqCal.C174_covariance_partial",
    "Redmapper.RedSeqCal.C174_false"
   ],
   "note": "False for configured correlations below -1/(n-1), which nothing refuses. Proved for correlations between zero and one."
  },
  {
   "property": "C175",
   "status": "proved",
   "theorems": [
    "Redmapper.RedSeqCal.C175_volume"
   ],
   "note": "The luminosity distance is a parameter; that comoving distances grow and are concave is a hypothesis on it."
  },
  {
   "property": "C176",
   "status": "partial",
   "theorems": [
    "Redmapper.RedSeqCal.C176_cut_partial",
    "Redmapper.RedSeqCal.C176_false"
   ],
   "note": "False for equal likelihoods: all galaxies with the likelihood of the threshold are left out, which can be all. Proved for distinct likelihoods."
  },
  {
   "property": "C177",
   "status": "proved",
   "theorems": [
    "Redmapper.RedSeqCal.C177_corrections",
    "Redmapper.RedSeqCal.C177_outliers",
    "Redmapper.RedSeqCal.C177_empty"
   ],
   "note": "Minimizer with the contract MinOK; argsort with the contract Argsort; exponential with ExpOK."
  },
  {
   "property": "C178",
   "status": "partial",
   "theorems": [
    "Redmapper.RedSeqCal.C178_file_partial",
    "Redmapper.RedSeqCal.C178_false_crash",
    "Redmapper.RedSeqCal.C178_false_old"
   ],
   "note": "False after a crash between the two writes (the file without corrections is accepted by every later session) and for a direct run with an old file (the first write appends a table, the redshifts are computed with the old one). Proved for runs that start without a file and are not interrupted, followed by any sessions."
  },
  {
   "property": "C179",
   "status": "proved",
   "theorems": [
    "Redmapper.WcenCal.C179_cuts"
   ],
   "note": ""
  },
  {
   "property": "C180",
   "status": "partial",
   "theorems": [
    "Redmapper.WcenCal.C180_widths_partial",
    "Redmapper.WcenCal.C180_false"
   ],
   "note": "False if the wanted clusters do not differ in connectivity, for example one random point left after the cuts: the start has no likelihood. Proved for catalogs with two different values. Minimizer with the contract Fmin2OK; real arithmetic."
  },
  {
   "property": "C181",
   "status": "partial",
   "theorems": [
    "Redmapper.WcenCal.C181_connectivity_partial",
    "Redmapper.WcenCal.C181_start",
    "Redmapper.WcenCal.C181_magnitude_partial",
    "Redmapper.WcenCal.C181_false_w",
    "Redmapper.WcenCal.C181_false_m"
   ],
   "note": "False: the likelihoods have no largest value (a width near zero at one cluster). Proved: at least as likely as the start, and a negative width only if its mirror image beats the start by e^1000."
  },
  {
   "property": "C182",
   "status": "partial",
   "theorems": [
    "Redmapper.WcenCal.C182_files_partial",
    "Redmapper.WcenCal.C182_false"
   ],
   "note": "False for one file in both roles: the satellite values are not set."
  },
  {
   "property": "C183",
   "status": "proved",
   "theorems": [
    "Redmapper.WcenCal.C183_constructor"
   ],
   "note": "Values that are not set are negative widths."
  },
  {
   "property": "C184",
   "status": "partial",
   "theorems": [
    "Redmapper.WcenCal.C184_iterations_partial",
    "Redmapper.WcenCal.C184_false"
   ],
   "note": "False: reading the file takes the offset for the slope, so from the second iteration on the slope is the offset. The other three values are the same."
  },
  {
   "property": "C185",
   "status": "partial",
   "theorems": [
    "Redmapper.WcenCal.C185_brightest_partial",
    "Redmapper.WcenCal.C185_false"
   ],
   "note": "False: one galaxy less than the richness is drawn."
  },
  {
   "property": "C186",
   "status": "partial",
   "theorems": [
    "Redmapper.WcenCal.C186_applied_partial",
    "Redmapper.WcenCal.C186_false"
   ],
   "note": "False for scaled richness: centering uses the richness itself for the mean magnitude and limits it before scaling for the widths."
  },
  {
   "property": "C187",
   "status": "partial",
   "theorems": [
    "Redmapper.Setup.C187_radius_partial",
    "Redmapper.Setup.C187_false_redshift",
    "Redmapper.Setup.C187_false_richness"
   ],
   "note": "False if the mask grows with redshift (percolation_rmask_gamma), and for clusters of constant radius with a mask that grows with richness (the default slope of the mask): the search radius looks at the slope of the cluster radius for both. Proved otherwise."
  },
  {
   "property": "C188",
   "status": "partial",
   "theorems": [
    "Redmapper.Setup.C188_luminosity_partial",
    "Redmapper.Setup.C188_false"
   ],
   "note": "False with the default masking luminosity, which is not set (TypeError), with zero, and for references below 0.01. Proved otherwise."
  },
  {
   "property": "C189",
   "status": "partial",
   "theorems": [
    "Redmapper.Setup.C189_derivatives_partial",
    "Redmapper.Setup.C189_false",
    "Redmapper.Setup.C189_invalid"
   ],
   "note": "The second derivative is false if the richness of the cluster is not the one at its redshift, as after the correction of the redshift; the exact error is proved. Real arithmetic."
  },
  {
   "property": "C190",
   "status": "partial",
   "theorems": [
    "Redmapper.Setup.C190_centers_partial",
    "Redmapper.Setup.C190_false"
   ],
   "note": "False for redshifts: the whole column is assigned from the matches. Proved for magnitudes and errors."
  },
  {
   "property": "C191",
   "status": "partial",
   "theorems": [
    "Redmapper.Setup.C191_output_partial",
    "Redmapper.Setup.C191_false"
   ],
   "note": "False without replacing (a table is appended) and for a run without members over the member file of an earlier run. Proved otherwise."
  },
  {
   "property": "C192",
   "status": "proved",
   "theorems": [
    "Redmapper.SpecRed.C192_training",
    "Redmapper.SpecRed.C192_range"
   ],
   "note": "Matcher with the contract MatchOK. A galaxy that is closest to two spectra is there twice, with both redshifts."
  },
  {
   "property": "C193",
   "status": "partial",
   "theorems": [
    "Redmapper.SpecRed.C193_trim_partial",
    "Redmapper.SpecRed.C193_false"
   ],
   "note": "False for equal residuals: all galaxies equal to a limit are left out, which can be all. Proved for distinct residuals, with the exact number. Argsort with its contract."
  },
  {
   "property": "C194",
   "status": "proved",
   "theorems": [
    "Redmapper.SpecRed.C194_independent"
   ],
   "note": "The fits are arbitrary functions of their inputs."
  },
  {
   "property": "C195",
   "status": "proved",
   "theorems": [
    "Redmapper.SpecRed.C195_median",
    "Redmapper.SpecRed.C195_fit",
    "Redmapper.SpecRed.C195_color"
   ],
   "note": "The statement about medians is for galaxies at the nodes and a spline that goes through its nodes. Minimizer with the contract MinOK. Real arithmetic."
  },
  {
   "property": "C196",
   "status": "proved",
   "theorems": [
    "Redmapper.SpecRed.C196_truncation"
   ],
   "note": ""
  },
  {
   "property": "C197",
   "status": "partial",
   "theorems": [
    "Redmapper.SpecRed.C197_selection_partial",
    "Redmapper.SpecRed.C197_false"
   ],
   "note": "False for redshifts exactly on a bound between modes (never selected) and for a single training galaxy (always written). Proved otherwise, for increasing bounds."
  },
  {
   "property": "C198",
   "status": "proved",
   "theorems": [
    "Redmapper.SpecRed.C198_bins",
    "Redmapper.SpecRed.C198_errors",
    "Redmapper.SpecRed.C198_units",
    "Redmapper.SpecRed.C198_fit",
    "Redmapper.SpecRed.C198_recovers"
   ],
   "note": "Bootstrap draws are arbitrary. Minimizer with the contract MinOK. Real arithmetic."
  },
  {
   "property": "C199",
   "status": "partial",
   "theorems": [
    "Redmapper.BkgGen.C199_first_kept_partial",
    "Redmapper.BkgGen.C199_no_duplicates",
    "Redmapper.BkgGen.C199_written",
    "Redmapper.BkgGen.C199_other_table_kept_false"
   ],
   "note": "False with clobber: the whole file is replaced and the table of the other generator is lost. Proved for all histories without."
  },
  {
   "property": "C200",
   "status": "partial",
   "theorems": [
    "Redmapper.BkgGen.C200_complete_partial",
    "Redmapper.BkgGen.C200_interrupted_false"
   ],
   "note": "False after an interruption: the incomplete file is accepted by all later runs without clobber. Proved for runs that write."
  },
  {
   "property": "C201",
   "status": "proved",
   "theorems": [
    "Redmapper.BkgGen.C201_counted",
    "Redmapper.BkgGen.C201_master_zero"
   ],
   "note": ""
  },
  {
   "property": "C202",
   "status": "partial",
   "theorems": [
    "Redmapper.BkgGen.C202_same_bin_partial",
    "Redmapper.BkgGen.C202_bin_false",
    "Redmapper.BkgGen.C202_not_earlier"
   ],
   "note": "False for every range that is not a whole number (at least two) of bins. Proved for whole numbers; for all ranges the cell is that bin or the next one."
  },
  {
   "property": "C203",
   "status": "partial",
   "theorems": [
    "Redmapper.BkgGen.C203_total_partial",
    "Redmapper.BkgGen.C203_border_false",
    "Redmapper.BkgGen.C203_zred_positive"
   ],
   "note": "The total is false for galaxies within half a cell of a border: a galaxy with chi-squared zero counts at most half. Proved: never more than the number, equal away from the borders, signs for all."
  },
  {
   "property": "C204",
   "status": "proved",
   "theorems": [
    "Redmapper.BkgGen.C204_range",
    "Redmapper.BkgGen.C204_covers",
    "Redmapper.BkgGen.C204_no_range"
   ],
   "note": ""
  },
  {
   "property": "C205",
   "status": "partial",
   "theorems": [
    "Redmapper.BkgGen.C205_above",
    "Redmapper.BkgGen.C205_close",
    "Redmapper.BkgGen.C205_deep_partial",
    "Redmapper.BkgGen.C205_deep_false"
   ],
   "note": "False for bins narrower than 0.01 if the wanted magnitude is beyond the catalog. \"At most one bin beyond\" is for whole numbers of bins."
  },
  {
   "property": "C206",
   "status": "partial",
   "theorems": [
    "Redmapper.BkgGen.C206_log_outside",
    "Redmapper.BkgGen.C206_linear_outside_partial",
    "Redmapper.BkgGen.C206_linear_false"
   ],
   "note": "False for the linear table if it goes beyond the placeholder, about 430. With C43, which has the bound as hypothesis. Real arithmetic."
  },
  {
   "property": "C207",
   "status": "partial",
   "theorems": [
    "Redmapper.DepthFit.C207_limit_partial",
    "Redmapper.DepthFit.C207_false",
    "Redmapper.DepthFit.calc_example"
   ],
   "note": "For fits with positive exposure and sky flux that is not negative; the full statement is refuted by C207_false (a faint catalog gets a negative sky flux). Real arithmetic."
  },
  {
   "property": "C208",
   "status": "proved",
   "theorems": [
    "Redmapper.DepthFit.C208_determined"
   ],
   "note": "Real arithmetic."
  },
  {
   "property": "C209",
   "status": "partial",
   "theorems": [
    "Redmapper.DepthFit.C209_fit_partial",
    "Redmapper.DepthFit.C209_false"
   ],
   "note": "False for data so deep that the start is fainter than 27.5: all exposures tried have negative sky flux and the function is constant there. Proved if one that is tried is allowed. Minimizer with the contract FminOK."
  },
  {
   "property": "C210",
   "status": "partial",
   "theorems": [
    "Redmapper.DepthFit.C210_selection_partial",
    "Redmapper.DepthFit.C210_fails",
    "Redmapper.DepthFit.C210_no_error_partial",
    "Redmapper.DepthFit.C210_start",
    "Redmapper.DepthFit.C210_empty_false",
    "Redmapper.DepthFit.C210_outliers"
   ],
   "note": "False without any usable galaxy: IndexError instead of failure. Proved otherwise; the cut is given by ranks."
  },
  {
   "property": "C211",
   "status": "proved",
   "theorems": [
    "Redmapper.DepthFit.C211_same_problem",
    "Redmapper.DepthFit.C211_zeropoint"
   ],
   "note": "The minimizer is assumed not to see the unit of exposure; that the problem and its start are the same is proved without."
  },
  {
   "property": "C212",
   "status": "proved",
   "theorems": [
    "Redmapper.DepthFit.C212_init",
    "Redmapper.DepthFit.C212_maskdepth"
   ],
   "note": "For catalogs with a usable galaxy, see C210. Zero point and significance are set in the first row only."
  },
  {
   "property": "C213",
   "status": "partial",
   "theorems": [
    "Redmapper.DepthFit.C213_errors_partial",
    "Redmapper.DepthFit.C213_trials",
    "Redmapper.DepthFit.C213_trial",
    "Redmapper.DepthFit.C213_boot_false"
   ],
   "note": "With useBoot the sky flux is not that of the new limit and exposure."
  },
  {
   "property": "C214",
   "status": "partial",
   "theorems": [
    "Redmapper.Maps.C214_coverage",
    "Redmapper.Maps.C214_errors",
    "Redmapper.Maps.C214_readable_partial",
    "Redmapper.Maps.C214_readable_false"
   ],
   "note": "The pixels are right for all resolutions. \"Each once\" is false if the pixels of the region are smaller than those of the coverage and there is no border: two in one coverage pixel give it twice and healsparse refuses the list. The pixels the border touches are a parameter."
  },
  {
   "property": "C215",
   "status": "partial",
   "theorems": [
    "Redmapper.Maps.C215_values",
    "Redmapper.Maps.C215_zmax_partial",
    "Redmapper.Maps.C215_zmax_false"
   ],
   "note": "False of the volume limit, which does not clip the declination before asking the map. The map raises beyond the poles (contract of hpgeom)."
  },
  {
   "property": "C216",
   "status": "partial",
   "theorems": [
    "Redmapper.Maps.C216_own_mask_partial",
    "Redmapper.Maps.C216_tenths",
    "Redmapper.Maps.C216_own_mask_false"
   ],
   "note": "False: the name of the file has only the first decimal of the luminosity and not the kind, and a file that exists is used."
  },
  {
   "property": "C217",
   "status": "proved",
   "theorems": [
    "Redmapper.Maps.C217_geometry",
    "Redmapper.Maps.C217_order"
   ],
   "note": ""
  },
  {
   "property": "C218",
   "status": "partial",
   "theorems": [
    "Redmapper.Maps.C218_mode_partial",
    "Redmapper.Maps.C218_mode_false"
   ],
   "note": "False: other modes than 0 and 3 give None without an error."
  },
  {
   "property": "C219",
   "status": "partial",
   "theorems": [
    "Redmapper.Maps.C219_cover",
    "Redmapper.Maps.C219_rich_false"
   ],
   "note": "Proved for richnesses from 3 to 300 and positive r0, beta not negative; false for richer clusters."
  },
  {
   "property": "C220",
   "status": "partial",
   "theorems": [
    "Redmapper.Maps.C220_hard",
    "Redmapper.Maps.C220_soft",
    "Redmapper.Maps.C220_soft_value",
    "Redmapper.Maps.C220_own_sample",
    "Redmapper.Maps.C220_sharp_false"
   ],
   "note": "False without softening (rsig not positive): every bright galaxy counts at every radius. The soft edge is a function with values in [0, 1] that does not decrease."
  },
  {
   "property": "C221",
   "status": "partial",
   "theorems": [
    "Redmapper.Maps.C221_read_partial",
    "Redmapper.Maps.C221_read_false",
    "Redmapper.Maps.C221_positions"
   ],
   "note": "False: settings of the file are not compared with those of the run, only the version. Away from the poles."
  },
  {
   "property": "C222",
   "status": "proved",
   "theorems": [
    "Redmapper.RmCal.C222_cost",
    "Redmapper.RmCal.C222_zero"
   ],
   "note": "Exact arithmetic; the galaxies that are counted are those of C119."
  },
  {
   "property": "C223",
   "status": "partial",
   "theorems": [
    "Redmapper.RmCal.C223_range",
    "Redmapper.RmCal.C223_bins",
    "Redmapper.RmCal.C223_centers",
    "Redmapper.RmCal.C223_within_partial",
    "Redmapper.RmCal.C223_within_false",
    "Redmapper.RmCal.C223_end_false"
   ],
   "note": "False: galaxies in the last 0.0001 of the range are in no bin; without a buffer of at least a bin the range can end beyond the mode. Bins not narrower than 0.0001."
  },
  {
   "property": "C224",
   "status": "partial",
   "theorems": [
    "Redmapper.RmCal.C224_area_partial",
    "Redmapper.RmCal.C224_area_false",
    "Redmapper.RmCal.C224_end_false"
   ],
   "note": "False: a mode that ends, less the buffer, at or after the end of the run raises IndexError."
  },
  {
   "property": "C225",
   "status": "partial",
   "theorems": [
    "Redmapper.RmCal.C225_start_partial",
    "Redmapper.RmCal.C225_start_false",
    "Redmapper.RmCal.C225_near"
   ],
   "note": "False without a galaxy near a node: IndexError."
  },
  {
   "property": "C226",
   "status": "proved",
   "theorems": [
    "Redmapper.RmCal.C226_train"
   ],
   "note": "Any sorting routine."
  },
  {
   "property": "C227",
   "status": "proved",
   "theorems": [
    "Redmapper.RmCal.C227_calib"
   ],
   "note": "Matching by unique cluster and galaxy ids."
  },
  {
   "property": "C228",
   "status": "partial",
   "theorems": [
    "Redmapper.RmCal.C228_recorded",
    "Redmapper.RmCal.C228_cost_partial",
    "Redmapper.RmCal.C228_cost_false"
   ],
   "note": "The comparison is false with the afterburner: the corrections are fitted once more after the chi-squared. Fits are parameters with contracts (bounds of MedZFitter, no increase of the cost)."
  },
  {
   "property": "C229",
   "status": "partial",
   "theorems": [
    "Redmapper.RmCal.C229_modes",
    "Redmapper.RmCal.C229_only_partial",
    "Redmapper.RmCal.C229_only_false",
    "Redmapper.RmCal.C229_masks_partial",
    "Redmapper.RmCal.C229_masks_false"
   ],
   "note": "False if there was a file (its other modes stay), and for luminosities with the same first decimal (see C216)."
  },
  {
   "property": "C230",
   "status": "proved",
   "theorems": [
    "Redmapper.RsFile.C230"
   ],
   "note": "Band names without commas, blanks at the end or empty names; the header is a list of cards."
  },
  {
   "property": "C231",
   "status": "partial",
   "theorems": [
    "Redmapper.RsFile.C231_partial",
    "Redmapper.RsFile.C231_false"
   ],
   "note": "False: the range is cut at 0.01 below and at the end of the template above."
  },
  {
   "property": "C232",
   "status": "proved",
   "theorems": [
    "Redmapper.RsFile.C232"
   ],
   "note": "Headers with any keys."
  },
  {
   "property": "C233",
   "status": "partial",
   "theorems": [
    "Redmapper.RsFile.C233_partial",
    "Redmapper.RsFile.C233_false"
   ],
   "note": "False if two colors have the same name when case is ignored: the first is always used."
  },
  {
   "property": "C234",
   "status": "partial",
   "theorems": [
    "Redmapper.RsFile.C234_partial",
    "Redmapper.RsFile.C234_overflow",
    "Redmapper.RsFile.C234_false"
   ],
   "note": "False if no bin is inside of the calibrated redshifts: IndexError."
  },
  {
   "property": "C235",
   "status": "proved",
   "theorems": [
    "Redmapper.RsFile.C235",
    "Redmapper.RsFile.C235_colors"
   ],
   "note": "The reference magnitude of the calibration is taken to be that of the reader."
  },
  {
   "property": "C236",
   "status": "proved",
   "theorems": [
    "Redmapper.RsFile.C236"
   ],
   "note": "Over the reals."
  },
  {
   "property": "C237",
   "status": "partial",
   "theorems": [
    "Redmapper.RsFile.C237_partial",
    "Redmapper.RsFile.C237_false"
   ],
   "note": "False: a catalog of one galaxy at several redshifts, a single index in an array for several galaxies, and one galaxy at one redshift through calculate_chisq_redshifts raise."
  },
  {
   "property": "C238",
   "status": "partial",
   "theorems": [
    "Redmapper.RsFile.C238_catalog",
    "Redmapper.RsFile.C238_redshifts",
    "Redmapper.RsFile.C238_partial",
    "Redmapper.RsFile.C238_false"
   ],
   "note": "False for pairs: the slope of the first pair is used for all (see C58)."
  },
  {
   "property": "C239",
   "status": "partial",
   "theorems": [
    "Redmapper.BkgTable.C239_partial",
    "Redmapper.BkgTable.C239_false",
    "Redmapper.BkgTable.load_ok_iff"
   ],
   "note": "False: the array of the 40 logarithmic bins is allocated with the number of linear bins, so only configurations with exactly 40 chi-squared bins can be read."
  },
  {
   "property": "C240",
   "status": "proved",
   "theorems": [
    "Redmapper.BkgTable.C240_value",
    "Redmapper.BkgTable.C240_nodes",
    "Redmapper.BkgTable.C240_bounds"
   ],
   "note": ""
  },
  {
   "property": "C241",
   "status": "proved",
   "theorems": [
    "Redmapper.BkgTable.C241"
   ],
   "note": ""
  },
  {
   "property": "C242",
   "status": "partial",
   "theorems": [
    "Redmapper.BkgTable.C242_partial",
    "Redmapper.BkgTable.C242_lines",
    "Redmapper.BkgTable.C242_positive",
    "Redmapper.BkgTable.C242_false"
   ],
   "note": "False beyond the last bin: a rising background goes on rising in a line."
  },
  {
   "property": "C243",
   "status": "partial",
   "theorems": [
    "Redmapper.BkgTable.C243_partial",
    "Redmapper.BkgTable.C243_false"
   ],
   "note": "False if magnitudes differ between extensions: the areas of the first are used for all, ValueError for another number of bins. Colors below 100."
  },
  {
   "property": "C244",
   "status": "proved",
   "theorems": [
    "Redmapper.BkgTable.C244_diag",
    "Redmapper.BkgTable.C244_offdiag",
    "Redmapper.BkgTable.C244_norm",
    "Redmapper.BkgTable.C244_lookup"
   ],
   "note": "Linear interpolation between the first and the last bin of the file."
  },
  {
   "property": "C245",
   "status": "partial",
   "theorems": [
    "Redmapper.CatTask.C245_partial",
    "Redmapper.CatTask.C245_tiles_partial",
    "Redmapper.CatTask.C245_other_partial",
    "Redmapper.CatTask.C245_lost",
    "Redmapper.CatTask.C245_false",
    "Redmapper.CatTask.C245_false_other",
    "Redmapper.CatTask.C245_false_number"
   ],
   "note": "False: pixels from 100000 on are silently left out; runs whose base name continues this one with an underscore are taken in; numbers in the base or directory name are taken for the pixel. Base names without glob characters."
  },
  {
   "property": "C246",
   "status": "partial",
   "theorems": [
    "Redmapper.CatTask.C246_partial",
    "Redmapper.CatTask.C246_false",
    "Redmapper.CatTask.C246_runcat"
   ],
   "note": "False: only versions of four characters match, and redmapper_consolidate_runcat asks for a kind of catalog that is never written."
  },
  {
   "property": "C247",
   "status": "partial",
   "theorems": [
    "Redmapper.CatTask.C247_partial",
    "Redmapper.CatTask.C247_keeps",
    "Redmapper.CatTask.C247_needs",
    "Redmapper.CatTask.C247_writes",
    "Redmapper.CatTask.C247_zscan",
    "Redmapper.CatTask.C247_runcat",
    "Redmapper.CatTask.C247_false"
   ],
   "note": "False: the redshift scan looks for another name than it writes and appends a table on every call; the catalog run uses a class that is not imported."
  },
  {
   "property": "C248",
   "status": "partial",
   "theorems": [
    "Redmapper.CatTask.C248_partial",
    "Redmapper.CatTask.C248_gals",
    "Redmapper.CatTask.C248_none",
    "Redmapper.CatTask.C248_zmask",
    "Redmapper.CatTask.C248_false"
   ],
   "note": "False for randoms without a depth map: AttributeError. Without temporary files; at least two magnitude bins in the background."
  },
  {
   "property": "C249",
   "status": "partial",
   "theorems": [
    "Redmapper.CatTask.C249_partial",
    "Redmapper.CatTask.C249_false",
    "Redmapper.CatTask.C249_false_negative"
   ],
   "note": "The scale is at least one only for corrections in [0,1); it is not clipped."
  },
  {
   "property": "C250",
   "status": "partial",
   "theorems": [
    "Redmapper.CatTask.C250_partial",
    "Redmapper.CatTask.C250_false"
   ],
   "note": "False without a seed file: r0 = 1 and beta = 0.2 whatever the configuration."
  },
  {
   "property": "C251",
   "status": "partial",
   "theorems": [
    "Redmapper.CatTask.C251_seeds",
    "Redmapper.CatTask.C251_gals",
    "Redmapper.CatTask.C251_mask_partial",
    "Redmapper.CatTask.C251_mask_false",
    "Redmapper.CatTask.C251_spec_false"
   ],
   "note": "False: without a seed file cleaninput is ignored; in the spectroscopic mode the cut is on zred."
  },
  {
   "property": "C252",
   "status": "partial",
   "theorems": [
    "Redmapper.CatTask.C252_partial",
    "Redmapper.CatTask.C252_print",
    "Redmapper.CatTask.C252_names",
    "Redmapper.CatTask.C252_false",
    "Redmapper.CatTask.C252_false_sky"
   ],
   "note": "False: a start after a stop opens nothing; without pixels IndexError."
  },
  {
   "property": "C253",
   "status": "partial",
   "theorems": [
    "Redmapper.CatTask.C253_partial",
    "Redmapper.CatTask.C253_beyond",
    "Redmapper.CatTask.C253_false"
   ],
   "note": "Up to a richness of 300; in any metric space."
  },
  {
   "property": "C254",
   "status": "proved",
   "theorems": [
    "Redmapper.WcenLike.C254"
   ],
   "note": "For every matcher that gives each pair within the radius once; any non-negative separation."
  },
  {
   "property": "C255",
   "status": "partial",
   "theorems": [
    "Redmapper.WcenLike.C255",
    "Redmapper.WcenLike.C255_around",
    "Redmapper.WcenLike.C255_floor_false"
   ],
   "note": "False of the comparison: 0.001 can exceed the connectivity of a candidate with a galaxy close to the radius."
  },
  {
   "property": "C256",
   "status": "partial",
   "theorems": [
    "Redmapper.WcenLike.C256_values",
    "Redmapper.WcenLike.C256_signs",
    "Redmapper.WcenLike.C256_probabilities",
    "Redmapper.WcenLike.C256_false"
   ],
   "note": "For positive widths; with the default (uncalibrated) widths of -9999 the background is negative."
  },
  {
   "property": "C257",
   "status": "partial",
   "theorems": [
    "Redmapper.WcenLike.C257",
    "Redmapper.WcenLike.C257_range_false"
   ],
   "note": "Small-angle separation. False of the range: the right ascension is not wrapped."
  },
  {
   "property": "C258",
   "status": "partial",
   "theorems": [
    "Redmapper.WcenLike.C258_partial",
    "Redmapper.WcenLike.C258_bcg",
    "Redmapper.WcenLike.C258_false"
   ],
   "note": "False with fewer candidates than entries: the last of all neighbours is flagged and its id recorded; the BCG position fills all entries."
  },
  {
   "property": "C259",
   "status": "proved",
   "theorems": [
    "Redmapper.WcenLike.C259"
   ],
   "note": ""
  },
  {
   "property": "C260",
   "status": "partial",
   "theorems": [
    "Redmapper.PyWrap.C260_partial",
    "Redmapper.PyWrap.C260_false"
   ],
   "note": "False on big-endian machines: the format \"i\" writes half of each long variable."
  },
  {
   "property": "C261",
   "status": "partial",
   "theorems": [
    "Redmapper.PyWrap.C261_partial",
    "Redmapper.PyWrap.C261_attr",
    "Redmapper.PyWrap.C261_false"
   ],
   "note": "False of programs that assign to the attributes of a solver: the C object goes on reading a freed array."
  },
  {
   "property": "C262",
   "status": "partial",
   "theorems": [
    "Redmapper.PyWrap.C262_init",
    "Redmapper.PyWrap.C262_compute_partial",
    "Redmapper.PyWrap.C262_false",
    "Redmapper.PyWrap.C262_repr_false"
   ],
   "note": "False: an object not initialised follows a null pointer, the representation raises TypeError, unparsable arguments of compute give SystemError."
  },
  {
   "property": "C263",
   "status": "partial",
   "theorems": [
    "Redmapper.PyWrap.C263_partial",
    "Redmapper.PyWrap.C263_false"
   ],
   "note": "False after repeated initialisation: only the last struct is freed. Nothing is freed twice."
  },
  {
   "property": "C264",
   "status": "partial",
   "theorems": [
    "Redmapper.PyWrap.C264_partial",
    "Redmapper.PyWrap.C264_scalar",
    "Redmapper.PyWrap.C264_false"
   ],
   "note": "False of matrices (one value for each row) and scalars (crash)."
  },
  {
   "property": "C265",
   "status": "partial",
   "theorems": [
    "Redmapper.GalStats.C265_partial",
    "Redmapper.GalStats.C265_index",
    "Redmapper.GalStats.group_some",
    "Redmapper.GalStats.C265_false"
   ],
   "note": "Indices of bands different and below their number; false of columns such as g_index, which name a band too."
  },
  {
   "property": "C266",
   "status": "partial",
   "theorems": [
    "Redmapper.GalStats.C266_partial",
    "Redmapper.GalStats.C266_false"
   ],
   "note": "False: the reference index stored in the file is not compared with the configured band."
  },
  {
   "property": "C267",
   "status": "proved",
   "theorems": [
    "Redmapper.GalStats.C267"
   ],
   "note": ""
  },
  {
   "property": "C268",
   "status": "partial",
   "theorems": [
    "Redmapper.GalStats.C268_partial",
    "Redmapper.GalStats.C268_false"
   ],
   "note": "False for areas within 0.001 of that of the file, which are replaced."
  },
  {
   "property": "C269",
   "status": "partial",
   "theorems": [
    "Redmapper.MedCal.C269_partial",
    "Redmapper.MedCal.C269_false"
   ],
   "note": "False of the galaxies for colors: with a higher cut there may be none, which is not checked."
  },
  {
   "property": "C270",
   "status": "proved",
   "theorems": [
    "Redmapper.MedCal.C270_pivot",
    "Redmapper.MedCal.C270_range",
    "Redmapper.MedCal.C270_starts"
   ],
   "note": "For minimisers that are not worse than their start; the range is not empty for reference luminosities below 30.1."
  },
  {
   "property": "C271",
   "status": "proved",
   "theorems": [
    "Redmapper.MedCal.C271",
    "Redmapper.MedCal.C271_width"
   ],
   "note": "For minimisers that respect bounds."
  },
  {
   "property": "C272",
   "status": "partial",
   "theorems": [
    "Redmapper.MedCal.C272_choice",
    "Redmapper.MedCal.C272_equal",
    "Redmapper.MedCal.C272_false"
   ],
   "note": "False outside of 0.5 to 9.9, where the end of the range is taken."
  },
  {
   "property": "C273",
   "status": "proved",
   "theorems": [
    "Redmapper.MedCal.C273"
   ],
   "note": ""
  },
  {
   "property": "C274",
   "status": "partial",
   "theorems": [
    "Redmapper.MedCal.C274_partial",
    "Redmapper.MedCal.C274_collision",
    "Redmapper.MedCal.C274_false"
   ],
   "note": "False of names that end with one of the characters of \".fit\": more is taken off, and files can coincide."
  },
  {
   "property": "C275",
   "status": "proved",
   "theorems": [
    "Redmapper.ForkPool.C275",
    "Redmapper.ForkPool.C275_zred"
   ],
   "note": ""
  },
  {
   "property": "C276",
   "status": "partial",
   "theorems": [
    "Redmapper.ForkPool.C276_partial",
    "Redmapper.ForkPool.C276_shared",
    "Redmapper.ForkPool.C276_again",
    "Redmapper.ForkPool.C276_false"
   ],
   "note": "Proved for one process.  False for several: workers are forks of the parent, so the first tasks of all of them, and every later run, use the same random numbers."
  },
  {
   "property": "C277",
   "status": "proved",
   "theorems": [
    "Redmapper.ForkPool.C277"
   ],
   "note": "For tasks that write different files (C278)."
  },
  {
   "property": "C278",
   "status": "partial",
   "theorems": [
    "Redmapper.ForkPool.C278_partial",
    "Redmapper.ForkPool.C278_false",
    "Redmapper.ForkPool.C278_nodir_false"
   ],
   "note": "False: the pattern is not anchored at the end and its point matches any character, and a name without a directory cannot be used."
  },
  {
   "property": "C279",
   "status": "proved",
   "theorems": [
    "Redmapper.SkyMap.C279_values",
    "Redmapper.SkyMap.C279_rows",
    "Redmapper.SkyMap.C279_file"
   ],
   "note": "The effect of HealSparseMap is assumed."
  },
  {
   "property": "C280",
   "status": "proved",
   "theorems": [
    "Redmapper.SkyMap.C280"
   ],
   "note": ""
  },
  {
   "property": "C281",
   "status": "partial",
   "theorems": [
    "Redmapper.SkyMap.C281_read",
    "Redmapper.SkyMap.C281_region",
    "Redmapper.SkyMap.C281_restrict",
    "Redmapper.SkyMap.C281_whole",
    "Redmapper.SkyMap.C281_guards",
    "Redmapper.SkyMap.C281_false"
   ],
   "note": "False of sums: the areas of two regions can exceed that of both (two pixels too many, C48).  The whole sky for maps with different depths."
  },
  {
   "property": "C282",
   "status": "partial",
   "theorems": [
    "Redmapper.SkyMap.C282_partial",
    "Redmapper.SkyMap.C282_false"
   ],
   "note": "False of the code: a wrong function is called and the prediction always raises.  The guarded theorem has the right function in its place."
  },
  {
   "property": "C283",
   "status": "partial",
   "theorems": [
    "Redmapper.RmRun.C283_partial",
    "Redmapper.RmRun.C283_none",
    "Redmapper.RmRun.C283_read",
    "Redmapper.RmRun.C283_false"
   ],
   "note": "For modes that end within redmagic_zrange.  False otherwise: the configuration does not check it, and galaxies that the mode selects are missing from its calibration."
  },
  {
   "property": "C284",
   "status": "partial",
   "theorems": [
    "Redmapper.RmRun.C284_calibration",
    "Redmapper.RmRun.C284_selection",
    "Redmapper.RmRun.C284_partial",
    "Redmapper.RmRun.C284_false"
   ],
   "note": "Holds for the selection.  In the calibration spectra are matched to galaxies, and of several the last counts, not the closest; proved when at most one is near."
  },
  {
   "property": "C285",
   "status": "proved",
   "theorems": [
    "Redmapper.ColGen.C285_cells2",
    "Redmapper.ColGen.C285_cells3",
    "Redmapper.ColGen.C285_color",
    "Redmapper.ColGen.C285_pair"
   ],
   "note": "Exact arithmetic."
  },
  {
   "property": "C286",
   "status": "partial",
   "theorems": [
    "Redmapper.ColGen.C286_below",
    "Redmapper.ColGen.C286_partial",
    "Redmapper.ColGen.C286_false"
   ],
   "note": "False: a pair only has galaxies in both ranges, and loses weight at the edges of each; proved to be at most the color, and equal if the other color of all galaxies is inside its range."
  },
  {
   "property": "C287",
   "status": "partial",
   "theorems": [
    "Redmapper.ColGen.C287_color",
    "Redmapper.ColGen.C287_pair",
    "Redmapper.ColGen.C287_false"
   ],
   "note": "False at the edges, where a galaxy counts half in each quantity; proved between a quarter and all of the galaxies, and equal away from the edges."
  },
  {
   "property": "C288",
   "status": "partial",
   "theorems": [
    "Redmapper.MaskGen.C288_distribution_partial",
    "Redmapper.MaskGen.C288_distribution_false"
   ],
   "note": "The cumulative probability is never below the tabulated one and at most one over the number of grid points above it: samples are biased to the low end; with two equal points all are the first."
  },
  {
   "property": "C289",
   "status": "partial",
   "theorems": [
    "Redmapper.MaskGen.C289_galaxy_partial",
    "Redmapper.MaskGen.C289_norm",
    "Redmapper.MaskGen.C289_ratio",
    "Redmapper.MaskGen.C291_two_bands"
   ],
   "note": "Proved for at least three bands; with two bands the galaxies cannot be made (C291).  The Simpson integral is a parameter."
  },
  {
   "property": "C290",
   "status": "proved",
   "theorems": [
    "Redmapper.MaskGen.C290_uniform"
   ],
   "note": "Lebesgue measure of the pairs of uniform draws."
  },
  {
   "property": "C291",
   "status": "partial",
   "theorems": [
    "Redmapper.MaskGen.C289_galaxy_partial",
    "Redmapper.MaskGen.C291_two_bands",
    "Redmapper.MaskGen.C291_two_bands_false"
   ],
   "note": "False with two bands, where the color filter is infinite at zero and no sample is found (if NaN is cast to a negative integer, as on x86); proved for three or more."
  },
  {
   "property": "C292",
   "status": "partial",
   "theorems": [
    "Redmapper.Plots.C292_members_partial",
    "Redmapper.Plots.C292_members_false",
    "Redmapper.Plots.C292_foreign_false"
   ],
   "note": "False: positions of matches are used as positions of members, and bins of the histogram as positions of clusters.  Proved when all members belong to the catalog and the first cluster has one."
  },
  {
   "property": "C293",
   "status": "proved",
   "theorems": [
    "Redmapper.Plots.C293_outliers",
    "Redmapper.Plots.C293_curves"
   ],
   "note": "Positive errors; without any spectrum the plot raises."
  },
  {
   "property": "C294",
   "status": "proved",
   "theorems": [
    "Redmapper.Plots.C294_row",
    "Redmapper.Plots.C294_smooth"
   ],
   "note": "The spline is arbitrary; smoothing in one dimension, applied twice by the code."
  },
  {
   "property": "C295",
   "status": "proved",
   "theorems": [
    "Redmapper.Plots.C295_density",
    "Redmapper.Plots.C295_bins",
    "Redmapper.Plots.C295_area"
   ],
   "note": "Objects in the last 0.0001 of the range are not counted; the volume function is a parameter."
  },
  {
   "property": "C296",
   "status": "proved",
   "theorems": [
    "Redmapper.Plots.C296_sample",
    "Redmapper.Plots.C296_distribution",
    "Redmapper.Plots.C296_zero"
   ],
   "note": "Lebesgue measure of the draws; a p(z) that is zero raises."
  },
  {
   "property": "C297",
   "status": "partial",
   "theorems": [
    "Redmapper.Plots.C297_count_partial",
    "Redmapper.Plots.C297_rich_false"
   ],
   "note": "False above richness 200, or up to one bin size less; proved below."
  },
  {
   "property": "C298",
   "status": "partial",
   "theorems": [
    "Redmapper.RandOut.C298_names_partial",
    "Redmapper.RandOut.C298_names_false"
   ],
   "note": "False: the name has the redshift range of the configuration, not of the run, and whole numbers of the richness.  Proved: files are shared exactly if the numbers in the name agree."
  },
  {
   "property": "C299",
   "status": "partial",
   "theorems": [
    "Redmapper.RandOut.C299_area_partial",
    "Redmapper.RandOut.C299_area_false"
   ],
   "note": "False for a random exactly at the upper end of the richness range, which is kept but counted as lost; proved for all others."
  },
  {
   "property": "C300",
   "status": "partial",
   "theorems": [
    "Redmapper.RandOut.C300_points_partial",
    "Redmapper.RandOut.C300_points_false"
   ],
   "note": "False: the fraction below the upper edge of a bin is assigned to its middle; proved with the redshift half a step higher."
  },
  {
   "property": "C301",
   "status": "partial",
   "theorems": [
    "Redmapper.RandOut.C301_files_partial",
    "Redmapper.RandOut.C301_failed",
    "Redmapper.RandOut.C301_stale",
    "Redmapper.RandOut.C301_single",
    "Redmapper.RandOut.C301_files_false"
   ],
   "note": "False if the file exists (a table is appended, readers get the first) or if only one random takes part (written whether found or not); proved otherwise.  The fit is a parameter."
  },
  {
   "property": "C302",
   "status": "proved",
   "theorems": [
    "Redmapper.ClusCat.C302",
    "Redmapper.ClusCat.C302_zeros"
   ],
   "note": "Names distinct when lower-cased."
  },
  {
   "property": "C303",
   "status": "partial",
   "theorems": [
    "Redmapper.ClusCat.C303_has_partial",
    "Redmapper.ClusCat.C303_partial",
    "Redmapper.ClusCat.C303_single",
    "Redmapper.ClusCat.C303_false"
   ],
   "note": "False for a catalogue made with an explicit dtype (columns of the configuration are added); proved otherwise."
  },
  {
   "property": "C304",
   "status": "partial",
   "theorems": [
    "Redmapper.ClusCat.C304_column_partial",
    "Redmapper.ClusCat.C304_partial",
    "Redmapper.ClusCat.C304_false"
   ],
   "note": "False for the randoms, whose catalogue starts without LIM_LIMMAG and others: the values become attributes of temporary objects and zeros are written.  Proved for every column the starting catalogue has."
  },
  {
   "property": "C305",
   "status": "proved",
   "theorems": [
    "Redmapper.ClusCat.C305"
   ],
   "note": "At least one iteration; exact arithmetic; Simpson rule linear and positive."
  },
  {
   "property": "C306",
   "status": "partial",
   "theorems": [
    "Redmapper.ClusCat.C306_columns_partial",
    "Redmapper.ClusCat.C306_false"
   ],
   "note": "False: the likelihood of the central is assigned to lnbcglike, which is not a column (the column is LNCGLIKE), so it is lost.  Proved: the column of the members, the total, and that the column of the central keeps its initial value."
  },
  {
   "property": "C307",
   "status": "partial",
   "theorems": [
    "Redmapper.OffDiag.C307_cost_partial",
    "Redmapper.OffDiag.det_pos",
    "Redmapper.OffDiag.C307_false"
   ],
   "note": "False for adjacent colors in the reverse order (the covariance by the common band is missing); proved if the first color is before the second and the scatters are not zero."
  },
  {
   "property": "C308",
   "status": "proved",
   "theorems": [
    "Redmapper.OffDiag.C308_history",
    "Redmapper.OffDiag.C308_fit",
    "Redmapper.OffDiag.checks_iff"
   ],
   "note": "Minimizer contract: stays in bounds, not worse than the start for a cost that is a function."
  },
  {
   "property": "C309",
   "status": "partial",
   "theorems": [
    "Redmapper.OffDiag.C309_partial",
    "Redmapper.OffDiag.C309_false"
   ],
   "note": "False: the matrices are not copied and are left with the correlations looked at last."
  },
  {
   "property": "C310",
   "status": "partial",
   "theorems": [
    "Redmapper.OffDiag.C310_partial",
    "Redmapper.OffDiag.eigOK_exists",
    "Redmapper.OffDiag.C310_false"
   ],
   "note": "False if the start is not admissible (a fixed penalty); proved if it is and no likelihood exceeds that of the start by the penalty."
  },
  {
   "property": "C311",
   "status": "proved",
   "theorems": [
    "Redmapper.ZlamPar.C311_neither",
    "Redmapper.ZlamPar.C311_missing",
    "Redmapper.ZlamPar.C311_file_first",
    "Redmapper.ZlamPar.C311_header",
    "Redmapper.ZlamPar.C311_key",
    "Redmapper.ZlamPar.C311_given"
   ],
   "note": ""
  },
  {
   "property": "C312",
   "status": "proved",
   "theorems": [
    "Redmapper.ZlamPar.C312_grid",
    "Redmapper.ZlamPar.C312_tables",
    "Redmapper.ZlamPar.C312_extrapolated"
   ],
   "note": "Rounding to within one half; any spline."
  },
  {
   "property": "C313",
   "status": "partial",
   "theorems": [
    "Redmapper.ZlamPar.C313_partial",
    "Redmapper.ZlamPar.C313_false",
    "Redmapper.ZlamPar.C313_file"
   ],
   "note": "False for one iteration: the tables then have two dimensions and are given to the spline as they are (ValueError)."
  },
  {
   "property": "C314",
   "status": "partial",
   "theorems": [
    "Redmapper.ZlamPar.C314_partial",
    "Redmapper.ZlamPar.C314_false"
   ],
   "note": "True of the redshifts; false of the errors: each iteration still to be done adds 0.001 in quadrature, as its zero scatter is raised to 0.001."
  },
  {
   "property": "C315",
   "status": "partial",
   "theorems": [
    "Redmapper.HistoGauss.C315_partial",
    "Redmapper.HistoGauss.C315_negative",
    "Redmapper.HistoGauss.C315_false",
    "Redmapper.HistoGauss.resid_neg",
    "Redmapper.HistoGauss.foldTails_iff"
   ],
   "note": "False for a negative sigma, which fits as well: IndexError. Proved for positive sigma and a bin within five sigma."
  },
  {
   "property": "C316",
   "status": "partial",
   "theorems": [
    "Redmapper.HistoGauss.C316_partial",
    "Redmapper.HistoGauss.C316_false"
   ],
   "note": "False if a bin lies exactly at five sigma; proved otherwise."
  },
  {
   "property": "C317",
   "status": "proved",
   "theorems": [
    "Redmapper.HistoGauss.C317"
   ],
   "note": ""
  },
  {
   "property": "C318",
   "status": "proved",
   "theorems": [
    "Redmapper.HistoGauss.C318",
    "Redmapper.HistoGauss.C318_exact",
    "Redmapper.HistoGauss.polyOK_exists"
   ],
   "note": "The docstring has products of powers instead of lines."
  },
  {
   "property": "C319",
   "status": "partial",
   "theorems": [
    "Redmapper.LogFile.C319_partial",
    "Redmapper.LogFile.C319_console",
    "Redmapper.LogFile.C319_false"
   ],
   "note": "False for a configuration without pixels that does not log to the console: IndexError. The exact condition is proved."
  },
  {
   "property": "C320",
   "status": "partial",
   "theorems": [
    "Redmapper.LogFile.C320_partial",
    "Redmapper.LogFile.C320_restart",
    "Redmapper.LogFile.C320_shared",
    "Redmapper.LogFile.C320_false"
   ],
   "note": "False after a restart (nothing more is logged) and for configurations that share a logger; proved for the first window of a configuration with a logger of its own."
  },
  {
   "property": "C321",
   "status": "partial",
   "theorems": [
    "Redmapper.LogFile.C321_partial",
    "Redmapper.LogFile.C321_false"
   ],
   "note": "False: only the first pixel is in the name; proved for different bases or first pixels."
  },
  {
   "property": "C322",
   "status": "partial",
   "theorems": [
    "Redmapper.RmTask.C322_partial",
    "Redmapper.RmTask.cat_rand",
    "Redmapper.RmTask.C322_false"
   ],
   "note": "False if a mode has the name of another one with _randoms at its end: one file is then used for both. Proved otherwise."
  },
  {
   "property": "C323",
   "status": "partial",
   "theorems": [
    "Redmapper.RmTask.C323_partial",
    "Redmapper.RmTask.C323_succeeds",
    "Redmapper.RmTask.C323_late",
    "Redmapper.RmTask.C323_unknown",
    "Redmapper.RmTask.C323_false"
   ],
   "note": "False: existing random points are noticed after the catalogs have been written, unknown modes after the first pixel. Proved for galaxies not in pixels and for existing catalogs; other errors need one of the two, or an empty catalog."
  },
  {
   "property": "C324",
   "status": "partial",
   "theorems": [
    "Redmapper.RmTask.C324_partial",
    "Redmapper.RmTask.C324_false"
   ],
   "note": "False with an error or with no random points asked for; exact condition proved."
  },
  {
   "property": "C325",
   "status": "partial",
   "theorems": [
    "Redmapper.RmTask.C325_partial",
    "Redmapper.RmTask.C325_false"
   ],
   "note": "False: names of files raise AttributeError or NameError."
  },
  {
   "property": "C326",
   "status": "proved",
   "theorems": [
    "Redmapper.Finders.C326"
   ],
   "note": ""
  },
  {
   "property": "C327",
   "status": "proved",
   "theorems": [
    "Redmapper.Finders.C327_second",
    "Redmapper.Finders.C327_output"
   ],
   "note": "Processing of one cluster is the function of Runner; the sort has the contract of argsort."
  },
  {
   "property": "C328",
   "status": "partial",
   "theorems": [
    "Redmapper.Batch.C328_cover_partial",
    "Redmapper.Batch.C328_false"
   ],
   "note": "Proved when each pixel of the galaxy table lies in one pixel of the jobs; false for jobs of finer pixels than the table has."
  },
  {
   "property": "C329",
   "status": "partial",
   "theorems": [
    "Redmapper.Batch.C329_array",
    "Redmapper.Batch.C329_args_partial",
    "Redmapper.Batch.C329_percent_false",
    "Redmapper.Batch.C329_blank_false"
   ],
   "note": "Proved for paths without percent and dollar signs and blanks; false for paths with a percent sign (another file) or a blank."
  },
  {
   "property": "C330",
   "status": "partial",
   "theorems": [
    "Redmapper.Batch.C330_parsl",
    "Redmapper.Batch.C330_braces_false"
   ],
   "note": "Proved for plain paths; false for paths with braces."
  },
  {
   "property": "C331",
   "status": "partial",
   "theorems": [
    "Redmapper.Batch.C331_numbers_partial",
    "Redmapper.Batch.C331_create",
    "Redmapper.Batch.C331_false",
    "Redmapper.Batch.C331_deleted_false"
   ],
   "note": "True of the first ten jobs of a name; every further job replaces the tenth. Also false after a file has been deleted."
  },
  {
   "property": "C332",
   "status": "partial",
   "theorems": [
    "Redmapper.Batch.C332_before_partial",
    "Redmapper.Batch.C332_complete",
    "Redmapper.Batch.C332_false"
   ],
   "note": "True of wrong arguments. Errors of the batch system leave a file that counts as a job; every PBS job ends in a NameError."
  },
  {
   "property": "C333",
   "status": "partial",
   "theorems": [
    "Redmapper.Batch.C333_load",
    "Redmapper.Batch.C333_false"
   ],
   "note": "Without a configuration a job for LSF is written."
  },
  {
   "property": "C334",
   "status": "partial",
   "theorems": [
    "Redmapper.Batch.C334_all_partial",
    "Redmapper.Batch.C334_false"
   ],
   "note": "Failures are never reported."
  },
  {
   "property": "C335",
   "status": "partial",
   "theorems": [
    "Redmapper.ConsFiles.C335_files_partial",
    "Redmapper.ConsFiles.C335_false",
    "Redmapper.ConsFiles.C335_empty_false"
   ],
   "note": "Proved if no two cuts have the same integer part (tenths for luminosities) and each selects a cluster. Otherwise cuts share files, and ids are replaced twice; an empty cut stops the consolidation."
  },
  {
   "property": "C336",
   "status": "partial",
   "theorems": [
    "Redmapper.ConsFiles.C336_plots_partial",
    "Redmapper.ConsFiles.C336_own_partial",
    "Redmapper.ConsFiles.C336_false"
   ],
   "note": "False if the base name has _catalog in it."
  },
  {
   "property": "C337",
   "status": "partial",
   "theorems": [
    "Redmapper.ConsFiles.C337_runcat_partial",
    "Redmapper.ConsFiles.C337_false"
   ],
   "note": "With plots, the default, it always ends with a NameError."
  },
  {
   "property": "C338",
   "status": "partial",
   "theorems": [
    "Redmapper.VlimMap.C338_partial",
    "Redmapper.VlimMap.C338_row",
    "Redmapper.VlimMap.C338_false"
   ],
   "note": "False: the colors are those of the next row of the table, at redshifts of the table too. Proved for the row that is used."
  },
  {
   "property": "C339",
   "status": "partial",
   "theorems": [
    "Redmapper.VlimMap.C339_partial",
    "Redmapper.VlimMap.C339_redshifts",
    "Redmapper.VlimMap.C339_false"
   ],
   "note": "False for ranges that are not a whole number of steps of 0.001: the largest redshift of a pixel can be up to a step above the run. Proved otherwise, for limits that increase with redshift."
  },
  {
   "property": "C340",
   "status": "partial",
   "theorems": [
    "Redmapper.VlimMap.C340_partial",
    "Redmapper.VlimMap.C340_false"
   ],
   "note": "False: the map is used. Proved for maps that are not shallower than the depth map."
  },
  {
   "property": "C341",
   "status": "partial",
   "theorems": [
    "Redmapper.RmSel.C341_partial",
    "Redmapper.RmSel.C341_last",
    "Redmapper.RmSel.C341_false"
   ],
   "note": "False for modes with a blank at the end of the name, which are never available. Proved otherwise, for directories written without a slash at the end."
  },
  {
   "property": "C342",
   "status": "partial",
   "theorems": [
    "Redmapper.RmSel.C342_partial",
    "Redmapper.RmSel.C342_false",
    "Redmapper.RmSel.C342_repeated"
   ],
   "note": "False for catalogs with another number of samples (ValueError) and for those without samples, where all samples of a galaxy are the same draw. Proved otherwise."
  },
  {
   "property": "C343",
   "status": "partial",
   "theorems": [
    "Redmapper.Zred.C343_partial",
    "Redmapper.Zred.C343_bound",
    "Redmapper.Zred.C343_agree",
    "Redmapper.Zred.C343_false"
   ],
   "note": "False for steep corrections, where the iteration runs away. Proved for tables that change by at most half the change of redshift; general bounds for any factor."
  },
  {
   "property": "C344",
   "status": "proved",
   "theorems": [
    "Redmapper.Zred.C344_chisq",
    "Redmapper.Zred.C344_lkhd"
   ],
   "note": ""
  },
  {
   "property": "C345",
   "status": "partial",
   "theorems": [
    "Redmapper.ColorRun.C345_partial",
    "Redmapper.ColorRun.C345_values",
    "Redmapper.ColorRun.C345_mode",
    "Redmapper.ColorRun.C345_false"
   ],
   "note": "False when calib_pcut is 0 or less: the richness -10 of a failed fit over the scale -1 passes the richness cut. Proved for positive cuts."
  },
  {
   "property": "C346",
   "status": "partial",
   "theorems": [
    "Redmapper.ColorRun.C346_partial",
    "Redmapper.ColorRun.C346_unused",
    "Redmapper.ColorRun.C346_false"
   ],
   "note": "False: calib_colormem_sigint is never used, the fit has its default of 0.05. Proved for that value."
  },
  {
   "property": "C347",
   "status": "proved",
   "theorems": [
    "Redmapper.DLambda.C347_first"
   ],
   "note": ""
  },
  {
   "property": "C348",
   "status": "partial",
   "theorems": [
    "Redmapper.DLambda.C348_partial",
    "Redmapper.DLambda.C348_error",
    "Redmapper.DLambda.C348_false"
   ],
   "note": "False after a correction of z_lambda, and for runs that keep the input redshift: the middle value is then the richness at another redshift. Proved when the recorded richness is the one at z_lambda; the exact error otherwise."
  },
  {
   "property": "C349",
   "status": "proved",
   "theorems": [
    "Redmapper.ErrModel.C349_noiseless",
    "Redmapper.ErrModel.C349_faint"
   ],
   "note": ""
  },
  {
   "property": "C350",
   "status": "partial",
   "theorems": [
    "Redmapper.ErrModel.C350_same",
    "Redmapper.ErrModel.C350_bias",
    "Redmapper.ErrModel.C350_false"
   ],
   "note": "False: one number is drawn for all galaxies, and its mean is the number of galaxies. Proved: what it does instead."
  },
  {
   "property": "C351",
   "status": "proved",
   "theorems": [
    "Redmapper.RmAfter.C351_history",
    "Redmapper.RmAfter.C351_fit"
   ],
   "note": ""
  },
  {
   "property": "C352",
   "status": "proved",
   "theorems": [
    "Redmapper.RmAfter.C352_counts",
    "Redmapper.RmAfter.C352_afterburner",
    "Redmapper.RmAfter.C352_none"
   ],
   "note": ""
  },
  {
   "property": "C353",
   "status": "partial",
   "theorems": [
    "Redmapper.RmAfter.C353_partial",
    "Redmapper.RmAfter.C353_stays",
    "Redmapper.RmAfter.C353_false"
   ],
   "note": "False of offsets above 0.1, the bound of the bias. Proved for offsets within it when the fit reaches the minimum, and that a right constant bias stays right for every minimizer."
  },
  {
   "property": "C354",
   "status": "proved",
   "theorems": [
    "Redmapper.ZredPz.C354_posterior",
    "Redmapper.ZredPz.C354_novolume"
   ],
   "note": ""
  },
  {
   "property": "C355",
   "status": "proved",
   "theorems": [
    "Redmapper.ZredPz.C355_bins"
   ],
   "note": ""
  },
  {
   "property": "C356",
   "status": "partial",
   "theorems": [
    "Redmapper.ZredPz.C356_partial",
    "Redmapper.ZredPz.C356_reset",
    "Redmapper.ZredPz.C356_false"
   ],
   "note": "False when corrections are applied: zred is corrected, its samples are not; and a galaxy that is reset keeps old samples. Proved for the uncorrected redshift, also where the interpolated density is negative, as long as it does not add up to zero."
  },
  {
   "property": "C357",
   "status": "partial",
   "theorems": [
    "Redmapper.LumFilt.C357_partial",
    "Redmapper.LumFilt.C357_deeper",
    "Redmapper.LumFilt.C357_false"
   ],
   "note": "False of limits beyond the magnitude table (reference luminosities below 0.1 at the end of the redshift range): the table is not extended, and the integral exceeds one. Proved within the table."
  },
  {
   "property": "C358",
   "status": "partial",
   "theorems": [
    "Redmapper.PhotMap.C358_partial",
    "Redmapper.PhotMap.C358_some",
    "Redmapper.PhotMap.C358_fractions",
    "Redmapper.PhotMap.C358_false"
   ],
   "note": "False of every list: the last bin is open above and ends at the largest photometric redshift, so the object there is in no cell. Proved of all others."
  },
  {
   "property": "C359",
   "status": "partial",
   "theorems": [
    "Redmapper.PhotMap.C359_partial",
    "Redmapper.PhotMap.C359_single",
    "Redmapper.PhotMap.C359_false"
   ],
   "note": "False on the edges of bins, where nothing is drawn. Proved off the edges; with one photometric redshift the map is empty."
  },
  {
   "property": "C360",
   "status": "partial",
   "theorems": [
    "Redmapper.PhotMap.C360_partial",
    "Redmapper.PhotMap.C360_wide",
    "Redmapper.PhotMap.C360_false"
   ],
   "note": "False of areas across zero: they are shown at right ascensions off by 180 degrees. Proved: all are turned by one angle, and areas on less than half a circle keep their width."
  },
  {
   "property": "C361",
   "status": "partial",
   "theorems": [
    "Redmapper.PhotMap.C361_partial",
    "Redmapper.PhotMap.C361_false"
   ],
   "note": "False of modes other than the faintest: the galaxies of all modes are counted. Proved that what is warned of is too little for the mode, and that the warning is complete when all galaxies are bright enough."
  },
  {
   "property": "C362",
   "status": "proved",
   "theorems": [
    "Redmapper.PhotMap.C362_plot"
   ],
   "note": ""
  },
  {
   "property": "C363",
   "status": "partial",
   "theorems": [
    "Redmapper.RsDiag.C363_points",
    "Redmapper.RsDiag.C363_bins",
    "Redmapper.RsDiag.C363_outliers",
    "Redmapper.RsDiag.C363_partial",
    "Redmapper.RsDiag.C363_false"
   ],
   "note": "False of bins in which no galaxy is within three errors of the median: they are left out. Proved that every point is as stated, and that all other bins have one."
  },
  {
   "property": "C364",
   "status": "partial",
   "theorems": [
    "Redmapper.RsDiag.C364_partial",
    "Redmapper.RsDiag.C364_false"
   ],
   "note": "False of bins whose width is zero (one galaxy, or most pulls equal): they are not drawn. Proved of all others."
  },
  {
   "property": "C365",
   "status": "partial",
   "theorems": [
    "Redmapper.RsDiag.C365_range",
    "Redmapper.RsDiag.C365_partial",
    "Redmapper.RsDiag.C365_false"
   ],
   "note": "False of two galaxies or fewer, or of one magnitude: no galaxy is strictly within the range and the histogram raises. Proved of the range, and that the plot is made exactly if a galaxy is within it."
  },
  {
   "property": "C366",
   "status": "proved",
   "theorems": [
    "Redmapper.RsDiag.C366_raw",
    "Redmapper.RsDiag.C366_fit"
   ],
   "note": ""
  },
  {
   "property": "C367",
   "status": "partial",
   "theorems": [
    "Redmapper.Perc.C367_share",
    "Redmapper.Perc.C367_partial",
    "Redmapper.Perc.C367_pairs",
    "Redmapper.Perc.C367_false"
   ],
   "note": "False of a galaxy in three clusters or more: each takes its full probability, what is left becomes negative, and so does its membership in the next cluster. Proved: every membership is a share of probability times what is left; all of the claim for clusters whose galaxies are not used up, in particular if no galaxy is in more than two clusters."
  },
  {
   "property": "C368",
   "status": "partial",
   "theorems": [
    "Redmapper.Perc.C368_formula",
    "Redmapper.Perc.C368_partial",
    "Redmapper.Perc.C368_false"
   ],
   "note": "False of the same clusters: the variance of the members becomes negative (the error is then not a number). Proved where no galaxy has been used up."
  },
  {
   "property": "C369",
   "status": "proved",
   "theorems": [
    "Redmapper.Perc.C369_kept",
    "Redmapper.Perc.C369_values"
   ],
   "note": ""
  },
  {
   "property": "C370",
   "status": "partial",
   "theorems": [
    "Redmapper.Perc.C370_partial",
    "Redmapper.Perc.C370_false"
   ],
   "note": "False of galaxies fainter than the masking limit, which nevertheless count in the richness if their errors reach over its limit. Proved, for a hard edge, of every galaxy brighter than the masking limit of the clusters it is near, whatever the number of clusters."
  },
  {
   "property": "C371",
   "status": "partial",
   "theorems": [
    "Redmapper.PercCen.C371_partial",
    "Redmapper.PercCen.C371_false"
   ],
   "note": "False of clusters not centered on a galaxy: the index -1 of the center takes the availability of the last neighbour, however far, for that of the center. Proved of clusters centered on a neighbour."
  },
  {
   "property": "C372",
   "status": "partial",
   "theorems": [
    "Redmapper.PercCen.C372_partial",
    "Redmapper.PercCen.C372_false"
   ],
   "note": "False of a cluster whose members are all as near to the center as the nearest: its values are reset but it is not reported bad, and the derivative of its richness that follows sets a negative redshift, which raises. Proved for a hard edge, a minimum richness above one, two iterations or more (or kept redshifts) and a single nearest neighbour."
  },
  {
   "property": "C373",
   "status": "partial",
   "theorems": [
    "Redmapper.PercCen.C373_partial",
    "Redmapper.PercCen.C373_redshift",
    "Redmapper.PercCen.C373_false"
   ],
   "note": "False for one iteration without kept redshifts: the redshift moves after the richness is computed. Proved for two iterations or more, or kept redshifts, and a minimum richness above one."
  },
  {
   "property": "C374",
   "status": "partial",
   "theorems": [
    "Redmapper.PercRun.C374_partial",
    "Redmapper.PercRun.C374_recorded",
    "Redmapper.PercRun.C374_false"
   ],
   "note": "False of a galaxy that is a member of the cluster it is the center of with a probability no larger than one minus the availability cut: it remains available as a center. Proved for runs in which every central galaxy is a member beyond that, and brighter than the masking limit. That every cluster kept has one center recorded is proved without this."
  },
  {
   "property": "C375",
   "status": "proved",
   "theorems": [
    "Redmapper.PercRun.C375"
   ],
   "note": "For a minimum richness above one, a positive cut, and neighbour lists without repetitions."
  },
  {
   "property": "C376",
   "status": "partial",
   "theorems": [
    "Redmapper.Tiles.C376_partial",
    "Redmapper.Tiles.C376_false"
   ],
   "note": "False: clusters that share galaxies form chains, and a cluster beyond the border decides, through those between, about a cluster in the pixel; borders are made for single clusters. Proved for tiles that have, with their galaxies, all clusters connected by chains to those in their pixel."
  },
  {
   "property": "C377",
   "status": "proved",
   "theorems": [
    "Redmapper.Tiles.C377"
   ],
   "note": ""
  },
  {
   "property": "C378",
   "status": "proved",
   "theorems": [
    "Redmapper.FlSolver.C378",
    "Redmapper.FlSolver.r64_rounding"
   ],
   "note": "For every rounding that satisfies the small contract `Rounding`; `r64_rounding` proves that IEEE 754 binary64, round to nearest even, satisfies it."
  },
  {
   "property": "C379",
   "status": "proved",
   "theorems": [
    "Redmapper.FlSolver.C379_memberships",
    "Redmapper.FlSolver.C379_weights",
    "Redmapper.FlSolver.r64_rounding"
   ],
   "note": "nfwnorm (an exponential) is not negative; the soft step lies in [0,1]."
  },
  {
   "property": "C380",
   "status": "proved",
   "theorems": [
    "Redmapper.FlSolver.C380_start",
    "Redmapper.FlSolver.C380_soft",
    "Redmapper.FlSolver.C380_reported"
   ],
   "note": ""
  },
  {
   "property": "C381",
   "status": "proved",
   "theorems": [
    "Redmapper.FlSolver.C381"
   ],
   "note": ""
  },
  {
   "property": "C382",
   "status": "proved",
   "theorems": [
    "Redmapper.FlSolver.C382",
    "Redmapper.FlSolver.r64_rounding"
   ],
   "note": ""
  },
  {
   "property": "C383",
   "status": "partial",
   "theorems": [
    "Redmapper.FlSolver.C383_partial",
    "Redmapper.FlSolver.C383_false"
   ],
   "note": "False: five galaxies in two orders with different richness, evaluated with IEEE 754 rounding in the kernel. Proved if the weights are multiples of 2^-30. (C06 proves the property for exact arithmetic.)"
  },
  {
   "property": "C384",
   "status": "proved",
   "theorems": [
    "Redmapper.FlExact.C384"
   ],
   "note": "Links the exact model `Solver` (C01 to C10) with the floating point model `FlSolver`."
  },
  {
   "property": "C385",
   "status": "proved",
   "theorems": [
    "Redmapper.FlExact.C385"
   ],
   "note": ""
  },
  {
   "property": "C386",
   "status": "proved",
   "theorems": [
    "Redmapper.FlExact.C386",
    "Redmapper.FlExact.r64_accurate"
   ],
   "note": "Values of pow, log and exp (radius, normalisation) are taken as given, the same in both computations; errors of erf at the edge and of the mask polynomial enter as bounds."
  },
  {
   "property": "C387",
   "status": "proved",
   "theorems": [
    "Redmapper.FlExact.C387_equal",
    "Redmapper.FlExact.C387_close",
    "Redmapper.FlExact.r64_accurate"
   ],
   "note": "As C386."
  },
  {
   "property": "C388",
   "status": "partial",
   "theorems": [
    "Redmapper.FlBins.C388_partial",
    "Redmapper.FlBins.C388_false"
   ],
   "note": "False: redshifts from 0.1 to 0.4 in bins of 0.02 are 16 bins, the last of which starts at the end of the range. Proved: N or N + 1 bins, never fewer."
  },
  {
   "property": "C389",
   "status": "proved",
   "theorems": [
    "Redmapper.FlBins.C389"
   ],
   "note": "np.round instead of np.ceil."
  },
  {
   "property": "C390",
   "status": "partial",
   "theorems": [
    "Redmapper.FlBins.C390_partial",
    "Redmapper.FlBins.C390_false"
   ],
   "note": "False for sizes such as 1/93, for which int(1./size) is 92: the redshift of bin 47 is looked up in bin 46. Proved for sizes that are recognised (those of usual configurations are, evaluated in the kernel)."
  },
  {
   "property": "C391",
   "status": "proved",
   "theorems": [
    "Redmapper.FlBins.C391"
   ],
   "note": ""
  },
  {
   "property": "C392",
   "status": "proved",
   "theorems": [
    "Redmapper.FlBins.C392"
   ],
   "note": ""
  },
  {
   "property": "C393",
   "status": "proved",
   "theorems": [
    "Redmapper.FlSample.C393"
   ],
   "note": "The three places with this code have the same model. np.sum enters with a bound of its relative error."
  },
  {
   "property": "C394",
   "status": "partial",
   "theorems": [
    "Redmapper.FlSample.C394_partial",
    "Redmapper.FlSample.C394_false"
   ],
   "note": "False of the first point: random numbers below 1/n find it even if its density is zero. Proved of all other points."
  },
  {
   "property": "C395",
   "status": "proved",
   "theorems": [
    "Redmapper.FlErr.C395",
    "Redmapper.FlErr.C395_solver",
    "Redmapper.FlErr.C395_limit"
   ],
   "note": "C395_solver joins it to the solver in floating point. The limit of the sum is needed: C395_limit. The masking error enters as a number."
  },
  {
   "property": "C396",
   "status": "proved",
   "theorems": [
    "Redmapper.FlNodes.C396"
   ],
   "note": "np.arange enters with its documented algorithm (count by ceil, values start + i*delta)."
  },
  {
   "property": "C397",
   "status": "proved",
   "theorems": [
    "Redmapper.PixRun.C397",
    "Redmapper.PixRun.C397_written",
    "Redmapper.PixRun.through_iff"
   ],
   "note": "composition of first pass, likelihoods and percolation; Descends and Eligible are the specification"
  },
  {
   "property": "C398",
   "status": "partial",
   "theorems": [
    "Redmapper.PixRun.C398_partial",
    "Redmapper.PixRun.C398_keepz_false",
    "Redmapper.PixRun.C398_once"
   ],
   "note": "true in the spectroscopic mode with a seed file; otherwise the recorded redshift is the photometric one of the first stage even if redshifts are to be kept"
  },
  {
   "property": "C399",
   "status": "partial",
   "theorems": [
    "Redmapper.PixRun.C399_partial",
    "Redmapper.PixRun.C399_false"
   ],
   "note": "a membership of exactly one makes the likelihood infinite and the cluster is dropped as not finite"
  },
  {
   "property": "C400",
   "status": "partial",
   "theorems": [
    "Redmapper.PixRun.C400_partial",
    "Redmapper.PixRun.C400_uncalibrated_false"
   ],
   "note": "true with a calibrated centering; otherwise the total likelihood stays zero and the order is that of the sort of equal values"
  },
  {
   "property": "C401",
   "status": "proved",
   "theorems": [
    "Redmapper.FlSpline.C401"
   ],
   "note": "for every rounding with the properties Rounding and Accurate (r64_rounding, r64_accurate); the third power is exact at 0 and 1"
  },
  {
   "property": "C402",
   "status": "partial",
   "theorems": [
    "Redmapper.FlSpline.C402_partial",
    "Redmapper.FlSpline.C402_node_false"
   ],
   "note": "exact at the first node; at the others only within 2^-48 of the greatest value (value 1 followed by 2^-60 gives 0)"
  },
  {
   "property": "C403",
   "status": "proved",
   "theorems": [
    "Redmapper.FlSpline.C403",
    "Redmapper.FlSpline.C403_between"
   ],
   "note": "for every rounding with the properties Rounding and Accurate"
  },
  {
   "property": "C404",
   "status": "proved",
   "theorems": [
    "Redmapper.FlSpline.C404"
   ],
   "note": "the third power of the library is accurate within CubeOK"
  },
  {
   "property": "C405",
   "status": "partial",
   "theorems": [
    "Redmapper.LikeCen.C405_partial",
    "Redmapper.LikeCen.C405_inside",
    "Redmapper.LikeCen.C405_false",
    "Redmapper.LikeCen.C405_stop_false",
    "Redmapper.LikeCen.C405_rejected"
   ],
   "note": "the connectivity is the logarithm of a mean that softening can bring below one; its logarithm is then not a number and percolation drops the cluster; at exactly one, or with an underflow, the run ends because warnings are errors there. Proved: what happens in each case, and a finite likelihood if all softened distances are below r_lambda"
  },
  {
   "property": "C406",
   "status": "proved",
   "theorems": [
    "Redmapper.LikeCen.C406"
   ],
   "note": ""
  },
  {
   "property": "C407",
   "status": "proved",
   "theorems": [
    "Redmapper.LikeCen.C407",
    "Redmapper.LikeCen.C407_ties_false"
   ],
   "note": "with ties for the nearest galaxy the order counts (witness)"
  },
  {
   "property": "C408",
   "status": "proved",
   "theorems": [
    "Redmapper.LikeCen.C408"
   ],
   "note": ""
  },
  {
   "property": "C409",
   "status": "partial",
   "theorems": [
    "Redmapper.Chisq.C409_partial",
    "Redmapper.Chisq.C409_false"
   ],
   "note": "the eigenvalues come from gsl_eigen_symm and the eigenvectors from gsl_eigen_symmv, both documented as unordered; true if the two list them in the same order (SameOrder), otherwise variances are given to the wrong directions (witness)"
  },
  {
   "property": "C410",
   "status": "proved",
   "theorems": [
    "Redmapper.Fl32.C410",
    "Redmapper.Fl32.C410_cut"
   ],
   "note": "for probabilities between zero and one (C379) and any doubles"
  },
  {
   "property": "C411",
   "status": "partial",
   "theorems": [
    "Redmapper.Fl32.C411_partial",
    "Redmapper.Fl32.C411_cut_partial",
    "Redmapper.Fl32.C411_lost_false",
    "Redmapper.Fl32.C411_false"
   ],
   "note": "false: small amounts are lost once half of the galaxy has been taken, without bound (witness); proved up to (k+1)^2/2^23 after k clusters"
  },
  {
   "property": "C412",
   "status": "partial",
   "theorems": [
    "Redmapper.Fl32.C412_partial",
    "Redmapper.Fl32.C412_false"
   ],
   "note": "failed clusters and those without a number are left out, and every likelihood above -9e10 is kept; false only of likelihoods next to -1e11 and of an infinite one"
  },
  {
   "property": "C413",
   "status": "partial",
   "theorems": [
    "Redmapper.Fl32.C413_partial",
    "Redmapper.Fl32.C413_false"
   ],
   "note": "false: likelihoods that round to the same number may be in any order; proved up to rounding errors"
  },
  {
   "property": "C414",
   "status": "partial",
   "theorems": [
    "Redmapper.Fl32.C414_sound",
    "Redmapper.Fl32.C414_nan",
    "Redmapper.Fl32.C414_partial",
    "Redmapper.Fl32.C414_false"
   ],
   "note": "no cluster outside is ever used, for all limits; clusters inside by less than rounding errors are lost (witness)"
  },
  {
   "property": "C415",
   "status": "proved",
   "theorems": [
    "Redmapper.Fl32.C415",
    "Redmapper.Fl32.C415_rows"
   ],
   "note": ""
  },
  {
   "property": "C416",
   "status": "proved",
   "theorems": [
    "Redmapper.ConsSpec.C416",
    "Redmapper.ConsSpec.C416_runcat"
   ],
   "note": "Redshifts are exact; the matcher of the library is the closest position within the radius."
  },
  {
   "property": "C417",
   "status": "partial",
   "theorems": [
    "Redmapper.ConsSpec.C417_partial",
    "Redmapper.ConsSpec.C417_lost",
    "Redmapper.ConsSpec.C417_false"
   ],
   "note": "Proved for all clusters, and for members that are in the pixel of the files they are recorded in. False for members across the border of the pixel: the truth is read without border, so that they get -1 although their galaxy is in the mock catalog."
  },
  {
   "property": "C418",
   "status": "partial",
   "theorems": [
    "Redmapper.ConsSpec.C418_partial",
    "Redmapper.ConsSpec.C418_runcat",
    "Redmapper.ConsSpec.C418_false"
   ],
   "note": "True of the consolidation of catalog runs, and of cluster finder runs on data. False of cluster finder runs on a mock catalog, for which the truth is matched whatever the flag."
  },
  {
   "property": "C419",
   "status": "proved",
   "theorems": [
    "Redmapper.ConsSpec.C419",
    "Redmapper.ConsSpec.C419_runcat"
   ],
   "note": ""
  },
  {
   "property": "C420",
   "status": "partial",
   "theorems": [
    "Redmapper.IdWidth.C420_partial",
    "Redmapper.IdWidth.C420_other",
    "Redmapper.IdWidth.C420_shared",
    "Redmapper.IdWidth.C420_false",
    "Redmapper.IdWidth.C420_mixed_false"
   ],
   "note": "Proved for ids of 32 bits. False for others: a catalog keeps the type of its own id column, but the member table has 32 bits; members of clusters with larger ids are dropped when members are matched to clusters, or appear under another cluster whose id differs by a multiple of 2^32."
  },
  {
   "property": "C421",
   "status": "partial",
   "theorems": [
    "Redmapper.IdWidth.C421_partial",
    "Redmapper.IdWidth.C421_distinct",
    "Redmapper.IdWidth.C421_false"
   ],
   "note": "Proved for fewer than 2^31 points; false for any larger number, for which ids are negative (different up to 2^32)."
  },
  {
   "property": "C422",
   "status": "proved",
   "theorems": [
    "Redmapper.Survey.C422",
    "Redmapper.Survey.C422_empty"
   ],
   "note": "Composition of PixRun, Runner and Consolidate without assumptions on what one stage hands to the next; `select_scaleval` off (C19); distributed run of one tile per pixel."
  },
  {
   "property": "C423",
   "status": "proved",
   "theorems": [
    "Redmapper.Survey.C423"
   ],
   "note": ""
  },
  {
   "property": "C424",
   "status": "proved",
   "theorems": [
    "Redmapper.Survey.C424"
   ],
   "note": "The clusters of the pixel; their ids depend on the likelihoods of the others."
  },
  {
   "property": "C425",
   "status": "partial",
   "theorems": [
    "Redmapper.TileSum.C425_partial",
    "Redmapper.TileSum.C425_chains",
    "Redmapper.TileSum.C425_false"
   ],
   "note": "False in general, also with a border of galaxies and neighbouring clusters around every pixel (C425_false: four clusters in a chain). Proved: at most one for each tile that has read the galaxy; at most one in all if every tile has all chains of clusters that share galaxies with those of its pixel. Both under the hypotheses of C370 (hard edge, galaxy brighter than the masking limit)."
  },
  {
   "property": "C426",
   "status": "partial",
   "theorems": [
    "Redmapper.TileSum.C426_partial",
    "Redmapper.TileSum.C426_tiles",
    "Redmapper.TileSum.C426_false"
   ],
   "note": "Tiles add no further case: two clusters with the same central galaxy come from one tile (C426_tiles). Within a tile the guard of C374 is needed (center used up beyond the cut; C426_false)."
  },
  {
   "property": "C427",
   "status": "proved",
   "theorems": [
    "Redmapper.Config.C427_values",
    "Redmapper.Config.C427_history"
   ],
   "note": "Construction only; later changes to one configuration are seen through all others (C37)."
  },
  {
   "property": "C428",
   "status": "proved",
   "theorems": [
    "Redmapper.ColorFit.C428_refused",
    "Redmapper.ColorFit.C428_probabilities",
    "Redmapper.ColorFit.argminR_innermost"
   ],
   "note": "Over an ordered field; polyfit, median, the Gaussian and the background are parameters. pcol is stated for galaxies off the exact center, where the code divides by the radius."
  },
  {
   "property": "C429",
   "status": "partial",
   "theorems": [
    "Redmapper.MaskErr.C429_value",
    "Redmapper.MaskErr.C429_partial",
    "Redmapper.MaskErr.C429_false"
   ],
   "note": "The value is proved in full. Monotone from richness 2 on; at richness 1 it is false (C429_false: with everything lost v = 1 and the error vanishes). The square root is a parameter with its defining property; beta gamma < 1."
  },
  {
   "property": "C430",
   "status": "partial",
   "theorems": [
    "Redmapper.Centering.C430_partial",
    "Redmapper.Centering.C430_least",
    "Redmapper.Centering.C430_false"
   ],
   "note": "False: draws and cumulative sums are rounded down to multiples of one over the number of neighbours, and the least probable of two or more neighbours is never chosen (C430_least), however probable it is. Proved: the probability differs from the share by at most one over the number of neighbours. Exact arithmetic."
  },
  {
   "property": "C431",
   "status": "partial",
   "theorems": [
    "Redmapper.ZredFile.C431_file",
    "Redmapper.ZredFile.C431_partial",
    "Redmapper.ZredFile.C431_twice",
    "Redmapper.ZredFile.C431_false",
    "Redmapper.ZredFile.C431_whole"
   ],
   "note": "The file is proved for every galaxy table. Reading is proved when the galaxy file has no column of a zred file; with one, the file is written but reading raises ValueError (C431_twice, C431_false). C431_whole is the same for files that are not pixelated. Cells are opaque; one pixel, no truth columns."
  },
  {
   "property": "C432",
   "status": "proved",
   "theorems": [
    "Redmapper.MemReport.C432",
    "Redmapper.MemReport.C432_location"
   ],
   "note": "Lines as lists of words; int() and str.lower are parameters; exact quotient by 1000."
  },
  {
   "property": "C433",
   "status": "proved",
   "theorems": [
    "Redmapper.ConsFiles.C433",
    "Redmapper.ConsFiles.C433_number",
    "Redmapper.ConsFiles.C433_script"
   ],
   "note": "An empty list of volume limits counts as none given, as documented; the script therefore cannot ask for none when the configuration has some (C433_script)."
  },
  {
   "property": "C434",
   "status": "partial",
   "theorems": [
    "Redmapper.GalMaker.C434_refused",
    "Redmapper.GalMaker.C434_success",
    "Redmapper.GalMaker.C434_again",
    "Redmapper.GalMaker.C434_partial",
    "Redmapper.GalMaker.C434_failed",
    "Redmapper.GalMaker.C434_false"
   ],
   "note": "False for an error raised while the galaxies are written: a repeated call of the same maker writes the galaxies of the earlier pixels a second time, and with generated ids the catalog is finalized with the copies. Proved for errors in the checks; success, refusal and the absence of a master table after an error are proved in general. Serial mode."
  },
  {
   "property": "C435",
   "status": "partial",
   "theorems": [
    "Redmapper.GalMaker.C435_success",
    "Redmapper.GalMaker.C435_partial",
    "Redmapper.GalMaker.C435_false"
   ],
   "note": "False for points with a repeated id: nothing is checked before writing, and the master table is left behind when the ids are checked, so every later call raises (proved for all such points). Proved for different ids. Serial mode."
  },
  {
   "property": "C436",
   "status": "proved",
   "theorems": [
    "Redmapper.MakerInit.C436",
    "Redmapper.MakerInit.C436_errors"
   ],
   "note": "The mask file, read afterwards, is not modelled."
  },
  {
   "property": "C437",
   "status": "partial",
   "theorems": [
    "Redmapper.MakerInit.C437_values",
    "Redmapper.MakerInit.C437_partial",
    "Redmapper.MakerInit.C437_false"
   ],
   "note": "False: the missing entries are added to the dictionary of the caller, and a galaxy catalog maker that refused the dictionary accepts it afterwards (proved for every dictionary without one of them). Proved: the values, that given entries are kept and that no other entry is added."
  }
 ]
}