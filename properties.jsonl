{"id": "C01", "title": "Richness is -1 or lies in [1, 2000)", "statement": "For every input, Solver.solve_nfw returns either lambda = -1 together with r_lambda = -1, or a lambda with 1 <= lambda < 2000 together with r_lambda equal to the radius-richness relation evaluated at that lambda.", "quantifier": "all galaxy lists (any length), all u, b, r, w, cpars, rsig, r0, beta", "why_tests_cant": "A test samples a few clusters; the bracket and the failure sentinel must be respected for every neighbour list, including empty and pathological ones.", "anchors": ["redmapper/solver_nfw/solver_nfw.c:solver_nfw", "redmapper/solver_nfw/nfw_weights.c:nfw_weights"]}
{"id": "C02", "title": "Richness solver terminates after exactly 17 bisection steps", "statement": "With the tolerance compiled into the extension (0.01) the solver performs exactly 17 bisection steps on every input, so it can never hang.", "quantifier": "all inputs", "why_tests_cant": "Termination and step counts quantify over all inputs, including those where the weights never cross the identity line.", "anchors": ["redmapper/solver_nfw/solver_nfw.c:solver_nfw", "redmapper/solver_nfw/solver_nfw.h:TOL_DEFAULT"]}
{"id": "C03", "title": "A reported richness brackets a self-consistent solution", "statement": "Whenever solve_nfw returns lambda >= 2, there is an interval of width at most 2*tol centred on lambda at whose lower end the predicted richness (sum of weights + mask correction) exceeds the trial richness (or the lower end is the initial 0.5), and at whose upper end it does not exceed it (or the upper end is the initial 2000).", "quantifier": "all galaxy lists and parameters with reported lambda >= 2", "why_tests_cant": "The bracketing invariant must survive every sequence of bisection decisions.", "anchors": ["redmapper/solver_nfw/solver_nfw.c:solver_nfw"]}
{"id": "C04", "title": "Membership probabilities and weights lie in [0,1]", "statement": "If u and b are non-negative and w is in [0,1], then every returned p, wt and theta_r of solve_nfw lies in [0,1], and wt <= p.", "quantifier": "all galaxy lists and parameters satisfying the sign conditions", "why_tests_cant": "Probability bounds must hold for each galaxy of each possible cluster; 0/0 and overflow branches are rarely sampled.", "anchors": ["redmapper/solver_nfw/nfw_weights.c:nfw_weights", "redmapper/solver_nfw/solver_nfw.c:solver_nfw"]}
{"id": "C05", "title": "Hard radial cut: weight only inside r_lambda, and theta_r says so", "statement": "With rsig <= 0, every galaxy with non-zero returned weight lies strictly inside the radius of the returned richness, and theta_r is 1 exactly for those inside and 0 outside.", "quantifier": "all galaxy lists with rsig <= 0", "why_tests_cant": "theta_r is written incrementally across bisection steps, so whether a stale value survives depends on the whole history of trial richnesses.", "anchors": ["redmapper/solver_nfw/nfw_weights.c:nfw_weights", "redmapper/solver_nfw/solver_nfw.c:solver_nfw"]}
{"id": "C06", "title": "Richness does not depend on the order of the galaxies", "statement": "Permuting the neighbour list permutes p, wt and theta_r the same way and leaves lambda and r_lambda unchanged.", "quantifier": "all galaxy lists and all permutations of them", "why_tests_cant": "n! permutations of arbitrarily long lists cannot be enumerated.", "anchors": ["redmapper/solver_nfw/solver_nfw.c:solver_nfw"]}
{"id": "C07", "title": "Galaxies with zero weight never influence the richness", "statement": "Removing any set of neighbours whose w (theta_i * p_free) is 0 leaves lambda, r_lambda and the p, wt, theta_r of all other neighbours unchanged.", "quantifier": "all galaxy lists and all subsets of zero-weight galaxies", "why_tests_cant": "Quantifies over all subsets of all lists.", "anchors": ["redmapper/solver_nfw/solver_nfw.c:solver_nfw", "redmapper/cluster.py:calc_richness"]}
{"id": "C08", "title": "Solver rejects inconsistent inputs and only those", "statement": "Constructing Solver raises ValueError exactly when bcounts, r or w differ in length from ucounts, or cpars does not have 4 elements.", "quantifier": "all combinations of array lengths", "why_tests_cant": "All combinations of lengths are infinitely many.", "anchors": ["redmapper/solver_nfw/solver_nfw_lib.py:Solver.__init__", "redmapper/solver_nfw/solver_nfw_pywrap.c:SolverObject_init"]}
{"id": "C09", "title": "Percolation never makes a galaxy more available, and never over-uses it", "statement": "During a run with percolation masking, the availability 1 - pgal of every galaxy never increases as clusters are processed, starts at 1, and stays within [0,1].", "quantifier": "all sequences of processed clusters (any number, any overlap) and all their member probabilities", "why_tests_cant": "The property is an invariant over arbitrarily long histories of overlapping clusters.", "anchors": ["redmapper/cluster_runner.py:ClusterRunner.run"]}
{"id": "C10", "title": "Each cluster's result depends only on clusters processed before it", "statement": "In a masking run, the recorded result of the k-th cluster is a function of the first k clusters only; appending or changing later clusters never changes earlier results.", "quantifier": "all cluster lists, all positions k, all continuations", "why_tests_cant": "Causality over all continuations cannot be sampled.", "anchors": ["redmapper/cluster_runner.py:ClusterRunner.run", "redmapper/run_percolation.py:RunPercolation"]}
{"id": "C11", "title": "Generated mem_match_ids are unique", "statement": "After id generation every cluster of the catalog has a distinct mem_match_id: pre-existing unique ids are kept, all-equal ids are replaced by 1..n, anything else raises RuntimeError.", "quantifier": "all input catalogs", "why_tests_cant": "All id multisets of all sizes.", "anchors": ["redmapper/cluster_runner.py:ClusterRunner._generate_mem_match_ids"]}
{"id": "C12", "title": "Output catalog and member catalog agree", "statement": "After a run, the cluster catalog holds exactly the clusters with Lambda >= min_lambda in their original order, and the member catalog holds exactly the recorded members whose mem_match_id is that of a kept cluster; no member is orphaned and no member of a kept cluster is lost.", "quantifier": "all catalogs and all member lists", "why_tests_cant": "Referential integrity must hold for every catalog.", "anchors": ["redmapper/cluster_runner.py:ClusterRunner._postprocess"]}
{"id": "C13", "title": "Clusters flagged bad carry the bad sentinel and never contribute members or masking", "statement": "For every cluster that a run declares bad (no neighbours, fully masked, or rejected by processing), Lambda is -1, no member is recorded for it and no galaxy availability changes.", "quantifier": "all catalogs, all processing outcomes", "why_tests_cant": "All outcome sequences.", "anchors": ["redmapper/cluster_runner.py:ClusterRunner.run", "redmapper/cluster_runner.py:ClusterRunner._reset_bad_values"]}
{"id": "C14", "title": "Masking radius is never below the richness radius", "statement": "Whenever a good cluster is masked, the radius used for masking is at least its richness radius r_lambda.", "quantifier": "all clusters and configuration exponents", "why_tests_cant": "All parameter values.", "anchors": ["redmapper/cluster_runner.py:ClusterRunner.run"]}
{"id": "C15", "title": "Cluster ranking is by decreasing likelihood unless ids are kept", "statement": "RunPercolation processes clusters in order of decreasing lnlike (or increasing mem_match_id with keepid), as a permutation of exactly the clusters inside the redshift range.", "quantifier": "all seed catalogs", "why_tests_cant": "All permutations and ties.", "anchors": ["redmapper/run_percolation.py:RunPercolation._more_setup"]}
{"id": "C16", "title": "Combined likelihood is the sum of the central and richness likelihoods", "statement": "After RunLikelihoods every surviving cluster has lnlike = lnbcglike + lnlamlike.", "quantifier": "all catalogs and both calibration states of the centering model", "why_tests_cant": "Depends on configuration branches per cluster.", "anchors": ["redmapper/run_likelihoods.py:RunLikelihoods._process_cluster"]}
{"id": "C17", "title": "Consolidation assigns ids 1..n by decreasing likelihood", "statement": "RedmapperRun consolidation outputs clusters sorted by decreasing lnlike with mem_match_id = 1..n, each input cluster that passes the cut exactly once.", "quantifier": "all lists of per-pixel catalogs", "why_tests_cant": "All partitions of clusters over pixels and all orders.", "anchors": ["redmapper/redmapper_run.py:RedmapperRun._consolidate"]}
{"id": "C18", "title": "Consolidation renumbers members consistently", "statement": "After consolidation every member row carries the new id of the very cluster it was recorded for, members of dropped clusters are dropped, and no member of a kept cluster is lost, even though per-pixel ids collide between pixels.", "quantifier": "all lists of per-pixel catalogs with arbitrary (colliding) per-pixel ids", "why_tests_cant": "Collisions over arbitrarily many pixels.", "anchors": ["redmapper/redmapper_run.py:RedmapperRun._consolidate"]}
{"id": "C19", "title": "Distributed consolidation keeps one id per cluster across all output catalogs", "statement": "RedmapperConsolidateTask gives each surviving cluster one id, and that id is the same in the full catalog, in every lambda-cut catalog and in the member files.", "quantifier": "all per-pixel files, all lambda cuts", "why_tests_cant": "All combinations of pixels and cuts.", "anchors": ["redmapper/pipeline/redmapperconsolidatetask.py:RedmapperConsolidateTask.run"]}
{"id": "C20", "title": "A cluster is attributed to exactly one pixel", "statement": "When a region is split into pixels, each cluster position belongs to exactly one pixel job, so consolidation neither duplicates nor loses clusters in border overlaps.", "quantifier": "all splits and positions", "why_tests_cant": "All positions on the sky and all splits.", "anchors": ["redmapper/redmapper_run.py:RedmapperRun._get_pixel_splits", "redmapper/redmapper_run.py:RedmapperRun._get_subpixels"]}
{"id": "C21", "title": "Catalog append/extend behave like list concatenation", "statement": "Catalog.append yields the rows of the two operands in order and nothing else changes; extend(n) adds n zero-filled rows after the existing ones; any sequence of appends and extends therefore behaves like list concatenation; appending a table with different columns raises and leaves the catalog unchanged.", "quantifier": "all catalogs and all sequences of append/extend operations", "why_tests_cant": "All lengths and groupings.", "anchors": ["redmapper/catalog.py:Catalog.append", "redmapper/catalog.py:Catalog.extend"]}
{"id": "C22", "title": "Adding columns never changes existing columns", "statement": "add_fields keeps every existing column value of every row, adds the new columns as zeros, and rejects duplicate names or mismatched sizes.", "quantifier": "all catalogs and column lists", "why_tests_cant": "All schemas and sizes.", "anchors": ["redmapper/catalog.py:DataObject.add_fields", "redmapper/catalog.py:DataObject._merge_arrays"]}
{"id": "C23", "title": "to_fits_file(indices=...) writes exactly the requested rows", "statement": "Writing a catalog with an index array writes exactly those rows in that order.", "quantifier": "all catalogs (including one-row catalogs) and all index arrays", "why_tests_cant": "All sizes including the degenerate ones.", "anchors": ["redmapper/catalog.py:DataObject.to_fits_file"]}
{"id": "C24", "title": "Centering probabilities are normalised", "statement": "For every set of candidate centers with probabilities not all degenerate, the P_cen of the candidates sum to 1, and Q_cen of the candidates plus the missed-center probability sum to 1; all lie in [0,1].", "quantifier": "all numbers of candidates and all candidate probabilities", "why_tests_cant": "All candidate sets of any size.", "anchors": ["redmapper/centering.py:CenteringWcenZred.find_center"]}
{"id": "C25", "title": "BCG centering selects a bright red member", "statement": "CenteringBCG, when it succeeds, returns a neighbour that passes the zred and radius cuts and has minimum refmag among those that pass; it fails exactly when none passes.", "quantifier": "all neighbour lists", "why_tests_cant": "All lists.", "anchors": ["redmapper/centering.py:CenteringBCG.find_center"]}
{"id": "C26", "title": "Linear interpolation reproduces its nodes and is local", "statement": "interpol(v, x, xout) returns v[i] at xout = x[i], stays between the two neighbouring node values inside the grid, and extrapolates linearly outside.", "quantifier": "all strictly increasing grids of length >= 2, all values, all query points", "why_tests_cant": "All grids and queries.", "anchors": ["redmapper/utilities.py:interpol"]}
{"id": "C27", "title": "Cloud-in-cell deposition conserves weight", "statement": "For points whose cells lie inside the grid, the sum of the cic density field times the count normalisation equals the total weight deposited.", "quantifier": "all numbers of points, positions, weights and grid sizes", "why_tests_cant": "All point sets.", "anchors": ["redmapper/utilities.py:cic"]}
{"id": "C28", "title": "make_nodes covers the range", "statement": "make_nodes returns an increasing node list that starts at the lower limit and ends at the upper limit (or the requested maximum node).", "quantifier": "all ranges, node sizes and optional maxima", "why_tests_cant": "All parameters.", "anchors": ["redmapper/utilities.py:make_nodes"]}
{"id": "C29", "title": "Cubic spline reproduces its nodes", "statement": "A CubicSpline evaluated at any of its nodes returns the node value exactly.", "quantifier": "all strictly increasing node lists of length >= 2 and all values", "why_tests_cant": "All node lists.", "anchors": ["redmapper/utilities.py:CubicSpline"]}
{"id": "C30", "title": "Lock files give mutual exclusion", "statement": "At no time do two processes hold the lock made by make_lockfile on the same path; an unsuccessful non-blocking call never disturbs the holder; temporary files never leak.", "quantifier": "all interleavings of any number of processes acquiring and releasing the lock", "why_tests_cant": "All interleavings.", "anchors": ["redmapper/utilities.py:make_lockfile"]}
{"id": "C31", "title": "Galaxy catalog maker: pixel files contain exactly what was appended", "statement": "After any sequence of successful append_galaxies calls (serial mode) each pixel file holds exactly the appended galaxies falling in that pixel, in order of appending, and the recorded count equals the file length.", "quantifier": "all sequences of append calls with any galaxies", "why_tests_cant": "All histories.", "anchors": ["redmapper/galaxy.py:GalaxyCatalogMaker.append_galaxies"]}
{"id": "C32", "title": "Parallel appends lose no galaxy under any interleaving", "statement": "When several makers append in parallel mode, every per-pixel file finally holds every appended galaxy exactly once, for every interleaving of the lock/create/append/unlock steps.", "quantifier": "all schedules of any number of processes", "why_tests_cant": "All interleavings.", "anchors": ["redmapper/galaxy.py:GalaxyCatalogMaker.append_galaxies", "redmapper/utilities.py:make_lockfile"]}
{"id": "C33", "title": "Finalizing produces globally unique ids", "statement": "After finalize_catalog succeeds, all galaxy ids over all pixel files are distinct (generated ids are exactly 1..N), and the master table counts match the files.", "quantifier": "all sets of pixel files", "why_tests_cant": "All catalogs.", "anchors": ["redmapper/galaxy.py:GalaxyCatalogMaker.finalize_catalog"]}
{"id": "C34", "title": "A catalog whose master table exists is complete and valid", "statement": "At every crash point and after every failed finalize, if the master table file exists then the ids are unique.", "quantifier": "all crash points of finalize_catalog and all inputs", "why_tests_cant": "Crash points are not exercised by unit tests.", "anchors": ["redmapper/galaxy.py:GalaxyCatalogMaker.finalize_catalog"]}
{"id": "C35", "title": "Distributed zred run creates the master table iff all pixels are done", "statement": "For any interleaving of pixel tasks, the zred master table is only written when all pixel files are complete and no writer holds a pixel lock; and once all tasks have finished without failure it has been written.", "quantifier": "all numbers of pixel tasks and all interleavings of their steps", "why_tests_cant": "All schedules.", "anchors": ["redmapper/pipeline/zredtask.py:RunZredPixelTask.run", "redmapper/zred_runner.py:ZredRunPixels.make_zred_table"]}
{"id": "C36", "title": "Resuming a pixel run never repeats or skips a stage", "statement": "RunRedmapperPixelTask.run re-run after a crash at any point executes exactly the stages whose output file is missing, in order, and ends with all three outputs present; a re-run after success does nothing.", "quantifier": "all crash points and any number of restarts", "why_tests_cant": "All crash/restart histories.", "anchors": ["redmapper/pipeline/redmappertask.py:RunRedmapperPixelTask.run"]}
{"id": "C37", "title": "Configuration objects are independent", "statement": "Setting a value on one Configuration object (or on a copy) does not change the value read from another.", "quantifier": "all pairs of configuration objects and all assignment histories", "why_tests_cant": "All histories of assignments.", "anchors": ["redmapper/configuration.py:ConfigField", "redmapper/configuration.py:Configuration.copy"]}
{"id": "C38", "title": "Configuration values have the declared shape", "statement": "After construction and validation every required field is set, and every field declared with a fixed length has that length; assigning a sequence to a scalar field is rejected.", "quantifier": "all yaml dictionaries and all assignments", "why_tests_cant": "All dictionaries.", "anchors": ["redmapper/configuration.py:ConfigField", "redmapper/configuration.py:Configuration.validate"]}
{"id": "C39", "title": "Centering calibration is loaded faithfully", "statement": "set_wcen_vals sets every wcen-related configuration value to the column of the same name in the wcen file.", "quantifier": "all wcen files", "why_tests_cant": "All file contents.", "anchors": ["redmapper/configuration.py:Configuration._wcen_vals"]}
{"id": "C40", "title": "Background lookup uses the bin that contains the query", "statement": "Background.sigma_g_lookup returns the table value of the (z, refmag, chisq) bin containing the query, and infinity for queries outside the tabulated chisq and refmag range or with an empty bin.", "quantifier": "all tables and all query points", "why_tests_cant": "All tables and all queries including exact bin edges.", "anchors": ["redmapper/background.py:Background.sigma_g_lookup"]}
{"id": "C41", "title": "zred background lookup reports out-of-range as infinite", "statement": "ZredBackground.sigma_g_lookup returns the value of the bin containing the query and infinity outside the tabulated range.", "quantifier": "all tables and all queries", "why_tests_cant": "All queries.", "anchors": ["redmapper/background.py:ZredBackground.sigma_g_lookup"]}
{"id": "C42", "title": "Background worker split covers every redshift bin exactly once", "statement": "BackgroundGenerator assigns every redshift bin to exactly one worker, so the merged table equals the single-process table for any number of cores.", "quantifier": "all numbers of cores and redshift bins", "why_tests_cant": "All splits.", "anchors": ["redmapper/background.py:BackgroundGenerator.run"]}
{"id": "C43", "title": "All galaxies contribute to the background", "statement": "BackgroundGenerator counts every galaxy of the input catalog inside the magnitude range, for pixelized and non-pixelized inputs.", "quantifier": "all galaxy catalogs and chunkings", "why_tests_cant": "All chunkings.", "anchors": ["redmapper/background.py:BackgroundGenerator._worker"]}
{"id": "C44", "title": "Parallel zred computation is independent of the number of cores", "statement": "ZredRunCatalog splits the galaxies into contiguous ranges that cover each galaxy exactly once, so the output equals the one-process output for every number of cores.", "quantifier": "all galaxy counts and core counts", "why_tests_cant": "All pairs of counts.", "anchors": ["redmapper/zred_runner.py:ZredRunCatalog.run"]}
{"id": "C45", "title": "Failed zreds are marked with the sentinel", "statement": "Every galaxy for which no zred could be computed has zred = -1 in the output.", "quantifier": "all galaxies and correction tables", "why_tests_cant": "All galaxies.", "anchors": ["redmapper/zred_color.py:ZredColor.compute_zreds", "redmapper/zred_color.py:ZredColor.compute_zred"]}
{"id": "C46", "title": "zred table lines up with the galaxy table", "statement": "make_zred_table succeeds only if every pixel's zred file has as many rows as the galaxy file, and row i of the zred table describes pixel i of the galaxy table.", "quantifier": "all sets of pixels and files", "why_tests_cant": "All tables.", "anchors": ["redmapper/zred_runner.py:ZredRunPixels.make_zred_table"]}
{"id": "C47", "title": "Mask depth filling leaves no invalid limiting magnitude", "statement": "After DepthMap.calc_maskdepth every mask galaxy has a non-negative limiting magnitude, values that were valid are unchanged.", "quantifier": "all mask galaxy samples and depth maps", "why_tests_cant": "All patterns of holes.", "anchors": ["redmapper/depthmap.py:DepthMap.calc_maskdepth"]}
{"id": "C48", "title": "Survey area at a magnitude counts the pixels deep enough", "statement": "DepthMap.calc_areas(mag) is the total good area of the pixels whose depth is at least mag; it is non-increasing in mag and never exceeds the total area.", "quantifier": "all depth maps and magnitudes", "why_tests_cant": "All maps.", "anchors": ["redmapper/depthmap.py:DepthMap.calc_areas"]}
{"id": "C49", "title": "Volume-limited area at a redshift counts the pixels reaching it", "statement": "VolumeLimitMask.get_areas at z is the total good area of pixels with zmax > z; it is non-increasing in z and never exceeds the total area.", "quantifier": "all masks and redshifts", "why_tests_cant": "All masks.", "anchors": ["redmapper/volumelimit.py:VolumeLimitMask.get_areas"]}
{"id": "C50", "title": "Volume-limit redshift is reachable at the local depth", "statement": "The zmax of a pixel built by VolumeLimitMask is a tabulated redshift at which the required limiting magnitude does not exceed the local depth (or the end of the table), and zmax is monotone in depth.", "quantifier": "all limiting-magnitude tables and depths", "why_tests_cant": "All tables.", "anchors": ["redmapper/volumelimit.py:VolumeLimitMask._build_mask"]}
{"id": "C51", "title": "Geometric masking is exact at full and zero coverage", "statement": "HPMask.compute_radmask marks a position as good with certainty when its coverage is 1 and bad with certainty when its coverage is 0 (or it is at the poles / unseen), for every random draw.", "quantifier": "all positions, maps and random draws", "why_tests_cant": "All random draws.", "anchors": ["redmapper/mask.py:HPMask.compute_radmask"]}
{"id": "C52", "title": "Mask-galaxy samples partition the mask galaxies", "statement": "select_maskgals_sample(i) for i = 0..nsamp-1 returns disjoint consecutive samples of equal size whose union is the whole table.", "quantifier": "all sample counts and sizes", "why_tests_cant": "All sizes.", "anchors": ["redmapper/mask.py:Mask.select_maskgals_sample"]}
{"id": "C53", "title": "Random catalog has exactly the requested number of randoms with ids 1..n", "statement": "When generate_randoms returns, exactly nrandoms rows have been written, with ids 1..nrandoms.", "quantifier": "all sequences of random batches", "why_tests_cant": "All random histories.", "anchors": ["redmapper/randoms.py:GenerateRandoms.generate_randoms"]}
{"id": "C54", "title": "Randoms respect the local maximum redshift", "statement": "Every generated random has redshift below the volume-limit zmax at its own position and lies where the coverage draw accepted it.", "quantifier": "all random batches", "why_tests_cant": "All random histories.", "anchors": ["redmapper/randoms.py:GenerateRandoms.generate_randoms", "redmapper/redmagic/redmagic_randoms.py:RedmagicGenerateRandoms.generate_randoms"]}
{"id": "C55", "title": "Random weights restore the input counts", "statement": "RandomWeigher gives the surviving randoms of each input cluster equal weights that sum to the number of randoms generated for that cluster.", "quantifier": "all random catalogs and all selections", "why_tests_cant": "All selections.", "anchors": ["redmapper/randoms.py:RandomWeigher.weight_randoms"]}
{"id": "C56", "title": "Red-sequence table lookups never leave the table", "statement": "zindex, refmagindex and lumrefmagindex return a valid table index for every finite query up to the overflow limit, and the exact bin for tabulated values; the index is monotone in the query.", "quantifier": "all grids and queries", "why_tests_cant": "All grids and queries.", "anchors": ["redmapper/redsequence.py:RedSequenceColorPar.zindex", "redmapper/redsequence.py:RedSequenceColorPar.refmagindex"]}
{"id": "C57", "title": "Red-sequence covariance matrices are valid covariances", "statement": "Every interpolated covariance matrix is symmetric with diagonal at least minsig^2 and correlations within 0.99, hence positive definite.", "quantifier": "all parameter files, all redshifts and numbers of colors", "why_tests_cant": "All parameter files.", "anchors": ["redmapper/redsequence.py:RedSequenceColorPar.__init__"]}
{"id": "C58", "title": "chi-squared modes agree", "statement": "compute_chisq gives the same value for a galaxy at a redshift whether computed in mode 0 (one redshift), mode 1 (one galaxy) or mode 2 (pairwise).", "quantifier": "all galaxies, redshift tables and error settings", "why_tests_cant": "All inputs.", "anchors": ["redmapper/chisq_dist/chisq_dist.c:chisq_dist"]}
{"id": "C59", "title": "chi-squared is non-negative", "statement": "Whenever the intrinsic variances pass the check, the computed chi-squared is non-negative because the covariance is first made positive definite.", "quantifier": "all symmetric covariance inputs", "why_tests_cant": "All matrices.", "anchors": ["redmapper/chisq_dist/chisq_dist.c:chisq_dist", "redmapper/chisq_dist/chisq_dist.c:check_and_fix_covmat"]}
{"id": "C60", "title": "chi-squared input validation is complete", "statement": "compute_chisq raises ValueError unless all array shapes are mutually consistent with the mode; when it does not raise, every element the C loop reads is inside its array.", "quantifier": "all combinations of shapes", "why_tests_cant": "All shape combinations.", "anchors": ["redmapper/chisq_dist/chisq_dist_lib.py:compute_chisq", "redmapper/chisq_dist/chisq_dist.c:chisq_dist"]}
{"id": "C61", "title": "Photometric cluster redshift uses at least three galaxies", "statement": "When the neighbour selection succeeds at least three galaxies are selected, each inside the radius, brighter than the limit and with positive weight, and the weight-threshold index is always in range.", "quantifier": "all neighbour lists and target counts", "why_tests_cant": "All lists.", "anchors": ["redmapper/zlambda.py:Zlambda._zlambda_select_neighbors"]}
{"id": "C62", "title": "A failed redshift fit is reported as a failure", "statement": "If the parabola fit in calc_zlambda is not concave, the redshift is reported as -1.", "quantifier": "all likelihood samples", "why_tests_cant": "All likelihoods.", "anchors": ["redmapper/zlambda.py:Zlambda._zlambda_calcz"]}
{"id": "C63", "title": "z_lambda correction never shrinks the error", "statement": "ZlambdaCorrectionPar.apply_correction returns an error that is at least the input error, and keeps the number of p(z) bins.", "quantifier": "all correction tables, richnesses and redshifts", "why_tests_cant": "All inputs.", "anchors": ["redmapper/zlambda.py:ZlambdaCorrectionPar.apply_correction"]}
{"id": "C64", "title": "calc_zlambda terminates within its iteration limits", "statement": "calc_zlambda performs at most 2*maxiter richness evaluations and returns either (-1,-1) or a positive redshift.", "quantifier": "all clusters", "why_tests_cant": "All clusters.", "anchors": ["redmapper/zlambda.py:Zlambda.calc_zlambda"]}
{"id": "C65", "title": "redMaGiC selection is sound and complete", "statement": "select_redmagic_galaxies returns exactly the galaxies passing the chi-squared, luminosity, redshift-limit and pre-selection cuts, in input order, and return_indices points at them.", "quantifier": "all galaxy catalogs", "why_tests_cant": "All catalogs.", "anchors": ["redmapper/redmagic/redmagic_selector.py:RedmagicSelector.select_redmagic_galaxies"]}
{"id": "C66", "title": "Redshift scan reports the most likely richness peak", "statement": "In RunZScan, a position that has at least one redshift step with richness above threshold is reported at the step of maximum likelihood among the steps above threshold.", "quantifier": "all positions and likelihood curves", "why_tests_cant": "All curves.", "anchors": ["redmapper/run_zscan.py:RunZScan._process_cluster"]}
{"id": "C67", "title": "Member file name is derived from the catalog file name", "statement": "read_members reads <base>_members.fit for a catalog file <base>.fit.", "quantifier": "all file names", "why_tests_cant": "All file names.", "anchors": ["redmapper/utilities.py:read_members"]}
{"id": "C68", "title": "Pixel split covers the region", "statement": "RedmapperRun splits the requested region into sub-pixels at a resolution giving at least as many pixels as processes, and every galaxy pixel of the region lies in exactly one split.", "quantifier": "all regions and process counts", "why_tests_cant": "All regions.", "anchors": ["redmapper/redmapper_run.py:RedmapperRun._get_pixel_splits"]}
{"id": "C69", "title": "Reading a sub-region returns exactly the galaxies of the region", "statement": "GalaxyCatalog.from_galfile with hpix/nside and no border returns exactly the galaxies in table pixels inside the requested pixels, in table order, and bad argument combinations raise ValueError.", "quantifier": "all tables and requests", "why_tests_cant": "All requests.", "anchors": ["redmapper/galaxy.py:GalaxyCatalog.from_galfile", "redmapper/galaxy.py:get_subpixel_indices"]}
{"id": "C70", "title": "Richness is monotone in the neighbours", "statement": "Adding neighbours, or making neighbours more available (larger w = theta_i * p_free), never lowers a reported richness of at least 2.", "quantifier": "all galaxy lists, all super-lists and all increases of w, with non-negative u, b, w", "why_tests_cant": "relates two runs on arbitrary pairs of inputs", "anchors": ["redmapper/solver_nfw/solver_nfw.c:solver_nfw", "redmapper/solver_nfw/nfw_weights.c:nfw_weights"]}
{"id": "C71", "title": "Returned membership probabilities belong to the returned richness", "statement": "The p and wt returned by solve_nfw are the membership formula (and its product with w and theta_r) evaluated at one trial richness that differs from the returned richness by at most the tolerance 0.01; under a hard cut the weight of a galaxy at or outside the returned radius is 0.", "quantifier": "all galaxy lists and parameters with reported richness >= 1", "why_tests_cant": "the solver deliberately skips the final update of p and wt; whether the values are close to the reported richness depends on the whole bisection history", "anchors": ["redmapper/solver_nfw/solver_nfw.c:solver_nfw", "redmapper/solver_nfw/nfw_weights.c:nfw_weights"]}
{"id": "C72", "title": "Removing an uninvolved cluster changes nothing else", "statement": "In a percolation-type run, taking a candidate out of the input catalog that takes no galaxy from the neighbourhood of any later candidate leaves the catalog rows and members of all other clusters unchanged.", "quantifier": "all input catalogs, all positions of the removed cluster, all galaxy catalogs, all per-cluster computations that carry no hidden state", "why_tests_cant": "It compares two whole runs for every catalog and every removed position.", "anchors": ["redmapper/cluster_runner.py:ClusterRunner.run"]}
{"id": "C73", "title": "Member list is exactly the qualifying galaxies", "statement": "For every cluster that is not rejected the recorded members are exactly its neighbours that pass the configured membership rule (probability above 0.01 and within the radius/luminosity limits that are switched on) and are more than 1% available, plus its centering candidates; every row carries the id and redshift of its cluster.", "quantifier": "all clusters, neighbour lists, availability histories and settings of the membership limits", "why_tests_cant": "The rule combines three switches with the availability left by all earlier clusters; tests sample a few combinations.", "anchors": ["redmapper/cluster_runner.py:ClusterRunner.run"]}
{"id": "C74", "title": "Clusters accepted by percolation meet the thresholds", "statement": "Every cluster RunPercolation reports as good either carries the sentinel row (richness -1) or has richness/scaleval at least percolation_minlambda, a non-negative z_lambda and a non-negative redshift; every cluster reported bad carries the sentinel row; and a cluster whose nearest galaxy is less available than percolation_pbcg_cut is always rejected.", "quantifier": "all clusters, neighbour lists, availability states, centering outcomes and iteration counts >= 1", "why_tests_cant": "The acceptance is decided by a chain of a dozen tests inside an iteration; tests exercise a few paths.", "anchors": ["redmapper/run_percolation.py:RunPercolation._process_cluster"]}
{"id": "C75", "title": "First-pass clusters stay inside the configured redshift range", "statement": "With at least one iteration, every cluster accepted by RunFirstPass has zrange[0] <= z_lambda <= zrange[1] and richness at least |firstpass_minlambda/scaleval|, and its output redshift is z_lambda (or the input redshift with keepz); every rejected one carries the sentinel values.", "quantifier": "all seeds, iteration counts >= 1, richness and redshift computations", "why_tests_cant": "Must hold for every history of intermediate redshifts.", "anchors": ["redmapper/run_firstpass.py:RunFirstPass._process_cluster"]}
{"id": "C76", "title": "Catalog-mode clusters are unmasked enough, rich enough and have a redshift", "statement": "With at least one iteration, every cluster accepted by RunCatalog is at most 70% masked, has richness >= 3 and z_lambda >= 0; with converge_zlambda its redshift equals z_lambda, otherwise the input redshift is kept.", "quantifier": "all clusters, iteration counts, richness and redshift computations", "why_tests_cant": "Must hold for every convergence history.", "anchors": ["redmapper/runcat.py:RunCatalog._process_cluster"]}
{"id": "C77", "title": "Colour-mode calibration covers every cluster and ranks by richness", "statement": "RunColormem assigns every cluster it keeps exactly one colour mode, the one whose redshift bin (lower bound excluded, upper included) contains it, for any configured interior bounds, and never raises; its second pass processes the clusters once each in order of non-increasing first-pass richness.", "quantifier": "all redshifts inside the range, all lists of interior bounds, all richness lists including ties", "why_tests_cant": "Boundary redshifts and arbitrary bound lists.", "anchors": ["redmapper/run_colormem.py:RunColormem._process_cluster", "redmapper/run_colormem.py:RunColormem._doublerun_sort"]}
{"id": "C78", "title": "Spectroscopic training selection considers every galaxy once", "statement": "SelectSpecRedGalaxies considers every galaxy strictly inside the redshift range in exactly one colour mode, the same one RunColormem assigns at that redshift.", "quantifier": "all redshifts and all sorted lists of interior bounds", "why_tests_cant": "Boundary values: random data practically never hits a bound exactly.", "anchors": ["redmapper/calibration/selectspecred.py:SelectSpecRedGalaxies.run", "redmapper/run_colormem.py:RunColormem._process_cluster"]}
{"id": "C79", "title": "Attribute assignment touches exactly one column", "statement": "Assigning cat.NAME = value writes the value(s) into the column of that name (any letter case) for every row, leaves every other column alone, and reading cat.name back returns what was assigned; a name that is not a column never changes the table.", "quantifier": "all tables, names in any letter case, scalar and sequence values", "why_tests_cant": "All schemas, row counts and value shapes.", "anchors": ["redmapper/catalog.py:DataObject.__setattr__", "redmapper/catalog.py:DataObject.__getattr__"]}
{"id": "C80", "title": "A table built from several arrays has exactly their columns", "statement": "DataObject(a, b, ...) succeeds exactly when all arrays have the same number of rows and no column name (ignoring case) repeats; the result then has the columns of all arrays, each with its values.", "quantifier": "all lists of arrays", "why_tests_cant": "All schemas and sizes, including collisions between any two of the arrays.", "anchors": ["redmapper/catalog.py:DataObject.__init__", "redmapper/catalog.py:DataObject._merge_arrays", "redmapper/catalog.py:DataObject._lower_array"]}
{"id": "C81", "title": "Saved tables read back unchanged", "statement": "Writing a catalog with to_fits_file and reading the file with from_fits_file gives back the same columns and rows.", "quantifier": "all catalogs, with and without a file already present", "why_tests_cant": "All tables and all prior file contents.", "anchors": ["redmapper/catalog.py:DataObject.to_fits_file", "redmapper/catalog.py:DataObject.from_fits_file"]}
{"id": "C82", "title": "A catalog entry is a live view of its row", "statement": "Assigning a column of an entry obtained by cat[i] changes exactly that cell of the catalog; once add_fields has been called on the entry, later assignments no longer reach the catalog.", "quantifier": "all catalogs, rows and sequences of assignments", "why_tests_cant": "All interleavings of entry writes and reads.", "anchors": ["redmapper/catalog.py:Entry.__init__", "redmapper/catalog.py:Catalog.__getitem__", "redmapper/catalog.py:Entry.add_fields"]}
{"id": "C83", "title": "Each candidate is central, satellite or foreground", "statement": "For every candidate center reported by CenteringWcenZred, p_cen + p_sat + p_fg = 1 and each lies in [0,1] (densities not all zero, richness at least 1).", "quantifier": "all candidate sets and filter values", "why_tests_cant": "All filter values and numbers of candidates.", "anchors": ["redmapper/centering.py:CenteringWcenZred.find_center"]}
{"id": "C84", "title": "Centering always gives an answer", "statement": "CenteringWcenZred.find_center always answers (documented: always True); with no likely candidate it reports the galaxy nearest the old center, with missed-center probability one.", "quantifier": "all candidate sets, including degenerate ones", "why_tests_cant": "Degenerate candidate sets depend on every input.", "anchors": ["redmapper/centering.py:CenteringWcenZred.find_center"]}
{"id": "C85", "title": "Finding a center does not alter the galaxies", "statement": "find_center leaves the neighbours of the cluster unchanged.", "quantifier": "all neighbour lists and configurations", "why_tests_cant": "Aliasing effects must be excluded for every input.", "anchors": ["redmapper/centering.py:CenteringBCG.find_center", "redmapper/centering.py:CenteringWcenZred.find_center"]}
{"id": "C86", "title": "Random-satellite centering picks a member", "statement": "For every uniform draw, CenteringRandomSatellite returns a neighbour with positive membership probability.", "quantifier": "all draws in [0,1) and all membership probabilities not all zero", "why_tests_cant": "All random draws.", "anchors": ["redmapper/centering.py:CenteringRandomSatellite.find_center"]}
{"id": "C87", "title": "Only galaxies that pass the cuts are reported as centers", "statement": "Every index reported by CenteringWcenZred is a neighbour inside r_lambda, available to this cluster, below the chi-square limit and consistent in redshift or a member; no galaxy is reported twice and at most percolation_maxcen are reported.", "quantifier": "all neighbour lists and configurations", "why_tests_cant": "All lists and cut values.", "anchors": ["redmapper/centering.py:CenteringWcenZred.find_center"]}
{"id": "C88", "title": "Averaged cloud-in-cell fields stay within the data", "statement": "cic(..., average=True) returns, for every grid cell, zero or a value between the smallest and the largest sample value.", "quantifier": "all sample sets inside the grid, 1 to 3 dimensions, periodic or not", "why_tests_cant": "All sample sets and grids.", "anchors": ["redmapper/utilities.py:cic"]}
{"id": "C89", "title": "Natural cubic splines are smooth", "statement": "A natural CubicSpline is a cubic on every segment; value, slope and curvature of neighbouring segments agree at every interior node, and the curvature vanishes at both ends.", "quantifier": "all node lists and values", "why_tests_cant": "All node lists; tests only sample.", "anchors": ["redmapper/utilities.py:CubicSpline.__init__", "redmapper/utilities.py:CubicSpline.splint"]}
{"id": "C90", "title": "Samples fall where the distribution is positive", "statement": "sample_from_pdf returns, for every random draw, a grid point of the range at which the distribution is positive.", "quantifier": "all distributions and all draws", "why_tests_cant": "All random draws.", "anchors": ["redmapper/utilities.py:sample_from_pdf"]}
{"id": "C91", "title": "Only valid galaxies ever reach a galaxy catalog", "statement": "Whatever arrays are passed to any sequence of append_galaxies calls, however each call ends, every galaxy in a pixel file written by the maker has finite columns, magnitudes strictly between 0 and 90, positive errors, nmag bands and coordinates on the sphere; an array is accepted exactly when all its galaxies are valid, the required columns are present and (unless ids are generated) its ids are distinct.", "quantifier": "all sequences of calls with any arrays", "why_tests_cant": "All call histories and all arrays.", "anchors": ["redmapper/galaxy.py:GalaxyCatalogMaker._check_galaxies", "redmapper/galaxy.py:GalaxyCatalogMaker.append_galaxies"]}
{"id": "C92", "title": "A written configuration reads back the same", "statement": "output_yaml followed by constructing a Configuration from the file restores the value of every field.", "quantifier": "all configurations and all earlier states of the class", "why_tests_cant": "All combinations of field kinds and values, including unset ones.", "anchors": ["redmapper/configuration.py:Configuration.output_yaml", "redmapper/configuration.py:Configuration._set_vars_from_dict"]}
{"id": "C93", "title": "Pixel runs never share an output file", "statement": "For a given output path and base, the file names of two pixel runs coincide only if nside, pixel and the kind of file are the same.", "quantifier": "all nsides, pixels (also beyond five digits), stages and file types", "why_tests_cant": "All pairs of pixels.", "anchors": ["redmapper/configuration.py:Configuration.redmapper_filename", "redmapper/pipeline/redmappertask.py:RunRedmapperPixelTask.run"]}
{"id": "C94", "title": "File checks accept exactly complete inputs", "statement": "check_files returns iff every requested file exists (and the background file has both component extensions if requested), and otherwise raises ValueError.", "quantifier": "all combinations of requested checks and of present, missing and unset files", "why_tests_cant": "All combinations.", "anchors": ["redmapper/configuration.py:Configuration.check_files"]}
{"id": "C95", "title": "The pixel border covers every cluster it should", "statement": "compute_border returns an angle at least three times the masking radius of every cluster of richness up to 300 in the redshift range.", "quantifier": "all mask parameters, cosmologies, richnesses up to 300 and redshifts in the range", "why_tests_cant": "All real parameters.", "anchors": ["redmapper/configuration.py:Configuration.compute_border", "redmapper/run_percolation.py:RunPercolation"]}
{"id": "C96", "title": "Color background reports out-of-range colors as infinite", "statement": "ColorBackground.sigma_g_diagonal returns the surface density of the (color, refmag) bin that contains the galaxy, and infinity when the bin is empty or the color or magnitude lies outside the tabulated range.", "quantifier": "all uniform tables and all query colors and magnitudes", "why_tests_cant": "a test looks up a few points inside the table; the behaviour at the edges of every table is not reachable by examples", "anchors": ["redmapper/color_background.py:ColorBackground.sigma_g_diagonal"]}
{"id": "C97", "title": "Two-color background does not depend on the order of the colors", "statement": "ColorBackground.lookup_offdiag(i, j, c_i, c_j, m) returns the normalised counts of the bin containing the point, and the same value when the two indices and the two colors are swapped; an unknown pair raises KeyError, or gives zero if asked.", "quantifier": "all sets of tables, index pairs, colors and magnitudes", "why_tests_cant": "the tests query only in the stored order of the indices", "anchors": ["redmapper/color_background.py:ColorBackground.lookup_offdiag"]}
{"id": "C98", "title": "Color background look-ups are normalised densities", "statement": "The values returned by ColorBackground.lookup_diagonal and lookup_offdiag integrate to one over the colors in every magnitude bin that has any counts.", "quantifier": "all tables and magnitude bins", "why_tests_cant": "a normalisation is a sum over the whole table for every table", "anchors": ["redmapper/color_background.py:ColorBackground.__init__", "redmapper/color_background.py:ColorBackground.lookup_diagonal", "redmapper/color_background.py:ColorBackground.lookup_offdiag"]}
{"id": "C99", "title": "Red-sequence redshifts stay near the redshifts that were searched", "statement": "ZredColor.compute_zred gives a galaxy a redshift unless fewer than two redshift bins allow its magnitude or no searched bin has a usable likelihood; the uncorrected redshift it gives lies within two errors of the redshifts searched and its error is at least 0.005; the variance it takes the square root of is never negative.", "quantifier": "all galaxies, red-sequence tables and likelihood curves", "why_tests_cant": "holds for every likelihood curve, in particular for those with several peaks or at the ends of the table", "anchors": ["redmapper/zred_color.py:ZredColor.compute_zred"]}
{"id": "C100", "title": "The zred parabola is fitted to usable bins around the best one", "statement": "When at least five redshift bins are usable, the parabola of compute_zred is fitted to five or six consecutive bins inside the usable range, including the best bin, and only to usable bins.", "quantifier": "all patterns of usable bins and positions of the best bin", "why_tests_cant": "the cases at the ends of the range and with unusable bins in between are not reached by examples", "anchors": ["redmapper/zred_color.py:ZredColor.compute_zred"]}
{"id": "C101", "title": "Zreds do not depend on whether galaxies are processed one by one", "statement": "compute_zreds on a catalog gives each galaxy the same columns as compute_zred on the galaxy alone.", "quantifier": "all galaxies and correction tables", "why_tests_cant": "the two code paths agree for the calibration used in the tests", "anchors": ["redmapper/zred_color.py:ZredColor.compute_zreds", "redmapper/zred_color.py:ZredColor.compute_zred"]}
{"id": "C102", "title": "Masked fraction behaves like a fraction of lost galaxies", "statement": "The detection probability given to a mask galaxy lies between 0 and 1, is 0 beyond the limiting magnitude, is 1 more than five sigma inside it, and never grows with magnitude at fixed error. The masked fraction of a radial bin is therefore at most 1, is exactly 1 when no mask galaxy lies in the mask, and can only grow when more positions are masked. An unusable limiting magnitude raises.", "quantifier": "every set of mask galaxies, radial bin, magnitude, error, limiting magnitude and mask", "why_tests_cant": "Tests compare a few corrections to stored numbers; ordering and range must hold for all masks and magnitudes.", "anchors": ["redmapper/mask.py:Mask.calc_maskcorr", "redmapper/utilities.py:calc_theta_i"]}
{"id": "C103", "title": "Further depth maps only lower the volume limit", "statement": "With several depth maps the maximum redshift of a pixel is the smallest of the maximum redshifts of the individual maps. A pixel that a further map does not cover, or where any map is no deeper than the first limiting magnitude, is not in the volume-limit mask; every other pixel is.", "quantifier": "every pixel, every number of depth maps, every depth and every increasing table of limiting magnitudes", "why_tests_cant": "The test uses one pair of maps; the order and number of maps and the depths range over unbounded sets.", "anchors": ["redmapper/volumelimit.py:VolumeLimitMask._build_mask"]}
{"id": "C104", "title": "Photometric error model is calibrated at the limit and errors are positive", "statement": "The error model always returns a positive magnitude error, whatever the noise draw, and a galaxy exactly at the limiting magnitude has, without noise, a signal-to-noise equal to the number of sigmas that defines the limit (unless the sky level is clipped).", "quantifier": "every limiting magnitude, exposure time, significance, input magnitude and noise draw", "why_tests_cant": "Tests fix a random seed and compare a handful of values.", "anchors": ["redmapper/utilities.py:apply_errormodels"]}
{"id": "C105", "title": "Rescaled depth limit has the requested significance", "statement": "When the limit of a further depth map is rescaled to another significance, the flux at the new limit has exactly that signal-to-noise in the same error model, and rescaling to the significance it was given at leaves the limit unchanged (unless the sky level is clipped).", "quantifier": "every limiting flux, exposure time and pair of significances", "why_tests_cant": "The closed form solves a quadratic; a few numbers cannot show that it is the right root everywhere.", "anchors": ["redmapper/volumelimit.py:VolumeLimitMask._build_mask", "redmapper/utilities.py:apply_errormodels"]}
{"id": "C106", "title": "Random redshifts follow the drawn distribution", "statement": "Within a batch of randoms the drawn redshifts are used in the order drawn, each at most once and none skipped: a redshift waits for the first position where it fits and is never passed over for one that fits better. Positions are used in order.", "quantifier": "every batch of positions and draws", "why_tests_cant": "A property of all random histories; a fixed seed shows one.", "anchors": ["redmapper/randoms.py:GenerateRandoms.generate_randoms", "redmapper/redmagic/redmagic_randoms.py:RedmagicGenerateRandoms.generate_randoms"]}
{"id": "C107", "title": "Effective random area never exceeds the geometric area", "statement": "The fraction of surviving randoms below a redshift lies in [0, 1] and is 1 when all survive; the effective area lies between zero and the area of the volume-limit mask at every redshift, whatever the fitted spline does.", "quantifier": "every random catalog, selection, redshift and spline value", "why_tests_cant": "Spline overshoots depend on the data; the bound must hold for all of them.", "anchors": ["redmapper/randoms.py:RandomWeigher.weight_randoms"]}
{"id": "C108", "title": "chi-squared does not depend on the memory layout of its inputs", "statement": "compute_chisq gives each redshift its own covariance matrix whatever the memory order of the covariance array it is given (C order, Fortran order, or the result of fancy indexing).", "quantifier": "all array contents, sizes and memory layouts", "why_tests_cant": "Must hold for every layout and size; a test exercises one.", "anchors": ["redmapper/chisq_dist/chisq_dist_lib.py:compute_chisq", "redmapper/chisq_dist/chisq_dist.c:chisq_dist"]}
{"id": "C109", "title": "Photometric errors only lower chi-squared", "statement": "For a valid intrinsic covariance, increasing any magnitude error never increases the chi-squared of a galaxy, and nophotoerr=True never gives a smaller value than using the errors.", "quantifier": "all numbers of colors, covariances, errors, slopes and color offsets", "why_tests_cant": "A statement about all matrices.", "anchors": ["redmapper/chisq_dist/chisq_dist.c:chisq_dist"]}
{"id": "C110", "title": "Red-sequence correction widths and luminosity normalisation are well behaved", "statement": "The redshift-correction widths are at least 0.5 whatever the parameter file, and the luminosity normalisation table is non-negative and non-decreasing in magnitude at every redshift.", "quantifier": "all parameter files, redshifts and magnitudes", "why_tests_cant": "All parameter files.", "anchors": ["redmapper/redsequence.py:RedSequenceColorPar.__init__"]}
{"id": "C111", "title": "A photometric cluster redshift is a fixed point of its fit", "statement": "When calc_zlambda returns a positive redshift, fitting again at that redshift changes it by less than zlambda_tol.", "quantifier": "all clusters, likelihoods and starting redshifts", "why_tests_cant": "The iteration can fail to converge for some likelihoods only; tests use well-behaved clusters.", "anchors": ["redmapper/zlambda.py:Zlambda.calc_zlambda", "redmapper/zlambda.py:Zlambda._zlambda_calcz"]}
{"id": "C112", "title": "The magnitude limit given to calc_zlambda is the one used", "statement": "If maxmag_in is given to calc_zlambda, galaxies fainter than it are not used; otherwise the limit is the reference luminosity cut.", "quantifier": "all limits, redshifts and iterations", "why_tests_cant": "No test passes the argument, and one run cannot show that a limit is honoured at every iteration.", "anchors": ["redmapper/zlambda.py:Zlambda.calc_zlambda"]}
{"id": "C113", "title": "The p(z) of a cluster is a normalised density on an even grid holding its redshift", "statement": "The p(z) has npzbins evenly spaced increasing bins, one of them the redshift, values that are not negative, in proportion to likelihood times volume, integrating to one.", "quantifier": "all likelihoods, redshifts, bin counts", "why_tests_cant": "All likelihood shapes and bin counts.", "anchors": ["redmapper/zlambda.py:Zlambda._zlambda_calc_pz"]}
{"id": "C114", "title": "A p(z) cut off at the edge of its grid is computed again over a wider range", "statement": "If p(z) at either end of the grid is over one percent of the central value, and the end is not at the end of the redshift table, p(z) is computed again over a range that ends where the density is low or the table ends; the search for that range terminates.", "quantifier": "all p(z) shapes", "why_tests_cant": "All shapes; the test is asymmetric in the code.", "anchors": ["redmapper/zlambda.py:Zlambda._zlambda_calc_pz_and_check", "redmapper/zlambda.py:Zlambda._zlambda_calc_pz"]}
{"id": "C115", "title": "noerr leaves the error alone in the z_lambda correction", "statement": "apply_correction with noerr=True returns the input error unchanged, whether or not p(z) is given.", "quantifier": "all correction tables and inputs", "why_tests_cant": "No test passes the argument.", "anchors": ["redmapper/zlambda.py:ZlambdaCorrectionPar.apply_correction"]}
{"id": "C116", "title": "The correction keeps p(z) centered on the redshift", "statement": "apply_correction keeps the position of the middle bin of p(z) relative to the redshift.", "quantifier": "all correction tables, bin counts and numbers of iterations", "why_tests_cant": "All bin counts; holds for odd counts only.", "anchors": ["redmapper/zlambda.py:ZlambdaCorrectionPar.apply_correction"]}
{"id": "C117", "title": "The correction widens p(z) as it widens the error and keeps it normalised", "statement": "The bins of a corrected p(z) are evenly spaced with spacing multiplied by the ratio of output to input error; the values keep their proportions and integrate to one.", "quantifier": "all correction tables, inputs and numbers of iterations", "why_tests_cant": "All tables and any number of iterations.", "anchors": ["redmapper/zlambda.py:ZlambdaCorrectionPar.apply_correction"]}
{"id": "C118", "title": "The redMaGiC run makes one complete catalog per mode", "statement": "RunRedmagicTask.run, which reads the galaxies pixel by pixel and appends, leaves for each mode the catalog that a selection on the whole galaxy catalog gives; interrupted at any write it leaves each file as it was or holding exactly the galaxies of the first pixels; without clobber an existing file stops it before anything is written; files of other modes are never touched.", "quantifier": "all galaxy tables, mode lists, crash points and previous files", "why_tests_cant": "All crash points and all pixelisations.", "anchors": ["redmapper/redmagic/redmagictask.py:RunRedmagicTask.run", "redmapper/redmagic/redmagic_selector.py:RedmagicSelector.select_redmagic_galaxies"]}
{"id": "C119", "title": "The redMaGiC calibration fits the galaxies that are then selected", "statement": "With the parameters that the calibration records, the selector selects exactly the galaxies that the fit counted with those parameters, with the redshifts and samples the fit used.", "quantifier": "all galaxies, node values and cuts", "why_tests_cant": "All galaxies at all redshifts.", "anchors": ["redmapper/redmagic/redmagic_calibrate.py:RedmagicParameterFitter", "redmapper/redmagic/redmagic_selector.py:RedmagicSelector.select_redmagic_galaxies"]}
{"id": "C120", "title": "The redMaGiC run configuration", "statement": "The configuration written for the redMaGiC run never overwrites the calibration configuration, and the run started by the calibration reads the configuration that was written.", "quantifier": "all configuration names and output paths", "why_tests_cant": "All names.", "anchors": ["redmapper/redmagic/redmagic_calibrate.py:RedmagicCalibrator.run"]}
{"id": "C121", "title": "Galaxies are read with their own zreds", "statement": "from_galfile with a zred table returns exactly the galaxies of the request whose table pixel has a zred file, in table order, each joined with the row of its own zred; if no table pixel of the request has one it raises ValueError; a zred file of the wrong length is an error.", "quantifier": "all tables, zred tables (with any files missing) and requests", "why_tests_cant": "All subsets of missing files.", "anchors": ["redmapper/galaxy.py:GalaxyCatalog.from_galfile"]}
{"id": "C122", "title": "Reading a pixel with a border is complete", "statement": "from_galfile with one pixel and a border returns every galaxy of the table inside the pixel or within the border of its boundary, each once, in table order, and no galaxy whose fine pixel is outside; a border around several pixels is refused.", "quantifier": "all tables, pixels and borders", "why_tests_cant": "All positions.", "anchors": ["redmapper/galaxy.py:GalaxyCatalog.from_galfile", "redmapper/galaxy.py:get_subpixel_indices"]}
{"id": "C123", "title": "Reading through a temporary file only adds the cuts", "statement": "from_galfile with use_tempfile returns exactly the rows of the direct read within the magnitude range and below the maximum chi-squared, in the same order, with the same errors.", "quantifier": "all tables, zred tables, requests and cuts", "why_tests_cant": "All catalogs.", "anchors": ["redmapper/galaxy.py:GalaxyCatalog.from_galfile"]}
{"id": "C124", "title": "Truth columns are read only on request", "statement": "from_galfile leaves out the truth columns, and no others, unless truth is requested; requesting truth or spectroscopic redshifts that the catalog does not have never returns a catalog.", "quantifier": "all column lists and requests", "why_tests_cant": "All schemas.", "anchors": ["redmapper/galaxy.py:GalaxyCatalog.from_galfile"]}
{"id": "C125", "title": "The richness of a cluster agrees with its members", "statement": "When calc_richness returns, either it failed - then richness and scale factor are -1 and no neighbor has any probability - or the richness lies in [1, 2000), its radius is the radius of that richness, richness divided by the recorded scale factor is exactly the sum of the neighbors' membership probabilities, all probabilities lie in [0, 1], membership does not exceed the raw probability, neighbors left out of the index have none, and the values of the others are the membership formula of the filters at the current redshift.", "quantifier": "all neighbor lists, index arrays without repetitions, redshifts, masks and filters with non-negative densities", "why_tests_cant": "A test checks a few clusters; the identity between richness, scale and probabilities must hold for every neighbor list, including those where some filters vanish.", "anchors": ["redmapper/cluster.py:Cluster.calc_richness", "redmapper/cluster.py:Cluster.calc_bkg_density", "redmapper/utilities.py:calc_theta_i"]}
{"id": "C126", "title": "The richness does not depend on what was computed before", "statement": "After any sequence of redshift assignments and richness computations, with any masks, indices and options, setting a redshift and computing the richness returns the same value and leaves the same richness, error, radius, scale and neighbor table as doing so on the untouched cluster; with an index array only the chi-squared of neighbors outside the index may keep an old value.", "quantifier": "all histories of redshift assignments and richness computations, including failing ones", "why_tests_cant": "The redshift scans of the likelihood, z_lambda and percolation passes call these methods hundreds of times on the same object; no finite set of histories shows that nothing leaks.", "anchors": ["redmapper/cluster.py:Cluster.calc_richness", "redmapper/cluster.py:Cluster.redshift"]}
{"id": "C127", "title": "Redshift, scales and neighbor radii stay in step", "statement": "After any history of operations on a cluster the luminosity scale and the megaparsec scale are those of the current redshift, a set redshift is at least 0.01, a negative redshift raises ValueError, and every neighbor's radius is its angular distance at the current scale (at least 1e-6).", "quantifier": "all histories of redshift assignments, neighbor searches, neighbor installation, moves, distance updates, richness computations and copies", "why_tests_cant": "The invariant must hold after every interleaving of operations.", "anchors": ["redmapper/cluster.py:Cluster.redshift", "redmapper/cluster.py:Cluster._compute_neighbor_r", "redmapper/cluster.py:Cluster.set_neighbors", "redmapper/cluster.py:Cluster.update_neighbors_dist"]}
{"id": "C128", "title": "A copy of a cluster behaves like the cluster", "statement": "copy() returns a cluster equal to the original: same redshift, scales, neighbors, position and catalog values, and the same richness when computed.", "quantifier": "all clusters", "why_tests_cant": "Equality must hold for every state of the original.", "anchors": ["redmapper/cluster.py:Cluster.copy", "redmapper/cluster.py:Cluster.__copy__"]}
{"id": "C129", "title": "The richness error is always well defined", "statement": "For a successful richness computation the error is never the root of a negative number: its square is the scaled sum of pmem(1-pmem) plus the square of the masking error, and the masking error is 0 or a multiple of the root of v(1-v) with a masked fraction v in [0, 1]; without the error option the recorded error is 0.", "quantifier": "all neighbor lists, masks and mask galaxies with non-negative densities", "why_tests_cant": "A NaN error would appear only for particular combinations of probabilities and mask galaxies.", "anchors": ["redmapper/cluster.py:Cluster.calc_richness", "redmapper/cluster.py:Cluster.calc_lambdacerr"]}
{"id": "C130", "title": "Richness and richness error use the same masked fraction", "statement": "The masked fraction used for the richness error is the masked fraction the richness itself was corrected with.", "quantifier": "all mask polynomials and radii", "why_tests_cant": "The two evaluations agree for unmasked clusters and for radius 1; only general coefficients tell them apart.", "anchors": ["redmapper/cluster.py:Cluster.calc_richness", "redmapper/cluster.py:Cluster.calc_lambdacerr", "redmapper/mask.py:Mask.calc_maskcorr", "redmapper/solver_nfw/solver_nfw.c"]}
{"id": "C131", "title": "The single-color richness either succeeds consistently or reports failure without side effects on the members", "statement": "calc_richness_fit returns -10 without touching the recorded richness, error, radius or neighbors when there are too few galaxies or no usable central; otherwise it returns -1 with all probabilities zero, or a richness in [1, 2000) with its radius, a scale that relates it to the summed probabilities and no member at or beyond the radius; with the error option it never returns a richness but raises NameError.", "quantifier": "all neighbor lists, colors, masks, fits and options", "why_tests_cant": "The early exits depend on the number and colors of the galaxies.", "anchors": ["redmapper/cluster.py:Cluster.calc_richness_fit"]}
{"id": "C132", "title": "The cluster filters are positive where they are defined", "statement": "The radial filter is positive below 10 Mpc, zero beyond and constant in the core (and not negative with the radial factor), the luminosity filter is positive, the color filter is positive for positive chi-squared, and with slope -1 a brighter galaxy never has a larger luminosity filter.", "quantifier": "all real radii, magnitudes, chi-squared values and degrees of freedom, all scale and core radii with the core inside the scale radius", "why_tests_cant": "A sign error in a narrow range of radii (around the scale radius) escapes sampled tests.", "anchors": ["redmapper/utilities.py:nfw_pdf", "redmapper/utilities.py:schechter_pdf", "redmapper/utilities.py:chisq_pdf"]}
{"id": "C133", "title": "The local background of a cluster depends on that cluster only", "statement": "compute_bkg_local gives the same value whatever cluster or trial redshift the shared mask galaxies were last used for, and is never negative.", "quantifier": "all mask galaxies, neighbors, redshifts and earlier uses", "why_tests_cant": "The mask galaxies are shared state; the order of calls matters.", "anchors": ["redmapper/cluster.py:Cluster.compute_bkg_local", "redmapper/mask.py:Mask.calc_maskcorr"]}
{"id": "C134", "title": "find_neighbors finds exactly the galaxies in range", "statement": "After find_neighbors the neighbors are exactly the catalog galaxies within the radius (degrees, or megaparsec at the current redshift) and not fainter than the limit, each once, with its catalog index, distance, availability 1 unless the catalog has one, and radius; in megaparsec mode a cluster without a redshift raises.", "quantifier": "all catalogs, positions, radii, limits and redshifts, for any matcher that returns each galaxy within the radius once", "why_tests_cant": "Completeness and uniqueness over all catalogs.", "anchors": ["redmapper/cluster.py:Cluster.find_neighbors", "redmapper/cluster.py:Cluster.set_neighbors", "redmapper/galaxy.py:GalaxyCatalog.match_one"]}
{"id": "C135", "title": "A calibration product is never changed once a session has left it", "statement": "For every history of calibration sessions in one output directory (each with its own random draws, each interrupted anywhere or not), a product file that exists when a session starts has the same content after that session and after all later ones, and files of the user are never written.", "quantifier": "all histories of sessions, all crash points, all random draws, all stage functions, any number of iterations >= 1", "why_tests_cant": "needs every sequence of interruptions and restarts of a pipeline that takes days; a test sees one uninterrupted run", "anchors": ["redmapper/calibration/calibrate.py: RedmapperCalibrator.run", "redmapper/calibration/calibrate.py: RedmapperCalibrationIteration.run", "redmapper/calibration/calibrate.py: RedmapperCalibrationIterationFinal.run"]}
{"id": "C136", "title": "Every product comes from the products in the directory", "statement": "After any history of interrupted and restarted sessions, each product in the output directory is what its stage computes, for some random draws, from the very products that are in the directory and with the settings meant for that iteration: the right members, seeds, parameters, backgrounds, zreds, centering class and values, and redshift correction.", "quantifier": "all histories of sessions, all crash points, all products", "why_tests_cant": "a restart skips whatever exists and rebuilds the configuration as it goes; mixing of iterations or half-written stages shows only for particular crash points", "anchors": ["redmapper/calibration/calibrate.py: RedmapperCalibrator.run", "redmapper/calibration/calibrate.py: RedmapperCalibrationIteration.run", "redmapper/calibration/redsequencecal.py: RedSequenceCalibrator.run (198, 211)"]}
{"id": "C137", "title": "A restarted calibration completes", "statement": "After any history of interrupted sessions, one more session that is not interrupted runs to the end and leaves all products of all iterations.", "quantifier": "all histories, all crash points, all numbers of iterations >= 1", "why_tests_cant": "crash points between the files of one stage are never exercised by tests", "anchors": ["redmapper/calibration/calibrate.py: RedmapperCalibrator.run", "redmapper/calibration/selectspecred.py", "redmapper/redmapper_run.py: _consolidate", "redmapper/background.py: ZredBackgroundGenerator.run"]}
{"id": "C138", "title": "The run configuration points at existing calibration products", "statement": "The configuration a completed calibration writes for the cluster finder names the products of the last iteration, and every product it names is there (the zreds and the zred background only if the calibration covered the full footprint, as the log message says).", "quantifier": "all histories, footprint settings, numbers of iterations >= 1", "why_tests_cant": "depends on every combination of footprint options and restart history", "anchors": ["redmapper/calibration/calibrate.py: RedmapperCalibrator.output_configuration", "redmapper/calibration/calibrate.py: RedmapperCalibrator.run"]}
{"id": "C139", "title": "A completed calibration is not redone", "statement": "Running the calibration again when all its products are there completes without writing any product, with any random draws.", "quantifier": "all directories with all products, all random draws, all user settings, any number of iterations >= 1", "why_tests_cant": "quantifies over all directory contents and numbers of iterations", "anchors": ["redmapper/calibration/calibrate.py: RedmapperCalibrator.run", "redmapper/calibration/calibrate.py: RedmapperCalibrationIteration.run"]}
{"id": "C140", "title": "The cluster finder writes elsewhere than the calibration", "statement": "For every name of the calibration directory and every output base, the directory and the output base given to the cluster finder differ from them.", "quantifier": "all strings", "why_tests_cant": "all possible names, including several occurrences of the replaced part", "anchors": ["redmapper/calibration/calibrate.py: RedmapperCalibrator.output_configuration"]}
{"id": "C141", "title": "A correction that yields negative redshifts is refused", "statement": "The calibration stops with an error exactly when the redshift correction it just fitted makes the redshift of some cluster negative.", "quantifier": "all catalogs and corrections", "why_tests_cant": "a test with one cluster cannot tell which clusters are looked at", "anchors": ["redmapper/calibration/calibrate.py: RedmapperCalibrationIteration.run (503-545)"]}
{"id": "C142", "title": "A multiprocessing run does not depend on the schedule or on earlier interruptions", "statement": "Whatever runs with check were started and interrupted before and whatever the order in which the worker processes advance, a run with check whose workers finish fails on no pixel, leaves for every pixel the catalogs an undisturbed run of that pixel alone would leave, reports them accordingly, and hands to the consolidation exactly the pixels that have such a catalog, in the order of the pixels. Every worker finishes after a bounded number of its own steps.", "quantifier": "all histories of interrupted runs, all schedules, all pixel lists, all (deterministic) stages", "why_tests_cant": "tests run one schedule without interruption", "anchors": ["/repo/redmapper/redmapper_run.py:RedmapperRun.run", "/repo/redmapper/redmapper_run.py:RedmapperRun._worker", "/repo/redmapper/cluster_runner.py:ClusterRunner.output"]}
{"id": "C143", "title": "A restarted run has the members of every catalog", "statement": "After any history of interrupted runs with check, a run with check whose workers finish leaves for every pixel the members that belong to its catalog.", "quantifier": "all crash points, all histories, all schedules", "why_tests_cant": "tests do not crash between two writes", "anchors": ["/repo/redmapper/redmapper_run.py:RedmapperRun.run", "/repo/redmapper/redmapper_run.py:RedmapperRun._worker", "/repo/redmapper/cluster_runner.py:ClusterRunner.output"]}
{"id": "C144", "title": "A run without check ignores the files it finds", "statement": "A run without check reports and writes, for every pixel, what an undisturbed run of that pixel in an empty directory would, whatever files were there.", "quantifier": "all files found, all schedules, all stages", "why_tests_cant": "all directory contents", "anchors": ["/repo/redmapper/redmapper_run.py:RedmapperRun.run", "/repo/redmapper/redmapper_run.py:RedmapperRun._worker", "/repo/redmapper/cluster_runner.py:ClusterRunner.output"]}
{"id": "C145", "title": "Pixel jobs do not share files", "statement": "Two pixel jobs of one output base use the same file names only if they are the same pixel at the same resolution, including pixel numbers of more than five digits.", "quantifier": "all output bases, resolutions and pixel numbers", "why_tests_cant": "all numbers", "anchors": ["/repo/redmapper/redmapper_run.py:RedmapperRun._worker"]}
{"id": "C146", "title": "Percolation-only pixel jobs do not share files", "statement": "In the percolation-only mode two pixel jobs of one output base use the same file only if they are the same pixel at the same resolution, so that a restart with another split never takes over the catalog of a different area.", "quantifier": "all output bases, resolutions and pixel numbers", "why_tests_cant": "needs a restart with another number of processes", "anchors": ["/repo/redmapper/redmapper_run.py:RedmapperRun._percolation_only_worker"]}
{"id": "C147", "title": "Forbidden argument combinations are refused and the configuration is restored", "statement": "A run is refused exactly for spectroscopic mode without kept redshifts and for percolation-only in spectroscopic mode, before any work; workers see the split resolution and the given seed file; after the call the configuration of the run object is what it was, whatever happened.", "quantifier": "all arguments, configurations and outcomes of the workers", "why_tests_cant": "includes calls that fail", "anchors": ["/repo/redmapper/redmapper_run.py:RedmapperRun.run"]}
{"id": "C148", "title": "Prepared members carry the redshift of their own cluster", "statement": "Preparing the members refuses exactly the modes other than z_init and cg; otherwise the output has exactly one row per sufficiently probable member of a sufficiently rich cluster whose redshift agrees with its photometric redshift, in the order of the members, with the redshift of its own cluster (plus smoothing), its own magnitudes, and the central flag exactly for radii below 0.0001; clusters with repeated ids make it fail before anything is written.", "quantifier": "all catalogs, members, configurations and random draws", "why_tests_cant": "all catalogs", "anchors": ["/repo/redmapper/calibration/prepmembers.py:PrepMembers.run"]}
{"id": "C149", "title": "Missing spectra never become training redshifts", "statement": "In the cg mode without smoothing no prepared member has the marker -1 of a missing spectrum as its redshift.", "quantifier": "all catalogs", "why_tests_cant": "needs clusters with a large redshift error", "anchors": ["/repo/redmapper/calibration/prepmembers.py:PrepMembers.run"]}
{"id": "C150", "title": "Spectroscopic seeds are the galaxies closest to good spectra", "statement": "Every seed is the galaxy closest to a spectrum that lies in the cushioned redshift range (never below 0.05) with a small error, within the match radius, with that spectrum's redshift, and has a valid zred (or reference magnitude if there are no zreds); every good spectrum with a good closest galaxy within the radius gives a seed; no spectrum gives two.", "quantifier": "all galaxy and spectroscopic catalogs, with and without zreds", "why_tests_cant": "all catalogs", "anchors": ["/repo/redmapper/calibration/selectspecseeds.py:SelectSpecSeeds.run", "/repo/redmapper/configuration.py:Configuration.zrange_cushioned"]}
{"id": "C151", "title": "No galaxy is a seed twice", "statement": "A galaxy appears at most once among the spectroscopic seeds.", "quantifier": "all catalogs", "why_tests_cant": "needs repeated spectra of one object", "anchors": ["/repo/redmapper/calibration/selectspecseeds.py:SelectSpecSeeds.run"]}
{"id": "C152", "title": "The color run trains on members of accepted clusters only", "statement": "The members written for training by the color run are exactly those with a color probability above the cut that belong to a cluster that passes the richness, scale and mask cuts, in their order and unchanged except for the smoothing of the redshift; the catalog has exactly these clusters; repeated ids make it fail.", "quantifier": "all catalogs, members and random draws", "why_tests_cant": "all catalogs", "anchors": ["/repo/redmapper/run_colormem.py:RunColormem._postprocess", "/repo/redmapper/run_colormem.py:RunColormem.output_training"]}
{"id": "C153", "title": "The cut seeds are the seeds of rich clusters", "statement": "After the first iteration exactly the seeds matched to a cluster above the percolation richness limit are kept, unchanged: every kept seed is the closest one to such a cluster within the radius, every such cluster with a seed in the radius keeps one, and there are no more kept seeds than such clusters.", "quantifier": "all catalogs and seeds", "why_tests_cant": "all catalogs", "anchors": ["/repo/redmapper/calibration/calibrate.py:RedmapperCalibrator.run"]}
{"id": "C154", "title": "Fits of the redshift correction touch only what is fitted and never get worse", "statement": "A fit of the afterburner correction is refused with a ValueError exactly if none of offset, slope and scatter is to be fitted. Otherwise it leaves the other blocks as they were, returns blocks of the sizes of their nodes, and the negative log likelihood (with the penalty of ten thousand for a scatter below the minimum) is not larger than at the start, through the whole sequence of fits of a pass; the likelihood is that of the true redshift scattering about the measured one plus offset and slope times log of richness over scale over pivot, with error and scatter in quadrature.", "quantifier": "for all catalogs, nodes, starting values, choices of what to fit and minimizers that do not return something worse than their start", "why_tests_cant": "The packing of blocks into one parameter vector has seven combinations with any number of nodes; a test fixes the nodes and the data.", "anchors": ["redmapper/calibration/zlambdacal.py:ZLambdaFitter.fit", "redmapper/calibration/zlambdacal.py:ZLambdaFitter.__call__", "redmapper/calibration/zlambdacal.py:ZLambdaCalibrator.run"]}
{"id": "C155", "title": "The redshift correction is not calibrated through empty redshift bins", "statement": "The calibration stops with a RuntimeError exactly if in some interval between neighbouring nodes (closed below, the last closed on both sides) no cluster has a positive scale, a richness over scale above the minimum and a masked fraction below the maximum; otherwise it goes on with exactly these clusters.", "quantifier": "for all catalogs, nodes and limits", "why_tests_cant": "Clusters at nodes, at the ends of the range and outside it, and failed clusters, occur in any combination.", "anchors": ["redmapper/calibration/zlambdacal.py:ZLambdaCalibrator.run"]}
{"id": "C156", "title": "Every iteration of the correction is fitted to redshifts as they will be when it is applied", "statement": "In the iterations of the correction given the measured redshift, iteration n is fitted to the original redshifts shifted by exactly the first n iterations of the parameters finally saved, one after the other; nothing else of the clusters changes but the error.", "quantifier": "for all catalogs, numbers of iterations and iterations n", "why_tests_cant": "Applying a correction to an already corrected catalog shows only in repeated iterations and only as a slightly different fit.", "anchors": ["redmapper/calibration/zlambdacal.py:ZLambdaCalibrator.run", "redmapper/zlambda.py:ZlambdaCorrectionPar.apply_correction"]}
{"id": "C157", "title": "Every iteration of the correction is fitted with the errors as they will be when it is applied", "statement": "In iteration n the error of a cluster is the original error with the scatters of exactly the first n iterations of the correction added in quadrature.", "quantifier": "for all catalogs, numbers of iterations and iterations n", "why_tests_cant": "The extra contribution of iterations not fitted yet is a thousandth per iteration, below the tolerance of a test.", "anchors": ["redmapper/calibration/zlambdacal.py:ZLambdaCalibrator.run", "redmapper/zlambda.py:ZlambdaCorrectionPar.__init__"]}
{"id": "C158", "title": "The correction is applied with the richness it was fitted with", "statement": "The shift of a cluster by the correction is the one that the fit found for its richness: fit and application use the same richness variable.", "quantifier": "for all clusters and fitted values", "why_tests_cant": "It shows only for scales different from one and a fitted slope.", "anchors": ["redmapper/calibration/zlambdacal.py:ZLambdaCalibrator.run", "redmapper/cluster_runner.py:ClusterRunner.run"]}
{"id": "C159", "title": "Redshift outliers do not enter the correction", "statement": "The first pass of an iteration uses exactly the clusters off by less than three times their error, the second exactly those off by less than three times error and fitted scatter in quadrature; removing any clusters off by more from the catalog changes no fitted value.", "quantifier": "for all catalogs with errors that are not negative and all subsets of the outliers", "why_tests_cant": "It is a statement about two runs on different catalogs.", "anchors": ["redmapper/calibration/zlambdacal.py:ZLambdaCalibrator.run"]}
{"id": "C160", "title": "The redshift scan covers the range and records every step", "statement": "The redshift steps of a scan start at the lower end of the configured range, are evenly spaced, stay below the upper end and leave a gap of at most one step to it. A scan records for every step the richness if at least two galaxies are bright enough and within the radius and the richness reaches the minimum, and minus one otherwise; the reported likelihood is the largest of all steps, at the redshift of the first step that has it.", "quantifier": "for all redshift ranges, step sizes, positions and neighbor lists", "why_tests_cant": "Ranges that are not multiples of the step and steps with exactly one or two galaxies.", "anchors": ["redmapper/run_zscan.py:RunZScan._more_setup", "redmapper/run_zscan.py:RunZScan._process_cluster"]}
{"id": "C161", "title": "The redshift scan does not miss a cluster", "statement": "If at some redshift step there is a cluster (two galaxies and a richness that reaches the minimum), the step that the scan reports has a cluster and the position is not given up.", "quantifier": "for all positions, neighbor lists and membership probabilities", "why_tests_cant": "It compares the likelihood of real steps with the placeholder of empty ones; this needs the inequality between logarithm and probability for all members.", "anchors": ["redmapper/run_zscan.py:RunZScan._process_cluster"]}
{"id": "C162", "title": "The values reported by the redshift scan belong together", "statement": "A position is reported with a cluster exactly if the best step is rich enough, the richness over scale reaches the minimum both at its redshift and at the redshift fitted from there, and this fit succeeds. The reported redshift is the fitted one, the reported richness is the one at this redshift, and the optical center and its richness and redshift, if a center is found, are those at this redshift.", "quantifier": "for all positions, richness and redshift computations", "why_tests_cant": "The loop carries redshift, richness and flags from turn to turn; a test follows one path.", "anchors": ["redmapper/run_zscan.py:RunZScan._process_cluster"]}
{"id": "C163", "title": "What a red-sequence fit accepts and returns", "statement": "Building a red-sequence fitter raises ValueError unless every array that is given has one entry per redshift, the largest scatter has one per scatter node and probabilities come with backgrounds. A fit raises exactly if nothing is fitted or a slope is wanted without magnitudes. Otherwise it returns mean, slope and scatter, as far as they are fitted and in this order, with one value per node; fitted scatters lie between the minimum and the largest scatter of their node, and fitted error-ratio parameters follow the scatters and lie in [1/2, 10] and [-5, 5].", "quantifier": "for all arrays, node lists, combinations of fitted parts, starting values and minimizers that respect bounds", "why_tests_cant": "The slicing of the parameter vector depends on the combination of parts and on the numbers of nodes.", "anchors": ["redmapper/fitters.py:RedSequenceFitter.__init__", "redmapper/fitters.py:RedSequenceFitter.fit"]}
{"id": "C164", "title": "The cost of a red-sequence fit depends on the parameters only", "statement": "Evaluating the cost of a red-sequence fit twice with the same parameters gives the same value, the value is the negative log likelihood of the colors for these parameters and the errors given to the fitter, and neither evaluations nor fits change these errors.", "quantifier": "for all fitters, parameters and histories of evaluations and fits", "why_tests_cant": "A single evaluation is right; the errors change from call to call.", "anchors": ["redmapper/fitters.py:RedSequenceFitter.__call__", "redmapper/fitters.py:RedSequenceFitter.fit"]}
{"id": "C165", "title": "A red-sequence fit is not worse than its start", "statement": "The values that a red-sequence fit returns are at least as likely, for the errors given to the fitter, as the starting values, if these respect the bounds.", "quantifier": "for all fitters, starting values and minimizers that do not end worse than they start", "why_tests_cant": "It needs the cost to be one function over the whole minimization.", "anchors": ["redmapper/fitters.py:RedSequenceFitter.fit"]}
{"id": "C166", "title": "The fits of a color never make the red sequence less likely", "statement": "The sequence of fits of one color (mean, slope, scatter, all three) returns values that are at least as likely as those it started from and as those after any of its fits.", "quantifier": "for all training galaxies, starting values and minimizers that do not end worse than they start", "why_tests_cant": "It chains four minimizations through shared state.", "anchors": ["redmapper/calibration/redsequencecal.py:RedSequenceCalibrator._calc_diagonal_pars"]}
{"id": "C167", "title": "The fits of the redshift corrections", "statement": "The sequence of fits of the corrections of photometric redshifts succeeds and returns one value per node for offset, slope, error factor and outlier variance, with error factors in [0.1, 2] and variances not negative, at least as likely as the start; without a slope fit the slopes are unchanged. A single fit raises exactly if nothing is fitted and changes only the parts that are fitted.", "quantifier": "for all galaxies, nodes, starting values within bounds and minimizers that do not end worse than they start", "why_tests_cant": "The slicing of parameters depends on the combination of parts; the comparison is over all data.", "anchors": ["redmapper/fitters.py:CorrectionFitter", "redmapper/calibration/redsequencecal.py:RedSequenceCalibrator._calc_corrections"]}
{"id": "C168", "title": "The two-component color mixture", "statement": "The fit of two components to colors returns weights that sum to one, with the component of larger mean last, which are at least as likely as the start for the given colors, whatever the offset used during the fit; means, widths and weights respect the default bounds, and the fitter is left with the colors it was given.", "quantifier": "for all color lists, errors, offsets and starting values within bounds", "why_tests_cant": "Swapping of the components and the offset have to cancel for all values.", "anchors": ["redmapper/fitters.py:EcgmmFitter.fit"]}
{"id": "C169", "title": "The order in which colors are calibrated", "statement": "The calibration of the red sequence fits every color exactly once, starting at the reference band and going outward: of the two bands of a color one is the reference band or was reached by an earlier color, the other is new.", "quantifier": "for all numbers of bands and reference bands", "why_tests_cant": "All numbers of bands and positions of the reference band.", "anchors": ["redmapper/calibration/redsequencecal.py:RedSequenceCalibrator._calc_diagonal_pars"]}
{"id": "C170", "title": "Luptitude corrections follow the model colors", "statement": "For every galaxy, the luptitude correction used in the fit of a color is the difference between luptitude and magnitude color for the magnitudes that follow from the observed reference magnitude and the model colors between the reference band and this color.", "quantifier": "for all numbers of bands, reference bands, magnitudes and model colors", "why_tests_cant": "The magnitudes are propagated band by band in two directions.", "anchors": ["redmapper/calibration/redsequencecal.py:RedSequenceCalibrator._compute_single_lupcorr", "redmapper/calibration/redsequencecal.py:RedSequenceCalibrator._calc_diagonal_pars"]}
{"id": "C171", "title": "Every band gets one error ratio", "statement": "With fitted error ratios, every band gets exactly one ratio: the first two bands the one fitted for both, every other band the one fitted for it alone while the errors of its neighbor are scaled with the neighbor's final ratio. Without fitted ratios all are one.", "quantifier": "for all numbers of bands (at least two), reference bands and fit results", "why_tests_cant": "The bookkeeping depends on the direction and on the order of colors.", "anchors": ["redmapper/calibration/redsequencecal.py:RedSequenceCalibrator._calc_diagonal_pars"]}
{"id": "C172", "title": "Starting values at redshift nodes", "statement": "Starting values use, for every node, the galaxies strictly between the first and last node that are closer to this node than to any other; nodes with fewer galaxies than required repeat the closest earlier node with enough, or are zero; slopes are never positive; exactly one of median and line has to be chosen.", "quantifier": "for all nodes, galaxies and requirements", "why_tests_cant": "All positions of galaxies and nodes.", "anchors": ["redmapper/calibration/redsequencecal.py:RedSequenceCalibrator._compute_startvals"]}
{"id": "C173", "title": "Starting slopes can be looked up", "statement": "For nodes of colors and slopes made for one redshift range, the starting slopes are always found: each slope node gets the slope of the first color node that is not below it.", "quantifier": "for all redshift ranges, node sizes and highest useful nodes", "why_tests_cant": "The lookup would leave the table if the last slope node were beyond the last color node.", "anchors": ["redmapper/calibration/redsequencecal.py:RedSequenceCalibrator._calc_diagonal_pars", "redmapper/utilities.py:make_nodes"]}
{"id": "C174", "title": "The calibrated covariance is a covariance", "statement": "The covariance matrix that the calibration writes at every node is symmetric and positive semidefinite, with the squared scatters on the diagonal and the configured correlation between all colors.", "quantifier": "for all numbers of colors, scatters and configured correlations", "why_tests_cant": "Positive semidefiniteness for all dimensions.", "anchors": ["redmapper/calibration/redsequencecal.py:RedSequenceCalibrator._calc_offdiagonal_pars"]}
{"id": "C175", "title": "The volume factor", "statement": "The volume factor is positive, one at the highest redshift, at most one below and does not decrease with redshift, if comoving distances grow less and less with redshift.", "quantifier": "for all cosmologies of that kind and all redshifts", "why_tests_cant": "All cosmologies and redshifts.", "anchors": ["redmapper/calibration/redsequencecal.py:RedSequenceCalibrator._calc_volume_factor"]}
{"id": "C176", "title": "The likelihood cut of the corrections removes five percent", "statement": "Of n galaxies, the redshift corrections leave out for their likelihood exactly the n/20 + 1 least likely ones.", "quantifier": "for all catalogs", "why_tests_cant": "Ties and sizes.", "anchors": ["redmapper/calibration/redsequencecal.py:RedSequenceCalibrator._calc_corrections"]}
{"id": "C177", "title": "The redshift corrections of the calibration", "statement": "For every catalog that is not empty, both modes of the corrections give one offset per offset node and one slope and error factor per slope node, error factors between 0.1 and 2, no slopes if none are wanted, and are at least as likely as the starting values for the galaxies that pass the cuts, which are weighted between one half and one and have probabilities of at most 0.99; the first mode is a function of true redshift and the second of photometric redshift.", "quantifier": "for all catalogs, nodes and minimizers that respect bounds and do not end worse than they start", "why_tests_cant": "It combines cuts, starting values and five minimizations for all catalogs.", "anchors": ["redmapper/calibration/redsequencecal.py:RedSequenceCalibrator._calc_corrections"]}
{"id": "C178", "title": "The parameter file has the corrections of its red sequence", "statement": "Whenever a parameter file exists after a session, it has both corrections, computed with the red sequence that is in the file.", "quantifier": "for all histories of runs, crash points and files from before", "why_tests_cant": "Crash points and earlier files.", "anchors": ["redmapper/calibration/redsequencecal.py:RedSequenceCalibrator.run", "redmapper/calibration/redsequencecal.py:RedSequenceCalibrator.save_pars", "redmapper/calibration/calibrate.py:RedmapperCalibrationIteration"]}
{"id": "C179", "title": "Clusters outside of the cuts do not influence the centering calibration", "statement": "The saved centering model is the same if clusters, random points and satellites outside of the configured ranges of scaled richness, redshift and mask fraction, or without connectivity, are removed beforehand.", "quantifier": "for all catalogs, files and settings", "why_tests_cant": "All catalogs.", "anchors": ["redmapper/calibration/centeringcal.py:WcenCalibrator.run"]}
{"id": "C180", "title": "Widths of the connectivity of random points and satellites", "statement": "The widths of the connectivity of foreground and satellites that the calibration saves are positive, and the saved values at least as likely as mean and standard deviation.", "quantifier": "for all catalogs and minimizers that do not end worse than they start", "why_tests_cant": "All catalogs, also tiny ones.", "anchors": ["redmapper/calibration/centeringcal.py:WcenFgFitter", "redmapper/calibration/centeringcal.py:WcenCalibrator.run"]}
{"id": "C181", "title": "The central model has the largest likelihood", "statement": "The saved magnitude and connectivity of centrals have positive widths and the largest likelihood.", "quantifier": "for all catalogs and minimizers that do not end worse than they start", "why_tests_cant": "A statement about all parameters and catalogs.", "anchors": ["redmapper/calibration/centeringcal.py:WcenCFitter", "redmapper/calibration/centeringcal.py:WcenCwFitter", "redmapper/calibration/centeringcal.py:WcenCalibrator.run"]}
{"id": "C182", "title": "Random points and satellites are kept apart", "statement": "The saved foreground values come from the file of random points, the satellite values from the file of satellites, and without file from the configuration.", "quantifier": "for all files and configured values", "why_tests_cant": "All combinations of files, including equal ones.", "anchors": ["redmapper/calibration/centeringcal.py:WcenCalibrator.run"]}
{"id": "C183", "title": "A first iteration without random files is refused", "statement": "The first iteration is refused exactly if a random file is missing and its values are not configured; after it was accepted no value that is not set is saved.", "quantifier": "for all iterations, files and configured values", "why_tests_cant": "All combinations.", "anchors": ["redmapper/calibration/centeringcal.py:WcenCalibrator.__init__"]}
{"id": "C184", "title": "One model of the brightest galaxy for all iterations", "statement": "The model of the brightest galaxy of a luminosity function is the same in all iterations of the calibration.", "quantifier": "for all numbers of iterations, Monte Carlo results and configurations", "why_tests_cant": "It passes through a file in every iteration.", "anchors": ["redmapper/calibration/centeringcal.py:WcenCalibrator.run", "redmapper/configuration.py:Configuration._wcen_vals", "redmapper/calibration/calibrate.py"]}
{"id": "C185", "title": "The brightest galaxies of a richness", "statement": "Each trial of the Monte Carlo gives the three brightest of as many galaxies as the richness, drawn without repetition.", "quantifier": "for all luminosities, random orders and richnesses", "why_tests_cant": "All random orders.", "anchors": ["redmapper/calibration/centeringcal.py:WcenCalibrator._schechter_montecarlo_calib"]}
{"id": "C186", "title": "Centering applies the calibrated model", "statement": "For clusters of the calibration, centering uses the mean magnitude and the widths of connectivity of the calibration.", "quantifier": "for all clusters and calibrated values", "why_tests_cant": "All richnesses and scales.", "anchors": ["redmapper/calibration/centeringcal.py:WcenCalibrator.run", "redmapper/centering.py:CenteringWcenZred"]}
{"id": "C187", "title": "Neighbors are looked for far enough", "statement": "For clusters of richness up to 300 the search for neighbors covers the cluster radius, the radius within which galaxies are masked and the annulus of the local background.", "quantifier": "for all radii, slopes, richnesses and redshifts", "why_tests_cant": "A relation between settings, richness and redshift.", "anchors": ["redmapper/cluster_runner.py:ClusterRunner._setup", "redmapper/cluster_runner.py:ClusterRunner.run"]}
{"id": "C188", "title": "Galaxies are read down to all luminosities in use", "statement": "A run with valid settings starts, and reads galaxies down to the reference luminosity, the member luminosity if used and the luminosity down to which galaxies are masked.", "quantifier": "for all configured luminosities", "why_tests_cant": "A relation between three settings, one of them optional.", "anchors": ["redmapper/cluster_runner.py:ClusterRunner._setup", "redmapper/run_percolation.py:RunPercolation._more_setup", "redmapper/runcat.py:RunCatalog._more_setup"]}
{"id": "C189", "title": "Derivatives of the richness", "statement": "The saved derivatives are first and second derivatives of log richness, and of its variance, at the redshift of the cluster: exact if log richness and variance are quadratic in redshift. Without positive richness on both sides nothing is saved.", "quantifier": "for all richness functions, redshifts and steps", "why_tests_cant": "An identity over all functions.", "anchors": ["redmapper/cluster_runner.py:ClusterRunner.run"]}
{"id": "C190", "title": "Matched centers take their values from one galaxy", "statement": "After matching, each center has magnitudes, errors and redshift of one galaxy it matches, or without match its own.", "quantifier": "for all centers, galaxies and lists of matches", "why_tests_cant": "All lists of matches, including several for a center and none.", "anchors": ["redmapper/cluster_runner.py:ClusterRunner.run"]}
{"id": "C191", "title": "Readers get the catalog of the run that wrote last", "statement": "After output, the catalog file and the member file give the catalog and members of that run.", "quantifier": "for all earlier files and settings", "why_tests_cant": "It depends on files left by earlier runs.", "anchors": ["redmapper/cluster_runner.py:ClusterRunner.output"]}
{"id": "C192", "title": "Training galaxies have good spectra", "statement": "Every training galaxy is the galaxy closest to a spectrum with a good redshift within 3 arcseconds, has this redshift, and is inside of the redshift range and brighter than the limit; every such spectrum gives a training galaxy.", "quantifier": "for all galaxy and spectroscopic catalogs and settings", "why_tests_cant": "All catalogs.", "anchors": ["redmapper/calibration/selectspecred.py:SelectSpecRedGalaxies.run"]}
{"id": "C193", "title": "Trimming of the colors", "statement": "The mixture that finds the red sequence uses the galaxies whose color residual ranks above 5% and below 99%.", "quantifier": "for all catalogs, also with equal colors", "why_tests_cant": "All catalogs.", "anchors": ["redmapper/calibration/selectspecred.py:SelectSpecRedGalaxies.run"]}
{"id": "C194", "title": "Colors are fitted independently", "statement": "What is saved for a color depends on the data of this color only, not on other colors, nor on which other colors are calibrated, in which order or how often; colors that are not calibrated stay zero.", "quantifier": "for all catalogs and lists of modes", "why_tests_cant": "All lists of modes.", "anchors": ["redmapper/calibration/selectspecred.py:SelectSpecRedGalaxies.run"]}
{"id": "C195", "title": "Median fits give medians", "statement": "The median fit keeps to its bounds and is not worse than its start; its cost is smallest exactly if each node has a median of its galaxies.", "quantifier": "for all data, nodes, bounds and minimizers with the contract", "why_tests_cant": "A statement about all parameters and data.", "anchors": ["redmapper/fitters.py:MedZFitter"]}
{"id": "C196", "title": "Truncations are positive", "statement": "In the fit of mean and scatter every galaxy has a positive truncation and lies within it of the median color, and all galaxies that do are used.", "quantifier": "for all catalogs and fitted medians and widths, including negative widths", "why_tests_cant": "All fitted values.", "anchors": ["redmapper/calibration/selectspecred.py:SelectSpecRedGalaxies.run"]}
{"id": "C197", "title": "Selection of red galaxies", "statement": "The file of red galaxies has exactly the training galaxies that are within the configured number of standard deviations of the mean color of the mode of their redshift, in the same order.", "quantifier": "for all catalogs, modes, bounds and models", "why_tests_cant": "All catalogs, including redshifts on a bound and single galaxies.", "anchors": ["redmapper/calibration/selectspecred.py:SelectSpecRedGalaxies.run"]}
{"id": "C198", "title": "Error ratios in bins", "statement": "Every galaxy is in exactly one bin of magnitude; the fitted ratio is within its bounds, not worse than the start and independent of the units of color; without intrinsic scatter, errors too small by one factor are recovered exactly.", "quantifier": "for all data, bootstrap draws, bin sizes and minimizers with the contract", "why_tests_cant": "All data and random draws.", "anchors": ["redmapper/fitters.py:ErrorBinFitter"]}
{"id": "C199", "title": "The two background tables share a file safely", "statement": "The background file has at most one table of each generator; a run never changes the table of the other generator, and without clobber keeps a table that is there.", "quantifier": "for all histories of runs of both generators", "why_tests_cant": "All orders of runs and settings.", "anchors": ["redmapper/background.py:BackgroundGenerator.run", "redmapper/background.py:ZredBackgroundGenerator.run"]}
{"id": "C200", "title": "The color background file is complete", "statement": "After a run of the color background generator that returns, the file has the table of every pair of colors exactly once, also if earlier runs were interrupted.", "quantifier": "for all numbers of colors, earlier files and points of interruption", "why_tests_cant": "All crash points.", "anchors": ["redmapper/color_background.py:ColorBackgroundGenerator.run"]}
{"id": "C201", "title": "Galaxies in the table of redshifts", "statement": "The zred background counts exactly the galaxies of the region with chi-squared below the limit, photometric redshift in the range and magnitude inside the limits, each once.", "quantifier": "for all pixelized catalogs whose master table does not have too small numbers", "why_tests_cant": "All catalogs and splits into pixels, with rows that are not filled.", "anchors": ["redmapper/background.py:ZredBackgroundGenerator.run"]}
{"id": "C202", "title": "Counts are in the bin that is looked up", "statement": "A value is counted in the bin of the saved table that contains it.", "quantifier": "for all ranges, bin sizes and values in the range", "why_tests_cant": "All ranges, also those that are not a whole number of bins.", "anchors": ["redmapper/background.py:BackgroundGenerator.run", "redmapper/background.py:ZredBackgroundGenerator.run", "redmapper/color_background.py:ColorBackgroundGenerator.run"]}
{"id": "C203", "title": "Totals of the background tables", "statement": "Density times area times bin size summed over the background table is the number of galaxies counted; densities are not negative, and those of the zred table are positive.", "quantifier": "for all catalogs, areas, ranges and bin sizes", "why_tests_cant": "All catalogs, including galaxies near a border of the table.", "anchors": ["redmapper/background.py:BackgroundGenerator.run", "redmapper/background.py:ZredBackgroundGenerator.run"]}
{"id": "C204", "title": "Color ranges cover the populated bins", "statement": "The range of a color is from the first to the last bin with more than the minimum number of bright galaxies, so that it covers all of these; there is an error exactly if no bin has.", "quantifier": "for all catalogs, bin sizes and minimum numbers", "why_tests_cant": "All catalogs.", "anchors": ["redmapper/color_background.py:ColorBackgroundGenerator.run"]}
{"id": "C205", "title": "Magnitude limit of a redshift bin", "statement": "The galaxies counted at a redshift go at least to the magnitude that is wanted there or to the limit of the catalog, and at most one bin beyond.", "quantifier": "for all limits, bin sizes and redshifts", "why_tests_cant": "All limits and sizes.", "anchors": ["redmapper/background.py:BackgroundGenerator._worker"]}
{"id": "C206", "title": "Galaxies beyond the limit are in no table", "statement": "Galaxies fainter than the magnitude limit of a redshift bin are counted in neither chi-squared table of this bin.", "quantifier": "for all largest values of chi-squared", "why_tests_cant": "Bounds of real exponentials, for all settings.", "anchors": ["redmapper/background.py:BackgroundGenerator._worker"]}
{"id": "C207", "title": "Meaning of the fitted limiting magnitude", "statement": "By the model that calcErrorModel returns, a galaxy has at least the significance asked for exactly if it is not fainter than the returned limiting magnitude.", "quantifier": "for all catalogs, zero points, significances and magnitudes", "why_tests_cant": "An equivalence for all magnitudes and fits.", "anchors": ["redmapper/depth_fitting.py:calcErrorModel", "redmapper/depth_fitting.py:DepthFunction"]}
{"id": "C208", "title": "Errors determine depth and exposure", "statement": "If the errors of galaxies of at least two magnitudes are those of a depth and exposure time, the function that is minimized is zero exactly at these.", "quantifier": "for all depths, exposure times, magnitudes and parameters", "why_tests_cant": "Uniqueness among all parameters.", "anchors": ["redmapper/depth_fitting.py:DepthFunction"]}
{"id": "C209", "title": "The depth fit is physical and no worse than what is tried", "statement": "If the fit succeeds the exposure time is positive, the sky flux not negative, and the errors of the galaxies are described at least as well as by every exposure time that is tried.", "quantifier": "for all catalogs and minimizers with the contract", "why_tests_cant": "All catalogs, also very deep ones.", "anchors": ["redmapper/depth_fitting.py:calcErrorModel"]}
{"id": "C210", "title": "Galaxies used for the depth", "statement": "The depth fit uses exactly the galaxies with finite magnitude, finite positive error, enough significance and magnitude below the 98% quantile; without usable galaxies it reports failure.", "quantifier": "for all catalogs, also with values that are not finite, or empty", "why_tests_cant": "All catalogs.", "anchors": ["redmapper/depth_fitting.py:calcErrorModel"]}
{"id": "C211", "title": "Depth does not depend on the zero point", "statement": "The limiting magnitude, the fraction of outliers and the model errors do not depend on the zero point of the fit.", "quantifier": "for all catalogs, zero points and minimizers that do not see units", "why_tests_cant": "All zero points.", "anchors": ["redmapper/depth_fitting.py:calcErrorModel", "redmapper/depth_fitting.py:DepthFunction"]}
{"id": "C212", "title": "Depth of mask galaxies from data", "statement": "After calc_maskdepth all mask galaxies have the depth and exposure time of the local fit, or of the global fit if the local fit fails; a global fit that fails raises RuntimeError.", "quantifier": "for all catalogs and mask galaxies", "why_tests_cant": "All catalogs.", "anchors": ["redmapper/depth_fitting.py:DepthLim"]}
{"id": "C213", "title": "Bootstrap errors of the depth", "statement": "The bootstrap errors are not negative, zero if all trials agree, and the returned parameters stay consistent.", "quantifier": "for all trials", "why_tests_cant": "All random draws.", "anchors": ["redmapper/depth_fitting.py:calcErrorModel"]}
{"id": "C214", "title": "Coverage pixels of a region", "statement": "The coverage pixels that are read for a region are exactly those that overlap it (with a border: those and the ones the border touches), each once, so that the map can be read; no pixels, or several with a border, are errors.", "quantifier": "for all regions, nsides, coverage nsides and borders", "why_tests_cant": "All combinations of resolutions and pixels.", "anchors": ["redmapper/utilities.py:get_healsparse_subpix_indices"]}
{"id": "C215", "title": "Maps can be asked anywhere", "statement": "Depth, coverage and volume limit at a list of positions are one value per position: that of the map on the sky and a value that means outside beyond the poles; only different lengths raise.", "quantifier": "for all lists of positions", "why_tests_cant": "All positions, also beyond the poles.", "anchors": ["redmapper/depthmap.py:DepthMap.get_depth_values", "redmapper/depthmap.py:DepthMap.get_fracgoods", "redmapper/volumelimit.py:VolumeLimitMask"]}
{"id": "C216", "title": "Volume limit masks are those asked for", "statement": "In any sequence of volume limit masks opened without a file name each object has the mask of its own luminosity and kind.", "quantifier": "for all sequences of luminosities and kinds, in an empty directory", "why_tests_cant": "All histories of a directory.", "anchors": ["redmapper/volumelimit.py:VolumeLimitMask"]}
{"id": "C217", "title": "Volume limit from the geometry", "statement": "A volume limit mask made from the geometry has exactly the pixels of the mask with their coverage, and the upper redshift of the run everywhere.", "quantifier": "for all masks", "why_tests_cant": "All masks.", "anchors": ["redmapper/volumelimit.py:VolumeLimitMask._build_geometry_mask"]}
{"id": "C218", "title": "Every mask mode gives a mask or an error", "statement": "get_mask gives the mask of the mode in the configuration, or raises if there is none.", "quantifier": "for all modes", "why_tests_cant": "All integers.", "anchors": ["redmapper/mask.py:get_mask"]}
{"id": "C219", "title": "Radial bins of the mask galaxies cover the clusters", "statement": "The radius of every cluster lies between the first and the last radial bin of the mask galaxies; bins are one step apart.", "quantifier": "for all percolation parameters, steps and richnesses", "why_tests_cant": "Real parameters.", "anchors": ["redmapper/mask.py:Mask.gen_maskgals"]}
{"id": "C220", "title": "Normalization of the mask galaxies", "statement": "The number of mask galaxies inside each radius counts the bright galaxies of the own sample with the weight of the radius, is between zero and the size of the sample and does not decrease with radius; without softening it is the number inside.", "quantifier": "for all samples, radii, edges", "why_tests_cant": "All random samples.", "anchors": ["redmapper/mask.py:Mask.gen_maskgals"]}
{"id": "C221", "title": "Mask galaxies belong to the run and the cluster", "statement": "Mask galaxies that are read were made with the settings of the run, or there is an error; around a cluster they are at their own physical offsets.", "quantifier": "for all files, settings and clusters", "why_tests_cant": "All files and positions.", "anchors": ["redmapper/mask.py:Mask.read_maskgals", "redmapper/mask.py:Mask.set_radmask"]}
{"id": "C222", "title": "Cost of the redMaGiC calibration", "statement": "The function that the calibration minimizes is Pearson's chi-squared of the numbers of galaxies selected in redshift bins against density times volume, with a penalty exactly if a parameter is below 0.1; it is never negative, and zero exactly if the density is met in every bin.", "quantifier": "for all galaxies, parameters, densities and volumes", "why_tests_cant": "All parameters and samples.", "anchors": ["redmapper/redmagic/redmagic_calibrate.py:RedmagicParameterFitter"]}
{"id": "C223", "title": "Redshift bins of the redMaGiC calibration", "statement": "The bins of the calibration cover the redshift range of the mode less the buffer, stay within the mode, and every selected galaxy with a sampled redshift in the range is counted in the one bin that contains it.", "quantifier": "for all ranges, buffers, bin sizes and samples", "why_tests_cant": "Real parameters; rounding to whole bins.", "anchors": ["redmapper/redmagic/redmagic_calibrate.py:RedmagicCalibrator.run", "redmapper/redmagic/redmagic_calibrate.py:RedmagicParameterFitter"]}
{"id": "C224", "title": "Areas for the redMaGiC calibration", "statement": "The area at every bin and node of the calibration is that of the closest tabulated redshift not below, so that the volume is defined for every mode that is configured.", "quantifier": "for all tables, modes and redshifts", "why_tests_cant": "All configurations.", "anchors": ["redmapper/redmagic/redmagic_calibrate.py:RedmagicCalibrator.run", "redmapper/volumelimit.py:VolumeLimitMask.get_areas"]}
{"id": "C225", "title": "Start of the redMaGiC calibration", "statement": "At every node the fit starts at the chi-squared below which the galaxies near the node have the wanted density, or at the largest if there are too few.", "quantifier": "for all galaxies, nodes, densities and volumes", "why_tests_cant": "All samples, also without galaxies near a node.", "anchors": ["redmapper/redmagic/redmagic_calibrate.py:RedmagicCalibrator.run"]}
{"id": "C226", "title": "Training sample of the afterburner", "statement": "The afterburner is trained on different galaxies with calibration redshifts, as many as the configured fraction rounded down.", "quantifier": "for all samples, fractions in [0, 1] and random numbers", "why_tests_cant": "All random draws.", "anchors": ["redmapper/redmagic/redmagic_calibrate.py:RedmagicCalibrator.run"]}
{"id": "C227", "title": "Calibration redshifts of redMaGiC galaxies", "statement": "A galaxy has a calibration redshift exactly if it is a member of a cluster with a probability above the cut; then it has the redshift of such a membership and the redshift error of that cluster.", "quantifier": "for all member and cluster catalogs", "why_tests_cant": "All catalogs with multiple memberships.", "anchors": ["redmapper/redmagic/redmagic_calibrate.py:RedmagicCalibrator.run"]}
{"id": "C228", "title": "Recorded redMaGiC parameters", "statement": "The calibration records one value per node, corrections within their bounds and none without the afterburner; with the recorded corrections the recorded chi-squared is at least as good as the start.", "quantifier": "for all samples and minimizers with the contract", "why_tests_cant": "All minimizers and iterations.", "anchors": ["redmapper/redmagic/redmagic_calibrate.py:RedmagicCalibrator.run", "redmapper/redmagic/redmagic_calibrate.py:RedmagicParameterFitter"]}
{"id": "C229", "title": "Modes and volume limits of the redMaGiC calibration", "statement": "After a calibration the parameter file has exactly the modes of the configuration with the parameters of this run, and every mode was calibrated with the volume limit of its own luminosity, from the depth map if there is one.", "quantifier": "for all configurations and previous files", "why_tests_cant": "All histories of the directory.", "anchors": ["redmapper/redmagic/redmagic_calibrate.py:RedmagicCalibrator.run", "redmapper/redmagic/redmagic_selector.py:RedmagicSelector"]}
{"id": "C230", "title": "Saved red-sequence settings are read back", "statement": "The settings read back from a saved red-sequence model are those it was saved with: limiting magnitude, faint-end slope, reference luminosity, number of colors, reference band, template with its bands and the bin size asked for; luptitude corrections are made exactly when every b value is positive, and with those values.", "quantifier": "for all configurations with at least two bands", "why_tests_cant": "All configurations, with and without template and luptitudes.", "anchors": ["redmapper/calibration/redsequencecal.py:RedSequenceCalibrator.save_pars", "redmapper/redsequence.py:RedSequenceColorPar.__init__"]}
{"id": "C231", "title": "Redshift range of the red-sequence file", "statement": "A saved red-sequence model covers the redshift range of the configuration.", "quantifier": "for all configurations and templates", "why_tests_cant": "All ranges and templates.", "anchors": ["redmapper/calibration/redsequencecal.py:RedSequenceCalibrator.save_pars", "redmapper/redsequence.py:RedSequenceColorPar.__init__"]}
{"id": "C232", "title": "Required header of a red-sequence file", "statement": "A red-sequence file is accepted exactly if its header has every setting that the caller does not give, under the new or old name of the reference band; everything else is a ValueError; what the caller gives replaces the header.", "quantifier": "for all headers and options", "why_tests_cant": "All headers and combinations of options.", "anchors": ["redmapper/redsequence.py:RedSequenceColorPar.__init__"]}
{"id": "C233", "title": "Template colors", "statement": "The template gives the color of two neighbouring bands, whatever the case of their names, with the tabulated value at the tabulated redshifts and lines between them; other pairs of bands are a ValueError.", "quantifier": "for all templates, bands and redshifts", "why_tests_cant": "All templates.", "anchors": ["redmapper/utilities.py:RedGalInitialColors", "redmapper/utilities.py:interpol"]}
{"id": "C234", "title": "Red sequence outside of the calibration", "statement": "With a template, the red sequence is not touched inside of the calibrated redshifts; outside the pivot magnitude and slope are those of the nearest calibrated bin and the color follows the template, shifted to meet the model there; colors that are not in the template are left alone.", "quantifier": "for all models, templates and redshift ranges", "why_tests_cant": "All models and ranges.", "anchors": ["redmapper/redsequence.py:RedSequenceColorPar.__init__"]}
{"id": "C235", "title": "Magnitudes of a galaxy on the red sequence", "statement": "The magnitudes from which luptitude corrections are computed have the reference magnitude in the reference band and the colors of the red sequence between all neighbouring bands, in the calibration as in the reader, so that color plus correction is the color in luptitudes.", "quantifier": "for all numbers of bands, reference bands, magnitudes and colors", "why_tests_cant": "All numbers of bands and reference bands.", "anchors": ["redmapper/redsequence.py:RedSequenceColorPar.__init__", "redmapper/calibration/redsequencecal.py:RedSequenceCalibrator._compute_single_lupcorr"]}
{"id": "C236", "title": "Luptitudes", "statement": "A luptitude is brighter than the magnitude by at most the square of the softening over the flux, increases with the magnitude, and is never fainter than the level of zero flux; the correction of a color is at most the larger of these for its bands.", "quantifier": "for all magnitudes and positive b values", "why_tests_cant": "All real magnitudes and b values.", "anchors": ["redmapper/redsequence.py:RedSequenceColorPar.__init__", "redmapper/calibration/redsequencecal.py:RedSequenceCalibrator._compute_single_lupcorr"]}
{"id": "C237", "title": "Forms of the chi-squared call", "statement": "Chi-squared can be asked for a set of galaxies at one redshift, one galaxy at an array of redshifts, or many galaxies at many redshifts, with one value for each.", "quantifier": "for all catalogs, redshifts and bins", "why_tests_cant": "All sizes of catalogs and redshift arrays.", "anchors": ["redmapper/redsequence.py:RedSequenceColorPar.calculate_chisq", "redmapper/redsequence.py:RedSequenceColorPar.calculate_chisq_redshifts"]}
{"id": "C238", "title": "Chi-squared from the tables", "statement": "A galaxy has the same chi-squared at a redshift in every form of the call: from the redshift bin of that redshift, its own magnitude bin, and its errors scaled by the error ratio at its magnitude.", "quantifier": "for all models, galaxies, redshifts and sizes", "why_tests_cant": "All models and shapes of calls.", "anchors": ["redmapper/redsequence.py:RedSequenceColorPar.calculate_chisq", "redmapper/redsequence.py:RedSequenceColorPar.calculate_chisq_redshifts"]}
{"id": "C239", "title": "A generated background can be read", "statement": "The background file written by the generator can be read, for every configuration of its bins.", "quantifier": "for all ranges and bin sizes", "why_tests_cant": "All bin configurations; the default is the only one tried.", "anchors": ["redmapper/background.py:Background.__init__", "redmapper/background.py:BackgroundGenerator.run"]}
{"id": "C240", "title": "Background between the bins of the file", "statement": "The background at every fine bin of magnitude, chi-squared and redshift is the linear interpolation of the file in the three quantities, held at the first and last bins beyond the ends; at the bins of the file it is the value of the file, and it is always between the smallest and the largest of these.", "quantifier": "for all files with non-negative values and all bins", "why_tests_cant": "All tables, bin spacings and ranges.", "anchors": ["redmapper/background.py:Background.__init__"]}
{"id": "C241", "title": "Normalisation of the background", "statement": "The normalisation for a magnitude and redshift is the sum over the chi-squared bins of what the lookup gives there, times the size of a bin.", "quantifier": "for all files", "why_tests_cant": "All tables.", "anchors": ["redmapper/background.py:Background.__init__", "redmapper/background.py:Background.sigma_g_lookup"]}
{"id": "C242", "title": "Zred background between the bins of the file", "statement": "The zred background is the linear interpolation of the file, stays between the smallest and largest values of the file, and is finite and positive for every galaxy inside of the ranges if the file is positive.", "quantifier": "for all files, magnitudes and redshifts", "why_tests_cant": "All tables, including points beyond the last bin.", "anchors": ["redmapper/background.py:ZredBackground.__init__", "redmapper/background.py:ZredBackground.sigma_g_lookup"]}
{"id": "C243", "title": "Pairs of colors in the color background", "statement": "Every pair of colors in a color background file can be looked up after it is read, and no other; its density is its counts divided by the area given with that pair, or the counts themselves if the area of the file is not to be used.", "quantifier": "for all files, in any order of extensions", "why_tests_cant": "All numbers and orders of extensions and ranges.", "anchors": ["redmapper/color_background.py:ColorBackground.__init__"]}
{"id": "C244", "title": "Counts of the color background", "statement": "The counts of one color or of a pair are the linear interpolation of the file in magnitude and color, never negative; the norm of a pair is the sum of its counts over the cells; the lookup of one color is counts over norm at the bin of the galaxy, and a color that is not there raises KeyError or gives zero as asked.", "quantifier": "for all files, galaxies and colors", "why_tests_cant": "All tables and lookups.", "anchors": ["redmapper/color_background.py:ColorBackground.__init__", "redmapper/color_background.py:ColorBackground.lookup_diagonal"]}
{"id": "C245", "title": "Consolidation finds the catalog of every pixel", "statement": "The catalog of every pixel of a run is found when the run is consolidated, with its nside and pixel number, and a catalog of another run in the same directory is not.", "quantifier": "for all base names, kinds of catalog, nside and pixels, and all directory contents", "why_tests_cant": "All names; collisions need particular numbers and prefixes.", "anchors": ["redmapper/pipeline/redmapperconsolidatetask.py:RuncatConsolidateTask.run", "redmapper/pipeline/redmappertask.py:RunZmaskPixelTask.run"]}
{"id": "C246", "title": "Consolidation finds what the tasks write", "statement": "The catalogs that the tasks over a given catalog write are found when they are consolidated, for every version of the code.", "quantifier": "for all tasks, versions and pixels", "why_tests_cant": "All version strings.", "anchors": ["redmapper/pipeline/redmapperconsolidatetask.py:RuncatConsolidateTask.run", "redmapper/pipeline/redmappertask.py:RuncatPixelTask.run", "redmapper/cluster_runner.py:ClusterRunner.output"]}
{"id": "C247", "title": "Running a pixel task again", "statement": "Once a task has written its catalog for a pixel, running it again changes no file; in any case what has been written is kept.", "quantifier": "for all tasks, directories and numbers of calls", "why_tests_cant": "All histories of calls.", "anchors": ["redmapper/pipeline/redmappertask.py:RunZmaskPixelTask.run", "redmapper/pipeline/redmappertask.py:RunZScanPixelTask.run", "redmapper/pipeline/redmappertask.py:RuncatPixelTask.run"]}
{"id": "C248", "title": "Setup of a run", "statement": "With all files in place the setup of every kind of run raises no exception; the galaxies that are used are exactly those in the range of magnitudes of the background and, where redshifts are read and cut on, below the maximum chi-squared; there is no catalog exactly if none is left or there is no depth.", "quantifier": "for all kinds of run, files and galaxies", "why_tests_cant": "All combinations of modes and files.", "anchors": ["redmapper/cluster_runner.py:ClusterRunner._setup", "redmapper/run_randoms_zmask.py:RunRandomsZmask._additional_initialization"]}
{"id": "C249", "title": "Radius and scale of randoms in the mask run", "statement": "A random keeps its input richness, has the radius of that richness as radius and mask radius, and its scale is 1/(1-c) with the polynomial of the mask correction at this radius; it is finite and at least one.", "quantifier": "for all randoms and mask corrections", "why_tests_cant": "All polynomials and richnesses.", "anchors": ["redmapper/run_randoms_zmask.py:RunRandomsZmask._process_cluster"]}
{"id": "C250", "title": "Radius of the first pass", "statement": "The first pass uses the configured radius for all clusters, with or without a seed file.", "quantifier": "for all configurations, seeds and galaxies", "why_tests_cant": "All configurations.", "anchors": ["redmapper/run_firstpass.py:RunFirstPass._more_setup", "redmapper/cluster.py:Cluster.__init__"]}
{"id": "C251", "title": "Seeds of the first pass", "statement": "The seeds of the first pass are exactly the seeds of the file, or the galaxies, in the range of redshifts and below the maximum chi-squared, inside of the mask if the input is to be cleaned, or brighter than the limit, in their order and with their quantities; no catalog exactly if there are none.", "quantifier": "for all seeds, galaxies and masks", "why_tests_cant": "All lists and settings.", "anchors": ["redmapper/run_firstpass.py:RunFirstPass._more_setup"]}
{"id": "C252", "title": "Log files", "statement": "After a log file is started messages go to it, and no second file is opened by further starts; after it is stopped it is closed; the files of different pixels are different.", "quantifier": "for all sequences of start and stop and all pixels", "why_tests_cant": "All call sequences.", "anchors": ["redmapper/configuration.py:Configuration.start_file_logging", "redmapper/configuration.py:Configuration.stop_file_logging"]}
{"id": "C253", "title": "Neighbours of the redshift scan", "statement": "The neighbours of a candidate of the redshift scan include all galaxies within the radius of the richness around every centre that is itself within the radius of the richness.", "quantifier": "for all radii, richnesses and positions", "why_tests_cant": "All positions and richnesses.", "anchors": ["redmapper/run_zscan.py:RunZScan._process_cluster", "redmapper/run_zscan.py:RunZScan._more_setup"]}
{"id": "C254", "title": "Connectivity of a candidate", "statement": "The connectivity of every candidate center is the logarithm of the mean of r_lambda over the softened distance, weighted by membership probability (and luminosity if so configured), over exactly the other galaxies of positive probability within r_lambda of the candidate, and 0.001 if there are none; the limited search radius leaves out none, and the order of matches does not matter.", "quantifier": "for all neighbours, candidates, radii and matchers", "why_tests_cant": "All configurations of neighbours and orders of matches.", "anchors": ["redmapper/centering.py:CenteringWcenZred.find_center"]}
{"id": "C255", "title": "The connectivity has a logarithm", "statement": "The connectivity of a candidate is positive and bounded by ln(r_lambda/r_soft), so that its logarithm, which the filters take, exists; a candidate with a galaxy around it is at least as well connected as one with none.", "quantifier": "for all neighbours, candidates and positive softenings", "why_tests_cant": "All configurations of neighbours.", "anchors": ["redmapper/centering.py:CenteringWcenZred.find_center"]}
{"id": "C256", "title": "Filters of the centering are densities", "statement": "The central, satellite and foreground terms of a candidate are products of normal densities, the luminosity function and the background counts in the disc of radius r_lambda; none is negative, even with zero or negative redshift errors, and with them the center, satellite and foreground probabilities reported are probabilities and add up to one.", "quantifier": "for all candidates, clusters and calibrations", "why_tests_cant": "All real parameters.", "anchors": ["redmapper/centering.py:CenteringWcenZred.find_center", "redmapper/cluster.py:Cluster.calc_zred_bkg_density"]}
{"id": "C257", "title": "Random center", "statement": "A random center is within r_lambda of the position of the cluster, uniformly in area, and its right ascension is in the range of the catalog.", "quantifier": "for all clusters and draws", "why_tests_cant": "All draws of the generator.", "anchors": ["redmapper/centering.py:CenteringRandom.find_center"]}
{"id": "C258", "title": "Record of the candidates", "statement": "After the centering a cluster lists the ids and positions of its candidates in order, its magnitudes are those of the first, and exactly the candidates are flagged among the neighbours.", "quantifier": "for all numbers of candidates, neighbours and sizes of the lists", "why_tests_cant": "All sizes; negative indices count from the end.", "anchors": ["redmapper/run_percolation.py:RunPercolation._process_cluster", "redmapper/centering.py:Centering.__init__", "redmapper/centering.py:CenteringBCG.find_center"]}
{"id": "C259", "title": "Record of a random center", "statement": "A random center records its position and one center, and takes nothing from any galaxy: magnitudes, ids and flags stay as they are.", "quantifier": "for all clusters and neighbours", "why_tests_cant": "All earlier states.", "anchors": ["redmapper/run_percolation.py:RunPercolation._process_cluster", "redmapper/centering.py:CenteringRandom.find_center"]}
{"id": "C260", "title": "Sizes reach the C code", "statement": "The mode and the numbers of galaxies, redshifts and colors given to the chi-squared object are the ones it computes with, and the result has one value for each galaxy or each redshift as the mode says; sizes that do not fit raise an exception.", "quantifier": "for all sizes, whatever the uninitialised variables held", "why_tests_cant": "All contents of the stack, sizes and byte orders.", "anchors": ["redmapper/chisq_dist/chisq_dist_pywrap.c:ChisqDistObject_init", "redmapper/chisq_dist/chisq_dist_pywrap.c:ChisqDistObject_compute"]}
{"id": "C261", "title": "A solver is made from the numbers given", "statement": "A richness solver gives at every call the solution for the numbers its arrays had when it was made, whatever the program does in between, and never reads freed memory.", "quantifier": "for all programs over arrays and a solver, of any length", "why_tests_cant": "All histories of writes, drops, allocations and calls.", "anchors": ["redmapper/solver_nfw/solver_nfw_lib.py:Solver", "redmapper/solver_nfw/solver_nfw_pywrap.c:SolverObject_init", "redmapper/solver_nfw/solver_nfw_pywrap.c:SolverObject_solver_nfw"]}
{"id": "C262", "title": "Errors of the chi-squared object", "statement": "Making the chi-squared object succeeds exactly if the arguments parse, memory is there and all arrays are float64; otherwise an exception names what is wrong.  A call on it either returns values or raises, and it can be printed.", "quantifier": "for all histories of initialisations and calls", "why_tests_cant": "All histories, including repeated and failed initialisations.", "anchors": ["redmapper/chisq_dist/chisq_dist_pywrap.c:ChisqDistObject_init", "redmapper/chisq_dist/chisq_dist_pywrap.c:ChisqDistObject_compute", "redmapper/chisq_dist/chisq_dist_pywrap.c:ChisqDistObject_repr"]}
{"id": "C263", "title": "Memory of the chi-squared object", "statement": "Deleting a chi-squared object frees all it allocated, once.", "quantifier": "for all histories of initialisations", "why_tests_cant": "All histories.", "anchors": ["redmapper/chisq_dist/chisq_dist_pywrap.c:ChisqDistObject_init", "redmapper/chisq_dist/chisq_dist_pywrap.c:ChisqDistObject_dealloc"]}
{"id": "C264", "title": "One solution for each galaxy", "statement": "The richness solver returns one probability for each galaxy given, and raises if the arrays differ in size or there are not four correction parameters.", "quantifier": "for all shapes of the arrays", "why_tests_cant": "All shapes, including matrices and scalars.", "anchors": ["redmapper/solver_nfw/solver_nfw_lib.py:Solver", "redmapper/solver_nfw/solver_nfw_pywrap.c:SolverObject_init", "redmapper/solver_nfw/solver_nfw_pywrap.c:SolverObject_solver_nfw"]}
{"id": "C265", "title": "Bands of a galaxy file", "statement": "The names and order of bands, the number of bands, the survey mode and the reference index that a configuration takes from a galaxy file are those with which the galaxy maker wrote it; only columns that end with _ind name bands.", "quantifier": "for all sets of bands, orders and reference bands", "why_tests_cant": "All assignments of indices to bands.", "anchors": ["redmapper/configuration.py:Configuration._galfile_stats", "redmapper/galaxy.py:GalaxyCatalogMaker.finalize_catalog"]}
{"id": "C266", "title": "Reference band", "statement": "The reference index of a configuration is the one the galaxy file was made with.", "quantifier": "for all files and configured reference bands", "why_tests_cant": "All combinations.", "anchors": ["redmapper/configuration.py:Configuration._galfile_stats", "redmapper/galaxy.py:GalaxyCatalogMaker.finalize_catalog"]}
{"id": "C267", "title": "Galaxy files that can be used", "statement": "A configuration takes its statistics only from files that describe FITS files and name one of the three survey modes, with blanks at the end ignored; others raise a ValueError.", "quantifier": "for all headers and modes", "why_tests_cant": "All strings.", "anchors": ["redmapper/configuration.py:Configuration._galfile_stats"]}
{"id": "C268", "title": "Configured area", "statement": "An area given in the configuration is used; without one it is that of the file, and running a sub-region without depth map then raises.  Asking for truth or spectroscopic redshifts the file does not have raises.", "quantifier": "for all areas and flags", "why_tests_cant": "All values.", "anchors": ["redmapper/configuration.py:Configuration.__init__"]}
{"id": "C269", "title": "Galaxies of the calibration", "statement": "The red-sequence calibration uses exactly the training galaxies with a redshift strictly inside of the configured range and the configured kind of probability above its cut, in their order, and raises if there are none; pivot magnitudes and median colors come from those of them above the cut for colors, of which there are some.", "quantifier": "for all catalogs and configurations", "why_tests_cant": "All values, including NaN and those at the cuts.", "anchors": ["redmapper/calibration/redsequencecal.py:RedSequenceCalibrator.run"]}
{"id": "C270", "title": "Pivot magnitude and magnitude range", "statement": "There is a pivot magnitude for each node; the spline through them deviates in sum from the magnitudes by no more than that through the medians of the bins.  The range of reference magnitudes at each node is that of luminosities between the reference luminosity less 0.1 (at least 0.001) and 30 L*, and is not empty.", "quantifier": "for all galaxies, nodes, reference luminosities and m* relations", "why_tests_cant": "All catalogs; real logarithms.", "anchors": ["redmapper/calibration/redsequencecal.py:RedSequenceCalibrator._calc_pivotmags", "redmapper/fitters.py:MedZFitter"]}
{"id": "C271", "title": "Median colors and widths", "statement": "For every color there is a median and a width at each node, the medians deviate in sum no more than the medians of the bins, every width is positive and at least 0.0148, and without a fit the error ratio is one.", "quantifier": "for all galaxies, nodes and minimisers that respect bounds", "why_tests_cant": "All catalogs, all runs of the minimiser.", "anchors": ["redmapper/calibration/redsequencecal.py:RedSequenceCalibrator._calc_medcols", "redmapper/fitters.py:MedZFitter.fit"]}
{"id": "C272", "title": "Error ratio of a color", "statement": "The error ratio of a color is the one of 0.5, 0.6, ..., 9.9 for which the pulls have a robust width closest to one, the smallest in case of ties; with equal errors it is within 0.1 of the ratio that explains the scatter.", "quantifier": "for all differences, errors and intrinsic scatters", "why_tests_cant": "All catalogs.", "anchors": ["redmapper/calibration/redsequencecal.py:RedSequenceCalibrator._calc_medcols"]}
{"id": "C273", "title": "Columns of the parameter file", "statement": "For any number of bands the columns of the parameter file have different names, so that the table can be made and each color has its own nodes, means and slopes.", "quantifier": "for all numbers of colors", "why_tests_cant": "All numbers, including more than a hundred.", "anchors": ["redmapper/calibration/redsequencecal.py:RedSequenceCalibrator.run"]}
{"id": "C274", "title": "File of calibrated redshifts", "statement": "The redshifts of the training galaxies dir/base.fit are written to base_zreds.fit in the output directory, so that different training files have different redshift files.", "quantifier": "for all file names", "why_tests_cant": "All names.", "anchors": ["redmapper/calibration/redsequencecal.py:RedSequenceCalibrator.run"]}
{"id": "C275", "title": "Zreds do not depend on the processes", "statement": "The computed redshift columns (all but the random samples) of a run over many processes are those of each galaxy alone, in the order of the tasks, for any number of processes and any assignment of tasks to them.", "quantifier": "for all task lists, numbers of workers and schedules", "why_tests_cant": "Schedules of a pool of processes cannot be enumerated by a test.", "anchors": ["redmapper/zred_runner.py:ZredRunCatalog.run", "redmapper/zred_runner.py:ZredRunPixels.run"]}
{"id": "C276", "title": "Random redshift samples depend on the seed only", "statement": "The random redshift samples of a run depend on the random seed only, not on how many processes run or which takes which task, and different galaxies use different random numbers.", "quantifier": "for all seeds (streams), galaxies, task lists and schedules", "why_tests_cant": "All schedules; the repetition of numbers is only visible across processes.", "anchors": ["redmapper/zred_color.py:ZredColor.compute_zred", "redmapper/utilities.py:sample_from_pdf", "redmapper/zred_runner.py:ZredRunPixels.run"]}
{"id": "C277", "title": "Files of a run with failures", "statement": "For every order in which the tasks of a run are completed, the run raises exactly if a task raises, with an exception of one of the tasks; the files of all tasks that did not raise are written with their content and no other file is changed; without exceptions the parent receives all the names in the order of the tasks.", "quantifier": "for all completion orders, outcomes of tasks and disks", "why_tests_cant": "All interleavings and all sets of failing tasks.", "anchors": ["redmapper/zred_runner.py:ZredRunPixels.run", "redmapper/zred_runner.py:ZredRunPixels._worker"]}
{"id": "C278", "title": "Names of zred files", "statement": "A zred run over pixels accepts exactly the names base_zreds_master_table.fit for the master table, and writes each pixel to its own file base_zreds_NNNNNNN.fit in the same directory.", "quantifier": "for all file names and pixels", "why_tests_cant": "All names, all pixel numbers including those with more than seven digits.", "anchors": ["redmapper/zred_runner.py:ZredRunPixels.run"]}
{"id": "C279", "title": "Conversion of old maps", "statement": "The conversion of an old depth or mask file gives a map with the values of each row at its pixel and none elsewhere, whatever the coverage resolution; the header values are those of the old file, an existing file is only overwritten on request, and a missing header card raises without writing.", "quantifier": "for all tables, ring or nested numbering, headers and disks", "why_tests_cant": "All tables, including repeated pixels.", "anchors": ["redmapper/depthmap.py:convert_depthfile_to_healsparse", "redmapper/mask.py:convert_maskfile_to_healsparse", "redmapper/depthmap.py:DepthMap"]}
{"id": "C280", "title": "Pixels of a region", "statement": "The areas of a region of the sky use exactly the pixels of the map that lie in the pixels of the region, each once.", "quantifier": "for all regions and resolutions", "why_tests_cant": "All resolutions and lists of pixels.", "anchors": ["redmapper/depthmap.py:DepthMap.calc_areas"]}
{"id": "C281", "title": "Areas of a region", "statement": "The areas of a region are those of the map restricted to the region, whether all of the file or only its coverage pixels are read; a region of all pixels has the areas of the whole map, and areas of disjoint regions add up; a region with a border raises, and a map without depths has the configured area.", "quantifier": "for all maps, regions, coverage resolutions and magnitudes", "why_tests_cant": "All maps.", "anchors": ["redmapper/depthmap.py:DepthMap.calc_areas", "redmapper/depthmap.py:DepthMap", "redmapper/utilities.py:get_healsparse_subpix_indices"]}
{"id": "C282", "title": "Prediction of memory", "statement": "The predicted memory has for each nside from 2 to that of the galaxy file the number of pixels with galaxies and the largest memory of a pixel.", "quantifier": "for all galaxy tables and factors", "why_tests_cant": "All tables.", "anchors": ["redmapper/pipeline/mempredict.py:MemPredict.predict_memory"]}
{"id": "C283", "title": "Galaxies of the redMaGiC calibration", "statement": "With the parameters recorded for a mode, a selection from the galaxies that the calibration reads gives the same catalog as a selection from all galaxies; the galaxies read are exactly those within the cushioned ranges of the configuration, and if there is none the calibration raises and the modes select nothing.", "quantifier": "for all configurations, modes, galaxy catalogs and parameters", "why_tests_cant": "All catalogs and configurations.", "anchors": ["redmapper/redmagic/redmagic_calibrate.py:RedmagicCalibrator.run", "redmapper/redmagic/redmagic_selector.py:RedmagicSelector.select_redmagic_galaxies"]}
{"id": "C284", "title": "Spectroscopic redshifts of redMaGiC galaxies", "statement": "A galaxy has the redshift of the closest good spectrum within the radius, and a value that says that there is none otherwise, both in the calibration and in the catalog selected.", "quantifier": "for all catalogs of spectra and galaxies and all distances", "why_tests_cant": "All catalogs, with several spectra and galaxies close to each other.", "anchors": ["redmapper/redmagic/redmagic_calibrate.py:RedmagicCalibrator.run", "redmapper/redmagic/redmagic_selector.py:RedmagicSelector.select_redmagic_galaxies", "redmapper/galaxy.py:GalaxyCatalog.match_many"]}
{"id": "C285", "title": "Tables of the color background", "statement": "The table of a color or of a pair of colors has at every bin the sum over the galaxies in the ranges of the product of their shares along each quantity, where the share falls linearly from one at the center of the bin to zero one bin away, divided by the bin sizes; per magnitude it has the integral over the colors.", "quantifier": "for all catalogs, color ranges, magnitude limits and bin sizes", "why_tests_cant": "All catalogs and bins, including positions at the edges.", "anchors": ["redmapper/color_background.py:ColorBackgroundGenerator.run", "redmapper/utilities.py:cic"]}
{"id": "C286", "title": "Pairs and single colors of the color background", "statement": "Integrated over one of its colors, the table of a pair of colors is the table of the other color.", "quantifier": "for all catalogs and ranges", "why_tests_cant": "All catalogs.", "anchors": ["redmapper/color_background.py:ColorBackgroundGenerator.run"]}
{"id": "C287", "title": "Totals of the color background", "statement": "The counts per magnitude integrate to the number of galaxies in the ranges; those of a pair are never negative and at most those of each color.", "quantifier": "for all catalogs, ranges and bin sizes", "why_tests_cant": "All catalogs.", "anchors": ["redmapper/color_background.py:ColorBackgroundGenerator.run"]}
{"id": "C288", "title": "Samples follow their distribution", "statement": "Sampling from a tabulated distribution gives a value not above a grid point with the probability of the cumulative distribution there.", "quantifier": "for all increasing grids, all non-negative values that are not all zero, and uniform draws", "why_tests_cant": "A statement on probabilities for every table; a finite sample only bounds it.", "anchors": ["redmapper/utilities.py:sample_from_pdf"]}
{"id": "C289", "title": "Values and weights of the mask galaxies", "statement": "Every mask galaxy has a chi-squared, a magnitude and a radius in the configured ranges, a position at that radius, and as weights the filters at its own values with a common normalisation.", "quantifier": "for all settings and all draws", "why_tests_cant": "All settings and draws.", "anchors": ["redmapper/mask.py:Mask.gen_maskgals", "redmapper/utilities.py:sample_from_pdf"]}
{"id": "C290", "title": "Uniform points of the local background", "statement": "The points that sample the surroundings of a cluster are uniform in the disc of the outer annulus.", "quantifier": "for all radii and uniform draws", "why_tests_cant": "A statement on probabilities for every radius and angle.", "anchors": ["redmapper/mask.py:Mask.gen_maskgals"]}
{"id": "C291", "title": "Mask galaxies for any number of bands", "statement": "Mask galaxies can be made for every survey with at least two bands.", "quantifier": "for all settings and all draws", "why_tests_cant": "All settings; the failing one is never run by tests.", "anchors": ["redmapper/mask.py:Mask.gen_maskgals", "redmapper/utilities.py:chisq_pdf", "redmapper/utilities.py:sample_from_pdf"]}
{"id": "C292", "title": "Cluster redshifts from members", "statement": "The comparison of a cluster catalog with its members uses for every cluster the median redshift of its own members, and leaves out clusters without any.", "quantifier": "for all catalogs without repeated ids and all member catalogs", "why_tests_cant": "All catalogs; the failing ones have clusters without members first or members of missing clusters.", "anchors": ["redmapper/plotting.py:SpecPlot.plot_cluster_catalog_from_members"]}
{"id": "C293", "title": "Outliers, bias and scatter", "statement": "The spectroscopic plot counts as outliers the objects with a spectrum that differ by more than nsig errors, and shows per bin of photometric redshift the median offset, the scatter and the median error of the objects in the bin, zero with fewer than three.", "quantifier": "for all lists of objects, bin sizes and limits", "why_tests_cant": "All lists of objects, including values at the edges of bins.", "anchors": ["redmapper/plotting.py:SpecPlot.plot_values"]}
{"id": "C294", "title": "Map of photometric and spectroscopic redshifts", "statement": "The map has values between zero and one, nothing further than 0.1 from the diagonal, and a largest value of one in every row with anything, before smoothing; smoothing keeps the values between zero and one.", "quantifier": "for all splines and rows", "why_tests_cant": "All results of the external spline.", "anchors": ["redmapper/plotting.py:SpecPlot._make_photoz_map"]}
{"id": "C295", "title": "Densities in redshift", "statement": "The density plot shows in every bin the number of objects over the volume of the bin with the square root of the number as error; bins tile the range, every object of the range is in one, and a bin is drawn exactly if it has more than 25.", "quantifier": "for all redshifts, ranges, area tables and volumes", "why_tests_cant": "All samples and ranges.", "anchors": ["redmapper/plotting.py:NzPlot.plot_nz"]}
{"id": "C296", "title": "Redshifts sampled from p(z)", "statement": "Sampled redshifts of clusters lie in the range of the p(z) and follow the interpolated p(z) within one percent.", "quantifier": "for all p(z) and uniform draws", "why_tests_cant": "A statement on probabilities for every p(z).", "anchors": ["redmapper/plotting.py:NzPlot.plot_cluster_catalog"]}
{"id": "C297", "title": "Clusters against richness", "statement": "Every cluster is counted once in the plot of the richness, in the bin of its richness.", "quantifier": "for all richnesses and bin sizes", "why_tests_cant": "All catalogs; the failing clusters are very rare.", "anchors": ["redmapper/plotting.py:NLambdaPlot.plot_nlambda"]}
{"id": "C298", "title": "Files of weighted randoms of different runs", "statement": "Two runs of the weighting with one configuration that select randoms differently write different files, and the file of the randoms is never that of the areas.", "quantifier": "for all configurations and arguments", "why_tests_cant": "All pairs of arguments; tests write one file.", "anchors": ["redmapper/randoms.py:RandomWeigher.weight_randoms", "redmapper/configuration.py:Configuration.redmapper_filename"]}
{"id": "C299", "title": "The area counts the randoms that are kept", "statement": "The area correction counts as good exactly the randoms that are given a weight.", "quantifier": "for all randoms and cuts", "why_tests_cant": "The cuts differ only on their boundary.", "anchors": ["redmapper/randoms.py:RandomWeigher.weight_randoms"]}
{"id": "C300", "title": "The area correction is fitted to the fraction at each redshift", "statement": "Each point of the fit of the area correction is the fraction of good randoms below its own redshift.", "quantifier": "for all randoms, ranges and steps", "why_tests_cant": "All samples; a shift of half a bin is invisible in a fit to data.", "anchors": ["redmapper/randoms.py:RandomWeigher.weight_randoms"]}
{"id": "C301", "title": "The files returned hold the result of the run", "statement": "When the weighting returns, its two files hold the weighted randoms and the areas of this run; if it raises, no file has changed.", "quantifier": "for all randoms, arguments and directories, whatever earlier runs have left there", "why_tests_cant": "A statement on histories of runs.", "anchors": ["redmapper/randoms.py:RandomWeigher.weight_randoms", "redmapper/catalog.py:DataObject.to_fits_file"]}
{"id": "C302", "title": "Construction of a cluster catalogue adds columns and loses nothing", "statement": "A cluster catalogue made of a table has its rows, its columns with their values, and zeros in every column asked for (by the dtype, the configuration or by default) that was missing, and no other columns.", "quantifier": "for all tables, dtypes and configurations", "why_tests_cant": "All tables and sets of columns.", "anchors": ["redmapper/cluster.py:ClusterCatalog", "redmapper/catalog.py:DataObject.add_fields"]}
{"id": "C303", "title": "Indexing a cluster catalogue", "statement": "Indexing a cluster catalogue gives the chosen rows with the same columns and the same attached objects.", "quantifier": "for all catalogues and lists of indices", "why_tests_cant": "All catalogues, however made.", "anchors": ["redmapper/cluster.py:ClusterCatalog"]}
{"id": "C304", "title": "What is computed for a cluster is in the catalogue that is written", "statement": "After a run, every cluster that passes the richness cut has in each standard column the last value that was assigned to it while it was processed.", "quantifier": "for all starting catalogues, numbers of clusters and sequences of assignments", "why_tests_cant": "All sequences of assignments; a lost column shows up as zeros only.", "anchors": ["redmapper/cluster_runner.py:ClusterRunner.run", "redmapper/cluster_runner.py:ClusterRunner._postprocess", "redmapper/run_randoms_zmask.py:RunRandomsZmask", "redmapper/cluster.py:ClusterCatalog"]}
{"id": "C305", "title": "The stored p(z) is the corrected one", "statement": "After the redshift correction of a run with p(z), the p(z) stored for a cluster integrates to one over the stored bins and goes with the stored redshift and error, and no other value of the catalogue has changed.", "quantifier": "for all correction tables, catalogues and clusters", "why_tests_cant": "The values are only updated because an array is changed in place.", "anchors": ["redmapper/cluster_runner.py:ClusterRunner.run", "redmapper/zlambda.py:ZlambdaCorrectionPar.apply_correction"]}
{"id": "C306", "title": "Likelihoods in the catalogue of likelihoods", "statement": "In the catalogue of likelihoods the total likelihood of each cluster is the sum of the columns of the members and of the central galaxy.", "quantifier": "for all catalogues and likelihoods found", "why_tests_cant": "All catalogues; a column of zeros goes unnoticed in a test of the total.", "anchors": ["redmapper/run_likelihoods.py:RunLikelihoods._process_cluster", "redmapper/run_likelihoods.py:RunLikelihoods._postprocess"]}
{"id": "C307", "title": "The cost of a correlation fit", "statement": "The cost that RedSequenceOffDiagonalFitter minimizes is minus the log posterior of the correlations: Gaussian residuals with the intrinsic covariance and the covariance of two colors with independent magnitude errors, mixed with the background, a Gaussian prior, and a penalty if a matrix gets too small an eigenvalue.", "quantifier": "for all pairs of different colors, galaxies and correlations", "why_tests_cant": "All pairs of colors and all galaxies; tests use one pair.", "anchors": ["redmapper/fitters.py:RedSequenceOffDiagonalFitter.__init__", "redmapper/fitters.py:RedSequenceOffDiagonalFitter.__call__"]}
{"id": "C308", "title": "Correlation fits do not depend on history and respect bounds", "statement": "The cost of correlations does not depend on what was evaluated before; a fit returns one correlation per node between -0.9 and 0.9, not worse than a start within these bounds.", "quantifier": "for all fitters of two different colors, histories of evaluations and minimizers that keep to bounds and do not end worse than they start", "why_tests_cant": "All histories; the evaluations overwrite arrays of the fitter and of the caller.", "anchors": ["redmapper/fitters.py:RedSequenceOffDiagonalFitter.fit", "redmapper/fitters.py:RedSequenceOffDiagonalFitter.__call__"]}
{"id": "C309", "title": "The matrices handed to a correlation fit", "statement": "After a fit, the covariance matrices that were handed to it are as before or have the correlations that are returned.", "quantifier": "for all fitters, matrices and minimizers", "why_tests_cant": "Depends on the point the minimizer looks at last.", "anchors": ["redmapper/fitters.py:RedSequenceOffDiagonalFitter.fit", "redmapper/fitters.py:RedSequenceOffDiagonalFitter.__call__"]}
{"id": "C310", "title": "A correlation fit avoids small eigenvalues", "statement": "If some correlations keep all eigenvalues of the matrices at the nodes at or above the minimum, a fit with matrices returns such correlations.", "quantifier": "for all fitters, matrices and minimizers", "why_tests_cant": "All matrices and likelihoods.", "anchors": ["redmapper/fitters.py:RedSequenceOffDiagonalFitter.fit", "redmapper/fitters.py:RedSequenceOffDiagonalFitter.__call__"]}
{"id": "C311", "title": "Where a redshift correction takes its values from", "statement": "ZlambdaCorrectionPar needs a file or parameters (RuntimeError otherwise), an existing file (IOError otherwise), takes the parameters of the file if there is one, and each of range, bin size and pivot from the argument if it is given and from the header of the file otherwise (KeyError if it is missing there, ValueError without a file).", "quantifier": "for all combinations of arguments and headers", "why_tests_cant": "All combinations of five optional arguments and a header.", "anchors": ["redmapper/zlambda.py:ZlambdaCorrectionPar.__init__"]}
{"id": "C312", "title": "The tables of a redshift correction", "statement": "The redshifts of a ZlambdaCorrectionPar start at the lower end of the range, are spaced by the bin size and cover the range to half a bin; at each of them the tables of each iteration are the splines through its nodes, the scatter at least 0.001, and a redshift is marked as extrapolated exactly if it is outside the nodes.", "quantifier": "for all parameters, ranges and bin sizes", "why_tests_cant": "All parameters, ranges and numbers of iterations.", "anchors": ["redmapper/zlambda.py:ZlambdaCorrectionPar.__init__"]}
{"id": "C313", "title": "A calibrated redshift correction can be used", "statement": "For any number of iterations in the configuration, the parameters that the calibration collects give a redshift correction, and the file it writes gives the same correction as the one in the calibration.", "quantifier": "for all numbers of iterations, nodes, fits and configurations", "why_tests_cant": "All numbers of iterations; tests use the default of three.", "anchors": ["redmapper/zlambda.py:ZlambdaCorrectionPar.__init__", "redmapper/calibration/zlambdacal.py:ZLambdaCalibrator.run"]}
{"id": "C314", "title": "Redshift corrections between the iterations of their calibration", "statement": "The correction that the calibration applies to its clusters after some of its iterations changes redshifts and errors by what these iterations found.", "quantifier": "for all numbers of iterations, clusters and fits", "why_tests_cant": "All clusters and fits.", "anchors": ["redmapper/calibration/zlambdacal.py:ZLambdaCalibrator.run", "redmapper/zlambda.py:ZlambdaCorrectionPar.apply_correction"]}
{"id": "C315", "title": "Gaussian fits to histograms", "statement": "histoGauss returns the parameters of a least-squares Gaussian of the histogram whenever the fit finds them, and the starting values (size, median, standard deviation) when the fit fails.", "quantifier": "for all arrays, histograms and fits", "why_tests_cant": "The optimizer may return any of the equivalent best fits.", "anchors": ["redmapper/utilities.py:histoGauss"]}
{"id": "C316", "title": "The histogram of a Gaussian fit shows all values", "statement": "With the tails added, the bins within five sigma of a Gaussian fit together hold all values.", "quantifier": "for all histograms with increasing bins and all fits with a bin in this range", "why_tests_cant": "All positions of the bins relative to the range.", "anchors": ["redmapper/utilities.py:histoGauss"]}
{"id": "C317", "title": "Brightest galaxies and richness", "statement": "In every trial of the Monte Carlo the three brightest galaxies come in order of magnitude and none of them is fainter at a larger richness.", "quantifier": "for all luminosities, random orders and pairs of richnesses", "why_tests_cant": "All random orders.", "anchors": ["redmapper/calibration/centeringcal.py:WcenCalibrator._schechter_montecarlo_calib"]}
{"id": "C318", "title": "The luminosity of the brightest galaxy is a line in log richness", "statement": "The values saved for the brightest galaxy are values at the pivot and slopes of the least-squares lines of mean and width against the logarithm of richness over pivot.", "quantifier": "for all fits, pivots and richnesses", "why_tests_cant": "All fit results.", "anchors": ["redmapper/calibration/centeringcal.py:WcenCalibrator._schechter_montecarlo_calib"]}
{"id": "C319", "title": "Logging can be started", "statement": "Logging to a file can be started with every configuration, whatever its pixels.", "quantifier": "for all configurations", "why_tests_cant": "All combinations of options.", "anchors": ["redmapper/configuration.py:Configuration.start_file_logging", "redmapper/configuration.py:Configuration.stop_file_logging", "redmapper/configuration.py:Configuration.__init__"]}
{"id": "C320", "title": "Contents of log files", "statement": "The log file of a configuration has the messages between a start and the next stop of its logging, in order, and no others.", "quantifier": "for all sequences of starts, stops and messages of any configurations in a process", "why_tests_cant": "All histories of a process.", "anchors": ["redmapper/configuration.py:Configuration.start_file_logging", "redmapper/configuration.py:Configuration.stop_file_logging", "redmapper/configuration.py:Configuration.__init__"]}
{"id": "C321", "title": "Names of log files", "statement": "Configurations for different pixels or with different bases of names log to different files.", "quantifier": "for all bases and lists of pixels", "why_tests_cant": "All names.", "anchors": ["redmapper/configuration.py:Configuration.start_file_logging", "redmapper/configuration.py:Configuration.stop_file_logging", "redmapper/configuration.py:Configuration.__init__"]}
{"id": "C322", "title": "Files of the redMaGiC task", "statement": "A run of the redMaGiC task that ends well leaves the whole catalog of each mode and, for each mode with a mask of its own, a file of random points: as many as asked for, ten times the galaxies without a number, none for zero. No other file is changed.", "quantifier": "for all modes, pixels, numbers of random points and files that exist", "why_tests_cant": "All names of modes and states of the directory.", "anchors": ["redmapper/redmagic/redmagictask.py:RunRedmagicTask.run", "redmapper/redmagic/redmagic_randoms.py:RedmagicGenerateRandoms.generate_randoms"]}
{"id": "C323", "title": "A redMaGiC run with an error changes nothing", "statement": "A run of the redMaGiC task that raises an error has not changed any file.", "quantifier": "for all modes, pixels, numbers of random points and files that exist", "why_tests_cant": "All states of the directory.", "anchors": ["redmapper/redmagic/redmagictask.py:RunRedmagicTask.run", "redmapper/redmagic/redmagic_randoms.py:RedmagicGenerateRandoms.generate_randoms"]}
{"id": "C324", "title": "The redMaGiC task closes its log", "statement": "File logging is stopped at the end of a run of the redMaGiC task.", "quantifier": "for all runs", "why_tests_cant": "All ways a run can end.", "anchors": ["redmapper/redmagic/redmagictask.py:RunRedmagicTask.run"]}
{"id": "C325", "title": "Arguments of the generator of random redMaGiC points", "statement": "The generator of random points can be made from a mask and a catalog, each given as an object or as a name of a file.", "quantifier": "for all arguments", "why_tests_cant": "All combinations of arguments.", "anchors": ["redmapper/redmagic/redmagic_randoms.py:RedmagicGenerateRandoms.__init__"]}
{"id": "C326", "title": "Clusters in a run of likelihoods", "statement": "A run of likelihoods processes exactly the clusters strictly inside the redshift range (widened by the cushion with keepz, not below 0.05), of positive richness, brighter than the limit at their redshift and, with cleaninput, inside the mask, each as often as it is in the catalog and in its order; without any there is no run.", "quantifier": "for all catalogs, ranges, limits and masks", "why_tests_cant": "All catalogs.", "anchors": ["redmapper/run_likelihoods.py:RunLikelihoods._more_setup"]}
{"id": "C327", "title": "The double run of a fixed-color run", "statement": "A double run first processes all clusters without masking any galaxy, then processes the resulting rows, each once and in order of non-increasing richness, as an ordinary masking run that begins with all galaxies available. Catalog and members are those of the second pass.", "quantifier": "for all catalogs, galaxies and results of single clusters", "why_tests_cant": "All catalogs and all orders.", "anchors": ["redmapper/cluster_runner.py:ClusterRunner.run", "redmapper/run_colormem.py:RunColormem._doublerun_sort"]}
{"id": "C328", "title": "Batch jobs cover the galaxies", "statement": "The pixels of a batch job are distinct, every galaxy of the galaxy file lies in one of them, and each of them overlaps the galaxy file.", "quantifier": "for all galaxy files and pixel sizes of jobs", "why_tests_cant": "All galaxy files and all sizes.", "anchors": ["bin/redmapper_batch.py"]}
{"id": "C329", "title": "Commands of a job array", "statement": "A job array has one element for each pixel, and its command gives the script of the pixel the configuration, pixel, nside and path that were asked for.", "quantifier": "for all configuration paths, pixels and run modes", "why_tests_cant": "All paths, all pixels.", "anchors": ["bin/redmapper_batch.py", "bin/redmapper_run_redmapper_pixel.py", "bin/redmapper_runcat_pixel.py"]}
{"id": "C330", "title": "Commands of a parsl script", "statement": "A parsl script runs the same commands as a job array would, each pixel once, within the image if one is configured.", "quantifier": "for all configuration paths, images and pixels", "why_tests_cant": "All paths, all pixels.", "anchors": ["bin/redmapper_batch.py", "redmapper/parsl_templates.py:PARSL_RUN_TEMPLATE"]}
{"id": "C331", "title": "Job files have their own numbers", "statement": "A new job never replaces the file of an earlier one.", "quantifier": "for all sequences of jobs", "why_tests_cant": "All histories of the directory.", "anchors": ["bin/redmapper_batch.py"]}
{"id": "C332", "title": "Errors leave no job file", "statement": "If the script ends with an error, no job file is written; if not, the file is complete.", "quantifier": "for all batch systems and configurations", "why_tests_cant": "All configurations.", "anchors": ["bin/redmapper_batch.py"]}
{"id": "C333", "title": "Configuration of batch systems", "statement": "A configuration is read exactly if every section names its batch system; what sections say is kept and the rest set to defaults. Without a configuration no job is written.", "quantifier": "for all configurations", "why_tests_cant": "All configurations.", "anchors": ["bin/redmapper_batch.py:load_batchconfig"]}
{"id": "C334", "title": "Several pixels on one node", "statement": "Every pixel of the list is run once, whatever the others return, and the script reports if one fails.", "quantifier": "for all lists of pixels and results", "why_tests_cant": "All lists and all results.", "anchors": ["bin/redmapper_run_many_pixels_same_node.py"]}
{"id": "C335", "title": "Files of a consolidation", "statement": "Each pair of richness cut and volume limit has its own catalog and member file with exactly the clusters selected for it, their members and their new ids, and no other file is touched.", "quantifier": "for all cuts, pixel files and earlier files", "why_tests_cant": "All cuts and all pixel files.", "anchors": ["redmapper/pipeline/redmapperconsolidatetask.py:RedmapperConsolidateTask.run"]}
{"id": "C336", "title": "Plots of a consolidation", "statement": "The plots of each cut have the base name of the files of the cut, so that those of different cuts do not replace each other.", "quantifier": "for all base names, versions and cuts", "why_tests_cant": "All base names.", "anchors": ["redmapper/pipeline/redmapperconsolidatetask.py:RedmapperConsolidateTask.run"]}
{"id": "C337", "title": "Consolidation of catalog runs", "statement": "The consolidation of a catalog run ends without error, and writes all clusters inside their pixels and the members of their files.", "quantifier": "for all pixel files, with and without plots", "why_tests_cant": "All pixel files.", "anchors": ["redmapper/pipeline/redmapperconsolidatetask.py:RuncatConsolidateTask.run"]}
{"id": "C338", "title": "Volume limits in other bands", "statement": "The limiting magnitude of a volume limit in another band is the magnitude in that band of a red-sequence galaxy at that redshift which has the limiting magnitude in the reference band.", "quantifier": "for all tables of the red sequence, bands and redshifts", "why_tests_cant": "All tables and all pairs of bands.", "anchors": ["redmapper/volumelimit.py:VolumeLimitMask._build_mask"]}
{"id": "C339", "title": "The map of a volume limit", "statement": "The mask made from depth maps has exactly the pixels of the depth map that are deep enough in every map, with their coverage, and the smallest of the largest redshifts of the maps, which is within the range of the run; the order of the further maps does not matter.", "quantifier": "for all depth maps, further maps and redshift ranges", "why_tests_cant": "All maps in any order.", "anchors": ["redmapper/volumelimit.py:VolumeLimitMask._build_mask"]}
{"id": "C340", "title": "Further maps in the reference band", "statement": "A further depth map in the reference band is skipped, as the log says.", "quantifier": "for all maps", "why_tests_cant": "All maps.", "anchors": ["redmapper/volumelimit.py:VolumeLimitMask._build_mask"]}
{"id": "C341", "title": "redMaGiC parameters can be moved", "statement": "A selector made from a parameter file has the modes of the calibration with their parameters and masks, wherever the directory with the parameter file and the masks has been moved; a missing mask is a RuntimeError.", "quantifier": "for all directories, modes and names", "why_tests_cant": "All directories and lists of modes.", "anchors": ["redmapper/redmagic/redmagic_selector.py:RedmagicSelector.__init__"]}
{"id": "C342", "title": "Samples of redMaGiC galaxies", "statement": "The catalog has the configured number of redshift samples for each galaxy: those of the galaxy catalog with the correction if it is to be applied, or draws if it has none.", "quantifier": "for all catalogs, parameters and draws", "why_tests_cant": "All catalogs.", "anchors": ["redmapper/redmagic/redmagic_selector.py:RedmagicSelector.select_redmagic_galaxies"]}
{"id": "C343", "title": "Corrected zreds solve their correction", "statement": "The corrected redshift that compute_zred and compute_zreds give a galaxy differs from the uncorrected one by the correction of the table at the corrected redshift, to 0.001.", "quantifier": "for all correction tables, galaxies and redshifts", "why_tests_cant": "The number of steps that is enough depends on the table.", "anchors": ["redmapper/zred_color.py:ZredColor.compute_zreds", "redmapper/zred_color.py:ZredColor.compute_zred"]}
{"id": "C344", "title": "Chi-squared and likelihood of a zred", "statement": "The chi-squared of a galaxy is that of the table bin nearest to its redshift, and its likelihood lies between the smallest and largest log-likelihood of the bins searched.", "quantifier": "for all galaxies, tables and likelihood curves", "why_tests_cant": "All likelihood curves.", "anchors": ["redmapper/zred_color.py:ZredColor.compute_zred"]}
{"id": "C345", "title": "Clusters kept by the color run", "statement": "The color run processes the clusters strictly inside the redshift range, and keeps a cluster exactly if a richness was found, its membership probabilities sum to at least calib_colormem_minlambda and its closest galaxy is a member with probability calib_pcut or more; all values of the others are -1.", "quantifier": "for all catalogs, configurations and fits", "why_tests_cant": "All clusters and cuts.", "anchors": ["redmapper/run_colormem.py:RunColormem._process_cluster", "redmapper/run_colormem.py:RunColormem._more_setup"]}
{"id": "C346", "title": "Intrinsic scatter of the color run", "statement": "The color run uses the intrinsic scatter calib_colormem_sigint that is configured for the color mode of the cluster's redshift.", "quantifier": "for all configurations and clusters", "why_tests_cant": "All configurations.", "anchors": ["redmapper/run_colormem.py:RunColormem._process_cluster", "redmapper/cluster.py:Cluster.calc_richness_fit"]}
{"id": "C347", "title": "Change of the richness with redshift", "statement": "dlambda_dz and dlambdavar_dz are central differences, one zlambda_epsilon to each side of z_lambda, of the logarithm of the richness the cluster itself has at these redshifts and of its variance; they are left at their old values exactly when one of the two richnesses is not positive.", "quantifier": "for all clusters, redshifts, steps and earlier computations", "why_tests_cant": "All clusters; the copy that is used must not differ from the cluster.", "anchors": ["redmapper/cluster_runner.py:ClusterRunner.run"]}
{"id": "C348", "title": "Second derivative of the richness", "statement": "dlambda_dz2 and dlambdavar_dz2 are second differences about z_lambda.", "quantifier": "for all clusters, redshifts and corrections", "why_tests_cant": "All clusters and corrections.", "anchors": ["redmapper/cluster_runner.py:ClusterRunner.run"]}
{"id": "C349", "title": "Error model without noise", "statement": "applyErrorModel without noise gives back every magnitude unchanged, with the error of sky plus signal (and a log-normal factor of its own for each if a scatter is asked for), larger for fainter galaxies.", "quantifier": "for all parameters, magnitudes and draws", "why_tests_cant": "All magnitudes.", "anchors": ["redmapper/depth_fitting.py:applyErrorModel"]}
{"id": "C350", "title": "Error model with noise", "statement": "applyErrorModel with noise moves the flux of each galaxy by its noise times a standard normal number of its own.", "quantifier": "for all parameters, magnitudes and draws", "why_tests_cant": "All draws.", "anchors": ["redmapper/depth_fitting.py:applyErrorModel"]}
{"id": "C351", "title": "Fits of a redMaGiC fitter do not add up", "statement": "After any sequence of calls to fit on one fitter, including calls that raise, the redshifts, errors, samples and characteristic magnitudes it works with are those of the last successful call, computed from the raw redshifts: the bias at the raw redshift is subtracted once. A call raises exactly if the afterburner is asked for without training galaxies or without both parameter lists, and the result of a call does not depend on earlier calls.", "quantifier": "for all galaxies, splines and histories of calls", "why_tests_cant": "All histories of an object.", "anchors": ["redmapper/redmagic/redmagic_calibrate.py:RedmagicParameterFitter.fit"]}
{"id": "C352", "title": "Galaxies of the afterburner", "statement": "fit_bias_eratio is fitted to exactly those training galaxies that the cost function counts at the same parameters; the bias stays within 0.1, the error ratio between 0.5 and 1.5, and neither fit is worse than its start, the second one about the new bias.", "quantifier": "for all galaxies, splines, states of the fitter and minimizers", "why_tests_cant": "All samples and all minimizers.", "anchors": ["redmapper/redmagic/redmagic_calibrate.py:RedmagicParameterFitter.fit_bias_eratio", "redmapper/redmagic/redmagic_calibrate.py:RedmagicParameterFitter.__call__"]}
{"id": "C353", "title": "A constant offset is removed", "statement": "If the redshifts of all training galaxies are off by the same amount, the afterburner puts them at their calibration redshifts.", "quantifier": "for all galaxies, offsets, splines and minimizers", "why_tests_cant": "All offsets.", "anchors": ["redmapper/redmagic/redmagic_calibrate.py:RedmagicParameterFitter.fit_bias_eratio", "redmapper/redmagic/redmagic_calibrate.py:RedmagicParameterFitter.fit"]}
{"id": "C354", "title": "Distribution over redshift bins", "statement": "The distribution from which zred is computed is, over the bins searched, proportional to exp(-chisq/2) times the Schechter function at the luminosity of the galaxy times the volume factor, with its largest value one; bins without volume have no weight.", "quantifier": "for all red sequences, galaxies and bins", "why_tests_cant": "All red sequences and magnitudes.", "anchors": ["redmapper/zred_color.py:ZredColor._calculate_lndist", "redmapper/zred_color.py:ZredColor.compute_zred"]}
{"id": "C355", "title": "Bins of a galaxy", "statement": "A galaxy whose zred is computed has at least two bins, among them every bin at which its magnitude is allowed and none that is the overflow bin.", "quantifier": "for all red sequences and galaxies", "why_tests_cant": "All tables of limits.", "anchors": ["redmapper/zred_color.py:ZredColor.compute_zred"]}
{"id": "C356", "title": "Samples of zred", "statement": "zred_samp has one sample of the redshift of the galaxy for each draw, within the bins of non-negligible weight, and equal to zred when the distribution cannot be sampled.", "quantifier": "for all galaxies, draws, corrections and interpolations", "why_tests_cant": "All draws and corrections.", "anchors": ["redmapper/zred_color.py:ZredColor.compute_zred", "redmapper/utilities.py:sample_from_pdf"]}
{"id": "C357", "title": "Normalisation of the luminosity filter", "statement": "The luminosity filter of a cluster is a Schechter function whose integral down to the magnitude limit is one, to within one bin of 0.01 mag.", "quantifier": "for all faint-end slopes of -1 or steeper, characteristic magnitudes, table sizes and limits", "why_tests_cant": "All limits; it is an integral.", "anchors": ["redmapper/cluster.py:Cluster._calc_luminosity", "redmapper/redsequence.py:RedSequenceColorPar.__init__", "redmapper/redsequence.py:RedSequenceColorPar.lumrefmagindex"]}
{"id": "C358", "title": "Objects counted in the map of photometric redshifts", "statement": "In the map of photometric against spectroscopic redshifts every object whose redshifts differ by less than 0.1 is counted in exactly one cell of the coarse bins.", "quantifier": "for all lists of objects, numbers of bins and limits of the difference", "why_tests_cant": "All positions of objects relative to the edges of bins, which are made from the objects.", "anchors": ["redmapper/plotting.py:SpecPlot._make_photoz_map"]}
{"id": "C359", "title": "Row drawn at a redshift of the map", "statement": "At every redshift between the smallest and the largest photometric redshift the map shows the distribution of the bin that has the redshift; outside it is empty.", "quantifier": "for all lists of objects, splines, fits and fine bins", "why_tests_cant": "All positions of fine bins relative to the coarse ones.", "anchors": ["redmapper/plotting.py:SpecPlot._make_photoz_map"]}
{"id": "C360", "title": "Positions in the plot of positions", "statement": "The plot of positions shows objects at their right ascension, and an area is not torn apart because it lies across zero.", "quantifier": "for all lists of right ascensions", "why_tests_cant": "All areas and positions of them.", "anchors": ["redmapper/plotting.py:PositionPlot.plot_positions"]}
{"id": "C361", "title": "Warning about too few redMaGiC galaxies", "statement": "The calibration of a redMaGiC mode warns of exactly the redshifts at which there are fewer galaxies bright enough for the mode than its density asks for.", "quantifier": "for all galaxies, densities, ranges, bin sizes and volumes", "why_tests_cant": "All distributions of galaxies.", "anchors": ["redmapper/redmagic/redmagic_calibrate.py:RedmagicCalibrator.run"]}
{"id": "C362", "title": "Range of the density plot of a redMaGiC mode", "statement": "The density plot of a mode starts with the mode, reaches its end, is less than a bin longer than the mode, and all of its bins have the full width.", "quantifier": "for all ranges and bin sizes of 0.0001 or more", "why_tests_cant": "All ranges and bin sizes.", "anchors": ["redmapper/redmagic/redmagic_calibrate.py:RedmagicCalibrator.run"]}
{"id": "C363", "title": "Redshift diagnostics of the red sequence", "statement": "The plot of redshift offsets has a point for every bin of 0.02 with three galaxies or more: its offset and error are medians of the galaxies within three errors of the median of the bin, its scatter the scaled median absolute deviation, its outlier fraction the share of the bin beyond four times the scatter; every galaxy used is in exactly one bin.", "quantifier": "for all galaxies, redshift ranges and both modes", "why_tests_cant": "All distributions of offsets and errors relative to the cuts.", "anchors": ["redmapper/calibration/redsequencecal.py:RedSequenceCalibrator._make_diagnostic_plots"]}
{"id": "C364", "title": "Pull diagnostics of the red sequence", "statement": "The plot of pulls has a point for every bin of 0.5 mag with galaxies: width, median, and values at 5 and 95 percent of the pulls of the bin; every galaxy within the limits is in exactly one bin.", "quantifier": "for all galaxies, limits and ranges", "why_tests_cant": "All distributions of magnitudes and pulls.", "anchors": ["redmapper/calibration/redsequencecal.py:RedSequenceCalibrator._plot_pulls"]}
{"id": "C365", "title": "Magnitude range of the pull plots", "statement": "The calibration makes the plot of pulls of every color from whatever galaxies it was calibrated with; at most one galaxy in a hundred is beyond either end of its range.", "quantifier": "for all lists of galaxies", "why_tests_cant": "All lists, including short ones and those of one magnitude.", "anchors": ["redmapper/calibration/redsequencecal.py:RedSequenceCalibrator._make_diagnostic_plots"]}
{"id": "C366", "title": "Scaled pulls", "statement": "The scaled pulls drawn are those the error ratios were fitted with; with ratios of one they are the raw pulls, and larger ratios make no pull larger.", "quantifier": "for all colors, errors, scatters and ratios", "why_tests_cant": "All combinations of errors and ratios.", "anchors": ["redmapper/calibration/redsequencecal.py:RedSequenceCalibrator._make_diagnostic_plots"]}
{"id": "C367", "title": "Membership probabilities of a percolation run", "statement": "In a run over a catalog with percolation masking, every neighbour of a cluster that is kept has a membership probability between zero and its probability, no more than what earlier clusters have left of the galaxy; the richness is the scale times the sum of the memberships.", "quantifier": "for all galaxies, catalogs, orders of the clusters and models of filter and background", "why_tests_cant": "All overlaps of clusters, of any number of clusters over one galaxy.", "anchors": ["redmapper/cluster_runner.py:ClusterRunner.run", "redmapper/cluster.py:Cluster.calc_richness"]}
{"id": "C368", "title": "Richness errors of a percolation run", "statement": "The richness error of every cluster that is kept is the root of a number that is not negative (the variance of the number of its members, and the mask correction).", "quantifier": "for all galaxies, catalogs and orders of the clusters", "why_tests_cant": "All overlaps of clusters.", "anchors": ["redmapper/cluster.py:Cluster.calc_richness", "redmapper/cluster_runner.py:ClusterRunner.run"]}
{"id": "C369", "title": "Which clusters a catalog run keeps", "statement": "A cluster of the input catalog is kept exactly if it has neighbours, a depth, no more than seven tenths masked, a richness of three or more after percolation, and a photometric redshift; it carries the richness, error, scale and radius computed of its neighbours with what is left of them, and a cluster not kept has no member rows.", "quantifier": "for all catalogs, galaxies and orders", "why_tests_cant": "All histories of clusters before it.", "anchors": ["redmapper/runcat.py:RunCatalog._process_cluster", "redmapper/cluster_runner.py:ClusterRunner.run"]}
{"id": "C370", "title": "A galaxy is not counted twice", "statement": "In a run over a catalog with percolation masking, the memberships of a galaxy in all clusters that are kept add up to no more than one, in however many clusters it is.", "quantifier": "for all galaxies, catalogs and orders of the clusters", "why_tests_cant": "All overlaps of any number of clusters.", "anchors": ["redmapper/cluster_runner.py:ClusterRunner.run", "redmapper/cluster.py:Cluster.calc_richness"]}
{"id": "C371", "title": "Whose availability decides about a cluster", "statement": "Whether percolation keeps a cluster for want of an available center depends on the availability of the galaxy it is centered on, and of no other: a cluster that is kept is centered on a galaxy that is still available, and the availability of a galaxy that is neither the center nor a member does not matter.", "quantifier": "for all neighbours, centering results, redshifts and cuts", "why_tests_cant": "All centerings (with or without a galaxy at the center) and all neighbour lists.", "anchors": ["redmapper/run_percolation.py:RunPercolation._process_cluster", "redmapper/centering.py:CenteringRandom", "redmapper/centering.py:CenteringBCG"]}
{"id": "C372", "title": "A cluster that percolation gives up is reported", "statement": "Whenever percolation gives up a cluster (and resets its values) it reports it as bad, so that the run goes on without it.", "quantifier": "for all neighbours, centers, redshifts, minimum richnesses and numbers of iterations", "why_tests_cant": "All geometries of neighbours around the center.", "anchors": ["redmapper/run_percolation.py:RunPercolation._process_cluster", "redmapper/cluster_runner.py:ClusterRunner.run"]}
{"id": "C373", "title": "Richness and redshift of a percolated cluster belong together", "statement": "A cluster that percolation keeps has the richness, scale and memberships that its neighbours have at its final redshift, with the mask at its final center: computing the richness again gives the same. Its redshift is the input redshift if redshifts are kept, and otherwise its photometric redshift.", "quantifier": "for all neighbours, centers, photometric redshifts and numbers of iterations", "why_tests_cant": "All paths of the redshift over the iterations.", "anchors": ["redmapper/run_percolation.py:RunPercolation._process_cluster", "redmapper/cluster.py:Cluster.calc_richness", "redmapper/cluster.py:Cluster.redshift"]}
{"id": "C374", "title": "No galaxy is the center of two clusters", "statement": "In a percolated catalog no galaxy is the center of two clusters, and every cluster that is kept has exactly one center recorded.", "quantifier": "for all catalogs of candidates, neighbours, galaxies and centering results", "why_tests_cant": "All orders and overlaps of clusters, and all ways in which galaxies are shared among them.", "anchors": ["redmapper/run_percolation.py:RunPercolation._process_cluster", "redmapper/cluster_runner.py:ClusterRunner.run", "redmapper/cluster.py:Cluster.find_neighbors"]}
{"id": "C375", "title": "A galaxy that is used up is the center of no later cluster", "statement": "Once the clusters of a percolation run have together taken more of a galaxy than the availability cut leaves, no cluster after them is centered on that galaxy, and nothing that comes later gives it back.", "quantifier": "for all catalogs, all prefixes of the run, all galaxies and all later clusters", "why_tests_cant": "All histories of a run, however many clusters share the galaxy.", "anchors": ["redmapper/run_percolation.py:RunPercolation._process_cluster", "redmapper/cluster_runner.py:ClusterRunner.run"]}
{"id": "C376", "title": "The catalog does not depend on how the survey is divided", "statement": "Running a survey tile by tile, with borders wide enough for every cluster that is run in a tile, and consolidating the tiles gives the clusters (with the same values and members) that one run over the whole survey gives.", "quantifier": "for all surveys, divisions into tiles, catalogs of candidates and finders without randomness", "why_tests_cant": "All arrangements of clusters and tile borders, including clusters that compete for galaxies across a border.", "anchors": ["redmapper/pipeline/redmappertask.py:RunRedmapperPixelTask.run", "redmapper/pipeline/redmapperconsolidatetask.py:RedmapperConsolidateTask.run", "redmapper/cluster_runner.py:ClusterRunner.run", "redmapper/configuration.py:Configuration.compute_border"]}
{"id": "C377", "title": "Clusters apart from others have the same results in a tile", "statement": "A group of clusters that shares no galaxies with other clusters, and whose galaxies are all in a tile, has in the run of the tile exactly the values, neighbours and members that it has in a run of the whole survey, whatever else is in the tile or missing from it.", "quantifier": "for all surveys, tiles, groups of clusters and finders without randomness", "why_tests_cant": "All catalogs around the group.", "anchors": ["redmapper/cluster_runner.py:ClusterRunner.run", "redmapper/galaxy.py:GalaxyCatalog.from_galfile"]}
{"id": "C378", "title": "In floating point the richness solver stops after 17 steps, with -1 or a richness of a fixed grid", "statement": "With IEEE 754 doubles, for every input including infinities and values that are not a number, the solver performs exactly 17 steps; the ends of its bracket are computed without rounding; it returns -1 with radius -1, or a richness in [1, 2000) of the form 1/2 + (2j+1)*3999/2^19 with the radius of that richness.", "quantifier": "for all galaxy lists (of any length) of doubles, all parameters, and all values of pow, log, exp and erf", "why_tests_cant": "All doubles in all inputs, with rounding, overflow and values that are not a number.", "anchors": ["redmapper/solver_nfw/solver_nfw.c:solver_nfw", "redmapper/solver_nfw/nfw_weights.c:nfw_weights"]}
{"id": "C379", "title": "In floating point memberships and weights are numbers in [0,1]", "statement": "With IEEE 754 doubles, if the densities are not negative (infinite or not a number allowed) then every membership returned is a finite number of [0,1]. If moreover availabilities are in [0,1], and the edge is hard or radii are finite, every weight returned is a finite number between 0 and the membership.", "quantifier": "for all galaxy lists and parameters with those signs", "why_tests_cant": "Overflow, underflow and rounding of all combinations of doubles.", "anchors": ["redmapper/solver_nfw/solver_nfw.c:solver_nfw", "redmapper/solver_nfw/nfw_weights.c:nfw_weights"]}
{"id": "C380", "title": "A weight that is not a number never gives a plausible richness by itself", "statement": "With IEEE 754 doubles: if the predicted richness is not a number at the first trial, or the edge is soft and any weight is not a number, the solver returns -1. Whenever it returns a richness, the predicted richness at the lower end of the last bracket is not \"not a number\".", "quantifier": "for all galaxy lists and parameters", "why_tests_cant": "All positions and combinations of values that are not a number.", "anchors": ["redmapper/solver_nfw/solver_nfw.c:solver_nfw", "redmapper/solver_nfw/nfw_weights.c:nfw_weights"]}
{"id": "C381", "title": "In floating point galaxies with zero weight do not change the richness in any digit", "statement": "With IEEE 754 doubles, removing galaxies with availability 0 leaves the richness and radius bit for bit the same.", "quantifier": "for all galaxy lists and all subsets of zero-weight galaxies, with a hard edge or finite radii", "why_tests_cant": "All subsets of all lists, and rounding of all sums.", "anchors": ["redmapper/solver_nfw/solver_nfw.c:solver_nfw", "redmapper/solver_nfw/nfw_weights.c:nfw_weights"]}
{"id": "C382", "title": "In floating point a reported richness brackets a self-consistent solution", "statement": "With IEEE 754 doubles, when the solver returns a richness of at least 2, the predicted richness as computed by the code exceeds the trial richness 0.0076 below it, and does not exceed it 0.0076 above it (unless that is 2000): no rounding or underflow misleads the search.", "quantifier": "for all galaxy lists and parameters", "why_tests_cant": "Rounding of all sums and products at all steps.", "anchors": ["redmapper/solver_nfw/solver_nfw.c:solver_nfw", "redmapper/solver_nfw/nfw_weights.c:nfw_weights"]}
{"id": "C383", "title": "In floating point the richness does not depend on the order of the galaxies", "statement": "With IEEE 754 doubles, permuting the galaxies leaves the richness bit for bit the same.", "quantifier": "for all galaxy lists and permutations", "why_tests_cant": "All permutations of all lists.", "anchors": ["redmapper/solver_nfw/solver_nfw.c:solver_nfw", "redmapper/solver_nfw/nfw_weights.c:nfw_weights"]}
{"id": "C384", "title": "Rounding changes the richness only by changing the side of a trial", "statement": "If at every trial richness of the search the predicted richness computed in IEEE 754 doubles lies on the same side of the trial richness, and of 1, as the exact one, then the richness returned equals, in every digit, the richness of the search in exact arithmetic.", "quantifier": "for all galaxy lists, parameters, and all exact predicted richnesses with those sides", "why_tests_cant": "All sequences of 17 decisions for all inputs.", "anchors": ["redmapper/solver_nfw/solver_nfw.c:solver_nfw", "redmapper/solver_nfw/nfw_weights.c:nfw_weights"]}
{"id": "C385", "title": "A richness computed in floating point is near the exact solution", "statement": "If the computed predicted richness is within eps of an exact function f, and f exceeds the trial richness by more than eps below a - delta and is at least eps less above a + delta, then a richness of 2 or more that is returned lies within delta + 0.0077 of a.", "quantifier": "for all galaxy lists, parameters, functions, eps, delta and a", "why_tests_cant": "All functions and inputs.", "anchors": ["redmapper/solver_nfw/solver_nfw.c:solver_nfw", "redmapper/solver_nfw/nfw_weights.c:nfw_weights"]}
{"id": "C386", "title": "Rounding errors of the predicted richness are tiny", "statement": "With IEEE 754 doubles, the predicted richness of n galaxies computed at any trial richness in [1/2, 2000] differs from the exact one by at most 2^-53 (n(n+13) + 4002), plus n times the error of the radial weights, plus 2000 times the error of the masked fraction.", "quantifier": "for all lists of up to 2^53 galaxies with densities 0 or between 2^-400 and 2^400, backgrounds up to 2^900 or infinite and availabilities in [0,1], and all trial richnesses", "why_tests_cant": "Accumulated rounding of sums of any length.", "anchors": ["redmapper/solver_nfw/solver_nfw.c:solver_nfw", "redmapper/solver_nfw/nfw_weights.c:nfw_weights"]}
{"id": "C387", "title": "Rounding does not move the richness", "statement": "With IEEE 754 doubles and the inputs of C386: if at no trial the exact predicted richness is within the error bound of the trial richness or of 1, the returned richness is that of the exact search; and a returned richness of 2 or more is within delta + 0.0077 of the exact solution when the two sides of the equation differ by more than the bound beyond delta.", "quantifier": "for all such galaxy lists, parameters and delta", "why_tests_cant": "All inputs and all accumulated rounding errors.", "anchors": ["redmapper/solver_nfw/solver_nfw.c:solver_nfw", "redmapper/solver_nfw/nfw_weights.c:nfw_weights"]}
{"id": "C388", "title": "In floating point the number of bins is that of the configuration", "statement": "With IEEE 754 doubles, a range that is a whole number N of bins, with the limits and the size written as decimals in the configuration, is divided into N bins (background, redshift scan, volume limits, redMaGiC calibration).", "quantifier": "for all ranges from 0 to 1000 and bin sizes from 1/4096 to 1", "why_tests_cant": "All decimals, whose nearest doubles are above or below them.", "anchors": ["redmapper/background.py:ChisqBackgroundGenerator.run", "redmapper/background.py:ZredBackgroundGenerator.run", "redmapper/run_zscan.py:RunZScan", "redmapper/volumelimit.py:VolumeLimitMask"]}
{"id": "C389", "title": "In floating point red-sequence and redshift-correction tables have all their bins", "statement": "With IEEE 754 doubles, the tables of the red sequence and of the redshift correction have exactly N bins for a range that is N bins long.", "quantifier": "for all ranges from 0 to 1000 and bin sizes from 1/4096 to 1", "why_tests_cant": "All decimals.", "anchors": ["redmapper/redsequence.py:RedSequenceColorPar", "redmapper/zlambda.py:ZlambdaCorrectionPar"]}
{"id": "C390", "title": "In floating point a redshift is looked up in its bin of the red sequence", "statement": "With IEEE 754 doubles, looking up the redshift of any bin of the red-sequence table gives this bin, and so does any redshift within almost half a bin of it; beyond the table the overflow bin is used.", "quantifier": "for all ranges that start at a multiple of a bin size 1/M, all bins and all redshifts near them", "why_tests_cant": "All ranges, bin sizes and redshifts.", "anchors": ["redmapper/redsequence.py:RedSequenceColorPar.zindex"]}
{"id": "C391", "title": "In floating point the background is looked up in the redshift bin", "statement": "With IEEE 754 doubles, looking up the background at the redshift of any bin of its table, or within 0.4 bins of it, uses this bin.", "quantifier": "for all ranges of at least two bins from 0 to 1000, all bins and all redshifts near them", "why_tests_cant": "All ranges, bin sizes and redshifts; errors of the steps add up along the table.", "anchors": ["redmapper/background.py:Background", "redmapper/background.py:Background.sigma_g_lookup"]}
{"id": "C392", "title": "In floating point a magnitude is looked up in its bin of the red sequence", "statement": "With IEEE 754 doubles, looking up the magnitude of any bin of the table (from 10 or 12 in steps of 0.01), or a magnitude within 0.4 bins of it, gives this bin; above the table the overflow bin.", "quantifier": "for all whole starting magnitudes up to 100, tables of up to 90000 bins and all magnitudes near a bin", "why_tests_cant": "All lengths and magnitudes; errors of the steps add up along the table.", "anchors": ["redmapper/redsequence.py:RedSequenceColorPar.refmagindex", "redmapper/redsequence.py:RedSequenceColorPar.lumrefmagindex"]}
{"id": "C393", "title": "In floating point a random draw always finds a value", "statement": "With IEEE 754 doubles, drawing from a tabulated distribution (sampling of a density, a random satellite as center, a redshift for the density plot) never fails with an IndexError, whatever the random number in [0,1).", "quantifier": "for all distributions on up to 2^20 points that are not negative and not all zero, all sums numpy may compute within 2^-24, and all random numbers up to 1 - 2^-53", "why_tests_cant": "Rounding of all cumulative sums, and the rare random numbers next to 1.", "anchors": ["redmapper/utilities.py:sample_from_pdf", "redmapper/centering.py:CenteringRandomSatellite", "redmapper/plotting.py:NzPlot"]}
{"id": "C394", "title": "In floating point a random draw has a positive density", "statement": "With IEEE 754 doubles, a value that is drawn from a tabulated distribution has a density that is not zero.", "quantifier": "for all distributions, sums and random numbers", "why_tests_cant": "All distributions with zeros and all roundings of cumulative sums.", "anchors": ["redmapper/utilities.py:sample_from_pdf", "redmapper/centering.py:CenteringRandomSatellite", "redmapper/plotting.py:NzPlot"]}
{"id": "C395", "title": "In floating point the richness error is always a number", "statement": "With IEEE 754 doubles, whenever the richness of a cluster is reported, the argument of the square root of its richness error is a finite number that is not negative, so that the error is never NaN, in whatever order numpy adds the memberships; as long as the sum of the memberships is not below 2^-400 and the masking error not above 2^400.", "quantifier": "for all galaxies, memberships, orders of summation, richnesses and masking errors", "why_tests_cant": "Rounding could push the mean membership above 1 and the argument below zero for rare memberships; all orders of summation.", "anchors": ["redmapper/cluster.py:Cluster.calc_richness"]}
{"id": "C396", "title": "In floating point spline nodes increase and cover the range", "statement": "With IEEE 754 doubles, make_nodes never fails, its nodes increase strictly, contain the highest useful node, end exactly at the upper limit, and start exactly at the lower limit if the useful part is wider than a node size; the nodes before are spaced by the node size within 2^-15, and the last interval up to the highest useful node is between half a size plus 0.01 (or one size) and one and a half sizes plus 0.01.", "quantifier": "for all ranges of doubles within 0 to 1000, node sizes from 1/4096 to 1000 and optional maxima", "why_tests_cant": "The number of values of numpy's arange and their accumulated rounding differ from range to range; a repeated node would make the spline fail.", "anchors": ["redmapper/utilities.py:make_nodes"]}
{"id": "C397", "title": "Clusters of a pixel descend one to one from sources that pass every stage", "statement": "The clusters that the three stages of a pixel percolate are exactly those of the sources (seed file or galaxies) that pass the cuts of every stage: range of red-sequence redshifts, chi-squared, reference luminosity or footprint; first richness; range of redshifts, luminosity, second richness, three members; finite likelihood, third richness and luminosity. No source occurs twice. They are numbered from 1 in the order of percolation, which does not increase in the total likelihood, and the written catalog is a part of them in that order.", "quantifier": "for all catalogs, seed files, configurations and results of the richness and redshift estimates", "why_tests_cant": "The cuts of three programs that hand each other files act together; a cluster lost or doubled between two of them shows in no test of one stage.", "anchors": ["redmapper/redmapper_run.py:RedmapperRun._worker", "redmapper/run_firstpass.py:RunFirstPass", "redmapper/run_likelihoods.py:RunLikelihoods", "redmapper/run_percolation.py:RunPercolation"]}
{"id": "C398", "title": "Redshifts to be kept are kept through a pixel", "statement": "If redshifts are to be kept, every percolated cluster has the redshift of its seed.", "quantifier": "for all catalogs, seed files and configurations", "why_tests_cant": "Each stage has its own rule for the redshift it records.", "anchors": ["redmapper/redmapper_run.py:RedmapperRun._worker", "redmapper/run_firstpass.py:RunFirstPass", "redmapper/run_likelihoods.py:RunLikelihoods", "redmapper/run_percolation.py:RunPercolation"]}
{"id": "C399", "title": "Every cluster with a likelihood is percolated if rich, bright and in range", "statement": "Every cluster of the catalog of likelihoods that is rich and bright enough and in the range of redshifts is handed to percolation.", "quantifier": "for all catalogs, configurations and memberships", "why_tests_cant": "Depends on a logarithm of one minus a membership that is infinite for a single value.", "anchors": ["redmapper/redmapper_run.py:RedmapperRun._worker", "redmapper/run_firstpass.py:RunFirstPass", "redmapper/run_likelihoods.py:RunLikelihoods", "redmapper/run_percolation.py:RunPercolation"]}
{"id": "C400", "title": "Percolation goes in order of likelihood", "statement": "The clusters of a pixel are percolated in the order of the sum of the likelihoods of their members and of their central galaxy.", "quantifier": "for all catalogs, configurations and sorting results", "why_tests_cant": "Depends on which stage writes the likelihoods and on ties.", "anchors": ["redmapper/redmapper_run.py:RedmapperRun._worker", "redmapper/run_firstpass.py:RunFirstPass", "redmapper/run_likelihoods.py:RunLikelihoods", "redmapper/run_percolation.py:RunPercolation"]}
{"id": "C401", "title": "In floating point a spline reproduces its nodes", "statement": "With IEEE 754 doubles, a CubicSpline evaluated at a node returns exactly the value of that node, whatever second derivatives the solver returned; with fixed extrapolation it returns exactly the first (last) value below (above) the nodes, also for infinite arguments.", "quantifier": "for all grids of two or more nodes with gaps from 2^-100 to 2^100, all values and second derivatives that are doubles", "why_tests_cant": "Every grid has its own rounding errors; equality to the last digit cannot be seen on samples.", "anchors": ["redmapper/utilities.py:CubicSpline", "redmapper/utilities.py:interpol"]}
{"id": "C402", "title": "In floating point linear interpolation reproduces its nodes", "statement": "With IEEE 754 doubles, interpol at a node returns exactly the value of that node.", "quantifier": "for all grids and values", "why_tests_cant": "Every grid has its own rounding errors; equality to the last digit cannot be seen on samples.", "anchors": ["redmapper/utilities.py:CubicSpline", "redmapper/utilities.py:interpol"]}
{"id": "C403", "title": "Rounding error of linear interpolation", "statement": "With IEEE 754 doubles, interpol between the first and the last node is finite, differs from the exact linear interpolation by at most 2^-48 of the greatest value, and lies between the values of the neighbouring nodes within that error.", "quantifier": "for all grids with gaps from 2^-100 to 2^100, values up to 2^600 and all arguments between the nodes", "why_tests_cant": "Worst cases of rounding are not met by samples.", "anchors": ["redmapper/utilities.py:CubicSpline", "redmapper/utilities.py:interpol"]}
{"id": "C404", "title": "Rounding error of a spline", "statement": "With IEEE 754 doubles, a CubicSpline between the first and the last node is finite and differs by at most 2^-47 of a scale from the exact cubic with the same nodes, values and second derivatives; the scale bounds the values and the second derivatives times the square of the gap.", "quantifier": "for all grids with gaps from 2^-100 to 2^100, scales up to 2^600 and all arguments between the nodes", "why_tests_cant": "Worst cases of rounding are not met by samples.", "anchors": ["redmapper/utilities.py:CubicSpline", "redmapper/utilities.py:interpol"]}
{"id": "C405", "title": "Accepted clusters have a likelihood", "statement": "With a calibrated central model, every cluster that is rich enough and has at least three members besides the central galaxy, none with a membership of one, gets a finite likelihood, the sum of that of the central galaxy and that of the members.", "quantifier": "for all calibrated models, clusters and neighbours", "why_tests_cant": "Depends on the distances of all members; clusters whose members are all far out are rare in test data.", "anchors": ["redmapper/run_likelihoods.py:RunLikelihoods._process_cluster"]}
{"id": "C406", "title": "Galaxies without membership do not count in the likelihood", "statement": "Adding or removing a neighbour without membership that is not the nearest galaxy changes none of the likelihoods of a cluster, nor whether it is accepted.", "quantifier": "for all clusters, neighbours and places in the list", "why_tests_cant": "Every neighbour list is possible.", "anchors": ["redmapper/run_likelihoods.py:RunLikelihoods._process_cluster"]}
{"id": "C407", "title": "The order of neighbours has no effect on the likelihood", "statement": "The likelihoods of a cluster with a single nearest galaxy do not depend on the order in which its neighbours are listed.", "quantifier": "for all clusters and permutations of neighbours", "why_tests_cant": "All permutations cannot be tried.", "anchors": ["redmapper/run_likelihoods.py:RunLikelihoods._process_cluster"]}
{"id": "C408", "title": "Likelihoods do not depend on the zero point", "statement": "If all magnitudes, including the characteristic magnitude, are shifted by the same amount, no likelihood of a cluster changes.", "quantifier": "for all clusters, neighbours and shifts", "why_tests_cant": "Every shift is possible.", "anchors": ["redmapper/run_likelihoods.py:RunLikelihoods._process_cluster"]}
{"id": "C409", "title": "The repair of a covariance keeps its directions", "statement": "compute_chisq raises variances below 1e-6 to 1e-6 and leaves the others: for a color difference along a direction in which the total covariance has the variance v, chi-squared is the squared distance over the greater of v and 1e-6.", "quantifier": "for all numbers of colors, symmetric covariances, errors and directions, and all orders in which the library may list eigenvalues", "why_tests_cant": "The library documents no order of eigenvalues; a test sees one version of the library.", "anchors": ["redmapper/chisq_dist/chisq_dist.c:check_and_fix_covmat", "redmapper/chisq_dist/chisq_dist_lib.py:compute_chisq"]}
{"id": "C410", "title": "In single precision a galaxy is never given back", "statement": "In a run with percolation masking the availability of every galaxy, kept in single precision, begins at one, is always a number, never increases and is never above one; a galaxy that is not available enough to be a center stays so.", "quantifier": "for all histories of clusters, each of which may depend on all that was masked before, and all galaxies", "why_tests_cant": "Rounding depends on every value added before; all histories cannot be tried.", "anchors": ["redmapper/cluster_runner.py:ClusterRunner.run"]}
{"id": "C411", "title": "Availability in single precision accounts for what clusters take", "statement": "At every point of a run with percolation masking the availability of a galaxy is one minus the probabilities of the clusters that have taken it.", "quantifier": "for all histories of clusters and all galaxies", "why_tests_cant": "Rounding errors add up over the history.", "anchors": ["redmapper/cluster_runner.py:ClusterRunner.run"]}
{"id": "C412", "title": "Exactly the clusters with a likelihood are in the catalog of likelihoods", "statement": "A cluster is in the catalog of likelihoods if and only if its likelihood was computed and is a number, although the mark of a failed cluster, minus 1e11, is not a number of single precision and is compared with a column of single precision.", "quantifier": "for all likelihoods", "why_tests_cant": "All values are possible, and the mark changes when it is stored.", "anchors": ["redmapper/run_likelihoods.py:RunLikelihoods._postprocess", "redmapper/cluster.py:cluster_dtype_base"]}
{"id": "C413", "title": "Percolation goes by likelihood although likelihoods are stored in single precision", "statement": "Clusters are percolated in order of non-increasing likelihood as computed.", "quantifier": "for all lists of clusters and all orders of ties", "why_tests_cant": "Depends on all pairs of likelihoods and on the sort.", "anchors": ["redmapper/run_percolation.py:RunPercolation._more_setup", "redmapper/run_likelihoods.py:RunLikelihoods._process_cluster"]}
{"id": "C414", "title": "Cuts of percolation in single precision", "statement": "Percolation uses exactly the clusters whose redshift, as computed, is inside the range, whose richness is above the minimum and whose likelihood is a number, although the columns and limits are rounded.", "quantifier": "for all limits, redshifts and richnesses", "why_tests_cant": "Matters for values next to the limits only.", "anchors": ["redmapper/run_percolation.py:RunPercolation._more_setup", "redmapper/run_likelihoods.py:RunLikelihoods._process_cluster"]}
{"id": "C415", "title": "Probabilities in the member file", "statement": "The probability of a member in the file is between zero and one and that of the computation to single precision; its availability is exactly what the cluster found. In the file are exactly the candidates for the center and the neighbours of which more than one per cent is available.", "quantifier": "for all histories, clusters and members", "why_tests_cant": "All values are possible.", "anchors": ["redmapper/cluster_runner.py:ClusterRunner.run"]}
{"id": "C416", "title": "A consolidation gives clusters and members the redshift of the closest good spectrum, or none", "statement": "When a consolidation matches spectra, every cluster and every member of every catalog it writes has the redshift of the closest spectrum with a good redshift within three arcseconds of its position, or -1 if there is no such spectrum; never a redshift left over from the files.", "quantifier": "all files of pixels, spectra, errors, cuts and orders, for the consolidation of cluster finder runs and of runs on a catalog", "why_tests_cant": "The consolidation writes to columns of temporary tables by index pairs, cuts, relabels and sorts afterwards; a test checks a few clusters of one catalog.", "anchors": ["redmapper/pipeline/redmapperconsolidatetask.py:RedmapperConsolidateTask.run", "redmapper/pipeline/redmapperconsolidatetask.py:RuncatConsolidateTask.run"]}
{"id": "C417", "title": "In a mock catalog clusters and members have the true redshift of their galaxy", "statement": "When a consolidation is given the truth, every cluster and every member of every catalog it writes whose galaxy is in the mock catalog has the true redshift of that galaxy.", "quantifier": "all mock catalogs with distinct positions, files, cuts and pixels", "why_tests_cant": "Members across the border of a pixel are recorded in the file of the pixel of the cluster; the truth is read for the galaxies of the pixel only, and no test has members there.", "anchors": ["redmapper/pipeline/redmapperconsolidatetask.py:RedmapperConsolidateTask.run", "redmapper/pipeline/redmapperconsolidatetask.py:RuncatConsolidateTask.run"]}
{"id": "C418", "title": "Without matching the redshifts of clusters and members are left alone", "statement": "A consolidation told not to match spectra leaves the spectroscopic redshift of clusters and members as it is in the files.", "quantifier": "all files, with and without truth", "why_tests_cant": "The flag and the presence of truth combine; tests run with one combination.", "anchors": ["redmapper/pipeline/redmapperconsolidatetask.py:RedmapperConsolidateTask.run", "redmapper/pipeline/redmapperconsolidatetask.py:RuncatConsolidateTask.run"]}
{"id": "C419", "title": "Matching redshifts does not change anything else", "statement": "Whatever is matched and to whatever spectra or truth, a consolidation fails or not as one without matching would, and writes the same clusters and members in the same order with the same ids and other columns.", "quantifier": "all files, spectra, truths, flags and cuts that do not look at the redshift that is matched", "why_tests_cant": "Equality of two runs of the whole consolidation over all inputs.", "anchors": ["redmapper/pipeline/redmapperconsolidatetask.py:RedmapperConsolidateTask.run", "redmapper/pipeline/redmapperconsolidatetask.py:RuncatConsolidateTask.run"]}
{"id": "C420", "title": "Members are found under the id of their cluster, whatever the ids of the input catalog", "statement": "When a catalog of clusters with different integer ids is run, the galaxies that the member file has under the id of a cluster are those recorded for the cluster, and every member is under the id of a cluster of the output.", "quantifier": "all input catalogs with different integer ids, all galaxies and richness cuts", "why_tests_cant": "Ids of 64 bits are ordinary for halo catalogs, the column of the member file has 32 bits; tests use small ids.", "anchors": ["redmapper/cluster.py:cluster_dtype_base", "redmapper/cluster.py:member_dtype_base", "redmapper/cluster.py:ClusterCatalog.__init__", "redmapper/cluster_runner.py:ClusterRunner.run", "redmapper/cluster_runner.py:ClusterRunner._postprocess"]}
{"id": "C421", "title": "Random points are numbered from one", "statement": "However many random points are asked for and in however many turns they are made, the k-th has id k.", "quantifier": "all numbers of points and all turns", "why_tests_cant": "The column of ids has 32 bits; a test makes a few thousand points.", "anchors": ["redmapper/randoms.py:GenerateRandoms.generate_randoms"]}
{"id": "C422", "title": "The catalogs of a survey contain exactly the clusters that pass every stage", "statement": "Run the cluster finder on the pixels of a survey and consolidate the files. For every cut, each row of the catalog is a cluster of one pixel that descends from a source of that pixel, passed the cuts of all three stages, is inside the pixel and meets the cut; every such cluster has a row; ids are different and follow the likelihoods; the members under the id of a row are those that percolation recorded for that cluster, and there are no others; a cluster has the same id in the catalogs of all cuts. If no cluster meets a cut, the consolidation fails.", "quantifier": "all surveys: all lists of different pixels, sources, galaxies, richness and likelihood functions, percolation steps and cuts", "why_tests_cant": "Six stages with four renumberings of the clusters in between; a test checks one stage on one pixel.", "anchors": ["redmapper/redmapper_run.py:RedmapperRun.run", "redmapper/redmapper_run.py:RedmapperRun._worker", "redmapper/cluster_runner.py:ClusterRunner.run", "redmapper/cluster_runner.py:ClusterRunner._postprocess", "redmapper/pipeline/redmapperconsolidatetask.py:RedmapperConsolidateTask.run"]}
{"id": "C423", "title": "No source gives two clusters of a survey", "statement": "If the sources of each pixel have different positions, no two rows of a consolidated catalog come from the same source of the same pixel.", "quantifier": "all surveys", "why_tests_cant": "Would need all catalogs and orders of likelihood.", "anchors": ["redmapper/redmapper_run.py:RedmapperRun.run", "redmapper/redmapper_run.py:RedmapperRun._worker", "redmapper/cluster_runner.py:ClusterRunner.run", "redmapper/cluster_runner.py:ClusterRunner._postprocess", "redmapper/pipeline/redmapperconsolidatetask.py:RedmapperConsolidateTask.run"]}
{"id": "C424", "title": "The clusters of a pixel do not depend on the other pixels", "statement": "Two surveys that treat a pixel alike have the same clusters of that pixel in their consolidated catalogs, with the same richness and the same members, whatever the other pixels are, how many there are and in which order they are.", "quantifier": "all pairs of surveys with a pixel in common", "why_tests_cant": "Needs two runs of any two surveys.", "anchors": ["redmapper/redmapper_run.py:RedmapperRun.run", "redmapper/redmapper_run.py:RedmapperRun._worker", "redmapper/cluster_runner.py:ClusterRunner.run", "redmapper/cluster_runner.py:ClusterRunner._postprocess", "redmapper/pipeline/redmapperconsolidatetask.py:RedmapperConsolidateTask.run"]}
{"id": "C425", "title": "In the catalogs of a survey that is run in tiles, no galaxy counts as more than one", "statement": "Run the tiles of a survey with masking and consolidate. The membership probabilities of a galaxy, added over all clusters of the consolidated catalog, are at most one.", "quantifier": "all surveys, all sets of overlapping tiles, all galaxies", "why_tests_cant": "Tiles do not know what the others have masked: needs all arrangements of clusters at borders.", "anchors": ["redmapper/pipeline/redmappertask.py:RunRedmapperPixelTask.run", "redmapper/pipeline/redmapperconsolidatetask.py:RedmapperConsolidateTask.run", "redmapper/cluster_runner.py:ClusterRunner.run", "redmapper/run_percolation.py:RunPercolation._process_cluster"]}
{"id": "C426", "title": "No galaxy is the center of two clusters of a survey that is run in tiles", "statement": "Run the tiles of a survey with percolation and consolidate. No two clusters of the consolidated catalog have the same central galaxy, although tiles overlap.", "quantifier": "all surveys, all sets of overlapping tiles", "why_tests_cant": "Needs all arrangements of clusters in all tiles.", "anchors": ["redmapper/pipeline/redmappertask.py:RunRedmapperPixelTask.run", "redmapper/pipeline/redmapperconsolidatetask.py:RedmapperConsolidateTask.run", "redmapper/cluster_runner.py:ClusterRunner.run", "redmapper/run_percolation.py:RunPercolation._process_cluster"]}
{"id": "C427", "title": "A new configuration has the values of its files and no others", "statement": "Constructing a Configuration gives every declared field the value of the galaxy file statistics if there is one, else the value of the configuration file, else its default. It gives the same values, or the same error, whatever configurations were made or changed before in the process.", "quantifier": "all sets of fields, configuration files, statistics and histories of the process", "why_tests_cant": "Values live in the class and are shared by all objects, so needs all histories.", "anchors": ["redmapper/configuration.py:Configuration.__init__", "redmapper/configuration.py:Configuration._reset_vars", "redmapper/configuration.py:Configuration._set_vars_from_dict", "redmapper/configuration.py:ConfigField"]}
{"id": "C428", "title": "Galaxies and probabilities of the single-color richness", "statement": "calc_richness_fit refuses a cluster with -10 exactly if fewer than mingal galaxies are usable (magnitude strictly between mstar minus the bright limit and mstar minus the luminosity limit, radius below rcut, color inside the range of the color background), or no central color is given and the innermost galaxy is not usable, or fewer than mingal usable galaxies have a color within two net errors of the central color. If a richness is found, the line in color and magnitude is the fit to exactly these galaxies about the median magnitude of the usable ones, and every neighbor is given the probability from its distance to this line and the color background at its color and magnitude, at one richness within 0.01 of the one returned; pmem is this probability times theta_i times pfree inside the radius and zero outside; pcol is the same without the radial profile and zero beyond the radius or the limits.", "quantifier": "for all clusters, neighbor lists, color ranges, central colors, fits and backgrounds", "why_tests_cant": "Which galaxies pass depends on strict limits in five quantities and on ties in the radius; the formula must hold for every galaxy and every fit.", "anchors": ["redmapper/cluster.py:Cluster.calc_richness_fit", "redmapper/cluster.py:Cluster.calc_cbkg_density"]}
{"id": "C429", "title": "Masking more never lowers the masking error", "statement": "calc_lambdacerr is zero if less than one percent is masked, and otherwise k sqrt(v - v^2) / (1 - beta gamma), where k is the squared richness over the sum of squared memberships and v is the sum of the membership probabilities of the mask galaxies inside the radius that are masked or fainter than the limit, divided by the richness and by the number of mask galaxies inside the radius. At the same richness, memberships and mask value, masking further mask galaxies never lowers it.", "quantifier": "for all mask galaxies, masks, richnesses, radii, memberships and backgrounds", "why_tests_cant": "The error is not a monotone function of v; that v stays on the rising side has to follow from bounds on all probabilities.", "anchors": ["redmapper/cluster.py:Cluster.calc_lambdacerr"]}
{"id": "C430", "title": "Random satellites are drawn by their membership", "statement": "CenteringRandomSatellite takes a random member weighted by the membership probabilities: the probability that a neighbour is chosen is its membership probability divided by the sum of all.", "quantifier": "for all membership probabilities, numbers of neighbours and orders of equal probabilities", "why_tests_cant": "A statement about the measure of the set of draws for every list of probabilities; a test samples draws for one list.", "anchors": ["redmapper/centering.py:CenteringRandomSatellite.find_center"]}
{"id": "C431", "title": "Computed zreds are the zreds read", "statement": "The zred file written for a pixel has the nine zred columns and one row per galaxy of the pixel, in their order, with the values computed for that galaxy; reading the galaxies of the pixel with that file gives every column of the galaxy file unchanged and the computed values in the zred columns.", "quantifier": "for all galaxy tables with any columns and rows and every computation that changes only zred columns", "why_tests_cant": "Ranges over every set of columns of the galaxy file, including those that already have zred columns; tests use one galaxy file.", "anchors": ["redmapper/zred_runner.py:ZredRunPixels._worker", "redmapper/galaxy.py:zred_extra_dtype", "redmapper/galaxy.py:GalaxyCatalog.add_zred_fields", "redmapper/galaxy.py:GalaxyCatalog.from_galfile"]}
{"id": "C432", "title": "The memory report never fails", "statement": "The memory report of the log is made whatever the process status contains: with every line understood it has the last values of the current and the peak memory in units of 1000 kB cut towards zero, zero for a value that is not there; in every other case it says that there are none. It always names the place in the code.", "quantifier": "for all contents of the status file, readable or not, and all places", "why_tests_cant": "Ranges over every content of a system file; a test sees the one of the machine it runs on.", "anchors": ["redmapper/utilities.py:getMemoryString"]}
{"id": "C433", "title": "The cuts of a consolidation are those asked for", "statement": "A consolidation makes a catalog for every pair of a richness cut and a volume limit: those given to the task, and those of the configuration where none are given; catalogs without a volume limit are made exactly if no limit is given and none is configured.", "quantifier": "for all lists of cuts given to the task or the script and all configurations", "why_tests_cant": "Ranges over every combination of given and configured lists, empty ones included; a test runs one.", "anchors": ["redmapper/pipeline/redmapperconsolidatetask.py:RedmapperConsolidateTask.__init__", "redmapper/pipeline/redmapperconsolidatetask.py:RedmapperConsolidateTask.run", "bin/redmapper_consolidate_run.py"]}
{"id": "C434", "title": "Splitting a catalog in one call", "statement": "split_galaxies of a new maker either returns, leaving a finalized catalog with unique ids in which every accepted galaxy is once in the file of its pixel, or raises, leaving no master table and all files that were there; a second call after success raises and changes nothing; and after an error the call can be repeated when its cause has been removed, with the same result as if it had not failed.", "quantifier": "for all galaxy tables, all directories with any pixel files, with and without generated ids, and all sequences of a failed and a repeated call", "why_tests_cant": "Ranges over every table, every set of files already there and every point at which the call raises.", "anchors": ["redmapper/galaxy.py:GalaxyCatalogMaker.split_galaxies", "redmapper/galaxy.py:GalaxyCatalogMaker.append_galaxies", "redmapper/galaxy.py:GalaxyCatalogMaker.finalize_catalog"]}
{"id": "C435", "title": "Splitting random points in one call", "statement": "split_randoms of a new maker either returns, leaving a finalized catalog in which every accepted point is once in the file of its pixel and no id occurs twice, or raises, leaving no master table and all files that were there.", "quantifier": "for all tables of random points and all directories with any pixel files", "why_tests_cant": "Ranges over every table of points, repeated ids included, and every set of files already there.", "anchors": ["redmapper/randoms.py:RandomCatalogMaker.split_randoms", "redmapper/randoms.py:RandomCatalogMaker.append_randoms", "redmapper/randoms.py:RandomCatalogMaker._check_galaxies", "redmapper/galaxy.py:GalaxyCatalogMaker.finalize_catalog"]}
{"id": "C436", "title": "Creating a galaxy catalog maker", "statement": "A maker of galaxy catalogs is created exactly if the six required entries are given, the base name has a path and there is no master table; it holds the values given, and otherwise the first missing entry is reported (or a RuntimeError) and no file is touched; nothing is created if an entry or the path is missing.", "quantifier": "for all dictionaries, base names and contents of the disk", "why_tests_cant": "Ranges over every set of entries, every name and every state of the disk.", "anchors": ["redmapper/galaxy.py:GalaxyCatalogMaker.__init__"]}
{"id": "C437", "title": "Creating a random catalog maker", "statement": "A maker of random catalogs needs no entries: it holds the values given and zero (no mode) for the others, and it leaves the dictionary of the caller as it was.", "quantifier": "for all dictionaries, base names and contents of the disk", "why_tests_cant": "Ranges over every set of entries given, and over what is made with the same dictionary later.", "anchors": ["redmapper/randoms.py:RandomCatalogMaker.__init__", "redmapper/galaxy.py:GalaxyCatalogMaker.__init__"]}
