# Formal model of redMaPPer in Lean 4: design

## Layout

* `lean/Verif/Model/*.lean` - the model, one file per area.  Every definition cites
  the file and lines in `/repo` it models and says where it simplifies.
* `lean/Verif/Lemmas/*.lean` - helper lemmas (no property statements).
* `lean/Verif/Props/*.lean` - the property theorems, each with the small
  specification it uses and a non-vacuity `example`.
* `properties.jsonl`, `MANIFEST.json` - properties and their status.
* `seeded/LOG.jsonl` - log of the wrong-program experiments.

## Trusted base

* Lean 4.33.0's kernel.
* The axioms `propext`, `Classical.choice`, `Quot.sound` (Lean's standard ones), and no others; which theorem uses which is listed at the end.
  No `sorry`, no `native_decide`, no `bv_decide`, no axioms of our own.
* The Mathlib definitions that occur in statements (ordered fields, `List`, real functions, positive definite matrices, ...).
* The reading of `/repo` recorded in the comments of the model.  The model was written by hand from the source; nothing checks it against a running program.
* The specifications in `Props/*.lean` (definitions that appear in theorem statements).

## Conventions of the model

* numpy arrays are `List`s (or functions on indices where only random access matters);
  structured-array rows are structures.
* Python exceptions are values (`Except Err`).
* Machine floats are **not** modelled.  Arithmetic is exact: `Int`/`Nat` for integers,
  an arbitrary linearly ordered field (instantiated with the rationals in examples) or the
  reals for floating-point quantities.  Rounding, NaN and infinity are modelled only where the
  code branches on them, as explicit options.
* Transcendental functions (`pow`, `log`, `exp`, `erf`), cosmology, healpix geometry,
  random draws, `scipy` optimisers and FITS I/O are parameters of the model.  Any assumption about
  such a parameter is a visible hypothesis of the theorem that needs it (structures with names ending in `OK`, or plain hypotheses),
  and an `example` or theorem shows that some concrete function meets it.
* `np.argsort` is any sorting permutation (numpy's default sort is not stable), so theorems
  quantify over all permutations that sort; `esutil.numpy_util.match` and `esutil.stat.histogram` are modelled by their contracts.
* Loops are folds or structural recursions; `while` loops carry fuel only where the code itself bounds the iterations.
* Processes are modelled as small-step programs over a shared file-system state; schedules are
  arbitrary lists of process numbers, crashes are processes that are no longer scheduled.
* A property that is false of the code is kept as it was stated (`def Cxx_spec`, or in `properties.jsonl`); its negation is proved with a concrete
  witness or for all inputs of a kind (`..._false`), and what does hold is proved under a visible guard (`..._partial`).

## How each property is proved

| Properties | What is modelled | How it is proved |
|---|---|---|
| C01-C08, C70, C71 | `solver_nfw`, `nfw_weights`, constructor checks | bisection loop invariant over the number of steps (bracket, dyadic grid, sign of the residual), list induction for the weights, permutation/filter invariance of sums |
| C09-C14, C72, C73 | the runner loop (`ClusterRunner.run`) as a fold with the per-cluster computation as a parameter; id generation; `_postprocess` | invariant by induction over clusters; prefix law of the fold; contract of `match` |
| C15, C16, C66, C74-C78 | set-up orderings of the finders, percolation loop, scan argmax | permutation and sortedness for any `argsort`; invariants over the percolation loop |
| C17-C20, C68 | both consolidation paths with per-pixel catalogs and colliding ids; pixel split logic over an abstract nested pixelisation | refinement to "tag every row with its pixel": the hash/offset id is injective; sort by likelihood is a permutation; containment is a function |
| C21-C23, C79-C82 | `append`, `extend`, `_merge_arrays`, `to_fits_file`, `Entry` | list algebra |
| C24, C25, C83-C87 | centering models | finite sums/products over lists; argmin/argsort contracts |
| C26-C29, C67, C88-C90 | `interpol`, `cic`, `make_nodes`, `CubicSpline`, file names | order/field reasoning over an ordered field; uniqueness of the tridiagonal solution |
| C30, C32, C35 | `make_lockfile`, parallel append, zred task as small-step processes | inductive invariants over all schedules |
| C31, C33, C34, C91 | `GalaxyCatalogMaker` | refinement to "file = filtered concatenation of everything appended"; crash states as prefixes of the write sequence |
| C36, C44, C46 | `RunRedmapperPixelTask.run` as stage list over a file set; zred task | induction over crash/restart histories; chunk arithmetic |
| C37-C39, C92-C95 | `ConfigField` descriptors, `validate`, defaults and derived values | state machine over assignment histories |
| C40-C43, C96-C98 | `Background`, `ZredBackground`, `ColorBackground` lookups, generator | `searchsorted` specification lemma; rounding lemma |
| C45, C99-C101 | `ZredColor.compute_zred`, corrections | weighted-average bounds; interval invariants of the scan |
| C47-C52, C102-C105 | mask, depth-map and volume-limit functions | sums over sorted lists; square-root and error-function contracts |
| C53-C55, C106, C107 | random generation and weighting | invariant over arbitrary batch streams |
| C56-C60, C108-C110 | red-sequence tables, covariance, chi-squared modes | searchsorted lemma; matrix algebra with Mathlib's positive definite matrices |
| C61-C64, C111-C117 | z_lambda neighbour selection, parabola step, iteration skeleton, p(z), correction | rank/threshold lemma; bounded iteration; integral contracts |
| C65, C118-C120 | redMaGiC selection, run task, calibration cuts, configuration names | filter/index lemmas; crash prefixes of the write sequence |
| C69, C121-C124 | `from_galfile`, `get_subpixel_indices` | refinement to a filter of the whole catalog; nesting contract of HEALPix |
| C125-C134 | `Cluster`: richness, single-color richness, errors, neighbors, copy, local background, filters | refinement of scatter/gather; invariants over operation histories; real analysis for the filters |
| C135-C141 | `Calibrate`: the calibration driver as a state machine over configuration, directory and crash budget; run directory naming; redshift check | weakest preconditions and an invariant (provenance of every file) carried through every stage, induction over iterations and over histories of sessions; witnesses for the crash points that break it |
| C142-C147 | `RedRun`: the pool of pixel workers as an interleaving of atomic steps, crashes as interleavings that stop, restarts as histories; file names; argument checks | invariant per worker preserved by every step, induction over schedules and histories; left inverse of the decimal notation; witnesses for the false parts |
| C148-C153 | `SpecPrep`: members for the next iteration, spectroscopic seeds, cut seeds, training members of the color run | refinement of the id join and of the position match to row-wise specifications; induction over lists; witnesses for the false parts |
| C154-C159 | `ZlamCal`: the fitter of the redshift correction and the iterations of its calibration | case analysis over what is fitted with a contract for the minimizer; induction over the iterations; refinement of the likelihood and of the outlier cuts to specifications written from the catalog; witnesses for the false parts |
| C160-C162 | `Zscan`: redshift steps, record and best step of the scan, refinement | ceiling arithmetic; induction over the members with the bound log x < x - 1; case analysis of the refinement; a real-valued witness for the false part |
| C163-C168 | `Fitters`: the red-sequence fitter with its mutable error array, the fits of a color, the correction fitter, the two-component mixture; the minimizer is an arbitrary program that calls the cost | induction over programs (runs with state agree with runs without where the state is kept); packing and unpacking of parameter blocks for all combinations; histories of evaluations; witnesses for the false parts |
| C169-C178 | `RedSeqCal`: order of the colors, luptitude corrections, error ratios, starting values and slopes, covariance, volume factor, redshift corrections, parameter file | explicit positions and arithmetic; invariants over the bands reached so far; induction over nodes; the quadratic form as a sum of squares; counting in sorted lists; composition with C167; histories of sessions; witnesses for the false parts |
| C179-C186 | `WcenCal`: centering calibration: cuts, fits of foreground, satellites and centrals, files, iterations, brightest galaxies, application | real numbers with `none` for NaN; costs as logarithms of independent likelihoods; mirror images for negative widths; explicit parameters of unbounded likelihood; induction over iterations; sorted lists |
| C187-C191 | `Setup`: search radius, limiting luminosity, richness derivatives, matched centers, output | real powers; order of luminosities in a field; identities for log-quadratic richness; list assignments by induction; files as lists of tables |
| C192-C198 | `SpecRed`: red galaxies with spectra: matching, trimming, loop over colors, median fit, truncation, selection, error ratios in bins | real numbers; ranks in sorted lists; induction over modes; absolute deviations are smallest at medians; equivariance of medians; minimizer as arbitrary program |
| C199-C206 | `BkgGen`: files of the background generators as lists of tables, bins, counts by cloud in cell, color ranges, magnitude limits, placeholder | induction over histories of runs and over pixels; counting of additions; floor and ceiling arithmetic; bounds of the real exponential |
| C207-C213 | `DepthFit`: error model, cost function, selection, start, fit, defaults, bootstrap of the depth fit | real powers and square roots; the squared error is a quadratic in the inverse flux; minimizer as parameter with contract; scaling of zero points |
| C214-C221 | `Maps`: coverage pixels of a region, values at positions, files of the volume limit, kinds of masks, radii, normalization, file and positions of mask galaxies | nested pixels are numbers and the parent is the quotient by four; histories of a directory by induction; real powers for the radii |
| C222-C229 | `RmCal`: cost function, bins, areas, start, training sample, calibration redshifts, iterations, file and volume limits of the redMaGiC calibration | sums over bins; floors and ceilings; ranks in sorted lists; folds over members; fits as parameters with contracts; iteration of steps |
| C230-C238 | `RsFile`: header of the red-sequence file, its reader, template colors, extrapolation, luptitude corrections, chi-squared from the tables with all shapes of arguments | round trip of cards; decision logic of lookups; folds over bands; bounds of arsinh; refinement of the buffers to one galaxy at one redshift |
| C239-C244 | `BkgTable`: readers of the chi-squared, zred and color background files | interpolation written as a sum of hat functions; each axis reduced in turn; clipping inactive for non-negative tables; dictionary by induction over extensions |
| C245-C253 | `CatTask`: names of files as character lists, the glob pattern and the regular expression of the consolidation, a directory as a map from names to tables, setup of the runs, seeds of the first pass, randoms of the mask run, log files | names by cancellation of suffixes and digits; histories by induction over calls; case analysis of modes; powers over the reals |
| C254-C259 | `WcenLike`: connectivity from the matches, the three densities of the centering, a random center, what the percolation records of a center | triples of the matcher mapped injectively to galaxies, sums over lists equal sums over sets; signs of products; trigonometric identity; indices that count from the end |
| C260-C264 | `PyWrap`: the two C wrappers as seen from Python: parsing of sizes into long variables, references and lifetimes of arrays, allocation and exceptions of the objects, shapes | bit arithmetic of words; invariant over programs of array operations; histories of initialisations by induction; decision logic |
| C265-C268 | `GalStats`: columns of the master table or cards of a header, the regular expression for the bands, survey modes, area and flags | last occurrence of a pattern by induction over positions; fold over columns with assignment by index; decision logic |
| C269-C274 | `MedCal`: selection of training galaxies, columns of the parameters, pivot magnitudes, median colors, error ratio, name of the redshift file | filters as specifications; contract of the minimiser; strict monotony of the width of the pulls; injectivity of padded numbers |
| C275-C278 | `ForkPool`: forked workers with their own state, position in the stream of random numbers, completion orders, regular expression and names | induction over tasks with the states of all workers; position of a galaxy in the stream; fold over completion order with permutation; last match of a pattern |
| C279-C282 | `SkyMap`: conversion of tables to maps with header and file, pixels of a region, areas of a region, prediction of memory | fold of updates; quotient by 4^k; permutation and uniqueness of sorted lists; Overlap of C214; fold of maxima |
| C283-C284 | `RmRun`: cut of the calibration, recorded ranges of the modes, matches of spectra in both directions | the cuts of C65 imply the cut, ceil and log monotone; closest entry by argmin; last write of a fold |
| C285-C287 | `ColGen`: tables of one color and of pairs from cloud-in-cells fields, sums over colors | cell of a field as sum of triangular shares (axes with borders, flat index injective); exchange of sums; shares sum to between half and one |
| C288-C291 | `MaskGen`: sampling with infinite values, columns and weights of a mask galaxy | index of the first cumulative value not below the draw as a threshold on the draw, Lebesgue measure of intervals and of their products; positivity of the filters (C132) |
| C292-C297 | `Plots`: numbers behind the diagnostic plots | matches are the identity when all members match; medians by counting; filters by floor of the bin; sums over bins by induction on the list; sampling by C288 |
| C298-C301 | `RandOut`: names and files of `weight_randoms`, selection and points of its area correction | injectivity of the name by splitting at the first non-digit; list algebra; witnesses |
| C302-C306 | `ClusCat`: construction and indexing of `ClusterCatalog`, assignments to clusters during a run, `_postprocess`, storage of the corrected p(z) and of the likelihoods | invariants by induction over assignments and clusters on the table model; witnesses |
| C307-C310 | `OffDiag`: `RedSequenceOffDiagonalFitter` (constructor checks, noise, cost, bounds, fit) as a stateful cost seen by an arbitrary minimizer; specification with Mathlib matrices (inverse, determinant) and with the quadratic form for eigenvalues; invariant: the matrices of the caller agree outside the pair of colors | algebra, invariant over evaluations, witnesses |
| C311-C314 | `ZlamPar`: constructor of `ZlambdaCorrectionPar` with all its optional arguments, the header and parameters that the calibration writes; tables as splines of node values (spline a parameter); the correction applied between iterations | case analysis, refinement to the tables, induction over iterations |
| C315-C318 | `HistoGauss`: `histoGauss` (fit and histogram as parameters; tails folded into the range), lines of the Monte Carlo of brightest galaxies with `np.polyfit` as any least-squares fit; nested samples | sums over bins, counting in sorted lists, normal equations |
| C319-C321 | `LogFile`: `start_file_logging`, `stop_file_logging`, loggers of a process with their attached files; sequences of operations | invariant by induction over operations |
| C322-C325 | `RmTask`: files and errors of the redMaGiC task; contents are rows or numbers of random points | induction over pixels and modes |
| C326 | `Finders.likeSetup`: the clusters that RunLikelihoods processes | equality of filters |
| C327 | `Finders.colormemRun`, `colormemOut`: two passes of the runner with a sort in between | composition of the invariants of `Runner` |
| C328-C334 | `Batch`: making of batch jobs, text of commands with percent and brace formats, job files by number, arguments of the pixel scripts | induction over texts and over sequences of jobs |
| C335-C337 | `ConsFiles`: names and files of cuts in a consolidation, renumbering in place, names of plots, end of a catalog consolidation | induction over pixel files and cuts; refinement to the rows of each cut |
| C338-C340 | `VlimMap`: redshifts of a volume limit, limits in other bands by walking along the colors, map of all pixels with further maps | telescoping by induction over bands; refinement to the per-pixel theorem of `Mask`; permutation of a commutative fold |
| C341-C342 | `RmSel`: dictionary of modes, names of masks relative to the parameter file, column of samples | lemmas on path functions, induction over modes |
| C343-C344 | `Zred`: iteration of the correction alone and in a catalog, chi-squared and likelihood of the result | geometric bound by induction over the steps; positive linear functionals |
| C345-C346 | `ColorRun`: clusters, color mode and cuts of the color run on top of the single-color richness of `Cluster` | case analysis from C131; uniqueness of the interval of a redshift |
| C347-C348 | `DLambda`: richness of a copy of the cluster on both sides of z_lambda, differences | refinement to the richness of the cluster itself with the history lemmas of `Cluster` |
| C349-C350 | `ErrModel`: error model of the depth fit applied to magnitudes, with the stream of random numbers | round trip of magnitudes and fluxes over the reals |
| C351-C353 | `RmAfter`: the redMaGiC parameter fitter as an object with state, histories of its calls, afterburner fit | invariant over histories; refinement of two masks to one; minimizer contract |
| C354-C356 | `ZredPz`: log-likelihood of redshift bins over the reals, sampling of p(z) with truncation towards zero | algebra of exp and rpow; search in the cumulative distribution |
| C357 | `LumFilt`: luminosity filter with its table of cumulative sums, over the reals | sums and integrals of monotone functions |
| C358-C362 | `PhotMap`: coarse and fine bins of the photo-z map, rotation of right ascensions, warning and plot range of a redMaGiC mode | bins by floor; argmin; arcs modulo 360 |
| C363-C366 | `RsDiag`: points of the redshift and pull diagnostics of the red-sequence calibration | medians by counting; ranks in sorted lists; bins by floor |
| C367-C370 | `Perc`: the catalog run with percolation down to richness and memberships (composition of `Runner` and `Cluster`) | refinement of the loop step to the richness; accounting of what is left of a galaxy; toy run of three clusters evaluated in the kernel |
| C371-C373 | `PercCen`: percolation of one cluster with its neighbours (composition of `Finders`, `Cluster` and `Centering`) | invariant of the loop (last richness is at the current redshift and mask); a richness above one has a member that is not the nearest; richness computed again by congruence; toys evaluated in the kernel |
| C374-C375 | `PercRun`: a percolation run with the centers of its clusters (composition of `Runner` and `PercCen`) | invariant of the run (centers recorded are masked beyond the cut); monotone use of galaxies; toy runs of two and three clusters evaluated in the kernel |
| C376-C377 | `Tiles`: a survey run tile by tile and consolidated, against one run of the whole survey (on `Runner`) | simulation of the two loops on a set of clusters closed under shared galaxies; permutation of a partition by pixels; a chain of three clusters evaluated in the kernel with the richness of `Perc` |
| C378-C383 | `FlSolver`: the richness solver in IEEE 754 floating point (rounding, overflow, infinities, not-a-number) | a contract on the rounding, proved of binary64 with ties to even; bracket ends on a dyadic grid that rounding leaves alone; signs decided without underflow; the search depends on the galaxies through the predicted richness only; order dependence evaluated in the kernel |
| C384-C387 | `FlExact`: the floating point solver (`FlSolver`) against the exact one (`Solver`) | simulation of the two searches while all trials fall on the same side; forward error analysis with relative error 2^-53 (proved of binary64), by induction over the sum; a run in binary64 shown within the bound of the exact solution |
| C388-C392 | `FlBins`: numbers of bins, values of bins and look-ups in IEEE 754 floating point | absolute error bounds from the relative error 2^-53, along the whole table; rounding to integers is right within half a bin; witnesses evaluated in the kernel |
| C393-C394 | `FlSample`: draws from a tabulated distribution in IEEE 754 floating point | error of the cumulative sum by induction; a product with a number at most 1 - 2^-53 rounds below n; equal neighbours of a cumulative sum at a zero |
| C395 | `FlErr`: the richness error in IEEE 754 floating point | rounding is monotone, so the sum of the squares is not above the sum in any order of additions; ranges of powers of two exclude overflow |
| C396 | `FlNodes`: spline nodes in IEEE 754 floating point | error bounds of the count and the values of np.arange; the maximum of the values is the last; case split of the threshold |
| C397-C400 | `PixRun`: the three stages of a pixel (redmapper_run.py:369-462) composed from `CatTask.firstSeeds`, `Finders.firstProcess`, `likeSetup`, `percSetup`; richness and redshift are functions of a row | lists as filterMaps of sources; permutation and order from the contract of argsort; witnesses by evaluation |
| C401-C404 | `FlSpline`: interpol and CubicSpline (utilities.py:331-435, 555-581) with IEEE 754 doubles; the third power of the library is a parameter with a contract | exact evaluation at nodes; error bounds step by step with scaled quantities; a witness by evaluation |
| C405-C408 | `LikeCen`: likelihoods of one cluster (run_likelihoods.py:158-239) with values that are not numbers, infinite or underflow | the code's terms rewritten as densities and a weighted mean; cases of the mean; congruence under permutation and filters; witnesses |
| C409 | `Chisq.checkAndFix` (chisq_dist.c:436-521) | spectral decomposition; eigenvectors of the repaired matrix; a witness with permuted eigenvalues |
| C410-C415 | `Fl32`: columns and sums in IEEE 754 single precision: `pgal` (cluster_runner.py:361, 405-408, 510-514, 557-566), likelihoods (run_likelihoods.py:162-164, 237, 251), cuts and order of percolation (run_percolation.py:147-150, 174) | rounding to 24 digits proved monotone and exact on its numbers; invariants over histories; error bounds; witnesses |
| C416-C419 | `ConsSpec`: spectra and truth in the consolidation (redmapperconsolidatetask.py:89-92, 136-159, 343-346, 365-390), in front of `Consolidate.task` and `runcatTask` | rows of the output come from rows of the files, by induction over files and cuts; the consolidation is natural in the columns it does not look at; witnesses by evaluation |
| C420-C421 | `IdWidth`: id columns of 32 bits for members (cluster.py:67, cluster_runner.py:558-609) and random points (randoms.py:78, 139-147), on top of `Runner` | reduction modulo 2^32; induction over clusters and turns; witnesses by evaluation |
| C422-C424 | `Survey`: the whole way from sources to catalogs (redmapper_run.py:88-209, 369-462, cluster_runner.py:356-612, redmapperconsolidatetask.py:121-266), by composing `PixRun`, `Runner` and `Consolidate` | invariants of each stage discharge the hypotheses of the next; induction over pixels |
| C425-C426 | `TileSum`: memberships and centers in the catalogs of a survey in tiles (redmappertask.py:47-130, redmapperconsolidatetask.py:121-206), on top of `Tiles`, `Perc` and `PercRun` | positive parts of the memberships along a run are bounded by what is left; induction over tiles; the pixel of a cluster is that of its central galaxy; witnesses by evaluation |
| C427 | `Config.construct` (configuration.py:409-550, 607-642) | induction over the dictionaries; two runs of the constructor from different classes side by side |
| C428 | `Cluster.richnessFit`, `fitUse`, `fitGal`, `fitFill`, `argminR` (cluster.py:343-362, 632-780) | the usable galaxies and the innermost one stated without the model; the solver through C01 and C71 |
| C429 | `Cluster.lambdaCerr` (cluster.py:565-630) | filtered sums as sums over all mask galaxies; probabilities at most one bound v by one half; witness with two mask galaxies |
| C430 | `Centering.randomSat` (centering.py:408-452) | the draws that choose a neighbour are an interval between two rounded cumulative sums; its Lebesgue measure; the least probable neighbour has at most the mean probability |
| C431 | `ZredFile.pixelFile`, `readPixel` (zred_runner.py:245-291, galaxy.py:24-42, 276-327, 394-409) | on the tables of Catalog; column-copying loop by induction; the added columns from the lemma for cluster catalogs; repeated names refused by numpy |
| C432 | `MemReport.report` (utilities.py:1102-1133) | exceptions as values; fold over the lines related to the last matching line by induction |
| C433 | `ConsFiles.taskCuts`, `scriptCuts` (redmapperconsolidatetask.py:51-62, 104-112; redmapper_consolidate_run.py) | membership in the flattened loops, by cases on which lists are empty |
| C434 | `GalMaker.split` (galaxy.py:699-715) | the invariant of appends (C31) and the specification of finalize (C33) composed; ids of one checked call are unique, so finalize cannot fail; counterexample for the repeated call |
| C435 | `GalMaker.splitRandoms` (randoms.py:203-224) | rows of the written pixels are a permutation of the accepted points; specification of finalize (C33); false for repeated ids |
| C436 | `MakerInit.makeGal` (galaxy.py:578-697) | dictionary lookups in order, the disk as directories and files; by cases on the first error |
| C437 | `MakerInit.makeRand` (randoms.py:184-201) | pointwise value of the filled dictionary; false for every dictionary with a missing entry |

## Not modelled

* Floating-point rounding, overflow, and NaN except where said; wall-clock timeouts; real file-system semantics beyond atomic `link`/`unlink`/`write`.
* HEALPix, HTM matching, cosmology, FITS encoding, yaml parsing, `scipy` (splines are modelled where redMaPPer has its own, otherwise parameters),
  random number generators (any stream of draws is allowed).
* Plotting, logging, command-line scripts in `bin/`, parsl templates.
* Code that cannot run (undefined names) is modelled as raising, where it is on a path that is modelled.

## Code modelled, by file

Line ranges cited by the definitions of the model (ranges less than four lines apart are merged).  Everything not listed is not modelled; see
"Not modelled" above for what that means.

| File | Lines |
|---|---|
| `redmapper/__init__.py` | 39 |
| `redmapper/background.py` | 51-173, 194-266, 308-415, 449-551, 603-614, 618-625, 637, 651-704 |
| `redmapper/calibration/calibrate.py` | 49-280, 298-545, 566-628 |
| `redmapper/catalog.py` | 21-54, 84-103, 112-206, 230-244, 250-262, 285-316 |
| `redmapper/centering.py` | 42-55, 68-114, 142-351, 378-391, 426-452 |
| `redmapper/calibration/centeringcal.py` | 55-78, 84-117, 137-168, 176-199, 219-251, 272-278, 288-442, 489, 497-507, 512-533 |
| `redmapper/chisq_dist/chisq_dist.c` | 49-54, 69-420, 436-521 |
| `redmapper/chisq_dist/chisq_dist.h` | 11-27 |
| `redmapper/chisq_dist/chisq_dist_lib.py` | 86-237 |
| `redmapper/chisq_dist/chisq_dist_pywrap.c` | 13-175 |
| `redmapper/cluster.py` | 22-64, 69-85, 95-156, 173-264, 297-362, 389-780, 785-918, 946-1000 |
| `redmapper/cluster_runner.py` | 67-77, 106-261, 288-311, 344-612, 628-662 |
| `redmapper/color_background.py` | 38-204, 227-238, 257-293, 340-372, 384-409, 435-461 |
| `redmapper/configuration.py` | 23-79, 95-120, 150-167, 289-303, 409-616, 622-973 |
| `redmapper/depth_fitting.py` | 30, 39-321, 353-394 |
| `redmapper/depthmap.py` | 49-64, 75-108, 137-254, 280-326 |
| `redmapper/fitters.py` | 37-92, 104-472, 517-663, 754-865, 880-927, 950-1024, 1049-1054, 1090-1186 |
| `redmapper/galaxy.py` | 24-42, 89-366, 394-409, 476-521, 527-1038 |
| `redmapper/mask.py` | 72-95, 112-113, 128-279, 300-325, 393-426, 448-449 |
| `redmapper/pipeline/mempredict.py` | 25-109 |
| `redmapper/solver_nfw/nfw_weights.c` | 18-73 |
| `redmapper/parsl_templates.py` | 75-84 |
| `redmapper/plotting.py` | 104-115, 154-224, 306-315, 319-339, 343-367, 418-431, 468-484, 638, 723-731 |
| `redmapper/calibration/prepmembers.py` | 31-107 |
| `redmapper/randoms.py` | 58-149, 184-224, 250-253, 265-410 |
| `redmapper/redmagic/redmagic_calibrate.py` | 80-107, 150-276, 330-349, 383-406, 415-420, 430-443, 455-469, 498-564, 575-591, 624-628, 640, 698-704, 710, 714 |
| `redmapper/redmagic/redmagic_randoms.py` | 34-47, 68-135 |
| `redmapper/redmagic/redmagic_selector.py` | 23-244 |
| `redmapper/redmagic/redmagictask.py` | 61-172 |
| `bin/redmapper_batch.py` | 18-72, 93-293 |
| `bin/redmapper_consolidate_run.py` | 14-27 |
| `redmapper/redmapper_run.py` | 56-505 |
| `bin/redmapper_run_redmapper_pixel.py` | 12-24 |
| `redmapper/pipeline/redmapperconsolidatetask.py` | 51-266, 272, 332-431 |
| `redmapper/pipeline/redmappertask.py` | 47-130, 157-180, 225-249, 288-310 |
| `redmapper/redsequence.py` | 76-142, 151-183, 196-201, 234-257, 274-341, 349-356, 361-368, 372-376, 383-564 |
| `redmapper/calibration/redsequencecal.py` | 66-79, 101-147, 190-211, 217-360, 378-392, 412-451, 486-688, 692-694, 699-721, 860-879, 895-933, 945-1069, 1113-1203, 1256-1275, 1286-1292, 1323-1352 |
| `redmapper/run_colormem.py` | 47-53, 76-80, 86-88, 97-99, 104-109, 113-191 |
| `redmapper/run_firstpass.py` | 68-78, 110-226, 239-312 |
| `redmapper/run_likelihoods.py` | 56-68, 113-255 |
| `redmapper/run_percolation.py` | 62-95, 106-193, 207-218, 225-439 |
| `redmapper/run_randoms_zmask.py` | 42-51, 76-91, 135-145 |
| `redmapper/run_zscan.py` | 33-40, 64-65, 102-107, 121-304 |
| `redmapper/runcat.py` | 30-35, 104-113, 117-183 |
| `redmapper/calibration/selectspecred.py` | 68-90, 100-222 |
| `redmapper/calibration/selectspecseeds.py` | 34-116 |
| `redmapper/solver_nfw/solver_nfw.c` | 8-69 |
| `redmapper/solver_nfw/solver_nfw.h` | 6, 14-31 |
| `redmapper/solver_nfw/solver_nfw_lib.py` | 46-93 |
| `redmapper/solver_nfw/solver_nfw_pywrap.c` | 62-68, 74-77, 96-139 |
| `redmapper/utilities.py` | 48-67, 89-174, 238-466, 503-549, 555-581, 587-827, 833-877, 906-919, 965-1011, 1017-1074, 1091-1092, 1102-1133, 1169-1229 |
| `redmapper/volumelimit.py` | 26-67, 108-112, 126-272, 286, 292-307 |
| `redmapper/zlambda.py` | 36-38, 83-295, 335-361, 391-437, 481-483, 495-533, 537-546, 558-663, 701-734 |
| `redmapper/calibration/zlambdacal.py` | 63-188, 219-221, 226-233, 238-254, 261-326, 347-351 |
| `redmapper/zred_color.py` | 44, 56-340 |
| `redmapper/zred_runner.py` | 44-100, 194-211, 222-226, 232-236, 261-342 |
| `redmapper/pipeline/zredtask.py` | 42-127 |

## Properties

`proved`: the statement in `properties.jsonl` is proved in full (of the model).  `partial`: part of it is proved; where the rest is false of the code,
the negation is proved too (theorems with `_false` in the name).  Every theorem named is in `MANIFEST.json`.

| Property | Title | Module | Status | What is proved, what is assumed, what is missing |
|---|---|---|---|---|
| C01 | Richness is -1 or lies in [1, 2000) | Solver | proved | any linearly ordered field; pow/exp/erf are parameters |
| C02 | Richness solver terminates after exactly 17 bisection steps | Solver | proved |  |
| C03 | A reported richness brackets a self-consistent solution | Solver | proved | unique-crossing corollary added |
| C04 | Membership probabilities and weights lie in [0,1] | Solver | proved | assumes the NFW normalisation (an exp) is non-negative and the soft step is in [0,1] |
| C05 | Hard radial cut: weight only inside r_lambda, and theta_r says so | Solver | partial | weight half proved; theta_r = 0 outside is false of the code (stale entries), witness proved |
| C06 | Richness does not depend on the order of the galaxies | Solver | proved | exact arithmetic: floating-point summation order is not modelled |
| C07 | Galaxies with zero weight never influence the richness | Solver | proved |  |
| C08 | Solver rejects inconsistent inputs and only those | Solver | proved |  |
| C09 | Percolation never makes a galaxy more available, and never over-uses it | Runner | partial | monotone, starts at 1, at most 1, exact accounting proved; the lower bound 0 is false of the code (a galaxy can be taken by several clusters), witness proved |
| C10 | Each cluster's result depends only on clusters processed before it | Runner | proved |  |
| C11 | Generated mem_match_ids are unique | Runner | partial | false for a one-cluster catalog (id replaced by 1), witness proved; everything else proved |
| C12 | Output catalog and member catalog agree | Runner | proved | esutil.match is modelled by its contract |
| C13 | Clusters flagged bad carry the bad sentinel and never contribute members or masking | Runner | proved | rejection = no neighbours, fully masked, depthless, or the processing step says bad |
| C14 | Masking radius is never below the richness radius | Runner | proved |  |
| C15 | Cluster ranking is by decreasing likelihood unless ids are kept | Finders | proved | np.argsort is any sorting routine (ties arbitrary); keepid part needs >= 2 seeds with distinct ids (see C11) |
| C16 | Combined likelihood is the sum of the central and richness likelihoods | Finders | partial | false before the central model is calibrated (lnlike is not written), witness proved |
| C17 | Consolidation assigns ids 1..n by decreasing likelihood | Consolidate | proved | members=True path; with no surviving cluster the code raises (proved) |
| C18 | Consolidation renumbers members consistently | Consolidate | proved | catalog-mode consolidation keeps orphan members (witness proved) |
| C19 | Distributed consolidation keeps one id per cluster across all output catalogs | Consolidate | partial | select_scaleval on: the task raises as soon as a cluster is cut (witness proved); off: proved |
| C20 | A cluster is attributed to exactly one pixel | Consolidate | proved | HEALPix nesting is an assumption on the geometry |
| C21 | Catalog append/extend behave like list concatenation | Catalog | proved | type promotion between tables with the same names is not modelled |
| C22 | Adding columns never changes existing columns | Catalog | proved |  |
| C23 | to_fits_file(indices=...) writes exactly the requested rows | Catalog | partial | false for one-row catalogs (indices ignored), witness proved |
| C24 | Centering probabilities are normalised | Centering | partial | P_cen sums to 1; Q_cen sums to 1 only with a missed-center probability that the q_miss attribute does not report (proved to be 0 whenever there is a candidate) |
| C25 | BCG centering selects a bright red member | Centering | proved |  |
| C26 | Linear interpolation reproduces its nodes and is local | Utilities | proved | exact arithmetic |
| C27 | Cloud-in-cell deposition conserves weight | Utilities | proved | exact arithmetic; 1, 2 and 3 dimensions |
| C28 | make_nodes covers the range | Utilities | partial | false when the node size exceeds the range (the single node is moved to the upper limit), witness proved |
| C29 | Cubic spline reproduces its nodes | Utilities | proved | holds for whatever the banded solver returns |
| C30 | Lock files give mutual exclusion | Utilities | proved | including processes killed between any two system calls (which leave the lock behind) |
| C31 | Galaxy catalog maker: pixel files contain exactly what was appended | GalMaker | proved | serial mode; the order within one call follows the reverse-index order of esutil.stat.histogram (any permutation in C31_files, input order in C31_order if the sort is stable) |
| C32 | Parallel appends lose no galaxy under any interleaving | GalMaker | proved | lock acquisition is atomic test-and-set, justified by C30 |
| C33 | Finalizing produces globally unique ids | GalMaker | partial | serial mode proved outright; parallel mode misreads the pixel number when the output path contains an underscore followed by seven digits |
| C34 | A catalog whose master table exists is complete and valid | GalMaker | partial | false of the code: the master table is written before ids are checked or assigned |
| C35 | Distributed zred run creates the master table iff all pixels are done | PixelTasks | partial | safety for every interleaving, kill and timeout in a fresh directory; completeness without master-lock timeouts; false with a timeout or a stray file matching the pattern (witnesses proved) |
| C36 | Resuming a pixel run never repeats or skips a stage | PixelTasks | partial | holds for the three catalogs when each file is written as a whole; false for the members file and for truncated files (witnesses proved) |
| C37 | Configuration objects are independent | Config | partial | false of all declared fields (values live in the class); holds for plain attributes, and for config.d up to copies |
| C38 | Configuration values have the declared shape | Config | partial | required and length checks proved; false for sequences in scalar fields and nulls in array fields (witnesses proved) |
| C39 | Centering calibration is loaded faithfully | Config | partial | all values but phi1_mmstar_slope, which is set from the wrong column |
| C40 | Background lookup uses the bin that contains the query | Background | partial | all queries but the lowest chisq edge, where the last bin is read (witness proved) |
| C41 | zred background lookup reports out-of-range as infinite | Background | partial | in-range queries and queries below the range; false above the range, where the last bin is read (witness proved) |
| C42 | Background worker split covers every redshift bin exactly once | Background | partial | exact characterisation: a bin is computed iff it does not equal an inner edge between processes; real arithmetic; range starting above 0.001 |
| C43 | All galaxies contribute to the background | Background | partial | pixelized input proved; a catalog in one file is never read (witness proved) |
| C44 | Parallel zred computation is independent of the number of cores | PixelTasks | partial | exact characterisation: fails exactly when there are fewer galaxies than cores; exact arithmetic; random samples are not part of the columns, see C276 |
| C45 | Failed zreds are marked with the sentinel | Zred | partial | false of zred with corrections, which are added to the sentinel (witness proved); holds for the uncorrected columns and without corrections |
| C46 | zred table lines up with the galaxy table | PixelTasks | proved |  |
| C47 | Mask depth filling leaves no invalid limiting magnitude | Mask | proved |  |
| C48 | Survey area at a magnitude counts the pixels deep enough | Mask | partial | monotone and bounded with two or more pixels; false as the area of the deep enough pixels: two pixels too many (C48_excess); one pixel raises |
| C49 | Volume-limited area at a redshift counts the pixels reaching it | Mask | partial | monotone, bounded and exact below the smallest zmax; false elsewhere: one pixel too many (C49_excess) |
| C50 | Volume-limit redshift is reachable at the local depth | Mask | partial | tabulated, monotone and at most one bin too high; false of the exact bin (C50_beyond: always beyond the depth between the ends) |
| C51 | Geometric masking is exact at full and zero coverage | Mask | proved | the draws are any numbers in [0,1) |
| C52 | Mask-galaxy samples partition the mask galaxies | Mask | proved |  |
| C53 | Random catalog has exactly the requested number of randoms with ids 1..n | Randoms | proved | when the loop returns; that it does depends on the draws and is not claimed |
| C54 | Randoms respect the local maximum redshift | Randoms | partial | proved for redMaGiC randoms; false for redMaPPer randoms, where zmax is that of another position (witness proved), true there when no position of the batch is rejected |
| C55 | Random weights restore the input counts | Randoms | proved | exact arithmetic |
| C56 | Red-sequence table lookups never leave the table | RedSequence | partial | validity and monotonicity proved for every grid; exactness for tabulated values proved when the bin size divides one and the start is not halfway between two multiples of it, false otherwise (witness proved) |
| C57 | Red-sequence covariance matrices are valid covariances | RedSequence | partial | symmetry, variance floor and correlation limit proved for every parameter file; positive definite for one or two colors and for weak correlations; false for three colors (witness proved) |
| C58 | chi-squared modes agree | Chisq | partial | modes 0 and 1 agree; mode 2 agrees only without reference-magnitude error or with the slope of the first entry (line 354 uses the slope of entry 0; witness proved) |
| C59 | chi-squared is non-negative | Chisq | proved | exact arithmetic; GSL eigen and LU routines by contract, satisfiable over the reals |
| C60 | chi-squared input validation is complete | Chisq | partial | all reads in bounds given the shapes that are not validated; false without (covariance and refmag of a mode 2 call; witnesses proved) |
| C61 | Photometric cluster redshift uses at least three galaxies | Zlambda | proved | exact arithmetic; exponential positive, increasing and one at zero; any argsort |
| C62 | A failed redshift fit is reported as a failure | Zlambda | partial | a fit without minimum is clipped to the window, so it is a failure only below 5.5 steps (C62_false: never above); the vertex of a parabola is found exactly |
| C63 | z_lambda correction never shrinks the error | Zlambda | proved | exact arithmetic; square root and Simpson rule are parameters |
| C64 | calc_zlambda terminates within its iteration limits | Zlambda | partial | evaluation bounds proved; a failure always has error -1 but its redshift may be a small negative number or zero instead of -1 (witness proved) |
| C65 | redMaGiC selection is sound and complete | Redmagic | proved | exact arithmetic; absolute magnitudes, volume limit and nearest spectroscopic match are parameters; catalogs without redshift samples not modelled |
| C66 | Redshift scan reports the most likely richness peak | Finders | partial | false when every likelihood is <= -1 (filler of empty steps wins), witness proved |
| C67 | Member file name is derived from the catalog file name | Utilities | partial | exact characterisation: false for base names ending in . f i t |
| C68 | Pixel split covers the region | Consolidate | partial | coverage proved; "at least as many pixels as processes" is false, coverage is false when the minimum nside is finer than the table (witnesses proved) |
| C69 | Reading a sub-region returns exactly the galaxies of the region | GalRead | partial | proved for pixelated tables with HEALPix nesting as contract; pixels out of range raise NameError, a region without table pixels IndexError, and a galaxy file that is not pixelated ignores the request (all proved) |
| C70 | Richness is monotone in the neighbours | Solver | proved |  |
| C71 | Returned membership probabilities belong to the returned richness | Solver | proved |  |
| C72 | Removing an uninvolved cluster changes nothing else | Runner | proved | for computations that carry no hidden state |
| C73 | Member list is exactly the qualifying galaxies | Runner | proved |  |
| C74 | Clusters accepted by percolation meet the thresholds | Finders | proved |  |
| C75 | First-pass clusters stay inside the configured redshift range | Finders | proved |  |
| C76 | Catalog-mode clusters are unmasked enough, rich enough and have a redshift | Finders | proved |  |
| C77 | Colour-mode calibration covers every cluster and ranks by richness | Finders | proved |  |
| C78 | Spectroscopic training selection considers every galaxy once | Finders | partial | false exactly at an interior bound, witness proved |
| C79 | Attribute assignment touches exactly one column | Catalog | proved | reading back assumes no python attribute of that name was set before the column existed (witness shows the assumption is needed) |
| C80 | A table built from several arrays has exactly their columns | Catalog | proved |  |
| C81 | Saved tables read back unchanged | Catalog | partial | false without clobber onto an existing file (fitsio appends), witness proved |
| C82 | A catalog entry is a live view of its row | Catalog | proved |  |
| C83 | Each candidate is central, satellite or foreground | Centering | proved |  |
| C84 | Centering always gives an answer | Centering | partial | answers iff there is a candidate; ValueError otherwise (witness proved) |
| C85 | Finding a center does not alter the galaxies | Centering | partial | false with centering_use_zspec: the redshift columns are overwritten in place (witness proved) |
| C86 | Random-satellite centering picks a member | Centering | proved |  |
| C87 | Only galaxies that pass the cuts are reported as centers | Centering | proved |  |
| C88 | Averaged cloud-in-cell fields stay within the data | Utilities | proved |  |
| C89 | Natural cubic splines are smooth | Utilities | proved | assumes solve_banded solves the system it is given |
| C90 | Samples fall where the distribution is positive | Utilities | partial | false at the first grid point (witness proved) |
| C91 | Only valid galaxies ever reach a galaxy catalog | GalMaker | proved | truth and spectroscopic columns not modelled |
| C92 | A written configuration reads back the same | Config | partial | exact characterisation: writable iff every array field is set; false when b is unset. Values computed after reading (galaxy file statistics, wcen) are not part of the statement |
| C93 | Pixel runs never share an output file | Config | proved | without the version string |
| C94 | File checks accept exactly complete inputs | Config | proved | ValueError only if the requested names are set |
| C95 | The pixel border covers every cluster it should | Config | partial | false when percolation_rmask_gamma is not zero; exact arithmetic; monotonicity of the angular diameter distance is a hypothesis |
| C96 | Color background reports out-of-range colors as infinite | Background | partial | false below the range, where the first bin is read (witness proved) |
| C97 | Two-color background does not depend on the order of the colors | Background | partial | stored order proved; with the indices reversed the colors are not swapped (witness proved) |
| C98 | Color background look-ups are normalised densities | Background | partial | two-color tables proved; one-color tables are normalised to the wrong constant (witness proved) |
| C99 | Red-sequence redshifts stay near the redshifts that were searched | Zred | proved | exact arithmetic; exp and sqrt are parameters (positive, exp 0 = 1) |
| C100 | The zred parabola is fitted to usable bins around the best one | Zred | partial | position and size of the window proved; false if the usable bins have holes (witness proved) |
| C101 | Zreds do not depend on whether galaxies are processed one by one | Zred | partial | false of zred2 (the slope term is only in one version); the uncorrected columns agree |
| C102 | Masked fraction behaves like a fraction of lost galaxies | Mask | proved | the error function is a parameter with range [-1,1] and monotone; exact arithmetic; the polynomial fit that follows is not modelled |
| C103 | Further depth maps only lower the volume limit | Mask | proved | limiting magnitudes increasing with redshift |
| C104 | Photometric error model is calibrated at the limit and errors are positive | Mask | proved | exact arithmetic; square root and logarithm are parameters |
| C105 | Rescaled depth limit has the requested significance | Mask | proved | exact arithmetic; square root is a parameter |
| C106 | Random redshifts follow the drawn distribution | Randoms | proved |  |
| C107 | Effective random area never exceeds the geometric area | Randoms | proved | exact arithmetic; the spline is a parameter |
| C108 | chi-squared does not depend on the memory layout of its inputs | Chisq | partial | right for the layout produced by fancy indexing and, for symmetric matrices, Fortran order; a C-ordered array is misread (witness proved) |
| C109 | Photometric errors only lower chi-squared | Chisq | proved | exact arithmetic; GSL routines by contract |
| C110 | Red-sequence correction widths and luminosity normalisation are well behaved | RedSequence | proved | exact arithmetic; splines and the luminosity function are inputs |
| C111 | A photometric cluster redshift is a fixed point of its fit | Zlambda | partial | proved when fewer than the maximum number of iterations were used; false at the maximum, where an unconverged redshift is returned as good (witness proved) |
| C112 | The magnitude limit given to calc_zlambda is the one used | Zlambda | partial | the default limit is used; a given limit is overwritten and has no effect (proved) |
| C113 | The p(z) of a cluster is a normalised density on an even grid holding its redshift | Zlambda | partial | all proved, except that with an even number of bins the fast grid does not hold the redshift (witness proved) |
| C114 | A p(z) cut off at the edge of its grid is computed again over a wider range | Zlambda | partial | lower end, termination and end points of the search proved; the upper end is tested against a chained comparison and is missed (witness proved) |
| C115 | noerr leaves the error alone in the z_lambda correction | Zlambda | partial | false: without p(z) the call raises TypeError, with p(z) noerr is ignored (both proved for all inputs); the redshift does not depend on it |
| C116 | The correction keeps p(z) centered on the redshift | Zlambda | partial | proved for odd bin counts; false for even ones (witness proved) |
| C117 | The correction widens p(z) as it widens the error and keeps it normalised | Zlambda | proved | exact arithmetic; Simpson rule linear, and positive for values not negative and not all zero on an increasing grid (shown for the composite rule) |
| C118 | The redMaGiC run makes one complete catalog per mode | Redmagic | partial | proved for different modes and at least one pixel; false when a mode is given twice (witness proved) |
| C119 | The redMaGiC calibration fits the galaxies that are then selected | Redmagic | partial | proved for raw redshifts within the nodes and no afterburner; beyond the nodes the fit extrapolates and the selection does not (witness proved); samples differ when the afterburner is not applied |
| C120 | The redMaGiC run configuration | Redmagic | partial | the name is always another; the run reads the base name from the working directory, which is what was written only for an empty output path (proved false for every other) |
| C121 | Galaxies are read with their own zreds | GalRead | partial | join and missing files proved; a zred file of the wrong length is an error except with a single row, which is given to every galaxy (proved) |
| C122 | Reading a pixel with a border is complete | GalRead | partial | complete for the boundary points that HEALPix samples at both resolutions, and up to nside 512; query_disc contract: pixels of all positions within the border |
| C123 | Reading through a temporary file only adds the cuts | GalRead | partial | proved for pixelated tables; a file that is not pixelated is not cut (proved) |
| C124 | Truth columns are read only on request | GalRead | proved | for pixelated tables; the flags of the table say which columns it has |
| C125 | The richness of a cluster agrees with its members | Cluster | proved | Hypotheses: densities not negative, probabilities of the inputs in [0,1], index without repetitions. The noise that calc_maskcorr draws is inside the environment. |
| C126 | The richness does not depend on what was computed before | Cluster | proved | Earlier calls may use any other environment (mask, calibration, random draws); the two final computations share one environment, i.e. the same draw of the mask noise. |
| C127 | Redshift, scales and neighbor radii stay in step | Cluster | partial | Scales proved for all histories. Radii proved for histories without set_neighbors; false after set_neighbors on a cluster with a redshift, because the radii are not computed until the redshift is set again. |
| C128 | A copy of a cluster behaves like the cluster | Cluster | partial | Redshift, scales, neighbors and the richness are those of the original. Position and catalog values are not copied (they are zero in every copy), so equality is false; a cluster without redshift cannot be copied. |
| C129 | The richness error is always well defined | Cluster | proved | The square root is a parameter with its defining property on non-negative numbers. |
| C130 | Richness and richness error use the same masked fraction | Cluster | partial | False: the error evaluates the fitted polynomial with ascending powers, the solver (and the fit) with descending ones. They agree at radius 1 and for palindromic polynomials; with 20% masked everywhere a cluster of radius 0.3 gets no masking error. |
| C131 | The single-color richness either succeeds consistently or reports failure without side effects on the members | Cluster | proved | The color line, median and Gaussian are parameters. |
| C132 | The cluster filters are positive where they are defined | Cluster | proved | Over the real numbers. |
| C133 | The local background of a cluster depends on that cluster only | Cluster | partial | False: the code computes the mask galaxies' magnitudes for this cluster but uses those left by the last mask correction. Proved when that correction was at the luminosity scale of this cluster. |
| C134 | find_neighbors finds exactly the galaxies in range | Cluster | proved | match_one (HTM matcher) is a parameter with the contract MatchOK. |
| C135 | A calibration product is never changed once a session has left it | Calibrate | proved | The stages are arbitrary functions with random draws; a session may stop before any write. Writing one file is atomic in the model. |
| C136 | Every product comes from the products in the directory | Calibrate | partial | False of the code: RedSequenceCalibrator saves the parameter file twice, so a crash between the saves leaves preliminary parameters that the restart silently uses for everything after (C136_false). Proved: it holds for every product other than the parameters, parameters are preliminary or final ones of the right inputs, and it holds in full whenever no multi-file stage was cut short. A user-configured zlambdafile is excluded; C136_configured_correction_false shows why. |
| C137 | A restarted calibration completes | Calibrate | partial | False of the code: after a crash between the red galaxies and their model (and likewise between a catalog and its members) every later session fails until the file is deleted; a catalog that is not pixelized never completes because the zred background raises. Proved: completion from every directory where no multi-file stage was cut short. |
| C138 | The run configuration points at existing calibration products | Calibrate | proved | Existence of the red galaxy model file is not claimed (it can be missing after a crash, C137). |
| C139 | A completed calibration is not redone | Calibrate | proved | run_default.yml is written again; it is not among the modelled products. |
| C140 | The cluster finder writes elsewhere than the calibration | Calibrate | proved | Strings as lists of characters. |
| C141 | A correction that yields negative redshifts is refused | Calibrate | partial | False of the code: the check looks only at the last cluster (the loop variable after the loop), and fails with a NameError when there is none. |
| C142 | A multiprocessing run does not depend on the schedule or on earlier interruptions | RedRun | proved | The stages are deterministic parameters; writing one file is atomic; the catalogs (not the members, C143) are claimed. The resolution is that of the run. |
| C143 | A restarted run has the members of every catalog | RedRun | partial | False of the code for every pixel: after a crash between the percolated catalog and its members the members are missing after every later history of runs with check. Proved for pixels that were not interrupted there. |
| C144 | A run without check ignores the files it finds | RedRun | proved | Files of a stage that yields nothing this time are left in place but not reported. |
| C145 | Pixel jobs do not share files | RedRun | proved |  |
| C146 | Percolation-only pixel jobs do not share files | RedRun | partial | False of the code: the name in the percolation-only worker has no resolution, so for every pixel number a restart with another split reuses the catalog of another area. Proved at one resolution. |
| C147 | Forbidden argument combinations are refused and the configuration is restored | RedRun | partial | False when a worker or the consolidation raises: the split resolution (and the seed file) stay in the configuration. The rest is proved. |
| C148 | Prepared members carry the redshift of their own cluster | SpecPrep | proved | esutil match by its contract; output columns are single precision in the code, exact here. |
| C149 | Missing spectra never become training redshifts | SpecPrep | partial | False of the code: with the default tolerance of five sigma a cluster without spectrum and with a large photometric error passes the consistency cut and its members get redshift -1. Proved when the tolerance is smaller than the distance to the marker. |
| C150 | Spectroscopic seeds are the galaxies closest to good spectra | SpecPrep | proved | The HTM matcher is a parameter with the contract MatchOK (closest neighbor within the radius, one per position), shown to be satisfiable by lineMatcher_ok. |
| C151 | No galaxy is a seed twice | SpecPrep | partial | False of the code: two spectra of one object give two seeds on one galaxy. Proved if no two spectra share their closest galaxy. |
| C152 | The color run trains on members of accepted clusters only | SpecPrep | proved |  |
| C153 | The cut seeds are the seeds of rich clusters | SpecPrep | proved | The HTM matcher is a parameter with the contract MatchOK. |
| C154 | Fits of the redshift correction touch only what is fitted and never get worse | ZlamCal | proved | The minimizer is a parameter with the contract FminOK (same dimension, not worse than the start), the spline and the logarithm of the Gaussian are parameters. |
| C155 | The redshift correction is not calibrated through empty redshift bins | ZlamCal | proved |  |
| C156 | Every iteration of the correction is fitted to redshifts as they will be when it is applied | ZlamCal | proved | The spline is a parameter of which only SplineZero is used (through zeros it is zero). |
| C157 | Every iteration of the correction is fitted with the errors as they will be when it is applied | ZlamCal | partial | False of the code: the scatter tables are clipped at 0.001, so every iteration not fitted yet adds 0.001 in quadrature to the errors. Proved for the first iteration and after the last. |
| C158 | The correction is applied with the richness it was fitted with | ZlamCal | partial | False of the code: the fit uses the richness over the scale, the application the richness. Proved for a scale of one and for corrections without slope (the default). |
| C159 | Redshift outliers do not enter the correction | ZlamCal | proved |  |
| C160 | The redshift scan covers the range and records every step | Zscan | proved |  |
| C161 | The redshift scan does not miss a cluster | Zscan | partial | False of the code: a step with several members at the position itself can have a likelihood below minus one, the placeholder of steps without anything, so that an empty step is taken and the position given up. Proved if the members left out of the likelihood add up to at most one. The richness is a parameter with the contract RichOK, which is what C125 proves. |
| C162 | The values reported by the redshift scan belong together | Zscan | proved | Richness, redshift fit and centering are functions of the redshift; the fit returns a positive redshift or a negative one for failure. |
| C163 | What a red-sequence fit accepts and returns | Fitters | proved | The minimizer is an arbitrary program that asks for values of the cost, with the contract MinOK (ends within bounds that can be met; for a cost without state it does not end worse than a start within the bounds), shown satisfiable by exM_ok. Spline, Gaussian, truncation and logarithm are parameters. |
| C164 | The cost of a red-sequence fit depends on the parameters only | Fitters | partial | False of the code: `e2 = self._mag_err2s[:, 0]; e2 += ...` adds the squared error of the second band to the stored one of the first at every evaluation, unless the ratio of the first band is fitted; this is the case with the default configuration. Proved when the scatter is not fitted (between fits) or the ratio of the first band is. |
| C165 | A red-sequence fit is not worse than its start | Fitters | partial | Follows C164: proved if the scatter is not fitted or the error ratio of the first band is fitted. |
| C166 | The fits of a color never make the red sequence less likely | Fitters | partial | False of the code: besides C164, the last fit starts from the initial error ratio rather than the fitted one, so it can end less likely than the scatter fit. Proved against the values from which each fit starts. |
| C167 | The fits of the redshift corrections | Fitters | proved | Minimizer with the contract MinOK; spline, Gaussian and logarithm are parameters. |
| C168 | The two-component color mixture | Fitters | proved | Minimizer with the contract MinOK. If the minimizer raises, the offset stays in the stored colors; this is outside the model. |
| C169 | The order in which colors are calibrated | RedSeqCal | proved |  |
| C170 | Luptitude corrections follow the model colors | RedSeqCal | proved | The luptitude of a magnitude is an arbitrary function per band. The model colors are those at the times of the calls: the colors of the finished red sequence differ from them by the later fits of the color. |
| C171 | Every band gets one error ratio | RedSeqCal | proved | The binned fit is an arbitrary function of its inputs. |
| C172 | Starting values at redshift nodes | RedSeqCal | proved | Median and robust line are parameters. A galaxy exactly halfway between two nodes counts nowhere. |
| C173 | Starting slopes can be looked up | RedSeqCal | proved |  |
| C174 | The calibrated covariance is a covariance | RedSeqCal | partial | False for configured correlations below -1/(n-1), which nothing refuses. Proved for correlations between zero and one. |
| C175 | The volume factor | RedSeqCal | proved | The luminosity distance is a parameter; that comoving distances grow and are concave is a hypothesis on it. |
| C176 | The likelihood cut of the corrections removes five percent | RedSeqCal | partial | False for equal likelihoods: all galaxies with the likelihood of the threshold are left out, which can be all. Proved for distinct likelihoods. |
| C177 | The redshift corrections of the calibration | RedSeqCal | proved | Minimizer with the contract MinOK; argsort with the contract Argsort; exponential with ExpOK. |
| C178 | The parameter file has the corrections of its red sequence | RedSeqCal | partial | False after a crash between the two writes (the file without corrections is accepted by every later session) and for a direct run with an old file (the first write appends a table, the redshifts are computed with the old one). Proved for runs that start without a file and are not interrupted, followed by any sessions. |
| C179 | Clusters outside of the cuts do not influence the centering calibration | WcenCal | proved |  |
| C180 | Widths of the connectivity of random points and satellites | WcenCal | partial | False if the wanted clusters do not differ in connectivity, for example one random point left after the cuts: the start has no likelihood. Proved for catalogs with two different values. Minimizer with the contract Fmin2OK; real arithmetic. |
| C181 | The central model has the largest likelihood | WcenCal | partial | False: the likelihoods have no largest value (a width near zero at one cluster). Proved: at least as likely as the start, and a negative width only if its mirror image beats the start by e^1000. |
| C182 | Random points and satellites are kept apart | WcenCal | partial | False for one file in both roles: the satellite values are not set. |
| C183 | A first iteration without random files is refused | WcenCal | proved | Values that are not set are negative widths. |
| C184 | One model of the brightest galaxy for all iterations | WcenCal | partial | False: reading the file takes the offset for the slope, so from the second iteration on the slope is the offset. The other three values are the same. |
| C185 | The brightest galaxies of a richness | WcenCal | partial | False: one galaxy less than the richness is drawn. |
| C186 | Centering applies the calibrated model | WcenCal | partial | False for scaled richness: centering uses the richness itself for the mean magnitude and limits it before scaling for the widths. |
| C187 | Neighbors are looked for far enough | Setup | partial | False if the mask grows with redshift (percolation_rmask_gamma), and for clusters of constant radius with a mask that grows with richness (the default slope of the mask): the search radius looks at the slope of the cluster radius for both. Proved otherwise. |
| C188 | Galaxies are read down to all luminosities in use | Setup | partial | False with the default masking luminosity, which is not set (TypeError), with zero, and for references below 0.01. Proved otherwise. |
| C189 | Derivatives of the richness | Setup | partial | The second derivative is false if the richness of the cluster is not the one at its redshift, as after the correction of the redshift; the exact error is proved. Real arithmetic. |
| C190 | Matched centers take their values from one galaxy | Setup | partial | False for redshifts: the whole column is assigned from the matches. Proved for magnitudes and errors. |
| C191 | Readers get the catalog of the run that wrote last | Setup | partial | False without replacing (a table is appended) and for a run without members over the member file of an earlier run. Proved otherwise. |
| C192 | Training galaxies have good spectra | SpecRed | proved | Matcher with the contract MatchOK. A galaxy that is closest to two spectra is there twice, with both redshifts. |
| C193 | Trimming of the colors | SpecRed | partial | False for equal residuals: all galaxies equal to a limit are left out, which can be all. Proved for distinct residuals, with the exact number. Argsort with its contract. |
| C194 | Colors are fitted independently | SpecRed | proved | The fits are arbitrary functions of their inputs. |
| C195 | Median fits give medians | SpecRed | proved | The statement about medians is for galaxies at the nodes and a spline that goes through its nodes. Minimizer with the contract MinOK. Real arithmetic. |
| C196 | Truncations are positive | SpecRed | proved |  |
| C197 | Selection of red galaxies | SpecRed | partial | False for redshifts exactly on a bound between modes (never selected) and for a single training galaxy (always written). Proved otherwise, for increasing bounds. |
| C198 | Error ratios in bins | SpecRed | proved | Bootstrap draws are arbitrary. Minimizer with the contract MinOK. Real arithmetic. |
| C199 | The two background tables share a file safely | BkgGen | partial | False with clobber: the whole file is replaced and the table of the other generator is lost. Proved for all histories without. |
| C200 | The color background file is complete | BkgGen | partial | False after an interruption: the incomplete file is accepted by all later runs without clobber. Proved for runs that write. |
| C201 | Galaxies in the table of redshifts | BkgGen | proved |  |
| C202 | Counts are in the bin that is looked up | BkgGen | partial | False for every range that is not a whole number (at least two) of bins. Proved for whole numbers; for all ranges the cell is that bin or the next one. |
| C203 | Totals of the background tables | BkgGen | partial | The total is false for galaxies within half a cell of a border: a galaxy with chi-squared zero counts at most half. Proved: never more than the number, equal away from the borders, signs for all. |
| C204 | Color ranges cover the populated bins | BkgGen | proved |  |
| C205 | Magnitude limit of a redshift bin | BkgGen | partial | False for bins narrower than 0.01 if the wanted magnitude is beyond the catalog. "At most one bin beyond" is for whole numbers of bins. |
| C206 | Galaxies beyond the limit are in no table | BkgGen | partial | False for the linear table if it goes beyond the placeholder, about 430. With C43, which has the bound as hypothesis. Real arithmetic. |
| C207 | Meaning of the fitted limiting magnitude | DepthFit | partial | For fits with positive exposure and sky flux that is not negative; the full statement is refuted by C207_false (a faint catalog gets a negative sky flux). Real arithmetic. |
| C208 | Errors determine depth and exposure | DepthFit | proved | Real arithmetic. |
| C209 | The depth fit is physical and no worse than what is tried | DepthFit | partial | False for data so deep that the start is fainter than 27.5: all exposures tried have negative sky flux and the function is constant there. Proved if one that is tried is allowed. Minimizer with the contract FminOK. |
| C210 | Galaxies used for the depth | DepthFit | partial | False without any usable galaxy: IndexError instead of failure. Proved otherwise; the cut is given by ranks. |
| C211 | Depth does not depend on the zero point | DepthFit | proved | The minimizer is assumed not to see the unit of exposure; that the problem and its start are the same is proved without. |
| C212 | Depth of mask galaxies from data | DepthFit | proved | For catalogs with a usable galaxy, see C210. Zero point and significance are set in the first row only. |
| C213 | Bootstrap errors of the depth | DepthFit | partial | With useBoot the sky flux is not that of the new limit and exposure. |
| C214 | Coverage pixels of a region | Maps | partial | The pixels are right for all resolutions. "Each once" is false if the pixels of the region are smaller than those of the coverage and there is no border: two in one coverage pixel give it twice and healsparse refuses the list. The pixels the border touches are a parameter. |
| C215 | Maps can be asked anywhere | Maps | partial | False of the volume limit, which does not clip the declination before asking the map. The map raises beyond the poles (contract of hpgeom). |
| C216 | Volume limit masks are those asked for | Maps | partial | False: the name of the file has only the first decimal of the luminosity and not the kind, and a file that exists is used. |
| C217 | Volume limit from the geometry | Maps | proved |  |
| C218 | Every mask mode gives a mask or an error | Maps | partial | False: other modes than 0 and 3 give None without an error. |
| C219 | Radial bins of the mask galaxies cover the clusters | Maps | partial | Proved for richnesses from 3 to 300 and positive r0, beta not negative; false for richer clusters. |
| C220 | Normalization of the mask galaxies | Maps | partial | False without softening (rsig not positive): every bright galaxy counts at every radius. The soft edge is a function with values in [0, 1] that does not decrease. |
| C221 | Mask galaxies belong to the run and the cluster | Maps | partial | False: settings of the file are not compared with those of the run, only the version. Away from the poles. |
| C222 | Cost of the redMaGiC calibration | RmCal | proved | Exact arithmetic; the galaxies that are counted are those of C119. |
| C223 | Redshift bins of the redMaGiC calibration | RmCal | partial | False: galaxies in the last 0.0001 of the range are in no bin; without a buffer of at least a bin the range can end beyond the mode. Bins not narrower than 0.0001. |
| C224 | Areas for the redMaGiC calibration | RmCal | partial | False: a mode that ends, less the buffer, at or after the end of the run raises IndexError. |
| C225 | Start of the redMaGiC calibration | RmCal | partial | False without a galaxy near a node: IndexError. |
| C226 | Training sample of the afterburner | RmCal | proved | Any sorting routine. |
| C227 | Calibration redshifts of redMaGiC galaxies | RmCal | proved | Matching by unique cluster and galaxy ids. |
| C228 | Recorded redMaGiC parameters | RmCal | partial | The comparison is false with the afterburner: the corrections are fitted once more after the chi-squared. Fits are parameters with contracts (bounds of MedZFitter, no increase of the cost). |
| C229 | Modes and volume limits of the redMaGiC calibration | RmCal | partial | False if there was a file (its other modes stay), and for luminosities with the same first decimal (see C216). |
| C230 | Saved red-sequence settings are read back | RsFile | proved | Band names without commas, blanks at the end or empty names; the header is a list of cards. |
| C231 | Redshift range of the red-sequence file | RsFile | partial | False: the range is cut at 0.01 below and at the end of the template above. |
| C232 | Required header of a red-sequence file | RsFile | proved | Headers with any keys. |
| C233 | Template colors | RsFile | partial | False if two colors have the same name when case is ignored: the first is always used. |
| C234 | Red sequence outside of the calibration | RsFile | partial | False if no bin is inside of the calibrated redshifts: IndexError. |
| C235 | Magnitudes of a galaxy on the red sequence | RsFile | proved | The reference magnitude of the calibration is taken to be that of the reader. |
| C236 | Luptitudes | RsFile | proved | Over the reals. |
| C237 | Forms of the chi-squared call | RsFile | partial | False: a catalog of one galaxy at several redshifts, a single index in an array for several galaxies, and one galaxy at one redshift through calculate_chisq_redshifts raise. |
| C238 | Chi-squared from the tables | RsFile | partial | False for pairs: the slope of the first pair is used for all (see C58). |
| C239 | A generated background can be read | BkgTable | partial | False: the array of the 40 logarithmic bins is allocated with the number of linear bins, so only configurations with exactly 40 chi-squared bins can be read. |
| C240 | Background between the bins of the file | BkgTable | proved |  |
| C241 | Normalisation of the background | BkgTable | proved |  |
| C242 | Zred background between the bins of the file | BkgTable | partial | False beyond the last bin: a rising background goes on rising in a line. |
| C243 | Pairs of colors in the color background | BkgTable | partial | False if magnitudes differ between extensions: the areas of the first are used for all, ValueError for another number of bins. Colors below 100. |
| C244 | Counts of the color background | BkgTable | proved | Linear interpolation between the first and the last bin of the file. |
| C245 | Consolidation finds the catalog of every pixel | CatTask | partial | False: pixels from 100000 on are silently left out; runs whose base name continues this one with an underscore are taken in; numbers in the base or directory name are taken for the pixel. Base names without glob characters. |
| C246 | Consolidation finds what the tasks write | CatTask | partial | False: only versions of four characters match, and redmapper_consolidate_runcat asks for a kind of catalog that is never written. |
| C247 | Running a pixel task again | CatTask | partial | False: the redshift scan looks for another name than it writes and appends a table on every call; the catalog run uses a class that is not imported. |
| C248 | Setup of a run | CatTask | partial | False for randoms without a depth map: AttributeError. Without temporary files; at least two magnitude bins in the background. |
| C249 | Radius and scale of randoms in the mask run | CatTask | partial | The scale is at least one only for corrections in [0,1); it is not clipped. |
| C250 | Radius of the first pass | CatTask | partial | False without a seed file: r0 = 1 and beta = 0.2 whatever the configuration. |
| C251 | Seeds of the first pass | CatTask | partial | False: without a seed file cleaninput is ignored; in the spectroscopic mode the cut is on zred. |
| C252 | Log files | CatTask | partial | False: a start after a stop opens nothing; without pixels IndexError. |
| C253 | Neighbours of the redshift scan | CatTask | partial | Up to a richness of 300; in any metric space. |
| C254 | Connectivity of a candidate | WcenLike | proved | For every matcher that gives each pair within the radius once; any non-negative separation. |
| C255 | The connectivity has a logarithm | WcenLike | partial | False of the comparison: 0.001 can exceed the connectivity of a candidate with a galaxy close to the radius. |
| C256 | Filters of the centering are densities | WcenLike | partial | For positive widths; with the default (uncalibrated) widths of -9999 the background is negative. |
| C257 | Random center | WcenLike | partial | Small-angle separation. False of the range: the right ascension is not wrapped. |
| C258 | Record of the candidates | WcenLike | partial | False with fewer candidates than entries: the last of all neighbours is flagged and its id recorded; the BCG position fills all entries. |
| C259 | Record of a random center | WcenLike | proved |  |
| C260 | Sizes reach the C code | PyWrap | partial | False on big-endian machines: the format "i" writes half of each long variable. |
| C261 | A solver is made from the numbers given | PyWrap | partial | False of programs that assign to the attributes of a solver: the C object goes on reading a freed array. |
| C262 | Errors of the chi-squared object | PyWrap | partial | False: an object not initialised follows a null pointer, the representation raises TypeError, unparsable arguments of compute give SystemError. |
| C263 | Memory of the chi-squared object | PyWrap | partial | False after repeated initialisation: only the last struct is freed. Nothing is freed twice. |
| C264 | One solution for each galaxy | PyWrap | partial | False of matrices (one value for each row) and scalars (crash). |
| C265 | Bands of a galaxy file | GalStats | partial | Indices of bands different and below their number; false of columns such as g_index, which name a band too. |
| C266 | Reference band | GalStats | partial | False: the reference index stored in the file is not compared with the configured band. |
| C267 | Galaxy files that can be used | GalStats | proved |  |
| C268 | Configured area | GalStats | partial | False for areas within 0.001 of that of the file, which are replaced. |
| C269 | Galaxies of the calibration | MedCal | partial | False of the galaxies for colors: with a higher cut there may be none, which is not checked. |
| C270 | Pivot magnitude and magnitude range | MedCal | proved | For minimisers that are not worse than their start; the range is not empty for reference luminosities below 30.1. |
| C271 | Median colors and widths | MedCal | proved | For minimisers that respect bounds. |
| C272 | Error ratio of a color | MedCal | partial | False outside of 0.5 to 9.9, where the end of the range is taken. |
| C273 | Columns of the parameter file | MedCal | proved |  |
| C274 | File of calibrated redshifts | MedCal | partial | False of names that end with one of the characters of ".fit": more is taken off, and files can coincide. |
| C275 | Zreds do not depend on the processes | ForkPool | proved |  |
| C276 | Random redshift samples depend on the seed only | ForkPool | partial | Proved for one process.  False for several: workers are forks of the parent, so the first tasks of all of them, and every later run, use the same random numbers. |
| C277 | Files of a run with failures | ForkPool | proved | For tasks that write different files (C278). |
| C278 | Names of zred files | ForkPool | partial | False: the pattern is not anchored at the end and its point matches any character, and a name without a directory cannot be used. |
| C279 | Conversion of old maps | SkyMap | proved | The effect of HealSparseMap is assumed. |
| C280 | Pixels of a region | SkyMap | proved |  |
| C281 | Areas of a region | SkyMap | partial | False of sums: the areas of two regions can exceed that of both (two pixels too many, C48).  The whole sky for maps with different depths. |
| C282 | Prediction of memory | SkyMap | partial | False of the code: a wrong function is called and the prediction always raises.  The guarded theorem has the right function in its place. |
| C283 | Galaxies of the redMaGiC calibration | RmRun | partial | For modes that end within redmagic_zrange.  False otherwise: the configuration does not check it, and galaxies that the mode selects are missing from its calibration. |
| C284 | Spectroscopic redshifts of redMaGiC galaxies | RmRun | partial | Holds for the selection.  In the calibration spectra are matched to galaxies, and of several the last counts, not the closest; proved when at most one is near. |
| C285 | Tables of the color background | ColGen | proved | Exact arithmetic. |
| C286 | Pairs and single colors of the color background | ColGen | partial | False: a pair only has galaxies in both ranges, and loses weight at the edges of each; proved to be at most the color, and equal if the other color of all galaxies is inside its range. |
| C287 | Totals of the color background | ColGen | partial | False at the edges, where a galaxy counts half in each quantity; proved between a quarter and all of the galaxies, and equal away from the edges. |
| C288 | Samples follow their distribution | MaskGen | partial | The cumulative probability is never below the tabulated one and at most one over the number of grid points above it: samples are biased to the low end; with two equal points all are the first. |
| C289 | Values and weights of the mask galaxies | MaskGen | partial | Proved for at least three bands; with two bands the galaxies cannot be made (C291).  The Simpson integral is a parameter. |
| C290 | Uniform points of the local background | MaskGen | proved | Lebesgue measure of the pairs of uniform draws. |
| C291 | Mask galaxies for any number of bands | MaskGen | partial | False with two bands, where the color filter is infinite at zero and no sample is found (if NaN is cast to a negative integer, as on x86); proved for three or more. |
| C292 | Cluster redshifts from members | Plots | partial | False: positions of matches are used as positions of members, and bins of the histogram as positions of clusters.  Proved when all members belong to the catalog and the first cluster has one. |
| C293 | Outliers, bias and scatter | Plots | proved | Positive errors; without any spectrum the plot raises. |
| C294 | Map of photometric and spectroscopic redshifts | Plots | proved | The spline is arbitrary; smoothing in one dimension, applied twice by the code. |
| C295 | Densities in redshift | Plots | proved | Objects in the last 0.0001 of the range are not counted; the volume function is a parameter. |
| C296 | Redshifts sampled from p(z) | Plots | proved | Lebesgue measure of the draws; a p(z) that is zero raises. |
| C297 | Clusters against richness | Plots | partial | False above richness 200, or up to one bin size less; proved below. |
| C298 | Files of weighted randoms of different runs | RandOut | partial | False: the name has the redshift range of the configuration, not of the run, and whole numbers of the richness.  Proved: files are shared exactly if the numbers in the name agree. |
| C299 | The area counts the randoms that are kept | RandOut | partial | False for a random exactly at the upper end of the richness range, which is kept but counted as lost; proved for all others. |
| C300 | The area correction is fitted to the fraction at each redshift | RandOut | partial | False: the fraction below the upper edge of a bin is assigned to its middle; proved with the redshift half a step higher. |
| C301 | The files returned hold the result of the run | RandOut | partial | False if the file exists (a table is appended, readers get the first) or if only one random takes part (written whether found or not); proved otherwise.  The fit is a parameter. |
| C302 | Construction of a cluster catalogue adds columns and loses nothing | ClusCat | proved | Names distinct when lower-cased. |
| C303 | Indexing a cluster catalogue | ClusCat | partial | False for a catalogue made with an explicit dtype (columns of the configuration are added); proved otherwise. |
| C304 | What is computed for a cluster is in the catalogue that is written | ClusCat | partial | False for the randoms, whose catalogue starts without LIM_LIMMAG and others: the values become attributes of temporary objects and zeros are written.  Proved for every column the starting catalogue has. |
| C305 | The stored p(z) is the corrected one | ClusCat | proved | At least one iteration; exact arithmetic; Simpson rule linear and positive. |
| C306 | Likelihoods in the catalogue of likelihoods | ClusCat | partial | False: the likelihood of the central is assigned to lnbcglike, which is not a column (the column is LNCGLIKE), so it is lost.  Proved: the column of the members, the total, and that the column of the central keeps its initial value. |
| C307 | The cost of a correlation fit | OffDiag | partial | False for adjacent colors in the reverse order (the covariance by the common band is missing); proved if the first color is before the second and the scatters are not zero. |
| C308 | Correlation fits do not depend on history and respect bounds | OffDiag | proved | Minimizer contract: stays in bounds, not worse than the start for a cost that is a function. |
| C309 | The matrices handed to a correlation fit | OffDiag | partial | False: the matrices are not copied and are left with the correlations looked at last. |
| C310 | A correlation fit avoids small eigenvalues | OffDiag | partial | False if the start is not admissible (a fixed penalty); proved if it is and no likelihood exceeds that of the start by the penalty. |
| C311 | Where a redshift correction takes its values from | ZlamPar | proved |  |
| C312 | The tables of a redshift correction | ZlamPar | proved | Rounding to within one half; any spline. |
| C313 | A calibrated redshift correction can be used | ZlamPar | partial | False for one iteration: the tables then have two dimensions and are given to the spline as they are (ValueError). |
| C314 | Redshift corrections between the iterations of their calibration | ZlamPar | partial | True of the redshifts; false of the errors: each iteration still to be done adds 0.001 in quadrature, as its zero scatter is raised to 0.001. |
| C315 | Gaussian fits to histograms | HistoGauss | partial | False for a negative sigma, which fits as well: IndexError. Proved for positive sigma and a bin within five sigma. |
| C316 | The histogram of a Gaussian fit shows all values | HistoGauss | partial | False if a bin lies exactly at five sigma; proved otherwise. |
| C317 | Brightest galaxies and richness | HistoGauss | proved |  |
| C318 | The luminosity of the brightest galaxy is a line in log richness | HistoGauss | proved | The docstring has products of powers instead of lines. |
| C319 | Logging can be started | LogFile | partial | False for a configuration without pixels that does not log to the console: IndexError. The exact condition is proved. |
| C320 | Contents of log files | LogFile | partial | False after a restart (nothing more is logged) and for configurations that share a logger; proved for the first window of a configuration with a logger of its own. |
| C321 | Names of log files | LogFile | partial | False: only the first pixel is in the name; proved for different bases or first pixels. |
| C322 | Files of the redMaGiC task | RmTask | partial | False if a mode has the name of another one with _randoms at its end: one file is then used for both. Proved otherwise. |
| C323 | A redMaGiC run with an error changes nothing | RmTask | partial | False: existing random points are noticed after the catalogs have been written, unknown modes after the first pixel. Proved for galaxies not in pixels and for existing catalogs; other errors need one of the two, or an empty catalog. |
| C324 | The redMaGiC task closes its log | RmTask | partial | False with an error or with no random points asked for; exact condition proved. |
| C325 | Arguments of the generator of random redMaGiC points | RmTask | partial | False: names of files raise AttributeError or NameError. |
| C326 | Clusters in a run of likelihoods | Finders | proved |  |
| C327 | The double run of a fixed-color run | Finders | proved | Processing of one cluster is the function of Runner; the sort has the contract of argsort. |
| C328 | Batch jobs cover the galaxies | Batch | partial | Proved when each pixel of the galaxy table lies in one pixel of the jobs; false for jobs of finer pixels than the table has. |
| C329 | Commands of a job array | Batch | partial | Proved for paths without percent and dollar signs and blanks; false for paths with a percent sign (another file) or a blank. |
| C330 | Commands of a parsl script | Batch | partial | Proved for plain paths; false for paths with braces. |
| C331 | Job files have their own numbers | Batch | partial | True of the first ten jobs of a name; every further job replaces the tenth. Also false after a file has been deleted. |
| C332 | Errors leave no job file | Batch | partial | True of wrong arguments. Errors of the batch system leave a file that counts as a job; every PBS job ends in a NameError. |
| C333 | Configuration of batch systems | Batch | partial | Without a configuration a job for LSF is written. |
| C334 | Several pixels on one node | Batch | partial | Failures are never reported. |
| C335 | Files of a consolidation | ConsFiles | partial | Proved if no two cuts have the same integer part (tenths for luminosities) and each selects a cluster. Otherwise cuts share files, and ids are replaced twice; an empty cut stops the consolidation. |
| C336 | Plots of a consolidation | ConsFiles | partial | False if the base name has _catalog in it. |
| C337 | Consolidation of catalog runs | ConsFiles | partial | With plots, the default, it always ends with a NameError. |
| C338 | Volume limits in other bands | VlimMap | partial | False: the colors are those of the next row of the table, at redshifts of the table too. Proved for the row that is used. |
| C339 | The map of a volume limit | VlimMap | partial | False for ranges that are not a whole number of steps of 0.001: the largest redshift of a pixel can be up to a step above the run. Proved otherwise, for limits that increase with redshift. |
| C340 | Further maps in the reference band | VlimMap | partial | False: the map is used. Proved for maps that are not shallower than the depth map. |
| C341 | redMaGiC parameters can be moved | RmSel | partial | False for modes with a blank at the end of the name, which are never available. Proved otherwise, for directories written without a slash at the end. |
| C342 | Samples of redMaGiC galaxies | RmSel | partial | False for catalogs with another number of samples (ValueError) and for those without samples, where all samples of a galaxy are the same draw. Proved otherwise. |
| C343 | Corrected zreds solve their correction | Zred | partial | False for steep corrections, where the iteration runs away. Proved for tables that change by at most half the change of redshift; general bounds for any factor. |
| C344 | Chi-squared and likelihood of a zred | Zred | proved |  |
| C345 | Clusters kept by the color run | ColorRun | partial | False when calib_pcut is 0 or less: the richness -10 of a failed fit over the scale -1 passes the richness cut. Proved for positive cuts. |
| C346 | Intrinsic scatter of the color run | ColorRun | partial | False: calib_colormem_sigint is never used, the fit has its default of 0.05. Proved for that value. |
| C347 | Change of the richness with redshift | DLambda | proved |  |
| C348 | Second derivative of the richness | DLambda | partial | False after a correction of z_lambda, and for runs that keep the input redshift: the middle value is then the richness at another redshift. Proved when the recorded richness is the one at z_lambda; the exact error otherwise. |
| C349 | Error model without noise | ErrModel | proved |  |
| C350 | Error model with noise | ErrModel | partial | False: one number is drawn for all galaxies, and its mean is the number of galaxies. Proved: what it does instead. |
| C351 | Fits of a redMaGiC fitter do not add up | RmAfter | proved |  |
| C352 | Galaxies of the afterburner | RmAfter | proved |  |
| C353 | A constant offset is removed | RmAfter | partial | False of offsets above 0.1, the bound of the bias. Proved for offsets within it when the fit reaches the minimum, and that a right constant bias stays right for every minimizer. |
| C354 | Distribution over redshift bins | ZredPz | proved |  |
| C355 | Bins of a galaxy | ZredPz | proved |  |
| C356 | Samples of zred | ZredPz | partial | False when corrections are applied: zred is corrected, its samples are not; and a galaxy that is reset keeps old samples. Proved for the uncorrected redshift, also where the interpolated density is negative, as long as it does not add up to zero. |
| C357 | Normalisation of the luminosity filter | LumFilt | partial | False of limits beyond the magnitude table (reference luminosities below 0.1 at the end of the redshift range): the table is not extended, and the integral exceeds one. Proved within the table. |
| C358 | Objects counted in the map of photometric redshifts | PhotMap | partial | False of every list: the last bin is open above and ends at the largest photometric redshift, so the object there is in no cell. Proved of all others. |
| C359 | Row drawn at a redshift of the map | PhotMap | partial | False on the edges of bins, where nothing is drawn. Proved off the edges; with one photometric redshift the map is empty. |
| C360 | Positions in the plot of positions | PhotMap | partial | False of areas across zero: they are shown at right ascensions off by 180 degrees. Proved: all are turned by one angle, and areas on less than half a circle keep their width. |
| C361 | Warning about too few redMaGiC galaxies | PhotMap | partial | False of modes other than the faintest: the galaxies of all modes are counted. Proved that what is warned of is too little for the mode, and that the warning is complete when all galaxies are bright enough. |
| C362 | Range of the density plot of a redMaGiC mode | PhotMap | proved |  |
| C363 | Redshift diagnostics of the red sequence | RsDiag | partial | False of bins in which no galaxy is within three errors of the median: they are left out. Proved that every point is as stated, and that all other bins have one. |
| C364 | Pull diagnostics of the red sequence | RsDiag | partial | False of bins whose width is zero (one galaxy, or most pulls equal): they are not drawn. Proved of all others. |
| C365 | Magnitude range of the pull plots | RsDiag | partial | False of two galaxies or fewer, or of one magnitude: no galaxy is strictly within the range and the histogram raises. Proved of the range, and that the plot is made exactly if a galaxy is within it. |
| C366 | Scaled pulls | RsDiag | proved |  |
| C367 | Membership probabilities of a percolation run | Perc | partial | False of a galaxy in three clusters or more: each takes its full probability, what is left becomes negative, and so does its membership in the next cluster. Proved: every membership is a share of probability times what is left; all of the claim for clusters whose galaxies are not used up, in particular if no galaxy is in more than two clusters. |
| C368 | Richness errors of a percolation run | Perc | partial | False of the same clusters: the variance of the members becomes negative (the error is then not a number). Proved where no galaxy has been used up. |
| C369 | Which clusters a catalog run keeps | Perc | proved |  |
| C370 | A galaxy is not counted twice | Perc | partial | False of galaxies fainter than the masking limit, which nevertheless count in the richness if their errors reach over its limit. Proved, for a hard edge, of every galaxy brighter than the masking limit of the clusters it is near, whatever the number of clusters. |
| C371 | Whose availability decides about a cluster | PercCen | partial | False of clusters not centered on a galaxy: the index -1 of the center takes the availability of the last neighbour, however far, for that of the center. Proved of clusters centered on a neighbour. |
| C372 | A cluster that percolation gives up is reported | PercCen | partial | False of a cluster whose members are all as near to the center as the nearest: its values are reset but it is not reported bad, and the derivative of its richness that follows sets a negative redshift, which raises. Proved for a hard edge, a minimum richness above one, two iterations or more (or kept redshifts) and a single nearest neighbour. |
| C373 | Richness and redshift of a percolated cluster belong together | PercCen | partial | False for one iteration without kept redshifts: the redshift moves after the richness is computed. Proved for two iterations or more, or kept redshifts, and a minimum richness above one. |
| C374 | No galaxy is the center of two clusters | PercRun | partial | False of a galaxy that is a member of the cluster it is the center of with a probability no larger than one minus the availability cut: it remains available as a center. Proved for runs in which every central galaxy is a member beyond that, and brighter than the masking limit. That every cluster kept has one center recorded is proved without this. |
| C375 | A galaxy that is used up is the center of no later cluster | PercRun | proved | For a minimum richness above one, a positive cut, and neighbour lists without repetitions. |
| C376 | The catalog does not depend on how the survey is divided | Tiles | partial | False: clusters that share galaxies form chains, and a cluster beyond the border decides, through those between, about a cluster in the pixel; borders are made for single clusters. Proved for tiles that have, with their galaxies, all clusters connected by chains to those in their pixel. |
| C377 | Clusters apart from others have the same results in a tile | Tiles | proved |  |
| C378 | In floating point the richness solver stops after 17 steps, with -1 or a richness of a fixed grid | FlSolver | proved | For every rounding that satisfies the small contract `Rounding`; `r64_rounding` proves that IEEE 754 binary64, round to nearest even, satisfies it. |
| C379 | In floating point memberships and weights are numbers in [0,1] | FlSolver | proved | nfwnorm (an exponential) is not negative; the soft step lies in [0,1]. |
| C380 | A weight that is not a number never gives a plausible richness by itself | FlSolver | proved |  |
| C381 | In floating point galaxies with zero weight do not change the richness in any digit | FlSolver | proved |  |
| C382 | In floating point a reported richness brackets a self-consistent solution | FlSolver | proved |  |
| C383 | In floating point the richness does not depend on the order of the galaxies | FlSolver | partial | False: five galaxies in two orders with different richness, evaluated with IEEE 754 rounding in the kernel. Proved if the weights are multiples of 2^-30. (C06 proves the property for exact arithmetic.) |
| C384 | Rounding changes the richness only by changing the side of a trial | FlExact | proved | Links the exact model `Solver` (C01 to C10) with the floating point model `FlSolver`. |
| C385 | A richness computed in floating point is near the exact solution | FlExact | proved |  |
| C386 | Rounding errors of the predicted richness are tiny | FlExact | proved | Values of pow, log and exp (radius, normalisation) are taken as given, the same in both computations; errors of erf at the edge and of the mask polynomial enter as bounds. |
| C387 | Rounding does not move the richness | FlExact | proved | As C386. |
| C388 | In floating point the number of bins is that of the configuration | FlBins | partial | False: redshifts from 0.1 to 0.4 in bins of 0.02 are 16 bins, the last of which starts at the end of the range. Proved: N or N + 1 bins, never fewer. |
| C389 | In floating point red-sequence and redshift-correction tables have all their bins | FlBins | proved | np.round instead of np.ceil. |
| C390 | In floating point a redshift is looked up in its bin of the red sequence | FlBins | partial | False for sizes such as 1/93, for which int(1./size) is 92: the redshift of bin 47 is looked up in bin 46. Proved for sizes that are recognised (those of usual configurations are, evaluated in the kernel). |
| C391 | In floating point the background is looked up in the redshift bin | FlBins | proved |  |
| C392 | In floating point a magnitude is looked up in its bin of the red sequence | FlBins | proved |  |
| C393 | In floating point a random draw always finds a value | FlSample | proved | The three places with this code have the same model. np.sum enters with a bound of its relative error. |
| C394 | In floating point a random draw has a positive density | FlSample | partial | False of the first point: random numbers below 1/n find it even if its density is zero. Proved of all other points. |
| C395 | In floating point the richness error is always a number | FlErr | proved | C395_solver joins it to the solver in floating point. The limit of the sum is needed: C395_limit. The masking error enters as a number. |
| C396 | In floating point spline nodes increase and cover the range | FlNodes | proved | np.arange enters with its documented algorithm (count by ceil, values start + i*delta). |
| C397 | Clusters of a pixel descend one to one from sources that pass every stage | PixRun | proved | composition of first pass, likelihoods and percolation; Descends and Eligible are the specification |
| C398 | Redshifts to be kept are kept through a pixel | PixRun | partial | true in the spectroscopic mode with a seed file; otherwise the recorded redshift is the photometric one of the first stage even if redshifts are to be kept |
| C399 | Every cluster with a likelihood is percolated if rich, bright and in range | PixRun | partial | a membership of exactly one makes the likelihood infinite and the cluster is dropped as not finite |
| C400 | Percolation goes in order of likelihood | PixRun | partial | true with a calibrated centering; otherwise the total likelihood stays zero and the order is that of the sort of equal values |
| C401 | In floating point a spline reproduces its nodes | FlSpline | proved | for every rounding with the properties Rounding and Accurate (r64_rounding, r64_accurate); the third power is exact at 0 and 1 |
| C402 | In floating point linear interpolation reproduces its nodes | FlSpline | partial | exact at the first node; at the others only within 2^-48 of the greatest value (value 1 followed by 2^-60 gives 0) |
| C403 | Rounding error of linear interpolation | FlSpline | proved | for every rounding with the properties Rounding and Accurate |
| C404 | Rounding error of a spline | FlSpline | proved | the third power of the library is accurate within CubeOK |
| C405 | Accepted clusters have a likelihood | LikeCen | partial | the connectivity is the logarithm of a mean that softening can bring below one; its logarithm is then not a number and percolation drops the cluster; at exactly one, or with an underflow, the run ends because warnings are errors there. Proved: what happens in each case, and a finite likelihood if all softened distances are below r_lambda |
| C406 | Galaxies without membership do not count in the likelihood | LikeCen | proved |  |
| C407 | The order of neighbours has no effect on the likelihood | LikeCen | proved | with ties for the nearest galaxy the order counts (witness) |
| C408 | Likelihoods do not depend on the zero point | LikeCen | proved |  |
| C409 | The repair of a covariance keeps its directions | Chisq | partial | the eigenvalues come from gsl_eigen_symm and the eigenvectors from gsl_eigen_symmv, both documented as unordered; true if the two list them in the same order (SameOrder), otherwise variances are given to the wrong directions (witness) |
| C410 | In single precision a galaxy is never given back | Fl32 | proved | for probabilities between zero and one (C379) and any doubles |
| C411 | Availability in single precision accounts for what clusters take | Fl32 | partial | false: small amounts are lost once half of the galaxy has been taken, without bound (witness); proved up to (k+1)^2/2^23 after k clusters |
| C412 | Exactly the clusters with a likelihood are in the catalog of likelihoods | Fl32 | partial | failed clusters and those without a number are left out, and every likelihood above -9e10 is kept; false only of likelihoods next to -1e11 and of an infinite one |
| C413 | Percolation goes by likelihood although likelihoods are stored in single precision | Fl32 | partial | false: likelihoods that round to the same number may be in any order; proved up to rounding errors |
| C414 | Cuts of percolation in single precision | Fl32 | partial | no cluster outside is ever used, for all limits; clusters inside by less than rounding errors are lost (witness) |
| C415 | Probabilities in the member file | Fl32 | proved |  |
| C416 | A consolidation gives clusters and members the redshift of the closest good spectrum, or none | ConsSpec | proved | Redshifts are exact; the matcher of the library is the closest position within the radius. |
| C417 | In a mock catalog clusters and members have the true redshift of their galaxy | ConsSpec | partial | Proved for all clusters, and for members that are in the pixel of the files they are recorded in. False for members across the border of the pixel: the truth is read without border, so that they get -1 although their galaxy is in the mock catalog. |
| C418 | Without matching the redshifts of clusters and members are left alone | ConsSpec | partial | True of the consolidation of catalog runs, and of cluster finder runs on data. False of cluster finder runs on a mock catalog, for which the truth is matched whatever the flag. |
| C419 | Matching redshifts does not change anything else | ConsSpec | proved |  |
| C420 | Members are found under the id of their cluster, whatever the ids of the input catalog | IdWidth | partial | Proved for ids of 32 bits. False for others: a catalog keeps the type of its own id column, but the member table has 32 bits; members of clusters with larger ids are dropped when members are matched to clusters, or appear under another cluster whose id differs by a multiple of 2^32. |
| C421 | Random points are numbered from one | IdWidth | partial | Proved for fewer than 2^31 points; false for any larger number, for which ids are negative (different up to 2^32). |
| C422 | The catalogs of a survey contain exactly the clusters that pass every stage | Survey | proved | Composition of PixRun, Runner and Consolidate without assumptions on what one stage hands to the next; `select_scaleval` off (C19); distributed run of one tile per pixel. |
| C423 | No source gives two clusters of a survey | Survey | proved |  |
| C424 | The clusters of a pixel do not depend on the other pixels | Survey | proved | The clusters of the pixel; their ids depend on the likelihoods of the others. |
| C425 | In the catalogs of a survey that is run in tiles, no galaxy counts as more than one | TileSum | partial | False in general, also with a border of galaxies and neighbouring clusters around every pixel (C425_false: four clusters in a chain). Proved: at most one for each tile that has read the galaxy; at most one in all if every tile has all chains of clusters that share galaxies with those of its pixel. Both under the hypotheses of C370 (hard edge, galaxy brighter than the masking limit). |
| C426 | No galaxy is the center of two clusters of a survey that is run in tiles | TileSum | partial | Tiles add no further case: two clusters with the same central galaxy come from one tile (C426_tiles). Within a tile the guard of C374 is needed (center used up beyond the cut; C426_false). |
| C427 | A new configuration has the values of its files and no others | Config | proved | Construction only; later changes to one configuration are seen through all others (C37). |
| C428 | Galaxies and probabilities of the single-color richness | ColorFit | proved | Over an ordered field; polyfit, median, the Gaussian and the background are parameters. pcol is stated for galaxies off the exact center, where the code divides by the radius. |
| C429 | Masking more never lowers the masking error | MaskErr | partial | The value is proved in full. Monotone from richness 2 on; at richness 1 it is false (C429_false: with everything lost v = 1 and the error vanishes). The square root is a parameter with its defining property; beta gamma < 1. |
| C430 | Random satellites are drawn by their membership | Centering | partial | False: draws and cumulative sums are rounded down to multiples of one over the number of neighbours, and the least probable of two or more neighbours is never chosen (C430_least), however probable it is. Proved: the probability differs from the share by at most one over the number of neighbours. Exact arithmetic. |
| C431 | Computed zreds are the zreds read | ZredFile | partial | The file is proved for every galaxy table. Reading is proved when the galaxy file has no column of a zred file; with one, the file is written but reading raises ValueError (C431_twice, C431_false). C431_whole is the same for files that are not pixelated. Cells are opaque; one pixel, no truth columns. |
| C432 | The memory report never fails | MemReport | proved | Lines as lists of words; int() and str.lower are parameters; exact quotient by 1000. |
| C433 | The cuts of a consolidation are those asked for | ConsFiles | proved | An empty list of volume limits counts as none given, as documented; the script therefore cannot ask for none when the configuration has some (C433_script). |
| C434 | Splitting a catalog in one call | GalMaker | partial | False for an error raised while the galaxies are written: a repeated call of the same maker writes the galaxies of the earlier pixels a second time, and with generated ids the catalog is finalized with the copies. Proved for errors in the checks; success, refusal and the absence of a master table after an error are proved in general. Serial mode. |
| C435 | Splitting random points in one call | GalMaker | partial | False for points with a repeated id: nothing is checked before writing, and the master table is left behind when the ids are checked, so every later call raises (proved for all such points). Proved for different ids. Serial mode. |
| C436 | Creating a galaxy catalog maker | MakerInit | proved | The mask file, read afterwards, is not modelled. |
| C437 | Creating a random catalog maker | MakerInit | partial | False: the missing entries are added to the dictionary of the caller, and a galaxy catalog maker that refused the dictionary accepts it afterwards (proved for every dictionary without one of them). Proved: the values, that given entries are kept and that no other entry is added. |

## Axioms each theorem depends on

Output of `#print axioms` for every theorem in `MANIFEST.json`, grouped (prefix `Redmapper.` left out).  No other axiom occurs.

**no axioms** (10): Calibrate.C136_configured_correction_false, Calibrate.C137_members_false, ForkPool.C276_again, ForkPool.C276_false, Maps.C218_mode_false, Maps.C218_mode_partial, PyWrap.C260_false, PyWrap.C262_false, PyWrap.C262_repr_false, PyWrap.C263_false.

**propext** (43): BkgGen.C199_other_table_kept_false, Calibrate.C141_false, Catalog.C21_history, Catalog.C23_one_row_false, Catalog.C79_shadow_false, Catalog.C79_unknown_name, Catalog.C81_no_clobber_false, Catalog.C82_detached, Chisq.C60_false, ClusCat.C303_false, Config.C38_null_false, Config.C38_scalar_accepts, Config.C38_scalar_false, Config.C38_sequence, Config.C38_string_list, Config.C92_false, Config.C94_error, Config.C94_ok_iff, GalMaker.C91_columns, GalRead.C121_length_false, GalRead.C121_length_partial, Maps.C221_read_false, Mask.C52_position, PixelTasks.C35_stray_false, PixelTasks.C36_checks, PixelTasks.C36_empty, PixelTasks.C36_members_false, PixelTasks.C36_members_lost, PixelTasks.C36_resume_partial, PixelTasks.C36_torn_false, PyWrap.C264_false, PyWrap.C264_scalar, RedRun.C142_percolation_only, RedRun.C147_restored_false, RedSeqCal.C178_false_crash, RedSeqCal.C178_false_old, RedSeqCal.C178_file_partial, RmTask.C325_false, RmTask.C325_partial, Runner.C11_single_id_lost, Setup.C191_false, Setup.C191_output_partial, SkyMap.C279_values.

**Quot.sound** (1): RedRun.C142_terminates.

**Quot.sound, propext** (164): Background.C43_chunk_skips, Background.C43_partial, Background.C97_missing, Background.C97_partial, Background.C97_reversed, Batch.C328_false, BkgGen.C199_first_kept_partial, BkgGen.C199_no_duplicates, BkgGen.C199_written, BkgGen.C201_master_zero, Calibrate.C135_products_never_change, Calibrate.C136_false, Calibrate.C136_provenance_partial, Calibrate.C137_completes_partial, Calibrate.C137_false, Calibrate.C137_first_session, Calibrate.C137_not_pixelized_false, Calibrate.C138_output_configuration, Calibrate.C139_completed_is_not_redone, Calibrate.C141_check_partial, Calibrate.replace_first, Calibrate.replace_none, CatTask.C248_gals, CatTask.C248_partial, CatTask.C248_zmask, CatTask.C251_gals, Catalog.C23_indices_partial, Catalog.C81_roundtrip_partial, Centering.C85_neighbours_partial, Chisq.C108_partial, ClusCat.C303_single, Cluster.C127_radii_partial, Cluster.C127_scales, Cluster.C127_setting_restores, Cluster.C128_values_lost, Cluster.C130_consequence, Cluster.C130_same_fraction_partial, Cluster.C130_solver, Cluster.C133_local_partial, ColorRun.C345_values, ColorRun.C346_unused, Config.C37_shared, Config.C38_construct_partial, Config.C38_unknown, Config.C427_history, Config.C427_values, Config.C92_partial, Config.C92_writable, ConsFiles.C433, ConsFiles.C433_number, ConsFiles.C433_script, ConsSpec.C418_partial, ConsSpec.C418_runcat, ConsSpec.C419, ConsSpec.C419_runcat, Consolidate.C18_runcat_orphans_false, Consolidate.C19_scaleval_partial, Consolidate.C19_scaleval_stops, Consolidate.C68_returns, Finders.C327_second, Finders.C74_central_available, Finders.C74_percolation_accepts, Finders.C76_runcat, Finders.C77_second_pass_order, ForkPool.C275, ForkPool.C275_zred, ForkPool.C276_shared, GalMaker.C32_any_time, GalMaker.C32_progress, GalMaker.C434_partial, GalMaker.C434_refused, GalMaker.C91_accepts, GalMaker.C91_accepts_iff, GalRead.C122_several, GalRead.C123, GalRead.C123_plain_false, GalRead.C124, GalRead.C124_missing, GalRead.C69_errors, GalRead.C69_plain_false, GalRead.C69_range_false, IdWidth.C420_shared, IdWidth.C421_distinct, IdWidth.C421_false, IdWidth.C421_partial, Maps.C216_own_mask_false, Maps.C217_geometry, Maps.C217_order, Maps.C220_hard, Maps.C220_sharp_false, Maps.C220_soft_value, Maps.C221_read_partial, Mask.C102_errors, Mask.C47_pole, Mask.C47_value, PercRun.C374_recorded, PhotMap.C358_some, PixRun.C397_written, PixRun.through_iff, PyWrap.C264_partial, Randoms.C106_first, Randoms.C106_prefix, Randoms.C106_round, Randoms.C54_partial, Randoms.C55_cuts, RedRun.C142_restart_and_schedule, RedRun.C143_false, RedRun.C143_members_partial, RedRun.C144_no_check, RedRun.C147_arguments, RedSeqCal.C177_empty, Redmagic.C118_clobber, Redmagic.C119_samples, Redmagic.C65_unknown, RmCal.C224_area_false, RmCal.C225_start_false, RmCal.C228_cost_partial, RmCal.C229_masks_false, RmCal.C229_modes, RmCal.C229_only_false, RmSel.C341_last, RmSel.C341_partial, RmSel.C342_partial, RsFile.C232, RsFile.C234_overflow, Runner.C10_causality, Runner.C10_causality_at, Runner.C12_no_members, Runner.C13_only_accepted_contribute, Runner.C13_rejected, Setup.C190_false, SkyMap.C279_rows, SkyMap.C281_guards, SkyMap.C282_false, SpecPrep.C150_at_most_one, SpecPrep.C150_seeds, SpecPrep.C151_galaxy_once_partial, SpecPrep.C153_cut_seeds, TileSum.C426_tiles, Utilities.C29_fixextrap, Utilities.C30_mutex, Utilities.C30_stale, Utilities.C30_undisturbed, VlimMap.C338_partial, ZlamCal.C154_likelihood, ZlamPar.C311_file_first, ZlamPar.C311_given, ZlamPar.C311_header, ZlamPar.C311_key, ZlamPar.C311_missing, ZlamPar.C311_neither, ZlamPar.C312_extrapolated, ZlamPar.C313_file, Zlambda.C112_partial, Zlambda.C114_partial, Zlambda.C115_raises, Zlambda.C64_evals, Zlambda.C64_partial, Zlambda.C64_stops, Zlambda.C64_valid, Zred.C100_holes_false, Zred.C101_partial, Zred.C45_partial, ZredPz.C356_reset.

**Classical.choice, Quot.sound, propext** (924): Background.C40_edge, Background.C40_edge_false, Background.C40_partial, Background.C41_above, Background.C41_above_false, Background.C41_partial, Background.C42_disjoint, Background.C42_edge_false, Background.C42_iff, Background.C42_partial, Background.C43_nonpix_false, Background.C43_nonpix_nothing, Background.C96_below, Background.C96_below_false, Background.C96_partial, Background.C97_false, Background.C97_value, Background.C98_diag_false, Background.C98_diag_value, Background.C98_fine, Background.C98_offdiag_partial, Batch.C328_cover_partial, Batch.C329_args_partial, Batch.C329_array, Batch.C329_blank_false, Batch.C329_percent_false, Batch.C330_braces_false, Batch.C330_parsl, Batch.C331_create, Batch.C331_deleted_false, Batch.C331_false, Batch.C331_numbers_partial, Batch.C332_before_partial, Batch.C332_complete, Batch.C332_false, Batch.C333_false, Batch.C333_load, Batch.C334_all_partial, Batch.C334_false, BkgGen.C200_complete_partial, BkgGen.C200_interrupted_false, BkgGen.C201_counted, BkgGen.C202_bin_false, BkgGen.C202_not_earlier, BkgGen.C202_same_bin_partial, BkgGen.C203_border_false, BkgGen.C203_total_partial, BkgGen.C203_zred_positive, BkgGen.C204_covers, BkgGen.C204_no_range, BkgGen.C204_range, BkgGen.C205_above, BkgGen.C205_close, BkgGen.C205_deep_false, BkgGen.C205_deep_partial, BkgGen.C206_linear_false, BkgGen.C206_linear_outside_partial, BkgGen.C206_log_outside, BkgTable.C239_false, BkgTable.C239_partial, BkgTable.C240_bounds, BkgTable.C240_nodes, BkgTable.C240_value, BkgTable.C241, BkgTable.C242_false, BkgTable.C242_lines, BkgTable.C242_partial, BkgTable.C242_positive, BkgTable.C243_false, BkgTable.C243_partial, BkgTable.C244_diag, BkgTable.C244_lookup, BkgTable.C244_norm, BkgTable.C244_offdiag, BkgTable.load_ok_iff, Calibrate.C140_run_is_elsewhere, CatTask.C245_false, CatTask.C245_false_number, CatTask.C245_false_other, CatTask.C245_lost, CatTask.C245_other_partial, CatTask.C245_partial, CatTask.C245_tiles_partial, CatTask.C246_false, CatTask.C246_partial, CatTask.C246_runcat, CatTask.C247_false, CatTask.C247_keeps, CatTask.C247_needs, CatTask.C247_partial, CatTask.C247_runcat, CatTask.C247_writes, CatTask.C247_zscan, CatTask.C248_false, CatTask.C248_none, CatTask.C249_false, CatTask.C249_false_negative, CatTask.C249_partial, CatTask.C250_false, CatTask.C250_partial, CatTask.C251_mask_false, CatTask.C251_mask_partial, CatTask.C251_seeds, CatTask.C251_spec_false, CatTask.C252_false, CatTask.C252_false_sky, CatTask.C252_names, CatTask.C252_partial, CatTask.C252_print, CatTask.C253_beyond, CatTask.C253_false, CatTask.C253_partial, Catalog.C22_add_fields, Catalog.C79_set_column, Catalog.C80_construct, Catalog.C82_fields, Catalog.C82_view, Centering.C24_normalised_partial, Centering.C24_qmiss_false, Centering.C24_qmiss_not_reported, Centering.C25_bcg, Centering.C430_false, Centering.C430_least, Centering.C430_partial, Centering.C83_exhaustive, Centering.C83_none, Centering.C84_answers, Centering.C84_no_candidate_false, Centering.C84_no_center, Centering.C85_zspec_false, Centering.C86_random_satellite, Centering.C87_candidates, Chisq.C108_false, Chisq.C109, Chisq.C409_false, Chisq.C409_partial, Chisq.C58_cobs, Chisq.C58_false, Chisq.C58_modes01, Chisq.C58_partial, Chisq.C58_total, Chisq.C59, Chisq.C59_lkhd, Chisq.C59_sentinel, Chisq.C60_accepts, Chisq.C60_checked, Chisq.C60_partial, Chisq.LibOK_exists, Chisq.chisq_mono, Chisq.fix_quad, Chisq.fix_repair, Chisq.fix_same, Chisq.readCov_model, ClusCat.C302, ClusCat.C302_zeros, ClusCat.C303_has_partial, ClusCat.C303_partial, ClusCat.C304_column_partial, ClusCat.C304_false, ClusCat.C304_partial, ClusCat.C305, ClusCat.C306_columns_partial, ClusCat.C306_false, Cluster.C125_colour, Cluster.C125_members, Cluster.C125_values, Cluster.C126_history_free, Cluster.C126_history_free_index, Cluster.C127_set_neighbors_false, Cluster.C128_copy_false, Cluster.C128_copy_partial, Cluster.C129_error, Cluster.C129_no_error, Cluster.C130_false, Cluster.C131_error_unusable, Cluster.C131_fit, Cluster.C132_brighter, Cluster.C132_chisq_one, Cluster.C132_positive, Cluster.C132_radial, Cluster.C133_false, Cluster.C133_nonneg, Cluster.C134_find, Cluster.lambdaCerr_spec, Cluster.nfwIn_pos, Cluster.nfwOut_pos, ColGen.C285_cells2, ColGen.C285_cells3, ColGen.C285_color, ColGen.C285_pair, ColGen.C286_below, ColGen.C286_false, ColGen.C286_partial, ColGen.C287_color, ColGen.C287_false, ColGen.C287_pair, ColorFit.C428_probabilities, ColorFit.C428_refused, ColorFit.argminR_innermost, ColorRun.C345_false, ColorRun.C345_mode, ColorRun.C345_partial, ColorRun.C346_false, ColorRun.C346_partial, Config.C37_attrs_partial, Config.C37_construct_false, Config.C37_d_partial, Config.C37_false, Config.C39_false, Config.C39_partial, Config.C39_slope, Config.C93_injective, Config.C95_border_partial, Config.C95_gamma_false, ConsFiles.C335_empty_false, ConsFiles.C335_false, ConsFiles.C335_files_partial, ConsFiles.C336_false, ConsFiles.C336_own_partial, ConsFiles.C336_plots_partial, ConsFiles.C337_false, ConsFiles.C337_runcat_partial, ConsSpec.C416, ConsSpec.C416_runcat, ConsSpec.C417_false, ConsSpec.C417_lost, ConsSpec.C417_partial, ConsSpec.C418_false, Consolidate.C17_C18_consolidate, Consolidate.C17_nothing_kept, Consolidate.C19_empty_cut_fails, Consolidate.C19_one_numbering_partial, Consolidate.C19_scaleval_false, Consolidate.C20_one_pixel, Consolidate.C68_choice, Consolidate.C68_coarse_table_false, Consolidate.C68_fewer_than_processes, Consolidate.C68_split_covers_partial, DLambda.C347_first, DLambda.C348_error, DLambda.C348_false, DLambda.C348_partial, DepthFit.C207_false, DepthFit.C207_limit_partial, DepthFit.C208_determined, DepthFit.C209_false, DepthFit.C209_fit_partial, DepthFit.C210_empty_false, DepthFit.C210_fails, DepthFit.C210_no_error_partial, DepthFit.C210_outliers, DepthFit.C210_selection_partial, DepthFit.C210_start, DepthFit.C211_same_problem, DepthFit.C211_zeropoint, DepthFit.C212_init, DepthFit.C212_maskdepth, DepthFit.C213_boot_false, DepthFit.C213_errors_partial, DepthFit.C213_trial, DepthFit.C213_trials, DepthFit.calc_example, ErrModel.C349_faint, ErrModel.C349_noiseless, ErrModel.C350_bias, ErrModel.C350_false, ErrModel.C350_same, Finders.C15_rank_by_id, Finders.C15_rank_by_likelihood, Finders.C16_sum_partial, Finders.C16_uncalibrated_false, Finders.C326, Finders.C327_output, Finders.C66_low_likelihood_false, Finders.C66_scan_partial, Finders.C75_firstpass, Finders.C77_color_mode, Finders.C78_on_bound_false, Finders.C78_spec_modes_partial, Fitters.C163_construct, Fitters.C163_fit, Fitters.C164_false, Fitters.C164_false_color, Fitters.C164_false_default, Fitters.C164_false_fit, Fitters.C164_false_second, Fitters.C164_function_partial, Fitters.C165_false, Fitters.C165_fit_partial, Fitters.C166_color_partial, Fitters.C166_false, Fitters.C167_corrections, Fitters.C167_fit, Fitters.C168_mixture, Fl32.C410, Fl32.C410_cut, Fl32.C411_cut_partial, Fl32.C411_false, Fl32.C411_lost_false, Fl32.C411_partial, Fl32.C412_false, Fl32.C412_partial, Fl32.C413_false, Fl32.C413_partial, Fl32.C414_false, Fl32.C414_nan, Fl32.C414_partial, Fl32.C414_sound, Fl32.C415, Fl32.C415_rows, FlBins.C388_false, FlBins.C388_partial, FlBins.C389, FlBins.C390_false, FlBins.C390_partial, FlBins.C391, FlBins.C392, FlErr.C395, FlErr.C395_limit, FlErr.C395_solver, FlExact.C384, FlExact.C385, FlExact.C386, FlExact.C387_close, FlExact.C387_equal, FlExact.r64_accurate, FlNodes.C396, FlSample.C393, FlSample.C394_false, FlSample.C394_partial, FlSolver.C378, FlSolver.C379_memberships, FlSolver.C379_weights, FlSolver.C380_reported, FlSolver.C380_soft, FlSolver.C380_start, FlSolver.C381, FlSolver.C382, FlSolver.C383_false, FlSolver.C383_partial, FlSolver.r64_rounding, FlSpline.C401, FlSpline.C402_node_false, FlSpline.C402_partial, FlSpline.C403, FlSpline.C403_between, FlSpline.C404, ForkPool.C276_partial, ForkPool.C277, ForkPool.C278_false, ForkPool.C278_nodir_false, ForkPool.C278_partial, GalMaker.C31_files, GalMaker.C31_never_overwrites, GalMaker.C31_order, GalMaker.C32_galaxies, GalMaker.C32_nothing_lost, GalMaker.C33_parallel_false, GalMaker.C33_parallel_partial, GalMaker.C33_unique, GalMaker.C34_false, GalMaker.C34_stale_lock, GalMaker.C34_table_partial, GalMaker.C434_again, GalMaker.C434_failed, GalMaker.C434_false, GalMaker.C434_success, GalMaker.C435_false, GalMaker.C435_partial, GalMaker.C435_success, GalMaker.C91_only_valid, GalRead.C121, GalRead.C121_none, GalRead.C121_plain, GalRead.C122_partial, GalRead.C69, GalRead.C69_empty_false, GalRead.C69_whole, GalStats.C265_false, GalStats.C265_index, GalStats.C265_partial, GalStats.C266_false, GalStats.C266_partial, GalStats.C267, GalStats.C268_false, GalStats.C268_partial, GalStats.group_some, HistoGauss.C315_false, HistoGauss.C315_negative, HistoGauss.C315_partial, HistoGauss.C316_false, HistoGauss.C316_partial, HistoGauss.C317, HistoGauss.C318, HistoGauss.C318_exact, HistoGauss.foldTails_iff, HistoGauss.polyOK_exists, HistoGauss.resid_neg, IdWidth.C420_false, IdWidth.C420_mixed_false, IdWidth.C420_other, IdWidth.C420_partial, LikeCen.C405_false, LikeCen.C405_inside, LikeCen.C405_partial, LikeCen.C405_rejected, LikeCen.C405_stop_false, LikeCen.C406, LikeCen.C407, LikeCen.C407_ties_false, LikeCen.C408, LogFile.C319_console, LogFile.C319_false, LogFile.C319_partial, LogFile.C320_false, LogFile.C320_partial, LogFile.C320_restart, LogFile.C320_shared, LogFile.C321_false, LogFile.C321_partial, LumFilt.C357_deeper, LumFilt.C357_false, LumFilt.C357_partial, MakerInit.C436, MakerInit.C436_errors, MakerInit.C437_false, MakerInit.C437_partial, MakerInit.C437_values, Maps.C214_coverage, Maps.C214_errors, Maps.C214_readable_false, Maps.C214_readable_partial, Maps.C215_values, Maps.C215_zmax_false, Maps.C215_zmax_partial, Maps.C216_own_mask_partial, Maps.C216_tenths, Maps.C219_cover, Maps.C219_rich_false, Maps.C220_own_sample, Maps.C220_soft, Maps.C221_positions, Mask.C102_maskfrac, Mask.C102_theta, Mask.C103_maps, Mask.C103_uncovered, Mask.C104_limit, Mask.C104_positive, Mask.C105_rescaled, Mask.C105_same, Mask.C47, Mask.C47_calc, Mask.C48_excess, Mask.C48_false, Mask.C48_partial, Mask.C48_single_false, Mask.C49_excess, Mask.C49_false, Mask.C49_partial, Mask.C50_beyond, Mask.C50_false, Mask.C50_partial, Mask.C51, Mask.C52, Mask.median_spec, MaskErr.C429_false, MaskErr.C429_partial, MaskErr.C429_value, MaskGen.C288_distribution_false, MaskGen.C288_distribution_partial, MaskGen.C289_galaxy_partial, MaskGen.C289_norm, MaskGen.C289_ratio, MaskGen.C290_uniform, MaskGen.C291_two_bands, MaskGen.C291_two_bands_false, MedCal.C269_false, MedCal.C269_partial, MedCal.C270_pivot, MedCal.C270_range, MedCal.C270_starts, MedCal.C271, MedCal.C271_width, MedCal.C272_choice, MedCal.C272_equal, MedCal.C272_false, MedCal.C273, MedCal.C274_collision, MedCal.C274_false, MedCal.C274_partial, MemReport.C432, MemReport.C432_location, OffDiag.C307_cost_partial, OffDiag.C307_false, OffDiag.C308_fit, OffDiag.C308_history, OffDiag.C309_false, OffDiag.C309_partial, OffDiag.C310_false, OffDiag.C310_partial, OffDiag.checks_iff, OffDiag.det_pos, OffDiag.eigOK_exists, Perc.C367_false, Perc.C367_pairs, Perc.C367_partial, Perc.C367_share, Perc.C368_false, Perc.C368_formula, Perc.C368_partial, Perc.C369_kept, Perc.C369_values, Perc.C370_false, Perc.C370_partial, PercCen.C371_false, PercCen.C371_partial, PercCen.C372_false, PercCen.C372_partial, PercCen.C373_false, PercCen.C373_partial, PercCen.C373_redshift, PercRun.C374_false, PercRun.C374_partial, PercRun.C375, PhotMap.C358_false, PhotMap.C358_fractions, PhotMap.C358_partial, PhotMap.C359_false, PhotMap.C359_partial, PhotMap.C359_single, PhotMap.C360_false, PhotMap.C360_partial, PhotMap.C360_wide, PhotMap.C361_false, PhotMap.C361_partial, PhotMap.C362_plot, PixRun.C397, PixRun.C398_keepz_false, PixRun.C398_once, PixRun.C398_partial, PixRun.C399_false, PixRun.C399_partial, PixRun.C400_partial, PixRun.C400_uncalibrated_false, PixelTasks.C35_complete_partial, PixelTasks.C35_safe_partial, PixelTasks.C35_timeout_false, PixelTasks.C44_false, PixelTasks.C44_nperproc, PixelTasks.C44_partial, PixelTasks.C44_ranges, PixelTasks.C46_lines_up, PixelTasks.C46_made_iff, PixelTasks.C46_task_table, Plots.C292_foreign_false, Plots.C292_members_false, Plots.C292_members_partial, Plots.C293_curves, Plots.C293_outliers, Plots.C294_row, Plots.C294_smooth, Plots.C295_area, Plots.C295_bins, Plots.C295_density, Plots.C296_distribution, Plots.C296_sample, Plots.C296_zero, Plots.C297_count_partial, Plots.C297_rich_false, PyWrap.C260_partial, PyWrap.C261_attr, PyWrap.C261_false, PyWrap.C261_partial, PyWrap.C262_compute_partial, PyWrap.C262_init, PyWrap.C263_partial, RandOut.C298_names_false, RandOut.C298_names_partial, RandOut.C299_area_false, RandOut.C299_area_partial, RandOut.C300_points_false, RandOut.C300_points_partial, RandOut.C301_failed, RandOut.C301_files_false, RandOut.C301_files_partial, RandOut.C301_single, RandOut.C301_stale, Randoms.C107, Randoms.C53, Randoms.C53_never_more, Randoms.C53_redmagic, Randoms.C54_false, Randoms.C54_redmagic, Randoms.C55, Randoms.C55_errors, Randoms.C55_lost, Randoms.selectRands_ok, RedRun.C145_names, RedRun.C146_false, RedRun.C146_names_partial, RedSeqCal.C169_order, RedSeqCal.C170_lupcorr, RedSeqCal.C171_all_bands, RedSeqCal.C171_plain, RedSeqCal.C171_ratios, RedSeqCal.C172_bins, RedSeqCal.C172_startvals, RedSeqCal.C173_slopes, RedSeqCal.C174_covariance_partial, RedSeqCal.C174_elements, RedSeqCal.C174_false, RedSeqCal.C175_volume, RedSeqCal.C176_cut_partial, RedSeqCal.C176_false, RedSeqCal.C177_corrections, RedSeqCal.C177_outliers, RedSeqCal.makeNodes_last, RedSequence.C110, RedSequence.C56_false, RedSequence.C56_mstar, RedSequence.C56_nearest, RedSequence.C56_partial, RedSequence.C56_range, RedSequence.C56_valid, RedSequence.C57_false, RedSequence.C57_partial, RedSequence.C57_two, RedSequence.C57_weak, RedSequence.integers_sorted, Redmagic.C118, Redmagic.C118_complete, Redmagic.C118_crash, Redmagic.C118_false, Redmagic.C118_split, Redmagic.C119_false, Redmagic.C119_partial, Redmagic.C120_false, Redmagic.C120_name, Redmagic.C120_partial, Redmagic.C120_run_name, Redmagic.C65, Redmagic.C65_luminosity, RmAfter.C351_fit, RmAfter.C351_history, RmAfter.C352_afterburner, RmAfter.C352_counts, RmAfter.C352_none, RmAfter.C353_false, RmAfter.C353_partial, RmAfter.C353_stays, RmCal.C222_cost, RmCal.C222_zero, RmCal.C223_bins, RmCal.C223_centers, RmCal.C223_end_false, RmCal.C223_range, RmCal.C223_within_false, RmCal.C223_within_partial, RmCal.C224_area_partial, RmCal.C224_end_false, RmCal.C225_near, RmCal.C225_start_partial, RmCal.C226_train, RmCal.C227_calib, RmCal.C228_cost_false, RmCal.C228_recorded, RmCal.C229_masks_partial, RmCal.C229_only_partial, RmRun.C283_false, RmRun.C283_none, RmRun.C283_partial, RmRun.C283_read, RmRun.C284_calibration, RmRun.C284_false, RmRun.C284_partial, RmRun.C284_selection, RmSel.C341_false, RmSel.C342_false, RmSel.C342_repeated, RmTask.C322_false, RmTask.C322_partial, RmTask.C323_false, RmTask.C323_late, RmTask.C323_partial, RmTask.C323_succeeds, RmTask.C323_unknown, RmTask.C324_false, RmTask.C324_partial, RmTask.cat_rand, RsDiag.C363_bins, RsDiag.C363_false, RsDiag.C363_outliers, RsDiag.C363_partial, RsDiag.C363_points, RsDiag.C364_false, RsDiag.C364_partial, RsDiag.C365_false, RsDiag.C365_partial, RsDiag.C365_range, RsDiag.C366_fit, RsDiag.C366_raw, RsFile.C230, RsFile.C231_false, RsFile.C231_partial, RsFile.C233_false, RsFile.C233_partial, RsFile.C234_false, RsFile.C234_partial, RsFile.C235, RsFile.C235_colors, RsFile.C236, RsFile.C237_false, RsFile.C237_partial, RsFile.C238_catalog, RsFile.C238_false, RsFile.C238_partial, RsFile.C238_redshifts, Runner.C09_availability_partial, Runner.C09_overuse_false, Runner.C11_ids_partial, Runner.C12_postprocess, Runner.C12_run, Runner.C14_inside_is_masked, Runner.C14_mask_radius, Runner.C72_locality, Runner.C73_members, Setup.C187_false_redshift, Setup.C187_false_richness, Setup.C187_radius_partial, Setup.C188_false, Setup.C188_luminosity_partial, Setup.C189_derivatives_partial, Setup.C189_false, Setup.C189_invalid, Setup.C190_centers_partial, SkyMap.C279_file, SkyMap.C280, SkyMap.C281_false, SkyMap.C281_read, SkyMap.C281_region, SkyMap.C281_restrict, SkyMap.C281_whole, SkyMap.C282_partial, Solver.C01_richness_range, Solver.C02_exactly_17_steps, Solver.C03_bracket, Solver.C03_unique_crossing, Solver.C04_unit_interval, Solver.C05_hard_cut_partial, Solver.C05_theta_outside_false, Solver.C06_permutation, Solver.C07_zero_weight, Solver.C08_constructor, Solver.C70_more_available, Solver.C70_more_neighbours, Solver.C71_probabilities_near_richness, SpecPrep.C148_members, SpecPrep.C149_false, SpecPrep.C149_marker_partial, SpecPrep.C151_false, SpecPrep.C152_color_training, SpecRed.C192_range, SpecRed.C192_training, SpecRed.C193_false, SpecRed.C193_trim_partial, SpecRed.C194_independent, SpecRed.C195_color, SpecRed.C195_fit, SpecRed.C195_median, SpecRed.C196_truncation, SpecRed.C197_false, SpecRed.C197_selection_partial, SpecRed.C198_bins, SpecRed.C198_errors, SpecRed.C198_fit, SpecRed.C198_recovers, SpecRed.C198_units, Survey.C422, Survey.C422_empty, Survey.C423, Survey.C424, TileSum.C425_chains, TileSum.C425_false, TileSum.C425_partial, TileSum.C426_false, TileSum.C426_partial, Tiles.C376_false, Tiles.C376_partial, Tiles.C377, Utilities.C26_interpol, Utilities.C27_conserves, Utilities.C27_weights, Utilities.C28_low_maxnode, Utilities.C28_nodes_partial, Utilities.C28_one_node_false, Utilities.C29_nodes, Utilities.C30_returns, Utilities.C30_returns_bound, Utilities.C67_member_file_partial, Utilities.C67_rstrip_false, Utilities.C88_average, Utilities.C89_smooth, Utilities.C90_first_point_false, Utilities.C90_sample_partial, VlimMap.C338_false, VlimMap.C338_row, VlimMap.C339_false, VlimMap.C339_partial, VlimMap.C339_redshifts, VlimMap.C340_false, VlimMap.C340_partial, WcenCal.C179_cuts, WcenCal.C180_false, WcenCal.C180_widths_partial, WcenCal.C181_connectivity_partial, WcenCal.C181_false_m, WcenCal.C181_false_w, WcenCal.C181_magnitude_partial, WcenCal.C181_start, WcenCal.C182_false, WcenCal.C182_files_partial, WcenCal.C183_constructor, WcenCal.C184_false, WcenCal.C184_iterations_partial, WcenCal.C185_brightest_partial, WcenCal.C185_false, WcenCal.C186_applied_partial, WcenCal.C186_false, WcenLike.C254, WcenLike.C255, WcenLike.C255_around, WcenLike.C255_floor_false, WcenLike.C256_false, WcenLike.C256_probabilities, WcenLike.C256_signs, WcenLike.C256_values, WcenLike.C257, WcenLike.C257_range_false, WcenLike.C258_bcg, WcenLike.C258_false, WcenLike.C258_partial, WcenLike.C259, ZlamCal.C154_fit, ZlamCal.C154_scatter, ZlamCal.C154_sequence, ZlamCal.C155_bins, ZlamCal.C156_fitted, ZlamCal.C156_iterations, ZlamCal.C156_total, ZlamCal.C157_errors_partial, ZlamCal.C157_false, ZlamCal.C158_false, ZlamCal.C158_richness_partial, ZlamCal.C159_outliers, ZlamPar.C312_grid, ZlamPar.C312_tables, ZlamPar.C313_false, ZlamPar.C313_partial, ZlamPar.C314_false, ZlamPar.C314_partial, Zlambda.C111_false, Zlambda.C111_partial, Zlambda.C111_window_partial, Zlambda.C112_false, Zlambda.C113_fast, Zlambda.C113_fast_false, Zlambda.C113_slow, Zlambda.C113_values, Zlambda.C114_false, Zlambda.C114_high, Zlambda.C114_low, Zlambda.C114_only, Zlambda.C115_false, Zlambda.C115_ignored, Zlambda.C115_partial, Zlambda.C116_false, Zlambda.C116_partial, Zlambda.C117, Zlambda.C61, Zlambda.C62_false, Zlambda.C62_partial, Zlambda.C62_vertex, Zlambda.C62_window, Zlambda.C63_bins, Zlambda.C63_error, Zlambda.C63_one, Zlambda.C63_quadrature, Zlambda.C63_shift, Zlambda.C63_succeeds, Zlambda.C64_failure, Zlambda.C64_false, Zlambda.C64_pz_partial, Zlambda.gaussianErr_range, Zlambda.pzCheck_err, Zlambda.pzCheck_peak, Zred.C100_partial, Zred.C100_window, Zred.C101_false, Zred.C343_agree, Zred.C343_bound, Zred.C343_false, Zred.C343_partial, Zred.C344_chisq, Zred.C344_lkhd, Zred.C45_false, Zred.C99_moments, Zred.C99_range, Zred.C99_reset_iff, ZredFile.C431_false, ZredFile.C431_file, ZredFile.C431_partial, ZredFile.C431_twice, ZredFile.C431_whole, ZredPz.C354_novolume, ZredPz.C354_posterior, ZredPz.C355_bins, ZredPz.C356_false, ZredPz.C356_partial, Zscan.C160_record, Zscan.C160_steps, Zscan.C161_false, Zscan.C161_no_miss_partial, Zscan.C162_refine, Zscan.logOK_real.
