/-
Model of one galaxy cluster and its richness computation.

  /repo/redmapper/cluster.py
  /repo/redmapper/utilities.py (filter functions)

Simplifications: arithmetic is exact; the red-sequence, background, cosmology and mask lookups are
parameters of the environment `Env`; a background of infinity is `none`; NaNs do not occur except
where a 0/0 of the colour-only probability is reset by the code.
-/
import Verif.Model.Solver
import Verif.Model.Finders
import Mathlib.Analysis.SpecialFunctions.Pow.Real
import Mathlib.Analysis.SpecialFunctions.Trigonometric.Arctan
import Mathlib.Analysis.SpecialFunctions.Gamma.Basic

namespace Redmapper.Cluster

/-! ## The filters (utilities.py), over the reals -/

noncomputable section

/-- utilities.py:48-66 `chisq_pdf` for one value. -/
def chisqPdf (k x : ℝ) : ℝ :=
  (1 / ((2 : ℝ) ^ (k / 2) * Real.Gamma (k / 2))) * x ^ (k / 2 - 1) * Real.exp (-x / 2)

/-- utilities.py:92-111 `schechter_pdf` for one magnitude. -/
def schechterPdf (alpha mstar x : ℝ) : ℝ :=
  (10 : ℝ) ^ ((4 / 10) * (alpha + 1) * (mstar - x)) * Real.exp (-(10 : ℝ) ^ ((4 / 10) * (mstar - x)))

/-- utilities.py:144-147 and 150-153: the profile inside the scale radius. -/
def nfwIn (x : ℝ) : ℝ :=
  let arg := Real.sqrt ((1 - x) / (1 + x))
  let pre := 2 / Real.sqrt (1 - x ^ 2)
  let front := 1 / (x ^ 2 - 1)
  front * (1 - pre * (1 / 2) * Real.log ((1 + arg) / (1 - arg)))

/-- utilities.py:156-159: the profile outside the scale radius. -/
def nfwOut (x : ℝ) : ℝ :=
  let arg := Real.sqrt ((x - 1) / (x + 1))
  let pre := 2 / Real.sqrt (x ^ 2 - 1)
  let front := 1 / (x ^ 2 - 1)
  front * (1 - pre * Real.arctan arg)

/-- utilities.py:113-174 `nfw_pdf` for one radius: the four index sets in the order in which they
are filled (a later assignment overwrites an earlier one). -/
def nfwPdf (rscale corer : ℝ) (radfactor : Bool) (r : ℝ) : ℝ :=
  let x := r / rscale
  let c := corer / rscale
  let s0 : ℝ := 0
  let s1 := if x < c then nfwIn c else s0
  let s2 := if c ≤ x ∧ x ≤ 999 / 1000 then nfwIn x else s1
  let s3 := if 1001 / 1000 ≤ x ∧ x < 10 / rscale then nfwOut x else s2
  let s4 := if 999 / 1000 < x ∧ x < 1001 / 1000 then
    (nfwIn (999 / 1000) + nfwOut (1001 / 1000)) / 2 else s3
  if radfactor then s4 * (2 * Real.pi * r) else s4

end

/-! ## The cluster and its neighbours -/

variable {α : Type}

/-- The mutable columns of one neighbour together with its fixed catalogue row `g`
(cluster.py:188-199). -/
structure Nb (G α : Type) where
  g : G
  refmag : α
  refmagErr : α
  pfree : α
  dist : α
  r : α
  chisq : α
  thetaI : α
  thetaR : α
  p : α
  pcol : α
  pmem : α
  index : Int
deriving DecidableEq, Repr

/-- A mask galaxy as `calc_lambdacerr` reads it (cluster.py:594-600). -/
structure MGal (α : Type) where
  r : α
  mark : Bool
  m : α
  cwt : α
  nfw : α
  lumwt : α
  chisq : α

/-- Everything outside the cluster object that its methods consult. -/
structure Env (G P α : Type) where
  /-- great-circle distance in degrees (`esutil.coords.sphdist`) -/
  sph : P → P → α
  pos : G → P
  /-- `zredstr.mstar` and `radians(1) * cosmo.Da(0, z)` -/
  mstarOf : α → α
  mpcOf : α → α
  /-- `zredstr.calculate_chisq` of one galaxy at a redshift -/
  chisqOf : G → α → α
  /-- `chisq_pdf(.., ncol)` -/
  rho : α → α
  /-- `nfw_pdf` -/
  nfw : α → α
  /-- `_calc_luminosity` (redshift, normalisation magnitude, magnitude) -/
  phi : α → α → α → α
  /-- `bkg.sigma_g_lookup` (redshift, chi-squared, magnitude) -/
  sigma : α → α → α → Option α
  /-- `calc_theta_i` (magnitude, error, maxmag, limmag) -/
  theta : α → α → α → α → α
  /-- `mask.calc_maskcorr` (mstar, maxmag, limmag): the four coefficients, highest power first -/
  maskcorr : α → α → α → α × α × α × α
  twopi : α
  /-- `2.5 * log10(lval_reference)` -/
  lval : α
  limmag : α
  /-- radius, filter normalisation and soft edge of the solver -/
  rlam : α → α
  nfwnorm : α → α
  soft : α → α
  rsig : α
  maskgals : List (MGal α)
  beta : α
  gamma : α
  sqrt : α → α

/-- The state of a `Cluster` (cluster.py:95-156): position, current redshift with the two derived
scales, the neighbours and the catalogue values the richness methods write. -/
structure Cl (G P α : Type) where
  pos : P
  z : Option α
  mstar : Option α
  mpc : Option α
  nbs : Option (List (Nb G α))
  Lambda : α
  LambdaE : α
  rLambda : α
  scaleval : α
deriving DecidableEq, Repr

inductive Err where
  | value
  | type
  | name
  | index
deriving DecidableEq, Repr

/-! ### Redshift, neighbours and distances -/

section Geometry
variable [Field α] [LinearOrder α] {G P : Type}

/-- cluster.py:830-838 `_compute_neighbor_r`. -/
def computeR (c : Cl G P α) : Cl G P α :=
  match c.nbs, c.z, c.mpc with
  | some l, some _, some k =>
      { c with nbs := some (l.map fun n => { n with r := max (k * n.dist) (1 / 1000000) }) }
  | _, _, _ => c

/-- cluster.py:785-801, the `redshift` setter (with 812-814 `_update_mstar` and 823-828
`_update_mpc_scale`). -/
def setZ (E : Env G P α) (z : α) (c : Cl G P α) : Except Err (Cl G P α) :=
  if z < 0 then .error .value
  else
    let z' := max z (1 / 100)
    .ok (computeR { c with z := some z', mstar := some (E.mstarOf z'), mpc := some (E.mpcOf z') })

/-- A row of a galaxy catalogue offered as neighbours: the extra columns may already exist
(`some`) or not (`none`). -/
structure Row (G α : Type) where
  g : G
  refmag : α
  refmagErr : α
  r : Option α := none
  dist : Option α := none
  chisq : Option α := none
  pfree : Option α := none
  thetaI : Option α := none
  thetaR : Option α := none
  p : Option α := none
  pcol : Option α := none
  pmem : Option α := none
  index : Option Int := none

/-- cluster.py:186-215: missing columns are added as zeros, PFREE as ones. -/
def toNb (w : Row G α) : Nb G α :=
  { g := w.g, refmag := w.refmag, refmagErr := w.refmagErr,
    pfree := w.pfree.getD 1, dist := w.dist.getD 0, r := w.r.getD 0, chisq := w.chisq.getD 0,
    thetaI := w.thetaI.getD 0, thetaR := w.thetaR.getD 0, p := w.p.getD 0, pcol := w.pcol.getD 0,
    pmem := w.pmem.getD 0, index := w.index.getD 0 }

/-- cluster.py:173-215 `set_neighbors`; `none` is Python's None (cluster.py:183-184). -/
def setNeighbors (rows : Option (List (Row G α))) (c : Cl G P α) : Cl G P α :=
  { c with nbs := rows.map fun l => l.map toNb }

/-- cluster.py:243-246: the magnitude cut on the matches. -/
def keepBright (cat : List (Row G α)) (maxmag : Option α) (m : List (Nat × α)) : List (Nat × α) :=
  match maxmag with
  | none => m
  | some x => m.filter fun q => match cat[q.1]? with
      | some w => decide (w.refmag ≤ x)
      | none => false

/-- cluster.py:241-254, with the radius in degrees. -/
def findDeg (matchOne : P → α → List (Nat × α)) (cat : List (Row G α)) (maxmag : Option α) (c : Cl G P α)
    (deg : α) : Cl G P α :=
  computeR { c with nbs := some ((keepBright cat maxmag (matchOne c.pos deg)).filterMap fun q =>
    (cat[q.1]?).map fun w => { toNb w with dist := q.2, index := (q.1 : Int) }) }

/-- cluster.py:217-254 `find_neighbors` (radius and catalogue given).  `matchOne` is
`galcat.match_one`: indices into the catalogue and distances in degrees.  In megaparsec mode an
unset scale is a TypeError. -/
def findNeighbors (matchOne : P → α → List (Nat × α)) (cat : List (Row G α)) (radius : α)
    (mpcMode : Bool) (maxmag : Option α) (c : Cl G P α) : Except Err (Cl G P α) :=
  if mpcMode then
    match c.mpc with
    | none => .error .type
    | some k => .ok (findDeg matchOne cat maxmag c (radius / k))
  else .ok (findDeg matchOne cat maxmag c radius)

/-- cluster.py:256-264 `update_neighbors_dist`; without neighbours an AttributeError (reported as
`Err.type`). -/
def updateDist (E : Env G P α) (c : Cl G P α) : Except Err (Cl G P α) :=
  match c.nbs with
  | none => .error .type
  | some l => .ok (computeR { c with nbs := some (l.map fun n => { n with dist := E.sph c.pos (E.pos n.g) }) })

/-- cluster.py:95-156 followed by cluster.py:852-862 `__copy__`: a new cluster with zeroed
catalogue values `zero` (cluster.py:124-132) and deep-copied neighbours; its redshift is unset
because the zeroed catalogue has z = 0. -/
def rawCopy (zero : P) (c : Cl G P α) : Cl G P α :=
  { pos := zero, z := none, mstar := none, mpc := none, nbs := c.nbs,
    Lambda := 0, LambdaE := 0, rLambda := 0, scaleval := 0 }

/-- cluster.py:840-850 `copy`: assigning an unset redshift compares None with 0, a TypeError. -/
def copy (E : Env G P α) (zero : P) (c : Cl G P α) : Except Err (Cl G P α) :=
  match c.z with
  | none => .error .type
  | some z => setZ E z (rawCopy zero c)

end Geometry

/-! ### Richness -/

section Richness
variable [Field α] [LinearOrder α] {G P : Type}

/-- Rows `idx` of a table. -/
def gather {β : Type} (l : List β) (idx : List Nat) : List β := idx.filterMap fun i => l[i]?

/-- `column[idx] = values` for a list of rows, one after the other (numpy fancy assignment). -/
def scatter {β γ : Type} (f : β → γ → β) : List β → List Nat → List γ → List β
  | l, i :: is, v :: vs =>
      scatter f (match l[i]? with | some b => l.set i (f b v) | none => l) is vs
  | l, _, _ => l

/-- cluster.py:322-341 `calc_bkg_density` of one galaxy. -/
def bkgDensity (E : Env G P α) (z mpc r chisq refmag : α) : Option α :=
  (E.sigma z chisq refmag).map fun s => E.twopi * r * (s / (mpc * mpc))

/-- cluster.py:565-630 `calc_lambdacerr`; `pmem2` is the sum of the squared probabilities.  The
radial normalisation (cluster.py:603-606) is the solver's. -/
def lambdaCerr (E : Env G P α) (z mstar mpc lam rlam : α) (pmem : List α) (cval : α) : α :=
  let use := E.maskgals.filter fun g => decide (g.r < rlam)
  let norm := E.nfwnorm rlam
  let out := use.filter fun g => decide (E.limmag < mstar + g.m) || !g.mark
  if out = [] ∨ cval < 1 / 100 then 0
  else
    let pOut := out.map fun g =>
      let u := g.cwt * (norm * g.nfw) * g.lumwt
      let refmag := mstar + g.m
      let refmagB := if E.limmag ≤ refmag then E.limmag - 1 / 100 else refmag
      match bkgDensity E z mpc g.r g.chisq refmagB with
      | none => 0
      | some b => lam * u / (lam * u + b)
    let varc0 := (1 / lam) * (1 / (use.length : α)) * pOut.sum
    let sigc := E.sqrt (varc0 - varc0 * varc0)
    let k := lam * lam / (pmem.map fun x => x * x).sum
    k * sigc / (1 - E.beta * E.gamma)

/-- cluster.py:525-526: the mask correction handed to the error computation, `sum(cpars *
rlam**arange(4))` clipped at 0. -/
def errCval (cp : α × α × α × α) (rl : α) : α :=
  max (cp.1 * 1 + cp.2.1 * rl + cp.2.2.1 * (rl * rl) + cp.2.2.2 * (rl * rl * rl)) 0

/-- cluster.py:481-496: what the solver is given for one neighbour. -/
def toGal (E : Env G P α) (z mpc maxmag : α) (n : Nb G α) : Solver.Gal α :=
  { u := E.twopi * n.r * E.nfw n.r * E.phi z maxmag n.refmag * E.rho n.chisq
    b := bkgDensity E z mpc n.r n.chisq n.refmag
    r := n.r
    w := E.theta n.refmag n.refmagErr maxmag E.limmag * n.pfree }

/-- cluster.py:503-505: the parameters of the solver. -/
def toPar (E : Env G P α) (cp : α × α × α × α) : Solver.Par α :=
  { rlam := E.rlam, nfwnorm := E.nfwnorm, soft := E.soft, rsig := E.rsig,
    c0 := cp.1, c1 := cp.2.1, c2 := cp.2.2.1, c3 := cp.2.2.2 }

/-- cluster.py:513-517: all neighbours' probabilities are zeroed. -/
def clear (n : Nb G α) : Nb G α :=
  { n with thetaI := 0, thetaR := 0, p := 0, pcol := 0, pmem := 0 }

/-- cluster.py:537-543: the colour-only probability of one neighbour. -/
def pcolOf (E : Env G P α) (z mpc maxmag lam rlam : α) (n : Nb G α) : α :=
  if rlam < n.r ∨ maxmag < n.refmag ∨ E.limmag < n.refmag then 0
  else
    let u := E.rho n.chisq * E.phi z maxmag n.refmag
    match bkgDensity E z mpc n.r n.chisq n.refmag with
    | none => 0
    | some b => if u * lam + b = 0 then 0 else u * lam / (u * lam + b)

/-- cluster.py:545-550: the values of one neighbour in the index. -/
def fill (E : Env G P α) (z mpc maxmag lam rlam : α) (n : Nb G α) (q : Nb G α × Solver.Slot α) :
    Nb G α :=
  { n with
    thetaI := E.theta q.1.refmag q.1.refmagErr maxmag E.limmag
    thetaR := q.2.th
    p := q.2.p
    pcol := pcolOf E z mpc maxmag lam rlam q.1
    pmem := q.2.wt }

/-- cluster.py:458-563 `calc_richness`: the new state and the returned richness.  Unset redshift or
neighbours are a TypeError, an index beyond the neighbours an IndexError, both with the state
unchanged (negative indices are not modelled).  `pmem.max()` of an empty array is a
ValueError (cluster.py:520), raised after the chi-squared and the resets.  The bisection takes 17
steps (C02), so the fuel never runs out. -/
def richness (E : Env G P α) (calcErr : Bool) (index : Option (List Nat)) (c : Cl G P α) :
    Cl G P α × Except Err α :=
  match c.z, c.mstar, c.mpc, c.nbs with
  | some z, some mstar, some mpc, some l0 =>
    let idx := index.getD (List.range l0.length)
    if ∃ i ∈ idx, l0.length ≤ i then (c, .error .index) else
    let maxmag := mstar - E.lval
    let l1 := scatter (fun (n : Nb G α) (x : α) => { n with chisq := x }) l0 idx
      ((gather l0 idx).map fun n => E.chisqOf n.g z)
    let sel := gather l1 idx
    let cp := E.maskcorr mstar maxmag E.limmag
    match Solver.solveFuel (toPar E cp) (sel.map (toGal E z mpc maxmag)) 17 with
    | none => (c, .error .value)
    | some res =>
      let l2 := l1.map clear
      let pmem := res.slots.map Solver.Slot.wt
      if res.lambda < 0 then
        ({ c with nbs := some l2, Lambda := -1, LambdaE := if calcErr then -1 else 0,
                  rLambda := res.rlambda, scaleval := -1 }, .ok (-1))
      else if pmem = [] then ({ c with nbs := some l2 }, .error .value)
      else if pmem.foldl max (pmem.headD 0) = 0 then
        ({ c with nbs := some l2, Lambda := -1, LambdaE := if calcErr then -1 else 0,
                  rLambda := res.rlambda, scaleval := -1 }, .ok (-1))
      else
        let s := pmem.sum
        let bar := (pmem.map fun x => x * x).sum / s
        let sv := |res.lambda / s|
        let un := res.lambda / sv
        let cerr := lambdaCerr E z mstar mpc res.lambda res.rlambda pmem (errCval cp res.rlambda)
        let l3 := scatter (fill E z mpc maxmag res.lambda res.rlambda) l2 idx (sel.zip res.slots)
        ({ c with nbs := some l3, Lambda := res.lambda,
                  LambdaE := if calcErr then E.sqrt ((1 - bar) * un * (sv * sv) + cerr * cerr) else 0,
                  rLambda := res.rlambda, scaleval := sv }, .ok res.lambda)
  | _, _, _, _ => (c, .error .type)

/-! ### The single-colour richness of the first training pass -/

/-- What `calc_richness_fit` consults besides `Env`. -/
structure FitEnv (G α : Type) where
  col : G → α
  colErr : G → α
  colLo : α
  colHi : α
  /-- `2.5 * log10(20)` -/
  bright : α
  rcut : α
  mingal : Nat
  /-- `sqrt(err**2 + sigint**2)` -/
  netErr : α → α
  median : List α → α
  /-- `np.polyfit(.., 1, w=..)` on (magnitude offset, colour, error): slope and intercept -/
  polyfit : List (α × α × α) → α × α
  /-- the normalised Gaussian of `d` with width `e` -/
  gauss : α → α → α
  /-- `cbkg.sigma_g_diagonal` at (colour, magnitude) -/
  csigma : α → α → Option α
  limmagCat : α
  pi : α

/-- cluster.py:668-672: the galaxies used for the fit. -/
def fitUse (F : FitEnv G α) (minmag maxmag : α) (n : Nb G α) : Bool :=
  decide (minmag < n.refmag) && decide (n.refmag < maxmag) && decide (n.r < F.rcut) &&
    decide (F.colLo < F.col n.g) && decide (F.col n.g < F.colHi)

/-- `np.argmin` of the radii: the first neighbour with the smallest radius (0 for an empty list). -/
def argminR (l : List (Nb G α)) : Nat :=
  match l.map Nb.r with
  | [] => 0
  | x :: xs => (x :: xs).idxOf (xs.foldl min x)

/-- cluster.py:343-362 `calc_cbkg_density` of one galaxy. -/
def cbkgDensity (E : Env G P α) (F : FitEnv G α) (mpc : α) (n : Nb G α) : Option α :=
  (F.csigma (F.col n.g) n.refmag).map fun s => E.twopi * n.r * (s / (mpc * mpc))

/-- cluster.py:705-728: what the solver is given for one neighbour (`d` is the distance from the
fitted colour line). -/
def fitGal (E : Env G P α) (F : FitEnv G α) (z mpc maxmag : α) (line : α → α) (n : Nb G α) :
    Solver.Gal α :=
  { u := E.twopi * n.r * F.gauss (F.col n.g - line n.refmag) (F.netErr (F.colErr n.g)) * E.nfw n.r *
      E.phi z maxmag n.refmag
    b := cbkgDensity E F mpc n
    r := n.r
    w := E.theta n.refmag n.refmagErr maxmag F.limmagCat * n.pfree }

/-- cluster.py:757-770: the values stored for one neighbour.  A 0/0 of the colour-only probability
(NaN in the code, not reset there) is 0 here. -/
def fitFill (E : Env G P α) (F : FitEnv G α) (z mpc maxmag : α) (line : α → α) (lam rlam : α)
    (n : Nb G α) (s : Solver.Slot α) : Nb G α :=
  { n with
    thetaI := E.theta n.refmag n.refmagErr maxmag F.limmagCat
    thetaR := s.th
    p := s.p
    pcol :=
      if rlam < n.r ∨ maxmag < n.refmag ∨ F.limmagCat < n.refmag then 0
      else
        let u := F.gauss (F.col n.g - line n.refmag) (F.netErr (F.colErr n.g)) * E.phi z maxmag n.refmag
        match cbkgDensity E F mpc n with
        | none => 0
        | some b => u * lam / (u * lam + b / (E.twopi * n.r) * F.pi * (rlam * rlam))
    pmem := s.wt }

/-- cluster.py:678-691: the colour the fit starts from; `none` if the central galaxy is not among
those used.  `np.argmin` of an empty array is a ValueError. -/
def fitCent (F : FitEnv G α) (minmag maxmag : α) (centcolor : Option α) (l : List (Nb G α)) :
    Except Err (Option α) :=
  match centcolor with
  | some x => .ok (some x)
  | none => match l[argminR l]? with
    | none => .error .value
    | some n => .ok (if fitUse F minmag maxmag n then some (F.col n.g) else none)

/-- cluster.py:632-780 `calc_richness_fit`: the new state and the returned richness.  `rsig = 0` is
the solver's default (cluster.py:730).  An empty neighbour list makes `np.argmin` raise only if the
first test passes, which needs `mingal = 0`; that case is a ValueError.  A sum of probabilities
of 0 makes the scale infinite in the code and 0 here.  With `calc_err` the names `cval` and
`lambda_cerr` are undefined (cluster.py:754-755). -/
def richnessFit (E : Env G P α) (F : FitEnv G α) (centcolor : Option α) (calcErr : Bool)
    (c : Cl G P α) : Cl G P α × Except Err α :=
  match c.z, c.mstar, c.mpc, c.nbs with
  | some z, some mstar, some mpc, some l =>
    let maxmag := mstar - E.lval
    let minmag := mstar - F.bright
    let guse := l.filter (fitUse F minmag maxmag)
    if guse.length < F.mingal then ({ c with scaleval := -1 }, .ok (-10)) else
    match fitCent F minmag maxmag centcolor l with
    | .error e => (c, .error e)
    | .ok none => (c, .ok (-10))
    | .ok (some cc) =>
    let in2 := guse.filter fun n => decide (|F.col n.g - cc| < 2 * F.netErr (F.colErr n.g))
    if in2.length < F.mingal then ({ c with scaleval := -1 }, .ok (-10)) else
    let pivot := F.median (guse.map Nb.refmag)
    let fit := F.polyfit (in2.map fun n => (n.refmag - pivot, F.col n.g, F.colErr n.g))
    let line := fun m => fit.1 * (m - pivot) + fit.2
    let cp := E.maskcorr mstar maxmag F.limmagCat
    match Solver.solveFuel { toPar E cp with rsig := 0 } (l.map (fitGal E F z mpc maxmag line)) 17 with
    | none => (c, .error .value)
    | some res =>
      let l2 := l.map clear
      let s := (res.slots.map Solver.Slot.wt).sum
      if res.lambda < 0 then
        ({ c with nbs := some l2, Lambda := res.lambda, LambdaE := if calcErr then -1 else 0,
                  rLambda := res.rlambda, scaleval := -1 }, .ok res.lambda)
      else if calcErr then
        ({ c with nbs := some l2, scaleval := |res.lambda / s| }, .error .name)
      else
        ({ c with nbs := some (List.zipWith (fitFill E F z mpc maxmag line res.lambda res.rlambda) l2 res.slots),
                  Lambda := res.lambda, LambdaE := 0, rLambda := res.rlambda,
                  scaleval := |res.lambda / s| }, .ok res.lambda)
  | _, _, _, _ => (c, .error .type)

end Richness

/-! ### The local background -/

section Local
variable [Field α] [LinearOrder α]

/-- A mask galaxy as `compute_bkg_local` reads it.  `refmag` is the column last written by
`calc_maskcorr` (mask.py:300-301). -/
structure LGal (α : Type) where
  m : α
  refmag : α
  chisq : α
  chisqPdf : α
  lumPdf : α
  rUniform : α
  mark : Bool
  depth : α

/-- mask.py:300-301 in `calc_maskcorr`: the magnitudes of the mask galaxies for the current mstar. -/
def setMags (mstar : α) (gs : List (LGal α)) : List (LGal α) :=
  gs.map fun g => { g with refmag := g.m + mstar }

/-- A neighbour as `compute_bkg_local` reads it. -/
structure LNb (α : Type) where
  r : α
  refmag : α
  chisq : α
  depth : α

/-- cluster.py:392-456 `compute_bkg_local`; `mark` and `depth` of the mask galaxies are evaluated at
the cluster position, `sig` is the background lookup at the cluster redshift, `chimax` the largest
chi-squared of the mask galaxies.  (`maskgals_refmag` of cluster.py:413 is not used by the code.) -/
def bkgLocal (sig : α → α → Option α) (pi lval r0 r1 chimax mstar mpc : α) (gs : List (LGal α))
    (nbs : List (LNb α)) : α :=
  let maxmag := mstar - lval
  let bright := gs.filterMap fun g => (sig g.chisq g.refmag).bind fun s =>
    if g.refmag < maxmag ∧ 0 < g.chisqPdf ∧ 0 < g.lumPdf ∧ g.refmag < g.depth then
      some (s / (g.chisqPdf * g.lumPdf)) else none
  let prediction := bright.sum / (bright.length : α)
  let ann := gs.filter fun g => decide (r0 < g.rUniform) && decide (g.rUniform < r1)
  let annGd := ann.filter fun g => g.mark
  let area := pi * ((r1 / mpc) * (r1 / mpc) - (r0 / mpc) * (r0 / mpc)) *
    ((annGd.length : α) / (ann.length : α))
  let inAnn := nbs.filter fun n => decide (r0 < n.r) && decide (n.r < r1) &&
    decide (n.refmag < maxmag) && decide (n.chisq < chimax) && decide (n.refmag < n.depth)
  ((inAnn.length : α) / area) / prediction

end Local

end Redmapper.Cluster
