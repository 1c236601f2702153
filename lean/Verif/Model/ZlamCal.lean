/-
Model of the calibration of the redshift correction.

  /repo/redmapper/calibration/zlambdacal.py  ZLambdaFitter, ZLambdaCalibrator.run
  /repo/redmapper/zlambda.py                 ZlambdaCorrectionPar.__init__ (the tables) and apply_correction,
                                             as modelled in `Model/Zlambda.lean`

Simplifications: numbers are elements of a linearly ordered field; the minimizer (scipy fmin), the cubic spline, the
logarithm, the square root and the logarithm of the Gaussian (`none`: not finite) are parameters; the median fit of
`zred_uncorr` and the writing of the file are left out.
-/
import Verif.Model.Zlambda

namespace Redmapper.ZlamCal

open Redmapper.Zlambda (CorrTab CorrState scatterTable applyCorrection)

variable {α : Type} [Field α] [LinearOrder α]

inductive Err
  | valueError
  | runtimeError
deriving DecidableEq, Repr

/-- Values at the nodes: offset, slope with log richness, scatter. -/
structure Triple (α : Type) where
  delta : List α
  slope : List α
  scatter : List α
deriving DecidableEq, Repr

/-- What is fitted. -/
structure Flags where
  delta : Bool
  slope : Bool
  scatter : Bool
deriving DecidableEq, Repr

/-- One cluster as seen by the fitter: redshift of the fit, offset, error, log richness. -/
structure Datum (α : Type) where
  z : α
  dz : α
  err : α
  llam : α
deriving DecidableEq, Repr

/-- What the fitter uses: the nodes, the spline, the logarithm of the Gaussian at a residual and a variance, and the
minimizer. -/
structure Fit (α : Type) where
  nodes : List α
  slopeNodes : List α
  spline : List α → List α → α → α
  logG : α → α → Option α
  fmin : (List α → α) → List α → List α

/-- zlambdacal.py:95-109, the starting point. -/
def pack (fl : Flags) (p : Triple α) : List α :=
  (if fl.delta then p.delta else []) ++ (if fl.slope then p.slope else []) ++ (if fl.scatter then p.scatter else [])

/-- zlambdacal.py:95-109, where the blocks start. -/
def slopeIndex (F : Fit α) (fl : Flags) : Nat := if fl.delta then F.nodes.length else 0

/-- zlambdacal.py:103-108. -/
def scatterIndex (F : Fit α) (fl : Flags) : Nat :=
  slopeIndex F fl + if fl.slope then F.slopeNodes.length else 0

/-- zlambdacal.py:114-122 and 156-172: the values in force: fitted blocks from the parameters, the others from the
start. -/
def unpack (F : Fit α) (fl : Flags) (p0 : Triple α) (pars : List α) : Triple α :=
  { delta := if fl.delta then pars.take F.nodes.length else p0.delta
    slope := if fl.slope then (pars.drop (slopeIndex F fl)).take F.slopeNodes.length else p0.slope
    scatter := if fl.scatter then (pars.drop (scatterIndex F fl)).take F.slopeNodes.length else p0.scatter }

/-- zlambdacal.py:174-182, the negative log likelihood of values at the nodes. -/
def nll (F : Fit α) (data : List (Datum α)) (minScatter : α) (t : Triple α) : α :=
  -((data.map fun d =>
    let sc := max (F.spline F.slopeNodes t.scatter d.z) minScatter
    (F.logG (d.dz - (F.spline F.nodes t.delta d.z + F.spline F.slopeNodes t.slope d.z * d.llam))
      (sc * sc + d.err * d.err)).getD (-100)).sum)

/-- zlambdacal.py:184-186, the penalty. -/
def penalty (minScatter : α) (scatter : List α) : α :=
  if scatter.any fun s => decide (s < minScatter) then 10000 else 0

/-- zlambdacal.py:138-188 `__call__`. -/
def cost (F : Fit α) (data : List (Datum α)) (minScatter : α) (fl : Flags) (p0 : Triple α) (pars : List α) : α :=
  nll F data minScatter (unpack F fl p0 pars) +
    if fl.scatter then penalty minScatter ((pars.drop (scatterIndex F fl)).take F.slopeNodes.length) else 0

/-- zlambdacal.py:63-136 `fit`: the values after the fit (the fitted blocks are what the code returns, the others are
as before). -/
def fit (F : Fit α) (data : List (Datum α)) (minScatter : α) (fl : Flags) (p0 : Triple α) : Except Err (Triple α) :=
  if fl.delta || fl.slope || fl.scatter then
    .ok (unpack F fl p0 (F.fmin (cost F data minScatter fl p0) (pack fl p0)))
  else .error .valueError

/-- zlambdacal.py:284-294, the sequence of fits (the minimum scatter is the default). -/
def fits (F : Fit α) (corrslope : Bool) (data : List (Datum α)) (p0 : Triple α) : Except Err (Triple α) :=
  match fit F data 0 ⟨true, false, false⟩ p0 with
  | .error e => .error e
  | .ok p1 =>
    match (if corrslope then fit F data 0 ⟨false, true, false⟩ p1 else .ok p1) with
    | .error e => .error e
    | .ok p2 =>
      match fit F data 0 ⟨false, false, true⟩ p2 with
      | .error e => .error e
      | .ok p3 => fit F data 0 ⟨true, corrslope, true⟩ p3

/-! ## The calibrator -/

/-- A cluster of the training catalog. -/
structure Row (α : Type) where
  z : α
  zlam : α
  zlamE : α
  Lambda : α
  scaleval : α
  maskfrac : α
deriving DecidableEq, Repr

/-- zlambdacal.py:219-221. -/
def keep (minlambda maxMaskfrac : α) (r : Row α) : Bool :=
  decide (minlambda < r.Lambda / r.scaleval) && decide (0 < r.scaleval) && decide (r.maskfrac < maxMaskfrac)

/-- `np.histogram`, one bin: closed below, open above, the last one closed. -/
def binCount (nodes : List α) (i : Nat) (zs : List α) : Nat :=
  zs.countP fun z => decide (nodes.getD i 0 ≤ z) &&
    (decide (z < nodes.getD (i + 1) 0) || (decide (i + 2 = nodes.length) && decide (z = nodes.getD (i + 1) 0)))

/-- zlambdacal.py:226-233: the clusters used, or the refusal because a redshift bin has none. -/
def select (minlambda maxMaskfrac : α) (nodes : List α) (cat : List (Row α)) : Except Err (List (Row α)) :=
  let use := cat.filter (keep minlambda maxMaskfrac)
  if (List.range (nodes.length - 1)).any fun i => binCount nodes i (use.map Row.z) == 0 then .error .runtimeError
  else .ok use

/-- Parameters of the calibrator. -/
structure Cal (α : Type) where
  F : Fit α
  corrslope : Bool
  niter : Nat
  pivot : α
  /-- the redshift grid of the correction -/
  grid : List α
  log : α → α
  sqrt : α → α
  simpson : List α → List α → α

/-- zlambdacal.py:265-267, the starting values. -/
def start (C : Cal α) : Triple α :=
  { delta := C.F.nodes.map fun _ => 0, slope := C.F.slopeNodes.map fun _ => 0
    scatter := C.F.slopeNodes.map fun _ => 1 / 1000 }

/-- zlambdacal.py:271-278, the clusters that are not outliers; `scatter`: no scatter in the first pass. -/
def inliers (C : Cal α) (scatter : Option (List α)) (cat : List (Row α)) : List (Row α) :=
  cat.filter fun r => match scatter with
    | none => decide (|r.z - r.zlam| < 3 * r.zlamE)
    | some s =>
      let sc := C.F.spline C.F.slopeNodes s r.z
      decide (|r.z - r.zlam| < 3 * C.sqrt (r.zlamE * r.zlamE + sc * sc))

/-- zlambdacal.py:280-286, the data of the fit; `true` selects "<ztrue|zlambda>". -/
def datum (C : Cal α) (ztrue : Bool) (r : Row α) : Datum α :=
  { z := if ztrue then r.zlam else r.z
    dz := r.z - r.zlam
    err := r.zlamE
    llam := C.log (r.Lambda / r.scaleval / C.pivot) }

/-- zlambdacal.py:263-304, the two passes of one iteration. -/
def oneIter (C : Cal α) (ztrue : Bool) (cat : List (Row α)) : Except Err (Triple α) :=
  match fits C.F C.corrslope ((inliers C none cat).map (datum C ztrue)) (start C) with
  | .error e => .error e
  | .ok t => fits C.F C.corrslope ((inliers C (some t.scatter) cat).map (datum C ztrue)) t

/-- zlambda.py:648-660, the tables of one iteration of the correction. -/
def table (C : Cal α) (t : Triple α) : CorrTab α :=
  { offset := C.grid.map (C.F.spline C.F.nodes t.delta)
    slope := C.grid.map (C.F.spline C.F.slopeNodes t.slope)
    scatter := scatterTable (C.grid.map (C.F.spline C.F.slopeNodes t.scatter)) }

/-- zlambdacal.py:239-248: an iteration that is not fitted yet. -/
def blank (C : Cal α) : Triple α :=
  { delta := C.F.nodes.map fun _ => 0, slope := C.F.slopeNodes.map fun _ => 0
    scatter := C.F.slopeNodes.map fun _ => 0 }

/-- zlambdacal.py:308-323: the correction of a cluster by given iterations. -/
def correct (C : Cal α) (cols : List (Triple α)) (r : Row α) : Row α :=
  match applyCorrection C.sqrt C.simpson (C.log (r.Lambda / C.pivot)) C.grid false (cols.map (table C))
      { zlam := r.zlam, e := r.zlamE, pz := none } with
  | some s => { r with zlam := s.zlam, zlamE := s.e }
  | none => r

/-- zlambdacal.py:261-323 for the second type of fit: the fitted iterations and the catalog before iteration `n`.
The correction always has `niter` iterations, blank ones at the end. -/
def trueIter (C : Cal α) (orig : List (Row α)) : Nat → Except Err (List (Triple α) × List (Row α))
  | 0 => .ok ([], orig)
  | n + 1 =>
    match trueIter C orig n with
    | .error e => .error e
    | .ok (cols, cat) =>
      match oneIter C true cat with
      | .error e => .error e
      | .ok t =>
        let cols' := cols ++ [t]
        .ok (cols', orig.map (correct C (cols' ++ List.replicate (C.niter - cols'.length) (blank C))))

end Redmapper.ZlamCal
