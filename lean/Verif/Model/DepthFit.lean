/-
Model of the fit of the depth to magnitudes and errors of galaxies.

  /repo/redmapper/depth_fitting.py  DepthFunction, applyErrorModel, calcErrorModel, DepthLim

Simplifications: real numbers; values that are not finite are `none`; the minimizer, the draws of the bootstrap and the sample of the
constructor are parameters; plots are left out; the noise of applyErrorModel is left out (`noNoise`, the only use in the package).
-/
import Verif.Model.Mask
import Mathlib.Analysis.SpecialFunctions.Pow.Real
import Mathlib.Analysis.SpecialFunctions.Log.Basic

namespace Redmapper.DepthFit

open Redmapper.Mask (median)

/-- `2.5 / np.log(10.0)` (depth_fitting.py:30). -/
noncomputable def const : ℝ := 25 / 10 / Real.log 10

/-- Flux for one unit of exposure, `10.**((mag - zp)/(-2.5))` (depth_fitting.py:58). -/
noncomputable def flux (zp m : ℝ) : ℝ := (10 : ℝ) ^ ((m - zp) / (-(25 / 10)))

/-- depth_fitting.py:59 and 245: sky flux of a limiting magnitude and exposure. -/
noncomputable def fsky (zp nsig lim t : ℝ) : ℝ := flux zp lim ^ 2 * t / nsig ^ 2 - flux zp lim

/-- depth_fitting.py:64-68 and 100-114 without noise: magnitude error. -/
noncomputable def magErr (zp fs t m : ℝ) : ℝ :=
  let tflux := t * flux zp m
  const * (Real.sqrt (fs * t + tflux) / tflux)

/-- A galaxy: magnitude and error. -/
abbrev Gal := ℝ × ℝ

noncomputable def penalty : ℝ := 10000000000

/-- `DepthFunction.__call__` (depth_fitting.py:39-73). Sums that are not finite need a flux of zero, that is an exposure of zero, which has
a negative sky flux. -/
noncomputable def cost (maxp zp nsig : ℝ) (gals : List Gal) (x : ℝ × ℝ) : ℝ :=
  if x.2 < 0 ∨ x.2 > maxp then penalty
  else if fsky zp nsig x.1 x.2 < 0 then penalty
  else (gals.map fun g => |magErr zp (fsky zp nsig x.1 x.2) x.2 g.1 - g.2|).sum

inductive Err
  | indexError
  | runtimeError
deriving DecidableEq, Repr

structure Pars where
  exptime : ℝ
  zp : ℝ
  limmag : ℝ
  nsig : ℝ
  flux1lim : ℝ
  fsky1 : ℝ
  limmagErr : ℝ
  exptimeErr : ℝ
  fracOut : ℝ

/-- depth_fitting.py:156-162: finite, positive errors. -/
noncomputable def finiteGals (l : List (Option ℝ × Option ℝ)) : List Gal :=
  l.filterMap fun g => match g.1, g.2 with
    | some m, some e => if 0 < e then some (m, e) else none
    | _, _ => none

/-- `x[st[k]]` for `st = np.argsort(x)`. -/
noncomputable def ranked (l : List ℝ) (k : Nat) : Except Err ℝ :=
  match (l.mergeSort fun a b => decide (a ≤ b))[k]? with
  | some v => .ok v
  | none => .error .indexError

/-- depth_fitting.py:168-172 (without `oldIDL`): brighter than the 98% quantile and of enough significance. -/
noncomputable def selectGals (sncut : ℝ) (gals : List Gal) : Except Err (List Gal) :=
  (ranked (gals.map Prod.fst) (98 * gals.length / 100)).map fun cut => gals.filter fun g => decide (g.1 < cut) && decide (g.2 < const / sncut)

/-- depth_fitting.py:183-192: where to start the limiting magnitude. -/
noncomputable def limStart (nsig : ℝ) (gd : List Gal) : Except Err ℝ :=
  let test := gd.filter fun g => decide (g.2 > const / nsig) && decide (g.2 < 11 / 10 * const / nsig)
  if 3 ≤ test.length then .ok (median (test.map Prod.fst)) else ranked (gd.map Prod.fst) (95 * gd.length / 100)

/-- depth_fitting.py:199-204: exposures to try. -/
noncomputable def expTime (zp : ℝ) (i : Nat) : ℝ :=
  let e0 := 1 / (10 : ℝ) ^ ((zp - 225 / 10) / (25 / 10))
  let e1 := 10000 / (10 : ℝ) ^ ((zp - 225 / 10) / (25 / 10))
  Real.exp (i * ((Real.log e1 - Real.log e0) / 19)) * e0

/-- depth_fitting.py:206-210. -/
noncomputable def tTest (zp nsig : ℝ) (gd : List Gal) (lim : ℝ) (i : Nat) : ℝ := cost (expTime zp i * 2) zp nsig gd (lim, expTime zp i)

/-- `np.argmin`: the first smallest. -/
noncomputable def argmin (f : Nat → ℝ) (n : Nat) : Nat :=
  (List.range n).foldl (fun best i => if f i < f best then i else best) 0

/-- depth_fitting.py:212-214: start of the fit. -/
noncomputable def startAt (zp nsig : ℝ) (gd : List Gal) (lim : ℝ) : ℝ × ℝ := (lim, expTime zp (argmin (tTest zp nsig gd lim) 20))

/-- `scipy.optimize.fmin`: result and whether the warning flag is set. -/
abbrev Fmin := (ℝ × ℝ → ℝ) → ℝ × ℝ → (ℝ × ℝ) × Bool

/-- depth_fitting.py:216-229: the fit; `none` if it did not converge. -/
noncomputable def fit (fmin : Fmin) (zp nsig : ℝ) (gd : List Gal) (p0 : ℝ × ℝ) : Option (ℝ × ℝ) :=
  let r := fmin (cost (10 * p0.2) zp nsig gd) p0
  if r.2 then none else some r.1

/-- depth_fitting.py:247-251. -/
noncomputable def fracOut (zp fs t : ℝ) (gd : List Gal) : ℝ :=
  ((gd.filter fun g => decide (|magErr zp fs t g.1 - g.2| > 5 / 1000)).length : ℝ) / (gd.length : ℝ)

/-- depth_fitting.py:231-251. -/
noncomputable def parsOf (zp nsig : ℝ) (gd : List Gal) (p : ℝ × ℝ) : Pars :=
  ⟨p.2, zp, p.1, nsig, flux zp p.1, fsky zp nsig p.1 p.2, 0, 0, fracOut zp (fsky zp nsig p.1 p.2) p.2 gd⟩

/-- depth_fitting.py:274-278: error from the inner half of the trials. -/
noncomputable def spread (l : List ℝ) : Except Err ℝ :=
  (ranked l (75 * l.length / 100)).bind fun hi => (ranked l (25 * l.length / 100)).map fun lo => (hi - lo) / (135 / 100)

/-- depth_fitting.py:255-272: the trials; each is a list of galaxies drawn. A trial that does not converge gives the start. -/
noncomputable def trials (fmin : Fmin) (maxp zp nsig : ℝ) (p0 : ℝ × ℝ) (draws : List (List Gal)) : List (ℝ × ℝ) :=
  draws.map fun d => let r := fmin (cost maxp zp nsig d) p0
    if r.2 then p0 else r.1

/-- depth_fitting.py:254-281. -/
noncomputable def withErrors (useBoot : Bool) (ts : List (ℝ × ℝ)) (p : Pars) : Except Err Pars :=
  (spread (ts.map Prod.fst)).bind fun le => (spread (ts.map Prod.snd)).map fun te =>
    if useBoot then { p with limmagErr := le, exptimeErr := te, limmag := median (ts.map Prod.fst), exptime := median (ts.map Prod.snd) }
    else { p with limmagErr := le, exptimeErr := te }

/-- `calcErrorModel` without errors (depth_fitting.py:117-321); `none` is the failure flag. -/
noncomputable def calcModel (fmin : Fmin) (zp nsig sncut : ℝ) (l : List (Option ℝ × Option ℝ)) : Except Err (Option Pars) :=
  (selectGals sncut (finiteGals l)).bind fun gd =>
    if gd.length = 0 then .ok none
    else (limStart nsig gd).map fun lim => (fit fmin zp nsig gd (startAt zp nsig gd lim)).map (parsOf zp nsig gd)

/-- `DepthLim.__init__` (depth_fitting.py:353-361): `pick` is the sample of a large catalog. -/
noncomputable def initLim (fmin : Fmin) (maxgals : Nat) (pick : List (Option ℝ × Option ℝ) → List (Option ℝ × Option ℝ))
    (l : List (Option ℝ × Option ℝ)) : Except Err Pars :=
  (calcModel fmin (225 / 10) 10 5 (if l.length < maxgals then l else pick l)).bind fun r =>
    match r with
    | none => .error .runtimeError
    | some p => .ok p

/-- The columns of the mask galaxies that are changed. -/
structure MaskRow where
  limmag : ℝ
  exptime : ℝ
  zp : ℝ
  nsig : ℝ

/-- `DepthLim.calc_maskdepth` (depth_fitting.py:363-394): columns of all rows, zero point and significance of the first row. -/
noncomputable def setRows (p : Pars) (rows : List MaskRow) : List MaskRow :=
  rows.zipIdx.map fun ri => if ri.2 = 0 then ⟨p.limmag, p.exptime, p.zp, p.nsig⟩ else ⟨p.limmag, p.exptime, ri.1.zp, ri.1.nsig⟩

noncomputable def calcMaskdepth (fmin : Fmin) (init : Pars) (rows : List MaskRow) (l : List (Option ℝ × Option ℝ)) : Except Err (List MaskRow) :=
  (calcModel fmin (225 / 10) 10 5 l).map fun r => setRows (r.getD init) rows

end Redmapper.DepthFit
