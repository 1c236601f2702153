/-
Model of the Gaussian fits to histograms, and of the lines that the Monte Carlo of brightest galaxies fits to them.

  /repo/redmapper/utilities.py                  gaussFunction (89-90), histoGauss (965-1011)
  /repo/redmapper/calibration/centeringcal.py   WcenCalibrator._schechter_montecarlo_calib (489-533)

Simplifications: numbers are real numbers, or of an ordered field where no exponential is needed; percentiles, the histogram of esutil,
`scipy.optimize.curve_fit` and `np.polyfit` are parameters. The plot is left out but for the counts that it shows.
-/
import Verif.Model.Centering
import Verif.Model.WcenCal
import Mathlib.Analysis.SpecialFunctions.Log.Basic

namespace Redmapper.HistoGauss

open Redmapper.Centering (whereIdx)

variable {α : Type} [Field α] [LinearOrder α]

inductive Err
  | indexError
  | histError
deriving DecidableEq, Repr

/-- utilities.py:89-90 `gaussFunction`; the parameters are normalization, mean and sigma. -/
noncomputable def gauss (p : ℝ × ℝ × ℝ) (x : ℝ) : ℝ := p.1 * Real.exp (-((x - p.2.1) ^ 2) / (2 * p.2.2 ^ 2))

/-- `np.sum(h[idx])`. -/
def sumAt (h : List α) (idx : List Nat) : α := (idx.map fun i => h.getD i 0).sum

/-- `h[i] += d`. -/
def addAt (h : List α) (i : Nat) (d : α) : List α := h.set i (h.getD i 0 + d)

/-- utilities.py:989-998: the tails are added to the first and to the last bin within five sigma; an empty selection has no first
or last entry. -/
def foldTails (center count : List α) (mu sigma : α) : Except Err (List α) :=
  let rangeLo := mu - 5 * sigma
  let rangeHi := mu + 5 * sigma
  let lo := whereIdx (fun c => decide (c < rangeLo)) center
  match (whereIdx (fun c => decide (c > rangeLo)) center).head? with
  | none => .error .indexError
  | some i =>
    let h1 := addAt count i (sumAt count lo)
    let hi := whereIdx (fun c => decide (c > rangeHi)) center
    match (whereIdx (fun c => decide (c < rangeHi)) center).getLast? with
    | none => .error .indexError
    | some j => .ok (addAt h1 j (sumAt h1 hi))

/-- utilities.py:965-1011 `histoGauss`: the parameters, and the counts as plotted. `hist` makes the histogram for the bin size, `p0` the start,
`fit` fits and fails with `none` (969-984). -/
def histoGauss (hist : List α → Option (List α × List α)) (p0 : List α → α × α × α) (fit : List α × List α → α × α × α → Option (α × α × α))
    (array : List α) : Except Err ((α × α × α) × List α) :=
  match hist array with
  | none => .error .histError
  | some h =>
    let coeff := (fit h (p0 array)).getD (p0 array)
    match foldTails h.1 h.2 coeff.2.1 coeff.2.2 with
    | .error e => .error e
    | .ok c => .ok (coeff, c)

/-- The four values that are saved, centeringcal.py:526-533. -/
structure Phi where
  mmstarM : ℝ
  mmstarSlope : ℝ
  msigM : ℝ
  msigSlope : ℝ

/-- The richnesses, centeringcal.py:489: `np.linspace(20, 100, num=n, dtype=np.int32)`, for the numbers 3 and 9 that are used. -/
def lambdas (n : Nat) : List Nat := (List.range n).map fun i => 20 + 80 * i / (n - 1)

/-- centeringcal.py:512-533: `fits` are the results of `histoGauss` for the brightest galaxy, one for each richness; those of the second and
third brightest are not used. `polyfit` gives slope and intercept. -/
noncomputable def phiLines (polyfit : List ℝ → List ℝ → ℝ × ℝ) (pivot : ℝ) (lams : List Nat) (fits : List (ℝ × ℝ × ℝ)) : Phi :=
  let x := lams.map fun l : Nat => Real.log ((l : ℝ) / pivot)
  let f := polyfit x (fits.map fun c => c.2.1)
  let g := polyfit x (fits.map fun c => c.2.2)
  { mmstarM := f.2, mmstarSlope := f.1, msigM := g.2, msigSlope := g.1 }

end Redmapper.HistoGauss
