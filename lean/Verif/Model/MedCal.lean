/-
Model of the first part of the calibration of the red sequence: the selection of the galaxies, the columns of the table of parameters, pivot
magnitudes, median colors with widths and error ratio, and the name of the file of redshifts.

  /repo/redmapper/calibration/redsequencecal.py   RedSequenceCalibrator.run, _calc_pivotmags, _calc_medcols
  /repo/redmapper/fitters.py                      MedZFitter (in Model/SpecRed.lean)

Numbers are real; the cubic spline and the minimizer are parameters, m* of the survey is a function of redshift.  Redshifts and probabilities that
are NaN are `none`.
-/
import Verif.Model.RedSeqCal
import Verif.Model.SpecRed
import Verif.Model.Config
import Mathlib.Analysis.SpecialFunctions.Log.Base

namespace Redmapper.MedCal

open Redmapper.Fitters (Minimizer)
open Redmapper.SpecRed (medFit)
open Redmapper.RedSeqCal (startvals)
open Redmapper.Mask (median)
open Redmapper.Centering (argmin)
open Redmapper.Config (dec)
open Redmapper.Utilities (rstrip)

inductive Err where
  | runtime
  deriving DecidableEq, Repr

/-! ## The galaxies -/

/-- A training galaxy: redshift and probabilities (`none` is NaN), reference magnitude, colors and their errors. -/
structure Gal where
  z : Option ℝ
  p : Option ℝ
  pcol : Option ℝ
  refmag : ℝ
  col : Nat → ℝ
  colErr : Nat → ℝ

structure Cfg where
  zrange : ℝ × ℝ
  usePcol : Bool
  pcut : ℝ
  colorPcut : ℝ

/-- Comparison with a value that may be NaN. -/
noncomputable def above (x : Option ℝ) (c : ℝ) : Bool := match x with
  | some x => decide (c < x)
  | none => false

/-- Comparison with a value that may be NaN. -/
noncomputable def below (x : Option ℝ) (c : ℝ) : Bool := match x with
  | some x => decide (x < c)
  | none => false

/-- redsequencecal.py:66-79 the galaxies that are used, and 160-167 those for the colors. -/
noncomputable def select (c : Cfg) (gals : List Gal) : Except Err (List Gal × List Gal) :=
  let use := if c.usePcol then
      gals.filter fun g => above g.z c.zrange.1 && below g.z c.zrange.2 && above g.pcol c.pcut
    else gals.filter fun g => above g.z c.zrange.1 && below g.z c.zrange.2 && above g.p c.pcut
  if use.length = 0 then .error .runtime
  else .ok (use, if c.usePcol then use.filter fun g => above g.pcol c.colorPcut else use.filter fun g => above g.p c.colorPcut)

/-! ## The columns -/

/-- python `%02d`. -/
def pad2 (n : Nat) : List Char := List.replicate (2 - (dec n).length) '0' ++ dec n

/-- redsequencecal.py:101-147: names of the columns of the parameters. -/
def columns (ncol : Nat) : List (List Char) :=
  ["pivotmag_z".toList, "pivotmag".toList, "minrefmag".toList, "maxrefmag".toList, "medcol".toList, "medcol_width".toList,
   "medcol_err_ratio".toList, "covmat_z".toList, "sigma".toList, "covmat_amp".toList, "covmat_slope".toList, "mag_err_ratio_int".toList,
   "mag_err_ratio_slope".toList, "mag_err_ratio_pivot".toList, "corr_z".toList, "corr".toList, "corr_slope_z".toList, "corr_slope".toList,
   "corr_r".toList, "corr2".toList, "corr2_slope".toList, "corr2_r".toList, "volume_factor_z".toList, "volume_factor".toList] ++
  (List.range ncol).flatMap fun j => ["z".toList ++ pad2 j, "c".toList ++ pad2 j, "zs".toList ++ pad2 j, "slope".toList ++ pad2 j]

/-! ## Pivot magnitudes -/

/-- What the fits use from outside. -/
structure Env where
  spl : List ℝ → List ℝ → ℝ → ℝ
  minimize : Minimizer ℝ

/-- The redshift of a galaxy that was selected. -/
noncomputable def Gal.zv (g : Gal) : ℝ := g.z.getD 0

/-- Starting values at the nodes: medians and median absolute deviations (redsequencecal.py:217-311 with median=True, mincomp=3). -/
noncomputable def starts (nodes : List ℝ) (data : List (ℝ × ℝ)) : List (ℝ × ℝ) :=
  match startvals (α := ℝ) ⟨median, fun _ => (0, 0)⟩ nodes (data.map Prod.fst) (data.map Prod.snd) [] true false 3 with
  | .ok l => l
  | .error _ => []

/-- redsequencecal.py:378-387: pivot magnitudes at the nodes. -/
noncomputable def pivotmags (E : Env) (nodes : List ℝ) (gals : List Gal) : List ℝ :=
  let data := gals.map fun g => (g.zv, g.refmag)
  medFit E.minimize E.spl nodes data ((starts nodes data).map Prod.fst) ⟨none, none⟩

/-- redsequencecal.py:389-392: smallest and largest reference magnitude at a redshift. -/
noncomputable def refRange (mstar : ℝ → ℝ) (lvalRef z : ℝ) : ℝ × ℝ :=
  let lmin := if lvalRef - 1 / 10 < 1 / 1000 then 1 / 1000 else lvalRef - 1 / 10
  (mstar z - 5 / 2 * Real.logb 10 30, mstar z - 5 / 2 * Real.logb 10 lmin)

/-! ## Median colors -/

/-- `np.arange(0.5, 10.0, 0.1)`. -/
noncomputable def ratios : List ℝ := (List.range 95).map fun i : Nat => 1 / 2 + (i : ℝ) / 10

/-- redsequencecal.py:442-446: the width of the pulls with a ratio; rows are difference and error. -/
noncomputable def sigmaPull (rows : List (ℝ × ℝ)) (sigInt r : ℝ) : ℝ :=
  let pulls := rows.map fun d => d.1 / Real.sqrt ((r * d.2) ^ 2 + sigInt ^ 2)
  14826 / 10000 * median (pulls.map fun x => |x - median pulls|)

/-- redsequencecal.py:436-449: the ratio whose pulls are closest to one. -/
noncomputable def errRatio (rows : List (ℝ × ℝ)) (sigInt : ℝ) : ℝ :=
  ratios.getD ((argmin (ratios.map fun r => |sigmaPull rows sigInt r - 1|)).getD 0) 0

/-- redsequencecal.py:412-451, one color: medians and widths at the nodes, and the error ratio. -/
noncomputable def medcol (E : Env) (fitRatio : Bool) (nodes : List ℝ) (gals : List Gal) (j : Nat) : List ℝ × List ℝ × ℝ :=
  let data := gals.map fun g => (g.zv, g.col j)
  let st := starts nodes data
  let mvals := medFit E.minimize E.spl nodes data (st.map Prod.fst) ⟨none, none⟩
  let dev := gals.map fun g => (g.zv, |g.col j - E.spl nodes mvals g.zv|)
  let scvals := medFit E.minimize E.spl nodes dev (st.map Prod.snd) ⟨some (1 / 100), none⟩
  let width := scvals.map fun s => 14826 / 10000 * s
  (mvals, width, if fitRatio then errRatio (gals.map fun g => (g.col j - E.spl nodes mvals g.zv, g.colErr j)) (width.getD 0 0) else 1)

/-! ## The file of redshifts -/

/-- `os.path.basename`: what follows the last slash. -/
def basename (s : List Char) : List Char := (s.reverse.takeWhile fun c => c != '/').reverse

/-- redsequencecal.py:210: name of the file of galaxies with redshifts (in the directory of the output). -/
def zredFile (galfile : List Char) : List Char := basename (rstrip ".fit".toList galfile ++ "_zreds.fit".toList)

end Redmapper.MedCal
