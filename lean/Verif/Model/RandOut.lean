/-
Model of the output of the weighted randoms:
  /repo/redmapper/randoms.py   RandomWeigher.weight_randoms (ranges, file names, area correction, files)
The selection and the weights are those of the model of the randoms.  The values handed to `int` are not negative, so that it rounds
down; arithmetic is exact.  A string is a list of characters.
-/
import Verif.Model.Randoms
import Verif.Model.MedCal
import Verif.Model.CatTask
import Verif.Model.Utilities
import Mathlib.Data.Rat.Floor

namespace Redmapper.RandOut

open Redmapper.Config (dec)
open Redmapper.MedCal (pad2)
open Redmapper.CatTask (Dir fileName)
open Redmapper.Randoms

/-- python `%03d`. -/
def pad3 (n : Nat) : List Char := List.replicate (3 - (dec n).length) '0' ++ dec n

/-- What decides on the randoms that are written: the configuration (`zrange`, `select_scaleval`, `max_maskfrac`), the luminosity of the
mask (randoms.py:250-253) and the arguments (randoms.py:265). -/
structure Args where
  cfgZ : ℚ × ℚ
  scaleval : Bool
  maxMaskfrac : ℚ
  lstar : ℚ
  minlambda : ℚ
  zrange : Option (ℚ × ℚ)
  lambdabin : Option (ℚ × ℚ)

/-- randoms.py:278-279, 284-286: the ranges in use. -/
def ranges (a : Args) : WCfg ℚ :=
  let z := a.zrange.getD a.cfgZ
  let l := a.lambdabin.getD (0, 1000)
  { selectScaleval := a.scaleval, minlambda := a.minlambda, zlo := z.1, zhi := z.2, llo := l.1, lhi := l.2, maxMaskfrac := a.maxMaskfrac }

/-- randoms.py:284-288. -/
def lamName (a : Args) : List Char := match a.lambdabin with
  | none => "lgt".toList ++ pad3 ⌊a.minlambda⌋₊
  | some (l0, l1) => "lgt".toList ++ pad3 ⌊a.minlambda⌋₊ ++ "_l".toList ++ pad3 ⌊l0⌋₊ ++ '-' :: pad3 ⌊l1⌋₊

/-- randoms.py:281-283, 357. -/
def baseName (a : Args) : List Char :=
  "weighted_randoms_z".toList ++ pad3 ⌊a.cfgZ.1 * 100⌋₊ ++ '-' :: pad3 ⌊a.cfgZ.2 * 100⌋₊ ++ '_' :: lamName a ++ "_vl".toList ++ pad2 ⌊a.lstar * 10⌋₊

/-- randoms.py:358. -/
def randFile (outbase version : List Char) (a : Args) : List Char := fileName outbase version (baseName a) true

/-- randoms.py:407. -/
def areaFile (outbase version : List Char) (a : Args) : List Char := fileName outbase version (baseName a ++ "_area".toList) true

/-- randoms.py:380-389: the good points of the area; the upper end of the richness is not included. -/
def okArea (cfg : WCfg ℚ) (r : Rand ℚ) : Bool :=
  decide (cfg.minlambda < (if cfg.selectScaleval then r.lambdaIn / r.scaleval else r.lambdaIn)) && decide (r.maskfrac < cfg.maxMaskfrac) &&
    decide (cfg.llo < r.lambdaIn) && decide (r.lambdaIn < cfg.lhi)

/-- randoms.py:375-376. -/
def coarseBins (a : Args) (step : ℚ) : List ℚ := Utilities.arange a.cfgZ.1 a.cfgZ.2 step

/-- randoms.py:378-395: the points of the fit.  `zbins[0: -2]`, `zbins[1: -1]` and `ind[1: -1]`. -/
def fitPoints (cfg : WCfg ℚ) (use : List (Rand ℚ)) (zbins : List ℚ) : List (ℚ × ℚ) :=
  let x := List.zipWith (fun p q => (p + q) / 2) zbins.dropLast.dropLast zbins.tail.dropLast
  let y := zbins.tail.dropLast.map (goodFraction (okArea cfg) use)
  x.zip y

/-- randoms.py:403-405: the areas; `curve` is the fitted spline. -/
def areas (curve : ℚ → ℚ) (astr : List (ℚ × ℚ)) : List (ℚ × ℚ) := astr.map fun p => (p.1, effectiveArea p.2 (curve p.1))

/-- randoms.py:354-360 with catalog.py:139-147: the rows written; a catalog of one row is written whole. -/
def written (use : List (Rand ℚ)) (w : List ℚ) : List (Rand ℚ × ℚ) :=
  if use.length = 1 then use.zip w else (use.zip w).filter fun x => decide (0 < x.2)

inductive Table where
  | rands (rows : List (Rand ℚ × ℚ))
  | area (rows : List (ℚ × ℚ))

/-- What a run is given besides its arguments: base name and version, the redshift step, the clusters, the randoms, the ids between the
smallest and the largest, the areas of the mask, and the two external functions: the reverse indices of the histogram and the spline
fitted to the points. -/
structure World where
  outbase : List Char
  version : List Char
  step : ℚ
  clus : List (Clus ℚ)
  rands : List (Rand ℚ)
  bins : List Int
  astr : List (ℚ × ℚ)
  rev : List Int → Int → List Nat
  fit : List (ℚ × ℚ) → ℚ → ℚ

/-- randoms.py:265-410 `weight_randoms`: the directory afterwards and the names of the two files, or the error. -/
def weightRun (W : World) (a : Args) (d : Dir Table) : Dir Table × Except Err (List Char × List Char) :=
  let cfg := ranges a
  match selectRands cfg W.clus W.rands with
  | .error e => (d, .error e)
  | .ok use =>
    let rf := randFile W.outbase W.version a
    let af := areaFile W.outbase W.version a
    let d := d.set rf (Setup.fwrite false (Table.rands (written use (weights cfg W.rev W.bins use))) (d rf))
    let curve := W.fit (fitPoints cfg use (coarseBins a W.step))
    let d := d.set af (Setup.fwrite false (Table.area (areas curve W.astr)) (d af))
    (d, .ok (rf, af))

end Redmapper.RandOut
