/-
Model of the likelihood of a galaxy at the redshift bins and of the redshifts sampled from it (/repo/redmapper/zred_color.py:217-236, 281-321).

Exact arithmetic.  The overflow and underflow of the exponentials in 311-314 are not modelled; a volume factor that is not positive makes the logarithm
infinite or NaN.
-/
import Verif.Model.Zred
import Mathlib.Analysis.SpecialFunctions.Pow.Real

namespace Redmapper.ZredPz

open Redmapper.Zred
open Redmapper.Utilities (arange)

inductive Err
  | indexError
deriving DecidableEq, Repr

/-! ## The likelihood of a bin -/

/-- zred_color.py:306-319: log-likelihood of a bin with chi-squared `chi`. -/
noncomputable def lnOne (alpha chi mstar refmag vol : ℝ) : ℝ :=
  if 0 < vol then
    -(1 / 2) * chi +
      Real.log ((10 : ℝ) ^ (4 / 10 * (alpha + 1) * (mstar - refmag)) * Real.exp (-(10 : ℝ) ^ (4 / 10 * (mstar - refmag))) * vol)
  else -100000000000

/-- The columns of the red sequence at its bins. -/
structure Seq where
  z : List ℝ
  notextrap : List Nat
  maxrefmag : List ℝ
  minrefmag : List ℝ
  mstar : Nat → ℝ
  vol : Nat → ℝ
  alpha : ℝ

/-- zred_color.py:281-321 `_calculate_lndist` as the input of the computation of a redshift. -/
noncomputable def inputOf (S : Seq) (chi : Nat → ℝ) (refmag : ℝ) : Input ℝ :=
  { z := S.z, notextrap := S.notextrap, maxrefmag := S.maxrefmag, minrefmag := S.minrefmag, refmag := refmag,
    lnd := fun i => lnOne S.alpha (chi i) (S.mstar i) refmag (S.vol i), chi := chi }

/-! ## The samples -/

variable {α : Type} [Field α] [LinearOrder α]

/-- `astype(np.int32)`: towards zero. -/
def trunc [FloorRing α] (c : α) : Int := if c < 0 then ⌈c⌉ else ⌊c⌋

/-- utilities.py:906-919 `sample_from_pdf` for one draw; the values may be negative. -/
def sampleOne [FloorRing α] (x pdf : List α) (u : α) : Except Err α :=
  let p := pdf.map fun v => v / pdf.sum
  let cdfi : List Int := (Centering.cumsum 0 p).map fun c => trunc (c * (x.length : α))
  let rand : Int := trunc (u * (x.length : α))
  match (List.range cdfi.length).find? fun i => decide (rand ≤ cdfi.getD i 0) with
  | none => .error .indexError
  | some i => match x[i]? with
    | none => .error .indexError
    | some v => .ok v

/-- zred_color.py:219. -/
def goodBins (exp : α → α) (g : Input α) (bins : List Nat) : List Nat :=
  (List.range g.nz).filter fun i => decide (1 / 10000000000 < dist exp g bins i)

/-- zred_color.py:226-230: density between the bins; `interp` is the quadratic interpolation and `simpson` the integral. -/
def density (interp : List (α × α) → α → α) (simpson : List (α × α) → α) (pts : List (α × α)) (x : α) : α :=
  let n := simpson pts
  if x < (pts.headD (0, 0)).1 ∨ (pts.getLastD (0, 0)).1 < x then 0 else interp (pts.map fun p => (p.1, p.2 / n)) x

/-- zred_color.py:217-234: the samples of a galaxy with redshift `zred`, one for each draw. -/
def samples [FloorRing α] (interp : List (α × α) → α → α) (simpson : List (α × α) → α) (exp : α → α) (g : Input α) (bins : List Nat) (zred : α)
    (us : List α) : Except Err (List α) :=
  let gd := goodBins exp g bins
  if gd.length < 3 then .ok (us.map fun _ => zred)
  else
    let x := arange (g.z.getD (gd.headD 0) 0) (g.z.getD (gd.getLastD 0) 0) (1 / 10000)
    us.mapM (sampleOne x (x.map (density interp simpson (gd.map fun i => (g.z.getD i 0, dist exp g bins i)))))

/-- zred_color.py:94-279 `compute_zred`, with the samples. -/
def compute [FloorRing α] (interp : List (α × α) → α → α) (simpson : List (α × α) → α) (exp sqrt : α → α) (fit : List (α × α) → α × α)
    (c : Corr α) (doCorrection noCorrections : Bool) (g : Input α) (us : List α) (cols : ZCols α) : Except Err (ZCols α) :=
  match fitZred exp sqrt fit g with
  | none => .ok (computeZred c doCorrection noCorrections g.refmag none [] cols)
  | some r =>
    match samples interp simpson exp g (zbins g.nz ((zbinsLimited g).headD 0) ((zbinsLimited g).getLastD 0)) r.1 us with
    | .error e => .error e
    | .ok samp => .ok (computeZred c doCorrection noCorrections g.refmag (some r) samp cols)

end Redmapper.ZredPz
