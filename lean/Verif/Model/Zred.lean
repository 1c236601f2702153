/-
Model of /repo/redmapper/zred_color.py: the red-sequence redshift of a galaxy and the corrections.

`exp` and `sqrt` are parameters of the model, the likelihoods of `_calculate_lndist` and the least-squares parabola are inputs.
-/
import Verif.Model.Utilities

namespace Redmapper.Zred

open Redmapper.Utilities

variable {α : Type} [Field α] [LinearOrder α] [IsStrictOrderedRing α]

/-- The zred columns of a galaxy; `samp` are the samples of p(z). -/
structure ZCols (α : Type) where
  zred : α
  zred_e : α
  zred2 : α
  zred2_e : α
  zred_uncorr : α
  zred_uncorr_e : α
  chisq : α
  lkhd : α
  samp : List α
deriving DecidableEq

/-- zred_color.py:323-340 `_reset_bad_values`; the samples are not touched. -/
def resetBad (g : ZCols α) : ZCols α :=
  { g with lkhd := -1000, zred := -1, zred_e := -1, zred2 := -1, zred2_e := -1, zred_uncorr := -1, zred_uncorr_e := -1, chisq := -1 }

/-- `scipy.integrate.trapezoid` on (x, y) pairs. -/
def trap : List (α × α) → α
  | [] => 0
  | [_] => 0
  | (x0, y0) :: (x1, y1) :: rest => (x1 - x0) * (y0 + y1) / 2 + trap ((x1, y1) :: rest)

/-- zred_color.py:142-151: the trapezoid rule with at least three bins, else a plain sum. -/
def quad (n : Nat) (l : List (α × α)) : α := if 3 ≤ n then trap l else (l.map Prod.snd).sum

/-- What the redshift of one galaxy is computed from (zred_color.py:108-128): `z` holds the bins and the overflow bin, `lnd i` and `chi i`
are the log-likelihood and chi-squared of bin `i` (281-321; a log-likelihood that is not finite has been replaced by -1e11). -/
structure Input (α : Type) where
  z : List α
  notextrap : List Nat
  maxrefmag : List α
  minrefmag : List α
  refmag : α
  lnd : Nat → α
  chi : Nat → α

/-- zred_color.py:44: number of bins. -/
def Input.nz (g : Input α) : Nat := g.z.length - 1

/-- zred_color.py:111-113. -/
def zbinsLimited (g : Input α) : List Nat :=
  (List.range g.z.length).filter fun i =>
    decide (g.refmag < g.maxrefmag.getD i 0) && decide (g.minrefmag.getD i 0 < g.refmag) && decide (g.z.getD i 0 < 100)

/-- zred_color.py:119-122: from ten bins before the first to ten after the last, within the table. -/
def zbins (nz first last : Nat) : List Nat :=
  let lo := min (first - 10) nz
  let hi := min (last + 10) nz
  (List.range hi).filter fun i => decide (lo ≤ i)

/-- zred_color.py:108, 124. -/
def lndist (g : Input α) (bins : List Nat) (i : Nat) : α := if i ∈ bins then g.lnd i else -1000000000000

/-- zred_color.py:127: largest entry. -/
def maxOf (f : Nat → α) : List Nat → α
  | [] => 0
  | [i] => f i
  | i :: j :: rest => max (f i) (maxOf f (j :: rest))

/-- zred_color.py:128-134: the distribution over the bins. -/
def dist (exp : α → α) (g : Input α) (bins : List Nat) (i : Nat) : α :=
  if i ∈ bins then exp (g.lnd i - maxOf (lndist g bins) bins) else 0

/-- `np.argmax` over a list of indices, the first of the largest. -/
def argmaxOn (f : Nat → α) : List Nat → Nat
  | [] => 0
  | [i] => i
  | i :: j :: rest => let k := argmaxOn f (j :: rest); if f i < f k then k else i

/-- zred_color.py:140. -/
def calcinds (exp : α → α) (g : Input α) (bins : List Nat) : List Nat :=
  (List.range g.nz).filter fun i => decide (1 / 100000 < dist exp g bins i)

/-- zred_color.py:142-151: mean and variance of the redshift. -/
def moments (pts : List (α × α)) : α × α :=
  let t := quad pts.length pts
  let m := quad pts.length (pts.map fun p => (p.1, p.2 * p.1)) / t
  let v := quad pts.length (pts.map fun p => (p.1, p.2 * (p.1 * p.1))) / t - m * m
  (m, v)

/-- zred_color.py:153-158: error from the variance. -/
def errorOf (sqrt : α → α) (v : α) : α :=
  let e := if v < 0 then 1 else sqrt v
  if 1 / 200 < e then e else 1 / 200

/-- zred_color.py:166-179: the bins of the parabola fit. -/
def window (minuse maxuse ind : Int) : Int × Int :=
  let mn := if minuse > ind - 2 then minuse else ind - 2
  let mx := if maxuse < ind + 2 then maxuse else ind + 2
  if mn = minuse then (mn, min (minuse + 4) maxuse)
  else if mx = maxuse then (max (maxuse - 1 - 4) minuse, mx)
  else (mn, mx)

/-- zred_color.py:164-194: the redshift after the parabola; `fit` is the least-squares solver of 187, giving the coefficients of z^2 and z. -/
def refine (fit : List (α × α) → α × α) (g : Input α) (bins : List Nat) (ind : Nat) (zt e : α) : α :=
  let use := (List.range g.nz).filter fun i => decide (-10000000000 < lndist g bins i)
  if 5 ≤ use.length then
    let w := window (use.headD 0) (use.getLastD 0) ind
    if 5 ≤ w.2 - w.1 + 1 then
      let pts := ((List.range g.nz).filter fun (i : Nat) => decide (w.1 ≤ (i : Int) ∧ (i : Int) ≤ w.2)).map fun i => (g.z.getD i 0, lndist g bins i)
      let f := fit pts
      if f.1 < 0 then
        let ztry := -f.2 / (2 * f.1)
        if |ztry - zt| < 2 * e then ztry else zt
      else zt
    else zt
  else zt

/-- zred_color.py:94-216 up to the corrections: redshift, error, likelihood and chi-squared, or `none` when the galaxy is reset (115-117,
214-216).  The likelihood is not finite exactly when its denominator is zero. -/
def fitZred (exp sqrt : α → α) (fit : List (α × α) → α × α) (g : Input α) : Option (α × α × α × α) :=
  let lim := zbinsLimited g
  if lim.length < 2 then none
  else
    let bins := zbins g.nz (lim.headD 0) (lim.getLastD 0)
    let cinds := calcinds exp g bins
    let pts := cinds.map fun i => (g.z.getD i 0, dist exp g bins i)
    let mv := moments pts
    let e := errorOf sqrt mv.2
    let zred := refine fit g bins (argmaxOn (dist exp g bins) g.notextrap) mv.1 e
    let newdist := fun i => if lndist g bins i < -10000000000 then 0 else exp (-(1 / 2) * ((g.z.getD i 0 - zred) / e) * ((g.z.getD i 0 - zred) / e))
    let den := quad cinds.length (cinds.map fun i => (g.z.getD i 0, newdist i))
    if den = 0 then none
    else
      let num := quad cinds.length (cinds.map fun i => (g.z.getD i 0, newdist i * (if lndist g bins i < -10000000000 then -100000000000 else lndist g bins i)))
      let zbin := argmaxOn (fun i => -|zred - g.z.getD i 0|) (List.range g.z.length)
      some (zred, e, num / den, if zbin ∈ bins then g.chi zbin else 1000000000000)

/-- The correction tables of the red sequence, on the bins `z`. -/
structure Corr (α : Type) where
  z : List α
  pivotmag : List α
  corr : List α
  corr_slope : List α
  corr_r : List α
  corr2 : List α
  corr2_slope : List α
  corr2_r : List α

/-- One step of the correction (zred_color.py:81, 251). -/
def dzStep (c : Corr α) (refmag pivot z old : α) : α :=
  interpol c.corr c.z (z + old) + (refmag - pivot) * interpol c.corr_slope c.z (z + old)

/-- zred_color.py:72-82: five steps. -/
def dzBulk (c : Corr α) (refmag z : α) : α :=
  let p := interpol c.pivotmag c.z z
  (List.range 5).foldl (fun dz _ => dzStep c refmag p z dz) 0

/-- zred_color.py:71-91: corrections of one galaxy in `compute_zreds`. -/
def bulk (c : Corr α) (refmag : α) (g : ZCols α) : ZCols α :=
  let zred := g.zred_uncorr + dzBulk c refmag g.zred_uncorr
  { g with
    zred := zred
    zred_e := g.zred_uncorr_e * interpol c.corr_r c.z zred
    zred2 := g.zred_uncorr + interpol c.corr2 c.z g.zred_uncorr
    zred2_e := g.zred_uncorr_e * interpol c.corr2_r c.z g.zred_uncorr }

/-- zred_color.py:243-252: the iteration of `compute_zred`, at most `n` more steps. -/
def dzLoop (c : Corr α) (refmag p z : α) : Nat → α → α → α
  | 0, _, dz => dz
  | n + 1, old, dz => if 1 / 1000 < |old - dz| then dzLoop c refmag p z n dz (dzStep c refmag p z dz) else dz

/-- zred_color.py:94-279 `compute_zred`: `r` is the result of `fitZred`, `samp` the samples drawn from p(z). -/
def computeZred (c : Corr α) (doCorrection noCorrections : Bool) (refmag : α) (r : Option (α × α × α × α)) (samp : List α) (g : ZCols α) : ZCols α :=
  match r with
  | none => resetBad g
  | some (z, e, lk, chi) =>
    let p := interpol c.pivotmag c.z z
    if doCorrection && !noCorrections then
      let zc := z + dzLoop c refmag p z 10 (-1) 0
      ⟨zc, e * interpol c.corr_r c.z zc, z + (interpol c.corr2 c.z z + (refmag - p) * interpol c.corr2_slope c.z z),
        e * interpol c.corr2_r c.z z, z, e, chi, lk, samp⟩
    else ⟨z, e, z, e, z, e, chi, lk, samp⟩

/-- zred_color.py:56-91 `compute_zreds`: one galaxy is its magnitude, its fit, its samples and its columns before. -/
def computeZreds (c : Corr α) (doCorrection : Bool) (gals : List (α × Option (α × α × α × α) × List α × ZCols α)) : List (ZCols α) :=
  gals.map fun g =>
    let r := computeZred c doCorrection true g.1 g.2.1 g.2.2.1 g.2.2.2
    if doCorrection then bulk c g.1 r else r

end Redmapper.Zred
