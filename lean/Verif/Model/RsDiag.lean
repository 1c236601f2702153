/-
Model of the numbers in the diagnostic plots of the calibration of the red sequence.

  /repo/redmapper/calibration/redsequencecal.py    RedSequenceCalibrator._make_diagnostic_plots (1113-1203, 1251-1310), _plot_pulls (1323-1354)

Simplifications: arithmetic is exact; a NaN (the median of nothing, 0/0) is `none` or a test that fails; the bootstrap error of the median, which uses
random numbers, is left out; the sort is by insertion (only values at ranks are used); the square root is a parameter; drawing is left out.
-/
import Verif.Model.Mask
import Mathlib.Data.List.Sort
import Mathlib.Algebra.Order.Floor.Ring

namespace Redmapper.RsDiag

open Redmapper.Mask (median)

inductive Err
  | indexError
  | valueError
deriving DecidableEq, Repr

variable {α : Type} [Field α] [LinearOrder α]

/-! ## Redshifts -/

/-- A galaxy; `mlim` is the magnitude of 0.2 L* at its redshift `zred` (1117). -/
structure Gal (α : Type) where
  z : α
  zred : α
  zredE : α
  zred2 : α
  zred2E : α
  refmag : α
  p : α
  mlim : α

/-- redsequencecal.py:1113-1121: the galaxies used. -/
def used (g : Gal α) : Bool := decide (9 / 10 < g.p) && decide (g.refmag < g.mlim) && decide (g.zred < 2)

/-- What is compared: true redshift, redshift of the axis, difference, error. -/
structure Obs (α : Type) where
  ztrue : α
  zuse : α
  dz : α
  err : α
deriving DecidableEq, Repr

/-- redsequencecal.py:1136-1158: the two modes. -/
def obs (second : Bool) (g : Gal α) : Obs α :=
  if second then { ztrue := g.z, zuse := g.zred2, dz := g.z - g.zred2, err := g.zred2E }
  else { ztrue := g.z, zuse := g.z, dz := g.zred - g.z, err := g.zredE }

/-- One point of the plot. -/
structure Row (α : Type) where
  ztrue : α
  zuse : α
  delta : α
  std : α
  fout : α
  err : α
deriving DecidableEq, Repr

/-- redsequencecal.py:1164: the galaxies of the bin from `lo` on. -/
def inBin (w lo : α) (l : List (Obs α)) : List (Obs α) := l.filter fun o => decide (lo ≤ o.zuse) && decide (o.zuse < lo + w)

/-- redsequencecal.py:1171-1173: is a galaxy kept?  (Over a zero error the ratio is infinite or NaN, and the galaxy is not kept.) -/
def kept (med : α) (o : Obs α) : Bool := decide (o.err ≠ 0) && decide (|14826 / 10000 * |o.dz - med| / o.err| < 3)

/-- redsequencecal.py:1162-1199: the point of a bin; `none` if there are too few galaxies, or none is kept (NaN, cut in 1202). -/
def binRow (w : α) (l : List (Obs α)) (lo : α) : Option (Row α) :=
  let u1 := inBin w lo l
  if u1.length < 3 then none
  else
    let med := median (u1.map Obs.dz)
    let use := u1.filter (kept med)
    if use.length = 0 then none
    else
      let delta := median (use.map Obs.dz)
      let std := 14826 / 10000 * median (use.map fun o => |o.dz - delta|)
      let u4 := u1.filter fun o => decide (4 * std < |o.dz - delta|)
      some { ztrue := median (use.map Obs.ztrue), zuse := median (use.map Obs.zuse), delta := delta, std := std,
             fout := (u4.length : α) / (u1.length : α), err := median (use.map Obs.err) }

/-- redsequencecal.py:1125 `np.arange(zrange[0], zrange[1], zbinsize)`. -/
def starts [FloorRing α] (z0 z1 w : α) : List α := (List.range ⌈(z1 - z0) / w⌉.toNat).map fun (k : Nat) => z0 + (k : α) * w

/-- redsequencecal.py:1113-1203: the points of one mode; the bin size is 0.02. -/
def rows [FloorRing α] (z0 z1 : α) (second : Bool) (gals : List (Gal α)) : List (Row α) :=
  ((starts z0 z1 (1 / 50)).filterMap (binRow (1 / 50) ((gals.filter used).map (obs second)))).filter fun r => decide (0 < r.ztrue)

/-! ## Pulls -/

/-- A galaxy in one color: color, expected color, error of the color, errors of the two magnitudes, and scatter of the red
sequence; `dref` is the magnitude relative to the pivot of the error ratios. -/
structure Col (α : Type) where
  col : α
  model : α
  colErr : α
  e0 : α
  e1 : α
  sigma : α
  dref : α

/-- redsequencecal.py:1258-1260: pull with the errors as they are. -/
def rawPull (sqrt : α → α) (c : Col α) : α := (c.col - c.model) / sqrt (c.colErr ^ 2 + c.sigma ^ 2)

/-- redsequencecal.py:1286-1292: pull with scaled errors; (intercept, slope) of the two bands. -/
def scaledPull (sqrt : α → α) (b0 b1 : α × α) (c : Col α) : α :=
  let r0 := b0.1 + b0.2 * c.dref
  let r1 := b1.1 + b1.2 * c.dref
  (c.col - c.model) / sqrt ((r0 * c.e0) ^ 2 + (r1 * c.e1) ^ 2 + c.sigma ^ 2)

/-- redsequencecal.py:1262-1264 (and 1294-1296): the range of magnitudes. -/
def magRange (mags : List α) : Except Err (α × α) :=
  let st := mags.insertionSort (· ≤ ·)
  match st[mags.length / 100]?, st[99 * mags.length / 100]? with
  | some a, some b => .ok (a, b)
  | _, _ => .error .indexError

/-- One bin of the plot of pulls. -/
structure PRow (α : Type) where
  mag : α
  sig : α
  lo : α
  hi : α
  med : α
deriving DecidableEq, Repr

/-- redsequencecal.py:1339-1345: a bin of (magnitude, pull); the three ranks exist for a bin that is not empty. -/
def pullRow (b : List (α × α)) : PRow α :=
  let p := b.map Prod.snd
  let st := p.insertionSort (· ≤ ·)
  { mag := median (b.map Prod.fst), sig := 14826 / 10000 * median (p.map fun x => |x - median p|),
    lo := st.getD (5 * p.length / 100) 0, hi := st.getD (95 * p.length / 100) 0, med := st.getD (p.length / 2) 0 }

/-- redsequencecal.py:1324: the galaxies in the plot. -/
def plotted (cut : α) (r : α × α) (l : List (α × α)) : List (α × α) :=
  l.filter fun x => decide (|x.2| < cut) && decide (r.1 < x.1) && decide (x.1 < r.2)

/-- redsequencecal.py:1329, 1339: the galaxies of a bin of the histogram, which starts at the smallest magnitude. -/
def magBin [FloorRing α] (w lo : α) (l : List (α × α)) (k : Nat) : List (α × α) := l.filter fun x => decide (⌊(x.1 - lo) / w⌋ = (k : Int))

/-- redsequencecal.py:1329: the smallest magnitude and the number of bins. -/
def magBins [FloorRing α] (w : α) : List α → Except Err (α × Nat)
  | [] => .error .valueError
  | m :: ms => .ok (ms.foldl min m, (⌊(ms.foldl max m - ms.foldl min m) / w⌋ + 1).toNat)

/-- redsequencecal.py:1323-1352 `_plot_pulls`: the points drawn. -/
def plotPulls [FloorRing α] (cut w : α) (r : α × α) (l : List (α × α)) : Except Err (List (PRow α)) :=
  let gd := plotted cut r l
  match magBins w (gd.map Prod.fst) with
  | .error e => .error e
  | .ok (lo, n) => .ok ((((List.range n).map (magBin w lo gd)).filter fun b => decide (0 < b.length)).map pullRow
      |>.filter fun p => decide (0 < p.sig))

/-- redsequencecal.py:1256-1275: the plot of one color, of (magnitude, pull). -/
def colorPlot [FloorRing α] (l : List (α × α)) : Except Err (List (PRow α)) :=
  match magRange (l.map Prod.fst) with
  | .error e => .error e
  | .ok r => plotPulls 10 (1 / 2) r l

end Redmapper.RsDiag
