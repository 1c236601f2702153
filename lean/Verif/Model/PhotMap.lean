/-
Model of the coarse and the fine bins of the map of photometric redshifts, of the plot of positions, and of the warning about too few galaxies
for a mode of redMaGiC.

  /repo/redmapper/plotting.py                       SpecPlot._make_photoz_map (306-369), PositionPlot.plot_positions (722-731)
  /repo/redmapper/redmagic/redmagic_calibrate.py    RedmagicCalibrator.run (466-469, 513-556)

Simplifications: arithmetic is exact; the fit of a Gaussian to a row of counts is a parameter (`none` is a fit that raises or warns), of
which only the amplitude is used; a row is divided by an amplitude of zero as `x / 0 = 0` (the code has NaN or infinity); the spline through
a row is a parameter; drawing is left out.
-/
import Verif.Model.Plots
import Verif.Model.Centering
import Verif.Model.RmCal

namespace Redmapper.PhotMap

open Redmapper.Centering (argmin)

variable {α : Type} [Field α] [LinearOrder α]

/-! ## Coarse bins -/

/-- One object of the map: spectroscopic and photometric redshift. -/
structure Obj (α : Type) where
  zspec : α
  zphoto : α
deriving DecidableEq, Repr

/-- plotting.py:306-313: the coarse bins: smallest redshift, width of a bin, and width of a bin of differences. -/
structure Coarse (α : Type) where
  zmin : α
  zw : α
  dzmax : α
  dzw : α

/-- plotting.py:306-313; `np.min` of no redshifts raises. -/
def coarse (dzmax : α) (nb : Nat) (l : List (Obj α)) : Except Plots.Err (Coarse α) :=
  match l.map Obj.zphoto with
  | [] => .error .valueError
  | z :: zs =>
    let lo := zs.foldl min z
    let hi := zs.foldl max z
    .ok { zmin := lo, zw := (hi - lo) / (nb : α), dzmax := dzmax, dzw := 2 * dzmax / (nb : α) }

/-- plotting.py:310: lower edge of bin `i`. -/
def Coarse.zbin (c : Coarse α) (i : Nat) : α := (i : α) * c.zw + c.zmin

/-- plotting.py:312: lower edge of the bin `j` of differences. -/
def Coarse.dzbin (c : Coarse α) (j : Nat) : α := (j : α) * c.dzw - c.dzmax

/-- plotting.py:314-315: the centers. -/
def Coarse.zcen (c : Coarse α) (i : Nat) : α := c.zbin i + 1 / 2 * c.zw

/-- plotting.py:320: the objects of bin `i`. -/
def Coarse.use (c : Coarse α) (i : Nat) (l : List (Obj α)) : List (Obj α) :=
  l.filter fun o => decide (c.zbin i ≤ o.zphoto) && decide (o.zphoto < c.zbin i + c.zw)

/-- plotting.py:325-329: the number of objects with a difference in bin `j`. -/
def Coarse.cell (c : Coarse α) (j : Nat) (use : List (Obj α)) : Nat :=
  use.countP fun o => decide (c.dzbin j ≤ o.zspec - o.zphoto) && decide (o.zspec - o.zphoto < c.dzbin j + c.dzw)

/-- plotting.py:319-339: row `i`; `fit` is the amplitude of the Gaussian fitted to the counts, which starts from the number of objects. -/
def Coarse.row (c : Coarse α) (fit : List Nat → Option α) (nb i : Nat) (l : List (Obj α)) : List α :=
  let use := c.use i l
  if use.length = 0 then List.replicate nb 0
  else
    let counts := (List.range nb).map fun j => c.cell j use
    let amp := (fit counts).getD (use.length : α)
    counts.map fun (k : Nat) => (k : α) / amp

/-! ## Fine bins -/

/-- plotting.py:343-344: fine bin `i` of `nf` from `z0` to `z1`. -/
def fineBin (z0 z1 : α) (nf i : Nat) : α := (i : α) * ((z1 - z0) / (nf : α)) + z0

/-- plotting.py:348-353: the coarse bin whose row is drawn at redshift `x`, if there is one; 341 is the largest distance (the second center
must exist). -/
def Coarse.pick (c : Coarse α) (nb : Nat) (x : α) : Option Nat :=
  match argmin ((List.range nb).map fun k => |x - c.zcen k|) with
  | none => none
  | some k => if |x - c.zcen k| < 1 / 2 * (c.zcen 1 - c.zcen 0) then some k else none

/-- plotting.py:346-362: row of the map at fine bin `i`; `spline` is the cubic spline through a coarse row. -/
def Coarse.fineRow (c : Coarse α) (fit : List Nat → Option α) (spline : List α → α → α) (z0 z1 : α) (nb nf i : Nat) (l : List (Obj α)) : List α :=
  let zb := (List.range nf).map (fineBin z0 z1 nf)
  match c.pick nb (fineBin z0 z1 nf i) with
  | none => List.replicate nf 0
  | some k =>
    let d := zb.map fun z => z - fineBin z0 z1 nf i
    Plots.mapRow d (d.map (spline (c.row fit nb k l)))

/-! ## Positions -/

/-- `x % 360.0`. -/
def mod360 [FloorRing α] (x : α) : α := x - 360 * (⌊x / 360⌋ : α)

/-- Largest less smallest value; zero of an empty list (where the code raises). -/
def extent : List α → α
  | [] => 0
  | x :: xs => xs.foldl max x - xs.foldl min x

/-- plotting.py:723-731: the right ascensions that are plotted; the minimum of nothing raises. -/
def plotRa [FloorRing α] (ra : List α) : Except Plots.Err (List α) :=
  if ra.length = 0 then .error .valueError
  else
    let rot := ra.map fun x => mod360 (x + 180)
    .ok (if extent rot < extent ra then rot else ra)

/-! ## Modes of redMaGiC -/

/-- A galaxy of the calibration: sampled redshift, and whether it is bright enough for the mode. -/
structure Cand (α : Type) where
  samp : α
  bright : Bool
deriving DecidableEq, Repr

/-- redmagic_calibrate.py:513-556: the centers of the bins of which the warning tells; the galaxies are those of all modes (`gals`, not
`gals[red_poss]`); `vol` are the volumes of the bins and `n` is `n0 * 1e-4`. -/
def warned [FloorRing α] (constchi : Bool) (n : α) (r : α × α) (bs : α) (vol : List α) (gals : List (Cand α)) : List α :=
  if constchi then []
  else
    let h := RmCal.costHist r bs (gals.map Cand.samp)
    let zbins := RmCal.binCenters r bs h.length
    ((zbins.zip (List.zipWith (fun (k : Nat) v => (k : α) / v) h vol)).filter fun p => decide (p.2 < n)).map Prod.fst

/-- redmagic_calibrate.py:466-469: the range of the plot of a mode from `z0` to `z1`. -/
def plotRange [FloorRing α] (z0 z1 bs : α) : α × α := (z0, (⌈(z1 - z0) / bs⌉ : α) * bs + z0)

end Redmapper.PhotMap
