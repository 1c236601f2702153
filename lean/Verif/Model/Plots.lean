/-
Model of the numbers shown in the diagnostic plots.

  /repo/redmapper/plotting.py

Simplifications: arithmetic is exact; drawing is left out, a plot is the list of the numbers drawn; the reverse indices of
esutil.stat.histogram are the positions in increasing order; volumes and the spline are parameters; a p(z) that sums to zero gives NaN,
for which no sample is found.
-/
import Verif.Model.Consolidate
import Verif.Model.Utilities
import Verif.Model.Mask
import Verif.Model.ZlamCal
import Mathlib.Algebra.Order.Floor.Ring
import Mathlib.Analysis.Real.Sqrt

namespace Redmapper.Plots

open Redmapper.Utilities (arange ssLeft interpol samplePdf)
open Redmapper.Mask (median)

inductive Err where
  | valueError
  | indexError
deriving DecidableEq, Repr

variable {α : Type} [Field α] [LinearOrder α]

/-! ## Spectroscopic comparison -/

/-- One object: spectroscopic redshift, photometric redshift and its error. -/
structure Obj (α : Type) where
  zspec : α
  zphot : α
  zphotE : α
deriving DecidableEq, Repr

/-- plotting.py:198: more than `nsig` errors away; a difference over a zero error is infinite, zero over zero is NaN. -/
def outlier (nsig : α) (o : Obj α) : Bool :=
  if o.zphotE = 0 then decide (o.zphot - o.zspec ≠ 0) else decide (nsig < |o.zphot - o.zspec| / o.zphotE)

/-- plotting.py:211-224: center of the bin, median offset, scatter and median error. -/
structure Bin (α : Type) where
  center : α
  bias : α
  scatter : α
  err : α
deriving DecidableEq, Repr

/-- plotting.py:211, 220: the objects in a bin of the histogram from 0 to `zmax - 0.001`. -/
def binObjs [FloorRing α] (zmax bs : α) (use : List (Obj α)) (k : Nat) : List (Obj α) :=
  use.filter fun o => decide (0 ≤ o.zphot) && decide (o.zphot ≤ zmax - 1 / 1000) && decide (⌊o.zphot / bs⌋ = (k : Int))

/-- plotting.py:214-224: bins with fewer than three objects stay zero. -/
def binStats (bs : α) (k : Nat) (l : List (Obj α)) : Bin α :=
  let c := (k : α) * bs + 0 + bs / 2
  if 3 ≤ l.length then
    let b := median (l.map fun o => o.zspec - o.zphot)
    { center := c, bias := b, scatter := 14862 / 10000 * median (l.map fun o => |(o.zspec - o.zphot) - b|), err := median (l.map Obj.zphotE) }
  else { center := c, bias := 0, scatter := 0, err := 0 }

/-- plotting.py:154-224 `plot_values`: fraction of outliers and the curves drawn; the minimum of no redshifts (line 306) raises. -/
def plotValues [FloorRing α] (nsig zmax bs : α) (l : List (Obj α)) : Except Err (α × List (Bin α)) :=
  let use := l.filter fun o => decide (0 < o.zspec)
  if use.length = 0 then .error .valueError
  else
    let bad := use.filter (outlier nsig)
    let n := (⌊(zmax - 1 / 1000) / bs⌋ + 1).toNat
    .ok ((bad.length : α) / (use.length : α), (List.range n).map fun k => binStats bs k (binObjs zmax bs use k))

/-- plotting.py:104-115: redshifts of the clusters from their members; rows of `mem` are id and redshift. -/
def memberZ (ids : List Int) (mem : List (Int × α)) : Except Err (List α) :=
  let mem := mem.filter fun m => decide (0 < m.2)
  match Consolidate.esMatch ids (mem.map Prod.fst) with
  | .error _ => .error .valueError
  | .ok ps =>
    let a := ps.map Prod.fst
    match a.min? with
    | none => .error .valueError
    | some amin => .ok ((List.range ids.length).map fun i =>
        let i1a := (List.range a.length).filter fun t => decide (a[t]? = some (amin + i))
        if i1a.length = 0 then 0 else median (i1a.filterMap fun t => (mem[t]?).map Prod.snd))

/-! ## The map of photometric against spectroscopic redshifts -/

/-- plotting.py:353-362: one row of the map; `dz` are the offsets of the columns and `y` the spline there. -/
def mapRow (dz y : List α) : List α :=
  let y := List.zipWith (fun d v => if 1 / 10 < |d| ∨ v < 0 then 0 else v) dz y
  let m := y.foldl max (y.headD 0)
  if m = 0 then y.map fun _ => 0 else y.map fun v => v / m

/-- plotting.py:364-365. -/
def threshold (l : List α) : List α := l.map fun v => if v < 1 / 1000 then 0 else v

/-- plotting.py:367: `scipy.ndimage.uniform_filter(size=5, mode='nearest')` in one dimension. -/
def smooth5 (l : List α) : List α := (List.range l.length).map fun i =>
  (((List.range 5).map fun j => l.getD (min (i + j - 2) (l.length - 1)) 0).sum) / 5

/-! ## Densities -/

noncomputable section

/-- One bin of the density plot. -/
structure NzBin where
  center : ℝ
  count : Nat
  dens : ℝ
  err : ℝ

/-- plotting.py:472-478: volume of a bin; the area is the first one of the table at or above the center. -/
def nzVol (V : ℝ → ℝ → ℝ) (z0 z1 bs : ℝ) (area : List (ℝ × ℝ)) (c : ℝ) : ℝ :=
  V (max (c - bs / 2) z0) (min (c + bs / 2) z1) *
    ((area.getD (min (ssLeft (area.map Prod.fst) c) (area.length - 1)) (0, 0)).2 / (41252961 / 1000))

/-- plotting.py:468-481: all bins. -/
def nzBins (V : ℝ → ℝ → ℝ) (z0 z1 bs : ℝ) (area : List (ℝ × ℝ)) (zs : List ℝ) : List NzBin :=
  (List.range (⌊(z1 - 1 / 10000 - z0) / bs⌋ + 1).toNat).map fun k : Nat =>
    let h := zs.countP fun z => decide (z0 ≤ z) && decide (z ≤ z1 - 1 / 10000) && decide (⌊(z - z0) / bs⌋ = (k : Int))
    let c := z0 + ((k : ℝ) + 1 / 2) * bs
    let vol := nzVol V z0 z1 bs area c
    let dens := (h : ℝ) / vol
    { center := c, count := h, dens := dens, err := Real.sqrt (dens * vol) / vol }

/-- plotting.py:483-484: the bins drawn. -/
def nzShown (l : List NzBin) : List NzBin := by
  classical exact (l.filter fun b => decide (0 < b.dens ∧ 0 < b.err)).filter fun b => decide (5 < b.dens / b.err)

/-- plotting.py:418-424: grid for a redshift sampled from the p(z) of a cluster. -/
def pzGrid (first last : ℝ) : List ℝ := (List.range 100).map fun i : Nat => (i : ℝ) / 100 * (last - first) + first

/-- plotting.py:418-431; `u` is the draw. -/
def pzSample (pzbins pz : List ℝ) (u : ℝ) : Except Err ℝ := by
  classical exact
  let x := pzGrid (pzbins.getD 0 0) (pzbins.getD (pzbins.length - 1) 0)
  let y := x.map (interpol pz pzbins)
  if y.sum = 0 then .error .indexError
  else match samplePdf x y u with
    | .error _ => .error .indexError
    | .ok v => .ok v

end

/-- plotting.py:638: counts of `np.histogram` with the edges `np.arange(0, 200, binsize)`. -/
def nlambda [FloorRing α] (bs : α) (lam : List α) : List Nat :=
  let edges := arange 0 200 bs
  (List.range (edges.length - 1)).map fun i => ZlamCal.binCount edges i lam

end Redmapper.Plots
