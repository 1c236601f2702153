/-
Bins and table look-ups of redMaPPer in floating point (IEEE 754 doubles; operations of `FlSolver`).

  /repo/redmapper/background.py (number of bins, look-up of a redshift)
  /repo/redmapper/run_zscan.py, volumelimit.py, redmagic/redmagic_calibrate.py (number of bins)
  /repo/redmapper/redsequence.py, zlambda.py (number of bins, values and look-ups of the tables)

Rounding is the parameter `R : ℚ → XF`; a conversion of a value that is not finite to an integer (undefined in C) gives 0.
-/
import Verif.Model.FlSolver

namespace Redmapper.FlBins

open Redmapper.FlSolver Redmapper.FlSolver.XF

/-- `np.ceil(x).astype(np.int32)`. -/
def ceilInt : XF → ℤ
  | fin a => ⌈a⌉
  | _ => 0

/-- `np.round(x).astype(np.int64)`: ties to even. -/
def roundInt : XF → ℤ
  | fin a => roundEven a
  | _ => 0

/-- `int(x)`: truncation. -/
def truncInt : XF → ℤ
  | fin a => if 0 ≤ a then ⌊a⌋ else ⌈a⌉
  | _ => 0

/-- background.py:318, 322, 327, 330, 618, 622; run_zscan.py:64; volumelimit.py:112; redmagic_calibrate.py:386, 463, 468:
`np.ceil((hi - lo) / size)`. -/
def ceilBins (R : ℚ → XF) (lo hi size : XF) : ℤ := ceilInt (div R (sub R hi lo) size)

/-- redsequence.py:151, zlambda.py:621: `np.round((hi - lo) / size)`. -/
def roundBins (R : ℚ → XF) (lo hi size : XF) : ℤ := roundInt (div R (sub R hi lo) size)

/-- background.py:319, 323, 328, 331, 619, 623; run_zscan.py:65; redsequence.py:152; zlambda.py:622: `np.arange(n) * size + lo` at `i`. -/
def binAt (R : ℚ → XF) (lo size : XF) (i : ℕ) : XF := add R (mul R (fin i) size) lo

/-- `np.arange(start, stop, step)[i]` of numpy: `start + i * delta` with `delta = (start + step) - start` (redsequence.py:174-175). -/
def arangeAt (R : ℚ → XF) (start step : XF) (i : ℕ) : XF := add R start (mul R (fin i) (sub R (add R start step) start))

/-- redsequence.py:161, 181: `int(1. / size)`. -/
def scaleOf (R : ℚ → XF) (size : XF) : ℤ := truncInt (div R (fin 1) size)

/-- redsequence.py:372, 374, 376, 418, 441, 461: `np.round(x * scale).astype(np.int64)`. -/
def intAt (R : ℚ → XF) (scale : ℤ) (x : XF) : ℤ := roundInt (mul R x (fin scale))

/-- `np.searchsorted` on a sorted array of integers. -/
def searchInt (l : List ℤ) (v : ℤ) : ℕ := (l.takeWhile fun x => decide (x < v)).length

/-- redsequence.py:372-376: the integers of the bins, the last of which is the overflow bin of 1000. -/
def integers (R : ℚ → XF) (scale : ℤ) (bins : List XF) : List ℤ := (bins ++ [fin 1000]).map (intAt R scale)

/-- redsequence.py:401-465: `zindex`, `refmagindex`, `lumrefmagindex` of one value. -/
def index (R : ℚ → XF) (scale : ℤ) (bins : List XF) (q : XF) : ℕ := searchInt (integers R scale bins) (intAt R scale q)

/-- background.py:155: `np.clip(np.round((z - zmin) / (zbins[1] - zmin)), 0, zbins.size - 1)`. -/
def bkgIndex (R : ℚ → XF) (bins : List XF) (z : XF) : ℤ :=
  let z0 := bins.getD 0 nan
  let z1 := bins.getD 1 nan
  max 0 (min (roundInt (div R (sub R z z0) (sub R z1 z0))) ((bins.length : ℤ) - 1))

/-- redsequence.py:151-161, 372: the redshifts of the table without the overflow bin. -/
def zTable (R : ℚ → XF) (lo hi size : XF) : List XF := (List.range (roundBins R lo hi size).toNat).map (binAt R lo size)

/-- redsequence.py:401-421 on that table. -/
def zindex (R : ℚ → XF) (lo hi size : XF) (q : XF) : ℕ := index R (scaleOf R size) (zTable R lo hi size) q

/-- background.py:96: `np.arange(zrange[0], zrange[1], zbinsize)`; numpy makes `ceil((stop - start) / step)` values. -/
def bkgTable (R : ℚ → XF) (lo hi size : XF) : List XF := (List.range (ceilBins R lo hi size).toNat).map (arangeAt R lo size)

/-- redsequence.py:174, 179-182, 374: magnitudes of the table, `n` bins of 0.01 without the overflow bin. -/
def magTable (R : ℚ → XF) (start : XF) (n : ℕ) : List XF := (List.range n).map (arangeAt R start (R (1 / 100)))

/-- redsequence.py:423-443. -/
def magIndex (R : ℚ → XF) (start : XF) (n : ℕ) (q : XF) : ℕ := index R (scaleOf R (R (1 / 100))) (magTable R start n) q

end Redmapper.FlBins
