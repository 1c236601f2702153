/-
Model of /repo/redmapper/redsequence.py: the look-up tables and the covariance matrices.

The splines of the parameter file are inputs.  Exact arithmetic.
-/
import Verif.Model.Background
import Mathlib.Data.Matrix.Mul

namespace Redmapper.RedSequence

open Redmapper.Background (roundHE)

variable {α : Type} [Field α] [LinearOrder α] [IsStrictOrderedRing α]

/-- redsequence.py:151-158 and 371 for redshift, 173-178 and 373-375 for magnitudes: `n` values from `start` in steps, and an overflow entry of
1000. -/
def grid (start step : α) (n : Nat) : List α := ((List.range n).map fun (k : Nat) => start + (k : α) * step) ++ [1000]

/-- redsequence.py:161, 181: `int(1. / binsize)` for a positive size. -/
def binscale [FloorRing α] (step : α) : Int := ⌊1 / step⌋

/-- redsequence.py:372, 374, 376. -/
def integers [FloorRing α] (scale : Int) (bins : List α) : List Int := bins.map fun z => roundHE (z * (scale : α))

/-- `np.searchsorted` on integers; the array is sorted (`integers_sorted`). -/
def searchInt (l : List Int) (v : Int) : Nat := (l.takeWhile fun x => decide (x < v)).length

/-- redsequence.py:401-465 `zindex`, `refmagindex` and `lumrefmagindex` for one value. -/
def index [FloorRing α] (scale : Int) (bins : List α) (q : α) : Nat := searchInt (integers scale bins) (roundHE (q * (scale : α)))

/-- redsequence.py:151: number of redshift bins. -/
def nzOf [FloorRing α] (z0 z1 step : α) : Nat := (roundHE ((z1 - z0) / step)).toNat

/-- redsequence.py:383-399 `mstar`: `none` is an IndexError. -/
def mstar [FloorRing α] (scale : Int) (bins : List α) (table : List α) (z : α) : Option α := table[index scale bins z]?

/-! ### Covariance -/

/-- redsequence.py:237: scatter, not below `minsig`. -/
def sigmaDiag (minsig s : α) : α := max s minsig

/-- redsequence.py:245-252: correlation, limited to 0.99. -/
def corrClip (s : α) : α := if 99 / 100 < s then 99 / 100 else if s < -(99 / 100) then -(99 / 100) else s

/-- redsequence.py:234-257 at one redshift; `spl j k` is the value of the spline of SIGMA[j, k]. -/
def covmat {n : Nat} (minsig : α) (spl : Fin n → Fin n → α) : Matrix (Fin n) (Fin n) α := fun j k =>
  if j = k then sigmaDiag minsig (spl j j) * sigmaDiag minsig (spl j j)
  else if j < k then corrClip (spl j k) * sigmaDiag minsig (spl j j) * sigmaDiag minsig (spl k k)
  else corrClip (spl k j) * sigmaDiag minsig (spl k k) * sigmaDiag minsig (spl j j)

/-- redsequence.py:274-296: width of the correction; `first` is the first node (not used if not positive), `none` if there is no such column. -/
def corrR (first : Option α) (spl : α) : α :=
  match first with
  | some f => let r := if f ≤ 0 then 1 else spl
              if r < 1 / 2 then 1 / 2 else r
  | none => 1

/-- redsequence.py:335-339: luminosity function table at one redshift, `f` the density at the magnitude bins. -/
def lumnorm (binsize : α) (f : List α) : List α := (List.range f.length).map fun i => binsize * (f.take (i + 1)).sum

end Redmapper.RedSequence
