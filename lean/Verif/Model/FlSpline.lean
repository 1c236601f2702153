/-
`interpol` and `CubicSpline` of /repo/redmapper/utilities.py:331-435, 555-581 in floating point (IEEE 754 doubles; operations of `FlSolver`).

The third power is a function `cube` (the library's `pow`); the square of `dx` is a product (numpy).  `y2` is what `solve_banded` returned.  Index errors are not modelled: grids
have at least two nodes.
-/
import Verif.Model.FlSolver

namespace Redmapper.FlSpline

open Redmapper.FlSolver Redmapper.FlSolver.XF

/-- `np.searchsorted(xs, q)`; numbers sort before "not a number". -/
def ssLeft (xs : List XF) (q : XF) : Nat := (xs.takeWhile fun x => lt x q || decide (q = nan)).length

/-- utilities.py:399-400, 577. -/
def segment (xs : List XF) (q : XF) : Nat := min (ssLeft xs q - 1) (xs.length - 2)

/-- utilities.py:555-581 for one point. -/
def interpol (R : ℚ → XF) (v x : List XF) (q : XF) : XF :=
  let s := segment x q
  let diff := sub R (v.getD (s + 1) nan) (v.getD s nan)
  add R (div R (mul R (sub R q (x.getD s nan)) diff) (sub R (x.getD (s + 1) nan) (x.getD s nan))) (v.getD s nan)

/-- utilities.py:380-382. -/
structure Spline where
  x : List XF
  y : List XF
  y2 : List XF
  fixextrap : Bool

/-- utilities.py:401-407 for one point and the segment `lo`. -/
def piece (R : ℚ → XF) (cube : XF → XF) (s : Spline) (lo : Nat) (q : XF) : XF :=
  let hi := lo + 1
  let dx := sub R (s.x.getD hi nan) (s.x.getD lo nan)
  let a := div R (sub R (s.x.getD hi nan) q) dx
  let b := div R (sub R q (s.x.getD lo nan)) dx
  add R (add R (mul R a (s.y.getD lo nan)) (mul R b (s.y.getD hi nan)))
    (div R (mul R (add R (mul R (sub R (cube a) a) (s.y2.getD lo nan)) (mul R (sub R (cube b) b) (s.y2.getD hi nan))) (mul R dx dx)) (fin 6))

/-- utilities.py:384-407 `splint`. -/
def splint (R : ℚ → XF) (cube : XF → XF) (s : Spline) (q : XF) : XF := piece R cube s (segment s.x q) q

/-- utilities.py:409-435 `__call__`. -/
def call (R : ℚ → XF) (cube : XF → XF) (s : Spline) (q : XF) : XF :=
  if ¬ s.fixextrap then splint R cube s q
  else
    let v := splint R cube s q
    let v := if lt q (s.x.getD 0 nan) then s.y.getD 0 nan else v
    if lt (s.x.getD (s.x.length - 1) nan) q then s.y.getD (s.y.length - 1) nan else v

end Redmapper.FlSpline
