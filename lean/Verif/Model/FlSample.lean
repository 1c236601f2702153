/-
Draws from a tabulated distribution in floating point (IEEE 754 doubles; operations of `FlSolver`).

  /repo/redmapper/utilities.py:906-919 (`sample_from_pdf`)
  /repo/redmapper/centering.py:426-435 (`CenteringRandomSatellite`)
  /repo/redmapper/plotting.py:425-431 (redshift densities)

The three places have the same code.  `np.sum` adds in an order of its own; its result is an input.
-/
import Verif.Model.FlSolver

namespace Redmapper.FlSample

open Redmapper.FlSolver Redmapper.FlSolver.XF

/-- `astype(np.int32)` of a double: truncation; anything that is not finite becomes the smallest integer (x86).  Numbers beyond 32 bits do not
occur here. -/
def toInt : XF → ℤ
  | fin a => if 0 ≤ a then ⌊a⌋ else ⌈a⌉
  | _ => -2147483648

/-- `np.cumsum`. -/
def cumsum (R : ℚ → XF) : XF → List XF → List XF
  | _, [] => []
  | a, x :: l => add R a x :: cumsum R (add R a x) l

/-- utilities.py:908-910, centering.py:427-429, plotting.py:426-428: `cdfi`; `s` is the sum that numpy computes. -/
def cdfi (R : ℚ → XF) (pdf : List XF) (s : XF) : List ℤ :=
  (cumsum R (fin 0) (pdf.map fun f => div R f s)).map fun c => toInt (mul R c (fin pdf.length))

/-- utilities.py:912-917, centering.py:431-432, plotting.py:429-431: the place of the first `cdfi` not below the draw; `none` is an IndexError. -/
def sample (R : ℚ → XF) (pdf : List XF) (s u : XF) : Option ℕ :=
  let rand := toInt (mul R u (fin pdf.length))
  let l := cdfi R pdf s
  (List.range l.length).find? fun i => decide (rand ≤ l.getD i 0)

end Redmapper.FlSample
