/-
`make_nodes` of /repo/redmapper/utilities.py:833-877 in floating point (IEEE 754 doubles; operations of `FlSolver`).

`none` is the ValueError of the maximum of an empty array (and of `np.arange` for limits that are not numbers).
-/
import Verif.Model.FlBins

namespace Redmapper.FlNodes

open Redmapper.FlSolver Redmapper.FlSolver.XF Redmapper.FlBins

/-- `np.clip(x, lo, hi)`; not a number stays. -/
def clip (x lo hi : XF) : XF :=
  let y := if lt x lo then lo else x
  if lt hi y then hi else y

/-- utilities.py:858-861. -/
def nodeEnd (z1 : XF) : Option XF → XF
  | none => z1
  | some x => if lt x (fin 0) then z1 else clip x (fin 0) z1

/-- `np.max` of numbers. -/
def maxOf : List XF → Option XF
  | [] => none
  | x :: l => some (l.foldl (fun a b => if lt a b then b else a) x)

/-- utilities.py:833-877; the test of 870 is never zero (the bitwise complement of a bool), as in `Utilities.makeNodes`. -/
def makeNodes (R : ℚ → XF) (z0 z1 step : XF) (maxnode : Option XF) : Option (List XF) :=
  let m := nodeEnd z1 maxnode
  let nodes := (List.range (ceilBins R z0 m step).toNat).map (arangeAt R z0 step)
  (maxOf nodes).map fun top =>
    let nodes := if lt (add R (div R step (fin 2)) (R (1 / 100))) (sub R m top) then nodes ++ [m] else nodes.set (nodes.length - 1) m
    if lt m z1 then nodes ++ [z1] else nodes

end Redmapper.FlNodes
