/-
The richness error of /repo/redmapper/cluster.py:520-537 in floating point (IEEE 754 doubles; operations of `FlSolver`).

`np.sum` adds pairwise, in blocks that depend on the length only: any binary tree of additions over the places of the array is allowed here, the same one for
the two sums (arrays of the same length).
-/
import Verif.Model.FlSolver

namespace Redmapper.FlErr

open Redmapper.FlSolver Redmapper.FlSolver.XF

/-- An order of additions over the places of an array. -/
inductive Order
  | zero
  | place (i : ℕ)
  | plus (a b : Order)

/-- Value of a sum in an order. -/
def sumIn (R : ℚ → XF) (f : ℕ → XF) : Order → XF
  | .zero => fin 0
  | .place i => f i
  | .plus a b => add R (sumIn R f a) (sumIn R f b)

/-- cluster.py:526: `bar_pmem = np.sum(pmem**2.0)/np.sum(pmem)`. -/
def barPmem (R : ℚ → XF) (t : Order) (pmem : ℕ → XF) : XF := div R (sumIn R (fun i => mul R (pmem i) (pmem i)) t) (sumIn R pmem t)

/-- cluster.py:530: `self.scaleval = np.absolute(lam / np.sum(pmem))`. -/
def scaleval (R : ℚ → XF) (t : Order) (pmem : ℕ → XF) (lam : XF) : XF := XF.abs (div R lam (sumIn R pmem t))

/-- cluster.py:532: `lam_unscaled = lam / self.scaleval`. -/
def unscaled (R : ℚ → XF) (t : Order) (pmem : ℕ → XF) (lam : XF) : XF := div R lam (scaleval R t pmem lam)

/-- cluster.py:537: the argument of `np.sqrt`; `c` is `lam_cerr`. -/
def radicand (R : ℚ → XF) (t : Order) (pmem : ℕ → XF) (lam c : XF) : XF :=
  add R
    (mul R (mul R (sub R (fin 1) (barPmem R t pmem)) (unscaled R t pmem lam)) (mul R (scaleval R t pmem lam) (scaleval R t pmem lam)))
    (mul R c c)

end Redmapper.FlErr
