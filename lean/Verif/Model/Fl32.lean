/-
Columns in single precision: what they keep of numbers computed in double precision, and the sums and comparisons made with them.

  /repo/redmapper/cluster_runner.py   ClusterRunner.run (361, 405-408, 510-514, 564-566): `pgal`, availability, members
  /repo/redmapper/cluster.py          cluster_dtype_base (24-63), member_dtype_base (68-85)
  /repo/redmapper/run_likelihoods.py  RunLikelihoods._process_cluster (162-164, 237), _postprocess (251-255)
  /repo/redmapper/run_percolation.py  RunPercolation._more_setup (147-150, 174)

numpy: an array of single precision and a Python number are combined in single precision, one of single and one of double precision in double
precision; an assignment to a column of single precision rounds.  Simplifications: as in `FlSolver`; the redshift range is of Python numbers, and
`np.argsort` is any order in which the values do not decrease.
-/
import Verif.Model.FlSolver

namespace Redmapper.Fl32

open FlSolver FlSolver.XF

/-- IEEE 754 binary32: exponent of the last digit of a number that is not zero. -/
def ulpExp32 (q : ℚ) : ℤ := max (Int.log 2 |q|) (-126) - 23

/-- IEEE 754 binary32: rounding of a rational number, with subnormal numbers and overflow. -/
def r32 (q : ℚ) : XF :=
  if q = 0 then .fin 0
  else
    let v := (roundEven (q / 2 ^ ulpExp32 q) : ℚ) * 2 ^ ulpExp32 q
    if (2 : ℚ) ^ (128 : Nat) ≤ v then .pinf else if v ≤ -(2 : ℚ) ^ (128 : Nat) then .ninf else .fin v

/-- Assignment to a column of single precision (cluster.py:26-63, 69-85). -/
def store : XF → XF
  | fin q => r32 q
  | pinf => pinf
  | ninf => ninf
  | nan => nan

/-- cluster_runner.py:406 `1.0 - self.pgal[...]`, in single precision. -/
def avail (g : XF) : XF := sub r32 (fin 1) g

/-- What a cluster has computed for a neighbour: its row, the probability `p`, and whether it is bright and near enough to be masked
(cluster_runner.py:510-511). -/
structure Nb where
  index : Nat
  p : XF
  inside : Bool
deriving DecidableEq

/-- cluster_runner.py:510-512, the neighbours `u`. -/
def taken (n : Nb) : Bool := n.inside && lt (fin 0) n.p

/-- cluster_runner.py:514 for one galaxy: the sum is in double precision (`R`), and stored in single precision. -/
def addp (R : ℚ → XF) (g p : XF) : XF := store (add R g p)

/-- cluster_runner.py:513-514 `self.pgal[index[u]] += p[u]`: with a repeated index only the last addition survives. -/
def mask (R : ℚ → XF) (pgal : Nat → XF) (ns : List Nb) : Nat → XF := fun i =>
  match ((ns.filter taken).filter fun n => n.index = i).getLast? with
  | none => pgal i
  | some n => addp R (pgal i) n.p

/-- cluster_runner.py:361 and the loop over the clusters: `self.pgal` after clusters with these neighbours. `process` is what the cluster computes of its
neighbours, which may depend on all that is masked before it. -/
def run (R : ℚ → XF) (process : (Nat → XF) → Nat → List Nb) : Nat → Nat → XF
  | 0 => fun _ => fin 0
  | k + 1 => mask R (run R process k) (process (run R process k) k)

/-- run_likelihoods.py:162, 251: a failed likelihood, a Python number. -/
def failed : XF := fin (-100000000000)

/-- run_likelihoods.py:162-237 and 251: is a cluster in the catalog of likelihoods?  `lam` is its likelihood, `none` if it is not computed. -/
def kept (lam : Option XF) : Bool := lt (store failed) (store (lam.getD failed))

/-- run_likelihoods.py:237: `lnbcglike` is not a column, and keeps its double precision. -/
def lnlike (R : ℚ → XF) (bcg lam : XF) : XF := store (add R bcg (store lam))

/-- The columns of a cluster that percolation selects with, as computed. -/
structure Cl where
  z : XF
  bcg : XF
  lam : XF
  Lambda : XF

/-- run_percolation.py:147-150. -/
def use (R : ℚ → XF) (z0 z1 minlambda : ℚ) (c : Cl) : Bool :=
  lt (store (fin z0)) (store c.z) && lt (store c.z) (store (fin z1)) && finite (lnlike R c.bcg c.lam) && lt (store (fin minlambda)) (store c.Lambda)

/-- run_percolation.py:174 `np.argsort(...)[::-1]`: `st` is a possible result. -/
def Sorted (R : ℚ → XF) (st : List Cl) : Prop := st.Pairwise fun a b => le (lnlike R b.bcg b.lam) (lnlike R a.bcg a.lam) = true

/-- cluster_runner.py:557-566: probability and availability of a member, if there is a row for it; `pfree` is in double precision. -/
def member (p pfree : XF) (cand : Bool) : Option (XF × XF) :=
  if lt (fin (5764607523034235 / 2 ^ 59)) pfree || cand then some (store p, store pfree) else none

end Redmapper.Fl32
