/-
Model of the width of id columns, on top of `Runner`.

  /repo/redmapper/cluster.py          cluster_dtype_base (23), member_dtype_base (67), ClusterCatalog.__init__ (902-918)
  /repo/redmapper/cluster_runner.py   ClusterRunner.run (558-585), _postprocess (589-609)
  /repo/redmapper/randoms.py          GenerateRandoms.generate_randoms (78, 139-147)

A catalog that is read keeps the type of its own columns, so that ids of clusters are as wide as in the file of the user; member rows and random
points have ids of 32 bits.  Assignment to a column of 32 bits keeps the lowest 32 bits (numpy arrays and scalars).
-/
import Verif.Model.Runner

namespace Redmapper.IdWidth

open Redmapper.Runner

/-- What a column of signed 32-bit integers keeps of a number. -/
def i4 (x : Int) : Int := (x + 2 ^ 31) % 2 ^ 32 - 2 ^ 31

variable {α σ : Type} [Field α] [LinearOrder α]

/-- cluster_runner.py:558-560: the id of the cluster in the table of its members. -/
def store (m : Member α) : Member α := { m with id := i4 m.id }

/-- cluster_runner.py:356-609: the pass over the clusters, with member tables, and the post-processing. -/
def run (E : Env α σ) (doMask rec : Bool) (sig : σ) (minLambda : α) (cs : List (Cluster α)) : Except Err (List (Cluster α) × Option (List (Member α))) :=
  let os := (loop1 E doMask rec sig cs).2
  postprocess minLambda (os.map Out.c) ((members os).map fun ms => ms.map store)

/-- randoms.py:139-147: ids of the random points of a run; `chunks` are the numbers of points of each turn. -/
def randIds : Nat → List Nat → List Int
  | _, [] => []
  | ctr, n :: ns => ((List.range n).map fun (k : Nat) => i4 ((ctr : Int) + 1 + k)) ++ randIds (ctr + n) ns

end Redmapper.IdWidth
