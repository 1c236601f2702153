/-
Model of what percolation does to one cluster, with its neighbours: the steps of `Finders.percProcess` with the richness of `Cluster`, and the
looks at neighbours that decide whether the cluster is kept.

  /repo/redmapper/run_percolation.py   RunPercolation._process_cluster (225-439)
  /repo/redmapper/centering.py         maxind of the centering classes (105, 343, 391, 444)
  /repo/redmapper/cluster.py           Cluster.calc_richness (458-563)

Simplifications: those of `Finders` and `Cluster`; the centering (with the new distances of the neighbours), the photometric redshift, the mask at the new
center, and the numbers of neighbours within radii that depend on powers of the richness, are functions of the cluster.
-/
import Verif.Model.Finders
import Verif.Model.Cluster
import Verif.Model.Centering

namespace Redmapper.PercCen

variable {α : Type} [Field α] [LinearOrder α] {G P : Type}

/-- What a centering class centers on: a neighbour, or a place without a galaxy. -/
inductive Center where
  | galaxy (i : Nat)
  | point
deriving DecidableEq, Repr

/-- centering.py:105, 343, 444 and 391: `maxind` is the neighbour, or -1. -/
def Center.maxind : Center → Int
  | .galaxy i => i
  | .point => -1

/-- The part of the cluster that the finder carries along. -/
structure Rest (G P α : Type) where
  cl : Cluster.Cl G P α
  /-- environment of the richness: mask and depth at the center -/
  env : Cluster.Env G P α
  cen : Option Center

structure Env (G P α : Type) where
  rich : Cluster.Env G P α
  keepz : Bool
  minlambda : α
  pbcgCut : α
  maxiter : Nat
  /-- run_percolation.py:254: the neighbours within the centering radius -/
  lc : Cluster.Cl G P α → List Nat
  zlam0 : Cluster.Cl G P α → α
  /-- run_percolation.py:286-304: the center, and the cluster with the distances to it; `none` if no center is found -/
  center : Cluster.Cl G P α → α → Option (Center × Cluster.Cl G P α)
  /-- run_percolation.py:336-345: mask and depth at the center -/
  maskAt : Cluster.Cl G P α → Cluster.Env G P α
  nLc : Nat → Cluster.Cl G P α → Nat
  zlam : Cluster.Cl G P α → α × α

/-- numpy indexing with a negative index counts from the end. -/
def pyGet {β : Type} (l : List β) (i : Int) : Option β :=
  if 0 ≤ i then l[i.toNat]? else if (l.length : Int) + i < 0 then none else l[((l.length : Int) + i).toNat]?

/-- cluster.py:458-563 at the redshift of the cluster (setting it updates scales and radii of the neighbours, cluster.py:785-838), for the finder: richness, scale,
and the rest.  An exception is taken for a failure. -/
def richOf (calcErr : Bool) (index : Option (List Nat)) (c : Finders.PS α (Rest G P α)) : α × α × Rest G P α :=
  match Cluster.setZ c.rest.env c.redshift c.rest.cl with
  | .error _ => (-1, -1, c.rest)
  | .ok cl =>
    match Cluster.richness c.rest.env calcErr index cl with
    | (k, .ok lam) => (lam, k.scaleval, { c.rest with cl := k })
    | (k, .error _) => (-1, -1, { c.rest with cl := k })

/-- The neighbours. -/
def nbs (c : Finders.PS α (Rest G P α)) : List (Cluster.Nb G α) := c.rest.cl.nbs.getD []

/-- run_percolation.py:241: the nearest neighbour. -/
def near (c : Finders.PS α (Rest G P α)) : Nat := (Centering.argmin ((nbs c).map Cluster.Nb.r)).getD 0

/-- radius of the nearest neighbour (run_percolation.py:263, 393) -/
def rmin (c : Finders.PS α (Rest G P α)) : α := ((nbs c).map Cluster.Nb.r).getD (near c) 0

/-- The cluster with radii at its redshift: assigning a redshift (run_percolation.py:380) updates them (cluster.py:785-838).  In the loop this is done by the
richness that follows. -/
def here (c : Finders.PS α (Rest G P α)) : Finders.PS α (Rest G P α) :=
  match Cluster.setZ c.rest.env c.redshift c.rest.cl with
  | .error _ => c
  | .ok cl => { c with rest := { c.rest with cl := cl } }

/-- run_percolation.py:225-439. -/
def penv (E : Env G P α) : Finders.PEnv α (Rest G P α) where
  keepz := E.keepz
  minlambda := E.minlambda
  pbcgCut := E.pbcgCut
  maxiter := E.maxiter
  pfreeNear c := ((nbs c).map Cluster.Nb.pfree).getD (near c) 0
  nCenter c := (E.lc c.rest.cl).length
  richness0 c := richOf false (some (E.lc c.rest.cl)) c
  nIncut c := ((nbs c).filter fun n => decide (0 < n.pmem) && decide (rmin c < n.r)).length
  zlam0 c := E.zlam0 c.rest.cl
  center c := (E.center c.rest.cl c.redshift).map fun q => { c.rest with cl := q.2, cen := some q.1 }
  maskUpd c := { c.rest with env := E.maskAt c.rest.cl }
  nLc i c := E.nLc i c.rest.cl
  richness c := richOf true none c
  pfreeCen c := match c.rest.cen with
    | none => 0
    | some k => ((pyGet (nbs c) k.maxind).map Cluster.Nb.pfree).getD 0
  zlam c := E.zlam c.rest.cl
  nW c := let k := here c
    ((nbs k).filter fun n => decide (rmin k < n.r) && decide (n.r < k.rest.cl.rLambda) && decide (0 < n.p)).length
  finish c := c.rest

/-- run_percolation.py:225-439: whether the cluster is bad, and what it is. -/
def process (E : Env G P α) (z lam sv : α) (c : Cluster.Cl G P α) : Bool × Finders.PS α (Rest G P α) :=
  Finders.percProcess (penv E) { redshift := z, Lambda := lam, scaleval := sv, zLambda := 0, zLambdaE := 0, rest := { cl := c, env := E.rich, cen := none } }

end Redmapper.PercCen
