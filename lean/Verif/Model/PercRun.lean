/-
Model of a percolation run: the loop of `Runner` with the percolation of one cluster of `PercCen`.

  /repo/redmapper/run_percolation.py   RunPercolation._process_cluster (225-439)
  /repo/redmapper/cluster_runner.py    ClusterRunner.run (356-588)
  /repo/redmapper/cluster.py           Cluster.find_neighbors (173-254)

Simplifications: those of the two models.  The columns of the central galaxy (id_cent, refmag, and its probability in the member list) are collected in the order
of the clusters.  The derivatives of the richness after the percolation are left out; they raise if the redshift has been reset (C372).
-/
import Verif.Model.Runner
import Verif.Model.PercCen

namespace Redmapper.PercRun

variable {α : Type} [Field α] [LinearOrder α] {G P : Type}

/-- run_percolation.py:309-321: what the catalog has of the center of a cluster. -/
structure Cen (α : Type) where
  /-- mem_match_id -/
  id : Int
  /-- place of the central galaxy in the galaxy catalog (for `id_cent`), `none` if the center is not a galaxy -/
  gal : Option Nat
  refmag : α
  p : α
  redshift : α
  zLambda : α
deriving DecidableEq, Repr

structure Env (G P α : Type) where
  perc : PercCen.Env G P α
  /-- cluster_runner.py:416-432: mask and depth at a cluster, before it is centered -/
  rich : Runner.Cluster α → Cluster.Env G P α
  /-- row and magnitude error of a galaxy, by its place in the catalog -/
  gal : Nat → G
  err : Nat → α
  pos : Int → P
  /-- distance of a galaxy and a cluster, in degrees -/
  dist : Runner.Cluster α → Nat → α
  /-- cluster_runner.py:393-399: `find_neighbors` -/
  find : Runner.Cluster α → List (Runner.Nbr α)
  depth : Runner.Cluster α → α × α
  after : Runner.Cluster α → α × α × α
  rmaskRaw : α → α → Option α
  maskLim : α → α
  useMemradius : Bool
  useMemlum : Bool
  memradius : α
  memLim : α → α

/-- cluster.py:188-199. -/
def toNb (E : Env G P α) (c : Runner.Cluster α) (n : Runner.Nbr α) : Cluster.Nb G α where
  g := E.gal n.index
  refmag := n.refmag
  refmagErr := E.err n.index
  pfree := n.pfree
  dist := E.dist c n.index
  r := n.r
  chisq := 0
  thetaI := 0
  thetaR := 0
  p := 0
  pcol := 0
  pmem := 0
  index := (n.index : Int)

/-- The cluster with its neighbours (cluster.py:785-828). -/
def toCl (E : Env G P α) (c : Runner.Cluster α) (ns : List (Runner.Nbr α)) : Cluster.Cl G P α where
  pos := E.pos c.id
  z := some c.redshift
  mstar := some ((E.rich c).mstarOf c.redshift)
  mpc := some ((E.rich c).mpcOf c.redshift)
  nbs := some (ns.map (toNb E c))
  Lambda := c.Lambda
  LambdaE := c.LambdaE
  rLambda := c.rLambda
  scaleval := c.scaleval

/-- run_percolation.py:225-439 for the cluster and neighbours of the loop. -/
def percolate (E : Env G P α) (c : Runner.Cluster α) (ns : List (Runner.Nbr α)) : Bool × Finders.PS α (PercCen.Rest G P α) :=
  PercCen.process { E.perc with rich := E.rich c } c.redshift c.Lambda c.scaleval (toCl E c ns)

/-- The columns of the neighbours. -/
def upd (o : Finders.PS α (PercCen.Rest G P α)) (i : Nat) : Runner.Upd α :=
  match (PercCen.nbs o)[i]? with
  | some m => { r := m.r, p := m.p, pmem := m.pmem, cand := decide (o.rest.cen = some (.galaxy i)) }
  | none => { r := 0, p := 0, pmem := 0, cand := false }

/-- run_percolation.py:302-321: the central galaxy. -/
def cenOf (id : Int) (o : Finders.PS α (PercCen.Rest G P α)) : Cen α :=
  let n : Option (Cluster.Nb G α) := match o.rest.cen with
    | some (.galaxy i) => (PercCen.nbs o)[i]?
    | _ => none
  { id := id, gal := n.map fun n => n.index.toNat, refmag := (n.map Cluster.Nb.refmag).getD 0, p := (n.map Cluster.Nb.p).getD 0,
    redshift := o.redshift, zLambda := o.zLambda }

/-- The runner; its state is the list of centers of the clusters that were kept. -/
def runner (E : Env G P α) : Runner.Env α (List (Cen α)) where
  sample := id
  neighbors := E.find
  depth s c _ := (s, E.depth c)
  process s c ns :=
    let o := percolate E c ns
    (if o.1 then s else s ++ [cenOf c.id o.2], o.1,
     { c with Lambda := o.2.Lambda, LambdaE := o.2.rest.cl.LambdaE, scaleval := o.2.scaleval, zLambda := o.2.zLambda, zLambdaE := o.2.zLambdaE,
              redshift := o.2.redshift, rLambda := o.2.rest.cl.rLambda }, upd o.2)
  after s c _ := (s, E.after c)
  rmaskRaw := E.rmaskRaw
  maskLim := E.maskLim
  useMemradius := E.useMemradius
  useMemlum := E.useMemlum
  memradius := E.memradius
  memLim := E.memLim

/-- cluster_runner.py:356-588 with masking: the centers of the clusters kept, and what is left of all clusters. -/
def run (E : Env G P α) (rec : Bool) (cs : List (Runner.Cluster α)) : List (Cen α) × List (Runner.Out α) :=
  let q := Runner.loop1 (runner E) true rec [] cs
  (q.1.sig, q.2)

end Redmapper.PercRun
