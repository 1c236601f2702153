/-
Model of a run over a catalog with percolation masking, down to the richness of each cluster: the loop of `Runner` with the richness of `Cluster`.

  /repo/redmapper/runcat.py           RunCatalog._process_cluster (117-183), without converge_zlambda and with at least one iteration (the defaults)
  /repo/redmapper/cluster_runner.py   ClusterRunner.run (385-588)
  /repo/redmapper/cluster.py          Cluster.calc_richness (458-563)

Simplifications: those of the two models; the photometric redshift is a function of the cluster with its richness (it works on a deep copy,
zlambda.py:36-38); depth and mask at a cluster are functions of it, the noise in the mask correction is inside the environment.
-/
import Verif.Model.Runner
import Verif.Model.Cluster

namespace Redmapper.Perc

variable {α : Type} [Field α] [LinearOrder α] {G P : Type}

/-- What the run consults. -/
structure Env (G P α : Type) where
  /-- the environment of the richness -/
  rich : Cluster.Env G P α
  /-- row and magnitude error of a galaxy, by its place in the catalog -/
  gal : Nat → G
  err : Nat → α
  /-- position of a cluster -/
  pos : Int → P
  /-- cluster_runner.py:393-399: `find_neighbors` -/
  find : Runner.Cluster α → List (Runner.Nbr α)
  /-- cluster_runner.py:412-432: depth and masked fraction at a cluster -/
  depth : Runner.Cluster α → α × α
  /-- runcat.py:151-160: `calc_zlambda`, `none` for a failure -/
  zlam : Cluster.Cl G P α → Option (α × α)
  /-- cluster_runner.py:446-474: corrected redshift, its error, and masked fraction -/
  after : Runner.Cluster α → α × α × α
  rmaskRaw : α → α → Option α
  maskLim : α → α
  useMemradius : Bool
  useMemlum : Bool
  memradius : α
  memLim : α → α

/-- cluster.py:188-199: a neighbour as the richness sees it. -/
def toNb (E : Env G P α) (n : Runner.Nbr α) : Cluster.Nb G α :=
  { g := E.gal n.index, refmag := n.refmag, refmagErr := E.err n.index, pfree := n.pfree, dist := 0, r := n.r, chisq := 0, thetaI := 0, thetaR := 0,
    p := n.p, pcol := 0, pmem := n.pmem, index := (n.index : Int) }

/-- The cluster with its neighbours and the scales of its redshift (cluster.py:785-828). -/
def toCl (E : Env G P α) (c : Runner.Cluster α) (ns : List (Runner.Nbr α)) : Cluster.Cl G P α :=
  { pos := E.pos c.id, z := some c.redshift, mstar := some (E.rich.mstarOf c.redshift), mpc := some (E.rich.mpcOf c.redshift),
    nbs := some (ns.map (toNb E)), Lambda := c.Lambda, LambdaE := c.LambdaE, rLambda := c.rLambda, scaleval := c.scaleval }

/-- What the richness wrote into the neighbours. -/
def upd (k : Cluster.Cl G P α) (i : Nat) : Runner.Upd α :=
  match (k.nbs.getD [])[i]? with
  | some m => { r := m.r, p := m.p, pmem := m.pmem, cand := false }
  | none => { r := 0, p := 0, pmem := 0, cand := false }

/-- runcat.py:117-183: is the cluster bad, its columns, and those of the neighbours.  (An exception of the richness needs an empty list of neighbours, which
the loop has excluded.) -/
def process (E : Env G P α) (c : Runner.Cluster α) (ns : List (Runner.Nbr α)) : Bool × Runner.Cluster α × (Nat → Runner.Upd α) :=
  if 7 / 10 < c.maskfrac then (true, c, upd (toCl E c ns))
  else
    match Cluster.richness E.rich true none (toCl E c ns) with
    | (k, .error _) => (true, c, upd k)
    | (k, .ok lam) =>
      let c1 := { c with Lambda := lam, LambdaE := k.LambdaE, rLambda := k.rLambda, scaleval := k.scaleval }
      if lam < 3 then (true, c1, upd k)
      else
        match E.zlam k with
        | none => (true, c1, upd k)
        | some (z, e) => (false, { c1 with zLambda := z, zLambdaE := e }, upd k)

/-- The runner of the catalog. -/
def runner (E : Env G P α) : Runner.Env α Unit where
  sample := id
  neighbors := E.find
  depth _ c _ := ((), E.depth c)
  process _ c ns := ((), process E c ns)
  after _ c _ := ((), E.after c)
  rmaskRaw := E.rmaskRaw
  maskLim := E.maskLim
  useMemradius := E.useMemradius
  useMemlum := E.useMemlum
  memradius := E.memradius
  memLim := E.memLim

/-- cluster_runner.py:356-588 with masking: what is left of every cluster. -/
def run (E : Env G P α) (rec : Bool) (cs : List (Runner.Cluster α)) : List (Runner.Out α) := (Runner.loop1 (runner E) true rec () cs).2

end Redmapper.Perc
