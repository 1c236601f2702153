/-
Model of a survey that is run tile by tile and consolidated, in comparison with one run over the whole survey.

  /repo/redmapper/pipeline/redmappertask.py              RunRedmapperPixelTask.run (47-130)
  /repo/redmapper/pipeline/redmapperconsolidatetask.py   RedmapperConsolidateTask.run (121-206)
  /repo/redmapper/galaxy.py                              GalaxyCatalog.from_galfile, reading of a region
  /repo/redmapper/cluster_runner.py                      ClusterRunner.run (356-588)

Simplifications: those of `Runner`, with no random numbers from cluster to cluster; galaxies are told apart by their row in the whole survey (a tile numbers
those it has read from zero); the neighbours of a cluster are listed in the same order in all runs; clusters are processed in the order of the whole
survey, and their ids and the volume limits are left out (C15, C17-C20).
-/
import Verif.Model.Runner

namespace Redmapper.Tiles

open Redmapper.Runner

variable {α : Type} [Field α] [LinearOrder α]

/-- A tile: its pixel, the galaxies that are read, and the candidate clusters found among them (redmappertask.py:60-95). -/
structure Tile (α : Type) where
  pix : Nat
  gals : Nat → Bool
  cat : Cluster α → Bool

/-- What consolidation looks at. -/
structure Cuts (α : Type) where
  /-- pixel of the position of a cluster that has been processed (redmapperconsolidatetask.py:171-172) -/
  home : Out α → Nat
  maxMaskfrac : α
  minLambda : α

/-- galaxy.py:121-366, cluster_runner.py:393-399: neighbours are found among the galaxies that have been read. -/
def tileEnv (E : Env α Unit) (t : Tile α) : Env α Unit :=
  { E with neighbors := fun c => (E.neighbors c).filter fun n => t.gals n.index }

/-- cluster_runner.py:356-588 over the whole survey. -/
def whole (E : Env α Unit) (rec : Bool) (cs : List (Cluster α)) : List (Out α) := (loop1 E true rec () cs).2

/-- redmappertask.py:47-130: the run of a tile. -/
def tileRun (E : Env α Unit) (rec : Bool) (t : Tile α) (cs : List (Cluster α)) : List (Out α) := (loop1 (tileEnv E t) true rec () (cs.filter t.cat)).2

/-- redmapperconsolidatetask.py:174-176, without the pixel. -/
def sel (k : Cuts α) (o : Out α) : Bool := decide (o.c.maskfrac < k.maxMaskfrac) && decide (k.minLambda < o.c.Lambda)

/-- redmapperconsolidatetask.py:121-206: the clusters of all tiles. -/
def consolidated (E : Env α Unit) (rec : Bool) (k : Cuts α) (ts : List (Tile α)) (cs : List (Cluster α)) : List (Out α) :=
  ts.flatMap fun t => (tileRun E rec t cs).filter fun o => decide (k.home o = t.pix) && sel k o

end Redmapper.Tiles
