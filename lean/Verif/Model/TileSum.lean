/-
Model of what the consolidated catalogs of a survey have of one galaxy: its memberships, and the clusters that are centered on it.

  /repo/redmapper/pipeline/redmappertask.py              RunRedmapperPixelTask.run (47-130)
  /repo/redmapper/pipeline/redmapperconsolidatetask.py   RedmapperConsolidateTask.run (121-206)
  /repo/redmapper/cluster_runner.py                      ClusterRunner.run (356-588)
  /repo/redmapper/run_percolation.py                     RunPercolation._process_cluster (225-439)

Simplifications: those of `Tiles`, `Perc` and `PercRun`.
-/
import Verif.Model.Tiles
import Verif.Model.Perc
import Verif.Model.PercRun

namespace Redmapper.TileSum

variable {α : Type} [Field α] [LinearOrder α] {G P : Type}

/-- cluster_runner.py:393-399, galaxy.py:121-366: in the run of a tile, neighbours are found among the galaxies it has read. -/
def richTile (E : Perc.Env G P α) (t : Tiles.Tile α) : Perc.Env G P α := { E with find := fun c => (E.find c).filter fun n => t.gals n.index }

/-- The same with percolation (run_percolation.py:225-439). -/
def percTile (E : PercRun.Env G P α) (t : Tiles.Tile α) : PercRun.Env G P α := { E with find := fun c => (E.find c).filter fun n => t.gals n.index }

/-- redmapperconsolidatetask.py:121-206: the clusters of all tiles, each with the list of its members. -/
def clusters (E : Perc.Env G P α) (rec : Bool) (k : Tiles.Cuts α) (ts : List (Tiles.Tile α)) (cs : List (Runner.Cluster α)) : List (Runner.Out α) :=
  ts.flatMap fun t => (Perc.run (richTile E t) rec (cs.filter t.cat)).filter fun o => decide (k.home o = t.pix) && Tiles.sel k o

/-- redmapperconsolidatetask.py:121-206: the centers of the clusters of all tiles.  `home`: the pixel of the position of the cluster (171-172); `cuts`: mask fraction and
richness (174-176). -/
def centers (E : PercRun.Env G P α) (rec : Bool) (home : PercRun.Cen α → Nat) (cuts : PercRun.Cen α → Bool) (ts : List (Tiles.Tile α)) (cs : List (Runner.Cluster α)) :
    List (PercRun.Cen α) :=
  ts.flatMap fun t => (PercRun.run (percTile E t) rec (cs.filter t.cat)).1.filter fun e => decide (home e = t.pix) && cuts e

end Redmapper.TileSum
