/-
Model of a survey from its sources to its catalogs: the three stages of every pixel, then the consolidation of the pixels.

  /repo/redmapper/redmapper_run.py                      RedmapperRun.run, _worker (88-209, 369-462)
  /repo/redmapper/cluster_runner.py                     ClusterRunner.run, _postprocess, output
  /repo/redmapper/pipeline/redmapperconsolidatetask.py  RedmapperConsolidateTask.run

Built from `PixRun.ordered` (sources to the clusters to be percolated), `Runner.loop1` and `Runner.postprocess` (percolation) and `Consolidate.task`.
Simplifications: as in those models; rows carry the pixel and the row of the second stage as a payload; the columns of a row that percolation writes are 0 at its start.
-/
import Verif.Model.PixRun
import Verif.Model.Runner
import Verif.Model.Consolidate

namespace Redmapper.Survey

open Redmapper.Finders (Seed)
open Redmapper.Runner (Cluster Out Member)
open Redmapper.Consolidate (CRow MRow PixFile Cut)

variable {α σ : Type} [Field α] [LinearOrder α]

/-- What a survey is run with: for each pixel the environment of its first two stages and of its percolation; the pixel of a processed cluster; the cuts of the
consolidation (`select_scaleval` off). -/
structure Env (α σ : Type) where
  pixels : List Nat
  stages : Nat → PixRun.Env α
  perc : Nat → Runner.Env α σ
  sig : Nat → σ
  home : Out α → Nat
  percMin : α
  argsort : List α → List Nat
  maxMaskfrac : α
  minLambda : α
  cuts : List (Cut α (Nat × Seed α × Out α))

/-- run_percolation.py:114-135, catalog.py: the row percolation starts with. -/
def start (s : Seed α) : Cluster α := ⟨s.id, s.Lambda, 0, 0, 0, 0, s.z, 0, 0, 0, some 0⟩

/-- cluster_runner.py:356-585 with masking and recording of members (run_percolation.py:62-95): what is left of each cluster of the pixel. -/
def processed (S : Env α σ) (p : Nat) (l : List (Seed α)) : List (Out α) :=
  (Runner.loop1 (S.perc p) true true (S.sig p) (l.map start)).2

/-- The row of a cluster in the file of its pixel: the likelihood is that of the second stage. -/
def row (S : Env α σ) (p : Nat) (q : Seed α × Out α) : CRow α (Nat × Seed α × Out α) :=
  ⟨q.2.c.id, q.1.lnlike.getD 0, q.2.c.maskfrac, q.2.c.Lambda, q.2.c.scaleval, S.home q.2, (p, q.1, q.2)⟩

/-- cluster_runner.py:587-612 and redmapper_run.py:445-456: the files of a pixel; none if there was nothing to percolate or no cluster is rich enough. -/
def pixFile (S : Env α σ) (p : Nat) : Except Runner.Err (Option (PixFile α (Nat × Seed α × Out α) (Member α))) :=
  match PixRun.ordered (S.stages p) with
  | none => .ok none
  | some l =>
    let os := processed S p l
    match Runner.postprocess S.percMin (os.map Out.c) (Runner.members os) with
    | .error e => .error e
    | .ok (cat, mem) =>
      if cat.isEmpty then .ok none
      else .ok (some ⟨p, ((l.zip os).filter fun q => decide (S.percMin ≤ q.2.c.Lambda)).map (row S p), (mem.getD []).map fun m => ⟨m.id, m⟩⟩)

/-- redmapper_run.py:150-160: the pixels one after the other. -/
def files (S : Env α σ) : List Nat → Except Runner.Err (List (PixFile α (Nat × Seed α × Out α) (Member α)))
  | [] => .ok []
  | p :: ps =>
    match pixFile S p with
    | .error e => .error e
    | .ok none => files S ps
    | .ok (some f) => match files S ps with
      | .error e => .error e
      | .ok fs => .ok (f :: fs)

/-- The errors of a survey. -/
inductive Err
  | pixel (e : Runner.Err)
  | cons (e : Consolidate.Err)
deriving DecidableEq, Repr

/-- The survey: one pair of a catalog and a member catalog for each cut. -/
def survey (S : Env α σ) : Except Err (List (List (CRow α (Nat × Seed α × Out α)) × List (MRow (Member α)))) :=
  match files S S.pixels with
  | .error e => .error (.pixel e)
  | .ok fs =>
    match Consolidate.task S.argsort false S.maxMaskfrac S.minLambda S.cuts fs with
    | .error e => .error (.cons e)
    | .ok outs => .ok outs

end Redmapper.Survey
