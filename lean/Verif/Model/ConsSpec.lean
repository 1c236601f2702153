/-
Model of the spectroscopic and true redshifts that a consolidation gives to clusters and members, on top of `Consolidate`.

  /repo/redmapper/pipeline/redmapperconsolidatetask.py  RedmapperConsolidateTask.run (89-92, 136-159), RuncatConsolidateTask.run (343-346, 365-390)

Simplifications: redshifts are exact (the columns are single precision); the galaxy matcher is the closest of the positions within the radius
(`RmRun.closest`); reading the truth of one pixel without border (C121, C122) gives the galaxies in the pixel, of which there are some.
-/
import Verif.Model.Consolidate
import Verif.Model.RmRun

namespace Redmapper.ConsSpec

open Redmapper.Consolidate
open Redmapper.RmRun (Spectrum closest)

/-- The columns of a cluster that count here: position, `cg_spec_z`, and `z_lambda` (for volume limits). -/
structure CPay (α : Type) where
  pos : α × α
  cgSpecZ : α
  zlam : α
deriving DecidableEq, Repr

/-- The columns of a member that count here. -/
structure MPay (α : Type) where
  pos : α × α
  zspec : α
  p : α
deriving DecidableEq, Repr

/-- A galaxy of a mock catalog with its true redshift. -/
structure Truth (α : Type) where
  pos : α × α
  ztrue : α
deriving DecidableEq, Repr

variable {α : Type} [Field α] [LinearOrder α]

/-- redmapperconsolidatetask.py:139-146, 152-159, 368-376, 382-390: minus one, then the redshift of the match. -/
def zOf (dist : RmRun.Dist α) (radius : α) (pos : List (α × α)) (zs : List α) (p : α × α) : α :=
  match closest dist radius pos p with
  | some k => zs.getD k 0
  | none => -1

/-- redmapperconsolidatetask.py:136-159 for the catalog and the members of one file, with positions and redshifts to match to. -/
def setFile (dist : RmRun.Dist α) (radius : α) (pos : List (α × α)) (zs : List α) (f : PixFile α (CPay α) (MPay α)) : PixFile α (CPay α) (MPay α) :=
  { f with
    cat := f.cat.map fun c => { c with pay := { c.pay with cgSpecZ := zOf dist radius pos zs c.pay.pos } }
    mem := f.mem.map fun m => { m with pay := { m.pay with zspec := zOf dist radius pos zs m.pay.pos } } }

/-- redmapperconsolidatetask.py:89-92, 343-346: the good spectra. -/
def good (maxErr : α) (spec : List (Spectrum α)) : List (Spectrum α) := spec.filter fun s => decide (s.zErr < maxErr)

/-- What is given to a consolidation besides files: `match_spec`, `has_truth`, `calib_spec_max_zerr`, the spectra, the galaxies of a mock catalog, and
the pixel of a position at the nside of the run. -/
structure Env (α : Type) where
  matchSpec : Bool
  hasTruth : Bool
  maxErr : α
  spec : List (Spectrum α)
  truth : List (Truth α)
  dist : RmRun.Dist α
  pixOf : α × α → Nat

/-- redmapperconsolidatetask.py:149-151: `from_galfile(hpix=hpix, nside=nside, border=0.0, truth=True)`. -/
def truthcat (E : Env α) (hpix : Nat) : List (Truth α) := E.truth.filter fun t => decide (E.pixOf t.pos = hpix)

/-- redmapperconsolidatetask.py:136-159 for one file. -/
def matchFile (E : Env α) (f : PixFile α (CPay α) (MPay α)) : PixFile α (CPay α) (MPay α) :=
  let g := if E.matchSpec && !E.hasTruth then
      setFile E.dist (3 / 3600) ((good E.maxErr E.spec).map fun s => (s.ra, s.dec)) ((good E.maxErr E.spec).map Spectrum.z) f
    else f
  if E.hasTruth then setFile E.dist (1 / 3600) ((truthcat E f.hpix).map Truth.pos) ((truthcat E f.hpix).map Truth.ztrue) g else g

/-- redmapperconsolidatetask.py:365-390 for one file of a catalog run: without `match_spec` nothing is matched. -/
def runcatMatch (E : Env α) (f : PixFile α (CPay α) (MPay α)) : PixFile α (CPay α) (MPay α) :=
  let g := if E.matchSpec && !E.hasTruth then
      setFile E.dist (3 / 3600) ((good E.maxErr E.spec).map fun s => (s.ra, s.dec)) ((good E.maxErr E.spec).map Spectrum.z) f
    else f
  if E.matchSpec && E.hasTruth then setFile E.dist (1 / 3600) ((truthcat E f.hpix).map Truth.pos) ((truthcat E f.hpix).map Truth.ztrue) g else g

/-- redmapperconsolidatetask.py:64-266 with the matches. -/
def run (E : Env α) (argsort : List α → List Nat) (selectScaleval : Bool) (maxMaskfrac minlambda : α) (cuts : List (Cut α (CPay α)))
    (files : List (PixFile α (CPay α) (MPay α))) : Except Err (List (List (CRow α (CPay α)) × List (MRow (MPay α)))) :=
  task argsort selectScaleval maxMaskfrac minlambda cuts (files.map (matchFile E))

/-- redmapperconsolidatetask.py:347-421 with the matches. -/
def runcat (E : Env α) (files : List (PixFile α (CPay α) (MPay α))) : List (CRow α (CPay α)) × List (MRow (MPay α)) :=
  runcatTask (files.map (runcatMatch E))

end Redmapper.ConsSpec
