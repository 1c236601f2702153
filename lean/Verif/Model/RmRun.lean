/-
Model of what the calibration of redMaGiC reads: the cut on the galaxies and the match to the spectra.

  /repo/redmapper/redmagic/redmagic_calibrate.py

Simplifications: exact arithmetic; `m25` is `x ↦ 2.5 log10 x` and `mstar` the characteristic magnitude, as in `Verif.Model.Redmagic`; the
distance on the sky is a parameter.
-/
import Verif.Model.Redmagic
import Verif.Model.RmCal

namespace Redmapper.RmRun

open Redmapper.Redmagic (RGal RCal Err)
open Redmapper.RmCal (costRange)

variable {α : Type} [Field α] [LinearOrder α]

/-- The configuration of the calibration, as far as the cut needs it. -/
structure Conf (α : Type) where
  z0 : α
  z1 : α
  buffer : α
  binsize : α
  maxchi : α
  etas : List α
  zmaxes : List α
  specMaxErr : α

/-- redmagic_calibrate.py:389: `lstar_cushion`. -/
def lstarCushion : α := 1 / 20

/-- redmagic_calibrate.py:390: `z_cushion`. -/
def zCushion : α := 1 / 20

/-- redmagic_calibrate.py:395: `np.clip(np.min(etas) - lstar_cushion, 0.1, None)`; `np.min` raises for an empty array. -/
def minLstar (etas : List α) : Except Err α :=
  match etas with
  | [] => .error .valueError
  | e :: es => .ok (max (es.foldl min e - lstarCushion) (1 / 10))

/-- redmagic_calibrate.py:393-399: is a galaxy read? -/
def inCut [FloorRing α] (m25 mstar : α → α) (cf : Conf α) (lstar : α) (g : RGal α) : Bool :=
  let r := costRange cf.z0 cf.z1 cf.buffer cf.binsize
  decide (r.1 - zCushion - cf.buffer < g.zred) && decide (g.zred < r.2 + zCushion + cf.buffer) && decide (g.chisq < cf.maxchi) &&
    decide (g.refmag < mstar g.zred - m25 lstar)

/-- redmagic_calibrate.py:383-406: the galaxies of the calibration. -/
def readGals [FloorRing α] (m25 mstar : α → α) (cf : Conf α) (gals : List (RGal α)) : Except Err (List (RGal α)) :=
  match minLstar cf.etas with
  | .error e => .error e
  | .ok l =>
    let use := gals.filter (inCut m25 mstar cf l)
    if use.length = 0 then .error .runtimeError else .ok use

/-- redmagic_calibrate.py:455-464, 498-510: what is recorded for mode `i`, besides the parameters `p` of the fits. -/
def modeCal [FloorRing α] (cf : Conf α) (i : Nat) (p : RCal α) : Option (RCal α) :=
  match cf.etas[i]?, cf.zmaxes[i]? with
  | some eta, some zmax =>
    let r := costRange cf.z0 zmax cf.buffer cf.binsize
    some { p with lstarCushion := lstarCushion, zCushion := zCushion, buffer := cf.buffer, costLo := r.1, costHi := r.2, maxchi := cf.maxchi, etamin := eta }
  | _, _ => none

/-- A row of the catalog of spectra. -/
structure Spectrum (α : Type) where
  ra : α
  dec : α
  z : α
  zErr : α
deriving DecidableEq, Repr

/-- A distance between two positions. -/
abbrev Dist (α : Type) := α × α → α × α → α

/-- `match_many` with `maxmatch=1`: the closest of `cat` to a position, if within the radius. -/
def closest (dist : Dist α) (radius : α) (cat : List (α × α)) (p : α × α) : Option Nat :=
  match Centering.argmin (cat.map (dist p)) with
  | none => none
  | some k => if dist p (cat.getD k (0, 0)) ≤ radius then some k else none

/-- redmagic_calibrate.py:415-420: `gals.match_many(spec.ra, spec.dec, 3./3600., maxmatch=1)` and `gals.zspec[i1] = spec.z[i0]`: each good spectrum in
turn goes to its closest galaxy. -/
def calSpec (dist : Dist α) (cf : Conf α) (radius : α) (spec : List (Spectrum α)) (pos : List (α × α)) : List α :=
  (spec.filter fun s => decide (s.zErr < cf.specMaxErr)).foldl
    (fun zs s => match closest dist radius pos (s.ra, s.dec) with
      | some k => zs.set k s.z
      | none => zs)
    (List.replicate pos.length 0)

/-- redmagic_selector.py:229-239: the other way round; each galaxy gets its closest spectrum among those with an error below 0.001. -/
def selSpec (dist : Dist α) (radius : α) (spec : List (Spectrum α)) (pos : List (α × α)) : List α :=
  let good := spec.filter fun s => decide (s.zErr < 1 / 1000)
  pos.map fun p => match closest dist radius (good.map fun s => (s.ra, s.dec)) p with
    | some k => (good.map Spectrum.z).getD k 0
    | none => -1

end Redmapper.RmRun
