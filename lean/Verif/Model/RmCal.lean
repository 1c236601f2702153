/-
Model of the calibration of redMaGiC: cost function, ranges and bins, start, training sample, calibration redshifts, iterations and file.

  /repo/redmapper/redmagic/redmagic_calibrate.py
  /repo/redmapper/redmagic/redmagic_selector.py  (reading of the calibration file)

Simplifications: exact arithmetic; the galaxies counted with given parameters, the minimizers and the fits of the corrections are
parameters (`Verif.Model.Redmagic` has the cuts); volumes are a list with one value per bin; `sqrt` is a parameter.
-/
import Verif.Model.Finders
import Verif.Model.Maps
import Mathlib.Algebra.Order.Field.Basic
import Mathlib.Algebra.Order.Floor.Ring
import Mathlib.Data.Rat.Floor
import Mathlib.Data.List.Sort

namespace Redmapper.RmCal

open Redmapper.Finders (takeRows)

variable {α : Type} [Field α] [LinearOrder α]

inductive Err
  | indexError
deriving DecidableEq, Repr

/-! ## Ranges and histograms -/

/-- redmagic_calibrate.py:383-387 and 460-464: range of the cost function for a mode from `z0` to `z1`. -/
def costRange [FloorRing α] (z0 z1 buffer bs : α) : α × α :=
  (z0 + buffer, (⌈((z1 - buffer) - (z0 + buffer)) / bs⌉ : α) * bs + (z0 + buffer))

/-- Bins of `esutil.stat.histogram` from `lo` to `hi`. -/
def histSize [FloorRing α] (lo hi bs : α) : Nat := (⌊(hi - lo) / bs⌋ + 1).toNat

/-- `esutil.stat.histogram`: values outside the limits are not counted. -/
def hist [FloorRing α] (lo hi bs : α) (data : List α) : List Nat :=
  (List.range (histSize lo hi bs)).map fun (k : Nat) =>
    data.countP fun x => decide (lo ≤ x) && decide (x ≤ hi) && decide (⌊(x - lo) / bs⌋ = (k : Int))

/-- redmagic_calibrate.py:260-262: the histogram of the cost function. -/
def costHist [FloorRing α] (r : α × α) (bs : α) (samp : List α) : List Nat := hist r.1 (r.2 - 1 / 10000) bs samp

/-- redmagic_calibrate.py:521: centers of the bins. -/
def binCenters (r : α × α) (bs : α) (n : Nat) : List α := (List.range n).map fun (k : Nat) => (k : α) * bs + r.1 + bs / 2

/-! ## Cost function -/

/-- redmagic_calibrate.py:265-269: misfit of the densities; `n` is the wanted density (`n0 * 1e-4`). -/
def misfit (sqrt : α → α) (n : α) (h : List Nat) (vol : List α) : α :=
  (List.zipWith (fun (k : Nat) v => (((k : α) / v - n) / (sqrt (n * v) / v)) ^ 2) h vol).sum

/-- redmagic_calibrate.py:230-276 `__call__`; `sel` are the galaxies counted with the parameters, as sampled redshifts. -/
def cost [FloorRing α] (sqrt : α → α) (n : α) (r : α × α) (bs : α) (vol : List α) (sel : List α → List α) (pars : List α) : α :=
  if (sel pars).length = 0 then 100000000000
  else misfit sqrt n (costHist r bs (sel pars)) vol + if pars.any fun p => decide (p < 1 / 10) then 10000 else 0

/-! ## Areas and volumes -/

/-- redmagic_calibrate.py:539-540 and 566-567: `astr.area[np.searchsorted(astr.z, z)]` for a table that increases. -/
def areaAt (table : List (α × α)) (z : α) : Except Err α :=
  match table[table.countP fun t => decide (t.1 < z)]? with
  | some t => .ok t.2
  | none => .error .indexError

/-- volumelimit.py:286 and 367: redshifts of the table of areas, `np.arange(z0, z1, step)`. -/
def tableZ [FloorRing α] (z0 z1 step : α) : List α := (List.range ⌈(z1 - z0) / step⌉.toNat).map fun (k : Nat) => z0 + (k : α) * step

/-! ## Start -/

/-- redmagic_calibrate.py:575-583: range of redshifts of node `j`. -/
def nodeRange (nodes : List α) (bs : α) (j : Nat) : α × α :=
  let z := nodes.getD j 0
  if j = 0 then (z, z + bs) else if j = nodes.length - 1 then (z - bs, z) else (z - bs / 2, z + bs / 2)

/-- redmagic_calibrate.py:585-586: chi-squared of the galaxies (redshift, chi-squared) near a node. -/
def near (r : α × α) (gals : List (α × α)) : List α := (gals.filter fun g => decide (r.1 < g.1) && decide (g.1 < r.2)).map Prod.snd

/-- redmagic_calibrate.py:588-591: start at a node, from the chi-squared values of the galaxies near it. -/
def startValue (n vol : α) (chis : List α) : Except Err α :=
  let ind := min ((List.range chis.length).countP fun (k : Nat) => decide ((k : α) / vol < n)) (chis.length - 1)
  match (chis.insertionSort (· ≤ ·))[ind]? with
  | some c => .ok c
  | none => .error .indexError

/-! ## Training sample and calibration redshifts -/

/-- redmagic_calibrate.py:529-533: galaxies of the afterburner; `draws` are the random numbers. -/
def train [FloorRing α] (argsort : List α → List Nat) (frac : α) (zcal : List α) (draws : List α) : List Nat :=
  let gd := (List.range zcal.length).filter fun i => decide (0 < zcal.getD i 0)
  takeRows gd ((argsort draws).take ⌊frac * (gd.length : α)⌋.toNat)

/-- A member of a cluster: galaxy, cluster, probability and redshift. -/
structure Member (α : Type) where
  id : Nat
  cluster : Nat
  p : α
  z : α
deriving DecidableEq, Repr

/-- redmagic_calibrate.py:430-433: redshift error of the cluster of a member; zero if there is none. -/
def memErr (cat : List (Nat × α)) (m : Member α) : α := ((cat.find? fun c => c.1 == m.cluster).map Prod.snd).getD 0

/-- redmagic_calibrate.py:435-443: calibration redshift and error of a galaxy. -/
def calibZ (cat : List (Nat × α)) (pcut : α) (mems : List (Member α)) : Nat → α × α :=
  (mems.filter fun m => decide (pcut < m.p)).foldl (fun f m => Function.update f m.id (m.z, memErr cat m)) fun _ => (-1, -1)

/-! ## Iterations -/

/-- Recorded parameters: chi-squared, bias and error ratio at nodes. -/
structure Pars (α : Type) where
  cmax : List α
  bias : List α
  eratio : List α
deriving DecidableEq, Repr

/-- redmagic_calibrate.py:624-628: one iteration. -/
def abStep (fitBE : Pars α → List α × List α) (fitC : Pars α → List α) (s : Pars α) : Pars α :=
  let be := fitBE s
  ⟨fitC ⟨s.cmax, be.1, be.2⟩, be.1, be.2⟩

/-- redmagic_calibrate.py:559-564 and 610-638: the parameters that are recorded. `const` is the constant chi-squared, `start` the start. -/
def calibrate (nnodes ncorr : Nat) (const : Option α) (afterburner : Bool) (start : List α)
    (fitBE : Pars α → List α × List α) (fitC : Pars α → List α) : Pars α :=
  let zero := List.replicate ncorr (0 : α)
  let one := List.replicate ncorr (1 : α)
  let c0 := match const with
    | some c => List.replicate nnodes c
    | none => fitC ⟨start, zero, one⟩
  if afterburner then
    let s := match const with
      | some _ => ⟨c0, zero, one⟩
      | none => (abStep fitBE fitC)^[5] ⟨c0, zero, one⟩
    ⟨s.cmax, (fitBE s).1, (fitBE s).2⟩
  else ⟨c0, zero, one⟩

/-! ## File of the calibration -/

/-- redmagic_calibrate.py:640: every mode is appended to the file, which may exist. -/
def writeModes {β : Type} (file : Option (List (String × β))) (modes : List (String × β)) : List (String × β) := file.getD [] ++ modes

/-- redmagic_selector.py:41-54: what the selector has for a mode, the last extension with the name. -/
def readMode {β : Type} (file : List (String × β)) : String → Option β :=
  file.foldl (fun d e => Function.update d e.1 (some e.2)) fun _ => none

/-! ## Volume limits of the modes -/

/-- redmagic_calibrate.py:330-349: what the volume limit of the modes is made from. -/
inductive Source
  | depth
  | geometry
  | fixed
deriving DecidableEq, Repr

def source (depthfile maskfile : Bool) : Source := if depthfile then .depth else if maskfile then .geometry else .fixed

/-- redmagic_calibrate.py:330-349: masks of the modes with luminosities `etas`, in a directory with `files`; `none` is a fixed redshift. -/
def modeMasks [FloorRing α] (src : Source) (etas : List α) (files : Int → Option (Maps.Built α)) : List (Option (Maps.Built α)) :=
  match src with
  | .depth => (Maps.openAll (etas.map fun e => (e, false)) files).map some
  | .geometry => (Maps.openAll (etas.map fun e => (e, true)) files).map some
  | .fixed => etas.map fun _ => none

end Redmapper.RmCal
