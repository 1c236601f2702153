/-
Model of the redMaGiC selection (/repo/redmapper/redmagic): redmagic_selector.py, the spooling of redmagictask.py, and from
redmagic_calibrate.py the galaxies counted by the fit and the name of the run configuration.

Exact arithmetic, no NaN.  `m25` is `x ↦ 2.5 log10 x`, `mstar` the characteristic magnitude, `zmax` the volume limit at a position.
-/
import Verif.Model.Centering
import Verif.Model.Utilities

namespace Redmapper.Redmagic

open Redmapper.Centering (whereIdx)
open Redmapper.Finders (takeRows)

inductive Err
  | runtimeError
  | valueError
deriving DecidableEq, Repr

variable {α : Type} [Field α] [LinearOrder α] {μ : Type} [DecidableEq μ]

/-- A galaxy with its raw photometric redshift. -/
structure RGal (α : Type) where
  id : Nat
  ra : α
  dec : α
  refmag : α
  refmagErr : α
  mag : List α
  magErr : List α
  zred : α
  zredE : α
  samp : List α
  chisq : α
  ztrue : α
  zspec : α
deriving DecidableEq

/-- One mode of the calibration file; the three functions are the `fixextrap` splines over the nodes. -/
structure RCal (α : Type) where
  lstarCushion : α
  zCushion : α
  buffer : α
  costLo : α
  costHi : α
  maxchi : α
  etamin : α
  cmax : α → α
  bias : α → α
  eratio : α → α
  runAfter : Bool
  applyAfter : Bool

/-- redmagic_selector.py:131-140 `red_poss_mask`. -/
def redPoss (m25 mstar : α → α) (c : RCal α) (g : RGal α) : Bool :=
  decide (c.costLo - c.zCushion - c.buffer < g.zred) && decide (g.zred < c.costHi + c.zCushion + c.buffer) &&
  decide (g.chisq < c.maxchi) && decide (g.refmag < mstar g.zred - m25 (max (c.etamin - c.lstarCushion) (1 / 10)))

/-- redmagic_selector.py:154-155. -/
def chi2max (c : RCal α) (g : RGal α) : α := min (max (c.cmax g.zred) (1 / 10)) c.maxchi

/-- redmagic_selector.py:143, 157-160. -/
def zmagic (c : RCal α) (g : RGal α) : α := if c.runAfter then g.zred - c.bias g.zred else g.zred

/-- redmagic_selector.py:144, 166-167. -/
def zmagicE (c : RCal α) (g : RGal α) : α := if c.runAfter then g.zredE * c.eratio g.zred else g.zredE

/-- redmagic_selector.py:146, 162-164; catalogs without samples, for which one is drawn (147-152), are not modelled. -/
def zmagicSamp (c : RCal α) (g : RGal α) : List α :=
  if c.runAfter then (if c.applyAfter then g.samp.map fun s => s - c.bias g.zred else g.samp) else g.samp

/-- redmagic_selector.py:170-180. -/
def passes (m25 mstar : α → α) (zmax : α → α → α) (c : RCal α) (g : RGal α) : Bool :=
  decide (g.chisq < chi2max c g) && decide (g.refmag < mstar (zmagic c g) - m25 c.etamin) &&
  decide (zmagic c g < zmax g.ra g.dec) && redPoss m25 mstar c g

/-- A row of the output catalog. -/
structure RRow (α : Type) where
  id : Nat
  ra : α
  dec : α
  refmag : α
  refmagErr : α
  mag : List α
  magErr : List α
  lum : α
  z : α
  zE : α
  samp : List α
  chisq : α
  zspec : α
deriving DecidableEq

/-- Where the spectroscopic redshift comes from (redmagic_selector.py:220-239): truth, a column, or a match to the spectroscopic catalog. -/
inductive ZSource
  | truth
  | column
  | matched
deriving DecidableEq

/-- redmagic_selector.py:202-215: the row of one galaxy; `pow10` is `x ↦ 10^x`; the spectroscopic redshift is filled later. -/
def row (pow10 mstar : α → α) (c : RCal α) (g : RGal α) : RRow α :=
  { id := g.id, ra := g.ra, dec := g.dec, refmag := g.refmag, refmagErr := g.refmagErr, mag := g.mag, magErr := g.magErr,
    lum := pow10 ((mstar (zmagic c g) - g.refmag) / (5 / 2)), z := zmagic c g, zE := zmagicE c g, samp := zmagicSamp c g,
    chisq := g.chisq, zspec := 0 }

/-- `match_many` with `maxmatch=1`: for each position in turn the closest entry of the spectroscopic catalog, if any is close enough. -/
def matchMany (nearest : α → α → Option Nat) (pos : List (α × α)) : List (Nat × Nat) :=
  pos.zipIdx.filterMap fun p => (nearest p.1.1 p.1.2).map fun j => (p.2, j)

/-- `zs[i0] = spec.z[i1]` -/
def assign (specz : Nat → α) (zs : List α) (pairs : List (Nat × Nat)) : List α :=
  pairs.foldl (fun zs p => zs.set p.1 (specz p.2)) zs

/-- redmagic_selector.py:220-239: the column of spectroscopic redshifts. -/
def zspecs (src : ZSource) (nearest : α → α → Option Nat) (specz : Nat → α) (gs : List (RGal α)) : List α :=
  match src with
  | .truth => gs.map RGal.ztrue
  | .column => gs.map RGal.zspec
  | .matched => assign specz (List.replicate gs.length (-1)) (matchMany nearest (gs.map fun g => (g.ra, g.dec)))

/-- What the selection needs besides the galaxies. -/
structure Env (α μ : Type) where
  cal : List (μ × RCal α)
  m25 : α → α
  pow10 : α → α
  mstar : α → α
  zmax : μ → α → α → α
  src : ZSource
  nearest : α → α → Option Nat
  specz : Nat → α

/-- redmagic_selector.py:93-244 `select_redmagic_galaxies`; the indices are always returned here.  The calibration data is a dictionary: the last
entry of a name counts. -/
def select (env : Env α μ) (mode : μ) (gals : List (RGal α)) : Except Err (List (RRow α) × List Nat) :=
  match env.cal.reverse.find? fun p => decide (p.1 = mode) with
  | none => .error .runtimeError
  | some (_, c) =>
    let gd := whereIdx (passes env.m25 env.mstar (env.zmax mode) c) gals
    let gs := takeRows gals gd
    .ok (List.zipWith (fun r z => { r with zspec := z }) (gs.map (row env.pow10 env.mstar c)) (zspecs env.src env.nearest env.specz gs), gd)

/-! ### The task -/

/-- Files of the run: one per mode, and which positions of the list of modes have been started. -/
structure Disk (α μ : Type) where
  file : μ → Option (List (RRow α))
  started : Nat → Bool

/-- redmagictask.py:107-115: the rows of one pixel are written for the mode at position `j`: a new file the first time, appended afterwards. -/
def spool (d : Disk α μ) (e : Nat × μ × List (RRow α)) : Disk α μ :=
  if d.started e.1 then { d with file := fun m => if m = e.2.1 then some ((d.file m).getD [] ++ e.2.2) else d.file m }
  else { file := fun m => if m = e.2.1 then some e.2.2 else d.file m, started := fun j => if j = e.1 then true else d.started j }

/-- redmagictask.py:93-105: the writes of a run, in order: for each pixel, for each mode. -/
def events (sel : μ → List (RGal α) → List (RRow α)) (modes : List μ) (pixels : List (List (RGal α))) : List (Nat × μ × List (RRow α)) :=
  pixels.flatMap fun gals => modes.zipIdx.map fun p => (p.2, p.1, sel p.1 gals)

/-- redmagictask.py:61-115 `run`, up to `k` writes (a crash after the `k`-th), from the given files. -/
def runTo (sel : μ → List (RGal α) → List (RRow α)) (modes : List μ) (clobber : Bool) (pixels : List (List (RGal α))) (k : Nat)
    (file : μ → Option (List (RRow α))) : Except Err (μ → Option (List (RRow α))) :=
  if (modes.any fun m => (file m).isSome) && !clobber then .error .runtimeError
  else .ok (((events sel modes pixels).take k).foldl spool ⟨file, fun _ => false⟩).file

/-! ### The calibration -/

open Redmapper.Utilities (Spline call)

/-- redmagic_calibrate.py:245-253: is a galaxy counted in the cost function?  The spline is made without `fixextrap`.  `zm` is the redshift with the
afterburner. -/
def counted (m25 mstar : α → α) (zmax : α → α → α) (maxchi etamin : α) (nodes : Spline α) (zm : α) (g : RGal α) : Bool :=
  decide (g.chisq < min (max (call { nodes with fixextrap := false } g.zred) (1 / 10)) maxchi) &&
  decide (g.refmag < mstar zm - m25 etamin) && decide (zm < zmax g.ra g.dec)

/-- redmagic_calibrate.py:523-526: possible galaxies of a mode, among those read (392-399, `preLo`, `preHi`, `preEta` for all modes together). -/
def possible (m25 mstar : α → α) (preLo preHi preEta cut lstarCushion etamin : α) (g : RGal α) : Bool :=
  (decide (preLo < g.zred) && decide (g.zred < preHi) && decide (g.chisq < cut) && decide (g.refmag < mstar g.zred - m25 preEta)) &&
  decide (g.refmag < mstar g.zred - m25 (max (etamin - lstarCushion) (1 / 10)))

/-- redmagic_calibrate.py:152-168: the sampled redshift used by the fit; `bias` is the spline at the raw redshift. -/
def fitSamp (afterburner : Bool) (bias samp : α) : α := if afterburner then samp - bias else samp

/-- `str.replace('cal', 'run')`. -/
def replaceCal : List Char → List Char
  | 'c' :: 'a' :: 'l' :: rest => 'r' :: 'u' :: 'n' :: replaceCal rest
  | x :: rest => x :: replaceCal rest
  | [] => []

/-- `s.split('.y')[0]` -/
def beforeY : List Char → List Char
  | '.' :: 'y' :: _ => []
  | x :: rest => x :: beforeY rest
  | [] => []

/-- redmagic_calibrate.py:698-702: name of the run configuration; `configfile` is a base name. -/
def runName (configfile : List Char) : List Char :=
  let r := replaceCal configfile
  if r = configfile then beforeY configfile ++ "_run.yaml".toList else r

/-- `os.path.join` of a directory and a relative name. -/
def joinPath (dir name : List Char) : List Char :=
  if dir = [] then name else if dir.getLast? = some '/' then dir ++ name else dir ++ '/' :: name

/-- redmagic_calibrate.py:704, 710: where the run configuration is written. -/
def writtenTo (outpath configfile : List Char) : List Char := joinPath outpath (runName configfile)

/-- redmagic_calibrate.py:714: the file the run task reads. -/
def readFrom (configfile : List Char) : List Char := runName configfile

end Redmapper.Redmagic
