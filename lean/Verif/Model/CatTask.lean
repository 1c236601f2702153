/-
Model of the tasks over a given catalog and of the setup of the runs:
  /repo/redmapper/pipeline/redmappertask.py            RuncatPixelTask, RunZmaskPixelTask, RunZScanPixelTask
  /repo/redmapper/pipeline/redmapperconsolidatetask.py RuncatConsolidateTask.run (the files it finds)
  /repo/redmapper/configuration.py                     redmapper_filename, start_file_logging, stop_file_logging
  /repo/redmapper/cluster_runner.py                    __init__, _setup (files and galaxies)
  /repo/redmapper/run_*.py, runcat.py                  _additional_initialization
  /repo/redmapper/run_firstpass.py                     _more_setup
  /repo/redmapper/run_randoms_zmask.py                 _more_setup, _process_cluster
  /repo/redmapper/run_zscan.py                         radius of the refinement
A string is a list of characters.  All files of a task are in one directory, so only base names are compared.
-/
import Verif.Model.Config
import Verif.Model.Setup
import Mathlib.Analysis.SpecialFunctions.Pow.Real

namespace Redmapper.CatTask

open Redmapper.Config (dec pad5 Checks Files checkFiles)

/-! ### File names -/

/-- configuration.py:862-870 `redmapper_filename` without `paths`. -/
def fileName (outbase version name : List Char) (withversion : Bool) : List Char :=
  (if withversion then outbase ++ "_redmapper_v".toList ++ version else outbase) ++ '_' :: name ++ ".fit".toList

/-- redmappertask.py:75, 168, 237, 299: the base of the files of one pixel. -/
def tileBase (outbase : List Char) (nside pixel : Nat) : List Char := outbase ++ '_' :: dec nside ++ '_' :: pad5 pixel

/-- A glob pattern; characters of the names are taken as they are (a base name with `*`, `?` or `[` is not modelled). -/
inductive Tok where
  | lit (c : Char)
  | any
  | star

/-- `fnmatch` of a base name. -/
def glob : List Tok → List Char → Bool
  | [] => fun s => s.isEmpty
  | .lit c :: ps => fun s => match s with
    | [] => false
    | x :: t => decide (x = c) && glob ps t
  | .any :: ps => fun s => match s with
    | [] => false
    | _ :: t => glob ps t
  | .star :: ps => fun s => s.tails.any (glob ps)

/-- redmapperconsolidatetask.py:332 (and 80 with "final"): `<outbase>_*_?????_<cattype>_catalog.fit`. -/
def pattern (outbase cattype : List Char) : List Tok :=
  outbase.map .lit ++ [.lit '_', .star, .lit '_', .any, .any, .any, .any, .any, .lit '_'] ++ (cattype ++ "_catalog.fit".toList).map .lit

/-- `_(\d+)_(\d\d\d\d\d)_` at the start of a string. -/
def matchAt : List Char → Option (Nat × Nat)
  | '_' :: rest =>
    let ds := rest.takeWhile Char.isDigit
    if ds.isEmpty then none
    else match rest.dropWhile Char.isDigit with
      | '_' :: r =>
        let p := r.take 5
        if p.length = 5 ∧ p.all Char.isDigit = true ∧ r[5]? = some '_' then some (Nat.ofDigitChars 10 ds 0, Nat.ofDigitChars 10 p 0) else none
      | _ => none
  | _ => none

/-- redmapperconsolidatetask.py:337, 359 `re.search`: the first match. -/
def search : List Char → Option (Nat × Nat)
  | [] => none
  | c :: cs => match matchAt (c :: cs) with
    | some r => some r
    | none => search cs

inductive Err where
  | value
  | type
  | name
  | index
  | runtime
  | attribute
  | os
  deriving DecidableEq, Repr

/-- redmapperconsolidatetask.py:332-365: the files of a directory that are consolidated, with nside and pixel; `path` is the directory with
its slash.  The order of the files is that of the directory. -/
def tiles (path outbase cattype : List Char) (names : List (List Char)) : Except Err (List (List Char × Nat × Nat)) :=
  match names.filter (glob (pattern outbase cattype)) with
  | [] => .error .index
  | fs => fs.mapM fun f => match search (path ++ f) with
    | none => .error .runtime
    | some p => .ok (f, p)

/-! ### Pixel tasks -/

inductive Job where
  | runcat
  | zmask
  | zscan
  deriving DecidableEq

/-- `self.filetype` (runcat.py:35, run_randoms_zmask.py:51, run_zscan.py:40). -/
def filetype : Job → List Char
  | .runcat => "lambda_chisq".toList
  | .zmask => "randoms_zmask".toList
  | .zscan => "zscan".toList

/-- redmappertask.py:160, 229-230, 291. -/
def checks : Job → Checks
  | .runcat => ⟨false, true, false, true, true, false⟩
  | .zmask => ⟨false, true, false, true, false, true⟩
  | .zscan => ⟨true, true, true, true, true, false⟩

/-- `withversion` of the output (redmappertask.py:178, 246, 308). -/
def versioned : Job → Bool
  | .runcat => true
  | .zmask => false
  | .zscan => true

/-- `savemembers` of the output. -/
def savesMembers : Job → Bool
  | .runcat => true
  | .zmask => false
  | .zscan => true

/-- A directory: the tables of every file. -/
abbrev Dir (T : Type) := List Char → Option (List T)

def Dir.set {T : Type} (d : Dir T) (n : List Char) (v : Option (List T)) : Dir T := fun m => if m = n then v else d m

/-- What a task finds: is the galaxy table pixelized, the input files, and what the run gives: an exception, no catalog, or a catalog with
perhaps members. -/
structure Input (T : Type) where
  pixelized : Bool
  files : Files
  result : Except Err (Option (T × Option T))

def ofConfig : Config.Err → Err
  | .valueError => .value
  | .typeError => .type
  | .attributeError => .attribute
  | .osError => .os

/-- cluster_runner.py:648-662, with `clobber=False`: an existing file gets another table. -/
def write {T : Type} (savemembers : Bool) (cname mname : List Char) (c : T) (m : Option T) (d : Dir T) : Dir T :=
  let d := d.set cname (Setup.fwrite false c (d cname))
  match savemembers, m with
  | true, some m => d.set mname (Setup.fwrite false m (d mname))
  | _, _ => d

/-- redmappertask.py:157-180, 225-249, 288-310: one task on one pixel.  `RunCatalog` is not imported in this module.  The border and the
log are not modelled. -/
def runTile {T : Type} (job : Job) (outbase version : List Char) (nside pixel : Nat) (I : Input T) (d : Dir T) : Dir T × Option Err :=
  if I.pixelized = false then (d, some .value)
  else match checkFiles (checks job) I.files with
    | .error e => (d, some (ofConfig e))
    | .ok _ =>
      if job = .runcat then (d, some .name)
      else
        let base := tileBase outbase nside pixel
        if (d (fileName base version (filetype job ++ "_catalog".toList) false)).isSome then (d, none)
        else match I.result with
          | .error e => (d, some e)
          | .ok none => (d, none)
          | .ok (some (c, m)) =>
            (write (savesMembers job) (fileName base version (filetype job ++ "_catalog".toList) (versioned job))
              (fileName base version (filetype job ++ "_catalog_members".toList) (versioned job)) c m d, none)

/-! ### Setup of a run -/

inductive Mode where
  | firstpass
  | likelihoods
  | percolation
  | runcat
  | zscan
  | colormem
  | zmask
  deriving DecidableEq

/-- The flags of a run; `cutBkg = none`: the attribute is not set. -/
structure Flags where
  readGals : Bool
  readZreds : Bool
  zredsRequired : Bool
  zredbkgRequired : Bool
  useColorbkg : Bool
  useParfile : Bool
  cutBkg : Option Bool
  cutChisq : Bool

/-- cluster_runner.py:67-77. -/
def defaults : Flags := ⟨true, false, false, false, false, true, none, false⟩

/-- The flags after `_additional_initialization` of the mode: run_firstpass.py:68-78, run_likelihoods.py:56-68, run_percolation.py:77-83,
runcat.py:30-35, run_zscan.py:33-40, run_colormem.py:47-53, run_randoms_zmask.py:42-51.  `depthSet`: config.depthfile is not None,
`likeZred`: likelihoods_use_zred. -/
def flags (m : Mode) (depthSet likeZred : Bool) : Flags :=
  match m with
  | .firstpass => { defaults with readZreds := true, zredsRequired := false, cutBkg := some true, cutChisq := true }
  | .likelihoods => { defaults with readZreds := likeZred, zredsRequired := likeZred, cutBkg := some true, cutChisq := true }
  | .percolation => { defaults with readZreds := true, zredsRequired := true, zredbkgRequired := true, cutBkg := some true, cutChisq := false }
  | .runcat => { defaults with readZreds := false, zredsRequired := false, cutBkg := some true, cutChisq := true }
  | .zscan => { defaults with readZreds := true, zredsRequired := true, zredbkgRequired := true, cutBkg := some true, cutChisq := false }
  | .colormem => { defaults with useColorbkg := true, useParfile := false, cutBkg := some false, cutChisq := false }
  | .zmask => { defaults with readGals := !depthSet, readZreds := false, zredsRequired := false }

variable {α : Type} [Field α] [LinearOrder α]

/-- What the setup finds: can the backgrounds, the red-sequence model and the depth map be read; is a zred file configured; the galaxies of
the galaxy file with magnitude and chi-squared; the magnitude bins of the background. -/
structure Found (α : Type) where
  bkg : Bool
  zredbkg : Bool
  colorbkg : Bool
  par : Bool
  depth : Bool
  zredfile : Bool
  depthlim : Bool
  gals : List (α × α)
  refmagbins : List α
  chisqMax : α

/-- The result of the setup: no catalog, or the galaxies that are used (`none`: galaxies are not read). -/
inductive Ready (α : Type) where
  | noCatalog
  | ready (gals : Option (List (α × α)))

/-- cluster_runner.py:199-206: the range of magnitudes. -/
def magRange (cut : Bool) (bins : List α) : α × α :=
  if cut then (bins.getD 0 0, bins.getD (bins.length - 1) 0 + (bins.getD 1 0 - bins.getD 0 0)) else (-1000, 1000)

/-- cluster_runner.py:144-258: backgrounds, model, depth map, zreds and galaxies.  The galaxies are read without temporary files.  A file that
cannot be read is an OSError; the correction of redshifts and the mask are not modelled. -/
def setup (f : Flags) (w : Found α) : Except Err (Ready α) :=
  if (if f.useColorbkg then w.colorbkg else w.bkg) = false then .error .os
  else if f.zredbkgRequired ∧ w.zredbkg = false then .error .os
  else if f.useParfile ∧ w.par = false then .error .os
  else if w.depth = false ∧ f.readGals = false then .error .runtime
  else if f.zredsRequired ∧ ¬ (f.readZreds ∧ w.zredfile) then .error .runtime
  else if f.readGals = false then .ok (.ready none)
  else match f.cutBkg with
    | none => .error .attribute
    | some cut =>
      let (lo, hi) := magRange cut w.refmagbins
      let gals := w.gals.filter fun g => decide (lo < g.1) && decide (g.1 < hi) && (!(f.readZreds && w.zredfile && f.cutChisq) || decide (g.2 < w.chisqMax))
      if gals.isEmpty then .ok .noCatalog
      else if w.depth = false ∧ w.depthlim = false then .ok .noCatalog
      else .ok (.ready (some gals))

/-! ### Seeds of the first pass -/

/-- A galaxy or a seed: position (an identifier), magnitude, zred, its chi-squared and a spectroscopic redshift. -/
structure Seed (α : Type) where
  pos : Nat
  refmag : α
  zred : α
  chisq : α
  zspec : α

/-- A row of the catalog that is processed, with the radius that belongs to it. -/
structure Row (α : Type) where
  pos : Nat
  refmag : α
  zred : α
  chisq : α
  z : α
  zInit : α
  zSpecInit : α
  r0 : α
  beta : α

/-- Settings of the first pass: `r0`, `beta` are firstpass_r0 and firstpass_beta. -/
structure FCfg (α : Type) where
  zlo : α
  zhi : α
  chisqMax : α
  r0 : α
  beta : α
  specmode : Bool
  cleaninput : Bool
  didReadZreds : Bool

/-- run_firstpass.py:110-226.  `seeds`: the seed file if there is one; `mlim` the magnitude limit at a redshift; `inMask` the mask at a
position.  `ok none`: no catalog.  Without a seed file the catalog is made without radius (205-209), and a cluster takes 1 and 0.2
(cluster.py:141-142). -/
def firstSeeds (c : FCfg α) (seeds : Option (List (Seed α))) (gals : List (Seed α)) (mlim : α → α) (inMask : Nat → Bool) :
    Except Err (Option (List (Row α))) :=
  match seeds with
  | some s =>
    let use := s.filter fun g => decide (c.zlo ≤ g.zred) && decide (g.zred ≤ c.zhi) && decide (g.chisq < c.chisqMax)
    let rows := use.map fun g =>
      (⟨g.pos, g.refmag, g.zred, g.chisq, if c.specmode then g.zspec else g.zred, if c.specmode then g.zspec else g.zred, g.zspec, c.r0, c.beta⟩ : Row α)
    if rows.isEmpty then .ok none
    else if c.cleaninput then
      let rows := rows.filter fun r => inMask r.pos
      if rows.isEmpty then .ok none else .ok (some rows)
    else .ok (some rows)
  | none =>
    if c.specmode then .error .runtime
    else if c.didReadZreds = false then .error .runtime
    else
      let use := gals.filter fun g => decide (c.zlo ≤ g.zred) && decide (g.zred ≤ c.zhi) && decide (g.chisq < c.chisqMax)
      let good := use.filter fun g => decide (g.refmag < mlim g.zred)
      if good.isEmpty then .ok none
      else .ok (some (good.map fun g => (⟨g.pos, g.refmag, g.zred, g.chisq, g.zred, g.zred, 0, 1, 1 / 5⟩ : Row α)))

/-! ### Randoms -/

/-- `np.sum(cpars * r**(np.arange(n)[::-1]))` (run_randoms_zmask.py:141): the coefficient of the highest power is first. -/
def polyval (cpars : List α) (r : α) : α := (cpars.mapIdx fun k c => c * r ^ (cpars.length - 1 - k)).sum

/-- run_randoms_zmask.py:142; `none`: infinite. -/
def scaleval (cpars : List α) (r : α) : Option α := if 1 - polyval cpars r = 0 then none else some (1 / (1 - polyval cpars r))

/-- A random during the run. -/
structure Rand where
  lambdaIn : ℝ
  Lambda : ℝ
  rLambda : ℝ
  rMask : ℝ
  scaleval : Option ℝ

/-- run_randoms_zmask.py:135-145; `cpars` are the parameters of the mask correction. -/
noncomputable def zmaskProcess (r0 beta : ℝ) (cpars : List ℝ) (x : Rand) : Rand :=
  let rl := r0 * (x.lambdaIn / 100) ^ beta
  { x with Lambda := x.lambdaIn, rLambda := rl, rMask := rl, scaleval := scaleval cpars rl }

/-! ### Radius of the redshift scan -/

/-- run_zscan.py:102-107. -/
noncomputable def refineMaxrad (r0 beta : ℝ) : ℝ := if beta = 0 then 1.2 * r0 else r0 * (300 / 100) ^ beta

/-! ### Log files -/

/-- A logger and the configurations that use it: the open files of the logger, and for every configuration whether it has started its file.
Configurations of one process share the logger (configuration.py:442-447). -/
structure Log where
  handlers : List (List Char)
  started : Nat → Bool

/-- Settings of a configuration for the log. -/
structure LCfg where
  printlogging : Bool
  outbase : List Char
  hpix : List Nat

/-- configuration.py:593-595: `redmapper_<outbase>_<pixel with four digits>.log`. -/
def logName (c : LCfg) : Option (List Char) :=
  match c.hpix with
  | [] => none
  | p :: _ => some ("redmapper_".toList ++ c.outbase ++ '_' :: (List.replicate (4 - (dec p).length) '0' ++ dec p) ++ ".log".toList)

/-- configuration.py:574-602 `start_file_logging`. -/
def startLog (k : Nat) (c : LCfg) (l : Log) : Except Err Log :=
  if l.started k then .ok l
  else if c.printlogging then .ok l
  else match logName c with
    | none => .error .index
    | some n => .ok { handlers := l.handlers ++ [n], started := fun j => if j = k then true else l.started j }

/-- configuration.py:604-610 `stop_file_logging`. -/
def stopLog (l : Log) : Log := { l with handlers := [] }

end Redmapper.CatTask
