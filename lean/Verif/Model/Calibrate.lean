/-
Model of the red-sequence calibration driver and of its restarts.

  /repo/redmapper/calibration/calibrate.py   RedmapperCalibrator, RedmapperCalibrationIteration,
                                             RedmapperCalibrationIterationFinal

Simplifications: the calibration stages themselves (selection, red-sequence fit, zreds, backgrounds, cluster
finder, centering and redshift calibration, plots) are parameters (`Ext`) whose first argument stands for the
random draws of the session; file contents are opaque; writing one file (or one extension of the background
file, or one figure) is atomic; a file name is the pair of output base and product type; a session may stop
(crash or exception) before any write, which is what `budget` counts.
-/
import Mathlib.Logic.Function.Basic

namespace Redmapper.Calibrate

/-- The output bases: the configured one (calibrate.py:56-114), one per iteration (calibrate.py:314), those of
the random centers (calibrate.py:447,460), the final iteration (calibrate.py:577), the run directory
(calibrate.py:200-226); `ext` are files of the user. -/
inductive Base
  | top
  | iter (n : Nat)
  | rand (n : Nat)
  | randsat (n : Nat)
  | iterb (n : Nat)
  | run
  | ext
deriving DecidableEq, Repr

/-- The product types, i.e. the arguments of `redmapper_filename` in calibrate.py; the background file has the
two extensions `bkgChisq`, `bkgZred`. -/
inductive Kind
  | redgals | redmodel | bkgColor | maskgals | colormem | colorcat | trainSeeds | cutSeeds | specseeds
  | seedzreds | pars | zreds | bkgChisq | bkgZred | final | members | like | sublike | wcen | zlambda | zmem
  | plot
deriving DecidableEq, Repr

abbrev Name := Base × Kind

/-- The centering classes (calibrate.py:381-384, 453, 466); `conf` is the configured one. -/
inductive CC
  | conf | firstpass | wcenZred | random | randomSat
deriving DecidableEq, Repr

/-- The configuration fields calibrate.py assigns; `wvals` are the centering values that
`config.set_wcen_vals` loads. -/
structure Cfg (W : Type) where
  dOut : Base
  redgalfile : Option Name
  redgalmodelfile : Option Name
  bkgfileColor : Option Name
  maskgalfile : Option Name
  zmemfile : Option Name
  seedfile : Option Name
  parfile : Option Name
  zredfile : Option Name
  bkgfile : Option Base
  catfile : Option Name
  wcenfile : Option Name
  zlambdafile : Option Name
  centerclass : CC
  wvals : W

/-- What a run of the cluster finder reads: the input catalog (seeds or clusters to percolate), the
parameters, the two background extensions, the zreds, the mask galaxies, the centering class and values, and
the redshift correction if there is one. -/
structure RunIn (K W : Type) where
  cat : K
  pars : K
  bkg : K
  zbkg : K
  zreds : K
  maskgals : K
  cc : CC
  wvals : W
  zlambda : Option K

/-- The stages. -/
structure Ext (R K W : Type) where
  /-- `config.galfile_pixelized`. -/
  pixelized : Bool
  /-- `config.nside == 0`. -/
  fullSky : Bool
  /-- `config.calib_make_full_bkg`. -/
  makeFullBkg : Bool
  niter : Nat
  /-- `SelectSpecRedGalaxies.run`: the red galaxies and the model. -/
  selRed : R → K × K
  /-- `ColorBackgroundGenerator.run`. -/
  colorBkg : R → K
  /-- `Mask.gen_maskgals`. -/
  maskgals : R → K
  /-- `RunColormem`: red galaxies, model, color background, mask galaxies to members and catalog. -/
  colormem : R → K → K → K → K → K × K
  /-- `SelectSpecSeeds.run(usetrain)`, with the zreds if they are there. -/
  seeds : R → Bool → Option K → K
  /-- `RedSequenceCalibrator.run`: members and color background to the parameters saved first
  (redsequencecal.py:198) and those saved last (redsequencecal.py:211). -/
  pars : R → K → K → K × K
  /-- `ZredRunPixels.run`, `ZredRunCatalog.run` on the galaxies. -/
  zreds : R → K → K
  /-- `BackgroundGenerator.run`. -/
  bkg : R → K → K
  /-- `BackgroundGenerator.run(deepmode=True)`. -/
  bkgDeep : R → K → K
  /-- `ZredBackgroundGenerator.run`: parameters and zreds. -/
  zbkg : R → K → K → K
  /-- `ZredRunCatalog.run` on the seeds: seeds and parameters. -/
  seedZreds : R → K → K → K
  /-- calibrate.py:402-406, seeds with their zreds. -/
  joinSeeds : K → K → K
  /-- `RedmapperRun.run(specmode=True, keepz=True, consolidate_like=True)`: catalog, members, likelihoods. -/
  specRun : R → RunIn K W → K × K × K
  /-- calibrate.py:432-441: likelihoods and catalog. -/
  subLike : K → K → K
  /-- `RedmapperRun.run(percolation_only=True, keepz=True)`: catalog and members. -/
  percRun : R → RunIn K W → K × K
  /-- `WcenCalibrator.run`: parameters, background, catalog, random and random-satellite catalogs (first
  iteration), centering values. -/
  wcen : R → K → K → K → Option (K × K) → W → K
  /-- `config.set_wcen_vals`. -/
  loadWcen : K → W
  /-- `ZLambdaCalibrator.run`. -/
  zlambda : R → K → K
  /-- calibrate.py:500-541: catalog and correction. -/
  plot : K → K → K
  /-- `PrepMembers.run('z_init')`: catalog and members. -/
  prep : R → K → K → K
  /-- calibrate.py:131-137: seeds and catalog. -/
  cutSeeds : K → K → K
  /-- `RedmapperRun.run(seedfile=...)`: catalog and members. -/
  fullRun : R → RunIn K W → K × K
  /-- calibrate.py:622-628. -/
  plotFinal : K → K

variable {R K W : Type}

/-- The state of a session: the configuration object, the files, and how many more writes it makes before it
stops (`none`: it does not stop). -/
structure St (K W : Type) where
  cfg : Cfg W
  fs : Name → Option K
  budget : Option Nat

/-- A python method: it returns, or raises or is interrupted, and leaves a state in both cases. -/
def M (K W α : Type) := St K W → Option α × St K W

def M.pure {α : Type} (a : α) : M K W α := fun s => (some a, s)

def M.andThen {α β : Type} (m : M K W α) (f : α → M K W β) : M K W β := fun s =>
  match m s with
  | (some a, s') => f a s'
  | (none, s') => (none, s')

instance : Monad (M K W) where
  pure := M.pure
  bind := M.andThen

def upd (fs : Name → Option K) (n : Name) (k : K) : Name → Option K :=
  fun m => if m = n then some k else fs m

/-- An exception. -/
def raise {α : Type} : M K W α := fun s => (none, s)

/-- Writing a file (`to_fits_file(clobber=True)`, or of a file that is not there). -/
def write (n : Name) (k : K) : M K W Unit := fun s =>
  match s.budget with
  | none => (some (), { s with fs := upd s.fs n k })
  | some 0 => (none, s)
  | some (b + 1) => (some (), { s with fs := upd s.fs n k, budget := some b })

/-- `to_fits_file(clobber=False)` appends an extension to a file that is there (catalog.py:126-151); readers
use the first extension, so the content does not change. -/
def append (n : Name) (k : K) : M K W Unit := fun s =>
  match s.fs n with
  | none => write n k s
  | some k' => write n k' s

/-- Reading a file; a name that is None or a missing file raises. -/
def read (o : Option Name) : M K W K := fun s =>
  match o with
  | none => (none, s)
  | some n => (s.fs n, s)

/-- `if f is not None and os.path.isfile(f)` (selectspecseeds.py:49-54), `try: ... except: None`
(cluster_runner.py:163-168). -/
def tryRead (o : Option Name) : M K W (Option K) := fun s =>
  match o with
  | none => (some none, s)
  | some n => (some (s.fs n), s)

def getCfg : M K W (Cfg W) := fun s => (some s.cfg, s)

def setCfg (f : Cfg W → Cfg W) : M K W Unit := fun s => (some (), { s with cfg := f s.cfg })

/-- `if os.path.isfile(n): log "already there" else: body`. -/
def ifMissing (n : Name) (body : M K W Unit) : M K W Unit := fun s =>
  match s.fs n with
  | some _ => (some (), s)
  | none => body s

/-- The name of an extension of `config.bkgfile`. -/
def bkgName (c : Cfg W) (k : Kind) : Option Name := c.bkgfile.map fun b => (b, k)

/-- calibrate.py:55-65, the red galaxies and their model. -/
def stRed (E : Ext R K W) (r : R) : M K W Unit := do
  setCfg fun c => { c with redgalfile := some (c.dOut, .redgals), redgalmodelfile := some (c.dOut, .redmodel) }
  let c ← getCfg
  ifMissing (c.dOut, .redgals) do
    write (c.dOut, .redgals) (E.selRed r).1
    write (c.dOut, .redmodel) (E.selRed r).2

/-- calibrate.py:67-75, the color background. -/
def stColor (E : Ext R K W) (r : R) : M K W Unit := do
  setCfg fun c => { c with bkgfileColor := some (c.dOut, .bkgColor) }
  let c ← getCfg
  ifMissing (c.dOut, .bkgColor) do
    write (c.dOut, .bkgColor) (E.colorBkg r)

/-- calibrate.py:77-86, the mask galaxies. -/
def stMask (E : Ext R K W) (r : R) : M K W Unit := do
  setCfg fun c => { c with maskgalfile := some (c.dOut, .maskgals) }
  let c ← getCfg
  ifMissing (c.dOut, .maskgals) do
    write (c.dOut, .maskgals) (E.maskgals r)

/-- calibrate.py:88-97 with run_colormem.py:176-191 `output_training`, the members of the color run. -/
def stColormem (E : Ext R K W) (r : R) : M K W Unit := do
  setCfg fun c => { c with zmemfile := some (c.dOut, .colormem) }
  let c ← getCfg
  ifMissing (c.dOut, .colormem) do
    let red ← read c.redgalfile
    let model ← read c.redgalmodelfile
    let cb ← read c.bkgfileColor
    let mg ← read c.maskgalfile
    let o := E.colormem r red model cb mg
    write (c.dOut, .colormem) o.1
    write (c.dOut, .colorcat) o.2

/-- calibrate.py:99-107 (`usetrain=True`), 144-151 (`usetrain=False`), the spectroscopic seeds. -/
def stSeeds (E : Ext R K W) (r : R) (train : Bool) (k : Kind) : M K W Unit := do
  setCfg fun c => { c with seedfile := some (c.dOut, k) }
  let c ← getCfg
  ifMissing (c.dOut, k) do
    let z ← tryRead c.zredfile
    write (c.dOut, k) (E.seeds r train z)

/-- calibrate.py:316-324, the red-sequence parameters, which redsequencecal.py saves twice (198, 211). -/
def stPars (E : Ext R K W) (r : R) : M K W Unit := do
  setCfg fun c => { c with parfile := some (c.dOut, .pars) }
  let c ← getCfg
  ifMissing (c.dOut, .pars) do
    let zm ← read c.zmemfile
    let cb ← read c.bkgfileColor
    write (c.dOut, .pars) (E.pars r zm cb).1
    write (c.dOut, .pars) (E.pars r zm cb).2

/-- calibrate.py:328-346, the zreds. -/
def stZreds (E : Ext R K W) (r : R) : M K W Unit := do
  setCfg fun c => { c with zredfile := some (c.dOut, .zreds) }
  let c ← getCfg
  ifMissing (c.dOut, .zreds) do
    let p ← read c.parfile
    write (c.dOut, .zreds) (E.zreds r p)

/-- calibrate.py:349-367, which extensions are missing: `calc_bkg`, `calc_zred_bkg`. -/
def missing (b : Base) : M K W (Bool × Bool) := fun s =>
  (some ((s.fs (b, .bkgChisq)).isNone, (s.fs (b, .bkgZred)).isNone), s)

/-- calibrate.py:369-372 with background.py:309-314. -/
def stBkg (E : Ext R K W) (r : R) (c : Cfg W) (b : Base) (todo : Bool) : M K W Unit :=
  match todo with
  | false => M.pure ()
  | true => ifMissing (b, .bkgChisq) do
      let p ← read c.parfile
      write (b, .bkgChisq) (E.bkg r p)

/-- calibrate.py:374-377 with background.py:603-614,637: the zred file must be there and the galaxies
pixelized. -/
def stZbkg (E : Ext R K W) (r : R) (c : Cfg W) (b : Base) (todo : Bool) : M K W Unit :=
  match todo with
  | false => M.pure ()
  | true => do
      let z ← read c.zredfile
      ifMissing (b, .bkgZred) do
        let p ← read c.parfile
        match E.pixelized with
        | false => raise
        | true => write (b, .bkgZred) (E.zbkg r p z)

/-- calibrate.py:348-377, the two backgrounds. -/
def stBkgs (E : Ext R K W) (r : R) : M K W Unit := do
  setCfg fun c => { c with bkgfile := some c.dOut }
  let c ← getCfg
  let t ← missing c.dOut
  stBkg E r c c.dOut t.1
  stZbkg E r c c.dOut t.2

/-- calibrate.py:388-408, 580-600, the seeds with zreds of this iteration. -/
def stIterSeeds (E : Ext R K W) (r : R) : M K W Unit := do
  let c ← getCfg
  ifMissing (c.dOut, .specseeds) do
    let sd ← read c.seedfile
    let p ← read c.parfile
    append (c.dOut, .seedzreds) (E.seedZreds r sd p)
    let z ← read (some (c.dOut, .seedzreds))
    write (c.dOut, .specseeds) (E.joinSeeds sd z)

/-- The inputs of a cluster finder run under a configuration, with the given input catalog
(cluster_runner.py:144-245, run_firstpass.py:116-118, run_percolation.py:128). -/
def runIn (cat : Option Name) (c : Cfg W) : M K W (RunIn K W) := do
  let k ← read cat
  let p ← read c.parfile
  let b ← read (bkgName c .bkgChisq)
  let zb ← read (bkgName c .bkgZred)
  let z ← read c.zredfile
  let m ← read c.maskgalfile
  let zl ← tryRead c.zlambdafile
  M.pure { cat := k, pars := p, bkg := b, zbkg := zb, zreds := z, maskgals := m,
           cc := c.centerclass, wvals := c.wvals, zlambda := zl }

/-- calibrate.py:411-425, the cluster finder from the seeds; redmapper_run.py:138-147, 359-365 write the
catalog, then the members, then the likelihoods. -/
def stSpecRun (E : Ext R K W) (r : R) : M K W Unit := do
  let c ← getCfg
  ifMissing (c.dOut, .final) do
    setCfg fun c => { c with zlambdafile := none }
    let c ← getCfg
    let i ← runIn (some (c.dOut, .specseeds)) c
    write (c.dOut, .final) (E.specRun r i).1
    write (c.dOut, .members) (E.specRun r i).2.1
    write (c.dOut, .like) (E.specRun r i).2.2

/-- calibrate.py:428-441, likelihoods of the good clusters. -/
def stSubLike (E : Ext R K W) : M K W Unit := do
  let c ← getCfg
  ifMissing (c.dOut, .sublike) do
    let l ← read (some (c.dOut, .like))
    let f ← read (some (c.dOut, .final))
    write (c.dOut, .sublike) (E.subLike l f)

/-- calibrate.py:445-456, 458-469, percolation with random centers under another output base. -/
def stRand (E : Ext R K W) (r : R) (sub : Name) (b : Base) (cc : CC) : M K W Unit := do
  setCfg fun c => { c with dOut := b }
  ifMissing (b, .final) do
    setCfg fun c => { c with catfile := some sub, centerclass := cc }
    let c ← getCfg
    let i ← runIn c.catfile c
    write (b, .final) (E.percRun r i).1
    write (b, .members) (E.percRun r i).2

/-- calibrate.py:428-475: in the first iteration the random catalogs, otherwise none. -/
def stRands (E : Ext R K W) (r : R) (it : Nat) : M K W (Option (Name × Name)) :=
  match it with
  | 1 => do
    stSubLike E
    let c ← getCfg
    stRand E r (c.dOut, .sublike) (.rand it) .random
    stRand E r (c.dOut, .sublike) (.randsat it) .randomSat
    setCfg fun c' => { c' with dOut := c.dOut }
    M.pure (some ((Base.rand it, Kind.final), (Base.randsat it, Kind.final)))
  | _ => M.pure none

/-- The two random catalogs, if asked for (centeringcal.py:312-317). -/
def readRand (o : Option (Name × Name)) : M K W (Option (K × K)) :=
  match o with
  | none => M.pure none
  | some q => do
    let a ← read (some q.1)
    let b ← read (some q.2)
    M.pure (some (a, b))

/-- calibrate.py:477-492, the centering calibration; `cc` is the configured centering class. -/
def stWcen (E : Ext R K W) (r : R) (cc : CC) (fin : Name) (rand : Option (Name × Name)) : M K W Unit := do
  setCfg fun c => { c with centerclass := cc, catfile := some fin, wcenfile := some (c.dOut, .wcen) }
  let c ← getCfg
  ifMissing (c.dOut, .wcen) do
    let p ← read c.parfile
    let b ← read (bkgName c .bkgChisq)
    let f ← read c.catfile
    let q ← readRand rand
    write (c.dOut, .wcen) (E.wcen r p b f q c.wvals)
  let v ← tryRead c.wcenfile
  match v with
  | none => M.pure ()
  | some k => setCfg fun c => { c with wvals := E.loadWcen k }

/-- calibrate.py:494-501, the redshift correction. -/
def stZlambda (E : Ext R K W) (r : R) : M K W Unit := do
  setCfg fun c => { c with zlambdafile := some (c.dOut, .zlambda) }
  let c ← getCfg
  ifMissing (c.dOut, .zlambda) do
    let f ← read c.catfile
    write (c.dOut, .zlambda) (E.zlambda r f)

/-- calibrate.py:503-545, the figure. -/
def stPlot (E : Ext R K W) : M K W Unit := do
  let c ← getCfg
  ifMissing (c.dOut, .plot) do
    let f ← read c.catfile
    let z ← read c.zlambdafile
    write (c.dOut, .plot) (E.plot f z)

/-- calibrate.py:298-545 `RedmapperCalibrationIteration.run`. -/
def iteration (E : Ext R K W) (r : R) (it : Nat) : M K W Unit := do
  setCfg fun c => { c with dOut := .iter it }
  stPars E r
  stZreds E r
  stBkgs E r
  let c ← getCfg
  setCfg fun c => { c with centerclass := if it = 1 then CC.firstpass else CC.wcenZred }
  stIterSeeds E r
  stSpecRun E r
  let q ← stRands E r it
  stWcen E r c.centerclass (.iter it, .final) q
  stZlambda E r
  stPlot E

/-- calibrate.py:113-125, the members for the next iteration. -/
def stPrep (E : Ext R K W) (r : R) : M K W Unit := do
  setCfg fun c => { c with zmemfile := some (c.dOut, .zmem) }
  let c ← getCfg
  ifMissing (c.dOut, .zmem) do
    let f ← read c.catfile
    let m ← read (c.catfile.map fun n => (n.1, Kind.members))
    write (c.dOut, .zmem) (E.prep r f m)

/-- calibrate.py:130-142, the seeds that found a cluster. -/
def stCut (E : Ext R K W) : M K W Unit := do
  let c ← getCfg
  ifMissing (c.dOut, .cutSeeds) do
    let sd ← read c.seedfile
    let f ← read c.catfile
    write (c.dOut, .cutSeeds) (E.cutSeeds sd f)
  setCfg fun c => { c with seedfile := some (c.dOut, .cutSeeds) }

/-- calibrate.py:109-142, one turn of the loop. -/
def turn (E : Ext R K W) (r : R) (it : Nat) : M K W Unit := do
  iteration E r it
  stPrep E r
  setCfg fun c => { c with dOut := .top }
  match it with
  | 1 => stCut E
  | _ => M.pure ()

/-- calibrate.py:109, the iterations `it, ..., it + n - 1`. -/
def turns (E : Ext R K W) (r : R) : Nat → Nat → M K W Unit
  | _, 0 => M.pure ()
  | it, n + 1 => do
    turn E r it
    turns E r (it + 1) n

/-- calibrate.py:602-615, the final run. -/
def stFullRun (E : Ext R K W) (r : R) : M K W Unit := do
  let c ← getCfg
  ifMissing (c.dOut, .final) do
    let i ← runIn (some (c.dOut, .specseeds)) c
    write (c.dOut, .final) (E.fullRun r i).1
    write (c.dOut, .members) (E.fullRun r i).2
  setCfg fun c => { c with catfile := some (c.dOut, .final) }

/-- calibrate.py:617-628, the final figure. -/
def stPlotFinal (E : Ext R K W) : M K W Unit := do
  let c ← getCfg
  ifMissing (c.dOut, .plot) do
    let f ← read c.catfile
    write (c.dOut, .plot) (E.plotFinal f)

/-- calibrate.py:566-628 `RedmapperCalibrationIterationFinal.run`. -/
def finalIteration (E : Ext R K W) (r : R) (it : Nat) : M K W Unit := do
  setCfg fun c => { c with dOut := .iterb it }
  stIterSeeds E r
  stFullRun E r
  stPlotFinal E

/-- The calibration products in the configuration written for the run (calibrate.py:228-277). -/
structure RunCfg where
  parfile : Name
  bkgfile : Base
  zredfile : Name
  zlambdafile : Name
  wcenfile : Name
  bkgfileColor : Option Name
  maskgalfile : Option Name
  redgalfile : Option Name
  redgalmodelfile : Option Name
deriving DecidableEq, Repr

/-- calibrate.py:187-280 `output_configuration` (names; the directories are in `runNames`), with
`new_bkgfile`. -/
def outputConfig (E : Ext R K W) (c : Cfg W) : RunCfg × Bool :=
  ({ parfile := (.iter E.niter, .pars)
     bkgfile := if E.fullSky then .iter E.niter else if E.makeFullBkg then .run else .iter E.niter
     zredfile := if E.fullSky then (.iter E.niter, .zreds) else (.run, .zreds)
     zlambdafile := (.iter E.niter, .zlambda)
     wcenfile := (.iter E.niter, .wcen)
     bkgfileColor := c.bkgfileColor
     maskgalfile := c.maskgalfile
     redgalfile := c.redgalfile
     redgalmodelfile := c.redgalmodelfile },
   !E.fullSky && E.makeFullBkg)

/-- calibrate.py:161-176, the background of the full survey for the run (with the new configuration). -/
def stDeep (E : Ext R K W) (r : R) (o : RunCfg) (todo : Bool) : M K W Unit :=
  match todo with
  | false => M.pure ()
  | true => ifMissing (o.bkgfile, .bkgChisq) do
      let p ← read (some o.parfile)
      write (o.bkgfile, .bkgChisq) (E.bkgDeep r p)

/-- calibrate.py:49-185 `RedmapperCalibrator.run`. -/
def calibrate (E : Ext R K W) (r : R) : M K W RunCfg := do
  stRed E r
  stColor E r
  stMask E r
  stColormem E r
  stSeeds E r true .trainSeeds
  turns E r 1 E.niter
  stSeeds E r false .specseeds
  finalIteration E r E.niter
  let c ← getCfg
  let o := outputConfig E c
  stDeep E r o.1 o.2
  M.pure o.1

/-- The configuration a session starts with: no product is configured; the user may have set a zred file, a
redshift correction and centering values. -/
def start (zred zlam : Option Name) (w0 : W) : Cfg W :=
  { dOut := .top, redgalfile := none, redgalmodelfile := none, bkgfileColor := none, maskgalfile := none,
    zmemfile := none, seedfile := none, parfile := none, zredfile := zred, bkgfile := none, catfile := none,
    wcenfile := none, zlambdafile := zlam, centerclass := .conf, wvals := w0 }

/-- One session on a directory. -/
def session (E : Ext R K W) (r : R) (zred zlam : Option Name) (w0 : W) (fs : Name → Option K)
    (budget : Option Nat) : Option RunCfg × St K W :=
  calibrate E r { cfg := start zred zlam w0, fs := fs, budget := budget }

/-- Python's `str.replace(old, new)` for a non-empty `old`: left to right, not overlapping; `fuel` bounds the
number of steps. -/
def replaceGo (old new : List Char) : Nat → List Char → List Char
  | 0, s => s
  | _, [] => []
  | fuel + 1, c :: s =>
    match old.isPrefixOf (c :: s) with
    | true => new ++ replaceGo old new fuel ((c :: s).drop old.length)
    | false => c :: replaceGo old new fuel s

def replace (old new s : List Char) : List Char := replaceGo old new s.length s

/-- `old in s`. -/
def inside (old : List Char) : List Char → Bool
  | [] => old.isEmpty
  | c :: s => old.isPrefixOf (c :: s) || inside old s

/-- calibrate.py:200-210, the directory of the cluster finder from that of the calibration. -/
def runDir (cal : List Char) : List Char :=
  if cal = ['c', 'a', 'l'] then ['r', 'u', 'n']
  else if inside ['c', 'a', 'l', '_'] cal then replace ['c', 'a', 'l', '_'] ['r', 'u', 'n', '_'] cal
  else if inside ['_', 'c', 'a', 'l'] cal then replace ['_', 'c', 'a', 'l'] ['_', 'r', 'u', 'n'] cal
  else cal ++ ['_', 'r', 'u', 'n']

/-- calibrate.py:221-226, the output base of the cluster finder. -/
def runBase (cal : List Char) : List Char :=
  if inside ['_', 'c', 'a', 'l'] cal then replace ['_', 'c', 'a', 'l'] ['_', 'r', 'u', 'n'] cal
  else cal ++ ['_', 'r', 'u', 'n']

/-- What the check of the corrected redshifts does (calibrate.py:522-534). -/
inductive Check
  | passed
  | runtimeError
  | nameError
deriving DecidableEq, Repr

/-- calibrate.py:522-534: the loop variable `cluster` after the loop over the catalog is the last cluster, and
only its redshift is tested; without clusters it is not defined. `corr` is the correction, `zs` the redshifts of
the clusters above the richness cut. Simplification: richness and redshift error are not arguments. -/
def negativeCheck {α : Type} [LT α] [Zero α] [DecidableLT α] (corr : α → α) (zs : List α) : Check :=
  match zs.getLast? with
  | none => .nameError
  | some z => if corr z < 0 then .runtimeError else .passed

end Redmapper.Calibrate
