/-
Model of the calibration of the centering model.

  /repo/redmapper/calibration/centeringcal.py   WcenFgFitter, WcenCFitter, WcenCwFitter, WcenCalibrator
  /repo/redmapper/centering.py                  CenteringWcenZred (the two places where the calibrated model is applied)

Simplifications: numbers are real numbers, with `none` for NaN and infinities; the minimizer, the robust line, the characteristic
magnitude, the chi-squared weights and the background are parameters; exact arithmetic, so exponentials do not underflow.
-/
import Mathlib.Analysis.SpecialFunctions.Log.Basic
import Mathlib.Analysis.SpecialFunctions.Sqrt
import Mathlib.Analysis.Real.Pi.Bounds
import Verif.Model.Finders
import Verif.Model.Config

namespace Redmapper.WcenCal

inductive Err
  | runtimeError
deriving DecidableEq, Repr

/-! ## The three likelihoods -/

/-- `(1./(np.sqrt(2. * np.pi) * s)) * np.exp(-0.5 * (x - m)**2. / (s**2.))`; not a number for a width of zero. -/
noncomputable def gauss (m s x : ℝ) : Option ℝ :=
  if s = 0 then none else some (1 / (Real.sqrt (2 * Real.pi) * s) * Real.exp (-(1 / 2) * (x - m) ^ 2 / s ^ 2))

/-- `np.log`: a number for positive arguments only. -/
noncomputable def nlog (x : ℝ) : Option ℝ := if 0 < x then some (Real.log x) else none

/-- `np.sum` of values that may not be numbers. -/
def nsum : List (Option ℝ) → Option ℝ
  | [] => some 0
  | x :: xs => x.bind fun a => (nsum xs).map fun b => a + b

/-- centeringcal.py:74-76, 166, 249-250: minus the sum, plus a thousand for a negative width. -/
noncomputable def penalized (s : ℝ) (t : Option ℝ) : Option ℝ := t.map fun v => -v + if s < 0 then 1000 else 0

/-- centeringcal.py:55-78 `WcenFgFitter.__call__`; rows are `(w, lscale)`, the parameters mean and width. -/
noncomputable def fgCost (rows : List (ℝ × ℝ)) (p : ℝ × ℝ) : Option ℝ :=
  penalized p.2 (nsum (rows.map fun r => (gauss p.1 (p.2 * r.2) (Real.log r.1)).bind nlog))

/-- What the central magnitude fit knows of a cluster: centeringcal.py:84-117. -/
structure CRow where
  pcen : ℝ
  psat : ℝ
  mstar : ℝ
  lamscale : ℝ
  refmag : ℝ
  cwt : ℝ
  phi1 : Option ℝ
  bcounts : ℝ

/-- centeringcal.py:157-160: the density of one cluster before the floor. -/
noncomputable def cRho (d0 d1 s : ℝ) (r : CRow) : Option ℝ :=
  (gauss (r.mstar + d0 + d1 * r.lamscale) s r.refmag).bind fun phicen => r.phi1.map fun phi1 =>
    r.pcen * phicen * r.cwt + r.psat * phi1 * r.cwt + (1 - r.pcen - r.psat) * r.bcounts

/-- centeringcal.py:162-163: densities below the floor or not finite are put at the floor. -/
noncomputable def floored : Option ℝ → ℝ
  | none => 1 / 100000
  | some r => if r < 1 / 100000 then 1 / 100000 else r

/-- centeringcal.py:137-168 `WcenCFitter.__call__`; the parameters are offset, slope and width. -/
noncomputable def cCost (rows : List CRow) (p : ℝ × ℝ × ℝ) : ℝ :=
  -(rows.map fun r => Real.log (floored (cRho p.1 p.2.1 p.2.2 r))).sum + if p.2.2 < 0 then 1000 else 0

/-- What the central connectivity fit knows of a cluster: centeringcal.py:176-199. -/
structure WRow where
  pcen : ℝ
  psat : ℝ
  w : ℝ
  ffg : ℝ
  fsat : ℝ
  lscale : ℝ

/-- centeringcal.py:219-251 `WcenCwFitter.__call__`. -/
noncomputable def cwCost (rows : List WRow) (p : ℝ × ℝ) : Option ℝ :=
  penalized p.2 (nsum (rows.map fun r => (gauss p.1 (p.2 * r.lscale) (Real.log r.w)).bind fun fcen =>
    nlog (r.pcen * fcen + r.psat * r.fsat + (1 - r.pcen - r.psat) * r.ffg)))

/-! ## The calibration -/

/-- The columns of a cluster catalog that are read; `z` is the spectroscopic redshift (centeringcal.py:318, 337). -/
structure Clu where
  lam : ℝ
  scaleval : ℝ
  w : ℝ
  z : ℝ
  maskfrac : ℝ
  refmag : ℝ
  pcen : ℝ
  psat : ℝ
  rlam : ℝ

/-- The model of the brightest galaxy. -/
structure Phi1 where
  mM : ℝ
  mSlope : ℝ
  sM : ℝ
  sSlope : ℝ

/-- The values of the configuration that the calibration reads and sets: mean and width of the connectivity of foreground and
satellites (`none`: not a number). -/
structure Vals where
  fg : Option (ℝ × ℝ)
  sat : Option (ℝ × ℝ)

/-- Settings and external functions. -/
structure Ctx (N : Type) where
  pivot : ℝ
  minlam : ℝ
  maxlam : ℝ
  z0 : ℝ
  z1 : ℝ
  maxMask : ℝ
  /-- `scipy.optimize.fmin` with a cost that may not be a number. -/
  fmin2 : (ℝ × ℝ → Option ℝ) → ℝ × ℝ → ℝ × ℝ
  fmin3 : (ℝ × ℝ × ℝ → ℝ) → ℝ × ℝ × ℝ → ℝ × ℝ × ℝ
  /-- the robust line of centeringcal.py:367-371: slope and offset. -/
  line : List (ℝ × ℝ) → ℝ × ℝ
  mstar : ℝ → ℝ
  cwt : Clu → ℝ
  /-- the background density per square Mpc, centeringcal.py:387-388. -/
  bkg : Clu → ℝ
  /-- the catalog in a file. -/
  read : N → List Clu

variable {N : Type}

/-- centeringcal.py:321-326, 339-344. -/
noncomputable def chosen (C : Ctx N) (c : Clu) : Bool :=
  decide (c.lam / c.scaleval > C.minlam) && decide (c.lam / c.scaleval < C.maxlam) && decide (c.w > 0) && decide (c.z > C.z0) &&
    decide (c.z < C.z1) && decide (c.maskfrac < C.maxMask)

/-- `np.mean` of a list that is not empty. -/
noncomputable def mean (l : List ℝ) : ℝ := l.sum / l.length

/-- `np.std`. -/
noncomputable def std (l : List ℝ) : ℝ := Real.sqrt ((l.map fun x => (x - mean l) ^ 2).sum / l.length)

/-- centeringcal.py:347, 401, 403, 405: `sqrt((Lambda / scaleval) / pivot)`. -/
noncomputable def root (C : Ctx N) (c : Clu) : ℝ := Real.sqrt ((c.lam / c.scaleval) / C.pivot)

/-- centeringcal.py:350, 408: the start of the two connectivity fits. -/
noncomputable def start2 (cs : List Clu) : ℝ × ℝ := (mean (cs.map fun c => Real.log c.w), std (cs.map fun c => Real.log c.w))

/-- centeringcal.py:336-351: the fit of one catalog; means of nothing are not numbers. -/
noncomputable def fgFit (C : Ctx N) (cat : List Clu) : Option (ℝ × ℝ) :=
  let cs := cat.filter (chosen C)
  if cs = [] then none else some (C.fmin2 (fgCost (cs.map fun c => (c.w, 1 / root C c))) (start2 cs))

/-- centeringcal.py:332-358: one file; the results go to the foreground if the file is the one of the random points. -/
noncomputable def randStep [DecidableEq N] (C : Ctx N) (fgfile : Option N) (v : Vals) : Option N → Vals
  | none => v
  | some f => if some f = fgfile then { v with fg := fgFit C (C.read f) } else { v with sat := fgFit C (C.read f) }

/-- centeringcal.py:330-358. -/
noncomputable def rands [DecidableEq N] (C : Ctx N) (fgfile satfile : Option N) (v : Vals) : Vals :=
  randStep C fgfile (randStep C fgfile v fgfile) satfile

/-- centeringcal.py:272-278: the checks of the constructor. -/
def widthUnset (p : Option (ℝ × ℝ)) : Prop := ∃ q, p = some q ∧ q.2 < 0

open Classical in
noncomputable def construct (iteration : Nat) (fgfile satfile : Option N) (v : Vals) : Except Err Unit :=
  if iteration = 1 ∧ fgfile = none ∧ widthUnset v.fg then .error .runtimeError
  else if iteration = 1 ∧ satfile = none ∧ widthUnset v.sat then .error .runtimeError
  else .ok ()

/-- centeringcal.py:382-384: the density of the brightest galaxy; the richness is not scaled here. -/
noncomputable def phi1 (C : Ctx N) (f : Phi1) (c : Clu) : Option ℝ :=
  gauss (C.mstar c.z + f.mM + f.mSlope * Real.log (c.lam / C.pivot)) (f.sM + f.sSlope * Real.log (c.lam / C.pivot)) c.refmag

/-- centeringcal.py:387-396. -/
noncomputable def cRow (C : Ctx N) (f : Phi1) (c : Clu) : CRow :=
  { pcen := c.pcen, psat := c.psat, mstar := C.mstar c.z, lamscale := Real.log ((c.lam / c.scaleval) / C.pivot), refmag := c.refmag,
    cwt := C.cwt c, phi1 := phi1 C f c, bcounts := C.bkg c * Real.pi * c.rlam ^ 2 }

/-- centeringcal.py:365-375: the start of the central magnitude fit. -/
noncomputable def start3 (C : Ctx N) (cs : List Clu) : ℝ × ℝ × ℝ :=
  let l := C.line (cs.map fun c => (Real.log (c.lam / C.pivot), c.refmag - C.mstar c.z))
  (l.2, l.1, std (cs.map fun c => (c.refmag - C.mstar c.z) - (l.2 + l.1 * Real.log (c.lam / C.pivot))))

/-- centeringcal.py:401-404: the density of the connectivity of a foreground or satellite galaxy. -/
noncomputable def wDens (C : Ctx N) (p : ℝ × ℝ) (c : Clu) : Option ℝ := gauss p.1 (p.2 / root C c) (Real.log c.w)

/-- centeringcal.py:401-407. -/
noncomputable def wRow (C : Ctx N) (fg sat : ℝ × ℝ) (c : Clu) : Option WRow :=
  (wDens C fg c).bind fun a => (wDens C sat c).map fun b =>
    { pcen := c.pcen, psat := c.psat, w := c.w, ffg := a, fsat := b, lscale := 1 / root C c }

def allSome {β : Type} : List (Option β) → Option (List β)
  | [] => some []
  | x :: xs => x.bind fun a => (allSome xs).map fun b => a :: b

/-- centeringcal.py:398-409: the connectivity of the centrals; not a number if a density of the other two is none. -/
noncomputable def cwFit (C : Ctx N) (v : Vals) (cs : List Clu) : Option (ℝ × ℝ) :=
  v.fg.bind fun fg => v.sat.bind fun sat => (allSome (cs.map (wRow C fg sat))).map fun rows => C.fmin2 (cwCost rows) (start2 cs)

/-- The row of the file, centeringcal.py:412-440. -/
structure File where
  cen : ℝ × ℝ × ℝ
  pivot : ℝ
  fg : Option (ℝ × ℝ)
  sat : Option (ℝ × ℝ)
  cw : Option (ℝ × ℝ)
  phi1 : Phi1

/-- centeringcal.py:288-442 `run`: the file, and the values left in the configuration. `f` is the model of the brightest galaxy,
from the configuration or the Monte Carlo (centeringcal.py:299-307). Not modelled: an empty selection, which ends in a fit to
nothing. -/
noncomputable def run [DecidableEq N] (C : Ctx N) (f : Phi1) (fgfile satfile : Option N) (v : Vals) (cat : List Clu) : File × Vals :=
  let cs := cat.filter (chosen C)
  let v := rands C fgfile satfile v
  ({ cen := C.fmin3 (cCost (cs.map (cRow C f))) (start3 C cs), pivot := C.pivot, fg := v.fg, sat := v.sat, cw := cwFit C v cs,
     phi1 := f }, v)

/-! ## The brightest galaxy of a luminosity function -/

open Redmapper.Finders in
/-- centeringcal.py:497-507: one trial for one richness; `st` are the galaxies in random order. -/
def brightest3 (argsort : List ℚ → List Nat) (mag : List ℚ) (st : List Nat) (lam : Nat) : Option (ℚ × ℚ × ℚ) :=
  let u := st.take (lam - 1)
  let s := takeRows (takeRows mag u) (argsort (takeRows mag u))
  s[0]?.bind fun a => s[1]?.bind fun b => s[2]?.map fun c => (a, b, c)

/-! ## How the brightest galaxy travels through iterations -/

/-- centeringcal.py:413-437: the names of the columns of the file. -/
def columns (phi : String → Int) (other : String → Int) (n : String) : Int :=
  if n ∈ ["phi1_mmstar_m", "phi1_mmstar_slope", "phi1_msig_m", "phi1_msig_slope"] then phi n else other n

/-- centeringcal.py:299-307: the Monte Carlo if the configuration has no value (below -1000), or else the configured values. -/
def phiOf (mc : String → Int) (cfg : String → Int) : String → Int := if cfg "phi1_mmstar_m" < -1000 then mc else cfg

/-- calibrate.py:482-491 over iterations: calibrate, write, load; `mcs` are the results the Monte Carlo would have, `others` the
fitted values. The result is what each iteration uses, with the configuration at the end. -/
def iterations : List ((String → Int) × (String → Int)) → (String → Int) → List (String → Int) × (String → Int)
  | [], cfg => ([], cfg)
  | (mc, other) :: rest, cfg =>
    let p := phiOf mc cfg
    let r := iterations rest (Config.setWcen (some (columns p other, true)) cfg)
    (p :: r.1, r.2)

/-! ## Where the model is applied -/

/-- centering.py:162 `CenteringWcenZred.find_center`: the mean magnitude of a central. -/
noncomputable def appliedMean (C : Ctx N) (p : ℝ × ℝ × ℝ) (c : Clu) : ℝ := C.mstar c.z + p.1 + p.2.1 * Real.log (c.lam / C.pivot)

/-- centeringcal.py:152, 393: the mean magnitude in the calibration. -/
noncomputable def calibratedMean (C : Ctx N) (p : ℝ × ℝ × ℝ) (c : Clu) : ℝ :=
  C.mstar c.z + p.1 + p.2.1 * Real.log ((c.lam / c.scaleval) / C.pivot)

/-- centering.py:225-228: the width of the connectivity; the richness is limited before it is scaled. -/
noncomputable def appliedWidth (C : Ctx N) (s : ℝ) (c : Clu) : ℝ := s / Real.sqrt ((min c.lam C.maxlam / c.scaleval) / C.pivot)

/-- centeringcal.py:405, 242: the width in the calibration. -/
noncomputable def calibratedWidth (C : Ctx N) (s : ℝ) (c : Clu) : ℝ := s * (1 / root C c)

end Redmapper.WcenCal
