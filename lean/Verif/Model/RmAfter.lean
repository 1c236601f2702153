/-
Model of the fitter of the redMaGiC parameters as an object (/repo/redmapper/redmagic/redmagic_calibrate.py, RedmagicParameterFitter):
its constructor, `fit`, `fit_bias_eratio` and the galaxies its cost function counts.

Exact arithmetic, no NaN.  `spl` is CubicSpline (without `fixextrap`), `mstar` the characteristic magnitude, `lum` is `2.5 log10 etamin`.  The columns
are one list of galaxies: the constructor refuses columns of unequal sizes (109-124).
-/
import Verif.Model.SpecRed

namespace Redmapper.RmAfter

open Redmapper.Fitters (Minimizer Bound Script run)
open Redmapper.SpecRed (medFit)

inductive Err
  | runtimeError
  | valueError
deriving DecidableEq, Repr

/-- A galaxy as given to the constructor. -/
structure Gal where
  z : ℝ
  zErr : ℝ
  chisq : ℝ
  zcal : ℝ
  refmag : ℝ
  samp : ℝ
  zmax : ℝ

/-- redmagic_calibrate.py:80-107: what never changes. -/
structure Setup where
  nodes : List ℝ
  corrnodes : List ℝ
  gals : List Gal
  abUse : Option (List Nat)
  maxchi : ℝ
  lum : ℝ
  spl : List ℝ → List ℝ → ℝ → ℝ
  mstar : ℝ → ℝ

/-- What a fit changes: `_zredmagic`, `_zredmagic_e`, `_zredmagic_samp`, `_mstar` and `_afterburner`, as columns. -/
structure St where
  magic : List ℝ
  magicE : List ℝ
  magicSamp : List ℝ
  mstar : List ℝ
  afterburner : Bool

/-- redmagic_calibrate.py:86-107: the state after the constructor; `mstar0` is the column that is handed in. -/
def init (S : Setup) (mstar0 : List ℝ) : St :=
  ⟨S.gals.map Gal.z, S.gals.map Gal.zErr, S.gals.map Gal.samp, mstar0, false⟩

/-- Arguments of `fit`. -/
structure Call where
  p0 : List ℝ
  bias : Option (List ℝ)
  eratio : Option (List ℝ)
  afterburner : Bool

/-- redmagic_calibrate.py:150-170: what `fit` does before the minimization: the error, if any, and the state. -/
def prepare (S : Setup) (c : Call) (s : St) : Option Err × St :=
  if S.abUse.isNone && c.afterburner then (some .runtimeError, s)
  else
    let s1 := { s with afterburner := c.afterburner }
    if c.afterburner then
      match c.bias, c.eratio with
      | some b, some e =>
        let magic := S.gals.map fun g => g.z - S.spl S.corrnodes b g.z
        (none, { s1 with magic := magic, magicSamp := S.gals.map fun g => g.samp - S.spl S.corrnodes b g.z, magicE := S.gals.map fun g => g.zErr * S.spl S.corrnodes e g.z, mstar := magic.map S.mstar })
      | _, _ => (some .runtimeError, s1)
    else
      let magic := S.gals.map Gal.z
      (none, { s1 with magic := magic, magicE := S.gals.map Gal.zErr, magicSamp := S.gals.map Gal.samp, mstar := magic.map S.mstar })

/-- redmagic_calibrate.py:245-253: does the cost function count galaxy `i`?  (`chi2max` is at the raw redshift.) -/
noncomputable def counts (S : Setup) (s : St) (cval : List ℝ) (i : Nat) : Bool :=
  match S.gals[i]? with
  | none => false
  | some g =>
    decide (g.chisq < min (max (S.spl S.nodes cval g.z) (1 / 10)) S.maxchi) && decide (g.refmag < s.mstar.getD i 0 - S.lum) &&
      decide (s.magic.getD i 0 < g.zmax)

/-- redmagic_calibrate.py:172-176 `fit`: the parameters of a minimizer of the cost `f`, a function of the samples of the counted galaxies. -/
noncomputable def fit (S : Setup) (fmin : (List ℝ → ℝ) → List ℝ → List ℝ) (f : List ℝ → List ℝ → ℝ) (c : Call) (s : St) : Except Err (List ℝ) × St :=
  match prepare S c s with
  | (some e, s') => (.error e, s')
  | (none, s') => (.ok (fmin (fun p => f p (((List.range S.gals.length).filter (counts S s' p)).map fun i => s'.magicSamp.getD i 0)) c.p0), s')

/-- redmagic_calibrate.py:198-212: the mask of the training galaxies `ab_use`, written out again in the code. -/
noncomputable def abGood (S : Setup) (s : St) (cval : List ℝ) (use : List Nat) : List Gal :=
  use.filterMap fun i => (S.gals[i]?).bind fun g =>
    if g.chisq < min (max (S.spl S.nodes cval g.z) (1 / 10)) S.maxchi ∧ g.refmag < s.mstar.getD i 0 - S.lum ∧ s.magic.getD i 0 < g.zmax
    then some g else none

/-- redmagic_calibrate.py:178-228 `fit_bias_eratio`.  Without `ab_use` the mask has two dimensions, and `ab_gd, = np.where(...)` does not unpack. -/
noncomputable def fitBE (S : Setup) (M : Minimizer ℝ) (s : St) (cval pb pe : List ℝ) : Except Err (List ℝ × List ℝ) :=
  match S.abUse with
  | none => .error .valueError
  | some use =>
    let gd := abGood S s cval use
    let b := medFit M S.spl S.corrnodes (gd.map fun g => (g.z, g.z - g.zcal)) pb ⟨some (-(1 / 10)), some (1 / 10)⟩
    let y := fun g : Gal => 14826 / 10000 * |(g.z - g.zcal) - S.spl S.corrnodes b g.z| / g.zErr
    .ok (b, medFit M S.spl S.corrnodes (gd.map fun g => (g.z, y g)) pe ⟨some (1 / 2), some (3 / 2)⟩)

/-- A history of the object: fits one after the other, also such that raise. -/
noncomputable def history (S : Setup) (cs : List Call) (s : St) : St := cs.foldl (fun s c => (prepare S c s).2) s

end Redmapper.RmAfter
