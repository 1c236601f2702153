/-
Model of the likelihoods of one cluster.

  /repo/redmapper/run_likelihoods.py    RunLikelihoods._process_cluster (168-239), _reset_bad_values (158-166)

Numbers are real; what is not a number or infinite is a value of its own (`XR`), and positive results below `tiny` become zero, as in floating point.
Simplifications: richness and memberships are given (`calc_richness`, line 182, has run); widths are not zero; there is at least one neighbour, as
/repo/redmapper/cluster_runner.py:401-403 makes sure.
-/
import Verif.Model.Centering
import Mathlib.Analysis.SpecialFunctions.Pow.Real
import Mathlib.Analysis.SpecialFunctions.Trigonometric.Basic
import Mathlib.Analysis.Real.Sqrt

namespace Redmapper.LikeCen

/-- What a column can hold: a number, plus infinity, not a number. -/
inductive XR where
  | num (x : ℝ)
  | pinf
  | nan

/-- Addition as numpy has it. -/
noncomputable def XR.add : XR → XR → XR
  | .num x, .num y => .num (x + y)
  | .nan, _ => .nan
  | _, .nan => .nan
  | _, _ => .pinf

/-- A neighbour: distance, membership, magnitude, redshift and its error, chi-squared. -/
structure Gal where
  r : ℝ
  pmem : ℝ
  refmag : ℝ
  zred : ℝ
  zredE : ℝ
  chisq : ℝ

/-- The settings: likelihoods_minlambda, the central model (wcen_Delta0, wcen_Delta1, wcen_pivot, wcen_sigma_m, wcen_maxlambda, wcen_rsoft, lnw_cen_mean,
lnw_cen_sigma), likelihoods_use_zred, the model redshift of line 214 (or the redshift itself, 216), the density of chi-squared (222) and the
smallest positive number. -/
structure Cfg where
  minlam : ℝ
  delta0 : ℝ
  delta1 : ℝ
  pivot : ℝ
  sigmaM : ℝ
  maxlambda : ℝ
  rsoft : ℝ
  cenMean : ℝ
  cenSigma : ℝ
  useZred : Bool
  zrmod : ℝ → ℝ
  chi : ℝ → ℝ
  tiny : ℝ

/-- The cluster after its richness is known. -/
structure Cl where
  Lambda : ℝ
  scaleval : ℝ
  rlam : ℝ
  mstar : ℝ
  zlam : ℝ

/-- The three columns. -/
structure Like where
  lnlamlike : XR
  lnbcglike : XR
  lnlike : XR

/-- A number in floating point: positive numbers below the smallest become zero. -/
noncomputable def fl (tiny x : ℝ) : ℝ := if 0 ≤ x ∧ x < tiny then 0 else x

/-- run_likelihoods.py:184 `np.argmin(cluster.neighbors.r)`: the first of the nearest neighbours. -/
noncomputable def nearest (gs : List Gal) : Option Gal := (Centering.argmin (gs.map Gal.r)).bind fun k => gs[k]?

/-- run_likelihoods.py:185-186. -/
noncomputable def incut (c : Gal) (gs : List Gal) : List Gal := gs.filter fun g => decide (0 < g.pmem) && decide (c.r < g.r)

/-- run_likelihoods.py:195-196: the logarithm of zero is minus infinity, that of a negative number is none. -/
noncomputable def lnlam (cl : Cl) (ps : List ℝ) : XR :=
  if ps.any fun p => decide (1 < p) then .nan
  else if ps.any fun p => decide (p = 1) then .pinf
  else .num (-cl.Lambda / cl.scaleval - (ps.map fun p => Real.log (1 - p)).sum)

/-- run_likelihoods.py:204-207. -/
noncomputable def phiCen (c : Cfg) (cl : Cl) (g : Gal) : ℝ :=
  let mbar := cl.mstar + c.delta0 + c.delta1 * Real.log (cl.Lambda / c.pivot)
  1 / (Real.sqrt (2 * Real.pi) * c.sigmaM) * fl c.tiny (Real.exp (-0.5 * (g.refmag - mbar) ^ 2 / c.sigmaM ^ 2))

/-- run_likelihoods.py:210-222; `none`: not a number (an error of zero). -/
noncomputable def zfilter (c : Cfg) (cl : Cl) (g : Gal) : Option ℝ :=
  if c.useZred then
    if g.zredE = 0 then none
    else some (1 / (Real.sqrt (2 * Real.pi) * g.zredE) * fl c.tiny (Real.exp (-0.5 * (g.zred - c.zrmod cl.zlam) ^ 2 / g.zredE ^ 2)))
  else some (c.chi g.chisq)

/-- run_likelihoods.py:225. -/
noncomputable def lum (cl : Cl) (g : Gal) : ℝ := (10 : ℝ) ^ ((cl.mstar - g.refmag) / 2.5)

/-- run_likelihoods.py:226. -/
noncomputable def around (gs : List Gal) : List Gal := gs.filter fun g => decide (1 / 100000 < g.r) && decide (0 < g.pmem)

/-- run_likelihoods.py:227-228; `none`: zero divided by zero. -/
noncomputable def connect (c : Cfg) (cl : Cl) (gs : List Gal) : Option ℝ :=
  let u := around gs
  if u.isEmpty then none
  else some (Real.log ((u.map fun g => g.pmem * lum cl g / Real.sqrt (g.r ^ 2 + c.rsoft ^ 2)).sum /
    ((1 / cl.rlam) * (u.map fun g => g.pmem * lum cl g).sum)))

/-- run_likelihoods.py:229. -/
noncomputable def sig (c : Cfg) (cl : Cl) : ℝ := c.cenSigma / Real.sqrt ((min cl.Lambda c.maxlambda / cl.scaleval) / c.pivot)

/-- run_likelihoods.py:230: the logarithm of a negative number is none; that of zero is minus infinity, and the exponential then zero. -/
noncomputable def wfilter (c : Cfg) (cl : Cl) (w : Option ℝ) : Option ℝ :=
  match w with
  | none => none
  | some w =>
    if w < 0 then none
    else if w = 0 then some 0
    else some (1 / (Real.sqrt (2 * Real.pi) * sig c cl) * fl c.tiny (Real.exp (-0.5 * (Real.log w - c.cenMean) ^ 2 / sig c cl ^ 2)))

/-- run_likelihoods.py:232-235: a warning is an error here, so the logarithm of zero or of a negative number ends the run (`none`). -/
noncomputable def bcg (c : Cfg) (cl : Cl) (cen : Gal) (gs : List Gal) : Option XR :=
  match zfilter c cl cen, wfilter c cl (connect c cl gs) with
  | some g, some fw =>
    let v := fl c.tiny (phiCen c cl cen * max g (1 / 10 ^ 10) * fw)
    if v ≤ 0 then none else some (.num (Real.log v))
  | _, _ => some .nan

/-- run_likelihoods.py:158-166. -/
noncomputable def reset : Like := ⟨.num (-100000000000), .num (-100000000000), .num (-100000000000)⟩

/-- run_likelihoods.py:168-239: whether the cluster is bad, and its columns; `none`: the run ends with an error. -/
noncomputable def process (c : Cfg) (cl : Cl) (gs : List Gal) (l : Like) : Option (Bool × Like) :=
  match nearest gs with
  | none => none
  | some cen =>
    let inc := incut cen gs
    if cl.Lambda < c.minlam ∨ inc.length < 3 then some (true, reset)
    else
      let lam := lnlam cl (inc.map Gal.pmem)
      if c.cenSigma ≤ 0 then some (false, { l with lnlamlike := lam, lnbcglike := .num 0 })
      else
        match bcg c cl cen gs with
        | none => none
        | some b => some (false, ⟨lam, b, XR.add b lam⟩)

end Redmapper.LikeCen
