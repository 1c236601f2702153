/-
Model of /repo/redmapper/depth_fitting.py applyErrorModel (76-114), which is part of the package's interface (__init__.py:39).

The generator is a stream `rng` of standard normal numbers.  `np.random.normal(size=n)` takes `n` of them, `np.random.normal(x)` takes one and
adds `x`, since the first argument is the mean.
-/
import Verif.Model.DepthFit

namespace Redmapper.ErrModel

open Redmapper.DepthFit (flux const)

/-- The columns of the first row of the parameters that are read. -/
structure EPars where
  exptime : ℝ
  zp : ℝ
  fsky1 : ℝ

/-- depth_fitting.py:100. -/
noncomputable def trueFlux (p : EPars) (m : ℝ) : ℝ := p.exptime * flux p.zp m

/-- depth_fitting.py:101. -/
noncomputable def modelNoise (p : EPars) (m : ℝ) : ℝ := Real.sqrt (p.fsky1 * p.exptime + trueFlux p m)

/-- depth_fitting.py:103-104: the noise of galaxy `i`. -/
noncomputable def noise (p : EPars) (lnscat : Option ℝ) (rng : Nat → ℝ) (i : Nat) (m : ℝ) : ℝ :=
  match lnscat with
  | none => modelNoise p m
  | some s => Real.exp (Real.log (modelNoise p m) + s * rng i)

/-- How many numbers have been drawn when the fluxes get their noise (103-104). -/
def used (lnscat : Option ℝ) (n : Nat) : Nat := match lnscat with | none => 0 | some _ => n

/-- depth_fitting.py:106-109: the flux of galaxy `i` of `n`.  Line 109 gives the number of galaxies to `np.random.normal` as its first argument, so
one number with that mean is drawn for all galaxies. -/
noncomputable def outFlux (p : EPars) (noNoise : Bool) (lnscat : Option ℝ) (rng : Nat → ℝ) (n i : Nat) (m : ℝ) : ℝ :=
  if noNoise then trueFlux p m else trueFlux p m + noise p lnscat rng i m * (n + rng (used lnscat n))

/-- depth_fitting.py:112-113: magnitude and error.  The magnitude is `none` if it is not a number. -/
noncomputable def row (p : EPars) (noNoise : Bool) (lnscat : Option ℝ) (rng : Nat → ℝ) (n i : Nat) (m : ℝ) : Option ℝ × ℝ :=
  let f := outFlux p noNoise lnscat rng n i m
  (if 0 < f / p.exptime then some (p.zp - 25 / 10 * (Real.log (f / p.exptime) / Real.log 10)) else none, const * (noise p lnscat rng i m / f))

/-- depth_fitting.py:76-114 `applyErrorModel`. -/
noncomputable def apply (p : EPars) (mags : List ℝ) (noNoise : Bool) (lnscat : Option ℝ) (rng : Nat → ℝ) : List (Option ℝ × ℝ) :=
  mags.mapIdx fun i m => row p noNoise lnscat rng mags.length i m

end Redmapper.ErrModel
