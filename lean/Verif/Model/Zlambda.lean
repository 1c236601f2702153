/-
Model of /repo/redmapper/zlambda.py: the photometric redshift of a cluster, its error, its p(z), and its correction.

Exact arithmetic, no NaN.  Richness, neighbour radii, likelihoods, `np.polyfit`, scipy's minimiser, exponential, square root and Simpson's rule are parameters.
-/
import Verif.Model.Centering
import Verif.Model.Background
import Verif.Model.Utilities

namespace Redmapper.Zlambda

open Redmapper.Background (roundHE)
open Redmapper.Centering (whereIdx argmin)
open Redmapper.Finders (takeRows)
open Redmapper.Utilities (interpol)

variable {α : Type} [Field α] [LinearOrder α] [IsStrictOrderedRing α]

/-! ### Selection of the galaxies -/

structure ZNbr (α : Type) where
  r : α
  refmag : α
  wt : α

/-- zlambda.py:232-234. -/
def useOk (maxrad maxmag : α) (n : ZNbr α) : Bool := decide (n.r < maxrad) && decide (n.refmag < maxmag) && decide (0 < n.wt)

/-- zlambda.py:229, 236-237, 245-246: number of galaxies wanted; `nuse` is the number of usable ones. -/
def ncountOf (topfrac : α) (ns : List (ZNbr α)) (nuse : Nat) : α :=
  let c := topfrac * (ns.map ZNbr.wt).sum
  let c := if c < 3 then 3 else c
  if (nuse : α) < c then nuse else c

/-- Outcome of the selection: too few galaxies, an IndexError, or the rows selected with their weights. -/
inductive Sel (α : Type) where
  | fail
  | raise
  | ok (rows : List Nat) (pw : List α)

/-- zlambda.py:251. -/
def pwOf (exp : α → α) (pthresh w : α) : α := 1 / (exp ((pthresh - w) / (1 / 25)) + 1)

/-- zlambda.py:202-264 `_zlambda_select_neighbors`. -/
def select [FloorRing α] (exp : α → α) (argsort : List α → List Nat) (topfrac maxrad maxmag : α) (ns : List (ZNbr α)) : Sel α :=
  let use := whereIdx (useOk maxrad maxmag) ns
  if use.length < 3 then .fail
  else
    let w := (takeRows ns use).map ZNbr.wt
    let st := (argsort w).reverse
    match (st[(roundHE (ncountOf topfrac ns use.length) - 1).toNat]?).bind fun i => w[i]? with
    | none => .raise
    | some pthresh =>
      let pw := w.map (pwOf exp pthresh)
      let gd := whereIdx (fun p => decide (1 / 1000 < p)) pw
      .ok (takeRows use gd) (takeRows pw gd)

/-! ### The fit -/

/-- zlambda.py:281. -/
def steps (step z : α) : List α := (List.range 10).map fun (k : Nat) => step * (k : α) + z - step * 9 / 2

/-- zlambda.py:266-295 `_zlambda_calcz`; `polyfit` returns the coefficients, highest power first. -/
def calcz (polyfit : List α → List α → α × α × α) (bracket : α → α) (step z : α) : α :=
  let fit := polyfit (steps step z) ((steps step z).map bracket)
  let zn := if 0 < fit.1 then -fit.2.1 / (2 * fit.1) else -1
  min (max zn ((steps step z).getD 0 0 - step)) ((steps step z).getD 9 0 + step)

/-- zlambda.py:335-361 `_zlambda_calc_gaussian_err`; `minimize` is the bounded minimiser. -/
def gaussianErr (minimize : (α → α) → α → α → α) (bracket : α → α) (z : α) : α :=
  let f := fun x => |bracket x - (bracket z + 1)|
  (minimize f (z + 1 / 1000) (z + 1 / 10) - minimize f (z - 1 / 10) (z - 1 / 1000)) / 2

/-! ### The iteration -/

/-- What one evaluation at a redshift does, and the settings. -/
structure Env (α : Type) where
  /-- number of neighbours inside the radius (115) -/
  inR : α → Nat
  /-- richness (125) -/
  lam : α → α
  minlambda : α
  /-- the selection of galaxies fails (138-141) -/
  selFail : α → Bool
  /-- the fit (148) -/
  fit : α → α
  /-- Gaussian error (172), from the galaxies selected at the last redshift visited -/
  err : List α → α → α
  /-- p(z): done, redshift, error (181), from the galaxies selected at the last redshift visited -/
  pz : List α → α → Bool × α × α
  tol : α
  maxiter : Nat

/-- Result of the inner loop: redshift, iterations counted, and the redshifts at which richness was computed. -/
structure Inner (α : Type) where
  z : α
  i : Nat
  evals : List α
  /-- ended by the convergence test -/
  converged : Bool

/-- zlambda.py:107-160, the inner loop; `fuel` counts down from the maximum number of iterations. -/
def inner (env : Env α) : Nat → Nat → α → Inner α
  | 0, i, z => ⟨z, i, [], false⟩
  | fuel + 1, i, z =>
    if z < 0 then ⟨z, i, [], false⟩
    else if env.inR z < 1 then ⟨-1, i, [], false⟩
    else if env.lam z < env.minlambda then ⟨-1, i, [z], false⟩
    else if env.selFail z then ⟨-1, i, [z], false⟩
    else
      let zn := env.fit z
      if 0 < i ∧ (|zn - z| < env.tol ∨ zn < 0) then ⟨z, i, [z], true⟩
      else if zn < 0 then ⟨zn, i, [z], false⟩
      else
        let rest := inner env fuel (i + 1) zn
        { rest with evals := z :: rest.evals }

/-- One pass of the outer loop. -/
structure Pass (α : Type) where
  done : Bool
  z : α
  e : α
  evals : List α

/-- zlambda.py:105-190, one pass.  The bins written to the object are not part of this model (see `fastBins`, `slowBins`). -/
def pass (env : Env α) (calcErr calcPz : Bool) (z : α) : Pass α :=
  let r := inner env env.maxiter 0 z
  if 0 < r.z ∧ calcErr = true then
    if calcPz then
      let p := env.pz r.evals r.z
      ⟨p.1, p.2.1, p.2.2, r.evals⟩
    else
      let e := env.err r.evals r.z
      ⟨true, if e < 0 then -1 else r.z, e, r.evals⟩
  else ⟨true, r.z, -1, r.evals⟩

/-- zlambda.py:83-200 `calc_zlambda`: redshift, error and the redshifts at which richness was computed. -/
def calcZlambda (env : Env α) (calcErr calcPz : Bool) (zin : α) : α × α × List α :=
  let p1 := pass env calcErr calcPz zin
  if p1.done then (p1.z, p1.e, p1.evals)
  else
    let p2 := pass env calcErr calcPz p1.z
    (p2.z, p2.e, p1.evals ++ p2.evals)

/-- zlambda.py:85-88, 134-136: the magnitude limit in use at redshift `z`; `limit` is the one of the luminosity cut. -/
def maxmagUsed (limit : α → α) (maxmagIn : Option α) (zin z : α) : α :=
  match maxmagIn with
  | none => limit zin
  | some _ => limit z

/-! ### p(z) -/

/-- zlambda.py:481. -/
def fastDz (hi z : α) : α := min (max (hi - z) (1 / 200)) (3 / 20)

/-- zlambda.py:482-483: fast bins; `hi` is where the likelihood has dropped. -/
def fastBins (npz : Nat) (hi z : α) : List α :=
  (List.range npz).map fun (k : Nat) => 2 * fastDz hi z / ((npz : α) - 1) * (k : α) + z - fastDz hi z

/-- zlambda.py:495-507: to lower redshift while the density is above one percent. -/
def lowLoop (keep : α → Bool) (z0 : α) : Nat → α → α
  | 0, z => z
  | k + 1, z => if z0 ≤ z then (if keep z then lowLoop keep z0 k (z - 1 / 20) else z) else z

/-- zlambda.py:512-523. -/
def highLoop (keep : α → Bool) (z1 : α) : Nat → α → α
  | 0, z => z
  | k + 1, z => if z ≤ z1 then (if keep z then highLoop keep z1 k (z + 1 / 20) else z) else z

/-- zlambda.py:510, 525-533: slow bins from the two ends. -/
def slowBins (npz : Nat) (z0 z1 low high z : α) : List α :=
  let lo := max low z0
  let hi := min high z1
  let bins := (List.range npz).map fun (k : Nat) => (hi - lo) / ((npz : α) - 1) * (k : α) + lo
  match argmin (bins.map fun b => |b - z|) with
  | none => bins
  | some m => bins.map fun b => b - (bins.getD m 0 - z)

/-- zlambda.py:537-546: the values, normalised. -/
def pzValues (exp : α → α) (simpson : List α → List α → α) (lnlk vol : α → α) (lnmax : α) (bins : List α) : List α :=
  let pz := bins.map fun b => exp (lnlk b - lnmax) * vol b
  pz.map fun p => p / simpson pz bins

/-- zlambda.py:396-400: is the slow computation done? `z0`, `z1` are the ends of the redshift table. -/
def needSlow (npz : Nat) (z0 z1 : α) (bins pz : List α) : Bool :=
  let mid := pz.getD ((npz - 1) / 2) 0
  let last := pz.getD (pz.length - 1) 0
  (decide (0 < mid) && (decide (1 / 100 < pz.getD 0 0 / mid) && decide (z0 + 1 / 100 ≤ bins.getD 0 0))) ||
  ((decide (mid ≤ last) && decide (1 / 100 < mid)) && decide (bins.getD (bins.length - 1) 0 ≤ z1 - 1 / 100))

/-- zlambda.py:391-437 `_zlambda_calc_pz_and_check`: `fast` and `slow` are the bins and values of the two computations, `width`
is what `curve_fit` returned as the width (-10 when it failed) and `gerr` the Gaussian error. -/
def pzCheck (tol : α) (npz : Nat) (z0 z1 : α) (fast slow : List α × List α) (width gerr z : α) : Bool × α × α :=
  let p := if needSlow npz z0 z1 fast.1 fast.2 then slow else fast
  if p.2.getD 0 0 < 0 then (false, -1, -1)
  else
    let e := if 0 < width ∨ 1 / 5 < width then width else gerr
    match argmin (p.2.map fun v => -v) with
    | none => (false, -1, -1)
    | some m => if |p.1.getD m 0 - z| < tol then (true, z, e) else (false, p.1.getD m 0, e)

/-! ### The correction -/

/-- `np.interp`. -/
def npInterp (q : α) (x y : List α) : α :=
  if q ≤ x.getD 0 0 then y.getD 0 0
  else if x.getD (x.length - 1) 0 ≤ q then y.getD (y.length - 1) 0
  else interpol y x q

/-- zlambda.py:649-660: scatter table. -/
def scatterTable (spl : List α) : List α := spl.map fun s => max s (1 / 1000)

/-- One iteration's tables: offset, slope, scatter. -/
structure CorrTab (α : Type) where
  offset : List α
  slope : List α
  scatter : List α

structure CorrState (α : Type) where
  zlam : α
  e : α
  /-- p(z) bins and values, if given -/
  pz : Option (List α × List α)

/-- zlambda.py:702, 705: shift at a redshift. -/
def corrDz (loglam : α) (z : List α) (t : CorrTab α) (zlam : α) : α :=
  npInterp zlam z (List.zipWith (fun o s => o + s * loglam) t.offset t.slope)

/-- zlambda.py:702-729, one iteration; `none` is the TypeError of line 719. -/
def corrStep (sqrt : α → α) (simpson : List α → List α → α) (loglam : α) (z : List α) (noerr : Bool) (s : CorrState α) (t : CorrTab α) :
    Option (CorrState α) :=
  let extra := npInterp s.zlam z t.scatter
  let zlam := s.zlam + corrDz loglam z t s.zlam
  let e := sqrt (s.e * s.e + extra * extra)
  match s.pz with
  | none => if noerr then none else some { zlam, e, pz := none }
  | some (bins, vals) =>
    let n := bins.length
    let offset := bins.getD ((n - 1) / 2) 0 - s.zlam
    let pdz := (bins.getD 1 0 - bins.getD 0 0) * sqrt (extra * extra + s.e * s.e) / s.e
    let bins' := (List.range n).map fun (k : Nat) => pdz * (k : α) + zlam - pdz * ((n : α) - 1) / 2 + offset
    some { zlam, e, pz := some (bins', vals.map fun v => v / simpson vals bins') }

/-- zlambda.py:701-734 `apply_correction`. -/
def applyCorrection (sqrt : α → α) (simpson : List α → List α → α) (loglam : α) (z : List α) (noerr : Bool) :
    List (CorrTab α) → CorrState α → Option (CorrState α)
  | [], s => some s
  | t :: ts, s => (corrStep sqrt simpson loglam z noerr s t).bind (applyCorrection sqrt simpson loglam z noerr ts)

end Redmapper.Zlambda
