/-
Model of the fits of the red sequence, of its corrections and of the two-component color mixture.

  /repo/redmapper/fitters.py                     RedSequenceFitter, CorrectionFitter, EcgmmFitter, MedZFitter
  /repo/redmapper/calibration/redsequencecal.py  the order of the fits (620-640 and 1045-1060)

Simplifications: numbers are elements of a linearly ordered field; the cubic spline, the logarithm, the Gaussian density
(of a residual and a variance) and the fraction of a Gaussian inside the truncation are parameters; numbers that are not
finite are `none`. The minimizer (scipy L-BFGS-B) is an arbitrary program that asks for values of the cost and finally
answers: nothing of its algorithm is modelled, only that it sees the cost through calls.
-/
import Mathlib.Algebra.Order.Field.Basic
import Mathlib.Algebra.BigOperators.Group.List.Basic

namespace Redmapper.Fitters

variable {α : Type} [Field α] [LinearOrder α]

inductive Err
  | valueError
deriving DecidableEq, Repr

/-! ## The minimizer -/

/-- A program that asks for values of the cost at points it chooses from the answers so far, and ends at a point. -/
inductive Script (α : Type) where
  | stop (x : List α)
  | ask (x : List α) (next : α → Script α)

/-- Running the program on a cost that has a state: python calls `self.__call__`, which may change `self`. -/
def run {σ : Type} (f : List α → σ → α × σ) : Script α → σ → List α × σ
  | .stop x, s => (x, s)
  | .ask x next, s => run f (next (f x s).1) (f x s).2

/-- A bound: `none` is infinite. -/
structure Bound (α : Type) where
  lo : Option α
  hi : Option α
deriving DecidableEq, Repr

/-- scipy.optimize.minimize with bounds and a start. -/
abbrev Minimizer (α : Type) := List (Bound α) → List α → Script α

/-! ## Blocks of parameters

Both `fit` methods (fitters.py:296-330, 795-826) run a counter over the blocks that are fitted, and slice the parameters
at the recorded positions (fitters.py:366-376, 396-415, 853-863, 881-909). -/

/-- The starting point: the blocks that are fitted, one after the other. -/
def pack : List Bool → List (List α) → List α
  | f :: fs, v :: vs => (if f then v else []) ++ pack fs vs
  | _, _ => []

/-- The values in force: fitted blocks sliced from the parameters, the others as they were. `n`: number of nodes. -/
def unpack (pars : List α) : Nat → List Bool → List Nat → List (List α) → List (List α)
  | ctr, f :: fs, n :: ns, v :: vs =>
    if f then (pars.drop ctr).take n :: unpack pars (ctr + n) fs ns vs else v :: unpack pars ctr fs ns vs
  | _, _, _, _ => []

/-- What is returned: the slices of the fitted blocks only. -/
def slices (pars : List α) : Nat → List Bool → List Nat → List (List α)
  | ctr, f :: fs, n :: ns =>
    if f then (pars.drop ctr).take n :: slices pars (ctr + n) fs ns else slices pars ctr fs ns
  | _, _, _ => []

/-- The counter at the end. -/
def total : List Bool → List Nat → Nat
  | f :: fs, n :: ns => (if f then n else 0) + total fs ns
  | _, _ => 0

/-! ## RedSequenceFitter -/

/-- Special functions. `phi t v` is the fraction of a Gaussian of variance `v` within `t` of its center. -/
structure Fns (α : Type) where
  spline : List α → List α → α → α
  gauss : α → α → α
  phi : α → α → α
  ln : α → α

/-- One galaxy of the fit. -/
structure Gal (α : Type) where
  z : α
  color : α
  dmag : α
  dmagErr : α
  lup : α
  trunc : α
  prob : α
  bkg : α
deriving DecidableEq, Repr

/-- The fitter: what its methods do not change. -/
structure Fitter (α : Type) where
  meanNodes : List α
  slopeNodes : List α
  scatterNodes : List α
  gals : List (Gal α)
  hasDmags : Bool
  hasTrunc : Bool
  hasProbs : Bool
  prior : Bool
  scatterMax : Option (List α)
deriving DecidableEq, Repr

/-- The fitter: what its methods change. `err2s` is the array of squared magnitude errors in the two bands; `var` the
squares of `_gsig`. -/
structure St (α : Type) where
  err2s : List (α × α)
  var : List α
deriving DecidableEq, Repr

/-- The arguments of the constructor, one list per array. -/
structure Args (α : Type) where
  meanNodes : List α
  redshifts : List α
  colors : List α
  magErrs : List (α × α)
  dmags : Option (List α)
  trunc : Option (List α)
  slopeNodes : Option (List α)
  scatterNodes : Option (List α)
  lupcorrs : Option (List α)
  probs : Option (List α)
  bkgs : Option (List α)
  scatterMax : Option (List α)
  prior : Bool
  dmagsErr : Option (List α)

/-- An optional array has the size of the redshifts. -/
def sizeOK (n : Nat) (x : Option (List α)) : Bool := match x with
  | none => true
  | some l => l.length == n

/-- fitters.py:155-238 `__init__`, the checks (two bands per galaxy is part of the type). -/
def argsOK (A : Args α) : Bool :=
  let n := A.redshifts.length
  n == A.colors.length && n == A.magErrs.length && sizeOK n A.trunc && sizeOK n A.dmags && sizeOK n A.dmagsErr &&
    sizeOK n A.lupcorrs && sizeOK n A.probs && sizeOK n A.bkgs &&
    sizeOK (A.scatterNodes.getD A.meanNodes).length A.scatterMax && (A.probs.isNone || A.bkgs.isSome)

/-- Row `i` of the arrays; a missing array is zero. -/
def galOf (A : Args α) (i : Nat) : Gal α :=
  let col (x : Option (List α)) := match x with
    | none => (0 : α)
    | some l => l.getD i 0
  { z := A.redshifts.getD i 0, color := A.colors.getD i 0, dmag := col A.dmags, dmagErr := col A.dmagsErr,
    lup := col A.lupcorrs, trunc := col A.trunc, prob := col A.probs, bkg := col A.bkgs }

/-- fitters.py:104-238 `__init__`. -/
def construct (A : Args α) : Except Err (Fitter α × St α) :=
  if argsOK A then
    .ok ({ meanNodes := A.meanNodes, slopeNodes := A.slopeNodes.getD A.meanNodes,
           scatterNodes := A.scatterNodes.getD A.meanNodes,
           gals := (List.range A.redshifts.length).map (galOf A),
           hasDmags := A.dmags.isSome, hasTrunc := A.trunc.isSome, hasProbs := A.probs.isSome, prior := A.prior,
           scatterMax := A.scatterMax },
         { err2s := A.magErrs.map fun e => (e.1 * e.1, e.2 * e.2), var := [] })
  else .error .valueError

/-- The arguments of `fit` other than the starting values. `ind0`, `ind1`: whether 0 and 1 are in
`fit_err_ratio_ind`. -/
structure Job (α : Type) where
  mean : Bool
  slope : Bool
  scatter : Bool
  minScatter : α
  ratio : Option (α × α)
  ind0 : Bool
  ind1 : Bool
deriving DecidableEq, Repr

/-- fitters.py:283-292: the indices are dropped if there are no ratio parameters. -/
def Job.use0 (J : Job α) : Bool := J.ratio.isSome && J.ind0

/-- fitters.py:283-292. -/
def Job.use1 (J : Job α) : Bool := J.ratio.isSome && J.ind1

/-- The starting values: mean, slope, scatter at the nodes. -/
structure Vals (α : Type) where
  mean : List α
  slope : List α
  scatter : List α
deriving DecidableEq, Repr

/-- The blocks that are fitted. -/
def Job.flags (J : Job α) : List Bool := [J.mean, J.slope, J.scatter]

/-- The blocks. -/
def Vals.blocks (p : Vals α) : List (List α) := [p.mean, p.slope, p.scatter]

/-- The numbers of nodes. -/
def Fitter.sizes (F : Fitter α) : List Nat := [F.meanNodes.length, F.slopeNodes.length, F.scatterNodes.length]

/-- The squared error of the color of one galaxy from the stored squared errors (fitters.py:340-348, 418-426). -/
def errTerm (J : Job α) (r : α) (e : α × α) : α :=
  (if J.use0 then r * r * e.1 else e.1) + (if J.use1 then r * r * e.2 else e.2)

/-- The same lines, what is left in the array: without index 0, `e2 = self._mag_err2s[:, 0]` is a view of the first
column, and `e2 += …` adds to that column. -/
def errAfter (J : Job α) (r : α) (e : α × α) : α × α :=
  if J.use0 then e else (errTerm J r e, e.2)

/-- fitters.py:337-349 and 409-427: variances of the colors with scatter values and ratio parameters, and the state
afterwards. -/
def variances (N : Fns α) (F : Fitter α) (J : Job α) (scatter : List α) (ratio : α × α) (s : St α) : St α :=
  { err2s := (F.gals.zip s.err2s).map fun ge => errAfter J (ratio.1 + ratio.2 * ge.1.dmagErr) ge.2
    var := (F.gals.zip s.err2s).map fun ge =>
      let sc := max (N.spline F.scatterNodes scatter ge.1.z) J.minScatter
      sc * sc + errTerm J (ratio.1 + ratio.2 * ge.1.dmagErr) ge.2 }

/-- fitters.py:434-465: the logarithm of the likelihood of one galaxy, -100 if it is not finite. -/
def logLike (N : Fns α) (F : Fitter α) (mean slope : List α) (g : Gal α) (v : α) : α :=
  let m := N.spline F.meanNodes mean g.z
  let model := if F.hasDmags then m + N.spline F.slopeNodes slope g.z * g.dmag + g.lup else m
  let phi := if F.hasTrunc then N.phi g.trunc v else 1
  let gci := N.gauss (g.color - model) v / phi
  let x := if F.hasProbs then g.prob * gci + (1 - g.prob) * g.bkg else gci
  if phi = 0 ∨ x ≤ 0 then -100 else N.ln x

/-- fitters.py:467-470, the sum with the prior on the scatter. -/
def total' (N : Fns α) (F : Fitter α) (J : Job α) (v : Vals α) (var : List α) : α :=
  let t := ((F.gals.zip var).map fun gv => logLike N F v.mean v.slope gv.1 gv.2).sum
  if J.scatter && F.prior then -(t - (v.scatter.map fun s => N.ln (max s J.minScatter)).sum) else -t

/-- fitters.py:398-407, the values in force for parameters. -/
def inForce (F : Fitter α) (J : Job α) (p0 : Vals α) (pars : List α) : Vals α :=
  match unpack pars 0 J.flags F.sizes p0.blocks with
  | [m, s, c] => ⟨m, s, c⟩
  | _ => p0

/-- fitters.py:412-416, the ratio parameters in force when the scatter is fitted: the last two. -/
def ratioOf (J : Job α) (pars : List α) : α × α :=
  if J.ratio.isSome then (pars.getD (pars.length - 2) 0, pars.getD (pars.length - 1) 0) else (1, 0)

/-- fitters.py:380-472 `__call__`: the cost, and the fitter afterwards. -/
def cost (N : Fns α) (F : Fitter α) (J : Job α) (p0 : Vals α) (pars : List α) (s : St α) : α × St α :=
  let v := inForce F J p0 pars
  let s' := if J.scatter then variances N F J v.scatter (ratioOf J pars) s else s
  (total' N F J v s'.var, s')

/-- fitters.py:294-330, the starting point. -/
def start (J : Job α) (p0 : Vals α) : List α :=
  pack J.flags p0.blocks ++ match J.scatter, J.ratio with
    | true, some r => [r.1, r.2]
    | _, _ => []

/-- fitters.py:319-323, the bounds of the scatter at a node. -/
def scatterBound (F : Fitter α) (J : Job α) (i : Nat) : Bound α := match F.scatterMax with
  | some m => ⟨some J.minScatter, some (m.getD i 0)⟩
  | none => ⟨some J.minScatter, none⟩

/-- fitters.py:299-330, the bounds. -/
def bounds (F : Fitter α) (J : Job α) : List (Bound α) :=
  (if J.mean then List.replicate F.meanNodes.length ⟨none, none⟩ else []) ++
  (if J.slope then List.replicate F.slopeNodes.length ⟨none, none⟩ else []) ++
  if J.scatter then
    (List.range F.scatterNodes.length).map (scatterBound F J) ++
    (if J.ratio.isSome then [⟨some (1 / 2), some 10⟩, ⟨some (-5), some 5⟩] else [])
  else []

/-- fitters.py:335-352: what is computed before the minimization (only the variances matter later). -/
def prelude' (N : Fns α) (F : Fitter α) (J : Job α) (p0 : Vals α) (s : St α) : St α :=
  if J.scatter then s else variances N F J p0.scatter (J.ratio.getD (1, 0)) s

/-- fitters.py:240-378 `fit`: the list that is returned, and the fitter afterwards. -/
def fit (M : Minimizer α) (N : Fns α) (F : Fitter α) (J : Job α) (p0 : Vals α) (s : St α) :
    Except Err (List (List α) × St α) :=
  if !F.hasDmags && J.slope then .error .valueError
  else if total J.flags F.sizes = 0 then .error .valueError
  else
    let r := run (cost N F J p0) (M (bounds F J) (start J p0)) (prelude' N F J p0 s)
    .ok (slices r.1 0 J.flags [F.meanNodes.length, F.slopeNodes.length,
        F.scatterNodes.length + if J.ratio.isSome then 2 else 0], r.2)

/-- The scatter block without the two ratio parameters at its end (redsequencecal.py:634-636, 642-645). -/
def strip (ratio : Option (α × α)) (sc : List α) : List α :=
  if ratio.isSome then sc.take (sc.length - 2) else sc

/-- redsequencecal.py:620-645: the fits of one color: the mean, the slope, the scatter, all three. `relup` is the new
luptitude correction after the mean (622-624), which changes nothing but the `lup` of the galaxies. -/
def colorFits (M : Minimizer α) (N : Fns α) (F : Fitter α) (relup : Vals α → Fitter α) (ratio : Option (α × α))
    (ind0 ind1 : Bool) (p0 : Vals α) (s : St α) : Except Err (Vals α × St α) :=
  let job (a b c : Bool) : Job α := ⟨a, b, c, 1 / 1000, ratio, ind0, ind1⟩
  match fit M N F (job true false false) p0 s with
  | .ok ([c1], s1) =>
    let p1 : Vals α := { p0 with mean := c1 }
    match fit M N (relup p1) (job false true false) p1 s1 with
    | .ok ([v2], s2) =>
      let p2 : Vals α := { p1 with slope := v2 }
      match fit M N (relup p1) (job false false true) p2 s2 with
      | .ok ([sc3], s3) =>
        let p3 : Vals α := { p2 with scatter := strip ratio sc3 }
        match fit M N (relup p1) (job true true true) p3 s3 with
        | .ok ([c4, v4, sc4], s4) => .ok (⟨c4, v4, strip ratio sc4⟩, s4)
        | _ => .error .valueError
      | _ => .error .valueError
    | _ => .error .valueError
  | _ => .error .valueError

/-! ## CorrectionFitter -/

/-- One galaxy of the correction fit. -/
structure CGal (α : Type) where
  z : α
  dz : α
  err : α
  prob : α
  dmag : α
  w : α
deriving DecidableEq, Repr

/-- The fitter. -/
structure CFitter (α : Type) where
  meanNodes : List α
  slopeNodes : List α
  rNodes : List α
  bkgNodes : List α
  gals : List (CGal α)
deriving DecidableEq, Repr

/-- Values at the nodes: offset, slope, error factor, variance of the outliers. -/
structure CVals (α : Type) where
  mean : List α
  slope : List α
  r : List α
  bkg : List α
deriving DecidableEq, Repr

structure CJob where
  mean : Bool
  slope : Bool
  r : Bool
  bkg : Bool
deriving DecidableEq, Repr

def CJob.flags (J : CJob) : List Bool := [J.mean, J.slope, J.r, J.bkg]
def CVals.blocks (v : CVals α) : List (List α) := [v.mean, v.slope, v.r, v.bkg]
def CFitter.sizes (F : CFitter α) : List Nat :=
  [F.meanNodes.length, F.slopeNodes.length, F.rNodes.length, F.bkgNodes.length]

/-- fitters.py:880-927: the negative log likelihood of values at the nodes. `none`: the Gaussian with no error. -/
def cnll (N : Fns α) (F : CFitter α) (v : CVals α) : α :=
  -((F.gals.map fun g =>
    let m := N.spline F.meanNodes v.mean g.z + N.spline F.slopeNodes v.slope g.z * g.dmag
    let e := N.spline F.rNodes v.r g.z * g.err
    let b := max (N.spline F.bkgNodes v.bkg g.z) (1 / 10 ^ 10)
    let x := g.w * (g.prob * N.gauss (g.dz - m) (e * e) + (1 - g.prob) * N.gauss g.dz b)
    N.ln (if e * e = 0 ∨ x ≤ 0 then 4 / 10 ^ 44 else x)).sum)

/-- fitters.py:881-909. -/
def cInForce (F : CFitter α) (J : CJob) (p0 : CVals α) (pars : List α) : CVals α :=
  match unpack pars 0 J.flags F.sizes p0.blocks with
  | [m, s, r, b] => ⟨m, s, r, b⟩
  | _ => p0

/-- fitters.py:801-826. -/
def cBounds (F : CFitter α) (J : CJob) : List (Bound α) :=
  (if J.mean then List.replicate F.meanNodes.length ⟨none, none⟩ else []) ++
  (if J.slope then List.replicate F.slopeNodes.length ⟨none, none⟩ else []) ++
  (if J.r then List.replicate F.rNodes.length ⟨some (1 / 10), some 2⟩ else []) ++
  (if J.bkg then List.replicate F.bkgNodes.length ⟨some 0, none⟩ else [])

/-- fitters.py:754-865 `fit`, returning all values: the fitted blocks are what the code returns. -/
def cfit (M : Minimizer α) (N : Fns α) (F : CFitter α) (J : CJob) (p0 : CVals α) : Except Err (CVals α) :=
  if total J.flags F.sizes = 0 then .error .valueError
  else
    .ok (cInForce F J p0 (run (fun x (_ : Unit) => (cnll N F (cInForce F J p0 x), ()))
      (M (cBounds F J) (pack J.flags p0.blocks)) ()).1)

/-- redsequencecal.py:1045-1060: the sequence of fits. -/
def cfits (M : Minimizer α) (N : Fns α) (F : CFitter α) (noslope : Bool) (p0 : CVals α) : Except Err (CVals α) :=
  (cfit M N F ⟨true, false, false, false⟩ p0).bind fun p1 =>
  (if noslope then .ok p1 else cfit M N F ⟨false, true, false, false⟩ p1).bind fun p2 =>
  (cfit M N F ⟨false, false, true, false⟩ p2).bind fun p3 =>
  (cfit M N F ⟨false, false, false, true⟩ p3).bind fun p4 =>
  cfit M N F ⟨true, !noslope, true, true⟩ p4

/-! ## EcgmmFitter -/

/-- A two-component mixture: weight, mean and width of each. -/
structure Mix (α : Type) where
  w0 : α
  m0 : α
  s0 : α
  w1 : α
  m1 : α
  s1 : α
deriving DecidableEq, Repr

/-- fitters.py:1049-1054: the cost of parameters for values and squared errors. -/
def eCost (N : Fns α) (y : List (α × α)) (pars : List α) : α :=
  let w := pars.getD 0 0
  let m0 := pars.getD 1 0
  let m1 := pars.getD 2 0
  let s0 := pars.getD 3 0
  let s1 := pars.getD 4 0;
  -((y.map fun q => N.ln (w * N.gauss (q.1 - m0) (s0 * s0 + q.2) + (1 - w) * N.gauss (q.1 - m1) (s1 * s1 + q.2))).sum)

/-- fitters.py:989-996, the default bounds. -/
def eBounds (offset : α) : List (Bound α) :=
  [⟨some (1 / 10 ^ 5), some 1⟩, ⟨some (-1 + offset), some (1 + offset)⟩, ⟨some (-1 + offset), some (1 + offset)⟩,
    ⟨some (1 / 100), some (1 / 2)⟩, ⟨some (1 / 100), some (1 / 2)⟩]

/-- fitters.py:1011-1022: the result from the parameters, sorted by mean (`argsort` of two values). -/
def eResult (offset : α) (pars : List α) : Mix α :=
  let w := pars.getD 0 0
  let m0 := pars.getD 1 0 - offset
  let m1 := pars.getD 2 0 - offset
  let s0 := pars.getD 3 0
  let s1 := pars.getD 4 0
  if m1 < m0 then ⟨1 - w, m1, s1, w, m0, s0⟩ else ⟨w, m0, s0, 1 - w, m1, s1⟩

/-- fitters.py:950-1024 `fit`: the mixture, and the values stored in the fitter afterwards. -/
def efit (M : Minimizer α) (N : Fns α) (y : List (α × α)) (w0 m0 m1 s0 s1 : α) (bounds : Option (List (Bound α)))
    (offset : α) : Mix α × List (α × α) :=
  let y' := y.map fun q => (q.1 + offset, q.2)
  let r := run (fun x (_ : Unit) => (eCost N y' x, ())) (M (bounds.getD (eBounds offset))
    [w0, m0 + offset, m1 + offset, s0, s1]) ()
  (eResult offset r.1, y'.map fun q => (q.1 - offset, q.2))

end Redmapper.Fitters
