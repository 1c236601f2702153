/-
Model of the calibration of the red sequence.

  /repo/redmapper/calibration/redsequencecal.py   RedSequenceCalibrator

Simplifications: numbers are elements of a linearly ordered field; medians, the robust linear fit, the cubic spline, the
exponential and the luptitude of a magnitude are parameters; `int(0.05 * n)` is the quotient of `n` by 20. The fits
themselves are in Model/Fitters.lean, the nodes in Model/Utilities.lean.
-/
import Mathlib.Algebra.Order.Field.Basic
import Mathlib.Algebra.BigOperators.Group.List.Basic
import Verif.Model.Fitters
import Verif.Model.Utilities
import Verif.Model.Centering

namespace Redmapper.RedSeqCal

variable {α : Type} [Field α] [LinearOrder α]

inductive Err
  | runtimeError
  | valueError
  | indexError
deriving DecidableEq, Repr

/-! ## The order of the colors -/

/-- One step over the colors: the color, the sign and the band whose magnitude is new. -/
structure Step where
  col : Nat
  sign : Int
  mind : Nat
deriving DecidableEq, Repr

/-- redsequencecal.py:486-504: from the reference band to the last, then from the reference band to the first. -/
def order (nmag ref : Nat) : List Step :=
  ((List.range' (ref + 1) (nmag - (ref + 1))).map fun j => ⟨j - 1, -1, j⟩) ++
  (((List.range ref).reverse.map fun i => i + 1).map fun j => ⟨j - 1, 1, j - 1⟩)

/-- `mind + sign`: the band whose values are known. -/
def Step.known (t : Step) : Nat := ((t.mind : Int) + t.sign).toNat

/-! ## Luptitude corrections, one galaxy -/

/-- Model magnitudes and luptitudes of the bands. -/
structure Bands (α : Type) where
  mags : Nat → α
  lups : Nat → α

/-- redsequencecal.py:506-511: the reference band. `lup` is the luptitude of a magnitude in a band. -/
def bands0 (lup : Nat → α → α) (ref : Nat) (m : α) : Bands α :=
  { mags := Function.update (fun _ => 0) ref m, lups := Function.update (fun _ => 0) ref (lup ref m) }

/-- redsequencecal.py:313-360 `_compute_single_lupcorr`; `c` is the color `cv + sv * dmags` of the model. -/
def singleLupcorr (lup : Nat → α → α) (t : Step) (c : α) (b : Bands α) : α × Bands α :=
  let mags := Function.update b.mags t.mind (b.mags t.known + (t.sign : α) * c)
  let lups := Function.update b.lups t.mind (lup t.mind (mags t.mind))
  ((lups t.col - lups (t.col + 1)) - (mags t.col - mags (t.col + 1)), ⟨mags, lups⟩)

/-- redsequencecal.py:514-625: per color the corrections with the starting values and after the fit of the mean; `cs j`
are the model colors at these times. -/
def lupcorrs (lup : Nat → α → α) (cs : Nat → α × α) : List Step → Bands α → List (α × α) × Bands α
  | [], b => ([], b)
  | t :: ts, b =>
    let r1 := singleLupcorr lup t (cs t.col).1 b
    let r2 := singleLupcorr lup t (cs t.col).2 r1.2
    let rest := lupcorrs lup cs ts r2.2
    ((r1.1, r2.1) :: rest.1, rest.2)

/-! ## Error ratios -/

/-- How the errors of a color are treated: the ratio parameters that are applied to its first and second band in the
likelihood fits (576-583) and in the binned fit (651-661), the bands whose ratio is fitted, and the start. -/
structure Treat (α : Type) where
  like : Option (α × α) × Option (α × α)
  bin : Option (α × α) × Option (α × α)
  ind : List Nat
  start : α × α
deriving DecidableEq, Repr

/-- redsequencecal.py:571-592 and 651-661. `first`: it is the first color of the order. `med`: ratio from the medians. -/
def treat (med : Nat → α) (first : Bool) (t : Step) (r : Nat → α × α) : Treat α :=
  if first then ⟨(none, none), (none, none), [0, 1], (med t.col, 0)⟩
  else if t.sign = 1 then ⟨(none, some (r t.known)), (none, some (r (t.col + 1))), [0], r t.known⟩
  else ⟨(some (r t.known), none), (some (r t.col), none), [1], r t.known⟩

/-- redsequencecal.py:663-683: the ratios after a color. `fitted` is the result of the binned fit. -/
def ratioStep (fitted : Nat → Treat α → α × α) (med : Nat → α) (first : Bool) (t : Step) (r : Nat → α × α) :
    Nat → α × α :=
  let v := fitted t.col (treat med first t r)
  if first then Function.update (Function.update r t.col v) (t.col + 1) v
  else Function.update r t.mind v

/-- redsequencecal.py:514-683: the loop over the colors, as far as the ratios are concerned. -/
def ratios (fitted : Nat → Treat α → α × α) (med : Nat → α) : Bool → List Step → (Nat → α × α) → Nat → α × α
  | _, [], r => r
  | first, t :: ts, r => ratios fitted med false ts (ratioStep fitted med first t r)

/-- redsequencecal.py:684-688: without `calib_fit_err_ratio`. -/
def plainRatios : List Step → (Nat → α × α) → Nat → α × α
  | [], r => r
  | t :: ts, r => plainRatios ts (Function.update (Function.update r t.col (1, 0)) (t.col + 1) (1, 0))

/-! ## Starting values -/

/-- redsequencecal.py:272-279 and 1002-1009: the range of a node. -/
def binLo (nodes : List α) (i : Nat) : α :=
  if i = 0 then nodes.getD 0 0 else (nodes.getD (i - 1) 0 + nodes.getD i 0) / 2

/-- redsequencecal.py:276-279. -/
def binHi (nodes : List α) (i : Nat) : α :=
  if i = nodes.length - 1 then nodes.getD i 0 else (nodes.getD i 0 + nodes.getD (i + 1) 0) / 2

/-- redsequencecal.py:281, 1011-1014: the galaxies of a node. -/
def binMembers (nodes z : List α) (i : Nat) : List Nat :=
  (List.range z.length).filter fun g => decide (binLo nodes i < z.getD g 0) && decide (z.getD g 0 < binHi nodes i)

/-- redsequencecal.py:271-303, 1001-1024: values at the nodes, one after the other; `last` is the value so far. -/
def fillNodes {β : Type} (nodes z : List α) (mincomp : Nat) (value : List Nat → β) : Nat → Nat → β → List β
  | 0, _, _ => []
  | n + 1, i, last =>
    let u := binMembers nodes z i
    let v := if u.length < mincomp then last else value u
    v :: fillNodes nodes z mincomp value n (i + 1) v

/-- Statistics used for the starting values. `linfit` gives slope and intercept. -/
structure Stats (α : Type) where
  median : List α → α
  linfit : List (α × α) → α × α

/-- redsequencecal.py:217-311 `_compute_startvals`. The pairs are the first two returned arrays: medians and their
widths, or intercepts and slopes. -/
def startvals (S : Stats α) (nodes z val : List α) (xval : List α) (median fit : Bool) (mincomp : Nat) :
    Except Err (List (α × α)) :=
  if (!median && !fit) || (median && fit) then .error .runtimeError
  else .ok (fillNodes nodes z mincomp (fun u =>
    let v := u.map fun g => val.getD g 0
    if median then
      let m := S.median v
      (m, S.median (v.map fun x => |x - m|))
    else
      let p := S.linfit (u.map fun g => (xval.getD g 0, val.getD g 0))
      (p.2, min p.1 0)) nodes.length 0 (0, 0))

/-- redsequencecal.py:552-554: starting slopes at the slope nodes, from those at the color nodes. -/
def slopeStart (colNodes slopeNodes svals : List α) : Except Err (List α) :=
  slopeNodes.mapM fun s => match svals[colNodes.countP fun c => decide (c < s)]? with
    | some v => .ok v
    | none => .error .indexError

/-! ## Off-diagonal elements of the covariance -/

/-- Scatters and covariances of the colors at one node. -/
structure Cov (α : Type) where
  sigma : Nat → Nat → α
  amp : Nat → Nat → α

/-- Assignment to an element. -/
def set2 (f : Nat → Nat → α) (j k : Nat) (v : α) : Nat → Nat → α :=
  fun a b => if a = j ∧ b = k then v else f a b

/-- redsequencecal.py:692-694: the diagonal element of a color. -/
def recordDiag (C : Cov α) (j : Nat) (s : α) : Cov α := ⟨set2 C.sigma j j s, set2 C.amp j j (s * s)⟩

/-- redsequencecal.py:715-721: one pair of colors. -/
def offdiagStep (r : α) (C : Cov α) (jk : Nat × Nat) : Cov α :=
  let sigma := set2 (set2 C.sigma jk.1 jk.2 r) jk.2 jk.1 r
  let amp := set2 C.amp jk.1 jk.2 (r * sigma jk.1 jk.1 * sigma jk.2 jk.2)
  ⟨sigma, set2 amp jk.2 jk.1 (amp jk.1 jk.2)⟩

/-- redsequencecal.py:699-721 `_calc_offdiagonal_pars` and 692-694: from zeros, the diagonal in some order of the colors,
then the pairs. -/
def covariance (ncol : Nat) (r : α) (colors : List Nat) (s : Nat → α) : Cov α :=
  let C := colors.foldl (fun C j => recordDiag C j (s j)) ⟨fun _ _ => 0, fun _ _ => 0⟩
  ((List.range ncol).flatMap fun j => (List.range' (j + 1) (ncol - (j + 1))).map fun k => (j, k)).foldl (offdiagStep r) C

/-! ## Volume factor -/

/-- redsequencecal.py:860-879 `_calc_volume_factor`; `dl` is the luminosity distance from here. -/
def volumeFactor (dl : α → α) (zref z : α) : α :=
  (dl (zref + 1 / 100) / (1 + (zref + 1 / 100)) - dl zref / (1 + zref)) /
    (dl (z + 1 / 100) / (1 + (z + 1 / 100)) - dl z / (1 + z))

/-! ## Corrections -/

/-- What the corrections use of a galaxy. -/
structure ZGal (α : Type) where
  z : α
  zred : α
  zredE : α
  lkhd : α
  prob : α
  refmag : α
deriving DecidableEq, Repr

/-- redsequencecal.py:968-969. -/
def threshold (argsort : List α → List Nat) (gals : List (ZGal α)) : Option α :=
  let l := gals.map ZGal.lkhd
  (argsort l)[gals.length / 20]?.bind fun i => l[i]?

/-- redsequencecal.py:972-973. -/
def guse (thresh : α) (gals : List (ZGal α)) : List (ZGal α) :=
  gals.filter fun g => decide (thresh < g.lkhd) && decide (|g.z - g.zred| < 2 * g.zredE)

/-- numpy `std`, squared. -/
def variance (x : List α) : α :=
  let m := x.sum / (x.length : α)
  (x.map fun v => (v - m) * (v - m)).sum / (x.length : α)

/-- redsequencecal.py:1018-1021: half of the galaxies of a node, the least probable. -/
def outlierStart (argsort : List α → List Nat) (use : List (ZGal α)) (u : List Nat) : α :=
  let gs := u.filterMap fun i => use[i]?
  let st := argsort (gs.map ZGal.prob)
  variance (((st.take (gs.length / 2)).filterMap fun i => gs[i]?).map fun g => g.z - g.zred)

/-- What `_calc_corrections` gets from elsewhere. -/
structure CEnv (α : Type) where
  argsort : List α → List Nat
  exp : α → α
  stats : Stats α
  fns : Fitters.Fns α
  minimize : Fitters.Minimizer α
  pivot : α → α
  corrZ : List α
  slopeZ : List α
  noslope : Bool

/-- The redshift along which corrections are computed (1013, 1026-1031). -/
def zOf (mode2 : Bool) (g : ZGal α) : α := if mode2 then g.zred else g.z

/-- redsequencecal.py:978 and 1033-1040: the fitter. -/
def corrFitter (E : CEnv α) (mode2 : Bool) (thresh : α) (gals : List (ZGal α)) : Fitters.CFitter α :=
  { meanNodes := E.corrZ, slopeNodes := E.slopeZ, rNodes := E.slopeZ, bkgNodes := E.slopeZ
    gals := (guse thresh gals).map fun g =>
      { z := zOf mode2 g, dz := g.z - g.zred, err := g.zredE, prob := min g.prob (99 / 100),
        dmag := g.refmag - E.pivot g.z, w := 1 / (E.exp ((thresh - g.lkhd) / (1 / 5)) + 1) } }

/-- redsequencecal.py:981-1024: the start. -/
def corrStart (E : CEnv α) (mode2 : Bool) (thresh : α) (gals : List (ZGal α)) : Fitters.CVals α :=
  let use := guse thresh gals
  let c := match startvals E.stats E.corrZ (gals.map ZGal.z) (gals.map fun g => g.z - g.zred) [] true false 3 with
    | .ok l => l.map Prod.fst
    | .error _ => []
  { mean := c, slope := List.replicate E.slopeZ.length 0, r := List.replicate E.slopeZ.length 1
    bkg := fillNodes E.slopeZ (use.map (zOf mode2)) 3 (outlierStart E.argsort use) E.slopeZ.length 0 0 }

/-- redsequencecal.py:945-1069 `_calc_corrections`: offset, slope and error factor. -/
def calcCorrections (E : CEnv α) (mode2 : Bool) (gals : List (ZGal α)) : Except Err (Fitters.CVals α) :=
  match threshold E.argsort gals with
  | none => .error .indexError
  | some t => match Fitters.cfits E.minimize E.fns (corrFitter E mode2 t gals) E.noslope (corrStart E mode2 t gals) with
    | .ok v => .ok v
    | .error _ => .error .valueError

/-! ## The run and the parameter file -/

/-- Parameters: the red sequence, and the two corrections (`none`: still the zeros of the beginning). -/
structure Pars (β γ : Type) where
  seq : β
  corr : Option γ
  corr2 : Option γ
deriving DecidableEq, Repr

/-- The parameter file: its tables, the first is the one that is read. No tables: no file. -/
abbrev ParFile (β γ : Type) := List (Pars β γ)

/-- redsequencecal.py:190-208: the states of the file during a run, one per write, with the file at the beginning.
fitsio without clobber appends a table; `_calc_zreds` reads the first one. `zreds` computes redshifts without
corrections, `corr` the corrections from them. -/
def runFile {β γ ζ : Type} (zreds : β → ζ) (corr : Bool → ζ → γ) (seq : β) (f : ParFile β γ) : List (ParFile β γ) :=
  let f1 := f ++ [⟨seq, none, none⟩]
  match f1 with
  | [] => [f]
  | p :: _ =>
    let z := zreds p.seq
    [f, f1, [⟨seq, some (corr false z), some (corr true z)⟩]]

/-- calibrate.py:319-328: a session of the calibration: nothing is done if the file exists. The run stops after `k` of
its writes (a crash; 2 is the end). -/
def session {β γ ζ : Type} (zreds : β → ζ) (corr : Bool → ζ → γ) (seq : β) (f : ParFile β γ) (k : Nat) : ParFile β γ :=
  if f ≠ [] then f else (runFile zreds corr seq f).getD k f

end Redmapper.RedSeqCal
