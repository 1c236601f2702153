/-
Model of the selection of red galaxies with spectra for the calibration, and of two of its fitters.

  /repo/redmapper/calibration/selectspecred.py  SelectSpecRedGalaxies.run
  /repo/redmapper/fitters.py                    MedZFitter, ErrorBinFitter

Simplifications: real arithmetic; the sky matcher, argsort, the two-component mixture (C168), the spline, the red-sequence fits
(C163-C166) and the template colors are parameters; the minimizer is a program that asks for costs (Model/Fitters.lean); the diagnostic
plots after the output are left out.
-/
import Mathlib.Analysis.SpecialFunctions.Sqrt
import Verif.Model.Fitters
import Verif.Model.Finders
import Verif.Model.Centering
import Verif.Model.Mask

namespace Redmapper.SpecRed

open Redmapper.Fitters (Script Bound Minimizer run)
open Redmapper.Finders (takeRows)
open Redmapper.Centering (whereIdx)
open Redmapper.Mask (median)

inductive Err
  | indexError
deriving DecidableEq, Repr

/-! ## The training galaxies -/

/-- A row of the spectroscopic catalog. -/
structure Spec (π : Type) where
  pos : π
  z : ℝ
  zErr : ℝ

/-- A galaxy: position, reference magnitude, colors, errors of colors and magnitudes, and an id for all the rest. -/
structure Gal (π : Type) where
  pos : π
  refmag : ℝ
  col : Nat → ℝ
  colErr : Nat → ℝ
  magErr : Nat → ℝ
  id : Nat

/-- A galaxy with the redshift of its spectrum. -/
structure Train (π : Type) where
  gal : Gal π
  z : ℝ

/-- `np.clip(zrange[0] - cushion, 0.05, None)`, `zrange[1] + cushion` (configuration.py:832-837). -/
noncomputable def cushioned (zr : ℝ × ℝ) (cushion : ℝ) : ℝ × ℝ :=
  (if zr.1 - cushion < 1 / 20 then 1 / 20 else zr.1 - cushion, zr.2 + cushion)

/-- selectspecred.py:68-90: good spectra, their closest galaxies, redshift range and magnitude limit. -/
noncomputable def training {π : Type} (matcher : List π → List π → List (Nat × Nat)) (maxErr limmag : ℝ) (zr : ℝ × ℝ)
    (gals : List (Gal π)) (spec : List (Spec π)) : List (Train π) :=
  let sp := spec.filter fun s => decide (s.zErr < maxErr)
  let pairs := matcher (sp.map Spec.pos) (gals.map Gal.pos)
  let rows := pairs.filterMap fun p => (gals[p.2]?).bind fun g => (sp[p.1]?).map fun s => (⟨g, s.z⟩ : Train π)
  rows.filter fun t => decide (t.z > zr.1) && decide (t.z < zr.2) && decide (t.gal.refmag < limmag)

/-! ## MedZFitter -/

/-- fitters.py:73-92 `MedZFitter.__call__`: rows are redshift and value. -/
noncomputable def medCost (spl : List ℝ → List ℝ → ℝ → ℝ) (nodes : List ℝ) (data : List (ℝ × ℝ)) (p : List ℝ) : ℝ :=
  (data.map fun d => |d.2 - spl nodes p d.1|).sum

/-- fitters.py:37-71 `MedZFitter.fit`. -/
noncomputable def medFit (M : Minimizer ℝ) (spl : List ℝ → List ℝ → ℝ → ℝ) (nodes : List ℝ) (data : List (ℝ × ℝ)) (p0 : List ℝ)
    (b : Bound ℝ) : List ℝ :=
  (run (fun p (_ : Unit) => (medCost spl nodes data p, ())) (M (p0.map fun _ => b) p0) ()).1

/-! ## The fits of a color -/

/-- What the fits of a color use from outside. -/
structure Env where
  argsort : List ℝ → List Nat
  /-- Color `j` of the template at a redshift. -/
  template : Nat → ℝ → ℝ
  /-- `EcgmmFitter.fit` from the start `[0.2], [-0.5, 0.0], [0.2, 0.05]` with offset 2: mean and width of the second component. -/
  mixture : List (ℝ × ℝ) → ℝ × ℝ
  spl : List ℝ → List ℝ → ℝ → ℝ
  minimize : Minimizer ℝ
  /-- The three fits of `RedSequenceFitter` one after the other: rows are (redshift, color, errors of the two bands, truncation). -/
  redseq : List (ℝ × ℝ × ℝ × ℝ × ℝ) → List ℝ → List ℝ → List ℝ × List ℝ

/-- Columns of the model file for a color. -/
structure Fit where
  medcol : List ℝ
  medwidth : List ℝ
  mean : List ℝ
  scatter : List ℝ

/-- A galaxy as seen by the fits of color `j`: redshift, color, error of the color, errors of the two bands. -/
structure Row where
  z : ℝ
  c : ℝ
  cErr : ℝ
  e0 : ℝ
  e1 : ℝ

def rowOf {π : Type} (j : Nat) (t : Train π) : Row := ⟨t.z, t.gal.col j, t.gal.colErr j, t.gal.magErr j, t.gal.magErr (j + 1)⟩

/-- selectspecred.py:118-122: strictly between the values at 5% and 99% of the sorted differences. -/
noncomputable def trim (argsort : List ℝ → List Nat) (d : List ℝ) : Except Err (List Nat) :=
  let st := argsort d
  match (st[d.length * 5 / 100]?).bind (fun i => d[i]?), (st[d.length * 99 / 100]?).bind (fun i => d[i]?) with
  | some lo, some hi => .ok (whereIdx (fun x => decide (x > lo) && decide (x < hi)) d)
  | _, _ => .error .indexError

/-- selectspecred.py:127-152: medians and widths. -/
noncomputable def medians (E : Env) (nodes : List ℝ) (rows : List Row) (j : Nat) (mu sigma : ℝ) : List ℝ × List ℝ :=
  let mvals := nodes.map fun z => E.template j z + mu
  let scvals := nodes.map fun _ => 0 + sigma
  let near := fun (mv : List ℝ) => rows.filter fun r =>
    decide (r.c > E.spl nodes mv r.z - 2 * E.spl nodes scvals r.z) && decide (r.c < E.spl nodes mv r.z + 2 * E.spl nodes scvals r.z)
  let mvals1 := medFit E.minimize E.spl nodes ((near mvals).map fun r => (r.z, r.c)) mvals ⟨none, none⟩
  let scvals1 := medFit E.minimize E.spl nodes ((near mvals1).map fun r => (r.z, |r.c - E.spl nodes mvals1 r.z|)) scvals ⟨none, none⟩
  (mvals1, scvals1.map fun s => 14826 / 10000 * s)

/-- selectspecred.py:159-172: the galaxies of the red-sequence fit, with truncation. -/
noncomputable def truncated (E : Env) (nodes : List ℝ) (rows : List Row) (mw : List ℝ × List ℝ) : List (Row × ℝ) :=
  (rows.filter fun r => decide (|r.c - E.spl nodes mw.1 r.z| < 3 / 2 * E.spl nodes mw.2 r.z)).map fun r =>
    (r, 3 / 2 * E.spl nodes mw.2 r.z)

/-- selectspecred.py:109-192, one color. -/
noncomputable def fitColor (E : Env) (nodes : List ℝ) (rows : List Row) (j : Nat) : Except Err Fit :=
  (trim E.argsort (rows.map fun r => r.c - E.template j r.z)).map fun u =>
    let ms := E.mixture ((takeRows rows u).map fun r => (r.c - E.template j r.z, r.cErr))
    let mw := medians E nodes rows j ms.1 ms.2
    let rs := E.redseq ((truncated E nodes rows mw).map fun r => (r.1.z, r.1.c, r.1.e0, r.1.e1, r.2)) mw.1 mw.2
    ⟨mw.1, mw.2, rs.1, rs.2⟩

/-- The table before the loop (selectspecred.py:100-104). -/
def zeros (nodes : List ℝ) : Nat → Fit := fun _ => ⟨nodes.map fun _ => 0, nodes.map fun _ => 0, nodes.map fun _ => 0, nodes.map fun _ => 0⟩

/-- selectspecred.py:107-192: the loop over modes. -/
noncomputable def fitAll {π : Type} (E : Env) (nodes : List ℝ) (gals : List (Train π)) : List Nat → (Nat → Fit) → Except Err (Nat → Fit)
  | [], tab => .ok tab
  | j :: js, tab => (fitColor E nodes (gals.map (rowOf j)) j).bind fun f => fitAll E nodes gals js (Function.update tab j f)

/-! ## Selection -/

/-- selectspecred.py:196-198. -/
noncomputable def zbounds (zr : ℝ × ℝ) (inner : List ℝ) : List ℝ := (zr.1 - 11 / 1000) :: inner ++ [zr.2 + 11 / 1000]

/-- selectspecred.py:203-217: a galaxy is marked by mode `m`; with too few bounds numpy raises, here the bounds read as zero. -/
noncomputable def marked {π : Type} (E : Env) (nodes : List ℝ) (tab : Nat → Fit) (nsig : ℝ) (zb : List ℝ) (m j : Nat) (t : Train π) : Bool :=
  decide (t.z > zb.getD m 0) && decide (t.z < zb.getD (m + 1) 0) &&
    decide (|t.gal.col j - E.spl nodes (tab j).mean t.z| <
      nsig * Real.sqrt (t.gal.colErr j ^ 2 + E.spl nodes (tab j).scatter t.z ^ 2))

/-- selectspecred.py:200-217: the marks after all modes. -/
noncomputable def marks {π : Type} (E : Env) (nodes : List ℝ) (tab : Nat → Fit) (nsig : ℝ) (zb : List ℝ) (modes : List Nat)
    (gals : List (Train π)) : List Bool :=
  modes.zipIdx.foldl (fun mk jm => List.zipWith (fun t b => b || marked E nodes tab nsig zb jm.2 jm.1 t) gals mk)
    (gals.map fun _ => false)

/-- selectspecred.py:219-222: the file of red galaxies; `to_fits_file` ignores the indices for a table of one row (C80). -/
noncomputable def redFile {π : Type} (E : Env) (nodes : List ℝ) (tab : Nat → Fit) (nsig : ℝ) (zb : List ℝ) (modes : List Nat)
    (gals : List (Train π)) : List (Train π) :=
  if gals.length = 1 then gals
  else takeRows gals (whereIdx (fun b => b) (marks E nodes tab nsig zb modes gals))

/-! ## ErrorBinFitter -/

/-- A galaxy: color residual, magnitude residual, errors of the two bands, squared intrinsic scatter. -/
structure ERow where
  dcol : ℝ
  dmag : ℝ
  e0 : ℝ
  e1 : ℝ
  sig2 : ℝ

/-- `1.4826 * median(|x - median(x)|)`; `none` is the NaN of an empty bin. -/
noncomputable def mad (x : List ℝ) : Option ℝ :=
  if x.length = 0 then none else some (14826 / 10000 * median (x.map fun v => |v - median x|))

/-- esutil histogram: bins of a width from the smallest value on. -/
noncomputable def binOf (lo binsize x : ℝ) : Nat := ⌊(x - lo) / binsize⌋₊

noncomputable def minOf (x : List ℝ) : ℝ := x.foldr min (x.headD 0)

noncomputable def maxOf (x : List ℝ) : ℝ := x.foldr max (x.headD 0)

/-- fitters.py:1090-1094: number of bins and rows of a bin. -/
noncomputable def nbin (binsize : ℝ) (rows : List ERow) : Nat :=
  binOf (minOf (rows.map ERow.dmag)) binsize (maxOf (rows.map ERow.dmag)) + 1

noncomputable def inBin (binsize : ℝ) (rows : List ERow) (i : Nat) : List ERow :=
  rows.filter fun r => decide (binOf (minOf (rows.map ERow.dmag)) binsize r.dmag = i)

/-- fitters.py:1096-1099, 1166-1181: the pull of a row for an error ratio and the bands it applies to. -/
noncomputable def pull (s0 s1 : Bool) (a b : ℝ) (r : ERow) : ℝ :=
  let ratio := a + b * r.dmag
  let e0 := if s0 then ratio * r.e0 else r.e0
  let e1 := if s1 then ratio * r.e1 else r.e1
  r.dcol / Real.sqrt (r.sig2 + e0 ^ 2 + e1 ^ 2)

/-- fitters.py:1101-1115: the error of a bin from bootstrap samples; `draw i k` are the positions drawn in trial `k` of bin `i`. -/
noncomputable def madErr (draw : Nat → Nat → List Nat) (ntrial : Nat) (binsize : ℝ) (rows : List ERow) (i : Nat) : Option ℝ :=
  let b := inBin binsize rows i
  (((List.range ntrial).map fun k => mad ((takeRows b (draw i k)).map (pull false false 0 0))).mapM id).bind mad

/-- fitters.py:1118: bins with a positive error. -/
noncomputable def useBins (draw : Nat → Nat → List Nat) (ntrial : Nat) (binsize : ℝ) (rows : List ERow) : List (Nat × ℝ) :=
  (List.range (nbin binsize rows)).filterMap fun i => match madErr draw ntrial binsize rows i with
    | some e => if e > 0 then some (i, e) else none
    | none => none

/-- fitters.py:1154-1186 `ErrorBinFitter.__call__`; `bins` from the constructor. -/
noncomputable def binCost (binsize : ℝ) (rows : List ERow) (bins : List (Nat × ℝ)) (s0 s1 : Bool) (p : List ℝ) : ℝ :=
  (bins.map fun ie => ((mad ((inBin binsize rows ie.1).map (pull s0 s1 (p.getD 0 0) (p.getD 1 0)))).getD 0 - 1) ^ 2 / ie.2 ^ 2).sum

/-- fitters.py:1120-1152 `ErrorBinFitter.fit`. -/
noncomputable def binFit (M : Minimizer ℝ) (binsize : ℝ) (rows : List ERow) (bins : List (Nat × ℝ)) (s0 s1 : Bool) (p0 : List ℝ) : List ℝ :=
  (run (fun p (_ : Unit) => (binCost binsize rows bins s0 s1 p, ())) (M [⟨some (1 / 2), some 10⟩, ⟨some (-5), some 5⟩] p0) ()).1

end Redmapper.SpecRed
