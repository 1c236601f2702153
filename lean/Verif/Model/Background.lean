/-
Model of /repo/redmapper/background.py and /repo/redmapper/color_background.py: look-ups, the split of the redshift bins over
processes, the reading loop of the generator, the normalisation of the color background.
-/
import Verif.Model.Utilities
import Mathlib.Algebra.Order.Floor.Ring
import Mathlib.Data.Rat.Floor
import Mathlib.Analysis.SpecialFunctions.Log.Basic

namespace Redmapper.Background

open Redmapper.Utilities

variable {α : Type} [Field α] [LinearOrder α] [IsStrictOrderedRing α]

/-- numpy indexing with a possibly negative index into an axis of length `n`. -/
def pyIdx (n : Nat) (i : Int) : Nat := if i < 0 then (i + n).toNat else i.toNat

/-- `np.round`: to the nearest integer, halves to even. -/
def roundHE [FloorRing α] (t : α) : Int :=
  if t - ⌊t⌋ < 1 / 2 then ⌊t⌋
  else if 1 / 2 < t - ⌊t⌋ then ⌊t⌋ + 1
  else if ⌊t⌋ % 2 = 0 then ⌊t⌋ else ⌊t⌋ + 1

/-- The table of a `Background` (background.py:120-128): bins and Sigma_g[refmag, chisq, z]. -/
structure Table (α : Type) where
  refmagbins : List α
  chisqbins : List α
  zbins : List α
  refmagbinsize : α
  chisqbinsize : α
  sigma : Nat → Nat → Nat → α

/-- background.py:151-155: redshift index. -/
def zIndex [FloorRing α] (zbins : List α) (z : α) : Nat :=
  (max 0 (min (roundHE ((z - zbins.getD 0 0) / (zbins.getD 1 0 - zbins.getD 0 0))) ((zbins.length : Int) - 1))).toNat

/-- background.py:130-173 `Background.sigma_g_lookup` for one galaxy; `none` is infinity. -/
def lookup [FloorRing α] (t : Table α) (allow0 : Bool) (z chisq refmag : α) : Option α :=
  let ci : Int := (ssLeft t.chisqbins chisq : Int) - 1
  let ri : Int := (ssLeft t.refmagbins refmag : Int) - 1
  let badc := chisq < t.chisqbins.getD 0 0 ∨ t.chisqbins.getD (t.chisqbins.length - 1) 0 + t.chisqbinsize < chisq
  let badr := refmag ≤ t.refmagbins.getD 0 0 ∨ t.refmagbins.getD (t.refmagbins.length - 1) 0 + t.refmagbinsize < refmag
  let ci := if badc then 0 else ci
  let ri := if badr then 0 else ri
  let v := t.sigma (pyIdx t.refmagbins.length ri) (pyIdx t.chisqbins.length ci) (zIndex t.zbins z)
  if badc then none
  else if badr then none
  else if allow0 = false ∧ v = 0 then none
  else some v

/-- background.py:234-266 `ZredBackground.sigma_g_lookup` for one galaxy. -/
def zredLookup (zredbins refmagbins : List α) (sigma : Nat → Nat → α) (zred refmag : α) : Option α :=
  let zi : Int := (ssLeft zredbins zred : Int) - 1
  let ri : Int := (ssLeft refmagbins refmag : Int) - 1
  let badz := zi < 0 ∨ (zredbins.length : Int) ≤ zi
  let badr := ri < 0 ∨ (refmagbins.length : Int) ≤ ri
  let zi := if badz then 0 else zi
  let ri := if badr then 0 else ri
  let v := sigma (pyIdx refmagbins.length ri) (pyIdx zredbins.length zi)
  if badz then none else if badr then none else some v

/-! ### BackgroundGenerator: the split over processes (background.py:330-377) -/

/-- background.py:331: redshift bins. -/
def zbin (z0 bs : ℝ) (j : Nat) : ℝ := (j : ℝ) * bs + z0

/-- background.py:330: number of redshift bins. -/
noncomputable def nzbins (z0 z1 bs : ℝ) : Nat := (⌈(z1 - z0) / bs⌉).toNat

/-- background.py:345-349: edges of the redshift ranges, decreasing. -/
noncomputable def zedge (z0 z1 : ℝ) (nproc i : Nat) : ℝ :=
  let l0 := Real.log (z0 - 0.001)
  let l1 := Real.log (z1 + 0.001)
  (Real.exp l0 + Real.exp l1) - Real.exp (l0 + (i : ℝ) * ((l1 - l0) / (nproc : ℝ)))

open Classical in
/-- background.py:351-366: the bins of each process; empty ones are left out. -/
noncomputable def workerList (z0 z1 bs : ℝ) (nproc : Nat) : List (List Nat) :=
  ((List.range nproc).map fun i => (List.range (nzbins z0 z1 bs)).filter fun j =>
    decide (zbin z0 bs j < zedge z0 z1 nproc i ∧ zedge z0 z1 nproc (i + 1) < zbin z0 bs j)).filter fun u => decide (u ≠ [])

/-- background.py:333-335 and 374-377: the results are stored by redshift bin, starting from zeros; `f` computes the column of a bin.
Simplified: the red-sequence table a process loads (442-446) covers its own bins only, and the column does not depend on which. -/
def mergeCols {β : Type} (f : Nat → β) (zero : β) (ws : List (List Nat)) : Nat → β :=
  ws.foldl (fun out w => fun j => if j ∈ w then f j else out j) (fun _ => zero)

/-! ### BackgroundGenerator._worker: reading the galaxies (background.py:449-540) -/

/-- A galaxy: its reference magnitude and its chi-squared at the redshift bins. -/
structure Gal (α : Type) where
  refmag : α
  chisq : Nat → α

/-- What is stored for a galaxy: reference magnitude and chi-squared per bin. -/
structure Row (α : Type) where
  refmag : α
  chisq : Nat → α

/-- background.py:476-478: initial values (out of range). -/
def emptyRow (big : α) : Row α := ⟨0, fun _ => big⟩

/-- background.py:519-528: chi-squared is computed for galaxies inside the magnitude limits of the bin. -/
def fillRow (lo : α) (zlimmag : Nat → α) (big : α) (g : Gal α) : Row α :=
  ⟨g.refmag, fun i => if lo < g.refmag ∧ g.refmag < zlimmag i then g.chisq i else big⟩

/-- background.py:493-528, pixelized: a pixel is the number in the master table and the galaxies in its file. -/
def readPixels (lo : α) (zlimmag : Nat → α) (big : α) (ngal : Nat) : List (Nat × List (Gal α)) → Nat → List (Row α) → List (Row α)
  | [], _, rows => rows
  | (n, gals) :: rest, ctr, rows =>
    if ctr < ngal then
      if n = 0 then readPixels lo zlimmag big ngal rest ctr rows
      else readPixels lo zlimmag big ngal rest (ctr + n)
        (rows.take ctr ++ gals.map (fillRow lo zlimmag big) ++ rows.drop (ctr + gals.length))
    else rows

/-- background.py:493-503, one file: rows are read in chunks; the loop also requires `p < npix`, and npix is 0 here (471).  The
result is the list of row ranges read. -/
def chunkRanges (ngal natatime npix ctr : Nat) : List (Nat × Nat) :=
  if h : ctr < ngal ∧ 0 < npix then
    let hi := min (ctr + natatime) ngal
    (ctr, hi) :: chunkRanges ngal natatime npix (max (hi + 1) (ctr + 1))
  else []
termination_by ngal - ctr
decreasing_by omega

/-- background.py:536-546: the galaxies counted at bin `i`, as (chisq, refmag). -/
def counted (lo hi chisqmax : α) (i : Nat) (rows : List (Row α)) : List (α × α) :=
  (rows.filter fun r => decide (0 ≤ r.chisq i) && decide (r.chisq i < chisqmax) && decide (lo ≤ r.refmag) && decide (r.refmag < hi)).map
    fun r => (r.chisq i, r.refmag)

/-- background.py:449-466, 476-478 and 493-546, pixelized input. -/
def workerPix (lo hi chisqmax big : α) (zlimmag : Nat → α) (i : Nat) (pixels : List (Nat × List (Gal α))) : List (α × α) :=
  let ngal := (pixels.map Prod.fst).sum
  counted lo hi chisqmax i (readPixels lo zlimmag big ngal pixels 0 (List.replicate ngal (emptyRow big)))

/-- background.py:467-471, 476-478 and 493-546, one file. -/
def workerFile (lo hi chisqmax big : α) (zlimmag : Nat → α) (i natatime npix : Nat) (gals : List (Gal α)) : List (α × α) :=
  counted lo hi chisqmax i ((chunkRanges gals.length natatime npix 0).foldl
    (fun rows r => rows.take r.1 ++ ((gals.drop r.1).take (r.2 - r.1)).map (fillRow lo zlimmag big) ++ rows.drop r.2)
    (List.replicate gals.length (emptyRow big)))

/-! ### ColorBackground -/

/-- color_background.py:170-204 `sigma_g_diagonal` for one galaxy. -/
def diagLookup (colbins refmagbins : List α) (cbs rbs : α) (sigma : Nat → Nat → α) (color refmag : α) : Option α :=
  let ci := ssLeft colbins (color - cbs)
  let ri := ssLeft refmagbins (refmag - rbs)
  let badc := colbins.length ≤ ci
  let badr := refmagbins.length ≤ ri
  let v := sigma (if badr then 0 else ri) (if badc then 0 else ci)
  if badc then none else if badr then none else if v = 0 then none else some v

/-- color_background.py:235-236, 289-291: clipped index. -/
def clipIndex (bins : List α) (bs x : α) : Nat := min (ssLeft bins (x - bs)) (bins.length - 1)

/-- A two-color table: bins and the counts bc[refmag, col2, col1]. -/
structure OffDiag (α : Type) where
  col1bins : List α
  col2bins : List α
  refmagbins : List α
  bc : Nat → Nat → Nat → α

inductive Err
  | keyError
deriving DecidableEq, Repr

/-- color_background.py:257-293 `lookup_offdiag` for one galaxy; `bkgs` is the dictionary by 100*i+j, `n` the normalisation. -/
def offdiag (bkgs : Nat → Option (OffDiag α)) (n : OffDiag α → Nat → α) (bs rbs : α) (i j : Nat) (c1 c2 refmag : α) (doRaise : Bool) : Except Err α :=
  let key := if (bkgs (i * 100 + j)).isSome then i * 100 + j else j * 100 + i
  match bkgs key with
  | none => if doRaise then .error .keyError else .ok 0
  | some b =>
    let ri := clipIndex b.refmagbins rbs refmag
    .ok (b.bc ri (clipIndex b.col2bins bs c2) (clipIndex b.col1bins bs c1) / n b ri)

/-- color_background.py:145-146: normalisation of a two-color table of fine bins. -/
def normOff (bs : α) (b : OffDiag α) (r : Nat) : α :=
  (((List.range b.col1bins.length).map fun i => ((List.range b.col2bins.length).map fun j => b.bc r j i).sum * bs).sum) * bs

/-- color_background.py:95: normalisation of a one-color table, from the coarse counts of one magnitude bin. -/
def normDiag (coarse : List α) (bs rawbs : α) : α := coarse.sum * (bs / rawbs)

/-- color_background.py:87-93: the fine counts. -/
def fineDiag (coarse rawbins colbins : List α) : List α := colbins.map fun c => max 0 (interpol coarse rawbins c)

end Redmapper.Background
