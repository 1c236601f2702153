/-
Model of the tables written by the background generators.

  /repo/redmapper/background.py        BackgroundGenerator.run and _worker (bins, magnitude limit, tables, file), ZredBackgroundGenerator.run
  /repo/redmapper/color_background.py  ColorBackgroundGenerator.run (color ranges, pairs of colors, file)

Simplifications: exact arithmetic; a file is its list of named tables; the contents of a table are the data of the run that computed it
where only the file is concerned; pixels are the number in the master table and the galaxies in the file of the pixel.
-/
import Verif.Model.Utilities
import Verif.Model.Background
import Mathlib.Analysis.SpecialFunctions.Exp

namespace Redmapper.BkgGen

open Redmapper.Utilities (cic Sample)

variable {α : Type} [Field α] [LinearOrder α]

inductive Err
  | runtimeError
  | valueError
  | indexError
deriving DecidableEq, Repr

/-! ## Bins -/

/-- `np.ceil((range[1] - range[0]) / binsize)` (background.py:319-331, 619-625). -/
def nbins [FloorRing α] (r : α × α) (bs : α) : Nat := ⌈(r.2 - r.1) / bs⌉.toNat

/-- `np.arange(nbins) * binsize + range[0]`: the lower edges that are saved. -/
def edges [FloorRing α] (r : α × α) (bs : α) : List α := (List.range (nbins r bs)).map fun (k : Nat) => (k : α) * bs + r.1

/-- The position of a value on the grid, in cells (background.py:545-546, 683-684). -/
def pos [FloorRing α] (r : α × α) (bs x : α) : α := (x - r.1) * (nbins r bs : α) / (r.2 - r.1)

/-! ## Magnitude limit of a redshift bin -/

/-- background.py:480-489; `m` is the magnitude of the faintest galaxies wanted, `limmag` the limit of the catalog. The conversion to
integers truncates and the result is clipped from below at zero, so it is the floor. -/
def zlimmag [FloorRing α] (limmag bs m : α) : α :=
  let r := ((12 : α), limmag)
  let m := if m ≥ limmag then limmag - 1 / 100 else m
  let p := min (max ⌊pos r bs m⌋ 0) ((nbins r bs : Int) - 1)
  ((edges r bs).getD p.toNat 0) + bs

/-! ## Tables -/

/-- background.py:536-551 and 685-693: counts on the grid divided by area and size of the bins. `x` is chi-squared or redshift; the row
of the field is the magnitude. -/
def table [FloorRing α] (xr yr : α × α) (xbs ybs : α) (areas : List α) (field : α → α) (gals : List (α × α)) : Except Err (List α) :=
  match cic 2 (nbins xr xbs) (nbins yr ybs) 1 true false (gals.map fun g => ⟨1, pos xr xbs g.1, pos yr ybs g.2, 0⟩) with
  | .error _ => .error .indexError
  | .ok f => .ok (f.zipIdx.map fun vk => field vk.1 / (areas.getD (vk.2 / nbins xr xbs) 0 * (ybs * xbs)))

/-- Table of chi-squared (background.py:549-551). -/
def chisqTable [FloorRing α] (chisqmax limmag cbs mbs : α) (areas : List α) (gals : List (α × α)) : Except Err (List α) :=
  table (0, chisqmax) (12, limmag) cbs mbs areas (fun v => v) gals

/-- A galaxy with photometric redshift. -/
structure ZGal (α : Type) where
  refmag : α
  zred : α
  chisq : α

/-- background.py:651-678: the arrays of redshifts and magnitudes; rows that are not filled have -1 and 0. -/
def fillPixels (maxchisq : α) (ngal : Nat) : List (Nat × List (ZGal α)) → Nat → List (α × α) → List (α × α)
  | [], _, rows => rows
  | (n, gals) :: rest, ctr, rows =>
    if ctr < ngal then
      if n = 0 then fillPixels maxchisq ngal rest ctr rows
      else
        let use := gals.filter fun g => decide (g.chisq < maxchisq)
        fillPixels maxchisq ngal rest (ctr + n) (rows.take ctr ++ use.map (fun g => (g.zred, g.refmag)) ++ rows.drop (ctr + use.length))
    else rows

/-- background.py:651-689: the galaxies that are counted, as (redshift, magnitude). -/
def zredCounted (maxchisq limmag : α) (zr : α × α) (pixels : List (Nat × List (ZGal α))) : List (α × α) :=
  let ngal := (pixels.map Prod.fst).sum
  (fillPixels maxchisq ngal pixels 0 (List.replicate ngal (-1, 0))).filter fun r =>
    decide (r.1 ≥ zr.1) && decide (r.1 < zr.2) && decide (r.2 > 12) && decide (r.2 < limmag)

/-- background.py:691-704: the table of redshifts; counts below 0.1 are replaced by 0.1. -/
def zredTable [FloorRing α] (maxchisq limmag zbs mbs : α) (zr : α × α) (areas : List α) (pixels : List (Nat × List (ZGal α))) :
    Except Err (List α) :=
  table zr (12, limmag) zbs mbs areas (fun v => if v < 1 / 10 then 1 / 10 else v) (zredCounted maxchisq limmag zr pixels)

/-! ## The background file -/

inductive Kind
  | chisq
  | zred
deriving DecidableEq, Repr

/-- A run of a generator: which, whether files are replaced, and the table it would compute from the inputs of that moment. -/
structure Run (T : Type) where
  kind : Kind
  clobber : Bool
  data : T

/-- A run (background.py:308-315 and 415; 605-611 and 732): nothing if the table is there; otherwise `fitsio.write` with an extension name,
which replaces the whole file with `clobber` and appends without. -/
def runGen {T : Type} (r : Run T) (file : Option (List (Kind × T))) : Option (List (Kind × T)) :=
  match file with
  | none => some [(r.kind, r.data)]
  | some exts =>
    if r.clobber then some [(r.kind, r.data)]
    else if exts.any fun e => decide (e.1 = r.kind) then some exts
    else some (exts ++ [(r.kind, r.data)])

/-- What a reader of an extension gets (`fitsio.FITS` finds the first of the name). -/
def readExt {T : Type} (k : Kind) (file : Option (List (Kind × T))) : Option T :=
  file.bind fun exts => (exts.find? fun e => decide (e.1 = k)).map Prod.snd

/-! ## ColorBackgroundGenerator -/

/-- color_background.py:340-372: colors of the galaxies used (already within -2 and 5), number per bin. -/
def hist [FloorRing α] (bs : α) (cols : List α) (k : Nat) : Nat := cols.countP fun c => decide (⌊(c + 2) / bs⌋.toNat = k)

/-- color_background.py:345-372: the range of a color; `np.min` of nothing raises. `nb` is the number of bins of the histogram. -/
def colRange [FloorRing α] (bs limmag : α) (minrange nb : Nat) (gals : List (α × α)) : Except Err (α × α) :=
  let cols := (gals.filter fun g => decide (g.1 > -2) && decide (g.1 < 5) && decide (g.2 < limmag - 1 / 2)).map Prod.fst
  let good := (List.range nb).filter fun k => decide (hist bs cols k > minrange)
  match good.head?, good.getLast? with
  | some a, some b => .ok ((a : α) * bs + -2, (b : α) * bs + -2 + bs)
  | _, _ => .error .valueError

/-- color_background.py:384-385: the pairs of colors in the order of the loops. -/
def pairs (ncol : Nat) : List (Nat × Nat) := (List.range ncol).flatMap fun i => (List.range' i (ncol - i)).map fun j => (i, j)

/-- A write of the loop: the file is replaced with the first pair. -/
def writePair {T : Type} (data : Nat × Nat → T) (p : Nat × Nat) (file : Option (List ((Nat × Nat) × T))) : Option (List ((Nat × Nat) × T)) :=
  if p.1 = 0 ∧ p.2 = 0 then some [(p, data p)]
  else match file with
    | none => some [(p, data p)]
    | some exts => some (exts ++ [(p, data p)])

/-- A run that is interrupted before write number `stop` (`none`: not interrupted). -/
def runColor {T : Type} (ncol : Nat) (clobber : Bool) (stop : Option Nat) (data : Nat × Nat → T) (file : Option (List ((Nat × Nat) × T))) :
    Option (List ((Nat × Nat) × T)) :=
  if !clobber && file.isSome then file
  else ((match stop with | none => pairs ncol | some n => (pairs ncol).take n)).foldl (fun f p => writePair data p f) file

/-! ## Values of galaxies outside of the magnitude limit -/

/-- background.py:324-327, 476: larger than all chi-squared in the table by intention; the largest edge of the logarithmic bins is 5.8. -/
noncomputable def big : ℝ := Real.exp (58 / 10) + 100

end Redmapper.BkgGen
