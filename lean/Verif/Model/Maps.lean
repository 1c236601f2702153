/-
Model of how maps of depth, mask and volume limit are read and used, and of the file of mask galaxies.

  /repo/redmapper/utilities.py    get_healsparse_subpix_indices
  /repo/redmapper/depthmap.py     get_depth_values, get_fracgoods
  /repo/redmapper/volumelimit.py  VolumeLimitMask (file, calc_zmax, geometry)
  /repo/redmapper/mask.py         get_mask, read_maskgals, gen_maskgals (radii and normalizations), set_radmask

Simplifications: exact arithmetic; pixels of the nested scheme are numbers, the pixel of the coarser map that contains one is its number
divided by four for every step, and the numbers of the ring scheme are converted by a function; a map is a function of the position that
raises for positions beyond the poles (as healsparse and hpgeom do); nsides are powers of two given by their exponent.
-/
import Mathlib.Algebra.Order.Field.Basic
import Mathlib.Algebra.Order.Floor.Ring
import Mathlib.Algebra.Order.Archimedean.Basic
import Mathlib.Analysis.SpecialFunctions.Pow.Real
import Mathlib.Data.Rat.Floor
import Mathlib.Data.List.Dedup

namespace Redmapper.Maps

variable {α : Type} [Field α] [LinearOrder α]

inductive Err
  | runtimeError
  | notImplemented
  | valueError
deriving DecidableEq, Repr

/-! ## Coverage pixels -/

/-- utilities.py:1190-1212: pixels of the coverage map, of order `cov`, for pixels of order `sub`. -/
def covpix (r2n : Nat → Nat) (sub cov : Nat) (hpix : List Nat) : List Nat :=
  if sub = cov then hpix.map r2n
  else if cov < sub then hpix.map fun h => r2n h / 4 ^ (sub - cov)
  else hpix.flatMap fun h => (List.range (4 ^ (cov - sub))).map fun i => r2n h * 4 ^ (cov - sub) + i

/-- utilities.py:1169-1229 `get_healsparse_subpix_indices`; `extra` are the coverage pixels that touch the border, `none` for `sub` is nside
zero. The result `none` means all pixels. -/
def subpixIndices (r2n : Nat → Nat) (sub : Option Nat) (cov : Nat) (hpix : List Nat) (border : α) (extra : List Nat) :
    Except Err (Option (List Nat)) :=
  if hpix.length = 0 then .error .runtimeError
  else if border > 0 ∧ hpix.length > 1 then .error .notImplemented
  else match sub with
    | none => .ok none
    | some s => .ok (some (if border > 0 then (covpix r2n s cov hpix ++ extra).dedup else covpix r2n s cov hpix))

/-- `HealSparseMap.read(pixels=...)` wants each pixel once. -/
def readMap (pixels : List Nat) : Except Err (List Nat) := if pixels.dedup.length < pixels.length then .error .runtimeError else .ok pixels

/-! ## Values at positions -/

/-- `get_values_pos`: raises for positions beyond the poles. -/
def valuesPos {β : Type} (val : α → α → β) (ras decs : List α) : Except Err (List β) :=
  if decs.any fun d => decide (d < -90) || decide (90 < d) then .error .valueError else .ok (List.zipWith val ras decs)

def clipDec (d : α) : α := max (-90) (min d 90)

/-- depthmap.py:75-108 and 110-135: values, and a replacement beyond the poles. -/
def getValues {β : Type} (val : α → α → β) (bad : β) (ras decs : List α) : Except Err (List β) :=
  if ras.length ≠ decs.length then .error .valueError
  else (valuesPos val ras (decs.map clipDec)).map fun vs => List.zipWith (fun v d => if |d| > 90 then bad else v) vs decs

/-- volumelimit.py:239-272 `calc_zmax` with `get_fracgood`. -/
def calcZmax (val : α → α → α × α) (unseen : α) (ras decs : List α) : Except Err (List (α × α)) :=
  if ras.length ≠ decs.length then .error .valueError
  else (valuesPos val ras decs).map fun vs =>
    (List.zipWith (fun v d => if |d| > 90 then (unseen, 0) else v) vs decs).map fun v => (max v.1 0, v.2)

/-! ## Files of the volume limit -/

/-- What a mask was built for: luminosity, and whether from the geometry only. -/
abbrev Built (α : Type) := α × Bool

/-- volumelimit.py:53-58: the number in the name of the file, `int(vlim_lstar * 10)`. -/
def nameOf [FloorRing α] (lstar : α) : Int := if 0 ≤ lstar then ⌊lstar * 10⌋ else ⌈lstar * 10⌉

/-- volumelimit.py:26-67: open a mask without a file name. -/
def openMask [FloorRing α] (lstar : α) (geometry : Bool) (files : Int → Option (Built α)) : Built α × (Int → Option (Built α)) :=
  match files (nameOf lstar) with
  | some b => (b, files)
  | none => ((lstar, geometry), Function.update files (nameOf lstar) (some (lstar, geometry)))

/-- Any number of masks opened one after the other: what each gets. -/
def openAll [FloorRing α] : List (Built α) → (Int → Option (Built α)) → List (Built α)
  | [], _ => []
  | b :: rest, files => (openMask b.1 b.2 files).1 :: openAll rest (openMask b.1 b.2 files).2

/-- volumelimit.py:210-237: pixels of a mask built from the geometry, (pixel, fraction, largest redshift). -/
def geometryMask {β : Type} (zmax : α) (mask : List (β × α)) : List (β × α × α) := mask.map fun p => (p.1, p.2, zmax)

/-! ## Kinds of masks -/

inductive MaskKind
  | everything
  | healpix
deriving DecidableEq, Repr

/-- mask.py:407-426 `get_mask`; `none` is Python's None. -/
def getMask (mode : Int) : Except Err (Option MaskKind) :=
  if mode = 0 then .ok (some .everything) else if mode = 3 then .ok (some .healpix) else .ok none

/-! ## Mask galaxies -/

/-- mask.py:128. -/
noncomputable def minRad (r0 beta : ℝ) : ℝ := min (⌊10 * r0 * (3 / 100 : ℝ) ^ beta⌋ / 10) (1 / 2)

/-- mask.py:129. -/
noncomputable def maxRad (r0 beta : ℝ) : ℝ := ⌈10 * r0 * (300 / 100 : ℝ) ^ beta⌉ / 10

/-- mask.py:131-132. -/
noncomputable def radBins (r0 beta step : ℝ) : List ℝ :=
  (List.range (⌈(maxRad r0 beta - minRad r0 beta) / step⌉ + 1).toNat).map fun (k : Nat) => (k : ℝ) * step + minRad r0 beta

/-- A mask galaxy: radius and magnitude relative to mstar. -/
abbrev MGal (α : Type) := α × α

/-- mask.py:239-242: soft edge of the radius; `soft` is `0.5 + 0.5*erf(x / (sqrt(2) rsig))`. -/
def thetaR (soft : α → α) (rsig rad r : α) : α := if rsig ≤ 0 then 1 else soft (rad - r)

/-- mask.py:229-246 for one sample: numbers inside each radius, hard and soft. `mlim` is the magnitude of the reference luminosity. -/
def ninRow (soft : α → α) (rsig mlim : α) (radbins : List α) (gals : List (MGal α)) : List (Nat × α) :=
  radbins.map fun rad =>
    ((gals.filter fun g => decide (g.1 ≤ rad) && decide (g.2 < mlim)).length,
     ((gals.filter fun g => decide (g.2 < mlim)).map fun g => thetaR soft rsig rad g.1).sum)

/-- mask.py:229-246: every row of a sample has the values of its sample. -/
def ninAll (soft : α → α) (rsig mlim : α) (radbins : List α) (ngals nsamples : Nat) (gals : List (MGal α)) : List (List (Nat × α)) :=
  (List.range nsamples).flatMap fun j => List.replicate ngals (ninRow soft rsig mlim radbins ((gals.drop (j * ngals)).take ngals))

/-- A file of mask galaxies: version and settings it was made with. -/
structure MaskgalFile (S : Type) where
  version : Nat
  settings : S

/-- mask.py:72-95 `read_maskgals`. -/
def readMaskgals {S : Type} (current : Nat) (file : Option (MaskgalFile S)) : Except Err S :=
  match file with
  | none => .error .runtimeError
  | some f => if f.version ≠ current then .error .runtimeError else .ok f.settings

/-- mask.py:267-279 `set_radmask`: positions of the mask galaxies; `cosd` is the cosine of the declination. -/
def radPositions (ra dec scale cosd : α) (gals : List (α × α)) : List (α × α) :=
  gals.map fun g => (ra + g.1 / scale / cosd, dec + g.2 / scale)

end Redmapper.Maps
