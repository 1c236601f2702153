/-
Model of the files of the sky maps: conversion of old depth and mask files, areas of a part of the sky, and the prediction of memory.

  /repo/redmapper/depthmap.py            convert_depthfile_to_healsparse, DepthMap.__init__, DepthMap.calc_areas (pixels of a region)
  /repo/redmapper/mask.py                convert_maskfile_to_healsparse, HPMask.__init__
  /repo/redmapper/pipeline/mempredict.py MemPredict.predict_memory

A map is a function from pixels (nested) to values, `none` where nothing was set.  `r2n` is the change from ring to nested numbers.  Orders are exponents:
nside = 2^order.  HealSparseMap (make_empty, update_values_pix, read with a list of coverage pixels, write) is outside of this code base; its effect on
the map is as modelled here.
-/
import Verif.Model.Maps
import Verif.Model.Mask
import Mathlib.Logic.Function.Basic

namespace Redmapper.SkyMap

inductive Err where
  | keyError
  | runtimeError
  | typeError
  | area (e : Redmapper.Mask.Err)
  deriving DecidableEq, Repr

/-! ## Conversion -/

variable {V H : Type}

/-- depthmap.py:311-315 and mask.py:448-449: `update_values_pix` of an empty map, in the order of the rows; `nest` as the header says. -/
def convertMap (r2n : Nat → Nat) (nest : Bool) (rows : List (Nat × V)) : Nat → Option V :=
  rows.foldl (fun m r => Function.update m (if nest then r.1 else r2n r.1) (some r.2)) fun _ => none

/-- depthmap.py:317-324: the cards of the new header. -/
def cards : List String := ["NSIG", "ZP", "NBAND", "W", "EFF"]

/-- depthmap.py:317-324: each card is taken from the old header. -/
def convertHeader (old : String → Option H) : Except Err (String → Option H) :=
  cards.foldl (fun acc k => match acc with
    | .error e => .error e
    | .ok h => match old k with
      | none => .error .keyError
      | some v => .ok (Function.update h k (some v))) (.ok fun _ => none)

/-- A file of a map. -/
structure MapFile (V H : Type) where
  hdr : String → Option H
  val : Nat → Option V

/-- The file written, or an exception: an existing file is only overwritten with `clobber`. -/
def writeMap (clobber : Bool) (disk : String → Option (MapFile V H)) (name : String) (f : MapFile V H) : Except Err (String → Option (MapFile V H)) :=
  if (disk name).isSome && !clobber then .error .runtimeError else .ok (Function.update disk name (some f))

/-- depthmap.py:280-326. -/
def convertDepth (r2n : Nat → Nat) (nest : Bool) (rows : List (Nat × V)) (old : String → Option H) (clobber : Bool) (disk : String → Option (MapFile V H))
    (name : String) : Except Err (String → Option (MapFile V H)) :=
  match convertHeader old with
  | .error e => .error e
  | .ok h => writeMap clobber disk name ⟨h, convertMap r2n nest rows⟩

/-- depthmap.py:49-56: what a depth map takes from the header of the file. -/
def openHeader (f : MapFile V H) : Except Err (List H) :=
  cards.mapM fun k => match f.hdr k with
    | none => .error .keyError
    | some v => .ok v

/-! ## Areas -/

/-- depthmap.py:229-235: pixels of the map in the pixels of a region that are `k` orders larger. -/
def finePixels (r2n : Nat → Nat) (k : Nat) (hpix : List Nat) : List Nat :=
  hpix.flatMap fun h => (List.range (2 ^ (2 * k))).map fun i => (r2n h <<< (2 * k)) + i

/-- depthmap.py:58-64: only coverage pixels of the region are read; `d` is the difference of the orders of map and coverage. -/
def readPart (full : Nat → Option V) (d : Nat) (cov : List Nat) : Nat → Option V := fun p => if p / 4 ^ d ∈ cov then full p else none

/-- healsparse `valid_pixels` of a map of `n` pixels. -/
def validPixels (m : Nat → Option V) (n : Nat) : List Nat := (List.range n).filter fun p => (m p).isSome

variable {α : Type} [Field α] [LinearOrder α]

/-- depthmap.py:242-246: (depth, fraction) where the depth is positive; pixels without a value have a negative one. -/
def goodValues (m : Nat → Option (α × α)) (pix : List Nat) : List (α × α) := (pix.filterMap m).filter fun v => decide (0 < v.1)

/-- depthmap.py:196-254 `calc_areas`; `hpix` are the pixels of the region (empty: the whole map), `sort` is `np.argsort` applied to the values. -/
def calcAreas (sort : List (α × α) → List (α × α)) (r2n : Nat → Nat) (k n : Nat) (w area border pixsize : α) (hpix : List Nat) (m : Nat → Option (α × α)) (mags : List α) :
    Except Err (List α) :=
  if w < 0 then .ok (mags.map fun _ => area)
  else if hpix.length > 0 ∧ border > 0 then .error .runtimeError
  else
    let pix := if hpix.length > 0 then finePixels r2n k hpix else validPixels m n
    mags.mapM fun mag => match Redmapper.Mask.calcAreas pixsize (sort (goodValues m pix)) mag with
      | .error e => .error (.area e)
      | .ok a => .ok a

/-! ## Memory -/

/-- mempredict.py:83-85: 2, 4, ... up to the first that is not smaller than the pixels of the galaxies; `f` bounds the number of rounds. -/
def nsidesFrom (nside : Nat) : Nat → Nat → List Nat
  | 0, x => [x]
  | f + 1, x => if x < nside then x :: nsidesFrom nside f (x * 2) else [x]

/-- mempredict.py:83-85. -/
def nsides (nside : Nat) : List Nat := nsidesFrom nside nside 2

/-- mempredict.py:94-104: for pixels in which the tiles are, the number of different ones and the largest sum of memory. -/
def tally (locate : Nat → Nat) (factor : α) (tiles : List (Nat × α)) : Nat × α :=
  let pix := (tiles.map fun t => locate t.1).dedup
  (pix.length, pix.foldl (fun mx p => max mx (((tiles.filter fun t => locate t.1 = p).map Prod.snd).sum * factor)) 0)

/-- mempredict.py:83-104 with a function for the position of a tile in a map with some nside, which may raise. -/
def predictWith (locate : Nat → Except Err (Nat → Nat)) (factor : α) (nside : Nat) (tiles : List (Nat × α)) : Except Err (List (Nat × Nat × α)) :=
  (nsides nside).mapM fun ns => match locate ns with
    | .error e => .error e
    | .ok f => .ok (ns, tally f factor tiles)

/-- mempredict.py:94: `hpg.pixel_to_angle(nside, theta, phi, lonlat=False, nest=False)`: the third positional argument of this function (nside, pixel, nest, lonlat,
degrees) is `nest`, which is also given by name. -/
def locateCode (_nside : Nat) : Except Err (Nat → Nat) := .error .typeError

/-- mempredict.py:25-109: the prediction; `ngals` of each tile, `nbytes` of a galaxy. -/
def predict (factor : α) (nside : Nat) (nbytes : α) (tab : List (Nat × Nat)) : Except Err (List (Nat × Nat × α)) :=
  predictWith locateCode factor nside (tab.map fun t => (t.1, (t.2 : α) * nbytes / (1000 * 1000)))

end Redmapper.SkyMap
