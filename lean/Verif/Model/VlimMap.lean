/-
Model of the parts of /repo/redmapper/volumelimit.py that Mask and Maps leave out: the redshifts of a mask, limits in other bands and the map that is
written.  Values are from an ordered field; logarithms and the change of significance of a limit are done before (Mask.fluxLimit).
-/
import Mathlib.Algebra.Order.Field.Basic
import Mathlib.Algebra.Order.Floor.Ring
import Verif.Model.Mask

namespace Redmapper.VlimMap

open Redmapper.Utilities (ssRight)
open Redmapper.Mask (zmaxOf vlimPixel)

variable {α : Type} [Field α] [LinearOrder α] [IsStrictOrderedRing α] [FloorRing α]

/-- volumelimit.py:108-111: the redshifts of a mask for a redshift range. -/
def zbinsOf (z0 z1 : α) : List α :=
  (List.range ⌈(z1 - z0) / (1 / 1000)⌉.toNat).map fun (i : Nat) => (i : α) * (1 / 1000) + z0 + 1 / 1000

/-- The tables of the red sequence: redshifts, then colors, slopes and pivots by row. -/
structure Seq (α : Type) where
  z : List α
  c : Nat → Nat → α
  slope : Nat → Nat → α
  pivot : Nat → α

/-- volumelimit.py:168: the row that is used at a redshift. -/
def rowAt (S : Seq α) (z : α) : Nat := ssRight S.z z

/-- volumelimit.py:179, 183: color `j` of a galaxy of the limiting magnitude, in a row. -/
def color (S : Seq α) (k j : Nat) (lim : α) : α := S.c k j + S.slope k j * (lim - S.pivot k)

/-- volumelimit.py:170-183: limiting magnitude in band `b` for the limit in the reference band `ref`. -/
def bandLimit (S : Seq α) (ref b k : Nat) (lim : α) : α :=
  if b = ref then lim
  else if b < ref then ((List.range (ref - b)).map fun i => ref - 1 - i).foldl (fun t j => t + color S k j lim) lim
  else (List.range' ref (b - ref)).foldl (fun t j => t - color S k j lim) lim

/-- volumelimit.py:168-183 for all redshifts. -/
def limits (S : Seq α) (ref b : Nat) (zbins lims : List α) : List α :=
  List.zipWith (fun z lim => bandLimit S ref b (rowAt S z) lim) zbins lims

/-- A further depth map: its band and the limiting magnitudes of its pixels at the wanted significance. -/
structure Further (α : Type) where
  band : Nat
  lim : List (Nat × α)

/-- volumelimit.py:157, 165-166: pixels that are not in the map have zero. -/
def limOf (m : Further α) (p : Nat) : α := ((m.lim.find? fun q => q.1 == p).map Prod.snd).getD 0

/-- volumelimit.py:126-207: the pixels of the mask, (pixel, coverage, largest redshift); `depth` are the pixels of the primary map with coverage and
limit.  The loop over the maps is done for one pixel at a time. -/
def build (zbins lims : List α) (S : Seq α) (ref : Nat) (depth : List (Nat × α × α)) (more : List (Further α)) : List (Nat × α × α) :=
  depth.filterMap fun d => (vlimPixel zbins (lims, d.2.2) (more.map fun m => (limits S ref m.band zbins lims, limOf m d.1))).map fun z =>
    (d.1, d.2.1, z)

end Redmapper.VlimMap
