/-
Model of /repo/redmapper/mask.py, depthmap.py, volumelimit.py and of the error models and magnitude cutoff in utilities.py.

The healsparse maps are inputs: the value of the map at each position.
-/
import Verif.Model.Utilities

namespace Redmapper.Mask

open Redmapper.Utilities

variable {α : Type} [Field α] [LinearOrder α] [IsStrictOrderedRing α]

inductive Err
  | valueError | indexError | exception
deriving DecidableEq, Repr

/-! ### DepthMap.calc_maskdepth -/

/-- The depth columns of a mask galaxy. -/
structure Depth (α : Type) where
  limmag : α
  exptime : α
  m50 : α
deriving DecidableEq, Repr

/-- depthmap.py:163-170: the value of the map at the position, or unseen beyond the poles (where the other columns keep what they were). -/
def measured (unseen : α) (inRange : Bool) (value before : Depth α) : Depth α :=
  if inRange then value else { before with limmag := unseen }

/-- `np.mean`. -/
def mean (l : List α) : α := l.sum / (l.length : α)

/-- `np.median`. -/
def median (l : List α) : α :=
  let s := l.mergeSort (fun a b => decide (a ≤ b))
  (s.getD ((s.length - 1) / 2) 0 + s.getD (s.length / 2) 0) / 2

/-- depthmap.py:172-194: bad values are replaced by the median, the mean or a constant. -/
def fillDepth (l : List (Depth α)) : List (Depth α) :=
  let ok := l.filter fun d => !decide (d.limmag < 0)
  let nbad := (l.filter fun d => decide (d.limmag < 0)).length
  if 0 < nbad then
    if 3 ≤ ok.length then
      l.map fun d => if d.limmag < 0 then ⟨median (ok.map (·.limmag)), median (ok.map (·.exptime)), median (ok.map (·.m50))⟩ else d
    else if 0 < ok.length then
      l.map fun d => if d.limmag < 0 then ⟨mean (ok.map (·.limmag)), mean (ok.map (·.exptime)), mean (ok.map (·.m50))⟩ else d
    else l.map fun _ => ⟨1, 1000, 0⟩
  else l

/-- depthmap.py:137-194 `calc_maskdepth` on (inside the poles, value of the map, columns before). -/
def calcMaskdepth (unseen : α) (l : List (Bool × Depth α × Depth α)) : List (Depth α) :=
  fillDepth (l.map fun x => measured unseen x.1 x.2.1 x.2.2)

/-! ### Areas -/

/-- numpy indexing of an array. -/
def pyGet (l : List α) (i : Int) : Except Err α :=
  if 0 ≤ i ∧ i < l.length then .ok (l.getD i.toNat 0)
  else if i < 0 ∧ -(l.length : Int) ≤ i then .ok (l.getD (i + l.length).toNat 0)
  else .error .indexError

/-- `np.cumsum`. -/
def cumsum (l : List α) : List α := (List.range l.length).map fun i => (l.take (i + 1)).sum

/-- depthmap.py:235-254 for one magnitude; `px` are the (depth, fracgood) of the pixels with positive depth in ascending order of depth. -/
def calcAreas (pixsize : α) (px : List (α × α)) (mag : α) : Except Err α :=
  let depths := px.map Prod.fst
  let frac := px.map Prod.snd
  let ind : Int := min (max ((ssLeft depths mag : Int) - 1) 1) ((depths.length : Int) - 1)
  if ind < 0 then .ok (frac.sum * pixsize)
  else pyGet ((cumsum frac).map fun c => pixsize * c) ((frac.length : Int) - ind)

/-- volumelimit.py:292-307 for one redshift; `px` are the (zmax, fracgood) in ascending order of zmax. -/
def vlimArea (pixsize : α) (px : List (α × α)) (z : α) : Except Err α :=
  let zmax := px.map Prod.fst
  let frac := px.map Prod.snd
  let ind := ssRight zmax z
  if ind ≤ 0 then .ok (frac.sum * pixsize)
  else pyGet ((cumsum frac).map fun c => pixsize * c) ((frac.length : Int) - (ind : Int))

/-! ### VolumeLimitMask._build_mask -/

/-- Smallest and largest entry. -/
def lmin (l : List α) : α := l.foldl min (l.headD 0)
def lmax (l : List α) : α := l.foldl max (l.headD 0)

/-- volumelimit.py:138-145 and 189-198: maximum redshift at a depth.  The index is clipped as for the further maps; for
increasing limiting magnitudes the clip has no effect, so the primary map is the same. -/
def zmaxOf (zbins limmags : List α) (depth : α) : α :=
  if lmin limmags < depth ∧ depth < lmax limmags then zbins.getD (min (ssRight limmags depth) (zbins.length - 1)) 0
  else if lmax limmags ≤ depth then lmax zbins
  else lmin zbins

/-- volumelimit.py:138-204 for one pixel: `first` is the limiting magnitudes and depth of the primary map, `more` those of the others; a pixel
whose redshift is that of the first bin is left out. -/
def vlimPixel (zbins : List α) (first : List α × α) (more : List (List α × α)) : Option α :=
  let z0 := zmaxOf zbins first.1 first.2
  let z := more.foldl (fun z m => if zmaxOf zbins m.1 m.2 < z then zmaxOf zbins m.1 m.2 else z) z0
  if zbins.getD 0 0 < z then some z else none

/-- volumelimit.py:160-165: the flux limit at `n2 = nsig^2` from the limit `flim` at significance `nsig0`; `sqrt` is a parameter. -/
def fluxLimit (sqrt : α → α) (flim exptime nsig0 n2 : α) : α :=
  let fn := max (flim * flim * exptime / (nsig0 * nsig0) - flim) (1 / 1000)
  (n2 + sqrt (n2 * n2 + 4 * exptime * n2 * fn)) / (2 * exptime)

/-! ### Mask -/

/-- mask.py:396-404 `HPMask.compute_radmask`: a position is (declination, coverage of the map), with the random draws. -/
def radmask (pos : List (α × α)) (draws : List α) : List Bool :=
  (pos.zip draws).map fun p =>
    let fracgood := if |p.1.1| < 90 then p.1.2 else 0
    decide (p.2 < fracgood)

/-- mask.py:393-404 with the check of the lengths. -/
def computeRadmask (ras decs : List α) (cover : α → α → α) (draws : List α) : Except Err (List Bool) :=
  if ras.length ≠ decs.length then .error .valueError
  else .ok (radmask ((ras.zip decs).map fun p => (p.2, cover p.1 p.2)) draws)

/-- mask.py:112-113 `select_maskgals_sample`. -/
def maskSample {β : Type} (all : List β) (ngals index : Nat) : List β := (all.drop (index * ngals)).take (ngals)

/-- utilities.py:437-466 `calc_theta_i` for one galaxy; `erf d s` is the error function of d / (sqrt 2 s). -/
def thetaI (erf : α → α → α) (mag err maxmag limmag : α) : α :=
  let lim := min (max maxmag 0) limmag
  let d := lim - mag
  let t := if d < 5 * err then 1 / 2 + 1 / 2 * erf d err else 1
  if limmag < mag then 0 else t

/-- A mask galaxy as `calc_maskcorr` sees it: magnitude offset, whether inside the mask, m50, and theta_r in the radial bins. -/
structure MaskGal (α : Type) where
  m : α
  mark : Bool
  m50 : α
  thetaR : List α

/-- mask.py:302-325: the masked fraction in the radial bins, before the polynomial fit.  `limmag0` and `w0` are the first entries of these
columns, `noise` gives magnitude and error of `apply_errormodels`, `nin` is the first row of the normalisation. -/
def maskFrac (erf : α → α → α) (noise : α → α × α) (limmag0 w0 mstar maxmag limmag : α) (nin : List α) (gals : List (MaskGal α)) :
    Except Err (List α) :=
  if 0 < limmag0 then
    let m50max := (gals.map (·.m50)).foldl max ((gals.map (·.m50)).headD 0)
    if 0 < w0 then .error .exception
    else
      let theta := fun (g : MaskGal α) =>
        let me := noise (g.m + mstar)
        thetaI erf me.1 me.2 maxmag (if w0 < 0 ∨ m50max = 0 then limmag else g.m50)
      let pdet := fun g => if g.mark then theta g else 0
      .ok ((List.range nin.length).map fun i => 1 - (gals.map fun g => pdet g * g.thetaR.getD i 0).sum / nin.getD i 0)
  else .error .valueError

/-! ### apply_errormodels -/

/-- utilities.py:503-505: sky level from the limiting flux. -/
def skyFlux (flim exptime nsig : α) : α := max (flim * flim * exptime / (nsig * nsig) - flim) (1 / 1000)

/-- utilities.py:503-549 with the default options: `flux0` is the flux per second of the galaxy, `draw` the standard normal draw, `sqrt` and
`toMag` (zero point minus 2.5 log10) parameters, `k` is 2.5 / ln 10.  The magnitude is finite exactly for positive flux. -/
def errorModel (sqrt toMag : α → α) (k flim exptime nsig flux0 draw : α) : α × α :=
  let tflux := exptime * flux0
  let noise := sqrt (skyFlux flim exptime nsig * exptime + tflux)
  let flux := tflux + noise * draw
  if 0 < flux / exptime then (toMag (flux / exptime), k * (noise / flux)) else (99, 99)

end Redmapper.Mask
