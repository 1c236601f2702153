/-
Model of the preparation of training samples: members for the next iteration, spectroscopic seeds, cut seeds and
the training members of the color run.

  /repo/redmapper/calibration/prepmembers.py      PrepMembers.run
  /repo/redmapper/calibration/selectspecseeds.py  SelectSpecSeeds.run
  /repo/redmapper/calibration/calibrate.py        the cut seeds of the first iteration (130-142)
  /repo/redmapper/run_colormem.py                 RunColormem._postprocess, output_training

Simplifications: columns that are only copied are an opaque payload; numbers are elements of a linearly ordered
field (the output columns are single precision in the code); random draws are a parameter; matching positions
(HTM matcher) is a parameter known by its contract, `esutil.numpy_util.match` is `Consolidate.esMatch`.
-/
import Verif.Model.Consolidate

namespace Redmapper.SpecPrep

open Redmapper.Consolidate (esMatch)

inductive Err
  | runtimeError
  | valueError
deriving DecidableEq, Repr

variable {α μ : Type} [Field α] [LinearOrder α]

/-- A cluster of the catalog, as far as it is used here. -/
structure Clu (α : Type) where
  id : Int
  Lambda : α
  scaleval : α
  maskfrac : α
  zInit : α
  cgSpecZ : α
  zLambda : α
  zLambdaE : α
deriving DecidableEq, Repr

/-- A member; `pay`: position, magnitudes, extinction. -/
structure Mem (α μ : Type) where
  id : Int
  p : α
  thetaI : α
  thetaR : α
  pcol : α
  r : α
  z : α
  pay : μ
deriving DecidableEq, Repr

/-- A row of the prepared members. -/
structure NewMem (α μ : Type) where
  z : α
  zLambda : α
  p : α
  pcol : α
  central : Bool
  pay : μ
deriving DecidableEq, Repr

/-- `calib_minlambda`, `calib_zlambda_clean_nsig`, `calib_pcut`, `calib_smooth`. -/
structure PrepCfg (α : Type) where
  minlambda : α
  nsig : α
  pcut : α
  smooth : α
deriving Repr

/-- prepmembers.py:50-55, the redshift the mode selects. -/
def catZ (mode : String) : Option (Clu α → α) :=
  if mode = "z_init" then some Clu.zInit
  else if mode = "cg" then some Clu.cgSpecZ
  else none

/-- prepmembers.py:60-62. -/
def keepClu (c : PrepCfg α) (zf : Clu α → α) (x : Clu α) : Bool :=
  decide (c.minlambda < x.Lambda / x.scaleval) && decide (0 < x.scaleval) &&
    decide (|zf x - x.zLambda| < c.nsig * x.zLambdaE)

/-- prepmembers.py:67-68. -/
def keepMem (c : PrepCfg α) (m : Mem α μ) : Bool :=
  decide (c.pcut < m.p * m.thetaI * m.thetaR) || decide (c.pcut < m.pcol)

/-- prepmembers.py:88-103, row `k` of the output. -/
def newRow (c : PrepCfg α) (noise : Nat → α) (zf : Clu α → α) (k : Nat) (x : Clu α) (m : Mem α μ) : NewMem α μ :=
  { z := if 0 < c.smooth then zf x + c.smooth * noise k else zf x
    zLambda := x.zLambda
    p := m.p
    pcol := m.pcol
    central := decide (m.r < 1 / 10000)
    pay := m.pay }

/-- Rows of two tables at a pair of indices. -/
def pairRow {ξ η : Type} (xs : List ξ) (ys : List η) (p : Nat × Nat) : Option (ξ × η) :=
  match xs[p.1]?, ys[p.2]? with
  | some x, some y => some (x, y)
  | _, _ => none

/-- prepmembers.py:31-107 `run`. -/
def prepMembers (c : PrepCfg α) (noise : Nat → α) (mode : String) (cat : List (Clu α)) (mem : List (Mem α μ)) :
    Except Err (List (NewMem α μ)) :=
  match catZ mode with
  | none => .error .runtimeError
  | some zf =>
    let use := cat.filter (keepClu c zf)
    let muse := mem.filter (keepMem c)
    match esMatch (use.map Clu.id) (muse.map Mem.id) with
    | .error _ => .error .valueError
    | .ok ps => .ok ((ps.filterMap (pairRow use muse)).mapIdx fun k xm => newRow c noise zf k xm.1 xm.2)

/-! ## Spectroscopic seeds -/

/-- A spectrum. -/
structure Spec (α π : Type) where
  z : α
  zErr : α
  pos : π
deriving DecidableEq, Repr

/-- A galaxy; `zred`, `zredE`, `chisq` are only meaningful when there are zreds. -/
structure Gal (α π μ : Type) where
  pos : π
  refmag : α
  zred : α
  zredE : α
  chisq : α
  pay : μ
deriving DecidableEq, Repr

/-- A seed. -/
structure Seed (α π μ : Type) where
  pos : π
  refmag : α
  zred : α
  zredE : α
  chisq : α
  pay : μ
  zspec : α
deriving DecidableEq, Repr

variable {π : Type}

/-- configuration.py:832-837 `zrange_cushioned`. -/
def cushioned (zrange : α × α) (cushion : α) : α × α :=
  (max (zrange.1 - cushion) (1 / 20), zrange.2 + cushion)

/-- selectspecseeds.py:75-77. -/
def goodSpec (zr : α × α) (maxErr : α) (s : Spec α π) : Bool :=
  decide (zr.1 ≤ s.z) && decide (s.z ≤ zr.2) && decide (s.zErr < maxErr)

/-- selectspecseeds.py:92-116. -/
def mkSeed (hasZreds : Bool) (g : Gal α π μ) (s : Spec α π) : Seed α π μ :=
  { pos := g.pos, refmag := g.refmag
    zred := if hasZreds then g.zred else -1
    zredE := if hasZreds then g.zredE else -1
    chisq := if hasZreds then g.chisq else -1
    pay := g.pay, zspec := s.z }

/-- selectspecseeds.py:34-116 `run`: the spectra are cut, matched to the galaxies (`matcher`: positions of the
spectra and of the galaxies to pairs of indices), and the matched galaxies cut. -/
def seeds (matcher : List π → List π → List (Nat × Nat)) (hasZreds : Bool) (zrange : α × α) (cushion maxErr : α)
    (gals : List (Gal α π μ)) (spec : List (Spec α π)) : List (Seed α π μ) :=
  let sp := spec.filter (goodSpec (cushioned zrange cushion) maxErr)
  let pairs := matcher (sp.map Spec.pos) (gals.map Gal.pos)
  let rows := pairs.filterMap (pairRow sp gals)
  (rows.filter fun r => if hasZreds then decide (0 < r.2.zred) else decide (0 < r.2.refmag)).map fun r =>
    mkSeed hasZreds r.2 r.1

/-- calibrate.py:137-140, the seeds on which a rich cluster was found. -/
def cutSeeds {σ : Type} (matcher : List π → List π → List (Nat × Nat)) (pos : σ → π) (minlambda : α)
    (cat : List (α × π)) (seedRows : List σ) : List σ :=
  let use := cat.filter fun c => decide (minlambda < c.1)
  (matcher (use.map Prod.snd) (seedRows.map pos)).filterMap fun p => seedRows[p.2]?

/-! ## Training members of the color run -/

/-- run_colormem.py:162. -/
def keepColor (minlambda maxMaskfrac : α) (x : Clu α) : Bool :=
  decide (minlambda ≤ x.Lambda / x.scaleval) && decide (0 < x.scaleval) && decide (x.maskfrac < maxMaskfrac)

/-- run_colormem.py:154-188 `_postprocess` and `output_training`: the clusters kept and the members written. -/
def colorTraining (minlambda maxMaskfrac smooth pcut : α) (noise : Nat → α) (cat : List (Clu α))
    (mem : List (Mem α μ)) : Except Err (List (Clu α) × List (Mem α μ)) :=
  let use := cat.filter (keepColor minlambda maxMaskfrac)
  match esMatch (use.map Clu.id) (mem.map Mem.id) with
  | .error _ => .error .valueError
  | .ok ps =>
    let kept := ps.filterMap fun p => mem[p.2]?
    let smoothed := if 0 < smooth then kept.mapIdx fun k m => { m with z := m.z + smooth * noise k } else kept
    .ok (use, smoothed.filter fun m => decide (pcut < m.pcol))

end Redmapper.SpecPrep
