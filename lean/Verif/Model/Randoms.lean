/-
Model of /repo/redmapper/randoms.py and of /repo/redmapper/redmagic/redmagic_randoms.py.

All random numbers are inputs.  A round of the generating loop is the points made by healsparse.make_uniform_randoms with the values of the
volume-limit mask there and the draws made for them.  Exact arithmetic.
-/
import Verif.Model.Utilities

namespace Redmapper.Randoms

open Redmapper.Utilities

variable {α : Type} [Field α] [LinearOrder α] [IsStrictOrderedRing α]

inductive Err
  | valueError | runtimeError
deriving DecidableEq, Repr

/-- A random position with the values of `calc_zmax` there (volumelimit.py:239-272) and the uniform draw of randoms.py:102. -/
structure Pt (α : Type) where
  key : Nat
  zmax : α
  fracgood : α
  r : α
deriving DecidableEq, Repr

/-- A cluster (or galaxy) drawn with replacement, randoms.py:113-116. -/
structure Draw (α : Type) where
  z : α
  lam : α
  id : Int
deriving DecidableEq, Repr

/-- One pass of the loop: the points, and one draw for each accepted point. -/
structure Round (α : Type) where
  pts : List (Pt α)
  draws : List (Draw α)

/-- randoms.py:120-127 and redmagic_randoms.py:114-119: each draw waits for the first position where it fits. -/
def place : List (Pt α × α) → List (Draw α) → List (Pt α × Draw α)
  | [], _ => []
  | _ :: _, [] => []
  | (p, zm) :: ps, d :: ds => if d.z < zm then (p, d) :: place ps ds else place ps (d :: ds)

/-- randoms.py:103, redmagic_randoms.py:96. -/
def accepted (pts : List (Pt α)) : List (Pt α) := pts.filter fun p => decide (p.r < p.fracgood)

/-- randoms.py:102-130: `zmax[i]` is not restricted to the accepted points. -/
def batchRm (rd : Round α) : List (Pt α × Draw α) :=
  (place ((accepted rd.pts).zip (rd.pts.map Pt.zmax)) rd.draws).filter fun x => decide (0 < x.2.z)

/-- redmagic_randoms.py:96-121: here it is. -/
def batchRmg (rd : Round α) : List (Pt α × Draw α) :=
  (place ((accepted rd.pts).zip ((accepted rd.pts).map Pt.zmax)) rd.draws).filter fun x => decide (0 < x.2.z)

/-- A generated random. -/
structure Row (α : Type) where
  id : Nat
  pt : Pt α
  draw : Draw α
deriving DecidableEq, Repr

/-- State of the loop of randoms.py. -/
structure St (α : Type) where
  left : Nat
  ctr : Nat
  out : List (Row α)

/-- randoms.py:95-147, one pass. -/
def step (st : St α) (rd : Round α) : St α :=
  if 0 < st.left then
    let good := batchRm rd
    let n := if good.length > st.left then st.left else good.length
    let rows := ((good.take n).zip (List.range' (st.ctr + 1) n)).map fun x => (⟨x.2, x.1.1, x.1.2⟩ : Row α)
    ⟨st.left - n, st.ctr + n, st.out ++ rows⟩
  else st

/-- randoms.py:58-149: the loop over the rounds; it has returned when nothing is left. -/
def generate (n : Nat) (rounds : List (Round α)) : St α := rounds.foldl step ⟨n, 0, []⟩

/-- State of the loop of redmagic_randoms.py: the array is allocated first (`none` is a row of zeros). -/
structure StG (α : Type) where
  left : Nat
  ctr : Nat
  arr : List (Option (Pt α × Draw α))

/-- `arr[ctr: ctr + n] = rows`. -/
def writeAt {β : Type} (arr : List β) (ctr : Nat) (rows : List β) : List β := arr.take ctr ++ rows ++ arr.drop (ctr + rows.length)

/-- redmagic_randoms.py:86-135, one pass. -/
def stepG (st : StG α) (rd : Round α) : StG α :=
  if 0 < st.left then
    let good := batchRmg rd
    let n := if good.length > st.left then st.left else good.length
    ⟨st.left - n, st.ctr + n, writeAt st.arr st.ctr ((good.take n).map some)⟩
  else st

/-- redmagic_randoms.py:73-135. -/
def generateG (n : Nat) (rounds : List (Round α)) : StG α := rounds.foldl stepG ⟨n, 0, List.replicate n none⟩

/-! ### RandomWeigher -/

structure Rand (α : Type) where
  key : Nat
  idInput : Int
  z : α
  lambdaIn : α
  scaleval : α
  maskfrac : α
deriving DecidableEq, Repr

structure Clus (α : Type) where
  id : Int
  lam : α
  scaleval : α
deriving DecidableEq, Repr

structure WCfg (α : Type) where
  selectScaleval : Bool
  minlambda : α
  zlo : α
  zhi : α
  llo : α
  lhi : α
  maxMaskfrac : α

/-- randoms.py:307-314. -/
def clusOk (cfg : WCfg α) (c : Clus α) : Bool :=
  decide (cfg.minlambda < (if cfg.selectScaleval then c.lam / c.scaleval else c.lam)) && decide (cfg.llo < c.lam) && decide (c.lam ≤ cfg.lhi)

/-- randoms.py:340-349. -/
def randOk (cfg : WCfg α) (r : Rand α) : Bool :=
  decide (cfg.minlambda < (if cfg.selectScaleval then r.lambdaIn / r.scaleval else r.lambdaIn)) && decide (r.maskfrac < cfg.maxMaskfrac) &&
    decide (cfg.llo < r.lambdaIn) && decide (r.lambdaIn ≤ cfg.lhi)

/-- randoms.py:290-320: the randoms in the redshift range whose cluster passes.  `esutil.numpy_util.match` needs unique cluster ids and returns
pairs in the order of the randoms. -/
def selectRands (cfg : WCfg α) (clus : List (Clus α)) (rands : List (Rand α)) : Except Err (List (Rand α)) :=
  let zuse := rands.filter fun r => decide (cfg.zlo < r.z) && decide (r.z < cfg.zhi)
  if zuse.length = 0 then .error .runtimeError
  else if ¬ (clus.map Clus.id).Nodup then .error .valueError
  else if ¬ ∀ r ∈ zuse, r.idInput ∈ clus.map Clus.id then .error .runtimeError
  else
    let alluse := zuse.filter fun r => match clus.find? fun c => c.id == r.idInput with
      | some c => clusOk cfg c
      | none => false
    if alluse.length = 0 then .error .runtimeError else .ok alluse

/-- Assignment of one value at several indices. -/
def setAll (w : List α) (idx : List Nat) (v : α) : List α := idx.foldl (fun w i => w.set i v) w

/-- Whether the random at an index passes (randoms.py:340-349 index the columns by `alluse[i1a]`). -/
def okAt (cfg : WCfg α) (use : List (Rand α)) (i : Nat) : Bool := match use[i]? with
  | some r => randOk cfg r
  | none => false

/-- randoms.py:337-352, one bin of the histogram with the reverse indices `i1a`. -/
def weighBin (cfg : WCfg α) (use : List (Rand α)) (w : List α) (i1a : List Nat) : List α :=
  let gd := i1a.filter (okAt cfg use)
  if 0 < gd.length then setAll w gd ((i1a.length : α) / (gd.length : α)) else w

/-- randoms.py:334-352: `rev` gives the reverse indices of esutil.stat.histogram for an id, `bins` the ids between the smallest and the largest. -/
def weights (cfg : WCfg α) (rev : List Int → Int → List Nat) (bins : List Int) (use : List (Rand α)) : List α :=
  (bins.filter fun v => decide (0 < (rev (use.map Rand.idInput) v).length)).foldl
    (fun w v => weighBin cfg use w (rev (use.map Rand.idInput) v)) (List.replicate use.length 0)

/-- randoms.py:354-360: the rows written. -/
def weightRandoms (cfg : WCfg α) (rev : List Int → Int → List Nat) (bins : List Int) (clus : List (Clus α)) (rands : List (Rand α)) :
    Except Err (List (Rand α × α)) :=
  match selectRands cfg clus rands with
  | .error e => .error e
  | .ok use => .ok ((use.zip (weights cfg rev bins use)).filter fun x => decide (0 < x.2))

/-- randoms.py:381-395: fraction of good points among those below a redshift (`nan_to_num` of 0/0 is 0); `okA` is the selection used there. -/
def goodFraction (okA : Rand α → Bool) (use : List (Rand α)) (zb : α) : α :=
  let ind1 := (use.filter fun r => decide (r.z < zb)).length
  let ind2 := ((use.filter okA).filter fun r => decide (r.z < zb)).length
  if ind1 = 0 then 0 else (ind2 : α) / (ind1 : α)

/-- randoms.py:404-405: the area is multiplied by the clipped correction. -/
def effectiveArea (area spl : α) : α := min (max spl 0) 1 * area

end Redmapper.Randoms
