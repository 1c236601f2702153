/-
Model of the centering algorithms (/repo/redmapper/centering.py).

Modelled: candidate selection and the choice of the brightest galaxy (CenteringBCG), candidate selection, the
probability renormalisation and the output arrays of CenteringWcenZred, and the draw of
CenteringRandomSatellite.  The filters that feed the probabilities (Gaussian, luminosity and connectivity
filters, background density; lines 161-268) are inputs here: one number `ucen`, `usat`, `bcounts` per candidate.
They and CenteringRandom are modelled in `Verif.Model.WcenLike`.
-/
import Verif.Model.Finders
import Mathlib.Algebra.Order.Floor.Defs

namespace Redmapper.Centering

open Redmapper.Finders (takeRows)

inductive Err
  | valueError
  | indexError
deriving DecidableEq, Repr

variable {α : Type} [Field α] [LinearOrder α]

/-- A neighbour of the cluster. -/
structure Nbr (α : Type) where
  r : α
  refmag : α
  pmem : α
  pfree : α
  zred : α
  zredE : α
  chisq : α
  zspec : α
  zspecE : α
deriving DecidableEq, Repr

/-- centering.py:87-91 (BCG) and 147-152: the spectroscopic redshifts are written over the redshifts.  The arrays
written are columns of `cluster.neighbors` itself, so this changes the cluster. `chi` tells whether the chi-square is
overwritten too (CenteringWcenZred). -/
def useZspec (on chi : Bool) (ns : List (Nbr α)) : List (Nbr α) :=
  if on then ns.map fun n => if 0 < n.zspec then
    { n with zred := n.zspec, zredE := n.zspecE, chisq := if chi then 1 else n.chisq } else n
  else ns

/-- `np.where(mask)`: positions of the rows satisfying a test. -/
def whereIdx {β : Type} (p : β → Bool) (l : List β) : List Nat :=
  (List.range l.length).filter fun i => match l[i]? with
    | some x => p x
    | none => false

/-- centering.py:93-95. -/
def bcgOk (rlam z : α) (n : Nbr α) : Bool :=
  decide (n.r < rlam) && (decide (8 / 10 < n.pmem) || decide (|n.zred - z| < 2 * n.zredE))

/-- `np.argmin`: first position of the smallest value, scanning from position `k` with best so far `(bk, bv)`. -/
def argminFrom : Nat → Nat → α → List α → Nat
  | _, bk, _, [] => bk
  | k, bk, bv, x :: xs => if x < bv then argminFrom (k + 1) k x xs else argminFrom (k + 1) bk bv xs

/-- `np.argmin` of a non-empty list (`ValueError` on an empty one). -/
def argmin : List α → Option Nat
  | [] => none
  | x :: xs => some (argminFrom 1 0 x xs)

/-- centering.py:68-114 `CenteringBCG.find_center`: `none` is `return False`; also returns the neighbours as they are
afterwards. -/
def bcg (useSpec : Bool) (rlam z : α) (ns : List (Nbr α)) : Option Nat × List (Nbr α) :=
  let ns' := useZspec useSpec false ns
  let use := whereIdx (bcgOk rlam z) ns'
  match argmin ((takeRows ns' use).map Nbr.refmag) with
  | none => (none, ns')
  | some k => (use[k]?, ns')

/-- centering.py:155-159, the candidate centers of CenteringWcenZred. -/
def wcenOk (rlam z pbcg chimax : α) (n : Nbr α) : Bool :=
  decide (n.r < rlam) && decide (pbcg ≤ n.pfree) && decide (n.chisq < chimax) &&
    (decide (0 < n.pmem) || decide (|z - n.zred| < 5 * n.zredE))

/-- A candidate center: its index among the neighbours, its radius and availability, and the values of the three
filters. -/
structure Cand (α : Type) where
  idx : Nat
  r : α
  pfree : α
  ucen : α
  usat : α
  bcounts : α
deriving DecidableEq, Repr

/-- centering.py:264-269 `Pcen_basic` with non-finite values replaced by 0.  A zero denominator gives NaN for a zero
numerator (→ 0), and infinity otherwise, which the clip turns into 0.99999 before the finiteness test. -/
def basic (lamEff : α) (c : Cand α) : α :=
  let den := c.ucen + (lamEff - 1) * c.usat + c.bcounts
  if den = 0 then (if 0 < c.pfree * c.ucen then 99999 / 100000 else 0)
  else min (c.pfree * (c.ucen / den)) (99999 / 100000)

/-- centering.py:303-307: `P_i * prod_j (1 - P_j)` with the own entry set to zero during the product. -/
def unnorm (ps : List α) (i : Nat) : α :=
  ps.getD i 0 * ((ps.set i 0).map fun p => 1 - p).prod

/-- centering.py:326-334 `Pfg_basic` and `Psat_basic` (0 when not finite). -/
def ratio0 (num den : α) : α := if den = 0 then 0 else num / den

/-- One output row: index of the neighbour, p_cen, q_cen, p_fg, p_sat, p_c. -/
structure OutRow (α : Type) where
  idx : Nat
  pcen : α
  qcen : α
  pfg : α
  psat : α
  pc : α
deriving DecidableEq, Repr

/-- Outcome of `find_center`: the filled part of the output arrays (the rest keeps its fill value), the number of good
centers, and the missed-center probability. -/
structure Out (α : Type) where
  rows : List (OutRow α)
  ngood : Nat
  qmiss : α
deriving DecidableEq, Repr

/-- centering.py:326-347 for one good candidate with its probabilities. -/
def outRow (lam : α) (c : Cand α) (pcen qcen pc : α) : OutRow α :=
  { idx := c.idx, pcen := pcen, qcen := qcen,
    pfg := (1 - pcen) * ratio0 c.bcounts ((lam - 1) * c.usat + c.bcounts),
    psat := (1 - pcen) * ratio0 ((lam - 1) * c.usat) ((lam - 1) * c.usat + c.bcounts),
    pc := pc }

/-- centering.py:264-351, the end of `CenteringWcenZred.find_center`.  No candidate at all: `argmin` of an empty array
raises.  `maxcen ≥ 1` is the size of the output arrays. -/
def wcen (argsort : List α → List Nat) (maxcen : Nat) (lam scaleval : α) (cands : List (Cand α)) :
    Except Err (Out α) :=
  let pb := fun c => basic (lam / scaleval) c
  let ok := cands.filter fun c => decide (0 < pb c)
  if ok.isEmpty then
    match argmin (cands.map Cand.r) with
    | none => .error .valueError
    | some k => match cands[k]? with
      | none => .error .indexError
      | some c => .ok { rows := [outRow lam c 0 0 (pb c)], ngood := 0, qmiss := 1 }
  else
    let srt := takeRows ok (argsort (ok.map pb)).reverse
    let good := if srt.length < maxcen then srt else srt.take maxcen
    let ps := good.map pb
    let un := (List.range ps.length).map fun i => unnorm ps i
    let qm := (ps.map fun p => 1 - p).prod
    let kp := 1 / un.sum
    let kq := 1 / (qm + un.sum)
    .ok { rows := (good.zip un).map fun q => outRow lam q.1 (kp * q.2) (kq * q.2) (pb q.1),
          ngood := good.length, qmiss := 0 }

/-- centering.py:142-351, the whole search: redshift substitution, candidate cuts, then `wcen` on the filter values of
the candidates (given as functions of the neighbour). -/
def findCenter (argsort : List α → List Nat) (useSpec : Bool) (rlam z pbcg chimax : α) (maxcen : Nat) (lam scaleval : α)
    (ucen usat bcounts : Nbr α → α) (ns : List (Nbr α)) : Except Err (Out α) :=
  let ns' := useZspec useSpec true ns
  let use := whereIdx (wcenOk rlam z pbcg chimax) ns'
  wcen argsort maxcen lam scaleval (use.filterMap fun i => ns'[i]?.map fun n =>
    { idx := i, r := n.r, pfree := n.pfree, ucen := ucen n, usat := usat n, bcounts := bcounts n })

/-- `np.cumsum` starting from `acc`. -/
def cumsum (acc : α) : List α → List α
  | [] => []
  | x :: xs => (acc + x) :: cumsum (acc + x) xs

/-- centering.py:426-452 `CenteringRandomSatellite.find_center`: `u` is the uniform draw in [0,1).  Returns the index of
the neighbour chosen (`IndexError` when no entry of the cumulative distribution reaches the draw). -/
def randomSat [FloorRing α] (argsort : List α → List Nat) (u : α) (pmem : List α) : Except Err Nat :=
  let st := (argsort pmem).reverse
  let sorted := takeRows pmem st
  let pdf := sorted.map fun x => x / sorted.sum
  let cdfi : List Int := (cumsum 0 pdf).map fun x => ⌊x * (st.length : α)⌋
  let rand : Int := ⌊u * (st.length : α)⌋
  match (List.range cdfi.length).find? fun i => decide (rand ≤ cdfi.getD i 0) with
  | none => .error .indexError
  | some i => match st[i]? with
    | none => .error .indexError
    | some k => .ok k

end Redmapper.Centering
