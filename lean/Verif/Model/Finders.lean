/-
Model of the cluster finders built on the shared loop: which seeds they select, in which order, and
the control flow of their per-cluster step.

  /repo/redmapper/run_percolation.py   RunPercolation._more_setup, _process_cluster
  /repo/redmapper/run_likelihoods.py   RunLikelihoods._more_setup, _process_cluster, _postprocess
  /repo/redmapper/run_firstpass.py     RunFirstPass._process_cluster
  /repo/redmapper/runcat.py            RunCatalog._process_cluster
  /repo/redmapper/run_zscan.py         RunZScan._process_cluster (scan part)
  /repo/redmapper/run_colormem.py      RunColormem._more_setup, _process_cluster, _doublerun_sort
  /repo/redmapper/calibration/selectspecred.py  mode selection

Simplifications: exact arithmetic; the richness, redshift, centering and mask computations are
parameters acting on an opaque remainder `ρ` of the cluster (neighbours, mask, centre columns);
columns that play no part in the control flow are inside `ρ`; non-finite values are `none` where the
code tests for them.
-/
import Verif.Model.Runner
import Mathlib.Algebra.Order.Group.Unbundled.Abs
import Mathlib.Algebra.Order.Field.Basic

namespace Redmapper.Finders

open Redmapper.Runner (Err genIds)

variable {α ρ : Type} [Field α] [LinearOrder α]

/-! ## Selection and ranking -/

/-- The seed columns read by the set-up code; `lnlike = none` is a non-finite value. -/
structure Seed (α : Type) where
  id : Int
  z : α
  zred : α
  lnlike : Option α
  Lambda : α
  refmag : α
  chisq : α
  tag : Nat
deriving DecidableEq, Repr

/-- run_percolation.py:142-146 and run_likelihoods.py:116-120: the redshift range, widened for
`keepz` but never below 0.05. -/
def useRange (keepz : Bool) (cushion lo hi : α) : α × α :=
  if keepz then (if lo - cushion > 1 / 20 then lo - cushion else 1 / 20, hi + cushion)
  else (lo, hi)

/-- run_percolation.py:148-164: the two cuts. -/
def percSelect (zr : α × α) (minlam : α) (mlim : α → α) (cat : List (Seed α)) : List (Seed α) :=
  (cat.filter fun s => decide (zr.1 < s.z) && decide (s.z < zr.2) && s.lnlike.isSome &&
    decide (minlam < s.Lambda)).filter fun s => decide (s.refmag < mlim s.z)

/-- Fancy indexing of a table by a list of row numbers. -/
def takeRows {β : Type} (l : List β) (idx : List Nat) : List β := idx.filterMap fun i => l[i]?

/-- Writing a column of ids into a table. -/
def setIds (l : List (Seed α)) (ids : List Int) : List (Seed α) :=
  List.zipWith (fun s i => { s with id := i }) l ids

/-- run_percolation.py:106-193.  `none` is the early `return False`.  `argsortI`/`argsortL` are
`np.argsort` on ids and likelihoods (any algorithm; ties in any order); `inMask` is
`mask.compute_radmask`. -/
def percSetup (argsortI : List Int → List Nat) (argsortL : List α → List Nat)
    (keepz keepid cleaninput : Bool) (cushion lo hi minlam : α) (mlim : α → α)
    (inMask : Seed α → Bool) (cat : List (Seed α)) : Except Err (Option (List (Seed α))) :=
  let sel := percSelect (useRange keepz cushion lo hi) minlam mlim cat
  if sel.isEmpty then .ok none
  else
    let ord := if keepid then takeRows sel (argsortI (sel.map Seed.id))
      else (takeRows sel ((argsortL (sel.map fun s => s.lnlike.getD 0)).reverse)).map
        fun s => { s with id := 0 }
    let kept := if cleaninput then ord.filter inMask else ord
    if kept.isEmpty then .ok none
    else match genIds (kept.map Seed.id) with
      | .error e => .error e
      | .ok ids => .ok (some (setIds kept ids))

/-- run_likelihoods.py:122-145, selection (order of the input is kept). -/
def likeSelect (zr : α × α) (mlim : α → α) (cat : List (Seed α)) : List (Seed α) :=
  (cat.filter fun s => decide (zr.1 < s.z) && decide (s.z < zr.2) && decide (0 < s.Lambda)).filter
    fun s => decide (s.refmag < mlim s.z)

/-- run_likelihoods.py:113-156: the clusters that are processed; `none` is the early `return False`. -/
def likeSetup (keepz cleaninput : Bool) (cushion lo hi : α) (mlim : α → α) (inMask : Seed α → Bool) (cat : List (Seed α)) : Option (List (Seed α)) :=
  let sel := likeSelect (useRange keepz cushion lo hi) mlim cat
  if sel.isEmpty then none
  else
    let kept := if cleaninput then sel.filter inMask else sel
    if kept.isEmpty then none else some kept

/-! ## Per-cluster steps -/

/-- A cluster as the finders see it. -/
structure PS (α ρ : Type) where
  redshift : α
  Lambda : α
  scaleval : α
  zLambda : α
  zLambdaE : α
  rest : ρ

/-- cluster_runner.py:303-311. -/
def reset (c : PS α ρ) : PS α ρ :=
  { c with Lambda := -1, scaleval := -1, zLambda := -1, zLambdaE := -1 }

/-- The computations used by `RunPercolation._process_cluster`. -/
structure PEnv (α ρ : Type) where
  keepz : Bool
  minlambda : α
  pbcgCut : α
  maxiter : Nat
  /-- free fraction of the nearest neighbour (run_percolation.py:241-245) -/
  pfreeNear : PS α ρ → α
  /-- run_percolation.py:254 number of neighbours within the centering radius -/
  nCenter : PS α ρ → Nat
  /-- run_percolation.py:260 `calc_richness(index=lc)`: new richness, scaleval, rest -/
  richness0 : PS α ρ → α × α × ρ
  /-- run_percolation.py:262-263 -/
  nIncut : PS α ρ → Nat
  /-- run_percolation.py:274 -/
  zlam0 : PS α ρ → α
  /-- run_percolation.py:286-325: find_center and the copies of its results; `none` = no centre -/
  center : PS α ρ → Option ρ
  /-- run_percolation.py:336-356: mask update and number of neighbours for iteration `i` -/
  maskUpd : PS α ρ → ρ
  nLc : Nat → PS α ρ → Nat
  /-- run_percolation.py:358 -/
  richness : PS α ρ → α × α × ρ
  /-- free fraction of the chosen central galaxy (run_percolation.py:361) -/
  pfreeCen : PS α ρ → α
  /-- run_percolation.py:368-371 -/
  zlam : PS α ρ → α × α
  /-- run_percolation.py:394-397 -/
  nW : PS α ρ → Nat
  /-- run_percolation.py:403-436, connectivity and alternative centres -/
  finish : PS α ρ → ρ

/-- run_percolation.py:358: the richness calculation stores its results in the cluster. -/
def setRich (c : PS α ρ) (v : α × α × ρ) : PS α ρ :=
  { c with Lambda := v.1, scaleval := v.2.1, rest := v.2.2 }

/-- run_percolation.py:327-384, one trip through the loop body for iteration `i`, entered with
`bad = False`: returns the new `bad` flag and the cluster.  `redshift < 0` on entry is reported through
`bad` as well (the code resets and returns at once, 328-332). -/
def percIter (E : PEnv α ρ) (i : Nat) (c : PS α ρ) : Bool × PS α ρ :=
  if c.redshift < 0 then (true, c)
  else
    let c1 := if i = 0 then { c with rest := E.maskUpd c } else c
    if E.nLc i c1 < 2 then (true, c1)
    else
      let c2 := setRich c1 (E.richness c1)
      if c2.Lambda / c2.scaleval < E.minlambda ∨ E.pfreeCen c2 < E.pbcgCut then (true, c2)
      else
        let c3 :=
          if i = 0 then
            let zz := E.zlam c2
            let c' := { c2 with zLambda := zz.1, zLambdaE := zz.2 }
            if E.keepz = false ∧ 0 < zz.1 then { c' with redshift := zz.1 } else c'
          else c2
        if c3.zLambda < 0 then (true, c3) else (false, c3)

/-- run_percolation.py:327-389: `n` remaining iterations starting at iteration `i`.  Once `bad` is set
the loop (or the check after it) resets the cluster and returns `True`. -/
def percLoop (E : PEnv α ρ) : Nat → Nat → PS α ρ → Bool × PS α ρ
  | 0, _, c => (false, c)
  | n + 1, i, c =>
    let r := percIter E i c
    if r.1 then (true, reset r.2) else percLoop E n (i + 1) r.2

/-- run_percolation.py:225-439 `_process_cluster`: the returned flag and the cluster. -/
def percProcess (E : PEnv α ρ) (c : PS α ρ) : Bool × PS α ρ :=
  if E.pfreeNear c < E.pbcgCut then (true, reset c)
  else if E.nCenter c < 2 then (true, reset c)
  else
    let c1 := setRich c (E.richness0 c)
    if c1.Lambda / c1.scaleval < E.minlambda ∨ E.nIncut c1 < 3 then (true, reset c1)
    else if E.keepz = false ∧ E.zlam0 c1 < 0 then (true, reset c1)
    else
      let c2 := if E.keepz then c1 else { c1 with redshift := E.zlam0 c1 }
      match E.center c2 with
      | none => (true, reset c2)
      | some r =>
        let q := percLoop E E.maxiter 0 { c2 with rest := r }
        if q.1 then q
        else if E.nW q.2 = 0 then (false, reset q.2)
        else (false, { q.2 with rest := E.finish q.2 })

/-! ### First pass -/

/-- run_firstpass.py:257-291: the loop; `z` is the last computed `(z_lambda, z_lambda_e)` (`none`:
variable unbound).  A bad cluster skips the remaining iterations. -/
def firstLoop (minlam zlo zhi : α) (keepz : Bool) (rich : PS α ρ → α × α × ρ)
    (zlam : PS α ρ → α × α) : Nat → PS α ρ → Option (α × α) → Bool × PS α ρ × Option (α × α)
  | 0, c, z => (false, c, z)
  | n + 1, c, _z =>
    let c1 := setRich c (rich c)
    if c1.Lambda < |minlam / c1.scaleval| then (true, reset c1, _z)
    else
      let zz := zlam c1
      if zz.1 < zlo ∨ zhi < zz.1 then (true, reset c1, some zz)
      else
        firstLoop minlam zlo zhi keepz rich zlam n
          (if keepz then c1 else { c1 with redshift := zz.1 }) (some zz)

/-- run_firstpass.py:245-309 `_process_cluster`.  With `maxiter = 0` the name `z_lambda` is unbound
(`none`, a Python `UnboundLocalError`). -/
def firstProcess (minlam zlo zhi : α) (keepz : Bool) (maxiter : Nat) (rich : PS α ρ → α × α × ρ)
    (zlam : PS α ρ → α × α) (c : PS α ρ) : Option (Bool × PS α ρ) :=
  let q := firstLoop minlam zlo zhi keepz rich zlam maxiter c none
  if q.1 then some (true, { q.2.1 with zLambda := -1, zLambdaE := -1 })
  else match q.2.2 with
    | none => none
    | some zz => some (false, { q.2.1 with zLambda := zz.1, zLambdaE := zz.2 })

/-! ### Catalog runs -/

/-- runcat.py:122-176 `_process_cluster`; `maskfrac` does not change inside the loop. -/
def runcatProcess (maskfrac tol : α) (converge : Bool) (rich : PS α ρ → α × α × ρ)
    (zlam : PS α ρ → α × α) : Nat → PS α ρ → Bool × PS α ρ
  | 0, c => (false, c)
  | n + 1, c =>
    if 7 / 10 < maskfrac then (true, c)
    else
      let c1 := setRich c (rich c)
      if c1.Lambda < 3 then (true, reset c1)
      else
        let zz := zlam c1
        if zz.1 < 0 then (true, reset c1)
        else
          let c2 := { c1 with zLambda := zz.1, zLambdaE := zz.2 }
          if converge then
            let c3 := { c2 with redshift := zz.1 }
            if |c2.redshift - zz.1| < tol then (false, c3)
            else runcatProcess maskfrac tol converge rich zlam n c3
          else (false, c2)

/-! ### Likelihoods -/

/-- The likelihood columns. -/
structure Like (α : Type) where
  lnlamlike : α
  lnbcglike : α
  lnlike : α
deriving DecidableEq, Repr

/-- run_likelihoods.py:158-166. -/
def likeReset (_ : Like α) : Like α := ⟨-100000000000, -100000000000, -100000000000⟩

/-- run_likelihoods.py:168-239: flag and likelihood columns.  `lamlike` is the sum at 199-200,
`bcglike` the logarithm at 235. -/
def likeProcess (minlam lnwCenSigma Lambda : α) (nIncut : Nat) (lamlike bcglike : α) (l : Like α) :
    Bool × Like α :=
  if Lambda < minlam ∨ nIncut < 3 then (true, likeReset l)
  else if lnwCenSigma ≤ 0 then (false, { l with lnlamlike := lamlike, lnbcglike := 0 })
  else (false, ⟨lamlike, bcglike, bcglike + lamlike⟩)

/-- run_likelihoods.py:242-255. -/
def likePost (ls : List (Like α)) : List (Like α) :=
  ls.filter fun l => decide (-100000000000 < l.lnlamlike)

/-! ### Redshift scan -/

/-- run_zscan.py:137-183: the recorded richness and likelihood of one redshift step.  `lam = none`:
fewer than two galaxies.  `like` is the sum at 175 (or -1 without members, 177). -/
def scanStep (minlam : α) (lam : Option α) (like : α) : α × α :=
  match lam with
  | none => (-1, -1)
  | some l => if l < minlam then (-1, -1) else (l, like)

/-- `np.argmax`: the first position of the maximum. -/
def argmaxFrom (best : Nat) (bv : α) : Nat → List α → Nat × α
  | _, [] => (best, bv)
  | k, x :: xs => if bv < x then argmaxFrom k x (k + 1) xs else argmaxFrom best bv (k + 1) xs

def argmax : List α → Option (Nat × α)
  | [] => none
  | x :: xs => some (argmaxFrom 0 x 1 xs)

/-- run_zscan.py:123-195: scan over all steps, then `max_ind`; `none` = reported bad. -/
def scan (minlam : α) (steps : List (Option α × α)) : Option Nat :=
  let rec' := steps.map fun s => scanStep minlam s.1 s.2
  match argmax (rec'.map Prod.snd) with
  | none => none
  | some (k, _) =>
    match rec'[k]? with
    | none => none
    | some (l, _) => if l < minlam then none else some k

/-! ### Colour modes -/

/-- run_colormem.py:122-132: first `m` with `zb[m] < z <= zb[m+1]`; `none` is the `RuntimeError`. -/
def colorMode (z : α) : Nat → List α → Option Nat
  | m, a :: b :: rest => if a < z ∧ z ≤ b then some m else colorMode z (m + 1) (b :: rest)
  | _, _ => none

/-- run_colormem.py:86-88 and selectspecred.py:192-194. -/
def zbounds (lo hi : α) (mid : List α) : List α := (lo - 11 / 1000) :: mid ++ [hi + 11 / 1000]

/-- selectspecred.py:198-211: the modes in which a galaxy at redshift `z` is considered (strict on both
sides). -/
def specModes (z : α) : Nat → List α → List Nat
  | m, a :: b :: rest => if a < z ∧ z < b then m :: specModes z (m + 1) (b :: rest)
      else specModes z (m + 1) (b :: rest)
  | _, _ => []

/-- run_colormem.py:104-109 `_doublerun_sort`. -/
def doublerunSort (argsort : List α → List Nat) (lam : List α) : List α :=
  takeRows lam (argsort lam).reverse

/-- run_colormem.py:97-99, 104-109 with cluster_runner.py:356-585: the two passes; members are not recorded in the first. -/
def colormemRun {σ : Type} (E : Runner.Env α σ) (argsort : List α → List Nat) (sig : σ) (cs : List (Runner.Cluster α)) :
    List (Runner.Out α) × (Runner.St α σ × List (Runner.Out α)) :=
  Runner.loop2 E false (fun rows => takeRows rows (argsort (rows.map Runner.Cluster.Lambda)).reverse) sig cs

/-- cluster_runner.py:363, 582-587: the members and the catalog in the end. -/
def colormemOut {σ : Type} (E : Runner.Env α σ) (argsort : List α → List Nat) (minLambda : α) (sig : σ) (cs : List (Runner.Cluster α)) :
    Except Err (List (Runner.Cluster α) × Option (List (Runner.Member α))) :=
  let r := colormemRun E argsort sig cs
  Runner.postprocess minLambda (r.2.2.map Runner.Out.c) (Runner.members (r.1 ++ r.2.2))

end Redmapper.Finders
