/-
Model of the three stages of one pixel, each reading the catalog of the one before.

  /repo/redmapper/redmapper_run.py      RedmapperRun._worker (369-462)
  /repo/redmapper/run_firstpass.py      RunFirstPass._more_setup, _process_cluster
  /repo/redmapper/run_likelihoods.py    RunLikelihoods._more_setup, _process_cluster, _postprocess
  /repo/redmapper/run_percolation.py    RunPercolation._more_setup
  /repo/redmapper/cluster_runner.py     ClusterRunner.run, _postprocess

Built from `CatTask.firstSeeds`, `Finders.firstProcess`, `Finders.likeSetup` and `Finders.percSetup`.  Simplifications: exact arithmetic; richness and redshift
of a cluster in the first two stages are functions of its row (no masking there); a cluster without neighbours or depth is not processed; the third stage is a
function that carries a state from cluster to cluster; files that exist are not used (`check=False`).
-/
import Verif.Model.CatTask
import Verif.Model.Finders

namespace Redmapper.PixRun

open Redmapper.Finders (Seed PS)
open Redmapper.CatTask (Row FCfg)

variable {α : Type} [Field α] [LinearOrder α]

/-- What the second stage computes for a cluster: richness, scale and memberships of the galaxies of 187-188, and the likelihood of the central galaxy. -/
structure Members (α : Type) where
  Lambda : α
  scaleval : α
  pmem : List α
  bcg : α

structure Env (α : Type) where
  /-- seeds and galaxies of the first stage -/
  fc : FCfg α
  seeds : Option (List (CatTask.Seed α))
  gals : List (CatTask.Seed α)
  mlimRef : α → α
  inMask : Nat → Bool
  keepz : Bool
  /-- first stage: `firstpass_minlambda`, `firstpass_niter`; a cluster has neighbours and a depth; richness and redshift -/
  minlam1 : α
  niter : Nat
  reach1 : Row α → Bool
  rich1 : Row α → PS α Unit → α × α × Unit
  zlam1 : Row α → PS α Unit → α × α
  /-- chi-squared of the nearest neighbour (run_firstpass.py:299-300) -/
  chisq1 : Row α → α
  /-- second stage -/
  cushion : α
  minlam2 : α
  lnwCenSigma : α
  mlim2 : α → α
  lg : α → α
  reach2 : Seed α → Bool
  members : Seed α → Members α
  /-- third stage -/
  argsortI : List Int → List Nat
  argsortL : List α → List Nat
  minlam3 : α
  mlim3 : α → α

/-- run_firstpass.py:239-242. -/
def maxiter (E : Env α) : Nat := if E.fc.specmode then 1 else E.niter

/-- run_firstpass.py:247-312 with cluster_runner.py:393-450: richness and recorded redshift of one row; the redshift of the cluster is that of the row at first.
`none`: an unbound name. -/
def first1 (E : Env α) (r : Row α) : Option (α × α) :=
  if E.reach1 r then
    (Finders.firstProcess E.minlam1 E.fc.zlo E.fc.zhi E.keepz (maxiter E) (E.rich1 r) (E.zlam1 r) ⟨r.z, 0, 0, 0, 0, ()⟩).map fun q =>
      (q.2.Lambda, if E.fc.specmode then r.zSpecInit else q.2.zLambda)
  else some (-1, r.z)

/-- run_firstpass.py:247-312, cluster_runner.py:590-602: rows of the first catalog.  The columns of likelihoods are zero, chi-squared is that of the nearest neighbour. -/
def firstRow (E : Env α) (r : Row α) (q : α × α) : Seed α := { id := 0, z := q.2, zred := r.zred, lnlike := some 0, Lambda := q.1, refmag := r.refmag, chisq := E.chisq1 r, tag := r.pos }

/-- cluster_runner.py:590-602 after the first stage. -/
def firstCat (E : Env α) (rows : List (Row α)) : List (Seed α) :=
  rows.filterMap fun r => match first1 E r with
    | some q => if E.minlam1 ≤ q.1 then some (firstRow E r q) else none
    | none => none

/-- run_likelihoods.py:197-198: minus infinity of the logarithm of zero makes the likelihood infinite (`none`). -/
def lnlam (lg : α → α) (m : Members α) : Option α :=
  if m.pmem.any fun p => decide (p = 1) then none else some (-m.Lambda / m.scaleval - (m.pmem.map fun p => lg (1 - p)).sum)

/-- run_likelihoods.py:158-255, cluster_runner.py:393-450: the row in the catalog of likelihoods; `none`: cut because of a failed likelihood.  (A finite likelihood
is taken to be above -1e11.) -/
def like1 (E : Env α) (s : Seed α) : Option (Seed α) :=
  if E.reach2 s then
    let m := E.members s
    if m.Lambda < E.minlam2 ∨ m.pmem.length < 3 then none
    else if E.lnwCenSigma ≤ 0 then some { s with Lambda := m.Lambda }
    else some { s with Lambda := m.Lambda, lnlike := (lnlam E.lg m).map fun x => m.bcg + x }
  else none

/-- redmapper_run.py:403-447: the catalog handed to the third stage.  `ok none`: no catalog. -/
def likeCat (E : Env α) : Except CatTask.Err (Option (List (Seed α))) :=
  match CatTask.firstSeeds E.fc E.seeds E.gals E.mlimRef E.inMask with
  | .error e => .error e
  | .ok none => .ok none
  | .ok (some rows) =>
    match Finders.likeSetup E.keepz false E.cushion E.fc.zlo E.fc.zhi E.mlim2 (fun _ => true) (firstCat E rows) with
    | none => .ok none
    | some l => let c := l.filterMap (like1 E); if c.isEmpty then .ok none else .ok (some c)

/-- run_percolation.py:106-193, without `keepid` and `cleaninput` (redmapper_run.py:452): the clusters in the order in which they are percolated. -/
def percCat (E : Env α) (c : List (Seed α)) : Except Runner.Err (Option (List (Seed α))) :=
  Finders.percSetup E.argsortI E.argsortL E.keepz false false E.cushion E.fc.zlo E.fc.zhi E.minlam3 E.mlim3 (fun _ => true) c

/-- redmapper_run.py:369-462: what the third stage starts with. -/
def ordered (E : Env α) : Option (List (Seed α)) :=
  match likeCat E with
  | .ok (some c) => match percCat E c with
    | .ok (some l) => some l
    | _ => none
  | _ => none

/-- cluster_runner.py:375-602 for the third stage: clusters one after the other with a state; those with a richness of at least the minimum are kept. -/
def perc {σ ω : Type} (step : σ → Seed α → σ × ω) (keep : ω → Bool) : σ → List (Seed α) → List (Seed α × ω)
  | _, [] => []
  | st, s :: l =>
    let q := step st s
    if keep q.2 then (s, q.2) :: perc step keep q.1 l else perc step keep q.1 l

end Redmapper.PixRun
