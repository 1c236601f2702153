/-
Model of the cluster loop shared by all cluster finders.

  /repo/redmapper/cluster_runner.py   ClusterRunner.run, _generate_mem_match_ids,
                                      _reset_bad_values, _postprocess

Simplifications: only runs with `read_gals = True`; arithmetic is exact; the richness, centering,
redshift, depth and mask computations are parameters (`Env`) that may carry an opaque state `σ`
(mask galaxies, random generator) from cluster to cluster; NaN of the masking-radius formula is
`none`; log messages and memory clean-up are left out.
-/
import Mathlib.Algebra.Order.Field.Basic
import Mathlib.Algebra.BigOperators.Group.List.Basic
import Mathlib.Data.List.Dedup

namespace Redmapper.Runner

inductive Err
  | valueError
  | runtimeError
  | indexError
deriving DecidableEq, Repr

/-- The neighbour columns the loop reads or writes (galaxy.py dtype, cluster.py:173-254).
`index` is the row in the full galaxy catalog, `gid` the galaxy id. -/
structure Nbr (α : Type) where
  index : Nat
  gid : Nat
  refmag : α
  r : α
  p : α
  pmem : α
  pfree : α
  cand : Bool
deriving DecidableEq, Repr

/-- The neighbour columns a `_process_cluster` override changes in place. -/
structure Upd (α : Type) where
  r : α
  p : α
  pmem : α
  cand : Bool

/-- The cluster columns the loop reads or writes; `rMask = none` is NaN. -/
structure Cluster (α : Type) where
  id : Int
  Lambda : α
  LambdaE : α
  scaleval : α
  zLambda : α
  zLambdaE : α
  redshift : α
  rLambda : α
  maskfrac : α
  limmag : α
  rMask : Option α
deriving DecidableEq, Repr

/-- A row of the member catalog (cluster_runner.py:557-579), the columns used here. -/
structure Member (α : Type) where
  id : Int
  gid : Nat
  z : α
  r : α
  p : α
  pfree : α
deriving DecidableEq, Repr

/-- Everything the loop calls, plus its configuration. -/
structure Env (α σ : Type) where
  /-- `mask.select_maskgals_sample()` (cluster_runner.py:386). -/
  sample : σ → σ
  /-- `cluster.find_neighbors` (cluster_runner.py:393-399). -/
  neighbors : Cluster α → List (Nbr α)
  /-- cluster_runner.py:412-432: depth and mask at the cluster; returns `lim_limmag`, `maskfrac`. -/
  depth : σ → Cluster α → List (Nbr α) → σ × α × α
  /-- The `_process_cluster` override (cluster_runner.py:439): new state, `bad` flag, the cluster
  columns, and the new values of the neighbour at each position. -/
  process : σ → Cluster α → List (Nbr α) → σ × Bool × Cluster α × (Nat → Upd α)
  /-- cluster_runner.py:446-497: z_lambda correction and updated mask fraction
  (new `z_lambda`, `z_lambda_e`, `maskfrac`); the dlambda/dz columns are left out. -/
  after : σ → Cluster α → List (Nbr α) → σ × α × α × α
  /-- The formula of cluster_runner.py:502-503 as a function of `Lambda` and the redshift;
  `none` is NaN (negative richness). -/
  rmaskRaw : α → α → Option α
  /-- The magnitude limit of cluster_runner.py:508 as a function of the redshift. -/
  maskLim : α → α
  useMemradius : Bool
  useMemlum : Bool
  memradius : α
  /-- The magnitude limit of cluster_runner.py:530,548 as a function of the redshift. -/
  memLim : α → α

/-- Loop state: `self.pgal` and the opaque state. -/
structure St (α σ : Type) where
  pgal : Nat → α
  sig : σ

/-- What the loop leaves for one cluster: the catalog row (rows are views, so assignments go into
the catalog), the final neighbours, whether the loop body ran to its end, and the recorded
members (`none`: nothing recorded). -/
structure Out (α : Type) where
  c : Cluster α
  nbrs : List (Nbr α)
  good : Bool
  mem : Option (List (Member α))

variable {α σ : Type} [Field α] [LinearOrder α]

/-- cluster_runner.py:303-311 `_reset_bad_values`. -/
def resetBad (c : Cluster α) : Cluster α :=
  { c with Lambda := -1, LambdaE := -1, scaleval := -1, zLambda := -1, zLambdaE := -1 }

/-- cluster_runner.py:502-506, masking radius with the floor at `r_lambda`; a NaN stays NaN
because `nan < r_lambda` is false. -/
def rmask (E : Env α σ) (c : Cluster α) : Option α :=
  match E.rmaskRaw c.Lambda c.redshift with
  | none => none
  | some r => if r < c.rLambda then some c.rLambda else some r

/-- cluster_runner.py:510-512, the neighbours `u` that are masked. -/
def maskedNbr (E : Env α σ) (c : Cluster α) (n : Nbr α) : Bool :=
  match rmask E c with
  | none => false
  | some rm => decide (n.refmag < E.maskLim c.redshift) && decide (n.r < rm) && decide (0 < n.p)

/-- cluster_runner.py:513-514 `self.pgal[index[u]] += p[u]`.  numpy's fancy in-place addition reads
all old values first, so with a repeated index only the last addition survives. -/
def addMask (E : Env α σ) (c : Cluster α) (ns : List (Nbr α)) (pgal : Nat → α) : Nat → α :=
  fun i => match ((ns.filter (maskedNbr E c)).filter fun n => n.index = i).getLast? with
    | none => pgal i
    | some n => pgal i + n.p

/-- cluster_runner.py:524-537 and 542-555: which neighbours keep their `pfree`. -/
def memOk (E : Env α σ) (c : Cluster α) (n : Nbr α) : Bool :=
  if E.useMemradius || E.useMemlum then
    decide (1 / 100 < n.p) &&
      (!E.useMemradius || decide (n.r < E.memradius * c.rLambda)) &&
      (!E.useMemlum || decide (n.refmag < E.memLim c.redshift))
  else decide (1 / 100 < n.pmem)

/-- cluster_runner.py:521-537: `pfree_temp` is a view, so `pfree` itself is zeroed. -/
def zeroPfree (E : Env α σ) (c : Cluster α) (n : Nbr α) : Nbr α :=
  if memOk E c n then n else { n with pfree := 0 }

/-- cluster_runner.py:557-579: the member rows of a cluster. -/
def memberRows (c : Cluster α) (ns : List (Nbr α)) : List (Member α) :=
  (ns.filter fun n => decide (1 / 100 < n.pfree) || n.cand).map fun n =>
    { id := c.id, gid := n.gid, z := c.redshift, r := n.r, p := n.p, pfree := n.pfree }

/-- Writing the values computed by `_process_cluster` into the neighbours. -/
def applyUpd (f : Nat → Upd α) (ns : List (Nbr α)) : List (Nbr α) :=
  ns.mapIdx fun i n => { n with r := (f i).r, p := (f i).p, pmem := (f i).pmem, cand := (f i).cand }

/-- cluster_runner.py:385-585, the loop body.  `doMask` is `do_percolation_masking`, `rec` is
`record_members`.  No override assigns `mem_match_id`, hence `id := c.id` after `process`. -/
def stepC (E : Env α σ) (doMask rec : Bool) (s : St α σ) (c : Cluster α) : St α σ × Out α :=
  let s1 := E.sample s.sig
  let nb := E.neighbors c
  if nb.isEmpty then
    ({ s with sig := s1 }, { c := resetBad c, nbrs := [], good := false, mem := none })
  else
    let nb := nb.map fun n => { n with pfree := if doMask then 1 - s.pgal n.index else 1 }
    let d := E.depth s1 c nb
    let c1 := { c with limmag := d.2.1, maskfrac := d.2.2 }
    if d.2.2 = 1 ∨ d.2.1 ≤ 1 then
      ({ s with sig := d.1 }, { c := resetBad c1, nbrs := nb, good := false, mem := none })
    else
      let pr := E.process d.1 c1 nb
      let c2 := { pr.2.2.1 with id := c.id }
      let nb2 := applyUpd pr.2.2.2 nb
      if pr.2.1 then
        ({ s with sig := pr.1 }, { c := resetBad c2, nbrs := nb2, good := false, mem := none })
      else
        let a := E.after pr.1 c2 nb2
        let c3 := { c2 with zLambda := a.2.1, zLambdaE := a.2.2.1, maskfrac := a.2.2.2 }
        let c4 := if doMask then { c3 with rMask := rmask E c3 } else c3
        let pgal := if doMask then addMask E c3 nb2 s.pgal else s.pgal
        let nb3 := nb2.map (zeroPfree E c4)
        ({ pgal := pgal, sig := a.1 },
         { c := c4, nbrs := nb3, good := true,
           mem := if rec then some (memberRows c4 nb3) else none })

/-- cluster_runner.py:385-585, one pass over the catalog. -/
def pass (E : Env α σ) (doMask rec : Bool) : St α σ → List (Cluster α) → St α σ × List (Out α)
  | s, [] => (s, [])
  | s, c :: cs =>
    let r := stepC E doMask rec s c
    let q := pass E doMask rec r.1 cs
    (q.1, r.2 :: q.2)

/-- cluster_runner.py:360-361 `pgal` starts at zero. -/
def initSt (sig : σ) : St α σ := { pgal := fun _ => 0, sig := sig }

/-- cluster_runner.py:363,582-585: `self.members` is `None` until something is recorded, then
the concatenation. -/
def members (os : List (Out α)) : Option (List (Member α)) :=
  let ms := os.filterMap Out.mem
  if ms.isEmpty then none else some ms.flatten

/-- cluster_runner.py:356-585 for `doublerun = False`. -/
def loop1 (E : Env α σ) (doMask rec : Bool) (sig : σ) (cs : List (Cluster α)) :
    St α σ × List (Out α) :=
  pass E doMask rec (initSt sig) cs

/-- cluster_runner.py:356-585 for `doublerun = True`: a pass without masking, `_doublerun_sort`
(`srt`), then a pass with masking and member recording.  Members recorded in the first pass
(if `rec`) stay in `self.members`. -/
def loop2 (E : Env α σ) (rec : Bool) (srt : List (Cluster α) → List (Cluster α)) (sig : σ)
    (cs : List (Cluster α)) : List (Out α) × (St α σ × List (Out α)) :=
  let p1 := pass E false rec (initSt sig) cs
  (p1.2, pass E true true p1.1 (srt (p1.2.map Out.c)))

/-- Contract of `esutil.numpy_util.match(a, b)` as used at cluster_runner.py:606: the first array
must have no repeats (`ValueError` otherwise); the second result lists, in ascending order, every
position of `b` whose value occurs in `a`.  Empty input arrays are excluded (esutil's behaviour on them is
not modelled; callers treat them separately). -/
def esMatch2 (a b : List Int) : Except Err (List Nat) :=
  if a.dedup.length ≠ a.length then .error .valueError
  else .ok ((List.range b.length).filter fun j => match b[j]? with
    | some v => a.contains v
    | none => false)

/-- cluster_runner.py:590-608 `_postprocess`. -/
def postprocess (minLambda : α) (cat : List (Cluster α)) (mem : Option (List (Member α))) :
    Except Err (List (Cluster α) × Option (List (Member α))) :=
  let cat' := cat.filter fun c => decide (minLambda ≤ c.Lambda)
  match mem with
  | none => .ok (cat', none)
  | some ms =>
    match esMatch2 (cat'.map Cluster.id) (ms.map Member.id) with
    | .error e => .error e
    | .ok b => .ok (cat', some (b.filterMap fun j => ms[j]?))

/-- cluster_runner.py:288-301 `_generate_mem_match_ids`; `min()` of an empty array raises
`ValueError`. -/
def genIds : List Int → Except Err (List Int)
  | [] => .error .valueError
  | a :: rest =>
    if rest.foldl min a = rest.foldl max a then
      .ok ((List.range (rest.length + 1)).map fun (k : Nat) => (k : Int) + 1)
    else if (a :: rest).dedup.length ≠ (a :: rest).length then .error .runtimeError
    else .ok (a :: rest)

end Redmapper.Runner
