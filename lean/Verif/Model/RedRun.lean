/-
Model of the multiprocessing run of the cluster finder, its schedules and its restarts.

  /repo/redmapper/redmapper_run.py   RedmapperRun.run, _worker, _percolation_only_worker
  /repo/redmapper/cluster_runner.py  output (628-662)

Simplifications: the three stages on a pixel are parameters and deterministic (they use no random draws except
the random centering classes); file contents are opaque; writing a file is atomic; a worker is a sequence of
atomic steps, each of which writes at most one file; the pool is any interleaving of the steps of the workers
and a crash is an interleaving that stops anywhere. `_get_pixel_splits` and `_consolidate` are modelled in
`Model/Consolidate.lean`.
-/
import Mathlib.Data.Nat.Digits.Defs

namespace Redmapper.RedRun

variable {K : Type}

/-- The computations on one pixel. `none`: no catalog, or one without clusters. -/
structure Stages (K : Type) where
  /-- `RunFirstPass.run`. -/
  firstpass : Nat → Option K
  /-- `RunLikelihoods.run` on the firstpass catalog. -/
  like : Nat → K → Option K
  /-- `RunPercolation.run` on the likelihood catalog: catalog and members. -/
  perc : Nat → K → Option (K × K)

/-- The files of one pixel. -/
structure Files (K : Type) where
  firstpass : Option K
  like : Option K
  perc : Option K
  members : Option K

/-- What a worker returns (redmapper_run.py:455): which of the three file names are not None. -/
structure Ret where
  firstpass : Bool
  like : Bool
  perc : Bool
deriving DecidableEq, Repr

/-- Where a worker is. `crashed`: it raised because a file it needs cannot be read. -/
inductive Pc (K : Type)
  | start
  | like
  | perc
  | members (m : K)
  | done (r : Ret)
  | crashed

/-- redmapper_run.py:399-413: firstpass, skipped if its file is there (and `check`). -/
def stepFirstpass (S : Stages K) (check : Bool) (p : Nat) (f : Files K) : Pc K × Files K :=
  if f.firstpass.isSome && check then (.like, f)
  else match S.firstpass p with
    | none => (.done ⟨false, false, false⟩, f)
    | some k => (.like, { f with firstpass := some k })

/-- redmapper_run.py:415-435: likelihoods from the firstpass file. -/
def stepLike (S : Stages K) (check : Bool) (p : Nat) (f : Files K) : Pc K × Files K :=
  if f.like.isSome && check then (.perc, f)
  else match f.firstpass with
    | none => (.crashed, f)
    | some k => match S.like p k with
      | none => (.done ⟨true, false, false⟩, f)
      | some k' => (.perc, { f with like := some k' })

/-- redmapper_run.py:437-453 and cluster_runner.py:650-655: percolation from the likelihood file; the catalog
is written first. -/
def stepPerc (S : Stages K) (check : Bool) (p : Nat) (f : Files K) : Pc K × Files K :=
  if f.perc.isSome && check then (.done ⟨true, true, true⟩, f)
  else match f.like with
    | none => (.crashed, f)
    | some k => match S.perc p k with
      | none => (.done ⟨true, true, false⟩, f)
      | some km => (.members km.2, { f with perc := some km.1 })

/-- redmapper_run.py:370-455 `_worker` and cluster_runner.py:657-662, one atomic step of the worker of pixel
`p`. -/
def step (S : Stages K) (check : Bool) (p : Nat) (st : Pc K × Files K) : Pc K × Files K :=
  match st.1 with
  | .start => stepFirstpass S check p st.2
  | .like => stepLike S check p st.2
  | .perc => stepPerc S check p st.2
  | .members m => (.done ⟨true, true, true⟩, { st.2 with members := some m })
  | .done r => (.done r, st.2)
  | .crashed => (.crashed, st.2)

/-- The pool (redmapper_run.py:108-116): the worker of the pixel chosen next makes its step; pixels that are not
in the list of the run are not touched. -/
def poolStep (S : Stages K) (check : Bool) (pixels : List Nat) (st : Nat → Pc K × Files K) (p : Nat) :
    Nat → Pc K × Files K :=
  fun q => if q = p ∧ p ∈ pixels then step S check p (st q) else st q

/-- A run under a schedule, from the files that are there. -/
def pool (S : Stages K) (check : Bool) (pixels : List Nat) (files : Nat → Files K) (schedule : List Nat) :
    Nat → Pc K × Files K :=
  schedule.foldl (poolStep S check pixels) fun q => (.start, files q)

/-- The files after a run. -/
def filesOf (st : Nat → Pc K × Files K) : Nat → Files K := fun q => (st q).2

/-- The returned value of a worker, if it returned. -/
def retOf : Pc K → Option Ret
  | .done r => some r
  | _ => none

/-- redmapper_run.py:122-125, the pixels handed to the consolidation (likelihood: `like`, percolation:
`perc`). `retvals` are in the order of the pixels. -/
def consolidated (sel : Ret → Bool) (retvals : List (Nat × Ret)) : List Nat :=
  (retvals.filter fun x => sel x.2).map fun x => x.1

/-- `pool.map`: the returned values in the order of the pixels, or an exception if a worker did not return. -/
def retvals (pixels : List Nat) (st : Nat → Pc K × Files K) : Option (List (Nat × Ret)) :=
  pixels.mapM fun p => (retOf (st p).1).map fun r => (p, r)

/-! ## Percolation only -/

/-- redmapper_run.py:457-505 `_percolation_only_worker` without interruption: `perc` is the computation on the
pixel, the file is there or not. Result: whether a file name is returned, and the file. -/
def percOnly (perc : Option K) (check : Bool) (file : Option K) : Bool × Option K :=
  if file.isSome && check then (true, file)
  else match perc with
    | none => (false, file)
    | some k => (true, some k)

/-! ## File names -/

/-- `'%d'`. -/
def decimal (n : Nat) : List Char :=
  if n = 0 then ['0'] else ((Nat.digits 10 n).reverse.map fun d => Char.ofNat (48 + d))

/-- `'%05d'`. -/
def pad5 (n : Nat) : List Char := List.replicate (5 - (decimal n).length) '0' ++ decimal n

/-- redmapper_run.py:397, the output base of the files of a pixel. -/
def outbase (base : List Char) (nside p : Nat) : List Char := base ++ ['_'] ++ decimal nside ++ ['_'] ++ pad5 p

/-- redmapper_run.py:488, the output base of the files of a pixel in a percolation-only run: without the
resolution. -/
def outbasePerc (base : List Char) (_nside p : Nat) : List Char := base ++ ['_'] ++ pad5 p

/-! ## The configuration of the run object -/

/-- The fields `run` changes. -/
structure RunCfg where
  nside : Nat
  seedfile : Option (List Char)
deriving DecidableEq, Repr

inductive Outcome
  | returned
  | runtimeError
  | failed
deriving DecidableEq, Repr

/-- redmapper_run.py:56-152 `run`, the checks of the arguments and the configuration; `workers`, `consolidate`
say whether these parts return (they get the configuration). Second component: the configuration after; third:
the configuration the workers saw, if they ran. -/
def run (specmode keepz percOnly : Bool) (seedfile : Option (List Char)) (nsideSplit : Nat)
    (workers consolidate : RunCfg → Bool) (c : RunCfg) : Outcome × RunCfg × Option RunCfg :=
  if specmode && !keepz then (.runtimeError, c, none)
  else if percOnly && specmode then (.runtimeError, c, none)
  else
    let c1 : RunCfg := { nside := nsideSplit, seedfile := seedfile.or c.seedfile }
    if workers c1 then
      let c2 : RunCfg := { c1 with seedfile := c.seedfile }
      if consolidate c2 then (.returned, { c2 with nside := c.nside }, some c1)
      else (.failed, c2, some c1)
    else (.failed, c1, some c1)

end Redmapper.RedRun
