/-
Model of
  /repo/redmapper/run_colormem.py      RunColormem._more_setup (76-88), _process_cluster (113-152)
  /repo/redmapper/cluster_runner.py    ClusterRunner._reset_bad_values (303-311)

What happens to one cluster of the color run.  The richness is `Cluster.richnessFit`; the color mode is `Finders.colorMode`.
-/
import Verif.Model.Cluster
import Verif.Model.Finders

namespace Redmapper.ColorRun

open Redmapper.Cluster Redmapper.Finders

variable {α : Type} [Field α] [LinearOrder α] {G P : Type}

/-- The entries of the configuration that concern the color run (configuration.py:289-303): the range, the redshifts between modes, the modes,
the intrinsic scatter of each mode, the smallest richness and the smallest membership probability of the central galaxy. -/
structure Conf (α : Type) where
  lo : α
  hi : α
  mid : List α
  modes : List Nat
  sigint : List α
  minlambda : α
  pcut : α

inductive Err where
  | runtime
  | index
  | value
  | fit (e : Cluster.Err)
deriving DecidableEq

/-- One cluster after it has been processed; `zlam` and `zlamE` are z_lambda and its error. -/
structure Out (G P α : Type) where
  cl : Cl G P α
  pbcg : α
  zlam : α
  zlamE : α
  bad : Bool
deriving DecidableEq

/-- run_colormem.py:76-80: the clusters strictly inside the redshift range. -/
def setup (conf : Conf α) (z : Cl G P α → α) (cat : List (Cl G P α)) : List (Cl G P α) :=
  cat.filter fun c => decide (conf.lo < z c) && decide (z c < conf.hi)

/-- cluster_runner.py:303-311 `_reset_bad_values`. -/
def resetBad (c : Cl G P α) : Cl G P α := { c with Lambda := -1, LambdaE := -1, scaleval := -1 }

/-- run_colormem.py:113-152 `_process_cluster`.  `fit mode s` is what the single-color richness reads when color `mode` is used with intrinsic
scatter `s`: the call at 136-137 does not give a scatter, so it is the default 0.05 of cluster.py:632.  `redcolor mode` is the model color of the
cluster.  `z0`, `ze0` are z_lambda and its error before. -/
def process (E : Env G P α) (fit : Nat → α → FitEnv G α) (conf : Conf α) (redcolor : Nat → α) (z z0 ze0 : α) (c : Cl G P α) :
    Except Err (Out G P α) :=
  match colorMode z 0 (zbounds conf.lo conf.hi conf.mid) with
  | none => .error .runtime
  | some m =>
    match conf.modes[m]? with
    | none => .error .index
    | some mode =>
      match richnessFit E (fit mode (1 / 20)) (some (redcolor mode)) false c with
      | (_, .error e) => .error (.fit e)
      | (c', .ok lam) =>
        let l := c'.nbs.getD []
        match l[argminR l]? with
        | none => .error .value
        | some n =>
          if lam / c'.scaleval < conf.minlambda then .ok ⟨resetBad c', n.pmem, -1, -1, true⟩
          else if n.pmem < conf.pcut then .ok ⟨resetBad c', n.pmem, -1, -1, true⟩
          else .ok ⟨c', n.pmem, z0, ze0, false⟩

end Redmapper.ColorRun
