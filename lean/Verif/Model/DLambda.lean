/-
Model of /repo/redmapper/cluster_runner.py ClusterRunner.run (478-497): how the richness of a cluster changes with redshift.
-/
import Verif.Model.Cluster

namespace Redmapper.DLambda

open Redmapper.Cluster

variable {α : Type} [Field α] [LinearOrder α] {G P : Type}

/-- The columns dlambda_dz, dlambda_dz2, dlambdavar_dz and dlambdavar_dz2. -/
structure Deriv (α : Type) where
  dl : α
  dl2 : α
  dv : α
  dv2 : α
deriving DecidableEq

/-- cluster_runner.py:480-497.  `zlam` is z_lambda, which the correction at 453-468 may already have changed; `c` is the cluster as it was
processed, with its own redshift and richness.  `none`: the columns are not written (489).  `log` is `np.log`. -/
def plusMinus (E : Env G P α) (zero : P) (log : α → α) (eps zlam : α) (c : Cl G P α) : Except Err (Option (Deriv α)) :=
  match copy E zero c with
  | .error e => .error e
  | .ok t =>
    match setZ E (zlam - eps) t with
    | .error e => .error e
    | .ok t1 =>
      match richness E true none t1 with
      | (_, .error e) => .error e
      | (t2, .ok lm) =>
        match setZ E (zlam + eps) t2 with
        | .error e => .error e
        | .ok t3 =>
          match richness E true none t3 with
          | (_, .error e) => .error e
          | (t4, .ok lp) =>
            if 0 < lm ∧ 0 < lp then
              .ok (some
                { dl := (log lp - log lm) / (2 * eps)
                  dl2 := (log lp + log lm - 2 * log c.Lambda) / eps ^ 2
                  dv := (t4.LambdaE ^ 2 - t2.LambdaE ^ 2) / (2 * eps)
                  dv2 := (t4.LambdaE ^ 2 + t2.LambdaE ^ 2 - 2 * c.LambdaE ^ 2) / eps ^ 2 })
            else .ok none

end Redmapper.DLambda
