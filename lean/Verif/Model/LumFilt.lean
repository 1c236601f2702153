/-
Model of the luminosity filter of a cluster (/repo/redmapper/cluster.py:297-321) with the tables of /repo/redmapper/redsequence.py:163-183, 331-341.

Over the reals, at one redshift bin: `mstar` is the table entry there.
-/
import Verif.Model.RedSequence
import Verif.Model.Cluster

namespace Redmapper.LumFilt

open Redmapper.RedSequence (grid index lumnorm)
open Redmapper.Cluster (schechterPdf)

noncomputable section

/-- redsequence.py:174, 178: the magnitude bins while the table is made: steps of 0.01 from `m0`, the last one twice. -/
def bins (m0 : ℝ) (n : Nat) : List ℝ := ((List.range n).map fun k : Nat => m0 + (k : ℝ) * (1 / 100)) ++ [m0 + ((n - 1 : Nat) : ℝ) * (1 / 100)]

/-- redsequence.py:335-341: the table at the redshift. -/
def table (alpha mstar m0 : ℝ) (n : Nat) : List ℝ := lumnorm (1 / 100) ((bins m0 n).map (schechterPdf alpha mstar))

/-- cluster.py:316-321 `_calc_luminosity` for one galaxy; the last bin is 1000 when the table is used (redsequence.py:375). -/
def filter (alpha mstar m0 : ℝ) (n : Nat) (normmag m : ℝ) : Option ℝ :=
  ((table alpha mstar m0 n)[index 100 (grid m0 (1 / 100) n) normmag]?).map fun norm => schechterPdf alpha mstar m / norm

end

end Redmapper.LumFilt
