/-
Model of the redshift scan at given positions.

  /repo/redmapper/run_zscan.py   RunZScan._more_setup (the redshift steps), RunZScan._process_cluster

The record of a step and the choice of the best one are those of `Model/Finders.lean`; here the likelihood of a step is
computed from the members, and the scan is followed by the refinement and the optical center.

Simplifications: numbers are elements of a linearly ordered field; the radii of the neighbors, the richness, the
redshift fit and the centering are functions of the redshift (the richness does not depend on what was computed before:
see `C126`); the logarithm is a parameter.
-/
import Mathlib.Algebra.Order.Floor.Ring
import Verif.Model.Finders
import Verif.Model.Centering

namespace Redmapper.Zscan

open Redmapper.Finders (argmax takeRows)
open Redmapper.Centering (whereIdx)

variable {α : Type} [Field α] [LinearOrder α]

/-- run_zscan.py:64-65, the redshift steps. -/
def zArray [FloorRing α] (z0 z1 zstep : α) : List α :=
  (List.range (⌈(z1 - z0) / zstep⌉).toNat).map fun (k : Nat) => (k : α) * zstep + z0

/-- A neighbor during the scan. -/
structure Nbr (α : Type) where
  refmag : α
  r : α
deriving DecidableEq, Repr

/-- Result of the richness computation: richness, scale and membership probabilities of all neighbors. -/
structure Rich (α : Type) where
  lam : α
  scaleval : α
  pmem : List α
deriving DecidableEq, Repr

/-- What the scan needs at a redshift. -/
structure Env (α : Type) where
  minLambda : α
  maxrad : α
  maxmag : α → α
  nbrs : α → List (Nbr α)
  rich : α → List Nat → Rich α
  log : α → α

/-- run_zscan.py:145-146, bright enough and within the radius. -/
def inside (E : Env α) (z : α) : List Nat :=
  whereIdx (fun n => decide (n.refmag < E.maxmag z) && decide (n.r < E.maxrad)) (E.nbrs z)

/-- run_zscan.py:169-171, the members that enter the likelihood. -/
def incut (E : Env α) (z : α) (pmem : List α) : List α :=
  (List.zip (E.nbrs z) pmem).filterMap fun np =>
    if decide (0 < np.2) && decide (1 / 1000000 < np.1.r) && decide (np.2 < 1) then some np.2 else none

/-- run_zscan.py:172-175. -/
def likelihood (E : Env α) (z : α) (R : Rich α) : α :=
  match incut E z R.pmem with
  | [] => -1
  | l => -R.lam / R.scaleval - (l.map fun p => E.log (1 - p)).sum

/-- run_zscan.py:137-179: richness and likelihood recorded at one redshift; both are minus one where nothing is. -/
def step (E : Env α) (z : α) : α × α :=
  let lc := inside E z
  if lc.length < 2 then (-1, -1)
  else
    let R := E.rich z lc
    if R.lam < E.minLambda then (-1, -1) else (R.lam, likelihood E z R)

/-- Columns of the scan. -/
structure Scan (α : Type) where
  zSteps : List α
  lambdaSteps : List α
  likeSteps : List α
  maxInd : Nat
  lmax : α
  zmax : α
deriving DecidableEq, Repr

/-- run_zscan.py:121-184, the scan; `none` without any redshift step. -/
def scan (E : Env α) (zs : List α) : Option (Scan α) :=
  let st := zs.map (step E)
  match argmax (st.map Prod.snd) with
  | none => none
  | some (k, m) =>
    some { zSteps := zs, lambdaSteps := st.map Prod.fst, likeSteps := st.map Prod.snd
           maxInd := k, lmax := m, zmax := zs.getD k 0 }

/-- What the refinement needs: richness and scale, redshift and error, both with all neighbors at a redshift; the
optical center found at a redshift (position), and the values at that center. -/
structure Refine (α : Type) where
  rich : α → α × α
  zlam : α → α × α
  center : α → Option (α × α)
  optRich : α × α → α → α × α
  optZlam : α × α → α → α × α

/-- The columns of a position. -/
structure Out (α : Type) where
  Lambda : α
  scaleval : α
  zLambda : α
  zLambdaE : α
  redshift : α
  opt : Option ((α × α) × (α × α) × (α × α))
deriving DecidableEq, Repr

/-- run_zscan.py:205-243: one turn of the refinement; `none`: bad. The state is the redshift to use and the
columns. -/
def turn (minLambda : α) (R : Refine α) (first : Bool) (zuse : α) (o : Out α) : Option (α × Out α) :=
  let lr := R.rich zuse
  let o1 := { o with redshift := zuse, Lambda := lr.1, scaleval := lr.2 }
  if lr.1 / lr.2 < minLambda then none
  else
    let zo : α × Out α := if first then
        let zz := R.zlam zuse
        (if 0 < zz.1 then zz.1 else zuse, { o1 with zLambda := zz.1, zLambdaE := zz.2 })
      else (zuse, o1)
    if zo.2.zLambda < 0 then none else some zo

/-- run_zscan.py:186-304: after the scan; `none`: the position is reported bad. -/
def process (E : Env α) (R : Refine α) (zs : List α) (o : Out α) : Option (Out α) :=
  match scan E zs with
  | none => none
  | some s =>
    if s.lambdaSteps.getD s.maxInd 0 < E.minLambda then none
    else
      match turn E.minLambda R true s.zmax o with
      | none => none
      | some (z1, o1) =>
        match turn E.minLambda R false z1 o1 with
        | none => none
        | some (_, o2) =>
          let o3 := { o2 with redshift := o2.zLambda }
          match R.center o3.redshift with
          | none => some o3
          | some c => some { o3 with opt := some (c, R.optRich c o3.redshift, R.optZlam c o3.redshift) }

end Redmapper.Zscan
