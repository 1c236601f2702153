/-
Model of the NFW richness solver (C extension `solver_nfw`).

  /repo/redmapper/solver_nfw/nfw_weights.c
  /repo/redmapper/solver_nfw/solver_nfw.c
  /repo/redmapper/solver_nfw/solver_nfw_lib.py
  /repo/redmapper/solver_nfw/solver_nfw_pywrap.c

Simplifications: arithmetic is exact (any linearly ordered field instead of IEEE doubles);
`pow`, `exp`, `log` and `erf` are parameters; an infinite background density (produced by the
background lookup) is represented by `none`.
-/
import Mathlib.Algebra.Order.Field.Basic
import Mathlib.Algebra.BigOperators.Group.List.Basic

namespace Redmapper.Solver

/-- One neighbour galaxy as the C code sees it: `ucounts[i]`, `bcounts[i]`, `r[i]`, `w[i]`
(solver_nfw.h:14-31).  `b = none` stands for an infinite background. -/
structure Gal (α : Type) where
  u : α
  b : Option α
  r : α
  w : α
deriving DecidableEq, Repr

/-- The per-galaxy output slots `p[i]`, `wt[i]`, `theta_r[i]` (solver_nfw.h:21-23). -/
structure Slot (α : Type) where
  p : α
  wt : α
  th : α
deriving DecidableEq, Repr

/-- The scalar parameters of a solve.  `rlam x` is `r0*pow(x/100, beta)` (nfw_weights.c:21);
`nfwnorm rl` is the normalisation of nfw_weights.c:24-27; `soft d` is
`0.5 + 0.5*erf(d*rsig_const)` (nfw_weights.c:18,66); `c0..c3` are `cpars[0..3]`. -/
structure Par (α : Type) where
  rlam : α → α
  nfwnorm : α → α
  soft : α → α
  rsig : α
  c0 : α
  c1 : α
  c2 : α
  c3 : α

variable {α : Type} [Field α] [LinearOrder α]

/-- nfw_weights.c:31-36, the raw membership probability (`update_all = 1`).
Division by zero and an infinite background are the non-finite cases reset to 0
(nfw_weights.c:36; `x/inf = 0`). -/
def rawP (P : Par α) (lam : α) (g : Gal α) : α :=
  let s := lam * g.u * P.nfwnorm (P.rlam lam)
  match g.b with
  | none => 0
  | some b => if s + b = 0 then 0 else s / (s + b)

/-- nfw_weights.c:29-73, body of the loop for one galaxy. -/
def weight1 (P : Par α) (lam : α) (updateAll : Bool) (g : Gal α) (s : Slot α) : Slot α :=
  let rl := P.rlam lam
  let p := if updateAll then rawP P lam g else s.p
  if P.rsig ≤ 0 then
    if g.r < rl then
      { p := p, wt := if updateAll then p * g.w else s.wt, th := 1 }
    else
      { p := p, wt := 0, th := s.th }
  else
    let th :=
      if g.r < rl - 5 * P.rsig then 1
      else if g.r > rl + 5 * P.rsig then 0
      else P.soft (rl - g.r)
    { p := p, wt := if updateAll then p * g.w * th else s.wt, th := th }

/-- nfw_weights.c:29-73, the loop over the galaxies. -/
def weights (P : Par α) (lam : α) (updateAll : Bool) (gs : List (Gal α)) (ss : List (Slot α)) :
    List (Slot α) :=
  List.zipWith (weight1 P lam updateAll) gs ss

/-- solver_nfw.c:29-30 and 39-40, the mask-correction polynomial clipped at 0. -/
def cval (P : Par α) (rl : α) : α :=
  let c := P.c3 + P.c2 * rl + P.c1 * rl * rl + P.c0 * rl * rl * rl
  if c < 0 then 0 else c

/-- solver_nfw.c:25-32 and 35-42: sum of the weights plus `lambda*cval`. -/
def outOf (P : Par α) (lam : α) (ss : List (Slot α)) : α :=
  (ss.map Slot.wt).sum + lam * cval P (P.rlam lam)

/-- Local variables of `solver_nfw` (solver_nfw.c:13-19) plus the output slots and a ghost
counter of loop iterations. -/
structure St (α : Type) where
  lo : α
  hi : α
  outlo : α
  slots : List (Slot α)
  steps : Nat

/-- solver_nfw.c:17-19; the output arrays are zero-initialised by the wrapper
(solver_nfw_pywrap.c:102-109). -/
def init (gs : List (Gal α)) : St α :=
  { lo := 1 / 2, hi := 2000, outlo := -1, slots := gs.map fun _ => ⟨0, 0, 0⟩, steps := 0 }

/-- solver_nfw.c:21-51, one iteration of the `while` body. -/
def step (P : Par α) (gs : List (Gal α)) (s : St α) : St α :=
  let mid := (s.hi + s.lo) / 2
  let slots1 := if s.outlo < 0 then weights P s.lo true gs s.slots else s.slots
  let outlo1 := if s.outlo < 0 then outOf P s.lo slots1 else s.outlo
  let slots2 := weights P mid true gs slots1
  let outmid := outOf P mid slots2
  let outlo2 := if outlo1 < 1 then 9 / 10 else outlo1
  if (outlo2 - s.lo) * (outmid - mid) > 0 then
    { lo := mid, hi := s.hi, outlo := -1, slots := slots2, steps := s.steps + 1 }
  else
    { lo := s.lo, hi := mid, outlo := outlo2, slots := slots2, steps := s.steps + 1 }

/-- solver_nfw.c:21, the `while` loop with fuel; `none` = fuel exhausted. -/
def loop (P : Par α) (gs : List (Gal α)) (tol : α) : Nat → St α → Option (St α)
  | fuel, s =>
    if |s.hi - s.lo| > 2 * tol then
      match fuel with
      | 0 => none
      | fuel + 1 => loop P gs tol fuel (step P gs s)
    else some s

/-- What `solve_nfw` returns (solver_nfw_pywrap.c, tuple of 5), plus the ghost counter. -/
structure Res (α : Type) where
  lambda : α
  rlambda : α
  slots : List (Slot α)
  steps : Nat

/-- solver_nfw.c:53-66, after the loop. -/
def finish (P : Par α) (gs : List (Gal α)) (s : St α) : Res α :=
  let lam := (s.lo + s.hi) / 2
  let slots := weights P lam false gs s.slots
  if lam < 1 then { lambda := -1, rlambda := -1, slots := slots, steps := s.steps }
  else { lambda := lam, rlambda := P.rlam lam, slots := slots, steps := s.steps }

/-- `TOL_DEFAULT` (solver_nfw.h:6). -/
def tolDefault : α := 1 / 100

/-- `Solver.solve_nfw` (solver_nfw_lib.py:74-93, solver_nfw.c:8-69) run with a given amount of
fuel for the `while` loop. -/
def solveFuel (P : Par α) (gs : List (Gal α)) (fuel : Nat) : Option (Res α) :=
  (loop P gs tolDefault fuel (init gs)).map (finish P gs)

/-- Errors of the constructor. -/
inductive Err
  | valueError (msg : String)
deriving DecidableEq, Repr

/-- `Solver.__init__` (solver_nfw_lib.py:57-72) followed by the check in
`SolverObject_init` (solver_nfw_pywrap.c:74-77): only the lengths matter. -/
def construct (nu nb nr nw ncpars : Nat) : Except Err Unit :=
  if nu ≠ nb then .error (.valueError "ucounts and bcounts must be same length")
  else if nu ≠ nr then .error (.valueError "ucounts and r must be the same length")
  else if nu ≠ nw then .error (.valueError "ucounts and w must be the same length")
  else if ncpars ≠ 4 then .error (.valueError "cpars with wrong number of terms")
  else .ok ()

end Redmapper.Solver
