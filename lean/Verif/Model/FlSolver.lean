/-
Model of the richness solver in floating point: the same C code as `Solver`, with values that may be infinite or not a number, and with rounding.

  /repo/redmapper/solver_nfw/nfw_weights.c
  /repo/redmapper/solver_nfw/solver_nfw.c

Simplifications: a double is a rational number, an infinity, or not a number; zeros have no sign (a quotient by zero is then an infinity of the
sign of the numerator: the code replaces both infinities by zero); `pow`, `log`, `exp`, `erf` are arbitrary functions; no fused operations.
-/
import Mathlib.Data.Rat.Floor
import Mathlib.Data.Int.Log
import Mathlib.Data.Int.Order.Basic
import Mathlib.Algebra.Order.Field.Basic

namespace Redmapper.FlSolver

/-- A C double. -/
inductive XF where
  | fin (q : ℚ)
  | pinf
  | ninf
  | nan
deriving DecidableEq, Repr

namespace XF

/-- C99 `x < y` (solver_nfw.c:21, 23, 30, 40, 44-45, 63; nfw_weights.c:41, 56, 60): false if one is not a number. -/
def lt : XF → XF → Bool
  | nan, _ => false
  | _, nan => false
  | fin a, fin b => decide (a < b)
  | ninf, ninf => false
  | ninf, _ => true
  | _, ninf => false
  | pinf, _ => false
  | fin _, pinf => true

/-- C99 `x <= y` (nfw_weights.c:39). -/
def le : XF → XF → Bool
  | nan, _ => false
  | _, nan => false
  | fin a, fin b => decide (a ≤ b)
  | ninf, _ => true
  | _, ninf => false
  | _, pinf => true
  | pinf, fin _ => false

/-- C99 unary minus. -/
def neg : XF → XF
  | fin a => fin (-a)
  | pinf => ninf
  | ninf => pinf
  | nan => nan

/-- `fabs` (solver_nfw.c:21). -/
def abs : XF → XF
  | fin a => fin |a|
  | pinf => pinf
  | ninf => pinf
  | nan => nan

/-- `finite` (nfw_weights.c:36). -/
def finite : XF → Bool
  | fin _ => true
  | _ => false

/-- IEEE 754 addition; `R` rounds. -/
def add (R : ℚ → XF) : XF → XF → XF
  | fin a, fin b => R (a + b)
  | nan, _ => nan
  | _, nan => nan
  | pinf, ninf => nan
  | ninf, pinf => nan
  | pinf, _ => pinf
  | _, pinf => pinf
  | ninf, _ => ninf
  | _, ninf => ninf

/-- IEEE 754 subtraction. -/
def sub (R : ℚ → XF) (x y : XF) : XF := add R x (neg y)

/-- The infinity with the sign of `a`; an infinity times zero is not a number. -/
def infSign (a : ℚ) : XF := if 0 < a then pinf else if a < 0 then ninf else nan

/-- IEEE 754 multiplication. -/
def mul (R : ℚ → XF) : XF → XF → XF
  | fin a, fin b => R (a * b)
  | nan, _ => nan
  | _, nan => nan
  | fin a, pinf => infSign a
  | fin a, ninf => infSign (-a)
  | pinf, fin b => infSign b
  | ninf, fin b => infSign (-b)
  | pinf, pinf => pinf
  | ninf, ninf => pinf
  | pinf, ninf => ninf
  | ninf, pinf => ninf

/-- IEEE 754 division. -/
def div (R : ℚ → XF) : XF → XF → XF
  | fin a, fin b => if b = 0 then infSign a else R (a / b)
  | nan, _ => nan
  | _, nan => nan
  | fin _, _ => fin 0
  | pinf, fin b => if b < 0 then ninf else pinf
  | ninf, fin b => if b < 0 then pinf else ninf
  | _, _ => nan

end XF

/-- IEEE 754, round to nearest, ties to even. -/
def roundEven (x : ℚ) : ℤ :=
  if x - ⌊x⌋ < 1 / 2 then ⌊x⌋
  else if 1 / 2 < x - ⌊x⌋ then ⌊x⌋ + 1
  else if ⌊x⌋ % 2 = 0 then ⌊x⌋ else ⌊x⌋ + 1

/-- IEEE 754 binary64: exponent of the last digit of a number that is not zero. -/
def ulpExp (q : ℚ) : ℤ := max (Int.log 2 |q|) (-1022) - 52

/-- IEEE 754 binary64: rounding of a rational number, with subnormal numbers and overflow. -/
def r64 (q : ℚ) : XF :=
  if q = 0 then .fin 0
  else
    let v := (roundEven (q / 2 ^ ulpExp q) : ℚ) * 2 ^ ulpExp q
    if (2 : ℚ) ^ (1024 : Nat) ≤ v then .pinf else if v ≤ -(2 : ℚ) ^ (1024 : Nat) then .ninf else .fin v

open XF

/-- A galaxy: `ucounts[i]`, `bcounts[i]`, `r[i]`, `w[i]` (solver_nfw.h:14-31). -/
structure Gal where
  u : XF
  b : XF
  r : XF
  w : XF
deriving DecidableEq, Repr

/-- `p[i]`, `wt[i]`, `theta_r[i]`. -/
structure Slot where
  p : XF
  wt : XF
  th : XF
deriving DecidableEq, Repr

/-- `rlam x` is `r0*pow(x/100, beta)` (nfw_weights.c:21); `nfwnorm` is nfw_weights.c:24-27; `soft d` is `0.5 + 0.5*erf(d*rsig_const)` (nfw_weights.c:18, 66);
`c0..c3` are `cpars`. -/
structure Par where
  rlam : XF → XF
  nfwnorm : XF → XF
  soft : XF → XF
  rsig : XF
  c0 : XF
  c1 : XF
  c2 : XF
  c3 : XF
  tol : XF

/-- nfw_weights.c:29-73, the body of the loop for one galaxy. -/
def weight1 (R : ℚ → XF) (P : Par) (lam : XF) (updateAll : Bool) (g : Gal) (s : Slot) : Slot :=
  let rl := P.rlam lam
  let sg := mul R (mul R lam g.u) (P.nfwnorm rl)
  let p0 := if updateAll then div R sg (add R sg g.b) else s.p
  let p := if finite p0 then p0 else fin 0
  if le P.rsig (fin 0) then
    if lt g.r rl then
      { p := p, wt := if updateAll then mul R p g.w else s.wt, th := fin 1 }
    else
      { p := p, wt := fin 0, th := s.th }
  else
    let th :=
      if lt g.r (sub R rl (mul R (fin 5) P.rsig)) then fin 1
      else if lt (add R rl (mul R (fin 5) P.rsig)) g.r then fin 0
      else P.soft (sub R rl g.r)
    { p := p, wt := if updateAll then mul R (mul R p g.w) th else s.wt, th := th }

/-- nfw_weights.c:29-73. -/
def weights (R : ℚ → XF) (P : Par) (lam : XF) (updateAll : Bool) (gs : List Gal) (ss : List Slot) : List Slot :=
  List.zipWith (weight1 R P lam updateAll) gs ss

/-- solver_nfw.c:29-30 and 39-40. -/
def cval (R : ℚ → XF) (P : Par) (rl : XF) : XF :=
  let c := add R (add R (add R P.c3 (mul R P.c2 rl)) (mul R (mul R P.c1 rl) rl)) (mul R (mul R (mul R P.c0 rl) rl) rl)
  if lt c (fin 0) then fin 0 else c

/-- solver_nfw.c:25-32 and 35-42. -/
def outOf (R : ℚ → XF) (P : Par) (lam : XF) (ss : List Slot) : XF :=
  add R (ss.foldl (fun a s => add R a s.wt) (fin 0)) (mul R lam (cval R P (P.rlam lam)))

/-- Local variables (solver_nfw.c:13-19), the output slots and a count of iterations. -/
structure St where
  lo : XF
  hi : XF
  outlo : XF
  slots : List Slot
  steps : Nat

/-- solver_nfw.c:17-19. -/
def init (gs : List Gal) : St :=
  { lo := fin (1 / 2), hi := fin 2000, outlo := fin (-1), slots := gs.map fun _ => ⟨fin 0, fin 0, fin 0⟩, steps := 0 }

/-- solver_nfw.c:22-50, one iteration; the constant 0.9 is rounded. -/
def step (R : ℚ → XF) (P : Par) (gs : List Gal) (s : St) : St :=
  let mid := div R (add R s.hi s.lo) (fin 2)
  let fresh := lt s.outlo (fin 0)
  let slots1 := if fresh then weights R P s.lo true gs s.slots else s.slots
  let outlo1 := if fresh then outOf R P s.lo slots1 else s.outlo
  let slots2 := weights R P mid true gs slots1
  let outmid := outOf R P mid slots2
  let outlo2 := if lt outlo1 (fin 1) then R (9 / 10) else outlo1
  if lt (fin 0) (mul R (sub R outlo2 s.lo) (sub R outmid mid)) then
    { lo := mid, hi := s.hi, outlo := fin (-1), slots := slots2, steps := s.steps + 1 }
  else
    { lo := s.lo, hi := mid, outlo := outlo2, slots := slots2, steps := s.steps + 1 }

/-- solver_nfw.c:21, the loop, with fuel; `none`: not finished. -/
def loop (R : ℚ → XF) (P : Par) (gs : List Gal) : Nat → St → Option St
  | fuel, s =>
    if lt (mul R (fin 2) P.tol) (abs (sub R s.hi s.lo)) then
      match fuel with
      | 0 => none
      | fuel + 1 => loop R P gs fuel (step R P gs s)
    else some s

structure Res where
  lambda : XF
  rlambda : XF
  slots : List Slot
  steps : Nat

/-- solver_nfw.c:53-66. -/
def finish (R : ℚ → XF) (P : Par) (gs : List Gal) (s : St) : Res :=
  let lam := div R (add R s.lo s.hi) (fin 2)
  let slots := weights R P lam false gs s.slots
  if lt lam (fin 1) then { lambda := fin (-1), rlambda := fin (-1), slots := slots, steps := s.steps }
  else { lambda := lam, rlambda := P.rlam lam, slots := slots, steps := s.steps }

/-- solver_nfw.c:8-69. -/
def solveFuel (R : ℚ → XF) (P : Par) (gs : List Gal) (fuel : Nat) : Option Res := (loop R P gs fuel (init gs)).map (finish R P gs)

end Redmapper.FlSolver
