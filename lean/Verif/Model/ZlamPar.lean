/-
Model of the construction of the redshift corrections.

  /repo/redmapper/zlambda.py                    ZlambdaCorrectionPar.__init__ (558-663)
  /repo/redmapper/calibration/zlambdacal.py     the structure and the header that the calibration makes (238-254, 315-326, 343-353)

Simplifications: numbers are elements of a linearly ordered field; the cubic spline and the rounding of numpy are parameters; a file is its
header and its row. A table of node values is one-dimensional, or two-dimensional given by its columns.
-/
import Verif.Model.Zlambda

namespace Redmapper.ZlamPar

open Redmapper.Zlambda (CorrTab scatterTable)

variable {α : Type} [Field α] [LinearOrder α]

inductive Err
  | runtimeError
  | ioError
  | keyError
  | valueError
  | indexError
deriving DecidableEq, Repr

/-- Values at nodes as numpy holds them: an array of one dimension, or the columns of an array of two. -/
inductive Tab (α : Type) where
  | flat (v : List α)
  | cols (c : List (List α))
deriving DecidableEq

/-- The row of a file, or the Entry given (zlambdacal.py:238-247); `niter` is missing in old files (zlambda.py:624-628). -/
structure Pars (α : Type) where
  niter : Option Nat
  offsetZ : List α
  slopeZ : List α
  offsetTrue : Tab α
  slopeTrue : Tab α
  scatterTrue : Tab α
  zredUncorr : List α
deriving DecidableEq

/-- The header: ZRANGE0, ZRANGE1, ZBINSIZE, ZLAMPIV. -/
structure Hdr (α : Type) where
  zrange0 : Option α
  zrange1 : Option α
  zbinsize : Option α
  zlampiv : Option α
deriving DecidableEq

/-- The object. `tabs` has one entry per iteration. -/
structure Corr (α : Type) where
  zrange : α × α
  zbinsize : α
  pivot : α
  z : List α
  extrapolated : List Bool
  tabs : List (CorrTab α)
  zredUncorr : List α

/-- A value that is needed. -/
def need {β : Type} (e : Err) : Option β → Except Err β
  | some x => .ok x
  | none => .error e

/-- A range from the header, zlambda.py:595. -/
def hdrRange (h : Hdr α) : Except Err (α × α) := match h.zrange0, h.zrange1 with
  | some a, some b => .ok (a, b)
  | _, _ => .error .keyError

/-- `CubicSpline(x, y)(z)`, zlambda.py:643-650. With a table of two dimensions the differences of the values, divided by those of the nodes,
have two dimensions, which numpy does not assign to one (utilities.py:357-359); for three nodes and one column it does, and then the values for
the redshifts have two dimensions (utilities.py:405), which are not assigned to the row, as there are at least two redshifts. -/
def splineOf (spl : List α → List α → α → α) (x : List α) (z : List α) : Tab α → Except Err (List α)
  | .flat v => .ok (z.map (spl x v))
  | .cols _ => .error .valueError

/-- `pars.offset_true[:, i]`, zlambda.py:653: an array of one dimension has no second index. -/
def column (i : Nat) : Tab α → Except Err (Tab α)
  | .flat _ => .error .indexError
  | .cols c => match c[i]? with
    | some v => .ok (.flat v)
    | none => .error .indexError

/-- zlambda.py:643-650: the tables of one iteration. -/
def tabOf (spl : List α → List α → α → α) (p : Pars α) (z : List α) (o s c : Tab α) : Except Err (CorrTab α) := do
  let ov ← splineOf spl p.offsetZ z o
  let sv ← splineOf spl p.slopeZ z s
  let cv ← splineOf spl p.slopeZ z c
  return { offset := ov, slope := sv, scatter := scatterTable cv }

/-- The loop of zlambda.py:652: one result per index, or the first error. -/
def mapE {β γ : Type} (f : β → Except Err γ) : List β → Except Err (List γ)
  | [] => .ok []
  | x :: xs => match f x with
    | .error e => .error e
    | .ok y => match mapE f xs with
      | .error e => .error e
      | .ok ys => .ok (y :: ys)

/-- zlambda.py:642-660. -/
def tabsOf (spl : List α → List α → α → α) (p : Pars α) (z : List α) : Except Err (List (CorrTab α)) :=
  let n := p.niter.getD 1
  if n = 1 then do
    let t ← tabOf spl p z p.offsetTrue p.slopeTrue p.scatterTrue
    return [t]
  else mapE (fun i => do
    let o ← column i p.offsetTrue
    let s ← column i p.slopeTrue
    let c ← column i p.scatterTrue
    tabOf spl p z o s c) (List.range n)

/-- zlambda.py:621-663: from the chosen values on. -/
def build (spl : List α → List α → α → α) (rnd : α → Int) (zrange : α × α) (zbinsize pivot : α) (p : Pars α) : Except Err (Corr α) :=
  let nbins := rnd ((zrange.2 - zrange.1) / zbinsize)
  if nbins < 0 then .error .valueError
  else do
    let z := (List.range nbins.toNat).map fun i : Nat => zbinsize * (i : α) + zrange.1
    let tabs ← tabsOf spl p z
    return { zrange, zbinsize, pivot, z
             extrapolated := z.map fun x => decide (x < p.offsetZ.getD 0 0) || decide (x > p.offsetZ.getD (p.offsetZ.length - 1) 0)
             tabs, zredUncorr := z.map (spl p.offsetZ p.zredUncorr) }

/-- zlambda.py:558-619 `__init__`; `files` are the files that exist. -/
def init {N : Type} (spl : List α → List α → α → α) (rnd : α → Int) (files : N → Option (Hdr α × Pars α)) (parfile : Option N) (pars : Option (Pars α))
    (zrange : Option (α × α)) (zbinsize pivot : Option α) : Except Err (Corr α) :=
  match parfile, pars with
  | none, none => .error .runtimeError
  | some f, _ => match files f with
    | none => .error .ioError
    | some (h, p) => do
      let zr ← match zrange with
        | some r => .ok r
        | none => hdrRange h
      let zb ← match zbinsize with
        | some b => .ok b
        | none => need .keyError h.zbinsize
      let pv ← match pivot with
        | some v => .ok v
        | none => need .keyError h.zlampiv
      build spl rnd zr zb pv p
  | none, some p => do
    let zr ← need .valueError zrange
    let zb ← need .valueError zbinsize
    let pv ← need .valueError pivot
    build spl rnd zr zb pv p

/-- zlambdacal.py:238-254 and 315-317: the structure after the fits of the iterations: two-dimensional arrays with one column per iteration,
zeros for those not done yet. -/
def calPars (niter : Nat) (nodes slopeNodes : List α) (done : List (CorrTab α)) (zred : List α) : Pars α :=
  let zero : CorrTab α := ⟨List.replicate nodes.length 0, List.replicate slopeNodes.length 0, List.replicate slopeNodes.length 0⟩
  let all := (List.range niter).map fun i => done.getD i zero
  { niter := some niter, offsetZ := nodes, slopeZ := slopeNodes, offsetTrue := .cols (all.map CorrTab.offset)
    slopeTrue := .cols (all.map CorrTab.slope), scatterTrue := .cols (all.map CorrTab.scatter), zredUncorr := zred }

/-- zlambdacal.py:347-351: the header of the file; `zr`, `bs`, `piv` are of the configuration. -/
def calHdr (zr : α × α) (bs piv : α) : Hdr α := ⟨some (zr.1 - 2 / 100), some (zr.2 + 7 / 100), some bs, some piv⟩

/-- zlambdacal.py:321-326: the correction used within the calibration. -/
def calCorr {N : Type} (spl : List α → List α → α → α) (rnd : α → Int) (files : N → Option (Hdr α × Pars α)) (zr : α × α) (bs piv : α) (p : Pars α) :
    Except Err (Corr α) :=
  init spl rnd files none (some p) (some (zr.1 - 2 / 100, zr.2 + 7 / 100)) (some bs) (some piv)

end Redmapper.ZlamPar
