/-
Model of the fit of one correlation of the red sequence.

  /repo/redmapper/fitters.py   RedSequenceOffDiagonalFitter (470-663)

Simplifications: real numbers; the cubic spline and the smallest eigenvalue are parameters; a logarithm that is not finite is the value the
code puts in its place. The minimizer is an arbitrary program that asks for values of the cost, as in `Model/Fitters.lean`. The arrays have
one entry per galaxy or node; the errors of a galaxy are a function of the band.
-/
import Verif.Model.Fitters
import Mathlib.Analysis.SpecialFunctions.Log.Basic
import Mathlib.Analysis.SpecialFunctions.Sqrt
import Mathlib.Analysis.Real.Pi.Bounds

namespace Redmapper.OffDiag

open Redmapper.Fitters (Minimizer Bound run)

/-- One row of the arrays given to the constructor, fitters.py:517-524. -/
structure Gal where
  z : ℝ
  d1 : ℝ
  d2 : ℝ
  s1 : ℝ
  s2 : ℝ
  err : Nat → ℝ
  prob : ℝ
  bkg : ℝ

/-- fitters.py:517-548: what the constructor keeps; `ncol` is the number of colors of the matrices handed to `fit`. -/
structure Fitter where
  nodes : List ℝ
  gals : List Gal
  j : Nat
  k : Nat
  prior : ℝ
  minEig : ℝ
  ncol : Nat

/-- A symmetric or other two by two matrix: the entries [0,0], [0,1], [1,0], [1,1]. -/
structure M2 where
  a : ℝ
  b : ℝ
  c : ℝ
  d : ℝ

/-- The numbers of rows of the arrays of the constructor. -/
structure Sizes where
  z : Nat
  d1 : Nat
  d2 : Nat
  s1 : Nat
  s2 : Nat
  probs : Nat
  bkgs : Nat
  errDims : List Nat

/-- fitters.py:526-545: the checks of the constructor; `true` if it raises no ValueError. -/
def checks (n : Sizes) : Bool :=
  if n.z ≠ n.d1 then false
  else if n.z ≠ n.d2 then false
  else if n.z ≠ n.s1 then false
  else if n.z ≠ n.s2 then false
  else if n.z ≠ n.probs then false
  else if n.z ≠ n.bkgs then false
  else if n.errDims.length ≠ 2 then false
  else if n.errDims.head? ≠ some n.z then false
  else true

/-- fitters.py:554-559: the noise of the two colors of a galaxy. -/
noncomputable def noise (F : Fitter) (g : Gal) : M2 :=
  { a := g.err F.j ^ 2 + g.err (F.j + 1) ^ 2
    b := if F.k = F.j + 1 then -(g.err F.k ^ 2) else 0
    c := if F.k = F.j + 1 then -(g.err F.k ^ 2) else 0
    d := g.err F.k ^ 2 + g.err (F.k + 1) ^ 2 }

/-- `np.clip(x, -0.9, 0.9)`, fitters.py:616. -/
noncomputable def clip9 (x : ℝ) : ℝ := min (max x (-(9 / 10))) (9 / 10)

/-- What calls change: entries [0,1] and [1,0] of `_c_int` (fitters.py:550-552, 619-620), and the matrices of the caller (fitters.py:579,
623-624), by row, column and node. -/
structure St where
  off : List ℝ
  full : Option (Nat → Nat → Nat → ℝ)

/-- fitters.py:615-620. -/
noncomputable def setOff (spl : List ℝ → List ℝ → ℝ → ℝ) (F : Fitter) (pars : List ℝ) : List ℝ :=
  F.gals.map fun g => clip9 (spl F.nodes pars g.z) * g.s1 * g.s2

/-- fitters.py:622-624: the row, then the column. -/
noncomputable def setFull (F : Fitter) (pars : List ℝ) (A : Nat → Nat → Nat → ℝ) : Nat → Nat → Nat → ℝ :=
  let A1 := fun r c i => if r = F.j ∧ c = F.k then pars.getD i 0 * √(A F.j F.j i) * √(A F.k F.k i) else A r c i
  fun r c i => if r = F.k ∧ c = F.j then A1 F.j F.k i else A1 r c i

/-- fitters.py:626-641: the sum of the matrices, its inverse, the density, the mixture; fitters.py:643-644: -100 for a logarithm that is
not finite, which is the case if the determinant is not positive (its power -0.5 is not a number, or infinite). -/
noncomputable def logLike (F : Fitter) (g : Gal) (off : ℝ) : ℝ :=
  let n := noise F g
  let C : M2 := { a := g.s1 ^ 2 + n.a, b := off + n.b, c := off + n.c, d := g.s2 ^ 2 + n.d }
  let det := C.a * C.d - C.b * C.c
  let W : M2 := { a := C.d / det, b := -C.c / det, c := -C.b / det, d := C.a / det }
  let e := -(1 / 2) * (W.a * g.d1 * g.d1 + (W.b + W.c) * g.d1 * g.d2 + W.d * g.d2 * g.d2)
  let gci := (1 / √det) / (2 * Real.pi) * Real.exp e
  let x := g.prob * gci + (1 - g.prob) * g.bkg
  if det ≤ 0 ∨ x ≤ 0 then -100 else Real.log x

/-- fitters.py:653-659: a node whose matrix has too small an eigenvalue. -/
noncomputable def wall (eig : Nat → (Nat → Nat → ℝ) → ℝ) (F : Fitter) : Option (Nat → Nat → Nat → ℝ) → Bool
  | none => false
  | some A => (List.range F.nodes.length).any fun i => decide (eig F.ncol (fun r c => A r c i) < F.minEig)

/-- fitters.py:600-663 `__call__`: the cost and the state afterwards. A prior width of zero is the only way to a sum that is not finite
(fitters.py:648-649). -/
noncomputable def cost (spl : List ℝ → List ℝ → ℝ → ℝ) (eig : Nat → (Nat → Nat → ℝ) → ℝ) (F : Fitter) (pars : List ℝ) (s : St) : ℝ × St :=
  let s1 : St := { off := setOff spl F pars, full := s.full.map (setFull F pars) }
  let vals := (F.gals.zip s1.off).map fun go => logLike F go.1 go.2
  let t := -(vals.sum - (pars.map fun p => 1 / 2 * (p / F.prior) ^ 2).sum)
  (if F.prior = 0 then 100000000000 else if wall eig F s1.full then t + 100000 else t, s1)

/-- fitters.py:581-583. -/
noncomputable def bounds (F : Fitter) : List (Bound ℝ) := F.nodes.map fun _ => ⟨some (-(9 / 10)), some (9 / 10)⟩

/-- fitters.py:561-598 `fit`: the correlations, and the state afterwards; the matrices are not copied. -/
noncomputable def fit (M : Minimizer ℝ) (spl : List ℝ → List ℝ → ℝ → ℝ) (eig : Nat → (Nat → Nat → ℝ) → ℝ) (F : Fitter) (p0 : List ℝ)
    (full : Option (Nat → Nat → Nat → ℝ)) (s : St) : List ℝ × St :=
  run (cost spl eig F) (M (bounds F) p0) { s with full := full }

end Redmapper.OffDiag
