/-
Model of the values and weights of the mask galaxies.

  /repo/redmapper/mask.py: gen_maskgals
  /repo/redmapper/utilities.py: sample_from_pdf with infinite values

Simplifications: arithmetic is exact; an infinite value of the colour filter is `none`, and the integer a NaN is cast to is the
parameter `nanInt`; the random numbers and the Simpson integral are parameters; the columns filled when a cluster is processed
are left out.  The numbers inside each radius are in `Verif.Model.Maps`.
-/
import Verif.Model.Utilities
import Verif.Model.Cluster
import Verif.Model.Maps
import Mathlib.Analysis.SpecialFunctions.Log.Base
import Mathlib.Analysis.SpecialFunctions.Trigonometric.Basic

namespace Redmapper.MaskGen

open Redmapper.Cluster hiding Err
open Redmapper.Utilities

noncomputable section

/-- utilities.py:908-919 with infinite values `none`: their sum is infinite, finite values over it are 0 and infinite ones NaN, and
so is the cumulative sum from there on; `nanInt` is what NaN is cast to. -/
def sampleInf (nanInt : Int) (x : List ℝ) (pdf : List (Option ℝ)) (u : ℝ) : Except Err ℝ :=
  if pdf.all Option.isSome then samplePdf x (pdf.filterMap id) u
  else
    let cdfi : List Int := (List.range pdf.length).map fun i => if (pdf.take (i + 1)).all Option.isSome then 0 else nanInt
    let rand : Int := ⌊u * (x.length : ℝ)⌋
    match (List.range cdfi.length).find? fun i => decide (rand ≤ cdfi.getD i 0) with
    | none => .error .indexError
    | some i => match x[i]? with
      | none => .error .indexError
      | some v => .ok v

/-- utilities.py:906-919 `sample_from_pdf` for one draw. -/
def sampleFrom (nanInt : Int) (f : ℝ → Option ℝ) (lo hi step u : ℝ) : Except Err ℝ :=
  let x := arange lo hi step
  sampleInf nanInt x (x.map f) u

/-- utilities.py:66-67: zero to a negative power is infinite. -/
def chisqVal (k x : ℝ) : Option ℝ := if x = 0 ∧ k < 2 then none else some (chisqPdf k x)

/-- The settings read by mask.py:128-264. -/
structure Settings where
  nmag : Nat
  r0 : ℝ
  beta : ℝ
  chisqMax : ℝ
  lvalRef : ℝ
  dmagExtra : ℝ
  alpha : ℝ
  zredErr : ℝ
  annOut : ℝ

/-- The random numbers of one galaxy: uniform ones, and the normal one of mask.py:222. -/
structure Draws where
  chisq : ℝ
  m : ℝ
  r : ℝ
  phi : ℝ
  rUni : ℝ
  theta : ℝ
  dzred : ℝ

/-- The columns of one mask galaxy. -/
structure MaskGal where
  chisq : ℝ
  m : ℝ
  r : ℝ
  phi : ℝ
  x : ℝ
  y : ℝ
  rUni : ℝ
  xUni : ℝ
  yUni : ℝ
  cwt : ℝ
  chisqPdf : ℝ
  nfw : ℝ
  lumPdf : ℝ
  lumwt : ℝ
  dzred : ℝ
  zwt : ℝ

/-- mask.py:183: the faint end of the magnitudes that are sampled. -/
def faintEnd (S : Settings) : ℝ := -(5 / 2) * Real.logb 10 S.lvalRef + S.dmagExtra

/-- mask.py:213-217: the normalisation of the luminosity weight; `simps y x` is the integral. -/
def lumNorm (simps : List ℝ → List ℝ → ℝ) (S : Settings) : ℝ :=
  let steps := arange 10 (19 - (5 / 2) * Real.logb 10 S.lvalRef) (1 / 100)
  simps (steps.map fun s => schechterPdf S.alpha 19 s) steps

/-- mask.py:175-223, one galaxy. -/
def makeGal (nanInt : Int) (simps : List ℝ → List ℝ → ℝ) (S : Settings) (D : Draws) : Except Err MaskGal :=
  let ncol : ℝ := (S.nmag : ℝ) - 1
  match sampleFrom nanInt (chisqVal ncol) 0 S.chisqMax (S.chisqMax / 10000) D.chisq with
  | .error e => .error e
  | .ok c =>
  match sampleFrom nanInt (fun m => some (schechterPdf S.alpha 0 m)) (-(5 / 2) * Real.logb 10 10) (faintEnd S) (2 / 1000) D.m with
  | .error e => .error e
  | .ok m =>
  match sampleFrom nanInt (fun r => some (nfwPdf (15 / 100) (1 / 10) true r)) (1 / 1000) (Maps.maxRad S.r0 S.beta) (1 / 1000) D.r with
  | .error e => .error e
  | .ok r =>
    let phi := 2 * Real.pi * D.phi
    let ru := S.annOut * Real.sqrt D.rUni
    let th := D.theta * 2 * Real.pi
    let lumPdf := schechterPdf S.alpha 19 (m + 19)
    .ok { chisq := c, m := m, r := r, phi := phi, x := r * Real.cos phi, y := r * Real.sin phi, rUni := ru,
          xUni := ru * Real.cos th, yUni := ru * Real.sin th, cwt := Cluster.chisqPdf ncol c, chisqPdf := Cluster.chisqPdf ncol c,
          nfw := nfwPdf (15 / 100) (1 / 10) true r, lumPdf := lumPdf, lumwt := lumPdf / lumNorm simps S, dzred := D.dzred,
          zwt := 1 / (Real.sqrt (2 * Real.pi) * S.zredErr) * Real.exp (-(D.dzred ^ 2) / (2 * S.zredErr ^ 2)) }

end

end Redmapper.MaskGen
