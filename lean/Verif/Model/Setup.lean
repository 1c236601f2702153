/-
Model of the setup shared by the cluster finders, of the matching of centers, of the richness derivatives and of the output.

  /repo/redmapper/cluster_runner.py    ClusterRunner._setup, run (matching, derivatives, masking radius), output
  /repo/redmapper/run_percolation.py   RunPercolation._more_setup (limiting luminosity)
  /repo/redmapper/runcat.py            RunCatalog._more_setup (limiting luminosity)

Simplifications: exact arithmetic; numbers are real where powers and logarithms are needed; the sky matching gives a list of pairs;
a file is its list of tables.
-/
import Mathlib.Analysis.SpecialFunctions.Pow.Real
import Mathlib.Analysis.SpecialFunctions.Log.Basic
import Mathlib.Algebra.Order.Field.Basic

namespace Redmapper.Setup

inductive Err
  | typeError
  | valueError
  | indexError
deriving DecidableEq, Repr

/-! ## Radii -/

/-- The settings of cluster_runner.py:106-142: radius and slope of the run mode and of the percolation masking. -/
structure RCfg where
  r0 : ℝ
  beta : ℝ
  prmask0 : ℝ
  prmaskBeta : ℝ
  gamma : ℝ
  zpivot : ℝ
  useRmask : Bool
  /-- `bkg_local_compute or bkg_local_use`. -/
  bkgLocal : Bool
  annulus : ℝ

/-- cluster_runner.py:110-119. -/
def rmask0 (c : RCfg) : ℝ := if c.useRmask then c.prmask0 else c.r0

def rmaskBeta (c : RCfg) : ℝ := if c.useRmask then c.prmaskBeta else c.beta

/-- cluster_runner.py:128-135. -/
noncomputable def maxrad1 (c : RCfg) : ℝ := if c.beta = 0 then 12 / 10 * c.r0 else c.r0 * (300 / 100 : ℝ) ^ c.beta

noncomputable def maxrad2 (c : RCfg) : ℝ := if c.beta = 0 then 12 / 10 * rmask0 c else rmask0 c * (300 / 100 : ℝ) ^ rmaskBeta c

/-- cluster_runner.py:128-142: the radius within which neighbors are looked for. -/
noncomputable def maxrad (c : RCfg) : ℝ :=
  let m := if maxrad2 c > maxrad1 c then maxrad2 c else maxrad1 c
  if c.bkgLocal ∧ c.annulus > m then c.annulus else m

/-- cluster.py: the radius of a cluster of richness `lam`. -/
noncomputable def rLambda (c : RCfg) (lam : ℝ) : ℝ := c.r0 * (lam / 100) ^ c.beta

/-- cluster_runner.py:501-506: the radius within which galaxies are masked. -/
noncomputable def rMask (c : RCfg) (lam z : ℝ) : ℝ :=
  let r := rmask0 c * (lam / 100) ^ rmaskBeta c * ((1 + z) / (1 + c.zpivot)) ^ c.gamma
  if r < rLambda c lam then rLambda c lam else r

/-! ## Limiting luminosity -/

section Lum

variable {α : Type} [Field α] [LinearOrder α]

/-- cluster_runner.py:261. -/
def limlum0 (lval : α) : α := if lval - 1 / 10 < 1 / 100 then 1 / 100 else lval - 1 / 10

/-- cluster_runner.py:121-124: the luminosity down to which galaxies are masked; comparing an unset value is an error. -/
def lmaskOf (lval : α) : Option α → Except Err α
  | none => .error .typeError
  | some l => if l < 0 then .ok lval else .ok l

/-- run_percolation.py:207-208: not below a tenth if the reference is above. -/
def limlumPerc (lval lim : α) : α := if 1 / 10 < lval then (if 1 / 10 < lim then lim else 1 / 10) else lim

/-- run_percolation.py:210-214, runcat.py:104-108. -/
def withMem (lval : α) (mem : Option α) (lim : α) : α :=
  match mem with
  | none => lim
  | some m => if 0 < m ∧ m < lval ∧ m < lim then m else lim

/-- run_percolation.py:216-218, runcat.py:110-113. -/
def withMask (lmask lim : α) : α := if 0 < lmask ∧ lmask < lim then lmask else lim

/-- The limiting luminosity of a percolation: `(limiting luminosity, masking luminosity)`. -/
def lumPerc (lval : α) (lmask mem : Option α) : Except Err (α × α) :=
  (lmaskOf lval lmask).map fun lm => (withMask (lmask.getD 0) (withMem lval mem (limlumPerc lval (limlum0 lval))), lm)

/-- The limiting luminosity of `RunCatalog`. -/
def lumCat (lval : α) (lmask mem : Option α) : Except Err (α × α) :=
  (lmaskOf lval lmask).map fun lm => (withMask (lmask.getD 0) (withMem lval mem (limlum0 lval)), lm)

end Lum

/-! ## Centers and galaxies -/

/-- Magnitudes of a galaxy or a center. -/
structure Phot where
  refmag : Int
  refmagErr : Int
  mag : List Int
  magErr : List Int
deriving DecidableEq, Repr

/-- `a[i0] = b[i1]` of numpy: assignments in order, the last one stays. -/
def scatter {β : Type} (a : List β) : List (Nat × β) → List β
  | [] => a
  | (i, b) :: rest => scatter (a.set i b) rest

/-- cluster_runner.py:344-349: the four columns one after the other; `pairs` are `zip(i0, i1)`. -/
def matchCenters (cat gals : List Phot) (pairs : List (Nat × Nat)) : List Phot :=
  let col := fun {β : Type} (f : Phot → β) (cat : List Phot) =>
    scatter (cat.map f) (pairs.filterMap fun p => (gals[p.2]?).map fun g => (p.1, f g))
  let rm := col (·.refmag) cat
  let rme := col (·.refmagErr) cat
  let mg := col (·.mag) cat
  let mge := col (·.magErr) cat
  (List.zip (List.zip rm rme) (List.zip mg mge)).map fun x => ⟨x.1.1, x.1.2, x.2.1, x.2.2⟩

/-- `a[:] = v` of numpy: one value goes everywhere, other lengths have to agree. -/
def assignAll {β : Type} (a v : List β) : Except Err (List β) :=
  match v with
  | [x] => .ok (a.map fun _ => x)
  | _ => if v.length = a.length then .ok v else .error .valueError

/-- cluster_runner.py:351-354: the redshifts of all centers are assigned from the matched galaxies. -/
def matchZreds (cat gals : List Int) (pairs : List (Nat × Nat)) : Except Err (List Int) :=
  assignAll cat (pairs.filterMap fun p => gals[p.2]?)

/-! ## Derivatives of the richness -/

structure Derivs where
  dz : ℝ
  dz2 : ℝ
  vdz : ℝ
  vdz2 : ℝ

/-- cluster_runner.py:478-497; `rich z` is richness and error at a redshift, `zlam`, `lam`, `lamE` the values of the cluster; values of
before stay if a richness is not positive. -/
noncomputable def derivs (rich : ℝ → ℝ × ℝ) (eps zlam lam lamE : ℝ) (old : Derivs) : Derivs :=
  let m := rich (zlam - eps)
  let p := rich (zlam + eps)
  if m.1 > 0 ∧ p.1 > 0 then
    { dz := (Real.log p.1 - Real.log m.1) / (2 * eps)
      dz2 := (Real.log p.1 + Real.log m.1 - 2 * Real.log lam) / eps ^ 2
      vdz := (p.2 ^ 2 - m.2 ^ 2) / (2 * eps)
      vdz2 := (p.2 ^ 2 + m.2 ^ 2 - 2 * lamE ^ 2) / eps ^ 2 }
  else old

/-! ## Output -/

/-- The files of a run: tables of the catalog file and of the member file. -/
structure Disk (T : Type) where
  cat : Option (List T)
  mem : Option (List T)

/-- `fitsio.write`: replaces with `clobber`, otherwise appends a table to an existing file. -/
def fwrite {T : Type} (clobber : Bool) (t : T) : Option (List T) → Option (List T)
  | none => some [t]
  | some ts => if clobber then some [t] else some (ts ++ [t])

/-- cluster_runner.py:628-662 `output`; `cat = none` after a failed setup, `mem = none` if no members were recorded. -/
def output {T : Type} (savemembers clobber : Bool) (cat mem : Option T) (d : Disk T) : Disk T :=
  match cat with
  | none => d
  | some c =>
    let d := { d with cat := fwrite clobber c d.cat }
    if savemembers then
      match mem with
      | none => d
      | some m => { d with mem := fwrite clobber m d.mem }
    else d

/-- What a reader of the first table gets. -/
def first {T : Type} (f : Option (List T)) : Option T := f.bind fun ts => ts[0]?

end Redmapper.Setup
