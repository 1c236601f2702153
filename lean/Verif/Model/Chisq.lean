/-
Model of /repo/redmapper/chisq_dist/chisq_dist.c and chisq_dist_lib.py: chi-squared of galaxy colors.

Exact arithmetic over an ordered field.  The GSL routines are parameters, with their contracts in Verif/Props/Chisq.lean.  Arrays that reach the C code
are flat buffers, read through their index.
-/
import Mathlib.Data.Matrix.Mul
import Mathlib.Data.Matrix.Diagonal
import Mathlib.Algebra.Order.Field.Basic

namespace Redmapper.Chisq

variable {α : Type} [Field α] [LinearOrder α] [IsStrictOrderedRing α] {n : Nat}

/-- The GSL routines used: `gsl_eigen_symm`, the eigenvectors of `gsl_eigen_symmv` as columns, LU inversion, LU determinant, and `log`. -/
structure Lib (n : Nat) (α : Type) where
  eig : Matrix (Fin n) (Fin n) α → Fin n → α
  vecs : Matrix (Fin n) (Fin n) α → Matrix (Fin n) (Fin n) α
  inv : Matrix (Fin n) (Fin n) α → Matrix (Fin n) (Fin n) α
  det : Matrix (Fin n) (Fin n) α → α
  log : α → α

/-- chisq_dist.h: MIN_EIGENVAL. -/
def minEigenval : α := 1 / 1000000

/-- chisq_dist.c:436-521 `check_and_fix_covmat`. -/
def checkAndFix (lib : Lib n α) (A : Matrix (Fin n) (Fin n) α) : Matrix (Fin n) (Fin n) α :=
  if ∃ i, lib.eig A i < minEigenval then
    (lib.vecs A * Matrix.diagonal fun i => if lib.eig A i < minEigenval then minEigenval else lib.eig A i) * lib.inv (lib.vecs A)
  else A

/-- chisq_dist.c:49-54: from magnitudes to colors. -/
def mrotmat : Matrix (Fin n) (Fin (n + 1)) α := fun i m => if m = i.succ then -1 else if m = i.castSucc then 1 else 0

/-- chisq_dist.c:102-114: covariance of the colors from the magnitude errors. -/
def cobsmat (magerr : Fin (n + 1) → α) : Matrix (Fin n) (Fin n) α :=
  mrotmat * (mrotmat * (Matrix.diagonal fun m => magerr m * magerr m).transpose : Matrix (Fin n) (Fin (n + 1)) α).transpose

/-- chisq_dist.c:122-131: contribution of the error of the reference magnitude. -/
def cimat (slope : Fin n → α) (refmagerr : α) : Matrix (Fin n) (Fin n) α := fun j k =>
  if j ≤ k then slope j * slope k * refmagerr * refmagerr else slope k * slope j * refmagerr * refmagerr

/-- Options of the call: chi-squared or likelihood, and no photometric errors. -/
structure Opts (α : Type) where
  doChisq : Bool
  nophotoerr : Bool
  sigint : α

/-- chisq_dist.c:149-155: the covariance used. -/
def totalCov (nophotoerr : Bool) (cov : Matrix (Fin n) (Fin n) α) (magerr : Fin (n + 1) → α) (slope : Fin n → α) (refmagerr : α) :
    Matrix (Fin n) (Fin n) α :=
  (if nophotoerr then cov else cov + cobsmat magerr) + cimat slope refmagerr

/-- chisq_dist.c:158-176: chi-squared of a color difference. -/
def chisqOf (lib : Lib n α) (A : Matrix (Fin n) (Fin n) α) (vdc : Fin n → α) : α :=
  dotProduct ((lib.inv (checkAndFix lib A)).mulVec vdc) vdc

/-- chisq_dist.c:134-183: one entry of the output, from its covariance, errors, slope and color difference. -/
def cell (lib : Lib n α) (o : Opts α) (cov : Matrix (Fin n) (Fin n) α) (magerr : Fin (n + 1) → α) (slope : Fin n → α) (refmagerr : α)
    (vdc : Fin n → α) : α :=
  if ∃ j, cov j j < o.sigint * o.sigint then (if o.doChisq then 100000000000 else -100000000000)
  else
    let A := totalCov o.nophotoerr cov magerr slope refmagerr
    if o.doChisq then chisqOf lib A vdc
    else -(1 / 2) * chisqOf lib A vdc - 1 / 2 * lib.log (lib.det (checkAndFix lib A))

/-- The buffers handed to the C function. -/
structure Buf (α : Type) where
  covmat : Nat → α
  c : Nat → α
  slope : Nat → α
  pivotmag : Nat → α
  refmag : Nat → α
  refmagerr : Nat → α
  magerr : Nat → α
  color : Nat → α
  lupcorr : Nat → α

/-- chisq_dist.c:98-185: mode 0, many galaxies at one redshift. -/
def mode0 (lib : Lib n α) (o : Opts α) (b : Buf α) (i : Nat) : α :=
  cell lib o (fun j k => b.covmat (j * n + k)) (fun m => b.magerr (i * (n + 1) + m)) (fun j => b.slope j) (b.refmagerr i)
    (fun j => (b.c j + b.slope j * (b.refmag i - b.pivotmag 0)) + b.lupcorr (i * n + j) - b.color (i * n + j))

/-- chisq_dist.c:214-298: mode 1, one galaxy at many redshifts. -/
def mode1 (lib : Lib n α) (o : Opts α) (b : Buf α) (i : Nat) : α :=
  cell lib o (fun j k => b.covmat (n * n * i + (j * n + k))) (fun m => b.magerr m) (fun j => b.slope (i * n + j)) (b.refmagerr 0)
    (fun j => (b.c (i * n + j) + b.slope (i * n + j) * (b.refmag 0 - b.pivotmag i)) + b.lupcorr (i * n + j) - b.color j)

/-- chisq_dist.c:325-418: mode 2, many galaxies each at its redshift.  Line 354 uses the slope of entry 0. -/
def mode2 (lib : Lib n α) (o : Opts α) (b : Buf α) (i : Nat) : α :=
  cell lib o (fun j k => b.covmat (n * n * i + (j * n + k))) (fun m => b.magerr (i * (n + 1) + m)) (fun j => b.slope j) (b.refmagerr i)
    (fun j => (b.c (i * n + j) + b.slope (i * n + j) * (b.refmag i - b.pivotmag i)) + b.lupcorr (i * n + j) - b.color (i * n + j))

/-! ### Validation -/

inductive Err where
  | value
  | index
  deriving DecidableEq, Repr

/-- Shapes of the arguments of `compute_chisq`; `none` is an argument that is not given. -/
structure Shapes where
  covmat : List Nat
  c : List Nat
  slope : List Nat
  pivotmag : List Nat
  refmag : List Nat
  magerr : List Nat
  color : List Nat
  refmagerr : Option (List Nat)
  lupcorr : Option (List Nat)

/-- `np.atleast_1d`. -/
def atleast1d (s : List Nat) : List Nat := if s = [] then [1] else s

/-- `a.size`. -/
def size (s : List Nat) : Nat := s.prod

/-- `a.shape[k]`: may raise IndexError. -/
def dim (s : List Nat) (k : Nat) : Except Err Nat :=
  match s[k]? with
  | some d => .ok d
  | none => .error .index

/-- `if bad: raise ValueError`. -/
def require (good : Bool) : Except Err Unit := if good then .ok () else .error .value

/-- chisq_dist_lib.py:94-97. -/
def refmagerrShape (s : Shapes) : List Nat :=
  match s.refmagerr with
  | none => [size s.refmag]
  | some r => atleast1d r

/-- What the C function is called with: the mode, the number of entries computed and the number of colors. -/
structure Call where
  mode : Nat
  ncalc : Nat
  ncol : Nat
  lupcorr : List Nat
  deriving DecidableEq, Repr

/-- chisq_dist_lib.py:126-161. -/
def validate0 (s : Shapes) (ncol : Nat) : Except Err Call := do
  require (decide ((← dim s.slope 0) = ncol))
  require (decide ((← dim (atleast1d s.pivotmag) 0) = 1))
  require (decide (s.covmat.length = 2))
  require (decide ((← dim s.covmat 0) = ncol) && decide ((← dim s.covmat 1) = ncol))
  let ngal := size (atleast1d s.refmag)
  require (decide (s.magerr.length = 2))
  require (decide ((← dim s.magerr 0) = ngal) && decide ((← dim s.magerr 1) = ncol + 1))
  require (decide (s.color.length = 2))
  require (decide ((← dim s.color 0) = ngal) && decide ((← dim s.color 1) = ncol))
  let lup := s.lupcorr.getD [ngal, ncol]
  require (decide ((← dim lup 0) = ngal))
  require (decide ((← dim lup 1) = ncol))
  require (decide (size (refmagerrShape s) = ngal))
  return { mode := 0, ncalc := ngal, ncol, lupcorr := lup }

/-- chisq_dist_lib.py:163-201. -/
def validate1 (s : Shapes) (nz ncol : Nat) : Except Err Call := do
  require (decide ((← dim s.slope 0) = nz) && decide ((← dim s.slope 1) = ncol))
  require (decide (size (atleast1d s.pivotmag) = nz))
  require (decide (s.covmat.length = 3))
  require (decide ((← dim s.covmat 2) = nz))
  require (decide ((← dim s.covmat 0) = ncol) && decide ((← dim s.covmat 1) = ncol))
  require (decide (s.magerr.length = 1))
  require (decide (size s.magerr = ncol + 1))
  require (decide (s.color.length = 1))
  require (decide (size s.color = ncol))
  let lup := s.lupcorr.getD [nz, ncol]
  require (decide ((← dim lup 0) = nz))
  require (decide ((← dim lup 1) = ncol))
  require (decide ((← dim (refmagerrShape s) 0) = 1))
  return { mode := 1, ncalc := nz, ncol, lupcorr := lup }

/-- chisq_dist_lib.py:203-235. -/
def validate2 (s : Shapes) (nz ncol : Nat) : Except Err Call := do
  require (decide ((← dim s.slope 0) = nz) && decide ((← dim s.slope 1) = ncol))
  require (decide (size (atleast1d s.pivotmag) = nz))
  require (decide (s.covmat.length = 3))
  require (decide ((← dim s.covmat 2) = nz))
  require (decide (s.magerr.length = 2))
  require (decide ((← dim s.magerr 0) = nz) && decide ((← dim s.magerr 1) = ncol + 1))
  require (decide (s.color.length = 2))
  require (decide ((← dim s.color 0) = nz) && decide ((← dim s.color 1) = ncol))
  let lup := s.lupcorr.getD [nz, ncol]
  require (decide ((← dim lup 0) = nz))
  require (decide ((← dim lup 1) = ncol))
  require (decide (size (refmagerrShape s) = nz))
  return { mode := 2, ncalc := nz, ncol, lupcorr := lup }

/-- chisq_dist_lib.py:86-237: mode and validation. -/
def validate (s : Shapes) : Except Err Call := do
  match s.c with
  | [ncol] =>
    require (decide (s.slope.length = 1))
    validate0 s ncol
  | [nz, ncol] =>
    require (decide (s.slope.length = 2))
    if s.magerr.length = 1 then validate1 s nz ncol else validate2 s nz ncol
  | _ => .error .value

/-- The arrays the C code reads. -/
inductive Arr where
  | covmat | c | slope | pivotmag | refmag | refmagerr | magerr | color | lupcorr
  deriving DecidableEq, Repr

/-- Number of elements of each array, as allocated on the Python side (chisq_dist_lib.py:86-97, 152-155). -/
def allocated (s : Shapes) (call : Call) : Arr → Nat
  | .covmat => size s.covmat
  | .c => size s.c
  | .slope => size s.slope
  | .pivotmag => size (atleast1d s.pivotmag)
  | .refmag => size (atleast1d s.refmag)
  | .refmagerr => size (refmagerrShape s)
  | .magerr => size s.magerr
  | .color => size s.color
  | .lupcorr => size call.lupcorr

/-- chisq_dist.c:69-420: every read of an input array, with its index expression, by mode. -/
inductive Reads (ncalc ncol : Nat) : Nat → Arr → Nat → Prop
  -- mode 0: lines 100, 104, 125, 171-172
  | cov0 (i t : Nat) (hi : i < ncalc) (ht : t < ncol * ncol) : Reads ncalc ncol 0 .covmat t
  | magerr0 (i m : Nat) (hi : i < ncalc) (hm : m < ncol + 1) : Reads ncalc ncol 0 .magerr (i * (ncol + 1) + m)
  | slope0 (i j : Nat) (hi : i < ncalc) (hj : j < ncol) : Reads ncalc ncol 0 .slope j
  | c0 (i j : Nat) (hi : i < ncalc) (hj : j < ncol) : Reads ncalc ncol 0 .c j
  | refmagerr0 (i : Nat) (hi : i < ncalc) : Reads ncalc ncol 0 .refmagerr i
  | refmag0 (i : Nat) (hi : i < ncalc) : Reads ncalc ncol 0 .refmag i
  | pivotmag0 (i : Nat) (hi : i < ncalc) : Reads ncalc ncol 0 .pivotmag 0
  | lupcorr0 (i j : Nat) (hi : i < ncalc) (hj : j < ncol) : Reads ncalc ncol 0 .lupcorr (i * ncol + j)
  | color0 (i j : Nat) (hi : i < ncalc) (hj : j < ncol) : Reads ncalc ncol 0 .color (i * ncol + j)
  -- mode 1: lines 214, 219, 240, 284-285
  | cov1 (t : Nat) (ht : t < ncol * ncol * ncalc) : Reads ncalc ncol 1 .covmat t
  | magerr1 (m : Nat) (hm : m < ncol + 1) : Reads ncalc ncol 1 .magerr m
  | slope1 (i j : Nat) (hi : i < ncalc) (hj : j < ncol) : Reads ncalc ncol 1 .slope (i * ncol + j)
  | c1 (i j : Nat) (hi : i < ncalc) (hj : j < ncol) : Reads ncalc ncol 1 .c (i * ncol + j)
  | refmagerr1 (i : Nat) (hi : i < ncalc) : Reads ncalc ncol 1 .refmagerr 0
  | refmag1 (i : Nat) (hi : i < ncalc) : Reads ncalc ncol 1 .refmag 0
  | pivotmag1 (i : Nat) (hi : i < ncalc) : Reads ncalc ncol 1 .pivotmag i
  | lupcorr1 (i j : Nat) (hi : i < ncalc) (hj : j < ncol) : Reads ncalc ncol 1 .lupcorr (i * ncol + j)
  | color1 (i j : Nat) (hi : i < ncalc) (hj : j < ncol) : Reads ncalc ncol 1 .color j
  -- mode 2: lines 325, 332, 354, 405-406
  | cov2 (t : Nat) (ht : t < ncol * ncol * ncalc) : Reads ncalc ncol 2 .covmat t
  | magerr2 (i m : Nat) (hi : i < ncalc) (hm : m < ncol + 1) : Reads ncalc ncol 2 .magerr (i * (ncol + 1) + m)
  | slope2 (i j : Nat) (hi : i < ncalc) (hj : j < ncol) : Reads ncalc ncol 2 .slope (i * ncol + j)
  | slope2' (i j : Nat) (hi : i < ncalc) (hj : j < ncol) : Reads ncalc ncol 2 .slope j
  | c2 (i j : Nat) (hi : i < ncalc) (hj : j < ncol) : Reads ncalc ncol 2 .c (i * ncol + j)
  | refmagerr2 (i : Nat) (hi : i < ncalc) : Reads ncalc ncol 2 .refmagerr i
  | refmag2 (i : Nat) (hi : i < ncalc) : Reads ncalc ncol 2 .refmag i
  | pivotmag2 (i : Nat) (hi : i < ncalc) : Reads ncalc ncol 2 .pivotmag i
  | lupcorr2 (i j : Nat) (hi : i < ncalc) (hj : j < ncol) : Reads ncalc ncol 2 .lupcorr (i * ncol + j)
  | color2 (i j : Nat) (hi : i < ncalc) (hj : j < ncol) : Reads ncalc ncol 2 .color (i * ncol + j)

end Redmapper.Chisq
