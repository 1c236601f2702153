/-
Model of reading (part of) a galaxy catalog: galaxy.py:89-366 `GalaxyCatalog.from_galfile` and galaxy.py:476-521 `get_subpixel_indices`.

Simplifications.
* `nside` is `None`, 0, or a power of two, written as its exponent (the level).
* The HEALPix routines are parameters (`Sky`); what is assumed of them is stated where it is used.
* The galaxy files are the lists of their rows, of a type `ρ`; zred files are lists of rows of a type `ζ`.  A missing zred file is `none`.  Galaxy
  files that are missing (an `OSError`) are not modelled.
* `numpy.unique` is modelled by removing repeats: its results are only searched.
* Tests whether the columns `ztrue` and `zspec` exist are given by the flags of the table (`has_truth`, `has_spec`).
-/
import Verif.Model.Consolidate
import Verif.Model.Centering

namespace Redmapper.GalRead

open Redmapper.Consolidate (Geom)
open Redmapper.Centering (whereIdx)
open Redmapper.Finders (takeRows)

inductive Err | valueError | nameError | notImplemented | typeError | indexError | runtimeError
  deriving DecidableEq, Repr

/-- The pixelisation with what is needed for borders: ring/nest conversion, `boundaries level pixel step`, and `query_disc level point` for the
border requested. -/
structure Sky (X : Type) extends Geom X where
  r2n : Nat → Nat → Nat
  n2r : Nat → Nat → Nat
  edge : Nat → Nat → Nat → List X
  disc : Nat → X → List Nat

/-- The table and its files. -/
structure Table (ρ : Type) where
  pixelated : Bool
  fits : Bool
  level : Nat
  hpix : List Nat
  ngals : List Nat
  files : List (List ρ)
  hasTruth : Bool
  hasSpec : Bool

/-- The zred table; `whole` holds the rows of a zred file that is not pixelated. -/
structure ZTable (ζ : Type) where
  pixelated : Bool
  whole : List ζ
  files : List (Option (List ζ))

/-- The arguments. -/
structure Req (α : Type) where
  nside : Option (Option Nat)
  hpix : List Int
  border : α
  truth : Bool
  zspec : Bool
  temp : Bool
  magLo : α
  magHi : α
  chisqMax : α

variable {α : Type} [Field α] [LinearOrder α] {X ρ ζ : Type}

/-- `esutil.numpy_util.match(a, b)[1]`: positions in `b` of the values that are in `a`, which must have no repeats. -/
def matchIdx (a b : List Int) : Except Err (List Nat) :=
  if a.Nodup then .ok (whereIdx (fun v => decide (v ∈ a)) b) else .error .valueError

/-- galaxy.py:508-519: the table pixels around the boundary too. -/
def withBorder (S : Sky X) (tl : Nat) (thpix : List Nat) (k : Nat) (p : Nat) (idx : List Nat) : Except Err (List Nat) :=
  let inhpix := takeRows thpix idx ++ (S.edge k p (2 ^ (tl - k))).flatMap fun v => S.disc tl v
  matchIdx (inhpix.dedup.map fun (q : Nat) => (q : Int)) (thpix.map fun (q : Nat) => (q : Int))

/-- galaxy.py:476-521 `get_subpixel_indices`, for a request that has passed the checks of `from_galfile`. -/
def subIndices (S : Sky X) (tl : Nat) (thpix : List Nat) (nside : Option Nat) (hpix : List Int) (border : Bool) : Except Err (List Nat) :=
  match nside, hpix with
  | none, _ => .ok (List.range thpix.length)
  | _, [] => .ok (List.range thpix.length)
  | some k, h :: t => do
    let idx ← matchIdx (h :: t) (thpix.map fun q => (S.pix k (S.centre tl q) : Int))
    if border then withBorder S tl thpix k h.toNat idx else .ok idx

/-- galaxy.py:191-212: table entries without zred file are left out. -/
def withZred (zt : Option (ZTable ζ)) (idx : List Nat) : Except Err (List Nat) :=
  match zt with
  | none => .ok idx
  | some z =>
    let good := idx.filter fun i => ((z.files[i]?).join).isSome
    if good.length = 0 then .error .valueError else .ok good

/-- galaxy.py:214-230: the fine pixels (nside 512, level 9) of the region with its border. -/
def inPixels (S : Sky X) (k : Nat) (p : Nat) : List Nat :=
  let d := 9 - k
  let inside := (List.range (4 ^ d)).map fun j => S.n2r 9 (j + S.r2n k p * 4 ^ d)
  (inside ++ (S.edge k p (2 ^ d)).flatMap fun v => S.disc 9 v).dedup

/-- `a[:] = rows` for `n` entries of `a`: a single row is broadcast. -/
def fill {σ : Type} (n : Nat) (rows : List σ) : Except Err (List σ) :=
  if rows.length = n then .ok rows
  else match rows with
  | [r] => .ok (List.replicate n r)
  | _ => .error .valueError

/-- galaxy.py:301-327: the rows of one table entry, with the zreds. -/
def entry (tab : Table ρ) (zt : Option (ZTable ζ)) (i : Nat) : Except Err (List (ρ × Option ζ)) := do
  let n := tab.ngals.getD i 0
  let rows ← fill n (tab.files.getD i [])
  match zt with
  | none => .ok (rows.map fun r => (r, none))
  | some z => do
    let zr ← fill n (((z.files[i]?).join).getD [])
    .ok (rows.zip (zr.map some))

/-- The rows of the table entries, in order. -/
def entries (tab : Table ρ) (zt : Option (ZTable ζ)) : List Nat → Except Err (List (List (ρ × Option ζ)))
  | [] => .ok []
  | i :: is => do
    let r ← entry tab zt i
    let rs ← entries tab zt is
    .ok (r :: rs)

/-- galaxy.py:329-334: the cuts made when a temporary file is used. -/
def guse (refmag : ρ → α) (chisq : ζ → α) (rq : Req α) (r : ρ × Option ζ) : Bool :=
  (decide (rq.magLo < refmag r.1) && decide (refmag r.1 < rq.magHi)) &&
  match r.2 with
  | none => true
  | some z => decide (chisq z < rq.chisqMax)

/-- galaxy.py:338-341, 359-363: `match(inhpix, ipring)` and the rows matched. -/
def trimTo (S : Sky X) (pos : ρ → X) (fine : Option (List Nat)) (rows : List (ρ × Option ζ)) : List (ρ × Option ζ) :=
  match fine with
  | none => rows
  | some inhpix => takeRows rows (whereIdx (fun r => decide (S.pix 9 (pos r.1) ∈ inhpix)) rows)

/-- galaxy.py:136-141: is a pixel out of range? -/
def outOfRange (S : Sky X) (ns : Option Nat) (hpix : List Int) : Bool :=
  match ns with
  | none => false
  | some k => hpix.any fun h => decide (h < 0) || decide ((S.npix k : Int) ≤ h)

/-- galaxy.py:128-146: the checks of the arguments. -/
def checks (S : Sky X) (rq : Req α) : Except Err (Option Nat) :=
  if rq.hpix ≠ [] ∧ rq.nside = none then .error .valueError
  else if rq.border < 0 then .error .valueError
  else match rq.nside with
  | none => .error .typeError
  | some ns =>
    if outOfRange S ns rq.hpix then .error .nameError
    else if 0 < rq.border ∧ rq.hpix ≠ [] ∧ rq.hpix.length ≠ 1 then .error .notImplemented
    else .ok ns

/-- galaxy.py:159-166: a galaxy file that is not pixelated. -/
def readPlain (tab : Table ρ) (zt : Option (ZTable ζ)) : Except Err (List (ρ × Option ζ)) :=
  match zt with
  | none => .ok (tab.files.flatten.map fun r => (r, none))
  | some z => if z.whole.length ≠ tab.files.flatten.length then .error .valueError else .ok (tab.files.flatten.zip (z.whole.map some))

/-- galaxy.py:214-216: is the border trimmed, and to which fine pixels. -/
def fineOf (S : Sky X) (rq : Req α) (ns : Option Nat) : Option (List Nat) :=
  match ns, rq.hpix with
  | some k, [h] => if 0 < rq.border then some (inPixels S k h.toNat) else none
  | _, _ => none

/-- galaxy.py:168-170: a zred file that is not pixelated. -/
def zPlain (zt : Option (ZTable ζ)) : Bool :=
  match zt with
  | none => false
  | some z => !z.pixelated

/-- galaxy.py:178-181. -/
def tooFine (ns : Option Nat) (tl : Nat) : Bool :=
  match ns with
  | none => false
  | some k => decide (tl < k)

/-- galaxy.py:89-366 `from_galfile`. -/
def fromGalfile (S : Sky X) (pos : ρ → X) (refmag : ρ → α) (chisq : ζ → α) (tab : Table ρ) (zt : Option (ZTable ζ)) (rq : Req α) :
    Except Err (List (ρ × Option ζ)) := do
  let ns ← checks S rq
  if !tab.pixelated then readPlain tab zt
  else if zPlain zt then .error .valueError
  else if !tab.fits then .error .valueError
  else if tooFine ns tab.level then .error .valueError
  else do
    let idx ← subIndices S tab.level tab.hpix ns rq.hpix (decide (0 < rq.border))
    let idx ← withZred zt idx
    if idx.length = 0 then .error .indexError
    else if rq.truth && !tab.hasTruth then .error .runtimeError
    else if rq.zspec && !tab.hasSpec then .error .runtimeError
    else do
      let parts ← entries tab zt idx
      if rq.temp then .ok (parts.flatMap fun rows => trimTo S pos (fineOf S rq ns) (rows.filter (guse refmag chisq rq)))
      else .ok (trimTo S pos (fineOf S rq ns) parts.flatten)

/-- galaxy.py:238-254: the columns read. -/
def columns (truth : Bool) (names : List String) : List String :=
  if truth then names else names.filter fun n => n ≠ "ztrue" ∧ n ≠ "m200" ∧ n ≠ "central" ∧ n ≠ "halo_id"

end Redmapper.GalRead
