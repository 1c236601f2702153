/-
Model of the readers of the background files:
  /repo/redmapper/background.py        Background.__init__, ZredBackground.__init__
  /repo/redmapper/color_background.py  ColorBackground.__init__, lookup_diagonal
A numpy array is a function of its indices, with the lengths of its axes given by the bins.  Arithmetic is exact.
-/
import Verif.Model.Background
import Verif.Model.BkgGen
import Verif.Model.Zlambda

namespace Redmapper.BkgTable

open Redmapper.Utilities (interpol)
open Redmapper.Zlambda (npInterp)
open Redmapper.Background (Table)

variable {α : Type} [Field α] [LinearOrder α] [IsStrictOrderedRing α]

inductive Err where
  | index
  | value
  | key
  deriving DecidableEq, Repr

/-- `np.arange(r0, r1, size)`. -/
def arange [FloorRing α] (r0 r1 size : α) : List α := (List.range ⌈(r1 - r0) / size⌉.toNat).map fun k : Nat => r0 + (k : α) * size

/-- One column of an array as a list. -/
def column (n : Nat) (f : Nat → α) : List α := (List.range n).map f

/-- `np.where(v < 0, 0, v)`. -/
def clip0 (v : α) : α := if v < 0 then 0 else v

/-! ### Chi-squared background -/

/-- What is read from the CHISQBKG extension (background.py:51); sigma_g[refmag, chisq, z]. -/
structure ChisqFile (α : Type) where
  refmagrange : α × α
  refmagbins : List α
  chisqrange : α × α
  chisqbins : List α
  lnchisqbins : List α
  zrange : α × α
  zbins : List α
  sigma : Nat → Nat → Nat → α
  sigmaLn : Nat → Nat → Nat → α

/-- background.py:73-80: to the fine magnitude bins. -/
def step1 (f : ChisqFile α) (rb : List α) (r j i : Nat) : α :=
  clip0 (npInterp (rb.getD r 0) f.refmagbins (column f.refmagbins.length fun k => f.sigma k j i))

/-- background.py:90-94: to the fine chi-squared bins. -/
def step2 (f : ChisqFile α) (rb cb : List α) (r c i : Nat) : α :=
  clip0 (npInterp (cb.getD c 0) f.chisqbins (column f.chisqbins.length fun k => step1 f rb r k i))

/-- background.py:104-107: to the fine redshift bins. -/
def step3 (f : ChisqFile α) (rb cb zb : List α) (r c z : Nat) : α :=
  clip0 (npInterp (zb.getD z 0) f.zbins (column f.zbins.length fun k => step2 f rb cb r c k))

/-- A background: the table of the lookup and the normalisation (background.py:118-128). -/
structure Bkg (α : Type) where
  table : Table α
  n : Nat → Nat → α

/-- background.py:51-128.  The array for the logarithmic bins is allocated with the number of linear bins (71): with fewer logarithmic
bins line 78 raises, with more line 111. -/
def load [FloorRing α] (f : ChisqFile α) : Except Err (Bkg α) :=
  let rb := arange f.refmagrange.1 f.refmagrange.2 (1 / 100)
  let cb := arange f.chisqrange.1 f.chisqrange.2 (1 / 2)
  let zb := arange f.zrange.1 f.zrange.2 (1 / 1000)
  if f.zbins.length ≠ 0 ∧ f.lnchisqbins.length < f.chisqbins.length then .error .index
  else if rb.length ≠ 0 ∧ f.chisqbins.length < f.lnchisqbins.length then .error .index
  else .ok {
    table := { refmagbins := rb, chisqbins := cb, zbins := zb, refmagbinsize := 1 / 100, chisqbinsize := 1 / 2, sigma := step3 f rb cb zb }
    n := fun r z => ((List.range cb.length).map fun c => step3 f rb cb zb r c z).sum * (1 / 2) }

/-- background.py:318-332, 380-415: the file the generator writes; `sigma`, `sigmaLn` are its tables.  The logarithmic bins are fixed
(326-329). -/
def generated [FloorRing α] (limmag chisqmax mbs cbs zbs : α) (zr : α × α) (sigma sigmaLn : Nat → Nat → Nat → α) : ChisqFile α where
  refmagrange := (12, limmag)
  refmagbins := BkgGen.edges (12, limmag) mbs
  chisqrange := (0, chisqmax)
  chisqbins := BkgGen.edges (0, chisqmax) cbs
  lnchisqbins := BkgGen.edges (-2, 6) (1 / 5)
  zrange := zr
  zbins := BkgGen.edges zr zbs
  sigma := sigma
  sigmaLn := sigmaLn

/-! ### Zred background -/

/-- What is read from the ZREDBKG extension (background.py:194); sigma_g[refmag, zred]. -/
structure ZredFile (α : Type) where
  refmagrange : α × α
  refmagbins : List α
  zredrange : α × α
  zredbins : List α
  sigma : Nat → Nat → α

/-- background.py:210 `np.min(obkg.sigma_g)`; none when there are no values (ValueError). -/
def floorOf (f : ZredFile α) : Option α :=
  ((List.range f.refmagbins.length).flatMap fun r => (List.range f.zredbins.length).map fun z => f.sigma r z).min?

/-- background.py:212-213. -/
def zstep1 (f : ZredFile α) (floor : α) (rb : List α) (r i : Nat) : α :=
  max (interpol (column f.refmagbins.length fun k => f.sigma k i) f.refmagbins (rb.getD r 0)) floor

/-- background.py:223-224. -/
def zstep2 (f : ZredFile α) (floor : α) (rb zb : List α) (r z : Nat) : α :=
  max (interpol (column f.zredbins.length fun k => zstep1 f floor rb r k) f.zredbins (zb.getD z 0)) floor

/-- A zred background (background.py:226-232). -/
structure ZredBkg (α : Type) where
  zredbins : List α
  refmagbins : List α
  sigma : Nat → Nat → α

/-- background.py:194-232. -/
def zredLoad [FloorRing α] (f : ZredFile α) : Except Err (ZredBkg α) :=
  let rb := arange f.refmagrange.1 f.refmagrange.2 (1 / 100)
  let zb := arange f.zredrange.1 f.zredrange.2 (1 / 1000)
  match floorOf f with
  | none => .error .value
  | some floor => .ok ⟨zb, rb, zstep2 f floor rb zb⟩

/-! ### Color background -/

/-- What is read from one extension of the color background (color_background.py:49-57), with its two colors.  A one-color table has
one row in the axis of the second color.  bc[refmag, col2, col1]. -/
structure ColorExt (α : Type) where
  i : Nat
  j : Nat
  refmagrange : α × α
  refmagbins : List α
  col1range : α × α
  col1bins : List α
  colbinsize : α
  col2range : α × α
  col2bins : List α
  bc : Nat → Nat → Nat → α
  /-- `areas` per magnitude bin, if the table has that column -/
  areas : Option (List α)
  /-- AREA in the header of the extension -/
  hdrArea : α

/-- The entry of the dictionary for one pair of colors. -/
structure ColorBkg (α : Type) where
  refmagbins : List α
  col1bins : List α
  col2bins : List α
  bc : Nat → Nat → Nat → α
  sigma : Nat → Nat → Nat → α
  n : Nat → α

/-- color_background.py:55: the key of a pair. -/
def key (i j : Nat) : Nat := i * 100 + j

/-- The fine magnitude bins (color_background.py:60). -/
def fineMag [FloorRing α] (e : ColorExt α) : List α := arange e.refmagrange.1 e.refmagrange.2 (1 / 100)

/-- color_background.py:64-72: the areas, from the first extension. -/
def areasOf [FloorRing α] (usehdr : Bool) (e : ColorExt α) : List α :=
  let rb := fineMag e
  if usehdr then
    match e.areas with
    | some a => rb.map fun m => interpol a e.refmagbins m
    | none => rb.map fun _ => e.hdrArea
  else rb.map fun _ => 1

/-- color_background.py:81-82, 120: magnitudes, then clipped. -/
def cstep1 (e : ColorExt α) (rb : List α) (r c2 c1 : Nat) : α :=
  max (interpol (column e.refmagbins.length fun k => e.bc k c2 c1) e.refmagbins (rb.getD r 0)) 0

/-- color_background.py:91-92, 128-131: the first color. -/
def cstep2 (e : ColorExt α) (rb c1b : List α) (r c2 c1 : Nat) : α :=
  max (interpol (column e.col1bins.length fun k => cstep1 e rb r c2 k) e.col1bins (c1b.getD c1 0)) 0

/-- color_background.py:138-141: the second color. -/
def cstep3 (e : ColorExt α) (rb c1b c2b : List α) (r c2 c1 : Nat) : α :=
  max (interpol (column e.col2bins.length fun k => cstep2 e rb c1b r k c1) e.col2bins (c2b.getD c2 0)) 0

/-- color_background.py:74-168: one extension with the areas in use; dividing by areas for another number of magnitude bins raises
(98-99, 149-150; broadcasting of a single area or bin is not modelled). -/
def colorEntry [FloorRing α] (areas : List α) (e : ColorExt α) : Except Err (ColorBkg α) :=
  let rb := fineMag e
  let c1b := arange e.col1range.1 e.col1range.2 (1 / 100)
  if e.i = e.j then
    let bc := fun r (_ : Nat) c1 => cstep2 e rb c1b r 0 c1
    let coarse := fun r => column e.col1bins.length fun k => cstep1 e rb r 0 k
    if c1b.length ≠ 0 ∧ areas.length ≠ rb.length then .error .value
    else .ok ⟨rb, c1b, [], bc, fun r c2 c1 => bc r c2 c1 / areas.getD r 0,
      fun r => Background.normDiag (coarse r) (1 / 100) e.colbinsize⟩
  else
    let c2b := arange e.col2range.1 e.col2range.2 (1 / 100)
    let bc := cstep3 e rb c1b c2b
    if c1b.length ≠ 0 ∧ c2b.length ≠ 0 ∧ areas.length ≠ rb.length then .error .value
    else .ok ⟨rb, c1b, c2b, bc, fun r c2 c1 => bc r c2 c1 / areas.getD r 0,
      fun r => ((List.range c1b.length).map fun c1 => ((List.range c2b.length).map fun c2 => bc r c2 c1).sum * (1 / 100)).sum * (1 / 100)⟩

/-- color_background.py:49-168, the loop over the extensions; the dictionary is a list of keys with the last one first. -/
def colorLoop [FloorRing α] (areas : List α) : List (ColorExt α) → List (Nat × ColorBkg α) → Except Err (List (Nat × ColorBkg α))
  | [], d => .ok d
  | e :: rest, d =>
    match colorEntry areas e with
    | .error x => .error x
    | .ok b => colorLoop areas rest ((key e.i e.j, b) :: d)

/-- color_background.py:38-168 `ColorBackground.__init__`. -/
def colorLoad [FloorRing α] (usehdr : Bool) (exts : List (ColorExt α)) : Except Err (List (Nat × ColorBkg α)) :=
  match exts with
  | [] => .ok []
  | e :: _ => colorLoop (areasOf usehdr e) exts []

/-- `self.bkgs[key]`. -/
def find (d : List (Nat × ColorBkg α)) (k : Nat) : Option (ColorBkg α) := (d.find? fun p => decide (p.1 = k)).map Prod.snd

/-- color_background.py:227-238 `lookup_diagonal` for one galaxy. -/
def lookupDiagonal (d : List (Nat × ColorBkg α)) (i : Nat) (color refmag : α) (doRaise : Bool) : Except Err α :=
  match find d (key i i) with
  | none => if doRaise then .error .key else .ok 0
  | some b =>
    let r := Background.clipIndex b.refmagbins (1 / 100) refmag
    let c := Background.clipIndex b.col1bins (1 / 100) color
    .ok (b.bc r 0 c / b.n r)

end Redmapper.BkgTable
