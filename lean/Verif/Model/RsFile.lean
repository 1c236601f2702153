/-
Model of the red-sequence model file: the writer of its header (/repo/redmapper/calibration/redsequencecal.py, `save_pars`), the reader
(/repo/redmapper/redsequence.py), the extrapolation of its tables with a template of colors (/repo/redmapper/utilities.py,
`RedGalInitialColors`), the luptitude corrections of the reader and of the calibration, and the chi-squared of galaxies from the tables.

The FITS layer is a list of header cards.  A failed lookup in the header is the `except:` of the reader.
-/
import Mathlib.Analysis.SpecialFunctions.Arsinh
import Mathlib.Analysis.SpecialFunctions.Log.Base
import Verif.Model.Chisq
import Verif.Model.RedSequence

namespace Redmapper.RsFile

open Redmapper.Utilities (interpol)

variable {α : Type} [Field α] [LinearOrder α] [IsStrictOrderedRing α]

/-! ### Band names -/

/-- `','.join(bands)`; a name is a list of characters. -/
def joinComma : List (List Char) → List Char
  | [] => []
  | [x] => x
  | x :: y :: rest => x ++ ',' :: joinComma (y :: rest)

/-- `s.split(',')`. -/
def splitComma : List Char → List (List Char)
  | [] => [[]]
  | c :: t =>
    if c = ',' then [] :: splitComma t
    else match splitComma t with
      | [] => [[c]]
      | h :: r => (c :: h) :: r

/-- `s.rstrip()`; only blanks are stripped. -/
def rstrip (s : List Char) : List Char := (s.reverse.dropWhile fun c => c == ' ').reverse

/-- redsequence.py:96-99 and utilities.py:266-269: the list of bands in a header. -/
def parseBands (s : List Char) : List (List Char) :=
  if ',' ∈ s then splitComma (rstrip s) else (rstrip s).map fun c => [c]

/-! ### Header -/

/-- A header value. -/
inductive Val (α : Type) where
  | num (x : α)
  | nat (k : Nat)
  | str (s : List Char)
  deriving DecidableEq

/-- A header key: its name and its number, 0 if it has none; ZRANGE0 and ZRANGE1 are numbers 1 and 2. -/
abbrev Key := String × Nat

/-- Header cards. -/
abbrev Hdr (α : Type) := List (Key × Val α)

/-- `hdr[key]`. -/
def get (h : Hdr α) (key : Key) : Option (Val α) := (h.find? fun kv => decide (kv.1 = key)).map Prod.snd

/-- The settings the file is written from. -/
structure Cfg (α : Type) where
  nmag : Nat
  mstarSurvey : List Char
  mstarBand : List Char
  limmag : α
  z0 : α
  z1 : α
  alpha : α
  zbinFine : α
  zbinCoarse : α
  refInd : Nat
  bands : List (List Char)
  template : Option (List Char)
  b : List α

inductive Err where
  | value
  | index
  | type
  deriving DecidableEq, Repr

/-- Name of a b value (redsequencecal.py:930 and redsequence.py:127). -/
def bkey (j : Nat) : Key := ("BVALUE", j + 1)

/-- redsequencecal.py:929-931: the b values, only when the first is positive. -/
def bCards (b : List α) : Hdr α :=
  if 0 < b.headD 0 then (List.range b.length).map fun j => (bkey j, Val.num (b.getD j 0)) else []

/-- redsequencecal.py:909-926: the other cards; `top` is the upper end of the redshift range. -/
def baseCards (c : Cfg α) (top : α) : Hdr α :=
  [(("NCOL", 0), .nat (c.nmag - 1)), (("MSTARSUR", 0), .str c.mstarSurvey), (("MSTARBAN", 0), .str c.mstarBand), (("LIMMAG", 0), .num c.limmag),
    (("ZRANGE", 1), .num (max (c.z0 - 1 / 10) (1 / 100))), (("ZRANGE", 2), .num top), (("ALPHA", 0), .num c.alpha), (("ZBINFINE", 0), .num c.zbinFine),
    (("ZBINCOAR", 0), .num c.zbinCoarse), (("LOWZMODE", 0), .nat 0), (("REF_IND", 0), .nat c.refInd), (("BANDS", 0), .str (joinComma c.bands))]
    ++ match c.template with | some t => [(("TEMPLATE", 0), .str t)] | none => []

/-- redsequencecal.py:895-933 `save_pars`, the header.  `zmax` is the largest redshift of a template (903-907).  Without a template
`np.clip` has neither limit (916): whether that is refused depends on numpy, `clipNone`. -/
def save (zmax : List Char → α) (clipNone : Bool) (c : Cfg α) : Except Err (Hdr α) :=
  match c.template with
  | some t => .ok (baseCards c (min (c.z1 + 1 / 4) (zmax t)) ++ bCards c.b)
  | none => if clipNone then .error .value else .ok (baseCards c (c.z1 + 1 / 4) ++ bCards c.b)

/-- What the reader knows after the header. -/
structure Params (α : Type) where
  limmag : α
  z0 : α
  z1 : α
  alpha : α
  mstarSurvey : List Char
  mstarBand : List Char
  ncol : Nat
  template : Option (List Char)
  bands : List (List Char)
  zbin : α
  lowz : Bool
  bvalues : List α
  doLup : Bool
  refInd : Nat
  deriving DecidableEq

/-- A number in the header. -/
def getNum (h : Hdr α) (key : Key) : Option α :=
  match get h key with
  | some (.num x) => some x
  | some (.nat k) => some (k : α)
  | _ => none

/-- An integer in the header. -/
def getNat (h : Hdr α) (key : Key) : Option Nat :=
  match get h key with
  | some (.nat k) => some k
  | _ => none

/-- A string in the header. -/
def getStr (h : Hdr α) (key : Key) : Option (List Char) :=
  match get h key with
  | some (.str s) => some s
  | _ => none

/-- redsequence.py:124-130: the b values, all zero when one is missing. -/
def readB (h : Hdr α) (nmag : Nat) : List α :=
  if (List.range nmag).all fun j => (getNum h (bkey j)).isSome then (List.range nmag).map fun j => (getNum h (bkey j)).getD 0
  else List.replicate nmag 0

/-- The redshift range (redsequence.py:87-88). -/
def rangeOf (h : Hdr α) : Option (List α) → Option (List α)
  | some r => some r
  | none => (getNum h ("ZRANGE", 1)).bind fun a => (getNum h ("ZRANGE", 2)).map fun b => [a, b]

/-- The template and the bands (redsequence.py:93-101). -/
def templateOf (h : Hdr α) : Option (Option (List Char) × List (List Char)) :=
  match getStr h ("TEMPLATE", 0) with
  | some t => (getStr h ("BANDS", 0)).map fun b => (some t, parseBands b)
  | none => some (none, [])

/-- redsequence.py:76-142 with a file: options given by the caller replace those of the header. -/
def readHdr (h : Hdr α) (limmag : Option α) (zrange : Option (List α)) (zbinsize : Option α) (fine : Bool) : Except Err (Params α) :=
  match limmag <|> getNum h ("LIMMAG", 0), rangeOf h zrange, getNum h ("ALPHA", 0), getStr h ("MSTARSUR", 0), getStr h ("MSTARBAN", 0), getNat h ("NCOL", 0), templateOf h with
  | some lm, some [z0, z1], some al, some ms, some mb, some nc, some (t, bands) =>
    match zbinsize <|> getNum h (if fine then ("ZBINFINE", 0) else ("ZBINCOAR", 0)), getNat h ("REF_IND", 0) <|> getNat h ("I_IND", 0) with
    | some zb, some r =>
      let bv := readB h (nc + 1)
      .ok { limmag := lm, z0, z1, alpha := al, mstarSurvey := ms, mstarBand := mb, ncol := nc, template := t, bands, zbin := zb,
            lowz := decide (getNat h ("LOWZMODE", 0) ≠ none ∧ getNat h ("LOWZMODE", 0) ≠ some 0), bvalues := bv,
            doLup := bv.all fun x => decide (0 < x), refInd := r }
    | _, _ => .error .value
  | _, _, _, _, _, _, _ => .error .value

/-! ### Template colors -/

/-- utilities.py:238-330 a template: bands, redshifts and one list of values per color. -/
structure Template (α : Type) where
  bands : List (List Char)
  z : List α
  color : Nat → List α

/-- utilities.py:312-329 `_color_name`. -/
def colorName (b1 b2 : List Char) : List Char := b1.map Char.toUpper ++ '-' :: b2.map Char.toUpper

/-- utilities.py:271-274. -/
def colorNames (t : Template α) : List (List Char) :=
  (List.range (t.bands.length - 1)).map fun i => colorName (t.bands.getD i []) (t.bands.getD (i + 1) [])

/-- utilities.py:280-304 `__call__` at one redshift: a color that is not in the template is a ValueError. -/
def rgColor (t : Template α) (b1 b2 : List Char) (z : α) : Except Err α :=
  if colorName b1 b2 ∈ colorNames t then .ok (interpol (t.color ((colorNames t).idxOf (colorName b1 b2))) t.z z) else .error .value

/-! ### Extrapolation -/

/-- The tables of the red sequence before and after the extrapolation; one entry per redshift bin. -/
structure Tab (α : Type) where
  pivot : Nat → α
  slope : Nat → Nat → α
  c : Nat → Nat → α

/-- redsequence.py:196-201: bins below and above the calibrated redshifts. -/
def lowBin (lo : α) (z : List α) (i : Nat) : Bool := decide (z.getD i 0 < lo)
def highBin (hi : α) (z : List α) (i : Nat) : Bool := decide (hi < z.getD i 0)

/-- redsequence.py:299: the bins that are not extrapolated. -/
def notExtrap (lo hi : α) (z : List α) : List Nat := (List.range z.length).filter fun i => !(lowBin lo z i) && !(highBin hi z i)

/-- redsequence.py:303-304, 310-311: values pinned outside of the calibrated redshifts. -/
def pin (lo hi : α) (z : List α) (first last : Nat) (f : Nat → α) (i : Nat) : α :=
  if highBin hi z i then f last else if lowBin lo z i then f first else f i

/-- redsequence.py:316-328: the color of the template, shifted to meet the model; a color that is not in the template is left alone. -/
def templateColor (t : Template α) (bands : List (List Char)) (lo hi : α) (z : List α) (first last : Nat) (j : Nat) (c : Nat → α) (i : Nat) : α :=
  match rgColor t (bands.getD j []) (bands.getD (j + 1) []) (z.getD first 0) with
  | .error _ => c i
  | .ok tf =>
    match rgColor t (bands.getD j []) (bands.getD (j + 1) []) (z.getD last 0), rgColor t (bands.getD j []) (bands.getD (j + 1) []) (z.getD i 0) with
    | .ok tl, .ok ti => if highBin hi z i then ti - (tl - c last) else if lowBin lo z i then ti - (tf - c first) else c i
    | _, _ => c i

/-- redsequence.py:297-328: with a template; no bin inside of the calibrated redshifts is an IndexError. -/
def extrapolate (t : Template α) (bands : List (List Char)) (lo hi : α) (z : List α) (tab : Tab α) : Except Err (Tab α) :=
  match (notExtrap lo hi z).head?, (notExtrap lo hi z).getLast? with
  | some first, some last => .ok {
      pivot := pin lo hi z first last tab.pivot
      slope := fun i j => pin lo hi z first last (fun k => tab.slope k j) i
      c := fun i j => templateColor t bands lo hi z first last j (fun k => tab.c k j) i }
  | _, _ => .error .index

/-! ### Luptitudes -/

/-- redsequence.py:349-356: model magnitudes from the reference band, redward and then blueward; `col j` is color `j` of the model. -/
def chain (nmag ref : Nat) (refmag : α) (col : Nat → α) : Nat → α :=
  let m0 : Nat → α := fun j => if j = ref then refmag else 0
  let red := (List.range (nmag - (ref + 1))).foldl (fun (m : Nat → α) k => Function.update m (ref + 1 + k) (m (ref + k) - col (ref + k))) m0
  (List.range ref).foldl (fun (m : Nat → α) k => Function.update m (ref - 1 - k) (m (ref - 1 - k + 1) + col (ref - 1 - k))) red

/-- redsequencecal.py:493-505: the order of the colors in the calibration, as (color, sign, magnitude). -/
def calOrder (nmag ref : Nat) : List (Nat × Int × Nat) :=
  ((List.range (nmag - (ref + 1))).map fun k => (ref + k, (-1 : Int), ref + 1 + k)) ++
    (List.range ref).map fun k => (ref - 1 - k, (1 : Int), ref - 1 - k)

/-- redsequencecal.py:350: magnitude of the next band, from the neighbour already known. -/
def calStep (col : Nat → α) (m : Nat → α) (s : Nat × Int × Nat) : Nat → α :=
  Function.update m s.2.2 (m ((s.2.2 : Int) + s.2.1).toNat + (s.2.1 : α) * col s.1)

/-- redsequencecal.py:507-512, 350: model magnitudes in the calibration. -/
def calChain (nmag ref : Nat) (refmag : α) (col : Nat → α) : Nat → α :=
  (calOrder nmag ref).foldl (calStep col) fun j => if j = ref then refmag else 0

/-- redsequence.py:361: flux of a magnitude. -/
noncomputable def flux (m : ℝ) : ℝ := (10 : ℝ) ^ ((m - 22.5) / (-2.5))

/-- redsequence.py:341, 361-363 (and redsequencecal.py:352-353): luptitude of a magnitude. -/
noncomputable def lup (b m : ℝ) : ℝ := 2.5 * Real.logb 10 (1 / b) - Real.arsinh (0.5 * flux m / (b * 1000000000)) / (0.4 * Real.log 10)

/-- redsequence.py:365-368: correction of color `j`. -/
noncomputable def lupcorr (b : Nat → ℝ) (m : Nat → ℝ) (j : Nat) : ℝ := (lup (b j) (m j) - lup (b (j + 1)) (m (j + 1))) - (m j - m (j + 1))

/-! ### Chi-squared from the tables -/

/-- The tables of the model (redsequence.py): indices are redshift bin, magnitude bin and color. -/
structure Model (α : Type) where
  zscale : Int
  zbins : List α
  magscale : Int
  magbins : List α
  cov : Nat → Nat → Nat → α
  c : Nat → Nat → α
  slope : Nat → Nat → α
  pivot : Nat → α
  lupcorr : Nat → Nat → Nat → α
  ratioInt : Nat → α
  ratioSlope : Nat → α
  ratioPivot : α

/-- A galaxy: its reference magnitude with error, and the errors of its magnitudes and its colors by band. -/
structure Gal (α : Type) where
  refmag : α
  refmagerr : α
  magerr : Nat → α
  color : Nat → α

/-- The redshift argument: redshifts, or an index array, or one index. -/
inductive ZArg (α : Type) where
  | redshifts (zs : List α)
  | indices (l : List Nat)
  | oneIndex (i : Nat)

/-- A lookup result: a plain integer or an array. -/
inductive Idx where
  | scalar (i : Nat)
  | arr (l : List Nat)
  deriving DecidableEq

/-- redsequence.py:417-421, 438-442: an array with one element becomes an integer. -/
def collapse (l : List Nat) : Idx :=
  match l with
  | [i] => .scalar i
  | _ => .arr l

/-- redsequence.py:493-496, 541-544. -/
def zind [FloorRing α] (M : Model α) : ZArg α → Idx
  | .redshifts zs => collapse (zs.map (RedSequence.index M.zscale M.zbins))
  | .indices l => .arr l
  | .oneIndex i => .scalar i

/-- `np.atleast_1d`. -/
def Idx.list : Idx → List Nat
  | .scalar i => [i]
  | .arr l => l

/-- Shape of `t[idx, :]` on the leading axis. -/
def Idx.shape : Idx → List Nat
  | .scalar _ => []
  | .arr l => [l.length]

/-- redsequence.py:503-505, 553-556: errors scaled on a copy. -/
def scaledErr (M : Model α) (g : Gal α) (m : Nat) : α := g.magerr m * (M.ratioInt m + M.ratioSlope m * (g.refmag - M.ratioPivot))

/-- Leading shape of `t[a, b, :]` with two index arrays: numpy broadcasts them or raises IndexError. -/
def broadcast (a b : Idx) : Except Err (List Nat) :=
  match a, b with
  | .scalar _, .scalar _ => .ok []
  | .scalar _, .arr l => .ok [l.length]
  | .arr l, .scalar _ => .ok [l.length]
  | .arr l, .arr l' => if l.length = l'.length ∨ l'.length = 1 then .ok [l.length] else if l.length = 1 then .ok [l'.length] else .error .index

/-- Entry `k` of an index under broadcasting. -/
def Idx.at (a : Idx) (k : Nat) : Nat :=
  match a with
  | .scalar i => i
  | .arr [i] => i
  | .arr l => l.getD k 0

/-- The buffers handed to `compute_chisq` (redsequence.py:507-513, 558-564); `covmat` in the order the C code reads, see C108. -/
def buffers [FloorRing α] (n : Nat) (M : Model α) (z mag : Idx) (gals : List (Gal α)) : Chisq.Buf α :=
  let g := fun (k : Nat) => gals.getD k { refmag := 0, refmagerr := 0, magerr := fun _ => 0, color := fun _ => 0 }
  { covmat := fun k => M.cov (z.at (k / (n * n))) (k % (n * n) / n) (k % (n * n) % n)
    c := fun k => M.c (z.at (k / n)) (k % n)
    slope := fun k => M.slope (z.at (k / n)) (k % n)
    pivotmag := fun k => M.pivot (z.at k)
    refmag := fun k => (g k).refmag
    refmagerr := fun k => (g k).refmagerr
    magerr := fun k => scaledErr M (g (k / (n + 1))) (k % (n + 1))
    color := fun k => (g (k / n)).color (k % n)
    lupcorr := fun k => M.lupcorr (mag.at (k / n)) (z.at (k / n)) (k % n) }

/-- `compute_chisq` on those buffers: the modes of chisq_dist_lib.py after its checks. -/
def dispatch {n : Nat} (lib : Chisq.Lib n α) (o : Chisq.Opts α) (s : Chisq.Shapes) (b : Chisq.Buf α) : Except Err (List α) :=
  match Chisq.validate s with
  | .error .value => .error .value
  | .error .index => .error .index
  | .ok call => .ok ((List.range call.ncalc).map fun i =>
      if call.mode = 0 then Chisq.mode0 lib o b i else if call.mode = 1 then Chisq.mode1 lib o b i else Chisq.mode2 lib o b i)

/-- Index arrays out of the tables are an IndexError. -/
def inTable (M : Model α) (z : Idx) : Bool := z.list.all fun i => decide (i < M.zbins.length)

/-- redsequence.py:515-564 `calculate_chisq` of a catalog. -/
def calcCatalog [FloorRing α] {n : Nat} (lib : Chisq.Lib n α) (o : Chisq.Opts α) (M : Model α) (gals : List (Gal α)) (za : ZArg α) : Except Err (List α) :=
  let z0 := zind M za
  let mag0 := collapse (gals.map fun g => RedSequence.index M.magscale M.magbins g.refmag)
  let single := z0.list.length = 1 ∧ gals.length = 1
  let z := if single then .arr z0.list else z0
  let mag := if single then .arr mag0.list else mag0
  if inTable M z then
    match broadcast mag z with
    | .error e => .error e
    | .ok lead =>
      dispatch lib o
        { covmat := [n, n] ++ z.shape, c := z.shape ++ [n], slope := z.shape ++ [n], pivotmag := z.shape, refmag := [gals.length],
          magerr := [gals.length, n + 1], color := [gals.length, n], refmagerr := some [gals.length], lupcorr := some (lead ++ [n]) }
        (buffers n M z mag gals)
  else .error .index

/-- redsequence.py:467-513 `calculate_chisq_redshifts` of one `Galaxy`. -/
def calcRedshifts [FloorRing α] {n : Nat} (lib : Chisq.Lib n α) (o : Chisq.Opts α) (M : Model α) (g : Gal α) (za : ZArg α) : Except Err (List α) :=
  let z := zind M za
  let mag := Idx.scalar (RedSequence.index M.magscale M.magbins g.refmag)
  if inTable M z then
    match broadcast mag z with
    | .error e => .error e
    | .ok lead =>
      dispatch lib o
        { covmat := [n, n] ++ z.shape, c := z.shape ++ [n], slope := z.shape ++ [n], pivotmag := z.shape, refmag := [],
          magerr := [n + 1], color := [n], refmagerr := some [], lupcorr := some (lead ++ [n]) }
        (buffers n M z mag [g])
  else .error .index

end Redmapper.RsFile
