/-
Model of what the configuration takes from the galaxy file: `_galfile_stats` of /repo/redmapper/configuration.py:661-783 and its use in the
constructor (453-470), with the master table as the galaxy maker writes it (/repo/redmapper/galaxy.py:627-661, 824-883).

A table is the list of its columns, a header the list of its cards, with integer values where they are used; names are lists of characters.
-/
import Mathlib.Algebra.Order.Field.Rat

namespace Redmapper.GalStats

inductive Err where
  | value
  | index
  | key
  | runtime
  deriving DecidableEq, Repr

/-- `re.search('(.*)' + pat, name)`, first group: what is before the last occurrence of the pattern. -/
def group (pat s : List Char) : Option (List Char) :=
  ((List.range (s.length + 1)).reverse.find? fun k => pat.isPrefixOf (s.drop k)).map s.take

/-- `l[i] = x` of Python. -/
def setItem {A : Type} (l : List A) (i : Int) (x : A) : Except Err (List A) :=
  if 0 ≤ i then (if i < l.length then .ok (l.set i.toNat x) else .error .index)
  else if -(l.length : Int) ≤ i then .ok (l.set (i + l.length).toNat x) else .error .index

/-- configuration.py:757-764 (756-764 for the table, 709-717 for a header with upper-case pattern): the names of the bands. -/
def bands (pat skip : List Char) : List (List Char × Int) → List (Option (List Char)) → Except Err (List (Option (List Char)))
  | [], acc => .ok acc
  | (name, v) :: r, acc =>
    match group pat name with
    | none => bands pat skip r acc
    | some g => if g = skip then bands pat skip r acc
      else match setItem acc v (some (g.map Char.toLower)) with
        | .error e => .error e
        | .ok acc => bands pat skip r acc

/-- configuration.py:779-781: without a name for every band there are no names from the file. -/
def complete (l : List (Option (List Char))) : Option (List (List Char)) := if l.any Option.isNone then none else some (l.filterMap id)

/-- Removal of blanks at the end. -/
def rstrip (s : List Char) : List Char := (s.reverse.dropWhile fun c => c == ' ').reverse

/-- configuration.py:692-699, 732-739. -/
def surveyMode (m : List Char) : Except Err Nat :=
  if rstrip m = "SDSS".toList then .ok 0
  else if rstrip m = "DES".toList then .ok 1
  else if rstrip m = "LSST".toList then .ok 2
  else .error .value

/-- What is used of the statistics here. -/
structure Stats where
  pixelized : Bool
  mode : Nat
  nmag : Nat
  refInd : Option Int
  bands : Option (List (List Char))

/-- The value of a column or card. -/
def lookup (name : List Char) : List (List Char × Int) → Option Int
  | [] => none
  | (n, v) :: r => if n = name then some v else lookup name r

/-- A galaxy file: the flags FITS and PIXELS of its header (0 if not there), mode and number of bands, and the integer cards of the header or columns
of the table. -/
structure File where
  fits : Int
  pixels : Int
  mode : List Char
  nmag : Nat
  cols : List (List Char × Int)

/-- configuration.py:676-783 without area, limiting magnitude, zero point and softening, which are copied.  A header without the card of the
reference band gives None, a table without its column raises. -/
def stats (refmag : List Char) (f : File) : Except Err Stats :=
  if f.fits = 0 then .error .value
  else if f.pixels = 0 then
    match surveyMode f.mode with
    | .error e => .error e
    | .ok m => match bands "_IND".toList "REF".toList f.cols (List.replicate f.nmag none) with
      | .error e => .error e
      | .ok l => .ok ⟨false, m, f.nmag, lookup (refmag.map Char.toUpper ++ "_IND".toList) f.cols, complete l⟩
  else
    match surveyMode f.mode with
    | .error e => .error e
    | .ok m => match lookup (refmag.map Char.toLower ++ "_ind".toList) f.cols with
      | none => .error .value
      | some i => match bands "_ind".toList "ref".toList f.cols (List.replicate f.nmag none) with
        | .error e => .error e
        | .ok l => .ok ⟨true, m, f.nmag, some i, complete l⟩

/-- The bands the maker knows (galaxy.py:638-661). -/
def known : List Char := ['u', 'g', 'r', 'i', 'z', 'y']

/-- galaxy.py:824-883: the master table; `ind` gives the index of a band if the information has it.  Columns that are no scalars have value 0 here. -/
def master (mode : List Char) (nmag refInd : Nat) (ind : Char → Option Nat) : File :=
  ⟨1, 1, mode, nmag,
   [("nside".toList, 0), ("hpix".toList, 0), ("ra_pix".toList, 0), ("dec_pix".toList, 0), ("ngals".toList, 0), ("filenames".toList, 0), ("lim_ref".toList, 0),
    ("ref_ind".toList, (refInd : Int)), ("area".toList, 0), ("nmag".toList, (nmag : Int)), ("mode".toList, 0), ("b".toList, 0), ("zeropoint".toList, 0),
    ("has_truth".toList, 0), ("has_zspec".toList, 0)] ++
   known.filterMap fun c => (ind c).map fun (i : Nat) => (c :: "_ind".toList, (i : Int))⟩

/-- configuration.py:455-465: the area of the configuration.  `nsub`: a sub-region is run. -/
def area (conf : Option ℚ) (file : ℚ) (depthfile nsub : Bool) : Except Err ℚ :=
  match conf with
  | some a => .ok (if 1 / 1000 < |a - file| then a else file)
  | none => if !depthfile && nsub then .error .runtime else .ok file

/-- configuration.py:467-470. -/
def truth (hasTruth useZspec fileTruth fileZspec : Bool) : Except Err Unit :=
  if hasTruth && !fileTruth then .error .runtime else if useZspec && !fileZspec then .error .runtime else .ok ()

end Redmapper.GalStats
