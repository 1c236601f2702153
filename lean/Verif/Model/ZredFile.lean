/-
Model of the zred file of a pixel and of reading it with the galaxies of the pixel:
  /repo/redmapper/galaxy.py       zred_extra_dtype, GalaxyCatalog.add_zred_fields, the reading of one pixel in from_galfile
  /repo/redmapper/zred_runner.py  ZredRunPixels._worker

Built on the tables of `Model/Catalog`: a cell is opaque, so the samples of a galaxy are one value and the conversion to 32 bits is not modelled.
The galaxy file has neither truth nor spectroscopic columns, which reading would leave out.
-/
import Verif.Model.ClusCat

namespace Redmapper.ZredFile

open Redmapper.Catalog Redmapper.ClusCat

variable {V : Type} [Inhabited V]

/-- galaxy.py:24-42 `zred_extra_dtype`: the names; `zero` is a zero and `zeros` the zeros of the samples. -/
def zredDtype (zero zeros : V) : List (String × V) :=
  [("ZRED", zero), ("ZRED_E", zero), ("ZRED2", zero), ("ZRED2_E", zero), ("ZRED_UNCORR", zero), ("ZRED_UNCORR_E", zero), ("ZRED_SAMP", zeros),
    ("LKHD", zero), ("CHISQ", zero)]

/-- galaxy.py:394-409 `add_zred_fields`. -/
def addZred (lower : String → String) (dt : List (String × V)) (t : Tab V) : Except Err (Tab V) :=
  let aug := augment lower dt t.names
  if aug.length > 0 then addFields lower t (aug.map Prod.fst) (aug.map Prod.snd) else .ok t

/-- zred_runner.py:283-284: the columns are copied one by one. -/
def cutLoop (lower : String → String) (src : Tab V) : List String → Tab V → Except Err (Tab V)
  | [], z => .ok z
  | n :: ns, z => match getCol src (lower n) with
    | none => .error .valueError
    | some vals => match setCol z n vals with
      | .error e => .error e
      | .ok z' => cutLoop lower src ns z'

/-- zred_runner.py:282-284: the table that is written. -/
def cut (lower : String → String) (dt : List (String × V)) (t : Tab V) : Except Err (Tab V) :=
  match npZeros t.rows.length (dt.map Prod.fst) (dt.map Prod.snd) with
  | .error e => .error e
  | .ok z => cutLoop lower t (dt.map Prod.fst) z

/-- zred_runner.py:261-289: the zred file of a pixel with galaxies `gals`; `compute` is `compute_zreds`, which changes the catalogue it is given. -/
def pixelFile (lower : String → String) (dt : List (String × V)) (compute : Tab V → Tab V) (gals : Tab V) : Except Err (Tab V) :=
  match mkObject lower [gals] with
  | .error e => .error e
  | .ok t => match addZred lower dt t with
    | .error e => .error e
    | .ok t' => cut lower dt (compute t')

/-- galaxy.py:276-327: reading the galaxies of one pixel with their zred file, names lower-cased; numpy refuses repeated names. -/
def readPixel (lower : String → String) (gals zf : Tab V) : Except Err (Tab V) :=
  match lowerArray lower gals, lowerArray lower zf with
  | .ok g, .ok z =>
    match npZeros g.rows.length (g.names ++ z.names) (g.zeros ++ z.zeros) with
    | .error e => .error e
    | .ok c => match copyCols g g.names c with
      | .error e => .error e
      | .ok c' => copyCols z z.names c'
  | .error e, _ => .error e
  | _, .error e => .error e

/-- galaxy.py:158-164: reading a galaxy file that is not pixelated with its zred file. -/
def readWhole (lower : String → String) (gals zf : Tab V) : Except Err (Tab V) :=
  if zf.rows.length ≠ gals.rows.length then .error .valueError else mkObject lower [gals, zf]

end Redmapper.ZredFile
