/-
Model of the parts of /repo/redmapper/redmagic/redmagic_selector.py that Redmagic leaves out: what the constructor reads, and the column of samples for
catalogs with and without samples.  Texts are lists of characters.
-/
import Verif.Model.Redmagic

namespace Redmapper.RmSel

open Redmapper.Redmagic (RGal RCal zmagicSamp passes)
open Redmapper.Centering (whereIdx)
open Redmapper.Finders (takeRows)

inductive Err
  | runtimeError
  | valueError
  | keyError
deriving DecidableEq, Repr

/-! ## The constructor -/

/-- `str.rstrip()` for blanks. -/
def rstrip (s : List Char) : List Char := (s.reverse.dropWhile fun c => c == ' ').reverse

/-- `os.path.basename`. -/
def basename (s : List Char) : List Char := (s.reverse.takeWhile fun c => c != '/').reverse

/-- `os.path.dirname`: what is before the last slash, without slashes at its end unless there is nothing else. -/
def dirname (s : List Char) : List Char :=
  let head := (s.reverse.dropWhile fun c => c != '/').reverse
  if head.all fun c => c == '/' then head else (head.reverse.dropWhile fun c => c == '/').reverse

/-- `os.path.join` with a name that has no slash. -/
def join (dir name : List Char) : List Char :=
  if dir = [] then name else if dir.getLast? = some '/' then dir ++ name else dir ++ '/' :: name

/-- A table of the parameter file: name of the mode and of its mask, and everything else. -/
structure Ext (κ : Type) where
  name : List Char
  vmask : List Char
  rest : κ

/-- `d[k] = v` for an ordered dictionary. -/
def put {κ ν : Type} [DecidableEq κ] (d : List (κ × ν)) (k : κ) (v : ν) : List (κ × ν) :=
  if d.any fun e => decide (e.1 = k) then d.map fun e => if e.1 = k then (k, v) else e else d ++ [(k, v)]

/-- redmagic_selector.py:41-56: the modes. -/
def modes {κ : Type} (exts : List (Ext κ)) : List (List Char × Ext κ) := exts.foldl (fun d e => put d (rstrip e.name) e) []

/-- The mask of a mode: the fixed one, or that of a file. -/
inductive MaskOf
  | fixed
  | file (path : List Char)
deriving DecidableEq

/-- redmagic_selector.py:64-83: the mask of one mode. -/
def maskOf (isfile : List Char → Bool) (redmagicfile vmask : List Char) : Except Err MaskOf :=
  if rstrip vmask = [] then .ok .fixed
  else if isfile (join (dirname redmagicfile) (basename (rstrip vmask))) then .ok (.file (join (dirname redmagicfile) (basename (rstrip vmask))))
  else .error .runtimeError

/-- redmagic_selector.py:60-83: the masks of all modes. -/
def masks {κ : Type} (isfile : List Char → Bool) (redmagicfile : List Char) : List (List Char × Ext κ) → Except Err (List (List Char × MaskOf))
  | [] => .ok []
  | m :: ms => match maskOf isfile redmagicfile m.2.vmask with
    | .error e => .error e
    | .ok v => (masks isfile redmagicfile ms).map fun r => (m.1, v) :: r

/-- redmagic_selector.py:23-91 without masks given: the parameters and masks of the modes. -/
def construct {κ : Type} (isfile : List Char → Bool) (redmagicfile : List Char) (exts : List (Ext κ)) :
    Except Err (List (List Char × Ext κ) × List (List Char × MaskOf)) :=
  (masks isfile redmagicfile (modes exts)).map fun r => (modes exts, r)

/-! ## The samples -/

variable {α : Type} [Field α] [LinearOrder α]

/-- redmagic_selector.py:145-152: the samples of the galaxies, those of the catalog or one draw each; `draw i` is the draw of galaxy `i`. -/
def withSamples (has : Bool) (draw : Nat → α) (gals : List (RGal α)) : List (RGal α) :=
  if has then gals else gals.zipIdx.map fun g => { g.1 with samp := [draw g.2] }

/-- redmagic_selector.py:192, 212: the column of `n` samples of the rows; numpy repeats a single column and refuses other shapes.  (For `n = 1` the column
has no second dimension in numpy, which is not modelled.) -/
def column (n : Nat) (rows : List (List α)) : Except Err (List (List α)) :=
  if rows = [] then .ok []
  else if rows.all fun r => decide (r.length = n) then .ok rows
  else if rows.all fun r => decide (r.length = 1) then .ok (rows.map fun r => List.replicate n (r.getD 0 0))
  else .error .valueError

/-- redmagic_selector.py:142-164, 176-212: the samples of the selected galaxies. -/
def samples (m25 mstar : α → α) (zmax : α → α → α) (c : RCal α) (n : Nat) (has : Bool) (draw : Nat → α) (gals : List (RGal α)) :
    Except Err (List (List α)) :=
  column n ((takeRows (withSamples has draw gals) (whereIdx (passes m25 mstar zmax c) gals)).map (zmagicSamp c))

end Redmapper.RmSel
