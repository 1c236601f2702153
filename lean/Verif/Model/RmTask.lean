/-
Model of the task that makes the redMaGiC catalogs and their random points, as far as files and errors go.

  /repo/redmapper/redmagic/redmagictask.py      RunRedmagicTask.run (61-172)
  /repo/redmapper/redmagic/redmagic_randoms.py  RedmagicGenerateRandoms.__init__ (32-47), generate_randoms (65-71, 133)

Simplifications: the galaxies that a pixel gives for a mode are a parameter (Model/Redmagic.lean has the selection); of random points only the
number counts (Model/Randoms.lean has the points). Plots are left out. There is at least one pixel. A draw from an empty catalog is an error.
-/
import Verif.Model.CatTask

namespace Redmapper.RmTask

open Redmapper.CatTask (fileName)

inductive Err
  | valueError
  | runtimeError
  | attributeError
  | nameError
deriving DecidableEq, Repr

variable {R : Type}

/-- What is in a file. -/
inductive Content (R : Type) where
  | cat (rows : List R)
  | rands (n : Nat)
  | other
deriving DecidableEq

abbrev Files (R : Type) := List Char → Option (Content R)

def Files.put (d : Files R) (n : List Char) (c : Content R) : Files R := fun m => if m = n then some c else d m

/-- redmagictask.py:78. -/
def catFile (outbase version mode : List Char) : List Char := fileName outbase version ("redmagic_".toList ++ mode) true

/-- redmagictask.py:168. -/
def randFile (outbase version mode : List Char) : List Char := fileName outbase version ("redmagic_".toList ++ mode ++ "_randoms".toList) true

/-- What the task is given. -/
structure Input (R : Type) where
  outbase : List Char
  version : List Char
  pixelized : Bool
  modes : List (List Char)
  known : List Char → Bool
  fixed : List Char → Bool
  clobber : Bool
  nRandoms : Option Nat
  pixels : List (List Char → List R)

/-- redmagictask.py:108-115: the first pixel makes the file, the next ones append to it. -/
def writeRows (d : Files R) (first : Bool) (f : List Char) (rows : List R) : Files R :=
  if first then d.put f (.cat rows) else match d f with
    | some (.cat l) => d.put f (.cat (l ++ rows))
    | _ => d

/-- redmagictask.py:102-115: one pixel; a mode that the selector does not have is an error only here. -/
def pixelStep (I : Input R) (first : Bool) (sel : List Char → List R) : List (List Char) → Files R → Files R × Option Err
  | [], d => (d, none)
  | m :: ms, d =>
    if I.known m then
      pixelStep I first sel ms (writeRows d first (catFile I.outbase I.version m) (sel m))
    else (d, some .runtimeError)

/-- redmagictask.py:93-115. -/
def catalogs (I : Input R) : Bool → List (List Char → List R) → Files R → Files R × Option Err
  | _, [], d => (d, none)
  | first, sel :: ps, d => match pixelStep I first sel I.modes d with
    | (d', none) => catalogs I false ps d'
    | (d', some e) => (d', some e)

/-- redmagictask.py:153-170 with redmagic_randoms.py:68-71, 110, 133: the random points of the modes. -/
def randoms (I : Input R) : List (List Char) → Files R → Files R × Option Err
  | [], d => (d, none)
  | m :: ms, d =>
    if I.fixed m then randoms I ms d
    else match d (catFile I.outbase I.version m) with
      | some (.cat l) =>
        let n := I.nRandoms.getD (l.length * 10)
        let f := randFile I.outbase I.version m
        if !I.clobber && (d f).isSome then (d, some .runtimeError)
        else if n ≠ 0 ∧ l = [] then (d, some .valueError)
        else randoms I ms (d.put f (.rands n))
      | _ => (d, some .attributeError)

/-- redmagictask.py:61-172 `run`: the files, the error, and whether file logging was stopped at the end. -/
def run (I : Input R) (d : Files R) : Files R × Option Err × Bool :=
  if !I.pixelized then (d, some .valueError, false)
  else if !I.clobber && I.modes.any (fun m => (d (catFile I.outbase I.version m)).isSome) then (d, some .runtimeError, false)
  else match catalogs I true I.pixels d with
    | (d1, some e) => (d1, some e, false)
    | (d1, none) =>
      if I.nRandoms = some 0 then (d1, none, false)
      else match randoms I I.modes d1 with
        | (d2, some e) => (d2, some e, false)
        | (d2, none) => (d2, none, true)

/-- An argument of the generator: an object, a name of a file, or something else. -/
inductive Arg (O : Type) where
  | obj (o : O)
  | name (n : List Char)
  | other

/-- redmagic_randoms.py:34-47: with names, `self.vlim_mask_or_file` and `redmagic_file` are looked up, which do not exist. -/
def generator {V G : Type} (vlim : Arg V) (cat : Arg G) : Except Err (V × G) := match vlim with
  | .name _ => .error .attributeError
  | .other => .error .runtimeError
  | .obj v => match cat with
    | .name _ => .error .nameError
    | .other => .error .runtimeError
    | .obj g => .ok (v, g)

end Redmapper.RmTask
