/-
Creating a maker of galaxy or random catalogs: galaxy.py:578-697 and randoms.py:184-201.
-/
import Mathlib.Data.List.Basic

namespace Redmapper.MakerInit

/-- The errors of the constructors. -/
inductive Err where
  | keyError (key : String)
  | runtimeError
deriving DecidableEq, Repr

/-- A dictionary of the caller. -/
abbrev Dict (ν : Type) := String → Option ν

/-- What is on the disk: directories, and files by name (galaxy.py:671-689). -/
structure Disk where
  dirs : List Char → Bool
  files : List Char → Bool

/-- galaxy.py:627-632: the entries that are looked up without a default, in this order. -/
def required : List String := ["LIM_REF", "REF_IND", "AREA", "NMAG", "MODE", "ZP"]

/-- galaxy.py:633-661: the entries that may be absent. -/
def optional : List String := ["B", "U_IND", "G_IND", "R_IND", "I_IND", "Z_IND", "Y_IND"]

/-- The values a maker holds after galaxy.py:627-661; an optional value is none if the entry is absent (for "B" the code
holds zeros, one per band, instead). -/
structure Maker (ν : Type) where
  req : List ν
  opt : List (Option ν)
  filename : List Char

/-- galaxy.py:627-632: one lookup after the other. -/
def lookups {ν : Type} (d : Dict ν) : List String → Except Err (List ν)
  | [] => .ok []
  | k :: ks => match d k with
    | none => .error (.keyError k)
    | some v => match lookups d ks with
      | .error e => .error e
      | .ok vs => .ok (v :: vs)

/-- galaxy.py:663: the name of the master table. -/
def masterName (outbase : List Char) : List Char := outbase ++ "_master_table.fit".toList

/-- `os.path.dirname`, up to trailing slashes: everything before the last slash. -/
def dirname (f : List Char) : List Char := ((f.reverse.dropWhile fun c => c != '/').drop 1).reverse

/-- `os.path.basename`: everything after the last slash. -/
def basename (f : List Char) : List Char := (f.reverse.takeWhile fun c => c != '/').reverse

/-- galaxy.py:619-697: the disk left behind, and the maker or the exception.  The directory is created before the master
table is looked for; parallel mode differs only if another process creates it in between. -/
def makeGal {ν : Type} (d : Dict ν) (outbase : List Char) (disk : Disk) : Disk × Except Err (Maker ν) :=
  match lookups d required with
  | .error e => (disk, .error e)
  | .ok vs =>
    if basename (masterName outbase) = masterName outbase then (disk, .error .runtimeError)
    else
      let out := dirname (masterName outbase)
      let disk' : Disk := if disk.dirs out = true then disk else { disk with dirs := fun q => if q = out then true else disk.dirs q }
      if disk'.files (masterName outbase) = true then (disk', .error .runtimeError)
      else (disk', .ok { req := vs, opt := optional.map d, filename := masterName outbase })

/-- randoms.py:188-199: an entry that is absent is added to the dictionary of the caller. -/
def addDefault {ν : Type} (d : Dict ν) (k : String) (v : ν) : Dict ν :=
  if (d k).isSome = true then d else fun q => if q = k then some v else d q

/-- randoms.py:188-199: the six entries; `zero` stands for the numbers 0 and 0.0, `noMode` for 'NONE'. -/
def fill {ν : Type} (zero noMode : ν) (d : Dict ν) : Dict ν :=
  addDefault (addDefault (addDefault (addDefault (addDefault (addDefault d "LIM_REF" zero) "REF_IND" zero) "AREA" zero)
    "NMAG" zero) "MODE" noMode) "ZP" zero

/-- randoms.py:184-201: the dictionary of the caller and the disk left behind, and the maker or the exception. -/
def makeRand {ν : Type} (zero noMode : ν) (d : Dict ν) (outbase : List Char) (disk : Disk) :
    Dict ν × Disk × Except Err (Maker ν) :=
  (fill zero noMode d, makeGal (fill zero noMode d) outbase disk)

end Redmapper.MakerInit
