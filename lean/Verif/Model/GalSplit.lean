/-
Splitting a whole catalog in one call: galaxy.py:699-715 and randoms.py:203-224.
-/
import Verif.Model.GalMaker

namespace Redmapper.GalMaker

variable {α : Type} [Field α] [LinearOrder α]

/-- galaxy.py:699-715 `split_galaxies`, serial mode: the state left behind and the exception. -/
def split (cfg : Cfg α) (s : State α) (b : Batch α) : State α × Option Err :=
  if s.finalized = true then (s, some .runtimeError)
  else if s.master.isSome = true then (s, some .runtimeError)
  else match append cfg s b with
    | (s', some e) => (s', some e)
    | (s', none) => finalize cfg s'

/-- The user removes the file of a pixel. -/
def removeFile (s : State α) (p : Nat) : State α :=
  { s with files := fun q => if q = p then none else s.files q }

/-- randoms.py:215-224 `append_randoms` with galaxy.py:717-777, serial mode: the checks of the rows are replaced by a
function that returns True. -/
def appendRandoms (cfg : Cfg α) (s : State α) (b : Batch α) : State α × Option Err :=
  if s.finalized = true ∨ s.master.isSome = true then (s, some .runtimeError)
  else writeLoop s (groups cfg (kept b))

/-- randoms.py:203-213 `split_randoms`, serial mode: the state left behind and the exception.  The maker of random
catalogs never generates ids (randoms.py:201: the argument is not passed on), so `genIds` is false in its configurations. -/
def splitRandoms (cfg : Cfg α) (s : State α) (b : Batch α) : State α × Option Err :=
  if s.finalized = true then (s, some .runtimeError)
  else if s.master.isSome = true then (s, some .runtimeError)
  else match appendRandoms cfg s b with
    | (s', some e) => (s', some e)
    | (s', none) => finalize cfg s'

end Redmapper.GalMaker
