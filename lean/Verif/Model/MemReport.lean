/-
Model of the memory report in the log (/repo/redmapper/utilities.py `getMemoryString`).

A line of the status file is the list of its words; `int` of a word is a parameter.  The quotient by 1000 is exact here (the code divides in floating point).
-/
import Mathlib.Data.Rat.Floor

namespace Redmapper.MemReport

/-- utilities.py:1124: `parts[0][2:-1].lower()`. -/
def key (lower : List Char → List Char) (w : List Char) : List Char := lower ((w.take (w.length - 1)).drop 2)

/-- utilities.py:1118: the values, in kilobytes. -/
structure Res where
  peak : Int
  rss : Int
deriving DecidableEq, Repr

/-- utilities.py:1122-1126: one line; `none` is an exception. -/
def step (lower : List Char → List Char) (int : List Char → Option Int) (r : Res) (parts : List (List Char)) : Option Res :=
  match parts with
  | [] => none
  | w :: rest =>
    if key lower w = "peak".toList then (rest.head?.bind int).map fun v => { r with peak := v }
    else if key lower w = "rss".toList then (rest.head?.bind int).map fun v => { r with rss := v }
    else some r

/-- utilities.py:1122-1126: all lines. -/
def scan (lower : List Char → List Char) (int : List Char → Option Int) : Res → List (List (List Char)) → Option Res
  | r, [] => some r
  | r, l :: ls => match step lower int r l with
    | none => none
    | some r' => scan lower int r' ls

/-- `'%d' % (v / 1000)`: towards zero. -/
def mega (v : Int) : List Char := (toString (v.tdiv 1000)).toList

/-- utilities.py:1102-1133 `getMemoryString`; `none` is a status file that cannot be read. -/
def report (lower : List Char → List Char) (int : List Char → Option Int) (status : Option (List (List (List Char)))) (location : List Char) : List Char :=
  match status.bind (scan lower int ⟨0, 0⟩) with
  | some r => "Memory usage at ".toList ++ location ++ ": ".toList ++ mega r.rss ++ " MB current; ".toList ++ mega r.peak ++ " MB peak.".toList
  | none => "Could not get process status for memory usage at ".toList ++ location ++ "!".toList

end Redmapper.MemReport
