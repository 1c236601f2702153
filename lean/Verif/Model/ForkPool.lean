/-
Model of the runs over many processes: a pool of forked workers as the zred runs, the background generation and the local run use it, what the
workers draw at random, what they write, and the names of the zred files.

  /repo/redmapper/zred_runner.py   ZredRunCatalog.run, ZredRunPixels.run, _worker
  /repo/redmapper/zred_color.py    the sampling of compute_zred (215-234)
  /repo/redmapper/utilities.py     sample_from_pdf (883-918)

Python's `Pool.map` with chunksize 1 (a parameter of the environment, not of this code base): tasks are handed out in order, each to some worker that is
idle; the results are returned in the order of the tasks; if tasks raise, the others still run and the first exception that arrives is raised.
A worker is a fork of the parent: it begins with the parent's state, and the parent's state is never changed by it.
-/
import Mathlib.Logic.Function.Basic
import Verif.Model.Config

namespace Redmapper.ForkPool

open Redmapper.Config (dec)

/-! ## The pool -/

variable {T R S : Type}

/-- The tasks with the worker that takes each, in the order in which they are handed out; `st` is the state of each worker, `f` a task. -/
def exec (f : T → S → R × S) (st : Nat → S) : List (T × Nat) → List R
  | [] => []
  | (t, w) :: r => (f t (st w)).1 :: exec f (Function.update st w (f t (st w)).2) r

/-- zred_runner.py:83-87, 222-226, 232-236, background.py:368-372, redmapper_run.py:116-120: the results in the order of the tasks, and the state of the
parent afterwards. -/
def poolMap (f : T → S → R × S) (s : S) (tasks : List T) (sched : List Nat) : List R × S :=
  (exec f (fun _ => s) (tasks.zip sched), s)

/-! ## Random numbers -/

variable {G D U V : Type}

/-- zred_color.py:215-234 for one galaxy, with utilities.py:912: `det` are the columns that are computed, `draw` is the use of random numbers (`none`: a bad
galaxy, or one with fewer than three bins); the state is the position in the stream of random numbers. -/
def galaxy (u : Nat → U) (nsamp : Nat) (det : G → D) (draw : G → Option (List U → V)) (g : G) (p : Nat) : (D × Option V) × Nat :=
  match draw g with
  | none => ((det g, none), p)
  | some h => ((det g, some (h ((List.range nsamp).map fun i => u (p + i)))), p + nsamp)

/-- `compute_zreds` over the galaxies of a task. -/
def chunk (u : Nat → U) (nsamp : Nat) (det : G → D) (draw : G → Option (List U → V)) : List G → Nat → List (D × Option V) × Nat
  | [], p => ([], p)
  | g :: r, p =>
    let a := galaxy u nsamp det draw g p
    let b := chunk u nsamp det draw r a.2
    (a.1 :: b.1, b.2)

/-- A run over tasks that are lists of galaxies (pixels, or ranges of a file). -/
def zredRun (u : Nat → U) (nsamp : Nat) (det : G → D) (draw : G → Option (List U → V)) (p : Nat) (tasks : List (List G)) (sched : List Nat) :
    List (List (D × Option V)) × Nat :=
  poolMap (chunk u nsamp det draw) p tasks sched

/-! ## Files and exceptions -/

variable {N C E : Type} [DecidableEq N]

/-- zred_runner.py:288-291: the disk after the tasks have run, in the order in which they write; a task gives a file with a content, or raises. -/
def written (out : Nat → Except E (N × C)) (disk : N → Option C) : List Nat → N → Option C
  | [] => disk
  | i :: r => match out i with
    | .ok (n, c) => written out (Function.update disk n (some c)) r
    | .error _ => written out disk r

/-- The first exception in the order of completion. -/
def firstError (out : Nat → Except E (N × C)) : List Nat → Option E
  | [] => none
  | i :: r => match out i with
    | .ok _ => firstError out r
    | .error e => some e

/-- What `pool.map` of `n` tasks gives to the parent when they are completed in an order. -/
def mapResult (out : Nat → Except E (N × C)) (n : Nat) (order : List Nat) : Except E (List (Nat × N)) :=
  match firstError out order with
  | some e => .error e
  | none => .ok ((List.range n).filterMap fun i => match out i with
    | .ok (nm, _) => some (i, nm)
    | .error _ => none)

/-! ## Names -/

inductive Err where
  | value
  | notFound
  deriving DecidableEq, Repr

/-- One place of a regular expression: a character, or any character (`none`). -/
def matchOne (p : Option Char) (c : Char) : Bool := match p with
  | some d => d == c
  | none => c != '\n'

/-- A pattern at the beginning of a string. -/
def matchAt : List (Option Char) → List Char → Bool
  | [], _ => true
  | _ :: _, [] => false
  | p :: ps, c :: cs => matchOne p c && matchAt ps cs

/-- The pattern after the group: `_zreds_master_table.fit`, where the point stands for any character. -/
def suffixPat : List (Option Char) := "_zreds_master_table".toList.map some ++ none :: "fit".toList.map some

/-- `re.search('^(.*)_zreds_master_table.fit', name)`, first group (names have no line breaks): what is before the last match. -/
def outbase (name : List Char) : Option (List Char) :=
  ((List.range (name.length + 1)).reverse.find? fun k => matchAt suffixPat (name.drop k)).map name.take

/-- `os.path.basename`. -/
def basename (s : List Char) : List Char := (s.reverse.takeWhile fun c => c != '/').reverse

/-- `os.path.dirname` of a path that is not in the root directory: what is before the last slash (further slashes before it, which Python removes, are kept). -/
def dirname (s : List Char) : List Char := ((s.reverse.dropWhile fun c => c != '/').drop 1).reverse

/-- zred_runner.py:194-211: the setup of a run: the directory of the files and the beginning of their names.  The directory is made if it is not there, which
raises for an empty name. -/
def setup (pixelized : Bool) (zredfile : List Char) : Except Err (List Char × List Char) :=
  if !pixelized then .error .value
  else match outbase (basename zredfile) with
    | none => .error .value
    | some b => if dirname zredfile = [] then .error .notFound else .ok (dirname zredfile, b)

/-- python `%07d`. -/
def pad7 (n : Nat) : List Char := List.replicate (7 - (dec n).length) '0' ++ dec n

/-- zred_runner.py:286: the file of a pixel, without the directory. -/
def pixelName (base : List Char) (pix : Nat) : List Char := base ++ "_zreds_".toList ++ pad7 pix ++ ".fit".toList

end Redmapper.ForkPool
