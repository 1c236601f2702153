/-
Model of the log files of a run.

  /repo/redmapper/configuration.py   Configuration.__init__ (425, 441-447), start_file_logging (583-602), stop_file_logging (607-610)

The logging module of python keeps one logger per name and process, with the files that are attached to it; a file is opened for appending.
Simplifications: the console is left out; directories that are made (590-591) are not modelled; the names of files are those in the directory of
logs.
-/
import Verif.Model.Config

namespace Redmapper.LogFile

open Redmapper.Config (dec)

inductive Err
  | indexError
deriving DecidableEq, Repr

/-- python `:04` of a pixel, configuration.py:595. -/
def pad4 (n : Nat) : List Char := List.replicate (4 - (dec n).length) '0' ++ dec n

/-- configuration.py:594-597: the name of the log file. -/
def logName (outbase : List Char) (pixel : Nat) : List Char := "redmapper_".toList ++ outbase ++ '_' :: pad4 pixel ++ ".log".toList

/-- The name of a logger (configuration.py:442-445): that of a pixel if the configuration has exactly one, or the common one. -/
inductive Logger
  | pixel (p : Nat)
  | common
deriving DecidableEq, Repr

def loggerOf (hpix : List Nat) : Logger := match hpix with
  | [p] => .pixel p
  | _ => .common

/-- A Configuration as far as logs go. `outbase`, `hpix` are those of `config.d`; `logger` was chosen when it was made. -/
structure Cfg where
  printlogging : Bool
  outbase : List Char
  hpix : List Nat
  logger : Logger
  started : Bool

/-- configuration.py:425, 436-447. -/
def mkCfg (printlogging : Bool) (outbase : List Char) (hpix : List Nat) : Cfg :=
  { printlogging, outbase, hpix, logger := loggerOf hpix, started := false }

/-- The process: the configurations, the files attached to each logger, and what is in each file. -/
structure World (M : Type) where
  cfg : Nat → Cfg
  handlers : Logger → List (List Char)
  files : List Char → List M

/-- configuration.py:593-597: the file for a configuration; without pixels there is no first one. -/
def nameFor (c : Cfg) (filename : Option (List Char)) : Except Err (List Char) := match filename with
  | some f => .ok f
  | none => match c.hpix with
    | [] => .error .indexError
    | p :: _ => .ok (logName c.outbase p)

/-- configuration.py:583-602 `start_file_logging`. -/
def start {M : Type} (i : Nat) (filename : Option (List Char)) (w : World M) : Except Err (World M) :=
  let c := w.cfg i
  if c.started then .ok w
  else if c.printlogging then .ok w
  else
    match nameFor c filename with
    | .error e => .error e
    | .ok f => .ok { w with handlers := fun l => if l = c.logger then w.handlers l ++ [f] else w.handlers l
                            cfg := fun j => if j = i then { c with started := true } else w.cfg j }

/-- configuration.py:607-610 `stop_file_logging`. -/
def stop {M : Type} (i : Nat) (w : World M) : World M :=
  { w with handlers := fun l => if l = (w.cfg i).logger then [] else w.handlers l }

/-- `config.logger.info(m)`. -/
def log {M : Type} (i : Nat) (m : M) (w : World M) : World M :=
  { w with files := fun f => w.files f ++ List.replicate ((w.handlers (w.cfg i).logger).count f) m }

/-- What is done with the configurations of a process. -/
inductive Op (M : Type) where
  | start (i : Nat) (filename : Option (List Char))
  | stop (i : Nat)
  | log (i : Nat) (m : M)

/-- One after the other; an exception ends it. -/
def run {M : Type} : List (Op M) → World M → Except Err (World M)
  | [], w => .ok w
  | .start i f :: ops, w => match start i f w with
    | .error e => .error e
    | .ok w' => run ops w'
  | .stop i :: ops, w => run ops (stop i w)
  | .log i m :: ops, w => run ops (log i m w)

end Redmapper.LogFile
