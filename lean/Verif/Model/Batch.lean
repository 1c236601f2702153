/-
Model of the making of batch jobs, and of the scripts that jobs run:
  /repo/bin/redmapper_batch.py
  /repo/redmapper/parsl_templates.py (what the scripts made from the templates run)
  /repo/bin/redmapper_run_redmapper_pixel.py, redmapper_run_zred_pixel.py, redmapper_runcat_pixel.py, redmapper_run_zmask_pixel.py,
  redmapper_run_zscan_pixel.py (their arguments)
  /repo/bin/redmapper_run_many_pixels_same_node.py

Text is a list of characters.  Directives of the batch systems other than the size of the job array (memory, wall time, log files) are not modelled,
nor is the making of mask galaxies (redmapper_batch.py:208-213).
-/
import Verif.Model.Config
import Verif.Model.RsFile
import Mathlib.Data.List.Sort

namespace Redmapper.Batch

open Redmapper.Config (dec)
open Redmapper.RsFile (splitComma)

abbrev Str := List Char

inductive Err
  | value | runtime | name | key | type | notImplemented | syntaxError
  deriving DecidableEq, Repr

/-! ### The configuration of the batch system -/

/-- A section of `~/.redmapper_batch.yml`. -/
abbrev Section := List (Str × Str)

def Section.get (s : Section) (k : Str) : Option Str := (s.find? fun x => x.1 = k).map Prod.snd

/-- `if k not in d: d[k] = v`. -/
def Section.setDefault (s : Section) (k v : Str) : Section := if s.get k = none then s ++ [(k, v)] else s

/-- redmapper_batch.py:46-57. -/
def defaults : List (Str × Str) :=
  [("setup".toList, []), ("requirements".toList, []), ("parsl_provider".toList, "local".toList), ("image".toList, []), ("constraint".toList, []),
   ("qos".toList, [])]

/-- redmapper_batch.py:43-57, one section. -/
def loadSection (s : Section) : Except Err Section :=
  if s.get "batch".toList = none then .error .value
  else .ok (defaults.foldl (fun s d => s.setDefault d.1 d.2) s)

/-- redmapper_batch.py:27-59 `load_batchconfig`. -/
def loadBatchconfig : List (Str × Section) → Except Err (List (Str × Section))
  | [] => .ok []
  | (k, s) :: rest =>
    match loadSection s with
    | .error e => .error e
    | .ok s' => match loadBatchconfig rest with
      | .error e => .error e
      | .ok r => .ok ((k, s') :: r)

/-- redmapper_batch.py:18-25, 62-67: a configuration that is not there is made, and then used. -/
def configOf : Option (List (Str × Section)) → Except Err (List (Str × Section))
  | some c => loadBatchconfig c
  | none => loadBatchconfig [("batchname".toList, [("setup".toList, []), ("batch".toList, "lsf".toList), ("requirements".toList, [])])]

/-- redmapper_batch.py:69-72, 93-96 and the look-up at 162: with several sections the option is required (`argparse` stops otherwise, here an error). -/
def sectionOf (cfg : List (Str × Section)) (batchmode : Option Str) : Except Err Section :=
  match batchmode with
  | some m => match cfg.find? fun x => x.1 = m with
    | some x => .ok x.2
    | none => .error .key
  | none => match cfg with
    | [x] => .ok x.2
    | _ => .error .value

/-! ### The command of a job -/

/-- redmapper_batch.py:109-146, 170-206: the type of job and the script, by run mode. -/
def modeOf (runmode : Int) : Except Err (Str × Str) :=
  if runmode = 0 then .ok ("run".toList, "redmapper_run_redmapper_pixel.py".toList)
  else if runmode = 1 then .ok ("zred".toList, "redmapper_run_zred_pixel.py".toList)
  else if runmode = 2 then .ok ("runcat".toList, "redmapper_runcat_pixel.py".toList)
  else if runmode = 3 then .ok ("zmask".toList, "redmapper_run_zmask_pixel.py".toList)
  else if runmode = 4 then .ok ("zscan".toList, "redmapper_run_zscan_pixel.py".toList)
  else .error .runtime

/-- redmapper_batch.py:170-206: `'script -c %s -p %%s -n %d -d %s' % (...)`; the paths are put in as they are. -/
def runCommand (script config : Str) (nside : Nat) (dir : Str) : Str :=
  script ++ " -c ".toList ++ config ++ " -p %s -n ".toList ++ dec nside ++ " -d ".toList ++ dir

/-- `fmt % arg` for one text; `used` is whether the argument has been used.  Conversions other than `%s` and `%%` are errors here (with a text as only
argument, which `%s` also takes, they are errors in python, apart from `%%` with flags or a width). -/
def pctAux (arg : Str) : Bool → Str → Except Err Str
  | used, [] => if used then .ok [] else .error .type
  | _, ['%'] => .error .value
  | used, '%' :: c :: t =>
    if c = '%' then (pctAux arg used t).map ('%' :: ·)
    else if c = 's' then (if used then .error .type else (pctAux arg true t).map (arg ++ ·))
    else .error .type
  | used, c :: t => (pctAux arg used t).map (c :: ·)

def pct (fmt arg : Str) : Except Err Str := pctAux arg false fmt

/-- redmapper_batch.py:226: how the script of a job array names its pixel. -/
def marker : Str := "${pixarr[LSB_JOBINDEX-1]}".toList

/-- The shell puts the pixel in the place of the marker; other expansions by the shell are not modelled. -/
def expandAux (w : Str) : Nat → Str → Str
  | _, [] => []
  | k + 1, _ :: t => expandAux w k t
  | 0, c :: t => if marker.isPrefixOf (c :: t) then w ++ expandAux w (marker.length - 1) t else c :: expandAux w 0 t

def expand (w s : Str) : Str := expandAux w 0 s

/-- Words of a text at blanks. -/
def wordsAux : Str → Str → List Str
  | acc, [] => if acc = [] then [] else [acc.reverse]
  | acc, c :: t => if c = ' ' then (if acc = [] then wordsAux [] t else acc.reverse :: wordsAux [] t) else wordsAux (c :: acc) t

def words (s : Str) : List Str := wordsAux [] s

/-- `str.format(pixel=w)`: braces twice are braces; a field other than `pixel` is an error. -/
def fmtAux (w : Str) : Nat → Str → Except Err Str
  | _, [] => .ok []
  | k + 1, _ :: t => fmtAux w k t
  | 0, c :: t =>
    if c = '{' then
      if t.head? = some '{' then (fmtAux w 1 t).map ('{' :: ·)
      else if "pixel}".toList.isPrefixOf t then (fmtAux w 6 t).map (w ++ ·)
      else .error .key
    else if c = '}' then
      if t.head? = some '}' then (fmtAux w 1 t).map ('}' :: ·) else .error .value
    else (fmtAux w 0 t).map (c :: ·)

def fmtPixel (w s : Str) : Except Err Str := fmtAux w 0 s

/-! ### Job files -/

/-- What a job file holds: nothing that runs (the script stopped while writing it), a job array, or a parsl script. -/
inductive Job
  | unfinished
  | array (n : Nat) (pixarr cmd : Str)
  | parsl (pixels : List Nat) (command : Str)
  deriving DecidableEq, Repr

/-- redmapper_batch.py:284-289: the text between the parentheses of `pixarr=( )`. -/
def pixText (pixels : List Nat) : Str := pixels.flatMap fun p => dec p ++ [' ']

/-- redmapper_batch.py:260-268: the command of a parsl script. -/
def parslCommand (image cmd : Str) : Str :=
  if image = [] then cmd
  else "shifter --image=".toList ++ image ++ " /bin/bash -c \". /opt/redmapper/startup.sh && ".toList ++ cmd ++ ['"']

/-- redmapper_batch.py:218-293: what is written to the job file that has been opened, and the error that stops it. -/
def writeJob (s : Section) (cmd : Str) (pixels : List Nat) : Job × Option Err :=
  let batch := (s.get "batch".toList).getD []
  if batch = "lsf".toList then
    match pct cmd marker with
    | .error e => (.unfinished, some e)
    | .ok c => (.array pixels.length (pixText pixels) c, none)
  else if batch = "pbs".toList then
    if s.get "ppn".toList = none ∨ s.get "queue".toList = none then (.unfinished, some .key)
    else (.unfinished, some .name)
  else if batch = "parsl".toList then
    let provider := (s.get "parsl_provider".toList).getD []
    if provider = "local".toList ∨ provider = "slurm".toList then
      match pct cmd "{pixel}".toList with
      | .error e => (.unfinished, some e)
      | .ok c => (.parsl pixels (parslCommand ((s.get "image".toList).getD []) c), none)
    else (.unfinished, some .runtime)
  else if batch = "slurm".toList then (.unfinished, some .notImplemented)
  else (.unfinished, some .runtime)

/-- What a job runs.  Elements of a job array have the indices 1, 2, ...; without an element of that index the shell puts in nothing.
parsl_templates.py:75-84: the command is between quotes in the script, and the pixel is put in by `format`. -/
def jobRuns : Job → Except Err (List Str)
  | .unfinished => .ok []
  | .array n pixarr cmd => .ok ((List.range n).map fun j => expand ((words pixarr).getD j []) cmd)
  | .parsl pixels command =>
    if command.any fun c => c = '\'' || c = '\\' then .error .syntaxError
    else pixels.foldr (fun p r => match fmtPixel (dec p) command, r with
      | .ok c, .ok cs => .ok (c :: cs)
      | .error e, _ => .error e
      | _, .error e => .error e) (.ok [])

/-- The directory `jobs`. -/
abbrev Dir := List (Str × Job)

def Dir.get (d : Dir) (n : Str) : Option Job := (d.find? fun x => x.1 = n).map Prod.snd

/-- Opening a file with `'w'` and writing it. -/
def Dir.put (d : Dir) (n : Str) (j : Job) : Dir := (n, j) :: d.filter fun x => x.1 ≠ n

/-- redmapper_batch.py:162-165, 215-218. -/
def extOf (s : Section) : Str := if s.get "batch".toList = some "parsl".toList then ".py".toList else ".job".toList

/-- A name that `glob` finds for `<jobname>_?<ext>`; names of jobs without wildcards. -/
def globbed (jobname ext n : Str) : Bool :=
  n.length = jobname.length + 2 + ext.length && (jobname ++ ['_']).isPrefixOf n && ext.isSuffixOf n

/-- redmapper_batch.py:166: the number of earlier jobs. -/
def countJobs (d : Dir) (jobname ext : Str) : Nat := ((d.map Prod.fst).dedup.filter (globbed jobname ext)).length

/-- redmapper_batch.py:162-166, 215-218. -/
def jobFile (d : Dir) (jobname ext : Str) : Str := jobname ++ ['_'] ++ dec (countJobs d jobname ext + 1) ++ ext

/-- redmapper_batch.py:158: `np.unique` of the pixels of the job. -/
def pixelsRun {π : Type} (center : Nat → π) (ang2pix : π → Nat) (table : List Nat) : List Nat := 
  (table.map fun p => ang2pix (center p)).dedup.insertionSort (· ≤ ·)

/-- What is asked for. -/
structure Args where
  config : Str
  dir : Str
  outbase : Str
  hpixGiven : Bool
  runmode : Int
  nside : Option Nat
  batchmode : Option Str

/-- redmapper_batch.py:93-293: the directory afterwards, and the error.  `center` is the centre of a pixel of the galaxy table and `ang2pix nside` the
pixelization of the jobs. -/
def create {π : Type} (cfg : List (Str × Section)) (center : Nat → π) (ang2pix : Nat → π → Nat) (table : List Nat) (a : Args) (d : Dir) : Dir × Option Err :=
  if a.hpixGiven then (d, some .value)
  else
    match modeOf a.runmode with
    | .error e => (d, some e)
    | .ok (jobtype, script) =>
      match sectionOf cfg a.batchmode with
      | .error e => (d, some e)
      | .ok s =>
        let nside := a.nside.getD 8
        let jobname := a.outbase ++ ['_'] ++ jobtype
        let r := writeJob s (runCommand script a.config nside a.dir) (pixelsRun center (ang2pix nside) table)
        (d.put (jobFile d jobname (extOf s)) r.1, r.2)

/-! ### The scripts of pixels -/

/-- The arguments of a script of a pixel: configuration, pixel, nside, path. -/
structure PixArgs where
  config : Str
  pixel : Nat
  nside : Nat
  path : Str
  deriving DecidableEq, Repr

/-- A number, as `argparse` reads it (without sign). -/
def readNat (s : Str) : Option Nat := if s ≠ [] ∧ s.all Char.isDigit then some (Nat.ofDigitChars 10 s 0) else none

/-- The options of a script as pairs; the last of several equal ones counts. -/
def options : List Str → Option (List (Str × Str))
  | [] => some []
  | k :: v :: t => (options t).map fun r => r ++ [(k, v)]
  | [_] => none

/-- redmapper_run_redmapper_pixel.py:12-24 and the other four, which are the same.  Long names of options are not modelled. -/
def parseArgs (l : List Str) : Option PixArgs :=
  match options l with
  | none => none
  | some o =>
    if o.all (fun x => x.1 = "-c".toList || x.1 = "-p".toList || x.1 = "-n".toList || x.1 = "-d".toList) then
      match (o.find? fun x => x.1 = "-c".toList), (o.find? fun x => x.1 = "-p".toList).bind (fun x => readNat x.2),
        (o.find? fun x => x.1 = "-n".toList).bind (fun x => readNat x.2) with
      | some c, some p, some n => some ⟨c.2, p, n, ((o.find? fun x => x.1 = "-d".toList).map Prod.snd).getD "./".toList⟩
      | _, _, _ => none
    else none

/-! ### Several pixels on one node -/

/-- redmapper_run_many_pixels_same_node.py: the commands that are run, and the exit status of the script.  `status` is that of a command. -/
def runMany (status : Str → Nat) (command pixels : Str) : List (Str × Nat) × Nat :=
  ((splitComma pixels).map fun p => (command ++ " -p ".toList ++ p, status (command ++ " -p ".toList ++ p)), 0)

end Redmapper.Batch
