/-
Model of the files that a consolidation writes:
  /repo/redmapper/pipeline/redmapperconsolidatetask.py RedmapperConsolidateTask.run (files of cuts, renumbering, names of plots),
                                                        RuncatConsolidateTask.run (files, end of the run)

What is selected from each pixel is in `Consolidate`; here it is given, for each file that is read and each cut.  A table is the list of its rows.
Cuts are non-negative.
-/
import Verif.Model.CatTask
import Verif.Model.MedCal
import Mathlib.Data.Rat.Floor

namespace Redmapper.ConsFiles

open Redmapper.CatTask (fileName)
open Redmapper.MedCal (pad2)

inductive Err
  | key | name
  deriving DecidableEq, Repr

abbrev Str := List Char

/-! ### Names -/

/-- A cut: smallest richness, and the luminosity of the volume limit if there are any. -/
abbrev Cut := ℚ × Option ℚ

/-- redmapperconsolidatetask.py:212-216; `%02d` and `int` cut off fractions. -/
def extraName (c : Cut) : Str := match c.2 with
  | some v => "lgt".toList ++ pad2 ⌊c.1⌋₊ ++ "_vl".toList ++ pad2 ⌊v * 10⌋₊
  | none => "lgt".toList ++ pad2 ⌊c.1⌋₊

/-- redmapperconsolidatetask.py:218. -/
def catFile (outbase version : Str) (c : Cut) : Str := fileName outbase version (extraName c ++ "_catalog".toList) true

/-- redmapperconsolidatetask.py:219. -/
def memFile (outbase version : Str) (c : Cut) : Str := fileName outbase version (extraName c ++ "_catalog_members".toList) true

/-- redmapperconsolidatetask.py:104-112, 203-204: the cuts in the order of the loops. -/
def cuts (lambdas vlims : List ℚ) : List Cut :=
  lambdas.flatMap fun l => if vlims = [] then [(l, none)] else vlims.map fun v => (l, some v)

/-- redmapperconsolidatetask.py:51-62 with 104-112: the cuts of a task made with richnesses (`none`: not given) and volume limits, and a configuration. -/
def taskCuts (lambdaCuts : Option (List ℚ)) (vlimLstars cfgLambda cfgVlim : List ℚ) : List Cut :=
  cuts (match lambdaCuts with
    | none => cfgLambda
    | some l => l)
    (if vlimLstars.length = 0 then (if cfgVlim.length = 0 then [] else cfgVlim) else vlimLstars)

/-- redmapper_consolidate_run.py:14-27: the script; options that are left out are `none`, an option has at least one value. -/
def scriptCuts (lambdaOpt vlimOpt : Option (List ℚ)) (cfgLambda cfgVlim : List ℚ) : List Cut :=
  taskCuts lambdaOpt (match vlimOpt with
    | none => []
    | some v => v) cfgLambda cfgVlim

/-- `s.split(pat)[0]`. -/
def beforeFirst (pat : Str) : Str → Str
  | [] => []
  | c :: t => if pat.isPrefixOf (c :: t) then [] else c :: beforeFirst pat t

/-- redmapperconsolidatetask.py:221-222, 272: the base of the names of the plots of a cut. -/
def plotBase (outbase version : Str) (c : Cut) : Str := beforeFirst "_catalog".toList (catFile outbase version c)

/-! ### Writing -/

/-- Catalogs and member tables. -/
structure Disk (ρ μ : Type) where
  cat : Str → Option (List ρ)
  mem : Str → Option (List μ)

/-- Replacing a file. -/
def put {β : Type} (d : Str → Option β) (n : Str) (v : β) : Str → Option β := fun m => if m = n then some v else d m

/-- State of the loop: the cuts that have files, and the files. -/
structure St (ρ μ : Type) where
  started : Nat → Bool
  disk : Disk ρ μ

variable {ρ μ : Type}

/-- redmapperconsolidatetask.py:206-235: rows of one file for the k-th cut with the names `n`; appending is to the files as they are now. -/
def addCut (n : Str × Str) (k : Nat) (rows : List ρ × List μ) (s : St ρ μ) : St ρ μ :=
  if rows.1.isEmpty then s
  else if s.started k then
    { s with disk := { cat := put s.disk.cat n.1 ((s.disk.cat n.1).getD [] ++ rows.1), mem := put s.disk.mem n.2 ((s.disk.mem n.2).getD [] ++ rows.2) } }
  else
    { started := fun j => if j = k then true else s.started j, disk := { cat := put s.disk.cat n.1 rows.1, mem := put s.disk.mem n.2 rows.2 } }

/-- redmapperconsolidatetask.py:197-235: all cuts for one file, from the k-th on. -/
def addFile : List (Str × Str) → Nat → List (List ρ × List μ) → St ρ μ → St ρ μ
  | n :: ns, k, r :: rs, s => addFile ns (k + 1) rs (addCut n k r s)
  | _, _, _, s => s

/-- redmapperconsolidatetask.py:121-235: all files. -/
def addAll (ns : List (Str × Str)) (files : List (List (List ρ × List μ))) (s : St ρ μ) : St ρ μ := files.foldl (fun s f => addFile ns 0 f s) s

/-- redmapperconsolidatetask.py:247-266: the ids of each pair of files are replaced; a cut without rows has no names. -/
def renumber (fr : ρ → ρ) (fm : μ → μ) : List (Str × Str) → Nat → St ρ μ → Disk ρ μ × Option Err
  | [], _, s => (s.disk, none)
  | n :: ns, k, s =>
    if s.started k then
      renumber fr fm ns (k + 1) { s with disk := { cat := put s.disk.cat n.1 (((s.disk.cat n.1).getD []).map fr),
                                                   mem := put s.disk.mem n.2 (((s.disk.mem n.2).getD []).map fm) } }
    else (s.disk, some .key)

/-- The names of the files of all cuts. -/
def names (outbase version : Str) (cs : List Cut) : List (Str × Str) := cs.map fun c => (catFile outbase version c, memFile outbase version c)

/-- redmapperconsolidatetask.py:114-266 on a disk. -/
def consolidate (outbase version : Str) (cs : List Cut) (fr : ρ → ρ) (fm : μ → μ) (files : List (List (List ρ × List μ))) (d : Disk ρ μ) :
    Disk ρ μ × Option Err :=
  renumber fr fm (names outbase version cs) 0 (addAll (names outbase version cs) files ⟨fun _ => false, d⟩)

/-! ### Catalogs without cuts -/

/-- redmapperconsolidatetask.py:398-431 `RuncatConsolidateTask.run` after the reading: files of the kind `cattype`; each list are the rows of a pixel and the whole
member table.  The plots use a name that does not exist; without any row the file to read has no name either. -/
def runcat (outbase version cattype : Str) (members plots : Bool) (files : List (List ρ × List μ)) (d : Disk ρ μ) : Disk ρ μ × Option Err :=
  let use := files.filter fun f => !f.1.isEmpty
  let nc := fileName outbase version (cattype ++ "_catalog".toList) true
  let nm := fileName outbase version (cattype ++ "_catalog_members".toList) true
  (if use.isEmpty then d
   else { cat := put d.cat nc (use.flatMap Prod.fst), mem := if members then put d.mem nm (use.flatMap Prod.snd) else d.mem },
   if plots then some .name else none)

end Redmapper.ConsFiles
