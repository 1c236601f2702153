/-
Model of /repo/redmapper/configuration.py: ConfigField, DuplicatableConfig, Configuration (the parts listed at each definition).
-/
import Mathlib.Data.List.Basic
import Mathlib.Data.Rat.Floor
import Mathlib.Analysis.SpecialFunctions.Pow.Real

namespace Redmapper.Config

inductive Err
  | valueError
  | typeError
  | attributeError
  | osError
deriving DecidableEq, Repr

/-! ### Values (what yaml can deliver: null, scalars, strings, flat sequences) -/

inductive Atom
  | null
  | num (x : Int)
  | str (s : List Char)
deriving DecidableEq, Repr

inductive Val
  | atom (a : Atom)
  | seq (l : List Atom)
deriving DecidableEq, Repr

/-- python `None`. -/
def none' : Val := .atom .null

/-- configuration.py:23-62: a declared field (its name, kind, default, required, fixed length). -/
structure Field where
  name : String
  isArray : Bool
  isList : Bool
  required : Bool
  default : Val
  len : Option Nat

/-- configuration.py:67-79 `__set__`: what is stored.  For a scalar field the length check raises inside a `try` whose
`except: pass` swallows it, so everything is stored. -/
def Field.store (f : Field) (v : Val) : Except Err Val :=
  if f.isArray then
    .ok (match v with
      | .atom a => .seq [a]       -- np.atleast_1d, also of None
      | .seq l => .seq l)
  else if f.isList then
    match v with
    | .atom .null => .error .typeError
    | .atom (.num _) => .error .typeError
    | .atom (.str s) => .ok (.seq (s.map fun c => .str [c]))
    | .seq l => .ok (.seq l)
  else
    let swallowed : Except Err Unit := match v with
      | .seq l => if 1 < l.length then .error .valueError else .ok ()
      | _ => .ok ()
    match swallowed with
    | _ => .ok v

/-- configuration.py:95-120 `validate`. -/
def Field.validate (f : Field) (v : Val) : Except Err Unit :=
  if f.required = true ∧ v = none' then .error .valueError
  else match v with
    | .seq l => match f.len with
      | some n => if (f.isArray || f.isList) = true ∧ l.length ≠ n then .error .valueError else .ok ()
      | none => .ok ()
    | .atom _ => .ok ()

/-- The class: the values live in the descriptors, i.e. in the class. -/
abbrev Cls := String → Val

def setCls (c : Cls) (n : String) (v : Val) : Cls := fun m => if m = n then v else c m

def findField (fs : List Field) (n : String) : Option Field := fs.find? fun f => f.name = n

/-- configuration.py:622-642 `_set_vars_from_dict`. -/
def setVars (fs : List Field) (checkNone : Bool) : Cls → List (String × Val) → Except Err Cls
  | c, [] => .ok c
  | c, (k, v) :: rest =>
    if checkNone = true ∧ v = none' then setVars fs checkNone c rest
    else match findField fs k with
      | none => .error .attributeError
      | some f => match f.store v with
        | .error e => .error e
        | .ok w => setVars fs checkNone (setCls c k w) rest

/-- configuration.py:607-616 `_reset_vars`. -/
def resetVars (fs : List Field) (c : Cls) : Cls := fun n => match findField fs n with
  | some f => f.default
  | none => c n

/-- configuration.py:552-566 `validate`, over all fields. -/
def validateAll (c : Cls) : List Field → Except Err Unit
  | [] => .ok ()
  | f :: fs => match f.validate (c f.name) with
    | .error e => .error e
    | .ok _ => validateAll c fs

/-- configuration.py:409-550, the skeleton of the constructor: reset, set from the yaml dictionary, set from the galaxy file
statistics (skipping None), then `setLens` puts the run-time lengths into the fields (510-527), validate. -/
def construct (fs : List Field) (setLens : Cls → List Field → List Field) (c : Cls) (yaml stats : List (String × Val)) : Except Err Cls :=
  match setVars fs false (resetVars fs c) yaml with
  | .error e => .error e
  | .ok c1 => match setVars fs true c1 stats with
    | .error e => .error e
    | .ok c2 => match validateAll c2 (setLens c2 fs) with
      | .error e => .error e
      | .ok _ => .ok c2

/-- configuration.py:644-659 `_set_lengths`: one call. -/
def setLengths (names : List String) (n : Nat) (fs : List Field) : List Field :=
  fs.map fun f => if f.name ∈ names then { f with len := some n } else f

/-! ### Several configuration objects (configuration.py:64-79, 150-167, 568-572) -/

/-- A configuration object: its plain attributes (cosmo, logger, ...) and the reference to its DuplicatableConfig. -/
structure Obj where
  attrs : String → Val
  dref : Nat

/-- All objects, the DuplicatableConfig instances, and the class. -/
structure Heap where
  cls : Cls
  objs : List Obj
  ds : List (String → Val)

inductive Op
  | construct (vals : List (String × Val))    -- a new Configuration whose (validated) dictionary is `vals`
  | copy (i : Nat)                            -- Configuration.copy
  | setField (i : Nat) (n : String) (v : Val) -- config.field = value (value as stored)
  | setD (i : Nat) (k : String) (v : Val)     -- config.d.outbase/hpix/nside = value
  | setAttr (i : Nat) (k : String) (v : Val)  -- config.cosmo = value

/-- One operation.  A new configuration resets the class values, sets its own, and makes its own DuplicatableConfig from them
(configuration.py:163-167); `copy.copy` makes a new object with the same attributes and the same `d`. -/
def exec (dflt : Cls) (h : Heap) : Op → Heap
  | .construct vals =>
    let c := vals.foldl (fun c kv => setCls c kv.1 kv.2) dflt
    { cls := c, objs := h.objs ++ [⟨fun _ => none', h.ds.length⟩], ds := h.ds ++ [c] }
  | .copy i => match h.objs[i]? with
    | none => h
    | some o => { h with objs := h.objs ++ [o] }
  | .setField _ n v => { h with cls := setCls h.cls n v }
  | .setD i k v => match h.objs[i]? with
    | none => h
    | some o => { h with ds := h.ds.modify o.dref (fun d => setCls d k v) }
  | .setAttr i k v => { h with objs := h.objs.modify i (fun o => { o with attrs := setCls o.attrs k v }) }

def execAll (dflt : Cls) (h : Heap) (ops : List Op) : Heap := ops.foldl (exec dflt) h

/-- configuration.py:64-65 `__get__`: the value in the class, whatever the object. -/
def getField (h : Heap) (i : Nat) (n : String) : Option Val := (h.objs[i]?).map fun _ => h.cls n

def getAttr (h : Heap) (i : Nat) (k : String) : Option Val := (h.objs[i]?).map fun o => o.attrs k

def getD (h : Heap) (i : Nat) (k : String) : Option Val :=
  match h.objs[i]? with
  | none => none
  | some o => (h.ds[o.dref]?).map fun d => d k

/-! ### wcen values (configuration.py:785-829) -/

/-- configuration.py:810-827; `col` reads a column of the file, `hasPhi1` says whether the phi1 columns are there. -/
def wcenVals (col : String → Int) (hasPhi1 : Bool) : List (String × Int) :=
  [("wcen_Delta0", col "delta0"), ("wcen_Delta1", col "delta1"), ("wcen_sigma_m", col "sigma_m"), ("wcen_pivot", col "pivot"),
   ("lnw_fg_mean", col "lnw_fg_mean"), ("lnw_fg_sigma", col "lnw_fg_sigma"),
   ("lnw_sat_mean", col "lnw_sat_mean"), ("lnw_sat_sigma", col "lnw_sat_sigma"),
   ("lnw_cen_mean", col "lnw_cen_mean"), ("lnw_cen_sigma", col "lnw_cen_sigma")] ++
  (if hasPhi1 then
    [("phi1_mmstar_m", col "phi1_mmstar_m"), ("phi1_mmstar_slope", col "phi1_mmstar_m"),
     ("phi1_msig_m", col "phi1_msig_m"), ("phi1_msig_slope", col "phi1_msig_slope")]
  else [])

/-- configuration.py:785-795: the values are set when there is a file. -/
def setWcen (file : Option ((String → Int) × Bool)) (c : String → Int) : String → Int :=
  match file with
  | none => c
  | some (col, ph) => (wcenVals col ph).foldl (fun c kv => fun n => if n = kv.1 then kv.2 else c n) c

/-! ### output_yaml (configuration.py:933-957) -/

/-- configuration.py:942-954: the dictionary written (numpy scalars become python scalars of the same value). -/
def dump (c : Cls) : List Field → Except Err (List (String × Val))
  | [] => .ok []
  | f :: fs =>
    let v : Except Err Val := if f.isArray then (match c f.name with
        | .seq l => .ok (.seq l)
        | .atom _ => .error .typeError) else .ok (c f.name)
    match v with
    | .error e => .error e
    | .ok w => match dump c fs with
      | .error e => .error e
      | .ok rest => .ok ((f.name, w) :: rest)

/-! ### File names and checks -/

/-- python `%d` of a natural number. -/
def dec (n : Nat) : List Char := (Nat.toDigits 10 n)

/-- python `%05d`. -/
def pad5 (n : Nat) : List Char := List.replicate (5 - (dec n).length) '0' ++ dec n

/-- redmappertask.py:77 and configuration.py:839-878: the file of a pixel run,
`outpath/<outbase>_<nside>_<pixel>_<name>.<filetype>` (without version). -/
def pixelFile (outpath outbase : List Char) (nside pixel : Nat) (name filetype : List Char) : List Char :=
  outpath ++ '/' :: (outbase ++ '_' :: (dec nside ++ '_' :: (pad5 pixel ++ '_' :: (name ++ '.' :: filetype))))

/-- The files of a run and which checks are requested (configuration.py:880-931); `none` is an unset configuration value. -/
structure Files where
  zred : Option Bool
  bkg : Option Bool
  bkgExts : List String
  par : Option Bool
  zlambda : Option Bool
  rand : Option Bool

structure Checks where
  zred : Bool
  bkg : Bool
  bkgComponents : Bool
  par : Bool
  zlambda : Bool
  rand : Bool

/-- `os.path.isfile(name)`; of None it raises TypeError. -/
def needFile (asked : Bool) (f : Option Bool) : Except Err Unit :=
  if asked = true then (match f with
    | none => .error .typeError
    | some true => .ok ()
    | some false => .error .valueError) else .ok ()

/-- configuration.py:912-917: opening the background file raises when it is not there. -/
def needExts (asked : Bool) (f : Option Bool) (exts : List String) : Except Err Unit :=
  if asked = true then (match f with
    | none => .error .typeError
    | some false => .error .osError
    | some true => if "CHISQBKG" ∉ exts then .error .valueError else if "ZREDBKG" ∉ exts then .error .valueError else .ok ())
  else .ok ()

/-- configuration.py:880-931 `check_files`. -/
def checkFiles (k : Checks) (f : Files) : Except Err Unit := do
  needFile k.zred f.zred
  needFile k.bkg f.bkg
  needExts k.bkgComponents f.bkg f.bkgExts
  needFile k.par f.par
  needFile k.zlambda f.zlambda
  needFile k.rand f.rand

/-- configuration.py:959-973 `compute_border` (degrees); `da` is the angular diameter distance at zrange[0]. -/
noncomputable def border (rmask0 beta radPerDeg da : ℝ) : ℝ := 3 * ((1.05 * rmask0 * (300 / 100 : ℝ) ^ beta) / (radPerDeg * da))

/-- run_percolation.py:345 and cluster_runner.py:502-503: the masking radius of a cluster. -/
noncomputable def rmask (rmask0 beta gamma zpivot lam z : ℝ) : ℝ :=
  rmask0 * (lam / 100) ^ beta * ((1 + z) / (1 + zpivot)) ^ gamma

end Redmapper.Config
