/-
Model of the cluster catalogue object (/repo/redmapper/cluster.py `ClusterCatalog`), and of how values assigned to a cluster while it is
processed reach the catalogue that is written (cluster_runner.py, run_randoms_zmask.py).

Built on the tables of `Model/Catalog`.  A dtype is a list of names with the zero of their type (types and vector lengths are not modelled,
a cell is opaque); the objects attached to a catalogue (red sequence, backgrounds, ...) are opaque values of `X`.
-/
import Verif.Model.Catalog
import Verif.Model.Zlambda

namespace Redmapper.ClusCat

open Redmapper.Catalog

variable {V X : Type} [Inhabited V]

/-- What is attached to a catalogue (cluster.py:897-903); of the configuration only `cluster_dtype` is used here. -/
structure Ctx (V X : Type) where
  r0 : Option X
  beta : Option X
  zredstr : Option X
  config : Option (List (String × V))
  bkg : Option X
  cbkg : Option X
  zredbkg : Option X
deriving DecidableEq

/-- A cluster catalogue. -/
structure CCat (V X : Type) where
  tab : Tab V
  ctx : Ctx V X
deriving DecidableEq

/-- cluster.py:906-912: the columns the catalogue should have. -/
def targetDtype (base : List (String × V)) (ctx : Ctx V X) (dtype : Option (List (String × V))) : List (String × V) :=
  match dtype with
  | some d => d
  | none => match ctx.config with
    | some d => d
    | none => base

/-- cluster.py:916: the columns that are not there yet. -/
def augment (lower : String → String) (dt : List (String × V)) (names : List String) : List (String × V) :=
  dt.filter fun d => ¬ lower d.1 ∈ names

/-- cluster.py:863-918 `ClusterCatalog.__init__`. -/
def catInit (lower : String → String) (base : List (String × V)) (array : Tab V) (ctx : Ctx V X) (dtype : Option (List (String × V))) :
    Except Err (CCat V X) :=
  match mkObject lower [array] with
  | .error e => .error e
  | .ok t =>
    let aug := augment lower (targetDtype base ctx dtype) t.names
    if aug.length > 0 then
      match addFields lower t (aug.map Prod.fst) (aug.map Prod.snd) with
      | .error e => .error e
      | .ok t' => .ok ⟨t', ctx⟩
    else .ok ⟨t, ctx⟩

/-- cluster.py:946-978 `ClusterCatalog.zeros`. -/
def catZeros (lower : String → String) (base : List (String × V)) (size : Nat) (ctx : Ctx V X) (dtype : Option (List (String × V))) :
    Except Err (CCat V X) :=
  let dt := match dtype with
    | some d => d
    | none => base
  match npZeros size (dt.map Prod.fst) (dt.map Prod.snd) with
  | .error e => .error e
  | .ok a => catInit lower base a ctx dtype

/-- cluster.py:991-1000 `__getitem__` with an array of indices: the dtype is not handed on. -/
def catItems (lower : String → String) (base : List (String × V)) (c : CCat V X) (idx : List Int) : Except Err (CCat V X) :=
  match getItems c.tab idx with
  | .error e => .error e
  | .ok t => catInit lower base t ⟨c.ctx.r0, c.ctx.beta, c.ctx.zredstr, c.ctx.config, c.ctx.bkg, c.ctx.cbkg, c.ctx.zredbkg⟩ none

/-- cluster.py:981-990, 131-132 `__getitem__` with a number: a view of the row, `r0` and `beta` getting their defaults. -/
def catItem (r0 beta : X) (c : CCat V X) (i : Int) : Except Err (CatEntry V × X × X) :=
  match takeEntry c.tab i with
  | .error e => .error e
  | .ok s => .ok (s, c.ctx.r0.getD r0, c.ctx.beta.getD beta)

/-- catalog.py:90-103 `cluster.attr = v` on the view of row `i`: a name that is not a column becomes an attribute of the temporary
object and does not reach the table. -/
def assign (lower : String → String) (t : Tab V) (i : Nat) (w : String × V) : Tab V :=
  if lower w.1 ∈ t.names then (entrySet ⟨t, .view i⟩ (lower w.1) w.2).cat else t

/-- The assignments made to one cluster, in order. -/
def assignAll (lower : String → String) (t : Tab V) (i : Nat) (ws : List (String × V)) : Tab V :=
  ws.foldl (fun t w => assign lower t i w) t

/-- cluster_runner.py:382-586, the loop over the clusters, `ws` being the assignments made to each. -/
def processFrom (lower : String → String) (i : Nat) : List (List (String × V)) → Tab V → Tab V
  | [], t => t
  | w :: ws, t => processFrom lower (i + 1) ws (assignAll lower t i w)

/-- cluster_runner.py:597-601, run_likelihoods.py:251-255 `_postprocess`: rows that pass the cut (on the richness; for likelihoods on
`lnlamlike`), in a catalogue without configuration. -/
def postprocess (lower : String → String) (base : List (String × V)) (cut : String) (pass : V → Bool) (t : Tab V) : Except Err (CCat V X) :=
  match getCol t (lower cut) with
  | none => .error .attributeError
  | some lam =>
    let use := (List.range t.rows.length).filter fun i => pass (lam.getD i default)
    catInit lower base { t with rows := use.map fun i => t.rows.getD i [] } ⟨none, none, none, none, none, none, none⟩ none

/-- The whole of a run on a catalogue. -/
def runCat (lower : String → String) (base : List (String × V)) (cut : String) (pass : V → Bool) (ws : List (List (String × V))) (t : Tab V) :
    Except Err (CCat V X) :=
  postprocess lower base cut pass (processFrom lower 0 ws t)

/-- run_likelihoods.py:158-166, 190-237: the likelihoods assigned to one cluster, given those of the members and of the central galaxy; `none`:
a bad cluster; without calibration of the centers there is no assignment to `lnlike`. -/
def likeWrites [Add V] (veryLow zero : V) (calibrated : Bool) : Option (V × V) → List (String × V)
  | none => [("lnlamlike", veryLow), ("lnbcglike", veryLow), ("lnlike", veryLow)]
  | some (mem, cen) =>
    if calibrated then [("lnlamlike", mem), ("lnbcglike", cen), ("lnlike", cen + mem)] else [("lnlamlike", mem), ("lnbcglike", zero)]

/-- cluster.py:22-64 `cluster_dtype_base`, the names. -/
def baseNames : List String :=
  ["MEM_MATCH_ID", "RA", "DEC", "Z", "REFMAG", "REFMAG_ERR", "LAMBDA", "LAMBDA_E", "Z_LAMBDA", "Z_LAMBDA_E", "CG_SPEC_Z", "Z_SPEC_INIT",
   "Z_INIT", "R_LAMBDA", "R_MASK", "SCALEVAL", "MASKFRAC", "ZRED", "ZRED_E", "ZRED_CHISQ", "CHISQ", "Z_LAMBDA_NITER", "EBV_MEAN",
   "LNLAMLIKE", "LNCGLIKE", "LNLIKE", "RA_ORIG", "DEC_ORIG", "W", "DLAMBDA_DZ", "DLAMBDA_DZ2", "DLAMBDAVAR_DZ", "DLAMBDAVAR_DZ2",
   "Z_LAMBDA_RAW", "Z_LAMBDA_E_RAW", "BKG_LOCAL", "LIM_EXPTIME", "LIM_LIMMAG", "LIM_LIMMAG_HARD", "LAMBDA_C", "LAMBDA_CE", "NCENT_GOOD",
   "MASKGAL_INDEX"]

/-- run_randoms_zmask.py:76-91, the names. -/
def zmaskNames : List String :=
  ["MEM_MATCH_ID", "RA", "DEC", "Z", "LAMBDA", "LAMBDA_E", "Z_LAMBDA", "Z_LAMBDA_E", "R_LAMBDA", "R_MASK", "SCALEVAL", "MASKFRAC",
   "EBV_MEAN", "ID_INPUT", "LAMBDA_IN", "Z_IN"]

section pz

variable {α : Type} [Field α] [LinearOrder α] [IsStrictOrderedRing α]

/-- cluster_runner.py:453-466: the correction of one cluster with p(z).  zlambda.py:727 `pzvals /= n` changes the array in place, and that
array is the view `cluster.pz` of the catalogue; the corrected values are then assigned to `pzvals`, the other results to their columns.
A number is a one-element cell. -/
def storeCorrection (lower : String → String) (t : Tab (List α)) (i : Nat) (s' : Zlambda.CorrState α) : Tab (List α) :=
  match s'.pz with
  | none => assignAll lower t i [("z_lambda", [s'.zlam]), ("z_lambda_e", [s'.e])]
  | some (bins, vals) =>
    assignAll lower (entrySet ⟨t, .view i⟩ "pz" vals).cat i
      [("pzbins", bins), ("pzvals", vals), ("z_lambda", [s'.zlam]), ("z_lambda_e", [s'.e])]

end pz

end Redmapper.ClusCat
