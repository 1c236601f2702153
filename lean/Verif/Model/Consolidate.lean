/-
Model of catalog consolidation and of the pixel split.

  /repo/redmapper/redmapper_run.py                      RedmapperRun._consolidate, _get_pixel_splits,
                                                        _get_subpixels
  /repo/redmapper/pipeline/redmapperconsolidatetask.py  RedmapperConsolidateTask.run,
                                                        RuncatConsolidateTask.run (cut and append)

Simplifications: files are lists of rows; columns that are only copied are an opaque payload; the healpix
pixel of a row is a stored number `pix`; spectroscopic matching, plots and file-name handling are left
out; division by a zero `scaleval` does not occur (the code only writes positive values or -1);
`esutil.numpy_util.match` is modelled by its contract (see `esMatch`).
-/
import Verif.Model.Finders

namespace Redmapper.Consolidate

open Redmapper.Finders (takeRows)

inductive Err
  | valueError
  | attributeError
  | indexError
  | keyError
deriving DecidableEq, Repr

/-- A cluster row of a per-pixel catalog; `like` is the column used for the final ranking. -/
structure CRow (α π : Type) where
  id : Int
  like : α
  maskfrac : α
  Lambda : α
  scaleval : α
  pix : Nat
  pay : π
deriving DecidableEq, Repr

/-- A member row. -/
structure MRow (μ : Type) where
  id : Int
  pay : μ
deriving DecidableEq, Repr

/-- One per-pixel pair of files. -/
structure PixFile (α π μ : Type) where
  hpix : Nat
  cat : List (CRow α π)
  mem : List (MRow μ)

variable {α π μ : Type} [Field α] [LinearOrder α]

/-- Contract of `esutil.numpy_util.match(a, b)`: `a` must have no repeats (`ValueError`); the result is the
list of all pairs (position in `a`, position in `b`) of equal values, ordered by position in `b`.  For empty
arrays the model returns no pairs. -/
def esMatch (a b : List Int) : Except Err (List (Nat × Nat)) :=
  if a.dedup.length ≠ a.length then .error .valueError
  else .ok ((List.range b.length).filterMap fun j => match b[j]? with
    | some v => if v ∈ a then some (a.idxOf v, j) else none
    | none => none)

/-- redmapper_run.py:312-314, the rows of a pixel that survive. -/
def survives (maxMaskfrac minlambda : α) (hpix : Nat) (c : CRow α π) : Bool :=
  decide (c.pix = hpix) && decide (c.maskfrac < maxMaskfrac) &&
    decide (minlambda < c.Lambda / c.scaleval)

/-- `cat.mem_match_id = ids`. -/
def setIds (cat : List (CRow α π)) (ids : List Int) : List (CRow α π) :=
  List.zipWith (fun c i => { c with id := i }) cat ids

/-- `arange(n) + start`. -/
def idsFrom (start : Int) (n : Nat) : List Int :=
  (List.range n).map fun (k : Nat) => start + (k : Int)

/-- redmapper_run.py:329-335 and redmapperconsolidatetask.py:186-195: match old ids, write the new ones
into the matched members, keep only the matched members. -/
def relabel (oldIds newIds : List Int) (mem : List (MRow μ)) : Except Err (List (MRow μ)) :=
  match esMatch oldIds (mem.map MRow.id) with
  | .error e => .error e
  | .ok ps => .ok (ps.filterMap fun p =>
      match mem[p.2]?, newIds[p.1]? with
      | some m, some i => some { m with id := i }
      | _, _ => none)

/-- The final renumbering in place (redmapper_run.py:361-364): unmatched members keep their id. -/
def relabelInPlace (oldIds newIds : List Int) (mem : List (MRow μ)) : Except Err (List (MRow μ)) :=
  if oldIds.dedup.length ≠ oldIds.length then .error .valueError
  else .ok (mem.map fun m =>
    if m.id ∈ oldIds then
      match newIds[oldIds.idxOf m.id]? with
      | some i => { m with id := i }
      | none => m
    else m)

/-- redmapper_run.py:302-348, one pixel file: `none` is the `continue` for no survivors. -/
def filePart (maxMaskfrac minlambda : α) (ctr : Nat) (f : PixFile α π μ) :
    Except Err (Option (List (CRow α π) × List (MRow μ))) :=
  let use := f.cat.filter (survives maxMaskfrac minlambda f.hpix)
  if use.isEmpty then .ok none
  else
    let newIds := idsFrom ((ctr : Int) + 1) use.length
    match relabel (use.map CRow.id) newIds f.mem with
    | .error e => .error e
    | .ok m => .ok (some (setIds use newIds, m))

/-- redmapper_run.py:302-348, the loop over the files (`ctr` counts the clusters copied so far). -/
def consLoop (maxMaskfrac minlambda : α) : Nat → List (PixFile α π μ) →
    Except Err (List (List (CRow α π) × List (MRow μ)))
  | _, [] => .ok []
  | ctr, f :: fs =>
    match filePart maxMaskfrac minlambda ctr f with
    | .error e => .error e
    | .ok none => consLoop maxMaskfrac minlambda ctr fs
    | .ok (some p) =>
      match consLoop maxMaskfrac minlambda (ctr + p.1.length) fs with
      | .error e => .error e
      | .ok ps => .ok (p :: ps)

/-- redmapper_run.py:248-367 `_consolidate(..., members=True)` when the output does not exist yet.  No file:
`filenames[0]` raises `IndexError`; no surviving cluster: `ubermem` is `None` (`AttributeError`). -/
def consolidate (argsort : List α → List Nat) (maxMaskfrac minlambda : α)
    (files : List (PixFile α π μ)) : Except Err (List (CRow α π) × List (MRow μ)) :=
  if files.isEmpty then .error .indexError
  else match consLoop maxMaskfrac minlambda 0 files with
    | .error e => .error e
    | .ok parts =>
      if parts.isEmpty then .error .attributeError
      else
        let cat := (parts.map Prod.fst).flatten
        let mem := (parts.map Prod.snd).flatten
        let st := takeRows cat (argsort (cat.map CRow.like)).reverse
        let newIds := idsFrom 1 st.length
        match relabelInPlace (st.map CRow.id) newIds mem with
        | .error e => .error e
        | .ok m => .ok (setIds st newIds, m)

/-! ## Distributed consolidation -/

/-- redmapperconsolidatetask.py:174-176. -/
def survives2 (maxMaskfrac minlambda : α) (hpix : Nat) (c : CRow α π) : Bool :=
  decide (c.pix = hpix) && decide (c.maskfrac < maxMaskfrac) && decide (minlambda < c.Lambda)

/-- redmapperconsolidatetask.py:163,203-204: the per-row richness compared with the cut.  With
`select_scaleval` the divisor is the column of the catalog *before* the cut at 180; different lengths
do not broadcast (`ValueError`).  A one-row cut catalog does broadcast against the longer column; that
case is treated as an error too (the code then fails or uses the wrong row). -/
def cutRichness (selectScaleval : Bool) (full use : List (CRow α π)) : Except Err (List α) :=
  if selectScaleval then
    if full.length = use.length then .ok (List.zipWith (fun c s => c.Lambda / s) use (full.map CRow.scaleval))
    else .error .valueError
  else .ok (use.map CRow.Lambda)

/-- What one file adds to the output catalog of one cut (redmapperconsolidatetask.py:197-236).
`vl` is the volume-limit test `calc_zmax(ra, dec) > z_lambda` of the cut.  (Not modelled: when the member table of
the file that creates the output has a single row, `to_fits_file` ignores the selection, catalog.py:148.) -/
def cutPart (vl : π → Bool) (minlam : α) (rich : List α) (cat : List (CRow α π))
    (mem : List (MRow μ)) : Except Err (List (CRow α π) × List (MRow μ)) :=
  let cu := ((cat.zip rich).filter fun x => vl x.1.pay && decide (minlam < x.2)).map Prod.fst
  if cu.isEmpty then .ok ([], [])
  else match esMatch (cu.map CRow.id) (mem.map MRow.id) with
    | .error e => .error e
    | .ok ps => .ok (cu, ps.filterMap fun p => mem[p.2]?)

/-- A richness/volume cut: the volume-limit test and the richness threshold. -/
structure Cut (α π : Type) where
  vl : π → Bool
  minlam : α

/-- State of the task: for each processed file with survivors the (temporary-id) catalog and members, and
the selections for every cut. -/
structure TPart (α π μ : Type) where
  cat : List (CRow α π)
  mem : List (MRow μ)
  cuts : List (List (CRow α π) × List (MRow μ))

/-- Sequencing of the cut loop. -/
def cutParts (cuts : List (Cut α π)) (rich : List α) (cat : List (CRow α π)) (mem : List (MRow μ)) :
    Except Err (List (List (CRow α π) × List (MRow μ))) :=
  match cuts with
  | [] => .ok []
  | k :: ks =>
    match cutPart k.vl k.minlam rich cat mem with
    | .error e => .error e
    | .ok p =>
      match cutParts ks rich cat mem with
      | .error e => .error e
      | .ok ps => .ok (p :: ps)

/-- redmapperconsolidatetask.py:121-236, one file. -/
def taskFile (selectScaleval : Bool) (maxMaskfrac minlambda : α) (cuts : List (Cut α π)) (ctr : Nat)
    (f : PixFile α π μ) : Except Err (Option (TPart α π μ)) :=
  let use := f.cat.filter (survives2 maxMaskfrac minlambda f.hpix)
  if use.isEmpty then .ok none
  else
    let newIds := idsFrom (ctr : Int) use.length
    match relabel (use.map CRow.id) newIds f.mem with
    | .error e => .error e
    | .ok mem =>
      let cat := setIds use newIds
      match cutRichness selectScaleval f.cat cat with
      | .error e => .error e
      | .ok rich =>
        match cutParts cuts rich cat mem with
        | .error e => .error e
        | .ok cs => .ok (some { cat := cat, mem := mem, cuts := cs })

/-- redmapperconsolidatetask.py:121-236, all files. -/
def taskLoop (selectScaleval : Bool) (maxMaskfrac minlambda : α) (cuts : List (Cut α π)) :
    Nat → List (PixFile α π μ) → Except Err (List (TPart α π μ))
  | _, [] => .ok []
  | ctr, f :: fs =>
    match taskFile selectScaleval maxMaskfrac minlambda cuts ctr f with
    | .error e => .error e
    | .ok none => taskLoop selectScaleval maxMaskfrac minlambda cuts ctr fs
    | .ok (some p) =>
      match taskLoop selectScaleval maxMaskfrac minlambda cuts (ctr + p.cat.length) fs with
      | .error e => .error e
      | .ok ps => .ok (p :: ps)

/-- redmapperconsolidatetask.py:238-266, one output pair: rename through the sorted ids. -/
def finalCut (sortedIds : List Int) (cat : List (CRow α π)) (mem : List (MRow μ)) :
    List (CRow α π) × List (MRow μ) :=
  (cat.map fun c => if c.id ∈ sortedIds then { c with id := (sortedIds.idxOf c.id : Int) + 1 } else c,
   mem.map fun m => if m.id ∈ sortedIds then { m with id := (sortedIds.idxOf m.id : Int) + 1 } else m)

/-- redmapperconsolidatetask.py:64-266: one catalog/member pair per cut.  A cut that selected nothing has no
file (`KeyError` at 249). -/
def task (argsort : List α → List Nat) (selectScaleval : Bool) (maxMaskfrac minlambda : α)
    (cuts : List (Cut α π)) (files : List (PixFile α π μ)) :
    Except Err (List (List (CRow α π) × List (MRow μ))) :=
  match taskLoop selectScaleval maxMaskfrac minlambda cuts 0 files with
  | .error e => .error e
  | .ok parts =>
    let all := (parts.map TPart.cat).flatten
    let sortedIds := takeRows (all.map CRow.id) (argsort (all.map CRow.like)).reverse
    let outs := (List.range cuts.length).map fun k =>
      ((parts.map fun p => (p.cuts.getD k ([], [])).1).flatten,
       (parts.map fun p => (p.cuts.getD k ([], [])).2).flatten)
    if outs.any (fun o => o.1.isEmpty) then .error .keyError
    else .ok (outs.map fun o => finalCut sortedIds o.1 o.2)

/-- redmapperconsolidatetask.py:398-421 `RuncatConsolidateTask`: rows of the pixel are appended; the member
file is appended whole whenever the pixel has any row left. -/
def runcatTask : List (PixFile α π μ) → List (CRow α π) × List (MRow μ)
  | [] => ([], [])
  | f :: fs =>
    let use := f.cat.filter fun c => decide (c.pix = f.hpix)
    let rest := runcatTask fs
    if use.isEmpty then rest else (use ++ rest.1, f.mem ++ rest.2)

/-! ## Pixel split -/

/-- The pixelisation: level `k` stands for `nside = 2^k`; `pix k x` is the (ring) number of the pixel containing
position `x`, `centre k p` the centre of pixel `p`, `npix k` the number of pixels. -/
structure Geom (X : Type) where
  pix : Nat → X → Nat
  centre : Nat → Nat → X
  npix : Nat → Nat

/-- redmapper_run.py:211-246 `_get_subpixels` at level `k`.  `dl`/`hpix` are the configured level and region
pixels (`hpix` empty: everything), `tl`/`ghpix` level and pixels of the galaxy table. -/
def subpixels {X : Type} (G : Geom X) (dl : Nat) (hpix : List Nat) (tl : Nat) (ghpix : List Nat)
    (k : Nat) : List Nat :=
  let pixels := List.range (G.npix k)
  let pixels := if hpix.isEmpty then pixels
    else pixels.filter fun p => hpix.contains (G.pix dl (G.centre k p))
  let galPix := ghpix.map fun g => G.pix k (G.centre tl g)
  pixels.filter fun p => galPix.contains p

/-- redmapper_run.py:192-199, the levels tried: from the start level up to the level of the galaxy table. -/
def levelsFrom (start tl : Nat) : List Nat :=
  (List.range (tl - start + 1)).map fun i => start + i

/-- redmapper_run.py:201-207: the last split with at most `2 * nproc` pixels, else the first. -/
def chooseSplit (nproc : Nat) (splits : List (Nat × List Nat)) : Option (Nat × List Nat) :=
  match (splits.filter fun s => decide (s.2.length ≤ nproc * 2)).getLast? with
  | none => splits.head?
  | some s => some s

/-- redmapper_run.py:178-188, the first level tried with more than one process. -/
def startLevel (minl : Nat) (dl : Option Nat) (hpix : List Nat) : Nat :=
  if hpix.isEmpty then minl
  else match dl with
    | some d => if minl < d then d else minl
    | none => minl

/-- redmapper_run.py:154-209 `_get_pixel_splits`.  `dl = none` is `config.d.nside == 0`.  With one process and
a configured nside above `calib_run_min_nside` the code reads `config.run_min_nside`, which does not exist. -/
def pixelSplits {X : Type} (G : Geom X) (nproc minl : Nat) (dl : Option Nat) (hpix : List Nat) (tl : Nat)
    (ghpix : List Nat) : Except Err (Nat × List Nat) :=
  let sub := subpixels G (dl.getD 0) hpix tl ghpix
  if nproc = 1 then
    match dl with
    | none => .ok (0, sub 0)
    | some d => if minl < d then .error .attributeError else .ok (d, sub d)
  else
    match chooseSplit nproc ((levelsFrom (startLevel minl dl hpix) tl).map fun k => (k, sub k)) with
    | some s => .ok s
    | none => .error .indexError

end Redmapper.Consolidate
