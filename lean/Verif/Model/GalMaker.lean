/-
Model of GalaxyCatalogMaker (/repo/redmapper/galaxy.py:527-1038).

Simplifications: a pixel file is the list of its rows; columns that are only copied are left out; a non-finite
number is `none`; the pixel of a galaxy is given by a function `pixOf` (healpix); the result of the mask lookup is
part of a call (`keep`, one flag per galaxy, as the lookup draws random numbers); the reverse indices of
esutil.stat.histogram are a function `rev` known by its contract (`RevOK` in the properties); rewriting the id
column of one file is one atomic step; the magnitude-band header fields of the master table are left out.
-/
import Verif.Model.Finders

namespace Redmapper.GalMaker

open Redmapper.Finders (takeRows)

inductive Err
  | runtimeError
  | valueError
  | indexError
  | ioError
deriving DecidableEq, Repr

/-- A galaxy row (class docstring, galaxy.py:541-562; truth and spectroscopic columns left out). -/
structure Gal (α : Type) where
  id : Int
  ra : Option α
  dec : Option α
  refmag : Option α
  refmagErr : Option α
  ebv : Option α
  mag : List (Option α)
  magErr : List (Option α)
deriving DecidableEq, Repr

/-- Column kinds, galaxy.py:955-962. -/
inductive Kind
  | floating
  | integer
deriving DecidableEq, Repr

/-- The argument of one `append_galaxies` call: the columns of the array (name, kind), the declared lengths of its
two magnitude columns, its rows, and what the mask lookup answers for each row (`none`: no mask). -/
structure Batch (α : Type) where
  cols : List (String × Kind)
  magDim : Nat
  magErrDim : Nat
  rows : List (Gal α)
  keep : Option (List Bool)

/-- Constructor arguments (galaxy.py:579-697); `b0` is the first softening parameter. -/
structure Cfg (α : Type) where
  npix : Nat
  nmag : Nat
  b0 : α
  genIds : Bool
  pixOf : Gal α → Nat
  rev : List Nat → Nat → List Nat

variable {α : Type} [Field α] [LinearOrder α]

/-- galaxy.py:1019-1026. -/
def requiredCols : List (String × Kind) :=
  [("id", .integer), ("ra", .floating), ("dec", .floating), ("refmag", .floating), ("refmag_err", .floating),
   ("mag", .floating), ("mag_err", .floating), ("ebv", .floating)]

/-- galaxy.py:948-962: every required column is there (first match by name) with the required kind. -/
def colsOk (cols : List (String × Kind)) : Bool :=
  requiredCols.all fun r =>
    match cols.find? fun c => c.1 == r.1 with
    | none => false
    | some c => c.2 == r.2

/-- galaxy.py:965-967 for one element. -/
def finite (x : Option α) : Bool := x.isSome

/-- galaxy.py:977: some element is at least 90. -/
def tooFaint (l : List (Option α)) : Bool := l.any fun x => match x with
  | some v => decide ((90 : α) ≤ v)
  | none => false

/-- galaxy.py:984: some element is not positive. -/
def notPositive (l : List (Option α)) : Bool := l.any fun x => match x with
  | some v => decide (v ≤ (0 : α))
  | none => false

/-- galaxy.py:988-993: outside [lo, hi]. -/
def outside (lo hi : α) (x : Option α) : Bool := match x with
  | some v => decide (v < lo) || decide (hi < v)
  | none => false

/-- galaxy.py:930-999 `_check_galaxies`: `true` when no exception (always RuntimeError) is raised. -/
def check (cfg : Cfg α) (b : Batch α) : Bool :=
  colsOk b.cols &&
  (b.rows.all fun g => finite g.ra && finite g.dec && finite g.refmag && finite g.refmagErr && finite g.ebv &&
    (g.mag.all finite) && (g.magErr.all finite)) &&
  decide (b.magDim = cfg.nmag) && decide (b.magErrDim = cfg.nmag) &&
  !(b.rows.any fun g => tooFaint g.mag) &&
  !((b.rows.any fun g => tooFaint g.magErr) && decide (cfg.b0 = 0)) &&
  !(b.rows.any fun g => notPositive g.mag) && !(b.rows.any fun g => notPositive g.magErr) &&
  !(b.rows.any fun g => outside 0 360 g.ra) && !(b.rows.any fun g => outside (-90) 90 g.dec) &&
  (cfg.genIds || decide ((b.rows.map Gal.id).dedup.length = b.rows.length))

/-- The master table: pixels and counts (galaxy.py:826-872; file names are a function of the pixel). -/
structure Table where
  hpix : List Nat
  ngals : List Nat
deriving DecidableEq, Repr

/-- The maker's counters together with the directory it writes to. -/
structure State (α : Type) where
  files : Nat → Option (List (Gal α))
  ngals : Nat → Nat
  finalized : Bool
  master : Option Table
  lock : Bool

def State.setFile (s : State α) (p : Nat) (c : List (Gal α)) : State α :=
  { s with files := fun q => if q = p then some c else s.files q }

/-- galaxy.py:761-777, one pixel in serial mode. -/
def writePix (s : State α) (p : Nat) (gals : List (Gal α)) : State α × Option Err :=
  if s.ngals p = 0 ∧ (s.files p).isSome then (s, some .runtimeError)
  else if s.ngals p = 0 then
    ({ s.setFile p gals with ngals := fun q => if q = p then s.ngals p + gals.length else s.ngals q }, none)
  else match s.files p with
    | none => (s, some .ioError)
    | some old =>
      ({ s.setFile p (old ++ gals) with ngals := fun q => if q = p then s.ngals p + gals.length else s.ngals q }, none)

/-- galaxy.py:740-777, the loop over occupied pixels; an exception leaves what was already written. -/
def writeLoop (s : State α) : List (Nat × List (Gal α)) → State α × Option Err
  | [] => (s, none)
  | (p, gals) :: rest =>
    match writePix s p gals with
    | (s', some e) => (s', some e)
    | (s', none) => writeLoop s' rest

/-- galaxy.py:731-733: rows kept by the mask. -/
def kept (b : Batch α) : List (Gal α) :=
  match b.keep with
  | none => b.rows
  | some flags => ((b.rows.zip flags).filter fun x => x.2).map fun x => x.1

/-- galaxy.py:735-741: the groups written, in pixel order. -/
def groups (cfg : Cfg α) (gals : List (Gal α)) : List (Nat × List (Gal α)) :=
  let pix := gals.map cfg.pixOf
  ((List.range cfg.npix).filter fun p => decide (p ∈ pix)).map fun p => (p, takeRows gals (cfg.rev pix p))

/-- galaxy.py:717-777 `append_galaxies`, serial mode. -/
def append (cfg : Cfg α) (s : State α) (b : Batch α) : State α × Option Err :=
  if s.finalized = true ∨ s.master.isSome = true then (s, some .runtimeError)
  else if check cfg b = false then (s, some .runtimeError)
  else writeLoop s (groups cfg (kept b))

/-- Any sequence of calls, whatever they return. -/
def appends (cfg : Cfg α) (s : State α) : List (Batch α) → State α × List (Option Err)
  | [] => (s, [])
  | b :: bs =>
    let r := append cfg s b
    let r' := appends cfg r.1 bs
    (r'.1, r.2 :: r'.2)

/-- galaxy.py:680-697: a new maker on a directory that may already hold pixel files, but no master table. -/
def fresh (disk : Nat → Option (List (Gal α))) : State α :=
  { files := disk, ngals := fun _ => 0, finalized := false, master := none, lock := false }

/-- galaxy.py:821, 868-870: the table written for the current counters. -/
def mkTable (npix : Nat) (ngals : Nat → Nat) : Table :=
  let hpix := (List.range npix).filter fun p => decide (0 < ngals p)
  { hpix := hpix, ngals := hpix.map ngals }

/-- galaxy.py:899-901: new ids counting from `ctr`. -/
def number (ctr : Nat) (gals : List (Gal α)) : List (Gal α) :=
  List.zipWith (fun g (k : Nat) => { g with id := ((ctr + k : Nat) : Int) }) gals (List.range gals.length)

/-- galaxy.py:890-904: the states of the disk after each file is rewritten, and the exception if one is raised. -/
def renumber (s : State α) (ctr : Nat) : List Nat → List (State α) × Option Err
  | [] => ([], none)
  | p :: ps =>
    match s.files p with
    | none => ([], some .ioError)
    | some gs =>
      let s' := s.setFile p (number ctr gs)
      let r := renumber s' (ctr + gs.length) ps
      (s' :: r.1, r.2)

/-- numpy assignment of a column to a slice of length `n`: equal lengths, or length one (broadcast). -/
def assignSlice (n : Nat) (col : List Int) : Except Err (List Int) :=
  if col.length = n then .ok col
  else match col with
    | [x] => .ok (List.replicate n x)
    | _ => .error .valueError

/-- galaxy.py:906-917: the ids of the catalog. -/
def readIds (s : State α) (ngals : Nat → Nat) : List Nat → Except Err (List Int)
  | [] => .ok []
  | p :: ps =>
    match s.files p with
    | none => .error .ioError
    | some gs =>
      match assignSlice (ngals p) (gs.map Gal.id) with
      | .error e => .error e
      | .ok ids => match readIds s ngals ps with
        | .error e => .error e
        | .ok rest => .ok (ids ++ rest)

/-- The last of a list of states. -/
def lastState (s : State α) (l : List (State α)) : State α := l.getLast?.getD s

/-- galaxy.py:821-922: write the master table, then assign or check ids.  The result is the list of states at the
points between file operations, in order (the crash points), and the exception if one is raised. -/
def finalizeSteps (cfg : Cfg α) (s : State α) : List (State α) × Option Err :=
  let tab := mkTable cfg.npix s.ngals
  let s1 := { s with master := some tab }
  if cfg.genIds = true then
    match renumber s1 1 tab.hpix with
    | (tr, some e) => (s1 :: tr, some e)
    | (tr, none) => (s1 :: tr ++ [{ lastState s1 tr with finalized := true }], none)
  else
    match readIds s1 s.ngals tab.hpix with
    | .error e => ([s1], some e)
    | .ok ids =>
      if ids.dedup.length < ids.length then ([s1], some .runtimeError)
      else ([s1, { s1 with finalized := true }], none)

/-- galaxy.py:780-922 `finalize_catalog`, serial mode: the state left behind and the exception. -/
def finalize (cfg : Cfg α) (s : State α) : State α × Option Err :=
  let r := finalizeSteps cfg s
  (lastState s r.1, r.2)

/-! ### Parallel mode -/

/-- `'%07d' % p`, for p below 10^7 (the files seen by the glob `_???????.fit`). -/
def pad7 (p : Nat) : List Char :=
  [1000000, 100000, 10000, 1000, 100, 10, 1].map fun d => Char.ofNat (48 + p / d % 10)

/-- `\d` on ASCII. -/
def isDig (c : Char) : Bool := decide (48 ≤ c.toNat ∧ c.toNat ≤ 57)

/-- `int(...)` of a string of digits. -/
def parseNat (cs : List Char) : Nat := cs.foldl (fun n c => 10 * n + (c.toNat - 48)) 0

/-- Does the pattern `_(\d{7})` match at the head of the string? -/
def matchAt (s : List Char) : Option (List Char) :=
  match s with
  | c :: rest => if c = '_' ∧ 7 ≤ rest.length ∧ (rest.take 7).all isDig then some (rest.take 7) else none
  | [] => none

/-- `re.search(r'_(\d{7})', f)`: the leftmost match. -/
def search : List Char → Option (List Char)
  | [] => none
  | c :: rest => match matchAt (c :: rest) with
    | some m => some m
    | none => search rest

/-- galaxy.py:805 (and 743): path of a pixel file; `pre` is outpath + '/' + outbase. -/
def pixPath (pre : List Char) (p : Nat) : List Char := pre ++ '_' :: pad7 p ++ ".fit".toList

/-- galaxy.py:802-816: recount from the files present, in path order. -/
def recount (pre : List Char) (npix : Nat) (files : Nat → Option (List (Gal α))) (ngals : Nat → Nat) :
    List Nat → Except Err (Nat → Nat)
  | [] => .ok ngals
  | p :: ps =>
    match files p with
    | none => recount pre npix files ngals ps
    | some gs =>
      match search (pixPath pre p) with
      | none => .error .runtimeError
      | some m =>
        if npix ≤ parseNat m then .error .indexError
        else recount pre npix files (fun q => if q = parseNat m then gs.length else ngals q) ps

/-- galaxy.py:780-928 `finalize_catalog`, parallel mode, nobody else running: crash points and exception. -/
def finalizePar (cfg : Cfg α) (pre : List Char) (s : State α) : List (State α) × Option Err :=
  if s.master.isSome = true then ([], none)
  else if s.lock = true then ([], none)
  else
    let s0 := { s with lock := true }
    match recount pre cfg.npix s.files (fun _ => 0) (List.range cfg.npix) with
    | .error e => ([s0], some e)
    | .ok ng =>
      match finalizeSteps cfg { s0 with ngals := ng } with
      | (tr, some e) => (s0 :: tr, some e)
      | (tr, none) => (s0 :: tr ++ [{ lastState s0 tr with lock := false }], none)

/-- One piece of work of a process: the galaxies it has for one pixel. -/
structure Job (α : Type) where
  pix : Nat
  gals : List (Gal α)

/-- galaxy.py:717-760: the work of a process that makes these `append_galaxies` calls in parallel mode (all of them accepted). -/
def parJobs (cfg : Cfg α) (bs : List (Batch α)) : List (Job α) :=
  bs.flatMap fun b => (groups cfg (kept b)).map fun x => ⟨x.1, x.2⟩

/-- Where a process is in galaxy.py:745-760. -/
inductive PC (α : Type)
  | idle                       -- waiting for the lock of its next pixel
  | locked                     -- lock obtained
  | checked (present : Bool)   -- isfile has answered
  | opened (old : List (Gal α))-- file opened for appending, its current rows known
  | written                    -- rows written, lock not yet removed
  | failed                     -- lock timed out, RuntimeError raised
  | dead                       -- killed

structure Proc (α : Type) where
  jobs : List (Job α)
  pc : PC α

/-- The directory and the processes. -/
structure World (α : Type) where
  files : Nat → Option (List (Gal α))
  lock : Nat → Bool
  proc : Nat → Proc α

def World.set (w : World α) (i : Nat) (p : Proc α) : World α :=
  { w with proc := fun q => if q = i then p else w.proc q }
def World.setFile (w : World α) (p : Nat) (c : List (Gal α)) : World α :=
  { w with files := fun q => if q = p then some c else w.files q }
def World.setLock (w : World α) (p : Nat) (b : Bool) : World α :=
  { w with lock := fun q => if q = p then b else w.lock q }

inductive Act
  | step     -- the next operation of the process
  | timeout  -- the lock could not be had in 300 tries
  | kill
deriving DecidableEq, Repr

/-- galaxy.py:745-760: one operation of process `i`.  `make_lockfile` is one atomic test-and-set (C30).
`fitsio.write` to a file that exists adds an extension nobody reads. -/
def act (w : World α) (i : Nat) (a : Act) : Option (World α) :=
  match a, (w.proc i).pc, (w.proc i).jobs with
  | .kill, .failed, _ => none
  | .kill, .dead, _ => none
  | .kill, _, jobs => some (w.set i ⟨jobs, .dead⟩)
  | .timeout, .idle, j :: rest => if w.lock j.pix = true then some (w.set i ⟨j :: rest, .failed⟩) else none
  | .step, .idle, j :: rest =>
    if w.lock j.pix = false then some ((w.setLock j.pix true).set i ⟨j :: rest, .locked⟩) else none
  | .step, .locked, j :: rest => some (w.set i ⟨j :: rest, .checked (w.files j.pix).isSome⟩)
  | .step, .checked false, j :: rest =>
    match w.files j.pix with
    | none => some ((w.setFile j.pix j.gals).set i ⟨j :: rest, .written⟩)
    | some _ => some (w.set i ⟨j :: rest, .written⟩)
  | .step, .checked true, j :: rest =>
    match w.files j.pix with
    | some old => some (w.set i ⟨j :: rest, .opened old⟩)
    | none => none
  | .step, .opened old, j :: rest => some ((w.setFile j.pix (old ++ j.gals)).set i ⟨j :: rest, .written⟩)
  | .step, .written, j :: rest => some ((w.setLock j.pix false).set i ⟨rest, .idle⟩)
  | _, _, _ => none

/-- A schedule. -/
def run : World α → List (Nat × Act) → Option (World α)
  | w, [] => some w
  | w, (i, a) :: rest => match act w i a with
    | none => none
    | some w' => run w' rest

/-- Start: every process has its list of jobs, no locks. -/
def World.init (disk : Nat → Option (List (Gal α))) (jobs : Nat → List (Job α)) : World α :=
  { files := disk, lock := fun _ => false, proc := fun i => ⟨jobs i, .idle⟩ }

end Redmapper.GalMaker
