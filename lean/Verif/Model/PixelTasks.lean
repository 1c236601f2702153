/-
Model of the distributed per-pixel tasks and of the zred runners.

  /repo/redmapper/pipeline/zredtask.py       RunZredPixelTask.run
  /repo/redmapper/pipeline/redmappertask.py  RunRedmapperPixelTask.run
  /repo/redmapper/zred_runner.py             ZredRunCatalog.run, ZredRunPixels.run / make_zred_table
  /repo/redmapper/cluster_runner.py:628-662  ClusterRunner.output (as used by the pixel task)
-/
import Mathlib.Algebra.Order.Floor.Ring
import Mathlib.Data.Rat.Floor

namespace Redmapper.PixelTasks

inductive Err
  | valueError
  | ioError
  | zeroDivision
  | indexError
deriving DecidableEq, Repr

/-! ### The zred pixel tasks (zredtask.py:42-127) -/

/-- A zred file on disk. -/
inductive FS
  | absent
  | partly   -- being written, or left by a killed writer
  | full
deriving DecidableEq, Repr

/-- Where a task is. -/
inductive PC
  | start                        -- before the pixel lock, zredtask.py:86
  | locked (rest : List Nat)     -- holds the pixel lock, pixels still to compute (zredtask.py:91-93)
  | writing (p : Nat) (rest : List Nat) -- file of pixel p being written (zred_runner.py:289)
  | waiting                      -- pixel lock removed, waiting for the master lock (zredtask.py:95-101)
  | gotMaster                    -- master lock obtained
  | sawFiles (allThere : Bool)   -- counted the zred files (zredtask.py:106)
  | making                       -- no pixel lock seen either (zredtask.py:107-111)
  | closing                      -- about to remove the master lock (zredtask.py:125)
  | done
  | raised                       -- an exception ended the task
  | dead                         -- killed
deriving DecidableEq, Repr

/-- The zred directory and the tasks.  Pixels of the galaxy table are numbered 0..npix-1. -/
structure World where
  file : Nat → FS
  plock : Nat → Bool     -- pixel lock of a task
  mlock : Bool
  master : Bool
  pc : Nat → PC

/-- Fixed data: number of galaxy pixels, tasks, the galaxy pixels inside each task's pixel (get_subpixel_indices,
galaxy.py:476-521), and the number of other files matching the zred file pattern. -/
structure Setup where
  npix : Nat
  ntask : Nat
  owns : Nat → List Nat
  stray : Nat

def World.setPc (w : World) (t : Nat) (c : PC) : World := { w with pc := fun u => if u = t then c else w.pc u }
def World.setFile (w : World) (p : Nat) (s : FS) : World := { w with file := fun q => if q = p then s else w.file q }
def World.setPlock (w : World) (t : Nat) (b : Bool) : World := { w with plock := fun u => if u = t then b else w.plock u }

inductive Act
  | step
  | timeout  -- the master lock could not be had in 60 tries (zredtask.py:126-127)
  | kill
deriving DecidableEq, Repr

/-- Number of files found by the glob, zredtask.py:106. -/
def countFiles (S : Setup) (w : World) : Nat :=
  ((List.range S.npix).filter fun p => decide (w.file p ≠ .absent)).length + S.stray

/-- Number of pixel locks found, zredtask.py:107. -/
def countLocks (S : Setup) (w : World) : Nat := ((List.range S.ntask).filter fun t => w.plock t).length

/-- One operation of task `t`.  Writing a file is two operations (it exists before it is complete); make_zred_table reads the
headers of all files and raises when one is missing (zred_runner.py:327-334; a half-written file is assumed to have its final
header, the worst case); an exception leaves the locks behind. -/
def act (S : Setup) (w : World) (t : Nat) : Act → Option World
  | .kill => match w.pc t with
    | .done => none
    | .raised => none
    | .dead => none
    | _ => some (w.setPc t .dead)
  | .timeout => match w.pc t with
    | .waiting => if w.mlock = true then some (w.setPc t .done) else none
    | _ => none
  | .step => match w.pc t with
    | .start => if w.plock t = true then some (w.setPc t .raised)
        else some ((w.setPlock t true).setPc t (.locked (S.owns t)))
    | .locked [] => some ((w.setPlock t false).setPc t .waiting)
    | .locked (p :: rest) => some ((w.setFile p .partly).setPc t (.writing p rest))
    | .writing p rest => some ((w.setFile p .full).setPc t (.locked rest))
    | .waiting => if w.mlock = true then none else some ({ w with mlock := true }.setPc t .gotMaster)
    | .gotMaster => some (w.setPc t (.sawFiles (decide (countFiles S w = S.npix))))
    | .sawFiles b => if b = true ∧ countLocks S w = 0 then some (w.setPc t .making) else some (w.setPc t .closing)
    | .making => if (List.range S.npix).all (fun p => decide (w.file p ≠ .absent))
        then some ({ w with master := true }.setPc t .closing) else some (w.setPc t .raised)
    | .closing => some ({ w with mlock := false }.setPc t .done)
    | _ => none

/-- A schedule of operations of the tasks 0..ntask-1. -/
def run (S : Setup) : World → List (Nat × Act) → Option World
  | w, [] => some w
  | w, (t, a) :: rest => if t < S.ntask then match act S w t a with
      | none => none
      | some w' => run S w' rest
    else none

/-- A fresh zred directory. -/
def World.init : World :=
  { file := fun _ => .absent, plock := fun _ => false, mlock := false, master := false, pc := fun _ => .start }

/-! ### RunRedmapperPixelTask.run (redmappertask.py:47-115) -/

/-- A file on disk: complete with its contents, or cut short by a crash. -/
inductive File (C : Type)
  | full (c : C)
  | torn
deriving DecidableEq, Repr

structure Disk (C M : Type) where
  fp : Option (File C)
  lk : Option (File C)
  pc : Option (File C)
  mem : Option (File M)

inductive Stage
  | firstpass
  | likelihoods
  | percolation
deriving DecidableEq, Repr

/-- The three runs as functions of the catalog they start from.  `none`: no catalog (or no members) was generated, in which case
`output` only warns (cluster_runner.py:646-648, 654-656). -/
structure Runs (C M : Type) where
  fp : Option C
  lk : C → Option C
  pc : C → Option (C × Option M)

/-- Reading a catalog. -/
def readCat {C : Type} : Option (File C) → Except Err C
  | some (.full c) => .ok c
  | _ => .error .ioError

/-- What happened in a call: the stages that were run, the disk after each file operation, the exception. -/
structure Call (C M : Type) where
  ran : List Stage
  trace : List (Disk C M)
  err : Option Err

variable {C M : Type}

/-- cluster_runner.py:628-662 with savemembers: the catalog, then the members (clobber=False: an existing file raises). -/
def outputBoth (d : Disk C M) : Option (C × Option M) → List (Disk C M) × Option Err
  | none => ([], none)
  | some (c, m) =>
    let d1 := { d with pc := some (.full c) }
    match m with
    | none => ([d1], none)
    | some m => match d.mem with
      | some _ => ([d1], some .ioError)
      | none => ([d1, { d1 with mem := some (.full m) }], none)

/-- redmappertask.py:103-113: percolation, reading the likelihood catalog. -/
def stage3 (R : Runs C M) (d : Disk C M) : Call C M :=
  match d.pc with
  | some _ => ⟨[], [], none⟩
  | none => match readCat d.lk with
    | .error e => ⟨[.percolation], [], some e⟩
    | .ok c => ⟨[.percolation], (outputBoth d (R.pc c)).1, (outputBoth d (R.pc c)).2⟩

/-- redmappertask.py:90-101: likelihoods, reading the first-pass catalog. -/
def stage2 (R : Runs C M) (d : Disk C M) : Call C M :=
  match d.lk with
  | some _ => stage3 R d
  | none => match readCat d.fp with
    | .error e => ⟨[.likelihoods], [], some e⟩
    | .ok c => match R.lk c with
      | none => let r := stage3 R d; ⟨.likelihoods :: r.ran, r.trace, r.err⟩
      | some l =>
        let d1 := { d with lk := some (.full l) }
        let r := stage3 R d1
        ⟨.likelihoods :: r.ran, d1 :: r.trace, r.err⟩

/-- redmappertask.py:77-88: first pass. -/
def stage1 (R : Runs C M) (d : Disk C M) : Call C M :=
  match d.fp with
  | some _ => stage2 R d
  | none => match R.fp with
    | none => let r := stage2 R d; ⟨.firstpass :: r.ran, r.trace, r.err⟩
    | some f =>
      let d1 := { d with fp := some (.full f) }
      let r := stage2 R d1
      ⟨.firstpass :: r.ran, d1 :: r.trace, r.err⟩

/-- redmappertask.py:47-115.  `pixelized` and `filesOk` are the two checks at the start (64-67). -/
def pixelTask (R : Runs C M) (pixelized filesOk : Bool) (d : Disk C M) : Call C M :=
  if pixelized = false then ⟨[], [], some .valueError⟩
  else if filesOk = false then ⟨[], [], some .valueError⟩
  else stage1 R d

/-- The disk when a call is over. -/
def after (d : Disk C M) (c : Call C M) : Disk C M := c.trace.getLast?.getD d

/-! ### zred_runner.py -/

/-- zred_runner.py:76-78: galaxies per process. -/
def perProc (ngal nproc maxperproc : Nat) : Nat := min ((⌊(ngal : ℚ) / ((nproc : ℚ) - 1 / 10)⌋).toNat) maxperproc

/-- zred_runner.py:80-81: index ranges; `np.arange` with step zero raises. -/
def ranges (ngal n : Nat) : Except Err (List (Nat × Nat)) :=
  if n = 0 then .error .zeroDivision
  else .ok ((List.range ((ngal + n - 1) / n)).map fun k => (k * n, min (k * n + n) ngal))

/-- zred_runner.py:89-98: each worker's results are stored in its range. -/
def store {β : Type} (out : List β) : List ((Nat × Nat) × List β) → List β
  | [] => out
  | (r, v) :: rest => store (out.take r.1 ++ v ++ out.drop r.2) rest

/-- zred_runner.py:44-100: the run over a galaxy file, with the computation `f` per galaxy and rows initially `zero`. -/
def runCatalog {γ β : Type} (f : γ → β) (zero : β) (gals : List γ) (nproc : Nat) (nperproc : Option Nat) (maxperproc : Nat) :
    Except Err (List β) :=
  match ranges gals.length (nperproc.getD (perProc gals.length nproc maxperproc)) with
  | .error e => .error e
  | .ok rs => .ok (store (List.replicate gals.length zero)
      (rs.map fun r => (r, ((gals.drop r.1).take (r.2 - r.1)).map f)))

/-- The galaxy master table (columns used) and the zred master table made from it. -/
structure GalTable where
  hpix : List Nat
  ngals : List Nat
deriving DecidableEq, Repr

structure ZTable (N : Type) where
  hpix : List Nat
  ngals : List Nat
  filenames : List (Option N)
deriving DecidableEq, Repr

/-- zred_runner.py:327-337, the loop; `rows` gives the number of rows of an existing file. -/
def fillTable {N : Type} (gt : GalTable) (rows : N → Option Nat) (zt : ZTable N) : List (Nat × N) → Except Err (ZTable N)
  | [] => .ok zt
  | (i, f) :: rest =>
    match rows f with
    | none => .error .valueError
    | some r => match gt.ngals[i]? with
      | none => .error .indexError
      | some n => if r ≠ n then .error .valueError
        else fillTable gt rows { zt with filenames := zt.filenames.set i (some f), ngals := zt.ngals.set i n } rest

/-- zred_runner.py:293-342 `make_zred_table`. -/
def makeTable {N : Type} (gt : GalTable) (rows : N → Option Nat) (l : List (Nat × N)) : Except Err (ZTable N) :=
  fillTable gt rows { hpix := gt.hpix, ngals := gt.ngals.map fun _ => 0, filenames := gt.hpix.map fun _ => none } l

/-- zredtask.py:113-119: the list the last pixel task passes. -/
def taskList {N : Type} (name : Nat → N) (gt : GalTable) : List (Nat × N) :=
  (List.range gt.hpix.length).filterMap fun i => (gt.hpix[i]?).map fun p => (i, name p)

end Redmapper.PixelTasks
