/-
Model of the numerical and file utilities (/repo/redmapper/utilities.py): interpol, cic, make_nodes, CubicSpline,
sample_from_pdf, make_lockfile, read_members.  Arithmetic is exact (ordered field); machine rounding is not modelled.
-/
import Verif.Model.Centering
import Mathlib.Algebra.Order.Floor.Defs
import Mathlib.Algebra.Order.Floor.Ring

namespace Redmapper.Utilities

inductive Err
  | valueError
  | indexError
  | runtimeError
deriving DecidableEq, Repr

variable {α : Type} [Field α] [LinearOrder α]

/-- `np.searchsorted(xs, v)` (side='left') on a sorted list: the number of leading entries below `v`. -/
def ssLeft (xs : List α) (v : α) : Nat := (xs.takeWhile fun x => decide (x < v)).length

/-- `np.searchsorted(xs, v, side='right')`. -/
def ssRight (xs : List α) (v : α) : Nat := (xs.takeWhile fun x => decide (x ≤ v)).length

/-- utilities.py:574 and 401-402: `clip(searchsorted(x, q) - 1, 0, m - 2)`. -/
def segment (x : List α) (q : α) : Nat := min (ssLeft x q - 1) (x.length - 2)

/-- utilities.py:555-581 `interpol` for one query point; grids have at least two nodes. -/
def interpol (v x : List α) (q : α) : α :=
  let s := segment x q
  let diff := v.getD (s + 1) 0 - v.getD s 0
  (q - x.getD s 0) * diff / (x.getD (s + 1) 0 - x.getD s 0) + v.getD s 0

/-! ### CubicSpline -/

/-- utilities.py:331-383, the data kept by a `CubicSpline`; `y2` is what `solve_banded` returned. -/
structure Spline (α : Type) where
  x : List α
  y : List α
  y2 : List α
  fixextrap : Bool

/-- utilities.py:347-354, 369-373: the rows of the tridiagonal system handed to `solve_banded`, as equations on `y2`
(natural spline, `yp=None`). Row `i` (interior) is equation `i`. -/
def naturalSystem (x y y2 : List α) : Prop :=
  y2.getD 0 0 = 0 ∧ y2.getD (x.length - 1) 0 = 0 ∧
  ∀ i, 0 < i → i + 1 < x.length →
    (x.getD i 0 - x.getD (i - 1) 0) / 6 * y2.getD (i - 1) 0 +
      (x.getD (i + 1) 0 - x.getD (i - 1) 0) / 3 * y2.getD i 0 +
      (x.getD (i + 1) 0 - x.getD i 0) / 6 * y2.getD (i + 1) 0 =
    (y.getD (i + 1) 0 - y.getD i 0) / (x.getD (i + 1) 0 - x.getD i 0) -
      (y.getD i 0 - y.getD (i - 1) 0) / (x.getD i 0 - x.getD (i - 1) 0)

/-- utilities.py:403-409, the cubic used on segment `lo`. -/
def piece (s : Spline α) (lo : Nat) (q : α) : α :=
  let hi := lo + 1
  let dx := s.x.getD hi 0 - s.x.getD lo 0
  let a := (s.x.getD hi 0 - q) / dx
  let b := (q - s.x.getD lo 0) / dx
  a * s.y.getD lo 0 + b * s.y.getD hi 0 +
    ((a ^ 3 - a) * s.y2.getD lo 0 + (b ^ 3 - b) * s.y2.getD hi 0) * dx ^ 2 / 6

/-- utilities.py:385-409 `splint`. -/
def splint (s : Spline α) (q : α) : α := piece s (segment s.x q) q

/-- utilities.py:411-435 `__call__`. -/
def call (s : Spline α) (q : α) : α :=
  if ¬ s.fixextrap then splint s q
  else
    let v := splint s q
    let v := if q < s.x.getD 0 0 then s.y.getD 0 0 else v
    if s.x.getD (s.x.length - 1) 0 < q then s.y.getD (s.y.length - 1) 0 else v

/-! ### cic -/

/-- utilities.py:638-672 (and 684-714, 722-752): nearest grid point, its weight, the other grid point and its weight
along one axis.  `astype(int32)` truncates; positions are non-negative here, so it is the floor. -/
def axis [FloorRing α] (n : Nat) (isolated : Bool) (pos : α) : Int × α × Int × α :=
  let k1 := ⌊pos⌋
  let dng := (k1 : α) + 1 / 2 - pos
  let w1 := 1 - |dng|
  let k2 := if dng < 0 then k1 - 1 + 2 else k1 - 1
  let w2 := |dng|
  let p := if k2 = -1 then ((n : Int) - 1, if isolated then 0 else w2) else (k2, w2)
  let p := if p.1 = (n : Int) then (0, if isolated then 0 else p.2) else p
  (k1, w1, p.1, p.2)

/-- A sample: value and position (unused coordinates are ignored in lower dimension). -/
structure Sample (α : Type) where
  value : α
  x : α
  y : α
  z : α

/-- utilities.py:765-806: the grid cells that receive a share of a sample, with their weights.  `dim` is 1, 2 or 3;
in lower dimensions the missing axes have index 0 and weight 1. -/
def corners [FloorRing α] (dim nx ny nz : Nat) (isolated : Bool) (s : Sample α) : List (Int × α) :=
  let (kx1, wx1, kx2, wx2) := axis nx isolated s.x
  let (ky1, wy1, ky2, wy2) := if 2 ≤ dim then axis ny isolated s.y else (0, 1, 0, 1)
  let (kz1, wz1, kz2, wz2) := if dim = 3 then axis nz isolated s.z else (0, 1, 0, 1)
  let nxny : Int := nx * ny
  [(kx1 + ky1 * nx + kz1 * nxny, wx1 * wy1 * wz1), (kx2 + ky1 * nx + kz1 * nxny, wx2 * wy1 * wz1)] ++
  (if 2 ≤ dim then
    [(kx1 + ky2 * nx + kz1 * nxny, wx1 * wy2 * wz1), (kx2 + ky2 * nx + kz1 * nxny, wx2 * wy2 * wz1)] ++
    (if dim = 3 then
      [(kx1 + ky1 * nx + kz2 * nxny, wx1 * wy1 * wz2), (kx2 + ky1 * nx + kz2 * nxny, wx2 * wy1 * wz2),
       (kx1 + ky2 * nx + kz2 * nxny, wx1 * wy2 * wz2), (kx2 + ky2 * nx + kz2 * nxny, wx2 * wy2 * wz2)] else [])
  else [])

/-- `np.add.at(field, index, v)`: every addition counts, also for repeated indices; negative indices count from the end,
others out of range raise. -/
def addAt (field : List α) : List (Int × α) → Except Err (List α)
  | [] => .ok field
  | (k, v) :: rest =>
    let k' := if k < 0 then k + field.length else k
    if 0 ≤ k' ∧ k' < field.length then addAt (field.set k'.toNat (field.getD k'.toNat 0 + v)) rest
    else .error .indexError

/-- utilities.py:587-827 `cic` (the flat field, before the reshape).  The code adds corner by corner over all samples,
the model sample by sample over all corners; the additions are the same. -/
def cic [FloorRing α] (dim nx ny nz : Nat) (isolated average : Bool) (samples : List (Sample α)) :
    Except Err (List α) :=
  let ny := if dim = 1 then 1 else ny
  let nz := if dim ≤ 2 then 1 else nz
  let zero := List.replicate (nx * ny * nz) (0 : α)
  let parts := samples.flatMap fun s => (corners dim nx ny nz isolated s).map fun c => (c.1, c.2 * s.value)
  let wts := samples.flatMap fun s => corners dim nx ny nz isolated s
  match addAt zero parts with
  | .error e => .error e
  | .ok field =>
    if average then match addAt zero wts with
      | .error e => .error e
      | .ok tot => .ok (List.zipWith (fun f t => if t ≠ 0 then f / t else f) field tot)
    else .ok field

/-! ### make_nodes -/

/-- `np.arange(a, b, step)` for positive step. -/
def arange [FloorRing α] (a b step : α) : List α :=
  (List.range ⌈(b - a) / step⌉.toNat).map fun (i : Nat) => a + (i : α) * step

/-- utilities.py:857-860, the highest useful node. -/
def nodeEnd (z1 : α) : Option α → α
  | none => z1
  | some x => if x < 0 then z1 else min (max x 0) z1

/-- utilities.py:833-877 `make_nodes`; `maxnode = none` is the default.  `nodes.max()` of an empty array raises.  The test
`~np.allclose(...)` at 867 is the bitwise complement of a python bool, which is never zero: the branch is always taken. -/
def makeNodes [FloorRing α] (z0 z1 step : α) (maxnode : Option α) : Except Err (List α) :=
  let m := nodeEnd z1 maxnode
  let nodes := arange z0 m step
  match nodes.getLast? with
  | none => .error .valueError
  | some last =>
    let nodes := if step / 2 + 1 / 100 < m - last then nodes ++ [m] else nodes.set (nodes.length - 1) m
    .ok (if m < z1 then nodes ++ [z1] else nodes)

/-! ### sample_from_pdf -/

/-- utilities.py:908-919, one sample: `x` are the grid points, `pdf` the values of the function there, `u` the draw. -/
def samplePdf [FloorRing α] (x pdf : List α) (u : α) : Except Err α :=
  let p := pdf.map fun v => v / pdf.sum
  let cdfi : List Int := (Centering.cumsum 0 p).map fun c => ⌊c * (x.length : α)⌋
  let rand : Int := ⌊u * (x.length : α)⌋
  match (List.range cdfi.length).find? fun i => decide (rand ≤ cdfi.getD i 0) with
  | none => .error .indexError
  | some i => match x[i]? with
    | none => .error .indexError
    | some v => .ok v

/-! ### read_members -/

/-- python `str.rstrip(chars)`: removes trailing characters that belong to the set `chars`. -/
def rstrip (chars s : List Char) : List Char := (s.reverse.dropWhile fun c => chars.contains c).reverse

/-- utilities.py:1091-1092, the member file name. -/
def membersFile (catfile : List Char) : List Char := rstrip ".fit".toList catfile ++ "_members.fit".toList

/-! ### make_lockfile -/

/-- Where a process is in `make_lockfile` (utilities.py:1017-1074).
`idle`: not in a call. `temp b n`: temporary file made, about to try the link; `b` blocking, `n` failed tries so far.
`linked`: link made, temporary file still there. `failing`: gave up, temporary file still there.
`held`: returned True. `refused`: returned False. `dead own t`: the process was killed; `own`: after making the link and
before removing the lock, `t`: with its temporary file still there. -/
inductive PC
  | idle
  | temp (block : Bool) (n : Nat)
  | linked
  | failing
  | held
  | refused
  | dead (own tmp : Bool)
deriving DecidableEq, Repr

/-- The shared directory: whether the lock path exists, and which processes' temporary files exist (mkstemp gives
distinct names, so they are told apart by process); and where every process is. -/
structure World where
  lock : Bool
  tmp : Nat → Bool
  pc : Nat → PC

def World.setPc (w : World) (p : Nat) (c : PC) : World := { w with pc := fun q => if q = p then c else w.pc q }
def World.setTmp (w : World) (p : Nat) (b : Bool) : World := { w with tmp := fun q => if q = p then b else w.tmp q }

/-- One atomic step of process `p`.  `start b` is `mkstemp` (1041-1043); `step` is the next system call of the call in
progress: `os.link` (1048, 1063, fails if the path exists), or `os.unlink` of the temporary file (1049, 1053, 1064,
1071); `release` is the holder removing the lock file; `forget` starts over after a refusal; `crash` kills the process between
two system calls. -/
inductive Act
  | start (block : Bool)
  | step
  | release
  | forget
  | crash
deriving DecidableEq, Repr

/-- `maxtry` is the number of tries of a blocking call. `none`: the action is not possible in this state. -/
def act (maxtry : Nat) (w : World) (p : Nat) : Act → Option World
  | .start b => match w.pc p with
    | .idle => some ((w.setTmp p true).setPc p (if b ∧ maxtry = 0 then .failing else .temp b 0))
    | _ => none
  | .step => match w.pc p with
    | .temp b n =>
      if w.lock then
        some (w.setPc p (if b then (if n + 1 < maxtry then .temp b (n + 1) else .failing) else .failing))
      else some ({ w with lock := true }.setPc p .linked)
    | .linked => some ((w.setTmp p false).setPc p .held)
    | .failing => some ((w.setTmp p false).setPc p .refused)
    | _ => none
  | .release => match w.pc p with
    | .held => some ({ w with lock := false }.setPc p .idle)
    | _ => none
  | .forget => match w.pc p with
    | .refused => some (w.setPc p .idle)
    | _ => none
  | .crash => match w.pc p with
    | .idle => some (w.setPc p (.dead false false))
    | .temp _ _ => some (w.setPc p (.dead false true))
    | .linked => some (w.setPc p (.dead true true))
    | .failing => some (w.setPc p (.dead false true))
    | .held => some (w.setPc p (.dead true false))
    | .refused => some (w.setPc p (.dead false false))
    | .dead _ _ => none

/-- A run: any sequence of actions of any processes. -/
def run (maxtry : Nat) : World → List (Nat × Act) → Option World
  | w, [] => some w
  | w, (p, a) :: rest => match act maxtry w p a with
    | none => none
    | some w' => run maxtry w' rest

/-- Nobody is in a call, no files. -/
def World.init : World := { lock := false, tmp := fun _ => false, pc := fun _ => .idle }

end Redmapper.Utilities
