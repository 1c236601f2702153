/-
Model of the Python wrappers of the two C extensions: /repo/redmapper/chisq_dist/chisq_dist_pywrap.c and
/repo/redmapper/solver_nfw/solver_nfw_pywrap.c with /repo/redmapper/solver_nfw/solver_nfw_lib.py: what the arguments become, which memory is read,
who owns it, and what is raised.

Arrays are lists of numbers in memory cells with an identity.  The numerical work of the C functions is a parameter (it is the subject of the
modules Chisq and Solver).  An interpreter that reads freed memory or a null pointer is `crash`.
-/

namespace Redmapper.PyWrap

/-! ### Arguments -/

/-- A C `long` of eight bytes in memory, least significant byte first: as its two halves of four bytes. -/
structure Long where
  lo : Nat
  hi : Nat

/-- The four bytes of a C `int` as a number below 2^32. -/
def toU32 (v : Int) : Nat := (v % 2 ^ 32).toNat

/-- The value of four bytes read as a C `int`. -/
def ofU32 (u : Nat) : Int := if u < 2 ^ 31 then u else u - 2 ^ 32

/-- chisq_dist_pywrap.c:50-60: the format `i` writes a C `int` at the address of a `long`, whose other half keeps what was there. -/
def parseInt (little : Bool) (old : Long) (v : Int) : Long := if little then ⟨toU32 v, old.hi⟩ else ⟨old.lo, toU32 v⟩

/-- chisq_dist_pywrap.c:74-77, chisq_dist.h:11-27: the `long` is assigned to an `int` of the struct, which keeps its lower half. -/
def assignInt (l : Long) : Int := ofU32 l.lo

/-- The argument of the format `i`: a Python integer outside of the range of a C `int` raises. -/
def fits (v : Int) : Bool := decide (-2 ^ 31 ≤ v) && decide (v < 2 ^ 31)

/-- The four sizes as they arrive in the struct (mode, ngal, nz, ncol) and the number of values to compute
(chisq_dist_pywrap.c:74-77, 124-128); `none` if an argument does not fit. -/
def sizes (little : Bool) (stack : Nat → Long) (mode ngal nz ncol : Int) : Option (Int × Int × Int × Int × Int) :=
  if fits mode && fits ngal && fits nz && fits ncol then
    let m := assignInt (parseInt little (stack 0) mode)
    let g := assignInt (parseInt little (stack 1) ngal)
    let z := assignInt (parseInt little (stack 2) nz)
    let c := assignInt (parseInt little (stack 3) ncol)
    some (m, g, z, c, if m = 0 then g else z)
  else none

/-! ### The object of the chi-squared -/

inductive Exc where
  | runtime
  | value (arg : Nat)
  | system
  | type
  deriving DecidableEq, Repr

/-- Outcome of a call: a value, a Python exception, or undefined behaviour. -/
inductive Res (A : Type) where
  | ok (a : A)
  | exc (e : Exc)
  | crash

/-- The object: pointer to the struct (an address, with the size it was given) and the flag; `heap` are the structs that are allocated and not
freed, `bad` is set by a double free. -/
structure Obj where
  ptr : Option Nat
  allocated : Bool
  next : Nat
  heap : List Nat
  bad : Bool

/-- `tp_new`: PyType_GenericNew clears the memory. -/
def Obj.new : Obj := ⟨none, false, 0, [], false⟩

/-- The arguments of a call of `__init__`: whether they can be parsed, whether memory is left, and of which of the nine arrays the type is
float64. -/
structure Init where
  parses : Bool
  memory : Bool
  f8 : List Bool

/-- The position of the first array of another type. -/
def firstBad : Nat → List Bool → Option Nat
  | _, [] => none
  | k, b :: r => if b then firstBad (k + 1) r else some k

/-- chisq_dist_pywrap.c:29-133. -/
def Obj.init (o : Obj) (a : Init) : Obj × Res Unit :=
  let o := { o with allocated := false }
  if !a.parses then (o, .exc .runtime)
  else if !a.memory then ({ o with ptr := none }, .exc .runtime)
  else
    let o := { o with ptr := some o.next, allocated := true, next := o.next + 1, heap := o.next :: o.heap }
    match firstBad 0 a.f8 with
    | some k => (o, .exc (.value k))
    | none => (o, .ok ())

/-- chisq_dist_pywrap.c:146-175: `work` is the address of the struct that is used.  The array is made before the arguments are parsed and is
returned, with the exception set, when they cannot be. -/
def Obj.compute (o : Obj) (parses : Bool) : Res Nat :=
  match o.ptr with
  | none => .crash
  | some p => if !(o.heap.contains p) then .crash else if !parses then .exc .system else .ok p

/-- chisq_dist_pywrap.c:135-144: under Python 3 the result is a bytes object, which `repr` refuses. -/
def Obj.repr (python3 : Bool) : Res String := if python3 then .exc .type else .ok "Chisq Dist Object"

/-- chisq_dist_pywrap.c:13-26. -/
def Obj.dealloc (o : Obj) : Obj :=
  if o.allocated then
    match o.ptr with
    | none => { o with allocated := false }
    | some p => if o.heap.contains p then { o with heap := o.heap.erase p, allocated := false } else { o with bad := true, allocated := false }
  else o

/-- The object after calls of `__init__`. -/
def Obj.inits (o : Obj) (l : List Init) : Obj := l.foldl (fun o a => (o.init a).1) o

/-! ### The object of the solver -/

/-- Memory of the arrays: contents of those that are alive. -/
abbrev Mem (V : Type) := Nat → Option (List V)

/-- State of a Python program that has made one `Solver`: next free identity, memory, the arrays the caller holds, the attributes of the Python
object (0 ucounts, 1 bcounts, 2 r, 3 w, 4 cpars) and the pointers of the C object. -/
structure St (V : Type) where
  next : Nat
  mem : Mem V
  user : List Nat
  attr : List Nat
  ptr : List Nat

variable {V O : Type}

/-- Reference counting: an array that neither the caller nor the attributes refer to is freed.  The pointers of the C object are not counted
(solver_nfw_pywrap.c:62-66 takes no reference). -/
def collect (s : St V) : St V := { s with mem := fun k => if k ∈ s.user ∨ k ∈ s.attr then s.mem k else none }

/-- solver_nfw_lib.py:46-63 and solver_nfw_pywrap.c:62-66: `astype` copies the five arrays to new memory, which the attributes hold; the C object gets
the pointers. -/
def construct (s : St V) (args : List (List V)) : St V :=
  let ids := (List.range args.length).map (s.next + ·)
  collect { s with
    next := s.next + args.length
    mem := fun k => if s.next ≤ k ∧ k < s.next + args.length then args[k - s.next]? else s.mem k
    attr := ids
    ptr := ids }

/-- What a program can do: make an array, write into one of its own, drop one, write into an array of the attributes, set an attribute to one of
its own arrays, solve. -/
inductive Op (V : Type) where
  | newArray (xs : List V)
  | write (k : Nat) (xs : List V)
  | drop (k : Nat)
  | writeAttr (i : Nat) (xs : List V)
  | setAttr (i k : Nat)
  | solve

/-- solver_nfw_pywrap.c:96-139, solver_nfw_lib.py:93: reads the arrays behind the pointers; the outputs are new arrays each time. -/
def solve (work : List (List V) → O) (s : St V) : Res O :=
  match s.ptr.mapM s.mem with
  | none => .crash
  | some xs => .ok (work xs)

/-- One step; the output of `solve` if there is one. -/
def step (work : List (List V) → O) (s : St V) : Op V → St V × Option (Res O)
  | .newArray xs => ({ s with next := s.next + 1, mem := fun k => if k = s.next then some xs else s.mem k, user := s.next :: s.user }, none)
  | .write k xs => if k ∈ s.user then ({ s with mem := fun j => if j = k then some xs else s.mem j }, none) else (s, none)
  | .drop k => (collect { s with user := s.user.filter (· ≠ k) }, none)
  | .writeAttr i xs => match s.attr[i]? with
    | some a => ({ s with mem := fun j => if j = a then some xs else s.mem j }, none)
    | none => (s, none)
  | .setAttr i k => if k ∈ s.user then (collect { s with attr := s.attr.set i k }, none) else (s, none)
  | .solve => (s, some (solve work s))

/-- A program: the outputs of its calls of `solve`, in order. -/
def run (work : List (List V) → O) : St V → List (Op V) → List (Res O)
  | _, [] => []
  | s, o :: r => match step work s o with
    | (s', some x) => x :: run work s' r
    | (s', none) => run work s' r

/-! ### Numbers of galaxies -/

/-- solver_nfw_lib.py:55-61 and solver_nfw_pywrap.c:68, 74-77 for arrays of any shape: the sizes are compared, the number of galaxies is the first
dimension of `ucounts`; `.crash` without dimensions. -/
def galaxies (ucounts bcounts r w cpars : List Nat) : Res Nat :=
  if ucounts.prod ≠ bcounts.prod then .exc (.value 1)
  else if ucounts.prod ≠ r.prod then .exc (.value 2)
  else if ucounts.prod ≠ w.prod then .exc (.value 3)
  else match ucounts, cpars with
    | n :: _, m :: _ => if m ≠ 4 then .exc (.value 4) else .ok n
    | _, _ => .crash

end Redmapper.PyWrap
