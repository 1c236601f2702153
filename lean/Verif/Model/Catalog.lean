/-
Model of the table wrapper classes DataObject / Entry / Catalog (/repo/redmapper/catalog.py).

A structured array is a list of column names with a zero value per column, and a list of rows of cells.
Simplifications: a cell is an opaque value (vector columns and dtype conversion are not modelled);
aliasing of arrays passed to the constructor is not modelled except for the views handed out by
`Catalog.__getitem__(int)`; a FITS file is the list of its tables, the first being `ext=1`.
-/
import Mathlib.Data.List.Basic

namespace Redmapper.Catalog

inductive Err
  | valueError
  | indexError
  | typeError
  | attributeError
  | unboundLocal
deriving DecidableEq, Repr

/-- A structured array: names, zero value of each column's type, rows. -/
structure Tab (V : Type) where
  names : List String
  zeros : List V
  rows : List (List V)
deriving DecidableEq, Repr

variable {V : Type} [Inhabited V]

/-- `array[name]`: the column, or no such field. -/
def getCol (t : Tab V) (n : String) : Option (List V) :=
  if n ∈ t.names then some (t.rows.map fun r => r.getD (t.names.idxOf n) default) else none

/-- `array[name] = vals` with one value per row. -/
def setCol (t : Tab V) (n : String) (vals : List V) : Except Err (Tab V) :=
  if n ∈ t.names then
    if vals.length = t.rows.length then
      .ok { t with rows := List.zipWith (fun r v => r.set (t.names.idxOf n) v) t.rows vals }
    else .error .valueError
  else .error .valueError

/-- `np.zeros(size, dtype)`: numpy refuses a dtype with a repeated field name (`ValueError`). -/
def npZeros (size : Nat) (names : List String) (zeros : List V) : Except Err (Tab V) :=
  if names.Nodup then .ok ⟨names, zeros, List.replicate size zeros⟩ else .error .valueError

/-- catalog.py:197-206 `_lower_array`; numpy refuses repeated names (`ValueError`).  `lower` is `str.lower`. -/
def lowerArray (lower : String → String) (t : Tab V) : Except Err (Tab V) :=
  if (t.names.map lower).Nodup then .ok { t with names := t.names.map lower } else .error .valueError

/-- catalog.py:176-183, the checks against the first array. -/
def mergeChecks (first : Tab V) : List (Tab V) → Except Err Unit
  | [] => .ok ()
  | a :: as =>
    if a.rows.length ≠ first.rows.length then .error .valueError
    else if a.names.any (fun n => first.names.contains n) then .error .valueError
    else mergeChecks first as

/-- catalog.py:191-193, copying the columns of one array. -/
def copyCols (src : Tab V) : List String → Tab V → Except Err (Tab V)
  | [], t => .ok t
  | n :: ns, t =>
    match getCol src n with
    | none => .error .valueError
    | some vals => match setCol t n vals with
      | .error e => .error e
      | .ok t' => copyCols src ns t'

/-- catalog.py:190-193, copying all arrays. -/
def copyAll : List (Tab V) → Tab V → Except Err (Tab V)
  | [], t => .ok t
  | a :: as, t => match copyCols a a.names t with
    | .error e => .error e
    | .ok t' => copyAll as t'

/-- catalog.py:153-195 `_merge_arrays`. -/
def mergeArrays (arrays : List (Tab V)) : Except Err (Tab V) :=
  match arrays with
  | [] => .error .unboundLocal
  | first :: rest =>
    match mergeChecks first rest with
    | .error e => .error e
    | .ok () =>
      match npZeros first.rows.length (arrays.flatMap Tab.names) (arrays.flatMap Tab.zeros) with
      | .error e => .error e
      | .ok z => copyAll arrays z

/-- catalog.py:32-33, lower-casing every input. -/
def lowerAll (lower : String → String) : List (Tab V) → Except Err (List (Tab V))
  | [] => .ok []
  | a :: as => match lowerArray lower a with
    | .error e => .error e
    | .ok a' => match lowerAll lower as with
      | .error e => .error e
      | .ok as' => .ok (a' :: as')

/-- catalog.py:21-38 `DataObject.__init__`. -/
def mkObject (lower : String → String) (arrays : List (Tab V)) : Except Err (Tab V) :=
  match lowerAll lower arrays with
  | .error e => .error e
  | .ok ls => match ls with
    | [a] => .ok a
    | _ => mergeArrays ls

/-- catalog.py:112-124 `add_fields`. -/
def addFields (lower : String → String) (t : Tab V) (names : List String) (zeros : List V) :
    Except Err (Tab V) :=
  match npZeros t.rows.length names zeros with
  | .error e => .error e
  | .ok a => match lowerArray lower a with
    | .error e => .error e
    | .ok a' => mergeArrays [t, a']

/-- A catalog object: its table and the ordinary python attributes set on it. -/
structure Obj (V : Type) where
  tab : Tab V
  attrs : List (String × List V)
deriving DecidableEq, Repr

/-- A value assigned to an attribute: a scalar, or a sequence. -/
inductive Val (V : Type)
  | scalar (v : V)
  | seq (l : List V)

/-- catalog.py:94-100: the values written, one per row. -/
def cells (n : Nat) : Val V → List V
  | .scalar v => List.replicate n v
  | .seq [v] => List.replicate n v
  | .seq l => l

/-- catalog.py:90-103 `__setattr__`: one-element sequences are unwrapped to a scalar, scalars fill the column;
an unknown name becomes an ordinary attribute of the python object. -/
def setAttr (lower : String → String) (o : Obj V) (attr : String) (val : Val V) : Except Err (Obj V) :=
  if lower attr ∈ o.tab.names then
    match setCol o.tab (lower attr) (cells o.tab.rows.length val) with
    | .error e => .error e
    | .ok t => .ok { o with tab := t }
  else
    let stored := match val with
      | .scalar v => [v]
      | .seq l => l
    .ok { o with attrs := (attr, stored) :: o.attrs }

/-- catalog.py:84-88 `__getattr__`: columns first, then ordinary attributes (exact spelling), else
`AttributeError`.  Python consults ordinary attributes first when one exists under the exact name; a column
cannot have been shadowed because `__setattr__` never stores a column name as an attribute. -/
def getAttr (lower : String → String) (o : Obj V) (attr : String) : Except Err (List V) :=
  match o.attrs.find? (fun p => p.1 = attr) with
  | some p => .ok p.2
  | none => match getCol o.tab (lower attr) with
    | some c => .ok c
    | none => .error .attributeError

/-- catalog.py:285-297 `append` (`np.append` of two structured arrays); different column names raise. Promotion
between different column types under the same names is not modelled. -/
def append (t u : Tab V) : Except Err (Tab V) :=
  if t.names = u.names then .ok { t with rows := t.rows ++ u.rows } else .error .typeError

/-- catalog.py:299-309 `extend`. -/
def extend (t : Tab V) (n : Nat) : Tab V := { t with rows := t.rows ++ List.replicate n t.zeros }

/-- numpy position of an index (negative counts from the end). -/
def normIdx (size : Nat) (i : Int) : Option Nat :=
  if 0 ≤ i then (if i < size then some i.toNat else none)
  else if -(size : Int) ≤ i then some ((i + size).toNat) else none

/-- Fancy indexing `array[indices]`. -/
def fancy {β : Type} (rows : List β) : List Int → Except Err (List β)
  | [] => .ok []
  | i :: is =>
    match (normIdx rows.length i).bind fun k => rows[k]? with
    | none => .error .indexError
    | some r => match fancy rows is with
      | .error e => .error e
      | .ok rs => .ok (r :: rs)

/-- catalog.py:311-316 `__getitem__` with an index array. -/
def getItems (t : Tab V) (idx : List Int) : Except Err (Tab V) :=
  match fancy t.rows idx with
  | .error e => .error e
  | .ok rs => .ok { t with rows := rs }

/-- `fitsio.write(filename, data, clobber)`: with `clobber` the file is replaced, otherwise an existing file gets
an additional table at its end. -/
def fitsWrite (file : Option (List (Tab V))) (clobber : Bool) (t : Tab V) : Option (List (Tab V)) :=
  match file with
  | none => some [t]
  | some hs => if clobber then some [t] else some (hs ++ [t])

/-- catalog.py:126-151 `to_fits_file`.  A one-row array takes the first branch and ignores `indices`. -/
def toFits (t : Tab V) (file : Option (List (Tab V))) (clobber : Bool) (indices : Option (List Int)) :
    Except Err (Option (List (Tab V))) :=
  if t.rows.length = 1 then .ok (fitsWrite file clobber t)
  else match indices with
    | none => .ok (fitsWrite file clobber t)
    | some idx => match getItems t idx with
      | .error e => .error e
      | .ok u => .ok (fitsWrite file clobber u)

/-- catalog.py:40-54 `from_fits_file` with `ext=1`. -/
def fromFits (lower : String → String) (file : Option (List (Tab V))) : Except Err (Tab V) :=
  match file with
  | none => .error .valueError
  | some [] => .error .valueError
  | some (t :: _) => mkObject lower [{ t with names := t.names.map lower }]

/-- An `Entry` is either a view of a row of a catalog, or owns a row of its own (with its own columns). -/
inductive EntrySt (V : Type)
  | view (i : Nat)
  | own (names : List String) (row : List V)
deriving DecidableEq, Repr

/-- A catalog together with an entry taken from it. -/
structure CatEntry (V : Type) where
  cat : Tab V
  entry : EntrySt V
deriving DecidableEq, Repr

/-- `entry = cat[i]` (catalog.py:311-313, 230-244). -/
def takeEntry (cat : Tab V) (i : Int) : Except Err (CatEntry V) :=
  match normIdx cat.rows.length i with
  | none => .error .indexError
  | some k => .ok ⟨cat, .view k⟩

/-- `entry.name = v` (catalog.py:90-103) for a name that is a column of the entry. -/
def entrySet (s : CatEntry V) (n : String) (v : V) : CatEntry V :=
  match s.entry with
  | .view i => { s with cat := { s.cat with
      rows := s.cat.rows.modify i fun r => r.set (s.cat.names.idxOf n) v } }
  | .own names row => { s with entry := .own names (row.set (names.idxOf n) v) }

/-- `entry.name` (catalog.py:84-88) for a column of the entry. -/
def entryGet (s : CatEntry V) (n : String) : Option V :=
  match s.entry with
  | .view i => if n ∈ s.cat.names then (s.cat.rows[i]?).map fun r => r.getD (s.cat.names.idxOf n) default
      else none
  | .own names row => if n ∈ names then some (row.getD (names.idxOf n) default) else none

/-- catalog.py:250-262 `Entry.add_fields`: the merged copy replaces the view. -/
def entryAddFields (s : CatEntry V) (names : List String) (zeros : List V) : Except Err (CatEntry V) :=
  let cur : Option (List String × List V) := match s.entry with
    | .view i => (s.cat.rows[i]?).map fun r => (s.cat.names, r)
    | .own ns r => some (ns, r)
  match cur with
  | none => .error .indexError
  | some (ns, r) =>
    if (ns ++ names).Nodup then .ok { s with entry := .own (ns ++ names) (r ++ zeros) }
    else .error .valueError

end Redmapper.Catalog
