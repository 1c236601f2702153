/-
Model of the tables of the color background: counts of one color and of pairs of colors, and their sums over the colors.

  /repo/redmapper/color_background.py  ColorBackgroundGenerator.run

Simplifications: exact arithmetic (the tables are saved with 4 bytes); a galaxy is its list of colors and its magnitude, without NaN, so that no
cell of the field has to be repaired (color_background.py:404-406, 456-457); tables are flat lists with the color as fastest index (the layout of the
arrays); ranges of the colors and files are in `Verif.Model.BkgGen`.
-/
import Verif.Model.BkgGen

namespace Redmapper.ColGen

open Redmapper.Utilities (cic Sample)
open Redmapper.BkgGen (nbins pos Err)

variable {α : Type} [Field α] [LinearOrder α]

/-- A galaxy: colors and magnitude. -/
structure CGal (α : Type) where
  cols : List α
  refmag : α
deriving DecidableEq, Repr

/-- The color of an index. -/
def CGal.col (g : CGal α) (i : Nat) : α := g.cols.getD i 0

/-- color_background.py:393-396: galaxies that are not counted in the table of color `i`. -/
def bad1 (r : α × α) (limmag : α) (i : Nat) (g : CGal α) : Bool :=
  decide (g.col i < r.1) || decide (g.col i ≥ r.2) || decide (g.refmag < 12) || decide (g.refmag ≥ limmag)

/-- color_background.py:444-449: galaxies that are not counted in the table of colors `i` and `j`. -/
def bad2 (ri rj : α × α) (limmag : α) (i j : Nat) (g : CGal α) : Bool :=
  decide (g.col i < ri.1) || decide (g.col i ≥ ri.2) || decide (g.col j < rj.1) || decide (g.col j ≥ rj.2) || decide (g.refmag < 12) ||
    decide (g.refmag ≥ limmag)

/-- A table: counts per bin, and per magnitude. -/
structure Tab (α : Type) where
  bc : List α
  n : List α
deriving DecidableEq, Repr

/-- color_background.py:387-409: the table of one color; `cbs` and `mbs` are the bin sizes 0.02 and 0.05. -/
def table1 [FloorRing α] (r : α × α) (limmag cbs mbs : α) (i : Nat) (gals : List (CGal α)) : Except Err (Tab α) :=
  let nc := nbins r cbs
  let nm := nbins (12, limmag) mbs
  let use := gals.filter fun g => !bad1 r limmag i g
  match cic 2 nc nm 1 true false (use.map fun g => ⟨1, pos r cbs (g.col i), pos (12, limmag) mbs g.refmag, 0⟩) with
  | .error _ => .error .indexError
  | .ok f =>
    let bc := f.map fun v => v / (mbs * cbs)
    .ok ⟨bc, (List.range nm).map fun (m : Nat) => ((List.range nc).map fun (c : Nat) => bc.getD (c + m * nc) 0).sum * cbs⟩

/-- color_background.py:435-461: the table of a pair of colors. -/
def table2 [FloorRing α] (ri rj : α × α) (limmag cbs mbs : α) (i j : Nat) (gals : List (CGal α)) : Except Err (Tab α) :=
  let n1 := nbins ri cbs
  let n2 := nbins rj cbs
  let nm := nbins (12, limmag) mbs
  let use := gals.filter fun g => !bad2 ri rj limmag i j g
  match cic 3 n1 n2 nm true false (use.map fun g => ⟨1, pos ri cbs (g.col i), pos rj cbs (g.col j), pos (12, limmag) mbs g.refmag⟩) with
  | .error _ => .error .indexError
  | .ok f =>
    let bc := f.map fun v => v / (mbs * cbs * cbs)
    .ok ⟨bc, (List.range nm).map fun (m : Nat) =>
      ((List.range n2).map fun (d : Nat) => ((List.range n1).map fun (c : Nat) => bc.getD (c + d * n1 + m * (n1 * n2)) 0).sum * cbs).sum * cbs⟩

end Redmapper.ColGen
