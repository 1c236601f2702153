/-
Model of the filters behind the centering of /repo/redmapper/centering.py (CenteringWcenZred, lines 161-268: magnitude, redshift and
connectivity filters and the three densities), of CenteringRandom (378-398), and of what the percolation records of a center
(/repo/redmapper/run_percolation.py:291-323).

Numbers are real.  The neighbours are columns over `0 ≤ k < n`.  The matcher of positions is a parameter.
-/
import Mathlib.Analysis.SpecialFunctions.Pow.Real
import Mathlib.Analysis.SpecialFunctions.Trigonometric.Basic
import Mathlib.Data.Real.Sqrt

namespace Redmapper.WcenLike

/-! ### Connectivity -/

/-- Columns of the neighbours: position, probability and magnitude. -/
structure Nbrs (P : Type) where
  n : Nat
  pos : Nat → P
  p : Nat → ℝ
  refmag : Nat → ℝ

/-- centering.py:199-200: softened distance in megaparsec; the distance `d` is in degrees. -/
noncomputable def soft (mpc rsoft d : ℝ) : ℝ := Real.sqrt ((d * mpc) ^ 2 + rsoft ^ 2)

/-- centering.py:202 `10**((mstar - refmag)/2.5)`. -/
noncomputable def lum (mstar refmag : ℝ) : ℝ := (10 : ℝ) ^ ((mstar - refmag) / 2.5)

/-- centering.py:180-223: the connectivity `w` of every candidate (`use` are the indices of the candidates).  `matcher cat qs maxrad` gives
triples (position in `qs`, position in `cat`, distance). -/
noncomputable def connect {P : Type} (matcher : List P → List P → ℝ → List (Nat × Nat × ℝ)) (uselum : Bool) (rlam mpc rsoft mstar : ℝ)
    (ns : Nbrs P) (use : List Nat) : List ℝ :=
  let u := (List.range ns.n).filter fun k => decide (0 < ns.p k)
  let maxrad := 1.1 * rlam / mpc
  let m := matcher (use.map ns.pos) (u.map ns.pos) maxrad
  let m := m.filter fun t => decide (use.getD t.2.1 0 ≠ u.getD t.1 0)
  let pd := m.map fun t => (t.1, t.2.1, soft mpc rsoft t.2.2)
  (List.range use.length).map fun i =>
    let inside := pd.filter fun t => decide (t.2.1 = i) && decide (t.2.2 < rlam)
    if inside.isEmpty then 1 / 1000
    else
      let wt := fun k => if uselum then ns.p k * lum mstar (ns.refmag k) else ns.p k
      Real.log ((inside.map fun t => wt (u.getD t.1 0) / t.2.2).sum / ((1 / rlam) * (inside.map fun t => wt (u.getD t.1 0)).sum))

/-! ### Densities -/

/-- utilities.py:89-90. -/
noncomputable def gauss (x A mu sigma : ℝ) : ℝ := A * Real.exp (-(x - mu) ^ 2 / (2 * sigma ^ 2))

/-- A Gaussian filter with its norm, as centering.py calls it. -/
noncomputable def filter (x mu sigma : ℝ) : ℝ := gauss x (1 / (Real.sqrt (2 * Real.pi) * sigma)) mu sigma

/-- centering.py:237-238, 252-253. -/
noncomputable def cut (v : ℝ) : ℝ := if v < 1 / 10 ^ 10 then 0 else v

/-- The settings of the filters: wcen_Delta0, wcen_Delta1, wcen_pivot, wcen_sigma_m, wcen_maxlambda, mean and width of ln w for central,
satellite and foreground galaxies. -/
structure Cal where
  delta0 : ℝ
  delta1 : ℝ
  pivot : ℝ
  sigmaM : ℝ
  maxlambda : ℝ
  cenMean : ℝ
  cenSigma : ℝ
  satMean : ℝ
  satSigma : ℝ
  fgMean : ℝ
  fgSigma : ℝ

/-- The cluster: richness, scale, radius, redshift (of the red-sequence model, 168-178), m* and megaparsec scale. -/
structure Cl where
  Lambda : ℝ
  scaleval : ℝ
  rlam : ℝ
  z : ℝ
  mstar : ℝ
  mpc : ℝ

/-- A candidate: magnitude, redshift and its error, connectivity, normalized luminosity function and background of its magnitude and
redshift. -/
structure Gal where
  refmag : ℝ
  zred : ℝ
  zredE : ℝ
  w : ℝ
  phiSat : ℝ
  sigma : ℝ

/-- centering.py:225. -/
noncomputable def sigscale (c : Cal) (cl : Cl) : ℝ := Real.sqrt ((min cl.Lambda c.maxlambda / cl.scaleval) / c.pivot)

/-- centering.py:161-166. -/
noncomputable def phiCen (c : Cal) (cl : Cl) (g : Gal) : ℝ :=
  filter g.refmag (cl.mstar + c.delta0 + c.delta1 * Real.log (cl.Lambda / c.pivot)) c.sigmaM

/-- centering.py:168-178. -/
noncomputable def gz (cl : Cl) (g : Gal) : ℝ := filter g.zred cl.z g.zredE

/-- centering.py:227-238. -/
noncomputable def ucen (c : Cal) (cl : Cl) (g : Gal) : ℝ :=
  cut (phiCen c cl g * gz cl g * filter (Real.log g.w) c.cenMean (c.cenSigma / sigscale c cl))

/-- centering.py:240-253. -/
noncomputable def usat (c : Cal) (cl : Cl) (g : Gal) : ℝ :=
  cut (g.phiSat * gz cl g * filter (Real.log g.w) c.satMean (c.satSigma / sigscale c cl))

/-- cluster.py:389-390 `calc_zred_bkg_density`. -/
noncomputable def zredBkg (mpc r sigma : ℝ) : ℝ := 2 * Real.pi * r * (sigma / mpc ^ 2)

/-- centering.py:255-268, with the test radius 0.1. -/
noncomputable def bcounts (c : Cal) (cl : Cl) (g : Gal) : ℝ :=
  filter (Real.log g.w) c.fgMean (c.fgSigma / sigscale c cl) * (zredBkg cl.mpc 0.1 g.sigma / (2 * Real.pi * 0.1)) * Real.pi * cl.rlam ^ 2

/-! ### A random center -/

/-- centering.py:378-386, with the two draws `u`, `v`; angles in degrees. -/
noncomputable def randomCenter (rlam mpc ra dec u v : ℝ) : ℝ × ℝ :=
  let r := rlam * Real.sqrt u
  let phi := 2 * Real.pi * v
  let x := r * Real.cos phi / mpc
  let y := r * Real.sin phi / mpc
  (ra + x / Real.cos (dec * (Real.pi / 180)), dec + y)

/-! ### What is recorded -/

inductive Err where
  | value
  | index
  deriving DecidableEq, Repr

/-- What a centering class leaves: positions, indices of the neighbours (the arrays have `maxcen` entries, see `wcenCent`, `bcgCent`). -/
structure Cent (R : Type) where
  pos : List R
  index : List Int
  ngood : Nat

variable {R : Type}

/-- centering.py:42-55, 341-350: WcenZred fills the first entries of its arrays; `blank` is the position (-400, -400). -/
def wcenCent (blank : R) (maxcen : Nat) (rows : List (R × Nat)) (ngood : Nat) : Cent R :=
  ⟨rows.map Prod.fst ++ List.replicate (maxcen - rows.length) blank,
   rows.map (fun q => (q.2 : Int)) ++ List.replicate (maxcen - rows.length) (-1), ngood⟩

/-- centering.py:105-109: the BCG class replaces the array of positions by one of one entry. -/
def bcgCent (maxcen : Nat) (pos : R) (k : Nat) : Cent R := ⟨[pos], (k : Int) :: List.replicate (maxcen - 1) (-1), 1⟩

/-- centering.py:387-391: a random position has index -1. -/
def randomCent (blank : R) (maxcen : Nat) (pos : R) : Cent R := ⟨pos :: List.replicate (maxcen - 1) blank, List.replicate maxcen (-1), 1⟩

/-- `a[:] = b` of numpy for one-dimensional arrays: same size, or one entry that is repeated. -/
def assign (n : Nat) (b : List R) : Except Err (List R) :=
  if b.length = n then .ok b
  else match b with
    | [x] => .ok (List.replicate n x)
    | _ => .error .value

/-- Position `i` of an array of `n` entries: a negative index counts from the end. -/
def wrap (n : Nat) (i : Int) : Option Nat :=
  if 0 ≤ i then (if i < n then some i.toNat else none) else if -(n : Int) ≤ i then some (i + n).toNat else none

/-- What the percolation has for a cluster: the galaxy its magnitudes are from, ids of the candidates (0 at first), their positions, and which
neighbours are flagged as candidates. -/
structure Rec (R : Type) where
  central : Option Nat
  idCent : List Nat
  posCent : List R
  cand : Nat → Bool
  ncent : Nat

/-- run_percolation.py:291-323: `ids` are the ids of the neighbours, the arrays of the catalog have `maxcen` entries. -/
def record (maxcen : Nat) (ids : List Nat) (c : Cent R) (r : Rec R) : Except Err (Rec R) :=
  match c.index with
  | [] => .error .index
  | i0 :: _ =>
    let step : Except Err (Rec R) :=
      if 0 ≤ i0 then
        match c.index.mapM (wrap ids.length) with
        | none => .error .index
        | some ks => .ok { r with central := wrap ids.length i0, idCent := ks.map fun k => ids.getD k 0, cand := fun k => r.cand k || decide (k ∈ ks) }
      else .ok r
    match step with
    | .error e => .error e
    | .ok r => match assign maxcen c.pos with
      | .error e => .error e
      | .ok p => .ok { r with ncent := c.ngood, posCent := p }

end Redmapper.WcenLike
