/-
C285-C287: the tables of the color background.
-/
import Verif.Model.ColGen
import Verif.Props.Utilities
import Verif.Props.BkgGen

set_option linter.unusedSectionVars false

namespace Redmapper.ColGen

open Redmapper.Utilities (cic Sample axis axis_spec C27_weights addAt corners corners_spec InGrid flat_index)
open Redmapper.BkgGen (nbins pos Err nbins_pos pos_range)

variable {α : Type} [Field α] [LinearOrder α] [IsStrictOrderedRing α] [FloorRing α]

/-! ## Cells of a cloud-in-cells field -/

/-- Share of a position that goes to cell `k`: one minus the distance from the center of the cell, nothing from a distance of one cell on. -/
def Share (k : Nat) (x : α) : α := max 0 (1 - |(k : α) + 1 / 2 - x|)

theorem share_nonneg (k : Nat) (x : α) : 0 ≤ Share k x := le_max_left _ _

theorem axis_share (n : Nat) (x : α) (h0 : 0 ≤ x) (h1 : x < n) (k : Nat) (hk : k < n) :
    (if (axis n true x).1 = (k : Int) then (axis n true x).2.1 else 0) + (if (axis n true x).2.2.1 = (k : Int) then (axis n true x).2.2.2 else 0) =
      Share k x := by
  by_cases ha : x < 1 / 2
  · have hf : ⌊x⌋ = 0 := by rw [Int.floor_eq_iff]; push_cast; exact ⟨h0, by linarith⟩
    have hax : axis n true x = (0, 1 - |(1 : α) / 2 - x|, (n : Int) - 1, 0) := by
      unfold axis
      have e1 : ¬ ((1 : α) / 2 - x < 0) := by linarith
      have e2 : ¬ ((n : Int) - 1 = (n : Int)) := by omega
      simp only [hf, Int.cast_zero, zero_add, if_neg e1, show (0 : Int) - 1 = -1 by norm_num, if_true, if_neg e2]
    rw [hax]
    dsimp only
    rw [ite_self, add_zero]
    unfold Share
    by_cases hk0 : k = 0
    · subst hk0
      simp only [Nat.cast_zero, if_true, zero_add]
      rw [max_eq_right]
      rw [abs_of_pos (by linarith)]; linarith
    · rw [if_neg (by omega), max_eq_left]
      have : (1 : α) ≤ k := by exact_mod_cast Nat.one_le_iff_ne_zero.mpr hk0
      rw [abs_of_pos (by linarith)]; linarith
  · by_cases hb : (n : α) - 1 / 2 < x
    · have hn : 0 < n := by omega
      have hf : ⌊x⌋ = (n : Int) - 1 := by rw [Int.floor_eq_iff]; push_cast; exact ⟨by linarith, by linarith⟩
      have hax : axis n true x = ((n : Int) - 1, 1 - |((n : α) - 1) + 1 / 2 - x|, 0, 0) := by
        unfold axis
        have e1 : (n : α) - 1 + 1 / 2 - x < 0 := by linarith
        have e2 : ¬ ((n : Int) = -1) := by omega
        simp only [hf, Int.cast_sub, Int.cast_natCast, Int.cast_one, if_pos e1, show (n : Int) - 1 - 1 + 2 = (n : Int) by ring, if_neg e2, if_true]
      rw [hax]
      dsimp only
      rw [ite_self, add_zero]
      unfold Share
      by_cases hk0 : k + 1 = n
      · have e : (k : α) = (n : α) - 1 := by rw [← hk0]; push_cast; ring
        rw [if_pos (by omega), max_eq_right]
        · rw [e]
        · rw [e, abs_of_neg (by linarith)]; linarith
      · rw [if_neg (by omega), max_eq_left]
        have : (k : α) + 2 ≤ n := by exact_mod_cast (by omega : k + 2 ≤ n)
        rw [abs_of_neg (by linarith)]; linarith
    · have := C27_weights n true x (not_lt.mp ha) (not_lt.mp hb) (k : Int)
      simp only [Int.cast_natCast] at this
      unfold Share
      rw [← this]
      simp only [eq_comm]

/-- Sum of the shares along an axis. -/
theorem sum_ite_range (n : Nat) (k : Int) (w : α) (h0 : 0 ≤ k) (h1 : k < n) :
    ((List.range n).map fun (c : Nat) => if k = (c : Int) then w else 0).sum = w := by
  induction n with
  | zero => omega
  | succ n ih =>
    rw [List.range_succ, List.map_append, List.sum_append, List.map_singleton, List.sum_singleton]
    by_cases hk : k = (n : Int)
    · rw [if_pos hk]
      have : ((List.range n).map fun (c : Nat) => if k = (c : Int) then w else 0).sum = 0 := by
        apply List.sum_eq_zero
        intro x hx
        obtain ⟨c, hc, rfl⟩ := List.mem_map.mp hx
        rw [List.mem_range] at hc
        rw [if_neg (by omega)]
      rw [this, zero_add]
    · rw [if_neg hk, add_zero, ih (by omega)]

theorem share_sum (n : Nat) (x : α) (h0 : 0 ≤ x) (h1 : x < n) :
    ((List.range n).map fun (c : Nat) => Share c x).sum = (axis n true x).2.1 + (axis n true x).2.2.2 := by
  obtain ⟨a1, a2, _, a4, a5, _⟩ := axis_spec n true x h0 h1
  have : ((List.range n).map fun (c : Nat) => Share c x) = (List.range n).map fun (c : Nat) =>
      (if (axis n true x).1 = (c : Int) then (axis n true x).2.1 else 0) + (if (axis n true x).2.2.1 = (c : Int) then (axis n true x).2.2.2 else 0) := by
    apply List.map_congr_left
    intro c hc
    exact (axis_share n x h0 h1 c (List.mem_range.mp hc)).symm
  rw [this, List.sum_map_add, sum_ite_range n _ _ a1 a2, sum_ite_range n _ _ a4 a5]

/-- The shares of a position in the grid sum to at most one, to at least half, and to one if the position is half a cell from the ends. -/
theorem share_total (n : Nat) (x : α) (h0 : 0 ≤ x) (h1 : x < n) :
    ((List.range n).map fun (c : Nat) => Share c x).sum ≤ 1 ∧ 1 / 2 ≤ ((List.range n).map fun (c : Nat) => Share c x).sum ∧
      (1 / 2 ≤ x → x ≤ n - 1 / 2 → ((List.range n).map fun (c : Nat) => Share c x).sum = 1) := by
  obtain ⟨_, _, _, _, _, a6, a7, a8⟩ := axis_spec n true x h0 h1
  rw [share_sum n x h0 h1]
  refine ⟨a7, ?_, fun b1 b2 => a8 (Or.inr ⟨b1, b2⟩)⟩
  have : (axis n true x).2.1 = 1 - |(⌊x⌋ : α) + 1 / 2 - x| := rfl
  have h2 : |(⌊x⌋ : α) + 1 / 2 - x| ≤ 1 / 2 := by
    rw [abs_le]; have := Int.floor_le x; have := Int.lt_floor_add_one x; constructor <;> linarith
  linarith

theorem addAt_cell (parts : List (Int × α)) : ∀ (field : List α), (∀ c ∈ parts, 0 ≤ c.1 ∧ c.1 < field.length) →
    ∃ out, addAt field parts = .ok out ∧ out.length = field.length ∧
      ∀ k < field.length, out.getD k 0 = field.getD k 0 + (parts.map fun c => if c.1 = (k : Int) then c.2 else 0).sum := by
  induction parts with
  | nil => intro field _; exact ⟨field, rfl, rfl, by simp⟩
  | cons c rest ih =>
    intro field h
    obtain ⟨k, v⟩ := c
    obtain ⟨h0, h1⟩ := h (k, v) (by simp)
    simp only at h0 h1
    unfold addAt
    simp only [if_neg (not_lt.mpr h0), if_pos (And.intro h0 h1)]
    obtain ⟨out, ho, hl, hs⟩ := ih (field.set k.toNat (field.getD k.toNat 0 + v)) (by
      intro c hc
      rw [List.length_set]
      exact h c (by simp [hc]))
    rw [List.length_set] at hl hs
    refine ⟨out, ho, hl, fun j hj => ?_⟩
    rw [hs j hj, List.map_cons, List.sum_cons]
    dsimp only
    by_cases hjk : k = (j : Int)
    · have e : k.toNat = j := by omega
      rw [if_pos hjk, e, List.getD_eq_getElem?_getD, List.getElem?_set_self hj, Option.getD_some]
      ring
    · have e : k.toNat ≠ j := by omega
      rw [if_neg hjk, List.getD_eq_getElem?_getD, List.getElem?_set_ne e, ← List.getD_eq_getElem?_getD]
      ring

theorem flat_eq2 (n : Nat) (a b : Int) (c d : Nat) (a0 : 0 ≤ a) (a1 : a < n) (hc : c < n) :
    a + b * n = ((c + d * n : Nat) : Int) ↔ a = (c : Int) ∧ b = (d : Int) := by
  constructor
  · intro h
    push_cast at h
    have h3 : (a + b * n) % n = ((c : Int) + d * n) % n := by rw [h]
    rw [Int.add_mul_emod_self_right, Int.add_mul_emod_self_right, Int.emod_eq_of_lt a0 a1, Int.emod_eq_of_lt (by omega) (by omega)] at h3
    refine ⟨h3, ?_⟩
    rw [h3] at h
    have : b * n = (d : Int) * n := by omega
    exact Int.eq_of_mul_eq_mul_right (by omega) this
  · rintro ⟨rfl, rfl⟩; push_cast; ring

theorem ite_and_mul (p q : Prop) [Decidable p] [Decidable q] (v w : α) :
    (if p ∧ q then v * w else 0) = (if p then v else 0) * (if q then w else 0) := by
  by_cases hp : p <;> by_cases hq : q <;> simp [hp, hq]

/-- One sample in a cell of a field with two axes. -/
theorem corners_cell2 (nx ny : Nat) (s : Sample α) (hx : 0 ≤ s.x ∧ s.x < nx) (hy : 0 ≤ s.y ∧ s.y < ny) (c d : Nat) (hc : c < nx) (hd : d < ny) :
    ((corners 2 nx ny 1 true s).map fun p => if p.1 = ((c + d * nx : Nat) : Int) then p.2 else 0).sum = Share c s.x * Share d s.y := by
  rw [← axis_share nx s.x hx.1 hx.2 c hc, ← axis_share ny s.y hy.1 hy.2 d hd]
  obtain ⟨x1, x2, x3, x4, x5, _⟩ := axis_spec nx true s.x hx.1 hx.2
  generalize hax : axis nx true s.x = ax at *
  obtain ⟨kx1, wx1, kx2, wx2⟩ := ax
  generalize hay : axis ny true s.y = ay at *
  obtain ⟨ky1, wy1, ky2, wy2⟩ := ay
  simp only at x1 x2 x3 x4 x5
  simp only [corners, hax, hay, show (2 ≤ 2) by omega, if_true, show ¬ ((2 : Nat) = 3) by omega, if_false, List.append_nil, List.cons_append, List.nil_append,
    List.map_cons, List.map_nil, List.sum_cons, List.sum_nil, zero_mul, add_zero, mul_one]
  simp only [flat_eq2 nx kx1 _ c d x1 x2 hc, flat_eq2 nx kx2 _ c d x4 x5 hc, ite_and_mul]
  ring

/-- One sample in a cell of a field with three axes. -/
theorem corners_cell3 (nx ny nz : Nat) (s : Sample α) (hx : 0 ≤ s.x ∧ s.x < nx) (hy : 0 ≤ s.y ∧ s.y < ny) (hz : 0 ≤ s.z ∧ s.z < nz) (c d e : Nat)
    (hc : c < nx) (hd : d < ny) (he : e < nz) :
    ((corners 3 nx ny nz true s).map fun p => if p.1 = ((c + d * nx + e * (nx * ny) : Nat) : Int) then p.2 else 0).sum =
      Share c s.x * Share d s.y * Share e s.z := by
  rw [← axis_share nx s.x hx.1 hx.2 c hc, ← axis_share ny s.y hy.1 hy.2 d hd, ← axis_share nz s.z hz.1 hz.2 e he]
  obtain ⟨x1, x2, x3, x4, x5, _⟩ := axis_spec nx true s.x hx.1 hx.2
  obtain ⟨y1, y2, y3, y4, y5, _⟩ := axis_spec ny true s.y hy.1 hy.2
  generalize hax : axis nx true s.x = ax at *
  obtain ⟨kx1, wx1, kx2, wx2⟩ := ax
  generalize hay : axis ny true s.y = ay at *
  obtain ⟨ky1, wy1, ky2, wy2⟩ := ay
  generalize haz : axis nz true s.z = az at *
  obtain ⟨kz1, wz1, kz2, wz2⟩ := az
  simp only at x1 x2 x3 x4 x5 y1 y2 y3 y4 y5
  have hcd : c + d * nx < nx * ny := by
    have := (flat_index (c : Int) d nx ny (by omega) (by omega) (by omega) (by omega)).2
    exact_mod_cast this
  have key : ∀ kx ky kz : Int, 0 ≤ kx → kx < nx → 0 ≤ ky → ky < ny →
      (kx + ky * nx + kz * (nx * ny) = ((c + d * nx + e * (nx * ny) : Nat) : Int) ↔ (kx = (c : Int) ∧ ky = (d : Int)) ∧ kz = (e : Int)) := by
    intro kx ky kz a1 a2 a3 a4
    obtain ⟨b1, b2⟩ := flat_index kx ky nx ny a1 a2 a3 a4
    have h := flat_eq2 (nx * ny) (kx + ky * nx) kz (c + d * nx) e b1 (by push_cast; exact b2) hcd
    rw [← flat_eq2 nx kx ky c d a1 a2 hc, ← h]
    push_cast
    rfl
  simp only [corners, hax, hay, haz, show (2 ≤ 3) by omega, if_true, List.cons_append, List.nil_append,
    List.map_cons, List.map_nil, List.sum_cons, List.sum_nil, add_zero]
  simp only [key kx1 ky1 _ x1 x2 y1 y2, key kx2 ky1 _ x4 x5 y1 y2, key kx1 ky2 _ x1 x2 y4 y5, key kx2 ky2 _ x4 x5 y4 y5, ite_and_mul]
  ring

theorem sum_flatMap_parts (k : Int) (f : Sample α → List (Int × α)) (samples : List (Sample α)) :
    ((samples.flatMap fun s => (f s).map fun c => (c.1, c.2 * s.value)).map fun c => if c.1 = k then c.2 else 0).sum =
      (samples.map fun s => s.value * ((f s).map fun c => if c.1 = k then c.2 else 0).sum).sum := by
  induction samples with
  | nil => rfl
  | cons s ss ih =>
    rw [List.flatMap_cons, List.map_append, List.sum_append, ih, List.map_cons, List.sum_cons, List.map_map]
    congr 1
    rw [← List.sum_map_mul_left]
    congr 1
    apply List.map_congr_left
    intro c _
    simp only [Function.comp]
    by_cases h : c.1 = k
    · simp [h, mul_comm]
    · simp [h]

/-- C285.  Every cell of a field with two axes is the sum over the samples of value times shares. -/
theorem C285_cells2 (nx ny : Nat) (samples : List (Sample α)) (h : ∀ s ∈ samples, (0 ≤ s.x ∧ s.x < nx) ∧ 0 ≤ s.y ∧ s.y < ny) (nz : Nat) :
    ∃ f, cic 2 nx ny nz true false samples = .ok f ∧ f.length = nx * ny ∧
      ∀ c < nx, ∀ d < ny, f.getD (c + d * nx) 0 = (samples.map fun s => s.value * (Share c s.x * Share d s.y)).sum := by
  have hin : ∀ s ∈ samples, InGrid 2 nx ny 1 s := fun s hs => ⟨(h s hs).1, fun _ => (h s hs).2, fun h => absurd h (by omega)⟩
  obtain ⟨out, ho, hl, hcell⟩ := addAt_cell (samples.flatMap fun s => (corners 2 nx ny 1 true s).map fun c => (c.1, c.2 * s.value))
    (List.replicate (nx * ny * 1) (0 : α)) (by
      intro c hcm
      obtain ⟨s, hsm, hcs⟩ := List.mem_flatMap.mp hcm
      obtain ⟨c', hc', rfl⟩ := List.mem_map.mp hcs
      rw [List.length_replicate]
      exact ((corners_spec 2 nx ny 1 (by simp) (by omega) (by simp) true s (hin s hsm)).1 c' hc').1)
  rw [List.length_replicate, mul_one] at hl hcell
  refine ⟨out, ?_, hl, fun c hc d hd => ?_⟩
  · unfold cic
    simp only [show ¬ ((2 : Nat) = 1) by omega, if_false, show (2 : Nat) ≤ 2 by omega, if_true]
    rw [ho]
    rfl
  · have hcd : c + d * nx < nx * ny := by
      have := (flat_index (c : Int) d nx ny (by omega) (by omega) (by omega) (by omega)).2
      exact_mod_cast this
    rw [hcell _ hcd, sum_flatMap_parts]
    have : (List.replicate (nx * ny) (0 : α)).getD (c + d * nx) 0 = 0 := by
      rw [List.getD_eq_getElem?_getD, List.getElem?_replicate]; split <;> rfl
    rw [this, zero_add]
    congr 1
    apply List.map_congr_left
    intro s hs
    rw [corners_cell2 nx ny s (h s hs).1 (h s hs).2 c d hc hd]

/-- C285.  The same with three axes. -/
theorem C285_cells3 (nx ny nz : Nat) (samples : List (Sample α))
    (h : ∀ s ∈ samples, (0 ≤ s.x ∧ s.x < nx) ∧ (0 ≤ s.y ∧ s.y < ny) ∧ 0 ≤ s.z ∧ s.z < nz) :
    ∃ f, cic 3 nx ny nz true false samples = .ok f ∧ f.length = nx * ny * nz ∧
      ∀ c < nx, ∀ d < ny, ∀ e < nz,
        f.getD (c + d * nx + e * (nx * ny)) 0 = (samples.map fun s => s.value * (Share c s.x * Share d s.y * Share e s.z)).sum := by
  have hin : ∀ s ∈ samples, InGrid 3 nx ny nz s := fun s hs => ⟨(h s hs).1, fun _ => (h s hs).2.1, fun _ => (h s hs).2.2⟩
  obtain ⟨out, ho, hl, hcell⟩ := addAt_cell (samples.flatMap fun s => (corners 3 nx ny nz true s).map fun c => (c.1, c.2 * s.value))
    (List.replicate (nx * ny * nz) (0 : α)) (by
      intro c hcm
      obtain ⟨s, hsm, hcs⟩ := List.mem_flatMap.mp hcm
      obtain ⟨c', hc', rfl⟩ := List.mem_map.mp hcs
      rw [List.length_replicate]
      exact ((corners_spec 3 nx ny nz (by simp) (by omega) (by omega) true s (hin s hsm)).1 c' hc').1)
  rw [List.length_replicate] at hl hcell
  refine ⟨out, ?_, hl, fun c hc d hd e he => ?_⟩
  · unfold cic
    simp only [show ¬ ((3 : Nat) = 1) by omega, if_false, show ¬ ((3 : Nat) ≤ 2) by omega]
    rw [ho]
    rfl
  · have hcd := (flat_index (c : Int) d nx ny (by omega) (by omega) (by omega) (by omega))
    have hcde : c + d * nx + e * (nx * ny) < nx * ny * nz := by
      have := (flat_index ((c : Int) + d * nx) e (nx * ny) nz hcd.1 hcd.2 (by omega) (by omega)).2
      exact_mod_cast this
    rw [hcell _ hcde, sum_flatMap_parts]
    have : (List.replicate (nx * ny * nz) (0 : α)).getD (c + d * nx + e * (nx * ny)) 0 = 0 := by
      rw [List.getD_eq_getElem?_getD, List.getElem?_replicate]; split <;> rfl
    rw [this, zero_add]
    congr 1
    apply List.map_congr_left
    intro s hs
    rw [corners_cell3 nx ny nz s (h s hs).1 (h s hs).2.1 (h s hs).2.2 c d e hc hd he]

/-! ## C285: the tables -/

/-- Share of a value in bin `k` of `n` bins over a range. -/
def Weight (n : Nat) (r : α × α) (k : Nat) (x : α) : α := max 0 (1 - |(k : α) + 1 / 2 - (x - r.1) * n / (r.2 - r.1)|)

/-- The value is in the range. -/
def In (r : α × α) (x : α) : Prop := r.1 ≤ x ∧ x < r.2

instance (r : α × α) (x : α) : Decidable (In r x) := inferInstanceAs (Decidable (_ ∧ _))

/-- The galaxies in the ranges of a color and of magnitude. -/
def Counted1 (r : α × α) (limmag : α) (i : Nat) (gals : List (CGal α)) : List (CGal α) :=
  gals.filter fun g => decide (In r (g.col i) ∧ In (12, limmag) g.refmag)

/-- The galaxies in the ranges of two colors and of magnitude. -/
def Counted2 (ri rj : α × α) (limmag : α) (i j : Nat) (gals : List (CGal α)) : List (CGal α) :=
  gals.filter fun g => decide (In ri (g.col i) ∧ In rj (g.col j) ∧ In (12, limmag) g.refmag)

theorem filter_bad1 (r : α × α) (limmag : α) (i : Nat) (gals : List (CGal α)) : (gals.filter fun g => !bad1 r limmag i g) = Counted1 r limmag i gals := by
  apply List.filter_congr
  intro g _
  rw [Bool.eq_iff_iff, decide_eq_true_iff]
  simp only [bad1, In, Bool.not_eq_true', Bool.or_eq_false_iff, decide_eq_false_iff_not, not_lt, ge_iff_le, not_le]
  tauto

theorem filter_bad2 (ri rj : α × α) (limmag : α) (i j : Nat) (gals : List (CGal α)) :
    (gals.filter fun g => !bad2 ri rj limmag i j g) = Counted2 ri rj limmag i j gals := by
  apply List.filter_congr
  intro g _
  rw [Bool.eq_iff_iff, decide_eq_true_iff]
  simp only [bad2, In, Bool.not_eq_true', Bool.or_eq_false_iff, decide_eq_false_iff_not, not_lt, ge_iff_le, not_le]
  tauto

/-- Counts of one color: value at color bin `c` and magnitude bin `m`. -/
def Density1 (nc nm : Nat) (r : α × α) (limmag cbs mbs : α) (i : Nat) (gals : List (CGal α)) (c m : Nat) : α :=
  ((Counted1 r limmag i gals).map fun g => Weight nc r c (g.col i) * Weight nm (12, limmag) m g.refmag).sum / (mbs * cbs)

/-- Counts of a pair of colors. -/
def Density2 (n1 n2 nm : Nat) (ri rj : α × α) (limmag cbs mbs : α) (i j : Nat) (gals : List (CGal α)) (c d m : Nat) : α :=
  ((Counted2 ri rj limmag i j gals).map fun g =>
    Weight n1 ri c (g.col i) * Weight n2 rj d (g.col j) * Weight nm (12, limmag) m g.refmag).sum / (mbs * cbs * cbs)

/-- C285.  The table of a color: at every color and magnitude the sum over the galaxies in the ranges of the product of their shares, over the bin
sizes; per magnitude, the integral of this over the color. -/
theorem C285_color (r : α × α) (limmag cbs mbs : α) (hr : r.1 < r.2) (hl : 12 < limmag) (hc : 0 < cbs) (hm : 0 < mbs) (i : Nat) (gals : List (CGal α)) :
    ∃ t, table1 r limmag cbs mbs i gals = .ok t ∧ t.bc.length = nbins r cbs * nbins (12, limmag) mbs ∧ t.n.length = nbins (12, limmag) mbs ∧
      (∀ c < nbins r cbs, ∀ m < nbins (12, limmag) mbs,
        t.bc.getD (c + m * nbins r cbs) 0 = Density1 (nbins r cbs) (nbins (12, limmag) mbs) r limmag cbs mbs i gals c m) ∧
      ∀ m < nbins (12, limmag) mbs,
        t.n.getD m 0 = ((List.range (nbins r cbs)).map fun c => Density1 (nbins r cbs) (nbins (12, limmag) mbs) r limmag cbs mbs i gals c m).sum * cbs := by
  obtain ⟨f, hf, hlen, hcell⟩ := C285_cells2 (nbins r cbs) (nbins (12, limmag) mbs)
    ((Counted1 r limmag i gals).map fun g => (⟨1, pos r cbs (g.col i), pos (12, limmag) mbs g.refmag, 0⟩ : Sample α)) (by
      intro s hs
      obtain ⟨g, hg, rfl⟩ := List.mem_map.mp hs
      obtain ⟨h1, h2⟩ := of_decide_eq_true (List.mem_filter.mp hg).2
      exact ⟨pos_range r cbs _ hr hc h1.1 h1.2, pos_range (12, limmag) mbs _ hl hm h2.1 h2.2⟩) 1
  have hbc : ∀ c < nbins r cbs, ∀ m < nbins (12, limmag) mbs,
      (f.map fun v => v / (mbs * cbs)).getD (c + m * nbins r cbs) 0 = Density1 (nbins r cbs) (nbins (12, limmag) mbs) r limmag cbs mbs i gals c m := by
    intro c hc' m hm'
    have : (f.map fun v => v / (mbs * cbs)).getD (c + m * nbins r cbs) 0 = f.getD (c + m * nbins r cbs) 0 / (mbs * cbs) := by
      rw [List.getD_eq_getElem?_getD, List.getD_eq_getElem?_getD, List.getElem?_map]
      cases f[c + m * nbins r cbs]? <;> simp
    rw [this, hcell c hc' m hm', List.map_map]
    unfold Density1
    congr 2
    apply List.map_congr_left
    intro g _
    simp only [Function.comp, one_mul]
    rfl
  unfold table1
  simp only [filter_bad1, hf]
  refine ⟨_, rfl, by simp [hlen], by simp, hbc, fun m hm' => ?_⟩
  rw [List.getD_eq_getElem?_getD, List.getElem?_map, List.getElem?_range hm', Option.map_some, Option.getD_some]
  congr 2
  apply List.map_congr_left
  intro c hc'
  exact hbc c (List.mem_range.mp hc') m hm'

/-- C285.  The table of a pair of colors. -/
theorem C285_pair (ri rj : α × α) (limmag cbs mbs : α) (hi : ri.1 < ri.2) (hj : rj.1 < rj.2) (hl : 12 < limmag) (hc : 0 < cbs) (hm : 0 < mbs) (i j : Nat)
    (gals : List (CGal α)) :
    ∃ t, table2 ri rj limmag cbs mbs i j gals = .ok t ∧ t.bc.length = nbins ri cbs * nbins rj cbs * nbins (12, limmag) mbs ∧
      t.n.length = nbins (12, limmag) mbs ∧
      (∀ c < nbins ri cbs, ∀ d < nbins rj cbs, ∀ m < nbins (12, limmag) mbs, t.bc.getD (c + d * nbins ri cbs + m * (nbins ri cbs * nbins rj cbs)) 0 =
        Density2 (nbins ri cbs) (nbins rj cbs) (nbins (12, limmag) mbs) ri rj limmag cbs mbs i j gals c d m) ∧
      ∀ m < nbins (12, limmag) mbs, t.n.getD m 0 = ((List.range (nbins rj cbs)).map fun d => ((List.range (nbins ri cbs)).map fun c =>
        Density2 (nbins ri cbs) (nbins rj cbs) (nbins (12, limmag) mbs) ri rj limmag cbs mbs i j gals c d m).sum * cbs).sum * cbs := by
  obtain ⟨f, hf, hlen, hcell⟩ := C285_cells3 (nbins ri cbs) (nbins rj cbs) (nbins (12, limmag) mbs)
    ((Counted2 ri rj limmag i j gals).map fun g =>
      (⟨1, pos ri cbs (g.col i), pos rj cbs (g.col j), pos (12, limmag) mbs g.refmag⟩ : Sample α)) (by
      intro s hs
      obtain ⟨g, hg, rfl⟩ := List.mem_map.mp hs
      obtain ⟨h1, h2, h3⟩ := of_decide_eq_true (List.mem_filter.mp hg).2
      exact ⟨pos_range ri cbs _ hi hc h1.1 h1.2, pos_range rj cbs _ hj hc h2.1 h2.2, pos_range (12, limmag) mbs _ hl hm h3.1 h3.2⟩)
  have hbc : ∀ c < nbins ri cbs, ∀ d < nbins rj cbs, ∀ m < nbins (12, limmag) mbs,
      (f.map fun v => v / (mbs * cbs * cbs)).getD (c + d * nbins ri cbs + m * (nbins ri cbs * nbins rj cbs)) 0 =
        Density2 (nbins ri cbs) (nbins rj cbs) (nbins (12, limmag) mbs) ri rj limmag cbs mbs i j gals c d m := by
    intro c hc' d hd' m hm'
    have : (f.map fun v => v / (mbs * cbs * cbs)).getD (c + d * nbins ri cbs + m * (nbins ri cbs * nbins rj cbs)) 0 =
        f.getD (c + d * nbins ri cbs + m * (nbins ri cbs * nbins rj cbs)) 0 / (mbs * cbs * cbs) := by
      rw [List.getD_eq_getElem?_getD, List.getD_eq_getElem?_getD, List.getElem?_map]
      cases f[c + d * nbins ri cbs + m * (nbins ri cbs * nbins rj cbs)]? <;> simp
    rw [this, hcell c hc' d hd' m hm', List.map_map]
    unfold Density2
    congr 2
    apply List.map_congr_left
    intro g _
    simp only [Function.comp, one_mul]
    rfl
  unfold table2
  simp only [filter_bad2, hf]
  refine ⟨_, rfl, by simp [hlen], by simp, hbc, fun m hm' => ?_⟩
  rw [List.getD_eq_getElem?_getD, List.getElem?_map, List.getElem?_range hm', Option.map_some, Option.getD_some]
  congr 2
  apply List.map_congr_left
  intro d hd'
  congr 2
  apply List.map_congr_left
  intro c hc'
  exact hbc c (List.mem_range.mp hc') d (List.mem_range.mp hd') m hm'

/-! ## C286: pairs and single colors -/

theorem sum_swap {β γ : Type} (f : β → γ → α) (l : List β) (l' : List γ) :
    (l.map fun a => (l'.map fun b => f a b).sum).sum = (l'.map fun b => (l.map fun a => f a b).sum).sum := by
  induction l with
  | nil => simp
  | cons a l ih => simp only [List.map_cons, List.sum_cons, ih, ← List.sum_map_add]

/-- Sum of the shares of a value over all bins. -/
def Cover (n : Nat) (r : α × α) (x : α) : α := ((List.range n).map fun (k : Nat) => Weight n r k x).sum

theorem cover_bounds (r : α × α) (bs x : α) (hr : r.1 < r.2) (hb : 0 < bs) (hx : In r x) :
    Cover (nbins r bs) r x ≤ 1 ∧ 1 / 2 ≤ Cover (nbins r bs) r x ∧
      (1 / 2 ≤ (x - r.1) * (nbins r bs : α) / (r.2 - r.1) → (x - r.1) * (nbins r bs : α) / (r.2 - r.1) ≤ (nbins r bs : α) - 1 / 2 → Cover (nbins r bs) r x = 1) := by
  obtain ⟨h0, h1⟩ := pos_range r bs x hr hb hx.1 hx.2
  exact share_total (nbins r bs) (pos r bs x) h0 h1

theorem weight_nonneg (n : Nat) (r : α × α) (k : Nat) (x : α) : 0 ≤ Weight n r k x := le_max_left _ _

/-- The galaxies of a pair are those of the first color that are in the range of the second. -/
theorem counted2_eq (ri rj : α × α) (limmag : α) (i j : Nat) (gals : List (CGal α)) :
    Counted2 ri rj limmag i j gals = (Counted1 ri limmag i gals).filter fun g => decide (In rj (g.col j)) := by
  unfold Counted2 Counted1
  rw [List.filter_filter]
  apply List.filter_congr
  intro g _
  rw [Bool.eq_iff_iff]
  simp only [Bool.and_eq_true, decide_eq_true_eq]
  tauto

theorem counted2_eq' (ri rj : α × α) (limmag : α) (i j : Nat) (gals : List (CGal α)) :
    Counted2 ri rj limmag i j gals = (Counted1 rj limmag j gals).filter fun g => decide (In ri (g.col i)) := by
  unfold Counted2 Counted1
  rw [List.filter_filter]
  apply List.filter_congr
  intro g _
  rw [Bool.eq_iff_iff]
  simp only [Bool.and_eq_true, decide_eq_true_eq]

theorem sum_filter_le {β : Type} (p : β → Bool) (f g : β → α) (l : List β) (h : ∀ x ∈ l, p x = true → f x ≤ g x) (h0 : ∀ x ∈ l, 0 ≤ g x) :
    ((l.filter p).map f).sum ≤ (l.map g).sum := by
  induction l with
  | nil => simp
  | cons a l ih =>
    have ih' := ih (fun x hx => h x (by simp [hx])) (fun x hx => h0 x (by simp [hx]))
    by_cases hp : p a = true
    · rw [List.filter_cons_of_pos hp, List.map_cons, List.map_cons, List.sum_cons, List.sum_cons]
      have := h a (by simp) hp
      linarith
    · rw [List.filter_cons_of_neg hp, List.map_cons, List.sum_cons]
      have := h0 a (by simp)
      linarith

/-- The counts of a pair, integrated over the second color. -/
theorem pair_over_second (n1 nm : Nat) (ri rj : α × α) (limmag cbs mbs : α) (hc : 0 < cbs) (i j : Nat) (gals : List (CGal α)) (c m : Nat) :
    ((List.range (nbins rj cbs)).map fun d => Density2 n1 (nbins rj cbs) nm ri rj limmag cbs mbs i j gals c d m).sum * cbs =
      ((Counted2 ri rj limmag i j gals).map fun g =>
        Weight n1 ri c (g.col i) * Cover (nbins rj cbs) rj (g.col j) * Weight nm (12, limmag) m g.refmag).sum / (mbs * cbs) := by
  unfold Density2
  have e : ((List.range (nbins rj cbs)).map fun d => ((Counted2 ri rj limmag i j gals).map fun g =>
      Weight n1 ri c (g.col i) * Weight (nbins rj cbs) rj d (g.col j) * Weight nm (12, limmag) m g.refmag).sum / (mbs * cbs * cbs)).sum =
      ((List.range (nbins rj cbs)).map fun d => ((Counted2 ri rj limmag i j gals).map fun g =>
      Weight n1 ri c (g.col i) * Weight (nbins rj cbs) rj d (g.col j) * Weight nm (12, limmag) m g.refmag).sum).sum / (mbs * cbs * cbs) := by
    simp only [div_eq_mul_inv]
    rw [List.sum_map_mul_right]
  rw [e, sum_swap]
  have e2 : ∀ g : CGal α, ((List.range (nbins rj cbs)).map fun d =>
      Weight n1 ri c (g.col i) * Weight (nbins rj cbs) rj d (g.col j) * Weight nm (12, limmag) m g.refmag).sum =
      Weight n1 ri c (g.col i) * Cover (nbins rj cbs) rj (g.col j) * Weight nm (12, limmag) m g.refmag := by
    intro g
    unfold Cover
    rw [List.sum_map_mul_right, List.sum_map_mul_left]
  simp only [e2]
  field_simp

/-- The counts of a pair, integrated over the first color. -/
theorem pair_over_first (n2 nm : Nat) (ri rj : α × α) (limmag cbs mbs : α) (hc : 0 < cbs) (i j : Nat) (gals : List (CGal α)) (d m : Nat) :
    ((List.range (nbins ri cbs)).map fun c => Density2 (nbins ri cbs) n2 nm ri rj limmag cbs mbs i j gals c d m).sum * cbs =
      ((Counted2 ri rj limmag i j gals).map fun g =>
        Cover (nbins ri cbs) ri (g.col i) * Weight n2 rj d (g.col j) * Weight nm (12, limmag) m g.refmag).sum / (mbs * cbs) := by
  unfold Density2
  have e : ((List.range (nbins ri cbs)).map fun c => ((Counted2 ri rj limmag i j gals).map fun g =>
      Weight (nbins ri cbs) ri c (g.col i) * Weight n2 rj d (g.col j) * Weight nm (12, limmag) m g.refmag).sum / (mbs * cbs * cbs)).sum =
      ((List.range (nbins ri cbs)).map fun c => ((Counted2 ri rj limmag i j gals).map fun g =>
      Weight (nbins ri cbs) ri c (g.col i) * Weight n2 rj d (g.col j) * Weight nm (12, limmag) m g.refmag).sum).sum / (mbs * cbs * cbs) := by
    simp only [div_eq_mul_inv]
    rw [List.sum_map_mul_right]
  rw [e, sum_swap]
  have e2 : ∀ g : CGal α, ((List.range (nbins ri cbs)).map fun c =>
      Weight (nbins ri cbs) ri c (g.col i) * Weight n2 rj d (g.col j) * Weight nm (12, limmag) m g.refmag).sum =
      Cover (nbins ri cbs) ri (g.col i) * Weight n2 rj d (g.col j) * Weight nm (12, limmag) m g.refmag := by
    intro g
    unfold Cover
    rw [List.sum_map_mul_right, List.sum_map_mul_right]
  simp only [e2]
  field_simp

/-- C286 as one would state it: integrated over the second color, the table of a pair is the table of the first. -/
def Marginal (ri rj : α × α) (limmag cbs mbs : α) (i j : Nat) (gals : List (CGal α)) : Prop :=
  ∀ t1 t2, table1 ri limmag cbs mbs i gals = .ok t1 → table2 ri rj limmag cbs mbs i j gals = .ok t2 →
    ∀ c < nbins ri cbs, ∀ m < nbins (12, limmag) mbs,
      ((List.range (nbins rj cbs)).map fun d => t2.bc.getD (c + d * nbins ri cbs + m * (nbins ri cbs * nbins rj cbs)) 0).sum * cbs =
        t1.bc.getD (c + m * nbins ri cbs) 0

/-- C286.  The table of a pair, integrated over one of its colors, is nowhere above the table of the other color. -/
theorem C286_below (ri rj : α × α) (limmag cbs mbs : α) (hi : ri.1 < ri.2) (hj : rj.1 < rj.2) (hl : 12 < limmag) (hc : 0 < cbs) (hm : 0 < mbs) (i j : Nat)
    (gals : List (CGal α)) (ti tj t2 : Tab α) (h1 : table1 ri limmag cbs mbs i gals = .ok ti) (h1' : table1 rj limmag cbs mbs j gals = .ok tj)
    (h2 : table2 ri rj limmag cbs mbs i j gals = .ok t2) (m : Nat) (hmm : m < nbins (12, limmag) mbs) :
    (∀ c < nbins ri cbs, ((List.range (nbins rj cbs)).map fun d => t2.bc.getD (c + d * nbins ri cbs + m * (nbins ri cbs * nbins rj cbs)) 0).sum * cbs ≤
      ti.bc.getD (c + m * nbins ri cbs) 0) ∧
    ∀ d < nbins rj cbs, ((List.range (nbins ri cbs)).map fun c => t2.bc.getD (c + d * nbins ri cbs + m * (nbins ri cbs * nbins rj cbs)) 0).sum * cbs ≤
      tj.bc.getD (d + m * nbins rj cbs) 0 := by
  obtain ⟨t, e1, _, _, b1, _⟩ := C285_color ri limmag cbs mbs hi hl hc hm i gals
  obtain rfl := Except.ok.inj (h1.symm.trans e1)
  obtain ⟨t, e1', _, _, b1', _⟩ := C285_color rj limmag cbs mbs hj hl hc hm j gals
  obtain rfl := Except.ok.inj (h1'.symm.trans e1')
  obtain ⟨t, e2, _, _, b2, _⟩ := C285_pair ri rj limmag cbs mbs hi hj hl hc hm i j gals
  obtain rfl := Except.ok.inj (h2.symm.trans e2)
  constructor
  · intro c hcc
    have e : ((List.range (nbins rj cbs)).map fun d => t2.bc.getD (c + d * nbins ri cbs + m * (nbins ri cbs * nbins rj cbs)) 0) =
        (List.range (nbins rj cbs)).map fun d => Density2 (nbins ri cbs) (nbins rj cbs) (nbins (12, limmag) mbs) ri rj limmag cbs mbs i j gals c d m :=
      List.map_congr_left fun d hd => b2 c hcc d (List.mem_range.mp hd) m hmm
    rw [e, pair_over_second _ _ ri rj limmag cbs mbs hc, b1 c hcc m hmm, counted2_eq]
    unfold Density1
    apply div_le_div_of_nonneg_right _ (mul_pos hm hc).le
    apply sum_filter_le
    · intro g _ hg
      have hcov := (cover_bounds rj cbs (g.col j) hj hc (of_decide_eq_true hg)).1
      have w1 := weight_nonneg (nbins ri cbs) ri c (g.col i)
      have w2 := weight_nonneg (nbins (12, limmag) mbs) (12, limmag) m g.refmag
      apply mul_le_mul_of_nonneg_right _ w2
      exact mul_le_of_le_one_right w1 hcov
    · intro g _
      exact mul_nonneg (weight_nonneg _ _ _ _) (weight_nonneg _ _ _ _)
  · intro d hdd
    have e : ((List.range (nbins ri cbs)).map fun c => t2.bc.getD (c + d * nbins ri cbs + m * (nbins ri cbs * nbins rj cbs)) 0) =
        (List.range (nbins ri cbs)).map fun c => Density2 (nbins ri cbs) (nbins rj cbs) (nbins (12, limmag) mbs) ri rj limmag cbs mbs i j gals c d m :=
      List.map_congr_left fun c hc' => b2 c (List.mem_range.mp hc') d hdd m hmm
    rw [e, pair_over_first _ _ ri rj limmag cbs mbs hc, b1' d hdd m hmm, counted2_eq']
    unfold Density1
    apply div_le_div_of_nonneg_right _ (mul_pos hm hc).le
    apply sum_filter_le
    · intro g _ hg
      have hcov := (cover_bounds ri cbs (g.col i) hi hc (of_decide_eq_true hg)).1
      have w1 := weight_nonneg (nbins rj cbs) rj d (g.col j)
      have w2 := weight_nonneg (nbins (12, limmag) mbs) (12, limmag) m g.refmag
      apply mul_le_mul_of_nonneg_right _ w2
      exact mul_le_of_le_one_left w1 hcov
    · intro g _
      exact mul_nonneg (weight_nonneg _ _ _ _) (weight_nonneg _ _ _ _)

/-- A value in the range, and half a bin or more from its ends. -/
def Inside (r : α × α) (bs x : α) : Prop :=
  In r x ∧ 1 / 2 ≤ (x - r.1) * (nbins r bs : α) / (r.2 - r.1) ∧ (x - r.1) * (nbins r bs : α) / (r.2 - r.1) ≤ (nbins r bs : α) - 1 / 2

/-- C286, the part that holds: if the second color of every galaxy counted in the first is inside its range. -/
theorem C286_partial (ri rj : α × α) (limmag cbs mbs : α) (hi : ri.1 < ri.2) (hj : rj.1 < rj.2) (hl : 12 < limmag) (hc : 0 < cbs) (hm : 0 < mbs) (i j : Nat)
    (gals : List (CGal α)) (hin : ∀ g ∈ gals, In ri (g.col i) → In (12, limmag) g.refmag → Inside rj cbs (g.col j)) :
    Marginal ri rj limmag cbs mbs i j gals := by
  intro t1 t2 h1 h2 c hcc m hmm
  obtain ⟨t, e1, _, _, b1, _⟩ := C285_color ri limmag cbs mbs hi hl hc hm i gals
  obtain rfl := Except.ok.inj (h1.symm.trans e1)
  obtain ⟨t, e2, _, _, b2, _⟩ := C285_pair ri rj limmag cbs mbs hi hj hl hc hm i j gals
  obtain rfl := Except.ok.inj (h2.symm.trans e2)
  have e : ((List.range (nbins rj cbs)).map fun d => t2.bc.getD (c + d * nbins ri cbs + m * (nbins ri cbs * nbins rj cbs)) 0) =
      (List.range (nbins rj cbs)).map fun d => Density2 (nbins ri cbs) (nbins rj cbs) (nbins (12, limmag) mbs) ri rj limmag cbs mbs i j gals c d m :=
    List.map_congr_left fun d hd => b2 c hcc d (List.mem_range.mp hd) m hmm
  rw [e, pair_over_second _ _ ri rj limmag cbs mbs hc, b1 c hcc m hmm, counted2_eq]
  have hall : ∀ g ∈ Counted1 ri limmag i gals, Inside rj cbs (g.col j) := by
    intro g hg
    obtain ⟨hg1, hg2⟩ := List.mem_filter.mp hg
    obtain ⟨k1, k2⟩ := of_decide_eq_true hg2
    exact hin g hg1 k1 k2
  rw [List.filter_eq_self.mpr fun g hg => decide_eq_true (hall g hg).1]
  unfold Density1
  congr 2
  apply List.map_congr_left
  intro g hg
  obtain ⟨k1, k2, k3⟩ := hall g hg
  rw [(cover_bounds rj cbs (g.col j) hj hc k1).2.2 k2 k3, mul_one]

/-! ## C287: totals -/

/-- C287.  The counts per magnitude, integrated, are between a quarter of the galaxies counted and all of them, and all of them if none is in an outer
half bin. -/
theorem C287_color (r : α × α) (limmag cbs mbs : α) (hr : r.1 < r.2) (hl : 12 < limmag) (hc : 0 < cbs) (hm : 0 < mbs) (i : Nat) (gals : List (CGal α))
    (t : Tab α) (h : table1 r limmag cbs mbs i gals = .ok t) :
    t.n.sum * mbs ≤ (Counted1 r limmag i gals).length ∧ ((Counted1 r limmag i gals).length : α) / 4 ≤ t.n.sum * mbs ∧
    ((∀ g ∈ Counted1 r limmag i gals, Inside r cbs (g.col i) ∧ Inside (12, limmag) mbs g.refmag) →
      t.n.sum * mbs = (Counted1 r limmag i gals).length) := by
  obtain ⟨t', e1, _, hn, _, b⟩ := C285_color r limmag cbs mbs hr hl hc hm i gals
  obtain rfl := Except.ok.inj (h.symm.trans e1)
  have e : t.n = (List.range (nbins (12, limmag) mbs)).map fun m =>
      ((List.range (nbins r cbs)).map fun c => Density1 (nbins r cbs) (nbins (12, limmag) mbs) r limmag cbs mbs i gals c m).sum * cbs := by
    apply List.ext_getElem (by simp [hn])
    intro k h1 h2
    have := b k (by simpa using h2)
    rw [List.getD_eq_getElem?_getD, List.getElem?_eq_getElem h1, Option.getD_some] at this
    rw [this]; simp
  have key : t.n.sum * mbs = ((Counted1 r limmag i gals).map fun g =>
      Cover (nbins r cbs) r (g.col i) * Cover (nbins (12, limmag) mbs) (12, limmag) g.refmag).sum := by
    rw [e]
    unfold Density1
    have e2 : ∀ m, ((List.range (nbins r cbs)).map fun c => ((Counted1 r limmag i gals).map fun g =>
        Weight (nbins r cbs) r c (g.col i) * Weight (nbins (12, limmag) mbs) (12, limmag) m g.refmag).sum / (mbs * cbs)).sum * cbs =
        ((Counted1 r limmag i gals).map fun g =>
          Cover (nbins r cbs) r (g.col i) * Weight (nbins (12, limmag) mbs) (12, limmag) m g.refmag).sum * mbs⁻¹ := by
      intro m
      simp only [div_eq_mul_inv]
      rw [List.sum_map_mul_right, sum_swap]
      have : ∀ g : CGal α, ((List.range (nbins r cbs)).map fun c =>
          Weight (nbins r cbs) r c (g.col i) * Weight (nbins (12, limmag) mbs) (12, limmag) m g.refmag).sum =
          Cover (nbins r cbs) r (g.col i) * Weight (nbins (12, limmag) mbs) (12, limmag) m g.refmag := by
        intro g; unfold Cover; rw [List.sum_map_mul_right]
      simp only [this]
      field_simp
    simp only [e2]
    rw [List.sum_map_mul_right, sum_swap, mul_assoc, inv_mul_cancel₀ hm.ne', mul_one]
    congr 1
    apply List.map_congr_left
    intro g _
    rw [List.sum_map_mul_left]
    rfl
  have hg : ∀ g ∈ Counted1 r limmag i gals, In r (g.col i) ∧ In (12, limmag) g.refmag := fun g hg => of_decide_eq_true (List.mem_filter.mp hg).2
  rw [key]
  generalize Counted1 r limmag i gals = l at hg
  refine ⟨?_, ?_, ?_⟩
  · induction l with
    | nil => simp
    | cons a l ih =>
      have := ih fun g h => hg g (by simp [h])
      obtain ⟨k1, k2⟩ := hg a (by simp)
      obtain ⟨u1, u2, _⟩ := cover_bounds r cbs _ hr hc k1
      obtain ⟨v1, v2, _⟩ := cover_bounds (12, limmag) mbs _ hl hm k2
      rw [List.map_cons, List.sum_cons, List.length_cons]
      push_cast
      have := mul_le_one₀ u1 (by linarith [show (0 : α) < 1 / 2 by norm_num] : 0 ≤ Cover (nbins (12, limmag) mbs) (12, limmag) a.refmag) v1
      linarith
  · induction l with
    | nil => simp
    | cons a l ih =>
      have := ih fun g h => hg g (by simp [h])
      obtain ⟨k1, k2⟩ := hg a (by simp)
      obtain ⟨u1, u2, _⟩ := cover_bounds r cbs _ hr hc k1
      obtain ⟨v1, v2, _⟩ := cover_bounds (12, limmag) mbs _ hl hm k2
      rw [List.map_cons, List.sum_cons, List.length_cons]
      push_cast
      nlinarith
  · intro hin
    induction l with
    | nil => simp
    | cons a l ih =>
      have := ih (fun g h => hg g (by simp [h])) (fun g h => hin g (by simp [h]))
      obtain ⟨k1, k2⟩ := hin a (by simp)
      rw [List.map_cons, List.sum_cons, List.length_cons, this, (cover_bounds r cbs _ hr hc k1.1).2.2 k1.2.1 k1.2.2,
        (cover_bounds (12, limmag) mbs _ hl hm k2.1).2.2 k2.2.1 k2.2.2]
      push_cast
      ring

/-- C287.  At every magnitude the counts of a pair are at most those of each of its colors. -/
theorem C287_pair (ri rj : α × α) (limmag cbs mbs : α) (hi : ri.1 < ri.2) (hj : rj.1 < rj.2) (hl : 12 < limmag) (hc : 0 < cbs) (hm : 0 < mbs) (i j : Nat)
    (gals : List (CGal α)) (ti tj t2 : Tab α) (h1 : table1 ri limmag cbs mbs i gals = .ok ti) (h1' : table1 rj limmag cbs mbs j gals = .ok tj)
    (h2 : table2 ri rj limmag cbs mbs i j gals = .ok t2) (m : Nat) (hmm : m < nbins (12, limmag) mbs) :
    0 ≤ t2.n.getD m 0 ∧ t2.n.getD m 0 ≤ ti.n.getD m 0 ∧ t2.n.getD m 0 ≤ tj.n.getD m 0 := by
  obtain ⟨t, e1, _, _, b1, c1⟩ := C285_color ri limmag cbs mbs hi hl hc hm i gals
  obtain rfl := Except.ok.inj (h1.symm.trans e1)
  obtain ⟨t, e1', _, _, b1', c1'⟩ := C285_color rj limmag cbs mbs hj hl hc hm j gals
  obtain rfl := Except.ok.inj (h1'.symm.trans e1')
  obtain ⟨t, e2, _, _, b2, c2⟩ := C285_pair ri rj limmag cbs mbs hi hj hl hc hm i j gals
  obtain rfl := Except.ok.inj (h2.symm.trans e2)
  obtain ⟨k1, k2⟩ := C286_below ri rj limmag cbs mbs hi hj hl hc hm i j gals ti tj t2 h1 h1' h2 m hmm
  have hd0 : ∀ c d, 0 ≤ Density2 (nbins ri cbs) (nbins rj cbs) (nbins (12, limmag) mbs) ri rj limmag cbs mbs i j gals c d m := by
    intro c d
    unfold Density2
    apply div_nonneg _ (mul_pos (mul_pos hm hc) hc).le
    apply List.sum_nonneg
    intro x hx
    obtain ⟨g, _, rfl⟩ := List.mem_map.mp hx
    exact mul_nonneg (mul_nonneg (weight_nonneg _ _ _ _) (weight_nonneg _ _ _ _)) (weight_nonneg _ _ _ _)
  rw [c2 m hmm, c1 m hmm, c1' m hmm]
  refine ⟨?_, ?_, ?_⟩
  · apply mul_nonneg _ hc.le
    apply List.sum_nonneg
    intro x hx
    obtain ⟨d, _, rfl⟩ := List.mem_map.mp hx
    apply mul_nonneg _ hc.le
    apply List.sum_nonneg
    intro y hy
    obtain ⟨c, _, rfl⟩ := List.mem_map.mp hy
    exact hd0 c d
  · apply mul_le_mul_of_nonneg_right _ hc.le
    rw [List.sum_map_mul_right, sum_swap, ← List.sum_map_mul_right]
    apply List.sum_le_sum
    intro c hc'
    have hc'' := List.mem_range.mp hc'
    have := k1 c hc''
    rw [b1 c hc'' m hmm] at this
    refine le_trans (le_of_eq ?_) this
    congr 2
    apply List.map_congr_left
    intro d hd
    exact (b2 c hc'' d (List.mem_range.mp hd) m hmm).symm
  · apply mul_le_mul_of_nonneg_right _ hc.le
    apply List.sum_le_sum
    intro d hd
    have hd'' := List.mem_range.mp hd
    have := k2 d hd''
    rw [b1' d hd'' m hmm] at this
    refine le_trans (le_of_eq ?_) this
    congr 2
    apply List.map_congr_left
    intro c hc'
    exact (b2 c (List.mem_range.mp hc') d hd'' m hmm).symm

/-! ### Examples -/

/-- Two galaxies: one in the middle of all ranges, one with the second color beyond its range. -/
def toyGals : List (CGal ℚ) := [⟨[1, 1], 13⟩, ⟨[1, 9], 13⟩]

theorem toy_tables : ∃ t1 t2, table1 (0, 2) 14 1 1 0 toyGals = .ok t1 ∧ table2 (0, 2) (0, 2) 14 1 1 0 1 toyGals = .ok t2 ∧
    t1.n = [1, 1] ∧ t2.n = [1 / 2, 1 / 2] ∧ t1.bc = [1 / 2, 1 / 2, 1 / 2, 1 / 2] ∧
    t2.bc = [1 / 8, 1 / 8, 1 / 8, 1 / 8, 1 / 8, 1 / 8, 1 / 8, 1 / 8] := by
  refine ⟨⟨[1 / 2, 1 / 2, 1 / 2, 1 / 2], [1, 1]⟩, ⟨[1 / 8, 1 / 8, 1 / 8, 1 / 8, 1 / 8, 1 / 8, 1 / 8, 1 / 8], [1 / 2, 1 / 2]⟩, ?_, ?_, rfl, rfl, rfl, rfl⟩ <;>
    decide +kernel

/-- C286 is false: the galaxies of a pair are those in both ranges, so that the tables of pairs and colors do not have the same galaxies. -/
theorem C286_false : ¬ Marginal ((0, 2) : ℚ × ℚ) (0, 2) 14 1 1 0 1 toyGals := by
  intro h
  obtain ⟨t1, t2, h1, h2, _, _, b1, b2⟩ := toy_tables
  have := h t1 t2 h1 h2 0 (by decide +kernel) 0 (by decide +kernel)
  rw [b1, b2] at this
  exact absurd this (by decide +kernel)

/-- C287 is false at the borders: a galaxy at the edge counts half in each quantity. -/
theorem C287_false : ∃ t, table1 ((0, 2) : ℚ × ℚ) 14 1 1 0 [⟨[0], 12⟩] = .ok t ∧ t.n.sum = 1 / 4 := by
  refine ⟨⟨[1 / 4, 0, 0, 0], [1 / 4, 0]⟩, by decide +kernel, by norm_num⟩

/-- The hypotheses of `C286_partial` hold for a galaxy in the middle. -/
example : ∀ g ∈ [(⟨[1, 1], 13⟩ : CGal ℚ)], In (0, 2) (g.col 0) → In (12, 14) g.refmag → Inside (0, 2) 1 (g.col 1) := by
  intro g hg _ _
  obtain rfl := List.mem_singleton.mp hg
  have : nbins ((0, 2) : ℚ × ℚ) 1 = 2 := by decide +kernel
  unfold Inside In
  rw [this]
  norm_num [CGal.col]

end Redmapper.ColGen
