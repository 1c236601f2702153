/-
Properties of the red-sequence tables: C56, C57, C110.
-/
import Verif.Model.RedSequence
import Verif.Props.Background
import Mathlib.Tactic.Linarith
import Mathlib.Tactic.FieldSimp
import Mathlib.Algebra.BigOperators.Fin
import Mathlib.Algebra.Order.BigOperators.Ring.Finset
import Mathlib.Algebra.Order.Floor.Semiring
import Mathlib.Data.Rat.Floor

set_option linter.unusedSectionVars false

namespace Redmapper.RedSequence

open Redmapper.Background (roundHE roundHE_near)

variable {α : Type} [Field α] [LinearOrder α] [IsStrictOrderedRing α]

/-! ## C56 -/

theorem roundHE_mono [FloorRing α] {a b : α} (h : a ≤ b) : roundHE a ≤ roundHE b := by
  rcases h.lt_or_eq with h | h
  · by_contra hc
    have hc : roundHE b + 1 ≤ roundHE a := by omega
    have h1 := abs_le.mp (roundHE_near a)
    have h2 := abs_le.mp (roundHE_near b)
    have hc' : (roundHE b : α) + 1 ≤ (roundHE a : α) := by exact_mod_cast hc
    linarith [h1.1, h2.2]
  · rw [h]

theorem roundHE_eq [FloorRing α] (t : α) (m : Int) (h : |t - m| < 1 / 2) : roundHE t = m := by
  have h1 := abs_le.mp (roundHE_near t)
  have h2 := abs_lt.mp h
  have a1 : (roundHE t : α) - m < 1 := by linarith [h1.1, h2.2]
  have a2 : (-1 : α) < (roundHE t : α) - m := by linarith [h1.2, h2.1]
  have b1 : roundHE t - m < 1 := by exact_mod_cast a1
  have b2 : -1 < roundHE t - m := by exact_mod_cast a2
  omega

theorem roundHE_int [FloorRing α] (m : Int) : roundHE (m : α) = m := roundHE_eq _ m (by simp)

theorem searchInt_mono (l : List Int) {v w : Int} (h : v ≤ w) : searchInt l v ≤ searchInt l w := by
  unfold searchInt
  induction l with
  | nil => simp
  | cons x l ih =>
    simp only [List.takeWhile_cons]
    by_cases hx : x < v
    · simp [hx, lt_of_lt_of_le hx h, ih]
    · simp [hx]

theorem searchInt_le (l : List Int) (x v : Int) (h : v ≤ x) : searchInt (l ++ [x]) v ≤ l.length := by
  unfold searchInt
  induction l with
  | nil => simp [not_lt.mpr h]
  | cons a l ih =>
    simp only [List.cons_append, List.takeWhile_cons]
    by_cases ha : a < v
    · simp [ha, ih]
    · simp [ha]

theorem searchInt_eq (l : List Int) (v : Int) (k : Nat) (hk : k ≤ l.length) (h1 : ∀ j, j < k → l.getD j 0 < v) (h2 : k < l.length → v ≤ l.getD k 0) :
    searchInt l v = k := by
  unfold searchInt
  induction l generalizing k with
  | nil => simp at hk; simp [hk]
  | cons a l ih =>
    cases k with
    | zero =>
      have := h2 (by simp)
      simp only [List.getD_cons_zero] at this
      simp [not_lt.mpr this]
    | succ k =>
      have h0 := h1 0 (by omega)
      simp only [List.getD_cons_zero] at h0
      rw [List.takeWhile_cons, if_pos (by simpa using h0), List.length_cons, ih k (by simp at hk; omega) (fun j hj => by
        have := h1 (j + 1) (by omega); simpa using this) (fun hk => by have := h2 (by simp; omega); simpa using this)]

/-- A query up to 1000 always gives a valid index, whatever the grid; the index is monotone in the query. -/
theorem C56_valid [FloorRing α] (start step : α) (n : Nat) (scale : Int) (hs : 0 ≤ scale) (q q' : α) :
    (q ≤ 1000 → index scale (grid start step n) q < (grid start step n).length) ∧
    (q ≤ q' → index scale (grid start step n) q ≤ index scale (grid start step n) q') := by
  have hs' : (0 : α) ≤ (scale : α) := by exact_mod_cast hs
  constructor
  · intro h
    unfold index integers grid
    rw [List.map_append]
    have := searchInt_le (((List.range n).map fun (k : Nat) => start + (k : α) * step).map fun z => roundHE (z * (scale : α)))
      (roundHE ((1000 : α) * scale)) (roundHE (q * (scale : α))) (roundHE_mono (mul_le_mul_of_nonneg_right h hs'))
    simp only [List.length_map, List.length_range, List.map_cons, List.map_nil, List.length_append, List.length_singleton] at this ⊢
    omega
  · intro h
    exact searchInt_mono _ (roundHE_mono (mul_le_mul_of_nonneg_right h hs'))

theorem grid_getD (start step : α) (n k : Nat) (hk : k < n) : (grid start step n).getD k 0 = start + (k : α) * step := by
  unfold grid
  rw [List.getD_eq_getElem?_getD, List.getElem?_append_left (by simpa using hk), List.getElem?_map, List.getElem?_range hk]
  rfl

theorem grid_overflow (start step : α) (n : Nat) : (grid start step n).getD n 0 = 1000 := by
  unfold grid
  rw [List.getD_eq_getElem?_getD, List.getElem?_append_right (by simp)]
  simp

theorem integers_getD [FloorRing α] (scale : Int) (l : List α) (k : Nat) (hk : k < l.length) :
    (integers scale l).getD k 0 = roundHE (l.getD k 0 * (scale : α)) := by
  unfold integers
  rw [List.getD_eq_getElem?_getD, List.getElem?_map, List.getD_eq_getElem?_getD, List.getElem?_eq_getElem hk]
  rfl

/-- The integers of a grid whose bin size divides one and whose start is not halfway between two multiples. -/
theorem integers_aligned [FloorRing α] (start step : α) (n : Nat) (scale m : Int) (hstep : step * (scale : α) = 1)
    (hm : |start * (scale : α) - m| < 1 / 2) (k : Nat) (hk : k < n) :
    (integers scale (grid start step n)).getD k 0 = m + k := by
  rw [integers_getD _ _ _ (by simp [grid]; omega), grid_getD _ _ _ _ hk]
  apply roundHE_eq
  have e : (start + (k : α) * step) * (scale : α) - ((m + (k : Int) : Int) : α) = start * (scale : α) - m := by
    push_cast
    have : (start + (k : α) * step) * (scale : α) = start * scale + k * (step * scale) := by ring
    rw [this, hstep]; ring
  rw [e]; exact hm

/-- The index on such a grid, in all cases. -/
theorem index_aligned [FloorRing α] (start step : α) (n : Nat) (scale m : Int) (hstep : step * (scale : α) = 1)
    (hm : |start * (scale : α) - m| < 1 / 2) (hn : 1 ≤ n) (hbig : m + n ≤ 1000 * scale) (q : α) :
    (roundHE (q * (scale : α)) ≤ m → index scale (grid start step n) q = 0) ∧
    (∀ k : Nat, k < n → roundHE (q * (scale : α)) = m + k → index scale (grid start step n) q = k) ∧
    (m + n ≤ roundHE (q * (scale : α)) → roundHE (q * (scale : α)) ≤ 1000 * scale → index scale (grid start step n) q = n) := by
  have hlen : (integers scale (grid start step n)).length = n + 1 := by simp [integers, grid]
  have hk := integers_aligned start step n scale m hstep hm
  have hlast : (integers scale (grid start step n)).getD n 0 = 1000 * scale := by
    rw [integers_getD _ _ _ (by simp [grid]), grid_overflow]
    have := roundHE_int (α := α) (1000 * scale)
    push_cast at this
    exact this
  unfold index
  refine ⟨?_, ?_, ?_⟩
  · intro h
    apply searchInt_eq _ _ 0 (by omega)
    · intro j hj; omega
    · intro _
      rw [hk 0 (by omega)]
      simpa using h
  · intro k hkn h
    apply searchInt_eq _ _ k (by omega)
    · intro j hj
      rw [hk j (by omega), h]; omega
    · intro _
      rw [hk k hkn, h]
  · intro h1 h2
    apply searchInt_eq _ _ n (by omega)
    · intro j hj
      rw [hk j hj]; omega
    · intro _
      rw [hlast]; exact h2

/-- The property as one would like it for every grid: tabulated values get their own index. -/
def C56_spec : Prop :=
  ∀ (start step : ℚ) (n : Nat), 0 < step → 0 ≤ start → start + n * step ≤ 1000 → ∀ k : Nat, k < n → index (binscale step) (grid start step n) (start + k * step) = k

/-- On a grid whose bin size divides one and whose start is not halfway between two multiples of it: tabulated values get exactly their index, and
values above the last bin the overflow entry. -/
theorem C56_partial [FloorRing α] (start step : α) (n : Nat) (hpos : 0 < step) (scale m : Int) (hstep : step * (scale : α) = 1)
    (hm : |start * (scale : α) - m| < 1 / 2) (hn : 1 ≤ n) (hbig : m + n ≤ 1000 * scale) :
    binscale step = scale ∧
    (∀ k : Nat, k < n → index (binscale step) (grid start step n) (start + (k : α) * step) = k) ∧
    (∀ q : α, start + (n : α) * step ≤ q → q ≤ 1000 → index (binscale step) (grid start step n) q = n) ∧
    (∀ q : α, q ≤ start → index (binscale step) (grid start step n) q = 0) := by
  have hsc : binscale step = scale := by
    unfold binscale
    have : 1 / step = (scale : α) := by field_simp; linarith
    rw [this, Int.floor_intCast]
  have hs0 : (0 : α) ≤ (scale : α) := by
    by_contra hc
    have : step * (scale : α) ≤ 0 := mul_nonpos_of_nonneg_of_nonpos hpos.le (not_le.mp hc).le
    linarith
  rw [hsc]
  have hr : ∀ k : Nat, roundHE ((start + (k : α) * step) * (scale : α)) = m + k := by
    intro k
    apply roundHE_eq
    have e : (start + (k : α) * step) * (scale : α) - ((m + (k : Int) : Int) : α) = start * (scale : α) - m := by
      push_cast
      have : (start + (k : α) * step) * (scale : α) = start * scale + k * (step * scale) := by ring
      rw [this, hstep]; ring
    rw [e]; exact hm
  refine ⟨rfl, ?_, ?_, ?_⟩
  · intro k hk
    exact (index_aligned start step n scale m hstep hm hn hbig _).2.1 k hk (hr k)
  · intro q h1 h2
    apply (index_aligned start step n scale m hstep hm hn hbig q).2.2
    · have := roundHE_mono (mul_le_mul_of_nonneg_right h1 hs0)
      rw [hr n] at this
      exact this
    · have := roundHE_mono (mul_le_mul_of_nonneg_right h2 hs0)
      have e := roundHE_int (α := α) (1000 * scale)
      push_cast at e
      rw [e] at this
      exact this
  · intro q h
    apply (index_aligned start step n scale m hstep hm hn hbig q).1
    have := roundHE_mono (mul_le_mul_of_nonneg_right h hs0)
    have e := hr 0
    simp at e
    rw [e] at this
    exact this

/-- If the start is itself a multiple of the bin size, the index is that of the nearest bin, for all queries within half a bin of the table. -/
theorem C56_nearest [FloorRing α] (start step : α) (n : Nat) (hpos : 0 < step) (scale m : Int) (hstep : step * (scale : α) = 1)
    (hm : start * (scale : α) = m) (hn : 1 ≤ n) (hbig : m + n ≤ 1000 * scale) (q : α) (h1 : start ≤ q) (h2 : q < start + ((n : α) - 1 / 2) * step) :
    index scale (grid start step n) q < n ∧ |(grid start step n).getD (index scale (grid start step n) q) 0 - q| ≤ step / 2 := by
  have hs0 : (0 : α) < (scale : α) := by
    by_contra hc
    have : step * (scale : α) ≤ 0 := mul_nonpos_of_nonneg_of_nonpos hpos.le (not_lt.mp hc)
    linarith
  have hnear := abs_le.mp (roundHE_near (q * (scale : α)))
  have hlo : m ≤ roundHE (q * (scale : α)) := by
    have := roundHE_mono (mul_le_mul_of_nonneg_right h1 hs0.le)
    rw [hm, roundHE_int] at this
    exact this
  have hhi : roundHE (q * (scale : α)) < m + n := by
    have h3 : q * (scale : α) < (start + ((n : α) - 1 / 2) * step) * scale := mul_lt_mul_of_pos_right h2 hs0
    have e : (start + ((n : α) - 1 / 2) * step) * (scale : α) = m + (n - 1 / 2) := by
      have : (start + ((n : α) - 1 / 2) * step) * (scale : α) = start * scale + (n - 1 / 2) * (step * scale) := by ring
      rw [this, hstep, hm]; ring
    rw [e] at h3
    have : (roundHE (q * (scale : α)) : α) < ((m + n : Int) : α) := by push_cast; linarith [hnear.1]
    exact_mod_cast this
  obtain ⟨k, hk⟩ : ∃ k : Nat, roundHE (q * (scale : α)) = m + k := ⟨(roundHE (q * (scale : α)) - m).toNat, by omega⟩
  have hkn : k < n := by omega
  have hidx := (index_aligned start step n scale m hstep (by rw [hm]; simp) hn hbig q).2.1 k hkn hk
  rw [hidx, grid_getD _ _ _ _ hkn]
  refine ⟨hkn, ?_⟩
  rw [hk] at hnear
  push_cast at hnear
  have e : (start + (k : α) * step - q) = -(q * (scale : α) - (m + k)) * step := by
    have e1 : q * (scale : α) * step = q := by rw [mul_assoc, mul_comm (scale : α) step, hstep, mul_one]
    have e2 : (m : α) * step = start := by rw [← hm, mul_assoc, mul_comm (scale : α) step, hstep, mul_one]
    have : -(q * (scale : α) - (m + k)) * step = -(q * (scale : α) * step) + m * step + k * step := by ring
    rw [this, e1, e2]; ring
  rw [e, abs_mul, abs_of_pos hpos, abs_neg]
  have : |q * (scale : α) - (m + k)| ≤ 1 / 2 := abs_le.mpr hnear
  nlinarith

example : binscale (1 / 200 : ℚ) = 200 ∧ (1 / 200 : ℚ) * (200 : Int) = 1 ∧ (1 / 10 : ℚ) * ((200 : Int) : ℚ) = ((20 : Int) : ℚ) := by
  refine ⟨?_, ?_, ?_⟩
  · unfold binscale; rw [show (1 : ℚ) / (1 / 200) = ((200 : Int) : ℚ) by norm_num, Int.floor_intCast]
  · norm_num
  · norm_num

/-- A table that starts halfway between two multiples of its bin size: a tabulated redshift gets the wrong index. -/
theorem C56_false : ¬ C56_spec := by
  intro h
  have h1 := h (1 / 2) 1 3 (by norm_num) (by norm_num) (by norm_num) 2 (by norm_num)
  have hb : binscale (1 : ℚ) = 1 := by unfold binscale; norm_num
  rw [hb] at h1
  have r : ∀ t : ℚ, ∀ k : Int, Int.floor t = k → t - k = 1 / 2 → roundHE t = if k % 2 = 0 then k else k + 1 := by
    intro t k hf ht
    unfold roundHE
    rw [hf, ht, if_neg (by norm_num), if_neg (by norm_num)]
  have f : ∀ k : Int, Int.floor ((k : ℚ) + 1 / 2) = k := by
    intro k
    rw [Int.floor_eq_iff]
    constructor <;> linarith
  have r0 : roundHE (1 / 2 : ℚ) = 0 := by
    have := r (1 / 2) 0 (by have := f 0; norm_num at this ⊢) (by norm_num)
    simpa using this
  have r1 : roundHE (3 / 2 : ℚ) = 2 := by
    have := r (3 / 2) 1 (by have := f 1; norm_num at this ⊢) (by norm_num)
    simpa using this
  have r2 : roundHE (5 / 2 : ℚ) = 2 := by
    have := r (5 / 2) 2 (by have := f 2; norm_num at this ⊢) (by norm_num)
    simpa using this
  unfold index integers grid searchInt at h1
  simp only [List.range_succ, List.range_zero, List.nil_append, List.map_append, List.map_cons, List.map_nil, List.cons_append] at h1
  norm_num at h1
  rw [r0, r1, r2] at h1
  norm_num at h1

/-- `mstar` never raises up to redshift 1000, and on an aligned table returns the tabulated value. -/
theorem C56_mstar [FloorRing α] (start step : α) (n : Nat) (hpos : 0 < step) (scale m : Int) (hstep : step * (scale : α) = 1)
    (hm : |start * (scale : α) - m| < 1 / 2) (hn : 1 ≤ n) (hbig : m + n ≤ 1000 * scale) (table : List α) (ht : table.length = n + 1) :
    (∀ q : α, q ≤ 1000 → (mstar scale (grid start step n) table q).isSome) ∧
    (∀ k : Nat, k < n → mstar scale (grid start step n) table (start + (k : α) * step) = table[k]?) := by
  obtain ⟨p1, p2, _⟩ := C56_partial start step n hpos scale m hstep hm hn hbig
  rw [p1] at p2
  have hs0 : 0 ≤ scale := by
    by_contra hc
    have hc' : (scale : α) ≤ 0 := by exact_mod_cast (not_le.mp hc).le
    have : step * (scale : α) ≤ 0 := mul_nonpos_of_nonneg_of_nonpos hpos.le hc'
    linarith
  constructor
  · intro q hq
    have := (C56_valid start step n scale hs0 q q).1 hq
    unfold mstar
    rw [List.getElem?_eq_getElem (by rw [ht]; simpa [grid] using this)]
    rfl
  · intro k hk
    unfold mstar
    rw [p2 k hk]

/-- The arrays searched are sorted, as `np.searchsorted` requires. -/
theorem integers_sorted [FloorRing α] (start step : α) (n : Nat) (scale : Int) (hpos : 0 < step) (hs : 0 ≤ scale) (hb : start + (n : α) * step ≤ 1000) :
    (integers scale (grid start step n)).Pairwise (· ≤ ·) := by
  have hs' : (0 : α) ≤ (scale : α) := by exact_mod_cast hs
  unfold integers
  rw [List.pairwise_map]
  have : (grid start step n).Pairwise (· ≤ ·) := by
    unfold grid
    rw [List.pairwise_append]
    refine ⟨?_, by simp, ?_⟩
    · rw [List.pairwise_map]
      apply List.Pairwise.imp _ (List.pairwise_lt_range (n := n))
      intro a b hab
      have : (a : α) * step ≤ (b : α) * step := mul_le_mul_of_nonneg_right (by exact_mod_cast hab.le) hpos.le
      linarith
    · intro a ha b hb'
      simp only [List.mem_map, List.mem_range, List.mem_singleton] at ha hb'
      obtain ⟨k, hk, rfl⟩ := ha
      rw [hb']
      have : (k : α) * step ≤ (n : α) * step := mul_le_mul_of_nonneg_right (by exact_mod_cast hk.le) hpos.le
      linarith
  exact this.imp fun h => roundHE_mono (mul_le_mul_of_nonneg_right h hs')

/-- The redshift table stops within half a bin of the end of the configured range. -/
theorem C56_range [FloorRing α] (z0 z1 step : α) (hpos : 0 < step) (h : z0 ≤ z1) : |z0 + (nzOf z0 z1 step : α) * step - z1| ≤ step / 2 := by
  have h0 : 0 ≤ roundHE ((z1 - z0) / step) := by
    have := roundHE_mono (div_nonneg (sub_nonneg.mpr h) hpos.le)
    have e := roundHE_int (α := α) 0
    simp only [Int.cast_zero] at e
    rw [e] at this
    exact this
  have e : ((nzOf z0 z1 step : Nat) : α) = ((roundHE ((z1 - z0) / step) : Int) : α) := by
    unfold nzOf
    rw [← Int.cast_natCast, Int.toNat_of_nonneg h0]
  have hn := roundHE_near ((z1 - z0) / step)
  rw [e]
  have e2 : z0 + ((roundHE ((z1 - z0) / step) : Int) : α) * step - z1 = -((z1 - z0) / step - (roundHE ((z1 - z0) / step) : Int)) * step := by
    have : (z1 - z0) / step * step = z1 - z0 := div_mul_cancel₀ _ hpos.ne'
    have : -((z1 - z0) / step - (roundHE ((z1 - z0) / step) : Int)) * step = -((z1 - z0) / step * step) + (roundHE ((z1 - z0) / step) : Int) * step := by ring
    rw [this, div_mul_cancel₀ _ hpos.ne']; ring
  rw [e2, abs_mul, abs_of_pos hpos, abs_neg]
  nlinarith

/-! ## C57 -/

theorem sigmaDiag_ge (minsig s : α) : minsig ≤ sigmaDiag minsig s := le_max_right _ _

theorem corrClip_abs (s : α) : |corrClip s| ≤ 99 / 100 := by
  unfold corrClip
  by_cases h1 : 99 / 100 < s
  · rw [if_pos h1, abs_of_nonneg (by norm_num)]
  · rw [if_neg h1]
    by_cases h2 : s < -(99 / 100)
    · rw [if_pos h2, abs_neg, abs_of_nonneg (by norm_num)]
    · rw [if_neg h2, abs_le]
      constructor <;> linarith

theorem corrClip_le (s : α) : |corrClip s| ≤ |s| := by
  unfold corrClip
  by_cases h1 : 99 / 100 < s
  · rw [if_pos h1, abs_of_nonneg (by norm_num : (0 : α) ≤ 99 / 100)]
    exact le_trans h1.le (le_abs_self s)
  · rw [if_neg h1]
    by_cases h2 : s < -(99 / 100)
    · rw [if_pos h2, abs_neg, abs_of_nonneg (by norm_num : (0 : α) ≤ 99 / 100)]
      have := neg_le_abs s
      linarith
    · rw [if_neg h2]

/-- The quadratic form of a matrix. -/
def quadForm {n : Nat} (A : Matrix (Fin n) (Fin n) α) (x : Fin n → α) : α := ∑ j, ∑ k, x j * A j k * x k

/-- Positive definite. -/
def PosDef {n : Nat} (A : Matrix (Fin n) (Fin n) α) : Prop := (∀ j k, A j k = A k j) ∧ ∀ x, (∃ j, x j ≠ 0) → 0 < quadForm A x

/-- The property as one would like it. -/
def C57_spec : Prop := ∀ (n : Nat) (minsig : ℚ) (spl : Fin n → Fin n → ℚ), 0 < minsig → PosDef (covmat minsig spl)

/-- Symmetric, variances at least `minsig^2`, correlations within 0.99, whatever the splines.  Missing: positive definiteness for three and more
colors. -/
theorem C57_partial {n : Nat} (minsig : α) (hm : 0 ≤ minsig) (spl : Fin n → Fin n → α) :
    (∀ j k, covmat minsig spl j k = covmat minsig spl k j) ∧ (∀ j, minsig * minsig ≤ covmat minsig spl j j) ∧
    (∀ j k, j ≠ k → covmat minsig spl j k * covmat minsig spl j k ≤ (99 / 100) * (99 / 100) * (covmat minsig spl j j * covmat minsig spl k k)) := by
  have hd : ∀ j, covmat minsig spl j j = sigmaDiag minsig (spl j j) * sigmaDiag minsig (spl j j) := fun j => by simp [covmat]
  have sym : ∀ j k, covmat minsig spl j k = covmat minsig spl k j := by
    intro j k
    unfold covmat
    rcases lt_trichotomy j k with h | h | h
    · rw [if_neg (ne_of_lt h), if_pos h, if_neg (ne_of_gt h), if_neg (not_lt.mpr h.le)]
    · subst h; rfl
    · rw [if_neg (ne_of_gt h), if_neg (not_lt.mpr h.le), if_neg (ne_of_lt h), if_pos h]
  refine ⟨sym, ?_, ?_⟩
  · intro j
    rw [hd]
    have := sigmaDiag_ge minsig (spl j j)
    exact mul_le_mul this this hm (le_trans hm this)
  · have key : ∀ r a b : α, |r| ≤ 99 / 100 → (r * a * b) * (r * a * b) ≤ (99 / 100) * (99 / 100) * ((a * a) * (b * b)) := by
      intro r a b hr
      have h1 : r * r ≤ (99 / 100) * (99 / 100) := by
        have := mul_self_le_mul_self (abs_nonneg r) hr
        rwa [abs_mul_abs_self] at this
      have h2 : 0 ≤ (a * a) * (b * b) := mul_nonneg (mul_self_nonneg a) (mul_self_nonneg b)
      calc (r * a * b) * (r * a * b) = (r * r) * ((a * a) * (b * b)) := by ring
        _ ≤ (99 / 100) * (99 / 100) * ((a * a) * (b * b)) := mul_le_mul_of_nonneg_right h1 h2
    intro j k hjk
    rw [hd, hd]
    rcases lt_or_gt_of_ne hjk with h | h
    · have e : covmat minsig spl j k = corrClip (spl j k) * sigmaDiag minsig (spl j j) * sigmaDiag minsig (spl k k) := by
        unfold covmat; rw [if_neg hjk, if_pos h]
      rw [e]
      exact key _ _ _ (corrClip_abs _)
    · have e : covmat minsig spl j k = corrClip (spl k j) * sigmaDiag minsig (spl j j) * sigmaDiag minsig (spl k k) := by
        unfold covmat; rw [if_neg hjk, if_neg (not_lt.mpr h.le)]; ring
      rw [e]
      exact key _ _ _ (corrClip_abs _)

/-- With one or two colors the matrix is positive definite for every parameter file. -/
theorem C57_two (minsig : α) (hm : 0 < minsig) :
    (∀ spl : Fin 1 → Fin 1 → α, PosDef (covmat minsig spl)) ∧ (∀ spl : Fin 2 → Fin 2 → α, PosDef (covmat minsig spl)) := by
  constructor
  · intro spl
    refine ⟨(C57_partial minsig hm.le spl).1, ?_⟩
    rintro x ⟨j, hj⟩
    have hj0 : j = 0 := Subsingleton.elim _ _
    subst hj0
    unfold quadForm
    simp only [Fin.sum_univ_one, Fin.isValue]
    have h1 := (C57_partial minsig hm.le spl).2.1 0
    have h2 : 0 < covmat minsig spl 0 0 := lt_of_lt_of_le (mul_pos hm hm) h1
    have h3 : 0 < x 0 * x 0 := mul_self_pos.mpr hj
    calc (0 : α) < covmat minsig spl 0 0 * (x 0 * x 0) := mul_pos h2 h3
      _ = x 0 * covmat minsig spl 0 0 * x 0 := by ring
  · intro spl
    refine ⟨(C57_partial minsig hm.le spl).1, ?_⟩
    intro x hx
    unfold quadForm
    simp only [Fin.sum_univ_two, Fin.isValue]
    have e00 : covmat minsig spl 0 0 = sigmaDiag minsig (spl 0 0) * sigmaDiag minsig (spl 0 0) := by simp [covmat]
    have e11 : covmat minsig spl 1 1 = sigmaDiag minsig (spl 1 1) * sigmaDiag minsig (spl 1 1) := by simp [covmat]
    have e01 : covmat minsig spl 0 1 = corrClip (spl 0 1) * sigmaDiag minsig (spl 0 0) * sigmaDiag minsig (spl 1 1) := by simp [covmat]
    have e10 : covmat minsig spl 1 0 = covmat minsig spl 0 1 := (C57_partial minsig hm.le spl).1 1 0
    rw [e10, e00, e11, e01]
    have ha := lt_of_lt_of_le hm (sigmaDiag_ge minsig (spl 0 0))
    have hb := lt_of_lt_of_le hm (sigmaDiag_ge minsig (spl 1 1))
    have hr := abs_le.mp (corrClip_abs (spl 0 1))
    generalize sigmaDiag minsig (spl 0 0) = a at *
    generalize sigmaDiag minsig (spl 1 1) = b at *
    generalize corrClip (spl 0 1) = r at *
    have hsq : 0 < (x 0 * a) * (x 0 * a) + (x 1 * b) * (x 1 * b) := by
      obtain ⟨j, hj⟩ := hx
      have h0 := mul_self_nonneg (x 0 * a)
      have h1 := mul_self_nonneg (x 1 * b)
      have : j = 0 ∨ j = 1 := by omega
      rcases this with rfl | rfl
      · have : 0 < (x 0 * a) * (x 0 * a) := mul_self_pos.mpr (mul_ne_zero hj ha.ne')
        linarith
      · have : 0 < (x 1 * b) * (x 1 * b) := mul_self_pos.mpr (mul_ne_zero hj hb.ne')
        linarith
    generalize hu : x 0 * a = u at *
    generalize hv : x 1 * b = v at *
    have e : x 0 * (a * a) * x 0 + x 0 * (r * a * b) * x 1 + (x 1 * (r * a * b) * x 0 + x 1 * (b * b) * x 1) = u * u + 2 * r * (u * v) + v * v := by
      rw [← hu, ← hv]; ring
    rw [e]
    have h1 := mul_self_nonneg (u - v)
    have h2 := mul_self_nonneg (u + v)
    have h3 : 0 ≤ (1 + r) * ((u + v) * (u + v)) := mul_nonneg (by linarith) h2
    have h4 : 0 ≤ (1 - r) * ((u - v) * (u - v)) := mul_nonneg (by linarith) h1
    nlinarith

/-- With any number of colors it is positive definite if the correlations are small enough. -/
theorem C57_weak {n : Nat} (minsig : α) (hm : 0 < minsig) (spl : Fin n → Fin n → α) (r : α) (hr : ∀ j k, j ≠ k → |spl j k| ≤ r) (hr0 : 0 ≤ r)
    (hn : r * ((n : α) - 1) < 1) : PosDef (covmat minsig spl) := by
  refine ⟨(C57_partial minsig hm.le spl).1, ?_⟩
  rintro x ⟨i, hi⟩
  set y : Fin n → α := fun j => x j * sigmaDiag minsig (spl j j) with hy
  have hsig : ∀ j, 0 < sigmaDiag minsig (spl j j) := fun j => lt_of_lt_of_le hm (sigmaDiag_ge _ _)
  have hterm : ∀ j k, (if j = k then (1 + r) * (y j * y j) else 0) - r / 2 * (y j * y j + y k * y k) ≤ x j * covmat minsig spl j k * x k := by
    intro j k
    by_cases hjk : j = k
    · subst hjk
      rw [if_pos rfl]
      have : x j * covmat minsig spl j j * x j = y j * y j := by simp only [hy, covmat, if_true]; ring
      rw [this]; linarith
    · rw [if_neg hjk]
      obtain ⟨c, hc, e⟩ : ∃ c, |c| ≤ r ∧ x j * covmat minsig spl j k * x k = c * (y j * y k) := by
        rcases lt_or_gt_of_ne hjk with h | h
        · exact ⟨corrClip (spl j k), le_trans (corrClip_le _) (hr j k hjk), by unfold covmat; rw [if_neg hjk, if_pos h]; simp only [hy]; ring⟩
        · exact ⟨corrClip (spl k j), le_trans (corrClip_le _) (hr k j (Ne.symm hjk)), by
            unfold covmat; rw [if_neg hjk, if_neg (not_lt.mpr h.le)]; simp only [hy]; ring⟩
      rw [e]
      have hc' := abs_le.mp hc
      have h1 := mul_self_nonneg (y j - y k)
      have h2 := mul_self_nonneg (y j + y k)
      have h3 : 0 ≤ (r + c) * ((y j + y k) * (y j + y k)) := mul_nonneg (by linarith) h2
      have h4 : 0 ≤ (r - c) * ((y j - y k) * (y j - y k)) := mul_nonneg (by linarith) h1
      nlinarith
  have hsum : ∑ j, ∑ k, ((if j = k then (1 + r) * (y j * y j) else 0) - r / 2 * (y j * y j + y k * y k)) ≤ quadForm (covmat minsig spl) x :=
    Finset.sum_le_sum fun j _ => Finset.sum_le_sum fun k _ => hterm j k
  have hS : ∑ j, ∑ k, ((if j = k then (1 + r) * (y j * y j) else 0) - r / 2 * (y j * y j + y k * y k)) =
      (1 - r * ((n : α) - 1)) * ∑ j, y j * y j := by
    have e1 : ∀ j : Fin n, ∑ k, ((if j = k then (1 + r) * (y j * y j) else 0) - r / 2 * (y j * y j + y k * y k)) =
        (1 + r) * (y j * y j) - r / 2 * ((n : α) * (y j * y j) + ∑ k, y k * y k) := by
      intro j
      rw [Finset.sum_sub_distrib, Finset.sum_ite_eq, ← Finset.mul_sum, Finset.sum_add_distrib]
      simp
    simp only [e1]
    rw [Finset.sum_sub_distrib, ← Finset.mul_sum, ← Finset.mul_sum, Finset.sum_add_distrib, ← Finset.mul_sum, Finset.sum_const]
    simp only [Finset.card_univ, Fintype.card_fin, nsmul_eq_mul]
    ring
  rw [hS] at hsum
  have hpos : 0 < ∑ j, y j * y j := by
    apply Finset.sum_pos'
    · intro j _; exact mul_self_nonneg _
    · exact ⟨i, Finset.mem_univ _, mul_self_pos.mpr (mul_ne_zero hi (hsig i).ne')⟩
  have : 0 < (1 - r * ((n : α) - 1)) * ∑ j, y j * y j := mul_pos (by linarith) hpos
  linarith

/-- The hypotheses of `C57_weak` hold for four colors with correlations up to one quarter. -/
example : ∃ spl : Fin 4 → Fin 4 → ℚ, (∀ j k, j ≠ k → |spl j k| ≤ 1 / 4) ∧ (∃ j k, j ≠ k ∧ spl j k ≠ 0) ∧ (1 / 4 : ℚ) * (((4 : Nat) : ℚ) - 1) < 1 := by
  refine ⟨fun j k => if j = k then 1 else -1 / 4, ?_, ⟨0, 1, by decide, by norm_num⟩, by norm_num⟩
  intro j k h
  simp only [if_neg h]
  norm_num [abs_le]


/-- Three colors, all correlations at the lower limit: not positive definite. -/
theorem C57_false : ¬ C57_spec := by
  intro h
  have h1 := (h 3 1 (fun j k => if j = k then 1 else -1) (by norm_num)).2 (fun _ => 1) ⟨0, by norm_num⟩
  unfold quadForm at h1
  simp only [Fin.sum_univ_three, covmat, sigmaDiag, corrClip] at h1
  norm_num [Fin.ext_iff, Fin.lt_def] at h1

/-! ## C110 -/

/-- The widths of the corrections are at least one half; the luminosity normalisation never decreases with magnitude and is never negative. -/
theorem C110 (first : Option α) (spl binsize : α) (f : List α) (hb : 0 ≤ binsize) (hf : ∀ x ∈ f, 0 ≤ x) :
    1 / 2 ≤ corrR first spl ∧ (lumnorm binsize f).length = f.length ∧
    (∀ i j : Nat, i ≤ j → j < f.length → (lumnorm binsize f).getD i 0 ≤ (lumnorm binsize f).getD j 0) ∧
    (∀ i, 0 ≤ (lumnorm binsize f).getD i 0) := by
  have hg : ∀ i, i < f.length → (lumnorm binsize f).getD i 0 = binsize * (f.take (i + 1)).sum := by
    intro i hi
    unfold lumnorm
    rw [List.getD_eq_getElem?_getD, List.getElem?_map, List.getElem?_range hi]
    rfl
  refine ⟨?_, by simp [lumnorm], ?_, ?_⟩
  · unfold corrR
    cases first with
    | none => norm_num
    | some g =>
      simp only
      generalize (if g ≤ 0 then (1 : α) else spl) = r
      by_cases h : r < 1 / 2
      · rw [if_pos h]
      · rw [if_neg h]; exact not_lt.mp h
  · intro i j hij hj
    rw [hg i (by omega), hg j hj]
    apply mul_le_mul_of_nonneg_left _ hb
    have e : f.take (j + 1) = f.take (i + 1) ++ (f.drop (i + 1)).take (j - i) := by
      rw [← List.take_add]; congr 1; omega
    rw [e, List.sum_append]
    have : 0 ≤ ((f.drop (i + 1)).take (j - i)).sum := List.sum_nonneg fun x hx => hf x (List.mem_of_mem_drop (List.mem_of_mem_take hx))
    linarith
  · intro i
    by_cases hi : i < f.length
    · rw [hg i hi]
      exact mul_nonneg hb (List.sum_nonneg fun x hx => hf x (List.mem_of_mem_take hx))
    · rw [List.getD_eq_getElem?_getD, List.getElem?_eq_none (by simp [lumnorm]; omega)]
      rfl

end Redmapper.RedSequence
