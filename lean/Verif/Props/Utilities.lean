/-
Properties of the utilities: C26-C30, C67, C88-C90.
-/
import Verif.Model.Utilities
import Verif.Props.Centering
import Mathlib.Tactic.Ring
import Mathlib.Tactic.Linarith
import Mathlib.Tactic.NormNum
import Mathlib.Tactic.FieldSimp
import Mathlib.Tactic.Positivity
import Mathlib.Tactic.ComputeDegree
import Mathlib.Tactic.LinearCombination
import Mathlib.Algebra.Polynomial.Derivative
import Mathlib.Algebra.Order.Floor.Ring
import Mathlib.Data.Rat.Floor

set_option linter.unusedSectionVars false

namespace Redmapper.Utilities

variable {α : Type} [Field α] [LinearOrder α] [IsStrictOrderedRing α]

/-! ## Grids -/

/-- A grid: at least two nodes, strictly increasing. -/
def Grid (x : List α) : Prop := 2 ≤ x.length ∧ x.Pairwise (· < ·)

theorem ssLeft_eq (x : List α) (q : α) (k : Nat) (hk : k ≤ x.length) (h1 : ∀ j, j < k → x.getD j 0 < q)
    (h2 : k < x.length → q ≤ x.getD k 0) : ssLeft x q = k := by
  unfold ssLeft
  induction x generalizing k with
  | nil => simp at hk; simp [hk]
  | cons a x ih =>
    cases k with
    | zero =>
      have := h2 (by simp)
      simp only [List.getD_cons_zero] at this
      rw [List.takeWhile_cons, if_neg (by simpa using this)]
      rfl
    | succ k =>
      have h0 := h1 0 (by omega)
      simp only [List.getD_cons_zero] at h0
      rw [List.takeWhile_cons, if_pos (by simpa using h0), List.length_cons]
      rw [ih k (by simpa using hk) (fun j hj => by simpa using h1 (j + 1) (by omega))
        (fun h => by simpa using h2 (by simpa using h))]

theorem Grid.lt {x : List α} (h : Grid x) {i j : Nat} (hij : i < j) (hj : j < x.length) : x.getD i 0 < x.getD j 0 := by
  have := (List.pairwise_iff_getElem.mp h.2) i j (by omega) hj hij
  rw [List.getD_eq_getElem?_getD, List.getD_eq_getElem?_getD, List.getElem?_eq_getElem hj,
    List.getElem?_eq_getElem (show i < x.length by omega)]
  exact this

theorem Grid.le {x : List α} (h : Grid x) {i j : Nat} (hij : i ≤ j) (hj : j < x.length) : x.getD i 0 ≤ x.getD j 0 := by
  rcases Nat.eq_or_lt_of_le hij with rfl | hlt
  · exact le_refl _
  · exact (h.lt hlt hj).le

/-- Above node `i` and not above node `i+1` the segment is `i`. -/
theorem segment_inside {x : List α} (h : Grid x) (q : α) (i : Nat) (hi : i + 1 < x.length) (h1 : x.getD i 0 < q)
    (h2 : q ≤ x.getD (i + 1) 0) : segment x q = i := by
  unfold segment
  rw [ssLeft_eq x q (i + 1) (by omega)
    (fun j hj => lt_of_le_of_lt (h.le (show j ≤ i by omega) (by omega)) h1) (fun _ => h2)]
  omega

/-- Not above node 0 the segment is 0. -/
theorem segment_below {x : List α} (h : Grid x) (q : α) (h2 : q ≤ x.getD 0 0) : segment x q = 0 := by
  unfold segment
  rw [ssLeft_eq x q 0 (by omega) (by omega) (fun _ => h2)]
  simp

/-- Above the last node the segment is the last one. -/
theorem segment_above {x : List α} (h : Grid x) (q : α) (h2 : x.getD (x.length - 1) 0 < q) :
    segment x q = x.length - 2 := by
  have := h.1
  unfold segment
  rw [ssLeft_eq x q x.length (le_refl _)
    (fun j hj => lt_of_le_of_lt (h.le (show j ≤ x.length - 1 by omega) (by omega)) h2) (by omega)]
  omega

/-! ## C26: linear interpolation -/

/-- The straight line through nodes `i` and `i+1`. -/
def line (v x : List α) (i : Nat) (q : α) : α :=
  v.getD i 0 + (v.getD (i + 1) 0 - v.getD i 0) * ((q - x.getD i 0) / (x.getD (i + 1) 0 - x.getD i 0))

theorem interpol_segment (v x : List α) (q : α) : interpol v x q = line v x (segment x q) q := by
  unfold interpol line
  simp only
  rw [mul_div_assoc', add_comm, mul_comm (q - _)]

theorem line_left (v x : List α) (i : Nat) : line v x i (x.getD i 0) = v.getD i 0 := by
  simp [line]

theorem line_right {x : List α} (h : Grid x) (v : List α) (i : Nat) (hi : i + 1 < x.length) :
    line v x i (x.getD (i + 1) 0) = v.getD (i + 1) 0 := by
  have := sub_pos.mpr (h.lt (Nat.lt_succ_self i) hi)
  unfold line
  rw [div_self this.ne']
  ring

/-- Inside a closed segment the interpolation is the line of that segment. -/
theorem interpol_inside {x : List α} (h : Grid x) (v : List α) (q : α) (i : Nat) (hi : i + 1 < x.length)
    (h1 : x.getD i 0 ≤ q) (h2 : q ≤ x.getD (i + 1) 0) : interpol v x q = line v x i q := by
  rw [interpol_segment]
  rcases lt_or_eq_of_le h1 with hlt | heq
  · rw [segment_inside h q i hi hlt h2]
  · cases i with
    | zero => rw [segment_below h q heq.ge]
    | succ i =>
      have hs := segment_inside h q i (by omega) (heq ▸ h.lt (Nat.lt_succ_self i) (by omega)) heq.ge
      rw [hs, ← heq, line_right h v i (by omega), line_left]

/-- **C26.** On every grid, `interpol` returns the node values at the nodes; between two neighbouring nodes it is their
straight line, hence stays between the two node values; below the first and above the last node it continues the first
and last line. -/
theorem C26_interpol {x : List α} (h : Grid x) (v : List α) :
    (∀ i, i < x.length → interpol v x (x.getD i 0) = v.getD i 0) ∧
    (∀ i q, i + 1 < x.length → x.getD i 0 ≤ q → q ≤ x.getD (i + 1) 0 →
      interpol v x q = line v x i q ∧ min (v.getD i 0) (v.getD (i + 1) 0) ≤ interpol v x q ∧
        interpol v x q ≤ max (v.getD i 0) (v.getD (i + 1) 0)) ∧
    (∀ q, q ≤ x.getD 0 0 → interpol v x q = line v x 0 q) ∧
    (∀ q, x.getD (x.length - 1) 0 ≤ q → interpol v x q = line v x (x.length - 2) q) := by
  have hlen := h.1
  refine ⟨?_, ?_, ?_, ?_⟩
  · intro i hi
    cases i with
    | zero => rw [interpol_inside h v _ 0 (by omega) (le_refl _) (h.le (by omega) (by omega)), line_left]
    | succ i => rw [interpol_inside h v _ i hi (h.le (by omega) hi) (le_refl _), line_right h v i hi]
  · intro i q hi h1 h2
    rw [interpol_inside h v q i hi h1 h2]
    refine ⟨rfl, ?_⟩
    have hd := sub_pos.mpr (h.lt (Nat.lt_succ_self i) hi)
    set t := (q - x.getD i 0) / (x.getD (i + 1) 0 - x.getD i 0) with ht
    have t0 : 0 ≤ t := div_nonneg (by linarith) hd.le
    have t1 : t ≤ 1 := (div_le_one hd).mpr (by linarith)
    have hl : line v x i q = v.getD i 0 + (v.getD (i + 1) 0 - v.getD i 0) * t := rfl
    rw [hl]
    rcases le_total (v.getD i 0) (v.getD (i + 1) 0) with hv | hv
    · rw [min_eq_left hv, max_eq_right hv]
      constructor <;> nlinarith
    · rw [min_eq_right hv, max_eq_left hv]
      constructor <;> nlinarith
  · intro q hq
    rw [interpol_segment, segment_below h q hq]
  · intro q hq
    rcases lt_or_eq_of_le hq with hlt | heq
    · rw [interpol_segment, segment_above h q hlt]
    · have e : x.length - 2 + 1 = x.length - 1 := by omega
      refine interpol_inside h v q _ (by omega) ?_ ?_
      · rw [← heq]; exact h.le (by omega) (by omega)
      · rw [e, heq]

example : Grid [(0 : ℚ), 1, 3] := ⟨by simp, by decide +kernel⟩
example : interpol [(5 : ℚ), 7, 1] [0, 1, 3] 2 = 4 := by decide +kernel

/-! ## C29: cubic spline -/

theorem piece_left {s : Spline α} (h : Grid s.x) (i : Nat) (hi : i + 1 < s.x.length) :
    piece s i (s.x.getD i 0) = s.y.getD i 0 := by
  have := (sub_pos.mpr (h.lt (Nat.lt_succ_self i) hi)).ne'
  unfold piece
  simp only
  rw [div_self this, sub_self, zero_div]
  ring

theorem piece_right {s : Spline α} (h : Grid s.x) (i : Nat) (hi : i + 1 < s.x.length) :
    piece s i (s.x.getD (i + 1) 0) = s.y.getD (i + 1) 0 := by
  have := (sub_pos.mpr (h.lt (Nat.lt_succ_self i) hi)).ne'
  unfold piece
  simp only
  rw [div_self this, sub_self, zero_div]
  ring

theorem splint_inside {s : Spline α} (h : Grid s.x) (q : α) (i : Nat) (hi : i + 1 < s.x.length)
    (h1 : s.x.getD i 0 ≤ q) (h2 : q ≤ s.x.getD (i + 1) 0) : splint s q = piece s i q := by
  unfold splint
  rcases lt_or_eq_of_le h1 with hlt | heq
  · rw [segment_inside h q i hi hlt h2]
  · cases i with
    | zero => rw [segment_below h q heq.ge]
    | succ i =>
      have hs := segment_inside h q i (by omega) (heq ▸ h.lt (Nat.lt_succ_self i) (by omega)) heq.ge
      rw [hs, ← heq, piece_right h i (by omega), piece_left h (i + 1) hi]

theorem splint_node {s : Spline α} (h : Grid s.x) (i : Nat) (hi : i < s.x.length) :
    splint s (s.x.getD i 0) = s.y.getD i 0 := by
  have := h.1
  cases i with
  | zero => rw [splint_inside h _ 0 (by omega) (le_refl _) (h.le (by omega) (by omega)), piece_left h 0 (by omega)]
  | succ i => rw [splint_inside h _ i hi (h.le (by omega) hi) (le_refl _), piece_right h i hi]

/-- **C29.** Whatever the tridiagonal solver returned, a cubic spline evaluated at any of its nodes returns the node value
exactly, with and without fixed extrapolation. -/
theorem C29_nodes (s : Spline α) (h : Grid s.x) (hy : s.y.length = s.x.length) (i : Nat) (hi : i < s.x.length) :
    call s (s.x.getD i 0) = s.y.getD i 0 := by
  unfold call
  by_cases h1 : s.fixextrap = true
  swap
  · rw [if_pos h1]; exact splint_node h i hi
  · rw [if_neg (not_not.mpr h1)]
    simp only
    have hlt : s.x.getD i 0 ≤ s.x.getD (s.x.length - 1) 0 := h.le (by omega) (by omega)
    have hge : s.x.getD 0 0 ≤ s.x.getD i 0 := h.le (by omega) hi
    rw [if_neg (not_lt.mpr hlt), if_neg (not_lt.mpr hge)]
    exact splint_node h i hi

/-- With fixed extrapolation the spline is constant outside its nodes. -/
theorem C29_fixextrap (s : Spline α) (h : Grid s.x) (hy : s.y.length = s.x.length) (hf : s.fixextrap = true) (q : α) :
    (q < s.x.getD 0 0 → call s q = s.y.getD 0 0) ∧
    (s.x.getD (s.x.length - 1) 0 < q → call s q = s.y.getD (s.x.length - 1) 0) := by
  have hlen := h.1
  have hle : s.x.getD 0 0 ≤ s.x.getD (s.x.length - 1) 0 := h.le (by omega) (by omega)
  unfold call
  simp only [hf, not_true_eq_false, if_false]
  constructor
  · intro hq
    rw [if_neg (not_lt.mpr (hq.le.trans hle)), if_pos hq]
  · intro hq
    rw [if_pos hq, hy]

example : call (α := ℚ) { x := [0, 1, 3], y := [5, 7, 1], y2 := [0, -5, 0], fixextrap := true } 1 = 7 := by
  decide +kernel

/-! ## C89: the natural spline is smooth -/

open Polynomial in
/-- The cubic polynomial of a segment. -/
noncomputable def piecePoly (s : Spline α) (lo : Nat) : α[X] :=
  let dx := s.x.getD (lo + 1) 0 - s.x.getD lo 0
  let a : α[X] := C (dx⁻¹) * (C (s.x.getD (lo + 1) 0) - X)
  let b : α[X] := C (dx⁻¹) * (X - C (s.x.getD lo 0))
  a * C (s.y.getD lo 0) + b * C (s.y.getD (lo + 1) 0) +
    ((a ^ 3 - a) * C (s.y2.getD lo 0) + (b ^ 3 - b) * C (s.y2.getD (lo + 1) 0)) * C (dx ^ 2 / 6)

theorem piecePoly_eval (s : Spline α) (lo : Nat) (q : α) : (piecePoly s lo).eval q = piece s lo q := by
  unfold piecePoly piece
  simp only [Polynomial.eval_add, Polynomial.eval_mul, Polynomial.eval_sub, Polynomial.eval_pow, Polynomial.eval_C,
    Polynomial.eval_X]
  simp only [div_eq_mul_inv]
  ring

open Polynomial in
theorem piecePoly_deriv (s : Spline α) (lo : Nat) (q : α) :
    (derivative (piecePoly s lo)).eval q =
      (s.x.getD (lo + 1) 0 - s.x.getD lo 0)⁻¹ * (s.y.getD (lo + 1) 0 - s.y.getD lo 0) +
      (s.x.getD (lo + 1) 0 - s.x.getD lo 0)⁻¹ * ((s.x.getD (lo + 1) 0 - s.x.getD lo 0) ^ 2 / 6) *
      ((1 - 3 * ((s.x.getD (lo + 1) 0 - s.x.getD lo 0)⁻¹ * (s.x.getD (lo + 1) 0 - q)) ^ 2) * s.y2.getD lo 0 +
       (3 * ((s.x.getD (lo + 1) 0 - s.x.getD lo 0)⁻¹ * (q - s.x.getD lo 0)) ^ 2 - 1) * s.y2.getD (lo + 1) 0) := by
  unfold piecePoly
  simp only [derivative_add, derivative_sub, derivative_mul, derivative_pow, derivative_C, derivative_X,
    eval_add, eval_mul, eval_sub, eval_pow, eval_C, eval_X, eval_zero, eval_one, eval_natCast, Nat.cast_ofNat, Nat.reduceSub]
  simp
  ring

open Polynomial in
theorem piecePoly_deriv2 (s : Spline α) (lo : Nat) (q : α)
    (hd : s.x.getD (lo + 1) 0 - s.x.getD lo 0 ≠ 0) :
    (derivative (derivative (piecePoly s lo))).eval q =
      (s.x.getD (lo + 1) 0 - s.x.getD lo 0)⁻¹ * ((s.x.getD (lo + 1) 0 - q) * s.y2.getD lo 0 +
        (q - s.x.getD lo 0) * s.y2.getD (lo + 1) 0) := by
  unfold piecePoly
  simp only [derivative_add, derivative_sub, derivative_mul, derivative_pow, derivative_C, derivative_X,
    eval_add, eval_mul, eval_sub, eval_pow, eval_C, eval_X, eval_zero, eval_one]
  simp
  field_simp
  ring

open Polynomial in
/-- **C89.** If the solver solved the system it was given, the natural spline is a piecewise cubic that is smooth: on
every segment it is a polynomial, at every interior node slope and curvature of the two adjacent polynomials agree (and
so do the values), and at the two ends the curvature is zero. -/
theorem C89_smooth (s : Spline α) (h : Grid s.x) (hsys : naturalSystem s.x s.y s.y2) :
    (∀ i q, i + 1 < s.x.length → s.x.getD i 0 ≤ q → q ≤ s.x.getD (i + 1) 0 →
      splint s q = (piecePoly s i).eval q ∧ (piecePoly s i).natDegree ≤ 3) ∧
    (∀ i, i + 2 < s.x.length →
      (piecePoly s i).eval (s.x.getD (i + 1) 0) = (piecePoly s (i + 1)).eval (s.x.getD (i + 1) 0) ∧
      (derivative (piecePoly s i)).eval (s.x.getD (i + 1) 0) =
        (derivative (piecePoly s (i + 1))).eval (s.x.getD (i + 1) 0) ∧
      (derivative (derivative (piecePoly s i))).eval (s.x.getD (i + 1) 0) =
        (derivative (derivative (piecePoly s (i + 1)))).eval (s.x.getD (i + 1) 0)) ∧
    (derivative (derivative (piecePoly s 0))).eval (s.x.getD 0 0) = 0 ∧
    (derivative (derivative (piecePoly s (s.x.length - 2)))).eval (s.x.getD (s.x.length - 1) 0) = 0 := by
  have hlen := h.1
  refine ⟨?_, ?_, ?_, ?_⟩
  · intro i q hi h1 h2
    refine ⟨by rw [splint_inside h q i hi h1 h2, piecePoly_eval], ?_⟩
    unfold piecePoly
    simp only
    compute_degree
  · intro i hi
    have hd1 := (sub_pos.mpr (h.lt (Nat.lt_succ_self i) (show i + 1 < s.x.length by omega))).ne'
    have hd2 := (sub_pos.mpr (h.lt (Nat.lt_succ_self (i + 1)) (show i + 1 + 1 < s.x.length by omega))).ne'
    refine ⟨?_, ?_, ?_⟩
    · rw [piecePoly_eval, piecePoly_eval, piece_right h i (by omega), piece_left h (i + 1) (by omega)]
    · have he := hsys.2.2 (i + 1) (by omega) (by omega)
      rw [piecePoly_deriv, piecePoly_deriv]
      simp only [Nat.add_sub_cancel, Nat.succ_eq_add_one] at he hd1 hd2
      field_simp at he ⊢
      linear_combination (1 / 3 : α) * he
    · rw [piecePoly_deriv2 _ _ _ hd1, piecePoly_deriv2 _ _ _ hd2]
      simp only [Nat.succ_eq_add_one] at hd1 hd2
      field_simp
      ring
  · have hd1 := (sub_pos.mpr (h.lt (Nat.lt_succ_self 0) (show 0 + 1 < s.x.length by omega))).ne'
    rw [piecePoly_deriv2 _ _ _ hd1, hsys.1]
    ring
  · have e : s.x.length - 1 = s.x.length - 2 + 1 := by omega
    have hd1 := (sub_pos.mpr (h.lt (Nat.lt_succ_self (s.x.length - 2)) (show s.x.length - 2 + 1 < s.x.length by omega))).ne'
    rw [piecePoly_deriv2 _ _ _ hd1, ← e, hsys.2.1]
    ring

/-- Three nodes and the solution of their system. -/
example : naturalSystem [(0 : ℚ), 1, 3] [5, 7, 1] [0, -5, 0] := by
  refine ⟨by decide +kernel, by decide +kernel, ?_⟩
  intro i h1 h2
  have : i = 1 := by simp at h2; omega
  subst this
  decide +kernel

/-! ## C27: cloud in cell -/

/-- What one axis gives for a position inside the grid. -/
theorem axis_spec [FloorRing α] (n : Nat) (iso : Bool) (pos : α) (h0 : 0 ≤ pos) (h1 : pos < n) :
    0 ≤ (axis n iso pos).1 ∧ (axis n iso pos).1 < n ∧ 0 ≤ (axis n iso pos).2.1 ∧
    0 ≤ (axis n iso pos).2.2.1 ∧ (axis n iso pos).2.2.1 < n ∧ 0 ≤ (axis n iso pos).2.2.2 ∧
    (axis n iso pos).2.1 + (axis n iso pos).2.2.2 ≤ 1 ∧
    ((iso = false ∨ (1 / 2 ≤ pos ∧ pos ≤ n - 1 / 2)) → (axis n iso pos).2.1 + (axis n iso pos).2.2.2 = 1) := by
  have hk0 : 0 ≤ ⌊pos⌋ := Int.floor_nonneg.mpr h0
  have hk1 : ⌊pos⌋ < n := by
    rw [Int.floor_lt]; exact_mod_cast h1
  have hf1 := Int.floor_le pos
  have hf2 := Int.lt_floor_add_one pos
  have hab : |(⌊pos⌋ : α) + 1 / 2 - pos| ≤ 1 / 2 := by
    rw [abs_le]; constructor <;> linarith
  have habn := abs_nonneg ((⌊pos⌋ : α) + 1 / 2 - pos)
  unfold axis
  simp only
  by_cases hd : (⌊pos⌋ : α) + 1 / 2 - pos < 0
  · rw [if_pos hd]
    have e : ⌊pos⌋ - 1 + 2 = ⌊pos⌋ + 1 := by ring
    rw [e, if_neg (show ¬ (⌊pos⌋ + 1 = -1) by omega)]
    by_cases hn : ⌊pos⌋ + 1 = (n : Int)
    · rw [if_pos hn]
      refine ⟨hk0, hk1, by linarith, le_refl _, by simp only; omega, ?_, ?_, ?_⟩
      · cases iso <;> simp
      · cases iso <;> simp
      · rintro (hi | ⟨_, h3⟩)
        · simp [hi]
        · exfalso
          have : ((n : Int) : α) = (⌊pos⌋ : α) + 1 := by rw [← hn]; push_cast; ring
          have e2 : ((n : Int) : α) = (n : α) := by norm_cast
          rw [e2] at this
          linarith
    · rw [if_neg hn]
      exact ⟨hk0, hk1, by linarith, by simp only; omega, by simp only; omega, habn, by simp, fun _ => by simp⟩
  · rw [if_neg hd]
    by_cases hm : ⌊pos⌋ - 1 = -1
    · rw [if_pos hm]
      rw [if_neg (show ¬ ((n : Int) - 1 = (n : Int)) by omega)]
      refine ⟨hk0, hk1, by linarith, by simp only; omega, by simp only; omega, ?_, ?_, ?_⟩
      · cases iso <;> simp
      · cases iso <;> simp
      · rintro (hi | ⟨h3, _⟩)
        · simp [hi]
        · have hz : ⌊pos⌋ = 0 := by omega
          have : |(⌊pos⌋ : α) + 1 / 2 - pos| = 0 := by
            rw [abs_eq_zero]
            rw [hz] at hd ⊢
            simp only [Int.cast_zero] at hd ⊢
            linarith
          rw [this]
          simp
    · rw [if_neg hm]
      rw [if_neg (show ¬ (⌊pos⌋ - 1 = (n : Int)) by omega)]
      exact ⟨hk0, hk1, by linarith, by simp only; omega, by simp only; omega, habn, by simp, fun _ => by simp⟩

theorem flat_index (a b A B : Int) (ha0 : 0 ≤ a) (ha : a < A) (hb0 : 0 ≤ b) (hb : b < B) :
    0 ≤ a + b * A ∧ a + b * A < A * B := by
  constructor
  · have : 0 ≤ b * A := mul_nonneg hb0 (by omega)
    omega
  · have h1 : b * A ≤ (B - 1) * A := mul_le_mul_of_nonneg_right (by omega) (by omega)
    nlinarith

theorem addAt_spec (parts : List (Int × α)) : ∀ (field : List α),
    (∀ c ∈ parts, 0 ≤ c.1 ∧ c.1 < field.length) →
    ∃ out, addAt field parts = .ok out ∧ out.length = field.length ∧
      out.sum = field.sum + (parts.map Prod.snd).sum := by
  induction parts with
  | nil => intro field _; exact ⟨field, rfl, rfl, by simp⟩
  | cons c rest ih =>
    intro field h
    obtain ⟨k, v⟩ := c
    obtain ⟨h0, h1⟩ := h (k, v) (by simp)
    simp only at h0 h1
    unfold addAt
    simp only [if_neg (not_lt.mpr h0), if_pos (And.intro h0 h1)]
    have hk : k.toNat < field.length := by omega
    obtain ⟨out, ho, hl, hs⟩ := ih (field.set k.toNat (field.getD k.toNat 0 + v)) (by
      intro c hc
      rw [List.length_set]
      exact h c (by simp [hc]))
    refine ⟨out, ho, by rw [hl, List.length_set], ?_⟩
    rw [hs]
    have hset : (field.set k.toNat (field.getD k.toNat 0 + v)).sum = field.sum + v := by
      have hg : field.getD k.toNat 0 = field[k.toNat] := by
        rw [List.getD_eq_getElem?_getD, List.getElem?_eq_getElem hk]; rfl
      have e1 := List.take_append_drop k.toNat field
      have e2 : field.drop k.toNat = field[k.toNat] :: field.drop (k.toNat + 1) := List.drop_eq_getElem_cons hk
      rw [List.set_eq_take_append_cons_drop, if_pos hk, hg]
      conv_rhs => rw [← e1, e2]
      simp only [List.sum_append, List.sum_cons]
      ring
    rw [hset, List.map_cons, List.sum_cons]
    ring

/-- The grid sizes that matter: unused axes have size 1. -/
def InGrid (dim nx ny nz : Nat) (s : Sample α) : Prop :=
  (0 ≤ s.x ∧ s.x < nx) ∧ (2 ≤ dim → 0 ≤ s.y ∧ s.y < ny) ∧ (dim = 3 → 0 ≤ s.z ∧ s.z < nz)

/-- The point is at least half a cell away from the border of the grid (so no share of it falls outside). -/
def AwayFromBorder (dim nx ny nz : Nat) (s : Sample α) : Prop :=
  (1 / 2 ≤ s.x ∧ s.x ≤ nx - 1 / 2) ∧ (2 ≤ dim → 1 / 2 ≤ s.y ∧ s.y ≤ ny - 1 / 2) ∧
    (dim = 3 → 1 / 2 ≤ s.z ∧ s.z ≤ nz - 1 / 2)

theorem corners_spec [FloorRing α] (dim nx ny nz : Nat) (hdim : dim = 1 ∨ dim = 2 ∨ dim = 3)
    (hy : dim = 1 → ny = 1) (hz : dim ≤ 2 → nz = 1) (iso : Bool) (s : Sample α) (hs : InGrid dim nx ny nz s) :
    (∀ c ∈ corners dim nx ny nz iso s, (0 ≤ c.1 ∧ c.1 < ((nx * ny * nz : Nat) : Int)) ∧ 0 ≤ c.2) ∧
    ((corners dim nx ny nz iso s).map Prod.snd).sum ≤ 1 ∧
    ((iso = false ∨ AwayFromBorder dim nx ny nz s) → ((corners dim nx ny nz iso s).map Prod.snd).sum = 1) := by
  obtain ⟨hx, hyy, hzz⟩ := hs
  obtain ⟨x1, x2, x3, x4, x5, x6, x7, x8⟩ := axis_spec nx iso s.x hx.1 hx.2
  have hcast : ((nx * ny * nz : Nat) : Int) = (nx : Int) * ny * nz := by push_cast; ring
  rw [hcast]
  have key : ∀ (kx ky kz : Int), 0 ≤ kx → kx < nx → 0 ≤ ky → ky < ny → 0 ≤ kz → kz < nz →
      0 ≤ kx + ky * nx + kz * (nx * ny) ∧ kx + ky * nx + kz * (nx * ny) < (nx : Int) * ny * nz := by
    intro kx ky kz a1 a2 a3 a4 a5 a6
    obtain ⟨b1, b2⟩ := flat_index kx ky nx ny a1 a2 a3 a4
    exact flat_index (kx + ky * nx) kz (nx * ny) nz b1 b2 a5 a6
  generalize hax : axis nx iso s.x = ax at *
  obtain ⟨kx1, wx1, kx2, wx2⟩ := ax
  simp only at x1 x2 x3 x4 x5 x6 x7 x8
  rcases hdim with rfl | rfl | rfl
  · have := hy rfl
    have := hz (by omega)
    subst_vars
    simp only [corners, hax, show ¬ (2 ≤ 1) by omega, if_false, show ¬ ((1 : Nat) = 3) by omega, List.append_nil]
    refine ⟨?_, ?_, ?_⟩
    · intro c hc
      simp only [List.mem_cons, List.not_mem_nil, or_false] at hc
      rcases hc with rfl | rfl
      · exact ⟨key _ 0 0 x1 x2 (le_refl _) (by norm_num) (le_refl _) (by norm_num), by simpa using x3⟩
      · exact ⟨key _ 0 0 x4 x5 (le_refl _) (by norm_num) (le_refl _) (by norm_num), by simpa using x6⟩
    · simpa using x7
    · intro h
      have := x8 (h.imp id (fun a => a.1))
      simpa using this
  · have := hz (by omega)
    subst_vars
    obtain ⟨y0, y1⟩ := hyy (by omega)
    obtain ⟨y1, y2, y3, y4, y5, y6, y7, y8⟩ := axis_spec ny iso s.y y0 y1
    generalize hay : axis ny iso s.y = ay at *
    obtain ⟨ky1, wy1, ky2, wy2⟩ := ay
    simp only at y1 y2 y3 y4 y5 y6 y7 y8
    simp only [corners, hax, hay, show (2 ≤ 2) by omega, if_true, show ¬ ((2 : Nat) = 3) by omega, if_false, List.append_nil]
    refine ⟨?_, ?_, ?_⟩
    · intro c hc
      simp only [List.cons_append, List.nil_append, List.mem_cons, List.not_mem_nil, or_false] at hc
      rcases hc with rfl | rfl | rfl | rfl
      · exact ⟨key _ _ 0 x1 x2 y1 y2 (le_refl _) (by norm_num), by positivity⟩
      · exact ⟨key _ _ 0 x4 x5 y1 y2 (le_refl _) (by norm_num), by positivity⟩
      · exact ⟨key _ _ 0 x1 x2 y4 y5 (le_refl _) (by norm_num), by positivity⟩
      · exact ⟨key _ _ 0 x4 x5 y4 y5 (le_refl _) (by norm_num), by positivity⟩
    · simp only [List.cons_append, List.nil_append, List.map_cons, List.map_nil, List.sum_cons, List.sum_nil]
      have : (wx1 + wx2) * (wy1 + wy2) ≤ 1 := mul_le_one₀ x7 (by positivity) y7
      linarith
    · intro h
      have h1 := x8 (h.imp id (fun a => a.1))
      have h2 := y8 (h.imp id (fun a => a.2.1 (by omega)))
      simp only [List.cons_append, List.nil_append, List.map_cons, List.map_nil, List.sum_cons, List.sum_nil]
      have : (wx1 + wx2) * (wy1 + wy2) = 1 := by rw [h1, h2, one_mul]
      linarith
  · obtain ⟨y0, y1⟩ := hyy (by omega)
    obtain ⟨y1, y2, y3, y4, y5, y6, y7, y8⟩ := axis_spec ny iso s.y y0 y1
    generalize hay : axis ny iso s.y = ay at *
    obtain ⟨ky1, wy1, ky2, wy2⟩ := ay
    simp only at y1 y2 y3 y4 y5 y6 y7 y8
    obtain ⟨z0, z1⟩ := hzz rfl
    obtain ⟨z1, z2, z3, z4, z5, z6, z7, z8⟩ := axis_spec nz iso s.z z0 z1
    generalize haz : axis nz iso s.z = az at *
    obtain ⟨kz1, wz1, kz2, wz2⟩ := az
    simp only at z1 z2 z3 z4 z5 z6 z7 z8
    simp only [corners, hax, hay, haz, show (2 ≤ 3) by omega, if_true]
    refine ⟨?_, ?_, ?_⟩
    · intro c hc
      simp only [List.cons_append, List.nil_append, List.mem_cons, List.not_mem_nil, or_false] at hc
      rcases hc with rfl | rfl | rfl | rfl | rfl | rfl | rfl | rfl
      · exact ⟨key _ _ _ x1 x2 y1 y2 z1 z2, by positivity⟩
      · exact ⟨key _ _ _ x4 x5 y1 y2 z1 z2, by positivity⟩
      · exact ⟨key _ _ _ x1 x2 y4 y5 z1 z2, by positivity⟩
      · exact ⟨key _ _ _ x4 x5 y4 y5 z1 z2, by positivity⟩
      · exact ⟨key _ _ _ x1 x2 y1 y2 z4 z5, by positivity⟩
      · exact ⟨key _ _ _ x4 x5 y1 y2 z4 z5, by positivity⟩
      · exact ⟨key _ _ _ x1 x2 y4 y5 z4 z5, by positivity⟩
      · exact ⟨key _ _ _ x4 x5 y4 y5 z4 z5, by positivity⟩
    · simp only [List.cons_append, List.nil_append, List.map_cons, List.map_nil, List.sum_cons, List.sum_nil]
      have h1 : (wx1 + wx2) * (wy1 + wy2) ≤ 1 := mul_le_one₀ x7 (by positivity) y7
      have : (wx1 + wx2) * (wy1 + wy2) * (wz1 + wz2) ≤ 1 := mul_le_one₀ h1 (by positivity) z7
      linarith
    · intro h
      have h1 := x8 (h.imp id (fun a => a.1))
      have h2 := y8 (h.imp id (fun a => a.2.1 (by omega)))
      have h3 := z8 (h.imp id (fun a => a.2.2 rfl))
      simp only [List.cons_append, List.nil_append, List.map_cons, List.map_nil, List.sum_cons, List.sum_nil]
      have : (wx1 + wx2) * (wy1 + wy2) * (wz1 + wz2) = 1 := by rw [h1, h2, h3, one_mul, one_mul]
      linarith

theorem parts_sum [FloorRing α] (dim nx ny nz : Nat) (iso : Bool) (samples : List (Sample α)) :
    ((samples.flatMap fun s => (corners dim nx ny nz iso s).map fun c => (c.1, c.2 * s.value)).map Prod.snd).sum =
      (samples.map fun s => ((corners dim nx ny nz iso s).map Prod.snd).sum * s.value).sum := by
  induction samples with
  | nil => rfl
  | cons s ss ih =>
    rw [List.flatMap_cons, List.map_append, List.sum_append, ih, List.map_cons, List.sum_cons, List.map_map]
    congr 1
    have : (Prod.snd ∘ fun c : Int × α => (c.1, c.2 * s.value)) = fun c => c.2 * s.value := by funext c; rfl
    rw [this, List.sum_map_mul_right]

/-- The grid sizes used by the code in dimension `dim`. -/
def effY (dim ny : Nat) : Nat := if dim = 1 then 1 else ny
def effZ (dim nz : Nat) : Nat := if dim ≤ 2 then 1 else nz

/-- **C27.** For every set of points inside the grid the deposition succeeds with one value per grid cell, and the total
deposited is the total weight of the points, exactly: for periodic data always, for isolated data when the points are at
least half a cell from the border. -/
theorem C27_conserves [FloorRing α] (dim nx ny nz : Nat) (hdim : dim = 1 ∨ dim = 2 ∨ dim = 3) (iso : Bool)
    (samples : List (Sample α)) (hin : ∀ s ∈ samples, InGrid dim nx ny nz s)
    (hw : iso = false ∨ ∀ s ∈ samples, AwayFromBorder dim nx ny nz s) :
    ∃ field, cic dim nx ny nz iso false samples = .ok field ∧
      field.length = nx * effY dim ny * effZ dim nz ∧
      field.sum = (samples.map Sample.value).sum := by
  have hg : ∀ s ∈ samples, InGrid dim nx (effY dim ny) (effZ dim nz) s := by
    intro s hs
    obtain ⟨a, b, c⟩ := hin s hs
    refine ⟨a, fun h => ?_, fun h => ?_⟩
    · rw [effY, if_neg (by omega)]; exact b h
    · rw [effZ, if_neg (by omega)]; exact c h
  have hb : ∀ s ∈ samples, iso = false ∨ AwayFromBorder dim nx (effY dim ny) (effZ dim nz) s := by
    intro s hs
    rcases hw with h | h
    · exact Or.inl h
    · right
      obtain ⟨a, b, c⟩ := h s hs
      refine ⟨a, fun h => ?_, fun h => ?_⟩
      · rw [effY, if_neg (by omega)]; exact b h
      · rw [effZ, if_neg (by omega)]; exact c h
  have hc : ∀ s ∈ samples, _ := fun s hs => corners_spec dim nx (effY dim ny) (effZ dim nz) hdim
    (fun h => by simp [effY, h]) (fun h => by simp [effZ, h]) iso s (hg s hs)
  obtain ⟨out, ho, hl, hs⟩ := addAt_spec
    (samples.flatMap fun s => (corners dim nx (effY dim ny) (effZ dim nz) iso s).map fun c => (c.1, c.2 * s.value))
    (List.replicate (nx * effY dim ny * effZ dim nz) (0 : α)) (by
      intro c hcm
      obtain ⟨s, hsm, hcs⟩ := List.mem_flatMap.mp hcm
      obtain ⟨c', hc', rfl⟩ := List.mem_map.mp hcs
      rw [List.length_replicate]
      exact ((hc s hsm).1 c' hc').1)
  refine ⟨out, ?_, by rw [hl, List.length_replicate], ?_⟩
  · unfold cic
    simp only [show (if dim = 1 then 1 else ny) = effY dim ny from rfl,
      show (if dim ≤ 2 then 1 else nz) = effZ dim nz from rfl]
    rw [ho]
    rfl
  · rw [hs, parts_sum]
    simp only [List.sum_replicate, smul_zero, zero_add]
    congr 1
    apply List.map_congr_left
    intro s hsm
    rw [(hc s hsm).2.2 (hb s hsm), one_mul]

/-- Two points on a 2 × 3 grid meet the hypotheses. -/
example : (∀ s ∈ [(⟨5, 1/2, 1, 0⟩ : Sample ℚ), ⟨7, 5/4, 2, 0⟩], InGrid 2 2 3 1 s) ∧
    ∀ s ∈ [(⟨5, 1/2, 1, 0⟩ : Sample ℚ), ⟨7, 5/4, 2, 0⟩], AwayFromBorder 2 2 3 1 s := by
  constructor <;> intro s hs <;> fin_cases hs <;> norm_num [InGrid, AwayFromBorder]

/-- Along an axis, the share of a point that goes to cell `k` is the cloud-in-cell weight: one minus the distance of the
cell center (at `k + 1/2`), or nothing when that is negative.  For points at least half a cell from the border. -/
theorem C27_weights [FloorRing α] (n : Nat) (iso : Bool) (pos : α) (h0 : 1 / 2 ≤ pos) (h1 : pos ≤ n - 1 / 2) (k : Int) :
    (if k = (axis n iso pos).1 then (axis n iso pos).2.1 else 0) +
      (if k = (axis n iso pos).2.2.1 then (axis n iso pos).2.2.2 else 0) = max 0 (1 - |(k : α) + 1 / 2 - pos|) := by
  have hf1 := Int.floor_le pos
  have hf2 := Int.lt_floor_add_one pos
  have hk0 : 0 ≤ ⌊pos⌋ := Int.floor_nonneg.mpr (by linarith)
  have hkn : ⌊pos⌋ < n := by
    rw [Int.floor_lt]
    have e : ((n : Int) : α) = (n : α) := by norm_cast
    rw [e]; linarith
  have hcase : k ≤ ⌊pos⌋ - 2 ∨ k = ⌊pos⌋ - 1 ∨ k = ⌊pos⌋ ∨ k = ⌊pos⌋ + 1 ∨ ⌊pos⌋ + 2 ≤ k := by omega
  have far : (k ≤ ⌊pos⌋ - 2 ∨ ⌊pos⌋ + 2 ≤ k) → max 0 (1 - |(k : α) + 1 / 2 - pos|) = 0 := by
    intro h
    apply max_eq_left
    rcases h with h | h
    · have : (k : α) ≤ (⌊pos⌋ : α) - 2 := by exact_mod_cast h
      rw [abs_of_nonpos (by linarith)]; linarith
    · have : (⌊pos⌋ : α) + 2 ≤ (k : α) := by exact_mod_cast h
      rw [abs_of_nonneg (by linarith)]; linarith
  unfold axis
  simp only
  by_cases hd : (⌊pos⌋ : α) + 1 / 2 - pos < 0
  · rw [if_pos hd, show ⌊pos⌋ - 1 + 2 = ⌊pos⌋ + 1 by ring, if_neg (show ¬ (⌊pos⌋ + 1 = -1) by omega)]
    have hn : ¬ (⌊pos⌋ + 1 = (n : Int)) := by
      intro hn
      have : ((n : Int) : α) = (⌊pos⌋ : α) + 1 := by rw [← hn]; push_cast; ring
      have e2 : ((n : Int) : α) = (n : α) := by norm_cast
      rw [e2] at this
      linarith
    rw [if_neg hn, abs_of_neg hd]
    simp only
    rcases hcase with h | h | h | h | h
    · rw [far (Or.inl h), if_neg (by omega), if_neg (by omega), add_zero]
    · rw [if_neg (by omega), if_neg (by omega)]
      subst h
      push_cast
      rw [abs_of_neg (by linarith), max_eq_left (by linarith), add_zero]
    · rw [if_pos h, if_neg (by omega)]
      subst h
      rw [abs_of_neg hd, max_eq_right (by linarith), add_zero]
    · rw [if_neg (by omega), if_pos h]
      subst h
      push_cast
      rw [abs_of_nonneg (by linarith), max_eq_right (by linarith)]
      ring
    · rw [far (Or.inr h), if_neg (by omega), if_neg (by omega), add_zero]
  · have hd' := not_lt.mp hd
    rw [if_neg hd]
    by_cases hm : ⌊pos⌋ - 1 = -1
    · have hz : ⌊pos⌋ = 0 := by omega
      have hpz : pos = 1 / 2 := by
        rw [hz] at hd'
        simp only [Int.cast_zero] at hd'
        linarith
      rw [if_pos hm, if_neg (show ¬ ((n : Int) - 1 = (n : Int)) by omega), hz, hpz]
      have hw : (if iso = true then (0 : α) else |((0 : Int) : α) + 1 / 2 - 1 / 2|) = 0 := by
        split_ifs
        · rfl
        · simp
      simp only [hw, ite_self, add_zero]
      rcases hcase with h | h | h | h | h
      · have := far (Or.inl h); rw [hpz] at this; rw [this, if_neg (by omega)]
      · rw [hz] at h; subst h; norm_num
      · rw [hz] at h; subst h; norm_num
      · rw [hz] at h; subst h; norm_num
      · have := far (Or.inr h); rw [hpz] at this; rw [this, if_neg (by omega)]
    · rw [if_neg hm, if_neg (show ¬ (⌊pos⌋ - 1 = (n : Int)) by omega), abs_of_nonneg hd']
      simp only
      rcases hcase with h | h | h | h | h
      · rw [far (Or.inl h), if_neg (by omega), if_neg (by omega), add_zero]
      · rw [if_neg (by omega), if_pos h]
        subst h
        push_cast
        rw [abs_of_nonpos (by linarith), max_eq_right (by linarith)]
        ring
      · rw [if_pos h, if_neg (by omega)]
        subst h
        rw [abs_of_nonneg hd', max_eq_right (by linarith), add_zero]
      · rw [if_neg (by omega), if_neg (by omega)]
        subst h
        push_cast
        rw [abs_of_nonneg (by linarith), max_eq_left (by linarith), add_zero]
      · rw [far (Or.inr h), if_neg (by omega), if_neg (by omega), add_zero]

/-! ## C88: averaged fields -/

/-- Adding the same shares to a weighted field and to the field of weights keeps the field between the bounds times the
weights. -/
theorem addAt_bounds (m M : α) (tri : List (Int × α × α)) : ∀ (f t : List α), f.length = t.length →
    (∀ k, 0 ≤ t.getD k 0 ∧ m * t.getD k 0 ≤ f.getD k 0 ∧ f.getD k 0 ≤ M * t.getD k 0) →
    (∀ c ∈ tri, 0 ≤ c.2.1 ∧ m ≤ c.2.2 ∧ c.2.2 ≤ M) →
    ∀ f' t', addAt f (tri.map fun c => (c.1, c.2.1 * c.2.2)) = .ok f' → addAt t (tri.map fun c => (c.1, c.2.1)) = .ok t' →
      f'.length = t'.length ∧ ∀ k, 0 ≤ t'.getD k 0 ∧ m * t'.getD k 0 ≤ f'.getD k 0 ∧ f'.getD k 0 ≤ M * t'.getD k 0 := by
  induction tri with
  | nil =>
    intro f t hl hb _ f' t' h1 h2
    simp only [List.map_nil, addAt, Except.ok.injEq] at h1 h2
    subst h1 h2
    exact ⟨hl, hb⟩
  | cons c rest ih =>
    intro f t hl hb hc f' t' h1 h2
    obtain ⟨k, w, v⟩ := c
    obtain ⟨hw, hm, hM⟩ := hc (k, w, v) (by simp)
    simp only at hw hm hM
    simp only [List.map_cons, addAt] at h1 h2
    rw [← hl] at h2
    set k' := if k < 0 then k + (f.length : Int) else k with hk'
    by_cases hok : 0 ≤ k' ∧ k' < (f.length : Int)
    · rw [if_pos hok] at h1 h2
      refine ih _ _ (by simp [hl]) ?_ (fun c hc' => hc c (by simp [hc'])) f' t' h1 h2
      intro j
      obtain ⟨b1, b2, b3⟩ := hb j
      have hset : ∀ (l : List α) (x : α), l.length = f.length → (l.set k'.toNat x).getD j 0 =
          if j = k'.toNat then x else l.getD j 0 := by
        intro l x hll
        rw [List.getD_eq_getElem?_getD, List.getElem?_set, List.getD_eq_getElem?_getD]
        by_cases hj : k'.toNat = j
        · rw [if_pos hj, if_pos hj.symm, if_pos (by omega)]; rfl
        · rw [if_neg hj, if_neg (Ne.symm hj)]
      rw [hset f _ rfl, hset t _ hl.symm]
      by_cases hj : j = k'.toNat
      · rw [if_pos hj, if_pos hj, ← hj]
        have e1 : m * w ≤ w * v := by nlinarith
        have e2 : w * v ≤ M * w := by nlinarith
        refine ⟨by linarith, ?_, ?_⟩
        · rw [mul_add]; linarith
        · rw [mul_add]; linarith
      · rw [if_neg hj, if_neg hj]; exact ⟨b1, b2, b3⟩
    · rw [if_neg hok] at h1; simp at h1

/-- **C88.** With `average=True` every grid value is either zero (no sample reached the cell) or lies between the smallest
and the largest sample value. -/
theorem C88_average [FloorRing α] (dim nx ny nz : Nat) (hdim : dim = 1 ∨ dim = 2 ∨ dim = 3) (iso : Bool)
    (samples : List (Sample α)) (hin : ∀ s ∈ samples, InGrid dim nx ny nz s) (m M : α)
    (hmM : ∀ s ∈ samples, m ≤ s.value ∧ s.value ≤ M) :
    ∃ field, cic dim nx ny nz iso true samples = .ok field ∧ field.length = nx * effY dim ny * effZ dim nz ∧
      ∀ v ∈ field, v = 0 ∨ (m ≤ v ∧ v ≤ M) := by
  have hg : ∀ s ∈ samples, InGrid dim nx (effY dim ny) (effZ dim nz) s := by
    intro s hs
    obtain ⟨a, b, c⟩ := hin s hs
    refine ⟨a, fun h => ?_, fun h => ?_⟩
    · rw [effY, if_neg (by omega)]; exact b h
    · rw [effZ, if_neg (by omega)]; exact c h
  have hc : ∀ s ∈ samples, _ := fun s hs => corners_spec dim nx (effY dim ny) (effZ dim nz) hdim
    (fun h => by simp [effY, h]) (fun h => by simp [effZ, h]) iso s (hg s hs)
  set N := nx * effY dim ny * effZ dim nz with hN
  obtain ⟨f, hf, hfl, _⟩ := addAt_spec
    (samples.flatMap fun s => (corners dim nx (effY dim ny) (effZ dim nz) iso s).map fun c => (c.1, c.2 * s.value))
    (List.replicate N (0 : α)) (by
      intro c hcm
      obtain ⟨s, hsm, hcs⟩ := List.mem_flatMap.mp hcm
      obtain ⟨c', hc', rfl⟩ := List.mem_map.mp hcs
      rw [List.length_replicate]
      exact ((hc s hsm).1 c' hc').1)
  obtain ⟨t, ht, htl, _⟩ := addAt_spec
    (samples.flatMap fun s => corners dim nx (effY dim ny) (effZ dim nz) iso s)
    (List.replicate N (0 : α)) (by
      intro c hcm
      obtain ⟨s, hsm, hcs⟩ := List.mem_flatMap.mp hcm
      rw [List.length_replicate]
      exact ((hc s hsm).1 c hcs).1)
  have hrep : ∀ k, (List.replicate N (0 : α)).getD k 0 = 0 := by
    intro k
    rw [List.getD_eq_getElem?_getD, List.getElem?_replicate]
    split_ifs <;> rfl
  obtain ⟨hlen, hb⟩ := addAt_bounds m M
    (samples.flatMap fun s => (corners dim nx (effY dim ny) (effZ dim nz) iso s).map fun c => (c.1, c.2, s.value))
    (List.replicate N (0 : α)) (List.replicate N (0 : α)) rfl (fun k => by rw [hrep]; simp) (by
      intro c hcm
      obtain ⟨s, hsm, hcs⟩ := List.mem_flatMap.mp hcm
      obtain ⟨c', hc', rfl⟩ := List.mem_map.mp hcs
      exact ⟨((hc s hsm).1 c' hc').2, hmM s hsm⟩) f t
    (by rw [← hf, List.map_flatMap]; simp only [List.map_map]; rfl)
    (by
      rw [← ht, List.map_flatMap]
      simp only [List.map_map, Function.comp_def]
      simp)
  refine ⟨List.zipWith (fun f t => if t ≠ 0 then f / t else f) f t, ?_, ?_, ?_⟩
  · unfold cic
    simp only [show (if dim = 1 then 1 else ny) = effY dim ny from rfl,
      show (if dim ≤ 2 then 1 else nz) = effZ dim nz from rfl, ← hN]
    rw [hf]
    simp only [if_true]
    rw [ht]
  · rw [List.length_zipWith, hfl, htl, List.length_replicate]; omega
  · intro v hv
    obtain ⟨k, hk, rfl⟩ := List.mem_iff_getElem.mp hv
    rw [List.length_zipWith] at hk
    rw [List.getElem_zipWith]
    obtain ⟨b1, b2, b3⟩ := hb k
    have et : t.getD k 0 = t[k] := by
      rw [List.getD_eq_getElem?_getD, List.getElem?_eq_getElem (show k < t.length by omega)]; rfl
    have ef : f.getD k 0 = f[k] := by
      rw [List.getD_eq_getElem?_getD, List.getElem?_eq_getElem (show k < f.length by omega)]; rfl
    rw [et] at b1 b2 b3
    rw [ef] at b2 b3
    by_cases h0 : t[k] = 0
    · left
      rw [if_neg (not_not.mpr h0)]
      rw [h0, mul_zero] at b2 b3
      exact le_antisymm b3 b2
    · right
      have hpos : 0 < t[k] := lt_of_le_of_ne b1 (Ne.symm h0)
      rw [if_pos h0]
      exact ⟨(le_div_iff₀ hpos).mpr b2, (div_le_iff₀ hpos).mpr b3⟩

/-! ## C28: nodes -/

/-- The end of the useful range: the requested maximum node when it is non-negative and below the upper limit. -/
def useEnd (z1 : α) : Option α → α
  | none => z1
  | some x => if x < 0 then z1 else min x z1

theorem arange_getLast? [FloorRing α] (a b step : α) (hs : 0 < step) (hab : a < b) :
    ∃ n : Nat, arange a b step = (List.range (n + 1)).map (fun (i : Nat) => a + (i : α) * step) ∧
      a + (n : α) * step < b ∧ b ≤ a + ((n : α) + 1) * step := by
  have hpos : 0 < (b - a) / step := div_pos (sub_pos.mpr hab) hs
  have hc : 0 < ⌈(b - a) / step⌉ := Int.ceil_pos.mpr hpos
  refine ⟨⌈(b - a) / step⌉.toNat - 1, ?_, ?_, ?_⟩
  · unfold arange
    rw [show ⌈(b - a) / step⌉.toNat - 1 + 1 = ⌈(b - a) / step⌉.toNat by omega]
  · have h1 : (((⌈(b - a) / step⌉.toNat - 1 : Nat) : Int)) < ⌈(b - a) / step⌉ := by omega
    have h2 := Int.lt_ceil.mp h1
    rw [lt_div_iff₀ hs] at h2
    push_cast at h2 ⊢
    linarith
  · have h1 := Int.le_ceil ((b - a) / step)
    have h2 : ((⌈(b - a) / step⌉.toNat - 1 : Nat) : α) + 1 = (⌈(b - a) / step⌉ : α) := by
      have : (((⌈(b - a) / step⌉.toNat - 1 : Nat) : Int)) + 1 = ⌈(b - a) / step⌉ := by omega
      calc ((⌈(b - a) / step⌉.toNat - 1 : Nat) : α) + 1
          = (((((⌈(b - a) / step⌉.toNat - 1 : Nat) : Int)) + 1 : Int) : α) := by push_cast; ring
        _ = _ := by rw [this]
    rw [h2]
    rw [div_le_iff₀ hs] at h1
    linarith

/-- **C28, part.** For every range and positive node size with room for a node (the lower limit is below the end of the
useful range, and either a whole step or more than half a step plus 0.01 fits), the nodes are
`z0, z0 + step, …, z0 + k·step`, then the end of the useful range, then the upper limit when that is higher.  They strictly
increase, and the last regular spacing is between `min step (step/2 + 0.01)` and `3/2·step + 0.01`.

Missing: without that room the first node is not the lower limit. -/
theorem C28_nodes_partial [FloorRing α] (z0 z1 step : α) (maxnode : Option α) (hs : 0 < step)
    (h0 : z0 < useEnd z1 maxnode)
    (hroom : step < useEnd z1 maxnode - z0 ∨ step / 2 + 1 / 100 < useEnd z1 maxnode - z0) :
    ∃ (nodes : List α) (k : Nat), makeNodes z0 z1 step maxnode = .ok nodes ∧
      nodes = (List.range (k + 1)).map (fun (i : Nat) => z0 + (i : α) * step) ++ [useEnd z1 maxnode] ++
        (if useEnd z1 maxnode < z1 then [z1] else []) ∧
      nodes.Pairwise (· < ·) ∧ nodes.head? = some z0 ∧ nodes.getLast? = some z1 ∧ useEnd z1 maxnode ∈ nodes ∧
      min step (step / 2 + 1 / 100) ≤ useEnd z1 maxnode - (z0 + (k : α) * step) ∧
      useEnd z1 maxnode - (z0 + (k : α) * step) ≤ 3 / 2 * step + 1 / 100 := by
  set m := useEnd z1 maxnode with hm
  have hmz : m ≤ z1 := by
    rw [hm]; cases maxnode with
    | none => exact le_refl _
    | some x => simp only [useEnd]; split_ifs; exacts [le_refl _, min_le_right _ _]
  have hmm : nodeEnd z1 maxnode = m := by
    rw [hm]; cases maxnode with
    | none => rfl
    | some x =>
      simp only [useEnd, nodeEnd]
      split_ifs with hx
      · rfl
      · rw [max_eq_left (not_lt.mp hx)]
  obtain ⟨n, hn, hlast, hceil⟩ := arange_getLast? z0 m step hs h0
  -- facts true of every candidate list
  have finish : ∀ k : Nat, z0 + (k : α) * step < m →
      (((List.range (k + 1)).map (fun (i : Nat) => z0 + (i : α) * step) ++ [m] ++ (if m < z1 then [z1] else [])).Pairwise (· < ·) ∧
      ((List.range (k + 1)).map (fun (i : Nat) => z0 + (i : α) * step) ++ [m] ++ (if m < z1 then [z1] else [])).head? = some z0 ∧
      ((List.range (k + 1)).map (fun (i : Nat) => z0 + (i : α) * step) ++ [m] ++ (if m < z1 then [z1] else [])).getLast? = some z1 ∧
      m ∈ ((List.range (k + 1)).map (fun (i : Nat) => z0 + (i : α) * step) ++ [m] ++ (if m < z1 then [z1] else []))) := by
    intro k hk
    have hle : ∀ i, i < k + 1 → z0 + (i : α) * step < m := by
      intro i hi
      have : (i : α) * step ≤ (k : α) * step := by
        apply mul_le_mul_of_nonneg_right _ hs.le
        exact_mod_cast Nat.lt_succ_iff.mp hi
      linarith
    have hpw : ((List.range (k + 1)).map (fun (i : Nat) => z0 + (i : α) * step)).Pairwise (· < ·) := by
      rw [List.pairwise_map]
      refine List.pairwise_lt_range.imp ?_
      intro a b hab
      have : (a : α) * step < (b : α) * step := mul_lt_mul_of_pos_right (by exact_mod_cast hab) hs
      linarith
    refine ⟨?_, ?_, ?_, by simp⟩
    · rw [List.append_assoc, List.pairwise_append]
      refine ⟨hpw, ?_, ?_⟩
      · split_ifs with h
        · simpa using h
        · simp
      · intro a ha b hb
        obtain ⟨i, hi, rfl⟩ := List.mem_map.mp ha
        have := hle i (List.mem_range.mp hi)
        rcases List.mem_append.mp hb with hb | hb
        · rw [List.mem_singleton] at hb; rw [hb]; exact this
        · split_ifs at hb with h
          · rw [List.mem_singleton] at hb; rw [hb]; exact this.trans h
          · simp at hb
    · rw [List.range_succ_eq_map]; simp
    · split_ifs with h
      · simp
      · simp; exact le_antisymm hmz (not_lt.mp h)
  have hgl : (arange z0 m step).getLast? = some (z0 + (n : α) * step) := by
    rw [hn, List.range_succ, List.map_append]; simp
  unfold makeNodes
  simp only [hmm, hgl]
  by_cases happ : step / 2 + 1 / 100 < m - (z0 + (n : α) * step)
  · refine ⟨_, n, rfl, ?_, ?_⟩
    · rw [if_pos happ, hn]; split_ifs <;> simp
    · have e : (if m < z1 then (if step / 2 + 1 / 100 < m - (z0 + (n : α) * step) then arange z0 m step ++ [m]
          else (arange z0 m step).set ((arange z0 m step).length - 1) m) ++ [z1]
          else (if step / 2 + 1 / 100 < m - (z0 + (n : α) * step) then arange z0 m step ++ [m]
          else (arange z0 m step).set ((arange z0 m step).length - 1) m)) =
          (List.range (n + 1)).map (fun (i : Nat) => z0 + (i : α) * step) ++ [m] ++ (if m < z1 then [z1] else []) := by
        rw [if_pos happ, hn]; split_ifs <;> simp
      rw [e]
      obtain ⟨f1, f2, f3, f4⟩ := finish n hlast
      exact ⟨f1, f2, f3, f4, (min_le_right _ _).trans happ.le, by linarith⟩
  · -- the last node is moved: there are at least two
    have hn1 : 1 ≤ n := by
      by_contra hc
      have : n = 0 := by omega
      subst this
      simp only [Nat.cast_zero, zero_mul, add_zero, zero_add, one_mul] at *
      rcases hroom with h | h <;> linarith
    have hlast' : z0 + ((n - 1 : Nat) : α) * step < m := by
      have : ((n - 1 : Nat) : α) * step ≤ (n : α) * step := by
        apply mul_le_mul_of_nonneg_right _ hs.le
        exact_mod_cast Nat.sub_le n 1
      linarith
    have hcast : ((n - 1 : Nat) : α) = (n : α) - 1 := by push_cast [Nat.cast_sub hn1]; ring
    have e : (if m < z1 then (if step / 2 + 1 / 100 < m - (z0 + (n : α) * step) then arange z0 m step ++ [m]
        else (arange z0 m step).set ((arange z0 m step).length - 1) m) ++ [z1]
        else (if step / 2 + 1 / 100 < m - (z0 + (n : α) * step) then arange z0 m step ++ [m]
        else (arange z0 m step).set ((arange z0 m step).length - 1) m)) =
        (List.range (n - 1 + 1)).map (fun (i : Nat) => z0 + (i : α) * step) ++ [m] ++ (if m < z1 then [z1] else []) := by
      have e3 : (arange z0 m step).set ((arange z0 m step).length - 1) m =
          (List.range (n - 1 + 1)).map (fun (i : Nat) => z0 + (i : α) * step) ++ [m] := by
        rw [hn, show n - 1 + 1 = n by omega, List.length_map, List.length_range, List.range_succ, List.map_append]
        rw [List.set_append_right _ _ (by simp)]
        simp
      rw [if_neg happ, e3]; split_ifs <;> simp
    refine ⟨_, n - 1, rfl, e, ?_⟩
    rw [e]
    obtain ⟨f1, f2, f3, f4⟩ := finish (n - 1) hlast'
    refine ⟨f1, f2, f3, f4, (min_le_left _ _).trans ?_, ?_⟩
    · rw [hcast]; nlinarith
    · rw [hcast]; nlinarith [not_lt.mp happ]

/-- The hypotheses are met, and both branches occur. -/
example : (1 / 10 : ℚ) < useEnd (1 / 2) none ∧ (1 / 20 : ℚ) < useEnd (1 / 2) none - 1 / 10 := by
  norm_num [useEnd]

/-- The full property: for every non-empty range and positive node size, the nodes start at the lower limit and end at the
upper limit. -/
def C28_spec : Prop := ∀ (z0 z1 step : ℚ) (maxnode : Option ℚ), 0 < step → z0 < z1 →
  ∃ nodes, makeNodes z0 z1 step maxnode = .ok nodes ∧ nodes.head? = some z0 ∧ nodes.getLast? = some z1

/-- **C28 is false** when the node size exceeds the range: the only node is moved to the upper limit. -/
theorem C28_one_node_false : ¬ C28_spec := by
  intro h
  obtain ⟨nodes, h1, h2, _⟩ := h (1 / 10) (2 / 10) 1 none (by norm_num) (by norm_num)
  have hc : ⌈((2 / 10 : ℚ) - 1 / 10) / 1⌉ = 1 := by
    rw [Int.ceil_eq_iff]; norm_num
  have : makeNodes (1 / 10 : ℚ) (2 / 10) 1 none = .ok [2 / 10] := by
    simp only [makeNodes, nodeEnd, arange, hc]
    norm_num
  rw [this] at h1
  injection h1 with h1
  rw [← h1] at h2
  norm_num at h2

/-- A requested maximum node not above the lower limit makes the call fail. -/
theorem C28_low_maxnode [FloorRing α] (z0 z1 step : α) (x : α) (hs : 0 < step) (hx0 : 0 ≤ x) (hx : x ≤ z0) :
    makeNodes z0 z1 step (some x) = .error .valueError := by
  have hm : min (max x 0) z1 ≤ z0 := (min_le_left _ _).trans (by rw [max_eq_left hx0]; exact hx)
  have hr : arange z0 (min (max x 0) z1) step = [] := by
    unfold arange
    have : ⌈(min (max x 0) z1 - z0) / step⌉ ≤ 0 := by
      rw [Int.ceil_le]
      have : (min (max x 0) z1 - z0) / step ≤ 0 := div_nonpos_of_nonpos_of_nonneg (by linarith) hs.le
      simpa using this
    rw [show ⌈(min (max x 0) z1 - z0) / step⌉.toNat = 0 by omega]
    rfl
  simp only [makeNodes, nodeEnd, if_neg (not_lt.mpr hx0), hr]
  rfl

/-! ## C90: sampling from a tabulated distribution -/

/-- Where the first entry of the rounded cumulative distribution reaches the rounded draw: there is one, and unless it is
the very first, it has positive probability. -/
theorem cdf_pick [FloorRing α] (p : List α) (hp : ∀ v ∈ p, 0 ≤ v) (hsum : p.sum = 1) (u : α) (hu : u < 1) :
    ∃ i, (List.range ((Centering.cumsum 0 p).map fun c => ⌊c * (p.length : α)⌋).length).find?
        (fun i => decide (⌊u * (p.length : α)⌋ ≤ ((Centering.cumsum 0 p).map fun c => ⌊c * (p.length : α)⌋).getD i 0)) = some i ∧
      i < p.length ∧ (i = 0 ∨ 0 < p.getD i 0) := by
  set cdfi : List Int := (Centering.cumsum 0 p).map fun c => ⌊c * (p.length : α)⌋ with hcdfi
  have hn : 0 < p.length := by
    rcases p with _ | ⟨a, p⟩
    · simp at hsum
    · simp
  have hnα : (0 : α) < (p.length : α) := by exact_mod_cast hn
  have hclen : cdfi.length = p.length := by simp [hcdfi, Centering.cumsum_length]
  have hcd : ∀ i, i < p.length → cdfi.getD i 0 = ⌊(p.take (i + 1)).sum * (p.length : α)⌋ := by
    intro i hi
    have h1 : i < (Centering.cumsum 0 p).length := by rw [Centering.cumsum_length]; exact hi
    have h2 := Centering.cumsum_getD (0 : α) p i hi
    rw [List.getD_eq_getElem?_getD, hcdfi, List.getElem?_map, List.getElem?_eq_getElem h1]
    rw [List.getD_eq_getElem?_getD, List.getElem?_eq_getElem h1] at h2
    simp only [Option.getD_some, zero_add] at h2
    simp only [Option.map_some, Option.getD_some]
    rw [h2]
  have hlast : ⌊u * (p.length : α)⌋ ≤ cdfi.getD (p.length - 1) 0 := by
    rw [hcd _ (by omega), show p.length - 1 + 1 = p.length by omega, List.take_length, hsum]
    exact Int.floor_le_floor (mul_le_mul_of_nonneg_right hu.le hnα.le)
  have hfind : ∃ i, (List.range cdfi.length).find? (fun i => decide (⌊u * (p.length : α)⌋ ≤ cdfi.getD i 0)) = some i := by
    rw [← Option.isSome_iff_exists, List.find?_isSome]
    exact ⟨p.length - 1, List.mem_range.mpr (by omega), by simpa using hlast⟩
  obtain ⟨i, hi⟩ := hfind
  obtain ⟨hip, as, bs, hsplit, hbefore⟩ := List.find?_eq_some_iff_append.mp hi
  have himem : i ∈ List.range cdfi.length := by rw [hsplit]; simp
  have hilt : i < p.length := by rw [← hclen]; exact List.mem_range.mp himem
  refine ⟨i, hi, hilt, ?_⟩
  cases i with
  | zero => exact Or.inl rfl
  | succ i =>
    right
    by_contra hc
    have hpi : p.getD (i + 1) 0 = p[i + 1] := by
      rw [List.getD_eq_getElem?_getD, List.getElem?_eq_getElem hilt]; rfl
    have hz : p[i + 1] = 0 := le_antisymm (hpi ▸ not_lt.mp hc) (hp _ (List.getElem_mem hilt))
    have hmem : i ∈ as := by
      have hjm : i ∈ List.range cdfi.length := List.mem_range.mpr (by omega)
      have hpwr : (List.range cdfi.length).Pairwise (· < ·) := List.pairwise_lt_range
      rw [hsplit] at hjm hpwr
      rcases List.mem_append.mp hjm with h | h
      · exact h
      · exfalso
        rcases List.mem_cons.mp h with h | h
        · omega
        · have h1 := (List.pairwise_append.mp hpwr).2.1
          have h2 := (List.pairwise_cons.mp h1).1 i h
          omega
    have h1 := of_decide_eq_true hip
    rw [hcd _ hilt, List.take_add_one, List.sum_append, List.getElem?_eq_getElem hilt, hz] at h1
    simp only [Option.toList_some, List.sum_singleton, add_zero] at h1
    have h2 : ⌊u * (p.length : α)⌋ ≤ cdfi.getD i 0 := by rw [hcd i (by omega)]; exact h1
    have h3 := hbefore i hmem
    rw [decide_eq_true h2] at h3
    simp at h3

/-- **C90.** For every draw in `[0,1)` and every tabulated distribution (non-negative values, not all zero), the sample is
one of the grid points, and, unless it is the first grid point, one where the distribution is positive. -/
theorem C90_sample_partial [FloorRing α] (x pdf : List α) (hl : pdf.length = x.length) (hp : ∀ v ∈ pdf, 0 ≤ v)
    (hpos : ∃ v ∈ pdf, 0 < v) (u : α) (hu : u < 1) :
    ∃ i v, samplePdf x pdf u = .ok v ∧ x[i]? = some v ∧ (i = 0 ∨ 0 < pdf.getD i 0) := by
  have hsum : 0 < pdf.sum := by
    obtain ⟨p, hm, h0⟩ := hpos
    exact lt_of_lt_of_le h0 (List.single_le_sum (fun y hy => hp y hy) p hm)
  obtain ⟨i, hi, hilt, hor⟩ := cdf_pick (pdf.map fun v => v / pdf.sum)
    (by intro v hv; obtain ⟨w, hw, rfl⟩ := List.mem_map.mp hv; exact div_nonneg (hp w hw) hsum.le)
    (by
      have : (pdf.map fun x => x / pdf.sum) = pdf.map fun x => x * (pdf.sum)⁻¹ := by simp only [div_eq_mul_inv]
      rw [this, List.sum_map_mul_right, List.map_id']
      exact mul_inv_cancel₀ hsum.ne') u hu
  rw [List.length_map] at hilt
  simp only [List.length_map, hl] at hi
  have hix : i < x.length := by omega
  refine ⟨i, x[i], ?_, List.getElem?_eq_getElem hix, ?_⟩
  · unfold samplePdf
    simp only [List.length_map]
    rw [hi]
    simp only [List.getElem?_eq_getElem hix]
  · rcases hor with h | h
    · exact Or.inl h
    · right
      rw [List.getD_eq_getElem?_getD, List.getElem?_map, List.getElem?_eq_getElem hilt] at h
      rw [List.getD_eq_getElem?_getD, List.getElem?_eq_getElem hilt]
      simp only [Option.map_some, Option.getD_some] at h ⊢
      by_contra hc
      have := div_nonpos_of_nonpos_of_nonneg (not_lt.mp hc) hsum.le
      linarith

example : (∀ v ∈ [(0 : ℚ), 1, 2], 0 ≤ v) ∧ ∃ v ∈ [(0 : ℚ), 1, 2], 0 < v := by decide +kernel

/-- The full property: samples only fall where the distribution is positive. -/
def C90_spec : Prop := ∀ (x pdf : List ℚ), pdf.length = x.length → (∀ v ∈ pdf, 0 ≤ v) → (∃ v ∈ pdf, 0 < v) →
  ∀ u : ℚ, 0 ≤ u → u < 1 → ∃ i v, samplePdf x pdf u = .ok v ∧ x[i]? = some v ∧ 0 < pdf.getD i 0

/-- **C90 is false** at the first grid point: small draws select it even when its probability is zero. -/
theorem C90_first_point_false : ¬ C90_spec := by
  intro h
  obtain ⟨i, v, h1, h2, h3⟩ := h [5, 6] [0, 1] rfl (by decide) (by decide) 0 (le_refl _) (by norm_num)
  have hs : samplePdf [(5 : ℚ), 6] [0, 1] 0 = .ok 5 := by
    norm_num [samplePdf, Centering.cumsum, List.range_succ, List.find?_cons]
  rw [hs] at h1
  injection h1 with h1
  subst h1
  match i with
  | 0 => simp at h3
  | 1 => simp at h2
  | i + 2 => simp at h2

/-! ## C67: member file name -/

/-- **C67, exactly when it holds.** For a catalog file `<base>.fit` the member file looked for is `<base>_members.fit` if and
only if `<base>` is empty or does not end in one of the characters `.`, `f`, `i`, `t`. -/
theorem C67_member_file_partial (base : List Char) :
    membersFile (base ++ ".fit".toList) = base ++ "_members.fit".toList ↔
      ∀ c, base.getLast? = some c → c ≠ '.' ∧ c ≠ 'f' ∧ c ≠ 'i' ∧ c ≠ 't' := by
  have hstrip : rstrip ".fit".toList (base ++ ".fit".toList) = rstrip ".fit".toList base := by
    unfold rstrip
    rw [List.reverse_append]
    simp [List.dropWhile]
  unfold membersFile
  rw [hstrip, List.append_left_inj]
  induction base using List.reverseRecOn with
  | nil => simp [rstrip]
  | append_singleton l a _ =>
    have hm : (".fit".toList.contains a) = true ↔ (a = '.' ∨ a = 'f' ∨ a = 'i' ∨ a = 't') := by
      simp
    simp only [List.getLast?_append, List.getLast?_singleton, Option.some_or, Option.some.injEq, forall_eq']
    unfold rstrip
    rw [List.reverse_append, List.reverse_singleton, List.singleton_append, List.dropWhile_cons]
    by_cases hc : (".fit".toList.contains a) = true
    · rw [if_pos hc]
      constructor
      · intro h
        have h1 := congrArg List.length h
        have h2 : (List.dropWhile (fun c => ".fit".toList.contains c) l.reverse).length ≤ l.reverse.length :=
          (List.dropWhile_sublist _).length_le
        simp only [List.length_reverse, List.length_append, List.length_singleton] at h1 h2
        omega
      · intro h
        rcases hm.mp hc with h1 | h1 | h1 | h1 <;> simp [h1] at h
    · rw [if_neg hc]
      constructor
      · intro _
        rw [hm] at hc
        push Not at hc
        exact hc
      · intro _; simp

example : membersFile "run_dr8.fit".toList = "run_dr8_members.fit".toList := by decide +kernel

/-- The full property. -/
def C67_spec : Prop := ∀ base : List Char, membersFile (base ++ ".fit".toList) = base ++ "_members.fit".toList

/-- **C67 is false**: trailing letters of the base name that occur in ".fit" are removed as well. -/
theorem C67_rstrip_false : ¬ C67_spec := by
  intro h
  have := h "cat_final_cut".toList
  revert this
  decide +kernel

/-! ## C30: lock file -/

/-- The process has made the link and not yet removed the lock: it is about to return True, has returned True, or was killed
while in that position. -/
def Owns : PC → Prop
  | .linked => True
  | .held => True
  | .dead o _ => o = true
  | _ => False

/-- The process has a temporary file: a call is in progress, or it was killed in one. -/
def HasTemp : PC → Prop
  | .temp _ _ => True
  | .linked => True
  | .failing => True
  | .dead _ t => t = true
  | _ => False

def Inv (w : World) : Prop :=
  (∀ p q, Owns (w.pc p) → Owns (w.pc q) → p = q) ∧ (w.lock = true ↔ ∃ p, Owns (w.pc p)) ∧
    ∀ p, w.tmp p = true ↔ HasTemp (w.pc p)

theorem inv_init : Inv World.init := by
  refine ⟨?_, ?_, ?_⟩
  · intro p q h; exact h.elim
  · simp [World.init, Owns]
  · intro p; simp [World.init, HasTemp]

/-- A step that only moves process `p`, which neither gains nor loses the lock. -/
theorem inv_move (w : World) (p : Nat) (c : PC) (t : Bool) (h : Inv w) (ho : Owns c ↔ Owns (w.pc p))
    (ht : t = true ↔ HasTemp c) : Inv ((w.setTmp p t).setPc p c) := by
  obtain ⟨h1, h2, h3⟩ := h
  have hpc : ∀ q, Owns (((w.setTmp p t).setPc p c).pc q) ↔ Owns (w.pc q) := by
    intro q
    simp only [World.setPc, World.setTmp]
    by_cases hq : q = p
    · rw [if_pos hq, ho, hq]
    · rw [if_neg hq]
  refine ⟨?_, ?_, ?_⟩
  · intro a b ha hb; exact h1 a b ((hpc a).mp ha) ((hpc b).mp hb)
  · show w.lock = true ↔ _
    rw [h2]
    exact exists_congr fun q => (hpc q).symm
  · intro q
    simp only [World.setPc, World.setTmp]
    by_cases hq : q = p
    · rw [if_pos hq, if_pos hq]; exact ht
    · rw [if_neg hq, if_neg hq]; exact h3 q

theorem setPc_eq (w : World) (p : Nat) (c : PC) : w.setPc p c = (w.setTmp p (w.tmp p)).setPc p c := by
  have : w.setTmp p (w.tmp p) = w := by
    unfold World.setTmp
    cases w with
    | mk l t pc =>
      congr
      funext q
      simp only
      by_cases hq : q = p
      · rw [if_pos hq, hq]
      · rw [if_neg hq]
  rw [this]

theorem inv_act (maxtry : Nat) (w : World) (p : Nat) (a : Act) (w' : World) (h : Inv w)
    (ha : act maxtry w p a = some w') : Inv w' := by
  have h3 := h.2.2 p
  cases a with
  | start b =>
    unfold act at ha
    cases hp : w.pc p <;> simp only [hp] at ha <;> try contradiction
    injection ha with ha
    subst ha
    apply inv_move w p _ _ h
    · rw [hp]; split_ifs <;> simp [Owns]
    · split_ifs <;> simp [HasTemp]
  | step =>
    unfold act at ha
    cases hp : w.pc p <;> simp only [hp] at ha <;> try contradiction
    case temp b n =>
      by_cases hl : w.lock = true
      · rw [if_pos hl] at ha
        injection ha with ha
        subst ha
        rw [setPc_eq]
        rw [hp] at h3
        apply inv_move w p _ _ h
        · rw [hp]; split_ifs <;> simp [Owns]
        · rw [h3]; split_ifs <;> simp [HasTemp]
      · rw [if_neg hl] at ha
        injection ha with ha
        subst ha
        have hno : ∀ q, ¬ Owns (w.pc q) := by
          intro q hq; exact hl (h.2.1.mpr ⟨q, hq⟩)
        refine ⟨?_, ?_, ?_⟩
        · intro q r hq hr
          simp only [World.setPc] at hq hr
          by_cases e1 : q = p
          · by_cases e2 : r = p
            · rw [e1, e2]
            · rw [if_neg e2] at hr; exact absurd hr (hno r)
          · rw [if_neg e1] at hq; exact absurd hq (hno q)
        · refine ⟨fun _ => ⟨p, by simp [World.setPc, Owns]⟩, fun _ => rfl⟩
        · intro q
          simp only [World.setPc]
          by_cases hq : q = p
          · rw [if_pos hq, hq, h3, hp]; simp [HasTemp]
          · rw [if_neg hq]; exact h.2.2 q
    case linked =>
      injection ha with ha
      subst ha
      apply inv_move w p _ _ h
      · rw [hp]; simp [Owns]
      · simp [HasTemp]
    case failing =>
      injection ha with ha
      subst ha
      apply inv_move w p _ _ h
      · rw [hp]; simp [Owns]
      · simp [HasTemp]
  | release =>
    unfold act at ha
    cases hp : w.pc p <;> simp only [hp] at ha <;> try contradiction
    injection ha with ha
    subst ha
    have hown : Owns (w.pc p) := by rw [hp]; exact trivial
    have hno : ∀ q, q ≠ p → ¬ Owns (w.pc q) := fun q hq hq' => hq (h.1 q p hq' hown)
    refine ⟨?_, ?_, ?_⟩
    · intro q r hq hr
      simp only [World.setPc] at hq hr
      by_cases e1 : q = p
      · rw [if_pos e1] at hq; exact hq.elim
      · rw [if_neg e1] at hq; exact absurd hq (hno q e1)
    · constructor
      · intro hc; simp [World.setPc] at hc
      · rintro ⟨q, hq⟩
        simp only [World.setPc] at hq
        by_cases e1 : q = p
        · rw [if_pos e1] at hq; exact hq.elim
        · rw [if_neg e1] at hq; exact absurd hq (hno q e1)
    · intro q
      simp only [World.setPc]
      by_cases hq : q = p
      · rw [if_pos hq, hq, h3, hp]; simp [HasTemp]
      · rw [if_neg hq]; exact h.2.2 q
  | forget =>
    unfold act at ha
    cases hp : w.pc p <;> simp only [hp] at ha <;> try contradiction
    injection ha with ha
    subst ha
    rw [hp] at h3
    rw [setPc_eq]
    apply inv_move w p _ _ h
    · rw [hp]; simp [Owns]
    · rw [h3]; simp [HasTemp]
  | crash =>
    unfold act at ha
    cases hp : w.pc p <;> simp only [hp] at ha <;> try contradiction
    all_goals
      injection ha with ha
      subst ha
      rw [hp] at h3
      rw [setPc_eq]
      apply inv_move w p _ _ h
      · rw [hp]; simp [Owns]
      · rw [h3]; simp [HasTemp]

theorem inv_run (maxtry : Nat) (acts : List (Nat × Act)) : ∀ (w w' : World), Inv w → run maxtry w acts = some w' → Inv w' := by
  induction acts with
  | nil => intro w w' h hr; simp only [run, Option.some.injEq] at hr; exact hr ▸ h
  | cons x rest ih =>
    intro w w' h hr
    obtain ⟨p, a⟩ := x
    simp only [run] at hr
    cases ha : act maxtry w p a with
    | none => rw [ha] at hr; simp at hr
    | some w1 => rw [ha] at hr; exact ih w1 w' (inv_act maxtry w p a w1 h ha) hr

/-- **C30.** Whatever any number of processes do, in any interleaving, including being killed between any two system calls:
two processes never hold the lock at the same time; a temporary file exists only while its owner's call is in progress or
after its owner was killed in one; and while someone holds the lock the lock file exists. -/
theorem C30_mutex (maxtry : Nat) (acts : List (Nat × Act)) (w : World) (hr : run maxtry World.init acts = some w) :
    (∀ p q, w.pc p = .held → w.pc q = .held → p = q) ∧
    (∀ p, w.pc p = .held → w.lock = true) ∧
    (∀ p, (w.pc p = .idle ∨ w.pc p = .held ∨ w.pc p = .refused) → w.tmp p = false) ∧
    ((∀ p, w.pc p = .idle ∨ w.pc p = .refused) → w.lock = false) := by
  obtain ⟨h1, h2, h3⟩ := inv_run maxtry acts _ w inv_init hr
  refine ⟨?_, ?_, ?_, ?_⟩
  · intro p q hp hq; exact h1 p q (by rw [hp]; trivial) (by rw [hq]; trivial)
  · intro p hp; exact h2.mpr ⟨p, by rw [hp]; trivial⟩
  · intro p hp
    by_contra hc
    have := (h3 p).mp (by simpa using hc)
    rcases hp with hp | hp | hp <;> rw [hp] at this <;> exact this
  · intro hall
    by_contra hc
    obtain ⟨p, hp⟩ := h2.mp (by simpa using hc)
    rcases hall p with h | h <;> rw [h] at hp <;> exact hp

/-- Nothing another process does disturbs the holder: it still holds the lock and the lock file is still there. -/
theorem C30_undisturbed (maxtry : Nat) (acts more : List (Nat × Act)) (w w' : World) (p : Nat)
    (hr : run maxtry World.init acts = some w) (hp : w.pc p = .held) (hr' : run maxtry w more = some w')
    (hother : ∀ x ∈ more, x.1 ≠ p) : w'.pc p = .held ∧ w'.lock = true ∧ ∀ q, q ≠ p → w'.pc q ≠ .held := by
  have hkeep : ∀ (more : List (Nat × Act)) (v v' : World), run maxtry v more = some v' → (∀ x ∈ more, x.1 ≠ p) →
      v'.pc p = v.pc p := by
    intro more
    induction more with
    | nil => intro v v' h _; simp only [run, Option.some.injEq] at h; rw [h]
    | cons x rest ih =>
      intro v v' h ho
      obtain ⟨q, a⟩ := x
      simp only [run] at h
      cases ha : act maxtry v q a with
      | none => rw [ha] at h; simp at h
      | some v1 =>
        rw [ha] at h
        rw [ih v1 v' h fun x hx => ho x (by simp [hx])]
        have hq : q ≠ p := ho (q, a) (by simp)
        have hset : ∀ (u : World) c, (u.setPc q c).pc p = u.pc p := by
          intro u c; simp only [World.setPc]; rw [if_neg (Ne.symm hq)]
        cases a <;> unfold act at ha <;> cases hp : v.pc q <;> simp only [hp] at ha <;>
          (try contradiction)
        case step.temp b n =>
          by_cases hl : v.lock = true
          · rw [if_pos hl] at ha; injection ha with ha; rw [← ha, hset]
          · rw [if_neg hl] at ha; injection ha with ha; rw [← ha, hset]
        all_goals
          injection ha with ha
          rw [← ha, hset]
          try rfl
  have hp' : w'.pc p = .held := by rw [hkeep more w w' hr' hother, hp]
  obtain ⟨h1, h2, _⟩ := inv_run maxtry more w w' (inv_run maxtry acts _ w inv_init hr) hr'
  refine ⟨hp', h2.mpr ⟨p, by rw [hp']; trivial⟩, ?_⟩
  intro q hq hq'
  exact hq (h1 q p (by rw [hq']; trivial) (by rw [hp']; trivial))

/-- Number of system calls a call in progress can still make before it returns. -/
def remaining (maxtry : Nat) : PC → Nat
  | .temp true n => max 1 (maxtry - n) + 1
  | .temp false _ => 2
  | .linked => 1
  | .failing => 1
  | _ => 0

theorem remaining_pos (maxtry : Nat) (c : PC) :
    0 < remaining maxtry c ↔ (∃ b n, c = .temp b n) ∨ c = .linked ∨ c = .failing := by
  cases c with
  | temp b n => cases b <;> simp [remaining]
  | _ => simp [remaining]

/-- Every call returns: a call in progress can always take its next step, whatever the others have done, and each step
brings it closer to returning. -/
theorem C30_returns (maxtry : Nat) (w : World) (p : Nat)
    (hp : (∃ b n, w.pc p = .temp b n) ∨ w.pc p = .linked ∨ w.pc p = .failing) :
    ∃ w', act maxtry w p .step = some w' ∧ remaining maxtry (w'.pc p) < remaining maxtry (w.pc p) := by
  rw [← remaining_pos maxtry] at hp
  unfold act
  cases hc : w.pc p with
  | temp b n =>
    simp only
    by_cases hl : w.lock = true
    · rw [if_pos hl]
      refine ⟨_, rfl, ?_⟩
      simp only [World.setPc, if_true]
      cases b
      · simp [remaining]
      · simp only [if_true]
        split_ifs with h
        · simp only [remaining]; omega
        · simp only [remaining]; omega
    · rw [if_neg hl]
      refine ⟨_, rfl, ?_⟩
      simp only [World.setPc, if_true]
      cases b <;> simp [remaining]
  | linked => exact ⟨_, rfl, by simp [World.setPc, remaining]⟩
  | failing => exact ⟨_, rfl, by simp [World.setPc, remaining]⟩
  | idle => rw [hc] at hp; simp [remaining] at hp
  | held => rw [hc] at hp; simp [remaining] at hp
  | refused => rw [hc] at hp; simp [remaining] at hp
  | dead o t => rw [hc] at hp; simp [remaining] at hp

/-- A fresh call: started from idle, it has at most `max 1 maxtry + 1` system calls to make. -/
theorem C30_returns_bound (maxtry : Nat) (w w' : World) (p : Nat) (b : Bool) (h : act maxtry w p (.start b) = some w') :
    remaining maxtry (w'.pc p) ≤ max 1 maxtry + 1 := by
  unfold act at h
  cases hc : w.pc p <;> simp only [hc] at h <;> try contradiction
  injection h with h
  rw [← h]
  simp only [World.setPc, if_true]
  cases b
  · simp [remaining]
  · split_ifs <;> simp [remaining]

/-- A process killed while it owns the lock leaves it behind for good: nobody ever obtains it again. -/
theorem C30_stale (maxtry : Nat) (acts more : List (Nat × Act)) (w w' : World) (p : Nat) (t : Bool)
    (hr : run maxtry World.init acts = some w) (hp : w.pc p = .dead true t) (hr' : run maxtry w more = some w') :
    w'.lock = true ∧ ∀ q, w'.pc q ≠ .held := by
  have hkeep : ∀ (more : List (Nat × Act)) (v v' : World), v.pc p = .dead true t → run maxtry v more = some v' →
      v'.pc p = .dead true t := by
    intro more
    induction more with
    | nil => intro v v' hv h; simp only [run, Option.some.injEq] at h; rw [← h]; exact hv
    | cons x rest ih =>
      intro v v' hv h
      obtain ⟨q, a⟩ := x
      simp only [run] at h
      cases ha : act maxtry v q a with
      | none => rw [ha] at h; simp at h
      | some v1 =>
        rw [ha] at h
        refine ih v1 v' ?_ h
        have hq : q ≠ p := by
          rintro rfl
          cases a <;> simp [act, hv] at ha
        have hset : ∀ (u : World) c, (u.setPc q c).pc p = u.pc p := by
          intro u c; simp only [World.setPc]; rw [if_neg (Ne.symm hq)]
        cases a <;> unfold act at ha <;> cases hp : v.pc q <;> simp only [hp] at ha <;>
          (try contradiction)
        case step.temp b n =>
          by_cases hl : v.lock = true
          · rw [if_pos hl] at ha; injection ha with ha; rw [← ha, hset]; exact hv
          · rw [if_neg hl] at ha; injection ha with ha; rw [← ha, hset]; exact hv
        all_goals
          injection ha with ha
          rw [← ha, hset]
          exact hv
  have hd := hkeep more w w' hp hr'
  obtain ⟨h1, h2, _⟩ := inv_run maxtry more w w' (inv_run maxtry acts _ w inv_init hr) hr'
  refine ⟨h2.mpr ⟨p, by rw [hd]; rfl⟩, ?_⟩
  intro q hq
  have : q = p := h1 q p (by rw [hq]; trivial) (by rw [hd]; rfl)
  rw [this, hd] at hq
  simp at hq

/-- Two processes compete: the first gets the lock, the second is refused, the first releases it, a third gets it. -/
example : (run 300 World.init [(0, .start false), (1, .start false), (0, .step), (1, .step), (0, .step), (1, .step),
    (0, .release), (2, .start true), (2, .step), (2, .step)]).map (fun w => (w.pc 0, w.pc 1, w.pc 2, w.lock)) =
    some (.idle, .refused, .held, true) := by decide +kernel

end Redmapper.Utilities
