/-
Interpolation in floating point.
-/
import Verif.Model.FlSpline
import Verif.Props.FlBins
import Verif.Props.Utilities

namespace Redmapper.FlSpline

open Redmapper.FlSolver Redmapper.FlSolver.XF Redmapper.FlExact Redmapper.FlBins

variable {R : ℚ → XF} {cube : XF → XF}

/-! ## Specification -/

/-- Doubles as a list of rational numbers. -/
def fins (l : List ℚ) : List XF := l.map fin

/-- Every number is a double. -/
def Doubles (R : ℚ → XF) (l : List ℚ) : Prop := ∀ a ∈ l, R a = fin a

/-- The nodes differ by at least 2^-100 and at most 2^100. -/
def Gaps (x : List ℚ) : Prop := ∀ i, i + 1 < x.length → 1 / 2 ^ 100 ≤ x.getD (i + 1) 0 - x.getD i 0 ∧ x.getD (i + 1) 0 - x.getD i 0 ≤ 2 ^ 100

/-- What is asked of the library's third power: exact for 0 and 1, and accurate (a bit less than the last digit) up to 2. -/
structure CubeOK (cube : XF → XF) : Prop where
  zero : cube (fin 0) = fin 0
  one : cube (fin 1) = fin 1
  near : ∀ v, |v| ≤ 2 → ∃ c, cube (fin v) = fin c ∧ |c - v ^ 3| ≤ 2 * uu * (|v| ^ 3 + 1)

/-! ## Lemmas -/

theorem getD_fins (l : List ℚ) (i : ℕ) (h : i < l.length) : (fins l).getD i nan = fin (l.getD i 0) := by
  unfold fins
  rw [List.getD_eq_getElem?_getD, List.getD_eq_getElem?_getD, List.getElem?_map, List.getElem?_eq_getElem h]; rfl

theorem ssLeft_fins (x : List ℚ) (q : ℚ) : ssLeft (fins x) (fin q) = Utilities.ssLeft x q := by
  unfold ssLeft Utilities.ssLeft fins
  rw [List.takeWhile_map, List.length_map]
  congr 1
  congr 1
  funext a
  simp [Function.comp, lt]

theorem segment_fins (x : List ℚ) (q : ℚ) : segment (fins x) (fin q) = Utilities.segment x q := by
  unfold segment Utilities.segment
  rw [ssLeft_fins]; simp [fins]

theorem segment_lt {x : List ℚ} (h : 2 ≤ x.length) (q : ℚ) : Utilities.segment x q + 1 < x.length := by
  unfold Utilities.segment; omega

/-- Rounding with a scale. -/
theorem rnd (hR : Rounding R) (hA : Accurate R) {S p : ℚ} (h1 : 1 / 2 ^ 900 ≤ S) (h2 : S ≤ 2 ^ 900) (hp : |p| ≤ 100) :
    ∃ v, R (S * p) = fin (S * v) ∧ |v - p| ≤ uu * (|p| + 1) := by
  have hS : 0 < S := lt_of_lt_of_le (by positivity) h1
  have hu := uu_pos
  suffices H : ∃ w, R (S * p) = fin w ∧ |w - S * p| ≤ uu * (|S * p| + S) by
    obtain ⟨w, hw, he⟩ := H
    refine ⟨w / S, by rw [hw, mul_div_cancel₀ _ hS.ne'], ?_⟩
    have e : w / S - p = (w - S * p) / S := by field_simp
    rw [e, abs_div, abs_of_pos hS, div_le_iff₀ hS]
    rw [abs_mul, abs_of_pos hS] at he
    calc |w - S * p| ≤ _ := he
      _ = uu * (|p| + 1) * S := by ring
  have hle : |S * p| ≤ 2 ^ 1000 := by
    rw [abs_mul, abs_of_pos hS]
    calc S * |p| ≤ 2 ^ 900 * 2 ^ 100 := mul_le_mul h2 (hp.trans (by norm_num)) (abs_nonneg _) (by positivity)
      _ = 2 ^ 1000 := by rw [← pow_add]
  rcases le_or_gt (1 / 2 ^ 1000) |S * p| with h | h
  · obtain ⟨v, hv, he⟩ := hA _ h hle
    exact ⟨v, hv, he.trans (mul_le_mul_of_nonneg_left (le_add_of_nonneg_right hS.le) hu.le)⟩
  · have e := hR.exact 1 1000 (by norm_num) le_rfl
    have e' := hR.exact (-1) 1000 (by norm_num) le_rfl
    rw [Int.cast_one] at e
    rw [Int.cast_neg, Int.cast_one, neg_div] at e'
    have a := abs_lt.1 h
    obtain ⟨v, hv, h3, h4⟩ := between hR e' e a.1.le a.2.le
    refine ⟨v, hv, ?_⟩
    have ht : 2 * (1 / (2 : ℚ) ^ 1000) ≤ uu * S := by
      have e1 : (2 : ℚ) * (1 / 2 ^ 1000) = 1 / 2 ^ 999 := by rw [show (2 : ℚ) ^ 1000 = 2 ^ 999 * 2 from pow_succ _ _]; field_simp
      have e2 : uu * (1 / 2 ^ 900) = 1 / 2 ^ 953 := by unfold uu; rw [div_mul_div_comm, one_mul, ← pow_add]
      have e3 : (1 : ℚ) / 2 ^ 999 ≤ 1 / 2 ^ 953 := one_div_le_one_div_of_le (by positivity) (pow_le_pow_right₀ (by norm_num) (by norm_num))
      have e4 := mul_le_mul_of_nonneg_left h1 hu.le
      rw [e1]; exact e3.trans (e2 ▸ e4)
    have hm : 0 ≤ uu * |S * p| := mul_nonneg hu.le (abs_nonneg _)
    rw [abs_le, mul_add]
    constructor <;> linarith only [h3, h4, a.1, a.2, ht, hm]

theorem mulerr {a A b B α β X Y : ℚ} (h1 : |a - A| ≤ α) (h2 : |b - B| ≤ β) (h3 : |A| ≤ X) (h4 : |b| ≤ Y) : |a * b - A * B| ≤ α * Y + X * β := by
  have e : a * b - A * B = (a - A) * b + A * (b - B) := by ring
  rw [e]
  refine (abs_add_le _ _).trans ?_
  rw [abs_mul, abs_mul]
  exact add_le_add (mul_le_mul h1 h4 (abs_nonneg _) ((abs_nonneg _).trans h1)) (mul_le_mul h3 h2 (abs_nonneg _) ((abs_nonneg _).trans h3))

theorem near_abs {a A α X : ℚ} (h1 : |a - A| ≤ α) (h2 : |A| ≤ X) : |a| ≤ X + α := by
  have : a = A + (a - A) := by ring
  rw [this]; exact (abs_add_le _ _).trans (add_le_add h2 h1)

theorem near_trans {a b c α β : ℚ} (h1 : |a - b| ≤ α) (h2 : |b - c| ≤ β) : |a - c| ≤ α + β := (abs_sub_le a b c).trans (add_le_add h1 h2)

/-- A rounded number near `P`. -/
theorem rnd_near (hR : Rounding R) (hA : Accurate R) {S p P α X : ℚ} (h1 : 1 / 2 ^ 900 ≤ S) (h2 : S ≤ 2 ^ 900) (hp : |p - P| ≤ α) (hX : |P| ≤ X) (hs : X + α ≤ 100) :
    ∃ v, R (S * p) = fin (S * v) ∧ |v - P| ≤ α + uu * (X + α + 1) := by
  have ha := near_abs hp hX
  obtain ⟨v, hv, he⟩ := rnd hR hA h1 h2 (ha.trans hs)
  refine ⟨v, hv, ?_⟩
  rw [add_comm]
  exact near_trans (he.trans (mul_le_mul_of_nonneg_left (by linarith only [ha]) uu_pos.le)) hp

/-- Division by the rounded gap. -/
theorem div_gap {p P α k X : ℚ} (h1 : |p - P| ≤ α) (h2 : |k - 1| ≤ 2 * uu) (hX : |P| ≤ X) : |p / k - P| ≤ α + 3 * uu * (X + α) := by
  have hu := uu_pos
  have hu2 : uu ≤ 1 / 1000 := by unfold uu; norm_num
  have hk := abs_le.1 h2
  have hk0 : 0 < k := by linarith only [hk.1, hu2]
  have e : p / k - p = -(p * (k - 1)) / k := by field_simp; ring
  have hp := near_abs h1 hX
  have hp0 : 0 ≤ X + α := (abs_nonneg _).trans hp
  have h3 : |p / k - p| ≤ 3 * uu * (X + α) := by
    rw [e, abs_div, abs_neg, abs_mul, abs_of_pos hk0, div_le_iff₀ hk0]
    calc |p| * |k - 1| ≤ (X + α) * (2 * uu) := mul_le_mul hp h2 (abs_nonneg _) hp0
      _ ≤ 3 * uu * (X + α) * k := by
        have h5 : 0 ≤ uu * (X + α) := mul_nonneg hu.le hp0
        have h6 : 2 / 3 ≤ k := by linarith only [hk.1, hu2]
        nlinarith only [mul_le_mul_of_nonneg_left h6 h5]
  rw [add_comm]
  exact near_trans h3 h1

/-! ## C401: nodes are reproduced -/

/-- The computed gap between two nodes. -/
theorem gap_round (hR : Rounding R) (hA : Accurate R) {g : ℚ} (h1 : 1 / 2 ^ 100 ≤ g) (h2 : g ≤ 2 ^ 100) : ∃ k, R g = fin (g * k) ∧ |k - 1| ≤ 2 * uu ∧ 0 < k := by
  obtain ⟨v, hv, he⟩ := rnd hR hA (S := g) (p := 1) (le_trans (one_div_le_one_div_of_le (by positivity) (pow_le_pow_right₀ (by norm_num) (by norm_num))) h1)
    (h2.trans (pow_le_pow_right₀ (by norm_num) (by norm_num))) (by norm_num)
  rw [mul_one] at hv
  rw [abs_one] at he
  have hu2 : uu ≤ 1 / 1000 := by unfold uu; norm_num
  refine ⟨v, hv, by linarith only [he], ?_⟩
  have := abs_le.1 he
  linarith only [this.1, hu2]

theorem sq_pow (m n : ℕ) (h : m * 2 ≤ n) : ((2 : ℚ) ^ m) ^ 2 ≤ 2 ^ n := by
  rw [← pow_mul]; exact pow_le_pow_right₀ (by norm_num) h

theorem sq_inv (m n : ℕ) (h : m * 2 ≤ n) : 1 / (2 : ℚ) ^ n ≤ (1 / 2 ^ m) ^ 2 := by
  rw [div_pow, one_pow]
  exact one_div_le_one_div_of_le (by positivity) (sq_pow m n h)

theorem sq_round (hR : Rounding R) (hA : Accurate R) {g k : ℚ} (h1 : 1 / 2 ^ 100 ≤ g) (h2 : g ≤ 2 ^ 100) (hk : |k - 1| ≤ 2 * uu) :
    ∃ w, R (g * k * (g * k)) = fin (g ^ 2 * w) ∧ |w - 1| ≤ 8 * uu := by
  have hu := uu_pos
  have hu2 : uu ≤ 1 / 1000 := by unfold uu; norm_num
  have hg0 : 0 < g := lt_of_lt_of_le (by positivity) h1
  have e1 : (1 : ℚ) / 2 ^ 900 ≤ g ^ 2 := by
    exact (sq_inv 100 900 (by norm_num)).trans (pow_le_pow_left₀ (by positivity) h1 2)
  have e2 : g ^ 2 ≤ (2 : ℚ) ^ 900 := by
    exact (pow_le_pow_left₀ hg0.le h2 2).trans (sq_pow 100 900 (by norm_num))
  have h3 : |k * k - 1 * 1| ≤ 2 * uu * (1 + 2 * uu) + 1 * (2 * uu) := mulerr hk hk (by simp) (near_abs hk (by simp))
  rw [one_mul] at h3
  have hq : uu * uu ≤ uu * (1 / 1000) := mul_le_mul_of_nonneg_left hu2 hu.le
  have h4 : |k * k - 1| ≤ 5 * uu := h3.trans (by nlinarith only [hq, hu])
  obtain ⟨w, hw, he⟩ := rnd_near hR hA e1 e2 h4 (X := 1) (by simp) (by linarith only [hu2])
  have e : g * k * (g * k) = g ^ 2 * (k * k) := by ring
  exact ⟨w, by rw [e]; exact hw, he.trans (by nlinarith only [hq, hu])⟩

/-- The value at the right node of a segment. -/
theorem piece_right (hR : Rounding R) (hA : Accurate R) (hc : CubeOK cube) (x y y2 : List ℚ) (fx : Bool) (hg : Gaps x) (hy : y.length = x.length)
    (hy2 : y2.length = x.length) (i : ℕ) (hi : i + 1 < x.length) (hd : R (y.getD (i + 1) 0) = fin (y.getD (i + 1) 0)) :
    piece R cube ⟨fins x, fins y, fins y2, fx⟩ i (fin (x.getD (i + 1) 0)) = fin (y.getD (i + 1) 0) := by
  obtain ⟨g1, g2⟩ := hg i hi
  obtain ⟨k, hk, hk1, hk0⟩ := gap_round hR hA g1 g2
  obtain ⟨w, hw, -⟩ := sq_round hR hA g1 g2 hk1
  have hd0 : (x.getD (i + 1) 0 - x.getD i 0) * k ≠ 0 := (mul_pos (lt_of_lt_of_le (by positivity) g1) hk0).ne'
  have r0 := R0 hR
  have r1 := R1 hR
  have h6 : ¬ (6 : ℚ) = 0 := by norm_num
  unfold piece
  simp only [getD_fins x i (by omega), getD_fins x (i + 1) hi, getD_fins y i (by omega), getD_fins y (i + 1) (by omega), getD_fins y2 i (by omega), getD_fins y2 (i + 1) (by omega),
    sub_fin, hk, sub_self, r0, div, if_neg hd0, zero_div, div_self hd0, r1, hc.zero, hc.one, mul, zero_mul, one_mul, add, zero_add, hd, hw, if_neg h6, add_zero]

/-- The value at the left node of a segment. -/
theorem piece_left (hR : Rounding R) (hA : Accurate R) (hc : CubeOK cube) (x y y2 : List ℚ) (fx : Bool) (hg : Gaps x) (hy : y.length = x.length)
    (hy2 : y2.length = x.length) (i : ℕ) (hi : i + 1 < x.length) (hd : R (y.getD i 0) = fin (y.getD i 0)) :
    piece R cube ⟨fins x, fins y, fins y2, fx⟩ i (fin (x.getD i 0)) = fin (y.getD i 0) := by
  obtain ⟨g1, g2⟩ := hg i hi
  obtain ⟨k, hk, hk1, hk0⟩ := gap_round hR hA g1 g2
  obtain ⟨w, hw, -⟩ := sq_round hR hA g1 g2 hk1
  have hd0 : (x.getD (i + 1) 0 - x.getD i 0) * k ≠ 0 := (mul_pos (lt_of_lt_of_le (by positivity) g1) hk0).ne'
  have r0 := R0 hR
  have r1 := R1 hR
  have h6 : ¬ (6 : ℚ) = 0 := by norm_num
  unfold piece
  simp only [getD_fins x i (by omega), getD_fins x (i + 1) hi, getD_fins y i (by omega), getD_fins y (i + 1) (by omega), getD_fins y2 i (by omega), getD_fins y2 (i + 1) (by omega),
    sub_fin, hk, sub_self, r0, div, if_neg hd0, zero_div, div_self hd0, r1, hc.zero, hc.one, mul, zero_mul, one_mul, add, zero_add, hd, hw, if_neg h6, add_zero]

theorem gaps_lt {x : List ℚ} (hg : Gaps x) (i : ℕ) (hi : i + 1 < x.length) : x.getD i 0 < x.getD (i + 1) 0 :=
  sub_pos.1 (lt_of_lt_of_le (by positivity) (hg i hi).1)

theorem gaps_grid {x : List ℚ} (h2 : 2 ≤ x.length) (hg : Gaps x) : Utilities.Grid x := by
  refine ⟨h2, ?_⟩
  rw [← List.isChain_iff_pairwise, List.isChain_iff_getElem]
  intro i hi
  have := gaps_lt hg i hi
  rwa [List.getD_eq_getElem?_getD, List.getD_eq_getElem?_getD, List.getElem?_eq_getElem hi, List.getElem?_eq_getElem (by omega)] at this

theorem doubles_getD {l : List ℚ} (h : Doubles R l) (i : ℕ) (hi : i < l.length) : R (l.getD i 0) = fin (l.getD i 0) := by
  rw [List.getD_eq_getElem?_getD, List.getElem?_eq_getElem hi]
  exact h _ (List.getElem_mem hi)

/-- C401: in floating point the spline reproduces the values at the nodes exactly; with fixed extrapolation it is the first (last) value below (above) the nodes, also for
infinite arguments. -/
theorem C401 (hR : Rounding R) (hA : Accurate R) (hc : CubeOK cube) (x y y2 : List ℚ) (fx : Bool) (h2 : 2 ≤ x.length) (hg : Gaps x) (hy : y.length = x.length)
    (hy2 : y2.length = x.length) (hd : Doubles R y) :
    (∀ i, i < x.length → call R cube ⟨fins x, fins y, fins y2, fx⟩ (fin (x.getD i 0)) = fin (y.getD i 0)) ∧
    (fx = true → ∀ q, (lt q (fin (x.getD 0 0)) = true → call R cube ⟨fins x, fins y, fins y2, fx⟩ q = fin (y.getD 0 0)) ∧
      (lt (fin (x.getD (x.length - 1) 0)) q = true → call R cube ⟨fins x, fins y, fins y2, fx⟩ q = fin (y.getD (x.length - 1) 0))) := by
  have hG := gaps_grid h2 hg
  have hs : ∀ i, i < x.length → splint R cube ⟨fins x, fins y, fins y2, fx⟩ (fin (x.getD i 0)) = fin (y.getD i 0) := by
    intro i hi
    unfold splint
    rw [segment_fins]
    cases i with
    | zero =>
      rw [Utilities.segment_below hG _ le_rfl]
      exact piece_left hR hA hc x y y2 fx hg hy hy2 0 (by omega) (doubles_getD hd 0 (by omega))
    | succ i =>
      rw [Utilities.segment_inside hG _ i hi (gaps_lt hg i hi) le_rfl]
      exact piece_right hR hA hc x y y2 fx hg hy hy2 i hi (doubles_getD hd (i + 1) (by omega))
  have el : (fins x).length = x.length := by simp [fins]
  have ely : (fins y).length = x.length := by simp [fins, hy]
  have e0 := getD_fins x 0 (by omega)
  have en := getD_fins x (x.length - 1) (by omega)
  have ey := getD_fins y 0 (by omega)
  have eyn := getD_fins y (x.length - 1) (by omega)
  constructor
  · intro i hi
    unfold call
    cases fx with
    | false => simp only [Bool.false_eq_true, not_false_eq_true, if_true]; exact hs i hi
    | true =>
      have b1 : ¬ x.getD i 0 < x.getD 0 0 := not_lt.2 (hG.le (by omega) hi)
      have b2 : ¬ x.getD (x.length - 1) 0 < x.getD i 0 := not_lt.2 (hG.le (by omega) (by omega))
      simp only [not_true_eq_false, if_false, el, e0, en, lt, decide_eq_true_eq, if_neg b1, if_neg b2]
      exact hs i hi
  · rintro rfl q
    have hlast : x.getD 0 0 ≤ x.getD (x.length - 1) 0 := hG.le (by omega) (by omega)
    constructor
    · intro hq
      have hn : lt (fin (x.getD (x.length - 1) 0)) q = false := by
        cases q with
        | fin a => simp only [lt, decide_eq_true_eq, decide_eq_false_iff_not] at hq ⊢; linarith only [hq, hlast]
        | pinf => simp [lt] at hq
        | ninf => simp [lt]
        | nan => simp [lt] at hq
      unfold call
      simp only [not_true_eq_false, if_false, el, ely, e0, en, hn, hq, if_true, Bool.false_eq_true, ey]
    · intro hq
      unfold call
      simp only [not_true_eq_false, if_false, el, ely, en, hq, if_true, eyn]

/-! ## C402, C403: linear interpolation -/

theorem scale_pow {S : ℚ} (a b : ℕ) (ha : a ≤ 900) (hb : b ≤ 900) (h1 : 1 / 2 ^ a ≤ S) (h2 : S ≤ 2 ^ b) : 1 / 2 ^ 900 ≤ S ∧ S ≤ 2 ^ 900 :=
  ⟨(one_div_le_one_div_of_le (by positivity) (pow_le_pow_right₀ (by norm_num) ha)).trans h1, h2.trans (pow_le_pow_right₀ (by norm_num) hb)⟩

theorem prod_pow {S T : ℚ} (a b c d : ℕ) (h1 : 1 / 2 ^ a ≤ S) (h2 : S ≤ 2 ^ b) (h3 : 1 / 2 ^ c ≤ T) (h4 : T ≤ 2 ^ d) : 1 / 2 ^ (a + c) ≤ S * T ∧ S * T ≤ 2 ^ (b + d) := by
  have hS : 0 < S := lt_of_lt_of_le (by positivity) h1
  have hT : 0 < T := lt_of_lt_of_le (by positivity) h3
  constructor
  · calc (1 : ℚ) / 2 ^ (a + c) = 1 / 2 ^ a * (1 / 2 ^ c) := by rw [pow_add]; field_simp
      _ ≤ S * T := mul_le_mul h1 h3 (by positivity) hS.le
  · rw [pow_add]; exact mul_le_mul h2 h4 hT.le (by positivity)

theorem uu_small : uu ≤ 1 / 1000000 := by unfold uu; norm_num

/-- The error of a line between two nodes: `q` is at the part `τ` of the gap `g`, the values are at most `M`. -/
theorem line_err (hR : Rounding R) (hA : Accurate R) {g M x0 x1 q v0 v1 : ℚ} (hg : x1 - x0 = g) (hg1 : 1 / 2 ^ 100 ≤ g) (hg2 : g ≤ 2 ^ 100) (hM1 : 1 / 2 ^ 600 ≤ M) (hM2 : M ≤ 2 ^ 600)
    (hq0 : x0 ≤ q) (hq1 : q ≤ x1) (h0 : |v0| ≤ M) (h1 : |v1| ≤ M) :
    ∃ r, add R (div R (mul R (sub R (fin q) (fin x0)) (sub R (fin v1) (fin v0))) (sub R (fin x1) (fin x0))) (fin v0) = fin r ∧
      |r - (v0 + (v1 - v0) / g * (q - x0))| ≤ 32 * uu * M := by
  have hu := uu_pos
  have hus := uu_small
  have huu : uu * uu ≤ uu * (1 / 1000000) := mul_le_mul_of_nonneg_left hus hu.le
  have g0 : 0 < g := lt_of_lt_of_le (by positivity) hg1
  have M0 : 0 < M := lt_of_lt_of_le (by positivity) hM1
  have sg := scale_pow 100 100 (by norm_num) (by norm_num) hg1 hg2
  have sM := scale_pow 600 600 (by norm_num) (by norm_num) hM1 hM2
  have sgM := prod_pow 100 100 600 600 hg1 hg2 hM1 hM2
  have sgM' := scale_pow (100 + 600) (100 + 600) (by norm_num) (by norm_num) sgM.1 sgM.2
  obtain ⟨τ, hτ⟩ : ∃ τ, q - x0 = g * τ := ⟨(q - x0) / g, by field_simp⟩
  obtain ⟨a0, ha0⟩ : ∃ a, v0 = M * a := ⟨v0 / M, by field_simp⟩
  obtain ⟨a1, ha1⟩ : ∃ a, v1 = M * a := ⟨v1 / M, by field_simp⟩
  have τ0 : 0 ≤ τ := by
    by_contra h; push Not at h
    have := mul_neg_of_pos_of_neg g0 h
    linarith only [this, hτ, hq0]
  have τ1 : τ ≤ 1 := by
    by_contra h; push Not at h
    have := mul_lt_mul_of_pos_left h g0
    linarith only [this, hτ, hq1, hg]
  have b0 : |a0| ≤ 1 := by
    rw [ha0, abs_mul, abs_of_pos M0] at h0
    by_contra h; push Not at h
    have := mul_lt_mul_of_pos_left h M0
    linarith only [this, h0]
  have b1 : |a1| ≤ 1 := by
    rw [ha1, abs_mul, abs_of_pos M0] at h1
    by_contra h; push Not at h
    have := mul_lt_mul_of_pos_left h M0
    linarith only [this, h1]
  have bτ : |τ| ≤ 1 := by rw [abs_of_nonneg τ0]; exact τ1
  have bD : |a1 - a0| ≤ 2 := (abs_sub _ _).trans (by linarith only [b0, b1])
  obtain ⟨c, hc, ec⟩ := rnd_near hR hA sg.1 sg.2 (p := τ) (P := τ) (α := 0) (by simp) bτ (by norm_num)
  obtain ⟨d, hd, ed⟩ := rnd_near hR hA sM.1 sM.2 (p := a1 - a0) (P := a1 - a0) (α := 0) (by simp) bD (by norm_num)
  have bd := near_abs ed bD
  have ep := mulerr ec ed bτ bd
  have ep' : |c * d - τ * (a1 - a0)| ≤ 8 * uu := ep.trans (by nlinarith only [huu, hu])
  have bP : |τ * (a1 - a0)| ≤ 2 := by
    rw [abs_mul]; exact (mul_le_mul bτ bD (abs_nonneg _) (by norm_num)).trans (by norm_num)
  obtain ⟨p, hp, epp⟩ := rnd_near hR hA sgM'.1 sgM'.2 ep' bP (by linarith only [hus])
  have ep2 : |p - τ * (a1 - a0)| ≤ 12 * uu := epp.trans (by nlinarith only [huu, hu])
  obtain ⟨k, hk, ek, k0⟩ := gap_round hR hA hg1 hg2
  have ew := div_gap ep2 ek bP
  have ew' : |p / k - τ * (a1 - a0)| ≤ 19 * uu := ew.trans (by nlinarith only [huu, hu])
  obtain ⟨w, hw, eww⟩ := rnd_near hR hA sM.1 sM.2 ew' bP (by linarith only [hus])
  have ew2 : |w - τ * (a1 - a0)| ≤ 23 * uu := eww.trans (by nlinarith only [huu, hu])
  have es : |w + a0 - (τ * (a1 - a0) + a0)| ≤ 23 * uu := by
    have e : w + a0 - (τ * (a1 - a0) + a0) = w - τ * (a1 - a0) := by ring
    rw [e]; exact ew2
  have bS : |τ * (a1 - a0) + a0| ≤ 3 := (abs_add_le _ _).trans (by linarith only [bP, b0])
  obtain ⟨r, hr, er⟩ := rnd_near hR hA sM.1 sM.2 es bS (by linarith only [hus])
  refine ⟨M * r, ?_, ?_⟩
  · have e1 : sub R (fin q) (fin x0) = fin (g * c) := by rw [sub_fin, hτ, hc]
    have e2 : sub R (fin v1) (fin v0) = fin (M * d) := by
      have : v1 - v0 = M * (a1 - a0) := by rw [ha0, ha1]; ring
      rw [sub_fin, this, hd]
    have e3 : mul R (fin (g * c)) (fin (M * d)) = fin (g * M * p) := by
      simp only [mul]
      have : g * c * (M * d) = g * M * (c * d) := by ring
      rw [this, hp]
    have e4 : sub R (fin x1) (fin x0) = fin (g * k) := by rw [sub_fin, hg, hk]
    have e5 : div R (fin (g * M * p)) (fin (g * k)) = fin (M * w) := by
      simp only [div]
      have : g * M * p / (g * k) = M * (p / k) := by field_simp
      rw [if_neg (mul_pos g0 k0).ne', this, hw]
    rw [e1, e2, e3, e4, e5]
    simp only [add]
    have : M * w + v0 = M * (w + a0) := by rw [ha0]; ring
    rw [this, hr]
  · have e : M * r - (v0 + (v1 - v0) / g * (q - x0)) = M * (r - (τ * (a1 - a0) + a0)) := by
      rw [hτ, ha0, ha1]; field_simp; ring
    rw [e, abs_mul, abs_of_pos M0, mul_comm (32 * uu)]
    exact mul_le_mul_of_nonneg_left (er.trans (by nlinarith only [huu, hu])) M0.le

/-- The values are at most `M`. -/
def Bounded (M : ℚ) (v : List ℚ) : Prop := ∀ i, |v.getD i 0| ≤ M

/-- C403: linear interpolation in floating point is finite and differs from the exact one by at most 2^-48 of the greatest value, everywhere between the first and the last node. -/
theorem C403 (hR : Rounding R) (hA : Accurate R) (v x : List ℚ) (h2 : 2 ≤ x.length) (hv : v.length = x.length) (hg : Gaps x) (M : ℚ) (hM1 : 1 / 2 ^ 600 ≤ M) (hM2 : M ≤ 2 ^ 600)
    (hb : Bounded M v) (q : ℚ) (h0 : x.getD 0 0 ≤ q) (h1 : q ≤ x.getD (x.length - 1) 0) :
    ∃ r, interpol R (fins v) (fins x) (fin q) = fin r ∧ |r - Utilities.interpol v x q| ≤ M / 2 ^ 48 := by
  have hG := gaps_grid h2 hg
  have hs := segment_lt h2 q
  have hin : x.getD (Utilities.segment x q) 0 ≤ q ∧ q ≤ x.getD (Utilities.segment x q + 1) 0 := by
    rcases eq_or_lt_of_le h0 with e | hlt
    · rw [Utilities.segment_below hG q e.ge]
      exact ⟨h0, by rw [← e]; exact (gaps_lt hg 0 (by omega)).le⟩
    · obtain ⟨i, hi, hi1, hi2⟩ : ∃ i, i + 1 < x.length ∧ x.getD i 0 < q ∧ q ≤ x.getD (i + 1) 0 := by
        have hn : ∃ j, j < x.length ∧ q ≤ x.getD j 0 := ⟨x.length - 1, by omega, h1⟩
        classical
        obtain ⟨f1, f2⟩ := Nat.find_spec hn
        have fm : ∀ j, j < Nat.find hn → ¬ (j < x.length ∧ q ≤ x.getD j 0) := fun j hj => Nat.find_min hn hj
        cases hf : Nat.find hn with
        | zero => rw [hf] at f2; linarith only [f2, hlt]
        | succ i =>
          rw [hf] at f1 f2 fm
          refine ⟨i, f1, ?_, f2⟩
          have := fm i (by omega)
          by_contra hc
          exact this ⟨by omega, not_lt.1 hc⟩
      rw [Utilities.segment_inside hG q i hi hi1 hi2]
      exact ⟨hi1.le, hi2⟩
  obtain ⟨r, hr, he⟩ := line_err hR hA (x0 := x.getD (Utilities.segment x q) 0) (x1 := x.getD (Utilities.segment x q + 1) 0) rfl (hg _ hs).1 (hg _ hs).2 hM1 hM2 hin.1 hin.2
    (hb (Utilities.segment x q)) (hb (Utilities.segment x q + 1))
  refine ⟨r, ?_, ?_⟩
  · unfold interpol
    simp only [segment_fins, getD_fins x _ hs, getD_fins x _ (Nat.lt_of_succ_lt hs), getD_fins v _ (hv ▸ hs), getD_fins v _ (hv ▸ Nat.lt_of_succ_lt hs)]
    exact hr
  · rw [Utilities.interpol_segment]
    have e : Utilities.line v x (Utilities.segment x q) q = v.getD (Utilities.segment x q) 0 +
        (v.getD (Utilities.segment x q + 1) 0 - v.getD (Utilities.segment x q) 0) / (x.getD (Utilities.segment x q + 1) 0 - x.getD (Utilities.segment x q) 0) * (q - x.getD (Utilities.segment x q) 0) := by
      unfold Utilities.line; ring
    rw [e]
    refine he.trans (le_of_eq ?_)
    unfold uu
    have : (32 : ℚ) * (1 / 2 ^ 53) = 1 / 2 ^ 48 := by norm_num
    rw [this]; ring

/-- C402: at the first node the value is exact; at every node it is that of the node within 2^-48 of the greatest value. -/
theorem C402_partial (hR : Rounding R) (hA : Accurate R) (v x : List ℚ) (h2 : 2 ≤ x.length) (hv : v.length = x.length) (hg : Gaps x) (M : ℚ) (hM1 : 1 / 2 ^ 600 ≤ M) (hM2 : M ≤ 2 ^ 600)
    (hb : Bounded M v) (hd : Doubles R v) :
    interpol R (fins v) (fins x) (fin (x.getD 0 0)) = fin (v.getD 0 0) ∧
    ∀ i, i < x.length → ∃ r, interpol R (fins v) (fins x) (fin (x.getD i 0)) = fin r ∧ |r - v.getD i 0| ≤ M / 2 ^ 48 := by
  have hG := gaps_grid h2 hg
  refine ⟨?_, ?_⟩
  · obtain ⟨k, hk, -, k0⟩ := gap_round hR hA (hg 0 (by omega)).1 (hg 0 (by omega)).2
    have g0 : 0 < x.getD (0 + 1) 0 - x.getD 0 0 := lt_of_lt_of_le (by positivity) (hg 0 (by omega)).1
    obtain ⟨d, hd', -⟩ : ∃ d, R (v.getD (0 + 1) 0 - v.getD 0 0) = fin d ∧ True := by
      have sM := scale_pow 600 600 (by norm_num) (by norm_num) hM1 hM2
      have M0 : 0 < M := lt_of_lt_of_le (by positivity) hM1
      have hb2 : |(v.getD (0 + 1) 0 - v.getD 0 0) / M| ≤ 100 := by
        rw [abs_div, abs_of_pos M0, div_le_iff₀ M0]
        refine (abs_sub _ _).trans ?_
        linarith only [hb 0, hb (0 + 1), M0]
      obtain ⟨w, hw, -⟩ := rnd hR hA sM.1 sM.2 hb2
      rw [mul_div_cancel₀ _ M0.ne'] at hw
      exact ⟨_, hw, trivial⟩
    unfold interpol
    simp only [segment_fins, Utilities.segment_below hG _ le_rfl, getD_fins x _ (show 0 + 1 < x.length by omega), getD_fins x _ (show 0 < x.length by omega),
      getD_fins v _ (show 0 + 1 < v.length by omega), getD_fins v _ (show 0 < v.length by omega), sub_fin, sub_self, R0 hR, hd', hk, mul, zero_mul, div, if_neg (mul_pos g0 k0).ne', zero_div, add, zero_add]
    exact doubles_getD hd 0 (by omega)
  · intro i hi
    obtain ⟨r, hr, he⟩ := C403 hR hA v x h2 hv hg M hM1 hM2 hb (x.getD i 0) (hG.le (by omega) hi) (hG.le (by omega) (by omega))
    rw [(Utilities.C26_interpol hG v).1 i hi] at he
    exact ⟨r, hr, he⟩

/-- C403: so it lies between the values of the neighbouring nodes, within the same error. -/
theorem C403_between (hR : Rounding R) (hA : Accurate R) (v x : List ℚ) (h2 : 2 ≤ x.length) (hv : v.length = x.length) (hg : Gaps x) (M : ℚ) (hM1 : 1 / 2 ^ 600 ≤ M) (hM2 : M ≤ 2 ^ 600)
    (hb : Bounded M v) (i : ℕ) (hi : i + 1 < x.length) (q : ℚ) (h0 : x.getD i 0 ≤ q) (h1 : q ≤ x.getD (i + 1) 0) :
    ∃ r, interpol R (fins v) (fins x) (fin q) = fin r ∧ min (v.getD i 0) (v.getD (i + 1) 0) - M / 2 ^ 48 ≤ r ∧ r ≤ max (v.getD i 0) (v.getD (i + 1) 0) + M / 2 ^ 48 := by
  have hG := gaps_grid h2 hg
  obtain ⟨r, hr, he⟩ := C403 hR hA v x h2 hv hg M hM1 hM2 hb q ((hG.le (by omega) (by omega)).trans h0) (h1.trans (hG.le (by omega) (by omega)))
  obtain ⟨-, b1, b2⟩ := (Utilities.C26_interpol hG v).2.1 i q hi h0 h1
  have := abs_le.1 he
  exact ⟨r, hr, by linarith only [this.1, b1], by linarith only [this.2, b2]⟩

/-! ## C404: the spline -/

/-- Weight of a node: distance over gap. -/
theorem weight_err (hR : Rounding R) (hA : Accurate R) {g k τ : ℚ} (hg1 : 1 / 2 ^ 100 ≤ g) (hg2 : g ≤ 2 ^ 100) (hk : |k - 1| ≤ 2 * uu) (k0 : 0 < k) (h0 : 0 ≤ τ) (h1 : τ ≤ 1) :
    ∃ a, div R (R (g * τ)) (fin (g * k)) = fin a ∧ |a - τ| ≤ 8 * uu := by
  have hu := uu_pos
  have hus := uu_small
  have huu : uu * uu ≤ uu * (1 / 1000000) := mul_le_mul_of_nonneg_left hus hu.le
  have g0 : 0 < g := lt_of_lt_of_le (by positivity) hg1
  have sg := scale_pow 100 100 (by norm_num) (by norm_num) hg1 hg2
  have bτ : |τ| ≤ 1 := by rw [abs_of_nonneg h0]; exact h1
  obtain ⟨c, hc, ec⟩ := rnd_near hR hA sg.1 sg.2 (p := τ) (P := τ) (α := 0) (by simp) bτ (by norm_num)
  have ew := div_gap ec hk bτ
  have ew' : |c / k - τ| ≤ 11 / 2 * uu := ew.trans (by nlinarith only [huu, hu])
  obtain ⟨a, ha, ea⟩ := rnd_near hR hA (S := 1) (one_div_le_one_div_of_le (by positivity) (one_le_pow₀ (by norm_num)) |>.trans (by norm_num)) (one_le_pow₀ (by norm_num)) ew' bτ (by linarith only [hus])
  rw [one_mul, one_mul] at ha
  refine ⟨a, ?_, ea.trans (by nlinarith only [huu, hu])⟩
  rw [hc]
  simp only [div]
  have : g * c / (g * k) = c / k := by field_simp
  rw [if_neg (mul_pos g0 k0).ne', this, ha]

/-- The cubic part of a node. -/
theorem cubic_err (hR : Rounding R) (hA : Accurate R) (hc : CubeOK cube) {a τ : ℚ} (h : |a - τ| ≤ 8 * uu) (h0 : 0 ≤ τ) (h1 : τ ≤ 1) :
    ∃ c, sub R (cube (fin a)) (fin a) = fin c ∧ |c - (τ ^ 3 - τ)| ≤ 42 * uu := by
  have hu := uu_pos
  have hus := uu_small
  have huu : uu * uu ≤ uu * (1 / 1000000) := mul_le_mul_of_nonneg_left hus hu.le
  have bτ : |τ| ≤ 1 := by rw [abs_of_nonneg h0]; exact h1
  have ba := near_abs h bτ
  have ba' : |a| ≤ 1 + 1 / 1000 := ba.trans (by linarith only [hus])
  obtain ⟨c, hc1, hc2⟩ := hc.near a (ba'.trans (by norm_num))
  have b3 : |a| ^ 3 ≤ 11 / 10 := (pow_le_pow_left₀ (abs_nonneg _) ba' 3).trans (by norm_num)
  have e2 : |a * a - τ * τ| ≤ 8 * uu * (1 + 1 / 1000) + 1 * (8 * uu) := mulerr h h bτ ba'
  have e3 : |a * a * a - τ * τ * τ| ≤ (8 * uu * (1 + 1 / 1000) + 1 * (8 * uu)) * (1 + 1 / 1000) + 1 * (8 * uu) :=
    mulerr e2 h (by rw [abs_mul]; exact (mul_le_mul bτ bτ (abs_nonneg _) (by norm_num)).trans (by norm_num)) ba'
  have e4 : |a ^ 3 - τ ^ 3| ≤ 25 * uu := by
    have ea : a ^ 3 - τ ^ 3 = a * a * a - τ * τ * τ := by ring
    rw [ea]; exact e3.trans (by linarith only [hu])
  have e5 : |c - τ ^ 3| ≤ 30 * uu := by
    have hb : 2 * uu * (|a| ^ 3 + 1) ≤ 2 * uu * (11 / 10 + 1) := mul_le_mul_of_nonneg_left (by linarith only [b3]) (by linarith only [hu])
    exact (near_trans (hc2.trans hb) e4).trans (by linarith only [hu])
  have e6 : |c - a - (τ ^ 3 - τ)| ≤ 38 * uu := by
    have : c - a - (τ ^ 3 - τ) = (c - τ ^ 3) - (a - τ) := by ring
    rw [this]; exact (abs_sub _ _).trans (by linarith only [e5, h])
  have b6 : |τ ^ 3 - τ| ≤ 1 := by
    have t2 : 0 ≤ τ * τ := mul_nonneg h0 h0
    have t3 : τ * τ ≤ 1 := (mul_le_mul h1 h1 h0 (by norm_num)).trans (by norm_num)
    have t4 : 0 ≤ τ * τ * τ := mul_nonneg t2 h0
    have t5 : τ * τ * τ ≤ τ := by nlinarith only [mul_le_mul_of_nonneg_right t3 h0]
    rw [abs_le]
    constructor <;> nlinarith only [t4, t5, h1, h0]
  obtain ⟨d, hd, ed⟩ := rnd_near hR hA (S := 1) (one_div_le_one_div_of_le (by positivity) (one_le_pow₀ (by norm_num)) |>.trans (by norm_num)) (one_le_pow₀ (by norm_num)) e6 b6 (by linarith only [hus])
  rw [one_mul, one_mul] at hd
  exact ⟨d, by rw [hc1, sub_fin, hd], ed.trans (by nlinarith only [huu, hu])⟩

theorem unit_of {M v : ℚ} (M0 : 0 < M) (h : |v| ≤ M) : ∃ a, v = M * a ∧ |a| ≤ 1 :=
  ⟨v / M, by field_simp, by rw [abs_div, abs_of_pos M0, div_le_one M0]; exact h⟩

/-- The error of the spline on a segment. -/
theorem piece_err (hR : Rounding R) (hA : Accurate R) (hc : CubeOK cube) {g M x0 x1 q y0 y1 s0 s1 : ℚ} (hg : x1 - x0 = g) (hg1 : 1 / 2 ^ 100 ≤ g) (hg2 : g ≤ 2 ^ 100) (hM1 : 1 / 2 ^ 600 ≤ M)
    (hM2 : M ≤ 2 ^ 600) (hq0 : x0 ≤ q) (hq1 : q ≤ x1) (h0 : |y0| ≤ M) (h1 : |y1| ≤ M) (k0 : |s0| * g ^ 2 ≤ M) (k1 : |s1| * g ^ 2 ≤ M) :
    let dx := sub R (fin x1) (fin x0)
    let a := div R (sub R (fin x1) (fin q)) dx
    let b := div R (sub R (fin q) (fin x0)) dx
    ∃ r, add R (add R (mul R a (fin y0)) (mul R b (fin y1)))
        (div R (mul R (add R (mul R (sub R (cube a) a) (fin s0)) (mul R (sub R (cube b) b) (fin s1))) (mul R dx dx)) (fin 6)) = fin r ∧
      |r - ((x1 - q) / g * y0 + (q - x0) / g * y1 + ((((x1 - q) / g) ^ 3 - (x1 - q) / g) * s0 + (((q - x0) / g) ^ 3 - (q - x0) / g) * s1) * g ^ 2 / 6)| ≤ 64 * uu * M := by
  intro dx a b
  have hu := uu_pos
  have hus := uu_small
  have huu : uu * uu ≤ uu * (1 / 1000000) := mul_le_mul_of_nonneg_left hus hu.le
  have g0 : 0 < g := lt_of_lt_of_le (by positivity) hg1
  have M0 : 0 < M := lt_of_lt_of_le (by positivity) hM1
  have G0 : 0 < g ^ 2 := pow_pos g0 2
  have sM := scale_pow 600 600 (by norm_num) (by norm_num) hM1 hM2
  have sG : 1 / 2 ^ 200 ≤ 1 / g ^ 2 ∧ 1 / g ^ 2 ≤ 2 ^ 200 := by
    have i1 := sq_inv 100 200 (by norm_num)
    have i2 : g ^ 2 ≤ 2 ^ 200 := (pow_le_pow_left₀ g0.le hg2 2).trans (sq_pow 100 200 (by norm_num))
    have i3 : 1 / 2 ^ 200 ≤ g ^ 2 := i1.trans (pow_le_pow_left₀ (by positivity) hg1 2)
    refine ⟨one_div_le_one_div_of_le G0 i2, ?_⟩
    rw [div_le_iff₀ G0]
    have i4 := mul_le_mul_of_nonneg_left i3 (show (0 : ℚ) ≤ 2 ^ 200 by positivity)
    rwa [mul_one_div_cancel (by positivity)] at i4
  have sY := prod_pow 600 600 200 200 hM1 hM2 sG.1 sG.2
  have sY' := scale_pow (600 + 200) (600 + 200) (by norm_num) (by norm_num) sY.1 sY.2
  obtain ⟨τ, hτ⟩ : ∃ τ, q - x0 = g * τ := ⟨(q - x0) / g, by field_simp⟩
  have hσ : x1 - q = g * (1 - τ) := by
    have e : x1 - q = g - (q - x0) := by rw [← hg]; ring
    rw [e, hτ]; ring
  have τ0 : 0 ≤ τ := by
    by_contra h; push Not at h
    have := mul_neg_of_pos_of_neg g0 h
    linarith only [this, hτ, hq0]
  have τ1 : τ ≤ 1 := by
    by_contra h; push Not at h
    have := mul_lt_mul_of_pos_left h g0
    linarith only [this, hτ, hq1, hg]
  have σ0 : 0 ≤ 1 - τ := by linarith only [τ1]
  have σ1 : 1 - τ ≤ 1 := by linarith only [τ0]
  obtain ⟨u0, hu0, bu0⟩ := unit_of M0 h0
  obtain ⟨u1, hu1, bu1⟩ := unit_of M0 h1
  have Y0 : 0 < M * (1 / g ^ 2) := mul_pos M0 (by positivity)
  have hs0 : |s0| ≤ M * (1 / g ^ 2) := by rw [mul_one_div, le_div_iff₀ G0]; exact k0
  have hs1 : |s1| ≤ M * (1 / g ^ 2) := by rw [mul_one_div, le_div_iff₀ G0]; exact k1
  obtain ⟨t0, ht0, bt0⟩ := unit_of Y0 hs0
  obtain ⟨t1, ht1, bt1⟩ := unit_of Y0 hs1
  obtain ⟨k, hk, ek, kp⟩ := gap_round hR hA hg1 hg2
  obtain ⟨w2, hw2, ew2⟩ := sq_round hR hA hg1 hg2 ek
  obtain ⟨av, hav, eav⟩ := weight_err hR hA hg1 hg2 ek kp σ0 σ1
  obtain ⟨bv, hbv, ebv⟩ := weight_err hR hA hg1 hg2 ek kp τ0 τ1
  obtain ⟨ac, hac, eac⟩ := cubic_err hR hA hc eav σ0 σ1
  obtain ⟨bc, hbc, ebc⟩ := cubic_err hR hA hc ebv τ0 τ1
  have hdx : dx = fin (g * k) := by show sub R _ _ = _; rw [sub_fin, hg, hk]
  have ha : a = fin av := by show div R (sub R _ _) dx = _; rw [hdx, sub_fin, hσ, hav]
  have hb : b = fin bv := by show div R (sub R _ _) dx = _; rw [hdx, sub_fin, hτ, hbv]
  have bσ : |1 - τ| ≤ 1 := by rw [abs_of_nonneg σ0]; exact σ1
  have bτ : |τ| ≤ 1 := by rw [abs_of_nonneg τ0]; exact τ1
  have cub : ∀ z : ℚ, 0 ≤ z → z ≤ 1 → |z ^ 3 - z| ≤ 1 := by
    intro z z0 z1
    have t2 : 0 ≤ z * z := mul_nonneg z0 z0
    have t3 : z * z ≤ 1 := (mul_le_mul z1 z1 z0 (by norm_num)).trans (by norm_num)
    have t4 : 0 ≤ z * z * z := mul_nonneg t2 z0
    have t5 : z * z * z ≤ z := by nlinarith only [mul_le_mul_of_nonneg_right t3 z0]
    rw [abs_le]
    constructor <;> nlinarith only [t4, t5, z1, z0]
  -- the linear part
  have lin : ∀ {v z u : ℚ}, |v - z| ≤ 8 * uu → |z| ≤ 1 → |u| ≤ 1 → ∃ m, R (v * (M * u)) = fin (M * m) ∧ |m - z * u| ≤ 11 * uu := by
    intro v z u e1 e2 e3
    have e4 : |v * u - z * u| ≤ 8 * uu * 1 + 1 * 0 := mulerr e1 (by simp) e2 e3
    have e5 : |z * u| ≤ 1 := by rw [abs_mul]; exact (mul_le_mul e2 e3 (abs_nonneg _) (by norm_num)).trans (by norm_num)
    obtain ⟨m, hm, em⟩ := rnd_near hR hA sM.1 sM.2 e4 e5 (by linarith only [hus])
    have : v * (M * u) = M * (v * u) := by ring
    exact ⟨m, by rw [this, hm], em.trans (by nlinarith only [huu, hu])⟩
  obtain ⟨m0, hm0, em0⟩ := lin eav bσ bu0
  obtain ⟨m1, hm1, em1⟩ := lin ebv bτ bu1
  have el : |m0 + m1 - ((1 - τ) * u0 + τ * u1)| ≤ 22 * uu := by
    have : m0 + m1 - ((1 - τ) * u0 + τ * u1) = (m0 - (1 - τ) * u0) + (m1 - τ * u1) := by ring
    rw [this]; exact (abs_add_le _ _).trans (by linarith only [em0, em1])
  have bl : |(1 - τ) * u0 + τ * u1| ≤ 2 := by
    refine (abs_add_le _ _).trans ?_
    rw [abs_mul, abs_mul]
    have i1 := mul_le_mul bσ bu0 (abs_nonneg _) (by norm_num)
    have i2 := mul_le_mul bτ bu1 (abs_nonneg _) (by norm_num)
    linarith only [i1, i2]
  obtain ⟨l, hl, ell⟩ := rnd_near hR hA sM.1 sM.2 el bl (by linarith only [hus])
  have el2 : |l - ((1 - τ) * u0 + τ * u1)| ≤ 26 * uu := ell.trans (by nlinarith only [huu, hu])
  -- the cubic part
  have cb : ∀ {v z t : ℚ}, |v - z| ≤ 42 * uu → |z| ≤ 1 → |t| ≤ 1 → ∃ m, R (v * (M * (1 / g ^ 2) * t)) = fin (M * (1 / g ^ 2) * m) ∧ |m - z * t| ≤ 45 * uu := by
    intro v z t e1 e2 e3
    have e4 : |v * t - z * t| ≤ 42 * uu * 1 + 1 * 0 := mulerr e1 (by simp) e2 e3
    have e5 : |z * t| ≤ 1 := by rw [abs_mul]; exact (mul_le_mul e2 e3 (abs_nonneg _) (by norm_num)).trans (by norm_num)
    obtain ⟨m, hm, em⟩ := rnd_near hR hA sY'.1 sY'.2 e4 e5 (by linarith only [hus])
    have : v * (M * (1 / g ^ 2) * t) = M * (1 / g ^ 2) * (v * t) := by ring
    exact ⟨m, by rw [this, hm], em.trans (by nlinarith only [huu, hu])⟩
  obtain ⟨n0, hn0, en0⟩ := cb eac (cub _ σ0 σ1) bt0
  obtain ⟨n1, hn1, en1⟩ := cb ebc (cub _ τ0 τ1) bt1
  set Z := ((1 - τ) ^ 3 - (1 - τ)) * t0 + (τ ^ 3 - τ) * t1 with hZ
  have ez : |n0 + n1 - Z| ≤ 90 * uu := by
    have : n0 + n1 - Z = (n0 - ((1 - τ) ^ 3 - (1 - τ)) * t0) + (n1 - (τ ^ 3 - τ) * t1) := by rw [hZ]; ring
    rw [this]; exact (abs_add_le _ _).trans (by linarith only [en0, en1])
  have bz : |Z| ≤ 2 := by
    rw [hZ]
    refine (abs_add_le _ _).trans ?_
    rw [abs_mul, abs_mul]
    have i1 := mul_le_mul (cub _ σ0 σ1) bt0 (abs_nonneg _) (by norm_num)
    have i2 := mul_le_mul (cub _ τ0 τ1) bt1 (abs_nonneg _) (by norm_num)
    linarith only [i1, i2]
  obtain ⟨z, hz, ezz⟩ := rnd_near hR hA sY'.1 sY'.2 ez bz (by linarith only [hus])
  have ez2 : |z - Z| ≤ 94 * uu := ezz.trans (by nlinarith only [huu, hu])
  have bw2 : |w2| ≤ 1 + 8 * uu := near_abs ew2 (by simp)
  have ep : |z * w2 - Z * 1| ≤ 94 * uu * (1 + 8 * uu) + 2 * (8 * uu) := mulerr ez2 ew2 bz bw2
  rw [mul_one] at ep
  have ep2 : |z * w2 - Z| ≤ 111 * uu := ep.trans (by nlinarith only [huu, hu])
  obtain ⟨p, hp, epp⟩ := rnd_near hR hA sM.1 sM.2 ep2 bz (by linarith only [hus])
  have ep3 : |p - Z| ≤ 115 * uu := epp.trans (by nlinarith only [huu, hu])
  have ed : |p / 6 - Z / 6| ≤ 20 * uu := by
    rw [← sub_div, abs_div, abs_of_pos (show (0 : ℚ) < 6 by norm_num)]
    linarith only [ep3, hu]
  have bz6 : |Z / 6| ≤ 1 := by
    rw [abs_div, abs_of_pos (show (0 : ℚ) < 6 by norm_num)]; linarith only [bz]
  obtain ⟨d, hd, edd⟩ := rnd_near hR hA sM.1 sM.2 ed bz6 (by linarith only [hus])
  have ed2 : |d - Z / 6| ≤ 23 * uu := edd.trans (by nlinarith only [huu, hu])
  have ef : |l + d - ((1 - τ) * u0 + τ * u1 + Z / 6)| ≤ 49 * uu := by
    have : l + d - ((1 - τ) * u0 + τ * u1 + Z / 6) = (l - ((1 - τ) * u0 + τ * u1)) + (d - Z / 6) := by ring
    rw [this]; exact (abs_add_le _ _).trans (by linarith only [el2, ed2])
  have bf : |(1 - τ) * u0 + τ * u1 + Z / 6| ≤ 3 := (abs_add_le _ _).trans (by linarith only [bl, bz6])
  obtain ⟨r, hr, er⟩ := rnd_near hR hA sM.1 sM.2 ef bf (by linarith only [hus])
  refine ⟨M * r, ?_, ?_⟩
  · rw [ha, hb, hdx, hac, hbc]
    have h6 : ¬ (6 : ℚ) = 0 := by norm_num
    have a1 : M * m0 + M * m1 = M * (m0 + m1) := by ring
    have a2 : M * (1 / g ^ 2) * n0 + M * (1 / g ^ 2) * n1 = M * (1 / g ^ 2) * (n0 + n1) := by ring
    have a3 : M * (1 / g ^ 2) * z * (g ^ 2 * w2) = M * (z * w2) := by field_simp
    have a4 : M * p / 6 = M * (p / 6) := by ring
    have a5 : M * l + M * d = M * (l + d) := by ring
    rw [hu0, hu1, ht0, ht1]
    simp only [mul]
    rw [hm0, hm1, hn0, hn1, hw2]
    simp only [add]
    rw [a1, a2, hl, hz]
    simp only [mul]
    rw [a3, hp]
    simp only [div]
    rw [if_neg h6, a4, hd]
    simp only
    rw [a5, hr]
  · have e1 : (x1 - q) / g = 1 - τ := by rw [hσ]; field_simp
    have e2 : (q - x0) / g = τ := by rw [hτ]; field_simp
    rw [e1, e2, hu0, hu1, ht0, ht1]
    have e : M * r - ((1 - τ) * (M * u0) + τ * (M * u1) + (((1 - τ) ^ 3 - (1 - τ)) * (M * (1 / g ^ 2) * t0) + (τ ^ 3 - τ) * (M * (1 / g ^ 2) * t1)) * g ^ 2 / 6) =
        M * (r - ((1 - τ) * u0 + τ * u1 + Z / 6)) := by
      rw [hZ]; field_simp
    rw [e, abs_mul, abs_of_pos M0, mul_comm (64 * uu)]
    exact mul_le_mul_of_nonneg_left (er.trans (by nlinarith only [huu, hu])) M0.le

/-- C404: between the first and the last node the spline in floating point is finite and differs by at most 2^-47 of the scale from the exact spline through the same
nodes with the same second derivatives; the scale bounds the values and the second derivatives times the square of the gap. -/
theorem C404 (hR : Rounding R) (hA : Accurate R) (hc : CubeOK cube) (x y y2 : List ℚ) (fx : Bool) (h2 : 2 ≤ x.length) (hg : Gaps x) (hy : y.length = x.length)
    (hy2 : y2.length = x.length) (M : ℚ) (hM1 : 1 / 2 ^ 600 ≤ M) (hM2 : M ≤ 2 ^ 600) (hb : Bounded M y)
    (hb2 : ∀ i, i + 1 < x.length → |y2.getD i 0| * (x.getD (i + 1) 0 - x.getD i 0) ^ 2 ≤ M ∧ |y2.getD (i + 1) 0| * (x.getD (i + 1) 0 - x.getD i 0) ^ 2 ≤ M)
    (i : ℕ) (hi : i + 1 < x.length) (q : ℚ) (h0 : x.getD i 0 ≤ q) (h1 : q ≤ x.getD (i + 1) 0) :
    ∃ r, call R cube ⟨fins x, fins y, fins y2, fx⟩ (fin q) = fin r ∧ |r - Utilities.call ⟨x, y, y2, fx⟩ q| ≤ M / 2 ^ 47 := by
  have hG := gaps_grid h2 hg
  have hlo : x.getD 0 0 ≤ q := (hG.le (by omega) (by omega)).trans h0
  have hhi : q ≤ x.getD (x.length - 1) 0 := h1.trans (hG.le (by omega) (by omega))
  have e1 : call R cube ⟨fins x, fins y, fins y2, fx⟩ (fin q) = splint R cube ⟨fins x, fins y, fins y2, fx⟩ (fin q) := by
    unfold call
    cases fx with
    | false => simp
    | true =>
      have el : (fins x).length = x.length := by simp [fins]
      simp only [not_true_eq_false, if_false, el, getD_fins x 0 (by omega), getD_fins x (x.length - 1) (by omega), lt, decide_eq_true_eq, if_neg (not_lt.2 hlo), if_neg (not_lt.2 hhi)]
  have e2 : Utilities.call ⟨x, y, y2, fx⟩ q = Utilities.splint ⟨x, y, y2, fx⟩ q := by
    unfold Utilities.call
    cases fx with
    | false => simp
    | true => simp only [not_true_eq_false, if_false, if_neg (not_lt.2 hlo), if_neg (not_lt.2 hhi)]
  rw [e1, e2]
  have hj : ∃ j, j + 1 < x.length ∧ Utilities.segment x q = j ∧ x.getD j 0 ≤ q ∧ q ≤ x.getD (j + 1) 0 := by
    rcases eq_or_lt_of_le h0 with e | hlt
    · cases i with
      | zero => exact ⟨0, by omega, Utilities.segment_below hG q e.ge, h0, h1⟩
      | succ i => exact ⟨i, by omega, Utilities.segment_inside hG q i (by omega) (by rw [← e]; exact gaps_lt hg i (by omega)) e.ge, by rw [← e]; exact (gaps_lt hg i (by omega)).le, e.ge⟩
    · exact ⟨i, hi, Utilities.segment_inside hG q i hi hlt h1, h0, h1⟩
  obtain ⟨j, hj1, hj2, hj3, hj4⟩ := hj
  obtain ⟨r, hr, he⟩ := piece_err hR hA hc (x0 := x.getD j 0) (x1 := x.getD (j + 1) 0) rfl (hg j hj1).1 (hg j hj1).2 hM1 hM2 hj3 hj4 (hb j) (hb (j + 1)) (hb2 j hj1).1 (hb2 j hj1).2
  refine ⟨r, ?_, ?_⟩
  · unfold splint
    rw [segment_fins, hj2]
    unfold piece
    simp only [getD_fins x j (by omega), getD_fins x (j + 1) hj1, getD_fins y j (by omega), getD_fins y (j + 1) (by omega), getD_fins y2 j (by omega), getD_fins y2 (j + 1) (by omega)]
    exact hr
  · have : M / 2 ^ 47 = 64 * uu * M := by
      have e : (64 : ℚ) * uu = 1 / 2 ^ 47 := by unfold uu; norm_num
      rw [e]; ring
    rw [this]
    unfold Utilities.splint
    rw [hj2]
    exact he

/-! ## Cases -/

/-- A third power that is accurate. -/
def cube0 : XF → XF
  | fin a => fin (a ^ 3)
  | x => x

theorem cube0_ok : CubeOK cube0 := by
  refine ⟨by simp [cube0], by simp [cube0], fun v _ => ⟨v ^ 3, rfl, ?_⟩⟩
  rw [sub_self, abs_zero]
  have := uu_pos
  positivity

/-- C402: the value of a node is not always reproduced: with values 1 and 2^-60 the interpolation at the second node is 0. -/
theorem C402_node_false : ∃ (v x : List ℚ), Gaps x ∧ Doubles r64 v ∧ Doubles r64 x ∧ v.length = 2 ∧ x.length = 2 ∧
    interpol r64 (fins v) (fins x) (fin (x.getD 1 0)) ≠ fin (v.getD 1 0) := by
  refine ⟨[1, 1 / 2 ^ 60], [0, 1], ?_, ?_, ?_, rfl, rfl, by decide +kernel⟩
  · intro i hi
    have : i = 0 := by simp at hi; omega
    subst this; norm_num
  · have : ∀ a ∈ ([1, 1 / 2 ^ 60] : List ℚ), r64 a = fin a := by decide +kernel
    exact this
  · have : ∀ a ∈ ([0, 1] : List ℚ), r64 a = fin a := by decide +kernel
    exact this

/-- The hypotheses of C401 - C404 hold for three nodes with IEEE 754 doubles. -/
example : Gaps [0, 1 / 2, 2] ∧ |(-1 : ℚ)| * (2 - 1 / 2) ^ 2 ≤ 4 ∧ Bounded 4 [1, 3, 4] ∧ Doubles r64 [1, 3, 4] ∧
    call r64 cube0 ⟨fins [0, 1 / 2, 2], fins [1, 3, 4], fins [0, -1, 0], false⟩ (fin (1 / 4)) = fin (129 / 64) := by
  refine ⟨?_, by norm_num, ?_, ?_, by decide +kernel⟩
  · intro i hi
    simp only [List.length_cons, List.length_nil] at hi
    have : i = 0 ∨ i = 1 := by omega
    rcases this with rfl | rfl <;> norm_num
  · intro i
    rcases i with _ | _ | _ | i <;> norm_num
  · have : ∀ a ∈ ([1, 3, 4] : List ℚ), r64 a = fin a := by decide +kernel
    exact this

end Redmapper.FlSpline
