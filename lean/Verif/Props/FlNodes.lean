/-
Spline nodes in floating point.
-/
import Verif.Model.FlNodes
import Verif.Props.FlErr

namespace Redmapper.FlNodes

open Redmapper.FlSolver Redmapper.FlSolver.XF Redmapper.FlExact Redmapper.FlBins

variable {R : ℚ → XF}

/-- Limits and size of nodes as doubles: limits between 0 and 1000, the useful part at least 2^-20 wide, sizes between 1/4096 and 1000. -/
structure Lim (a m c : ℚ) : Prop where
  lo : 0 ≤ a
  wide : a + 1 / 2 ^ 20 ≤ m
  hi : m ≤ 1000
  size : 1 / 4096 ≤ c
  size' : c ≤ 1000

/-- The number of values of `np.arange`. -/
theorem count_near (hR : Rounding R) (hA : Accurate R) {a m c : ℚ} (h : Lim a m c) :
    ∃ v, div R (sub R (fin m) (fin a)) (fin c) = fin v ∧ |v * c - (m - a)| ≤ 1 / 2 ^ 40 ∧ 0 < v ∧ v ≤ 4096001 := by
  have h1 := h.lo; have h2 := h.wide; have h3 := h.hi; have h4 := h.size; have h5 := h.size'
  have c0 : 0 < c := by linarith
  have hu := uu_val
  obtain ⟨d, hd, ed⟩ := round_le hR hA (q := m - a) (B := 1000) (by rw [abs_le]; constructor <;> linarith) (by norm_num)
  have d1 := abs_le.1 ed
  have d0 : 0 < d := by rw [hu] at d1; linarith
  have d2 : d ≤ 1000 + 1 / 2 ^ 40 := by rw [hu] at d1; linarith
  have q0 : 0 < d / c := div_pos d0 c0
  have q1 : d / c ≤ 4096001 - 1 / 4 := by
    rw [div_le_iff₀ c0]
    have : (4096001 - 1 / 4) * (1 / 4096 : ℚ) ≤ (4096001 - 1 / 4) * c := mul_le_mul_of_nonneg_left h4 (by norm_num)
    have h6 : (1000 + 1 / 2 ^ 40 : ℚ) ≤ (4096001 - 1 / 4) * (1 / 4096 : ℚ) := by norm_num
    linarith
  obtain ⟨v, hv, ev⟩ := round_abs hR hA (q := d / c) (by
    rw [abs_of_pos q0]
    exact q1.trans ((by norm_num : (4096001 - 1 / 4 : ℚ) ≤ 2 ^ 30).trans (pow_le_pow_right₀ (by norm_num) (by norm_num))))
  rw [abs_of_pos q0] at ev
  have v1 := abs_le.1 ev
  have e2 : d / c * c = d := div_mul_cancel₀ d c0.ne'
  have e3 : |v - d / c| * c ≤ uu * (d / c + 1) * c := mul_le_mul_of_nonneg_right ev c0.le
  have e4 : uu * (d / c + 1) * c = uu * (d + c) := by rw [mul_assoc, add_mul, e2, one_mul]
  have e5 : |v * c - d| ≤ uu * (d + c) := by
    have : v * c - d = (v - d / c) * c := by rw [sub_mul, e2]
    rw [← e4, this, abs_mul, abs_of_pos c0]; exact e3
  have e6 := abs_le.1 e5
  have e7 : uu * (d + c) ≤ uu * 2002 := mul_le_mul_of_nonneg_left (by linarith) (by rw [hu]; norm_num)
  refine ⟨v, ?_, ?_, ?_, ?_⟩
  · rw [sub_fin, hd]
    simp only [div, if_neg c0.ne', hv]
  · rw [hu] at e6 e7 d1
    rw [abs_le]
    constructor <;> linarith
  · rw [hu] at e6 e7 d1
    by_contra hv0
    have : v * c ≤ 0 := mul_nonpos_of_nonpos_of_nonneg (not_lt.1 hv0) c0.le
    linarith
  · have e8 : uu * (d / c + 1) ≤ uu * 4096002 := mul_le_mul_of_nonneg_left (by linarith) (by rw [hu]; norm_num)
    rw [hu] at v1 e8
    linarith

/-- Values of `np.arange`. -/
theorem node_near (hR : Rounding R) (hA : Accurate R) {a m c : ℚ} (h : Lim a m c) (i : ℕ) (hi : (i : ℚ) * c ≤ 1001) :
    ∃ x, arangeAt R (fin a) (fin c) i = fin x ∧ |x - (a + i * c)| ≤ 1 / 2 ^ 16 := by
  have h1 := h.lo; have h2 := h.wide; have h3 := h.hi; have h4 := h.size; have h5 := h.size'
  have hu := uu_val
  have i0 : (0 : ℚ) ≤ i := Nat.cast_nonneg _
  have ia : (i : ℚ) ≤ 4100096 := by
    have : (i : ℚ) * (1 / 4096) ≤ i * c := mul_le_mul_of_nonneg_left h4 i0
    linarith
  obtain ⟨p, hp, ep⟩ := round_le hR hA (q := a + c) (B := 2000) (by rw [abs_le]; constructor <;> linarith) (by norm_num)
  have p1 := abs_le.1 ep
  rw [hu] at p1
  obtain ⟨d, hd, ed⟩ := round_le hR hA (q := p - a) (B := 2001) (by rw [abs_le]; constructor <;> linarith) (by norm_num)
  have d1 := abs_le.1 ed
  rw [hu] at d1
  have dc : |d - c| ≤ 1 / 2 ^ 40 := by rw [abs_le]; constructor <;> linarith
  have idc : |(i : ℚ) * d - i * c| ≤ 1 / 2 ^ 17 := by
    rw [← mul_sub, abs_mul, abs_of_nonneg i0]
    calc (i : ℚ) * |d - c| ≤ 4100096 * (1 / 2 ^ 40) := mul_le_mul ia dc (abs_nonneg _) (by norm_num)
      _ ≤ 1 / 2 ^ 17 := by norm_num
  have j1 := abs_le.1 idc
  have ic0 : 0 ≤ (i : ℚ) * c := mul_nonneg i0 (by linarith)
  obtain ⟨y, hy, ey⟩ := round_le hR hA (q := (i : ℚ) * d) (B := 1002) (by rw [abs_le]; constructor <;> linarith) (by norm_num)
  have y1 := abs_le.1 ey
  rw [hu] at y1
  obtain ⟨x, hx, ex⟩ := round_le hR hA (q := a + y) (B := 2003) (by rw [abs_le]; constructor <;> linarith) (by norm_num)
  have x1 := abs_le.1 ex
  rw [hu] at x1
  refine ⟨x, ?_, ?_⟩
  · unfold arangeAt
    simp only [add, hp, sub_fin, hd, mul, hy, hx]
  · rw [abs_le]; constructor <;> linarith

theorem foldl_max (l : List XF) : ∀ x : ℚ, (∀ y ∈ l, ∃ q, y = fin q) →
    ∃ M : ℚ, l.foldl (fun a b => if lt a b then b else a) (fin x) = fin M ∧ x ≤ M ∧ (∀ q, fin q ∈ l → q ≤ M) ∧ (M = x ∨ fin M ∈ l) := by
  induction l with
  | nil => intro x _; exact ⟨x, rfl, le_rfl, by simp, Or.inl rfl⟩
  | cons y l ih =>
    intro x hl
    obtain ⟨q, rfl⟩ := hl y (by simp)
    have hl' : ∀ y ∈ l, ∃ q, y = fin q := fun y hy => hl y (by simp [hy])
    rw [List.foldl_cons]
    by_cases hxq : x < q
    · obtain ⟨M, h1, h2, h3, h4⟩ := ih q hl'
      refine ⟨M, ?_, by linarith, ?_, Or.inr (by rcases h4 with rfl | h4 <;> simp [*])⟩
      · rw [if_pos (by simpa [lt] using hxq)]; exact h1
      · intro z hz
        rcases List.mem_cons.1 hz with hz | hz
        · simp only [fin.injEq] at hz; rw [hz]; exact h2
        · exact h3 z hz
    · obtain ⟨M, h1, h2, h3, h4⟩ := ih x hl'
      refine ⟨M, ?_, h2, ?_, by rcases h4 with h4 | h4 <;> simp [h4]⟩
      · rw [if_neg (by simpa [lt] using hxq)]; exact h1
      · intro z hz
        rcases List.mem_cons.1 hz with hz | hz
        · simp only [fin.injEq] at hz; rw [hz]; exact (not_lt.1 hxq).trans h2
        · exact h3 z hz

/-- What `np.arange` gives: numbers that increase, the first is the lower limit, all but the last are below the upper one. -/
theorem arange_spec (hR : Rounding R) (hA : Accurate R) {a m c : ℚ} (h : Lim a m c) (ha : R a = fin a) :
    ∃ (n : ℕ) (x : ℕ → ℚ), (ceilBins R (fin a) (fin m) (fin c)).toNat = n + 1 ∧ (∀ i, i ≤ n → arangeAt R (fin a) (fin c) i = fin (x i)) ∧ x 0 = a ∧
      (∀ i j, i < j → j ≤ n → x i < x j) ∧ (∀ i, i < n → x i < m) ∧ (c + 1 / 2 ^ 20 ≤ m - a → 1 ≤ n) ∧
      (∀ i, i ≤ n → |x i - (a + i * c)| ≤ 1 / 2 ^ 16) ∧ (n : ℚ) * c ≤ m - a + 1 / 2 ^ 40 ∧ m - a ≤ (n + 1) * c + 1 / 2 ^ 40 := by
  have h1 := h.lo; have h2 := h.wide; have h3 := h.hi; have h4 := h.size; have h5 := h.size'
  have c0 : 0 < c := by linarith
  obtain ⟨v, hv, e1, v0, v1⟩ := count_near hR hA h
  have b1 := abs_le.1 e1
  have hc : ceilBins R (fin a) (fin m) (fin c) = ⌈v⌉ := by unfold ceilBins; rw [hv]; rfl
  have hpos : 0 < ⌈v⌉ := Int.ceil_pos.2 v0
  obtain ⟨n, hn⟩ : ∃ n : ℕ, ⌈v⌉ = n + 1 := ⟨(⌈v⌉ - 1).toNat, by omega⟩
  have hnv : (n : ℚ) < v := by
    have := Int.ceil_lt_add_one v
    rw [hn] at this; push_cast at this; linarith
  have hnv2 : v ≤ n + 1 := by
    have := Int.le_ceil v
    rw [hn] at this; push_cast at this; exact this
  have hnc : (n : ℚ) * c ≤ v * c := mul_le_mul_of_nonneg_right hnv.le c0.le
  have hic : ∀ i : ℕ, i ≤ n → (i : ℚ) * c ≤ 1001 := by
    intro i hi
    have : (i : ℚ) * c ≤ n * c := mul_le_mul_of_nonneg_right (by exact_mod_cast hi) c0.le
    linarith
  have hx : ∀ i : ℕ, ∃ x, i ≤ n → arangeAt R (fin a) (fin c) i = fin x ∧ |x - (a + i * c)| ≤ 1 / 2 ^ 16 := by
    intro i
    by_cases hi : i ≤ n
    · obtain ⟨x, hx⟩ := node_near hR hA h i (hic i hi)
      exact ⟨x, fun _ => hx⟩
    · exact ⟨0, fun h => absurd h hi⟩
  choose x hx using hx
  refine ⟨n, x, by omega, fun i hi => (hx i hi).1, ?_, ?_, ?_, ?_, fun i hi => (hx i hi).2, by linarith, ?_⟩
  · have e := (hx 0 (Nat.zero_le _)).1
    obtain ⟨p, hp, ep⟩ := round_le hR hA (q := a + c) (B := 2000) (by rw [abs_le]; constructor <;> linarith) (by norm_num)
    have p1 := abs_le.1 ep
    rw [uu_val] at p1
    obtain ⟨d, hd, ed⟩ := round_le hR hA (q := p - a) (B := 2001) (by rw [abs_le]; constructor <;> linarith) (by norm_num)
    unfold arangeAt at e
    simp only [add, hp, sub_fin, hd, mul, Nat.cast_zero, zero_mul, R0 hR, add_zero, ha, fin.injEq] at e
    exact e.symm
  · intro i j hij hj
    have g1 := abs_le.1 (hx i (hij.le.trans hj)).2
    have g2 := abs_le.1 (hx j hj).2
    have : (i : ℚ) + 1 ≤ j := by exact_mod_cast hij
    have g3 : ((i : ℚ) + 1) * c ≤ j * c := mul_le_mul_of_nonneg_right this c0.le
    linarith
  · intro i hi
    have g1 := abs_le.1 (hx i hi.le).2
    have : (i : ℚ) + 1 ≤ n := by exact_mod_cast hi
    have g3 : ((i : ℚ) + 1) * c ≤ n * c := mul_le_mul_of_nonneg_right this c0.le
    linarith
  · intro hw
    by_contra hn0
    have : n = 0 := by omega
    subst this
    have g3 : v * c ≤ 1 * c := mul_le_mul_of_nonneg_right (by simpa using hnv2) c0.le
    linarith
  · have g3 : v * c ≤ (n + 1) * c := mul_le_mul_of_nonneg_right hnv2 c0.le
    linarith

/-- The strict order of doubles along a list of nodes. -/
def Increasing (l : List XF) : Prop := l.Pairwise fun x y => lt x y = true

theorem increasing_append {l : List XF} {m : ℚ} (h : Increasing l) (hm : ∀ y ∈ l, lt y (fin m) = true) : Increasing (l ++ [fin m]) := by
  unfold Increasing at *
  rw [List.pairwise_append]
  exact ⟨h, by simp, fun y hy z hz => by rw [List.mem_singleton.1 hz]; exact hm y hy⟩

/-- Nodes of size `c` from `a`, before the highest useful node `m`: each at its place within 2^-16; the last interval up to `m` is at least the node size or
half of it plus 0.01, and at most one and a half sizes plus 0.01, within 2^-14. -/
def Spaced (a m c : ℚ) (l : List XF) : Prop :=
  ∃ (k : ℕ) (x : ℕ → ℚ), l = (List.range k).map (fun i => fin (x i)) ∧ (∀ i, i < k → |x i - (a + i * c)| ≤ 1 / 2 ^ 16) ∧
    (0 < k → min c (c / 2 + 1 / 100) - 1 / 2 ^ 14 ≤ m - x (k - 1) ∧ m - x (k - 1) ≤ 3 / 2 * c + 1 / 100 + 1 / 2 ^ 14) ∧
    (k = 0 → m - a ≤ c / 2 + 1 / 100 + 1 / 2 ^ 14)

/-- The nodes up to the highest useful node. -/
theorem body_spec (hR : Rounding R) (hA : Accurate R) {a m c : ℚ} (h : Lim a m c) (ha : R a = fin a) :
    ∃ top l, maxOf ((List.range (ceilBins R (fin a) (fin m) (fin c)).toNat).map (arangeAt R (fin a) (fin c))) = some top ∧
      (if lt (add R (div R (fin c) (fin 2)) (R (1 / 100))) (sub R (fin m) top)
        then (List.range (ceilBins R (fin a) (fin m) (fin c)).toNat).map (arangeAt R (fin a) (fin c)) ++ [fin m]
        else ((List.range (ceilBins R (fin a) (fin m) (fin c)).toNat).map (arangeAt R (fin a) (fin c))).set
          (((List.range (ceilBins R (fin a) (fin m) (fin c)).toNat).map (arangeAt R (fin a) (fin c))).length - 1) (fin m)) = l ++ [fin m] ∧
      Increasing (l ++ [fin m]) ∧ (∀ y ∈ l, ∃ q : ℚ, y = fin q ∧ q < m) ∧ Spaced a m c l ∧ (c + 1 / 2 ^ 20 ≤ m - a → (l ++ [fin m]).head? = some (fin a)) := by
  have h1 := h.lo; have h2 := h.wide; have h3 := h.hi; have h4 := h.size; have h5 := h.size'
  obtain ⟨n, x, hn, hx, x0, hmono, hlt, hwide, hnear, hn1, hn2⟩ := arange_spec hR hA h ha
  have c0 : 0 < c := by linarith
  have hnn := abs_le.1 (hnear n le_rfl)
  rw [hn]
  have hl : (List.range (n + 1)).map (arangeAt R (fin a) (fin c)) = (List.range (n + 1)).map fun i => fin (x i) := by
    refine List.map_congr_left fun i hi => hx i ?_
    rw [List.mem_range] at hi; omega
  rw [hl]
  have hinc : Increasing ((List.range (n + 1)).map fun i => fin (x i)) := by
    unfold Increasing
    rw [List.pairwise_map]
    refine List.Pairwise.imp_of_mem ?_ List.pairwise_lt_range
    intro i j hi hj hij
    rw [List.mem_range] at hj
    simpa [lt] using hmono i j hij (by omega)
  obtain ⟨M, hM, hM0, hMle, hMmem⟩ := foldl_max ((List.range n).map fun i => fin (x (i + 1))) (x 0) (by
    intro y hy
    obtain ⟨i, -, rfl⟩ := List.mem_map.1 hy
    exact ⟨_, rfl⟩)
  have hcons : (List.range (n + 1)).map (fun i => fin (x i)) = fin (x 0) :: (List.range n).map fun i => fin (x (i + 1)) := by
    rw [List.range_succ_eq_map]; simp [List.map_map, Function.comp_def]
  have hsnoc : (List.range (n + 1)).map (fun i => fin (x i)) = (List.range n).map (fun i => fin (x i)) ++ [fin (x n)] := by
    rw [List.range_succ]; simp
  refine ⟨fin M, ?_⟩
  have htop : maxOf ((List.range (n + 1)).map fun i => fin (x i)) = some (fin M) := by
    rw [hcons]; simp only [maxOf, hM]
  have hall : ∀ i, i ≤ n → x i ≤ M := by
    intro i hi
    cases i with
    | zero => exact hM0
    | succ i => exact hMle _ (List.mem_map.2 ⟨i, by rw [List.mem_range]; omega, rfl⟩)
  have hMx : M = x n := by
    refine le_antisymm ?_ (hall n le_rfl)
    have : ∃ i, i ≤ n ∧ M = x i := by
      rcases hMmem with h | h
      · exact ⟨0, Nat.zero_le _, h⟩
      · obtain ⟨i, hi, e⟩ := List.mem_map.1 h
        rw [List.mem_range] at hi
        simp only [fin.injEq] at e
        exact ⟨i + 1, by omega, e.symm⟩
    obtain ⟨i, hi, e⟩ := this
    rcases Nat.lt_or_eq_of_le hi with h | h
    · rw [e]; exact (hmono i n h le_rfl).le
    · rw [e, h]
  obtain ⟨p, hp, p0, ep⟩ : ∃ p, div R (fin c) (fin 2) = fin p ∧ 0 ≤ p ∧ |p - c / 2| ≤ 1 / 2 ^ 40 := by
    obtain ⟨p, hp, ep⟩ := round_le hR hA (q := c / 2) (B := 1000) (by rw [abs_le]; constructor <;> linarith) (by norm_num)
    have e := abs_le.1 ep
    rw [uu_val] at e
    have h20 : ¬ (2 : ℚ) = 0 := two_ne_zero
    exact ⟨p, by simp only [div, if_neg h20, hp], by linarith, by rw [abs_le]; constructor <;> linarith⟩
  obtain ⟨s, hs, es⟩ := round_le hR hA (q := 1 / 100) (B := 1) (by rw [abs_le]; constructor <;> norm_num) (by norm_num)
  have es1 := abs_le.1 es
  have ep1 := abs_le.1 ep
  rw [uu_val] at es1
  obtain ⟨w, hw, ew⟩ := round_le hR hA (q := p + s) (B := 1001) (by rw [abs_le]; constructor <;> linarith) (by norm_num)
  have ew1 := abs_le.1 ew
  rw [uu_val] at ew1
  have hxn : |m - M| ≤ 2001 := by rw [hMx, abs_le]; constructor <;> linarith
  obtain ⟨g, hg, eg⟩ := round_le hR hA hxn (by norm_num)
  have eg1 := abs_le.1 eg
  rw [uu_val] at eg1
  have hthr : lt (add R (div R (fin c) (fin 2)) (R (1 / 100))) (sub R (fin m) (fin M)) = decide (w < g) := by
    rw [hp, hs, sub_fin, hg]; simp only [add, hw, lt]
  by_cases hcase : lt (add R (div R (fin c) (fin 2)) (R (1 / 100))) (sub R (fin m) (fin M)) = true
  · -- one more node
    have hlM : M < m := by
      rw [hthr, decide_eq_true_eq] at hcase
      linarith
    have hlow : ∀ y ∈ (List.range (n + 1)).map (fun i => fin (x i)), ∃ q : ℚ, y = fin q ∧ q < m := by
      intro y hy
      obtain ⟨i, hi, rfl⟩ := List.mem_map.1 hy
      rw [List.mem_range] at hi
      exact ⟨x i, rfl, lt_of_le_of_lt (hall i (by omega)) hlM⟩
    refine ⟨(List.range (n + 1)).map (fun i => fin (x i)), htop, by rw [if_pos hcase], ?_, hlow, ?_, ?_⟩
    · refine increasing_append hinc fun y hy => ?_
      obtain ⟨q, rfl, hq⟩ := hlow y hy
      simpa [lt] using hq
    · rw [hthr, decide_eq_true_eq] at hcase
      refine ⟨n + 1, x, rfl, fun i hi => hnear i (by omega), fun _ => ?_, fun h => absurd h (by omega)⟩
      rw [Nat.add_sub_cancel, ← hMx]
      rw [hMx] at eg1 ⊢
      refine ⟨(sub_le_sub_right (min_le_right _ _) _).trans (by linarith), by linarith⟩
    · intro _
      rw [hcons, x0]; rfl
  · -- the last node is moved
    have hlow : ∀ y ∈ (List.range n).map (fun i => fin (x i)), ∃ q : ℚ, y = fin q ∧ q < m := by
      intro y hy
      obtain ⟨i, hi, rfl⟩ := List.mem_map.1 hy
      rw [List.mem_range] at hi
      exact ⟨x i, rfl, hlt i hi⟩
    refine ⟨(List.range n).map (fun i => fin (x i)), htop, ?_, ?_, hlow, ?_, ?_⟩
    · rw [if_neg hcase, hsnoc]
      simp
    · refine increasing_append ?_ fun y hy => ?_
      · rw [hsnoc] at hinc
        unfold Increasing at *
        exact (List.pairwise_append.1 hinc).1
      · obtain ⟨q, rfl, hq⟩ := hlow y hy
        simpa [lt] using hq
    · rw [hthr, decide_eq_true_eq] at hcase
      refine ⟨n, x, rfl, fun i hi => hnear i hi.le, fun h0 => ?_, fun h0 => ?_⟩
      · have e1 := abs_le.1 (hnear (n - 1) (by omega))
        have e2 : ((n - 1 : ℕ) : ℚ) = n - 1 := by rw [Nat.cast_sub h0, Nat.cast_one]
        rw [e2] at e1
        rw [hMx] at eg1
        refine ⟨(sub_le_sub_right (min_le_left _ _) _).trans (by linarith), by linarith⟩
      · subst h0
        rw [hMx, x0] at eg1
        linarith
    · intro hw
      have := hwide hw
      obtain ⟨k, rfl⟩ : ∃ k, n = k + 1 := ⟨n - 1, by omega⟩
      rw [List.range_succ_eq_map]
      simp [x0]

/-- The highest useful node of numbers. -/
theorem nodeEnd_fin (z1 : ℚ) (mx : Option ℚ) : ∃ m, nodeEnd (fin z1) (mx.map fin) = fin m ∧ m ≤ z1 ∧
    m = (match mx with | none => z1 | some x => if x < 0 then z1 else min x z1) := by
  cases mx with
  | none => exact ⟨z1, rfl, le_rfl, rfl⟩
  | some x =>
    simp only [Option.map_some, nodeEnd, lt, decide_eq_true_eq]
    split_ifs with h
    · exact ⟨z1, rfl, le_rfl, rfl⟩
    · refine ⟨min x z1, ?_, min_le_right _ _, rfl⟩
      unfold clip
      simp only [lt, decide_eq_true_eq, if_neg h]
      split_ifs with h2
      · rw [min_eq_right h2.le]
      · rw [min_eq_left (not_lt.1 h2)]

/-- C396: in floating point the nodes of a redshift range are made without error, increase strictly, contain the highest useful node (the upper
limit, unless a lower maximum is given), end at the upper limit, and start at the lower limit if the useful part is wider than a node size.  Between these they
are spaced by the node size. -/
theorem C396 (hR : Rounding R) (hA : Accurate R) {z0 z1 c : ℚ} (mx : Option ℚ) (hz : R z0 = fin z0) (m : ℚ)
    (hm : m = (match mx with | none => z1 | some x => if x < 0 then z1 else min x z1)) (h : Lim z0 m c) (hz1 : m ≤ z1) :
    ∃ nodes, makeNodes R (fin z0) (fin z1) (fin c) (mx.map fin) = some nodes ∧ Increasing nodes ∧ fin m ∈ nodes ∧ nodes.getLast? = some (fin z1) ∧
      (∃ l, Spaced z0 m c l ∧ nodes = if m < z1 then l ++ [fin m, fin z1] else l ++ [fin m]) ∧
      (c + 1 / 2 ^ 20 ≤ m - z0 → nodes.head? = some (fin z0)) := by
  have h1 := h.lo; have h2 := h.wide
  have p20 : (0 : ℚ) < 1 / 2 ^ 20 := by positivity
  obtain ⟨m', hm', hle, hmm⟩ := nodeEnd_fin z1 mx
  obtain rfl : m' = m := by rw [hm, hmm]
  obtain ⟨top, l, ht, hl, hinc, hlow, hsp, hhead⟩ := body_spec hR hA h hz
  unfold makeNodes
  rw [hm']
  dsimp only
  rw [ht, Option.map_some, hl]
  by_cases hlt : m' < z1
  · refine ⟨l ++ [fin m'] ++ [fin z1], by rw [if_pos (by simpa [lt] using hlt)], ?_, by simp, by simp, ⟨l, hsp, by rw [if_pos hlt]; simp⟩, ?_⟩
    · refine increasing_append hinc fun y hy => ?_
      rcases List.mem_append.1 hy with hy | hy
      · obtain ⟨q, rfl, hq⟩ := hlow y hy
        simpa [lt] using hq.trans hlt
      · rw [List.mem_singleton.1 hy]; simpa [lt] using hlt
    · intro hw
      rw [List.head?_append, hhead hw]; rfl
  · obtain rfl : m' = z1 := le_antisymm hle (not_lt.1 hlt)
    exact ⟨l ++ [fin m'], by rw [if_neg (by simp [lt])], hinc, by simp, by simp, ⟨l, hsp, by rw [if_neg (lt_irrefl _)]⟩, hhead⟩

/-! ## Examples -/

/-- The range 0.1 to 0.4 with nodes of 0.02: numpy's 16 values reach 0.4, the last of them is moved to the limit itself. -/
example : (makeNodes r64 (r64 (1 / 10)) (r64 (4 / 10)) (r64 (2 / 100)) none).map (fun l => (l.length, l.getLast?)) = some (16, some (r64 (4 / 10))) := by decide +kernel

/-- Nodes of 0.05 up to a maximum of 0.33 in the range 0.1 to 0.7. -/
example : (makeNodes r64 (r64 (1 / 10)) (r64 (7 / 10)) (r64 (1 / 20)) (some (r64 (33 / 100)))).map (fun l => (l.length, l.head?, l.getLast?, l.getD 4 nan)) =
    some (6, some (r64 (1 / 10)), some (r64 (7 / 10)), r64 (33 / 100)) := by decide +kernel

/-- Hypotheses: a range of doubles with a lower maximum. -/
example : Lim (1 / 8) (5 / 8) (1 / 16) ∧ r64 (1 / 8) = fin (1 / 8) ∧ (5 / 8 : ℚ) = min (5 / 8) (7 / 8) ∧ (1 / 16 + 1 / 2 ^ 20 : ℚ) ≤ 5 / 8 - 1 / 8 :=
  ⟨by constructor <;> norm_num, by decide +kernel, by norm_num, by norm_num⟩

end Redmapper.FlNodes
