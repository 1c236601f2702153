/-
Draws from a tabulated distribution in floating point.
-/
import Verif.Model.FlSample
import Verif.Props.FlBins

namespace Redmapper.FlSample

open Redmapper.FlSolver Redmapper.FlSolver.XF Redmapper.FlExact

variable {R : ℚ → XF}

theorem cumsum_length (R : ℚ → XF) : ∀ (l : List XF) (a : XF), (cumsum R a l).length = l.length
  | [], _ => rfl
  | x :: l, a => by simp [cumsum, cumsum_length R l]

theorem cdfi_length (R : ℚ → XF) (pdf : List XF) (s : XF) : (cdfi R pdf s).length = pdf.length := by
  simp [cdfi, cumsum_length]

/-- Last value of a cumulative sum. -/
theorem cumsum_last (R : ℚ → XF) : ∀ (l : List XF) (a : XF) (h : 0 < l.length),
    (cumsum R a l)[l.length - 1]'(by rw [cumsum_length]; omega) = l.foldl (add R) a
  | [], _, h => absurd h (by simp)
  | [x], a, _ => by simp [cumsum]
  | x :: y :: l, a, _ => by
    have ih := cumsum_last R (y :: l) (add R a x) (by simp)
    simp only [cumsum, List.foldl_cons, List.length_cons] at ih ⊢
    simpa using ih

/-- Error of the sum of the normalised densities. -/
theorem fold_err (hR : Rounding R) (hA : Accurate R) {S : ℚ} (hS : 0 < S) (N : ℕ) (hN : N ≤ 2 ^ 20) :
    ∀ (fs : List ℚ) (a A : ℚ) (k : ℕ), (∀ f ∈ fs, 0 ≤ f) → 0 ≤ A → A + fs.sum / S ≤ 3 / 2 → k + fs.length ≤ N → 0 ≤ a → |a - A| ≤ k * (8 * uu) →
      ∃ v, ((fs.map fin).map fun f => div R f (fin S)).foldl (add R) (fin a) = fin v ∧ 0 ≤ v ∧ |v - (A + fs.sum / S)| ≤ (k + fs.length : ℕ) * (8 * uu)
  | [], a, A, k, _, _, _, _, h0, h1 => ⟨a, rfl, h0, by simpa using h1⟩
  | f :: fs, a, A, k, hf, hA0, hsum, hk, h0, h1 => by
    have hu := uu_pos
    have hu1 : uu * 2 ^ 24 ≤ 1 / 100 := by rw [FlBins.uu_val]; norm_num
    have f0 : 0 ≤ f := hf f (by simp)
    have hfs : 0 ≤ fs.sum := List.sum_nonneg fun x hx => hf x (List.mem_cons_of_mem _ hx)
    have q0 : 0 ≤ f / S := div_nonneg f0 hS.le
    have qs : 0 ≤ fs.sum / S := div_nonneg hfs hS.le
    simp only [List.sum_cons, add_div, List.length_cons] at hsum hk
    have q1 : f / S ≤ 3 / 2 := by linarith
    have b2 : (2 : ℚ) ≤ 2 ^ 1000 := (pow_one (2 : ℚ)).symm.le.trans (pow_le_pow_right₀ (by norm_num) (by norm_num))
    have b4 : (4 : ℚ) ≤ 2 ^ 1000 := le_trans (by norm_num : (4 : ℚ) ≤ 2 ^ 2) (pow_le_pow_right₀ (by norm_num) (by norm_num))
    obtain ⟨p, hp, p0, pe⟩ := round_nn hR hA q0 (q1.trans (le_trans (by norm_num) b2))
    have hkq : (k : ℚ) ≤ 2 ^ 20 := by
      have : k ≤ 2 ^ 20 := by omega
      exact_mod_cast this
    have hke : (k : ℚ) * (8 * uu) ≤ 1 / 100 := by nlinarith
    have a1 := abs_le.1 h1
    have a2 := abs_le.1 pe
    have e1 : uu * (f / S) ≤ uu * (3 / 2) := mul_le_mul_of_nonneg_left q1 hu.le
    have hus : uu ≤ 1 / 100 := by linarith
    have s0 : 0 ≤ a + p := add_nonneg h0 p0
    have s1 : a + p ≤ 3 := by linarith
    obtain ⟨b, hb, b0, be⟩ := round_nn hR hA s0 (s1.trans (le_trans (by norm_num) b4))
    have a3 := abs_le.1 be
    have e2 : uu * (a + p) ≤ uu * 3 := mul_le_mul_of_nonneg_left s1 hu.le
    obtain ⟨v, hv, v0, ve⟩ := fold_err hR hA hS N hN fs b (A + f / S) (k + 1) (fun x hx => hf x (List.mem_cons_of_mem _ hx)) (by linarith)
      (by linarith) (by omega) b0 (by
        rw [abs_le]
        push_cast
        constructor <;> linarith)
    refine ⟨v, ?_, v0, ?_⟩
    · simp only [List.map_cons, List.foldl_cons, div, if_neg hS.ne', hp, add, hb]
      exact hv
    · simp only [List.sum_cons, List.length_cons, add_div]
      have : k + (fs.length + 1) = k + 1 + fs.length := by omega
      rw [this, ← add_assoc]
      exact ve

theorem toInt_ge {x : ℚ} {n : ℤ} (hn : 0 ≤ n) (h : (n : ℚ) ≤ x) : n ≤ toInt (fin x) := by
  have : (0 : ℚ) ≤ x := le_trans (by exact_mod_cast hn) h
  simp only [toInt, if_pos this]
  exact Int.le_floor.2 h

theorem toInt_lt {x : ℚ} {n : ℤ} (h0 : 0 ≤ x) (h : x < n) : toInt (fin x) < n := by
  simp only [toInt, if_pos h0]
  exact Int.floor_lt.2 h

/-- What numpy returns for a sum of numbers that are not negative: the sum up to a relative error of 2^-24 (twelve digits less than it has). -/
def GoodSum (fs : List ℚ) (s : ℚ) : Prop := 0 < fs.sum ∧ |s - fs.sum| ≤ fs.sum / 2 ^ 24

/-- C393: in floating point a draw always finds a place, for every distribution on up to 2^20 points (not negative, not all zero) and every random
number in [0, 1) that is a multiple of 2^-53. -/
theorem C393 (hR : Rounding R) (hA : Accurate R) (fs : List ℚ) (hf : ∀ f ∈ fs, 0 ≤ f) (hn : fs.length ≤ 2 ^ 20) (s : ℚ) (hs : GoodSum fs s)
    (u : ℚ) (hu0 : 0 ≤ u) (hu1 : u ≤ 1 - 1 / 2 ^ 53) : ∃ i, sample R (fs.map fin) (fin s) (fin u) = some i ∧ i < fs.length := by
  obtain ⟨hS, he⟩ := hs
  have a := abs_le.1 he
  have hlen : 0 < fs.length := by
    rcases fs with _ | ⟨f, l⟩
    · simp at hS
    · simp
  set n := fs.length with hnd
  have hnq : (n : ℚ) ≤ 2 ^ 20 := by exact_mod_cast hn
  have hn0 : (0 : ℚ) < n := by exact_mod_cast hlen
  have hn1 : (1 : ℚ) ≤ n := by exact_mod_cast hlen
  have hs0 : 0 < s := by linarith
  have hq : fs.sum / s ≤ 3 / 2 := by rw [div_le_iff₀ hs0]; linarith
  have hq2 : 1 - 1 / 2 ^ 23 ≤ fs.sum / s := by rw [le_div_iff₀ hs0]; linarith
  have hu := FlBins.uu_val
  -- the end of the cumulative distribution
  obtain ⟨v, hv, v0, ve⟩ := fold_err hR hA hs0 n hn fs 0 0 0 hf le_rfl (by linarith) (by omega) le_rfl (by simp)
  rw [zero_add, zero_add] at ve
  have ve' := abs_le.1 ve
  have hne : (n : ℚ) * (8 * uu) ≤ 2 ^ 20 * (8 * uu) := mul_le_mul_of_nonneg_right hnq (by rw [hu]; norm_num)
  rw [hu] at hne ve'
  have v1 : 1 - 1 / 2 ^ 22 ≤ v := by linarith
  have v2 : v ≤ 2 := by linarith
  have vn0 : 0 ≤ v * n := mul_nonneg v0 hn0.le
  have vn1 : v * n ≤ 2 ^ 21 := by nlinarith
  obtain ⟨w, hw, w0, we⟩ := round_nn hR hA vn0 (vn1.trans (pow_le_pow_right₀ (by norm_num) (by norm_num)))
  have we' := abs_le.1 we
  have e1 : uu * (v * n) ≤ uu * 2 ^ 21 := mul_le_mul_of_nonneg_left vn1 uu_pos.le
  rw [hu] at e1 we'
  have e2 : (n : ℚ) - 1 / 4 ≤ v * n := by nlinarith
  have hlast : ((n : ℤ) - 1) ≤ toInt (mul R (fin v) (fin n)) := by
    simp only [mul, hw]
    refine toInt_ge (by omega) ?_
    push_cast
    linarith
  -- the draw
  have hrand : toInt (mul R (fin u) (fin n)) ≤ (n : ℤ) - 1 := by
    have un0 : 0 ≤ u * n := mul_nonneg hu0 hn0.le
    have un1 : u * n ≤ 2 ^ 21 := by nlinarith
    have hlt : ∃ x, R (u * n) = fin x ∧ 0 ≤ x ∧ x < n := by
      rcases le_or_gt (1 / 2 ^ 1000) (u * n) with h | h
      · obtain ⟨x, hx, ex⟩ := hA (u * n) (by rw [abs_of_nonneg un0]; exact h)
          (by rw [abs_of_nonneg un0]; exact un1.trans (pow_le_pow_right₀ (by norm_num) (by norm_num)))
        rw [abs_of_nonneg un0] at ex
        have ex' := abs_le.1 ex
        have hun : u * n ≤ (1 - 1 / 2 ^ 53) * n := mul_le_mul_of_nonneg_right hu1 hn0.le
        have hup : 0 < uu := uu_pos
        refine ⟨x, hx, by have : uu ≤ 1 := by (rw [hu]; norm_num)
                          nlinarith, ?_⟩
        have hm : (1 + uu) * (u * n) ≤ (1 + uu) * ((1 - 1 / 2 ^ 53) * n) := mul_le_mul_of_nonneg_left hun (by linarith)
        have hm2 : (1 + uu) * ((1 - 1 / 2 ^ 53) * n) < n := by rw [hu]; nlinarith
        linarith
      · obtain ⟨x, hx, x0, xe⟩ := round_nn hR hA un0 (un1.trans (pow_le_pow_right₀ (by norm_num) (by norm_num)))
        have xe' := abs_le.1 xe
        have ht := tiny_le
        have e3 : uu * (u * n) ≤ uu * 1 := mul_le_mul_of_nonneg_left (by rw [hu] at ht; linarith) uu_pos.le
        rw [hu] at ht e3 xe'
        exact ⟨x, hx, x0, by linarith⟩
    obtain ⟨x, hx, x0, x1⟩ := hlt
    have := toInt_lt (n := (n : ℤ)) x0 (by exact_mod_cast x1)
    simp only [mul, hx]
    omega
  -- the place
  have hmap : (fs.map fin).length = n := by simp [hnd]
  have hl : (cdfi R (fs.map fin) (fin s)).length = n := by rw [cdfi_length, hmap]
  have hget : (cdfi R (fs.map fin) (fin s)).getD (n - 1) 0 = toInt (mul R (fin v) (fin n)) := by
    rw [List.getD_eq_getElem?_getD, List.getElem?_eq_getElem (by omega), Option.getD_some]
    simp only [cdfi, List.getElem_map]
    have hc := cumsum_last R ((fs.map fin).map fun f => div R f (fin s)) (fin 0) (by simpa using hlen)
    rw [hv] at hc
    simp only [List.length_map] at hc
    rw [← hc]
    simp only [List.length_map, ← hnd]
  have hsome : ∃ i, sample R (fs.map fin) (fin s) (fin u) = some i := by
    unfold sample
    dsimp only
    rw [hmap, hl, ← Option.isSome_iff_exists, List.find?_isSome]
    refine ⟨n - 1, List.mem_range.2 (by omega), ?_⟩
    rw [hget, decide_eq_true_eq]
    exact hrand.trans hlast
  obtain ⟨i, hi⟩ := hsome
  refine ⟨i, hi, ?_⟩
  have := List.mem_of_find?_eq_some hi
  rw [hl] at this
  exact List.mem_range.1 this

theorem cumsum_step (R : ℚ → XF) : ∀ (l : List XF) (a : XF) (j : ℕ) (_ : 0 < j) (h : j < l.length),
    (cumsum R a l)[j]'(by rw [cumsum_length]; exact h) = add R ((cumsum R a l)[j - 1]'(by rw [cumsum_length]; omega)) l[j]
  | [], _, _, _, h => absurd h (by simp)
  | [x], _, j, h0, h => absurd h (by simp; omega)
  | x :: y :: l, a, 1, _, _ => by simp [cumsum]
  | x :: y :: l, a, j + 2, _, h => by
    have ih := cumsum_step R (y :: l) (add R a x) (j + 1) (by omega) (by simpa using h)
    simpa [cumsum] using ih

theorem cumsum_fix (hR : Rounding R) : ∀ (l : List XF) (a : XF) (j : ℕ) (h : j < (cumsum R a l).length), Fix R (cumsum R a l)[j]
  | [], _, _, h => absurd h (by simp [cumsum])
  | x :: l, a, 0, _ => fix_add hR _ _
  | x :: l, a, j + 1, h => cumsum_fix hR l (add R a x) j (by simpa [cumsum] using h)

theorem add_zero_fix (hR : Rounding R) {x : XF} (h : Fix R x) : add R x (fin 0) = x := by
  cases x with
  | fin v => simp only [add, add_zero]; exact h v rfl
  | pinf => rfl
  | ninf => rfl
  | nan => rfl

/-- C394: in floating point a draw that is not the first point has a density that is not zero. -/
theorem C394_partial (hR : Rounding R) (fs : List ℚ) (s : ℚ) (hs : s ≠ 0) (u : XF) (i : ℕ) (h : sample R (fs.map fin) (fin s) u = some i) (hi : 0 < i) :
    fs[i]? ≠ some 0 := by
  intro h0
  unfold sample at h
  dsimp only at h
  have hmem := List.mem_range.1 (List.mem_of_find?_eq_some h)
  have hsat := List.find?_some h
  have hprev : ¬ (toInt (mul R u (fin (fs.map fin).length)) ≤ (cdfi R (fs.map fin) (fin s)).getD (i - 1) 0) := by
    intro hle
    rw [List.find?_eq_some_iff_getElem] at h
    obtain ⟨-, j, hj, hji, hall⟩ := h
    simp only [List.getElem_range] at hji
    have := hall (i - 1) (by omega)
    rw [Bool.not_eq_true', decide_eq_false_iff_not, List.getElem_range] at this
    exact this hle
  refine hprev ?_
  rw [decide_eq_true_eq] at hsat
  refine hsat.trans (le_of_eq ?_)
  rw [cdfi_length, List.length_map] at hmem
  have hfi : fs[i] = 0 := by
    rw [List.getElem?_eq_getElem hmem] at h0; simpa using h0
  have hz : div R ((fs.map fin)[i]'(by simpa using hmem)) (fin s) = fin 0 := by
    rw [List.getElem_map, hfi]
    simp only [div, if_neg hs, zero_div, R0 hR]
  rw [List.getD_eq_getElem?_getD, List.getElem?_eq_getElem (by rw [cdfi_length, List.length_map]; exact hmem), Option.getD_some,
    List.getD_eq_getElem?_getD, List.getElem?_eq_getElem (by rw [cdfi_length, List.length_map]; omega), Option.getD_some]
  simp only [cdfi, List.getElem_map]
  rw [cumsum_step R _ _ i hi (by simpa using hmem)]
  simp only [List.getElem_map] at hz ⊢
  rw [hz, add_zero_fix hR (cumsum_fix hR _ _ (i - 1) (by rw [cumsum_length]; simp; omega))]

/-! ## Examples -/

/-- Three points with densities 1, 0 and 3: the hypotheses hold, and the draws 0.1, 0.5 and the largest possible one find the first, the third and the
third point. -/
example : GoodSum [1, 0, 3] 4 ∧ sample r64 ([1, 0, 3].map fin) (fin 4) (r64 (1 / 10)) = some 0 ∧ sample r64 ([1, 0, 3].map fin) (fin 4) (r64 (1 / 2)) = some 2 ∧
    sample r64 ([1, 0, 3].map fin) (fin 4) (fin (1 - 1 / 2 ^ 53)) = some 2 := by
  refine ⟨⟨by norm_num, by norm_num⟩, ?_, ?_, ?_⟩ <;> decide +kernel

/-- C394 in full is false: a first point with density zero is drawn. -/
theorem C394_false : GoodSum [0, 1, 1] 2 ∧ sample r64 ([0, 1, 1].map fin) (fin 2) (r64 (1 / 10)) = some 0 :=
  ⟨⟨by norm_num, by norm_num⟩, by decide +kernel⟩

/-- Densities that are all zero: the quotients are not numbers, and no place is found. -/
example : sample r64 ([0, 0].map fin) (fin 0) (r64 (1 / 10)) = none := by decide +kernel

end Redmapper.FlSample
