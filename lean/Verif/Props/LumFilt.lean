/-
The luminosity filter: C357 (normalisation).
-/
import Verif.Model.LumFilt
import Verif.Props.RedSequence
import Mathlib.Analysis.SumIntegralComparisons

set_option linter.unusedSectionVars false

namespace Redmapper.LumFilt

open Redmapper.RedSequence (grid index lumnorm C56_nearest C56_partial)
open Redmapper.Cluster (schechterPdf)
open MeasureTheory intervalIntegral

theorem schechter_pos (alpha mstar x : ℝ) : 0 < schechterPdf alpha mstar x := by
  unfold schechterPdf; positivity

theorem schechter_mono (alpha mstar : ℝ) (ha : alpha ≤ -1) : Monotone (schechterPdf alpha mstar) := by
  intro x y h
  unfold schechterPdf
  apply mul_le_mul
  · apply Real.rpow_le_rpow_of_exponent_le (by norm_num)
    nlinarith
  · apply Real.exp_le_exp.mpr
    apply neg_le_neg
    apply Real.rpow_le_rpow_of_exponent_le (by norm_num)
    nlinarith
  · positivity
  · positivity

/-- Sums over the bins and the integral between them. -/
theorem sum_integral (f : ℝ → ℝ) (hf : Monotone f) (m0 h : ℝ) (hh : 0 < h) (k : Nat) :
    h * ∑ i ∈ Finset.range (k + 1), f (m0 + i * h) - h * f (m0 + k * h) ≤ ∫ x in m0..(m0 + k * h), f x ∧
    (∫ x in m0..(m0 + k * h), f x) ≤ h * ∑ i ∈ Finset.range (k + 1), f (m0 + i * h) - h * f m0 := by
  set F : ℝ → ℝ := fun t => f (m0 + h * t) with hF
  have hFm : MonotoneOn F (Set.Icc 0 (0 + (k : ℝ))) := by
    intro a _ b _ hab
    exact hf (by nlinarith)
  have hI : (∫ t in (0 : ℝ)..(0 + (k : ℝ)), F t) = h⁻¹ * ∫ x in m0..(m0 + k * h), f x := by
    rw [hF, intervalIntegral.integral_comp_add_mul (fun x => f x) hh.ne' m0, smul_eq_mul]
    congr 2
    · ring
    · ring
  have h1 := hFm.sum_le_integral
  have h2 := hFm.integral_le_sum
  rw [hI] at h1 h2
  have e1 : ∑ i ∈ Finset.range (k + 1), f (m0 + i * h) = (∑ i ∈ Finset.range k, F (0 + i)) + f (m0 + k * h) := by
    rw [Finset.sum_range_succ]
    congr 1
    apply Finset.sum_congr rfl
    intro i _
    show _ = f (m0 + h * (0 + i))
    congr 1; ring
  have e2 : ∑ i ∈ Finset.range (k + 1), f (m0 + i * h) = (∑ i ∈ Finset.range k, F (0 + ((i + 1 : ℕ) : ℝ))) + f m0 := by
    rw [Finset.sum_range_succ']
    congr 1
    · apply Finset.sum_congr rfl
      intro i _
      show _ = f (m0 + h * (0 + ((i + 1 : ℕ) : ℝ)))
      congr 1; ring
    · congr 1; simp
  set I := ∫ x in m0..(m0 + k * h), f x
  have hI' : h * (h⁻¹ * I) = I := by rw [← mul_assoc, mul_inv_cancel₀ hh.ne', one_mul]
  constructor
  · rw [e1]
    have := mul_le_mul_of_nonneg_left h1 hh.le
    rw [hI'] at this
    linarith [mul_add h (∑ i ∈ Finset.range k, F (0 + i)) (f (m0 + k * h))]
  · rw [e2]
    have := mul_le_mul_of_nonneg_left h2 hh.le
    rw [hI'] at this
    linarith [mul_add h (∑ i ∈ Finset.range k, F (0 + ((i + 1 : ℕ) : ℝ))) (f m0)]

theorem take_sum (g : Nat → ℝ) (n k : Nat) (x : ℝ) (hk : k < n) :
    ((((List.range n).map g) ++ [x]).take (k + 1)).sum = ∑ i ∈ Finset.range (k + 1), g i := by
  rw [List.take_append_of_le_length (by simp; omega), ← List.map_take, List.take_range, min_eq_left (by omega)]
  rw [Finset.sum_range]
  rw [← List.sum_ofFn]
  congr 1
  rw [List.ofFn_eq_map, ← List.map_coe_finRange_eq_range, List.map_map]
  rfl

theorem table_get (alpha mstar m0 : ℝ) (n k : Nat) (hk : k < n) :
    (table alpha mstar m0 n)[k]? = some (1 / 100 * ∑ i ∈ Finset.range (k + 1), schechterPdf alpha mstar (m0 + (i : ℝ) * (1 / 100))) := by
  unfold table lumnorm bins
  rw [List.getElem?_map, List.getElem?_range (by simp; omega)]
  simp only [Option.map_some]
  rw [List.map_append, List.map_map, List.map_singleton, take_sum (schechterPdf alpha mstar ∘ fun i : Nat => m0 + (i : ℝ) * (1 / 100)) n k _ hk]
  rfl

theorem table_last (alpha mstar m0 : ℝ) (n : Nat) (hn : 1 ≤ n) :
    (table alpha mstar m0 n)[n]? = some (1 / 100 * (∑ i ∈ Finset.range n, schechterPdf alpha mstar (m0 + (i : ℝ) * (1 / 100)) +
      schechterPdf alpha mstar (m0 + ((n - 1 : Nat) : ℝ) * (1 / 100)))) := by
  unfold table lumnorm bins
  rw [List.getElem?_map, List.getElem?_range (by simp)]
  simp only [Option.map_some]
  rw [List.take_of_length_le (by simp), List.map_append, List.map_map, List.map_singleton, List.sum_append, List.sum_singleton]
  have := take_sum (schechterPdf alpha mstar ∘ fun i : Nat => m0 + (i : ℝ) * (1 / 100)) n (n - 1) 0 (by omega)
  rw [show n - 1 + 1 = n by omega, List.take_append_of_le_length (by simp), List.take_of_length_le (by simp)] at this
  rw [this]
  rfl

/-- **C357**: with a faint-end slope of -1 or steeper, and a limit within the table, the filter is positive, has the shape of the Schechter function, and its
integral from the bright end of the table to the bin nearest to the limit is one, to within one bin: it is below one, by no more than the filter in the
last bin. -/
theorem C357_partial (alpha mstar m0 : ℝ) (n : Nat) (hn : 1 ≤ n) (ha : alpha ≤ -1) (m : Int) (hm : m0 * 100 = m) (hbig : m + n ≤ 100000) (q : ℝ)
    (h1 : m0 ≤ q) (h2 : q < m0 + ((n : ℝ) - 1 / 2) * (1 / 100)) :
    ∃ (phi : ℝ → ℝ) (last : ℝ), (∀ x, filter alpha mstar m0 n q x = some (phi x)) ∧ (∀ x, 0 < phi x) ∧
      (∀ x y, phi x * schechterPdf alpha mstar y = phi y * schechterPdf alpha mstar x) ∧ |last - q| ≤ 1 / 200 ∧
      1 - 1 / 100 * phi last ≤ ∫ x in m0..last, phi x ∧ (∫ x in m0..last, phi x) ≤ 1 - 1 / 100 * phi m0 := by
  obtain ⟨hk, hnear⟩ := C56_nearest m0 (1 / 100) n (by norm_num) 100 m (by norm_num) (by exact_mod_cast hm) hn (by omega) q h1 h2
  set k := index 100 (grid m0 (1 / 100) n) q with hkd
  have hg : (grid m0 (1 / 100) n).getD k 0 = m0 + (k : ℝ) * (1 / 100) := by
    unfold grid
    rw [List.getD_eq_getElem?_getD, List.getElem?_append_left (by simp; omega), List.getElem?_map, List.getElem?_range hk]
    rfl
  rw [hg] at hnear
  set N := 1 / 100 * ∑ i ∈ Finset.range (k + 1), schechterPdf alpha mstar (m0 + (i : ℝ) * (1 / 100)) with hN
  have hNpos : 0 < N := by
    apply mul_pos (by norm_num)
    exact Finset.sum_pos (fun i _ => schechter_pos _ _ _) ⟨0, by simp⟩
  refine ⟨fun x => schechterPdf alpha mstar x / N, m0 + (k : ℝ) * (1 / 100), ?_, ?_, ?_, by linarith, ?_, ?_⟩
  · intro x
    unfold filter
    rw [← hkd, table_get alpha mstar m0 n k hk]
    rfl
  · intro x
    exact div_pos (schechter_pos _ _ _) hNpos
  · intro x y
    simp only
    field_simp
  all_goals
    obtain ⟨s1, s2⟩ := sum_integral (schechterPdf alpha mstar) (schechter_mono alpha mstar ha) m0 (1 / 100) (by norm_num) k
    rw [← hN] at s1 s2
    rw [intervalIntegral.integral_div]
  · rw [le_div_iff₀ hNpos]
    have : (1 - 1 / 100 * (schechterPdf alpha mstar (m0 + (k : ℝ) * (1 / 100)) / N)) * N = N - 1 / 100 * schechterPdf alpha mstar (m0 + (k : ℝ) * (1 / 100)) := by
      field_simp
    rw [this]
    exact s1
  · rw [div_le_iff₀ hNpos]
    have : (1 - 1 / 100 * (schechterPdf alpha mstar m0 / N)) * N = N - 1 / 100 * schechterPdf alpha mstar m0 := by
      field_simp
    rw [this]
    exact s2

/-- A table of a thousand bins from 12. -/
example : (12 : ℝ) * 100 = (1200 : Int) ∧ (1200 : Int) + (1000 : Nat) ≤ 100000 ∧ (12 : ℝ) ≤ 20 ∧ (20 : ℝ) < 12 + (((1000 : Nat) : ℝ) - 1 / 2) * (1 / 100) := by
  refine ⟨by norm_num, by norm_num, by norm_num, by norm_num⟩

/-- **C357** is false of limits beyond the table: the filter keeps the normalisation of its last bin, which counts twice, and its integral up to the
limit exceeds one as soon as the limit is more than two bins beyond. -/
theorem C357_false (alpha mstar m0 : ℝ) (n : Nat) (hn : 1 ≤ n) (ha : alpha ≤ -1) (m : Int) (hm : m0 * 100 = m) (hbig : m + n ≤ 100000) (q : ℝ)
    (h1 : m0 + ((n : ℝ) + 1) * (1 / 100) < q) (h2 : q ≤ 1000) :
    ∃ phi : ℝ → ℝ, (∀ x, filter alpha mstar m0 n q x = some (phi x)) ∧ 1 < ∫ x in m0..q, phi x := by
  have hm' : |m0 * ((100 : Int) : ℝ) - m| < 1 / 2 := by
    have : m0 * ((100 : Int) : ℝ) - m = 0 := by push_cast; linarith
    rw [this]; norm_num
  obtain ⟨p1, -, p3, -⟩ := C56_partial m0 (1 / 100) n (by norm_num) 100 m (by norm_num) hm' hn (by omega)
  have hk := p3 q (by linarith) h2
  rw [p1] at hk
  set fl := schechterPdf alpha mstar (m0 + ((n - 1 : Nat) : ℝ) * (1 / 100)) with hfl
  set N := 1 / 100 * (∑ i ∈ Finset.range n, schechterPdf alpha mstar (m0 + (i : ℝ) * (1 / 100)) + fl) with hN
  have hNpos : 0 < N := by
    apply mul_pos (by norm_num)
    have : 0 < fl := schechter_pos _ _ _
    have h0 : 0 ≤ ∑ i ∈ Finset.range n, schechterPdf alpha mstar (m0 + (i : ℝ) * (1 / 100)) := Finset.sum_nonneg fun i _ => (schechter_pos _ _ _).le
    linarith
  refine ⟨fun x => schechterPdf alpha mstar x / N, ?_, ?_⟩
  · intro x
    unfold filter
    rw [hk, table_last alpha mstar m0 n hn]
    rfl
  · rw [intervalIntegral.integral_div, lt_div_iff₀ hNpos, one_mul]
    have hmono := schechter_mono alpha mstar ha
    obtain ⟨s1, -⟩ := sum_integral (schechterPdf alpha mstar) hmono m0 (1 / 100) (by norm_num) (n - 1)
    rw [show n - 1 + 1 = n by omega, ← hfl] at s1
    set c := m0 + ((n - 1 : Nat) : ℝ) * (1 / 100) with hc
    have hcn : c + 2 / 100 < q := by
      rw [hc, Nat.cast_sub hn]
      push_cast
      linarith
    have hi : ∀ a b : ℝ, IntervalIntegrable (schechterPdf alpha mstar) volume a b := fun a b => hmono.intervalIntegrable
    have hsplit := intervalIntegral.integral_add_adjacent_intervals (hi m0 c) (hi c q)
    have hlow : (q - c) * fl ≤ ∫ x in c..q, schechterPdf alpha mstar x := by
      have := intervalIntegral.integral_mono_on (by linarith : c ≤ q) (intervalIntegrable_const (c := fl)) (hi c q)
        (fun x hx => hmono hx.1)
      rw [intervalIntegral.integral_const, smul_eq_mul] at this
      exact this
    have hflp : 0 < fl := schechter_pos _ _ _
    rw [← hsplit]
    have : 2 / 100 * fl < (q - c) * fl := mul_lt_mul_of_pos_right (by linarith) hflp
    rw [hN]
    linarith

/-- Where the filter is normalised over more bins it is smaller. -/
theorem C357_deeper (alpha mstar m0 : ℝ) (n : Nat) (q q' x a b : ℝ) (h : q ≤ q') (ha : filter alpha mstar m0 n q x = some a)
    (hb : filter alpha mstar m0 n q' x = some b) : b ≤ a := by
  have hidx := (RedSequence.C56_valid m0 (1 / 100) n 100 (by norm_num) q q').2 h
  unfold filter at ha hb
  set i := index 100 (grid m0 (1 / 100) n) q
  set j := index 100 (grid m0 (1 / 100) n) q'
  obtain ⟨u, hu, rfl⟩ := Option.map_eq_some_iff.mp ha
  obtain ⟨v, hv, rfl⟩ := Option.map_eq_some_iff.mp hb
  have hl : (table alpha mstar m0 n).length = ((bins m0 n).map (schechterPdf alpha mstar)).length := by simp [table, lumnorm]
  have hj : j < ((bins m0 n).map (schechterPdf alpha mstar)).length := by
    rw [← hl]; exact (List.getElem?_eq_some_iff.mp hv).1
  have hpos : ∀ x ∈ (bins m0 n).map (schechterPdf alpha mstar), 0 ≤ x := by
    intro y hy
    obtain ⟨z, _, rfl⟩ := List.mem_map.mp hy
    exact (schechter_pos _ _ _).le
  obtain ⟨_, _, hmon, _⟩ := RedSequence.C110 (none : Option ℝ) 1 (1 / 100) ((bins m0 n).map (schechterPdf alpha mstar)) (by norm_num) hpos
  have h3 := hmon i j hidx hj
  have eu : (lumnorm (1 / 100) ((bins m0 n).map (schechterPdf alpha mstar))).getD i 0 = u := by
    rw [List.getD_eq_getElem?_getD]; unfold table at hu; rw [hu]; rfl
  have ev : (lumnorm (1 / 100) ((bins m0 n).map (schechterPdf alpha mstar))).getD j 0 = v := by
    rw [List.getD_eq_getElem?_getD]; unfold table at hv; rw [hv]; rfl
  rw [eu, ev] at h3
  have hupos : 0 < u := by
    unfold table lumnorm at hu
    rw [List.getElem?_map] at hu
    obtain ⟨i', hi', rfl⟩ := Option.map_eq_some_iff.mp hu
    apply mul_pos (by norm_num)
    have hi2 : i < ((bins m0 n).map (schechterPdf alpha mstar)).length := by
      have := (List.getElem?_eq_some_iff.mp hi').1
      simpa using this
    rw [List.getElem?_range hi2] at hi'
    cases hi'
    apply List.sum_pos
    · intro y hy
      obtain ⟨z, _, rfl⟩ := List.mem_map.mp (List.mem_of_mem_take hy)
      exact schechter_pos _ _ _
    · intro hc
      have := congrArg List.length hc
      rw [List.length_take] at this
      simp only [List.length_nil] at this
      omega
  exact div_le_div_of_nonneg_left (schechter_pos _ _ _).le hupos h3

end Redmapper.LumFilt
