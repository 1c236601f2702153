/-
Bins and table look-ups in floating point.
-/
import Verif.Model.FlBins
import Verif.Props.FlExact

namespace Redmapper.FlBins

open Redmapper.FlSolver Redmapper.FlSolver.XF Redmapper.FlExact

variable {R : ℚ → XF}

/-! ## Rounding errors -/

theorem round_abs (hR : Rounding R) (hA : Accurate R) {q : ℚ} (h1 : |q| ≤ 2 ^ 1000) : ∃ v, R q = fin v ∧ |v - q| ≤ uu * (|q| + 1) := by
  have hu := uu_pos
  rcases le_or_gt (1 / 2 ^ 1000) |q| with h | h
  · obtain ⟨v, hv, he⟩ := hA q h h1
    exact ⟨v, hv, by linarith only [he, hu]⟩
  · have e := hR.exact 1 1000 (by norm_num) le_rfl
    have e' := hR.exact (-1) 1000 (by norm_num) le_rfl
    rw [Int.cast_one] at e
    rw [Int.cast_neg, Int.cast_one, neg_div] at e'
    have a := abs_lt.1 h
    obtain ⟨v, hv, h2, h3⟩ := between hR e' e a.1.le a.2.le
    have ht := tiny_le
    have hm : 0 ≤ uu * |q| := mul_nonneg hu.le (abs_nonneg _)
    exact ⟨v, hv, by rw [abs_le]; constructor <;> linarith only [h2, h3, a.1, a.2, ht, hm, hu]⟩

theorem sub_fin (a b : ℚ) : sub R (fin a) (fin b) = R (a - b) := by simp only [sub, neg, add, ← sub_eq_add_neg]

/-- The same with a bound of the number. -/
theorem round_le (hR : Rounding R) (hA : Accurate R) {q B : ℚ} (h1 : |q| ≤ B) (hB : B ≤ 2 ^ 40) : ∃ v, R q = fin v ∧ |v - q| ≤ uu * (B + 1) := by
  obtain ⟨v, hv, he⟩ := round_abs hR hA (q := q) (h1.trans (hB.trans (pow_le_pow_right₀ (by norm_num) (by norm_num))))
  exact ⟨v, hv, he.trans (mul_le_mul_of_nonneg_left (by linarith only [h1]) uu_pos.le)⟩

theorem roundEven_near {x : ℚ} {n : ℤ} (h : |x - n| < 1 / 2) : roundEven x = n := by
  have h1 := abs_le.1 (roundEven_err x)
  have h2 := abs_lt.1 h
  have h3 : (roundEven x : ℚ) - n < 1 := by linarith
  have h4 : -1 < (roundEven x : ℚ) - n := by linarith
  have h5 : roundEven x - n < 1 := by exact_mod_cast h3
  have h6 : -1 < roundEven x - n := by exact_mod_cast h4
  omega

/-- `np.round` takes ties to the even number. -/
theorem roundEven_tie (n : ℤ) : roundEven (n + 1 / 2) = if n % 2 = 0 then n else n + 1 := by
  have hf : ⌊(n : ℚ) + 1 / 2⌋ = n := by
    rw [Int.floor_eq_iff]; constructor <;> linarith
  unfold roundEven
  rw [hf, if_neg (by linarith), if_neg (by linarith)]

/-- A quotient computed from values near `k * c` and `c`. -/
theorem quot_near (hR : Rounding R) (hA : Accurate R) {d c k e : ℚ} (hc : 0 < c) (hk : |k| ≤ 2 ^ 30) (he0 : 0 ≤ e) (he1 : e ≤ 1)
    (h : |d - k * c| ≤ e * c) : ∃ v, div R (fin d) (fin c) = fin v ∧ |v - k| ≤ e + uu * (2 ^ 30 + 2) := by
  have h1 : |d / c - k| ≤ e := by
    have : d / c - k = (d - k * c) / c := by field_simp
    rw [this, abs_div, abs_of_pos hc, div_le_iff₀ hc]; exact h
  have h2 : |d / c| ≤ 2 ^ 30 + 1 := by
    have := abs_sub_abs_le_abs_sub (d / c) k
    linarith
  obtain ⟨v, hv, hve⟩ := round_le hR hA h2 (by norm_num)
  refine ⟨v, by simp only [div, if_neg hc.ne', hv], ?_⟩
  have a := abs_le.1 h1
  have b := abs_le.1 hve
  rw [abs_le]; constructor <;> linarith only [a.1, a.2, b.1, b.2]

/-! ## Numbers of bins -/

/-- A range of `N` bins: `l`, `h` and `s` are the numbers written in the configuration, and the code gets the doubles next to them.
Redshifts and magnitudes are between 0 and 1000, bins not smaller than 1/4096. -/
structure Range (l h s : ℚ) (N : ℕ) : Prop where
  lo : 0 ≤ l
  hi : h ≤ 1000
  size : 1 / 4096 ≤ s
  size' : s ≤ 1
  whole : h = l + N * s

theorem Range.count {l h s : ℚ} {N : ℕ} (r : Range l h s N) : (N : ℚ) ≤ 4096000 := by
  have h1 := r.whole; have h2 := r.hi; have h3 := r.lo; have h4 := r.size
  have h5 : (N : ℚ) * (1 / 4096) ≤ N * s := mul_le_mul_of_nonneg_left h4 (Nat.cast_nonneg _)
  linarith

theorem uu_val : uu = 1 / 9007199254740992 := by unfold uu; norm_num

/-- The doubles of a range. -/
theorem Range.doubles (hR : Rounding R) (hA : Accurate R) {l h s : ℚ} {N : ℕ} (r : Range l h s N) :
    ∃ a b c, R l = fin a ∧ R h = fin b ∧ R s = fin c ∧ |a - l| ≤ uu * 1001 ∧ |b - h| ≤ uu * 1001 ∧ |c - s| ≤ uu * 2 ∧ 1 / 8192 ≤ c := by
  have h1 := r.whole; have h2 := r.hi; have h3 := r.lo; have h4 := r.size; have h5 := r.size'
  have h6 : 0 ≤ (N : ℚ) * s := mul_nonneg (Nat.cast_nonneg _) (by linarith)
  obtain ⟨a, ha, ea⟩ := round_le hR hA (q := l) (B := 1000) (by rw [abs_le]; constructor <;> linarith) (by norm_num)
  obtain ⟨b, hb, eb⟩ := round_le hR hA (q := h) (B := 1000) (by rw [abs_le]; constructor <;> linarith) (by norm_num)
  obtain ⟨c, hc, ec⟩ := round_le hR hA (q := s) (B := 1) (by rw [abs_le]; constructor <;> linarith) (by norm_num)
  refine ⟨a, b, c, ha, hb, hc, by linarith only [ea], by linarith only [eb], by linarith only [ec], ?_⟩
  have := abs_le.1 ec
  rw [uu_val] at this
  linarith only [this.1, h4]

/-- The quotient of which the number of bins is made is near the whole number. -/
theorem quotient_near (hR : Rounding R) (hA : Accurate R) {l h s : ℚ} {N : ℕ} (r : Range l h s N) :
    ∃ v, div R (sub R (R h) (R l)) (R s) = fin v ∧ |v - N| ≤ 1 / 2 ^ 15 := by
  obtain ⟨a, b, c, ha, hb, hc, ea, eb, ec, hc0⟩ := r.doubles hR hA
  have h1 := r.whole; have h2 := r.hi; have h3 := r.lo; have h4 := r.size
  have hN := r.count
  have hN0 : (0 : ℚ) ≤ N := Nat.cast_nonneg _
  have h6 : 0 ≤ (N : ℚ) * s := mul_nonneg hN0 (by linarith)
  have a1 := abs_le.1 ea
  have a2 := abs_le.1 eb
  have hu := uu_val
  have hb' : |b - a| ≤ 1001 := by rw [hu] at a1 a2; rw [abs_le]; constructor <;> linarith
  obtain ⟨d, hd, ed⟩ := round_le hR hA hb' (by norm_num)
  have a3 := abs_le.1 ed
  have hkc : |(N : ℚ) * (c - s)| ≤ 4096000 * (uu * 2) := by
    rw [abs_mul, abs_of_nonneg hN0]
    exact mul_le_mul hN ec (abs_nonneg _) (by norm_num)
  have a4 := abs_le.1 hkc
  have hdk : |d - N * c| ≤ 1 / 2 ^ 16 * c := by
    have e1 : (N : ℚ) * (c - s) = N * c - N * s := by ring
    rw [e1] at a4
    rw [hu] at a1 a2 a3 a4
    rw [abs_le]
    constructor <;> linarith only [a1.1, a1.2, a2.1, a2.2, a3.1, a3.2, a4.1, a4.2, h1, hc0]
  obtain ⟨v, hv, ev⟩ := quot_near hR hA (by linarith : 0 < c) (by rw [abs_of_nonneg hN0]; linarith : |(N : ℚ)| ≤ 2 ^ 30) (by norm_num) (by norm_num) hdk
  refine ⟨v, by rw [ha, hb, hc]; rw [sub_fin, hd]; exact hv, ev.trans ?_⟩
  rw [hu]; norm_num

/-- C388: numbers of bins by `ceil` are those of the configuration or one more. -/
theorem C388_partial (hR : Rounding R) (hA : Accurate R) {l h s : ℚ} {N : ℕ} (r : Range l h s N) :
    ceilBins R (R l) (R h) (R s) = N ∨ ceilBins R (R l) (R h) (R s) = N + 1 := by
  obtain ⟨v, hv, ev⟩ := quotient_near hR hA r
  have a := abs_le.1 ev
  unfold ceilBins
  rw [hv]
  simp only [ceilInt]
  rcases le_or_gt v N with h1 | h1
  · left
    rw [Int.ceil_eq_iff]
    refine ⟨?_, by exact_mod_cast h1⟩
    rw [Int.cast_natCast]; linarith
  · right
    rw [Int.ceil_eq_iff]
    push_cast
    exact ⟨by linarith, by linarith⟩

/-- C389: numbers of bins by `round` are those of the configuration. -/
theorem C389 (hR : Rounding R) (hA : Accurate R) {l h s : ℚ} {N : ℕ} (r : Range l h s N) : roundBins R (R l) (R h) (R s) = N := by
  obtain ⟨v, hv, ev⟩ := quotient_near hR hA r
  unfold roundBins
  rw [hv]
  refine roundEven_near ?_
  rw [Int.cast_natCast]
  exact lt_of_le_of_lt ev (by norm_num)

/-! ## Look-ups -/

theorem searchInt_of : ∀ (l : List ℤ) (v : ℤ) (i : ℕ) (hi : i < l.length), (∀ j (hj : j < i), l[j]'(hj.trans hi) < v) → ¬ l[i] < v → searchInt l v = i
  | [], _, _, hi, _, _ => absurd hi (by simp)
  | x :: l, v, 0, _, _, h => by
    have : ¬ x < v := h
    simp [searchInt, this]
  | x :: l, v, i + 1, hi, h, h' => by
    have hx : x < v := h 0 (by omega)
    have ih := searchInt_of l v i (by simpa using hi) (fun j hj => h (j + 1) (by omega)) h'
    unfold searchInt at ih ⊢
    simp [hx, ih]

/-- Value of a bin in exact arithmetic. -/
def exactBin (l s : ℚ) (i : ℕ) : ℚ := l + i * s

theorem exactBin_le {l h s : ℚ} {N : ℕ} (r : Range l h s N) {i : ℕ} (hi : i ≤ N) : 0 ≤ exactBin l s i ∧ exactBin l s i ≤ 1000 ∧ (i : ℚ) * s ≤ 1000 ∧ 0 ≤ (i : ℚ) * s := by
  have h1 := r.whole; have h2 := r.hi; have h3 := r.lo; have h4 := r.size
  have h0 : 0 < s := by linarith
  have h5 : (i : ℚ) * s ≤ N * s := mul_le_mul_of_nonneg_right (by exact_mod_cast hi) h0.le
  have h6 : 0 ≤ (i : ℚ) * s := mul_nonneg (Nat.cast_nonneg _) h0.le
  unfold exactBin
  refine ⟨by linarith, by linarith, by linarith, h6⟩

theorem binAt_near (hR : Rounding R) (hA : Accurate R) {l h s : ℚ} {N : ℕ} (r : Range l h s N) {i : ℕ} (hi : i ≤ N) :
    ∃ v, binAt R (R l) (R s) i = fin v ∧ |v - exactBin l s i| ≤ 1 / 2 ^ 29 := by
  obtain ⟨a, b, c, ha, hb, hc, ea, eb, ec, hc0⟩ := r.doubles hR hA
  obtain ⟨e1, e2, e3, e4⟩ := exactBin_le r hi
  have hN := r.count
  have hi0 : (0 : ℚ) ≤ i := Nat.cast_nonneg _
  have hiN : (i : ℚ) ≤ N := by exact_mod_cast hi
  have hu := uu_val
  have hic : |(i : ℚ) * (c - s)| ≤ 4096000 * (uu * 2) := by
    rw [abs_mul, abs_of_nonneg hi0]
    exact mul_le_mul (hiN.trans hN) ec (abs_nonneg _) (by norm_num)
  rw [show (i : ℚ) * (c - s) = i * c - i * s by ring] at hic
  have a1 := abs_le.1 hic
  have a2 := abs_le.1 ea
  rw [hu] at a1 a2
  obtain ⟨p, hp, ep⟩ := round_le hR hA (q := (i : ℚ) * c) (B := 1001) (by rw [abs_le]; constructor <;> linarith) (by norm_num)
  have a3 := abs_le.1 ep
  rw [hu] at a3
  have hl := r.lo
  unfold exactBin at e1 e2 ⊢
  obtain ⟨v, hv, ev⟩ := round_le hR hA (q := p + a) (B := 1001) (by rw [abs_le]; constructor <;> linarith) (by norm_num)
  have a4 := abs_le.1 ev
  rw [hu] at a4
  refine ⟨v, by unfold binAt; rw [ha, hc]; simp only [mul, hp, add, hv], ?_⟩
  rw [abs_le]
  constructor <;> linarith

theorem arangeAt_near (hR : Rounding R) (hA : Accurate R) {l h s : ℚ} {N : ℕ} (r : Range l h s N) {i : ℕ} (hi : i ≤ N) :
    ∃ v, arangeAt R (R l) (R s) i = fin v ∧ |v - exactBin l s i| ≤ (i + 1) / 2 ^ 40 := by
  obtain ⟨a, b, c, ha, hb, hc, ea, eb, ec, hc0⟩ := r.doubles hR hA
  obtain ⟨e1, e2, e3, e4⟩ := exactBin_le r hi
  have hN := r.count
  have hi0 : (0 : ℚ) ≤ i := Nat.cast_nonneg _
  have hiN : (i : ℚ) ≤ N := by exact_mod_cast hi
  have hu := uu_val
  have hl := r.lo
  have hs' := r.size'
  have hs := r.size
  have hl2 : l ≤ 1000 := by have := r.hi; have := r.whole; have : 0 ≤ (N : ℚ) * s := mul_nonneg (Nat.cast_nonneg _) (by linarith); linarith
  have a2 := abs_le.1 ea
  have a5 := abs_le.1 ec
  rw [hu] at a2 a5
  obtain ⟨t, ht, et⟩ := round_le hR hA (q := a + c) (B := 1002) (by rw [abs_le]; constructor <;> linarith) (by norm_num)
  have a6 := abs_le.1 et
  rw [hu] at a6
  obtain ⟨δ, hδ, eδ⟩ := round_le hR hA (q := t - a) (B := 2) (by rw [abs_le]; constructor <;> linarith) (by norm_num)
  have a7 := abs_le.1 eδ
  rw [hu] at a7
  have hδs : |δ - s| ≤ 1 / 2 ^ 42 := by rw [abs_le]; constructor <;> linarith
  have hid : |(i : ℚ) * (δ - s)| ≤ i * (1 / 2 ^ 42) := by
    rw [abs_mul, abs_of_nonneg hi0]
    exact mul_le_mul_of_nonneg_left hδs hi0
  rw [show (i : ℚ) * (δ - s) = i * δ - i * s by ring] at hid
  have a1 := abs_le.1 hid
  obtain ⟨p, hp, ep⟩ := round_le hR hA (q := (i : ℚ) * δ) (B := 1001) (by rw [abs_le]; constructor <;> linarith) (by norm_num)
  have a3 := abs_le.1 ep
  rw [hu] at a3
  unfold exactBin at e1 e2 ⊢
  obtain ⟨v, hv, ev⟩ := round_le hR hA (q := a + p) (B := 1001) (by rw [abs_le]; constructor <;> linarith) (by norm_num)
  have a4 := abs_le.1 ev
  rw [hu] at a4
  refine ⟨v, by unfold arangeAt; rw [ha, hc]; simp only [add, ht, sub_fin, hδ, mul, hp, hv], ?_⟩
  rw [abs_le]
  constructor <;> linarith

/-- The first value of `np.arange` is the start. -/
theorem arangeAt_zero (hR : Rounding R) (hA : Accurate R) {l h s : ℚ} {N : ℕ} (r : Range l h s N) : arangeAt R (R l) (R s) 0 = R l := by
  obtain ⟨a, b, c, ha, hb, hc, ea, eb, ec, hc0⟩ := r.doubles hR hA
  obtain ⟨e1, e2, e3, e4⟩ := exactBin_le r (Nat.zero_le N)
  have hu := uu_val
  have hl := r.lo
  have hs' := r.size'
  have hl2 : l ≤ 1000 := by unfold exactBin at e2; simpa using e2
  have a2 := abs_le.1 ea
  have a5 := abs_le.1 ec
  rw [hu] at a2 a5
  obtain ⟨t, ht, et⟩ := round_le hR hA (q := a + c) (B := 1002) (by rw [abs_le]; constructor <;> linarith) (by norm_num)
  have a6 := abs_le.1 et
  rw [hu] at a6
  obtain ⟨δ, hδ, eδ⟩ := round_le hR hA (q := t - a) (B := 2) (by rw [abs_le]; constructor <;> linarith) (by norm_num)
  unfold arangeAt
  rw [ha, hc]
  simp only [add, ht, sub_fin, hδ, mul, Nat.cast_zero, zero_mul, R0 hR, add_zero]
  exact hR.idem _ _ ha

/-- A value within almost half a bin of a bin has the integer of the bin. -/
theorem intAt_near (hR : Rounding R) (hA : Accurate R) {M : ℕ} (hM0 : 0 < M) (hM : M ≤ 4096) {y z : ℚ} {n : ℤ} (hz : z * M = n) (hz1 : |z| ≤ 1000)
    (hy : |y - z| ≤ (1 / 2 - 1 / 2 ^ 16) / M) : intAt R M (fin y) = n := by
  have hMq : (0 : ℚ) < M := by exact_mod_cast hM0
  have hMq2 : (M : ℚ) ≤ 4096 := by exact_mod_cast hM
  have h1 : |y * M - n| ≤ 1 / 2 - 1 / 2 ^ 16 := by
    rw [← hz, ← sub_mul, abs_mul, abs_of_pos hMq]
    rwa [le_div_iff₀ hMq] at hy
  have a1 := abs_le.1 h1
  have hn : |(n : ℚ)| ≤ 4096000 := by
    rw [← hz, abs_mul, abs_of_pos hMq]
    calc |z| * M ≤ 1000 * 4096 := mul_le_mul hz1 hMq2 hMq.le (by norm_num)
      _ = 4096000 := by norm_num
  have a2 := abs_le.1 hn
  obtain ⟨v, hv, ev⟩ := round_le hR hA (q := y * M) (B := 4096001) (by rw [abs_le]; constructor <;> linarith) (by norm_num)
  have a3 := abs_le.1 ev
  rw [uu_val] at a3
  unfold intAt
  rw [Int.cast_natCast]
  simp only [mul, hv, roundInt]
  refine roundEven_near ?_
  rw [abs_lt]
  constructor <;> linarith

theorem intAt_top (hR : Rounding R) {M : ℕ} (hM : M ≤ 4096) : intAt R M (fin 1000) = 1000 * M := by
  unfold intAt
  have e := exact_int hR (1000 * (M : ℤ)) (by rw [abs_of_nonneg (by positivity)]; have : (M : ℤ) ≤ 4096 := by exact_mod_cast hM
                                              linarith)
  push_cast at e ⊢
  simp only [mul, e, roundInt]
  refine roundEven_near ?_
  push_cast
  simp

/-- A table whose bins have consecutive integers. -/
theorem index_of (hR : Rounding R) {M : ℕ} (hM : M ≤ 4096) (f : ℕ → XF) (n : ℕ) (A : ℤ) (hf : ∀ j, j < n → intAt R M (f j) = A + j)
    (htop : A + n ≤ 1000 * M) {q : XF} {i : ℕ} (hi : i ≤ n) (hq : intAt R M q = A + i) : index R M ((List.range n).map f) q = i := by
  unfold index
  have hlen : (integers R M ((List.range n).map f)).length = n + 1 := by simp [integers]
  have hget : ∀ j (hj : j < n), (integers R M ((List.range n).map f))[j]'(by omega) = A + j := by
    intro j hj
    simp only [integers, List.map_append, List.map_map]
    rw [List.getElem_append_left (by simpa using hj)]
    simp [hf j hj]
  have hlast : (integers R M ((List.range n).map f))[n]'(by omega) = 1000 * M := by
    simp only [integers, List.map_append, List.map_map]
    rw [List.getElem_append_right (by simp)]
    simp [intAt_top hR hM]
  refine searchInt_of _ _ i (by omega) ?_ ?_
  · intro j hj
    rw [hget j (by omega), hq]; omega
  · rw [hq]
    rcases Nat.lt_or_ge i n with h | h
    · rw [hget i h]; omega
    · have : i = n := by omega
      subst this
      rw [hlast]; omega

/-- C390: in floating point, a value within almost half a bin of bin `i` of the table of redshifts is looked up in bin `i`; in particular
the redshift of each bin is looked up in its bin.  The size is a whole fraction 1/M that the code recognises, and the range starts at a
multiple of it. -/
theorem C390_partial (hR : Rounding R) (hA : Accurate R) {l h : ℚ} {M N : ℕ} (hM0 : 0 < M) (r : Range l h (1 / M) N)
    (hs : scaleOf R (R (1 / M)) = M) {A : ℤ} (hl : l * M = A) :
    (zTable R (R l) (R h) (R (1 / M))).length = N ∧
    (∀ i, i < N → zindex R (R l) (R h) (R (1 / M)) (binAt R (R l) (R (1 / M)) i) = i) ∧
    ∀ i, i ≤ N → ∀ y : ℚ, |y - exactBin l (1 / M) i| ≤ (1 / 2 - 1 / 2 ^ 16) / M → zindex R (R l) (R h) (R (1 / M)) (fin y) = i := by
  have hMq : (0 : ℚ) < M := by exact_mod_cast hM0
  have hM : M ≤ 4096 := by
    have := r.size
    rw [one_div_le_one_div (by norm_num) hMq] at this
    exact_mod_cast this
  have hM2 : (M : ℚ) ≤ 4096 := by exact_mod_cast hM
  have hz : ∀ i : ℕ, exactBin l (1 / M) i * M = ((A + i : ℤ) : ℚ) := by
    intro i
    unfold exactBin
    push_cast
    rw [add_mul, hl]; field_simp
  have hle : ∀ i, i ≤ N → |exactBin l (1 / M) i| ≤ 1000 := fun i hi => by
    obtain ⟨h1, h2, -⟩ := exactBin_le r hi
    rw [abs_of_nonneg h1]; exact h2
  have hbin : ∀ j, j < N → intAt R M (binAt R (R l) (R (1 / M)) j) = A + j := by
    intro j hj
    obtain ⟨v, hv, ev⟩ := binAt_near hR hA r hj.le
    rw [hv]
    refine intAt_near hR hA hM0 hM (hz j) (hle j hj.le) (ev.trans ?_)
    rw [le_div_iff₀ hMq]
    nlinarith
  have htop : A + N ≤ 1000 * M := by
    have h1 := hz N
    obtain ⟨-, h2, -⟩ := exactBin_le r le_rfl
    have h3 : ((A + N : ℤ) : ℚ) ≤ 1000 * M := by rw [← h1]; exact mul_le_mul_of_nonneg_right h2 hMq.le
    exact_mod_cast h3
  have hn : (roundBins R (R l) (R h) (R (1 / M))).toNat = N := by rw [C389 hR hA r]; simp
  refine ⟨by rw [zTable, hn, List.length_map, List.length_range], fun i hi => ?_, fun i hi y hy => ?_⟩
  · unfold zindex zTable
    rw [hn, hs]
    exact index_of hR hM _ N A hbin htop hi.le (hbin i hi)
  · unfold zindex zTable
    rw [hn, hs]
    exact index_of hR hM _ N A hbin htop hi (intAt_near hR hA hM0 hM (hz i) (hle i hi) hy)

/-- C391: in floating point, looking up the background at a value within 0.4 bins of bin `i` of its table of redshifts gives bin `i`; in
particular the redshift of each bin is looked up in its bin. -/
theorem C391 (hR : Rounding R) (hA : Accurate R) {l h s : ℚ} {N : ℕ} (hN2 : 2 ≤ N) (r : Range l h s N) :
    (∀ i, i < N → bkgIndex R (bkgTable R (R l) (R h) (R s)) (arangeAt R (R l) (R s) i) = i) ∧
    ∀ i, i < N → ∀ y : ℚ, |y - exactBin l s i| ≤ 2 / 5 * s → bkgIndex R (bkgTable R (R l) (R h) (R s)) (fin y) = i := by
  have key : ∀ i, i < N → ∀ y : ℚ, |y - exactBin l s i| ≤ 2 / 5 * s → bkgIndex R (bkgTable R (R l) (R h) (R s)) (fin y) = i := by
    intro i hi y hy
    obtain ⟨a, b, c, ha, hb, hc, ea, eb, ec, hc0⟩ := r.doubles hR hA
    obtain ⟨e1, e2, e3, e4⟩ := exactBin_le r hi.le
    have hs := r.size
    have hs' := r.size'
    have hcount := r.count
    have hi0 : (0 : ℚ) ≤ i := Nat.cast_nonneg _
    have hiN : (i : ℚ) ≤ 4096000 := le_trans (by exact_mod_cast hi.le) hcount
    have hu := uu_val
    have a2 := abs_le.1 ea
    have a0 := abs_le.1 hy
    rw [hu] at a2
    -- the table
    set n := (ceilBins R (R l) (R h) (R s)).toNat with hn
    have hnN : N ≤ n := by
      rcases C388_partial hR hA r with h | h <;> rw [hn, h] <;> omega
    have hlen : (bkgTable R (R l) (R h) (R s)).length = n := by simp [bkgTable, hn]
    have g0 : (bkgTable R (R l) (R h) (R s)).getD 0 nan = fin a := by
      rw [List.getD_eq_getElem?_getD, List.getElem?_eq_getElem (by omega)]
      simp only [bkgTable, Option.getD_some, List.getElem_map, List.getElem_range]
      rw [arangeAt_zero hR hA r, ha]
    obtain ⟨v, hv, ev⟩ := arangeAt_near hR hA r (i := 1) (by omega)
    have g1 : (bkgTable R (R l) (R h) (R s)).getD 1 nan = fin v := by
      rw [List.getD_eq_getElem?_getD, List.getElem?_eq_getElem (by omega)]
      simp only [bkgTable, Option.getD_some, List.getElem_map, List.getElem_range]
      exact hv
    have a1 := abs_le.1 ev
    unfold exactBin at a0 a1 e1 e2
    push_cast at a1
    -- the two differences
    obtain ⟨d, hd, ed⟩ := round_le hR hA (q := y - a) (B := 1002) (by rw [abs_le]; constructor <;> linarith [r.lo]) (by norm_num)
    obtain ⟨w, hw, ew⟩ := round_le hR hA (q := v - a) (B := 2) (by rw [abs_le]; constructor <;> linarith) (by norm_num)
    have a3 := abs_le.1 ed
    have a4 := abs_le.1 ew
    rw [hu] at a3 a4
    have hws : |w - s| ≤ 1 / 2 ^ 38 := by rw [abs_le]; constructor <;> linarith
    have hws' : |(i : ℚ) * (w - s)| ≤ 4096000 * (1 / 2 ^ 38) := by
      rw [abs_mul, abs_of_nonneg hi0]
      exact mul_le_mul hiN hws (abs_nonneg _) (by norm_num)
    rw [show (i : ℚ) * (w - s) = i * w - i * s by ring] at hws'
    have a5 := abs_le.1 hws'
    have a6 := abs_le.1 hws
    have hw0 : 0 < w := by linarith
    have hdk : |d - i * w| ≤ 49 / 100 * w := by
      rw [abs_le]
      constructor <;> linarith
    obtain ⟨x, hx, ex⟩ := quot_near hR hA hw0 (by rw [abs_of_nonneg hi0]; linarith : |(i : ℚ)| ≤ 2 ^ 30) (by norm_num) (by norm_num) hdk
    have hround : roundInt (fin x) = i := by
      refine roundEven_near ?_
      rw [Int.cast_natCast]
      refine lt_of_le_of_lt ex ?_
      rw [hu]; norm_num
    unfold bkgIndex
    dsimp only
    rw [g0, g1, sub_fin, sub_fin, hd, hw, hx, hround, hlen]
    omega
  refine ⟨fun i hi => ?_, key⟩
  obtain ⟨v, hv, ev⟩ := arangeAt_near hR hA r hi.le
  rw [hv]
  refine key i hi v (ev.trans ?_)
  have hs := r.size
  have hcount := r.count
  have hiN : (i : ℚ) ≤ 4096000 := le_trans (by exact_mod_cast hi.le) hcount
  linarith

theorem scale_hundred : scaleOf r64 (r64 (1 / 100)) = 100 := by decide +kernel

/-- C392: in floating point, looking up a magnitude within 0.4 bins of bin `i` of the table of magnitudes (from 10 or 12, in steps of 0.01)
gives bin `i`; in particular the magnitude of each bin is looked up in its bin. -/
theorem C392 {l : ℕ} (hl : l ≤ 100) {N : ℕ} (hN : N ≤ 90000) :
    (∀ i, i < N → magIndex r64 (r64 l) N (arangeAt r64 (r64 l) (r64 (1 / 100)) i) = i) ∧
    ∀ i, i ≤ N → ∀ y : ℚ, |y - exactBin l (1 / 100) i| ≤ 1 / 250 → magIndex r64 (r64 l) N (fin y) = i := by
  have hR := r64_rounding
  have hA := r64_accurate
  have hNq : (N : ℚ) ≤ 90000 := by exact_mod_cast hN
  have hlq : (l : ℚ) ≤ 100 := by exact_mod_cast hl
  have r : Range l (l + N * (1 / 100)) (1 / 100) N := ⟨Nat.cast_nonneg _, by linarith, by norm_num, by norm_num, rfl⟩
  have hz : ∀ i : ℕ, exactBin (l : ℚ) (1 / 100) i * ((100 : ℕ) : ℚ) = (((l * 100 : ℕ) : ℤ) + (i : ℤ) : ℤ) := by
    intro i; unfold exactBin; push_cast; ring
  have hle : ∀ i, i ≤ N → |exactBin (l : ℚ) (1 / 100) i| ≤ 1000 := fun i hi => by
    obtain ⟨h1, h2, -⟩ := exactBin_le r hi
    rw [abs_of_nonneg h1]; exact h2
  have near : ∀ i, i ≤ N → ∀ y : ℚ, |y - exactBin l (1 / 100) i| ≤ 1 / 250 → intAt r64 (100 : ℕ) (fin y) = ((l * 100 : ℕ) : ℤ) + i := fun i hi y hy =>
    intAt_near hR hA (by norm_num) (by norm_num) (hz i) (hle i hi) (hy.trans (by norm_num))
  have hbin : ∀ j, j < N → intAt r64 (100 : ℕ) (arangeAt r64 (r64 l) (r64 (1 / 100)) j) = ((l * 100 : ℕ) : ℤ) + j := by
    intro j hj
    obtain ⟨v, hv, ev⟩ := arangeAt_near hR hA r hj.le
    rw [hv]
    refine near j hj.le v (ev.trans ?_)
    have : (j : ℚ) ≤ 90000 := le_trans (by exact_mod_cast hj.le) hNq
    linarith
  have hsc : scaleOf r64 (r64 (1 / 100)) = ((100 : ℕ) : ℤ) := scale_hundred
  refine ⟨fun i hi => ?_, fun i hi y hy => ?_⟩
  · unfold magIndex magTable
    rw [hsc]
    exact index_of hR (by norm_num) _ N _ hbin (by push_cast; omega) hi.le (hbin i hi)
  · unfold magIndex magTable
    rw [hsc]
    exact index_of hR (by norm_num) _ N _ hbin (by push_cast; omega) hi (near i hi y hy)

/-! ## Where the full properties fail, and examples -/

/-- C388 in full is false: redshifts from 0.1 to 0.4 are 15 bins of 0.02, but the code makes 16, and the last starts at the end of the range. -/
theorem C388_false : Range (1 / 10) (4 / 10) (2 / 100) 15 ∧ ceilBins r64 (r64 (1 / 10)) (r64 (4 / 10)) (r64 (2 / 100)) = 16 ∧
    lt (binAt r64 (r64 (1 / 10)) (r64 (2 / 100)) 15) (r64 (4 / 10)) = false := by
  refine ⟨by constructor <;> norm_num, ?_, ?_⟩ <;> decide +kernel

/-- C390 in full is false: 1/93 is not recognised (`int(1./(1./93))` is 92), and the redshift of bin 47 is looked up in bin 46. -/
theorem C390_false : Range 0 1 (1 / 93) 93 ∧ scaleOf r64 (r64 (1 / 93)) = 92 ∧
    zindex r64 (r64 0) (r64 1) (r64 (1 / 93)) (binAt r64 (r64 0) (r64 (1 / 93)) 47) = 46 := by
  refine ⟨by constructor <;> norm_num, ?_, ?_⟩ <;> decide +kernel

/-- The sizes of the code and of usual configurations are recognised. -/
example : [1000, 500, 400, 250, 200, 125, 100, 50, 40, 25, 20, 10].all (fun M : ℕ => decide (scaleOf r64 (r64 (1 / M)) = M)) = true := by decide +kernel

/-- A usual table: redshifts from 0.05 to 0.65 in steps of 0.005. -/
example : Range (1 / 20) (13 / 20) (1 / (200 : ℕ)) 120 ∧ scaleOf r64 (r64 (1 / (200 : ℕ))) = (200 : ℕ) ∧ (1 / 20 : ℚ) * (200 : ℕ) = ((10 : ℤ) : ℚ) := by
  refine ⟨by constructor <;> norm_num, by decide +kernel, by norm_num⟩

end Redmapper.FlBins
