/-
Columns in single precision: the availability of galaxies in percolation, the clusters of the catalog of likelihoods, the cuts and the order of
percolation, and the probabilities of the members.
-/
import Verif.Model.Fl32
import Verif.Props.FlExact
import Mathlib.Tactic

namespace Redmapper.Fl32

open FlSolver FlSolver.XF
open FlExact (Accurate uu roundEven_err)

variable {R : ℚ → XF}

/-! ## IEEE 754 single precision -/

/-- The rounded value before overflow. -/
def rq (q : ℚ) : ℚ := if q = 0 then 0 else (roundEven (q / 2 ^ ulpExp32 q) : ℚ) * 2 ^ ulpExp32 q

/-- Overflow. -/
def clip (v : ℚ) : XF :=
  if (2 : ℚ) ^ (128 : Nat) ≤ v then .pinf else if v ≤ -(2 : ℚ) ^ (128 : Nat) then .ninf else .fin v

theorem r32_eq (q : ℚ) : r32 q = clip (rq q) := by
  unfold r32 rq clip
  by_cases h : q = 0
  · simp only [h, if_true]
    rw [if_neg (by norm_num), if_neg (by norm_num)]
  · simp only [h, if_false]

theorem ulp_ge (q : ℚ) : -149 ≤ ulpExp32 q := by unfold ulpExp32; omega

theorem abs_lt_ulp {q : ℚ} (h : q ≠ 0) : |q| < 2 ^ (ulpExp32 q + 24) := by
  have h1 : |q| < (2 : ℚ) ^ (Int.log 2 |q| + 1) := by
    have := Int.lt_zpow_succ_log_self (R := ℚ) (b := 2) (by norm_num) |q|
    simpa using this
  refine h1.trans_le (zpow_le_zpow_right₀ (by norm_num) ?_)
  unfold ulpExp32; omega

theorem rq_le {q : ℚ} {e : ℤ} {k : ℤ} (he : ulpExp32 q ≤ e) (h : q ≤ k * 2 ^ e) (h0 : q ≠ 0) : rq q ≤ k * 2 ^ e := by
  rw [rq, if_neg h0]
  obtain ⟨d, hd⟩ := Int.eq_ofNat_of_zero_le (show 0 ≤ e - ulpExp32 q by omega)
  have hpow : (2 : ℚ) ^ e = 2 ^ d * 2 ^ ulpExp32 q := by
    rw [show e = (d : ℤ) + ulpExp32 q by omega, zpow_add₀ (by norm_num)]; simp
  rw [hpow, ← mul_assoc] at h ⊢
  have h2 : q / 2 ^ ulpExp32 q ≤ ((k * 2 ^ d : ℤ) : ℚ) := by
    rw [div_le_iff₀ (two_pos _)]; push_cast; exact h
  have h3 := roundEven_le h2
  have h4 : (roundEven (q / 2 ^ ulpExp32 q) : ℚ) ≤ ((k * 2 ^ d : ℤ) : ℚ) := by exact_mod_cast h3
  push_cast at h4
  exact mul_le_mul_of_nonneg_right h4 (two_pos _).le

theorem le_rq {q : ℚ} {e : ℤ} {k : ℤ} (he : ulpExp32 q ≤ e) (h : k * 2 ^ e ≤ q) (h0 : q ≠ 0) : k * 2 ^ e ≤ rq q := by
  rw [rq, if_neg h0]
  obtain ⟨d, hd⟩ := Int.eq_ofNat_of_zero_le (show 0 ≤ e - ulpExp32 q by omega)
  have hpow : (2 : ℚ) ^ e = 2 ^ d * 2 ^ ulpExp32 q := by
    rw [show e = (d : ℤ) + ulpExp32 q by omega, zpow_add₀ (by norm_num)]; simp
  rw [hpow, ← mul_assoc] at h ⊢
  have h2 : ((k * 2 ^ d : ℤ) : ℚ) ≤ q / 2 ^ ulpExp32 q := by
    rw [le_div_iff₀ (two_pos _)]; push_cast; exact h
  have h3 := le_roundEven h2
  have h4 : ((k * 2 ^ d : ℤ) : ℚ) ≤ (roundEven (q / 2 ^ ulpExp32 q) : ℚ) := by exact_mod_cast h3
  push_cast at h4
  exact mul_le_mul_of_nonneg_right h4 (two_pos _).le

theorem rq_nonneg {q : ℚ} (h : 0 ≤ q) : 0 ≤ rq q := by
  by_cases h0 : q = 0
  · simp [rq, h0]
  · have := le_rq (q := q) (e := ulpExp32 q) (k := 0) le_rfl (by simpa using h) h0
    simpa using this

theorem rq_nonpos {q : ℚ} (h : q ≤ 0) : rq q ≤ 0 := by
  by_cases h0 : q = 0
  · simp [rq, h0]
  · have := rq_le (q := q) (e := ulpExp32 q) (k := 0) le_rfl (by simpa using h) h0
    simpa using this

/-- Numbers with 24 binary digits are exact. -/
theorem rq_exact_lt (m e : ℤ) (hm : |m| < 2 ^ 24) (he : -149 ≤ e) : rq (m * 2 ^ e) = m * 2 ^ e := by
  by_cases h0 : (m : ℚ) * 2 ^ e = 0
  · rw [h0]; simp [rq]
  have habs : |(m : ℚ) * 2 ^ e| < 2 ^ (24 + e) := by
    rw [abs_mul, abs_of_pos (two_pos e), zpow_add₀ (by norm_num)]
    have : |(m : ℚ)| < 2 ^ (24 : ℤ) := by
      have h' : |(m : ℚ)| < (2 : ℚ) ^ (24 : ℕ) := by exact_mod_cast hm
      rw [show (24 : ℤ) = ((24 : ℕ) : ℤ) from rfl, zpow_natCast]; exact h'
    exact mul_lt_mul_of_pos_right this (two_pos e)
  have hlog : Int.log 2 |(m : ℚ) * 2 ^ e| < 24 + e := by
    have := (Int.lt_zpow_iff_log_lt (R := ℚ) (b := 2) (by norm_num) (x := 24 + e) (abs_pos.2 h0)).1 (by simpa using habs)
    exact this
  have hu : ulpExp32 ((m : ℚ) * 2 ^ e) ≤ e := by unfold ulpExp32; omega
  exact le_antisymm (rq_le hu le_rfl h0) (le_rq hu le_rfl h0)

theorem rq_exact (m e : ℤ) (hm : |m| ≤ 2 ^ 24) (he : -149 ≤ e) : rq (m * 2 ^ e) = m * 2 ^ e := by
  rcases hm.lt_or_eq with h | h
  · exact rq_exact_lt m e h he
  · obtain ⟨s, hs, hms⟩ : ∃ s : ℤ, |s| < 2 ^ 24 ∧ m = s * 2 := by
      rcases abs_cases m with ⟨h1, _⟩ | ⟨h1, _⟩
      · exact ⟨2 ^ 23, by norm_num, by rw [← h1, h]; norm_num⟩
      · exact ⟨-2 ^ 23, by norm_num, by have : m = -2 ^ 24 := by omega
                                        rw [this]; norm_num⟩
    have hq : (m : ℚ) * 2 ^ e = s * 2 ^ (e + 1) := by
      rw [hms, zpow_add₀ (by norm_num)]; push_cast; ring
    rw [hq]
    exact rq_exact_lt s (e + 1) hs (by omega)

/-- A rounded number has at most 24 binary digits. -/
theorem rq_form (q : ℚ) : ∃ m e : ℤ, |m| ≤ 2 ^ 24 ∧ -149 ≤ e ∧ rq q = m * 2 ^ e := by
  by_cases h0 : q = 0
  · exact ⟨0, 0, by norm_num, by norm_num, by simp [rq, h0]⟩
  refine ⟨roundEven (q / 2 ^ ulpExp32 q), ulpExp32 q, ?_, ulp_ge q, by rw [rq, if_neg h0]⟩
  have hb := abs_lt_ulp h0
  rw [add_comm, zpow_add₀ (by norm_num)] at hb
  have h1 : |q / 2 ^ ulpExp32 q| < 2 ^ (24 : ℤ) := by
    rw [abs_div, abs_of_pos (two_pos _), div_lt_iff₀ (two_pos _)]; exact hb
  have h2 := abs_lt.1 h1
  rw [abs_le]
  constructor
  · refine le_roundEven ?_
    push_cast; exact_mod_cast h2.1.le
  · refine roundEven_le ?_
    push_cast; exact_mod_cast h2.2.le

theorem rq_mono {a b : ℚ} (h : a ≤ b) : rq a ≤ rq b := by
  rcases le_or_gt a 0 with ha | ha
  · rcases le_or_gt 0 b with hb | hb
    · exact (rq_nonpos ha).trans (rq_nonneg hb)
    · have ha' : a < 0 := lt_of_le_of_lt h hb
      have hl : Int.log 2 |b| ≤ Int.log 2 |a| := log_mono (abs_pos.2 hb.ne) (by rw [abs_of_neg hb, abs_of_neg ha']; linarith)
      by_cases hu : ulpExp32 a = ulpExp32 b
      · rw [rq, rq, if_neg ha'.ne, if_neg hb.ne, hu]
        refine mul_le_mul_of_nonneg_right ?_ (two_pos _).le
        exact_mod_cast roundEven_mono (div_le_div_of_nonneg_right h (two_pos _).le)
      · have hlt : ulpExp32 b < ulpExp32 a := by unfold ulpExp32 at hu ⊢; omega
        have h1 : Int.log 2 |b| + 1 ≤ Int.log 2 |a| := by unfold ulpExp32 at hlt; omega
        have h2 : ulpExp32 a ≤ Int.log 2 |a| := by unfold ulpExp32 at hlt ⊢; omega
        have e1 : (2 : ℚ) ^ Int.log 2 |a| ≤ |a| := by
          have := Int.zpow_log_le_self (R := ℚ) (b := 2) (by norm_num) (abs_pos.2 ha'.ne); simpa using this
        have e2 : |b| < (2 : ℚ) ^ (Int.log 2 |b| + 1) := by
          have := Int.lt_zpow_succ_log_self (R := ℚ) (b := 2) (by norm_num) |b|; simpa using this
        have e3 : (2 : ℚ) ^ (Int.log 2 |b| + 1) ≤ 2 ^ Int.log 2 |a| := zpow_le_zpow_right₀ (by norm_num) h1
        rw [abs_of_neg ha'] at e1
        rw [abs_of_neg hb] at e2
        have p1 : rq a ≤ ((-1 : ℤ) : ℚ) * 2 ^ Int.log 2 |a| := rq_le h2 (by rw [abs_of_neg ha']; push_cast; linarith) ha'.ne
        have p2 : ((-1 : ℤ) : ℚ) * 2 ^ Int.log 2 |a| ≤ rq b := by
          refine le_rq (by omega) ?_ hb.ne
          rw [abs_of_neg ha'] at e3 ⊢; rw [abs_of_neg hb] at e3; push_cast; linarith
        exact p1.trans p2
  · have hb : 0 < b := ha.trans_le h
    have hl : Int.log 2 |a| ≤ Int.log 2 |b| := log_mono (abs_pos.2 ha.ne') (by rw [abs_of_pos hb, abs_of_pos ha]; exact h)
    by_cases hu : ulpExp32 a = ulpExp32 b
    · rw [rq, rq, if_neg ha.ne', if_neg hb.ne', hu]
      refine mul_le_mul_of_nonneg_right ?_ (two_pos _).le
      exact_mod_cast roundEven_mono (div_le_div_of_nonneg_right h (two_pos _).le)
    · have hlt : ulpExp32 a < ulpExp32 b := by unfold ulpExp32 at hu ⊢; omega
      have h1 : Int.log 2 |a| + 1 ≤ Int.log 2 |b| := by unfold ulpExp32 at hlt; omega
      have h2 : ulpExp32 b ≤ Int.log 2 |b| := by unfold ulpExp32 at hlt ⊢; omega
      have e1 : (2 : ℚ) ^ Int.log 2 |b| ≤ |b| := by
        have := Int.zpow_log_le_self (R := ℚ) (b := 2) (by norm_num) (abs_pos.2 hb.ne'); simpa using this
      have e2 : |a| < (2 : ℚ) ^ (Int.log 2 |a| + 1) := by
        have := Int.lt_zpow_succ_log_self (R := ℚ) (b := 2) (by norm_num) |a|; simpa using this
      have e3 : (2 : ℚ) ^ (Int.log 2 |a| + 1) ≤ 2 ^ Int.log 2 |b| := zpow_le_zpow_right₀ (by norm_num) h1
      have p1 : ((1 : ℤ) : ℚ) * 2 ^ Int.log 2 |b| ≤ rq b := by
        refine le_rq h2 ?_ hb.ne'
        rw [abs_of_pos hb] at e1 ⊢; push_cast; linarith
      have p2 : rq a ≤ ((1 : ℤ) : ℚ) * 2 ^ Int.log 2 |b| := by
        refine rq_le (by omega) ?_ ha.ne'
        have := e2.le.trans e3
        rw [abs_of_pos ha] at this; push_cast; linarith
      exact p2.trans p1

theorem clip_mono {a b : ℚ} (h : a ≤ b) : le (clip a) (clip b) = true := by
  unfold clip
  have : (0 : ℚ) < 2 ^ 128 := by positivity
  split_ifs <;> simp only [le, decide_eq_true_eq] <;> first | exact h | (exfalso; linarith)

theorem clip_fin {v b : ℚ} (h : clip v = fin b) : v = b ∧ -(2 : ℚ) ^ 128 < v ∧ v < 2 ^ 128 := by
  unfold clip at h
  split_ifs at h with h1 h2
  cases h
  exact ⟨rfl, not_le.1 h2, not_le.1 h1⟩

theorem clip_of {v : ℚ} (h1 : -(2 : ℚ) ^ 128 < v) (h2 : v < 2 ^ 128) : clip v = fin v := by
  unfold clip
  rw [if_neg (not_le.2 h2), if_neg (not_le.2 h1)]


theorem rq_abs_le_int (n : ℤ) (hn : |n| ≤ 2 ^ 24) : rq n = n := by
  have := rq_exact n 0 hn (by norm_num)
  simpa using this

theorem store_fin (q : ℚ) : store (fin q) = clip (rq q) := r32_eq q

theorem small_fin {q : ℚ} (h1 : -2 ^ 100 ≤ q) (h2 : q ≤ 2 ^ 100) : store (fin q) = fin (rq q) ∧ -2 ^ 100 ≤ rq q ∧ rq q ≤ 2 ^ 100 := by
  have e1 : rq (2 ^ 100) = 2 ^ 100 := by
    have := rq_exact 1 100 (by norm_num) (by norm_num)
    rw [show ((1 : ℤ) : ℚ) * 2 ^ (100 : ℤ) = 2 ^ 100 by norm_num] at this; exact this
  have e2 : rq (-2 ^ 100) = -2 ^ 100 := by
    have := rq_exact (-1) 100 (by norm_num) (by norm_num)
    rw [show ((-1 : ℤ) : ℚ) * 2 ^ (100 : ℤ) = -2 ^ 100 by norm_num] at this; exact this
  have a1 := rq_mono h1
  have a2 := rq_mono h2
  rw [e2] at a1
  rw [e1] at a2
  refine ⟨?_, a1, a2⟩
  rw [store_fin]
  have : (2 : ℚ) ^ 100 < 2 ^ 128 := by norm_num
  exact clip_of (by linarith) (by linarith)

/-- The error of a number in single precision. -/
theorem rq_err (q : ℚ) : |rq q - q| ≤ |q| / 2 ^ 24 + 1 / 2 ^ 150 := by
  by_cases hq : q = 0
  · simp [rq, hq]
  have hp := two_pos (ulpExp32 q)
  have e : rq q - q = ((roundEven (q / 2 ^ ulpExp32 q) : ℚ) - q / 2 ^ ulpExp32 q) * 2 ^ ulpExp32 q := by
    rw [rq, if_neg hq, sub_mul, div_mul_cancel₀ _ hp.ne']
  rw [e, abs_mul, abs_of_pos hp]
  have h3 := mul_le_mul_of_nonneg_right (roundEven_err (q / 2 ^ ulpExp32 q)) hp.le
  refine h3.trans ?_
  have hle : (2 : ℚ) ^ Int.log 2 |q| ≤ |q| := by
    have := Int.zpow_log_le_self (R := ℚ) (b := 2) (by norm_num) (abs_pos.2 hq); simpa using this
  rcases le_total (Int.log 2 |q|) (-126) with h | h
  · have hu : ulpExp32 q = -149 := by unfold ulpExp32; omega
    rw [hu]
    have : (1 : ℚ) / 2 * 2 ^ (-149 : ℤ) = 1 / 2 ^ 150 := by norm_num
    rw [this]
    have := abs_nonneg q
    have : 0 ≤ |q| / 2 ^ 24 := by positivity
    linarith
  · have hu : ulpExp32 q = Int.log 2 |q| - 23 := by unfold ulpExp32; omega
    rw [hu, zpow_sub₀ (by norm_num)]
    have : (1 : ℚ) / 2 * (2 ^ Int.log 2 |q| / 2 ^ (23 : ℤ)) = 2 ^ Int.log 2 |q| / 2 ^ 24 := by
      rw [show (23 : ℤ) = ((23 : ℕ) : ℤ) from rfl, zpow_natCast]; ring
    rw [this]
    have h5 : (2 : ℚ) ^ Int.log 2 |q| / 2 ^ 24 ≤ |q| / 2 ^ 24 := by gcongr
    have : (0 : ℚ) ≤ 1 / 2 ^ 150 := by positivity
    linarith

/-- A number in single precision is exact in double precision. -/
theorem single_double (hR : Rounding R) {g : ℚ} (h : rq g = g) (hg : |g| ≤ 2 ^ 24) : R g = fin g := by
  obtain ⟨m, e, hm, he, hme⟩ := rq_form g
  rw [h] at hme
  rcases le_or_gt 0 e with h0 | h0
  · obtain ⟨d, rfl⟩ := Int.eq_ofNat_of_zero_le h0
    have e1 : g = ((m * 2 ^ d : ℤ) : ℚ) := by rw [hme]; push_cast; simp
    have e2 : |(m * 2 ^ d : ℤ)| ≤ 2 ^ 53 := by
      rw [e1] at hg
      have : |(m * 2 ^ d : ℤ)| ≤ 2 ^ 24 := by exact_mod_cast hg
      exact this.trans (by norm_num)
    rw [e1]
    exact exact_int hR _ e2
  · obtain ⟨d, hd⟩ := Int.eq_ofNat_of_zero_le (show 0 ≤ -e by omega)
    have e1 : g = (m : ℚ) / 2 ^ d := by
      rw [hme, show e = -(d : ℤ) by omega, zpow_neg, zpow_natCast]; rfl
    rw [e1]
    exact hR.exact m d (hm.trans (by norm_num)) (by omega)

theorem rq_idem (q : ℚ) : rq (rq q) = rq q := by
  obtain ⟨m, e, hm, he, hme⟩ := rq_form q
  rw [hme]
  exact rq_exact m e hm he

/-- The error of a number in double precision. -/
theorem double_err (hR : Rounding R) (hA : Accurate R) {q : ℚ} (h : |q| ≤ 2 ^ 100) : ∃ v, R q = fin v ∧ |v - q| ≤ |q| / 2 ^ 53 + 1 / 2 ^ 999 := by
  rcases le_or_gt (1 / 2 ^ 1000) |q| with h1 | h1
  · obtain ⟨v, e, hv⟩ := hA q h1 (h.trans (pow_le_pow_right₀ (by norm_num) (by norm_num)))
    refine ⟨v, e, ?_⟩
    have : uu * |q| = |q| / 2 ^ 53 := by unfold uu; ring
    have h0 : (0 : ℚ) ≤ 1 / 2 ^ 999 := by positivity
    linarith
  · have a := abs_lt.1 h1
    have x1 : R (1 / 2 ^ 1000) = fin (1 / 2 ^ 1000) := by
      have := hR.exact 1 1000 (by norm_num) le_rfl
      push_cast at this; exact this
    have x2 : R (-(1 / 2 ^ 1000)) = fin (-(1 / 2 ^ 1000)) := by
      have := hR.exact (-1) 1000 (by norm_num) le_rfl
      push_cast at this
      rw [neg_div] at this; exact this
    obtain ⟨v, e, v1, v2⟩ := between hR x2 x1 a.1.le a.2.le
    refine ⟨v, e, ?_⟩
    have h0 : 0 ≤ |q| / 2 ^ 53 := by positivity
    have hh : (1 : ℚ) / 2 ^ 999 = 1 / 2 ^ 1000 + 1 / 2 ^ 1000 := by
      have hx : (2 : ℚ) ^ 1000 = 2 ^ 999 * 2 := pow_succ 2 999
      rw [hx]
      have hx0 : (2 : ℚ) ^ 999 ≠ 0 := by positivity
      generalize (2 : ℚ) ^ 999 = x at hx0
      field_simp
      norm_num
    rw [hh, abs_le]
    constructor <;> linarith [a.1, a.2]

/-! ## C410, C411: availability -/

/-- Probabilities computed by clusters are probabilities (doubles between zero and one, C379), whatever has been masked. -/
def Probs (process : (Nat → XF) → Nat → List Nb) : Prop := ∀ g k, ∀ n ∈ process g k, ∃ q : ℚ, n.p = fin q ∧ 0 ≤ q ∧ q ≤ 1

/-- What the `k`-th cluster takes of galaxy `i`, exactly: the probability of the (last) neighbour that is this galaxy, if bright and near enough. -/
def takes (process : (Nat → XF) → Nat → List Nb) (R : ℚ → XF) (k i : Nat) : ℚ :=
  match ((process (run R process k) k).filter fun n => decide (n.index = i) && n.inside && lt (fin 0) n.p).getLast? with
  | some n => match n.p with
    | fin q => q
    | _ => 0
  | none => 0

theorem addp_ok (hR : Rounding R) {g q : ℚ} (hg : rq g = g) (h0 : 0 ≤ g) (h1 : g ≤ 2 ^ 24) (q0 : 0 ≤ q) (q1 : q ≤ 1) :
    ∃ v, addp R (fin g) (fin q) = fin v ∧ rq v = v ∧ g ≤ v ∧ v ≤ 2 ^ 24 ∧ (∀ n : ℕ, g ≤ n → n + 1 ≤ 2 ^ 24 → v ≤ n + 1) := by
  have hgd := single_double hR hg (by rwa [abs_of_nonneg h0])
  have htop : R ((2 ^ 24 + 1 : ℤ) : ℚ) = fin ((2 ^ 24 + 1 : ℤ) : ℚ) := exact_int hR _ (by norm_num)
  obtain ⟨s, e, s1, s2⟩ := between hR hgd htop (show g ≤ g + q by linarith) (by push_cast; linarith)
  have hs : addp R (fin g) (fin q) = store (fin s) := by simp only [addp, add, e]
  have hs2 : s ≤ 2 ^ 24 + 1 := by push_cast at s2; norm_num at s2 ⊢; exact s2
  obtain ⟨st, -, -⟩ := small_fin (q := s) (by norm_num at h0 ⊢; linarith) (by norm_num at hs2 ⊢; linarith)
  refine ⟨rq s, by rw [hs, st], rq_idem s, ?_, ?_, ?_⟩
  · have := rq_mono s1; rwa [hg] at this
  · have e17 : rq (2 ^ 24 + 1) = 2 ^ 24 := by
      have hl : Int.log 2 |(2 ^ 24 + 1 : ℚ)| = 24 := by
        rw [abs_of_pos (by norm_num)]
        refine le_antisymm ?_ ?_
        · have := (Int.lt_zpow_iff_log_lt (R := ℚ) (b := 2) (by norm_num) (x := 25) (r := 2 ^ 24 + 1) (by norm_num)).1 (by norm_num)
          omega
        · exact (Int.zpow_le_iff_le_log (R := ℚ) (b := 2) (by norm_num) (x := 24) (by norm_num)).1 (by norm_num)
      have hu : ulpExp32 (2 ^ 24 + 1) = 1 := by unfold ulpExp32; rw [hl]; norm_num
      rw [rq, if_neg (by norm_num), hu]
      have hr : roundEven ((2 ^ 24 + 1 : ℚ) / 2 ^ (1 : ℤ)) = 2 ^ 23 := by
        have hf : ⌊(2 ^ 24 + 1 : ℚ) / 2 ^ (1 : ℤ)⌋ = 2 ^ 23 := by rw [Int.floor_eq_iff]; norm_num
        unfold roundEven
        rw [hf]
        norm_num
      rw [hr]; norm_num
    have := rq_mono hs2
    rwa [e17] at this
  · intro n hn hle
    have hI : R ((n + 1 : ℤ) : ℚ) = fin ((n + 1 : ℤ) : ℚ) := by
      refine exact_int hR _ ?_
      rw [abs_of_nonneg (by positivity)]
      have : (n : ℤ) + 1 ≤ 2 ^ 24 := by exact_mod_cast hle
      linarith
    obtain ⟨s', e', -, s2'⟩ := between hR hgd hI (show g ≤ g + q by linarith) (by push_cast; linarith)
    rw [e] at e'
    cases e'
    have := rq_mono s2'
    rw [rq_abs_le_int _ (by rw [abs_of_nonneg (by positivity)]; exact_mod_cast hle)] at this
    push_cast at this
    exact this

theorem filter_takes (process : (Nat → XF) → Nat → List Nb) (k i : Nat) :
    ((process (run R process k) k).filter taken).filter (fun n => n.index = i) =
      (process (run R process k) k).filter fun n => decide (n.index = i) && n.inside && lt (fin 0) n.p := by
  rw [List.filter_filter]
  congr 1
  funext n
  simp only [taken]
  cases decide (n.index = i) <;> simp

/-- One cluster: nothing taken and nothing changed, or the probability added. -/
theorem run_step (process : (Nat → XF) → Nat → List Nb) (h : Probs process) (k i : Nat) :
    (takes process R k i = 0 ∧ run R process (k + 1) i = run R process k i) ∨
    (0 < takes process R k i ∧ takes process R k i ≤ 1 ∧ run R process (k + 1) i = addp R (run R process k i) (fin (takes process R k i))) := by
  have hrun : run R process (k + 1) i = mask R (run R process k) (process (run R process k) k) i := rfl
  rw [hrun]
  unfold mask takes
  rw [filter_takes]
  cases hl : ((process (run R process k) k).filter fun n => decide (n.index = i) && n.inside && lt (fin 0) n.p).getLast? with
  | none => left; exact ⟨rfl, rfl⟩
  | some n =>
    right
    have hm := List.mem_of_getLast? hl
    obtain ⟨hm1, hm2⟩ := List.mem_filter.1 hm
    obtain ⟨q, e, q0, q1⟩ := h _ _ n hm1
    rw [e] at hm2
    simp only [Bool.and_eq_true, decide_eq_true_eq, lt] at hm2
    simp only [e]
    exact ⟨hm2.2, q1, trivial⟩

theorem run_inv (hR : Rounding R) (process : (Nat → XF) → Nat → List Nb) (h : Probs process) (k i : Nat) :
    ∃ g, run R process k i = fin g ∧ rq g = g ∧ 0 ≤ g ∧ g ≤ 2 ^ 24 ∧ g ≤ k := by
  induction k with
  | zero => exact ⟨0, rfl, by simp [rq], le_rfl, by norm_num, by simp⟩
  | succ k ih =>
    obtain ⟨g, e, hg, g0, g1, gk⟩ := ih
    rcases run_step (R := R) process h k i with ⟨-, e2⟩ | ⟨t0, t1, e2⟩
    · exact ⟨g, by rw [e2, e], hg, g0, g1, by push_cast; linarith⟩
    · obtain ⟨v, ev, hv, v0, v1, v2⟩ := addp_ok hR hg g0 g1 t0.le t1
      refine ⟨v, by rw [e2, e, ev], hv, g0.trans v0, v1, ?_⟩
      rcases le_or_gt (k + 1) (2 ^ 24) with hk | hk
      · have := v2 k gk (by exact_mod_cast hk)
        push_cast; exact this
      · have : (2 : ℚ) ^ 24 ≤ ((k + 1 : ℕ) : ℚ) := by exact_mod_cast hk.le
        exact v1.trans this

theorem run_mono (hR : Rounding R) (process : (Nat → XF) → Nat → List Nb) (h : Probs process) (k m i : Nat) (a b : ℚ)
    (ha : run R process k i = fin a) (hb : run R process (k + m) i = fin b) : a ≤ b := by
  induction m generalizing b with
  | zero => rw [Nat.add_zero, ha] at hb; cases hb; exact le_rfl
  | succ m ih =>
    obtain ⟨g, e, hg, g0, g1, -⟩ := run_inv hR process h (k + m) i
    refine (ih g e).trans ?_
    rw [← Nat.add_assoc] at hb
    rcases run_step (R := R) process h (k + m) i with ⟨-, e2⟩ | ⟨t0, t1, e2⟩
    · rw [e2, e] at hb; cases hb; exact le_rfl
    · obtain ⟨v, ev, -, v0, -, -⟩ := addp_ok hR hg g0 g1 t0.le t1
      rw [e2, e, ev] at hb; cases hb; exact v0

theorem avail_eq {g : ℚ} (h0 : 0 ≤ g) (h1 : g ≤ 2 ^ 24) : avail (fin g) = fin (rq (1 - g)) := by
  have : avail (fin g) = store (fin (1 - g)) := by simp only [avail, sub, neg, add, store, sub_eq_add_neg]
  rw [this]
  exact (small_fin (by norm_num at h1 ⊢; linarith) (by norm_num; linarith)).1

/-- C410: availability in single precision begins at one, never increases, is always a number, and is within its range. -/
theorem C410 (hR : Rounding R) (process : (Nat → XF) → Nat → List Nb) (h : Probs process) (k m i : Nat) :
    avail (run R process 0 i) = fin 1 ∧
    ∃ a b, avail (run R process k i) = fin a ∧ avail (run R process (k + m) i) = fin b ∧ b ≤ a ∧ a ≤ 1 ∧ -2 ^ 24 ≤ b ∧ (k + m ≤ 2 ^ 24 → 1 - ((k + m : ℕ) : ℚ) ≤ b) := by
  refine ⟨?_, ?_⟩
  · have : rq (1 - 0) = 1 := by have := rq_abs_le_int 1 (by norm_num); simpa using this
    rw [show run R process 0 i = fin 0 from rfl, avail_eq le_rfl (by norm_num), this]
  obtain ⟨g, e, hg, g0, g1, gk⟩ := run_inv hR process h k i
  obtain ⟨g', e', hg', g0', g1', gk'⟩ := run_inv hR process h (k + m) i
  refine ⟨_, _, by rw [e, avail_eq g0 g1], by rw [e', avail_eq g0' g1'], ?_, ?_, ?_, ?_⟩
  · exact rq_mono (by linarith [run_mono hR process h k m i g g' e e'])
  · have := rq_mono (show 1 - g ≤ ((1 : ℤ) : ℚ) by push_cast; linarith)
    rw [rq_abs_le_int 1 (by norm_num)] at this
    simpa using this
  · have := rq_mono (show ((-2 ^ 24 : ℤ) : ℚ) ≤ 1 - g' by push_cast; linarith)
    rw [rq_abs_le_int _ (by norm_num)] at this
    push_cast at this; exact this
  · intro hk
    have := rq_mono (show ((1 - (k + m : ℕ) : ℤ) : ℚ) ≤ 1 - g' by push_cast; push_cast at gk'; linarith)
    rw [rq_abs_le_int _ (by rw [abs_le]; constructor <;> push_cast <;> omega)] at this
    push_cast at this ⊢; exact this

/-- C410: a galaxy that is not available enough to be a center never is again. -/
theorem C410_cut (hR : Rounding R) (process : (Nat → XF) → Nat → List Nb) (h : Probs process) (k m i : Nat) (cut : ℚ)
    (hc : lt (avail (run R process k i)) (fin cut) = true) : lt (avail (run R process (k + m) i)) (fin cut) = true := by
  obtain ⟨-, a, b, ea, eb, hba, -⟩ := C410 hR process h k m i
  rw [ea] at hc
  rw [eb]
  simp only [lt, decide_eq_true_eq] at hc ⊢
  linarith

/-- C411, full statement: what is left of a galaxy is what the clusters have not taken. -/
def Accounts (R : ℚ → XF) (process : (Nat → XF) → Nat → List Nb) (k i : Nat) : Prop :=
  avail (run R process k i) = fin (1 - ((List.range k).map fun j => takes process R j i).sum)

theorem addp_err (hR : Rounding R) (hA : Accurate R) {g q : ℚ} {n : ℕ} (h0 : 0 ≤ g) (h1 : g ≤ 2 ^ 24) (hn : g ≤ n) (q0 : 0 ≤ q) (q1 : q ≤ 1) {v : ℚ}
    (h : addp R (fin g) (fin q) = fin v) : |v - (g + q)| ≤ (n + 1) / 2 ^ 23 := by
  have hb : |g + q| ≤ n + 1 := by rw [abs_of_nonneg (by linarith)]; linarith
  obtain ⟨s, e, hs⟩ := double_err hR hA (q := g + q) (by rw [abs_of_nonneg (by linarith)]; norm_num at h1 ⊢; linarith)
  have t1 : (1 : ℚ) / 2 ^ 999 ≤ 1 / 2 ^ 60 := by
    apply one_div_le_one_div_of_le (by positivity); exact pow_le_pow_right₀ (by norm_num) (by norm_num)
  have t2 : (1 : ℚ) / 2 ^ 150 ≤ 1 / 2 ^ 60 := by
    apply one_div_le_one_div_of_le (by positivity); exact pow_le_pow_right₀ (by norm_num) (by norm_num)
  have hn0 : (0 : ℚ) ≤ n := Nat.cast_nonneg n
  have hs1 : |s - (g + q)| ≤ (n + 1) / 2 ^ 53 + 1 / 2 ^ 60 := by
    have : |g + q| / 2 ^ 53 ≤ (n + 1) / 2 ^ 53 := by gcongr
    linarith
  have hs2 : |s - (g + q)| ≤ (n + 1) / 2 ^ 52 := by
    refine hs1.trans ?_
    norm_num
    linarith
  have hsb : |s| ≤ (n + 1) + (n + 1) / 2 ^ 52 := by
    have := abs_sub_abs_le_abs_sub s (g + q)
    linarith
  have hv : store (fin s) = fin v := by rw [← h]; simp only [addp, add, e]
  have hsv : |s| ≤ 2 ^ 100 := by
    have := abs_sub_abs_le_abs_sub s (g + q)
    have h5 : |g + q| ≤ 2 ^ 24 + 1 := by rw [abs_of_nonneg (by linarith)]; linarith
    have h6 : |s - (g + q)| ≤ |g + q| / 2 ^ 53 + 1 / 2 ^ 60 := by linarith
    norm_num at h5 h6 ⊢
    linarith
  have hsv' := abs_le.1 hsv
  rw [(small_fin hsv'.1 hsv'.2).1] at hv
  cases hv
  have hr := rq_err s
  have e3 : |s| / 2 ^ 24 ≤ ((n + 1) + (n + 1) / 2 ^ 52) / 2 ^ 24 := by gcongr
  have e4 : |rq s - (g + q)| ≤ |rq s - s| + |s - (g + q)| := by
    have := abs_add_le (rq s - s) (s - (g + q)); simpa using this
  refine e4.trans ?_
  norm_num at hr e3 hs2 t2 ⊢
  linarith

theorem run_account (hR : Rounding R) (hA : Accurate R) (process : (Nat → XF) → Nat → List Nb) (h : Probs process) (k i : Nat) (g : ℚ)
    (e : run R process k i = fin g) : |g - ((List.range k).map fun j => takes process R j i).sum| ≤ k ^ 2 / 2 ^ 23 := by
  induction k generalizing g with
  | zero => cases e; simp
  | succ k ih =>
    obtain ⟨g', e', hg', g0, g1, gk⟩ := run_inv hR process h k i
    have hi := ih g' e'
    rw [List.range_succ, List.map_append, List.sum_append]
    simp only [List.map_cons, List.map_nil, List.sum_cons, List.sum_nil, add_zero]
    have hk0 : (0 : ℚ) ≤ k := Nat.cast_nonneg k
    rcases run_step (R := R) process h k i with ⟨t, e2⟩ | ⟨t0, t1, e2⟩
    · rw [e2, e'] at e
      cases e
      rw [t, add_zero]
      refine hi.trans ?_
      push_cast
      gcongr
      linarith
    · rw [e2, e'] at e
      have he := addp_err hR hA g0 g1 gk t0.le t1 e
      have := abs_add_le (g - (g' + takes process R k i)) (g' - ((List.range k).map fun j => takes process R j i).sum)
      rw [show g - (g' + takes process R k i) + (g' - ((List.range k).map fun j => takes process R j i).sum) =
        g - (((List.range k).map fun j => takes process R j i).sum + takes process R k i) by ring] at this
      refine this.trans ((add_le_add he hi).trans ?_)
      push_cast
      rw [← add_div]
      gcongr
      nlinarith

/-- C411: the availability of a galaxy is what the clusters have not taken, up to rounding errors: it is off by no more than the square of the number
of clusters in units of 1e-7 (2^-23). -/
theorem C411_partial (hR : Rounding R) (hA : Accurate R) (process : (Nat → XF) → Nat → List Nb) (h : Probs process) (k i : Nat) :
    ∃ a, avail (run R process k i) = fin a ∧ |a - (1 - ((List.range k).map fun j => takes process R j i).sum)| ≤ (k + 1) ^ 2 / 2 ^ 23 := by
  obtain ⟨g, e, hg, g0, g1, gk⟩ := run_inv hR process h k i
  refine ⟨_, by rw [e, avail_eq g0 g1], ?_⟩
  have h1 := run_account hR hA process h k i g e
  have h2 := rq_err (1 - g)
  have h3 : |1 - g| ≤ k + 1 := by rw [abs_le]; constructor <;> linarith
  have h4 := abs_add_le (rq (1 - g) - (1 - g)) (((List.range k).map fun j => takes process R j i).sum - g)
  rw [show rq (1 - g) - (1 - g) + (((List.range k).map fun j => takes process R j i).sum - g) =
    rq (1 - g) - (1 - ((List.range k).map fun j => takes process R j i).sum) by ring, abs_sub_comm (List.sum _) g] at h4
  refine h4.trans ?_
  have hk0 : (0 : ℚ) ≤ k := Nat.cast_nonneg k
  have h5 : |1 - g| / 2 ^ 24 ≤ (k + 1) / 2 ^ 24 := by gcongr
  have t2 : (1 : ℚ) / 2 ^ 150 ≤ 1 / 2 ^ 60 := by
    apply one_div_le_one_div_of_le (by positivity); exact pow_le_pow_right₀ (by norm_num) (by norm_num)
  have h6 : |rq (1 - g) - (1 - g)| ≤ (k + 1) / 2 ^ 24 + 1 / 2 ^ 60 := by linarith
  have h7 : ((k : ℚ) + 1) ^ 2 / 2 ^ 23 = k ^ 2 / 2 ^ 23 + (2 * k + 1) / 2 ^ 23 := by ring
  rw [h7]
  norm_num at h6 h1 ⊢
  linarith

/-- C411: a galaxy of which the clusters have taken more than the cut leaves, by more than the rounding errors, is not available as a center. -/
theorem C411_cut_partial (hR : Rounding R) (hA : Accurate R) (process : (Nat → XF) → Nat → List Nb) (h : Probs process) (k i : Nat) (cut : ℚ)
    (hc : 1 - cut + (k + 1) ^ 2 / 2 ^ 23 < ((List.range k).map fun j => takes process R j i).sum) :
    lt (avail (run R process k i)) (fin cut) = true := by
  obtain ⟨a, e, ha⟩ := C411_partial hR hA process h k i
  rw [e]
  simp only [lt, decide_eq_true_eq]
  linarith [(abs_le.1 ha).2]

/-- A galaxy that a first cluster takes half of, and that every later cluster takes a bit of. -/
def toyTakes : (Nat → XF) → Nat → List Nb := fun _ k => [⟨0, if k = 0 then fin (1 / 2) else fin (1 / 2 ^ 25), true⟩]

theorem toy_probs : Probs toyTakes := by
  intro g k n hn
  simp only [toyTakes, List.mem_singleton] at hn
  subst hn
  by_cases hk : k = 0
  · exact ⟨1 / 2, by simp [hk], by norm_num, by norm_num⟩
  · exact ⟨1 / 2 ^ 25, by simp [hk], by positivity, by norm_num⟩

theorem half_bit : rq (1 / 2 + 1 / 2 ^ 25) = 1 / 2 := by
  have hl : Int.log 2 |(1 / 2 + 1 / 2 ^ 25 : ℚ)| = -1 := by
    rw [abs_of_pos (by norm_num)]
    refine le_antisymm ?_ ?_
    · have := (Int.lt_zpow_iff_log_lt (R := ℚ) (b := 2) (by norm_num) (x := 0) (r := 1 / 2 + 1 / 2 ^ 25) (by norm_num)).1 (by norm_num)
      omega
    · exact (Int.zpow_le_iff_le_log (R := ℚ) (b := 2) (by norm_num) (x := -1) (by norm_num)).1 (by norm_num)
  have hu : ulpExp32 (1 / 2 + 1 / 2 ^ 25) = -24 := by unfold ulpExp32; rw [hl]; norm_num
  rw [rq, if_neg (by norm_num), hu]
  have hr : roundEven ((1 / 2 + 1 / 2 ^ 25 : ℚ) / 2 ^ (-24 : ℤ)) = 2 ^ 23 := by
    have hf : ⌊(1 / 2 + 1 / 2 ^ 25 : ℚ) / 2 ^ (-24 : ℤ)⌋ = 2 ^ 23 := by rw [Int.floor_eq_iff]; norm_num
    unfold roundEven
    rw [hf]
    norm_num
  rw [hr]; norm_num

theorem half_single : rq (1 / 2) = 1 / 2 := by
  have := rq_exact 1 (-1) (by norm_num) (by norm_num)
  rw [show ((1 : ℤ) : ℚ) * 2 ^ (-1 : ℤ) = 1 / 2 by norm_num] at this; exact this

/-- C411 is false without rounding errors: after half of a galaxy has been taken, whatever small amounts clusters take is lost. The amounts add up to any
number while half of the galaxy stays available. -/
theorem C411_lost_false (hR : Rounding R) (k : Nat) :
    avail (run R toyTakes (k + 1) 0) = fin (1 / 2) ∧ ((List.range (k + 1)).map fun j => takes toyTakes R j 0).sum = 1 / 2 + k / 2 ^ 25 := by
  have hrun : run R toyTakes (k + 1) 0 = fin (1 / 2) := by
    induction k with
    | zero =>
      have : run R toyTakes 1 0 = addp R (fin 0) (fin (1 / 2)) := by simp [run, mask, toyTakes, taken, lt]
      rw [this]
      have e : R (0 + 1 / 2) = fin (1 / 2) := by have := hR.exact 1 1 (by norm_num) (by norm_num); norm_num at this ⊢; exact this
      simp only [addp, add, e]
      rw [(small_fin (by norm_num) (by norm_num)).1, half_single]
    | succ k ih =>
      have : run R toyTakes (k + 2) 0 = addp R (run R toyTakes (k + 1) 0) (fin (1 / 2 ^ 25)) := by
        rw [run]; simp [mask, toyTakes, taken, lt]
      rw [this, ih]
      have e : R (1 / 2 + 1 / 2 ^ 25) = fin (1 / 2 + 1 / 2 ^ 25) := by
        have := hR.exact (2 ^ 24 + 1) 25 (by norm_num) (by norm_num); norm_num at this ⊢; exact this
      simp only [addp, add, e]
      rw [(small_fin (by norm_num) (by norm_num)).1, half_bit]
  refine ⟨?_, ?_⟩
  · rw [hrun, avail_eq (by norm_num) (by norm_num), show (1 : ℚ) - 1 / 2 = 1 / 2 by norm_num, half_single]
  · have ht : ∀ j, takes toyTakes R j 0 = if j = 0 then 1 / 2 else 1 / 2 ^ 25 := by
      intro j
      by_cases hj : j = 0 <;> simp [takes, toyTakes, lt, hj]
    clear hrun
    induction k with
    | zero => simp [ht]
    | succ k ih =>
      rw [List.range_succ, List.map_append, List.sum_append, ih]
      simp only [List.map_cons, List.map_nil, List.sum_cons, List.sum_nil, add_zero, ht]
      rw [if_neg (by omega)]
      push_cast
      ring

/-- C411 is false of every implementation of doubles. -/
theorem C411_false (hR : Rounding R) : Probs toyTakes ∧ ¬ ∀ k, Accounts R toyTakes k 0 := by
  refine ⟨toy_probs, fun h => ?_⟩
  have h1 := h 2
  obtain ⟨a, b⟩ := C411_lost_false hR 1
  unfold Accounts at h1
  rw [a, b] at h1
  norm_num at h1

/-- The hypotheses are met: two clusters that take three quarters and then a half of a galaxy (of which a quarter is left). -/
def toyTwice : (Nat → XF) → Nat → List Nb := fun _ k => [⟨3, if k = 0 then fin (3 / 4) else fin (1 / 2), true⟩, ⟨4, fin (1 / 2), false⟩]

example : Probs toyTwice ∧ takes toyTwice r64 0 3 = 3 / 4 ∧ takes toyTwice r64 1 3 = 1 / 2 ∧ takes toyTwice r64 0 4 = 0 := by
  refine ⟨?_, by simp [takes, toyTwice, lt], by simp [takes, toyTwice, lt], by simp [takes, toyTwice, lt]⟩
  intro g k n hn
  simp only [toyTwice, List.mem_cons, List.not_mem_nil, or_false] at hn
  rcases hn with rfl | rfl
  · by_cases hk : k = 0
    · exact ⟨3 / 4, by simp [hk], by norm_num, by norm_num⟩
    · exact ⟨1 / 2, by simp [hk], by norm_num, by norm_num⟩
  · exact ⟨1 / 2, rfl, by norm_num, by norm_num⟩

example : lt (avail (run r64 toyTakes 5 0)) (fin (3 / 4)) = true := by
  rw [(C411_lost_false r64_rounding 4).1]; norm_num [lt]

/-! ## C412: which clusters have a likelihood -/

/-- C412, full statement: a cluster is in the catalog of likelihoods if and only if its likelihood has been computed, and is a number. -/
def LikeKept (lam : Option XF) : Prop := kept lam = true ↔ ∃ q, lam = some (fin q)

/-- `-1e11` in single precision. -/
theorem failed_single : store failed = fin (-99999997952) := by
  have hl : Int.log 2 |(-100000000000 : ℚ)| = 36 := by
    rw [show |(-100000000000 : ℚ)| = 100000000000 by norm_num]
    refine le_antisymm ?_ ?_
    · have := (Int.lt_zpow_iff_log_lt (R := ℚ) (b := 2) (by norm_num) (x := 37) (r := 100000000000) (by norm_num)).1 (by norm_num)
      omega
    · exact (Int.zpow_le_iff_le_log (R := ℚ) (b := 2) (by norm_num) (x := 36) (by norm_num)).1 (by norm_num)
  have hu : ulpExp32 (-100000000000) = 13 := by unfold ulpExp32; rw [hl]; norm_num
  have hr : roundEven ((-100000000000 : ℚ) / 2 ^ (13 : ℤ)) = -12207031 := by
    have hf : ⌊(-100000000000 : ℚ) / 2 ^ (13 : ℤ)⌋ = -12207032 := by rw [Int.floor_eq_iff]; norm_num
    unfold roundEven
    rw [hf]
    norm_num
  unfold failed
  rw [(small_fin (by norm_num) (by norm_num)).1, rq, if_neg (by norm_num), hu, hr]
  norm_num

/-- C412: no failed cluster, and none whose likelihood is not a number, is in the catalog; every cluster with a likelihood above -9e10 is. -/
theorem C412_partial : kept none = false ∧ kept (some nan) = false ∧ kept (some ninf) = false ∧
    ∀ q : ℚ, -90000000000 ≤ q → q ≤ 2 ^ 100 → LikeKept (some (fin q)) := by
  have hk : ∀ l : Option XF, kept l = lt (fin (-99999997952)) (store (l.getD failed)) := fun l => by rw [kept, failed_single]
  refine ⟨by rw [hk]; simp [failed_single, lt], by rw [hk]; rfl, by rw [hk]; rfl, fun q h1 h2 => ⟨fun _ => ⟨q, rfl⟩, fun _ => ?_⟩⟩
  rw [hk]
  have e := rq_mono (show ((-10986329 : ℤ) : ℚ) * 2 ^ (13 : ℤ) ≤ q by norm_num; linarith)
  rw [rq_exact (-10986329) 13 (by norm_num) (by norm_num)] at e
  simp only [Option.getD_some]
  rw [(small_fin (by norm_num; linarith) h2).1]
  simp only [lt, decide_eq_true_eq]
  norm_num at e
  linarith

/-- C412 is false of a likelihood just above -1e11, which single precision does not tell from a failed one, and of an infinite one. -/
theorem C412_false : ¬ LikeKept (some (fin (-99999999999))) ∧ ¬ LikeKept (some pinf) := by
  have hk : ∀ l : Option XF, kept l = lt (fin (-99999997952)) (store (l.getD failed)) := fun l => by rw [kept, failed_single]
  refine ⟨fun h => ?_, fun h => ?_⟩
  · have h2 := h.2 ⟨_, rfl⟩
    rw [hk] at h2
    have e := rq_mono (show (-99999999999 : ℚ) ≤ ((-12207031 : ℤ) : ℚ) * 2 ^ (13 : ℤ) by norm_num)
    rw [rq_exact (-12207031) 13 (by norm_num) (by norm_num)] at e
    simp only [Option.getD_some] at h2
    rw [(small_fin (by norm_num) (by norm_num)).1] at h2
    simp only [lt, decide_eq_true_eq] at h2
    norm_num at e
    linarith
  · obtain ⟨q, hq⟩ := h.1 (by rw [hk]; rfl)
    cases hq

example : LikeKept (some (fin 35)) := C412_partial.2.2.2 35 (by norm_num) (by norm_num)

/-! ## C413: the order of percolation -/

/-- C413, full statement: the clusters are in order of non-increasing likelihood (that of the members and that of the center, as computed, added
exactly). -/
def ByLikelihood (st : List Cl) : Prop :=
  st.Pairwise fun a b => ∀ x y u v : ℚ, a.bcg = fin x → a.lam = fin y → b.bcg = fin u → b.lam = fin v → u + v ≤ x + y

theorem lnlike_err (hR : Rounding R) (hA : Accurate R) {x y B : ℚ} (hB : 1 ≤ B) (hB2 : B ≤ 2 ^ 90) (hx : |x| ≤ B) (hy : |y| ≤ B) :
    ∃ v, lnlike R (fin x) (fin y) = fin v ∧ |v - (x + y)| ≤ B / 2 ^ 22 := by
  have t1 : (1 : ℚ) / 2 ^ 999 ≤ 1 / 2 ^ 60 := by
    apply one_div_le_one_div_of_le (by positivity); exact pow_le_pow_right₀ (by norm_num) (by norm_num)
  have t2 : (1 : ℚ) / 2 ^ 150 ≤ 1 / 2 ^ 60 := by
    apply one_div_le_one_div_of_le (by positivity); exact pow_le_pow_right₀ (by norm_num) (by norm_num)
  have hy2 : |y| ≤ 2 ^ 100 := hy.trans (hB2.trans (by norm_num))
  have hy3 := abs_le.1 hy2
  obtain ⟨e1, -, -⟩ := small_fin hy3.1 hy3.2
  have h1 := rq_err y
  have h1' : |rq y - y| ≤ B / 2 ^ 24 + 1 / 2 ^ 60 := by
    have : |y| / 2 ^ 24 ≤ B / 2 ^ 24 := by gcongr
    linarith
  have h2 : |x + rq y - (x + y)| ≤ B / 2 ^ 24 + 1 / 2 ^ 60 := by rwa [add_sub_add_left_eq_sub]
  have h3 : |x + rq y| ≤ 2 * B + (B / 2 ^ 24 + 1 / 2 ^ 60) := by
    have a := abs_sub_abs_le_abs_sub (x + rq y) (x + y)
    have b := abs_add_le x y
    linarith
  have h4 : |x + rq y| ≤ 2 ^ 95 := by
    refine h3.trans ?_
    norm_num at hB2 ⊢
    linarith
  obtain ⟨s, e2, h5⟩ := double_err hR hA (h4.trans (by norm_num : (2 : ℚ) ^ 95 ≤ 2 ^ 100))
  have h6 : |s - (x + rq y)| ≤ (2 * B + (B / 2 ^ 24 + 1 / 2 ^ 60)) / 2 ^ 53 + 1 / 2 ^ 60 := by
    have : |x + rq y| / 2 ^ 53 ≤ (2 * B + (B / 2 ^ 24 + 1 / 2 ^ 60)) / 2 ^ 53 := by gcongr
    linarith
  have h7 : |s| ≤ 2 * B + B / 2 ^ 10 := by
    have a := abs_sub_abs_le_abs_sub s (x + rq y)
    norm_num at h6 h3 a ⊢
    linarith
  have h8 : |s| ≤ 2 ^ 100 := by
    refine h7.trans ?_
    norm_num at hB2 ⊢
    linarith
  have h8' := abs_le.1 h8
  obtain ⟨e3, -, -⟩ := small_fin h8'.1 h8'.2
  refine ⟨rq s, by simp only [lnlike, e1, add, e2, e3], ?_⟩
  have h9 := rq_err s
  have h10 : |rq s - s| ≤ (2 * B + B / 2 ^ 10) / 2 ^ 24 + 1 / 2 ^ 60 := by
    have : |s| / 2 ^ 24 ≤ (2 * B + B / 2 ^ 10) / 2 ^ 24 := by gcongr
    linarith
  have a := abs_add_le (rq s - s) (s - (x + rq y))
  have b := abs_add_le (rq s - s + (s - (x + rq y))) (x + rq y - (x + y))
  rw [show rq s - s + (s - (x + rq y)) + (x + rq y - (x + y)) = rq s - (x + y) by ring] at b
  refine b.trans ?_
  norm_num at a h10 h6 h2 ⊢
  linarith

/-- C413: whatever the order of ties, no cluster comes before a cluster that is more likely by more than rounding errors. -/
theorem C413_partial (hR : Rounding R) (hA : Accurate R) (st : List Cl) (hs : Sorted R st) (B : ℚ) (hB : 1 ≤ B) (hB2 : B ≤ 2 ^ 90) :
    st.Pairwise fun a b => ∀ x y u v : ℚ, a.bcg = fin x → a.lam = fin y → b.bcg = fin u → b.lam = fin v →
      |x| ≤ B → |y| ≤ B → |u| ≤ B → |v| ≤ B → u + v ≤ x + y + B / 2 ^ 21 := by
  refine hs.imp ?_
  intro a b hab x y u v e1 e2 e3 e4 h1 h2 h3 h4
  rw [e1, e2, e3, e4] at hab
  obtain ⟨p, ep, hp⟩ := lnlike_err hR hA hB hB2 h1 h2
  obtain ⟨q, eq, hq⟩ := lnlike_err hR hA hB hB2 h3 h4
  rw [ep, eq] at hab
  simp only [le, decide_eq_true_eq] at hab
  have a1 := abs_le.1 hp
  have a2 := abs_le.1 hq
  have : B / 2 ^ 21 = B / 2 ^ 22 + B / 2 ^ 22 := by ring
  linarith

/-- Two clusters that single precision does not tell apart, the less likely one first. -/
def toyTie : List Cl := [⟨fin (1 / 5), fin 0, fin (1 / 2), fin 20⟩, ⟨fin (1 / 5), fin 0, fin (1 / 2 + 1 / 2 ^ 25), fin 20⟩]

theorem toyTie_like (hR : Rounding R) : lnlike R (fin 0) (fin (1 / 2)) = fin (1 / 2) ∧ lnlike R (fin 0) (fin (1 / 2 + 1 / 2 ^ 25)) = fin (1 / 2) := by
  have e : R (0 + 1 / 2) = fin (1 / 2) := by have := hR.exact 1 1 (by norm_num) (by norm_num); norm_num at this ⊢; exact this
  refine ⟨?_, ?_⟩
  · simp only [lnlike]
    rw [(small_fin (by norm_num) (by norm_num)).1, half_single]
    simp only [add, e]
    rw [(small_fin (by norm_num) (by norm_num)).1, half_single]
  · simp only [lnlike]
    rw [(small_fin (by norm_num) (by norm_num)).1, half_bit]
    simp only [add, e]
    rw [(small_fin (by norm_num) (by norm_num)).1, half_single]

/-- C413 is false: the less likely of two clusters may be percolated first. -/
theorem C413_false (hR : Rounding R) : Sorted R toyTie ∧ ¬ ByLikelihood toyTie := by
  obtain ⟨h1, h2⟩ := toyTie_like hR
  refine ⟨?_, fun h => ?_⟩
  · simp only [Sorted, toyTie, List.pairwise_cons, List.mem_singleton, forall_eq]
    refine ⟨by rw [h1, h2]; simp [le], by simp⟩
  · have := (List.pairwise_cons.1 h).1 _ (List.mem_singleton.2 rfl) 0 (1 / 2) 0 (1 / 2 + 1 / 2 ^ 25) rfl rfl rfl rfl
    norm_num at this

example : Sorted r64 toyTie := (C413_false r64_rounding).1

/-! ## C414: the cuts of percolation -/

/-- C414, full statement: percolation uses exactly the clusters in the range of redshifts and above the minimum richness (as computed) whose likelihood
is a number. -/
def CutOK (R : ℚ → XF) (z0 z1 ml : ℚ) (c : Cl) : Prop :=
  use R z0 z1 ml c = true ↔ ∃ z l : ℚ, c.z = fin z ∧ c.Lambda = fin l ∧ z0 < z ∧ z < z1 ∧ ml < l ∧ finite (lnlike R c.bcg c.lam) = true

theorem lt_of_store {a b : ℚ} (h : lt (store (fin a)) (store (fin b)) = true) : a < b := by
  by_contra hc
  push Not at hc
  have h1 := clip_mono (rq_mono hc)
  rw [store_fin, store_fin] at h
  revert h h1
  cases clip (rq a) <;> cases clip (rq b) <;> simp [lt, le]

/-- C414: no cluster that is outside the range, or not rich enough, is used, for all limits and whatever rounding does. -/
theorem C414_sound (z0 z1 ml z l : ℚ) (c : Cl) (hz : c.z = fin z) (hl : c.Lambda = fin l) (h : use R z0 z1 ml c = true) :
    z0 < z ∧ z < z1 ∧ ml < l := by
  unfold use at h
  rw [hz, hl] at h
  simp only [Bool.and_eq_true] at h
  exact ⟨lt_of_store h.1.1.1, lt_of_store h.1.1.2, lt_of_store h.2⟩

/-- C414: a cluster without redshift or richness is not used. -/
theorem C414_nan (z0 z1 ml : ℚ) (c : Cl) (h : c.z = nan ∨ c.Lambda = nan) : use R z0 z1 ml c = false := by
  unfold use
  rcases h with h | h <;> rw [h]
  · have : lt (store (fin z0)) (store nan) = false := by
      show lt _ nan = false
      cases store (fin z0) <;> rfl
    rw [this]; simp
  · have : lt (store (fin ml)) (store nan) = false := by
      show lt _ nan = false
      cases store (fin ml) <;> rfl
    rw [this]; simp

theorem store_lt {a b : ℚ} (ha : 1 / 2 ^ 40 ≤ a) (hb : b ≤ 2 ^ 100) (h : a + a / 2 ^ 22 < b) : lt (store (fin a)) (store (fin b)) = true := by
  have ha0 : 0 < a := lt_of_lt_of_le (by positivity) ha
  have hab : a < b := lt_of_le_of_lt (le_add_of_nonneg_right (by positivity)) h
  have hb0 : 0 < b := ha0.trans hab
  rw [(small_fin (by norm_num; linarith) (by linarith)).1, (small_fin (by norm_num; linarith) hb).1]
  simp only [lt, decide_eq_true_eq]
  have e1 := abs_le.1 (rq_err a)
  have e2 := abs_le.1 (rq_err b)
  rw [abs_of_pos ha0] at e1
  rw [abs_of_pos hb0] at e2
  have t2 : (1 : ℚ) / 2 ^ 150 ≤ 1 / 2 ^ 80 := by
    apply one_div_le_one_div_of_le (by positivity); exact pow_le_pow_right₀ (by norm_num) (by norm_num)
  norm_num at ha e1 e2 t2 h ⊢
  linarith [e1.2, e2.1]

/-- C414: every cluster inside the range and above the minimum richness by more than rounding errors is used. -/
theorem C414_partial (z0 z1 ml z l : ℚ) (c : Cl) (hz : c.z = fin z) (hl : c.Lambda = fin l) (h0 : 1 / 2 ^ 40 ≤ z0) (h1 : z1 ≤ 2 ^ 100)
    (hm : 1 / 2 ^ 40 ≤ ml) (hl2 : l ≤ 2 ^ 100) (hlike : finite (lnlike R c.bcg c.lam) = true) (a1 : z0 + z0 / 2 ^ 22 < z) (a2 : z + z / 2 ^ 22 < z1) (a3 : ml + ml / 2 ^ 22 < l) :
    CutOK R z0 z1 ml c := by
  have hz0 : 0 < z0 := lt_of_lt_of_le (by positivity) h0
  have hzz : z0 < z := lt_of_le_of_lt (le_add_of_nonneg_right (by positivity)) a1
  have hzp : 0 < z := hz0.trans hzz
  have hz1 : z < z1 := lt_of_le_of_lt (le_add_of_nonneg_right (by positivity)) a2
  have hmp : 0 < ml := lt_of_lt_of_le (by positivity) hm
  have hml : ml < l := lt_of_le_of_lt (le_add_of_nonneg_right (by positivity)) a3
  refine ⟨fun _ => ⟨z, l, hz, hl, hzz, hz1, hml, hlike⟩, fun _ => ?_⟩
  unfold use
  rw [hz, hl, hlike, store_lt h0 (hz1.le.trans h1) a1, store_lt (h0.trans hzz.le) h1 a2, store_lt hm hl2 a3]
  rfl

/-- C414 is false of a cluster just inside a limit. -/
theorem C414_false (hR : Rounding R) : ¬ ∀ c, CutOK R (1 / 10) 1 (1 / 2) c := by
  intro h
  have hf : finite (lnlike R (fin 0) (fin (1 / 2))) = true := by rw [(toyTie_like hR).1]; rfl
  have hu := (h ⟨fin (1 / 2), fin 0, fin (1 / 2), fin (1 / 2 + 1 / 2 ^ 25)⟩).2 ⟨1 / 2, 1 / 2 + 1 / 2 ^ 25, rfl, rfl, by norm_num, by norm_num, by norm_num, hf⟩
  unfold use at hu
  simp only [Bool.and_eq_true] at hu
  have h2 := hu.2
  rw [(small_fin (by norm_num) (by norm_num)).1, (small_fin (by norm_num) (by norm_num)).1, half_bit, half_single] at h2
  simp [lt] at h2

example : CutOK r64 (1 / 10) (9 / 10) 3 ⟨fin (1 / 2), fin 0, fin 10, fin 20⟩ := by
  obtain ⟨v, e, -⟩ := lnlike_err r64_rounding FlExact.r64_accurate (x := 0) (y := 10) (B := 16) (by norm_num) (by norm_num) (by norm_num) (by norm_num)
  exact C414_partial _ _ _ (1 / 2) 20 _ rfl rfl (by norm_num) (by norm_num) (by norm_num) (by norm_num) (by rw [e]; rfl) (by norm_num) (by norm_num) (by norm_num)

/-! ## C415: the probabilities of members -/

/-- C415: the probability in the member file is a probability, to 1e-7 (2^-24) of the computed one; the availability is the availability that the
cluster found, unchanged, of one per cent at least unless the member is a candidate for the center. -/
theorem C415 (hR : Rounding R) (process : (Nat → XF) → Nat → List Nb) (h : Probs process) (k i : Nat) (q : ℚ) (q0 : 0 ≤ q) (q1 : q ≤ 1) (cand : Bool)
    (p' f : XF) (hm : member (fin q) (avail (run R process k i)) cand = some (p', f)) :
    (∃ v, p' = fin v ∧ 0 ≤ v ∧ v ≤ 1 ∧ |v - q| ≤ q / 2 ^ 24 + 1 / 2 ^ 150) ∧ f = avail (run R process k i) ∧
    (cand = false → ∃ a, f = fin a ∧ 1 / 100 ≤ a) := by
  obtain ⟨g, e, hg, g0, g1, gk⟩ := run_inv hR process h k i
  rw [e, avail_eq g0 g1] at hm ⊢
  unfold member at hm
  have hs := small_fin (q := rq (1 - g)) (by
    have := (small_fin (q := 1 - g) (by norm_num at g1 ⊢; linarith) (by norm_num; linarith)).2.1; exact this) (by
    have := (small_fin (q := 1 - g) (by norm_num at g1 ⊢; linarith) (by norm_num; linarith)).2.2; exact this)
  by_cases hc : (lt (fin (5764607523034235 / 2 ^ 59)) (fin (rq (1 - g))) || cand) = true
  · rw [if_pos hc] at hm
    cases hm
    refine ⟨⟨rq q, (small_fin (by norm_num; linarith) (by norm_num; linarith)).1, rq_nonneg q0, ?_, ?_⟩, ?_, ?_⟩
    · have := rq_mono (show q ≤ ((1 : ℤ) : ℚ) by push_cast; exact q1)
      rw [rq_abs_le_int 1 (by norm_num)] at this
      simpa using this
    · have := rq_err q
      rwa [abs_of_nonneg q0] at this
    · rw [hs.1, rq_idem]
    · rintro rfl
      simp only [Bool.or_false, lt, decide_eq_true_eq] at hc
      refine ⟨_, by rw [hs.1, rq_idem], ?_⟩
      norm_num at hc ⊢
      linarith
  · rw [if_neg hc] at hm
    cases hm

/-- C415: which neighbours are in the member file: the candidates for the center, and those that are more than one per cent available. -/
theorem C415_rows (hR : Rounding R) (process : (Nat → XF) → Nat → List Nb) (h : Probs process) (k i : Nat) (p : XF) (cand : Bool) :
    (member p (avail (run R process k i)) cand).isSome = true ↔ cand = true ∨ ∃ a, avail (run R process k i) = fin a ∧ 1 / 100 < a := by
  obtain ⟨g, e, hg, g0, g1, gk⟩ := run_inv hR process h k i
  rw [e, avail_eq g0 g1]
  have hcut : lt (fin (5764607523034235 / 2 ^ 59)) (fin (rq (1 - g))) = true ↔ 1 / 100 < rq (1 - g) := by
    simp only [lt, decide_eq_true_eq]
    constructor
    · intro h1; refine lt_trans ?_ h1; norm_num
    · intro h1
      by_contra hc
      push Not at hc
      have h2 := rq_mono hc
      rw [rq_idem] at h2
      have hd : rq (5764607523034235 / 2 ^ 59) ≤ 1 / 100 := by
        have hl : Int.log 2 |(5764607523034235 / 2 ^ 59 : ℚ)| = -7 := by
          rw [abs_of_pos (by norm_num)]
          refine le_antisymm ?_ ?_
          · have := (Int.lt_zpow_iff_log_lt (R := ℚ) (b := 2) (by norm_num) (x := -6) (r := 5764607523034235 / 2 ^ 59) (by norm_num)).1 (by norm_num)
            omega
          · exact (Int.zpow_le_iff_le_log (R := ℚ) (b := 2) (by norm_num) (x := -7) (by norm_num)).1 (by norm_num)
        have hu : ulpExp32 (5764607523034235 / 2 ^ 59) = -30 := by unfold ulpExp32; rw [hl]; norm_num
        have hr : roundEven ((5764607523034235 / 2 ^ 59 : ℚ) / 2 ^ (-30 : ℤ)) = 10737418 := by
          have hf : ⌊(5764607523034235 / 2 ^ 59 : ℚ) / 2 ^ (-30 : ℤ)⌋ = 10737418 := by rw [Int.floor_eq_iff]; norm_num
          unfold roundEven
          rw [hf]
          norm_num
        rw [rq, if_neg (by norm_num), hu, hr]
        norm_num
      linarith
  have hx : (∃ a, fin (rq (1 - g)) = fin a ∧ 1 / 100 < a) ↔ 1 / 100 < rq (1 - g) := by
    constructor
    · rintro ⟨a, ea, h1⟩; cases ea; exact h1
    · intro h1; exact ⟨_, rfl, h1⟩
  rw [hx, ← hcut]
  unfold member
  cases hl : lt (fin (5764607523034235 / 2 ^ 59)) (fin (rq (1 - g))) <;> cases cand <;> simp

example : member (fin (1 / 2)) (avail (run r64 toyTakes 1 0)) false = some (fin (1 / 2), fin (1 / 2)) := by
  rw [(C411_lost_false r64_rounding 0).1]
  unfold member
  rw [if_pos (by norm_num [lt]), (small_fin (by norm_num) (by norm_num)).1, half_single]

end Redmapper.Fl32
