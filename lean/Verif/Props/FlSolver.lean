import Verif.Model.FlSolver
import Mathlib.Tactic

set_option linter.unusedSectionVars false
set_option linter.unusedVariables false
set_option linter.unusedSimpArgs false

namespace Redmapper.FlSolver

open XF

/-! ## What is asked of the rounding -/

/-- What the theorems use of IEEE 754 rounding: numbers with at most 53 binary digits are exact, rounding keeps the order, a result is not
rounded again, no rational number rounds to "not a number", and two different doubles above 1/4 differ by at least 2^-60.  `r64_rounding`: IEEE 754 doubles satisfy it. -/
structure Rounding (R : ℚ → XF) : Prop where
  never_nan : ∀ q, R q ≠ nan
  mono : ∀ a b, a ≤ b → le (R a) (R b) = true
  exact : ∀ (n : ℤ) (k : ℕ), |n| ≤ 2 ^ 53 → k ≤ 1000 → R ((n : ℚ) / 2 ^ k) = fin ((n : ℚ) / 2 ^ k)
  idem : ∀ a b, R a = fin b → R b = fin b
  gap : ∀ a b, R a = fin a → R b = fin b → 1 / 4 ≤ a → a < b → a + 1 / 2 ^ 60 ≤ b

/-! ## IEEE 754 doubles -/

theorem roundEven_cases (x : ℚ) : roundEven x = ⌊x⌋ ∨ roundEven x = ⌊x⌋ + 1 := by
  unfold roundEven; split_ifs <;> simp

theorem roundEven_int (n : ℤ) : roundEven (n : ℚ) = n := by
  unfold roundEven; simp

theorem roundEven_mono {x y : ℚ} (h : x ≤ y) : roundEven x ≤ roundEven y := by
  rcases (Int.floor_le_floor h).lt_or_eq with hlt | heq
  · rcases roundEven_cases x with hx | hx <;> rcases roundEven_cases y with hy | hy <;> omega
  · unfold roundEven
    rw [heq]
    split_ifs <;> first | omega | (exfalso; linarith)

theorem roundEven_le {x : ℚ} {k : ℤ} (h : x ≤ k) : roundEven x ≤ k := by
  have := roundEven_mono h; rwa [roundEven_int] at this

theorem le_roundEven {x : ℚ} {k : ℤ} (h : (k : ℚ) ≤ x) : k ≤ roundEven x := by
  have := roundEven_mono h; rwa [roundEven_int] at this

/-- The rounded value before overflow. -/
def rq (q : ℚ) : ℚ := if q = 0 then 0 else (roundEven (q / 2 ^ ulpExp q) : ℚ) * 2 ^ ulpExp q

/-- Overflow. -/
def clip (v : ℚ) : XF :=
  if (2 : ℚ) ^ (1024 : Nat) ≤ v then .pinf else if v ≤ -(2 : ℚ) ^ (1024 : Nat) then .ninf else .fin v

theorem r64_eq (q : ℚ) : r64 q = clip (rq q) := by
  unfold r64 rq clip
  by_cases h : q = 0
  · simp only [h, if_true]
    rw [if_neg (by norm_num), if_neg (by norm_num)]
  · simp only [h, if_false]

theorem two_pos (e : ℤ) : (0 : ℚ) < 2 ^ e := by positivity

theorem ulp_ge (q : ℚ) : -1074 ≤ ulpExp q := by unfold ulpExp; omega

theorem abs_lt_ulp {q : ℚ} (h : q ≠ 0) : |q| < 2 ^ (ulpExp q + 53) := by
  have h1 : |q| < (2 : ℚ) ^ (Int.log 2 |q| + 1) := by
    have := Int.lt_zpow_succ_log_self (R := ℚ) (b := 2) (by norm_num) |q|
    simpa using this
  refine h1.trans_le (zpow_le_zpow_right₀ (by norm_num) ?_)
  unfold ulpExp; omega

theorem rq_le {q : ℚ} {e : ℤ} {k : ℤ} (he : ulpExp q ≤ e) (h : q ≤ k * 2 ^ e) (h0 : q ≠ 0) : rq q ≤ k * 2 ^ e := by
  rw [rq, if_neg h0]
  obtain ⟨d, hd⟩ := Int.eq_ofNat_of_zero_le (show 0 ≤ e - ulpExp q by omega)
  have hpow : (2 : ℚ) ^ e = 2 ^ d * 2 ^ ulpExp q := by
    rw [show e = (d : ℤ) + ulpExp q by omega, zpow_add₀ (by norm_num)]; simp
  rw [hpow, ← mul_assoc] at h ⊢
  have h2 : q / 2 ^ ulpExp q ≤ ((k * 2 ^ d : ℤ) : ℚ) := by
    rw [div_le_iff₀ (two_pos _)]; push_cast; exact h
  have h3 := roundEven_le h2
  have h4 : (roundEven (q / 2 ^ ulpExp q) : ℚ) ≤ ((k * 2 ^ d : ℤ) : ℚ) := by exact_mod_cast h3
  push_cast at h4
  exact mul_le_mul_of_nonneg_right h4 (two_pos _).le

theorem le_rq {q : ℚ} {e : ℤ} {k : ℤ} (he : ulpExp q ≤ e) (h : k * 2 ^ e ≤ q) (h0 : q ≠ 0) : k * 2 ^ e ≤ rq q := by
  rw [rq, if_neg h0]
  obtain ⟨d, hd⟩ := Int.eq_ofNat_of_zero_le (show 0 ≤ e - ulpExp q by omega)
  have hpow : (2 : ℚ) ^ e = 2 ^ d * 2 ^ ulpExp q := by
    rw [show e = (d : ℤ) + ulpExp q by omega, zpow_add₀ (by norm_num)]; simp
  rw [hpow, ← mul_assoc] at h ⊢
  have h2 : ((k * 2 ^ d : ℤ) : ℚ) ≤ q / 2 ^ ulpExp q := by
    rw [le_div_iff₀ (two_pos _)]; push_cast; exact h
  have h3 := le_roundEven h2
  have h4 : ((k * 2 ^ d : ℤ) : ℚ) ≤ (roundEven (q / 2 ^ ulpExp q) : ℚ) := by exact_mod_cast h3
  push_cast at h4
  exact mul_le_mul_of_nonneg_right h4 (two_pos _).le

theorem rq_nonneg {q : ℚ} (h : 0 ≤ q) : 0 ≤ rq q := by
  by_cases h0 : q = 0
  · simp [rq, h0]
  · have := le_rq (q := q) (e := ulpExp q) (k := 0) le_rfl (by simpa using h) h0
    simpa using this

theorem rq_nonpos {q : ℚ} (h : q ≤ 0) : rq q ≤ 0 := by
  by_cases h0 : q = 0
  · simp [rq, h0]
  · have := rq_le (q := q) (e := ulpExp q) (k := 0) le_rfl (by simpa using h) h0
    simpa using this

/-- Numbers with 53 binary digits are exact. -/
theorem rq_exact_lt (m e : ℤ) (hm : |m| < 2 ^ 53) (he : -1074 ≤ e) : rq (m * 2 ^ e) = m * 2 ^ e := by
  by_cases h0 : (m : ℚ) * 2 ^ e = 0
  · rw [h0]; simp [rq]
  have habs : |(m : ℚ) * 2 ^ e| < 2 ^ (53 + e) := by
    rw [abs_mul, abs_of_pos (two_pos e), zpow_add₀ (by norm_num)]
    have : |(m : ℚ)| < 2 ^ (53 : ℤ) := by
      have h' : |(m : ℚ)| < (2 : ℚ) ^ (53 : ℕ) := by exact_mod_cast hm
      rw [show (53 : ℤ) = ((53 : ℕ) : ℤ) from rfl, zpow_natCast]; exact h'
    exact mul_lt_mul_of_pos_right this (two_pos e)
  have hlog : Int.log 2 |(m : ℚ) * 2 ^ e| < 53 + e := by
    have := (Int.lt_zpow_iff_log_lt (R := ℚ) (b := 2) (by norm_num) (x := 53 + e) (abs_pos.2 h0)).1 (by simpa using habs)
    exact this
  have hu : ulpExp ((m : ℚ) * 2 ^ e) ≤ e := by unfold ulpExp; omega
  exact le_antisymm (rq_le hu le_rfl h0) (le_rq hu le_rfl h0)

theorem rq_exact (m e : ℤ) (hm : |m| ≤ 2 ^ 53) (he : -1074 ≤ e) : rq (m * 2 ^ e) = m * 2 ^ e := by
  rcases hm.lt_or_eq with h | h
  · exact rq_exact_lt m e h he
  · obtain ⟨s, hs, hms⟩ : ∃ s : ℤ, |s| < 2 ^ 53 ∧ m = s * 2 := by
      rcases abs_cases m with ⟨h1, _⟩ | ⟨h1, _⟩
      · exact ⟨2 ^ 52, by norm_num, by rw [← h1, h]; norm_num⟩
      · exact ⟨-2 ^ 52, by norm_num, by have : m = -2 ^ 53 := by omega
                                        rw [this]; norm_num⟩
    have hq : (m : ℚ) * 2 ^ e = s * 2 ^ (e + 1) := by
      rw [hms, zpow_add₀ (by norm_num)]; push_cast; ring
    rw [hq]
    exact rq_exact_lt s (e + 1) hs (by omega)

/-- A rounded number has at most 53 binary digits. -/
theorem rq_form (q : ℚ) : ∃ m e : ℤ, |m| ≤ 2 ^ 53 ∧ -1074 ≤ e ∧ rq q = m * 2 ^ e := by
  by_cases h0 : q = 0
  · exact ⟨0, 0, by norm_num, by norm_num, by simp [rq, h0]⟩
  refine ⟨roundEven (q / 2 ^ ulpExp q), ulpExp q, ?_, ulp_ge q, by rw [rq, if_neg h0]⟩
  have hb := abs_lt_ulp h0
  rw [add_comm, zpow_add₀ (by norm_num)] at hb
  have h1 : |q / 2 ^ ulpExp q| < 2 ^ (53 : ℤ) := by
    rw [abs_div, abs_of_pos (two_pos _), div_lt_iff₀ (two_pos _)]; exact hb
  have h2 := abs_lt.1 h1
  rw [abs_le]
  constructor
  · refine le_roundEven ?_
    push_cast; exact_mod_cast h2.1.le
  · refine roundEven_le ?_
    push_cast; exact_mod_cast h2.2.le

theorem log_mono {a b : ℚ} (ha : 0 < a) (h : a ≤ b) : Int.log 2 a ≤ Int.log 2 b := Int.log_mono_right ha h

theorem rq_mono {a b : ℚ} (h : a ≤ b) : rq a ≤ rq b := by
  rcases le_or_gt a 0 with ha | ha
  · rcases le_or_gt 0 b with hb | hb
    · exact (rq_nonpos ha).trans (rq_nonneg hb)
    · have ha' : a < 0 := lt_of_le_of_lt h hb
      have hl : Int.log 2 |b| ≤ Int.log 2 |a| := log_mono (abs_pos.2 hb.ne) (by rw [abs_of_neg hb, abs_of_neg ha']; linarith)
      by_cases hu : ulpExp a = ulpExp b
      · rw [rq, rq, if_neg ha'.ne, if_neg hb.ne, hu]
        refine mul_le_mul_of_nonneg_right ?_ (two_pos _).le
        exact_mod_cast roundEven_mono (div_le_div_of_nonneg_right h (two_pos _).le)
      · have hlt : ulpExp b < ulpExp a := by unfold ulpExp at hu ⊢; omega
        have h1 : Int.log 2 |b| + 1 ≤ Int.log 2 |a| := by unfold ulpExp at hlt; omega
        have h2 : ulpExp a ≤ Int.log 2 |a| := by unfold ulpExp at hlt ⊢; omega
        have e1 : (2 : ℚ) ^ Int.log 2 |a| ≤ |a| := by
          have := Int.zpow_log_le_self (R := ℚ) (b := 2) (by norm_num) (abs_pos.2 ha'.ne); simpa using this
        have e2 : |b| < (2 : ℚ) ^ (Int.log 2 |b| + 1) := by
          have := Int.lt_zpow_succ_log_self (R := ℚ) (b := 2) (by norm_num) |b|; simpa using this
        have e3 : (2 : ℚ) ^ (Int.log 2 |b| + 1) ≤ 2 ^ Int.log 2 |a| := zpow_le_zpow_right₀ (by norm_num) h1
        rw [abs_of_neg ha'] at e1
        rw [abs_of_neg hb] at e2
        have p1 : rq a ≤ ((-1 : ℤ) : ℚ) * 2 ^ Int.log 2 |a| := rq_le h2 (by rw [abs_of_neg ha']; push_cast; linarith) ha'.ne
        have p2 : ((-1 : ℤ) : ℚ) * 2 ^ Int.log 2 |a| ≤ rq b := by
          refine le_rq (by omega) ?_ hb.ne
          rw [abs_of_neg ha'] at e3 ⊢; rw [abs_of_neg hb] at e3; push_cast; linarith
        exact p1.trans p2
  · have hb : 0 < b := ha.trans_le h
    have hl : Int.log 2 |a| ≤ Int.log 2 |b| := log_mono (abs_pos.2 ha.ne') (by rw [abs_of_pos hb, abs_of_pos ha]; exact h)
    by_cases hu : ulpExp a = ulpExp b
    · rw [rq, rq, if_neg ha.ne', if_neg hb.ne', hu]
      refine mul_le_mul_of_nonneg_right ?_ (two_pos _).le
      exact_mod_cast roundEven_mono (div_le_div_of_nonneg_right h (two_pos _).le)
    · have hlt : ulpExp a < ulpExp b := by unfold ulpExp at hu ⊢; omega
      have h1 : Int.log 2 |a| + 1 ≤ Int.log 2 |b| := by unfold ulpExp at hlt; omega
      have h2 : ulpExp b ≤ Int.log 2 |b| := by unfold ulpExp at hlt ⊢; omega
      have e1 : (2 : ℚ) ^ Int.log 2 |b| ≤ |b| := by
        have := Int.zpow_log_le_self (R := ℚ) (b := 2) (by norm_num) (abs_pos.2 hb.ne'); simpa using this
      have e2 : |a| < (2 : ℚ) ^ (Int.log 2 |a| + 1) := by
        have := Int.lt_zpow_succ_log_self (R := ℚ) (b := 2) (by norm_num) |a|; simpa using this
      have e3 : (2 : ℚ) ^ (Int.log 2 |a| + 1) ≤ 2 ^ Int.log 2 |b| := zpow_le_zpow_right₀ (by norm_num) h1
      have p1 : ((1 : ℤ) : ℚ) * 2 ^ Int.log 2 |b| ≤ rq b := by
        refine le_rq h2 ?_ hb.ne'
        rw [abs_of_pos hb] at e1 ⊢; push_cast; linarith
      have p2 : rq a ≤ ((1 : ℤ) : ℚ) * 2 ^ Int.log 2 |b| := by
        refine rq_le (by omega) ?_ ha.ne'
        have := e2.le.trans e3
        rw [abs_of_pos ha] at this; push_cast; linarith
      exact p2.trans p1

theorem clip_mono {a b : ℚ} (h : a ≤ b) : le (clip a) (clip b) = true := by
  unfold clip
  have : (0 : ℚ) < 2 ^ 1024 := by positivity
  split_ifs <;> simp only [le, decide_eq_true_eq] <;> first | exact h | (exfalso; linarith)

theorem clip_fin {v b : ℚ} (h : clip v = fin b) : v = b ∧ -(2 : ℚ) ^ 1024 < v ∧ v < 2 ^ 1024 := by
  unfold clip at h
  split_ifs at h with h1 h2
  cases h
  exact ⟨rfl, not_le.1 h2, not_le.1 h1⟩

theorem clip_of {v : ℚ} (h1 : -(2 : ℚ) ^ 1024 < v) (h2 : v < 2 ^ 1024) : clip v = fin v := by
  unfold clip
  rw [if_neg (not_le.2 h2), if_neg (not_le.2 h1)]

theorem quarter_form (a : ℚ) (ha : rq a = a) (h4 : 1 / 4 ≤ a) : ∃ n : ℤ, a = n * (1 / 2 ^ 60) := by
  obtain ⟨m, e, hm, he, hme⟩ := rq_form a
  rw [ha] at hme
  have h0 : -55 ≤ e := by
    by_contra hc
    push Not at hc
    have h1 : (2 : ℚ) ^ e ≤ 2 ^ (-56 : ℤ) := zpow_le_zpow_right₀ (by norm_num) (by omega)
    have h2 : (m : ℚ) ≤ 2 ^ 53 := by exact_mod_cast (le_abs_self m).trans hm
    have h3 : (m : ℚ) * 2 ^ e ≤ 2 ^ 53 * 2 ^ (-56 : ℤ) :=
      (mul_le_mul_of_nonneg_right h2 (two_pos e).le).trans (mul_le_mul_of_nonneg_left h1 (by positivity))
    rw [← hme] at h3
    norm_num at h3 h4
    linarith
  obtain ⟨d, hd⟩ := Int.eq_ofNat_of_zero_le (show 0 ≤ e + 60 by omega)
  refine ⟨m * 2 ^ d, ?_⟩
  rw [hme, show e = (d : ℤ) + (-60) by omega, zpow_add₀ (by norm_num), zpow_natCast, zpow_neg]
  push_cast
  norm_num
  ring

/-- IEEE 754 binary64, round to nearest with ties to even, is a `Rounding`. -/
theorem r64_rounding : Rounding r64 where
  never_nan := by
    intro q; rw [r64_eq]; unfold clip; split_ifs <;> simp
  mono := by
    intro a b h; rw [r64_eq, r64_eq]; exact clip_mono (rq_mono h)
  exact := by
    intro n k hn hk
    have e : (n : ℚ) / 2 ^ k = n * 2 ^ (-(k : ℤ)) := by rw [zpow_neg, zpow_natCast]; rfl
    have hv : |(n : ℚ) / 2 ^ k| ≤ 2 ^ 53 := by
      rw [abs_div, abs_of_pos (by positivity : (0 : ℚ) < 2 ^ k)]
      have h1 : |(n : ℚ)| ≤ 2 ^ 53 := by exact_mod_cast hn
      have h2 : (1 : ℚ) ≤ 2 ^ k := one_le_pow₀ (by norm_num)
      rw [div_le_iff₀ (by positivity)]
      nlinarith [abs_nonneg (n : ℚ)]
    rw [r64_eq, e, rq_exact n _ hn (by omega), ← e]
    have := abs_le.1 hv
    have h53 : (2 : ℚ) ^ 53 < 2 ^ 1024 := pow_lt_pow_right₀ (by norm_num) (by norm_num)
    exact clip_of ((neg_lt_neg h53).trans_le this.1) (this.2.trans_lt h53)
  idem := by
    intro a b h
    rw [r64_eq] at h ⊢
    obtain ⟨h1, h2, h3⟩ := clip_fin h
    obtain ⟨m, e, hm, he, hme⟩ := rq_form a
    have : rq b = b := by rw [← h1, hme]; exact rq_exact m e hm he
    rw [this]
    exact clip_of (by rw [← h1]; exact h2) (by rw [← h1]; exact h3)
  gap := by
    intro a b ha hb h4 hab
    rw [r64_eq] at ha hb
    obtain ⟨n, hn⟩ := quarter_form a (clip_fin ha).1 h4
    obtain ⟨m, hm⟩ := quarter_form b (clip_fin hb).1 (h4.trans hab.le)
    rw [hn, hm] at hab ⊢
    have hp : (0 : ℚ) < 1 / 2 ^ 60 := by positivity
    have : (n : ℚ) < m := lt_of_mul_lt_mul_right hab hp.le
    have : n + 1 ≤ m := by exact_mod_cast this
    have : (n : ℚ) + 1 ≤ m := by exact_mod_cast this
    nlinarith

/-! ## Specification -/

/-- Membership probability of a galaxy at trial richness `x`: 0 if it is not a finite number. -/
def memb (R : ℚ → XF) (P : Par) (x : XF) (g : Gal) : XF :=
  let s := mul R (mul R x g.u) (P.nfwnorm (P.rlam x))
  let p := div R s (add R s g.b)
  if finite p then p else fin 0

/-- Radial weight at trial richness `x`: a hard step for `rsig ≤ 0`, otherwise a soft step. -/
def edge (R : ℚ → XF) (P : Par) (x : XF) (g : Gal) : XF :=
  if lt g.r (sub R (P.rlam x) (mul R (fin 5) P.rsig)) then fin 1
  else if lt (add R (P.rlam x) (mul R (fin 5) P.rsig)) g.r then fin 0
  else P.soft (sub R (P.rlam x) g.r)

/-- What a galaxy adds to the richness at trial richness `x`. -/
def wtAt (R : ℚ → XF) (P : Par) (x : XF) (g : Gal) : XF :=
  if le P.rsig (fin 0) then if lt g.r (P.rlam x) then mul R (memb R P x g) g.w else fin 0
  else mul R (mul R (memb R P x g) g.w) (edge R P x g)

/-- Sum in the order of the list. -/
def total (R : ℚ → XF) (l : List XF) : XF := l.foldl (add R) (fin 0)

/-- Masked fraction at radius `r`: a cubic polynomial, not negative. -/
def masked (R : ℚ → XF) (P : Par) (r : XF) : XF :=
  let c := add R (add R (add R P.c3 (mul R P.c2 r)) (mul R (mul R P.c1 r) r)) (mul R (mul R (mul R P.c0 r) r) r)
  if lt c (fin 0) then fin 0 else c

/-- Predicted richness at trial richness `x`: weights plus the masked part. -/
def predicted (R : ℚ → XF) (P : Par) (gs : List Gal) (x : XF) : XF :=
  add R (total R (gs.map (wtAt R P x))) (mul R x (masked R P (P.rlam x)))

theorem cval_spec (R : ℚ → XF) (P : Par) (r : XF) : cval R P r = masked R P r := rfl

theorem weight1_p (R : ℚ → XF) (P : Par) (x : XF) (g : Gal) (s : Slot) : (weight1 R P x true g s).p = memb R P x g := by
  unfold weight1 memb; simp only [if_true]; split_ifs <;> rfl

theorem weight1_wt (R : ℚ → XF) (P : Par) (x : XF) (g : Gal) (s : Slot) : (weight1 R P x true g s).wt = wtAt R P x g := by
  unfold weight1 wtAt memb edge; simp only [if_true]; split_ifs <;> rfl

theorem foldl_wt (R : ℚ → XF) (ss : List Slot) (a : XF) :
    ss.foldl (fun a s => add R a s.wt) a = (ss.map Slot.wt).foldl (add R) a := by
  induction ss generalizing a with
  | nil => rfl
  | cons s ss ih => exact ih _

theorem weights_wt (R : ℚ → XF) (P : Par) (x : XF) (gs : List Gal) (ss : List Slot) (h : ss.length = gs.length) :
    (weights R P x true gs ss).map Slot.wt = gs.map (wtAt R P x) := by
  induction gs generalizing ss with
  | nil => simp [weights]
  | cons g gs ih =>
    cases ss with
    | nil => simp at h
    | cons s ss =>
      have := ih ss (by simpa using h)
      simp only [weights, List.zipWith_cons_cons, List.map_cons, weight1_wt] at this ⊢
      rw [this]

theorem weights_length (R : ℚ → XF) (P : Par) (x : XF) (u : Bool) (gs : List Gal) (ss : List Slot) (h : ss.length = gs.length) :
    (weights R P x u gs ss).length = gs.length := by
  simp [weights, h]

theorem outOf_eq (R : ℚ → XF) (P : Par) (x : XF) (gs : List Gal) (ss : List Slot) (h : ss.length = gs.length) :
    outOf R P x (weights R P x true gs ss) = predicted R P gs x := by
  unfold outOf predicted total
  rw [foldl_wt, weights_wt R P x gs ss h, cval_spec]

/-! ## The bracket is computed without rounding -/

/-- The `j`-th point of the grid after `k` halvings of [0.5, 2000]. -/
def grid (k j : ℕ) : ℚ := 1 / 2 + j * (3999 / 2 ^ (k + 1))

theorem grid_form (k j : ℕ) : grid k j = ((2 ^ k + 3999 * j : ℤ) : ℚ) / 2 ^ (k + 1) := by
  unfold grid
  have : (2 : ℚ) ^ k ≠ 0 := by positivity
  push_cast; rw [pow_succ]; field_simp

variable {R : ℚ → XF} {P : Par}

theorem sum_exact (hR : Rounding R) {k j : ℕ} (hk : k ≤ 17) (hj : j < 2 ^ k) :
    R (grid k (j + 1) + grid k j) = fin (grid k (j + 1) + grid k j) := by
  have hk2 : (2 : ℤ) ^ k ≤ 2 ^ 17 := pow_le_pow_right₀ (by norm_num) hk
  have hj2 : (j : ℤ) < 2 ^ k := by exact_mod_cast hj
  have e : grid k (j + 1) + grid k j = ((2 * 2 ^ k + 3999 * (2 * j + 1) : ℤ) : ℚ) / 2 ^ (k + 1) := by
    rw [grid_form, grid_form]; push_cast; ring
  rw [e]
  refine hR.exact _ _ ?_ (by omega)
  have h0 : (0 : ℤ) < 2 ^ k := by positivity
  rw [abs_of_nonneg (by positivity)]
  norm_num at hk2 ⊢
  linarith

theorem grid_exact (hR : Rounding R) {k j : ℕ} (hk : k ≤ 18) (hj : j ≤ 2 ^ k) : R (grid k j) = fin (grid k j) := by
  have hk2 : (2 : ℤ) ^ k ≤ 2 ^ 18 := pow_le_pow_right₀ (by norm_num) hk
  have hj2 : (j : ℤ) ≤ 2 ^ k := by exact_mod_cast hj
  rw [grid_form]
  refine hR.exact _ _ ?_ (by omega)
  have h0 : (0 : ℤ) < 2 ^ k := by positivity
  rw [abs_of_nonneg (by positivity)]
  norm_num at hk2 ⊢
  linarith

theorem grid_half (k j : ℕ) : (grid k (j + 1) + grid k j) / 2 = grid (k + 1) (2 * j + 1) := by
  unfold grid
  have : (2 : ℚ) ^ k ≠ 0 := by positivity
  push_cast; simp only [pow_succ]; field_simp; ring

theorem grid_left (k j : ℕ) : grid k j = grid (k + 1) (2 * j) := by
  unfold grid
  have : (2 : ℚ) ^ k ≠ 0 := by positivity
  push_cast; simp only [pow_succ]; field_simp

theorem grid_diff (k j : ℕ) : grid k (j + 1) - grid k j = 3999 / 2 ^ (k + 1) := by
  unfold grid; push_cast; ring

theorem mid_eq (hR : Rounding R) {k j : ℕ} (hk : k ≤ 17) (hj : j < 2 ^ k) :
    div R (add R (fin (grid k (j + 1))) (fin (grid k j))) (fin 2) = fin (grid (k + 1) (2 * j + 1)) := by
  simp only [add]
  rw [sum_exact hR hk hj]
  simp only [div]
  rw [if_neg (by norm_num), grid_half]
  exact grid_exact hR (by omega) (by rw [pow_succ]; omega)

theorem mid_eq' (hR : Rounding R) {k j : ℕ} (hk : k ≤ 17) (hj : j < 2 ^ k) :
    div R (add R (fin (grid k j)) (fin (grid k (j + 1)))) (fin 2) = fin (grid (k + 1) (2 * j + 1)) := by
  rw [← mid_eq hR hk hj]; simp only [add, add_comm]

theorem width_eq (hR : Rounding R) {k j : ℕ} (hk : k ≤ 17) :
    abs (sub R (fin (grid k (j + 1))) (fin (grid k j))) = fin (3999 / 2 ^ (k + 1)) := by
  simp only [sub, neg, add]
  rw [← sub_eq_add_neg, grid_diff]
  have := hR.exact 3999 (k + 1) (by norm_num) (by omega)
  push_cast at this
  rw [this]
  show fin |_| = _
  rw [abs_of_pos (by positivity)]

theorem between (hR : Rounding R) {a b q : ℚ} (ha : R a = fin a) (hb : R b = fin b) (h1 : a ≤ q) (h2 : q ≤ b) :
    ∃ v, R q = fin v ∧ a ≤ v ∧ v ≤ b := by
  have m1 := hR.mono a q h1
  have m2 := hR.mono q b h2
  rw [ha] at m1
  rw [hb] at m2
  cases h : R q with
  | fin v => rw [h] at m1 m2; simp only [le, decide_eq_true_eq] at m1 m2; exact ⟨v, rfl, m1, m2⟩
  | pinf => rw [h] at m2; simp [le] at m2
  | ninf => rw [h] at m1; simp [le] at m1
  | nan => exact absurd h (hR.never_nan q)

theorem exact_int (hR : Rounding R) (n : ℤ) (h : |n| ≤ 2 ^ 53) : R n = fin n := by
  have := hR.exact n 0 h (by norm_num)
  simpa using this

theorem R0 (hR : Rounding R) : R 0 = fin 0 := by have := exact_int hR 0 (by norm_num); simpa using this
theorem R1 (hR : Rounding R) : R 1 = fin 1 := by have := exact_int hR 1 (by norm_num); simpa using this

theorem tol_range (hR : Rounding R) (ht : P.tol = R (1 / 100)) :
    ∃ d, mul R (fin 2) P.tol = fin d ∧ 9 / 512 ≤ d ∧ d ≤ 15 / 512 := by
  have e1 := hR.exact 9 10 (by norm_num) (by norm_num)
  have e2 := hR.exact 15 10 (by norm_num) (by norm_num)
  have e3 := hR.exact 9 9 (by norm_num) (by norm_num)
  have e4 := hR.exact 15 9 (by norm_num) (by norm_num)
  norm_num at e1 e2 e3 e4
  obtain ⟨t, ht1, ht2, ht3⟩ := between hR e1 e2 (q := 1 / 100) (by norm_num) (by norm_num)
  rw [ht, ht1]
  simp only [mul]
  obtain ⟨d, h1, h2, h3⟩ := between hR e3 e4 (q := 2 * t) (by linarith) (by linarith)
  exact ⟨d, h1, h2, h3⟩

/-- The state of the search after `k` steps. -/
def Inv (gs : List Gal) (k : ℕ) (s : St) : Prop :=
  ∃ j, j < 2 ^ k ∧ s.lo = fin (grid k j) ∧ s.hi = fin (grid k (j + 1)) ∧ s.steps = k ∧ s.slots.length = gs.length

theorem inv_init (gs : List Gal) : Inv gs 0 (init gs) :=
  ⟨0, by norm_num, by simp [init, grid], by simp only [init, grid]; norm_num, rfl, by simp [init]⟩

theorem step_cases (gs : List Gal) (s : St) :
    ((step R P gs s).lo = div R (add R s.hi s.lo) (fin 2) ∧ (step R P gs s).hi = s.hi ∨
      (step R P gs s).lo = s.lo ∧ (step R P gs s).hi = div R (add R s.hi s.lo) (fin 2)) ∧ (step R P gs s).steps = s.steps + 1 := by
  unfold step; dsimp only; split_ifs <;> simp

theorem step_slots_length (gs : List Gal) (s : St) (h : s.slots.length = gs.length) : (step R P gs s).slots.length = gs.length := by
  unfold step; dsimp only
  split_ifs <;> simp [weights, h]

theorem inv_step (hR : Rounding R) (gs : List Gal) {k : ℕ} (hk : k ≤ 17) (s : St) (h : Inv gs k s) : Inv gs (k + 1) (step R P gs s) := by
  obtain ⟨j, hj, hlo, hhi, hst, hsl⟩ := h
  obtain ⟨hc, hs⟩ := step_cases (R := R) (P := P) gs s
  have hm := mid_eq hR hk hj
  rw [← hlo, ← hhi] at hm
  rw [hm] at hc
  rcases hc with ⟨h1, h2⟩ | ⟨h1, h2⟩
  · refine ⟨2 * j + 1, by rw [pow_succ]; omega, h1, ?_, by omega, step_slots_length gs s hsl⟩
    rw [h2, hhi, grid_left]; rfl
  · refine ⟨2 * j, by rw [pow_succ]; omega, ?_, h2, by omega, step_slots_length gs s hsl⟩
    rw [h1, hlo, grid_left]

theorem loop_cond (hR : Rounding R) (ht : P.tol = R (1 / 100)) (gs : List Gal) {k : ℕ} (hk : k ≤ 17) (s : St) (h : Inv gs k s) :
    lt (mul R (fin 2) P.tol) (abs (sub R s.hi s.lo)) = true ↔ k < 17 := by
  obtain ⟨j, hj, hlo, hhi, hst, hsl⟩ := h
  obtain ⟨d, hd, h1, h2⟩ := tol_range hR ht
  rw [hd, hlo, hhi, width_eq hR hk]
  simp only [lt, decide_eq_true_eq]
  constructor
  · intro hlt
    by_contra hc
    have : k = 17 := by omega
    subst this
    norm_num at hlt; linarith
  · intro hlt
    have : (3999 : ℚ) / 2 ^ 17 ≤ 3999 / 2 ^ (k + 1) :=
      div_le_div_of_nonneg_left (by norm_num) (by positivity) (pow_le_pow_right₀ (by norm_num) (by omega))
    norm_num at this; linarith

/-- `n` steps. -/
def steps (R : ℚ → XF) (P : Par) (gs : List Gal) : ℕ → St → St
  | 0, s => s
  | n + 1, s => steps R P gs n (step R P gs s)

theorem loop_eq (hR : Rounding R) (ht : P.tol = R (1 / 100)) (gs : List Gal) (n k fuel : ℕ) (hn : k + n = 17) (hf : n ≤ fuel) (s : St)
    (h : Inv gs k s) : loop R P gs fuel s = some (steps R P gs n s) := by
  induction n generalizing k fuel s with
  | zero =>
    have hc : ¬ lt (mul R (fin 2) P.tol) (abs (sub R s.hi s.lo)) = true := by
      rw [loop_cond hR ht gs (by omega) s h]; omega
    unfold loop; rw [if_neg hc]; rfl
  | succ n ih =>
    have hc : lt (mul R (fin 2) P.tol) (abs (sub R s.hi s.lo)) = true := by
      rw [loop_cond hR ht gs (by omega) s h]; omega
    cases fuel with
    | zero => omega
    | succ fuel =>
      unfold loop; rw [if_pos hc]
      exact ih (k + 1) fuel (by omega) (by omega) _ (inv_step hR gs (by omega) s h)

theorem loop_none (hR : Rounding R) (ht : P.tol = R (1 / 100)) (gs : List Gal) (fuel k : ℕ) (hn : k + fuel < 17) (s : St)
    (h : Inv gs k s) : loop R P gs fuel s = none := by
  induction fuel generalizing k s with
  | zero =>
    have hc : lt (mul R (fin 2) P.tol) (abs (sub R s.hi s.lo)) = true := by
      rw [loop_cond hR ht gs (by omega) s h]; omega
    unfold loop; rw [if_pos hc]
  | succ fuel ih =>
    have hc : lt (mul R (fin 2) P.tol) (abs (sub R s.hi s.lo)) = true := by
      rw [loop_cond hR ht gs (by omega) s h]; omega
    unfold loop; rw [if_pos hc]
    exact ih (k + 1) (by omega) _ (inv_step hR gs (by omega) s h)

/-- Induction over the 17 steps for any property that a step keeps. -/
theorem steps_ind (hR : Rounding R) (gs : List Gal) (Q : ℕ → St → Prop)
    (hstep : ∀ k s, k < 17 → Inv gs k s → Q k s → Q (k + 1) (step R P gs s)) (n k : ℕ) (hn : k + n ≤ 17) (s : St)
    (h : Inv gs k s) (hq : Q k s) : Inv gs (k + n) (steps R P gs n s) ∧ Q (k + n) (steps R P gs n s) := by
  induction n generalizing k s with
  | zero => exact ⟨h, hq⟩
  | succ n ih =>
    have := ih (k + 1) (by omega) _ (inv_step (P := P) hR gs (by omega) s h) (hstep k s (by omega) h hq)
    rwa [show k + 1 + n = k + (n + 1) by omega] at this

/-- The result is the end of the search after 17 steps. -/
theorem solve_eq (hR : Rounding R) (ht : P.tol = R (1 / 100)) (gs : List Gal) (fuel : ℕ) (res : Res)
    (h : solveFuel R P gs fuel = some res) : 17 ≤ fuel ∧ res = finish R P gs (steps R P gs 17 (init gs)) := by
  unfold solveFuel at h
  by_cases hf : 17 ≤ fuel
  · rw [loop_eq hR ht gs 17 0 fuel rfl hf _ (inv_init gs)] at h
    exact ⟨hf, by simpa using h.symm⟩
  · rw [loop_none hR ht gs fuel 0 (by omega) _ (inv_init gs)] at h
    simp at h

theorem finish_cases (hR : Rounding R) (gs : List Gal) (s : St) (h : Inv gs 17 s) :
    ∃ j, j < 2 ^ 17 ∧ s.lo = fin (grid 17 j) ∧ s.hi = fin (grid 17 (j + 1)) ∧ (finish R P gs s).steps = 17 ∧
      (grid 18 (2 * j + 1) < 1 ∧ (finish R P gs s).lambda = fin (-1) ∧ (finish R P gs s).rlambda = fin (-1) ∨
        1 ≤ grid 18 (2 * j + 1) ∧ (finish R P gs s).lambda = fin (grid 18 (2 * j + 1)) ∧
          (finish R P gs s).rlambda = P.rlam (fin (grid 18 (2 * j + 1)))) := by
  obtain ⟨j, hj, hlo, hhi, hst, hsl⟩ := h
  refine ⟨j, hj, hlo, hhi, ?_⟩
  have hm := mid_eq' hR (k := 17) le_rfl hj
  rw [← hlo, ← hhi] at hm
  unfold finish
  simp only [hm, lt, decide_eq_true_eq]
  split_ifs with h1
  · exact ⟨hst, Or.inl ⟨h1, rfl, rfl⟩⟩
  · exact ⟨hst, Or.inr ⟨not_lt.1 h1, rfl, rfl⟩⟩

theorem grid_lt {k j : ℕ} (hj : j < 2 ^ k) : grid k j < 2000 := by
  unfold grid
  have h1 : (j : ℚ) < 2 ^ k := by exact_mod_cast hj
  have h2 : (0 : ℚ) < 2 ^ k := by positivity
  have : (j : ℚ) * (3999 / 2 ^ (k + 1)) < 3999 / 2 := by
    rw [pow_succ, mul_div_assoc', div_lt_div_iff₀ (by positivity) (by norm_num)]
    nlinarith
  linarith

/-- C378: in floating point, whatever the numbers given (infinite or not a number included), the solver stops after exactly 17 steps, and reports
-1 with radius -1, or a number of [1, 2000) of the fixed grid 1/2 + (2j+1)·3999/2^19, with the radius of that number. -/
theorem C378 (hR : Rounding R) (ht : P.tol = R (1 / 100)) (gs : List Gal) (fuel : ℕ) :
    (fuel < 17 → solveFuel R P gs fuel = none) ∧
    (17 ≤ fuel → ∃ res, solveFuel R P gs fuel = some res ∧ res.steps = 17 ∧ res.slots.length = gs.length ∧
      (res.lambda = fin (-1) ∧ res.rlambda = fin (-1) ∨
        ∃ (j : ℕ) (q : ℚ), q = 1 / 2 + (2 * j + 1) * (3999 / 2 ^ 19) ∧ 1 ≤ q ∧ q < 2000 ∧ res.lambda = fin q ∧ res.rlambda = P.rlam (fin q))) := by
  constructor
  · intro hf
    unfold solveFuel
    rw [loop_none hR ht gs fuel 0 (by omega) _ (inv_init gs)]; rfl
  · intro hf
    have hl := loop_eq hR ht gs 17 0 fuel rfl hf _ (inv_init gs)
    have hinv := (steps_ind (P := P) hR gs (fun _ _ => True) (fun _ _ _ _ _ => trivial) 17 0 le_rfl _ (inv_init gs) trivial).1
    refine ⟨_, by unfold solveFuel; rw [hl]; rfl, ?_⟩
    obtain ⟨j, hj, -, -, hs, hc⟩ := finish_cases (P := P) hR gs _ hinv
    obtain ⟨_, _, _, _, _, hsl⟩ := hinv
    refine ⟨hs, ?_, ?_⟩
    · unfold finish; dsimp only
      split_ifs <;> exact weights_length R P _ false gs _ hsl
    · rcases hc with ⟨_, h1, h2⟩ | ⟨h0, h1, h2⟩
      · exact Or.inl ⟨h1, h2⟩
      · refine Or.inr ⟨j, grid 18 (2 * j + 1), by unfold grid; push_cast; norm_num, h0, grid_lt (by rw [show (18 : ℕ) = 17 + 1 from rfl, pow_succ]; omega), h1, h2⟩

/-! ## Memberships -/

/-- Not negative: a number at least 0, plus infinity, or not a number. -/
def NN (x : XF) : Prop := x = nan ∨ x = pinf ∨ ∃ q, 0 ≤ q ∧ x = fin q

/-- If finite, a double (not rounded again). -/
def Fix (R : ℚ → XF) (x : XF) : Prop := ∀ q, x = fin q → R q = fin q

theorem fix_R (hR : Rounding R) (a : ℚ) : Fix R (R a) := fun q h => hR.idem a q h

theorem fix_infSign (a : ℚ) : Fix R (infSign a) := by
  intro q h; unfold infSign at h; split_ifs at h

theorem fix_mul (hR : Rounding R) (x y : XF) : Fix R (mul R x y) := by
  cases x <;> cases y <;> simp only [mul] <;> first | exact fix_R hR _ | exact fix_infSign _ | (intro q h; cases h)

theorem fix_add (hR : Rounding R) (x y : XF) : Fix R (add R x y) := by
  cases x <;> cases y <;> simp only [add] <;> first | exact fix_R hR _ | (intro q h; cases h)

theorem nn_R (hR : Rounding R) {a : ℚ} (h : 0 ≤ a) : NN (R a) := by
  have m := hR.mono 0 a h
  rw [R0 hR] at m
  cases e : R a with
  | fin v => rw [e] at m; simp only [le, decide_eq_true_eq] at m; exact Or.inr (Or.inr ⟨v, m, rfl⟩)
  | pinf => exact Or.inr (Or.inl rfl)
  | ninf => rw [e] at m; simp [le] at m
  | nan => exact Or.inl rfl

theorem nn_infSign {a : ℚ} (h : 0 ≤ a) : NN (infSign a) := by
  unfold infSign
  split_ifs with h1 h2
  · exact Or.inr (Or.inl rfl)
  · exact absurd h2 (not_lt.2 h)
  · exact Or.inl rfl

theorem nn_mul (hR : Rounding R) {x y : XF} (hx : NN x) (hy : NN y) : NN (mul R x y) := by
  rcases hx with rfl | rfl | ⟨a, ha, rfl⟩ <;> rcases hy with rfl | rfl | ⟨b, hb, rfl⟩ <;> simp only [mul] <;>
    first
    | exact Or.inl rfl
    | exact Or.inr (Or.inl rfl)
    | exact nn_infSign ‹_›
    | exact nn_R hR (mul_nonneg ‹_› ‹_›)

theorem quot_unit (hR : Rounding R) {s b : XF} (hs : NN s) (hf : Fix R s) (hb : NN b) :
    ∃ v, (if finite (div R s (add R s b)) then div R s (add R s b) else fin 0) = fin v ∧ R v = fin v ∧ 0 ≤ v ∧ v ≤ 1 := by
  have zero : ∃ v, (fin 0 : XF) = fin v ∧ R v = fin v ∧ 0 ≤ v ∧ v ≤ 1 := ⟨0, rfl, R0 hR, le_rfl, zero_le_one⟩
  rcases hs with rfl | rfl | ⟨a, ha, rfl⟩
  · simp only [add, div, finite]; exact zero
  · rcases hb with rfl | rfl | ⟨b, hb, rfl⟩ <;> simp only [add, div, finite] <;> exact zero
  · rcases hb with rfl | rfl | ⟨b, hb, rfl⟩
    · simp only [add, div, finite]; exact zero
    · simp only [add, div, finite]; exact zero
    · have m := hR.mono a (a + b) (by linarith)
      rw [hf a rfl] at m
      have key : ∀ z, le (fin a) z = true →
          ∃ v, (if finite (div R (fin a) z) then div R (fin a) z else fin 0) = fin v ∧ R v = fin v ∧ 0 ≤ v ∧ v ≤ 1 := by
        intro z m
        cases z with
        | nan => simp [le] at m
        | pinf => simp only [div, finite]; exact zero
        | ninf => simp [le] at m
        | fin d =>
          simp only [le, decide_eq_true_eq] at m
          simp only [div]
          by_cases hd : d = 0
          · have : a = 0 := le_antisymm (by rw [← hd]; exact m) ha
            subst this
            simp only [hd, if_true, infSign, lt_irrefl, if_false, finite]
            exact zero
          · have hd' : 0 < d := lt_of_le_of_ne (ha.trans m) (Ne.symm hd)
            simp only [hd, if_false]
            obtain ⟨v, h1, h2, h3⟩ := between hR (R0 hR) (R1 hR) (q := a / d) (div_nonneg ha hd'.le) ((div_le_one hd').2 m)
            rw [h1]; simp only [finite, if_true]
            exact ⟨v, rfl, hR.idem _ _ h1, h2, h3⟩
      exact key (R (a + b)) m

theorem memb_unit (hR : Rounding R) (hn : ∀ y, NN (P.nfwnorm y)) {g : Gal} (hu : NN g.u) (hb : NN g.b) {q : ℚ} (hq : 0 ≤ q) :
    ∃ v, memb R P (fin q) g = fin v ∧ R v = fin v ∧ 0 ≤ v ∧ v ≤ 1 :=
  quot_unit hR (nn_mul hR (nn_mul hR (Or.inr (Or.inr ⟨q, hq, rfl⟩)) hu) (hn _)) (fix_mul hR _ _) hb

theorem memb_finite (x : XF) (g : Gal) : ∃ v, memb R P x g = fin v := by
  unfold memb; dsimp only
  split_ifs with h
  · cases e : div R (mul R (mul R x g.u) (P.nfwnorm (P.rlam x))) (add R (mul R (mul R x g.u) (P.nfwnorm (P.rlam x))) g.b) <;>
      rw [e] at h <;> simp [finite] at h
    exact ⟨_, rfl⟩
  · exact ⟨0, rfl⟩

/-- A product with a number of [0,1] stays in [0, p]. -/
theorem mul_unit (hR : Rounding R) {p w : ℚ} (hp : R p = fin p) (h0 : 0 ≤ p) (hw0 : 0 ≤ w) (hw1 : w ≤ 1) :
    ∃ v, mul R (fin p) (fin w) = fin v ∧ R v = fin v ∧ 0 ≤ v ∧ v ≤ p := by
  obtain ⟨v, h1, h2, h3⟩ := between hR (R0 hR) hp (q := p * w) (mul_nonneg h0 hw0) (mul_le_of_le_one_right h0 hw1)
  exact ⟨v, h1, hR.idem _ _ h1, h2, h3⟩

theorem grid_pos (k j : ℕ) : 0 < grid k j := by unfold grid; positivity

theorem mem_zipWith {α β γ : Type} (f : α → β → γ) (l : List α) (m : List β) (c : γ) (h : c ∈ List.zipWith f l m) :
    ∃ a ∈ l, ∃ b ∈ m, c = f a b := by
  induction l generalizing m with
  | nil => simp at h
  | cons a l ih =>
    cases m with
    | nil => simp at h
    | cons b m =>
      rw [List.zipWith_cons_cons, List.mem_cons] at h
      rcases h with rfl | h
      · exact ⟨a, by simp, b, by simp, rfl⟩
      · obtain ⟨a', ha, b', hb, e⟩ := ih m h
        exact ⟨a', by simp [ha], b', by simp [hb], e⟩

/-- Induction for a property of the returned slots. -/
theorem slots_ind (hR : Rounding R) (ht : P.tol = R (1 / 100)) (gs : List Gal) (fuel : ℕ) (res : Res) (h : solveFuel R P gs fuel = some res)
    (S : Slot → Prop) (h0 : S ⟨fin 0, fin 0, fin 0⟩)
    (hw : ∀ q, 0 < q → ∀ u, ∀ g ∈ gs, ∀ s, S s → S (weight1 R P (fin q) u g s)) : ∀ s ∈ res.slots, S s := by
  have all : ∀ q, 0 < q → ∀ u ss, (∀ s ∈ ss, S s) → ∀ s ∈ weights R P (fin q) u gs ss, S s := by
    intro q hq u ss hss s hs
    obtain ⟨g, hg, s', hs', rfl⟩ := mem_zipWith _ _ _ _ hs
    exact hw q hq u g hg s' (hss s' hs')
  have hres := (solve_eq hR ht gs fuel res h).2
  rw [hres]
  obtain ⟨hi, hq⟩ := steps_ind (P := P) hR gs (fun _ s => ∀ x ∈ s.slots, S x) (fun k s hk hinv hs => by
      obtain ⟨j, hj, hlo, hhi, -, -⟩ := hinv
      have hm := mid_eq hR (show k ≤ 17 by omega) hj
      rw [← hlo, ← hhi] at hm
      have key : ∀ x ∈ weights R P (div R (add R s.hi s.lo) (fin 2)) true gs
          (if lt s.outlo (fin 0) = true then weights R P s.lo true gs s.slots else s.slots), S x := by
        rw [hm]
        refine all _ (grid_pos _ _) true _ ?_
        split_ifs
        · rw [hlo]; exact all _ (grid_pos _ _) true _ hs
        · exact hs
      show ∀ x ∈ (step R P gs s).slots, S x
      unfold step; dsimp only
      split_ifs at key ⊢ <;> exact key) 17 0 (Nat.le_refl _) _ (inv_init gs) (by
      intro x hx
      simp only [init, List.mem_map] at hx
      obtain ⟨_, _, rfl⟩ := hx
      exact h0)
  simp only [Nat.zero_add] at hi hq
  generalize steps R P gs 17 (init gs) = s at hi hq
  obtain ⟨j, hj, hlo, hhi, -, -⟩ := hi
  have hm := mid_eq' hR (k := 17) le_rfl hj
  rw [← hlo, ← hhi] at hm
  have key := all _ (grid_pos 18 (2 * j + 1)) false _ hq
  rw [← hm] at key
  unfold finish; dsimp only
  split_ifs <;> exact key

/-- C379, memberships: in floating point every returned membership is a finite number of [0,1], for all galaxies with densities that are not
negative, be they infinite, not a number, or so large or small that the products overflow or vanish. -/
theorem C379_memberships (hR : Rounding R) (ht : P.tol = R (1 / 100)) (gs : List Gal) (fuel : ℕ) (res : Res)
    (h : solveFuel R P gs fuel = some res) (hn : ∀ y, NN (P.nfwnorm y)) (hg : ∀ g ∈ gs, NN g.u ∧ NN g.b) :
    ∀ s ∈ res.slots, ∃ p : ℚ, s.p = fin p ∧ 0 ≤ p ∧ p ≤ 1 := by
  refine slots_ind hR ht gs fuel res h _ ⟨0, rfl, le_rfl, zero_le_one⟩ ?_
  intro q hq u g hgm s ⟨p, hp, h0, h1⟩
  cases u with
  | true =>
    obtain ⟨v, hv, -, h2, h3⟩ := memb_unit (P := P) hR hn (hg g hgm).1 (hg g hgm).2 hq.le
    exact ⟨v, by rw [weight1_p, hv], h2, h3⟩
  | false =>
    refine ⟨p, ?_, h0, h1⟩
    unfold weight1; dsimp only
    simp only [hp, Bool.false_eq_true, if_false, finite, if_true]
    split_ifs <;> rfl

/-- Radius relation and soft step of a sane configuration: the radius of a richness is a number or infinite, the soft step lies in [0,1]. -/
structure SaneEdge (P : Par) : Prop where
  rlam : ∀ q, 0 < q → P.rlam (fin q) ≠ nan
  soft : ∀ y, y ≠ nan → ∃ t, P.soft y = fin t ∧ 0 ≤ t ∧ t ≤ 1

theorem edge_unit (hR : Rounding R) (hP : SaneEdge P) {g : Gal} {r : ℚ} (hr : g.r = fin r) {q : ℚ} (hq : 0 < q) :
    ∃ t, edge R P (fin q) g = fin t ∧ 0 ≤ t ∧ t ≤ 1 := by
  unfold edge
  split_ifs
  · exact ⟨1, rfl, zero_le_one, le_rfl⟩
  · exact ⟨0, rfl, le_rfl, zero_le_one⟩
  · refine hP.soft _ ?_
    rw [hr]
    have := hP.rlam q hq
    cases e : P.rlam (fin q) with
    | fin a => simp only [sub, neg, add]; exact hR.never_nan _
    | pinf => simp [sub, neg, add]
    | ninf => simp [sub, neg, add]
    | nan => exact absurd e this

theorem wtAt_unit (hR : Rounding R) (hn : ∀ y, NN (P.nfwnorm y)) {g : Gal} (hu : NN g.u) (hb : NN g.b)
    (hw : ∃ w, g.w = fin w ∧ 0 ≤ w ∧ w ≤ 1) (he : le P.rsig (fin 0) = true ∨ SaneEdge P ∧ ∃ r, g.r = fin r) {q : ℚ} (hq : 0 < q) :
    ∃ p v, memb R P (fin q) g = fin p ∧ wtAt R P (fin q) g = fin v ∧ 0 ≤ v ∧ v ≤ p ∧ p ≤ 1 := by
  obtain ⟨p, hp, hpf, h0, h1⟩ := memb_unit (P := P) hR hn hu hb hq.le
  obtain ⟨w, hw, hw0, hw1⟩ := hw
  obtain ⟨v, hv, hvf, hv0, hv1⟩ := mul_unit hR hpf h0 hw0 hw1
  refine ⟨p, ?_⟩
  unfold wtAt
  rw [hp, hw, hv]
  split_ifs with hc hc2
  · exact ⟨v, rfl, rfl, hv0, hv1, h1⟩
  · exact ⟨0, rfl, rfl, le_rfl, h0, h1⟩
  · rcases he with he | ⟨hP, r, hr⟩
    · exact absurd he hc
    · obtain ⟨t, ht, ht0, ht1⟩ := edge_unit hR hP hr hq
      rw [ht]
      obtain ⟨z, hz, -, hz0, hz1⟩ := mul_unit hR hvf hv0 ht0 ht1
      exact ⟨z, rfl, hz, hz0, hz1.trans hv1, h1⟩

/-- C379, weights: with availabilities in [0,1] and a hard edge, or a sane soft edge and finite radii, every returned weight is a finite number
between 0 and the membership. -/
theorem C379_weights (hR : Rounding R) (ht : P.tol = R (1 / 100)) (gs : List Gal) (fuel : ℕ) (res : Res)
    (h : solveFuel R P gs fuel = some res) (hn : ∀ y, NN (P.nfwnorm y))
    (hg : ∀ g ∈ gs, NN g.u ∧ NN g.b ∧ (∃ w, g.w = fin w ∧ 0 ≤ w ∧ w ≤ 1) ∧ (le P.rsig (fin 0) = true ∨ SaneEdge P ∧ ∃ r, g.r = fin r)) :
    ∀ s ∈ res.slots, ∃ p wt : ℚ, s.p = fin p ∧ s.wt = fin wt ∧ 0 ≤ wt ∧ wt ≤ p ∧ p ≤ 1 := by
  refine slots_ind hR ht gs fuel res h _ ⟨0, 0, rfl, rfl, le_rfl, le_rfl, zero_le_one⟩ ?_
  intro q hq u g hgm s ⟨p, wt, hp, hwt, h0, h1, h2⟩
  cases u with
  | true =>
    obtain ⟨a, b, c, d⟩ := hg g hgm
    obtain ⟨p', v, e1, e2, e3⟩ := wtAt_unit (P := P) hR hn a b c d hq
    exact ⟨p', v, by rw [weight1_p, e1], by rw [weight1_wt, e2], e3⟩
  | false =>
    unfold weight1; dsimp only
    simp only [hp, Bool.false_eq_true, if_false, finite, if_true]
    split_ifs <;> first | exact ⟨p, wt, rfl, hwt, h0, h1, h2⟩ | exact ⟨p, 0, rfl, rfl, le_rfl, h0.trans h1, h2⟩

/-! ## One step of the search -/

/-- The value kept for the lower end: at least 0.9 (unless it is not a number). -/
def clamp (R : ℚ → XF) (x : XF) : XF := if lt x (fin 1) then R (9 / 10) else x

theorem nine_tenths (hR : Rounding R) : ∃ v, R (9 / 10) = fin v ∧ 7 / 8 ≤ v ∧ v ≤ 15 / 16 := by
  have e1 := hR.exact 7 3 (by norm_num) (by norm_num)
  have e2 := hR.exact 15 4 (by norm_num) (by norm_num)
  norm_num at e1 e2
  exact between hR e1 e2 (by norm_num) (by norm_num)

theorem clamp_idem (hR : Rounding R) (x : XF) : clamp R (clamp R x) = clamp R x := by
  obtain ⟨v, hv, h1, h2⟩ := nine_tenths hR
  unfold clamp
  split_ifs with h h' <;> rfl

theorem clamp_not_neg (hR : Rounding R) (x : XF) : lt (clamp R x) (fin 0) = false := by
  obtain ⟨v, hv, h1, h2⟩ := nine_tenths hR
  unfold clamp
  split_ifs with h
  · rw [hv]; simp only [lt, decide_eq_false_iff_not]; linarith
  · cases x with
    | fin a => simp only [lt, decide_eq_true_eq, decide_eq_false_iff_not] at h ⊢; linarith
    | pinf => rfl
    | ninf => exact absurd rfl h
    | nan => rfl

/-- The test of a step. -/
def moves (R : ℚ → XF) (P : Par) (gs : List Gal) (lo mid : ℚ) : Bool :=
  lt (fin 0) (mul R (sub R (clamp R (predicted R P gs (fin lo))) (fin lo)) (sub R (predicted R P gs (fin mid)) (fin mid)))

/-- The remembered value of the lower end. -/
def Out (R : ℚ → XF) (P : Par) (gs : List Gal) (s : St) : Prop := s.outlo = fin (-1) ∨ s.outlo = clamp R (predicted R P gs s.lo)

theorem out_init (gs : List Gal) : Out R P gs (init gs) := Or.inl rfl

/-- One step, in words: the middle becomes the lower end if the test says so, otherwise the upper end. -/
theorem step_spec (hR : Rounding R) (gs : List Gal) {k j : ℕ} (hk : k ≤ 17) (hj : j < 2 ^ k) (s : St)
    (hlo : s.lo = fin (grid k j)) (hhi : s.hi = fin (grid k (j + 1))) (hsl : s.slots.length = gs.length) (ho : Out R P gs s) :
    Out R P gs (step R P gs s) ∧
    (moves R P gs (grid k j) (grid (k + 1) (2 * j + 1)) = true →
      (step R P gs s).lo = fin (grid (k + 1) (2 * j + 1)) ∧ (step R P gs s).hi = s.hi) ∧
    (moves R P gs (grid k j) (grid (k + 1) (2 * j + 1)) = false →
      (step R P gs s).lo = s.lo ∧ (step R P gs s).hi = fin (grid (k + 1) (2 * j + 1))) := by
  have hm := mid_eq hR hk hj
  rw [← hlo, ← hhi] at hm
  have hl1 : ∀ b : Bool, (if b then weights R P s.lo true gs s.slots else s.slots).length = gs.length := by
    intro b; cases b <;> simp [weights, hsl]
  have hclamp : ∀ y, (if lt y (fin 1) = true then R (9 / 10) else y) = clamp R y := fun _ => rfl
  have hout : clamp R (if lt s.outlo (fin 0) = true then outOf R P s.lo (if lt s.outlo (fin 0) = true then weights R P s.lo true gs s.slots else s.slots)
      else s.outlo) = clamp R (predicted R P gs s.lo) := by
    rcases ho with h | h
    · rw [h]
      have : lt (fin (-1)) (fin 0) = true := by simp [lt]
      rw [if_pos this, if_pos this, outOf_eq R P s.lo gs s.slots hsl]
    · rw [h, clamp_not_neg hR]
      simp only [Bool.false_eq_true, if_false]
      exact clamp_idem hR _
  unfold moves step Out
  dsimp only
  rw [hm, hclamp, hout, outOf_eq R P _ gs _ (hl1 _), ← hlo]
  generalize hT : lt (fin 0) (mul R (sub R (clamp R (predicted R P gs s.lo)) s.lo)
    (sub R (predicted R P gs (fin (grid (k + 1) (2 * j + 1)))) (fin (grid (k + 1) (2 * j + 1))))) = T
  cases T with
  | true => exact ⟨Or.inl rfl, fun _ => ⟨rfl, rfl⟩, fun h => absurd h (by simp)⟩
  | false => exact ⟨Or.inr rfl, fun h => absurd h (by simp), fun _ => ⟨rfl, rfl⟩⟩

/-! ## The test of a step decides signs correctly -/

theorem fix_clamp (hR : Rounding R) {x : XF} (h : Fix R x) : Fix R (clamp R x) := by
  unfold clamp; split_ifs
  · exact fix_R hR _
  · exact h

theorem fix_predicted (hR : Rounding R) (gs : List Gal) (x : XF) : Fix R (predicted R P gs x) := fix_add hR _ _

/-- Clearly positive, clearly negative. -/
def Pos (z : XF) : Prop := z = pinf ∨ ∃ d : ℚ, 1 / 2 ^ 60 ≤ d ∧ z = fin d
def Neg (z : XF) : Prop := z = ninf ∨ ∃ d : ℚ, d ≤ -(1 / 2 ^ 60) ∧ z = fin d

theorem tiny_exact (hR : Rounding R) : R (1 / 2 ^ 60) = fin (1 / 2 ^ 60) := by
  have := hR.exact 1 60 (by norm_num) (by norm_num); simpa using this

theorem tiny_exact_neg (hR : Rounding R) : R (-(1 / 2 ^ 60)) = fin (-(1 / 2 ^ 60)) := by
  have := hR.exact (-1) 60 (by norm_num) (by norm_num)
  rw [show ((-1 : ℤ) : ℚ) / 2 ^ 60 = -(1 / 2 ^ 60) by push_cast; ring] at this
  exact this

theorem pos_R (hR : Rounding R) {q : ℚ} (h : 1 / 2 ^ 60 ≤ q) : Pos (R q) := by
  have m := hR.mono _ q h
  rw [tiny_exact hR] at m
  cases e : R q with
  | fin v => rw [e] at m; simp only [le, decide_eq_true_eq] at m; exact Or.inr ⟨v, m, rfl⟩
  | pinf => exact Or.inl rfl
  | ninf => rw [e] at m; simp [le] at m
  | nan => exact absurd e (hR.never_nan _)

theorem neg_R (hR : Rounding R) {q : ℚ} (h : q ≤ -(1 / 2 ^ 60)) : Neg (R q) := by
  have m := hR.mono q _ h
  rw [tiny_exact_neg hR] at m
  cases e : R q with
  | fin v => rw [e] at m; simp only [le, decide_eq_true_eq] at m; exact Or.inr ⟨v, m, rfl⟩
  | ninf => exact Or.inl rfl
  | pinf => rw [e] at m; simp [le] at m
  | nan => exact absurd e (hR.never_nan _)

theorem sub_sign (hR : Rounding R) {x : XF} (hx : Fix R x) {a : ℚ} (ha : R a = fin a) (h2 : 1 / 2 ≤ a) :
    (lt (fin a) x = true ∧ lt x (fin a) = false ∧ Pos (sub R x (fin a))) ∨
    (lt (fin a) x = false ∧ lt x (fin a) = true ∧ Neg (sub R x (fin a))) ∨
    (lt (fin a) x = false ∧ lt x (fin a) = false ∧ (sub R x (fin a) = nan ∨ sub R x (fin a) = fin 0)) := by
  cases x with
  | nan => exact Or.inr (Or.inr ⟨rfl, rfl, Or.inl rfl⟩)
  | pinf => exact Or.inl ⟨rfl, rfl, Or.inl rfl⟩
  | ninf => exact Or.inr (Or.inl ⟨rfl, rfl, Or.inl rfl⟩)
  | fin v =>
    have hv := hx v rfl
    simp only [lt, decide_eq_true_eq, decide_eq_false_iff_not, sub, neg, add]
    have tiny : (1 : ℚ) / 2 ^ 60 ≤ 1 / 4 := by norm_num
    rcases lt_trichotomy a v with h | h | h
    · have := hR.gap a v ha hv (by linarith) h
      exact Or.inl ⟨h, not_lt.2 h.le, pos_R hR (by linarith)⟩
    · subst h
      refine Or.inr (Or.inr ⟨lt_irrefl _, lt_irrefl _, Or.inr ?_⟩)
      rw [add_neg_cancel]; exact R0 hR
    · refine Or.inr (Or.inl ⟨not_lt.2 h.le, h, neg_R hR ?_⟩)
      by_cases h4 : 1 / 4 ≤ v
      · have := hR.gap v a hv ha h4 h
        linarith
      · push Not at h4; linarith

theorem pos_mul (hR : Rounding R) {d : ℚ} (h : 1 / 2 ^ 120 ≤ d) : lt (fin 0) (R d) = true := by
  have e := hR.exact 1 120 (by norm_num) (by norm_num)
  have m := hR.mono _ d h
  rw [show ((1 : ℤ) : ℚ) / 2 ^ 120 = 1 / 2 ^ 120 by norm_num] at e
  rw [e] at m
  cases e2 : R d with
  | fin v =>
    rw [e2] at m; simp only [le, decide_eq_true_eq, lt] at m ⊢
    exact lt_of_lt_of_le (by positivity) m
  | pinf => rfl
  | ninf => rw [e2] at m; simp [le] at m
  | nan => exact absurd e2 (hR.never_nan _)

theorem neg_mul (hR : Rounding R) {d : ℚ} (h : d ≤ 0) : lt (fin 0) (R d) = false := by
  have m := hR.mono d 0 h
  rw [R0 hR] at m
  cases e2 : R d with
  | fin v => rw [e2] at m; simp only [le, decide_eq_true_eq, lt, decide_eq_false_iff_not] at m ⊢; exact not_lt.2 m
  | pinf => rw [e2] at m; simp [le] at m
  | ninf => rfl
  | nan => rfl

theorem tiny_pos : (0 : ℚ) < 1 / 2 ^ 60 := by positivity

theorem mul_sign (hR : Rounding R) {x y : XF} (hx : Pos x ∨ Neg x ∨ x = nan ∨ x = fin 0) (hy : Pos y ∨ Neg y ∨ y = nan ∨ y = fin 0) :
    lt (fin 0) (mul R x y) = true ↔ (Pos x ∧ Pos y ∨ Neg x ∧ Neg y) := by
  have tp := tiny_pos
  have t2 : (1 : ℚ) / 2 ^ 120 = 1 / 2 ^ 60 * (1 / 2 ^ 60) := by norm_num
  have np : ∀ z, Pos z → ¬ Neg z := by
    rintro z (rfl | ⟨d, hd, rfl⟩) (h | ⟨e, he, h⟩)
    · simp at h
    · simp at h
    · simp at h
    · simp only [fin.injEq] at h; linarith
  have z1 : ¬ Pos (fin 0) := by
    rintro (h | ⟨e, he, h⟩)
    · simp at h
    · simp only [fin.injEq] at h; linarith
  have z2 : ¬ Neg (fin 0) := by
    rintro (h | ⟨e, he, h⟩)
    · simp at h
    · simp only [fin.injEq] at h; linarith
  have n1 : ¬ Pos nan := by rintro (h | ⟨e, he, h⟩) <;> simp at h
  have n2 : ¬ Neg nan := by rintro (h | ⟨e, he, h⟩) <;> simp at h
  have sp : ∀ d : ℚ, 1 / 2 ^ 60 ≤ d → infSign d = pinf := fun d hd => by unfold infSign; rw [if_pos (by linarith)]
  have sn : ∀ d : ℚ, d ≤ -(1 / 2 ^ 60) → infSign d = ninf := fun d hd => by
    unfold infSign; rw [if_neg (by linarith), if_pos (by linarith)]
  have s0 : infSign 0 = nan := by simp [infSign]
  rcases hx with hx | hx | rfl | rfl <;> rcases hy with hy | hy | rfl | rfl
  · simp only [hx, hy, true_and, true_or, iff_true]
    rcases hx with rfl | ⟨d, hd, rfl⟩ <;> rcases hy with rfl | ⟨e, he, rfl⟩ <;> simp only [mul]
    · rfl
    · rw [sp e he]; rfl
    · rw [sp d hd]; rfl
    · exact pos_mul hR (by rw [t2]; exact mul_le_mul hd he tp.le (tp.le.trans hd))
  · simp only [hx, hy, np x hx, true_and, false_and, or_false]
    have : ¬ Pos y := fun h => np y h hy
    simp only [this, iff_false, Bool.not_eq_true]
    rcases hx with rfl | ⟨d, hd, rfl⟩ <;> rcases hy with rfl | ⟨e, he, rfl⟩ <;> simp only [mul]
    · rfl
    · rw [sn e he]; rfl
    · rw [sn (-d) (by linarith)]; rfl
    · exact neg_mul hR (mul_nonpos_of_nonneg_of_nonpos (by linarith) (by linarith))
  · simp only [n1, n2, and_false, or_self, iff_false, Bool.not_eq_true]
    rcases hx with rfl | ⟨d, hd, rfl⟩ <;> rfl
  · simp only [z1, z2, and_false, or_self, iff_false, Bool.not_eq_true]
    rcases hx with rfl | ⟨d, hd, rfl⟩ <;> simp only [mul]
    · rw [s0]; rfl
    · rw [mul_zero]; exact neg_mul hR le_rfl
  · have h1 : ¬ Pos x := fun h => np x h hx
    simp only [h1, np y hy, false_and, and_false, or_self, iff_false, Bool.not_eq_true]
    rcases hx with rfl | ⟨d, hd, rfl⟩ <;> rcases hy with rfl | ⟨e, he, rfl⟩ <;> simp only [mul]
    · rfl
    · rw [sn (-e) (by linarith)]; rfl
    · rw [sn d hd]; rfl
    · exact neg_mul hR (mul_nonpos_of_nonpos_of_nonneg (by linarith) (by linarith))
  · simp only [hx, hy, true_and, or_true, iff_true]
    rcases hx with rfl | ⟨d, hd, rfl⟩ <;> rcases hy with rfl | ⟨e, he, rfl⟩ <;> simp only [mul]
    · rfl
    · rw [sp (-e) (by linarith)]; rfl
    · rw [sp (-d) (by linarith)]; rfl
    · refine pos_mul hR ?_
      rw [t2, show d * e = -d * -e by ring]
      exact mul_le_mul (by linarith) (by linarith) tp.le (by linarith)
  · simp only [n1, n2, and_false, or_self, iff_false, Bool.not_eq_true]
    rcases hx with rfl | ⟨d, hd, rfl⟩ <;> rfl
  · simp only [z1, z2, and_false, or_self, iff_false, Bool.not_eq_true]
    rcases hx with rfl | ⟨d, hd, rfl⟩ <;> simp only [mul]
    · rw [neg_zero, s0]; rfl
    · rw [mul_zero]; exact neg_mul hR le_rfl
  · simp only [n1, n2, false_and, or_self, iff_false, Bool.not_eq_true]; rfl
  · simp only [n1, n2, false_and, or_self, iff_false, Bool.not_eq_true]; rfl
  · simp only [n1, n2, false_and, or_self, iff_false, Bool.not_eq_true]; rfl
  · simp only [n1, n2, false_and, or_self, iff_false, Bool.not_eq_true]; rfl
  · simp only [z1, z2, false_and, or_self, iff_false, Bool.not_eq_true]
    rcases hy with rfl | ⟨d, hd, rfl⟩ <;> simp only [mul]
    · rw [s0]; rfl
    · rw [zero_mul]; exact neg_mul hR le_rfl
  · simp only [z1, z2, false_and, or_self, iff_false, Bool.not_eq_true]
    rcases hy with rfl | ⟨d, hd, rfl⟩ <;> simp only [mul]
    · rw [neg_zero, s0]; rfl
    · rw [zero_mul]; exact neg_mul hR le_rfl
  · simp only [n1, n2, and_false, or_self, iff_false, Bool.not_eq_true]; rfl
  · simp only [z1, z2, and_false, or_self, iff_false, Bool.not_eq_true]
    simp only [mul, mul_zero]; exact neg_mul hR le_rfl

/-- The middle becomes the lower end iff both values lie on the same side of their trial richness. -/
theorem moves_iff (hR : Rounding R) (gs : List Gal) {a m : ℚ} (ha : R a = fin a) (ha2 : 1 / 2 ≤ a) (hm : R m = fin m) (hm2 : 1 / 2 ≤ m) :
    moves R P gs a m = true ↔
      (lt (fin a) (clamp R (predicted R P gs (fin a))) = true ∧ lt (fin m) (predicted R P gs (fin m)) = true ∨
        lt (clamp R (predicted R P gs (fin a))) (fin a) = true ∧ lt (predicted R P gs (fin m)) (fin m) = true) := by
  have np : ∀ z, Pos z → ¬ Neg z := by
    have tp := tiny_pos
    rintro z (rfl | ⟨d, hd, rfl⟩) (h | ⟨e, he, h⟩)
    · simp at h
    · simp at h
    · simp at h
    · simp only [fin.injEq] at h; linarith
  have nz : ∀ z, (z = nan ∨ z = fin 0) → ¬ Pos z ∧ ¬ Neg z := by
    have tp := tiny_pos
    rintro z (rfl | rfl) <;> constructor <;> rintro (h | ⟨e, he, h⟩) <;> simp only [fin.injEq, reduceCtorEq] at h <;> linarith
  have s1 := sub_sign hR (fix_clamp hR (fix_predicted (P := P) hR gs (fin a))) ha ha2
  have s2 := sub_sign hR (fix_predicted (P := P) hR gs (fin m)) hm hm2
  unfold moves
  rw [mul_sign hR (by tauto) (by tauto)]
  rcases s1 with ⟨a1, a2, a3⟩ | ⟨a1, a2, a3⟩ | ⟨a1, a2, a3⟩ <;> rcases s2 with ⟨b1, b2, b3⟩ | ⟨b1, b2, b3⟩ | ⟨b1, b2, b3⟩ <;>
    simp only [a1, a2, b1, b2, Bool.false_eq_true, and_false, false_and, or_false, false_or, and_self, and_true, true_and, iff_false,
      iff_true, or_self] <;>
    first
    | tauto
    | (have := np _ ‹_›; tauto)
    | (have n1 := nz _ a3; tauto)
    | (have n2 := nz _ b3; tauto)

/-! ## Values that are not a number -/

theorem grid_ge (k j : ℕ) : 1 / 2 ≤ grid k j := by
  have : (0 : ℚ) ≤ j * (3999 / 2 ^ (k + 1)) := by positivity
  unfold grid; linarith

theorem grid_zero (k : ℕ) : grid k 0 = 1 / 2 := by simp [grid]

theorem grid_eq_half {k j : ℕ} (h : grid k j = 1 / 2) : j = 0 := by
  unfold grid at h
  have h1 : (j : ℚ) * (3999 / 2 ^ (k + 1)) = 0 := by linarith
  rcases mul_eq_zero.1 h1 with h2 | h2
  · exact_mod_cast h2
  · have : (0 : ℚ) < 3999 / 2 ^ (k + 1) := by positivity
    linarith

/-- The end of the search: `s` is the final state. -/
theorem solve_state (hR : Rounding R) (ht : P.tol = R (1 / 100)) (gs : List Gal) (fuel : ℕ) (res : Res) (h : solveFuel R P gs fuel = some res)
    (Q : ℕ → St → Prop) (h0 : Q 0 (init gs)) (hstep : ∀ k s, k < 17 → Inv gs k s → Q k s → Q (k + 1) (step R P gs s)) :
    ∃ s, res = finish R P gs s ∧ Inv gs 17 s ∧ Q 17 s := by
  have hres := (solve_eq hR ht gs fuel res h).2
  obtain ⟨hi, hq⟩ := steps_ind (P := P) hR gs Q hstep 17 0 (Nat.le_refl _) _ (inv_init gs) h0
  rw [Nat.zero_add] at hi hq
  exact ⟨_, hres, hi, hq⟩

/-- C380, first trial: a predicted richness that is not a number at the first trial (1/2) is reported as "no richness". -/
theorem C380_start (hR : Rounding R) (ht : P.tol = R (1 / 100)) (gs : List Gal) (fuel : ℕ) (res : Res)
    (h : solveFuel R P gs fuel = some res) (hnan : predicted R P gs (fin (1 / 2)) = nan) :
    res.lambda = fin (-1) ∧ res.rlambda = fin (-1) := by
  obtain ⟨s, rfl, hi, hlo, -⟩ := solve_state hR ht gs fuel res h (fun _ s => s.lo = fin (1 / 2) ∧ Out R P gs s)
    ⟨rfl, out_init gs⟩ (fun k s hk hinv ⟨hl, ho⟩ => by
      obtain ⟨j, hj, hlo, hhi, -, hsl⟩ := hinv
      obtain ⟨o, -, m2⟩ := step_spec hR gs (show k ≤ 17 by omega) hj s hlo hhi hsl ho
      have hg : grid k j = 1 / 2 := by rw [hlo] at hl; simpa using hl
      have : moves R P gs (grid k j) (grid (k + 1) (2 * j + 1)) = false := by
        unfold moves; rw [hg, hnan]; rfl
      exact ⟨(m2 this).1.trans hl, o⟩)
  obtain ⟨j, hj, h1, -, -, hc⟩ := finish_cases (P := P) hR gs s hi
  have hj0 : j = 0 := grid_eq_half (k := 17) (by rw [hlo] at h1; simpa using h1.symm)
  subst hj0
  rcases hc with ⟨_, a, b⟩ | ⟨a, _⟩
  · exact ⟨a, b⟩
  · unfold grid at a; norm_num at a

theorem total_nan (l : List XF) (a : XF) (h : a = nan ∨ nan ∈ l) : l.foldl (add R) a = nan := by
  induction l generalizing a with
  | nil => rcases h with h | h; exact h; simp at h
  | cons x l ih =>
    rw [List.foldl_cons]
    refine ih _ ?_
    rcases h with rfl | h
    · exact Or.inl rfl
    · rcases List.mem_cons.1 h with rfl | h
      · left; cases a <;> rfl
      · exact Or.inr h

theorem add_nan_left (x : XF) : add R nan x = nan := by cases x <;> rfl
theorem mul_nan_right (x : XF) : mul R x nan = nan := by cases x <;> rfl
theorem mul_nan_left (x : XF) : mul R nan x = nan := by cases x <;> rfl

/-- C380, soft edge: one weight that is not a number, whatever the rest, and no richness is reported. -/
theorem C380_soft (hR : Rounding R) (ht : P.tol = R (1 / 100)) (gs : List Gal) (fuel : ℕ) (res : Res)
    (h : solveFuel R P gs fuel = some res) (hsoft : lt (fin 0) P.rsig = true) (hg : ∃ g ∈ gs, g.w = nan) :
    res.lambda = fin (-1) ∧ res.rlambda = fin (-1) := by
  refine C380_start hR ht gs fuel res h ?_
  obtain ⟨g, hg, hw⟩ := hg
  have hc : ¬ le P.rsig (fin 0) = true := by
    cases e : P.rsig with
    | fin a => rw [e] at hsoft; simp only [lt, le, decide_eq_true_eq] at hsoft ⊢; linarith
    | pinf => simp [le]
    | ninf => rw [e] at hsoft; simp [lt] at hsoft
    | nan => simp [le]
  have hwt : wtAt R P (fin (1 / 2)) g = nan := by
    unfold wtAt; rw [if_neg hc, hw, mul_nan_right, mul_nan_left]
  unfold predicted total
  rw [total_nan _ _ (Or.inr (List.mem_map.2 ⟨g, hg, hwt⟩)), add_nan_left]

theorem lt_ne_nan_right {x y : XF} (h : lt x y = true) : y ≠ nan := by
  rintro rfl; cases x <;> simp [lt] at h
theorem lt_ne_nan_left {x y : XF} (h : lt x y = true) : x ≠ nan := by
  rintro rfl; simp [lt] at h

/-- C380, reported richness: the predicted richness at the lower end of the final bracket is a number or infinite. -/
theorem C380_reported (hR : Rounding R) (ht : P.tol = R (1 / 100)) (gs : List Gal) (fuel : ℕ) (res : Res)
    (h : solveFuel R P gs fuel = some res) (q : ℚ) (hq : res.lambda = fin q) (h1 : 1 ≤ q) :
    predicted R P gs (fin (q - 3999 / 2 ^ 19)) ≠ nan := by
  obtain ⟨s, rfl, hi, hlo, -⟩ := solve_state hR ht gs fuel res h (fun _ s => (s.lo = fin (1 / 2) ∨ predicted R P gs s.lo ≠ nan) ∧ Out R P gs s)
    ⟨Or.inl rfl, out_init gs⟩ (fun k s hk hinv ⟨hl, ho⟩ => by
      obtain ⟨j, hj, hlo, hhi, -, hsl⟩ := hinv
      obtain ⟨o, m1, m2⟩ := step_spec hR gs (show k ≤ 17 by omega) hj s hlo hhi hsl ho
      refine ⟨?_, o⟩
      cases hm : moves R P gs (grid k j) (grid (k + 1) (2 * j + 1)) with
      | false => rw [(m2 hm).1]; exact hl
      | true =>
        right
        rw [(m1 hm).1]
        have := (moves_iff hR gs (grid_exact hR (by omega) hj.le) (grid_ge _ _)
          (grid_exact hR (by omega) (by rw [pow_succ]; omega)) (grid_ge _ _)).1 hm
        rcases this with ⟨_, h⟩ | ⟨_, h⟩
        · exact lt_ne_nan_right h
        · exact lt_ne_nan_left h)
  obtain ⟨j, hj, hl, -, -, hc⟩ := finish_cases (P := P) hR gs s hi
  rcases hc with ⟨_, a, _⟩ | ⟨_, a, _⟩
  · rw [a] at hq; simp only [fin.injEq] at hq; linarith
  · rw [a] at hq; simp only [fin.injEq] at hq
    have e : grid 17 j = q - 3999 / 2 ^ 19 := by
      rw [← hq]; unfold grid; push_cast; ring
    rw [← e]
    rcases hlo with h' | h'
    · rw [hl] at h'; simp only [fin.injEq] at h'
      have := grid_eq_half h'
      subst this
      exfalso
      rw [← hq] at h1
      unfold grid at h1; norm_num at h1
    · rw [← hl]; exact h'

/-! ## The bracket -/

theorem wide_lo {k j : ℕ} (hi : 2 < grid k (j + 1)) (lo : grid k j < 1) : j = 0 := by
  have hd := grid_diff k j
  by_contra hj
  have hj1 : (1 : ℚ) ≤ j := by exact_mod_cast Nat.one_le_iff_ne_zero.2 hj
  have hp : (0 : ℚ) < 3999 / 2 ^ (k + 1) := by positivity
  have : 3999 / 2 ^ (k + 1) ≤ (j : ℚ) * (3999 / 2 ^ (k + 1)) := le_mul_of_one_le_left hp.le hj1
  have lo2 := lo
  unfold grid at lo2
  linarith

theorem clamp_above (hR : Rounding R) {a : ℚ} {x : XF} (h1 : 1 ≤ a) (h : lt (fin a) x = true) : lt (fin a) (clamp R x) = true := by
  unfold clamp
  split_ifs with hc
  · exfalso
    cases x with
    | fin v => simp only [lt, decide_eq_true_eq] at h hc; linarith
    | pinf => simp [lt] at hc
    | ninf => simp [lt] at h
    | nan => simp [lt] at h
  · exact h

theorem clamp_half (hR : Rounding R) {x : XF} (h : x ≠ nan) : lt (fin (1 / 2)) (clamp R x) = true := by
  obtain ⟨v, hv, h1, h2⟩ := nine_tenths hR
  unfold clamp
  split_ifs with hc
  · rw [hv]; simp only [lt, decide_eq_true_eq]; linarith
  · cases x with
    | fin a => simp only [lt, decide_eq_true_eq] at hc ⊢; linarith
    | pinf => rfl
    | ninf => simp [lt] at hc
    | nan => exact absurd rfl h

theorem lt_asymm' {x y : XF} (h : lt x y = true) : ¬ lt y x = true := by
  cases x <;> cases y <;> simp only [lt, decide_eq_true_eq, Bool.false_eq_true, not_false_eq_true] at h ⊢
  exact not_lt.2 h.le

/-- C382: in floating point, for a reported richness of at least 2, the predicted richness exceeds the trial richness at the lower end of an
interval of half-width 3999/2^19 (less than 0.0077) around it, and does not exceed it at the upper end (or the upper end is 2000). -/
theorem C382 (hR : Rounding R) (ht : P.tol = R (1 / 100)) (gs : List Gal) (fuel : ℕ) (res : Res)
    (h : solveFuel R P gs fuel = some res) (q : ℚ) (hq : res.lambda = fin q) (h2 : 2 ≤ q) :
    lt (fin (q - 3999 / 2 ^ 19)) (predicted R P gs (fin (q - 3999 / 2 ^ 19))) = true ∧
    (q + 3999 / 2 ^ 19 = 2000 ∨ lt (fin (q + 3999 / 2 ^ 19)) (predicted R P gs (fin (q + 3999 / 2 ^ 19))) = false) := by
  have hstart : predicted R P gs (fin (1 / 2)) ≠ nan := by
    intro hn
    have := (C380_start hR ht gs fuel res h hn).1
    rw [this] at hq; simp only [fin.injEq] at hq; linarith
  obtain ⟨s, rfl, hi, hb, -⟩ := solve_state hR ht gs fuel res h
    (fun _ s => ((∃ b, s.hi = fin b ∧ b ≤ 2) ∨
      ((s.lo = fin (1 / 2) ∨ lt s.lo (predicted R P gs s.lo) = true) ∧ (s.hi = fin 2000 ∨ lt s.hi (predicted R P gs s.hi) = false))) ∧ Out R P gs s)
    ⟨Or.inr ⟨Or.inl rfl, Or.inl rfl⟩, out_init gs⟩ (fun k s hk hinv ⟨hl, ho⟩ => by
      obtain ⟨j, hj, hlo, hhi, -, hsl⟩ := hinv
      obtain ⟨o, m1, m2⟩ := step_spec hR gs (show k ≤ 17 by omega) hj s hlo hhi hsl ho
      refine ⟨?_, o⟩
      have hmid : grid (k + 1) (2 * j + 1) ≤ grid k (j + 1) := by
        rw [← grid_half]
        have := grid_diff k j
        have hp : (0 : ℚ) < 3999 / 2 ^ (k + 1) := by positivity
        linarith
      by_cases hw : grid k (j + 1) ≤ 2
      · left
        cases hm : moves R P gs (grid k j) (grid (k + 1) (2 * j + 1)) with
        | false => exact ⟨_, (m2 hm).2, hmid.trans hw⟩
        | true => exact ⟨_, (m1 hm).2.trans hhi, hw⟩
      · push Not at hw
        have hB : (s.lo = fin (1 / 2) ∨ lt s.lo (predicted R P gs s.lo) = true) ∧ (s.hi = fin 2000 ∨ lt s.hi (predicted R P gs s.hi) = false) := by
          rcases hl with ⟨b, hb, hb2⟩ | hl
          · rw [hhi] at hb; simp only [fin.injEq] at hb; linarith
          · exact hl
        have habove : lt (fin (grid k j)) (clamp R (predicted R P gs (fin (grid k j)))) = true := by
          by_cases h1 : grid k j < 1
          · have := wide_lo hw h1
            subst this
            rw [grid_zero]; exact clamp_half hR hstart
          · push Not at h1
            rcases hB.1 with h' | h'
            · rw [hlo] at h'; simp only [fin.injEq] at h'; linarith
            · rw [hlo] at h'; exact clamp_above hR h1 h'
        have hiff : moves R P gs (grid k j) (grid (k + 1) (2 * j + 1)) = true ↔
            lt (fin (grid (k + 1) (2 * j + 1))) (predicted R P gs (fin (grid (k + 1) (2 * j + 1)))) = true := by
          rw [moves_iff hR gs (grid_exact hR (by omega) hj.le) (grid_ge _ _) (grid_exact hR (by omega) (by rw [pow_succ]; omega)) (grid_ge _ _)]
          simp only [habove, true_and, lt_asymm' habove, Bool.false_eq_true, false_and, or_false]
        right
        cases hm : moves R P gs (grid k j) (grid (k + 1) (2 * j + 1)) with
        | false =>
          obtain ⟨e1, e2⟩ := m2 hm
          rw [e1, e2]
          refine ⟨hB.1, Or.inr ?_⟩
          rw [hm] at hiff
          cases hh : lt (fin (grid (k + 1) (2 * j + 1))) (predicted R P gs (fin (grid (k + 1) (2 * j + 1)))) with
          | false => rfl
          | true => exact absurd (hiff.2 hh) (by simp)
        | true =>
          obtain ⟨e1, e2⟩ := m1 hm
          rw [e1, e2]
          exact ⟨Or.inr (hiff.1 hm), hB.2⟩)
  obtain ⟨j, hj, hl, hh, -, hc⟩ := finish_cases (P := P) hR gs s hi
  rcases hc with ⟨_, a, _⟩ | ⟨_, a, _⟩
  · rw [a] at hq; simp only [fin.injEq] at hq; linarith
  · rw [a] at hq; simp only [fin.injEq] at hq
    have e : grid 17 j = q - 3999 / 2 ^ 19 := by
      rw [← hq]; unfold grid; push_cast; ring
    have e' : grid 17 (j + 1) = q + 3999 / 2 ^ 19 := by
      rw [← hq]; unfold grid; push_cast; ring
    have hp : (0 : ℚ) < 3999 / 2 ^ 19 := by positivity
    rcases hb with ⟨b, hb, hb2⟩ | ⟨hb1, hb2⟩
    · rw [hh, e'] at hb; simp only [fin.injEq] at hb; linarith
    · rw [hl, e] at hb1
      rw [hh, e'] at hb2
      refine ⟨?_, ?_⟩
      · rcases hb1 with h' | h'
        · simp only [fin.injEq] at h'
          have : (3999 : ℚ) / 2 ^ 19 < 1 := by norm_num
          linarith
        · exact h'
      · rcases hb2 with h' | h'
        · simp only [fin.injEq] at h'; exact Or.inl h'
        · exact Or.inr h'

/-! ## The search sees the galaxies only through the predicted richness -/

/-- Two searches with the same predicted richness at all trials go through the same brackets. -/
theorem same_path (hR : Rounding R) (gs gs' : List Gal) (hp : ∀ q, 1 / 2 ≤ q → q ≤ 2000 → predicted R P gs (fin q) = predicted R P gs' (fin q)) (n k : ℕ)
    (hn : k + n ≤ 17) (s s' : St) (h : Inv gs k s) (h' : Inv gs' k s') (hl : s.lo = s'.lo) (hh : s.hi = s'.hi)
    (ho : Out R P gs s) (ho' : Out R P gs' s') :
    (steps R P gs n s).lo = (steps R P gs' n s').lo ∧ (steps R P gs n s).hi = (steps R P gs' n s').hi := by
  induction n generalizing k s s' with
  | zero => exact ⟨hl, hh⟩
  | succ n ih =>
    obtain ⟨j, hj, hlo, hhi, hst, hsl⟩ := h
    have hsl' : s'.slots.length = gs'.length := by obtain ⟨_, _, _, _, _, x⟩ := h'; exact x
    obtain ⟨o, m1, m2⟩ := step_spec hR gs (show k ≤ 17 by omega) hj s hlo hhi hsl ho
    obtain ⟨o', m1', m2'⟩ := step_spec hR gs' (show k ≤ 17 by omega) hj s' (hl ▸ hlo) (hh ▸ hhi) hsl' ho'
    have hm : moves R P gs (grid k j) (grid (k + 1) (2 * j + 1)) = moves R P gs' (grid k j) (grid (k + 1) (2 * j + 1)) := by
      unfold moves
      rw [hp _ (grid_ge _ _) (grid_lt hj).le, hp _ (grid_ge _ _) (grid_lt (by rw [pow_succ]; omega)).le]
    refine ih (k + 1) (by omega) _ _ (inv_step hR gs (by omega) s ⟨j, hj, hlo, hhi, hst, hsl⟩) (inv_step hR gs' (by omega) s' h') ?_ ?_ o o'
    · cases hc : moves R P gs (grid k j) (grid (k + 1) (2 * j + 1)) with
      | true => rw [(m1 hc).1, (m1' (hm ▸ hc)).1]
      | false => rw [(m2 hc).1, (m2' (hm ▸ hc)).1, hl]
    · cases hc : moves R P gs (grid k j) (grid (k + 1) (2 * j + 1)) with
      | true => rw [(m1 hc).2, (m1' (hm ▸ hc)).2, hh]
      | false => rw [(m2 hc).2, (m2' (hm ▸ hc)).2]

theorem same_result (hR : Rounding R) (ht : P.tol = R (1 / 100)) (gs gs' : List Gal)
    (hp : ∀ q, 1 / 2 ≤ q → q ≤ 2000 → predicted R P gs (fin q) = predicted R P gs' (fin q)) (fuel : ℕ) (res res' : Res)
    (h : solveFuel R P gs fuel = some res) (h' : solveFuel R P gs' fuel = some res') :
    res.lambda = res'.lambda ∧ res.rlambda = res'.rlambda := by
  have e := (solve_eq hR ht gs fuel res h).2
  have e' := (solve_eq hR ht gs' fuel res' h').2
  obtain ⟨hl, hh⟩ := same_path hR gs gs' hp 17 0 (Nat.le_refl _) _ _ (inv_init gs) (inv_init gs') rfl rfl (out_init gs) (out_init gs')
  rw [e, e']
  generalize steps R P gs 17 (init gs) = s at hl hh
  generalize steps R P gs' 17 (init gs') = s' at hl hh
  unfold finish; dsimp only
  rw [hl, hh]
  split_ifs <;> exact ⟨rfl, rfl⟩

theorem add_zero_right (hR : Rounding R) {a : XF} (h : Fix R a) : add R a (fin 0) = a := by
  cases a with
  | fin v => simp only [add, add_zero]; exact h v rfl
  | pinf => rfl
  | ninf => rfl
  | nan => rfl

theorem total_filter (hR : Rounding R) (f : Gal → XF) (keep : Gal → Bool) (gs : List Gal) (h : ∀ g ∈ gs, keep g = false → f g = fin 0) (a : XF)
    (ha : Fix R a) : (gs.map f).foldl (add R) a = ((gs.filter keep).map f).foldl (add R) a := by
  induction gs generalizing a with
  | nil => rfl
  | cons g gs ih =>
    have ih' := ih (fun g' hg' => h g' (List.mem_cons_of_mem _ hg'))
    cases hk : keep g with
    | true =>
      rw [List.filter_cons, if_pos hk]
      exact ih' _ (fix_add hR _ _)
    | false =>
      rw [List.filter_cons, if_neg (by simp [hk]), List.map_cons, List.foldl_cons, h g (by simp) hk, add_zero_right hR ha]
      exact ih' a ha

theorem wtAt_zero (hR : Rounding R) {g : Gal} (hw : g.w = fin 0) (he : le P.rsig (fin 0) = true ∨ SaneEdge P ∧ ∃ r, g.r = fin r) {q : ℚ}
    (hq : 0 < q) : wtAt R P (fin q) g = fin 0 := by
  obtain ⟨v, hv⟩ := memb_finite (R := R) (P := P) (fin q) g
  unfold wtAt
  rw [hv, hw]
  simp only [mul, mul_zero, R0 hR]
  split_ifs with hc hc2
  · rfl
  · rfl
  · rcases he with he | ⟨hP, r, hr⟩
    · exact absurd he hc
    · obtain ⟨t, ht, -, -⟩ := edge_unit hR hP hr hq
      rw [ht]; simp only [mul, zero_mul]; exact R0 hR

/-- C381: dropping galaxies whose availability is 0 leaves the richness and its radius the same, digit by digit, in floating point (with a hard edge, or
a sane soft edge and finite radii). -/
theorem C381 (hR : Rounding R) (ht : P.tol = R (1 / 100)) (gs : List Gal) (keep : Gal → Bool)
    (hk : ∀ g ∈ gs, keep g = false → g.w = fin 0 ∧ (le P.rsig (fin 0) = true ∨ SaneEdge P ∧ ∃ r, g.r = fin r)) (fuel : ℕ) (res res' : Res)
    (h : solveFuel R P gs fuel = some res) (h' : solveFuel R P (gs.filter keep) fuel = some res') :
    res.lambda = res'.lambda ∧ res.rlambda = res'.rlambda := by
  refine same_result hR ht gs _ ?_ fuel res res' h h'
  intro q hq2 _
  have hq : 0 < q := by linarith
  unfold predicted total
  rw [total_filter hR (wtAt R P (fin q)) keep gs (fun g hg hkg => wtAt_zero hR (hk g hg hkg).1 (hk g hg hkg).2 hq) _
    (fun v hv => by cases hv; exact R0 hR)]

/-! ## The order of the galaxies -/

/-- Sums of multiples of 2^-30 that are small enough are exact. -/
theorem total_exact (hR : Rounding R) (l : List ℕ) (a : ℕ) (h : a + l.sum ≤ 2 ^ 53) :
    (l.map fun n : ℕ => fin ((n : ℚ) / 2 ^ 30)).foldl (add R) (fin ((a : ℚ) / 2 ^ 30)) = fin (((a + l.sum : ℕ) : ℚ) / 2 ^ 30) := by
  induction l generalizing a with
  | nil => simp
  | cons n l ih =>
    rw [List.sum_cons] at h ⊢
    rw [List.map_cons, List.foldl_cons]
    have e : add R (fin ((a : ℚ) / 2 ^ 30)) (fin ((n : ℚ) / 2 ^ 30)) = fin (((a + n : ℕ) : ℚ) / 2 ^ 30) := by
      simp only [add]
      rw [← add_div]
      have := hR.exact ((a + n : ℕ) : ℤ) 30 (by rw [abs_of_nonneg (by positivity)]; exact_mod_cast (by omega : a + n ≤ 2 ^ 53)) (by norm_num)
      push_cast at this ⊢
      exact this
    rw [e, ih (a + n) (by omega), add_assoc]

/-- C383, the part that holds: if at every trial the weights are multiples of 2^-30 (and their sum is at most 2^23), the order of the galaxies does
not change the richness. -/
theorem C383_partial (hR : Rounding R) (ht : P.tol = R (1 / 100)) (gs gs' : List Gal) (hp : gs.Perm gs') (num : ℚ → Gal → ℕ)
    (hnum : ∀ q, 1 / 2 ≤ q → q ≤ 2000 → ∀ g ∈ gs, wtAt R P (fin q) g = fin ((num q g : ℚ) / 2 ^ 30)) (hsum : ∀ q, (gs.map (num q)).sum ≤ 2 ^ 53)
    (fuel : ℕ) (res res' : Res) (h : solveFuel R P gs fuel = some res) (h' : solveFuel R P gs' fuel = some res') :
    res.lambda = res'.lambda ∧ res.rlambda = res'.rlambda := by
  refine same_result hR ht gs gs' ?_ fuel res res' h h'
  intro q hq hq2
  have aux : ∀ l : List Gal, (∀ g ∈ l, wtAt R P (fin q) g = fin ((num q g : ℚ) / 2 ^ 30)) → (l.map (num q)).sum ≤ 2 ^ 53 →
      total R (l.map (wtAt R P (fin q))) = fin (((l.map (num q)).sum : ℚ) / 2 ^ 30) := by
    intro l hl hs
    have e : l.map (wtAt R P (fin q)) = (l.map (num q)).map fun n : ℕ => fin ((n : ℚ) / 2 ^ 30) := by
      rw [List.map_map]; exact List.map_congr_left hl
    unfold total
    rw [e]
    have := total_exact hR (l.map (num q)) 0 (by omega)
    simpa using this
  unfold predicted
  have hs' : (gs'.map (num q)).sum = (gs.map (num q)).sum := (hp.map (num q)).sum_eq.symm
  rw [aux gs (hnum q hq hq2) (hsum q), aux gs' (fun g hg => hnum q hq hq2 g (hp.mem_iff.2 hg)) (by rw [hs']; exact hsum q), hs']

/-! ## Examples -/

/-- Hard edge, unit radius, no mask correction. -/
def toyPar : Par :=
  { rlam := fun _ => fin 1, nfwnorm := fun _ => fin 1, soft := fun _ => fin 1, rsig := fin 0, c0 := fin 0, c1 := fin 0, c2 := fin 0, c3 := fin 0,
    tol := r64 (1 / 100) }

/-- A certain member at the center with availability `w`. -/
def sure (w : ℚ) : Gal := ⟨fin 1, fin 0, fin 0, fin w⟩

/-- Three galaxies whose weights add up to a trial richness, and two with a tiny weight. -/
def orderA : List Gal := [sure 1, sure 1, sure (927 / 2048), sure (3 / 2 ^ 54), sure (3 / 2 ^ 54)]
def orderB : List Gal := [sure (3 / 2 ^ 54), sure (3 / 2 ^ 54), sure 1, sure 1, sure (927 / 2048)]

/-- C383 in full is false: with IEEE 754 doubles, the same five galaxies in another order have another richness. -/
theorem C383_false : orderA.Perm orderB ∧ ∃ a b, solveFuel r64 toyPar orderA 17 = some a ∧ solveFuel r64 toyPar orderB 17 = some b ∧
    a.lambda ≠ b.lambda := by
  refine ⟨by decide +kernel, ?_⟩
  have : (do let a ← solveFuel r64 toyPar orderA 17
             let b ← solveFuel r64 toyPar orderB 17
             pure (decide (a.lambda ≠ b.lambda))) = some true := by decide +kernel
  cases ha : solveFuel r64 toyPar orderA 17 with
  | none => rw [ha] at this; simp at this
  | some a =>
    cases hb : solveFuel r64 toyPar orderB 17 with
    | none => rw [ha, hb] at this; simp at this
    | some b =>
      rw [ha, hb] at this
      exact ⟨a, b, rfl, rfl, by simpa using this⟩

/-- `C378`–`C382` apply to IEEE 754 doubles: five galaxies, one with an infinite background and one with a density that is not a number, have a richness
between 2 and 3. -/
def toyGals : List Gal := [sure 1, ⟨fin 1, pinf, fin 0, fin 1⟩, sure 1, ⟨nan, fin 1, fin 0, fin 1⟩, sure (1 / 3)]

example : (solveFuel r64 toyPar toyGals 17).map (fun r => (lt (fin 2) r.lambda, lt r.lambda (fin 3), r.slots.map (·.p))) =
    some (true, true, [fin 1, fin 0, fin 1, fin 0, fin 1]) := by decide +kernel

example : Rounding r64 ∧ toyPar.tol = r64 (1 / 100) ∧ (∀ y, NN (toyPar.nfwnorm y)) ∧ ∀ g ∈ toyGals, NN g.u ∧ NN g.b := by
  refine ⟨r64_rounding, rfl, fun _ => Or.inr (Or.inr ⟨1, by norm_num, rfl⟩), ?_⟩
  intro g hg
  simp only [toyGals, List.mem_cons, List.not_mem_nil, or_false] at hg
  have e0 : NN (fin 0) := Or.inr (Or.inr ⟨0, by norm_num, rfl⟩)
  have e1 : NN (fin 1) := Or.inr (Or.inr ⟨1, by norm_num, rfl⟩)
  rcases hg with rfl | rfl | rfl | rfl | rfl
  · exact ⟨e1, e0⟩
  · exact ⟨e1, Or.inr (Or.inl rfl)⟩
  · exact ⟨e1, e0⟩
  · exact ⟨Or.inl rfl, e1⟩
  · exact ⟨e1, e0⟩

/-- `C380_soft`: two certain members and a weight that is not a number. -/
example : (solveFuel r64 { toyPar with rsig := fin (1 / 20) } [sure 1, sure 1, ⟨fin 1, fin 0, fin 0, nan⟩] 17).map Res.lambda = some (fin (-1)) := by
  decide +kernel

/-- With a hard edge the galaxy may lie outside the radius and is then harmless. -/
example : (solveFuel r64 toyPar [sure 1, sure 1, ⟨fin 1, fin 0, fin 2, nan⟩] 17).map (fun r => lt (fin 1) r.lambda) = some true := by
  decide +kernel

/-- `C381`: galaxies without availability. -/
example : ∀ g ∈ [sure 1, sure 0, sure 1, sure (1 / 3), sure 0], (fun g : Gal => decide (g.w ≠ fin 0)) g = false →
    g.w = fin 0 ∧ (le toyPar.rsig (fin 0) = true ∨ SaneEdge toyPar ∧ ∃ r, g.r = fin r) := by
  intro g hg h
  exact ⟨by simpa using h, Or.inl (by simp [toyPar, le])⟩

theorem sure_memb (w q : ℚ) (hq : 1 / 2 ≤ q) (hq2 : q ≤ 2000) : memb r64 toyPar (fin q) (sure w) = fin 1 := by
  have e1 := r64_rounding.exact 1 1 (by norm_num) (by norm_num)
  have e2 := exact_int r64_rounding 2000 (by norm_num)
  norm_num at e1 e2
  obtain ⟨v, hv, h1, h2⟩ := between r64_rounding e1 e2 hq hq2
  have hvv := r64_rounding.idem _ _ hv
  unfold memb sure toyPar
  simp only [mul, mul_one, hv, hvv, add, add_zero, div, if_neg (show v ≠ 0 by linarith), div_self (show v ≠ 0 by linarith), R1 r64_rounding, finite,
    if_true]

/-- `C383_partial`: certain members of availability 1 and 1/2. -/
example : ∀ q, 1 / 2 ≤ q → q ≤ 2000 → ∀ g ∈ [sure 1, sure (1 / 2), sure 1],
    wtAt r64 toyPar (fin q) g = fin (((if g.w = fin 1 then 2 ^ 30 else 2 ^ 29 : ℕ) : ℚ) / 2 ^ 30) := by
  intro q hq hq2 g hg
  have hle : le toyPar.rsig (fin 0) = true := by simp [toyPar, le]
  have hlt : ∀ w, lt (sure w).r (toyPar.rlam (fin q)) = true := fun w => by simp [toyPar, sure, lt]
  have key : ∀ w, wtAt r64 toyPar (fin q) (sure w) = r64 w := fun w => by
    unfold wtAt
    rw [if_pos hle, if_pos (hlt w), sure_memb w q hq hq2]
    simp [mul, sure]
  have half := r64_rounding.exact 1 1 (by norm_num) (by norm_num)
  norm_num at half
  simp only [List.mem_cons, List.not_mem_nil, or_false] at hg
  rcases hg with rfl | rfl | rfl
  · rw [key, R1 r64_rounding]; norm_num [sure]
  · rw [key, half]; norm_num [sure]
  · rw [key, R1 r64_rounding]; norm_num [sure]

end Redmapper.FlSolver
