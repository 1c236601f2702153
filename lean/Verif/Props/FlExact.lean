/-
The richness solver in floating point (`FlSolver`) against the solver in exact arithmetic (`Solver`).
-/
import Verif.Props.FlSolver
import Verif.Props.Solver

set_option linter.unusedSectionVars false
set_option linter.unusedVariables false
set_option linter.unusedSimpArgs false

namespace Redmapper.FlExact

open Redmapper.FlSolver
open Redmapper.FlSolver.XF

variable {R : ℚ → XF} {P : FlSolver.Par}

/-- The trial richnesses of the search: the points of the finest grid below 2000. -/
def Trial (q : ℚ) : Prop := ∃ j : ℕ, q = 1 / 2 + j * (3999 / 2 ^ 18) ∧ q < 2000

/-- The computed value `x` and the exact value `y` lie on the same side of the trial richness `q`, and of 1. -/
def Agree (x : XF) (y q : ℚ) : Prop :=
  (lt (fin q) x = true ↔ q < y) ∧ (lt x (fin q) = true ↔ y < q) ∧ (lt x (fin 1) = true ↔ y < 1)

theorem grid_fine {k j : ℕ} (hk : k ≤ 17) : grid k j = 1 / 2 + ((j * 2 ^ (17 - k) : ℕ) : ℚ) * (3999 / 2 ^ 18) := by
  unfold grid
  have e : (2 : ℚ) ^ 18 = 2 ^ (k + 1) * 2 ^ (17 - k) := by rw [← pow_add]; congr 1; omega
  rw [e]
  have h1 : (2 : ℚ) ^ (k + 1) ≠ 0 := by positivity
  have h2 : (2 : ℚ) ^ (17 - k) ≠ 0 := by positivity
  push_cast
  field_simp

theorem grid_trial {k j : ℕ} (hk : k ≤ 17) (hj : j < 2 ^ k) : Trial (grid k j) := ⟨_, grid_fine hk, grid_lt hj⟩

theorem trial_range {q : ℚ} (h : Trial q) : 1 / 2 ≤ q ∧ q < 2000 := by
  obtain ⟨j, rfl, h2⟩ := h
  have : (0 : ℚ) ≤ j * (3999 / 2 ^ 18) := by positivity
  exact ⟨by linarith, h2⟩

/-- No trial richness is so close to 0.9 that the rounding of 0.9 matters. -/
theorem nine_tenths_side (hR : Rounding R) {q : ℚ} (h : Trial q) :
    (lt (fin q) (R (9 / 10)) = true ↔ q < 9 / 10) ∧ (lt (R (9 / 10)) (fin q) = true ↔ 9 / 10 < q) := by
  have e1 := hR.exact 966367641 30 (by norm_num) (by norm_num)
  have e2 := hR.exact 966367642 30 (by norm_num) (by norm_num)
  push_cast at e1 e2
  obtain ⟨v, hv, h1, h2⟩ := between hR e1 e2 (q := 9 / 10) (by norm_num) (by norm_num)
  rw [hv]
  simp only [lt, decide_eq_true_eq]
  obtain ⟨j, rfl, -⟩ := h
  rcases le_or_gt j 26 with hj | hj
  · have hj' : (j : ℚ) ≤ 26 := by exact_mod_cast hj
    norm_num at h1 h2 ⊢
    constructor <;> constructor <;> intro _ <;> first | linarith | (exfalso; linarith)
  · have hj' : (27 : ℚ) ≤ j := by exact_mod_cast hj
    norm_num at h1 h2 ⊢
    constructor <;> constructor <;> intro _ <;> first | linarith | (exfalso; linarith)

theorem clamp_side (hR : Rounding R) {q y : ℚ} {x : XF} (h : Trial q) (ha : Agree x y q) :
    (lt (fin q) (clamp R x) = true ↔ q < Solver.clampLo y) ∧ (lt (clamp R x) (fin q) = true ↔ Solver.clampLo y < q) := by
  obtain ⟨h1, h2, h3⟩ := ha
  unfold clamp Solver.clampLo
  by_cases hy : y < 1
  · rw [if_pos (h3.2 hy), if_pos hy]; exact nine_tenths_side hR h
  · rw [if_neg (fun hc => hy (h3.1 hc)), if_neg hy]; exact ⟨h1, h2⟩

theorem exact_goUp {P' : Solver.Par ℚ} {gs' : List (Solver.Gal ℚ)} (s : Solver.St ℚ) :
    Solver.goUp P' gs' s ↔ (s.lo < Solver.clampLo (Solver.pred P' gs' s.lo) ∧ s.mid < Solver.pred P' gs' s.mid) ∨
      (Solver.clampLo (Solver.pred P' gs' s.lo) < s.lo ∧ Solver.pred P' gs' s.mid < s.mid) := by
  unfold Solver.goUp
  rw [gt_iff_lt, mul_pos_iff]
  constructor
  · rintro (⟨a, b⟩ | ⟨a, b⟩)
    · exact Or.inl ⟨by linarith, by linarith⟩
    · exact Or.inr ⟨by linarith, by linarith⟩
  · rintro (⟨a, b⟩ | ⟨a, b⟩)
    · exact Or.inl ⟨by linarith, by linarith⟩
    · exact Or.inr ⟨by linarith, by linarith⟩

/-- C384: if at every trial richness the computed and the exact predicted richness lie on the same side of the trial richness (and of 1), the
richness computed in floating point is exactly the richness of exact arithmetic. -/
theorem C384 (hR : Rounding R) (ht : P.tol = R (1 / 100)) (gs : List FlSolver.Gal) (P' : Solver.Par ℚ) (gs' : List (Solver.Gal ℚ))
    (agree : ∀ q, Trial q → Agree (FlSolver.predicted R P gs (fin q)) (Solver.predicted P' gs' q) q)
    (fuel : ℕ) (res : FlSolver.Res) (res' : Solver.Res ℚ) (h : FlSolver.solveFuel R P gs fuel = some res)
    (h' : Solver.solveFuel P' gs' fuel = some res') : res.lambda = fin res'.lambda := by
  obtain ⟨s, rfl, hi, ⟨hlo, hhi⟩, -⟩ := solve_state hR ht gs fuel res h
    (fun k s => (s.lo = fin (Solver.run P' gs' k).lo ∧ s.hi = fin (Solver.run P' gs' k).hi) ∧ Out R P gs s)
    ⟨⟨rfl, rfl⟩, out_init gs⟩ (fun k s hk hinv ⟨⟨hl, hh⟩, ho⟩ => by
      obtain ⟨j, hj, hlo, hhi, -, hsl⟩ := hinv
      obtain ⟨o, m1, m2⟩ := step_spec hR gs (show k ≤ 17 by omega) hj s hlo hhi hsl ho
      have el : (Solver.run P' gs' k).lo = grid k j := by rw [hlo] at hl; simpa using hl.symm
      have eh : (Solver.run P' gs' k).hi = grid k (j + 1) := by rw [hhi] at hh; simpa using hh.symm
      have em : (Solver.run P' gs' k).mid = grid (k + 1) (2 * j + 1) := by
        unfold Solver.St.mid; rw [el, eh, grid_half]
      have tl : Trial (grid k j) := grid_trial (by omega) hj
      have tm : Trial (grid (k + 1) (2 * j + 1)) := grid_trial (by omega) (by rw [pow_succ]; omega)
      have al := clamp_side hR tl (agree _ tl)
      have am := agree _ tm
      have hmv : moves R P gs (grid k j) (grid (k + 1) (2 * j + 1)) = true ↔ Solver.goUp P' gs' (Solver.run P' gs' k) := by
        rw [moves_iff hR gs (grid_exact hR (by omega) hj.le) (grid_ge _ _) (grid_exact hR (by omega) (by rw [pow_succ]; omega)) (grid_ge _ _),
          exact_goUp, el, em, Solver.pred_spec, Solver.pred_spec, al.1, al.2, am.1, am.2.1]
      obtain ⟨g1, g2⟩ := Solver.step_eq P' gs' _ (Solver.run_inv P' gs' k)
      refine ⟨?_, o⟩
      rw [Solver.run_succ]
      cases hm : moves R P gs (grid k j) (grid (k + 1) (2 * j + 1)) with
      | true =>
        obtain ⟨a, b, -⟩ := g1 (hmv.1 hm)
        rw [(m1 hm).1, (m1 hm).2, a, b, em]
        exact ⟨rfl, hh⟩
      | false =>
        obtain ⟨a, b, -⟩ := g2 (fun hc => by rw [hmv.2 hc] at hm; cases hm)
        rw [(m2 hm).1, (m2 hm).2, a, b, em]
        exact ⟨hl, rfl⟩)
  rw [Solver.solveFuel_some P' gs' fuel res' h']
  obtain ⟨j, hj, hl, hh, -, hc⟩ := finish_cases (P := P) hR gs s hi
  have el : (Solver.run P' gs' 17).lo = grid 17 j := by rw [hl] at hlo; simpa using hlo.symm
  have eh : (Solver.run P' gs' 17).hi = grid 17 (j + 1) := by rw [hh] at hhi; simpa using hhi.symm
  have em : ((Solver.run P' gs' 17).lo + (Solver.run P' gs' 17).hi) / 2 = grid 18 (2 * j + 1) := by
    rw [el, eh, add_comm, grid_half]
  rcases hc with ⟨c, a, -⟩ | ⟨c, a, -⟩
  · rw [a]
    rcases Solver.finish_lambda P' gs' (Solver.run P' gs' 17) with ⟨b, -, -⟩ | ⟨b, -, d⟩
    · rw [b]
    · rw [em] at d; linarith
  · rw [a]
    rcases Solver.finish_lambda P' gs' (Solver.run P' gs' 17) with ⟨b, -, d⟩ | ⟨b, -, d⟩
    · rw [em] at d; linarith
    · rw [b, em]

/-- The computed predicted richness is within `ε` of `f` at every trial richness. -/
def Near (R : ℚ → XF) (P : FlSolver.Par) (gs : List FlSolver.Gal) (f : ℚ → ℚ) (ε : ℚ) : Prop :=
  ∀ q, Trial q ∨ q = 2000 → ∃ v, FlSolver.predicted R P gs (fin q) = fin v ∧ |v - f q| ≤ ε

/-- If the exact predicted richness stays away from the trial richness and from 1 by more than the error, the hypothesis of `C384` holds. -/
theorem agree_of_near {gs : List FlSolver.Gal} {f : ℚ → ℚ} {ε : ℚ} (hn : Near R P gs f ε)
    (haway : ∀ q, Trial q → ε < |f q - q| ∧ ε < |f q - 1|) : ∀ q, Trial q → Agree (FlSolver.predicted R P gs (fin q)) (f q) q := by
  intro q hq
  obtain ⟨v, hv, he⟩ := hn q (Or.inl hq)
  obtain ⟨h1, h2⟩ := haway q hq
  rw [hv]
  have := abs_le.1 he
  simp only [Agree, lt, decide_eq_true_eq]
  refine ⟨⟨fun h => ?_, fun h => ?_⟩, ⟨fun h => ?_, fun h => ?_⟩, ⟨fun h => ?_, fun h => ?_⟩⟩
  · rcases abs_cases (f q - q) with ⟨e, _⟩ | ⟨e, _⟩ <;> rw [e] at h1 <;> linarith
  · rcases abs_cases (f q - q) with ⟨e, _⟩ | ⟨e, _⟩ <;> rw [e] at h1 <;> linarith
  · rcases abs_cases (f q - q) with ⟨e, _⟩ | ⟨e, _⟩ <;> rw [e] at h1 <;> linarith
  · rcases abs_cases (f q - q) with ⟨e, _⟩ | ⟨e, _⟩ <;> rw [e] at h1 <;> linarith
  · rcases abs_cases (f q - 1) with ⟨e, _⟩ | ⟨e, _⟩ <;> rw [e] at h2 <;> linarith
  · rcases abs_cases (f q - 1) with ⟨e, _⟩ | ⟨e, _⟩ <;> rw [e] at h2 <;> linarith

/-- C385: rounding errors move the richness no further than where they matter.  If the computed predicted richness is within `ε` of `f` at every
trial, and `f` exceeds the trial richness by more than `ε` below `a - δ` and falls short of it by at least `ε` above `a + δ`, a reported richness of
at least 2 is within `δ + 0.0077` of `a`. -/
theorem C385 (hR : Rounding R) (ht : P.tol = R (1 / 100)) (gs : List FlSolver.Gal) (f : ℚ → ℚ) (ε δ a : ℚ) (hn : Near R P gs f ε)
    (hδ : 0 ≤ δ) (ha : a ≤ 2000) (hup : ∀ x, 1 / 2 ≤ x → x < a - δ → x + ε < f x) (hdn : ∀ x, a + δ < x → x ≤ 2000 → f x ≤ x - ε)
    (fuel : ℕ) (res : FlSolver.Res) (h : FlSolver.solveFuel R P gs fuel = some res) (q : ℚ) (hq : res.lambda = fin q) (h2 : 2 ≤ q) :
    |q - a| ≤ δ + 3999 / 2 ^ 19 := by
  obtain ⟨c1, c2⟩ := C382 hR ht gs fuel res h q hq h2
  obtain ⟨s, hs, hi, -⟩ := solve_state hR ht gs fuel res h (fun _ _ => True) trivial (fun _ _ _ _ _ => trivial)
  obtain ⟨j, hj, hl, hh, -, hc⟩ := finish_cases (P := P) hR gs s hi
  have hg : q = grid 18 (2 * j + 1) := by
    rcases hc with ⟨_, x, _⟩ | ⟨_, x, _⟩
    · rw [hs, x] at hq; simp only [fin.injEq] at hq; linarith
    · rw [hs, x] at hq; simpa using hq.symm
  have e : grid 17 j = q - 3999 / 2 ^ 19 := by rw [hg]; unfold grid; push_cast; ring
  have e' : grid 17 (j + 1) = q + 3999 / 2 ^ 19 := by rw [hg]; unfold grid; push_cast; ring
  have hw : (0 : ℚ) < 3999 / 2 ^ 19 := by positivity
  have tl : Trial (q - 3999 / 2 ^ 19) := e ▸ grid_trial le_rfl hj
  have th : Trial (q + 3999 / 2 ^ 19) ∨ q + 3999 / 2 ^ 19 = 2000 := by
    rw [← e']
    rcases Nat.lt_or_ge (j + 1) (2 ^ 17) with hlt | hge
    · exact Or.inl (grid_trial le_rfl hlt)
    · right
      have : j + 1 = 2 ^ 17 := by omega
      rw [this]; unfold grid; norm_num
  have hlo : q - 3999 / 2 ^ 19 ≤ a + δ := by
    by_contra hc'
    push Not at hc'
    obtain ⟨v, hv, hve⟩ := hn _ (Or.inl tl)
    rw [hv] at c1
    simp only [lt, decide_eq_true_eq] at c1
    have := hdn _ hc' (trial_range tl).2.le
    have := abs_le.1 hve
    linarith
  have hhi : a - δ ≤ q + 3999 / 2 ^ 19 := by
    rcases c2 with c2 | c2
    · linarith
    · by_contra hc'
      push Not at hc'
      obtain ⟨v, hv, hve⟩ := hn _ th
      rw [hv] at c2
      simp only [lt, decide_eq_false_iff_not] at c2
      have := hup _ (by linarith) hc'
      have := abs_le.1 hve
      linarith
  rw [abs_le]
  constructor <;> linarith

/-! ## How far the computed predicted richness is from the exact one -/

/-- Relative error of the rounding, half a unit of the last of 53 digits. -/
def uu : ℚ := 1 / 2 ^ 53

/-- Rounding is accurate in the range of normal numbers (and a bit less). -/
def Accurate (R : ℚ → XF) : Prop := ∀ q, 1 / 2 ^ 1000 ≤ |q| → |q| ≤ 2 ^ 1000 → ∃ v, R q = fin v ∧ |v - q| ≤ uu * |q|

theorem roundEven_err (x : ℚ) : |(roundEven x : ℚ) - x| ≤ 1 / 2 := by
  have h1 := Int.floor_le x
  have h2 := Int.lt_floor_add_one x
  unfold roundEven
  rw [abs_le]
  split_ifs <;> push_cast <;> constructor <;> linarith

/-- IEEE 754 doubles are accurate. -/
theorem r64_accurate : Accurate r64 := by
  intro q h1 h2
  have hpos : (0 : ℚ) < 1 / 2 ^ 1000 := by positivity
  have hq : q ≠ 0 := by rintro rfl; rw [abs_zero] at h1; linarith
  have hlog : -1000 ≤ Int.log 2 |q| := by
    have := (Int.zpow_le_iff_le_log (R := ℚ) (b := 2) (by norm_num) (x := -1000) (abs_pos.2 hq)).1 (by
      rw [show ((2 : ℕ) : ℚ) ^ (-1000 : ℤ) = 1 / 2 ^ 1000 by
        rw [zpow_neg, show (1000 : ℤ) = ((1000 : ℕ) : ℤ) from rfl, zpow_natCast, one_div]; rfl]
      exact h1)
    exact this
  have hu : ulpExp q = Int.log 2 |q| - 52 := by unfold ulpExp; omega
  have hle : (2 : ℚ) ^ Int.log 2 |q| ≤ |q| := by
    have := Int.zpow_log_le_self (R := ℚ) (b := 2) (by norm_num) (abs_pos.2 hq); simpa using this
  have herr : |rq q - q| ≤ uu * |q| := by
    have hp := two_pos (ulpExp q)
    have e : rq q - q = ((roundEven (q / 2 ^ ulpExp q) : ℚ) - q / 2 ^ ulpExp q) * 2 ^ ulpExp q := by
      rw [rq, if_neg hq, sub_mul, div_mul_cancel₀ _ hp.ne']
    rw [e, abs_mul, abs_of_pos hp]
    have h3 := mul_le_mul_of_nonneg_right (roundEven_err (q / 2 ^ ulpExp q)) hp.le
    refine h3.trans ?_
    rw [hu, zpow_sub₀ (by norm_num)]
    have : (1 : ℚ) / 2 * (2 ^ Int.log 2 |q| / 2 ^ (52 : ℤ)) = uu * 2 ^ Int.log 2 |q| := by
      unfold uu
      rw [show (52 : ℤ) = ((52 : ℕ) : ℤ) from rfl, zpow_natCast]
      ring
    rw [this]
    exact mul_le_mul_of_nonneg_left hle (by unfold uu; positivity)
  have hu1 : uu ≤ 1 := by unfold uu; norm_num
  have hb : |rq q| ≤ 2 * |q| := by
    have := abs_sub_abs_le_abs_sub (rq q) q
    have h3 : uu * |q| ≤ 1 * |q| := mul_le_mul_of_nonneg_right hu1 (abs_nonneg _)
    linarith
  have hbig : (2 : ℚ) * 2 ^ 1000 < 2 ^ 1024 := by
    rw [← pow_succ']; exact pow_lt_pow_right₀ (by norm_num) (by norm_num)
  have hb2 : |rq q| < 2 ^ 1024 := (hb.trans (mul_le_mul_of_nonneg_left h2 (by norm_num))).trans_lt hbig
  have := abs_lt.1 hb2
  exact ⟨rq q, by rw [r64_eq]; exact clip_of this.1 this.2, herr⟩

theorem uu_pos : 0 < uu := by unfold uu; positivity

theorem tiny_le : (1 : ℚ) / 2 ^ 1000 ≤ uu / 8 := by
  unfold uu
  rw [div_div, show (2 : ℚ) ^ 53 * 8 = 2 ^ 56 by norm_num]
  exact one_div_le_one_div_of_le (by positivity) (pow_le_pow_right₀ (by norm_num) (by norm_num))

/-- Rounding of any number that is not negative and not huge. -/
theorem round_nn (hR : Rounding R) (hA : Accurate R) {q : ℚ} (h0 : 0 ≤ q) (h1 : q ≤ 2 ^ 1000) :
    ∃ v, R q = fin v ∧ 0 ≤ v ∧ |v - q| ≤ uu * q + uu / 8 := by
  rcases le_or_gt (1 / 2 ^ 1000) q with h | h
  · obtain ⟨v, hv, he⟩ := hA q (by rw [abs_of_nonneg h0]; exact h) (by rw [abs_of_nonneg h0]; exact h1)
    rw [abs_of_nonneg h0] at he
    refine ⟨v, hv, ?_, by have := uu_pos; linarith⟩
    rcases nn_R hR h0 with h' | h' | ⟨w, hw, h'⟩ <;> rw [hv] at h'
    · cases h'
    · cases h'
    · cases h'; exact hw
  · have e := hR.exact 1 1000 (by norm_num) le_rfl
    rw [Int.cast_one] at e
    obtain ⟨v, hv, a, b⟩ := between hR (R0 hR) e h0 h.le
    have := tiny_le
    have hm : 0 ≤ uu * q := mul_nonneg uu_pos.le h0
    exact ⟨v, hv, a, by rw [abs_le]; constructor <;> linarith⟩

/-- Error of a quotient `s/(s+b)` computed with errors in `s` and in the sum. -/
theorem quot_err {s b sf df : ℚ} (hs : 0 < s) (hb : 0 ≤ b) (h1 : |sf - s| ≤ 3 * uu * s) (h2 : |df - (sf + b)| ≤ uu * (sf + b)) :
    0 < sf ∧ 0 < df ∧ |sf / df - s / (s + b)| ≤ 5 * uu := by
  have hu := uu_pos
  have hu2 : uu ≤ 1 / 100 := by unfold uu; norm_num
  have a1 := abs_le.1 h1
  have hsf : 0 < sf := by nlinarith
  have a2 := abs_le.1 h2
  have hd : 0 < sf + b := by linarith
  have hdf : (1 - uu) * (sf + b) ≤ df := by nlinarith
  have hdf0 : 0 < df := lt_of_lt_of_le (mul_pos (by linarith) hd) hdf
  refine ⟨hsf, hdf0, ?_⟩
  have hsb : 0 < s + b := by linarith
  have A : |sf / (sf + b) - s / (s + b)| ≤ 3 * uu := by
    rw [div_sub_div _ _ hd.ne' hsb.ne', abs_div, abs_of_pos (mul_pos hd hsb), div_le_iff₀ (mul_pos hd hsb)]
    rw [show sf * (s + b) - (sf + b) * s = b * (sf - s) by ring, abs_mul, abs_of_nonneg hb]
    have e1 : b * |sf - s| ≤ b * (3 * uu * s) := mul_le_mul_of_nonneg_left h1 hb
    have e2 : b * s ≤ (sf + b) * (s + b) := mul_le_mul (by linarith) (by linarith) hs.le hd.le
    nlinarith
  have B : |sf / df - sf / (sf + b)| ≤ 2 * uu := by
    rw [div_sub_div _ _ hdf0.ne' hd.ne', abs_div, abs_of_pos (mul_pos hdf0 hd), div_le_iff₀ (mul_pos hdf0 hd)]
    rw [show sf * (sf + b) - df * sf = sf * -(df - (sf + b)) by ring, abs_mul, abs_of_pos hsf, abs_neg]
    have e1 : sf * |df - (sf + b)| ≤ sf * (uu * (sf + b)) := mul_le_mul_of_nonneg_left h2 hsf.le
    have e2 : sf ≤ 2 * df := by nlinarith
    have e3 : sf * (uu * (sf + b)) ≤ 2 * df * (uu * (sf + b)) := mul_le_mul_of_nonneg_right e2 (mul_nonneg hu.le hd.le)
    calc sf * |df - (sf + b)| ≤ 2 * df * (uu * (sf + b)) := e1.trans e3
      _ = 2 * uu * (df * (sf + b)) := by ring
  have : sf / df - s / (s + b) = (sf / df - sf / (sf + b)) + (sf / (sf + b) - s / (s + b)) := by ring
  rw [this]
  exact (abs_add_le _ _).trans (by linarith)

theorem lo_half {m : ℕ} {q v : ℚ} (h : 1 / 2 ^ m ≤ q) (he : |v - q| ≤ uu * q) : 1 / 2 ^ (m + 1) ≤ v := by
  have hu3 : uu ≤ 1 / 100 := by unfold uu; norm_num
  have hm : (0 : ℚ) < 1 / 2 ^ m := by positivity
  have e : (1 : ℚ) / 2 ^ (m + 1) = 1 / 2 * (1 / 2 ^ m) := by rw [pow_succ]; field_simp
  have a := abs_le.1 he
  have : uu * q ≤ 1 / 100 * q := mul_le_mul_of_nonneg_right hu3 (by linarith)
  rw [e]
  linarith

theorem hi_two {m : ℕ} {q v : ℚ} (h0 : 0 < q) (h : q ≤ 2 ^ m) (he : |v - q| ≤ uu * q) : v ≤ 2 ^ (m + 1) := by
  have hu3 : uu ≤ 1 / 100 := by unfold uu; norm_num
  have a := abs_le.1 he
  have : uu * q ≤ 1 / 100 * q := mul_le_mul_of_nonneg_right hu3 h0.le
  rw [pow_succ]
  linarith

/-- A galaxy of the exact model as the C code gets it. -/
def emb (g : Solver.Gal ℚ) : FlSolver.Gal := ⟨fin g.u, (match g.b with | none => pinf | some b => fin b), fin g.r, fin g.w⟩

/-- Densities, background and availability in the range in which nothing overflows or vanishes. -/
structure GalOK (g : Solver.Gal ℚ) : Prop where
  u : g.u = 0 ∨ 1 / 2 ^ 400 ≤ g.u ∧ g.u ≤ 2 ^ 400
  b : ∀ b, g.b = some b → 0 ≤ b ∧ b ≤ 2 ^ 900
  w : 0 ≤ g.w ∧ g.w ≤ 1

/-- The membership computed at trial `x` (with normalisation `n`) is within 7 rounding errors of the exact one. -/
theorem memb_err (hR : Rounding R) (hA : Accurate R) {x n : ℚ} (hx : 1 / 2 ≤ x) (hx2 : x ≤ 2000) (hn : 1 / 2 ^ 400 ≤ n) (hn2 : n ≤ 2 ^ 400)
    {P' : Solver.Par ℚ} (hr : P.nfwnorm (P.rlam (fin x)) = fin n) (hr' : P'.nfwnorm (P'.rlam x) = n) (g : Solver.Gal ℚ) (hg : GalOK g) :
    ∃ v, memb R P (fin x) (emb g) = fin v ∧ R v = fin v ∧ 0 ≤ v ∧ v ≤ 1 ∧ |v - Solver.specProb P' x g| ≤ 7 * uu := by
  suffices H : ∃ v, memb R P (fin x) (emb g) = fin v ∧ |v - Solver.specProb P' x g| ≤ 7 * uu by
    obtain ⟨v, hv, he⟩ := H
    have p400 : (0 : ℚ) < 1 / 2 ^ 400 := by positivity
    have hgu : NN (emb g).u := by
      refine Or.inr (Or.inr ⟨g.u, ?_, rfl⟩)
      rcases hg.u with h | h
      · exact h.ge
      · exact p400.le.trans h.1
    have hgb : NN (emb g).b := by
      cases hb : g.b with
      | none => exact Or.inr (Or.inl (by unfold emb; rw [hb]))
      | some b => exact Or.inr (Or.inr ⟨b, (hg.b b hb).1, by unfold emb; rw [hb]⟩)
    have hnn : NN (P.nfwnorm (P.rlam (fin x))) := Or.inr (Or.inr ⟨n, p400.le.trans hn, hr⟩)
    obtain ⟨w, hw, h1, h2, h3⟩ := quot_unit (R := R) hR (nn_mul hR (nn_mul hR (Or.inr (Or.inr ⟨x, by linarith only [hx], rfl⟩)) hgu) hnn) (fix_mul hR _ _) hgb
    have e : w = v := by
      have : memb R P (fin x) (emb g) = fin w := hw
      rw [hv] at this; simpa using this.symm
    subst e
    exact ⟨w, hv, h1, h2, h3, he⟩
  have hu := uu_pos
  have hu2 : uu ≤ 1 / 2 ^ 53 := le_rfl
  have hu3 : uu ≤ 1 / 100 := by unfold uu; norm_num
  have zero : ∀ z : ℚ, z = 0 → |(0 : ℚ) - z| ≤ 7 * uu := by rintro z rfl; simp; linarith
  have hnn : ∀ y : XF, y = P.nfwnorm (P.rlam (fin x)) → y = fin n := fun y h => h.trans hr
  rcases hg.u with h0 | ⟨hu1, hu4⟩
  · -- no density
    have hs : mul R (mul R (fin x) (fin 0)) (fin n) = fin 0 := by
      simp only [mul, mul_zero, R0 hR, zero_mul]
    refine ⟨0, ?_, zero _ ?_⟩
    · unfold memb emb
      simp only [h0, hr, hs]
      cases hb : g.b with
      | none => simp [add, div, finite]
      | some b =>
        have hb0 := (hg.b b hb).1
        simp only [add, zero_add]
        rcases nn_R hR hb0 with e | e | ⟨v, hv, e⟩
        · exact absurd e (hR.never_nan _)
        · simp [e, div, finite]
        · simp only [e, div]
          by_cases hv0 : v = 0
          · simp [hv0, infSign, finite]
          · simp [hv0, R0 hR, finite]
    · unfold Solver.specProb
      rw [h0]
      cases g.b with
      | none => rfl
      | some b => simp
  · have hxu : (0 : ℚ) < x * g.u := by
      have : (0 : ℚ) < 1 / 2 ^ 400 := by positivity
      exact mul_pos (by linarith) (lt_of_lt_of_le this hu1)
    have p400 : (0 : ℚ) < 1 / 2 ^ 400 := by positivity
    have n0 : 0 < n := lt_of_lt_of_le p400 hn
    have u0 : 0 < g.u := lt_of_lt_of_le p400 hu1
    -- first product
    have r1 : 1 / 2 ^ 401 ≤ x * g.u := by
      have := mul_le_mul hx hu1 p400.le (by linarith)
      refine le_trans (le_of_eq ?_) this
      rw [pow_succ]; field_simp
    have r2 : x * g.u ≤ 2 ^ 411 := by
      have := mul_le_mul (hx2.trans (by norm_num : (2000 : ℚ) ≤ 2 ^ 11)) hu4 u0.le (by positivity)
      rwa [← pow_add] at this
    have big : ∀ m : ℕ, m ≤ 1000 → (2 : ℚ) ^ m ≤ 2 ^ 1000 := fun m hm => pow_le_pow_right₀ (by norm_num) hm
    have small : ∀ m : ℕ, m ≤ 1000 → (1 : ℚ) / 2 ^ 1000 ≤ 1 / 2 ^ m := fun m hm => one_div_le_one_div_of_le (by positivity) (big m hm)
    obtain ⟨s1, hs1, he1⟩ := hA (x * g.u) (by rw [abs_of_pos hxu]; exact (small 401 (by norm_num)).trans r1)
      (by rw [abs_of_pos hxu]; exact r2.trans (big 411 (by norm_num)))
    rw [abs_of_pos hxu] at he1
    have a1 := abs_le.1 he1
    have s1lo : 1 / 2 ^ 402 ≤ s1 := lo_half r1 he1
    have s1hi : s1 ≤ 2 ^ 412 := hi_two hxu r2 he1
    have s10 : 0 < s1 := lt_of_lt_of_le (by positivity) s1lo
    have hsn : 0 < s1 * n := mul_pos s10 n0
    have r3 : 1 / 2 ^ 802 ≤ s1 * n := by
      have := mul_le_mul s1lo hn p400.le s10.le
      rwa [one_div_mul_one_div, ← pow_add] at this
    have r4 : s1 * n ≤ 2 ^ 812 := by
      have := mul_le_mul s1hi hn2 n0.le (by positivity)
      rwa [← pow_add] at this
    obtain ⟨s2, hs2, he2⟩ := hA (s1 * n) (by rw [abs_of_pos hsn]; exact (small 802 (by norm_num)).trans r3)
      (by rw [abs_of_pos hsn]; exact r4.trans (big 812 (by norm_num)))
    rw [abs_of_pos hsn] at he2
    have a2 := abs_le.1 he2
    set s := x * g.u * n with hsdef
    have hs0 : 0 < s := mul_pos hxu n0
    have hs_err : |s2 - s| ≤ 3 * uu * s := by
      have e1 : |s1 * n - s| ≤ uu * s := by
        rw [hsdef, ← sub_mul, abs_mul, abs_of_pos n0, ← mul_assoc]
        exact mul_le_mul_of_nonneg_right he1 n0.le
      have b1 := abs_le.1 e1
      have e4 : uu * s ≤ 1 / 100 * s := mul_le_mul_of_nonneg_right hu3 hs0.le
      have e2 : s1 * n ≤ 2 * s := by linarith [b1.2]
      have e3 : uu * (s1 * n) ≤ uu * (2 * s) := mul_le_mul_of_nonneg_left e2 hu.le
      rw [abs_le]; constructor <;> linarith
    have hsg : mul R (mul R (fin x) (fin g.u)) (fin n) = fin s2 := by
      simp only [mul, hs1, hs2]
    cases hb : g.b with
    | none =>
      refine ⟨0, ?_, zero _ ?_⟩
      · unfold memb emb
        simp only [hr, hb, hsg]
        simp [add, div, finite]
      · unfold Solver.specProb; rw [hb]
    | some b =>
      obtain ⟨hb0, hb1⟩ := hg.b b hb
      have s2lo : 1 / 2 ^ 803 ≤ s2 := lo_half r3 he2
      have s2hi : s2 ≤ 2 ^ 813 := hi_two hsn r4 he2
      have hd0 : 0 < s2 + b := add_pos_of_pos_of_nonneg (lt_of_lt_of_le (by positivity) s2lo) hb0
      have hdhi : s2 + b ≤ 2 ^ 1000 := by
        have h1 : (2 : ℚ) ^ 813 ≤ 2 ^ 900 := pow_le_pow_right₀ (by norm_num) (by norm_num)
        have h2 : (2 : ℚ) ^ 900 + 2 ^ 900 ≤ 2 ^ 1000 := by
          rw [← two_mul, ← pow_succ']; exact pow_le_pow_right₀ (by norm_num) (by norm_num)
        exact (add_le_add (s2hi.trans h1) hb1).trans h2
      obtain ⟨d, hd, hde⟩ := hA (s2 + b) (by
        rw [abs_of_pos hd0]
        exact (small 803 (by norm_num)).trans (s2lo.trans (le_add_of_nonneg_right hb0))) (by rw [abs_of_pos hd0]; exact hdhi)
      rw [abs_of_pos hd0] at hde
      obtain ⟨q1, q2, q3⟩ := quot_err hs0 hb0 hs_err hde
      have hq1 : s2 / d ≤ 2 := by
        have := abs_le.1 q3
        have h1 : s / (s + b) ≤ 1 := (div_le_one (add_pos_of_pos_of_nonneg hs0 hb0)).2 (le_add_of_nonneg_right hb0)
        linarith only [this.2, h1, hu3]
      have hq0 : 0 ≤ s2 / d := div_nonneg q1.le q2.le
      obtain ⟨v, hv, hv0, hve⟩ := round_nn hR hA hq0 (hq1.trans ((pow_one (2 : ℚ)).symm.le.trans (big 1 (by norm_num))))
      refine ⟨v, ?_, ?_⟩
      · unfold memb emb
        simp only [hr, hb, hsg, add, hd, div, if_neg q2.ne', hv, finite, if_true]
      · have hsp : Solver.specProb P' x g = s / (s + b) := by
          unfold Solver.specProb
          rw [hb, hr']
          simp only [← hsdef]
          rw [if_neg (add_pos_of_pos_of_nonneg hs0 hb0).ne']
        rw [hsp]
        have h1 : s / (s + b) ≤ 1 := (div_le_one (add_pos_of_pos_of_nonneg hs0 hb0)).2 (le_add_of_nonneg_right hb0)
        have b3 := abs_le.1 q3
        have hq1' : s2 / d ≤ 1 + 5 * uu := by linarith only [b3.2, h1]
        have h2 : uu * (s2 / d) ≤ uu * (1 + 5 * uu) := mul_le_mul_of_nonneg_left hq1' hu.le
        have h3 : uu * (1 + 5 * uu) + uu / 8 ≤ 2 * uu := by
          have : uu * uu ≤ uu * (1 / 100) := mul_le_mul_of_nonneg_left hu3 hu.le
          linarith only [this, hu]
        have b4 := abs_le.1 hve
        rw [abs_le]
        constructor
        · linarith only [b3.1, b4.1, h2, h3]
        · linarith only [b3.2, b4.2, h2, h3]

theorem specProb_unit {P' : Solver.Par ℚ} {g : Solver.Gal ℚ} (hg : GalOK g) {x : ℚ} (hx : 1 / 2 ≤ x) (hn : 1 / 2 ^ 400 ≤ P'.nfwnorm (P'.rlam x)) :
    0 ≤ Solver.specProb P' x g ∧ Solver.specProb P' x g ≤ 1 := by
  have p400 : (0 : ℚ) < 1 / 2 ^ 400 := by positivity
  have hu : 0 ≤ g.u := by
    rcases hg.u with h | h
    · exact h.ge
    · exact p400.le.trans h.1
  have hs : 0 ≤ x * g.u * P'.nfwnorm (P'.rlam x) := mul_nonneg (mul_nonneg (by linarith only [hx]) hu) (p400.le.trans hn)
  unfold Solver.specProb
  cases hb : g.b with
  | none => exact ⟨le_rfl, zero_le_one⟩
  | some b =>
    have h0 := (hg.b b hb).1
    dsimp only
    split_ifs with h
    · exact ⟨le_rfl, zero_le_one⟩
    · exact ⟨div_nonneg hs (add_nonneg hs h0), div_le_one_of_le₀ (le_add_of_nonneg_right h0) (add_nonneg hs h0)⟩

/-- Error of a sum in the order of the list. -/
theorem total_err (hR : Rounding R) (hA : Accurate R) (f : Solver.Gal ℚ → XF) (e : Solver.Gal ℚ → ℚ) (c : ℚ) (N : ℕ) (hN : N ≤ 2 ^ 53) :
    ∀ (l : List (Solver.Gal ℚ)) (k : ℕ) (a : ℚ), (∀ g ∈ l, ∃ v, f g = fin v ∧ 0 ≤ v ∧ v ≤ 1 ∧ |v - e g| ≤ c) → k + l.length ≤ N →
      0 ≤ a → a ≤ k →
      ∃ v, (l.map f).foldl (add R) (fin a) = fin v ∧ 0 ≤ v ∧ v ≤ ((k + l.length : ℕ) : ℚ) ∧ |v - (a + (l.map e).sum)| ≤ l.length * (uu * (N + 1) + c)
  | [], k, a, _, _, h0, h1 => ⟨a, rfl, h0, by simpa using h1, by simp⟩
  | g :: l, k, a, hl, hk, h0, h1 => by
    have hu := uu_pos
    obtain ⟨w, hw, w0, w1, we⟩ := hl g (by simp)
    simp only [List.length_cons] at hk
    have s0 : 0 ≤ a + w := by linarith only [h0, w0]
    have s1 : a + w ≤ ((k + 1 : ℕ) : ℚ) := by push_cast; linarith only [h1, w1]
    have hkN : ((k + 1 : ℕ) : ℚ) ≤ N := by exact_mod_cast (by omega : k + 1 ≤ N)
    have hN' : (N : ℚ) ≤ 2 ^ 53 := by exact_mod_cast hN
    have hex := exact_int hR ((k + 1 : ℕ) : ℤ) (by
      rw [abs_of_nonneg (by positivity)]
      exact_mod_cast (by omega : k + 1 ≤ 2 ^ 53))
    rw [Int.cast_natCast] at hex
    obtain ⟨b, hb, b0, b1⟩ := between hR (R0 hR) hex s0 s1
    obtain ⟨b', hb', -, be⟩ := round_nn hR hA s0 (s1.trans (hkN.trans (hN'.trans (pow_le_pow_right₀ (by norm_num) (by norm_num)))))
    have : b' = b := by rw [hb] at hb'; simpa using hb'.symm
    subst this
    obtain ⟨v, hv, v0, v1, ve⟩ := total_err hR hA f e c N hN l (k + 1) b' (fun g hg => hl g (List.mem_cons_of_mem _ hg)) (by omega) b0 b1
    refine ⟨v, ?_, v0, ?_, ?_⟩
    · simp only [List.map_cons, List.foldl_cons, hw, add, hb]
      exact hv
    · refine v1.trans (le_of_eq ?_); simp only [List.length_cons]; congr 1; omega
    · simp only [List.map_cons, List.sum_cons, List.length_cons]
      have h2 : uu * (a + w) ≤ uu * N := mul_le_mul_of_nonneg_left (s1.trans hkN) hu.le
      have a1 := abs_le.1 we
      have a2 := abs_le.1 be
      have a3 := abs_le.1 ve
      have e1 : ((l.length + 1 : ℕ) : ℚ) * (uu * (N + 1) + c) = l.length * (uu * (N + 1) + c) + (uu * N + uu + c) := by push_cast; ring
      rw [e1, abs_le]
      constructor <;> linarith only [a1.1, a1.2, a2.1, a2.2, a3.1, a3.2, h2, hu]

/-- The setting of the error bound: the same radius and normalisation in both models, the computed radial weight of a soft edge within `τ` of the
exact one, the computed masked fraction within `κ` of the exact one. -/
structure SameInput (R : ℚ → XF) (P : FlSolver.Par) (P' : Solver.Par ℚ) (gs : List (Solver.Gal ℚ)) (τ κ : ℚ) : Prop where
  tau : 0 ≤ τ
  hard : le P.rsig (fin 0) = true ↔ P'.rsig ≤ 0
  soft : 0 < P'.rsig → ∀ g ∈ gs, ∀ q, 1 / 2 ≤ q → q ≤ 2000 →
    ∃ t, edge R P (fin q) (emb g) = fin t ∧ 0 ≤ t ∧ t ≤ 1 ∧ |t - Solver.specTheta P' q g| ≤ τ
  rlam : ∀ q, 1 / 2 ≤ q → q ≤ 2000 → P.rlam (fin q) = fin (P'.rlam q)
  norm : ∀ q, 1 / 2 ≤ q → q ≤ 2000 → P.nfwnorm (fin (P'.rlam q)) = fin (P'.nfwnorm (P'.rlam q)) ∧
    1 / 2 ^ 400 ≤ P'.nfwnorm (P'.rlam q) ∧ P'.nfwnorm (P'.rlam q) ≤ 2 ^ 400
  mask : ∀ q, 1 / 2 ≤ q → q ≤ 2000 → ∃ m, masked R P (fin (P'.rlam q)) = fin m ∧ 0 ≤ m ∧ m ≤ 1 ∧
    |m - max 0 (P'.c3 + P'.c2 * P'.rlam q + P'.c1 * P'.rlam q ^ 2 + P'.c0 * P'.rlam q ^ 3)| ≤ κ

/-- C386: the predicted richness computed in floating point is within `2^-53 (n (n + 13) + 4002)` of the exact one, plus the errors of
the radial weights and 2000 times the error of the masked fraction. -/
theorem C386 (hR : Rounding R) (hA : Accurate R) (P' : Solver.Par ℚ) (gs : List (Solver.Gal ℚ)) (τ κ : ℚ) (hs : SameInput R P P' gs τ κ)
    (hg : ∀ g ∈ gs, GalOK g) (hn : gs.length ≤ 2 ^ 53) (x : ℚ) (h1 : 1 / 2 ≤ x) (h2 : x ≤ 2000) :
    ∃ v, FlSolver.predicted R P (gs.map emb) (fin x) = fin v ∧
      |v - Solver.predicted P' gs x| ≤ (gs.length * (gs.length + 13) + 4002) / 2 ^ 53 + gs.length * τ + 2000 * κ := by
  have hu := uu_pos
  have hx0 : 0 ≤ x := by linarith only [h1]
  obtain ⟨m, hm, m0, m1, me⟩ := hs.mask x h1 h2
  have hrl := hs.rlam x h1 h2
  obtain ⟨hno, n1, n2⟩ := hs.norm x h1 h2
  have hw : ∀ g ∈ gs, ∃ v, wtAt R P (fin x) (emb g) = fin v ∧ 0 ≤ v ∧ v ≤ 1 ∧
      |v - Solver.specProb P' x g * g.w * Solver.specTheta P' x g| ≤ 11 * uu + τ := by
    intro g hgm
    obtain ⟨p, hp, pf, p0, p1, pe⟩ := memb_err (P := P) (P' := P') hR hA h1 h2 n1 n2 (by rw [hrl]; exact hno) rfl g (hg g hgm)
    obtain ⟨w0, w1⟩ := (hg g hgm).w
    obtain ⟨v, hv, vf, v0, v1⟩ := mul_unit hR pf p0 w0 w1
    have hpw : p * g.w ≤ 1 := mul_le_one₀ p1 w0 w1
    obtain ⟨v', hv', -, ve⟩ := round_nn hR hA (mul_nonneg p0 w0) (hpw.trans (one_le_pow₀ (by norm_num)))
    have e : v' = v := by
      have : R (p * g.w) = fin v := hv
      rw [hv'] at this; simpa using this
    subst e
    have e1 : |p * g.w - Solver.specProb P' x g * g.w| ≤ 7 * uu := by
      rw [← sub_mul, abs_mul, abs_of_nonneg w0]
      calc |p - Solver.specProb P' x g| * g.w ≤ |p - Solver.specProb P' x g| * 1 := mul_le_mul_of_nonneg_left w1 (abs_nonneg _)
        _ ≤ 7 * uu := by rw [mul_one]; exact pe
    have e2 : uu * (p * g.w) ≤ uu * 1 := mul_le_mul_of_nonneg_left hpw hu.le
    have a1 := abs_le.1 e1
    have a2 := abs_le.1 ve
    have e3 : |v' - Solver.specProb P' x g * g.w| ≤ 9 * uu := by
      rw [abs_le]
      constructor <;> linarith only [a1.1, a1.2, a2.1, a2.2, e2, hu]
    have ht0 := hs.tau
    unfold wtAt
    rcases le_or_gt P'.rsig 0 with hedge | hedge
    · have hth : Solver.specTheta P' x g = if g.r < P'.rlam x then 1 else 0 := by unfold Solver.specTheta; rw [if_pos hedge]
      rw [if_pos (hs.hard.2 hedge), hrl, hth]
      by_cases hr : g.r < P'.rlam x
      · rw [if_pos (by simpa [emb, lt] using hr), if_pos hr, mul_one]
        exact ⟨v', by rw [hp]; exact hv, v0, v1.trans p1, by linarith only [e3, hu, ht0]⟩
      · rw [if_neg (by simpa [emb, lt] using hr), if_neg hr, mul_zero]
        exact ⟨0, rfl, le_rfl, zero_le_one, by simp only [sub_zero, abs_zero]; linarith only [hu, ht0]⟩
    · rw [if_neg (fun h => absurd (hs.hard.1 h) (not_le.2 hedge))]
      obtain ⟨t, ht, t0, t1, te⟩ := hs.soft hedge g hgm x h1 h2
      have hvm : mul R (memb R P (fin x) (emb g)) (emb g).w = fin v' := by rw [hp]; exact hv
      rw [hvm, ht]
      obtain ⟨y, hy, -, y0, y1⟩ := mul_unit hR vf v0 t0 t1
      have hvt : v' * t ≤ 1 := mul_le_one₀ (v1.trans p1) t0 t1
      obtain ⟨y', hy', -, ye⟩ := round_nn hR hA (mul_nonneg v0 t0) (hvt.trans (one_le_pow₀ (by norm_num)))
      have e : y' = y := by
        have : R (v' * t) = fin y := hy
        rw [hy'] at this; simpa using this
      subst e
      refine ⟨y', hy, y0, y1.trans (v1.trans p1), ?_⟩
      set q := Solver.specProb P' x g * g.w
      set T := Solver.specTheta P' x g
      have hq : |q| ≤ 1 := by
        have hq0 : 0 ≤ Solver.specProb P' x g ∧ Solver.specProb P' x g ≤ 1 := specProb_unit (hg g hgm) h1 n1
        rw [abs_of_nonneg (mul_nonneg hq0.1 w0)]
        exact mul_le_one₀ hq0.2 w0 w1
      have k1 : |v' * t - q * t| ≤ 9 * uu := by
        rw [← sub_mul, abs_mul, abs_of_nonneg t0]
        exact (mul_le_of_le_one_right (abs_nonneg _) t1).trans e3
      have k2 : |q * t - q * T| ≤ τ := by
        rw [← mul_sub, abs_mul]
        exact (mul_le_of_le_one_left (abs_nonneg _) hq).trans te
      have k3 : uu * (v' * t) ≤ uu * 1 := mul_le_mul_of_nonneg_left hvt hu.le
      have b1 := abs_le.1 k1
      have b2 := abs_le.1 k2
      have b3 := abs_le.1 ye
      rw [abs_le]
      constructor <;> linarith only [b1.1, b1.2, b2.1, b2.2, b3.1, b3.2, k3, hu]
  obtain ⟨s, hs1, s0, s1, se⟩ := total_err hR hA (fun g => wtAt R P (fin x) (emb g))
    (fun g => Solver.specProb P' x g * g.w * Solver.specTheta P' x g) (11 * uu + τ) gs.length hn gs 0 0 hw (by omega) le_rfl (by simp)
  -- the masked part
  have xm0 : 0 ≤ x * m := mul_nonneg hx0 m0
  have xm1 : x * m ≤ 2000 := by
    have := mul_le_mul h2 m1 m0 (by norm_num); linarith only [this]
  have e2000 := exact_int hR 2000 (by norm_num)
  obtain ⟨c, hc, c0, c1⟩ := between hR (R0 hR) e2000 xm0 (by exact_mod_cast xm1)
  have big : (2 : ℚ) ^ 54 ≤ 2 ^ 1000 := pow_le_pow_right₀ (by norm_num) (by norm_num)
  have p53 : (4000 : ℚ) ≤ 2 ^ 53 := by norm_num
  have p54 : (2 : ℚ) ^ 54 = 2 ^ 53 + 2 ^ 53 := by norm_num
  have hnq : (gs.length : ℚ) ≤ 2 ^ 53 := by exact_mod_cast hn
  obtain ⟨c', hc', -, ce⟩ := round_nn hR hA xm0 (le_trans (le_trans xm1 (by norm_num)) big)
  have e : c' = c := by rw [hc] at hc'; simpa using hc'.symm
  subst e
  push_cast at c1 s1
  have sc0 : 0 ≤ s + c' := add_nonneg s0 c0
  have sc1 : s + c' ≤ gs.length + 2000 := by linarith only [s1, c1]
  obtain ⟨v, hv, -, ve⟩ := round_nn hR hA sc0 (le_trans (by linarith only [sc1, hnq, p53, p54] : s + c' ≤ 2 ^ 54) big)
  refine ⟨v, ?_, ?_⟩
  · unfold FlSolver.predicted total
    rw [List.map_map, hrl, hm]
    have : (fun g => wtAt R P (fin x) (emb g)) = wtAt R P (fin x) ∘ emb := rfl
    rw [← this, hs1]
    simp only [mul, hc, add, hv]
  · unfold Solver.predicted
    set M := max 0 (P'.c3 + P'.c2 * P'.rlam x + P'.c1 * P'.rlam x ^ 2 + P'.c0 * P'.rlam x ^ 3)
    set S := (gs.map fun g => Solver.specProb P' x g * g.w * Solver.specTheta P' x g).sum
    have e3 : |x * m - x * M| ≤ 2000 * κ := by
      rw [← mul_sub, abs_mul, abs_of_nonneg hx0]
      exact mul_le_mul h2 me (abs_nonneg _) (by norm_num)
    have e4 : uu * (x * m) ≤ uu * 2000 := mul_le_mul_of_nonneg_left xm1 hu.le
    have e5 : uu * (s + c') ≤ uu * (gs.length + 2000) := mul_le_mul_of_nonneg_left sc1 hu.le
    have e6 : ((gs.length : ℚ) * (gs.length + 13) + 4002) / 2 ^ 53 + gs.length * τ = gs.length * (uu * (gs.length + 1) + (11 * uu + τ)) + uu * (gs.length + 2000) + uu * 2000 + 2 * uu := by
      unfold uu; ring
    rw [zero_add] at se
    have a1 := abs_le.1 e3
    have a2 := abs_le.1 ce
    have a3 := abs_le.1 se
    have a4 := abs_le.1 ve
    rw [e6, abs_le]
    constructor
    · linarith only [a1.1, a2.1, a3.1, a4.1, e4, e5, hu]
    · linarith only [a1.2, a2.2, a3.2, a4.2, e4, e5, hu]

/-- The error bound of `C386`. -/
def slack (n : ℕ) (τ κ : ℚ) : ℚ := (n * (n + 13) + 4002) / 2 ^ 53 + n * τ + 2000 * κ

theorem near_of_input (hR : Rounding R) (hA : Accurate R) (P' : Solver.Par ℚ) (gs : List (Solver.Gal ℚ)) (τ κ : ℚ) (hs : SameInput R P P' gs τ κ)
    (hg : ∀ g ∈ gs, GalOK g) (hn : gs.length ≤ 2 ^ 53) : Near R P (gs.map emb) (Solver.predicted P' gs) (slack gs.length τ κ) := by
  intro q hq
  have : 1 / 2 ≤ q ∧ q ≤ 2000 := by
    rcases hq with h | rfl
    · obtain ⟨a, b⟩ := trial_range h; exact ⟨a, b.le⟩
    · norm_num
  exact C386 hR hA P' gs τ κ hs hg hn q this.1 this.2

/-- C387: the code and the exact computation return the same richness, if at no trial richness the exact predicted richness comes closer to
the trial richness, or to 1, than the error bound. -/
theorem C387_equal (hR : Rounding R) (hA : Accurate R) (ht : P.tol = R (1 / 100)) (P' : Solver.Par ℚ) (gs : List (Solver.Gal ℚ)) (τ κ : ℚ)
    (hs : SameInput R P P' gs τ κ) (hg : ∀ g ∈ gs, GalOK g) (hn : gs.length ≤ 2 ^ 53)
    (haway : ∀ q, Trial q → slack gs.length τ κ < |Solver.predicted P' gs q - q| ∧ slack gs.length τ κ < |Solver.predicted P' gs q - 1|)
    (fuel : ℕ) (res : FlSolver.Res) (res' : Solver.Res ℚ) (h : FlSolver.solveFuel R P (gs.map emb) fuel = some res)
    (h' : Solver.solveFuel P' gs fuel = some res') : res.lambda = fin res'.lambda :=
  C384 hR ht _ P' gs (agree_of_near (near_of_input hR hA P' gs τ κ hs hg hn) haway) fuel res res' h h'

/-- C387: a richness of 2 or more that the code returns is within `δ + 3999/2^19` (less than 0.0077 + `δ`) of the solution `a` of the exact
equation, if `δ` away from the solution the two sides of the equation differ by more than the error bound. -/
theorem C387_close (hR : Rounding R) (hA : Accurate R) (ht : P.tol = R (1 / 100)) (P' : Solver.Par ℚ) (gs : List (Solver.Gal ℚ)) (τ κ δ a : ℚ)
    (hs : SameInput R P P' gs τ κ) (hg : ∀ g ∈ gs, GalOK g) (hn : gs.length ≤ 2 ^ 53) (hδ : 0 ≤ δ) (ha : a ≤ 2000)
    (hup : ∀ x, 1 / 2 ≤ x → x < a - δ → x + slack gs.length τ κ < Solver.predicted P' gs x)
    (hdn : ∀ x, a + δ < x → x ≤ 2000 → Solver.predicted P' gs x ≤ x - slack gs.length τ κ)
    (fuel : ℕ) (res : FlSolver.Res) (h : FlSolver.solveFuel R P (gs.map emb) fuel = some res) (q : ℚ) (hq : res.lambda = fin q) (h2 : 2 ≤ q) :
    |q - a| ≤ δ + 3999 / 2 ^ 19 :=
  C385 hR ht _ _ _ δ a (near_of_input hR hA P' gs τ κ hs hg hn) hδ ha hup hdn fuel res h q hq h2

/-! ## Examples -/

/-- The exact parameters of `toyPar`. -/
def toyExact : Solver.Par ℚ := { rlam := fun _ => 1, nfwnorm := fun _ => 1, soft := fun _ => 1, rsig := 0, c0 := 0, c1 := 0, c2 := 0, c3 := 0 }

/-- Five galaxies that are members with probability `x/(x+1)`: the exact equation is `5x/(x+1) = x`, with the solution 4. -/
def five : List (Solver.Gal ℚ) := List.replicate 5 ⟨1, some 1, 0, 1⟩

theorem toy_same (gs : List (Solver.Gal ℚ)) : SameInput r64 toyPar toyExact gs 0 0 where
  tau := le_rfl
  hard := by simp [toyPar, toyExact, le]
  soft := fun h => absurd h (by simp [toyExact])
  rlam := fun _ _ _ => rfl
  norm := fun _ _ _ => ⟨rfl, by
    show (1 : ℚ) / 2 ^ 400 ≤ 1
    rw [div_le_one (by positivity)]; exact one_le_pow₀ (by norm_num), by
    show (1 : ℚ) ≤ 2 ^ 400
    exact one_le_pow₀ (by norm_num)⟩
  mask := fun _ _ _ => ⟨0, (by decide +kernel : masked r64 toyPar (fin 1) = fin 0), le_rfl, zero_le_one, by simp [toyExact]⟩

theorem five_ok : ∀ g ∈ five, GalOK g := by
  intro g hg
  rw [five, List.mem_replicate] at hg
  rw [hg.2]
  refine ⟨Or.inr ⟨?_, ?_⟩, ?_, ?_⟩
  · show (1 : ℚ) / 2 ^ 400 ≤ 1
    rw [div_le_one (by positivity)]; exact one_le_pow₀ (by norm_num)
  · show (1 : ℚ) ≤ 2 ^ 400
    exact one_le_pow₀ (by norm_num)
  · intro b hb
    simp only [Option.some.injEq] at hb
    subst hb
    exact ⟨zero_le_one, one_le_pow₀ (by norm_num)⟩
  · norm_num

theorem five_predicted (x : ℚ) (hx : 1 / 2 ≤ x) : Solver.predicted toyExact five x = 5 * (x / (x + 1)) := by
  have h : x + 1 ≠ 0 := by linarith
  simp [Solver.predicted, five, Solver.specProb, Solver.specTheta, toyExact, h]
  ring

theorem five_slack : slack five.length 0 0 ≤ 1 / 10 ^ 12 := by
  simp only [slack, five, List.length_replicate]; norm_num

/-- The hypotheses of `C387_close` hold for them with IEEE 754 doubles: the code returns a richness within 0.0077 of 4. -/
example : ∃ res q, FlSolver.solveFuel r64 toyPar (five.map emb) 17 = some res ∧ res.lambda = fin q ∧ 2 ≤ q ∧ |q - 4| ≤ 1 / 10 ^ 11 + 3999 / 2 ^ 19 := by
  have hrun : (FlSolver.solveFuel r64 toyPar (five.map emb) 17).map (fun r => lt (fin 3) r.lambda && finite r.lambda) = some true := by decide +kernel
  cases h : FlSolver.solveFuel r64 toyPar (five.map emb) 17 with
  | none => rw [h] at hrun; cases hrun
  | some res =>
    rw [h] at hrun
    simp only [Option.map_some, Option.some.injEq, Bool.and_eq_true] at hrun
    cases hl : res.lambda with
    | nan => rw [hl] at hrun; simp [finite] at hrun
    | pinf => rw [hl] at hrun; simp [finite] at hrun
    | ninf => rw [hl] at hrun; simp [finite] at hrun
    | fin q =>
      rw [hl] at hrun
      have h3 : 3 < q := by simpa [lt] using hrun.1
      refine ⟨res, q, rfl, hl, by linarith, ?_⟩
      refine C387_close r64_rounding r64_accurate rfl toyExact five 0 0 (1 / 10 ^ 11) 4 (toy_same _) five_ok (by norm_num [five]) (by norm_num)
        (by norm_num) ?_ ?_ 17 res h q hl (by linarith)
      · intro x h1 h2
        rw [five_predicted x h1]
        refine lt_of_le_of_lt (add_le_add_right five_slack x) ?_
        rw [← mul_div_assoc, lt_div_iff₀ (by linarith)]
        nlinarith
      · intro x h1 h2
        rw [five_predicted x (by linarith)]
        refine le_trans ?_ (sub_le_sub_left five_slack x)
        rw [← mul_div_assoc, div_le_iff₀ (by linarith)]
        nlinarith

/-- Two certain members: the exact predicted richness is 2 at every trial, and no trial richness is 2. -/
def two : List (Solver.Gal ℚ) := List.replicate 2 ⟨1, some 0, 0, 1⟩

theorem two_predicted (x : ℚ) (hx : 0 < x) : Solver.predicted toyExact two x = 2 := by
  simp [Solver.predicted, two, Solver.specProb, Solver.specTheta, toyExact, hx.ne']
  norm_num

/-- The hypothesis of `C387_equal` on them. -/
example : ∀ q, Trial q → slack two.length 0 0 < |Solver.predicted toyExact two q - q| ∧ slack two.length 0 0 < |Solver.predicted toyExact two q - 1| := by
  rintro q ⟨j, rfl, hj⟩
  have hx : (0 : ℚ) < 1 / 2 + j * (3999 / 2 ^ 18) := by positivity
  rw [two_predicted _ hx]
  have hsl : slack two.length 0 0 ≤ 1 / 10 ^ 12 := by simp only [slack, two, List.length_replicate]; norm_num
  refine ⟨lt_of_le_of_lt hsl ?_, lt_of_le_of_lt hsl (by norm_num)⟩
  rcases Nat.lt_or_ge j 99 with h | h
  · have hj : (j : ℚ) ≤ 98 := by exact_mod_cast Nat.lt_succ_iff.1 h
    refine lt_of_lt_of_le ?_ (le_abs_self _)
    linarith
  · have hj : (99 : ℚ) ≤ j := by exact_mod_cast h
    refine lt_of_lt_of_le ?_ (neg_le_abs _)
    linarith

end Redmapper.FlExact
