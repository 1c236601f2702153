/-
Properties C207-C213: fit of the depth.
-/
import Verif.Model.DepthFit
import Verif.Props.Mask
import Mathlib.Tactic.Linarith
import Mathlib.Tactic.FieldSimp
import Mathlib.Tactic.Positivity
import Mathlib.Tactic.NormNum
import Mathlib.Tactic.LinearCombination

set_option linter.unusedSectionVars false
set_option linter.unusedSimpArgs false

namespace Redmapper.DepthFit

open Redmapper.Mask (median)

theorem const_pos : 0 < const := by
  unfold const
  have := Real.log_pos (show (1 : ℝ) < 10 by norm_num)
  positivity

theorem flux_pos (zp m : ℝ) : 0 < flux zp m := Real.rpow_pos_of_pos (by norm_num) _

theorem flux_lt (zp m m' : ℝ) : flux zp m < flux zp m' ↔ m' < m := by
  unfold flux
  rw [Real.rpow_lt_rpow_left_iff (by norm_num)]
  constructor
  · intro h; linarith
  · intro h; linarith

theorem flux_inj (zp m m' : ℝ) (h : flux zp m = flux zp m') : m = m' := by
  rcases lt_trichotomy m m' with hl | he | hg
  · have := (flux_lt zp m' m).mpr hl; linarith
  · exact he
  · have := (flux_lt zp m m').mpr hg; linarith

/-! ## C207: meaning of the limiting magnitude -/

/-- The square of the model error. -/
theorem magErr_sq (zp fs t m : ℝ) (hfs : 0 ≤ fs) (ht : 0 < t) :
    (magErr zp fs t m / const) ^ 2 = fs / t * (1 / flux zp m) ^ 2 + 1 / t * (1 / flux zp m) := by
  have hf := flux_pos zp m
  unfold magErr
  simp only
  rw [mul_div_cancel_left₀ _ const_pos.ne', div_pow, Real.sq_sqrt (by positivity)]
  field_simp

theorem magErr_nonneg (zp fs t m : ℝ) (ht : 0 < t) : 0 ≤ magErr zp fs t m := by
  have hf := flux_pos zp m
  have hc := const_pos
  unfold magErr
  simp only
  positivity

theorem magErr_lt (zp fs t m m' : ℝ) (hfs : 0 ≤ fs) (ht : 0 < t) (h : m < m') : magErr zp fs t m < magErr zp fs t m' := by
  have hc := const_pos
  have hlt := (flux_lt zp m' m).mpr h
  have hf := flux_pos zp m'
  have hf' := flux_pos zp m
  have h1 : 1 / flux zp m < 1 / flux zp m' := one_div_lt_one_div_of_lt hf hlt
  have h0 : 0 < 1 / flux zp m := by positivity
  have hsq : (magErr zp fs t m / const) ^ 2 < (magErr zp fs t m' / const) ^ 2 := by
    rw [magErr_sq zp fs t m hfs ht, magErr_sq zp fs t m' hfs ht]
    have h2 : (1 / flux zp m) ^ 2 ≤ (1 / flux zp m') ^ 2 := pow_le_pow_left₀ h0.le h1.le 2
    have h3 : fs / t * (1 / flux zp m) ^ 2 ≤ fs / t * (1 / flux zp m') ^ 2 := mul_le_mul_of_nonneg_left h2 (by positivity)
    have h4 : 1 / t * (1 / flux zp m) < 1 / t * (1 / flux zp m') := mul_lt_mul_of_pos_left h1 (by positivity)
    linarith
  have := lt_of_pow_lt_pow_left₀ 2 (div_nonneg (magErr_nonneg zp fs t m' ht) hc.le) hsq
  rwa [div_lt_div_iff_of_pos_right hc] at this

theorem magErr_limit (zp nsig lim t : ℝ) (hn : 0 < nsig) (ht : 0 < t) : magErr zp (fsky zp nsig lim t) t lim = const / nsig := by
  have hf := flux_pos zp lim
  unfold magErr fsky
  simp only
  have e : (flux zp lim ^ 2 * t / nsig ^ 2 - flux zp lim) * t + t * flux zp lim = (flux zp lim * t / nsig) ^ 2 := by
    field_simp; ring
  rw [e, Real.sqrt_sq (by positivity)]
  field_simp

/-- What the fit returns. -/
theorem calc_pars (fmin : Fmin) (zp nsig sncut : ℝ) (l : List (Option ℝ × Option ℝ)) (p : Pars)
    (h : calcModel fmin zp nsig sncut l = .ok (some p)) :
    ∃ gd lim r, selectGals sncut (finiteGals l) = .ok gd ∧ gd ≠ [] ∧ limStart nsig gd = .ok lim ∧
      fit fmin zp nsig gd (startAt zp nsig gd lim) = some r ∧ p = parsOf zp nsig gd r := by
  unfold calcModel at h
  rcases hg : selectGals sncut (finiteGals l) with e | gd
  · rw [hg] at h; simp [Except.bind] at h
  · rw [hg] at h
    simp only [Except.bind] at h
    by_cases h0 : gd.length = 0
    · rw [if_pos h0] at h; cases h
    · rw [if_neg h0] at h
      rcases hl : limStart nsig gd with e | lim
      · rw [hl] at h; simp [Except.map] at h
      · rw [hl] at h
        simp only [Except.map, Except.ok.injEq] at h
        rcases hf : fit fmin zp nsig gd (startAt zp nsig gd lim) with _ | r
        · rw [hf] at h; cases h
        · rw [hf] at h
          simp only [Option.map_some, Option.some.injEq] at h
          exact ⟨gd, lim, r, rfl, fun hc => h0 (by rw [hc]; rfl), hl, hf, h.symm⟩

/-- If the fit gives a positive exposure and a sky flux that is not negative, a galaxy has by the returned model a significance of at least
the number asked for exactly if it is not fainter than the returned limit; the error at the limit is exactly that of this significance. -/
theorem C207_limit_partial (fmin : Fmin) (zp nsig sncut : ℝ) (hn : 0 < nsig) (l : List (Option ℝ × Option ℝ)) (p : Pars)
    (h : calcModel fmin zp nsig sncut l = .ok (some p)) (ht : 0 < p.exptime) (hs : 0 ≤ p.fsky1) :
    magErr p.zp p.fsky1 p.exptime p.limmag = const / nsig ∧ p.nsig = nsig ∧ p.zp = zp ∧
      ∀ m, magErr p.zp p.fsky1 p.exptime m ≤ const / nsig ↔ m ≤ p.limmag := by
  obtain ⟨gd, lim, r, _, _, _, _, rfl⟩ := calc_pars fmin zp nsig sncut l p h
  have hlim : magErr zp (fsky zp nsig r.1 r.2) r.2 r.1 = const / nsig := magErr_limit zp nsig r.1 r.2 hn ht
  refine ⟨hlim, rfl, rfl, ?_⟩
  intro m
  simp only [parsOf] at hs ht ⊢
  constructor
  · intro hm
    by_contra hc
    have := magErr_lt zp (fsky zp nsig r.1 r.2) r.2 r.1 m hs ht (not_le.mp hc)
    linarith
  · intro hm
    rcases eq_or_lt_of_le hm with rfl | hlt
    · exact hlim.le
    · have := magErr_lt zp (fsky zp nsig r.1 r.2) r.2 m r.1 hs ht hlt
      linarith

/-! ## C208: the data determine the parameters -/

theorem sum_abs_zero (l : List ℝ) (h : (l.map fun x => |x|).sum = 0) : ∀ x ∈ l, x = 0 := by
  induction l with
  | nil => simp
  | cons a rest ih =>
    rw [List.map_cons, List.sum_cons] at h
    have h1 : 0 ≤ (rest.map fun x => |x|).sum := List.sum_nonneg (by
      intro y hy; obtain ⟨z, _, rfl⟩ := List.mem_map.mp hy; exact abs_nonneg z)
    have h2 := abs_nonneg a
    intro x hx
    rcases List.mem_cons.mp hx with rfl | hx
    · exact abs_eq_zero.mp (by linarith)
    · exact ih (by linarith) x hx

/-- For galaxies whose errors are those of the model, with at least two magnitudes, the cost is zero exactly at the parameters of the
model, among all parameters. -/
theorem C208_determined (maxp zp nsig : ℝ) (hn : 0 < nsig) (lim t : ℝ) (ht : 0 < t) (hmax : t ≤ maxp) (hs : 0 ≤ fsky zp nsig lim t)
    (mags : List ℝ) (m1 m2 : ℝ) (h1 : m1 ∈ mags) (h2 : m2 ∈ mags) (hne : m1 ≠ m2) (x : ℝ × ℝ) :
    cost maxp zp nsig (mags.map fun m => (m, magErr zp (fsky zp nsig lim t) t m)) x = 0 ↔ x = (lim, t) := by
  have hpen : penalty ≠ 0 := by unfold penalty; norm_num
  constructor
  · intro hc
    unfold cost at hc
    by_cases hr : x.2 < 0 ∨ x.2 > maxp
    · rw [if_pos hr] at hc; exact absurd hc hpen
    rw [if_neg hr] at hc
    by_cases hf : fsky zp nsig x.1 x.2 < 0
    · rw [if_pos hf] at hc; exact absurd hc hpen
    rw [if_neg hf] at hc
    have hx0 : 0 ≤ x.2 := by by_contra hneg; exact hr (Or.inl (not_le.mp hneg))
    have hf0 : 0 ≤ fsky zp nsig x.1 x.2 := not_lt.mp hf
    have hfx := flux_pos zp x.1
    have hfl := flux_pos zp lim
    have hx : 0 < x.2 := by
      rcases eq_or_lt_of_le hx0 with he | hl
      · exfalso
        unfold fsky at hf0
        rw [← he] at hf0
        simp at hf0
        linarith
      · exact hl
    rw [List.map_map] at hc
    have hall : ∀ m ∈ mags, magErr zp (fsky zp nsig x.1 x.2) x.2 m = magErr zp (fsky zp nsig lim t) t m := by
      intro m hm
      have := sum_abs_zero (mags.map fun m => magErr zp (fsky zp nsig x.1 x.2) x.2 m - magErr zp (fsky zp nsig lim t) t m) (by
        rw [List.map_map]; exact hc) _ (List.mem_map_of_mem hm)
      linarith
    have hq : ∀ m ∈ mags, fsky zp nsig x.1 x.2 / x.2 * (1 / flux zp m) + 1 / x.2 = fsky zp nsig lim t / t * (1 / flux zp m) + 1 / t := by
      intro m hm
      have e := congrArg (fun v => (v / const) ^ 2) (hall m hm)
      rw [magErr_sq _ _ _ _ hf0 hx, magErr_sq _ _ _ _ hs ht] at e
      have hu : 0 < 1 / flux zp m := by have := flux_pos zp m; positivity
      have : (fsky zp nsig x.1 x.2 / x.2 * (1 / flux zp m) + 1 / x.2) * (1 / flux zp m) =
          (fsky zp nsig lim t / t * (1 / flux zp m) + 1 / t) * (1 / flux zp m) := by linarith
      exact mul_right_cancel₀ hu.ne' this
    have hune : 1 / flux zp m1 ≠ 1 / flux zp m2 := by
      intro hh
      apply hne
      apply flux_inj zp
      have p1 := flux_pos zp m1
      have p2 := flux_pos zp m2
      field_simp at hh
      linarith
    have q1 := hq m1 h1
    have q2 := hq m2 h2
    have ha : fsky zp nsig x.1 x.2 / x.2 = fsky zp nsig lim t / t := by
      have : (fsky zp nsig x.1 x.2 / x.2 - fsky zp nsig lim t / t) * (1 / flux zp m1 - 1 / flux zp m2) = 0 := by linarith
      rcases mul_eq_zero.mp this with h | h
      · linarith
      · exact absurd (sub_eq_zero.mp h) hune
    have hb : 1 / x.2 = 1 / t := by rw [ha] at q1; linarith
    have htt : x.2 = t := by
      have := congrArg (fun v => 1 / v) hb
      simpa using this
    have hfs : fsky zp nsig x.1 t = fsky zp nsig lim t := by
      rw [htt] at ha
      field_simp at ha
      exact ha
    rw [htt] at hf0
    have hflux : flux zp x.1 = flux zp lim := by
      have hn2 : 0 < nsig ^ 2 := by positivity
      have g1 : 1 ≤ flux zp x.1 * t / nsig ^ 2 := by
        unfold fsky at hf0
        have : 0 ≤ flux zp x.1 * (flux zp x.1 * t / nsig ^ 2 - 1) := by
          have e : flux zp x.1 * (flux zp x.1 * t / nsig ^ 2 - 1) = flux zp x.1 ^ 2 * t / nsig ^ 2 - flux zp x.1 := by ring
          rw [e]; exact hf0
        have := nonneg_of_mul_nonneg_right this hfx
        linarith
      have g2 : 1 ≤ flux zp lim * t / nsig ^ 2 := by
        unfold fsky at hs
        have : 0 ≤ flux zp lim * (flux zp lim * t / nsig ^ 2 - 1) := by
          have e : flux zp lim * (flux zp lim * t / nsig ^ 2 - 1) = flux zp lim ^ 2 * t / nsig ^ 2 - flux zp lim := by ring
          rw [e]; exact hs
        have := nonneg_of_mul_nonneg_right this hfl
        linarith
      unfold fsky at hfs
      have : (flux zp x.1 - flux zp lim) * (flux zp x.1 * t / nsig ^ 2 + flux zp lim * t / nsig ^ 2 - 1) = 0 := by
        have e : (flux zp x.1 - flux zp lim) * (flux zp x.1 * t / nsig ^ 2 + flux zp lim * t / nsig ^ 2 - 1) =
          (flux zp x.1 ^ 2 * t / nsig ^ 2 - flux zp x.1) - (flux zp lim ^ 2 * t / nsig ^ 2 - flux zp lim) := by ring
        rw [e, hfs, sub_self]
      rcases mul_eq_zero.mp this with h | h
      · linarith
      · linarith
    exact Prod.ext (flux_inj zp _ _ hflux) htt
  · rintro rfl
    unfold cost
    rw [if_neg (by simp only [not_or, not_lt]; exact ⟨ht.le, hmax⟩), if_neg (not_lt.mpr hs), List.map_map]
    have : ((fun g : Gal => |magErr zp (fsky zp nsig lim t) t g.1 - g.2|) ∘ fun m => (m, magErr zp (fsky zp nsig lim t) t m)) =
        fun _ => (0 : ℝ) := by funext m; simp
    simp only at this ⊢
    rw [this]
    simp

/-! ## C209: the fit is a fit -/

/-- The minimizer does not return something worse than its start. -/
def FminOK (fmin : Fmin) : Prop := ∀ (f : ℝ × ℝ → ℝ) (p0 : ℝ × ℝ), f (fmin f p0).1 ≤ f p0

theorem argmin_spec (f : Nat → ℝ) (n : Nat) (hn : 0 < n) : argmin f n < n ∧ ∀ i < n, f (argmin f n) ≤ f i := by
  have key : ∀ k, (List.range k).foldl (fun best i => if f i < f best then i else best) 0 < max k 1 ∧
      ∀ i < k, f ((List.range k).foldl (fun best i => if f i < f best then i else best) 0) ≤ f i := by
    intro k
    induction k with
    | zero => simp
    | succ k ih =>
      rw [List.range_succ, List.foldl_append, List.foldl_cons, List.foldl_nil]
      set b := (List.range k).foldl (fun best i => if f i < f best then i else best) 0 with hb
      by_cases h : f k < f b
      · rw [if_pos h]
        refine ⟨by omega, ?_⟩
        intro i hi
        rcases Nat.lt_or_ge i k with h' | h'
        · exact le_trans h.le (ih.2 i h')
        · have : i = k := by omega
          rw [this]
      · rw [if_neg h]
        refine ⟨by have := ih.1; omega, ?_⟩
        intro i hi
        rcases Nat.lt_or_ge i k with h' | h'
        · exact ih.2 i h'
        · have : i = k := by omega
          rw [this]; exact not_lt.mp h
  have := key n
  exact ⟨by have := this.1; unfold argmin; omega, this.2⟩

theorem expTime_pos (zp : ℝ) (i : Nat) : 0 < expTime zp i := by
  unfold expTime
  have : (0 : ℝ) < (10 : ℝ) ^ ((zp - 225 / 10) / (25 / 10)) := Real.rpow_pos_of_pos (by norm_num) _
  positivity

theorem cost_max (a b zp nsig : ℝ) (gd : List Gal) (x : ℝ × ℝ) (ha : x.2 ≤ a) (hb : x.2 ≤ b) : cost a zp nsig gd x = cost b zp nsig gd x := by
  unfold cost
  have e : (x.2 < 0 ∨ x.2 > a) = (x.2 < 0 ∨ x.2 > b) := by
    apply propext
    constructor
    · rintro (h | h)
      · exact Or.inl h
      · exact absurd h (not_lt.mpr ha)
    · rintro (h | h)
      · exact Or.inl h
      · exact absurd h (not_lt.mpr hb)
  simp only [e]

/-- The distance between errors of galaxies and model, without penalties. -/
noncomputable def distance (zp nsig : ℝ) (gd : List Gal) (lim t : ℝ) : ℝ :=
  (gd.map fun g => |magErr zp (fsky zp nsig lim t) t g.1 - g.2|).sum

theorem cost_feasible (maxp zp nsig : ℝ) (gd : List Gal) (x : ℝ × ℝ) (h0 : 0 ≤ x.2) (h1 : x.2 ≤ maxp) (hs : 0 ≤ fsky zp nsig x.1 x.2) :
    cost maxp zp nsig gd x = distance zp nsig gd x.1 x.2 := by
  unfold cost distance
  rw [if_neg (by simp only [not_or, not_lt]; exact ⟨h0, h1⟩), if_neg (not_lt.mpr hs)]

/-- If at one of the exposures that are tried the sky flux is not negative and the distance below the penalty, the result has positive
exposure and sky flux that is not negative, and its distance is at most that at each exposure that is tried. -/
theorem C209_fit_partial (fmin : Fmin) (hf : FminOK fmin) (zp nsig sncut : ℝ) (l : List (Option ℝ × Option ℝ)) (p : Pars)
    (h : calcModel fmin zp nsig sncut l = .ok (some p)) :
    ∃ gd lim, selectGals sncut (finiteGals l) = .ok gd ∧ limStart nsig gd = .ok lim ∧
      ∀ i < 20, 0 ≤ fsky zp nsig lim (expTime zp i) → distance zp nsig gd lim (expTime zp i) < penalty →
        0 < p.exptime ∧ 0 ≤ p.fsky1 ∧ distance zp nsig gd p.limmag p.exptime ≤ distance zp nsig gd lim (expTime zp i) := by
  obtain ⟨gd, lim, r, h1, _, h3, h4, rfl⟩ := calc_pars fmin zp nsig sncut l p h
  refine ⟨gd, lim, h1, h3, ?_⟩
  intro i hi hs hd
  set p0 := startAt zp nsig gd lim with hp0
  have hr : r = (fmin (cost (10 * p0.2) zp nsig gd) p0).1 := by
    unfold fit at h4
    simp only at h4
    split at h4
    · cases h4
    · exact (Option.some.inj h4).symm
  have hle := hf (cost (10 * p0.2) zp nsig gd) p0
  rw [← hr] at hle
  have harg := (argmin_spec (tTest zp nsig gd lim) 20 (by norm_num)).2 i hi
  set a := argmin (tTest zp nsig gd lim) 20 with ha
  have hpa : p0 = (lim, expTime zp a) := rfl
  have hta := expTime_pos zp a
  have hti := expTime_pos zp i
  have e1 : cost (10 * p0.2) zp nsig gd p0 = tTest zp nsig gd lim a := by
    rw [hpa]
    exact cost_max _ _ zp nsig gd _ (by simp only; linarith) (by simp only; linarith)
  have e2 : tTest zp nsig gd lim i = distance zp nsig gd lim (expTime zp i) :=
    cost_feasible _ zp nsig gd (lim, expTime zp i) hti.le (by simp only; linarith) hs
  have hcost : cost (10 * p0.2) zp nsig gd r ≤ distance zp nsig gd lim (expTime zp i) := by
    rw [← e2]; exact le_trans hle (by rw [e1]; exact harg)
  have hlt : cost (10 * p0.2) zp nsig gd r < penalty := lt_of_le_of_lt hcost hd
  have hrange : ¬ (r.2 < 0 ∨ r.2 > 10 * p0.2) := by
    intro hc
    unfold cost at hlt
    rw [if_pos hc] at hlt
    exact lt_irrefl _ hlt
  have hfs : ¬ fsky zp nsig r.1 r.2 < 0 := by
    intro hc
    unfold cost at hlt
    rw [if_neg hrange, if_pos hc] at hlt
    exact lt_irrefl _ hlt
  have h0 : 0 ≤ r.2 := by by_contra hc; exact hrange (Or.inl (not_le.mp hc))
  have h1' : r.2 ≤ 10 * p0.2 := by by_contra hc; exact hrange (Or.inr (not_le.mp hc))
  have hfs' : 0 ≤ fsky zp nsig r.1 r.2 := not_lt.mp hfs
  refine ⟨?_, hfs', ?_⟩
  · simp only [parsOf]
    rcases eq_or_lt_of_le h0 with he | hl
    · exfalso
      have := flux_pos zp r.1
      unfold fsky at hfs'
      rw [← he] at hfs'
      simp at hfs'
      linarith
    · exact hl
  · simp only [parsOf]
    rw [← cost_feasible (10 * p0.2) zp nsig gd r h0 h1' hfs']
    exact hcost

/-- For data so deep that the start is fainter than magnitude 27.5 (with the zero point that is always used), every exposure that is tried
has a negative sky flux, and a minimizer that keeps the contract can return the start: a limit of a model without errors. -/
theorem C209_false (gd : List Gal) (lim : ℝ) (hlim : 275 / 10 < lim) :
    (∀ i < 20, fsky (225 / 10) 10 lim (expTime (225 / 10) i) < 0) ∧
    ∃ fmin, FminOK fmin ∧ fit fmin (225 / 10) 10 gd (startAt (225 / 10) 10 gd lim) = some (startAt (225 / 10) 10 gd lim) ∧
      (parsOf (225 / 10) 10 gd (startAt (225 / 10) 10 gd lim)).fsky1 < 0 := by
  have hexp : ∀ i < 20, expTime (225 / 10) i ≤ 10000 := by
    intro i hi
    unfold expTime
    simp only [sub_self, zero_div, Real.rpow_zero, div_one, Real.log_one, sub_zero, mul_one]
    have hl : 0 < Real.log 10000 := Real.log_pos (by norm_num)
    have : (i : ℝ) * (Real.log 10000 / 19) ≤ Real.log 10000 := by
      have : (i : ℝ) ≤ 19 := by exact_mod_cast (by omega : i ≤ 19)
      rw [mul_div_assoc', div_le_iff₀ (by norm_num)]
      nlinarith
    calc Real.exp ((i : ℝ) * (Real.log 10000 / 19)) ≤ Real.exp (Real.log 10000) := Real.exp_le_exp.mpr this
      _ = 10000 := Real.exp_log (by norm_num)
  have hflux : flux (225 / 10) lim < 1 / 100 := by
    have h1 := (flux_lt (225 / 10) lim (275 / 10)).mpr hlim
    have h2 : flux (225 / 10) (275 / 10) = 1 / 100 := by
      unfold flux
      have : ((275 / 10 - 225 / 10 : ℝ) / (-(25 / 10))) = -2 := by norm_num
      rw [this, Real.rpow_neg (by norm_num)]
      norm_num
    linarith
  have hneg : ∀ i < 20, fsky (225 / 10) 10 lim (expTime (225 / 10) i) < 0 := by
    intro i hi
    have hf := flux_pos (225 / 10) lim
    have ht := expTime_pos (225 / 10) i
    have ht' := hexp i hi
    unfold fsky
    have : flux (225 / 10) lim ^ 2 * expTime (225 / 10) i / 10 ^ 2 - flux (225 / 10) lim =
        flux (225 / 10) lim * (flux (225 / 10) lim * expTime (225 / 10) i / 100 - 1) := by ring
    rw [this]
    apply mul_neg_of_pos_of_neg hf
    have : flux (225 / 10) lim * expTime (225 / 10) i ≤ 1 / 100 * 10000 := mul_le_mul hflux.le ht' ht.le (by norm_num)
    have h3 : flux (225 / 10) lim * expTime (225 / 10) i < 100 := by
      calc flux (225 / 10) lim * expTime (225 / 10) i < 1 / 100 * expTime (225 / 10) i := mul_lt_mul_of_pos_right hflux ht
        _ ≤ 1 / 100 * 10000 := mul_le_mul_of_nonneg_left ht' (by norm_num)
        _ = 100 := by norm_num
    linarith
  refine ⟨hneg, fun f p0 => (p0, false), fun f p0 => le_refl _, rfl, ?_⟩
  simp only [parsOf, startAt]
  exact hneg _ (argmin_spec _ 20 (by norm_num)).1

/-! ## C210: galaxies used -/

theorem ranked_ok (l : List ℝ) (k : Nat) (hk : k < l.length) : ∃ v, ranked l k = .ok v ∧ v ∈ l ∧
    (l.countP fun y => decide (y < v)) ≤ k ∧ k < (l.countP fun y => decide (y ≤ v)) := by
  set s := l.mergeSort (fun a b => decide (a ≤ b)) with hs
  have hperm : s.Perm l := List.mergeSort_perm _ _
  have hsort : s.Pairwise (· ≤ ·) := by
    have := List.pairwise_mergeSort (le := fun a b : ℝ => decide (a ≤ b))
      (by intro a b c h1 h2; simp only [decide_eq_true_eq] at *; linarith)
      (by intro a b; simp only [Bool.or_eq_true, decide_eq_true_eq]; exact le_total a b) l
    exact this.imp (by intro a b h; simpa using h)
  have hk' : k < s.length := by rw [hperm.length_eq]; exact hk
  refine ⟨s[k], ?_, hperm.mem_iff.mp (List.getElem_mem _), ?_, ?_⟩
  · unfold ranked
    rw [← hs, List.getElem?_eq_getElem hk']
  · rw [← hperm.countP_eq]
    have e : s = s.take k ++ s.drop k := (List.take_append_drop k s).symm
    have h0 : (s.drop k).countP (fun y => decide (y < s[k])) = 0 := by
      rw [List.countP_eq_zero]
      intro y hy
      obtain ⟨i, hi, rfl⟩ := List.getElem_of_mem hy
      rw [List.getElem_drop]
      simp only [decide_eq_true_eq, not_lt]
      rcases Nat.eq_zero_or_pos i with h | h
      · subst h; simp
      · exact List.pairwise_iff_getElem.mp hsort k (k + i) hk' _ (by omega)
    calc s.countP (fun y => decide (y < s[k])) = (s.take k).countP (fun y => decide (y < s[k])) + (s.drop k).countP (fun y => decide (y < s[k])) := by
          rw [← List.countP_append, List.take_append_drop]
      _ ≤ k := by rw [h0]; have := List.countP_le_length (p := fun y => decide (y < s[k])) (l := s.take k); simp at this ⊢; omega
  · rw [← hperm.countP_eq]
    have h0 : (s.take (k + 1)).countP (fun y => decide (y ≤ s[k])) = (s.take (k + 1)).length := by
      rw [List.countP_eq_length]
      intro y hy
      obtain ⟨i, hi, rfl⟩ := List.getElem_of_mem hy
      rw [List.getElem_take]
      simp only [List.length_take] at hi
      simp only [decide_eq_true_eq]
      rcases Nat.lt_or_ge i k with h | h
      · exact List.pairwise_iff_getElem.mp hsort i k _ hk' h
      · have : i = k := by omega
        subst this; exact le_refl _
    calc k < (s.take (k + 1)).length := by simp; omega
      _ = (s.take (k + 1)).countP (fun y => decide (y ≤ s[k])) := h0.symm
      _ ≤ s.countP (fun y => decide (y ≤ s[k])) := by
          exact (List.take_sublist _ _).countP_le

theorem mem_finite (l : List (Option ℝ × Option ℝ)) (m e : ℝ) : (m, e) ∈ finiteGals l ↔ (some m, some e) ∈ l ∧ 0 < e := by
  unfold finiteGals
  rw [List.mem_filterMap]
  constructor
  · rintro ⟨⟨a, b⟩, hg, h⟩
    rcases a with _ | a <;> rcases b with _ | b <;> simp only [reduceCtorEq] at h
    split at h
    · rename_i hp; cases h; exact ⟨hg, hp⟩
    · cases h
  · rintro ⟨hg, hp⟩
    exact ⟨_, hg, by simp [hp]⟩

/-- If there is a galaxy with finite magnitude and positive error, there is no error; the galaxies used are those with finite magnitude,
positive finite error, significance above the cut and magnitude below a value that 98% of them (rounded down) at most are below and more
are not above. If there is none the fit fails. -/
theorem C210_selection_partial (sncut : ℝ) (l : List (Option ℝ × Option ℝ)) (hne : finiteGals l ≠ []) :
    ∃ gd cut, selectGals sncut (finiteGals l) = .ok gd ∧
      (∀ m e, (m, e) ∈ gd ↔ (some m, some e) ∈ l ∧ 0 < e ∧ e < const / sncut ∧ m < cut) ∧
      ((finiteGals l).countP fun g => decide (g.1 < cut)) ≤ 98 * (finiteGals l).length / 100 ∧
      98 * (finiteGals l).length / 100 < ((finiteGals l).countP fun g => decide (g.1 ≤ cut)) := by
  set g := finiteGals l with hg
  have hpos : 0 < g.length := List.length_pos_of_ne_nil hne
  obtain ⟨cut, hcut, _, hc1, hc2⟩ := ranked_ok (g.map Prod.fst) (98 * g.length / 100) (by rw [List.length_map]; omega)
  refine ⟨g.filter fun x => decide (x.1 < cut) && decide (x.2 < const / sncut), cut, ?_, ?_, ?_, ?_⟩
  · unfold selectGals
    rw [hcut]
    rfl
  · intro m e
    rw [List.mem_filter, hg, mem_finite]
    simp only [Bool.and_eq_true, decide_eq_true_eq]
    tauto
  · rw [List.countP_map] at hc1; exact hc1
  · rw [List.countP_map] at hc2; exact hc2

theorem C210_fails (fmin : Fmin) (zp nsig sncut : ℝ) (l : List (Option ℝ × Option ℝ)) (h : selectGals sncut (finiteGals l) = .ok []) :
    calcModel fmin zp nsig sncut l = .ok none := by
  unfold calcModel
  rw [h]
  rfl

/-- Without a usable galaxy there is an IndexError, not the failure flag: `calc_maskdepth` has no depth, although there is a default. -/
theorem C210_empty_false (fmin : Fmin) (init : Pars) (rows : List MaskRow) (l : List (Option ℝ × Option ℝ)) (h : finiteGals l = []) :
    calcMaskdepth fmin init rows l = .error .indexError := by
  unfold calcMaskdepth calcModel selectGals
  rw [h]
  simp [ranked, Except.map, Except.bind]

/-- With a usable galaxy there is never an error. -/
theorem C210_no_error_partial (fmin : Fmin) (zp nsig sncut : ℝ) (l : List (Option ℝ × Option ℝ)) (hne : finiteGals l ≠ []) :
    ∃ r, calcModel fmin zp nsig sncut l = .ok r := by
  obtain ⟨gd, cut, h, _⟩ := C210_selection_partial sncut l hne
  unfold calcModel
  rw [h]
  simp only [Except.bind]
  by_cases h0 : gd.length = 0
  · rw [if_pos h0]; exact ⟨_, rfl⟩
  · rw [if_neg h0]
    have : ∃ lim, limStart nsig gd = .ok lim := by
      unfold limStart
      simp only
      split
      · exact ⟨_, rfl⟩
      · obtain ⟨v, hv, _⟩ := ranked_ok (gd.map Prod.fst) (95 * gd.length / 100) (by rw [List.length_map]; omega)
        exact ⟨v, hv⟩
    obtain ⟨lim, hl⟩ := this
    rw [hl]
    exact ⟨_, rfl⟩

/-- The start lies between the magnitudes of the galaxies used. -/
theorem C210_start (nsig : ℝ) (gd : List Gal) (lo hi : ℝ) (h : ∀ g ∈ gd, lo ≤ g.1 ∧ g.1 ≤ hi) (lim : ℝ) (hl : limStart nsig gd = .ok lim) :
    lo ≤ lim ∧ lim ≤ hi := by
  unfold limStart at hl
  simp only at hl
  split at hl
  · rename_i h3
    cases hl
    apply Mask.median_between
    · intro hc
      have := congrArg List.length hc
      simp only [List.length_map, List.length_nil] at this
      omega
    · intro x hx
      obtain ⟨g, hg, rfl⟩ := List.mem_map.mp hx
      exact h g (List.mem_of_mem_filter hg)
  · by_cases hk : 95 * gd.length / 100 < (gd.map Prod.fst).length
    · obtain ⟨v, hv, hmem, _⟩ := ranked_ok _ _ hk
      rw [hv] at hl
      cases hl
      obtain ⟨g, hg, rfl⟩ := List.mem_map.mp hmem
      exact h g hg
    · unfold ranked at hl
      rw [List.getElem?_eq_none (by simpa using hk)] at hl
      cases hl

/-- Two galaxies and a minimizer that stays at its start: the fit succeeds with positive exposure and sky flux, as C207 wants. -/
theorem calc_example : ∃ p, calcModel (fun _ p0 => (p0, false)) (225 / 10) 10 5 [(some 20, some (1 / 20)), (some 21, some (1 / 20))] = .ok (some p) ∧
    p.limmag = 20 ∧ 0 < p.exptime ∧ 0 ≤ p.fsky1 := by
  have hfin : finiteGals [(some 20, some (1 / 20)), (some 21, some (1 / 20))] = [(20, 1 / 20), (21, 1 / 20)] := by
    simp [finiteGals]
  have hconst : (1 : ℝ) / 20 < const / 5 := by
    unfold const
    have h1 := Real.log_le_sub_one_of_pos (show (0 : ℝ) < 10 by norm_num)
    have h2 := Real.log_pos (show (1 : ℝ) < 10 by norm_num)
    rw [div_div, lt_div_iff₀ (by positivity)]
    linarith
  have hrank : ranked [(20 : ℝ), 21] 1 = .ok 21 := by
    obtain ⟨v, h1, h2, _, h4⟩ := ranked_ok [(20 : ℝ), 21] 1 (by simp)
    rw [h1]
    simp only [List.mem_cons, List.not_mem_nil, or_false] at h2
    rcases h2 with rfl | rfl
    · norm_num [List.countP_cons] at h4
    · rfl
  have hrank1 : ranked [(20 : ℝ)] 0 = .ok 20 := by simp [ranked]
  have hsel : selectGals 5 (finiteGals [(some 20, some (1 / 20)), (some 21, some (1 / 20))]) = .ok [(20, 1 / 20)] := by
    rw [hfin]
    unfold selectGals
    simp only [List.map_cons, List.map_nil, List.length_cons, List.length_nil, show 98 * (0 + 1 + 1) / 100 = 1 from rfl, hrank, Except.map]
    have h1 : ((20 : ℝ) < 21) := by norm_num
    rw [List.filter_cons_of_pos (by simp only [h1, hconst]; rfl), List.filter_cons_of_neg (by simp), List.filter_nil]
  have hlim : limStart 10 [((20 : ℝ), (1 / 20 : ℝ))] = .ok 20 := by
    unfold limStart
    simp only
    rw [if_neg (by
      have := List.length_filter_le (fun g : Gal => decide (g.2 > const / 10) && decide (g.2 < 11 / 10 * const / 10)) [(20, 1 / 20)]
      simp only [List.length_cons, List.length_nil] at this
      omega)]
    exact hrank1
  have hcalc : calcModel (fun _ p0 => (p0, false)) (225 / 10) 10 5 [(some 20, some (1 / 20)), (some 21, some (1 / 20))] =
      .ok (some (parsOf (225 / 10) 10 [(20, 1 / 20)] (startAt (225 / 10) 10 [(20, 1 / 20)] 20))) := by
    unfold calcModel
    rw [hsel]
    simp only [Except.bind, List.length_cons, List.length_nil]
    rw [if_neg (by norm_num), hlim]
    rfl
  refine ⟨_, hcalc, rfl, ?_⟩
  obtain ⟨gd, lim, h1, h2, h3⟩ := C209_fit_partial (fun _ p0 => (p0, false)) (fun f p0 => le_refl _) (225 / 10) 10 5 _ _ hcalc
  rw [hsel] at h1
  cases h1
  rw [hlim] at h2
  cases h2
  have ht : expTime (225 / 10) 19 = 10000 := by
    unfold expTime
    simp only [sub_self, zero_div, Real.rpow_zero, div_one, Real.log_one, sub_zero, mul_one]
    have e : ((19 : Nat) : ℝ) * (Real.log 10000 / 19) = Real.log 10000 := by push_cast; ring
    rw [e, Real.exp_log (by norm_num)]
  have hflux : flux (225 / 10) 20 = 10 := by
    unfold flux
    have : ((20 - 225 / 10 : ℝ) / (-(25 / 10))) = 1 := by norm_num
    rw [this, Real.rpow_one]
  have hfs : fsky (225 / 10) 10 20 10000 = 9990 := by unfold fsky; rw [hflux]; norm_num
  have := h3 19 (by norm_num) (by rw [ht, hfs]; norm_num) (by
    unfold distance
    simp only [List.map_cons, List.map_nil, List.sum_cons, List.sum_nil, add_zero]
    rw [magErr_limit _ _ _ _ (by norm_num) (expTime_pos _ _)]
    unfold penalty
    have hc := const_pos
    have hl : Real.log 10 > 1 / 10 := by
      have := Real.one_sub_inv_le_log_of_pos (show (0 : ℝ) < 10 by norm_num)
      norm_num at this ⊢
      linarith
    have hcu : const < 25 := by
      unfold const
      rw [div_lt_iff₀ (by linarith)]
      linarith
    rw [abs_lt]
    constructor <;> linarith)
  exact ⟨this.1, this.2.1⟩

/-! ## C211: the zero point does not matter -/

/-- Factor between fluxes for two zero points. -/
noncomputable def scale (d : ℝ) : ℝ := (10 : ℝ) ^ (d / (25 / 10))

theorem scale_pos (d : ℝ) : 0 < scale d := Real.rpow_pos_of_pos (by norm_num) _

theorem flux_shift (zp d m : ℝ) : flux (zp + d) m = scale d * flux zp m := by
  unfold flux scale
  rw [← Real.rpow_add (by norm_num)]
  congr 1
  ring

theorem fsky_shift (zp d nsig lim t : ℝ) : fsky (zp + d) nsig lim (t / scale d) = scale d * fsky zp nsig lim t := by
  have := scale_pos d
  unfold fsky
  rw [flux_shift]
  field_simp

theorem magErr_shift (zp d fs t m : ℝ) : magErr (zp + d) (scale d * fs) (t / scale d) m = magErr zp fs t m := by
  have hs := scale_pos d
  unfold magErr
  simp only
  rw [flux_shift]
  have e1 : t / scale d * (scale d * flux zp m) = t * flux zp m := by field_simp
  have e2 : scale d * fs * (t / scale d) = fs * t := by field_simp
  rw [e1, e2]

theorem cost_shift (maxp zp d nsig : ℝ) (gd : List Gal) (lim t : ℝ) :
    cost (maxp / scale d) (zp + d) nsig gd (lim, t / scale d) = cost maxp zp nsig gd (lim, t) := by
  have hs := scale_pos d
  unfold cost
  simp only [fsky_shift, magErr_shift]
  have e1 : (t / scale d < 0 ∨ t / scale d > maxp / scale d) = (t < 0 ∨ t > maxp) := by
    apply propext
    rw [gt_iff_lt, div_lt_div_iff_of_pos_right hs, div_lt_iff₀ hs, zero_mul]
  have e2 : (scale d * fsky zp nsig lim t < 0) = (fsky zp nsig lim t < 0) := by
    apply propext
    constructor
    · intro h; by_contra hc; have := mul_nonneg hs.le (not_lt.mp hc); linarith
    · intro h; exact mul_neg_of_pos_of_neg hs h
  simp only [e1, e2]

theorem expTime_shift (zp d : ℝ) (i : Nat) : expTime (zp + d) i = expTime zp i / scale d := by
  unfold expTime
  simp only
  have hs := scale_pos d
  set a := (10 : ℝ) ^ ((zp - 225 / 10) / (25 / 10)) with ha
  have hap : 0 < a := Real.rpow_pos_of_pos (by norm_num) _
  have e : (10 : ℝ) ^ ((zp + d - 225 / 10) / (25 / 10)) = a * scale d := by
    rw [ha, scale, ← Real.rpow_add (by norm_num)]
    congr 1
    ring
  rw [e]
  have l1 : Real.log (10000 / (a * scale d)) - Real.log (1 / (a * scale d)) = Real.log 10000 := by
    rw [Real.log_div (by norm_num) (by positivity), Real.log_div (by norm_num) (by positivity), Real.log_one]; ring
  have l2 : Real.log (10000 / a) - Real.log (1 / a) = Real.log 10000 := by
    rw [Real.log_div (by norm_num) (by positivity), Real.log_div (by norm_num) (by positivity), Real.log_one]; ring
  rw [l1, l2]
  field_simp

theorem start_shift (zp d nsig : ℝ) (gd : List Gal) (lim : ℝ) :
    startAt (zp + d) nsig gd lim = ((startAt zp nsig gd lim).1, (startAt zp nsig gd lim).2 / scale d) := by
  have e : tTest (zp + d) nsig gd lim = tTest zp nsig gd lim := by
    funext i
    unfold tTest
    rw [expTime_shift]
    have := cost_shift (expTime zp i * 2) zp d nsig gd lim (expTime zp i)
    rw [← this]
    congr 1
    ring
  unfold startAt
  rw [e, expTime_shift]

/-- The minimizer does not see the unit of the second parameter. -/
def FminScales (fmin : Fmin) (c : ℝ) : Prop :=
  ∀ (f : ℝ × ℝ → ℝ) (p0 : ℝ × ℝ), fmin (fun x => f (x.1, x.2 * c)) (p0.1, p0.2 / c) = (((fmin f p0).1.1, (fmin f p0).1.2 / c), (fmin f p0).2)

/-- With another zero point the function that is minimized and its start are the same but for the unit of the exposure. -/
theorem C211_same_problem (zp d nsig : ℝ) (gd : List Gal) (lim : ℝ) :
    startAt (zp + d) nsig gd lim = ((startAt zp nsig gd lim).1, (startAt zp nsig gd lim).2 / scale d) ∧
    cost (10 * (startAt (zp + d) nsig gd lim).2) (zp + d) nsig gd =
      fun x => cost (10 * (startAt zp nsig gd lim).2) zp nsig gd (x.1, x.2 * scale d) := by
  refine ⟨start_shift zp d nsig gd lim, ?_⟩
  funext x
  rw [start_shift]
  have hs := scale_pos d
  have := cost_shift (10 * (startAt zp nsig gd lim).2) zp d nsig gd x.1 (x.2 * scale d)
  rw [← this]
  have e1 : x.2 * scale d / scale d = x.2 := by field_simp
  simp only [e1]
  congr 1
  ring

/-- So a minimizer that does not see units finds the same limiting magnitude, the same outliers and the same errors for all galaxies. -/
theorem C211_zeropoint (fmin : Fmin) (zp d nsig sncut : ℝ) (hf : FminScales fmin (scale d)) (l : List (Option ℝ × Option ℝ)) :
    (∀ p, calcModel fmin zp nsig sncut l = .ok (some p) → ∃ q, calcModel fmin (zp + d) nsig sncut l = .ok (some q) ∧
      q.limmag = p.limmag ∧ q.fracOut = p.fracOut ∧ ∀ m, magErr q.zp q.fsky1 q.exptime m = magErr p.zp p.fsky1 p.exptime m) ∧
    (calcModel fmin zp nsig sncut l = .ok none → calcModel fmin (zp + d) nsig sncut l = .ok none) := by
  have key : ∀ gd lim, fit fmin (zp + d) nsig gd (startAt (zp + d) nsig gd lim) =
      (fit fmin zp nsig gd (startAt zp nsig gd lim)).map fun r => (r.1, r.2 / scale d) := by
    intro gd lim
    obtain ⟨h1, h2⟩ := C211_same_problem zp d nsig gd lim
    unfold fit
    simp only
    rw [h2, h1, hf]
    by_cases hb : (fmin (cost (10 * (startAt zp nsig gd lim).2) zp nsig gd) (startAt zp nsig gd lim)).2 = true
    · simp [hb]
    · simp [hb]
  refine ⟨?_, ?_⟩
  · intro p hp
    obtain ⟨gd, lim, r, h1, h2, h3, h4, rfl⟩ := calc_pars fmin zp nsig sncut l p hp
    refine ⟨parsOf (zp + d) nsig gd (r.1, r.2 / scale d), ?_, rfl, ?_, ?_⟩
    · unfold calcModel
      rw [h1]
      simp only [Except.bind]
      rw [if_neg (fun hc => h2 (List.length_eq_zero_iff.mp hc)), h3]
      simp only [Except.map, key, h4, Option.map_some]
    · simp only [parsOf, fsky_shift, fracOut, magErr_shift]
    · intro m
      simp only [parsOf, fsky_shift, magErr_shift]
  · intro hn
    unfold calcModel at hn ⊢
    rcases hg : selectGals sncut (finiteGals l) with e | gd
    · rw [hg] at hn; simp [Except.bind] at hn
    · rw [hg] at hn
      simp only [Except.bind] at hn ⊢
      by_cases h0 : gd.length = 0
      · rw [if_pos h0]
      · rw [if_neg h0] at hn ⊢
        rcases hl : limStart nsig gd with e | lim
        · rw [hl] at hn; simp [Except.map] at hn
        · rw [hl] at hn
          simp only [Except.map, Except.ok.injEq, Option.map_eq_none_iff] at hn ⊢
          rw [key, hn]
          rfl

/-- A minimizer that does not see units: one that stays at its start. -/
example (c : ℝ) : FminScales (fun _ p0 => (p0, false)) c := by intro f p0; rfl

/-! ## C212: depth of the mask galaxies -/

/-- The constructor gives the fit of the galaxies, all of them below the maximum, and raises if that fails. -/
theorem C212_init (fmin : Fmin) (maxgals : Nat) (pick : List (Option ℝ × Option ℝ) → List (Option ℝ × Option ℝ))
    (l : List (Option ℝ × Option ℝ)) (hl : l.length < maxgals) :
    (∀ p, initLim fmin maxgals pick l = .ok p ↔ calcModel fmin (225 / 10) 10 5 l = .ok (some p)) ∧
    (initLim fmin maxgals pick l = .error .runtimeError ↔
      calcModel fmin (225 / 10) 10 5 l = .ok none ∨ calcModel fmin (225 / 10) 10 5 l = .error .runtimeError) := by
  unfold initLim
  rw [if_pos hl]
  rcases calcModel fmin (225 / 10) 10 5 l with e | _ | p <;> simp [Except.bind]

/-- After `calc_maskdepth` all mask galaxies have limit and exposure of the local fit, or of the global one if the local fit fails; zero
point and significance of the first, which are the only ones read, are those of the same fit. -/
theorem C212_maskdepth (fmin : Fmin) (init : Pars) (rows : List MaskRow) (l : List (Option ℝ × Option ℝ)) (r : Option Pars)
    (h : calcModel fmin (225 / 10) 10 5 l = .ok r) :
    ∃ out, calcMaskdepth fmin init rows l = .ok out ∧ out.length = rows.length ∧
      ∀ used, (r = some used ∨ (r = none ∧ used = init)) →
        (∀ o ∈ out, o.limmag = used.limmag ∧ o.exptime = used.exptime) ∧
        (∀ o, out.head? = some o → o.zp = used.zp ∧ o.nsig = used.nsig) := by
  refine ⟨setRows (r.getD init) rows, ?_, by simp [setRows], ?_⟩
  · unfold calcMaskdepth
    rw [h]
    rfl
  · intro used hu
    have hr : r.getD init = used := by
      rcases hu with h | ⟨h, h'⟩
      · rw [h]; rfl
      · rw [h, h']; rfl
    rw [hr]
    refine ⟨?_, ?_⟩
    · intro o ho
      unfold setRows at ho
      obtain ⟨ri, _, rfl⟩ := List.mem_map.mp ho
      split <;> exact ⟨rfl, rfl⟩
    · intro o ho
      unfold setRows at ho
      rcases rows with _ | ⟨a, rest⟩
      · simp at ho
      · simp [List.zipIdx_cons] at ho
        subst ho
        exact ⟨rfl, rfl⟩

/-! ## C213: bootstrap errors -/

theorem spread_nonneg (l : List ℝ) (hl : l ≠ []) : ∃ v, spread l = .ok v ∧ 0 ≤ v ∧ (∀ c, (∀ x ∈ l, x = c) → v = 0) := by
  have hpos : 0 < l.length := List.length_pos_of_ne_nil hl
  obtain ⟨hi, h1, m1, a1, b1⟩ := ranked_ok l (75 * l.length / 100) (by omega)
  obtain ⟨lo, h2, m2, a2, b2⟩ := ranked_ok l (25 * l.length / 100) (by omega)
  have hle : lo ≤ hi := by
    by_contra hc
    have : (l.countP fun y => decide (y ≤ hi)) ≤ l.countP fun y => decide (y < lo) := by
      apply List.countP_mono_left
      intro y _ hy
      simp only [decide_eq_true_eq] at *
      linarith [not_le.mp hc]
    omega
  refine ⟨(hi - lo) / (135 / 100), ?_, ?_, ?_⟩
  · unfold spread
    rw [h1, h2]
    rfl
  · have : 0 ≤ hi - lo := by linarith
    positivity
  · intro c hc
    rw [hc hi m1, hc lo m2]
    simp

/-- With at least one trial the errors are not negative, and zero if all trials agree; the other parameters are those of the fit. -/
theorem C213_errors_partial (ts : List (ℝ × ℝ)) (hts : ts ≠ []) (p : Pars) :
    ∃ q, withErrors false ts p = .ok q ∧ 0 ≤ q.limmagErr ∧ 0 ≤ q.exptimeErr ∧
      (∀ c, (∀ t ∈ ts, t = c) → q.limmagErr = 0 ∧ q.exptimeErr = 0) ∧
      q.limmag = p.limmag ∧ q.exptime = p.exptime ∧ q.fsky1 = p.fsky1 ∧ q.flux1lim = p.flux1lim ∧ q.zp = p.zp ∧ q.nsig = p.nsig := by
  obtain ⟨le, h1, n1, z1⟩ := spread_nonneg (ts.map Prod.fst) (by simpa using hts)
  obtain ⟨te, h2, n2, z2⟩ := spread_nonneg (ts.map Prod.snd) (by simpa using hts)
  refine ⟨{ p with limmagErr := le, exptimeErr := te }, ?_, n1, n2, ?_, rfl, rfl, rfl, rfl, rfl, rfl⟩
  · unfold withErrors
    rw [h1, h2]
    rfl
  · intro c hc
    exact ⟨z1 c.1 (by intro x hx; obtain ⟨t, ht, rfl⟩ := List.mem_map.mp hx; rw [hc t ht]),
      z2 c.2 (by intro x hx; obtain ⟨t, ht, rfl⟩ := List.mem_map.mp hx; rw [hc t ht])⟩

/-- C210.  The fraction of outliers is a fraction, and zero exactly if the error of every selected galaxy is predicted to 0.005. -/
theorem C210_outliers (zp nsig : ℝ) (gd : List Gal) (h : gd ≠ []) (p : ℝ × ℝ) : 0 ≤ (parsOf zp nsig gd p).fracOut ∧ (parsOf zp nsig gd p).fracOut ≤ 1 ∧
    ((parsOf zp nsig gd p).fracOut = 0 ↔ ∀ m e : ℝ, (m, e) ∈ gd → |magErr zp (fsky zp nsig p.1 p.2) p.2 m - e| ≤ 5 / 1000) ∧
    ((parsOf zp nsig gd p).fracOut = 1 ↔ ∀ m e : ℝ, (m, e) ∈ gd → 5 / 1000 < |magErr zp (fsky zp nsig p.1 p.2) p.2 m - e|) := by
  have hl : (0 : ℝ) < gd.length := by exact_mod_cast List.length_pos_iff.mpr h
  simp only [parsOf, fracOut]
  refine ⟨by positivity, ?_, ?_, ?_⟩
  · rw [div_le_one hl]; exact_mod_cast List.length_filter_le _ _
  · rw [div_eq_zero_iff]
    simp only [hl.ne', or_false, Nat.cast_eq_zero, List.length_eq_zero_iff, List.filter_eq_nil_iff, decide_eq_true_eq, not_lt, gt_iff_lt]
    exact ⟨fun k m e hm => k (m, e) hm, fun k g hg => k g.1 g.2 hg⟩
  · rw [div_eq_one_iff_eq hl.ne', Nat.cast_inj, List.length_filter_eq_length_iff]
    simp only [decide_eq_true_eq, gt_iff_lt]
    exact ⟨fun k m e hm => k (m, e) hm, fun k g hg => k g.1 g.2 hg⟩

/-- C213.  If no trial can be told from the others, because all draws give the same sum, or because no fit converges, then the errors are zero. -/
theorem C213_trials (fmin : Fmin) (maxp zp nsig : ℝ) (p0 : ℝ × ℝ) (draws : List (List Gal)) (hd : draws ≠ []) (p : Pars)
    (h : (∀ d ∈ draws, ∀ d' ∈ draws, cost maxp zp nsig d = cost maxp zp nsig d') ∨ ∀ d ∈ draws, (fmin (cost maxp zp nsig d) p0).2 = true) :
    ∃ q, withErrors false (trials fmin maxp zp nsig p0 draws) p = .ok q ∧ q.limmagErr = 0 ∧ q.exptimeErr = 0 := by
  have hne : trials fmin maxp zp nsig p0 draws ≠ [] := by simpa [trials] using hd
  obtain ⟨q, h1, _, _, h2, _⟩ := C213_errors_partial (trials fmin maxp zp nsig p0 draws) hne p
  obtain ⟨d0, hd0⟩ := List.exists_mem_of_ne_nil _ hd
  refine ⟨q, h1, ?_⟩
  rcases h with h | h
  · refine h2 (let r := fmin (cost maxp zp nsig d0) p0; if r.2 then p0 else r.1) ?_
    intro t ht
    obtain ⟨d, hdm, rfl⟩ := List.mem_map.mp ht
    simp only [h d hdm d0 hd0]
  · refine h2 p0 ?_
    intro t ht
    obtain ⟨d, hdm, rfl⟩ := List.mem_map.mp ht
    simp only [h d hdm, if_true]

/-- C213.  Each trial is the result of the fit for its draw, or the start if that did not converge. -/
theorem C213_trial (fmin : Fmin) (maxp zp nsig : ℝ) (p0 : ℝ × ℝ) (draws : List (List Gal)) (i : Nat) (d : List Gal) (hi : draws[i]? = some d) :
    (trials fmin maxp zp nsig p0 draws)[i]? = some (if (fmin (cost maxp zp nsig d) p0).2 then p0 else (fmin (cost maxp zp nsig d) p0).1) := by
  rw [trials, List.getElem?_map, hi]; rfl

/-- With `useBoot` the limit and the exposure are replaced but not the sky flux: the error at the limit is not that of the significance
asked for. Here all trials agree on a limit of 21 instead of 20. -/
theorem C213_boot_false : ∃ (p q : Pars) (ts : List (ℝ × ℝ)), p = parsOf (225 / 10) 10 [] (20, 100) ∧ 0 ≤ p.fsky1 ∧ ts = [(21, 100)] ∧
    withErrors true ts p = .ok q ∧ magErr q.zp q.fsky1 q.exptime q.limmag ≠ const / q.nsig := by
  have hmed : ∀ x : ℝ, median [x] = x := by intro x; simp [median]
  obtain ⟨le, h1, _, _⟩ := spread_nonneg [(21 : ℝ)] (by simp)
  obtain ⟨te, h2, _, _⟩ := spread_nonneg [(100 : ℝ)] (by simp)
  have hflux : flux (225 / 10) 20 = 10 := by
    unfold flux
    have : ((20 - 225 / 10 : ℝ) / (-(25 / 10))) = 1 := by norm_num
    rw [this, Real.rpow_one]
  have hfs : fsky (225 / 10) 10 20 100 = 90 := by unfold fsky; rw [hflux]; norm_num
  refine ⟨_, { parsOf (225 / 10) 10 [] (20, 100) with limmagErr := le, exptimeErr := te, limmag := 21, exptime := 100 }, _, rfl, ?_, rfl, ?_, ?_⟩
  · simp only [parsOf, hfs]; norm_num
  · unfold withErrors
    simp only [List.map_cons, List.map_nil, h1, h2, hmed]
    rfl
  · simp only [parsOf, hfs]
    have h := magErr_limit (225 / 10) 10 20 100 (by norm_num) (by norm_num)
    rw [hfs] at h
    rw [← h]
    exact (magErr_lt (225 / 10) 90 100 20 21 (by norm_num) (by norm_num) (by norm_num)).ne'

/-- The hypotheses of `C208_determined` hold for a depth of 20 and an exposure of 100. -/
example : (0 : ℝ) < 10 ∧ (0 : ℝ) < 100 ∧ (100 : ℝ) ≤ 10000 ∧ 0 ≤ fsky (225 / 10) 10 20 100 ∧ (19 : ℝ) ∈ [(19 : ℝ), 20] ∧ (20 : ℝ) ∈ [(19 : ℝ), 20] ∧ (19 : ℝ) ≠ 20 := by
  have hflux : flux (225 / 10) 20 = 10 := by
    unfold flux
    have : ((20 - 225 / 10 : ℝ) / (-(25 / 10))) = 1 := by norm_num
    rw [this, Real.rpow_one]
  refine ⟨by norm_num, by norm_num, by norm_num, ?_, by simp, by simp, by norm_num⟩
  unfold fsky; rw [hflux]; norm_num

/-! ## C207: the full statement -/

/-- **C207, full statement**, for all minimizers that do not end worse than they start; magnitudes for which the error of the model is not
a number are left out. -/
def C207_spec : Prop :=
  ∀ (fmin : Fmin) (_ : FminOK fmin) (zp nsig sncut : ℝ) (_ : 0 < nsig) (l : List (Option ℝ × Option ℝ)) (p : Pars)
    (_ : calcModel fmin zp nsig sncut l = .ok (some p)) (m : ℝ) (_ : 0 ≤ p.fsky1 * p.exptime + p.exptime * flux p.zp m),
    magErr p.zp p.fsky1 p.exptime m ≤ const / nsig ↔ m ≤ p.limmag

theorem expTime_le (i : Nat) (hi : i < 20) : expTime (225 / 10) i ≤ 10000 := by
  unfold expTime
  simp only [sub_self, zero_div, Real.rpow_zero, div_one, Real.log_one, sub_zero, mul_one]
  have hl : 0 < Real.log 10000 := Real.log_pos (by norm_num)
  have : (i : ℝ) * (Real.log 10000 / 19) ≤ Real.log 10000 := by
    have : (i : ℝ) ≤ 19 := by exact_mod_cast (by omega : i ≤ 19)
    rw [mul_div_assoc', div_le_iff₀ (by norm_num)]
    nlinarith
  calc Real.exp ((i : ℝ) * (Real.log 10000 / 19)) ≤ Real.exp (Real.log 10000) := Real.exp_le_exp.mpr this
    _ = 10000 := Real.exp_log (by norm_num)

/-- **C207 fails**: for a catalog around magnitude 33 the model can have a negative sky flux; then a galaxy ten times brighter than the limit
has less than the significance. -/
theorem C207_false : ¬ C207_spec := by
  intro hspec
  have hfin : finiteGals [(some (325 / 10), some (1 / 20)), (some 33, some (1 / 20))] = [(325 / 10, 1 / 20), (33, 1 / 20)] := by
    simp [finiteGals]
  have hconst : (1 : ℝ) / 20 < const / 5 := by
    unfold const
    have h1 := Real.log_le_sub_one_of_pos (show (0 : ℝ) < 10 by norm_num)
    have h2 := Real.log_pos (show (1 : ℝ) < 10 by norm_num)
    rw [div_div, lt_div_iff₀ (by positivity)]
    linarith
  have hrank : ranked [(325 / 10 : ℝ), 33] 1 = .ok 33 := by
    obtain ⟨v, h1, h2, _, h4⟩ := ranked_ok [(325 / 10 : ℝ), 33] 1 (by simp)
    rw [h1]
    simp only [List.mem_cons, List.not_mem_nil, or_false] at h2
    rcases h2 with rfl | rfl
    · norm_num [List.countP_cons] at h4
    · rfl
  have hrank1 : ranked [(325 / 10 : ℝ)] 0 = .ok (325 / 10) := by simp [ranked]
  have hsel : selectGals 5 (finiteGals [(some (325 / 10), some (1 / 20)), (some 33, some (1 / 20))]) = .ok [(325 / 10, 1 / 20)] := by
    rw [hfin]
    unfold selectGals
    simp only [List.map_cons, List.map_nil, List.length_cons, List.length_nil, show 98 * (0 + 1 + 1) / 100 = 1 from rfl, hrank, Except.map]
    have h1 : ((325 / 10 : ℝ) < 33) := by norm_num
    rw [List.filter_cons_of_pos (by simp only [h1, hconst]; rfl), List.filter_cons_of_neg (by simp), List.filter_nil]
  have hlim : limStart 10 [((325 / 10 : ℝ), (1 / 20 : ℝ))] = .ok (325 / 10) := by
    unfold limStart
    simp only
    rw [if_neg (by
      have := List.length_filter_le (fun g : Gal => decide (g.2 > const / 10) && decide (g.2 < 11 / 10 * const / 10)) [(325 / 10, 1 / 20)]
      simp only [List.length_cons, List.length_nil] at this
      omega)]
    exact hrank1
  have hcalc : calcModel (fun _ p0 => (p0, false)) (225 / 10) 10 5 [(some (325 / 10), some (1 / 20)), (some 33, some (1 / 20))] =
      .ok (some (parsOf (225 / 10) 10 [(325 / 10, 1 / 20)] (startAt (225 / 10) 10 [(325 / 10, 1 / 20)] (325 / 10)))) := by
    unfold calcModel
    rw [hsel]
    simp only [Except.bind, List.length_cons, List.length_nil]
    rw [if_neg (by norm_num), hlim]
    rfl
  have hf : flux (225 / 10) (325 / 10) = 1 / 10000 := by
    unfold flux
    have : ((325 / 10 - 225 / 10 : ℝ) / (-(25 / 10))) = -4 := by norm_num
    rw [this, Real.rpow_neg (by norm_num)]
    norm_num
  have hf' : flux (225 / 10) 30 = 1 / 1000 := by
    unfold flux
    have : ((30 - 225 / 10 : ℝ) / (-(25 / 10))) = -3 := by norm_num
    rw [this, Real.rpow_neg (by norm_num)]
    norm_num
  set a := argmin (tTest (225 / 10) 10 [(325 / 10, 1 / 20)] (325 / 10)) 20 with ha
  have hi : a < 20 := (argmin_spec _ 20 (by norm_num)).1
  have ht := expTime_pos (225 / 10) a
  have ht' := expTime_le a hi
  set t := expTime (225 / 10) a with htd
  have hfs : fsky (225 / 10) 10 (325 / 10) t = (1 / 10000) ^ 2 * t / 10 ^ 2 - 1 / 10000 := by unfold fsky; rw [hf]
  have hpos : 0 ≤ fsky (225 / 10) 10 (325 / 10) t * t + t * flux (225 / 10) 30 := by
    rw [hfs, hf']
    have : ((1 / 10000 : ℝ) ^ 2 * t / 10 ^ 2 - 1 / 10000) * t + t * (1 / 1000) = t * ((1 / 10000 : ℝ) ^ 2 * t / 10 ^ 2 + 9 / 10000) := by ring
    rw [this]; positivity
  have h := (hspec _ (fun f p0 => le_refl _) (225 / 10) 10 5 (by norm_num) _ _ hcalc 30 hpos).mpr (by
    simp only [parsOf, startAt]; norm_num)
  simp only [parsOf, startAt] at h
  rw [← ha, ← htd] at h
  unfold magErr at h
  simp only at h
  rw [hf', hfs] at h
  have hc := const_pos
  rw [div_eq_mul_inv const, mul_le_mul_iff_right₀ hc, div_le_iff₀ (by positivity), Real.sqrt_le_iff] at h
  have h2 := h.2
  have : ((1 / 10000 : ℝ) ^ 2 * t / 10 ^ 2 - 1 / 10000) * t + t * (1 / 1000) - (10⁻¹ * (t * (1 / 1000))) ^ 2
      = t * (9 / 10000 - 99 / 10000000000 * t) := by ring
  have h3 : 0 < t * (9 / 10000 - 99 / 10000000000 * t) := by
    apply mul_pos ht
    linarith
  linarith

end Redmapper.DepthFit
