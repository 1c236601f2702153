/-
C429: the part of the richness error that comes from masking.
-/
import Verif.Props.Cluster
import Mathlib.Analysis.SpecialFunctions.Sqrt

set_option linter.unusedSectionVars false

namespace Redmapper.MaskErr

open Redmapper.Cluster

variable {α : Type} [Field α] [LinearOrder α] [IsStrictOrderedRing α] {G P : Type}

/-! ## Specification -/

/-- A mask galaxy is lost if it is fainter than the limit or falls on a masked place. -/
def Lost (limmag mstar : α) (g : MGal α) : Prop := limmag < mstar + g.m ∨ g.mark = false

instance (limmag mstar : α) (g : MGal α) : Decidable (Lost limmag mstar g) := by unfold Lost; infer_instance

/-- The probability of a mask galaxy to be a member of a cluster of richness `lam` and radius `rl`; the background of one
fainter than the limit is taken just above it. -/
def prob (E : Env G P α) (z mstar mpc lam rl : α) (g : MGal α) : α :=
  match E.sigma z g.chisq (if E.limmag ≤ mstar + g.m then E.limmag - 1 / 100 else mstar + g.m) with
  | none => 0
  | some s =>
    let signal := lam * (g.cwt * (E.nfwnorm rl * g.nfw) * g.lumwt)
    signal / (signal + E.twopi * g.r * (s / (mpc * mpc)))

/-- The mean probability of the lost mask galaxies among those inside the radius, per unit richness. -/
def fraction (E : Env G P α) (z mstar mpc lam rl : α) (gs : List (MGal α)) : α :=
  (gs.map fun g => if g.r < rl ∧ Lost E.limmag mstar g then prob E z mstar mpc lam rl g else 0).sum /
    (lam * ((gs.countP fun g => decide (g.r < rl)) : α))

/-- The same mask galaxy, masked if it was before. -/
structure MoreMasked (a b : MGal α) : Prop where
  r : b.r = a.r
  m : b.m = a.m
  cwt : b.cwt = a.cwt
  nfw : b.nfw = a.nfw
  lumwt : b.lumwt = a.lumwt
  chisq : b.chisq = a.chisq
  mark : a.mark = false → b.mark = false

/-- What the error uses of the environment. -/
structure ErrOK (E : Env G P α) : Prop where
  env : EnvOK E
  sqrt : ∀ x, 0 ≤ x → E.sqrt x * E.sqrt x = x ∧ 0 ≤ E.sqrt x
  gals : ∀ g ∈ E.maskgals, 0 ≤ g.r ∧ 0 ≤ g.cwt ∧ 0 ≤ g.nfw ∧ 0 ≤ g.lumwt
  slope : E.beta * E.gamma < 1

/-- **C429**: masking more of the sky never lowers the masking error of a cluster of at least the given richness. -/
def C429_spec (G P α : Type) [Field α] [LinearOrder α] (lam0 : α) : Prop :=
  ∀ (E : Env G P α), ErrOK E → ∀ (gs' : List (MGal α)), List.Forall₂ MoreMasked E.maskgals gs' →
    ∀ (z mstar mpc lam rl : α) (pmem : List α) (cv : α), lam0 ≤ lam →
      lambdaCerr E z mstar mpc lam rl pmem cv ≤ lambdaCerr { E with maskgals := gs' } z mstar mpc lam rl pmem cv

/-! ## Lemmas -/

theorem sum_filter2 (f : MGal α → α) (p q : MGal α → Bool) (gs : List (MGal α)) :
    (((gs.filter p).filter q).map f).sum = (gs.map fun g => if p g = true ∧ q g = true then f g else 0).sum := by
  induction gs with
  | nil => rfl
  | cons a gs ih =>
    by_cases h1 : p a = true
    · by_cases h2 : q a = true
      · simp [-List.filter_filter, h1, h2, ih]
      · simp [-List.filter_filter, h1, h2, ih]
    · simp [-List.filter_filter, h1, ih]

theorem sqrt_zero {E : Env G P α} (he : ErrOK E) : E.sqrt 0 = 0 := by
  have := (he.sqrt 0 le_rfl).1
  exact mul_self_eq_zero.mp this

theorem sqrt_mono {E : Env G P α} (he : ErrOK E) (x y : α) (h0 : 0 ≤ x) (h : x ≤ y) : E.sqrt x ≤ E.sqrt y := by
  obtain ⟨a1, a2⟩ := he.sqrt x h0
  obtain ⟨b1, b2⟩ := he.sqrt y (le_trans h0 h)
  by_contra hlt
  have hlt := not_le.mp hlt
  have := mul_self_lt_mul_self b2 hlt
  rw [a1, b1] at this
  exact absurd h (not_le.mpr this)

/-- **C429, the value.**  If at least one percent is masked, the masking error is k sqrt(v - v^2) / (1 - beta gamma), where v is the fraction above and k
the square of the richness over the sum of the squared memberships; below one percent it is zero. -/
theorem C429_value {E : Env G P α} (he : ErrOK E) (z mstar mpc lam rl : α) (pmem : List α) (cv : α) :
    lambdaCerr E z mstar mpc lam rl pmem cv =
      if cv < 1 / 100 then 0
      else lam * lam / (pmem.map fun x => x * x).sum *
        E.sqrt (fraction E z mstar mpc lam rl E.maskgals - fraction E z mstar mpc lam rl E.maskgals * fraction E z mstar mpc lam rl E.maskgals) /
          (1 - E.beta * E.gamma) := by
  have hf : (fun g : MGal α => match bkgDensity E z mpc g.r g.chisq (if E.limmag ≤ mstar + g.m then E.limmag - 1 / 100 else mstar + g.m) with
      | none => 0
      | some b => lam * (g.cwt * (E.nfwnorm rl * g.nfw) * g.lumwt) / (lam * (g.cwt * (E.nfwnorm rl * g.nfw) * g.lumwt) + b)) =
      prob E z mstar mpc lam rl := by
    funext g
    unfold bkgDensity prob
    cases E.sigma z g.chisq (if E.limmag ≤ mstar + g.m then E.limmag - 1 / 100 else mstar + g.m) <;> rfl
  have hv : ∀ use : List (MGal α), use = E.maskgals.filter (fun g => decide (g.r < rl)) →
      1 / lam * (1 / (use.length : α)) * ((use.filter (fun g => decide (E.limmag < mstar + g.m) || !g.mark)).map (prob E z mstar mpc lam rl)).sum =
      fraction E z mstar mpc lam rl E.maskgals := by
    rintro use rfl
    unfold fraction
    rw [sum_filter2, List.countP_eq_length_filter]
    have e : (fun g : MGal α => if decide (g.r < rl) = true ∧ (decide (E.limmag < mstar + g.m) || !g.mark) = true then prob E z mstar mpc lam rl g else 0) =
        fun g => if g.r < rl ∧ Lost E.limmag mstar g then prob E z mstar mpc lam rl g else 0 := by
      funext g
      unfold Lost
      simp only [decide_eq_true_eq, Bool.or_eq_true, Bool.not_eq_true']
    rw [e]
    rw [one_div, one_div, ← mul_inv, mul_comm, ← div_eq_mul_inv]
  unfold lambdaCerr
  simp only
  by_cases h1 : cv < 1 / 100
  · rw [if_pos (Or.inr h1), if_pos h1]
  rw [if_neg h1, ← hv _ rfl]
  by_cases h2 : ((E.maskgals.filter fun g => decide (g.r < rl)).filter fun g => decide (E.limmag < mstar + g.m) || !g.mark) = []
  · rw [if_pos (Or.inl h2), h2]
    simp [sqrt_zero he]
  · rw [if_neg (by rintro (h | h); exacts [h2 h, h1 h]), ← hf]
    rfl

theorem prob_range {E : Env G P α} (he : EnvOK E) (z mstar mpc lam rl : α) (hl : 0 ≤ lam) (g : MGal α)
    (hg : 0 ≤ g.r ∧ 0 ≤ g.cwt ∧ 0 ≤ g.nfw ∧ 0 ≤ g.lumwt) : 0 ≤ prob E z mstar mpc lam rl g ∧ prob E z mstar mpc lam rl g ≤ 1 := by
  obtain ⟨q1, q2, q3, q4⟩ := hg
  have hu : 0 ≤ lam * (g.cwt * (E.nfwnorm rl * g.nfw) * g.lumwt) :=
    mul_nonneg hl (mul_nonneg (mul_nonneg q2 (mul_nonneg (he.nfwnorm _) q3)) q4)
  unfold prob
  cases hs : E.sigma z g.chisq (if E.limmag ≤ mstar + g.m then E.limmag - 1 / 100 else mstar + g.m) with
  | none => exact ⟨le_refl _, zero_le_one⟩
  | some s =>
    have hb : 0 ≤ E.twopi * g.r * (s / (mpc * mpc)) :=
      mul_nonneg (mul_nonneg he.twopi q1) (div_nonneg (he.sigma _ _ _ _ hs) (mul_self_nonneg _))
    exact ⟨div_nonneg hu (by linarith), div_le_one_of_le₀ (by linarith) (by linarith)⟩

theorem sum_le_count {E : Env G P α} (he : EnvOK E) (z mstar mpc lam rl : α) (hl : 0 ≤ lam) (gs : List (MGal α))
    (hg : ∀ g ∈ gs, 0 ≤ g.r ∧ 0 ≤ g.cwt ∧ 0 ≤ g.nfw ∧ 0 ≤ g.lumwt) :
    0 ≤ (gs.map fun g => if g.r < rl ∧ Lost E.limmag mstar g then prob E z mstar mpc lam rl g else 0).sum ∧
    (gs.map fun g => if g.r < rl ∧ Lost E.limmag mstar g then prob E z mstar mpc lam rl g else 0).sum ≤
      ((gs.countP fun g => decide (g.r < rl)) : α) := by
  induction gs with
  | nil => simp
  | cons a gs ih =>
    obtain ⟨i1, i2⟩ := ih fun g h => hg g (List.mem_cons_of_mem _ h)
    obtain ⟨p1, p2⟩ := prob_range he z mstar mpc lam rl hl a (hg a List.mem_cons_self)
    rw [List.map_cons, List.sum_cons, List.countP_cons]
    push_cast
    by_cases h1 : a.r < rl
    · by_cases h2 : Lost E.limmag mstar a
      · simp only [h1, h2, and_self, if_true, decide_true, Nat.cast_one]; constructor <;> linarith
      · simp only [h1, h2, and_false, if_true, if_false, decide_true, Nat.cast_one]; constructor <;> linarith
    · simp only [h1, false_and, if_false, decide_false, Bool.false_eq_true, Nat.cast_zero]; constructor <;> linarith

theorem prob_same (E : Env G P α) (z mstar mpc lam rl : α) (a b : MGal α) (h : MoreMasked a b) :
    prob E z mstar mpc lam rl b = prob E z mstar mpc lam rl a := by
  unfold prob
  rw [h.r, h.m, h.cwt, h.nfw, h.lumwt, h.chisq]

theorem more_masked {E : Env G P α} (he : EnvOK E) (z mstar mpc lam rl : α) (hl : 0 ≤ lam) (gs gs' : List (MGal α))
    (h : List.Forall₂ MoreMasked gs gs') (hg : ∀ g ∈ gs, 0 ≤ g.r ∧ 0 ≤ g.cwt ∧ 0 ≤ g.nfw ∧ 0 ≤ g.lumwt) :
    (gs'.countP fun g => decide (g.r < rl)) = (gs.countP fun g => decide (g.r < rl)) ∧
    (∀ g ∈ gs', 0 ≤ g.r ∧ 0 ≤ g.cwt ∧ 0 ≤ g.nfw ∧ 0 ≤ g.lumwt) ∧
    (gs.map fun g => if g.r < rl ∧ Lost E.limmag mstar g then prob E z mstar mpc lam rl g else 0).sum ≤
      (gs'.map fun g => if g.r < rl ∧ Lost E.limmag mstar g then prob E z mstar mpc lam rl g else 0).sum := by
  induction h with
  | nil => simp
  | @cons a b gs gs' hab _ ih =>
    obtain ⟨i1, i2, i3⟩ := ih fun g h => hg g (List.mem_cons_of_mem _ h)
    have ha := hg a List.mem_cons_self
    refine ⟨?_, ?_, ?_⟩
    · rw [List.countP_cons, List.countP_cons, i1, hab.r]
    · intro g hm
      rcases List.mem_cons.mp hm with rfl | hm
      · rw [hab.r, hab.cwt, hab.nfw, hab.lumwt]; exact ha
      · exact i2 g hm
    · rw [List.map_cons, List.sum_cons, List.map_cons, List.sum_cons, prob_same E z mstar mpc lam rl a b hab]
      refine add_le_add ?_ i3
      by_cases q : a.r < rl ∧ Lost E.limmag mstar a
      · have : b.r < rl ∧ Lost E.limmag mstar b := by
          refine ⟨by rw [hab.r]; exact q.1, ?_⟩
          rcases q.2 with q2 | q2
          · exact Or.inl (by rw [hab.m]; exact q2)
          · exact Or.inr (hab.mark q2)
        rw [if_pos q, if_pos this]
      · rw [if_neg q]
        split_ifs
        · exact (prob_range he z mstar mpc lam rl hl a ha).1
        · exact le_rfl

/-! ## C429 -/

/-- True from richness two on.  Missing: richnesses between one and two (`C429_false`). -/
theorem C429_partial : C429_spec G P α 2 := by
  intro E he gs' hgs z mstar mpc lam rl pmem cv hlam
  have hl0 : (0 : α) ≤ lam := by linarith
  obtain ⟨m1, m2, m3⟩ := more_masked he.env z mstar mpc lam rl hl0 _ _ hgs he.gals
  have he' : ErrOK { E with maskgals := gs' } :=
    ⟨⟨he.env.twopi, he.env.nfw, he.env.phi, he.env.rho, he.env.sigma, he.env.theta, he.env.nfwnorm, he.env.soft⟩, he.sqrt, m2, he.slope⟩
  rw [C429_value he, C429_value he']
  by_cases h1 : cv < 1 / 100
  · rw [if_pos h1, if_pos h1]
  rw [if_neg h1, if_neg h1]
  change _ ≤ lam * lam / (pmem.map fun x => x * x).sum *
    E.sqrt (fraction E z mstar mpc lam rl gs' - fraction E z mstar mpc lam rl gs' * fraction E z mstar mpc lam rl gs') / (1 - E.beta * E.gamma)
  have hslope : 0 ≤ 1 - E.beta * E.gamma := by have := he.slope; linarith
  refine div_le_div_of_nonneg_right (mul_le_mul_of_nonneg_left ?_ ?_) hslope
  swap
  · refine div_nonneg (mul_self_nonneg _) (List.sum_nonneg ?_)
    intro x hx
    obtain ⟨y, _, rfl⟩ := List.mem_map.mp hx
    exact mul_self_nonneg _
  obtain ⟨s1, s2⟩ := sum_le_count he.env z mstar mpc lam rl hl0 E.maskgals he.gals
  obtain ⟨t1, t2⟩ := sum_le_count he.env z mstar mpc lam rl hl0 gs' m2
  have hN : (0 : α) ≤ ((E.maskgals.countP fun g => decide (g.r < rl)) : α) := Nat.cast_nonneg _
  have v0 : 0 ≤ fraction E z mstar mpc lam rl E.maskgals := div_nonneg s1 (mul_nonneg hl0 hN)
  have v1 : fraction E z mstar mpc lam rl E.maskgals ≤ fraction E z mstar mpc lam rl gs' := by
    unfold fraction
    rw [m1]
    exact div_le_div_of_nonneg_right m3 (mul_nonneg hl0 hN)
  have v2 : fraction E z mstar mpc lam rl gs' ≤ 1 / 2 := by
    unfold fraction
    rw [m1] at t2 ⊢
    rcases hN.eq_or_lt with e | e
    · rw [← e, mul_zero, div_zero]; norm_num
    · rw [div_le_iff₀ (by nlinarith)]
      nlinarith
  apply sqrt_mono he
  · nlinarith
  · nlinarith

section Witness

/-- Two mask galaxies without background. -/
noncomputable def witEnv (a b : Bool) : Env Unit Unit ℝ where
  sph _ _ := 0
  pos _ := ()
  mstarOf _ := 20
  mpcOf _ := 1
  chisqOf _ _ := 0
  rho _ := 1
  nfw _ := 1
  phi _ _ _ := 1
  sigma _ _ _ := some 0
  theta _ _ _ _ := 1
  maskcorr _ _ _ := (0, 0, 0, 0)
  twopi := 6
  lval := -2
  limmag := 25
  rlam _ := 1
  nfwnorm _ := 1
  soft _ := 1
  rsig := 0
  maskgals := [⟨1 / 2, a, 0, 1, 1, 1, 0⟩, ⟨1 / 2, b, 0, 1, 1, 1, 0⟩]
  beta := 1 / 5
  gamma := 3 / 10
  sqrt := Real.sqrt

theorem witEnv_ok (a b : Bool) : ErrOK (witEnv a b) where
  env := by
    refine ⟨?_, ?_, ?_, ?_, ?_, ?_, ?_, ?_⟩
    · norm_num [witEnv]
    · intro r; norm_num [witEnv]
    · intro z m x; norm_num [witEnv]
    · intro x; norm_num [witEnv]
    · intro z x m s h
      simp only [witEnv, Option.some.injEq] at h
      exact h ▸ le_refl 0
    · intro m e x y; norm_num [witEnv]
    · intro r; norm_num [witEnv]
    · intro d; norm_num [witEnv]
  sqrt x hx := ⟨Real.mul_self_sqrt hx, Real.sqrt_nonneg x⟩
  gals g hg := by
    simp only [witEnv, List.mem_cons, List.not_mem_nil, or_false] at hg
    rcases hg with rfl | rfl <;> norm_num
  slope := by norm_num [witEnv]

theorem wit_one : fraction (witEnv false true) 0 20 1 1 1 (witEnv false true).maskgals = 1 / 2 := by
  norm_num [fraction, witEnv, prob, Lost, List.countP_cons]

theorem wit_both : fraction (witEnv false false) 0 20 1 1 1 (witEnv false false).maskgals = 1 := by
  norm_num [fraction, witEnv, prob, Lost, List.countP_cons]

/-- The claim is false at richness one: with both of two mask galaxies lost there is no masking error, with one of them there is. -/
theorem C429_false : ¬ C429_spec Unit Unit ℝ 1 := by
  intro h
  have hgs : List.Forall₂ MoreMasked (witEnv false true).maskgals (witEnv false false).maskgals :=
    .cons ⟨rfl, rfl, rfl, rfl, rfl, rfl, fun _ => rfl⟩ (.cons ⟨rfl, rfl, rfl, rfl, rfl, rfl, fun q => by simp at q⟩ .nil)
  have h2 := h (witEnv false true) (witEnv_ok _ _) _ hgs 0 20 1 1 1 [1] 1 le_rfl
  change lambdaCerr (witEnv false true) 0 20 1 1 1 [1] 1 ≤ lambdaCerr (witEnv false false) 0 20 1 1 1 [1] 1 at h2
  rw [C429_value (witEnv_ok _ _), C429_value (witEnv_ok _ _), wit_one, wit_both] at h2
  rw [if_neg (by norm_num), if_neg (by norm_num)] at h2
  have e1 : (witEnv false true).sqrt (1 / 2 - 1 / 2 * (1 / 2)) = 1 / 2 := by
    change Real.sqrt _ = _
    rw [show ((1 : ℝ) / 2 - 1 / 2 * (1 / 2)) = (1 / 2) * (1 / 2) by norm_num]
    exact Real.sqrt_mul_self (by norm_num)
  have e2 : (witEnv false false).sqrt (1 - 1 * 1) = 0 := by
    change Real.sqrt _ = _
    rw [show ((1 : ℝ) - 1 * 1) = 0 by norm_num]
    exact Real.sqrt_zero
  rw [e1, e2] at h2
  norm_num [witEnv] at h2

/-- Non-vacuity: the environments above meet the hypotheses, and at richness two masking the second galaxy raises the fraction. -/
example : ErrOK (witEnv true false) ∧ List.Forall₂ MoreMasked (witEnv true true).maskgals (witEnv true false).maskgals :=
  ⟨witEnv_ok _ _, .cons ⟨rfl, rfl, rfl, rfl, rfl, rfl, fun q => by simp at q⟩ (.cons ⟨rfl, rfl, rfl, rfl, rfl, rfl, fun _ => rfl⟩ .nil)⟩

end Witness

end Redmapper.MaskErr
