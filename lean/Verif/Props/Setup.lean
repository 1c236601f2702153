/-
Properties of setup, matching of centers, richness derivatives and output (C187-C191). The model is Model/Setup.lean.
-/
import Mathlib.Tactic.Linarith
import Mathlib.Tactic.FieldSimp
import Mathlib.Tactic.Positivity
import Mathlib.Tactic.NormNum
import Mathlib.Tactic.Ring
import Verif.Model.Setup

set_option linter.unusedSectionVars false

namespace Redmapper.Setup

/-! ## C187: the search radius -/

theorem maxrad_ge (c : RCfg) : maxrad1 c ≤ maxrad c ∧ maxrad2 c ≤ maxrad c ∧ (c.bkgLocal = true → c.annulus ≤ maxrad c) := by
  have hm : ∀ m : ℝ, m ≤ (if c.bkgLocal = true ∧ c.annulus > m then c.annulus else m) ∧
      (c.bkgLocal = true → c.annulus ≤ if c.bkgLocal = true ∧ c.annulus > m then c.annulus else m) := by
    intro m
    by_cases h : c.bkgLocal = true ∧ c.annulus > m
    · rw [if_pos h]; exact ⟨h.2.le, fun _ => le_refl _⟩
    · rw [if_neg h]
      refine ⟨le_refl _, fun hb => ?_⟩
      by_contra hn; exact h ⟨hb, not_le.mp hn⟩
  have h2 : maxrad1 c ≤ (if maxrad2 c > maxrad1 c then maxrad2 c else maxrad1 c) ∧
      maxrad2 c ≤ (if maxrad2 c > maxrad1 c then maxrad2 c else maxrad1 c) := by
    by_cases h : maxrad2 c > maxrad1 c
    · rw [if_pos h]; exact ⟨h.le, le_refl _⟩
    · rw [if_neg h]; exact ⟨le_refl _, not_lt.mp h⟩
  obtain ⟨a, b⟩ := hm (if maxrad2 c > maxrad1 c then maxrad2 c else maxrad1 c)
  exact ⟨h2.1.trans a, h2.2.trans a, b⟩

theorem pow_le_three {lam b : ℝ} (h0 : 0 < lam) (h3 : lam ≤ 300) (hb : 0 ≤ b) : (lam / 100) ^ b ≤ (300 / 100 : ℝ) ^ b :=
  Real.rpow_le_rpow (by positivity) (by linarith) hb

/-- The redshift does not widen the mask. -/
def NotWider (c : RCfg) (z : ℝ) : Prop :=
  -1 < z ∧ -1 < c.zpivot ∧ (c.gamma = 0 ∨ (0 ≤ c.gamma ∧ z ≤ c.zpivot) ∨ (c.gamma ≤ 0 ∧ c.zpivot ≤ z))

theorem factor_le (c : RCfg) (z : ℝ) (h : NotWider c z) : ((1 + z) / (1 + c.zpivot)) ^ c.gamma ≤ 1 := by
  obtain ⟨h1, h2, h3⟩ := h
  have a : 0 < 1 + z := by linarith
  have b : 0 < 1 + c.zpivot := by linarith
  rcases h3 with h | ⟨hg, hz⟩ | ⟨hg, hz⟩
  · rw [h, Real.rpow_zero]
  · exact Real.rpow_le_one (by positivity) ((div_le_one b).mpr (by linarith)) hg
  · exact Real.rpow_le_one_of_one_le_of_nonpos ((one_le_div b).mpr (by linarith)) hg

/-- **C187** (partial): for richness up to 300, neighbors are looked for far enough to include the cluster, its mask and the annulus of
the local background. Missing: masks that grow with redshift, and masks that grow with richness for clusters that do not
(`C187_false_redshift`, `C187_false_richness`). -/
theorem C187_radius_partial (c : RCfg) (h0 : 0 ≤ c.r0) (hm : 0 ≤ c.prmask0) (hb : 0 ≤ c.beta) (hmb : 0 ≤ c.prmaskBeta)
    (hz : c.beta = 0 → c.useRmask = true → c.prmaskBeta = 0) (lam z : ℝ) (hl : 0 < lam) (hl3 : lam ≤ 300) (hw : NotWider c z) :
    rLambda c lam ≤ maxrad c ∧ rMask c lam z ≤ maxrad c ∧ (c.bkgLocal = true → c.annulus ≤ maxrad c) := by
  obtain ⟨g1, g2, g3⟩ := maxrad_ge c
  have hr0 : 0 ≤ rmask0 c := by unfold rmask0; split <;> assumption
  have hrb : 0 ≤ rmaskBeta c := by unfold rmaskBeta; split <;> assumption
  have k1 : rLambda c lam ≤ maxrad c := by
    refine le_trans ?_ g1
    unfold rLambda maxrad1
    split
    · rename_i h; rw [h, Real.rpow_zero]; linarith
    · exact mul_le_mul_of_nonneg_left (pow_le_three hl hl3 hb) h0
  refine ⟨k1, ?_, g3⟩
  unfold rMask
  simp only
  split
  · exact k1
  · refine le_trans ?_ g2
    have hp : 0 ≤ rmask0 c * (lam / 100) ^ rmaskBeta c := mul_nonneg hr0 (Real.rpow_nonneg (by positivity) _)
    have k2 : rmask0 c * (lam / 100) ^ rmaskBeta c * ((1 + z) / (1 + c.zpivot)) ^ c.gamma ≤ rmask0 c * (lam / 100) ^ rmaskBeta c :=
      mul_le_of_le_one_right hp (factor_le c z hw)
    refine k2.trans ?_
    unfold maxrad2
    split
    · rename_i h
      have : rmaskBeta c = 0 := by
        unfold rmaskBeta
        split
        · rename_i hu; exact hz h hu
        · exact h
      rw [this, Real.rpow_zero]; linarith
    · exact mul_le_mul_of_nonneg_left (pow_le_three hl hl3 hrb) hr0

/-- The default settings. -/
noncomputable def exR : RCfg :=
  { r0 := 1, beta := 2 / 10, prmask0 := 3 / 2, prmaskBeta := 2 / 10, gamma := 0, zpivot := 3 / 10, useRmask := true, bkgLocal := true, annulus := 3 }

/-- The hypotheses are met by the default settings. -/
example : 0 ≤ exR.r0 ∧ 0 ≤ exR.prmask0 ∧ 0 ≤ exR.beta ∧ 0 ≤ exR.prmaskBeta ∧ (exR.beta = 0 → exR.useRmask = true → exR.prmaskBeta = 0) ∧
    NotWider exR (1 / 2) := by
  unfold exR NotWider; norm_num

/-- **C187** fails for masks that grow with redshift: at richness 300 the mask is larger than the search radius, beyond the pivot. -/
theorem C187_false_redshift (c : RCfg) (hu : c.useRmask = true) (hb : c.bkgLocal = false) (hbeta : c.beta ≠ 0) (hm : 0 < c.prmask0)
    (hlarge : c.r0 * (300 / 100 : ℝ) ^ c.beta ≤ c.prmask0 * (300 / 100 : ℝ) ^ c.prmaskBeta) (hg : 0 < c.gamma) (hp : -1 < c.zpivot)
    (z : ℝ) (hz : c.zpivot < z) : maxrad c < rMask c 300 z := by
  have hmax : maxrad c = c.prmask0 * (300 / 100 : ℝ) ^ c.prmaskBeta := by
    unfold maxrad maxrad1 maxrad2 rmask0 rmaskBeta
    simp only [hu, hb, if_true, if_neg hbeta]
    rw [if_neg (by simp)]
    split
    · rfl
    · rename_i h; exact le_antisymm hlarge (not_lt.mp h)
  have hpos : 0 < c.prmask0 * (300 / 100 : ℝ) ^ c.prmaskBeta := mul_pos hm (Real.rpow_pos_of_pos (by norm_num) _)
  have hone : 1 < ((1 + z) / (1 + c.zpivot)) ^ c.gamma :=
    Real.one_lt_rpow ((one_lt_div (by linarith)).mpr (by linarith)) hg
  have hr : c.prmask0 * (300 / 100 : ℝ) ^ c.prmaskBeta < rmask0 c * (300 / 100 : ℝ) ^ rmaskBeta c * ((1 + z) / (1 + c.zpivot)) ^ c.gamma := by
    simp only [rmask0, rmaskBeta, hu, if_true]
    exact lt_mul_of_one_lt_right hpos hone
  rw [hmax]
  refine lt_of_lt_of_le hr ?_
  unfold rMask
  simp only
  split
  · rename_i h; exact h.le
  · exact le_refl _

/-- **C187** fails for constant cluster radii with masks that grow with richness. -/
theorem C187_false_richness (c : RCfg) (hu : c.useRmask = true) (hb : c.bkgLocal = false) (hbeta : c.beta = 0) (hm : 0 < c.prmask0)
    (hlarge : c.r0 ≤ c.prmask0) (hg : c.gamma = 0) (hmb : 12 / 10 < (300 / 100 : ℝ) ^ c.prmaskBeta) (z : ℝ) :
    maxrad c < rMask c 300 z := by
  have hmax : maxrad c = 12 / 10 * c.prmask0 := by
    unfold maxrad maxrad1 maxrad2 rmask0
    simp only [hu, hb, if_true, if_pos hbeta]
    rw [if_neg (by simp)]
    split
    · rfl
    · rename_i h; have := not_lt.mp h; linarith
  rw [hmax]
  have hr : 12 / 10 * c.prmask0 < rmask0 c * (300 / 100 : ℝ) ^ rmaskBeta c * ((1 + z) / (1 + c.zpivot)) ^ c.gamma := by
    simp only [rmask0, rmaskBeta, hu, if_true, hg, Real.rpow_zero, mul_one]
    rw [mul_comm]
    exact mul_lt_mul_of_pos_left hmb hm
  refine lt_of_lt_of_le hr ?_
  unfold rMask
  simp only
  split
  · rename_i h; exact h.le
  · exact le_refl _

/-- The default slope of the mask is such a case: `3 ^ 0.2` is above 1.2. -/
example : (12 / 10 : ℝ) < (300 / 100 : ℝ) ^ (2 / 10 : ℝ) := by
  have h : ((300 / 100 : ℝ) ^ (2 / 10 : ℝ)) ^ (5 : ℕ) = 3 := by
    rw [← Real.rpow_natCast, ← Real.rpow_mul (by norm_num)]; norm_num
  by_contra hn
  have h2 : ((300 / 100 : ℝ) ^ (2 / 10 : ℝ)) ^ (5 : ℕ) ≤ (12 / 10) ^ (5 : ℕ) :=
    pow_le_pow_left₀ (Real.rpow_nonneg (by norm_num) _) (not_lt.mp hn) 5
  rw [h] at h2
  norm_num at h2

/-! ## C188: the limiting luminosity -/

section Lum

variable {α : Type} [Field α] [LinearOrder α] [IsStrictOrderedRing α]

theorem limlum0_spec (lval : α) (h : 1 / 100 ≤ lval) : 0 < limlum0 lval ∧ limlum0 lval ≤ lval := by
  unfold limlum0
  split
  · exact ⟨by positivity, h⟩
  · rename_i h2
    refine ⟨lt_of_lt_of_le (by positivity) (not_lt.mp h2), ?_⟩
    have : (0 : α) < 1 / 10 := by positivity
    linarith

theorem limlumPerc_spec (lval lim : α) (h0 : 0 < lim) (h : lim ≤ lval) : 0 < limlumPerc lval lim ∧ limlumPerc lval lim ≤ lval := by
  unfold limlumPerc
  split
  · rename_i h1
    split
    · exact ⟨h0, h⟩
    · exact ⟨by positivity, h1.le⟩
  · exact ⟨h0, h⟩

theorem withMem_spec (lval lim : α) (mem : Option α) (h0 : 0 < lim) (h : lim ≤ lval) :
    0 < withMem lval mem lim ∧ withMem lval mem lim ≤ lim ∧ (∀ m, mem = some m → 0 < m → withMem lval mem lim ≤ m) := by
  unfold withMem
  cases mem with
  | none => exact ⟨h0, le_refl _, fun m e => by cases e⟩
  | some m =>
    simp only
    split
    · rename_i hc
      exact ⟨hc.1, hc.2.2.le, fun m' e _ => by cases e; exact le_refl _⟩
    · rename_i hc
      refine ⟨h0, le_refl _, fun m' e hm => ?_⟩
      cases e
      by_contra hn
      have := not_le.mp hn
      exact hc ⟨hm, lt_of_lt_of_le this h, this⟩

theorem withMask_spec (l lim : α) (h0 : 0 < lim) : 0 < withMask l lim ∧ withMask l lim ≤ lim ∧ (0 < l → withMask l lim ≤ l) := by
  unfold withMask
  split
  · rename_i h; exact ⟨h.1, h.2.le, fun _ => le_refl _⟩
  · rename_i h
    refine ⟨h0, le_refl _, fun hl => ?_⟩
    by_contra hn
    exact h ⟨hl, not_le.mp hn⟩

/-- What a limiting luminosity has to reach: the reference, the member and the masking luminosity. -/
def Reaches (lval : α) (mem : Option α) (r : α × α) : Prop :=
  0 < r.1 ∧ r.1 ≤ lval ∧ r.1 ≤ r.2 ∧ ∀ m, mem = some m → 0 < m → r.1 ≤ m

/-- **C188** (partial): for both finders, if the masking luminosity is set and not zero and the reference is at least 0.01, galaxies are
read down to the reference, the member and the masking luminosity. Missing: masking luminosity unset or zero, smaller references
(`C188_false`). -/
theorem C188_luminosity_partial (lval : α) (hl : 1 / 100 ≤ lval) (l : α) (hl0 : l ≠ 0) (mem : Option α) :
    (∃ r, lumPerc lval (some l) mem = .ok r ∧ Reaches lval mem r ∧ (r.2 = if l < 0 then lval else l)) ∧
    (∃ r, lumCat lval (some l) mem = .ok r ∧ Reaches lval mem r ∧ (r.2 = if l < 0 then lval else l)) := by
  have key : ∀ lim : α, 0 < lim → lim ≤ lval →
      Reaches lval mem (withMask ((some l).getD 0) (withMem lval mem lim), if l < 0 then lval else l) := by
    intro lim h0 h
    obtain ⟨a, b, c⟩ := withMem_spec lval lim mem h0 h
    obtain ⟨d, e, f⟩ := withMask_spec l (withMem lval mem lim) a
    refine ⟨d, e.trans (b.trans h), ?_, fun m hm hp => e.trans (c m hm hp)⟩
    simp only [Option.getD_some]
    split
    · exact e.trans (b.trans h)
    · rename_i hn; exact f (lt_of_le_of_ne (not_lt.mp hn) (Ne.symm hl0))
  obtain ⟨a, b⟩ := limlum0_spec lval hl
  obtain ⟨c, d⟩ := limlumPerc_spec lval _ a b
  have hlm : lmaskOf lval (some l) = .ok (if l < 0 then lval else l) := by unfold lmaskOf; simp only; split <;> rfl
  refine ⟨⟨_, ?_, key _ c d, rfl⟩, ⟨_, ?_, key _ a b, rfl⟩⟩
  · unfold lumPerc; rw [hlm]; rfl
  · unfold lumCat; rw [hlm]; rfl

/-- **C188** fails: every run ends with a TypeError if the masking luminosity is not set, which is the default; with zero galaxies are
masked that were not read; with references below 0.01 galaxies of the reference are not read. -/
theorem C188_false (lval : α) (mem : Option α) :
    (lumPerc lval none mem = .error .typeError ∧ lumCat lval none mem = .error .typeError) ∧
    (1 / 100 ≤ lval → ∃ r, lumPerc lval (some 0) mem = .ok r ∧ r.2 < r.1) ∧
    (lval < 1 / 100 → ∃ r, lumPerc lval (some (-1)) none = .ok r ∧ lval < r.1) := by
  refine ⟨⟨rfl, rfl⟩, fun hl => ?_, fun h => ?_⟩
  · obtain ⟨a, b⟩ := limlum0_spec lval hl
    obtain ⟨c, d⟩ := limlumPerc_spec lval _ a b
    obtain ⟨e, -, -⟩ := withMem_spec lval _ mem c d
    have hlm : lmaskOf lval (some 0) = .ok 0 := by unfold lmaskOf; simp
    refine ⟨(withMask ((some (0 : α)).getD 0) (withMem lval mem (limlumPerc lval (limlum0 lval))), 0), ?_, ?_⟩
    · unfold lumPerc; rw [hlm]; rfl
    · exact (withMask_spec _ _ e).1
  · have hlm : lmaskOf lval (some (-1)) = .ok lval := by unfold lmaskOf; simp
    have h100 : (1 : α) / 100 < 1 / 10 := by norm_num
    have e1 : limlum0 lval = 1 / 100 := by
      unfold limlum0; rw [if_pos]
      have : (0 : α) < 1 / 10 := by positivity
      linarith
    refine ⟨(withMask ((some (-1 : α)).getD 0) (withMem lval none (limlumPerc lval (limlum0 lval))), lval), ?_, ?_⟩
    · unfold lumPerc; rw [hlm]; rfl
    · simp only [e1, limlumPerc, withMem, withMask, Option.getD_some]
      rw [if_neg (by intro hc; have := hc.1; linarith), if_neg (by linarith)]
      exact h

/-- The settings of the tests: reference 0.2, masking down to 0.1, members down to 0.05. -/
example : lumPerc (2 / 10 : ℚ) (some (1 / 10)) (some (5 / 100)) = .ok (5 / 100, 1 / 10) := by decide +kernel

end Lum

/-! ## C189: derivatives of the richness -/

/-- **C189** (partial): the logarithmic derivative is exact for richness that is log-quadratic in redshift, and so is the second one, if
the richness of the cluster is the one at its redshift; likewise for the variance. Missing: richness measured at another redshift
(`C189_false`). -/
theorem C189_derivatives_partial (rich : ℝ → ℝ × ℝ) (eps zlam a b c A B D : ℝ) (he : eps ≠ 0)
    (hr : ∀ z, (rich z).1 = Real.exp (a + b * (z - zlam) + c * (z - zlam) ^ 2))
    (hv : ∀ z, (rich z).2 ^ 2 = A + B * (z - zlam) + D * (z - zlam) ^ 2) (lam lamE : ℝ) (old : Derivs) :
    (derivs rich eps zlam lam lamE old).dz = b ∧ (derivs rich eps zlam lam lamE old).vdz = B ∧
    (lam = (rich zlam).1 → (derivs rich eps zlam lam lamE old).dz2 = 2 * c) ∧
    (lamE = (rich zlam).2 → (derivs rich eps zlam lam lamE old).vdz2 = 2 * D) := by
  have hpos : (rich (zlam - eps)).1 > 0 ∧ (rich (zlam + eps)).1 > 0 := by
    rw [hr, hr]; exact ⟨Real.exp_pos _, Real.exp_pos _⟩
  unfold derivs
  simp only
  rw [if_pos hpos]
  simp only [hr, hv, Real.log_exp]
  refine ⟨?_, ?_, ?_, ?_⟩
  · field_simp; ring
  · field_simp; ring
  · rintro rfl
    rw [Real.log_exp]; field_simp; ring
  · intro e
    rw [e, hv]; field_simp; ring

/-- **C189** fails whenever the richness of the cluster is not the one at its redshift, for example after the redshift was corrected: the
second derivative is off by the difference over the square of the step. -/
theorem C189_false (rich : ℝ → ℝ × ℝ) (eps zlam a b c : ℝ) (he : eps ≠ 0)
    (hr : ∀ z, (rich z).1 = Real.exp (a + b * (z - zlam) + c * (z - zlam) ^ 2)) (lam lamE : ℝ) (old : Derivs) (hl : 0 < lam)
    (hne : lam ≠ (rich zlam).1) :
    (derivs rich eps zlam lam lamE old).dz2 = 2 * c + 2 * (Real.log (rich zlam).1 - Real.log lam) / eps ^ 2 ∧
    (derivs rich eps zlam lam lamE old).dz2 ≠ 2 * c := by
  have hpos : (rich (zlam - eps)).1 > 0 ∧ (rich (zlam + eps)).1 > 0 := by
    rw [hr, hr]; exact ⟨Real.exp_pos _, Real.exp_pos _⟩
  have key : (derivs rich eps zlam lam lamE old).dz2 = 2 * c + 2 * (Real.log (rich zlam).1 - Real.log lam) / eps ^ 2 := by
    unfold derivs
    simp only
    rw [if_pos hpos]
    simp only [hr, Real.log_exp]
    field_simp; ring
  refine ⟨key, ?_⟩
  rw [key]
  intro h
  have h0 : 2 * (Real.log (rich zlam).1 - Real.log lam) / eps ^ 2 = 0 := by linarith
  have h1 : Real.log (rich zlam).1 - Real.log lam ≠ 0 := by
    rw [sub_ne_zero]
    intro e
    have hz : 0 < (rich zlam).1 := by rw [hr]; exact Real.exp_pos _
    exact hne (Real.log_injOn_pos (Set.mem_Ioi.mpr hl) (Set.mem_Ioi.mpr hz) e.symm)
  have : 2 * (Real.log (rich zlam).1 - Real.log lam) / eps ^ 2 ≠ 0 := by positivity
  exact this h0

/-- Where a neighboring richness is not positive, nothing changes. -/
theorem C189_invalid (rich : ℝ → ℝ × ℝ) (eps zlam lam lamE : ℝ) (old : Derivs)
    (h : (rich (zlam - eps)).1 ≤ 0 ∨ (rich (zlam + eps)).1 ≤ 0) : derivs rich eps zlam lam lamE old = old := by
  unfold derivs
  simp only
  rw [if_neg]
  rintro ⟨h1, h2⟩
  rcases h with h | h <;> linarith

/-- A richness that meets the hypotheses, and a cluster with another one. -/
example : (∀ z : ℝ, ((fun z => (Real.exp (3 + (-2) * (z - 1 / 2) + 1 * (z - 1 / 2) ^ 2), (0 : ℝ))) z).1 =
    Real.exp (3 + (-2) * (z - 1 / 2) + 1 * (z - 1 / 2) ^ 2)) ∧ Real.exp 2 ≠ Real.exp (3 + (-2) * ((1 / 2 : ℝ) - 1 / 2) + 1 * (1 / 2 - 1 / 2) ^ 2) := by
  refine ⟨fun z => rfl, ?_⟩
  intro h
  have := Real.exp_injective h
  norm_num at this

/-! ## C190: centers and galaxies -/

theorem scatter_length {β : Type} (a : List β) (l : List (Nat × β)) : (scatter a l).length = a.length := by
  induction l generalizing a with
  | nil => rfl
  | cons p l ih => obtain ⟨i, b⟩ := p; simp [scatter, ih]

theorem scatter_get {β : Type} (a : List β) (l : List (Nat × β)) (i : Nat) (hi : i < a.length) :
    (scatter a l)[i]? = match (l.filter fun p => p.1 == i).getLast? with
      | none => a[i]?
      | some p => some p.2 := by
  induction l generalizing a with
  | nil => rfl
  | cons p l ih =>
    obtain ⟨j, b⟩ := p
    simp only [scatter]
    rw [ih (a.set j b) (by simpa using hi)]
    by_cases hj : j = i
    · subst hj
      rw [List.filter_cons_of_pos (by simp), List.getLast?_cons]
      cases h : (l.filter fun p => p.1 == j).getLast? with
      | none => simp [hi]
      | some q => simp
    · rw [List.filter_cons_of_neg (by simpa using hj)]
      cases h : (l.filter fun p => p.1 == i).getLast? with
      | none => simp [List.getElem?_set_ne hj]
      | some q => rfl

theorem filter_filterMap {β : Type} (gals : List Phot) (f : Phot → β) (pairs : List (Nat × Nat)) (hg : ∀ p ∈ pairs, p.2 < gals.length)
    (i : Nat) :
    ((pairs.filterMap fun p => (gals[p.2]?).map fun g => (p.1, f g)).filter fun p => p.1 == i) =
      (pairs.filter fun p => p.1 == i).filterMap fun p => (gals[p.2]?).map fun g => (p.1, f g) := by
  induction pairs with
  | nil => rfl
  | cons p l ih =>
    have h := hg p (by simp)
    have ih := ih (fun q hq => hg q (by simp [hq]))
    simp only [List.filterMap_cons, List.getElem?_eq_getElem h, Option.map_some]
    by_cases hi : p.1 = i
    · rw [List.filter_cons_of_pos (by simpa using hi), List.filter_cons_of_pos (by simpa using hi), ih, List.filterMap_cons,
        List.getElem?_eq_getElem h]
      rfl
    · rw [List.filter_cons_of_neg (by simpa using hi), List.filter_cons_of_neg (by simpa using hi), ih]

theorem getLast?_filterMap_total {β γ : Type} (l : List β) (f : β → Option γ) (hf : ∀ x ∈ l, (f x).isSome) :
    (l.filterMap f).getLast? = l.getLast?.bind f := by
  induction l using List.reverseRecOn with
  | nil => rfl
  | append_singleton l x ih =>
    obtain ⟨y, hy⟩ := Option.isSome_iff_exists.mp (hf x (by simp))
    rw [List.filterMap_append]
    simp [hy]

/-- The photometry a center has after matching: of the galaxy of its last match, or its own without match. -/
def phot (cat gals : List Phot) (pairs : List (Nat × Nat)) (i : Nat) : Option Phot :=
  match (pairs.filter fun p => p.1 == i).getLast? with
  | none => cat[i]?
  | some p => gals[p.2]?

theorem col_get {β : Type} (cat gals : List Phot) (pairs : List (Nat × Nat)) (hg : ∀ p ∈ pairs, p.2 < gals.length) (f : Phot → β) (i : Nat)
    (hi : i < cat.length) :
    (scatter (cat.map f) (pairs.filterMap fun p => (gals[p.2]?).map fun g => (p.1, f g)))[i]? = (phot cat gals pairs i).map f := by
  rw [scatter_get _ _ _ (by simpa using hi), filter_filterMap gals f pairs hg i, getLast?_filterMap_total]
  · unfold phot
    cases h : (pairs.filter fun p => p.1 == i).getLast? with
    | none => simp
    | some p =>
      have hm : p ∈ pairs := (List.mem_filter.mp (List.mem_of_getLast? h)).1
      simp [List.getElem?_eq_getElem (hg p hm)]
  · intro p hp
    have hm : p ∈ pairs := (List.mem_filter.mp hp).1
    simp [List.getElem?_eq_getElem (hg p hm)]

/-- **C190** (partial), photometry: after matching, every center has all its magnitudes and errors from one galaxy, one that matches it,
or without match its own. Missing: redshifts (`C190_false`). -/
theorem C190_centers_partial (cat gals : List Phot) (pairs : List (Nat × Nat)) (hg : ∀ p ∈ pairs, p.2 < gals.length) :
    (matchCenters cat gals pairs).length = cat.length ∧
    ∀ i, i < cat.length →
      ((∃ j g, (i, j) ∈ pairs ∧ gals[j]? = some g ∧ (matchCenters cat gals pairs)[i]? = some g) ∨
       ((∀ j, (i, j) ∉ pairs) ∧ (matchCenters cat gals pairs)[i]? = cat[i]?)) := by
  have hlen : (matchCenters cat gals pairs).length = cat.length := by
    unfold matchCenters
    simp [scatter_length]
  refine ⟨hlen, fun i hi => ?_⟩
  have hget : (matchCenters cat gals pairs)[i]? = phot cat gals pairs i := by
    have hsome : ∃ g, phot cat gals pairs i = some g := by
      unfold phot
      cases h : (pairs.filter fun p => p.1 == i).getLast? with
      | none => exact ⟨cat[i], List.getElem?_eq_getElem hi⟩
      | some p =>
        have hm : p ∈ pairs := (List.mem_filter.mp (List.mem_of_getLast? h)).1
        exact ⟨gals[p.2]'(hg p hm), List.getElem?_eq_getElem (hg p hm)⟩
    obtain ⟨g, hgs⟩ := hsome
    have c1 := col_get cat gals pairs hg (·.refmag) i hi
    have c2 := col_get cat gals pairs hg (·.refmagErr) i hi
    have c3 := col_get cat gals pairs hg (·.mag) i hi
    have c4 := col_get cat gals pairs hg (·.magErr) i hi
    rw [hgs] at c1 c2 c3 c4 ⊢
    unfold matchCenters
    simp only [List.getElem?_map]
    have z : (List.zip (List.zip (scatter (cat.map (·.refmag)) (pairs.filterMap fun p => (gals[p.2]?).map fun g => (p.1, g.refmag)))
        (scatter (cat.map (·.refmagErr)) (pairs.filterMap fun p => (gals[p.2]?).map fun g => (p.1, g.refmagErr))))
        (List.zip (scatter (cat.map (·.mag)) (pairs.filterMap fun p => (gals[p.2]?).map fun g => (p.1, g.mag)))
        (scatter (cat.map (·.magErr)) (pairs.filterMap fun p => (gals[p.2]?).map fun g => (p.1, g.magErr)))))[i]? =
        some ((g.refmag, g.refmagErr), (g.mag, g.magErr)) := by
      rw [List.getElem?_zip_eq_some, List.getElem?_zip_eq_some, List.getElem?_zip_eq_some]
      exact ⟨⟨c1, c2⟩, c3, c4⟩
    rw [z]
    rfl
  rw [hget]
  unfold phot
  cases h : (pairs.filter fun p => p.1 == i).getLast? with
  | none =>
    right
    refine ⟨fun j hj => ?_, rfl⟩
    rw [List.getLast?_eq_none_iff] at h
    have : (i, j) ∈ pairs.filter fun p => p.1 == i := List.mem_filter.mpr ⟨hj, by simp⟩
    rw [h] at this; cases this
  | some p =>
    left
    obtain ⟨hm, he⟩ := List.mem_filter.mp (List.mem_of_getLast? h)
    have he : p.1 = i := by simpa using he
    refine ⟨p.2, gals[p.2]'(hg p hm), ?_, List.getElem?_eq_getElem (hg p hm), List.getElem?_eq_getElem (hg p hm)⟩
    rw [← he]; exact hm

example : matchCenters [⟨0, 0, [0], [0]⟩, ⟨1, 1, [1], [1]⟩] [⟨5, 1, [6], [1]⟩, ⟨7, 1, [8], [1]⟩] [(1, 0), (1, 1)] =
    [⟨0, 0, [0], [0]⟩, ⟨7, 1, [8], [1]⟩] := by decide

/-- **C190** fails for redshifts: a single match gives all centers the redshift of that galaxy; with a center without match and others with
one each, the run ends; and if the numbers happen to agree, redshifts go to centers in the order of the matches. -/
theorem C190_false (cat gals : List Int) (i j : Nat) (g : Int) (hg : gals[j]? = some g) :
    matchZreds cat gals [(i, j)] = .ok (cat.map fun _ => g) ∧
    (∀ pairs : List (Nat × Nat), (∀ p ∈ pairs, p.2 < gals.length) → 2 ≤ pairs.length → pairs.length ≠ cat.length →
      matchZreds cat gals pairs = .error .valueError) ∧
    matchZreds [0, 0] [5, 6, 7] [(1, 1), (1, 2)] = .ok [6, 7] := by
  refine ⟨?_, ?_, by decide⟩
  · simp [matchZreds, hg, assignAll]
  · intro pairs hp h2 hne
    have hlen : (pairs.filterMap fun p => gals[p.2]?).length = pairs.length := by
      clear h2 hne
      induction pairs with
      | nil => rfl
      | cons p l ih =>
        rw [List.filterMap_cons, List.getElem?_eq_getElem (hp p (by simp))]
        simp [ih (fun q hq => hp q (by simp [hq]))]
    unfold matchZreds assignAll
    split
    · rename_i x hx; rw [hx] at hlen; simp at hlen; omega
    · rw [if_neg (by rw [hlen]; exact hne)]

/-! ## C191: output -/

/-- **C191** (partial): after the output of a catalog with members, readers get this catalog and these members, if files are replaced or
there were none; a failed run changes nothing. Missing: existing files that are not replaced, runs without members over files with
members (`C191_false`). -/
theorem C191_output_partial {T : Type} (clobber : Bool) (d : Disk T) (c m : T) (hd : clobber = true ∨ (d.cat = none ∧ d.mem = none)) :
    first (output true clobber (some c) (some m) d).cat = some c ∧ first (output true clobber (some c) (some m) d).mem = some m ∧
    (∀ sm mem, output sm clobber none mem d = d) ∧
    (∀ mem, first (output false clobber (some c) mem d).cat = some c ∧ (output false clobber (some c) mem d).mem = d.mem) := by
  have hw : ∀ (t : T) (f : Option (List T)), (clobber = true ∨ f = none) → first (fwrite clobber t f) = some t := by
    intro t f h
    cases f with
    | none => rfl
    | some ts =>
      rcases h with h | h
      · subst h; rfl
      · cases h
  have h1 : clobber = true ∨ d.cat = none := hd.imp id And.left
  have h2 : clobber = true ∨ d.mem = none := hd.imp id And.right
  exact ⟨hw c _ h1, hw m _ h2, fun _ _ => rfl, fun mem => ⟨hw c _ h1, rfl⟩⟩

/-- **C191** fails: without replacing, readers still get the catalog of before; and a run without members leaves the members of before next
to the new catalog, even when replacing. -/
theorem C191_false {T : Type} (c m c' m' : T) (rest rest' : List T) (clobber : Bool) (mem : Option T) :
    first (output true false (some c) (some m) ⟨some (c' :: rest), some (m' :: rest')⟩).cat = some c' ∧
    first (output true true (some c) none ⟨some (c' :: rest), some (m' :: rest')⟩).cat = some c ∧
    first (output true clobber (some c) none ⟨some (c' :: rest), some (m' :: rest')⟩).mem = some m' ∧
    first (output false clobber (some c) mem ⟨some (c' :: rest), some (m' :: rest')⟩).mem = some m' :=
  ⟨rfl, rfl, rfl, rfl⟩

end Redmapper.Setup
