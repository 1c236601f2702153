/-
Properties of the sampling of tabulated distributions and of the mask galaxies (C288-C291).
-/
import Verif.Model.MaskGen
import Verif.Props.Utilities
import Verif.Props.Cluster
import Mathlib.MeasureTheory.Measure.Lebesgue.Basic

set_option linter.unusedSectionVars false

namespace Redmapper.MaskGen

open Redmapper.Cluster hiding Err
open Redmapper.Utilities
open MeasureTheory

/-! ## C288: the distribution of the samples -/

/-- The tabulated cumulative distribution: the share of the first `k + 1` values. -/
noncomputable def Cdf (pdf : List ℝ) (k : Nat) : ℝ := (pdf.take (k + 1)).sum / pdf.sum

/-- The probability that a uniform draw gives a sample not above `b`. -/
noncomputable def ProbLe (x pdf : List ℝ) (b : ℝ) : ENNReal :=
  volume {u : ℝ | 0 ≤ u ∧ u < 1 ∧ ∃ v, samplePdf x pdf u = .ok v ∧ v ≤ b}

theorem cdf_mono {pdf : List ℝ} (hp : ∀ v ∈ pdf, 0 ≤ v) (hs : 0 < pdf.sum) {i j : Nat} (h : i ≤ j) : Cdf pdf i ≤ Cdf pdf j := by
  unfold Cdf
  refine div_le_div_of_nonneg_right ?_ hs.le
  have e : pdf.take (j + 1) = pdf.take (i + 1) ++ (pdf.drop (i + 1)).take (j - i) := by
    rw [show j + 1 = (i + 1) + (j - i) by omega, List.take_add]
  rw [e, List.sum_append]
  have : 0 ≤ ((pdf.drop (i + 1)).take (j - i)).sum :=
    List.sum_nonneg fun v hv => hp v (List.mem_of_mem_drop (List.mem_of_mem_take hv))
  linarith

theorem cdf_last {pdf : List ℝ} (hs : 0 < pdf.sum) : Cdf pdf (pdf.length - 1) = 1 := by
  have : pdf ≠ [] := by rintro rfl; simp at hs
  have hl : 0 < pdf.length := List.length_pos_iff.mpr this
  unfold Cdf
  rw [show pdf.length - 1 + 1 = pdf.length by omega, List.take_length, div_self hs.ne']

/-- Which grid point is picked. -/
theorem pick {x pdf : List ℝ} (hl : pdf.length = x.length) (hp : ∀ v ∈ pdf, 0 ≤ v) (hs : 0 < pdf.sum) {u : ℝ} (hu : u < 1) :
    ∃ i, ∃ h : i < x.length, samplePdf x pdf u = .ok x[i] ∧
      ∀ k, k < x.length → (i ≤ k ↔ ⌊u * (x.length : ℝ)⌋ ≤ ⌊Cdf pdf k * (x.length : ℝ)⌋) := by
  set n := x.length with hn
  have hpn : 0 < n := by
    rw [← hl]
    exact List.length_pos_iff.mpr (by rintro rfl; simp at hs)
  have hnR : (0 : ℝ) < n := by exact_mod_cast hpn
  set p := pdf.map fun v => v / pdf.sum with hpdef
  set cdfi : List Int := (Centering.cumsum 0 p).map fun c => ⌊c * (n : ℝ)⌋ with hcdfi
  have hplen : p.length = n := by simp [hpdef, hl]
  have hclen : cdfi.length = n := by simp [hcdfi, Centering.cumsum_length, hplen]
  have htake : ∀ i, (p.take (i + 1)).sum = Cdf pdf i := by
    intro i
    unfold Cdf
    rw [hpdef, ← List.map_take]
    simp only [div_eq_mul_inv]
    rw [List.sum_map_mul_right, List.map_id']
  have hcd : ∀ i, i < n → cdfi.getD i 0 = ⌊Cdf pdf i * (n : ℝ)⌋ := by
    intro i hi
    have h1 : i < (Centering.cumsum 0 p).length := by rw [Centering.cumsum_length, hplen]; exact hi
    have h2 := Centering.cumsum_getD (0 : ℝ) p i (by omega)
    rw [List.getD_eq_getElem?_getD, hcdfi, List.getElem?_map, List.getElem?_eq_getElem h1]
    rw [List.getD_eq_getElem?_getD, List.getElem?_eq_getElem h1] at h2
    simp only [Option.getD_some, zero_add] at h2
    simp only [Option.map_some, Option.getD_some]
    rw [h2, htake]
  have hfind : ∃ i, (List.range cdfi.length).find? (fun i => decide (⌊u * (n : ℝ)⌋ ≤ cdfi.getD i 0)) = some i := by
    rw [← Option.isSome_iff_exists, List.find?_isSome]
    refine ⟨n - 1, List.mem_range.mpr (by omega), ?_⟩
    rw [decide_eq_true_eq, hcd _ (by omega), show n - 1 = pdf.length - 1 by omega, cdf_last hs]
    exact Int.floor_le_floor (mul_le_mul_of_nonneg_right hu.le hnR.le)
  obtain ⟨i, hi⟩ := hfind
  obtain ⟨hip, as, bs, hsplit, hbefore⟩ := List.find?_eq_some_iff_append.mp hi
  have himem : i ∈ List.range cdfi.length := by rw [hsplit]; simp
  have hilt : i < n := by rw [← hclen]; exact List.mem_range.mp himem
  refine ⟨i, hilt, ?_, ?_⟩
  · unfold samplePdf
    simp only
    rw [← hpdef, ← hn, ← hcdfi, hi]
    simp only [List.getElem?_eq_getElem hilt]
  · intro k hk
    constructor
    · intro hik
      have h1 := of_decide_eq_true hip
      rw [hcd i hilt] at h1
      exact h1.trans (Int.floor_le_floor (mul_le_mul_of_nonneg_right (cdf_mono hp hs hik) hnR.le))
    · intro hq
      by_contra hc
      push Not at hc
      have hmem : k ∈ as := by
        have hjm : k ∈ List.range cdfi.length := List.mem_range.mpr (by omega)
        have hpwr : (List.range cdfi.length).Pairwise (· < ·) := List.pairwise_lt_range
        rw [hsplit] at hjm hpwr
        rcases List.mem_append.mp hjm with h | h
        · exact h
        · exfalso
          rcases List.mem_cons.mp h with h | h
          · omega
          · have h1 := (List.pairwise_append.mp hpwr).2.1
            have h2 := (List.pairwise_cons.mp h1).1 k h
            omega
      have h3 := hbefore k hmem
      rw [hcd k hk, decide_eq_true hq] at h3
      simp at h3

/-- Samples not above the `k`-th grid point are those of the draws below a threshold next to the cumulative distribution. -/
theorem threshold {x pdf : List ℝ} (hl : pdf.length = x.length) (hx : x.Pairwise (· < ·)) (hp : ∀ v ∈ pdf, 0 ≤ v) (hs : 0 < pdf.sum)
    {k : Nat} (hk : k < x.length) {u : ℝ} (hu : u < 1) :
    (∃ v, samplePdf x pdf u = .ok v ∧ v ≤ x[k]) ↔ u < ((⌊Cdf pdf k * (x.length : ℝ)⌋ : ℝ) + 1) / x.length := by
  obtain ⟨i, hi, hsamp, hiff⟩ := pick hl hp hs hu
  have hnR : (0 : ℝ) < x.length := by exact_mod_cast (by omega : 0 < x.length)
  have hmono : x[i] ≤ x[k] ↔ i ≤ k := by
    constructor
    · intro h
      by_contra hc
      exact absurd (List.pairwise_iff_getElem.mp hx k i hk hi (by omega)) (not_lt.mpr h)
    · intro h
      rcases h.lt_or_eq with h | h
      · exact (List.pairwise_iff_getElem.mp hx i k hi hk h).le
      · simp [h]
  rw [lt_div_iff₀ hnR]
  constructor
  · rintro ⟨v, hv, hvk⟩
    rw [hsamp] at hv
    injection hv with hv
    subst hv
    have := (hiff k hk).mp (hmono.mp hvk)
    have := Int.floor_lt.mp (Int.lt_add_one_of_le this)
    exact_mod_cast this
  · intro h
    refine ⟨x[i], hsamp, hmono.mpr ((hiff k hk).mpr ?_)⟩
    apply Int.le_of_lt_add_one
    apply Int.floor_lt.mpr
    exact_mod_cast h

/-- **C288, part.** For every table of an increasing grid and non-negative values that are not all zero, the probability that a
sample is not above a grid point is at least the cumulative distribution there, and exceeds it by at most one over the number of grid
points.

Missing: the probability is not the cumulative distribution itself (`C288_distribution_false`). -/
theorem C288_distribution_partial (x pdf : List ℝ) (hl : pdf.length = x.length) (hx : x.Pairwise (· < ·)) (hp : ∀ v ∈ pdf, 0 ≤ v)
    (hs : 0 < pdf.sum) (k : Nat) (hk : k < x.length) :
    ∃ P : ℝ, ProbLe x pdf x[k] = ENNReal.ofReal P ∧ Cdf pdf k ≤ P ∧ P ≤ Cdf pdf k + 1 / x.length ∧ P ≤ 1 := by
  set T := ((⌊Cdf pdf k * (x.length : ℝ)⌋ : ℝ) + 1) / x.length with hT
  have hnR : (0 : ℝ) < x.length := by exact_mod_cast (by omega : 0 < x.length)
  have hset : {u : ℝ | 0 ≤ u ∧ u < 1 ∧ ∃ v, samplePdf x pdf u = .ok v ∧ v ≤ x[k]} = Set.Ico 0 (min T 1) := by
    ext u
    simp only [Set.mem_setOf_eq, Set.mem_Ico, lt_min_iff]
    constructor
    · rintro ⟨h0, h1, h2⟩
      exact ⟨h0, (threshold hl hx hp hs hk h1).mp h2, h1⟩
    · rintro ⟨h0, h1, h2⟩
      exact ⟨h0, h2, (threshold hl hx hp hs hk h2).mpr h1⟩
  have hcT : Cdf pdf k < T := by
    rw [hT, lt_div_iff₀ hnR]
    exact Int.lt_floor_add_one _
  have hTc : T ≤ Cdf pdf k + 1 / x.length := by
    rw [hT, add_div]
    have := Int.floor_le (Cdf pdf k * (x.length : ℝ))
    have : (⌊Cdf pdf k * (x.length : ℝ)⌋ : ℝ) / x.length ≤ Cdf pdf k := by rw [div_le_iff₀ hnR]; exact this
    linarith
  have hc1 : Cdf pdf k ≤ 1 := by
    rw [← cdf_last hs]
    exact cdf_mono hp hs (by omega)
  refine ⟨min T 1, ?_, le_min hcT.le hc1, (min_le_left _ _).trans hTc, min_le_right _ _⟩
  unfold ProbLe
  rw [hset, Real.volume_Ico, sub_zero]

/-- The full property: the samples follow the tabulated distribution. -/
def C288_spec : Prop := ∀ (x pdf : List ℝ), pdf.length = x.length → x.Pairwise (· < ·) → (∀ v ∈ pdf, 0 ≤ v) → 0 < pdf.sum →
  ∀ k, (hk : k < x.length) → ProbLe x pdf x[k] = ENNReal.ofReal (Cdf pdf k)

/-- **C288 is false**: with two grid points of the same probability every sample is the first one. -/
theorem C288_distribution_false : ¬ C288_spec := by
  intro h
  have h1 := h [0, 1] [1, 1] rfl (by simp) (by simp) (by simp) 0 (by simp)
  have hset : {u : ℝ | 0 ≤ u ∧ u < 1 ∧ ∃ v, samplePdf [0, 1] [1, 1] u = .ok v ∧ v ≤ ([0, 1] : List ℝ)[0]} = Set.Ico 0 1 := by
    ext u
    simp only [Set.mem_setOf_eq, Set.mem_Ico]
    refine ⟨fun q => ⟨q.1, q.2.1⟩, fun q => ⟨q.1, q.2, ?_⟩⟩
    refine (threshold (x := [0, 1]) (pdf := [1, 1]) rfl (by simp) (by simp) (by simp) (k := 0) (by simp) q.2).mpr ?_
    have : Cdf [1, 1] 0 = 1 / 2 := by norm_num [Cdf]
    rw [this]
    norm_num
    exact q.2
  unfold ProbLe at h1
  rw [hset, Real.volume_Ico] at h1
  have : Cdf [1, 1] 0 = 1 / 2 := by norm_num [Cdf]
  rw [this] at h1
  have h2 := (ENNReal.ofReal_eq_ofReal_iff (by norm_num) (by norm_num)).mp h1
  norm_num at h2

example : ([0, 1, 2] : List ℝ).Pairwise (· < ·) ∧ (∀ v ∈ ([0, 1, 2] : List ℝ), 0 ≤ v) ∧ 0 < ([0, 1, 2] : List ℝ).sum := by
  refine ⟨by simp, by simp, by norm_num⟩

/-! ## C289: the values of the mask galaxies and their weights -/

theorem sum_pos_of {l : List ℝ} (h : ∀ v ∈ l, 0 ≤ v) {a : ℝ} (ha : a ∈ l) (h0 : 0 < a) : 0 < l.sum :=
  lt_of_lt_of_le h0 (List.single_le_sum h a ha)

theorem arange_mem {lo hi step : ℝ} (hs : 0 < step) {v : ℝ} (hv : v ∈ arange lo hi step) :
    (∃ k : Nat, v = lo + k * step) ∧ lo ≤ v ∧ v < hi := by
  simp only [arange, List.mem_map, List.mem_range] at hv
  obtain ⟨k, hk, rfl⟩ := hv
  refine ⟨⟨k, rfl⟩, ?_, ?_⟩
  · have : (0 : ℝ) ≤ (k : ℝ) * step := by positivity
    linarith
  · have h1 : (k : ℤ) < ⌈(hi - lo) / step⌉ := by omega
    have h2 := Int.lt_ceil.mp h1
    rw [lt_div_iff₀ hs] at h2
    push_cast at h2
    linarith

/-- A grid point is in the grid when it is below the end. -/
theorem mem_arange {lo hi step : ℝ} (hs : 0 < step) {k : Nat} (h : lo + k * step < hi) : lo + k * step ∈ arange lo hi step := by
  simp only [arange, List.mem_map, List.mem_range]
  refine ⟨k, ?_, rfl⟩
  have : (k : ℤ) < ⌈(hi - lo) / step⌉ := by
    rw [Int.lt_ceil, lt_div_iff₀ hs]
    push_cast
    linarith
  omega

/-- What is sampled from a finite distribution that is positive somewhere on the grid. -/
theorem sampleFrom_ok (nanInt : Int) (f : ℝ → Option ℝ) (g : ℝ → ℝ) (lo hi step u : ℝ) (hs : 0 < step)
    (hf : ∀ v ∈ arange lo hi step, f v = some (g v) ∧ 0 ≤ g v) (hpos : ∃ v ∈ arange lo hi step, 0 < g v) (hu : u < 1) :
    ∃ v, sampleFrom nanInt f lo hi step u = .ok v ∧ (∃ k : Nat, v = lo + k * step) ∧ lo ≤ v ∧ v < hi := by
  set x := arange lo hi step with hx
  have e1 : x.map f = (x.map g).map some := by
    rw [List.map_map]
    exact List.map_congr_left fun v hv => (hf v hv).1
  have e2 : sampleFrom nanInt f lo hi step u = samplePdf x (x.map g) u := by
    unfold sampleFrom sampleInf
    simp only
    rw [← hx, e1]
    rw [if_pos (by simp)]
    congr 1
    simp [List.filterMap_map]
  have hp : ∀ v ∈ x.map g, 0 ≤ v := by
    intro v hv
    obtain ⟨w, hw, rfl⟩ := List.mem_map.mp hv
    exact (hf w hw).2
  obtain ⟨w, hw, hw0⟩ := hpos
  obtain ⟨i, hi', hsamp, -⟩ := pick (x := x) (pdf := x.map g) (by simp) hp (sum_pos_of hp (List.mem_map.mpr ⟨w, hw, rfl⟩) hw0) hu
  have hm := arange_mem hs (List.getElem_mem hi')
  exact ⟨x[i], e2.trans hsamp, hm⟩

/-- Settings for which there is something to sample: more than two bands, a positive chi-squared limit, a faint end beyond the
bright end, and a positive radius. -/
structure SettingsOK (S : Settings) : Prop where
  bands : 3 ≤ S.nmag
  chisq : 0 < S.chisqMax
  faint : -(5 / 2) < faintEnd S
  radius : 0 < S.r0

theorem maxRad_pos {r0 beta : ℝ} (h : 0 < r0) : 1 / 10 ≤ Maps.maxRad r0 beta := by
  unfold Maps.maxRad
  have h1 : 0 < 10 * r0 * (300 / 100 : ℝ) ^ beta := by positivity
  have h2 : (1 : ℤ) ≤ ⌈10 * r0 * (300 / 100 : ℝ) ^ beta⌉ := Int.one_le_ceil_iff.mpr h1
  have h3 : (1 : ℝ) ≤ (⌈10 * r0 * (300 / 100 : ℝ) ^ beta⌉ : ℝ) := by exact_mod_cast h2
  linarith

/-- **C289, part.** For all settings with at least three bands and all draws below one, a mask galaxy is made.  Its chi-squared is in
`[0, chisq_max)`, its magnitude relative to mstar starts at -2.5 and ends at that of the reference luminosity plus the extra
magnitudes, and its radius is in `[0.001, maxrad)`.  Its position has that radius, and its weights are the colour, radial,
luminosity and redshift filters at its own values, the luminosity one over a common normalisation.

Missing: surveys with two bands (`C291_two_bands_false`). -/
theorem C289_galaxy_partial (nanInt : Int) (simps : List ℝ → List ℝ → ℝ) (S : Settings) (D : Draws) (hS : SettingsOK S)
    (h1 : D.chisq < 1) (h2 : D.m < 1) (h3 : D.r < 1) :
    ∃ g, makeGal nanInt simps S D = .ok g ∧
      (0 ≤ g.chisq ∧ g.chisq < S.chisqMax) ∧
      (-(5 / 2) ≤ g.m ∧ g.m < -(5 / 2) * Real.logb 10 S.lvalRef + S.dmagExtra) ∧
      (1 / 1000 ≤ g.r ∧ g.r < Maps.maxRad S.r0 S.beta) ∧
      g.x ^ 2 + g.y ^ 2 = g.r ^ 2 ∧
      g.cwt = Cluster.chisqPdf ((S.nmag : ℝ) - 1) g.chisq ∧ g.chisqPdf = g.cwt ∧
      g.nfw = nfwPdf (15 / 100) (1 / 10) true g.r ∧
      g.lumPdf = schechterPdf S.alpha 0 g.m ∧ g.lumwt = schechterPdf S.alpha 0 g.m / lumNorm simps S ∧
      g.zwt = Real.exp (-(g.dzred ^ 2) / (2 * S.zredErr ^ 2)) / (Real.sqrt (2 * Real.pi) * S.zredErr) := by
  have hb : (3 : ℝ) ≤ S.nmag := by exact_mod_cast hS.bands
  have hstep : 0 < S.chisqMax / 10000 := by have := hS.chisq; positivity
  have hlog : -(5 / 2 : ℝ) * Real.logb 10 10 = -(5 / 2) := by
    rw [Real.logb_self_eq_one (by norm_num), mul_one]
  obtain ⟨c, ec, -, c0, c1⟩ := sampleFrom_ok nanInt (chisqVal ((S.nmag : ℝ) - 1)) (Cluster.chisqPdf ((S.nmag : ℝ) - 1)) 0 S.chisqMax
    (S.chisqMax / 10000) D.chisq hstep
    (by
      intro v hv
      obtain ⟨-, hv0, -⟩ := arange_mem hstep hv
      refine ⟨by unfold chisqVal; rw [if_neg]; rintro ⟨-, q⟩; linarith, ?_⟩
      unfold Cluster.chisqPdf
      have ha : 0 < (2 : ℝ) ^ (((S.nmag : ℝ) - 1) / 2) := Real.rpow_pos_of_pos (by norm_num) _
      have hg : 0 < Real.Gamma (((S.nmag : ℝ) - 1) / 2) := Real.Gamma_pos_of_pos (by linarith)
      have hx : 0 ≤ v ^ (((S.nmag : ℝ) - 1) / 2 - 1) := Real.rpow_nonneg hv0 _
      have := Real.exp_pos (-v / 2)
      positivity)
    (by
      refine ⟨0 + ((1 : Nat) : ℝ) * (S.chisqMax / 10000), mem_arange hstep (by push_cast; have := hS.chisq; linarith), ?_⟩
      refine (C132_positive 0 0 0 _ _ (by linarith) ?_).2
      push_cast
      linarith)
    h1
  obtain ⟨m, em, -, m0, m1⟩ := sampleFrom_ok nanInt (fun m => some (schechterPdf S.alpha 0 m)) (schechterPdf S.alpha 0)
    (-(5 / 2) * Real.logb 10 10) (faintEnd S) (2 / 1000) D.m (by norm_num)
    (fun v _ => ⟨rfl, ((C132_positive S.alpha 0 v 1 1 one_pos one_pos).1).le⟩)
    ⟨_, mem_arange (k := 0) (by norm_num) (by rw [hlog]; push_cast; linarith [hS.faint]), (C132_positive S.alpha 0 _ 1 1 one_pos one_pos).1⟩ h2
  have hr := maxRad_pos (beta := S.beta) hS.radius
  obtain ⟨r, er, -, r0, r1⟩ := sampleFrom_ok nanInt (fun r => some (nfwPdf (15 / 100) (1 / 10) true r)) (nfwPdf (15 / 100) (1 / 10) true)
    (1 / 1000) (Maps.maxRad S.r0 S.beta) (1 / 1000) D.r (by norm_num)
    (by
      intro v hv
      obtain ⟨-, hv0, -⟩ := arange_mem (by norm_num) hv
      exact ⟨rfl, (C132_radial (15 / 100) (1 / 10) (by norm_num) (by norm_num) (by norm_num) v).2.2.2 (by linarith)⟩)
    (by
      refine ⟨1 / 1000 + ((0 : Nat) : ℝ) * (1 / 1000), mem_arange (by norm_num) (by push_cast; linarith), ?_⟩
      have e : ∀ r, nfwPdf (15 / 100) (1 / 10) true r = nfwPdf (15 / 100) (1 / 10) false r * (2 * Real.pi * r) := by
        intro r
        unfold nfwPdf
        simp only [if_true, Bool.false_eq_true, if_false]
      rw [e]
      refine mul_pos ((C132_radial (15 / 100) (1 / 10) (by norm_num) (by norm_num) (by norm_num) _).1 (by push_cast; linarith)) ?_
      have := Real.pi_pos
      push_cast
      positivity)
    h3
  have hlum : schechterPdf S.alpha 19 (m + 19) = schechterPdf S.alpha 0 m := by
    unfold schechterPdf
    rw [show (19 : ℝ) - (m + 19) = 0 - m by ring]
  rw [hlog] at m0
  refine ⟨_, by unfold makeGal; simp only [ec, em, er]; rfl, ⟨c0, c1⟩, ⟨m0, m1⟩, ⟨r0, r1⟩, ?_, rfl, rfl, rfl, hlum, ?_, ?_⟩
  · have := Real.sin_sq_add_cos_sq (2 * Real.pi * D.phi)
    simp only [mul_pow]
    linear_combination r ^ 2 * this
  · simp only [hlum]
  · simp only
    ring

/-- Default-like settings. -/
noncomputable def sampleSettings : Settings where
  nmag := 5
  r0 := 1
  beta := 1 / 5
  chisqMax := 20
  lvalRef := 1
  dmagExtra := 1 / 2
  alpha := -1
  zredErr := 2 / 100
  annOut := 3

example : SettingsOK sampleSettings := by
  refine ⟨by simp [sampleSettings], by norm_num [sampleSettings], ?_, by norm_num [sampleSettings]⟩
  simp only [faintEnd, sampleSettings, Real.logb_one]
  norm_num

/-- The common normalisation is the integral of the luminosity function with characteristic magnitude 19, over the points spaced by 0.01
from 10 up to the reference luminosity. -/
theorem C289_norm (simps : List ℝ → List ℝ → ℝ) (S : Settings) :
    ∃ steps : List ℝ, lumNorm simps S = simps (steps.map (schechterPdf S.alpha 19)) steps ∧
      (∀ k, (h : k < steps.length) → steps[k] = 10 + k / 100) ∧
      ∀ k : Nat, k < steps.length ↔ 10 + (k : ℝ) / 100 < 19 - 5 / 2 * Real.logb 10 S.lvalRef := by
  refine ⟨arange 10 (19 - (5 / 2) * Real.logb 10 S.lvalRef) (1 / 100), rfl, ?_, ?_⟩
  · intro k h
    simp only [arange, List.getElem_map, List.getElem_range]
    ring
  · intro k
    simp only [arange, List.length_map, List.length_range]
    rw [show (k < ⌈(19 - 5 / 2 * Real.logb 10 S.lvalRef - 10) / (1 / 100)⌉.toNat ↔
      (k : ℤ) < ⌈(19 - 5 / 2 * Real.logb 10 S.lvalRef - 10) / (1 / 100)⌉) by omega, Int.lt_ceil, lt_div_iff₀ (by norm_num)]
    push_cast
    constructor <;> intro h <;> linarith

/-- The weights of any two galaxies have the ratio of the luminosity function, whatever the normalisation. -/
theorem C289_ratio (nanInt : Int) (simps : List ℝ → List ℝ → ℝ) (S : Settings) (D D' : Draws) (g g' : MaskGal)
    (h : makeGal nanInt simps S D = .ok g) (h' : makeGal nanInt simps S D' = .ok g') :
    g.lumwt * schechterPdf S.alpha 0 g'.m = g'.lumwt * schechterPdf S.alpha 0 g.m := by
  have key : ∀ D g, makeGal nanInt simps S D = .ok g → g.lumwt = schechterPdf S.alpha 0 g.m / lumNorm simps S := by
    intro D g h
    unfold makeGal at h
    simp only at h
    split at h
    · cases h
    split at h
    · cases h
    split at h
    · cases h
    injection h with h
    have hlum : ∀ m, schechterPdf S.alpha 19 (m + 19) = schechterPdf S.alpha 0 m := by
      intro m
      unfold schechterPdf
      rw [show (19 : ℝ) - (m + 19) = 0 - m by ring]
    rw [← h]
    simp only [hlum]
  rw [key D g h, key D' g' h']
  ring

/-! ## C290: the uniform positions -/

theorem makeGal_uni {nanInt : Int} {simps : List ℝ → List ℝ → ℝ} {S : Settings} {D : Draws} {g : MaskGal}
    (h : makeGal nanInt simps S D = .ok g) :
    g.rUni = S.annOut * Real.sqrt D.rUni ∧ g.xUni = g.rUni * Real.cos (2 * Real.pi * D.theta) ∧
      g.yUni = g.rUni * Real.sin (2 * Real.pi * D.theta) := by
  unfold makeGal at h
  simp only at h
  split at h
  · cases h
  split at h
  · cases h
  split at h
  · cases h
  injection h with h
  rw [← h]
  refine ⟨rfl, ?_, ?_⟩ <;> simp only <;> congr 2 <;> ring

/-- Whether a galaxy is made does not depend on the draws of the uniform positions. -/
theorem makeGal_indep {nanInt : Int} {simps : List ℝ → List ℝ → ℝ} {S : Settings} {D : Draws} {g : MaskGal}
    (h : makeGal nanInt simps S D = .ok g) (u t : ℝ) : ∃ g', makeGal nanInt simps S { D with rUni := u, theta := t } = .ok g' := by
  unfold makeGal at h ⊢
  simp only at h ⊢
  split at h
  · cases h
  split at h
  · cases h
  split at h
  · cases h
  exact ⟨_, rfl⟩

/-- **C290.** For every outer radius, the points made for the local background are uniform in the disc: over the uniform draws of the
radius and of the angle, the probability that one is within radius `rho` and within the angle `a` is the share of the disc's area in
that sector. -/
theorem C290_uniform (nanInt : Int) (simps : List ℝ → List ℝ → ℝ) (S : Settings) (h0 : 0 < S.annOut) (D : Draws) (g₀ : MaskGal)
    (hD : makeGal nanInt simps S D = .ok g₀) (rho a : ℝ) (hr : 0 ≤ rho) (hr1 : rho ≤ S.annOut) (ha : 0 ≤ a) (ha1 : a ≤ 2 * Real.pi) :
    volume {p : ℝ × ℝ | (0 ≤ p.1 ∧ p.1 < 1) ∧ (0 ≤ p.2 ∧ p.2 < 1) ∧
        ∃ g, makeGal nanInt simps S { D with rUni := p.1, theta := p.2 } = .ok g ∧ g.rUni ≤ rho ∧
          ∃ t, 0 ≤ t ∧ t < a ∧ t < 2 * Real.pi ∧ 2 * Real.pi * p.2 = t ∧ g.xUni = g.rUni * Real.cos t ∧ g.yUni = g.rUni * Real.sin t} =
      ENNReal.ofReal ((a * rho ^ 2 / 2) / (Real.pi * S.annOut ^ 2)) := by
  have hpi := Real.pi_pos
  have hset : {p : ℝ × ℝ | (0 ≤ p.1 ∧ p.1 < 1) ∧ (0 ≤ p.2 ∧ p.2 < 1) ∧
        ∃ g, makeGal nanInt simps S { D with rUni := p.1, theta := p.2 } = .ok g ∧ g.rUni ≤ rho ∧
          ∃ t, 0 ≤ t ∧ t < a ∧ t < 2 * Real.pi ∧ 2 * Real.pi * p.2 = t ∧ g.xUni = g.rUni * Real.cos t ∧ g.yUni = g.rUni * Real.sin t} =
      {u : ℝ | 0 ≤ u ∧ u < 1 ∧ u ≤ (rho / S.annOut) ^ 2} ×ˢ Set.Ico 0 (a / (2 * Real.pi)) := by
    ext ⟨u, t⟩
    simp only [Set.mem_setOf_eq, Set.mem_prod, Set.mem_Ico]
    have hrad : 0 ≤ u → (S.annOut * Real.sqrt u ≤ rho ↔ u ≤ (rho / S.annOut) ^ 2) := by
      intro hu
      rw [← Real.sqrt_le_left (by positivity), le_div_iff₀ h0, mul_comm]
    constructor
    · rintro ⟨⟨u0, u1⟩, ⟨t0, t1⟩, g, hg, hle, t', a0, a1, a2, a3, -, -⟩
      rw [(makeGal_uni hg).1] at hle
      refine ⟨⟨u0, u1, (hrad u0).mp hle⟩, t0, ?_⟩
      rw [lt_div_iff₀ (by positivity)]
      linarith
    · rintro ⟨⟨u0, u1, u2⟩, t0, t1⟩
      obtain ⟨g, hg⟩ := makeGal_indep hD u t
      obtain ⟨e1, e2, e3⟩ := makeGal_uni hg
      rw [lt_div_iff₀ (by positivity)] at t1
      refine ⟨⟨u0, u1⟩, ⟨t0, ?_⟩, g, hg, ?_, 2 * Real.pi * t, by positivity, by linarith, by linarith, rfl, e2, e3⟩
      · nlinarith
      · rw [e1]; exact (hrad u0).mpr u2
  rw [hset, Measure.volume_eq_prod, Measure.prod_prod, Real.volume_Ico]
  have hq : (rho / S.annOut) ^ 2 ≤ 1 := by
    have : rho / S.annOut ≤ 1 := by rw [div_le_one h0]; exact hr1
    have h1 : 0 ≤ rho / S.annOut := by positivity
    nlinarith
  have hv : volume {u : ℝ | 0 ≤ u ∧ u < 1 ∧ u ≤ (rho / S.annOut) ^ 2} = ENNReal.ofReal ((rho / S.annOut) ^ 2) := by
    refine le_antisymm ?_ ?_
    · refine (measure_mono (t := Set.Icc 0 ((rho / S.annOut) ^ 2)) fun u hu => ⟨hu.1, hu.2.2⟩).trans ?_
      rw [Real.volume_Icc, sub_zero]
    · refine le_trans ?_ (measure_mono (s := Set.Ico 0 ((rho / S.annOut) ^ 2)) fun u hu => ⟨hu.1, lt_of_lt_of_le hu.2 hq, hu.2.le⟩)
      rw [Real.volume_Ico, sub_zero]
  rw [hv, sub_zero, ← ENNReal.ofReal_mul (by positivity)]
  congr 1
  field_simp

/-! ## C291: surveys with two bands -/

/-- The full property: for every survey with at least two bands and all draws in `[0,1)` the mask galaxies can be made. -/
def C291_spec (nanInt : Int) (simps : List ℝ → List ℝ → ℝ) : Prop := ∀ (S : Settings) (D : Draws), 2 ≤ S.nmag → 0 < S.chisqMax →
  -(5 / 2) < faintEnd S → 0 < S.r0 → (0 ≤ D.chisq ∧ D.chisq < 1) → (0 ≤ D.m ∧ D.m < 1) → (0 ≤ D.r ∧ D.r < 1) →
  ∃ g, makeGal nanInt simps S D = .ok g

/-- With two bands no mask galaxy can be made, when NaN is cast to a negative integer: the colour filter is infinite at zero. -/
theorem C291_two_bands (nanInt : Int) (hn : nanInt < 0) (simps : List ℝ → List ℝ → ℝ) (S : Settings) (D : Draws) (h2 : S.nmag = 2)
    (hc : 0 < S.chisqMax) (hu : 0 ≤ D.chisq) : makeGal nanInt simps S D = .error .indexError := by
  have key : sampleFrom nanInt (chisqVal ((S.nmag : ℝ) - 1)) 0 S.chisqMax (S.chisqMax / 10000) D.chisq = .error .indexError := by
    have hstep : 0 < S.chisqMax / 10000 := by positivity
    obtain ⟨n, hx, -, -⟩ := arange_getLast? 0 S.chisqMax (S.chisqMax / 10000) hstep hc
    have hfirst : arange 0 S.chisqMax (S.chisqMax / 10000) = 0 :: (arange 0 S.chisqMax (S.chisqMax / 10000)).tail := by
      rw [hx, List.range_succ_eq_map]
      simp
    have hinf : chisqVal ((S.nmag : ℝ) - 1) 0 = none := by
      unfold chisqVal
      rw [if_pos ⟨rfl, by rw [h2]; norm_num⟩]
    unfold sampleFrom
    simp only
    set x := arange 0 S.chisqMax (S.chisqMax / 10000) with hxd
    unfold sampleInf
    simp only
    have hall : (x.map (chisqVal ((S.nmag : ℝ) - 1))).all Option.isSome = false := by
      rw [hfirst, List.map_cons, hinf]
      rfl
    rw [if_neg (by rw [hall]; simp)]
    have hnone : ∀ i, ((x.map (chisqVal ((S.nmag : ℝ) - 1))).take (i + 1)).all Option.isSome = false := by
      intro i
      rw [hfirst, List.map_cons, hinf]
      rfl
    have hf : (List.range ((List.range (x.map (chisqVal ((S.nmag : ℝ) - 1))).length).map fun i =>
          if ((x.map (chisqVal ((S.nmag : ℝ) - 1))).take (i + 1)).all Option.isSome then (0 : Int) else nanInt).length).find?
        (fun i => decide (⌊D.chisq * (x.length : ℝ)⌋ ≤ ((List.range (x.map (chisqVal ((S.nmag : ℝ) - 1))).length).map fun i =>
          if ((x.map (chisqVal ((S.nmag : ℝ) - 1))).take (i + 1)).all Option.isSome then (0 : Int) else nanInt).getD i 0)) = none := by
      rw [List.find?_eq_none]
      intro i hi
      simp only [List.length_map, List.length_range, List.mem_range] at hi
      have hval : ((List.range (x.map (chisqVal ((S.nmag : ℝ) - 1))).length).map fun i =>
          if ((x.map (chisqVal ((S.nmag : ℝ) - 1))).take (i + 1)).all Option.isSome then (0 : Int) else nanInt).getD i 0 = nanInt := by
        rw [List.getD_eq_getElem?_getD, List.getElem?_map, List.getElem?_range (by simpa using hi)]
        simp only [Option.map_some, Option.getD_some]
        rw [hnone i]
        simp
      rw [hval, decide_eq_true_eq, not_le]
      exact lt_of_lt_of_le hn (Int.floor_nonneg.mpr (by positivity))
    rw [hf]
  unfold makeGal
  simp only [key]

/-- **C291 is false** for two bands. -/
theorem C291_two_bands_false (nanInt : Int) (hn : nanInt < 0) (simps : List ℝ → List ℝ → ℝ) : ¬ C291_spec nanInt simps := by
  intro h
  obtain ⟨g, hg⟩ := h { sampleSettings with nmag := 2 } { chisq := 0, m := 0, r := 0, phi := 0, rUni := 0, theta := 0, dzred := 0 }
    (le_refl _) (by norm_num [sampleSettings]) (by simp only [faintEnd, sampleSettings, Real.logb_one]; norm_num)
    (by norm_num [sampleSettings]) (by norm_num) (by norm_num) (by norm_num)
  rw [C291_two_bands nanInt hn simps _ _ rfl (by norm_num [sampleSettings]) (le_refl _)] at hg
  cases hg

/-- What x86 casts NaN to. -/
example : (-2 ^ 31 : Int) < 0 := by norm_num

end Redmapper.MaskGen
