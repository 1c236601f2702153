/-
Likelihood and samples of the red-sequence redshift: C354 (the distribution over the bins), C355 (how many bins), C356 (samples).
-/
import Verif.Model.ZredPz
import Verif.Props.Zred
import Mathlib.Analysis.SpecialFunctions.Log.Basic

set_option linter.unusedSectionVars false

namespace Redmapper.ZredPz

open Redmapper.Zred
open Redmapper.Utilities (arange)

/-! ## Specification -/

/-- Luminosity in units of the characteristic one. -/
noncomputable def lum (mstar refmag : ℝ) : ℝ := (10 : ℝ) ^ (-(2 / 5) * (refmag - mstar))

/-- Posterior of a bin up to a constant: Gaussian likelihood of the colors, Schechter function, volume. -/
noncomputable def post (S : Seq) (chi : Nat → ℝ) (refmag : ℝ) (i : Nat) : ℝ :=
  Real.exp (-(chi i / 2)) * (lum (S.mstar i) refmag ^ (S.alpha + 1) * Real.exp (-lum (S.mstar i) refmag)) * S.vol i

/-- The bins over which the redshift is searched. -/
def searched {α : Type} [Field α] [LinearOrder α] (g : Input α) : List Nat := zbins g.nz ((zbinsLimited g).headD 0) ((zbinsLimited g).getLastD 0)

/-! ## C354 -/

theorem exp_lnOne (S : Seq) (chi : Nat → ℝ) (m : ℝ) (i : Nat) (hv : 0 < S.vol i) :
    Real.exp (lnOne S.alpha (chi i) (S.mstar i) m (S.vol i)) = post S chi m i := by
  unfold lnOne post
  rw [if_pos hv, Real.exp_add, Real.exp_log (by positivity)]
  have h1 : lum (S.mstar i) m = (10 : ℝ) ^ (4 / 10 * (S.mstar i - m)) := by
    unfold lum; congr 1; ring
  have h2 : lum (S.mstar i) m ^ (S.alpha + 1) = (10 : ℝ) ^ (4 / 10 * (S.alpha + 1) * (S.mstar i - m)) := by
    rw [h1, ← Real.rpow_mul (by norm_num)]
    congr 1; ring
  rw [h2, h1]
  have h3 : Real.exp (-(1 / 2) * chi i) = Real.exp (-(chi i / 2)) := by congr 1; ring
  rw [h3]
  ring

/-- **C354**: over the bins searched the distribution is proportional to exp(-chisq/2) times the Schechter function of the luminosity times the volume,
with one bin at one and none above; and nothing outside them. -/
theorem C354_posterior (S : Seq) (chi : Nat → ℝ) (m : ℝ) (hne : searched (inputOf S chi m) ≠ [])
    (hv : ∀ i ∈ searched (inputOf S chi m), 0 < S.vol i) :
    ∃ k ∈ searched (inputOf S chi m), ∀ i,
      dist Real.exp (inputOf S chi m) (searched (inputOf S chi m)) i =
        (if i ∈ searched (inputOf S chi m) then post S chi m i / post S chi m k else 0) ∧
      dist Real.exp (inputOf S chi m) (searched (inputOf S chi m)) i ≤ 1 := by
  set g := inputOf S chi m with hg
  set bins := searched g
  obtain ⟨⟨k, hk, ek⟩, hmax⟩ := maxOf_spec (lndist g bins) bins hne
  have lnd : ∀ i ∈ bins, lndist g bins i = lnOne S.alpha (chi i) (S.mstar i) m (S.vol i) := fun i hi => by
    unfold lndist; rw [if_pos hi]; rfl
  refine ⟨k, hk, ?_⟩
  intro i
  unfold Zred.dist
  by_cases hi : i ∈ bins
  · rw [if_pos hi, if_pos hi]
    have e1 : g.lnd i = lnOne S.alpha (chi i) (S.mstar i) m (S.vol i) := rfl
    constructor
    · rw [e1, ek, lnd k hk, Real.exp_sub, exp_lnOne S chi m i (hv i hi), exp_lnOne S chi m k (hv k hk)]
    · rw [← Real.exp_zero]
      apply Real.exp_le_exp.mpr
      have := hmax i hi
      rw [lnd i hi, ← e1] at this
      linarith
  · rw [if_neg hi, if_neg hi]
    exact ⟨rfl, zero_le_one⟩

/-- **C354**, a bin without volume: it has at most `exp(-1e11)` of the best bin with volume, relative to its likelihood. -/
theorem C354_novolume (S : Seq) (chi : Nat → ℝ) (m : ℝ) (i k : Nat) (hi : i ∈ searched (inputOf S chi m)) (hk : k ∈ searched (inputOf S chi m))
    (hvi : S.vol i ≤ 0) (hvk : 0 < S.vol k) :
    dist Real.exp (inputOf S chi m) (searched (inputOf S chi m)) i * post S chi m k ≤ Real.exp (-100000000000) := by
  set g := inputOf S chi m with hg
  set bins := searched g
  have hne : bins ≠ [] := by intro h; rw [h] at hi; cases hi
  obtain ⟨_, hmax⟩ := maxOf_spec (lndist g bins) bins hne
  have h1 := hmax k hk
  have h2 : lndist g bins k = lnOne S.alpha (chi k) (S.mstar k) m (S.vol k) := by unfold lndist; rw [if_pos hk]; rfl
  have h3 : g.lnd i = -100000000000 := by
    show lnOne S.alpha (chi i) (S.mstar i) m (S.vol i) = _
    unfold lnOne; rw [if_neg (not_lt.mpr hvi)]
  unfold Zred.dist
  rw [if_pos hi, h3, ← exp_lnOne S chi m k hvk, ← Real.exp_add]
  apply Real.exp_le_exp.mpr
  rw [h2] at h1
  linarith

/-- A sequence with three bins and the overflow bin. -/
noncomputable def toySeq : Seq := ⟨[1 / 10, 2 / 10, 3 / 10, 1000], [0, 1, 2], [22, 22, 22, 22], [10, 10, 10, 10], fun _ => 19, fun i => i + 1, -1⟩

theorem toy_ok : InputOK (inputOf toySeq (fun _ => 1) 20) ∧ 2 ≤ (zbinsLimited (inputOf toySeq (fun _ => 1) 20)).length := by
  constructor
  · refine ⟨?_, ?_, ?_⟩
    · simp [inputOf, toySeq]; norm_num
    · simp [inputOf, toySeq]; norm_num
    · simp [inputOf, toySeq]
  · have : zbinsLimited (inputOf toySeq (fun _ => 1) 20) = [0, 1, 2] := by
      simp [zbinsLimited, inputOf, toySeq, List.range_succ, List.filter_cons]
      norm_num
    rw [this]; simp

example : ∃ k, k ∈ searched (inputOf toySeq (fun _ => 1) 20) ∧ 0 < toySeq.vol k := by
  refine ⟨0, ?_, by simp [toySeq]⟩
  unfold searched
  rw [mem_zbins _ toy_ok.2 toy_ok.1]
  have : zbinsLimited (inputOf toySeq (fun _ => 1) 20) = [0, 1, 2] := by
    simp [zbinsLimited, inputOf, toySeq, List.range_succ, List.filter_cons]
    norm_num
  exact ⟨by simp [inputOf, toySeq], 0, by rw [this]; simp, 0, by rw [this]; simp, by omega, by omega⟩

/-! ## C355 -/

variable {α : Type} [Field α] [LinearOrder α] [IsStrictOrderedRing α]

/-- **C355**: a galaxy that is not reset at once has at least two bins, so that the treatment of a single bin (zred_color.py:304-306) is never used; all
allowed bins are among them, and they are in the table without the overflow bin. -/
theorem C355_bins (g : Input α) (hg : InputOK g) (h : 2 ≤ (zbinsLimited g).length) :
    2 ≤ (searched g).length ∧ (∀ i, g.refmag < g.maxrefmag.getD i 0 → g.minrefmag.getD i 0 < g.refmag → i < g.z.length → g.z.getD i 0 < 100 → i ∈ searched g) ∧
      (∀ i ∈ searched g, i + 1 < g.z.length) ∧ (searched g).Nodup := by
  have hb : ∀ i, i ∈ searched g ↔ Searched g i := mem_zbins g h hg
  have hin : ∀ i ∈ zbinsLimited g, i ∈ searched g := by
    intro i hi
    rw [hb]
    exact ⟨Nat.lt_sub_iff_add_lt.mp (limited_lt g hg _ hi), i, hi, i, hi, by omega, by omega⟩
  have hnd : (zbinsLimited g).Nodup := List.Nodup.filter _ List.nodup_range
  refine ⟨?_, ?_, fun i hi => ((hb i).mp hi).1, List.Nodup.filter _ List.nodup_range⟩
  · exact le_trans h (List.Subperm.length_le (List.subperm_of_subset hnd hin))
  · intro i h1 h2 h3 h4
    apply hin
    unfold zbinsLimited
    rw [List.mem_filter, List.mem_range]
    exact ⟨h3, by rw [Bool.and_eq_true, Bool.and_eq_true, decide_eq_true_eq, decide_eq_true_eq, decide_eq_true_eq]; exact ⟨⟨h1, h2⟩, h4⟩⟩

/-! ## C356 -/

/-- **C356**, one draw: with values that do not add up to zero a point of the grid is found. -/
theorem sampleOne_mem [FloorRing α] (x pdf : List α) (hl : pdf.length = x.length) (hs : pdf.sum ≠ 0) (u : α) (hu0 : 0 ≤ u) (hu : u < 1) :
    ∃ v ∈ x, sampleOne x pdf u = .ok v := by
  have hn : 0 < pdf.length := by
    cases pdf with
    | nil => simp at hs
    | cons a l => simp
  have hsum : (pdf.map fun v => v / pdf.sum).sum = 1 := by
    have : (pdf.map fun v => v / pdf.sum) = pdf.map fun v => v * (pdf.sum)⁻¹ := by simp only [div_eq_mul_inv]
    rw [this, List.sum_map_mul_right, List.map_id']
    exact mul_inv_cancel₀ hs
  set p := pdf.map fun v => v / pdf.sum with hp
  have hpl : p.length = pdf.length := by simp [hp]
  have hxα : (0 : α) < (x.length : α) := by exact_mod_cast (by omega : 0 < x.length)
  set cdfi : List Int := (Centering.cumsum 0 p).map fun c => trunc (c * (x.length : α)) with hcd
  have hclen : cdfi.length = x.length := by simp [hcd, Centering.cumsum_length, hpl, hl]
  have hlast : cdfi.getD (x.length - 1) 0 = (x.length : Int) := by
    have h1 : x.length - 1 < (Centering.cumsum 0 p).length := by rw [Centering.cumsum_length, hpl, hl]; omega
    have h2 := Centering.cumsum_getD (0 : α) p (x.length - 1) (by omega)
    rw [List.getD_eq_getElem?_getD, hcd, List.getElem?_map, List.getElem?_eq_getElem h1]
    rw [List.getD_eq_getElem?_getD, List.getElem?_eq_getElem h1] at h2
    simp only [Option.getD_some, zero_add] at h2
    simp only [Option.map_some, Option.getD_some]
    rw [h2, show x.length - 1 + 1 = p.length by omega, List.take_length, hsum, one_mul]
    unfold trunc
    rw [if_neg (not_lt.mpr hxα.le)]
    exact_mod_cast Int.floor_natCast (R := α) x.length
  have hr : trunc (u * (x.length : α)) ≤ (x.length : Int) := by
    unfold trunc
    rw [if_neg (not_lt.mpr (mul_nonneg hu0 hxα.le))]
    have h1 : u * (x.length : α) ≤ (x.length : α) := by nlinarith
    have h2 := Int.floor_le_floor h1
    have h3 : ⌊(x.length : α)⌋ = (x.length : Int) := Int.floor_natCast (R := α) x.length
    rw [h3] at h2
    exact h2
  have hfind : ∃ i, (List.range cdfi.length).find? (fun i => decide (trunc (u * (x.length : α)) ≤ cdfi.getD i 0)) = some i := by
    rw [← Option.isSome_iff_exists, List.find?_isSome]
    refine ⟨x.length - 1, List.mem_range.mpr (by omega), ?_⟩
    rw [hlast]
    simpa using hr
  obtain ⟨i, hi⟩ := hfind
  have hix : i < x.length := by
    have := List.mem_of_find?_eq_some hi
    rw [hclen] at this
    exact List.mem_range.mp this
  refine ⟨x[i], List.getElem_mem hix, ?_⟩
  unfold sampleOne
  simp only
  rw [← hp, ← hcd, hi]
  simp only [List.getElem?_eq_getElem hix]

theorem mapM_ok {β γ ε : Type} (f : β → Except ε γ) (P : γ → Prop) : ∀ l : List β, (∀ x ∈ l, ∃ y, f x = .ok y ∧ P y) →
    ∃ ys, l.mapM f = .ok ys ∧ ys.length = l.length ∧ ∀ y ∈ ys, P y := by
  intro l
  induction l with
  | nil => intro _; exact ⟨[], rfl, rfl, by simp⟩
  | cons a l ih =>
    intro h
    obtain ⟨y, hy, hP⟩ := h a (by simp)
    obtain ⟨ys, h1, h2, h3⟩ := ih fun x hx => h x (by simp [hx])
    refine ⟨y :: ys, ?_, by simp [h2], ?_⟩
    · rw [List.mapM_cons, hy, h1]; rfl
    · intro w hw
      rcases List.mem_cons.mp hw with rfl | hw
      · exact hP
      · exact h3 w hw

/-- The density on the grid does not add up to zero. -/
def DensityOK [FloorRing α] (interp : List (α × α) → α → α) (simpson : List (α × α) → α) (exp : α → α) (g : Input α) : Prop :=
  let gd := goodBins exp g (searched g)
  3 ≤ gd.length → ((arange (g.z.getD (gd.headD 0) 0) (g.z.getD (gd.getLastD 0) 0) (1 / 10000)).map
    (density interp simpson (gd.map fun i => (g.z.getD i 0, dist exp g (searched g) i)))).sum ≠ 0

theorem arange_range [FloorRing α] {lo hi step : α} (hs : 0 < step) {v : α} (hv : v ∈ arange lo hi step) : (∃ k : Nat, v = lo + k * step) ∧ lo ≤ v ∧ v < hi := by
  unfold arange at hv
  obtain ⟨k, hk, rfl⟩ := List.mem_map.mp hv
  rw [List.mem_range] at hk
  have h1 : (k : Int) < ⌈(hi - lo) / step⌉ := by omega
  rw [Int.lt_ceil, lt_div_iff₀ hs] at h1
  push_cast at h1
  exact ⟨⟨k, rfl⟩, by have : (0 : α) ≤ (k : α) * step := by positivity
                      linarith, by linarith⟩

/-- **C356**: a galaxy with a redshift gets one sample for each draw. With three or more bins of weight above 1e-10 of the best, every sample is on a grid of
step 0.0001 from the first of them, below the last; otherwise all samples are the redshift without corrections. The other columns are those of the
computation without samples. -/
theorem C356_partial [FloorRing α] (interp : List (α × α) → α → α) (simpson : List (α × α) → α) (exp sqrt : α → α)
    (fit : List (α × α) → α × α) (c : Corr α) (dc nc : Bool) (g : Input α) (us : List α) (cols : ZCols α)
    (hu : ∀ u ∈ us, 0 ≤ u ∧ u < 1) (hd : DensityOK interp simpson exp g) (hf : fitZred exp sqrt fit g ≠ none) :
    ∃ out samp, compute interp simpson exp sqrt fit c dc nc g us cols = .ok out ∧ out.samp = samp ∧ samp.length = us.length ∧
      out = { computeZred c dc nc g.refmag (fitZred exp sqrt fit g) [] cols with samp := samp } ∧
      ((∃ a b, a ∈ searched g ∧ b ∈ searched g ∧ 1 / 10000000000 < dist exp g (searched g) a ∧ 1 / 10000000000 < dist exp g (searched g) b ∧
          ∀ s ∈ samp, (∃ k : Nat, s = g.z.getD a 0 + k * (1 / 10000)) ∧ g.z.getD a 0 ≤ s ∧ s < g.z.getD b 0) ∨
        ∀ s ∈ samp, s = out.zred_uncorr) := by
  obtain ⟨r, hr⟩ := Option.ne_none_iff_exists'.mp hf
  have huncorr : ∀ s, (computeZred c dc nc g.refmag (some r) s cols).zred_uncorr = r.1 := by
    intro s
    obtain ⟨z, e, lk, chi⟩ := r
    unfold computeZred
    cases dc <;> cases nc <;> rfl
  have hcols : ∀ s, computeZred c dc nc g.refmag (some r) s cols = { computeZred c dc nc g.refmag (some r) [] cols with samp := s } := by
    intro s
    obtain ⟨z, e, lk, chi⟩ := r
    unfold computeZred
    cases dc <;> cases nc <;> rfl
  set gd := goodBins exp g (searched g) with hgd
  by_cases h3 : gd.length < 3
  · have hs : samples interp simpson exp g (searched g) r.1 us = .ok (us.map fun _ => r.1) := by
      unfold samples; simp only; rw [← hgd, if_pos h3]
    refine ⟨computeZred c dc nc g.refmag (some r) (us.map fun _ => r.1) cols, us.map fun _ => r.1, ?_, ?_, by simp, ?_, Or.inr ?_⟩
    · unfold compute; rw [hr]; simp only; unfold searched at hs; rw [hs]
    · rw [hcols]
    · rw [hr, hcols]
    · intro s hs
      obtain ⟨_, _, rfl⟩ := List.mem_map.mp hs
      rw [huncorr]
  · have hne : gd ≠ [] := by intro h; rw [h] at h3; simp at h3
    obtain ⟨f1, -⟩ := filter_range_head _ _ hne
    obtain ⟨l1, -⟩ := filter_range_last _ _ hne
    have hmem : ∀ i ∈ gd, i ∈ searched g ∧ 1 / 10000000000 < dist exp g (searched g) i := by
      intro i hi
      rw [hgd] at hi
      unfold goodBins at hi
      rw [List.mem_filter, decide_eq_true_eq] at hi
      refine ⟨?_, hi.2⟩
      by_contra hc
      have := hi.2
      unfold Zred.dist at this
      rw [if_neg hc] at this
      norm_num at this
    set x := arange (g.z.getD (gd.headD 0) 0) (g.z.getD (gd.getLastD 0) 0) (1 / 10000) with hx
    set f := density interp simpson (gd.map fun i => (g.z.getD i 0, dist exp g (searched g) i)) with hfd
    obtain ⟨ys, h1, h2, h4⟩ := mapM_ok (sampleOne x (x.map f))
      (fun s => (∃ k : Nat, s = g.z.getD (gd.headD 0) 0 + k * (1 / 10000)) ∧ g.z.getD (gd.headD 0) 0 ≤ s ∧ s < g.z.getD (gd.getLastD 0) 0) us (by
        intro u hu'
        obtain ⟨v, hv, he⟩ := sampleOne_mem x (x.map f) (by simp) (hd (by rw [← hgd]; omega)) u (hu u hu').1 (hu u hu').2
        exact ⟨v, he, arange_range (by norm_num) hv⟩)
    have hs : samples interp simpson exp g (searched g) r.1 us = .ok ys := by
      unfold samples; simp only; rw [← hgd, if_neg h3]; exact h1
    refine ⟨computeZred c dc nc g.refmag (some r) ys cols, ys, ?_, ?_, h2, ?_, Or.inl ?_⟩
    · unfold compute; rw [hr]; simp only; unfold searched at hs; rw [hs]
    · rw [hcols]
    · rw [hr, hcols]
    · exact ⟨gd.headD 0, gd.getLastD 0, (hmem _ f1).1, (hmem _ l1).1, (hmem _ f1).2, (hmem _ l1).2, h4⟩

/-- **C356**, a galaxy that is reset keeps the samples it had. -/
theorem C356_reset [FloorRing α] (interp : List (α × α) → α → α) (simpson : List (α × α) → α) (exp sqrt : α → α)
    (fit : List (α × α) → α × α) (c : Corr α) (dc nc : Bool) (g : Input α) (us : List α) (cols : ZCols α) (hf : fitZred exp sqrt fit g = none) :
    ∃ out, compute interp simpson exp sqrt fit c dc nc g us cols = .ok out ∧ out.samp = cols.samp ∧ out.zred = -1 := by
  unfold compute
  rw [hf]
  exact ⟨_, rfl, rfl, rfl⟩

/-- The full statement: the samples are of the redshift that is recorded; when the distribution cannot be sampled they are equal to it. -/
def C356_spec : Prop :=
  ∀ (interp : List (ℚ × ℚ) → ℚ → ℚ) (simpson : List (ℚ × ℚ) → ℚ) (exp sqrt : ℚ → ℚ) (fit : List (ℚ × ℚ) → ℚ × ℚ) (c : Corr ℚ)
    (g : Input ℚ) (us : List ℚ) (cols out : ZCols ℚ), fitZred exp sqrt fit g ≠ none → (goodBins exp g (searched g)).length < 3 →
    compute interp simpson exp sqrt fit c true false g us cols = .ok out → ∀ s ∈ out.samp, s = out.zred

/-- A galaxy with two bins and a correction of a tenth. -/
def twoBins : Input ℚ := ⟨[1 / 10, 2 / 10, 1000], [0, 1], [22, 22, 22], [10, 10, 10], 20, fun _ => -1, fun _ => 1⟩
def shift : Corr ℚ := ⟨[0, 1], [20, 20], [1 / 10, 1 / 10], [0, 0], [1, 1], [0, 0], [0, 0], [1, 1]⟩

/-- **C356** is false of corrected redshifts: the samples are never corrected. -/
theorem C356_false : ¬ C356_spec := by
  intro h
  have := h (fun _ _ => 0) (fun _ => 1) (fun _ => 1) (fun _ => 1 / 10) (fun _ => (0, 0)) shift twoBins [0] ⟨0, 0, 0, 0, 0, 0, 0, 0, []⟩
    ⟨1 / 4, 1 / 10, 3 / 20, 1 / 10, 3 / 20, 1 / 10, 1, -1, [3 / 20]⟩ (by decide +kernel) (by decide +kernel) (by decide +kernel) (3 / 20) (by simp)
  norm_num at this

end Redmapper.ZredPz
