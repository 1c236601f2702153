/-
C349, C350: applying an error model to magnitudes.
-/
import Verif.Model.ErrModel
import Verif.Props.DepthFit

set_option linter.unusedSectionVars false

namespace Redmapper.ErrModel

/-! ## C349: without noise -/

/-- Photon counts of magnitude `m` in an exposure `t`, with a flux of 1 per unit of exposure at magnitude `zp`. -/
noncomputable def counts (t zp m : ℝ) : ℝ := t * (10 : ℝ) ^ ((zp - m) * (4 / 10))

/-- The log-normal factor of one galaxy: 1 without scatter. -/
noncomputable def factor (ls : Option ℝ) (g : ℝ) : ℝ := match ls with | none => 1 | some s => Real.exp (s * g)

theorem trueFlux_eq (p : EPars) (m : ℝ) : trueFlux p m = counts p.exptime p.zp m := by
  unfold trueFlux counts DepthFit.flux
  congr 2
  ring

theorem trueFlux_pos (p : EPars) (ht : 0 < p.exptime) (m : ℝ) : 0 < trueFlux p m := by
  rw [trueFlux_eq]; unfold counts; positivity

theorem log10_pow (x : ℝ) : Real.log ((10 : ℝ) ^ x) / Real.log 10 = x := by
  have h : Real.log 10 ≠ 0 := (Real.log_pos (by norm_num)).ne'
  rw [Real.log_rpow (by norm_num)]
  field_simp

theorem apply_get (p : EPars) (mags : List ℝ) (nn : Bool) (ls : Option ℝ) (rng : Nat → ℝ) (i : Nat) (m : ℝ) (hi : mags[i]? = some m) :
    (apply p mags nn ls rng)[i]? = some (row p nn ls rng mags.length i m) := by
  unfold apply
  rw [List.getElem?_mapIdx, hi]; rfl

/-- Without noise every magnitude comes back as it was; its error is 2.5/ln 10 times the noise over the signal, where the noise is the square root of
sky plus signal, times a log-normal factor of its own if a scatter is given. -/
theorem C349_noiseless (p : EPars) (ht : 0 < p.exptime) (hs : 0 ≤ p.fsky1) (mags : List ℝ) (ls : Option ℝ) (rng : Nat → ℝ) :
    (apply p mags true ls rng).length = mags.length ∧
    ∀ i m, mags[i]? = some m → ∃ e, (apply p mags true ls rng)[i]? = some (some m, e) ∧
      e = 25 / 10 / Real.log 10 * (Real.sqrt (p.fsky1 * p.exptime + counts p.exptime p.zp m) *
        factor ls (rng i) / counts p.exptime p.zp m) := by
  refine ⟨by simp [apply], ?_⟩
  intro i m hi
  rw [apply_get p mags true ls rng i m hi]
  refine ⟨_, ?_, rfl⟩
  have hf : outFlux p true ls rng mags.length i m = trueFlux p m := by simp [outFlux]
  have hpos : 0 < trueFlux p m := trueFlux_pos p ht m
  unfold row
  simp only [hf]
  rw [if_pos (div_pos hpos ht)]
  have hm : p.zp - 25 / 10 * (Real.log (trueFlux p m / p.exptime) / Real.log 10) = m := by
    have : trueFlux p m / p.exptime = (10 : ℝ) ^ ((m - p.zp) / (-(25 / 10))) := by
      unfold trueFlux DepthFit.flux
      field_simp
    rw [this, log10_pow]
    ring
  have hn : noise p ls rng i m = Real.sqrt (p.fsky1 * p.exptime + counts p.exptime p.zp m) *
      factor ls (rng i) := by
    have h0 : 0 < p.fsky1 * p.exptime + trueFlux p m := by
      have := mul_nonneg hs ht.le
      linarith
    cases ls with
    | none => simp [noise, modelNoise, trueFlux_eq, factor]
    | some s =>
      simp only [noise, factor, modelNoise]
      rw [Real.exp_add, Real.exp_log (Real.sqrt_pos.mpr h0), trueFlux_eq]
  rw [hm, hn, trueFlux_eq]
  rfl

/-- The errors that come out grow with magnitude (fainter galaxies have larger errors). -/
theorem C349_faint (p : EPars) (ht : 0 < p.exptime) (hs : 0 ≤ p.fsky1) (mags : List ℝ) (rng : Nat → ℝ) (i j : Nat) (mi mj ei ej : ℝ)
    (oi oj : Option ℝ) (hi : mags[i]? = some mi) (hj : mags[j]? = some mj) (hi' : (apply p mags true none rng)[i]? = some (oi, ei))
    (hj' : (apply p mags true none rng)[j]? = some (oj, ej)) (h : mi < mj) : ei < ej := by
  rw [apply_get p mags true none rng i mi hi] at hi'
  rw [apply_get p mags true none rng j mj hj] at hj'
  simp only [Option.some.injEq] at hi' hj'
  have e : ∀ k m, (row p true none rng mags.length k m).2 = DepthFit.magErr p.zp p.fsky1 p.exptime m := by
    intro k m
    simp [row, outFlux, noise, modelNoise, DepthFit.magErr, trueFlux]
  have h1 := e i mi
  have h2 := e j mj
  rw [hi'] at h1
  rw [hj'] at h2
  simp only at h1 h2
  rw [h1, h2]
  exact DepthFit.magErr_lt p.zp p.fsky1 p.exptime mi mj hs ht h

/-! ## C350: with noise -/

/-- **C350**, as one would like it: the flux behind the magnitude of each galaxy is the true flux plus its noise times a standard normal number of its
own. -/
def C350_spec : Prop :=
  ∀ (p : EPars) (mags : List ℝ) (rng : Nat → ℝ), 0 < p.exptime → 0 ≤ p.fsky1 → ∀ i m o e, mags[i]? = some m →
    (apply p mags false none rng)[i]? = some (o, e) → ∀ x, o = some x →
      counts p.exptime p.zp x = counts p.exptime p.zp m + Real.sqrt (p.fsky1 * p.exptime + counts p.exptime p.zp m) * rng i

theorem counts_back (p : EPars) (ht : 0 < p.exptime) (f : ℝ) (hf : 0 < f / p.exptime) :
    counts p.exptime p.zp (p.zp - 25 / 10 * (Real.log (f / p.exptime) / Real.log 10)) = f := by
  unfold counts
  have e : (p.zp - (p.zp - 25 / 10 * (Real.log (f / p.exptime) / Real.log 10))) * (4 / 10) = Real.log (f / p.exptime) / Real.log 10 := by ring
  have h : Real.log 10 ≠ 0 := (Real.log_pos (by norm_num)).ne'
  rw [e, Real.rpow_def_of_pos (by norm_num), mul_div_cancel₀ _ h, Real.exp_log hf]
  field_simp

/-- What it does: the noise of all galaxies is moved by the same number of standard deviations, and that number is one draw plus the number of
galaxies. -/
theorem C350_same (p : EPars) (mags : List ℝ) (ls : Option ℝ) (rng : Nat → ℝ) (ht : 0 < p.exptime) :
    ∃ g, (ls = none → g = mags.length + rng 0) ∧ (ls ≠ none → g = mags.length + rng mags.length) ∧
      ∀ i m o e, mags[i]? = some m → (apply p mags false ls rng)[i]? = some (o, e) → ∀ x, o = some x →
        counts p.exptime p.zp x = counts p.exptime p.zp m + noise p ls rng i m * g := by
  refine ⟨mags.length + rng (used ls mags.length), fun h => by rw [h]; rfl, fun h => ?_, ?_⟩
  · cases ls with
    | none => exact absurd rfl h
    | some s => rfl
  intro i m o e hi hr x hx
  rw [apply_get p mags false ls rng i m hi] at hr
  simp only [Option.some.injEq] at hr
  unfold row at hr
  simp only [Prod.mk.injEq] at hr
  obtain ⟨h1, _⟩ := hr
  rw [hx] at h1
  split at h1
  · rename_i hf
    simp only [Option.some.injEq] at h1
    rw [← h1, counts_back p ht _ hf, ← trueFlux_eq]
    simp [outFlux]
  · simp at h1

/-- The draw that would be right for a galaxy alone makes every galaxy of a catalog brighter by the number of galaxies times its noise. -/
theorem C350_bias (p : EPars) (mags : List ℝ) (rng : Nat → ℝ) (ht : 0 < p.exptime) (hs : 0 ≤ p.fsky1) (h0 : rng 0 = 0) (hne : mags ≠ [])
    (i : Nat) (m : ℝ) (o : Option ℝ) (e x : ℝ) (hi : mags[i]? = some m) (hr : (apply p mags false none rng)[i]? = some (o, e)) (hx : o = some x) :
    counts p.exptime p.zp x = counts p.exptime p.zp m + mags.length * Real.sqrt (p.fsky1 * p.exptime + counts p.exptime p.zp m) ∧ x < m := by
  obtain ⟨g, g1, _, g3⟩ := C350_same p mags none rng ht
  have h := g3 i m o e hi hr x hx
  rw [g1 rfl, h0, add_zero] at h
  have hn : noise p none rng i m = Real.sqrt (p.fsky1 * p.exptime + counts p.exptime p.zp m) := by simp [noise, modelNoise, trueFlux_eq]
  rw [hn, mul_comm] at h
  refine ⟨h, ?_⟩
  have hc : 0 < counts p.exptime p.zp m := by unfold counts; positivity
  have hl : (0 : ℝ) < mags.length := by exact_mod_cast List.length_pos_iff.mpr hne
  have hsq : 0 < Real.sqrt (p.fsky1 * p.exptime + counts p.exptime p.zp m) := Real.sqrt_pos.mpr (by
    have := mul_nonneg hs ht.le
    linarith)
  have hlt : counts p.exptime p.zp m < counts p.exptime p.zp x := by rw [h]; linarith [mul_pos hl hsq]
  unfold counts at hlt
  have := (mul_lt_mul_iff_right₀ ht).mp hlt
  rw [Real.rpow_lt_rpow_left_iff (by norm_num)] at this
  linarith

/-- False already for two galaxies. -/
theorem C350_false : ¬ C350_spec := by
  intro h
  have hp : 0 < (⟨1, 0, 0⟩ : EPars).exptime := by norm_num
  have hrow := apply_get ⟨1, 0, 0⟩ [0, 0] false none (fun _ => 0) 0 0 rfl
  have hpos : 0 < outFlux ⟨1, 0, 0⟩ false none (fun _ => 0) 2 0 0 / (1 : ℝ) := by
    simp [outFlux, trueFlux, noise, modelNoise, DepthFit.flux, used]
    norm_num
  have hx : (row ⟨1, 0, 0⟩ false none (fun _ => 0) 2 0 0).1 =
      some (0 - 25 / 10 * (Real.log (outFlux ⟨1, 0, 0⟩ false none (fun _ => 0) 2 0 0 / 1) / Real.log 10)) := by
    unfold row
    simp only
    rw [if_pos hpos]
  have hrow' : (apply ⟨1, 0, 0⟩ [0, 0] false none (fun _ => 0))[0]? =
      some ((row ⟨1, 0, 0⟩ false none (fun _ => 0) 2 0 0).1, (row ⟨1, 0, 0⟩ false none (fun _ => 0) 2 0 0).2) := hrow
  have h1 := h ⟨1, 0, 0⟩ [0, 0] (fun _ => 0) hp (le_refl _) 0 0 _ _ rfl hrow' _ hx
  have h2 := (C350_bias ⟨1, 0, 0⟩ [0, 0] (fun _ => 0) hp (le_refl _) rfl (by simp) 0 0 _ _ _ rfl hrow' hx).1
  rw [h1] at h2
  simp [counts] at h2

/-- Non-vacuity: parameters with an exposure and a sky. -/
example : 0 < (⟨100, 225 / 10, 1 / 10⟩ : EPars).exptime ∧ 0 ≤ (⟨100, 225 / 10, 1 / 10⟩ : EPars).fsky1 := by norm_num

end Redmapper.ErrModel
