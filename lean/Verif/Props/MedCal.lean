/-
Properties of the selection, the columns, the medians and the error ratios of the calibration of the red sequence: C269-C274.
-/
import Verif.Model.MedCal
import Verif.Props.SpecRed
import Verif.Props.Config
import Mathlib.Tactic.Linarith
import Mathlib.Tactic.NormNum
import Mathlib.Tactic.Positivity

namespace Redmapper.MedCal

set_option linter.unusedSectionVars false

open Redmapper.Fitters (Minimizer Bound MinOK InBounds run_ends)
open Redmapper.SpecRed (medFit medCost)
open Redmapper.Mask (median)
open Redmapper.Centering (argmin argmin_spec argmin_none)
open Redmapper.Config (dec dec_digit)

/-! ## C269: the galaxies -/

/-- The galaxies to be used: redshift strictly inside of the range, probability above the cut. -/
def Used (c : Cfg) (g : Gal) : Prop :=
  ∃ z q, g.z = some z ∧ (if c.usePcol then g.pcol else g.p) = some q ∧ c.zrange.1 < z ∧ z < c.zrange.2 ∧ c.pcut < q

/-- Those for the colors. -/
def ColorUsed (c : Cfg) (g : Gal) : Prop := Used c g ∧ ∃ q, (if c.usePcol then g.pcol else g.p) = some q ∧ c.colorPcut < q

theorem above_iff (x : Option ℝ) (c : ℝ) : above x c = true ↔ ∃ v, x = some v ∧ c < v := by cases x <;> simp [above]

theorem below_iff (x : Option ℝ) (c : ℝ) : below x c = true ↔ ∃ v, x = some v ∧ v < c := by cases x <;> simp [below]

open Classical in
theorem select_eq (c : Cfg) (gals : List Gal) :
    select c gals = if (gals.filter fun g => decide (Used c g)).length = 0 then .error .runtime
      else .ok (gals.filter fun g => decide (Used c g), gals.filter fun g => decide (ColorUsed c g)) := by
  have key : ∀ (q : Option ℝ) (g : Gal), (above g.z c.zrange.1 && below g.z c.zrange.2 && above q c.pcut) = true ↔
      ∃ z v, g.z = some z ∧ q = some v ∧ c.zrange.1 < z ∧ z < c.zrange.2 ∧ c.pcut < v := by
    intro q g
    rw [Bool.and_eq_true, Bool.and_eq_true, above_iff, below_iff, above_iff]
    constructor
    · rintro ⟨⟨⟨z, h1, h2⟩, ⟨z', h3, h4⟩⟩, v, h5, h6⟩
      rw [h1] at h3
      cases h3
      exact ⟨z, v, h1, h5, h2, h4, h6⟩
    · rintro ⟨z, v, h1, h2, h3, h4, h5⟩
      exact ⟨⟨⟨z, h1, h3⟩, z, h1, h4⟩, v, h2, h5⟩
  unfold select
  cases hu : c.usePcol
  · have e : (gals.filter fun g => above g.z c.zrange.1 && below g.z c.zrange.2 && above g.p c.pcut) = gals.filter fun g => decide (Used c g) := by
      apply List.filter_congr
      intro g _
      rw [Bool.eq_iff_iff, key, decide_eq_true_iff, Used, hu]
      rfl
    have e2 : ((gals.filter fun g => decide (Used c g)).filter fun g => above g.p c.colorPcut) = gals.filter fun g => decide (ColorUsed c g) := by
      rw [List.filter_filter]
      apply List.filter_congr
      intro g _
      rw [Bool.eq_iff_iff, Bool.and_eq_true, above_iff, decide_eq_true_iff, decide_eq_true_iff, ColorUsed, hu, and_comm]
      rfl
    simp only [Bool.false_eq_true, if_false]
    rw [e, e2]
  · have e : (gals.filter fun g => above g.z c.zrange.1 && below g.z c.zrange.2 && above g.pcol c.pcut) = gals.filter fun g => decide (Used c g) := by
      apply List.filter_congr
      intro g _
      rw [Bool.eq_iff_iff, key, decide_eq_true_iff, Used, hu]
      rfl
    have e2 : ((gals.filter fun g => decide (Used c g)).filter fun g => above g.pcol c.colorPcut) = gals.filter fun g => decide (ColorUsed c g) := by
      rw [List.filter_filter]
      apply List.filter_congr
      intro g _
      rw [Bool.eq_iff_iff, Bool.and_eq_true, above_iff, decide_eq_true_iff, decide_eq_true_iff, ColorUsed, hu, and_comm]
      rfl
    simp only [if_true]
    rw [e, e2]

open Classical in
/-- **C269.** The calibration uses exactly the galaxies with a redshift strictly inside of the range and the configured kind of probability above its cut,
in their order; it raises exactly if there are none.  The galaxies for the colors are those that also exceed the cut for colors; if that cut is
not above the other one they are all galaxies used, and there are some. -/
theorem C269_partial (c : Cfg) (gals : List Gal) :
    (select c gals = .error .runtime ↔ ∀ g ∈ gals, ¬ Used c g) ∧
    ((∃ g ∈ gals, Used c g) → select c gals = .ok (gals.filter fun g => decide (Used c g), gals.filter fun g => decide (ColorUsed c g))) ∧
    (c.colorPcut ≤ c.pcut → ∀ use col, select c gals = .ok (use, col) → col = use ∧ col ≠ []) := by
  rw [select_eq]
  have h0 : (gals.filter fun g => decide (Used c g)).length = 0 ↔ ∀ g ∈ gals, ¬ Used c g := by
    rw [List.length_eq_zero_iff, List.filter_eq_nil_iff]
    simp
  refine ⟨?_, ?_, ?_⟩
  · rw [← h0]
    split_ifs with h
    · exact iff_of_true rfl h
    · exact iff_of_false (by simp) h
  · rintro ⟨g, hg, hu⟩
    rw [if_neg]
    rw [h0]
    exact fun h => h g hg hu
  · intro hc use col h
    split_ifs at h with he
    cases h
    have e : (gals.filter fun g => decide (ColorUsed c g)) = gals.filter fun g => decide (Used c g) := by
      apply List.filter_congr
      intro g _
      rw [decide_eq_decide]
      constructor
      · exact fun h => h.1
      · intro h
        refine ⟨h, ?_⟩
        obtain ⟨z, q, -, h2, -, -, h5⟩ := h
        exact ⟨q, h2, lt_of_le_of_lt hc h5⟩
    exact ⟨e, by rw [e]; exact fun h => he (by rw [h]; rfl)⟩

/-- The wish: there are galaxies for the colors. -/
def C269_spec : Prop := ∀ (c : Cfg) (gals use col : List Gal), select c gals = .ok (use, col) → col ≠ []

/-- A galaxy of redshift 0.2 and probability 0.6. -/
noncomputable def sampleGal : Gal := ⟨some (1 / 5), some (3 / 5), some (3 / 5), 19, fun _ => 1, fun _ => 1⟩

/-- **C269** is false: only the first cut is checked, and the one for colors may leave no galaxy. -/
theorem C269_false : ¬ C269_spec := by
  intro h
  refine h ⟨(1 / 10, 3 / 10), false, 1 / 2, 7 / 10⟩ [sampleGal] [sampleGal] [] ?_ rfl
  unfold select
  simp only [Bool.false_eq_true, if_false]
  have e : ([sampleGal].filter fun g => above g.z (1 / 10) && below g.z (3 / 10) && above g.p (1 / 2)) = [sampleGal] := by
    rw [List.filter_cons_of_pos, List.filter_nil]
    simp only [sampleGal, above, below, Bool.and_eq_true, decide_eq_true_eq]
    norm_num
  simp only [e]
  rw [if_neg (by simp), List.filter_cons_of_neg, List.filter_nil]
  simp only [sampleGal, above, decide_eq_true_eq]
  norm_num

/-- Non-vacuity: the galaxy is used. -/
example : Used ⟨(1 / 10, 3 / 10), false, 1 / 2, 7 / 10⟩ sampleGal := by
  refine ⟨1 / 5, 3 / 5, rfl, rfl, ?_, ?_, ?_⟩ <;> norm_num

/-! ## C270: pivot magnitudes and range of magnitudes -/

/-- Bounds of the fit, without asking that the start is inside. -/
theorem medFit_bounds (M : Minimizer ℝ) (hM : MinOK M) (spl : List ℝ → List ℝ → ℝ → ℝ) (nodes : List ℝ) (data : List (ℝ × ℝ)) (p0 : List ℝ)
    (b : Bound ℝ) (v : ℝ) (hv : (∀ l, b.lo = some l → l ≤ v) ∧ (∀ h, b.hi = some h → v ≤ h)) :
    (medFit M spl nodes data p0 b).length = p0.length ∧
    ∀ x ∈ medFit M spl nodes data p0 b, (∀ l, b.lo = some l → l ≤ x) ∧ (∀ h, b.hi = some h → x ≤ h) := by
  have hin : InBounds (p0.map fun _ => b) (p0.map fun _ => v) := by
    unfold InBounds
    induction p0 with
    | nil => exact List.Forall₂.nil
    | cons x l ih => exact List.Forall₂.cons hv ih
  have hends : InBounds (p0.map fun _ => b) (medFit M spl nodes data p0 b) := hM.bounds _ p0 _ ⟨_, hin⟩ (run_ends _ _ _)
  refine ⟨?_, ?_⟩
  · have := hends.length_eq
    rw [List.length_map] at this
    exact this.symm
  · have : ∀ (bs : List (Bound ℝ)) (xs : List ℝ), InBounds bs xs → (∀ b' ∈ bs, b' = b) → ∀ x ∈ xs,
        (∀ l, b.lo = some l → l ≤ x) ∧ (∀ h, b.hi = some h → x ≤ h) := by
      intro bs xs h
      induction h with
      | nil => intro _ x hx; cases hx
      | cons h1 _ ih =>
        intro hb x hx
        rcases List.mem_cons.mp hx with rfl | hx
        · have := hb _ List.mem_cons_self
          subst this; exact h1
        · exact ih (fun b' h' => hb b' (by simp [h'])) x hx
    exact this _ _ hends (fun b' hb' => by obtain ⟨_, _, rfl⟩ := List.mem_map.mp hb'; rfl)

theorem fillNodes_length {β : Type} (nodes z : List ℝ) (mc : Nat) (value : List Nat → β) (n i : Nat) (last : β) :
    (RedSeqCal.fillNodes nodes z mc value n i last).length = n := by
  induction n generalizing i last with
  | zero => rfl
  | succ n ih => simp [RedSeqCal.fillNodes, ih]

theorem starts_length (nodes : List ℝ) (data : List (ℝ × ℝ)) : (starts nodes data).length = nodes.length := by
  unfold starts RedSeqCal.startvals
  simp [fillNodes_length]

/-- The sum of the absolute deviations of the data from the spline through `p`, which the median minimizes. -/
noncomputable def deviation (spl : List ℝ → List ℝ → ℝ → ℝ) (nodes p : List ℝ) (data : List (ℝ × ℝ)) : ℝ :=
  (data.map fun d => |d.2 - spl nodes p d.1|).sum

/-- **C270 (pivot).** There is a pivot magnitude for each node, and the spline through them deviates from the magnitudes of the galaxies by no more than that
through the medians of the bins. -/
theorem C270_pivot (E : Env) (hM : MinOK E.minimize) (nodes : List ℝ) (gals : List Gal) :
    (pivotmags E nodes gals).length = nodes.length ∧
    deviation E.spl nodes (pivotmags E nodes gals) (gals.map fun g => (g.zv, g.refmag)) ≤
      deviation E.spl nodes ((starts nodes (gals.map fun g => (g.zv, g.refmag))).map Prod.fst) (gals.map fun g => (g.zv, g.refmag)) := by
  obtain ⟨h1, -, h3⟩ := SpecRed.C195_fit E.minimize hM E.spl nodes (gals.map fun g => (g.zv, g.refmag))
    ((starts nodes (gals.map fun g => (g.zv, g.refmag))).map Prod.fst) ⟨none, none⟩ (fun x _ => ⟨(by intro l h; cases h), (by intro l h; cases h)⟩)
  exact ⟨h1.trans (by rw [List.length_map, starts_length]), h3⟩

/-- The magnitude of a galaxy of `L` times the luminosity of m*. -/
noncomputable def magOf (mstar L : ℝ) : ℝ := mstar - 5 / 2 * Real.logb 10 L

/-- **C270 (range).** A galaxy is strictly within the range of reference magnitudes at its redshift exactly if its luminosity is below 30 L* and above the
reference luminosity less 0.1, but at least 0.001; the range is not empty exactly for reference luminosities below 30.1. -/
theorem C270_range (mstar : ℝ → ℝ) (lref z : ℝ) :
    (∀ L, 0 < L → ((refRange mstar lref z).1 < magOf (mstar z) L ∧ magOf (mstar z) L < (refRange mstar lref z).2 ↔ max (lref - 1 / 10) (1 / 1000) < L ∧ L < 30)) ∧
    ((refRange mstar lref z).1 < (refRange mstar lref z).2 ↔ lref < 301 / 10) := by
  have hlm : (if lref - 1 / 10 < 1 / 1000 then (1 / 1000 : ℝ) else lref - 1 / 10) = max (lref - 1 / 10) (1 / 1000) := by
    split_ifs with h
    · rw [max_eq_right h.le]
    · rw [max_eq_left (not_lt.mp h)]
  have hpos : (0 : ℝ) < max (lref - 1 / 10) (1 / 1000) := lt_of_lt_of_le (by norm_num) (le_max_right _ _)
  have hlog : ∀ a b : ℝ, 0 < a → 0 < b → (Real.logb 10 a < Real.logb 10 b ↔ a < b) := fun a b ha hb => Real.logb_lt_logb_iff (by norm_num) ha hb
  unfold refRange magOf
  simp only
  rw [hlm]
  constructor
  · intro L hL
    rw [← hlog _ _ hpos hL, ← hlog L 30 hL (by norm_num)]
    constructor
    · rintro ⟨h1, h2⟩; constructor <;> linarith
    · rintro ⟨h1, h2⟩; constructor <;> linarith
  · have : max (lref - 1 / 10) (1 / 1000) < 30 ↔ lref < 301 / 10 := by
      rw [max_lt_iff]
      constructor
      · rintro ⟨h, -⟩; linarith
      · intro h; exact ⟨by linarith, by norm_num⟩
    rw [← this, ← hlog _ 30 hpos (by norm_num)]
    constructor <;> intro h <;> linarith

/-- Non-vacuity: a galaxy of m* itself. -/
example : (refRange (fun _ => 18) (1 / 5) 0).1 < magOf 18 1 ∧ magOf 18 1 < (refRange (fun _ => 18) (1 / 5) 0).2 :=
  ((C270_range (fun _ => 18) (1 / 5) 0).1 1 one_pos).mpr ⟨by rw [max_lt_iff]; norm_num, by norm_num⟩

/-! ## C271: median colors and widths -/

/-- **C271.** For each color there is a median and a width for each node; the spline through the medians deviates by no more than that through the medians of
the bins; every width is at least 1.4826 times 0.01; without a fit of the errors the ratio is one. -/
theorem C271 (E : Env) (hM : MinOK E.minimize) (fitRatio : Bool) (nodes : List ℝ) (gals : List Gal) (j : Nat) :
    (medcol E fitRatio nodes gals j).1.length = nodes.length ∧ (medcol E fitRatio nodes gals j).2.1.length = nodes.length ∧
    deviation E.spl nodes (medcol E fitRatio nodes gals j).1 (gals.map fun g => (g.zv, g.col j)) ≤
      deviation E.spl nodes ((starts nodes (gals.map fun g => (g.zv, g.col j))).map Prod.fst) (gals.map fun g => (g.zv, g.col j)) ∧
    (∀ w ∈ (medcol E fitRatio nodes gals j).2.1, 14826 / 1000000 ≤ w) ∧
    (medcol E false nodes gals j).2.2 = 1 := by
  obtain ⟨h1, -, h3⟩ := SpecRed.C195_fit E.minimize hM E.spl nodes (gals.map fun g => (g.zv, g.col j))
    ((starts nodes (gals.map fun g => (g.zv, g.col j))).map Prod.fst) ⟨none, none⟩ (fun x _ => ⟨(by intro l h; cases h), (by intro l h; cases h)⟩)
  have hb := medFit_bounds E.minimize hM E.spl nodes (gals.map fun g => (g.zv, |g.col j - E.spl nodes (medcol E fitRatio nodes gals j).1 g.zv|))
    ((starts nodes (gals.map fun g => (g.zv, g.col j))).map Prod.snd) ⟨some (1 / 100), none⟩ (1 / 100)
    ⟨by intro l h; cases h; exact le_rfl, by intro l h; cases h⟩
  refine ⟨h1.trans (by rw [List.length_map, starts_length]), ?_, h3, ?_, rfl⟩
  · have : (medcol E fitRatio nodes gals j).2.1.length = _ := (List.length_map _).trans hb.1
    rw [this, List.length_map, starts_length]
  · intro w hw
    obtain ⟨s, hs, rfl⟩ := List.mem_map.mp hw
    have := (hb.2 s hs).1 (1 / 100) rfl
    linarith

/-- **C271 (width).** If the deviations of the bins are at least 0.01 the widths are, but for the factor 1.4826, those of a spline that deviates from the absolute
differences to the medians by no more than that through the deviations of the bins. -/
theorem C271_width (E : Env) (hM : MinOK E.minimize) (fitRatio : Bool) (nodes : List ℝ) (gals : List Gal) (j : Nat)
    (hs : ∀ s ∈ (starts nodes (gals.map fun g => (g.zv, g.col j))).map Prod.snd, 1 / 100 ≤ s) :
    deviation E.spl nodes ((medcol E fitRatio nodes gals j).2.1.map fun w => w / (14826 / 10000))
        (gals.map fun g => (g.zv, |g.col j - E.spl nodes (medcol E fitRatio nodes gals j).1 g.zv|)) ≤
      deviation E.spl nodes ((starts nodes (gals.map fun g => (g.zv, g.col j))).map Prod.snd)
        (gals.map fun g => (g.zv, |g.col j - E.spl nodes (medcol E fitRatio nodes gals j).1 g.zv|)) := by
  obtain ⟨-, -, h3⟩ := SpecRed.C195_fit E.minimize hM E.spl nodes (gals.map fun g => (g.zv, |g.col j - E.spl nodes (medcol E fitRatio nodes gals j).1 g.zv|))
    ((starts nodes (gals.map fun g => (g.zv, g.col j))).map Prod.snd) ⟨some (1 / 100), none⟩
    (fun x hx => ⟨by intro l h; cases h; exact hs x hx, by intro l h; cases h⟩)
  have e : ((medcol E fitRatio nodes gals j).2.1.map fun w => w / (14826 / 10000)) =
      medFit E.minimize E.spl nodes (gals.map fun g => (g.zv, |g.col j - E.spl nodes (medcol E fitRatio nodes gals j).1 g.zv|))
        ((starts nodes (gals.map fun g => (g.zv, g.col j))).map Prod.snd) ⟨some (1 / 100), none⟩ := by
    have e2 : (medcol E fitRatio nodes gals j).2.1 = (medFit E.minimize E.spl nodes (gals.map fun g => (g.zv, |g.col j - E.spl nodes (medcol E fitRatio nodes gals j).1 g.zv|))
        ((starts nodes (gals.map fun g => (g.zv, g.col j))).map Prod.snd) ⟨some (1 / 100), none⟩).map fun s => 14826 / 10000 * s := rfl
    rw [e2, List.map_map]
    conv_rhs => rw [← List.map_id (medFit _ _ _ _ _ _)]
    apply List.map_congr_left
    intro s _
    simp only [Function.comp_apply, id]
    rw [mul_div_assoc, mul_comm, div_mul_cancel₀]
    norm_num
  rw [e]
  exact h3

/-! ## C272: the error ratio -/

/-- The ratios that are tried: 0.5, 0.6, ... 9.9. -/
def Tried (r : ℝ) : Prop := ∃ k : Nat, k ≤ 94 ∧ r = 1 / 2 + k / 10

theorem ratios_getElem (k : Nat) (h : k < 95) : ratios[k]? = some (1 / 2 + (k : ℝ) / 10) := by
  unfold ratios
  rw [List.getElem?_map, List.getElem?_range h]
  rfl

/-- **C272 (choice).** The error ratio is one of those tried, none is closer to pulls of width one, and the smaller ones are all farther away. -/
theorem C272_choice (rows : List (ℝ × ℝ)) (s : ℝ) :
    ∃ k : Nat, k ≤ 94 ∧ errRatio rows s = 1 / 2 + k / 10 ∧
      ∀ i : Nat, i ≤ 94 → |sigmaPull rows s (1 / 2 + k / 10) - 1| ≤ |sigmaPull rows s (1 / 2 + i / 10) - 1| ∧
        (i < k → |sigmaPull rows s (1 / 2 + k / 10) - 1| < |sigmaPull rows s (1 / 2 + i / 10) - 1|) := by
  have hlen : ratios.length = 95 := by simp [ratios]
  cases ha : argmin (ratios.map fun r => |sigmaPull rows s r - 1|) with
  | none =>
    rw [argmin_none, List.map_eq_nil_iff] at ha
    rw [ha] at hlen
    cases hlen
  | some k =>
    obtain ⟨m, h1, h2⟩ := argmin_spec _ _ ha
    have hk : k < 95 := by
      have := (List.getElem?_eq_some_iff.mp h1).1
      rwa [List.length_map, hlen] at this
    have val : ∀ i : Nat, i < 95 → (ratios.map fun r => |sigmaPull rows s r - 1|)[i]? = some |sigmaPull rows s (1 / 2 + (i : ℝ) / 10) - 1| := by
      intro i hi
      rw [List.getElem?_map, ratios_getElem i hi]
      rfl
    have hm : m = |sigmaPull rows s (1 / 2 + (k : ℝ) / 10) - 1| := by
      have := val k hk
      rw [h1] at this
      exact Option.some.inj this
    refine ⟨k, by omega, ?_, fun i hi => ?_⟩
    · unfold errRatio
      rw [ha, Option.getD_some, List.getD_eq_getElem?_getD, ratios_getElem k hk, Option.getD_some]
    · obtain ⟨h3, h4⟩ := h2 i _ (val i (by omega))
      rw [← hm]
      refine ⟨h3, fun hik => lt_of_le_of_ne h3 fun he => ?_⟩
      have := h4 he.symm
      omega

/-- 1.4826 times the median absolute deviation of the differences. -/
noncomputable def scatter (rows : List (ℝ × ℝ)) : ℝ :=
  14826 / 10000 * median ((rows.map Prod.fst).map fun x => |x - median (rows.map Prod.fst)|)

theorem sigmaPull_equal (rows : List (ℝ × ℝ)) (e s r : ℝ) (he : ∀ d ∈ rows, d.2 = e) (hs : 0 < s) :
    sigmaPull rows s r = scatter rows / Real.sqrt ((r * e) ^ 2 + s ^ 2) := by
  have hq : 0 < Real.sqrt ((r * e) ^ 2 + s ^ 2) := Real.sqrt_pos.mpr (by positivity)
  have e1 : (rows.map fun d => d.1 / Real.sqrt ((r * d.2) ^ 2 + s ^ 2)) = (rows.map Prod.fst).map fun x => x / Real.sqrt ((r * e) ^ 2 + s ^ 2) := by
    rw [List.map_map]
    apply List.map_congr_left
    intro d hd
    simp only [Function.comp_apply]
    rw [he d hd]
  unfold sigmaPull scatter
  simp only
  rw [e1, SpecRed.median_div _ _ hq, List.map_map (l := rows.map Prod.fst)]
  have e2 : ((rows.map Prod.fst).map ((fun x => |x - median (rows.map Prod.fst) / Real.sqrt ((r * e) ^ 2 + s ^ 2)|) ∘ fun x => x / Real.sqrt ((r * e) ^ 2 + s ^ 2))) =
      ((rows.map Prod.fst).map fun x => |x - median (rows.map Prod.fst)|).map fun x => x / Real.sqrt ((r * e) ^ 2 + s ^ 2) := by
    rw [List.map_map (l := rows.map Prod.fst)]
    apply List.map_congr_left
    intro x _
    simp only [Function.comp_apply]
    rw [← sub_div, abs_div, abs_of_pos hq]
  rw [e2, SpecRed.median_div _ _ hq, mul_div_assoc]

/-- Both sides of the best ratio. -/
theorem errRatio_near (rows : List (ℝ × ℝ)) (e s t : ℝ) (he : ∀ d ∈ rows, d.2 = e) (hepos : 0 < e) (hs : 0 < s) (ht : 0 ≤ t)
    (hscat : 0 < scatter rows) (hsc : scatter rows ^ 2 = (t * e) ^ 2 + s ^ 2) :
    (1 / 2 ≤ t → t ≤ 99 / 10 → |errRatio rows s - t| < 1 / 10) ∧ (t ≤ 1 / 2 → errRatio rows s = 1 / 2) ∧ (99 / 10 ≤ t → errRatio rows s = 99 / 10) := by
  obtain ⟨k, hk, hr, hmin⟩ := C272_choice rows s
  have hf : ∀ r, sigmaPull rows s r = scatter rows / Real.sqrt ((r * e) ^ 2 + s ^ 2) := fun r => sigmaPull_equal rows e s r he hs
  -- strictly decreasing, one at t
  have hdec : ∀ a b : ℝ, 0 ≤ a → a < b → sigmaPull rows s b < sigmaPull rows s a := by
    intro a b ha hab
    rw [hf, hf]
    apply div_lt_div_of_pos_left hscat (Real.sqrt_pos.mpr (by positivity))
    apply Real.sqrt_lt_sqrt (by positivity)
    have : (a * e) ^ 2 < (b * e) ^ 2 := by
      apply pow_lt_pow_left₀ _ (by positivity) (by norm_num)
      exact mul_lt_mul_of_pos_right hab hepos
    linarith
  have hone : sigmaPull rows s t = 1 := by
    rw [hf, ← hsc, Real.sqrt_sq hscat.le, div_self hscat.ne']
  have hle : ∀ a b : ℝ, 0 ≤ a → a ≤ b → sigmaPull rows s b ≤ sigmaPull rows s a := by
    intro a b ha hab
    rcases hab.lt_or_eq with h | h
    · exact (hdec a b ha h).le
    · rw [h]
  -- above: if the ratio before k is not below t, contradiction
  have up : ∀ i : Nat, k = i + 1 → t ≤ 1 / 2 + (i : ℝ) / 10 → False := by
    intro i hi h
    have h1 := (hmin i (by omega)).1
    have hlt : (1 / 2 + (i : ℝ) / 10) < 1 / 2 + (k : ℝ) / 10 := by
      rw [hi]
      push_cast
      linarith
    have h2 := hdec _ _ (by positivity) hlt
    have h3 := hle t _ ht h
    rw [hone] at h3
    rw [abs_of_nonpos (by linarith), abs_of_nonpos (by linarith)] at h1
    linarith
  have down : k < 94 → 1 / 2 + ((k : ℝ) + 1) / 10 ≤ t → False := by
    intro hi h
    have h1 := (hmin (k + 1) (by omega)).1
    push_cast at h1
    have h2 := hdec (1 / 2 + (k : ℝ) / 10) (1 / 2 + ((k : ℝ) + 1) / 10) (by positivity) (by linarith)
    have h3 := hle _ t (by positivity) h
    rw [hone] at h3
    rw [abs_of_nonneg (by linarith), abs_of_nonneg (by linarith)] at h1
    linarith
  rw [hr]
  refine ⟨fun hl hu => ?_, fun hl => ?_, fun hu => ?_⟩
  · rw [abs_lt]
    constructor
    · by_contra hc
      push Not at hc
      refine down ?_ (by linarith)
      have : (k : ℝ) < 94 := by linarith
      exact_mod_cast this
    · by_contra hc
      push Not at hc
      cases hk0 : k with
      | zero =>
        rw [hk0] at hc
        norm_num at hc
        linarith
      | succ i =>
        refine up i hk0 ?_
        rw [hk0] at hc
        push_cast at hc
        linarith
  · cases hk0 : k with
    | zero => norm_num
    | succ i =>
      refine absurd (up i hk0 ?_) id
      have : (0 : ℝ) ≤ (i : ℝ) / 10 := by positivity
      linarith
  · rcases Nat.lt_or_ge k 94 with h | h
    · refine absurd (down h ?_) id
      have : (k : ℝ) + 1 ≤ 94 := by exact_mod_cast h
      linarith
    · rw [show k = 94 by omega]
      norm_num

/-- **C272.** If all errors are equal and the scatter of the differences (1.4826 times their median absolute deviation) is the intrinsic one and `t` times the
error added in quadrature, then the ratio found is within 0.1 of `t`, if that is between 0.5 and 9.9; below 0.5 it is 0.5 and above 9.9 it is 9.9. -/
theorem C272_equal (rows : List (ℝ × ℝ)) (e s t : ℝ) (he : ∀ d ∈ rows, d.2 = e) (hepos : 0 < e) (hs : 0 < s) (ht : 0 ≤ t)
    (hsc : scatter rows = Real.sqrt ((t * e) ^ 2 + s ^ 2)) :
    (1 / 2 ≤ t → t ≤ 99 / 10 → |errRatio rows s - t| < 1 / 10) ∧ (t ≤ 1 / 2 → errRatio rows s = 1 / 2) ∧ (99 / 10 ≤ t → errRatio rows s = 99 / 10) :=
  errRatio_near rows e s t he hepos hs ht (by rw [hsc]; exact Real.sqrt_pos.mpr (by positivity)) (by rw [hsc, Real.sq_sqrt (by positivity)])

/-- The wish: the ratio that explains the scatter is found to 0.1, however large the errors are. -/
def C272_spec : Prop :=
  ∀ (rows : List (ℝ × ℝ)) (e s t : ℝ), rows ≠ [] → (∀ d ∈ rows, d.2 = e) → 0 < e → 0 < s → 0 ≤ t →
    scatter rows = Real.sqrt ((t * e) ^ 2 + s ^ 2) → |errRatio rows s - t| ≤ 1 / 10

/-- The scatter of `-a, 0, a`. -/
theorem scatter_three (a : ℝ) (e : ℝ) (ha : 0 < a) : scatter [(-a, e), (0, e), (a, e)] = 14826 / 10000 * a := by
  have m1 : median [-a, 0, a] = 0 := by
    unfold median
    have : ([-a, 0, a] : List ℝ).mergeSort (fun a b => decide (a ≤ b)) = [-a, 0, a] := by
      apply List.mergeSort_of_pairwise
      simp only [List.pairwise_cons, List.mem_cons, List.not_mem_nil, or_false, decide_eq_true_eq, forall_eq_or_imp, forall_eq, false_imp_iff, implies_true, and_true,
        List.Pairwise.nil]
      exact ⟨⟨by linarith, by linarith⟩, ha.le⟩
    rw [this]
    norm_num
  have m2 : median [a, 0, a] = a := by
    unfold median
    have hp : ([a, 0, a] : List ℝ).mergeSort (fun a b => decide (a ≤ b)) = [0, a, a] := by
      apply List.Perm.eq_of_pairwise (le := fun a b : ℝ => decide (a ≤ b) = true)
      · intro x y _ _ h1 h2
        exact le_antisymm (of_decide_eq_true h1) (of_decide_eq_true h2)
      · exact List.pairwise_mergeSort (fun x y z h1 h2 => by simp only [decide_eq_true_eq] at *; exact le_trans h1 h2)
          (fun x y => by simp only [Bool.or_eq_true, decide_eq_true_eq]; exact le_total x y) _
      · simp only [List.pairwise_cons, List.mem_cons, List.not_mem_nil, or_false, decide_eq_true_eq, forall_eq_or_imp, forall_eq, false_imp_iff, implies_true, and_true,
          List.Pairwise.nil]
        exact ⟨⟨ha.le, ha.le⟩, le_rfl⟩
      · exact (List.mergeSort_perm _ _).trans (List.Perm.swap _ _ _)
    rw [hp]
    norm_num
  unfold scatter
  simp only [List.map_cons, List.map_nil]
  rw [m1]
  simp only [sub_zero, abs_neg, abs_zero, abs_of_pos ha]
  rw [m2]

/-- **C272** is false outside of the range that is tried: if the errors explain none of the scatter, half of them is kept. -/
theorem C272_false : ¬ C272_spec := by
  intro h
  have hs := scatter_three (10000 / 14826 * 1) 1 (by norm_num)
  have h1 : scatter [(-(10000 / 14826 * 1), (1 : ℝ)), (0, 1), (10000 / 14826 * 1, 1)] = Real.sqrt (((0 : ℝ) * 1) ^ 2 + 1 ^ 2) := by
    rw [hs]
    norm_num
  have he : ∀ d ∈ ([(-(10000 / 14826 * 1), 1), (0, 1), (10000 / 14826 * 1, 1)] : List (ℝ × ℝ)), d.2 = 1 := by
    intro d hd
    simp only [List.mem_cons, List.not_mem_nil, or_false] at hd
    rcases hd with rfl | rfl | rfl <;> rfl
  have := h _ 1 1 0 (by simp) he one_pos one_pos le_rfl h1
  rw [(C272_equal _ 1 1 0 he one_pos one_pos le_rfl h1).2.1 (by norm_num)] at this
  norm_num [abs_of_pos] at this

/-- Non-vacuity: intrinsic scatter 3 and errors 4 that are right. -/
example : |errRatio [(-(10000 / 14826 * 5), (4 : ℝ)), (0, 4), (10000 / 14826 * 5, 4)] 3 - 1| < 1 / 10 := by
  refine (C272_equal _ 4 3 1 ?_ (by norm_num) (by norm_num) (by norm_num) ?_).1 (by norm_num) (by norm_num)
  · intro d hd
    simp only [List.mem_cons, List.not_mem_nil, or_false] at hd
    rcases hd with rfl | rfl | rfl <;> rfl
  · rw [scatter_three _ _ (by norm_num), show ((1 : ℝ) * 4) ^ 2 + 3 ^ 2 = 5 ^ 2 by norm_num, Real.sqrt_sq (by norm_num)]
    norm_num

/-! ## C273: columns -/

theorem pad2_cons (n : Nat) : ∃ d r, pad2 n = d :: r ∧ d.isDigit = true := by
  have hne : dec n ≠ [] := by
    intro h
    have := congrArg (fun l => Nat.ofDigitChars 10 l 0) h
    unfold dec at h
    exact Nat.toDigits_ne_nil h
  have hall : ∀ c ∈ pad2 n, c.isDigit = true := by
    intro c hc
    unfold pad2 at hc
    rcases List.mem_append.mp hc with h | h
    · rw [List.mem_replicate] at h; rw [h.2]; decide
    · exact Nat.isDigit_of_mem_toDigits (by decide) (by decide) h
  cases hp : pad2 n with
  | nil =>
    unfold pad2 at hp
    exact absurd (List.append_eq_nil_iff.mp hp).2 hne
  | cons d r => exact ⟨d, r, rfl, hall d (by rw [hp]; simp)⟩

theorem pad2_inj (m n : Nat) (h : pad2 m = pad2 n) : m = n := by
  have hv : ∀ n, Nat.ofDigitChars 10 (pad2 n) 0 = n := by
    intro n
    unfold pad2
    rw [Nat.ofDigitChars_append, Nat.ofDigitChars_replicate_zero]
    simp [dec]
  rw [← hv m, ← hv n, h]

/-- The names of the columns of a color. -/
def ofColor (j : Nat) : List (List Char) := ["z".toList ++ pad2 j, "c".toList ++ pad2 j, "zs".toList ++ pad2 j, "slope".toList ++ pad2 j]

theorem mem_ofColor (j : Nat) (n : List Char) : n ∈ ofColor j ↔ n = 'z' :: pad2 j ∨ n = 'c' :: pad2 j ∨ n = 'z' :: 's' :: pad2 j ∨ n = 's' :: 'l' :: 'o' :: 'p' :: 'e' :: pad2 j := by
  unfold ofColor
  simp only [List.mem_cons, List.not_mem_nil, or_false]
  rfl

theorem ofColor_nodup (j : Nat) : (ofColor j).Nodup := by
  obtain ⟨d, r, h, hd⟩ := pad2_cons j
  have hs : d ≠ 's' := by rintro rfl; revert hd; decide
  unfold ofColor
  rw [h]
  change List.Nodup ['z' :: d :: r, 'c' :: d :: r, 'z' :: 's' :: d :: r, 's' :: 'l' :: 'o' :: 'p' :: 'e' :: d :: r]
  simp only [List.nodup_cons, List.mem_cons, List.cons.injEq, List.not_mem_nil, or_false, List.nodup_nil, and_true, not_or, not_false_eq_true]
  refine ⟨⟨by simp, ?_, by simp⟩, ⟨by simp, by simp⟩, by simp⟩
  rintro ⟨-, h, -⟩
  exact hs h

theorem ofColor_disjoint (i j : Nat) (hij : i ≠ j) : List.Disjoint (ofColor i) (ofColor j) := by
  intro n hi hj
  obtain ⟨d, r, h, hd⟩ := pad2_cons i
  obtain ⟨d', r', h', hd'⟩ := pad2_cons j
  have hs : d ≠ 's' := by rintro rfl; revert hd; decide
  have hs' : d' ≠ 's' := by rintro rfl; revert hd'; decide
  have hne : pad2 i ≠ pad2 j := fun h => hij (pad2_inj i j h)
  rw [mem_ofColor] at hi hj
  rcases hi with rfl | rfl | rfl | rfl <;> rcases hj with hj | hj | hj | hj <;>
    simp only [List.cons.injEq, Char.reduceEq, false_and, true_and] at hj
  · exact hne hj
  · rw [h, List.cons.injEq] at hj; exact hs hj.1
  · exact hne hj
  · rw [h', List.cons.injEq] at hj; exact hs' hj.1.symm
  · exact hne hj
  · exact hne hj

/-- Beginnings of the names of columns of colors. -/
def colorLike (n : List Char) : Bool := match n with
  | 'z' :: _ => true
  | 'c' :: d :: _ => d.isDigit
  | 's' :: 'l' :: _ => true
  | _ => false

theorem ofColor_like (j : Nat) : ∀ n ∈ ofColor j, colorLike n = true := by
  intro n hn
  obtain ⟨d, r, h, hd⟩ := pad2_cons j
  rw [mem_ofColor] at hn
  rcases hn with rfl | rfl | rfl | rfl
  · rfl
  · rw [h]; exact hd
  · rfl
  · rfl

/-- **C273.** For any number of colors no two columns of the table of parameters have the same name, and each color has its nodes, its means, the nodes of its
slope and its slopes. -/
theorem C273 (ncol : Nat) : (columns ncol).Nodup ∧ (columns ncol).length = 24 + 4 * ncol ∧
    ∀ j, j < ncol → ∀ n ∈ ofColor j, n ∈ columns ncol := by
  refine ⟨?_, ?_, ?_⟩
  · unfold columns
    rw [List.nodup_append]
    refine ⟨by decide, ?_, ?_⟩
    · rw [List.nodup_flatMap]
      refine ⟨fun j _ => ofColor_nodup j, ?_⟩
      exact List.Pairwise.imp (fun {a b} h => ofColor_disjoint a b h) List.nodup_range
    · intro a ha b hb hab
      subst hab
      obtain ⟨j, -, hj⟩ := List.mem_flatMap.mp hb
      have h1 := ofColor_like j a hj
      have h2 : ∀ n ∈ ["pivotmag_z".toList, "pivotmag".toList, "minrefmag".toList, "maxrefmag".toList, "medcol".toList, "medcol_width".toList,
        "medcol_err_ratio".toList, "covmat_z".toList, "sigma".toList, "covmat_amp".toList, "covmat_slope".toList, "mag_err_ratio_int".toList,
        "mag_err_ratio_slope".toList, "mag_err_ratio_pivot".toList, "corr_z".toList, "corr".toList, "corr_slope_z".toList, "corr_slope".toList,
        "corr_r".toList, "corr2".toList, "corr2_slope".toList, "corr2_r".toList, "volume_factor_z".toList, "volume_factor".toList], colorLike n = false := by decide
      rw [h2 a ha] at h1
      cases h1
  · unfold columns
    simp [List.length_flatMap]
    omega
  · intro j hj n hn
    unfold columns
    refine List.mem_append_right _ (List.mem_flatMap.mpr ⟨j, List.mem_range.mpr hj, hn⟩)

/-- The columns of the first and of the hundredth color. -/
example : ofColor 0 = ["z00".toList, "c00".toList, "zs00".toList, "slope00".toList] ∧ ofColor 100 = ["z100".toList, "c100".toList, "zs100".toList, "slope100".toList] := by
  constructor <;> decide

/-! ## C274: the file of redshifts -/

theorem basename_append (dir base : List Char) (h : '/' ∉ base) : basename (dir ++ '/' :: base) = base := by
  unfold basename
  rw [List.reverse_append, List.reverse_cons, List.append_assoc, List.takeWhile_append_of_pos, List.singleton_append, List.takeWhile_cons_of_neg]
  · simp
  · simp
  · intro c hc
    have : c ∈ base := List.mem_reverse.mp hc
    simp only [bne_iff_ne, ne_eq]
    rintro rfl
    exact h this

/-- **C274.** For a galaxy file `dir/base.fit` whose base name does not end with one of the characters of ".fit" the redshifts go to `base_zreds.fit`. -/
theorem C274_partial (dir base : List Char) (h : '/' ∉ base) (c : Char) (hc : base.getLast? = some c) (hcc : c ∉ ".fit".toList) :
    zredFile (dir ++ '/' :: base ++ ".fit".toList) = base ++ "_zreds.fit".toList := by
  have hr : Utilities.rstrip ".fit".toList (dir ++ '/' :: base ++ ".fit".toList) = dir ++ '/' :: base := by
    unfold Utilities.rstrip
    rw [List.reverse_append, List.dropWhile_append_of_pos]
    · obtain ⟨b, rfl⟩ : ∃ b, base = b ++ [c] := by
        obtain ⟨hne, hl⟩ := List.getLast?_eq_some_iff.mp hc
        exact ⟨hne, hl⟩
      rw [show dir ++ '/' :: (b ++ [c]) = (dir ++ '/' :: b) ++ [c] by simp, List.reverse_append, List.reverse_singleton, List.singleton_append,
        List.dropWhile_cons_of_neg]
      · simp
      · simpa using hcc
    · decide
  unfold zredFile
  rw [hr, List.append_assoc, List.cons_append, basename_append]
  rw [List.mem_append]
  rintro (h' | h')
  · exact h h'
  · revert h'; decide

/-- The wish for all names. -/
def C274_spec : Prop := ∀ dir base : List Char, '/' ∉ base → zredFile (dir ++ '/' :: base ++ ".fit".toList) = base ++ "_zreds.fit".toList

/-- **C274** is false: further letters of the name are taken off. -/
theorem C274_false : ¬ C274_spec := by
  intro h
  have := h "d".toList "gals_cut".toList (by decide)
  revert this
  decide +kernel

/-- Two galaxy files of one directory with the same file of redshifts: the second run overwrites the first. -/
theorem C274_collision : zredFile "d/gals_cut.fit".toList = zredFile "d/gals_cu.fit".toList := by decide +kernel

/-- Non-vacuity. -/
example : zredFile "data/train_gals.fit".toList = "train_gals_zreds.fit".toList := by decide +kernel

end Redmapper.MedCal
