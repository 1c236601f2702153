/-
Properties of the likelihoods of one cluster: C405-C408.
-/
import Verif.Model.LikeCen
import Verif.Props.Centering
import Mathlib.Analysis.Complex.ExponentialBounds
import Mathlib.Tactic

set_option linter.unusedSectionVars false

namespace Redmapper.LikeCen

/-! ## Specification -/

/-- The normal density. -/
noncomputable def density (x mu s : ℝ) : ℝ := Real.exp (-(x - mu) ^ 2 / (2 * s ^ 2)) / (s * Real.sqrt (2 * Real.pi))

/-- The weight of a galaxy: membership times flux. -/
noncomputable def weight (g : Gal) : ℝ := g.pmem * (10 : ℝ) ^ (-(g.refmag / 2.5))

/-- Distance softened by `s`. -/
noncomputable def dist (s : ℝ) (g : Gal) : ℝ := Real.sqrt (g.r ^ 2 + s ^ 2)

/-- The members that are not the galaxy in the center: members farther than 1e-5. -/
def Member (g : Gal) : Prop := 1 / 100000 < g.r ∧ 0 < g.pmem

open Classical in
/-- The mean over the members, weighted, of the radius of the cluster over the distance. -/
noncomputable def meanRatio (s : ℝ) (rlam : ℝ) (gs : List Gal) : ℝ :=
  ((gs.filter fun g => decide (Member g)).map fun g => weight g * (rlam / dist s g)).sum / ((gs.filter fun g => decide (Member g)).map weight).sum

/-- The central magnitude expected. -/
noncomputable def mbar (c : Cfg) (cl : Cl) : ℝ := cl.mstar + c.delta0 + c.delta1 * Real.log (cl.Lambda / c.pivot)

/-- The width of the connectivity at the richness of the cluster. -/
noncomputable def width (c : Cfg) (cl : Cl) : ℝ := c.cenSigma * Real.sqrt (c.pivot * cl.scaleval / min cl.Lambda c.maxlambda)

/-- How well the nearest galaxy fits in redshift: density of its redshift or of its chi-squared. -/
noncomputable def zfit (c : Cfg) (cl : Cl) (g : Gal) : ℝ := if c.useZred then density g.zred (c.zrmod cl.zlam) g.zredE else c.chi g.chisq

/-- The likelihood of the central galaxy `cen`, with its connectivity from `M = meanRatio`. -/
noncomputable def central (c : Cfg) (cl : Cl) (cen : Gal) (M : ℝ) : ℝ :=
  density cen.refmag (mbar c cl) c.sigmaM * max (zfit c cl cen) (1 / 10 ^ 10) * density (Real.log (Real.log M)) c.cenMean (width c cl)

open Classical in
/-- The likelihood of the members of a cluster with center `cen`. -/
noncomputable def memberLike (cl : Cl) (cen : Gal) (gs : List Gal) : ℝ :=
  -(cl.Lambda / cl.scaleval) - ((gs.filter fun g => decide (0 < g.pmem ∧ cen.r < g.r)).map fun g => Real.log (1 - g.pmem)).sum

/-- A central model that has been calibrated. -/
structure Calibrated (c : Cfg) : Prop where
  sigmaM : 0 < c.sigmaM
  cen : 0 < c.cenSigma
  pivot : 0 < c.pivot
  maxlambda : 0 < c.maxlambda
  tiny : 0 < c.tiny

/-- A cluster with positive richness, scale and radius. -/
structure Valid (cl : Cl) : Prop where
  lam : 0 < cl.Lambda
  scale : 0 < cl.scaleval
  r : 0 < cl.rlam

open Classical in
/-- A cluster that is accepted: its richness is sufficient, `cen` is the nearest galaxy (with a redshift error if needed), and at least three members are farther. -/
structure Accepted (c : Cfg) (cl : Cl) (cen : Gal) (gs : List Gal) : Prop where
  rich : c.minlam ≤ cl.Lambda
  mem : cen ∈ gs
  near : ∀ g ∈ gs, g ≠ cen → cen.r < g.r
  three : 3 ≤ (gs.filter fun g => decide (0 < g.pmem ∧ cen.r < g.r)).length
  err : c.useZred = true → 0 < cen.zredE
  some_member : ∃ g ∈ gs, Member g

/-- The exponentials, and the result, can be written as numbers. -/
structure NoUnderflow (c : Cfg) (cl : Cl) (cen : Gal) (M : ℝ) : Prop where
  mag : c.tiny ≤ Real.exp (-(cen.refmag - mbar c cl) ^ 2 / (2 * c.sigmaM ^ 2))
  zred : c.useZred = true → c.tiny ≤ Real.exp (-(cen.zred - c.zrmod cl.zlam) ^ 2 / (2 * cen.zredE ^ 2))
  conn : c.tiny ≤ Real.exp (-(Real.log (Real.log M) - c.cenMean) ^ 2 / (2 * width c cl ^ 2))
  prod : c.tiny ≤ central c cl cen M

/-! ## The nearest galaxy -/

theorem nearest_iff (gs : List Gal) (c : Gal) :
    nearest gs = some c ↔ ∃ k, gs[k]? = some c ∧ ∀ (j : Nat) (x : Gal), gs[j]? = some x → c.r ≤ x.r ∧ (x.r = c.r → k ≤ j) := by
  have fwd : ∀ c, nearest gs = some c → ∃ k, gs[k]? = some c ∧ ∀ (j : Nat) (x : Gal), gs[j]? = some x → c.r ≤ x.r ∧ (x.r = c.r → k ≤ j) := by
    intro c h
    unfold nearest at h
    rw [Option.bind_eq_some_iff] at h
    obtain ⟨k, hk, hc⟩ := h
    obtain ⟨m, hm, hmin⟩ := Centering.argmin_spec _ k hk
    rw [List.getElem?_map, hc] at hm
    simp only [Option.map_some, Option.some.injEq] at hm
    subst hm
    refine ⟨k, hc, fun j x hj => ?_⟩
    exact hmin j x.r (by rw [List.getElem?_map, hj]; rfl)
  constructor
  · exact fwd c
  · rintro ⟨k, hk, hmin⟩
    cases hn : nearest gs with
    | none =>
      exfalso
      unfold nearest at hn
      rw [Option.bind_eq_none_iff] at hn
      cases ha : Centering.argmin (gs.map Gal.r) with
      | none =>
        rw [Centering.argmin_none] at ha
        have : gs = [] := by simpa using ha
        subst this
        simp at hk
      | some i =>
        have h1 := hn i ha
        obtain ⟨m, hm, -⟩ := Centering.argmin_spec _ i ha
        rw [List.getElem?_map, h1] at hm
        simp at hm
    | some c' =>
      obtain ⟨k', hk', hmin'⟩ := fwd c' hn
      have e : c'.r = c.r := le_antisymm (hmin' k c hk).1 (hmin k' c' hk').1
      have : k = k' := le_antisymm ((hmin k' c' hk').2 e) ((hmin' k c hk).2 e.symm)
      subst this
      rw [hk'] at hk
      exact hk

theorem nearest_unique (gs : List Gal) (c : Gal) (hm : c ∈ gs) (h : ∀ g ∈ gs, g ≠ c → c.r < g.r) : nearest gs = some c := by
  have hne : gs.map Gal.r ≠ [] := by
    intro e
    rw [List.map_eq_nil_iff] at e
    subst e
    simp at hm
  cases ha : nearest gs with
  | none =>
    exfalso
    unfold nearest at ha
    rw [Option.bind_eq_none_iff] at ha
    cases hb : Centering.argmin (gs.map Gal.r) with
    | none => exact hne ((Centering.argmin_none _).mp hb)
    | some i =>
      have h1 := ha i hb
      obtain ⟨m, hm, -⟩ := Centering.argmin_spec _ i hb
      rw [List.getElem?_map, h1] at hm
      simp at hm
  | some c' =>
    obtain ⟨k, hk, hmin⟩ := (nearest_iff gs c').mp ha
    by_contra hn
    have hn' : c' ≠ c := fun e => hn (by rw [e])
    have h1 := h c' (List.mem_of_getElem? hk) hn'
    obtain ⟨j, hj⟩ := List.getElem?_of_mem hm
    exact absurd (hmin j c hj).1 (not_le.mpr h1)

/-! ## Values -/

theorem fl_ge {t x : ℝ} (h : t ≤ x) : fl t x = x := if_neg fun h' => absurd h'.2 (not_lt.mpr h)

theorem fl_lt {t x : ℝ} (h0 : 0 ≤ x) (h : x < t) : fl t x = 0 := if_pos ⟨h0, h⟩

theorem half_exp (x s : ℝ) : Real.exp (-0.5 * x ^ 2 / s ^ 2) = Real.exp (-x ^ 2 / (2 * s ^ 2)) := by
  congr 1
  rw [show (-0.5 : ℝ) * x ^ 2 / s ^ 2 = (-x ^ 2 * (1 / 2)) / s ^ 2 by ring, mul_one_div, div_div]

theorem norm_density (x mu s : ℝ) : 1 / (Real.sqrt (2 * Real.pi) * s) * Real.exp (-(x - mu) ^ 2 / (2 * s ^ 2)) = density x mu s := by
  unfold density
  rw [one_div, inv_mul_eq_div, mul_comm s]

theorem density_pos (x mu : ℝ) {s : ℝ} (h : 0 < s) : 0 < density x mu s := by
  unfold density
  have := Real.pi_pos
  positivity

theorem sig_eq (c : Cfg) (cl : Cl) : sig c cl = width c cl := by
  unfold sig width
  rw [div_eq_mul_inv, ← Real.sqrt_inv]
  congr 2
  rw [div_div, inv_div, mul_comm cl.scaleval]

theorem width_pos {c : Cfg} {cl : Cl} (hc : Calibrated c) (hv : Valid cl) : 0 < width c cl := by
  unfold width
  have : 0 < min cl.Lambda c.maxlambda := lt_min hv.lam hc.maxlambda
  have := hc.pivot
  have := hv.scale
  have := hc.cen
  positivity

theorem around_eq (gs : List Gal) [DecidablePred Member] : around gs = gs.filter fun g => decide (Member g) := by
  unfold around
  apply List.filter_congr
  intro g _
  rw [Bool.eq_iff_iff, Bool.and_eq_true, decide_eq_true_eq, decide_eq_true_eq, decide_eq_true_eq]
  exact Iff.rfl

theorem lum_eq (cl : Cl) (g : Gal) : lum cl g = (10 : ℝ) ^ (cl.mstar / 2.5) * (10 : ℝ) ^ (-(g.refmag / 2.5)) := by
  unfold lum
  rw [← Real.rpow_add (by norm_num)]
  congr 1
  ring

theorem sum_pos_of {l : List Gal} (hne : l ≠ []) (f : Gal → ℝ) (h : ∀ g ∈ l, 0 < f g) : 0 < (l.map f).sum := by
  apply List.sum_pos
  · intro x hx
    obtain ⟨g, hg, rfl⟩ := List.mem_map.mp hx
    exact h g hg
  · simpa using hne

theorem weight_pos {g : Gal} (h : 0 < g.pmem) : 0 < weight g := by
  unfold weight
  have : (0 : ℝ) < (10 : ℝ) ^ (-(g.refmag / 2.5)) := Real.rpow_pos_of_pos (by norm_num) _
  positivity

theorem around_ne {gs : List Gal} (h : ∃ g ∈ gs, Member g) : around gs ≠ [] := by
  obtain ⟨g, hg, hm⟩ := h
  intro e
  have : g ∈ around gs := by
    unfold around
    rw [List.mem_filter]
    exact ⟨hg, by rw [Bool.and_eq_true, decide_eq_true_eq, decide_eq_true_eq]; exact hm⟩
  rw [e] at this
  simp at this

theorem around_mem {gs : List Gal} {g : Gal} (h : g ∈ around gs) : g ∈ gs ∧ Member g := by
  unfold around at h
  rw [List.mem_filter, Bool.and_eq_true, decide_eq_true_eq, decide_eq_true_eq] at h
  exact h

theorem sum_mul_left' (l : List Gal) (k : ℝ) (f : Gal → ℝ) : (l.map fun g => k * f g).sum = k * (l.map f).sum := by
  induction l with
  | nil => simp
  | cons a l ih => simp only [List.map_cons, List.sum_cons, ih]; ring

theorem connect_eq (c : Cfg) (cl : Cl) (hv : Valid cl) (gs : List Gal) (h : ∃ g ∈ gs, Member g) :
    connect c cl gs = some (Real.log (meanRatio c.rsoft cl.rlam gs)) := by
  classical
  have hne := around_ne h
  unfold connect
  simp only
  rw [if_neg (by simpa using hne)]
  congr 2
  have hk : (0 : ℝ) < (10 : ℝ) ^ (cl.mstar / 2.5) := Real.rpow_pos_of_pos (by norm_num) _
  have e1 : ((around gs).map fun g => g.pmem * lum cl g / Real.sqrt (g.r ^ 2 + c.rsoft ^ 2)).sum =
      ((10 : ℝ) ^ (cl.mstar / 2.5) / cl.rlam) * ((around gs).map fun g => weight g * (cl.rlam / dist c.rsoft g)).sum := by
    rw [← sum_mul_left']
    congr 1
    apply List.map_congr_left
    intro g hg
    have hm := around_mem hg
    have hr : 0 < g.r := lt_trans (by norm_num) hm.2.1
    have hd : 0 < Real.sqrt (g.r ^ 2 + c.rsoft ^ 2) := by positivity
    have := hv.r
    rw [lum_eq]
    unfold weight dist
    field_simp
  have e2 : ((around gs).map fun g => g.pmem * lum cl g).sum = (10 : ℝ) ^ (cl.mstar / 2.5) * ((around gs).map weight).sum := by
    rw [← sum_mul_left']
    congr 1
    apply List.map_congr_left
    intro g _
    rw [lum_eq]
    unfold weight
    ring
  rw [e1, e2]
  unfold meanRatio
  rw [← around_eq]
  have h2 : 0 < ((around gs).map weight).sum := sum_pos_of hne _ fun g hg => weight_pos (around_mem hg).2.2
  have := hv.r
  field_simp

theorem meanRatio_pos (s : ℝ) {rlam : ℝ} (hr : 0 < rlam) (gs : List Gal) (h : ∃ g ∈ gs, Member g) : 0 < meanRatio s rlam gs := by
  classical
  have hne := around_ne h
  unfold meanRatio
  rw [← around_eq]
  apply div_pos
  · apply sum_pos_of hne
    intro g hg
    have hm := around_mem hg
    have : 0 < g.r := lt_trans (by norm_num) hm.2.1
    have hd : 0 < dist s g := by unfold dist; positivity
    have := weight_pos hm.2.2
    positivity
  · exact sum_pos_of hne _ fun g hg => weight_pos (around_mem hg).2.2

theorem incut_eq (cen : Gal) (gs : List Gal) [DecidablePred fun g : Gal => 0 < g.pmem ∧ cen.r < g.r] :
    incut cen gs = gs.filter fun g => decide (0 < g.pmem ∧ cen.r < g.r) := by
  unfold incut
  apply List.filter_congr
  intro g _
  rw [Bool.decide_and]

theorem zfilter_some {c : Cfg} {cl : Cl} {cen : Gal} (h : c.useZred = true → 0 < cen.zredE) : ∃ g, zfilter c cl cen = some g := by
  unfold zfilter
  by_cases hu : c.useZred = true
  · rw [if_pos hu, if_neg (h hu).ne']
    exact ⟨_, rfl⟩
  · rw [if_neg hu]
    exact ⟨_, rfl⟩

theorem process_accepted {c : Cfg} {cl : Cl} (hc : Calibrated c) {cen : Gal} {gs : List Gal} (ha : Accepted c cl cen gs) (l : Like) :
    process c cl gs l = (bcg c cl cen gs).map fun b => (false, ⟨lnlam cl ((incut cen gs).map Gal.pmem), b, XR.add b (lnlam cl ((incut cen gs).map Gal.pmem))⟩) := by
  classical
  have h3 := ha.three
  rw [← incut_eq] at h3
  unfold process
  rw [nearest_unique gs cen ha.mem ha.near]
  simp only
  rw [if_neg (by rintro (h | h); · exact absurd ha.rich (not_le.mpr h)
                 · omega), if_neg (not_le.mpr hc.cen)]
  cases bcg c cl cen gs <;> rfl

/-! ## C405: likelihoods of accepted clusters -/

open Classical in
/-- **C405, rejected clusters.**  A cluster with too little richness, or with fewer than three members farther out than its nearest galaxy, is marked as bad and
all three likelihoods are -1e11, whatever they were before. -/
theorem C405_rejected (c : Cfg) (cl : Cl) (cen : Gal) (gs : List Gal) (l : Like) (hm : cen ∈ gs) (hn : ∀ g ∈ gs, g ≠ cen → cen.r < g.r)
    (h : cl.Lambda < c.minlam ∨ (gs.filter fun g => decide (0 < g.pmem ∧ cen.r < g.r)).length < 3) :
    process c cl gs l = some (true, ⟨.num (-10 ^ 11), .num (-10 ^ 11), .num (-10 ^ 11)⟩) := by
  rw [← incut_eq] at h
  unfold process
  rw [nearest_unique gs cen hm hn]
  simp only
  rw [if_pos h]
  unfold reset
  norm_num

/-- What users expect: an accepted cluster gets a likelihood, the sum of that of its center and that of its members. -/
def C405_spec : Prop :=
  ∀ (c : Cfg) (cl : Cl) (cen : Gal) (gs : List Gal) (l : Like), Calibrated c → Valid cl → Accepted c cl cen gs → (∀ g ∈ gs, g.pmem < 1) →
    ∃ a b, process c cl gs l = some (false, ⟨.num a, .num b, .num (b + a)⟩)

/-- **C405.** With a calibrated central model, what an accepted cluster gets depends on the mean `M` of the radius over the softened distance of its members.  Above
one (and without underflow) it gets the two likelihoods and their sum; below one likelihoods that are not numbers; at one, or if the exponential of the
magnitude or of the connectivity underflows, the run ends with an error. -/
theorem C405_partial (c : Cfg) (cl : Cl) (hc : Calibrated c) (hv : Valid cl) (cen : Gal) (gs : List Gal) (l : Like) (ha : Accepted c cl cen gs) :
    (1 < meanRatio c.rsoft cl.rlam gs → NoUnderflow c cl cen (meanRatio c.rsoft cl.rlam gs) → (∀ g ∈ gs, g.pmem < 1) →
      process c cl gs l = some (false, ⟨.num (memberLike cl cen gs), .num (Real.log (central c cl cen (meanRatio c.rsoft cl.rlam gs))),
        .num (Real.log (central c cl cen (meanRatio c.rsoft cl.rlam gs)) + memberLike cl cen gs)⟩)) ∧
    (meanRatio c.rsoft cl.rlam gs < 1 → ∃ lam, process c cl gs l = some (false, ⟨lam, .nan, .nan⟩)) ∧
    (meanRatio c.rsoft cl.rlam gs = 1 → process c cl gs l = none) ∧
    (1 < meanRatio c.rsoft cl.rlam gs →
      (Real.exp (-(cen.refmag - mbar c cl) ^ 2 / (2 * c.sigmaM ^ 2)) < c.tiny ∨
        Real.exp (-(Real.log (Real.log (meanRatio c.rsoft cl.rlam gs)) - c.cenMean) ^ 2 / (2 * width c cl ^ 2)) < c.tiny) →
      process c cl gs l = none) := by
  classical
  have hM := meanRatio_pos c.rsoft hv.r gs ha.some_member
  set M := meanRatio c.rsoft cl.rlam gs with hMd
  have hw : connect c cl gs = some (Real.log M) := connect_eq c cl hv gs ha.some_member
  have hp := process_accepted hc ha l
  have hwp := width_pos hc hv
  have hphi : phiCen c cl cen = 1 / (Real.sqrt (2 * Real.pi) * c.sigmaM) * fl c.tiny (Real.exp (-(cen.refmag - mbar c cl) ^ 2 / (2 * c.sigmaM ^ 2))) := by
    unfold phiCen
    simp only
    rw [half_exp]
    rfl
  have hfw : 1 < M → wfilter c cl (connect c cl gs) =
      some (1 / (Real.sqrt (2 * Real.pi) * width c cl) * fl c.tiny (Real.exp (-(Real.log (Real.log M) - c.cenMean) ^ 2 / (2 * width c cl ^ 2)))) := by
    intro h
    have := Real.log_pos h
    rw [hw]
    unfold wfilter
    simp only
    rw [if_neg (not_lt.mpr this.le), if_neg this.ne', half_exp, sig_eq]
  obtain ⟨z, hz⟩ := zfilter_some (cl := cl) ha.err
  refine ⟨?_, ?_, ?_, ?_⟩
  · intro h hu hpm
    have hzf : zfilter c cl cen = some (zfit c cl cen) := by
      unfold zfilter zfit
      by_cases hb : c.useZred = true
      · rw [if_pos hb, if_pos hb, if_neg (ha.err hb).ne', half_exp, fl_ge (hu.zred hb), norm_density]
      · rw [if_neg hb, if_neg hb]
    have hb : bcg c cl cen gs = some (.num (Real.log (central c cl cen M))) := by
      unfold bcg
      rw [hzf, hfw h]
      simp only
      rw [hphi, fl_ge hu.mag, fl_ge hu.conn, norm_density, norm_density]
      have hcen : density cen.refmag (mbar c cl) c.sigmaM * max (zfit c cl cen) (1 / 10 ^ 10) * density (Real.log (Real.log M)) c.cenMean (width c cl) =
          central c cl cen M := rfl
      rw [hcen, fl_ge hu.prod, if_neg (not_le.mpr (lt_of_lt_of_le hc.tiny hu.prod))]
    have hl : lnlam cl ((incut cen gs).map Gal.pmem) = .num (memberLike cl cen gs) := by
      have hlt : ∀ p ∈ (incut cen gs).map Gal.pmem, p < 1 := by
        intro p hp
        obtain ⟨g, hg, rfl⟩ := List.mem_map.mp hp
        exact hpm g (List.mem_of_mem_filter hg)
      unfold lnlam
      rw [if_neg, if_neg]
      · unfold memberLike
        rw [← incut_eq, List.map_map, neg_div]
        rfl
      · rw [List.any_eq_true]
        rintro ⟨p, hp, h⟩
        exact absurd (of_decide_eq_true h) (hlt p hp).ne
      · rw [List.any_eq_true]
        rintro ⟨p, hp, h⟩
        exact absurd (of_decide_eq_true h) (not_lt.mpr (hlt p hp).le)
    rw [hp, hb, hl]
    rfl
  · intro h
    have hb : bcg c cl cen gs = some .nan := by
      unfold bcg
      have : wfilter c cl (connect c cl gs) = none := by
        rw [hw]
        unfold wfilter
        simp only
        rw [if_pos (Real.log_neg hM h)]
      rw [hz, this]
    refine ⟨lnlam cl ((incut cen gs).map Gal.pmem), ?_⟩
    rw [hp, hb]
    rfl
  · intro h
    have hb : bcg c cl cen gs = none := by
      unfold bcg
      have : wfilter c cl (connect c cl gs) = some 0 := by
        rw [hw, h, Real.log_one]
        unfold wfilter
        simp
      rw [hz, this]
      simp only
      rw [mul_zero, fl_lt (le_refl _) hc.tiny, if_pos (le_refl _)]
    rw [hp, hb]
    rfl
  · intro h hu
    have hb : bcg c cl cen gs = none := by
      unfold bcg
      rw [hz, hfw h]
      simp only
      rw [hphi]
      rcases hu with hu | hu
      · rw [fl_lt (Real.exp_pos _).le hu, mul_zero, zero_mul, zero_mul, fl_lt (le_refl _) hc.tiny, if_pos (le_refl _)]
      · rw [fl_lt (Real.exp_pos _).le hu, mul_zero, mul_zero, fl_lt (le_refl _) hc.tiny, if_pos (le_refl _)]
    rw [hp, hb]
    rfl

/-- **C405.** Members whose softened distance is below the radius of the cluster have a mean above one. -/
theorem C405_inside (s rlam : ℝ) (gs : List Gal) (h : ∃ g ∈ gs, Member g) (hin : ∀ g ∈ gs, Member g → dist s g < rlam) : 1 < meanRatio s rlam gs := by
  classical
  have hne := around_ne h
  unfold meanRatio
  rw [← around_eq]
  have hs : 0 < ((around gs).map weight).sum := sum_pos_of hne _ fun g hg => weight_pos (around_mem hg).2.2
  rw [lt_div_iff₀ hs, one_mul]
  apply List.sum_lt_sum_of_ne_nil hne
  intro g hg
  have hm := around_mem hg
  have : 0 < g.r := lt_trans (by norm_num) hm.2.1
  have hd : 0 < dist s g := by unfold dist; positivity
  have h1 := weight_pos hm.2.2
  have h2 : 1 < rlam / dist s g := by rw [lt_div_iff₀ hd, one_mul]; exact hin g hm.1 hm.2
  nlinarith

/-- A model for the examples. -/
noncomputable def exCfg (rsoft : ℝ) : Cfg := ⟨5, 0, 0, 20, 1, 100, rsoft, 0, 1, false, fun z => z, fun _ => 1, 1 / 10 ^ 200⟩
noncomputable def exCl : Cl := ⟨20, 1, 1, 18, 1 / 2⟩
noncomputable def exCen : Gal := ⟨0, 1 / 2, 18, 0, 0, 0⟩
noncomputable def exMem (r : ℝ) : Gal := ⟨r, 1 / 2, 18, 0, 0, 0⟩
noncomputable def exGals (r : ℝ) : List Gal := [exCen, exMem r, exMem r, exMem r]

theorem ex_cal (s : ℝ) : Calibrated (exCfg s) := ⟨by norm_num [exCfg], by norm_num [exCfg], by norm_num [exCfg], by norm_num [exCfg], by norm_num [exCfg]⟩
theorem ex_valid : Valid exCl := ⟨by norm_num [exCl], by norm_num [exCl], by norm_num [exCl]⟩

theorem ex_accepted (s r : ℝ) (hr : 1 / 100000 < r) : Accepted (exCfg s) exCl exCen (exGals r) := by
  have h0 : 0 < r := lt_trans (by norm_num) hr
  refine ⟨by norm_num [exCfg, exCl], by simp [exGals], ?_, ?_, by simp [exCfg], exMem r, by simp [exGals], by simpa [exMem] using hr, by norm_num [exMem]⟩
  · intro g hg hn
    simp only [exGals, List.mem_cons, List.not_mem_nil, or_false] at hg
    rcases hg with rfl | rfl | rfl | rfl
    · exact absurd rfl hn
    all_goals simpa [exCen, exMem] using h0
  · simp [exGals, exCen, exMem, h0]

theorem ex_ratio (s r : ℝ) (hr : 1 / 100000 < r) : meanRatio s exCl.rlam (exGals r) = 1 / Real.sqrt (r ^ 2 + s ^ 2) := by
  classical
  have h1 : (exGals r).filter (fun g => decide (Member g)) = [exMem r, exMem r, exMem r] := by
    have hm : Member (exMem r) := ⟨by simpa [exMem] using hr, by norm_num [exMem]⟩
    have hc : ¬ Member exCen := by
      intro h
      have := h.1
      norm_num [exCen] at this
    unfold exGals
    rw [List.filter_cons_of_neg (by simpa using hc)]
    rw [List.filter_eq_self]
    intro a ha
    simp only [List.mem_cons, List.not_mem_nil, or_false] at ha
    rcases ha with rfl | rfl | rfl <;> simpa using hm
  have hw : 0 < weight (exMem r) := weight_pos (by norm_num [exMem])
  unfold meanRatio
  rw [h1]
  simp only [List.map_cons, List.map_nil, List.sum_cons, List.sum_nil, add_zero]
  have hd : dist s (exMem r) = Real.sqrt (r ^ 2 + s ^ 2) := rfl
  have he : exCl.rlam = 1 := rfl
  rw [hd, he]
  field_simp

/-- **C405** is false: three members within the radius of the cluster, but whose softened distance is not, leave a likelihood that is not a number; and if it is just the
radius, the run ends with an error. -/
theorem C405_false : ¬ C405_spec := by
  intro h
  have hr : (1 : ℝ) / 100000 < 1 := by norm_num
  obtain ⟨a, b, hab⟩ := h (exCfg (1 / 20)) exCl exCen (exGals 1) reset (ex_cal _) ex_valid (ex_accepted _ _ hr) (by
    intro g hg
    simp only [exGals, List.mem_cons, List.not_mem_nil, or_false] at hg
    rcases hg with rfl | rfl | rfl | rfl <;> norm_num [exCen, exMem])
  have hlt : meanRatio (exCfg (1 / 20)).rsoft exCl.rlam (exGals 1) < 1 := by
    rw [ex_ratio _ _ hr]
    have : (1 : ℝ) < Real.sqrt (1 ^ 2 + (exCfg (1 / 20)).rsoft ^ 2) := by
      rw [Real.lt_sqrt (by norm_num)]
      norm_num [exCfg]
    rw [div_lt_one (by linarith)]
    exact this
  obtain ⟨lam, hl⟩ := (C405_partial _ _ (ex_cal _) ex_valid _ _ reset (ex_accepted (1 / 20) 1 hr)).2.1 hlt
  rw [hl] at hab
  simp at hab

example : process { exCfg (1 / 20) with minlam := exCl.Lambda + 1 } exCl (exGals 1) reset
    = some (true, ⟨.num (-10 ^ 11), .num (-10 ^ 11), .num (-10 ^ 11)⟩) := by
  have ha := ex_accepted (1 / 20) 1 (by norm_num)
  exact C405_rejected _ _ _ _ _ ha.mem ha.near (Or.inl (by show exCl.Lambda < exCl.Lambda + 1; linarith))

theorem C405_stop_false : Accepted (exCfg (4 / 5)) exCl exCen (exGals (3 / 5)) ∧ process (exCfg (4 / 5)) exCl (exGals (3 / 5)) reset = none := by
  have hr : (1 : ℝ) / 100000 < 3 / 5 := by norm_num
  refine ⟨ex_accepted _ _ hr, (C405_partial _ _ (ex_cal _) ex_valid _ _ reset (ex_accepted (4 / 5) (3 / 5) hr)).2.2.1 ?_⟩
  rw [ex_ratio _ _ hr]
  have : (3 / 5 : ℝ) ^ 2 + (exCfg (4 / 5)).rsoft ^ 2 = 1 := by norm_num [exCfg]
  rw [this, Real.sqrt_one, div_one]

/-- Members close to the center: the hypotheses of the first case are met. -/
example : 1 < meanRatio (exCfg (1 / 20)).rsoft exCl.rlam (exGals (1 / 2)) := by
  apply C405_inside _ _ _ (ex_accepted (1 / 20) (1 / 2) (by norm_num)).some_member
  intro g hg hm
  simp only [exGals, List.mem_cons, List.not_mem_nil, or_false] at hg
  rcases hg with rfl | rfl | rfl | rfl
  · have := hm.1
    norm_num [exCen] at this
  all_goals
    unfold dist
    rw [Real.sqrt_lt' (by norm_num [exCl])]
    norm_num [exMem, exCfg, exCl]

/-- A cluster for which nothing underflows: a central galaxy as bright as expected, members at `r_lambda / e`. -/
example : NoUnderflow (exCfg 0) exCl exCen (meanRatio (exCfg 0).rsoft exCl.rlam (exGals (Real.exp (-1)))) ∧ 1 < meanRatio (exCfg 0).rsoft exCl.rlam (exGals (Real.exp (-1))) := by
  have he : (1 : ℝ) / 100000 < Real.exp (-1) := by
    rw [Real.exp_neg, one_div]
    exact inv_strictAnti₀ (Real.exp_pos 1) (lt_trans Real.exp_one_lt_d9 (by norm_num))
  have hM : meanRatio (exCfg 0).rsoft exCl.rlam (exGals (Real.exp (-1))) = Real.exp 1 := by
    rw [ex_ratio _ _ he]
    have : Real.exp (-1) ^ 2 + (exCfg 0).rsoft ^ 2 = Real.exp (-1) ^ 2 := by simp [exCfg]
    rw [this, Real.sqrt_sq (Real.exp_pos _).le, Real.exp_neg, one_div, inv_inv]
  have hb : mbar (exCfg 0) exCl = 18 := by norm_num [mbar, exCfg, exCl]
  have hw : width (exCfg 0) exCl = 1 := by norm_num [width, exCfg, exCl]
  have hl : Real.log (Real.log (Real.exp 1)) = 0 := by rw [Real.log_exp, Real.log_one]
  have ht : (exCfg 0).tiny ≤ 1 := by norm_num [exCfg]
  rw [hM]
  refine ⟨⟨?_, by simp [exCfg], ?_, ?_⟩, Real.one_lt_exp_iff.mpr one_pos⟩
  · rw [hb]
    simpa [exCen] using ht
  · rw [hl]
    have : (exCfg 0).cenMean = 0 := rfl
    rw [this]
    simpa using ht
  · unfold central
    rw [hl, hb, hw]
    have h0 : (exCfg 0).cenMean = 0 := rfl
    have h1 : (exCfg 0).sigmaM = 1 := rfl
    have h2 : zfit (exCfg 0) exCl exCen = 1 := by simp [zfit, exCfg]
    have h3 : exCen.refmag = 18 := rfl
    rw [h0, h1, h2, h3]
    unfold density
    have hp := Real.pi_pos
    have h4 : Real.exp (-((18 : ℝ) - 18) ^ 2 / (2 * 1 ^ 2)) = 1 := by norm_num
    have h5 : Real.exp (-((0 : ℝ) - 0) ^ 2 / (2 * 1 ^ 2)) = 1 := by norm_num
    have h6 : max (1 : ℝ) (1 / 10 ^ 10) = 1 := by norm_num
    rw [h4, h5, h6, one_mul, mul_one, div_mul_div_comm, Real.mul_self_sqrt (by positivity), one_mul]
    have h7 : (1 : ℝ) / 8 ≤ 1 / (2 * Real.pi) := by
      apply one_div_le_one_div_of_le (by positivity)
      linarith [Real.pi_le_four]
    refine le_trans ?_ h7
    norm_num [exCfg]

/-! ## C406, C407: which galaxies count -/

theorem lnlam_perm (cl : Cl) {a b : List ℝ} (h : a.Perm b) : lnlam cl a = lnlam cl b := by
  unfold lnlam
  have e : ∀ f : ℝ → Bool, a.any f = b.any f := by
    intro f
    rw [Bool.eq_iff_iff, List.any_eq_true, List.any_eq_true]
    exact ⟨fun ⟨x, hx, hf⟩ => ⟨x, h.mem_iff.mp hx, hf⟩, fun ⟨x, hx, hf⟩ => ⟨x, h.mem_iff.mpr hx, hf⟩⟩
  rw [e, e, (h.map _).sum_eq]

theorem process_congr (c : Cfg) (cl : Cl) (l : Like) {gs gs' : List Gal} (hn : nearest gs = nearest gs') (hi : ∀ cen, (incut cen gs).Perm (incut cen gs'))
    (hw : (around gs).Perm (around gs')) : process c cl gs l = process c cl gs' l := by
  have hconn : connect c cl gs = connect c cl gs' := by
    unfold connect
    simp only
    rw [(hw.map _).sum_eq, (hw.map fun g => g.pmem * lum cl g).sum_eq]
    have : (around gs).isEmpty = (around gs').isEmpty := by
      rw [Bool.eq_iff_iff, List.isEmpty_iff, List.isEmpty_iff]
      constructor
      · intro e; rw [e] at hw; exact hw.nil_eq.symm
      · intro e; rw [e] at hw; exact hw.eq_nil
    rw [this]
  have hb : ∀ cen, bcg c cl cen gs = bcg c cl cen gs' := by
    intro cen
    unfold bcg
    rw [hconn]
  unfold process
  rw [hn]
  cases nearest gs' with
  | none => rfl
  | some cen =>
    simp only
    rw [(hi cen).length_eq, lnlam_perm cl ((hi cen).map Gal.pmem), hb]

/-- **C406.** A galaxy with no membership that is not the nearest one has no effect on the likelihoods of a cluster. -/
theorem C406 (c : Cfg) (cl : Cl) (l : Like) (gs1 gs2 : List Gal) (g : Gal) (h0 : g.pmem ≤ 0) (hfar : ∃ h ∈ gs1 ++ gs2, h.r < g.r) :
    process c cl (gs1 ++ g :: gs2) l = process c cl (gs1 ++ gs2) l := by
  have hp : ¬ 0 < g.pmem := not_lt.mpr h0
  apply process_congr
  · cases hn : nearest (gs1 ++ gs2) with
    | none =>
      exfalso
      obtain ⟨h, hm, -⟩ := hfar
      unfold nearest at hn
      rw [Option.bind_eq_none_iff] at hn
      cases ha : Centering.argmin ((gs1 ++ gs2).map Gal.r) with
      | none =>
        rw [Centering.argmin_none, List.map_eq_nil_iff] at ha
        rw [ha] at hm
        simp at hm
      | some i =>
        have h1 := hn i ha
        obtain ⟨m, hm, -⟩ := Centering.argmin_spec _ i ha
        rw [List.getElem?_map, h1] at hm
        simp at hm
    | some cen =>
      obtain ⟨k, hk, hmin⟩ := (nearest_iff _ _).mp hn
      have hg : cen.r < g.r := by
        obtain ⟨h, hm, hlt⟩ := hfar
        obtain ⟨j, hj⟩ := List.getElem?_of_mem hm
        exact lt_of_le_of_lt (hmin j h hj).1 hlt
      rw [nearest_iff]
      -- positions in the two lists
      have lo : ∀ i, i < gs1.length → (gs1 ++ g :: gs2)[i]? = (gs1 ++ gs2)[i]? := by
        intro i hi
        rw [List.getElem?_append_left hi, List.getElem?_append_left hi]
      have hi' : ∀ i, gs1.length ≤ i → (gs1 ++ g :: gs2)[i + 1]? = (gs1 ++ gs2)[i]? := by
        intro i hi
        rw [List.getElem?_append_right (by omega), List.getElem?_append_right hi, show i + 1 - gs1.length = (i - gs1.length) + 1 by omega, List.getElem?_cons_succ]
      have mid : (gs1 ++ g :: gs2)[gs1.length]? = some g := by
        rw [List.getElem?_append_right (le_refl _), Nat.sub_self]
        rfl
      refine ⟨if k < gs1.length then k else k + 1, ?_, ?_⟩
      · by_cases hlt : k < gs1.length
        · rw [if_pos hlt, lo k hlt]; exact hk
        · rw [if_neg hlt, hi' k (by omega)]; exact hk
      · intro j x hj
        rcases lt_trichotomy j gs1.length with hlt | heq | hgt
        · rw [lo j hlt] at hj
          obtain ⟨h1, h2⟩ := hmin j x hj
          refine ⟨h1, fun e => ?_⟩
          have := h2 e
          split_ifs <;> omega
        · rw [heq, mid] at hj
          obtain rfl := Option.some.inj hj
          exact ⟨hg.le, fun e => absurd e hg.ne'⟩
        · obtain ⟨i, rfl⟩ : ∃ i, j = i + 1 := ⟨j - 1, by omega⟩
          rw [hi' i (by omega)] at hj
          obtain ⟨h1, h2⟩ := hmin i x hj
          refine ⟨h1, fun e => ?_⟩
          have := h2 e
          split_ifs <;> omega
  · intro cen
    unfold incut
    rw [List.filter_append, List.filter_cons_of_neg (by simp [hp]), ← List.filter_append]
  · unfold around
    rw [List.filter_append, List.filter_cons_of_neg (by simp [hp]), ← List.filter_append]

/-- **C407.** The order in which the neighbours come has no effect on the likelihoods, if one galaxy is nearer than the others. -/
theorem C407 (c : Cfg) (cl : Cl) (l : Like) (gs gs' : List Gal) (h : gs.Perm gs') (cen : Gal) (hm : cen ∈ gs) (hn : ∀ g ∈ gs, g ≠ cen → cen.r < g.r) :
    process c cl gs l = process c cl gs' l := by
  apply process_congr
  · rw [nearest_unique gs cen hm hn, nearest_unique gs' cen (h.mem_iff.mp hm) fun g hg => hn g (h.mem_iff.mpr hg)]
  · intro cen
    exact h.filter _
  · exact h.filter _

/-- Without a single nearest galaxy the order does count: two galaxies in the center, of which one is brighter. -/
theorem C407_ties_false : ∃ a b : Gal, a.r = b.r ∧ nearest [a, b] ≠ nearest [b, a] := by
  refine ⟨⟨0, 1, 18, 0, 0, 0⟩, ⟨0, 1, 19, 0, 0, 0⟩, rfl, ?_⟩
  simp [nearest, Centering.argmin, Centering.argminFrom]

/-! ## C408: zero point -/

/-- A galaxy with its magnitude shifted. -/
def shift (d : ℝ) (g : Gal) : Gal := { g with refmag := g.refmag + d }

theorem nearest_shift (d : ℝ) (gs : List Gal) : nearest (gs.map (shift d)) = (nearest gs).map (shift d) := by
  unfold nearest
  have : (gs.map (shift d)).map Gal.r = gs.map Gal.r := by rw [List.map_map]; rfl
  rw [this]
  cases Centering.argmin (gs.map Gal.r) with
  | none => rfl
  | some k => simp [List.getElem?_map]

/-- **C408.** A common shift of all magnitudes and of the characteristic magnitude leaves all likelihoods as they are. -/
theorem C408 (c : Cfg) (cl : Cl) (l : Like) (gs : List Gal) (d : ℝ) : process c { cl with mstar := cl.mstar + d } (gs.map (shift d)) l = process c cl gs l := by
  have hl : ∀ g, lum { cl with mstar := cl.mstar + d } (shift d g) = lum cl g := by
    intro g
    unfold lum shift
    simp only
    rw [add_sub_add_right_eq_sub]
  have harr : around (gs.map (shift d)) = (around gs).map (shift d) := by
    unfold around
    rw [List.filter_map]
    rfl
  have hinc : ∀ cen, incut (shift d cen) (gs.map (shift d)) = (incut cen gs).map (shift d) := by
    intro cen
    unfold incut
    rw [List.filter_map]
    rfl
  have hconn : connect c { cl with mstar := cl.mstar + d } (gs.map (shift d)) = connect c cl gs := by
    unfold connect
    simp only
    rw [harr, List.isEmpty_map, List.map_map, List.map_map]
    have e1 : ((fun g => g.pmem * lum { cl with mstar := cl.mstar + d } g / Real.sqrt (g.r ^ 2 + c.rsoft ^ 2)) ∘ shift d) =
        fun g => g.pmem * lum cl g / Real.sqrt (g.r ^ 2 + c.rsoft ^ 2) := by
      funext g
      simp only [Function.comp]
      rw [hl]
      rfl
    have e2 : ((fun g => g.pmem * lum { cl with mstar := cl.mstar + d } g) ∘ shift d) = fun g => g.pmem * lum cl g := by
      funext g
      simp only [Function.comp]
      rw [hl]
      rfl
    rw [e1, e2]
  have hphi : ∀ cen, phiCen c { cl with mstar := cl.mstar + d } (shift d cen) = phiCen c cl cen := by
    intro cen
    unfold phiCen shift
    simp only
    congr 4
    ring
  have hb : ∀ cen, bcg c { cl with mstar := cl.mstar + d } (shift d cen) (gs.map (shift d)) = bcg c cl cen gs := by
    intro cen
    unfold bcg
    rw [hconn, hphi]
    rfl
  unfold process
  rw [nearest_shift]
  cases nearest gs with
  | none => rfl
  | some cen =>
    simp only [Option.map_some]
    rw [hinc, hb, List.length_map, List.map_map]
    rfl

end Redmapper.LikeCen
