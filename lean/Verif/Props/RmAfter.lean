/-
The fitter of the redMaGiC parameters: C351 (no trace of earlier fits), C352 (the training galaxies of the afterburner), C353 (a constant offset).
-/
import Verif.Model.RmAfter
import Verif.Props.SpecRed

set_option linter.unusedSectionVars false

namespace Redmapper.RmAfter

open Redmapper.Fitters (Minimizer Bound Script run MinOK)
open Redmapper.SpecRed (medFit medCost C195_fit)

/-! ## Specification -/

/-- A call raises: the afterburner without its training galaxies, or without both lists of parameters. -/
def Raises (S : Setup) (c : Call) : Prop := c.afterburner = true ∧ (S.abUse = none ∨ c.bias = none ∨ c.eratio = none)

/-- What galaxies look like in a fit: corrected redshift, its error, the sample, and the characteristic magnitude, from the raw values. -/
def Seen (S : Setup) (c : Call) (s : St) : Prop :=
  s.magic.length = S.gals.length ∧ s.magicE.length = S.gals.length ∧ s.magicSamp.length = S.gals.length ∧ s.mstar.length = S.gals.length ∧
  ∀ (i : Nat) (g : Gal), S.gals[i]? = some g →
    if c.afterburner then ∃ b e, c.bias = some b ∧ c.eratio = some e ∧ s.magic[i]? = some (g.z - S.spl S.corrnodes b g.z) ∧
        s.magicSamp[i]? = some (g.samp - S.spl S.corrnodes b g.z) ∧ s.magicE[i]? = some (g.zErr * S.spl S.corrnodes e g.z) ∧
        s.mstar[i]? = some (S.mstar (g.z - S.spl S.corrnodes b g.z))
    else s.magic[i]? = some g.z ∧ s.magicSamp[i]? = some g.samp ∧ s.magicE[i]? = some g.zErr ∧ s.mstar[i]? = some (S.mstar g.z)

/-- Columns of a state (all but the flag, which nothing reads). -/
def Same (s t : St) : Prop := s.magic = t.magic ∧ s.magicE = t.magicE ∧ s.magicSamp = t.magicSamp ∧ s.mstar = t.mstar

/-! ## C351 -/

theorem prepare_raises (S : Setup) (c : Call) (s : St) (h : Raises S c) :
    (prepare S c s).1 = some .runtimeError ∧ Same (prepare S c s).2 s := by
  obtain ⟨ha, h⟩ := h
  unfold prepare
  rw [ha]
  by_cases hu : S.abUse = none
  · rw [hu]; exact ⟨rfl, rfl, rfl, rfl, rfl⟩
  · have hu' : S.abUse.isNone = false := by cases hh : S.abUse with
      | none => exact absurd hh hu
      | some _ => rfl
    rw [hu']
    rcases h with h | h | h
    · exact absurd h hu
    · rw [h]; exact ⟨rfl, rfl, rfl, rfl, rfl⟩
    · rw [h]; cases c.bias <;> exact ⟨rfl, rfl, rfl, rfl, rfl⟩

theorem prepare_ok (S : Setup) (c : Call) (s : St) (h : ¬ Raises S c) : (prepare S c s).1 = none ∧ Seen S c (prepare S c s).2 := by
  unfold Raises at h
  unfold prepare
  cases ha : c.afterburner with
  | false =>
    simp only [Bool.and_false, Bool.false_eq_true, if_false]
    refine ⟨trivial, by simp, by simp, by simp, by simp, ?_⟩
    intro i g hg
    simp [ha, hg]
  | true =>
    simp only [ha, true_and, not_or] at h
    obtain ⟨hu, hb, he⟩ := h
    obtain ⟨u, hu⟩ := Option.ne_none_iff_exists'.mp hu
    obtain ⟨b, hb⟩ := Option.ne_none_iff_exists'.mp hb
    obtain ⟨e, he⟩ := Option.ne_none_iff_exists'.mp he
    rw [hu, hb, he]
    simp only [Option.isNone_some, Bool.false_and, Bool.false_eq_true, if_false, if_true]
    refine ⟨trivial, by simp, by simp, by simp, by simp, ?_⟩
    intro i g hg
    rw [ha, if_pos rfl]
    exact ⟨b, e, hb, he, by simp [hg], by simp [hg], by simp [hg], by simp [hg]⟩

theorem history_raises (S : Setup) : ∀ (cs : List Call) (s : St), (∀ c ∈ cs, Raises S c) → Same (history S cs s) s := by
  intro cs
  induction cs with
  | nil => intro s _; exact ⟨rfl, rfl, rfl, rfl⟩
  | cons c l ih =>
    intro s h
    have h1 := (prepare_raises S c s (h c (by simp))).2
    have h2 := ih (prepare S c s).2 fun d hd => h d (by simp [hd])
    exact ⟨h2.1.trans h1.1, h2.2.1.trans h1.2.1, h2.2.2.1.trans h1.2.2.1, h2.2.2.2.trans h1.2.2.2⟩

/-- **C351**: after any history of fits the fitter shows the galaxies as its last successful fit does, from the raw values: corrections do not add up, and
fits that raise leave no trace. -/
theorem C351_history (S : Setup) (before after : List Call) (c : Call) (s : St) (hc : ¬ Raises S c) (ha : ∀ d ∈ after, Raises S d) :
    Seen S c (history S (before ++ c :: after) s) := by
  unfold history
  rw [List.foldl_append, List.foldl_cons]
  set s0 := List.foldl (fun s c => (prepare S c s).2) s before
  have h1 := (prepare_ok S c s0 hc).2
  have h2 := history_raises S after (prepare S c s0).2 ha
  unfold history at h2
  obtain ⟨e1, e2, e3, e4⟩ := h2
  unfold Seen at h1 ⊢
  rw [e1, e2, e3, e4]
  exact h1

/-- **C351**, what the fit minimizes: a call either raises, or its cost is a function of the samples (as just described) of the galaxies counted. -/
theorem C351_fit (S : Setup) (fmin : (List ℝ → ℝ) → List ℝ → List ℝ) (f : List ℝ → List ℝ → ℝ) (c : Call) (s : St) :
    (Raises S c → (fit S fmin f c s).1 = .error .runtimeError ∧ Same (fit S fmin f c s).2 s) ∧
    (¬ Raises S c → Seen S c (fit S fmin f c s).2 ∧ ∀ t, (fit S fmin f c t).1 = (fit S fmin f c s).1 ∧ ∃ p, (fit S fmin f c t).1 = .ok p) := by
  constructor
  · intro h
    have := prepare_raises S c s h
    unfold fit
    generalize prepare S c s = r at this ⊢
    obtain ⟨r1, r2⟩ := r
    simp only at this
    rw [this.1]
    exact ⟨rfl, this.2⟩
  · intro h
    have key : ∀ t, Same (prepare S c t).2 (prepare S c s).2 := by
      intro t
      unfold Raises at h
      unfold prepare
      cases ha : c.afterburner with
      | false =>
        simp only [Bool.and_false, Bool.false_eq_true, if_false]
        exact ⟨rfl, rfl, rfl, rfl⟩
      | true =>
        simp only [ha, true_and, not_or] at h
        obtain ⟨hu, hb, he⟩ := h
        obtain ⟨u, hu⟩ := Option.ne_none_iff_exists'.mp hu
        obtain ⟨b, hb⟩ := Option.ne_none_iff_exists'.mp hb
        obtain ⟨e, he⟩ := Option.ne_none_iff_exists'.mp he
        rw [hu, hb, he]
        exact ⟨rfl, rfl, rfl, rfl⟩
    have val : ∀ t, fit S fmin f c t = (.ok (fmin (fun p => f p (((List.range S.gals.length).filter (counts S (prepare S c t).2 p)).map
        fun i => (prepare S c t).2.magicSamp.getD i 0)) c.p0), (prepare S c t).2) := by
      intro t
      have h1 := (prepare_ok S c t h).1
      unfold fit
      generalize prepare S c t = r at h1 ⊢
      obtain ⟨r1, r2⟩ := r
      simp only at h1
      rw [h1]
    refine ⟨by rw [val s]; exact (prepare_ok S c s h).2, fun t => ⟨?_, by rw [val t]; exact ⟨_, rfl⟩⟩⟩
    have hc : ∀ p, counts S (prepare S c t).2 p = counts S (prepare S c s).2 p := by
      intro p
      funext i
      unfold counts
      rw [(key t).1, (key t).2.2.2]
    rw [val t, val s]
    simp only [hc, (key t).2.2.1]

/-- A setup with one galaxy, and a call that does not raise. -/
noncomputable def toy (use : Option (List Nat)) : Setup := ⟨[0], [0], [⟨1 / 2, 1 / 10, 1, 2 / 5, 20, 1 / 2, 1⟩], use, 20, 0, fun _ p _ => p.headD 0, fun _ => 21⟩

example : ¬ Raises (toy (some [0])) ⟨[1], some [1 / 10], some [1], true⟩ ∧ Raises (toy none) ⟨[1], some [1 / 10], some [1], true⟩ := by
  constructor <;> simp [Raises, toy]

/-! ## C352 -/

/-- The galaxy counts: chi-squared below the limit at its raw redshift, bright enough and below the volume limit at its corrected redshift. -/
def Counted (S : Setup) (s : St) (cval : List ℝ) (i : Nat) (g : Gal) : Prop :=
  (g.chisq < 1 / 10 ∨ g.chisq < S.spl S.nodes cval g.z) ∧ g.chisq < S.maxchi ∧ g.refmag + S.lum < s.mstar.getD i 0 ∧ s.magic.getD i 0 < g.zmax

theorem lt_clip (x y m : ℝ) : x < min (max y (1 / 10)) m ↔ (x < 1 / 10 ∨ x < y) ∧ x < m := by
  rw [lt_min_iff, lt_max_iff, or_comm]

/-- **C352**, the cost function: it counts exactly these. -/
theorem C352_counts (S : Setup) (s : St) (cval : List ℝ) (i : Nat) :
    counts S s cval i = true ↔ ∃ g, S.gals[i]? = some g ∧ Counted S s cval i g := by
  unfold counts Counted
  cases S.gals[i]? with
  | none => simp
  | some g =>
    simp only [Bool.and_eq_true, decide_eq_true_eq, Option.some.injEq, exists_eq_left', lt_clip, lt_sub_iff_add_lt]
    tauto

open Classical in
theorem abGood_eq (S : Setup) (s : St) (cval : List ℝ) (use : List Nat) :
    abGood S s cval use = (use.filter (counts S s cval)).filterMap fun i => S.gals[i]? := by
  unfold abGood
  induction use with
  | nil => rfl
  | cons i l ih =>
    rw [List.filterMap_cons, List.filter_cons, ih]
    unfold counts
    cases hg : S.gals[i]? with
    | none => simp
    | some g =>
      simp only [Option.bind_some, Bool.and_eq_true, decide_eq_true_eq, and_assoc]
      by_cases h : g.chisq < min (max (S.spl S.nodes cval g.z) (1 / 10)) S.maxchi ∧ g.refmag < s.mstar.getD i 0 - S.lum ∧ s.magic.getD i 0 < g.zmax
      · rw [if_pos h, if_pos h, List.filterMap_cons, hg]
      · rw [if_neg h, if_neg h]

/-- The training galaxies that the cost function counts, at the same parameters. -/
noncomputable def trained (S : Setup) (s : St) (cval : List ℝ) (use : List Nat) : List Gal :=
  (use.filter (counts S s cval)).filterMap fun i => S.gals[i]?

/-- **C352**: the afterburner is fitted to exactly the training galaxies that the cost function counts at the same parameters. Bias within a tenth and ratio
within one half of one, at every node. The sum of absolute residuals of the redshifts is not larger than with the bias it starts from, and that of scaled
absolute residuals about the new bias is not larger than with the ratio it starts from. -/
theorem C352_afterburner (S : Setup) (M : Minimizer ℝ) (hM : MinOK M) (s : St) (cval pb pe : List ℝ) (use : List Nat) (hu : S.abUse = some use)
    (hb : ∀ x ∈ pb, -(1 / 10) ≤ x ∧ x ≤ 1 / 10) (he : ∀ x ∈ pe, 1 / 2 ≤ x ∧ x ≤ 3 / 2) :
    ∃ b e, fitBE S M s cval pb pe = .ok (b, e) ∧ b.length = pb.length ∧ e.length = pe.length ∧ (∀ x ∈ b, |x| ≤ 1 / 10) ∧ (∀ x ∈ e, |x - 1| ≤ 1 / 2) ∧
      ((trained S s cval use).map fun g => |(g.z - g.zcal) - S.spl S.corrnodes b g.z|).sum ≤
        ((trained S s cval use).map fun g => |(g.z - g.zcal) - S.spl S.corrnodes pb g.z|).sum ∧
      ((trained S s cval use).map fun g => |1.4826 * |(g.z - g.zcal) - S.spl S.corrnodes b g.z| / g.zErr - S.spl S.corrnodes e g.z|).sum ≤
        ((trained S s cval use).map fun g => |1.4826 * |(g.z - g.zcal) - S.spl S.corrnodes b g.z| / g.zErr - S.spl S.corrnodes pe g.z|).sum := by
  unfold fitBE
  rw [hu]
  simp only [abGood_eq]
  refine ⟨_, _, rfl, ?_⟩
  obtain ⟨l1, b1, c1⟩ := C195_fit M hM S.spl S.corrnodes ((trained S s cval use).map fun g => (g.z, g.z - g.zcal)) pb ⟨some (-(1 / 10)), some (1 / 10)⟩
    (fun x hx => ⟨fun l hl => (by cases hl; exact (hb x hx).1), fun l hl => (by cases hl; exact (hb x hx).2)⟩)
  set b := medFit M S.spl S.corrnodes ((trained S s cval use).map fun g => (g.z, g.z - g.zcal)) pb ⟨some (-(1 / 10)), some (1 / 10)⟩ with hbdef
  obtain ⟨l2, b2, c2⟩ := C195_fit M hM S.spl S.corrnodes ((trained S s cval use).map fun g => (g.z, 14826 / 10000 * |(g.z - g.zcal) - S.spl S.corrnodes b g.z| / g.zErr))
    pe ⟨some (1 / 2), some (3 / 2)⟩
    (fun x hx => ⟨fun l hl => (by cases hl; exact (he x hx).1), fun l hl => (by cases hl; exact (he x hx).2)⟩)
  unfold trained at *
  refine ⟨l1, l2, ?_, ?_, ?_, ?_⟩
  · intro x hx
    have := b1 x hx
    exact abs_le.mpr ⟨this.1 _ rfl, this.2 _ rfl⟩
  · intro x hx
    have := b2 x hx
    have h1 := this.1 _ rfl
    have h2 := this.2 _ rfl
    exact abs_le.mpr ⟨by linarith, by linarith⟩
  · unfold medCost at c1
    rw [List.map_map, List.map_map] at c1
    exact c1
  · unfold medCost at c2
    rw [List.map_map, List.map_map] at c2
    have : (1.4826 : ℝ) = 14826 / 10000 := by norm_num
    rw [this]
    exact c2

/-- **C352**, without training galaxies the call fails. -/
theorem C352_none (S : Setup) (M : Minimizer ℝ) (s : St) (cval pb pe : List ℝ) (hu : S.abUse = none) : fitBE S M s cval pb pe = .error .valueError := by
  unfold fitBE; rw [hu]

/-- The galaxy of the example is a training galaxy that counts. -/
example : trained (toy (some [0])) (init (toy (some [0])) [21]) [5] [0] = [⟨1 / 2, 1 / 10, 1, 2 / 5, 20, 1 / 2, 1⟩] := by
  have : counts (toy (some [0])) (init (toy (some [0])) [21]) [5] 0 = true := by
    rw [C352_counts]
    refine ⟨_, rfl, ?_⟩
    simp [Counted, toy, init]
    norm_num
  unfold trained
  rw [List.filter_cons, if_pos this, List.filter_nil]
  rfl

/-! ## C353 -/

theorem abs_sum_zero {β : Type} (l : List β) (f : β → ℝ) (h : (l.map fun x => |f x|).sum ≤ 0) : ∀ x ∈ l, f x = 0 := by
  induction l with
  | nil => intro x hx; cases hx
  | cons a l ih =>
    rw [List.map_cons, List.sum_cons] at h
    have h1 : 0 ≤ (l.map fun x => |f x|).sum := List.sum_nonneg (by intro y hy; obtain ⟨x, _, rfl⟩ := List.mem_map.mp hy; exact abs_nonneg _)
    have h2 := abs_nonneg (f a)
    intro x hx
    rcases List.mem_cons.mp hx with rfl | hx
    · exact abs_eq_zero.mp (le_antisymm (by linarith) h2)
    · exact ih (by linarith) x hx

/-- The galaxies are off by a constant. -/
def Offset (gals : List Gal) (d : ℝ) : Prop := ∀ g ∈ gals, g.z = g.zcal + d

/-- **C353**: if the redshifts of the training galaxies that count are all off by the same amount, at most a tenth, and the fit reaches the least sum of
absolute residuals within its bounds, then the next fit sees them at their calibration redshifts. (Splines through equal values are constant.) -/
theorem C353_partial (S : Setup) (M : Minimizer ℝ) (s : St) (cval pb pe : List ℝ) (use : List Nat) (hu : S.abUse = some use) (d : ℝ)
    (hs : ∀ c z, S.spl S.corrnodes (List.replicate S.corrnodes.length c) z = c) (hd : |d| ≤ 1 / 10)
    (ho : Offset (trained S s cval use) d) :
    ∃ b e, fitBE S M s cval pb pe = .ok (b, e) ∧
      ((∀ p : List ℝ, p.length = S.corrnodes.length → (∀ x ∈ p, |x| ≤ 1 / 10) →
        ((trained S s cval use).map fun g => |(g.z - g.zcal) - S.spl S.corrnodes b g.z|).sum ≤
          ((trained S s cval use).map fun g => |(g.z - g.zcal) - S.spl S.corrnodes p g.z|).sum) →
      ∀ (p0 : List ℝ) (t : St), ∀ i ∈ use, ∀ g, S.gals[i]? = some g → Counted S s cval i g →
        (prepare S ⟨p0, some b, some e, true⟩ t).2.magic[i]? = some g.zcal) := by
  have hok : ∃ r, fitBE S M s cval pb pe = .ok r := by unfold fitBE; rw [hu]; exact ⟨_, rfl⟩
  obtain ⟨⟨b, e⟩, h⟩ := hok
  refine ⟨b, e, h, ?_⟩
  intro hbest p0 t i hi g hg hc
  have hmem : g ∈ trained S s cval use :=
    List.mem_filterMap.mpr ⟨i, List.mem_filter.mpr ⟨hi, (C352_counts S s cval i).mpr ⟨g, hg, hc⟩⟩, hg⟩
  have h0 := hbest (List.replicate S.corrnodes.length d) (by simp) (fun x hx => by rw [List.eq_of_mem_replicate hx]; exact hd)
  have hz : ((trained S s cval use).map fun g => |(g.z - g.zcal) - S.spl S.corrnodes (List.replicate S.corrnodes.length d) g.z|).sum = 0 := by
    apply List.sum_eq_zero
    intro y hy
    obtain ⟨g', hg', rfl⟩ := List.mem_map.mp hy
    rw [hs, ho g' hg']
    simp
  rw [hz] at h0
  have h1 := abs_sum_zero _ (fun g : Gal => (g.z - g.zcal) - S.spl S.corrnodes b g.z) h0 g hmem
  have hr : ¬ Raises S ⟨p0, some b, some e, true⟩ := by rintro ⟨_, h | h | h⟩ <;> simp_all
  have h2 := (prepare_ok S ⟨p0, some b, some e, true⟩ t hr).2.2.2.2.2 i g hg
  rw [if_pos rfl] at h2
  obtain ⟨b', e', hb', _, hm, _⟩ := h2
  have : b = b' := Option.some.inj hb'
  subst this
  rw [hm]
  congr 1
  linarith

/-- **C353**, the correction stays: whatever the minimizer does within its contract, a constant bias that was right is right again in the next round. -/
theorem C353_stays (S : Setup) (M : Minimizer ℝ) (hM : MinOK M) (s : St) (cval pe : List ℝ) (use : List Nat) (hu : S.abUse = some use) (d : ℝ)
    (hs : ∀ c z, S.spl S.corrnodes (List.replicate S.corrnodes.length c) z = c) (hd : |d| ≤ 1 / 10) (he : ∀ x ∈ pe, 1 / 2 ≤ x ∧ x ≤ 3 / 2)
    (ho : Offset (trained S s cval use) d) :
    ∃ b e, fitBE S M s cval (List.replicate S.corrnodes.length d) pe = .ok (b, e) ∧ ∀ g ∈ trained S s cval use, g.z - S.spl S.corrnodes b g.z = g.zcal := by
  obtain ⟨b, e, h, _, _, _, _, hc, _⟩ := C352_afterburner S M hM s cval (List.replicate S.corrnodes.length d) pe use hu
    (fun x hx => by rw [List.eq_of_mem_replicate hx]; exact abs_le.mp hd) he
  refine ⟨b, e, h, ?_⟩
  have hz : ((trained S s cval use).map fun g => |(g.z - g.zcal) - S.spl S.corrnodes (List.replicate S.corrnodes.length d) g.z|).sum = 0 := by
    apply List.sum_eq_zero
    intro y hy
    obtain ⟨g', hg', rfl⟩ := List.mem_map.mp hy
    rw [hs, ho g' hg']
    simp
  rw [hz] at hc
  intro g hg
  have := abs_sum_zero _ (fun g : Gal => (g.z - g.zcal) - S.spl S.corrnodes b g.z) hc g hg
  linarith

/-- **C353** is false of larger offsets: at a node of the correction nothing above a tenth is removed, whatever the minimizer does. -/
theorem C353_false (S : Setup) (M : Minimizer ℝ) (hM : MinOK M) (s t : St) (cval pb pe p0 : List ℝ) (use : List Nat) (hu : S.abUse = some use)
    (hs : ∀ (p : List ℝ) (k : Nat) (x v : ℝ), S.corrnodes[k]? = some x → p[k]? = some v → S.spl S.corrnodes p x = v)
    (hb : ∀ x ∈ pb, -(1 / 10) ≤ x ∧ x ≤ 1 / 10) (hl : pb.length = S.corrnodes.length) (he : ∀ x ∈ pe, 1 / 2 ≤ x ∧ x ≤ 3 / 2)
    (i : Nat) (g : Gal) (hg : S.gals[i]? = some g) (hz : g.z ∈ S.corrnodes) (hd : 1 / 10 < |g.z - g.zcal|) :
    ∃ b e, fitBE S M s cval pb pe = .ok (b, e) ∧ (prepare S ⟨p0, some b, some e, true⟩ t).2.magic[i]? ≠ some g.zcal := by
  obtain ⟨b, e, h, hlen, _, hbb, _⟩ := C352_afterburner S M hM s cval pb pe use hu hb he
  refine ⟨b, e, h, ?_⟩
  have hr : ¬ Raises S ⟨p0, some b, some e, true⟩ := by rintro ⟨_, h | h | h⟩ <;> simp_all
  have h2 := (prepare_ok S ⟨p0, some b, some e, true⟩ t hr).2.2.2.2.2 i g hg
  rw [if_pos rfl] at h2
  obtain ⟨b', e', hb', _, hm, _⟩ := h2
  have : b = b' := Option.some.inj hb'
  subst this
  rw [hm]
  intro hh
  have hh := Option.some.inj hh
  obtain ⟨k, hk, hk'⟩ := List.getElem_of_mem hz
  have hkb : k < b.length := by rw [hlen, hl]; exact hk
  have hv := hs b k g.z b[k] (by rw [List.getElem?_eq_getElem hk, hk']) (List.getElem?_eq_getElem hkb)
  rw [hv] at hh
  have h3 := hbb _ (List.getElem_mem hkb)
  have : g.z - g.zcal = b[k] := by linarith
  rw [this] at hd
  linarith

/-- The galaxy of the example is off by a tenth, and the spline of the example is constant. -/
example : Offset (toy (some [0])).gals (1 / 10) ∧ ∀ c z, (toy (some [0])).spl (toy (some [0])).corrnodes (List.replicate (toy (some [0])).corrnodes.length c) z = c := by
  constructor
  · intro g hg
    simp [toy] at hg
    subst hg
    norm_num
  · intro c z; simp [toy]

end Redmapper.RmAfter
