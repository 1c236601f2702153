/-
Properties of the selection of red galaxies with spectra and of its fitters (C192-C198). The model is Model/SpecRed.lean.
-/
import Mathlib.Tactic.Linarith
import Mathlib.Tactic.FieldSimp
import Mathlib.Tactic.Positivity
import Mathlib.Tactic.NormNum
import Mathlib.Tactic.Ring
import Mathlib.Order.Interval.Finset.Nat
import Verif.Model.SpecRed
import Verif.Props.Fitters
import Verif.Props.SpecPrep
import Verif.Props.Zlambda

set_option linter.unusedSectionVars false

namespace Redmapper.SpecRed

open Redmapper.Fitters (Script Bound Minimizer run runPure MinOK InBounds Ends run_ends run_pure)
open Redmapper.Finders (takeRows Argsort takeRows_perm)
open Redmapper.Centering (whereIdx mem_whereIdx)
open Redmapper.Mask (median)
open Redmapper.SpecPrep (MatchOK)
open Redmapper.Zlambda (takeRows_whereIdx whereIdx_length)

/-! ## C192: the training galaxies -/

/-- **C192**: every training galaxy is the galaxy closest to a spectrum with a good redshift, has this redshift, and is within the redshift
range and the magnitude limit; and every such spectrum gives one. -/
theorem C192_training {π : Type} {near : π → π → Prop} {closer : π → π → π → Prop} {matcher : List π → List π → List (Nat × Nat)}
    (hM : MatchOK near closer matcher) (maxErr limmag : ℝ) (zr : ℝ × ℝ) (gals : List (Gal π)) (spec : List (Spec π)) :
    (∀ t ∈ training matcher maxErr limmag zr gals spec, t.gal ∈ gals ∧
      (∃ s ∈ spec, s.zErr < maxErr ∧ near s.pos t.gal.pos ∧ (∀ g' ∈ gals, ¬ closer s.pos g'.pos t.gal.pos) ∧ t.z = s.z) ∧
      zr.1 < t.z ∧ t.z < zr.2 ∧ t.gal.refmag < limmag) ∧
    (∀ s ∈ spec, s.zErr < maxErr → zr.1 < s.z → s.z < zr.2 → (∃ g ∈ gals, near s.pos g.pos) →
      ∃ g ∈ gals, near s.pos g.pos ∧ (∀ g' ∈ gals, ¬ closer s.pos g'.pos g.pos) ∧
        (g.refmag < limmag → (⟨g, s.z⟩ : Train π) ∈ training matcher maxErr limmag zr gals spec)) := by
  unfold training
  simp only
  set sp := spec.filter fun s => decide (s.zErr < maxErr) with hsp
  have hmem : ∀ s, s ∈ sp ↔ s ∈ spec ∧ s.zErr < maxErr := by intro s; simp [hsp]
  have hpair : ∀ p ∈ matcher (sp.map Spec.pos) (gals.map Gal.pos), ∃ s g, sp[p.1]? = some s ∧ gals[p.2]? = some g ∧ near s.pos g.pos ∧
      ∀ g' ∈ gals, ¬ closer s.pos g'.pos g.pos := by
    intro p hp
    obtain ⟨x, y, hx, hy, hn, hc⟩ := hM.pair _ _ p hp
    rw [List.getElem?_map, Option.map_eq_some_iff] at hx hy
    obtain ⟨s, hs, rfl⟩ := hx
    obtain ⟨g, hg, rfl⟩ := hy
    exact ⟨s, g, hs, hg, hn, fun g' hg' => hc _ (List.mem_map.mpr ⟨g', hg', rfl⟩)⟩
  constructor
  · intro t ht
    obtain ⟨ht, hcut⟩ := List.mem_filter.mp ht
    obtain ⟨p, hp, e⟩ := List.mem_filterMap.mp ht
    obtain ⟨s, g, hs, hg, hn, hc⟩ := hpair p hp
    rw [hg, hs] at e
    simp only [Option.bind_some, Option.map_some, Option.some.injEq] at e
    subst e
    simp only [Bool.and_eq_true, decide_eq_true_eq] at hcut
    obtain ⟨h1, h2⟩ := (hmem s).mp (List.mem_of_getElem? hs)
    exact ⟨List.mem_of_getElem? hg, ⟨s, h1, h2, hn, hc, rfl⟩, hcut.1.1, hcut.1.2, hcut.2⟩
  · rintro s hs he hz1 hz2 ⟨g, hg, hn⟩
    obtain ⟨i, hi⟩ := List.getElem?_of_mem ((hmem s).mpr ⟨hs, he⟩)
    obtain ⟨p, hp, hpi⟩ := hM.all (sp.map Spec.pos) (gals.map Gal.pos) i s.pos g.pos (by rw [List.getElem?_map, hi]; rfl)
      (List.mem_map.mpr ⟨g, hg, rfl⟩) hn
    obtain ⟨s', g', hs', hg', hn', hc'⟩ := hpair p hp
    rw [hpi, hi] at hs'
    cases hs'
    refine ⟨g', List.mem_of_getElem? hg', hn', hc', fun hr => List.mem_filter.mpr ⟨List.mem_filterMap.mpr ⟨p, hp, ?_⟩, ?_⟩⟩
    · rw [hg', hpi, hi]; rfl
    · simp only [Bool.and_eq_true, decide_eq_true_eq]; exact ⟨⟨hz1, hz2⟩, hr⟩

/-- **C192**, the range: that of the configuration with the cushion on both sides, but not below 0.05. -/
theorem C192_range {π : Type} (matcher : List π → List π → List (Nat × Nat)) (maxErr limmag cushion : ℝ) (zr : ℝ × ℝ) (gals : List (Gal π))
    (spec : List (Spec π)) (t : Train π) :
    t ∈ training matcher maxErr limmag (cushioned zr cushion) gals spec ↔
      t ∈ training matcher maxErr limmag (zr.1 - cushion, zr.2 + cushion) gals spec ∧ 1 / 20 < t.z := by
  unfold training cushioned
  simp only [List.mem_filter, Bool.and_eq_true, decide_eq_true_eq, gt_iff_lt]
  by_cases h : zr.1 - cushion < 1 / 20
  · rw [if_pos h]
    constructor
    · rintro ⟨a, ⟨b, c⟩, d⟩; exact ⟨⟨a, ⟨by linarith, c⟩, d⟩, b⟩
    · rintro ⟨⟨a, ⟨_, c⟩, d⟩, b⟩; exact ⟨a, ⟨b, c⟩, d⟩
  · rw [if_neg h]
    constructor
    · rintro ⟨a, ⟨b, c⟩, d⟩; exact ⟨⟨a, ⟨b, c⟩, d⟩, by linarith⟩
    · rintro ⟨a, _⟩; exact a

/-- A case: positions are numbers, the matcher of one spectrum and one galaxy at the same position. -/
example : (⟨⟨3, 19, fun _ => 1, fun _ => 1, fun _ => 1, 7⟩, 1 / 2⟩ : Train ℕ) ∈
    training (fun a b => if a = b then [(0, 0)] else []) 1 20 (1 / 10, 9 / 10) [⟨3, 19, fun _ => 1, fun _ => 1, fun _ => 1, 7⟩] [⟨3, 1 / 2, 1 / 10⟩] := by
  simp [training, List.filter_cons]
  norm_num

/-! ## C193: trimming -/

theorem getD_lt (l : List ℝ) (i : Nat) (h : i < l.length) : l.getD i 0 = l[i] := by simp [h]

theorem sorted_strict (s : List ℝ) (h : s.Pairwise (· ≤ ·)) (hn : s.Nodup) : s.Pairwise (· < ·) := by
  unfold List.Nodup at hn
  exact (h.and hn).imp fun h => lt_of_le_of_ne h.1 h.2

theorem countP_sorted (s : List ℝ) (h : s.Pairwise (· < ·)) (k : Nat) (hk : k < s.length) : s.countP (fun y => decide (y < s[k])) = k := by
  have hget := List.pairwise_iff_getElem.mp h
  have e1 : (s.take k).countP (fun y => decide (y < s[k])) = k := by
    have : (s.take k).countP (fun y => decide (y < s[k])) = (s.take k).length := by
      rw [List.countP_eq_length]
      intro x hx
      obtain ⟨i, hi, rfl⟩ := List.getElem_of_mem hx
      simp only [List.length_take] at hi
      simp only [List.getElem_take, decide_eq_true_eq]
      exact hget i k (by omega) hk (by omega)
    rw [this, List.length_take]; omega
  have e2 : (s.drop k).countP (fun y => decide (y < s[k])) = 0 := by
    rw [List.countP_eq_zero]
    intro x hx
    obtain ⟨i, hi, rfl⟩ := List.getElem_of_mem hx
    simp only [List.length_drop] at hi
    simp only [List.getElem_drop, decide_eq_true_eq, not_lt]
    rcases Nat.eq_zero_or_pos i with h0 | h0
    · subst h0; simp
    · exact (hget k (k + i) hk (by omega) (by omega)).le
  have hs : ∀ f : ℝ → Bool, s.countP f = (s.take k).countP f + (s.drop k).countP f := by
    intro f; rw [← List.countP_append, List.take_append_drop]
  rw [hs, e1, e2, Nat.add_zero]

theorem range_between (a b n : Nat) (hb : b ≤ n) : ((List.range n).countP fun k => decide (a < k) && decide (k < b)) = b - a - 1 := by
  rw [List.countP_eq_length_filter, ← List.toFinset_card_of_nodup (List.nodup_range.filter _)]
  have : ((List.range n).filter fun k => decide (a < k) && decide (k < b)).toFinset = Finset.Ioo a b := by
    ext x; simp; omega
  rw [this, Nat.card_Ioo]

/-- The rank of a value: how many are smaller. -/
noncomputable def rank (d : List ℝ) (x : ℝ) : Nat := d.countP fun y => decide (y < x)

/-- **C193** (partial): for differences that are all distinct, exactly those whose rank is above 5% and below 99% are used for the mixture,
so all but a bounded number. Missing: equal differences (`C193_false`). -/
theorem C193_trim_partial (argsort : List ℝ → List Nat) (hA : Argsort argsort) (d : List ℝ) (hd : d.Nodup) (hne : d ≠ []) :
    ∃ u, trim argsort d = .ok u ∧
      (∀ i, i ∈ u ↔ ∃ x, d[i]? = some x ∧ d.length * 5 / 100 < rank d x ∧ rank d x < d.length * 99 / 100) ∧
      u.length = d.length * 99 / 100 - d.length * 5 / 100 - 1 := by
  have hpos := List.length_pos_of_ne_nil hne
  obtain ⟨hp, hsort⟩ := hA d
  have hi : ∀ i ∈ argsort d, i < d.length := fun i h => List.mem_range.mp (hp.mem_iff.mp h)
  have hperm := takeRows_perm d _ hp
  have hget : ∀ k : Nat, ((argsort d)[k]?).bind (fun i => d[i]?) = (takeRows d (argsort d))[k]? := by
    intro k; rw [Centering.takeRows_getElem? d _ hi]
  set s := takeRows d (argsort d) with hs
  have hlen : s.length = d.length := hperm.length_eq
  have hstrict := sorted_strict s hsort (hperm.nodup_iff.mpr hd)
  have ha : d.length * 5 / 100 < s.length := by omega
  have hb : d.length * 99 / 100 < s.length := by omega
  have hcmp : ∀ i j (hi : i < s.length) (hj : j < s.length), s[i] < s[j] ↔ i < j := by
    intro i j hi hj
    have hg := List.pairwise_iff_getElem.mp hstrict
    constructor
    · intro h
      by_contra hn
      rcases Nat.lt_or_ge j i with h2 | h2
      · exact absurd (hg j i hj hi h2) (not_lt.mpr h.le)
      · have : i = j := by omega
        subst this; exact lt_irrefl _ h
    · exact hg i j hi hj
  have hrank : ∀ k (hk : k < s.length), rank d s[k] = k := by
    intro k hk
    unfold rank
    rw [← hperm.countP_eq]
    exact countP_sorted s hstrict k hk
  have hcond : ∀ x ∈ d, (decide (x > s[d.length * 5 / 100]) && decide (x < s[d.length * 99 / 100])) = true ↔
      d.length * 5 / 100 < rank d x ∧ rank d x < d.length * 99 / 100 := by
    intro x hx
    obtain ⟨k, hk, rfl⟩ := List.getElem_of_mem (hperm.mem_iff.mpr hx)
    rw [hrank k hk]
    simp only [Bool.and_eq_true, decide_eq_true_eq, gt_iff_lt]
    rw [hcmp _ _ ha hk, hcmp _ _ hk hb]
  refine ⟨whereIdx (fun x => decide (x > s[d.length * 5 / 100]) && decide (x < s[d.length * 99 / 100])) d, ?_, ?_, ?_⟩
  · unfold trim
    simp only [hget, List.getElem?_eq_getElem ha, List.getElem?_eq_getElem hb]
  · intro i
    rw [mem_whereIdx]
    constructor
    · rintro ⟨x, hx, hc⟩
      exact ⟨x, hx, (hcond x (List.mem_of_getElem? hx)).mp hc⟩
    · rintro ⟨x, hx, hc⟩
      exact ⟨x, hx, (hcond x (List.mem_of_getElem? hx)).mpr hc⟩
  · rw [whereIdx_length, ← hperm.countP_eq]
    rw [← range_between (d.length * 5 / 100) (d.length * 99 / 100) s.length hb.le]
    have e : s = (List.range s.length).map fun k => s.getD k 0 := by
      apply List.ext_getElem
      · simp
      · intro n h1 h2
        simp [h1]
    refine (congrArg (List.countP _) e).trans ?_
    rw [List.countP_map]
    apply List.countP_congr
    intro k hk
    have hk := List.mem_range.mp hk
    simp only [Function.comp, getD_lt _ _ hk, Bool.and_eq_true, decide_eq_true_eq, gt_iff_lt]
    rw [hcmp _ _ ha hk, hcmp _ _ hk hb]

/-- **C193** fails for equal differences: nothing is left, however many galaxies there are. -/
theorem C193_false (argsort : List ℝ → List Nat) (hA : Argsort argsort) (n : Nat) (hn : 0 < n) (c : ℝ) :
    trim argsort (List.replicate n c) = .ok [] := by
  obtain ⟨hp, -⟩ := hA (List.replicate n c)
  have hget : ∀ k : Nat, k < n → ((argsort (List.replicate n c))[k]?).bind (fun i => (List.replicate n c)[i]?) = some c := by
    intro k hk
    have hl : (argsort (List.replicate n c)).length = n := by rw [hp.length_eq]; simp
    rw [List.getElem?_eq_getElem (by rw [hl]; exact hk)]
    have : (argsort (List.replicate n c))[k] < n := by
      have := hp.mem_iff.mp (List.getElem_mem (show k < (argsort (List.replicate n c)).length by rw [hl]; exact hk))
      simpa using this
    simp [this]
  unfold trim
  simp only [List.length_replicate]
  rw [hget (n * 5 / 100) (by omega), hget (n * 99 / 100) (by omega)]
  simp only
  congr 1
  rw [List.eq_nil_iff_forall_not_mem]
  intro i hi
  obtain ⟨x, hx, hc⟩ := (mem_whereIdx _ _ _).mp hi
  have : x = c := List.eq_of_mem_replicate (List.mem_of_getElem? hx)
  subst this
  simp at hc

/-! ## C194: colors are fitted independently -/

theorem fitAll_get {π : Type} (E : Env) (nodes : List ℝ) (gals : List (Train π)) (modes : List Nat) (tab0 tab : Nat → Fit)
    (h : fitAll E nodes gals modes tab0 = .ok tab) (j : Nat) :
    (j ∈ modes → fitColor E nodes (gals.map (rowOf j)) j = .ok (tab j)) ∧ (j ∉ modes → tab j = tab0 j) := by
  induction modes generalizing tab0 with
  | nil => simp only [fitAll, Except.ok.injEq] at h; subst h; simp
  | cons k ks ih =>
    simp only [fitAll] at h
    cases hk : fitColor E nodes (gals.map (rowOf k)) k with
    | error e => rw [hk] at h; simp [Except.bind] at h
    | ok f =>
      rw [hk] at h
      obtain ⟨i1, i2⟩ := ih _ h
      refine ⟨fun hj => ?_, fun hj => ?_⟩
      · by_cases hks : j ∈ ks
        · exact i1 hks
        · have : j = k := by simpa [hks] using hj
          subst this
          rw [i2 hks, hk, Function.update_self]
      · have hks : j ∉ ks := fun h => hj (by simp [h])
        rw [i2 hks, Function.update_of_ne (fun e => hj (by simp [e]))]

/-- **C194**: what is saved for a color depends on the data of this color only: not on the other colors, nor on which other colors are
calibrated, nor in which order or how often; and colors that are not calibrated stay zero. -/
theorem C194_independent {π : Type} (E : Env) (nodes : List ℝ) (gals gals' : List (Train π)) (modes modes' : List Nat) (tab tab' : Nat → Fit)
    (h : fitAll E nodes gals modes (zeros nodes) = .ok tab) (h' : fitAll E nodes gals' modes' (zeros nodes) = .ok tab') :
    (∀ j, j ∈ modes → j ∈ modes' →
      (gals.map fun t => (t.z, t.gal.col j, t.gal.colErr j, t.gal.magErr j, t.gal.magErr (j + 1))) =
      (gals'.map fun t => (t.z, t.gal.col j, t.gal.colErr j, t.gal.magErr j, t.gal.magErr (j + 1))) → tab j = tab' j) ∧
    (∀ j, j ∉ modes → ∀ x ∈ (tab j).medcol ++ (tab j).medwidth ++ (tab j).mean ++ (tab j).scatter, x = 0) := by
  refine ⟨fun j hj hj' e => ?_, fun j hj x hx => ?_⟩
  · have e1 := (fitAll_get E nodes gals modes _ tab h j).1 hj
    have e2 := (fitAll_get E nodes gals' modes' _ tab' h' j).1 hj'
    have er : gals.map (rowOf j) = gals'.map (rowOf j) := by
      have := congrArg (List.map fun x : ℝ × ℝ × ℝ × ℝ × ℝ => (⟨x.1, x.2.1, x.2.2.1, x.2.2.2.1, x.2.2.2.2⟩ : Row)) e
      rw [List.map_map, List.map_map] at this
      exact this
    rw [er, e2] at e1
    exact (Except.ok.inj e1).symm
  · rw [(fitAll_get E nodes gals modes _ tab h j).2 hj] at hx
    simp only [zeros, List.mem_append, List.mem_map] at hx
    rcases hx with ((⟨_, _, h⟩ | ⟨_, _, h⟩) | ⟨_, _, h⟩) | ⟨_, _, h⟩ <;> exact h.symm

/-! ## C195: medians -/

/-- Neither more than half of the values are below, nor more than half above. -/
def IsMedian (l : List ℝ) (m : ℝ) : Prop :=
  2 * l.countP (fun v => decide (v < m)) ≤ l.length ∧ 2 * l.countP (fun v => decide (m < v)) ≤ l.length

noncomputable def dev (l : List ℝ) (m : ℝ) : ℝ := (l.map fun v => |v - m|).sum

/-- Moving from `m` up to `q`: each value not above `m` costs the distance, the others gain at most that. -/
theorem dev_up (l : List ℝ) (m q : ℝ) (h : m ≤ q) :
    dev l m + (q - m) * ((l.length : ℝ) - 2 * (l.countP fun v => decide (m < v))) ≤ dev l q := by
  induction l with
  | nil => simp [dev]
  | cons v l ih =>
    simp only [dev, List.map_cons, List.sum_cons, List.length_cons, List.countP_cons, Nat.cast_add, Nat.cast_one] at ih ⊢
    by_cases hv : m < v
    · have : |v - m| ≤ |v - q| + (q - m) := by
        have := abs_sub_le v q m
        rwa [abs_of_nonneg (sub_nonneg.mpr h)] at this
      simp only [hv, decide_true, if_true, Nat.cast_one]
      nlinarith
    · have h1 : |v - m| = m - v := by rw [abs_of_nonpos (by linarith [not_lt.mp hv])]; ring
      have h2 : |v - q| = q - v := by rw [abs_of_nonpos (by linarith [not_lt.mp hv])]; ring
      simp only [hv, decide_false, Bool.false_eq_true, if_false, Nat.cast_zero]
      rw [h1, h2]
      nlinarith

theorem dev_neg (l : List ℝ) (m : ℝ) : dev (l.map Neg.neg) (-m) = dev l m := by
  unfold dev
  rw [List.map_map]
  congr 1
  apply List.map_congr_left
  intro v _
  simp only [Function.comp]
  rw [← abs_neg]; congr 1; ring

theorem isMedian_neg (l : List ℝ) (m : ℝ) : IsMedian (l.map Neg.neg) (-m) ↔ IsMedian l m := by
  unfold IsMedian
  simp only [List.countP_map, List.length_map, Function.comp_def, neg_lt_neg_iff]
  exact And.comm

theorem dev_down (l : List ℝ) (m q : ℝ) (h : q ≤ m) :
    dev l m + (m - q) * ((l.length : ℝ) - 2 * (l.countP fun v => decide (v < m))) ≤ dev l q := by
  have := dev_up (l.map Neg.neg) (-m) (-q) (by linarith)
  rw [dev_neg, dev_neg, List.countP_map, List.length_map] at this
  simp only [Function.comp_def, neg_lt_neg_iff] at this
  linarith

theorem dev_median (l : List ℝ) (m : ℝ) (h : IsMedian l m) (q : ℝ) : dev l m ≤ dev l q := by
  rcases le_total m q with hq | hq
  · have := dev_up l m q hq
    have h2 : (2 : ℝ) * (l.countP fun v => decide (m < v) : Nat) ≤ l.length := by exact_mod_cast h.2
    have : 0 ≤ (q - m) * ((l.length : ℝ) - 2 * (l.countP fun v => decide (m < v))) := mul_nonneg (by linarith) (by linarith)
    linarith
  · have := dev_down l m q hq
    have h2 : (2 : ℝ) * (l.countP fun v => decide (v < m) : Nat) ≤ l.length := by exact_mod_cast h.1
    have : 0 ≤ (m - q) * ((l.length : ℝ) - 2 * (l.countP fun v => decide (v < m))) := mul_nonneg (by linarith) (by linarith)
    linarith

/-- Up to a point with no value in between, the cost is linear. -/
theorem dev_step (l : List ℝ) (m q : ℝ) (h : m ≤ q) (hno : ∀ v ∈ l, m < v → q ≤ v) :
    dev l q = dev l m + (q - m) * ((l.length : ℝ) - 2 * (l.countP fun v => decide (m < v))) := by
  induction l with
  | nil => simp [dev]
  | cons v l ih =>
    have ih := ih fun v hv => hno v (by simp [hv])
    simp only [dev, List.map_cons, List.sum_cons, List.length_cons, List.countP_cons, Nat.cast_add, Nat.cast_one] at ih ⊢
    by_cases hv : m < v
    · have hq := hno v (by simp) hv
      simp only [hv, decide_true, if_true, Nat.cast_one]
      rw [abs_of_nonneg (by linarith), abs_of_nonneg (by linarith), ih]; ring
    · have h2 := not_lt.mp hv
      simp only [hv, decide_false, Bool.false_eq_true, if_false, Nat.cast_zero]
      rw [abs_of_nonpos (by linarith), abs_of_nonpos (by linarith), ih]; ring

theorem exists_next (l : List ℝ) (m : ℝ) (h : ∃ v ∈ l, m < v) : ∃ q, m < q ∧ ∀ v ∈ l, m < v → q ≤ v := by
  induction l with
  | nil => obtain ⟨v, hv, -⟩ := h; cases hv
  | cons w l ih =>
    by_cases hl : ∃ v ∈ l, m < v
    · obtain ⟨q, hq, hall⟩ := ih hl
      by_cases hw : m < w
      · refine ⟨min q w, lt_min hq hw, fun v hv hmv => ?_⟩
        rcases List.mem_cons.mp hv with rfl | hv
        · exact min_le_right _ _
        · exact (min_le_left _ _).trans (hall v hv hmv)
      · refine ⟨q, hq, fun v hv hmv => ?_⟩
        rcases List.mem_cons.mp hv with rfl | hv
        · exact absurd hmv hw
        · exact hall v hv hmv
    · obtain ⟨v, hv, hmv⟩ := h
      rcases List.mem_cons.mp hv with rfl | hv
      · refine ⟨v, hmv, fun u hu hmu => ?_⟩
        rcases List.mem_cons.mp hu with rfl | hu
        · exact le_refl _
        · exact absurd ⟨u, hu, hmu⟩ hl
      · exact absurd ⟨v, hv, hmv⟩ hl

theorem upper_of_min (l : List ℝ) (m : ℝ) (h : ∀ q, dev l m ≤ dev l q) : 2 * l.countP (fun v => decide (m < v)) ≤ l.length := by
  by_contra hn
  have hn : l.length < 2 * l.countP (fun v => decide (m < v)) := not_le.mp hn
  have hpos : 0 < l.countP (fun v => decide (m < v)) := by omega
  obtain ⟨v, hv, hmv⟩ := List.countP_pos_iff.mp hpos
  obtain ⟨q, hq, hall⟩ := exists_next l m ⟨v, hv, by simpa using hmv⟩
  have hs := dev_step l m q hq.le hall
  have hm := h q
  have h2 : ((l.length : ℝ)) < 2 * (l.countP fun v => decide (m < v) : Nat) := by exact_mod_cast hn
  have : (q - m) * ((l.length : ℝ) - 2 * (l.countP fun v => decide (m < v))) < 0 := mul_neg_of_pos_of_neg (by linarith) (by linarith)
  linarith

/-- The sum of absolute deviations is smallest exactly at medians. -/
theorem dev_min_iff (l : List ℝ) (m : ℝ) : (∀ q, dev l m ≤ dev l q) ↔ IsMedian l m := by
  refine ⟨fun h => ⟨?_, upper_of_min l m h⟩, dev_median l m⟩
  have := upper_of_min (l.map Neg.neg) (-m) (fun q => by
    have := h (-q)
    rw [← dev_neg l m, ← dev_neg l (-q), neg_neg] at this
    exact this)
  rw [List.countP_map, List.length_map] at this
  simpa [Function.comp_def, neg_lt_neg_iff] using this

/-- Values at node `k`. -/
def at_ (data : List (Nat × ℝ)) (k : Nat) : List ℝ := (data.filter fun d => d.1 == k).map Prod.snd

theorem cost_split (p : Nat → ℝ) (n : Nat) (data : List (Nat × ℝ)) (hk : ∀ d ∈ data, d.1 < n) :
    (data.map fun d => |d.2 - p d.1|).sum = ∑ k ∈ Finset.range n, dev (at_ data k) (p k) := by
  induction data with
  | nil => simp [dev, at_]
  | cons d l ih =>
    rw [List.map_cons, List.sum_cons, ih (fun x hx => hk x (by simp [hx]))]
    have hd := hk d (by simp)
    have : ∀ k, dev (at_ (d :: l) k) (p k) = (if d.1 = k then |d.2 - p d.1| else 0) + dev (at_ l k) (p k) := by
      intro k
      unfold at_ dev
      by_cases h : d.1 = k
      · rw [List.filter_cons_of_pos (by simpa using h), if_pos h]
        subst h
        simp
      · rw [List.filter_cons_of_neg (by simpa using h), if_neg h, zero_add]
    simp only [this]
    rw [Finset.sum_add_distrib, Finset.sum_ite_eq, if_pos (Finset.mem_range.mpr hd)]

/-- The spline goes through its nodes. -/
def Interpolates (spl : List ℝ → List ℝ → ℝ → ℝ) (nodes : List ℝ) : Prop :=
  ∀ p : List ℝ, p.length = nodes.length → ∀ k, k < nodes.length → spl nodes p (nodes.getD k 0) = p.getD k 0

/-- **C195**, what the fit looks for: for galaxies at the nodes, the cost is smallest exactly if each node has a median of its values. -/
theorem C195_median (spl : List ℝ → List ℝ → ℝ → ℝ) (nodes : List ℝ) (hs : Interpolates spl nodes) (data : List (Nat × ℝ))
    (hk : ∀ d ∈ data, d.1 < nodes.length) (p : List ℝ) (hp : p.length = nodes.length) :
    (∀ q : List ℝ, q.length = nodes.length →
      medCost spl nodes (data.map fun d => (nodes.getD d.1 0, d.2)) p ≤ medCost spl nodes (data.map fun d => (nodes.getD d.1 0, d.2)) q) ↔
    ∀ k, k < nodes.length → IsMedian ((data.filter fun d => d.1 == k).map Prod.snd) (p.getD k 0) := by
  have hcost : ∀ q : List ℝ, q.length = nodes.length → medCost spl nodes (data.map fun d => (nodes.getD d.1 0, d.2)) q =
      ∑ k ∈ Finset.range nodes.length, dev (at_ data k) (q.getD k 0) := by
    intro q hq
    rw [← cost_split (fun k => q.getD k 0) nodes.length data hk]
    unfold medCost
    rw [List.map_map]
    congr 1
    apply List.map_congr_left
    intro d hd
    simp only [Function.comp]
    rw [hs q hq d.1 (hk d hd)]
  constructor
  · intro h k hkn
    refine (dev_min_iff _ _).mp fun m => ?_
    have := h (p.set k m) (by simpa using hp)
    rw [hcost p hp, hcost _ (by simpa using hp)] at this
    have hmem := Finset.mem_range.mpr hkn
    rw [← Finset.add_sum_erase _ _ hmem, ← Finset.add_sum_erase (Finset.range nodes.length) (fun k' => dev (at_ data k') ((p.set k m).getD k' 0)) hmem] at this
    have e : ∀ k' ∈ (Finset.range nodes.length).erase k, dev (at_ data k') ((p.set k m).getD k' 0) = dev (at_ data k') (p.getD k' 0) := by
      intro k' hk'
      have hne := (Finset.mem_erase.mp hk').1
      rw [List.getD_eq_getElem?_getD, List.getD_eq_getElem?_getD, List.getElem?_set_ne (Ne.symm hne)]
    rw [Finset.sum_congr rfl e] at this
    have e2 : (p.set k m).getD k 0 = m := by
      rw [List.getD_eq_getElem?_getD, List.getElem?_set_self (by rw [hp]; exact hkn)]; rfl
    rw [e2] at this
    exact le_of_add_le_add_right this
  · intro h q hq
    rw [hcost p hp, hcost q hq]
    exact Finset.sum_le_sum fun k hk' => dev_median _ _ (h k (Finset.mem_range.mp hk')) _

/-- **C195**, the fit: it keeps to the bounds, and is not worse than its start. -/
theorem C195_fit (M : Minimizer ℝ) (hM : MinOK M) (spl : List ℝ → List ℝ → ℝ → ℝ) (nodes : List ℝ) (data : List (ℝ × ℝ)) (p0 : List ℝ)
    (b : Bound ℝ) (hstart : ∀ x ∈ p0, (∀ l, b.lo = some l → l ≤ x) ∧ (∀ h, b.hi = some h → x ≤ h)) :
    (medFit M spl nodes data p0 b).length = p0.length ∧
    (∀ x ∈ medFit M spl nodes data p0 b, (∀ l, b.lo = some l → l ≤ x) ∧ (∀ h, b.hi = some h → x ≤ h)) ∧
    medCost spl nodes data (medFit M spl nodes data p0 b) ≤ medCost spl nodes data p0 := by
  have hin : InBounds (p0.map fun _ => b) p0 := by
    unfold InBounds
    induction p0 with
    | nil => exact List.Forall₂.nil
    | cons x l ih => exact List.Forall₂.cons (hstart x (by simp)) (ih fun y hy => hstart y (by simp [hy]))
  have hends : InBounds (p0.map fun _ => b) (medFit M spl nodes data p0 b) :=
    hM.bounds _ p0 _ ⟨p0, hin⟩ (run_ends _ _ _)
  refine ⟨?_, ?_, ?_⟩
  · have := hends.length_eq
    rw [List.length_map] at this
    exact this.symm
  · have : ∀ (bs : List (Bound ℝ)) (xs : List ℝ), InBounds bs xs → (∀ b' ∈ bs, b' = b) → ∀ x ∈ xs,
        (∀ l, b.lo = some l → l ≤ x) ∧ (∀ h, b.hi = some h → x ≤ h) := by
      intro bs xs h
      induction h with
      | nil => intro _ x hx; cases hx
      | cons h1 _ ih =>
        intro hb x hx
        rcases List.mem_cons.mp hx with rfl | hx
        · have := hb _ List.mem_cons_self
          subst this; exact h1
        · exact ih (fun b' h' => hb b' (by simp [h'])) x hx
    exact this _ _ hends (fun b' hb' => by obtain ⟨_, _, rfl⟩ := List.mem_map.mp hb'; rfl)
  · have e := (run_pure (fun p (_ : Unit) => (medCost spl nodes data p, ())) (medCost spl nodes data) (fun _ => True)
      (fun _ _ _ => ⟨rfl, trivial⟩) (M (p0.map fun _ => b) p0) () trivial).1
    unfold medFit
    rw [e]
    exact hM.le _ p0 _ hin

/-- An interpolation that goes through its nodes, and values with a median. -/
example : Interpolates (fun nodes p z => p.getD (nodes.idxOf z) 0) [0, 1] ∧ IsMedian [1, 2, 7] 2 := by
  constructor
  · intro p hp k hk
    have : k = 0 ∨ k = 1 := by simp at hk; omega
    rcases this with rfl | rfl <;> simp [List.idxOf_cons]
  · unfold IsMedian
    simp [List.countP_cons]
    norm_num

/-! ## C196: truncation -/

/-- **C196**: in the fit of mean and scatter every galaxy has a positive truncation and lies within it of the median color, and all galaxies
that do are used, whatever the fitted widths are. -/
theorem C196_truncation (E : Env) (nodes : List ℝ) (rows : List Row) (mw : List ℝ × List ℝ) :
    (∀ r ∈ truncated E nodes rows mw, r.1 ∈ rows ∧ 0 < r.2 ∧ |r.1.c - E.spl nodes mw.1 r.1.z| < r.2 ∧ r.2 = 3 / 2 * E.spl nodes mw.2 r.1.z) ∧
    (∀ r ∈ rows, |r.c - E.spl nodes mw.1 r.z| < 3 / 2 * E.spl nodes mw.2 r.z → ∃ t, (r, t) ∈ truncated E nodes rows mw) := by
  constructor
  · intro r hr
    obtain ⟨x, hx, rfl⟩ := List.mem_map.mp hr
    obtain ⟨h1, h2⟩ := List.mem_filter.mp hx
    have h2 := of_decide_eq_true h2
    exact ⟨h1, lt_of_le_of_lt (abs_nonneg _) h2, h2, rfl⟩
  · intro r hr h
    exact ⟨_, List.mem_map.mpr ⟨r, List.mem_filter.mpr ⟨hr, decide_eq_true h⟩, rfl⟩⟩

/-! ## C197: selection -/

/-- Red for color `j`: within the wanted number of standard deviations of the mean. -/
def Red {π : Type} (E : Env) (nodes : List ℝ) (tab : Nat → Fit) (nsig : ℝ) (j : Nat) (t : Train π) : Prop :=
  |t.gal.col j - E.spl nodes (tab j).mean t.z| < nsig * Real.sqrt (t.gal.colErr j ^ 2 + E.spl nodes (tab j).scatter t.z ^ 2)

theorem marks_eq {π : Type} (E : Env) (nodes : List ℝ) (tab : Nat → Fit) (nsig : ℝ) (zb : List ℝ) (gals : List (Train π)) (l : List (Nat × Nat))
    (f : Train π → Bool) :
    l.foldl (fun mk jm => List.zipWith (fun t b => b || marked E nodes tab nsig zb jm.2 jm.1 t) gals mk) (gals.map f) =
      gals.map fun t => f t || l.any fun jm => marked E nodes tab nsig zb jm.2 jm.1 t := by
  induction l generalizing f with
  | nil => simp
  | cons a l ih =>
    rw [List.foldl_cons]
    have : List.zipWith (fun t b => b || marked E nodes tab nsig zb a.2 a.1 t) gals (gals.map f) =
        gals.map fun t => f t || marked E nodes tab nsig zb a.2 a.1 t := by
      rw [List.zipWith_map_right]
      simp [List.zipWith_self]
    rw [this, ih]
    simp [List.any_cons, Bool.or_assoc]

theorem redFile_eq {π : Type} (E : Env) (nodes : List ℝ) (tab : Nat → Fit) (nsig : ℝ) (zb : List ℝ) (modes : List Nat) (gals : List (Train π))
    (h : gals.length ≠ 1) :
    redFile E nodes tab nsig zb modes gals = gals.filter fun t => modes.zipIdx.any fun jm => marked E nodes tab nsig zb jm.2 jm.1 t := by
  unfold redFile marks
  rw [if_neg h, marks_eq]
  rw [← takeRows_whereIdx]
  congr 1
  unfold whereIdx
  rw [List.length_map]
  apply List.filter_congr
  intro i _
  rw [List.getElem?_map]
  cases gals[i]? with
  | none => rfl
  | some t => simp

theorem exists_cut (l : List ℝ) (h : l.Pairwise (· < ·)) (z : ℝ) : ∃ m', m' ≤ l.length ∧ ∀ i (hi : i < l.length), l[i] < z ↔ i < m' := by
  induction l with
  | nil => exact ⟨0, le_refl _, fun i hi => by simp at hi⟩
  | cons b l ih =>
    rw [List.pairwise_cons] at h
    obtain ⟨m', hm, hc⟩ := ih h.2
    by_cases hb : b < z
    · refine ⟨m' + 1, by simp; omega, fun i hi => ?_⟩
      cases i with
      | zero => simp [hb]
      | succ i => simp only [List.getElem_cons_succ, hc i (by simpa using hi)]; omega
    · refine ⟨0, by simp, fun i hi => ?_⟩
      cases i with
      | zero => simp [hb]
      | succ i =>
        simp only [List.getElem_cons_succ]
        have := h.1 (l[i]'(by simpa using hi)) (List.getElem_mem _)
        constructor
        · intro h; linarith [not_lt.mp hb]
        · intro h; omega

/-- For increasing bounds, between bounds `m` and `m + 1` means that `m` of the inner bounds are below, if on none of them. -/
theorem between_iff (zr : ℝ × ℝ) (inner : List ℝ) (hs : (zbounds zr inner).Pairwise (· < ·)) (z : ℝ) (h1 : zr.1 < z) (h2 : z < zr.2)
    (hnot : z ∉ inner) (m : Nat) (hm : m ≤ inner.length) :
    ((zbounds zr inner).getD m 0 < z ∧ z < (zbounds zr inner).getD (m + 1) 0) ↔ m = inner.countP fun b => decide (b < z) := by
  have hlen : (zbounds zr inner).length = inner.length + 2 := by simp [zbounds]
  have hg := List.pairwise_iff_getElem.mp hs
  have hin : ∀ i (hi : i < inner.length), (zbounds zr inner)[i + 1]'(by omega) = inner[i] := by
    intro i hi
    simp [zbounds, List.getElem_append, hi]
  have hin0 : (zbounds zr inner)[0]'(by omega) = zr.1 - 11 / 1000 := by simp [zbounds]
  have hlast : (zbounds zr inner)[inner.length + 1]'(by omega) = zr.2 + 11 / 1000 := by simp [zbounds]
  -- counting by position
  have hinner : inner.Pairwise (· < ·) := by
    have := hs
    unfold zbounds at this
    rw [List.cons_append, List.pairwise_cons, List.pairwise_append] at this
    exact this.2.1
  have hcount : ∀ m, m ≤ inner.length → (∀ i (hi : i < inner.length), inner[i] < z ↔ i < m) → inner.countP (fun b => decide (b < z)) = m := by
    intro m hm h
    have e : inner = (List.range inner.length).map fun k => inner.getD k 0 := by
      apply List.ext_getElem
      · simp
      · intro n h1 h2
        simp [h1]
    conv_lhs => rw [e]
    rw [List.countP_map, List.countP_eq_length_filter]
    have : (List.range inner.length).filter ((fun b => decide (b < z)) ∘ fun k => inner.getD k 0) = (List.range inner.length).filter fun k => decide (k < m) := by
      apply List.filter_congr
      intro k hk
      have hk := List.mem_range.mp hk
      simp only [Function.comp, getD_lt _ _ hk, h k hk]
    rw [this, ← List.toFinset_card_of_nodup (List.nodup_range.filter _)]
    have : ((List.range inner.length).filter fun k => decide (k < m)).toFinset = Finset.range m := by
      ext x; simp; omega
    rw [this, Finset.card_range]
  rw [getD_lt _ _ (show m < (zbounds zr inner).length by omega), getD_lt _ _ (show m + 1 < (zbounds zr inner).length by omega)]
  constructor
  · rintro ⟨ha, hb⟩
    refine (hcount m hm fun i hi => ?_).symm
    rw [← hin i hi]
    constructor
    · intro h
      by_contra hn
      rcases Nat.eq_or_lt_of_le (not_lt.mp hn) with e | e
      · subst e; exact lt_asymm h hb
      · have := hg (m + 1) (i + 1) (by omega) (by omega) (by omega)
        linarith
    · intro h
      rcases Nat.eq_or_lt_of_le (Nat.succ_le_of_lt h) with e | e
      · have e : m = i + 1 := e.symm
        subst e; exact ha
      · have := hg (i + 1) m (by omega) (by omega) (by omega)
        linarith
  · intro hmc
    have hlt : ∀ i (hi : i < inner.length), inner[i] < z ↔ i < m := by
      -- the values below come first
      obtain ⟨m', hm', hc⟩ : ∃ m', m' ≤ inner.length ∧ ∀ i (hi : i < inner.length), inner[i] < z ↔ i < m' := by
        exact exists_cut inner hinner z
      have := hcount m' hm' hc
      rw [this] at hmc
      subst hmc
      exact hc
    constructor
    · cases m with
      | zero => rw [hin0]; linarith
      | succ k => rw [hin k (by omega)]; exact (hlt k (by omega)).mpr (by omega)
    · rcases Nat.eq_or_lt_of_le hm with e | e
      · subst e; rw [hlast]; linarith
      · rw [hin m e]
        have hne : z ≠ inner[m] := fun he => hnot (he ▸ List.getElem_mem _)
        have : ¬ inner[m] < z := fun h => absurd ((hlt m e).mp h) (lt_irrefl _)
        exact lt_of_le_of_ne (not_lt.mp this) hne

/-- **C197** (partial): the file has exactly the training galaxies that are red for the color of their redshift, in the same order; the color
is the one at the position given by the number of bounds below the redshift. Missing: galaxies exactly on a bound, and a single
galaxy (`C197_false`). -/
theorem C197_selection_partial {π : Type} (E : Env) (nodes : List ℝ) (tab : Nat → Fit) (nsig : ℝ) (zr : ℝ × ℝ) (inner : List ℝ) (modes : List Nat)
    (hmodes : modes.length = inner.length + 1) (hs : (zbounds zr inner).Pairwise (· < ·)) (gals : List (Train π)) (h1 : gals.length ≠ 1)
    (hz : ∀ t ∈ gals, zr.1 < t.z ∧ t.z < zr.2 ∧ t.z ∉ inner) :
    (redFile E nodes tab nsig (zbounds zr inner) modes gals).Sublist gals ∧
    ∀ t ∈ gals, t ∈ redFile E nodes tab nsig (zbounds zr inner) modes gals ↔
      ∃ j, modes[inner.countP fun b => decide (b < t.z)]? = some j ∧ Red E nodes tab nsig j t := by
  rw [redFile_eq E nodes tab nsig _ modes gals h1]
  refine ⟨List.filter_sublist, fun t ht => ?_⟩
  obtain ⟨z1, z2, z3⟩ := hz t ht
  rw [List.mem_filter]
  simp only [ht, true_and, List.any_eq_true]
  have hb := between_iff zr inner hs t.z z1 z2 z3
  constructor
  · rintro ⟨⟨j, m⟩, hjm, hmk⟩
    obtain ⟨hm, hj⟩ := List.mem_zipIdx' hjm
    unfold marked at hmk
    simp only [Bool.and_eq_true, decide_eq_true_eq, gt_iff_lt] at hmk
    obtain ⟨⟨a, b⟩, c⟩ := hmk
    have hmeq := (hb m (by omega)).mp ⟨a, b⟩
    exact ⟨j, by rw [← hmeq, hj]; exact List.getElem?_eq_getElem hm, c⟩
  · rintro ⟨j, hj, hred⟩
    obtain ⟨hm, rfl⟩ := List.getElem?_eq_some_iff.mp hj
    obtain ⟨a, b⟩ := (hb (inner.countP fun b => decide (b < t.z)) (by omega)).mpr rfl
    refine ⟨(_, inner.countP fun b => decide (b < t.z)), List.mem_zipIdx_iff_getElem?.mpr (List.getElem?_eq_getElem hm), ?_⟩
    unfold marked
    simp only [Bool.and_eq_true, decide_eq_true_eq, gt_iff_lt]
    exact ⟨⟨a, b⟩, hred⟩

/-- **C197** fails: a galaxy exactly on a bound is never selected, however red; and a single training galaxy always is. -/
theorem C197_false {π : Type} (E : Env) (nodes : List ℝ) (tab : Nat → Fit) (nsig : ℝ) (zr : ℝ × ℝ) (inner : List ℝ) (modes : List Nat) :
    (∀ (gals : List (Train π)) (t : Train π), modes.length = inner.length + 1 → (zbounds zr inner).Pairwise (· < ·) → gals.length ≠ 1 →
      t.z ∈ inner → t ∉ redFile E nodes tab nsig (zbounds zr inner) modes gals) ∧
    (∀ t : Train π, redFile E nodes tab nsig (zbounds zr inner) modes [t] = [t]) := by
  refine ⟨fun gals t hmodes hs h1 hz ht => ?_, fun t => rfl⟩
  rw [redFile_eq E nodes tab nsig _ modes gals h1, List.mem_filter, List.any_eq_true] at ht
  obtain ⟨-, ⟨j, m⟩, hjm, hmk⟩ := ht
  obtain ⟨hm, hj⟩ := List.mem_zipIdx' hjm
  unfold marked at hmk
  simp only [Bool.and_eq_true, decide_eq_true_eq, gt_iff_lt] at hmk
  obtain ⟨⟨a, b⟩, -⟩ := hmk
  have hlen : (zbounds zr inner).length = inner.length + 2 := by simp [zbounds]
  rw [getD_lt _ _ (by omega)] at a b
  obtain ⟨i, hi, e⟩ := List.getElem_of_mem hz
  have hg := List.pairwise_iff_getElem.mp hs
  have hin : (zbounds zr inner)[i + 1]'(by omega) = inner[i] := by simp [zbounds, List.getElem_append, hi]
  rw [← e, ← hin] at a b
  rcases lt_trichotomy (i + 1) m with h | h | h
  · have := hg (i + 1) m (by omega) (by omega) h; linarith
  · subst h; exact lt_irrefl _ a
  · rcases Nat.eq_or_lt_of_le (Nat.succ_le_of_lt h) with e2 | e2
    · have e2 : i + 1 = m + 1 := e2.symm
      simp only [e2] at b
      exact lt_irrefl _ b
    · have := hg (m + 1) (i + 1) (by omega) (by omega) e2; linarith

/-- Bounds that meet the hypotheses: the range 0.1 to 0.9 with a change of color at 0.35. -/
example : (zbounds (1 / 10, 9 / 10) [7 / 20]).Pairwise (· < ·) := by
  unfold zbounds; simp; norm_num

/-! ## C198: error ratios -/

theorem median_div (l : List ℝ) (s : ℝ) (hs : 0 < s) : median (l.map fun x => x / s) = median l / s := by
  unfold median
  have e : (l.map fun x => x / s).mergeSort (fun a b => decide (a ≤ b)) = (l.mergeSort (fun a b => decide (a ≤ b))).map fun x => x / s := by
    rw [List.map_mergeSort]
    intro a _ b _
    rw [decide_eq_decide]
    exact (div_le_div_iff_of_pos_right hs).symm
  simp only [e, List.length_map]
  have g : ∀ (t : List ℝ) i, (t.map fun x => x / s).getD i 0 = t.getD i 0 / s := by
    intro t i
    rw [List.getD_eq_getElem?_getD, List.getD_eq_getElem?_getD, List.getElem?_map]
    cases t[i]? <;> simp
  rw [g, g]
  field_simp

theorem mad_div (l : List ℝ) (s : ℝ) (hs : 0 < s) : mad (l.map fun x => x / s) = (mad l).map fun x => x / s := by
  unfold mad
  rw [List.length_map]
  split
  · rfl
  · rw [median_div l s hs, List.map_map]
    have : ((fun v => |v - median l / s|) ∘ fun x => x / s) = fun v : ℝ => |v - median l| / s := by
      funext v
      simp only [Function.comp]
      rw [← sub_div, abs_div, abs_of_pos hs]
    rw [this, show (l.map fun v => |v - median l| / s) = (l.map fun v => |v - median l|).map fun x => x / s by rw [List.map_map]; rfl,
      median_div _ s hs]
    simp only [Option.map_some]
    congr 1
    ring

theorem minOf_le (x : List ℝ) (v : ℝ) (hv : v ∈ x) : minOf x ≤ v := by
  unfold minOf
  generalize x.headD 0 = d
  induction x with
  | nil => cases hv
  | cons a l ih =>
    rw [List.foldr_cons]
    rcases List.mem_cons.mp hv with rfl | h
    · exact min_le_left _ _
    · exact (min_le_right _ _).trans (ih h)

theorem le_maxOf (x : List ℝ) (v : ℝ) (hv : v ∈ x) : v ≤ maxOf x := by
  unfold maxOf
  generalize x.headD 0 = d
  induction x with
  | nil => cases hv
  | cons a l ih =>
    rw [List.foldr_cons]
    rcases List.mem_cons.mp hv with rfl | h
    · exact le_max_left _ _
    · exact (ih h).trans (le_max_right _ _)

/-- **C198**, bins: every galaxy is in exactly one bin, with galaxies at most a bin width apart. -/
theorem C198_bins (binsize : ℝ) (hb : 0 < binsize) (rows : List ERow) :
    (∀ r ∈ rows, ∃! i, i < nbin binsize rows ∧ r ∈ inBin binsize rows i) ∧
    (∀ i, ∀ r ∈ inBin binsize rows i, ∀ r' ∈ inBin binsize rows i, |r.dmag - r'.dmag| < binsize) := by
  constructor
  · intro r hr
    refine ⟨binOf (minOf (rows.map ERow.dmag)) binsize r.dmag, ⟨?_, ?_⟩, ?_⟩
    · unfold nbin binOf
      refine Nat.lt_succ_of_le (Nat.floor_mono ?_)
      have := le_maxOf (rows.map ERow.dmag) r.dmag (List.mem_map.mpr ⟨r, hr, rfl⟩)
      exact (div_le_div_iff_of_pos_right hb).mpr (by linarith)
    · exact List.mem_filter.mpr ⟨hr, by simp⟩
    · rintro i ⟨-, hi⟩
      have := (List.mem_filter.mp hi).2
      simpa using (of_decide_eq_true this).symm
  · have hval : ∀ i, ∀ r ∈ inBin binsize rows i, (i : ℝ) * binsize ≤ r.dmag - minOf (rows.map ERow.dmag) ∧
        r.dmag - minOf (rows.map ERow.dmag) < ((i : ℝ) + 1) * binsize := by
      intro i r hr
      obtain ⟨h1, h2⟩ := List.mem_filter.mp hr
      have h2 := of_decide_eq_true h2
      unfold binOf at h2
      have h0 : 0 ≤ (r.dmag - minOf (rows.map ERow.dmag)) / binsize :=
        div_nonneg (by linarith [minOf_le (rows.map ERow.dmag) r.dmag (List.mem_map.mpr ⟨r, h1, rfl⟩)]) hb.le
      obtain ⟨a, b⟩ := (Nat.floor_eq_iff h0).mp h2
      exact ⟨(le_div_iff₀ hb).mp a, (div_lt_iff₀ hb).mp b⟩
    intro i r hr r' hr'
    obtain ⟨a, b⟩ := hval i r hr
    obtain ⟨a', b'⟩ := hval i r' hr'
    rw [abs_lt]
    constructor <;> nlinarith

/-- The same galaxies in other units of color. -/
def scaled (c : ℝ) (r : ERow) : ERow := ⟨c * r.dcol, r.dmag, c * r.e0, c * r.e1, c ^ 2 * r.sig2⟩

theorem pull_scaled (c : ℝ) (hc : 0 < c) (s0 s1 : Bool) (a b : ℝ) (r : ERow) : pull s0 s1 a b (scaled c r) = pull s0 s1 a b r := by
  unfold pull scaled
  simp only
  have : ∀ e0 e1 : ℝ, Real.sqrt (c ^ 2 * r.sig2 + (c * e0) ^ 2 + (c * e1) ^ 2) = c * Real.sqrt (r.sig2 + e0 ^ 2 + e1 ^ 2) := by
    intro e0 e1
    rw [show c ^ 2 * r.sig2 + (c * e0) ^ 2 + (c * e1) ^ 2 = c ^ 2 * (r.sig2 + e0 ^ 2 + e1 ^ 2) by ring,
      Real.sqrt_mul (by positivity), Real.sqrt_sq hc.le]
  have e0 : (if s0 = true then (a + b * r.dmag) * (c * r.e0) else c * r.e0) = c * (if s0 = true then (a + b * r.dmag) * r.e0 else r.e0) := by
    split <;> ring
  have e1 : (if s1 = true then (a + b * r.dmag) * (c * r.e1) else c * r.e1) = c * (if s1 = true then (a + b * r.dmag) * r.e1 else r.e1) := by
    split <;> ring
  rw [e0, e1, this, mul_div_mul_left _ _ hc.ne']

theorem inBin_scaled (c binsize : ℝ) (rows : List ERow) (i : Nat) :
    inBin binsize (rows.map (scaled c)) i = (inBin binsize rows i).map (scaled c) := by
  unfold inBin
  rw [List.filter_map, List.map_map]
  rfl

/-- **C198**, units: the fit does not depend on the units of color: the bins, their errors, the cost of all parameters and so the result are
the same. -/
theorem C198_units (M : Minimizer ℝ) (c : ℝ) (hc : 0 < c) (draw : Nat → Nat → List Nat) (ntrial : Nat) (binsize : ℝ) (rows : List ERow)
    (s0 s1 : Bool) (p0 : List ℝ) :
    useBins draw ntrial binsize (rows.map (scaled c)) = useBins draw ntrial binsize rows ∧
    binFit M binsize (rows.map (scaled c)) (useBins draw ntrial binsize (rows.map (scaled c))) s0 s1 p0 =
      binFit M binsize rows (useBins draw ntrial binsize rows) s0 s1 p0 := by
  have hn : nbin binsize (rows.map (scaled c)) = nbin binsize rows := by
    unfold nbin; rw [List.map_map]; rfl
  have hmap : ∀ (s0 s1 : Bool) (a b : ℝ) (l : List ERow), (l.map (scaled c)).map (pull s0 s1 a b) = l.map (pull s0 s1 a b) := by
    intro s0 s1 a b l
    rw [List.map_map]
    exact List.map_congr_left fun r _ => pull_scaled c hc s0 s1 a b r
  have herr : ∀ i, madErr draw ntrial binsize (rows.map (scaled c)) i = madErr draw ntrial binsize rows i := by
    intro i
    unfold madErr
    simp only [inBin_scaled, Finders.takeRows_map, hmap]
  have huse : useBins draw ntrial binsize (rows.map (scaled c)) = useBins draw ntrial binsize rows := by
    unfold useBins
    rw [hn]
    simp only [herr]
  refine ⟨huse, ?_⟩
  rw [huse]
  unfold binFit
  have : (binCost binsize (rows.map (scaled c)) (useBins draw ntrial binsize rows) s0 s1) = binCost binsize rows (useBins draw ntrial binsize rows) s0 s1 := by
    funext p
    unfold binCost
    simp only [inBin_scaled, hmap]
  rw [this]

/-- **C198**, the result: it is within the bounds, and not worse than a start within them. -/
theorem C198_fit (M : Minimizer ℝ) (hM : MinOK M) (binsize : ℝ) (rows : List ERow) (bins : List (Nat × ℝ)) (s0 s1 : Bool) (a b : ℝ)
    (ha : 1 / 2 ≤ a ∧ a ≤ 10) (hb : -5 ≤ b ∧ b ≤ 5) :
    ∃ a' b', binFit M binsize rows bins s0 s1 [a, b] = [a', b'] ∧ 1 / 2 ≤ a' ∧ a' ≤ 10 ∧ -5 ≤ b' ∧ b' ≤ 5 ∧
      binCost binsize rows bins s0 s1 [a', b'] ≤ binCost binsize rows bins s0 s1 [a, b] := by
  set bs : List (Bound ℝ) := [⟨some (1 / 2), some 10⟩, ⟨some (-5), some 5⟩] with hbs
  have hin : InBounds bs [a, b] := by
    refine List.Forall₂.cons ⟨?_, ?_⟩ (List.Forall₂.cons ⟨?_, ?_⟩ List.Forall₂.nil)
    · rintro l h; cases h; exact ha.1
    · rintro l h; cases h; exact ha.2
    · rintro l h; cases h; exact hb.1
    · rintro l h; cases h; exact hb.2
  have hends : InBounds bs (binFit M binsize rows bins s0 s1 [a, b]) := hM.bounds _ [a, b] _ ⟨_, hin⟩ (run_ends _ _ _)
  have e := (run_pure (fun p (_ : Unit) => (binCost binsize rows bins s0 s1 p, ())) (binCost binsize rows bins s0 s1) (fun _ => True)
    (fun _ _ _ => ⟨rfl, trivial⟩) (M bs [a, b]) () trivial).1
  have hle : binCost binsize rows bins s0 s1 (binFit M binsize rows bins s0 s1 [a, b]) ≤ binCost binsize rows bins s0 s1 [a, b] := by
    show binCost binsize rows bins s0 s1 (run _ (M bs [a, b]) ()).1 ≤ _
    rw [e]
    exact hM.le _ _ _ hin
  revert hends hle
  generalize binFit M binsize rows bins s0 s1 [a, b] = r
  intro hends hle
  rw [hbs] at hends
  cases hends with
  | cons h1 h2 =>
    cases h2 with
    | cons h3 h4 =>
      cases h4
      exact ⟨_, _, rfl, h1.1 _ rfl, h1.2 _ rfl, h3.1 _ rfl, h3.2 _ rfl, hle⟩

theorem binCost_nonneg (binsize : ℝ) (rows : List ERow) (bins : List (Nat × ℝ)) (s0 s1 : Bool) (p : List ℝ) :
    0 ≤ binCost binsize rows bins s0 s1 p := by
  unfold binCost
  refine List.sum_nonneg fun x hx => ?_
  obtain ⟨ie, -, rfl⟩ := List.mem_map.mp hx
  positivity

/-- **C198**, recovery: if all errors are too small by a factor `s` between one half and ten, that is if the pulls have robust width `s` in
every bin in use, then the ratio `s` without slope fits perfectly, and a single ratio that does is `s`. -/
theorem C198_recovers (binsize : ℝ) (rows : List ERow) (bins : List (Nat × ℝ)) (hsig : ∀ r ∈ rows, r.sig2 = 0) (s : ℝ) (hs : 0 < s)
    (hbins : ∀ ie ∈ bins, 0 < ie.2 ∧ mad ((inBin binsize rows ie.1).map fun r => r.dcol / Real.sqrt (r.e0 ^ 2 + r.e1 ^ 2)) = some s) :
    binCost binsize rows bins true true [s, 0] = 0 ∧
    (∀ a, 0 < a → bins ≠ [] → binCost binsize rows bins true true [a, 0] = 0 → a = s) := by
  have hpull : ∀ a, 0 < a → ∀ i, (inBin binsize rows i).map (pull true true a 0) =
      ((inBin binsize rows i).map fun r => r.dcol / Real.sqrt (r.e0 ^ 2 + r.e1 ^ 2)).map fun x => x / a := by
    intro a ha i
    rw [List.map_map]
    apply List.map_congr_left
    intro r hr
    have h0 := hsig r (List.mem_filter.mp hr).1
    unfold pull
    simp only [Function.comp, h0, zero_mul, add_zero, if_true, zero_add]
    rw [show (a * r.e0) ^ 2 + (a * r.e1) ^ 2 = a ^ 2 * (r.e0 ^ 2 + r.e1 ^ 2) by ring, Real.sqrt_mul (by positivity), Real.sqrt_sq ha.le, mul_comm, div_div]
  have hterm : ∀ a, 0 < a → ∀ ie ∈ bins,
      ((mad ((inBin binsize rows ie.1).map (pull true true a 0))).getD 0 - 1) ^ 2 / ie.2 ^ 2 = (s / a - 1) ^ 2 / ie.2 ^ 2 := by
    intro a ha ie hie
    rw [hpull a ha, mad_div _ a ha, (hbins ie hie).2]
    rfl
  constructor
  · unfold binCost
    apply List.sum_eq_zero
    intro x hx
    obtain ⟨ie, hie, rfl⟩ := List.mem_map.mp hx
    show ((mad ((inBin binsize rows ie.1).map (pull true true s 0))).getD 0 - 1) ^ 2 / ie.2 ^ 2 = 0
    rw [hterm s hs ie hie, div_self hs.ne']
    simp
  · intro a ha hne h
    obtain ⟨ie, hie⟩ := List.exists_mem_of_ne_nil _ hne
    have hzero : (s / a - 1) ^ 2 / ie.2 ^ 2 = 0 := by
      rw [← hterm a ha ie hie]
      refine le_antisymm ?_ (by positivity)
      refine le_trans ?_ (le_of_eq h)
      unfold binCost
      exact List.single_le_sum (fun x hx => by obtain ⟨ie', -, rfl⟩ := List.mem_map.mp hx; positivity) _ (List.mem_map.mpr ⟨ie, hie, rfl⟩)
    have hne2 : ie.2 ^ 2 ≠ 0 := by have := (hbins ie hie).1; positivity
    have h1 : (s / a - 1) ^ 2 = 0 := by
      rcases div_eq_zero_iff.mp hzero with h | h
      · exact h
      · exact absurd h hne2
    have h2 : s / a = 1 := by have := pow_eq_zero_iff (two_ne_zero) |>.mp h1; linarith
    rw [div_eq_one_iff_eq ha.ne'] at h2
    exact h2.symm

/-! ## Spreads and what the median fits see -/

/-- The spread of a sample: 1.4826 times a median of the distances from a median. -/
def IsSpread (l : List ℝ) (s : ℝ) : Prop :=
  l ≠ [] ∧ ∃ c m, IsMedian l c ∧ IsMedian (l.map fun v => |v - c|) m ∧ s = 14826 / 10000 * m

theorem mad_spread (l : List ℝ) (s : ℝ) (h : mad l = some s) : IsSpread l s := by
  unfold mad at h
  by_cases h0 : l.length = 0
  · rw [if_pos h0] at h; cases h
  · rw [if_neg h0] at h
    have hne : l ≠ [] := fun e => h0 (by rw [e]; rfl)
    refine ⟨hne, median l, median (l.map fun v => |v - median l|), Redmapper.Mask.median_spec l hne,
      Redmapper.Mask.median_spec _ (by simpa using hne), ?_⟩
    exact (Option.some.inj h).symm

theorem mapM_some {l : List (Option ℝ)} {r : List ℝ} (h : l.mapM id = some r) : l = r.map some := by
  induction l generalizing r with
  | nil => simp only [List.mapM_nil] at h; cases h; rfl
  | cons a l ih =>
    rw [List.mapM_cons] at h
    cases a with
    | none => cases h
    | some x =>
      cases e : l.mapM id with
      | none => rw [e] at h; cases h
      | some r' =>
        rw [e] at h
        cases h
        rw [List.map_cons, ← ih e]

/-- **C198**, the bins: a bin is used exactly if its error is positive, and the error is the spread, over the trials, of the spreads of the drawn
residuals in units of their uncorrected errors. -/
theorem C198_errors (draw : Nat → Nat → List Nat) (ntrial : Nat) (binsize : ℝ) (rows : List ERow) (i : Nat) (e : ℝ) :
    ((i, e) ∈ useBins draw ntrial binsize rows ↔ i < nbin binsize rows ∧ 0 < e ∧ madErr draw ntrial binsize rows i = some e) ∧
    ((i, e) ∈ useBins draw ntrial binsize rows → ∃ spreads : List ℝ, spreads.length = ntrial ∧ IsSpread spreads e ∧
      ∀ k (hk : k < spreads.length), IsSpread ((takeRows (inBin binsize rows i) (draw i k)).map fun r =>
        r.dcol / Real.sqrt (r.sig2 + r.e0 ^ 2 + r.e1 ^ 2)) spreads[k]) := by
  have hiff : (i, e) ∈ useBins draw ntrial binsize rows ↔ i < nbin binsize rows ∧ 0 < e ∧ madErr draw ntrial binsize rows i = some e := by
    unfold useBins
    rw [List.mem_filterMap]
    constructor
    · rintro ⟨a, ha, h⟩
      cases hm : madErr draw ntrial binsize rows a with
      | none => rw [hm] at h; cases h
      | some x =>
        rw [hm] at h
        simp only at h
        by_cases hx : x > 0
        · rw [if_pos hx] at h
          cases h
          exact ⟨List.mem_range.mp ha, hx, hm⟩
        · rw [if_neg hx] at h; cases h
    · rintro ⟨hi, he, hm⟩
      refine ⟨i, List.mem_range.mpr hi, ?_⟩
      rw [hm]
      simp only
      rw [if_pos he]
  refine ⟨hiff, fun h => ?_⟩
  obtain ⟨-, -, hm⟩ := hiff.mp h
  unfold madErr at hm
  obtain ⟨r, hr, hs⟩ := Option.bind_eq_some_iff.mp hm
  have hl := mapM_some hr
  have hlen : r.length = ntrial := by
    have := congrArg List.length hl
    simpa using this.symm
  refine ⟨r, hlen, mad_spread _ _ hs, fun k hk => ?_⟩
  have hk' : k < ntrial := hlen ▸ hk
  have := congrArg (fun l => l[k]?) hl
  simp only [List.getElem?_map, List.getElem?_range hk', List.getElem?_eq_getElem hk, Option.map_some] at this
  have e2 : (fun r : ERow => r.dcol / Real.sqrt (r.sig2 + r.e0 ^ 2 + r.e1 ^ 2)) = pull false false 0 0 := by
    funext r
    simp [pull]
  rw [e2]
  exact mad_spread _ _ (Option.some.inj this)

/-- Three residuals around zero have the spread 1.4826. -/
example : IsSpread [-1, 0, 1] (14826 / 10000) :=
  ⟨by simp, 0, 1, ⟨by norm_num, by norm_num⟩, ⟨by norm_num, by norm_num⟩, by norm_num⟩

/-- The galaxies of color strictly within two widths of a line. -/
def Within (spl : List ℝ → List ℝ → ℝ → ℝ) (nodes line width : List ℝ) (all l : List Row) : Prop :=
  l.Sublist all ∧ ∀ r ∈ all, (r ∈ l ↔ |r.c - spl nodes line r.z| < 2 * spl nodes width r.z)

/-- **C195**, what the fits of a color see.  The start is the template, moved by the mean of the mixture, with the width of the mixture.  The line is fitted
to the galaxies strictly within two widths of the start, the width to the distances of those strictly within two widths of the new line, and the width
recorded is 1.4826 times the fitted one. -/
theorem C195_color (E : Env) (hM : MinOK E.minimize) (nodes : List ℝ) (rows : List Row) (j : Nat) (f : Fit) (h : fitColor E nodes rows j = .ok f) :
    ∃ u mu sigma near near1 w, trim E.argsort (rows.map fun r => r.c - E.template j r.z) = .ok u ∧
      E.mixture ((takeRows rows u).map fun r => (r.c - E.template j r.z, r.cErr)) = (mu, sigma) ∧
      Within E.spl nodes (nodes.map fun z => E.template j z + mu) (nodes.map fun _ => sigma) rows near ∧
      Within E.spl nodes f.medcol (nodes.map fun _ => sigma) rows near1 ∧
      (near.map fun r => |r.c - E.spl nodes f.medcol r.z|).sum ≤
        (near.map fun r => |r.c - E.spl nodes (nodes.map fun z => E.template j z + mu) r.z|).sum ∧
      (near1.map fun r => |(|r.c - E.spl nodes f.medcol r.z|) - E.spl nodes w r.z|).sum ≤
        (near1.map fun r => |(|r.c - E.spl nodes f.medcol r.z|) - E.spl nodes (nodes.map fun _ => sigma) r.z|).sum ∧
      f.medcol.length = nodes.length ∧ w.length = nodes.length ∧ f.medwidth = w.map fun s => 14826 / 10000 * s := by
  unfold fitColor at h
  cases hu : trim E.argsort (rows.map fun r => r.c - E.template j r.z) with
  | error e => rw [hu] at h; cases h
  | ok u =>
    rw [hu] at h
    cases hms : E.mixture ((takeRows rows u).map fun r => (r.c - E.template j r.z, r.cErr)) with
    | mk mu sigma =>
      simp only [Except.map, hms, medians, zero_add] at h
      cases h
      have hw : ∀ line : List ℝ, Within E.spl nodes line (nodes.map fun _ => sigma) rows (rows.filter fun r =>
          decide (r.c > E.spl nodes line r.z - 2 * E.spl nodes (nodes.map fun _ => sigma) r.z) &&
          decide (r.c < E.spl nodes line r.z + 2 * E.spl nodes (nodes.map fun _ => sigma) r.z)) := by
        intro line
        refine ⟨List.filter_sublist, fun r hr => ?_⟩
        rw [List.mem_filter, Bool.and_eq_true, decide_eq_true_eq, decide_eq_true_eq, abs_lt]
        constructor
        · rintro ⟨-, h1, h2⟩; constructor <;> linarith
        · rintro ⟨h1, h2⟩; exact ⟨hr, by linarith, by linarith⟩
      have hfree : ∀ p0 : List ℝ, ∀ x ∈ p0, (∀ l, (⟨none, none⟩ : Bound ℝ).lo = some l → l ≤ x) ∧
          (∀ h, (⟨none, none⟩ : Bound ℝ).hi = some h → x ≤ h) := by
        intro p0 x _
        exact ⟨fun l h => (by cases h), fun l h => (by cases h)⟩
      have h1 := fun data p0 => C195_fit E.minimize hM E.spl nodes data p0 ⟨none, none⟩ (hfree p0)
      have h2 : ∀ (l : List Row) (g : Row → ℝ) (p0 : List ℝ),
          (l.map fun r => |g r - E.spl nodes (medFit E.minimize E.spl nodes (l.map fun r => (r.z, g r)) p0 ⟨none, none⟩) r.z|).sum ≤
          (l.map fun r => |g r - E.spl nodes p0 r.z|).sum := by
        intro l g p0
        have := (h1 (l.map fun r => (r.z, g r)) p0).2.2
        unfold medCost at this
        rw [List.map_map, List.map_map] at this
        exact this
      refine ⟨u, mu, sigma, _, _, _, rfl, hms, hw _, hw _, h2 _ (fun r => r.c) _, h2 _ (fun r => |r.c - E.spl nodes _ r.z|) _, ?_, ?_, rfl⟩
      · rw [(h1 _ _).1, List.length_map]
      · rw [(h1 _ _).1, List.length_map]

/-- One galaxy is enough for the fits to be run. -/
example (E : Env) (hA : Argsort E.argsort) (nodes : List ℝ) (r : Row) (j : Nat) : ∃ f, fitColor E nodes [r] j = .ok f := by
  obtain ⟨u, hu, -⟩ := C193_trim_partial E.argsort hA ([r].map fun r => r.c - E.template j r.z) (by simp) (by simp)
  unfold fitColor
  rw [hu]
  exact ⟨_, rfl⟩

end Redmapper.SpecRed
