/-
Properties C222-C229: calibration of redMaGiC.
-/
import Verif.Model.RmCal
import Verif.Props.Finders
import Verif.Props.Mask
import Verif.Props.Maps
import Mathlib.Tactic.Linarith
import Mathlib.Tactic.FieldSimp
import Mathlib.Tactic.Positivity
import Mathlib.Tactic.NormNum
import Mathlib.Tactic.Push

set_option linter.unusedSectionVars false
set_option linter.unusedSimpArgs false

namespace Redmapper.RmCal

open Redmapper.Finders (takeRows Argsort argsortRef argsortRef_ok)
open Redmapper.Mask (SqrtOK)

variable {α : Type} [Field α] [LinearOrder α] [IsStrictOrderedRing α]

/-! ## C222: cost function -/

/-- Pearson's chi-squared of numbers against expected numbers. -/
def pearson (obs : List Nat) (expected : List α) : α := (List.zipWith (fun (k : Nat) e => ((k : α) - e) ^ 2 / e) obs expected).sum

theorem misfit_pearson {sqrt : α → α} (hs : SqrtOK sqrt) (n : α) (hn : 0 < n) (h : List Nat) : ∀ (vol : List α), (∀ v ∈ vol, 0 < v) →
    misfit sqrt n h vol = pearson h (vol.map fun v => n * v) := by
  unfold misfit pearson
  induction h with
  | nil => intro vol _; simp
  | cons k t ih =>
    intro vol hv
    rcases vol with _ | ⟨v, vs⟩
    · simp
    · simp only [List.zipWith_cons_cons, List.map_cons, List.sum_cons]
      rw [ih vs (fun w hw => hv w (by simp [hw]))]
      have hv0 : 0 < v := hv v (by simp)
      have hnv : 0 < n * v := by positivity
      have h2 := hs.sq (n * v) hnv.le
      have hne : sqrt (n * v) ≠ 0 := by
        intro h0; rw [h0] at h2; simp at h2; rcases h2 with h2 | h2 <;> linarith
      congr 1
      have hn0 : n ≠ 0 := hn.ne'
      have hv00 : v ≠ 0 := hv0.ne'
      rw [div_pow, div_pow, pow_two (sqrt (n * v)), h2]
      field_simp

/-- C222: the cost is Pearson's chi-squared of the numbers in the bins against density times volume, plus a penalty exactly if a parameter is
below 0.1; without any galaxy it is 1e11. -/
theorem C222_cost [FloorRing α] {sqrt : α → α} (hs : SqrtOK sqrt) (n : α) (hn : 0 < n) (r : α × α) (bs : α) (vol : List α)
    (hv : ∀ v ∈ vol, 0 < v) (sel : List α → List α) (pars : List α) :
    (sel pars = [] → cost sqrt n r bs vol sel pars = 10 ^ 11)
    ∧ (sel pars ≠ [] → (∀ p ∈ pars, 1 / 10 ≤ p) →
        cost sqrt n r bs vol sel pars = pearson (costHist r bs (sel pars)) (vol.map fun v => n * v))
    ∧ (sel pars ≠ [] → (∃ p ∈ pars, p < 1 / 10) →
        cost sqrt n r bs vol sel pars = pearson (costHist r bs (sel pars)) (vol.map fun v => n * v) + 10000) := by
  unfold cost
  rw [misfit_pearson hs n hn _ vol hv]
  refine ⟨fun h => ?_, fun h hp => ?_, fun h hp => ?_⟩
  · rw [if_pos (by simp [h])]; norm_num
  · rw [if_neg (by simpa using h), if_neg (by simpa using hp), add_zero]
  · rw [if_neg (by simpa using h), if_pos (by simpa using hp)]

theorem pearson_nonneg (obs : List Nat) : ∀ (e : List α), (∀ x ∈ e, 0 < x) → 0 ≤ pearson obs e := by
  induction obs with
  | nil => intro e _; simp [pearson]
  | cons k t ih =>
    intro e he
    rcases e with _ | ⟨x, xs⟩
    · simp [pearson]
    · have := ih xs (fun y hy => he y (by simp [hy]))
      have hx := he x (by simp)
      unfold pearson at *
      simp only [List.zipWith_cons_cons, List.sum_cons]
      positivity

theorem pearson_zero (obs : List Nat) : ∀ (e : List α), obs.length = e.length → (∀ x ∈ e, 0 < x) →
    (pearson obs e = 0 ↔ obs.map (fun k : Nat => (k : α)) = e) := by
  induction obs with
  | nil => intro e hl _; rcases e with _ | ⟨x, xs⟩ <;> simp [pearson] at *
  | cons k t ih =>
    intro e hl he
    rcases e with _ | ⟨x, xs⟩
    · simp at hl
    · have h1 := pearson_nonneg t xs (fun y hy => he y (by simp [hy]))
      have h2 := ih xs (by simpa using hl) (fun y hy => he y (by simp [hy]))
      have hx := he x (by simp)
      have e0 : pearson (k :: t) (x :: xs) = ((k : α) - x) ^ 2 / x + pearson t xs := by unfold pearson; simp
      have h3 : 0 ≤ ((k : α) - x) ^ 2 / x := by positivity
      rw [e0]
      simp only [List.map_cons, List.cons.injEq]
      constructor
      · intro h
        have h4 : ((k : α) - x) ^ 2 / x = 0 := by linarith
        refine ⟨?_, h2.mp (by linarith)⟩
        rcases div_eq_zero_iff.mp h4 with h5 | h5
        · have := pow_eq_zero_iff (two_ne_zero) |>.mp h5; linarith
        · linarith
      · rintro ⟨h4, h5⟩
        rw [h2.mpr h5, h4]; simp

/-- C222: the cost is never negative, and zero exactly if a galaxy is selected, no parameter is below 0.1 and every bin has exactly the
expected number. -/
theorem C222_zero [FloorRing α] {sqrt : α → α} (hs : SqrtOK sqrt) (n : α) (hn : 0 < n) (r : α × α) (bs : α) (vol : List α)
    (hv : ∀ v ∈ vol, 0 < v) (sel : List α → List α) (pars : List α) (hlen : (costHist r bs (sel pars)).length = vol.length) :
    0 ≤ cost sqrt n r bs vol sel pars
    ∧ (cost sqrt n r bs vol sel pars = 0 ↔ sel pars ≠ [] ∧ (∀ p ∈ pars, 1 / 10 ≤ p)
        ∧ (costHist r bs (sel pars)).map (fun k : Nat => (k : α)) = vol.map fun v => n * v) := by
  obtain ⟨h1, h2, h3⟩ := C222_cost hs n hn r bs vol hv sel pars
  have he : ∀ x ∈ vol.map fun v => n * v, 0 < x := by
    intro x hx
    obtain ⟨v, hm, rfl⟩ := List.mem_map.mp hx
    have := hv v hm
    positivity
  have hz := pearson_zero (costHist r bs (sel pars)) _ (by simpa using hlen) he
  have hp := pearson_nonneg (costHist r bs (sel pars)) _ he
  by_cases hsel : sel pars = []
  · rw [h1 hsel]
    exact ⟨by positivity, by simp [hsel]⟩
  · by_cases hb : ∀ p ∈ pars, 1 / 10 ≤ p
    · rw [h2 hsel hb]
      exact ⟨hp, by rw [hz]; exact ⟨fun h => ⟨hsel, hb, h⟩, fun h => h.2.2⟩⟩
    · have hb' : ∃ p ∈ pars, p < 1 / 10 := by push Not at hb; exact hb
      rw [h3 hsel hb']
      refine ⟨by linarith, ⟨fun h => by linarith, fun h => absurd h.2.1 hb⟩⟩

/-! ## C223: ranges and bins -/

variable [FloorRing α]

/-- C223: the range of the cost starts a buffer after the range of the mode, is a whole number of bins, reaches the end of the mode less the
buffer and goes less than a bin further. -/
theorem C223_range (z0 z1 buffer bs : α) (hbs : 0 < bs) :
    (costRange z0 z1 buffer bs).1 = z0 + buffer
    ∧ (∃ k : Int, (costRange z0 z1 buffer bs).2 - (costRange z0 z1 buffer bs).1 = (k : α) * bs)
    ∧ z1 - buffer ≤ (costRange z0 z1 buffer bs).2 ∧ (costRange z0 z1 buffer bs).2 < z1 - buffer + bs := by
  unfold costRange
  simp only
  have h1 := Int.le_ceil (((z1 - buffer) - (z0 + buffer)) / bs)
  have h2 := Int.ceil_lt_add_one (((z1 - buffer) - (z0 + buffer)) / bs)
  rw [div_le_iff₀ hbs] at h1
  have h2' : (⌈((z1 - buffer) - (z0 + buffer)) / bs⌉ : α) - 1 < ((z1 - buffer) - (z0 + buffer)) / bs := by linarith
  rw [lt_div_iff₀ hbs] at h2'
  refine ⟨trivial, ⟨⌈((z1 - buffer) - (z0 + buffer)) / bs⌉, by ring⟩, by linarith, by linarith⟩

/-- C223 (guarded): the range stays within the mode when the bins are not wider than the buffer. -/
theorem C223_within_partial (z0 z1 buffer bs : α) (hbs : 0 < bs) (h : bs ≤ buffer) : (costRange z0 z1 buffer bs).2 < z1 := by
  have := (C223_range z0 z1 buffer bs hbs).2.2.2
  linarith

/-- C223 is false in general: without a buffer the range ends beyond the mode unless it is a whole number of bins. -/
theorem C223_within_false (z0 z1 bs : α) (hbs : 0 < bs) (h : ∀ k : Int, z1 - z0 ≠ (k : α) * bs) : z1 < (costRange z0 z1 0 bs).2 := by
  obtain ⟨h1, ⟨k, hk⟩, h3, _⟩ := C223_range z0 z1 0 bs hbs
  rcases lt_or_eq_of_le h3 with hlt | he
  · linarith
  · exfalso
    apply h k
    rw [h1] at hk
    linarith

theorem histSize_cost (lo bs : α) (k : Nat) (hk : 0 < k) (hbs : 1 / 10000 ≤ bs) : histSize lo (lo + (k : α) * bs - 1 / 10000) bs = k := by
  have hb0 : 0 < bs := lt_of_lt_of_le (by norm_num) hbs
  unfold histSize
  have : ⌊(lo + (k : α) * bs - 1 / 10000 - lo) / bs⌋ = (k : Int) - 1 := by
    rw [Int.floor_eq_iff]
    push_cast
    constructor
    · rw [le_div_iff₀ hb0]
      linarith
    · rw [div_lt_iff₀ hb0]
      linarith
  rw [this]; simp

/-- C223: the histogram has one bin for every bin of the range, and counts in it exactly the galaxies whose sampled redshift is in it and not
in the last 0.0001 of the range. -/
theorem C223_bins (lo bs : α) (k : Nat) (hk : 0 < k) (hbs : 1 / 10000 ≤ bs) (samp : List α) :
    (costHist (lo, lo + (k : α) * bs) bs samp).length = k
    ∧ ∀ j, j < k → (costHist (lo, lo + (k : α) * bs) bs samp)[j]?
        = some (samp.countP fun x => decide (lo + (j : α) * bs ≤ x ∧ x < lo + ((j : α) + 1) * bs ∧ x ≤ lo + (k : α) * bs - 1 / 10000)) := by
  have hb0 : 0 < bs := lt_of_lt_of_le (by norm_num) hbs
  unfold costHist hist
  simp only
  rw [histSize_cost lo bs k hk hbs]
  refine ⟨by simp, fun j hj => ?_⟩
  rw [List.getElem?_map, List.getElem?_range hj]
  simp only [Option.map_some, Option.some.injEq]
  apply List.countP_congr
  intro x _
  simp only [Bool.and_eq_true, decide_eq_true_eq]
  rw [Int.floor_eq_iff, le_div_iff₀ hb0, div_lt_iff₀ hb0]
  simp only [Int.cast_natCast]
  have hj0 : (0 : α) ≤ (j : α) * bs := by positivity
  constructor
  · rintro ⟨⟨h1, h2⟩, h3, h4⟩
    exact ⟨by linarith, by linarith, h2⟩
  · rintro ⟨h1, h2, h3⟩
    exact ⟨⟨by linarith, h3⟩, by linarith, by linarith⟩

/-- C223 is false of galaxies in the last 0.0001 of the range: they are in no bin. -/
theorem C223_end_false (lo bs x : α) (k : Nat) (hbs : 1 / 10000 ≤ bs) (h : lo + (k : α) * bs - 1 / 10000 < x) :
    ∀ c ∈ costHist (lo, lo + (k : α) * bs) bs [x], c = 0 := by
  intro c hc
  unfold costHist hist at hc
  simp only [List.mem_map] at hc
  obtain ⟨j, _, rfl⟩ := hc
  rw [List.countP_eq_zero]
  intro y hy
  simp only [List.mem_singleton] at hy
  subst hy
  simp only [Bool.and_eq_true, decide_eq_true_eq, not_and]
  intro h1
  linarith [h1.2]

/-- C223: the centers are in the middle of the bins. -/
theorem C223_centers (r : α × α) (bs : α) (n j : Nat) (hj : j < n) :
    (binCenters r bs n).length = n ∧ (binCenters r bs n)[j]? = some ((r.1 + (j : α) * bs + (r.1 + ((j : α) + 1) * bs)) / 2) := by
  unfold binCenters
  refine ⟨by simp, ?_⟩
  rw [List.getElem?_map, List.getElem?_range hj]
  simp only [Option.map_some, Option.some.injEq]
  ring

example : costRange (1 / 10 : ℚ) (95 / 100) (5 / 100) (2 / 100) = (15 / 100, 91 / 100)
    ∧ costHist ((15 / 100, 19 / 100) : ℚ × ℚ) (2 / 100) [16 / 100, 17 / 100, 18 / 100, 19 / 100] = [1, 2] := by decide +kernel

/-! ## C224: areas and volumes -/

omit [FloorRing α]

/-- C224 (guarded): within the table the area is that of the first redshift of the table that is not below. -/
theorem C224_area_partial (table : List (α × α)) (hs : table.Pairwise fun a b => a.1 < b.1) (z : α) (t : α × α) (ht : t ∈ table) (hz : z ≤ t.1)
    (hfirst : ∀ u ∈ table, z ≤ u.1 → t.1 ≤ u.1) : areaAt table z = .ok t.2 := by
  obtain ⟨i, hi, rfl⟩ := List.getElem_of_mem ht
  have hget := List.pairwise_iff_getElem.mp hs
  have hcount : (table.countP fun t => decide (t.1 < z)) = i := by
    have e1 : (table.take i).countP (fun t => decide (t.1 < z)) = i := by
      have : (table.take i).countP (fun t => decide (t.1 < z)) = (table.take i).length := by
        rw [List.countP_eq_length]
        intro x hx
        obtain ⟨j, hj, rfl⟩ := List.getElem_of_mem hx
        simp only [List.length_take] at hj
        simp only [List.getElem_take, decide_eq_true_eq]
        by_contra hc
        have := hfirst table[j] (List.getElem_mem _) (not_lt.mp hc)
        have h2 := hget j i (by omega) hi (by omega)
        linarith
      rw [this, List.length_take]; omega
    have e2 : (table.drop i).countP (fun t => decide (t.1 < z)) = 0 := by
      rw [List.countP_eq_zero]
      intro x hx
      obtain ⟨j, hj, rfl⟩ := List.getElem_of_mem hx
      rw [List.getElem_drop]
      simp only [decide_eq_true_eq, not_lt]
      rcases Nat.eq_zero_or_pos j with h | h
      · subst h; simpa using hz
      · exact hz.trans (hget i (i + j) hi _ (by omega)).le
    calc table.countP (fun t => decide (t.1 < z)) = (table.take i).countP (fun t => decide (t.1 < z)) + (table.drop i).countP (fun t => decide (t.1 < z)) := by
          rw [← List.countP_append, List.take_append_drop]
      _ = i := by rw [e1, e2]; rfl
  unfold areaAt
  rw [hcount, List.getElem?_eq_getElem hi]

/-- C224 is false beyond the table: every redshift above all of the table raises. -/
theorem C224_area_false (table : List (α × α)) (z : α) (h : ∀ t ∈ table, t.1 < z) : areaAt table z = .error .indexError := by
  unfold areaAt
  have : (table.countP fun t => decide (t.1 < z)) = table.length := by
    rw [List.countP_eq_length]; intro t ht; simpa using h t ht
  rw [this, List.getElem?_eq_none le_rfl]

/-- C224: all redshifts of the table are below the end of the run, so a mode that ends (less the buffer) at or after the end of the run cannot
be calibrated: the area at the end of the range of the cost raises. -/
theorem C224_end_false [FloorRing α] (z0 zend step : α) (hst : 0 < step) (areas : List α) (m0 zmode buffer bs : α) (hbs : 0 < bs)
    (h : zend ≤ zmode - buffer) :
    areaAt ((tableZ z0 zend step).zip areas) (costRange m0 zmode buffer bs).2 = .error .indexError := by
  apply C224_area_false
  intro t ht
  have h1 : t.1 ∈ tableZ z0 zend step := (List.of_mem_zip ht).1
  unfold tableZ at h1
  simp only [List.mem_map, List.mem_range] at h1
  obtain ⟨k, hk, he⟩ := h1
  have hk' : (k : Int) < ⌈(zend - z0) / step⌉ := by omega
  have hk2 : ((k : Int) : α) < (zend - z0) / step := Int.lt_ceil.mp hk'
  rw [lt_div_iff₀ hst] at hk2
  simp only [Int.cast_natCast] at hk2
  have h3 := (C223_range m0 zmode buffer bs hbs).2.2.1
  rw [← he]
  linarith

example : areaAt [((1 / 10 : ℚ), 100), (2 / 10, 90), (3 / 10, 80)] (15 / 100) = .ok 90
    ∧ areaAt [((1 / 10 : ℚ), 100), (2 / 10, 90), (3 / 10, 80)] (35 / 100) = .error .indexError := by decide +kernel

/-! ## C225: start of the fit -/

theorem sorted_rank (l : List α) (k : Nat) (hk : k < l.length) :
    ∃ v, (l.insertionSort (· ≤ ·))[k]? = some v ∧ v ∈ l ∧
      (l.countP fun y => decide (y < v)) ≤ k ∧ k < (l.countP fun y => decide (y ≤ v)) := by
  generalize hs : l.insertionSort (· ≤ ·) = s
  have hperm : s.Perm l := hs ▸ List.perm_insertionSort _ _
  have hsort : s.Pairwise (· ≤ ·) := hs ▸ List.pairwise_insertionSort _ _
  have hk' : k < s.length := by rw [hperm.length_eq]; exact hk
  have hget := List.pairwise_iff_getElem.mp hsort
  refine ⟨s[k], List.getElem?_eq_getElem hk', hperm.mem_iff.mp (List.getElem_mem _), ?_, ?_⟩
  · rw [← hperm.countP_eq]
    have h0 : (s.drop k).countP (fun y => decide (y < s[k])) = 0 := by
      rw [List.countP_eq_zero]
      intro y hy
      obtain ⟨i, hi, rfl⟩ := List.getElem_of_mem hy
      rw [List.getElem_drop]
      simp only [decide_eq_true_eq, not_lt]
      rcases Nat.eq_zero_or_pos i with h | h
      · subst h; simp
      · exact hget k (k + i) hk' _ (by omega)
    calc s.countP (fun y => decide (y < s[k])) = (s.take k).countP (fun y => decide (y < s[k])) + (s.drop k).countP (fun y => decide (y < s[k])) := by
          rw [← List.countP_append, List.take_append_drop]
      _ ≤ (s.take k).length + 0 := by rw [h0]; exact Nat.add_le_add_right List.countP_le_length 0
      _ ≤ k := by rw [List.length_take]; omega
  · rw [← hperm.countP_eq]
    have h1 : (s.take (k + 1)).countP (fun y => decide (y ≤ s[k])) = (s.take (k + 1)).length := by
      rw [List.countP_eq_length]
      intro y hy
      obtain ⟨i, hi, rfl⟩ := List.getElem_of_mem hy
      simp only [List.length_take] at hi
      simp only [List.getElem_take, decide_eq_true_eq]
      rcases Nat.lt_or_ge i k with h | h
      · exact hget i k (by omega) hk' h
      · have : i = k := by omega
        subst this; exact le_rfl
    have h2 := (List.take_sublist (k + 1) s).countP_le (p := fun y => decide (y ≤ s[k]))
    rw [h1, List.length_take] at h2
    omega

theorem count_below (n vol : α) (hn : 0 < n) (hv : 0 < vol) (m : Nat) :
    let c := (List.range m).countP fun (k : Nat) => decide ((k : α) / vol < n)
    c ≤ m ∧ (∀ k, k < c → (k : α) < n * vol) ∧ (c < m → n * vol ≤ (c : α)) := by
  intro c
  induction m with
  | zero => exact ⟨by simp [c], by intro k hk; simp [c] at hk, by simp⟩
  | succ m ih =>
    obtain ⟨i1, i2, i3⟩ := ih
    have hc : c = ((List.range m).countP fun (k : Nat) => decide ((k : α) / vol < n)) + (if (m : α) / vol < n then 1 else 0) := by
      simp only [c, List.range_succ, List.countP_append, List.countP_singleton]
      split_ifs <;> simp_all
    by_cases h : (m : α) / vol < n
    · rw [if_pos h] at hc
      rw [div_lt_iff₀ hv] at h
      have hfull : ((List.range m).countP fun (k : Nat) => decide ((k : α) / vol < n)) = m := by
        rcases Nat.lt_or_ge ((List.range m).countP fun (k : Nat) => decide ((k : α) / vol < n)) m with h' | h'
        · exfalso
          have := i3 h'
          have hm : (((List.range m).countP fun (k : Nat) => decide ((k : α) / vol < n) : Nat) : α) < (m : α) := by exact_mod_cast h'
          linarith
        · omega
      rw [hfull] at hc
      refine ⟨by omega, fun k hk => ?_, fun hlt => by omega⟩
      have : (k : α) ≤ (m : α) := by exact_mod_cast (by omega : k ≤ m)
      linarith
    · rw [if_neg h, Nat.add_zero] at hc
      rw [hc]
      refine ⟨by omega, i2, fun _ => ?_⟩
      rcases Nat.lt_or_ge ((List.range m).countP fun (k : Nat) => decide ((k : α) / vol < n)) m with h' | h'
      · exact i3 h'
      · have : ((List.range m).countP fun (k : Nat) => decide ((k : α) / vol < n)) = m := by omega
        rw [this]
        rw [not_lt, le_div_iff₀ hv] at h
        exact h

/-- C225 (guarded): with a galaxy near the node the start is the chi-squared of one of them; fewer than the wanted number plus one have a
smaller chi-squared; and with more galaxies than wanted, more than the wanted number have at most this chi-squared. -/
theorem C225_start_partial (n vol : α) (hn : 0 < n) (hv : 0 < vol) (chis : List α) (hne : chis ≠ []) :
    ∃ c, startValue n vol chis = .ok c ∧ c ∈ chis
      ∧ ((chis.countP fun y => decide (y < c) : Nat) : α) < n * vol + 1
      ∧ (n * vol < (chis.length : α) - 1 → n * vol < ((chis.countP fun y => decide (y ≤ c) : Nat) : α))
      ∧ ((chis.length : α) - 1 ≤ n * vol → ∀ y ∈ chis, y ≤ c) := by
  have hlen : 0 < chis.length := List.length_pos_iff.mpr hne
  obtain ⟨k1, k2, k3⟩ := count_below n vol hn hv chis.length
  set cc := (List.range chis.length).countP fun (k : Nat) => decide ((k : α) / vol < n) with hcc
  have hind : min cc (chis.length - 1) < chis.length := by omega
  obtain ⟨c, h1, h2, h3, h4⟩ := sorted_rank chis (min cc (chis.length - 1)) hind
  refine ⟨c, ?_, h2, ?_, ?_, ?_⟩
  · unfold startValue
    simp only
    rw [← hcc, h1]
  · rcases Nat.eq_zero_or_pos (min cc (chis.length - 1)) with h0 | h0
    · have : (chis.countP fun y => decide (y < c)) = 0 := by omega
      rw [this]; have : 0 < n * vol := by positivity
      push_cast; linarith
    · have h5 := k2 (min cc (chis.length - 1) - 1) (by omega)
      have h6 : ((chis.countP fun y => decide (y < c) : Nat) : α) ≤ ((min cc (chis.length - 1) - 1 : Nat) : α) + 1 := by
        exact_mod_cast (by omega : (chis.countP fun y => decide (y < c)) ≤ (min cc (chis.length - 1) - 1) + 1)
      linarith
  · intro hmany
    rcases Nat.lt_or_ge cc chis.length with h | h
    · have h5 := k3 h
      rcases Nat.lt_or_ge cc (chis.length - 1) with h' | h'
      · have h6 : (cc : α) < ((chis.countP fun y => decide (y ≤ c) : Nat) : α) := by exact_mod_cast (by omega)
        linarith
      · have h6 : ((chis.length - 1 : Nat) : α) < ((chis.countP fun y => decide (y ≤ c) : Nat) : α) := by exact_mod_cast (by omega)
        rw [Nat.cast_sub hlen] at h6
        push_cast at h6
        linarith
    · have h5 := k2 (chis.length - 1) (by omega)
      rw [Nat.cast_sub hlen] at h5
      push_cast at h5
      linarith
  · intro hfew y hy
    have hcl : chis.length - 1 ≤ cc := by
      by_contra hlt
      have h5 := k3 (by omega)
      have h6 : (cc : α) + 1 ≤ ((chis.length - 1 : Nat) : α) := by exact_mod_cast (by omega)
      rw [Nat.cast_sub hlen] at h6
      push_cast at h6
      linarith
    have h7 : (chis.countP fun y => decide (y ≤ c)) = chis.length := by
      have := List.countP_le_length (p := fun y => decide (y ≤ c)) (l := chis)
      omega
    rw [List.countP_eq_length] at h7
    simpa using h7 y hy

/-- C225 is false without a galaxy near a node: the calibration raises, although too few galaxies are only worth a warning. -/
theorem C225_start_false (n vol : α) : startValue n vol ([] : List α) = .error .indexError := by
  simp [startValue]

/-- C225: the galaxies near a node are exactly those strictly inside its range; the range is a bin wide and inside the nodes at both ends. -/
theorem C225_near (nodes : List α) (bs : α) (j : Nat) (hj : j < nodes.length) (gals : List (α × α)) (c : α) :
    (c ∈ near (nodeRange nodes bs j) gals ↔ ∃ z, (z, c) ∈ gals ∧ (nodeRange nodes bs j).1 < z ∧ z < (nodeRange nodes bs j).2)
    ∧ (nodeRange nodes bs j).2 - (nodeRange nodes bs j).1 = bs
    ∧ (j = 0 → (nodeRange nodes bs j).1 = nodes[j])
    ∧ (0 < j → j + 1 = nodes.length → (nodeRange nodes bs j).2 = nodes[j])
    ∧ (0 < j → j + 1 < nodes.length → ((nodeRange nodes bs j).1 + (nodeRange nodes bs j).2) / 2 = nodes[j]) := by
  have hg : nodes.getD j 0 = nodes[j] := by simp [List.getD, hj]
  refine ⟨?_, ?_, ?_, ?_, ?_⟩
  · unfold near
    simp only [List.mem_map, List.mem_filter, Bool.and_eq_true, decide_eq_true_eq, Prod.exists, exists_eq_right]
  · unfold nodeRange; simp only; split_ifs <;> simp only <;> ring
  · intro h; unfold nodeRange; simp only [h, if_true]; subst h; exact hg
  · intro h0 h1; unfold nodeRange; simp only [if_neg (show ¬ j = 0 by omega), if_pos (show j = nodes.length - 1 by omega), hg]
  · intro h0 h1; unfold nodeRange
    simp only [if_neg (show ¬ j = 0 by omega), if_neg (show ¬ j = nodes.length - 1 by omega), hg]; ring

example : startValue (1 : ℚ) 2 [5, 1, 3, 9] = .ok 5 ∧ startValue (1 : ℚ) 20 [5, 1, 3, 9] = .ok 9
    ∧ near (nodeRange [(1 : ℚ), 2, 3] (1 / 2) 1) [(19 / 10, 4), (3, 5), (21 / 10, 6)] = [4, 6] := by
  refine ⟨by decide +kernel, by decide +kernel, by decide +kernel⟩

/-! ## C226: training sample -/

/-- C226: the afterburner is trained on different galaxies, all with a calibration redshift; their number is the fraction of those that have
one, rounded down. -/
theorem C226_train [FloorRing α] (argsort : List α → List Nat) (ha : Argsort argsort) (frac : α) (hf0 : 0 ≤ frac) (hf1 : frac ≤ 1)
    (zcal draws : List α) (hd : draws.length = zcal.countP fun z => decide (0 < z)) :
    (train argsort frac zcal draws).Nodup
    ∧ (∀ i ∈ train argsort frac zcal draws, ∃ h : i < zcal.length, 0 < zcal[i])
    ∧ ((train argsort frac zcal draws).length : Int) = ⌊frac * ((zcal.countP fun z => decide (0 < z) : Nat) : α)⌋ := by
  set gd := (List.range zcal.length).filter fun i => decide (0 < zcal.getD i 0) with hgd
  have hgl : gd.length = zcal.countP fun z => decide (0 < z) := by
    rw [hgd, ← List.countP_eq_length_filter]
    have h1 : zcal = (List.range zcal.length).map fun i => zcal.getD i 0 := by
      apply List.ext_getElem
      · simp
      · intro i h1 h2; simp [List.getD, h1]
    conv_rhs => rw [h1, List.countP_map]
    rfl
  have hperm := (ha draws).1
  have htr : train argsort frac zcal draws = takeRows gd ((argsort draws).take ⌊frac * (gd.length : α)⌋.toNat) := rfl
  rw [hd, ← hgl] at hperm
  have hsub : ((argsort draws).take ⌊frac * (gd.length : α)⌋.toNat).Sublist (argsort draws) := List.take_sublist _ _
  have hall := Finders.takeRows_perm gd (argsort draws) hperm
  have hgn : gd.Nodup := List.nodup_range.filter _
  have hsub2 : (train argsort frac zcal draws).Sublist (takeRows gd (argsort draws)) := by
    rw [htr]; unfold takeRows; exact hsub.filterMap _
  refine ⟨(hall.nodup_iff.mpr hgn).sublist hsub2, ?_, ?_⟩
  · intro i hi
    have := hall.mem_iff.mp (hsub2.subset hi)
    rw [hgd, List.mem_filter, List.mem_range] at this
    obtain ⟨h1, h2⟩ := this
    refine ⟨h1, ?_⟩
    simpa [List.getD, h1] using h2
  · have hlen : ∀ idx : List Nat, (∀ i ∈ idx, i < gd.length) → (takeRows gd idx).length = idx.length := by
      intro idx
      induction idx with
      | nil => intro _; rfl
      | cons a t ih =>
        intro h
        have h0 := h a (by simp)
        have := ih (fun i hi => h i (by simp [hi]))
        unfold takeRows at *
        rw [List.filterMap_cons_some (List.getElem?_eq_getElem h0)]
        simp [this]
    rw [htr, hlen _ (by
      intro i hi
      have := hperm.mem_iff.mp (hsub.subset hi)
      simpa using this), List.length_take, hperm.length_eq, List.length_range, ← hgl]
    have h1 : 0 ≤ ⌊frac * (gd.length : α)⌋ := Int.floor_nonneg.mpr (by positivity)
    have h2 : ⌊frac * (gd.length : α)⌋ ≤ gd.length := by
      have : frac * (gd.length : α) ≤ (gd.length : α) := by
        have : (0 : α) ≤ (gd.length : α) := by positivity
        nlinarith
      have h3 := Int.floor_le (frac * (gd.length : α))
      have : ((⌊frac * (gd.length : α)⌋ : Int) : α) ≤ ((gd.length : Int) : α) := by push_cast; linarith
      exact_mod_cast this
    omega

example : Argsort (argsortRef (β := ℚ)) ∧ train argsortRef (1 / 2 : ℚ) [1, -1, 2, 3, 4] [4, 1, 3, 2] = [2, 4] :=
  ⟨argsortRef_ok, by decide +kernel⟩

/-! ## C227: calibration redshifts -/

/-- C227: a galaxy that is no member with enough probability has no calibration redshift; any other has the redshift of such a membership and
the error of the cluster. -/
theorem C227_calib (cat : List (Nat × α)) (hc : (cat.map Prod.fst).Nodup) (pcut : α) (mems : List (Member α)) (id : Nat) :
    ((∀ m ∈ mems, m.id = id → m.p ≤ pcut) → calibZ cat pcut mems id = (-1, -1))
    ∧ ((∃ m ∈ mems, m.id = id ∧ pcut < m.p) → ∃ m ∈ mems, m.id = id ∧ pcut < m.p ∧ (calibZ cat pcut mems id).1 = m.z
        ∧ (∀ e, (m.cluster, e) ∈ cat → (calibZ cat pcut mems id).2 = e)
        ∧ ((∀ e, (m.cluster, e) ∉ cat) → (calibZ cat pcut mems id).2 = 0)) := by
  have key : ∀ (ms : List (Member α)) (f : Nat → α × α),
      (∃ m ∈ ms, m.id = id ∧ ms.foldl (fun (f : Nat → α × α) m => Function.update f m.id (m.z, memErr cat m)) f id = (m.z, memErr cat m))
      ∨ ((∀ m ∈ ms, m.id ≠ id) ∧ ms.foldl (fun (f : Nat → α × α) m => Function.update f m.id (m.z, memErr cat m)) f id = f id) := by
    intro ms
    induction ms with
    | nil => intro f; right; simp
    | cons a t ih =>
      intro f
      rw [List.foldl_cons]
      rcases ih (Function.update f a.id (a.z, memErr cat a)) with ⟨m, hm, h1, h2⟩ | ⟨h1, h2⟩
      · left; exact ⟨m, by simp [hm], h1, h2⟩
      · by_cases ha : a.id = id
        · left; refine ⟨a, by simp, ha, ?_⟩
          rw [h2, ← ha, Function.update_self]
        · right
          refine ⟨?_, ?_⟩
          · intro m hm
            rcases List.mem_cons.mp hm with rfl | hm
            · exact ha
            · exact h1 m hm
          · rw [h2, Function.update_of_ne (Ne.symm ha)]
  constructor
  · intro h
    rcases key (mems.filter fun m => decide (pcut < m.p)) (fun _ => (-1, -1)) with ⟨m, hm, h1, _⟩ | ⟨_, h2⟩
    · rw [List.mem_filter] at hm
      have := h m hm.1 h1
      simp only [decide_eq_true_eq] at hm
      exact absurd hm.2 (not_lt.mpr this)
    · exact h2
  · rintro ⟨m0, hm0, h0, hp0⟩
    rcases key (mems.filter fun m => decide (pcut < m.p)) (fun _ => (-1, -1)) with ⟨m, hm, h1, h2⟩ | ⟨h1, _⟩
    · rw [List.mem_filter] at hm
      simp only [decide_eq_true_eq] at hm
      have hz : calibZ cat pcut mems id = (m.z, memErr cat m) := h2
      refine ⟨m, hm.1, h1, hm.2, by rw [hz], ?_, ?_⟩
      · intro e he
        rw [hz]
        simp only [memErr]
        have : cat.find? (fun c => c.1 == m.cluster) = some (m.cluster, e) := by
          cases hf : cat.find? (fun c => c.1 == m.cluster) with
          | none =>
            rw [List.find?_eq_none] at hf
            exact absurd (hf _ he) (by simp)
          | some c =>
            have h3 := List.find?_some hf
            have h4 := List.mem_of_find?_eq_some hf
            simp only [beq_iff_eq] at h3
            have := List.inj_on_of_nodup_map hc h4 he h3
            rw [this]
        rw [this]; rfl
      · intro hno
        rw [hz]
        simp only [memErr]
        have : cat.find? (fun c => c.1 == m.cluster) = none := by
          rw [List.find?_eq_none]
          rintro ⟨a, e⟩ hc' heq
          simp only [beq_iff_eq] at heq
          subst heq
          exact hno e hc'
        rw [this]; rfl
    · exact absurd h0 (h1 m0 (by simp [hm0, hp0]))

example : calibZ [(7, (1 / 100 : ℚ)), (8, 2 / 100)] (9 / 10) [⟨1, 7, 95 / 100, 3 / 10⟩, ⟨2, 8, 5 / 10, 4 / 10⟩, ⟨3, 8, 99 / 100, 4 / 10⟩] 3 = (4 / 10, 2 / 100)
    ∧ calibZ [(7, (1 / 100 : ℚ)), (8, 2 / 100)] (9 / 10) [⟨1, 7, 95 / 100, 3 / 10⟩, ⟨2, 8, 5 / 10, 4 / 10⟩] 2 = (-1, -1) := by decide +kernel

/-! ## C228: iterations -/

/-- What the fit of the corrections promises: values within its bounds. -/
def CorrOK (ncorr : Nat) (fitBE : Pars α → List α × List α) : Prop :=
  ∀ s, (fitBE s).1.length = ncorr ∧ (fitBE s).2.length = ncorr
    ∧ (∀ b ∈ (fitBE s).1, -(1 / 10) ≤ b ∧ b ≤ 1 / 10) ∧ (∀ e ∈ (fitBE s).2, 1 / 2 ≤ e ∧ e ≤ 3 / 2)

/-- What the minimizer promises: one value per node and no increase of the cost, for the corrections given. -/
def FitOK (nnodes : Nat) (cost : Pars α → α) (fitC : Pars α → List α) : Prop :=
  ∀ s, (fitC s).length = nnodes ∧ cost ⟨fitC s, s.bias, s.eratio⟩ ≤ cost s

/-- C228: one recorded value for each node; corrections within their bounds; none without the afterburner; the constant if there is one. -/
theorem C228_recorded (nnodes ncorr : Nat) (const : Option α) (ab : Bool) (start : List α) (fitBE : Pars α → List α × List α)
    (fitC : Pars α → List α) (cost : Pars α → α) (hb : CorrOK ncorr fitBE) (hf : FitOK nnodes cost fitC) :
    let r := calibrate nnodes ncorr const ab start fitBE fitC
    r.cmax.length = nnodes ∧ r.bias.length = ncorr ∧ r.eratio.length = ncorr
    ∧ (∀ b ∈ r.bias, -(1 / 10) ≤ b ∧ b ≤ 1 / 10) ∧ (∀ e ∈ r.eratio, 1 / 2 ≤ e ∧ e ≤ 3 / 2)
    ∧ (ab = false → (∀ b ∈ r.bias, b = 0) ∧ ∀ e ∈ r.eratio, e = 1)
    ∧ (∀ c, const = some c → ∀ x ∈ r.cmax, x = c) := by
  intro r
  have hz : ∀ b ∈ List.replicate ncorr (0 : α), -(1 / 10) ≤ b ∧ b ≤ 1 / 10 := by
    intro b h; rw [List.eq_of_mem_replicate h]; constructor <;> norm_num
  have ho : ∀ b ∈ List.replicate ncorr (1 : α), 1 / 2 ≤ b ∧ b ≤ 3 / 2 := by
    intro b h; rw [List.eq_of_mem_replicate h]; constructor <;> norm_num
  have hrep : ∀ (c x : α), x ∈ List.replicate nnodes c → x = c := fun c x h => List.eq_of_mem_replicate h
  have hstep : ∀ k s, ((abStep fitBE fitC)^[k + 1] s).cmax.length = nnodes := by
    intro k s
    rw [Function.iterate_succ_apply']
    exact (hf _).1
  cases ab with
  | false =>
    cases const with
    | none =>
      exact ⟨(hf _).1, by simp [r, calibrate], by simp [r, calibrate], hz, ho,
        fun _ => ⟨fun b hb => List.eq_of_mem_replicate hb, fun b hb => List.eq_of_mem_replicate hb⟩, by simp⟩
    | some c =>
      refine ⟨by simp [r, calibrate], by simp [r, calibrate], by simp [r, calibrate], hz, ho,
        fun _ => ⟨fun b hb => List.eq_of_mem_replicate hb, fun b hb => List.eq_of_mem_replicate hb⟩, ?_⟩
      intro c' hc x hx
      simp only [Option.some.injEq] at hc
      subst hc
      exact hrep c x hx
  | true =>
    cases const with
    | none =>
      refine ⟨?_, (hb _).1, (hb _).2.1, (hb _).2.2.1, (hb _).2.2.2, by simp, by simp⟩
      exact hstep 4 _
    | some c =>
      refine ⟨by simp [r, calibrate], (hb _).1, (hb _).2.1, (hb _).2.2.1, (hb _).2.2.2, by simp, ?_⟩
      intro c' hc x hx
      simp only [Option.some.injEq] at hc
      subst hc
      exact hrep c x hx

/-- C228 (guarded): without the afterburner the recorded parameters are no worse than the start; with it the recorded chi-squared was fitted
with the corrections of the last iteration, and those recorded are fitted from them. -/
theorem C228_cost_partial (nnodes ncorr : Nat) (start : List α) (fitBE : Pars α → List α × List α) (fitC : Pars α → List α)
    (cost : Pars α → α) (hf : FitOK nnodes cost fitC) :
    cost (calibrate nnodes ncorr none false start fitBE fitC) ≤ cost ⟨start, List.replicate ncorr 0, List.replicate ncorr 1⟩
    ∧ ∃ c b e, let r := calibrate nnodes ncorr none true start fitBE fitC
        r.cmax = fitC ⟨c, b, e⟩ ∧ (r.bias, r.eratio) = fitBE ⟨r.cmax, b, e⟩ ∧ cost ⟨r.cmax, b, e⟩ ≤ cost ⟨c, b, e⟩ := by
  refine ⟨(hf _).2, ?_⟩
  let s0 : Pars α := ⟨fitC ⟨start, List.replicate ncorr 0, List.replicate ncorr 1⟩, List.replicate ncorr 0, List.replicate ncorr 1⟩
  let s4 := (abStep fitBE fitC)^[4] s0
  refine ⟨s4.cmax, (fitBE s4).1, (fitBE s4).2, ?_⟩
  have h5 : (abStep fitBE fitC)^[5] s0 = abStep fitBE fitC s4 := Function.iterate_succ_apply' _ 4 s0
  have hr : calibrate nnodes ncorr none true start fitBE fitC
      = ⟨((abStep fitBE fitC)^[5] s0).cmax, (fitBE ((abStep fitBE fitC)^[5] s0)).1, (fitBE ((abStep fitBE fitC)^[5] s0)).2⟩ := rfl
  intro r
  have hr' : r = ⟨(abStep fitBE fitC s4).cmax, (fitBE (abStep fitBE fitC s4)).1, (fitBE (abStep fitBE fitC s4)).2⟩ := by
    show calibrate nnodes ncorr none true start fitBE fitC = _
    rw [hr, h5]
  refine ⟨by rw [hr']; rfl, by rw [hr']; rfl, ?_⟩
  rw [hr']
  exact (hf _).2

/-- C228 is false with the afterburner: there are fits with the contracts for which the recorded parameters are worse than the start, with the
recorded corrections: the corrections are fitted once more after the last fit of the chi-squared. -/
theorem C228_cost_false : ∃ (cost : Pars ℚ → ℚ) (fitBE : Pars ℚ → List ℚ × List ℚ) (fitC : Pars ℚ → List ℚ),
    CorrOK 1 fitBE ∧ FitOK 1 cost fitC ∧
    let r := calibrate 1 1 none true [2] fitBE fitC
    cost ⟨[2], r.bias, r.eratio⟩ < cost r := by
  -- a galaxy sample where a cut of 2 is best without a bias and one of 1 with it; the bias is seen only at the cut of 2
  let cost : Pars ℚ → ℚ := fun s => if s.bias = [0] then (if s.cmax = [2] then 0 else 1) else (if s.cmax = [2] then 1 else 0)
  let fitC : Pars ℚ → List ℚ := fun s => if s.bias = [0] then [2] else [1]
  let fitBE : Pars ℚ → List ℚ × List ℚ := fun s => if s.cmax = [2] then ([1 / 10], [1]) else ([0], [1])
  refine ⟨cost, fitBE, fitC, ?_, ?_, ?_⟩
  · intro s
    simp only [fitBE]
    split_ifs <;> simp <;> norm_num
  · intro s
    refine ⟨by simp only [fitC]; split_ifs <;> rfl, ?_⟩
    simp only [fitC, cost]
    by_cases hb : s.bias = [0]
    · simp only [hb, if_true]; split_ifs <;> norm_num
    · simp only [hb, if_false]
      split_ifs <;> norm_num at *
  · decide +kernel

/-! ## C229: file of the calibration and volume limits of the modes -/

theorem readMode_append {β : Type} (a : List (String × β)) (e : String × β) (m : String) :
    readMode (a ++ [e]) m = if m = e.1 then some e.2 else readMode a m := by
  unfold readMode
  rw [List.foldl_append, List.foldl_cons, List.foldl_nil]
  by_cases h : m = e.1
  · rw [if_pos h, h, Function.update_self]
  · rw [if_neg h, Function.update_of_ne h]

theorem readMode_none {β : Type} (a : List (String × β)) (m : String) : readMode a m = none ↔ m ∉ a.map Prod.fst := by
  induction a using List.reverseRecOn with
  | nil => simp [readMode]
  | append_singleton l e ih =>
    rw [readMode_append]
    split_ifs with h
    · simp [h]
    · rw [ih]; simp [h]

theorem readMode_mem {β : Type} (a modes : List (String × β)) (hn : (modes.map Prod.fst).Nodup) (m : String) (d : β) (hm : (m, d) ∈ modes) :
    readMode (a ++ modes) m = some d := by
  induction modes using List.reverseRecOn with
  | nil => simp at hm
  | append_singleton l e ih =>
    rw [← List.append_assoc, readMode_append]
    rw [List.map_append, List.nodup_append] at hn
    obtain ⟨h1, _, h3⟩ := hn
    rcases List.mem_append.mp hm with h | h
    · have hne : m ≠ e.1 := h3 m (List.mem_map.mpr ⟨_, h, rfl⟩) e.1 (by simp)
      rw [if_neg hne]
      exact ih h1 h
    · simp only [List.mem_singleton] at h
      subst h
      simp

/-- C229: after the calibration every mode of the run has the parameters of this run, also if there was a file. -/
theorem C229_modes {β : Type} (file : Option (List (String × β))) (modes : List (String × β)) (hn : (modes.map Prod.fst).Nodup) (m : String)
    (d : β) (hm : (m, d) ∈ modes) : readMode (writeModes file modes) m = some d := readMode_mem _ modes hn m d hm

/-- C229 (guarded): without an old file there are exactly the modes of the run. -/
theorem C229_only_partial {β : Type} (modes : List (String × β)) (m : String) :
    readMode (writeModes none modes) m ≠ none ↔ m ∈ modes.map Prod.fst := by
  rw [Ne, readMode_none]; simp [writeModes]

/-- C229 is false with an old file: modes of old runs stay, with their old parameters. -/
theorem C229_only_false {β : Type} (old modes : List (String × β)) (m : String) (hm : m ∉ modes.map Prod.fst) :
    readMode (writeModes (some old) modes) m = readMode old m := by
  unfold writeModes
  rw [Option.getD_some]
  induction modes using List.reverseRecOn with
  | nil => simp
  | append_singleton l e ih =>
    rw [← List.append_assoc, readMode_append]
    simp only [List.map_append, List.map_cons, List.map_nil, List.mem_append, List.mem_singleton, not_or] at hm
    rw [if_neg hm.2]
    exact ih hm.1

/-- C229 (guarded): every mode has the volume limit of its luminosity, from the depth if there is a depth map and otherwise from the mask,
if the luminosities differ in the first decimal and the directory is empty. -/
theorem C229_masks_partial [FloorRing α] (depthfile maskfile : Bool) (etas : List α)
    (hd : ∀ a ∈ etas, ∀ b ∈ etas, Maps.nameOf a = Maps.nameOf b → a = b) :
    modeMasks (source depthfile maskfile) etas (fun _ => none)
      = etas.map fun e => if depthfile = true ∨ maskfile = true then some (e, !depthfile) else none := by
  have key : ∀ k : Bool, Maps.openAll (etas.map fun e => (e, k)) (fun _ => none) = etas.map fun e => (e, k) := by
    intro k
    apply Maps.C216_own_mask_partial
    intro a ha b hb h
    obtain ⟨x, hx, rfl⟩ := List.mem_map.mp ha
    obtain ⟨y, hy, rfl⟩ := List.mem_map.mp hb
    rw [hd x hx y hy h]
  cases depthfile <;> cases maskfile <;> simp [source, modeMasks, key]

/-- C229 is false for two modes whose luminosities have the same first decimal: both have the volume limit of the first. -/
theorem C229_masks_false [FloorRing α] (maskfile : Bool) (a b : α) (h : Maps.nameOf a = Maps.nameOf b) :
    modeMasks (source true maskfile) [a, b] (fun _ => none) = [some (a, false), some (a, false)] := by
  have := Maps.C216_own_mask_false ((a, false) : Maps.Built α) (b, false) h
  simp [source, modeMasks, this]

example : readMode (writeModes (some [("old", 1), ("highdens", 2)]) [("highdens", 3), ("highlum", 4)]) "highdens" = some 3
    ∧ readMode (writeModes (some [("old", 1), ("highdens", 2)]) [("highdens", 3), ("highlum", 4)]) "old" = some 1
    ∧ modeMasks (source true false) [(1 / 2 : ℚ), 1] (fun _ => none) = [some (1 / 2, false), some (1, false)]
    ∧ Maps.nameOf (1 / 2 : ℚ) = Maps.nameOf (55 / 100 : ℚ) := by
  refine ⟨by decide +kernel, by decide +kernel, by decide +kernel, by decide +kernel⟩

end Redmapper.RmCal
