/-
Properties of the diagnostic plots of the calibration of the red sequence.
-/
import Verif.Model.RsDiag
import Verif.Model.SpecRed
import Verif.Props.Mask
import Verif.Props.RmCal
import Verif.Props.PhotMap
import Mathlib.Tactic

set_option linter.unusedSectionVars false

namespace Redmapper.RsDiag

open Redmapper.Mask (median median_spec SqrtOK)
open Redmapper.RmCal (sorted_rank)
open Redmapper.PhotMap (bin_exists bin_unique foldl_min_spec foldl_max_spec)

variable {α : Type} [Field α] [LinearOrder α] [IsStrictOrderedRing α]

/-! ## Medians -/

/-- Neither more than half of the values are below, nor more than half above. -/
def IsMed (l : List α) (m : α) : Prop :=
  l ≠ [] ∧ 2 * l.countP (fun x => decide (x < m)) ≤ l.length ∧ 2 * l.countP (fun x => decide (m < x)) ≤ l.length

theorem isMed_median (l : List α) (h : l ≠ []) : IsMed l (median l) := ⟨h, median_spec l h⟩

/-- A median lies within the values. -/
theorem IsMed.ge {l : List α} {m a : α} (h : IsMed l m) (ha : ∀ x ∈ l, a ≤ x) : a ≤ m := by
  by_contra hc
  push Not at hc
  have : l.countP (fun x => decide (m < x)) = l.length := by
    rw [List.countP_eq_length]
    intro x hx
    simpa using lt_of_lt_of_le hc (ha x hx)
  have h0 := List.length_pos_of_ne_nil h.1
  have := h.2.2
  omega

theorem IsMed.lt {l : List α} {m b : α} (h : IsMed l m) (hb : ∀ x ∈ l, x < b) : m < b := by
  by_contra hc
  push Not at hc
  have : l.countP (fun x => decide (x < m)) = l.length := by
    rw [List.countP_eq_length]
    intro x hx
    simpa using lt_of_lt_of_le (hb x hx) hc
  have h0 := List.length_pos_of_ne_nil h.1
  have := h.2.1
  omega

/-! ## C363: comparison of redshifts -/

/-- The galaxies that are compared: probable members brighter than the limit with a redshift below 2; in the first mode `zred` against the true redshift, in
the second the true redshift against `zred2`. -/
def compared (second : Bool) (gals : List (Gal α)) : List (Obs α) :=
  (gals.filter fun g => decide (9 / 10 < g.p ∧ g.refmag < g.mlim ∧ g.zred < 2)).map fun g =>
    match second with
    | false => ⟨g.z, g.z, g.zred - g.z, g.zredE⟩
    | true => ⟨g.z, g.zred2, g.z - g.zred2, g.zred2E⟩

/-- The galaxies with a redshift in the bin of 0.02 from `lo` on. -/
def members (lo : α) (l : List (Obs α)) : List (Obs α) := l.filter fun o => decide (lo ≤ o.zuse ∧ o.zuse < lo + 1 / 50)

/-- Those among them within three errors, scaled by 1.4826, of `c`. -/
def close (c : α) (l : List (Obs α)) : List (Obs α) := l.filter fun o => decide (o.err ≠ 0 ∧ 14826 / 10000 * |o.dz - c| < 3 * |o.err|)

/-- What a point of the plot shows of the galaxies of its bin. -/
def Shown (b : List (Obs α)) (r : Row α) : Prop :=
  3 ≤ b.length ∧ ∃ c, IsMed (b.map Obs.dz) c ∧
    IsMed ((close c b).map Obs.ztrue) r.ztrue ∧ IsMed ((close c b).map Obs.zuse) r.zuse ∧ IsMed ((close c b).map Obs.dz) r.delta ∧
    IsMed ((close c b).map Obs.err) r.err ∧ (∃ m, IsMed ((close c b).map fun o => |o.dz - r.delta|) m ∧ r.std = 14826 / 10000 * m) ∧
    r.fout = ((b.countP fun o => decide (4 * r.std < |o.dz - r.delta|) : Nat) : α) / (b.length : α)

theorem compared_eq (second : Bool) (gals : List (Gal α)) : (gals.filter used).map (obs second) = compared second gals := by
  unfold compared
  have h1 : (gals.filter used) = gals.filter fun g => decide (9 / 10 < g.p ∧ g.refmag < g.mlim ∧ g.zred < 2) := by
    apply List.filter_congr
    intro g _
    simp only [used, Bool.decide_and, Bool.and_assoc]
  rw [h1]
  apply List.map_congr_left
  intro g _
  cases second <;> rfl

theorem inBin_eq (lo : α) (l : List (Obs α)) : inBin (1 / 50) lo l = members lo l := by
  unfold inBin members
  apply List.filter_congr
  intro o _
  simp only [Bool.decide_and]

theorem kept_eq (c : α) (l : List (Obs α)) : l.filter (kept c) = close c l := by
  unfold close
  apply List.filter_congr
  intro o _
  unfold kept
  rw [Bool.decide_and]
  by_cases h : o.err = 0
  · simp [h]
  · congr 1
    rw [decide_eq_decide, abs_div, div_lt_iff₀ (abs_pos.mpr h), abs_mul, abs_abs, abs_of_nonneg (by norm_num : (0 : α) ≤ 14826 / 10000)]

theorem binRow_shown (l : List (Obs α)) (lo : α) (r : Row α) (h : binRow (1 / 50) l lo = some r) : Shown (members lo l) r := by
  unfold binRow at h
  rw [inBin_eq] at h
  simp only at h
  split at h
  · cases h
  · rename_i h3
    rw [kept_eq] at h
    split at h
    · cases h
    · rename_i h0
      have hne : close (median ((members lo l).map Obs.dz)) (members lo l) ≠ [] := fun e => h0 (by rw [e]; rfl)
      have hb : (members lo l).map Obs.dz ≠ [] := by
        intro e
        rw [List.map_eq_nil_iff] at e
        rw [e] at h3
        simp at h3
      obtain rfl := (Option.some.inj h).symm
      refine ⟨by omega, _, isMed_median _ hb, isMed_median _ (by simpa using hne), isMed_median _ (by simpa using hne), isMed_median _ (by simpa using hne),
        isMed_median _ (by simpa using hne), ⟨_, isMed_median _ (by simpa using hne), rfl⟩, ?_⟩
      simp only
      rw [List.countP_eq_length_filter]

variable [FloorRing α]

/-- C363: every point is that of a bin of the range; the bins of the points are in order. -/
theorem C363_points (z0 z1 : α) (second : Bool) (gals : List (Gal α)) :
    ∃ ks : List Nat, ks.Pairwise (· < ·) ∧
      List.Forall₂ (fun k r => z0 + (k : α) / 50 < z1 ∧ Shown (members (z0 + (k : α) / 50) (compared second gals)) r ∧ 0 < r.ztrue) ks
        (rows z0 z1 second gals) := by
  unfold rows
  rw [compared_eq]
  generalize compared second gals = l
  have key : ∀ ns : List Nat, ns.Pairwise (· < ·) → (∀ k ∈ ns, z0 + (k : α) / 50 < z1) → ∃ ks : List Nat, ks.Pairwise (· < ·) ∧ (∀ k ∈ ks, k ∈ ns) ∧
      List.Forall₂ (fun k r => z0 + (k : α) / 50 < z1 ∧ Shown (members (z0 + (k : α) / 50) l) r ∧ 0 < r.ztrue) ks
        (((ns.map fun (k : Nat) => z0 + (k : α) * (1 / 50)).filterMap (binRow (1 / 50) l)).filter fun r => decide (0 < r.ztrue)) := by
    intro ns
    induction ns with
    | nil => intro _ _; exact ⟨[], List.Pairwise.nil, by simp, by simp⟩
    | cons n ns ih =>
      intro hp hall
      rw [List.pairwise_cons] at hp
      obtain ⟨ks, h1, h2, h3⟩ := ih hp.2 fun k hk => hall k (List.mem_cons_of_mem _ hk)
      rw [List.map_cons, List.filterMap_cons]
      cases hb : binRow (1 / 50) l (z0 + (n : α) * (1 / 50)) with
      | none => exact ⟨ks, h1, fun k hk => List.mem_cons_of_mem _ (h2 k hk), h3⟩
      | some r =>
        simp only
        rw [List.filter_cons]
        split
        · rename_i hz
          refine ⟨n :: ks, List.pairwise_cons.mpr ⟨fun k hk => hp.1 k (h2 k hk), h1⟩, ?_, List.Forall₂.cons ⟨hall n (by simp), ?_, by simpa using hz⟩ h3⟩
          · intro k hk
            rcases List.mem_cons.mp hk with rfl | hk
            · simp
            · exact List.mem_cons_of_mem _ (h2 k hk)
          · have := binRow_shown l _ r hb
            rwa [mul_one_div] at this
        · exact ⟨ks, h1, fun k hk => List.mem_cons_of_mem _ (h2 k hk), h3⟩
  obtain ⟨ks, h1, _, h3⟩ := key (List.range ⌈(z1 - z0) / (1 / 50)⌉.toNat) List.pairwise_lt_range (by
    intro k hk
    rw [List.mem_range] at hk
    have hc : (k : Int) < ⌈(z1 - z0) / (1 / 50)⌉ := by omega
    rw [Int.lt_ceil] at hc
    rw [lt_div_iff₀ (by norm_num)] at hc
    simp only [Int.cast_natCast] at hc
    linarith)
  exact ⟨ks, h1, h3⟩

/-- C363: every galaxy compared, with a redshift in the range, is in exactly one bin. -/
theorem C363_bins (z0 z1 : α) (l : List (Obs α)) (o : Obs α) (ho : o ∈ l) (h0 : z0 ≤ o.zuse) (h1 : o.zuse < z1) :
    ∃ k : Nat, z0 + (k : α) / 50 < z1 ∧ o ∈ members (z0 + (k : α) / 50) l ∧ ∀ j : Nat, o ∈ members (z0 + (j : α) / 50) l → j = k := by
  have hn : o.zuse < z0 + ((⌈(z1 - z0) / (1 / 50)⌉.toNat : Nat) : α) * (1 / 50) := by
    have hpos : 0 ≤ ⌈(z1 - z0) / (1 / 50)⌉ := Int.ceil_nonneg (div_nonneg (by linarith) (by norm_num))
    have hcast : ((⌈(z1 - z0) / (1 / 50)⌉.toNat : Nat) : α) = (⌈(z1 - z0) / (1 / 50)⌉ : α) := by
      rw [← Int.cast_natCast, Int.toNat_of_nonneg hpos]
    have := Int.le_ceil ((z1 - z0) / (1 / 50))
    rw [div_le_iff₀ (by norm_num)] at this
    rw [hcast]
    linarith
  obtain ⟨k, _, g1, g2⟩ := bin_exists z0 (1 / 50) o.zuse _ (by norm_num) h0 hn
  have mem : ∀ j : Nat, o ∈ members (z0 + (j : α) / 50) l ↔ (j : α) * (1 / 50) + z0 ≤ o.zuse ∧ o.zuse < (j : α) * (1 / 50) + z0 + 1 / 50 := by
    intro j
    simp only [members, List.mem_filter, decide_eq_true_eq, ho, true_and]
    constructor <;> rintro ⟨a, b⟩ <;> constructor <;> linarith
  refine ⟨k, by linarith, (mem k).mpr ⟨g1, g2⟩, fun j hj => ?_⟩
  exact bin_unique z0 (1 / 50) o.zuse j k (by norm_num) ((mem j).mp hj) ⟨g1, g2⟩

/-- C363: the redshift of the axis of a point is in its bin, and at least half of the galaxies within three errors are no outliers. -/
theorem C363_outliers (lo : α) (l : List (Obs α)) (r : Row α) (h : Shown (members lo l) r) :
    lo ≤ r.zuse ∧ r.zuse < lo + 1 / 50 ∧ 0 ≤ r.std ∧ 0 ≤ r.fout ∧
    ∃ c, IsMed ((members lo l).map Obs.dz) c ∧
      2 * r.fout * ((members lo l).length : α) ≤ 2 * ((members lo l).length : α) - ((close c (members lo l)).length : α) := by
  obtain ⟨h3, c, hc, h1, h2, hd, he, ⟨m, hm, hs⟩, hf⟩ := h
  have hin : ∀ x ∈ (close c (members lo l)).map Obs.zuse, lo ≤ x ∧ x < lo + 1 / 50 := by
    intro x hx
    obtain ⟨o, ho, rfl⟩ := List.mem_map.mp hx
    have : o ∈ members lo l := (List.mem_filter.mp ho).1
    simpa using (List.mem_filter.mp this).2
  have hm0 : 0 ≤ m := hm.ge fun x hx => by
    obtain ⟨o, _, rfl⟩ := List.mem_map.mp hx
    exact abs_nonneg _
  have hs0 : 0 ≤ r.std := by rw [hs]; positivity
  refine ⟨h2.ge fun x hx => (hin x hx).1, h2.lt fun x hx => (hin x hx).2, hs0, by rw [hf]; positivity, c, hc, ?_⟩
  have hlen : (0 : α) < ((members lo l).length : α) := by
    have : 0 < (members lo l).length := by omega
    exact_mod_cast this
  have hcount : 2 * (members lo l).countP (fun o => decide (4 * r.std < |o.dz - r.delta|)) + (close c (members lo l)).length ≤ 2 * (members lo l).length := by
    have hsplit : (members lo l).countP (fun o => decide (4 * r.std < |o.dz - r.delta|)) + (close c (members lo l)).length
        ≤ (members lo l).length + (close c (members lo l)).countP (fun o => decide (4 * r.std < |o.dz - r.delta|)) := by
      unfold close
      generalize members lo l = b
      induction b with
      | nil => simp
      | cons o b ih =>
        rw [List.countP_cons, List.filter_cons, List.length_cons]
        by_cases hk : o.err ≠ 0 ∧ 14826 / 10000 * |o.dz - c| < 3 * |o.err|
        · rw [decide_eq_true hk, if_pos rfl, List.length_cons, List.countP_cons]
          omega
        · rw [decide_eq_false hk]
          simp only [Bool.false_eq_true, if_false]
          split <;> omega
    have hhalf : 2 * (close c (members lo l)).countP (fun o => decide (4 * r.std < |o.dz - r.delta|)) ≤ (close c (members lo l)).length := by
      have := hm.2.2
      rw [List.length_map, List.countP_map] at this
      refine le_trans (Nat.mul_le_mul_left 2 (List.countP_mono_left fun o _ ho => ?_)) this
      simp only [Function.comp_apply, decide_eq_true_eq] at ho ⊢
      rw [hs] at ho
      linarith
    omega
  have : (2 : α) * ((members lo l).countP (fun o => decide (4 * r.std < |o.dz - r.delta|)) : Nat) + ((close c (members lo l)).length : α)
      ≤ 2 * ((members lo l).length : α) := by exact_mod_cast hcount
  rw [hf, mul_assoc, div_mul_cancel₀ _ (ne_of_gt hlen)]
  linarith

/-- C363 as one would state it: every bin with three galaxies or more is in the plot. -/
def AllShown (z0 z1 : α) (second : Bool) (gals : List (Gal α)) : Prop :=
  ∀ k : Nat, z0 + (k : α) / 50 < z1 → 3 ≤ (members (z0 + (k : α) / 50) (compared second gals)).length →
    ∃ r ∈ rows z0 z1 second gals, z0 + (k : α) / 50 ≤ r.zuse ∧ r.zuse < z0 + (k : α) / 50 + 1 / 50

/-- C363, the part that holds: when a galaxy of the bin is within three errors of every median of it, and the true redshifts are positive. -/
theorem C363_partial (z0 z1 : α) (second : Bool) (gals : List (Gal α)) (k : Nat) (hk : z0 + (k : α) / 50 < z1)
    (h3 : 3 ≤ (members (z0 + (k : α) / 50) (compared second gals)).length)
    (hclose : ∀ c, IsMed ((members (z0 + (k : α) / 50) (compared second gals)).map Obs.dz) c → close c (members (z0 + (k : α) / 50) (compared second gals)) ≠ [])
    (hz : ∀ g ∈ gals, 0 < g.z) :
    ∃ r ∈ rows z0 z1 second gals, z0 + (k : α) / 50 ≤ r.zuse ∧ r.zuse < z0 + (k : α) / 50 + 1 / 50
      ∧ Shown (members (z0 + (k : α) / 50) (compared second gals)) r := by
  have hb : (members (z0 + (k : α) / 50) (compared second gals)).map Obs.dz ≠ [] := by
    intro e
    rw [List.map_eq_nil_iff] at e
    rw [e] at h3
    simp at h3
  have hne := hclose _ (isMed_median _ hb)
  have hrow : ∃ r, binRow (1 / 50) (compared second gals) (z0 + (k : α) / 50) = some r := by
    unfold binRow
    rw [inBin_eq]
    simp only
    rw [if_neg (by omega), kept_eq, if_neg (by simpa using hne)]
    exact ⟨_, rfl⟩
  obtain ⟨r, hr⟩ := hrow
  have hs := binRow_shown _ _ r hr
  have ho := C363_outliers _ _ r hs
  refine ⟨r, ?_, ho.1, ho.2.1, hs⟩
  unfold rows
  rw [compared_eq, List.mem_filter]
  constructor
  · rw [List.mem_filterMap]
    refine ⟨z0 + (k : α) / 50, ?_, hr⟩
    unfold starts
    rw [List.mem_map]
    refine ⟨k, ?_, by rw [mul_one_div]⟩
    rw [List.mem_range]
    have : (k : Int) < ⌈(z1 - z0) / (1 / 50)⌉ := by
      rw [Int.lt_ceil, lt_div_iff₀ (by norm_num)]
      simp only [Int.cast_natCast]
      linarith
    omega
  · obtain ⟨_, c, _, hzt, _⟩ := hs
    have hpos : ∀ x ∈ (close c (members (z0 + (k : α) / 50) (compared second gals))).map Obs.ztrue, 0 < x := by
      intro x hx
      obtain ⟨o, ho, rfl⟩ := List.mem_map.mp hx
      have h1 := (List.mem_filter.mp (List.mem_filter.mp ho).1).1
      unfold compared at h1
      obtain ⟨g, hg, rfl⟩ := List.mem_map.mp h1
      have := hz g (List.mem_filter.mp hg).1
      cases second <;> exact this
    simp only [decide_eq_true_eq]
    by_contra hc
    push Not at hc
    have hall : ((close c (members (z0 + (k : α) / 50) (compared second gals))).map Obs.ztrue).countP (fun x => decide (r.ztrue < x))
        = ((close c (members (z0 + (k : α) / 50) (compared second gals))).map Obs.ztrue).length := by
      rw [List.countP_eq_length]
      intro x hx
      simpa using lt_of_le_of_lt hc (hpos x hx)
    have h0 := List.length_pos_of_ne_nil hzt.1
    have := hzt.2.2
    omega

/-- Four galaxies at 0.31 with redshifts off by 0.1 to both sides and errors of 0.01. -/
def toyGals : List (Gal ℚ) := [-1 / 10, -1 / 10, 1 / 10, 1 / 10].map fun d =>
  ⟨31 / 100, 31 / 100 + d, 1 / 100, 31 / 100, 1 / 100, 18, 1, 20⟩

/-- C363 is false: no galaxy of a bin may be near the median, and then the bin is left out, as if it had no galaxies. -/
theorem C363_false : ¬ AllShown (3 / 10 : ℚ) (32 / 100) false toyGals := by
  intro h
  obtain ⟨r, hr, -⟩ := h 0 (by norm_num) (by decide +kernel)
  have hrow : binRow (1 / 50) (compared false toyGals) (3 / 10) = none := by
    unfold binRow
    have hin : inBin (1 / 50) (3 / 10) (compared false toyGals) = [⟨31 / 100, 31 / 100, -1 / 10, 1 / 100⟩, ⟨31 / 100, 31 / 100, -1 / 10, 1 / 100⟩,
        ⟨31 / 100, 31 / 100, 1 / 10, 1 / 100⟩, ⟨31 / 100, 31 / 100, 1 / 10, 1 / 100⟩] := by decide +kernel
    rw [hin]
    have hmed : median ([(-1 / 10 : ℚ), -1 / 10, 1 / 10, 1 / 10]) = 0 := by
      unfold median
      rw [List.mergeSort_of_pairwise (by norm_num)]
      norm_num
    simp only [List.map_cons, List.map_nil, List.length_cons, List.length_nil]
    rw [if_neg (by norm_num), hmed, if_pos]
    decide +kernel
  unfold rows at hr
  rw [compared_eq, List.mem_filter, List.mem_filterMap] at hr
  obtain ⟨⟨lo, hlo, hr⟩, -⟩ := hr
  have hst : starts (3 / 10 : ℚ) (32 / 100) (1 / 50) = [3 / 10] := by decide +kernel
  rw [hst, List.mem_singleton] at hlo
  rw [hlo, hrow] at hr
  cases hr

/-- Three galaxies whose redshifts are off by less than their errors meet the hypotheses of `C363_partial`. -/
def toyGood : List (Gal ℚ) := [0, 0, 1 / 1000].map fun d => ⟨31 / 100, 31 / 100 + d, 1 / 100, 31 / 100, 1 / 100, 18, 1, 20⟩

example : (members (3 / 10 + ((0 : Nat) : ℚ) / 50) (compared false toyGood)).length = 3 ∧ (∀ g ∈ toyGood, 0 < g.z)
    ∧ ∀ c, IsMed ((members (3 / 10 + ((0 : Nat) : ℚ) / 50) (compared false toyGood)).map Obs.dz) c →
      close c (members (3 / 10 + ((0 : Nat) : ℚ) / 50) (compared false toyGood)) ≠ [] := by
  have hm : members (3 / 10 + ((0 : Nat) : ℚ) / 50) (compared false toyGood) = [⟨31 / 100, 31 / 100, 0, 1 / 100⟩, ⟨31 / 100, 31 / 100, 0, 1 / 100⟩,
      ⟨31 / 100, 31 / 100, 1 / 1000, 1 / 100⟩] := by decide +kernel
  refine ⟨by rw [hm]; rfl, ?_, ?_⟩
  · intro g hg
    simp only [toyGood, List.map_cons, List.map_nil, List.mem_cons, List.not_mem_nil, or_false] at hg
    rcases hg with rfl | rfl | rfl <;> norm_num
  · intro c hc
    rw [hm] at hc ⊢
    have h1 : 0 ≤ c := hc.ge (by simp)
    have h2 : c < 2 / 1000 := hc.lt (by norm_num)
    intro he
    have : (⟨31 / 100, 31 / 100, 0, 1 / 100⟩ : Obs ℚ) ∈ close c [⟨31 / 100, 31 / 100, 0, 1 / 100⟩, ⟨31 / 100, 31 / 100, 0, 1 / 100⟩,
      ⟨31 / 100, 31 / 100, 1 / 1000, 1 / 100⟩] := by
      unfold close
      rw [List.mem_filter]
      refine ⟨by simp, ?_⟩
      simp only [decide_eq_true_eq]
      refine ⟨by norm_num, ?_⟩
      rw [zero_sub, abs_neg, abs_of_nonneg h1, abs_of_pos (by norm_num)]
      linarith
    rw [he] at this
    exact absurd this List.not_mem_nil

/-! ## C364: widths and percentiles of pulls -/

/-- What a point of the plot of pulls shows of the galaxies (magnitude, pull) of its bin. -/
def PShown (b : List (α × α)) (r : PRow α) : Prop :=
  let p := b.map Prod.snd
  IsMed (b.map Prod.fst) r.mag ∧ (∃ c m, IsMed p c ∧ IsMed (p.map fun x => |x - c|) m ∧ r.sig = 14826 / 10000 * m) ∧
  r.lo ≤ r.med ∧ r.med ≤ r.hi ∧ r.lo ∈ p ∧ r.med ∈ p ∧ r.hi ∈ p ∧
  100 * p.countP (fun x => decide (x < r.lo)) ≤ 5 * p.length ∧ 5 * p.length < 100 * p.countP (fun x => decide (x ≤ r.lo)) ∧
  2 * p.countP (fun x => decide (x < r.med)) ≤ p.length ∧ p.length < 2 * p.countP (fun x => decide (x ≤ r.med)) ∧
  100 * p.countP (fun x => decide (x < r.hi)) ≤ 95 * p.length ∧ 95 * p.length < 100 * p.countP (fun x => decide (x ≤ r.hi))

/-- The galaxies of bin `k` of magnitudes from `lo` on. -/
def magMembers (lo : α) (l : List (α × α)) (k : Nat) : List (α × α) :=
  l.filter fun x => decide (lo + (k : α) / 2 ≤ x.1 ∧ x.1 < lo + ((k : α) + 1) / 2)

theorem magBin_eq (lo : α) (l : List (α × α)) (k : Nat) : magBin (1 / 2) lo l k = magMembers lo l k := by
  unfold magBin magMembers
  apply List.filter_congr
  intro x _
  rw [decide_eq_decide, Int.floor_eq_iff, le_div_iff₀ (by norm_num), div_lt_iff₀ (by norm_num)]
  simp only [Int.cast_natCast]
  constructor <;> rintro ⟨a, b⟩ <;> constructor <;> linarith

theorem getD_rank (p : List α) (k : Nat) (hk : k < p.length) :
    (p.insertionSort (· ≤ ·)).getD k 0 ∈ p ∧ p.countP (fun y => decide (y < (p.insertionSort (· ≤ ·)).getD k 0)) ≤ k
      ∧ k < p.countP (fun y => decide (y ≤ (p.insertionSort (· ≤ ·)).getD k 0)) := by
  obtain ⟨v, h1, h2, h3, h4⟩ := sorted_rank p k hk
  rw [List.getD_eq_getElem?_getD, h1]
  exact ⟨h2, h3, h4⟩

theorem getD_mono (p : List α) (i j : Nat) (hij : i ≤ j) (hj : j < p.length) :
    (p.insertionSort (· ≤ ·)).getD i 0 ≤ (p.insertionSort (· ≤ ·)).getD j 0 := by
  have hs : (p.insertionSort (· ≤ ·)).Pairwise (· ≤ ·) := List.pairwise_insertionSort _ _
  have hl : (p.insertionSort (· ≤ ·)).length = p.length := List.length_insertionSort _ _
  rcases Nat.eq_or_lt_of_le hij with rfl | hlt
  · exact le_rfl
  · have hi' : i < (p.insertionSort (· ≤ ·)).length := by omega
    have hj' : j < (p.insertionSort (· ≤ ·)).length := by omega
    rw [List.getD_eq_getElem?_getD, List.getD_eq_getElem?_getD, List.getElem?_eq_getElem hi', List.getElem?_eq_getElem hj']
    exact List.pairwise_iff_getElem.mp hs i j hi' hj' hlt

theorem pullRow_shown (b : List (α × α)) (h : b ≠ []) : PShown b (pullRow b) := by
  have hp : b.map Prod.snd ≠ [] := by simpa using h
  have hlen := List.length_pos_of_ne_nil hp
  unfold pullRow PShown
  simp only
  obtain ⟨a1, a2, a3⟩ := getD_rank (b.map Prod.snd) (5 * (b.map Prod.snd).length / 100) (by omega)
  obtain ⟨b1, b2, b3⟩ := getD_rank (b.map Prod.snd) ((b.map Prod.snd).length / 2) (by omega)
  obtain ⟨c1, c2, c3⟩ := getD_rank (b.map Prod.snd) (95 * (b.map Prod.snd).length / 100) (by omega)
  refine ⟨isMed_median _ (by simpa using h), ⟨_, _, isMed_median _ hp, isMed_median _ (by simpa using h), rfl⟩,
    getD_mono _ _ _ (by omega) (by omega), getD_mono _ _ _ (by omega) (by omega), a1, b1, c1, ?_, ?_, ?_, ?_, ?_, ?_⟩ <;> omega

/-- C364, the part that holds: every point drawn is that of a bin of 0.5 mag, with a positive width; and every galaxy within the limits is in exactly one
of the bins. -/
theorem C364_partial (cut : α) (rg : α × α) (l : List (α × α)) (out : List (PRow α)) (h : plotPulls cut (1 / 2) rg l = .ok out) :
    ∃ (lo : α) (n : Nat),
      (∃ x ∈ plotted cut rg l, x.1 = lo) ∧
      (∀ r ∈ out, ∃ k, k < n ∧ magMembers lo (plotted cut rg l) k ≠ [] ∧ PShown (magMembers lo (plotted cut rg l) k) r ∧ 0 < r.sig) ∧
      (∀ k, k < n → magMembers lo (plotted cut rg l) k ≠ [] →
        (pullRow (magMembers lo (plotted cut rg l) k) ∈ out ∨ (pullRow (magMembers lo (plotted cut rg l) k)).sig ≤ 0)) ∧
      (∀ x ∈ l, (|x.2| < cut ∧ rg.1 < x.1 ∧ x.1 < rg.2) → ∃ k, k < n ∧ x ∈ magMembers lo (plotted cut rg l) k
        ∧ ∀ j, x ∈ magMembers lo (plotted cut rg l) j → j = k) := by
  unfold plotPulls at h
  simp only at h
  have hpl : ∀ x, x ∈ plotted cut rg l ↔ x ∈ l ∧ |x.2| < cut ∧ rg.1 < x.1 ∧ x.1 < rg.2 := by
    intro x
    simp only [plotted, List.mem_filter, Bool.and_eq_true, decide_eq_true_eq, and_assoc]
  cases hg : (plotted cut rg l).map Prod.fst with
  | nil => rw [hg] at h; simp [magBins] at h
  | cons m ms =>
    rw [hg] at h
    simp only [magBins, Except.ok.injEq] at h
    obtain ⟨hlo1, hlo2⟩ := foldl_min_spec m ms
    obtain ⟨hhi1, hhi2⟩ := foldl_max_spec m ms
    rw [← hg] at hlo1 hlo2 hhi1 hhi2
    set lo := ms.foldl min m with hlo
    set hi := ms.foldl max m with hhi
    set n := (⌊(hi - lo) / (1 / 2)⌋ + 1).toNat with hn
    have hle : lo ≤ hi := hlo2 _ hhi1
    have hfl : 0 ≤ ⌊(hi - lo) / (1 / 2)⌋ := Int.floor_nonneg.mpr (div_nonneg (by linarith) (by norm_num))
    have hout : ∀ r, r ∈ out ↔ ∃ k, k < n ∧ magMembers lo (plotted cut rg l) k ≠ [] ∧ pullRow (magMembers lo (plotted cut rg l) k) = r ∧ 0 < r.sig := by
      intro r
      rw [← h, List.mem_filter, List.mem_map]
      constructor
      · rintro ⟨⟨b, hb, rfl⟩, hs⟩
        rw [List.mem_filter, List.mem_map] at hb
        obtain ⟨⟨k, hk, rfl⟩, hb2⟩ := hb
        rw [magBin_eq] at hb2 hs ⊢
        exact ⟨k, List.mem_range.mp hk, fun e => by simp [e] at hb2, rfl, by simpa using hs⟩
      · rintro ⟨k, hk, hne, rfl, hs⟩
        refine ⟨⟨magMembers lo (plotted cut rg l) k, List.mem_filter.mpr ⟨List.mem_map.mpr ⟨k, List.mem_range.mpr hk, magBin_eq _ _ _⟩, ?_⟩, rfl⟩, by simpa using hs⟩
        simpa using List.length_pos_of_ne_nil hne
    obtain ⟨x0, hx0, e0⟩ := List.mem_map.mp hlo1
    refine ⟨lo, n, ⟨x0, hx0, e0⟩, ?_, ?_, ?_⟩
    · intro r hr
      obtain ⟨k, hk, hne, rfl, hs⟩ := (hout r).mp hr
      exact ⟨k, hk, hne, pullRow_shown _ hne, hs⟩
    · intro k hk hne
      by_cases hs : 0 < (pullRow (magMembers lo (plotted cut rg l) k)).sig
      · exact Or.inl ((hout _).mpr ⟨k, hk, hne, rfl, hs⟩)
      · exact Or.inr (not_lt.mp hs)
    · intro x hx hin
      have hxp := (hpl x).mpr ⟨hx, hin⟩
      have hx1 := hlo2 x.1 (List.mem_map_of_mem hxp)
      have hx2 := hhi2 x.1 (List.mem_map_of_mem hxp)
      have hcast : (n : α) = (⌊(hi - lo) / (1 / 2)⌋ : α) + 1 := by
        rw [hn, ← Int.cast_natCast, Int.toNat_of_nonneg (by omega)]
        push_cast; ring
      have hlt : x.1 < lo + (n : α) * (1 / 2) := by
        have := Int.lt_floor_add_one ((hi - lo) / (1 / 2))
        rw [div_lt_iff₀ (by norm_num)] at this
        rw [hcast]
        linarith
      obtain ⟨k, hk, g1, g2⟩ := bin_exists lo (1 / 2) x.1 n (by norm_num) hx1 hlt
      have mem : ∀ j : Nat, x ∈ magMembers lo (plotted cut rg l) j ↔ (j : α) * (1 / 2) + lo ≤ x.1 ∧ x.1 < (j : α) * (1 / 2) + lo + 1 / 2 := by
        intro j
        simp only [magMembers, List.mem_filter, decide_eq_true_eq, hxp, true_and]
        constructor <;> rintro ⟨a, b⟩ <;> constructor <;> linarith
      exact ⟨k, hk, (mem k).mpr ⟨g1, g2⟩, fun j hj => bin_unique lo (1 / 2) x.1 j k (by norm_num) ((mem j).mp hj) ⟨g1, g2⟩⟩

/-- C364 as one would state it: with galaxies within the limits there is a point. -/
def PullsShown (cut : α) (rg : α × α) (l : List (α × α)) : Prop :=
  plotted cut rg l ≠ [] → ∃ r out, plotPulls cut (1 / 2) rg l = .ok (r :: out)

/-- C364 is false of a bin with one galaxy: its width is zero, and it is not drawn. -/
theorem C364_false (x : α × α) (rg : α × α) (h1 : |x.2| < 10) (h2 : rg.1 < x.1) (h3 : x.1 < rg.2) : ¬ PullsShown 10 rg [x] := by
  intro h
  have hp : plotted 10 rg [x] = [x] := by simp [plotted, h1, h2, h3]
  obtain ⟨r, out, he⟩ := h (by rw [hp]; simp)
  have hz : (pullRow [x]).sig = 0 := by simp [pullRow, median]
  obtain ⟨lo, n, _, hr, _⟩ := C364_partial 10 rg [x] (r :: out) he
  obtain ⟨k, _, hne, hs, hpos⟩ := hr r (by simp)
  rw [hp] at hne hs
  have hmm : magMembers lo [x] k = [x] := by
    unfold magMembers at hne ⊢
    rw [List.filter_cons] at hne ⊢
    split
    · simp
    · rename_i hc; rw [if_neg hc] at hne; simp at hne
  rw [hmm] at hs
  obtain ⟨_, ⟨c, m, hc, hm, e⟩, _⟩ := hs
  have c1 : c ≤ x.2 := by
    have := hc.2.1
    by_contra hcon
    push Not at hcon
    simp [hcon] at this
  have c2 : x.2 ≤ c := by
    have := hc.2.2
    by_contra hcon
    push Not at hcon
    simp [hcon] at this
  have hcx : c = x.2 := le_antisymm c1 c2
  have hm1 : m ≤ 0 := by
    have := hm.2.1
    by_contra hcon
    push Not at hcon
    simp [hcx, hcon] at this
  rw [e] at hpos
  linarith

/-! ## C365: the range of magnitudes -/

/-- C365: at most one in a hundred galaxies is brighter than the range, and its ends are magnitudes of galaxies. -/
theorem C365_range (mags : List α) (a b : α) (h : magRange mags = .ok (a, b)) :
    a ∈ mags ∧ b ∈ mags ∧ a ≤ b ∧ 100 * mags.countP (fun x => decide (x < a)) ≤ mags.length
    ∧ 100 * mags.countP (fun x => decide (b < x)) ≤ mags.length := by
  unfold magRange at h
  simp only at h
  cases ha : (mags.insertionSort (· ≤ ·))[mags.length / 100]? with
  | none => rw [ha] at h; cases h
  | some x =>
    cases hb : (mags.insertionSort (· ≤ ·))[99 * mags.length / 100]? with
    | none => rw [ha, hb] at h; cases h
    | some y =>
      rw [ha, hb] at h
      simp only [Except.ok.injEq, Prod.mk.injEq] at h
      obtain ⟨rfl, rfl⟩ := h
      have hl : (mags.insertionSort (· ≤ ·)).length = mags.length := List.length_insertionSort _ _
      have hlb : 99 * mags.length / 100 < mags.length := by
        have := (List.getElem?_eq_some_iff.mp hb).1
        omega
      have hla : mags.length / 100 < mags.length := by omega
      obtain ⟨v, v1, v2, v3, v4⟩ := sorted_rank mags _ hla
      obtain ⟨w, w1, w2, w3, w4⟩ := sorted_rank mags _ hlb
      rw [ha] at v1
      rw [hb] at w1
      cases v1
      cases w1
      refine ⟨v2, w2, ?_, by omega, ?_⟩
      · have := getD_mono mags (mags.length / 100) (99 * mags.length / 100) (by omega) hlb
        rwa [List.getD_eq_getElem?_getD, List.getD_eq_getElem?_getD, ha, hb] at this
      · have : mags.countP (fun x => decide (x ≤ y)) + mags.countP (fun x => decide (y < x)) = mags.length := by
          have := List.length_eq_countP_add_countP (fun x => decide (x ≤ y)) (l := mags)
          rw [this]
          congr 1
          apply List.countP_congr
          intro x _
          simp
        omega

/-- C365, the part that holds: the plot is made exactly if a galaxy with a pull below ten is strictly within the range. -/
theorem C365_partial (l : List (α × α)) :
    (∃ out, colorPlot l = .ok out) ↔ ∃ a b, magRange (l.map Prod.fst) = .ok (a, b) ∧ ∃ x ∈ l, |x.2| < 10 ∧ a < x.1 ∧ x.1 < b := by
  unfold colorPlot
  cases hr : magRange (l.map Prod.fst) with
  | error e => simp
  | ok r =>
    have hpl : ∀ x, x ∈ plotted 10 r l ↔ x ∈ l ∧ |x.2| < 10 ∧ r.1 < x.1 ∧ x.1 < r.2 := by
      intro x
      simp only [plotted, List.mem_filter, Bool.and_eq_true, decide_eq_true_eq, and_assoc]
    simp only [Except.ok.injEq]
    constructor
    · rintro ⟨out, h⟩
      obtain ⟨lo, n, ⟨x, hx, _⟩, _⟩ := C364_partial 10 r l out h
      exact ⟨r.1, r.2, rfl, x, (hpl x).mp hx⟩
    · rintro ⟨a, b, rfl, x, hx⟩
      have hne : (plotted 10 (a, b) l).map Prod.fst ≠ [] := by
        intro e
        rw [List.map_eq_nil_iff] at e
        have := (hpl x).mpr hx
        rw [e] at this
        exact absurd this List.not_mem_nil
      unfold plotPulls
      simp only
      cases hg : (plotted 10 (a, b) l).map Prod.fst with
      | nil => exact absurd hg hne
      | cons m ms => exact ⟨_, rfl⟩

/-- C365 is false: with up to two galaxies, or with galaxies of one magnitude, the calibration raises after its parameters have been written. -/
theorem C365_false (l : List (α × α)) (h : l.length ≤ 2 ∨ ∀ x ∈ l, ∀ y ∈ l, x.1 = y.1) : ¬ ∃ out, colorPlot l = .ok out := by
  rw [C365_partial]
  rintro ⟨a, b, hr, x, hx, _, h1, h2⟩
  obtain ⟨ha, hb, _, _, _⟩ := C365_range _ a b hr
  obtain ⟨y, hy, rfl⟩ := List.mem_map.mp ha
  obtain ⟨z, hz, rfl⟩ := List.mem_map.mp hb
  rcases h with h | h
  · match l, h with
    | [], _ => simp at hx
    | [p], _ =>
      simp only [List.mem_singleton] at hx hy
      subst hx; subst hy
      exact absurd h1 (lt_irrefl _)
    | [p, q], _ =>
      simp only [List.mem_cons, List.not_mem_nil, or_false] at hx hy hz
      rcases hx with rfl | rfl <;> rcases hy with rfl | rfl <;> rcases hz with rfl | rfl <;>
        first
        | exact absurd h1 (lt_irrefl _)
        | exact absurd h2 (lt_irrefl _)
        | exact absurd h1 (lt_asymm h2)
  · exact absurd (h y hy x hx) (ne_of_lt h1)

/-- Three galaxies are enough. -/
example : magRange [(18 : ℚ), 20, 19] = .ok (18, 20) ∧ ∃ out, colorPlot [((18 : ℚ), (1 : ℚ)), (20, 2), (19, 3)] = .ok out := by
  have h : magRange [(18 : ℚ), 20, 19] = .ok (18, 20) := by decide +kernel
  refine ⟨h, (C365_partial _).mpr ⟨18, 20, h, (19, 3), by simp, by norm_num, by norm_num, by norm_num⟩⟩

/-! ## C366: scaled and raw pulls -/

/-- C366: with error ratios of one the scaled pulls are the raw ones; larger ratios make no pull larger. -/
theorem C366_raw (sqrt : α → α) (hs : SqrtOK sqrt) (c : Col α) (hc : c.colErr ^ 2 = c.e0 ^ 2 + c.e1 ^ 2) :
    scaledPull sqrt (1, 0) (1, 0) c = rawPull sqrt c
    ∧ ∀ b0 b1 : α × α, 1 ≤ b0.1 + b0.2 * c.dref → 1 ≤ b1.1 + b1.2 * c.dref → 0 < c.colErr ^ 2 + c.sigma ^ 2 →
        |scaledPull sqrt b0 b1 c| ≤ |rawPull sqrt c| := by
  constructor
  · unfold scaledPull rawPull
    simp only [zero_mul, add_zero, one_mul]
    rw [hc]
  · intro b0 b1 h0 h1 hpos
    unfold scaledPull rawPull
    simp only
    set A := (b0.1 + b0.2 * c.dref) with hA
    set B := (b1.1 + b1.2 * c.dref) with hB
    have hle : c.colErr ^ 2 + c.sigma ^ 2 ≤ (A * c.e0) ^ 2 + (B * c.e1) ^ 2 + c.sigma ^ 2 := by
      rw [hc]
      have : c.e0 ^ 2 ≤ (A * c.e0) ^ 2 := by
        rw [mul_pow]
        have : 1 ≤ A ^ 2 := one_le_pow₀ h0
        nlinarith [sq_nonneg c.e0]
      have : c.e1 ^ 2 ≤ (B * c.e1) ^ 2 := by
        rw [mul_pow]
        have : 1 ≤ B ^ 2 := one_le_pow₀ h1
        nlinarith [sq_nonneg c.e1]
      linarith
    have a1 := hs.nonneg (c.colErr ^ 2 + c.sigma ^ 2)
    have a2 := hs.sq _ hpos.le
    have b1' := hs.nonneg ((A * c.e0) ^ 2 + (B * c.e1) ^ 2 + c.sigma ^ 2)
    have b2' := hs.sq _ (le_trans hpos.le hle)
    have hsq : sqrt (c.colErr ^ 2 + c.sigma ^ 2) ≤ sqrt ((A * c.e0) ^ 2 + (B * c.e1) ^ 2 + c.sigma ^ 2) := by
      by_contra hcon
      push Not at hcon
      nlinarith
    have hp0 : 0 < sqrt (c.colErr ^ 2 + c.sigma ^ 2) := by
      rcases lt_or_eq_of_le a1 with h | h
      · exact h
      · rw [← h] at a2
        simp at a2
        linarith
    rw [abs_div, abs_div, abs_of_nonneg a1, abs_of_nonneg b1']
    exact div_le_div_of_nonneg_left (abs_nonneg _) hp0 hsq

/-- C366: the pulls drawn are those of the fit of the error ratios, with ratio one for the bands it does not apply to. -/
theorem C366_fit (s0 s1 : Bool) (a b : ℝ) (c : Col ℝ) :
    scaledPull Real.sqrt (if s0 then (a, b) else (1, 0)) (if s1 then (a, b) else (1, 0)) c
      = SpecRed.pull s0 s1 a b { dcol := c.col - c.model, dmag := c.dref, e0 := c.e0, e1 := c.e1, sig2 := c.sigma ^ 2 } := by
  unfold scaledPull SpecRed.pull
  cases s0 <;> cases s1 <;> simp <;> congr 2 <;> ring

example : ∃ c : Col ℚ, c.colErr ^ 2 = c.e0 ^ 2 + c.e1 ^ 2 ∧ 0 < c.colErr ^ 2 + c.sigma ^ 2 := ⟨⟨1, 0, 5, 3, 4, 1, 0⟩, by norm_num, by norm_num⟩

end Redmapper.RsDiag
