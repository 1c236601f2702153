/-
Properties of the red-sequence redshifts: C45, C99, C100.
-/
import Verif.Model.Zred
import Verif.Props.Utilities
import Mathlib.Tactic.Linarith
import Mathlib.Tactic.IntervalCases

set_option linter.unusedSectionVars false

namespace Redmapper.Zred

open Redmapper.Utilities

variable {α : Type} [Field α] [LinearOrder α] [IsStrictOrderedRing α]

/-! ## C45 -/

/-- All columns of a galaxy without a redshift are the "bad" values. -/
def AllBad (g : ZCols α) : Prop :=
  g.zred = -1 ∧ g.zred_e = -1 ∧ g.zred2 = -1 ∧ g.zred2_e = -1 ∧ g.zred_uncorr = -1 ∧ g.zred_uncorr_e = -1 ∧ g.chisq = -1 ∧ g.lkhd = -1000

/-- The property as one would like it: a galaxy whose fit failed has zred -1. -/
def C45_spec : Prop :=
  ∀ (c : Corr ℚ) (doCorrection : Bool) (gals : List (ℚ × Option (ℚ × ℚ × ℚ × ℚ) × List ℚ × ZCols ℚ)) (i : Nat),
    (gals[i]?.map fun g => g.2.1) = some none → ((computeZreds c doCorrection gals)[i]?.map fun g => g.zred) = some (-1)

/-- One galaxy at a time, or without corrections, all the columns are marked.  With corrections the uncorrected columns, the likelihood
and chi-squared are; zred is -1 plus the correction table extrapolated to redshift -1.  Missing: zred itself. -/
theorem C45_partial (c : Corr α) (gals : List (α × Option (α × α × α × α) × List α × ZCols α)) (i : Nat)
    (m : α) (samp : List α) (g0 : ZCols α) (hg : gals[i]? = some (m, none, samp, g0)) :
    (∀ dc nc, AllBad (computeZred c dc nc m none samp g0)) ∧
    (∃ g, (computeZreds c false gals)[i]? = some g ∧ AllBad g) ∧
    (∃ g, (computeZreds c true gals)[i]? = some g ∧ g.zred_uncorr = -1 ∧ g.zred_uncorr_e = -1 ∧ g.chisq = -1 ∧ g.lkhd = -1000 ∧
      g.zred = -1 + dzBulk c m (-1)) := by
  refine ⟨fun dc nc => ?_, ?_, ?_⟩
  · simp [computeZred, resetBad, AllBad]
  · refine ⟨resetBad g0, ?_, by simp [resetBad, AllBad]⟩
    unfold computeZreds
    rw [List.getElem?_map, hg]
    simp [computeZred]
  · refine ⟨bulk c m (resetBad g0), ?_, by simp [resetBad, bulk]⟩
    unfold computeZreds
    rw [List.getElem?_map, hg]
    simp [computeZred]

/-- A constant correction: the slope terms vanish and every redshift moves by `d`. -/
theorem dzBulk_const (c : Corr α) (d m z : α) (h1 : ∀ q, interpol c.corr c.z q = d) (h2 : ∀ q, interpol c.corr_slope c.z q = 0) :
    dzBulk c m z = d := by
  unfold dzBulk
  simp [List.range_succ, dzStep, h1, h2]

/-- A correction table that adds 0.1 at all redshifts. -/
def shiftCorr : Corr ℚ := ⟨[0, 1], [0, 0], [1 / 10, 1 / 10], [0, 0], [1, 1], [0, 0], [0, 0], [1, 1]⟩

theorem shift_dz (m z : ℚ) : dzBulk shiftCorr m z = 1 / 10 := by
  apply dzBulk_const
  · intro q; simp [interpol, shiftCorr, segment]
  · intro q; simp [interpol, shiftCorr, segment]

/-- False: with that table a galaxy that failed comes out with zred -0.9. -/
theorem C45_false : ¬ C45_spec := by
  intro h
  have g0 : ZCols ℚ := ⟨0, 0, 0, 0, 0, 0, 0, 0, []⟩
  have hg : [((20 : ℚ), (none : Option (ℚ × ℚ × ℚ × ℚ)), ([] : List ℚ), g0)][0]? = some (20, none, [], g0) := rfl
  obtain ⟨_, _, g, e1, _, _, _, _, e2⟩ := C45_partial shiftCorr _ 0 20 [] g0 hg
  have h1 := h shiftCorr true [(20, none, [], g0)] 0 rfl
  rw [e1] at h1
  simp only [Option.map_some, Option.some.injEq] at h1
  rw [e2, shift_dz] at h1
  norm_num at h1

/-! ## C99 -/

/-- Increasing redshifts, positive weights. -/
def Weighted (pts : List (α × α)) : Prop := pts.Pairwise (fun p q => p.1 < q.1) ∧ ∀ p ∈ pts, 0 < p.2

theorem trap_le (l : List (α × α)) (f g : α × α → α) (hx : l.Pairwise (fun p q => p.1 < q.1)) (h : ∀ p ∈ l, f p ≤ g p) :
    trap (l.map fun p => (p.1, f p)) ≤ trap (l.map fun p => (p.1, g p)) := by
  induction l with
  | nil => simp [trap]
  | cons p rest ih =>
    cases rest with
    | nil => simp [trap]
    | cons q rest =>
      rw [List.pairwise_cons] at hx
      have i := ih hx.2 (fun x hx => h x (List.mem_cons_of_mem _ hx))
      simp only [List.map_cons, trap] at i ⊢
      have h1 := h p List.mem_cons_self
      have h2 := h q (List.mem_cons_of_mem _ List.mem_cons_self)
      have h3 := hx.1 q List.mem_cons_self
      have h4 : (q.1 - p.1) * (f p + f q) ≤ (q.1 - p.1) * (g p + g q) := mul_le_mul_of_nonneg_left (by linarith) (by linarith)
      linarith

theorem trap_lin (l : List (α × α)) (f g : α × α → α) (a b : α) :
    trap (l.map fun p => (p.1, a * f p + b * g p)) = a * trap (l.map fun p => (p.1, f p)) + b * trap (l.map fun p => (p.1, g p)) := by
  induction l with
  | nil => simp [trap]
  | cons p rest ih =>
    cases rest with
    | nil => simp [trap]
    | cons q rest =>
      simp only [List.map_cons, trap] at ih ⊢
      rw [ih]; ring

theorem trap_pos (l : List (α × α)) (hx : l.Pairwise (fun p q => p.1 < q.1)) (h0 : ∀ p ∈ l, 0 ≤ p.2) (hl : 2 ≤ l.length)
    (hp : ∃ p ∈ l, 0 < p.2) : 0 < trap l := by
  have nonneg : ∀ l : List (α × α), l.Pairwise (fun p q => p.1 < q.1) → (∀ p ∈ l, 0 ≤ p.2) → 0 ≤ trap l := by
    intro l hx h0
    have := trap_le l (fun _ => 0) (fun p => p.2) hx h0
    have e : ∀ l : List (α × α), trap (l.map fun p => (p.1, (0 : α))) = 0 := by
      intro l
      have := trap_lin l (fun _ => 0) (fun _ => 0) 0 0
      simpa using this
    rw [e] at this
    simpa using this
  induction l with
  | nil => simp at hl
  | cons p rest ih =>
    cases rest with
    | nil => simp at hl
    | cons q rest =>
      have hx' := hx
      rw [List.pairwise_cons] at hx
      have h1 := h0 p List.mem_cons_self
      have h2 := h0 q (List.mem_cons_of_mem _ List.mem_cons_self)
      have h3 := hx.1 q List.mem_cons_self
      have hrest0 : ∀ x ∈ q :: rest, 0 ≤ x.2 := fun x hx => h0 x (List.mem_cons_of_mem _ hx)
      have hr := nonneg (q :: rest) hx.2 hrest0
      have hstep : 0 ≤ (q.1 - p.1) * (p.2 + q.2) / 2 := by
        have : 0 ≤ (q.1 - p.1) * (p.2 + q.2) := mul_nonneg (by linarith) (by linarith)
        linarith
      obtain ⟨p1, p2⟩ := p
      obtain ⟨q1, q2⟩ := q
      simp only [trap] at *
      obtain ⟨x, hxm, hxp⟩ := hp
      have pos2 : (0 < p2 ∨ 0 < q2) → 0 < (q1 - p1) * (p2 + q2) / 2 := by
        intro h
        have : 0 < (q1 - p1) * (p2 + q2) := mul_pos (by linarith) (by rcases h with h | h <;> linarith)
        linarith
      rcases List.mem_cons.mp hxm with rfl | hxm
      · linarith [pos2 (Or.inl hxp)]
      · rcases List.mem_cons.mp hxm with rfl | hxm'
        · linarith [pos2 (Or.inr hxp)]
        · cases rest with
          | nil => exact absurd hxm' List.not_mem_nil
          | cons r rest =>
            have := ih hx.2 hrest0 (by simp) ⟨x, hxm, hxp⟩
            linarith

theorem trap_nonneg (l : List (α × α)) (hx : l.Pairwise (fun p q => p.1 < q.1)) (h0 : ∀ p ∈ l, 0 ≤ p.2) : 0 ≤ trap l := by
  have := trap_le l (fun _ => 0) (fun p => p.2) hx h0
  have e := trap_lin l (fun _ => 0) (fun _ => 0) 0 0
  simp only [mul_zero, add_zero, zero_mul] at e
  rw [e] at this
  simpa using this

/-- The sum or the trapezoid rule, as a positive linear functional. -/
theorem quad_le (n : Nat) (l : List (α × α)) (f g : α × α → α) (hx : l.Pairwise (fun p q => p.1 < q.1)) (h : ∀ p ∈ l, f p ≤ g p) :
    quad n (l.map fun p => (p.1, f p)) ≤ quad n (l.map fun p => (p.1, g p)) := by
  unfold quad
  by_cases hn : 3 ≤ n
  · rw [if_pos hn, if_pos hn]; exact trap_le l f g hx h
  · rw [if_neg hn, if_neg hn, List.map_map, List.map_map]
    exact List.sum_le_sum h

theorem quad_lin (n : Nat) (l : List (α × α)) (f g : α × α → α) (a b : α) :
    quad n (l.map fun p => (p.1, a * f p + b * g p)) = a * quad n (l.map fun p => (p.1, f p)) + b * quad n (l.map fun p => (p.1, g p)) := by
  unfold quad
  by_cases hn : 3 ≤ n
  · rw [if_pos hn, if_pos hn, if_pos hn]; exact trap_lin l f g a b
  · rw [if_neg hn, if_neg hn, if_neg hn, List.map_map, List.map_map, List.map_map]
    induction l with
    | nil => simp
    | cons p rest ih => simp only [List.map_cons, List.sum_cons, Function.comp] at ih ⊢; rw [ih]; ring

theorem quad_pos (l : List (α × α)) (hx : l.Pairwise (fun p q => p.1 < q.1)) (h0 : ∀ p ∈ l, 0 ≤ p.2) (hp : ∃ p ∈ l, 0 < p.2) :
    0 < quad l.length l := by
  unfold quad
  by_cases hn : 3 ≤ l.length
  · rw [if_pos hn]; exact trap_pos l hx h0 (by omega) hp
  · rw [if_neg hn]
    obtain ⟨p, hm, hpos⟩ := hp
    refine lt_of_lt_of_le hpos (List.single_le_sum ?_ _ (List.mem_map.mpr ⟨p, hm, rfl⟩))
    intro y hy
    obtain ⟨q, hq, rfl⟩ := List.mem_map.mp hy
    exact h0 q hq

/-- The mean of the redshift lies between the redshifts used, and its variance is never negative (so the fall-back error of 1 is never
needed). -/
theorem C99_moments (pts : List (α × α)) (hw : Weighted pts) (hne : pts ≠ []) (lo hi : α) (hr : ∀ p ∈ pts, lo ≤ p.1 ∧ p.1 ≤ hi) :
    lo ≤ (moments pts).1 ∧ (moments pts).1 ≤ hi ∧ 0 ≤ (moments pts).2 := by
  obtain ⟨hx, hpos⟩ := hw
  have ht : 0 < quad pts.length pts := by
    obtain ⟨p, hp⟩ := List.exists_mem_of_ne_nil pts hne
    exact quad_pos pts hx (fun p hp => (hpos p hp).le) ⟨p, hp, hpos p hp⟩
  have eid : quad pts.length pts = quad pts.length (pts.map fun p => (p.1, p.2)) := by simp
  have e1 : ∀ a : α, quad pts.length (pts.map fun p => (p.1, a * p.2)) = a * quad pts.length pts := by
    intro a
    have := quad_lin pts.length pts (fun p => p.2) (fun _ => 0) a 0
    simp only [mul_zero, add_zero, zero_mul] at this
    rw [this, ← eid]
  unfold moments
  simp only
  set t := quad pts.length pts with htdef
  set s1 := quad pts.length (pts.map fun p => (p.1, p.2 * p.1)) with hs1
  set s2 := quad pts.length (pts.map fun p => (p.1, p.2 * (p.1 * p.1))) with hs2
  refine ⟨?_, ?_, ?_⟩
  · rw [le_div_iff₀ ht, ← e1 lo]
    refine quad_le _ _ (fun p => lo * p.2) (fun p => p.2 * p.1) hx ?_
    intro p hp
    rw [mul_comm]
    exact mul_le_mul_of_nonneg_left (hr p hp).1 (hpos p hp).le
  · rw [div_le_iff₀ ht, ← e1 hi]
    refine quad_le _ _ (fun p => p.2 * p.1) (fun p => hi * p.2) hx ?_
    intro p hp
    rw [mul_comm hi]
    exact mul_le_mul_of_nonneg_left (hr p hp).2 (hpos p hp).le
  · set m := s1 / t with hm
    have hmt : m * t = s1 := by rw [hm]; field_simp
    have h0 : 0 ≤ s2 + (-2 * m) * s1 + m * m * t := by
      have a1 := quad_lin pts.length pts (fun p => p.2 * (p.1 * p.1)) (fun p => p.2 * p.1) 1 (-2 * m)
      have a2 := quad_lin pts.length pts (fun p => 1 * (p.2 * (p.1 * p.1)) + (-2 * m) * (p.2 * p.1)) (fun p => p.2) 1 (m * m)
      rw [a1, ← eid] at a2
      have a3 := quad_le pts.length pts (fun _ => 0)
        (fun p => 1 * (1 * (p.2 * (p.1 * p.1)) + (-2 * m) * (p.2 * p.1)) + m * m * p.2) hx (by
          intro p hp
          have : 1 * (1 * (p.2 * (p.1 * p.1)) + (-2 * m) * (p.2 * p.1)) + m * m * p.2 = p.2 * ((p.1 - m) * (p.1 - m)) := by ring
          rw [this]
          exact mul_nonneg (hpos p hp).le (mul_self_nonneg _))
      rw [a2] at a3
      have a4 := quad_lin pts.length pts (fun _ => 0) (fun _ => 0) 0 0
      simp only [mul_zero, add_zero, zero_mul] at a4
      rw [a4] at a3
      simp only [one_mul] at a3
      linarith
    rw [sub_nonneg, le_div_iff₀ ht]
    have : m * m * t = m * s1 := by rw [mul_assoc, hmt]
    nlinarith

example : Weighted ([(1 / 10, 1), (2 / 10, 3), (3 / 10, 1)] : List (ℚ × ℚ)) := by
  constructor <;> norm_num [List.pairwise_cons]

/-- The properties of the exponential that are used. -/
structure ExpOK (exp : α → α) : Prop where
  pos : ∀ x, 0 < exp x
  zero : exp 0 = 1

/-- A well-formed galaxy: increasing bins, the last one an overflow bin at 100 or more. -/
structure InputOK (g : Input α) : Prop where
  grid : g.z.Pairwise (· < ·)
  overflow : 100 ≤ g.z.getD (g.z.length - 1) 0
  len : 2 ≤ g.z.length

/-- The bins searched: from ten before the first allowed bin to ten after the last. -/
def Searched (g : Input α) (i : Nat) : Prop :=
  i + 1 < g.z.length ∧ ∃ a ∈ zbinsLimited g, ∃ b ∈ zbinsLimited g, a ≤ i + 10 ∧ i < b + 10

theorem filter_range_head (n : Nat) (p : Nat → Bool) (h : (List.range n).filter p ≠ []) :
    ((List.range n).filter p).headD 0 ∈ (List.range n).filter p ∧ ∀ i ∈ (List.range n).filter p, ((List.range n).filter p).headD 0 ≤ i := by
  have hs : ((List.range n).filter p).Pairwise (· < ·) := List.Pairwise.filter _ List.pairwise_lt_range
  generalize (List.range n).filter p = l at *
  cases l with
  | nil => exact absurd rfl h
  | cons a l =>
    refine ⟨by simp, ?_⟩
    intro i hi
    simp only [List.headD_cons]
    rcases List.mem_cons.mp hi with rfl | hi
    · exact le_refl _
    · exact ((List.pairwise_cons.mp hs).1 i hi).le

theorem filter_range_last (n : Nat) (p : Nat → Bool) (h : (List.range n).filter p ≠ []) :
    ((List.range n).filter p).getLastD 0 ∈ (List.range n).filter p ∧ ∀ i ∈ (List.range n).filter p, i ≤ ((List.range n).filter p).getLastD 0 := by
  have hs : ((List.range n).filter p).Pairwise (· < ·) := List.Pairwise.filter _ List.pairwise_lt_range
  generalize (List.range n).filter p = l at *
  rcases List.eq_nil_or_concat l with rfl | ⟨l', a, rfl⟩
  · exact absurd rfl h
  · rw [List.concat_eq_append] at *
    refine ⟨by simp, ?_⟩
    intro i hi
    rw [List.getLastD_concat]
    rcases List.mem_append.mp hi with hi | hi
    · exact (List.pairwise_append.mp hs).2.2 i hi a (by simp) |>.le
    · simp at hi; rw [hi]

theorem limited_lt (g : Input α) (hg : InputOK g) (i : Nat) (hi : i ∈ zbinsLimited g) : i < g.nz := by
  unfold zbinsLimited at hi
  rw [List.mem_filter, List.mem_range] at hi
  obtain ⟨h1, h2⟩ := hi
  simp only [Bool.and_eq_true, decide_eq_true_eq] at h2
  unfold Input.nz
  have := hg.len
  by_contra hc
  have : i = g.z.length - 1 := by omega
  have h3 := hg.overflow
  rw [← this] at h3
  exact absurd h2.2 (not_lt.mpr h3)

theorem mem_zbins (g : Input α) (h : 2 ≤ (zbinsLimited g).length) (hg : InputOK g) (i : Nat) :
    i ∈ zbins g.nz ((zbinsLimited g).headD 0) ((zbinsLimited g).getLastD 0) ↔ Searched g i := by
  have hne : zbinsLimited g ≠ [] := by intro hc; rw [hc] at h; simp at h
  obtain ⟨f1, f2⟩ := filter_range_head _ _ hne
  obtain ⟨l1, l2⟩ := filter_range_last _ _ hne
  have hf : (zbinsLimited g).headD 0 < g.nz := limited_lt g hg _ f1
  unfold zbins Searched
  simp only [List.mem_filter, List.mem_range, decide_eq_true_eq]
  constructor
  · rintro ⟨h1, h2⟩
    exact ⟨by have : g.nz = g.z.length - 1 := rfl; omega, (zbinsLimited g).headD 0, f1, (zbinsLimited g).getLastD 0, l1, by omega, by omega⟩
  · rintro ⟨h1, a, ha, b, hb, h2, h3⟩
    have hnz : g.nz = g.z.length - 1 := rfl
    have k1 : (zbinsLimited g).headD 0 ≤ a := f2 a ha
    have k2 : b ≤ (zbinsLimited g).getLastD 0 := l2 b hb
    exact ⟨by omega, by omega⟩

theorem maxOf_spec (f : Nat → α) : ∀ l : List Nat, l ≠ [] → (∃ i ∈ l, maxOf f l = f i) ∧ ∀ i ∈ l, f i ≤ maxOf f l := by
  intro l
  induction l with
  | nil => intro h; exact absurd rfl h
  | cons i rest ih =>
    intro _
    cases rest with
    | nil => simp [maxOf]
    | cons j rest =>
      obtain ⟨⟨k, hk, e⟩, h2⟩ := ih (by simp)
      simp only [maxOf]
      constructor
      · rcases le_total (f i) (maxOf f (j :: rest)) with h | h
        · exact ⟨k, List.mem_cons_of_mem _ hk, by rw [max_eq_right h, e]⟩
        · exact ⟨i, List.mem_cons_self, by rw [max_eq_left h]⟩
      · intro x hx
        rcases List.mem_cons.mp hx with rfl | hx
        · exact le_max_left _ _
        · exact le_trans (h2 x hx) (le_max_right _ _)

/-- The bins and the weights of a galaxy that passes the first test. -/
theorem calc_points {exp : α → α} (he : ExpOK exp) (g : Input α) (hg : InputOK g) (h : 2 ≤ (zbinsLimited g).length) :
    let bins := zbins g.nz ((zbinsLimited g).headD 0) ((zbinsLimited g).getLastD 0)
    let cinds := calcinds exp g bins
    (∀ i ∈ cinds, Searched g i ∧ 0 < dist exp g bins i) ∧ (cinds.Pairwise (· < ·)) ∧
      (∃ k ∈ cinds, Searched g k ∧ ∀ i, Searched g i → g.lnd i ≤ g.lnd k) ∧ (∀ i ∈ cinds, i < g.nz) := by
  intro bins cinds
  have hb : ∀ i, i ∈ bins ↔ Searched g i := mem_zbins g h hg
  have hne : bins ≠ [] := by
    have hl : zbinsLimited g ≠ [] := by intro hc; rw [hc] at h; simp at h
    obtain ⟨f1, _⟩ := filter_range_head _ _ hl
    have : (zbinsLimited g).headD 0 ∈ bins := by
      rw [hb]
      exact ⟨Nat.lt_sub_iff_add_lt.mp (limited_lt g hg _ f1), (zbinsLimited g).headD 0, f1, (zbinsLimited g).headD 0, f1, by omega, by omega⟩
    intro hc; rw [hc] at this; exact absurd this List.not_mem_nil
  obtain ⟨⟨k, hk, ek⟩, hmax⟩ := maxOf_spec (lndist g bins) bins hne
  have lnd : ∀ i ∈ bins, lndist g bins i = g.lnd i := fun i hi => by unfold lndist; exact if_pos hi
  have hcalc : ∀ i, i ∈ cinds ↔ i < g.nz ∧ 1 / 100000 < dist exp g bins i := by
    intro i
    simp only [cinds, calcinds, List.mem_filter, List.mem_range, decide_eq_true_eq]
  refine ⟨?_, List.Pairwise.filter _ List.pairwise_lt_range, ⟨k, ?_, (hb k).mp hk, ?_⟩, fun i hi => ((hcalc i).mp hi).1⟩
  · intro i hi
    obtain ⟨h1, h2⟩ := (hcalc i).mp hi
    have hm : i ∈ bins := by
      by_contra hc
      unfold dist at h2
      rw [if_neg hc] at h2
      norm_num at h2
    refine ⟨(hb i).mp hm, ?_⟩
    unfold dist; rw [if_pos hm]; exact he.pos _
  · rw [hcalc]
    refine ⟨Nat.lt_sub_iff_add_lt.mpr ((hb k).mp hk).1, ?_⟩
    unfold dist
    rw [if_pos hk, ek, lnd k hk, sub_self, he.zero]
    norm_num
  · intro i hi
    have := hmax i ((hb i).mpr hi)
    rw [ek, lnd i ((hb i).mpr hi), lnd k hk] at this
    exact this

theorem errorOf_floor (sqrt : α → α) (v : α) : 1 / 200 ≤ errorOf sqrt v := by
  unfold errorOf
  simp only
  by_cases h : 1 / 200 < (if v < 0 then 1 else sqrt v)
  · rw [if_pos h]; exact h.le
  · rw [if_neg h]

theorem refine_near (fit : List (α × α) → α × α) (g : Input α) (bins : List Nat) (ind : Nat) (zt e : α) (he : 0 < e) :
    |refine fit g bins ind zt e - zt| ≤ 2 * e := by
  have h0 : |zt - zt| ≤ 2 * e := by rw [sub_self, abs_zero]; linarith
  unfold refine
  simp only
  by_cases h1 : 5 ≤ ((List.range g.nz).filter fun i => decide (-10000000000 < lndist g bins i)).length
  · rw [if_pos h1]
    generalize window _ _ _ = w
    by_cases h2 : 5 ≤ w.2 - w.1 + 1
    · rw [if_pos h2]
      generalize fit _ = f
      by_cases h3 : f.1 < 0
      · rw [if_pos h3]
        by_cases h4 : |-f.2 / (2 * f.1) - zt| < 2 * e
        · rw [if_pos h4]; exact h4.le
        · rw [if_neg h4]; exact h0
      · rw [if_neg h3]; exact h0
    · rw [if_neg h2]; exact h0
  · rw [if_neg h1]; exact h0

theorem pts_sorted (g : Input α) (hg : InputOK g) (cinds : List Nat) (hs : cinds.Pairwise (· < ·)) (hl : ∀ i ∈ cinds, i < g.nz) (f : Nat → α) :
    (cinds.map fun i => (g.z.getD i 0, f i)).Pairwise (fun p q => p.1 < q.1) := by
  rw [List.pairwise_map]
  have hgrid : Grid g.z := ⟨hg.len, hg.grid⟩
  refine List.Pairwise.imp_of_mem ?_ hs
  intro a b ha hb hab
  have := hl b hb
  unfold Input.nz at this
  exact hgrid.lt hab (by omega)

/-- A redshift that is reported lies within two errors of the redshifts searched, and its error is at least 0.005. -/
theorem C99_range {exp : α → α} (he : ExpOK exp) (sqrt : α → α) (fit : List (α × α) → α × α) (g : Input α) (hg : InputOK g)
    (z e lk chi : α) (h : fitZred exp sqrt fit g = some (z, e, lk, chi)) (lo hi : α)
    (hr : ∀ i, Searched g i → lo ≤ g.z.getD i 0 ∧ g.z.getD i 0 ≤ hi) :
    1 / 200 ≤ e ∧ lo - 2 * e ≤ z ∧ z ≤ hi + 2 * e := by
  unfold fitZred at h
  simp only at h
  by_cases h1 : (zbinsLimited g).length < 2
  · rw [if_pos h1] at h; exact absurd h (by simp)
  · rw [if_neg h1] at h
    obtain ⟨c1, c2, ⟨k, hk, _⟩, c4⟩ := calc_points he g hg (by omega)
    set bins := zbins g.nz ((zbinsLimited g).headD 0) ((zbinsLimited g).getLastD 0) with hbins
    set cinds := calcinds exp g bins with hcalc
    set pts := cinds.map fun i => (g.z.getD i 0, dist exp g bins i) with hpts
    split at h
    · exact absurd h (by simp)
    · simp only [Option.some.injEq, Prod.mk.injEq] at h
      obtain ⟨e1, e2, _, _⟩ := h
      have hw : Weighted pts := by
        refine ⟨pts_sorted g hg cinds c2 c4 _, ?_⟩
        intro p hp
        obtain ⟨i, hi, rfl⟩ := List.mem_map.mp hp
        exact (c1 i hi).2
      have hne : pts ≠ [] := by
        intro hc
        rw [hpts, List.map_eq_nil_iff] at hc
        rw [hc] at hk; exact absurd hk List.not_mem_nil
      obtain ⟨m1, m2, m3⟩ := C99_moments pts hw hne lo hi (by
        intro p hp
        obtain ⟨i, hi, rfl⟩ := List.mem_map.mp hp
        exact hr i (c1 i hi).1)
      have f1 : 1 / 200 ≤ e := by rw [← e2]; exact errorOf_floor _ _
      have f2 := refine_near fit g bins (argmaxOn (dist exp g bins) g.notextrap) (moments pts).1 (errorOf sqrt (moments pts).2) (by
        have := errorOf_floor sqrt (moments pts).2
        have h200 : (0 : α) < 1 / 200 := by norm_num
        linarith)
      rw [e1, e2, abs_le] at f2
      exact ⟨f1, by linarith [f2.1], by linarith [f2.2]⟩

/-- A galaxy has no redshift exactly when fewer than two bins allow its magnitude, or no searched bin has a usable likelihood. -/
theorem C99_reset_iff {exp : α → α} (he : ExpOK exp) (sqrt : α → α) (fit : List (α × α) → α × α) (g : Input α) (hg : InputOK g) :
    fitZred exp sqrt fit g = none ↔
      (zbinsLimited g).length < 2 ∨ ∀ i, Searched g i → g.lnd i < -10000000000 := by
  unfold fitZred
  simp only
  by_cases h1 : (zbinsLimited g).length < 2
  · rw [if_pos h1]; simp [h1]
  · rw [if_neg h1]
    have hb := mem_zbins g (by omega) hg
    obtain ⟨c1, c2, ⟨k, hk, hks, hkm⟩, c4⟩ := calc_points he g hg (by omega)
    set bins := zbins g.nz ((zbinsLimited g).headD 0) ((zbinsLimited g).getLastD 0) with hbins
    set cinds := calcinds exp g bins with hcalc
    generalize refine fit g bins _ _ _ = zr
    generalize errorOf sqrt _ = er
    have lnd : ∀ i, Searched g i → lndist g bins i = g.lnd i := fun i hi => by unfold lndist; exact if_pos ((hb i).mpr hi)
    set nd : Nat → α := fun i => if lndist g bins i < -10000000000 then 0 else
      exp (-(1 / 2) * ((g.z.getD i 0 - zr) / er) * ((g.z.getD i 0 - zr) / er)) with hnd
    have hnn : ∀ p ∈ cinds.map fun i => (g.z.getD i 0, nd i), 0 ≤ p.2 := by
      intro p hp
      obtain ⟨i, _, rfl⟩ := List.mem_map.mp hp
      simp only [hnd]
      split
      · exact le_refl _
      · exact (he.pos _).le
    have hden : quad cinds.length (cinds.map fun i => (g.z.getD i 0, nd i)) = 0 ↔ ∀ i, Searched g i → g.lnd i < -10000000000 := by
      constructor
      · intro h0
        by_contra hc
        push Not at hc
        obtain ⟨i, hi, hge⟩ := hc
        have hkge : -10000000000 ≤ g.lnd k := le_trans hge (hkm i hi)
        have hpos : 0 < quad (cinds.map fun i => (g.z.getD i 0, nd i)).length (cinds.map fun i => (g.z.getD i 0, nd i)) := by
          refine quad_pos _ (pts_sorted g hg cinds c2 c4 _) hnn ⟨_, List.mem_map.mpr ⟨k, hk, rfl⟩, ?_⟩
          simp only [hnd]
          rw [lnd k hks, if_neg (not_lt.mpr hkge)]
          exact he.pos _
        rw [List.length_map] at hpos
        exact absurd h0 hpos.ne'
      · intro hall
        have e : (cinds.map fun i => (g.z.getD i 0, nd i)) = (cinds.map fun i => (g.z.getD i 0, (0 : α))) := by
          apply List.map_congr_left
          intro i hi
          simp only [hnd]
          rw [lnd i (c1 i hi).1, if_pos (hall i (c1 i hi).1)]
        rw [e]
        have := quad_lin cinds.length (cinds.map fun i => (g.z.getD i 0, (0 : α))) (fun _ => 0) (fun _ => 0) 0 0
        simp only [mul_zero, add_zero, zero_mul, List.map_map] at this
        exact this
    by_cases hz : quad cinds.length (cinds.map fun i => (g.z.getD i 0, nd i)) = 0
    · rw [if_pos hz]
      simp only [true_iff]
      exact Or.inr (hden.mp hz)
    · rw [if_neg hz]
      simp only [reduceCtorEq, false_iff, not_or]
      exact ⟨h1, fun hc => hz (hden.mpr hc)⟩

/-- A galaxy with six bins, bin 2 the most likely. -/
def smallInput : Input ℚ where
  z := [1 / 10, 2 / 10, 3 / 10, 4 / 10, 5 / 10, 1000]
  notextrap := [0, 1, 2, 3, 4]
  maxrefmag := [20, 20, 20, 20, 20, 20]
  minrefmag := [10, 10, 10, 10, 10, 10]
  refmag := 15
  lnd := fun i => if i = 2 then 0 else -3
  chi := fun _ => 1

example : InputOK smallInput := by
  constructor
  · unfold smallInput; norm_num [List.pairwise_cons]
  · norm_num [smallInput]
  · decide

example : 2 ≤ (zbinsLimited smallInput).length ∧ Searched smallInput 2 := by
  have h : zbinsLimited smallInput = [0, 1, 2, 3, 4] := by decide +kernel
  refine ⟨by rw [h]; decide, by decide, 2, by rw [h]; decide, 2, by rw [h]; decide, by omega, by omega⟩

example : ExpOK (fun _ : ℚ => 1) := ⟨fun _ => by norm_num, rfl⟩

/-! ## C100 -/

/-- When the usable bins span at least five, the parabola always has five or six consecutive bins, all between the first and the last
usable one, and the most likely bin is among them if it is usable itself. -/
theorem C100_window (minuse maxuse ind : Int) (h : minuse + 4 ≤ maxuse) :
    let w := window minuse maxuse ind
    minuse ≤ w.1 ∧ w.2 ≤ maxuse ∧ (w.2 - w.1 + 1 = 5 ∨ w.2 - w.1 + 1 = 6) ∧ (minuse ≤ ind → ind ≤ maxuse → w.1 ≤ ind ∧ ind ≤ w.2) := by
  unfold window
  simp only
  by_cases h1 : minuse > ind - 2 <;> by_cases h2 : maxuse < ind + 2
  · omega
  · rw [if_pos h1]; simp only [if_true]; omega
  · rw [if_neg h1, if_pos h2]
    by_cases h3 : ind - 2 = minuse
    · rw [if_pos h3]; simp only; omega
    · rw [if_neg h3]; simp only [if_true]; omega
  · rw [if_neg h1, if_neg h2]
    by_cases h3 : ind - 2 = minuse
    · rw [if_pos h3]; simp only; omega
    · rw [if_neg h3]
      by_cases h4 : ind + 2 = maxuse
      · rw [if_pos h4]; simp only; omega
      · rw [if_neg h4]; simp only; omega

/-- The property one would like: all bins of the parabola are usable. -/
def C100_spec : Prop :=
  ∀ (use : List Int) (ind : Int), use.Pairwise (· < ·) → 5 ≤ use.length → ind ∈ use →
    ∀ i, (window (use.headD 0) (use.getLastD 0) ind).1 ≤ i → i ≤ (window (use.headD 0) (use.getLastD 0) ind).2 → i ∈ use

/-- False when the usable bins are not consecutive: the fit then goes through the values that mark unusable bins. -/
theorem C100_holes_false : ¬ C100_spec := by
  intro h
  have := h [0, 1, 2, 3, 5, 6, 7] 3 (by decide) (by decide) (by decide) 4 (by decide) (by decide)
  exact absurd this (by decide)

/-- It holds when they are. -/
theorem C100_partial (use : List Int) (ind : Int) (h5 : use.headD 0 + 4 ≤ use.getLastD 0)
    (hc : ∀ i, use.headD 0 ≤ i → i ≤ use.getLastD 0 → i ∈ use) (i : Int)
    (h1 : (window (use.headD 0) (use.getLastD 0) ind).1 ≤ i) (h2 : i ≤ (window (use.headD 0) (use.getLastD 0) ind).2) : i ∈ use := by
  obtain ⟨a, b, _, _⟩ := C100_window (use.headD 0) (use.getLastD 0) ind h5
  exact hc i (by omega) (by omega)

example : ∀ i, ([3, 4, 5, 6, 7] : List Int).headD 0 ≤ i → i ≤ ([3, 4, 5, 6, 7] : List Int).getLastD 0 → i ∈ ([3, 4, 5, 6, 7] : List Int) := by
  intro i h1 h2
  have h1 : 3 ≤ i := h1
  have h2 : i ≤ 7 := h2
  interval_cases i <;> decide

/-! ## C101 -/

/-- The property as one would like it: a galaxy gets the same columns alone and in a catalog. -/
def C101_spec : Prop :=
  ∀ (c : Corr ℚ) (m : ℚ) (r : Option (ℚ × ℚ × ℚ × ℚ)) (samp : List ℚ) (g : ZCols ℚ),
    computeZreds c true [(m, r, samp, g)] = [computeZred c true false m r samp g]

/-- What agrees for a galaxy with a redshift: the uncorrected columns, chi-squared, likelihood, samples and the zred2 error; zred2 differs by
the slope term, which only the single-galaxy version has.  Missing: zred and its error, whose iterations stop differently. -/
theorem C101_partial (c : Corr α) (m : α) (z e lk chi : α) (samp : List α) (g : ZCols α) :
    ∃ a b, computeZreds c true [(m, some (z, e, lk, chi), samp, g)] = [a] ∧ computeZred c true false m (some (z, e, lk, chi)) samp g = b ∧
      a.zred_uncorr = z ∧ b.zred_uncorr = z ∧ a.zred_uncorr_e = e ∧ b.zred_uncorr_e = e ∧ a.chisq = chi ∧ b.chisq = chi ∧ a.lkhd = lk ∧
      b.lkhd = lk ∧ a.samp = samp ∧ b.samp = samp ∧ a.zred2_e = b.zred2_e ∧
      b.zred2 = a.zred2 + (m - interpol c.pivotmag c.z z) * interpol c.corr2_slope c.z z := by
  refine ⟨_, _, rfl, rfl, ?_⟩
  simp [computeZred, bulk]
  ring

/-- A table whose only correction is a slope of zred2 with magnitude. -/
def slopeCorr : Corr ℚ := ⟨[0, 1], [20, 20], [0, 0], [0, 0], [1, 1], [0, 0], [1, 1], [1, 1]⟩

theorem C101_false : ¬ C101_spec := by
  intro h
  have g0 : ZCols ℚ := ⟨0, 0, 0, 0, 0, 0, 0, 0, []⟩
  have h1 := h slopeCorr 21 (some (1 / 2, 1 / 100, 0, 1)) [] g0
  obtain ⟨a, b, e1, e2, h2⟩ := C101_partial slopeCorr 21 (1 / 2) (1 / 100) 0 1 [] g0
  rw [e1, e2] at h1
  have hab : a = b := by simpa using h1
  have h3 := h2.2.2.2.2.2.2.2.2.2.2.2
  rw [hab] at h3
  have e3 : interpol slopeCorr.pivotmag slopeCorr.z (1 / 2) = 20 := by simp [interpol, slopeCorr, segment]
  have e4 : interpol slopeCorr.corr2_slope slopeCorr.z (1 / 2) = 1 := by simp [interpol, slopeCorr, segment]
  rw [e3, e4] at h3
  linarith

/-! ## C343: the corrected redshift satisfies its own correction -/

/-- By how much a corrected redshift `zc` of a galaxy of magnitude `m` with uncorrected redshift `z` misses the correction of the table at `zc`. -/
def Defect (c : Corr α) (m z zc : α) : α :=
  |zc - z - (interpol c.corr c.z zc + (m - interpol c.pivotmag c.z z) * interpol c.corr_slope c.z zc)|

/-- The property one would like: both ways of computing redshifts end within 0.001 of a solution. -/
def C343_spec (c : Corr α) : Prop :=
  ∀ (m z e lk chi : α) (samp : List α) (g : ZCols α),
    Defect c m z (computeZred c true false m (some (z, e, lk, chi)) samp g).zred ≤ 1 / 1000 ∧
    ∀ a, computeZreds c true [(m, some (z, e, lk, chi), samp, g)] = [a] → Defect c m z a.zred ≤ 1 / 1000

/-- The correction of the table changes by at most `q` times the change of redshift. -/
def Contracts (c : Corr α) (m p q : α) : Prop :=
  ∀ x y, |(interpol c.corr c.z x + (m - p) * interpol c.corr_slope c.z x) - (interpol c.corr c.z y + (m - p) * interpol c.corr_slope c.z y)|
    ≤ q * |x - y|

theorem step_lip {c : Corr α} {m p q : α} (h : Contracts c m p q) (z a b : α) :
    |dzStep c m p z a - dzStep c m p z b| ≤ q * |a - b| := by
  have := h (z + a) (z + b)
  unfold dzStep
  rwa [add_sub_add_left_eq_sub] at this

theorem dzLoop_defect {c : Corr α} {m p q : α} (h : Contracts c m p q) (hq : 0 ≤ q) (z : α) : ∀ (n : Nat) (old dz : α),
    dz = dzStep c m p z old →
    |dzStep c m p z (dzLoop c m p z n old dz) - dzLoop c m p z n old dz| ≤ max (q / 1000) (q ^ (n + 1) * |dz - old|) := by
  intro n
  induction n with
  | zero =>
    intro old dz hd
    have := step_lip h z dz old
    rw [← hd] at this
    simp only [dzLoop, zero_add, pow_one]
    exact le_trans this (le_max_right _ _)
  | succ n ih =>
    intro old dz hd
    have hl := step_lip h z dz old
    rw [← hd] at hl
    unfold dzLoop
    by_cases ht : 1 / 1000 < |old - dz|
    · rw [if_pos ht]
      refine le_trans (ih dz _ rfl) (max_le (le_max_left _ _) (le_trans ?_ (le_max_right _ _)))
      calc q ^ (n + 1) * |dzStep c m p z dz - dz| ≤ q ^ (n + 1) * (q * |dz - old|) := mul_le_mul_of_nonneg_left hl (pow_nonneg hq _)
        _ = q ^ (n + 1 + 1) * |dz - old| := by ring
    · rw [if_neg ht]
      rw [abs_sub_comm] at ht
      refine le_trans hl (le_trans ?_ (le_max_left _ _))
      rw [div_eq_mul_one_div]
      exact mul_le_mul_of_nonneg_left (not_lt.mp ht) hq

/-- A table that contracts: a galaxy alone misses by at most `q`/1000 or `q`^10 times the first correction, one in a catalog by at most
`q`^5 times the first correction. -/
theorem C343_bound (c : Corr α) (m z e lk chi q : α) (samp : List α) (g : ZCols α) (hq : 0 ≤ q)
    (h : Contracts c m (interpol c.pivotmag c.z z) q) :
    Defect c m z (computeZred c true false m (some (z, e, lk, chi)) samp g).zred ≤ max (q / 1000) (q ^ 10 * Defect c m z z) ∧
    ∀ a, computeZreds c true [(m, some (z, e, lk, chi), samp, g)] = [a] → Defect c m z a.zred ≤ q ^ 5 * Defect c m z z := by
  have hdef : ∀ d, Defect c m z (z + d) = |dzStep c m (interpol c.pivotmag c.z z) z d - d| := by
    intro d
    unfold Defect dzStep
    rw [add_sub_cancel_left, abs_sub_comm]
  have h0 : Defect c m z z = |dzStep c m (interpol c.pivotmag c.z z) z 0 - 0| := by rw [← hdef 0, add_zero]
  generalize hp : interpol c.pivotmag c.z z = p at h hdef h0
  constructor
  · have e1 : (computeZred c true false m (some (z, e, lk, chi)) samp g).zred = z + dzLoop c m p z 10 (-1) 0 := by
      simp [computeZred, hp]
    rw [e1, hdef, h0]
    have e2 : dzLoop c m p z 10 (-1) 0 = dzLoop c m p z 9 0 (dzStep c m p z 0) := by
      rw [dzLoop, if_pos]
      norm_num
    rw [e2]
    exact dzLoop_defect h hq z 9 0 _ rfl
  · intro a ha
    have e1 : a.zred = z + dzBulk c m z := by
      simp only [computeZreds, List.map_cons, List.map_nil, List.cons.injEq, and_true] at ha
      rw [← ha]
      simp [bulk, computeZred]
    have e2 : dzBulk c m z = (fun d => dzStep c m p z d)^[5] 0 := by
      simp [dzBulk, hp, List.range_succ]
    rw [e1, hdef, h0, e2]
    have key : ∀ n : Nat, |dzStep c m p z ((fun d => dzStep c m p z d)^[n] 0) - (fun d => dzStep c m p z d)^[n] 0| ≤ q ^ n * |dzStep c m p z 0 - 0| := by
      intro n
      induction n with
      | zero => simp
      | succ n ih =>
        rw [Function.iterate_succ_apply']
        refine le_trans (step_lip h z _ _) ?_
        calc _ ≤ q * (q ^ n * |dzStep c m p z 0 - 0|) := mul_le_mul_of_nonneg_left ih hq
          _ = q ^ (n + 1) * |dzStep c m p z 0 - 0| := by ring
    exact key 5

/-- The property holds for tables whose correction changes by at most half the change of redshift and is at most 0.03.  Missing: steeper or
larger corrections, for which it is false (`C343_false`). -/
theorem C343_partial (c : Corr α) (h : ∀ m p, Contracts c m p (1 / 2)) (hs : ∀ m z, Defect c m z z ≤ 3 / 100) : C343_spec c := by
  intro m z e lk chi samp g
  obtain ⟨h1, h2⟩ := C343_bound c m z e lk chi (1 / 2) samp g (by norm_num) (h m _)
  have hd := hs m z
  have hn : 0 ≤ Defect c m z z := abs_nonneg _
  refine ⟨le_trans h1 (max_le (by norm_num) ?_), fun a ha => le_trans (h2 a ha) ?_⟩
  · norm_num at hd ⊢; linarith
  · norm_num at hd ⊢; linarith

/-- With such a table the two ways of computing a redshift agree to 0.004. -/
theorem C343_agree (c : Corr α) (h : ∀ m p, Contracts c m p (1 / 2)) (hs : ∀ m z, Defect c m z z ≤ 3 / 100)
    (m z e lk chi : α) (samp : List α) (g a : ZCols α) (ha : computeZreds c true [(m, some (z, e, lk, chi), samp, g)] = [a]) :
    |(computeZred c true false m (some (z, e, lk, chi)) samp g).zred - a.zred| ≤ 4 / 1000 := by
  obtain ⟨h1, h2⟩ := C343_partial c h hs m z e lk chi samp g
  have h2 := h2 a ha
  generalize (computeZred c true false m (some (z, e, lk, chi)) samp g).zred = x at h1 ⊢
  generalize a.zred = y at h2 ⊢
  have h3 := h m (interpol c.pivotmag c.z z) x y
  unfold Defect at h1 h2
  generalize interpol c.corr c.z x + (m - interpol c.pivotmag c.z z) * interpol c.corr_slope c.z x = u at h1 h3
  generalize interpol c.corr c.z y + (m - interpol c.pivotmag c.z z) * interpol c.corr_slope c.z y = v at h2 h3
  have e : x - y = (x - z - u) - (y - z - v) + (u - v) := by ring
  have h4 : |x - y| ≤ |x - z - u| + |y - z - v| + |u - v| := by
    calc |x - y| = |(x - z - u) - (y - z - v) + (u - v)| := by rw [← e]
      _ ≤ |(x - z - u) - (y - z - v)| + |u - v| := abs_add_le _ _
      _ ≤ _ := by linarith [abs_sub (x - z - u) (y - z - v)]
  norm_num at h1 h2 h3 ⊢
  linarith

/-- A table whose correction is three times the distance from 1/2, the other way. -/
def steepCorr : Corr ℚ := ⟨[0, 1], [0, 0], [3 / 2 + 1 / 100, -3 / 2 + 1 / 100], [0, 0], [1, 1], [0, 0], [0, 0], [1, 1]⟩

/-- False for steep corrections: the iteration runs away. -/
theorem C343_false : ¬ C343_spec steepCorr := by
  intro h
  have := (h 0 (1 / 2) (1 / 100) 0 1 [] ⟨0, 0, 0, 0, 0, 0, 0, 0, []⟩).1
  revert this
  decide +kernel

/-- Non-vacuity: a constant correction of 0.02 contracts. -/
example : ∃ c : Corr ℚ, (∀ m p, Contracts c m p (1 / 2)) ∧ (∀ m z, Defect c m z z ≤ 3 / 100) ∧ ∃ q, interpol c.corr c.z q = 1 / 50 := by
  refine ⟨⟨[0, 1], [0, 0], [1 / 50, 1 / 50], [0, 0], [1, 1], [0, 0], [0, 0], [1, 1]⟩, ?_, ?_, 0, by decide +kernel⟩
  · intro m p x y
    simp [interpol, segment]
  · intro m z
    simp [Defect, interpol, segment]
    norm_num [abs_of_nonneg]

/-! ## C344: the chi-squared and the likelihood that are reported -/

theorem argmaxOn_range (f : Nat → α) : ∀ l : List Nat, l ≠ [] → l.Pairwise (· < ·) →
    argmaxOn f l ∈ l ∧ (∀ j ∈ l, f j ≤ f (argmaxOn f l)) ∧ ∀ j ∈ l, j < argmaxOn f l → f j < f (argmaxOn f l)
  | [], h, _ => absurd rfl h
  | [i], _, _ => by simp [argmaxOn]
  | i :: j :: rest, _, hs => by
    obtain ⟨h1, h2, h3⟩ := argmaxOn_range f (j :: rest) (by simp) (List.pairwise_cons.mp hs).2
    have hlt := (List.pairwise_cons.mp hs).1
    unfold argmaxOn
    simp only
    by_cases h : f i < f (argmaxOn f (j :: rest))
    · rw [if_pos h]
      refine ⟨List.mem_cons_of_mem _ h1, ?_, ?_⟩
      · intro x hx
        rcases List.mem_cons.mp hx with rfl | hx
        · exact h.le
        · exact h2 x hx
      · intro x hx hk
        rcases List.mem_cons.mp hx with rfl | hx
        · exact h
        · exact h3 x hx hk
    · rw [if_neg h]
      refine ⟨List.mem_cons_self, ?_, ?_⟩
      · intro x hx
        rcases List.mem_cons.mp hx with rfl | hx
        · exact le_refl _
        · exact le_trans (h2 x hx) (not_lt.mp h)
      · intro x hx hk
        rcases List.mem_cons.mp hx with rfl | hx
        · omega
        · exact absurd (hlt x hx) (by omega)

/-- The chi-squared is the one of the first table bin nearest to the redshift, overflow bin included, or 1e12 if that bin was not searched. -/
theorem C344_chisq {exp : α → α} (sqrt : α → α) (fit : List (α × α) → α × α) (g : Input α) (hg : InputOK g)
    (z e lk chi : α) (h : fitZred exp sqrt fit g = some (z, e, lk, chi)) :
    ∃ k, k < g.z.length ∧ (∀ j, j < g.z.length → |z - g.z.getD k 0| ≤ |z - g.z.getD j 0|) ∧
      (∀ j, j < k → |z - g.z.getD k 0| < |z - g.z.getD j 0|) ∧
      ((Searched g k ∧ chi = g.chi k) ∨ (¬ Searched g k ∧ chi = 1000000000000)) := by
  unfold fitZred at h
  simp only at h
  by_cases h1 : (zbinsLimited g).length < 2
  · rw [if_pos h1] at h; exact absurd h (by simp)
  rw [if_neg h1] at h
  have hb := mem_zbins g (by omega) hg
  split at h
  · exact absurd h (by simp)
  simp only [Option.some.injEq, Prod.mk.injEq] at h
  obtain ⟨e1, _, _, e4⟩ := h
  rw [e1] at e4
  obtain ⟨k1, k2, k3⟩ := argmaxOn_range (fun i => -|z - g.z.getD i 0|) (List.range g.z.length)
    (by intro hc; have := hg.len; rw [List.range_eq_nil] at hc; omega) List.pairwise_lt_range
  generalize argmaxOn (fun i => -|z - g.z.getD i 0|) (List.range g.z.length) = k at *
  rw [List.mem_range] at k1
  refine ⟨k, k1, fun j hj => neg_le_neg_iff.mp (k2 j (List.mem_range.mpr hj)),
    fun j hj => neg_lt_neg_iff.mp (k3 j (List.mem_range.mpr (by omega)) hj), ?_⟩
  by_cases hk : Searched g k
  · rw [if_pos ((hb k).mpr hk)] at e4; exact Or.inl ⟨hk, e4.symm⟩
  · rw [if_neg (fun hc => hk ((hb k).mp hc))] at e4; exact Or.inr ⟨hk, e4.symm⟩

theorem quad_idx_nonneg (n : Nat) (zs f : Nat → α) (l : List Nat) (hs : (l.map fun i => (zs i, f i)).Pairwise (fun p q => p.1 < q.1))
    (h : ∀ i ∈ l, 0 ≤ f i) : 0 ≤ quad n (l.map fun i => (zs i, f i)) := by
  have h0 : ∀ p ∈ l.map fun i => (zs i, f i), 0 ≤ p.2 := by
    intro p hp
    obtain ⟨i, hi, rfl⟩ := List.mem_map.mp hp
    exact h i hi
  unfold quad
  split
  · exact trap_nonneg _ hs h0
  · refine List.sum_nonneg ?_
    intro y hy
    obtain ⟨p, hp, rfl⟩ := List.mem_map.mp hy
    exact h0 p hp

theorem trap_idx_lin (zs f g : Nat → α) (a b : α) : ∀ l : List Nat,
    trap (l.map fun i => (zs i, a * f i + b * g i)) = a * trap (l.map fun i => (zs i, f i)) + b * trap (l.map fun i => (zs i, g i))
  | [] => by simp [trap]
  | [i] => by simp [trap]
  | i :: j :: rest => by
    have := trap_idx_lin zs f g a b (j :: rest)
    simp only [List.map_cons, trap] at this ⊢
    rw [this]; ring

theorem quad_idx_lin (n : Nat) (zs f g : Nat → α) (a b : α) (l : List Nat) :
    quad n (l.map fun i => (zs i, a * f i + b * g i)) = a * quad n (l.map fun i => (zs i, f i)) + b * quad n (l.map fun i => (zs i, g i)) := by
  unfold quad
  by_cases hn : 3 ≤ n
  · rw [if_pos hn, if_pos hn, if_pos hn]; exact trap_idx_lin zs f g a b l
  · rw [if_neg hn, if_neg hn, if_neg hn, List.map_map, List.map_map, List.map_map]
    induction l with
    | nil => simp
    | cons p rest ih => simp only [List.map_cons, List.sum_cons, Function.comp] at ih ⊢; rw [ih]; ring

/-- The likelihood lies between the smallest and the largest log-likelihood of the usable searched bins. -/
theorem C344_lkhd {exp : α → α} (he : ExpOK exp) (sqrt : α → α) (fit : List (α × α) → α × α) (g : Input α) (hg : InputOK g)
    (z e lk chi : α) (h : fitZred exp sqrt fit g = some (z, e, lk, chi)) (lo hi : α)
    (hr : ∀ i, Searched g i → -10000000000 ≤ g.lnd i → lo ≤ g.lnd i ∧ g.lnd i ≤ hi) : lo ≤ lk ∧ lk ≤ hi := by
  unfold fitZred at h
  simp only at h
  by_cases h1 : (zbinsLimited g).length < 2
  · rw [if_pos h1] at h; exact absurd h (by simp)
  rw [if_neg h1] at h
  have hb := mem_zbins g (by omega) hg
  obtain ⟨c1, c2, _, c4⟩ := calc_points he g hg (by omega)
  set bins := zbins g.nz ((zbinsLimited g).headD 0) ((zbinsLimited g).getLastD 0) with hbins
  set cinds := calcinds exp g bins with hcalc
  generalize refine fit g bins _ _ _ = zr at h
  generalize errorOf sqrt _ = er at h
  have lnd : ∀ i, Searched g i → lndist g bins i = g.lnd i := fun i hi => by unfold lndist; exact if_pos ((hb i).mpr hi)
  set nd : Nat → α := fun i => if lndist g bins i < -10000000000 then 0 else
    exp (-(1 / 2) * ((g.z.getD i 0 - zr) / er) * ((g.z.getD i 0 - zr) / er)) with hnd
  have hnn : ∀ i, 0 ≤ nd i := by
    intro i
    simp only [hnd]
    split
    · exact le_refl _
    · exact (he.pos _).le
  split at h
  · exact absurd h (by simp)
  rename_i hden
  simp only [Option.some.injEq, Prod.mk.injEq] at h
  obtain ⟨_, _, e3, _⟩ := h
  have hs : ∀ f : Nat → α, (cinds.map fun i => (g.z.getD i 0, f i)).Pairwise (fun p q => p.1 < q.1) := pts_sorted g hg cinds c2 c4
  have hpos : 0 < quad cinds.length (cinds.map fun i => (g.z.getD i 0, nd i)) :=
    lt_of_le_of_ne (quad_idx_nonneg _ _ _ _ (hs nd) fun i _ => hnn i) (Ne.symm hden)
  rw [← e3]
  have hv : ∀ i ∈ cinds, lo * nd i ≤ nd i * (if lndist g bins i < -10000000000 then -100000000000 else lndist g bins i) ∧
      nd i * (if lndist g bins i < -10000000000 then -100000000000 else lndist g bins i) ≤ hi * nd i := by
    intro i hi'
    have hsi := (c1 i hi').1
    by_cases hu : lndist g bins i < -10000000000
    · have : nd i = 0 := by simp only [hnd]; rw [if_pos hu]
      rw [this]; simp
    · rw [if_neg hu]
      have hl := lnd i hsi
      rw [hl] at hu ⊢
      obtain ⟨a, b⟩ := hr i hsi (not_lt.mp hu)
      rw [mul_comm (nd i)]
      exact ⟨mul_le_mul_of_nonneg_right a (hnn i), mul_le_mul_of_nonneg_right b (hnn i)⟩
  constructor
  · rw [le_div_iff₀ hpos]
    have h0 := quad_idx_nonneg cinds.length (fun i => g.z.getD i 0)
      (fun i => 1 * (nd i * (if lndist g bins i < -10000000000 then -100000000000 else lndist g bins i)) + (-lo) * nd i) cinds (hs _)
      (fun i hi' => by have := (hv i hi').1; linarith)
    rw [quad_idx_lin] at h0
    linarith
  · rw [div_le_iff₀ hpos]
    have h0 := quad_idx_nonneg cinds.length (fun i => g.z.getD i 0)
      (fun i => (-1) * (nd i * (if lndist g bins i < -10000000000 then -100000000000 else lndist g bins i)) + hi * nd i) cinds (hs _)
      (fun i hi' => by have := (hv i hi').2; linarith)
    rw [quad_idx_lin] at h0
    linarith

end Redmapper.Zred
