/-
C283-C284: what the calibration of redMaGiC reads.
-/
import Verif.Model.RmRun
import Verif.Props.Redmagic
import Verif.Props.RmCal
import Verif.Props.Centering

set_option linter.unusedSectionVars false

namespace Redmapper.RmRun

open Redmapper.Redmagic (RGal RCal Err Env Entry Passes passes passes_iff select select_eq)
open Redmapper.RmCal (costRange)
open Redmapper.Centering (argmin argmin_spec argmin_none)

variable {α : Type} [Field α] [LinearOrder α] [IsStrictOrderedRing α]

/-! ## C283: the cut keeps every galaxy that can be selected -/

theorem foldl_min_le (es : List α) (e : α) : es.foldl min e ≤ e ∧ ∀ x ∈ es, es.foldl min e ≤ x := by
  induction es generalizing e with
  | nil => simp
  | cons a es ih =>
    rw [List.foldl_cons]
    obtain ⟨h1, h2⟩ := ih (min e a)
    refine ⟨h1.trans (min_le_left _ _), fun x hx => ?_⟩
    rcases List.mem_cons.mp hx with rfl | h
    · exact h1.trans (min_le_right _ _)
    · exact h2 x h

theorem minLstar_spec (etas : List α) (l : α) (h : minLstar etas = .ok l) : 1 / 10 ≤ l ∧ ∀ e ∈ etas, l ≤ max (e - 1 / 20) (1 / 10) := by
  cases etas with
  | nil => exact absurd h (by simp [minLstar])
  | cons a es =>
    obtain rfl := Except.ok.inj (show Except.ok (max (es.foldl min a - lstarCushion) (1 / 10)) = Except.ok l from h)
    obtain ⟨h1, h2⟩ := foldl_min_le es a
    refine ⟨le_max_right _ _, fun e he => max_le_max ?_ le_rfl⟩
    rcases List.mem_cons.mp he with rfl | h
    · simp only [lstarCushion]; linarith
    · have := h2 e h; simp only [lstarCushion]; linarith

theorem costRange_mono [FloorRing α] (z0 z1 z2 buffer bs : α) (hbs : 0 < bs) (h : z1 ≤ z2) :
    (costRange z0 z1 buffer bs).2 ≤ (costRange z0 z2 buffer bs).2 := by
  unfold costRange
  have : ⌈((z1 - buffer) - (z0 + buffer)) / bs⌉ ≤ ⌈((z2 - buffer) - (z0 + buffer)) / bs⌉ :=
    Int.ceil_le_ceil (div_le_div_of_nonneg_right (by linarith) hbs.le)
  have h2 : ((⌈((z1 - buffer) - (z0 + buffer)) / bs⌉ : Int) : α) ≤ ((⌈((z2 - buffer) - (z0 + buffer)) / bs⌉ : Int) : α) := Int.cast_le.mpr this
  have := mul_le_mul_of_nonneg_right h2 hbs.le
  dsimp only
  linarith

/-- What is recorded for a mode. -/
theorem modeCal_fields [FloorRing α] (cf : Conf α) (i : Nat) (p c : RCal α) (h : modeCal cf i p = some c) :
    ∃ eta zmax, cf.etas[i]? = some eta ∧ cf.zmaxes[i]? = some zmax ∧ c.etamin = eta ∧ c.maxchi = cf.maxchi ∧ c.buffer = cf.buffer ∧
      c.zCushion = 1 / 20 ∧ c.lstarCushion = 1 / 20 ∧ c.costLo = (costRange cf.z0 zmax cf.buffer cf.binsize).1 ∧
      c.costHi = (costRange cf.z0 zmax cf.buffer cf.binsize).2 := by
  unfold modeCal at h
  cases he : cf.etas[i]? with
  | none => simp [he] at h
  | some eta =>
    cases hz : cf.zmaxes[i]? with
    | none => simp [he, hz] at h
    | some zmax =>
      simp only [he, hz, Option.some.injEq] at h
      subst h
      exact ⟨eta, zmax, rfl, rfl, rfl, rfl, rfl, rfl, rfl, rfl, rfl⟩

/-- A galaxy that a mode selects passes the cut. -/
theorem passes_inCut [FloorRing α] (m25 mstar : α → α) (zmaxAt : α → α → α) (cf : Conf α) (hbs : 0 < cf.binsize)
    (hmono : ∀ x y, 0 < x → x ≤ y → m25 x ≤ m25 y) (i : Nat) (p c : RCal α) (hc : modeCal cf i p = some c)
    (hz : ∀ zm, cf.zmaxes[i]? = some zm → zm ≤ cf.z1) (l : α) (hl : minLstar cf.etas = .ok l) (g : RGal α)
    (hg : passes m25 mstar zmaxAt c g = true) : inCut m25 mstar cf l g = true := by
  obtain ⟨eta, zm, h1, h2, h3, h4, h5, h6, h7, h8, h9⟩ := modeCal_fields cf i p c hc
  have hp := (passes_iff _ _ _ _ _).mp hg
  have hr := costRange_mono cf.z0 zm cf.z1 cf.buffer cf.binsize hbs (hz zm h2)
  obtain ⟨m1, m2⟩ := minLstar_spec cf.etas l hl
  have hm := hmono l (max (eta - 1 / 20) (1 / 10)) (by linarith [show (0 : α) < 1 / 10 by norm_num]) (m2 eta (List.mem_of_getElem? h1))
  have a1 := hp.zlo
  have a2 := hp.zhi
  have a3 := lt_of_lt_of_le hp.chi (min_le_right _ _)
  have a4 := hp.possible
  rw [h8, h6, h5] at a1
  rw [h9, h6, h5] at a2
  rw [h4] at a3
  rw [h3, h7] at a4
  have b1 : (costRange cf.z0 zm cf.buffer cf.binsize).1 = (costRange cf.z0 cf.z1 cf.buffer cf.binsize).1 := rfl
  rw [b1] at a1
  have a2' : g.zred < (costRange cf.z0 cf.z1 cf.buffer cf.binsize).2 + 1 / 20 + cf.buffer := by linarith
  have a4' : g.refmag < mstar g.zred - m25 l := by linarith
  unfold inCut zCushion
  simp only [Bool.and_eq_true, decide_eq_true_eq]
  exact ⟨⟨⟨a1, a2'⟩, a3⟩, a4'⟩

theorem filter_filter_imp {β : Type} (p q : β → Bool) (l : List β) (h : ∀ x ∈ l, p x = true → q x = true) : (l.filter q).filter p = l.filter p := by
  rw [List.filter_filter]
  apply List.filter_congr
  intro x hx
  cases hp : p x with
  | false => simp
  | true => simp [h x hx hp]

/-- C283 as one would state it: with the parameters recorded for a mode, a selection from the galaxies read for the calibration gives the same
catalog as a selection from all galaxies. -/
def SameSelection {μ : Type} [DecidableEq μ] [FloorRing α] (env : Env α μ) (cf : Conf α) (i : Nat) (mode : μ) (p : RCal α) : Prop :=
  ∀ c, modeCal cf i p = some c → Entry env.cal mode c → ∀ gals read, readGals env.m25 env.mstar cf gals = .ok read →
    ∃ rows idx idx', select env mode read = .ok (rows, idx) ∧ select env mode gals = .ok (rows, idx')

/-- C283, the part that holds: for modes that end within the range of the calibration. -/
theorem C283_partial {μ : Type} [DecidableEq μ] [FloorRing α] (env : Env α μ) (cf : Conf α) (hbs : 0 < cf.binsize)
    (hmono : ∀ x y, 0 < x → x ≤ y → env.m25 x ≤ env.m25 y) (i : Nat) (mode : μ) (p : RCal α)
    (hz : ∀ zm, cf.zmaxes[i]? = some zm → zm ≤ cf.z1) : SameSelection env cf i mode p := by
  intro c hc he gals read hr
  unfold readGals at hr
  cases hl : minLstar cf.etas with
  | error e => simp [hl] at hr
  | ok l =>
    simp only [hl] at hr
    by_cases h0 : (gals.filter (inCut env.m25 env.mstar cf l)).length = 0
    · rw [if_pos h0] at hr; exact absurd hr (by simp)
    · rw [if_neg h0] at hr
      obtain rfl := Except.ok.inj hr
      refine ⟨_, _, Centering.whereIdx (passes env.m25 env.mstar (env.zmax mode) c) gals, select_eq env mode c he _, ?_⟩
      rw [select_eq env mode c he gals, filter_filter_imp]
      exact fun g _ hg => passes_inCut env.m25 env.mstar (env.zmax mode) cf hbs hmono i p c hc hz l hl g hg

/-- C283: with modes that end within the range, if the calibration finds no galaxy then the mode selects none. -/
theorem C283_none {μ : Type} [DecidableEq μ] [FloorRing α] (env : Env α μ) (cf : Conf α) (hbs : 0 < cf.binsize)
    (hmono : ∀ x y, 0 < x → x ≤ y → env.m25 x ≤ env.m25 y) (i : Nat) (mode : μ) (p c : RCal α) (hc : modeCal cf i p = some c)
    (hz : ∀ zm, cf.zmaxes[i]? = some zm → zm ≤ cf.z1) (he : Entry env.cal mode c) (gals : List (RGal α)) (e : Err)
    (hr : readGals env.m25 env.mstar cf gals = .error e) : ∃ idx, select env mode gals = .ok ([], idx) := by
  unfold readGals at hr
  obtain ⟨eta, zm, h1, -⟩ := modeCal_fields cf i p c hc
  cases hl : minLstar cf.etas with
  | error e =>
    cases hes : cf.etas with
    | nil => rw [hes] at h1; simp at h1
    | cons a as => rw [hes] at hl; exact absurd hl (by simp [minLstar])
  | ok l =>
    simp only [hl] at hr
    by_cases h0 : (gals.filter (inCut env.m25 env.mstar cf l)).length = 0
    · refine ⟨Centering.whereIdx (passes env.m25 env.mstar (env.zmax mode) c) gals, ?_⟩
      rw [select_eq env mode c he gals]
      have hn : gals.filter (passes env.m25 env.mstar (env.zmax mode) c) = [] := by
        rw [← filter_filter_imp _ (inCut env.m25 env.mstar cf l) gals
          (fun g _ hg => passes_inCut env.m25 env.mstar (env.zmax mode) cf hbs hmono i p c hc hz l hl g hg), List.length_eq_zero_iff.mp h0]
        rfl
      rw [hn, List.map_nil]
    · rw [if_neg h0] at hr; exact absurd hr (by simp)

/-- The galaxies read are exactly those in the range of redshifts with cushion and buffer, below the largest chi-squared and brighter than the
faintest of the modes with its cushion, in their order; there is at least one. -/
theorem C283_read [FloorRing α] (m25 mstar : α → α) (cf : Conf α) (gals read : List (RGal α)) (h : readGals m25 mstar cf gals = .ok read) :
    ∃ eta ∈ cf.etas, (∀ e ∈ cf.etas, eta ≤ e) ∧ read ≠ [] ∧ read.Sublist gals ∧
      ∀ g, g ∈ read ↔ g ∈ gals ∧ cf.z0 - 1 / 20 < g.zred ∧ g.zred < (costRange cf.z0 cf.z1 cf.buffer cf.binsize).2 + 1 / 20 + cf.buffer ∧
        g.chisq < cf.maxchi ∧ g.refmag < mstar g.zred - m25 (max (eta - 1 / 20) (1 / 10)) := by
  unfold readGals at h
  cases hes : cf.etas with
  | nil => simp [hes, minLstar] at h
  | cons a es =>
    have hl : minLstar cf.etas = .ok (max (es.foldl min a - 1 / 20) (1 / 10)) := by rw [hes]; rfl
    rw [hl] at h
    dsimp only at h
    have hmem : ∀ (l : List α) (b : α), l.foldl min b = b ∨ l.foldl min b ∈ l := by
      intro l
      induction l with
      | nil => intro b; simp
      | cons x xs ih =>
        intro b
        rw [List.foldl_cons]
        rcases ih (min b x) with h | h
        · rw [h]
          rcases min_choice b x with h' | h'
          · exact Or.inl h'
          · exact Or.inr (by rw [h']; simp)
        · exact Or.inr (List.mem_cons_of_mem _ h)
    obtain ⟨k1, k2⟩ := foldl_min_le es a
    refine ⟨es.foldl min a, ?_, ?_, ?_⟩
    · rcases hmem es a with h | h
      · rw [h]; simp
      · exact List.mem_cons_of_mem _ h
    · intro e he
      rcases List.mem_cons.mp he with rfl | h
      · exact k1
      · exact k2 e h
    · split at h
      · exact absurd h (by simp)
      · rename_i h0
        obtain rfl := Except.ok.inj h
        refine ⟨fun hh => h0 (by rw [hh]; rfl), List.filter_sublist, fun g => ?_⟩
        rw [List.mem_filter]
        unfold inCut zCushion
        simp only [Bool.and_eq_true, decide_eq_true_eq]
        have : (costRange cf.z0 cf.z1 cf.buffer cf.binsize).1 - 1 / 20 - cf.buffer = cf.z0 - 1 / 20 := by unfold costRange; ring
        rw [this]
        tauto

/-- A configuration of two modes, the second of which ends beyond the range. -/
def toyConf : Conf ℚ := ⟨1 / 10, 1 / 2, 1 / 20, 1 / 50, 20, [1 / 2, 1], [1 / 2, 9 / 10], 1 / 1000⟩

def toyPars : RCal ℚ := ⟨0, 0, 0, 0, 0, 0, 0, fun _ => 5, fun _ => 0, fun _ => 1, false, false⟩

def toyMode (i : Nat) : RCal ℚ := (modeCal toyConf i toyPars).getD toyPars

def toyEnv : Env ℚ Nat := ⟨[(0, toyMode 0), (1, toyMode 1)], fun x => x, fun x => x, fun _ => 20, fun _ _ _ => 1, .column, fun _ _ => none, fun _ => 0⟩

def toyGal (i : Nat) (z : ℚ) : RGal ℚ := ⟨i, 0, 0, 18, 0, [], [], z, 0, [z], 1, 0, 0⟩

/-- C283 is false: the configuration does not check that the modes end within the range of the calibration, so that galaxies that a mode will select
are not in its calibration. -/
theorem C283_false : ¬ SameSelection toyEnv toyConf 1 1 toyPars := by
  intro h
  obtain ⟨rows, idx, idx', h1, h2⟩ := h (toyMode 1) (by rfl) ⟨[(0, toyMode 0)], [], rfl, by simp⟩ [toyGal 7 (2 / 5), toyGal 8 (4 / 5)] [toyGal 7 (2 / 5)]
    (by decide +kernel)
  have e1 : (select toyEnv 1 [toyGal 7 (2 / 5)]).toOption.map (fun p => p.1.map Redmagic.RRow.id) = some [7] := by decide +kernel
  have e2 : (select toyEnv 1 [toyGal 7 (2 / 5), toyGal 8 (4 / 5)]).toOption.map (fun p => p.1.map Redmagic.RRow.id) = some [7, 8] := by decide +kernel
  rw [h1] at e1
  rw [h2] at e2
  have f1 : rows.map Redmagic.RRow.id = [7] := Option.some.inj e1
  have f2 : rows.map Redmagic.RRow.id = [7, 8] := Option.some.inj e2
  rw [f1] at f2
  exact absurd f2 (by decide)

/-- The first mode meets the hypotheses of `C283_partial`, and selects a galaxy. -/
example : (∀ zm, toyConf.zmaxes[0]? = some zm → zm ≤ toyConf.z1) ∧ (∀ x y : ℚ, 0 < x → x ≤ y → toyEnv.m25 x ≤ toyEnv.m25 y) ∧
    Entry toyEnv.cal 0 (toyMode 0) ∧ (select toyEnv 0 [toyGal 7 (2 / 5), toyGal 8 (4 / 5)]).toOption.map (fun p => p.1.map Redmagic.RRow.id) = some [7] := by
  refine ⟨?_, fun x y _ h => h, ⟨[], [(1, toyMode 1)], rfl, by simp⟩, by decide +kernel⟩
  intro zm h
  have : (1 / 2 : ℚ) = zm := by simpa [toyConf] using h
  rw [← this]; norm_num [toyConf]

/-! ## C284: spectroscopic redshifts -/

/-- Position `k` of the list is the closest to `p`, the first of those equally close, and within the radius. -/
def Closest (dist : Dist α) (radius : α) (cat : List (α × α)) (p : α × α) (k : Nat) : Prop :=
  ∃ q, cat[k]? = some q ∧ dist p q ≤ radius ∧ ∀ (j : Nat) (q' : α × α), cat[j]? = some q' → dist p q ≤ dist p q' ∧ (dist p q' = dist p q → k ≤ j)

theorem closest_iff (dist : Dist α) (radius : α) (cat : List (α × α)) (p : α × α) (k : Nat) :
    closest dist radius cat p = some k ↔ Closest dist radius cat p k := by
  unfold closest
  constructor
  · intro h
    cases ha : argmin (cat.map (dist p)) with
    | none => simp [ha] at h
    | some m =>
      simp only [ha] at h
      by_cases hd : dist p (cat.getD m (0, 0)) ≤ radius
      · rw [if_pos hd] at h
        obtain rfl := Option.some.inj h
        obtain ⟨v, hv, hmin⟩ := argmin_spec _ _ ha
        rw [List.getElem?_map, Option.map_eq_some_iff] at hv
        obtain ⟨q, hq, rfl⟩ := hv
        refine ⟨q, hq, by simpa [List.getD_eq_getElem?_getD, hq] using hd, fun j q' hj => ?_⟩
        exact hmin j (dist p q') (by rw [List.getElem?_map, hj]; rfl)
      · rw [if_neg hd] at h; exact absurd h (by simp)
  · rintro ⟨q, hq, hd, hmin⟩
    cases ha : argmin (cat.map (dist p)) with
    | none =>
      have := (argmin_none _).mp ha
      rw [List.map_eq_nil_iff] at this
      rw [this] at hq; simp at hq
    | some m =>
      obtain ⟨v, hv, hmin'⟩ := argmin_spec _ _ ha
      rw [List.getElem?_map, Option.map_eq_some_iff] at hv
      obtain ⟨q', hq', rfl⟩ := hv
      have b1 := hmin m q' hq'
      have b2 := hmin' k (dist p q) (by rw [List.getElem?_map, hq]; rfl)
      have e := le_antisymm b1.1 b2.1
      have : m = k := le_antisymm (b2.2 e) (b1.2 e.symm)
      subst this
      rw [hq] at hq'
      obtain rfl := Option.some.inj hq'
      simp only
      rw [if_pos (by simpa [List.getD_eq_getElem?_getD, hq] using hd)]

/-- The spectra used in the calibration. -/
def Good (cf : Conf α) (spec : List (Spectrum α)) : List (Spectrum α) := spec.filter fun s => decide (s.zErr < cf.specMaxErr)

theorem foldl_set (f : Spectrum α → Option Nat) (ss : List (Spectrum α)) (zs : List α) :
    ((ss.foldl (fun zs s => match f s with
      | some k => zs.set k s.z
      | none => zs) zs).length = zs.length) ∧
    ∀ k < zs.length,
      (∃ s before after, ss = before ++ s :: after ∧ f s = some k ∧ (∀ t ∈ after, f t ≠ some k) ∧
        (ss.foldl (fun zs s => match f s with
          | some k => zs.set k s.z
          | none => zs) zs)[k]? = some s.z) ∨
      ((∀ s ∈ ss, f s ≠ some k) ∧ (ss.foldl (fun zs s => match f s with
          | some k => zs.set k s.z
          | none => zs) zs)[k]? = zs[k]?) := by
  induction ss using List.reverseRecOn with
  | nil => exact ⟨rfl, fun k _ => Or.inr ⟨by simp, rfl⟩⟩
  | append_singleton l a ih =>
    obtain ⟨ih1, ih2⟩ := ih
    rw [List.foldl_append, List.foldl_cons, List.foldl_nil]
    generalize hr : l.foldl (fun zs s => match f s with
      | some k => zs.set k s.z
      | none => zs) zs = r at ih1 ih2
    cases hf : f a with
    | none =>
      refine ⟨ih1, fun k hk => ?_⟩
      rcases ih2 k hk with ⟨s, b, t, e, h1, h2, h3⟩ | ⟨h1, h2⟩
      · refine Or.inl ⟨s, b, t ++ [a], by rw [e]; simp, h1, fun x hx => ?_, h3⟩
        rcases List.mem_append.mp hx with h | h
        · exact h2 x h
        · rw [List.mem_singleton.mp h, hf]; simp
      · refine Or.inr ⟨fun x hx => ?_, h2⟩
        rcases List.mem_append.mp hx with h | h
        · exact h1 x h
        · rw [List.mem_singleton.mp h, hf]; simp
    | some m =>
      refine ⟨by rw [List.length_set, ih1], fun k hk => ?_⟩
      by_cases hmk : m = k
      · subst hmk
        exact Or.inl ⟨a, l, [], rfl, hf, by simp, by rw [List.getElem?_set]; simp [ih1, hk]⟩
      · dsimp only
        rw [List.getElem?_set_ne hmk]
        rcases ih2 k hk with ⟨s, b, t, e, h1, h2, h3⟩ | ⟨h1, h2⟩
        · refine Or.inl ⟨s, b, t ++ [a], by rw [e]; simp, h1, fun x hx => ?_, h3⟩
          rcases List.mem_append.mp hx with h | h
          · exact h2 x h
          · rw [List.mem_singleton.mp h, hf]; simpa using hmk
        · refine Or.inr ⟨fun x hx => ?_, h2⟩
          rcases List.mem_append.mp hx with h | h
          · exact h1 x h
          · rw [List.mem_singleton.mp h, hf]; simpa using hmk

/-- C284, calibration: one redshift per galaxy, that of the last good spectrum to which it is the closest galaxy, zero if there is none. -/
theorem C284_calibration (dist : Dist α) (cf : Conf α) (radius : α) (spec : List (Spectrum α)) (pos : List (α × α)) :
    (calSpec dist cf radius spec pos).length = pos.length ∧ ∀ k < pos.length,
      (∃ s before after, Good cf spec = before ++ s :: after ∧ Closest dist radius pos (s.ra, s.dec) k ∧
        (∀ t ∈ after, ¬ Closest dist radius pos (t.ra, t.dec) k) ∧ (calSpec dist cf radius spec pos)[k]? = some s.z) ∨
      ((∀ s ∈ Good cf spec, ¬ Closest dist radius pos (s.ra, s.dec) k) ∧ (calSpec dist cf radius spec pos)[k]? = some 0) := by
  obtain ⟨h1, h2⟩ := foldl_set (fun s => closest dist radius pos (s.ra, s.dec)) (Good cf spec) (List.replicate pos.length 0)
  refine ⟨by rw [List.length_replicate] at h1; exact h1, fun k hk => ?_⟩
  rcases h2 k (by simpa using hk) with ⟨s, b, t, e, c1, c2, c3⟩ | ⟨c1, c2⟩
  · exact Or.inl ⟨s, b, t, e, (closest_iff _ _ _ _ _).mp c1, fun x hx hc => c2 x hx ((closest_iff _ _ _ _ _).mpr hc), c3⟩
  · refine Or.inr ⟨fun x hx hc => c1 x hx ((closest_iff _ _ _ _ _).mpr hc), ?_⟩
    exact c2.trans (by rw [List.getElem?_replicate, if_pos hk])

/-- C284, selection: each galaxy has the redshift of the closest spectrum with an error below 0.001, and -1 exactly if none is within the radius. -/
theorem C284_selection (dist : Dist α) (radius : α) (spec : List (Spectrum α)) (pos : List (α × α)) :
    (selSpec dist radius spec pos).length = pos.length ∧ ∀ (k : Nat) (p : α × α), pos[k]? = some p →
      (∃ s ∈ spec, s.zErr < 1 / 1000 ∧ dist p (s.ra, s.dec) ≤ radius ∧
        (∀ t ∈ spec, t.zErr < 1 / 1000 → dist p (s.ra, s.dec) ≤ dist p (t.ra, t.dec)) ∧ (selSpec dist radius spec pos)[k]? = some s.z) ∨
      ((∀ s ∈ spec, s.zErr < 1 / 1000 → radius < dist p (s.ra, s.dec)) ∧ (selSpec dist radius spec pos)[k]? = some (-1)) := by
  refine ⟨by simp [selSpec], fun k p hp => ?_⟩
  have hk : (selSpec dist radius spec pos)[k]? = some (match closest dist radius
      ((spec.filter fun s => decide (s.zErr < 1 / 1000)).map fun s => (s.ra, s.dec)) p with
    | some k => ((spec.filter fun s => decide (s.zErr < 1 / 1000)).map Spectrum.z).getD k 0
    | none => -1) := by
    unfold selSpec
    dsimp only
    rw [List.getElem?_map, hp, Option.map_some]
    rfl
  rw [hk]
  generalize hg : (spec.filter fun s => decide (s.zErr < 1 / 1000)) = good
  have hmem : ∀ s, s ∈ good ↔ s ∈ spec ∧ s.zErr < 1 / 1000 := by intro s; rw [← hg, List.mem_filter, decide_eq_true_eq]
  cases hc : closest dist radius (good.map fun s => (s.ra, s.dec)) p with
  | some m =>
    obtain ⟨q, hq, hd, hmin⟩ := (closest_iff _ _ _ _ _).mp hc
    rw [List.getElem?_map, Option.map_eq_some_iff] at hq
    obtain ⟨s, hs, rfl⟩ := hq
    obtain ⟨hs1, hs2⟩ := (hmem s).mp (List.mem_of_getElem? hs)
    refine Or.inl ⟨s, hs1, hs2, hd, fun t ht hte => ?_, ?_⟩
    · obtain ⟨j, hj⟩ := List.mem_iff_getElem?.mp ((hmem t).mpr ⟨ht, hte⟩)
      exact (hmin j (t.ra, t.dec) (by rw [List.getElem?_map, hj]; rfl)).1
    · simp [List.getD_eq_getElem?_getD, hs]
  | none =>
    refine Or.inr ⟨fun s hs hse => ?_, rfl⟩
    by_contra hle
    push Not at hle
    unfold closest at hc
    cases ha : argmin ((good.map fun s => (s.ra, s.dec)).map (dist p)) with
    | none =>
      have := (argmin_none _).mp ha
      rw [List.map_eq_nil_iff, List.map_eq_nil_iff] at this
      have h' := (hmem s).mpr ⟨hs, hse⟩
      rw [this] at h'; simp at h'
    | some m =>
      simp only [ha] at hc
      obtain ⟨v, hv, hmin⟩ := argmin_spec _ _ ha
      rw [List.getElem?_map, Option.map_eq_some_iff] at hv
      obtain ⟨q, hq, rfl⟩ := hv
      obtain ⟨j, hj⟩ := List.mem_iff_getElem?.mp ((hmem s).mpr ⟨hs, hse⟩)
      have b := (hmin j (dist p (s.ra, s.dec)) (by rw [List.getElem?_map, List.getElem?_map, hj]; rfl)).1
      rw [if_pos (by rw [List.getD_eq_getElem?_getD, hq]; exact b.trans hle)] at hc
      exact absurd hc (by simp)

/-- C284 as one would state it for the calibration: a galaxy has the redshift of the good spectrum closest to it, if that is within the radius. -/
def OwnSpectrum (dist : Dist α) (cf : Conf α) (radius : α) (spec : List (Spectrum α)) (pos : List (α × α)) : Prop :=
  ∀ (k : Nat) (p : α × α), pos[k]? = some p → ∀ s ∈ Good cf spec, dist p (s.ra, s.dec) ≤ radius →
    (∀ t ∈ Good cf spec, t ≠ s → dist p (s.ra, s.dec) < dist p (t.ra, t.dec)) → (calSpec dist cf radius spec pos)[k]? = some s.z

/-- C284, the part that holds: when the good spectra within the radius of a galaxy are no others than one and no other galaxy is within the radius of
it. -/
theorem C284_partial (dist : Dist α) (hsym : ∀ p q, dist p q = dist q p) (cf : Conf α) (radius : α) (spec : List (Spectrum α)) (pos : List (α × α))
    (h1 : ∀ p ∈ pos, ∀ s ∈ Good cf spec, ∀ t ∈ Good cf spec, dist p (s.ra, s.dec) ≤ radius → dist p (t.ra, t.dec) ≤ radius → s = t)
    (h2 : ∀ s ∈ Good cf spec, ∀ (j k : Nat) (p q : α × α), pos[j]? = some p → pos[k]? = some q → dist p (s.ra, s.dec) ≤ radius →
      dist q (s.ra, s.dec) ≤ radius → j = k) : OwnSpectrum dist cf radius spec pos := by
  intro k p hp s hs hd _
  have hk : k < pos.length := (List.getElem?_eq_some_iff.mp hp).1
  have hc : Closest dist radius pos (s.ra, s.dec) k := by
    refine ⟨p, hp, by rw [hsym]; exact hd, fun j q hq => ?_⟩
    by_cases hj : dist q (s.ra, s.dec) ≤ radius
    · have := h2 s hs j k q p hq hp hj hd
      subst this
      rw [hp] at hq
      obtain rfl := Option.some.inj hq
      exact ⟨le_rfl, fun _ => le_rfl⟩
    · push Not at hj
      have := lt_of_le_of_lt hd hj
      rw [hsym _ p, hsym _ q]
      exact ⟨this.le, fun h => absurd h this.ne'⟩
  rcases (C284_calibration dist cf radius spec pos).2 k hk with ⟨t, b, a, e, c1, c2, c3⟩ | ⟨c1, _⟩
  · have ht : t ∈ Good cf spec := by rw [e]; simp
    obtain ⟨q, hq, hqd, _⟩ := c1
    rw [hp] at hq
    obtain rfl := Option.some.inj hq
    have := h1 p (List.mem_of_getElem? hp) s hs t ht hd (by rw [hsym]; exact hqd)
    rw [this]; exact c3
  · exact absurd hc (c1 s hs)

/-- A distance for the examples. -/
def toyDist : Dist ℚ := fun p q => |p.1 - q.1|

def toySpectra : List (Spectrum ℚ) := [⟨1 / 10, 0, 3 / 10, 0⟩, ⟨2 / 10, 0, 5 / 10, 0⟩]

/-- C284 is false of the calibration: of two spectra within the radius the last in the catalog counts, not the closest. -/
theorem C284_false : ¬ OwnSpectrum toyDist toyConf 1 toySpectra [(0, 0)] := by
  intro h
  have := h 0 (0, 0) rfl ⟨1 / 10, 0, 3 / 10, 0⟩ (by decide +kernel) (by decide +kernel) (by decide +kernel)
  exact absurd this (by decide +kernel)

/-- The hypotheses of `C284_partial` hold for two galaxies with one spectrum each. -/
example : calSpec toyDist toyConf (1 / 5) [⟨1 / 10, 0, 3 / 10, 0⟩, ⟨9 / 10, 0, 5 / 10, 0⟩, ⟨0, 0, 7 / 10, 1⟩] [(0, 0), (1, 0), (2, 0)] = [3 / 10, 1 / 2, 0] ∧
    selSpec toyDist (1 / 5) [⟨1 / 10, 0, 3 / 10, 0⟩, ⟨9 / 10, 0, 5 / 10, 0⟩, ⟨0, 0, 7 / 10, 1⟩] [(0, 0), (1, 0), (2, 0)] = [3 / 10, 1 / 2, -1] := by
  decide +kernel

/-- They hold for one galaxy near one spectrum. -/
example : OwnSpectrum toyDist toyConf (1 / 5) [⟨1 / 10, 0, 3 / 10, 0⟩] [(0, 0), (1, 0)] := by
  apply C284_partial
  · intro p q; exact abs_sub_comm _ _
  · decide +kernel
  · intro s hs j k p q hj hk h1 h2
    have hs' : s = ⟨1 / 10, 0, 3 / 10, 0⟩ := by
      have : s ∈ [(⟨1 / 10, 0, 3 / 10, 0⟩ : Spectrum ℚ)] := (List.mem_filter.mp hs).1
      simpa using this
    subst hs'
    match j, k, hj, hk with
    | 0, 0, _, _ => rfl
    | 1, 1, _, _ => rfl
    | 0, 1, _, hk =>
      obtain rfl := Option.some.inj hk
      exact absurd h2 (by decide +kernel)
    | 1, 0, hj, _ =>
      obtain rfl := Option.some.inj hj
      exact absurd h1 (by decide +kernel)
    | j + 2, _, hj, _ => simp at hj
    | 0, k + 2, _, hk => simp at hk
    | 1, k + 2, _, hk => simp at hk

end Redmapper.RmRun
