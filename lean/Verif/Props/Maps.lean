/-
Properties C214-C221: maps of depth, mask and volume limit; mask galaxies.
-/
import Verif.Model.Maps
import Mathlib.Tactic.Linarith
import Mathlib.Tactic.FieldSimp
import Mathlib.Tactic.Positivity
import Mathlib.Tactic.NormNum
import Mathlib.Tactic.Push

set_option linter.unusedSectionVars false
set_option linter.unusedSimpArgs false

namespace Redmapper.Maps

variable {α : Type} [Field α] [LinearOrder α] [IsStrictOrderedRing α]

/-! ## C214: coverage pixels of a region -/

/-- Pixel `a` of order `s` and pixel `b` of order `c` (nested) share a part of the sky: some cell of the finer map lies in both. -/
def Overlap (s a c b : Nat) : Prop := ∃ cell, cell / 4 ^ (max s c - s) = a ∧ cell / 4 ^ (max s c - c) = b

theorem covpix_mem (r2n : Nat → Nat) (s c : Nat) (hpix : List Nat) (q : Nat) :
    q ∈ covpix r2n s c hpix ↔ ∃ h ∈ hpix, Overlap s (r2n h) c q := by
  unfold covpix Overlap
  by_cases he : s = c
  · subst he
    simp [eq_comm]
  · rw [if_neg he]
    by_cases hlt : c < s
    · rw [if_pos hlt, max_eq_left hlt.le]
      simp
    · have hsc : s < c := by omega
      rw [if_neg hlt, max_eq_right hsc.le]
      simp only [List.mem_flatMap, List.mem_map, List.mem_range, Nat.sub_self, pow_zero, Nat.div_one]
      constructor
      · rintro ⟨h, hh, i, hi, rfl⟩
        refine ⟨h, hh, _, ?_, rfl⟩
        rw [Nat.mul_comm, Nat.mul_add_div (by positivity), Nat.div_eq_of_lt hi, Nat.add_zero]
      · rintro ⟨h, hh, cell, h1, rfl⟩
        refine ⟨h, hh, cell % 4 ^ (c - s), Nat.mod_lt _ (by positivity), ?_⟩
        rw [← h1]; exact Nat.div_add_mod' cell _

/-- C214: without a border the pixels are exactly those that overlap the region; with a border they contain them. -/
theorem C214_coverage (r2n : Nat → Nat) (s c : Nat) (hpix : List Nat) (border : α) (extra l : List Nat)
    (h : subpixIndices r2n (some s) c hpix border extra = .ok (some l)) :
    (border ≤ 0 → ∀ q, q ∈ l ↔ ∃ p ∈ hpix, Overlap s (r2n p) c q)
    ∧ (0 < border → ∀ q, q ∈ l ↔ (∃ p ∈ hpix, Overlap s (r2n p) c q) ∨ q ∈ extra) := by
  unfold subpixIndices at h
  split_ifs at h with h1 h2 h3
  · simp only [Except.ok.injEq, Option.some.injEq] at h
    subst h
    refine ⟨fun hb => absurd h3 (not_lt.mpr hb), fun _ q => ?_⟩
    rw [List.mem_dedup, List.mem_append, covpix_mem]
  · simp only [Except.ok.injEq, Option.some.injEq] at h
    subst h
    exact ⟨fun _ q => covpix_mem r2n s c hpix q, fun hb => absurd hb h3⟩

/-- C214: the errors are exactly no pixels, or several with a border; the whole sky has no list. -/
theorem C214_errors (r2n : Nat → Nat) (sub : Option Nat) (c : Nat) (hpix : List Nat) (border : α) (extra : List Nat) :
    (subpixIndices r2n sub c hpix border extra = .error .runtimeError ↔ hpix = [])
    ∧ (subpixIndices r2n sub c hpix border extra = .error .notImplemented ↔ 0 < border ∧ 2 ≤ hpix.length)
    ∧ (subpixIndices r2n sub c hpix border extra = .ok none ↔ sub = none ∧ hpix ≠ [] ∧ ¬ (0 < border ∧ 2 ≤ hpix.length)) := by
  unfold subpixIndices
  rcases hpix with _ | ⟨a, _ | ⟨b, t⟩⟩ <;> rcases sub with _ | s <;> simp <;> split_ifs <;> simp_all

/-- C214 (guarded): the map can be read when the region has pixels at least as large as those of the coverage, or a border. -/
theorem C214_readable_partial (r2n : Nat → Nat) (s c : Nat) (hpix : List Nat) (border : α) (extra l : List Nat)
    (hinj : Function.Injective r2n) (hnd : hpix.Nodup) (hg : s ≤ c ∨ 0 < border)
    (h : subpixIndices r2n (some s) c hpix border extra = .ok (some l)) : readMap l = .ok l := by
  have key : l.Nodup := by
    unfold subpixIndices at h
    split_ifs at h with h1 h2 h3
    · simp only [Except.ok.injEq, Option.some.injEq] at h
      rw [← h]; exact List.nodup_dedup _
    · simp only [Except.ok.injEq, Option.some.injEq] at h
      rw [← h]
      have hsc : s ≤ c := hg.resolve_right h3
      unfold covpix
      by_cases he : s = c
      · rw [if_pos he]; exact hnd.map hinj
      · rw [if_neg he, if_neg (by omega)]
        have h4 : 0 < 4 ^ (c - s) := by positivity
        rw [List.nodup_flatMap]
        refine ⟨fun x _ => (List.nodup_range).map fun a b hab => by simpa using hab, ?_⟩
        refine List.Pairwise.imp_of_mem (R := fun a b => a ≠ b) ?_ hnd
        intro a b _ _ hab
        simp only [Function.onFun, List.disjoint_left, List.mem_map, List.mem_range, not_exists, not_and]
        rintro q ⟨i, hi, rfl⟩ j hj hq
        apply hab
        apply hinj
        have e1 : (r2n a * 4 ^ (c - s) + i) / 4 ^ (c - s) = r2n a := by
          rw [Nat.mul_comm, Nat.mul_add_div h4, Nat.div_eq_of_lt hi, Nat.add_zero]
        have e2 : (r2n b * 4 ^ (c - s) + j) / 4 ^ (c - s) = r2n b := by
          rw [Nat.mul_comm, Nat.mul_add_div h4, Nat.div_eq_of_lt hj, Nat.add_zero]
        rw [← e1, ← e2, hq]
  unfold readMap
  rw [if_neg (by rw [key.dedup]; omega)]

/-- C214 is false for small pixels of the region: two pixels in one of the coverage give it twice, and the map cannot be read. -/
theorem C214_readable_false (r2n : Nat → Nat) (s c a b : Nat) (hcs : c < s) (border : α) (hb : border ≤ 0)
    (hsame : r2n a / 4 ^ (s - c) = r2n b / 4 ^ (s - c)) :
    ∃ l, subpixIndices r2n (some s) c [a, b] border [] = .ok (some l) ∧ readMap l = .error .runtimeError := by
  refine ⟨[r2n a / 4 ^ (s - c), r2n b / 4 ^ (s - c)], ?_, ?_⟩
  · unfold subpixIndices covpix
    rw [if_neg (by simp), if_neg (fun hh => absurd hh.1 (not_lt.mpr hb))]
    simp only [gt_iff_lt, if_neg (not_lt.mpr hb), if_neg (show ¬ s = c by omega), if_pos hcs, List.map_cons, List.map_nil]
  · unfold readMap
    rw [hsame]; simp

example : (subpixIndices id (some 3) 2 [5, 6] (0 : ℚ) [] = .ok (some [1, 1])) ∧ (5 : Nat) ≠ 6
    ∧ subpixIndices id (some 1) 2 [5, 6] (0 : ℚ) [] = .ok (some [20, 21, 22, 23, 24, 25, 26, 27]) := by
  refine ⟨by decide +kernel, by decide, by decide +kernel⟩

/-! ## C215: values at positions -/

/-- C215: depth and coverage can be asked anywhere: with equal lengths there is one value per position, that of the map up to the poles and
the replacement beyond. -/
theorem C215_values {β : Type} (val : α → α → β) (bad : β) (ras decs : List α) :
    (ras.length ≠ decs.length → getValues val bad ras decs = .error .valueError)
    ∧ (ras.length = decs.length → ∃ vs, getValues val bad ras decs = .ok vs ∧ vs.length = ras.length
        ∧ ∀ i (hi : i < vs.length) (hr : i < ras.length) (hd : i < decs.length),
            (-90 ≤ decs[i] ∧ decs[i] ≤ 90 → vs[i] = val ras[i] decs[i])
            ∧ (decs[i] < -90 ∨ 90 < decs[i] → vs[i] = bad)) := by
  constructor
  · intro h; unfold getValues; rw [if_pos h]
  · intro h
    have hno : ((decs.map clipDec).any fun d => decide (d < -90) || decide (90 < d)) = false := by
      rw [List.any_eq_false]
      intro d hd
      obtain ⟨e, _, rfl⟩ := List.mem_map.mp hd
      have h1 : (-90 : α) ≤ clipDec e := le_max_left _ _
      have h2 : clipDec e ≤ 90 := max_le (by linarith) (min_le_right _ _)
      simp [not_lt.mpr h1, not_lt.mpr h2]
    refine ⟨List.zipWith (fun v d => if |d| > 90 then bad else v) (List.zipWith val ras (decs.map clipDec)) decs, ?_, ?_, ?_⟩
    · unfold getValues valuesPos
      rw [if_neg (not_not.mpr h), hno]; rfl
    · simp [h]
    · intro i hi hr hd
      constructor
      · rintro ⟨hl, hu⟩
        have : ¬ |decs[i]| > 90 := by rw [gt_iff_lt, not_lt, abs_le]; exact ⟨hl, hu⟩
        simp only [List.getElem_zipWith, if_neg this, List.getElem_map]
        congr 1
        unfold clipDec
        rw [min_eq_left hu, max_eq_right hl]
      · intro hb
        have : |decs[i]| > 90 := by
          rcases hb with hb | hb
          · rw [gt_iff_lt, lt_abs]; right; linarith
          · rw [gt_iff_lt, lt_abs]; left; exact hb
        simp only [List.getElem_zipWith, if_pos this]

/-- C215: the volume limit at positions on the sky is the map's, never below zero. -/
theorem C215_zmax_partial (val : α → α → α × α) (unseen : α) (ras decs : List α) (hlen : ras.length = decs.length)
    (hd : ∀ d ∈ decs, -90 ≤ d ∧ d ≤ 90) :
    calcZmax val unseen ras decs = .ok (List.zipWith (fun r d => (max (val r d).1 0, (val r d).2)) ras decs) := by
  have hno : (decs.any fun d => decide (d < -90) || decide (90 < d)) = false := by
    rw [List.any_eq_false]
    intro d hm
    obtain ⟨h1, h2⟩ := hd d hm
    simp [not_lt.mpr h1, not_lt.mpr h2]
  unfold calcZmax valuesPos
  rw [if_neg (not_not.mpr hlen), hno]
  simp only [Bool.false_eq_true, if_false, Except.map, Except.ok.injEq]
  clear hno
  induction ras generalizing decs with
  | nil => simp
  | cons r rs ih =>
    rcases decs with _ | ⟨d, ds⟩
    · simp at hlen
    · obtain ⟨h1, h2⟩ := hd d (by simp)
      have : ¬ |d| > 90 := by rw [gt_iff_lt, not_lt, abs_le]; exact ⟨h1, h2⟩
      simp only [List.zipWith_cons_cons, List.map_cons, if_neg this]
      rw [ih ds (by simpa using hlen) (fun e he => hd e (by simp [he]))]

/-- C215 is false of the volume limit: any position beyond a pole raises, although it is meant to be outside. -/
theorem C215_zmax_false (val : α → α → α × α) (unseen : α) (ras decs : List α) (hlen : ras.length = decs.length) (d : α) (hm : d ∈ decs)
    (hd : d < -90 ∨ 90 < d) : calcZmax val unseen ras decs = .error .valueError := by
  have hno : (decs.any fun d => decide (d < -90) || decide (90 < d)) = true := by
    rw [List.any_eq_true]; exact ⟨d, hm, by simpa using hd⟩
  unfold calcZmax valuesPos
  rw [if_neg (not_not.mpr hlen), hno]; rfl

example : (getValues (fun r _ => r) (0 : ℚ) [1, 2] [45, 100] = .ok [1, 0])
    ∧ (calcZmax (fun r _ => (r, 1)) (-1) [1, -2] [(45 : ℚ), -90] = .ok [(1, 1), (0, 1)])
    ∧ (calcZmax (fun r _ => (r, 1)) (-1) [1, 2] [(45 : ℚ), 100] = .error .valueError) := by decide +kernel

/-! ## C216: files of the volume limit -/

variable [FloorRing α]

theorem openAll_spec (reqs : List (Built α)) : ∀ (files : Int → Option (Built α)) (seen : List (Built α)),
    (∀ n b, files n = some b → b ∈ seen ∧ nameOf b.1 = n) →
    (∀ a ∈ seen ++ reqs, ∀ b ∈ seen ++ reqs, nameOf a.1 = nameOf b.1 → a = b) →
    openAll reqs files = reqs := by
  induction reqs with
  | nil => intro files seen _ _; rfl
  | cons r rest ih =>
    intro files seen hf hd
    unfold openAll openMask
    cases hfile : files (nameOf r.1) with
    | some b =>
      obtain ⟨hb, hn⟩ := hf _ _ hfile
      have : b = r := hd b (by simp [hb]) r (by simp) hn
      simp only
      rw [ih files seen hf (fun a ha b hb => hd a (by simp at ha ⊢; tauto) b (by simp at hb ⊢; tauto)), this]
    | none =>
      simp only
      rw [ih _ (seen ++ [r]) ?_ ?_]
      · intro n b hb
        by_cases hn : n = nameOf r.1
        · subst hn
          simp only [Function.update_self, Option.some.injEq] at hb
          subst hb
          exact ⟨by simp, rfl⟩
        · rw [Function.update_of_ne hn] at hb
          obtain ⟨h1, h2⟩ := hf n b hb
          exact ⟨by simp [h1], h2⟩
      · intro a ha b hb
        exact hd a (by simpa using ha) b (by simpa using hb)

/-- C216 (guarded): in any sequence of masks opened in an empty directory, each gets the mask it asked for when the kinds of masks differ in
the first decimal of the luminosity. -/
theorem C216_own_mask_partial (reqs : List (Built α))
    (hd : ∀ a ∈ reqs, ∀ b ∈ reqs, nameOf a.1 = nameOf b.1 → a = b) : openAll reqs (fun _ => none) = reqs :=
  openAll_spec reqs _ [] (by simp) (by simpa using hd)

/-- Luminosities that are different multiples of a tenth have different files. -/
theorem C216_tenths (i j : Nat) (h : nameOf ((i : α) / 10) = nameOf ((j : α) / 10)) : i = j := by
  unfold nameOf at h
  rw [if_pos (by positivity), if_pos (by positivity), div_mul_cancel₀ _ (by norm_num), div_mul_cancel₀ _ (by norm_num)] at h
  simpa using h

/-- C216 is false: after a mask was made, any other mask with the same first decimal gets it, whatever its luminosity and kind. -/
theorem C216_own_mask_false (a b : Built α) (h : nameOf a.1 = nameOf b.1) : openAll [a, b] (fun _ => none) = [a, a] := by
  simp [openAll, openMask, h]

example : nameOf (1 / 5 : ℚ) = nameOf (1 / 4 : ℚ) ∧ (1 / 5 : ℚ) ≠ 1 / 4
    ∧ openAll [((1 / 5 : ℚ), false), (5, false), (1 / 5, false)] (fun _ => none) = [(1 / 5, false), (5, false), (1 / 5, false)]
    ∧ openAll [((1 / 5 : ℚ), false), (1 / 5, true)] (fun _ => none) = [(1 / 5, false), (1 / 5, false)] := by
  refine ⟨by decide +kernel, by decide +kernel, by decide +kernel, by decide +kernel⟩

/-! ## C217: volume limit from the geometry -/

/-- C217: a mask from the geometry has exactly the pixels of the mask, with its coverage and the largest redshift. -/
theorem C217_geometry {β : Type} (zmax : α) (mask : List (β × α)) (p : β) (f z : α) :
    (p, f, z) ∈ geometryMask zmax mask ↔ (p, f) ∈ mask ∧ z = zmax := by
  unfold geometryMask
  simp only [List.mem_map, Prod.mk.injEq, Prod.exists]
  constructor
  · rintro ⟨a, b, hm, rfl, rfl, rfl⟩; exact ⟨hm, rfl⟩
  · rintro ⟨hm, rfl⟩; exact ⟨p, f, hm, rfl, rfl, rfl⟩

theorem C217_order {β : Type} (zmax : α) (mask : List (β × α)) :
    (geometryMask zmax mask).map (fun t => (t.1, t.2.1)) = mask := by
  unfold geometryMask
  rw [List.map_map]
  exact (List.map_congr_left (g := id) fun _ _ => rfl).trans (List.map_id _)

example : geometryMask (9 / 10 : ℚ) [(4, 1 / 2), (7, 1)] = [(4, 1 / 2, 9 / 10), (7, 1, 9 / 10)] := by decide +kernel

/-! ## C218: kinds of masks -/

/-- C218 (guarded): modes zero and three give their mask. -/
theorem C218_mode_partial (mode : Int) (h : mode = 0 ∨ mode = 3) :
    ∃ k, getMask mode = .ok (some k) ∧ (k = .everything ↔ mode = 0) ∧ (k = .healpix ↔ mode = 3) := by
  rcases h with rfl | rfl
  · exact ⟨.everything, by decide⟩
  · exact ⟨.healpix, by decide⟩

/-- C218 is false: any other mode gives no mask and no error. -/
theorem C218_mode_false (mode : Int) (h0 : mode ≠ 0) (h3 : mode ≠ 3) : getMask mode = .ok none := by
  unfold getMask
  rw [if_neg h0, if_neg h3]

/-! ## C219: radii of the mask galaxies -/

/-- Cluster radius of a richness. -/
noncomputable def radiusOf (r0 beta lam : ℝ) : ℝ := r0 * (lam / 100) ^ beta

theorem minRad_le (r0 beta : ℝ) : minRad r0 beta ≤ radiusOf r0 beta 3 := by
  unfold minRad radiusOf
  refine (min_le_left _ _).trans ?_
  have := Int.floor_le (10 * r0 * (3 / 100 : ℝ) ^ beta)
  linarith

theorem le_maxRad (r0 beta : ℝ) : radiusOf r0 beta 300 ≤ maxRad r0 beta := by
  unfold maxRad radiusOf
  have := Int.le_ceil (10 * r0 * (300 / 100 : ℝ) ^ beta)
  linarith

theorem radiusOf_mono (r0 beta a b : ℝ) (hr : 0 ≤ r0) (hb : 0 ≤ beta) (ha : 0 ≤ a) (hab : a ≤ b) : radiusOf r0 beta a ≤ radiusOf r0 beta b := by
  unfold radiusOf
  exact mul_le_mul_of_nonneg_left (Real.rpow_le_rpow (by positivity) (by linarith) hb) hr

/-- C219: every cluster with a richness between 3 and 300 has a radius between the first and the last bin, the bins are a step apart, and
the first is not beyond one half. -/
theorem C219_cover (r0 beta step lam : ℝ) (hr : 0 < r0) (hb : 0 ≤ beta) (hs : 0 < step) (h3 : 3 ≤ lam) (h300 : lam ≤ 300) :
    ∃ n, (radBins r0 beta step).length = n + 1
      ∧ ∃ f l, (radBins r0 beta step)[0]? = some f ∧ (radBins r0 beta step)[n]? = some l
        ∧ f ≤ radiusOf r0 beta lam ∧ radiusOf r0 beta lam ≤ l ∧ f ≤ 1 / 2
        ∧ ∀ k x y, (radBins r0 beta step)[k]? = some x → (radBins r0 beta step)[k + 1]? = some y → y = x + step := by
  have hm1 := minRad_le r0 beta
  have hm2 := le_maxRad r0 beta
  have hr1 := radiusOf_mono r0 beta 3 lam hr.le hb (by norm_num) h3
  have hr2 := radiusOf_mono r0 beta lam 300 hr.le hb (by linarith) h300
  have hnn : 0 ≤ (maxRad r0 beta - minRad r0 beta) / step := div_nonneg (by linarith) hs.le
  have hc : 0 ≤ ⌈(maxRad r0 beta - minRad r0 beta) / step⌉ := Int.ceil_nonneg hnn
  obtain ⟨n, hn⟩ := Int.eq_ofNat_of_zero_le hc
  have hlen : (⌈(maxRad r0 beta - minRad r0 beta) / step⌉ + 1).toNat = n + 1 := by rw [hn]; rfl
  have hle : (maxRad r0 beta - minRad r0 beta) / step ≤ (n : ℝ) := by
    have := Int.le_ceil ((maxRad r0 beta - minRad r0 beta) / step)
    rw [hn] at this
    simpa using this
  rw [div_le_iff₀ hs] at hle
  unfold radBins
  rw [hlen]
  refine ⟨n, by simp, minRad r0 beta, (n : ℝ) * step + minRad r0 beta, by simp, by simp, by linarith, by linarith, min_le_right _ _, ?_⟩
  intro k x y hx hy
  rw [List.getElem?_map, Option.map_eq_some_iff] at hx hy
  obtain ⟨i, hi, rfl⟩ := hx
  obtain ⟨j, hj, rfl⟩ := hy
  obtain ⟨_, rfl⟩ := List.getElem?_eq_some_iff.mp hi
  obtain ⟨_, rfl⟩ := List.getElem?_eq_some_iff.mp hj
  simp only [List.getElem_range]
  push_cast; ring

/-- C219 is false of richer clusters: all bins can lie inside their radius. -/
theorem C219_rich_false : ∃ r0 beta step lam : ℝ, 0 < r0 ∧ 0 ≤ beta ∧ 0 < step ∧ 300 < lam
    ∧ ∀ x ∈ radBins r0 beta step, x < radiusOf r0 beta lam := by
  refine ⟨1, 1, 1, 1000, by norm_num, by norm_num, by norm_num, by norm_num, ?_⟩
  intro x hx
  have h1 : minRad 1 1 = 0 := by
    unfold minRad
    have : ⌊(10 * 1 * (3 / 100 : ℝ) ^ (1 : ℝ))⌋ = 0 := by rw [Real.rpow_one, Int.floor_eq_iff]; norm_num
    rw [this]; norm_num
  have h2 : maxRad 1 1 = 3 := by
    unfold maxRad
    have : ⌈(10 * 1 * (300 / 100 : ℝ) ^ (1 : ℝ))⌉ = 30 := by rw [Real.rpow_one, Int.ceil_eq_iff]; norm_num
    rw [this]; norm_num
  unfold radBins at hx
  rw [h1, h2] at hx
  have h3 : ⌈((3 - 0) / 1 : ℝ)⌉ = 3 := by rw [Int.ceil_eq_iff]; norm_num
  rw [h3] at hx
  simp only [List.mem_map, List.mem_range] at hx
  obtain ⟨k, hk, rfl⟩ := hx
  have hk' : (k : ℝ) ≤ 3 := by
    have : k ≤ 3 := by have : k < 4 := hk; omega
    exact_mod_cast this
  unfold radiusOf
  rw [Real.rpow_one]
  linarith

/-! ## C220: normalization of the mask galaxies -/

omit [FloorRing α]

/-- The number of bright galaxies inside a radius. -/
def insideCount (mlim rad : α) (gals : List (MGal α)) : Nat := gals.countP fun g => decide (g.1 ≤ rad ∧ g.2 < mlim)

/-- C220: for every radius the hard number is that of the bright galaxies of the sample inside. -/
theorem C220_hard (soft : α → α) (rsig mlim : α) (radbins : List α) (gals : List (MGal α)) :
    (ninRow soft rsig mlim radbins gals).map Prod.fst = radbins.map fun r => insideCount mlim r gals := by
  unfold ninRow insideCount
  rw [List.map_map]
  apply List.map_congr_left
  intro r _
  simp [List.countP_eq_length_filter, Bool.decide_and]

theorem sum_bounds {β : Type} (f : β → α) (l : List β) (h0 : ∀ x ∈ l, 0 ≤ f x) (h1 : ∀ x ∈ l, f x ≤ 1) :
    0 ≤ (l.map f).sum ∧ (l.map f).sum ≤ l.length := by
  induction l with
  | nil => simp
  | cons a t ih =>
    obtain ⟨i0, i1⟩ := ih (fun x hx => h0 x (by simp [hx])) (fun x hx => h1 x (by simp [hx]))
    have a0 := h0 a (by simp)
    have a1 := h1 a (by simp)
    simp only [List.map_cons, List.sum_cons, List.length_cons, Nat.cast_add, Nat.cast_one]
    exact ⟨by linarith, by linarith⟩

theorem sum_le {β : Type} (f g : β → α) (l : List β) (h : ∀ x ∈ l, f x ≤ g x) : (l.map f).sum ≤ (l.map g).sum := by
  induction l with
  | nil => simp
  | cons a t ih =>
    have := ih (fun x hx => h x (by simp [hx]))
    have a0 := h a (by simp)
    simp only [List.map_cons, List.sum_cons]
    linarith

/-- C220: the soft number is between zero and the size of the sample, and does not decrease with the radius. -/
theorem C220_soft (soft : α → α) (rsig mlim : α) (gals : List (MGal α)) (h0 : ∀ x, 0 ≤ soft x) (h1 : ∀ x, soft x ≤ 1)
    (hm : Monotone soft) (r r' : α) (hr : r ≤ r') :
    ∃ a b na nb, ninRow soft rsig mlim [r, r'] gals = [(na, a), (nb, b)] ∧ 0 ≤ a ∧ a ≤ b ∧ b ≤ gals.length ∧ na ≤ nb ∧ nb ≤ gals.length := by
  have t0 : ∀ R x, 0 ≤ thetaR soft rsig R x := by
    intro R x; unfold thetaR; split_ifs; exacts [zero_le_one, h0 _]
  have t1 : ∀ R x, thetaR soft rsig R x ≤ 1 := by
    intro R x; unfold thetaR; split_ifs; exacts [le_rfl, h1 _]
  have tm : ∀ x, thetaR soft rsig r x ≤ thetaR soft rsig r' x := by
    intro x; unfold thetaR; split_ifs
    · exact le_rfl
    · exact hm (by linarith)
  refine ⟨_, _, _, _, rfl, ?_, ?_, ?_, ?_, ?_⟩
  · exact (sum_bounds _ _ (fun x _ => t0 _ _) (fun x _ => t1 _ _)).1
  · exact sum_le _ _ _ fun x _ => tm _
  · refine (sum_bounds _ _ (fun x _ => t0 _ _) (fun x _ => t1 _ _)).2.trans ?_
    exact_mod_cast List.length_filter_le _ _
  · rw [← List.countP_eq_length_filter, ← List.countP_eq_length_filter]
    apply List.countP_mono_left
    intro x _ hx
    simp only [Bool.and_eq_true, decide_eq_true_eq] at hx ⊢
    exact ⟨hx.1.trans hr, hx.2⟩
  · exact List.length_filter_le _ _

/-- C220: the soft number is the sum over the bright galaxies of the weight of the radius. -/
theorem C220_soft_value (soft : α → α) (rsig mlim : α) (hs : 0 < rsig) (radbins : List α) (gals : List (MGal α)) :
    (ninRow soft rsig mlim radbins gals).map Prod.snd
      = radbins.map fun rad => (gals.map fun g => if g.2 < mlim then soft (rad - g.1) else 0).sum := by
  unfold ninRow
  rw [List.map_map]
  apply List.map_congr_left
  intro rad _
  simp only [Function.comp, thetaR, if_neg (not_le.mpr hs)]
  induction gals with
  | nil => simp
  | cons g t ih =>
    by_cases hg : g.2 < mlim
    · simp [hg, ← ih]
    · simp [hg, ← ih]

/-- C220 is false without softening: then every bright galaxy counts at every radius, inside or not. -/
theorem C220_sharp_false (soft : α → α) (rsig mlim : α) (hs : rsig ≤ 0) (radbins : List α) (gals : List (MGal α)) :
    (ninRow soft rsig mlim radbins gals).map Prod.snd = radbins.map fun _ => ((gals.countP fun g => decide (g.2 < mlim) : Nat) : α) := by
  unfold ninRow
  rw [List.map_map]
  apply List.map_congr_left
  intro rad _
  simp only [Function.comp, thetaR, if_pos hs]
  rw [List.countP_eq_length_filter]
  simp

/-- C220: every galaxy has the normalization of its own sample. -/
theorem C220_own_sample (soft : α → α) (rsig mlim : α) (radbins : List α) (ngals nsamples : Nat) (gals : List (MGal α)) (j k : Nat)
    (hj : j < nsamples) (hk : k < ngals) :
    (ninAll soft rsig mlim radbins ngals nsamples gals)[j * ngals + k]?
      = some (ninRow soft rsig mlim radbins ((gals.drop (j * ngals)).take ngals)) := by
  unfold ninAll
  generalize hF : (fun j => ninRow soft rsig mlim radbins ((gals.drop (j * ngals)).take ngals)) = F
  have hF' : ∀ i, ninRow soft rsig mlim radbins ((gals.drop (i * ngals)).take ngals) = F i := fun i => by rw [← hF]
  simp only [hF']
  clear hF hF'
  have hlen : ∀ m, ((List.range m).flatMap fun j => List.replicate ngals (F j)).length = m * ngals := by
    intro m
    induction m with
    | zero => simp
    | succ m ih => rw [List.range_succ, List.flatMap_append, List.length_append, ih]; simp [Nat.succ_mul]
  induction nsamples with
  | zero => omega
  | succ m ih =>
    rw [List.range_succ, List.flatMap_append]
    by_cases hjm : j < m
    · rw [List.getElem?_append_left, ih hjm]
      rw [hlen]
      have : (j + 1) * ngals ≤ m * ngals := Nat.mul_le_mul_right _ hjm
      rw [Nat.succ_mul] at this
      omega
    · have : j = m := by omega
      subst this
      rw [List.getElem?_append_right (by rw [hlen]; omega), hlen]
      simp [hk]

/-- A soft edge that meets the conditions. -/
def softRef (x : ℚ) : ℚ := if x < 0 then 0 else 1

example : (∀ x, 0 ≤ softRef x) ∧ (∀ x, softRef x ≤ 1) ∧ Monotone softRef
    ∧ ninRow softRef 1 2 [1 / 2, 2] [(1 / 4, 1), (1, 1), (1, 3)] = [(1, 1), (2, 2)]
    ∧ ninRow softRef 0 2 [1 / 2, 2] [(1 / 4, 1), (1, 1), (1, 3)] = [(1, 2), (2, 2)] := by
  refine ⟨?_, ?_, ?_, by decide +kernel, by decide +kernel⟩
  · intro x; unfold softRef; split_ifs <;> norm_num
  · intro x; unfold softRef; split_ifs <;> norm_num
  · intro x y h; unfold softRef
    split_ifs with h1 h2 h2
    · exact le_rfl
    · norm_num
    · exact absurd (lt_of_le_of_lt h h2) h1
    · exact le_rfl

/-! ## C221: file of mask galaxies, and positions around a cluster -/

/-- C221 (guarded): a missing file or one of another version is refused; a file made with the settings of the run is used. -/
theorem C221_read_partial {S : Type} (current : Nat) (file : Option (MaskgalFile S)) (mine : S) :
    (readMaskgals current file = .error .runtimeError ↔ file = none ∨ ∃ f, file = some f ∧ f.version ≠ current)
    ∧ (∀ f, file = some f → f.version = current → f.settings = mine → readMaskgals current file = .ok mine) := by
  constructor
  · unfold readMaskgals
    rcases file with _ | f
    · simp
    · by_cases h : f.version = current <;> simp [h]
  · rintro f rfl hv hs
    unfold readMaskgals
    simp [hv, hs]

/-- C221 is false: a file of the current version made with any other settings is used without complaint. -/
theorem C221_read_false {S : Type} (current : Nat) (other mine : S) (h : other ≠ mine) :
    ∃ s, readMaskgals current (some ⟨current, other⟩) = .ok s ∧ s ≠ mine :=
  ⟨other, by unfold readMaskgals; simp, h⟩

/-- C221: the mask galaxies are put around the cluster at their own offsets: converted back with the scale they are where they were made. -/
theorem C221_positions (ra dec scale cosd : α) (hs : scale ≠ 0) (hc : cosd ≠ 0) (gals : List (α × α)) :
    (radPositions ra dec scale cosd gals).map (fun p => ((p.1 - ra) * cosd * scale, (p.2 - dec) * scale)) = gals := by
  unfold radPositions
  rw [List.map_map]
  refine (List.map_congr_left (g := id) fun g _ => ?_).trans (List.map_id _)
  simp only [Function.comp, id]
  refine Prod.ext ?_ ?_
  · simp only; field_simp; ring
  · simp only; field_simp; ring

example : radPositions (10 : ℚ) 60 2 (1 / 2) [(1, 1), (-2, 0)] = [(11, 121 / 2), (8, 60)] := by decide +kernel

end Redmapper.Maps
