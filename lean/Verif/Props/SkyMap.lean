/-
Properties of the files of the sky maps: C279-C282.
-/
import Verif.Model.SkyMap
import Verif.Props.Maps
import Verif.Props.Mask
import Mathlib.Data.List.Perm.Basic
import Mathlib.Data.List.Dedup
import Mathlib.Tactic.Ring
import Mathlib.Tactic.NormNum

namespace Redmapper.SkyMap

set_option linter.unusedSectionVars false

variable {V H : Type}

/-! ## C279: conversion of old files -/

/-- The pixel of a row in nested numbers. -/
def nestPix (r2n : Nat → Nat) (nest : Bool) (p : Nat) : Nat := if nest = true then p else r2n p

theorem foldl_update (pix : Nat → Nat) (rows : List (Nat × V)) : ∀ (m : Nat → Option V) (q : Nat),
    (∀ pre r post, rows = pre ++ r :: post → pix r.1 = q → (∀ s ∈ post, pix s.1 ≠ q) →
      rows.foldl (fun m r => Function.update m (pix r.1) (some r.2)) m q = some r.2) ∧
    ((∀ r ∈ rows, pix r.1 ≠ q) → rows.foldl (fun m r => Function.update m (pix r.1) (some r.2)) m q = m q) := by
  induction rows with
  | nil =>
    intro m q
    refine ⟨fun pre r post h => ?_, fun _ => rfl⟩
    simp at h
  | cons a rows ih =>
    intro m q
    rw [List.foldl_cons]
    refine ⟨fun pre r post h hq hno => ?_, fun hno => ?_⟩
    · cases pre with
      | nil =>
        simp only [List.nil_append, List.cons.injEq] at h
        obtain ⟨rfl, rfl⟩ := h
        rw [(ih _ q).2 hno, ← hq, Function.update_self]
      | cons b pre =>
        simp only [List.cons_append, List.cons.injEq] at h
        exact (ih _ q).1 pre r post h.2 hq hno
    · rw [(ih _ q).2 fun r hr => hno r (List.mem_cons_of_mem _ hr), Function.update_of_ne]
      exact fun h => hno a List.mem_cons_self h.symm

/-- **C279 (values).** The new map has at the pixel of each row of the old file the values of this row (of the last row with this pixel), and no values at any other
pixel. -/
theorem C279_values (r2n : Nat → Nat) (nest : Bool) (rows : List (Nat × V)) (q : Nat) :
    (∀ pre r post, rows = pre ++ r :: post → nestPix r2n nest r.1 = q → (∀ s ∈ post, nestPix r2n nest s.1 ≠ q) → convertMap r2n nest rows q = some r.2) ∧
    ((∀ r ∈ rows, nestPix r2n nest r.1 ≠ q) → convertMap r2n nest rows q = none) :=
  foldl_update (nestPix r2n nest) rows (fun _ => none) q

/-- **C279 (each row).** With each pixel once in the old file, every row is found again. -/
theorem C279_rows (r2n : Nat → Nat) (hr : Function.Injective r2n) (nest : Bool) (rows : List (Nat × V)) (hd : (rows.map Prod.fst).Nodup) (r : Nat × V) (h : r ∈ rows) :
    convertMap r2n nest rows (nestPix r2n nest r.1) = some r.2 := by
  obtain ⟨pre, post, rfl⟩ := List.append_of_mem h
  refine (C279_values r2n nest _ _).1 pre r post rfl rfl ?_
  intro s hs heq
  have hinj : s.1 = r.1 := by
    unfold nestPix at heq
    cases nest
    · simp at heq; exact hr heq
    · simpa using heq
  rw [List.map_append, List.map_cons, List.nodup_append] at hd
  have := (List.nodup_cons.mp hd.2.1).1
  apply this
  rw [← hinj]
  exact List.mem_map_of_mem hs

/-- **C279 (file).** The conversion of a depth file raises exactly if a card of the header is missing or the file exists and is not to be overwritten; otherwise the named
file is the map, no other file changes, and the depth map reads from it the values of the old header. -/
theorem C279_file (r2n : Nat → Nat) (nest : Bool) (rows : List (Nat × V)) (old : String → Option H) (clobber : Bool) (disk : String → Option (MapFile V H)) (name : String) :
    ((∃ k ∈ ["NSIG", "ZP", "NBAND", "W", "EFF"], old k = none) → convertDepth r2n nest rows old clobber disk name = .error .keyError) ∧
    (∀ a b c d e, old "NSIG" = some a → old "ZP" = some b → old "NBAND" = some c → old "W" = some d → old "EFF" = some e →
      ((disk name).isSome = true → clobber = false → convertDepth r2n nest rows old clobber disk name = .error .runtimeError) ∧
      ((disk name).isSome = false ∨ clobber = true → ∃ disk', convertDepth r2n nest rows old clobber disk name = .ok disk' ∧
        (∃ f, disk' name = some f ∧ f.val = convertMap r2n nest rows ∧ openHeader f = .ok [a, b, c, d, e]) ∧ ∀ n, n ≠ name → disk' n = disk n)) := by
  have hh : ∀ a b c d e, old "NSIG" = some a → old "ZP" = some b → old "NBAND" = some c → old "W" = some d → old "EFF" = some e →
      ∃ h, convertHeader old = .ok h ∧ h "NSIG" = some a ∧ h "ZP" = some b ∧ h "NBAND" = some c ∧ h "W" = some d ∧ h "EFF" = some e := by
    intro a b c d e ha hb hc hd he
    refine ⟨Function.update (Function.update (Function.update (Function.update (Function.update (fun _ => none) "NSIG" (some a)) "ZP" (some b)) "NBAND" (some c)) "W" (some d))
      "EFF" (some e), ?_, ?_, ?_, ?_, ?_, ?_⟩
    · simp only [convertHeader, cards, List.foldl_cons, List.foldl_nil, ha, hb, hc, hd, he]
    all_goals simp [Function.update]
  constructor
  · rintro ⟨k, hk, hn⟩
    have : convertHeader old = .error .keyError := by
      simp only [convertHeader, cards, List.foldl_cons, List.foldl_nil]
      simp only [List.mem_cons, List.not_mem_nil, or_false] at hk
      rcases hk with rfl | rfl | rfl | rfl | rfl
      · simp only [hn]
      · rw [hn]; cases old "NSIG" <;> rfl
      · rw [hn]; cases old "NSIG" <;> cases old "ZP" <;> rfl
      · rw [hn]; cases old "NSIG" <;> cases old "ZP" <;> cases old "NBAND" <;> rfl
      · rw [hn]; cases old "NSIG" <;> cases old "ZP" <;> cases old "NBAND" <;> cases old "W" <;> rfl
    unfold convertDepth
    rw [this]
  · intro a b c d e ha hb hc hd he
    obtain ⟨h, h1, h2, h3, h4, h5, h6⟩ := hh a b c d e ha hb hc hd he
    unfold convertDepth
    rw [h1]
    unfold writeMap
    refine ⟨fun hs hc' => by simp [hs, hc'], fun hor => ?_⟩
    have : ¬ ((disk name).isSome && !clobber) = true := by
      rcases hor with h | h <;> simp [h]
    simp only
    rw [if_neg this]
    refine ⟨_, rfl, ⟨_, Function.update_self _ _ _, rfl, ?_⟩, fun n hn => Function.update_of_ne hn _ _⟩
    simp only [openHeader, cards, List.mapM_cons, List.mapM_nil, h2, h3, h4, h5, h6]
    rfl

/-- Non-vacuity: three rows in ring numbers, one pixel twice. -/
example : convertMap (fun p => p + 10) false [(1, 'a'), (2, 'b'), (1, 'c')] 11 = some 'c' ∧
    convertMap (fun p => p + 10) false [(1, 'a'), (2, 'b'), (1, 'c')] 1 = none := by decide

/-! ## C280: pixels of a region -/

theorem two_pow_two_mul (k : Nat) : 2 ^ (2 * k) = 4 ^ k := by rw [pow_mul]; norm_num

/-- **C280.** The pixels used for a region are exactly those of the map that lie in one of the pixels of the region, each once. -/
theorem C280 (r2n : Nat → Nat) (k : Nat) (hpix : List Nat) :
    (∀ q, q ∈ finePixels r2n k hpix ↔ ∃ h ∈ hpix, q / 4 ^ k = r2n h) ∧
    (Function.Injective r2n → hpix.Nodup → (finePixels r2n k hpix).Nodup) ∧
    (finePixels r2n k hpix).length = hpix.length * 4 ^ k := by
  have hpos : 0 < 4 ^ k := Nat.pos_of_ne_zero (by positivity)
  unfold finePixels
  simp only [two_pow_two_mul, Nat.shiftLeft_eq]
  refine ⟨fun q => ?_, fun hr hn => ?_, ?_⟩
  · simp only [List.mem_flatMap, List.mem_map, List.mem_range]
    constructor
    · rintro ⟨h, hh, i, hi, rfl⟩
      refine ⟨h, hh, ?_⟩
      rw [Nat.mul_comm, Nat.mul_add_div hpos, Nat.div_eq_of_lt hi, Nat.add_zero]
    · rintro ⟨h, hh, hq⟩
      refine ⟨h, hh, q % 4 ^ k, Nat.mod_lt _ hpos, ?_⟩
      rw [← hq, Nat.mul_comm]
      exact Nat.div_add_mod q _
  · rw [List.nodup_flatMap]
    refine ⟨fun h _ => ?_, ?_⟩
    · apply List.Nodup.map _ List.nodup_range
      intro a b hab
      have hab' : r2n h * 4 ^ k + a = r2n h * 4 ^ k + b := hab
      omega
    · refine List.Pairwise.imp ?_ hn
      intro a b hab
      rw [Function.onFun, List.disjoint_left]
      intro x hx hx'
      simp only [List.mem_map, List.mem_range] at hx hx'
      obtain ⟨i, hi, rfl⟩ := hx
      obtain ⟨j, hj, he⟩ := hx'
      apply hab
      apply hr
      have h1 : (r2n b * 4 ^ k + j) / 4 ^ k = (r2n a * 4 ^ k + i) / 4 ^ k := by rw [he]
      rw [Nat.mul_comm, Nat.mul_add_div hpos, Nat.div_eq_of_lt hj, Nat.mul_comm (r2n a), Nat.mul_add_div hpos, Nat.div_eq_of_lt hi] at h1
      omega
  · rw [List.length_flatMap]
    simp

/-- Non-vacuity: two pixels two orders larger. -/
example : finePixels (fun p => p + 1) 1 [0, 4] = [4, 5, 6, 7, 20, 21, 22, 23] := by decide

/-! ## C281: areas of a region -/

variable {α : Type} [Field α] [LinearOrder α] [IsStrictOrderedRing α]

/-- **C281 (part of the file).** For the areas of a region it makes no difference that only the coverage pixels of the region were read. `o`, `s`, `c` are the orders of the
map, of the region and of the coverage. -/
theorem C281_read (sort : List (α × α) → List (α × α)) (r2n : Nat → Nat) (o s c n : Nat) (hs : s ≤ o) (hc : c ≤ o) (w area border pixsize : α) (hpix : List Nat)
    (hne : hpix ≠ []) (extra cov : List Nat) (hcov : Redmapper.Maps.subpixIndices r2n (some s) c hpix border extra = .ok (some cov)) (full : Nat → Option (α × α)) (mags : List α) :
    calcAreas sort r2n (o - s) n w area border pixsize hpix (readPart full (o - c) cov) mags = calcAreas sort r2n (o - s) n w area border pixsize hpix full mags := by
  have hlen : hpix.length > 0 := List.length_pos_iff.mpr hne
  have hval : ∀ p ∈ finePixels r2n (o - s) hpix, readPart full (o - c) cov p = full p := by
    intro p hp
    obtain ⟨h, hh, hph⟩ := ((C280 r2n (o - s) hpix).1 p).mp hp
    unfold readPart
    rw [if_pos]
    have hov : Redmapper.Maps.Overlap s (r2n h) c (p / 4 ^ (o - c)) := by
      refine ⟨p / 4 ^ (o - max s c), ?_, ?_⟩
      · rw [Nat.div_div_eq_div_mul, ← pow_add, ← hph]
        congr 2
        omega
      · rw [Nat.div_div_eq_div_mul, ← pow_add]
        congr 2
        omega
    obtain ⟨h1, h2⟩ := Redmapper.Maps.C214_coverage r2n s c hpix border extra cov hcov
    rcases le_or_gt border 0 with hb | hb
    · exact (h1 hb _).mpr ⟨h, hh, hov⟩
    · exact (h2 hb _).mpr (Or.inl ⟨h, hh, hov⟩)
  have hg : goodValues (readPart full (o - c) cov) (finePixels r2n (o - s) hpix) = goodValues full (finePixels r2n (o - s) hpix) := by
    unfold goodValues
    congr 1
    exact List.filterMap_congr hval
  unfold calcAreas
  simp only [if_pos hlen, hg]

theorem goodValues_perm (m : Nat → Option (α × α)) (a b : List Nat) (h : a.Perm b) : (goodValues m a).Perm (goodValues m b) := (h.filterMap m).filter _

theorem filterMap_valid (m : Nat → Option V) (l : List Nat) : (l.filter fun p => (m p).isSome).filterMap m = l.filterMap m := by
  induction l with
  | nil => rfl
  | cons a l ih =>
    cases h : m a with
    | none => rw [List.filter_cons_of_neg (by simp [h]), List.filterMap_cons_none h, ih]
    | some v => rw [List.filter_cons_of_pos (by simp [h]), List.filterMap_cons_some h, List.filterMap_cons_some h, ih]

theorem finePixels_perm (r2n : Nat → Nat) (hr : Function.Injective r2n) (k n : Nat) (hpix : List Nat) (hn : hpix.Nodup) (hin : ∀ h ∈ hpix, (r2n h + 1) * 4 ^ k ≤ n) :
    (finePixels r2n k hpix).Perm ((List.range n).filter fun p => decide (p / 4 ^ k ∈ hpix.map r2n)) := by
  have hpos : 0 < 4 ^ k := Nat.pos_of_ne_zero (by positivity)
  rw [List.perm_ext_iff_of_nodup ((C280 r2n k hpix).2.1 hr hn) (List.nodup_range.filter _)]
  intro p
  rw [(C280 r2n k hpix).1, List.mem_filter, List.mem_range, decide_eq_true_eq, List.mem_map]
  constructor
  · rintro ⟨h, hh, hp⟩
    refine ⟨?_, h, hh, hp.symm⟩
    refine lt_of_lt_of_le ?_ (hin h hh)
    rw [← hp]
    have := Nat.lt_div_mul_add (a := p) hpos
    rw [Nat.add_mul, Nat.one_mul]
    exact this
  · rintro ⟨_, h, hh, hp⟩
    exact ⟨h, hh, hp.symm⟩

/-- The map where it is in the region. -/
def restrict (r2n : Nat → Nat) (k : Nat) (hpix : List Nat) (m : Nat → Option (α × α)) : Nat → Option (α × α) :=
  fun p => if p / 4 ^ k ∈ hpix.map r2n then m p else none

/-- **C281 (region).** The depths and fractions that enter the areas of a region are those of the pixels of the map that lie in the region and have a positive depth: the
same as for the whole of the map restricted to the region. -/
theorem C281_region (r2n : Nat → Nat) (hr : Function.Injective r2n) (k n : Nat) (hpix : List Nat) (hn : hpix.Nodup) (hin : ∀ h ∈ hpix, (r2n h + 1) * 4 ^ k ≤ n)
    (m : Nat → Option (α × α)) :
    (goodValues m (finePixels r2n k hpix)).Perm ((((List.range n).filter fun p => decide (p / 4 ^ k ∈ hpix.map r2n)).filterMap m).filter fun v => decide (0 < v.1)) ∧
    (goodValues m (finePixels r2n k hpix)).Perm (goodValues (restrict r2n k hpix m) (validPixels (restrict r2n k hpix m) n)) := by
  have h1 := goodValues_perm m _ _ (finePixels_perm r2n hr k n hpix hn hin)
  refine ⟨h1, h1.trans (List.Perm.of_eq ?_)⟩
  unfold goodValues validPixels
  rw [filterMap_valid]
  congr 1
  generalize List.range n = l
  induction l with
  | nil => rfl
  | cons a l ih =>
    by_cases ha : a / 4 ^ k ∈ hpix.map r2n
    · rw [List.filter_cons_of_pos (by simpa using ha)]
      have e : restrict r2n k hpix m a = m a := by unfold restrict; rw [if_pos ha]
      rw [List.filterMap_cons, List.filterMap_cons, ih, e]
    · rw [List.filter_cons_of_neg (by simpa using ha)]
      have e : restrict r2n k hpix m a = none := by unfold restrict; rw [if_neg ha]
      rw [List.filterMap_cons_none e, ih]

/-- What `sort` is: a rearrangement in ascending order of depth. -/
def IsSort (sort : List (α × α) → List (α × α)) : Prop := ∀ l, (sort l).Perm l ∧ (sort l).Pairwise fun a b => a.1 ≤ b.1

theorem sort_unique (sort : List (α × α) → List (α × α)) (hs : IsSort sort) (a b : List (α × α)) (h : a.Perm b) (hd : (a.map Prod.fst).Nodup) : sort a = sort b := by
  have hp : (sort a).Perm (sort b) := ((hs a).1.trans h).trans (hs b).1.symm
  have hda : ((sort a).map Prod.fst).Nodup := ((hs a).1.map Prod.fst).nodup_iff.mpr hd
  have key : ∀ x ∈ sort a, ∀ y ∈ sort a, x.1 = y.1 → x = y := fun x hx y hy hxy => List.inj_on_of_nodup_map hda hx hy hxy
  refine List.Perm.eq_of_pairwise (le := fun a b => a.1 ≤ b.1) ?_ (hs a).2 (hs b).2 hp
  intro x y hx hy h1 h2
  exact key x hx y (hp.mem_iff.mpr hy) (le_antisymm h1 h2)

/-- **C281 (restricted).** The areas of a region are those of the map restricted to it, when no two pixels in it have the same depth. -/
theorem C281_restrict (sort : List (α × α) → List (α × α)) (hs : IsSort sort) (r2n : Nat → Nat) (hr : Function.Injective r2n) (k n : Nat) (w area border pixsize : α)
    (hb : border ≤ 0) (hpix : List Nat) (hne : hpix ≠ []) (hn : hpix.Nodup) (hin : ∀ h ∈ hpix, (r2n h + 1) * 4 ^ k ≤ n) (m : Nat → Option (α × α))
    (hd : ((goodValues m (finePixels r2n k hpix)).map Prod.fst).Nodup) (mags : List α) :
    calcAreas sort r2n k n w area border pixsize hpix m mags = calcAreas sort r2n k n w area border pixsize [] (restrict r2n k hpix m) mags := by
  have hlen : hpix.length > 0 := List.length_pos_iff.mpr hne
  have hsort := sort_unique sort hs _ _ (C281_region r2n hr k n hpix hn hin m).2 hd
  unfold calcAreas
  simp only [if_pos hlen, hsort, List.length_nil, gt_iff_lt, lt_irrefl, if_false, not_lt.mpr hb, and_false]

/-- **C281 (whole sky).** A region that consists of all pixels has the areas of the whole map, when no two pixels have the same depth. -/
theorem C281_whole (sort : List (α × α) → List (α × α)) (hs : IsSort sort) (r2n : Nat → Nat) (hr : Function.Injective r2n) (k N : Nat) (w area border pixsize : α)
    (hb : border ≤ 0) (hpix : List Nat) (hne : hpix ≠ []) (hall : (hpix.map r2n).Perm (List.range N)) (m : Nat → Option (α × α)) (hm : ∀ p, N * 4 ^ k ≤ p → m p = none)
    (hd : ((goodValues m (finePixels r2n k hpix)).map Prod.fst).Nodup) (mags : List α) :
    calcAreas sort r2n k (N * 4 ^ k) w area border pixsize hpix m mags = calcAreas sort r2n k (N * 4 ^ k) w area border pixsize [] m mags := by
  have hpos : 0 < 4 ^ k := Nat.pos_of_ne_zero (by positivity)
  have hn : hpix.Nodup := List.Nodup.of_map r2n (hall.nodup_iff.mpr List.nodup_range)
  rw [C281_restrict sort hs r2n hr k (N * 4 ^ k) w area border pixsize hb hpix hne hn ?_ m hd mags]
  · have : restrict r2n k hpix m = m := by
      funext p
      unfold restrict
      by_cases hp : p < N * 4 ^ k
      · rw [if_pos]
        rw [hall.mem_iff, List.mem_range, Nat.div_lt_iff_lt_mul hpos]
        exact hp
      · rw [hm p (not_lt.mp hp), ite_self]
    rw [this]
  · intro h hh
    apply Nat.mul_le_mul_right
    exact List.mem_range.mp (hall.mem_iff.mp (List.mem_map_of_mem hh))

/-- **C281 (guards).** A map without depths gives the configured area at every magnitude; otherwise a region with a border raises. -/
theorem C281_guards (sort : List (α × α) → List (α × α)) (r2n : Nat → Nat) (k n : Nat) (w area border pixsize : α) (hpix : List Nat) (m : Nat → Option (α × α)) (mags : List α) :
    (w < 0 → calcAreas sort r2n k n w area border pixsize hpix m mags = .ok (List.replicate mags.length area)) ∧
    (0 ≤ w → hpix ≠ [] → 0 < border → calcAreas sort r2n k n w area border pixsize hpix m mags = .error .runtimeError) := by
  constructor
  · intro h
    unfold calcAreas
    rw [if_pos h, List.map_const']
  · intro h hne hb
    unfold calcAreas
    rw [if_neg (not_lt.mpr h), if_pos ⟨List.length_pos_iff.mpr hne, hb⟩]

/-- The wish: the areas of disjoint regions add up. -/
def C281_spec : Prop :=
  ∀ (sort : List (ℚ × ℚ) → List (ℚ × ℚ)) (r2n : Nat → Nat) (k n : Nat) (pixsize : ℚ) (h1 h2 : List Nat) (m : Nat → Option (ℚ × ℚ)) (mag a1 a2 a : ℚ), IsSort sort →
    Function.Injective r2n → (h1 ++ h2).Nodup → 0 < pixsize → calcAreas sort r2n k n 0 0 0 pixsize h1 m [mag] = .ok [a1] → calcAreas sort r2n k n 0 0 0 pixsize h2 m [mag] = .ok [a2] →
    calcAreas sort r2n k n 0 0 0 pixsize (h1 ++ h2) m [mag] = .ok [a] → a = a1 + a2

theorem exists_sort : ∃ sort : List (ℚ × ℚ) → List (ℚ × ℚ), IsSort sort ∧ ∀ l, (l.Pairwise fun a b => a.1 ≤ b.1) → sort l = l := by
  refine ⟨fun l => l.mergeSort fun a b => decide (a.1 ≤ b.1), fun l => ⟨List.mergeSort_perm _ _, ?_⟩, fun l hl => ?_⟩
  · have := List.pairwise_mergeSort (le := fun a b : ℚ × ℚ => decide (a.1 ≤ b.1)) (fun a b c h1 h2 => by
      simp only [decide_eq_true_eq] at *; exact le_trans h1 h2) (fun a b => by simp only [Bool.or_eq_true, decide_eq_true_eq]; exact le_total _ _) l
    exact this.imp fun h => by simpa using h
  · apply List.mergeSort_of_pairwise
    exact hl.imp fun h => by simpa using h

/-- **C281** is false of sums of regions: each counts up to two pixels too many (C48). -/
theorem C281_false : ¬ C281_spec := by
  intro h
  obtain ⟨sort, hs, hid⟩ := exists_sort
  have e1 : ∀ l : List (ℚ × ℚ), (l.Pairwise fun a b => a.1 ≤ b.1) → sort l = l := hid
  have g1 : goodValues (fun _ : Nat => some ((20 : ℚ), (1 : ℚ))) (finePixels (fun p => p) 1 [0]) = List.replicate 4 (20, 1) := by decide +kernel
  have g2 : goodValues (fun _ : Nat => some ((20 : ℚ), (1 : ℚ))) (finePixels (fun p => p) 1 [1]) = List.replicate 4 (20, 1) := by decide +kernel
  have g3 : goodValues (fun _ : Nat => some ((20 : ℚ), (1 : ℚ))) (finePixels (fun p => p) 1 ([0] ++ [1])) = List.replicate 8 (20, 1) := by decide +kernel
  have s1 : sort (List.replicate 4 (20, 1)) = List.replicate 4 (20, 1) := e1 _ (by decide +kernel)
  have s2 : sort (List.replicate 8 (20, 1)) = List.replicate 8 (20, 1) := e1 _ (by decide +kernel)
  have c1 : Redmapper.Mask.calcAreas (1 : ℚ) (List.replicate 4 (20, 1)) 21 = .ok 2 := by decide +kernel
  have c2 : Redmapper.Mask.calcAreas (1 : ℚ) (List.replicate 8 (20, 1)) 21 = .ok 2 := by decide +kernel
  have := h sort (fun p => p) 1 8 1 [0] [1] (fun _ => some (20, 1)) 21 2 2 2 hs (fun _ _ h => h) (by decide) (by norm_num)
    (by
      unfold calcAreas
      simp only [lt_irrefl, if_false, List.length_singleton, gt_iff_lt, zero_lt_one, and_false, if_true, g1, s1]
      rw [List.mapM_cons, c1]
      rfl)
    (by
      unfold calcAreas
      simp only [lt_irrefl, if_false, List.length_singleton, gt_iff_lt, zero_lt_one, and_false, if_true, g2, s1]
      rw [List.mapM_cons, c1]
      rfl)
    (by
      unfold calcAreas
      have hl : 0 < ([0] ++ [1] : List Nat).length := by decide
      simp only [lt_irrefl, if_false, gt_iff_lt, hl, and_false, if_true, g3, s2]
      rw [List.mapM_cons, c2]
      rfl)
  norm_num at this

/-! ## C282: prediction of memory -/

theorem foldl_max_spec (f : Nat → α) (l : List Nat) : ∀ init : α, init ≤ l.foldl (fun mx p => max mx (f p)) init ∧
    (∀ p ∈ l, f p ≤ l.foldl (fun mx p => max mx (f p)) init) ∧
    (l.foldl (fun mx p => max mx (f p)) init = init ∨ ∃ p ∈ l, l.foldl (fun mx p => max mx (f p)) init = f p) := by
  induction l with
  | nil => intro init; exact ⟨le_rfl, fun p hp => absurd hp (by simp), Or.inl rfl⟩
  | cons a l ih =>
    intro init
    rw [List.foldl_cons]
    obtain ⟨h1, h2, h3⟩ := ih (max init (f a))
    refine ⟨le_trans (le_max_left _ _) h1, fun p hp => ?_, ?_⟩
    · rcases List.mem_cons.mp hp with rfl | hp
      · exact le_trans (le_max_right _ _) h1
      · exact h2 p hp
    · rcases h3 with h3 | ⟨p, hp, h3⟩
      · rcases max_choice init (f a) with hm | hm
        · left; rw [h3, hm]
        · right; exact ⟨a, List.mem_cons_self, by rw [h3, hm]⟩
      · right; exact ⟨p, List.mem_cons_of_mem _ hp, h3⟩

/-- Memory of the tiles in a pixel. -/
def pixelMemory (locate : Nat → Nat) (factor : α) (tiles : List (Nat × α)) (p : Nat) : α := ((tiles.filter fun t => locate t.1 = p).map Prod.snd).sum * factor

theorem nsidesFrom_pow (j : Nat) : ∀ f i : Nat, j ≤ i + f → i ≤ j → nsidesFrom (2 ^ j) f (2 ^ i) = (List.range (j - i + 1)).map fun d => 2 ^ (i + d) := by
  intro f
  induction f with
  | zero =>
    intro i h1 h2
    have : i = j := by omega
    subst this
    simp [nsidesFrom]
  | succ f ih =>
    intro i h1 h2
    unfold nsidesFrom
    by_cases hij : i = j
    · subst hij
      rw [if_neg (lt_irrefl _), Nat.sub_self]
      rfl
    · rw [if_pos (Nat.pow_lt_pow_right (by omega) (by omega)), ← pow_succ, ih (i + 1) (by omega) (by omega)]
      have : j - i + 1 = (j - (i + 1) + 1) + 1 := by omega
      rw [this, List.range_succ_eq_map (n := j - (i + 1) + 1), List.map_cons, List.map_map, Nat.add_zero]
      congr 1
      apply List.map_congr_left
      intro d _
      simp only [Function.comp, Nat.succ_eq_add_one]
      congr 1
      omega

/-- **C282 (guarded).** If tiles could be located, there would be a row for each nside 2, 4, ... up to that of the galaxies, with the number of pixels that have tiles, and
the largest memory of the tiles in one pixel times the factor. -/
theorem C282_partial (loc : Nat → Nat → Nat) (factor : α) (hf : 0 ≤ factor) (j : Nat) (hj : 1 ≤ j) (tiles : List (Nat × α)) (hne : tiles ≠ []) (hpos : ∀ t ∈ tiles, 0 ≤ t.2) :
    ∃ rows, predictWith (fun ns => .ok (loc ns)) factor (2 ^ j) tiles = .ok rows ∧ rows.map Prod.fst = (List.range j).map (fun d => 2 ^ (d + 1)) ∧
      ∀ r ∈ rows, r.2.1 = (tiles.map fun t => loc r.1 t.1).toFinset.card ∧ (∀ t ∈ tiles, pixelMemory (loc r.1) factor tiles (loc r.1 t.1) ≤ r.2.2) ∧
        ∃ t ∈ tiles, r.2.2 = pixelMemory (loc r.1) factor tiles (loc r.1 t.1) := by
  have hns : nsides (2 ^ j) = (List.range j).map fun d => 2 ^ (d + 1) := by
    unfold nsides
    have := nsidesFrom_pow j (2 ^ j) 1 (by have := Nat.lt_two_pow_self (n := j); omega) hj
    rw [pow_one] at this
    rw [this]
    have e : j - 1 + 1 = j := by omega
    rw [e]
    apply List.map_congr_left
    intro d _
    congr 1
    omega
  have hmap : ∀ l : List Nat, (l.mapM fun ns => (Except.ok (ns, tally (loc ns) factor tiles) : Except Err (Nat × Nat × α))) = .ok (l.map fun ns => (ns, tally (loc ns) factor tiles)) := by
    intro l
    induction l with
    | nil => rfl
    | cons a l ih => rw [List.mapM_cons, ih]; rfl
  refine ⟨(nsides (2 ^ j)).map fun ns => (ns, tally (loc ns) factor tiles), hmap _, ?_, ?_⟩
  · rw [List.map_map, ← hns]
    exact List.map_id _
  · intro r hr
    obtain ⟨ns, -, rfl⟩ := List.mem_map.mp hr
    simp only [tally]
    obtain ⟨h1, h2, h3⟩ := foldl_max_spec (pixelMemory (loc ns) factor tiles) ((tiles.map fun t => loc ns t.1).dedup) 0
    refine ⟨(List.card_toFinset _).symm, fun t ht => h2 _ (List.mem_dedup.mpr (List.mem_map.mpr ⟨t, ht, rfl⟩)), ?_⟩
    have hnn : ∀ p, 0 ≤ pixelMemory (loc ns) factor tiles p := by
      intro p
      refine mul_nonneg (List.sum_nonneg ?_) hf
      intro x hx
      obtain ⟨t, ht, rfl⟩ := List.mem_map.mp hx
      exact hpos t (List.mem_filter.mp ht).1
    rcases h3 with h3 | ⟨p, hp, h3⟩
    · obtain ⟨t, ht⟩ := List.exists_mem_of_ne_nil tiles hne
      refine ⟨t, ht, le_antisymm ?_ (h2 _ (List.mem_dedup.mpr (List.mem_map.mpr ⟨t, ht, rfl⟩)))⟩
      exact le_trans (le_of_eq h3) (hnn _)
    · obtain ⟨t, ht, rfl⟩ := List.mem_map.mp (List.mem_dedup.mp hp)
      exact ⟨t, ht, h3⟩

/-- **C282** is false: the prediction raises for every table. -/
theorem C282_false (factor : α) (nside : Nat) (nbytes : α) (tab : List (Nat × Nat)) : predict factor nside nbytes tab = .error .typeError := by
  unfold predict predictWith nsides
  have : ∃ a l, nsidesFrom nside nside 2 = a :: l := by
    cases nside with
    | zero => exact ⟨_, _, rfl⟩
    | succ n =>
      unfold nsidesFrom
      by_cases h : 2 < n + 1
      · rw [if_pos h]; exact ⟨_, _, rfl⟩
      · rw [if_neg h]; exact ⟨_, _, rfl⟩
  obtain ⟨a, l, h⟩ := this
  rw [h, List.mapM_cons]
  rfl

/-- Non-vacuity: four tiles of nside 4 in a map with nside 2 and one with nside 4. -/
example : (predictWith (fun ns => .ok fun p => p / (4 / ns) ^ 2) (2 : ℚ) 4 [(0, 1), (1, 2), (4, 5), (5, 1)]).toOption = some [(2, 2, 12), (4, 4, 10)] := by decide +kernel

end Redmapper.SkyMap
