/-
Properties of the bins of the map of photometric redshifts, of the plot of positions and of the warning of the redMaGiC calibration.
-/
import Verif.Model.PhotMap
import Verif.Props.Centering
import Verif.Props.RmCal
import Mathlib.Tactic

set_option linter.unusedSectionVars false

namespace Redmapper.PhotMap

open Redmapper.Centering (argmin argmin_spec argmin_none)
open Redmapper.RmCal (costHist binCenters C223_bins C223_centers)

variable {α : Type} [Field α] [LinearOrder α] [IsStrictOrderedRing α] [FloorRing α]

/-! ## C358: coarse bins -/

/-- The largest photometric redshift of the objects. -/
def IsLargest (l : List (Obj α)) (m : α) : Prop := (∃ o ∈ l, o.zphoto = m) ∧ ∀ o ∈ l, o.zphoto ≤ m

/-- The smallest. -/
def IsSmallest (l : List (Obj α)) (m : α) : Prop := (∃ o ∈ l, o.zphoto = m) ∧ ∀ o ∈ l, m ≤ o.zphoto

theorem foldl_min_spec (x : α) (xs : List α) : xs.foldl min x ∈ x :: xs ∧ ∀ y ∈ x :: xs, xs.foldl min x ≤ y := by
  induction xs generalizing x with
  | nil => simp
  | cons a xs ih =>
    rw [List.foldl_cons]
    obtain ⟨h1, h2⟩ := ih (min x a)
    constructor
    · rcases List.mem_cons.mp h1 with h | h
      · rcases min_choice x a with e | e <;> rw [h, e] <;> simp
      · simp [h]
    · intro y hy
      have hm := h2 (min x a) (by simp)
      simp only [List.mem_cons] at hy
      rcases hy with rfl | rfl | hy
      · exact le_trans hm (min_le_left _ _)
      · exact le_trans hm (min_le_right _ _)
      · exact h2 y (by simp [hy])

theorem foldl_max_spec (x : α) (xs : List α) : xs.foldl max x ∈ x :: xs ∧ ∀ y ∈ x :: xs, y ≤ xs.foldl max x := by
  induction xs generalizing x with
  | nil => simp
  | cons a xs ih =>
    rw [List.foldl_cons]
    obtain ⟨h1, h2⟩ := ih (max x a)
    constructor
    · rcases List.mem_cons.mp h1 with h | h
      · rcases max_choice x a with e | e <;> rw [h, e] <;> simp
      · simp [h]
    · intro y hy
      have hm := h2 (max x a) (by simp)
      simp only [List.mem_cons] at hy
      rcases hy with rfl | rfl | hy
      · exact le_trans (le_max_left _ _) hm
      · exact le_trans (le_max_right _ _) hm
      · exact h2 y (by simp [hy])

theorem bin_exists (lo w x : α) (n : Nat) (hw : 0 < w) (h0 : lo ≤ x) (h1 : x < lo + (n : α) * w) :
    ∃ i, i < n ∧ (i : α) * w + lo ≤ x ∧ x < (i : α) * w + lo + w := by
  have hx : 0 ≤ (x - lo) / w := div_nonneg (by linarith) hw.le
  have hf := Int.floor_nonneg.mpr hx
  refine ⟨⌊(x - lo) / w⌋.toNat, ?_, ?_, ?_⟩
  · have : (⌊(x - lo) / w⌋ : α) < (n : α) := lt_of_le_of_lt (Int.floor_le _) (by rw [div_lt_iff₀ hw]; linarith)
    have h2 : ⌊(x - lo) / w⌋ < (n : Int) := by exact_mod_cast this
    omega
  · have h3 : ((⌊(x - lo) / w⌋.toNat : Nat) : α) = ((⌊(x - lo) / w⌋ : Int) : α) := by
      rw [← Int.cast_natCast, Int.toNat_of_nonneg hf]
    rw [h3]
    have := Int.floor_le ((x - lo) / w)
    rw [le_div_iff₀ hw] at this
    linarith
  · have h3 : ((⌊(x - lo) / w⌋.toNat : Nat) : α) = ((⌊(x - lo) / w⌋ : Int) : α) := by
      rw [← Int.cast_natCast, Int.toNat_of_nonneg hf]
    rw [h3]
    have := Int.lt_floor_add_one ((x - lo) / w)
    rw [div_lt_iff₀ hw] at this
    linarith

theorem bin_unique (lo w x : α) (i j : Nat) (hw : 0 < w) (hi : (i : α) * w + lo ≤ x ∧ x < (i : α) * w + lo + w)
    (hj : (j : α) * w + lo ≤ x ∧ x < (j : α) * w + lo + w) : i = j := by
  by_contra hne
  rcases Nat.lt_or_gt_of_ne hne with h | h
  · have : (i : α) + 1 ≤ (j : α) := by exact_mod_cast h
    nlinarith [hi.1, hi.2, hj.1, hj.2]
  · have : (j : α) + 1 ≤ (i : α) := by exact_mod_cast h
    nlinarith [hi.1, hi.2, hj.1, hj.2]

theorem coarse_fields (dzmax : α) (nb : Nat) (l : List (Obj α)) (c : Coarse α) (h : coarse dzmax nb l = .ok c) :
    IsSmallest l c.zmin ∧ c.dzmax = dzmax ∧ c.dzw = 2 * dzmax / (nb : α) ∧ ∃ m, IsLargest l m ∧ c.zw = (m - c.zmin) / (nb : α) := by
  unfold coarse at h
  cases l with
  | nil => simp at h
  | cons a l =>
    simp only [List.map_cons] at h
    cases h
    obtain ⟨h1, h2⟩ := foldl_min_spec a.zphoto (l.map Obj.zphoto)
    obtain ⟨h3, h4⟩ := foldl_max_spec a.zphoto (l.map Obj.zphoto)
    rw [← List.map_cons (f := Obj.zphoto)] at h1 h2 h3 h4
    refine ⟨⟨?_, fun o ho => h2 _ (List.mem_map_of_mem ho)⟩, rfl, rfl, _, ⟨?_, fun o ho => h4 _ (List.mem_map_of_mem ho)⟩, rfl⟩
    · obtain ⟨o, ho, e⟩ := List.mem_map.mp h1
      exact ⟨o, ho, e⟩
    · obtain ⟨o, ho, e⟩ := List.mem_map.mp h3
      exact ⟨o, ho, e⟩

/-- The bins can be made exactly if there is an object. -/
theorem C358_some (dzmax : α) (nb : Nat) (l : List (Obj α)) : (∃ c, coarse dzmax nb l = .ok c) ↔ l ≠ [] := by
  unfold coarse
  cases l <;> simp

/-- Object `o` is counted in cell `(i, j)`. -/
def InCell (c : Coarse α) (l : List (Obj α)) (o : Obj α) (i j : Nat) : Prop :=
  o ∈ c.use i l ∧ c.dzbin j ≤ o.zspec - o.zphoto ∧ o.zspec - o.zphoto < c.dzbin j + c.dzw

/-- C358 as one would state it: every object whose redshifts differ by less than the limit is in exactly one cell. -/
def Counted (dzmax : α) (nb : Nat) (l : List (Obj α)) : Prop :=
  ∃ c, coarse dzmax nb l = .ok c ∧
    ∀ o ∈ l, |o.zspec - o.zphoto| < dzmax → ∃ i j, i < nb ∧ j < nb ∧ InCell c l o i j ∧
      ∀ i' j', i' < nb → j' < nb → InCell c l o i' j' → i' = i ∧ j' = j

/-- C358, the part that holds: of every object but those at the largest photometric redshift; the differences of a counted object are within the
limit, a cell is the number of the objects counted in it, and a row without a fit holds the fractions of its objects. -/
theorem C358_partial (dzmax : α) (hd : 0 < dzmax) (nb : Nat) (hn : 0 < nb) (l : List (Obj α)) (c : Coarse α) (h : coarse dzmax nb l = .ok c)
    (m : α) (hm : IsLargest l m) :
    (∀ o ∈ l, o.zphoto < m → -dzmax ≤ o.zspec - o.zphoto → o.zspec - o.zphoto < dzmax →
      ∃ i j, i < nb ∧ j < nb ∧ InCell c l o i j ∧ ∀ i' j', i' < nb → j' < nb → InCell c l o i' j' → i' = i ∧ j' = j)
    ∧ (∀ o i j, i < nb → j < nb → InCell c l o i j → o ∈ l ∧ o.zphoto < m ∧ -dzmax ≤ o.zspec - o.zphoto ∧ o.zspec - o.zphoto < dzmax)
    ∧ (∀ i j fit, i < nb → j < nb → ∃ v, (c.row fit nb i l)[j]? = some v ∧
        v = ((c.use i l).countP fun o => decide (c.dzbin j ≤ o.zspec - o.zphoto ∧ o.zspec - o.zphoto < c.dzbin j + c.dzw) : Nat)
          / ((fit ((List.range nb).map fun j => c.cell j (c.use i l))).getD ((c.use i l).length : α))) := by
  obtain ⟨hs, e1, e2, m', hm', e3⟩ := coarse_fields dzmax nb l c h
  have hmm : m' = m := by
    obtain ⟨o, ho, e⟩ := hm.1
    obtain ⟨o', ho', e'⟩ := hm'.1
    exact le_antisymm (e' ▸ hm.2 o' ho') (e ▸ hm'.2 o ho)
  subst hmm
  have hnb : (0 : α) < (nb : α) := by exact_mod_cast hn
  have hdw : 0 < c.dzw := by rw [e2]; positivity
  have hdn : (nb : α) * c.dzw = 2 * dzmax := by rw [e2]; field_simp
  have hzn : (nb : α) * c.zw = m' - c.zmin := by rw [e3]; field_simp
  have mem : ∀ (o : Obj α) (i : Nat), o ∈ c.use i l ↔ o ∈ l ∧ (i : α) * c.zw + c.zmin ≤ o.zphoto ∧ o.zphoto < (i : α) * c.zw + c.zmin + c.zw := by
    intro o i
    simp only [Coarse.use, List.mem_filter, Bool.and_eq_true, decide_eq_true_eq]
    rfl
  have cell : ∀ (o : Obj α) (j : Nat), (c.dzbin j ≤ o.zspec - o.zphoto ∧ o.zspec - o.zphoto < c.dzbin j + c.dzw) ↔
      ((j : α) * c.dzw + (-dzmax) ≤ o.zspec - o.zphoto ∧ o.zspec - o.zphoto < (j : α) * c.dzw + (-dzmax) + c.dzw) := by
    intro o j
    simp only [Coarse.dzbin, e1, sub_eq_add_neg]
  have hw : ∀ o ∈ l, o.zphoto < m' → 0 < c.zw := by
    intro o ho hlt
    rw [e3]
    exact div_pos (by linarith [hs.2 o ho]) hnb
  refine ⟨?_, ?_, ?_⟩
  · intro o ho hlt hd1 hd2
    have hw' := hw o ho hlt
    obtain ⟨i, hi, hi1, hi2⟩ := bin_exists c.zmin c.zw o.zphoto nb hw' (hs.2 o ho) (by rw [hzn]; linarith)
    obtain ⟨j, hj, hj1, hj2⟩ := bin_exists (-dzmax) c.dzw (o.zspec - o.zphoto) nb hdw hd1 (by rw [hdn]; linarith)
    refine ⟨i, j, hi, hj, ⟨(mem o i).mpr ⟨ho, hi1, hi2⟩, (cell o j).mpr ⟨hj1, hj2⟩⟩, ?_⟩
    rintro i' j' _ _ ⟨h1, h2⟩
    exact ⟨bin_unique c.zmin c.zw o.zphoto i' i hw' ((mem o i').mp h1).2 ⟨hi1, hi2⟩,
      bin_unique (-dzmax) c.dzw _ j' j hdw ((cell o j').mp h2) ⟨hj1, hj2⟩⟩
  · rintro o i j hi hj ⟨h1, h2⟩
    obtain ⟨ho, g1, g2⟩ := (mem o i).mp h1
    obtain ⟨k1, k2⟩ := (cell o j).mp h2
    have hzw : 0 < c.zw := by linarith
    have hi' : (i : α) + 1 ≤ (nb : α) := by exact_mod_cast hi
    have hj' : (j : α) + 1 ≤ (nb : α) := by exact_mod_cast hj
    refine ⟨ho, by nlinarith, ?_, by nlinarith⟩
    have : 0 ≤ (j : α) * c.dzw := by positivity
    linarith
  · intro i j fit hi hj
    unfold Coarse.row
    simp only
    split
    · rename_i h0
      have hnil : c.use i l = [] := List.length_eq_zero_iff.mp h0
      refine ⟨0, by simp [hj], ?_⟩
      simp [hnil]
    · refine ⟨_, by rw [List.getElem?_map, List.getElem?_map, List.getElem?_range hj]; rfl, ?_⟩
      congr 2
      unfold Coarse.cell
      apply List.countP_congr
      intro o _
      simp

/-- C358: the objects of a row are those with a photometric redshift in its bin; without a fit a row holds fractions of its objects, which add up
to no more than one. -/
theorem C358_fractions (dzmax : α) (hd : 0 < dzmax) (nb : Nat) (hn : 0 < nb) (l : List (Obj α)) (c : Coarse α) (h : coarse dzmax nb l = .ok c)
    (i : Nat) : (c.row (fun _ => none) nb i l).sum ≤ 1 ∧ ∀ v ∈ c.row (fun _ => none) nb i l, 0 ≤ v := by
  obtain ⟨hs, e1, e2, m', hm', e3⟩ := coarse_fields dzmax nb l c h
  have hnb : (0 : α) < (nb : α) := by exact_mod_cast hn
  have hdw : 0 < c.dzw := by rw [e2]; positivity
  have key : ∀ (u : List (Obj α)) (n : Nat), ((List.range n).map fun j => c.cell j u).sum ≤ u.length := by
    intro u n
    induction u with
    | nil => simp [Coarse.cell]
    | cons o u ih =>
      have hsplit : ((List.range n).map fun j => c.cell j (o :: u)).sum
          = ((List.range n).map fun j => c.cell j u).sum + ((List.range n).map fun j => c.cell j [o]).sum := by
        rw [← List.sum_map_add]
        congr 1
        apply List.map_congr_left
        intro j _
        simp [Coarse.cell, List.countP_cons]
      have hone : ((List.range n).map fun j => c.cell j [o]).sum ≤ 1 := by
        clear hsplit ih
        have aux : ∀ n, (∀ j, j < n → c.cell j [o] = 0) → ((List.range n).map fun j => c.cell j [o]).sum = 0 := by
          intro n hz
          apply List.sum_eq_zero
          intro x hx
          obtain ⟨j, hj, rfl⟩ := List.mem_map.mp hx
          exact hz j (List.mem_range.mp hj)
        induction n with
        | zero => simp
        | succ n ih =>
          rw [List.range_succ, List.map_append, List.sum_append]
          simp only [List.map_cons, List.map_nil, List.sum_cons, List.sum_nil, add_zero]
          by_cases hc : c.cell n [o] = 0
          · omega
          · have hin : c.dzbin n ≤ o.zspec - o.zphoto ∧ o.zspec - o.zphoto < c.dzbin n + c.dzw := by
              by_contra hcon
              apply hc
              unfold Coarse.cell
              rw [List.countP_eq_zero]
              intro x hx
              simp only [List.mem_singleton] at hx
              subst hx
              simpa using hcon
            rw [aux n]
            · have : c.cell n [o] ≤ 1 := by
                unfold Coarse.cell
                exact List.countP_le_length
              omega
            · intro j hj
              unfold Coarse.cell
              rw [List.countP_eq_zero]
              intro x hx
              simp only [List.mem_singleton] at hx
              subst hx
              intro hcon
              simp only [Bool.and_eq_true, decide_eq_true_eq] at hcon
              simp only [Coarse.dzbin] at hcon hin
              have : (j : α) + 1 ≤ (n : α) := by exact_mod_cast hj
              nlinarith [hcon.2, hin.1]
      rw [hsplit, List.length_cons]
      omega
  unfold Coarse.row
  simp only [Option.getD_none]
  split
  · simp
  · rename_i h0
    have hpos : (0 : α) < ((c.use i l).length : α) := by
      have : 0 < (c.use i l).length := Nat.pos_of_ne_zero h0
      exact_mod_cast this
    constructor
    · have : ∀ (ks : List Nat) (a : α), (ks.map fun (k : Nat) => (k : α) / a).sum = ((ks.sum : Nat) : α) / a := by
        intro ks a
        induction ks with
        | nil => simp
        | cons k ks ih => rw [List.map_cons, List.sum_cons, ih, List.sum_cons, Nat.cast_add, add_div]
      rw [this, div_le_one hpos]
      exact_mod_cast key (c.use i l) nb
    · intro v hv
      obtain ⟨k, _, rfl⟩ := List.mem_map.mp hv
      positivity

/-- C358 is false of every list of objects: the one with the largest photometric redshift is in no cell. -/
theorem C358_false (dzmax : α) (nb : Nat) (hn : 0 < nb) (l : List (Obj α)) (o : Obj α) (ho : o ∈ l) (hl : IsLargest l o.zphoto)
    (hd : |o.zspec - o.zphoto| < dzmax) : ¬ Counted dzmax nb l := by
  rintro ⟨c, hc, hall⟩
  have hd0 : 0 < dzmax := lt_of_le_of_lt (abs_nonneg _) hd
  obtain ⟨i, j, hi, hj, hin, _⟩ := hall o ho hd
  exact absurd ((C358_partial dzmax hd0 nb hn l c hc o.zphoto hl).2.1 o i j hi hj hin).2.1 (lt_irrefl _)

/-- Three objects, two bins: the hypotheses hold, the first two are in cells and the third in none. -/
def toyObjs : List (Obj ℚ) := [⟨21 / 100, 2 / 10⟩, ⟨29 / 100, 3 / 10⟩, ⟨4 / 10, 4 / 10⟩]

def toyCoarse : Coarse ℚ := ⟨2 / 10, 1 / 10, 1 / 10, 1 / 10⟩

theorem toy_coarse : coarse (1 / 10) 2 toyObjs = .ok toyCoarse := by
  simp only [coarse, toyObjs, toyCoarse, List.map_cons, List.map_nil]
  norm_num

example : IsLargest toyObjs (4 / 10) ∧ (toyCoarse.row (fun _ => none) 2 0 toyObjs) = [0, 1] ∧ (toyCoarse.row (fun _ => some 2) 2 1 toyObjs) = [1 / 2, 0]
    ∧ ¬ Counted (1 / 10) 2 toyObjs := by
  have hl : IsLargest toyObjs (4 / 10) := by
    refine ⟨⟨⟨4 / 10, 4 / 10⟩, by simp [toyObjs], rfl⟩, ?_⟩
    intro o ho
    simp only [toyObjs, List.mem_cons, List.not_mem_nil, or_false] at ho
    rcases ho with rfl | rfl | rfl <;> norm_num
  refine ⟨hl, by decide +kernel, by decide +kernel, ?_⟩
  exact C358_false _ 2 (by norm_num) _ ⟨4 / 10, 4 / 10⟩ (by simp [toyObjs]) hl (by norm_num)

/-! ## C359: the row drawn at a redshift -/

/-- C359: the coarse bin drawn at a redshift is the one that has it strictly inside; there is none if no bin has. -/
theorem pick_iff (c : Coarse α) (nb : Nat) (x : α) (k : Nat) (hw : 0 < c.zw) :
    c.pick nb x = some k ↔ k < nb ∧ c.zbin k < x ∧ x < c.zbin k + c.zw := by
  have hmax : 1 / 2 * (c.zcen 1 - c.zcen 0) = c.zw / 2 := by
    simp only [Coarse.zcen, Coarse.zbin]; push_cast; ring
  have habs : ∀ k, |x - c.zcen k| < c.zw / 2 ↔ c.zbin k < x ∧ x < c.zbin k + c.zw := by
    intro k
    rw [abs_lt]
    unfold Coarse.zcen
    constructor <;> rintro ⟨h1, h2⟩ <;> constructor <;> linarith
  unfold Coarse.pick
  rw [hmax]
  cases ha : argmin ((List.range nb).map fun k => |x - c.zcen k|) with
  | none =>
    have := (argmin_none _).mp ha
    have hnb : nb = 0 := by simpa using this
    simp [hnb]
  | some k' =>
    obtain ⟨m, hm, hmin⟩ := argmin_spec _ _ ha
    have hk' : k' < nb := by
      have := List.getElem?_eq_some_iff.mp hm
      obtain ⟨h, _⟩ := this
      simpa using h
    rw [List.getElem?_map, List.getElem?_range hk'] at hm
    simp only [Option.map_some, Option.some.injEq] at hm
    simp only
    constructor
    · intro h
      split at h
      · rename_i hlt
        obtain rfl := Option.some.inj h
        exact ⟨hk', (habs _).mp hlt⟩
      · cases h
    · rintro ⟨hk, hin⟩
      have hlt := (habs k).mpr hin
      have h1 := (hmin k (|x - c.zcen k|) (by rw [List.getElem?_map, List.getElem?_range hk]; rfl)).1
      have hlt' : |x - c.zcen k'| < c.zw / 2 := by rw [hm]; exact lt_of_le_of_lt h1 hlt
      rw [if_pos hlt']
      have hin' := (habs k').mp hlt'
      congr 1
      simp only [Coarse.zbin] at hin hin'
      exact bin_unique c.zmin c.zw x k' k hw ⟨hin'.1.le, hin'.2⟩ ⟨hin.1.le, hin.2⟩

/-- C359 as one would state it: at every redshift from the smallest to the largest photometric redshift the map has the row of the bin with it. -/
def Covered (c : Coarse α) (nb : Nat) (m : α) : Prop :=
  ∀ x, c.zmin ≤ x → x < m → ∃ k, c.pick nb x = some k ∧ k < nb ∧ c.zbin k ≤ x ∧ x < c.zbin k + c.zw

/-- C359, the part that holds: off the edges of the bins.  Outside of the photometric redshifts, and on the edges, the row is zero. -/
theorem C359_partial (dzmax : α) (nb : Nat) (hn : 0 < nb) (l : List (Obj α)) (c : Coarse α) (h : coarse dzmax nb l = .ok c)
    (m : α) (hm : IsLargest l m) (hne : c.zmin < m) (fit : List Nat → Option α) (spline : List α → α → α) (z0 z1 : α) (nf i : Nat) :
    (∀ k, k < nb → c.zbin k < fineBin z0 z1 nf i → fineBin z0 z1 nf i < c.zbin k + c.zw →
      c.fineRow fit spline z0 z1 nb nf i l = Plots.mapRow ((List.range nf).map fun j => fineBin z0 z1 nf j - fineBin z0 z1 nf i)
        ((List.range nf).map fun j => spline (c.row fit nb k l) (fineBin z0 z1 nf j - fineBin z0 z1 nf i)))
    ∧ ((∀ k, k < nb → fineBin z0 z1 nf i ≤ c.zbin k ∨ c.zbin k + c.zw ≤ fineBin z0 z1 nf i) →
        c.fineRow fit spline z0 z1 nb nf i l = List.replicate nf 0)
    ∧ ((fineBin z0 z1 nf i ≤ c.zmin ∨ m ≤ fineBin z0 z1 nf i) → c.fineRow fit spline z0 z1 nb nf i l = List.replicate nf 0) := by
  obtain ⟨hs, e1, e2, m', hm', e3⟩ := coarse_fields dzmax nb l c h
  have hmm : m' = m := by
    obtain ⟨o, ho, e⟩ := hm.1
    obtain ⟨o', ho', e'⟩ := hm'.1
    exact le_antisymm (e' ▸ hm.2 o' ho') (e ▸ hm'.2 o ho)
  subst hmm
  have hnb : (0 : α) < (nb : α) := by exact_mod_cast hn
  have hw : 0 < c.zw := by rw [e3]; exact div_pos (by linarith) hnb
  have hzn : (nb : α) * c.zw = m' - c.zmin := by rw [e3]; field_simp
  have zero : (∀ k, k < nb → fineBin z0 z1 nf i ≤ c.zbin k ∨ c.zbin k + c.zw ≤ fineBin z0 z1 nf i) →
        c.fineRow fit spline z0 z1 nb nf i l = List.replicate nf 0 := by
    intro hall
    unfold Coarse.fineRow
    cases hp : c.pick nb (fineBin z0 z1 nf i) with
    | none => rfl
    | some k =>
      obtain ⟨hk, h1, h2⟩ := (pick_iff c nb _ k hw).mp hp
      rcases hall k hk with h' | h'
      · exact absurd h1 (not_lt.mpr h')
      · exact absurd h2 (not_lt.mpr h')
  refine ⟨?_, zero, ?_⟩
  · intro k hk h1 h2
    have hp := (pick_iff c nb (fineBin z0 z1 nf i) k hw).mpr ⟨hk, h1, h2⟩
    unfold Coarse.fineRow
    simp only [hp, List.map_map]
    rfl
  · intro hout
    apply zero
    intro k hk
    have hk' : (k : α) + 1 ≤ (nb : α) := by exact_mod_cast hk
    simp only [Coarse.zbin]
    rcases hout with ho | ho
    · left
      have : 0 ≤ (k : α) * c.zw := by positivity
      linarith
    · right
      nlinarith

/-- C359: when all objects have the same photometric redshift the whole map is zero. -/
theorem C359_single (dzmax : α) (nb : Nat) (l : List (Obj α)) (c : Coarse α) (h : coarse dzmax nb l = .ok c)
    (hsame : ∀ o ∈ l, ∀ o' ∈ l, o.zphoto = o'.zphoto) (fit : List Nat → Option α) (spline : List α → α → α) (z0 z1 : α) (nf i : Nat) :
    c.fineRow fit spline z0 z1 nb nf i l = List.replicate nf 0 := by
  obtain ⟨hs, e1, e2, m', hm', e3⟩ := coarse_fields dzmax nb l c h
  have hw : c.zw = 0 := by
    obtain ⟨o, ho, e⟩ := hs.1
    obtain ⟨o', ho', e'⟩ := hm'.1
    rw [e3, ← e, ← e', hsame o ho o' ho']
    simp
  have hmax : 1 / 2 * (c.zcen 1 - c.zcen 0) = 0 := by
    simp only [Coarse.zcen, Coarse.zbin, hw]; ring
  unfold Coarse.fineRow
  have : c.pick nb (fineBin z0 z1 nf i) = none := by
    unfold Coarse.pick
    rw [hmax]
    cases argmin ((List.range nb).map fun k => |fineBin z0 z1 nf i - c.zcen k|) with
    | none => rfl
    | some k => simp only; rw [if_neg (not_lt.mpr (abs_nonneg _))]
  rw [this]

/-- C359 is false on the edge of every bin: nothing is drawn there. -/
theorem C359_false (c : Coarse α) (nb : Nat) (m : α) (hw : 0 < c.zw) (hm : c.zmin < m) : ¬ Covered c nb m := by
  intro h
  obtain ⟨k, hp, hk, h1, h2⟩ := h c.zmin le_rfl hm
  have := ((pick_iff c nb _ k hw).mp hp).2.1
  have h0 : 0 ≤ (k : α) * c.zw := by positivity
  simp only [Coarse.zbin] at this
  linarith

example : toyCoarse.pick 2 (25 / 100) = some 0 ∧ toyCoarse.pick 2 (35 / 100) = some 1 ∧ toyCoarse.pick 2 (3 / 10) = none
    ∧ toyCoarse.zmin < 4 / 10 ∧ 0 < toyCoarse.zw := by decide +kernel

/-! ## C360: positions -/

/-- All objects are on an arc of width `w` from `c` on. -/
def OnArc (c w : α) (ra : List α) : Prop := ∀ x ∈ ra, ∃ k : ℤ, c ≤ x + 360 * (k : α) ∧ x + 360 * (k : α) ≤ c + w

theorem extent_le (l : List α) (a b : α) (hab : a ≤ b) (h : ∀ x ∈ l, a ≤ x ∧ x ≤ b) : extent l ≤ b - a := by
  cases l with
  | nil => simp only [extent]; linarith
  | cons x xs =>
    simp only [extent]
    have h1 := h _ (foldl_max_spec x xs).1
    have h2 := h _ (foldl_min_spec x xs).1
    linarith [h1.2, h2.1]

theorem le_extent (l : List α) (x y : α) (hx : x ∈ l) (hy : y ∈ l) : x - y ≤ extent l := by
  cases l with
  | nil => simp at hx
  | cons a xs =>
    simp only [extent]
    linarith [(foldl_max_spec a xs).2 x hx, (foldl_min_spec a xs).2 y hy]

theorem mod360_spec (x : α) : 0 ≤ mod360 x ∧ mod360 x < 360 ∧ ∃ k : ℤ, mod360 x = x + 360 * (k : α) := by
  unfold mod360
  have h1 := Int.floor_le (x / 360)
  have h2 := Int.lt_floor_add_one (x / 360)
  rw [le_div_iff₀ (by norm_num)] at h1
  rw [div_lt_iff₀ (by norm_num)] at h2
  refine ⟨by linarith, by linarith, -⌊x / 360⌋, ?_⟩
  push_cast; ring

/-- C360, the part that holds: all right ascensions are turned by the same angle, none or 180 degrees, up to whole turns; the plot is no wider than
without turning; and an area on an arc of less than 180 degrees, also across zero, is no wider in the plot than it is. -/
theorem C360_partial (ra shown : List α) (h : plotRa ra = .ok shown) :
    (∃ r, (r = 0 ∨ r = 180) ∧ List.Forall₂ (fun x y => ∃ k : ℤ, y = x + r + 360 * (k : α)) ra shown)
    ∧ (∀ a b, (∀ x ∈ ra, a ≤ x ∧ x ≤ b) → ∀ x ∈ shown, ∀ y ∈ shown, x - y ≤ b - a)
    ∧ ∀ c w, 0 ≤ c → c < 360 → 0 ≤ w → w < 180 → (∀ x ∈ ra, 0 ≤ x ∧ x < 360) → OnArc c w ra → ∀ x ∈ shown, ∀ y ∈ shown, x - y ≤ w := by
  unfold plotRa at h
  split at h
  · cases h
  · rename_i hne
    have hne' : ra ≠ [] := fun e => hne (by rw [e]; rfl)
    simp only [Except.ok.injEq] at h
    have hext : extent shown ≤ extent ra ∧ extent shown ≤ extent (ra.map fun x => mod360 (x + 180)) := by
      rw [← h]
      split
      · rename_i hlt; exact ⟨hlt.le, le_rfl⟩
      · rename_i hlt; exact ⟨le_rfl, not_lt.mp hlt⟩
    refine ⟨?_, ?_, ?_⟩
    · rw [← h]
      split
      · refine ⟨180, Or.inr rfl, ?_⟩
        rw [List.forall₂_map_right_iff, List.forall₂_same]
        intro x _
        exact (mod360_spec (x + 180)).2.2
      · refine ⟨0, Or.inl rfl, ?_⟩
        rw [List.forall₂_same]
        intro x _
        exact ⟨0, by simp⟩
    · intro a b hab x hx y hy
      have hab' : a ≤ b := by
        obtain ⟨z, hz⟩ := List.exists_mem_of_ne_nil _ hne'
        exact le_trans (hab z hz).1 (hab z hz).2
      exact le_trans (le_extent _ _ _ hx hy) (le_trans hext.1 (extent_le ra a b hab' hab))
    · intro c w hc0 hc1 hw0 hw1 hra harc x hx y hy
      apply le_trans (le_extent _ _ _ hx hy)
      by_cases hcase : c + w < 360
      · apply le_trans hext.1
        have := extent_le ra c (c + w) (by linarith) ?_
        · linarith
        · intro z hz
          obtain ⟨k, h1, h2⟩ := harc z hz
          obtain ⟨g1, g2⟩ := hra z hz
          have hk : k = 0 := by
            have a1 : (k : α) < 1 := by nlinarith
            have a2 : (-1 : α) < (k : α) := by nlinarith
            have b1 : k < 1 := by exact_mod_cast a1
            have b2 : -1 < k := by exact_mod_cast a2
            omega
          rw [hk] at h1 h2
          simp only [Int.cast_zero, mul_zero, add_zero] at h1 h2
          exact ⟨h1, h2⟩
      · apply le_trans hext.2
        push Not at hcase
        have := extent_le (ra.map fun x => mod360 (x + 180)) (c - 180) (c + w - 180) (by linarith) ?_
        · linarith
        · intro t ht
          obtain ⟨z, hz, rfl⟩ := List.mem_map.mp ht
          obtain ⟨k, h1, h2⟩ := harc z hz
          obtain ⟨g1, g2⟩ := hra z hz
          obtain ⟨m1, m2, j, mj⟩ := mod360_spec (z + 180)
          -- the arc from `c - 180` on lies within one turn
          have : j = k - 1 := by
            rw [mj] at m1 m2
            have a1 : ((j - k : ℤ) : α) < 0 := by push_cast; nlinarith
            have a2 : (-2 : α) < ((j - k : ℤ) : α) := by push_cast; nlinarith
            have b1 : j - k < 0 := by exact_mod_cast a1
            have b2 : -2 < j - k := by exact_mod_cast a2
            omega
          rw [mj, this]
          push_cast
          constructor <;> linarith

/-- C360 as one would state it: the right ascensions shown are those of the objects. -/
def ShowsRa (ra : List α) : Prop := ∀ shown, plotRa ra = .ok shown → shown = ra

/-- C360 is false: an area across zero is shown at right ascensions that are off by 180 degrees, on an axis labelled RA. -/
theorem C360_false : ¬ ShowsRa [(350 : ℚ), 10] := by
  intro h
  have := h [170, 190] (by decide +kernel)
  simp at this

/-- C360: the width is not kept for arcs of more than 180 degrees. -/
theorem C360_wide : ∃ (ra shown : List ℚ) (x y : ℚ), plotRa ra = .ok shown ∧ OnArc 350 200 ra ∧ (∀ z ∈ ra, 0 ≤ z ∧ z < 360) ∧ x ∈ shown ∧ y ∈ shown
    ∧ x - y = 340 := by
  refine ⟨[350, 10, 170, 190], [350, 10, 170, 190], 350, 10, by decide +kernel, ?_, ?_, by simp, by simp, by norm_num⟩
  · intro x hx
    simp only [List.mem_cons, List.not_mem_nil, or_false] at hx
    rcases hx with rfl | rfl | rfl | rfl
    · exact ⟨0, by norm_num, by norm_num⟩
    · exact ⟨1, by norm_num, by norm_num⟩
    · exact ⟨1, by norm_num, by norm_num⟩
    · exact ⟨1, by norm_num, by norm_num⟩
  · intro x hx
    simp only [List.mem_cons, List.not_mem_nil, or_false] at hx
    rcases hx with rfl | rfl | rfl | rfl <;> norm_num

/-- An area across zero meets the hypotheses of the last part of `C360_partial`. -/
example : plotRa [(350 : ℚ), 10, 0] = .ok [170, 190, 180] ∧ OnArc (350 : ℚ) 20 [350, 10, 0] := by
  refine ⟨by decide +kernel, ?_⟩
  intro x hx
  simp only [List.mem_cons, List.not_mem_nil, or_false] at hx
  rcases hx with rfl | rfl | rfl
  · exact ⟨0, by norm_num, by norm_num⟩
  · exact ⟨1, by norm_num, by norm_num⟩
  · exact ⟨1, by norm_num, by norm_num⟩

/-! ## C361: warnings of the redMaGiC calibration -/

/-- A redshift is in bin `k` of the `n` bins from `lo` on, and not in the last 0.0001 of them. -/
def InBin (lo bs : α) (n k : Nat) (x : α) : Prop := lo + (k : α) * bs ≤ x ∧ x < lo + ((k : α) + 1) * bs ∧ x ≤ lo + (n : α) * bs - 1 / 10000

instance (lo bs : α) (n k : Nat) (x : α) : Decidable (InBin lo bs n k x) := by unfold InBin; infer_instance

/-- The warning tells of a redshift exactly if the galaxies of all modes together are too few in its bin. -/
theorem warned_iff (constchi : Bool) (n lo bs : α) (nb : Nat) (hnb : 0 < nb) (hbs : 1 / 10000 ≤ bs) (vol : List α) (hv : vol.length = nb)
    (gals : List (Cand α)) (z : α) :
    z ∈ warned constchi n (lo, lo + (nb : α) * bs) bs vol gals ↔
      constchi = false ∧ ∃ (k : Nat) (v : α), vol[k]? = some v ∧ z = lo + ((k : α) + 1 / 2) * bs
        ∧ ((gals.countP fun g => decide (InBin lo bs nb k g.samp) : Nat) : α) / v < n := by
  obtain ⟨hlen, hbin⟩ := C223_bins lo bs nb hnb hbs (gals.map Cand.samp)
  unfold warned
  cases constchi with
  | true => simp
  | false =>
    simp only [Bool.false_eq_true, if_false, true_and]
    rw [List.mem_map]
    constructor
    · rintro ⟨⟨z', d⟩, hmem, rfl⟩
      rw [List.mem_filter] at hmem
      obtain ⟨hz, hd⟩ := hmem
      simp only [decide_eq_true_eq] at hd
      obtain ⟨k, hk⟩ := List.mem_iff_getElem?.mp hz
      rw [List.getElem?_zip_eq_some] at hk
      obtain ⟨h1, h2⟩ := hk
      rw [List.getElem?_zipWith_eq_some] at h2
      obtain ⟨cnt, v, hc, hvk, e⟩ := h2
      have hkn : k < nb := by
        have := (List.getElem?_eq_some_iff.mp hvk).1
        omega
      refine ⟨k, v, hvk, ?_, ?_⟩
      · simp only
        simp only [binCenters, List.getElem?_map, hlen, List.getElem?_range hkn, Option.map_some, Option.some.injEq] at h1
        rw [← h1]; ring
      · rw [hbin k hkn] at hc
        cases hc
        simp only [List.countP_map] at e
        rw [← e] at hd
        exact hd
    · rintro ⟨k, v, hvk, hz, hd⟩
      have hkn : k < nb := by
        have := (List.getElem?_eq_some_iff.mp hvk).1
        omega
      refine ⟨(z, ((gals.countP fun g => decide (InBin lo bs nb k g.samp) : Nat) : α) / v),
        List.mem_filter.mpr ⟨List.mem_iff_getElem?.mpr ⟨k, ?_⟩, ?_⟩, rfl⟩
      · rw [List.getElem?_zip_eq_some]
        refine ⟨?_, ?_⟩
        · simp only [binCenters, List.getElem?_map, hlen, List.getElem?_range hkn, Option.map_some, Option.some.injEq]
          rw [hz]; ring
        · rw [List.getElem?_zipWith_eq_some]
          refine ⟨_, v, hbin k hkn, hvk, ?_⟩
          rw [List.countP_map]
          rfl
      · simpa using hd

/-- C361 as one would state it: the calibration warns of exactly the redshifts where the galaxies bright enough for the mode are too few. -/
def Warns (n lo bs : α) (nb : Nat) (vol : List α) (gals : List (Cand α)) : Prop :=
  ∀ z, z ∈ warned false n (lo, lo + (nb : α) * bs) bs vol gals ↔
    ∃ (k : Nat) (v : α), vol[k]? = some v ∧ z = lo + ((k : α) + 1 / 2) * bs ∧ ((gals.countP fun g => g.bright && decide (InBin lo bs nb k g.samp) : Nat) : α) / v < n

/-- C361, the part that holds: what is warned of is too little also for the mode; and all of it is warned of if the galaxies are bright enough for the
mode, as they are for the faintest. -/
theorem C361_partial (n lo bs : α) (nb : Nat) (hnb : 0 < nb) (hbs : 1 / 10000 ≤ bs) (vol : List α) (hv : vol.length = nb)
    (hpos : ∀ v ∈ vol, 0 < v) (gals : List (Cand α)) :
    (∀ z ∈ warned false n (lo, lo + (nb : α) * bs) bs vol gals, ∃ (k : Nat) (v : α), vol[k]? = some v ∧ z = lo + ((k : α) + 1 / 2) * bs
      ∧ ((gals.countP fun g => g.bright && decide (InBin lo bs nb k g.samp) : Nat) : α) / v < n)
    ∧ ((∀ g ∈ gals, g.bright = true) → Warns n lo bs nb vol gals)
    ∧ warned true n (lo, lo + (nb : α) * bs) bs vol gals = [] := by
  refine ⟨?_, ?_, by simp [warned]⟩
  · intro z hz
    obtain ⟨_, k, v, hvk, e, hd⟩ := (warned_iff false n lo bs nb hnb hbs vol hv gals z).mp hz
    refine ⟨k, v, hvk, e, lt_of_le_of_lt ?_ hd⟩
    have hv0 := hpos v (List.mem_of_getElem? hvk)
    rw [div_le_div_iff_of_pos_right hv0]
    have : (gals.countP fun g => g.bright && decide (InBin lo bs nb k g.samp)) ≤ gals.countP fun g => decide (InBin lo bs nb k g.samp) :=
      List.countP_mono_left fun g _ h => by
        simp only [Bool.and_eq_true] at h
        exact h.2
    exact_mod_cast this
  · intro hall z
    rw [warned_iff false n lo bs nb hnb hbs vol hv gals z]
    simp only [true_and]
    have : ∀ k, (gals.countP fun g => g.bright && decide (InBin lo bs nb k g.samp)) = gals.countP fun g => decide (InBin lo bs nb k g.samp) := by
      intro k
      apply List.countP_congr
      intro g hg
      simp [hall g hg]
    simp only [this]

/-- C361 is false: galaxies that are too faint for the mode hide that it has none. -/
theorem C361_false : ¬ Warns (1 / 2) (1 / 10) (1 / 10 : ℚ) 1 [1] [⟨15 / 100, false⟩] := by
  intro h
  have h1 := (h (15 / 100)).mpr ⟨0, 1, rfl, by norm_num, by decide +kernel⟩
  rw [warned_iff false (1 / 2 : ℚ) (1 / 10) (1 / 10) 1 (by norm_num) (by norm_num) [1] rfl] at h1
  obtain ⟨_, k, v, hk, _, hd⟩ := h1
  cases k with
  | succ k => simp at hk
  | zero =>
    simp only [List.getElem?_cons_zero, Option.some.injEq] at hk
    subst hk
    revert hd
    decide +kernel

/-- The hypotheses of `C361_partial` hold, with one warning of two bins. -/
example : warned false (1 / 2) ((1 / 10 : ℚ), 1 / 10 + (2 : Nat) * (1 / 10)) (1 / 10) [1, 1] [⟨15 / 100, true⟩] = [1 / 4] := by decide +kernel

/-! ## C362: the range of the plot of a mode -/

/-- C362: the plot starts with the mode, reaches its end, is less than a bin longer, and its bins have their whole width within it. -/
theorem C362_plot (z0 z1 bs : α) (hbs : 1 / 10000 ≤ bs) (h : z0 < z1) :
    (plotRange z0 z1 bs).1 = z0 ∧ z1 ≤ (plotRange z0 z1 bs).2 ∧ (plotRange z0 z1 bs).2 < z1 + bs
    ∧ ∃ nb : Nat, 0 < nb ∧ (plotRange z0 z1 bs).2 = z0 + (nb : α) * bs
      ∧ (costHist (plotRange z0 z1 bs) bs []).length = nb
      ∧ ∀ x, z0 ≤ x → x ≤ z1 - 1 / 10000 → ∃ k, k < nb ∧ z0 + (k : α) * bs ≤ x ∧ x < z0 + ((k : α) + 1) * bs := by
  have hb0 : 0 < bs := lt_of_lt_of_le (by norm_num) hbs
  have hpos : 0 < (z1 - z0) / bs := div_pos (by linarith) hb0
  have hc := Int.ceil_pos.mpr hpos
  have h1 := Int.le_ceil ((z1 - z0) / bs)
  have h2 := Int.ceil_lt_add_one ((z1 - z0) / bs)
  rw [div_le_iff₀ hb0] at h1
  have h2' : ((⌈(z1 - z0) / bs⌉ : α) - 1) * bs < z1 - z0 := by
    rw [← lt_div_iff₀ hb0]; linarith
  have hcast : ((⌈(z1 - z0) / bs⌉.toNat : Nat) : α) = (⌈(z1 - z0) / bs⌉ : α) := by
    rw [← Int.cast_natCast, Int.toNat_of_nonneg hc.le]
  have he : (plotRange z0 z1 bs).2 = z0 + ((⌈(z1 - z0) / bs⌉.toNat : Nat) : α) * bs := by
    unfold plotRange
    rw [hcast]; ring
  have hr : plotRange z0 z1 bs = (z0, z0 + ((⌈(z1 - z0) / bs⌉.toNat : Nat) : α) * bs) := Prod.ext rfl he
  have hn : 0 < ⌈(z1 - z0) / bs⌉.toNat := by omega
  refine ⟨rfl, ?_, ?_, ⌈(z1 - z0) / bs⌉.toNat, hn, he, ?_, ?_⟩
  · unfold plotRange; simp only; linarith
  · unfold plotRange; simp only; linarith
  · rw [hr]
    exact (C223_bins z0 bs _ hn hbs []).1
  · intro x hx0 hx1
    obtain ⟨k, hk, g1, g2⟩ := bin_exists z0 bs x ⌈(z1 - z0) / bs⌉.toNat hb0 hx0 (by rw [hcast]; linarith)
    exact ⟨k, hk, by linarith, by linarith⟩

example : plotRange (1 / 10 : ℚ) (35 / 100) (1 / 10) = (1 / 10, 4 / 10) := by decide +kernel

end Redmapper.PhotMap
