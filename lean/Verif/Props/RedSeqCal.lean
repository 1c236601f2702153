/-
Properties of the calibration of the red sequence (C169-C177).
-/
import Mathlib.Algebra.BigOperators.Intervals
import Mathlib.Algebra.Order.BigOperators.Ring.Finset
import Mathlib.Tactic.Ring
import Mathlib.Tactic.Linarith
import Mathlib.Tactic.FieldSimp
import Mathlib.Tactic.Positivity
import Verif.Model.RedSeqCal
import Verif.Props.Fitters
import Verif.Props.Finders
import Verif.Props.Centering
import Verif.Props.Utilities

set_option linter.unusedSectionVars false

namespace Redmapper.RedSeqCal

/-! ## C169: the order of the colors -/

theorem order_red {nmag ref i : Nat} (h : ref + 1 + i < nmag) :
    (order nmag ref)[i]? = some ⟨ref + i, -1, ref + i + 1⟩ := by
  unfold order
  rw [List.getElem?_append_left (by simp; omega), List.getElem?_map, List.getElem?_range' (by omega)]
  simp only [Option.map_some, Option.some.injEq, Step.mk.injEq, true_and]
  omega

theorem order_blue {nmag ref k : Nat} (hr : ref < nmag) (h : k < ref) :
    (order nmag ref)[nmag - 1 - ref + k]? = some ⟨ref - 1 - k, 1, ref - 1 - k⟩ := by
  unfold order
  rw [List.getElem?_append_right (by simp; omega)]
  have e : nmag - 1 - ref + k - (List.map (fun j => (⟨j - 1, -1, j⟩ : Step))
      (List.range' (ref + 1) (nmag - (ref + 1)))).length = k := by simp; omega
  rw [e, List.getElem?_map, List.getElem?_map, List.getElem?_reverse (by simpa using h), List.length_range,
    List.getElem?_range (by omega)]
  simp

theorem order_length (nmag ref : Nat) (hr : ref < nmag) : (order nmag ref).length = nmag - 1 := by
  unfold order
  simp
  omega

/-- Every step is one of the two kinds. -/
theorem order_cases {nmag ref i : Nat} {t : Step} (hr : ref < nmag) (h : (order nmag ref)[i]? = some t) :
    (ref + 1 + i < nmag ∧ t = ⟨ref + i, -1, ref + i + 1⟩) ∨
    ∃ k, i = nmag - 1 - ref + k ∧ k < ref ∧ t = ⟨ref - 1 - k, 1, ref - 1 - k⟩ := by
  have hl := (List.getElem?_eq_some_iff.mp h).1
  rw [order_length nmag ref hr] at hl
  by_cases h1 : ref + 1 + i < nmag
  · rw [order_red h1] at h
    exact Or.inl ⟨h1, (Option.some.inj h).symm⟩
  · right
    refine ⟨i - (nmag - 1 - ref), by omega, by omega, ?_⟩
    have := order_blue (k := i - (nmag - 1 - ref)) hr (by omega)
    rw [show nmag - 1 - ref + (i - (nmag - 1 - ref)) = i by omega, h] at this
    exact Option.some.inj this

/-- C169: the calibration goes through the colors so that every color comes exactly once; the two bands of a color are a
new one and a known one; the known one is the reference band or was the new one of an earlier color; the new one is
neither. The sign is such that the magnitude of the new band is that of the known one plus the sign times the color. -/
theorem C169_order (nmag ref : Nat) (hr : ref < nmag) :
    ((order nmag ref).map Step.col).Perm (List.range (nmag - 1)) ∧
    ∀ (i : Nat) (t : Step), (order nmag ref)[i]? = some t →
      ((t.sign = 1 ∧ t.mind = t.col ∧ t.known = t.col + 1) ∨ (t.sign = -1 ∧ t.mind = t.col + 1 ∧ t.known = t.col)) ∧
      (t.known = ref ∨ ∃ (i' : Nat) (t' : Step), i' < i ∧ (order nmag ref)[i']? = some t' ∧ t'.mind = t.known) ∧
      t.mind ≠ ref ∧ ∀ (i' : Nat) (t' : Step), i' < i → (order nmag ref)[i']? = some t' → t'.mind ≠ t.mind := by
  constructor
  · refine (List.perm_ext_iff_of_nodup ?_ List.nodup_range).mpr ?_
    · rw [List.nodup_iff_injective_getElem]
      rintro ⟨a, ha⟩ ⟨b, hb⟩ hab
      simp only [List.getElem_map] at hab
      have ha' : a < (order nmag ref).length := by simpa using ha
      have hb' : b < (order nmag ref).length := by simpa using hb
      have ea := order_cases hr (List.getElem?_eq_getElem ha')
      have eb := order_cases hr (List.getElem?_eq_getElem hb')
      simp only [Fin.mk.injEq]
      rcases ea with ⟨a1, ea⟩ | ⟨k, a1, a2, ea⟩ <;> rcases eb with ⟨b1, eb⟩ | ⟨l, b1, b2, eb⟩ <;>
        · rw [ea, eb] at hab
          simp only at hab
          omega
    · intro j
      rw [List.mem_map, List.mem_range]
      constructor
      · rintro ⟨t, ht, rfl⟩
        obtain ⟨i, hi⟩ := List.mem_iff_getElem?.mp ht
        rcases order_cases hr hi with ⟨a1, rfl⟩ | ⟨k, a1, a2, rfl⟩ <;> simp only <;> omega
      · intro hj
        by_cases h : ref ≤ j
        · refine ⟨_, List.mem_of_getElem? (order_red (nmag := nmag) (ref := ref) (i := j - ref) (by omega)), ?_⟩
          simp only
          omega
        · refine ⟨_, List.mem_of_getElem? (order_blue (nmag := nmag) (ref := ref) (k := ref - 1 - j) hr (by omega)), ?_⟩
          simp only
          omega
  · intro i t ht
    rcases order_cases hr ht with ⟨a1, rfl⟩ | ⟨k, a1, a2, rfl⟩
    · refine ⟨Or.inr ⟨rfl, rfl, by simp [Step.known]; omega⟩, ?_, by simp only; omega, ?_⟩
      · cases i with
        | zero => left; simp [Step.known]
        | succ i =>
          right
          refine ⟨i, _, by omega, order_red (by omega), ?_⟩
          simp [Step.known]
          omega
      · intro i' t' hi' ht'
        rcases order_cases hr ht' with ⟨b1, rfl⟩ | ⟨l, b1, b2, rfl⟩ <;> simp only <;> omega
    · refine ⟨Or.inl ⟨rfl, rfl, ?_⟩, ?_, by simp only; omega, ?_⟩
      · show ((ref - 1 - k : Nat) + (1 : Int)).toNat = ref - 1 - k + 1
        omega
      · cases k with
        | zero =>
          left
          simp [Step.known]
          omega
        | succ k =>
          right
          refine ⟨nmag - 1 - ref + k, _, by omega, order_blue hr (by omega), ?_⟩
          simp [Step.known]
          omega
      · intro i' t' hi' ht'
        rcases order_cases hr ht' with ⟨b1, rfl⟩ | ⟨l, b1, b2, rfl⟩ <;> simp only <;> omega

/-- Five bands with the third one as reference. -/
example : order 5 2 = [⟨2, -1, 3⟩, ⟨3, -1, 4⟩, ⟨1, 1, 1⟩, ⟨0, 1, 0⟩] := by decide

variable {α : Type} [Field α] [LinearOrder α]

/-! ## C170: luptitude corrections -/

/-- The magnitude of a band for a magnitude in the reference band and colors `c k` between the bands `k` and `k + 1`. -/
def specMag (ref : Nat) (m : α) (c : Nat → α) (i : Nat) : α :=
  if ref ≤ i then m - ∑ k ∈ Finset.Ico ref i, c k else m + ∑ k ∈ Finset.Ico i ref, c k

/-- The difference between the color in luptitudes and in magnitudes. -/
def specCorr (lup : Nat → α → α) (ref : Nat) (m : α) (c : Nat → α) (j : Nat) : α :=
  (lup j (specMag ref m c j) - lup (j + 1) (specMag ref m c (j + 1))) - c j

theorem specMag_ref (ref : Nat) (m : α) (c : Nat → α) : specMag ref m c ref = m := by
  simp [specMag]

theorem specMag_color (ref : Nat) (m : α) (c : Nat → α) (j : Nat) :
    specMag ref m c j - specMag ref m c (j + 1) = c j := by
  unfold specMag
  by_cases h1 : ref ≤ j
  · rw [if_pos h1, if_pos (by omega), Finset.sum_Ico_succ_top h1]
    ring
  · rw [if_neg h1]
    by_cases h2 : ref ≤ j + 1
    · have : ref = j + 1 := by omega
      subst this
      simp
    · rw [if_neg h2, Finset.sum_eq_sum_Ico_succ_bot (by omega)]
      ring

/-- Only the colors between the reference band and the band matter. -/
theorem specMag_congr (ref : Nat) (m : α) (c c' : Nat → α) (i : Nat)
    (h : ∀ k, (ref ≤ k ∧ k < i) ∨ (i ≤ k ∧ k < ref) → c k = c' k) : specMag ref m c i = specMag ref m c' i := by
  unfold specMag
  split_ifs with hi
  · rw [Finset.sum_congr rfl fun k hk => h k (Or.inl (Finset.mem_Ico.mp hk))]
  · rw [Finset.sum_congr rfl fun k hk => h k (Or.inr (Finset.mem_Ico.mp hk))]

/-- Magnitudes and luptitudes of the bands from `lo` to `hi` are those of the colors. -/
def Known (lup : Nat → α → α) (ref : Nat) (m : α) (c : Nat → α) (lo hi : Nat) (b : Bands α) : Prop :=
  ∀ i, lo ≤ i → i ≤ hi → b.mags i = specMag ref m c i ∧ b.lups i = lup i (specMag ref m c i)

theorem single_red (lup : Nat → α → α) (ref : Nat) (m : α) (c : Nat → α) (lo hi : Nat) (b : Bands α) (h1 : lo ≤ ref)
    (h2 : ref ≤ hi) (hb : Known lup ref m c lo hi b) (x : α) :
    let r := singleLupcorr lup ⟨hi, -1, hi + 1⟩ x b
    r.1 = specCorr lup ref m (fun k => if k = hi then x else c k) hi ∧
    Known lup ref m c lo hi r.2 ∧ (x = c hi → Known lup ref m c lo (hi + 1) r.2) := by
  have ek : Step.known ⟨hi, -1, hi + 1⟩ = hi := by simp [Step.known]
  obtain ⟨e1, e2⟩ := hb hi (by omega) (le_refl _)
  have e3 : specMag ref m (fun k => if k = hi then x else c k) hi = specMag ref m c hi := by
    refine specMag_congr _ _ _ _ _ fun k hk => if_neg (by omega)
  have e4 : specMag ref m (fun k => if k = hi then x else c k) (hi + 1) = specMag ref m c hi - x := by
    have := specMag_color ref m (fun k => if k = hi then x else c k) hi
    rw [e3] at this
    simp only [if_true] at this
    linear_combination -this
  simp only [singleLupcorr, ek]
  refine ⟨?_, ?_, ?_⟩
  · unfold specCorr
    rw [e3, e4]
    simp [Function.update_of_ne (show hi ≠ hi + 1 by omega), e1, e2]
    ring_nf
  · intro i a1 a2
    simp only [Function.update_of_ne (show i ≠ hi + 1 by omega)]
    exact hb i a1 a2
  · intro hx i a1 a2
    by_cases hi' : i = hi + 1
    · subst hi'
      have := specMag_color ref m c hi
      have e5 : specMag ref m c (hi + 1) = specMag ref m c hi - x := by rw [hx]; linear_combination -this
      simp [e1, e5]
      ring_nf
      simp
    · simp only [Function.update_of_ne hi']
      exact hb i a1 (by omega)

theorem single_blue (lup : Nat → α → α) (ref : Nat) (m : α) (c : Nat → α) (lo hi : Nat) (b : Bands α) (h1 : lo + 1 ≤ ref)
    (h2 : ref ≤ hi) (hb : Known lup ref m c (lo + 1) hi b) (x : α) :
    let r := singleLupcorr lup ⟨lo, 1, lo⟩ x b
    r.1 = specCorr lup ref m (fun k => if k = lo then x else c k) lo ∧
    Known lup ref m c (lo + 1) hi r.2 ∧ (x = c lo → Known lup ref m c lo hi r.2) := by
  have ek : Step.known ⟨lo, 1, lo⟩ = lo + 1 := by simp [Step.known]
  obtain ⟨e1, e2⟩ := hb (lo + 1) (le_refl _) (by omega)
  have e3 : specMag ref m (fun k => if k = lo then x else c k) (lo + 1) = specMag ref m c (lo + 1) := by
    refine specMag_congr _ _ _ _ _ fun k hk => if_neg (by omega)
  have e4 : specMag ref m (fun k => if k = lo then x else c k) lo = specMag ref m c (lo + 1) + x := by
    have := specMag_color ref m (fun k => if k = lo then x else c k) lo
    rw [e3] at this
    simp only [if_true] at this
    linear_combination this
  simp only [singleLupcorr, ek]
  refine ⟨?_, ?_, ?_⟩
  · unfold specCorr
    rw [e3, e4]
    simp [e1, e2]
  · intro i a1 a2
    simp only [Function.update_of_ne (show i ≠ lo by omega)]
    exact hb i a1 a2
  · intro hx i a1 a2
    by_cases hi' : i = lo
    · subst hi'
      have := specMag_color ref m c i
      have e5 : specMag ref m c i = specMag ref m c (i + 1) + x := by rw [hx]; linear_combination this
      simp [e1, e5]
    · simp only [Function.update_of_ne hi']
      exact hb i (by omega) a2

theorem if_self_fun (c : Nat → α) (j : Nat) : (fun k => if k = j then c j else c k) = c := by
  funext k
  by_cases h : k = j
  · rw [if_pos h, h]
  · rw [if_neg h]

/-- The colors in force when the first correction of color `j` is computed. -/
def firstColors (cs : Nat → α × α) (j : Nat) : Nat → α := fun k => if k = j then (cs k).1 else (cs k).2

theorem firstColors_eq (cs : Nat → α × α) (j : Nat) :
    firstColors cs j = fun k => if k = j then (cs j).1 else (cs k).2 := by
  funext k
  unfold firstColors
  by_cases h : k = j
  · rw [if_pos h, if_pos h, h]
  · rw [if_neg h, if_neg h]

theorem lupcorrs_append (lup : Nat → α → α) (cs : Nat → α × α) (l l' : List Step) (b : Bands α) :
    lupcorrs lup cs (l ++ l') b = ((lupcorrs lup cs l b).1 ++ (lupcorrs lup cs l' (lupcorrs lup cs l b).2).1,
      (lupcorrs lup cs l' (lupcorrs lup cs l b).2).2) := by
  induction l generalizing b with
  | nil => rfl
  | cons t l ih => simp only [List.cons_append, lupcorrs, ih]

theorem lup_red (lup : Nat → α → α) (ref : Nat) (m : α) (cs : Nat → α × α) (lo n hi : Nat) (b : Bands α) (h1 : lo ≤ ref)
    (h2 : ref ≤ hi) (hb : Known lup ref m (fun k => (cs k).2) lo hi b) :
    let l : List Step := (List.range' (hi + 1) n).map fun j => ⟨j - 1, -1, j⟩
    (lupcorrs lup cs l b).1 = l.map (fun t => (specCorr lup ref m (firstColors cs t.col) t.col,
      specCorr lup ref m (fun k => (cs k).2) t.col)) ∧
    Known lup ref m (fun k => (cs k).2) lo (hi + n) (lupcorrs lup cs l b).2 := by
  induction n generalizing hi b with
  | zero => exact ⟨rfl, hb⟩
  | succ n ih =>
    simp only [List.range'_succ, List.map_cons, lupcorrs, Nat.add_sub_cancel]
    obtain ⟨a1, a2, -⟩ := single_red lup ref m (fun k => (cs k).2) lo hi b h1 h2 hb (cs hi).1
    obtain ⟨b1, -, b2⟩ := single_red lup ref m (fun k => (cs k).2) lo hi _ h1 h2 a2 (cs hi).2
    obtain ⟨c1, c2⟩ := ih (hi + 1) _ (by omega) (b2 rfl)
    rw [show hi + 1 + n = hi + (n + 1) by omega] at c2
    refine ⟨?_, c2⟩
    rw [c1, a1, b1, if_self_fun (fun k => (cs k).2) hi, firstColors_eq]

theorem lup_blue (lup : Nat → α → α) (ref : Nat) (m : α) (cs : Nat → α × α) (hi lo : Nat) (b : Bands α) (h1 : lo ≤ ref)
    (h2 : ref ≤ hi) (hb : Known lup ref m (fun k => (cs k).2) lo hi b) :
    let l : List Step := ((List.range lo).reverse.map fun i => i + 1).map fun j => ⟨j - 1, 1, j - 1⟩
    (lupcorrs lup cs l b).1 = l.map (fun t => (specCorr lup ref m (firstColors cs t.col) t.col,
      specCorr lup ref m (fun k => (cs k).2) t.col)) ∧
    Known lup ref m (fun k => (cs k).2) 0 hi (lupcorrs lup cs l b).2 := by
  induction lo generalizing b with
  | zero => exact ⟨rfl, hb⟩
  | succ lo ih =>
    simp only [List.range_succ, List.reverse_append, List.reverse_cons, List.reverse_nil, List.nil_append,
      List.cons_append, List.map_cons, lupcorrs, Nat.add_sub_cancel]
    obtain ⟨a1, a2, -⟩ := single_blue lup ref m (fun k => (cs k).2) lo hi b h1 h2 hb (cs lo).1
    obtain ⟨b1, -, b2⟩ := single_blue lup ref m (fun k => (cs k).2) lo hi _ h1 h2 a2 (cs lo).2
    obtain ⟨c1, c2⟩ := ih _ (by omega) (b2 rfl)
    refine ⟨?_, c2⟩
    rw [c1, a1, b1, if_self_fun (fun k => (cs k).2) lo, firstColors_eq]

/-- C170: for every galaxy, the luptitude correction of a color is the difference between luptitude and magnitude color
for the magnitudes that the model colors give from the observed reference magnitude: with the starting color of this
color at first, with its fitted mean afterwards, and with the fitted means of the colors between it and the reference
band. In the end the magnitudes of all bands are those of the fitted means. -/
theorem C170_lupcorr (lup : Nat → α → α) (nmag ref : Nat) (hr : ref < nmag) (m : α) (cs : Nat → α × α) :
    (lupcorrs lup cs (order nmag ref) (bands0 lup ref m)).1 = (order nmag ref).map (fun t =>
      (specCorr lup ref m (firstColors cs t.col) t.col, specCorr lup ref m (fun k => (cs k).2) t.col)) ∧
    ∀ i, i < nmag → (lupcorrs lup cs (order nmag ref) (bands0 lup ref m)).2.mags i =
      specMag ref m (fun k => (cs k).2) i := by
  have h0 : Known lup ref m (fun k => (cs k).2) ref ref (bands0 lup ref m) := by
    intro i a b
    have : i = ref := by omega
    subst this
    simp [bands0, specMag_ref]
  obtain ⟨a1, a2⟩ := lup_red lup ref m cs ref (nmag - (ref + 1)) ref _ (le_refl _) (le_refl _) h0
  obtain ⟨b1, b2⟩ := lup_blue lup ref m cs _ ref _ (le_refl _) (Nat.le_add_right _ _) a2
  unfold order
  rw [lupcorrs_append]
  refine ⟨?_, ?_⟩
  · rw [a1, b1, List.map_append]
  · intro i hi
    exact (b2 i (Nat.zero_le _) (by omega)).1

/-! ## C171: error ratios -/

theorem ratios_append (fitted : Nat → Treat α → α × α) (med : Nat → α) (l l' : List Step) (h : l ≠ [])
    (r : Nat → α × α) : ratios fitted med true (l ++ l') r = ratios fitted med false l' (ratios fitted med true l r) := by
  have key : ∀ (l : List Step) (r : Nat → α × α),
      ratios fitted med false (l ++ l') r = ratios fitted med false l' (ratios fitted med false l r) := by
    intro l
    induction l with
    | nil => intro r; rfl
    | cons t l ih => intro r; exact ih _
  cases l with
  | nil => exact absurd rfl h
  | cons t l => exact key l _

/-- Later colors leave bands alone that are not their new band. -/
theorem ratios_keep (fitted : Nat → Treat α → α × α) (med : Nat → α) (l : List Step) (r : Nat → α × α) (b : Nat)
    (h : ∀ t ∈ l, t.mind ≠ b) : ratios fitted med false l r b = r b := by
  induction l generalizing r with
  | nil => rfl
  | cons t l ih =>
    show ratios fitted med false l (ratioStep fitted med false t r) b = r b
    rw [ih _ (fun t' ht' => h t' (by simp [ht']))]
    unfold ratioStep
    simp only [Bool.false_eq_true, if_false]
    rw [Function.update_of_ne]
    exact fun e => h t (by simp) e.symm

/-- C171: with fitted error ratios, the two bands of the first color get one common ratio, fitted for both bands without
prior scaling and starting from the ratio of the medians; the new band of every later color gets the ratio that is
fitted for this band alone, starting from the final ratio of the known band, whose errors are scaled by its final ratio
in all fits. No ratio is changed later. -/
theorem C171_ratios (fitted : Nat → Treat α → α × α) (med : Nat → α) (nmag ref : Nat) (hr : ref < nmag) :
    let R := ratios fitted med true (order nmag ref) (fun _ => (0, 0))
    ∀ (i : Nat) (t : Step), (order nmag ref)[i]? = some t →
      (i = 0 → R t.col = fitted t.col ⟨(none, none), (none, none), [0, 1], (med t.col, 0)⟩ ∧
        R (t.col + 1) = R t.col) ∧
      (0 < i → t.sign = -1 → R (t.col + 1) = fitted t.col
        ⟨(some (R t.col), none), (some (R t.col), none), [1], R t.col⟩) ∧
      (0 < i → t.sign = 1 → R t.col = fitted t.col
        ⟨(none, some (R (t.col + 1))), (none, some (R (t.col + 1))), [0], R (t.col + 1)⟩) := by
  intro R i t ht
  obtain ⟨hk, hkn, hne, hlater⟩ := (C169_order nmag ref hr).2 i t ht
  have hsplit : order nmag ref = (order nmag ref).take i ++ t :: (order nmag ref).drop (i + 1) := by
    obtain ⟨hl, e⟩ := List.getElem?_eq_some_iff.mp ht
    rw [← e, List.getElem_cons_drop, List.take_append_drop]
  have hafter : ∀ t' ∈ (order nmag ref).drop (i + 1), t'.mind ≠ t.mind ∧ (t.known ≠ t'.mind) := by
    intro t' ht'
    obtain ⟨k, hk'⟩ := List.mem_iff_getElem?.mp ht'
    rw [List.getElem?_drop] at hk'
    obtain ⟨_, -, hne', hl'⟩ := (C169_order nmag ref hr).2 _ t' hk'
    refine ⟨fun e => hl' i t (by omega) ht e.symm, ?_⟩
    rcases hkn with e | ⟨i', t'', hi', ht'', e⟩
    · rw [e]; exact fun e => hne' e.symm
    · rw [← e]; exact hl' i' t'' (by omega) ht''
  have hR : R = ratios fitted med true (order nmag ref) (fun _ => (0, 0)) := rfl
  rw [hsplit] at hR
  cases i with
  | zero =>
    refine ⟨fun _ => ?_, (fun h => by omega), (fun h => by omega)⟩
    rw [List.take_zero, List.nil_append] at hR
    have e : R = ratios fitted med false ((order nmag ref).drop 1) (ratioStep fitted med true t fun _ => (0, 0)) := hR
    have hb : ∀ b, (b = t.col ∨ b = t.col + 1) → R b = ratioStep fitted med true t (fun _ => (0, 0)) b := by
      intro b hb
      rw [e, ratios_keep]
      intro t' ht' e'
      obtain ⟨q1, q2⟩ := hafter t' ht'
      rcases hk with ⟨_, m1, m2⟩ | ⟨_, m1, m2⟩ <;> rcases hb with hb | hb <;>
        first
          | exact q1 (by omega)
          | exact q2 (by omega)
    rw [hb _ (Or.inl rfl), hb _ (Or.inr rfl)]
    unfold ratioStep treat
    simp
  | succ i =>
    refine ⟨(fun h => by omega), ?_, ?_⟩
    all_goals
      intro _ hs
      have hne0 : (order nmag ref).take (i + 1) ≠ [] := by
        intro h
        have hl := (List.getElem?_eq_some_iff.mp ht).1
        rw [List.take_eq_nil_iff] at h
        rcases h with h | h
        · omega
        · rw [h] at hl; simp at hl
      rw [ratios_append _ _ _ _ hne0] at hR
      set r := ratios fitted med true ((order nmag ref).take (i + 1)) (fun _ => (0, 0)) with hr'
      have e : R = ratios fitted med false ((order nmag ref).drop (i + 1 + 1)) (ratioStep fitted med false t r) := hR
      have hmind : R t.mind = ratioStep fitted med false t r t.mind := by
        rw [e, ratios_keep]
        exact fun t' ht' => (hafter t' ht').1
      have hknown : R t.known = r t.known := by
        rw [e, ratios_keep _ _ _ _ _ fun t' ht' => fun h => (hafter t' ht').2 h.symm]
        unfold ratioStep
        simp only [Bool.false_eq_true, if_false]
        rw [Function.update_of_ne]
        rcases hk with ⟨_, m1, m2⟩ | ⟨_, m1, m2⟩ <;> omega
    · rcases hk with ⟨m0, m1, m2⟩ | ⟨m0, m1, m2⟩
      · rw [m0] at hs; cases hs
      · rw [m1] at hmind
        rw [m2] at hknown
        rw [hmind]
        unfold ratioStep treat
        simp [m0, m1, m2, hknown]
    · rcases hk with ⟨m0, m1, m2⟩ | ⟨m0, m1, m2⟩
      · rw [m1] at hmind
        rw [m2] at hknown
        rw [hmind]
        unfold ratioStep treat
        simp [m0, m1, m2, hknown]
      · rw [m0] at hs; cases hs

/-- C171, every band has a ratio: with at least two bands, every band is one of those above. -/
theorem C171_all_bands (nmag ref b : Nat) (hr : ref < nmag) (h2 : 2 ≤ nmag) (hb : b < nmag) :
    ∃ (i : Nat) (t : Step), (order nmag ref)[i]? = some t ∧
      ((i = 0 ∧ (b = t.col ∨ b = t.col + 1)) ∨ (0 < i ∧ t.sign = -1 ∧ b = t.col + 1) ∨ (0 < i ∧ t.sign = 1 ∧ b = t.col)) := by
  by_cases h : ref < b
  · refine ⟨b - ref - 1, _, order_red (by omega), ?_⟩
    by_cases h0 : b - ref - 1 = 0
    · left; refine ⟨h0, Or.inr ?_⟩; simp only; omega
    · right; left; refine ⟨by omega, rfl, ?_⟩; simp only; omega
  · by_cases hl : ref + 1 < nmag
    · by_cases hb' : b = ref
      · refine ⟨0, _, order_red (by omega), Or.inl ⟨rfl, Or.inl ?_⟩⟩
        simp only; omega
      · refine ⟨nmag - 1 - ref + (ref - 1 - b), _, order_blue hr (by omega), ?_⟩
        right; right; refine ⟨by omega, rfl, ?_⟩; simp only; omega
    · by_cases hb' : b = ref
      · refine ⟨nmag - 1 - ref + 0, _, order_blue hr (by omega), Or.inl ⟨by omega, Or.inr ?_⟩⟩
        simp only; omega
      · refine ⟨nmag - 1 - ref + (ref - 1 - b), _, order_blue hr (by omega), ?_⟩
        by_cases h0 : ref - 1 - b = 0
        · left; refine ⟨by omega, Or.inl ?_⟩; simp only; omega
        · right; right; refine ⟨by omega, rfl, ?_⟩; simp only; omega

theorem plain_keep (l : List Step) (r : Nat → α × α) (b : Nat)
    (h : r b = (1, 0) ∨ ∃ t ∈ l, b = t.col ∨ b = t.col + 1) : plainRatios l r b = (1, 0) := by
  induction l generalizing r with
  | nil =>
    rcases h with h | ⟨t, ht, _⟩
    · exact h
    · cases ht
  | cons t l ih =>
    refine ih _ ?_
    by_cases h1 : b = t.col + 1
    · left; rw [h1, Function.update_self]
    · rw [Function.update_of_ne h1]
      by_cases h2 : b = t.col
      · left; rw [h2, Function.update_self]
      · rw [Function.update_of_ne h2]
        rcases h with h | ⟨t', ht', h⟩
        · exact Or.inl h
        · rcases List.mem_cons.mp ht' with rfl | ht'
          · omega
          · exact Or.inr ⟨t', ht', h⟩

/-- C171, without fitted error ratios every band has the ratio one. -/
theorem C171_plain (nmag ref b : Nat) (hr : ref < nmag) (h2 : 2 ≤ nmag) (hb : b < nmag) :
    plainRatios (α := α) (order nmag ref) (fun _ => (0, 0)) b = (1, 0) := by
  obtain ⟨i, t, ht, h⟩ := C171_all_bands nmag ref b hr h2 hb
  refine plain_keep _ _ _ (Or.inr ⟨t, List.mem_of_getElem? ht, ?_⟩)
  rcases h with ⟨_, h⟩ | ⟨_, _, h⟩ | ⟨_, _, h⟩
  · exact h
  · exact Or.inr h
  · exact Or.inl h

/-! ## C172: starting values -/

variable [IsStrictOrderedRing α]

/-- Nodes in increasing order. -/
def Increasing (nodes : List α) : Prop :=
  ∀ i k, i < k → k < nodes.length → nodes.getD i 0 < nodes.getD k 0

theorem Increasing.le {nodes : List α} (h : Increasing nodes) {i k : Nat} (hik : i ≤ k) (hk : k < nodes.length) :
    nodes.getD i 0 ≤ nodes.getD k 0 := by
  rcases Nat.lt_or_ge i k with h1 | h1
  · exact le_of_lt (h i k h1 hk)
  · rw [show i = k by omega]

theorem closer_iff {a b z : α} (h : a < b) : |z - b| < |z - a| ↔ (a + b) / 2 < z := by
  constructor
  · intro h1
    by_contra h2
    have h3 : z < b := by linarith [not_lt.mp h2]
    rw [abs_of_neg (by linarith : z - b < 0)] at h1
    rcases le_total a z with h4 | h4
    · rw [abs_of_nonneg (by linarith)] at h1; linarith [not_lt.mp h2]
    · rw [abs_of_nonpos (by linarith)] at h1; linarith
  · intro h1
    have h2 : a < z := by linarith
    rw [abs_of_pos (by linarith : 0 < z - a), abs_lt]
    constructor <;> linarith

theorem closer_iff' {a b z : α} (h : a < b) : |z - a| < |z - b| ↔ z < (a + b) / 2 := by
  constructor
  · intro h1
    by_contra h2
    have h3 : a < z := by linarith [not_lt.mp h2]
    rw [abs_of_pos (by linarith : 0 < z - a)] at h1
    rcases le_total z b with h4 | h4
    · rw [abs_of_nonpos (by linarith)] at h1; linarith [not_lt.mp h2]
    · rw [abs_of_nonneg (by linarith)] at h1; linarith
  · intro h1
    have h2 : z < b := by linarith
    rw [abs_of_neg (by linarith : z - b < 0), abs_lt]
    constructor <;> linarith

/-- C172, the galaxies of a node: those strictly between the first and the last node that are closer to the node than to
any other node. (One exactly halfway between two nodes belongs to none.) -/
theorem C172_bins (nodes z : List α) (hn : Increasing nodes) (i g : Nat) (hi : i < nodes.length) (hg : g < z.length) :
    g ∈ binMembers nodes z i ↔
      nodes.getD 0 0 < z.getD g 0 ∧ z.getD g 0 < nodes.getD (nodes.length - 1) 0 ∧
      ∀ k, k < nodes.length → k ≠ i → |z.getD g 0 - nodes.getD i 0| < |z.getD g 0 - nodes.getD k 0| := by
  unfold binMembers
  simp only [List.mem_filter, List.mem_range, hg, true_and, Bool.and_eq_true, decide_eq_true_eq]
  generalize z.getD g 0 = x
  have hlo0 : nodes.getD 0 0 ≤ binLo nodes i := by
    unfold binLo
    split_ifs with h
    · exact le_refl _
    · have := hn.le (Nat.zero_le (i - 1)) (by omega)
      have := hn.le (Nat.zero_le i) hi
      linarith
  have hhi0 : binHi nodes i ≤ nodes.getD (nodes.length - 1) 0 := by
    unfold binHi
    split_ifs with h
    · rw [h]
    · have := hn.le (show i ≤ nodes.length - 1 by omega) (by omega)
      have := hn.le (show i + 1 ≤ nodes.length - 1 by omega) (by omega)
      linarith
  constructor
  · rintro ⟨h1, h2⟩
    refine ⟨lt_of_le_of_lt hlo0 h1, lt_of_lt_of_le h2 hhi0, ?_⟩
    intro k hk hki
    rcases Nat.lt_or_ge k i with hlt | hge
    · refine (closer_iff (hn k i hlt hi)).mpr (lt_of_le_of_lt ?_ h1)
      unfold binLo
      rw [if_neg (by omega)]
      have := hn.le (show k ≤ i - 1 by omega) (by omega)
      linarith
    · have hlt : i < k := by omega
      refine (closer_iff' (hn i k hlt hk)).mpr (lt_of_lt_of_le h2 ?_)
      unfold binHi
      rw [if_neg (by omega)]
      have := hn.le (show i + 1 ≤ k by omega) hk
      linarith
  · rintro ⟨h1, h2, h3⟩
    constructor
    · unfold binLo
      split_ifs with h
      · exact h1
      · exact (closer_iff (hn (i - 1) i (by omega) hi)).mp (h3 (i - 1) (by omega) (by omega))
    · unfold binHi
      split_ifs with h
      · rw [h]; exact h2
      · exact (closer_iff' (hn i (i + 1) (by omega) (by omega))).mp (h3 (i + 1) (by omega) (by omega))

theorem fillNodes_length {β : Type} (nodes z : List α) (mincomp : Nat) (value : List Nat → β) (n i : Nat) (v : β) :
    (fillNodes nodes z mincomp value n i v).length = n := by
  induction n generalizing i v with
  | zero => rfl
  | succ n ih => simp [fillNodes, ih]

/-- Enough galaxies at a node. -/
def Enough (nodes z : List α) (mincomp i : Nat) : Prop := mincomp ≤ (binMembers nodes z i).length

theorem fillNodes_get {β : Type} (nodes z : List α) (mincomp : Nat) (value : List Nat → β) (n i : Nat) (v : β) (j : Nat)
    (hj : j < n) :
    (∀ k, k ≤ j → Enough nodes z mincomp (i + k) → (∀ l, k < l → l ≤ j → ¬ Enough nodes z mincomp (i + l)) →
      (fillNodes nodes z mincomp value n i v)[j]? = some (value (binMembers nodes z (i + k)))) ∧
    ((∀ k, k ≤ j → ¬ Enough nodes z mincomp (i + k)) → (fillNodes nodes z mincomp value n i v)[j]? = some v) := by
  induction n generalizing i v j with
  | zero => omega
  | succ n ih =>
    cases j with
    | zero =>
      simp only [fillNodes, List.getElem?_cons_zero]
      constructor
      · intro k hk he _
        have : k = 0 := by omega
        subst this
        rw [if_neg (by unfold Enough at he; rw [Nat.add_zero] at he; omega)]
        rfl
      · intro h
        have := h 0 (le_refl _)
        rw [if_pos (by unfold Enough at this; rw [Nat.add_zero] at this; omega)]
    | succ j =>
      simp only [fillNodes, List.getElem?_cons_succ]
      obtain ⟨a, b⟩ := ih (i + 1) (if (binMembers nodes z i).length < mincomp then v else value (binMembers nodes z i)) j
        (by omega)
      constructor
      · intro k hk he hl
        cases k with
        | zero =>
          rw [b ?_, if_neg (by unfold Enough at he; rw [Nat.add_zero] at he; omega)]
          · rfl
          · intro k hk
            have := hl (k + 1) (by omega) (by omega)
            rwa [show i + (k + 1) = i + 1 + k by omega] at this
        | succ k =>
          have := a k (by omega) (by rwa [show i + (k + 1) = i + 1 + k by omega] at he) (by
            intro l h1 h2
            have := hl (l + 1) (by omega) (by omega)
            rwa [show i + (l + 1) = i + 1 + l by omega] at this)
          rw [this, show i + (k + 1) = i + 1 + k by omega]
      · intro h
        rw [b ?_, if_pos]
        · have := h 0 (by omega)
          unfold Enough at this
          rw [Nat.add_zero] at this
          omega
        · intro k hk
          have := h (k + 1) (by omega)
          rwa [show i + (k + 1) = i + 1 + k by omega] at this

/-- The values of a node from its galaxies: median and median deviation, or intercept and slope, never above zero, of
the robust line. -/
def nodeValue (S : Stats α) (val xval : List α) (median : Bool) (u : List Nat) : α × α :=
  if median = true then
    (S.median (u.map fun g => val.getD g 0),
      S.median (u.map fun g => |val.getD g 0 - S.median (u.map fun g => val.getD g 0)|))
  else
    let line := S.linfit (u.map fun g => (xval.getD g 0, val.getD g 0))
    (line.2, if line.1 ≤ 0 then line.1 else 0)

/-- C172: starting values raise exactly if both or none of median and line are wanted. Otherwise there is one value per
node: that of its galaxies if they are enough, else that of the closest earlier node with enough galaxies, zero if
there is none. -/
theorem C172_startvals (S : Stats α) (nodes z val xval : List α) (median fit : Bool) (mincomp : Nat) :
    (startvals S nodes z val xval median fit mincomp = .error .runtimeError ↔ median = fit) ∧
    (median ≠ fit → ∃ out, startvals S nodes z val xval median fit mincomp = .ok out ∧ out.length = nodes.length ∧
      ∀ i, i < nodes.length →
        (∀ k, k ≤ i → mincomp ≤ (binMembers nodes z k).length →
          (∀ l, k < l → l ≤ i → (binMembers nodes z l).length < mincomp) →
          out[i]? = some (nodeValue S val xval median (binMembers nodes z k))) ∧
        ((∀ k, k ≤ i → (binMembers nodes z k).length < mincomp) → out[i]? = some (0, 0))) := by
  constructor
  · unfold startvals
    cases median <;> cases fit <;> simp
  · intro h
    have hc : ((!median && !fit) || (median && fit)) = false := by
      cases median <;> cases fit <;> simp_all
    have hv : (fun u : List Nat =>
        let v := u.map fun g => val.getD g 0
        if median then
          let m := S.median v
          (m, S.median (v.map fun x => |x - m|))
        else
          let p := S.linfit (u.map fun g => (xval.getD g 0, val.getD g 0))
          (p.2, min p.1 0)) = nodeValue S val xval median := by
      funext u
      unfold nodeValue
      cases median
      · simp [min_def]
      · simp [List.map_map, Function.comp_def]
    refine ⟨fillNodes nodes z mincomp (nodeValue S val xval median) nodes.length 0 (0, 0), ?_, ?_, ?_⟩
    · unfold startvals
      rw [hc, if_neg (by simp), hv]
    · exact fillNodes_length _ _ _ _ _ _ _
    · intro i hi
      obtain ⟨a, b⟩ := fillNodes_get nodes z mincomp (nodeValue S val xval median) nodes.length 0 (0, 0) i hi
      simp only [Nat.zero_add] at a b
      exact ⟨fun k h1 h2 h3 => a k h1 h2 fun l h4 h5 => by unfold Enough; have := h3 l h4 h5; omega,
        fun h => b fun k hk => by unfold Enough; have := h k hk; omega⟩

/-- Nodes and galaxies to which this applies: the second node has too few galaxies; 0.15 is halfway. -/
example : binMembers ([1 / 10, 2 / 10, 3 / 10] : List ℚ) [11 / 100, 12 / 100, 15 / 100, 29 / 100, 28 / 100] 0 = [0, 1] ∧
    binMembers ([1 / 10, 2 / 10, 3 / 10] : List ℚ) [11 / 100, 12 / 100, 15 / 100, 29 / 100, 28 / 100] 1 = [] ∧
    binMembers ([1 / 10, 2 / 10, 3 / 10] : List ℚ) [11 / 100, 12 / 100, 15 / 100, 29 / 100, 28 / 100] 2 = [3, 4] := by
  decide +kernel

/-! ## C173: starting slopes -/

theorem makeNodes_last [FloorRing α] {z0 z1 step : α} {mx : Option α} {nodes : List α} (hs : 0 < step)
    (h : Utilities.makeNodes z0 z1 step mx = .ok nodes) : nodes.getLast? = some z1 ∧ ∀ x ∈ nodes, x ≤ z1 := by
  unfold Utilities.makeNodes at h
  have hm : Utilities.nodeEnd z1 mx ≤ z1 := by
    unfold Utilities.nodeEnd
    cases mx with
    | none => exact le_refl _
    | some x =>
      simp only
      split_ifs
      · exact le_refl _
      · exact min_le_right _ _
  generalize Utilities.nodeEnd z1 mx = m at h hm
  have ha : ∀ x ∈ Utilities.arange z0 m step, x < m := by
    intro x hx
    unfold Utilities.arange at hx
    obtain ⟨i, hi, rfl⟩ := List.mem_map.mp hx
    rw [List.mem_range] at hi
    have h1 : (i : Int) < ⌈(m - z0) / step⌉ := by omega
    have h2 := Int.lt_ceil.mp h1
    rw [Int.cast_natCast, lt_div_iff₀ hs] at h2
    linarith
  simp only at h
  cases hl : (Utilities.arange z0 m step).getLast? with
  | none => rw [hl] at h; cases h
  | some last =>
    rw [hl] at h
    simp only [Except.ok.injEq] at h
    set l := Utilities.arange z0 m step
    have hne : l ≠ [] := by intro e; rw [e] at hl; cases hl
    set l' := (if step / 2 + 1 / 100 < m - last then l ++ [m] else l.set (l.length - 1) m) with hl'
    have h1 : l'.getLast? = some m := by
      rw [hl']
      split_ifs
      · simp
      · rw [List.getLast?_eq_getElem?, List.length_set, List.getElem?_set_self]
        have := List.length_pos_of_ne_nil hne
        omega
    have h2 : ∀ x ∈ l', x ≤ m := by
      intro x hx
      rw [hl'] at hx
      split_ifs at hx
      · rcases List.mem_append.mp hx with hx | hx
        · exact le_of_lt (ha x hx)
        · rw [List.mem_singleton] at hx; rw [hx]
      · rcases List.mem_or_eq_of_mem_set hx with hx | hx
        · exact le_of_lt (ha x hx)
        · rw [hx]
    rw [← h]
    split_ifs with hlt
    · refine ⟨by simp, ?_⟩
      intro x hx
      rcases List.mem_append.mp hx with hx | hx
      · exact le_trans (h2 x hx) hm
      · rw [List.mem_singleton] at hx; rw [hx]
    · have : m = z1 := le_antisymm hm (not_lt.mp hlt)
      rw [← this]
      exact ⟨h1, h2⟩

/-- C173: with the nodes of colors and of slopes of one color, made for the same range and highest useful node, the
starting slopes can always be looked up; there is one per slope node, and it is the slope at the first color node that
is not below the slope node. -/
theorem C173_slopes [FloorRing α] (z0 z1 cs ss : α) (mx : Option α) (cn sn sv : List α) (hc : 0 < cs) (hs : 0 < ss)
    (h1 : Utilities.makeNodes z0 z1 cs mx = .ok cn) (h2 : Utilities.makeNodes z0 z1 ss mx = .ok sn)
    (hv : sv.length = cn.length) (hinc : Increasing cn) :
    ∃ out, slopeStart cn sn sv = .ok out ∧ out.length = sn.length ∧
      ∀ (i k : Nat) (s : α), sn[i]? = some s → k < cn.length → s ≤ cn.getD k 0 →
        (∀ l, l < k → cn.getD l 0 < s) → out[i]? = sv[k]? := by
  obtain ⟨c1, -⟩ := makeNodes_last hc h1
  obtain ⟨-, s2⟩ := makeNodes_last hs h2
  have hcount : ∀ s ∈ sn, (cn.countP fun c => decide (c < s)) < cn.length := by
    intro s hs'
    refine lt_of_le_of_ne List.countP_le_length fun e => ?_
    rw [List.countP_eq_length] at e
    have := e z1 (List.mem_of_getLast? c1)
    simp only [decide_eq_true_eq] at this
    exact absurd (s2 s hs') (not_le.mpr this)
  have hfirst : ∀ (s : α) (k : Nat), k < cn.length → s ≤ cn.getD k 0 → (∀ l, l < k → cn.getD l 0 < s) →
      (cn.countP fun c => decide (c < s)) = k := by
    intro s k hk h3 h4
    rw [← List.take_append_drop k cn, List.countP_append]
    have e1 : (cn.take k).countP (fun c => decide (c < s)) = k := by
      have : (cn.take k).countP (fun c => decide (c < s)) = (cn.take k).length := by
        rw [List.countP_eq_length]
        intro x hx
        obtain ⟨l, hl⟩ := List.mem_iff_getElem?.mp hx
        have hlk : l < k := by
          have := (List.getElem?_eq_some_iff.mp hl).1
          rw [List.length_take] at this
          omega
        rw [List.getElem?_take_of_lt hlk] at hl
        have := h4 l hlk
        rw [List.getD_eq_getElem?_getD, hl] at this
        simpa using this
      rw [this, List.length_take]
      omega
    have e2 : (cn.drop k).countP (fun c => decide (c < s)) = 0 := by
      rw [List.countP_eq_zero]
      intro x hx
      obtain ⟨l, hl⟩ := List.mem_iff_getElem?.mp hx
      rw [List.getElem?_drop] at hl
      have hlt := (List.getElem?_eq_some_iff.mp hl).1
      have := hinc.le (show k ≤ k + l by omega) hlt
      rw [List.getD_eq_getElem?_getD (i := k + l), hl] at this
      simp only [decide_eq_true_eq, not_lt]
      exact le_trans h3 this
    rw [e1, e2, Nat.add_zero]
  unfold slopeStart
  clear h2 s2 hs
  induction sn with
  | nil => exact ⟨[], rfl, rfl, (fun i k s h => by simp at h)⟩
  | cons s sn ih =>
    obtain ⟨out, e1, e2, e3⟩ := ih fun s hs => hcount s (by simp [hs])
    have hlt : (cn.countP fun c => decide (c < s)) < sv.length := by rw [hv]; exact hcount s (by simp)
    refine ⟨sv[cn.countP fun c => decide (c < s)] :: out, ?_, by simp [e2], ?_⟩
    · rw [List.mapM_cons, e1, List.getElem?_eq_getElem hlt]
      rfl
    · intro i k s' hi hk h3 h4
      cases i with
      | zero =>
        rw [List.getElem?_cons_zero, Option.some.injEq] at hi
        subst hi
        rw [List.getElem?_cons_zero, ← List.getElem?_eq_getElem hlt, hfirst s k hk h3 h4]
      | succ i => exact e3 i k s' hi hk h3 h4

/-! ## C174: the covariance matrix -/

theorem foldl_diag (colors : List Nat) (s : Nat → α) (C : Cov α) (a b : Nat) :
    (colors.foldl (fun C j => recordDiag C j (s j)) C).sigma a b = (if a = b ∧ a ∈ colors then s a else C.sigma a b) ∧
    (colors.foldl (fun C j => recordDiag C j (s j)) C).amp a b = (if a = b ∧ a ∈ colors then s a * s a else C.amp a b) := by
  induction colors generalizing C with
  | nil => simp
  | cons j l ih =>
    rw [List.foldl_cons]
    obtain ⟨h1, h2⟩ := ih (recordDiag C j (s j))
    rw [h1, h2]
    unfold recordDiag set2
    by_cases hab : a = b
    · subst hab
      by_cases hl : a ∈ l
      · simp [hl]
      · by_cases hj : a = j
        · simp [hj]
        · simp [hl, hj]
    · have : ∀ j, ¬ (a = j ∧ b = j) := fun j h => hab (h.1.trans h.2.symm)
      simp [hab, this]

theorem foldl_offdiag (r : α) (l : List (Nat × Nat)) (hl : ∀ p ∈ l, p.1 ≠ p.2) (C : Cov α) (a b : Nat) :
    (l.foldl (offdiagStep r) C).sigma a a = C.sigma a a ∧
    (l.foldl (offdiagStep r) C).amp a b =
      if a ≠ b ∧ ((a, b) ∈ l ∨ (b, a) ∈ l) then r * C.sigma a a * C.sigma b b else C.amp a b := by
  induction l generalizing C with
  | nil => simp
  | cons p l ih =>
    obtain ⟨j, k⟩ := p
    have hjk : j ≠ k := hl (j, k) (by simp)
    rw [List.foldl_cons]
    have hsig : ∀ a, (offdiagStep r C (j, k)).sigma a a = C.sigma a a := by
      intro a
      unfold offdiagStep set2
      simp only
      rw [if_neg (by omega), if_neg (by omega)]
    obtain ⟨h1, h2⟩ := ih (fun p hp => hl p (by simp [hp])) (offdiagStep r C (j, k))
    refine ⟨by rw [h1, hsig], ?_⟩
    rw [h2, hsig, hsig]
    by_cases hin : a ≠ b ∧ ((a, b) ∈ l ∨ (b, a) ∈ l)
    · have h' : (a, b) ∈ (j, k) :: l ∨ (b, a) ∈ (j, k) :: l := by
        rcases hin.2 with h | h
        · exact Or.inl (by simp [h])
        · exact Or.inr (by simp [h])
      rw [if_pos hin, if_pos ⟨hin.1, h'⟩]
    · rw [if_neg hin]
      have hamp : (offdiagStep r C (j, k)).amp a b =
          if (a = j ∧ b = k) ∨ (a = k ∧ b = j) then r * C.sigma j j * C.sigma k k else C.amp a b := by
        unfold offdiagStep set2
        simp only
        simp only [hjk, hjk.symm, false_and, and_false, if_false, and_self, if_true]
        by_cases h1 : a = k ∧ b = j
        · rw [if_pos h1, if_pos (Or.inr h1)]
        · rw [if_neg h1]
          by_cases h2 : a = j ∧ b = k
          · rw [if_pos h2, if_pos (Or.inl h2)]
          · rw [if_neg h2, if_neg (by rintro (h | h); exact h2 h; exact h1 h)]
      rw [hamp]
      by_cases hq : (a = j ∧ b = k) ∨ (a = k ∧ b = j)
      · rw [if_pos hq, if_pos]
        · rcases hq with ⟨rfl, rfl⟩ | ⟨rfl, rfl⟩
          · rfl
          · ring
        · rcases hq with ⟨rfl, rfl⟩ | ⟨rfl, rfl⟩
          · exact ⟨hjk, Or.inl (by simp)⟩
          · exact ⟨hjk.symm, Or.inr (by simp)⟩
      · rw [if_neg hq, if_neg]
        rintro ⟨h3, h4⟩
        apply hin
        refine ⟨h3, ?_⟩
        rcases h4 with h4 | h4
        · rcases List.mem_cons.mp h4 with h4 | h4
          · rw [Prod.mk.injEq] at h4; exact absurd (Or.inl h4) hq
          · exact Or.inl h4
        · rcases List.mem_cons.mp h4 with h4 | h4
          · rw [Prod.mk.injEq] at h4; exact absurd (Or.inr ⟨h4.2, h4.1⟩) hq
          · exact Or.inr h4

/-- C174, the elements: whatever the order of the colors, the variance of a color is the square of its scatter and the
covariance of two colors is the configured correlation times the product of their scatters. -/
theorem C174_elements (ncol : Nat) (r : α) (colors : List Nat) (hc : ∀ j, j < ncol → j ∈ colors) (s : Nat → α)
    (a b : Nat) (ha : a < ncol) (hb : b < ncol) :
    (covariance ncol r colors s).amp a b = if a = b then s a ^ 2 else r * (s a * s b) := by
  unfold covariance
  simp only
  have hmem : ∀ p : Nat × Nat, p ∈ ((List.range ncol).flatMap fun j =>
      (List.range' (j + 1) (ncol - (j + 1))).map fun k => (j, k)) ↔ p.1 < p.2 ∧ p.2 < ncol := by
    rintro ⟨x, y⟩
    simp only [List.mem_flatMap, List.mem_range, List.mem_map, List.mem_range'_1, Prod.mk.injEq]
    constructor
    · rintro ⟨j, hj, k, hk, rfl, rfl⟩
      omega
    · rintro ⟨h1, h2⟩
      exact ⟨x, by omega, y, by omega, rfl, rfl⟩
  obtain ⟨-, h2⟩ := foldl_offdiag r _ (fun p hp => by have := (hmem p).mp hp; omega)
    (colors.foldl (fun C j => recordDiag C j (s j)) ⟨fun _ _ => 0, fun _ _ => 0⟩) a b
  rw [h2, (foldl_diag _ _ _ a b).2, (foldl_diag _ _ _ a a).1, (foldl_diag _ _ _ b b).1]
  by_cases hab : a = b
  · subst hab
    simp [hc a ha, pow_two]
  · rw [if_neg hab, if_pos ⟨hab, by rw [hmem, hmem]; simp only; omega⟩, if_pos ⟨rfl, hc a ha⟩, if_pos ⟨rfl, hc b hb⟩, mul_assoc]

theorem quad_form (n : Nat) (r : α) (s x : Nat → α) :
    (∑ a ∈ Finset.range n, ∑ b ∈ Finset.range n, x a * (if a = b then s a ^ 2 else r * (s a * s b)) * x b) =
      (1 - r) * ∑ a ∈ Finset.range n, (s a * x a) ^ 2 + r * (∑ a ∈ Finset.range n, s a * x a) ^ 2 := by
  rw [pow_two (∑ a ∈ Finset.range n, s a * x a), Finset.sum_mul_sum, Finset.mul_sum, Finset.mul_sum, ← Finset.sum_add_distrib]
  refine Finset.sum_congr rfl fun a ha => ?_
  have e : ∀ b ∈ Finset.range n, x a * (if a = b then s a ^ 2 else r * (s a * s b)) * x b =
      (if a = b then (1 - r) * (s a * x a) ^ 2 else 0) + r * (s a * x a * (s b * x b)) := by
    intro b _
    by_cases h : a = b
    · subst h
      simp only [if_true]
      ring
    · simp only [if_neg h]
      ring
  rw [Finset.sum_congr rfl e, Finset.sum_add_distrib, Finset.sum_ite_eq, if_pos ha, Finset.mul_sum]

/-- C174: the covariance matrix at every node is symmetric and positive semidefinite if the configured correlation lies
between zero and one; it is positive definite if the correlation is below one and the scatters are not zero. (Missing: a
negative correlation, see C174_false.) -/
theorem C174_covariance_partial (ncol : Nat) (r : α) (colors : List Nat) (hc : ∀ j, j < ncol → j ∈ colors) (s : Nat → α)
    (hr0 : 0 ≤ r) (hr1 : r ≤ 1) :
    (∀ a b, a < ncol → b < ncol → (covariance ncol r colors s).amp a b = (covariance ncol r colors s).amp b a) ∧
    (∀ x : Nat → α, 0 ≤ ∑ a ∈ Finset.range ncol, ∑ b ∈ Finset.range ncol, x a * (covariance ncol r colors s).amp a b * x b) ∧
    (r < 1 → (∀ j, j < ncol → s j ≠ 0) → ∀ x : Nat → α, (∃ j, j < ncol ∧ x j ≠ 0) →
      0 < ∑ a ∈ Finset.range ncol, ∑ b ∈ Finset.range ncol, x a * (covariance ncol r colors s).amp a b * x b) := by
  have e : ∀ x : Nat → α, (∑ a ∈ Finset.range ncol, ∑ b ∈ Finset.range ncol,
      x a * (covariance ncol r colors s).amp a b * x b) =
      (1 - r) * ∑ a ∈ Finset.range ncol, (s a * x a) ^ 2 + r * (∑ a ∈ Finset.range ncol, s a * x a) ^ 2 := by
    intro x
    rw [← quad_form]
    refine Finset.sum_congr rfl fun a ha => Finset.sum_congr rfl fun b hb => ?_
    rw [C174_elements ncol r colors hc s a b (Finset.mem_range.mp ha) (Finset.mem_range.mp hb)]
  have h1 : ∀ x : Nat → α, 0 ≤ ∑ a ∈ Finset.range ncol, (s a * x a) ^ 2 :=
    fun x => Finset.sum_nonneg fun a _ => sq_nonneg _
  refine ⟨?_, ?_, ?_⟩
  · intro a b ha hb
    rw [C174_elements ncol r colors hc s a b ha hb, C174_elements ncol r colors hc s b a hb ha]
    by_cases h : a = b
    · rw [h]
    · rw [if_neg h, if_neg fun h' => h h'.symm]; ring
  · intro x
    rw [e]
    exact add_nonneg (mul_nonneg (by linarith) (h1 x)) (mul_nonneg hr0 (sq_nonneg _))
  · rintro hr hs x ⟨j, hj, hx⟩
    rw [e]
    refine add_pos_of_pos_of_nonneg (mul_pos (by linarith) ?_) (mul_nonneg hr0 (sq_nonneg _))
    refine Finset.sum_pos' (fun a _ => sq_nonneg _) ⟨j, Finset.mem_range.mpr hj, ?_⟩
    have := mul_ne_zero (hs j hj) hx
    positivity

/-- C174 fails for negative correlations: nothing keeps the configured value from being below `-1 / (n - 1)`, and then
the matrix of `n` colors with equal scatters has a negative variance in the direction of the sum. -/
theorem C174_false (ncol : Nat) (r σ : α) (hn : 2 ≤ ncol) (hσ : σ ≠ 0) (hr : r < -1 / ((ncol : α) - 1)) (colors : List Nat)
    (hc : ∀ j, j < ncol → j ∈ colors) :
    ∃ x : Nat → α, ∑ a ∈ Finset.range ncol, ∑ b ∈ Finset.range ncol,
      x a * (covariance ncol r colors (fun _ => σ)).amp a b * x b < 0 := by
  refine ⟨fun _ => 1, ?_⟩
  have e : (∑ a ∈ Finset.range ncol, ∑ b ∈ Finset.range ncol,
      (1 : α) * (covariance ncol r colors (fun _ => σ)).amp a b * 1) =
      (1 - r) * ∑ a ∈ Finset.range ncol, (σ * 1) ^ 2 + r * (∑ a ∈ Finset.range ncol, σ * 1) ^ 2 := by
    rw [← quad_form ncol r (fun _ => σ) (fun _ => 1)]
    refine Finset.sum_congr rfl fun a ha => Finset.sum_congr rfl fun b hb => ?_
    rw [C174_elements ncol r colors hc _ a b (Finset.mem_range.mp ha) (Finset.mem_range.mp hb)]
  rw [e]
  simp only [mul_one, Finset.sum_const, Finset.card_range, nsmul_eq_mul]
  have h2 : (2 : α) ≤ (ncol : α) := by exact_mod_cast hn
  have h3 : 0 < (ncol : α) - 1 := by linarith
  rw [lt_div_iff₀ h3] at hr
  have hs : 0 < σ ^ 2 := by positivity
  have e2 : (1 - r) * ((ncol : α) * σ ^ 2) + r * ((ncol : α) * σ) ^ 2 =
      ((ncol : α) * σ ^ 2) * (1 + r * ((ncol : α) - 1)) := by ring
  rw [e2]
  exact mul_neg_of_pos_of_neg (by positivity) (by linarith)

/-- Four colors in the order of the calibration with the default correlation. -/
example : ∀ j, j < 4 → j ∈ (order 5 2).map Step.col := by decide

/-! ## C175: the volume factor -/

/-- C175: if comoving distances (luminosity distance over one plus redshift) grow, but less and less, with redshift, the
volume factor is positive, is one at the highest redshift, and neither exceeds one nor decreases below it. -/
theorem C175_volume (dl : α → α) (zref : α) (hmono : ∀ a b, a < b → dl a / (1 + a) < dl b / (1 + b))
    (hconc : ∀ a b, a ≤ b → dl (b + 1 / 100) / (1 + (b + 1 / 100)) - dl b / (1 + b) ≤
      dl (a + 1 / 100) / (1 + (a + 1 / 100)) - dl a / (1 + a)) :
    volumeFactor dl zref zref = 1 ∧ (∀ z, 0 < volumeFactor dl zref z) ∧ (∀ z, z ≤ zref → volumeFactor dl zref z ≤ 1) ∧
    ∀ a b, a ≤ b → volumeFactor dl zref a ≤ volumeFactor dl zref b := by
  have hpos : ∀ z, 0 < dl (z + 1 / 100) / (1 + (z + 1 / 100)) - dl z / (1 + z) := by
    intro z
    have : (0 : α) < 1 / 100 := by positivity
    have := hmono z (z + 1 / 100) (by linarith)
    linarith
  unfold volumeFactor
  refine ⟨div_self (ne_of_gt (hpos zref)), fun z => div_pos (hpos zref) (hpos z), ?_, ?_⟩
  · intro z hz
    rw [div_le_one (hpos z)]
    exact hconc z zref hz
  · intro a b hab
    exact div_le_div_of_nonneg_left (le_of_lt (hpos zref)) (hpos b) (hconc a b hab)

/-! ## C176: the likelihood cut of the corrections -/

open Finders in
theorem threshold_spec (argsort : List α → List Nat) (hA : Argsort argsort) (gals : List (ZGal α)) (hg : gals ≠ []) :
    ∃ t, threshold argsort gals = some t ∧ (∃ g ∈ gals, g.lkhd = t) ∧
      (gals.countP fun g => decide (g.lkhd < t)) ≤ gals.length / 20 ∧
      gals.length / 20 + 1 ≤ gals.countP fun g => decide (g.lkhd ≤ t) := by
  have hpos := List.length_pos_of_ne_nil hg
  set l := gals.map ZGal.lkhd with hl
  have hlen : l.length = gals.length := by simp [hl]
  obtain ⟨hp, hsort⟩ := hA l
  have hk : gals.length / 20 < (takeRows l (argsort l)).length := by
    rw [(takeRows_perm l _ hp).length_eq, hlen]
    omega
  have hi : ∀ i ∈ argsort l, i < l.length := fun i h => List.mem_range.mp (hp.mem_iff.mp h)
  have hget : threshold argsort gals = (takeRows l (argsort l))[gals.length / 20]? := by
    rw [Centering.takeRows_getElem? l _ hi]
    rfl
  refine ⟨_, hget.trans (List.getElem?_eq_getElem hk), ?_, ?_, ?_⟩
  · have : (takeRows l (argsort l))[gals.length / 20] ∈ l :=
      (takeRows_perm l _ hp).mem_iff.mp (List.getElem_mem hk)
    obtain ⟨g, h1, h2⟩ := List.mem_map.mp this
    exact ⟨g, h1, h2⟩
  all_goals
    generalize ht : (takeRows l (argsort l))[gals.length / 20] = t
    generalize hs : takeRows l (argsort l) = s at hk hsort ht
    have hperm : s.Perm l := hs ▸ takeRows_perm l _ hp
  · have e : (gals.countP fun g => decide (g.lkhd < t)) = s.countP fun x => decide (x < t) := by
      rw [hperm.countP_eq, hl, List.countP_map]
      rfl
    rw [e, ← List.take_append_drop (gals.length / 20) s, List.countP_append]
    have e2 : (s.drop (gals.length / 20)).countP (fun x => decide (x < t)) = 0 := by
      rw [List.countP_eq_zero]
      intro x hx
      obtain ⟨j, hj⟩ := List.mem_iff_getElem?.mp hx
      rw [List.getElem?_drop] at hj
      obtain ⟨hj1, hj2⟩ := List.getElem?_eq_some_iff.mp hj
      simp only [decide_eq_true_eq, not_lt]
      rw [← ht, ← hj2]
      rcases Nat.eq_zero_or_pos j with h0 | h0
      · subst h0; exact le_refl _
      · exact List.pairwise_iff_getElem.mp hsort _ _ hk hj1 (by omega)
    rw [e2, Nat.add_zero]
    exact le_trans List.countP_le_length (by simp)
  · have e : (gals.countP fun g => decide (g.lkhd ≤ t)) = s.countP fun x => decide (x ≤ t) := by
      rw [hperm.countP_eq, hl, List.countP_map]
      rfl
    rw [e, ← List.take_append_drop (gals.length / 20 + 1) s, List.countP_append]
    have e2 : (s.take (gals.length / 20 + 1)).countP (fun x => decide (x ≤ t)) = gals.length / 20 + 1 := by
      have : (s.take (gals.length / 20 + 1)).length = gals.length / 20 + 1 := by rw [List.length_take]; omega
      conv_rhs => rw [← this]
      rw [List.countP_eq_length]
      intro x hx
      obtain ⟨j, hj⟩ := List.mem_iff_getElem?.mp hx
      have hjl := (List.getElem?_eq_some_iff.mp hj).1
      rw [this] at hjl
      rw [List.getElem?_take_of_lt hjl] at hj
      obtain ⟨hj1, hj2⟩ := List.getElem?_eq_some_iff.mp hj
      simp only [decide_eq_true_eq]
      rw [← ht, ← hj2]
      rcases Nat.lt_or_ge j (gals.length / 20) with h0 | h0
      · exact List.pairwise_iff_getElem.mp hsort _ _ hj1 hk h0
      · have : j = gals.length / 20 := by omega
        subst this
        exact le_refl _
    rw [e2]
    exact Nat.le_add_right _ _

/-- C176: the galaxies left out of the corrections because of their likelihood are the `n / 20 + 1` least likely ones if
the likelihoods are all different; in general these are left out, and no galaxy that is kept is less likely than one
left out for its likelihood. (Missing: galaxies of equal likelihood, see C176_false.) -/
theorem C176_cut_partial (argsort : List α → List Nat) (hA : Finders.Argsort argsort) (gals : List (ZGal α)) (hg : gals ≠ []) :
    ∃ t, threshold argsort gals = some t ∧
      (∀ g, g ∈ guse t gals ↔ g ∈ gals ∧ t < g.lkhd ∧ |g.z - g.zred| < 2 * g.zredE) ∧
      gals.length / 20 + 1 ≤ (gals.countP fun g => decide (g.lkhd ≤ t)) ∧
      (gals.Pairwise (fun a b => a.lkhd ≠ b.lkhd) →
        (gals.countP fun g => decide (g.lkhd ≤ t)) = gals.length / 20 + 1) := by
  obtain ⟨t, h1, -, h3, h4⟩ := threshold_spec argsort hA gals hg
  refine ⟨t, h1, ?_, h4, ?_⟩
  · intro g
    unfold guse
    simp [and_assoc]
  · intro hd
    refine le_antisymm ?_ h4
    have hone : ∀ l : List (ZGal α), l.Pairwise (fun a b => a.lkhd ≠ b.lkhd) →
        (l.countP fun g => decide (g.lkhd ≤ t)) ≤ (l.countP fun g => decide (g.lkhd < t)) + 1 := by
      intro l hl
      have hsplit : (l.countP fun g => decide (g.lkhd ≤ t)) =
          (l.countP fun g => decide (g.lkhd < t)) + (l.countP fun g => decide (g.lkhd = t)) := by
        clear hl
        induction l with
        | nil => rfl
        | cons a l ih =>
          simp only [List.countP_cons, ih]
          rcases lt_trichotomy a.lkhd t with h | h | h
          · simp [h, le_of_lt h, ne_of_lt h]; omega
          · simp [h]; omega
          · simp [not_le.mpr h, not_lt.mpr (le_of_lt h), ne_of_gt h]
      have heq : (l.countP fun g => decide (g.lkhd = t)) ≤ 1 := by
        clear hsplit
        induction l with
        | nil => simp
        | cons a l ih =>
          rw [List.pairwise_cons] at hl
          rw [List.countP_cons]
          by_cases h : a.lkhd = t
          · have : (l.countP fun g => decide (g.lkhd = t)) = 0 := by
              rw [List.countP_eq_zero]
              intro b hb
              simp only [decide_eq_true_eq]
              intro hbt
              exact hl.1 b hb (h.trans hbt.symm)
            rw [this]
            simp [h]
          · have := ih hl.2
            simpa [h] using this
      omega
    have := hone gals hd
    omega

/-- C176 fails for equal likelihoods: if all galaxies have the same likelihood, none is left for the corrections, however
many there are. -/
theorem C176_false (argsort : List α → List Nat) (hA : Finders.Argsort argsort) (gals : List (ZGal α)) (hg : gals ≠ [])
    (l0 : α) (h : ∀ g ∈ gals, g.lkhd = l0) : ∃ t, threshold argsort gals = some t ∧ guse t gals = [] := by
  obtain ⟨t, h1, ⟨g, h2, h2'⟩, -⟩ := threshold_spec argsort hA gals hg
  refine ⟨t, h1, ?_⟩
  unfold guse
  rw [List.filter_eq_nil_iff]
  intro g' hg'
  rw [h g' hg', ← h2', h g h2]
  simp

/-- Twenty galaxies with different likelihoods: the two least likely are below the cut. -/
example : ((List.range 20).map fun i => (⟨1 / 2, 1 / 2, 1 / 50, (i : ℚ), 9 / 10, 18⟩ : ZGal ℚ)).Pairwise
    (fun a b => a.lkhd ≠ b.lkhd) := by
  decide +kernel

/-! ## C177: the corrections -/

/-- What is used of the exponential: values of negative numbers lie between zero and one. -/
def ExpOK (exp : α → α) : Prop := ∀ x, x < 0 → 0 < exp x ∧ exp x < 1

theorem variance_nonneg (x : List α) : 0 ≤ variance x := by
  unfold variance
  simp only
  refine div_nonneg (List.sum_nonneg ?_) (Nat.cast_nonneg _)
  intro y hy
  obtain ⟨v, -, rfl⟩ := List.mem_map.mp hy
  exact mul_self_nonneg _

theorem sum_sq_dev (x : List α) (m : α) : (x.map fun v => (v - m) * (v - m)).sum = (x.map fun v => v ^ 2).sum - 2 * m * x.sum + x.length * m ^ 2 := by
  induction x with
  | nil => simp
  | cons a x ih => simp only [List.map_cons, List.sum_cons, ih, List.length_cons, Nat.cast_add, Nat.cast_one]; ring

/-- C177.  The width of the outliers at a node starts from the less probable half of its galaxies: the mean square of their residuals without the square
of the mean. -/
theorem C177_outliers (argsort : List α → List Nat) (hA : Finders.Argsort argsort) (use : List (ZGal α)) (u : List Nat) :
    ∃ low high : List (ZGal α), (low ++ high).Perm (u.filterMap fun i => use[i]?) ∧ low.length = (u.filterMap fun i => use[i]?).length / 2 ∧
      (∀ a ∈ low, ∀ b ∈ high, a.prob ≤ b.prob) ∧
      outlierStart argsort use u = (low.map fun g => (g.z - g.zred) ^ 2).sum / low.length - ((low.map fun g => g.z - g.zred).sum / low.length) ^ 2 := by
  set gs := u.filterMap fun i => use[i]? with hgs
  obtain ⟨hp, hs⟩ := hA (gs.map ZGal.prob)
  rw [List.length_map] at hp
  rw [Finders.takeRows_map] at hs
  set rows := Finders.takeRows gs (argsort (gs.map ZGal.prob)) with hrows
  have hperm : rows.Perm gs := Finders.takeRows_perm _ _ hp
  have hget : ∀ idx : List Nat, (∀ i ∈ idx, i < gs.length) → ∀ k, (idx.take k).filterMap (fun i => gs[i]?) = (idx.filterMap fun i => gs[i]?).take k := by
    intro idx hidx k
    induction idx generalizing k with
    | nil => simp
    | cons a t ih =>
      cases k with
      | zero => simp
      | succ k =>
        have ha := List.getElem?_eq_getElem (hidx a (by simp))
        rw [List.take_succ_cons, List.filterMap_cons_some ha, List.filterMap_cons_some ha, List.take_succ_cons, ih (fun i hi => hidx i (by simp [hi]))]
  have hlow := hget (argsort (gs.map ZGal.prob)) (fun i hi => List.mem_range.mp (hp.subset hi)) (gs.length / 2)
  have hlen : (rows.take (gs.length / 2)).length = gs.length / 2 := by
    rw [List.length_take, hperm.length_eq]; omega
  refine ⟨rows.take (gs.length / 2), rows.drop (gs.length / 2), by rw [List.take_append_drop]; exact hperm, hlen, ?_, ?_⟩
  · rw [← List.take_append_drop (gs.length / 2) rows, List.map_append, List.pairwise_append] at hs
    intro a ha b hb
    exact hs.2.2 _ (List.mem_map.mpr ⟨a, ha, rfl⟩) _ (List.mem_map.mpr ⟨b, hb, rfl⟩)
  · have e : outlierStart argsort use u = variance ((rows.take (gs.length / 2)).map fun g => g.z - g.zred) := by
      rw [outlierStart, ← hgs, hlow]; rfl
    rw [e]
    generalize rows.take (gs.length / 2) = low
    simp only [variance, List.length_map]
    rw [sum_sq_dev, List.map_map, List.length_map]
    by_cases h0 : (low.length : α) = 0
    · rw [h0]; simp
    · have : ((fun v : α => v ^ 2) ∘ fun g : ZGal α => g.z - g.zred) = fun g => (g.z - g.zred) ^ 2 := rfl
      rw [this]
      field_simp
      ring

theorem fillNodes_mem {β : Type} (P : β → Prop) (nodes z : List α) (mincomp : Nat) (value : List Nat → β) (n i : Nat)
    (v : β) (hv : P v) (h : ∀ u, P (value u)) : ∀ x ∈ fillNodes nodes z mincomp value n i v, P x := by
  induction n generalizing i v with
  | zero => intro x hx; cases hx
  | succ n ih =>
    intro x hx
    have hp : P (if (binMembers nodes z i).length < mincomp then v else value (binMembers nodes z i)) := by
      split_ifs
      · exact hv
      · exact h _
    rcases List.mem_cons.mp hx with rfl | hx
    · exact hp
    · exact ih _ _ hp x hx

/-- What enters the fit of the corrections for a galaxy. `along`: the redshift along which the correction goes, the true
one in the first mode and the photometric one in the second. -/
def rowOf (E : CEnv α) (mode2 : Bool) (t : α) (g : ZGal α) : Fitters.CGal α :=
  { z := if mode2 = true then g.zred else g.z
    dz := g.z - g.zred
    err := g.zredE
    prob := if g.prob ≤ 99 / 100 then g.prob else 99 / 100
    dmag := g.refmag - E.pivot g.z
    w := 1 / (E.exp (5 * (t - g.lkhd)) + 1) }

/-- C177, no galaxies: without galaxies that pass the cuts there is no threshold, and the corrections end with an
IndexError. -/
theorem C177_empty (E : CEnv α) (mode2 : Bool) : calcCorrections E mode2 [] = .error .indexError := by
  have h : threshold E.argsort ([] : List (ZGal α)) = none := by
    unfold threshold
    cases (E.argsort (([] : List (ZGal α)).map ZGal.lkhd))[([] : List (ZGal α)).length / 20]? <;> simp
  unfold calcCorrections
  rw [h]

/-- C177: the corrections of both modes exist for every catalog that is not empty. They are fitted to the galaxies that
pass the cuts, with weights between one half and one and probabilities of at most 0.99; offsets have one value per
offset node, slopes and error factors one per slope node; the error factors lie between 0.1 and 2; the slopes are zero
if none are wanted; and the result is at least as likely as offsets from the medians, no slopes and error factors of
one. -/
theorem C177_corrections (E : CEnv α) (hM : Fitters.MinOK E.minimize) (hA : Finders.Argsort E.argsort) (hE : ExpOK E.exp)
    (mode2 : Bool) (gals : List (ZGal α)) (hg : gals ≠ []) (hc : E.corrZ ≠ []) (hs : E.slopeZ ≠ []) :
    ∃ (t : α) (F : Fitters.CFitter α) (v v0 : Fitters.CVals α), threshold E.argsort gals = some t ∧
      F = ⟨E.corrZ, E.slopeZ, E.slopeZ, E.slopeZ,
        (gals.filter fun g => decide (t < g.lkhd ∧ |g.z - g.zred| < 2 * g.zredE)).map (rowOf E mode2 t)⟩ ∧
      (∀ g ∈ F.gals, 1 / 2 < g.w ∧ g.w < 1 ∧ g.prob ≤ 99 / 100) ∧
      calcCorrections E mode2 gals = .ok v ∧
      v.mean.length = E.corrZ.length ∧ v.slope.length = E.slopeZ.length ∧ v.r.length = E.slopeZ.length ∧
      (∀ x ∈ v.r, 1 / 10 ≤ x ∧ x ≤ 2) ∧ (E.noslope = true → ∀ x ∈ v.slope, x = 0) ∧
      v0.slope = List.replicate E.slopeZ.length 0 ∧ v0.r = List.replicate E.slopeZ.length 1 ∧
      (∃ l, startvals E.stats E.corrZ (gals.map ZGal.z) (gals.map fun g => g.z - g.zred) [] true false 3 = .ok l ∧
        v0.mean = l.map Prod.fst) ∧
      Fitters.specC E.fns F v ≤ Fitters.specC E.fns F v0 := by
  obtain ⟨t, h1, -, -, -⟩ := threshold_spec E.argsort hA gals hg
  have hF : corrFitter E mode2 t gals = ⟨E.corrZ, E.slopeZ, E.slopeZ, E.slopeZ,
      (gals.filter fun g => decide (t < g.lkhd ∧ |g.z - g.zred| < 2 * g.zredE)).map (rowOf E mode2 t)⟩ := by
    unfold corrFitter guse
    congr 1
    have e : (fun g : ZGal α => decide (t < g.lkhd) && decide (|g.z - g.zred| < 2 * g.zredE)) =
        fun g => decide (t < g.lkhd ∧ |g.z - g.zred| < 2 * g.zredE) := by
      funext g
      simp
    rw [e]
    refine List.map_congr_left fun g _ => ?_
    unfold rowOf zOf
    have e2 : (t - g.lkhd) / (1 / 5) = 5 * (t - g.lkhd) := by ring
    simp only [min_def, e2]
  obtain ⟨l, e1, e2, -⟩ := (C172_startvals E.stats E.corrZ (gals.map ZGal.z) (gals.map fun g => g.z - g.zred) [] true
    false 3).2 (by simp)
  have hsz : Fitters.CSized (corrFitter E mode2 t gals) (corrStart E mode2 t gals) := by
    unfold corrStart corrFitter
    constructor
    · simp only [e1, List.length_map]; exact e2
    · simp
    · simp
    · simp only [fillNodes_length]
    · intro x hx
      have := List.eq_of_mem_replicate hx
      rw [this]
      norm_num
    · intro x hx
      exact fillNodes_mem (fun y : α => 0 ≤ y) _ _ _ _ _ _ _ (le_refl _) (fun u => variance_nonneg _) x hx
  obtain ⟨v, k1, k2, k3, k4⟩ := Fitters.C167_corrections E.minimize hM E.fns (corrFitter E mode2 t gals) E.noslope
    (corrStart E mode2 t gals) hsz ⟨hc, hs, hs, hs⟩
  refine ⟨t, corrFitter E mode2 t gals, v, corrStart E mode2 t gals, h1, hF, ?_, ?_, k2.mean, k2.slope, k2.r, k2.rIn, ?_,
    rfl, rfl, ⟨l, e1, ?_⟩, k3⟩
  · rw [hF]
    intro g hg'
    simp only [List.mem_map, List.mem_filter, decide_eq_true_eq] at hg'
    obtain ⟨g0, ⟨-, hlt, -⟩, rfl⟩ := hg'
    obtain ⟨a, b⟩ := hE (5 * (t - g0.lkhd)) (by linarith)
    unfold rowOf
    simp only
    refine ⟨?_, ?_, ?_⟩
    · rw [div_lt_div_iff₀ (by norm_num) (by linarith)]
      linarith
    · rw [div_lt_one (by linarith)]
      linarith
    · split_ifs with h
      · exact h
      · exact le_refl _
  · unfold calcCorrections
    rw [h1]
    simp only [k1]
  · intro hn x hx
    rw [k4 hn] at hx
    exact List.eq_of_mem_replicate hx
  · unfold corrStart
    simp only [e1]

/-- An exponential for the contract over the rationals. -/
example : ExpOK (fun x : ℚ => if x < 0 then 1 / 2 else 1) := by
  intro x hx
  simp only [if_pos hx]
  norm_num

/-! ## C178: the parameter file -/

variable {β γ ζ : Type}

/-- The finished parameters of a red sequence. -/
def finished (zreds : β → ζ) (corr : Bool → ζ → γ) (seq : β) : Pars β γ :=
  ⟨seq, some (corr false (zreds seq)), some (corr true (zreds seq))⟩

/-- C178: a run that starts without a parameter file and is not interrupted leaves a file with one table, the red sequence
that was fitted and both corrections, computed from the redshifts of this red sequence; later sessions leave it alone,
wherever they are interrupted. (Missing: interrupted runs and runs with an old file, see C178_false.) -/
theorem C178_file_partial (zreds : β → ζ) (corr : Bool → ζ → γ) (seq : β) :
    session zreds corr seq [] 2 = [finished zreds corr seq] ∧
    ∀ (later : List (β × Nat)),
      later.foldl (fun f s => session zreds corr s.1 f s.2) (session zreds corr seq [] 2) = [finished zreds corr seq] := by
  have h : session zreds corr seq [] 2 = [finished zreds corr seq] := rfl
  refine ⟨h, ?_⟩
  intro later
  rw [h]
  induction later with
  | nil => rfl
  | cons s l ih => exact ih

/-- C178 fails if a run is interrupted between its two writes: the file has no corrections, and no later session adds
them. -/
theorem C178_false_crash (zreds : β → ζ) (corr : Bool → ζ → γ) (seq : β) (later : List (β × Nat)) :
    later.foldl (fun f s => session zreds corr s.1 f s.2) (session zreds corr seq [] 1) = [⟨seq, none, none⟩] := by
  have h : session zreds corr seq [] 1 = [⟨seq, none, none⟩] := rfl
  rw [h]
  induction later with
  | nil => rfl
  | cons s l ih => exact ih

/-- C178 fails for a direct run with an old parameter file: the redshifts from which the corrections are computed are
those of the old red sequence, although the file then has the new one. -/
theorem C178_false_old (zreds : β → ζ) (corr : Bool → ζ → γ) (seq : β) (old : Pars β γ) (rest : ParFile β γ) :
    (runFile zreds corr seq (old :: rest)).getLast? =
      some [⟨seq, some (corr false (zreds old.seq)), some (corr true (zreds old.seq))⟩] ∧
    (corr false (zreds old.seq) ≠ corr false (zreds seq) →
      (runFile zreds corr seq (old :: rest)).getLast? ≠ some [finished zreds corr seq]) := by
  refine ⟨rfl, fun h e => h ?_⟩
  have e' : some [(⟨seq, some (corr false (zreds old.seq)), some (corr true (zreds old.seq))⟩ : Pars β γ)] =
      some [finished zreds corr seq] := e
  simp only [finished, Option.some.injEq, List.cons.injEq, Pars.mk.injEq] at e'
  exact e'.1.2.1

/-- Red sequences whose redshifts give different corrections. -/
example : (runFile (fun n : Nat => n) (fun b n => if b then n else n + 1) 3 [⟨1, none, none⟩]).getLast? =
    some [⟨3, some 2, some 1⟩] := rfl

end Redmapper.RedSeqCal
