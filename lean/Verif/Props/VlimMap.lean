/-
Properties C338-C340: limits in other bands and the map of a volume limit.
-/
import Mathlib.Tactic.Linarith
import Mathlib.Tactic.FieldSimp
import Mathlib.Tactic.NormNum
import Mathlib.Tactic.Ring
import Verif.Model.VlimMap
import Verif.Props.Mask

set_option linter.unusedSectionVars false

namespace Redmapper.VlimMap

open Redmapper.Utilities (ssRight Grid)
open Redmapper.Mask (zmaxOf vlimPixel)

variable {α : Type} [Field α] [LinearOrder α] [IsStrictOrderedRing α] [FloorRing α]

/-! ## C338 -/

/-- Magnitudes of a galaxy on the red sequence of row `k` with reference magnitude `lim`. -/
def OnSequence (S : Seq α) (ref k : Nat) (lim : α) (m : Nat → α) : Prop :=
  m ref = lim ∧ ∀ j, m j - m (j + 1) = S.c k j + S.slope k j * (lim - S.pivot k)

/-- **C338** (partial): the limit in a band is the magnitude in that band of a galaxy on the red sequence that has the limiting magnitude in the reference
band, for the row that is used.  Missing: the row is not the one of the redshift (`C338_false`). -/
theorem C338_partial (S : Seq α) (ref b k : Nat) (lim : α) (m : Nat → α) (hm : OnSequence S ref k lim m) : bandLimit S ref b k lim = m b := by
  obtain ⟨h0, h1⟩ := hm
  unfold bandLimit
  by_cases he : b = ref
  · rw [if_pos he, he, h0]
  · rw [if_neg he]
    by_cases hl : b < ref
    · rw [if_pos hl, List.foldl_map]
      have key : ∀ n, n ≤ ref → (List.range n).foldl (fun t i => t + color S k (ref - 1 - i) lim) lim = m (ref - n) := by
        intro n
        induction n with
        | zero => intro _; simpa using h0.symm
        | succ n ih =>
          intro hn
          rw [List.range_succ, List.foldl_append, ih (by omega)]
          have e := h1 (ref - 1 - n)
          rw [show ref - 1 - n + 1 = ref - n by omega] at e
          simp only [List.foldl_cons, List.foldl_nil, color]
          rw [← e, show ref - (n + 1) = ref - 1 - n by omega]
          ring
      rw [key (ref - b) (by omega)]
      congr 1
      omega
    · rw [if_neg hl]
      have key : ∀ n, (List.range' ref n).foldl (fun t j => t - color S k j lim) lim = m (ref + n) := by
        intro n
        induction n with
        | zero => simpa using h0.symm
        | succ n ih =>
          rw [List.range'_concat, List.foldl_append, ih]
          have e := h1 (ref + n)
          simp only [List.foldl_cons, List.foldl_nil, color, one_mul]
          rw [← e, show ref + (n + 1) = ref + n + 1 by omega]
          ring
      rw [key (b - ref)]
      congr 1
      omega

/-- **C338**, the row: it is the first one whose redshift is above, so that the one before is not. -/
theorem C338_row (S : Seq α) (hs : S.z.Pairwise (· < ·)) (z : α) :
    (∀ x, S.z[rowAt S z]? = some x → z < x) ∧ (∀ i x, i < rowAt S z → S.z[i]? = some x → x ≤ z) := by
  unfold rowAt ssRight
  generalize S.z = l at *
  induction l with
  | nil => constructor <;> simp
  | cons a l ih =>
    obtain ⟨ih1, ih2⟩ := ih (List.pairwise_cons.mp hs).2
    by_cases ha : a ≤ z
    · rw [List.takeWhile_cons_of_pos (by simpa using ha)]
      refine ⟨fun x hx => ih1 x (by simpa using hx), fun i x hi hx => ?_⟩
      cases i with
      | zero => simp at hx; exact hx ▸ ha
      | succ i => exact ih2 i x (by simpa using hi) (by simpa using hx)
    · rw [List.takeWhile_cons_of_neg (by simpa using ha)]
      refine ⟨fun x hx => ?_, fun i x hi => absurd hi (by simp)⟩
      simp at hx
      exact hx ▸ not_le.mp ha

/-- **C338** is false at every redshift of the table: the colors are those of the row after. -/
theorem C338_false (S : Seq α) (hs : S.z.Pairwise (· < ·)) (i : Nat) (z : α) (hi : S.z[i]? = some z) : rowAt S z = i + 1 := by
  unfold rowAt ssRight
  generalize S.z = l at *
  induction l generalizing i with
  | nil => simp at hi
  | cons a l ih =>
    obtain ⟨h1, h2⟩ := List.pairwise_cons.mp hs
    cases i with
    | zero =>
      simp at hi
      subst hi
      rw [List.takeWhile_cons_of_pos (by simp)]
      cases l with
      | nil => rfl
      | cons b l => rw [List.takeWhile_cons_of_neg (by simpa using h1 b (by simp))]; rfl
    | succ i =>
      have hi' : l[i]? = some z := by simpa using hi
      rw [List.takeWhile_cons_of_pos (by simpa using (h1 z (List.mem_of_getElem? hi')).le), List.length_cons, ih i h2 hi']

/-- A table with two redshifts and one color: at the first redshift the limit in the other band has the color of the second. -/
example : limits (⟨[1 / 10, 2 / 10], fun k _ => k, fun _ _ => 0, fun _ => 20⟩ : Seq ℚ) 1 0 [1 / 10] [20] = [21] ∧
    OnSequence (⟨[1 / 10, 2 / 10], fun k _ => k, fun _ _ => 0, fun _ => 20⟩ : Seq ℚ) 1 0 20 (fun _ => 20) := by
  refine ⟨by decide +kernel, rfl, fun j => ?_⟩
  simp

/-! ## C339 -/

theorem step_min (z a : α) : (if a < z then a else z) = min z a := by
  by_cases h : a < z
  · rw [if_pos h, min_eq_right h.le]
  · rw [if_neg h, min_eq_left (not_lt.mp h)]

/-- The order of the further maps does not matter for a pixel. -/
theorem vlimPixel_perm (zbins : List α) (first : List α × α) {more more' : List (List α × α)} (h : more.Perm more') :
    vlimPixel zbins first more = vlimPixel zbins first more' := by
  unfold vlimPixel
  simp only [step_min]
  have : RightCommutative (fun (z : α) (m : List α × α) => min z (zmaxOf zbins m.1 m.2)) :=
    ⟨fun a b c => min_right_comm _ _ _⟩
  rw [h.foldl_eq]

theorem build_sublist (zbins lims : List α) (S : Seq α) (ref : Nat) (depth : List (Nat × α × α)) (more : List (Further α)) :
    ((build zbins lims S ref depth more).map Prod.fst).Sublist (depth.map Prod.fst) := by
  unfold build
  induction depth with
  | nil => simp
  | cons d l ih =>
    rw [List.filterMap_cons]
    cases vlimPixel zbins (lims, d.2.2) (more.map fun m => (limits S ref m.band zbins lims, limOf m d.1)) with
    | none => exact ih.cons _
    | some z => exact ih.cons_cons _

theorem zipWith_right {β : Type} (l : List α) (r : List β) (h : l.length = r.length) : List.zipWith (fun _ y => y) l r = r := by
  induction l generalizing r with
  | nil => cases r with
    | nil => rfl
    | cons _ _ => simp at h
  | cons a l ih => cases r with
    | nil => simp at h
    | cons b r => simp [ih r (by simpa using h)]

/-- **C339** (partial): the mask has exactly the pixels of the depth map that are deeper than the limit of the first redshift in every map, with the coverage
of the depth map and the smallest of the largest redshifts of the maps; the order of the further maps does not matter.  Missing: the largest redshift
can be beyond the range of the run (`C339_false`). -/
theorem C339_partial {zbins : List α} (hz : Grid zbins) (lims : List α) (hl : Grid lims) (hlen : lims.length = zbins.length) (S : Seq α) (ref : Nat)
    (depth : List (Nat × α × α)) (more : List (Further α)) (hm : ∀ m ∈ more, Grid (limits S ref m.band zbins lims)) :
    (∀ p f, (∃ z, (p, f, z) ∈ build zbins lims S ref depth more) ↔
      ∃ d, (p, f, d) ∈ depth ∧ lims.getD 0 0 < d ∧ ∀ m ∈ more, (limits S ref m.band zbins lims).getD 0 0 < limOf m p) ∧
    (∀ p f z, (p, f, z) ∈ build zbins lims S ref depth more → ∃ d, (p, f, d) ∈ depth ∧ z ≤ zmaxOf zbins lims d ∧
      (∀ m ∈ more, z ≤ zmaxOf zbins (limits S ref m.band zbins lims) (limOf m p)) ∧
      (z = zmaxOf zbins lims d ∨ ∃ m ∈ more, z = zmaxOf zbins (limits S ref m.band zbins lims) (limOf m p))) ∧
    (∀ more', more.Perm more' → build zbins lims S ref depth more' = build zbins lims S ref depth more) ∧
    ((depth.map Prod.fst).Nodup → ((build zbins lims S ref depth more).map Prod.fst).Nodup) := by
  have hmaps : ∀ p d, ∀ x ∈ ((lims, d) : List α × α) :: more.map fun m => (limits S ref m.band zbins lims, limOf m p),
      Grid x.1 ∧ x.1.length = zbins.length := by
    intro p d x hx
    rcases List.mem_cons.mp hx with rfl | hx
    · exact ⟨hl, hlen⟩
    · obtain ⟨m, hmm, rfl⟩ := List.mem_map.mp hx
      exact ⟨hm m hmm, by simp [limits, hlen]⟩
  have hmem : ∀ p f z, (p, f, z) ∈ build zbins lims S ref depth more ↔ ∃ d, (p, f, d) ∈ depth ∧
      vlimPixel zbins (lims, d) (more.map fun m => (limits S ref m.band zbins lims, limOf m p)) = some z := by
    intro p f z
    unfold build
    rw [List.mem_filterMap]
    constructor
    · rintro ⟨⟨p', f', d⟩, hd, h⟩
      obtain ⟨z', hz', e⟩ := Option.map_eq_some_iff.mp h
      cases e
      exact ⟨d, hd, hz'⟩
    · rintro ⟨d, hd, h⟩
      exact ⟨(p, f, d), hd, by simp only [h, Option.map_some]⟩
  refine ⟨fun p f => ?_, fun p f z h => ?_, fun more' hp => ?_, fun hnd => ?_⟩
  · constructor
    · rintro ⟨z, h⟩
      obtain ⟨d, hd, hv⟩ := (hmem p f z).mp h
      have hn := (Redmapper.Mask.C103_maps hz _ _ (hmaps p d)).2
      refine ⟨d, hd, ?_, fun m hmm => ?_⟩
      · by_contra hc
        rw [hn.mpr ⟨_, List.mem_cons_self .., not_lt.mp hc⟩] at hv
        cases hv
      · by_contra hc
        rw [hn.mpr ⟨_, List.mem_cons_of_mem _ (List.mem_map.mpr ⟨m, hmm, rfl⟩), not_lt.mp hc⟩] at hv
        cases hv
    · rintro ⟨d, hd, h0, h1⟩
      have hn := (Redmapper.Mask.C103_maps hz _ _ (hmaps p d)).2
      cases hv : vlimPixel zbins (lims, d) (more.map fun m => (limits S ref m.band zbins lims, limOf m p)) with
      | some z => exact ⟨z, (hmem p f z).mpr ⟨d, hd, hv⟩⟩
      | none =>
        obtain ⟨x, hx, hle⟩ := hn.mp hv
        rcases List.mem_cons.mp hx with rfl | hx
        · exact absurd h0 (not_lt.mpr hle)
        · obtain ⟨m, hmm, rfl⟩ := List.mem_map.mp hx
          exact absurd (h1 m hmm) (not_lt.mpr hle)
  · obtain ⟨d, hd, hv⟩ := (hmem p f z).mp h
    obtain ⟨h1, x, hx, h2⟩ := (Redmapper.Mask.C103_maps hz _ _ (hmaps p d)).1 z hv
    refine ⟨d, hd, h1 _ (List.mem_cons_self ..), fun m hmm => h1 _ (List.mem_cons_of_mem _ (List.mem_map.mpr ⟨m, hmm, rfl⟩)), ?_⟩
    rcases List.mem_cons.mp hx with rfl | hx
    · exact Or.inl h2
    · obtain ⟨m, hmm, rfl⟩ := List.mem_map.mp hx
      exact Or.inr ⟨m, hmm, h2⟩
  · unfold build
    congr 1
    funext d
    rw [vlimPixel_perm zbins _ (hp.map fun m => (limits S ref m.band zbins lims, limOf m d.1))]
  · exact (build_sublist zbins lims S ref depth more).nodup hnd

/-- The mask: two pixels, of which one is too shallow in the further map. -/
example : build [1, 2, 3] [20, 21, 22] (⟨[0, 10], fun _ _ => 1, fun _ _ => 0, fun _ => 20⟩ : Seq ℚ) 1 [(5, 1 / 2, 23), (6, 1, 23)]
    [⟨0, [(5, 45 / 2)]⟩] = [(5, 1 / 2, 3)] := by decide +kernel

/-- **C339**, the redshifts of a mask: they increase in steps of 0.001 from one step above the lowest redshift of the run, and the last is the first that is not
below the highest one. -/
theorem C339_redshifts (z0 z1 : α) (h : z0 < z1) :
    ∃ n : Nat, (zbinsOf z0 z1).length = n + 1 ∧ (∀ i, i < n + 1 → (zbinsOf z0 z1).getD i 0 = z0 + ((i : α) + 1) / 1000) ∧
      z1 ≤ z0 + ((n : α) + 1) / 1000 ∧ z0 + (n : α) / 1000 < z1 := by
  have hpos : 0 < (z1 - z0) / (1 / 1000 : α) := div_pos (by linarith) (by norm_num)
  have hc : 0 < ⌈(z1 - z0) / (1 / 1000 : α)⌉ := Int.ceil_pos.mpr hpos
  obtain ⟨n, hn⟩ : ∃ n : Nat, ⌈(z1 - z0) / (1 / 1000 : α)⌉.toNat = n + 1 := ⟨⌈(z1 - z0) / (1 / 1000 : α)⌉.toNat - 1, by omega⟩
  have hz : ⌈(z1 - z0) / (1 / 1000 : α)⌉ = (n : ℤ) + 1 := by omega
  have hle := Int.le_ceil ((z1 - z0) / (1 / 1000 : α))
  have hlt := Int.ceil_lt_add_one ((z1 - z0) / (1 / 1000 : α))
  rw [hz] at hle hlt
  push_cast at hle hlt
  rw [div_le_iff₀ (by norm_num)] at hle
  rw [add_lt_add_iff_right, lt_div_iff₀ (by norm_num)] at hlt
  refine ⟨n, by unfold zbinsOf; rw [List.length_map, List.length_range, hn], fun i hi => ?_, by linarith, by linarith⟩
  unfold zbinsOf
  rw [hn, List.getD_eq_getElem?_getD, List.getElem?_map, List.getElem?_range hi]
  simp only [Option.map_some, Option.getD_some]
  ring

/-- **C339** is false for ranges that are not a whole number of steps: a deep pixel has a largest redshift above that of the run. -/
theorem C339_false : ∃ (z0 z1 : ℚ) (lims : List ℚ) (S : Seq ℚ), z0 < z1 ∧ Grid (zbinsOf z0 z1) ∧ Grid lims ∧
    lims.length = (zbinsOf z0 z1).length ∧ ∃ p f z, (p, f, z) ∈ build (zbinsOf z0 z1) lims S 1 [(5, 1, 23)] [] ∧ z1 < z := by
  refine ⟨0, 3 / 2000, [20, 21], ⟨[0, 10], fun _ _ => 1, fun _ _ => 0, fun _ => 20⟩, by norm_num, ?_, ?_, ?_, 5, 1, 1 / 500, ?_, by norm_num⟩
  · have : zbinsOf (0 : ℚ) (3 / 2000) = [1 / 1000, 1 / 500] := by decide +kernel
    rw [this]
    exact ⟨by decide, by norm_num⟩
  · exact ⟨by decide, by norm_num⟩
  · decide +kernel
  · decide +kernel

/-! ## C340 -/

/-- **C340** (partial): a further map in the reference band leaves the mask as it is if it is at least as deep as the depth map in each of its pixels.
Missing: other maps (`C340_false`). -/
theorem C340_partial {zbins : List α} (hz : Grid zbins) (lims : List α) (hl : Grid lims) (hlen : zbins.length = lims.length) (S : Seq α) (ref : Nat)
    (depth : List (Nat × α × α)) (m : Further α) (more : List (Further α)) (hb : m.band = ref) (hdeep : ∀ p f d, (p, f, d) ∈ depth → d ≤ limOf m p) :
    build zbins lims S ref depth (m :: more) = build zbins lims S ref depth more := by
  have hlim : limits S ref m.band zbins lims = lims := by
    unfold limits bandLimit
    simp only [hb, if_true]
    exact zipWith_right zbins lims hlen
  unfold build
  refine List.filterMap_congr fun d hd => ?_
  congr 1
  rw [List.map_cons, hlim]
  unfold vlimPixel
  simp only [List.foldl_cons, step_min]
  have := (Redmapper.Mask.C50_partial hz hl hlen d.2.2 (limOf m d.1)).2.2 (hdeep d.1 d.2.1 d.2.2 hd)
  rw [min_eq_left this]

/-- **C340** is false: a map in the reference band, of which the log says that it is skipped, lowers the limits and takes pixels away. -/
theorem C340_false : ∃ (S : Seq ℚ) (m : Further ℚ), m.band = 1 ∧
    build [1, 2, 3] [20, 21, 22] S 1 [(5, 1, 23), (6, 1, 23)] [] = [(5, 1, 3), (6, 1, 3)] ∧
    build [1, 2, 3] [20, 21, 22] S 1 [(5, 1, 23), (6, 1, 23)] [m] = [(5, 1, 2)] :=
  ⟨⟨[0, 10], fun _ _ => 1, fun _ _ => 0, fun _ => 20⟩, ⟨1, [(5, 41 / 2)]⟩, rfl, by decide +kernel, by decide +kernel⟩

end Redmapper.VlimMap
