/-
C430: how often the random-satellite centering chooses a member.
-/
import Verif.Props.Centering
import Mathlib.MeasureTheory.Measure.Lebesgue.Basic

set_option linter.unusedSectionVars false

namespace Redmapper.Centering

open Redmapper.Finders (takeRows Argsort takeRows_perm takeRows_map takeRows_reverse argsortRef argsortRef_ok)

/-! ## Specification -/

/-- The draws in [0, 1) for which neighbour `k` is chosen. -/
def draws (argsort : List ℝ → List Nat) (pmem : List ℝ) (k : Nat) : Set ℝ :=
  {u | 0 ≤ u ∧ u < 1 ∧ randomSat argsort u pmem = .ok k}

/-- **C430**, as the documentation has it: a random member is taken, weighted by the membership probabilities. -/
def C430_spec (argsort : List ℝ → List Nat) : Prop :=
  ∀ pmem : List ℝ, (∀ p ∈ pmem, 0 ≤ p) → (∃ p ∈ pmem, 0 < p) → ∀ (k : Nat) (p : ℝ), pmem[k]? = some p →
    MeasureTheory.volume (draws argsort pmem k) = ENNReal.ofReal (p / pmem.sum)

/-! ## Lemmas -/

section
variable {α : Type} [Field α] [LinearOrder α] [IsStrictOrderedRing α]

/-- The share of the `i` most probable neighbours. -/
def share (sorted : List α) (i : Nat) : α := (sorted.take i).sum / sorted.sum

theorem share_succ (sorted : List α) (i : Nat) (hi : i < sorted.length) :
    share sorted (i + 1) = share sorted i + sorted[i] / sorted.sum := by
  unfold share
  rw [List.take_add_one, List.sum_append, List.getElem?_eq_getElem hi]
  simp [add_div]

theorem randomSat_pick [FloorRing α] (argsort : List α → List Nat) (hsort : Argsort argsort) (u : α)
    (hu1 : u < 1) (pmem : List α) (hp : ∀ p ∈ pmem, 0 ≤ p) (hpos : ∃ p ∈ pmem, 0 < p) :
    ∃ st : List Nat, st = (argsort pmem).reverse ∧ st.Perm (List.range pmem.length) ∧ (takeRows pmem st).Perm pmem ∧
      (takeRows pmem st).Pairwise (fun a b => b ≤ a) ∧ (∀ i : Nat, (takeRows pmem st)[i]? = st[i]?.bind fun j => pmem[j]?) ∧
      ∃ i, ∃ hi : i < st.length, randomSat argsort u pmem = .ok st[i] ∧
        ⌊u * (st.length : α)⌋ ≤ ⌊share (takeRows pmem st) (i + 1) * (st.length : α)⌋ ∧
        ∀ j, j < i → ⌊share (takeRows pmem st) (j + 1) * (st.length : α)⌋ < ⌊u * (st.length : α)⌋ := by
  obtain ⟨hperm, hpw⟩ := hsort pmem
  have hrperm : (argsort pmem).reverse.Perm (List.range pmem.length) := (List.reverse_perm _).trans hperm
  set st := (argsort pmem).reverse with hst
  have hstlen : st.length = pmem.length := by simpa using hrperm.length_eq
  have hin : ∀ i ∈ st, i < pmem.length := fun i hi => List.mem_range.mp (hrperm.mem_iff.mp hi)
  have hrow := takeRows_getElem? pmem st hin
  set sorted := takeRows pmem st with hsorted
  have hsp : sorted.Perm pmem := takeRows_perm _ _ hrperm
  have hslen : sorted.length = st.length := by rw [hsp.length_eq, hstlen]
  have hspw : sorted.Pairwise (fun a b => b ≤ a) := by
    rw [hsorted, hst, takeRows_reverse, List.pairwise_reverse]; exact hpw
  have hs0 : ∀ p ∈ sorted, 0 ≤ p := fun p h => hp p (hsp.mem_iff.mp h)
  have hsum : 0 < sorted.sum := by
    obtain ⟨p, hm, h0⟩ := hpos
    exact lt_of_lt_of_le h0 (List.single_le_sum (fun x hx => hs0 x hx) p (hsp.mem_iff.mpr hm))
  set pdf := sorted.map fun x => x / sorted.sum with hpdf
  have hpdflen : pdf.length = st.length := by simp [hpdf, hslen]
  have hn : 0 < st.length := by
    obtain ⟨p, hm, _⟩ := hpos
    rw [hstlen]; exact List.length_pos_of_mem hm
  have hnα : (0 : α) < (st.length : α) := by exact_mod_cast hn
  have hpt : ∀ i, (pdf.take i).sum = share sorted i := by
    intro i
    unfold share
    rw [hpdf, ← List.map_take]
    have : ((sorted.take i).map fun x => x / sorted.sum) = (sorted.take i).map fun x => x * (sorted.sum)⁻¹ := by
      simp only [div_eq_mul_inv]
    rw [this, List.sum_map_mul_right, List.map_id', div_eq_mul_inv]
  set cdfi : List Int := (cumsum 0 pdf).map fun x => ⌊x * (st.length : α)⌋ with hcdfi
  have hclen : cdfi.length = st.length := by simp [hcdfi, cumsum_length, hpdflen]
  have hcd : ∀ i, i < st.length → cdfi.getD i 0 = ⌊share sorted (i + 1) * (st.length : α)⌋ := by
    intro i hi
    have h1 : i < (cumsum 0 pdf).length := by rw [cumsum_length]; omega
    have h2 := cumsum_getD (0 : α) pdf i (by omega)
    rw [List.getD_eq_getElem?_getD, hcdfi, List.getElem?_map, List.getElem?_eq_getElem h1]
    rw [List.getD_eq_getElem?_getD, List.getElem?_eq_getElem h1] at h2
    simp only [Option.getD_some, zero_add] at h2
    simp only [Option.map_some, Option.getD_some]
    rw [h2, hpt]
  have hlast : ⌊u * (st.length : α)⌋ ≤ cdfi.getD (st.length - 1) 0 := by
    rw [hcd _ (by omega), show st.length - 1 + 1 = sorted.length by omega]
    have : share sorted sorted.length = 1 := by unfold share; rw [List.take_length]; exact div_self hsum.ne'
    rw [this]
    apply Int.floor_le_floor
    exact mul_le_mul_of_nonneg_right hu1.le hnα.le
  have hfind : ∃ i, (List.range cdfi.length).find? (fun i => decide (⌊u * (st.length : α)⌋ ≤ cdfi.getD i 0)) = some i := by
    rw [← Option.isSome_iff_exists, List.find?_isSome]
    exact ⟨st.length - 1, List.mem_range.mpr (by omega), by simpa using hlast⟩
  obtain ⟨i, hi⟩ := hfind
  obtain ⟨hip, as, bs, hsplit, hbefore⟩ := List.find?_eq_some_iff_append.mp hi
  have himem : i ∈ List.range cdfi.length := by rw [hsplit]; simp
  have hilt : i < st.length := by rw [← hclen]; exact List.mem_range.mp himem
  have hmin : ∀ j, j < i → ¬ (⌊u * (st.length : α)⌋ ≤ cdfi.getD j 0) := by
    intro j hj hcontra
    have hjas : j ∈ as := by
      have hjm : j ∈ List.range cdfi.length := List.mem_range.mpr (by omega)
      have hpwr : (List.range cdfi.length).Pairwise (· < ·) := List.pairwise_lt_range
      rw [hsplit] at hjm hpwr
      rcases List.mem_append.mp hjm with h | h
      · exact h
      · exfalso
        rcases List.mem_cons.mp h with h | h
        · omega
        · have h1 := (List.pairwise_append.mp hpwr).2.1
          have h2 := (List.pairwise_cons.mp h1).1 j h
          omega
    have h3 := hbefore j hjas
    rw [decide_eq_true hcontra] at h3
    simp at h3
  refine ⟨st, rfl, hrperm, hsp, hspw, hrow, i, hilt, ?_, ?_, ?_⟩
  · unfold randomSat
    simp only [← hst, ← hsorted, ← hpdf, ← hcdfi, hi, List.getElem?_eq_getElem hilt]
  · rw [← hcd i hilt]; exact of_decide_eq_true hip
  · intro j hj
    rw [← hcd j (by omega)]
    exact not_le.mp (hmin j hj)

/-- **C430, the least probable neighbour.**  With two neighbours or more, one that is less probable than all others is chosen by no draw, however probable it is. -/
theorem C430_least [FloorRing α] (argsort : List α → List Nat) (hsort : Argsort argsort) (u : α) (hu1 : u < 1)
    (pmem : List α) (hp : ∀ p ∈ pmem, 0 ≤ p) (h2 : 2 ≤ pmem.length) (k : Nat) (p : α) (hk : pmem[k]? = some p)
    (hmin : ∀ j q, j ≠ k → pmem[j]? = some q → p < q) : randomSat argsort u pmem ≠ .ok k := by
  have hpos : ∃ p ∈ pmem, 0 < p := by
    have h0 : 0 ≤ p := hp p (List.mem_of_getElem? hk)
    by_cases hk0 : k = 0
    · exact ⟨pmem[1], List.getElem_mem _, lt_of_le_of_lt h0 (hmin 1 _ (by omega) (List.getElem?_eq_getElem (by omega)))⟩
    · exact ⟨pmem[0], List.getElem_mem _, lt_of_le_of_lt h0 (hmin 0 _ (by omega) (List.getElem?_eq_getElem (by omega)))⟩
  obtain ⟨st, _, hperm, hsp, hpw, hrow, i, hi, hr, h1, hbefore⟩ := randomSat_pick argsort hsort u hu1 pmem hp hpos
  have hstlen : st.length = pmem.length := by simpa using hperm.length_eq
  intro hcon
  rw [hr] at hcon
  have hik : st[i] = k := by simpa using hcon
  set sorted := takeRows pmem st
  have hslen : sorted.length = st.length := by rw [hsp.length_eq, hstlen]
  have hnd : st.Nodup := hperm.nodup_iff.mpr List.nodup_range
  have hval : ∀ j (hj : j < st.length), pmem[st[j]]? = some (sorted[j]'(by omega)) := by
    intro j hj
    have := hrow j
    rw [List.getElem?_eq_getElem hj, Option.bind_some, List.getElem?_eq_getElem (by omega)] at this
    exact this.symm
  have hpi : sorted[i]'(by omega) = p := by
    have := hval i hi
    rw [hik, hk] at this
    exact (Option.some.inj this).symm
  -- the neighbour is the last one in the order
  have hlast : i = st.length - 1 := by
    by_contra hne
    have hlt : i < st.length - 1 := by omega
    have hd := (List.pairwise_iff_getElem.mp hpw) i (st.length - 1) (by omega) (by omega) hlt
    have hother : st[st.length - 1] ≠ k := by
      intro he
      have : st[st.length - 1] = st[i] := by rw [he, hik]
      have := (List.Nodup.getElem_inj_iff hnd).mp this
      omega
    have := hmin _ _ hother (hval (st.length - 1) (by omega))
    rw [hpi] at hd
    exact absurd this (not_lt.mpr hd)
  have hb := hbefore (i - 1) (by omega)
  rw [show i - 1 + 1 = i by omega] at hb
  have hs0 : ∀ p ∈ sorted, 0 ≤ p := fun p h => hp p (hsp.mem_iff.mp h)
  have hsum : 0 < sorted.sum := by
    obtain ⟨p, hm, h0⟩ := hpos
    exact lt_of_lt_of_le h0 (List.single_le_sum (fun x hx => hs0 x hx) p (hsp.mem_iff.mpr hm))
  have hmean : (sorted.length : α) * p ≤ sorted.sum := by
    have hall : ∀ x ∈ sorted, p ≤ x := by
      intro x hx
      obtain ⟨j, hj, rfl⟩ := List.mem_iff_getElem.mp hx
      rcases Nat.lt_or_ge j i with h | h
      · have := (List.pairwise_iff_getElem.mp hpw) j i hj (by omega) h
        rw [hpi] at this; exact this
      · have : j = i := by omega
        subst this; rw [hpi]
    have := List.card_nsmul_le_sum sorted p hall
    rwa [nsmul_eq_mul] at this
  have hone : share sorted (i + 1) = 1 := by
    unfold share
    rw [show i + 1 = sorted.length by omega, List.take_length]; exact div_self hsum.ne'
  rw [share_succ sorted i (by omega), hpi] at hone
  have hn : (0 : α) < (st.length : α) := by have : 0 < st.length := by omega
                                            exact_mod_cast this
  have hfrac : p / sorted.sum * (st.length : α) ≤ 1 := by
    rw [div_mul_eq_mul_div, div_le_one hsum, mul_comm, ← hslen]; exact hmean
  have hge : ((st.length - 1 : Int) : α) ≤ share sorted i * (st.length : α) := by
    have : share sorted i = 1 - p / sorted.sum := by linarith
    rw [this, sub_mul]
    push_cast
    linarith
  have hfl : (st.length : Int) - 1 ≤ ⌊share sorted i * (st.length : α)⌋ := Int.le_floor.mpr (by exact_mod_cast hge)
  have hfu : ⌊u * (st.length : α)⌋ < (st.length : Int) := by
    rw [Int.floor_lt]
    push_cast
    nlinarith
  omega

end

/-- The draws for which one of the `i` first of the order is chosen end at this one. -/
noncomputable def upto (sorted : List ℝ) (n i : Nat) : ℝ :=
  if i = 0 then 0 else min 1 ((⌊share sorted i * (n : ℝ)⌋ + 1) / (n : ℝ))

theorem floor_le_iff_lt (u w n : ℝ) (hn : 0 < n) : ⌊u * n⌋ ≤ ⌊w * n⌋ ↔ u < (⌊w * n⌋ + 1) / n := by
  rw [lt_div_iff₀ hn, ← Int.lt_add_one_iff, Int.floor_lt]
  push_cast
  rfl

/-- True up to the number of neighbours: the probability to choose a neighbour differs from its share of the membership probabilities by at most one over the
number of neighbours.  Missing: equality (`C430_false`). -/
theorem C430_partial (argsort : List ℝ → List Nat) (hsort : Argsort argsort) (pmem : List ℝ) (hp : ∀ p ∈ pmem, 0 ≤ p)
    (hpos : ∃ p ∈ pmem, 0 < p) (k : Nat) (p : ℝ) (hk : pmem[k]? = some p) :
    ∃ x : ℝ, 0 ≤ x ∧ MeasureTheory.volume (draws argsort pmem k) = ENNReal.ofReal x ∧ |x - p / pmem.sum| ≤ 1 / (pmem.length : ℝ) := by
  obtain ⟨st, hst, hperm, hsp, hpw, hrow, _⟩ := randomSat_pick argsort hsort 0 zero_lt_one pmem hp hpos
  have hstlen : st.length = pmem.length := by simpa using hperm.length_eq
  set sorted := takeRows pmem st with hsorted
  have hslen : sorted.length = st.length := by rw [hsp.length_eq, hstlen]
  have hnd : st.Nodup := hperm.nodup_iff.mpr List.nodup_range
  have hkl : k < pmem.length := (List.getElem?_eq_some_iff.mp hk).1
  obtain ⟨i, hi, hik⟩ := List.mem_iff_getElem.mp (hperm.mem_iff.mpr (List.mem_range.mpr hkl))
  have hn0 : 0 < st.length := by omega
  have hn : (0 : ℝ) < (st.length : ℝ) := by exact_mod_cast hn0
  have hs0 : ∀ p ∈ sorted, 0 ≤ p := fun p h => hp p (hsp.mem_iff.mp h)
  have hsum : 0 < sorted.sum := by
    obtain ⟨p, hm, h0⟩ := hpos
    exact lt_of_lt_of_le h0 (List.single_le_sum (fun x hx => hs0 x hx) p (hsp.mem_iff.mpr hm))
  have hpi : sorted[i]'(by omega) = p := by
    have := hrow i
    rw [List.getElem?_eq_getElem hi, Option.bind_some, List.getElem?_eq_getElem (by omega), hik, hk] at this
    exact Option.some.inj this
  have hstep : ∀ j, j < sorted.length → share sorted j ≤ share sorted (j + 1) := by
    intro j hj
    rw [share_succ sorted j hj]
    have := div_nonneg (hs0 _ (List.getElem_mem hj)) hsum.le
    linarith
  have hmono : ∀ a b, a ≤ b → b ≤ sorted.length → share sorted a ≤ share sorted b := by
    intro a b hab hb
    induction b with
    | zero => rw [Nat.le_zero.mp hab]
    | succ b ih =>
      rcases Nat.lt_or_ge a (b + 1) with h | h
      · exact le_trans (ih (by omega) (by omega)) (hstep b (by omega))
      · rw [show a = b + 1 by omega]
  have hfm : ∀ a b, a ≤ b → b ≤ sorted.length → ⌊share sorted a * (st.length : ℝ)⌋ ≤ ⌊share sorted b * (st.length : ℝ)⌋ :=
    fun a b h1 h2 => Int.floor_le_floor (mul_le_mul_of_nonneg_right (hmono a b h1 h2) hn.le)
  have hshare0 : share sorted 0 = 0 := by simp [share]
  have hshare1 : share sorted sorted.length = 1 := by unfold share; rw [List.take_length]; exact div_self hsum.ne'
  -- the draws are an interval
  have hset : draws argsort pmem k = Set.Ico (upto sorted st.length i) (upto sorted st.length (i + 1)) := by
    ext u
    simp only [draws, Set.mem_ofPred_eq, Set.mem_Ico]
    have hup : u < upto sorted st.length (i + 1) ↔ u < 1 ∧ ⌊u * (st.length : ℝ)⌋ ≤ ⌊share sorted (i + 1) * (st.length : ℝ)⌋ := by
      unfold upto
      rw [if_neg (Nat.succ_ne_zero i), lt_min_iff, floor_le_iff_lt _ _ _ hn]
    rw [hup]
    constructor
    · rintro ⟨u0, u1, hr⟩
      obtain ⟨st', hst', _, _, _, _, i', hi', hr', g1, g2⟩ := randomSat_pick argsort hsort u u1 pmem hp hpos
      rw [← hst] at hst'
      subst hst'
      rw [hr] at hr'
      have hii : i' = i := by
        have e : st'[i'] = st'[i] := by rw [hik]; simpa using hr'.symm
        exact (List.Nodup.getElem_inj_iff hnd).mp e
      subst hii
      refine ⟨?_, u1, g1⟩
      unfold upto
      by_cases h0 : i' = 0
      · rw [if_pos h0]; exact u0
      · rw [if_neg h0]
        refine le_trans (min_le_right _ _) ?_
        by_contra hlt
        have := (floor_le_iff_lt u _ _ hn).mpr (not_le.mp hlt)
        have h3 := g2 (i' - 1) (by omega)
        rw [show i' - 1 + 1 = i' by omega, ← hsorted] at h3
        omega
    · rintro ⟨l0, u1, g1⟩
      have u0 : 0 ≤ u := by
        refine le_trans ?_ l0
        unfold upto
        split_ifs
        · exact le_rfl
        · refine le_min zero_le_one (div_nonneg ?_ hn.le)
          have := hfm 0 i (Nat.zero_le _) (by omega)
          rw [hshare0, zero_mul, Int.floor_zero] at this
          have : (0 : ℝ) ≤ (⌊share sorted i * (st.length : ℝ)⌋ : ℝ) := by exact_mod_cast this
          linarith
      refine ⟨u0, u1, ?_⟩
      obtain ⟨st', hst', _, _, _, _, i', hi', hr', g1', g2'⟩ := randomSat_pick argsort hsort u u1 pmem hp hpos
      rw [← hst] at hst'
      subst hst'
      have hii : i' = i := by
        rcases Nat.lt_trichotomy i' i with h | h | h
        · exfalso
          unfold upto at l0
          rw [if_neg (by omega)] at l0
          have h4 := hfm (i' + 1) i (by omega) (by omega)
          have h5 := (floor_le_iff_lt u _ _ hn).mp (le_trans g1' h4)
          rcases min_le_iff.mp l0 with h6 | h6
          · linarith
          · linarith
        · exact h
        · exfalso
          have := g2' i h
          rw [← hsorted] at this
          omega
      subst hii
      rw [hr', hik]
  refine ⟨upto sorted st.length (i + 1) - upto sorted st.length i, ?_, ?_, ?_⟩
  · rw [sub_nonneg]
    unfold upto
    by_cases h0 : i = 0
    · rw [if_pos h0, if_neg (Nat.succ_ne_zero i)]
      refine le_min zero_le_one (div_nonneg ?_ hn.le)
      have := hfm 0 (i + 1) (Nat.zero_le _) (by omega)
      rw [hshare0, zero_mul, Int.floor_zero] at this
      have : (0 : ℝ) ≤ (⌊share sorted (i + 1) * (st.length : ℝ)⌋ : ℝ) := by exact_mod_cast this
      linarith
    · rw [if_neg h0, if_neg (Nat.succ_ne_zero i)]
      refine min_le_min le_rfl (div_le_div_of_nonneg_right ?_ hn.le)
      have := hfm i (i + 1) (by omega) (by omega)
      have : (⌊share sorted i * (st.length : ℝ)⌋ : ℝ) ≤ (⌊share sorted (i + 1) * (st.length : ℝ)⌋ : ℝ) := by exact_mod_cast this
      linarith
  · rw [hset, Real.volume_Ico]
  · have hbound : ∀ j, j ≤ sorted.length → share sorted j ≤ upto sorted st.length j ∧ upto sorted st.length j ≤ share sorted j + 1 / (st.length : ℝ) := by
      intro j hj
      have hle1 : share sorted j ≤ 1 := by rw [← hshare1]; exact hmono j _ hj le_rfl
      unfold upto
      by_cases h0 : j = 0
      · rw [if_pos h0, h0, hshare0]
        exact ⟨le_rfl, by positivity⟩
      · rw [if_neg h0]
        have f1 := Int.floor_le (share sorted j * (st.length : ℝ))
        have f2 := Int.lt_floor_add_one (share sorted j * (st.length : ℝ))
        constructor
        · refine le_min hle1 ?_
          rw [le_div_iff₀ hn]; exact f2.le
        · refine le_trans (min_le_right _ _) ?_
          rw [div_le_iff₀ hn, add_mul, one_div, inv_mul_cancel₀ hn.ne']
          linarith
    have b1 := hbound i (by omega)
    have b2 := hbound (i + 1) (by omega)
    have hs := share_succ sorted i (by omega)
    rw [hpi, hsp.sum_eq] at hs
    rw [← hstlen, abs_le]
    constructor <;> linarith [b1.1, b1.2, b2.1, b2.2]

/-- The claim is false whatever the order of equal elements: of two neighbours with probabilities 1/3 and 2/3 the first is never chosen. -/
theorem C430_false (argsort : List ℝ → List Nat) (hsort : Argsort argsort) : ¬ C430_spec argsort := by
  intro h
  have hp : ∀ p ∈ [(1 : ℝ) / 3, 2 / 3], 0 ≤ p := by
    intro p hp
    simp only [List.mem_cons, List.not_mem_nil, or_false] at hp
    rcases hp with rfl | rfl <;> norm_num
  have h1 := h [1 / 3, 2 / 3] hp ⟨1 / 3, by simp, by norm_num⟩ 0 (1 / 3) rfl
  have h2 : draws argsort [1 / 3, 2 / 3] 0 = ∅ := by
    ext u
    simp only [draws, Set.mem_ofPred_eq, Set.mem_empty_iff_false, iff_false, not_and]
    intro _ hu
    refine C430_least argsort hsort u hu _ hp (by simp) 0 (1 / 3) rfl ?_
    intro j q hj hq
    rcases j with _ | _ | j
    · exact absurd rfl hj
    · simp at hq; rw [← hq]; norm_num
    · simp at hq
  rw [h2, MeasureTheory.measure_empty] at h1
  have : (0 : ℝ) < 1 / 3 / [(1 : ℝ) / 3, 2 / 3].sum := by norm_num
  exact absurd h1.symm (by simpa using this)

/-- Non-vacuity: three neighbours of which the first draws choose different ones. -/
example : randomSat argsortRef (0 : ℚ) [1 / 2, 1 / 3, 1 / 6] = .ok 0 ∧ randomSat argsortRef (9 / 10 : ℚ) [1 / 2, 1 / 3, 1 / 6] = .ok 1 := by
  decide +kernel

end Redmapper.Centering
