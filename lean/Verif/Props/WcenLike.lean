/-
Properties of the filters of the centering, of random centers and of what is recorded of a center: C254-C259.
-/
import Verif.Model.WcenLike
import Verif.Props.Centering
import Mathlib.Tactic.Linarith
import Mathlib.Tactic.NormNum
import Mathlib.Tactic.Positivity
import Mathlib.Tactic.FieldSimp
import Mathlib.Topology.MetricSpace.Pseudo.Defs
import Mathlib.Algebra.Order.BigOperators.Group.Finset

set_option linter.unusedSectionVars false

namespace Redmapper.WcenLike

open Finset

/-! ## C254: connectivity -/

/-- Contract of the matcher: every pair within the radius exactly once, with its separation. -/
def MatchOK {P : Type} (sep : P → P → ℝ) (matcher : List P → List P → ℝ → List (Nat × Nat × ℝ)) : Prop :=
  ∀ cat qs R, (matcher cat qs R).Nodup ∧ ∀ j i d, (j, i, d) ∈ matcher cat qs R ↔ ∃ a b, cat[i]? = some a ∧ qs[j]? = some b ∧ d = sep a b ∧ sep a b ≤ R

/-- The distance in megaparsec of two neighbours, softened. -/
noncomputable def distance {P : Type} (sep : P → P → ℝ) (mpc rsoft : ℝ) (ns : Nbrs P) (k l : Nat) : ℝ :=
  Real.sqrt ((sep (ns.pos k) (ns.pos l) * mpc) ^ 2 + rsoft ^ 2)

/-- The galaxies that count for candidate `k`: other neighbours with positive probability inside the radius of the richness around `k`. -/
noncomputable def around {P : Type} (sep : P → P → ℝ) (rlam mpc rsoft : ℝ) (ns : Nbrs P) (k : Nat) : Finset Nat :=
  (Finset.range ns.n).filter fun l => 0 < ns.p l ∧ l ≠ k ∧ distance sep mpc rsoft ns k l < rlam

/-- The weight of a galaxy: its probability, times its luminosity in units of that at m*. -/
noncomputable def weight {P : Type} (uselum : Bool) (mstar : ℝ) (ns : Nbrs P) (l : Nat) : ℝ :=
  ns.p l * (if uselum then (10 : ℝ) ^ ((mstar - ns.refmag l) / 2.5) else 1)

theorem soft_ge (mpc rsoft d : ℝ) : |d * mpc| ≤ soft mpc rsoft d := by
  unfold soft
  apply Real.abs_le_sqrt
  nlinarith [sq_nonneg rsoft]

theorem sum_list_finset (l : List Nat) (s : Finset Nat) (hl : l.Nodup) (h : ∀ k, k ∈ l ↔ k ∈ s) (f : Nat → ℝ) : (l.map f).sum = ∑ k ∈ s, f k := by
  have : l.Perm s.toList := by
    rw [List.perm_ext_iff_of_nodup hl s.nodup_toList]
    intro k
    rw [h, Finset.mem_toList]
  rw [(this.map f).sum_eq, Finset.sum_map_toList]

/-- **C254.** The connectivity of every candidate is the logarithm of the weighted mean of `r_lambda / distance` over exactly the other galaxies
with positive probability inside `r_lambda` of the candidate, and 0.001 if there are none.  The search radius of the matcher (1.1 times
`r_lambda`) leaves none out, whatever the order in which the matcher reports pairs. -/
theorem C254 {P : Type} (sep : P → P → ℝ) (hsep : ∀ a b, 0 ≤ sep a b) (matcher : List P → List P → ℝ → List (Nat × Nat × ℝ)) (hm : MatchOK sep matcher)
    (uselum : Bool) (rlam mpc rsoft mstar : ℝ) (hr : 0 < rlam) (hmpc : 0 < mpc) (ns : Nbrs P) (use : List Nat) (i k : Nat) (hk : use[i]? = some k) :
    (connect matcher uselum rlam mpc rsoft mstar ns use)[i]? = some
      (if around sep rlam mpc rsoft ns k = ∅ then 1 / 1000
       else Real.log ((∑ l ∈ around sep rlam mpc rsoft ns k, weight uselum mstar ns l / distance sep mpc rsoft ns k l) /
          ((1 / rlam) * ∑ l ∈ around sep rlam mpc rsoft ns k, weight uselum mstar ns l))) := by
  have hi : i < use.length := (List.getElem?_eq_some_iff.mp hk).1
  have hkD : use.getD i 0 = k := by rw [List.getD_eq_getElem?_getD, hk]; rfl
  unfold connect
  simp only
  set u := (List.range ns.n).filter fun k => decide (0 < ns.p k) with hu
  have hun : u.Nodup := List.nodup_range.filter _
  have humem : ∀ l, l ∈ u ↔ l < ns.n ∧ 0 < ns.p l := by intro l; rw [hu, List.mem_filter]; simp
  set m0 := matcher (use.map ns.pos) (u.map ns.pos) (1.1 * rlam / mpc) with hm0
  obtain ⟨hnd, hmem⟩ := hm (use.map ns.pos) (u.map ns.pos) (1.1 * rlam / mpc)
  rw [← hm0] at hnd hmem
  set m1 := m0.filter (fun t => decide (use.getD t.2.1 0 ≠ u.getD t.1 0)) with hm1
  set pd := m1.map (fun t => (t.1, t.2.1, soft mpc rsoft t.2.2)) with hpd
  rw [List.getElem?_map, List.getElem?_range hi]
  simp only [Option.map_some]
  set inside := pd.filter (fun t => decide (t.2.1 = i) && decide (t.2.2 < rlam)) with hin
  -- what the triples are
  have mem_in : ∀ t, t ∈ inside ↔ ∃ l, u[t.1]? = some l ∧ t.2.1 = i ∧ l ≠ k ∧ t.2.2 = distance sep mpc rsoft ns k l ∧ t.2.2 < rlam := by
    intro t
    rw [hin, List.mem_filter, hpd, List.mem_map]
    simp only [Bool.and_eq_true, decide_eq_true_eq]
    constructor
    · rintro ⟨⟨⟨j, c, d⟩, ht, rfl⟩, hti, htr⟩
      simp only at hti htr ⊢
      subst hti
      rw [hm1, List.mem_filter] at ht
      obtain ⟨h1, h2⟩ := ht
      rw [hmem] at h1
      obtain ⟨a, b, ha, hb, hd, -⟩ := h1
      rw [List.getElem?_map, hk] at ha
      rw [List.getElem?_map] at hb
      cases hul : u[j]? with
      | none => rw [hul] at hb; simp at hb
      | some l =>
        rw [hul] at hb
        simp only [Option.map_some, Option.some.injEq] at ha hb
        refine ⟨l, rfl, rfl, ?_, ?_, htr⟩
        · simp only [decide_eq_true_eq, hkD] at h2
          intro e
          apply h2
          rw [List.getD_eq_getElem?_getD, hul, e]
          rfl
        · unfold soft distance
          rw [hd, ← ha, ← hb]
    · rintro ⟨l, hul, hti, hlk, htd, htr⟩
      obtain ⟨j, c, x⟩ := t
      simp only at hul hti htd htr
      subst hti
      refine ⟨⟨(j, c, sep (ns.pos k) (ns.pos l)), ?_, ?_⟩, rfl, htr⟩
      · rw [hm1, List.mem_filter]
        constructor
        · rw [hmem]
          refine ⟨ns.pos k, ns.pos l, by rw [List.getElem?_map, hk]; rfl, by rw [List.getElem?_map, hul]; rfl, rfl, ?_⟩
          have h1 := soft_ge mpc rsoft (sep (ns.pos k) (ns.pos l))
          have h2 : soft mpc rsoft (sep (ns.pos k) (ns.pos l)) < rlam := by
            have : soft mpc rsoft (sep (ns.pos k) (ns.pos l)) = x := by rw [htd]; rfl
            rw [this]; exact htr
          rw [abs_of_nonneg (mul_nonneg (hsep _ _) hmpc.le)] at h1
          rw [le_div_iff₀ hmpc]
          linarith
        · simp only [decide_eq_true_eq, hkD]
          rw [List.getD_eq_getElem?_getD, hul]
          exact fun e => hlk e.symm
      · rw [htd]
        rfl
  -- the galaxies of the triples
  set g : Nat × Nat × ℝ → Nat := fun t => u.getD t.1 0 with hg
  have hgl : ∀ t ∈ inside, ∀ l, u[t.1]? = some l → g t = l := by
    intro t _ l hl
    simp only [hg, List.getD_eq_getElem?_getD, hl, Option.getD_some]
  have hinj : ∀ t ∈ inside, ∀ t' ∈ inside, g t = g t' → t = t' := by
    intro t ht t' ht' he
    obtain ⟨l, h1, h2, -, h3, -⟩ := (mem_in t).mp ht
    obtain ⟨l', h1', h2', -, h3', -⟩ := (mem_in t').mp ht'
    rw [hgl t ht l h1, hgl t' ht' l' h1'] at he
    subst he
    have e1 : t.1 = t'.1 := by
      have a := (List.getElem?_eq_some_iff.mp h1)
      have b := (List.getElem?_eq_some_iff.mp h1')
      exact (List.Nodup.getElem_inj_iff hun).mp (a.2.trans b.2.symm)
    have e2 : t.2.1 = t'.2.1 := h2.trans h2'.symm
    have e3 : t.2.2 = t'.2.2 := h3.trans h3'.symm
    exact Prod.ext e1 (Prod.ext e2 e3)
  have hnd2 : inside.Nodup := by
    rw [hin]
    apply List.Nodup.filter
    rw [hpd]
    refine List.Nodup.map_on ?_ (by rw [hm1]; exact hnd.filter _)
    rintro ⟨j, c, d⟩ ht ⟨j', c', d'⟩ ht' he
    simp only [Prod.mk.injEq] at he
    obtain ⟨rfl, rfl, -⟩ := he
    rw [hm1, List.mem_filter, hmem] at ht ht'
    obtain ⟨⟨a, b, ha, hb, hd, -⟩, -⟩ := ht
    obtain ⟨⟨a', b', ha', hb', hd', -⟩, -⟩ := ht'
    rw [ha] at ha'
    rw [hb] at hb'
    simp only [Option.some.injEq] at ha' hb'
    rw [hd, hd', ha', hb']
  have hgn : (inside.map g).Nodup := hnd2.map_on hinj
  have hgm : ∀ l, l ∈ inside.map g ↔ l ∈ around sep rlam mpc rsoft ns k := by
    intro l
    unfold around
    rw [List.mem_map, Finset.mem_filter, Finset.mem_range]
    constructor
    · rintro ⟨t, ht, rfl⟩
      obtain ⟨l, h1, h2, h3, h4, h5⟩ := (mem_in t).mp ht
      rw [hgl t ht l h1]
      have := (humem l).mp (List.mem_of_getElem? h1)
      exact ⟨this.1, this.2, h3, by rw [← h4]; exact h5⟩
    · rintro ⟨h1, h2, h3, h4⟩
      obtain ⟨j, hj⟩ := List.getElem?_of_mem ((humem l).mpr ⟨h1, h2⟩)
      have ht : (j, i, distance sep mpc rsoft ns k l) ∈ inside := (mem_in _).mpr ⟨l, hj, rfl, h3, rfl, h4⟩
      exact ⟨_, ht, hgl _ ht l hj⟩
  have hemp : inside.isEmpty = true ↔ around sep rlam mpc rsoft ns k = ∅ := by
    rw [List.isEmpty_iff, ← List.map_eq_nil_iff (f := g), List.eq_nil_iff_forall_not_mem, Finset.eq_empty_iff_forall_notMem]
    exact forall_congr' fun l => not_congr (hgm l)
  have hw : ∀ l, (if uselum = true then ns.p l * lum mstar (ns.refmag l) else ns.p l) = weight uselum mstar ns l := by
    intro l
    unfold weight lum
    cases uselum <;> simp
  have s1 : (inside.map fun t => weight uselum mstar ns (u.getD t.1 0)).sum = ∑ l ∈ around sep rlam mpc rsoft ns k, weight uselum mstar ns l := by
    rw [← sum_list_finset _ _ hgn hgm, List.map_map]
    rfl
  have s2 : (inside.map fun t => weight uselum mstar ns (u.getD t.1 0) / t.2.2).sum =
      ∑ l ∈ around sep rlam mpc rsoft ns k, weight uselum mstar ns l / distance sep mpc rsoft ns k l := by
    rw [← sum_list_finset _ _ hgn hgm, List.map_map]
    congr 1
    apply List.map_congr_left
    intro t ht
    obtain ⟨l, h1, -, -, h4, -⟩ := (mem_in t).mp ht
    simp only [Function.comp_apply, hgl t ht l h1, h4]
    rw [show u.getD t.1 0 = l from hgl t ht l h1]
  simp only [hw, s1, s2]
  congr 1
  by_cases he : around sep rlam mpc rsoft ns k = ∅
  · rw [if_pos (hemp.mpr he), if_pos he]
  · rw [if_neg (fun h => he (hemp.mp h)), if_neg he]

/-! ## C255: the connectivity has a logarithm -/

theorem weight_pos {P : Type} (uselum : Bool) (mstar : ℝ) (ns : Nbrs P) (l : Nat) (h : 0 < ns.p l) : 0 < weight uselum mstar ns l := by
  unfold weight
  apply mul_pos h
  split_ifs
  · positivity
  · exact one_pos

/-- **C255.** With a positive softening the connectivity of every candidate is positive, so that its logarithm exists, and at most
`ln (r_lambda / r_soft)` unless it is 0.001. -/
theorem C255 {P : Type} (sep : P → P → ℝ) (hsep : ∀ a b, 0 ≤ sep a b) (matcher : List P → List P → ℝ → List (Nat × Nat × ℝ)) (hm : MatchOK sep matcher)
    (uselum : Bool) (rlam mpc rsoft mstar : ℝ) (hr : 0 < rlam) (hmpc : 0 < mpc) (hs : 0 < rsoft) (ns : Nbrs P) (use : List Nat) :
    (connect matcher uselum rlam mpc rsoft mstar ns use).length = use.length ∧
    ∀ w ∈ connect matcher uselum rlam mpc rsoft mstar ns use, 0 < w ∧ (w = 1 / 1000 ∨ w ≤ Real.log (rlam / rsoft)) := by
  have hlen : (connect matcher uselum rlam mpc rsoft mstar ns use).length = use.length := by simp [connect]
  refine ⟨hlen, fun w hw => ?_⟩
  obtain ⟨i, hi⟩ := List.getElem?_of_mem hw
  have hil : i < use.length := by rw [← hlen]; exact (List.getElem?_eq_some_iff.mp hi).1
  have h := C254 sep hsep matcher hm uselum rlam mpc rsoft mstar hr hmpc ns use i _ (List.getElem?_eq_getElem hil)
  rw [hi, Option.some.injEq] at h
  set k := use[i]
  set S := around sep rlam mpc rsoft ns k with hS
  split_ifs at h with he
  · rw [h]; exact ⟨by norm_num, .inl rfl⟩
  · have hne : S.Nonempty := Finset.nonempty_iff_ne_empty.mpr he
    have hwp : ∀ l ∈ S, 0 < weight uselum mstar ns l := by
      intro l hl
      rw [hS, around, Finset.mem_filter] at hl
      exact weight_pos _ _ _ _ hl.2.1
    have hdl : ∀ l ∈ S, distance sep mpc rsoft ns k l < rlam := by
      intro l hl
      rw [hS, around, Finset.mem_filter] at hl
      exact hl.2.2.2
    have hdg : ∀ l, rsoft ≤ distance sep mpc rsoft ns k l := by
      intro l
      unfold distance
      apply Real.le_sqrt_of_sq_le
      nlinarith [sq_nonneg (sep (ns.pos k) (ns.pos l) * mpc)]
    have hW : 0 < ∑ l ∈ S, weight uselum mstar ns l := Finset.sum_pos hwp hne
    have hlow : (1 / rlam) * ∑ l ∈ S, weight uselum mstar ns l < ∑ l ∈ S, weight uselum mstar ns l / distance sep mpc rsoft ns k l := by
      rw [Finset.mul_sum]
      apply Finset.sum_lt_sum_of_nonempty hne
      intro l hl
      rw [one_div, inv_mul_eq_div]
      exact div_lt_div_of_pos_left (hwp l hl) (lt_of_lt_of_le hs (hdg l)) (hdl l hl)
    have hhigh : ∑ l ∈ S, weight uselum mstar ns l / distance sep mpc rsoft ns k l ≤ (1 / rsoft) * ∑ l ∈ S, weight uselum mstar ns l := by
      rw [Finset.mul_sum]
      apply Finset.sum_le_sum
      intro l hl
      rw [one_div, inv_mul_eq_div]
      exact div_le_div_of_nonneg_left (hwp l hl).le hs (hdg l)
    have hD : 0 < (1 / rlam) * ∑ l ∈ S, weight uselum mstar ns l := mul_pos (by positivity) hW
    constructor
    · rw [h]
      apply Real.log_pos
      rw [lt_div_iff₀ hD, one_mul]
      exact hlow
    · right
      rw [h]
      apply Real.log_le_log (div_pos (lt_trans hD hlow) hD)
      rw [div_le_iff₀ hD]
      calc _ ≤ (1 / rsoft) * ∑ l ∈ S, weight uselum mstar ns l := hhigh
        _ = _ := by field_simp

/-- One would like a candidate with a galaxy around it to be better connected than one with none. -/
def C255_floor_spec : Prop :=
  ∀ (matcher : List ℝ → List ℝ → ℝ → List (Nat × Nat × ℝ)), MatchOK (fun a b => |a - b|) matcher → ∀ (rlam mpc rsoft mstar : ℝ), 0 < rlam → 0 < mpc → 0 < rsoft →
    ∀ (ns : Nbrs ℝ) (use : List Nat) (i j k l : Nat) (w v : ℝ), use[i]? = some k → use[j]? = some l →
      around (fun a b => |a - b|) rlam mpc rsoft ns k ≠ ∅ → around (fun a b => |a - b|) rlam mpc rsoft ns l = ∅ →
      (connect matcher false rlam mpc rsoft mstar ns use)[i]? = some w → (connect matcher false rlam mpc rsoft mstar ns use)[j]? = some v → v ≤ w

/-- A matcher by comparing all pairs. -/
noncomputable def allPairs {P : Type} (sep : P → P → ℝ) (cat qs : List P) (R : ℝ) : List (Nat × Nat × ℝ) :=
  (List.range qs.length).flatMap fun j => (List.range cat.length).filterMap fun i =>
    match cat[i]?, qs[j]? with
    | some a, some b => if sep a b ≤ R then some (j, i, sep a b) else none
    | _, _ => none

/-- Non-vacuity: the contract of the matcher can be met. -/
theorem allPairs_ok {P : Type} (sep : P → P → ℝ) : MatchOK sep (allPairs sep) := by
  intro cat qs R
  have key : ∀ j i d, (j, i, d) ∈ allPairs sep cat qs R ↔ ∃ a b, cat[i]? = some a ∧ qs[j]? = some b ∧ d = sep a b ∧ sep a b ≤ R := by
    intro j i d
    unfold allPairs
    rw [List.mem_flatMap]
    constructor
    · rintro ⟨j', hj, h⟩
      rw [List.mem_filterMap] at h
      obtain ⟨i', hi, h⟩ := h
      cases ha : cat[i']? with
      | none => rw [ha] at h; simp at h
      | some a =>
        cases hb : qs[j']? with
        | none => rw [ha, hb] at h; simp at h
        | some b =>
          rw [ha, hb] at h
          simp only [Option.ite_none_right_eq_some, Option.some.injEq, Prod.mk.injEq] at h
          obtain ⟨h1, rfl, rfl, rfl⟩ := h
          exact ⟨a, b, ha, hb, rfl, h1⟩
    · rintro ⟨a, b, ha, hb, rfl, hR⟩
      refine ⟨j, List.mem_range.mpr (List.getElem?_eq_some_iff.mp hb).1, List.mem_filterMap.mpr ⟨i, List.mem_range.mpr (List.getElem?_eq_some_iff.mp ha).1, ?_⟩⟩
      rw [ha, hb]
      simp [hR]
  refine ⟨?_, key⟩
  unfold allPairs
  rw [List.nodup_flatMap]
  constructor
  · intro j _
    apply List.Nodup.filterMap _ List.nodup_range
    intro i i' t h h'
    rw [Option.mem_def] at h h'
    split at h <;> split at h' <;> simp_all
    have := h.2.trans h'.2.symm
    simp only [Prod.mk.injEq] at this
    exact this.2.1
  · apply List.Nodup.pairwise_of_forall_ne List.nodup_range
    intro j _ j' _ hne t ht ht'
    rw [List.mem_filterMap] at ht ht'
    obtain ⟨i, -, h⟩ := ht
    obtain ⟨i', -, h'⟩ := ht'
    split at h <;> split at h' <;> simp_all
    apply hne
    rw [← h.2, Prod.mk.injEq] at h'
    exact h'.2.1.symm

theorem C255_around (use : List Nat) : let ns : Nbrs ℝ := ⟨3, fun k => if k = 0 then 0 else if k = 1 then 9995 / 10000 else 10, fun _ => 1, fun _ => 0⟩
    around (fun a b => |a - b|) 1 1 (1 / 1000) ns 0 = {1} ∧ around (fun a b => |a - b|) 1 1 (1 / 1000) ns 2 = ∅ := by
  intro ns
  constructor
  · ext l
    simp only [around, Finset.mem_filter, Finset.mem_range, Finset.mem_singleton, distance, ns]
    constructor
    · rintro ⟨h1, -, h2, h3⟩
      rcases (show l = 1 ∨ l = 2 by omega) with rfl | rfl
      · rfl
      · rw [Real.sqrt_lt' one_pos] at h3
        norm_num at h3
    · rintro rfl
      refine ⟨by omega, one_pos, by omega, ?_⟩
      rw [Real.sqrt_lt' one_pos]
      norm_num [abs_of_neg]
  · rw [Finset.eq_empty_iff_forall_notMem]
    intro l
    rw [around, Finset.mem_filter, Finset.mem_range]
    simp only [distance, ns]
    rintro ⟨h1, -, h2, h3⟩
    rw [Real.sqrt_lt' one_pos] at h3
    rcases (show l = 0 ∨ l = 1 by omega) with rfl | rfl <;> norm_num at h3

/-- **C255** is false as wished: 0.001, the value of a candidate with no galaxy around it, is larger than the connectivity of a candidate whose
only galaxy is close to the radius. -/
theorem C255_floor_false : ¬ C255_floor_spec := by
  intro h
  obtain ⟨ha0, ha2⟩ := C255_around []
  set ns : Nbrs ℝ := ⟨3, fun k => if k = 0 then 0 else if k = 1 then 9995 / 10000 else 10, fun _ => 1, fun _ => 0⟩ with hns
  have hm := allPairs_ok (fun a b : ℝ => |a - b|)
  have c0 := C254 _ (fun a b => abs_nonneg (a - b)) _ hm false 1 1 (1 / 1000) 0 one_pos one_pos ns [0, 2] 0 0 rfl
  have c2 := C254 _ (fun a b => abs_nonneg (a - b)) _ hm false 1 1 (1 / 1000) 0 one_pos one_pos ns [0, 2] 1 2 rfl
  have := h _ hm 1 1 (1 / 1000) 0 one_pos one_pos (by norm_num) ns [0, 2] 0 1 0 2 _ _ rfl rfl (by rw [ha0]; simp) ha2 c0 c2
  rw [ha0, ha2, if_pos rfl, if_neg (by simp)] at this
  have hw : weight false 0 ns 1 = 1 := by simp [weight, hns]
  simp only [Finset.sum_singleton, hw] at this
  have hd : 9995 / 10000 ≤ distance (fun a b => |a - b|) 1 (1 / 1000) ns 0 1 := by
    unfold distance
    apply Real.le_sqrt_of_sq_le
    simp only [hns]
    norm_num
  set D := distance (fun a b => |a - b|) 1 (1 / 1000) ns 0 1
  have hD : (0 : ℝ) < D := lt_of_lt_of_le (by norm_num) hd
  have e : 1 / D / (1 / 1 * 1) = D⁻¹ := by rw [one_div]; norm_num
  rw [e] at this
  have h1 := Real.log_le_sub_one_of_pos (inv_pos.mpr hD)
  have h2 : D⁻¹ ≤ (9995 / 10000 : ℝ)⁻¹ := inv_anti₀ (by norm_num) hd
  norm_num at h2
  linarith

/-! ## C256: densities -/

/-- The normal density. -/
noncomputable def normal (x mu s : ℝ) : ℝ := Real.exp (-(x - mu) ^ 2 / (2 * s ^ 2)) / (s * Real.sqrt (2 * Real.pi))

/-- A calibration whose widths and pivot are positive. -/
structure Calibrated (c : Cal) : Prop where
  m : 0 < c.sigmaM
  cen : 0 < c.cenSigma
  sat : 0 < c.satSigma
  fg : 0 < c.fgSigma
  pivot : 0 < c.pivot
  maxlambda : 0 < c.maxlambda

/-- A cluster with positive richness, scale and radius. -/
structure Valid (cl : Cl) : Prop where
  lam : 0 < cl.Lambda
  scale : 0 < cl.scaleval
  r : 0 < cl.rlam
  mpc : 0 < cl.mpc

theorem filter_normal (x mu s : ℝ) : filter x mu s = normal x mu s := by
  unfold filter normal gauss
  rw [one_div, inv_mul_eq_div, mul_comm s]

theorem normal_pos (x mu s : ℝ) (h : 0 < s) : 0 < normal x mu s := by
  unfold normal
  have := Real.pi_pos
  positivity

theorem normal_nonpos (x mu s : ℝ) (h : s ≤ 0) : normal x mu s ≤ 0 := by
  unfold normal
  exact div_nonpos_of_nonneg_of_nonpos (Real.exp_pos _).le (mul_nonpos_of_nonpos_of_nonneg h (Real.sqrt_nonneg _))

/-- The width of the connectivity filters shrinks with the root of the richness (up to the largest one) over the pivot. -/
noncomputable def width (s : ℝ) (c : Cal) (cl : Cl) : ℝ := s * Real.sqrt (c.pivot * cl.scaleval / min cl.Lambda c.maxlambda)

theorem width_eq (s : ℝ) (c : Cal) (cl : Cl) : s / sigscale c cl = width s c cl := by
  unfold sigscale width
  rw [div_eq_mul_inv, ← Real.sqrt_inv]
  congr 2
  rw [div_div, inv_div, mul_comm cl.scaleval]

theorem width_pos {s : ℝ} {c : Cal} {cl : Cl} (hc : Calibrated c) (hv : Valid cl) (h : 0 < s) : 0 < width s c cl := by
  unfold width
  have : 0 < min cl.Lambda c.maxlambda := lt_min hv.lam hc.maxlambda
  have := hc.pivot
  have := hv.scale
  positivity

theorem cut_spec (v : ℝ) : (v < 1 / 10 ^ 10 → cut v = 0) ∧ (1 / 10 ^ 10 ≤ v → cut v = v) := by
  unfold cut
  exact ⟨fun h => if_pos h, fun h => if_neg (not_lt.mpr h)⟩

theorem cut_nonneg (v : ℝ) : 0 ≤ cut v := by
  unfold cut
  split_ifs with h
  · exact le_rfl
  · push Not at h; exact le_trans (by positivity) h

/-- **C256 (values).** The central density is the product of normal densities in magnitude, redshift and ln w, the satellite density that of the
luminosity function and two normal densities, and the background the normal density in ln w times the number of background galaxies in the
disc of radius `r_lambda`; the first two are set to zero below 10⁻¹⁰. -/
theorem C256_values (c : Cal) (cl : Cl) (g : Gal) :
    (let v := normal g.refmag (cl.mstar + c.delta0 + c.delta1 * Real.log (cl.Lambda / c.pivot)) c.sigmaM * normal g.zred cl.z g.zredE *
        normal (Real.log g.w) c.cenMean (width c.cenSigma c cl)
     (v < 1 / 10 ^ 10 → ucen c cl g = 0) ∧ (1 / 10 ^ 10 ≤ v → ucen c cl g = v)) ∧
    (let v := g.phiSat * normal g.zred cl.z g.zredE * normal (Real.log g.w) c.satMean (width c.satSigma c cl)
     (v < 1 / 10 ^ 10 → usat c cl g = 0) ∧ (1 / 10 ^ 10 ≤ v → usat c cl g = v)) ∧
    bcounts c cl g = normal (Real.log g.w) c.fgMean (width c.fgSigma c cl) * (Real.pi * (cl.rlam / cl.mpc) ^ 2 * g.sigma) := by
  refine ⟨?_, ?_, ?_⟩
  · simp only [ucen, phiCen, gz, filter_normal, width_eq]
    exact cut_spec _
  · simp only [usat, gz, filter_normal, width_eq]
    exact cut_spec _
  · simp only [bcounts, filter_normal, width_eq, zredBkg]
    have := Real.pi_ne_zero
    field_simp

/-- **C256 (signs).** For every galaxy, even with a zero or negative redshift error, the densities are not negative when the filters are
calibrated; the background is positive when that of the galaxy is. -/
theorem C256_signs (c : Cal) (cl : Cl) (hc : Calibrated c) (hv : Valid cl) (g : Gal) :
    0 ≤ ucen c cl g ∧ 0 ≤ usat c cl g ∧ (0 ≤ g.sigma → 0 ≤ bcounts c cl g) ∧ (0 < g.sigma → 0 < bcounts c cl g) ∧
    (g.zredE ≤ 0 → ucen c cl g = 0) ∧ (g.zredE ≤ 0 → 0 ≤ g.phiSat → usat c cl g = 0) := by
  obtain ⟨h1, h2, h3⟩ := C256_values c cl g
  have hn := normal_pos (Real.log g.w) c.fgMean _ (width_pos hc hv hc.fg)
  have hr := hv.r
  have hmpc := hv.mpc
  have hpi := Real.pi_pos
  have hten : (0 : ℝ) < 1 / 10 ^ 10 := by positivity
  refine ⟨cut_nonneg _, cut_nonneg _, fun hs => by rw [h3]; positivity, fun hs => by rw [h3]; positivity, fun hz => h1.1 ?_, fun hz hp => h2.1 ?_⟩
  · refine lt_of_le_of_lt ?_ hten
    exact mul_nonpos_of_nonpos_of_nonneg (mul_nonpos_of_nonneg_of_nonpos (normal_pos _ _ _ hc.m).le (normal_nonpos _ _ _ hz))
      (normal_pos _ _ _ (width_pos hc hv hc.cen)).le
  · refine lt_of_le_of_lt ?_ hten
    exact mul_nonpos_of_nonpos_of_nonneg (mul_nonpos_of_nonneg_of_nonpos hp (normal_nonpos _ _ _ hz)) (normal_pos _ _ _ (width_pos hc hv hc.sat)).le

/-- The candidates as the choice of the center takes them. -/
noncomputable def candOf (c : Cal) (cl : Cl) (q : Nat × ℝ × ℝ × Gal) : Centering.Cand ℝ :=
  ⟨q.1, q.2.1, q.2.2.1, ucen c cl q.2.2.2, usat c cl q.2.2.2, bcounts c cl q.2.2.2⟩

/-- **C256 (probabilities).** With calibrated filters, a richness of at least one and a positive background at every candidate, the center,
satellite and foreground probabilities of every center that is reported are probabilities and add up to one. -/
theorem C256_probabilities (c : Cal) (cl : Cl) (hc : Calibrated c) (hv : Valid cl) (hl : 1 ≤ cl.Lambda) (argsort : List ℝ → List Nat)
    (hsort : Finders.Argsort argsort) (maxcen : Nat) (hmax : 1 ≤ maxcen) (gals : List (Nat × ℝ × ℝ × Gal)) (hbk : ∀ q ∈ gals, 0 < q.2.2.2.sigma)
    (out : Centering.Out ℝ) (hout : Centering.wcen argsort maxcen cl.Lambda cl.scaleval (gals.map (candOf c cl)) = .ok out) :
    ∀ o ∈ out.rows, o.pcen + o.psat + o.pfg = 1 ∧ 0 ≤ o.psat ∧ o.psat ≤ 1 ∧ 0 ≤ o.pfg ∧ o.pfg ≤ 1 := by
  have hmem : ∀ x ∈ gals.map (candOf c cl), 0 ≤ x.usat ∧ 0 < x.bcounts := by
    intro x hx
    obtain ⟨q, hq, rfl⟩ := List.mem_map.mp hx
    obtain ⟨-, h2, -, h4, -⟩ := C256_signs c cl hc hv q.2.2.2
    exact ⟨h2, h4 (hbk q hq)⟩
  obtain ⟨h1, h2⟩ := Centering.C83_exhaustive argsort hsort maxcen hmax cl.Lambda cl.scaleval _ out hout (fun x hx => by
    have := hmem x hx
    have : 0 ≤ (cl.Lambda - 1) * x.usat := mul_nonneg (by linarith) this.1
    linarith [hmem x hx])
  exact fun o ho => ⟨h1 o ho, h2 hl (fun x hx => ⟨(hmem x hx).1, (hmem x hx).2.le⟩) o ho⟩

/-- One would like the background to be a density whatever the configuration. -/
def C256_spec : Prop := ∀ (c : Cal) (cl : Cl) (g : Gal), Valid cl → 0 < c.pivot → 0 < c.maxlambda → 0 < g.sigma → 0 ≤ bcounts c cl g

/-- **C256** is false without the calibration: the widths are -9999 in the configuration by default, and the background is then negative. -/
theorem C256_false : ¬ C256_spec := by
  intro h
  have hb := h ⟨0, 0, 30, 1, 100, 0, -9999, 0, -9999, 0, -9999⟩ ⟨20, 1, 1, 1, 1, 1⟩ ⟨0, 0, 1, 1, 1, 1⟩ ⟨by norm_num, by norm_num, by norm_num, by norm_num⟩
    (by norm_num) (by norm_num) (by norm_num)
  rw [(C256_values _ _ _).2.2] at hb
  have hw : width (-9999) ⟨0, 0, 30, 1, 100, 0, -9999, 0, -9999, 0, -9999⟩ ⟨20, 1, 1, 1, 1, 1⟩ < 0 := by
    unfold width
    apply mul_neg_of_neg_of_pos (by norm_num)
    apply Real.sqrt_pos.mpr
    norm_num
  have hn : normal (Real.log 1) 0 (width (-9999) ⟨0, 0, 30, 1, 100, 0, -9999, 0, -9999, 0, -9999⟩ ⟨20, 1, 1, 1, 1, 1⟩) < 0 := by
    unfold normal
    apply div_neg_of_pos_of_neg (Real.exp_pos _)
    apply mul_neg_of_neg_of_pos hw
    apply Real.sqrt_pos.mpr
    have := Real.pi_pos
    positivity
  have hp : 0 < Real.pi * ((1 : ℝ) / 1) ^ 2 * 1 := by have := Real.pi_pos; positivity
  have := mul_neg_of_neg_of_pos hn hp
  exact absurd hb (not_le.mpr this)

/-- Non-vacuity: a calibration and a cluster. -/
example : Calibrated ⟨-1, -1 / 10, 30, 1 / 2, 100, 1 / 5, 1 / 3, 0, 1 / 2, 0, 1 / 2⟩ ∧ Valid ⟨20, 1, 1, 1 / 5, 18, 10⟩ := by
  constructor <;> constructor <;> norm_num

/-! ## C257: a random center -/

/-- **C257.** For every two draws the random center is at most `r_lambda` away (small-angle separation at the declination of the cluster), and it
is within a fraction `t` of the radius exactly when the first draw is at most `t²`, the fraction of the area. -/
theorem C257 (rlam mpc ra dec u v : ℝ) (hr : 0 < rlam) (hmpc : 0 < mpc) (hdec : Real.cos (dec * (Real.pi / 180)) ≠ 0) (hu : 0 ≤ u) :
    let p := randomCenter rlam mpc ra dec u v
    let sep := Real.sqrt (((p.1 - ra) * Real.cos (dec * (Real.pi / 180))) ^ 2 + (p.2 - dec) ^ 2) * mpc
    (u < 1 → sep < rlam) ∧ ∀ t, 0 ≤ t → (sep ≤ t * rlam ↔ u ≤ t ^ 2) := by
  intro p sep
  have hs : sep = rlam * Real.sqrt u := by
    simp only [sep, p, randomCenter]
    have e1 : (ra + rlam * Real.sqrt u * Real.cos (2 * Real.pi * v) / mpc / Real.cos (dec * (Real.pi / 180)) - ra) * Real.cos (dec * (Real.pi / 180)) =
        rlam * Real.sqrt u / mpc * Real.cos (2 * Real.pi * v) := by
      rw [add_sub_cancel_left, div_mul_cancel₀ _ hdec]
      ring
    have e2 : dec + rlam * Real.sqrt u * Real.sin (2 * Real.pi * v) / mpc - dec = rlam * Real.sqrt u / mpc * Real.sin (2 * Real.pi * v) := by ring
    rw [e1, e2]
    have e3 : (rlam * Real.sqrt u / mpc * Real.cos (2 * Real.pi * v)) ^ 2 + (rlam * Real.sqrt u / mpc * Real.sin (2 * Real.pi * v)) ^ 2 =
        (rlam * Real.sqrt u / mpc) ^ 2 := by
      rw [mul_pow, mul_pow, ← mul_add, Real.cos_sq_add_sin_sq, mul_one]
    rw [e3, Real.sqrt_sq (by positivity)]
    field_simp
  constructor
  · intro h1
    rw [hs]
    have : Real.sqrt u < 1 := by rw [Real.sqrt_lt' one_pos]; simpa using h1
    nlinarith
  · intro t ht
    rw [hs, mul_comm t, mul_le_mul_iff_of_pos_left hr, Real.sqrt_le_left ht]

/-- One would like the right ascension to stay in the range of the catalog. -/
def C257_range_spec : Prop :=
  ∀ rlam mpc ra dec u v : ℝ, 0 < rlam → 0 < mpc → 0 ≤ ra → ra < 360 → 0 ≤ u → u < 1 → 0 ≤ v → v < 1 →
    0 ≤ (randomCenter rlam mpc ra dec u v).1 ∧ (randomCenter rlam mpc ra dec u v).1 < 360

/-- **C257** is false of the range: next to the meridian the right ascension of the center can be negative. -/
theorem C257_range_false : ¬ C257_range_spec := by
  intro h
  have := (h 1 1 0 0 (1 / 4) (1 / 2) one_pos one_pos le_rfl (by norm_num) (by norm_num) (by norm_num) (by norm_num) (by norm_num)).1
  simp only [randomCenter] at this
  rw [show 2 * Real.pi * (1 / 2) = Real.pi by ring, Real.cos_pi, zero_mul, Real.cos_zero] at this
  have hs : 0 < Real.sqrt (1 / 4) := Real.sqrt_pos.mpr (by norm_num)
  linarith

/-- Non-vacuity: a declination and a draw. -/
example : Real.cos ((0 : ℝ) * (Real.pi / 180)) ≠ 0 ∧ (0 : ℝ) ≤ 1 / 4 := by norm_num

/-! ## C258, C259: what is recorded -/

variable {R : Type}

theorem mapM_opt {A B : Type} (f : A → Option B) (g : A → B) (l : List A) (h : ∀ a ∈ l, f a = some (g a)) : l.mapM f = some (l.map g) := by
  induction l with
  | nil => rfl
  | cons a l ih =>
    rw [List.mapM_cons, h a (by simp), ih fun x hx => h x (List.mem_cons_of_mem _ hx)]
    rfl

theorem wrap_nat {n k : Nat} (h : k < n) : wrap n (k : Int) = some k := by
  unfold wrap
  rw [if_pos (by omega), if_pos (by omega)]
  simp

theorem wrap_last {n : Nat} (h : 0 < n) : wrap n (-1) = some (n - 1) := by
  unfold wrap
  rw [if_neg (by omega), if_pos (by omega)]
  congr 1
  omega

/-- **C258.** Recording the center of a galaxy centering with `m` candidates (1 ≤ m ≤ maxcen) succeeds: the magnitudes are those of the first
candidate, the first `m` ids and positions are those of the candidates in order and the other positions are blank; all flags that were set stay
set, every candidate is flagged, and nothing else is — apart from the last of all neighbours, which is flagged, and whose id fills the list of
ids, whenever there are fewer than `maxcen` candidates. -/
theorem C258_partial (blank : R) (maxcen : Nat) (rows : List (R × Nat)) (ngood : Nat) (ids : List Nat) (r : Rec R) (h1 : rows ≠ []) (hm : rows.length ≤ maxcen)
    (hk : ∀ q ∈ rows, q.2 < ids.length) :
    ∃ r', record maxcen ids (wcenCent blank maxcen rows ngood) r = .ok r' ∧
      r'.central = rows.head?.map Prod.snd ∧
      r'.idCent = rows.map (fun q => ids.getD q.2 0) ++ List.replicate (maxcen - rows.length) (ids.getD (ids.length - 1) 0) ∧
      r'.posCent = rows.map Prod.fst ++ List.replicate (maxcen - rows.length) blank ∧
      r'.ncent = ngood ∧
      (∀ k, r'.cand k = true ↔ r.cand k = true ∨ (∃ q ∈ rows, q.2 = k) ∨ (rows.length < maxcen ∧ k = ids.length - 1)) := by
  obtain ⟨q0, rest, rfl⟩ := List.exists_cons_of_ne_nil h1
  have hn : 0 < ids.length := lt_of_le_of_lt (Nat.zero_le _) (hk q0 (by simp))
  set m := (q0 :: rest).length with hmdef
  have hwrap : ((wcenCent blank maxcen (q0 :: rest) ngood).index).mapM (wrap ids.length) =
      some ((q0 :: rest).map Prod.snd ++ List.replicate (maxcen - m) (ids.length - 1)) := by
    rw [mapM_opt _ (fun i : Int => if 0 ≤ i then i.toNat else ids.length - 1)]
    · congr 1
      simp only [wcenCent, List.map_append, List.map_map, List.map_replicate]
      congr 1
    · intro i hi
      simp only [wcenCent, List.mem_append, List.mem_map, List.mem_replicate] at hi
      rcases hi with ⟨q, hq, rfl⟩ | ⟨-, rfl⟩
      · rw [wrap_nat (hk q hq), if_pos (by omega)]
        simp
      · rw [wrap_last hn, if_neg (by omega)]
  have hpos : assign maxcen (wcenCent blank maxcen (q0 :: rest) ngood).pos = .ok ((q0 :: rest).map Prod.fst ++ List.replicate (maxcen - m) blank) := by
    unfold assign
    rw [if_pos]
    · rfl
    · simp only [wcenCent, List.length_append, List.length_map, List.length_replicate]
      omega
  have hidx : (wcenCent blank maxcen (q0 :: rest) ngood).index = (q0.2 : Int) :: ((rest.map fun q => (q.2 : Int)) ++ List.replicate (maxcen - m) (-1)) := rfl
  refine ⟨_, by
    unfold record
    rw [hidx]
    simp only
    rw [if_pos (by omega : (0 : Int) ≤ (q0.2 : Int)), ← hidx, hwrap]
    simp only
    rw [hpos], ?_, ?_, rfl, rfl, ?_⟩
  · simp only [List.head?_cons, Option.map_some]
    exact wrap_nat (hk q0 (by simp))
  · simp only [List.map_append, List.map_map, List.map_replicate]
    rfl
  · intro k
    simp only [Bool.or_eq_true, decide_eq_true_eq, List.mem_append, List.mem_map, List.mem_replicate]
    refine or_congr Iff.rfl (or_congr Iff.rfl (and_congr ?_ Iff.rfl))
    omega

/-- The wish: exactly the candidates are flagged, and only their ids are recorded. -/
def C258_spec : Prop :=
  ∀ (blank : Nat) (maxcen : Nat) (rows : List (Nat × Nat)) (ngood : Nat) (ids : List Nat) (r r' : Rec Nat), rows ≠ [] → rows.length ≤ maxcen →
    (∀ q ∈ rows, q.2 < ids.length) → record maxcen ids (wcenCent blank maxcen rows ngood) r = .ok r' → ∀ k, r'.cand k = true → r.cand k = true ∨ ∃ q ∈ rows, q.2 = k

/-- **C258** is false: with one candidate, the first of three neighbours, and room for two, the third is flagged as well. -/
theorem C258_false : ¬ C258_spec := by
  intro h
  obtain ⟨r', h1, -, -, -, -, h2⟩ := C258_partial 0 2 [(7, 0)] 1 [10, 11, 12] ⟨none, [], [], fun _ => false, 0⟩ (by simp) (by simp) (by simp)
  have := h 0 2 [(7, 0)] 1 [10, 11, 12] _ r' (by simp) (by simp) (by simp) h1 2 ((h2 2).mpr (by simp))
  simp at this

/-- **C258 (brightest galaxy).** The position of the brightest galaxy is written to all entries of the list of positions of the candidates,
although one candidate is reported. -/
theorem C258_bcg (maxcen : Nat) (hm : 2 ≤ maxcen) (pos : R) (k : Nat) (ids : List Nat) (hk : k < ids.length) (r : Rec R) :
    ∃ r', record maxcen ids (bcgCent maxcen pos k) r = .ok r' ∧ r'.central = some k ∧ r'.ncent = 1 ∧ r'.posCent = List.replicate maxcen pos ∧
      r'.idCent = ids.getD k 0 :: List.replicate (maxcen - 1) (ids.getD (ids.length - 1) 0) := by
  have hn : 0 < ids.length := by omega
  have hwrap : ((bcgCent maxcen pos k).index).mapM (wrap ids.length) = some (k :: List.replicate (maxcen - 1) (ids.length - 1)) := by
    rw [mapM_opt _ (fun i : Int => if 0 ≤ i then i.toNat else ids.length - 1)]
    · simp [bcgCent]
    · intro i hi
      simp only [bcgCent, List.mem_cons, List.mem_replicate] at hi
      rcases hi with rfl | ⟨-, rfl⟩
      · rw [wrap_nat hk, if_pos (by omega)]
        simp
      · rw [wrap_last hn, if_neg (by omega)]
  have hidx : (bcgCent maxcen pos k).index = (k : Int) :: List.replicate (maxcen - 1) (-1) := rfl
  have hpos : assign maxcen (bcgCent maxcen pos k).pos = .ok (List.replicate maxcen pos) := by
    unfold assign bcgCent
    rw [if_neg (by simp; omega)]
  refine ⟨_, by
    unfold record
    rw [hidx]
    simp only
    rw [if_pos (by omega : (0 : Int) ≤ (k : Int)), ← hidx, hwrap]
    simp only
    rw [hpos], wrap_nat hk, rfl, rfl, ?_⟩
  simp

/-- **C259.** A random center records its position first and blanks after it, reports one center, and takes nothing from any galaxy: the
magnitudes, the ids of the candidates and the flags stay as they are. -/
theorem C259 (blank : R) (maxcen : Nat) (hm : 1 ≤ maxcen) (pos : R) (ids : List Nat) (r : Rec R) :
    ∃ r', record maxcen ids (randomCent blank maxcen pos) r = .ok r' ∧ r'.central = r.central ∧ r'.idCent = r.idCent ∧ r'.cand = r.cand ∧
      r'.posCent = pos :: List.replicate (maxcen - 1) blank ∧ r'.ncent = 1 := by
  obtain ⟨n, rfl⟩ : ∃ n, maxcen = n + 1 := ⟨maxcen - 1, by omega⟩
  have hidx : (randomCent blank (n + 1) pos).index = (-1 : Int) :: List.replicate n (-1) := rfl
  have hpos : assign (n + 1) (randomCent blank (n + 1) pos).pos = .ok (pos :: List.replicate n blank) := by
    unfold assign randomCent
    rw [if_pos (by simp)]
    rfl
  refine ⟨{ r with ncent := 1, posCent := pos :: List.replicate n blank }, ?_, rfl, rfl, rfl, rfl, rfl⟩
  unfold record
  rw [hidx]
  simp only
  rw [if_neg (by omega : ¬ (0 : Int) ≤ -1), hpos]
  rfl

/-- Non-vacuity: two candidates of four neighbours. -/
example : ([(7, 2), (8, 0)] : List (Nat × Nat)) ≠ [] ∧ ∀ q ∈ ([(7, 2), (8, 0)] : List (Nat × Nat)), q.2 < [10, 11, 12, 13].length := by decide

end Redmapper.WcenLike
