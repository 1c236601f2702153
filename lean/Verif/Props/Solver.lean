/-
Properties C01-C08 and C70: the NFW richness solver.
-/
import Verif.Lemmas.Solver
import Mathlib.Algebra.Order.BigOperators.Group.List
import Mathlib.Data.List.Perm.Basic
import Mathlib.Data.Rat.Lemmas
import Mathlib.Algebra.Order.Ring.Rat

set_option linter.unusedSectionVars false

namespace Redmapper.Solver

variable {α : Type} [Field α] [LinearOrder α] [IsStrictOrderedRing α]

/-! ## Specification

The predicted richness at a trial richness `x`, written directly from the published definition
(sum of `p_mem * w * theta_r` plus the mask correction), without the solver's arrays. -/

/-- Membership probability of a galaxy at trial richness `x`; 0 for an infinite background and
for a vanishing denominator. -/
def specProb (P : Par α) (x : α) (g : Gal α) : α :=
  match g.b with
  | none => 0
  | some b =>
    if x * g.u * P.nfwnorm (P.rlam x) + b = 0 then 0
    else x * g.u * P.nfwnorm (P.rlam x) / (x * g.u * P.nfwnorm (P.rlam x) + b)

/-- Radial weight at trial richness `x`: a hard step for `rsig ≤ 0`, otherwise a soft step. -/
def specTheta (P : Par α) (x : α) (g : Gal α) : α :=
  if P.rsig ≤ 0 then (if g.r < P.rlam x then 1 else 0)
  else if g.r < P.rlam x - 5 * P.rsig then 1
  else if P.rlam x + 5 * P.rsig < g.r then 0
  else P.soft (P.rlam x - g.r)

/-- Predicted richness. -/
def predicted (P : Par α) (gs : List (Gal α)) (x : α) : α :=
  (gs.map fun g => specProb P x g * g.w * specTheta P x g).sum +
    x * max 0 (P.c3 + P.c2 * P.rlam x + P.c1 * P.rlam x ^ 2 + P.c0 * P.rlam x ^ 3)

theorem wtAt_spec (P : Par α) (x : α) (g : Gal α) :
    wtAt P x g = specProb P x g * g.w * specTheta P x g := by
  unfold wtAt weight1 specTheta
  have hp : rawP P x g = specProb P x g := rfl
  simp only [if_true, hp]
  by_cases h : P.rsig ≤ 0
  · simp only [h, if_true]
    split_ifs <;> simp
  · simp only [h, if_false, gt_iff_lt]

theorem cval_spec (P : Par α) (r : α) :
    cval P r = max 0 (P.c3 + P.c2 * r + P.c1 * r ^ 2 + P.c0 * r ^ 3) := by
  have e : P.c3 + P.c2 * r + P.c1 * r * r + P.c0 * r * r * r =
      P.c3 + P.c2 * r + P.c1 * r ^ 2 + P.c0 * r ^ 3 := by ring
  unfold cval
  simp only [e]
  split_ifs with h
  · exact (max_eq_left h.le).symm
  · exact (max_eq_right (not_lt.mp h)).symm

theorem pred_spec (P : Par α) (gs : List (Gal α)) (x : α) : pred P gs x = predicted P gs x := by
  unfold pred predicted
  rw [cval_spec]
  congr 2
  exact List.map_congr_left fun g _ => wtAt_spec P x g

/-! ## C02: exactly 17 bisection steps -/

/-- The solver returns iff its loop is allowed 17 iterations, and then it has performed exactly
17: it terminates on every input. -/
theorem C02_exactly_17_steps (P : Par α) (gs : List (Gal α)) (fuel : Nat) :
    ((∃ res, solveFuel P gs fuel = some res) ↔ 17 ≤ fuel) ∧
    ∀ res, solveFuel P gs fuel = some res → res.steps = 17 := by
  refine ⟨⟨?_, ?_⟩, ?_⟩
  · rintro ⟨res, h⟩
    by_contra hf
    rw [solveFuel_short P gs fuel (by omega)] at h
    cases h
  · intro hf
    exact ⟨_, solveFuel_eq P gs fuel hf⟩
  · intro res h
    rw [solveFuel_some P gs fuel res h]
    have : (finish P gs (run P gs 17)).steps = (run P gs 17).steps := by
      unfold finish; simp only; split_ifs <;> rfl
    rw [this, run_steps]

/-! ## C01: range of the reported richness -/

theorem C01_richness_range (P : Par α) (gs : List (Gal α)) (fuel : Nat) (res : Res α)
    (h : solveFuel P gs fuel = some res) :
    (res.lambda = -1 ∧ res.rlambda = -1) ∨
    (1 ≤ res.lambda ∧ res.lambda < 2000 ∧ res.rlambda = P.rlam res.lambda) := by
  rw [solveFuel_some P gs fuel res h]
  rcases finish_lambda P gs (run P gs 17) with ⟨h1, h2, _⟩ | ⟨h1, h2, h3⟩
  · exact Or.inl ⟨h1, h2⟩
  · right
    rw [h1, h2]
    have hr := run_range P gs 17
    have hl := run_lo_lt_hi P gs 17
    exact ⟨h3, by linarith, rfl⟩

/-! ## C03: the reported richness brackets a self-consistent solution -/

theorem C03_bracket (P : Par α) (gs : List (Gal α)) (fuel : Nat) (res : Res α)
    (h : solveFuel P gs fuel = some res) (h2 : 2 ≤ res.lambda) :
    ∃ lo hi, 1 / 2 ≤ lo ∧ lo < hi ∧ hi ≤ 2000 ∧ hi - lo ≤ 2 * (1 / 100) ∧
      res.lambda = (lo + hi) / 2 ∧
      (lo = 1 / 2 ∨ lo < predicted P gs lo) ∧ (hi = 2000 ∨ predicted P gs hi ≤ hi) := by
  rw [solveFuel_some P gs fuel res h] at h2 ⊢
  have hr := run_range P gs 17
  have hl := run_lo_lt_hi P gs 17
  rcases finish_lambda P gs (run P gs 17) with ⟨h1, _, _⟩ | ⟨h1, _, _⟩
  · rw [h1] at h2; norm_num at h2
  · rw [h1] at h2
    have hs := run_sign P gs 17 (by linarith)
    refine ⟨(run P gs 17).lo, (run P gs 17).hi, hr.1, hl, hr.2, ?_, h1, ?_, ?_⟩
    · rw [run_width]; norm_num
    · rw [← pred_spec]; exact hs.1
    · rw [← pred_spec]; exact hs.2

/-- Corollary: when the predicted richness crosses the trial richness once, at `a`, the reported
richness (if at least 2) is within the tolerance 0.01 of `a`. -/
theorem C03_unique_crossing (P : Par α) (gs : List (Gal α)) (fuel : Nat) (res : Res α) (a : α)
    (h : solveFuel P gs fuel = some res) (h2 : 2 ≤ res.lambda) (ha : a ≤ 2000)
    (hup : ∀ x, 1 / 2 ≤ x → x ≤ 2000 → x < predicted P gs x → x ≤ a)
    (hdn : ∀ x, 1 / 2 ≤ x → x ≤ 2000 → predicted P gs x ≤ x → a ≤ x) :
    |res.lambda - a| ≤ 1 / 100 := by
  obtain ⟨lo, hi, hlo, hlt, hhi, hw, hm, hl, hh⟩ := C03_bracket P gs fuel res h h2
  have h1 : lo ≤ a := by
    rcases hl with rfl | hl
    · exfalso; linarith
    · exact hup lo hlo (by linarith) hl
  have h3 : a ≤ hi := by
    rcases hh with rfl | hh
    · exact ha
    · exact hdn hi (by linarith) hhi hh
  rw [abs_le]
  constructor <;> linarith

/-! ## C04: probabilities and weights lie in [0,1] -/

theorem specProb_mem (P : Par α) (x : α) (g : Gal α) (hx : 0 ≤ x)
    (hn : ∀ y, 0 ≤ P.nfwnorm y) (hu : 0 ≤ g.u) (hb : ∀ b, g.b = some b → 0 ≤ b) :
    0 ≤ specProb P x g ∧ specProb P x g ≤ 1 := by
  unfold specProb
  cases hgb : g.b with
  | none => simp
  | some b =>
    simp only
    have hb := hb b hgb
    have hs : 0 ≤ x * g.u * P.nfwnorm (P.rlam x) := mul_nonneg (mul_nonneg hx hu) (hn _)
    split_ifs with h0
    · simp
    · have hpos : 0 < x * g.u * P.nfwnorm (P.rlam x) + b :=
        lt_of_le_of_ne (by linarith) (Ne.symm h0)
      exact ⟨div_nonneg hs hpos.le, by rw [div_le_one hpos]; linarith⟩

theorem C04_unit_interval (P : Par α) (gs : List (Gal α)) (fuel : Nat) (res : Res α)
    (h : solveFuel P gs fuel = some res)
    (hn : ∀ y, 0 ≤ P.nfwnorm y) (hsoft : ∀ d, 0 ≤ P.soft d ∧ P.soft d ≤ 1)
    (hg : ∀ g ∈ gs, 0 ≤ g.u ∧ (∀ b, g.b = some b → 0 ≤ b) ∧ 0 ≤ g.w ∧ g.w ≤ 1) :
    res.slots.length = gs.length ∧
    ∀ s ∈ res.slots, 0 ≤ s.p ∧ s.p ≤ 1 ∧ 0 ≤ s.wt ∧ s.wt ≤ 1 ∧ s.wt ≤ s.p ∧
      0 ≤ s.th ∧ s.th ≤ 1 := by
  rw [solveFuel_some P gs fuel res h]
  have hth' : ∀ s ∈ (finish P gs (run P gs 17)).slots, 0 ≤ s.th ∧ s.th ≤ 1 := by
    apply slots_inv P gs (fun s => 0 ≤ s.th ∧ s.th ≤ 1) ⟨le_refl _, zero_le_one⟩
    intro x b g s hs
    simp only [weight1_th]
    split_ifs <;> first | exact ⟨zero_le_one, le_refl _⟩ | exact hs | exact ⟨le_refl _, zero_le_one⟩ | exact hsoft _
  obtain ⟨f, hf⟩ := finish_slots P gs
  refine ⟨by rw [hf, List.length_map], ?_⟩
  intro s hs
  have hthS := hth' s hs
  rw [hf] at hs
  obtain ⟨g, hgm, rfl⟩ := List.mem_map.mp hs
  obtain ⟨hu, hb, hw0, hw1⟩ := hg g hgm
  have hmid0 : 0 ≤ (run P gs 16).mid := by
    unfold St.mid
    have := (run_range P gs 16).1
    have := run_lo_lt_hi P gs 16
    have : (0 : α) < 1 / 2 := by norm_num
    linarith
  have hp := specProb_mem P (run P gs 16).mid g hmid0 hn hu hb
  have hthm : 0 ≤ specTheta P (run P gs 16).mid g ∧ specTheta P (run P gs 16).mid g ≤ 1 := by
    unfold specTheta
    split_ifs <;> first | exact ⟨zero_le_one, le_refl _⟩ | exact ⟨le_refl _, zero_le_one⟩ | exact hsoft _
  have e1 : (weight1 P (run P gs 16).mid true g (f g)).p = specProb P (run P gs 16).mid g :=
    weight1_true_p _ _ _ _
  have e2 : (weight1 P (run P gs 16).mid true g (f g)).wt =
      specProb P (run P gs 16).mid g * g.w * specTheta P (run P gs 16).mid g := by
    rw [weight1_true_wt, wtAt_spec]
  have ep : ∀ (y : α) (t : Slot α), (weight1 P y false g t).p = t.p :=
    fun y t => weight1_false_p P y g t
  have ew : ∀ (y : α) (t : Slot α), (weight1 P y false g t).wt = t.wt ∨
      (weight1 P y false g t).wt = 0 := by
    intro y t; rw [weight1_false_wt]; split_ifs <;> simp
  set t := weight1 P (run P gs 16).mid true g (f g) with ht
  have hwt : 0 ≤ t.wt ∧ t.wt ≤ t.p := by
    rw [e1, e2]
    refine ⟨mul_nonneg (mul_nonneg hp.1 hw0) hthm.1, ?_⟩
    have a1 : specProb P (run P gs 16).mid g * g.w ≤ specProb P (run P gs 16).mid g :=
      mul_le_of_le_one_right hp.1 hw1
    exact le_trans (mul_le_of_le_one_right (mul_nonneg hp.1 hw0) hthm.2) a1
  have hpt : 0 ≤ t.p ∧ t.p ≤ 1 := by rw [e1]; exact hp
  rw [ep]
  refine ⟨hpt.1, hpt.2, ?_, ?_, ?_, hthS.1, hthS.2⟩
  · rcases ew (((run P gs 17).lo + (run P gs 17).hi) / 2) t with e | e <;> rw [e]
    exact hwt.1
  · rcases ew (((run P gs 17).lo + (run P gs 17).hi) / 2) t with e | e <;> rw [e]
    · exact le_trans hwt.2 hpt.2
    · exact zero_le_one
  · rcases ew (((run P gs 17).lo + (run P gs 17).hi) / 2) t with e | e <;> rw [e]
    · exact hwt.2
    · exact hpt.1

/-! ## C05: the hard radial cut -/

/-- Full statement of the `theta_r` half of C05 (for one parameter set and galaxy list). -/
def C05_theta_spec (P : Par α) (gs : List (Gal α)) : Prop :=
  ∀ fuel res, solveFuel P gs fuel = some res → 1 ≤ res.lambda →
    ∀ q ∈ gs.zip res.slots, q.2.th = if q.1.r < P.rlam res.lambda then 1 else 0

/-- Proved part of C05: with `rsig ≤ 0` a galaxy at or outside the radius of the reported richness
has returned weight 0, and a galaxy inside has `theta_r = 1`.
Missing: `theta_r = 0` outside, which is false (`C05_theta_outside_false`). -/
theorem C05_hard_cut_partial (P : Par α) (gs : List (Gal α)) (fuel : Nat) (res : Res α)
    (h : solveFuel P gs fuel = some res) (hr : P.rsig ≤ 0) (h1 : 1 ≤ res.lambda) :
    ∀ q ∈ gs.zip res.slots,
      (q.2.wt ≠ 0 → q.1.r < P.rlam res.lambda) ∧ (q.1.r < P.rlam res.lambda → q.2.th = 1) ∧
      (q.2.th = 0 ∨ q.2.th = 1) := by
  rw [solveFuel_some P gs fuel res h] at h1 ⊢
  have hlam : (finish P gs (run P gs 17)).lambda = ((run P gs 17).lo + (run P gs 17).hi) / 2 := by
    rcases finish_lambda P gs (run P gs 17) with ⟨e, _, _⟩ | ⟨e, _, _⟩
    · rw [e] at h1; norm_num at h1
    · exact e
  rw [hlam]
  have hbin : ∀ s ∈ (finish P gs (run P gs 17)).slots, s.th = 0 ∨ s.th = 1 := by
    apply slots_inv P gs (fun s => s.th = 0 ∨ s.th = 1) (Or.inl rfl)
    intro x b g s hs
    simp only [weight1_th, hr, if_true]
    split_ifs
    · exact Or.inr rfl
    · exact hs
  have hfin : (finish P gs (run P gs 17)).slots =
      weights P (((run P gs 17).lo + (run P gs 17).hi) / 2) false gs (run P gs 17).slots := by
    unfold finish; simp only; split_ifs <;> rfl
  intro q hq
  have hb := hbin q.2 (List.of_mem_zip hq).2
  rw [hfin] at hq
  obtain ⟨i, hi, rfl⟩ := List.mem_iff_getElem.mp hq
  rw [List.getElem_zip] at hb ⊢
  refine ⟨?_, ?_, hb⟩
  · unfold weights
    simp only [List.getElem_zipWith, weight1_false_wt, hr, if_true]
    intro hne
    by_contra hc
    rw [if_neg hc] at hne
    exact hne rfl
  · unfold weights
    simp only [List.getElem_zipWith, weight1_th, hr, if_true]
    intro hc
    rw [if_pos hc]

/-- Parameters used in the examples: a linear radius relation, hard cut, no mask correction. -/
def exPar : Par ℚ :=
  { rlam := fun x => x / 100, nfwnorm := fun _ => 1, soft := fun _ => 1 / 2, rsig := 0,
    c0 := 0, c1 := 0, c2 := 0, c3 := 0 }

/-- Three galaxies at the centre with membership probability 1 and one galaxy at radius 5. -/
def exGals : List (Gal ℚ) :=
  [⟨1, some 0, 0, 1⟩, ⟨1, some 0, 0, 1⟩, ⟨1, some 0, 0, 1⟩, ⟨1, some 1, 5, 1⟩]

/-- C05 is false for `theta_r` outside the radius: an entry once set to 1 at a larger trial
richness is never reset.  In the witness the reported richness is about 3, its radius about 0.03,
yet the galaxy at radius 5 is returned with `theta_r = 1`. -/
theorem C05_theta_outside_false :
    ∃ (P : Par ℚ) (gs : List (Gal ℚ)), P.rsig ≤ 0 ∧ ¬ C05_theta_spec P gs := by
  refine ⟨exPar, exGals, le_refl _, ?_⟩
  intro h
  have key : ∃ res, solveFuel exPar exGals 17 = some res ∧ 1 ≤ res.lambda ∧
      ∃ q ∈ exGals.zip res.slots, q.2.th ≠ if q.1.r < exPar.rlam res.lambda then 1 else 0 := by
    have hd : ((solveFuel exPar exGals 17).any fun res => decide (1 ≤ res.lambda) &&
      (exGals.zip res.slots).any fun q =>
        decide (q.2.th ≠ if q.1.r < exPar.rlam res.lambda then 1 else 0)) = true := by
      decide +kernel
    rw [Option.any_eq_true] at hd
    obtain ⟨res, hres, hd⟩ := hd
    rw [Bool.and_eq_true] at hd
    obtain ⟨q, hq, hd2⟩ := List.any_eq_true.mp hd.2
    exact ⟨res, hres, of_decide_eq_true hd.1, q, hq, of_decide_eq_true hd2⟩
  obtain ⟨res, hres, h1, q, hq, hne⟩ := key
  exact hne (h 17 res hres h1 q hq)

/-! ## C06: order of the galaxies -/

theorem C06_permutation (P : Par α) (gs gs' : List (Gal α)) (hp : gs.Perm gs') (fuel : Nat)
    (res res' : Res α) (h : solveFuel P gs fuel = some res)
    (h' : solveFuel P gs' fuel = some res') :
    res.lambda = res'.lambda ∧ res.rlambda = res'.rlambda ∧
    (gs.zip res.slots).Perm (gs'.zip res'.slots) ∧
    ∃ f : Gal α → Slot α, res.slots = gs.map f ∧ res'.slots = gs'.map f := by
  rw [solveFuel_some P gs fuel res h, solveFuel_some P gs' fuel res' h']
  have hpred : ∀ x, pred P gs x = pred P gs' x := by
    intro x
    unfold pred
    rw [(hp.map (wtAt P x)).sum_eq]
  obtain ⟨h1, h2, f, hf, hf'⟩ := finish_sim P gs gs' _ _ (sim_run P gs gs' hpred 17)
  refine ⟨h1, h2, ?_, f, hf, hf'⟩
  have hz : ∀ l : List (Gal α), l.zip (l.map f) = l.map fun g => (g, f g) := by
    intro l
    exact zipWith_map_right _ _ _
  rw [hf, hf', hz, hz]
  exact hp.map _

/-! ## C07: zero-weight galaxies -/

/-- Removing neighbours with `w = 0` (those on which `keep` is false) changes neither the richness
nor any output of the remaining neighbours. -/
theorem C07_zero_weight (P : Par α) (gs : List (Gal α)) (keep : Gal α → Bool)
    (hk : ∀ g ∈ gs, keep g = false → g.w = 0) (fuel : Nat) (res res' : Res α)
    (h : solveFuel P gs fuel = some res)
    (h' : solveFuel P (gs.filter keep) fuel = some res') :
    res.lambda = res'.lambda ∧ res.rlambda = res'.rlambda ∧
    (gs.filter keep).zip res'.slots = (gs.zip res.slots).filter fun q => keep q.1 := by
  rw [solveFuel_some P gs fuel res h, solveFuel_some P _ fuel res' h']
  have hpred : ∀ x, pred P gs x = pred P (gs.filter keep) x := by
    intro x
    unfold pred
    congr 1
    clear h h'
    induction gs with
    | nil => rfl
    | cons g gs ih =>
      have ih := ih (fun g' hg' => hk g' (List.mem_cons_of_mem _ hg'))
      by_cases hkg : keep g
      · simp only [List.filter_cons, hkg, if_true, List.map_cons, List.sum_cons, ih]
      · have hw : wtAt P x g = 0 := by
          rw [wtAt_spec, hk g List.mem_cons_self (by simpa using hkg)]; simp
        simp only [List.filter_cons, hkg, List.map_cons, List.sum_cons, hw, zero_add, ih]
        simp
  obtain ⟨h1, h2, f, hf, hf'⟩ := finish_sim P gs _ _ _ (sim_run P gs _ hpred 17)
  refine ⟨h1, h2, ?_⟩
  have hz : ∀ l : List (Gal α), l.zip (l.map f) = l.map fun g => (g, f g) := by
    intro l
    exact zipWith_map_right _ _ _
  rw [hf, hf', hz, hz, List.filter_map]
  rfl

/-! ## C08: constructor validation -/

theorem C08_constructor (nu nb nr nw nc : Nat) :
    (construct nu nb nr nw nc = .ok () ↔ nb = nu ∧ nr = nu ∧ nw = nu ∧ nc = 4) ∧
    (¬ (nb = nu ∧ nr = nu ∧ nw = nu ∧ nc = 4) →
      ∃ msg, construct nu nb nr nw nc = .error (.valueError msg)) := by
  unfold construct
  constructor
  · split_ifs <;> simp <;> omega
  · intro h
    split_ifs <;> first | exact ⟨_, rfl⟩ | (exfalso; omega)

/-! ## C70: the richness is monotone in the neighbours and in their availability -/

/-- A galaxy meeting the sign conditions the caller establishes. -/
def Physical (g : Gal α) : Prop := 0 ≤ g.u ∧ (∀ b, g.b = some b → 0 ≤ b) ∧ 0 ≤ g.w

theorem lambda_mono_of_pred (P : Par α) (gs gs' : List (Gal α)) (fuel : Nat)
    (res res' : Res α) (h : solveFuel P gs fuel = some res)
    (h' : solveFuel P gs' fuel = some res') (h2 : 2 ≤ res.lambda)
    (hpred : ∀ x, 1 / 2 ≤ x → pred P gs x ≤ pred P gs' x) :
    res.lambda ≤ res'.lambda := by
  rw [solveFuel_some P gs fuel res h] at h2 ⊢
  rw [solveFuel_some P gs' fuel res' h']
  have hl := run_lo_lt_hi P gs 17
  have hl' := run_lo_lt_hi P gs' 17
  rcases finish_lambda P gs (run P gs 17) with ⟨e, _, _⟩ | ⟨e, _, _⟩
  · rw [e] at h2; norm_num at h2
  rw [e] at h2 ⊢
  have hm : ((run P gs 17).lo + (run P gs 17).hi) / 2 ≤
      ((run P gs' 17).lo + (run P gs' 17).hi) / 2 := by
    rcases mono_run P gs gs' hpred 17 (by linarith) with ⟨a, b⟩ | a
    · rw [a, b]
    · linarith
  rcases finish_lambda P gs' (run P gs' 17) with ⟨_, _, e'⟩ | ⟨e', _, _⟩
  · exfalso; linarith
  · rw [e']; exact hm

theorem specTheta_nonneg (P : Par α) (x : α) (g : Gal α) (hsoft : ∀ d, 0 ≤ P.soft d) :
    0 ≤ specTheta P x g := by
  unfold specTheta
  split_ifs <;> first | exact zero_le_one | exact le_refl _ | exact hsoft _

theorem wtAt_nonneg (P : Par α) (x : α) (hx : 0 ≤ x) (g : Gal α) (hn : ∀ y, 0 ≤ P.nfwnorm y)
    (hsoft : ∀ d, 0 ≤ P.soft d) (hg : Physical g) : 0 ≤ wtAt P x g := by
  rw [wtAt_spec]
  have hp := specProb_mem P x g hx hn hg.1 hg.2.1
  exact mul_nonneg (mul_nonneg hp.1 hg.2.2) (specTheta_nonneg P x g hsoft)

/-- Adding neighbours (anywhere in the list) never lowers a reported richness of at least 2. -/
theorem C70_more_neighbours (P : Par α) (gs gs' : List (Gal α)) (fuel : Nat)
    (res res' : Res α) (h : solveFuel P gs fuel = some res)
    (h' : solveFuel P gs' fuel = some res') (h2 : 2 ≤ res.lambda)
    (hn : ∀ y, 0 ≤ P.nfwnorm y) (hsoft : ∀ d, 0 ≤ P.soft d)
    (hsub : gs.Sublist gs') (hg : ∀ g ∈ gs', Physical g) :
    res.lambda ≤ res'.lambda := by
  refine lambda_mono_of_pred P gs gs' fuel res res' h h' h2 ?_
  intro x hx
  have hx0 : 0 ≤ x := le_trans (by norm_num) hx
  unfold pred
  have : (gs.map (wtAt P x)).sum ≤ (gs'.map (wtAt P x)).sum := by
    clear h h'
    induction hsub with
    | slnil => exact le_refl _
    | cons a hs ih =>
      have := ih (fun g hm => hg g (List.mem_cons_of_mem _ hm))
      have ha := wtAt_nonneg P x hx0 a hn hsoft (hg a List.mem_cons_self)
      simp only [List.map_cons, List.sum_cons]
      linarith
    | cons_cons a hs ih =>
      have := ih (fun g hm => hg g (List.mem_cons_of_mem _ hm))
      simp only [List.map_cons, List.sum_cons]
      linarith
  linarith

/-- Making neighbours more available (larger `w`, i.e. less percolation masking), everything else
equal, never lowers a reported richness of at least 2. -/
theorem C70_more_available (P : Par α) (gs gs' : List (Gal α)) (fuel : Nat)
    (res res' : Res α) (h : solveFuel P gs fuel = some res)
    (h' : solveFuel P gs' fuel = some res') (h2 : 2 ≤ res.lambda)
    (hn : ∀ y, 0 ≤ P.nfwnorm y) (hsoft : ∀ d, 0 ≤ P.soft d)
    (hrel : List.Forall₂ (fun g g' => g'.u = g.u ∧ g'.b = g.b ∧ g'.r = g.r ∧ g.w ≤ g'.w ∧
      Physical g) gs gs') :
    res.lambda ≤ res'.lambda := by
  refine lambda_mono_of_pred P gs gs' fuel res res' h h' h2 ?_
  intro x hx
  have hx0 : 0 ≤ x := le_trans (by norm_num) hx
  unfold pred
  have : (gs.map (wtAt P x)).sum ≤ (gs'.map (wtAt P x)).sum := by
    clear h h'
    induction hrel with
    | nil => exact le_refl _
    | @cons g g' l l' hgg _ ih =>
      simp only [List.map_cons, List.sum_cons]
      obtain ⟨hu, hb, hr, hw, hphys⟩ := hgg
      have hp := specProb_mem P x g hx0 hn hphys.1 hphys.2.1
      have ht := specTheta_nonneg P x g hsoft
      have e1 : specProb P x g' = specProb P x g := by unfold specProb; rw [hb, hu]
      have e2 : specTheta P x g' = specTheta P x g := by unfold specTheta; rw [hr]
      have : wtAt P x g ≤ wtAt P x g' := by
        rw [wtAt_spec, wtAt_spec, e1, e2]
        exact mul_le_mul_of_nonneg_right (mul_le_mul_of_nonneg_left hw hp.1) ht
      linarith
  linarith

/-! ## C71: the returned probabilities are those of the membership formula near the richness -/

/-- The returned `p` and `wt` of all neighbours are the membership formula evaluated at one common
trial richness `x` that differs from the reported richness by at most the tolerance 0.01 (under
a hard cut the weight of a galaxy at or outside the reported radius is 0). -/
theorem C71_probabilities_near_richness (P : Par α) (gs : List (Gal α)) (fuel : Nat) (res : Res α)
    (h : solveFuel P gs fuel = some res) (h1 : 1 ≤ res.lambda) :
    ∃ x, |x - res.lambda| ≤ 1 / 100 ∧ res.slots.length = gs.length ∧
      ∀ q ∈ gs.zip res.slots,
        q.2.p = specProb P x q.1 ∧
        q.2.wt = (if P.rsig ≤ 0 ∧ ¬ q.1.r < P.rlam res.lambda then 0
          else specProb P x q.1 * q.1.w * specTheta P x q.1) := by
  rw [solveFuel_some P gs fuel res h] at h1 ⊢
  have hlam : (finish P gs (run P gs 17)).lambda = ((run P gs 17).lo + (run P gs 17).hi) / 2 := by
    rcases finish_lambda P gs (run P gs 17) with ⟨e, _, _⟩ | ⟨e, _, _⟩
    · rw [e] at h1; norm_num at h1
    · exact e
  rw [hlam]
  obtain ⟨f, hf⟩ := finish_slots P gs
  refine ⟨(run P gs 16).mid, ?_, by rw [hf, List.length_map], ?_⟩
  · have hw := run_width P gs 17
    have hw0 : (3999 / 2 : α) / 2 ^ 17 ≤ 2 * (1 / 100) := by norm_num
    have hl := run_lo_lt_hi P gs 17
    have hor : (run P gs 16).mid = (run P gs 17).lo ∨ (run P gs 16).mid = (run P gs 17).hi := by
      rw [run_succ P gs 16]
      by_cases hg : goUp P gs (run P gs 16)
      · left; exact ((step_eq P gs _ (run_inv P gs 16)).1 hg).1.symm
      · right; exact ((step_eq P gs _ (run_inv P gs 16)).2 hg).2.1.symm
    rw [abs_le]
    rcases hor with e | e <;> rw [e] <;> constructor <;> linarith
  · intro q hq
    rw [hf] at hq
    have hz : ∀ F : Gal α → Slot α, gs.zip (gs.map F) = gs.map fun g => (g, F g) :=
      fun F => zipWith_map_right _ _ _
    rw [hz] at hq
    obtain ⟨g, _, rfl⟩ := List.mem_map.mp hq
    simp only
    refine ⟨?_, ?_⟩
    · rw [weight1_false_p, weight1_true_p]; rfl
    · rw [weight1_false_wt, weight1_true_wt, wtAt_spec]
      by_cases hr : P.rsig ≤ 0
      · by_cases hc : g.r < P.rlam (((run P gs 17).lo + (run P gs 17).hi) / 2)
        · simp [hr, hc]
        · simp [hr, hc]
      · simp [hr]

/-! ## Non-vacuity

The example input meets the hypotheses of the theorems above: the solver returns, the richness is
about 3, the hard cut is on, the sign conditions hold. -/

example : (solveFuel exPar exGals 17).any (fun res => decide (2 ≤ res.lambda) &&
    decide (res.lambda < 4) && decide (res.steps = 17)) = true := by decide +kernel

example : exPar.rsig ≤ 0 ∧ (∀ y, 0 ≤ exPar.nfwnorm y) ∧
    (∀ d, 0 ≤ exPar.soft d ∧ exPar.soft d ≤ 1) := by
  refine ⟨le_refl _, fun _ => ?_, fun _ => ?_⟩ <;> simp [exPar] <;> norm_num

example : ∀ g ∈ exGals, Physical g ∧ g.w ≤ 1 := by
  intro g hg
  simp only [exGals, List.mem_cons, List.not_mem_nil, or_false] at hg
  rcases hg with rfl | rfl | rfl | rfl <;> refine ⟨⟨by norm_num, ?_, by norm_num⟩, by norm_num⟩ <;>
    (intro b hb; cases hb; norm_num)

/-- An empty neighbourhood takes the sentinel branch of C01. -/
example : (solveFuel exPar [] 17).any (fun res => decide (res.lambda = -1) &&
    decide (res.rlambda = -1)) = true := by decide +kernel

/-- A zero-weight galaxy to drop (C07), a real permutation (C06). -/
example : ∃ keep : Gal ℚ → Bool, (∃ g ∈ (⟨1, some 1, 0, 0⟩ :: exGals), keep g = false) ∧
    ∀ g ∈ (⟨1, some 1, 0, 0⟩ :: exGals), keep g = false → g.w = 0 :=
  ⟨fun g => decide (g.w ≠ 0), ⟨_, List.mem_cons_self, by decide +kernel⟩, by
    intro g _ h; simpa using h⟩

example : exGals.Perm exGals.reverse ∧ exGals ≠ exGals.reverse :=
  ⟨(List.reverse_perm _).symm, by decide +kernel⟩

example : construct 3 3 3 3 4 = .ok () := rfl

/-- The hypotheses of `C03_unique_crossing` are met with `a = 3` by three certain members. -/
example : (∃ res, solveFuel exPar (exGals.take 3) 17 = some res ∧ 2 ≤ res.lambda) ∧
    (∀ x, 1 / 2 ≤ x → x ≤ 2000 → x < predicted exPar (exGals.take 3) x → x ≤ 3) ∧
    (∀ x, 1 / 2 ≤ x → x ≤ 2000 → predicted exPar (exGals.take 3) x ≤ x → 3 ≤ x) := by
  have hp : ∀ x : ℚ, 1 / 2 ≤ x → predicted exPar (exGals.take 3) x = 3 := by
    intro x hx
    have hx0 : x ≠ 0 := by intro h; rw [h] at hx; norm_num at hx
    have hx1 : 0 < x / 100 := by linarith
    simp [predicted, exGals, exPar, specProb, specTheta, hx0, hx1]
    norm_num
  refine ⟨?_, ?_, ?_⟩
  · have hd : (solveFuel exPar (exGals.take 3) 17).any (fun res => decide (2 ≤ res.lambda))
        = true := by decide +kernel
    rw [Option.any_eq_true] at hd
    obtain ⟨res, h1, h2⟩ := hd
    exact ⟨res, h1, of_decide_eq_true h2⟩
  · intro x hx _ h; rw [hp x hx] at h; exact h.le
  · intro x hx _ h; rw [hp x hx] at h; exact h

end Redmapper.Solver
