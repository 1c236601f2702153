import Verif.Model.Solver
import Mathlib.Tactic.Linarith
import Mathlib.Tactic.NormNum
import Mathlib.Tactic.Ring
import Mathlib.Tactic.FieldSimp
import Mathlib.Tactic.Positivity
import Mathlib.Logic.Function.Iterate

set_option linter.unusedSectionVars false

namespace Redmapper.Solver

variable {α : Type} [Field α] [LinearOrder α]

/-- weight of a galaxy at trial richness `x`: what `weight1 … true` writes, independent of the
previous slot. -/
def wtAt (P : Par α) (x : α) (g : Gal α) : α :=
  (weight1 P x true g ⟨0, 0, 0⟩).wt

theorem weight1_true_wt (P : Par α) (x : α) (g : Gal α) (s : Slot α) :
    (weight1 P x true g s).wt = wtAt P x g := by
  unfold wtAt weight1
  simp only [if_true]
  split_ifs <;> rfl

theorem weight1_true_p (P : Par α) (x : α) (g : Gal α) (s : Slot α) :
    (weight1 P x true g s).p = rawP P x g := by
  unfold weight1
  simp only [if_true]
  split_ifs <;> rfl

theorem zipWith_map_right {β γ δ : Type} (f : β → γ → δ) (h : β → γ) (l : List β) :
    List.zipWith f l (l.map h) = l.map fun b => f b (h b) := by
  induction l with
  | nil => rfl
  | cons a l ih => simp [ih]

theorem weights_map (P : Par α) (x : α) (b : Bool) (gs : List (Gal α)) (f : Gal α → Slot α) :
    weights P x b gs (gs.map f) = gs.map fun g => weight1 P x b g (f g) :=
  zipWith_map_right _ _ _

theorem weight1_th (P : Par α) (x : α) (b : Bool) (g : Gal α) (s : Slot α) :
    (weight1 P x b g s).th =
      if P.rsig ≤ 0 then (if g.r < P.rlam x then 1 else s.th)
      else if g.r < P.rlam x - 5 * P.rsig then 1
      else if g.r > P.rlam x + 5 * P.rsig then 0 else P.soft (P.rlam x - g.r) := by
  unfold weight1
  by_cases h : P.rsig ≤ 0
  · simp only [h, if_true]
    by_cases h' : g.r < P.rlam x
    · simp only [h', if_true]
    · simp only [h', if_false]
  · simp only [h, if_false]

theorem weight1_false_wt (P : Par α) (x : α) (g : Gal α) (s : Slot α) :
    (weight1 P x false g s).wt =
      if P.rsig ≤ 0 then (if g.r < P.rlam x then s.wt else 0) else s.wt := by
  unfold weight1
  by_cases h : P.rsig ≤ 0
  · simp only [h, if_true]
    by_cases h' : g.r < P.rlam x
    · simp [h']
    · simp [h']
  · simp [h]

theorem weight1_false_p (P : Par α) (x : α) (g : Gal α) (s : Slot α) :
    (weight1 P x false g s).p = s.p := by
  unfold weight1
  by_cases h : P.rsig ≤ 0
  · by_cases h' : g.r < P.rlam x
    · simp [h, h']
    · simp [h, h']
  · simp [h]

/-- Predicted richness at trial richness `x`. -/
def pred (P : Par α) (gs : List (Gal α)) (x : α) : α :=
  (gs.map (wtAt P x)).sum + x * cval P (P.rlam x)

theorem outOf_weights (P : Par α) (x : α) (gs : List (Gal α)) (ss : List (Slot α))
    (h : ∃ f, ss = gs.map f) : outOf P x (weights P x true gs ss) = pred P gs x := by
  obtain ⟨f, rfl⟩ := h
  rw [weights_map]
  unfold outOf pred
  congr 2
  rw [List.map_map]
  apply List.map_congr_left
  intro g _
  exact weight1_true_wt _ _ _ _

/-- The decision value used for the lower end. -/
def clampLo (x : α) : α := if x < 1 then 9 / 10 else x

variable [IsStrictOrderedRing α]

/-- Loop invariant relating the variables to `pred`. -/
structure Inv (P : Par α) (gs : List (Gal α)) (s : St α) : Prop where
  slots : ∃ f, s.slots = gs.map f
  outlo : s.outlo = -1 ∨ s.outlo = clampLo (pred P gs s.lo)

theorem clampLo_pos (x : α) : 0 < clampLo x := by
  unfold clampLo; split_ifs with h
  · norm_num
  · linarith [not_lt.mp h]

theorem clampLo_idem (x : α) : clampLo (clampLo x) = clampLo x := by
  unfold clampLo; split_ifs <;> first | rfl | (exfalso; norm_num at *; try linarith)

theorem init_inv (P : Par α) (gs : List (Gal α)) : Inv P gs (init gs) :=
  ⟨⟨fun _ => ⟨0, 0, 0⟩, rfl⟩, Or.inl rfl⟩

/-- The midpoint of a state. -/
def St.mid (s : St α) : α := (s.hi + s.lo) / 2

/-- The "go up" test, in terms of the predicted richness. -/
def goUp (P : Par α) (gs : List (Gal α)) (s : St α) : Prop :=
  (clampLo (pred P gs s.lo) - s.lo) * (pred P gs s.mid - s.mid) > 0

theorem step_slots (P : Par α) (gs : List (Gal α)) (s : St α) (h : Inv P gs s) :
    ∃ f : Gal α → Slot α, (step P gs s).slots = gs.map fun g => weight1 P s.mid true g (f g) := by
  obtain ⟨f, hf⟩ := h.slots
  by_cases ho : s.outlo < 0
  · refine ⟨fun g => weight1 P s.lo true g (f g), ?_⟩
    unfold step St.mid
    simp only [ho, if_true, hf, weights_map]
    split_ifs <;> rfl
  · refine ⟨f, ?_⟩
    unfold step St.mid
    simp only [ho, if_false, hf, weights_map]
    split_ifs <;> rfl

theorem step_eq (P : Par α) (gs : List (Gal α)) (s : St α) (h : Inv P gs s) :
    (goUp P gs s → (step P gs s).lo = s.mid ∧ (step P gs s).hi = s.hi ∧
      (step P gs s).outlo = -1 ∧ (step P gs s).steps = s.steps + 1) ∧
    (¬ goUp P gs s → (step P gs s).lo = s.lo ∧ (step P gs s).hi = s.mid ∧
      (step P gs s).outlo = clampLo (pred P gs s.lo) ∧ (step P gs s).steps = s.steps + 1) := by
  obtain ⟨f, hf⟩ := h.slots
  have hout1 : (if (if s.outlo < 0 then outOf P s.lo
        (if s.outlo < 0 then weights P s.lo true gs s.slots else s.slots) else s.outlo) < 1
      then 9 / 10 else (if s.outlo < 0 then outOf P s.lo
        (if s.outlo < 0 then weights P s.lo true gs s.slots else s.slots) else s.outlo))
      = clampLo (pred P gs s.lo) := by
    rcases h.outlo with ho | ho
    · have : s.outlo < 0 := by rw [ho]; norm_num
      simp only [this, if_true]
      rw [outOf_weights P s.lo gs s.slots h.slots]
      rfl
    · have : ¬ s.outlo < 0 := by rw [ho]; exact not_lt.mpr (clampLo_pos _).le
      simp only [if_neg this]
      rw [ho]
      exact clampLo_idem (pred P gs s.lo)
  have hmid : outOf P s.mid (weights P s.mid true gs
      (if s.outlo < 0 then weights P s.lo true gs s.slots else s.slots)) = pred P gs s.mid := by
    apply outOf_weights
    split_ifs
    · exact ⟨_, by rw [hf, weights_map]⟩
    · exact h.slots
  unfold goUp
  unfold St.mid at *
  constructor
  · intro hg
    unfold step
    simp only [hout1, hmid]
    rw [if_pos hg]
    exact ⟨rfl, rfl, rfl, rfl⟩
  · intro hg
    unfold step
    simp only [hout1, hmid]
    rw [if_neg hg]
    exact ⟨rfl, rfl, rfl, rfl⟩

theorem step_inv (P : Par α) (gs : List (Gal α)) (s : St α) (h : Inv P gs s) :
    Inv P gs (step P gs s) := by
  obtain ⟨f, hf⟩ := step_slots P gs s h
  refine ⟨⟨_, hf⟩, ?_⟩
  by_cases hg : goUp P gs s
  · left; exact ((step_eq P gs s h).1 hg).2.2.1
  · right
    obtain ⟨h1, h2, h3, _⟩ := (step_eq P gs s h).2 hg
    rw [h3, h1]

/-- State after `n` iterations of the loop body. -/
def run (P : Par α) (gs : List (Gal α)) (n : Nat) : St α := (step P gs)^[n] (init gs)

theorem run_zero (P : Par α) (gs : List (Gal α)) : run P gs 0 = init gs := rfl

theorem run_succ (P : Par α) (gs : List (Gal α)) (n : Nat) :
    run P gs (n + 1) = step P gs (run P gs n) := Function.iterate_succ_apply' _ _ _

theorem run_inv (P : Par α) (gs : List (Gal α)) (n : Nat) : Inv P gs (run P gs n) := by
  induction n with
  | zero => exact init_inv P gs
  | succ n ih => rw [run_succ]; exact step_inv P gs _ ih

theorem run_steps (P : Par α) (gs : List (Gal α)) (n : Nat) : (run P gs n).steps = n := by
  induction n with
  | zero => rfl
  | succ n ih =>
    rw [run_succ]
    by_cases hg : goUp P gs (run P gs n)
    · rw [((step_eq P gs _ (run_inv P gs n)).1 hg).2.2.2, ih]
    · rw [((step_eq P gs _ (run_inv P gs n)).2 hg).2.2.2, ih]

theorem run_width (P : Par α) (gs : List (Gal α)) (n : Nat) :
    (run P gs n).hi - (run P gs n).lo = (3999 / 2) / 2 ^ n := by
  induction n with
  | zero => rw [run_zero]; unfold init; norm_num
  | succ n ih =>
    rw [run_succ, pow_succ]
    have h2 : (3999 / 2 : α) / (2 ^ n * 2) = ((3999 / 2) / 2 ^ n) / 2 := by field_simp
    rw [h2, ← ih]
    by_cases hg : goUp P gs (run P gs n)
    · obtain ⟨h1, h2, _⟩ := (step_eq P gs _ (run_inv P gs n)).1 hg
      rw [h1, h2]; unfold St.mid; ring
    · obtain ⟨h1, h2, _⟩ := (step_eq P gs _ (run_inv P gs n)).2 hg
      rw [h1, h2]; unfold St.mid; ring

theorem run_lo_lt_hi (P : Par α) (gs : List (Gal α)) (n : Nat) :
    (run P gs n).lo < (run P gs n).hi := by
  have h := run_width P gs n
  have : (0 : α) < (3999 / 2) / 2 ^ n := by positivity
  linarith

theorem run_bracket_mono (P : Par α) (gs : List (Gal α)) (n k : Nat) :
    (run P gs n).lo ≤ (run P gs (n + k)).lo ∧ (run P gs (n + k)).hi ≤ (run P gs n).hi := by
  induction k with
  | zero => simp
  | succ k ih =>
    rw [← Nat.add_assoc, run_succ]
    have hl := run_lo_lt_hi P gs (n + k)
    by_cases hg : goUp P gs (run P gs (n + k))
    · obtain ⟨h1, h2, _⟩ := (step_eq P gs _ (run_inv P gs (n + k))).1 hg
      rw [h1, h2]; unfold St.mid
      exact ⟨by linarith [ih.1], ih.2⟩
    · obtain ⟨h1, h2, _⟩ := (step_eq P gs _ (run_inv P gs (n + k))).2 hg
      rw [h1, h2]; unfold St.mid
      exact ⟨ih.1, by linarith [ih.2]⟩

theorem run_range (P : Par α) (gs : List (Gal α)) (n : Nat) :
    1 / 2 ≤ (run P gs n).lo ∧ (run P gs n).hi ≤ 2000 := by
  have := run_bracket_mono P gs 0 n
  simpa [run_zero, init] using this

/-- With the compiled-in tolerance the loop runs exactly 17 times. -/
theorem loop_run (P : Par α) (gs : List (Gal α)) (n k : Nat) (hn : n + k = 17) :
    ∀ fuel, k ≤ fuel → loop P gs tolDefault fuel (run P gs n) = some (run P gs 17) := by
  induction k generalizing n with
  | zero =>
    intro fuel _
    have hn' : n = 17 := by omega
    subst hn'
    unfold loop
    rw [if_neg]
    rw [run_width]
    unfold tolDefault
    rw [abs_of_pos (by positivity)]
    norm_num
  | succ k ih =>
    intro fuel hf
    obtain ⟨fuel, rfl⟩ : ∃ m, fuel = m + 1 := ⟨fuel - 1, by omega⟩
    unfold loop
    rw [if_pos]
    · simp only
      rw [← run_succ]
      exact ih (n + 1) (by omega) fuel (by omega)
    · rw [run_width, abs_of_pos (by positivity)]
      unfold tolDefault
      have h1 : (2 : α) ^ n ≤ 2 ^ 16 := pow_le_pow_right₀ (by norm_num) (by omega)
      have h2 : (3999 / 2 : α) / 2 ^ 16 ≤ (3999 / 2) / 2 ^ n := by
        apply div_le_div_of_nonneg_left (by norm_num) (by positivity) h1
      refine lt_of_lt_of_le ?_ h2
      norm_num

/-- With too little fuel the loop is cut off: the 17 iterations are really performed. -/
theorem loop_short (P : Par α) (gs : List (Gal α)) (n : Nat) :
    ∀ fuel, n + fuel < 17 → loop P gs tolDefault fuel (run P gs n) = none := by
  intro fuel
  induction fuel generalizing n with
  | zero =>
    intro hn
    unfold loop
    rw [if_pos]
    rw [run_width, abs_of_pos (by positivity)]
    unfold tolDefault
    have h1 : (2 : α) ^ n ≤ 2 ^ 16 := pow_le_pow_right₀ (by norm_num) (by omega)
    have h2 : (3999 / 2 : α) / 2 ^ 16 ≤ (3999 / 2) / 2 ^ n := by
      apply div_le_div_of_nonneg_left (by norm_num) (by positivity) h1
    refine lt_of_lt_of_le ?_ h2
    norm_num
  | succ fuel ih =>
    intro hn
    unfold loop
    rw [if_pos]
    · simp only
      rw [← run_succ]
      exact ih (n + 1) (by omega)
    · rw [run_width, abs_of_pos (by positivity)]
      unfold tolDefault
      have h1 : (2 : α) ^ n ≤ 2 ^ 16 := pow_le_pow_right₀ (by norm_num) (by omega)
      have h2 : (3999 / 2 : α) / 2 ^ 16 ≤ (3999 / 2) / 2 ^ n := by
        apply div_le_div_of_nonneg_left (by norm_num) (by positivity) h1
      refine lt_of_lt_of_le ?_ h2
      norm_num

theorem solveFuel_eq (P : Par α) (gs : List (Gal α)) (fuel : Nat) (h : 17 ≤ fuel) :
    solveFuel P gs fuel = some (finish P gs (run P gs 17)) := by
  unfold solveFuel
  rw [← run_zero P gs, loop_run P gs 0 17 rfl fuel h]
  rfl

theorem solveFuel_short (P : Par α) (gs : List (Gal α)) (fuel : Nat) (h : fuel < 17) :
    solveFuel P gs fuel = none := by
  unfold solveFuel
  rw [← run_zero P gs, loop_short P gs 0 fuel (by omega)]
  rfl

theorem solveFuel_some (P : Par α) (gs : List (Gal α)) (fuel : Nat) (res : Res α)
    (h : solveFuel P gs fuel = some res) : res = finish P gs (run P gs 17) := by
  by_cases hf : 17 ≤ fuel
  · rw [solveFuel_eq P gs fuel hf] at h; exact (Option.some.inj h).symm
  · rw [solveFuel_short P gs fuel (by omega)] at h; cases h

/-! ### the bracket -/

/-- `lo - 1/2` is a natural multiple of the width. -/
theorem run_grid (P : Par α) (gs : List (Gal α)) (n : Nat) :
    ∃ k : Nat, (run P gs n).lo - 1 / 2 = k * ((run P gs n).hi - (run P gs n).lo) := by
  induction n with
  | zero => exact ⟨0, by rw [run_zero]; unfold init; simp⟩
  | succ n ih =>
    obtain ⟨k, hk⟩ := ih
    rw [run_succ]
    by_cases hg : goUp P gs (run P gs n)
    · obtain ⟨h1, h2, _⟩ := (step_eq P gs _ (run_inv P gs n)).1 hg
      refine ⟨2 * k + 1, ?_⟩
      rw [h1, h2]; unfold St.mid; push_cast; linarith
    · obtain ⟨h1, h2, _⟩ := (step_eq P gs _ (run_inv P gs n)).2 hg
      refine ⟨2 * k, ?_⟩
      rw [h1, h2]; unfold St.mid; push_cast; linarith

/-- If the lower end is in `(9/10, 1)` the upper end is below 2. -/
theorem hi_lt_two (P : Par α) (gs : List (Gal α)) (n : Nat)
    (h1 : 9 / 10 < (run P gs n).lo) (h2 : (run P gs n).lo < 1) : (run P gs n).hi < 2 := by
  obtain ⟨k, hk⟩ := run_grid P gs n
  have hw := run_lo_lt_hi P gs n
  have hk1 : 1 ≤ k := by
    rcases Nat.eq_zero_or_pos k with rfl | h
    · simp at hk; linarith
    · exact h
  have : (1 : α) ≤ k := by exact_mod_cast hk1
  nlinarith

/-- Sign invariant: as long as the upper end is at least 2 the lower end is on the "predicted
exceeds trial" side and the upper end is not. -/
theorem run_sign (P : Par α) (gs : List (Gal α)) (n : Nat) (h2 : 2 ≤ (run P gs n).hi) :
    ((run P gs n).lo = 1 / 2 ∨ (run P gs n).lo < pred P gs (run P gs n).lo) ∧
    ((run P gs n).hi = 2000 ∨ pred P gs (run P gs n).hi ≤ (run P gs n).hi) := by
  induction n with
  | zero => simp [run_zero, init]
  | succ n ih =>
    have hmono := (run_bracket_mono P gs n 1).2
    have ih := ih (le_trans h2 hmono)
    have hI := run_inv P gs n
    have hlopos : 0 < clampLo (pred P gs (run P gs n).lo) - (run P gs n).lo := by
      have hr := (run_range P gs n).1
      rcases ih.1 with h | h
      · rw [h]; unfold clampLo; split_ifs with hc
        · norm_num
        · have := not_lt.mp hc
          have h12 : (1 / 2 : α) < 1 := by norm_num
          linarith
      · unfold clampLo; split_ifs with hc
        · have hlt1 : (run P gs n).lo < 1 := lt_trans h hc
          by_contra hcon
          have hge : 9 / 10 ≤ (run P gs n).lo := by linarith
          rcases lt_or_eq_of_le hge with hlt | heq
          · have := hi_lt_two P gs n hlt hlt1
            linarith [le_trans h2 hmono]
          · -- lo = 9/10 exactly: same width bound
            obtain ⟨k, hk⟩ := run_grid P gs n
            have hw := run_lo_lt_hi P gs n
            have hk1 : 1 ≤ k := by
              rcases Nat.eq_zero_or_pos k with rfl | h
              · rw [← heq] at hk; norm_num at hk
              · exact h
            have : (1 : α) ≤ k := by exact_mod_cast hk1
            nlinarith [le_trans h2 hmono]
        · linarith
    rw [run_succ] at h2 ⊢
    by_cases hg : goUp P gs (run P gs n)
    · obtain ⟨e1, e2, _⟩ := (step_eq P gs _ hI).1 hg
      rw [e1, e2]
      refine ⟨Or.inr ?_, ih.2⟩
      unfold goUp at hg
      have := (mul_pos_iff_of_pos_left hlopos).mp hg
      linarith
    · obtain ⟨e1, e2, _⟩ := (step_eq P gs _ hI).2 hg
      rw [e1, e2]
      refine ⟨ih.1, Or.inr ?_⟩
      unfold goUp at hg
      by_contra hcon
      exact hg (mul_pos hlopos (by linarith [not_le.mp hcon]))

/-! ### final slots -/

theorem finish_slots (P : Par α) (gs : List (Gal α)) :
    ∃ f : Gal α → Slot α, (finish P gs (run P gs 17)).slots =
      gs.map fun g => weight1 P (((run P gs 17).lo + (run P gs 17).hi) / 2) false g
        (weight1 P (run P gs 16).mid true g (f g)) := by
  obtain ⟨f, hf⟩ := step_slots P gs (run P gs 16) (run_inv P gs 16)
  refine ⟨f, ?_⟩
  rw [← run_succ] at hf
  unfold finish
  simp only [hf, weights_map]
  split_ifs <;> rfl

theorem finish_lambda (P : Par α) (gs : List (Gal α)) (s : St α) :
    ((finish P gs s).lambda = -1 ∧ (finish P gs s).rlambda = -1 ∧ (s.lo + s.hi) / 2 < 1) ∨
    ((finish P gs s).lambda = (s.lo + s.hi) / 2 ∧
      (finish P gs s).rlambda = P.rlam ((s.lo + s.hi) / 2) ∧ 1 ≤ (s.lo + s.hi) / 2) := by
  unfold finish
  simp only
  split_ifs with h
  · left; exact ⟨rfl, rfl, h⟩
  · right; exact ⟨rfl, rfl, not_lt.mp h⟩

/-- A property of slots that every weight computation establishes or preserves holds of all
final slots. -/
theorem slots_inv (P : Par α) (gs : List (Gal α)) (Q : Slot α → Prop) (h0 : Q ⟨0, 0, 0⟩)
    (hstep : ∀ x b g s, Q s → Q (weight1 P x b g s)) :
    ∀ s ∈ (finish P gs (run P gs 17)).slots, Q s := by
  have key : ∀ (x : α) (b : Bool) (ss : List (Slot α)),
      (∀ s ∈ ss, Q s) → ∀ s ∈ weights P x b gs ss, Q s := by
    intro x b ss hss s hs
    unfold weights at hs
    obtain ⟨i, hi, rfl⟩ := List.mem_iff_getElem.mp hs
    rw [List.getElem_zipWith]
    have hi' : i < ss.length := by rw [List.length_zipWith] at hi; omega
    exact hstep _ _ _ _ (hss _ (List.getElem_mem hi'))
  have hrun : ∀ n, ∀ s ∈ (run P gs n).slots, Q s := by
    intro n
    induction n with
    | zero =>
      intro s hs
      rw [run_zero] at hs
      unfold init at hs
      obtain ⟨g, _, rfl⟩ := List.mem_map.mp hs
      exact h0
    | succ n ih =>
      rw [run_succ]
      intro s hs
      have : s ∈ weights P (((run P gs n).hi + (run P gs n).lo) / 2) true gs
          (if (run P gs n).outlo < 0 then
          weights P (run P gs n).lo true gs (run P gs n).slots else (run P gs n).slots) := by
        unfold step at hs
        simp only at hs
        split_ifs at hs ⊢ <;> exact hs
      refine key _ _ _ ?_ s this
      split_ifs
      · exact key _ _ _ ih
      · exact ih
  intro s hs
  have hs' : s ∈ weights P (((run P gs 17).lo + (run P gs 17).hi) / 2) false gs
      (run P gs 17).slots := by
    unfold finish at hs; simp only at hs; split_ifs at hs <;> exact hs
  exact key _ _ _ (hrun 17) s hs'

/-! ### simulation between two galaxy lists with the same predicted richness -/

/-- Two runs agree on everything but the list they carry. -/
structure Sim (gs gs' : List (Gal α)) (s s' : St α) : Prop where
  lo : s.lo = s'.lo
  hi : s.hi = s'.hi
  steps : s.steps = s'.steps
  outlo : s.outlo = s'.outlo
  slots : ∃ f, s.slots = gs.map f ∧ s'.slots = gs'.map f

theorem sim_run (P : Par α) (gs gs' : List (Gal α))
    (h : ∀ x, pred P gs x = pred P gs' x) (n : Nat) :
    Sim gs gs' (run P gs n) (run P gs' n) := by
  induction n with
  | zero => exact ⟨rfl, rfl, rfl, rfl, fun _ => ⟨0, 0, 0⟩, rfl, rfl⟩
  | succ n ih =>
    rw [run_succ, run_succ]
    have hI := run_inv P gs n
    have hI' := run_inv P gs' n
    have hmid : (run P gs n).mid = (run P gs' n).mid := by unfold St.mid; rw [ih.lo, ih.hi]
    have hgo : goUp P gs (run P gs n) ↔ goUp P gs' (run P gs' n) := by
      unfold goUp; rw [h, h, ih.lo, hmid]
    have hs : ∃ f, (step P gs (run P gs n)).slots = gs.map f ∧
        (step P gs' (run P gs' n)).slots = gs'.map f := by
      obtain ⟨f, hf, hf'⟩ := ih.slots
      by_cases ho : (run P gs n).outlo < 0
      · have ho' : (run P gs' n).outlo < 0 := by rw [← ih.outlo]; exact ho
        refine ⟨fun g => weight1 P (run P gs n).mid true g
          (weight1 P (run P gs n).lo true g (f g)), ?_, ?_⟩
        · unfold step
          simp only [ho, if_true, hf, weights_map]
          split_ifs <;> rfl
        · rw [hmid, ih.lo]
          unfold step
          simp only [ho', if_true, hf', weights_map]
          split_ifs <;> rfl
      · have ho' : ¬ (run P gs' n).outlo < 0 := by rw [← ih.outlo]; exact ho
        refine ⟨fun g => weight1 P (run P gs n).mid true g (f g), ?_, ?_⟩
        · unfold step
          simp only [ho, if_false, hf, weights_map]
          split_ifs <;> rfl
        · rw [hmid]
          unfold step
          simp only [ho', if_false, hf', weights_map]
          split_ifs <;> rfl
    by_cases hg : goUp P gs (run P gs n)
    · obtain ⟨a1, a2, a3, a4⟩ := (step_eq P gs _ hI).1 hg
      obtain ⟨b1, b2, b3, b4⟩ := (step_eq P gs' _ hI').1 (hgo.mp hg)
      exact ⟨by rw [a1, b1, hmid], by rw [a2, b2, ih.hi], by rw [a4, b4, ih.steps],
        by rw [a3, b3], hs⟩
    · obtain ⟨a1, a2, a3, a4⟩ := (step_eq P gs _ hI).2 hg
      obtain ⟨b1, b2, b3, b4⟩ := (step_eq P gs' _ hI').2 (fun hh => hg (hgo.mpr hh))
      exact ⟨by rw [a1, b1, ih.lo], by rw [a2, b2, hmid], by rw [a4, b4, ih.steps],
        by rw [a3, b3, h, ih.lo], hs⟩

theorem finish_sim (P : Par α) (gs gs' : List (Gal α)) (s s' : St α) (h : Sim gs gs' s s') :
    (finish P gs s).lambda = (finish P gs' s').lambda ∧
    (finish P gs s).rlambda = (finish P gs' s').rlambda ∧
    ∃ f, (finish P gs s).slots = gs.map f ∧ (finish P gs' s').slots = gs'.map f := by
  obtain ⟨f, hf, hf'⟩ := h.slots
  unfold finish
  simp only [h.lo, h.hi, hf, hf', weights_map]
  split_ifs
  · exact ⟨rfl, rfl, _, rfl, rfl⟩
  · exact ⟨rfl, rfl, _, rfl, rfl⟩

/-! ### monotone dependence on the predicted richness -/

theorem mono_run (P : Par α) (gs gs' : List (Gal α))
    (h : ∀ x, 1 / 2 ≤ x → pred P gs x ≤ pred P gs' x) (n : Nat)
    (h2 : 2 ≤ (run P gs n).hi) :
    ((run P gs n).lo = (run P gs' n).lo ∧ (run P gs n).hi = (run P gs' n).hi) ∨
    (run P gs n).hi ≤ (run P gs' n).lo := by
  induction n with
  | zero => left; exact ⟨rfl, rfl⟩
  | succ n ih =>
    have hmono := (run_bracket_mono P gs n 1).2
    have h2n : 2 ≤ (run P gs n).hi := le_trans h2 hmono
    rcases ih h2n with ⟨hlo, hhi⟩ | hsep
    · have hs := run_sign P gs n h2n
      have hs' := run_sign P gs' n (by rw [← hhi]; exact h2n)
      have hmid : (run P gs n).mid = (run P gs' n).mid := by unfold St.mid; rw [hlo, hhi]
      -- positivity of the lower residual in both runs
      have key : ∀ l : List (Gal α), (2 : α) ≤ (run P l n).hi →
          0 < clampLo (pred P l (run P l n).lo) - (run P l n).lo := by
        intro l hl
        have hs := run_sign P l n hl
        rcases hs.1 with h | h
        · rw [h]; unfold clampLo; split_ifs with hc
          · norm_num
          · have := not_lt.mp hc
            have h12 : (1 / 2 : α) < 1 := by norm_num
            linarith
        · unfold clampLo; split_ifs with hc
          · have hlt1 : (run P l n).lo < 1 := lt_trans h hc
            by_contra hcon
            have hge : 9 / 10 ≤ (run P l n).lo := by linarith
            obtain ⟨k, hk⟩ := run_grid P l n
            have hw := run_lo_lt_hi P l n
            have hk1 : 1 ≤ k := by
              rcases Nat.eq_zero_or_pos k with rfl | h
              · simp at hk; linarith
              · exact h
            have : (1 : α) ≤ k := by exact_mod_cast hk1
            nlinarith
          · linarith
      have k1 := key gs h2n
      have k2 := key gs' (by rw [← hhi]; exact h2n)
      rw [run_succ, run_succ]
      by_cases hg : goUp P gs (run P gs n)
      · have hg' : goUp P gs' (run P gs' n) := by
          unfold goUp at hg ⊢
          have := (mul_pos_iff_of_pos_left k1).mp hg
          apply mul_pos k2
          rw [← hmid]
          have hm : 1 / 2 ≤ (run P gs n).mid := by
            unfold St.mid
            have := (run_range P gs n).1
            have := run_lo_lt_hi P gs n
            linarith
          linarith [h (run P gs n).mid hm]
        obtain ⟨a1, a2, _⟩ := (step_eq P gs _ (run_inv P gs n)).1 hg
        obtain ⟨b1, b2, _⟩ := (step_eq P gs' _ (run_inv P gs' n)).1 hg'
        left; exact ⟨by rw [a1, b1, hmid], by rw [a2, b2, hhi]⟩
      · obtain ⟨a1, a2, _⟩ := (step_eq P gs _ (run_inv P gs n)).2 hg
        by_cases hg' : goUp P gs' (run P gs' n)
        · obtain ⟨b1, b2, _⟩ := (step_eq P gs' _ (run_inv P gs' n)).1 hg'
          right; rw [a2, b1, hmid]
        · obtain ⟨b1, b2, _⟩ := (step_eq P gs' _ (run_inv P gs' n)).2 hg'
          left; exact ⟨by rw [a1, b1, hlo], by rw [a2, b2, hmid]⟩
    · right
      exact le_trans hmono (le_trans hsep (run_bracket_mono P gs' n 1).1)

end Redmapper.Solver
