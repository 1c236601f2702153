/-
The richness error in floating point.
-/
import Verif.Model.FlErr
import Verif.Props.FlBins

namespace Redmapper.FlErr

open Redmapper.FlSolver Redmapper.FlSolver.XF Redmapper.FlExact

variable {R : ℚ → XF}

/-- Number of places of an order. -/
def places : Order → ℕ
  | .zero => 0
  | .place _ => 1
  | .plus a b => places a + places b

/-- Sums of numbers of [0,1] are not above the number of places, and sums of smaller numbers are not larger. -/
theorem sum_mono (hR : Rounding R) (f g : ℕ → XF) (h : ∀ i, ∃ p q : ℚ, f i = fin p ∧ g i = fin q ∧ 0 ≤ p ∧ p ≤ q ∧ q ≤ 1) :
    ∀ t : Order, places t ≤ 2 ^ 53 → ∃ p q : ℚ, sumIn R f t = fin p ∧ sumIn R g t = fin q ∧ 0 ≤ p ∧ p ≤ q ∧ q ≤ places t
  | .zero, _ => ⟨0, 0, rfl, rfl, le_rfl, le_rfl, by simp [places]⟩
  | .place i, _ => by simpa [sumIn, places] using h i
  | .plus a b, hn => by
    simp only [places] at hn
    obtain ⟨p, q, h1, h2, h3, h4, h5⟩ := sum_mono hR f g h a (by omega)
    obtain ⟨p', q', h1', h2', h3', h4', h5'⟩ := sum_mono hR f g h b (by omega)
    have e := exact_int hR ((places a + places b : ℕ) : ℤ) (by
      rw [abs_of_nonneg (by positivity)]; exact_mod_cast hn)
    rw [Int.cast_natCast] at e
    have s0 : 0 ≤ q + q' := by linarith
    have s1 : q + q' ≤ ((places a + places b : ℕ) : ℚ) := by push_cast; linarith
    obtain ⟨y, hy, y0, y1⟩ := between hR (R0 hR) e s0 s1
    obtain ⟨x, hx, x0, x1⟩ := between hR (R0 hR) e (q := p + p') (by linarith) (by linarith)
    have m := hR.mono (p + p') (q + q') (by linarith)
    rw [hx, hy] at m
    simp only [le, decide_eq_true_eq] at m
    exact ⟨x, y, by simp only [sumIn, h1, h1', add, hx], by simp only [sumIn, h2, h2', add, hy], x0, m, y1⟩

theorem twice (n : ℕ) {a b : ℚ} (h1 : a ≤ 2 ^ n) (h2 : b ≤ 2 ^ n) : a + b ≤ 2 ^ (n + 1) := by rw [pow_succ]; linarith

theorem pow_num (n : ℕ) : (0 : ℚ) < 2 ^ n := by positivity

/-- Rounding between powers of two. -/
theorem round_pow (hR : Rounding R) (hA : Accurate R) {q : ℚ} {m k : ℕ} (hm : m ≤ 1000) (hk : k ≤ 1000) (h1 : 1 / 2 ^ m ≤ q) (h2 : q ≤ 2 ^ k) :
    ∃ v, R q = fin v ∧ 1 / 2 ^ (m + 1) ≤ v ∧ v ≤ 2 ^ (k + 1) := by
  have h0 : 0 < q := lt_of_lt_of_le (by positivity) h1
  obtain ⟨v, hv, he⟩ := hA q (by
    rw [abs_of_pos h0]
    exact (one_div_le_one_div_of_le (pow_num m) (pow_le_pow_right₀ (by norm_num) hm)).trans h1) (by
    rw [abs_of_pos h0]
    exact h2.trans (pow_le_pow_right₀ (by norm_num) hk))
  rw [abs_of_pos h0] at he
  exact ⟨v, hv, lo_half h1 he, hi_two h0 h2 he⟩

/-- Rounding of a number that is not negative and not huge. -/
theorem round_up (hR : Rounding R) (hA : Accurate R) {q : ℚ} {k : ℕ} (hk : k ≤ 999) (h0 : 0 ≤ q) (h2 : q ≤ 2 ^ k) : ∃ v, R q = fin v ∧ 0 ≤ v ∧ v ≤ 2 ^ (k + 1) := by
  obtain ⟨v, hv, v0, ve⟩ := round_nn hR hA h0 (h2.trans (pow_le_pow_right₀ (by norm_num) (by omega)))
  refine ⟨v, hv, v0, ?_⟩
  have a := abs_le.1 ve
  have hu3 : uu ≤ 1 / 100 := by unfold uu; norm_num
  have h3 : uu * q ≤ 1 / 100 * q := mul_le_mul_of_nonneg_right hu3 h0
  have h4 : (1 : ℚ) ≤ 2 ^ k := one_le_pow₀ (by norm_num)
  rw [pow_succ]
  linarith

/-- C395: in floating point the argument of the square root of the richness error is a number, not negative: the richness error is never "not a
number".  Memberships are doubles of [0,1]; the sum of the memberships that the code computes is not below 2^-400. -/
theorem C395 (hR : Rounding R) (hA : Accurate R) (t : Order) (ht : places t ≤ 2 ^ 53) (pmem : ℕ → XF)
    (hp : ∀ i, ∃ p : ℚ, pmem i = fin p ∧ R p = fin p ∧ 0 ≤ p ∧ p ≤ 1) (S : ℚ) (hS : sumIn R pmem t = fin S) (hS1 : 1 / 2 ^ 400 ≤ S)
    (lam : ℚ) (hl1 : 1 ≤ lam) (hl2 : lam ≤ 2000) (c : ℚ) (hc : |c| ≤ 2 ^ 400) :
    ∃ v, radicand R t pmem (fin lam) (fin c) = fin v ∧ 0 ≤ v := by
  -- the two sums
  obtain ⟨T, S', hT, hS', t0, ts, sn⟩ := sum_mono hR (fun i => mul R (pmem i) (pmem i)) pmem (fun i => by
    obtain ⟨p, h1, h2, h3, h4⟩ := hp i
    obtain ⟨v, hv, -, v0, v1⟩ := mul_unit hR h2 h3 h3 h4
    exact ⟨v, p, by rw [h1]; exact hv, h1, v0, v1, h4⟩) t ht
  have : S' = S := by rw [hS] at hS'; simpa using hS'.symm
  subst this
  have p400 : (0 : ℚ) < 1 / 2 ^ 400 := by positivity
  have s0 : 0 < S' := lt_of_lt_of_le p400 hS1
  have s53 : S' ≤ 2 ^ 53 := sn.trans (by exact_mod_cast ht)
  have l0 : 0 < lam := by linarith
  -- mean membership
  obtain ⟨b, hb, b0, b1⟩ := between hR (R0 hR) (R1 hR) (q := T / S') (div_nonneg t0 s0.le) ((div_le_one s0).2 ts)
  have hbar : barPmem R t pmem = fin b := by
    unfold barPmem; rw [hT, hS]; simp only [div, if_neg s0.ne', hb]
  obtain ⟨d, hd, d0, d1⟩ := between hR (R0 hR) (R1 hR) (q := 1 - b) (by linarith) (by linarith)
  -- scale
  have q1 : 1 / 2 ^ 53 ≤ lam / S' := by
    rw [div_le_div_iff₀ (by positivity) s0]
    have : (1 : ℚ) * 2 ^ 53 ≤ lam * 2 ^ 53 := mul_le_mul_of_nonneg_right hl1 (by positivity)
    linarith
  have q2 : lam / S' ≤ 2 ^ 411 := by
    rw [div_le_iff₀ s0]
    have h1 : (2 : ℚ) ^ 411 * (1 / 2 ^ 400) = 2 ^ 11 := by
      rw [show (411 : ℕ) = 11 + 400 from rfl, pow_add, mul_assoc, mul_one_div, div_self (pow_num 400).ne', mul_one]
    have h2 : (2 : ℚ) ^ 411 * (1 / 2 ^ 400) ≤ 2 ^ 411 * S' := mul_le_mul_of_nonneg_left hS1 (pow_num 411).le
    rw [h1] at h2
    exact (hl2.trans (by norm_num)).trans h2
  obtain ⟨s, hs, hs1, hs2⟩ := round_pow hR hA (by norm_num) (by norm_num) q1 q2
  have ss0 : 0 < s := lt_of_lt_of_le (by positivity) hs1
  have hsc : scaleval R t pmem (fin lam) = fin s := by
    unfold scaleval; rw [hS]; simp only [div, if_neg s0.ne', hs]
    show fin |s| = fin s
    rw [abs_of_pos ss0]
  -- unscaled richness
  have q3 : lam / s ≤ 2 ^ 65 := by
    rw [div_le_iff₀ ss0]
    have h1 : (2 : ℚ) ^ 65 * (1 / 2 ^ 54) = 2 ^ 11 := by norm_num
    have h2 : (2 : ℚ) ^ 65 * (1 / 2 ^ 54) ≤ 2 ^ 65 * s := mul_le_mul_of_nonneg_left hs1 (pow_num 65).le
    rw [h1] at h2
    exact (hl2.trans (by norm_num)).trans h2
  obtain ⟨w, hw, w0, w1⟩ := round_up hR hA (by norm_num) (div_nonneg l0.le ss0.le) q3
  have hun : unscaled R t pmem (fin lam) = fin w := by
    unfold unscaled; rw [hsc]; simp only [div, if_neg ss0.ne', hw]
  -- products
  have q4 : d * w ≤ 2 ^ 66 := (mul_le_of_le_one_left w0 d1).trans w1
  obtain ⟨x, hx, x0, x1⟩ := round_up hR hA (by norm_num) (mul_nonneg d0 w0) q4
  have q5 : s * s ≤ 2 ^ 824 := by
    have := mul_le_mul hs2 hs2 ss0.le (pow_num _).le
    rwa [← pow_add] at this
  obtain ⟨y, hy, y0, y1⟩ := round_up hR hA (by norm_num) (mul_nonneg ss0.le ss0.le) q5
  have q6 : x * y ≤ 2 ^ 892 := by
    have := mul_le_mul x1 y1 y0 (pow_num _).le
    rwa [← pow_add] at this
  obtain ⟨z, hz, z0, z1⟩ := round_up hR hA (by norm_num) (mul_nonneg x0 y0) q6
  have q7 : c * c ≤ 2 ^ 800 := by
    rw [← abs_mul_abs_self]
    have := mul_le_mul hc hc (abs_nonneg _) (pow_num _).le
    rwa [← pow_add] at this
  obtain ⟨e, he, e0, e1⟩ := round_up hR hA (by norm_num) (mul_self_nonneg c) q7
  have q8 : z + e ≤ 2 ^ 894 := by
    have h1 : e ≤ 2 ^ 893 := e1.trans (pow_le_pow_right₀ (by norm_num) (by norm_num))
    exact twice 893 z1 h1
  obtain ⟨v, hv, v0, -⟩ := round_up hR hA (by norm_num) (add_nonneg z0 e0) q8
  refine ⟨v, ?_, v0⟩
  unfold radicand
  rw [hbar, hsc, hun, FlBins.sub_fin, hd]
  simp only [mul, hx, hy, hz, he, add, hv]

/-- Every weight the solver returns is a double. -/
theorem weights_fixed {P : Par} (hR : Rounding R) (ht : P.tol = R (1 / 100)) (gs : List Gal) (fuel : ℕ) (res : Res) (h : solveFuel R P gs fuel = some res)
    (hn : ∀ y, NN (P.nfwnorm y))
    (hg : ∀ g ∈ gs, NN g.u ∧ NN g.b ∧ (∃ w, g.w = fin w ∧ 0 ≤ w ∧ w ≤ 1) ∧ (le P.rsig (fin 0) = true ∨ SaneEdge P ∧ ∃ r, g.r = fin r)) :
    ∀ s ∈ res.slots, ∃ p wt : ℚ, s.p = fin p ∧ s.wt = fin wt ∧ R wt = fin wt := by
  refine slots_ind hR ht gs fuel res h _ ⟨0, 0, rfl, rfl, R0 hR⟩ ?_
  intro q hq u g hgm s ⟨p, wt, hp, hwt, h0⟩
  cases u with
  | true =>
    obtain ⟨a, b, c, d⟩ := hg g hgm
    obtain ⟨p', v, e1, e2, -⟩ := wtAt_unit (P := P) hR hn a b c d hq
    refine ⟨p', v, by rw [weight1_p, e1], by rw [weight1_wt, e2], ?_⟩
    obtain ⟨p, hp, hpf, h0, h1⟩ := memb_unit (P := P) hR hn a b hq.le
    obtain ⟨w, hw, hw0, hw1⟩ := c
    obtain ⟨z, hz, hzf, hz0, hz1⟩ := mul_unit hR hpf h0 hw0 hw1
    unfold wtAt at e2
    rw [hp, hw, hz] at e2
    split_ifs at e2 with hc hc2
    · simp only [fin.injEq] at e2; rw [← e2]; exact hzf
    · simp only [fin.injEq] at e2; rw [← e2]; exact R0 hR
    · rcases d with d | ⟨hP, r, hr⟩
      · exact absurd d hc
      · obtain ⟨t, ht, ht0, ht1⟩ := edge_unit hR hP hr hq
        rw [ht] at e2
        obtain ⟨y, hy, hyf, -⟩ := mul_unit hR hzf hz0 ht0 ht1
        rw [hy] at e2
        simp only [fin.injEq] at e2; rw [← e2]; exact hyf
  | false =>
    unfold weight1; dsimp only
    simp only [hp, Bool.false_eq_true, if_false, finite, if_true]
    split_ifs <;> first | exact ⟨p, wt, rfl, hwt, h0⟩ | exact ⟨p, 0, rfl, rfl, R0 hR⟩

/-- C395, of the solver: whatever galaxies the solver is given, if it reports a richness then the argument of the square root is a number, not
negative.  `np.sum` may add in any order. -/
theorem C395_solver {P : Par} (hR : Rounding R) (hA : Accurate R) (hT : P.tol = R (1 / 100)) (gs : List Gal) (fuel : ℕ) (res : Res)
    (h : solveFuel R P gs fuel = some res) (hn : ∀ y, NN (P.nfwnorm y))
    (hg : ∀ g ∈ gs, NN g.u ∧ NN g.b ∧ (∃ w, g.w = fin w ∧ 0 ≤ w ∧ w ≤ 1) ∧ (le P.rsig (fin 0) = true ∨ SaneEdge P ∧ ∃ r, g.r = fin r))
    (hlam : lt res.lambda (fin 0) = false) (t : Order) (ht : places t ≤ 2 ^ 53)
    (hsum : le (fin (1 / 2 ^ 400)) (sumIn R (fun i => (res.slots.map Slot.wt).getD i (fin 0)) t) = true) (c : ℚ) (hc : |c| ≤ 2 ^ 400) :
    ∃ v, radicand R t (fun i => (res.slots.map Slot.wt).getD i (fin 0)) res.lambda (fin c) = fin v ∧ 0 ≤ v := by
  have hp : ∀ i, ∃ p : ℚ, (res.slots.map Slot.wt).getD i (fin 0) = fin p ∧ R p = fin p ∧ 0 ≤ p ∧ p ≤ 1 := by
    intro i
    rw [List.getD_eq_getElem?_getD, List.getElem?_map]
    cases e : res.slots[i]? with
    | none => exact ⟨0, rfl, R0 hR, le_rfl, zero_le_one⟩
    | some s =>
      have hm : s ∈ res.slots := List.mem_of_getElem? e
      obtain ⟨p, wt, -, h2, h3, h4, h5⟩ := C379_weights hR hT gs fuel res h hn hg s hm
      obtain ⟨p', wt', -, h2', h3'⟩ := weights_fixed hR hT gs fuel res h hn hg s hm
      have : wt = wt' := by rw [h2] at h2'; simpa using h2'
      subst this
      exact ⟨wt, by simpa using h2, h3', h3, h4.trans h5⟩
  have hl : ∃ q, res.lambda = fin q ∧ 1 ≤ q ∧ q ≤ 2000 := by
    have hf : 17 ≤ fuel := by
      by_contra hf
      rw [(C378 hR hT gs fuel).1 (by omega)] at h
      exact absurd h (by simp)
    obtain ⟨res', h', -, -, h4⟩ := (C378 hR hT gs fuel).2 hf
    have : res = res' := by rw [h] at h'; simpa using h'
    subst this
    rcases h4 with ⟨h4, -⟩ | ⟨j, q, -, h5, h6, h7, -⟩
    · rw [h4] at hlam; simp [lt] at hlam
    · exact ⟨q, h7, h5, h6.le⟩
  obtain ⟨q, hq, hq1, hq2⟩ := hl
  obtain ⟨-, S, -, hS, -⟩ := sum_mono hR _ _ (fun i => by
    obtain ⟨p, h1, h2, h3, h4⟩ := hp i
    exact ⟨p, p, h1, h1, h3, le_rfl, h4⟩) t ht
  rw [hS] at hsum
  simp only [le, decide_eq_true_eq] at hsum
  rw [hq]
  exact C395 hR hA t ht _ hp S hS hsum q hq1 hq2 c hc

/-! ## Examples -/

/-- Three memberships added in two ways; the hypotheses hold and the argument is positive. -/
def toyOrder : Order := .plus (.plus (.place 0) (.place 1)) (.place 2)
def toyP : ℕ → XF
  | 0 => r64 (9 / 10)
  | 1 => r64 (1 / 3)
  | _ => r64 (1 / 7)

example : ∀ i, ∃ p : ℚ, toyP i = fin p ∧ r64 p = fin p ∧ 0 ≤ p ∧ p ≤ 1 := by
  have key : ∀ q : ℚ, 0 ≤ q → q ≤ 1 → ∃ p : ℚ, r64 q = fin p ∧ r64 p = fin p ∧ 0 ≤ p ∧ p ≤ 1 := fun q h0 h1 => by
    obtain ⟨p, hp, p0, p1⟩ := between r64_rounding (R0 r64_rounding) (R1 r64_rounding) h0 h1
    exact ⟨p, hp, r64_rounding.idem _ _ hp, p0, p1⟩
  intro i
  match i with
  | 0 => exact key _ (by norm_num) (by norm_num)
  | 1 => exact key _ (by norm_num) (by norm_num)
  | _ + 2 => exact key _ (by norm_num) (by norm_num)

example : lt (fin 1) (sumIn r64 toyP toyOrder) = true ∧ lt (fin 0) (radicand r64 toyOrder toyP (fin 20) (fin (1 / 2))) = true := by decide +kernel

/-- Members that are all certain: the argument is exactly zero without a masking error. -/
example : radicand r64 toyOrder (fun _ => fin 1) (fin 3) (fin 0) = fin 0 := by decide +kernel

/-- Without the lower limit of the sum: a single membership of 2^-1074 gives "not a number". -/
theorem C395_limit : radicand r64 (.place 0) (fun _ => fin (1 / 2 ^ 1074)) (fin 3) (fin 0) = nan := by decide +kernel

/-- A run of the solver: a richness near 2.5, and a positive argument; the lower limit of the sum holds. -/
example : (solveFuel r64 toyPar orderA 17).map (fun r =>
    (lt r.lambda (fin 0), le (fin (1 / 2 ^ 400)) (sumIn r64 (fun i => (r.slots.map Slot.wt).getD i (fin 0)) toyOrder),
      le (fin 0) (radicand r64 toyOrder (fun i => (r.slots.map Slot.wt).getD i (fin 0)) r.lambda (fin 1)))) = some (false, true, true) := by decide +kernel

end Redmapper.FlErr
