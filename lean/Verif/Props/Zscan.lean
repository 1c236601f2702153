/-
Properties of the redshift scan at given positions.
-/
import Mathlib.Analysis.SpecialFunctions.Log.Basic
import Mathlib.Analysis.SpecialFunctions.Log.Deriv
import Mathlib.Analysis.Complex.ExponentialBounds
import Mathlib.Tactic.Linarith
import Mathlib.Tactic.NormNum
import Mathlib.Tactic.FieldSimp
import Verif.Model.Zscan
import Verif.Props.Finders
import Verif.Props.Centering

set_option linter.unusedSectionVars false

namespace Redmapper.Zscan

open Redmapper.Finders (argmax argmax_spec argmax_isSome)
open Redmapper.Centering (whereIdx mem_whereIdx)

variable {α : Type} [Field α] [LinearOrder α] [IsStrictOrderedRing α]

/-! ## C160: the steps and the record -/

/-- **C160.** The redshift steps start at the lower end of the range, are evenly spaced, lie below the upper end, and
the next one would reach it. -/
theorem C160_steps [FloorRing α] (z0 z1 zstep : α) (hs : 0 < zstep) (hz : z0 < z1) :
    ∃ n : Nat, 0 < n ∧ (zArray z0 z1 zstep).length = n ∧
      (∀ k, k < n → (zArray z0 z1 zstep)[k]? = some (z0 + k * zstep)) ∧
      (∀ z ∈ zArray z0 z1 zstep, z0 ≤ z ∧ z < z1) ∧ z1 ≤ z0 + n * zstep := by
  have hpos : 0 < (z1 - z0) / zstep := div_pos (sub_pos.mpr hz) hs
  have hc : 0 < ⌈(z1 - z0) / zstep⌉ := Int.ceil_pos.mpr hpos
  have hcast : (((⌈(z1 - z0) / zstep⌉).toNat : ℕ) : α) = (⌈(z1 - z0) / zstep⌉ : α) := by
    have : (((⌈(z1 - z0) / zstep⌉).toNat : ℕ) : ℤ) = ⌈(z1 - z0) / zstep⌉ := Int.toNat_of_nonneg hc.le
    exact_mod_cast congrArg (Int.cast : ℤ → α) this
  refine ⟨(⌈(z1 - z0) / zstep⌉).toNat, by omega, by simp [zArray], ?_, ?_, ?_⟩
  · intro k hk
    unfold zArray
    rw [List.getElem?_map, List.getElem?_range hk]
    simp [add_comm]
  · intro z hzm
    unfold zArray at hzm
    obtain ⟨k, hk, rfl⟩ := List.mem_map.mp hzm
    have hk := List.mem_range.mp hk
    refine ⟨le_add_of_nonneg_left (mul_nonneg (Nat.cast_nonneg k) hs.le), ?_⟩
    have h1 : ((k : ℤ)) < ⌈(z1 - z0) / zstep⌉ := by omega
    have h2 : ((k : ℤ) : α) < (z1 - z0) / zstep := Int.lt_ceil.mp h1
    rw [lt_div_iff₀ hs] at h2
    have h2 : (k : α) * zstep < z1 - z0 := by exact_mod_cast h2
    linarith
  · rw [hcast]
    have := Int.le_ceil ((z1 - z0) / zstep)
    rw [div_le_iff₀ hs] at this
    linarith

/-- At least two galaxies are bright enough and within the radius: two different rows. -/
def TwoInside (E : Env α) (z : α) : Prop :=
  ∃ (i j : Nat) (n m : Nbr α), i < j ∧ (E.nbrs z)[i]? = some n ∧ (E.nbrs z)[j]? = some m ∧
    n.refmag < E.maxmag z ∧ n.r < E.maxrad ∧ m.refmag < E.maxmag z ∧ m.r < E.maxrad

theorem mem_inside (E : Env α) (z : α) (i : Nat) :
    i ∈ inside E z ↔ ∃ n, (E.nbrs z)[i]? = some n ∧ n.refmag < E.maxmag z ∧ n.r < E.maxrad := by
  unfold inside
  rw [mem_whereIdx]
  simp

theorem twoInside_iff (E : Env α) (z : α) : TwoInside E z ↔ 2 ≤ (inside E z).length := by
  have hsort : (inside E z).Pairwise (· < ·) := Redmapper.Centering.whereIdx_sorted _ _
  constructor
  · rintro ⟨i, j, n, m, hij, hi, hj, a, b, c, d⟩
    have h1 : i ∈ inside E z := (mem_inside E z i).mpr ⟨n, hi, a, b⟩
    have h2 : j ∈ inside E z := (mem_inside E z j).mpr ⟨m, hj, c, d⟩
    match h : inside E z with
    | [] => rw [h] at h1; cases h1
    | [x] =>
      rw [h] at h1 h2
      have := List.mem_singleton.mp h1
      have := List.mem_singleton.mp h2
      omega
    | _ :: _ :: _ => simp
  · intro h
    match he : inside E z with
    | [] => rw [he] at h; simp at h
    | [x] => rw [he] at h; simp at h
    | i :: j :: rest =>
      rw [he] at hsort
      have hij : i < j := by
        have := (List.pairwise_cons.mp hsort).1 j (by simp)
        exact this
      obtain ⟨n, hn, a, b⟩ := (mem_inside E z i).mp (by rw [he]; simp)
      obtain ⟨m, hm, c, d⟩ := (mem_inside E z j).mp (by rw [he]; simp)
      exact ⟨i, j, n, m, hij, hn, hm, a, b, c, d⟩

/-- There is a cluster at a redshift: two galaxies and a richness that is not below the minimum. -/
def Found (E : Env α) (z : α) : Prop := TwoInside E z ∧ E.minLambda ≤ (E.rich z (inside E z)).lam

theorem step_found (E : Env α) (z : α) (h : Found E z) :
    step E z = ((E.rich z (inside E z)).lam, likelihood E z (E.rich z (inside E z))) := by
  unfold step
  dsimp only
  rw [if_neg (by have := (twoInside_iff E z).mp h.1; omega), if_neg (not_lt.mpr h.2)]

theorem step_not (E : Env α) (z : α) (h : ¬ Found E z) : step E z = (-1, -1) := by
  unfold step
  dsimp only
  by_cases h1 : (inside E z).length < 2
  · rw [if_pos h1]
  · rw [if_neg h1, if_pos]
    by_contra hc
    exact h ⟨(twoInside_iff E z).mpr (not_lt.mp h1), not_lt.mp hc⟩

/-- **C160**: the scan has one entry per redshift step: the richness where there is a cluster and minus one elsewhere;
the likelihood it reports is the largest of the steps, at the redshift of the first step that has it. -/
theorem C160_record (E : Env α) (zs : List α) (hne : zs ≠ []) :
    ∃ s, scan E zs = some s ∧ s.zSteps = zs ∧ s.lambdaSteps.length = zs.length ∧ s.likeSteps.length = zs.length ∧
      (∀ (k : Nat) (z : α), zs[k]? = some z →
        (Found E z → s.lambdaSteps[k]? = some (E.rich z (inside E z)).lam) ∧
        (¬ Found E z → s.lambdaSteps[k]? = some (-1) ∧ s.likeSteps[k]? = some (-1))) ∧
      s.likeSteps[s.maxInd]? = some s.lmax ∧ zs[s.maxInd]? = some s.zmax ∧
      (∀ (k : Nat) (v : α), s.likeSteps[k]? = some v → v ≤ s.lmax ∧ (v = s.lmax → s.maxInd ≤ k)) := by
  obtain ⟨k, m, hkm⟩ := argmax_isSome ((zs.map (step E)).map Prod.snd) (by simpa using hne)
  obtain ⟨h1, h2⟩ := argmax_spec _ k m hkm
  have hklen : k < zs.length := by
    have := (List.getElem?_eq_some_iff.mp h1).1
    simpa using this
  refine ⟨_, by unfold scan; dsimp only; rw [hkm], rfl, by simp, by simp, ?_, h1, ?_, ?_⟩
  · intro i z hz
    refine ⟨fun hf => ?_, fun hf => ?_⟩
    · dsimp only
      rw [List.getElem?_map, List.getElem?_map, hz]
      simp [step_found E z hf]
    · dsimp only
      rw [List.getElem?_map, List.getElem?_map, hz]
      simp [step_not E z hf, hz]
  · dsimp only
    rw [List.getD_eq_getElem?_getD, List.getElem?_eq_getElem hklen]
    rfl
  · exact h2

/-! ## C161: the scan does not miss a cluster -/

/-- Contract of the logarithm. -/
def LogOK (log : α → α) : Prop := ∀ x, 0 < x → x < 1 → log x < x - 1

theorem logOK_real : LogOK Real.log := fun x h0 h1 => Real.log_lt_sub_one_of_pos h0 h1.ne

/-- Contract of the richness (see `C125`): probabilities for all neighbors, whose sum is the richness over the
scale. -/
structure RichOK (E : Env α) (z : α) : Prop where
  length : (E.rich z (inside E z)).pmem.length = (E.nbrs z).length
  unit : ∀ p ∈ (E.rich z (inside E z)).pmem, 0 ≤ p ∧ p ≤ 1
  sum : (E.rich z (inside E z)).lam / (E.rich z (inside E z)).scaleval = (E.rich z (inside E z)).pmem.sum

/-- A neighbor enters the likelihood: a member that is neither at the position itself nor certain. -/
def Enters (r p : α) : Prop := 0 < p ∧ 1 / 1000000 < r ∧ p < 1

/-- Sum of the probabilities of the members that do not enter the likelihood. -/
def leftOut [DecidableLE α] [DecidableLT α] : List (Nbr α) → List α → α
  | n :: ns, p :: ps =>
    (if 0 < p ∧ 1 / 1000000 < n.r ∧ p < 1 then 0 else p) + leftOut ns ps
  | _, _ => 0

theorem sum_split (ns : List (Nbr α)) (ps : List α) (h : ps.length = ns.length) :
    ps.sum = ((List.zip ns ps).filterMap fun np =>
      if decide (0 < np.2) && decide (1 / 1000000 < np.1.r) && decide (np.2 < 1) then some np.2 else none).sum +
        leftOut ns ps := by
  induction ns generalizing ps with
  | nil =>
    cases ps with
    | nil => simp [leftOut]
    | cons p ps => simp at h
  | cons n ns ih =>
    cases ps with
    | nil => simp at h
    | cons p ps =>
      have := ih ps (by simpa using h)
      rw [List.sum_cons, List.zip_cons_cons, List.filterMap_cons, leftOut]
      by_cases hc : 0 < p ∧ 1 / 1000000 < n.r ∧ p < 1
      · have hb : (decide (0 < p) && decide (1 / 1000000 < n.r) && decide (p < 1)) = true := by
          simp only [Bool.and_eq_true, decide_eq_true_eq]; tauto
        simp only [hb, if_true]
        rw [if_pos hc, List.sum_cons, this]
        ring
      · have hb : (decide (0 < p) && decide (1 / 1000000 < n.r) && decide (p < 1)) = false := by
          rw [Bool.eq_false_iff]
          simp only [ne_eq, Bool.and_eq_true, decide_eq_true_eq]; tauto
        simp only [hb, Bool.false_eq_true, if_false]
        rw [if_neg hc, this]
        ring

theorem mem_incut (E : Env α) (z : α) (pmem : List α) (p : α) (h : p ∈ incut E z pmem) : 0 < p ∧ p < 1 := by
  unfold incut at h
  obtain ⟨⟨n, q⟩, _, hq⟩ := List.mem_filterMap.mp h
  dsimp only at hq
  by_cases hb : (decide (0 < q) && decide (1 / 1000000 < n.r) && decide (q < 1)) = true
  · rw [if_pos hb] at hq
    cases hq
    simp only [Bool.and_eq_true, decide_eq_true_eq] at hb
    exact ⟨hb.1.1, hb.2⟩
  · rw [if_neg hb] at hq
    cases hq

theorem sum_log_lt {log : α → α} (hl : LogOK log) (l : List α) (hne : l ≠ []) (h : ∀ p ∈ l, 0 < p ∧ p < 1) :
    (l.map fun p => log (1 - p)).sum < -l.sum := by
  induction l with
  | nil => exact absurd rfl hne
  | cons p l ih =>
    obtain ⟨h0, h1⟩ := h p (by simp)
    have hp := hl (1 - p) (by linarith) (by linarith)
    rw [List.map_cons, List.sum_cons, List.sum_cons]
    by_cases hl' : l = []
    · subst hl'
      simp only [List.map_nil, List.sum_nil]
      linarith
    · have := ih hl' fun q hq => h q (List.mem_cons_of_mem _ hq)
      linarith

/-- Some member enters the likelihood. -/
def SomeEnters (E : Env α) (z : α) : Prop :=
  ∃ (k : Nat) (n : Nbr α) (p : α), (E.nbrs z)[k]? = some n ∧ (E.rich z (inside E z)).pmem[k]? = some p ∧ Enters n.r p

theorem likelihood_gt (E : Env α) (hl : LogOK E.log) (z : α) (hr : RichOK E z) (hs : SomeEnters E z)
    (hx : leftOut (E.nbrs z) (E.rich z (inside E z)).pmem ≤ 1) :
    -1 < likelihood E z (E.rich z (inside E z)) := by
  have hsplit := sum_split (E.nbrs z) (E.rich z (inside E z)).pmem hr.length
  have hne : incut E z (E.rich z (inside E z)).pmem ≠ [] := by
    obtain ⟨k, n, p, hn, hp, h0, h1, h2⟩ := hs
    have : p ∈ incut E z (E.rich z (inside E z)).pmem := by
      unfold incut
      refine List.mem_filterMap.mpr ⟨(n, p), ?_, ?_⟩
      · have : (List.zip (E.nbrs z) (E.rich z (inside E z)).pmem)[k]? = some (n, p) := by
          rw [List.getElem?_zip_eq_some]
          exact ⟨hn, hp⟩
        exact List.mem_of_getElem? this
      · dsimp only
        rw [if_pos]
        simp only [Bool.and_eq_true, decide_eq_true_eq]
        exact ⟨⟨h0, h1⟩, h2⟩
    exact List.ne_nil_of_mem this
  have hlog := sum_log_lt hl _ hne fun p hp => mem_incut E z _ p hp
  change (E.rich z (inside E z)).pmem.sum = (incut E z (E.rich z (inside E z)).pmem).sum + _ at hsplit
  have heq : likelihood E z (E.rich z (inside E z)) = -(E.rich z (inside E z)).pmem.sum -
      ((incut E z (E.rich z (inside E z)).pmem).map fun p => E.log (1 - p)).sum := by
    unfold likelihood
    rw [neg_div, hr.sum]
    cases hi : incut E z (E.rich z (inside E z)).pmem with
    | nil => exact absurd hi hne
    | cons p l => rfl
  rw [heq, hsplit]
  linarith

/-- **C161**, the full claim: if there is a cluster at some redshift step, the step reported by the scan has one, and
the position is not given up. It fails: see `C161_false`. -/
def C161_spec (E : Env α) (zs : List α) : Prop :=
  (∃ z ∈ zs, Found E z) → ∃ s, scan E zs = some s ∧ Found E s.zmax ∧
    ∃ l, s.lambdaSteps[s.maxInd]? = some l ∧ E.minLambda ≤ l

theorem spec_of_like (E : Env α) (zs : List α) (z : α) (hz : z ∈ zs) (hf : Found E z)
    (hlike : -1 < likelihood E z (E.rich z (inside E z))) : C161_spec E zs := by
  intro _
  obtain ⟨s, hs, _, _, _, hrec, hmax, hzm, hall⟩ := C160_record E zs (List.ne_nil_of_mem hz)
  have hlikes : s.likeSteps = (zs.map (step E)).map Prod.snd := by
    unfold scan at hs
    dsimp only at hs
    cases h : argmax ((zs.map (step E)).map Prod.snd) with
    | none => rw [h] at hs; cases hs
    | some q => rw [h] at hs; cases hs; rfl
  obtain ⟨k, hk⟩ := List.getElem?_of_mem hz
  have hkl : s.likeSteps[k]? = some (likelihood E z (E.rich z (inside E z))) := by
    rw [hlikes, List.getElem?_map, List.getElem?_map, hk]
    simp [step_found E z hf]
  have hlm : -1 < s.lmax := lt_of_lt_of_le hlike (hall k _ hkl).1
  have hfm : Found E s.zmax := by
    by_contra hc
    have := ((hrec s.maxInd s.zmax hzm).2 hc).2
    rw [hmax, Option.some.injEq] at this
    rw [this] at hlm
    exact absurd hlm (lt_irrefl _)
  exact ⟨s, hs, hfm, _, (hrec s.maxInd s.zmax hzm).1 hfm, hfm.2⟩

/-- **C161, partial**: it holds if at one step with a cluster some member enters the likelihood, and the members left
out of it (those at the position itself and the certain ones) do not add up to more than one. Missing: steps where
they do; their likelihood can be below minus one, which is what steps without anything are given. -/
theorem C161_no_miss_partial (E : Env α) (hl : LogOK E.log) (zs : List α) (z : α) (hz : z ∈ zs) (hf : Found E z)
    (hr : RichOK E z) (hs : SomeEnters E z) (hx : leftOut (E.nbrs z) (E.rich z (inside E z)).pmem ≤ 1) :
    C161_spec E zs :=
  spec_of_like E zs z hz hf (likelihood_gt E hl z hr hs hx)

/-- A scan with two steps: nothing at the first, four members at the second, two of them at the position itself. -/
noncomputable def missEnv : Env ℝ where
  minLambda := 2
  maxrad := 1
  maxmag := fun _ => 20
  nbrs := fun z => if z = 0 then [] else [⟨18, 0⟩, ⟨18, 0⟩, ⟨19, 1 / 2⟩, ⟨19, 1 / 2⟩]
  rich := fun _ _ => ⟨3, 1, [1, 1, 1 / 2, 1 / 2]⟩
  log := Real.log

theorem missEnv_inside : inside missEnv 1 = [0, 1, 2, 3] := by
  unfold inside missEnv whereIdx
  norm_num [List.range, List.range.loop]

theorem missEnv_found : Found missEnv 1 := by
  refine ⟨(twoInside_iff missEnv 1).mpr (by rw [missEnv_inside]; simp), ?_⟩
  norm_num [missEnv]

theorem missEnv_none : ¬ Found missEnv 0 := by
  rintro ⟨⟨i, j, n, m, _, h, _⟩, _⟩
  simp [missEnv] at h

/-- **C161 fails**: with two galaxies at the position itself, a cluster of richness three is given up although the
richness and its members are in order. -/
theorem C161_false : LogOK missEnv.log ∧ RichOK missEnv 1 ∧ SomeEnters missEnv 1 ∧ ¬ C161_spec missEnv [0, 1] := by
  refine ⟨logOK_real, ⟨by simp [missEnv], ?_, ?_⟩, ?_, ?_⟩
  · intro p hp
    simp only [missEnv, List.mem_cons, List.not_mem_nil, or_false] at hp
    rcases hp with rfl | rfl | rfl | rfl <;> norm_num
  · norm_num [missEnv]
  · exact ⟨2, ⟨19, 1 / 2⟩, 1 / 2, by norm_num [missEnv], by norm_num [missEnv], by norm_num [Enters]⟩
  · intro hspec
    obtain ⟨s, hs, hf, _⟩ := hspec ⟨1, by simp, missEnv_found⟩
    obtain ⟨s', hs', _, _, _, hrec, hmax, hzm, hall⟩ := C160_record missEnv [0, 1] (by simp)
    rw [hs] at hs'
    cases hs'
    have hlike : likelihood missEnv 1 (missEnv.rich 1 (inside missEnv 1)) < -1 := by
      have e : incut missEnv 1 (missEnv.rich 1 (inside missEnv 1)).pmem = [1 / 2, 1 / 2] := by
        have hn : missEnv.nbrs 1 = [⟨18, 0⟩, ⟨18, 0⟩, ⟨19, 1 / 2⟩, ⟨19, 1 / 2⟩] := by
          change (if (1 : ℝ) = 0 then _ else _) = _
          rw [if_neg one_ne_zero]
        have hp : (missEnv.rich 1 (inside missEnv 1)).pmem = [1, 1, 1 / 2, 1 / 2] := rfl
        unfold incut
        rw [hn, hp]
        simp only [List.zip_cons_cons, List.zip_nil_left, List.filterMap_cons, List.filterMap_nil]
        norm_num
      unfold likelihood
      rw [e]
      simp only [List.map_cons, List.map_nil, List.sum_cons, List.sum_nil]
      have h2 : missEnv.log (1 - 1 / 2) = -Real.log 2 := by
        change Real.log (1 - 1 / 2) = _
        rw [← Real.log_inv]
        norm_num
      rw [h2]
      have := Real.log_two_lt_d9
      have hl : (missEnv.rich 1 (inside missEnv 1)).lam = 3 := rfl
      have hsc : (missEnv.rich 1 (inside missEnv 1)).scaleval = 1 := rfl
      rw [hl, hsc]
      linarith
    have h0 := ((hrec 0 0 rfl).2 missEnv_none).2
    have hle := (hall 0 _ h0).1
    have hz1 : s.zmax = 1 := by
      have hm : s.zmax ∈ [(0 : ℝ), 1] := List.mem_of_getElem? hzm
      simp only [List.mem_cons, List.not_mem_nil, or_false] at hm
      rcases hm with h | h
      · rw [h] at hf
        exact absurd hf missEnv_none
      · exact h
    have hlikes : s.likeSteps = ([0, 1].map (step missEnv)).map Prod.snd := by
      unfold scan at hs
      dsimp only at hs
      cases h : argmax (([(0 : ℝ), 1].map (step missEnv)).map Prod.snd) with
      | none => rw [h] at hs; cases hs
      | some q => rw [h] at hs; cases hs; rfl
    have hmi : s.maxInd = 1 := by
      have hlt : s.maxInd < 2 := by
        have := (List.getElem?_eq_some_iff.mp hzm).1
        simpa using this
      have : s.maxInd ≠ 0 := by
        intro h
        rw [h, hz1] at hzm
        simp at hzm
      omega
    rw [hlikes, hmi] at hmax
    simp only [List.map_cons, List.map_nil, List.getElem?_cons_succ, List.getElem?_cons_zero, Option.some.injEq] at hmax
    rw [step_found missEnv 1 missEnv_found] at hmax
    dsimp only at hmax
    rw [← hmax] at hle
    linarith

/-! ## C162: the refinement -/

/-- **C162.** A position is reported with a cluster exactly if the best step of the scan is rich enough, the richness
over scale is large enough both at its redshift and at the redshift then fitted, and this fit gives a redshift. The
redshift reported is the fitted one, the richness is the one at this redshift, and the optical center and its values,
if there is one, are found at this redshift. -/
theorem C162_refine (E : Env α) (R : Refine α) (zs : List α) (o : Out α) (s : Scan α) (hscan : scan E zs = some s)
    (hz : ∀ z, (R.zlam z).1 < 0 ∨ 0 < (R.zlam z).1) :
    (process E R zs o ≠ none ↔
      (∃ l, s.lambdaSteps[s.maxInd]? = some l ∧ E.minLambda ≤ l) ∧
      E.minLambda ≤ (R.rich s.zmax).1 / (R.rich s.zmax).2 ∧ 0 < (R.zlam s.zmax).1 ∧
      E.minLambda ≤ (R.rich (R.zlam s.zmax).1).1 / (R.rich (R.zlam s.zmax).1).2) ∧
    (∀ out, process E R zs o = some out →
      out.redshift = (R.zlam s.zmax).1 ∧ (out.zLambda, out.zLambdaE) = R.zlam s.zmax ∧
      (out.Lambda, out.scaleval) = R.rich (R.zlam s.zmax).1 ∧
      (∀ c, R.center (R.zlam s.zmax).1 = some c →
        out.opt = some (c, R.optRich c (R.zlam s.zmax).1, R.optZlam c (R.zlam s.zmax).1)) ∧
      (R.center (R.zlam s.zmax).1 = none → out.opt = o.opt)) := by
  have hmem : ∃ l, s.lambdaSteps[s.maxInd]? = some l := by
    have hne : zs ≠ [] := by
      rintro rfl
      cases hscan
    obtain ⟨s', hs', _, hl, _, _, _, hzm, _⟩ := C160_record E zs hne
    rw [hscan] at hs'
    cases hs'
    have := (List.getElem?_eq_some_iff.mp hzm).1
    exact ⟨_, List.getElem?_eq_getElem (by omega)⟩
  obtain ⟨l, hl⟩ := hmem
  have hgd : s.lambdaSteps.getD s.maxInd 0 = l := by rw [List.getD_eq_getElem?_getD, hl]; rfl
  have hiff : (∃ l', s.lambdaSteps[s.maxInd]? = some l' ∧ E.minLambda ≤ l') ↔ E.minLambda ≤ l := by
    rw [hl]
    simp
  rw [hiff]
  unfold process
  rw [hscan]
  dsimp only
  rw [hgd]
  by_cases h1 : l < E.minLambda
  · rw [if_pos h1]
    refine ⟨⟨fun h => absurd rfl h, fun h => absurd h.1 (not_le.mpr h1)⟩, fun out h => by cases h⟩
  rw [if_neg h1]
  by_cases h2 : (R.rich s.zmax).1 / (R.rich s.zmax).2 < E.minLambda
  · have : turn E.minLambda R true s.zmax o = none := by
      unfold turn
      dsimp only
      rw [if_pos h2]
    rw [this]
    exact ⟨⟨fun h => absurd rfl h, fun h => absurd h.2.1 (not_le.mpr h2)⟩, fun out h => by cases h⟩
  by_cases h3 : (R.zlam s.zmax).1 < 0
  · have : turn E.minLambda R true s.zmax o = none := by
      unfold turn
      dsimp only
      rw [if_neg h2]
      simp [h3]
    rw [this]
    exact ⟨⟨fun h => absurd rfl h, fun h => absurd h.2.2.1 (not_lt.mpr h3.le)⟩, fun out h => by cases h⟩
  have h3' : 0 < (R.zlam s.zmax).1 := (hz s.zmax).resolve_left h3
  have ht1 : turn E.minLambda R true s.zmax o = some ((R.zlam s.zmax).1,
      { o with redshift := s.zmax, Lambda := (R.rich s.zmax).1, scaleval := (R.rich s.zmax).2
               zLambda := (R.zlam s.zmax).1, zLambdaE := (R.zlam s.zmax).2 }) := by
    unfold turn
    dsimp only
    rw [if_neg h2]
    simp [h3, h3']
  rw [ht1]
  dsimp only
  by_cases h4 : (R.rich (R.zlam s.zmax).1).1 / (R.rich (R.zlam s.zmax).1).2 < E.minLambda
  · have : ∀ o', turn E.minLambda R false (R.zlam s.zmax).1 o' = none := by
      intro o'
      unfold turn
      dsimp only
      rw [if_pos h4]
    rw [this]
    exact ⟨⟨fun h => absurd rfl h, fun h => absurd h.2.2.2 (not_le.mpr h4)⟩, fun out h => by cases h⟩
  have ht2 : ∀ o' : Out α, o'.zLambda = (R.zlam s.zmax).1 → turn E.minLambda R false (R.zlam s.zmax).1 o' =
      some ((R.zlam s.zmax).1, { o' with redshift := (R.zlam s.zmax).1, Lambda := (R.rich (R.zlam s.zmax).1).1
                                         scaleval := (R.rich (R.zlam s.zmax).1).2 }) := by
    intro o' ho
    unfold turn
    dsimp only
    rw [if_neg h4]
    simp [ho, h3]
  rw [ht2 _ rfl]
  dsimp only
  cases hc : R.center (R.zlam s.zmax).1 with
  | none =>
    refine ⟨⟨fun _ => ⟨not_lt.mp h1, not_lt.mp h2, h3', not_lt.mp h4⟩, fun _ h => by cases h⟩, ?_⟩
    intro out h
    cases h
    exact ⟨rfl, rfl, rfl, (fun c h => by cases h), fun _ => rfl⟩
  | some c =>
    refine ⟨⟨fun _ => ⟨not_lt.mp h1, not_lt.mp h2, h3', not_lt.mp h4⟩, fun _ h => by cases h⟩, ?_⟩
    intro out h
    cases h
    refine ⟨rfl, rfl, rfl, ?_, fun h => by cases h⟩
    intro c' h
    cases h
    rfl

/-! ## The hypotheses are met -/

/-- A scan of two steps with one galaxy at the position. -/
def demoEnv : Env ℚ where
  minLambda := 1
  maxrad := 1
  maxmag := fun _ => 20
  nbrs := fun z => if z = 0 then [] else [⟨18, 0⟩, ⟨19, 1 / 2⟩, ⟨19, 1 / 2⟩]
  rich := fun _ _ => ⟨3, 3 / 2, [1, 1 / 2, 1 / 2]⟩
  log := fun x => 2 * (x - 1)

def demoRefine : Refine ℚ where
  rich := fun z => (20 + z, 1)
  zlam := fun z => (z + 1 / 100, 1 / 100)
  center := fun _ => some (10, 20)
  optRich := fun _ z => (30 + z, 1)
  optZlam := fun _ z => (z, 1 / 50)

example : LogOK demoEnv.log := by
  intro x h0 h1
  change 2 * (x - 1) < x - 1
  linarith

example : RichOK demoEnv 1 := ⟨rfl, by decide +kernel, by decide +kernel⟩

example : SomeEnters demoEnv 1 := ⟨1, ⟨19, 1 / 2⟩, 1 / 2, by decide +kernel, by decide +kernel, by norm_num [Enters]⟩

example : leftOut (demoEnv.nbrs 1) (demoEnv.rich 1 (inside demoEnv 1)).pmem ≤ 1 := by decide +kernel

example : Found demoEnv 1 := ⟨(twoInside_iff demoEnv 1).mpr (by decide +kernel), by decide +kernel⟩

example : process demoEnv demoRefine [0, 1] ⟨0, 0, 0, 0, 0, none⟩ =
    some ⟨2101 / 100, 1, 101 / 100, 1 / 100, 101 / 100,
      some ((10, 20), (3101 / 100, 1), (101 / 100, 1 / 50))⟩ := by decide +kernel

example : zArray (1 / 10 : ℚ) (3 / 10) (8 / 100) = [1 / 10, 18 / 100, 26 / 100] := by
  unfold zArray
  have : ⌈((3 / 10 : ℚ) - 1 / 10) / (8 / 100)⌉ = 3 := by
    rw [Int.ceil_eq_iff]
    norm_num
  rw [this]
  have h3 : Int.toNat 3 = 3 := rfl
  rw [h3]
  norm_num [List.range, List.range.loop]

end Redmapper.Zscan
