/-
Properties of the centering algorithms: C24, C25, C83-C86.
-/
import Verif.Model.Centering
import Verif.Props.Finders
import Mathlib.Tactic.Ring
import Mathlib.Tactic.Linarith
import Mathlib.Tactic.NormNum
import Mathlib.Tactic.FieldSimp
import Mathlib.Tactic.Positivity
import Mathlib.Algebra.Order.BigOperators.Group.List
import Mathlib.Algebra.BigOperators.Ring.List
import Mathlib.Algebra.Order.Floor.Ring
import Mathlib.Data.Rat.Floor

set_option linter.unusedSectionVars false

namespace Redmapper.Centering

open Redmapper.Finders (takeRows Argsort takeRows_perm takeRows_map takeRows_reverse argsortRef argsortRef_ok)

variable {α : Type} [Field α] [LinearOrder α] [IsStrictOrderedRing α]

/-! ## `np.where` and `np.argmin` -/

theorem mem_whereIdx {β : Type} (p : β → Bool) (l : List β) (i : Nat) :
    i ∈ whereIdx p l ↔ ∃ x, l[i]? = some x ∧ p x = true := by
  unfold whereIdx
  rw [List.mem_filter, List.mem_range]
  constructor
  · rintro ⟨hi, h⟩
    refine ⟨l[i], List.getElem?_eq_getElem hi, ?_⟩
    rw [List.getElem?_eq_getElem hi] at h
    exact h
  · rintro ⟨x, hx, hp⟩
    refine ⟨?_, by rw [hx]; exact hp⟩
    by_contra hc
    rw [List.getElem?_eq_none (not_lt.mp hc)] at hx
    simp at hx

theorem whereIdx_sorted {β : Type} (p : β → Bool) (l : List β) : (whereIdx p l).Pairwise (· < ·) := by
  unfold whereIdx
  exact List.Pairwise.filter _ List.pairwise_lt_range

theorem takeRows_getElem? {β : Type} (l : List β) (idx : List Nat) (h : ∀ i ∈ idx, i < l.length) (k : Nat) :
    (takeRows l idx)[k]? = (idx[k]?).bind fun i => l[i]? := by
  unfold takeRows
  induction idx generalizing k with
  | nil => simp
  | cons i idx ih =>
    have hi : i < l.length := h i (by simp)
    rw [List.filterMap_cons_some (List.getElem?_eq_getElem hi)]
    cases k with
    | zero => simp [List.getElem?_eq_getElem hi]
    | succ k => simpa using ih (fun j hj => h j (by simp [hj])) k

theorem argminFrom_spec (xs : List α) : ∀ (pre : List α) (best : Nat) (bv : α),
    pre[best]? = some bv → (∀ j v, pre[j]? = some v → bv ≤ v ∧ (v = bv → best ≤ j)) →
    ∃ m, (pre ++ xs)[argminFrom pre.length best bv xs]? = some m ∧
      ∀ j v, (pre ++ xs)[j]? = some v → m ≤ v ∧ (v = m → argminFrom pre.length best bv xs ≤ j) := by
  induction xs with
  | nil => intro pre best bv h1 h2; exact ⟨bv, by simpa [argminFrom] using h1, by simpa [argminFrom] using h2⟩
  | cons x xs ih =>
    intro pre best bv h1 h2
    have hb : best < pre.length := by
      by_contra hc
      rw [List.getElem?_eq_none (not_lt.mp hc)] at h1
      simp at h1
    have happ : pre ++ x :: xs = (pre ++ [x]) ++ xs := by simp
    have hlen : (pre ++ [x]).length = pre.length + 1 := by simp
    simp only [argminFrom]
    by_cases hlt : x < bv
    · rw [if_pos hlt, happ, ← hlen]
      apply ih
      · simp
      · intro j v hj
        by_cases hjl : j < pre.length
        · rw [List.getElem?_append_left hjl] at hj
          have := (h2 j v hj).1
          have hvx : x < v := lt_of_lt_of_le hlt this
          exact ⟨hvx.le, fun e => absurd e (ne_of_gt hvx)⟩
        · rw [List.getElem?_append_right (not_lt.mp hjl)] at hj
          rcases Nat.eq_zero_or_pos (j - pre.length) with h0 | h0
          · rw [h0] at hj
            simp at hj
            exact ⟨hj.le, fun _ => by omega⟩
          · rw [List.getElem?_eq_none (by simp only [List.length_singleton]; omega)] at hj
            simp at hj
    · rw [if_neg hlt, happ, ← hlen]
      apply ih
      · rw [List.getElem?_append_left hb]; exact h1
      · intro j v hj
        by_cases hjl : j < pre.length
        · rw [List.getElem?_append_left hjl] at hj
          exact h2 j v hj
        · rw [List.getElem?_append_right (not_lt.mp hjl)] at hj
          rcases Nat.eq_zero_or_pos (j - pre.length) with h0 | h0
          · rw [h0] at hj
            simp at hj
            exact ⟨hj ▸ not_lt.mp hlt, fun _ => by omega⟩
          · rw [List.getElem?_eq_none (by simp only [List.length_singleton]; omega)] at hj
            simp at hj

/-- `np.argmin` returns the first position of the minimum. -/
theorem argmin_spec (l : List α) (k : Nat) (h : argmin l = some k) :
    ∃ m, l[k]? = some m ∧ ∀ j v, l[j]? = some v → m ≤ v ∧ (v = m → k ≤ j) := by
  cases l with
  | nil => simp [argmin] at h
  | cons x xs =>
    simp only [argmin, Option.some.injEq] at h
    have := argminFrom_spec xs [x] 0 x (by simp) (by
      intro j v hj
      cases j with
      | zero => simp at hj; exact ⟨hj.le, fun _ => le_refl _⟩
      | succ j => simp at hj)
    simp only [List.length_singleton, List.singleton_append] at this
    rw [h] at this
    exact this

theorem argmin_none (l : List α) : argmin l = none ↔ l = [] := by
  cases l <;> simp [argmin]

/-! ## C25: brightest-galaxy centering -/

/-- The cuts of the brightest-galaxy centering: inside the cluster radius, and either a membership probability above
0.8 or a redshift within two standard deviations of the cluster's. -/
def BcgCuts (rlam z : α) (n : Nbr α) : Prop :=
  n.r < rlam ∧ (8 / 10 < n.pmem ∨ |n.zred - z| < 2 * n.zredE)

/-- The redshifts used: the spectroscopic ones, where there are any, when the option is on. -/
def Effective (useSpec : Bool) (n n' : Nbr α) : Prop :=
  n' = if useSpec = true ∧ 0 < n.zspec then { n with zred := n.zspec, zredE := n.zspecE } else n

theorem bcgOk_iff (rlam z : α) (n : Nbr α) : bcgOk rlam z n = true ↔ BcgCuts rlam z n := by
  simp [bcgOk, BcgCuts]

theorem useZspec_getElem? (on chi : Bool) (ns : List (Nbr α)) (i : Nat) :
    (useZspec on chi ns)[i]? = ns[i]?.map fun n => if on = true ∧ 0 < n.zspec then
      { n with zred := n.zspec, zredE := n.zspecE, chisq := if chi then 1 else n.chisq } else n := by
  unfold useZspec
  cases on
  · simp
  · simp

/-- **C25.** Brightest-galaxy centering fails exactly when no neighbour passes the cuts.  When it succeeds, the galaxy
returned passes the cuts, none that passes is brighter, and of equally bright ones it is the first. -/
theorem C25_bcg (useSpec : Bool) (rlam z : α) (ns : List (Nbr α)) :
    let used := ns.map fun n => if useSpec = true ∧ 0 < n.zspec then { n with zred := n.zspec, zredE := n.zspecE } else n
    ((bcg useSpec rlam z ns).1 = none ↔ ∀ n ∈ used, ¬ BcgCuts rlam z n) ∧
    ∀ i, (bcg useSpec rlam z ns).1 = some i →
      ∃ n, used[i]? = some n ∧ BcgCuts rlam z n ∧
        ∀ j m, used[j]? = some m → BcgCuts rlam z m → n.refmag ≤ m.refmag ∧ (m.refmag = n.refmag → i ≤ j) := by
  intro used
  have hused : useZspec useSpec false ns = used := by
    apply List.ext_getElem?
    intro i
    rw [useZspec_getElem?]
    simp only [used, List.getElem?_map]
    rfl
  have hin : ∀ i ∈ whereIdx (bcgOk rlam z) used, i < used.length := by
    intro i hi
    obtain ⟨x, hx, _⟩ := (mem_whereIdx _ _ _).mp hi
    by_contra hc
    rw [List.getElem?_eq_none (not_lt.mp hc)] at hx
    simp at hx
  have hrow := takeRows_getElem? used (whereIdx (bcgOk rlam z) used) hin
  unfold bcg
  simp only [hused]
  cases hk : argmin ((takeRows used (whereIdx (bcgOk rlam z) used)).map Nbr.refmag) with
  | none =>
    rw [argmin_none, List.map_eq_nil_iff] at hk
    refine ⟨⟨fun _ n hn hc => ?_, fun _ => rfl⟩, by simp⟩
    obtain ⟨i, hi⟩ := List.mem_iff_getElem?.mp hn
    have hm : i ∈ whereIdx (bcgOk rlam z) used := (mem_whereIdx _ _ _).mpr ⟨n, hi, (bcgOk_iff _ _ _).mpr hc⟩
    obtain ⟨k, hk'⟩ := List.mem_iff_getElem?.mp hm
    have := hrow k
    rw [hk, hk'] at this
    simp [hi] at this
  | some k =>
    obtain ⟨m, hm, hmin⟩ := argmin_spec _ _ hk
    rw [List.getElem?_map, hrow k] at hm
    cases hu : (whereIdx (bcgOk rlam z) used)[k]? with
    | none => rw [hu] at hm; simp at hm
    | some i =>
      rw [hu] at hm
      obtain ⟨n, hn, hp⟩ := (mem_whereIdx _ _ _).mp (List.mem_of_getElem? hu)
      have hcut := (bcgOk_iff _ _ _).mp hp
      refine ⟨⟨fun h => by simp only [hu] at h; simp at h, fun h => absurd hcut (h n (List.mem_of_getElem? hn))⟩, ?_⟩
      intro i' hi'
      simp only [hu, Option.some.injEq] at hi'
      subst hi'
      refine ⟨n, hn, hcut, ?_⟩
      intro j mm hj hcj
      have hmj : j ∈ whereIdx (bcgOk rlam z) used := (mem_whereIdx _ _ _).mpr ⟨mm, hj, (bcgOk_iff _ _ _).mpr hcj⟩
      obtain ⟨k', hk'⟩ := List.mem_iff_getElem?.mp hmj
      have h2 := hmin k' mm.refmag (by rw [List.getElem?_map, hrow k', hk']; simp [hj])
      have hmn : n.refmag = m := by simpa [hn] using hm
      rw [hmn]
      refine ⟨h2.1, fun e => ?_⟩
      have hle := h2.2 e
      rcases Nat.eq_or_lt_of_le hle with he | hlt
      · subst he; rw [hu] at hk'; exact (Option.some.inj hk').le
      · have hs := whereIdx_sorted (bcgOk rlam z) used
        rw [List.pairwise_iff_getElem] at hs
        obtain ⟨hk1, e1⟩ := List.getElem?_eq_some_iff.mp hu
        obtain ⟨hk2, e2⟩ := List.getElem?_eq_some_iff.mp hk'
        have := hs k k' hk1 hk2 hlt
        rw [e1, e2] at this
        exact this.le

def mkN (r mag pmem zred zspec : ℚ) : Nbr ℚ :=
  { r := r, refmag := mag, pmem := pmem, pfree := 1, zred := zred, zredE := 1 / 100, chisq := 2, zspec := zspec,
    zspecE := 1 / 1000 }

/-- Four neighbours: the brightest is outside, the second fails both tests, the third and fourth pass. -/
example : (bcg false (1 : ℚ) (3 / 10)
    [mkN 2 15 1 (3/10) 0, mkN (1/2) 16 (1/10) (5/10) 0, mkN (1/4) 18 (9/10) (5/10) 0, mkN (1/5) 17 0 (31/100) 0]).1 =
    some 3 := by decide +kernel

/-! ## C85: the galaxies are left alone -/

/-- The full property: finding a center does not change the neighbours. -/
def C85_spec : Prop := ∀ (useSpec : Bool) (rlam z : ℚ) (ns : List (Nbr ℚ)), (bcg useSpec rlam z ns).2 = ns

/-- **C85, part.** Without the option `centering_use_zspec` the neighbours are unchanged; with it only those without
a spectroscopic redshift are, and of the others only the redshift and its error change. -/
theorem C85_neighbours_partial (useSpec : Bool) (rlam z : α) (ns : List (Nbr α)) :
    (bcg useSpec rlam z ns).2.length = ns.length ∧
    ∀ (i : Nat) (n n' : Nbr α), ns[i]? = some n → (bcg useSpec rlam z ns).2[i]? = some n' →
      ((useSpec = false ∨ n.zspec ≤ 0) → n' = n) ∧
      n' = { n with zred := n'.zred, zredE := n'.zredE } := by
  have h2 : (bcg useSpec rlam z ns).2 = useZspec useSpec false ns := by
    unfold bcg
    simp only
    cases argmin ((takeRows (useZspec useSpec false ns) (whereIdx (bcgOk rlam z) (useZspec useSpec false ns))).map
      Nbr.refmag) <;> rfl
  rw [h2]
  refine ⟨by unfold useZspec; split_ifs <;> simp, ?_⟩
  intro i n n' hi hi'
  rw [useZspec_getElem?, hi] at hi'
  simp only [Option.map_some, Option.some.injEq] at hi'
  subst hi'
  by_cases hc : useSpec = true ∧ 0 < n.zspec
  · rw [if_pos hc]
    refine ⟨?_, by simp⟩
    rintro (h | h)
    · rw [h] at hc; simp at hc
    · exact absurd hc.2 (not_lt.mpr h)
  · rw [if_neg hc]; exact ⟨fun _ => rfl, rfl⟩

/-- **C85 is false**: with `centering_use_zspec` the photometric redshifts of the cluster's galaxies are overwritten. -/
theorem C85_zspec_false : ¬ C85_spec := by
  intro h
  have := h true 1 (3/10) [mkN (1/2) 17 1 (3/10) (4/10)]
  revert this
  decide +kernel

/-! ## C24: normalisation -/

/-- Probability that none of the independent candidates is the center. -/
def noneProb : List α → α
  | [] => 1
  | p :: ps => (1 - p) * noneProb ps

/-- Probability that exactly one of the independent candidates is the center. -/
def oneProb : List α → α
  | [] => 0
  | p :: ps => p * noneProb ps + (1 - p) * oneProb ps

theorem prod_noneProb (ps : List α) : (ps.map fun p => 1 - p).prod = noneProb ps := by
  induction ps with
  | nil => rfl
  | cons p ps ih => simp [noneProb, ih]

theorem unnorm_cons_zero (p : α) (ps : List α) : unnorm (p :: ps) 0 = p * noneProb ps := by
  simp [unnorm, prod_noneProb]

theorem unnorm_cons_succ (p : α) (ps : List α) (i : Nat) : unnorm (p :: ps) (i + 1) = (1 - p) * unnorm ps i := by
  simp only [unnorm, List.getD_cons_succ, List.set_cons_succ, List.map_cons, List.prod_cons]
  ring

theorem sum_unnorm (ps : List α) : ((List.range ps.length).map fun i => unnorm ps i).sum = oneProb ps := by
  induction ps with
  | nil => rfl
  | cons p ps ih =>
    rw [List.length_cons, List.range_succ_eq_map, List.map_cons, List.map_map, List.sum_cons, unnorm_cons_zero]
    simp only [Function.comp_def, Nat.succ_eq_add_one, unnorm_cons_succ]
    rw [List.sum_map_mul_left, ih]
    rfl

theorem noneProb_pos (ps : List α) (h : ∀ p ∈ ps, p < 1) : 0 < noneProb ps := by
  induction ps with
  | nil => exact one_pos
  | cons p ps ih =>
    exact mul_pos (sub_pos.mpr (h p (by simp))) (ih fun q hq => h q (by simp [hq]))

theorem oneProb_pos (ps : List α) (h0 : ∀ p ∈ ps, 0 < p) (h1 : ∀ p ∈ ps, p < 1) (hne : ps ≠ []) : 0 < oneProb ps := by
  induction ps with
  | nil => simp at hne
  | cons p ps ih =>
    have hn := noneProb_pos ps fun q hq => h1 q (by simp [hq])
    have h2 : 0 ≤ oneProb ps := by
      rcases eq_or_ne ps [] with rfl | hps
      · exact le_refl _
      · exact (ih (fun q hq => h0 q (by simp [hq])) (fun q hq => h1 q (by simp [hq])) hps).le
    have hp := h0 p (by simp)
    have hp1 : 0 < 1 - p := sub_pos.mpr (h1 p (by simp))
    simp only [oneProb]
    positivity

theorem unnorm_eq (ps : List α) (h1 : ∀ p ∈ ps, p < 1) (i : Nat) (p : α) (hi : ps[i]? = some p) :
    unnorm ps i = p / (1 - p) * noneProb ps := by
  induction ps generalizing i with
  | nil => simp at hi
  | cons q ps ih =>
    have hq : (1 - q) ≠ 0 := (sub_pos.mpr (h1 q (by simp))).ne'
    cases i with
    | zero =>
      simp at hi; subst hi
      rw [unnorm_cons_zero]; simp only [noneProb]; field_simp
    | succ i =>
      rw [unnorm_cons_succ, ih (fun x hx => h1 x (by simp [hx])) i (by simpa using hi)]
      simp only [noneProb]; ring

theorem basic_lt_one (l : α) (c : Cand α) : basic l c < 1 := by
  unfold basic
  simp only
  split_ifs
  · norm_num
  · norm_num
  · exact lt_of_le_of_lt (min_le_right _ _) (by norm_num)

theorem un_sum_list (ps : List α) : List.sum ((List.range ps.length).map fun i => unnorm ps i) = oneProb ps :=
  sum_unnorm ps

/-- What `find_center` returns when some candidate has a positive probability. -/
theorem wcen_normal (argsort : List α → List Nat) (maxcen : Nat) (lam s : α) (cands : List (Cand α))
    (hex : ∃ c ∈ cands, 0 < basic (lam / s) c) :
    ∃ (good : List (Cand α)),
      good = (takeRows (cands.filter fun c => decide (0 < basic (lam / s) c))
        (argsort ((cands.filter fun c => decide (0 < basic (lam / s) c)).map (basic (lam / s)))).reverse).take maxcen ∧
      wcen argsort maxcen lam s cands = .ok
        { rows := (good.zip ((List.range good.length).map fun i => unnorm (good.map (basic (lam / s))) i)).map fun q =>
            outRow lam q.1 (1 / oneProb (good.map (basic (lam / s))) * q.2)
              (1 / (noneProb (good.map (basic (lam / s))) + oneProb (good.map (basic (lam / s)))) * q.2)
              (basic (lam / s) q.1),
          ngood := good.length, qmiss := 0 } := by
  refine ⟨_, rfl, ?_⟩
  obtain ⟨c, hc, hp⟩ := hex
  have hne : (cands.filter fun c => decide (0 < basic (lam / s) c)).isEmpty = false := by
    rw [List.isEmpty_eq_false_iff]
    exact List.ne_nil_of_mem (List.mem_filter.mpr ⟨hc, by simpa using hp⟩)
  unfold wcen
  simp only [hne]
  have htake : ∀ l : List (Cand α), (if l.length < maxcen then l else l.take maxcen) = l.take maxcen := by
    intro l
    split_ifs with h
    · rw [List.take_of_length_le h.le]
    · rfl
  have hsum : ∀ l : List (Cand α), ((List.range l.length).map fun i => unnorm (l.map fun c => basic (lam / s) c) i).sum =
      oneProb (l.map fun c => basic (lam / s) c) := by
    intro l
    rw [← sum_unnorm, List.length_map]
  simp only [Bool.false_eq_true, if_false, htake, List.length_map, hsum, prod_noneProb]

theorem sum_map_zip_snd {β γ : Type} [AddCommMonoid γ] (l : List β) (m : List γ) (h : m.length ≤ l.length) :
    ((l.zip m).map Prod.snd).sum = m.sum := by
  rw [List.map_snd_zip h]

/-- **C24, the part that holds.** Whenever some candidate has a positive probability of being the center, the call
succeeds.  The rows it reports are the `maxcen` most probable candidates with positive probability, most probable
first, and with `none`/`one` the probabilities that none / exactly one of these independent candidates is the center:
the `P_cen` are positive, do not increase along the list and sum to 1; the `Q_cen` are positive and sum to 1 together
with the probability `none/(none+one)` that the center is missed.

Missing from the full property: that missed-center probability is not what the `q_miss` attribute reports. -/
theorem C24_normalised_partial (argsort : List α → List Nat) (hsort : Argsort argsort) (maxcen : Nat)
    (hmax : 1 ≤ maxcen) (lam s : α) (cands : List (Cand α)) (hex : ∃ c ∈ cands, 0 < basic (lam / s) c) :
    ∃ (out : Out α) (good rest : List (Cand α)), wcen argsort maxcen lam s cands = .ok out ∧
      (good ++ rest).Perm (cands.filter fun c => decide (0 < basic (lam / s) c)) ∧
      good.length = min maxcen (cands.filter fun c => decide (0 < basic (lam / s) c)).length ∧
      (∀ g ∈ good, ∀ c ∈ rest, basic (lam / s) c ≤ basic (lam / s) g) ∧
      out.ngood = good.length ∧
      out.rows.map (fun o => (o.idx, o.pc)) = good.map (fun c => (c.idx, basic (lam / s) c)) ∧
      (out.rows.map OutRow.pcen).sum = 1 ∧
      (out.rows.map OutRow.pcen).Pairwise (· ≥ ·) ∧
      (∀ o ∈ out.rows, 0 < o.pcen ∧ o.pcen ≤ 1 ∧ 0 < o.qcen ∧ o.qcen < 1) ∧
      (out.rows.map OutRow.qcen).sum + noneProb (out.rows.map OutRow.pc) /
        (noneProb (out.rows.map OutRow.pc) + oneProb (out.rows.map OutRow.pc)) = 1 := by
  obtain ⟨good, hgood, hw⟩ := wcen_normal argsort maxcen lam s cands hex
  set pb := basic (lam / s) with hpb
  set ok := cands.filter fun c => decide (0 < pb c) with hok
  set srt := takeRows ok (argsort (ok.map pb)).reverse with hsrt
  set ps := good.map pb with hps
  set un := (List.range good.length).map fun i => unnorm ps i with hun
  obtain ⟨hperm, hpw⟩ := hsort (ok.map pb)
  have hsp : srt.Perm ok := by
    apply takeRows_perm
    simpa using (List.reverse_perm _).trans hperm
  have hspw : srt.Pairwise (fun a b => pb b ≤ pb a) := by
    rw [hsrt, takeRows_reverse, List.pairwise_reverse]
    rw [takeRows_map] at hpw
    exact List.pairwise_map.mp hpw
  have hokpos : ∀ c ∈ ok, 0 < pb c := fun c hc => by simpa using (List.mem_filter.mp hc).2
  have hgm : ∀ c ∈ good, c ∈ ok := fun c hc => hsp.mem_iff.mp (List.mem_of_mem_take (hgood ▸ hc))
  have hp0 : ∀ p ∈ ps, 0 < p := by
    intro p hp; obtain ⟨c, hc, rfl⟩ := List.mem_map.mp hp; exact hokpos c (hgm c hc)
  have hp1 : ∀ p ∈ ps, p < 1 := by
    intro p hp; obtain ⟨c, hc, rfl⟩ := List.mem_map.mp hp; exact basic_lt_one _ _
  have hokne : ok ≠ [] := by
    obtain ⟨c, hc, hp⟩ := hex
    exact List.ne_nil_of_mem (List.mem_filter.mpr ⟨hc, by simpa using hp⟩)
  have hglen : good.length = min maxcen ok.length := by rw [hgood, List.length_take, hsp.length_eq]
  have hgne : ps ≠ [] := by
    intro h
    have h1 : good.length = 0 := by simpa [hps] using congrArg List.length h
    have h2 : 0 < ok.length := List.length_pos_of_ne_nil hokne
    omega
  have hone := oneProb_pos ps hp0 hp1 hgne
  have hnone := noneProb_pos ps hp1
  have hunlen : un.length = good.length := by simp [hun]
  have hpslen : ps.length = good.length := by simp [hps]
  have hunsum : un.sum = oneProb ps := by rw [hun, ← hpslen]; exact sum_unnorm ps
  -- columns
  have hcol : ∀ k : α, ((good.zip un).map fun q => k * q.2).sum = k * un.sum := by
    intro k
    have : (good.zip un).map (fun q => k * q.2) = ((good.zip un).map Prod.snd).map (k * ·) := by
      rw [List.map_map]; rfl
    rw [this, List.sum_map_mul_left, List.map_id', List.map_snd_zip hunlen.le]
  have hunpos : ∀ u ∈ un, 0 < u := by
    intro u hu
    obtain ⟨i, hi, rfl⟩ := List.mem_map.mp hu
    have hi' : i < ps.length := by rw [hpslen]; exact List.mem_range.mp hi
    rw [unnorm_eq ps hp1 i ps[i] (List.getElem?_eq_getElem hi')]
    have a := hp0 _ (List.getElem_mem hi')
    have b := sub_pos.mpr (hp1 _ (List.getElem_mem hi'))
    positivity
  have hunle : ∀ u ∈ un, u ≤ un.sum := by
    intro u hu
    exact List.single_le_sum (fun x hx => (hunpos x hx).le) u hu
  have hpcs : (((good.zip un).map fun q => outRow lam q.1 (1 / oneProb ps * q.2)
      (1 / (noneProb ps + oneProb ps) * q.2) (pb q.1)).map OutRow.pc) = ps := by
    rw [List.map_map, hps]
    have : (OutRow.pc ∘ fun q : Cand α × α => outRow lam q.1 (1 / oneProb ps * q.2)
      (1 / (noneProb ps + oneProb ps) * q.2) (pb q.1)) = pb ∘ Prod.fst := by
      funext q; rfl
    rw [this, ← List.map_map, List.map_fst_zip hunlen.ge]
  refine ⟨_, good, srt.drop maxcen, hw, ?_, hglen, ?_, rfl, ?_, ?_, ?_, ?_, ?_⟩
  · rw [hgood, List.take_append_drop]; exact hsp
  · intro g hg c hc
    rw [← List.take_append_drop maxcen srt, List.pairwise_append] at hspw
    exact hspw.2.2 g (hgood ▸ hg) c hc
  · rw [List.map_map]
    have : ((fun o : OutRow α => (o.idx, o.pc)) ∘ fun q : Cand α × α => outRow lam q.1 (1 / oneProb ps * q.2)
      (1 / (noneProb ps + oneProb ps) * q.2) (pb q.1)) = (fun c => (c.idx, pb c)) ∘ Prod.fst := by
      funext q; rfl
    rw [this, ← List.map_map, List.map_fst_zip hunlen.ge]
  · rw [List.map_map]
    show ((good.zip un).map fun q => 1 / oneProb ps * q.2).sum = 1
    rw [hcol, hunsum]
    field_simp
  · rw [List.map_map]
    show ((good.zip un).map fun q => 1 / oneProb ps * q.2).Pairwise _
    have he : (good.zip un).map (fun q => 1 / oneProb ps * q.2) = un.map fun u => 1 / oneProb ps * u := by
      have : (good.zip un).map (fun q => 1 / oneProb ps * q.2) =
          ((good.zip un).map Prod.snd).map fun u => 1 / oneProb ps * u := by
        rw [List.map_map]; rfl
      rw [this, List.map_snd_zip hunlen.le]
    rw [he, List.pairwise_map, hun, List.pairwise_map, List.pairwise_iff_getElem]
    intro i j hi hj hij
    simp only [List.length_range] at hi hj
    simp only [List.getElem_range]
    have hi' : i < ps.length := by omega
    have hj' : j < ps.length := by omega
    rw [unnorm_eq ps hp1 i ps[i] (List.getElem?_eq_getElem hi'),
      unnorm_eq ps hp1 j ps[j] (List.getElem?_eq_getElem hj')]
    have hle : ps[j] ≤ ps[i] := by
      have hgp : good.Pairwise (fun a b => pb b ≤ pb a) := by
        rw [hgood]; exact List.Pairwise.sublist (List.take_sublist _ _) hspw
      rw [List.pairwise_iff_getElem] at hgp
      simpa [hps] using hgp i j hi hj hij
    have hb1 := sub_pos.mpr (hp1 _ (List.getElem_mem hi'))
    have hb2 := sub_pos.mpr (hp1 _ (List.getElem_mem hj'))
    have h3 : ps[j] / (1 - ps[j]) ≤ ps[i] / (1 - ps[i]) := by
      rw [div_le_div_iff₀ hb2 hb1]
      nlinarith
    have := mul_le_mul_of_nonneg_right h3 hnone.le
    exact mul_le_mul_of_nonneg_left this (by positivity)
  · intro o ho
    obtain ⟨q, hq, rfl⟩ := List.mem_map.mp ho
    have hq2 : q.2 ∈ un := (List.of_mem_zip (a := q.1) (b := q.2) hq).2
    have h1 := hunpos _ hq2
    have h2 := hunle _ hq2
    rw [hunsum] at h2
    refine ⟨?_, ?_, ?_, ?_⟩
    · show 0 < 1 / oneProb ps * q.2
      positivity
    · show 1 / oneProb ps * q.2 ≤ 1
      rw [one_div, inv_mul_le_one₀ hone]; exact h2
    · show 0 < 1 / (noneProb ps + oneProb ps) * q.2
      positivity
    · show 1 / (noneProb ps + oneProb ps) * q.2 < 1
      rw [one_div, inv_mul_lt_one₀ (by positivity)]; linarith
  · rw [hpcs, List.map_map]
    show ((good.zip un).map fun q => 1 / (noneProb ps + oneProb ps) * q.2).sum + _ = 1
    rw [hcol, hunsum]
    have : noneProb ps + oneProb ps ≠ 0 := by positivity
    field_simp
    ring

/-- The full property: `P_cen` sum to 1, `Q_cen` and the reported missed-center probability sum to 1. -/
def C24_spec : Prop := ∀ (argsort : List ℚ → List Nat), Argsort argsort → ∀ (maxcen : Nat), 1 ≤ maxcen →
  ∀ (lam s : ℚ) (cands : List (Cand ℚ)), (∃ c ∈ cands, 0 < basic (lam / s) c) →
    ∀ out, wcen argsort maxcen lam s cands = .ok out →
      (out.rows.map OutRow.pcen).sum = 1 ∧ (out.rows.map OutRow.qcen).sum + out.qmiss = 1

/-- In the normal case the reported missed-center probability never makes up the difference: the reported `Q_cen` and
`q_miss` always sum to less than 1. -/
theorem C24_qmiss_not_reported (argsort : List α → List Nat) (hsort : Argsort argsort) (maxcen : Nat)
    (hmax : 1 ≤ maxcen) (lam s : α) (cands : List (Cand α)) (hex : ∃ c ∈ cands, 0 < basic (lam / s) c)
    (out : Out α) (hout : wcen argsort maxcen lam s cands = .ok out) :
    out.qmiss = 0 ∧ (out.rows.map OutRow.qcen).sum + out.qmiss < 1 := by
  have hq : out.qmiss = 0 := by
    obtain ⟨good, _, hw⟩ := wcen_normal argsort maxcen lam s cands hex
    rw [hw] at hout
    injection hout with h
    rw [← h]
  obtain ⟨out', good, rest, h1, h2, h3, h4, h5, h6, h7, h8, h9, h10⟩ :=
    C24_normalised_partial argsort hsort maxcen hmax lam s cands hex
  rw [hout] at h1
  injection h1 with h1
  subst h1
  refine ⟨hq, ?_⟩
  rw [hq, add_zero]
  have hpc : out.rows.map OutRow.pc = good.map (basic (lam / s)) := by
    have := congrArg (List.map Prod.snd) h6
    simpa [List.map_map, Function.comp_def] using this
  have hmem : ∀ c ∈ good, 0 < basic (lam / s) c := fun c hc => by
    have := h2.mem_iff.mp (List.mem_append_left rest hc)
    simpa using (List.mem_filter.mp this).2
  have hne : good ≠ [] := by
    intro h
    obtain ⟨c, hc, hp⟩ := hex
    have : 0 < (cands.filter fun c => decide (0 < basic (lam / s) c)).length :=
      List.length_pos_of_mem (List.mem_filter.mpr ⟨hc, by simpa using hp⟩)
    rw [h] at h3
    simp only [List.length_nil] at h3
    omega
  have hn : 0 < noneProb (out.rows.map OutRow.pc) := by
    rw [hpc]; exact noneProb_pos _ (by intro p hp; obtain ⟨c, _, rfl⟩ := List.mem_map.mp hp; exact basic_lt_one _ _)
  have ho : 0 < oneProb (out.rows.map OutRow.pc) := by
    rw [hpc]
    refine oneProb_pos _ ?_ ?_ (by simpa using hne)
    · intro p hp; obtain ⟨c, hc, rfl⟩ := List.mem_map.mp hp; exact hmem c hc
    · intro p hp; obtain ⟨c, _, rfl⟩ := List.mem_map.mp hp; exact basic_lt_one _ _
  have : 0 < noneProb (out.rows.map OutRow.pc) /
      (noneProb (out.rows.map OutRow.pc) + oneProb (out.rows.map OutRow.pc)) := by positivity
  linarith

def exCands : List (Cand ℚ) :=
  [{ idx := 3, r := 1 / 10, pfree := 1, ucen := 1, usat := 1 / 10, bcounts := 1 / 10 },
   { idx := 5, r := 2 / 10, pfree := 1 / 2, ucen := 2, usat := 1 / 10, bcounts := 1 / 10 },
   { idx := 8, r := 3 / 10, pfree := 1, ucen := 0, usat := 1 / 10, bcounts := 1 / 10 }]

/-- The hypotheses of C24 are met by three candidates, one of them hopeless. -/
theorem exCands_ok : ∃ c ∈ exCands, 0 < basic ((10 : ℚ) / 1) c :=
  ⟨_, List.mem_cons_self, by decide +kernel⟩

example : (wcen argsortRef 5 (10 : ℚ) 1 exCands).toOption.map (fun o => (o.ngood, o.rows.map OutRow.idx)) =
    some (2, [3, 5]) := by decide +kernel

theorem C24_qmiss_false : ¬ C24_spec := by
  intro h
  obtain ⟨out, good, rest, h1, _⟩ := C24_normalised_partial argsortRef argsortRef_ok 5 (by norm_num) (10 : ℚ) 1 exCands
    exCands_ok
  have h2 := (h argsortRef argsortRef_ok 5 (by norm_num) 10 1 exCands exCands_ok out h1).2
  have h3 := (C24_qmiss_not_reported argsortRef argsortRef_ok 5 (by norm_num) (10 : ℚ) 1 exCands exCands_ok out h1).2
  linarith

/-! ## C84: there is always an answer -/

/-- When no candidate has a positive probability, the candidate closest to the current center is reported, with zero
central probability, a missed-center probability of one, and zero good centers. -/
theorem C84_no_center (argsort : List α → List Nat) (maxcen : Nat) (lam s : α) (cands : List (Cand α))
    (hne : cands ≠ []) (hno : ∀ c ∈ cands, basic (lam / s) c ≤ 0) :
    ∃ out o c, wcen argsort maxcen lam s cands = .ok out ∧ out.rows = [o] ∧ c ∈ cands ∧ o.idx = c.idx ∧
      (∀ d ∈ cands, c.r ≤ d.r) ∧ o.pcen = 0 ∧ o.qcen = 0 ∧ out.qmiss = 1 ∧ out.ngood = 0 := by
  have hemp : (cands.filter fun c => decide (0 < basic (lam / s) c)).isEmpty = true := by
    rw [List.isEmpty_iff, List.filter_eq_nil_iff]
    intro c hc
    simpa using hno c hc
  unfold wcen
  simp only [hemp, if_true]
  cases hk : argmin (cands.map Cand.r) with
  | none => rw [argmin_none, List.map_eq_nil_iff] at hk; exact absurd hk hne
  | some k =>
    obtain ⟨m, hm, hmin⟩ := argmin_spec _ _ hk
    rw [List.getElem?_map] at hm
    cases hc : cands[k]? with
    | none => rw [hc] at hm; simp at hm
    | some c =>
      simp only [hc, Option.map_some, Option.some.injEq] at hm
      simp only [hc]
      refine ⟨_, _, c, rfl, rfl, List.mem_of_getElem? hc, rfl, ?_, rfl, rfl, rfl, rfl⟩
      intro d hd
      obtain ⟨j, hj⟩ := List.mem_iff_getElem?.mp hd
      rw [hm]
      exact (hmin j d.r (by rw [List.getElem?_map, hj]; rfl)).1

/-- **C84.** `find_center` answers exactly when there is at least one candidate. -/
theorem C84_answers (argsort : List α → List Nat) (maxcen : Nat) (lam s : α) (cands : List (Cand α)) :
    (∃ out, wcen argsort maxcen lam s cands = .ok out) ↔ cands ≠ [] := by
  constructor
  · rintro ⟨out, h⟩ rfl
    simp [wcen, argmin] at h
  · intro hne
    by_cases hex : ∃ c ∈ cands, 0 < basic (lam / s) c
    · obtain ⟨good, _, h⟩ := wcen_normal argsort maxcen lam s cands hex
      exact ⟨_, h⟩
    · push Not at hex
      obtain ⟨out, _, _, h, _⟩ := C84_no_center argsort maxcen lam s cands hne hex
      exact ⟨out, h⟩

/-- The documented behaviour, "always True": the search always answers. -/
def C84_spec : Prop := ∀ (argsort : List ℚ → List Nat), Argsort argsort → ∀ (maxcen : Nat) (lam s : ℚ)
  (cands : List (Cand ℚ)), ∃ out, wcen argsort maxcen lam s cands = .ok out

/-- **C84 is false** without any candidate: `argmin` of an empty list raises `ValueError`. -/
theorem C84_no_candidate_false : ¬ C84_spec := by
  intro h
  exact (C84_answers argsortRef 5 (10 : ℚ) 1 []).mp (h _ argsortRef_ok 5 10 1 []) rfl

/-! ## C83: every candidate is central, satellite or foreground -/

/-- Every reported row is one of a candidate, with a central probability between 0 and 1. -/
theorem wcen_rows (argsort : List α → List Nat) (hsort : Argsort argsort) (maxcen : Nat) (hmax : 1 ≤ maxcen)
    (lam s : α) (cands : List (Cand α)) (out : Out α) (hout : wcen argsort maxcen lam s cands = .ok out) :
    ∀ o ∈ out.rows, 0 ≤ o.pcen ∧ o.pcen ≤ 1 ∧ ∃ c ∈ cands, ∃ q p, o = outRow lam c o.pcen q p := by
  by_cases hex : ∃ c ∈ cands, 0 < basic (lam / s) c
  · obtain ⟨out', good', rest, h1, h2, h3, h4, h5, h6, h7, h8, h9, h10⟩ :=
      C24_normalised_partial argsort hsort maxcen hmax lam s cands hex
    rw [hout] at h1
    injection h1 with h1
    subst h1
    intro o ho
    refine ⟨(h9 o ho).1.le, (h9 o ho).2.1, ?_⟩
    obtain ⟨good, hg, hw⟩ := wcen_normal argsort maxcen lam s cands hex
    rw [hout] at hw
    injection hw with hw
    rw [hw] at ho
    simp only at ho
    obtain ⟨q, hq, rfl⟩ := List.mem_map.mp ho
    have hq1 := (List.of_mem_zip (a := q.1) (b := q.2) hq).1
    refine ⟨q.1, ?_, _, _, rfl⟩
    rw [hg] at hq1
    have hsp : (takeRows (cands.filter fun c => decide (0 < basic (lam / s) c))
      (argsort ((cands.filter fun c => decide (0 < basic (lam / s) c)).map (basic (lam / s)))).reverse).Perm
        (cands.filter fun c => decide (0 < basic (lam / s) c)) := by
      apply takeRows_perm
      have h0 := (hsort ((cands.filter fun c => decide (0 < basic (lam / s) c)).map (basic (lam / s)))).1
      rw [List.length_map] at h0
      exact (List.reverse_perm _).trans h0
    exact (List.mem_filter.mp (hsp.mem_iff.mp (List.mem_of_mem_take hq1))).1
  · push Not at hex
    have hne : cands ≠ [] := (C84_answers argsort maxcen lam s cands).mp ⟨_, hout⟩
    have hemp : (cands.filter fun c => decide (0 < basic (lam / s) c)).isEmpty = true := by
      rw [List.isEmpty_iff, List.filter_eq_nil_iff]
      intro c hc
      simpa using hex c hc
    unfold wcen at hout
    simp only [hemp, if_true] at hout
    cases hk : argmin (cands.map Cand.r) with
    | none => simp [hk] at hout
    | some k =>
      rw [hk] at hout
      cases hc : cands[k]? with
      | none => simp [hc] at hout
      | some c =>
        simp only [hc, Except.ok.injEq] at hout
        subst hout
        intro o ho
        simp only [List.mem_singleton] at ho
        subst ho
        exact ⟨le_refl _, zero_le_one, c, List.mem_of_getElem? hc, _, _, rfl⟩

/-- **C83**, without densities: if neither satellites nor background have a density at any candidate, the probabilities of being a satellite
and of being foreground are zero. -/
theorem C83_none (argsort : List α → List Nat) (hsort : Argsort argsort) (maxcen : Nat) (hmax : 1 ≤ maxcen)
    (lam s : α) (cands : List (Cand α)) (out : Out α) (hout : wcen argsort maxcen lam s cands = .ok out)
    (hden : ∀ c ∈ cands, (lam - 1) * c.usat + c.bcounts = 0) : ∀ o ∈ out.rows, o.psat = 0 ∧ o.pfg = 0 := by
  intro o ho
  obtain ⟨_, _, c, hc, q, p, he⟩ := wcen_rows argsort hsort maxcen hmax lam s cands out hout o ho
  rw [he]
  simp only [outRow, ratio0, if_pos (hden c hc), mul_zero, and_self]

/-- **C83.** For every reported candidate whose satellite-plus-background density is not zero, the probabilities of
being central, satellite and foreground sum to 1; when they are densities (richness at least 1, non-negative filters)
each lies between 0 and 1. -/
theorem C83_exhaustive (argsort : List α → List Nat) (hsort : Argsort argsort) (maxcen : Nat) (hmax : 1 ≤ maxcen)
    (lam s : α) (cands : List (Cand α)) (out : Out α) (hout : wcen argsort maxcen lam s cands = .ok out)
    (hden : ∀ c ∈ cands, (lam - 1) * c.usat + c.bcounts ≠ 0) :
    (∀ o ∈ out.rows, o.pcen + o.psat + o.pfg = 1) ∧
    (1 ≤ lam → (∀ c ∈ cands, 0 ≤ c.usat ∧ 0 ≤ c.bcounts) →
      ∀ o ∈ out.rows, 0 ≤ o.psat ∧ o.psat ≤ 1 ∧ 0 ≤ o.pfg ∧ o.pfg ≤ 1) := by
  have hrow := wcen_rows argsort hsort maxcen hmax lam s cands out hout
  constructor
  · intro o ho
    obtain ⟨_, _, c, hc, q, p, he⟩ := hrow o ho
    rw [he]
    simp only [outRow, ratio0, if_neg (hden c hc)]
    have := hden c hc
    field_simp
    ring
  · intro hl hcc o ho
    obtain ⟨h0, h1, c, hc, q, p, he⟩ := hrow o ho
    obtain ⟨hu, hb⟩ := hcc c hc
    have hd := hden c hc
    have hl' : 0 ≤ lam - 1 := sub_nonneg.mpr hl
    have hu' : 0 ≤ (lam - 1) * c.usat := mul_nonneg hl' hu
    have hd' : 0 < (lam - 1) * c.usat + c.bcounts := lt_of_le_of_ne (by positivity) (Ne.symm hd)
    have hp1 : 0 ≤ 1 - o.pcen := sub_nonneg.mpr h1
    have hp2 : 1 - o.pcen ≤ 1 := by linarith
    have ha : ∀ x y : α, 0 ≤ x → x ≤ y → 0 < y → 0 ≤ (1 - o.pcen) * (x / y) ∧ (1 - o.pcen) * (x / y) ≤ 1 := by
      intro x y hx hxy hy
      have h3 : 0 ≤ x / y := by positivity
      have h4 : x / y ≤ 1 := (div_le_one hy).mpr hxy
      exact ⟨mul_nonneg hp1 h3, mul_le_one₀ hp2 h3 h4⟩
    have e1 : o.psat = (1 - o.pcen) * ((lam - 1) * c.usat / ((lam - 1) * c.usat + c.bcounts)) := by
      rw [he]; simp only [outRow, ratio0, if_neg hd]
    have e2 : o.pfg = (1 - o.pcen) * (c.bcounts / ((lam - 1) * c.usat + c.bcounts)) := by
      rw [he]; simp only [outRow, ratio0, if_neg hd]
    obtain ⟨a1, a2⟩ := ha _ _ hu' (by linarith) hd'
    obtain ⟨b1, b2⟩ := ha _ _ hb (by linarith) hd'
    rw [e1, e2]
    exact ⟨a1, a2, b1, b2⟩

example : ∀ c ∈ exCands, ((10 : ℚ) - 1) * c.usat + c.bcounts ≠ 0 := by decide +kernel

/-! ## C87: only candidates are reported -/

/-- The candidate cuts: inside the cluster radius, not taken by a better cluster, red enough, and either a member or at
a redshift within five standard deviations of the cluster's. -/
def WcenCuts (rlam z pbcg chimax : α) (n : Nbr α) : Prop :=
  n.r < rlam ∧ pbcg ≤ n.pfree ∧ n.chisq < chimax ∧ (0 < n.pmem ∨ |z - n.zred| < 5 * n.zredE)

theorem wcen_rows_idx (argsort : List α → List Nat) (hsort : Argsort argsort) (maxcen : Nat) (hmax : 1 ≤ maxcen)
    (lam s : α) (cands : List (Cand α)) (out : Out α) (hout : wcen argsort maxcen lam s cands = .ok out)
    (hnd : (cands.map Cand.idx).Nodup) :
    (out.rows.map OutRow.idx).Nodup ∧ out.rows ≠ [] ∧ out.rows.length ≤ maxcen ∧
      ∀ o ∈ out.rows, ∃ c ∈ cands, o.idx = c.idx := by
  by_cases hex : ∃ c ∈ cands, 0 < basic (lam / s) c
  · obtain ⟨out', good, rest, h1, h2, h3, h4, h5, h6, h7, h8, h9, h10⟩ :=
      C24_normalised_partial argsort hsort maxcen hmax lam s cands hex
    rw [hout] at h1
    injection h1 with h1
    subst h1
    have hidx : out.rows.map OutRow.idx = good.map Cand.idx := by
      have := congrArg (List.map Prod.fst) h6
      simpa [List.map_map, Function.comp_def] using this
    have hlen : out.rows.length = good.length := by simpa using congrArg List.length hidx
    have hsubl : (cands.filter fun c => decide (0 < basic (lam / s) c)).Sublist cands := List.filter_sublist
    have hnd2 : ((good ++ rest).map Cand.idx).Nodup :=
      (h2.map Cand.idx).nodup_iff.mpr (hnd.sublist (hsubl.map Cand.idx))
    rw [List.map_append] at hnd2
    refine ⟨by rw [hidx]; exact (List.nodup_append.mp hnd2).1, ?_, by omega, ?_⟩
    · obtain ⟨c, hc, hp⟩ := hex
      have : 0 < (cands.filter fun c => decide (0 < basic (lam / s) c)).length :=
        List.length_pos_of_mem (List.mem_filter.mpr ⟨hc, by simpa using hp⟩)
      intro h
      rw [h] at hlen
      simp only [List.length_nil] at hlen
      omega
    · intro o ho
      have : o.idx ∈ good.map Cand.idx := by rw [← hidx]; exact List.mem_map_of_mem ho
      obtain ⟨c, hc, he⟩ := List.mem_map.mp this
      exact ⟨c, hsubl.subset (h2.mem_iff.mp (List.mem_append_left rest hc)), he.symm⟩
  · push Not at hex
    have hne : cands ≠ [] := (C84_answers argsort maxcen lam s cands).mp ⟨_, hout⟩
    obtain ⟨out', o, c, h1, h2, h3, h4, _⟩ := C84_no_center argsort maxcen lam s cands hne hex
    rw [hout] at h1
    injection h1 with h1
    subst h1
    rw [h2]
    refine ⟨by simp, by simp, by simpa using hmax, ?_⟩
    intro o' ho'
    rw [List.mem_singleton] at ho'
    subst ho'
    exact ⟨c, h3, h4⟩

/-- **C87.** Every reported center is a neighbour of the cluster that passes the candidate cuts, none is reported
twice, and between one and `maxcen` are reported. -/
theorem C87_candidates (argsort : List α → List Nat) (hsort : Argsort argsort) (useSpec : Bool)
    (rlam z pbcg chimax : α) (maxcen : Nat) (hmax : 1 ≤ maxcen) (lam s : α) (ucen usat bcounts : Nbr α → α)
    (ns : List (Nbr α)) (out : Out α)
    (hout : findCenter argsort useSpec rlam z pbcg chimax maxcen lam s ucen usat bcounts ns = .ok out) :
    (out.rows.map OutRow.idx).Nodup ∧ 1 ≤ out.rows.length ∧ out.rows.length ≤ maxcen ∧
    ∀ o ∈ out.rows, ∃ n, ns[o.idx]? = some n ∧
      WcenCuts rlam z pbcg chimax (if useSpec = true ∧ 0 < n.zspec then
        { n with zred := n.zspec, zredE := n.zspecE, chisq := 1 } else n) := by
  unfold findCenter at hout
  simp only at hout
  set ns' := useZspec useSpec true ns with hns'
  set use := whereIdx (wcenOk rlam z pbcg chimax) ns' with huse
  set cands : List (Cand α) := use.filterMap fun i => ns'[i]?.map fun n =>
    { idx := i, r := n.r, pfree := n.pfree, ucen := ucen n, usat := usat n, bcounts := bcounts n } with hcands
  have hidx : cands.map Cand.idx = use := by
    rw [hcands, List.map_filterMap]
    have hin : ∀ i ∈ use, (Option.map Cand.idx (ns'[i]?.map fun n => (
        { idx := i, r := n.r, pfree := n.pfree, ucen := ucen n, usat := usat n, bcounts := bcounts n } : Cand α))) =
        some i := by
      intro i hi
      obtain ⟨n, hn, _⟩ := (mem_whereIdx _ _ _).mp hi
      rw [hn]; rfl
    rw [List.filterMap_congr hin]
    simp
  have hnd : (cands.map Cand.idx).Nodup := by
    rw [hidx]; exact (whereIdx_sorted _ _).imp (fun h => ne_of_lt h)
  obtain ⟨h1, h2, h3, h4⟩ := wcen_rows_idx argsort hsort maxcen hmax lam s cands out hout hnd
  refine ⟨h1, List.length_pos_of_ne_nil h2, h3, ?_⟩
  intro o ho
  obtain ⟨c, hc, he⟩ := h4 o ho
  have : o.idx ∈ use := by rw [← hidx, he]; exact List.mem_map_of_mem hc
  obtain ⟨n', hn', hp⟩ := (mem_whereIdx _ _ _).mp this
  rw [hns', useZspec_getElem?] at hn'
  cases hn : ns[o.idx]? with
  | none => rw [hn] at hn'; simp at hn'
  | some n =>
    rw [hn] at hn'
    simp only [Option.map_some, Option.some.injEq, if_true] at hn'
    refine ⟨n, rfl, ?_⟩
    rw [hn']
    simpa [wcenOk, WcenCuts, and_assoc] using hp

/-- Three neighbours, of which the second is taken by another cluster: the others are reported, most probable first. -/
example : (findCenter argsortRef false (1 : ℚ) (3 / 10) (1 / 2) 10 5 10 1 (fun n => 20 - n.refmag) (fun _ => 1 / 10)
    (fun _ => 1 / 10) [mkN (1 / 2) 18 1 (3/10) 0, { mkN (1 / 4) 16 1 (3/10) 0 with pfree := 0 },
      mkN (1 / 4) 17 1 (3/10) 0]).toOption.map (fun o => (o.ngood, o.rows.map OutRow.idx)) = some (2, [2, 0]) := by
  decide +kernel

/-! ## C86: random satellite -/

theorem cumsum_length (acc : α) (l : List α) : (cumsum acc l).length = l.length := by
  induction l generalizing acc with
  | nil => rfl
  | cons x xs ih => simp [cumsum, ih]

theorem cumsum_getD (acc : α) (l : List α) (i : Nat) (hi : i < l.length) :
    (cumsum acc l).getD i 0 = acc + (l.take (i + 1)).sum := by
  induction l generalizing acc i with
  | nil => simp at hi
  | cons x xs ih =>
    cases i with
    | zero => simp [cumsum]
    | succ i =>
      simp only [cumsum, List.getD_cons_succ, List.take_succ_cons, List.sum_cons]
      rw [ih _ _ (by simpa using hi)]
      ring

/-- **C86.** For every uniform draw in `[0,1)` and every cluster whose membership probabilities are non-negative and
not all zero, random-satellite centering returns a neighbour, and one with positive membership probability. -/
theorem C86_random_satellite [FloorRing α] (argsort : List α → List Nat) (hsort : Argsort argsort) (u : α)
    (hu1 : u < 1) (pmem : List α) (hp : ∀ p ∈ pmem, 0 ≤ p) (hpos : ∃ p ∈ pmem, 0 < p) :
    ∃ k p, randomSat argsort u pmem = .ok k ∧ pmem[k]? = some p ∧ 0 < p := by
  obtain ⟨hperm, hpw⟩ := hsort pmem
  have hrperm : (argsort pmem).reverse.Perm (List.range pmem.length) := (List.reverse_perm _).trans hperm
  set st := (argsort pmem).reverse with hst
  have hstlen : st.length = pmem.length := by simpa using hrperm.length_eq
  have hin : ∀ i ∈ st, i < pmem.length := fun i hi => List.mem_range.mp (hrperm.mem_iff.mp hi)
  have hrow := takeRows_getElem? pmem st hin
  set sorted := takeRows pmem st with hsorted
  have hsp : sorted.Perm pmem := takeRows_perm _ _ hrperm
  have hslen : sorted.length = st.length := by rw [hsp.length_eq, hstlen]
  have hspw : sorted.Pairwise (fun a b => b ≤ a) := by
    rw [hsorted, hst, takeRows_reverse, List.pairwise_reverse]; exact hpw
  have hs0 : ∀ p ∈ sorted, 0 ≤ p := fun p h => hp p (hsp.mem_iff.mp h)
  have hsum : 0 < sorted.sum := by
    obtain ⟨p, hm, h0⟩ := hpos
    exact lt_of_lt_of_le h0 (List.single_le_sum (fun x hx => hs0 x hx) p (hsp.mem_iff.mpr hm))
  set pdf := sorted.map fun x => x / sorted.sum with hpdf
  have hpdflen : pdf.length = st.length := by simp [hpdf, hslen]
  have hn : 0 < st.length := by
    obtain ⟨p, hm, _⟩ := hpos
    rw [hstlen]; exact List.length_pos_of_mem hm
  have hnα : (0 : α) < (st.length : α) := by exact_mod_cast hn
  have hpdfsum : pdf.sum = 1 := by
    rw [hpdf]
    have : (sorted.map fun x => x / sorted.sum) = sorted.map fun x => x * (sorted.sum)⁻¹ := by
      simp only [div_eq_mul_inv]
    rw [this, List.sum_map_mul_right, List.map_id']
    exact mul_inv_cancel₀ hsum.ne'
  set cdfi : List Int := (cumsum 0 pdf).map fun x => ⌊x * (st.length : α)⌋ with hcdfi
  have hclen : cdfi.length = st.length := by simp [hcdfi, cumsum_length, hpdflen]
  have hcd : ∀ i, i < st.length → cdfi.getD i 0 = ⌊(pdf.take (i + 1)).sum * (st.length : α)⌋ := by
    intro i hi
    have h1 : i < (cumsum 0 pdf).length := by rw [cumsum_length]; omega
    have h2 := cumsum_getD (0 : α) pdf i (by omega)
    rw [List.getD_eq_getElem?_getD, hcdfi, List.getElem?_map, List.getElem?_eq_getElem h1]
    rw [List.getD_eq_getElem?_getD, List.getElem?_eq_getElem h1] at h2
    simp only [Option.getD_some, zero_add] at h2
    simp only [Option.map_some, Option.getD_some]
    rw [h2]
  have hlast : ⌊u * (st.length : α)⌋ ≤ cdfi.getD (st.length - 1) 0 := by
    rw [hcd _ (by omega), show st.length - 1 + 1 = pdf.length by omega, List.take_length, hpdfsum]
    apply Int.floor_le_floor
    exact mul_le_mul_of_nonneg_right hu1.le hnα.le
  have hfind : ∃ i, (List.range cdfi.length).find? (fun i => decide (⌊u * (st.length : α)⌋ ≤ cdfi.getD i 0)) = some i := by
    rw [← Option.isSome_iff_exists, List.find?_isSome]
    exact ⟨st.length - 1, List.mem_range.mpr (by omega), by simpa using hlast⟩
  obtain ⟨i, hi⟩ := hfind
  obtain ⟨hip, as, bs, hsplit, hbefore⟩ := List.find?_eq_some_iff_append.mp hi
  have himem : i ∈ List.range cdfi.length := by rw [hsplit]; simp
  have hilt : i < st.length := by rw [← hclen]; exact List.mem_range.mp himem
  have hmin : ∀ j, j < i → ¬ (⌊u * (st.length : α)⌋ ≤ cdfi.getD j 0) := by
    intro j hj hcontra
    have hjas : j ∈ as := by
      have hjm : j ∈ List.range cdfi.length := List.mem_range.mpr (by omega)
      have hpwr : (List.range cdfi.length).Pairwise (· < ·) := List.pairwise_lt_range
      rw [hsplit] at hjm hpwr
      rcases List.mem_append.mp hjm with h | h
      · exact h
      · exfalso
        rcases List.mem_cons.mp h with h | h
        · omega
        · have h1 := (List.pairwise_append.mp hpwr).2.1
          have h2 := (List.pairwise_cons.mp h1).1 j h
          omega
    have h3 := hbefore j hjas
    rw [decide_eq_true hcontra] at h3
    simp at h3
  have hrow_i := hrow i
  rw [List.getElem?_eq_getElem hilt] at hrow_i
  simp only [Option.bind_some] at hrow_i
  have hsi : i < sorted.length := by omega
  rw [List.getElem?_eq_getElem hsi] at hrow_i
  refine ⟨st[i], sorted[i], ?_, hrow_i.symm, ?_⟩
  · unfold randomSat
    simp only [← hst, ← hsorted, ← hpdf, ← hcdfi, hi, List.getElem?_eq_getElem hilt]
  · by_contra hc
    have hz : sorted[i] = 0 := le_antisymm (not_lt.mp hc) (hs0 _ (List.getElem_mem hsi))
    cases i with
    | zero =>
      -- the largest probability is zero: all are
      have hall : ∀ p ∈ sorted, p ≤ 0 := by
        intro p hpm
        obtain ⟨j, hj, rfl⟩ := List.mem_iff_getElem.mp hpm
        rcases Nat.eq_zero_or_pos j with rfl | hj0
        · exact hz.le
        · have := (List.pairwise_iff_getElem.mp hspw) 0 j hsi hj hj0
          rw [hz] at this; exact this
      have : sorted.sum = 0 := List.sum_eq_zero fun p hpm => le_antisymm (hall p hpm) (hs0 p hpm)
      linarith
    | succ i =>
      apply hmin i (by omega)
      have h1 := of_decide_eq_true hip
      rw [hcd _ hilt, List.take_add_one, List.sum_append] at h1
      rw [hcd i (by omega)]
      have hzz : pdf[i + 1]?.toList.sum = 0 := by
        rw [hpdf, List.getElem?_map, List.getElem?_eq_getElem hsi, hz]
        simp
      rwa [hzz, add_zero] at h1

/-- Three neighbours, one with membership probability zero, meet the hypotheses. -/
example : (∀ p ∈ [(1 : ℚ) / 2, 0, 1 / 4], 0 ≤ p) ∧ ∃ p ∈ [(1 : ℚ) / 2, 0, 1 / 4], 0 < p := by decide +kernel

end Redmapper.Centering
