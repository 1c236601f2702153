/-
C428: which galaxies the single-color richness uses and which probabilities it stores.
-/
import Verif.Props.ColorRun

set_option linter.unusedSectionVars false

namespace Redmapper.ColorFit

open Redmapper.Cluster Redmapper.ColorRun

variable {α : Type} [Field α] [LinearOrder α] [IsStrictOrderedRing α] {G P : Type}

/-! ## Specification -/

/-- A galaxy is used if its magnitude is between the bright and the faint limit, both relative to m*, it is
closer than the cut on the radius, and its color is inside the range of the background. -/
def Usable (E : Env G P α) (F : FitEnv G α) (mstar : α) (n : Nb G α) : Prop :=
  mstar - F.bright < n.refmag ∧ n.refmag < mstar - E.lval ∧ n.r < F.rcut ∧ F.colLo < F.col n.g ∧ F.col n.g < F.colHi

/-- Its color is within two errors of the central color. -/
def Near (F : FitEnv G α) (cc : α) (n : Nb G α) : Prop :=
  |F.col n.g - cc| < 2 * F.netErr (F.colErr n.g)

/-- `n` is the first of the galaxies with the smallest radius. -/
def Innermost (l : List (Nb G α)) (n : Nb G α) : Prop :=
  ∃ pre post, l = pre ++ n :: post ∧ (∀ k ∈ pre, n.r < k.r) ∧ ∀ k ∈ post, n.r ≤ k.r

/-- The central color: the one given, otherwise the one of the innermost galaxy, which must be usable. -/
def Central (E : Env G P α) (F : FitEnv G α) (mstar : α) (l : List (Nb G α)) (given : Option α) (cc : α) : Prop :=
  given = some cc ∨ given = none ∧ ∃ n, Innermost l n ∧ Usable E F mstar n ∧ F.col n.g = cc

instance (E : Env G P α) (F : FitEnv G α) (mstar : α) (n : Nb G α) : Decidable (Usable E F mstar n) := by
  unfold Usable; infer_instance

instance (F : FitEnv G α) (cc : α) (n : Nb G α) : Decidable (Near F cc n) := by
  unfold Near; infer_instance

/-- The galaxies the pivot is computed from, and those the line is fitted to. -/
def used (E : Env G P α) (F : FitEnv G α) (mstar : α) (l : List (Nb G α)) : List (Nb G α) :=
  l.filter fun n => decide (Usable E F mstar n)

def fitted (E : Env G P α) (F : FitEnv G α) (mstar cc : α) (l : List (Nb G α)) : List (Nb G α) :=
  l.filter fun n => decide (Usable E F mstar n ∧ Near F cc n)

/-- The color of the fitted line at a magnitude. -/
def lineAt (E : Env G P α) (F : FitEnv G α) (mstar cc : α) (l : List (Nb G α)) (m : α) : α :=
  let pivot := F.median ((used E F mstar l).map Nb.refmag)
  let fit := F.polyfit ((fitted E F mstar cc l).map fun n => (n.refmag - pivot, F.col n.g, F.colErr n.g))
  fit.1 * (m - pivot) + fit.2

/-! ## Lemmas -/

theorem fitUse_iff (E : Env G P α) (F : FitEnv G α) (mstar : α) (n : Nb G α) :
    fitUse F (mstar - F.bright) (mstar - E.lval) n = decide (Usable E F mstar n) := by
  rw [Bool.eq_iff_iff, decide_eq_true_eq]
  unfold fitUse Usable
  simp only [Bool.and_eq_true, decide_eq_true_eq]
  tauto

theorem argminR_innermost (l : List (Nb G α)) (n : Nb G α) (h : l[argminR l]? = some n) : Innermost l n := by
  have hc := argminR_closest l n h
  obtain ⟨hi, hn⟩ := List.getElem?_eq_some_iff.mp h
  refine ⟨l.take (argminR l), l.drop (argminR l + 1), ?_, ?_, ?_⟩
  · rw [← hn, List.getElem_cons_drop, List.take_append_drop]
  · intro k hk
    refine lt_of_le_of_ne (hc.2 k (List.mem_of_mem_take hk)) ?_
    intro he
    obtain ⟨j, hj, hjk⟩ := List.getElem_of_mem hk
    rw [List.length_take] at hj
    have hj1 : j < argminR l := by omega
    have hjl : j < l.length := by omega
    rw [List.getElem_take] at hjk
    have hnr : l[argminR l].r = n.r := by rw [hn]
    revert hj1
    cases l with
    | nil => simp at hjl
    | cons a l =>
      unfold argminR at hnr ⊢
      simp only [List.map_cons] at hnr ⊢
      intro hj1
      obtain ⟨h1, h2⟩ := foldl_min_spec a.r (l.map Nb.r)
      have hm : (l.map Nb.r).foldl min a.r = k.r := by
        apply le_antisymm
        · exact h2 _ (by rw [← List.map_cons (f := Nb.r)]; exact List.mem_map_of_mem (List.mem_of_mem_take hk))
        · rw [← he]
          have := hc.2
          rcases List.mem_cons.mp h1 with h1 | h1
          · rw [h1]; exact this _ List.mem_cons_self
          · obtain ⟨q, hq, hq2⟩ := List.mem_map.mp h1
            rw [← hq2]; exact this _ (List.mem_cons_of_mem _ hq)
      have hle : (a.r :: l.map Nb.r).idxOf ((l.map Nb.r).foldl min a.r) ≤ j := by
        by_contra hlt
        have hlt := not_le.mp hlt
        have hne := List.not_of_lt_findIdx (p := fun x => x == (l.map Nb.r).foldl min a.r) (xs := a.r :: l.map Nb.r) hlt
        have : (a.r :: l.map Nb.r)[j]'(by simpa using hjl) = k.r := by
          have e : ((a :: l).map Nb.r)[j]'(by simpa using hjl) = k.r := by rw [List.getElem_map, hjk]
          exact e
        rw [this, hm] at hne; simp at hne
      omega
  · intro k hk
    exact hc.2 k (List.mem_of_mem_drop hk)

theorem innermost_unique (l : List (Nb G α)) (n k : Nb G α) (h1 : Innermost l n) (h2 : Innermost l k) : n = k := by
  obtain ⟨p1, q1, rfl, a1, b1⟩ := h1
  obtain ⟨p2, q2, e, a2, b2⟩ := h2
  rcases List.append_eq_append_iff.mp e with ⟨t, rfl, ht⟩ | ⟨t, rfl, ht⟩
  · cases t with
    | nil => simp at ht; exact ht.1
    | cons x t =>
      simp only [List.cons_append, List.cons.injEq] at ht
      obtain ⟨rfl, rfl⟩ := ht
      have := a2 n (by simp)
      have := b1 k (by simp)
      exact absurd this (not_le.mpr (by assumption))
  · cases t with
    | nil => simp at ht; exact ht.1.symm
    | cons x t =>
      simp only [List.cons_append, List.cons.injEq] at ht
      obtain ⟨rfl, rfl⟩ := ht
      have := a1 k (by simp)
      have := b2 n (by simp)
      exact absurd this (not_le.mpr (by assumption))

theorem fitCent_some (E : Env G P α) (F : FitEnv G α) (mstar : α) (l : List (Nb G α)) (given : Option α) (cc : α)
    (h : fitCent F (mstar - F.bright) (mstar - E.lval) given l = .ok (some cc)) : Central E F mstar l given cc := by
  unfold fitCent at h
  cases given with
  | some x => simp only [Except.ok.injEq, Option.some.injEq] at h; exact Or.inl (by rw [h])
  | none =>
    refine Or.inr ⟨rfl, ?_⟩
    simp only at h
    cases hn : l[argminR l]? with
    | none => simp [hn] at h
    | some n =>
      simp only [hn, fitUse_iff, decide_eq_true_eq, Except.ok.injEq] at h
      by_cases hu : Usable E F mstar n
      · rw [if_pos hu] at h
        exact ⟨n, argminR_innermost l n hn, hu, Option.some.inj h⟩
      · rw [if_neg hu] at h; cases h

theorem fitCent_none (E : Env G P α) (F : FitEnv G α) (mstar : α) (l : List (Nb G α)) (given : Option α)
    (h : fitCent F (mstar - F.bright) (mstar - E.lval) given l = .ok none) :
    given = none ∧ ∃ n, Innermost l n ∧ ¬ Usable E F mstar n := by
  unfold fitCent at h
  cases given with
  | some x => simp at h
  | none =>
    refine ⟨rfl, ?_⟩
    simp only at h
    cases hn : l[argminR l]? with
    | none => simp [hn] at h
    | some n =>
      simp only [hn, fitUse_iff, decide_eq_true_eq, Except.ok.injEq] at h
      by_cases hu : Usable E F mstar n
      · rw [if_pos hu] at h; cases h
      · exact ⟨n, argminR_innermost l n hn, hu⟩

theorem fitCent_error (F : FitEnv G α) (a b : α) (l : List (Nb G α)) (given : Option α) (e : Cluster.Err)
    (h : fitCent F a b given l = .error e) : given = none ∧ l = [] := by
  unfold fitCent at h
  cases given with
  | some x => simp at h
  | none =>
    refine ⟨rfl, ?_⟩
    by_contra hl
    obtain ⟨n, hn⟩ := argminR_some l hl
    simp [hn] at h

theorem central_unique (E : Env G P α) (F : FitEnv G α) (mstar : α) (l : List (Nb G α)) (given : Option α) (a b : α)
    (h1 : Central E F mstar l given a) (h2 : Central E F mstar l given b) : a = b := by
  rcases h1 with h1 | ⟨h1, n, hn, _, hc⟩ <;> rcases h2 with h2 | ⟨h2, k, hk, _, hd⟩
  · rw [h1] at h2; exact Option.some.inj h2
  · rw [h1] at h2; cases h2
  · rw [h1] at h2; cases h2
  · rw [← hc, ← hd, innermost_unique l n k hn hk]

theorem used_eq (E : Env G P α) (F : FitEnv G α) (mstar : α) (l : List (Nb G α)) :
    l.filter (fitUse F (mstar - F.bright) (mstar - E.lval)) = used E F mstar l := by
  unfold used
  congr 1
  funext n
  exact fitUse_iff E F mstar n

theorem fitted_eq (E : Env G P α) (F : FitEnv G α) (mstar cc : α) (l : List (Nb G α)) :
    ((used E F mstar l).filter fun n => decide (|F.col n.g - cc| < 2 * F.netErr (F.colErr n.g))) = fitted E F mstar cc l := by
  unfold used fitted
  rw [List.filter_filter]
  congr 1
  funext n
  rw [Bool.decide_and, Bool.and_comm]
  rfl

/-! ## C428 -/

/-- **C428, the refusal.**  The single-color richness is refused with -10 exactly if fewer than the smallest number of galaxies
are usable, or no central color is given and the innermost galaxy is not usable, or fewer than the smallest number of
usable galaxies are within two errors of the central color. -/
theorem C428_refused (E : Env G P α) (F : FitEnv G α) (given : Option α) (ce : Bool) (c : Cl G P α) (z mstar mpc : α)
    (l : List (Nb G α)) (hz : c.z = some z) (hm : c.mstar = some mstar) (hk : c.mpc = some mpc) (hl : c.nbs = some l) :
    (richnessFit E F given ce c).2 = .ok (-10) ↔
      (l.countP fun n => decide (Usable E F mstar n)) < F.mingal ∨
      (given = none ∧ ∃ n, Innermost l n ∧ ¬ Usable E F mstar n) ∨
      ∃ cc, Central E F mstar l given cc ∧ (l.countP fun n => decide (Usable E F mstar n ∧ Near F cc n)) < F.mingal := by
  unfold richnessFit
  simp only [hz, hm, hk, hl, used_eq, List.countP_eq_length_filter]
  change _ ↔ (used E F mstar l).length < F.mingal ∨ _ ∨ ∃ cc, _ ∧ (fitted E F mstar cc l).length < F.mingal
  by_cases h1 : (used E F mstar l).length < F.mingal
  · rw [if_pos h1]; simp [h1]
  rw [if_neg h1]
  cases hc : fitCent F (mstar - F.bright) (mstar - E.lval) given l with
  | error e =>
    obtain ⟨e1, e2⟩ := fitCent_error _ _ _ _ _ _ hc
    subst e1 e2
    simp only [reduceCtorEq, false_iff, not_or]
    refine ⟨h1, ?_, ?_⟩
    · rintro ⟨_, n, ⟨p, q, e, _⟩, _⟩; simp at e
    · rintro ⟨cc, h | ⟨_, n, ⟨p, q, e, _⟩, _⟩, _⟩
      · cases h
      · simp at e
  | ok o =>
  cases o with
  | none => exact ⟨fun _ => Or.inr (Or.inl (fitCent_none E F mstar l given hc)), fun _ => rfl⟩
  | some cc =>
  have hcen := fitCent_some E F mstar l given cc hc
  simp only [fitted_eq]
  by_cases h2 : (fitted E F mstar cc l).length < F.mingal
  · rw [if_pos h2]
    exact ⟨fun _ => Or.inr (Or.inr ⟨cc, hcen, h2⟩), fun _ => rfl⟩
  rw [if_neg h2]
  have hno : ¬ ((used E F mstar l).length < F.mingal ∨ (given = none ∧ ∃ n, Innermost l n ∧ ¬ Usable E F mstar n) ∨
      ∃ cc, Central E F mstar l given cc ∧ (fitted E F mstar cc l).length < F.mingal) := by
    rintro (h | ⟨h, n, hn, hu⟩ | ⟨cd, hd, h⟩)
    · exact h1 h
    · rcases hcen with hg | ⟨_, k, hk', hu', _⟩
      · rw [h] at hg; cases hg
      · rw [innermost_unique l n k hn hk'] at hu; exact hu hu'
    · rw [central_unique E F mstar l given cd cc hd hcen] at h; exact h2 h
  refine iff_of_false ?_ hno
  generalize F.median _ = pivot
  generalize F.polyfit _ = fit
  generalize hs : Solver.solveFuel (α := α) _ _ 17 = o
  cases o with
  | none => simp
  | some res =>
    have hrange := Solver.C01_richness_range _ _ _ _ hs
    have hne : res.lambda ≠ -10 := by
      rcases hrange with ⟨e, _⟩ | ⟨e, _⟩
      · rw [e]; norm_num
      · intro q; rw [q] at e; norm_num at e
    simp only
    by_cases q1 : res.lambda < 0
    · rw [if_pos q1]; simpa using hne
    · rw [if_neg q1]
      cases ce with
      | true => simp
      | false => simpa using hne

/-- The probability of membership in the color at a richness `x`, from the fitted line and the background in color and magnitude. -/
def colorProb (E : Env G P α) (F : FitEnv G α) (z mstar mpc cc : α) (l : List (Nb G α)) (x : α) (n : Nb G α) : α :=
  match F.csigma (F.col n.g) n.refmag with
  | none => 0
  | some s =>
    let signal := x * (E.twopi * n.r * F.gauss (F.col n.g - lineAt E F mstar cc l n.refmag) (F.netErr (F.colErr n.g)) * E.nfw n.r *
      E.phi z (mstar - E.lval) n.refmag) * E.nfwnorm (E.rlam x)
    let back := E.twopi * n.r * (s / (mpc * mpc))
    if signal + back = 0 then 0 else signal / (signal + back)

/-- The probability from the color and the magnitude alone, at the richness found. -/
def colorOnly (E : Env G P α) (F : FitEnv G α) (z mstar mpc cc : α) (l : List (Nb G α)) (lam : α) (n : Nb G α) : α :=
  if E.rlam lam < n.r ∨ mstar - E.lval < n.refmag ∨ F.limmagCat < n.refmag then 0
  else match F.csigma (F.col n.g) n.refmag with
  | none => 0
  | some s =>
    let signal := lam * (F.gauss (F.col n.g - lineAt E F mstar cc l n.refmag) (F.netErr (F.colErr n.g)) * E.phi z (mstar - E.lval) n.refmag)
    signal / (signal + s / (mpc * mpc) * F.pi * (E.rlam lam * E.rlam lam))

/-- **C428, the probabilities.**  If a richness is found, the line is fitted to the usable galaxies within two errors of the central color, the
pivot is the median of the usable galaxies, and every neighbour is given the probability computed from its distance to the line and the
background at its color and magnitude, at one richness within 0.01 of the one found; its membership is this probability times the weight at the faint limit times
the free probability inside the radius, and zero outside. -/
theorem C428_probabilities (E : Env G P α) (F : FitEnv G α) (given : Option α) (ce : Bool) (c c' : Cl G P α) (z mstar mpc lam : α)
    (l : List (Nb G α)) (hz : c.z = some z) (hm : c.mstar = some mstar) (hk : c.mpc = some mpc) (hl : c.nbs = some l)
    (h : richnessFit E F given ce c = (c', .ok lam)) (hlam : 1 ≤ lam) :
    ∃ cc x, Central E F mstar l given cc ∧ |x - lam| ≤ 1 / 100 ∧ ∃ l' : List (Nb G α), c'.nbs = some l' ∧ l'.length = l.length ∧
      ∀ (i : Nat) (n : Nb G α), l[i]? = some n → ∃ m : Nb G α, l'[i]? = some m ∧
        m.p = colorProb E F z mstar mpc cc l x n ∧
        m.thetaI = E.theta n.refmag n.refmagErr (mstar - E.lval) F.limmagCat ∧
        m.pmem = (if n.r < E.rlam lam then m.p * (m.thetaI * n.pfree) * (if n.r < E.rlam x then 1 else 0) else 0) ∧
        (E.twopi * n.r ≠ 0 → m.pcol = colorOnly E F z mstar mpc cc l lam n) ∧
        m.g = n.g ∧ m.refmag = n.refmag ∧ m.r = n.r ∧ m.pfree = n.pfree ∧ m.index = n.index := by
  unfold richnessFit at h
  simp only [hz, hm, hk, hl, used_eq] at h
  have n10 : lam ≠ -10 := by intro q; rw [q] at hlam; norm_num at hlam
  by_cases h1 : (used E F mstar l).length < F.mingal
  · rw [if_pos h1] at h; simp only [Prod.mk.injEq, Except.ok.injEq] at h; exact absurd h.2.symm n10
  rw [if_neg h1] at h
  cases hc : fitCent F (mstar - F.bright) (mstar - E.lval) given l with
  | error e => simp [hc] at h
  | ok o =>
  cases o with
  | none => simp only [hc, Prod.mk.injEq, Except.ok.injEq] at h; exact absurd h.2.symm n10
  | some cc =>
  have hcen := fitCent_some E F mstar l given cc hc
  simp only [hc, fitted_eq] at h
  by_cases h2 : (fitted E F mstar cc l).length < F.mingal
  · rw [if_pos h2] at h; simp only [Prod.mk.injEq, Except.ok.injEq] at h; exact absurd h.2.symm n10
  rw [if_neg h2] at h
  change (match Solver.solveFuel { toPar E (E.maskcorr mstar (mstar - E.lval) F.limmagCat) with rsig := 0 }
    (l.map (fitGal E F z mpc (mstar - E.lval) (lineAt E F mstar cc l))) 17 with
    | none => (c, Except.error Cluster.Err.value)
    | some res => _) = _ at h
  cases hs : Solver.solveFuel { toPar E (E.maskcorr mstar (mstar - E.lval) F.limmagCat) with rsig := 0 }
    (l.map (fitGal E F z mpc (mstar - E.lval) (lineAt E F mstar cc l))) 17 with
  | none => simp [hs] at h
  | some res =>
  simp only [hs] at h
  have hrange := Solver.C01_richness_range _ _ _ _ hs
  by_cases q1 : res.lambda < 0
  · rw [if_pos q1] at h
    simp only [Prod.mk.injEq, Except.ok.injEq] at h
    exact absurd hlam (not_le.mpr (by rw [← h.2]; linarith))
  rw [if_neg q1] at h
  rcases hrange with ⟨e, _⟩ | ⟨r1, r2, r3⟩
  · rw [e] at q1; exact absurd (by norm_num : (-1 : α) < 0) q1
  cases ce with
  | true => simp at h
  | false =>
  simp only [Bool.false_eq_true, if_false, Prod.mk.injEq, Except.ok.injEq] at h
  obtain ⟨rfl, rfl⟩ := h
  obtain ⟨x, hx1, hxl, hxq⟩ := Solver.C71_probabilities_near_richness _ _ _ _ hs r1
  rw [List.length_map] at hxl
  refine ⟨cc, x, hcen, hx1, _, rfl, by rw [List.length_zipWith, List.length_map, hxl]; simp, ?_⟩
  intro i n hn
  have hil : i < res.slots.length := by rw [hxl]; exact (List.getElem?_eq_some_iff.mp hn).1
  have hsi : res.slots[i]? = some res.slots[i] := List.getElem?_eq_getElem hil
  refine ⟨fitFill E F z mpc (mstar - E.lval) (lineAt E F mstar cc l) res.lambda res.rlambda (clear n) res.slots[i], ?_, ?_⟩
  · rw [List.getElem?_zipWith, List.getElem?_map, hn, hsi]; rfl
  have hq : (fitGal E F z mpc (mstar - E.lval) (lineAt E F mstar cc l) n, res.slots[i]) ∈
      (l.map (fitGal E F z mpc (mstar - E.lval) (lineAt E F mstar cc l))).zip res.slots := by
    apply List.mem_of_getElem? (i := i)
    rw [List.getElem?_zip_eq_some]
    exact ⟨by rw [List.getElem?_map, hn]; rfl, hsi⟩
  obtain ⟨p1, p2⟩ := hxq _ hq
  simp only at p1 p2
  refine ⟨?_, rfl, ?_, ?_, rfl, rfl, rfl, rfl, rfl⟩
  · change res.slots[i].p = _
    rw [p1]
    unfold Solver.specProb colorProb fitGal cbkgDensity
    cases F.csigma (F.col n.g) n.refmag <;> rfl
  · change res.slots[i].wt = (if n.r < E.rlam res.lambda then res.slots[i].p * (E.theta n.refmag n.refmagErr (mstar - E.lval) F.limmagCat * n.pfree) * _ else 0)
    rw [p2, p1]
    have e1 : (fitGal E F z mpc (mstar - E.lval) (lineAt E F mstar cc l) n).r = n.r := rfl
    have e2 : (fitGal E F z mpc (mstar - E.lval) (lineAt E F mstar cc l) n).w = E.theta n.refmag n.refmagErr (mstar - E.lval) F.limmagCat * n.pfree := rfl
    have e3 : Solver.specTheta { toPar E (E.maskcorr mstar (mstar - E.lval) F.limmagCat) with rsig := 0 } x
        (fitGal E F z mpc (mstar - E.lval) (lineAt E F mstar cc l) n) = if n.r < E.rlam x then 1 else 0 := by
      unfold Solver.specTheta
      rw [if_pos (le_refl (0 : α))]; rfl
    rw [e1, e2, e3]
    change (if (0 : α) ≤ 0 ∧ ¬ n.r < E.rlam res.lambda then _ else _) = _
    by_cases hr : n.r < E.rlam res.lambda
    · rw [if_neg (fun q => q.2 hr), if_pos hr]
    · rw [if_pos ⟨le_refl _, hr⟩, if_neg hr]
  · intro ht
    have r3' : res.rlambda = E.rlam res.lambda := r3
    unfold fitFill colorOnly cbkgDensity clear
    simp only [r3']
    by_cases hb : E.rlam res.lambda < n.r ∨ mstar - E.lval < n.refmag ∨ F.limmagCat < n.refmag
    · rw [if_pos hb, if_pos hb]
    · rw [if_neg hb, if_neg hb]
      cases F.csigma (F.col n.g) n.refmag with
      | none => rfl
      | some s =>
        simp only [Option.map_some]
        rw [mul_div_cancel_left₀ _ ht, mul_comm res.lambda]

/-! ## The hypotheses are met -/

/-- A cluster with redshift and neighbours; a richness is found. -/
example : toyCl.z = some (toyCl.z.getD 0) ∧ toyCl.mstar = some (toyCl.mstar.getD 0) ∧ toyCl.mpc = some (toyCl.mpc.getD 0) ∧
    toyCl.nbs = some (toyCl.nbs.getD []) ∧ (toyCl.nbs.getD []).length = 4 := by decide +kernel

example : ∃ lam, (richnessFit toyEnv toyFit none false toyCl).2 = .ok lam ∧ 1 ≤ lam := ok_of_test (by decide +kernel)

/-- Each of the reasons refuses it: too few usable galaxies, too few near the central color. -/
example : (richnessFit toyEnv { toyFit with rcut := 0 } none false toyCl).2 = .ok (-10) ∧
    (richnessFit toyEnv { toyFit with netErr := fun _ => 0 } none false toyCl).2 = .ok (-10) ∧
    2 ≤ ((toyCl.nbs.getD []).countP fun n => decide (Usable toyEnv toyFit (toyCl.mstar.getD 0) n)) := by decide +kernel

end Redmapper.ColorFit
