/-
C347, C348: first and second derivatives of the richness with redshift.
-/
import Verif.Model.DLambda
import Verif.Props.Cluster

set_option linter.unusedSectionVars false

namespace Redmapper.DLambda

open Redmapper.Cluster

variable {α : Type} [Field α] [LinearOrder α] [IsStrictOrderedRing α] {G P : Type}

/-- The cluster itself, set to redshift `z`, has richness `lam` with error `e`. -/
def RichAt (E : Env G P α) (c : Cl G P α) (z lam e : α) : Prop :=
  ∃ a, setZ E z c = .ok a ∧ (richness E true none a).2 = .ok lam ∧ (richness E true none a).1.LambdaE = e

theorem richAt_of_stat {E : Env G P α} {c t t1 t2 : Cl G P α} {z lam : α} (h : statNbs t = statNbs c) (hnb : c.nbs ≠ none)
    (h1 : setZ E z t = .ok t1) (h2 : richness E true none t1 = (t2, .ok lam)) : RichAt E c z lam t2.LambdaE := by
  have hz : ¬ z < 0 := by
    intro hc
    unfold setZ at h1
    rw [if_pos hc] at h1
    simp at h1
  obtain ⟨a, ha⟩ : ∃ a, setZ E z c = .ok a := by unfold setZ; rw [if_neg hz]; exact ⟨_, rfl⟩
  obtain ⟨e1, e2, e3, e4⟩ := setZ_core E z _ _ h t1 a h1 ha
  have hla : ∃ l, a.nbs = some l := by
    unfold setZ at ha
    rw [if_neg hz] at ha
    simp only [Except.ok.injEq] at ha
    subst ha
    unfold computeR
    cases hl : c.nbs with
    | none => exact absurd hl hnb
    | some l => exact ⟨_, rfl⟩
  obtain ⟨la, hla⟩ := hla
  rw [hla] at e4
  obtain ⟨lb, hlb, e4'⟩ := Option.map_eq_some_iff.mp e4
  obtain ⟨r1, r2⟩ := richness_congr E true none (fun _ h => by simp at h) t1 a e1 e2 e3 hlb hla e4'
  rw [h2] at r1 r2
  obtain ⟨m, m', s1, _, _, _⟩ := r2 lam rfl
  simp only at s1
  have s2 : t2.LambdaE = (richness E true none a).1.LambdaE := by conv_lhs => rw [s1]
  exact ⟨a, ha, r1.symm, s2.symm⟩

theorem stat_setZ {E : Env G P α} {z : α} {c c' : Cl G P α} (h : setZ E z c = .ok c') : statNbs c' = statNbs c := by
  unfold setZ at h
  by_cases hz : z < 0
  · rw [if_pos hz] at h; simp at h
  · rw [if_neg hz] at h
    simp only [Except.ok.injEq] at h
    subst h
    rw [stat_computeR]
    rfl

theorem stat_copy {E : Env G P α} {zero : P} {c c' : Cl G P α} (h : copy E zero c = .ok c') : statNbs c' = statNbs c := by
  unfold copy at h
  cases hz : c.z with
  | none => rw [hz] at h; simp at h
  | some z =>
    rw [hz] at h
    rw [stat_setZ h]
    rfl

/-- All the values at once. -/
theorem plusMinus_spec (E : Env G P α) (zero : P) (log : α → α) (eps zlam : α) (c : Cl G P α) (hnb : c.nbs ≠ none) (r : Option (Deriv α))
    (h : plusMinus E zero log eps zlam c = .ok r) :
    ∃ lm em lp ep, RichAt E c (zlam - eps) lm em ∧ RichAt E c (zlam + eps) lp ep ∧ (r = none ↔ ¬ (0 < lm ∧ 0 < lp)) ∧
      ∀ d, r = some d → d = { dl := (log lp - log lm) / (2 * eps), dl2 := (log lp + log lm - 2 * log c.Lambda) / eps ^ 2,
                              dv := (ep ^ 2 - em ^ 2) / (2 * eps), dv2 := (ep ^ 2 + em ^ 2 - 2 * c.LambdaE ^ 2) / eps ^ 2 } := by
  unfold plusMinus at h
  cases hc : copy E zero c with
  | error e => rw [hc] at h; simp at h
  | ok t =>
  rw [hc] at h
  simp only at h
  cases h1 : setZ E (zlam - eps) t with
  | error e => rw [h1] at h; simp at h
  | ok t1 =>
  rw [h1] at h
  simp only at h
  cases h2 : richness E true none t1 with
  | mk t2 r2 =>
  rw [h2] at h
  cases r2 with
  | error e => simp at h
  | ok lm =>
  simp only at h
  cases h3 : setZ E (zlam + eps) t2 with
  | error e => rw [h3] at h; simp at h
  | ok t3 =>
  rw [h3] at h
  simp only at h
  cases h4 : richness E true none t3 with
  | mk t4 r4 =>
  rw [h4] at h
  cases r4 with
  | error e => simp at h
  | ok lp =>
  simp only at h
  have st : statNbs t = statNbs c := stat_copy hc
  have st2 : statNbs t2 = statNbs c := by
    have := stat_richness E true none t1
    rw [h2] at this
    rw [this, stat_setZ h1, st]
  refine ⟨lm, t2.LambdaE, lp, t4.LambdaE, richAt_of_stat st hnb h1 h2, richAt_of_stat st2 hnb h3 h4, ?_, ?_⟩
  · by_cases hp : 0 < lm ∧ 0 < lp
    · rw [if_pos hp] at h
      simp only [Except.ok.injEq] at h
      rw [← h]; simp [hp]
    · rw [if_neg hp] at h
      simp only [Except.ok.injEq] at h
      rw [← h]; simp [hp]
  · intro d hd
    rw [hd] at h
    by_cases hp : 0 < lm ∧ 0 < lp
    · rw [if_pos hp] at h
      simp only [Except.ok.injEq, Option.some.injEq] at h
      exact h.symm
    · rw [if_neg hp] at h
      simp at h

/-! ## C347: first derivatives -/

/-- The first derivatives are central differences, over one step to each side of z_lambda, of the logarithm of the richness and of its variance,
where the richness is what the cluster itself has at that redshift; they are left out exactly when one of the two richnesses is not positive. -/
theorem C347_first (E : Env G P α) (zero : P) (log : α → α) (eps zlam : α) (c : Cl G P α) (hnb : c.nbs ≠ none) (r : Option (Deriv α))
    (h : plusMinus E zero log eps zlam c = .ok r) :
    ∃ lm em lp ep, RichAt E c (zlam - eps) lm em ∧ RichAt E c (zlam + eps) lp ep ∧ (r = none ↔ ¬ (0 < lm ∧ 0 < lp)) ∧
      ∀ d, r = some d → d.dl = (log lp - log lm) / (2 * eps) ∧ d.dv = (ep ^ 2 - em ^ 2) / (2 * eps) := by
  obtain ⟨lm, em, lp, ep, a, b, e, f⟩ := plusMinus_spec E zero log eps zlam c hnb r h
  exact ⟨lm, em, lp, ep, a, b, e, fun d hd => by rw [f d hd]; exact ⟨rfl, rfl⟩⟩

/-! ## C348: second derivatives -/

/-- **C348**, as one would like it: the second derivatives are second differences about z_lambda. -/
def C348_spec (E : Env G P α) (zero : P) (log : α → α) (eps zlam : α) (c : Cl G P α) : Prop :=
  ∀ d l0 e0, plusMinus E zero log eps zlam c = .ok (some d) → RichAt E c zlam l0 e0 →
    ∃ lm em lp ep, RichAt E c (zlam - eps) lm em ∧ RichAt E c (zlam + eps) lp ep ∧
      d.dl2 = (log lp - 2 * log l0 + log lm) / eps ^ 2 ∧ d.dv2 = (ep ^ 2 - 2 * e0 ^ 2 + em ^ 2) / eps ^ 2

/-- True when the recorded richness and error are those at z_lambda: no correction was applied, and the cluster was left at that redshift.
Missing: corrected redshifts and runs that keep the input redshift (`C348_false`). -/
theorem C348_partial (E : Env G P α) (zero : P) (log : α → α) (eps zlam : α) (c : Cl G P α) (hnb : c.nbs ≠ none)
    (hrec : RichAt E c zlam c.Lambda c.LambdaE) : C348_spec E zero log eps zlam c := by
  intro d l0 e0 h ⟨a, ha, ha1, ha2⟩
  obtain ⟨b, hb, hb1, hb2⟩ := hrec
  have hab : a = b := by rw [ha] at hb; simpa using hb
  subst hab
  have hl : c.Lambda = l0 := by rw [ha1] at hb1; simpa using hb1.symm
  have he : c.LambdaE = e0 := by rw [← hb2, ha2]
  obtain ⟨lm, em, lp, ep, q1, q2, _, f⟩ := plusMinus_spec E zero log eps zlam c hnb _ h
  refine ⟨lm, em, lp, ep, q1, q2, ?_⟩
  rw [f d rfl, hl, he]
  exact ⟨by ring, by ring⟩

/-- By how much they are off in general: twice the difference of the logarithms of the richness at z_lambda and the one recorded, over the
square of the step. -/
theorem C348_error (E : Env G P α) (zero : P) (log : α → α) (eps zlam : α) (c : Cl G P α) (hnb : c.nbs ≠ none) (d : Deriv α) (l0 : α)
    (h : plusMinus E zero log eps zlam c = .ok (some d)) :
    ∃ lm em lp ep, RichAt E c (zlam - eps) lm em ∧ RichAt E c (zlam + eps) lp ep ∧
      d.dl2 = (log lp - 2 * log l0 + log lm) / eps ^ 2 + 2 * (log l0 - log c.Lambda) / eps ^ 2 := by
  obtain ⟨lm, em, lp, ep, q1, q2, _, f⟩ := plusMinus_spec E zero log eps zlam c hnb _ h
  refine ⟨lm, em, lp, ep, q1, q2, ?_⟩
  rw [f d rfl]
  ring

/-- The toy cluster with its richness at redshift 1/2. -/
def doneCl : Cl ℚ ℚ ℚ := (richness toyEnv true none toyCl).1

/-- The richness and its error at a redshift, as a computation. -/
def probe (c : Cl ℚ ℚ ℚ) (z : ℚ) : Option (ℚ × ℚ) :=
  match setZ toyEnv z c with
  | .error _ => none
  | .ok a => match richness toyEnv true none a with
    | (b, .ok l) => some (l, b.LambdaE)
    | (_, .error _) => none

theorem probe_iff (c : Cl ℚ ℚ ℚ) (z l e : ℚ) : probe c z = some (l, e) ↔ RichAt toyEnv c z l e := by
  unfold probe RichAt
  cases setZ toyEnv z c with
  | error x => simp
  | ok a =>
    cases h : richness toyEnv true none a with
    | mk b r =>
      cases r with
      | error x => simp [h]
      | ok l' => simp [h]

/-- False for a corrected redshift: the cluster was processed at 1/2, where two galaxies are members, and corrected to 2/5, where there are three
on all sides. -/
theorem C348_false : ¬ C348_spec toyEnv (0 : ℚ) (fun x : ℚ => x) (1 / 100) (2 / 5) doneCl := by
  intro h
  have e0 : plusMinus toyEnv (0 : ℚ) (fun x : ℚ => x) (1 / 100) (2 / 5) doneCl =
      .ok (some ⟨0, (1569817 / 524288 + 1569817 / 524288 - 2 * (1049947 / 524288)) / (1 / 100) ^ 2, 0, 0⟩) := by decide +kernel
  obtain ⟨lm, em, lp, ep, q1, q2, q3, _⟩ := h _ (1569817 / 524288) 0 e0 ((probe_iff _ _ _ _).mp (by decide +kernel))
  have p1 : probe doneCl (2 / 5 - 1 / 100) = some (1569817 / 524288, 0) := by decide +kernel
  have p2 : probe doneCl (2 / 5 + 1 / 100) = some (1569817 / 524288, 0) := by decide +kernel
  rw [← probe_iff, p1] at q1
  rw [← probe_iff, p2] at q2
  simp only [Option.some.injEq, Prod.mk.injEq] at q1 q2
  rw [← q1.1, ← q2.1] at q3
  norm_num at q3

/-- Non-vacuity of `C348_partial` and `C347_first`: at the redshift at which it was processed the recorded values are its own, and the
derivatives are computed. -/
example : RichAt toyEnv doneCl (1 / 2) doneCl.Lambda doneCl.LambdaE := (probe_iff _ _ _ _).mp (by decide +kernel)

example : ∃ d, plusMinus toyEnv (0 : ℚ) (fun x : ℚ => x) (1 / 10) (1 / 2) doneCl = .ok (some d) ∧ d.dl < 0 :=
  ⟨⟨(1049947 / 524288 - 1569817 / 524288) / (2 * (1 / 10)), (1569817 / 524288 - 1049947 / 524288) / (1 / 10) ^ 2, 0, 0⟩,
    by decide +kernel, by norm_num⟩

end Redmapper.DLambda
