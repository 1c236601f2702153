/-
C345, C346: what the color run does with a cluster.
-/
import Verif.Model.ColorRun
import Verif.Props.Cluster
import Verif.Props.Finders

set_option linter.unusedSectionVars false

namespace Redmapper.ColorRun

open Redmapper.Cluster Redmapper.Finders

variable {α : Type} [Field α] [LinearOrder α] [IsStrictOrderedRing α] {G P : Type}

/-! ## Specification -/

/-- The color mode and the configured scatter for a redshift: `m` numbers the interval of redshifts that contains `z`. -/
structure ModeAt (conf : Conf α) (z : α) (mode : Nat) (s : α) : Prop where
  at' : ∃ m x y, (((conf.lo - 11 / 1000) :: conf.mid) ++ [conf.hi + 11 / 1000])[m]? = some x ∧
    (((conf.lo - 11 / 1000) :: conf.mid) ++ [conf.hi + 11 / 1000])[m + 1]? = some y ∧ x < z ∧ z ≤ y ∧
    conf.modes[m]? = some mode ∧ conf.sigint[m]? = some s

/-- `n` is a neighbour closest to the centre. -/
def Closest (l : List (Nb G α)) (n : Nb G α) : Prop := n ∈ l ∧ ∀ k ∈ l, n.r ≤ k.r

/-- When a cluster is kept: a richness was found, the membership probabilities sum to at least the smallest richness, and the central galaxy
is a member with at least the smallest probability. -/
structure Kept (conf : Conf α) (lam : α) (l : List (Nb G α)) (n : Nb G α) : Prop where
  found : 1 ≤ lam
  rich : conf.minlambda ≤ (l.map Nb.pmem).sum
  central : conf.pcut ≤ n.pmem

/-- All values of a rejected cluster are -1. -/
def Reset (o : Out G P α) : Prop :=
  o.cl.Lambda = -1 ∧ o.cl.LambdaE = -1 ∧ o.cl.scaleval = -1 ∧ o.zlam = -1 ∧ o.zlamE = -1

/-! ## Lemmas -/

theorem foldl_min_spec (x : α) (xs : List α) : xs.foldl min x ∈ x :: xs ∧ ∀ y ∈ x :: xs, xs.foldl min x ≤ y := by
  induction xs generalizing x with
  | nil => simp
  | cons a xs ih =>
    rw [List.foldl_cons]
    obtain ⟨h1, h2⟩ := ih (min x a)
    constructor
    · rcases List.mem_cons.mp h1 with h | h
      · rw [h]
        rcases min_choice x a with e | e <;> rw [e] <;> simp
      · simp [h]
    · intro y hy
      have h3 := h2 (min x a) List.mem_cons_self
      rcases List.mem_cons.mp hy with rfl | hy
      · exact le_trans h3 (min_le_left _ _)
      · rcases List.mem_cons.mp hy with rfl | hy
        · exact le_trans h3 (min_le_right _ _)
        · exact h2 y (List.mem_cons_of_mem _ hy)

theorem argminR_closest (l : List (Nb G α)) (n : Nb G α) (h : l[argminR l]? = some n) : Closest l n := by
  refine ⟨List.mem_of_getElem? h, ?_⟩
  unfold argminR at h
  cases l with
  | nil => simp at h
  | cons a l =>
    simp only [List.map_cons] at h
    obtain ⟨h1, h2⟩ := foldl_min_spec a.r (l.map Nb.r)
    have hi := List.idxOf_lt_length_of_mem h1
    have hg : (a.r :: l.map Nb.r)[(a.r :: l.map Nb.r).idxOf ((l.map Nb.r).foldl min a.r)]? = some n.r := by
      rw [← List.map_cons (f := Nb.r), List.getElem?_map, List.map_cons, h]; rfl
    rw [List.getElem?_eq_getElem hi, List.getElem_idxOf] at hg
    intro k hk
    have : n.r = (l.map Nb.r).foldl min a.r := by simpa using hg.symm
    rw [this]
    exact h2 _ (by rw [← List.map_cons (f := Nb.r)]; exact List.mem_map_of_mem hk)

theorem argminR_some (l : List (Nb G α)) (h : l ≠ []) : ∃ n, l[argminR l]? = some n := by
  unfold argminR
  cases l with
  | nil => exact absurd rfl h
  | cons a l =>
    simp only [List.map_cons]
    have hi := List.idxOf_lt_length_of_mem (foldl_min_spec a.r (l.map Nb.r)).1
    rw [List.length_cons, List.length_map] at hi
    exact ⟨_, List.getElem?_eq_getElem (by rw [List.length_cons]; exact hi)⟩

theorem sum_zero (l : List α) (h0 : ∀ x ∈ l, 0 ≤ x) (hs : l.sum = 0) : ∀ x ∈ l, x = 0 := by
  intro x hx
  have := List.single_le_sum h0 x hx
  exact le_antisymm (by rw [hs] at this; exact this) (h0 x hx)

/-! ## C345 -/

/-- **C345**, as one would like it: a cluster whose neighbours were just found (no probabilities yet) is kept exactly when a richness was
found, it is large enough and the central galaxy is a likely member.  `fit` is used with the default scatter; see C346. -/
def C345_spec (E : Env G P α) (fit : Nat → α → FitEnv G α) (conf : Conf α) : Prop :=
  ∀ (redcolor : Nat → α) (z z0 ze0 : α) (c c' : Cl G P α) (lam : α) (mode : Nat) (l : List (Nb G α)) (o : Out G P α),
    (∀ l0, c.nbs = some l0 → ∀ n ∈ l0, n.pmem = 0) →
    process E fit conf redcolor z z0 ze0 c = .ok o →
    colorMode z 0 (zbounds conf.lo conf.hi conf.mid) ≠ none →
    (∀ m, colorMode z 0 (zbounds conf.lo conf.hi conf.mid) = some m → conf.modes[m]? = some mode) →
    richnessFit E (fit mode (1 / 20)) (some (redcolor mode)) false c = (c', .ok lam) → c'.nbs = some l →
    (∀ n ∈ l, 0 ≤ n.pmem) →
    ∃ n, Closest l n ∧ o.pbcg = n.pmem ∧ (o.bad = false ↔ Kept conf lam l n)

/-- True when the smallest probability of the central galaxy is positive.  Missing: a cut of zero or less (`C345_false`). -/
theorem C345_partial (E : Env G P α) (fit : Nat → α → FitEnv G α) (conf : Conf α) (hp : 0 < conf.pcut) : C345_spec E fit conf := by
  intro redcolor z z0 ze0 c c' lam mode l o hfresh ho hmode hmodes hfit hnbs hnn
  unfold process at ho
  cases hc : colorMode z 0 (zbounds conf.lo conf.hi conf.mid) with
  | none => exact absurd hc hmode
  | some m =>
  simp only [hc, hmodes m hc, hfit, hnbs, Option.getD_some] at ho
  cases hn : l[argminR l]? with
  | none => rw [hn] at ho; simp at ho
  | some n =>
  rw [hn] at ho
  simp only at ho
  have hcl := argminR_closest l n hn
  refine ⟨n, hcl, ?_, ?_⟩
  · split at ho
    · simp only [Except.ok.injEq] at ho; rw [← ho]
    · split at ho <;> (simp only [Except.ok.injEq] at ho; rw [← ho])
  obtain ⟨f1, f2, _⟩ := C131_fit _ _ _ _ _ _ hfit
  have hbad : o.bad = false ↔ conf.minlambda ≤ lam / c'.scaleval ∧ conf.pcut ≤ n.pmem := by
    split at ho
    · rename_i h1
      simp only [Except.ok.injEq] at ho; rw [← ho]
      simp only [Bool.true_eq_false, false_iff, not_and_or, not_le]
      exact Or.inl h1
    · rename_i h1
      split at ho
      · rename_i h2
        simp only [Except.ok.injEq] at ho; rw [← ho]
        simp only [Bool.true_eq_false, false_iff, not_and_or, not_le]
        exact Or.inr h2
      · rename_i h2
        simp only [Except.ok.injEq] at ho; rw [← ho]
        simp only [true_iff]
        exact ⟨not_lt.mp h1, not_lt.mp h2⟩
  rw [hbad]
  rcases f2 lam rfl with e | ⟨e, _, _, l', hl', hz⟩ | ⟨_, h1, _, _, _, _, l0, l', _, hl', _, hs, _⟩
  · have e0 := (f1 (by rw [e])).2.2.2.1
    have hpm : n.pmem = 0 := hfresh l (by rw [← e0]; exact hnbs) n hcl.1
    constructor
    · rintro ⟨_, h⟩; rw [hpm] at h; exact absurd hp (not_lt.mpr h)
    · rintro ⟨h, _, _⟩; rw [e] at h; norm_num at h
  · have hll : l' = l := by rw [hnbs] at hl'; simpa using hl'.symm
    have hpm : n.pmem = 0 := by
      have := hz n (hll ▸ hcl.1)
      simp only [Zeroed] at this
      tauto
    constructor
    · rintro ⟨_, h⟩; rw [hpm] at h; exact absurd hp (not_lt.mpr h)
    · rintro ⟨h, _, _⟩; rw [e] at h; norm_num at h
  · have hll : l' = l := by rw [hnbs] at hl'; simpa using hl'.symm
    subst hll
    by_cases h0 : (l'.map Nb.pmem).sum = 0
    · have hpm : n.pmem = 0 := sum_zero (l'.map Nb.pmem) (by
        intro x hx
        obtain ⟨k, hk, rfl⟩ := List.mem_map.mp hx
        exact hnn k hk) h0 _ (List.mem_map_of_mem hcl.1)
      constructor
      · rintro ⟨_, h⟩; rw [hpm] at h; exact absurd hp (not_lt.mpr h)
      · rintro ⟨_, _, h⟩; rw [hpm] at h; exact absurd hp (not_lt.mpr h)
    · have hpos : 0 < (l'.map Nb.pmem).sum := lt_of_le_of_ne (List.sum_nonneg (by
        intro x hx
        obtain ⟨k, hk, rfl⟩ := List.mem_map.mp hx
        exact hnn k hk)) (Ne.symm h0)
      have hlam : 0 < lam := by linarith
      have hsc : lam / c'.scaleval = (l'.map Nb.pmem).sum := by
        rw [hs h0, abs_of_pos (div_pos hlam hpos)]
        field_simp
      rw [hsc]
      exact ⟨fun h => ⟨h1, h.1, h.2⟩, fun h => ⟨h.rich, h.central⟩⟩

/-- A kept cluster keeps what the fit gave it, a rejected one has all values -1. -/
theorem C345_values (E : Env G P α) (fit : Nat → α → FitEnv G α) (conf : Conf α) (redcolor : Nat → α) (z z0 ze0 : α) (c : Cl G P α)
    (o : Out G P α) (h : process E fit conf redcolor z z0 ze0 c = .ok o) :
    (o.bad = true → Reset o) ∧
    (o.bad = false → o.zlam = z0 ∧ o.zlamE = ze0 ∧ ∃ mode lam, richnessFit E (fit mode (1 / 20)) (some (redcolor mode)) false c = (o.cl, .ok lam)) := by
  unfold process at h
  split at h
  · simp at h
  · split at h
    · simp at h
    · rename_i m _ mode _
      cases hr : richnessFit E (fit mode (1 / 20)) (some (redcolor mode)) false c with
      | mk c' r =>
        rw [hr] at h
        cases r with
        | error e => simp at h
        | ok lam =>
          simp only at h
          split at h
          · simp at h
          · split at h
            · simp only [Except.ok.injEq] at h; rw [← h]
              exact ⟨fun _ => ⟨rfl, rfl, rfl, rfl, rfl⟩, fun q => by simp at q⟩
            · split at h
              · simp only [Except.ok.injEq] at h; rw [← h]
                exact ⟨fun _ => ⟨rfl, rfl, rfl, rfl, rfl⟩, fun q => by simp at q⟩
              · simp only [Except.ok.injEq] at h; rw [← h]
                exact ⟨fun q => by simp at q, fun _ => ⟨rfl, rfl, mode, lam, hr⟩⟩

/-- The clusters of the run are exactly those strictly inside the range, and each of them has a color mode: neither a RuntimeError nor an
IndexError can occur if there are as many modes as intervals. -/
theorem C345_mode (E : Env G P α) (fit : Nat → α → FitEnv G α) (conf : Conf α) (hm : conf.modes.length = conf.mid.length + 1)
    (z : Cl G P α → α) (cat : List (Cl G P α)) :
    (∀ c, c ∈ setup conf z cat ↔ c ∈ cat ∧ conf.lo < z c ∧ z c < conf.hi) ∧
    ∀ c ∈ setup conf z cat, ∀ redcolor z0 ze0, process E fit conf redcolor (z c) z0 ze0 c ≠ .error .runtime ∧
      process E fit conf redcolor (z c) z0 ze0 c ≠ .error .index := by
  have hmem : ∀ c, c ∈ setup conf z cat ↔ c ∈ cat ∧ conf.lo < z c ∧ z c < conf.hi := by
    intro c
    simp [setup, List.mem_filter]
  refine ⟨hmem, ?_⟩
  intro c hc redcolor z0 ze0
  obtain ⟨_, h1, h2⟩ := (hmem c).mp hc
  obtain ⟨m, x, y, hcm, hle, _⟩ := C77_color_mode conf.lo conf.hi conf.mid (z c) h1 h2
  have hlt : m < conf.modes.length := by omega
  unfold process
  simp only [hcm, List.getElem?_eq_getElem hlt]
  cases hr : richnessFit E (fit conf.modes[m] (1 / 20)) (some (redcolor conf.modes[m])) false c with
  | mk c' r =>
    cases r with
    | error e => simp
    | ok lam =>
      simp only
      split
      · simp
      · split
        · simp
        · split <;> simp

/-- A configuration of two modes with the default richness cut. -/
def toyConf (pcut : ℚ) : Conf ℚ :=
  { lo := 1 / 10, hi := 9 / 10, mid := [2 / 5], modes := [1, 2], sigint := [1 / 20, 3 / 100], minlambda := 10, pcut := pcut }

/-- What the fit reads: many galaxies are wanted. -/
def strictFit (_ : Nat) (_ : ℚ) : FitEnv ℚ ℚ := { toyFit with mingal := 10 }

/-- False with a cut of zero: the richness -10 of a cluster with too few galaxies over the scale -1 is 10, which passes the default cut. -/
theorem C345_false : ¬ C345_spec (P := ℚ) toyEnv strictFit (toyConf 0) := by
  intro h
  obtain ⟨n, _, _, h3⟩ := h (fun _ => 0) (1 / 2) 0 0 toyCl { toyCl with scaleval := -1 } (-10) 2 (toyCl.nbs.getD [])
    ⟨{ toyCl with scaleval := -1 }, 0, 0, 0, false⟩ (by
      have : ∀ n ∈ toyCl.nbs.getD [], n.pmem = 0 := by decide +kernel
      intro l0 hl0
      rw [hl0] at this
      exact this) (by decide +kernel) (by decide +kernel) (by
      have : colorMode (1 / 2 : ℚ) 0 (zbounds (toyConf 0).lo (toyConf 0).hi (toyConf 0).mid) = some 1 := by decide +kernel
      intro m hm
      rw [this] at hm
      simp only [Option.some.injEq] at hm
      subst hm
      rfl) (by decide +kernel) (by decide +kernel) (by decide +kernel)
  have := (h3.mp rfl).found
  norm_num at this

/-- Non-vacuity: with the default cut of 0.3 the same cluster is rejected, and with a lower richness cut one with enough galaxies is kept. -/
example : (match process (P := ℚ) toyEnv strictFit (toyConf (3 / 10)) (fun _ => 0) (1 / 2) 0 0 toyCl with
    | .ok o => o.bad | .error _ => false) = true := by decide +kernel

example : (match process (P := ℚ) toyEnv (fun _ _ => toyFit) { toyConf (3 / 10) with minlambda := 1 } (fun _ => 0) (1 / 2) 0 0 toyCl with
    | .ok o => !o.bad && decide (3 / 10 ≤ o.pbcg) | .error _ => false) = true := by decide +kernel

/-! ## C346: the intrinsic scatter -/

/-- **C346**, as one would like it: a cluster is processed with the scatter that is configured for its color mode. -/
def C346_spec (E : Env G P α) (fit : Nat → α → FitEnv G α) (conf : Conf α) : Prop :=
  ∀ (redcolor : Nat → α) (z z0 ze0 : α) (c c' : Cl G P α) (mode : Nat) (s lam : α) (o : Out G P α),
    conf.mid.Pairwise (· < ·) → (∀ x ∈ conf.mid, conf.lo < x ∧ x < conf.hi) → conf.lo < z → z < conf.hi → ModeAt conf z mode s →
    process E fit conf redcolor z z0 ze0 c = .ok o → o.bad = false →
    richnessFit E (fit mode s) (some (redcolor mode)) false c = (c', .ok lam) → o.cl = c'

theorem colorMode_unique (z : α) : ∀ (zb : List α) (m0 k : Nat) (x y : α), zb.Pairwise (· < ·) → zb[k]? = some x → zb[k + 1]? = some y →
    x < z → z ≤ y → colorMode z m0 zb = some (m0 + k)
  | [], _, k, x, y, _, h, _, _, _ => by simp at h
  | [a], _, k, x, y, _, _, h, _, _ => by simp at h
  | a :: b :: rest, m0, 0, x, y, _, h1, h2, h3, h4 => by
    simp only [List.getElem?_cons_zero, Option.some.injEq, zero_add, List.getElem?_cons_succ] at h1 h2
    subst h1 h2
    rw [colorMode, if_pos ⟨h3, h4⟩]; rfl
  | a :: b :: rest, m0, k + 1, x, y, hs, h1, h2, h3, h4 => by
    rw [List.getElem?_cons_succ] at h1 h2
    have hs' := (List.pairwise_cons.mp hs).2
    have hbx : b ≤ x := by
      cases k with
      | zero => simp only [List.getElem?_cons_zero, Option.some.injEq] at h1; rw [h1]
      | succ k =>
        rw [List.getElem?_cons_succ] at h1
        exact ((List.pairwise_cons.mp hs').1 x (List.mem_of_getElem? h1)).le
    rw [colorMode, if_neg (by rintro ⟨_, h⟩; exact absurd (lt_of_le_of_lt hbx h3) (not_lt.mpr h))]
    rw [colorMode_unique z (b :: rest) (m0 + 1) k x y hs' h1 h2 h3 h4]
    congr 1; omega

/-- True for modes whose configured scatter is 0.05, the default of the richness.  Missing: any other scatter (`C346_false`). -/
theorem C346_partial (E : Env G P α) (fit : Nat → α → FitEnv G α) (conf : Conf α) (hs : ∀ s ∈ conf.sigint, s = 1 / 20) :
    C346_spec E fit conf := by
  intro redcolor z z0 ze0 c c' mode s lam o hsort hin hlo hhi ⟨m, x, y, hx, hy, h1, h2, hm, hsm⟩ ho hb hfit
  have e11 : (0 : α) < 11 / 1000 := by norm_num
  have hzb : (zbounds conf.lo conf.hi conf.mid).Pairwise (· < ·) := by
    unfold zbounds
    rw [List.cons_append, List.pairwise_cons]
    refine ⟨?_, ?_⟩
    · intro a ha
      rcases List.mem_append.mp ha with h | h
      · linarith [(hin a h).1]
      · simp only [List.mem_singleton] at h; rw [h]; linarith
    · rw [List.pairwise_append]
      refine ⟨hsort, List.pairwise_singleton _ _, ?_⟩
      intro a ha b hb
      simp only [List.mem_singleton] at hb
      rw [hb]; linarith [(hin a ha).2]
  have hc := colorMode_unique z _ 0 m x y hzb hx hy h1 h2
  rw [zero_add] at hc
  rw [hs s (List.mem_of_getElem? hsm)] at hfit
  unfold process at ho
  simp only [hc, hm, hfit] at ho
  split at ho
  · simp at ho
  · split at ho
    · simp only [Except.ok.injEq] at ho; rw [← ho] at hb; simp at hb
    · split at ho
      · simp only [Except.ok.injEq] at ho; rw [← ho] at hb; simp at hb
      · simp only [Except.ok.injEq] at ho; rw [← ho]

/-- The configured scatter has no effect at all. -/
theorem C346_unused (E : Env G P α) (fit : Nat → α → FitEnv G α) (conf : Conf α) (sg : List α) (redcolor : Nat → α) (z z0 ze0 : α) (c : Cl G P α) :
    process E fit { conf with sigint := sg } redcolor z z0 ze0 c = process E fit conf redcolor z z0 ze0 c := rfl

/-- A fit of colors without errors, whose width is the scatter it is given. -/
def widthFit (_ : Nat) (s : ℚ) : FitEnv ℚ ℚ := { toyFit with col := fun g => g / 2, colErr := fun _ => 0, netErr := fun x => x + s }

/-- A configuration with a smaller scatter for the second mode. -/
def narrowConf : Conf ℚ := { toyConf (3 / 10) with minlambda := 1, sigint := [1 / 20, 1 / 50] }

/-- False as soon as a scatter is configured that is not 0.05: this cluster is kept with a richness, although with its scatter of 0.02 there
are too few galaxies for one. -/
theorem C346_false : ¬ C346_spec (P := ℚ) toyEnv widthFit narrowConf := by
  intro h
  cases ho : process (P := ℚ) toyEnv widthFit narrowConf (fun _ => 0) (1 / 2) 0 0 toyCl with
  | error e =>
    have : (match process (P := ℚ) toyEnv widthFit narrowConf (fun _ => 0) (1 / 2) 0 0 toyCl with
      | .ok _ => true | .error _ => false) = true := by decide +kernel
    rw [ho] at this
    simp at this
  | ok o =>
    have hb : (match process (P := ℚ) toyEnv widthFit narrowConf (fun _ => 0) (1 / 2) 0 0 toyCl with
      | .ok o => !o.bad && decide (0 ≤ o.cl.scaleval) | .error _ => false) = true := by decide +kernel
    rw [ho] at hb
    simp only [Bool.and_eq_true, Bool.not_eq_true', decide_eq_true_eq] at hb
    have := h (fun _ => 0) (1 / 2) 0 0 toyCl { toyCl with scaleval := -1 } 2 (1 / 50) (-10) o (by decide +kernel) (by decide +kernel)
      (by decide +kernel) (by decide +kernel) ⟨1, 2 / 5, 9 / 10 + 11 / 1000, by decide +kernel, by decide +kernel, by norm_num, by norm_num, rfl, rfl⟩
      ho hb.1 (by decide +kernel)
    rw [this] at hb
    exact absurd hb.2 (by norm_num)

/-- Non-vacuity of `C346_partial`: a configuration with a scatter of 0.05 for both modes, and a cluster that is kept. -/
example : (∀ s ∈ ({ narrowConf with sigint := [1 / 20, 1 / 20] } : Conf ℚ).sigint, s = 1 / 20) ∧
    (match process (P := ℚ) toyEnv widthFit { narrowConf with sigint := [1 / 20, 1 / 20] } (fun _ => 0) (1 / 2) 0 0 toyCl with
      | .ok o => !o.bad | .error _ => false) = true := by
  refine ⟨?_, by decide +kernel⟩
  intro s hs
  simpa using hs

end Redmapper.ColorRun
