/-
Properties C307-C310: the fit of one correlation of the red sequence.
-/
import Verif.Model.OffDiag
import Verif.Props.Fitters
import Mathlib.LinearAlgebra.Matrix.NonsingularInverse
import Mathlib.LinearAlgebra.Matrix.Notation
import Mathlib.Analysis.InnerProductSpace.PiL2
import Mathlib.Topology.MetricSpace.ProperSpace

set_option linter.unusedSectionVars false
set_option linter.unusedVariables false

namespace Redmapper.OffDiag

open Redmapper.Fitters (Minimizer Bound run Script InBounds MinOK Ends runPure run_pure run_ends)

/-! ## C307: the cost -/

/-- How a magnitude enters a color: color `c` is magnitude `c` minus magnitude `c + 1`. -/
def weight (c b : Nat) : ℝ := if b = c then 1 else if b = c + 1 then -1 else 0

/-- The covariance of two colors whose magnitudes have independent errors. -/
noncomputable def colorCov (err : Nat → ℝ) (j k : Nat) : ℝ :=
  ((List.range (max j k + 2)).map fun b => weight j b * weight k b * err b ^ 2).sum

/-- The covariance matrix of the two colors of a galaxy for an intrinsic correlation `r`. -/
noncomputable def specCov (j k : Nat) (g : Gal) (r : ℝ) : Matrix (Fin 2) (Fin 2) ℝ :=
  !![g.s1 ^ 2 + colorCov g.err j j, r * g.s1 * g.s2 + colorCov g.err j k;
     r * g.s1 * g.s2 + colorCov g.err k j, g.s2 ^ 2 + colorCov g.err k k]

/-- The density of a Gaussian in two dimensions. -/
noncomputable def gauss2 (C : Matrix (Fin 2) (Fin 2) ℝ) (x : Fin 2 → ℝ) : ℝ :=
  Real.exp (-(x ⬝ᵥ (C⁻¹.mulVec x)) / 2) / (2 * Real.pi * √C.det)

/-- The logarithm of the likelihood of the residuals of a galaxy, mixed with the background; -100 if the mixture is not positive. -/
noncomputable def specLike (j k : Nat) (g : Gal) (r : ℝ) : ℝ :=
  let x := g.prob * gauss2 (specCov j k g r) ![g.d1, g.d2] + (1 - g.prob) * g.bkg
  if 0 < x then Real.log x else -100

/-- Minus the logarithm of the posterior of the correlations at the nodes; between the nodes, the spline, at most 0.9. -/
noncomputable def specNll (spl : List ℝ → List ℝ → ℝ → ℝ) (F : Fitter) (pars : List ℝ) : ℝ :=
  -(F.gals.map fun g => specLike F.j F.k g (max (-(9 / 10)) (min (9 / 10) (spl F.nodes pars g.z)))).sum +
    (pars.map fun p => (p / F.prior) ^ 2 / 2).sum

/-- The matrices with the given correlations of colors `j` and `k`. -/
noncomputable def withCorr (j k : Nat) (pars : List ℝ) (A : Nat → Nat → Nat → ℝ) (r c i : Nat) : ℝ :=
  if (r = j ∧ c = k) ∨ (r = k ∧ c = j) then pars.getD i 0 * (√(A j j i) * √(A k k i)) else A r c i

theorem sum_range_ite (n a : Nat) (f : Nat → ℝ) (h : a < n) : ((List.range n).map fun b => if b = a then f b else 0).sum = f a := by
  induction n with
  | zero => omega
  | succ n ih =>
    rw [List.range_succ, List.map_append, List.sum_append]
    by_cases e : a = n
    · subst e
      have : ((List.range a).map fun b => if b = a then f b else 0) = (List.range a).map fun _ => 0 := by
        refine List.map_congr_left fun b hb => if_neg ?_
        have := List.mem_range.mp hb
        omega
      rw [this]
      simp
    · rw [ih (by omega)]
      simp [Ne.symm e]

theorem sum_range_ite2 (n a b : Nat) (f g : Nat → ℝ) (ha : a < n) (hb : b < n) :
    ((List.range n).map fun c => (if c = a then f c else 0) + (if c = b then g c else 0)).sum = f a + g b := by
  rw [List.sum_map_add, sum_range_ite n a f ha, sum_range_ite n b g hb]

theorem colorCov_self (err : Nat → ℝ) (j : Nat) : colorCov err j j = err j ^ 2 + err (j + 1) ^ 2 := by
  unfold colorCov
  rw [← sum_range_ite2 (max j j + 2) j (j + 1) (fun b => err b ^ 2) (fun b => err b ^ 2) (by omega) (by omega)]
  congr 1
  refine List.map_congr_left fun b _ => ?_
  unfold weight
  by_cases h1 : b = j
  · have : b ≠ j + 1 := by omega
    simp [h1]
  · by_cases h2 : b = j + 1
    · simp [h1, h2]
    · simp [h1, h2]

theorem colorCov_next (err : Nat → ℝ) (j : Nat) : colorCov err j (j + 1) = -err (j + 1) ^ 2 := by
  unfold colorCov
  rw [← sum_range_ite (max j (j + 1) + 2) (j + 1) (fun b => -err b ^ 2) (by omega)]
  congr 1
  refine List.map_congr_left fun b _ => ?_
  unfold weight
  by_cases h1 : b = j
  · have e : b ≠ j + 1 := by omega
    have e' : b ≠ j + 1 + 1 := by omega
    simp [e, e']
  · by_cases h2 : b = j + 1
    · simp [h2]
    · simp [h1, h2]

theorem colorCov_comm (err : Nat → ℝ) (j k : Nat) : colorCov err j k = colorCov err k j := by
  unfold colorCov
  rw [max_comm]
  congr 1
  refine List.map_congr_left fun b _ => by ring

theorem colorCov_far (err : Nat → ℝ) (j k : Nat) (h : k ≠ j) (h1 : k ≠ j + 1) (h2 : j ≠ k + 1) : colorCov err j k = 0 := by
  unfold colorCov
  have : ((List.range (max j k + 2)).map fun b => weight j b * weight k b * err b ^ 2) = (List.range (max j k + 2)).map fun _ => (0 : ℝ) := by
    refine List.map_congr_left fun b _ => ?_
    unfold weight
    by_cases a1 : b = j
    · have e : b ≠ k := by omega
      have e' : b ≠ k + 1 := by omega
      rw [if_neg e, if_neg e']
      ring
    · by_cases a2 : b = j + 1
      · have e : b ≠ k := by omega
        have e' : b ≠ k + 1 := by omega
        rw [if_neg e, if_neg e']
        ring
      · simp [a1, a2]
  rw [this]
  simp

theorem clip9_eq (x : ℝ) : clip9 x = max (-(9 / 10)) (min (9 / 10) x) := by
  unfold clip9
  rcases le_total x (-(9 / 10)) with h | h
  · rw [max_eq_right h, min_eq_left (by norm_num), min_eq_right (by linarith), max_eq_left h]
  · rcases le_total x (9 / 10) with h' | h'
    · rw [max_eq_left h, min_eq_left h', min_eq_right h', max_eq_right h]
    · rw [max_eq_left h, min_eq_right h', min_eq_left h', max_eq_right (by norm_num)]

theorem clip9_abs (x : ℝ) : |clip9 x| ≤ 9 / 10 := by
  unfold clip9
  rw [abs_le]
  exact ⟨le_min (le_max_right _ _) (by norm_num), min_le_right _ _⟩

/-- The determinant of the covariance matrix of two colors, the first before the second, is positive for every correlation a fit considers, if
the intrinsic scatters are not zero. -/
theorem det_ge (j k : Nat) (hjk : j < k) (g : Gal) (r : ℝ) (hr : |r| ≤ 9 / 10) : 19 / 100 * (g.s1 ^ 2 * g.s2 ^ 2) ≤ (specCov j k g r).det := by
  have hr2 : r ^ 2 ≤ 81 / 100 := by
    rw [← sq_abs]
    nlinarith [abs_nonneg r]
  have hs : 0 ≤ g.s1 ^ 2 * g.s2 ^ 2 := by positivity
  have hmain : 19 / 100 * (g.s1 ^ 2 * g.s2 ^ 2) ≤ g.s1 ^ 2 * g.s2 ^ 2 * (1 - r ^ 2) := by
    rw [mul_comm]
    apply mul_le_mul_of_nonneg_left _ hs
    linarith
  rw [Matrix.det_fin_two]
  unfold specCov
  simp only [Matrix.of_apply, Matrix.cons_val', Matrix.cons_val_zero, Matrix.cons_val_one, Matrix.cons_val_fin_one, colorCov_self, colorCov_comm g.err k j]
  by_cases hk : k = j + 1
  · subst hk
    rw [colorCov_next]
    have hb : 0 ≤ g.err (j + 1) ^ 2 := by positivity
    have e : (g.s1 ^ 2 + (g.err j ^ 2 + g.err (j + 1) ^ 2)) * (g.s2 ^ 2 + (g.err (j + 1) ^ 2 + g.err (j + 1 + 1) ^ 2)) -
        (r * g.s1 * g.s2 + -g.err (j + 1) ^ 2) * (r * g.s1 * g.s2 + -g.err (j + 1) ^ 2) =
        g.s1 ^ 2 * g.s2 ^ 2 * (1 - r ^ 2) + g.err (j + 1) ^ 2 * (g.s1 ^ 2 + 2 * r * g.s1 * g.s2 + g.s2 ^ 2) + g.s1 ^ 2 * g.err (j + 1 + 1) ^ 2 +
          g.s2 ^ 2 * g.err j ^ 2 + g.err j ^ 2 * g.err (j + 1) ^ 2 + g.err j ^ 2 * g.err (j + 1 + 1) ^ 2 + g.err (j + 1) ^ 2 * g.err (j + 1 + 1) ^ 2 := by ring
    rw [e]
    have : 0 ≤ g.s1 ^ 2 + 2 * r * g.s1 * g.s2 + g.s2 ^ 2 := by
      have : g.s1 ^ 2 + 2 * r * g.s1 * g.s2 + g.s2 ^ 2 = (r * g.s1 + g.s2) ^ 2 + (1 - r ^ 2) * g.s1 ^ 2 := by ring
      rw [this]
      have : 0 ≤ 1 - r ^ 2 := by linarith
      positivity
    refine le_trans hmain ?_
    have h1 : 0 ≤ g.err (j + 1) ^ 2 * (g.s1 ^ 2 + 2 * r * g.s1 * g.s2 + g.s2 ^ 2) := by positivity
    have h2 : 0 ≤ g.s1 ^ 2 * g.err (j + 1 + 1) ^ 2 := by positivity
    have h3 : 0 ≤ g.s2 ^ 2 * g.err j ^ 2 := by positivity
    have h4 : 0 ≤ g.err j ^ 2 * g.err (j + 1) ^ 2 := by positivity
    have h5 : 0 ≤ g.err j ^ 2 * g.err (j + 1 + 1) ^ 2 := by positivity
    have h6 : 0 ≤ g.err (j + 1) ^ 2 * g.err (j + 1 + 1) ^ 2 := by positivity
    linarith
  · rw [colorCov_far g.err j k (by omega) hk (by omega)]
    have e : (g.s1 ^ 2 + (g.err j ^ 2 + g.err (j + 1) ^ 2)) * (g.s2 ^ 2 + (g.err k ^ 2 + g.err (k + 1) ^ 2)) -
        (r * g.s1 * g.s2 + 0) * (r * g.s1 * g.s2 + 0) =
        g.s1 ^ 2 * g.s2 ^ 2 * (1 - r ^ 2) + g.s1 ^ 2 * (g.err k ^ 2 + g.err (k + 1) ^ 2) + g.s2 ^ 2 * (g.err j ^ 2 + g.err (j + 1) ^ 2) +
          (g.err j ^ 2 + g.err (j + 1) ^ 2) * (g.err k ^ 2 + g.err (k + 1) ^ 2) := by ring
    rw [e]
    refine le_trans hmain ?_
    have h1 : 0 ≤ g.s1 ^ 2 * (g.err k ^ 2 + g.err (k + 1) ^ 2) := by positivity
    have h2 : 0 ≤ g.s2 ^ 2 * (g.err j ^ 2 + g.err (j + 1) ^ 2) := by positivity
    have h3 : 0 ≤ (g.err j ^ 2 + g.err (j + 1) ^ 2) * (g.err k ^ 2 + g.err (k + 1) ^ 2) := by positivity
    linarith

theorem det_pos (j k : Nat) (hjk : j < k) (g : Gal) (r : ℝ) (hr : |r| ≤ 9 / 10) (h1 : g.s1 ≠ 0) (h2 : g.s2 ≠ 0) : 0 < (specCov j k g r).det :=
  lt_of_lt_of_le (by positivity) (det_ge j k hjk g r hr)

theorem logLike_spec (F : Fitter) (hjk : F.j < F.k) (g : Gal) (r : ℝ) (hr : |r| ≤ 9 / 10) (h1 : g.s1 ≠ 0) (h2 : g.s2 ≠ 0) :
    logLike F g (r * g.s1 * g.s2) = specLike F.j F.k g r := by
  have hdet := det_pos F.j F.k hjk g r hr h1 h2
  have hn : (noise F g).b = colorCov g.err F.j F.k ∧ (noise F g).c = colorCov g.err F.k F.j ∧ (noise F g).a = colorCov g.err F.j F.j ∧
      (noise F g).d = colorCov g.err F.k F.k := by
    unfold noise
    rw [colorCov_self, colorCov_self, colorCov_comm g.err F.k F.j]
    by_cases hk : F.k = F.j + 1
    · rw [if_pos hk, hk, colorCov_next]
      simp
    · rw [if_neg hk, colorCov_far g.err F.j F.k (by omega) hk (by omega)]
      simp
  have hC : specCov F.j F.k g r = !![g.s1 ^ 2 + (noise F g).a, r * g.s1 * g.s2 + (noise F g).b;
      r * g.s1 * g.s2 + (noise F g).c, g.s2 ^ 2 + (noise F g).d] := by
    rw [hn.1, hn.2.1, hn.2.2.1, hn.2.2.2]; rfl
  have hg : gauss2 (specCov F.j F.k g r) ![g.d1, g.d2] =
      (1 / √(specCov F.j F.k g r).det) / (2 * Real.pi) * Real.exp (-(1 / 2) * ((g.s2 ^ 2 + (noise F g).d) / (specCov F.j F.k g r).det * g.d1 * g.d1 +
        (-(r * g.s1 * g.s2 + (noise F g).c) / (specCov F.j F.k g r).det + -(r * g.s1 * g.s2 + (noise F g).b) / (specCov F.j F.k g r).det) * g.d1 * g.d2 +
        (g.s1 ^ 2 + (noise F g).a) / (specCov F.j F.k g r).det * g.d2 * g.d2)) := by
    unfold gauss2
    have hs : √(specCov F.j F.k g r).det ≠ 0 := (Real.sqrt_pos.mpr hdet).ne'
    have hinv : -(![g.d1, g.d2] ⬝ᵥ ((specCov F.j F.k g r)⁻¹.mulVec ![g.d1, g.d2])) / 2 =
        -(1 / 2) * ((g.s2 ^ 2 + (noise F g).d) / (specCov F.j F.k g r).det * g.d1 * g.d1 +
        (-(r * g.s1 * g.s2 + (noise F g).c) / (specCov F.j F.k g r).det + -(r * g.s1 * g.s2 + (noise F g).b) / (specCov F.j F.k g r).det) * g.d1 * g.d2 +
        (g.s1 ^ 2 + (noise F g).a) / (specCov F.j F.k g r).det * g.d2 * g.d2) := by
      rw [Matrix.inv_def, Ring.inverse_eq_inv']
      generalize hD : (specCov F.j F.k g r).det = D at *
      rw [hC, Matrix.adjugate_fin_two_of]
      simp only [Matrix.smul_of, Matrix.smul_cons, Matrix.smul_empty, smul_eq_mul, Matrix.mulVec_cons, Matrix.mulVec_empty, dotProduct, Fin.sum_univ_two,
        Matrix.cons_val_zero, Matrix.cons_val_one, Pi.add_apply, Pi.smul_apply, Matrix.cons_val_fin_one, Matrix.head_cons, Matrix.tail_cons, Matrix.of_apply, Matrix.cons_val', Pi.zero_apply, add_zero, Matrix.col_apply, Matrix.transpose_apply, Function.comp]
      field_simp
      ring
    rw [hinv]
    generalize Real.exp _ = E
    have hp := Real.pi_pos.ne'
    field_simp
  have hd2 : (g.s1 ^ 2 + (noise F g).a) * (g.s2 ^ 2 + (noise F g).d) - (r * g.s1 * g.s2 + (noise F g).b) * (r * g.s1 * g.s2 + (noise F g).c) =
      (specCov F.j F.k g r).det := by
    rw [hC, Matrix.det_fin_two_of]
  unfold logLike specLike
  simp only
  rw [hd2, hg]
  by_cases hx : 0 < g.prob * ((1 / √(specCov F.j F.k g r).det) / (2 * Real.pi) * Real.exp (-(1 / 2) * ((g.s2 ^ 2 + (noise F g).d) / (specCov F.j F.k g r).det * g.d1 * g.d1 +
        (-(r * g.s1 * g.s2 + (noise F g).c) / (specCov F.j F.k g r).det + -(r * g.s1 * g.s2 + (noise F g).b) / (specCov F.j F.k g r).det) * g.d1 * g.d2 +
        (g.s1 ^ 2 + (noise F g).a) / (specCov F.j F.k g r).det * g.d2 * g.d2))) + (1 - g.prob) * g.bkg
  · rw [if_neg (by push Not; exact ⟨hdet, hx⟩), if_pos hx]
  · rw [if_pos (Or.inr (not_lt.mp hx)), if_neg hx]

theorem setFull_eq (F : Fitter) (hjk : F.j ≠ F.k) (pars : List ℝ) (A : Nat → Nat → Nat → ℝ) : setFull F pars A = withCorr F.j F.k pars A := by
  funext r c i
  unfold setFull withCorr
  simp only
  by_cases h1 : r = F.k ∧ c = F.j
  · rw [if_pos h1, if_pos (Or.inr h1)]; simp; ring
  · rw [if_neg h1]
    by_cases h2 : r = F.j ∧ c = F.k
    · rw [if_pos h2, if_pos (Or.inl h2)]; ring
    · rw [if_neg h2, if_neg (by tauto)]

/-- The sum over galaxies that `cost` forms. -/
theorem vals_spec (spl : List ℝ → List ℝ → ℝ → ℝ) (F : Fitter) (hjk : F.j < F.k) (hs : ∀ g ∈ F.gals, g.s1 ≠ 0 ∧ g.s2 ≠ 0) (pars : List ℝ) :
    ((F.gals.zip (setOff spl F pars)).map fun go => logLike F go.1 go.2) =
      F.gals.map fun g => specLike F.j F.k g (max (-(9 / 10)) (min (9 / 10) (spl F.nodes pars g.z))) := by
  unfold setOff
  rw [List.zip_map_right, List.map_map]
  have : ∀ l : List Gal, l.zip l = l.map fun g => (g, g) := by
    intro l
    induction l with
    | nil => rfl
    | cons a l ih => simp [ih]
  rw [this, List.map_map]
  refine List.map_congr_left fun g hg => ?_
  simp only [Function.comp, Prod.map_apply, id]
  rw [logLike_spec F hjk g _ (clip9_abs _) (hs g hg).1 (hs g hg).2, clip9_eq]

/-- **C307, the part that holds**: for two colors given in the order of the bands and scatters that are not zero, the cost is minus the logarithm of
the posterior, plus 100000 if a matrix with these correlations has too small an eigenvalue. -/
theorem C307_cost_partial (spl : List ℝ → List ℝ → ℝ → ℝ) (eig : Nat → (Nat → Nat → ℝ) → ℝ) (F : Fitter) (hjk : F.j < F.k)
    (hs : ∀ g ∈ F.gals, g.s1 ≠ 0 ∧ g.s2 ≠ 0) (hp : F.prior ≠ 0) (pars : List ℝ) (s : St) :
    (s.full = none → (cost spl eig F pars s).1 = specNll spl F pars) ∧
    (∀ A, s.full = some A →
      ((∀ i < F.nodes.length, F.minEig ≤ eig F.ncol fun r c => withCorr F.j F.k pars A r c i) →
        (cost spl eig F pars s).1 = specNll spl F pars) ∧
      ((∃ i < F.nodes.length, eig F.ncol (fun r c => withCorr F.j F.k pars A r c i) < F.minEig) →
        (cost spl eig F pars s).1 = specNll spl F pars + 100000)) := by
  have ht : -(((F.gals.zip (setOff spl F pars)).map fun go => logLike F go.1 go.2).sum - (pars.map fun p => 1 / 2 * (p / F.prior) ^ 2).sum) =
      specNll spl F pars := by
    rw [vals_spec spl F hjk hs]
    unfold specNll
    have : (pars.map fun p => 1 / 2 * (p / F.prior) ^ 2) = pars.map fun p => (p / F.prior) ^ 2 / 2 := List.map_congr_left fun p _ => by ring
    rw [this]
    ring
  unfold cost
  simp only
  rw [ht, if_neg hp]
  refine ⟨fun h => by simp [h, wall], fun A hA => ?_⟩
  rw [hA, Option.map_some, setFull_eq F (by omega)]
  unfold wall
  constructor
  · intro h
    rw [if_neg]
    simp only [List.any_eq_true, List.mem_range, decide_eq_true_eq, not_exists, not_and, not_lt]
    exact h
  · intro h
    rw [if_pos]
    simp only [List.any_eq_true, List.mem_range, decide_eq_true_eq]
    exact h

/-- **C307, full statement** on the noise: for any two different colors. -/
def C307_spec : Prop :=
  ∀ (F : Fitter) (g : Gal) (r : ℝ), F.j ≠ F.k → |r| ≤ 9 / 10 → g.s1 ≠ 0 → g.s2 ≠ 0 → logLike F g (r * g.s1 * g.s2) = specLike F.j F.k g r

/-- **C307 fails**: for adjacent colors in the other order the correlation by the common band is missing. -/
theorem C307_false : ¬ C307_spec := by
  intro h
  have := h ⟨[], [], 1, 0, 1, 0, 2⟩ ⟨0, 0, 0, 1, 1, fun _ => 1, 1, 0⟩ 0 (by simp) (by norm_num) (by norm_num) (by norm_num)
  have h1 : colorCov (fun _ => 1) 1 0 = -1 := by rw [colorCov_comm, colorCov_next]; norm_num
  have h2 : colorCov (fun _ => 1) 0 1 = -1 := by rw [colorCov_next]; norm_num
  have hpi := Real.pi_pos
  have hs9 : √(9 : ℝ) = 3 := by rw [show (9 : ℝ) = 3 ^ 2 by norm_num, Real.sqrt_sq (by norm_num)]
  have hl : logLike ⟨[], [], 1, 0, 1, 0, 2⟩ ⟨0, 0, 0, 1, 1, fun _ => 1, 1, 0⟩ (0 * 1 * 1) = Real.log (1 / 3 / (2 * Real.pi)) := by
    unfold logLike noise
    norm_num [hs9]
    intro h
    exact absurd h (not_le.mpr (by positivity))
  have hr : specLike 1 0 ⟨0, 0, 0, 1, 1, fun _ => 1, 1, 0⟩ 0 = Real.log (1 / (2 * Real.pi * √8)) := by
    have hdet : (specCov 1 0 ⟨0, 0, 0, 1, 1, fun _ => 1, 1, 0⟩ 0).det = 8 := by
      unfold specCov
      rw [Matrix.det_fin_two_of, colorCov_self, colorCov_self, h1, h2]
      norm_num
    have hz : (![0, 0] : Fin 2 → ℝ) = 0 := by ext i; fin_cases i <;> rfl
    unfold specLike gauss2
    simp only
    rw [hdet, hz, zero_dotProduct, neg_zero, zero_div, Real.exp_zero, if_pos (by
      have : (0 : ℝ) < √8 := Real.sqrt_pos.mpr (by norm_num)
      simp only [sub_self, zero_mul, add_zero, one_mul]
      positivity)]
    simp
  have this' : Real.log (1 / 3 / (2 * Real.pi)) = Real.log (1 / (2 * Real.pi * √8)) := by rw [← hl, ← hr]; exact this
  have hs8 : (0 : ℝ) < √8 := Real.sqrt_pos.mpr (by norm_num)
  have he := Real.log_injOn_pos (Set.mem_Ioi.mpr (by positivity)) (Set.mem_Ioi.mpr (by positivity)) this'
  have : √8 = 3 := by
    field_simp at he
    linarith
  have := congrArg (· ^ 2) this
  simp only [Real.sq_sqrt (show (0 : ℝ) ≤ 8 by norm_num)] at this
  norm_num at this

/-! ## C308: evaluations and fits -/

/-- The state after evaluations of the cost. -/
noncomputable def after (spl : List ℝ → List ℝ → ℝ → ℝ) (eig : Nat → (Nat → Nat → ℝ) → ℝ) (F : Fitter) (xs : List (List ℝ)) (s : St) : St :=
  xs.foldl (fun s x => (cost spl eig F x s).2) s

/-- Equal up to the correlation of the two colors. -/
def Same (F : Fitter) (A B : Option (Nat → Nat → Nat → ℝ)) : Prop :=
  match A, B with
  | none, none => True
  | some A, some B => ∀ r c i, ¬ ((r = F.j ∧ c = F.k) ∨ (r = F.k ∧ c = F.j)) → A r c i = B r c i
  | _, _ => False

theorem same_refl (F : Fitter) (A : Option (Nat → Nat → Nat → ℝ)) : Same F A A := by
  cases A with
  | none => trivial
  | some A => intro _ _ _ _; rfl

theorem setFull_same (F : Fitter) (hjk : F.j ≠ F.k) (pars : List ℝ) (A B : Option (Nat → Nat → Nat → ℝ)) (h : Same F A B) :
    A.map (setFull F pars) = B.map (setFull F pars) := by
  match A, B, h with
  | none, none, _ => rfl
  | some A, some B, h =>
    simp only [Option.map_some, setFull_eq F hjk]
    congr 1
    funext r c i
    unfold withCorr
    split_ifs with h1
    · rw [h F.j F.j i (by omega), h F.k F.k i (by omega)]
    · exact h r c i h1

theorem map_same (F : Fitter) (hjk : F.j ≠ F.k) (pars : List ℝ) (A B : Option (Nat → Nat → Nat → ℝ)) (h : Same F A B) :
    Same F (A.map (setFull F pars)) B := by
  match A, B, h with
  | none, none, _ => trivial
  | some A, some B, h =>
    simp only [Option.map_some, setFull_eq F hjk]
    intro r c i hn
    unfold withCorr
    rw [if_neg hn]
    exact h r c i hn

theorem cost_same (spl : List ℝ → List ℝ → ℝ → ℝ) (eig : Nat → (Nat → Nat → ℝ) → ℝ) (F : Fitter) (hjk : F.j ≠ F.k) (x : List ℝ) (s t : St)
    (h : Same F s.full t.full) : (cost spl eig F x s).1 = (cost spl eig F x t).1 ∧ Same F (cost spl eig F x s).2.full t.full := by
  constructor
  · unfold cost
    simp only
    rw [setFull_same F hjk x _ _ h]
  · exact map_same F hjk x _ _ h

/-- **C308, evaluations**: the cost of correlations does not depend on what was evaluated before. -/
theorem C308_history (spl : List ℝ → List ℝ → ℝ → ℝ) (eig : Nat → (Nat → Nat → ℝ) → ℝ) (F : Fitter) (hjk : F.j ≠ F.k) (xs : List (List ℝ)) (x : List ℝ)
    (s : St) : (cost spl eig F x (after spl eig F xs s)).1 = (cost spl eig F x s).1 := by
  have : Same F (after spl eig F xs s).full s.full := by
    unfold after
    induction xs using List.reverseRecOn with
    | nil => exact same_refl _ _
    | append_singleton xs y ih =>
      rw [List.foldl_append]
      exact (cost_same spl eig F hjk y _ s ih).2
  exact (cost_same spl eig F hjk x _ s this).1

theorem inBounds_iff (F : Fitter) (x : List ℝ) : InBounds (bounds F) x ↔ x.length = F.nodes.length ∧ ∀ v ∈ x, |v| ≤ 9 / 10 := by
  unfold InBounds bounds
  generalize F.nodes = ns
  induction ns generalizing x with
  | nil =>
    cases x with
    | nil => simp
    | cons a x => simp
  | cons n ns ih =>
    cases x with
    | nil => simp
    | cons a x =>
      simp only [List.map_cons, List.forall₂_cons, ih x, Option.some.injEq, forall_eq', List.length_cons, List.mem_cons, forall_eq_or_imp, abs_le]
      constructor
      · rintro ⟨a, b, c⟩; exact ⟨by omega, a, c⟩
      · rintro ⟨b, a, c⟩; exact ⟨a, by omega, c⟩

/-- **C308, fits**: a fit of the correlation of two different colors returns one correlation per node, between -0.9 and 0.9; if the start is so too,
the cost of the result is not larger; and all other entries of the matrices that were handed over are unchanged. -/
theorem C308_fit (M : Minimizer ℝ) (hM : MinOK M) (spl : List ℝ → List ℝ → ℝ → ℝ) (eig : Nat → (Nat → Nat → ℝ) → ℝ) (F : Fitter) (hjk : F.j ≠ F.k)
    (p0 : List ℝ) (full : Option (Nat → Nat → Nat → ℝ)) (s : St) :
    (fit M spl eig F p0 full s).1.length = F.nodes.length ∧ (∀ v ∈ (fit M spl eig F p0 full s).1, |v| ≤ 9 / 10) ∧
    ((p0.length = F.nodes.length ∧ ∀ v ∈ p0, |v| ≤ 9 / 10) →
      (cost spl eig F (fit M spl eig F p0 full s).1 { s with full := full }).1 ≤ (cost spl eig F p0 { s with full := full }).1) ∧
    Same F (fit M spl eig F p0 full s).2.full full := by
  have hb := (inBounds_iff F _).mp (hM.bounds (bounds F) p0 _
    ⟨F.nodes.map fun _ => 0, (inBounds_iff F _).mpr ⟨by simp, by intro v hv; simp at hv; rw [hv.2]; norm_num⟩⟩
    (run_ends (cost spl eig F) (M (bounds F) p0) { s with full := full }))
  obtain ⟨e, hI⟩ := run_pure (cost spl eig F) (fun x => (cost spl eig F x { s with full := full }).1) (fun t => Same F t.full full)
    (fun x t ht => cost_same spl eig F hjk x t { s with full := full } ht) (M (bounds F) p0) { s with full := full } (same_refl _ _)
  refine ⟨hb.1, hb.2, fun h0 => ?_, hI⟩
  have := hM.le (bounds F) p0 (fun x => (cost spl eig F x { s with full := full }).1) ((inBounds_iff F p0).mpr h0)
  rw [← e] at this
  exact this

/-- The constructor raises an error unless there is one row of each array for every redshift. -/
theorem checks_iff (n : Sizes) : checks n = true ↔ n.d1 = n.z ∧ n.d2 = n.z ∧ n.s1 = n.z ∧ n.s2 = n.z ∧ n.probs = n.z ∧ n.bkgs = n.z ∧
    ∃ m, n.errDims = [n.z, m] := by
  unfold checks
  constructor
  · intro h
    split_ifs at h with h1 h2 h3 h4 h5 h6 h7 h8
    push Not at *
    refine ⟨h1.symm, h2.symm, h3.symm, h4.symm, h5.symm, h6.symm, ?_⟩
    match he : n.errDims, h7, h8 with
    | [a, b], _, h8 =>
      simp at h8
      exact ⟨b, by rw [h8]⟩
  · rintro ⟨h1, h2, h3, h4, h5, h6, m, h7⟩
    simp [*]

/-! ## Minimizers for the examples -/

open Classical in
/-- A minimizer that looks at the start and one other point and returns the start; a point within the bounds if the start is not. -/
noncomputable def stay (c : List ℝ) : Minimizer ℝ := fun b x =>
  .ask x fun _ => .ask c fun _ => .stop (if h : ¬ InBounds b x ∧ ∃ z, InBounds b z then h.2.choose else x)

theorem stay_ok (c : List ℝ) : MinOK (stay c) := by
  classical
  constructor
  · intro b x y hz h
    cases h with
    | ask _ _ a _ h =>
      cases h with
      | ask _ _ a' _ h =>
        cases h
        by_cases hx : InBounds b x
        · rw [dif_neg (fun h => h.1 hx)]; exact hx
        · rw [dif_pos ⟨hx, hz⟩]; exact (⟨hx, hz⟩ : ¬ InBounds b x ∧ ∃ z, InBounds b z).2.choose_spec
  · intro b x f hx
    show f (dite _ _ _) ≤ f x
    rw [dif_neg (fun h => h.1 hx)]

theorem stay_fit (c p0 : List ℝ) (spl : List ℝ → List ℝ → ℝ → ℝ) (eig : Nat → (Nat → Nat → ℝ) → ℝ) (F : Fitter)
    (full : Option (Nat → Nat → Nat → ℝ)) (s : St) (h : InBounds (bounds F) p0) :
    (fit (stay c) spl eig F p0 full s).1 = p0 ∧
      (fit (stay c) spl eig F p0 full s).2.full = (full.map (setFull F p0)).map (setFull F c) := by
  unfold fit stay
  simp only [run]
  rw [dif_neg (fun h' => h'.1 h)]
  exact ⟨rfl, rfl⟩

/-! ## C309: the matrices after a fit -/

/-- **C309, full statement**: after a fit the matrices handed to it are as before, or have the correlations that are returned. -/
def C309_spec : Prop :=
  ∀ (M : Minimizer ℝ) (_ : MinOK M) (spl : List ℝ → List ℝ → ℝ → ℝ) (eig : Nat → (Nat → Nat → ℝ) → ℝ) (F : Fitter) (_ : F.j ≠ F.k) (p0 : List ℝ)
    (A B : Nat → Nat → Nat → ℝ) (s : St), (fit M spl eig F p0 (some A) s).2.full = some B →
    B = A ∨ B = withCorr F.j F.k (fit M spl eig F p0 (some A) s).1 A

/-- **C309 fails**: they have the correlations that were looked at last. -/
theorem C309_false : ¬ C309_spec := by
  intro h
  have hb : InBounds (bounds ⟨[1 / 2], [], 0, 1, 1, 0, 2⟩) [0] := (inBounds_iff _ _).mpr ⟨rfl, by simp; norm_num⟩
  obtain ⟨h1, h2⟩ := stay_fit [1 / 2] [0] (fun _ _ _ => 0) (fun _ _ => 0) ⟨[1 / 2], [], 0, 1, 1, 0, 2⟩
    (some fun r c _ => if r = c then 1 else 1 / 5) ⟨[], none⟩ hb
  have hB : setFull ⟨[1 / 2], [], 0, 1, 1, 0, 2⟩ [1 / 2] (setFull ⟨[1 / 2], [], 0, 1, 1, 0, 2⟩ [0] fun r c _ => if r = c then 1 else 1 / 5) 0 1 0 =
      1 / 2 := by
    norm_num [setFull]
  rcases h (stay [1 / 2]) (stay_ok _) (fun _ _ _ => 0) (fun _ _ => 0) ⟨[1 / 2], [], 0, 1, 1, 0, 2⟩ (by simp) [0]
    (fun r c _ => if r = c then 1 else 1 / 5) _ ⟨[], none⟩ h2 with e | e
  · rw [e] at hB
    norm_num at hB
  · have := hB
    rw [e, h1] at this
    norm_num [withCorr] at this

/-- **C309, the part that holds**: the matrices have correlations that were looked at, or are untouched; everything else is as before. -/
theorem C309_partial (M : Minimizer ℝ) (spl : List ℝ → List ℝ → ℝ → ℝ) (eig : Nat → (Nat → Nat → ℝ) → ℝ) (F : Fitter) (hjk : F.j ≠ F.k) (p0 : List ℝ)
    (A B : Nat → Nat → Nat → ℝ) (s : St) (h : (fit M spl eig F p0 (some A) s).2.full = some B) :
    B = A ∨ ∃ x, B = withCorr F.j F.k x A := by
  have key : ∀ (p : Script ℝ) (t : St), (t.full = some A ∨ ∃ x, t.full = some (withCorr F.j F.k x A)) →
      ((run (cost spl eig F) p t).2.full = some A ∨ ∃ x, (run (cost spl eig F) p t).2.full = some (withCorr F.j F.k x A)) := by
    intro p
    induction p with
    | stop x => intro t ht; exact ht
    | ask x next ih =>
      intro t ht
      apply ih
      right
      refine ⟨x, ?_⟩
      have hsame : Same F t.full (some A) := by
        rcases ht with e | ⟨y, e⟩
        · rw [e]; exact same_refl _ _
        · rw [e]
          intro r c i hn
          unfold withCorr
          rw [if_neg hn]
      show t.full.map (setFull F x) = _
      rw [setFull_same F hjk x _ _ hsame, Option.map_some, setFull_eq F hjk]
  rcases key (M (bounds F) p0) { s with full := some A } (Or.inl rfl) with e | ⟨x, e⟩
  · left
    have := h.symm.trans e
    simpa using this
  · right
    refine ⟨x, ?_⟩
    have := h.symm.trans e
    simpa using this

/-! ## C310: the eigenvalues of the matrices -/

/-- The value of a quadratic form. -/
def form (n : Nat) (B : Nat → Nat → ℝ) (v : Nat → ℝ) : ℝ := ((List.range n).map fun r => ((List.range n).map fun c => v r * B r c * v c).sum).sum

/-- The squared length of a vector. -/
def sq (n : Nat) (v : Nat → ℝ) : ℝ := ((List.range n).map fun r => v r ^ 2).sum

/-- Contract of `np.min(np.linalg.eigvalsh(B))`: for a symmetric matrix, the smallest value of the form on vectors of length one. -/
def EigOK (eig : Nat → (Nat → Nat → ℝ) → ℝ) : Prop :=
  ∀ (n : Nat) (B : Nat → Nat → ℝ), 0 < n → (∀ r c, B r c = B c r) →
    (∀ v, eig n B * sq n v ≤ form n B v) ∧ ∃ v, sq n v ≠ 0 ∧ form n B v = eig n B * sq n v

/-- No eigenvalue of the matrices of the nodes is below the minimum. -/
def Admissible (F : Fitter) (A : Nat → Nat → Nat → ℝ) (x : List ℝ) : Prop :=
  ∀ i < F.nodes.length, ∀ v, F.minEig * sq F.ncol v ≤ form F.ncol (fun r c => withCorr F.j F.k x A r c i) v

/-- **C310, full statement**: if there are correlations for which no eigenvalue is too small, the fit returns such. -/
def C310_spec : Prop :=
  ∀ (M : Minimizer ℝ) (_ : MinOK M) (spl : List ℝ → List ℝ → ℝ → ℝ) (eig : Nat → (Nat → Nat → ℝ) → ℝ) (_ : EigOK eig) (F : Fitter) (_ : F.j < F.k)
    (_ : F.k < F.ncol) (A : Nat → Nat → Nat → ℝ) (_ : ∀ r c i, A r c i = A c r i) (p0 : List ℝ) (_ : InBounds (bounds F) p0) (s : St),
    (∃ x, InBounds (bounds F) x ∧ Admissible F A x) → Admissible F A (fit M spl eig F p0 (some A) s).1

theorem sq_nonneg' (n : Nat) (v : Nat → ℝ) : 0 ≤ sq n v := by
  apply List.sum_nonneg
  intro x hx
  obtain ⟨r, _, rfl⟩ := List.mem_map.mp hx
  positivity

theorem eig_lt (eig : Nat → (Nat → Nat → ℝ) → ℝ) (he : EigOK eig) (n : Nat) (hn : 0 < n) (B : Nat → Nat → ℝ) (hB : ∀ r c, B r c = B c r) (m : ℝ) :
    m ≤ eig n B ↔ ∀ v, m * sq n v ≤ form n B v := by
  obtain ⟨h1, v, h2, h3⟩ := he n B hn hB
  have hv : 0 < sq n v := lt_of_le_of_ne (sq_nonneg' n v) (Ne.symm h2)
  constructor
  · intro h w
    exact le_trans (mul_le_mul_of_nonneg_right h (sq_nonneg' n w)) (h1 w)
  · intro h
    have := h v
    rw [h3] at this
    exact le_of_mul_le_mul_right this hv

theorem withCorr_symm (j k : Nat) (x : List ℝ) (A : Nat → Nat → Nat → ℝ) (hA : ∀ r c i, A r c i = A c r i) (r c i : Nat) :
    withCorr j k x A r c i = withCorr j k x A c r i := by
  unfold withCorr
  by_cases h : (r = j ∧ c = k) ∨ (r = k ∧ c = j)
  · rw [if_pos h, if_pos (by tauto)]
  · rw [if_neg h, if_neg (by tauto), hA]

/-- **C310, the part that holds**: if no eigenvalue is too small at the start, and no correlations are more likely than the start by the penalty of
100000, no eigenvalue is too small for the correlations that are returned. -/
theorem C310_partial (M : Minimizer ℝ) (hM : MinOK M) (spl : List ℝ → List ℝ → ℝ → ℝ) (eig : Nat → (Nat → Nat → ℝ) → ℝ) (he : EigOK eig)
    (F : Fitter) (hjk : F.j < F.k) (hn : F.k < F.ncol) (hs : ∀ g ∈ F.gals, g.s1 ≠ 0 ∧ g.s2 ≠ 0) (hp : F.prior ≠ 0)
    (A : Nat → Nat → Nat → ℝ) (hA : ∀ r c i, A r c i = A c r i) (p0 : List ℝ) (hb : InBounds (bounds F) p0) (s : St) (h0 : Admissible F A p0)
    (hl : ∀ x, InBounds (bounds F) x → specNll spl F p0 < specNll spl F x + 100000) :
    Admissible F A (fit M spl eig F p0 (some A) s).1 := by
  obtain ⟨h1, h2, h3, -⟩ := C308_fit M hM spl eig F (by omega) p0 (some A) s
  have hle := h3 ((inBounds_iff F p0).mp hb)
  have hx := (inBounds_iff F _).mpr ⟨h1, h2⟩
  generalize (fit M spl eig F p0 (some A) s).1 = x at *
  have hadm : ∀ y, Admissible F A y ↔ ∀ i < F.nodes.length, F.minEig ≤ eig F.ncol fun r c => withCorr F.j F.k y A r c i := by
    intro y
    refine forall_congr' fun i => forall_congr' fun _ => ?_
    exact (eig_lt eig he F.ncol (by omega) _ (fun r c => withCorr_symm _ _ _ _ hA r c i) F.minEig).symm
  by_contra hc
  have c0 := (C307_cost_partial spl eig F hjk hs hp p0 { s with full := some A }).2 A rfl
  have c1 := (C307_cost_partial spl eig F hjk hs hp x { s with full := some A }).2 A rfl
  rw [c0.1 ((hadm p0).mp h0), c1.2 (by
    rw [hadm] at hc
    push Not at hc
    exact hc)] at hle
  have := hl x hx
  linarith

/-- A smallest eigenvalue exists: the contract can be met. -/
theorem eigOK_exists : ∃ eig, EigOK eig := by
  have key : ∀ (n : Nat) (B : Nat → Nat → ℝ), 0 < n → ∃ m, (∀ v, m * sq n v ≤ form n B v) ∧ ∃ v, sq n v ≠ 0 ∧ form n B v = m * sq n v := by
    intro n B hn
    have hsum : ∀ (m : Nat) (f : Nat → ℝ), ((List.range m).map f).sum = ∑ i ∈ Finset.range m, f i := by
      intro m f
      induction m with
      | zero => simp
      | succ m ih => rw [List.range_succ, Finset.sum_range_succ, List.map_append, List.sum_append, ih]; simp
    have hform : ∀ v, form n B v = ∑ r ∈ Finset.range n, ∑ c ∈ Finset.range n, v r * B r c * v c := by
      intro v
      unfold form
      rw [hsum]
      exact Finset.sum_congr rfl fun r _ => hsum n _
    have hsq : ∀ v, sq n v = ∑ r ∈ Finset.range n, v r ^ 2 := fun v => hsum n _
    let ext : EuclideanSpace ℝ (Fin n) → Nat → ℝ := fun w r => if h : r < n then w ⟨r, h⟩ else 0
    have hext : ∀ r, Continuous fun w => ext w r := by
      intro r
      by_cases h : r < n
      · simp only [ext, dif_pos h]; fun_prop
      · simp only [ext, dif_neg h]; exact continuous_const
    have hcont : Continuous fun w => form n B (ext w) := by
      simp only [hform]
      exact continuous_finsetSum _ fun r _ => continuous_finsetSum _ fun c _ => ((hext r).mul continuous_const).mul (hext c)
    have hnorm : ∀ w, sq n (ext w) = ‖w‖ ^ 2 := by
      intro w
      rw [hsq, EuclideanSpace.real_norm_sq_eq, Finset.sum_range]
      refine Finset.sum_congr rfl fun i _ => ?_
      simp [ext]
    have hne : (Metric.sphere (0 : EuclideanSpace ℝ (Fin n)) 1).Nonempty := by
      refine ⟨EuclideanSpace.single ⟨0, hn⟩ 1, ?_⟩
      simp
    obtain ⟨w0, hw0, hmin⟩ := (isCompact_sphere (0 : EuclideanSpace ℝ (Fin n)) 1).exists_isMinOn hne hcont.continuousOn
    have hw1 : sq n (ext w0) = 1 := by
      rw [hnorm, mem_sphere_zero_iff_norm.mp hw0]; norm_num
    refine ⟨form n B (ext w0), fun v => ?_, ext w0, by rw [hw1]; norm_num, by rw [hw1, mul_one]⟩
    by_cases hv : sq n v = 0
    · have : ∀ r < n, v r = 0 := by
        rw [hsq, Finset.sum_eq_zero_iff_of_nonneg (fun _ _ => sq_nonneg _)] at hv
        intro r hr
        exact pow_eq_zero_iff (two_ne_zero) |>.mp (hv r (Finset.mem_range.mpr hr))
      rw [hv, hform v, Finset.sum_eq_zero]
      · simp
      · intro r hr
        exact Finset.sum_eq_zero fun c _ => by rw [this r (Finset.mem_range.mp hr)]; ring
    · have hpos : 0 < sq n v := lt_of_le_of_ne (sq_nonneg' n v) (Ne.symm hv)
      have hs : 0 < √(sq n v) := Real.sqrt_pos.mpr hpos
      have hss : √(sq n v) ^ 2 = sq n v := Real.sq_sqrt hpos.le
      let w : EuclideanSpace ℝ (Fin n) := WithLp.toLp 2 fun i => v i / √(sq n v)
      have hw : ∀ r < n, ext w r = v r / √(sq n v) := by
        intro r hr
        simp [ext, hr, w]
      have h1 : sq n (ext w) = 1 := by
        have : ∑ r ∈ Finset.range n, ext w r ^ 2 = (∑ r ∈ Finset.range n, v r ^ 2) / sq n v := by
          rw [Finset.sum_div]
          refine Finset.sum_congr rfl fun r hr => ?_
          rw [hw r (Finset.mem_range.mp hr), div_pow, hss]
        rw [hsq, this, ← hsq, div_self hv]
      have h2 : form n B (ext w) = form n B v / sq n v := by
        rw [hform, hform, Finset.sum_div]
        refine Finset.sum_congr rfl fun r hr => ?_
        rw [Finset.sum_div]
        refine Finset.sum_congr rfl fun c hc => ?_
        rw [hw r (Finset.mem_range.mp hr), hw c (Finset.mem_range.mp hc)]
        nth_rewrite 3 [← hss]
        field_simp
      have hmem : w ∈ Metric.sphere (0 : EuclideanSpace ℝ (Fin n)) 1 := by
        rw [mem_sphere_zero_iff_norm]
        have := hnorm w
        rw [h1] at this
        exact (sq_eq_sq₀ (norm_nonneg _) (by norm_num)).mp (by rw [← this]; norm_num)
      have := hmin hmem
      simp only [Set.mem_ofPred_eq] at this
      rw [h2, le_div_iff₀ hpos] at this
      exact this
  classical
  refine ⟨fun n B => if h : 0 < n then (key n B h).choose else 0, ?_⟩
  intro n B hn _
  simp only [dif_pos hn]
  exact (key n B hn).choose_spec

/-- **C310 fails**: the fit may return its start whose matrix has too small an eigenvalue, although zero would do. -/
theorem C310_false : ¬ C310_spec := by
  intro h
  obtain ⟨eig, he⟩ := eigOK_exists
  have hb : InBounds (bounds ⟨[1 / 2], [], 0, 1, 1, 1 / 2, 2⟩) [9 / 10] := (inBounds_iff _ _).mpr ⟨rfl, by simp; norm_num⟩
  have h1 := (stay_fit [] [9 / 10] (fun _ _ _ => 0) eig ⟨[1 / 2], [], 0, 1, 1, 1 / 2, 2⟩ (some fun r c _ => if r = c then 1 else 0) ⟨[], none⟩ hb).1
  have := h (stay []) (stay_ok _) (fun _ _ _ => 0) eig he ⟨[1 / 2], [], 0, 1, 1, 1 / 2, 2⟩ (by simp) (by simp)
    (fun r c _ => if r = c then 1 else 0) (fun r c _ => by simp only [eq_comm]) [9 / 10] hb ⟨[], none⟩ ⟨[0], (inBounds_iff _ _).mpr ⟨rfl, by simp; norm_num⟩, by
      intro i hi v
      have : i = 0 := by simpa using hi
      subst this
      simp [form, sq, List.range_succ, withCorr]
      nlinarith [sq_nonneg (v 0), sq_nonneg (v 1)]⟩
  rw [h1] at this
  have := this 0 (by simp) (fun r => if r = 0 then 1 else -1)
  simp [form, sq, List.range_succ, withCorr] at this
  norm_num at this

/-- A galaxy for the examples. -/
noncomputable def exGal : Gal := ⟨1 / 2, 0, 0, 1, 1, fun _ => 1 / 10, 1 / 2, 1⟩

noncomputable def exF : Fitter := ⟨[1 / 2], [exGal], 0, 1, 1, 1 / 20, 2⟩

/-- The likelihood of the galaxy is moderate for all correlations. -/
theorem exGal_like (r : ℝ) (hr : |r| ≤ 9 / 10) : -1 ≤ specLike 0 1 exGal r ∧ specLike 0 1 exGal r ≤ 1 := by
  have hd := det_ge 0 1 (by norm_num) exGal r hr
  have hd' : (4 / 10 : ℝ) ≤ √(specCov 0 1 exGal r).det := by
    apply Real.le_sqrt_of_sq_le
    refine le_trans ?_ hd
    norm_num [exGal]
  have hz : (![exGal.d1, exGal.d2] : Fin 2 → ℝ) = 0 := by ext i; fin_cases i <;> rfl
  have hg : gauss2 (specCov 0 1 exGal r) ![exGal.d1, exGal.d2] = 1 / (2 * Real.pi * √(specCov 0 1 exGal r).det) := by
    unfold gauss2
    rw [hz, zero_dotProduct, neg_zero, zero_div, Real.exp_zero]
  have hg0 : 0 < gauss2 (specCov 0 1 exGal r) ![exGal.d1, exGal.d2] := by
    rw [hg]
    have := Real.pi_pos
    positivity
  have hg1 : gauss2 (specCov 0 1 exGal r) ![exGal.d1, exGal.d2] ≤ 1 := by
    rw [hg, div_le_one (by have := Real.pi_pos; positivity)]
    have := Real.pi_gt_three
    nlinarith
  have hp : exGal.prob = 1 / 2 := rfl
  have hk : exGal.bkg = 1 := rfl
  unfold specLike
  simp only
  rw [hp, hk, if_pos (by linarith)]
  generalize gauss2 (specCov 0 1 exGal r) ![exGal.d1, exGal.d2] = y at *
  constructor
  · have h1 := Real.log_le_log (show (0 : ℝ) < 1 / 2 by norm_num) (show (1 / 2 : ℝ) ≤ 1 / 2 * y + (1 - 1 / 2) * 1 by linarith)
    have h2 := Real.one_sub_inv_le_log_of_pos (show (0 : ℝ) < 1 / 2 by norm_num)
    norm_num at h2 h1 ⊢
    linarith
  · have := Real.log_le_sub_one_of_pos (show (0 : ℝ) < 1 / 2 * y + (1 - 1 / 2) * 1 by linarith)
    linarith

/-- The hypotheses of `C310_partial` can be met: one galaxy, the unit matrix, a start of one half. -/
example : exF.j < exF.k ∧ exF.k < exF.ncol ∧ (∀ g ∈ exF.gals, g.s1 ≠ 0 ∧ g.s2 ≠ 0) ∧ exF.prior ≠ 0 ∧ InBounds (bounds exF) [1 / 2] ∧
    Admissible exF (fun r c _ => if r = c then 1 else 0) [1 / 2] ∧
    ∀ x, InBounds (bounds exF) x → specNll (fun _ v _ => v.getD 0 0) exF [1 / 2] < specNll (fun _ v _ => v.getD 0 0) exF x + 100000 := by
  refine ⟨by norm_num [exF], by norm_num [exF], ?_, by norm_num [exF], (inBounds_iff _ _).mpr ⟨rfl, ?_⟩, ?_, ?_⟩
  · intro g hg
    simp only [exF, List.mem_singleton] at hg
    rw [hg]
    norm_num [exGal]
  · intro v hv
    rw [List.mem_singleton.mp hv]
    norm_num [abs_le]
  · intro i hi v
    have : i = 0 := by simpa [exF] using hi
    subst this
    simp [form, sq, List.range_succ, withCorr, exF]
    nlinarith [sq_nonneg (v 0 + v 1), sq_nonneg (v 0), sq_nonneg (v 1)]
  · intro x hx
    obtain ⟨h1, h2⟩ := (inBounds_iff _ _).mp hx
    match x, h1 with
    | [y], _ =>
      have hy := h2 y (by simp)
      have hclip : ∀ t : ℝ, |max (-(9 / 10)) (min (9 / 10) t)| ≤ 9 / 10 := fun t => by rw [← clip9_eq]; exact clip9_abs t
      have e1 := exGal_like _ (hclip (1 / 2))
      have e2 := exGal_like _ (hclip y)
      simp only [specNll, exF, List.map_cons, List.map_nil, List.sum_cons, List.sum_nil, List.getD_cons_zero, div_one]
      nlinarith [e1.1, e2.2, sq_nonneg y]

end Redmapper.OffDiag
