/-
How a covariance that is not positive definite is repaired: C409.
-/
import Verif.Props.Chisq
import Mathlib.Tactic

set_option linter.unusedSectionVars false

namespace Redmapper.Chisq

variable {α : Type} [Field α] [LinearOrder α] [IsStrictOrderedRing α] {n : Nat}

open Matrix

/-! ## C409: the repair keeps directions -/

/-- What users expect of the repair: along a direction in which the covariance has the variance `v`, chi-squared is that of the variance `v`, but at least 1e-6. -/
def C409_spec (lib : Lib n α) : Prop :=
  ∀ (np : Bool) (sigint : α) (cov : Matrix (Fin n) (Fin n) α) (e : Fin (n + 1) → α) (s : Fin n → α) (re : α) (d : Fin n → α) (v : α), cov.IsSymm →
    (∀ j, sigint * sigint ≤ cov j j) → totalCov np cov e s re *ᵥ d = v • d →
    cell lib ⟨true, np, sigint⟩ cov e s re d = (d ⬝ᵥ d) / max v (1 / 1000000)

/-- The two routines list the eigenvalues in the same order. -/
def SameOrder (lib : Lib n α) : Prop :=
  ∀ A : Matrix (Fin n) (Fin n) α, A.IsSymm → (lib.vecs A)ᵀ * lib.vecs A = 1 ∧ A = lib.vecs A * Matrix.diagonal (lib.eig A) * (lib.vecs A)ᵀ

theorem fix_spectral (lib : Lib n α) (hl : LibOK lib) (ho : SameOrder lib) (A : Matrix (Fin n) (Fin n) α) (hA : A.IsSymm) :
    checkAndFix lib A = lib.vecs A * Matrix.diagonal (fun i => max (lib.eig A i) minEigenval) * (lib.vecs A)ᵀ := by
  obtain ⟨h2, h3⟩ := ho A hA
  have hu : IsUnit (lib.vecs A) := ⟨⟨lib.vecs A, (lib.vecs A)ᵀ, mul_eq_one_comm.mp h2, h2⟩, rfl⟩
  have hinv : lib.inv (lib.vecs A) = (lib.vecs A)ᵀ := by
    have := hl.inv_ok _ hu
    calc lib.inv (lib.vecs A) = ((lib.vecs A)ᵀ * lib.vecs A) * lib.inv (lib.vecs A) := by rw [h2, one_mul]
      _ = (lib.vecs A)ᵀ := by rw [mul_assoc, this, mul_one]
  unfold checkAndFix
  by_cases h : ∃ i, lib.eig A i < minEigenval
  · rw [if_pos h, hinv]
    congr 3
    funext i
    by_cases hi : lib.eig A i < minEigenval
    · rw [if_pos hi, max_eq_right hi.le]
    · rw [if_neg hi, max_eq_left (not_lt.mp hi)]
  · rw [if_neg h]
    have : (fun i => max (lib.eig A i) minEigenval) = lib.eig A := by
      funext i
      exact max_eq_left (not_lt.mp fun hc => h ⟨i, hc⟩)
    rw [this]
    exact h3

theorem fix_eigen (lib : Lib n α) (hl : LibOK lib) (ho : SameOrder lib) (A : Matrix (Fin n) (Fin n) α) (hA : A.IsSymm) (d : Fin n → α) (v : α) (hd : A *ᵥ d = v • d) :
    checkAndFix lib A *ᵥ d = max v minEigenval • d := by
  rw [fix_spectral lib hl ho A hA]
  obtain ⟨h2, h3⟩ := ho A hA
  set Q := lib.vecs A
  have h2' : Q * Qᵀ = 1 := mul_eq_one_comm.mp h2
  have hy : ∀ i, lib.eig A i * (Qᵀ *ᵥ d) i = v * (Qᵀ *ᵥ d) i := by
    intro i
    have e1 : Qᵀ *ᵥ (A *ᵥ d) = Matrix.diagonal (lib.eig A) *ᵥ (Qᵀ *ᵥ d) := by
      conv_lhs => rw [h3]
      rw [Matrix.mulVec_mulVec, Matrix.mulVec_mulVec, ← Matrix.mul_assoc, ← Matrix.mul_assoc, h2, Matrix.one_mul]
    rw [hd, Matrix.mulVec_smul] at e1
    have := congrFun e1 i
    rw [Matrix.mulVec_diagonal] at this
    rw [← this]
    rfl
  have e2 : Matrix.diagonal (fun i => max (lib.eig A i) minEigenval) *ᵥ (Qᵀ *ᵥ d) = max v minEigenval • (Qᵀ *ᵥ d) := by
    funext i
    rw [Matrix.mulVec_diagonal]
    show _ = max v minEigenval * (Qᵀ *ᵥ d) i
    rcases eq_or_ne ((Qᵀ *ᵥ d) i) 0 with h0 | h0
    · rw [h0, mul_zero, mul_zero]
    · rw [mul_right_cancel₀ h0 (hy i)]
  rw [← Matrix.mulVec_mulVec, ← Matrix.mulVec_mulVec, e2, Matrix.mulVec_smul, Matrix.mulVec_mulVec, h2', Matrix.one_mulVec]

/-- **C409.** If the two eigenvalue routines list the eigenvalues in the same order, the repair of the covariance only raises the variances below 1e-6 to 1e-6: along a direction in
which the total covariance has the variance `v`, chi-squared is the squared distance over the greater of `v` and 1e-6. -/
theorem C409_partial (lib : Lib n α) (hl : LibOK lib) (ho : SameOrder lib) : C409_spec lib := by
  intro np sigint cov e s re d v hc hsig hd
  have hcell : cell lib ⟨true, np, sigint⟩ cov e s re d = chisqOf lib (totalCov np cov e s re) d := by
    unfold cell
    rw [if_neg (by rintro ⟨j, hj⟩; exact absurd hj (not_lt.mpr (hsig j)))]
    simp
  have hA := totalCov_symm np cov hc e s re
  have hm : 0 < max v (minEigenval : α) := lt_of_lt_of_le minEigenval_pos (le_max_right _ _)
  have hf := fix_eigen lib hl ho _ hA d v hd
  have hu := isUnit_of_quad _ _ minEigenval_pos (fix_quad lib hl _ hA)
  -- the solution is `d` over the variance
  have hx : lib.inv (checkAndFix lib (totalCov np cov e s re)) *ᵥ d = (max v minEigenval)⁻¹ • d := by
    have hinv := hl.inv_ok _ hu
    have hleft := mul_eq_one_comm.mp hinv
    calc lib.inv (checkAndFix lib (totalCov np cov e s re)) *ᵥ d
        = lib.inv (checkAndFix lib (totalCov np cov e s re)) *ᵥ ((max v minEigenval)⁻¹ • (checkAndFix lib (totalCov np cov e s re) *ᵥ d)) := by
          rw [hf, smul_smul, inv_mul_cancel₀ hm.ne', one_smul]
      _ = (max v minEigenval)⁻¹ • d := by
          rw [Matrix.mulVec_smul, Matrix.mulVec_mulVec, hleft, Matrix.one_mulVec]
  have h6 : (1 / 1000000 : α) = minEigenval := rfl
  rw [hcell, h6]
  unfold chisqOf
  rw [hx, smul_dotProduct, smul_eq_mul, inv_mul_eq_div]

/-- Such routines exist. -/
example (n : Nat) : ∃ lib : Lib n ℝ, LibOK lib ∧ SameOrder lib := by
  classical
  have key : ∀ A : Matrix (Fin n) (Fin n) ℝ, A.IsSymm → ∃ (h : A.IsHermitian),
      ((h.eigenvectorUnitary : Matrix (Fin n) (Fin n) ℝ))ᵀ * (h.eigenvectorUnitary : Matrix (Fin n) (Fin n) ℝ) = 1 ∧
      A = (h.eigenvectorUnitary : Matrix (Fin n) (Fin n) ℝ) * Matrix.diagonal h.eigenvalues * ((h.eigenvectorUnitary : Matrix (Fin n) (Fin n) ℝ))ᵀ := by
    intro A hA
    have hH : A.IsHermitian := by
      unfold Matrix.IsHermitian
      rw [Matrix.conjTranspose_eq_transpose_of_trivial]
      exact hA
    refine ⟨hH, ?_, ?_⟩
    · have := Matrix.mem_unitaryGroup_iff'.mp hH.eigenvectorUnitary.2
      rw [Matrix.star_eq_conjTranspose, Matrix.conjTranspose_eq_transpose_of_trivial] at this
      exact this
    · have := hH.spectral_theorem
      rw [Unitary.conjStarAlgAut_apply] at this
      conv_lhs => rw [this]
      rw [Matrix.star_eq_conjTranspose, Matrix.conjTranspose_eq_transpose_of_trivial]
      rfl
  let lib : Lib n ℝ := ⟨fun A => if h : A.IsHermitian then h.eigenvalues else fun _ => 0,
    fun A => if h : A.IsHermitian then (h.eigenvectorUnitary : Matrix (Fin n) (Fin n) ℝ) else 1, fun A => A⁻¹, fun A => A.det, fun x => x⟩
  have hs : SameOrder lib := by
    intro A hA
    obtain ⟨h, h1, h2⟩ := key A hA
    have e1 : lib.vecs A = (h.eigenvectorUnitary : Matrix (Fin n) (Fin n) ℝ) := dif_pos h
    have e2 : lib.eig A = h.eigenvalues := dif_pos h
    rw [e1, e2]
    exact ⟨h1, h2⟩
  refine ⟨lib, ⟨fun M hM => Matrix.mul_nonsing_inv M ((Matrix.isUnit_iff_isUnit_det M).mp hM), fun A hA => ⟨lib.eig A, 1, fun i => rfl, (hs A hA).1, (hs A hA).2⟩⟩, hs⟩

/-! ### Routines with different orders -/

noncomputable def exA : Matrix (Fin 2) (Fin 2) ℝ := !![29 / 25, 72 / 25; 72 / 25, 71 / 25]
noncomputable def exQ : Matrix (Fin 2) (Fin 2) ℝ := !![3 / 5, -4 / 5; 4 / 5, 3 / 5]

theorem exQ_orth : exQᵀ * exQ = 1 := by
  ext i j
  fin_cases i <;> fin_cases j <;> norm_num [exQ, Matrix.mul_apply, Fin.sum_univ_two]

theorem diag2 (a b : ℝ) : Matrix.diagonal ![a, b] = !![a, 0; 0, b] := by
  ext i j
  fin_cases i <;> fin_cases j <;> simp

theorem exA_eq : exA = exQ * Matrix.diagonal ![5, -1] * exQᵀ := by
  rw [diag2]
  ext i j
  fin_cases i <;> fin_cases j <;> norm_num [exA, exQ, Matrix.mul_apply, Fin.sum_univ_two]

theorem exA_symm : exA.IsSymm := by
  ext i j
  fin_cases i <;> fin_cases j <;> rfl

/-- **C409** is false of the routines as they are documented, with eigenvalues in no particular order: the covariance of two colors with the variances 5 along (3, 4) and -1 across gets the
variances 1e-6 along (3, 4) and 5 across. -/
theorem C409_false : ¬ ∀ lib : Lib 2 ℝ, LibOK lib → C409_spec lib := by
  classical
  intro h
  obtain ⟨lib0, h0⟩ := LibOK_exists 2
  let lib : Lib 2 ℝ := { lib0 with
    eig := fun M => if M = exA then ![-1, 5] else lib0.eig M
    vecs := fun M => if M = exA then exQ else lib0.vecs M }
  have he : lib.eig exA = ![-1, 5] := if_pos rfl
  have hv : lib.vecs exA = exQ := if_pos rfl
  have hl : LibOK lib := by
    refine ⟨h0.inv_ok, ?_⟩
    intro M hM
    by_cases hMA : M = exA
    · subst hMA
      refine ⟨![5, -1], Equiv.swap 0 1, ?_, ?_, ?_⟩
      · intro i
        rw [he]
        fin_cases i <;> simp
      · rw [hv]; exact exQ_orth
      · rw [hv]; exact exA_eq
    · have e1 : lib.eig M = lib0.eig M := if_neg hMA
      have e2 : lib.vecs M = lib0.vecs M := if_neg hMA
      rw [e1, e2]
      exact h0.spectral M hM
  have ht : totalCov true exA (fun _ => 0) (fun _ => 0) 0 = exA := by
    unfold totalCov cimat
    ext i j
    show exA i j + _ = exA i j
    simp
  have hd : exA *ᵥ ![3, 4] = (5 : ℝ) • ![3, 4] := by
    funext i
    fin_cases i <;> norm_num [exA, Matrix.mulVec, dotProduct, Fin.sum_univ_two]
  have hsig : ∀ j, (0 : ℝ) * 0 ≤ exA j j := by
    intro j
    fin_cases j <;> norm_num [exA]
  have := h lib hl true 0 exA (fun _ => 0) (fun _ => 0) 0 ![3, 4] 5 exA_symm hsig (by rw [ht]; exact hd)
  have hcell : cell lib ⟨true, true, 0⟩ exA (fun _ => 0) (fun _ => 0) 0 ![3, 4] = chisqOf lib exA ![3, 4] := by
    unfold cell
    rw [if_neg (by rintro ⟨j, hj⟩; exact absurd hj (not_lt.mpr (hsig j))), ht]
    simp
  rw [hcell] at this
  obtain ⟨x, hx, hval, -⟩ := chisqOf_solve lib hl exA exA_symm ![3, 4]
  rw [hval] at this
  have hinv : lib.inv exQ = exQᵀ := by
    have hu : IsUnit exQ := ⟨⟨exQ, exQᵀ, mul_eq_one_comm.mp exQ_orth, exQ_orth⟩, rfl⟩
    have := hl.inv_ok _ hu
    calc lib.inv exQ = (exQᵀ * exQ) * lib.inv exQ := by rw [exQ_orth, one_mul]
      _ = exQᵀ := by rw [mul_assoc, this, mul_one]
  have hfix : checkAndFix lib exA = exQ * Matrix.diagonal ![1 / 1000000, 5] * exQᵀ := by
    unfold checkAndFix
    rw [if_pos ⟨0, by rw [he]; norm_num [minEigenval]⟩, hv, hinv, he]
    congr 3
    funext i
    fin_cases i <;> norm_num [minEigenval]
  rw [hfix, diag2] at hx
  have h1 := congrFun hx 0
  have h2 := congrFun hx 1
  norm_num [exQ, Matrix.mulVec, dotProduct, Fin.sum_univ_two, Matrix.mul_apply] at h1 h2
  norm_num [dotProduct, Fin.sum_univ_two, minEigenval] at this
  linarith

end Redmapper.Chisq
