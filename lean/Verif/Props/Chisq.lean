/-
Properties of the chi-squared computation: C58, C59, C60, C108, C109.
-/
import Verif.Model.Chisq
import Mathlib.Tactic.Linarith
import Mathlib.Tactic.Ring
import Mathlib.Tactic.NormNum
import Mathlib.Algebra.BigOperators.Fin
import Mathlib.Algebra.Order.BigOperators.Ring.Finset
import Mathlib.LinearAlgebra.Matrix.Symmetric
import Mathlib.LinearAlgebra.Matrix.NonsingularInverse
import Mathlib.LinearAlgebra.Matrix.ToLin
import Mathlib.Analysis.Matrix.Spectrum

set_option linter.unusedSectionVars false

namespace Redmapper.Chisq

variable {α : Type} [Field α] [LinearOrder α] [IsStrictOrderedRing α] {n : Nat}

open Matrix

/-! ## C58 -/

/-- A galaxy. -/
structure Gal (n : Nat) (α : Type) where
  refmag : α
  refmagerr : α
  magerr : Fin (n + 1) → α
  color : Fin n → α

/-- The red sequence at one redshift. -/
structure Row (n : Nat) (α : Type) where
  cov : Matrix (Fin n) (Fin n) α
  c : Fin n → α
  slope : Fin n → α
  pivotmag : α

/-- Entry `i` of a mode 0 call is this galaxy at this redshift: the documented array shapes. -/
def Packed0 (b : Buf α) (i : Nat) (g : Gal n α) (r : Row n α) (l : Fin n → α) : Prop :=
  (∀ j k : Fin n, b.covmat (j * n + k) = r.cov j k) ∧ (∀ j : Fin n, b.c j = r.c j) ∧ (∀ j : Fin n, b.slope j = r.slope j) ∧ b.pivotmag 0 = r.pivotmag ∧
  b.refmag i = g.refmag ∧ b.refmagerr i = g.refmagerr ∧ (∀ m : Fin (n + 1), b.magerr (i * (n + 1) + m) = g.magerr m) ∧
  (∀ j : Fin n, b.color (i * n + j) = g.color j) ∧ (∀ j : Fin n, b.lupcorr (i * n + j) = l j)

/-- Entry `i` of a mode 1 call. -/
def Packed1 (b : Buf α) (i : Nat) (g : Gal n α) (r : Row n α) (l : Fin n → α) : Prop :=
  (∀ j k : Fin n, b.covmat (n * n * i + (j * n + k)) = r.cov j k) ∧ (∀ j : Fin n, b.c (i * n + j) = r.c j) ∧
  (∀ j : Fin n, b.slope (i * n + j) = r.slope j) ∧ b.pivotmag i = r.pivotmag ∧
  b.refmag 0 = g.refmag ∧ b.refmagerr 0 = g.refmagerr ∧ (∀ m : Fin (n + 1), b.magerr m = g.magerr m) ∧
  (∀ j : Fin n, b.color j = g.color j) ∧ (∀ j : Fin n, b.lupcorr (i * n + j) = l j)

/-- Entry `i` of a mode 2 call. -/
def Packed2 (b : Buf α) (i : Nat) (g : Gal n α) (r : Row n α) (l : Fin n → α) : Prop :=
  (∀ j k : Fin n, b.covmat (n * n * i + (j * n + k)) = r.cov j k) ∧ (∀ j : Fin n, b.c (i * n + j) = r.c j) ∧
  (∀ j : Fin n, b.slope (i * n + j) = r.slope j) ∧ b.pivotmag i = r.pivotmag ∧
  b.refmag i = g.refmag ∧ b.refmagerr i = g.refmagerr ∧ (∀ m : Fin (n + 1), b.magerr (i * (n + 1) + m) = g.magerr m) ∧
  (∀ j : Fin n, b.color (i * n + j) = g.color j) ∧ (∀ j : Fin n, b.lupcorr (i * n + j) = l j)

/-- The color difference of a galaxy from the red sequence. -/
def Gal.offset (g : Gal n α) (r : Row n α) (l : Fin n → α) : Fin n → α := fun j => r.c j + r.slope j * (g.refmag - r.pivotmag) + l j - g.color j

/-- The property as one would like it: pairwise calls agree with the others. -/
def C58_spec : Prop :=
  ∀ (n : Nat) (lib : Lib n ℚ) (o : Opts ℚ) (b0 b1 b2 : Buf ℚ) (i0 i1 i2 : Nat) (g : Gal n ℚ) (r : Row n ℚ) (l : Fin n → ℚ),
    Packed0 b0 i0 g r l → Packed1 b1 i1 g r l → Packed2 b2 i2 g r l → mode0 lib o b0 i0 = mode1 lib o b1 i1 ∧ mode1 lib o b1 i1 = mode2 lib o b2 i2

/-- Modes 0 and 1 give the same value, a function of the galaxy, the red sequence and the luptitude correction. -/
theorem C58_modes01 (lib : Lib n α) (o : Opts α) (b0 b1 : Buf α) (i0 i1 : Nat) (g : Gal n α) (r : Row n α) (l : Fin n → α)
    (h0 : Packed0 b0 i0 g r l) (h1 : Packed1 b1 i1 g r l) :
    mode0 lib o b0 i0 = cell lib o r.cov g.magerr r.slope g.refmagerr (g.offset r l) ∧ mode0 lib o b0 i0 = mode1 lib o b1 i1 := by
  obtain ⟨a1, a2, a3, a4, a5, a6, a7, a8, a9⟩ := h0
  obtain ⟨c1, c2, c3, c4, c5, c6, c7, c8, c9⟩ := h1
  have e0 : mode0 lib o b0 i0 = cell lib o r.cov g.magerr r.slope g.refmagerr (g.offset r l) := by
    unfold mode0
    congr 1
    · funext j k; exact a1 j k
    · funext m; exact a7 m
    · funext j; exact a3 j
    · funext j; rw [a2, a3, a4, a5, a8, a9]; rfl
  have e1 : mode1 lib o b1 i1 = cell lib o r.cov g.magerr r.slope g.refmagerr (g.offset r l) := by
    unfold mode1
    congr 1
    · funext j k; exact c1 j k
    · funext m; exact c7 m
    · funext j; exact c3 j
    · funext j; rw [c2, c3, c4, c5, c8, c9]; rfl
  exact ⟨e0, e0.trans e1.symm⟩

theorem cimat_zero (s : Fin n → α) : cimat s 0 = 0 := by
  funext j k
  unfold cimat
  simp

/-- Mode 2 agrees too if the reference magnitude has no error, or the entry has the slope of the first one.  Missing: other entries, for which it is
false. -/
theorem C58_partial (lib : Lib n α) (o : Opts α) (b0 b2 : Buf α) (i0 i2 : Nat) (g : Gal n α) (r : Row n α) (l : Fin n → α)
    (h0 : Packed0 b0 i0 g r l) (h2 : Packed2 b2 i2 g r l) (h : g.refmagerr = 0 ∨ ∀ j : Fin n, b2.slope j = r.slope j) :
    mode2 lib o b2 i2 = mode0 lib o b0 i0 := by
  obtain ⟨a1, a2, a3, a4, a5, a6, a7, a8, a9⟩ := h0
  obtain ⟨c1, c2, c3, c4, c5, c6, c7, c8, c9⟩ := h2
  have e0 : mode0 lib o b0 i0 = cell lib o r.cov g.magerr r.slope g.refmagerr (g.offset r l) := by
    unfold mode0
    congr 1
    · funext j k; exact a1 j k
    · funext m; exact a7 m
    · funext j; exact a3 j
    · funext j; rw [a2, a3, a4, a5, a8, a9]; rfl
  have e2 : mode2 lib o b2 i2 = cell lib o r.cov g.magerr (fun j => b2.slope j) g.refmagerr (g.offset r l) := by
    unfold mode2
    congr 1
    · funext j k; exact c1 j k
    · funext m; exact c7 m
    · funext j; rw [c2, c3, c4, c5, c8, c9]; rfl
  rw [e0, e2]
  rcases h with h | h
  · unfold cell totalCov
    simp only [h, cimat_zero]
  · congr 1
    funext j
    exact h j

/-- One color: eigenvalue, eigenvector and inverse. -/
def lib1 : Lib 1 ℚ where
  eig := fun A _ => A 0 0
  vecs := fun _ => 1
  inv := fun A _ _ => 1 / A 0 0
  det := fun A => A 0 0
  log := fun x => x

theorem lib1_chisq (A : Matrix (Fin 1) (Fin 1) ℚ) (v : Fin 1 → ℚ) (h : ¬ A 0 0 < minEigenval) : chisqOf lib1 A v = 1 / A 0 0 * v 0 * v 0 := by
  unfold chisqOf checkAndFix
  rw [if_neg (by rintro ⟨_, hi⟩; exact h hi)]
  simp [lib1, Matrix.mulVec, dotProduct]

theorem cell1 (cov : Matrix (Fin 1) (Fin 1) ℚ) (e : Fin 2 → ℚ) (sl : Fin 1 → ℚ) (re : ℚ) (v : Fin 1 → ℚ) (h : 1 ≤ cov 0 0) :
    cell lib1 ⟨true, true, 1 / 1000⟩ cov e sl re v = 1 / (cov 0 0 + sl 0 * sl 0 * re * re) * v 0 * v 0 := by
  have ht : totalCov true cov e sl re 0 0 = cov 0 0 + sl 0 * sl 0 * re * re := rfl
  unfold cell
  rw [if_neg (by
    rintro ⟨j, hj⟩
    have : j = 0 := Subsingleton.elim _ _
    subst this
    norm_num at hj
    linarith)]
  simp only [if_true]
  rw [lib1_chisq _ _ (by
    rw [ht]
    have : 0 ≤ sl 0 * sl 0 * re * re := by
      have := mul_self_nonneg (sl 0 * re)
      linarith
    unfold minEigenval
    norm_num
    linarith), ht]

/-- The second entry of a pairwise call, with a slope different from that of the first, is not computed with its own slope. -/
theorem C58_false : ¬ C58_spec := by
  intro h
  let g : Gal 1 ℚ := ⟨0, 1, fun _ => 0, fun _ => 1⟩
  let r : Row 1 ℚ := ⟨fun _ _ => 1, fun _ => 0, fun _ => 1, 0⟩
  let b : Buf ℚ := ⟨fun _ => 1, fun _ => 0, fun _ => 1, fun _ => 0, fun _ => 0, fun _ => 1, fun _ => 0, fun _ => 1, fun _ => 0⟩
  let b2 : Buf ℚ := { b with slope := fun i => if i = 0 then 0 else 1 }
  have hc := (h 1 lib1 ⟨true, true, 1 / 1000⟩ b b b2 1 1 1 g r (fun _ => 0) ⟨fun _ _ => rfl, fun _ => rfl, fun _ => rfl, rfl, rfl, rfl, fun _ => rfl, fun _ => rfl, fun _ => rfl⟩
    ⟨fun _ _ => rfl, fun _ => rfl, fun _ => rfl, rfl, rfl, rfl, fun _ => rfl, fun _ => rfl, fun _ => rfl⟩
    ⟨fun _ _ => rfl, fun _ => rfl, fun j => by simp [b2, r], rfl, rfl, rfl, fun _ => rfl, fun _ => rfl, fun _ => rfl⟩).2
  have m1 : mode1 lib1 ⟨true, true, 1 / 1000⟩ b 1 = 1 / 2 := by
    refine (cell1 _ _ _ _ _ (by simp [b])).trans ?_
    simp only [b]
    norm_num
  have m2 : mode2 lib1 ⟨true, true, 1 / 1000⟩ b2 1 = 1 := by
    refine (cell1 _ _ _ _ _ (by simp [b2, b])).trans ?_
    simp [b2, b]
  rw [m1, m2] at hc
  norm_num at hc

/-- The covariance that photometric errors add to the colors: each color has the variances of its two magnitudes, neighbouring colors share one with
opposite signs. -/
theorem C58_cobs (e : Fin (n + 1) → α) (j k : Fin n) :
    cobsmat e j k =
      if j = k then e j.castSucc * e j.castSucc + e j.succ * e j.succ
      else if (k : Nat) = j + 1 then -(e j.succ * e j.succ)
      else if (j : Nat) = k + 1 then -(e k.succ * e k.succ)
      else 0 := by
  have hrow : ∀ (j : Fin n) (m : Fin (n + 1)), ((mrotmat * (Matrix.diagonal fun m => e m * e m).transpose : Matrix (Fin n) (Fin (n + 1)) α)) j m =
      mrotmat j m * (e m * e m) := by
    intro j m
    rw [Matrix.diagonal_transpose, Matrix.mul_diagonal]
  unfold cobsmat
  rw [Matrix.mul_apply]
  simp only [Matrix.transpose_apply, hrow]
  have e1 : ∀ m : Fin (n + 1), (mrotmat j m : α) * (mrotmat k m * (e m * e m)) =
      (if m = j.succ then -(mrotmat k m * (e m * e m)) else 0) + (if m = j.castSucc then mrotmat k m * (e m * e m) else 0) := by
    intro m
    unfold mrotmat
    by_cases h1 : m = j.succ
    · have h2 : ¬ m = j.castSucc := by
        rw [h1]; intro h; have := congrArg Fin.val h; simp at this
      rw [if_pos h1, if_pos h1, if_neg h2]; ring
    · rw [if_neg h1, if_neg h1]
      by_cases h2 : m = j.castSucc
      · rw [if_pos h2, if_pos h2]; ring
      · rw [if_neg h2, if_neg h2]; ring
  simp only [e1]
  rw [Finset.sum_add_distrib, Finset.sum_ite_eq', Finset.sum_ite_eq']
  simp only [Finset.mem_univ, if_true]
  unfold mrotmat
  by_cases hjk : j = k
  · subst hjk
    have : ¬ (j.castSucc = j.succ) := by intro h; have := congrArg Fin.val h; simp at this
    rw [if_pos rfl, if_pos rfl, if_neg this, if_pos rfl]; ring
  · rw [if_neg hjk]
    have a1 : ¬ (j.succ = k.succ) := fun h => hjk (Fin.succ_injective _ h)
    have a2 : ¬ (j.castSucc = k.castSucc) := fun h => hjk (Fin.castSucc_injective _ h)
    rw [if_neg a1, if_neg a2]
    by_cases h1 : (k : Nat) = j + 1
    · have b1 : j.succ = k.castSucc := by apply Fin.ext; simp [h1]
      have b2 : ¬ (j.castSucc = k.succ) := by intro h; have := congrArg Fin.val h; simp at this; omega
      rw [if_pos h1, if_pos b1, if_neg b2]; ring
    · rw [if_neg h1]
      have b1 : ¬ (j.succ = k.castSucc) := by intro h; have := congrArg Fin.val h; simp at this; omega
      rw [if_neg b1]
      by_cases h2 : (j : Nat) = k + 1
      · have b2 : j.castSucc = k.succ := by apply Fin.ext; simp [h2]
        rw [if_pos h2, if_pos b2, b2]; ring
      · have b2 : ¬ (j.castSucc = k.succ) := by intro h; have := congrArg Fin.val h; simp at this; omega
        rw [if_neg h2, if_neg b2]; ring

/-- The whole covariance, written out: intrinsic, photometric unless switched off, and that of the reference magnitude through the slope. -/
theorem C58_total (np : Bool) (cov : Matrix (Fin n) (Fin n) α) (e : Fin (n + 1) → α) (s : Fin n → α) (re : α) (j k : Fin n) :
    totalCov np cov e s re j k = cov j k + (if np then 0 else cobsmat e j k) + s j * s k * re ^ 2 := by
  have hci : cimat s re j k = s j * s k * re ^ 2 := by
    unfold cimat
    by_cases h : j ≤ k
    · rw [if_pos h]; ring
    · rw [if_neg h]; ring
  unfold totalCov
  cases np
  · simp only [Bool.false_eq_true, if_false, Matrix.add_apply, hci]
  · simp only [if_true, Matrix.add_apply, hci, add_zero]

/-! ## C59 -/

/-- Contract of the GSL routines on symmetric matrices: orthonormal eigenvectors, eigenvalues in some order, inverse of an invertible matrix. -/
structure LibOK (lib : Lib n α) : Prop where
  inv_ok : ∀ M, IsUnit M → M * lib.inv M = 1
  spectral : ∀ A : Matrix (Fin n) (Fin n) α, A.IsSymm → ∃ (ev : Fin n → α) (σ : Equiv.Perm (Fin n)),
    (∀ i, lib.eig A i = ev (σ i)) ∧ (lib.vecs A)ᵀ * lib.vecs A = 1 ∧ A = lib.vecs A * Matrix.diagonal ev * (lib.vecs A)ᵀ

/-- Such routines exist over the reals for any number of colors. -/
theorem LibOK_exists (n : Nat) : ∃ lib : Lib n ℝ, LibOK lib := by
  classical
  refine ⟨⟨fun A => if h : A.IsHermitian then h.eigenvalues else fun _ => 0, fun A => if h : A.IsHermitian then (h.eigenvectorUnitary : Matrix (Fin n) (Fin n) ℝ) else 1,
    fun A => A⁻¹, fun A => A.det, fun x => x⟩, ?_, ?_⟩
  · intro M hM
    exact Matrix.mul_nonsing_inv M ((Matrix.isUnit_iff_isUnit_det M).mp hM)
  · intro A hA
    have hH : A.IsHermitian := by
      unfold Matrix.IsHermitian
      rw [Matrix.conjTranspose_eq_transpose_of_trivial]
      exact hA
    refine ⟨hH.eigenvalues, 1, ?_, ?_, ?_⟩
    · intro i; simp only [dif_pos hH]; rfl
    · simp only [dif_pos hH]
      have := Matrix.mem_unitaryGroup_iff'.mp hH.eigenvectorUnitary.2
      rw [Matrix.star_eq_conjTranspose, Matrix.conjTranspose_eq_transpose_of_trivial] at this
      exact this
    · simp only [dif_pos hH]
      have := hH.spectral_theorem
      rw [Unitary.conjStarAlgAut_apply] at this
      conv_lhs => rw [this]
      rw [Matrix.star_eq_conjTranspose, Matrix.conjTranspose_eq_transpose_of_trivial]
      rfl

/-- The quadratic form. -/
def quad (A : Matrix (Fin n) (Fin n) α) (x : Fin n → α) : α := x ⬝ᵥ (A *ᵥ x)

theorem dot_self_nonneg (x : Fin n → α) : 0 ≤ x ⬝ᵥ x := Finset.sum_nonneg fun _ _ => mul_self_nonneg _

theorem dot_self_pos (x : Fin n → α) (h : x ≠ 0) : 0 < x ⬝ᵥ x := by
  obtain ⟨i, hi⟩ := Function.ne_iff.mp h
  exact Finset.sum_pos' (fun _ _ => mul_self_nonneg _) ⟨i, Finset.mem_univ _, mul_self_pos.mpr hi⟩

theorem quad_spectral (Q : Matrix (Fin n) (Fin n) α) (v : Fin n → α) (x : Fin n → α) :
    quad (Q * Matrix.diagonal v * Qᵀ) x = ∑ i, v i * ((Qᵀ *ᵥ x) i * (Qᵀ *ᵥ x) i) := by
  unfold quad
  rw [← Matrix.mulVec_mulVec, ← Matrix.mulVec_mulVec, Matrix.dotProduct_mulVec, ← Matrix.mulVec_transpose]
  unfold dotProduct
  apply Finset.sum_congr rfl
  intro i _
  rw [Matrix.mulVec_diagonal]; ring

theorem dot_orth (Q : Matrix (Fin n) (Fin n) α) (h : Qᵀ * Q = 1) (x : Fin n → α) : (Qᵀ *ᵥ x) ⬝ᵥ (Qᵀ *ᵥ x) = x ⬝ᵥ x := by
  have h' : Q * Qᵀ = 1 := mul_eq_one_comm.mp h
  rw [Matrix.dotProduct_mulVec, Matrix.vecMul_transpose, Matrix.mulVec_mulVec, h', Matrix.one_mulVec]

theorem quad_ge (Q : Matrix (Fin n) (Fin n) α) (h : Qᵀ * Q = 1) (v : Fin n → α) (m : α) (hv : ∀ i, m ≤ v i) (x : Fin n → α) :
    m * (x ⬝ᵥ x) ≤ quad (Q * Matrix.diagonal v * Qᵀ) x := by
  rw [quad_spectral, ← dot_orth Q h x]
  unfold dotProduct
  rw [Finset.mul_sum]
  exact Finset.sum_le_sum fun i _ => mul_le_mul_of_nonneg_right (hv i) (mul_self_nonneg _)

theorem minEigenval_pos : (0 : α) < minEigenval := by unfold minEigenval; positivity

/-- After `check_and_fix_covmat` the matrix is positive definite, with eigenvalues at least MIN_EIGENVAL, whatever symmetric matrix it was given. -/
theorem fix_quad (lib : Lib n α) (hl : LibOK lib) (A : Matrix (Fin n) (Fin n) α) (hA : A.IsSymm) (x : Fin n → α) :
    minEigenval * (x ⬝ᵥ x) ≤ quad (checkAndFix lib A) x := by
  obtain ⟨ev, σ, h1, h2, h3⟩ := hl.spectral A hA
  unfold checkAndFix
  by_cases h : ∃ i, lib.eig A i < minEigenval
  · rw [if_pos h]
    have hu : IsUnit (lib.vecs A) := ⟨⟨lib.vecs A, (lib.vecs A)ᵀ, mul_eq_one_comm.mp h2, h2⟩, rfl⟩
    have hinv : lib.inv (lib.vecs A) = (lib.vecs A)ᵀ := by
      have := hl.inv_ok _ hu
      calc lib.inv (lib.vecs A) = ((lib.vecs A)ᵀ * lib.vecs A) * lib.inv (lib.vecs A) := by rw [h2, one_mul]
        _ = (lib.vecs A)ᵀ := by rw [mul_assoc, this, mul_one]
    rw [hinv]
    apply quad_ge _ h2
    intro i
    by_cases hi : lib.eig A i < minEigenval
    · rw [if_pos hi]
    · rw [if_neg hi]; exact not_lt.mp hi
  · rw [if_neg h]
    have hev : ∀ i, minEigenval ≤ ev i := by
      intro i
      have : ¬ lib.eig A (σ.symm i) < minEigenval := fun hc => h ⟨_, hc⟩
      rw [h1, Equiv.apply_symm_apply] at this
      exact not_lt.mp this
    conv_rhs => rw [h3]
    exact quad_ge _ h2 _ _ hev x

theorem isUnit_of_quad (A : Matrix (Fin n) (Fin n) α) (m : α) (hm : 0 < m) (h : ∀ x, m * (x ⬝ᵥ x) ≤ quad A x) : IsUnit A := by
  rw [← Matrix.mulVec_injective_iff_isUnit]
  rw [← Matrix.coe_mulVecLin]
  rw [injective_iff_map_eq_zero]
  intro x hx
  rw [Matrix.mulVecLin_apply] at hx
  by_contra hne
  have := h x
  unfold quad at this
  rw [hx, dotProduct_zero] at this
  have h2 := mul_pos hm (dot_self_pos x hne)
  linarith

/-- A covariance matrix that already has eigenvalues at least MIN_EIGENVAL is not changed. -/
theorem fix_same (lib : Lib n α) (hl : LibOK lib) (A : Matrix (Fin n) (Fin n) α) (hA : A.IsSymm) (h : ∀ x, minEigenval * (x ⬝ᵥ x) ≤ quad A x) :
    checkAndFix lib A = A := by
  obtain ⟨ev, σ, h1, h2, h3⟩ := hl.spectral A hA
  unfold checkAndFix
  rw [if_neg]
  rintro ⟨i, hi⟩
  rw [h1] at hi
  generalize σ i = k at hi
  have hx := h (lib.vecs A *ᵥ Pi.single k 1)
  have e1 : (lib.vecs A)ᵀ *ᵥ (lib.vecs A *ᵥ Pi.single k 1) = Pi.single k 1 := by rw [Matrix.mulVec_mulVec, h2, Matrix.one_mulVec]
  have e2 : quad A (lib.vecs A *ᵥ Pi.single k 1) = ev k := by
    have : quad A (lib.vecs A *ᵥ Pi.single k 1) = quad (lib.vecs A * Matrix.diagonal ev * (lib.vecs A)ᵀ) (lib.vecs A *ᵥ Pi.single k 1) := congrArg (fun M => quad M _) h3
    rw [this, quad_spectral, e1]
    rw [Finset.sum_eq_single k]
    · simp
    · intro b _ hb; simp [Pi.single_eq_of_ne hb]
    · simp
  have e3 : (lib.vecs A *ᵥ Pi.single k 1) ⬝ᵥ (lib.vecs A *ᵥ Pi.single k (1 : α)) = 1 := by
    rw [← dot_orth (lib.vecs A) h2, e1]
    simp
  rw [e2, e3, mul_one] at hx
  linarith

/-- If the two GSL routines return the eigenvalues in the same order, the repair changes only the eigenvalues that are too small. -/
theorem fix_repair (lib : Lib n α) (hl : LibOK lib) (A : Matrix (Fin n) (Fin n) α) (horder : (lib.vecs A)ᵀ * lib.vecs A = 1 ∧
    A = lib.vecs A * Matrix.diagonal (lib.eig A) * (lib.vecs A)ᵀ) (k : Fin n) :
    checkAndFix lib A *ᵥ (lib.vecs A *ᵥ Pi.single k 1) = max (lib.eig A k) minEigenval • (lib.vecs A *ᵥ Pi.single k 1) := by
  obtain ⟨h2, h3⟩ := horder
  have hu : IsUnit (lib.vecs A) := ⟨⟨lib.vecs A, (lib.vecs A)ᵀ, mul_eq_one_comm.mp h2, h2⟩, rfl⟩
  have hinv : lib.inv (lib.vecs A) = (lib.vecs A)ᵀ := by
    have := hl.inv_ok _ hu
    calc lib.inv (lib.vecs A) = ((lib.vecs A)ᵀ * lib.vecs A) * lib.inv (lib.vecs A) := by rw [h2, one_mul]
      _ = (lib.vecs A)ᵀ := by rw [mul_assoc, this, mul_one]
  have key : ∀ v : Fin n → α, (lib.vecs A * Matrix.diagonal v * (lib.vecs A)ᵀ) *ᵥ (lib.vecs A *ᵥ Pi.single k 1) = v k • (lib.vecs A *ᵥ Pi.single k 1) := by
    intro v
    rw [Matrix.mulVec_mulVec, Matrix.mul_assoc, h2, Matrix.mul_one, ← Matrix.mulVec_mulVec, ← Matrix.mulVec_smul]
    congr 1
    funext i
    rw [Matrix.mulVec_diagonal]
    by_cases hi : i = k
    · subst hi; simp
    · simp [Pi.single_eq_of_ne hi]
  unfold checkAndFix
  by_cases h : ∃ i, lib.eig A i < minEigenval
  · rw [if_pos h, hinv, key]
    congr 1
    by_cases hk : lib.eig A k < minEigenval
    · rw [if_pos hk, max_eq_right hk.le]
    · rw [if_neg hk, max_eq_left (not_lt.mp hk)]
  · rw [if_neg h]
    have hk : minEigenval ≤ lib.eig A k := not_lt.mp fun hc => h ⟨k, hc⟩
    rw [max_eq_left hk]
    have := key (lib.eig A)
    rwa [← h3] at this

theorem cobsmat_eq (e : Fin (n + 1) → α) : (cobsmat e : Matrix (Fin n) (Fin n) α) = mrotmat * (Matrix.diagonal fun m => e m * e m) * mrotmatᵀ := by
  unfold cobsmat
  rw [Matrix.transpose_mul, Matrix.transpose_transpose, Matrix.mul_assoc]

theorem cobsmat_symm (e : Fin (n + 1) → α) : (cobsmat e : Matrix (Fin n) (Fin n) α).IsSymm := by
  unfold Matrix.IsSymm
  rw [cobsmat_eq, Matrix.transpose_mul, Matrix.transpose_mul, Matrix.transpose_transpose, Matrix.diagonal_transpose, Matrix.mul_assoc]

theorem cimat_symm (s : Fin n → α) (e : α) : (cimat s e).IsSymm := by
  apply Matrix.IsSymm.ext
  intro i j
  unfold cimat
  rcases lt_trichotomy i j with h | h | h
  · rw [if_neg (not_le.mpr h), if_pos h.le]
  · subst h; rfl
  · rw [if_pos h.le, if_neg (not_le.mpr h)]

theorem totalCov_symm (np : Bool) (cov : Matrix (Fin n) (Fin n) α) (hc : cov.IsSymm) (e : Fin (n + 1) → α) (s : Fin n → α) (re : α) :
    (totalCov np cov e s re).IsSymm := by
  unfold totalCov
  cases np
  · exact (hc.add (cobsmat_symm e)).add (cimat_symm s re)
  · exact hc.add (cimat_symm s re)

/-- The value computed for a color difference: it is `d · x` where `x` solves `F x = d` with the repaired covariance `F`. -/
theorem chisqOf_solve (lib : Lib n α) (hl : LibOK lib) (A : Matrix (Fin n) (Fin n) α) (hA : A.IsSymm) (d : Fin n → α) :
    ∃ x, checkAndFix lib A *ᵥ x = d ∧ chisqOf lib A d = x ⬝ᵥ d ∧ minEigenval * (x ⬝ᵥ x) ≤ x ⬝ᵥ d := by
  have hq := fix_quad lib hl A hA
  have hu := isUnit_of_quad _ _ minEigenval_pos hq
  have hs : checkAndFix lib A *ᵥ (lib.inv (checkAndFix lib A) *ᵥ d) = d := by
    rw [Matrix.mulVec_mulVec, hl.inv_ok _ hu, Matrix.one_mulVec]
  refine ⟨lib.inv (checkAndFix lib A) *ᵥ d, hs, rfl, ?_⟩
  have := hq (lib.inv (checkAndFix lib A) *ᵥ d)
  unfold quad at this
  rwa [hs] at this

/-- For every symmetric intrinsic covariance, all errors and color differences, chi-squared is non-negative, zero exactly on the red sequence, and at
most a million times the squared distance. -/
theorem C59 (lib : Lib n α) (hl : LibOK lib) (np : Bool) (sigint : α) (cov : Matrix (Fin n) (Fin n) α) (hc : cov.IsSymm)
    (hsig : ∀ j, sigint * sigint ≤ cov j j) (e : Fin (n + 1) → α) (s : Fin n → α) (re : α) (d : Fin n → α) :
    0 ≤ cell lib ⟨true, np, sigint⟩ cov e s re d ∧ (cell lib ⟨true, np, sigint⟩ cov e s re d = 0 ↔ d = 0) ∧
    cell lib ⟨true, np, sigint⟩ cov e s re d ≤ 1000000 * (d ⬝ᵥ d) := by
  have hcell : cell lib ⟨true, np, sigint⟩ cov e s re d = chisqOf lib (totalCov np cov e s re) d := by
    unfold cell
    rw [if_neg (by rintro ⟨j, hj⟩; exact absurd hj (not_lt.mpr (hsig j)))]
    simp
  rw [hcell]
  obtain ⟨x, h1, h2, h3⟩ := chisqOf_solve lib hl _ (totalCov_symm np cov hc e s re) d
  rw [h2]
  have hxx := dot_self_nonneg x
  have hm := minEigenval_pos (α := α)
  refine ⟨le_trans (mul_nonneg hm.le hxx) h3, ⟨?_, ?_⟩, ?_⟩
  · intro h0
    by_contra hd
    have hx : x ≠ 0 := by
      intro hx; rw [hx, Matrix.mulVec_zero] at h1; exact hd h1.symm
    have := mul_pos hm (dot_self_pos x hx)
    linarith
  · intro h0; rw [h0, dotProduct_zero]
  · have hsq := dot_self_nonneg (d - (minEigenval : α) • x)
    have e1 : (d - (minEigenval : α) • x) ⬝ᵥ (d - (minEigenval : α) • x) = d ⬝ᵥ d - 2 * minEigenval * (x ⬝ᵥ d) + minEigenval * (minEigenval * (x ⬝ᵥ x)) := by
      simp only [sub_dotProduct, dotProduct_sub, smul_dotProduct, dotProduct_smul, smul_eq_mul, dotProduct_comm d x]
      ring
    rw [e1] at hsq
    have h4 := mul_le_mul_of_nonneg_left h3 hm.le
    have h5 : (1000000 : α) * minEigenval = 1 := by unfold minEigenval; norm_num
    have h6 : minEigenval * (x ⬝ᵥ d) ≤ d ⬝ᵥ d := by linarith
    calc x ⬝ᵥ d = 1000000 * (minEigenval * (x ⬝ᵥ d)) := by rw [← mul_assoc, h5, one_mul]
      _ ≤ 1000000 * (d ⬝ᵥ d) := mul_le_mul_of_nonneg_left h6 (by norm_num)

/-- If the intrinsic variances fail the check, the value is huge, for chi-squared and for likelihood. -/
theorem C59_sentinel (lib : Lib n α) (np : Bool) (sigint : α) (cov : Matrix (Fin n) (Fin n) α) (e : Fin (n + 1) → α) (s : Fin n → α) (re : α) (d : Fin n → α)
    (j : Fin n) (hj : cov j j < sigint * sigint) :
    cell lib ⟨true, np, sigint⟩ cov e s re d = 100000000000 ∧ cell lib ⟨false, np, sigint⟩ cov e s re d = -100000000000 := by
  have hex : ∃ j, cov j j < sigint * sigint := ⟨j, hj⟩
  constructor
  · unfold cell
    rw [if_pos hex]; rfl
  · unfold cell
    rw [if_pos hex]; rfl

/-- The likelihood is the chi-squared with a penalty for the width. -/
theorem C59_lkhd (lib : Lib n α) (np : Bool) (sigint : α) (cov : Matrix (Fin n) (Fin n) α) (hsig : ∀ j, sigint * sigint ≤ cov j j) (e : Fin (n + 1) → α) (s : Fin n → α)
    (re : α) (d : Fin n → α) :
    cell lib ⟨false, np, sigint⟩ cov e s re d =
      -(cell lib ⟨true, np, sigint⟩ cov e s re d) / 2 - lib.log (lib.det (checkAndFix lib (totalCov np cov e s re))) / 2 := by
  unfold cell
  have : ¬ ∃ j, cov j j < sigint * sigint := by rintro ⟨j, hj⟩; exact absurd hj (not_lt.mpr (hsig j))
  rw [if_neg this, if_neg this]
  simp only [Bool.false_eq_true, if_false, if_true]
  ring

/-! ## C109 -/

theorem cobsmat_quad (e : Fin (n + 1) → α) (x : Fin n → α) :
    quad (cobsmat e) x = ∑ m, e m * e m * ((mrotmatᵀ *ᵥ x) m * (mrotmatᵀ *ᵥ x) m) := by
  unfold quad
  rw [cobsmat_eq, ← Matrix.mulVec_mulVec, ← Matrix.mulVec_mulVec, Matrix.dotProduct_mulVec, ← Matrix.mulVec_transpose]
  unfold dotProduct
  apply Finset.sum_congr rfl
  intro i _
  rw [Matrix.mulVec_diagonal]; ring

theorem quad_add (A B : Matrix (Fin n) (Fin n) α) (x : Fin n → α) : quad (A + B) x = quad A x + quad B x := by
  unfold quad
  rw [Matrix.add_mulVec, dotProduct_add]

theorem quad_symm (A : Matrix (Fin n) (Fin n) α) (hA : A.IsSymm) (x y : Fin n → α) : x ⬝ᵥ (A *ᵥ y) = y ⬝ᵥ (A *ᵥ x) := by
  rw [Matrix.dotProduct_mulVec, ← Matrix.mulVec_transpose, hA, dotProduct_comm]

/-- A larger covariance gives a smaller chi-squared. -/
theorem chisq_mono (A B : Matrix (Fin n) (Fin n) α) (hA : A.IsSymm) (hpos : ∀ v, 0 ≤ quad A v) (hle : ∀ v, quad A v ≤ quad B v) (d x y : Fin n → α)
    (hx : A *ᵥ x = d) (hy : B *ᵥ y = d) : y ⬝ᵥ d ≤ x ⬝ᵥ d := by
  have h1 := hpos (y - x)
  have e : quad A (y - x) = quad A y - 2 * (y ⬝ᵥ d) + x ⬝ᵥ d := by
    unfold quad
    have h2 := quad_symm A hA x y
    rw [hx] at h2
    rw [Matrix.mulVec_sub, dotProduct_sub, sub_dotProduct, sub_dotProduct, hx, h2]
    ring
  rw [e] at h1
  have h3 := hle y
  have h4 : quad B y = y ⬝ᵥ d := by unfold quad; rw [hy]
  linarith

/-- With an intrinsic covariance that needs no repair, larger magnitude errors never raise chi-squared, and ignoring the photometric errors never lowers
it. -/
theorem C109 (lib : Lib n α) (hl : LibOK lib) (sigint : α) (cov : Matrix (Fin n) (Fin n) α) (hc : cov.IsSymm)
    (hsig : ∀ j, sigint * sigint ≤ cov j j) (hcov : ∀ x, minEigenval * (x ⬝ᵥ x) ≤ quad cov x) (e e' : Fin (n + 1) → α) (he : ∀ m, |e m| ≤ |e' m|)
    (s : Fin n → α) (re : α) (d : Fin n → α) :
    cell lib ⟨true, false, sigint⟩ cov e' s re d ≤ cell lib ⟨true, false, sigint⟩ cov e s re d ∧
    cell lib ⟨true, false, sigint⟩ cov e s re d ≤ cell lib ⟨true, true, sigint⟩ cov e s re d := by
  have hcell : ∀ np e, cell lib ⟨true, np, sigint⟩ cov e s re d = chisqOf lib (totalCov np cov e s re) d := by
    intro np e
    unfold cell
    rw [if_neg (by rintro ⟨j, hj⟩; exact absurd hj (not_lt.mpr (hsig j)))]
    simp
  have hci : ∀ x, 0 ≤ quad (cimat s re) x := by
    intro x
    have e1 : cimat s re = fun j k => s j * s k * re * re := by
      funext j k
      unfold cimat
      by_cases h : j ≤ k
      · rw [if_pos h]
      · rw [if_neg h]; ring
    have e2 : quad (cimat s re) x = ((∑ j, x j * s j) * re) * ((∑ j, x j * s j) * re) := by
      rw [e1]
      unfold quad dotProduct Matrix.mulVec dotProduct
      have : (∑ j, x j * s j) * re * ((∑ j, x j * s j) * re) = ∑ j, ∑ k, (x j * s j * re) * (x k * s k * re) := by
        rw [Finset.sum_mul, Finset.sum_mul_sum]
      rw [this]
      apply Finset.sum_congr rfl
      intro j _
      rw [Finset.mul_sum]
      apply Finset.sum_congr rfl
      intro k _
      ring
    rw [e2]; exact mul_self_nonneg _
  have hco : ∀ e x, 0 ≤ quad (cobsmat e : Matrix (Fin n) (Fin n) α) x := by
    intro e x
    rw [cobsmat_quad]
    exact Finset.sum_nonneg fun m _ => mul_nonneg (mul_self_nonneg _) (mul_self_nonneg _)
  have hcomono : ∀ x, quad (cobsmat e : Matrix (Fin n) (Fin n) α) x ≤ quad (cobsmat e') x := by
    intro x
    rw [cobsmat_quad, cobsmat_quad]
    apply Finset.sum_le_sum
    intro m _
    apply mul_le_mul_of_nonneg_right _ (mul_self_nonneg _)
    have := mul_self_le_mul_self (abs_nonneg _) (he m)
    rwa [abs_mul_abs_self, abs_mul_abs_self] at this
  have hq0 : ∀ x, quad (totalCov true cov e s re) x = quad cov x + quad (cimat s re) x := by
    intro x; unfold totalCov; rw [if_pos rfl, quad_add]
  have hq1 : ∀ e x, quad (totalCov false cov e s re) x = quad cov x + quad (cobsmat e) x + quad (cimat s re) x := by
    intro e x; unfold totalCov; simp only [Bool.false_eq_true, if_false]; rw [quad_add, quad_add]
  have hge0 : ∀ x, minEigenval * (x ⬝ᵥ x) ≤ quad (totalCov true cov e s re) x := by
    intro x; rw [hq0]; linarith [hcov x, hci x]
  have hge1 : ∀ e x, minEigenval * (x ⬝ᵥ x) ≤ quad (totalCov false cov e s re) x := by
    intro e x; rw [hq1]; linarith [hcov x, hci x, hco e x]
  have hpos : ∀ x : Fin n → α, 0 ≤ minEigenval * (x ⬝ᵥ x) := fun x => mul_nonneg minEigenval_pos.le (dot_self_nonneg x)
  have s0 := totalCov_symm true cov hc e s re
  have s1 := fun e => totalCov_symm false cov hc e s re
  obtain ⟨x0, a1, a2, _⟩ := chisqOf_solve lib hl _ s0 d
  obtain ⟨x1, b1, b2, _⟩ := chisqOf_solve lib hl _ (s1 e) d
  obtain ⟨x2, c1, c2, _⟩ := chisqOf_solve lib hl _ (s1 e') d
  rw [fix_same lib hl _ s0 hge0] at a1
  rw [fix_same lib hl _ (s1 e) (hge1 e)] at b1
  rw [fix_same lib hl _ (s1 e') (hge1 e')] at c1
  rw [hcell, hcell, hcell, a2, b2, c2]
  constructor
  · exact chisq_mono _ _ (s1 e) (fun v => le_trans (hpos v) (hge1 e v)) (fun v => by rw [hq1, hq1]; linarith [hcomono v]) d x1 x2 b1 c1
  · exact chisq_mono _ _ s0 (fun v => le_trans (hpos v) (hge0 v)) (fun v => by rw [hq0, hq1]; linarith [hco e v]) d x0 x1 a1 b1

/-- The hypotheses of C59 and C109 hold for unit variances, with routines that exist for any number of colors. -/
example (n : Nat) : ∃ lib : Lib n ℝ, LibOK lib ∧ (1 : Matrix (Fin n) (Fin n) ℝ).IsSymm ∧
    (∀ j : Fin n, (1 / 1000 : ℝ) * (1 / 1000) ≤ (1 : Matrix (Fin n) (Fin n) ℝ) j j) ∧ ∀ x : Fin n → ℝ, minEigenval * (x ⬝ᵥ x) ≤ quad 1 x := by
  obtain ⟨lib, h⟩ := LibOK_exists n
  refine ⟨lib, h, Matrix.transpose_one, fun j => by rw [Matrix.one_apply_eq]; norm_num, fun x => ?_⟩
  unfold quad minEigenval
  rw [Matrix.one_mulVec]
  have := dot_self_nonneg x
  linarith

/-! ## C60 -/

theorem dim_ok (s : List Nat) (k d : Nat) (h : dim s k = .ok d) : s[k]? = some d := by
  unfold dim at h
  split at h
  · rename_i e he; cases h; exact he
  · cases h

theorem require_ok (b : Bool) (u : Unit) (h : require b = .ok u) : b = true := by
  unfold require at h
  cases b
  · simp at h
  · rfl

theorem bind_ok {β γ : Type} (x : Except Err β) (f : β → Except Err γ) (c : γ) (h : (x >>= f) = .ok c) : ∃ b, x = .ok b ∧ f b = .ok c := by
  cases x with
  | error e => cases h
  | ok b => exact ⟨b, rfl, h⟩

/-- The documented shapes of a mode 0 call, as far as they are enforced. -/
def Shapes0 (s : Shapes) (ngal ncol : Nat) : Prop :=
  s.c = [ncol] ∧ s.slope = [ncol] ∧ (atleast1d s.pivotmag)[0]? = some 1 ∧ s.covmat = [ncol, ncol] ∧ size (atleast1d s.refmag) = ngal ∧
  s.magerr = [ngal, ncol + 1] ∧ s.color = [ngal, ncol] ∧ (∀ l, s.lupcorr = some l → l[0]? = some ngal ∧ l[1]? = some ncol) ∧ size (refmagerrShape s) = ngal

/-- Mode 1. -/
def Shapes1 (s : Shapes) (nz ncol : Nat) : Prop :=
  s.c = [nz, ncol] ∧ s.slope = [nz, ncol] ∧ size (atleast1d s.pivotmag) = nz ∧ s.covmat = [ncol, ncol, nz] ∧
  s.magerr = [ncol + 1] ∧ s.color = [ncol] ∧ (∀ l, s.lupcorr = some l → l[0]? = some nz ∧ l[1]? = some ncol) ∧ (refmagerrShape s)[0]? = some 1

/-- Mode 2: of the covariance only the last dimension is enforced. -/
def Shapes2 (s : Shapes) (nz ncol : Nat) : Prop :=
  s.c = [nz, ncol] ∧ s.slope = [nz, ncol] ∧ size (atleast1d s.pivotmag) = nz ∧ (∃ a b, s.covmat = [a, b, nz]) ∧
  s.magerr = [nz, ncol + 1] ∧ s.color = [nz, ncol] ∧ (∀ l, s.lupcorr = some l → l[0]? = some nz ∧ l[1]? = some ncol) ∧ size (refmagerrShape s) = nz

theorem len1 (l : List Nat) (a : Nat) (h : l.length = 1) (h0 : l[0]? = some a) : l = [a] := by
  match l, h with
  | [x], _ => simp at h0; rw [h0]

theorem len2 (l : List Nat) (a b : Nat) (h : l.length = 2) (h0 : l[0]? = some a) (h1 : l[1]? = some b) : l = [a, b] := by
  match l, h with
  | [x, y], _ => simp at h0 h1; rw [h0, h1]

theorem len3 (l : List Nat) (c : Nat) (h : l.length = 3) (h2 : l[2]? = some c) : ∃ a b, l = [a, b, c] ∧ l[0]? = some a ∧ l[1]? = some b := by
  match l, h with
  | [x, y, z], _ => simp at h2; exact ⟨x, y, by rw [h2], by simp, by simp⟩

/-- When `compute_chisq` does not raise, the shapes are those of its mode, up to what is not checked; the number of entries is that of the arrays. -/
theorem C60_checked (s : Shapes) (call : Call) (h : validate s = .ok call) :
    (call.mode = 0 ∧ Shapes0 s call.ncalc call.ncol ∨ call.mode = 1 ∧ Shapes1 s call.ncalc call.ncol ∨ call.mode = 2 ∧ Shapes2 s call.ncalc call.ncol) ∧
    call.lupcorr = s.lupcorr.getD [call.ncalc, call.ncol] := by
  unfold validate at h
  have hlup : ∀ (a b : Nat), (s.lupcorr.getD [a, b])[0]? = some a → (s.lupcorr.getD [a, b])[1]? = some b → ∀ l, s.lupcorr = some l → l[0]? = some a ∧ l[1]? = some b := by
    intro a b h1 h2 l hl
    rw [hl] at h1 h2
    exact ⟨h1, h2⟩
  split at h
  · rename_i ncol hc
    obtain ⟨_, h1, h⟩ := bind_ok _ _ _ h
    have h1 := require_ok _ _ h1
    unfold validate0 at h
    obtain ⟨d1, e1, h⟩ := bind_ok _ _ _ h; have e1 := dim_ok _ _ _ e1
    obtain ⟨_, r1, h⟩ := bind_ok _ _ _ h; have r1 := require_ok _ _ r1
    obtain ⟨d2, e2, h⟩ := bind_ok _ _ _ h; have e2 := dim_ok _ _ _ e2
    obtain ⟨_, r2, h⟩ := bind_ok _ _ _ h; have r2 := require_ok _ _ r2
    obtain ⟨_, r3, h⟩ := bind_ok _ _ _ h; have r3 := require_ok _ _ r3
    obtain ⟨d3, e3, h⟩ := bind_ok _ _ _ h; have e3 := dim_ok _ _ _ e3
    obtain ⟨d4, e4, h⟩ := bind_ok _ _ _ h; have e4 := dim_ok _ _ _ e4
    obtain ⟨_, r4, h⟩ := bind_ok _ _ _ h; have r4 := require_ok _ _ r4
    obtain ⟨_, r5, h⟩ := bind_ok _ _ _ h; have r5 := require_ok _ _ r5
    obtain ⟨d5, e5, h⟩ := bind_ok _ _ _ h; have e5 := dim_ok _ _ _ e5
    obtain ⟨d6, e6, h⟩ := bind_ok _ _ _ h; have e6 := dim_ok _ _ _ e6
    obtain ⟨_, r6, h⟩ := bind_ok _ _ _ h; have r6 := require_ok _ _ r6
    obtain ⟨_, r7, h⟩ := bind_ok _ _ _ h; have r7 := require_ok _ _ r7
    obtain ⟨d7, e7, h⟩ := bind_ok _ _ _ h; have e7 := dim_ok _ _ _ e7
    obtain ⟨d8, e8, h⟩ := bind_ok _ _ _ h; have e8 := dim_ok _ _ _ e8
    obtain ⟨_, r8, h⟩ := bind_ok _ _ _ h; have r8 := require_ok _ _ r8
    obtain ⟨d9, e9, h⟩ := bind_ok _ _ _ h; have e9 := dim_ok _ _ _ e9
    obtain ⟨_, r9, h⟩ := bind_ok _ _ _ h; have r9 := require_ok _ _ r9
    obtain ⟨d10, e10, h⟩ := bind_ok _ _ _ h; have e10 := dim_ok _ _ _ e10
    obtain ⟨_, r10, h⟩ := bind_ok _ _ _ h; have r10 := require_ok _ _ r10
    obtain ⟨_, r11, h⟩ := bind_ok _ _ _ h; have r11 := require_ok _ _ r11
    simp only [Bool.and_eq_true, decide_eq_true_eq] at h1 r1 r2 r3 r4 r5 r6 r7 r8 r9 r10 r11
    cases h
    subst r1 r2 r9 r10
    obtain ⟨rfl, rfl⟩ := r4
    refine ⟨Or.inl ⟨rfl, hc, len1 _ _ h1 e1, e2, len2 _ _ _ r3 e3 e4, rfl, ?_, ?_, hlup _ _ e9 e10, r11⟩, rfl⟩
    · exact len2 _ _ _ r5 (by rw [e5, r6.1]) (by rw [e6, r6.2])
    · exact len2 _ _ _ r7 (by rw [e7, r8.1]) (by rw [e8, r8.2])
  · rename_i nz ncol hc
    obtain ⟨_, h1, h⟩ := bind_ok _ _ _ h
    have h1 := require_ok _ _ h1
    split at h
    · rename_i hm
      unfold validate1 at h
      obtain ⟨d1, e1, h⟩ := bind_ok _ _ _ h; have e1 := dim_ok _ _ _ e1
      obtain ⟨d2, e2, h⟩ := bind_ok _ _ _ h; have e2 := dim_ok _ _ _ e2
      obtain ⟨_, r1, h⟩ := bind_ok _ _ _ h; have r1 := require_ok _ _ r1
      obtain ⟨_, r2, h⟩ := bind_ok _ _ _ h; have r2 := require_ok _ _ r2
      obtain ⟨_, r3, h⟩ := bind_ok _ _ _ h; have r3 := require_ok _ _ r3
      obtain ⟨d3, e3, h⟩ := bind_ok _ _ _ h; have e3 := dim_ok _ _ _ e3
      obtain ⟨_, r4, h⟩ := bind_ok _ _ _ h; have r4 := require_ok _ _ r4
      obtain ⟨d4, e4, h⟩ := bind_ok _ _ _ h; have e4 := dim_ok _ _ _ e4
      obtain ⟨d5, e5, h⟩ := bind_ok _ _ _ h; have e5 := dim_ok _ _ _ e5
      obtain ⟨_, r5, h⟩ := bind_ok _ _ _ h; have r5 := require_ok _ _ r5
      obtain ⟨_, r6, h⟩ := bind_ok _ _ _ h; have r6 := require_ok _ _ r6
      obtain ⟨_, r7, h⟩ := bind_ok _ _ _ h; have r7 := require_ok _ _ r7
      obtain ⟨_, r8, h⟩ := bind_ok _ _ _ h; have r8 := require_ok _ _ r8
      obtain ⟨_, r9, h⟩ := bind_ok _ _ _ h; have r9 := require_ok _ _ r9
      obtain ⟨d6, e6, h⟩ := bind_ok _ _ _ h; have e6 := dim_ok _ _ _ e6
      obtain ⟨_, r10, h⟩ := bind_ok _ _ _ h; have r10 := require_ok _ _ r10
      obtain ⟨d7, e7, h⟩ := bind_ok _ _ _ h; have e7 := dim_ok _ _ _ e7
      obtain ⟨_, r11, h⟩ := bind_ok _ _ _ h; have r11 := require_ok _ _ r11
      obtain ⟨d8, e8, h⟩ := bind_ok _ _ _ h; have e8 := dim_ok _ _ _ e8
      obtain ⟨_, r12, h⟩ := bind_ok _ _ _ h; have r12 := require_ok _ _ r12
      simp only [Bool.and_eq_true, decide_eq_true_eq] at h1 r1 r2 r3 r4 r5 r6 r7 r8 r9 r10 r11 r12
      cases h
      subst r10 r11 r4 r12
      obtain ⟨a, b, hcov, ha, hb⟩ := len3 _ _ r3 e3
      have hsz1 : ∀ (l : List Nat) (k : Nat), l.length = 1 → size l = k → l = [k] := by
        intro l k hl hs
        match l, hl with
        | [x], _ => simp [size] at hs; rw [hs]
      refine ⟨Or.inr (Or.inl ⟨rfl, hc, ?_, r2, ?_, hsz1 _ _ r6 r7, hsz1 _ _ r8 r9, hlup _ _ e6 e7, e8⟩), rfl⟩
      · exact len2 _ _ _ h1 (by rw [e1, r1.1]) (by rw [e2, r1.2])
      · rw [ha] at e4; rw [hb] at e5
        cases e4; cases e5
        rw [hcov, r5.1, r5.2]
    · rename_i hm
      unfold validate2 at h
      obtain ⟨d1, e1, h⟩ := bind_ok _ _ _ h; have e1 := dim_ok _ _ _ e1
      obtain ⟨d2, e2, h⟩ := bind_ok _ _ _ h; have e2 := dim_ok _ _ _ e2
      obtain ⟨_, r1, h⟩ := bind_ok _ _ _ h; have r1 := require_ok _ _ r1
      obtain ⟨_, r2, h⟩ := bind_ok _ _ _ h; have r2 := require_ok _ _ r2
      obtain ⟨_, r3, h⟩ := bind_ok _ _ _ h; have r3 := require_ok _ _ r3
      obtain ⟨d3, e3, h⟩ := bind_ok _ _ _ h; have e3 := dim_ok _ _ _ e3
      obtain ⟨_, r4, h⟩ := bind_ok _ _ _ h; have r4 := require_ok _ _ r4
      obtain ⟨_, r5, h⟩ := bind_ok _ _ _ h; have r5 := require_ok _ _ r5
      obtain ⟨d5, e5, h⟩ := bind_ok _ _ _ h; have e5 := dim_ok _ _ _ e5
      obtain ⟨d6, e6, h⟩ := bind_ok _ _ _ h; have e6 := dim_ok _ _ _ e6
      obtain ⟨_, r6, h⟩ := bind_ok _ _ _ h; have r6 := require_ok _ _ r6
      obtain ⟨_, r7, h⟩ := bind_ok _ _ _ h; have r7 := require_ok _ _ r7
      obtain ⟨d7, e7, h⟩ := bind_ok _ _ _ h; have e7 := dim_ok _ _ _ e7
      obtain ⟨d8, e8, h⟩ := bind_ok _ _ _ h; have e8 := dim_ok _ _ _ e8
      obtain ⟨_, r8, h⟩ := bind_ok _ _ _ h; have r8 := require_ok _ _ r8
      obtain ⟨d9, e9, h⟩ := bind_ok _ _ _ h; have e9 := dim_ok _ _ _ e9
      obtain ⟨_, r9, h⟩ := bind_ok _ _ _ h; have r9 := require_ok _ _ r9
      obtain ⟨d10, e10, h⟩ := bind_ok _ _ _ h; have e10 := dim_ok _ _ _ e10
      obtain ⟨_, r10, h⟩ := bind_ok _ _ _ h; have r10 := require_ok _ _ r10
      obtain ⟨_, r11, h⟩ := bind_ok _ _ _ h; have r11 := require_ok _ _ r11
      simp only [Bool.and_eq_true, decide_eq_true_eq] at h1 r1 r2 r3 r4 r5 r6 r7 r8 r9 r10 r11
      cases h
      subst r9 r10 r4
      obtain ⟨a, b, hcov, _, _⟩ := len3 _ _ r3 e3
      refine ⟨Or.inr (Or.inr ⟨rfl, hc, ?_, r2, ⟨a, b, hcov⟩, ?_, ?_, hlup _ _ e9 e10, r11⟩), rfl⟩
      · exact len2 _ _ _ h1 (by rw [e1, r1.1]) (by rw [e2, r1.2])
      · exact len2 _ _ _ r5 (by rw [e5, r6.1]) (by rw [e6, r6.2])
      · exact len2 _ _ _ r7 (by rw [e7, r8.1]) (by rw [e8, r8.2])
  · cases h

/-- The property as one would like it: no accepted call reads outside its arrays. -/
def C60_spec : Prop :=
  ∀ (s : Shapes) (call : Call), validate s = .ok call → ∀ (a : Arr) (i : Nat), Reads call.ncalc call.ncol call.mode a i → i < allocated s call a

/-- What is not validated: the number of dimensions of `lupcorr`, `pivotmag` and `refmagerr`, and in modes 1 and 2 the size of `refmag` and in mode 2 the
color dimensions of the covariance. -/
def Unchecked (s : Shapes) (call : Call) : Prop :=
  (∀ l, s.lupcorr = some l → l.length = 2) ∧ s.pivotmag.length ≤ 1 ∧ (∀ l, s.refmagerr = some l → l.length ≤ 1) ∧
  (call.mode = 1 → 1 ≤ size (atleast1d s.refmag)) ∧ (call.mode = 2 → size (atleast1d s.refmag) = call.ncalc ∧ s.covmat = [call.ncol, call.ncol, call.ncalc])

theorem row_lt (i j a b : Nat) (hi : i < a) (hj : j < b) : i * b + j < a * b := by
  have : (i + 1) * b ≤ a * b := Nat.mul_le_mul_right b hi
  have e : (i + 1) * b = i * b + b := by ring
  omega

/-- When the call is accepted and the shapes that are not validated are right, every read of the C loop is inside its array.  Missing: the unvalidated
shapes. -/
theorem C60_partial (s : Shapes) (call : Call) (h : validate s = .ok call) (hu : Unchecked s call) (a : Arr) (i : Nat)
    (hr : Reads call.ncalc call.ncol call.mode a i) : i < allocated s call a := by
  obtain ⟨hs, hl⟩ := C60_checked s call h
  obtain ⟨u1, u2, u3, u4, u5⟩ := hu
  have hlup : (∀ l, s.lupcorr = some l → l[0]? = some call.ncalc ∧ l[1]? = some call.ncol) → size call.lupcorr = call.ncalc * call.ncol := by
    intro hh
    rw [hl]
    cases hc : s.lupcorr with
    | none => simp [size]
    | some l =>
      have := len2 l _ _ (u1 l hc) (hh l hc).1 (hh l hc).2
      simp [this, size]
  have hpiv : ∀ k, (atleast1d s.pivotmag)[0]? = some k → size (atleast1d s.pivotmag) = k := by
    intro k hk
    have : (atleast1d s.pivotmag).length = 1 := by
      unfold atleast1d
      by_cases hn : s.pivotmag = []
      · rw [if_pos hn]; rfl
      · rw [if_neg hn]
        have : s.pivotmag.length ≠ 0 := fun hh => hn (List.length_eq_zero_iff.mp hh)
        omega
    rw [len1 _ _ this hk]; simp [size]
  have hrme : ∀ k, (refmagerrShape s)[0]? = some k → size (refmagerrShape s) = k := by
    intro k hk
    have : (refmagerrShape s).length = 1 := by
      unfold refmagerrShape
      cases hre : s.refmagerr with
      | none => rfl
      | some l =>
        simp only
        unfold atleast1d
        by_cases hn : l = []
        · rw [if_pos hn]; rfl
        · rw [if_neg hn]
          have h1 := u3 l hre
          have : l.length ≠ 0 := fun hh => hn (List.length_eq_zero_iff.mp hh)
          omega
    rw [len1 _ _ this hk]; simp [size]
  obtain ⟨mode, ncalc, ncol, lup⟩ := call
  simp only at *
  rcases hs with ⟨rfl, hs⟩ | ⟨rfl, hs⟩ | ⟨rfl, hs⟩
  · obtain ⟨a1, a2, a3, a4, a5, a6, a7, a8, a9⟩ := hs
    cases hr with
    | cov0 i t hi ht => simpa [allocated, a4, size] using ht
    | magerr0 i m hi hm => simp only [allocated, a6, size, List.prod_cons, List.prod_nil, mul_one]; exact row_lt _ _ _ _ hi hm
    | slope0 i j hi hj => simpa [allocated, a2, size] using hj
    | c0 i j hi hj => simpa [allocated, a1, size] using hj
    | refmagerr0 i hi => simp only [allocated, a9]; exact hi
    | refmag0 i hi => simp only [allocated, a5]; exact hi
    | pivotmag0 i hi => simp only [allocated, hpiv _ a3]; omega
    | lupcorr0 i j hi hj => simp only [allocated, hlup a8]; exact row_lt _ _ _ _ hi hj
    | color0 i j hi hj => simp only [allocated, a7, size, List.prod_cons, List.prod_nil, mul_one]; exact row_lt _ _ _ _ hi hj
  · obtain ⟨a1, a2, a3, a4, a6, a7, a8, a9⟩ := hs
    have hc2 : size s.covmat = ncol * ncol * ncalc := by rw [a4]; simp [size]; ring
    cases hr with
    | cov1 t ht => simp only [allocated, hc2]; exact ht
    | magerr1 m hm => simpa [allocated, a6, size] using hm
    | slope1 i j hi hj => simp only [allocated, a2, size, List.prod_cons, List.prod_nil, mul_one]; exact row_lt _ _ _ _ hi hj
    | c1 i j hi hj => simp only [allocated, a1, size, List.prod_cons, List.prod_nil, mul_one]; exact row_lt _ _ _ _ hi hj
    | refmagerr1 i hi => simp only [allocated, hrme _ a9]; omega
    | refmag1 i hi => simp only [allocated]; have := u4 rfl; omega
    | pivotmag1 i hi => simp only [allocated, a3]; exact hi
    | lupcorr1 i j hi hj => simp only [allocated, hlup a8]; exact row_lt _ _ _ _ hi hj
    | color1 i j hi hj => simpa [allocated, a7, size] using hj
  · obtain ⟨a1, a2, a3, a4, a6, a7, a8, a9⟩ := hs
    obtain ⟨v1, v2⟩ := u5 rfl
    have hc2 : size s.covmat = ncol * ncol * ncalc := by rw [v2]; simp [size]; ring
    cases hr with
    | cov2 t ht => simp only [allocated, hc2]; exact ht
    | magerr2 i m hi hm => simp only [allocated, a6, size, List.prod_cons, List.prod_nil, mul_one]; exact row_lt _ _ _ _ hi hm
    | slope2 i j hi hj => simp only [allocated, a2, size, List.prod_cons, List.prod_nil, mul_one]; exact row_lt _ _ _ _ hi hj
    | slope2' i j hi hj =>
      simp only [allocated, a2, size, List.prod_cons, List.prod_nil, mul_one]
      have := row_lt 0 _ ncalc ncol (by omega) hj
      simpa using this
    | c2 i j hi hj => simp only [allocated, a1, size, List.prod_cons, List.prod_nil, mul_one]; exact row_lt _ _ _ _ hi hj
    | refmagerr2 i hi => simp only [allocated, a9]; exact hi
    | refmag2 i hi => simp only [allocated, v1]; exact hi
    | pivotmag2 i hi => simp only [allocated, a3]; exact hi
    | lupcorr2 i j hi hj => simp only [allocated, hlup a8]; exact row_lt _ _ _ _ hi hj
    | color2 i j hi hj => simp only [allocated, a7, size, List.prod_cons, List.prod_nil, mul_one]; exact row_lt _ _ _ _ hi hj

/-- A pairwise call with a covariance array of the wrong size is accepted and read beyond its end; so is one with too few reference magnitudes. -/
theorem C60_false : ¬ C60_spec ∧
    ∃ (s : Shapes) (call : Call), validate s = .ok call ∧ s.covmat = [call.ncol, call.ncol, call.ncalc] ∧ Reads call.ncalc call.ncol call.mode .refmag 1 ∧
      allocated s call .refmag = 1 := by
  constructor
  · intro h
    have h1 := h ⟨[1, 1, 2], [2, 2], [2, 2], [2], [2], [2, 3], [2, 2], some [2], none⟩ ⟨2, 2, 2, [2, 2]⟩ rfl .covmat 7 (Reads.cov2 7 (by decide))
    exact absurd h1 (by decide)
  · exact ⟨⟨[1, 1, 2], [2, 1], [2, 1], [2], [1], [2, 2], [2, 1], some [2], none⟩, ⟨2, 2, 1, [2, 1]⟩, rfl, rfl, Reads.refmag2 1 (by decide), rfl⟩

/-- Consistent calls of each mode are accepted. -/
theorem C60_accepts (ngal nz ncol : Nat) :
    validate ⟨[ncol, ncol], [ncol], [ncol], [], [ngal], [ngal, ncol + 1], [ngal, ncol], some [ngal], none⟩ = .ok ⟨0, ngal, ncol, [ngal, ncol]⟩ ∧
    validate ⟨[ncol, ncol, nz], [nz, ncol], [nz, ncol], [nz], [], [ncol + 1], [ncol], none, some [nz, ncol]⟩ = .ok ⟨1, nz, ncol, [nz, ncol]⟩ ∧
    validate ⟨[ncol, ncol, nz], [nz, ncol], [nz, ncol], [nz], [nz], [nz, ncol + 1], [nz, ncol], none, none⟩ = .ok ⟨2, nz, ncol, [nz, ncol]⟩ := by
  refine ⟨?_, ?_, ?_⟩ <;>
    simp [validate, validate0, validate1, validate2, require, dim, atleast1d, size, refmagerrShape, bind, Except.bind, pure, Except.pure]

example : Unchecked ⟨[2, 2, 3], [3, 2], [3, 2], [3], [3], [3, 3], [3, 2], none, none⟩ ⟨2, 3, 2, [3, 2]⟩ := by
  refine ⟨by simp, by simp, by simp, by simp, fun _ => ⟨rfl, rfl⟩⟩

/-! ## C108 -/

/-- A buffer holds a covariance array `T` (color, color, redshift) with a given memory layout. -/
def Holds (n nz : Nat) (buf : Nat → α) (pos : Nat → Nat → Nat → Nat) (T : Nat → Nat → Nat → α) : Prop :=
  ∀ j k i, j < n → k < n → i < nz → buf (pos j k i) = T j k i

/-- Redshift outermost, as results of fancy indexing on the last axis are laid out. -/
def layoutZ (n : Nat) : Nat → Nat → Nat → Nat := fun j k i => i * (n * n) + (j * n + k)

/-- The ordinary C order of an array (ncol, ncol, nz). -/
def layoutC (n nz : Nat) : Nat → Nat → Nat → Nat := fun j k i => (j * n + k) * nz + i

/-- Fortran order. -/
def layoutF (n : Nat) : Nat → Nat → Nat → Nat := fun j k i => j + n * (k + n * i)

/-- What the C loop reads in modes 1 and 2 (`chisq_dist.c:232, 344`). -/
def readCov (n : Nat) (buf : Nat → α) (j k i : Nat) : α := buf (n * n * i + (j * n + k))

/-- The reads above are those of the model. -/
theorem readCov_model (lib : Lib n α) (o : Opts α) (b b' : Buf α) (i : Nat) (h : ∀ j k : Fin n, readCov n b.covmat j k i = readCov n b'.covmat j k i)
    (hb : { b with covmat := b'.covmat } = b') : mode1 lib o b i = mode1 lib o b' i ∧ mode2 lib o b i = mode2 lib o b' i := by
  have hh : (fun j k : Fin n => b.covmat (n * n * i + (j * n + k))) = fun j k : Fin n => b'.covmat (n * n * i + (j * n + k)) := by
    funext j k; exact h j k
  constructor
  · unfold mode1; rw [hh, ← hb]
  · unfold mode2; rw [hh, ← hb]

/-- The property as one would like it: the memory layout does not matter. -/
def C108_spec : Prop :=
  ∀ (n nz : Nat) (buf buf' : Nat → ℚ) (T : Nat → Nat → Nat → ℚ), Holds n nz buf (layoutC n nz) T → Holds n nz buf' (layoutZ n) T →
    ∀ j k i, j < n → k < n → i < nz → readCov n buf j k i = readCov n buf' j k i

/-- With redshift outermost each redshift gets its own covariance; in Fortran order too if the matrices are symmetric; in C order if there is only one
redshift.  Missing: C order with several redshifts. -/
theorem C108_partial (n nz : Nat) (buf : Nat → α) (T : Nat → Nat → Nat → α) :
    (Holds n nz buf (layoutZ n) T → ∀ j k i, j < n → k < n → i < nz → readCov n buf j k i = T j k i) ∧
    (Holds n nz buf (layoutF n) T → (∀ j k i, T j k i = T k j i) → ∀ j k i, j < n → k < n → i < nz → readCov n buf j k i = T j k i) ∧
    (nz = 1 → Holds n nz buf (layoutC n nz) T → ∀ j k i, j < n → k < n → i < nz → readCov n buf j k i = T j k i) := by
  refine ⟨?_, ?_, ?_⟩
  · intro h j k i hj hk hi
    rw [← h j k i hj hk hi]
    unfold readCov layoutZ
    congr 1; ring
  · intro h hs j k i hj hk hi
    rw [hs, ← h k j i hk hj hi]
    unfold readCov layoutF
    congr 1; ring
  · intro h1 h j k i hj hk hi
    rw [← h j k i hj hk hi]
    unfold readCov layoutC
    have : i = 0 := by omega
    subst this h1
    simp

/-- A C-ordered array with several redshifts is misread. -/
theorem C108_false : ¬ C108_spec := by
  intro h
  have h2 := h 2 2 (fun t => if t = 1 then 1 else 0) (fun t => if t = 4 then 1 else 0) (fun j k i => if j = 0 ∧ k = 0 ∧ i = 1 then 1 else 0)
    (fun j k i hj hk hi => by
      unfold layoutC
      have : j = 0 ∨ j = 1 := by omega
      have : k = 0 ∨ k = 1 := by omega
      have : i = 0 ∨ i = 1 := by omega
      rcases ‹j = 0 ∨ j = 1› with rfl | rfl <;> rcases ‹k = 0 ∨ k = 1› with rfl | rfl <;> rcases ‹i = 0 ∨ i = 1› with rfl | rfl <;> simp)
    (fun j k i hj hk hi => by
      unfold layoutZ
      have : j = 0 ∨ j = 1 := by omega
      have : k = 0 ∨ k = 1 := by omega
      have : i = 0 ∨ i = 1 := by omega
      rcases ‹j = 0 ∨ j = 1› with rfl | rfl <;> rcases ‹k = 0 ∨ k = 1› with rfl | rfl <;> rcases ‹i = 0 ∨ i = 1› with rfl | rfl <;> simp)
    0 0 1 (by omega) (by omega) (by omega)
  norm_num [readCov] at h2

end Redmapper.Chisq
