/-
Properties of the backgrounds: C40-C43, C96-C98.
-/
import Verif.Model.Background
import Verif.Props.Utilities
import Mathlib.Tactic.IntervalCases
import Mathlib.Algebra.BigOperators.Ring.List
import Mathlib.Algebra.Order.BigOperators.Group.List

set_option linter.unusedSectionVars false

namespace Redmapper.Background

open Redmapper.Utilities

variable {α : Type} [Field α] [LinearOrder α] [IsStrictOrderedRing α]

/-! ## C40 -/

/-- `x` lies in bin `k`: above the lower edge, up to the next one; the last bin has the given size. -/
def InBin (bins : List α) (bs : α) (k : Nat) (x : α) : Prop :=
  k < bins.length ∧ bins.getD k 0 < x ∧ x ≤ (if k + 1 < bins.length then bins.getD (k + 1) 0 else bins.getD k 0 + bs)

/-- Equally spaced. -/
def Uniform (bins : List α) (x0 dx : α) : Prop := ∀ k, k < bins.length → bins.getD k 0 = x0 + k * dx

/-- Bin `k` is as near to `z` as any other. -/
def Nearest (bins : List α) (z : α) (k : Nat) : Prop :=
  k < bins.length ∧ ∀ j, j < bins.length → |bins.getD k 0 - z| ≤ |bins.getD j 0 - z|

theorem ssLeft_inBin {bins : List α} (h : Grid bins) (bs x : α) (k : Nat) (hk : InBin bins bs k x) : ssLeft bins x = k + 1 := by
  obtain ⟨h1, h2, h3⟩ := hk
  refine ssLeft_eq bins x (k + 1) (by omega) ?_ ?_
  · intro j hj
    exact lt_of_le_of_lt (h.le (show j ≤ k by omega) h1) h2
  · intro hk; rw [if_pos hk] at h3; exact h3

theorem inBin_of_between {bins : List α} (h : Grid bins) (bs x : α) (h1 : bins.getD 0 0 < x)
    (h2 : x ≤ bins.getD (bins.length - 1) 0 + bs) : ∃ k, InBin bins bs k x := by
  have hl := h.1
  by_cases hlast : bins.getD (bins.length - 1) 0 < x
  · refine ⟨bins.length - 1, by omega, hlast, ?_⟩
    rw [if_neg (by omega)]; exact h2
  · -- the last node below x
    have hex : ∃ k, k + 1 < bins.length ∧ bins.getD k 0 < x ∧ x ≤ bins.getD (k + 1) 0 := by
      by_contra hno
      have : ∀ k, k < bins.length → bins.getD k 0 < x := by
        intro k
        induction k with
        | zero => intro _; exact h1
        | succ k ih =>
          intro hk
          by_contra hc
          exact hno ⟨k, hk, ih (by omega), not_lt.mp hc⟩
      exact hlast (this (bins.length - 1) (by omega))
    obtain ⟨k, a, b, c⟩ := hex
    exact ⟨k, by omega, b, by rw [if_pos a]; exact c⟩

theorem roundHE_near [FloorRing α] (t : α) : |t - roundHE t| ≤ 1 / 2 := by
  have h1 := Int.floor_le t
  have h2 := Int.lt_floor_add_one t
  unfold roundHE
  by_cases ha : t - ⌊t⌋ < 1 / 2
  · rw [if_pos ha, abs_of_nonneg (by linarith)]; linarith
  · rw [if_neg ha]
    by_cases hb : 1 / 2 < t - ⌊t⌋
    · rw [if_pos hb]; push_cast; rw [abs_of_nonpos (by linarith)]; linarith
    · rw [if_neg hb]
      have he : t - ⌊t⌋ = 1 / 2 := le_antisymm (not_lt.mp hb) (not_lt.mp ha)
      by_cases hc : ⌊t⌋ % 2 = 0
      · rw [if_pos hc, he, abs_of_nonneg (by norm_num)]
      · rw [if_neg hc]; push_cast
        have : t - ((⌊t⌋ : α) + 1) = -(1 / 2) := by linarith
        rw [this, abs_neg, abs_of_nonneg (by norm_num)]

/-- Rounding and clipping gives the nearest of 0..n-1. -/
theorem clip_round_near [FloorRing α] (t : α) (n : Nat) (hn : 1 ≤ n) (j : Nat) (hj : j < n) :
    |t - ((max 0 (min (roundHE t) ((n : Int) - 1))).toNat : α)| ≤ |t - j| := by
  have hr := roundHE_near t
  rw [abs_le] at hr
  set r := roundHE t with hrdef
  have hjn : (j : α) ≤ (n : α) - 1 := by
    have : (j : α) + 1 ≤ n := by exact_mod_cast hj
    linarith
  have hj0 : (0 : α) ≤ j := Nat.cast_nonneg j
  by_cases h0 : r < 0
  · have e : (max 0 (min r ((n : Int) - 1))).toNat = 0 := by omega
    rw [e, Nat.cast_zero, sub_zero]
    have hr1 : (r : α) ≤ -1 := by exact_mod_cast (by omega : r ≤ -1)
    have ht : t < 0 := by linarith
    rw [abs_of_neg ht, abs_of_nonpos (by linarith)]; linarith
  · by_cases h1 : (n : Int) - 1 < r
    · have e : (max 0 (min r ((n : Int) - 1))).toNat = n - 1 := by omega
      have hr1 : (n : α) ≤ r := by exact_mod_cast (by omega : (n : Int) ≤ r)
      have ec : ((n - 1 : Nat) : α) = (n : α) - 1 := by rw [Nat.cast_sub hn]; simp
      rw [e, ec, abs_of_nonneg (by linarith), abs_of_nonneg (by linarith)]; linarith
    · have e : (((max 0 (min r ((n : Int) - 1))).toNat : Nat) : Int) = r := by omega
      have ec : (((max 0 (min r ((n : Int) - 1))).toNat : Nat) : α) = (r : α) := by
        have := congrArg (fun i : Int => (i : α)) e
        simpa only [Int.cast_natCast] using this
      rw [ec]
      have hle : |t - r| ≤ 1 / 2 := abs_le.mpr hr
      by_cases hjr : (j : Int) = r
      · have : (j : α) = (r : α) := by rw [← hjr]; simp
        rw [this]
      · have hge : (1 : α) ≤ |(r : α) - j| := by
          have : (1 : Int) ≤ |r - (j : Int)| := Int.one_le_abs (by omega)
          exact_mod_cast this
        have htri : |(r : α) - j| ≤ |t - r| + |t - j| := by
          have : (r : α) - j = -(t - r) + (t - j) := by ring
          rw [this]
          refine (abs_add_le _ _).trans ?_
          rw [abs_neg]
        linarith

theorem zIndex_nearest [FloorRing α] (zbins : List α) (z0 dz z : α) (hdz : 0 < dz) (hl : 2 ≤ zbins.length) (hu : Uniform zbins z0 dz) :
    Nearest zbins z (zIndex zbins z) := by
  have e0 : zbins.getD 0 0 = z0 := by rw [hu 0 (by omega)]; simp
  have e1 : zbins.getD 1 0 = z0 + dz := by rw [hu 1 (by omega)]; simp
  unfold zIndex
  rw [e0, e1]
  have ed : z0 + dz - z0 = dz := by ring
  rw [ed]
  set t := (z - z0) / dz with ht
  have hz : z = z0 + t * dz := by rw [ht]; field_simp; ring
  have hlt : (max 0 (min (roundHE t) ((zbins.length : Int) - 1))).toNat < zbins.length := by omega
  refine ⟨hlt, ?_⟩
  intro j hj
  rw [hu _ hlt, hu j hj, hz]
  have key := clip_round_near t zbins.length (by omega) j hj
  have f : ∀ k : α, |z0 + k * dz - (z0 + t * dz)| = |t - k| * dz := by
    intro k
    have : z0 + k * dz - (z0 + t * dz) = -((t - k) * dz) := by ring
    rw [this, abs_neg, abs_mul, abs_of_pos hdz]
  rw [f, f]
  exact mul_le_mul_of_nonneg_right key hdz.le

theorem inBin_above {bins : List α} {bs : α} (h : Grid bins) (hbs : 0 < bs) {k : Nat} {x : α} (hb : InBin bins bs k x) :
    x ≤ bins.getD (bins.length - 1) 0 + bs := by
  obtain ⟨h1, h2, h3⟩ := hb
  by_cases hj : k + 1 < bins.length
  · rw [if_pos hj] at h3
    have := h.le (show k + 1 ≤ bins.length - 1 by omega) (by omega)
    linarith
  · rw [if_neg hj] at h3
    have : k = bins.length - 1 := by omega
    rw [← this]; exact h3

/-- A well-formed table. -/
structure TableOK (t : Table α) : Prop where
  ref : Grid t.refmagbins
  chi : Grid t.chisqbins
  z : ∃ z0 dz, 0 < dz ∧ Uniform t.zbins z0 dz
  zlen : 2 ≤ t.zbins.length
  refsize : 0 < t.refmagbinsize
  chisize : 0 < t.chisqbinsize

/-- The value for a galaxy in chisq bin `k`, refmag bin `r`: that of the nearest redshift; infinite when empty, unless allowed. -/
def LookupIs [FloorRing α] (t : Table α) (allow0 : Bool) (z chisq refmag : α) (r k : Nat) : Prop :=
  ∃ i, Nearest t.zbins z i ∧
    lookup t allow0 z chisq refmag = if t.sigma r k i = 0 ∧ allow0 = false then none else some (t.sigma r k i)

/-- The property as one would like it; the lowest chisq edge belongs to the first bin. -/
def C40_spec : Prop :=
  ∀ (t : Table ℚ), TableOK t → ∀ (allow0 : Bool) (z chisq refmag : ℚ) (r k : Nat), InBin t.refmagbins t.refmagbinsize r refmag →
    (InBin t.chisqbins t.chisqbinsize k chisq ∨ (k = 0 ∧ chisq = t.chisqbins.getD 0 0)) → LookupIs t allow0 z chisq refmag r k

theorem lookup_inBin [FloorRing α] (t : Table α) (ht : TableOK t) (allow0 : Bool) (z chisq refmag : α) (r k : Nat)
    (hr : InBin t.refmagbins t.refmagbinsize r refmag) (hk : InBin t.chisqbins t.chisqbinsize k chisq) :
    LookupIs t allow0 z chisq refmag r k := by
  obtain ⟨z0, dz, hdz, hu⟩ := ht.z
  refine ⟨_, zIndex_nearest t.zbins z0 dz z hdz ht.zlen hu, ?_⟩
  have hb1 := inBin_above ht.chi ht.chisize hk
  have hb2 := inBin_above ht.ref ht.refsize hr
  have ha1 : t.chisqbins.getD 0 0 < chisq := lt_of_le_of_lt (ht.chi.le (Nat.zero_le _) hk.1) hk.2.1
  have ha2 : t.refmagbins.getD 0 0 < refmag := lt_of_le_of_lt (ht.ref.le (Nat.zero_le _) hr.1) hr.2.1
  have hc : ¬ (chisq < t.chisqbins.getD 0 0 ∨ t.chisqbins.getD (t.chisqbins.length - 1) 0 + t.chisqbinsize < chisq) := by
    rintro (h | h)
    · exact absurd h (not_lt.mpr ha1.le)
    · exact absurd h (not_lt.mpr hb1)
  have hm : ¬ (refmag ≤ t.refmagbins.getD 0 0 ∨ t.refmagbins.getD (t.refmagbins.length - 1) 0 + t.refmagbinsize < refmag) := by
    rintro (h | h)
    · exact absurd h (not_le.mpr ha2)
    · exact absurd h (not_lt.mpr hb2)
  unfold lookup
  simp only [if_neg hc, if_neg hm, ssLeft_inBin ht.chi _ _ _ hk, ssLeft_inBin ht.ref _ _ _ hr]
  have e : ∀ n j : Nat, pyIdx n (((j + 1 : Nat) : Int) - 1) = j := by
    intro n j; unfold pyIdx; rw [if_neg (by omega)]; omega
  rw [e, e]
  by_cases h0 : t.sigma r k (zIndex t.zbins z) = 0
  · cases allow0 <;> simp [h0]
  · simp [h0]

/-- Queries in a bin get its value at the nearest redshift, infinity for an empty bin (unless zeros are allowed); queries in no bin get
infinity.  Missing: the lowest chisq edge itself. -/
theorem C40_partial [FloorRing α] (t : Table α) (ht : TableOK t) (allow0 : Bool) (z chisq refmag : α)
    (hne : chisq ≠ t.chisqbins.getD 0 0) :
    (∀ r k, InBin t.refmagbins t.refmagbinsize r refmag → InBin t.chisqbins t.chisqbinsize k chisq →
      LookupIs t allow0 z chisq refmag r k) ∧
    ((¬ (∃ r, InBin t.refmagbins t.refmagbinsize r refmag) ∨ ¬ (∃ k, InBin t.chisqbins t.chisqbinsize k chisq)) →
      lookup t allow0 z chisq refmag = none) := by
  refine ⟨fun r k hr hk => lookup_inBin t ht allow0 z chisq refmag r k hr hk, ?_⟩
  rintro (h | h)
  · have hm : refmag ≤ t.refmagbins.getD 0 0 ∨ t.refmagbins.getD (t.refmagbins.length - 1) 0 + t.refmagbinsize < refmag := by
      by_contra hc
      push Not at hc
      exact h (inBin_of_between ht.ref _ _ hc.1 hc.2)
    unfold lookup
    simp only [if_pos hm]
    split <;> rfl
  · have hm : chisq < t.chisqbins.getD 0 0 ∨ t.chisqbins.getD (t.chisqbins.length - 1) 0 + t.chisqbinsize < chisq := by
      by_contra hc
      push Not at hc
      exact h (inBin_of_between ht.chi _ _ (lt_of_le_of_ne hc.1 (Ne.symm hne)) hc.2)
    unfold lookup
    simp only [if_pos hm]

/-- At the lowest chisq edge the value is that of the last chisq bin. -/
theorem C40_edge [FloorRing α] (t : Table α) (ht : TableOK t) (allow0 : Bool) (z refmag : α) (r : Nat)
    (hr : InBin t.refmagbins t.refmagbinsize r refmag) :
    LookupIs t allow0 z (t.chisqbins.getD 0 0) refmag r (t.chisqbins.length - 1) := by
  obtain ⟨z0, dz, hdz, hu⟩ := ht.z
  refine ⟨_, zIndex_nearest t.zbins z0 dz z hdz ht.zlen hu, ?_⟩
  have hb2 := inBin_above ht.ref ht.refsize hr
  have ha2 : t.refmagbins.getD 0 0 < refmag := lt_of_le_of_lt (ht.ref.le (Nat.zero_le _) hr.1) hr.2.1
  have hl := ht.chi.1
  have hc : ¬ (t.chisqbins.getD 0 0 < t.chisqbins.getD 0 0 ∨
      t.chisqbins.getD (t.chisqbins.length - 1) 0 + t.chisqbinsize < t.chisqbins.getD 0 0) := by
    rintro (h | h)
    · exact lt_irrefl _ h
    · have h1 := ht.chi.le (Nat.zero_le (t.chisqbins.length - 1)) (by omega)
      have h2 := ht.chisize
      linarith
  have hm : ¬ (refmag ≤ t.refmagbins.getD 0 0 ∨ t.refmagbins.getD (t.refmagbins.length - 1) 0 + t.refmagbinsize < refmag) := by
    rintro (h | h)
    · exact absurd h (not_le.mpr ha2)
    · exact absurd h (not_lt.mpr hb2)
  have hs : ssLeft t.chisqbins (t.chisqbins.getD 0 0) = 0 := ssLeft_eq _ _ 0 (Nat.zero_le _) (by simp) (fun _ => le_refl _)
  unfold lookup
  simp only [if_neg hc, if_neg hm, hs, ssLeft_inBin ht.ref _ _ _ hr]
  have e : ∀ n j : Nat, pyIdx n (((j + 1 : Nat) : Int) - 1) = j := by
    intro n j; unfold pyIdx; rw [if_neg (by omega)]; omega
  have e' : pyIdx t.chisqbins.length (((0 : Nat) : Int) - 1) = t.chisqbins.length - 1 := by
    unfold pyIdx; rw [if_pos (by omega)]; omega
  rw [e, e']
  by_cases h0 : t.sigma r (t.chisqbins.length - 1) (zIndex t.zbins z) = 0
  · cases allow0 <;> simp [h0]
  · simp [h0]

/-- A small table. -/
def smallTable : Table ℚ where
  refmagbins := [12, 13]
  chisqbins := [0, 1, 2]
  zbins := [1 / 10, 2 / 10]
  refmagbinsize := 1
  chisqbinsize := 1
  sigma := fun r k i => r + 10 * k + 100 * i + 1

theorem smallTable_ok : TableOK smallTable := by
  refine ⟨⟨by decide, by unfold smallTable; norm_num⟩, ⟨by decide, by unfold smallTable; norm_num⟩, ⟨1 / 10, 1 / 10, by norm_num, ?_⟩, by decide,
    by unfold smallTable; norm_num, by unfold smallTable; norm_num⟩
  intro k hk
  have : k < 2 := hk
  interval_cases k <;> norm_num [smallTable]

example : InBin smallTable.refmagbins smallTable.refmagbinsize 0 (25 / 2) ∧ InBin smallTable.chisqbins smallTable.chisqbinsize 2 (5 / 2) := by
  constructor <;> norm_num [InBin, smallTable]

theorem C40_edge_false : ¬ C40_spec := by
  intro h
  have hr : InBin smallTable.refmagbins smallTable.refmagbinsize 0 (25 / 2) := by norm_num [InBin, smallTable]
  obtain ⟨i, hi, e⟩ := h smallTable smallTable_ok true (1 / 10) 0 (25 / 2) 0 0 hr (Or.inr ⟨rfl, by norm_num [smallTable]⟩)
  obtain ⟨j, hj, e'⟩ := C40_edge smallTable smallTable_ok true (1 / 10) (25 / 2) 0 hr
  have e0 : smallTable.chisqbins.getD 0 0 = 0 := by norm_num [smallTable]
  rw [e0, e] at e'
  have hi2 : i < 2 := hi.1
  have hj2 : j < 2 := hj.1
  interval_cases i <;> interval_cases j <;> norm_num [smallTable] at e'

/-! ## C41 -/

theorem zred_value {zb rb : List α} (hz : Grid zb) (hr : Grid rb) (zs rs : α) (sigma : Nat → Nat → α) (k r : Nat) (zred refmag : α)
    (hk : InBin zb zs k zred) (hm : InBin rb rs r refmag) : zredLookup zb rb sigma zred refmag = some (sigma r k) := by
  have h1 := hk.1
  have h2 := hm.1
  unfold zredLookup
  simp only [ssLeft_inBin hz _ _ _ hk, ssLeft_inBin hr _ _ _ hm]
  have e : ∀ n j : Nat, pyIdx n (((j + 1 : Nat) : Int) - 1) = j := by
    intro n j; unfold pyIdx; rw [if_neg (by omega)]; omega
  rw [if_neg (by omega), if_neg (by omega), if_neg (by omega), if_neg (by omega), e, e]

/-- Queries in a bin get its value, queries below the lowest edges get infinity.  Missing: queries above the range. -/
theorem C41_partial {zb rb : List α} (hz : Grid zb) (hr : Grid rb) (zs rs : α) (sigma : Nat → Nat → α) (zred refmag : α) :
    (∀ k r, InBin zb zs k zred → InBin rb rs r refmag → zredLookup zb rb sigma zred refmag = some (sigma r k)) ∧
    (zred ≤ zb.getD 0 0 ∨ refmag ≤ rb.getD 0 0 → zredLookup zb rb sigma zred refmag = none) := by
  refine ⟨fun k r => zred_value hz hr zs rs sigma k r zred refmag, ?_⟩
  rintro (h | h)
  · have hs : ssLeft zb zred = 0 := ssLeft_eq _ _ 0 (Nat.zero_le _) (by simp) (fun _ => h)
    unfold zredLookup
    simp [hs]
  · have hs : ssLeft rb refmag = 0 := ssLeft_eq _ _ 0 (Nat.zero_le _) (by simp) (fun _ => h)
    unfold zredLookup
    simp [hs]

/-- However far above the range, a query reads the last bin. -/
theorem C41_above {zb rb : List α} (hz : Grid zb) (hr : Grid rb) (rs : α) (sigma : Nat → Nat → α) (r : Nat) (zred refmag : α)
    (hm : InBin rb rs r refmag) (h : zb.getD (zb.length - 1) 0 < zred) :
    zredLookup zb rb sigma zred refmag = some (sigma r (zb.length - 1)) := by
  have hl := hz.1
  refine zred_value hz hr (zred - zb.getD (zb.length - 1) 0) rs sigma _ r zred refmag ⟨by omega, h, ?_⟩ hm
  rw [if_neg (by omega)]
  linarith

/-- The property as one would like it. -/
def C41_spec : Prop :=
  ∀ (zb rb : List ℚ), Grid zb → Grid rb → ∀ (zs rs : ℚ), 0 < zs → 0 < rs → ∀ (sigma : Nat → Nat → ℚ) (zred refmag : ℚ),
    (∀ k r, InBin zb zs k zred → InBin rb rs r refmag → zredLookup zb rb sigma zred refmag = some (sigma r k)) ∧
    (¬ (∃ k, InBin zb zs k zred) → zredLookup zb rb sigma zred refmag = none)

theorem C41_above_false : ¬ C41_spec := by
  intro h
  have hz : Grid ([1, 2] : List ℚ) := ⟨by decide, by norm_num⟩
  have hn : ¬ ∃ k, InBin ([1, 2] : List ℚ) 1 k 50 := by
    rintro ⟨k, hk, _, h3⟩
    have : k < 2 := hk
    interval_cases k <;> norm_num at h3
  have h2 := (h [1, 2] [1, 2] hz hz 1 1 (by norm_num) (by norm_num) (fun _ _ => 7) 50 (3 / 2)).2 hn
  have h1 := C41_above hz hz 1 (fun _ _ => (7 : ℚ)) 0 50 (3 / 2) (by norm_num [InBin]) (by norm_num)
  rw [h1] at h2
  exact absurd h2 (by simp)

example : InBin ([1, 2] : List ℚ) 1 1 (5 / 2) := by norm_num [InBin]

/-! ## C42 -/

theorem zedge_strictAnti (z0 z1 : ℝ) (n : Nat) (h0 : 0.001 < z0) (h1 : z0 < z1) (hn : 0 < n) {i j : Nat} (hij : i < j) :
    zedge z0 z1 n j < zedge z0 z1 n i := by
  unfold zedge
  have hl : Real.log (z0 - 0.001) < Real.log (z1 + 0.001) := Real.log_lt_log (by linarith) (by linarith)
  have hn' : (0 : ℝ) < n := by exact_mod_cast hn
  have hs : 0 < (Real.log (z1 + 0.001) - Real.log (z0 - 0.001)) / (n : ℝ) := div_pos (by linarith) hn'
  have hc : (i : ℝ) < j := by exact_mod_cast hij
  have := Real.exp_lt_exp.mpr (show Real.log (z0 - 0.001) + (i : ℝ) * ((Real.log (z1 + 0.001) - Real.log (z0 - 0.001)) / (n : ℝ)) <
    Real.log (z0 - 0.001) + (j : ℝ) * ((Real.log (z1 + 0.001) - Real.log (z0 - 0.001)) / (n : ℝ)) by nlinarith)
  simp only
  linarith

theorem zedge_zero (z0 z1 : ℝ) (n : Nat) (h1 : 0 < z1 + 0.001) : zedge z0 z1 n 0 = z1 + 0.001 := by
  unfold zedge
  simp only [Nat.cast_zero, zero_mul, add_zero]
  rw [Real.exp_log h1]; ring

theorem zedge_last (z0 z1 : ℝ) (n : Nat) (h0 : 0.001 < z0) (hn : 0 < n) : zedge z0 z1 n n = z0 - 0.001 := by
  have hn' : (n : ℝ) ≠ 0 := by exact_mod_cast hn.ne'
  unfold zedge
  simp only
  rw [mul_div_cancel₀ _ hn']
  rw [show Real.log (z0 - 0.001) + (Real.log (z1 + 0.001) - Real.log (z0 - 0.001)) = Real.log (z1 + 0.001) by ring]
  rw [Real.exp_log (by linarith)]; ring

theorem zbin_range (z0 z1 bs : ℝ) (hb : 0 < bs) (j : Nat) (hj : j < nzbins z0 z1 bs) : z0 ≤ zbin z0 bs j ∧ zbin z0 bs j < z1 := by
  unfold nzbins at hj
  have h1 : (j : Int) < ⌈(z1 - z0) / bs⌉ := by omega
  rw [Int.lt_ceil] at h1
  have h2 : ((j : Int) : ℝ) = (j : ℝ) := by simp
  rw [h2, lt_div_iff₀ hb] at h1
  unfold zbin
  constructor
  · have : (0 : ℝ) ≤ (j : ℝ) * bs := by positivity
    linarith
  · linarith

/-- Some redshift bin falls on an inner edge between processes. -/
def OnEdge (z0 z1 bs : ℝ) (nproc j : Nat) : Prop := ∃ i, 0 < i ∧ i < nproc ∧ zedge z0 z1 nproc i = zbin z0 bs j

theorem in_worker_iff (z0 z1 bs : ℝ) (nproc : Nat) (w : List Nat) :
    w ∈ workerList z0 z1 bs nproc ↔ w ≠ [] ∧ ∃ i, i < nproc ∧ w = (List.range (nzbins z0 z1 bs)).filter fun j =>
      @decide (zbin z0 bs j < zedge z0 z1 nproc i ∧ zedge z0 z1 nproc (i + 1) < zbin z0 bs j) (Classical.propDecidable _) := by
  classical
  unfold workerList
  rw [List.mem_filter, List.mem_map]
  constructor
  · rintro ⟨⟨i, hi, rfl⟩, h⟩
    refine ⟨by simpa using h, i, List.mem_range.mp hi, ?_⟩
    apply List.filter_congr; intro x _; congr
  · rintro ⟨h, i, hi, rfl⟩
    refine ⟨⟨i, List.mem_range.mpr hi, ?_⟩, by simpa using h⟩
    apply List.filter_congr; intro x _; congr

theorem worker_exists (z0 z1 bs : ℝ) (nproc : Nat) (h0 : 0.001 < z0) (h1 : z0 < z1) (hb : 0 < bs) (hn : 0 < nproc) (j : Nat)
    (hj : j < nzbins z0 z1 bs) (hne : ¬ OnEdge z0 z1 bs nproc j) :
    ∃ i, i < nproc ∧ zbin z0 bs j < zedge z0 z1 nproc i ∧ zedge z0 z1 nproc (i + 1) < zbin z0 bs j := by
  obtain ⟨ha, hc⟩ := zbin_range z0 z1 bs hb j hj
  by_contra hno
  have : ∀ i, i ≤ nproc → zbin z0 bs j < zedge z0 z1 nproc i := by
    intro i
    induction i with
    | zero => intro _; rw [zedge_zero _ _ _ (by linarith)]; linarith
    | succ i ih =>
      intro hi
      have h2 := ih (by omega)
      by_contra hx
      rcases lt_or_eq_of_le (not_lt.mp hx) with h3 | h3
      · exact hno ⟨i, by omega, h2, h3⟩
      · by_cases hlast : i + 1 = nproc
        · rw [hlast, zedge_last _ _ _ h0 hn] at h3; linarith
        · exact hne ⟨i + 1, by omega, by omega, h3⟩
  have h2 := this nproc (le_refl _)
  rw [zedge_last _ _ _ h0 hn] at h2
  linarith

theorem mergeCols_spec {β : Type} (f : Nat → β) (zero : β) (ws : List (List Nat)) (j : Nat) :
    mergeCols f zero ws j = if ∃ w ∈ ws, j ∈ w then f j else zero := by
  classical
  unfold mergeCols
  have gen : ∀ (ws : List (List Nat)) (g : Nat → β),
      ws.foldl (fun out w => fun j => if j ∈ w then f j else out j) g j = if ∃ w ∈ ws, j ∈ w then f j else g j := by
    intro ws
    induction ws with
    | nil => intro g; simp
    | cons w ws ih =>
      intro g
      rw [List.foldl_cons, ih]
      by_cases h1 : ∃ w ∈ ws, j ∈ w
      · rw [if_pos h1, if_pos]
        obtain ⟨w', h2, h3⟩ := h1
        exact ⟨w', List.mem_cons_of_mem _ h2, h3⟩
      · rw [if_neg h1]
        by_cases h2 : j ∈ w
        · rw [if_pos h2, if_pos ⟨w, List.mem_cons_self, h2⟩]
        · rw [if_neg h2, if_neg]
          rintro ⟨w', h3, h4⟩
          rcases List.mem_cons.mp h3 with rfl | h3
          · exact h2 h4
          · exact h1 ⟨w', h3, h4⟩
  rw [gen]

/-- Two processes never share a bin. -/
theorem C42_disjoint (z0 z1 bs : ℝ) (nproc : Nat) (h0 : 0.001 < z0) (h1 : z0 < z1) (hn : 0 < nproc) :
    (workerList z0 z1 bs nproc).Pairwise fun u v => ∀ j, j ∈ u → j ∉ v := by
  classical
  unfold workerList
  apply List.Pairwise.filter
  rw [List.pairwise_map]
  refine (List.pairwise_lt_range (n := nproc)).imp ?_
  intro i k hik j h2 h3
  rw [List.mem_filter] at h2 h3
  have h2 := of_decide_eq_true h2.2
  have h3 := of_decide_eq_true h3.2
  have : zedge z0 z1 nproc k ≤ zedge z0 z1 nproc (i + 1) := by
    rcases Nat.lt_or_ge (i + 1) k with h | h
    · exact (zedge_strictAnti z0 z1 nproc h0 h1 hn h).le
    · rw [show k = i + 1 by omega]
  linarith [h2.2, h3.1]

/-- Every redshift bin below the end of the range is computed exactly when it does not fall on an edge between two processes. -/
theorem C42_iff (z0 z1 bs : ℝ) (nproc : Nat) (h0 : 0.001 < z0) (h1 : z0 < z1) (hb : 0 < bs) (hn : 0 < nproc) (j : Nat)
    (hj : j < nzbins z0 z1 bs) : (∃ w ∈ workerList z0 z1 bs nproc, j ∈ w) ↔ ¬ OnEdge z0 z1 bs nproc j := by
  classical
  constructor
  · rintro ⟨w, hw, hjw⟩ ⟨k, hk0, hkn, he⟩
    obtain ⟨_, i, hi, rfl⟩ := (in_worker_iff _ _ _ _ _).mp hw
    rw [List.mem_filter] at hjw
    have h2 := @of_decide_eq_true _ (Classical.propDecidable _) hjw.2
    rw [← he] at h2
    rcases Nat.lt_or_ge i k with h | h
    · rcases Nat.lt_or_ge (i + 1) k with h' | h'
      · exact absurd (zedge_strictAnti z0 z1 nproc h0 h1 hn h') (not_lt.mpr h2.2.le)
      · rw [show k = i + 1 by omega] at h2; exact lt_irrefl _ h2.2
    · rcases Nat.lt_or_ge k i with h' | h'
      · exact absurd (zedge_strictAnti z0 z1 nproc h0 h1 hn h') (not_lt.mpr h2.1.le)
      · rw [show k = i by omega] at h2; exact lt_irrefl _ h2.1
  · intro hne
    obtain ⟨i, hi, h2⟩ := worker_exists z0 z1 bs nproc h0 h1 hb hn j hj hne
    have hm : j ∈ (List.range (nzbins z0 z1 bs)).filter fun j =>
        @decide (zbin z0 bs j < zedge z0 z1 nproc i ∧ zedge z0 z1 nproc (i + 1) < zbin z0 bs j) (Classical.propDecidable _) := by
      rw [List.mem_filter]
      exact ⟨List.mem_range.mpr hj, (@decide_eq_true_iff _ (Classical.propDecidable _)).mpr h2⟩
    exact ⟨_, (in_worker_iff _ _ _ _ _).mpr ⟨List.ne_nil_of_mem hm, i, hi, rfl⟩, hm⟩

/-- The property as one would like it. -/
def C42_spec : Prop :=
  ∀ (z0 z1 bs : ℝ) (nproc : Nat), 0.001 < z0 → z0 < z1 → 0 < bs → 0 < nproc → ∀ (f : Nat → ℚ) (j : Nat), j < nzbins z0 z1 bs →
    mergeCols f 0 (workerList z0 z1 bs nproc) j = f j

/-- The merged table is that of a single process when no bin falls on an inner edge.  Missing: bins on an edge (and ranges that start at
redshift 0.001 or less, where the logarithm is not defined). -/
theorem C42_partial {β : Type} (f : Nat → β) (zero : β) (z0 z1 bs : ℝ) (nproc : Nat) (h0 : 0.001 < z0) (h1 : z0 < z1) (hb : 0 < bs)
    (hn : 0 < nproc) (hne : ∀ j, j < nzbins z0 z1 bs → ¬ OnEdge z0 z1 bs nproc j) (j : Nat) (hj : j < nzbins z0 z1 bs) :
    mergeCols f zero (workerList z0 z1 bs nproc) j = f j := by
  classical
  rw [mergeCols_spec]
  exact if_pos ((C42_iff z0 z1 bs nproc h0 h1 hb hn j hj).mpr (hne j hj))

/-- One process always does all the bins. -/
example (z0 z1 bs : ℝ) (j : Nat) : ¬ OnEdge z0 z1 bs 1 j := by
  rintro ⟨i, h1, h2, _⟩; omega

theorem edge_example : zedge 0.101 0.399 2 1 = 0.3 := by
  unfold zedge
  have h : Real.exp (Real.log (0.101 - 0.001) + ((1 : Nat) : ℝ) * ((Real.log (0.399 + 0.001) - Real.log (0.101 - 0.001)) / ((2 : Nat) : ℝ))) = 0.2 := by
    have hpos := Real.exp_pos (Real.log (0.101 - 0.001) + ((1 : Nat) : ℝ) * ((Real.log (0.399 + 0.001) - Real.log (0.101 - 0.001)) / ((2 : Nat) : ℝ)))
    set x := Real.exp (Real.log (0.101 - 0.001) + ((1 : Nat) : ℝ) * ((Real.log (0.399 + 0.001) - Real.log (0.101 - 0.001)) / ((2 : Nat) : ℝ))) with hx
    have hsq : x * x = 0.04 := by
      rw [hx, ← Real.exp_add]
      have : Real.log (0.101 - 0.001) + ((1 : Nat) : ℝ) * ((Real.log (0.399 + 0.001) - Real.log (0.101 - 0.001)) / ((2 : Nat) : ℝ)) +
        (Real.log (0.101 - 0.001) + ((1 : Nat) : ℝ) * ((Real.log (0.399 + 0.001) - Real.log (0.101 - 0.001)) / ((2 : Nat) : ℝ))) =
        Real.log (0.101 - 0.001) + Real.log (0.399 + 0.001) := by push_cast; ring
      rw [this, Real.exp_add, Real.exp_log (by norm_num), Real.exp_log (by norm_num)]
      norm_num
    nlinarith
  simp only
  rw [h, Real.exp_log (by norm_num), Real.exp_log (by norm_num)]
  norm_num

theorem C42_edge_false : ¬ C42_spec := by
  classical
  intro h
  have hn : nzbins 0.101 0.399 0.199 = 2 := by
    unfold nzbins
    have : ⌈((0.399 : ℝ) - 0.101) / 0.199⌉ = 2 := by rw [Int.ceil_eq_iff]; constructor <;> norm_num
    rw [this]; rfl
  have h1 := h 0.101 0.399 0.199 2 (by norm_num) (by norm_num) (by norm_num) (by norm_num) (fun _ => 1) 1 (by rw [hn]; norm_num)
  rw [mergeCols_spec, if_neg] at h1
  · exact absurd h1 (by norm_num)
  · rw [C42_iff _ _ _ _ (by norm_num) (by norm_num) (by norm_num) (by norm_num) 1 (by rw [hn]; norm_num)]
    intro hc
    refine hc ⟨1, by norm_num, by norm_num, ?_⟩
    rw [edge_example]
    unfold zbin
    norm_num

/-! ## C43 -/

theorem readPixels_spec (lo : α) (zlim : Nat → α) (big : α) (ngal : Nat) : ∀ (pixels : List (Nat × List (Gal α))) (ctr : Nat) (done : List (Row α)),
    (∀ p ∈ pixels, p.1 = p.2.length) → done.length = ctr → ngal = ctr + (pixels.map Prod.fst).sum →
    readPixels lo zlim big ngal pixels ctr (done ++ List.replicate ((pixels.map Prod.fst).sum) (emptyRow big)) =
      done ++ (pixels.flatMap Prod.snd).map (fillRow lo zlim big) := by
  intro pixels
  induction pixels with
  | nil => intro ctr done _ _ _; simp [readPixels]
  | cons p rest ih =>
    intro ctr done hl hd hng
    obtain ⟨n, gals⟩ := p
    have hn : n = gals.length := hl (n, gals) List.mem_cons_self
    have hl' : ∀ p ∈ rest, p.1 = p.2.length := fun p hp => hl p (List.mem_cons_of_mem _ hp)
    rw [List.map_cons, List.sum_cons] at hng ⊢
    simp only [readPixels] at *
    by_cases hc : ctr < ngal
    · rw [if_pos hc]
      by_cases h0 : n = 0
      · have hg : gals = [] := by
          rw [h0] at hn; exact List.eq_nil_of_length_eq_zero hn.symm
        rw [if_pos h0, h0, hg, Nat.zero_add, ih ctr done hl' hd (by omega)]
        simp
      · rw [if_neg h0]
        have e1 : (done ++ List.replicate (n + (rest.map Prod.fst).sum) (emptyRow big)).take ctr = done := by
          rw [← hd, List.take_left']; rfl
        have e2 : (done ++ List.replicate (n + (rest.map Prod.fst).sum) (emptyRow big)).drop (ctr + gals.length) =
            List.replicate ((rest.map Prod.fst).sum) (emptyRow big) := by
          rw [List.drop_append, List.drop_eq_nil_of_le (by omega), List.nil_append, List.drop_replicate]
          congr 1
          omega
        rw [e1, e2, ih (ctr + n) (done ++ gals.map (fillRow lo zlim big)) hl' (by simp [hd, hn]) (by omega)]
        simp
    · rw [if_neg hc]
      have hz : n + (rest.map Prod.fst).sum = 0 := by omega
      have hg : ((n, gals) :: rest).flatMap Prod.snd = [] := by
        rw [List.flatMap_eq_nil_iff]
        intro p hp
        have hp1 := hl p hp
        have : p.1 ≤ (((n, gals) :: rest).map Prod.fst).sum := List.le_sum_of_mem (List.mem_map.mpr ⟨p, hp, rfl⟩)
        rw [List.map_cons, List.sum_cons] at this
        simp only at this
        exact List.eq_nil_of_length_eq_zero (by omega)
      rw [hz, hg]
      simp

/-- The galaxies that belong in the background of a redshift bin: bright enough, and of small chi-squared. -/
def belongs (lo hi chisqmax zlim : α) (i : Nat) (g : Gal α) : Bool :=
  decide (lo < g.refmag ∧ g.refmag < zlim ∧ g.refmag < hi ∧ 0 ≤ g.chisq i ∧ g.chisq i < chisqmax)

theorem counted_fill (lo hi chisqmax big : α) (zlim : Nat → α) (i : Nat) (hbig : chisqmax ≤ big) (gals : List (Gal α)) :
    counted lo hi chisqmax i (gals.map (fillRow lo zlim big)) =
      (gals.filter (belongs lo hi chisqmax (zlim i) i)).map fun g => (g.chisq i, g.refmag) := by
  induction gals with
  | nil => rfl
  | cons g rest ih =>
    unfold counted at ih ⊢
    rw [List.map_cons, List.filter_cons, List.filter_cons]
    by_cases hb : lo < g.refmag ∧ g.refmag < zlim i
    · have e : (fillRow lo zlim big g).chisq i = g.chisq i := by unfold fillRow; exact if_pos hb
      have e2 : (fillRow lo zlim big g).refmag = g.refmag := rfl
      have hl := hb.1.le
      by_cases h2 : g.refmag < hi ∧ 0 ≤ g.chisq i ∧ g.chisq i < chisqmax
      · rw [if_pos (by rw [e, e2]; simp [h2.1, h2.2.1, h2.2.2, hl]), if_pos (by unfold belongs; simp [h2.1, h2.2.1, h2.2.2, hb.1, hb.2]),
          List.map_cons, List.map_cons, ih, e, e2]
      · rw [if_neg, if_neg, ih]
        · unfold belongs
          rw [decide_eq_true_eq]
          exact fun h => h2 h.2.2
        · rw [e, e2]
          simp only [Bool.and_eq_true, decide_eq_true_eq]
          exact fun h => h2 ⟨h.2, h.1.1.1, h.1.1.2⟩
    · have e : (fillRow lo zlim big g).chisq i = big := by unfold fillRow; exact if_neg hb
      rw [if_neg, if_neg, ih]
      · unfold belongs
        rw [decide_eq_true_eq]
        exact fun h => hb ⟨h.1, h.2.1⟩
      · rw [e]
        simp only [Bool.and_eq_true, decide_eq_true_eq]
        exact fun h => absurd h.1.1.2 (not_lt.mpr hbig)

/-- With a pixelized catalog whose master table has the right numbers, every galaxy inside the limits is counted once, and nothing
else is.  Missing: a catalog in one file. -/
theorem C43_partial (lo hi chisqmax big : α) (zlim : Nat → α) (i : Nat) (hbig : chisqmax ≤ big) (pixels : List (Nat × List (Gal α)))
    (hl : ∀ p ∈ pixels, p.1 = p.2.length) :
    workerPix lo hi chisqmax big zlim i pixels =
      ((pixels.flatMap Prod.snd).filter (belongs lo hi chisqmax (zlim i) i)).map fun g => (g.chisq i, g.refmag) := by
  have h := readPixels_spec lo zlim big ((pixels.map Prod.fst).sum) pixels 0 [] hl rfl (by omega)
  rw [List.nil_append, List.nil_append] at h
  unfold workerPix
  simp only
  rw [h, counted_fill _ _ _ _ _ _ hbig]

example : workerPix (12 : ℚ) 20 20 500 (fun _ => 19) 0 [(1, [⟨15, fun _ => 3⟩]), (0, []), (2, [⟨11, fun _ => 3⟩, ⟨18, fun _ => 4⟩])] =
    [(3, 15), (4, 18)] := by
  rw [C43_partial _ _ _ _ _ _ (by norm_num) _ (by decide)]
  decide +kernel

/-- The property as one would like it, for one file: the number of pixels is then 0. -/
def C43_spec : Prop :=
  ∀ (lo hi chisqmax big : ℚ) (zlim : Nat → ℚ) (i natatime : Nat), chisqmax ≤ big → 0 < natatime → ∀ gals : List (Gal ℚ),
    workerFile lo hi chisqmax big zlim i natatime 0 gals = (gals.filter (belongs lo hi chisqmax (zlim i) i)).map fun g => (g.chisq i, g.refmag)

/-- From a catalog in one file nothing is ever counted. -/
theorem C43_nonpix_nothing (lo hi chisqmax big : α) (zlim : Nat → α) (i natatime : Nat) (hbig : chisqmax ≤ big) (gals : List (Gal α)) :
    workerFile lo hi chisqmax big zlim i natatime 0 gals = [] := by
  have : chunkRanges gals.length natatime 0 0 = [] := by unfold chunkRanges; simp
  unfold workerFile counted
  rw [this, List.foldl_nil, List.map_eq_nil_iff, List.filter_eq_nil_iff]
  intro r hr
  obtain ⟨_, rfl⟩ := List.mem_replicate.mp hr
  simp only [emptyRow, Bool.and_eq_true]
  exact fun h => absurd (of_decide_eq_true h.1.1.2) (not_lt.mpr hbig)

theorem C43_nonpix_false : ¬ C43_spec := by
  intro h
  have h1 := h 12 20 20 500 (fun _ => 19) 0 10 (by norm_num) (by norm_num) [⟨15, fun _ => 3⟩]
  rw [C43_nonpix_nothing _ _ _ _ _ _ _ (by norm_num)] at h1
  exact absurd h1 (by decide +kernel)

theorem chunkRanges_lo (ngal natatime npix : Nat) : ∀ (m ctr : Nat), ngal - ctr ≤ m → ∀ r ∈ chunkRanges ngal natatime npix ctr, ctr ≤ r.1 := by
  intro m
  induction m with
  | zero =>
    intro ctr hm r hr
    rw [chunkRanges, dif_neg (by omega)] at hr
    exact absurd hr (List.not_mem_nil)
  | succ m ih =>
    intro ctr hm r hr
    rw [chunkRanges] at hr
    by_cases h : ctr < ngal ∧ 0 < npix
    · rw [dif_pos h] at hr
      rcases List.mem_cons.mp hr with rfl | hr
      · exact le_refl _
      · have := ih _ (by omega) r hr
        omega
    · rw [dif_neg h] at hr
      exact absurd hr (List.not_mem_nil)

/-- Even if the loop ran, the row after each chunk would be left out. -/
theorem C43_chunk_skips (ngal natatime npix : Nat) : ∀ r ∈ chunkRanges ngal natatime npix 0, ¬ (r.1 ≤ natatime ∧ natatime < r.2) := by
  intro r hr
  rw [chunkRanges] at hr
  by_cases h : 0 < ngal ∧ 0 < npix
  · rw [dif_pos h] at hr
    rcases List.mem_cons.mp hr with rfl | hr
    · simp only; omega
    · have := chunkRanges_lo ngal natatime npix _ _ (le_refl _) r hr
      by_cases hn : natatime < ngal
      · omega
      · rw [chunkRanges, dif_neg (by omega)] at hr
        exact absurd hr (List.not_mem_nil)
  · rw [dif_neg h] at hr
    exact absurd hr (List.not_mem_nil)

/-! ## C96 -/

theorem uniform_ssLeft {bins : List α} {x0 bs : α} (hb : 0 < bs) (hu : Uniform bins x0 bs) (x : α) (k : Nat) (hk : k ≤ bins.length)
    (h1 : k = 0 ∨ x0 + k * bs < x) (h2 : k < bins.length → x ≤ x0 + (k + 1) * bs) : ssLeft bins (x - bs) = k := by
  refine ssLeft_eq _ _ k hk ?_ ?_
  · intro j hj
    rw [hu j (by omega)]
    rcases h1 with h1 | h1
    · omega
    · have : (j : α) + 1 ≤ k := by exact_mod_cast hj
      have := mul_le_mul_of_nonneg_right this hb.le
      linarith
  · intro hk
    rw [hu k hk]
    have := h2 hk
    linarith

/-- A uniform bin of a color table: lower edge excluded, upper included. -/
def InUBin (bins : List α) (x0 bs : α) (k : Nat) (x : α) : Prop := k < bins.length ∧ x0 + k * bs < x ∧ x ≤ x0 + (k + 1) * bs

/-- The value is that of the bin that holds the galaxy, infinite when empty; above the range it is infinite.  Missing: below the range. -/
theorem C96_partial {cb rb : List α} {c0 cs r0 rs : α} (hcs : 0 < cs) (hrs : 0 < rs) (hc : Uniform cb c0 cs) (hr : Uniform rb r0 rs)
    (sigma : Nat → Nat → α) (color refmag : α) :
    (∀ k r, InUBin cb c0 cs k color → InUBin rb r0 rs r refmag →
      diagLookup cb rb cs rs sigma color refmag = if sigma r k = 0 then none else some (sigma r k)) ∧
    (c0 + cb.length * cs < color ∨ r0 + rb.length * rs < refmag → diagLookup cb rb cs rs sigma color refmag = none) := by
  constructor
  · rintro k r ⟨h1, h2, h3⟩ ⟨g1, g2, g3⟩
    unfold diagLookup
    simp only [uniform_ssLeft hcs hc color k h1.le (Or.inr h2) (fun _ => h3), uniform_ssLeft hrs hr refmag r g1.le (Or.inr g2) (fun _ => g3)]
    simp only [if_neg (show ¬ cb.length ≤ k by omega), if_neg (show ¬ rb.length ≤ r by omega)]
  · rintro (h | h)
    · unfold diagLookup
      simp only [uniform_ssLeft hcs hc color cb.length (le_refl _) (Or.inr h) (fun h => absurd h (lt_irrefl _))]
      simp
    · unfold diagLookup
      simp only [uniform_ssLeft hrs hr refmag rb.length (le_refl _) (Or.inr h) (fun h => absurd h (lt_irrefl _))]
      simp

/-- However far below the color range, a galaxy gets the value of the first bin. -/
theorem C96_below {cb rb : List α} {c0 cs r0 rs : α} (hcs : 0 < cs) (hrs : 0 < rs) (hc : Uniform cb c0 cs) (hr : Uniform rb r0 rs)
    (h0 : 0 < cb.length) (sigma : Nat → Nat → α) (color refmag : α) (r : Nat) (hcol : color ≤ c0) (hm : InUBin rb r0 rs r refmag)
    (hs : sigma r 0 ≠ 0) : diagLookup cb rb cs rs sigma color refmag = some (sigma r 0) := by
  obtain ⟨g1, g2, g3⟩ := hm
  unfold diagLookup
  simp only [uniform_ssLeft hcs hc color 0 (Nat.zero_le _) (Or.inl rfl) (fun _ => by simp; linarith),
    uniform_ssLeft hrs hr refmag r g1.le (Or.inr g2) (fun _ => g3)]
  simp only [if_neg (show ¬ cb.length ≤ 0 by omega), if_neg (show ¬ rb.length ≤ r by omega), if_neg hs]

/-- The property as one would like it. -/
def C96_spec : Prop :=
  ∀ (cb rb : List ℚ) (c0 cs r0 rs : ℚ), 0 < cs → 0 < rs → 0 < cb.length → Uniform cb c0 cs → Uniform rb r0 rs →
    ∀ (sigma : Nat → Nat → ℚ) (color refmag : ℚ), (∀ k, ¬ InUBin cb c0 cs k color) → diagLookup cb rb cs rs sigma color refmag = none

theorem uniform_two : Uniform ([0, 1] : List ℚ) 0 1 := by
  intro k hk
  have : k < 2 := hk
  interval_cases k <;> norm_num

example : InUBin ([0, 1] : List ℚ) 0 1 1 (3 / 2) := by norm_num [InUBin]

theorem C96_below_false : ¬ C96_spec := by
  intro h
  have h1 := C96_below (by norm_num) (by norm_num) uniform_two uniform_two (by decide) (fun _ _ => (5 : ℚ)) (-40) (1 / 2) 0 (by norm_num)
    (by norm_num [InUBin]) (by norm_num)
  have h2 := h [0, 1] [0, 1] 0 1 0 1 (by norm_num) (by norm_num) (by decide) uniform_two uniform_two (fun _ _ => 5) (-40) (1 / 2) (by
    rintro k ⟨_, h, _⟩
    have : (0 : ℚ) ≤ k := Nat.cast_nonneg k
    linarith)
  rw [h1] at h2
  exact absurd h2 (by simp)

/-! ## C97 -/

/-- The value of a stored table: counts of the bin that holds the galaxy over the normalisation. -/
theorem C97_value (bkgs : Nat → Option (OffDiag α)) (n : OffDiag α → Nat → α) {bs rbs : α} (hbs : 0 < bs) (hrbs : 0 < rbs) (i j : Nat)
    (b : OffDiag α) (hb : bkgs (i * 100 + j) = some b) {x0 y0 r0 : α} (hx : Uniform b.col1bins x0 bs) (hy : Uniform b.col2bins y0 bs)
    (hr : Uniform b.refmagbins r0 rbs) (c1 c2 refmag : α) (k1 k2 r : Nat) (h1 : InUBin b.col1bins x0 bs k1 c1)
    (h2 : InUBin b.col2bins y0 bs k2 c2) (h3 : InUBin b.refmagbins r0 rbs r refmag) (doRaise : Bool) :
    offdiag bkgs n bs rbs i j c1 c2 refmag doRaise = .ok (b.bc r k2 k1 / n b r) := by
  obtain ⟨a1, a2, a3⟩ := h1
  obtain ⟨b1, b2, b3⟩ := h2
  obtain ⟨d1, d2, d3⟩ := h3
  unfold offdiag clipIndex
  simp only [hb, Option.isSome_some, if_true, uniform_ssLeft hbs hx c1 k1 a1.le (Or.inr a2) (fun _ => a3),
    uniform_ssLeft hbs hy c2 k2 b1.le (Or.inr b2) (fun _ => b3), uniform_ssLeft hrbs hr refmag r d1.le (Or.inr d2) (fun _ => d3)]
  rw [Nat.min_eq_left (by omega), Nat.min_eq_left (by omega), Nat.min_eq_left (by omega)]

/-- A pair of colors in neither order: an error, or zero. -/
theorem C97_missing (bkgs : Nat → Option (OffDiag α)) (n : OffDiag α → Nat → α) (bs rbs : α) (i j : Nat) (c1 c2 refmag : α)
    (h1 : bkgs (i * 100 + j) = none) (h2 : bkgs (j * 100 + i) = none) :
    offdiag bkgs n bs rbs i j c1 c2 refmag true = .error .keyError ∧ offdiag bkgs n bs rbs i j c1 c2 refmag false = .ok 0 := by
  unfold offdiag
  simp [h1, h2]

/-- The property as one would like it: the order in which the two colors are given does not matter. -/
def C97_spec : Prop :=
  ∀ (bkgs : Nat → Option (OffDiag ℚ)) (n : OffDiag ℚ → Nat → ℚ) (bs rbs : ℚ) (i j : Nat) (c1 c2 refmag : ℚ),
    i ≠ j → bkgs (j * 100 + i) = none →
    offdiag bkgs n bs rbs j i c2 c1 refmag true = offdiag bkgs n bs rbs i j c1 c2 refmag true

/-- What happens: with the indices reversed the colors are still taken in the order given, so each is looked up on the other's axis. -/
theorem C97_reversed (bkgs : Nat → Option (OffDiag α)) (n : OffDiag α → Nat → α) (bs rbs : α) (i j : Nat) (c1 c2 refmag : α) (d : Bool)
    (hb : bkgs (j * 100 + i) = none) :
    offdiag bkgs n bs rbs j i c2 c1 refmag d = offdiag bkgs n bs rbs i j c2 c1 refmag d := by
  unfold offdiag
  by_cases h : (bkgs (i * 100 + j)).isSome
  · simp [hb, h]
  · have h' : bkgs (i * 100 + j) = none := by simpa using h
    simp [hb, h']

/-- It holds when the two colors are equal.  Missing: all other colors. -/
theorem C97_partial (bkgs : Nat → Option (OffDiag α)) (n : OffDiag α → Nat → α) (bs rbs : α) (i j : Nat) (c refmag : α) (d : Bool)
    (hb : bkgs (j * 100 + i) = none) :
    offdiag bkgs n bs rbs j i c c refmag d = offdiag bkgs n bs rbs i j c c refmag d := C97_reversed bkgs n bs rbs i j c c refmag d hb

/-- A two-color table whose counts tell the two axes apart. -/
def smallOff : OffDiag ℚ where
  col1bins := [0, 1]
  col2bins := [0, 1]
  refmagbins := [0, 1]
  bc := fun _ k2 k1 => 10 * k2 + k1 + 1

theorem C97_false : ¬ C97_spec := by
  intro h
  let bk : Nat → Option (OffDiag ℚ) := fun k => if k = 1 then some smallOff else none
  have h1 := h bk (fun _ _ => 1) 1 1 0 1 (1 / 2) (3 / 2) (1 / 2) (by decide) rfl
  rw [C97_reversed bk (fun _ _ => 1) 1 1 0 1 (1 / 2) (3 / 2) (1 / 2) true rfl] at h1
  have u : Uniform smallOff.col1bins 0 1 := uniform_two
  rw [C97_value bk (fun _ _ => 1) (by norm_num) (by norm_num) 0 1 smallOff rfl (x0 := 0) (y0 := 0) (r0 := 0) u u u (3 / 2) (1 / 2) (1 / 2) 1 0 0
    (by norm_num [InUBin, smallOff]) (by norm_num [InUBin, smallOff]) (by norm_num [InUBin, smallOff]) true,
    C97_value bk (fun _ _ => 1) (by norm_num) (by norm_num) 0 1 smallOff rfl (x0 := 0) (y0 := 0) (r0 := 0) u u u (1 / 2) (3 / 2) (1 / 2) 0 1 0
    (by norm_num [InUBin, smallOff]) (by norm_num [InUBin, smallOff]) (by norm_num [InUBin, smallOff]) true] at h1
  norm_num [smallOff] at h1

/-! ## C98 -/

/-- The two-color background integrates to one over the colors, in every magnitude bin with any counts. -/
theorem C98_offdiag_partial (bs : α) (b : OffDiag α) (r : Nat) (hn : normOff bs b r ≠ 0) :
    ((List.range b.col1bins.length).map fun i => ((List.range b.col2bins.length).map fun j => b.bc r j i / normOff bs b r * (bs * bs)).sum).sum = 1 := by
  have e : ∀ i, ((List.range b.col2bins.length).map fun j => b.bc r j i / normOff bs b r * (bs * bs)).sum =
      (((List.range b.col2bins.length).map fun j => b.bc r j i).sum * bs) * (bs / normOff bs b r) := by
    intro i
    have : (fun j => b.bc r j i / normOff bs b r * (bs * bs)) = fun j => b.bc r j i * (bs * bs / normOff bs b r) := by
      funext j; ring
    rw [this, List.sum_map_mul_right]
    ring
  have e2 : (fun i => ((List.range b.col2bins.length).map fun j => b.bc r j i / normOff bs b r * (bs * bs)).sum) = fun i =>
      (((List.range b.col2bins.length).map fun j => b.bc r j i).sum * bs) * (bs / normOff bs b r) := funext e
  rw [e2, List.sum_map_mul_right]
  have : (((List.range b.col1bins.length).map fun i => ((List.range b.col2bins.length).map fun j => b.bc r j i).sum * bs).sum) * bs = normOff bs b r := rfl
  rw [← mul_div_assoc, this]
  exact div_self hn

example : normOff 1 smallOff 0 ≠ 0 := by norm_num [normOff, smallOff, List.range_succ]

/-- The property as one would like it for one color. -/
def C98_spec : Prop :=
  ∀ (coarse rawbins colbins : List ℚ) (bs rawbs x0 : ℚ), Grid rawbins → 0 < bs → 0 < rawbs → Uniform rawbins x0 rawbs → Uniform colbins x0 bs →
    coarse.length = rawbins.length → (colbins.length : ℚ) * bs = rawbins.length * rawbs → normDiag coarse bs rawbs ≠ 0 →
    ((fineDiag coarse rawbins colbins).map fun v => v / normDiag coarse bs rawbs * bs).sum = 1

/-- The fine counts of one color: never negative; for a color between the centers of two coarse bins, between their counts, on the straight line;
beyond the last center the line continues, but not below zero. -/
theorem C98_fine {rawbins : List α} (hg : Grid rawbins) (coarse colbins : List α) (hc : ∀ i, 0 ≤ coarse.getD i 0) (i : Nat) (c : α)
    (hi : colbins[i]? = some c) : ∃ v, (fineDiag coarse rawbins colbins)[i]? = some v ∧ 0 ≤ v ∧
      (∀ k, k + 1 < rawbins.length → rawbins.getD k 0 ≤ c → c ≤ rawbins.getD (k + 1) 0 →
        v * (rawbins.getD (k + 1) 0 - rawbins.getD k 0) =
          coarse.getD k 0 * (rawbins.getD (k + 1) 0 - c) + coarse.getD (k + 1) 0 * (c - rawbins.getD k 0)) ∧
      (rawbins.getD (rawbins.length - 1) 0 ≤ c → v = max 0 (line coarse rawbins (rawbins.length - 2) c)) := by
  refine ⟨max 0 (interpol coarse rawbins c), by simp [fineDiag, hi], le_max_left _ _, ?_, ?_⟩
  · intro k hk h1 h2
    obtain ⟨e, h3, _⟩ := (C26_interpol hg coarse).2.1 k c hk h1 h2
    rw [max_eq_right (le_trans (le_min (hc k) (hc (k + 1))) h3), e]
    have := (sub_pos.mpr (hg.lt (Nat.lt_succ_self k) hk)).ne'
    unfold line
    field_simp
    ring
  · intro h
    rw [(C26_interpol hg coarse).2.2.2 c h]

/-- What happens: the coarse counts over the normalisation, times the fine bin size, add up to the coarse bin size, not to one. -/
theorem C98_diag_value (coarse : List α) (bs rawbs : α) (hb : bs ≠ 0) (hr : rawbs ≠ 0) (hs : coarse.sum ≠ 0) :
    (coarse.map fun v => v / normDiag coarse bs rawbs * bs).sum = rawbs := by
  unfold normDiag
  have : (fun v => v / (coarse.sum * (bs / rawbs)) * bs) = fun v => v * (rawbs / coarse.sum) := by
    funext v; field_simp
  rw [this, List.sum_map_mul_right]
  rw [List.map_id']
  field_simp

theorem C98_diag_false : ¬ C98_spec := by
  intro h
  have h1 := h [1, 1] [0, 1 / 50] [0, 1 / 100, 2 / 100, 3 / 100] (1 / 100) (1 / 50) 0 ⟨by decide, by norm_num⟩ (by norm_num) (by norm_num)
    (by
      intro k hk
      have : k < 2 := hk
      interval_cases k <;> norm_num)
    (by
      intro k hk
      have : k < 4 := hk
      interval_cases k <;> norm_num) rfl (by norm_num) (by norm_num [normDiag])
  norm_num [fineDiag, normDiag, interpol, segment] at h1

end Redmapper.Background
