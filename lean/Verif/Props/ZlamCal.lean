/-
Properties of the calibration of the redshift correction.
-/
import Verif.Model.ZlamCal
import Verif.Props.Zlambda

set_option linter.unusedSectionVars false

namespace Redmapper.ZlamCal

open Redmapper.Zlambda (CorrTab CorrState scatterTable applyCorrection corrStep corrDz npInterp npInterp_ge extras
  C63_quadrature)
open Redmapper.Utilities (Grid)
open Redmapper.Mask (SqrtOK exists_segment)

variable {α : Type} [Field α] [LinearOrder α] [IsStrictOrderedRing α]

/-! ## C154: the fits -/

/-- Values at the nodes have the right numbers. -/
def Sized (F : Fit α) (t : Triple α) : Prop :=
  t.delta.length = F.nodes.length ∧ t.slope.length = F.slopeNodes.length ∧ t.scatter.length = F.slopeNodes.length

/-- Contract of the minimizer: it returns a point of the same dimension that is not worse than the start. -/
structure FminOK (fmin : (List α → α) → List α → List α) : Prop where
  length : ∀ (f : List α → α) (x : List α), (fmin f x).length = x.length
  le : ∀ (f : List α → α) (x : List α), f (fmin f x) ≤ f x

/-- The objective: negative log likelihood plus ten thousand if a scatter is below the minimum. -/
def objective (F : Fit α) (data : List (Datum α)) (t : Triple α) : α :=
  nll F data 0 t + if (∃ s ∈ t.scatter, s < 0) then 10000 else 0

theorem penalty_eq (m : α) (l : List α) : penalty m l = if (∃ s ∈ l, s < m) then 10000 else 0 := by
  unfold penalty
  by_cases h : ∃ s ∈ l, s < m
  · rw [if_pos h, if_pos]
    obtain ⟨s, hs, hm⟩ := h
    exact List.any_eq_true.mpr ⟨s, hs, by simpa using hm⟩
  · rw [if_neg h, if_neg]
    intro hc
    obtain ⟨s, hs, hm⟩ := List.any_eq_true.mp hc
    exact h ⟨s, hs, by simpa using hm⟩

theorem unpack_pack (F : Fit α) (fl : Flags) (p : Triple α) (h : Sized F p) : unpack F fl p (pack fl p) = p := by
  obtain ⟨d, s, c⟩ := p
  obtain ⟨h1, h2, h3⟩ := h
  dsimp only at h1 h2 h3
  obtain ⟨fd, fs, fc⟩ := fl
  unfold unpack pack scatterIndex slopeIndex
  rw [← h1, ← h2] at *
  cases fd <;> cases fs <;> cases fc <;> simp [← h3, List.drop_append, List.take_append] <;> try omega

theorem unpack_sized (F : Fit α) (fl : Flags) (p : Triple α) (h : Sized F p) (pars : List α)
    (hl : pars.length = (pack fl p).length) : Sized F (unpack F fl p pars) := by
  obtain ⟨h1, h2, h3⟩ := h
  obtain ⟨fd, fs, fc⟩ := fl
  unfold Sized unpack scatterIndex slopeIndex
  unfold pack at hl
  cases fd <;> cases fs <;> cases fc <;> simp_all <;> omega

/-- **C154.** A fit is refused exactly if nothing is to be fitted; otherwise it changes only the blocks that are
fitted, keeps their sizes, and does not increase the objective (for fits of the scatter including the penalty, for
the others the likelihood alone). -/
theorem C154_fit (F : Fit α) (hf : FminOK F.fmin) (data : List (Datum α)) (m : α) (fl : Flags) (p0 : Triple α)
    (hs : Sized F p0) :
    (fit F data m fl p0 = .error .valueError ↔ fl = ⟨false, false, false⟩) ∧
    (fl ≠ ⟨false, false, false⟩ → ∃ t, fit F data m fl p0 = .ok t ∧ Sized F t ∧
      (fl.delta = false → t.delta = p0.delta) ∧ (fl.slope = false → t.slope = p0.slope) ∧
      (fl.scatter = false → t.scatter = p0.scatter) ∧
      (fl.scatter = false → nll F data m t ≤ nll F data m p0) ∧
      (fl.scatter = true → nll F data m t + penalty m t.scatter ≤ nll F data m p0 + penalty m p0.scatter)) := by
  constructor
  · unfold fit
    obtain ⟨fd, fs, fc⟩ := fl
    cases fd <;> cases fs <;> cases fc <;> simp
  · intro hne
    have hflag : (fl.delta || fl.slope || fl.scatter) = true := by
      obtain ⟨fd, fs, fc⟩ := fl
      cases fd <;> cases fs <;> cases fc <;> simp_all
    refine ⟨unpack F fl p0 (F.fmin (cost F data m fl p0) (pack fl p0)), ?_, ?_, ?_, ?_, ?_, ?_, ?_⟩
    · unfold fit; rw [if_pos hflag]
    · exact unpack_sized F fl p0 hs _ (hf.length _ _)
    · intro h; simp [unpack, h]
    · intro h; simp [unpack, h]
    · intro h; simp [unpack, h]
    · intro h
      have := hf.le (cost F data m fl p0) (pack fl p0)
      have e : ∀ pars, cost F data m fl p0 pars = nll F data m (unpack F fl p0 pars) := by
        intro pars
        unfold cost
        simp only [h, Bool.false_eq_true, if_false, add_zero]
      rw [e, e, unpack_pack F fl p0 hs] at this
      exact this
    · intro h
      have := hf.le (cost F data m fl p0) (pack fl p0)
      have e : ∀ pars, cost F data m fl p0 pars = nll F data m (unpack F fl p0 pars) +
          penalty m ((pars.drop (scatterIndex F fl)).take F.slopeNodes.length) := by
        intro pars
        unfold cost
        simp only [h, if_true]
      rw [e, e, unpack_pack F fl p0 hs] at this
      have e1 : ((pack fl p0).drop (scatterIndex F fl)).take F.slopeNodes.length = p0.scatter := by
        have := congrArg Triple.scatter (unpack_pack F fl p0 hs)
        unfold unpack at this
        simp only [h, if_true] at this
        exact this
      rw [e1] at this
      have e2 : ∀ pars, (unpack F fl p0 pars).scatter = (pars.drop (scatterIndex F fl)).take F.slopeNodes.length := by
        intro pars; simp [unpack, h]
      rw [e2]
      exact this

/-- **C154**: the sequence of fits of one pass succeeds and does not increase the objective. -/
theorem C154_sequence (F : Fit α) (hf : FminOK F.fmin) (corrslope : Bool) (data : List (Datum α)) (p0 : Triple α)
    (hs : Sized F p0) :
    ∃ t, fits F corrslope data p0 = .ok t ∧ Sized F t ∧ (corrslope = false → t.slope = p0.slope) ∧
      objective F data t ≤ objective F data p0 := by
  have hobj : ∀ t : Triple α, objective F data t = nll F data 0 t + penalty 0 t.scatter := by
    intro t; unfold objective; rw [penalty_eq]
  obtain ⟨t1, e1, s1, _, b1, c1, n1, _⟩ := (C154_fit F hf data 0 ⟨true, false, false⟩ p0 hs).2 (by decide)
  have b1 := b1 rfl
  have c1 := c1 rfl
  have n1 := n1 rfl
  obtain ⟨t2, e2, s2, b2, c2, n2⟩ : ∃ t2, (if corrslope then fit F data 0 ⟨false, true, false⟩ t1 else .ok t1) = .ok t2 ∧
      Sized F t2 ∧ (corrslope = false → t2.slope = t1.slope) ∧ t2.scatter = t1.scatter ∧
      nll F data 0 t2 ≤ nll F data 0 t1 := by
    cases corrslope with
    | false => exact ⟨t1, rfl, s1, fun _ => rfl, rfl, le_refl _⟩
    | true =>
      obtain ⟨t, e, s, _, _, c, n, _⟩ := (C154_fit F hf data 0 ⟨false, true, false⟩ t1 s1).2 (by decide)
      exact ⟨t, e, s, (fun h => by cases h), c rfl, n rfl⟩
  obtain ⟨t3, e3, s3, _, b3, _, _, n3⟩ := (C154_fit F hf data 0 ⟨false, false, true⟩ t2 s2).2 (by decide)
  have b3 := b3 rfl
  have n3 := n3 rfl
  obtain ⟨t4, e4, s4, _, b4, _, _, n4⟩ := (C154_fit F hf data 0 ⟨true, corrslope, true⟩ t3 s3).2 (by
    cases corrslope <;> decide)
  have n4 := n4 rfl
  refine ⟨t4, ?_, s4, ?_, ?_⟩
  · unfold fits
    rw [e1]
    dsimp only
    rw [e2]
    dsimp only
    rw [e3]
    exact e4
  · intro h
    rw [b4 h, b3, b2 h, b1]
  · rw [hobj, hobj]
    rw [c2, c1] at n3
    linarith

/-- **C154**: starting from scatters that are not negative, a negative fitted scatter is possible only if it buys ten
thousand in log likelihood. -/
theorem C154_scatter (F : Fit α) (hf : FminOK F.fmin) (corrslope : Bool) (data : List (Datum α)) (p0 t : Triple α)
    (hs : Sized F p0) (h0 : ∀ s ∈ p0.scatter, 0 ≤ s) (ht : fits F corrslope data p0 = .ok t)
    (hneg : ∃ s ∈ t.scatter, s < 0) : nll F data 0 t + 10000 ≤ nll F data 0 p0 := by
  obtain ⟨t', e, _, _, h⟩ := C154_sequence F hf corrslope data p0 hs
  rw [ht] at e
  cases e
  unfold objective at h
  rw [if_pos hneg, if_neg] at h
  · linarith
  · rintro ⟨s, hs, hlt⟩
    exact absurd (h0 s hs) (not_le.mpr hlt)

/-- Log likelihood of clusters under values at the nodes, written from the catalog. `at'` is the redshift the values
are evaluated at. -/
def logLik (F : Fit α) (log : α → α) (pivot : α) (at' : Row α → α) (t : Triple α) : List (Row α) → α
  | [] => 0
  | r :: rs =>
    let shift := F.spline F.nodes t.delta (at' r) + log (r.Lambda / r.scaleval / pivot) *
      F.spline F.slopeNodes t.slope (at' r)
    let sigma := F.spline F.slopeNodes t.scatter (at' r)
    let variance := r.zlamE ^ 2 + (if 0 ≤ sigma then sigma else 0) ^ 2
    (match F.logG (r.z - (r.zlam + shift)) variance with
      | some v => v
      | none => -100) + logLik F log pivot at' t rs

/-- **C154**: what the fits minimize: the likelihood that the true redshifts scatter about the corrected ones with the
error and the scatter in quadrature, evaluated at the measured redshifts for the correction that is applied and at the
true ones for the other. -/
theorem C154_likelihood (C : Cal α) (ztrue : Bool) (rows : List (Row α)) (t : Triple α) :
    nll C.F (rows.map (datum C ztrue)) 0 t =
      - logLik C.F C.log C.pivot (fun r => if ztrue = true then r.zlam else r.z) t rows := by
  unfold nll
  congr 1
  induction rows with
  | nil => rfl
  | cons r rs ih =>
    rw [List.map_cons, List.map_cons, List.sum_cons, ih, logLik]
    congr 1
    dsimp only [datum]
    generalize hz : (if ztrue = true then r.zlam else r.z) = z
    have h1 : r.z - r.zlam - (C.F.spline C.F.nodes t.delta z + C.F.spline C.F.slopeNodes t.slope z *
        C.log (r.Lambda / r.scaleval / C.pivot)) = r.z - (r.zlam + (C.F.spline C.F.nodes t.delta z +
          C.log (r.Lambda / r.scaleval / C.pivot) * C.F.spline C.F.slopeNodes t.slope z)) := by ring
    have h2 : max (C.F.spline C.F.slopeNodes t.scatter z) 0 = if 0 ≤ C.F.spline C.F.slopeNodes t.scatter z then
        C.F.spline C.F.slopeNodes t.scatter z else 0 := by
      by_cases h : 0 ≤ C.F.spline C.F.slopeNodes t.scatter z
      · rw [if_pos h, max_eq_left h]
      · rw [if_neg h, max_eq_right (not_le.mp h).le]
    rw [h1, h2, ← pow_two, ← pow_two, add_comm (_ ^ 2) (r.zlamE ^ 2)]
    generalize C.F.logG _ _ = o
    cases o <;> rfl

/-! ## C155: the check for empty redshift bins -/

/-- A cluster is used. -/
def Used (minlambda maxMaskfrac : α) (r : Row α) : Prop :=
  0 < r.scaleval ∧ minlambda < r.Lambda / r.scaleval ∧ r.maskfrac < maxMaskfrac

/-- A redshift is in bin `i`: closed below, open above, the last bin closed on both sides. -/
def InBin (nodes : List α) (i : Nat) (z : α) : Prop :=
  ∃ a b, nodes[i]? = some a ∧ nodes[i + 1]? = some b ∧ a ≤ z ∧ (z < b ∨ (i + 2 = nodes.length ∧ z = b))

/-- **C155.** The calibration is refused exactly if some interval between nodes has no usable cluster; otherwise
exactly the usable clusters are kept, in their order. -/
theorem C155_bins (minlambda maxMaskfrac : α) (nodes : List α) (cat : List (Row α)) (sel : Row α → Bool)
    (hsel : ∀ r, sel r = true ↔ Used minlambda maxMaskfrac r) :
    (select minlambda maxMaskfrac nodes cat = .error .runtimeError ↔
      ∃ i, i + 1 < nodes.length ∧ ∀ r ∈ cat, Used minlambda maxMaskfrac r → ¬ InBin nodes i r.z) ∧
    (select minlambda maxMaskfrac nodes cat ≠ .error .runtimeError →
      select minlambda maxMaskfrac nodes cat = .ok (cat.filter sel)) := by
  have hk : ∀ r, keep minlambda maxMaskfrac r = true ↔ Used minlambda maxMaskfrac r := by
    intro r
    unfold keep Used
    simp only [Bool.and_eq_true, decide_eq_true_eq]
    tauto
  have hf : cat.filter (keep minlambda maxMaskfrac) = cat.filter sel := by
    refine List.filter_congr fun r _ => ?_
    rw [Bool.eq_iff_iff, hk, hsel]
  have hbin : ∀ i, i + 1 < nodes.length → ∀ z, ((decide (nodes.getD i 0 ≤ z) &&
      (decide (z < nodes.getD (i + 1) 0) || (decide (i + 2 = nodes.length) && decide (z = nodes.getD (i + 1) 0)))) =
        true ↔ InBin nodes i z) := by
    intro i hi z
    unfold InBin
    rw [List.getD_eq_getElem?_getD, List.getD_eq_getElem?_getD, List.getElem?_eq_getElem (by omega : i < nodes.length),
      List.getElem?_eq_getElem hi]
    simp
  unfold select
  dsimp only
  by_cases h : ((List.range (nodes.length - 1)).any fun i =>
      binCount nodes i ((cat.filter (keep minlambda maxMaskfrac)).map Row.z) == 0) = true
  · rw [if_pos h]
    refine ⟨⟨fun _ => ?_, fun _ => rfl⟩, fun h => absurd rfl h⟩
    obtain ⟨i, hi, e⟩ := List.any_eq_true.mp h
    have hi : i + 1 < nodes.length := by have := List.mem_range.mp hi; omega
    refine ⟨i, hi, fun r hr hu hb => ?_⟩
    unfold binCount at e
    rw [beq_iff_eq, List.countP_eq_zero] at e
    exact e r.z (List.mem_map.mpr ⟨r, List.mem_filter.mpr ⟨hr, (hk r).mpr hu⟩, rfl⟩) ((hbin i hi r.z).mpr hb)
  · rw [if_neg h, hf]
    refine ⟨⟨(by intro hc; cases hc), ?_⟩, fun _ => rfl⟩
    rintro ⟨i, hi, hn⟩
    exfalso
    refine h (List.any_eq_true.mpr ⟨i, List.mem_range.mpr (by omega), ?_⟩)
    unfold binCount
    rw [beq_iff_eq, List.countP_eq_zero]
    intro z hz hb
    obtain ⟨r, hr, rfl⟩ := List.mem_map.mp hz
    have hr := List.mem_filter.mp hr
    exact hn r hr.1 ((hk r).mp hr.2) ((hbin i hi r.z).mp hb)

/-! ## C156: the iterations are applied as they were fitted -/

/-- The shift of a redshift by fitted iterations, one after the other: each is evaluated at the redshift the ones
before give, on the grid of the correction. -/
def shifted (C : Cal α) (Lambda : α) : List (Triple α) → α → α
  | [], z => z
  | t :: ts, z => shifted C Lambda ts (z + corrDz (C.log (Lambda / C.pivot)) C.grid (table C t) z)

theorem npInterp_const {x y : List α} (hx : Grid x) (hl : y.length = x.length) (c : α) (hy : ∀ v ∈ y, v = c) (q : α) :
    npInterp q x y = c := by
  have hlen := hx.1
  have hget : ∀ i, i < x.length → y.getD i 0 = c := by
    intro i hi
    rw [List.getD_eq_getElem?_getD, List.getElem?_eq_getElem (by omega)]
    exact hy _ (List.getElem_mem _)
  unfold npInterp
  by_cases h0 : q ≤ x.getD 0 0
  · rw [if_pos h0]; exact hget 0 (by omega)
  rw [if_neg h0]
  by_cases h1 : x.getD (x.length - 1) 0 ≤ q
  · rw [if_pos h1, hl]; exact hget _ (by omega)
  rw [if_neg h1]
  obtain ⟨k, hk, hk1, hk2⟩ := exists_segment hx q (not_le.mp h0).le (not_le.mp h1)
  have h := ((Redmapper.Utilities.C26_interpol hx y).2.1 k q hk hk1 hk2.le).2
  rw [hget k (by omega), hget (k + 1) hk, min_self, max_self] at h
  exact le_antisymm h.2 h.1

/-- Contract of the spline used here: through zeros it is zero. -/
def SplineZero (F : Fit α) : Prop :=
  ∀ (nodes : List α) (z : α), F.spline nodes (nodes.map fun _ => 0) z = 0

theorem blank_dz (C : Cal α) (hg : Grid C.grid) (hs : SplineZero C.F) (ll z : α) :
    corrDz ll C.grid (table C (blank C)) z = 0 := by
  unfold corrDz table blank
  refine npInterp_const hg (by simp) 0 ?_ z
  intro v hv
  obtain ⟨k, hk, rfl⟩ := List.getElem_of_mem hv
  rw [List.getElem_zipWith, List.getElem_map, List.getElem_map]
  dsimp only
  rw [hs, hs, zero_mul, add_zero]

theorem blank_extra (C : Cal α) (hg : Grid C.grid) (hs : SplineZero C.F) (z : α) :
    npInterp z C.grid (table C (blank C)).scatter = 1 / 1000 := by
  unfold table blank scatterTable
  refine npInterp_const hg (by simp) _ ?_ z
  intro v hv
  obtain ⟨w, hw, rfl⟩ := List.mem_map.mp hv
  obtain ⟨u, _, rfl⟩ := List.mem_map.mp hw
  dsimp only
  rw [hs]
  exact max_eq_right (by norm_num)

theorem apply_total (C : Cal α) (ll : α) (cols : List (Triple α)) (z e : α) :
    ∃ s, applyCorrection C.sqrt C.simpson ll C.grid false (cols.map (table C)) { zlam := z, e := e, pz := none } =
      some s ∧ s.pz = none := by
  induction cols generalizing z e with
  | nil => exact ⟨_, rfl, rfl⟩
  | cons t ts ih =>
    rw [List.map_cons, applyCorrection]
    unfold corrStep
    simp only [Bool.false_eq_true, if_false, Option.bind_some]
    exact ih _ _

theorem correct_zlam (C : Cal α) (cols : List (Triple α)) (r : Row α) :
    (correct C cols r).zlam = shifted C r.Lambda cols r.zlam := by
  have key : ∀ (cols : List (Triple α)) (z e : α) (s : CorrState α),
      applyCorrection C.sqrt C.simpson (C.log (r.Lambda / C.pivot)) C.grid false (cols.map (table C))
        { zlam := z, e := e, pz := none } = some s → s.zlam = shifted C r.Lambda cols z := by
    intro cols
    induction cols with
    | nil => intro z e s h; cases h; rfl
    | cons t ts ih =>
      intro z e s h
      rw [List.map_cons, applyCorrection] at h
      unfold corrStep at h
      simp only [Bool.false_eq_true, if_false, Option.bind_some] at h
      exact ih _ _ _ h
  obtain ⟨s, hs, _⟩ := apply_total C (C.log (r.Lambda / C.pivot)) cols r.zlam r.zlamE
  unfold correct
  rw [hs]
  exact key cols _ _ s hs

theorem shifted_blank (C : Cal α) (hg : Grid C.grid) (hs : SplineZero C.F) (lam : α) (cols : List (Triple α)) (k : Nat)
    (z : α) : shifted C lam (cols ++ List.replicate k (blank C)) z = shifted C lam cols z := by
  induction cols generalizing z with
  | nil =>
    rw [List.nil_append]
    induction k generalizing z with
    | zero => rfl
    | succ k ih =>
      rw [List.replicate_succ]
      unfold shifted
      rw [blank_dz C hg hs, add_zero]
      exact ih z
  | cons t ts ih =>
    rw [List.cons_append]
    unfold shifted
    exact ih _

theorem trueIter_prefix (C : Cal α) (orig : List (Row α)) (n : Nat) : ∀ (m : Nat) (cols cols' : List (Triple α))
    (cat cat' : List (Row α)), trueIter C orig n = .ok (cols, cat) → trueIter C orig (n + m) = .ok (cols', cat') →
    cols.length = n ∧ cols'.take n = cols := by
  have hlen : ∀ (n : Nat) (cols : List (Triple α)) (cat : List (Row α)), trueIter C orig n = .ok (cols, cat) →
      cols.length = n := by
    intro n
    induction n with
    | zero => intro cols cat h; cases h; rfl
    | succ n ih =>
      intro cols cat h
      rw [trueIter] at h
      cases h1 : trueIter C orig n with
      | error e => rw [h1] at h; cases h
      | ok p =>
        obtain ⟨c1, k1⟩ := p
        rw [h1] at h
        dsimp only at h
        cases h2 : oneIter C true k1 with
        | error e => rw [h2] at h; cases h
        | ok t =>
          rw [h2] at h
          cases h
          rw [List.length_append, ih c1 k1 h1]
          rfl
  intro m
  induction m with
  | zero =>
    intro cols cols' cat cat' h h'
    rw [Nat.add_zero, h] at h'
    cases h'
    have := hlen n cols cat h
    exact ⟨this, by rw [List.take_of_length_le (by omega)]⟩
  | succ m ih =>
    intro cols cols' cat cat' h h'
    rw [← Nat.add_assoc, trueIter] at h'
    cases h1 : trueIter C orig (n + m) with
    | error e => rw [h1] at h'; cases h'
    | ok p =>
      obtain ⟨c1, k1⟩ := p
      rw [h1] at h'
      dsimp only at h'
      cases h2 : oneIter C true k1 with
      | error e => rw [h2] at h'; cases h'
      | ok t =>
        rw [h2] at h'
        cases h'
        obtain ⟨a, b⟩ := ih cols c1 cat k1 h h1
        refine ⟨a, ?_⟩
        have := hlen (n + m) c1 k1 h1
        rw [List.take_append_of_le_length (by omega)]
        exact b

/-- **C156.** The redshifts every iteration is fitted to are those the finished correction gives when cut after the
iterations before: for every cluster of the catalog of iteration `n`, its redshift is the original one shifted by the
first `n` iterations of the final parameters, and all other columns but the error are unchanged. -/
theorem C156_iterations (C : Cal α) (hg : Grid C.grid) (hs : SplineZero C.F) (orig : List (Row α))
    (n m : Nat) (cols final : List (Triple α)) (cat cat' : List (Row α))
    (h : trueIter C orig n = .ok (cols, cat)) (h' : trueIter C orig (n + m) = .ok (final, cat')) :
    cat.length = orig.length ∧ ∀ (k : Nat) (r : Row α), orig[k]? = some r → ∃ r', cat[k]? = some r' ∧
      r'.zlam = shifted C r.Lambda (final.take n) r.zlam ∧
      r'.z = r.z ∧ r'.Lambda = r.Lambda ∧ r'.scaleval = r.scaleval ∧ r'.maskfrac = r.maskfrac := by
  obtain ⟨_, hp⟩ := trueIter_prefix C orig n m cols final cat cat' h h'
  rw [hp]
  cases n with
  | zero =>
    cases h
    exact ⟨rfl, fun k r hr => ⟨r, hr, rfl, rfl, rfl, rfl, rfl⟩⟩
  | succ n =>
    rw [trueIter] at h
    cases h1 : trueIter C orig n with
    | error e => rw [h1] at h; cases h
    | ok p =>
      obtain ⟨c1, k1⟩ := p
      rw [h1] at h
      dsimp only at h
      cases h2 : oneIter C true k1 with
      | error e => rw [h2] at h; cases h
      | ok t =>
        rw [h2] at h
        cases h
        refine ⟨by rw [List.length_map], fun k r hr => ?_⟩
        refine ⟨_, by rw [List.getElem?_map, hr]; rfl, ?_, ?_, ?_, ?_, ?_⟩
        · rw [correct_zlam, shifted_blank C hg hs]
        all_goals
          unfold correct
          split <;> rfl

/-- **C156**: iteration `n` of the final parameters is what one iteration fits to the catalog before it. -/
theorem C156_fitted (C : Cal α) (orig : List (Row α)) (n m : Nat) (cols final : List (Triple α))
    (cat cat' : List (Row α)) (h : trueIter C orig n = .ok (cols, cat))
    (h' : trueIter C orig (n + 1 + m) = .ok (final, cat')) :
    ∃ t, oneIter C true cat = .ok t ∧ final[n]? = some t := by
  have hstep : ∃ t cat1, oneIter C true cat = .ok t ∧ trueIter C orig (n + 1) = .ok (cols ++ [t], cat1) := by
    have hdown : ∀ m, ∀ p, trueIter C orig (n + 1 + m) = .ok p → ∃ q, trueIter C orig (n + 1) = .ok q := by
      intro m
      induction m with
      | zero => intro p hp; exact ⟨p, hp⟩
      | succ m ih =>
        intro p hp
        rw [← Nat.add_assoc, trueIter] at hp
        cases h1 : trueIter C orig (n + 1 + m) with
        | error e => rw [h1] at hp; cases hp
        | ok q => exact ih q h1
    obtain ⟨q, hq⟩ := hdown m _ h'
    rw [trueIter, h] at hq
    dsimp only at hq
    cases h2 : oneIter C true cat with
    | error e => rw [h2] at hq; cases hq
    | ok t =>
      exact ⟨t, _, rfl, by rw [trueIter, h]; dsimp only; rw [h2]⟩
  obtain ⟨t, cat1, e, h1⟩ := hstep
  refine ⟨t, e, ?_⟩
  obtain ⟨hl, hp⟩ := trueIter_prefix C orig (n + 1) m _ final cat1 cat' h1 h'
  have hlen : cols.length = n := by
    rw [List.length_append, List.length_singleton] at hl; omega
  have : (final.take (n + 1))[n]? = some t := by
    rw [hp, List.getElem?_append_right (by omega), hlen]
    simp
  rwa [List.getElem?_take_of_lt (by omega)] at this

/-- **C156**: no iteration is refused, and every iteration has values at all nodes. -/
theorem C156_total (C : Cal α) (hf : FminOK C.F.fmin) (orig : List (Row α)) (n : Nat) :
    ∃ cols cat, trueIter C orig n = .ok (cols, cat) ∧ cols.length = n ∧ ∀ t ∈ cols, Sized C.F t ∧
      (C.corrslope = false → ∀ v ∈ t.slope, v = 0) := by
  induction n with
  | zero => exact ⟨[], orig, rfl, rfl, fun t ht => by cases ht⟩
  | succ n ih =>
    obtain ⟨cols, cat, h, hl, hc⟩ := ih
    have hs0 : Sized C.F (start C) := by unfold Sized start; simp
    obtain ⟨t1, e1, s1, b1, _⟩ := C154_sequence C.F hf C.corrslope ((inliers C none cat).map (datum C true)) _ hs0
    obtain ⟨t2, e2, s2, b2, _⟩ := C154_sequence C.F hf C.corrslope
      ((inliers C (some t1.scatter) cat).map (datum C true)) _ s1
    have e : oneIter C true cat = .ok t2 := by
      unfold oneIter
      rw [e1]
      exact e2
    refine ⟨cols ++ [t2], _, by rw [trueIter, h]; dsimp only; rw [e], by simp [hl], ?_⟩
    intro t ht
    rcases List.mem_append.mp ht with ht | ht
    · exact hc t ht
    · rw [List.mem_singleton.mp ht]
      refine ⟨s2, fun hcs v hv => ?_⟩
      rw [b2 hcs, b1 hcs] at hv
      unfold start at hv
      simp only [List.mem_map] at hv
      obtain ⟨_, _, rfl⟩ := hv
      rfl

/-! ## C157: the errors -/

/-- Sum of the squares of the scatters entering the iterations, each at the redshift the ones before give. -/
def scatterSq (C : Cal α) (Lambda : α) : List (Triple α) → α → α
  | [], _ => 0
  | t :: ts, z =>
    npInterp z C.grid (table C t).scatter * npInterp z C.grid (table C t).scatter +
      scatterSq C Lambda ts (z + corrDz (C.log (Lambda / C.pivot)) C.grid (table C t) z)

theorem scatterSq_eq (C : Cal α) (lam : α) (cols : List (Triple α)) (z : α) :
    scatterSq C lam cols z = ((extras (C.log (lam / C.pivot)) C.grid (cols.map (table C)) z).map fun x => x * x).sum := by
  induction cols generalizing z with
  | nil => rfl
  | cons t ts ih =>
    rw [scatterSq, List.map_cons, extras, List.map_cons, List.sum_cons, ih]

theorem scatterSq_blank (C : Cal α) (hg : Grid C.grid) (hs : SplineZero C.F) (lam : α) (cols : List (Triple α)) (k : Nat)
    (z : α) : scatterSq C lam (cols ++ List.replicate k (blank C)) z =
      scatterSq C lam cols z + (k : α) * (1 / 1000 * (1 / 1000)) := by
  induction cols generalizing z with
  | nil =>
    rw [List.nil_append]
    induction k generalizing z with
    | zero => simp [scatterSq]
    | succ k ih =>
      rw [List.replicate_succ]
      have e : ∀ l : List (Triple α), scatterSq C lam (blank C :: l) z =
          npInterp z C.grid (table C (blank C)).scatter * npInterp z C.grid (table C (blank C)).scatter +
            scatterSq C lam l (z + corrDz (C.log (lam / C.pivot)) C.grid (table C (blank C)) z) := fun _ => rfl
      rw [e, blank_extra C hg hs, ih]
      simp only [scatterSq]
      push_cast
      ring
  | cons t ts ih =>
    rw [List.cons_append, scatterSq, scatterSq, ih]
    ring

theorem correct_err (C : Cal α) (hq : SqrtOK C.sqrt) (cols : List (Triple α)) (r : Row α) :
    (correct C cols r).zlamE * (correct C cols r).zlamE = r.zlamE * r.zlamE + scatterSq C r.Lambda cols r.zlam := by
  obtain ⟨s, hs, _⟩ := apply_total C (C.log (r.Lambda / C.pivot)) cols r.zlam r.zlamE
  unfold correct
  rw [hs]
  dsimp only
  rw [C63_quadrature hq C.simpson _ C.grid false (cols.map (table C)) _ s hs, scatterSq_eq]

/-- **C157**, the full claim: the errors every iteration is fitted with are those the correction gives when cut after
the iterations before: the original error and the scatters of these iterations added in quadrature. It fails: see
`C157_false`. -/
def C157_spec (C : Cal α) (orig : List (Row α)) : Prop :=
  ∀ (n : Nat) (cols : List (Triple α)) (cat : List (Row α)), n ≤ C.niter → trueIter C orig n = .ok (cols, cat) →
    ∀ (k : Nat) (r r' : Row α), orig[k]? = some r → cat[k]? = some r' →
      r'.zlamE * r'.zlamE = r.zlamE * r.zlamE + scatterSq C r.Lambda cols r.zlam

theorem cat_err (C : Cal α) (hg : Grid C.grid) (hs : SplineZero C.F) (hq : SqrtOK C.sqrt) (orig : List (Row α))
    (n : Nat) (cols : List (Triple α)) (cat : List (Row α)) (h : trueIter C orig (n + 1) = .ok (cols, cat))
    (k : Nat) (r r' : Row α) (hr : orig[k]? = some r) (hr' : cat[k]? = some r') :
    r'.zlamE * r'.zlamE = r.zlamE * r.zlamE + scatterSq C r.Lambda cols r.zlam +
      ((C.niter - (n + 1) : Nat) : α) * (1 / 1000 * (1 / 1000)) := by
  obtain ⟨hl, _⟩ := trueIter_prefix C orig (n + 1) 0 cols cols cat cat h h
  rw [trueIter] at h
  cases h1 : trueIter C orig n with
  | error e => rw [h1] at h; cases h
  | ok p =>
    obtain ⟨c1, k1⟩ := p
    rw [h1] at h
    dsimp only at h
    cases h2 : oneIter C true k1 with
    | error e => rw [h2] at h; cases h
    | ok t =>
      rw [h2] at h
      cases h
      rw [List.getElem?_map, hr] at hr'
      cases hr'
      rw [correct_err C hq, scatterSq_blank C hg hs, hl]
      ring

/-- **C157, partial**: it holds for the first iteration and after the last one. Missing: the iterations in between,
where every iteration that is not fitted yet adds 0.001 in quadrature. -/
theorem C157_errors_partial (C : Cal α) (hg : Grid C.grid) (hs : SplineZero C.F) (hq : SqrtOK C.sqrt)
    (orig : List (Row α)) (n : Nat) (hn : n = 0 ∨ n = C.niter) (cols : List (Triple α)) (cat : List (Row α))
    (h : trueIter C orig n = .ok (cols, cat)) (k : Nat) (r r' : Row α) (hr : orig[k]? = some r)
    (hr' : cat[k]? = some r') :
    r'.zlamE * r'.zlamE = r.zlamE * r.zlamE + scatterSq C r.Lambda cols r.zlam := by
  cases n with
  | zero =>
    cases h
    rw [hr] at hr'
    cases hr'
    simp [scatterSq]
  | succ n =>
    have hn : n + 1 = C.niter := by rcases hn with h | h; omega; exact h
    rw [cat_err C hg hs hq orig n cols cat h k r r' hr hr', hn]
    simp

/-- **C157 fails** for every calibration with at least two iterations and a cluster: the errors in the second
iteration have an extra 0.001 in quadrature for every iteration still to come. -/
theorem C157_false (C : Cal α) (hg : Grid C.grid) (hs : SplineZero C.F) (hq : SqrtOK C.sqrt) (orig : List (Row α))
    (hn : 2 ≤ C.niter) (hne : orig ≠ []) (cols : List (Triple α)) (cat : List (Row α))
    (h : trueIter C orig 1 = .ok (cols, cat)) : ¬ C157_spec C orig := by
  intro hspec
  obtain ⟨r, hr⟩ : ∃ r, orig[0]? = some r := by
    cases orig with
    | nil => exact absurd rfl hne
    | cons r l => exact ⟨r, rfl⟩
  have hlen : cat.length = orig.length := (C156_iterations C hg hs orig 1 0 cols cols cat cat h h).1
  obtain ⟨r', hr', _⟩ := (C156_iterations C hg hs orig 1 0 cols cols cat cat h h).2 0 r hr
  have h1 := hspec 1 cols cat (by omega) h 0 r r' hr hr'
  have h2 := cat_err C hg hs hq orig 0 cols cat h 0 r r' hr hr'
  rw [h1] at h2
  have h3 : (0 : α) < ((C.niter - (0 + 1) : Nat) : α) := by
    have : 0 < C.niter - (0 + 1) := by omega
    exact_mod_cast this
  have h4 : (0 : α) < ((C.niter - (0 + 1) : Nat) : α) * (1 / 1000 * (1 / 1000)) :=
    mul_pos h3 (by norm_num)
  linarith

/-! ## C158: the richness variable -/

/-- **C158**, the full claim: the shift that the fit found for a cluster, at its own richness variable, is the one the
correction applies to it. It fails with a richness slope: see `C158_false`. -/
def C158_spec (C : Cal α) : Prop :=
  ∀ (t : Triple α) (r : Row α), Sized C.F t →
    corrDz (C.log (r.Lambda / C.pivot)) C.grid (table C t) r.zlam =
      corrDz (datum C true r).llam C.grid (table C t) r.zlam

/-- **C158, partial**: it holds for clusters with a scale of one, and for all clusters if no slope was fitted. -/
theorem C158_richness_partial (C : Cal α) (hs : SplineZero C.F) (t : Triple α) (r : Row α)
    (h : r.scaleval = 1 ∨ t.slope = C.F.slopeNodes.map fun _ => 0) :
    corrDz (C.log (r.Lambda / C.pivot)) C.grid (table C t) r.zlam =
      corrDz (datum C true r).llam C.grid (table C t) r.zlam := by
  rcases h with h | h
  · unfold datum
    rw [h, div_one]
  · unfold corrDz table
    rw [h]
    have : ∀ ll : α, (List.zipWith (fun o s => o + s * ll) (C.grid.map (C.F.spline C.F.nodes t.delta))
        (C.grid.map (C.F.spline C.F.slopeNodes (C.F.slopeNodes.map fun _ => 0)))) =
        C.grid.map (C.F.spline C.F.nodes t.delta) := by
      intro ll
      refine List.ext_getElem (by simp) fun i h1 h2 => ?_
      rw [List.getElem_zipWith, List.getElem_map, List.getElem_map, hs, zero_mul, add_zero]
    rw [this, this]

/-- A small calibrator: constant splines, a minimizer that stays at the start, logarithm replaced by the identity. -/
def demoCal : Cal ℚ where
  F := { nodes := [1 / 10, 9 / 10], slopeNodes := [1 / 10, 9 / 10], spline := fun _ v _ => v.getD 0 0
         logG := fun r v => some (-(r * r + v)), fmin := fun _ x => x }
  corrslope := true
  niter := 3
  pivot := 30
  grid := [0, 1 / 2, 1]
  log := fun x => x - 1
  sqrt := fun _ => 1
  simpson := fun _ _ => 1

/-- **C158 fails**: the fit uses the richness divided by the scale, the application the richness itself. -/
theorem C158_false : ¬ C158_spec demoCal := by
  intro h
  have := h ⟨[0, 0], [1 / 100, 1 / 100], [0, 0]⟩ ⟨1 / 2, 1 / 2, 1 / 100, 60, 2, 0⟩ ⟨rfl, rfl, rfl⟩
  revert this
  decide +kernel

/-! ## C159: outliers -/

/-- A cluster that is off by at least three times its error and the scatter `sigma` in quadrature. -/
def Outlier (C : Cal α) (sigma : α) (r : Row α) : Prop :=
  0 ≤ r.zlamE → (3 : α) ^ 2 * (r.zlamE ^ 2 + sigma ^ 2) ≤ (r.z - r.zlam) ^ 2

theorem lt_three_sqrt {sqrt : α → α} (hq : SqrtOK sqrt) (d x : α) (hx : 0 ≤ x) :
    |d| < 3 * sqrt x ↔ d ^ 2 < 3 ^ 2 * x := by
  have h0 := hq.nonneg x
  have h1 := hq.sq x hx
  rw [← abs_of_nonneg (mul_nonneg (by norm_num : (0 : α) ≤ 3) h0), ← sq_lt_sq, mul_pow, pow_two (sqrt x), h1]

/-- **C159.** Outliers have no influence: the values fitted in an iteration are the same without any clusters that are
off by three times their error and the fitted scatter of the first pass. And the first pass uses exactly the clusters
off by less than three times their error. -/
theorem C159_outliers (C : Cal α) (hq : SqrtOK C.sqrt) (ztrue : Bool) (cat : List (Row α)) (good : Row α → Bool)
    (hpos : ∀ r ∈ cat, 0 ≤ r.zlamE) (first : Triple α)
    (hfirst : fits C.F C.corrslope ((cat.filter fun r => decide (|r.z - r.zlam| < 3 * r.zlamE)).map (datum C ztrue))
      (start C) = .ok first)
    (hgood : ∀ r ∈ cat, good r = false → Outlier C (C.F.spline C.F.slopeNodes first.scatter r.z) r) :
    oneIter C ztrue (cat.filter good) = oneIter C ztrue cat ∧
    (∀ t, oneIter C ztrue cat = .ok t → ∀ kept : Row α → Bool,
      (∀ r ∈ cat, kept r = false ↔ Outlier C (C.F.spline C.F.slopeNodes first.scatter r.z) r) →
      fits C.F C.corrslope ((cat.filter kept).map (datum C ztrue)) first = .ok t) := by
  have hin : ∀ r ∈ cat, ∀ sg : α, (|r.z - r.zlam| < 3 * C.sqrt (r.zlamE * r.zlamE + sg * sg)) ↔ ¬ Outlier C sg r := by
    intro r hr sg
    rw [lt_three_sqrt hq _ _ (add_nonneg (mul_self_nonneg _) (mul_self_nonneg _))]
    unfold Outlier
    rw [pow_two r.zlamE, pow_two sg]
    constructor
    · intro h hc
      exact absurd (hc (hpos r hr)) (not_le.mpr h)
    · intro h
      by_contra hc
      exact h fun _ => not_lt.mp hc
  have hweak : ∀ r ∈ cat, ∀ sg : α, Outlier C sg r → ¬ |r.z - r.zlam| < 3 * r.zlamE := by
    intro r hr sg ho hc
    have h1 := ho (hpos r hr)
    have h2 : (r.z - r.zlam) ^ 2 < (3 * r.zlamE) ^ 2 := by
      rw [sq_lt_sq, abs_of_nonneg (mul_nonneg (by norm_num) (hpos r hr))]
      exact hc
    rw [mul_pow] at h2
    nlinarith [pow_two_nonneg sg]
  have e1 : inliers C none (cat.filter good) = inliers C none cat := by
    unfold inliers
    rw [List.filter_filter]
    refine List.filter_congr fun r hr => ?_
    dsimp only
    cases hg : good r with
    | true => simp
    | false =>
      have := hweak r hr _ (hgood r hr hg)
      simp [this]
  have e2 : inliers C (some first.scatter) (cat.filter good) = inliers C (some first.scatter) cat := by
    unfold inliers
    rw [List.filter_filter]
    refine List.filter_congr fun r hr => ?_
    dsimp only
    cases hg : good r with
    | true => simp
    | false =>
      have := fun h => (hin r hr _).mp h (hgood r hr hg)
      simpa using this
  have hfirst' : fits C.F C.corrslope ((inliers C none cat).map (datum C ztrue)) (start C) = .ok first := hfirst
  constructor
  · unfold oneIter
    rw [e1, hfirst']
    dsimp only
    rw [e2]
  · intro t ht kept hk
    unfold oneIter at ht
    rw [hfirst'] at ht
    dsimp only at ht
    rw [← ht]
    congr 2
    unfold inliers
    refine List.filter_congr fun r hr => ?_
    dsimp only
    cases hg : kept r with
    | false =>
      have := fun h => (hin r hr (C.F.spline C.F.slopeNodes first.scatter r.z)).mp h ((hk r hr).mp hg)
      simpa using this
    | true =>
      have h2 : ¬ Outlier C (C.F.spline C.F.slopeNodes first.scatter r.z) r := by
        intro h
        rw [(hk r hr).mpr h] at hg
        cases hg
      simp [(hin r hr _).mpr h2]

/-! ## The hypotheses are met -/

example : FminOK demoCal.F.fmin := ⟨fun _ _ => rfl, fun _ _ => le_refl _⟩

example : Sized demoCal.F (start demoCal) := ⟨rfl, rfl, rfl⟩

example : Grid demoCal.grid := by
  refine ⟨by decide, ?_⟩
  simp [demoCal]
  norm_num

example : SplineZero demoCal.F := by
  intro nodes z
  unfold demoCal
  cases nodes <;> rfl

/-- Iterations run to the end on a catalog. -/
example : (match trueIter demoCal [⟨1 / 2, 1 / 2, 1 / 100, 60, 2, 0⟩] 3 with
    | .ok p => decide (p.1.length = 3)
    | .error _ => false) = true := by decide +kernel

example : select (10 : ℚ) 1 [1 / 10, 5 / 10, 9 / 10] [⟨3 / 10, 0, 0, 20, 1, 0⟩, ⟨9 / 10, 0, 0, 20, 1, 0⟩,
    ⟨7 / 10, 0, 0, 5, 1, 0⟩] = .ok [⟨3 / 10, 0, 0, 20, 1, 0⟩, ⟨9 / 10, 0, 0, 20, 1, 0⟩] := by decide +kernel

example : select (10 : ℚ) 1 [1 / 10, 5 / 10, 9 / 10] [⟨3 / 10, 0, 0, 20, 1, 0⟩, ⟨7 / 10, 0, 0, 5, 1, 0⟩] =
    .error .runtimeError := by decide +kernel

end Redmapper.ZlamCal
