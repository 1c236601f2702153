/-
C311-C314: the construction of the redshift corrections, from a file or from within their calibration.
-/
import Verif.Model.ZlamPar
import Verif.Props.Zlambda

set_option linter.unusedSectionVars false

namespace Redmapper.ZlamPar

open Redmapper.Zlambda
open Redmapper.Utilities (Grid C26_interpol)
open Redmapper.Mask (SqrtOK exists_segment)

variable {α : Type} [Field α] [LinearOrder α] [IsStrictOrderedRing α]

/-! ## C311: which values are used -/

theorem build_err (spl : List α → List α → α → α) (rnd : α → Int) (zr : α × α) (zb pv : α) (p : Pars α) (e : Err)
    (h : build spl rnd zr zb pv p = .error e) : e = .valueError ∨ e = .indexError := by
  have hsp : ∀ x z t, splineOf spl x z t = .error e → e = .valueError := by
    intro x z t ht
    cases t with
    | flat v => simp [splineOf] at ht
    | cols c => simp only [splineOf, Except.error.injEq] at ht; exact ht.symm
  have htab : ∀ z o s c, tabOf spl p z o s c = .error e → e = .valueError := by
    intro z o s c ht
    simp only [tabOf, bind, Except.bind, pure, Except.pure] at ht
    cases h1 : splineOf spl p.offsetZ z o with
    | error e1 => rw [h1] at ht; simp only [Except.error.injEq] at ht; subst ht; exact hsp _ _ _ h1
    | ok v1 =>
      rw [h1] at ht; simp only at ht
      cases h2 : splineOf spl p.slopeZ z s with
      | error e1 => rw [h2] at ht; simp only [Except.error.injEq] at ht; subst ht; exact hsp _ _ _ h2
      | ok v2 =>
        rw [h2] at ht; simp only at ht
        cases h3 : splineOf spl p.slopeZ z c with
        | error e1 => rw [h3] at ht; simp only [Except.error.injEq] at ht; subst ht; exact hsp _ _ _ h3
        | ok v3 => rw [h3] at ht; simp at ht
  have hcol : ∀ i t, column i t = (.error e : Except Err (Tab α)) → e = .indexError := by
    intro i t ht
    cases t with
    | flat v => simp only [column, Except.error.injEq] at ht; exact ht.symm
    | cols c =>
      simp only [column] at ht
      cases hc : c[i]? with
      | none => rw [hc] at ht; simp only [Except.error.injEq] at ht; exact ht.symm
      | some v => rw [hc] at ht; simp at ht
  have hmap : ∀ (f : Nat → Except Err (CorrTab α)) l, (∀ i, f i = .error e → e = .valueError ∨ e = .indexError) → mapE f l = .error e →
      e = .valueError ∨ e = .indexError := by
    intro f l hf
    induction l with
    | nil => intro hl; simp [mapE] at hl
    | cons i l ih =>
      intro hl
      simp only [mapE] at hl
      cases h1 : f i with
      | error e1 => rw [h1] at hl; simp only [Except.error.injEq] at hl; subst hl; exact hf i h1
      | ok y =>
        rw [h1] at hl; simp only at hl
        cases h2 : mapE f l with
        | error e1 => rw [h2] at hl; simp only [Except.error.injEq] at hl; subst hl; exact ih h2
        | ok ys => rw [h2] at hl; simp at hl
  have htabs : ∀ z, tabsOf spl p z = .error e → e = .valueError ∨ e = .indexError := by
    intro z ht
    unfold tabsOf at ht
    simp only at ht
    by_cases hn : p.niter.getD 1 = 1
    · rw [if_pos hn] at ht
      simp only [bind, Except.bind, pure, Except.pure] at ht
      cases h1 : tabOf spl p z p.offsetTrue p.slopeTrue p.scatterTrue with
      | error e1 => rw [h1] at ht; simp only [Except.error.injEq] at ht; subst ht; exact Or.inl (htab _ _ _ _ h1)
      | ok t => rw [h1] at ht; simp at ht
    · rw [if_neg hn] at ht
      refine hmap _ _ ?_ ht
      intro i hi
      simp only [bind, Except.bind] at hi
      cases h1 : column i p.offsetTrue with
      | error e1 => rw [h1] at hi; simp only [Except.error.injEq] at hi; subst hi; exact Or.inr (hcol _ _ h1)
      | ok v1 =>
        rw [h1] at hi; simp only at hi
        cases h2 : column i p.slopeTrue with
        | error e1 => rw [h2] at hi; simp only [Except.error.injEq] at hi; subst hi; exact Or.inr (hcol _ _ h2)
        | ok v2 =>
          rw [h2] at hi; simp only at hi
          cases h3 : column i p.scatterTrue with
          | error e1 => rw [h3] at hi; simp only [Except.error.injEq] at hi; subst hi; exact Or.inr (hcol _ _ h3)
          | ok v3 => rw [h3] at hi; exact Or.inl (htab _ _ _ _ hi)
  unfold build at h
  simp only at h
  by_cases hn : rnd ((zr.2 - zr.1) / zb) < 0
  · rw [if_pos hn] at h; simp only [Except.error.injEq] at h; exact Or.inl h.symm
  · rw [if_neg hn] at h
    simp only [bind, Except.bind, pure, Except.pure] at h
    cases h1 : tabsOf spl p ((List.range (rnd ((zr.2 - zr.1) / zb)).toNat).map fun i : Nat => zb * (i : α) + zr.1) with
    | error e1 => rw [h1] at h; simp only [Except.error.injEq] at h; subst h; exact htabs _ h1
    | ok t => rw [h1] at h; simp at h

theorem build_keeps (spl : List α → List α → α → α) (rnd : α → Int) (zr : α × α) (zb pv : α) (p : Pars α) (c : Corr α)
    (h : build spl rnd zr zb pv p = .ok c) : c.zrange = zr ∧ c.zbinsize = zb ∧ c.pivot = pv := by
  unfold build at h
  simp only at h
  by_cases hn : rnd ((zr.2 - zr.1) / zb) < 0
  · rw [if_pos hn] at h; simp at h
  · rw [if_neg hn] at h
    simp only [bind, Except.bind, pure, Except.pure] at h
    cases h1 : tabsOf spl p ((List.range (rnd ((zr.2 - zr.1) / zb)).toNat).map fun i : Nat => zb * (i : α) + zr.1) with
    | error e1 => rw [h1] at h; simp at h
    | ok t => rw [h1] at h; simp only [Except.ok.injEq] at h; subst h; exact ⟨rfl, rfl, rfl⟩

/-- C311.  RuntimeError exactly when neither a file nor parameters are given. -/
theorem C311_neither {N : Type} (spl : List α → List α → α → α) (rnd : α → Int) (files : N → Option (Hdr α × Pars α)) (parfile : Option N)
    (pars : Option (Pars α)) (zrange : Option (α × α)) (zbinsize pivot : Option α) :
    init spl rnd files parfile pars zrange zbinsize pivot = .error .runtimeError ↔ parfile = none ∧ pars = none := by
  constructor
  · intro h
    cases parfile with
    | none =>
      cases pars with
      | none => exact ⟨rfl, rfl⟩
      | some p =>
        exfalso
        cases zrange <;> cases zbinsize <;> cases pivot <;> simp only [init, need, bind, Except.bind, Except.error.injEq, reduceCtorEq] at h
        rcases build_err _ _ _ _ _ _ _ h with h | h <;> cases h
    | some f =>
      exfalso
      cases hf : files f with
      | none => simp [init, hf] at h
      | some hp =>
        obtain ⟨⟨a, b, c, d⟩, p⟩ := hp
        cases zrange <;> cases zbinsize <;> cases pivot <;> cases a <;> cases b <;> cases c <;> cases d <;>
          simp only [init, hf, hdrRange, need, bind, Except.bind, Except.error.injEq, reduceCtorEq] at h <;>
          (rcases build_err _ _ _ _ _ _ _ h with h | h <;> cases h)
  · rintro ⟨rfl, rfl⟩; rfl

/-- C311.  IOError exactly when a file is named that does not exist, whatever else is given. -/
theorem C311_missing {N : Type} (spl : List α → List α → α → α) (rnd : α → Int) (files : N → Option (Hdr α × Pars α)) (parfile : Option N)
    (pars : Option (Pars α)) (zrange : Option (α × α)) (zbinsize pivot : Option α) :
    init spl rnd files parfile pars zrange zbinsize pivot = .error .ioError ↔ ∃ f, parfile = some f ∧ files f = none := by
  constructor
  · intro h
    cases parfile with
    | none =>
      exfalso
      cases pars with
      | none => simp [init] at h
      | some p =>
        cases zrange <;> cases zbinsize <;> cases pivot <;> simp only [init, need, bind, Except.bind, Except.error.injEq, reduceCtorEq] at h
        rcases build_err _ _ _ _ _ _ _ h with h | h <;> cases h
    | some f =>
      refine ⟨f, rfl, ?_⟩
      cases hf : files f with
      | none => rfl
      | some hp =>
        exfalso
        obtain ⟨⟨a, b, c, d⟩, p⟩ := hp
        cases zrange <;> cases zbinsize <;> cases pivot <;> cases a <;> cases b <;> cases c <;> cases d <;>
          simp only [init, hf, hdrRange, need, bind, Except.bind, Except.error.injEq, reduceCtorEq] at h <;>
          (rcases build_err _ _ _ _ _ _ _ h with h | h <;> cases h)
  · rintro ⟨f, rfl, hf⟩; simp [init, hf]

/-- C311.  The parameters of a file are used even when parameters are given too. -/
theorem C311_file_first {N : Type} (spl : List α → List α → α → α) (rnd : α → Int) (files : N → Option (Hdr α × Pars α)) (f : N)
    (pars : Option (Pars α)) (zrange : Option (α × α)) (zbinsize pivot : Option α) :
    init spl rnd files (some f) pars zrange zbinsize pivot = init spl rnd files (some f) none zrange zbinsize pivot := by
  cases pars <;> rfl

/-- C311.  A file with a full header gives what its parameters give with, for each value, the argument if there is one and the header otherwise. -/
theorem C311_header {N : Type} (spl : List α → List α → α → α) (rnd : α → Int) (files : N → Option (Hdr α × Pars α)) (f : N) (z0 z1 b v : α)
    (p : Pars α) (hf : files f = some (⟨some z0, some z1, some b, some v⟩, p)) (zrange : Option (α × α)) (zbinsize pivot : Option α) :
    init spl rnd files (some f) none zrange zbinsize pivot =
      init spl rnd files none (some p) (some (zrange.getD (z0, z1))) (some (zbinsize.getD b)) (some (pivot.getD v)) := by
  cases zrange <;> cases zbinsize <;> cases pivot <;> simp [init, hf, hdrRange, need, bind, Except.bind]

/-- C311.  KeyError exactly when the header of the file lacks a value that is not given as an argument. -/
theorem C311_key {N : Type} (spl : List α → List α → α → α) (rnd : α → Int) (files : N → Option (Hdr α × Pars α)) (f : N) (h : Hdr α)
    (p : Pars α) (hf : files f = some (h, p)) (pars : Option (Pars α)) (zrange : Option (α × α)) (zbinsize pivot : Option α) :
    init spl rnd files (some f) pars zrange zbinsize pivot = .error .keyError ↔
      (zrange = none ∧ (h.zrange0 = none ∨ h.zrange1 = none)) ∨ (zbinsize = none ∧ h.zbinsize = none) ∨ (pivot = none ∧ h.zlampiv = none) := by
  have hb : ∀ zr zb pv, build spl rnd zr zb pv p ≠ .error .keyError := by
    intro zr zb pv hh
    rcases build_err _ _ _ _ _ _ _ hh with h | h <;> cases h
  obtain ⟨a, b, c, d⟩ := h
  rw [C311_file_first]
  cases zrange <;> cases zbinsize <;> cases pivot <;> cases a <;> cases b <;> cases c <;> cases d <;>
    simp [init, hf, hdrRange, need, bind, Except.bind, hb]

/-- C311.  Without a file, a missing range, bin size or pivot is a ValueError, and an object has just the values given. -/
theorem C311_given {N : Type} (spl : List α → List α → α → α) (rnd : α → Int) (files : N → Option (Hdr α × Pars α)) (p : Pars α)
    (zrange : Option (α × α)) (zbinsize pivot : Option α) :
    ((zrange = none ∨ zbinsize = none ∨ pivot = none) → init spl rnd files none (some p) zrange zbinsize pivot = .error .valueError) ∧
    ∀ c, init spl rnd files none (some p) zrange zbinsize pivot = .ok c → zrange = some c.zrange ∧ zbinsize = some c.zbinsize ∧ pivot = some c.pivot := by
  constructor
  · intro h
    cases zrange <;> cases zbinsize <;> cases pivot <;> simp_all [init, need, bind, Except.bind]
  · intro c h
    cases zrange <;> cases zbinsize <;> cases pivot <;> simp only [init, need, bind, Except.bind, reduceCtorEq] at h
    obtain ⟨h1, h2, h3⟩ := build_keeps _ _ _ _ _ _ _ h
    rw [h1, h2, h3]; exact ⟨rfl, rfl, rfl⟩

/-! ## C312: the tables -/

/-- What is used of the rounding: within half of one. -/
def RoundOK (rnd : α → Int) : Prop := ∀ x, |(rnd x : α) - x| ≤ 1 / 2

theorem mapE_ok {β γ : Type} (f : β → Except Err γ) (l : List β) (r : List γ) (h : mapE f l = .ok r) :
    r.length = l.length ∧ ∀ (i : Nat) b, l[i]? = some b → ∃ y, f b = .ok y ∧ r[i]? = some y := by
  induction l generalizing r with
  | nil => simp only [mapE, Except.ok.injEq] at h; subst h; simp
  | cons x l ih =>
    simp only [mapE] at h
    cases h1 : f x with
    | error e => rw [h1] at h; simp at h
    | ok y =>
      rw [h1] at h; simp only at h
      cases h2 : mapE f l with
      | error e => rw [h2] at h; simp at h
      | ok ys =>
        rw [h2] at h; simp only [Except.ok.injEq] at h; subst h
        obtain ⟨hl, hi⟩ := ih ys h2
        refine ⟨by simp [hl], ?_⟩
        intro i b hb
        cases i with
        | zero => simp only [List.getElem?_cons_zero, Option.some.injEq] at hb; subst hb; exact ⟨y, h1, rfl⟩
        | succ i => simpa using hi i b (by simpa using hb)

/-- The values at the nodes for an iteration: those of its column; of the only table there is if it has one dimension. -/
def valuesOf (t : Tab α) (i : Nat) (v : List α) : Prop := match t with
  | .flat w => i = 0 ∧ v = w
  | .cols c => c[i]? = some v

theorem tabOf_ok (spl : List α → List α → α → α) (p : Pars α) (z : List α) (o s c : Tab α) (t : CorrTab α) (h : tabOf spl p z o s c = .ok t) :
    ∃ ov sv cv, o = .flat ov ∧ s = .flat sv ∧ c = .flat cv ∧ t.offset = z.map (spl p.offsetZ ov) ∧ t.slope = z.map (spl p.slopeZ sv) ∧
      t.scatter = z.map fun x => max (spl p.slopeZ cv x) (1 / 1000) := by
  cases o with
  | cols _ => simp [tabOf, splineOf, bind, Except.bind] at h
  | flat ov =>
    cases s with
    | cols _ => simp [tabOf, splineOf, bind, Except.bind] at h
    | flat sv =>
      cases c with
      | cols _ => simp [tabOf, splineOf, bind, Except.bind] at h
      | flat cv =>
        simp only [tabOf, splineOf, bind, Except.bind, pure, Except.pure, Except.ok.injEq] at h
        subst h
        exact ⟨ov, sv, cv, rfl, rfl, rfl, rfl, rfl, by simp [scatterTable]⟩

theorem column_ok (i : Nat) (t : Tab α) (v : List α) (h : column i t = .ok (.flat v)) : valuesOf t i v := by
  cases t with
  | flat w => simp [column] at h
  | cols c =>
    simp only [column] at h
    cases hc : c[i]? with
    | none => rw [hc] at h; simp at h
    | some w => rw [hc] at h; simp only [Except.ok.injEq, Tab.flat.injEq] at h; subst h; exact hc

theorem tabsOf_ok (spl : List α → List α → α → α) (p : Pars α) (z : List α) (ts : List (CorrTab α)) (h : tabsOf spl p z = .ok ts) :
    ts.length = p.niter.getD 1 ∧ ∀ i t, ts[i]? = some t → ∃ ov sv cv, valuesOf p.offsetTrue i ov ∧ valuesOf p.slopeTrue i sv ∧ valuesOf p.scatterTrue i cv ∧
      t.offset = z.map (spl p.offsetZ ov) ∧ t.slope = z.map (spl p.slopeZ sv) ∧ t.scatter = z.map fun x => max (spl p.slopeZ cv x) (1 / 1000) := by
  unfold tabsOf at h
  simp only at h
  by_cases hn : p.niter.getD 1 = 1
  · rw [if_pos hn] at h
    simp only [bind, Except.bind, pure, Except.pure] at h
    cases h1 : tabOf spl p z p.offsetTrue p.slopeTrue p.scatterTrue with
    | error e => rw [h1] at h; simp at h
    | ok t =>
      rw [h1] at h; simp only [Except.ok.injEq] at h; subst h
      refine ⟨by rw [hn]; rfl, ?_⟩
      intro i t' ht
      obtain ⟨ov, sv, cv, ho, hs, hc, e1, e2, e3⟩ := tabOf_ok _ _ _ _ _ _ _ h1
      cases i with
      | succ i => simp at ht
      | zero =>
        simp only [List.getElem?_cons_zero, Option.some.injEq] at ht; subst ht
        exact ⟨ov, sv, cv, by rw [ho]; exact ⟨rfl, rfl⟩, by rw [hs]; exact ⟨rfl, rfl⟩, by rw [hc]; exact ⟨rfl, rfl⟩, e1, e2, e3⟩
  · rw [if_neg hn] at h
    obtain ⟨hl, hi⟩ := mapE_ok _ _ _ h
    refine ⟨by rw [hl, List.length_range], ?_⟩
    intro i t ht
    have hlt : i < p.niter.getD 1 := by
      have := (List.getElem?_eq_some_iff.mp ht).1
      rw [hl, List.length_range] at this; exact this
    obtain ⟨y, hy, hr⟩ := hi i i (by simp [hlt])
    rw [ht] at hr
    obtain rfl := Option.some.inj hr
    simp only [bind, Except.bind] at hy
    cases h1 : column i p.offsetTrue with
    | error e => rw [h1] at hy; simp at hy
    | ok o =>
      rw [h1] at hy; simp only at hy
      cases h2 : column i p.slopeTrue with
      | error e => rw [h2] at hy; simp at hy
      | ok s =>
        rw [h2] at hy; simp only at hy
        cases h3 : column i p.scatterTrue with
        | error e => rw [h3] at hy; simp at hy
        | ok c =>
          rw [h3] at hy; simp only at hy
          obtain ⟨ov, sv, cv, rfl, rfl, rfl, e1, e2, e3⟩ := tabOf_ok _ _ _ _ _ _ _ hy
          exact ⟨ov, sv, cv, column_ok _ _ _ h1, column_ok _ _ _ h2, column_ok _ _ _ h3, e1, e2, e3⟩

theorem build_ok (spl : List α → List α → α → α) (rnd : α → Int) (zr : α × α) (zb pv : α) (p : Pars α) (c : Corr α)
    (h : build spl rnd zr zb pv p = .ok c) : 0 ≤ rnd ((zr.2 - zr.1) / zb) ∧
    (c.z = (List.range (rnd ((zr.2 - zr.1) / zb)).toNat).map fun i : Nat => zb * (i : α) + zr.1) ∧ tabsOf spl p c.z = .ok c.tabs ∧
    c.extrapolated = c.z.map (fun x => decide (x < p.offsetZ.getD 0 0) || decide (x > p.offsetZ.getD (p.offsetZ.length - 1) 0)) ∧
    c.zredUncorr = c.z.map (spl p.offsetZ p.zredUncorr) := by
  unfold build at h
  simp only at h
  by_cases hn : rnd ((zr.2 - zr.1) / zb) < 0
  · rw [if_pos hn] at h; simp at h
  · rw [if_neg hn] at h
    simp only [bind, Except.bind, pure, Except.pure] at h
    cases h1 : tabsOf spl p ((List.range (rnd ((zr.2 - zr.1) / zb)).toNat).map fun i : Nat => zb * (i : α) + zr.1) with
    | error e1 => rw [h1] at h; simp at h
    | ok t => rw [h1] at h; simp only [Except.ok.injEq] at h; subst h; exact ⟨not_lt.mp hn, rfl, h1, rfl, rfl⟩

/-- C312.  The redshifts of the object begin at the lower end of the range, have the bin size as their spacing, and as many bins as the range
holds, to within half a bin. -/
theorem C312_grid {N : Type} (spl : List α → List α → α → α) {rnd : α → Int} (hr : RoundOK rnd) (files : N → Option (Hdr α × Pars α)) (p : Pars α)
    (z0 z1 b v : α) (hb : 0 < b) (c : Corr α) (h : init spl rnd files none (some p) (some (z0, z1)) (some b) (some v) = .ok c) :
    (∀ i, i < c.z.length → c.z[i]? = some (z0 + i * b)) ∧ |(c.z.length : α) * b - (z1 - z0)| ≤ b / 2 := by
  simp only [init, need, bind, Except.bind] at h
  obtain ⟨h0, hz, _⟩ := build_ok _ _ _ _ _ _ _ h
  simp only at h0 hz
  have hlen : (c.z.length : α) = (rnd ((z1 - z0) / b) : α) := by
    rw [hz]; simp only [List.length_map, List.length_range]
    have : (((rnd ((z1 - z0) / b)).toNat : Int) : α) = (rnd ((z1 - z0) / b) : α) := by rw [Int.toNat_of_nonneg h0]
    rw [← this, Int.cast_natCast]
  refine ⟨?_, ?_⟩
  · intro i hi
    rw [hz] at hi ⊢
    simp only [List.length_map, List.length_range] at hi
    rw [List.getElem?_map, List.getElem?_range hi]
    simp only [Option.map_some, Option.some.injEq]; ring
  · rw [hlen]
    have := hr ((z1 - z0) / b)
    have e : (rnd ((z1 - z0) / b) : α) * b - (z1 - z0) = ((rnd ((z1 - z0) / b) : α) - (z1 - z0) / b) * b := by
      field_simp
    rw [e, abs_mul, abs_of_pos hb]
    calc _ ≤ 1 / 2 * b := by gcongr
      _ = b / 2 := by ring

/-- C312.  There are tables for each iteration (one if the number is not stored), and at each redshift they are the splines through the values of
that iteration, the scatter never below 0.001. -/
theorem C312_tables {N : Type} (spl : List α → List α → α → α) (rnd : α → Int) (files : N → Option (Hdr α × Pars α)) (p : Pars α)
    (zr : α × α) (b v : α) (c : Corr α) (h : init spl rnd files none (some p) (some zr) (some b) (some v) = .ok c) :
    c.tabs.length = p.niter.getD 1 ∧ ∀ i t, c.tabs[i]? = some t →
      ∃ ov sv cv, valuesOf p.offsetTrue i ov ∧ valuesOf p.slopeTrue i sv ∧ valuesOf p.scatterTrue i cv ∧
        t.offset.length = c.z.length ∧ t.slope.length = c.z.length ∧ t.scatter.length = c.z.length ∧
        ∀ (j : Nat) x, c.z[j]? = some x → t.offset[j]? = some (spl p.offsetZ ov x) ∧ t.slope[j]? = some (spl p.slopeZ sv x) ∧
          t.scatter[j]? = some (max (spl p.slopeZ cv x) (1 / 1000)) := by
  simp only [init, need, bind, Except.bind] at h
  obtain ⟨_, _, ht, _⟩ := build_ok _ _ _ _ _ _ _ h
  obtain ⟨hl, hi⟩ := tabsOf_ok _ _ _ _ ht
  refine ⟨hl, ?_⟩
  intro i t hit
  obtain ⟨ov, sv, cv, a1, a2, a3, e1, e2, e3⟩ := hi i t hit
  refine ⟨ov, sv, cv, a1, a2, a3, by rw [e1]; simp, by rw [e2]; simp, by rw [e3]; simp, ?_⟩
  intro j x hx
  rw [e1, e2, e3]
  simp [hx]

/-- C312.  A redshift is marked as extrapolated exactly when it lies outside the nodes, and there is a spline of the uncorrected redshifts. -/
theorem C312_extrapolated {N : Type} (spl : List α → List α → α → α) (rnd : α → Int) (files : N → Option (Hdr α × Pars α)) (p : Pars α)
    (zr : α × α) (b v : α) (c : Corr α) (h : init spl rnd files none (some p) (some zr) (some b) (some v) = .ok c) (lo hi : α)
    (hlo : p.offsetZ.head? = some lo) (hhi : p.offsetZ.getLast? = some hi) (j : Nat) (x : α) (hx : c.z[j]? = some x) :
    (c.extrapolated[j]? = some true ↔ x < lo ∨ hi < x) ∧ (c.extrapolated[j]? = some false ↔ lo ≤ x ∧ x ≤ hi) ∧
      c.zredUncorr[j]? = some (spl p.offsetZ p.zredUncorr x) := by
  simp only [init, need, bind, Except.bind] at h
  obtain ⟨_, _, _, he, hz⟩ := build_ok _ _ _ _ _ _ _ h
  have e1 : p.offsetZ.getD 0 0 = lo := by
    rw [List.head?_eq_getElem?] at hlo; rw [List.getD_eq_getElem?_getD, hlo]; rfl
  have e2 : p.offsetZ.getD (p.offsetZ.length - 1) 0 = hi := by
    rw [List.getLast?_eq_getElem?] at hhi; rw [List.getD_eq_getElem?_getD, hhi]; rfl
  rw [he, hz, List.getElem?_map, List.getElem?_map, hx, e1, e2]
  refine ⟨?_, ?_, rfl⟩
  · simp
  · simp

/-! ## C313: the calibration and its file -/

/-- C313, the full statement: whatever the number of iterations, the calibration can use its corrections. -/
def C313_spec (spl : List α → List α → α → α) (rnd : α → Int) : Prop :=
  ∀ (niter : Nat) (nodes slopeNodes : List α) (done : List (CorrTab α)) (zred : List α) (zr : α × α) (bs piv : α), zr.1 ≤ zr.2 → 0 < bs →
    ∃ c, calCorr (N := Unit) spl rnd (fun _ => none) zr bs piv (calPars niter nodes slopeNodes done zred) = .ok c

theorem mapE_all {β γ : Type} (f : β → Except Err γ) (l : List β) (h : ∀ b ∈ l, ∃ y, f b = .ok y) : ∃ r, mapE f l = .ok r := by
  induction l with
  | nil => exact ⟨[], rfl⟩
  | cons x l ih =>
    obtain ⟨y, hy⟩ := h x (by simp)
    obtain ⟨r, hr⟩ := ih fun b hb => h b (by simp [hb])
    exact ⟨y :: r, by simp [mapE, hy, hr]⟩

/-- C313.  With any other number of iterations than one it can. -/
theorem C313_partial {N : Type} (spl : List α → List α → α → α) {rnd : α → Int} (hr : RoundOK rnd) (files : N → Option (Hdr α × Pars α)) (niter : Nat)
    (hn : niter ≠ 1) (nodes slopeNodes : List α) (done : List (CorrTab α)) (zred : List α) (zr : α × α) (bs piv : α) (hz : zr.1 ≤ zr.2) (hb : 0 < bs) :
    ∃ c, calCorr spl rnd files zr bs piv (calPars niter nodes slopeNodes done zred) = .ok c ∧ c.tabs.length = niter := by
  have h0 : 0 ≤ rnd ((zr.2 + 7 / 100 - (zr.1 - 2 / 100)) / bs) := by
    by_contra hneg
    have h1 : (rnd ((zr.2 + 7 / 100 - (zr.1 - 2 / 100)) / bs) : α) ≤ -1 := by
      have : rnd ((zr.2 + 7 / 100 - (zr.1 - 2 / 100)) / bs) ≤ -1 := by omega
      exact_mod_cast this
    have h2 : 0 ≤ (zr.2 + 7 / 100 - (zr.1 - 2 / 100)) / bs := div_nonneg (by linarith) hb.le
    have h3 := abs_le.mp (hr ((zr.2 + 7 / 100 - (zr.1 - 2 / 100)) / bs))
    linarith [h3.1]
  have ht : ∀ z, ∃ ts, tabsOf spl (calPars niter nodes slopeNodes done zred) z = .ok ts := by
    intro z
    have e : (calPars niter nodes slopeNodes done zred).niter.getD 1 = niter := rfl
    unfold tabsOf
    simp only [e, if_neg hn]
    refine mapE_all _ _ ?_
    intro i hi
    have hi' := List.mem_range.mp hi
    simp only [calPars, column, List.getElem?_map, List.getElem?_range hi', Option.map_some, bind, Except.bind, tabOf, splineOf, pure, Except.pure]
    exact ⟨_, rfl⟩
  obtain ⟨ts, hts⟩ := ht ((List.range (rnd ((zr.2 + 7 / 100 - (zr.1 - 2 / 100)) / bs)).toNat).map fun i : Nat => bs * (i : α) + (zr.1 - 2 / 100))
  have hok : ∃ c, calCorr spl rnd files zr bs piv (calPars niter nodes slopeNodes done zred) = .ok c := by
    simp only [calCorr, init, need, bind, Except.bind, build, if_neg (not_lt.mpr h0), hts, pure, Except.pure]
    exact ⟨_, rfl⟩
  obtain ⟨c, hc⟩ := hok
  exact ⟨c, hc, (C312_tables spl rnd files _ _ _ _ c hc).1⟩

/-- C313.  With one iteration, which the configuration allows, there is a ValueError instead, whatever the fits gave. -/
theorem C313_false {N : Type} (spl : List α → List α → α → α) {rnd : α → Int} (hr : RoundOK rnd) :
    (∀ (files : N → Option (Hdr α × Pars α)) (nodes slopeNodes : List α) (done : List (CorrTab α)) (zred : List α) (zr : α × α) (bs piv : α),
      calCorr spl rnd files zr bs piv (calPars 1 nodes slopeNodes done zred) = .error .valueError) ∧ ¬ C313_spec spl rnd := by
  have key : ∀ {M : Type} (files : M → Option (Hdr α × Pars α)) (nodes slopeNodes : List α) (done : List (CorrTab α)) (zred : List α) (zr : α × α) (bs piv : α),
      calCorr spl rnd files zr bs piv (calPars 1 nodes slopeNodes done zred) = .error .valueError := by
    intro M files nodes slopeNodes done zred zr bs piv
    simp only [calCorr, init, need, bind, Except.bind, build]
    by_cases hn : rnd ((zr.2 + 7 / 100 - (zr.1 - 2 / 100)) / bs) < 0
    · rw [if_pos hn]
    · rw [if_neg hn]
      have : ∀ z, tabsOf spl (calPars 1 nodes slopeNodes done zred) z = .error .valueError := by
        intro z
        simp [tabsOf, calPars, tabOf, splineOf, bind, Except.bind]
      rw [this]
  refine ⟨fun files nodes sn done zred zr bs piv => key files nodes sn done zred zr bs piv, ?_⟩
  intro h
  obtain ⟨c, hc⟩ := h 1 [] [] [] [] (0, 1) 1 1 (by norm_num) one_pos
  rw [key] at hc
  cases hc

/-- C313.  A run that reads the file which the calibration wrote has the correction that the calibration used last. -/
theorem C313_file {N : Type} (spl : List α → List α → α → α) (rnd : α → Int) (files : N → Option (Hdr α × Pars α)) (f : N) (zr : α × α) (bs piv : α)
    (p : Pars α) (hf : files f = some (calHdr zr bs piv, p)) : init spl rnd files (some f) none none none none = calCorr spl rnd files zr bs piv p := by
  rw [C311_header spl rnd files f (zr.1 - 2 / 100) (zr.2 + 7 / 100) bs piv p hf]
  rfl

/-! ## C314: the corrections within the calibration -/

/-- What is used of the spline: through zeros it is zero. -/
def SplZero (spl : List α → List α → α → α) : Prop := ∀ (x : List α) (n : Nat) (q : α), spl x (List.replicate n 0) q = 0

/-- C314, the full statement: the corrections made after the first iterations move a cluster's redshift and error by what these iterations do. -/
def C314_spec (spl : List α → List α → α → α) (rnd : α → Int) (sqrt : α → α) (simpson : List α → List α → α) : Prop :=
  ∀ (niter : Nat) (nodes slopeNodes : List α) (done : List (CorrTab α)) (zred : List α) (zr : α × α) (bs piv loglam : α) (c : Corr α) (s : CorrState α),
    done.length ≤ niter → Grid c.z → s.pz = none → 0 < s.e →
    calCorr (N := Unit) spl rnd (fun _ => none) zr bs piv (calPars niter nodes slopeNodes done zred) = .ok c →
    applyCorrection sqrt simpson loglam c.z false c.tabs s = applyCorrection sqrt simpson loglam c.z false (c.tabs.take done.length) s

theorem npInterp_const {x y : List α} (hx : Grid x) (hl : y.length = x.length) (b : α) (hy : ∀ v ∈ y, v = b) (q : α) : npInterp q x y = b := by
  have hlen := hx.1
  have hget : ∀ i, i < x.length → y.getD i 0 = b := by
    intro i hi
    rw [List.getD_eq_getElem?_getD, List.getElem?_eq_getElem (by omega)]
    exact hy _ (List.getElem_mem _)
  unfold npInterp
  by_cases h0 : q ≤ x.getD 0 0
  · rw [if_pos h0]; exact hget 0 (by omega)
  rw [if_neg h0]
  by_cases h1 : x.getD (x.length - 1) 0 ≤ q
  · rw [if_pos h1]; rw [hl]; exact hget _ (by omega)
  rw [if_neg h1]
  obtain ⟨k, hk, hk1, hk2⟩ := exists_segment hx q (not_le.mp h0).le (not_le.mp h1)
  have h3 := ((C26_interpol hx y).2.1 k q hk hk1 hk2.le).2
  rw [hget k (by omega), hget (k + 1) hk, min_self, max_self] at h3
  exact le_antisymm h3.2 h3.1

theorem apply_append (sqrt : α → α) (simpson : List α → List α → α) (loglam : α) (z : List α) (noerr : Bool) (a b : List (CorrTab α)) (s : CorrState α) :
    applyCorrection sqrt simpson loglam z noerr (a ++ b) s =
      (applyCorrection sqrt simpson loglam z noerr a s).bind (applyCorrection sqrt simpson loglam z noerr b) := by
  induction a generalizing s with
  | nil => rfl
  | cons t a ih =>
    simp only [List.cons_append, applyCorrection]
    cases h : corrStep sqrt simpson loglam z noerr s t with
    | none => rfl
    | some m => simp only [Option.bind_some]; exact ih m

/-- Tables of zeros with the least scatter leave the redshift and add that scatter. -/
theorem apply_zero {sqrt : α → α} (hq : SqrtOK sqrt) (simpson : List α → List α → α) (loglam : α) {z : List α} (hz : Grid z) (ts : List (CorrTab α))
    (ht : ∀ t ∈ ts, t.offset = z.map (fun _ => 0) ∧ t.slope = z.map (fun _ => 0) ∧ t.scatter = z.map fun _ => 1 / 1000) (s : CorrState α) (hs : s.pz = none) :
    ∃ s', applyCorrection sqrt simpson loglam z false ts s = some s' ∧ s'.pz = none ∧ s'.zlam = s.zlam ∧
      s'.e * s'.e = s.e * s.e + ts.length * (1 / 1000 * (1 / 1000)) := by
  induction ts generalizing s with
  | nil => exact ⟨s, rfl, hs, rfl, by simp⟩
  | cons t ts ih =>
    obtain ⟨h1, h2, h3⟩ := ht t (by simp)
    have hd : corrDz loglam z t s.zlam = 0 := by
      refine npInterp_const hz ?_ 0 ?_ _
      · rw [h1, h2]; simp
      · rw [h1, h2, List.zipWith_map]; intro v hv
        obtain ⟨i, hi, rfl⟩ := List.getElem_of_mem hv
        simp
    have he : npInterp s.zlam z t.scatter = 1 / 1000 := by
      refine npInterp_const hz (by rw [h3]; simp) _ ?_ _
      rw [h3]; intro v hv
      obtain ⟨_, _, rfl⟩ := List.mem_map.mp hv
      rfl
    have hstep : corrStep sqrt simpson loglam z false s t = some ⟨s.zlam, sqrt (s.e * s.e + 1 / 1000 * (1 / 1000)), none⟩ := by
      simp only [corrStep, hs, hd, he, add_zero, Bool.false_eq_true, if_false]
    obtain ⟨s', a1, a2, a3, a4⟩ := ih (fun t ht' => ht t (by simp [ht'])) ⟨s.zlam, sqrt (s.e * s.e + 1 / 1000 * (1 / 1000)), none⟩ rfl
    refine ⟨s', by rw [applyCorrection, hstep]; exact a1, a2, a3, ?_⟩
    rw [a4]
    simp only
    rw [hq.sq _ (add_nonneg (mul_self_nonneg _) (by positivity))]
    push_cast [List.length_cons]
    ring

theorem undone (spl : List α → List α → α → α) (hs0 : SplZero spl) (rnd : α → Int) {N : Type} (files : N → Option (Hdr α × Pars α))
    (niter : Nat) (nodes slopeNodes : List α) (done : List (CorrTab α)) (zred : List α) (zr : α × α) (bs piv : α)
    (c : Corr α) (h : calCorr spl rnd files zr bs piv (calPars niter nodes slopeNodes done zred) = .ok c) :
    c.tabs.length = niter ∧ ∀ t ∈ c.tabs.drop done.length, t.offset = c.z.map (fun _ => 0) ∧ t.slope = c.z.map (fun _ => 0) ∧ t.scatter = c.z.map fun _ => 1 / 1000 := by
  simp only [calCorr, init, need, bind, Except.bind] at h
  obtain ⟨_, _, ht, _⟩ := build_ok _ _ _ _ _ _ _ h
  obtain ⟨hl, hi⟩ := tabsOf_ok _ _ _ _ ht
  have hl' : c.tabs.length = niter := hl
  refine ⟨hl', ?_⟩
  intro t hmem
  obtain ⟨k, hk, rfl⟩ := List.getElem_of_mem hmem
  rw [List.length_drop] at hk
  obtain ⟨ov, sv, cv, b1, b2, b3, e1, e2, e3⟩ := hi (done.length + k) ((c.tabs.drop done.length)[k]) (by
    rw [List.getElem_drop, List.getElem?_eq_getElem (by omega)])
  have hr : done.length + k < niter := by omega
  have hnone : done[done.length + k]? = none := List.getElem?_eq_none (by omega)
  simp only [valuesOf, calPars, List.getElem?_map, List.getElem?_range hr, Option.map_some, List.getD_eq_getElem?_getD, hnone, Option.getD_none,
    Option.some.injEq] at b1 b2 b3
  subst b1; subst b2; subst b3
  simp only [calPars] at e1 e2 e3
  refine ⟨?_, ?_, ?_⟩
  · rw [e1]; exact List.map_congr_left fun x _ => hs0 _ _ _
  · rw [e2]; exact List.map_congr_left fun x _ => hs0 _ _ _
  · rw [e3]
    refine List.map_congr_left fun x _ => ?_
    rw [hs0]; exact max_eq_right (by positivity)

/-- C314.  The redshift is; the square of the error has 0.001 squared added for every iteration that is still to be done. -/
theorem C314_partial {N : Type} (spl : List α → List α → α → α) (hs0 : SplZero spl) (rnd : α → Int) {sqrt : α → α} (hq : SqrtOK sqrt)
    (simpson : List α → List α → α) (files : N → Option (Hdr α × Pars α)) (niter : Nat) (nodes slopeNodes : List α) (done : List (CorrTab α))
    (hd : done.length ≤ niter) (zred : List α) (zr : α × α) (bs piv loglam : α) (c : Corr α) (hz : Grid c.z) (s : CorrState α) (hs : s.pz = none)
    (h : calCorr spl rnd files zr bs piv (calPars niter nodes slopeNodes done zred) = .ok c) :
    ∃ s1 s2, applyCorrection sqrt simpson loglam c.z false (c.tabs.take done.length) s = some s1 ∧
      applyCorrection sqrt simpson loglam c.z false c.tabs s = some s2 ∧ s2.zlam = s1.zlam ∧
      s2.e * s2.e = s1.e * s1.e + ((niter : α) - done.length) * (1 / 1000 * (1 / 1000)) := by
  obtain ⟨hl, hu⟩ := undone spl hs0 rnd files niter nodes slopeNodes done zred zr bs piv c h
  obtain ⟨s1, h1⟩ := C63_succeeds sqrt simpson loglam c.z false (c.tabs.take done.length) s (Or.inl rfl)
  have hp1 : s1.pz = none := by
    clear h hu hl hz hd
    generalize c.tabs.take done.length = l at h1
    induction l generalizing s with
    | nil => simp only [applyCorrection, Option.some.injEq] at h1; subst h1; exact hs
    | cons t l ih =>
      rw [applyCorrection] at h1
      obtain ⟨m, hm, h1⟩ := Option.bind_eq_some_iff.mp h1
      exact ih m ((corrStep_some hm).2.2.1 hs).2 h1
  obtain ⟨s2, a1, _, a3, a4⟩ := apply_zero hq simpson loglam hz _ hu s1 hp1
  refine ⟨s1, s2, h1, ?_, a3, ?_⟩
  · conv_lhs => rw [← List.take_append_drop done.length c.tabs]
    rw [apply_append, h1]; exact a1
  · rw [a4, List.length_drop, hl, Nat.cast_sub hd]

/-- C314.  So it is false: before the last iteration the errors are too large, for every cluster. -/
theorem C314_false (spl : List α → List α → α → α) (hs0 : SplZero spl) {rnd : α → Int} (hr : RoundOK rnd) {sqrt : α → α} (hq : SqrtOK sqrt)
    (simpson : List α → List α → α) : ¬ C314_spec spl rnd sqrt simpson := by
  intro hspec
  obtain ⟨c, hc, _⟩ := C313_partial (N := Unit) spl hr (fun _ => none) 2 (by norm_num) [] [] [] [] (0, 1) (1 / 100) 1 (by norm_num) (by positivity)
  obtain ⟨g1, g2⟩ := C312_grid spl hr _ _ _ _ _ _ (by positivity) c hc
  have hlen : 2 ≤ c.z.length := by
    by_contra hlt
    have h1 : (c.z.length : α) ≤ 1 := by
      have : c.z.length ≤ 1 := by omega
      exact_mod_cast this
    have := (abs_le.mp g2).1
    norm_num at this
    linarith
  have hz : Grid c.z := by
    refine ⟨hlen, ?_⟩
    rw [List.pairwise_iff_getElem]
    intro i j hi hj hij
    have e1 := g1 i hi
    have e2 := g1 j hj
    rw [List.getElem?_eq_getElem hi] at e1
    rw [List.getElem?_eq_getElem hj] at e2
    rw [Option.some.inj e1, Option.some.inj e2]
    have : (i : α) < j := by exact_mod_cast hij
    linarith
  have h1 := hspec 2 [] [] [] [] (0, 1) (1 / 100) 1 0 c ⟨1 / 2, 1, none⟩ (by simp) hz rfl one_pos hc
  obtain ⟨s1, s2, a1, a2, _, a4⟩ := C314_partial spl hs0 rnd hq simpson (fun _ : Unit => none) 2 [] [] [] (by simp) [] (0, 1) (1 / 100) 1 0 c hz
    ⟨1 / 2, 1, none⟩ rfl hc
  rw [h1, a1] at a2
  obtain rfl := Option.some.inj a2
  norm_num at a4

/-! ## The hypotheses are met -/

/-- A function that meets the contract of the spline. -/
def exSpl : List ℚ → List ℚ → ℚ → ℚ := fun x v q => v.sum * (q - x.getD 0 0)

theorem exSpl_zero : SplZero exSpl := by intro x n q; simp [exSpl]

theorem exRound_ok : RoundOK (fun x : ℚ => round x) := by
  intro x
  have := abs_sub_round x
  rw [abs_sub_comm]; exact this

def exPars : Pars ℚ := ⟨none, [1 / 10, 2 / 10, 3 / 10], [1 / 10, 3 / 10], .flat [0, 1, 2], .flat [1, 1], .flat [0, 0], [1 / 10, 2 / 10, 3 / 10]⟩

/-- An old file, and one of a calibration of three iterations. -/
example : (∃ c, init (N := Unit) exSpl (fun x : ℚ => round x) (fun _ => some (calHdr (1 / 10, 3 / 10) (1 / 20) 30, exPars)) (some ()) none none none none = .ok c ∧
    c.tabs.length = 1) ∧
    ∃ c, calCorr (N := Unit) exSpl (fun x : ℚ => round x) (fun _ => none) (1 / 10, 3 / 10) (1 / 20) 30
      (calPars 3 [1 / 10, 2 / 10] [1 / 10, 3 / 10] [⟨[1, 1], [0, 1], [0, 0]⟩] [1 / 10, 2 / 10]) = .ok c ∧ c.tabs.length = 3 := by
  refine ⟨?_, C313_partial exSpl exRound_ok _ 3 (by norm_num) _ _ _ _ _ _ _ (by norm_num) (by norm_num)⟩
  rw [C313_file exSpl _ _ () (1 / 10, 3 / 10) (1 / 20) 30 exPars rfl]
  have h0 : ¬ round (((3 : ℚ) / 10 + 7 / 100 - (1 / 10 - 2 / 100)) / (1 / 20)) < 0 := by
    rw [not_lt]; norm_num [round_eq, Int.floor_nonneg]
  simp only [calCorr, init, need, bind, Except.bind, build, if_neg h0, tabsOf, exPars, Option.getD_none, if_true, tabOf, splineOf, pure, Except.pure]
  exact ⟨_, rfl, rfl⟩

end Redmapper.ZlamPar
