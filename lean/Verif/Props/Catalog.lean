/-
Properties C21-C23, C79-C82: the table wrapper classes.
-/
import Verif.Model.Catalog
import Mathlib.Data.List.Nodup
import Mathlib.Data.List.Basic
import Mathlib.Tactic.Linarith

set_option linter.unusedSectionVars false

namespace Redmapper.Catalog

variable {V : Type} [Inhabited V]

/-- A well-formed table: distinct column names, one cell per column in every row. -/
structure WF (t : Tab V) : Prop where
  nodup : t.names.Nodup
  zeros : t.zeros.length = t.names.length
  rows : ∀ r ∈ t.rows, r.length = t.names.length

/-! ## Lemmas -/

theorem getCol_eq {t : Tab V} {n : String} (h : n ∈ t.names) :
    getCol t n = some (t.rows.map fun r => r.getD (t.names.idxOf n) default) := by
  unfold getCol; rw [if_pos h]

theorem getCol_none {t : Tab V} {n : String} (h : n ∉ t.names) : getCol t n = none := by
  unfold getCol; rw [if_neg h]

theorem setCol_ok {t : Tab V} {n : String} {vals : List V} (h : n ∈ t.names)
    (hl : vals.length = t.rows.length) :
    setCol t n vals = .ok { t with rows := List.zipWith (fun r v => r.set (t.names.idxOf n) v) t.rows vals } := by
  unfold setCol; rw [if_pos h, if_pos hl]

theorem zipWith_map_getD_same (rows : List (List V)) (vals : List V) (k : Nat)
    (hl : vals.length = rows.length) (hr : ∀ r ∈ rows, k < r.length) :
    (List.zipWith (fun r v => r.set k v) rows vals).map (fun r => r.getD k default) = vals := by
  induction rows generalizing vals with
  | nil => simp only [List.length_nil, List.length_eq_zero_iff] at hl; simp [hl]
  | cons r rs ih =>
    cases vals with
    | nil => cases hl
    | cons v vs =>
      simp only [List.zipWith_cons_cons, List.map_cons]
      rw [ih vs (by simpa using hl) (fun q hq => hr q (List.mem_cons_of_mem _ hq))]
      have := hr r List.mem_cons_self
      simp [List.getD_eq_getElem?_getD, this]

theorem zipWith_map_getD_other (rows : List (List V)) (vals : List V) (k j : Nat) (hkj : k ≠ j)
    (hl : vals.length = rows.length) :
    (List.zipWith (fun r v => r.set k v) rows vals).map (fun r => r.getD j default) =
      rows.map (fun r => r.getD j default) := by
  induction rows generalizing vals with
  | nil => simp
  | cons r rs ih =>
    cases vals with
    | nil => cases hl
    | cons v vs =>
      simp only [List.zipWith_cons_cons, List.map_cons]
      rw [ih vs (by simpa using hl)]
      congr 1
      simp [List.getD_eq_getElem?_getD, List.getElem?_set_ne hkj]

theorem idxOf_ne_of_mem {l : List String} {a b : String} (ha : a ∈ l) (hab : a ≠ b) :
    l.idxOf a ≠ l.idxOf b := by
  intro h
  by_cases hb : b ∈ l
  · exact hab ((List.idxOf_inj ha).mp h)
  · rw [List.idxOf_eq_length_iff.mpr hb] at h
    have := List.idxOf_lt_length_iff.mpr ha
    omega

/-- What a column write does. -/
theorem setCol_spec {t : Tab V} (ht : WF t) {n : String} {vals : List V} (h : n ∈ t.names)
    (hl : vals.length = t.rows.length) :
    ∃ t', setCol t n vals = .ok t' ∧ WF t' ∧ t'.names = t.names ∧ t'.zeros = t.zeros ∧
      t'.rows.length = t.rows.length ∧ getCol t' n = some vals ∧
      ∀ m, m ≠ n → getCol t' m = getCol t m := by
  refine ⟨_, setCol_ok h hl, ⟨ht.nodup, ht.zeros, ?_⟩, rfl, rfl, ?_, ?_, ?_⟩
  · intro r hr
    simp only at hr
    obtain ⟨i, hi, rfl⟩ := List.getElem_of_mem hr
    rw [List.getElem_zipWith, List.length_set]
    exact ht.rows _ (List.getElem_mem _)
  · simp [hl]
  · rw [getCol_eq (by exact h)]
    simp only
    rw [zipWith_map_getD_same _ _ _ hl]
    intro r hr
    rw [ht.rows r hr]
    exact List.idxOf_lt_length_iff.mpr h
  · intro m hm
    by_cases hmn : m ∈ t.names
    · rw [getCol_eq (by exact hmn), getCol_eq hmn]
      simp only
      rw [zipWith_map_getD_other _ _ _ _ (idxOf_ne_of_mem h (Ne.symm hm)) hl]
    · rw [getCol_none (by exact hmn), getCol_none hmn]

/-- Two well-formed tables with the same names, row count and columns have the same rows. -/
theorem rows_ext {t u : Tab V} (ht : WF t) (hu : WF u) (hn : t.names = u.names)
    (hlen : t.rows.length = u.rows.length) (h : ∀ n ∈ t.names, getCol t n = getCol u n) :
    t.rows = u.rows := by
  apply List.ext_getElem hlen
  intro i hi hi'
  have hr1 := ht.rows _ (List.getElem_mem hi)
  have hr2 := hu.rows _ (List.getElem_mem hi')
  apply List.ext_getElem (by rw [hr1, hr2, hn])
  intro j hj hj'
  have hjn : j < t.names.length := by omega
  have hmem : t.names[j] ∈ t.names := List.getElem_mem hjn
  have hc := h _ hmem
  rw [getCol_eq hmem, getCol_eq (by rw [← hn]; exact hmem), Option.some.injEq] at hc
  have hidx : t.names.idxOf t.names[j] = j := ht.nodup.idxOf_getElem j hjn
  rw [← hn, hidx] at hc
  have := congrArg (fun l => l[i]?) hc
  simp only [List.getElem?_map, List.getElem?_eq_getElem hi, List.getElem?_eq_getElem hi', Option.map_some,
    Option.some.injEq] at this
  simpa [List.getD_eq_getElem?_getD, List.getElem?_eq_getElem hj, List.getElem?_eq_getElem hj'] using this

theorem copyCols_spec (src : Tab V) (ns : List String) (t : Tab V) (ht : WF t)
    (h1 : ∀ n ∈ ns, n ∈ src.names) (h2 : ∀ n ∈ ns, n ∈ t.names) (hnd : ns.Nodup)
    (hlen : src.rows.length = t.rows.length) :
    ∃ t', copyCols src ns t = .ok t' ∧ WF t' ∧ t'.names = t.names ∧ t'.zeros = t.zeros ∧
      t'.rows.length = t.rows.length ∧ (∀ n ∈ ns, getCol t' n = getCol src n) ∧
      ∀ m, m ∉ ns → getCol t' m = getCol t m := by
  induction ns generalizing t with
  | nil => exact ⟨t, rfl, ht, rfl, rfl, rfl, by simp, fun _ _ => rfl⟩
  | cons n ns ih =>
    rw [List.nodup_cons] at hnd
    simp only [copyCols]
    rw [getCol_eq (h1 n List.mem_cons_self)]
    simp only
    obtain ⟨t1, e1, w1, n1, z1, l1, g1, o1⟩ := setCol_spec ht (h2 n List.mem_cons_self)
      (vals := src.rows.map fun r => r.getD (src.names.idxOf n) default) (by simpa using hlen)
    rw [e1]
    simp only
    obtain ⟨t2, e2, w2, n2, z2, l2, g2, o2⟩ := ih t1 w1 (fun m hm => h1 m (List.mem_cons_of_mem _ hm))
      (fun m hm => by rw [n1]; exact h2 m (List.mem_cons_of_mem _ hm)) hnd.2 (by rw [l1]; exact hlen)
    refine ⟨t2, e2, w2, n2.trans n1, z2.trans z1, l2.trans l1, ?_, ?_⟩
    · intro m hm
      rcases List.mem_cons.mp hm with rfl | hm
      · rw [o2 m hnd.1, g1, getCol_eq (h1 m List.mem_cons_self)]
      · exact g2 m hm
    · intro m hm
      rw [o2 m (fun h => hm (List.mem_cons_of_mem _ h)), o1 m (fun h => hm (h ▸ List.mem_cons_self))]

theorem copyAll_spec (as : List (Tab V)) (t : Tab V) (ht : WF t)
    (h2 : ∀ n ∈ as.flatMap Tab.names, n ∈ t.names) (hnd : (as.flatMap Tab.names).Nodup)
    (hlen : ∀ a ∈ as, a.rows.length = t.rows.length) :
    ∃ t', copyAll as t = .ok t' ∧ WF t' ∧ t'.names = t.names ∧ t'.zeros = t.zeros ∧
      t'.rows.length = t.rows.length ∧ (∀ a ∈ as, ∀ n ∈ a.names, getCol t' n = getCol a n) ∧
      ∀ m, m ∉ as.flatMap Tab.names → getCol t' m = getCol t m := by
  induction as generalizing t with
  | nil => exact ⟨t, rfl, ht, rfl, rfl, rfl, by simp, fun _ _ => rfl⟩
  | cons a as ih =>
    rw [List.flatMap_cons, List.nodup_append] at hnd
    simp only [copyAll]
    obtain ⟨t1, e1, w1, n1, z1, l1, g1, o1⟩ := copyCols_spec a a.names t ht (fun _ h => h)
      (fun n hn => h2 n (by rw [List.flatMap_cons]; exact List.mem_append_left _ hn)) hnd.1
      (hlen a List.mem_cons_self)
    rw [e1]
    simp only
    obtain ⟨t2, e2, w2, n2, z2, l2, g2, o2⟩ := ih t1 w1
      (fun n hn => by rw [n1]; exact h2 n (by rw [List.flatMap_cons]; exact List.mem_append_right _ hn))
      hnd.2.1 (fun b hb => by rw [l1]; exact hlen b (List.mem_cons_of_mem _ hb))
    refine ⟨t2, e2, w2, n2.trans n1, z2.trans z1, l2.trans l1, ?_, ?_⟩
    · intro b hb n hn
      rcases List.mem_cons.mp hb with rfl | hb
      · rw [o2 n (fun h => hnd.2.2 n hn n h rfl)]
        exact g1 n hn
      · exact g2 b hb n hn
    · intro m hm
      rw [List.flatMap_cons, List.mem_append, not_or] at hm
      rw [o2 m hm.2, o1 m hm.1]

theorem mergeChecks_ok_iff (first : Tab V) (rest : List (Tab V)) :
    mergeChecks first rest = .ok () ↔
      ∀ a ∈ rest, a.rows.length = first.rows.length ∧ ∀ n ∈ a.names, n ∉ first.names := by
  induction rest with
  | nil => simp [mergeChecks]
  | cons a as ih =>
    simp only [mergeChecks]
    by_cases h1 : a.rows.length = first.rows.length
    · rw [if_neg (by simpa using h1)]
      by_cases h2 : ∀ n ∈ a.names, n ∉ first.names
      · rw [if_neg, ih]
        · simp only [List.mem_cons, forall_eq_or_imp]
          exact ⟨fun h => ⟨⟨h1, h2⟩, h⟩, fun h => h.2⟩
        · rw [Bool.not_eq_true, List.any_eq_false]
          intro n hn
          simpa using h2 n hn
      · rw [if_pos]
        · simp only [reduceCtorEq, false_iff]
          intro h
          exact h2 (h a List.mem_cons_self).2
        · push Not at h2
          obtain ⟨n, hn, hf⟩ := h2
          rw [List.any_eq_true]
          exact ⟨n, hn, by simpa using hf⟩
    · rw [if_pos h1]
      simp only [reduceCtorEq, false_iff]
      intro h
      exact h1 (h a List.mem_cons_self).1

theorem mergeChecks_err (first : Tab V) (rest : List (Tab V)) (e : Err)
    (h : mergeChecks first rest = .error e) : e = .valueError := by
  induction rest with
  | nil => cases h
  | cons a as ih =>
    simp only [mergeChecks] at h
    by_cases h1 : a.rows.length ≠ first.rows.length
    · rw [if_pos h1] at h; cases h; rfl
    · rw [if_neg h1] at h
      split at h
      · cases h; rfl
      · exact ih h

theorem zerosFlat_len (as : List (Tab V)) (h : ∀ a ∈ as, WF a) :
    (as.flatMap Tab.zeros).length = (as.flatMap Tab.names).length := by
  induction as with
  | nil => rfl
  | cons a as ih =>
    rw [List.flatMap_cons, List.flatMap_cons, List.length_append, List.length_append,
      ih (fun b hb => h b (List.mem_cons_of_mem _ hb)), (h a List.mem_cons_self).zeros]

/-- The merge: when it succeeds and what it gives. -/
theorem mergeArrays_spec (arrays : List (Tab V)) (hne : arrays ≠ []) (hwf : ∀ a ∈ arrays, WF a) :
    (∀ (_ : (∀ a ∈ arrays, ∀ b ∈ arrays, a.rows.length = b.rows.length) ∧
        (arrays.flatMap Tab.names).Nodup),
      ∃ t, mergeArrays arrays = .ok t ∧ WF t ∧ t.names = arrays.flatMap Tab.names ∧
        t.zeros = arrays.flatMap Tab.zeros ∧
        (∀ a ∈ arrays, t.rows.length = a.rows.length) ∧
        ∀ a ∈ arrays, ∀ n ∈ a.names, getCol t n = getCol a n) ∧
    (¬ ((∀ a ∈ arrays, ∀ b ∈ arrays, a.rows.length = b.rows.length) ∧
        (arrays.flatMap Tab.names).Nodup) → mergeArrays arrays = .error .valueError) := by
  obtain ⟨first, rest, rfl⟩ := List.exists_cons_of_ne_nil hne
  constructor
  · rintro ⟨hlen, hnd⟩
    have hmc : mergeChecks first rest = .ok () := by
      rw [mergeChecks_ok_iff]
      intro a ha
      refine ⟨hlen a (List.mem_cons_of_mem _ ha) first List.mem_cons_self, ?_⟩
      intro n hn hf
      rw [List.flatMap_cons, List.nodup_append] at hnd
      exact hnd.2.2 n hf n (List.mem_flatMap.mpr ⟨a, ha, hn⟩) rfl
    unfold mergeArrays npZeros
    simp only
    rw [hmc, if_pos hnd]
    simp only
    have hw : WF (⟨(first :: rest).flatMap Tab.names, (first :: rest).flatMap Tab.zeros,
        List.replicate first.rows.length ((first :: rest).flatMap Tab.zeros)⟩ : Tab V) := by
      refine ⟨hnd, zerosFlat_len _ hwf, ?_⟩
      intro r hr
      rw [List.eq_of_mem_replicate hr]
      exact zerosFlat_len _ hwf
    obtain ⟨t, e, w, n1, z1, l1, g1, _⟩ := copyAll_spec (first :: rest) _ hw (fun _ h => h) hnd
      (fun a ha => by simpa using hlen a ha first List.mem_cons_self)
    refine ⟨t, e, w, n1, z1, ?_, g1⟩
    intro a ha
    rw [l1, List.length_replicate]
    exact hlen first List.mem_cons_self a ha
  · intro h
    unfold mergeArrays npZeros
    simp only
    cases hm : mergeChecks first rest with
    | error e => simp only [mergeChecks_err _ _ _ hm]
    | ok u =>
      simp only
      rw [if_neg]
      intro hnd
      apply h
      refine ⟨?_, hnd⟩
      have hmc := (mergeChecks_ok_iff first rest).mp hm
      have hall : ∀ a ∈ first :: rest, a.rows.length = first.rows.length := by
        intro a ha
        rcases List.mem_cons.mp ha with rfl | ha
        · rfl
        · exact (hmc a ha).1
      intro a ha b hb
      rw [hall a ha, hall b hb]

/-! ## C22 -/

/-- **C22.** `add_fields` on any table: if the (lower-cased) new names are distinct and none is a column already,
the result has the old columns followed by the new ones, every row keeps all its cells and gets the zeros;
otherwise `ValueError` is raised. -/
theorem C22_add_fields (lower : String → String) (t : Tab V) (ht : WF t) (names : List String) (zeros : List V)
    (hz : zeros.length = names.length) :
    addFields lower t names zeros =
      if (t.names ++ names.map lower).Nodup then
        .ok ⟨t.names ++ names.map lower, t.zeros ++ zeros, t.rows.map (· ++ zeros)⟩
      else .error .valueError := by
  unfold addFields npZeros
  by_cases h1 : (names.map lower).Nodup
  · have h0 : names.Nodup := h1.of_map
    rw [if_pos h0]
    simp only [lowerArray]
    rw [if_pos h1]
    simp only
    set a' : Tab V := ⟨names.map lower, zeros, List.replicate t.rows.length zeros⟩ with ha'
    have hwa : WF a' := by
      refine ⟨h1, by simp [ha', hz], ?_⟩
      intro r hr
      rw [List.eq_of_mem_replicate hr]; simp [ha', hz]
    have hwf : ∀ a ∈ [t, a'], WF a := by
      intro a ha
      simp only [List.mem_cons, List.not_mem_nil, or_false] at ha
      rcases ha with rfl | rfl
      · exact ht
      · exact hwa
    obtain ⟨hgood, hbad⟩ := mergeArrays_spec [t, a'] (by simp) hwf
    have hlen : ∀ a ∈ [t, a'], ∀ b ∈ [t, a'], a.rows.length = b.rows.length := by
      simp [ha']
    have hnames : [t, a'].flatMap Tab.names = t.names ++ names.map lower := by simp [ha']
    have hzeros : [t, a'].flatMap Tab.zeros = t.zeros ++ zeros := by simp [ha']
    rw [hnames] at hgood hbad
    by_cases hnd : (t.names ++ names.map lower).Nodup
    · rw [if_pos hnd]
      obtain ⟨u, e, w, n1, z1, l1, g1⟩ := hgood ⟨hlen, hnd⟩
      rw [e]
      have hw2 : WF (⟨t.names ++ names.map lower, t.zeros ++ zeros, t.rows.map (· ++ zeros)⟩ : Tab V) := by
        refine ⟨hnd, by simp [ht.zeros, hz], ?_⟩
        intro r hr
        obtain ⟨r0, hr0, rfl⟩ := List.mem_map.mp hr
        simp [ht.rows r0 hr0, hz]
      have hrows := rows_ext w hw2 n1 (by simpa using l1 t (by simp)) (by
        intro n hn
        rw [n1, List.mem_append] at hn
        rcases hn with hn | hn
        · rw [g1 t (by simp) n hn, getCol_eq hn, getCol_eq (List.mem_append_left _ hn)]
          simp only [List.map_map, Option.some.injEq]
          apply List.map_congr_left
          intro r hr
          simp only [Function.comp]
          rw [List.idxOf_append_of_mem hn]
          have hlt : t.names.idxOf n < r.length := by
            rw [ht.rows r hr]; exact List.idxOf_lt_length_iff.mpr hn
          simp [List.getD_eq_getElem?_getD, List.getElem?_append_left hlt]
        · have hn0 : n ∉ t.names := fun h => (List.nodup_append.mp hnd).2.2 n h n hn rfl
          rw [g1 a' (by simp) n hn, getCol_eq (by exact hn), getCol_eq (List.mem_append_right _ hn)]
          simp only [List.map_map, Option.some.injEq, ha']
          rw [List.map_replicate]
          symm
          rw [List.eq_replicate_iff]
          refine ⟨by simp, ?_⟩
          intro x hx
          obtain ⟨r, hr, rfl⟩ := List.mem_map.mp hx
          simp only [Function.comp]
          rw [List.idxOf_append_of_notMem hn0]
          simp [List.getD_eq_getElem?_getD, List.getElem?_append_right, ht.rows r hr])
      cases u
      simp only at n1 z1 hrows
      rw [n1, z1, hzeros, hrows]
    · rw [if_neg hnd]
      exact hbad (fun h => hnd h.2)
  · have hno : ¬ (t.names ++ names.map lower).Nodup := fun h => h1 (List.nodup_append.mp h).2.1
    rw [if_neg hno]
    by_cases h0 : names.Nodup
    · rw [if_pos h0]
      simp only [lowerArray]
      rw [if_neg h1]
    · rw [if_neg h0]

/-! ## C80 -/

theorem getCol_lower (lower : String → String) (a : Tab V) (hnd : (a.names.map lower).Nodup)
    (n : String) (hn : n ∈ a.names) :
    getCol ({ a with names := a.names.map lower } : Tab V) (lower n) = getCol a n := by
  rw [getCol_eq (List.mem_map_of_mem hn), getCol_eq hn]
  simp only [Option.some.injEq]
  have : (a.names.map lower).idxOf (lower n) = a.names.idxOf n := by
    have hk := List.idxOf_lt_length_iff.mpr hn
    have h1 : (a.names.map lower)[a.names.idxOf n]'(by simpa using hk) = lower n := by
      rw [List.getElem_map, List.getElem_idxOf hk]
    have := hnd.idxOf_getElem (a.names.idxOf n) (by simpa using hk)
    rw [h1] at this
    exact this
  rw [this]

theorem lowerAll_spec (lower : String → String) (arrays : List (Tab V)) :
    ((∀ a ∈ arrays, (a.names.map lower).Nodup) →
      lowerAll lower arrays = .ok (arrays.map fun a => { a with names := a.names.map lower })) ∧
    (¬ (∀ a ∈ arrays, (a.names.map lower).Nodup) → lowerAll lower arrays = .error .valueError) := by
  induction arrays with
  | nil => simp [lowerAll]
  | cons a as ih =>
    simp only [lowerAll, lowerArray]
    by_cases h : (a.names.map lower).Nodup
    · rw [if_pos h]
      simp only
      constructor
      · intro hall
        rw [ih.1 (fun b hb => hall b (List.mem_cons_of_mem _ hb))]
        rfl
      · intro hall
        rw [ih.2 (fun h' => hall (by
          intro b hb
          rcases List.mem_cons.mp hb with rfl | hb
          · exact h
          · exact h' b hb))]
    · rw [if_neg h]
      exact ⟨fun hall => absurd (hall a List.mem_cons_self) h, fun _ => rfl⟩

/-- **C80.** Building an object from one or more arrays: exactly when all have the same number of rows and no
column name repeats (ignoring case), the result has the columns of all the arrays in order, and each column
holds the values of the array it came from; in every other case `ValueError` is raised. -/
theorem C80_construct (lower : String → String) (arrays : List (Tab V)) (hne : arrays ≠ [])
    (hwf : ∀ a ∈ arrays, WF a) :
    (((∀ a ∈ arrays, ∀ b ∈ arrays, a.rows.length = b.rows.length) ∧
        ((arrays.flatMap Tab.names).map lower).Nodup) →
      ∃ t, mkObject lower arrays = .ok t ∧ t.names = (arrays.flatMap Tab.names).map lower ∧
        (∀ a ∈ arrays, t.rows.length = a.rows.length) ∧
        ∀ a ∈ arrays, ∀ n ∈ a.names, getCol t (lower n) = getCol a n) ∧
    (¬ ((∀ a ∈ arrays, ∀ b ∈ arrays, a.rows.length = b.rows.length) ∧
        ((arrays.flatMap Tab.names).map lower).Nodup) → mkObject lower arrays = .error .valueError) := by
  have hflat : (arrays.map fun a => ({ a with names := a.names.map lower } : Tab V)).flatMap Tab.names =
      (arrays.flatMap Tab.names).map lower := by
    rw [List.flatMap_map, List.map_flatMap]
  have hsub : ((arrays.flatMap Tab.names).map lower).Nodup → ∀ a ∈ arrays, (a.names.map lower).Nodup := by
    intro h a ha
    rw [← hflat] at h
    have := (List.nodup_flatMap.mp h).1
    exact this _ (List.mem_map_of_mem ha)
  unfold mkObject
  by_cases hl : ∀ a ∈ arrays, (a.names.map lower).Nodup
  · rw [(lowerAll_spec lower arrays).1 hl]
    simp only
    have hwf' : ∀ a ∈ arrays.map (fun a => ({ a with names := a.names.map lower } : Tab V)), WF a := by
      intro a ha
      obtain ⟨b, hb, rfl⟩ := List.mem_map.mp ha
      exact ⟨hl b hb, by simp [(hwf b hb).zeros], fun r hr => by simp [(hwf b hb).rows r hr]⟩
    obtain ⟨hgood, hbad⟩ := mergeArrays_spec (arrays.map fun a => ({ a with names := a.names.map lower } : Tab V))
      (by simpa using hne) hwf'
    have hsz : (∀ a ∈ arrays.map (fun a => ({ a with names := a.names.map lower } : Tab V)),
        ∀ b ∈ arrays.map (fun a => ({ a with names := a.names.map lower } : Tab V)),
          a.rows.length = b.rows.length) ↔ ∀ a ∈ arrays, ∀ b ∈ arrays, a.rows.length = b.rows.length := by
      simp only [List.mem_map, forall_exists_index, and_imp, forall_apply_eq_imp_iff₂]
    rw [hflat, hsz] at hgood hbad
    rcases arrays with _ | ⟨a, _ | ⟨b, rest⟩⟩
    · exact absurd rfl hne
    · constructor
      · rintro ⟨_, _⟩
        refine ⟨_, rfl, by simp, by simp, ?_⟩
        intro b hb n hn
        simp only [List.mem_singleton] at hb
        subst hb
        exact getCol_lower lower b (hl b (by simp)) n hn
      · intro h
        exact (h ⟨by simp, by simpa using hl a (by simp)⟩).elim
    · simp only [List.map_cons]
      simp only [List.map_cons] at hgood hbad
      refine ⟨fun h => ?_, hbad⟩
      obtain ⟨t, e, _, n1, _, l1, g1⟩ := hgood h
      refine ⟨t, e, n1, ?_, ?_⟩
      · intro c hc
        have := l1 ({ c with names := c.names.map lower }) (by
          exact List.mem_map_of_mem (f := fun a => ({ a with names := a.names.map lower } : Tab V)) hc)
        exact this
      · intro c hc n hn
        have := g1 ({ c with names := c.names.map lower }) (by
          exact List.mem_map_of_mem (f := fun a => ({ a with names := a.names.map lower } : Tab V)) hc)
          (lower n) (List.mem_map_of_mem hn)
        rw [this]
        exact getCol_lower lower c (hl c hc) n hn
  · rw [(lowerAll_spec lower arrays).2 hl]
    exact ⟨fun h => absurd (hsub h.2) hl, fun _ => rfl⟩

section Example22

private def tEx : Tab Int := ⟨["ra", "dec"], [0, 0], [[1, 2], [3, 4]]⟩

example : WF tEx := ⟨by decide, by decide, by decide⟩

private def low (s : String) : String := if s = "Z" then "z" else if s = "DEC" then "dec" else s

example : addFields low tEx ["Z"] [9] = .ok ⟨["ra", "dec", "z"], [0, 0, 9], [[1, 2, 9], [3, 4, 9]]⟩ := by
  rw [C22_add_fields low tEx ⟨by decide, by decide, by decide⟩ ["Z"] [9] rfl]; rfl

example : addFields low tEx ["DEC"] [9] = .error .valueError := by
  rw [C22_add_fields low tEx ⟨by decide, by decide, by decide⟩ ["DEC"] [9] rfl]; rfl

/-- Column collision between the second and third array only. -/
example : mkObject low [tEx, ⟨["a"], [0], [[5], [6]]⟩, ⟨["a"], [0], [[5], [6]]⟩] = .error .valueError := by rfl

example : mkObject low [tEx, ⟨["Z"], [0], [[5], [6]]⟩] =
    .ok ⟨["ra", "dec", "z"], [0, 0, 0], [[1, 2, 5], [3, 4, 6]]⟩ := by rfl

end Example22

/-! ## C21 -/

/-- Growing operations on a catalog. -/
inductive Op (V : Type)
  | app (u : Tab V)
  | ext (n : Nat)

/-- One operation on the catalog object: new state and possibly an exception (raised before the state is
assigned). -/
def step (t : Tab V) : Op V → Tab V × Option Err
  | .app u => match append t u with
    | .ok t' => (t', none)
    | .error e => (t, some e)
  | .ext n => (extend t n, none)

/-- A whole history; failing operations are caught by the caller and the history goes on. -/
def run (t : Tab V) : List (Op V) → Tab V × List (Option Err)
  | [] => (t, [])
  | o :: os => let r := step t o; let q := run r.1 os; (q.1, r.2 :: q.2)

/-- **C21.** For every history of appends and extends: the columns never change; the rows are the original rows
followed, in order, by the rows of every appended table with the same columns and the zero rows of every extend;
an operation raises exactly when it appends a table with different columns, and it then adds nothing. -/
theorem C21_history (t : Tab V) (ops : List (Op V)) :
    (run t ops).1 = { t with rows := t.rows ++ ops.flatMap fun o => match o with
      | .app u => if u.names = t.names then u.rows else []
      | .ext n => List.replicate n t.zeros } ∧
    (run t ops).2 = ops.map fun o => match o with
      | .app u => if u.names = t.names then none else some .typeError
      | .ext _ => none := by
  induction ops generalizing t with
  | nil => simp [run]
  | cons o os ih =>
    simp only [run]
    cases o with
    | app u =>
      by_cases h : t.names = u.names
      · simp only [step, append, if_pos h]
        have := ih { t with rows := t.rows ++ u.rows }
        rw [this.1, this.2]
        simp [h.symm]
      · simp only [step, append, if_neg h]
        have := ih t
        rw [this.1, this.2]
        simp [Ne.symm h]
    | ext n =>
      simp only [step, extend]
      have := ih { t with rows := t.rows ++ List.replicate n t.zeros }
      rw [this.1, this.2]
      simp

example : (run (⟨["a"], [0], [[1]]⟩ : Tab Int) [.app ⟨["a"], [0], [[2], [3]]⟩, .app ⟨["b"], [0], [[9]]⟩, .ext 2]) =
    (⟨["a"], [0], [[1], [2], [3], [0], [0]]⟩, [none, some .typeError, none]) := by decide

/-! ## C23 -/

/-- The row that position `i` refers to in a table of `n` rows: counted from the start, or from the end if
negative. -/
def position (n : Nat) (i : Int) : Int := if i < 0 then n + i else i

theorem normIdx_eq (n : Nat) (i : Int) : normIdx n i =
    if 0 ≤ position n i ∧ position n i < n then some (position n i).toNat else none := by
  unfold normIdx position
  by_cases h : 0 ≤ i
  · have h' : ¬ i < 0 := by omega
    rw [if_pos h, if_neg h']
    simp only [h, true_and]
  · have h' : i < 0 := by omega
    rw [if_neg h, if_pos h']
    by_cases h2 : -(n : Int) ≤ i
    · rw [if_pos h2, if_pos ⟨by omega, by omega⟩, add_comm]
    · rw [if_neg h2, if_neg (by omega)]

theorem fancy_spec {β : Type} [Inhabited β] (rows : List β) (idx : List Int) :
    ((∀ i ∈ idx, 0 ≤ position rows.length i ∧ position rows.length i < rows.length) →
      fancy rows idx = .ok (idx.map fun i => rows.getD (position rows.length i).toNat default)) ∧
    (¬ (∀ i ∈ idx, 0 ≤ position rows.length i ∧ position rows.length i < rows.length) →
      fancy rows idx = .error .indexError) := by
  induction idx with
  | nil => simp [fancy]
  | cons i is ih =>
    simp only [fancy]
    rw [normIdx_eq]
    by_cases h : 0 ≤ position rows.length i ∧ position rows.length i < rows.length
    · rw [if_pos h]
      have hlt : (position rows.length i).toNat < rows.length := by omega
      simp only [Option.bind_some, List.getElem?_eq_getElem hlt]
      constructor
      · intro hall
        rw [ih.1 (fun j hj => hall j (List.mem_cons_of_mem _ hj))]
        simp [List.getD_eq_getElem?_getD, List.getElem?_eq_getElem hlt]
      · intro hall
        rw [ih.2 (fun h' => hall (by
          intro j hj
          rcases List.mem_cons.mp hj with rfl | hj
          · exact h
          · exact h' j hj))]
    · rw [if_neg h]
      exact ⟨fun hall => absurd (hall i List.mem_cons_self) h, fun _ => rfl⟩

/-- Full property C23: writing with an index array puts exactly those rows, in that order, into the file. -/
def C23_spec (V : Type) [Inhabited V] : Prop :=
  ∀ (t : Tab V) (idx : List Int),
    (∀ i ∈ idx, 0 ≤ position t.rows.length i ∧ position t.rows.length i < t.rows.length) →
    toFits t none true (some idx) = .ok (some [{ t with
      rows := idx.map fun i => t.rows.getD (position t.rows.length i).toNat default }])

/-- **C23** (partial: the catalog does not have exactly one row). The written file holds exactly the requested
rows in the requested order (negative positions count from the end, repeats are repeated); a position out of range
raises and nothing is written. -/
theorem C23_indices_partial (t : Tab V) (h1 : t.rows.length ≠ 1) (file : Option (List (Tab V)))
    (idx : List Int) :
    ((∀ i ∈ idx, 0 ≤ position t.rows.length i ∧ position t.rows.length i < t.rows.length) →
      toFits t file true (some idx) = .ok (some [{ t with
        rows := idx.map fun i => t.rows.getD (position t.rows.length i).toNat default }])) ∧
    (¬ (∀ i ∈ idx, 0 ≤ position t.rows.length i ∧ position t.rows.length i < t.rows.length) →
      toFits t file true (some idx) = .error .indexError) := by
  unfold toFits getItems
  rw [if_neg h1]
  simp only
  constructor
  · intro h
    rw [(fancy_spec t.rows idx).1 h]
    cases file <;> rfl
  · intro h
    rw [(fancy_spec t.rows idx).2 h]

/-- The full property fails: a one-row catalog is written whole even when no row was requested. -/
theorem C23_one_row_false : ¬ C23_spec Int := by
  intro h
  have := h ⟨["a"], [0], [[7]]⟩ [] (by intro i hi; cases hi)
  revert this
  decide

example : toFits (⟨["a"], [0], [[7], [8], [9]]⟩ : Tab Int) none true (some [2, 0, -1]) =
    .ok (some [⟨["a"], [0], [[9], [7], [9]]⟩]) := by rfl

/-! ## C79 -/

/-- No ordinary attribute hides a column. -/
def NoShadow (lower : String → String) (o : Obj V) : Prop := ∀ p ∈ o.attrs, lower p.1 ∉ o.tab.names

/-- The cells an assignment asks for, one per row. -/
def wanted (n : Nat) : Val V → List V
  | .scalar v => List.replicate n v
  | .seq l => if l.length = 1 then List.replicate n (l.getD 0 default) else l

theorem find_none_of_noShadow {lower : String → String} {o : Obj V} (h : NoShadow lower o) {a : String}
    (ha : lower a ∈ o.tab.names) : o.attrs.find? (fun p => decide (p.1 = a)) = none := by
  rw [List.find?_eq_none]
  intro p hp hpa
  have : p.1 = a := by simpa using hpa
  exact h p hp (this ▸ ha)

/-- **C79.** Assigning to a column name in any letter case. When the number of values fits (a scalar or a single
value always does), the column gets the values, reading it back in any letter case returns them, every other column
reads as before, and names, row count and attributes are unchanged; otherwise `ValueError`. -/
theorem C79_set_column (lower : String → String) (o : Obj V) (hwf : WF o.tab) (hns : NoShadow lower o)
    (attr : String) (hcol : lower attr ∈ o.tab.names) (val : Val V) :
    ((wanted o.tab.rows.length val).length = o.tab.rows.length →
      ∃ o', setAttr lower o attr val = .ok o' ∧ NoShadow lower o' ∧ WF o'.tab ∧
        o'.tab.names = o.tab.names ∧ o'.tab.rows.length = o.tab.rows.length ∧ o'.attrs = o.attrs ∧
        (∀ a, lower a = lower attr → getAttr lower o' a = .ok (wanted o.tab.rows.length val)) ∧
        (∀ a, lower a ≠ lower attr → getAttr lower o' a = getAttr lower o a)) ∧
    ((wanted o.tab.rows.length val).length ≠ o.tab.rows.length →
      setAttr lower o attr val = .error .valueError) := by
  have hw : cells o.tab.rows.length val = wanted o.tab.rows.length val := by
    cases val with
    | scalar v => rfl
    | seq l =>
      match l with
      | [] => rfl
      | [v] => rfl
      | _ :: _ :: _ => simp [cells, wanted]
  unfold setAttr
  rw [if_pos hcol]
  rw [hw]
  constructor
  · intro hl
    obtain ⟨t', e, w, n1, _, l1, g1, o1⟩ := setCol_spec hwf hcol hl
    rw [e]
    have hns' : NoShadow lower ({ o with tab := t' } : Obj V) := by
      intro p hp
      rw [show ({ o with tab := t' } : Obj V).tab.names = o.tab.names from n1]
      exact hns p hp
    refine ⟨_, rfl, hns', w, n1, l1, rfl, ?_, ?_⟩
    · intro a ha
      unfold getAttr
      rw [find_none_of_noShadow hns' (by rw [show ({ o with tab := t' } : Obj V).tab.names = o.tab.names from n1, ha]; exact hcol)]
      simp only
      rw [ha, g1]
    · intro a ha
      unfold getAttr
      simp only
      rw [o1 _ ha]
  · intro hl
    unfold setCol
    rw [if_pos hcol, if_neg hl]

/-- **C79.** Assigning a name that is not a column never changes the table (and never fails). -/
theorem C79_unknown_name (lower : String → String) (o : Obj V) (attr : String) (hcol : lower attr ∉ o.tab.names)
    (val : Val V) : ∃ o', setAttr lower o attr val = .ok o' ∧ o'.tab = o.tab ∧
      (NoShadow lower o → NoShadow lower o') := by
  unfold setAttr
  rw [if_neg hcol]
  refine ⟨_, rfl, rfl, ?_⟩
  intro h p hp
  rcases List.mem_cons.mp hp with rfl | hp
  · exact hcol
  · exact h p hp

/-- The absence of shadowing is needed: set an unknown name, then add a column of that name; the column can be
assigned but reading it returns the old attribute. -/
theorem C79_shadow_false :
    ∃ o o1 o2 : Obj Int, ∃ t, setAttr id o "z" (.scalar 1) = .ok o1 ∧ addFields id o1.tab ["z"] [0] = .ok t ∧
      setAttr id { o1 with tab := t } "z" (.scalar 5) = .ok o2 ∧
      getCol o2.tab "z" = some [5, 5] ∧ getAttr id o2 "z" = .ok [1] :=
  ⟨⟨⟨["a"], [0], [[1], [2]]⟩, []⟩, ⟨⟨["a"], [0], [[1], [2]]⟩, [("z", [1])]⟩,
   ⟨⟨["a", "z"], [0, 0], [[1, 5], [2, 5]]⟩, [("z", [1])]⟩, ⟨["a", "z"], [0, 0], [[1, 0], [2, 0]]⟩,
   by decide, by decide, by decide, by decide, by decide⟩

example : (setAttr low ⟨tEx, []⟩ "DEC" (.seq [7, 8])) = .ok ⟨⟨["ra", "dec"], [0, 0], [[1, 7], [3, 8]]⟩, []⟩ := by rfl

/-! ## C81 -/

/-- Full property C81. -/
def C81_spec (V : Type) [Inhabited V] : Prop :=
  ∀ (t : Tab V) (file : Option (List (Tab V))) (clobber : Bool), t.names.Nodup →
    ∃ f, toFits t file clobber none = .ok f ∧ fromFits id f = .ok t

/-- **C81** (partial: the file is new or is overwritten). Reading back gives the same table; column names come back
in lower case, which is how every object holds them. -/
theorem C81_roundtrip_partial (lower : String → String) (t : Tab V) (hlow : t.names.map lower = t.names)
    (hnd : t.names.Nodup) (file : Option (List (Tab V))) (clobber : Bool) (h : file = none ∨ clobber = true) :
    ∃ f, toFits t file clobber none = .ok f ∧ fromFits lower f = .ok t := by
  have hw : fitsWrite file clobber t = some [t] := by
    unfold fitsWrite
    rcases h with rfl | rfl
    · rfl
    · cases file <;> rfl
  refine ⟨some [t], ?_, ?_⟩
  · unfold toFits
    rw [hw]
    split <;> rfl
  · unfold fromFits mkObject lowerAll lowerArray lowerAll
    simp only [hlow]
    rw [if_pos hnd]

/-- Without `clobber` an existing file keeps its first table: reading back returns the old catalog. -/
theorem C81_no_clobber_false : ¬ C81_spec Int := by
  intro h
  obtain ⟨f, h1, h2⟩ := h ⟨["a"], [0], [[1]]⟩ (some [⟨["a"], [0], [[2]]⟩]) false (by decide)
  have : f = some [⟨["a"], [0], [[2]]⟩, ⟨["a"], [0], [[1]]⟩] := by
    have h3 : toFits (⟨["a"], [0], [[1]]⟩ : Tab Int) (some [⟨["a"], [0], [[2]]⟩]) false none =
      .ok (some [⟨["a"], [0], [[2]]⟩, ⟨["a"], [0], [[1]]⟩]) := by rfl
    rw [h3] at h1
    exact (Except.ok.inj h1).symm
  rw [this] at h2
  revert h2
  decide

/-! ## C82 -/

/-- The cell of a catalog. -/
def cell (t : Tab V) (i : Nat) (n : String) : Option V := (getCol t n).bind fun c => c[i]?

/-- **C82.** For an entry taken from a catalog: reading it gives the catalog's cell; assigning one of its columns
changes exactly that one cell of the catalog, whatever other cells are looked at afterwards. -/
theorem C82_view (cat : Tab V) (hwf : WF cat) (i : Int) (s : CatEntry V) (h : takeEntry cat i = .ok s)
    (n : String) (hn : n ∈ cat.names) (v : V) :
    (∀ m, entryGet s m = cell cat (position cat.rows.length i).toNat m) ∧
    (∀ j m, cell (entrySet s n v).cat j m =
      if j = (position cat.rows.length i).toNat ∧ m = n then some v else cell cat j m) := by
  unfold takeEntry at h
  rw [normIdx_eq] at h
  by_cases hp : 0 ≤ position cat.rows.length i ∧ position cat.rows.length i < cat.rows.length
  · rw [if_pos hp] at h
    simp only [Except.ok.injEq] at h
    subst h
    set k := (position cat.rows.length i).toNat with hk
    have hkl : k < cat.rows.length := by omega
    constructor
    · intro m
      unfold entryGet cell getCol
      by_cases hm : m ∈ cat.names
      · simp [hm]
      · simp [hm]
    · intro j m
      unfold entrySet cell getCol
      simp only
      by_cases hm : m ∈ cat.names
      · rw [if_pos hm, if_pos hm]
        simp only [Option.bind_some, List.getElem?_map, List.getElem?_modify]
        by_cases hj : k = j
        · subst hj
          simp only [List.getElem?_eq_getElem hkl, Option.map_some, if_true, true_and]
          have hr := hwf.rows _ (List.getElem_mem hkl)
          by_cases hmn : m = n
          · subst hmn
            have hlt : cat.names.idxOf m < (cat.rows[k]).length := by
              rw [hr]; exact List.idxOf_lt_length_iff.mpr hn
            simp [List.getD_eq_getElem?_getD, hlt]
          · have := idxOf_ne_of_mem hn (Ne.symm hmn)
            simp [hmn, List.getD_eq_getElem?_getD, List.getElem?_set_ne this]
        · have hj' : ¬ (j = k ∧ m = n) := fun h => hj h.1.symm
          rw [if_neg hj']
          simp [hj]
      · have hmn : ¬ (j = k ∧ m = n) := fun h => hm (h.2 ▸ hn)
        rw [if_neg hm, if_neg hm, if_neg hmn]
  · rw [if_neg hp] at h; cases h

/-- **C82.** After `add_fields` the entry has its old cells and the new zero cells, but it is a copy: no later
assignment through it changes the catalog. -/
theorem C82_detached (s s' : CatEntry V) (names : List String) (zeros : List V)
    (h : entryAddFields s names zeros = .ok s') (ws : List (String × V)) :
    (ws.foldl (fun st w => entrySet st w.1 w.2) s').cat = s.cat := by
  have hown : s'.cat = s.cat ∧ ∃ ns r, s'.entry = .own ns r := by
    unfold entryAddFields at h
    simp only at h
    split at h
    · cases h
    · split at h
      · simp only [Except.ok.injEq] at h; subst h; exact ⟨rfl, _, _, rfl⟩
      · cases h
  obtain ⟨hc, ns, r, ho⟩ := hown
  rw [← hc]
  clear h hc
  induction ws generalizing s' r with
  | nil => rfl
  | cons w ws ih =>
    rw [List.foldl_cons]
    have he : (entrySet s' w.1 w.2).cat = s'.cat ∧
        (entrySet s' w.1 w.2).entry = .own ns (r.set (ns.idxOf w.1) w.2) := by
      unfold entrySet
      rw [ho]
      exact ⟨rfl, rfl⟩
    rw [ih _ _ he.2, he.1]

/-- **C82.** After `add_fields` an entry has the cells it had and the new ones, and an assignment to one of them changes this cell of the entry and no other. -/
theorem C82_fields (cat : Tab V) (hwf : WF cat) (i : Int) (s s' : CatEntry V) (h0 : takeEntry cat i = .ok s) (names : List String) (zeros : List V) (hl : zeros.length = names.length)
    (h : entryAddFields s names zeros = .ok s') :
    (∀ m ∈ cat.names, entryGet s' m = entryGet s m) ∧ (∀ k, (hk : k < names.length) → entryGet s' names[k] = zeros[k]?) ∧
      (∀ m, m ∉ cat.names → m ∉ names → entryGet s' m = none) ∧
      ∀ n v m, n ∈ cat.names ∨ n ∈ names → entryGet (entrySet s' n v) m = if m = n then some v else entryGet s' m := by
  unfold takeEntry at h0
  split at h0
  · cases h0
  · rename_i k hk
    simp only [Except.ok.injEq] at h0
    subst h0
    unfold entryAddFields at h
    simp only at h
    cases hr : cat.rows[k]? with
    | none => rw [hr] at h; simp at h
    | some r =>
      rw [hr] at h
      simp only [Option.map_some] at h
      split at h
      · rename_i hnd
        simp only [Except.ok.injEq] at h
        subst h
        have hrl : r.length = cat.names.length := hwf.rows _ (List.mem_of_getElem? hr)
        refine ⟨?_, ?_, ?_, ?_⟩
        · intro m hm
          have hlt : cat.names.idxOf m < r.length := by rw [hrl]; exact List.idxOf_lt_length_iff.mpr hm
          simp only [entryGet, List.mem_append, hm, true_or, if_true, hr, Option.map_some]
          rw [List.idxOf_append_of_mem hm, List.getD_eq_getElem?_getD, List.getD_eq_getElem?_getD, List.getElem?_append_left hlt]
        · intro j hj
          have hmem : names[j] ∈ names := List.getElem_mem hj
          have hnot : names[j] ∉ cat.names := fun hc => (List.nodup_append.mp hnd).2.2 _ hc _ hmem rfl
          have hidx : names.idxOf names[j] = j := (List.nodup_append.mp hnd).2.1.idxOf_getElem j hj
          simp only [entryGet, List.mem_append, hmem, or_true, if_true]
          rw [List.idxOf_append_of_notMem hnot, hidx, List.getD_eq_getElem?_getD, ← hrl, List.getElem?_append_right (Nat.le_add_right _ _), Nat.add_sub_cancel_left,
            List.getElem?_eq_getElem (by omega)]
          rfl
        · intro m h1 h2
          simp [entryGet, h1, h2]
        · intro n v m hn
          have hn' : n ∈ cat.names ++ names := List.mem_append.mpr hn
          have hlt : (cat.names ++ names).idxOf n < (r ++ zeros).length := by
            rw [List.length_append, hrl, hl, ← List.length_append]
            exact List.idxOf_lt_length_iff.mpr hn'
          simp only [entrySet, entryGet]
          by_cases hmn : m = n
          · subst hmn
            rw [if_pos hn', if_pos rfl, List.getD_eq_getElem?_getD, List.getElem?_set_self hlt]
            rfl
          · rw [if_neg hmn]
            by_cases hm : m ∈ cat.names ++ names
            · rw [if_pos hm, if_pos hm, List.getD_eq_getElem?_getD, List.getElem?_set_ne (idxOf_ne_of_mem hn' (Ne.symm hmn)), List.getD_eq_getElem?_getD]
            · rw [if_neg hm, if_neg hm]
      · cases h

example : ∃ s, takeEntry tEx (-1) = .ok s ∧ (entrySet s "dec" 9).cat.rows = [[1, 2], [3, 9]] ∧
    ∃ s', entryAddFields s ["q"] [0] = .ok s' ∧ (entrySet s' "dec" 9).cat.rows = [[1, 2], [3, 4]] :=
  ⟨⟨tEx, .view 1⟩, by rfl, by rfl, ⟨tEx, .own ["ra", "dec", "q"] [3, 4, 0]⟩, by rfl, by rfl⟩

end Redmapper.Catalog
