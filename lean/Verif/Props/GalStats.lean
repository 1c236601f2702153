/-
Properties of what the configuration takes from the galaxy file: C265-C268.
-/
import Verif.Model.GalStats
import Mathlib.Tactic.Linarith
import Mathlib.Tactic.NormNum
import Mathlib.Data.List.Basic
import Mathlib.Algebra.Order.AbsoluteValue.Basic

namespace Redmapper.GalStats

/-! ## C265: names of bands -/

theorem prefix_split {pat s : List Char} {k : Nat} (hk : k ≤ s.length) (h : pat.isPrefixOf (s.drop k) = true) : ∃ t, s = s.take k ++ pat ++ t := by
  rw [List.isPrefixOf_iff_prefix] at h
  obtain ⟨t, ht⟩ := h
  refine ⟨t, ?_⟩
  rw [List.append_assoc, ht, List.take_append_drop]

theorem split_prefix {pat s g t : List Char} (h : s = g ++ pat ++ t) : g.length ≤ s.length ∧ pat.isPrefixOf (s.drop g.length) = true ∧ s.take g.length = g := by
  subst h
  refine ⟨by simp, ?_, by simp⟩
  rw [List.isPrefixOf_iff_prefix, List.append_assoc, List.drop_left]
  exact List.prefix_append _ _

/-- The group is what is before the last occurrence of the pattern. -/
theorem group_some (pat s g : List Char) :
    group pat s = some g ↔ (∃ t, s = g ++ pat ++ t) ∧ ∀ g' t', s = g' ++ pat ++ t' → g'.length ≤ g.length := by
  have find : ∀ n : Nat, n ≤ s.length + 1 → ∀ k, ((List.range n).reverse.find? fun k => pat.isPrefixOf (s.drop k)) = some k ↔
      k < n ∧ pat.isPrefixOf (s.drop k) = true ∧ ∀ j, j < n → pat.isPrefixOf (s.drop j) = true → j ≤ k := by
    intro n
    induction n with
    | zero => intro _ k; simp
    | succ n ih =>
      intro hn k
      rw [List.range_succ, List.reverse_append, List.reverse_singleton, List.singleton_append, List.find?_cons]
      by_cases hp : pat.isPrefixOf (s.drop n) = true
      · simp only [hp]
        constructor
        · intro h
          cases h
          exact ⟨by omega, hp, fun j hj _ => by omega⟩
        · rintro ⟨h1, h2, h3⟩
          have := h3 n (by omega) hp
          rw [show n = k by omega]
      · simp only [hp]
        rw [ih (by omega)]
        constructor
        · rintro ⟨h1, h2, h3⟩
          refine ⟨by omega, h2, fun j hj hpj => ?_⟩
          rcases Nat.lt_succ_iff_lt_or_eq.mp hj with h | rfl
          · exact h3 j h hpj
          · exact absurd hpj hp
        · rintro ⟨h1, h2, h3⟩
          refine ⟨?_, h2, fun j hj hpj => h3 j (by omega) hpj⟩
          rcases Nat.lt_succ_iff_lt_or_eq.mp h1 with h | rfl
          · exact h
          · exact absurd h2 hp
  unfold group
  rw [Option.map_eq_some_iff]
  constructor
  · rintro ⟨k, hk, rfl⟩
    obtain ⟨h1, h2, h3⟩ := (find _ le_rfl k).mp hk
    refine ⟨prefix_split (by omega) h2, fun g' t' h => ?_⟩
    obtain ⟨h4, h5, -⟩ := split_prefix h
    have := h3 g'.length (by omega) h5
    rw [List.length_take]
    omega
  · rintro ⟨⟨t, ht⟩, hmax⟩
    obtain ⟨h1, h2, h3⟩ := split_prefix ht
    refine ⟨g.length, (find _ le_rfl _).mpr ⟨by omega, h2, fun j hj hp => ?_⟩, h3⟩
    obtain ⟨t', ht'⟩ := prefix_split (show j ≤ s.length by omega) hp
    have := hmax _ _ ht'
    rw [List.length_take] at this
    omega

/-- The columns that name a band: name and index. -/
def named (pat skip : List Char) (cols : List (List Char × Int)) : List (List Char × Int) :=
  cols.filterMap fun q => match group pat q.1 with
    | some g => if g = skip then none else some (g.map Char.toLower, q.2)
    | none => none

theorem setItem_ok {A : Type} (l : List A) (i : Int) (x : A) (h0 : 0 ≤ i) (h1 : i < l.length) : setItem l i x = .ok (l.set i.toNat x) := by
  unfold setItem
  rw [if_pos h0, if_pos h1]

theorem bands_general (pat skip : List Char) (cols : List (List Char × Int)) (acc : List (Option (List Char)))
    (h : ∀ q ∈ named pat skip cols, 0 ≤ q.2 ∧ q.2 < acc.length) :
    ∃ l, bands pat skip cols acc = .ok l ∧ l.length = acc.length ∧
      ∀ i, i < acc.length → l[i]? = match ((named pat skip cols).filter fun q => q.2 = (i : Int)).getLast? with
        | some q => some (some q.1)
        | none => acc[i]? := by
  induction cols generalizing acc with
  | nil => exact ⟨acc, rfl, rfl, fun i _ => rfl⟩
  | cons q cols ih =>
    obtain ⟨name, v⟩ := q
    unfold bands
    cases hg : group pat name with
    | none =>
      have e : named pat skip ((name, v) :: cols) = named pat skip cols := by simp [named, hg]
      rw [e] at h ⊢
      exact ih acc h
    | some g =>
      by_cases hs : g = skip
      · have e : named pat skip ((name, v) :: cols) = named pat skip cols := by simp [named, hg, hs]
        rw [e] at h ⊢
        simp only [hs, if_true]
        exact ih acc h
      · have e : named pat skip ((name, v) :: cols) = (g.map Char.toLower, v) :: named pat skip cols := by simp [named, hg, hs]
        rw [e] at h ⊢
        obtain ⟨hv0, hv1⟩ := h (g.map Char.toLower, v) (by simp)
        simp only at hv0 hv1
        simp only [hs, if_false]
        rw [setItem_ok _ _ _ hv0 hv1]
        simp only
        obtain ⟨l, hl, hlen, hi⟩ := ih (acc.set v.toNat (some (g.map Char.toLower))) (fun q hq => by
          rw [List.length_set]
          exact h q (List.mem_cons_of_mem _ hq))
        rw [List.length_set] at hlen hi
        refine ⟨l, hl, hlen, fun i hia => ?_⟩
        rw [hi i hia]
        by_cases hvi : v = (i : Int)
        · rw [List.filter_cons_of_pos (by simp [hvi])]
          cases hlast : ((named pat skip cols).filter fun q => q.2 = (i : Int)).getLast? with
          | none =>
            rw [List.getLast?_eq_none_iff] at hlast
            rw [hlast]
            simp only [List.getLast?_singleton]
            rw [hvi, Int.toNat_natCast, List.getElem?_set_self (by omega)]
          | some q =>
            rw [List.getLast?_cons, hlast]
            rfl
        · rw [List.filter_cons_of_neg (by simp [hvi])]
          cases ((named pat skip cols).filter fun q => q.2 = (i : Int)).getLast? with
          | some q => rfl
          | none =>
            simp only
            rw [List.getElem?_set_ne (by omega)]

theorem lookup_append (name : List Char) (a b : List (List Char × Int)) (h : ∀ q ∈ a, q.1 ≠ name) : lookup name (a ++ b) = lookup name b := by
  induction a with
  | nil => rfl
  | cons q a ih =>
    obtain ⟨n, v⟩ := q
    rw [List.cons_append]
    rw [lookup, if_neg (h (n, v) (by simp)), ih fun q hq => h q (List.mem_cons_of_mem _ hq)]

theorem lookup_known (l : List Char) (ind : Char → Option Nat) (c : Char) (hc : c ∈ l) (i : Nat) (hi : ind c = some i) :
    lookup (c :: "_ind".toList) (l.filterMap fun c => (ind c).map fun (i : Nat) => (c :: "_ind".toList, (i : Int))) = some (i : Int) := by
  induction l with
  | nil => cases hc
  | cons d l ih =>
    by_cases hdc : d = c
    · subst hdc
      rw [List.filterMap_cons_some (by rw [hi]; rfl)]
      unfold lookup
      rw [if_pos rfl]
    · have hcl : c ∈ l := by
        rcases List.mem_cons.mp hc with h | h
        · exact absurd h.symm hdc
        · exact h
      cases hd : ind d with
      | none => rw [List.filterMap_cons_none (by rw [hd]; rfl)]; exact ih hcl
      | some j =>
        rw [List.filterMap_cons_some (by rw [hd]; rfl)]
        unfold lookup
        rw [if_neg (by simp [hdc])]
        exact ih hcl

theorem group_known : ∀ c ∈ known, group "_ind".toList (c :: "_ind".toList) = some [c] ∧ [c] ≠ "ref".toList ∧ [c].map Char.toLower = [c] := by decide

/-- The bands of the master table that name something. -/
theorem named_master (mode : List Char) (nmag refInd : Nat) (ind : Char → Option Nat) :
    named "_ind".toList "ref".toList (master mode nmag refInd ind).cols = known.filterMap fun c => (ind c).map fun (i : Nat) => ([c], (i : Int)) := by
  have fixed : ∀ n ∈ ["nside".toList, "hpix".toList, "ra_pix".toList, "dec_pix".toList, "ngals".toList, "filenames".toList, "lim_ref".toList, "area".toList,
      "nmag".toList, "mode".toList, "b".toList, "zeropoint".toList, "has_truth".toList, "has_zspec".toList], group "_ind".toList n = none := by decide
  have href : group "_ind".toList "ref_ind".toList = some "ref".toList := by decide
  unfold master named
  simp only [List.filterMap_append]
  have e1 : List.filterMap (fun q : List Char × Int => match group "_ind".toList q.1 with
      | some g => if g = "ref".toList then none else some (g.map Char.toLower, q.2)
      | none => none)
      [("nside".toList, 0), ("hpix".toList, 0), ("ra_pix".toList, 0), ("dec_pix".toList, 0), ("ngals".toList, 0), ("filenames".toList, 0), ("lim_ref".toList, 0),
       ("ref_ind".toList, (refInd : Int)), ("area".toList, 0), ("nmag".toList, (nmag : Int)), ("mode".toList, 0), ("b".toList, 0), ("zeropoint".toList, 0),
       ("has_truth".toList, 0), ("has_zspec".toList, 0)] = [] := by
    rw [List.filterMap_eq_nil_iff]
    intro q hq
    have hq1 : q.1 ∈ "ref_ind".toList :: ["nside".toList, "hpix".toList, "ra_pix".toList, "dec_pix".toList, "ngals".toList, "filenames".toList, "lim_ref".toList,
        "area".toList, "nmag".toList, "mode".toList, "b".toList, "zeropoint".toList, "has_truth".toList, "has_zspec".toList] := by
      simp only [List.mem_cons, List.not_mem_nil, or_false] at hq ⊢
      rcases hq with h | h | h | h | h | h | h | h | h | h | h | h | h | h | h <;> (rw [h]; simp)
    rcases List.mem_cons.mp hq1 with h | h
    · rw [h, href]
      simp
    · rw [fixed _ h]
  rw [e1, List.nil_append, List.filterMap_filterMap]
  apply List.filterMap_congr
  intro c hc
  obtain ⟨h1, h2, h3⟩ := group_known c hc
  cases hi : ind c with
  | none => rfl
  | some i =>
    simp only [Option.map_some, Option.bind_some, h1, h2, h3, if_false]

/-- **C265.** The master table of the galaxy maker is read back as it was meant: if the indices of the bands are below the number of bands and
different, then the statistics can be taken for every reference band of the file, the reference index is that band's, and there are names of
bands exactly if all indices are used; the name at the index of a band is that band. -/
theorem C265_partial (mode : List Char) (m : Nat) (hm : surveyMode mode = .ok m) (nmag refInd : Nat) (ind : Char → Option Nat)
    (hlt : ∀ c ∈ known, ∀ i, ind c = some i → i < nmag) (hinj : ∀ c ∈ known, ∀ d ∈ known, ∀ i, ind c = some i → ind d = some i → c = d)
    (r : Char) (hr : r ∈ known) (ri : Nat) (hri : ind r = some ri) :
    ∃ st, stats [r] (master mode nmag refInd ind) = .ok st ∧ st.pixelized = true ∧ st.mode = m ∧ st.nmag = nmag ∧ st.refInd = some (ri : Int) ∧
      ((∀ i, i < nmag → ∃ c ∈ known, ind c = some i) →
        ∃ bs, st.bands = some bs ∧ bs.length = nmag ∧ ∀ c ∈ known, ∀ i, ind c = some i → bs[i]? = some [c]) ∧
      (¬ (∀ i, i < nmag → ∃ c ∈ known, ind c = some i) → st.bands = none) := by
  have hlow : [r].map Char.toLower = [r] := (group_known r hr).2.2
  have hlk : lookup ([r].map Char.toLower ++ "_ind".toList) (master mode nmag refInd ind).cols = some (ri : Int) := by
    rw [hlow]
    unfold master
    simp only
    rw [lookup_append, List.singleton_append]
    · exact lookup_known known ind r hr ri hri
    · intro q hq
      simp only [List.mem_cons, List.not_mem_nil, or_false] at hq
      have hk : ∀ c ∈ known, ∀ n ∈ ["nside".toList, "hpix".toList, "ra_pix".toList, "dec_pix".toList, "ngals".toList, "filenames".toList, "lim_ref".toList, "ref_ind".toList,
        "area".toList, "nmag".toList, "mode".toList, "b".toList, "zeropoint".toList, "has_truth".toList, "has_zspec".toList], n ≠ [c] ++ "_ind".toList := by decide
      rcases hq with rfl | rfl | rfl | rfl | rfl | rfl | rfl | rfl | rfl | rfl | rfl | rfl | rfl | rfl | rfl <;>
        exact hk r hr _ (by simp)
  have hnm := named_master mode nmag refInd ind
  have hmem : ∀ q, q ∈ named "_ind".toList "ref".toList (master mode nmag refInd ind).cols ↔ ∃ c ∈ known, ∃ i, ind c = some i ∧ q = ([c], (i : Int)) := by
    intro q
    rw [hnm, List.mem_filterMap]
    constructor
    · rintro ⟨c, hc, h⟩
      obtain ⟨i, hi, rfl⟩ := Option.map_eq_some_iff.mp h
      exact ⟨c, hc, i, hi, rfl⟩
    · rintro ⟨c, hc, i, hi, rfl⟩
      exact ⟨c, hc, by rw [hi]; rfl⟩
  obtain ⟨l, hl, hlen, hli⟩ := bands_general "_ind".toList "ref".toList (master mode nmag refInd ind).cols (List.replicate nmag none) (by
    intro q hq
    obtain ⟨c, hc, i, hi, rfl⟩ := (hmem q).mp hq
    have := hlt c hc i hi
    simp only [List.length_replicate]
    omega)
  rw [List.length_replicate] at hlen hli
  -- the entry at the index of a band, and at an unused index
  have hat : ∀ c ∈ known, ∀ i, ind c = some i → l[i]? = some (some [c]) := by
    intro c hc i hi
    rw [hli i (hlt c hc i hi)]
    have hin : ([c], (i : Int)) ∈ (named "_ind".toList "ref".toList (master mode nmag refInd ind).cols).filter fun q => q.2 = (i : Int) :=
      List.mem_filter.mpr ⟨(hmem _).mpr ⟨c, hc, i, hi, rfl⟩, by simp⟩
    cases hlast : ((named "_ind".toList "ref".toList (master mode nmag refInd ind).cols).filter fun q => q.2 = (i : Int)).getLast? with
    | none =>
      rw [List.getLast?_eq_none_iff] at hlast
      rw [hlast] at hin
      cases hin
    | some q =>
      obtain ⟨hq1, hq2⟩ := List.mem_filter.mp (List.mem_of_getLast? hlast)
      obtain ⟨d, hd, j, hj, rfl⟩ := (hmem q).mp hq1
      simp only [decide_eq_true_eq] at hq2
      have : j = i := by exact_mod_cast hq2
      subst this
      rw [hinj c hc d hd j hi hj]
  have hun : ∀ i, i < nmag → ¬ (∃ c ∈ known, ind c = some i) → l[i]? = some none := by
    intro i hi hno
    rw [hli i hi]
    cases hlast : ((named "_ind".toList "ref".toList (master mode nmag refInd ind).cols).filter fun q => q.2 = (i : Int)).getLast? with
    | none => simp [hi]
    | some q =>
      obtain ⟨hq1, hq2⟩ := List.mem_filter.mp (List.mem_of_getLast? hlast)
      obtain ⟨d, hd, j, hj, rfl⟩ := (hmem q).mp hq1
      simp only [decide_eq_true_eq] at hq2
      have : j = i := by exact_mod_cast hq2
      subst this
      exact absurd ⟨d, hd, hj⟩ hno
  refine ⟨⟨true, m, nmag, some (ri : Int), complete l⟩, ?_, rfl, rfl, rfl, rfl, ?_, ?_⟩
  · unfold stats
    rw [show (master mode nmag refInd ind).fits = 1 from rfl, show (master mode nmag refInd ind).pixels = 1 from rfl, if_neg (by decide), if_neg (by decide),
      show (master mode nmag refInd ind).mode = mode from rfl, hm]
    simp only
    rw [hlk]
    simp only
    rw [show (master mode nmag refInd ind).nmag = nmag from rfl, hl]
  · intro hall
    have hsome : ∀ i (hi : i < l.length), ∃ c, l[i] = some [c] := by
      intro i hi
      obtain ⟨c, hc, hci⟩ := hall i (by omega)
      have := hat c hc i hci
      rw [List.getElem?_eq_getElem hi, Option.some.injEq] at this
      exact ⟨c, this⟩
    have hany : l.any Option.isNone = false := by
      rw [List.any_eq_false]
      intro x hx
      obtain ⟨i, hi, rfl⟩ := List.getElem_of_mem hx
      obtain ⟨c, hc⟩ := hsome i hi
      rw [hc]
      simp
    have hmap : ∃ bs : List (List Char), l = bs.map some := by
      refine ⟨l.map fun x => x.getD [], ?_⟩
      rw [List.map_map]
      apply List.ext_getElem (by simp)
      intro i h1 h2
      obtain ⟨c, hc⟩ := hsome i h1
      simp [hc]
    obtain ⟨bs, rfl⟩ := hmap
    refine ⟨bs, ?_, by simpa using hlen, fun c hc i hi => ?_⟩
    · unfold complete
      rw [hany]
      simp [List.filterMap_map]
    · have := hat c hc i hi
      simp only [List.getElem?_map, Option.map_eq_some_iff] at this
      obtain ⟨x, hx, hx2⟩ := this
      rw [hx, Option.some.injEq]
      exact Option.some.inj hx2
  · intro hno
    push Not at hno
    obtain ⟨i, hi, hno⟩ := hno
    have := hun i hi (by rintro ⟨c, hc, h⟩; exact hno c hc h)
    unfold complete
    rw [if_pos]
    rw [List.any_eq_true]
    exact ⟨none, List.mem_of_getElem? this, rfl⟩

/-- Non-vacuity: g, r, i, z with i as reference. -/
example : ∃ st, stats ['i'] (master "DES".toList 4 2 fun c => if c = 'g' then some 0 else if c = 'r' then some 1 else if c = 'i' then some 2 else if c = 'z' then some 3 else none) = .ok st ∧
    st.bands = some [['g'], ['r'], ['i'], ['z']] ∧ st.refInd = some 2 := by
  refine ⟨⟨true, 1, 4, some 2, some [['g'], ['r'], ['i'], ['z']]⟩, ?_, rfl, rfl⟩
  rfl

/-- **C265 (out of range).** A band whose index is not below the number of bands raises an IndexError. -/
theorem C265_index : stats ['g'] (master "DES".toList 2 0 fun c => if c = 'g' then some 0 else if c = 'r' then some 2 else none) = .error .index := by rfl

/-- The wish for any table: every column whose name ends with `_ind` names a band, and no other. -/
def C265_spec : Prop := ∀ s g : List Char, group "_ind".toList s = some g → s = g ++ "_ind".toList

/-- **C265** is false of other columns: the pattern is searched anywhere, so that `g_index` names a band g as well. -/
theorem C265_false : ¬ C265_spec := fun h => absurd (h "g_index".toList "g".toList (by decide)) (by decide)

/-- The wish: the reference index of the configuration is that of the file. -/
def C266_spec : Prop :=
  ∀ (mode : List Char) (nmag refInd : Nat) (ind : Char → Option Nat) (r : Char) (st : Stats), stats [r] (master mode nmag refInd ind) = .ok st →
    st.refInd = some (refInd : Int)

/-- **C266.** If the reference band of the configuration is that of the file, the reference index is that of the file, and the name at that index
is the reference band. -/
theorem C266_partial (mode : List Char) (m : Nat) (hm : surveyMode mode = .ok m) (nmag refInd : Nat) (ind : Char → Option Nat)
    (hlt : ∀ c ∈ known, ∀ i, ind c = some i → i < nmag) (hinj : ∀ c ∈ known, ∀ d ∈ known, ∀ i, ind c = some i → ind d = some i → c = d)
    (r : Char) (hr : r ∈ known) (hri : ind r = some refInd) :
    ∃ st, stats [r] (master mode nmag refInd ind) = .ok st ∧ st.refInd = some (refInd : Int) ∧ ∀ bs, st.bands = some bs → bs[refInd]? = some [r] := by
  obtain ⟨st, h1, -, -, -, h2, h3, h4⟩ := C265_partial mode m hm nmag refInd ind hlt hinj r hr refInd hri
  refine ⟨st, h1, h2, fun bs hbs => ?_⟩
  by_cases hall : ∀ i, i < nmag → ∃ c ∈ known, ind c = some i
  · obtain ⟨bs', hb, -, hb2⟩ := h3 hall
    rw [hb] at hbs
    cases hbs
    exact hb2 r hr refInd hri
  · rw [h4 hall] at hbs
    cases hbs

/-- **C266** is false in general: the reference index that is stored in the file is not compared with the band of the configuration. -/
theorem C266_false : ¬ C266_spec := by
  intro h
  have := h "DES".toList 2 0 (fun c => if c = 'g' then some 0 else if c = 'r' then some 1 else none) 'r' ⟨true, 1, 2, some 1, some [['g'], ['r']]⟩ rfl
  simp at this

/-! ## C267: format and mode -/

/-- The survey modes. -/
def modes : List (List Char × Nat) := [("SDSS".toList, 0), ("DES".toList, 1), ("LSST".toList, 2)]

theorem surveyMode_iff (m : List Char) (k : Nat) : surveyMode m = .ok k ↔ (rstrip m, k) ∈ modes := by
  unfold surveyMode modes
  by_cases h0 : rstrip m = "SDSS".toList
  · rw [if_pos h0, h0]
    simp only [List.mem_cons, Prod.mk.injEq, List.not_mem_nil, or_false, true_and, Except.ok.injEq]
    constructor
    · intro h; exact .inl h.symm
    · rintro (h | ⟨h, -⟩ | ⟨h, -⟩)
      · exact h.symm
      · exact absurd h (by decide)
      · exact absurd h (by decide)
  · rw [if_neg h0]
    by_cases h1 : rstrip m = "DES".toList
    · rw [if_pos h1, h1]
      simp only [List.mem_cons, Prod.mk.injEq, List.not_mem_nil, or_false, true_and, Except.ok.injEq]
      constructor
      · intro h; exact .inr (.inl h.symm)
      · rintro (⟨h, -⟩ | h | ⟨h, -⟩)
        · exact absurd h (by decide)
        · exact h.symm
        · exact absurd h (by decide)
    · rw [if_neg h1]
      by_cases h2 : rstrip m = "LSST".toList
      · rw [if_pos h2, h2]
        simp only [List.mem_cons, Prod.mk.injEq, List.not_mem_nil, or_false, true_and, Except.ok.injEq]
        constructor
        · intro h; exact .inr (.inr h.symm)
        · rintro (⟨h, -⟩ | ⟨h, -⟩ | h)
          · exact absurd h (by decide)
          · exact absurd h (by decide)
          · exact h.symm
      · rw [if_neg h2]
        simp only [List.mem_cons, Prod.mk.injEq, List.not_mem_nil, or_false, h0, h1, h2, false_and, iff_false]
        intro h
        cases h

/-- **C267.** Statistics are taken only from files marked as describing FITS files whose mode, without trailing blanks, is one of the three known;
the mode that is set is the one of the name; all other files raise a ValueError. -/
theorem C267 (refmag : List Char) (f : File) :
    (∀ st, stats refmag f = .ok st → f.fits ≠ 0 ∧ (rstrip f.mode, st.mode) ∈ modes ∧ (st.pixelized = true ↔ f.pixels ≠ 0) ∧ st.nmag = f.nmag) ∧
    (f.fits = 0 ∨ (∀ k, (rstrip f.mode, k) ∉ modes) → stats refmag f = .error .value) := by
  have hv : (∀ k, (rstrip f.mode, k) ∉ modes) → surveyMode f.mode = .error .value := by
    intro h
    have hn : ∀ k, surveyMode f.mode ≠ .ok k := fun k hk => h k ((surveyMode_iff _ _).mp hk)
    unfold surveyMode at hn ⊢
    split_ifs with h0 h1 h2
    · exact absurd (if_pos h0) (hn 0)
    · exact absurd (by rw [if_neg h0, if_pos h1]) (hn 1)
    · exact absurd (by rw [if_neg h0, if_neg h1, if_pos h2]) (hn 2)
    · rfl
  constructor
  · intro st h
    unfold stats at h
    by_cases hf : f.fits = 0
    · rw [if_pos hf] at h; cases h
    rw [if_neg hf] at h
    cases hm : surveyMode f.mode with
    | error e => rw [hm] at h; simp at h
    | ok m =>
      have hmm := (surveyMode_iff _ _).mp hm
      by_cases hp : f.pixels = 0
      · rw [if_pos hp, hm] at h
        simp only at h
        split at h
        · cases h
        · cases h
          exact ⟨hf, hmm, by simp [hp], rfl⟩
      · rw [if_neg hp, hm] at h
        simp only at h
        split at h
        · cases h
        · split at h
          · cases h
          · cases h
            exact ⟨hf, hmm, by simp [hp], rfl⟩
  · rintro (h | h)
    · unfold stats
      rw [if_pos h]
    · unfold stats
      rw [hv h]
      split_ifs <;> rfl

/-- Non-vacuity: a mode with blanks, as FITS stores it. -/
example : surveyMode "DES       ".toList = .ok 1 ∧ surveyMode "des".toList = .error .value := by
  constructor <;> rfl

/-! ## C268: area -/

/-- **C268.** With an area in the configuration, the area used is within 0.001 of it, and exactly it if that of the file differs by more; without one it
is that of the file, and there is an exception exactly for a sub-region without depth map.  An exception is also raised exactly if truth or
spectroscopic redshifts are asked for and the file has none. -/
theorem C268_partial (file : ℚ) (depth sub : Bool) :
    (∀ a, ∃ u, area (some a) file depth sub = .ok u ∧ |u - a| ≤ 1 / 1000 ∧ (1 / 1000 < |a - file| → u = a)) ∧
    (area none file depth sub = .error .runtime ↔ depth = false ∧ sub = true) ∧
    (¬ (depth = false ∧ sub = true) → area none file depth sub = .ok file) ∧
    (∀ ht uz ft fz, truth ht uz ft fz = .error .runtime ↔ (ht = true ∧ ft = false) ∨ (uz = true ∧ fz = false)) := by
  refine ⟨fun a => ?_, ?_, ?_, ?_⟩
  · refine ⟨_, rfl, ?_, ?_⟩
    · split_ifs with h
      · simp
      · rw [abs_sub_comm]; exact not_lt.mp h
    · intro h; rw [if_pos h]
  · cases depth <;> cases sub <;> simp [area]
  · cases depth <;> cases sub <;> simp [area]
  · decide

/-- The wish: a configured area is the area that is used. -/
def C268_spec : Prop := ∀ (a file : ℚ) (depth sub : Bool), area (some a) file depth sub = .ok a

/-- **C268** is false: a configured area that differs by at most 0.001 is replaced by that of the file, even if the area itself is of that size. -/
theorem C268_false : ¬ C268_spec := by
  intro h
  have := h (1 / 2000) (1 / 1000) false false
  simp only [area] at this
  rw [if_neg (by norm_num [abs_of_neg])] at this
  norm_num at this

end Redmapper.GalStats
