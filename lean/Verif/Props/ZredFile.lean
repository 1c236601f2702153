/-
C431: the zreds of a pixel are read back with its galaxies.
-/
import Verif.Model.ZredFile
import Verif.Props.ClusCat
import Mathlib.Tactic

namespace Redmapper.ZredFile

open Redmapper.Catalog Redmapper.ClusCat

variable {V : Type} [Inhabited V]

/-- The columns of a zred file as they are read. -/
def zredNames : List String := ["zred", "zred_e", "zred2", "zred2_e", "zred_uncorr", "zred_uncorr_e", "zred_samp", "lkhd", "chisq"]

/-- What is used of `str.lower`: the columns of a zred file. -/
def LowerOK (lower : String → String) : Prop :=
  (["ZRED", "ZRED_E", "ZRED2", "ZRED2_E", "ZRED_UNCORR", "ZRED_UNCORR_E", "ZRED_SAMP", "LKHD", "CHISQ"].map lower) = zredNames

/-- What is used of `compute_zreds`: it changes cells only, and only those of the zred columns. -/
structure ComputeOK (compute : Tab V → Tab V) : Prop where
  wf : ∀ t, WF t → WF (compute t)
  names : ∀ t, (compute t).names = t.names
  size : ∀ t, (compute t).rows.length = t.rows.length
  other : ∀ t n, n ∉ zredNames → getCol (compute t) n = getCol t n

/-- The galaxies as they are handed to `compute_zreds`: names lower-cased, zeros in the zred columns they do not have. -/
def start (lower : String → String) (zero zeros : V) (gals : Tab V) : Tab V :=
  let miss := (zredDtype zero zeros).filter fun d => ¬ lower d.1 ∈ gals.names.map lower
  ⟨gals.names.map lower ++ cols lower miss, gals.zeros ++ miss.map Prod.snd, gals.rows.map fun r => r ++ miss.map Prod.snd⟩

theorem cols_zred (lower : String → String) (hl : LowerOK lower) (zero zeros : V) : cols lower (zredDtype zero zeros) = zredNames := by
  rw [← hl]; simp [cols, zredDtype]

theorem zredNames_nodup : zredNames.Nodup := by decide

theorem start_eq (lower : String → String) (hl : LowerOK lower) (zero zeros : V) (gals : Tab V) (hg : Good lower gals) :
    (match mkObject lower [gals] with
      | .error e => (.error e : Except Err (Tab V))
      | .ok t => addZred lower (zredDtype zero zeros) t) = .ok (start lower zero zeros gals) := by
  have h := catInit_eq (X := Unit) lower (zredDtype zero zeros) gals hg ⟨none, none, none, none, none, none, none⟩ none
    (by show (cols lower (zredDtype zero zeros)).Nodup; rw [cols_zred lower hl]; exact zredNames_nodup)
  simp only [targetDtype] at h
  unfold catInit at h
  cases hm : mkObject lower [gals] with
  | error e => rw [hm] at h; cases h
  | ok t =>
    rw [hm] at h
    simp only [addZred] at h ⊢
    by_cases ha : (augment lower (zredDtype zero zeros) t.names).length > 0
    · rw [if_pos ha]
      erw [if_pos ha] at h
      cases hf : addFields lower t ((augment lower (zredDtype zero zeros) t.names).map Prod.fst)
          ((augment lower (zredDtype zero zeros) t.names).map Prod.snd) with
      | error e => erw [hf] at h; cases h
      | ok t' => erw [hf] at h; simp only [Except.ok.injEq, CCat.mk.injEq, and_true] at h; rw [h]; rfl
    · rw [if_neg ha]
      erw [if_neg ha] at h
      simp only [Except.ok.injEq, CCat.mk.injEq, and_true] at h; rw [h]; rfl

theorem start_wf (lower : String → String) (hl : LowerOK lower) (zero zeros : V) (gals : Tab V) (hg : Good lower gals) :
    WF (start lower zero zeros gals) := by
  refine ⟨?_, ?_, ?_⟩
  · have hc : (cols lower (zredDtype zero zeros)).Nodup := by rw [cols_zred lower hl]; exact zredNames_nodup
    refine List.nodup_append.2 ⟨hg.low, ?_, ?_⟩
    · exact hc.sublist (List.filter_sublist.map _)
    · rintro a ha b hb rfl
      obtain ⟨d, hd, rfl⟩ := List.mem_map.1 hb
      have := (List.mem_filter.1 hd).2
      simp only [decide_not, Bool.not_eq_true', decide_eq_false_iff_not] at this
      exact this ha
  · simp [start, cols, hg.wf.zeros]
  · intro r hr
    obtain ⟨r', hr', rfl⟩ := List.mem_map.1 hr
    simp [start, cols, hg.wf.rows r' hr']

theorem start_mem (lower : String → String) (hl : LowerOK lower) (zero zeros : V) (gals : Tab V) (n : String) (hn : n ∈ zredNames) :
    n ∈ (start lower zero zeros gals).names := by
  rw [← cols_zred lower hl zero zeros] at hn
  obtain ⟨d, hd, rfl⟩ := List.mem_map.1 hn
  by_cases h : lower d.1 ∈ gals.names.map lower
  · exact List.mem_append_left _ h
  · exact List.mem_append_right _ (List.mem_map.2 ⟨d, List.mem_filter.2 ⟨hd, by simpa using h⟩, rfl⟩)

theorem cutLoop_spec (lower : String → String) (src : Tab V) (ns : List String) (z : Tab V) (hz : WF z)
    (h1 : ∀ n ∈ ns, lower n ∈ src.names) (h2 : ∀ n ∈ ns, n ∈ z.names) (hnd : ns.Nodup) (hlen : src.rows.length = z.rows.length) :
    ∃ z', cutLoop lower src ns z = .ok z' ∧ WF z' ∧ z'.names = z.names ∧ z'.zeros = z.zeros ∧ z'.rows.length = z.rows.length ∧
      (∀ n ∈ ns, getCol z' n = getCol src (lower n)) ∧ ∀ m, m ∉ ns → getCol z' m = getCol z m := by
  induction ns generalizing z with
  | nil => exact ⟨z, rfl, hz, rfl, rfl, rfl, by simp, fun _ _ => rfl⟩
  | cons n ns ih =>
    obtain ⟨hn, hnd'⟩ := List.nodup_cons.1 hnd
    have hs := getCol_eq (h1 n (by simp))
    obtain ⟨z1, e1, w1, n1, zz1, l1, g1, o1⟩ := setCol_spec hz (h2 n (by simp)) (vals := src.rows.map fun r => r.getD (src.names.idxOf (lower n)) default)
      (by simpa using hlen)
    obtain ⟨z', e, w, nn, zz, l, g, o⟩ := ih z1 w1 (fun m hm => h1 m (by simp [hm])) (fun m hm => by rw [n1]; exact h2 m (by simp [hm])) hnd' (by rw [l1]; exact hlen)
    refine ⟨z', ?_, w, by rw [nn, n1], by rw [zz, zz1], by rw [l, l1], ?_, ?_⟩
    · simp only [cutLoop, hs, e1, e]
    · intro m hm
      rcases List.mem_cons.1 hm with rfl | hm
      · rw [o m hn, g1, hs]
      · exact g m hm
    · intro m hm
      simp only [List.mem_cons, not_or] at hm
      rw [o m hm.2, o1 m hm.1]

/-- **C431, the file of a pixel.**  Whatever columns the galaxies have, the zred file of a pixel has the nine zred columns and a row for each galaxy of the
pixel, in their order, with the values that were computed for it. -/
theorem C431_file (lower : String → String) (hl : LowerOK lower) (zero zeros : V) (compute : Tab V → Tab V) (hc : ComputeOK compute)
    (gals : Tab V) (hg : Good lower gals) :
    ∃ zf, pixelFile lower (zredDtype zero zeros) compute gals = .ok zf ∧ WF zf ∧ zf.names.map lower = zredNames ∧ zf.rows.length = gals.rows.length ∧
      ∀ n ∈ zf.names, getCol zf n = getCol (compute (start lower zero zeros gals)) (lower n) := by
  have hs := start_eq lower hl zero zeros gals hg
  have hw := hc.wf _ (start_wf lower hl zero zeros gals hg)
  have hlen : (compute (start lower zero zeros gals)).rows.length = gals.rows.length := by rw [hc.size]; simp [start]
  have hnd : ((zredDtype zero zeros).map Prod.fst).Nodup := by simp [zredDtype]
  have hcols : ((zredDtype zero zeros).map Prod.fst).map lower = zredNames := by rw [← hl]; simp [zredDtype]
  set z : Tab V := ⟨(zredDtype zero zeros).map Prod.fst, (zredDtype zero zeros).map Prod.snd,
    List.replicate (compute (start lower zero zeros gals)).rows.length ((zredDtype zero zeros).map Prod.snd)⟩ with hz
  have hzw : WF z := ⟨hnd, by simp [hz], fun r hr => by rw [List.eq_of_mem_replicate hr]; simp [hz]⟩
  obtain ⟨zf, e, w, nn, _, l, g, _⟩ := cutLoop_spec lower (compute (start lower zero zeros gals)) ((zredDtype zero zeros).map Prod.fst) z hzw
    (fun n hn => by rw [hc.names]; exact start_mem lower hl zero zeros gals _ (by rw [← hcols]; exact List.mem_map_of_mem hn))
    (fun n hn => hn) hnd (by simp [hz])
  refine ⟨zf, ?_, w, by rw [nn]; exact hcols, by rw [l]; simp [hz, hlen], fun n hn => g n (by rw [nn] at hn; exact hn)⟩
  unfold pixelFile
  cases hm : mkObject lower [gals] with
  | error e' => rw [hm] at hs; cases hs
  | ok t =>
    rw [hm] at hs
    simp only at hs ⊢
    rw [hs]
    simp only [cut, npZeros, if_pos hnd]
    exact e

theorem readPixel_ok (lower : String → String) (gals zf : Tab V) (hg : Good lower gals) (hz : Good lower zf) (hlen : zf.rows.length = gals.rows.length)
    (hd : ∀ n ∈ zf.names.map lower, n ∉ gals.names.map lower) :
    ∃ cat, readPixel lower gals zf = .ok cat ∧ cat.names = gals.names.map lower ++ zf.names.map lower ∧ cat.rows.length = gals.rows.length ∧
      (∀ n ∈ gals.names, getCol cat (lower n) = getCol gals n) ∧ ∀ n ∈ zf.names, getCol cat (lower n) = getCol zf n := by
  have hnd : (gals.names.map lower ++ zf.names.map lower).Nodup := by
    refine List.nodup_append.2 ⟨hg.low, hz.low, ?_⟩
    rintro a ha b hb rfl; exact hd a hb ha
  set c0 : Tab V := ⟨gals.names.map lower ++ zf.names.map lower, gals.zeros ++ zf.zeros, List.replicate gals.rows.length (gals.zeros ++ zf.zeros)⟩ with hc0
  have hw : WF c0 := ⟨hnd, by simp [hc0, hg.wf.zeros, hz.wf.zeros], fun r hr => by rw [List.eq_of_mem_replicate hr]; simp [hc0, hg.wf.zeros, hz.wf.zeros]⟩
  obtain ⟨c1, e1, w1, n1, _, l1, g1, o1⟩ := copyCols_spec ({ gals with names := gals.names.map lower } : Tab V) (gals.names.map lower) c0 hw
    (fun n hn => hn) (fun n hn => List.mem_append_left _ hn) hg.low (by simp [hc0])
  obtain ⟨c2, e2, w2, n2, _, l2, g2, o2⟩ := copyCols_spec ({ zf with names := zf.names.map lower } : Tab V) (zf.names.map lower) c1 w1
    (fun n hn => hn) (fun n hn => by rw [n1]; exact List.mem_append_right _ hn) hz.low (by rw [l1]; simp [hc0, hlen])
  refine ⟨c2, ?_, by rw [n2, n1], by rw [l2, l1]; simp [hc0], ?_, ?_⟩
  · simp only [readPixel, lowerArray, if_pos hg.low, if_pos hz.low, npZeros, if_pos hnd]
    rw [← hc0, e1]; exact e2
  · intro n hn
    rw [o2 _ (fun h => hd _ h (List.mem_map_of_mem hn)), g1 _ (List.mem_map_of_mem hn), getCol_lower lower gals hg.low n hn]
  · intro n hn
    rw [g2 _ (List.mem_map_of_mem hn), getCol_lower lower zf hz.low n hn]

/-- **C431, partial: galaxies without zreds.**  The galaxies of a pixel read with its zred file have the columns of the galaxy file unchanged, and in the zred
columns what was computed for them. -/
theorem C431_partial (lower : String → String) (hl : LowerOK lower) (zero zeros : V) (compute : Tab V → Tab V) (hc : ComputeOK compute)
    (gals : Tab V) (hg : Good lower gals) (hno : ∀ n ∈ gals.names, lower n ∉ zredNames) :
    ∃ zf cat, pixelFile lower (zredDtype zero zeros) compute gals = .ok zf ∧ readPixel lower gals zf = .ok cat ∧
      cat.names = gals.names.map lower ++ zredNames ∧ cat.rows.length = gals.rows.length ∧
      (∀ n ∈ gals.names, getCol cat (lower n) = getCol gals n) ∧
      (∀ n ∈ gals.names, getCol cat (lower n) = getCol (compute (start lower zero zeros gals)) (lower n)) ∧
      ∀ n ∈ zredNames, getCol cat n = getCol (compute (start lower zero zeros gals)) n := by
  obtain ⟨zf, e, w, nn, l, g⟩ := C431_file lower hl zero zeros compute hc gals hg
  have hz : Good lower zf := ⟨w, by rw [nn]; exact zredNames_nodup⟩
  obtain ⟨cat, e2, n2, l2, g2, g3⟩ := readPixel_ok lower gals zf hg hz l (by
    rw [nn]; intro n hn hmem
    obtain ⟨m, hm, rfl⟩ := List.mem_map.1 hmem
    exact hno m hm hn)
  refine ⟨zf, cat, e, e2, by rw [n2, nn], l2, g2, ?_, ?_⟩
  · intro n hn
    rw [g2 n hn, hc.other _ _ (hno n hn)]
    have hlow : WF ({ gals with names := gals.names.map lower } : Tab V) := ⟨hg.low, by simp [hg.wf.zeros], fun r hr => by simpa using hg.wf.rows r hr⟩
    have := getCol_old ({ gals with names := gals.names.map lower } : Tab V) hlow
      (cols lower ((zredDtype zero zeros).filter fun d => ¬ lower d.1 ∈ gals.names.map lower))
      (((zredDtype zero zeros).filter fun d => ¬ lower d.1 ∈ gals.names.map lower).map Prod.snd) (lower n) (List.mem_map_of_mem hn)
    rw [← getCol_lower lower gals hg.low n hn]
    exact this.symm
  · intro n hn
    rw [← nn] at hn
    obtain ⟨m, hm, rfl⟩ := List.mem_map.1 hn
    rw [g3 m hm, g m hm]

/-- **C431, galaxies that have a zred column already.**  Their zred file is written, but reading the galaxies with it raises `ValueError`. -/
theorem C431_twice (lower : String → String) (hl : LowerOK lower) (zero zeros : V) (compute : Tab V → Tab V) (hc : ComputeOK compute)
    (gals : Tab V) (hg : Good lower gals) (h : ∃ n ∈ gals.names, lower n ∈ zredNames) :
    ∃ zf, pixelFile lower (zredDtype zero zeros) compute gals = .ok zf ∧ readPixel lower gals zf = .error .valueError := by
  obtain ⟨zf, e, w, nn, l, g⟩ := C431_file lower hl zero zeros compute hc gals hg
  refine ⟨zf, e, ?_⟩
  obtain ⟨n, hn, hz⟩ := h
  have hlow : (zf.names.map lower).Nodup := by rw [nn]; exact zredNames_nodup
  have hnd : ¬ (gals.names.map lower ++ zf.names.map lower).Nodup := by
    intro hh
    rw [nn] at hh
    exact (List.nodup_append.1 hh).2.2 _ (List.mem_map_of_mem hn) _ hz rfl
  simp only [readPixel, lowerArray, if_pos hg.low, if_pos hlow, npZeros, if_neg hnd]

theorem lowered_wf (lower : String → String) (a : Tab V) (ha : Good lower a) : WF ({ a with names := a.names.map lower } : Tab V) :=
  ⟨ha.low, by simp [ha.wf.zeros], fun r hr => by simpa using ha.wf.rows r hr⟩

/-- **C431, galaxy files that are not pixelated.**  Read with a file of zreds that has as many rows, the galaxies have their own columns and the zreds of their
rows; with another number of rows, or with a column in both files, reading raises `ValueError`. -/
theorem C431_whole (lower : String → String) (gals zf : Tab V) (hg : Good lower gals) (hz : Good lower zf) :
    (zf.rows.length = gals.rows.length → (∀ n ∈ gals.names, ∀ m ∈ zf.names, lower n ≠ lower m) →
      ∃ cat, readWhole lower gals zf = .ok cat ∧ cat.names = gals.names.map lower ++ zf.names.map lower ∧ cat.rows.length = gals.rows.length ∧
        (∀ n ∈ gals.names, getCol cat (lower n) = getCol gals n) ∧ ∀ n ∈ zf.names, getCol cat (lower n) = getCol zf n) ∧
    (zf.rows.length ≠ gals.rows.length ∨ (∃ n ∈ gals.names, ∃ m ∈ zf.names, lower n = lower m) → readWhole lower gals zf = .error .valueError) := by
  have hmk : mkObject lower [gals, zf] = mergeArrays [{ gals with names := gals.names.map lower }, { zf with names := zf.names.map lower }] := by
    simp only [mkObject, lowerAll, lowerArray, if_pos hg.low, if_pos hz.low]
  have hspec := mergeArrays_spec [({ gals with names := gals.names.map lower } : Tab V), { zf with names := zf.names.map lower }] (by simp)
    (by
      intro a ha
      simp only [List.mem_cons, List.not_mem_nil, or_false] at ha
      rcases ha with rfl | rfl
      · exact lowered_wf lower gals hg
      · exact lowered_wf lower zf hz)
  simp only [List.flatMap_cons, List.flatMap_nil, List.append_nil] at hspec
  constructor
  · intro hlen hdis
    have hnd : (gals.names.map lower ++ zf.names.map lower).Nodup := by
      refine List.nodup_append.2 ⟨hg.low, hz.low, ?_⟩
      intro a ha b hb
      obtain ⟨n, hn, rfl⟩ := List.mem_map.1 ha
      obtain ⟨m, hm, rfl⟩ := List.mem_map.1 hb
      exact hdis n hn m hm
    obtain ⟨cat, e, _, nn, _, l, g⟩ := hspec.1 ⟨by simp [hlen], hnd⟩
    refine ⟨cat, ?_, nn, l { gals with names := gals.names.map lower } (List.mem_cons_self ..), ?_, ?_⟩
    · unfold readWhole
      rw [if_neg (not_not.2 hlen), hmk, e]
    · intro n hn
      rw [g _ (List.mem_cons_self ..) (lower n) (List.mem_map_of_mem hn), getCol_lower lower gals hg.low n hn]
    · intro n hn
      rw [g _ (List.mem_cons_of_mem _ (List.mem_cons_self ..)) (lower n) (List.mem_map_of_mem hn), getCol_lower lower zf hz.low n hn]
  · intro h
    unfold readWhole
    by_cases hlen : zf.rows.length = gals.rows.length
    · rw [if_neg (not_not.2 hlen), hmk]
      obtain ⟨n, hn, m, hm, e⟩ := h.resolve_left (not_not.2 hlen)
      refine hspec.2 fun hh => ?_
      exact (List.nodup_append.1 hh.2).2.2 _ (List.mem_map_of_mem hn) _ (List.mem_map_of_mem hm) e
    · rw [if_pos hlen]

/-! ### The hypotheses are met -/

/-- A lower-casing of the names that occur below. -/
def toyLower (s : String) : String := ((["ZRED", "ZRED_E", "ZRED2", "ZRED2_E", "ZRED_UNCORR", "ZRED_UNCORR_E", "ZRED_SAMP", "LKHD", "CHISQ", "ID", "REFMAG"].zip
  (zredNames ++ ["id", "refmag"])).find? fun p => p.1 = s).elim s Prod.snd

/-- A computation that sets `zred` to twice the second column. -/
def toyCompute (t : Tab ℤ) : Tab ℤ :=
  if "zred" ∈ t.names ∧ t.names.Nodup then { t with rows := t.rows.map fun r => r.set (t.names.idxOf "zred") (2 * r.getD 1 0) } else t

theorem toyCompute_ok : ComputeOK toyCompute := by
  refine ⟨?_, ?_, ?_, ?_⟩
  · intro t ht
    unfold toyCompute; split
    · exact ⟨ht.nodup, ht.zeros, fun r hr => by obtain ⟨r', h', rfl⟩ := List.mem_map.1 hr; simpa using ht.rows r' h'⟩
    · exact ht
  · intro t; unfold toyCompute; split <;> rfl
  · intro t; unfold toyCompute; split <;> simp
  · intro t n hn
    unfold toyCompute; split
    · rename_i h
      by_cases hm : n ∈ t.names
      · have hne : n ≠ "zred" := by rintro rfl; exact hn (by decide)
        rw [getCol_eq hm, getCol_eq (t := { t with rows := t.rows.map fun r => r.set (t.names.idxOf "zred") (2 * r.getD 1 0) }) hm]
        simp only [List.map_map, Option.some.injEq]
        apply List.map_congr_left
        intro r _
        have : t.names.idxOf "zred" ≠ t.names.idxOf n := fun e => hne ((List.idxOf_inj hm).1 e.symm)
        simp [List.getD_eq_getElem?_getD, List.getElem?_set_ne this]
      · rw [getCol_none hm, getCol_none (t := { t with rows := t.rows.map fun r => r.set (t.names.idxOf "zred") (2 * r.getD 1 0) }) hm]
    · rfl

/-- Three galaxies with an identifier and a magnitude. -/
def toyGals : Tab ℤ := ⟨["ID", "REFMAG"], [0, 0], [[1, 17], [2, 18], [3, 19]]⟩

example : ∃ zf cat, pixelFile toyLower (zredDtype 0 0) toyCompute toyGals = .ok zf ∧ readPixel toyLower toyGals zf = .ok cat ∧
    getCol cat "id" = some [1, 2, 3] ∧ getCol cat "zred" = some [34, 36, 38] := by
  obtain ⟨zf, cat, h1, h2, _, _, h5, _, h7⟩ := C431_partial toyLower (by unfold LowerOK; decide +kernel) 0 0 toyCompute toyCompute_ok toyGals
    ⟨⟨by decide +kernel, by decide +kernel, by decide +kernel⟩, by decide +kernel⟩ (by decide +kernel)
  refine ⟨zf, cat, h1, h2, ?_, ?_⟩
  · have := h5 "ID" (by decide); rw [show toyLower "ID" = "id" by decide +kernel] at this; rw [this]; decide +kernel
  · rw [h7 "zred" (by decide)]; decide +kernel

example : ∃ cat, readWhole toyLower toyGals ⟨["ZRED", "CHISQ"], [0, 0], [[5, 1], [6, 2], [7, 3]]⟩ = .ok cat ∧ getCol cat "refmag" = some [17, 18, 19] ∧
    getCol cat "zred" = some [5, 6, 7] := by
  obtain ⟨cat, h1, _, _, h4, h5⟩ := (C431_whole toyLower toyGals ⟨["ZRED", "CHISQ"], [0, 0], [[5, 1], [6, 2], [7, 3]]⟩
    ⟨⟨by decide +kernel, by decide +kernel, by decide +kernel⟩, by decide +kernel⟩
    ⟨⟨by decide +kernel, by decide +kernel, by decide +kernel⟩, by decide +kernel⟩).1 (by decide) (by decide +kernel)
  refine ⟨cat, h1, ?_, ?_⟩
  · have := h4 "REFMAG" (by decide); rw [show toyLower "REFMAG" = "refmag" by decide +kernel] at this; rw [this]; decide +kernel
  · have := h5 "ZRED" (by decide); rw [show toyLower "ZRED" = "zred" by decide +kernel] at this; rw [this]; decide +kernel

/-- What one would like: the zreds of any galaxies can be read with them. -/
def C431_spec (V : Type) [Inhabited V] (lower : String → String) (zero zeros : V) : Prop :=
  ∀ (compute : Tab V → Tab V) (gals zf : Tab V), ComputeOK compute → Good lower gals →
    pixelFile lower (zredDtype zero zeros) compute gals = .ok zf → ∃ cat, readPixel lower gals zf = .ok cat

/-- **C431 is false** for galaxies that come with a column `chisq`. -/
theorem C431_false : ¬ C431_spec ℤ toyLower 0 0 := by
  intro h
  have hg : Good toyLower (⟨["ID", "CHISQ"], [0, 0], [[1, 5], [2, 6]]⟩ : Tab ℤ) := ⟨⟨by decide +kernel, by decide +kernel, by decide +kernel⟩, by decide +kernel⟩
  obtain ⟨zf, h1, h2⟩ := C431_twice toyLower (by unfold LowerOK; decide +kernel) 0 0 toyCompute toyCompute_ok _ hg ⟨"CHISQ", by decide, by decide +kernel⟩
  obtain ⟨cat, h3⟩ := h toyCompute _ zf toyCompute_ok hg h1
  rw [h2] at h3; cases h3

end Redmapper.ZredFile
