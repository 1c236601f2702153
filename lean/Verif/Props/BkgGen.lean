/-
Properties C199-C206: tables and files of the background generators.
-/
import Verif.Model.BkgGen
import Verif.Props.Utilities
import Mathlib.Analysis.Complex.ExponentialBounds
import Mathlib.Tactic.Linarith
import Mathlib.Tactic.FieldSimp
import Mathlib.Tactic.Positivity
import Mathlib.Tactic.NormNum

set_option linter.unusedSectionVars false
set_option linter.unusedSimpArgs false

namespace Redmapper.BkgGen

open Redmapper.Utilities (cic Sample InGrid AwayFromBorder)

/-! ## C199: the background file -/

section files
variable {T : Type}

theorem readExt_run (r : Run T) (file : Option (List (Kind × T))) (hc : r.clobber = false) (k : Kind) :
    readExt k (runGen r file) = (readExt k file).or (if r.kind = k then some r.data else none) := by
  rcases file with _ | exts
  · by_cases h : r.kind = k <;> simp [runGen, readExt, h, List.find?]
  · simp only [runGen, hc, Bool.false_eq_true, if_false]
    by_cases ha : exts.any fun e => decide (e.1 = r.kind)
    · rw [if_pos ha]
      by_cases h : r.kind = k
      · rw [h] at ha
        obtain ⟨e, he, hek⟩ := List.any_eq_true.mp ha
        have : (exts.find? fun e => decide (e.1 = k)).isSome := by
          rw [List.find?_isSome]; exact ⟨e, he, hek⟩
        obtain ⟨v, hv⟩ := Option.isSome_iff_exists.mp this
        simp [readExt, hv]
      · simp [h]
    · rw [if_neg ha]
      simp only [readExt, Option.bind_some, List.find?_append]
      by_cases h : r.kind = k
      · cases hf : exts.find? fun e => decide (e.1 = k) <;> simp [h, List.find?]
      · cases hf : exts.find? fun e => decide (e.1 = k) <;> simp [h, List.find?]

/-- For any history of runs that do not replace files, from any file: a table that was there is what it was, and a table that was not is
the one of the first run of its generator. -/
theorem C199_first_kept_partial (rs : List (Run T)) (hc : ∀ r ∈ rs, r.clobber = false) (file : Option (List (Kind × T))) (k : Kind) :
    readExt k (rs.foldl (fun f r => runGen r f) file) =
      (readExt k file).or ((rs.find? fun r => decide (r.kind = k)).map Run.data) := by
  induction rs generalizing file with
  | nil => simp
  | cons r rest ih =>
    rw [List.foldl_cons, ih (fun x hx => hc x (List.mem_cons_of_mem _ hx)), readExt_run r file (hc r (by simp)) k]
    by_cases h : r.kind = k
    · cases readExt k file <;> simp [List.find?, h]
    · cases readExt k file <;> simp [List.find?, h]

/-- No run adds a second table of a name. -/
theorem C199_no_duplicates (rs : List (Run T)) (file : Option (List (Kind × T)))
    (h0 : ∀ exts, file = some exts → (exts.map Prod.fst).Nodup) :
    ∀ exts, rs.foldl (fun f r => runGen r f) file = some exts → (exts.map Prod.fst).Nodup := by
  induction rs generalizing file with
  | nil => exact h0
  | cons r rest ih =>
    rw [List.foldl_cons]
    apply ih
    intro exts he
    rcases file with _ | old
    · simp [runGen] at he; subst he; simp
    · simp only [runGen] at he
      split at he
      · cases he; simp
      · split at he
        · cases he; exact h0 _ rfl
        · rename_i hn
          cases he
          rw [List.map_append, List.nodup_append]
          refine ⟨h0 _ rfl, by simp, ?_⟩
          intro a ha b hb hab
          simp at hb
          subst hb hab
          obtain ⟨e, he, hek⟩ := List.mem_map.mp ha
          apply hn
          rw [List.any_eq_true]
          exact ⟨e, he, by simpa using hek⟩

/-- A run that replaces files destroys the table of the other generator, whatever the file. -/
theorem C199_other_table_kept_false (r : Run T) (hr : r.clobber = true) (k : Kind) (hk : k ≠ r.kind) (file : Option (List (Kind × T))) :
    readExt k (runGen r file) = none := by
  rcases file with _ | exts <;> simp [runGen, readExt, hr, List.find?, Ne.symm hk]

/-- A run always leaves its table, and one that replaces leaves the new data. -/
theorem C199_written (r : Run T) (file : Option (List (Kind × T))) :
    (readExt r.kind (runGen r file)).isSome ∧ (r.clobber = true → readExt r.kind (runGen r file) = some r.data) := by
  refine ⟨?_, ?_⟩
  · cases hc : r.clobber
    · rw [readExt_run r file hc]; cases readExt r.kind file <;> simp
    · rcases file with _ | exts <;> simp [runGen, readExt, hc, List.find?]
  · intro hc
    rcases file with _ | exts <;> simp [runGen, readExt, hc, List.find?]

example : readExt Kind.zred ([⟨.chisq, false, 1⟩, ⟨.zred, false, 2⟩, ⟨.zred, false, 3⟩].foldl (fun f r => runGen r f) none) = some 2 := by
  decide

example : readExt Kind.zred ([⟨.chisq, false, 1⟩, ⟨.zred, false, 2⟩, ⟨.chisq, true, 3⟩].foldl (fun f r => runGen r f) none) = none := by
  decide

/-! ## C200: the file of the color background -/

theorem mem_pairs (n : Nat) (p : Nat × Nat) : p ∈ pairs n ↔ p.1 ≤ p.2 ∧ p.2 < n := by
  obtain ⟨i, j⟩ := p
  simp only [pairs, List.mem_flatMap, List.mem_range, List.mem_map, List.mem_range'_1, Prod.mk.injEq]
  constructor
  · rintro ⟨a, ha, b, hb, rfl, rfl⟩; omega
  · rintro ⟨h1, h2⟩; exact ⟨i, by omega, j, by omega, rfl, rfl⟩

theorem pairs_nodup (n : Nat) : (pairs n).Nodup := by
  unfold pairs
  rw [List.nodup_flatMap]
  refine ⟨?_, ?_⟩
  · intro i _
    rw [List.nodup_map_iff (by intro a b h; exact (Prod.mk.inj h).2)]
    exact List.nodup_range'
  · have : (List.range n).Pairwise (· ≠ ·) := List.nodup_range
    apply this.imp
    intro a b hab
    simp only [Function.onFun, List.disjoint_left, List.mem_map]
    rintro p ⟨j, _, rfl⟩ ⟨j', _, h⟩
    exact hab (Prod.mk.inj h).1.symm

theorem pairs_head (n : Nat) (hn : 0 < n) : ∃ t, pairs n = (0, 0) :: t := by
  obtain ⟨m, rfl⟩ : ∃ m, n = m + 1 := ⟨n - 1, by omega⟩
  simp [pairs, List.range_succ_eq_map, List.range'_succ]

theorem fold_write (data : Nat × Nat → T) (l : List (Nat × Nat)) (h : (0, 0) ∉ l) (exts : List ((Nat × Nat) × T)) :
    l.foldl (fun f p => writePair data p f) (some exts) = some (exts ++ l.map fun p => (p, data p)) := by
  induction l generalizing exts with
  | nil => simp
  | cons p rest ih =>
    have hp : ¬ (p.1 = 0 ∧ p.2 = 0) := by
      rintro ⟨a, b⟩; apply h; obtain ⟨x, y⟩ := p; simp at a b; subst a b; simp
    rw [List.foldl_cons]
    have : writePair data p (some exts) = some (exts ++ [(p, data p)]) := by simp only [writePair]; rw [if_neg hp]
    rw [this, ih (fun hh => h (List.mem_cons_of_mem _ hh))]
    simp

theorem run_take (data : Nat × Nat → T) (n : Nat) (hn : 0 < n) (k : Nat) (hk : 0 < k) (file : Option (List ((Nat × Nat) × T))) :
    ((pairs n).take k).foldl (fun f p => writePair data p f) file = some (((pairs n).take k).map fun p => (p, data p)) := by
  obtain ⟨t, ht⟩ := pairs_head n hn
  obtain ⟨k', rfl⟩ : ∃ m, k = m + 1 := ⟨k - 1, by omega⟩
  have hnd := pairs_nodup n
  rw [ht] at hnd ⊢
  rw [List.take_succ_cons, List.foldl_cons]
  have h00 : writePair data (0, 0) file = some [((0, 0), data (0, 0))] := by simp [writePair]
  rw [h00, fold_write data _ (fun hm => (List.nodup_cons.mp hnd).1 (List.mem_of_mem_take hm))]
  simp

/-- A run that is not interrupted, on no file or told to replace it, leaves the table of every pair of colors exactly once, whatever the
file before, and nothing else. -/
theorem C200_complete_partial (ncol : Nat) (hn : 0 < ncol) (clobber : Bool) (data : Nat × Nat → T) (file : Option (List ((Nat × Nat) × T)))
    (h : clobber = true ∨ file = none) :
    ∃ exts, runColor ncol clobber none data file = some exts ∧ (exts.map Prod.fst).Nodup ∧
      ∀ i j v, ((i, j), v) ∈ exts ↔ (i ≤ j ∧ j < ncol) ∧ v = data (i, j) := by
  have hrun : runColor ncol clobber none data file = (pairs ncol).foldl (fun f p => writePair data p f) file := by
    unfold runColor
    rcases h with h | h <;> simp [h]
  have htake : (pairs ncol).take ((pairs ncol).length) = pairs ncol := List.take_length
  have hpos : 0 < (pairs ncol).length := by obtain ⟨t, ht⟩ := pairs_head ncol hn; rw [ht]; simp
  have := run_take data ncol hn (pairs ncol).length hpos file
  rw [htake] at this
  refine ⟨_, hrun.trans this, ?_, ?_⟩
  · rw [List.map_map]
    have e : (Prod.fst ∘ fun p => (p, data p)) = id := rfl
    rw [e, List.map_id]
    exact pairs_nodup ncol
  · intro i j v
    simp only [List.mem_map, mem_pairs, Prod.mk.injEq]
    constructor
    · rintro ⟨p, hp, rfl, rfl⟩; exact ⟨hp, rfl⟩
    · rintro ⟨hp, rfl⟩; exact ⟨(i, j), hp, rfl, rfl⟩

/-- A run that is interrupted after some of the writes leaves a file that misses a pair, and every later run that is not told to replace
the file accepts it as it is. -/
theorem C200_interrupted_false (ncol : Nat) (n : Nat) (hn : 0 < n) (hlt : n < (pairs ncol).length) (clobber : Bool)
    (data : Nat × Nat → T) :
    ∃ exts, runColor ncol clobber (some n) data none = some exts ∧
      (∀ (later : List (Nat × Nat → T)), later.foldl (fun f d => runColor ncol false none d f) (some exts) = some exts) ∧
      ∃ i j, (i ≤ j ∧ j < ncol) ∧ ∀ v, ((i, j), v) ∉ exts := by
  have hncol : 0 < ncol := by
    rcases Nat.eq_zero_or_pos ncol with h | h
    · subst h; simp [pairs] at hlt
    · exact h
  have hrun : runColor ncol clobber (some n) data none = ((pairs ncol).take n).foldl (fun f p => writePair data p f) none := by
    unfold runColor; simp
  refine ⟨_, hrun.trans (run_take data ncol hncol n hn none), ?_, ?_⟩
  · intro later
    induction later with
    | nil => rfl
    | cons d rest ih => rw [List.foldl_cons]; exact ih
  · have hm := mem_pairs ncol ((pairs ncol)[n])
    refine ⟨((pairs ncol)[n]).1, ((pairs ncol)[n]).2, hm.mp (List.getElem_mem _), ?_⟩
    intro v hv
    simp only [List.mem_map, Prod.mk.injEq] at hv
    obtain ⟨p, hp, hpe, _⟩ := hv
    rw [List.mem_take_iff_getElem] at hp
    obtain ⟨m, hm1, hm2⟩ := hp
    have : (pairs ncol)[m] = (pairs ncol)[n] := by rw [hm2]; exact hpe
    have := (List.Nodup.getElem_inj_iff (pairs_nodup ncol)).mp this
    omega

example : (pairs 3).length = 6 := by decide

example : runColor 2 false (some 2) (fun p => p.1 + p.2) none = some [((0, 0), 0), ((0, 1), 1)] := by decide
end files

variable {α : Type} [Field α] [LinearOrder α] [IsStrictOrderedRing α]

/-! ## C201: galaxies in the table of redshifts -/

theorem fill_spec (maxchisq : α) (good : α × α → Bool) (hbad : good (-1, 0) = false) (pixels : List (Nat × List (ZGal α)))
    (hn : ∀ p ∈ pixels, p.2.length ≤ p.1) (filled : List (α × α)) (total : Nat)
    (ht : total = filled.length + (pixels.map Prod.fst).sum) :
    (fillPixels maxchisq total pixels filled.length
        (filled ++ List.replicate (pixels.map Prod.fst).sum (-1, 0))).filter good =
      filled.filter good ++ (((pixels.flatMap Prod.snd).filter fun g => decide (g.chisq < maxchisq)).map
        fun g => (g.zred, g.refmag)).filter good := by
  induction pixels generalizing filled with
  | nil => simp [fillPixels]
  | cons p rest ih =>
    obtain ⟨n, gals⟩ := p
    have hlen : gals.length ≤ n := hn (n, gals) (by simp)
    simp only [List.map_cons, List.sum_cons] at ht
    have hrest : ∀ p ∈ rest, p.2.length ≤ p.1 := fun p hp => hn p (List.mem_cons_of_mem _ hp)
    unfold fillPixels
    by_cases hlt : filled.length < total
    · rw [if_pos hlt]
      by_cases h0 : n = 0
      · rw [if_pos h0]
        subst h0
        have hg : gals = [] := List.length_eq_zero_iff.mp (by omega)
        subst hg
        have := ih hrest filled (by omega)
        simpa using this
      · rw [if_neg h0]
        set use := gals.filter fun g => decide (g.chisq < maxchisq) with hu
        have hul : use.length ≤ n := le_trans (List.length_filter_le _ _) hlen
        have hnew := ih hrest (filled ++ use.map (fun g => (g.zred, g.refmag)) ++ List.replicate (n - use.length) (-1, 0)) (by
          simp; omega)
        have hl : (filled ++ use.map (fun g => (g.zred, g.refmag)) ++ List.replicate (n - use.length) ((-1 : α), (0 : α))).length =
            filled.length + n := by simp; omega
        rw [hl] at hnew
        have harr : List.take filled.length (filled ++ List.replicate (n + (rest.map Prod.fst).sum) ((-1 : α), (0 : α))) ++
              List.map (fun g => (g.zred, g.refmag)) use ++
              List.drop (filled.length + use.length) (filled ++ List.replicate (n + (rest.map Prod.fst).sum) ((-1 : α), (0 : α))) =
            filled ++ use.map (fun g => (g.zred, g.refmag)) ++ List.replicate (n - use.length) (-1, 0) ++
              List.replicate (rest.map Prod.fst).sum (-1, 0) := by
          rw [List.take_left, List.drop_append, List.drop_eq_nil_of_le (by omega)]
          simp only [List.nil_append, List.drop_replicate, List.append_assoc, List.append_cancel_left_eq]
          rw [List.replicate_append_replicate]
          congr 2
          omega
        simp only [List.map_cons, List.sum_cons]
        rw [harr, hnew]
        rw [List.filter_append, List.filter_append, List.filter_replicate, hbad]
        simp only [Bool.false_eq_true, if_false, List.append_nil, List.flatMap_cons, List.filter_append, List.map_append,
          List.append_assoc]
        rfl
    · rw [if_neg hlt]
      have hz : n + (rest.map Prod.fst).sum = 0 := by omega
      have hall : ∀ p ∈ (n, gals) :: rest, p.2 = [] := by
        intro p hp
        have h1 := hn p hp
        have h2 : p.1 ≤ (((n, gals) :: rest).map Prod.fst).sum := List.single_le_sum (by intros; omega) _ (List.mem_map_of_mem hp)
        simp only [List.map_cons, List.sum_cons] at h2
        exact List.length_eq_zero_iff.mp (by omega)
      have : ((n, gals) :: rest).flatMap Prod.snd = [] := by
        rw [List.flatMap_eq_nil_iff]; exact hall
      rw [this]
      simp only [List.map_cons, List.sum_cons, hz]
      simp

/-- If no pixel has more galaxies in its file than the master table says, the galaxies counted are exactly those of the files with
chi-squared below the limit, redshift in the range and magnitude inside the limits, each once and in order. -/
theorem C201_counted (maxchisq limmag : α) (zr : α × α) (pixels : List (Nat × List (ZGal α))) (hn : ∀ p ∈ pixels, p.2.length ≤ p.1) :
    zredCounted maxchisq limmag zr pixels =
      ((pixels.flatMap Prod.snd).filter fun g =>
        decide (g.chisq < maxchisq ∧ zr.1 ≤ g.zred ∧ g.zred < zr.2 ∧ 12 < g.refmag ∧ g.refmag < limmag)).map
        fun g => (g.zred, g.refmag) := by
  have hbad : (fun r : α × α => decide (r.1 ≥ zr.1) && decide (r.1 < zr.2) && decide (r.2 > 12) && decide (r.2 < limmag)) (-1, 0) = false := by
    have : ¬ ((0 : α) > 12) := by norm_num
    simp [this]
  have := fill_spec maxchisq (fun r : α × α => decide (r.1 ≥ zr.1) && decide (r.1 < zr.2) && decide (r.2 > 12) && decide (r.2 < limmag))
    hbad pixels hn [] ((pixels.map Prod.fst).sum) (by simp)
  simp only [List.length_nil, List.nil_append, List.filter_nil] at this
  unfold zredCounted
  simp only
  rw [this, List.filter_map, List.filter_filter]
  congr 1
  apply List.filter_congr
  intro g _
  simp only [Function.comp_apply, ge_iff_le, gt_iff_lt]
  rw [Bool.eq_iff_iff]
  simp only [Bool.and_eq_true, decide_eq_true_eq]
  tauto

example : zredCounted (20 : ℚ) 21 (1 / 10, 6 / 10) [(2, [⟨18, 3 / 10, 5⟩, ⟨19, 4 / 10, 50⟩]), (0, []), (1, [⟨20, 5 / 10, 3⟩])] =
    [(3 / 10, 18), (5 / 10, 20)] := by decide +kernel

/-- Files with galaxies that the master table says are empty are skipped: the galaxies are missing without an error. -/
theorem C201_master_zero (maxchisq limmag : α) (zr : α × α) (gals : List (ZGal α)) :
    zredCounted maxchisq limmag zr [(0, gals)] = [] := by
  simp [zredCounted, fillPixels]

/-! ## C202: bins of the table and of the look-up -/

variable [FloorRing α]

theorem nbins_pos (r : α × α) (bs : α) (hr : r.1 < r.2) (hb : 0 < bs) : 0 < nbins r bs := by
  have : 0 < ⌈(r.2 - r.1) / bs⌉ := Int.ceil_pos.mpr (div_pos (by linarith) hb)
  unfold nbins; omega

theorem nbins_ceil (r : α × α) (bs : α) (hr : r.1 < r.2) (hb : 0 < bs) :
    ((nbins r bs : Nat) : α) - 1 < (r.2 - r.1) / bs ∧ (r.2 - r.1) / bs ≤ (nbins r bs : α) := by
  have h0 : 0 < ⌈(r.2 - r.1) / bs⌉ := Int.ceil_pos.mpr (div_pos (by linarith) hb)
  have e : ((nbins r bs : Nat) : α) = ((⌈(r.2 - r.1) / bs⌉ : Int) : α) := by
    unfold nbins
    have : ((⌈(r.2 - r.1) / bs⌉.toNat : Int) : α) = ((⌈(r.2 - r.1) / bs⌉ : Int) : α) := by rw [Int.toNat_of_nonneg h0.le]
    rw [← this]; norm_cast
  rw [e]
  exact ⟨by have := Int.ceil_lt_add_one ((r.2 - r.1) / bs); linarith, Int.le_ceil _⟩

theorem pos_range (r : α × α) (bs x : α) (hr : r.1 < r.2) (hb : 0 < bs) (h0 : r.1 ≤ x) (h1 : x < r.2) :
    0 ≤ pos r bs x ∧ pos r bs x < nbins r bs := by
  have hn : (0 : α) < nbins r bs := by exact_mod_cast nbins_pos r bs hr hb
  have hw : 0 < r.2 - r.1 := by linarith
  refine ⟨div_nonneg (mul_nonneg (by linarith) hn.le) hw.le, ?_⟩
  rw [pos, div_lt_iff₀ hw]
  nlinarith

theorem edges_get (r : α × α) (bs : α) (k : Nat) (hk : k < nbins r bs) : (edges r bs)[k]? = some ((k : α) * bs + r.1) := by
  simp [edges, hk]

/-- If the range is a whole number of bins, the cell in which a value is counted is the bin of the table that contains it. -/
theorem C202_same_bin_partial (r : α × α) (bs x : α) (hb : 0 < bs) (m : Nat) (hm : r.2 - r.1 = m * bs) (h0 : r.1 ≤ x) (h1 : x < r.2) :
    0 ≤ ⌊pos r bs x⌋ ∧ ∃ e, (edges r bs)[⌊pos r bs x⌋.toNat]? = some e ∧ e ≤ x ∧ x < e + bs := by
  have hr : r.1 < r.2 := by linarith
  have hn : nbins r bs = m := by
    unfold nbins
    rw [hm, mul_div_assoc, div_self hb.ne', mul_one]
    simp
  obtain ⟨hp0, hp1⟩ := pos_range r bs x hr hb h0 h1
  have hf0 : 0 ≤ ⌊pos r bs x⌋ := Int.floor_nonneg.mpr hp0
  have hf1 : ⌊pos r bs x⌋ < nbins r bs := Int.floor_lt.mpr (by exact_mod_cast hp1)
  have hmpos : (0 : α) < m := by
    have := nbins_pos r bs hr hb
    rw [hn] at this; exact_mod_cast this
  have hpos : pos r bs x = (x - r.1) / bs := by
    unfold pos
    rw [hn, hm]
    field_simp
  refine ⟨hf0, _, edges_get r bs _ (by omega), ?_⟩
  have hc : ((⌊pos r bs x⌋.toNat : Nat) : α) = ((⌊pos r bs x⌋ : Int) : α) := by
    have : ((⌊pos r bs x⌋.toNat : Int) : α) = ((⌊pos r bs x⌋ : Int) : α) := by rw [Int.toNat_of_nonneg hf0]
    rw [← this]; norm_cast
  rw [hc]
  have ha := Int.floor_le (pos r bs x)
  have hb' := Int.lt_floor_add_one (pos r bs x)
  rw [hpos] at ha hb' ⊢
  rw [le_div_iff₀ hb] at ha
  rw [div_lt_iff₀ hb] at hb'
  constructor <;> nlinarith

example : ∃ m : Nat, ((24 : ℚ) - 12) = m * (1 / 10) := ⟨120, by norm_num⟩

/-- If it is not, there is a value inside the range that is counted in the second cell although it lies in the first bin. -/
theorem C202_bin_false (r : α × α) (bs : α) (hr : r.1 < r.2) (hb : 0 < bs) (h2 : 2 ≤ nbins r bs)
    (hne : r.2 - r.1 ≠ nbins r bs * bs) :
    ∃ x, r.1 ≤ x ∧ x < r.2 ∧ ⌊pos r bs x⌋ = 1 ∧ x < r.1 + bs := by
  have hw : 0 < r.2 - r.1 := by linarith
  have h2' : (2 : α) ≤ nbins r bs := by exact_mod_cast h2
  have hn : (0 : α) < nbins r bs := by linarith
  have hle : r.2 - r.1 ≤ nbins r bs * bs := by
    have := (nbins_ceil r bs hr hb).2
    rwa [div_le_iff₀ hb] at this
  have hlt : r.2 - r.1 < nbins r bs * bs := lt_of_le_of_ne hle hne
  refine ⟨r.1 + (r.2 - r.1) / nbins r bs, ?_, ?_, ?_, ?_⟩
  · have := div_pos hw hn; linarith
  · have : (r.2 - r.1) / nbins r bs < r.2 - r.1 := by rw [div_lt_iff₀ hn]; nlinarith
    linarith
  · have : pos r bs (r.1 + (r.2 - r.1) / nbins r bs) = 1 := by
      unfold pos
      rw [add_sub_cancel_left, div_mul_cancel₀ _ hn.ne', div_self hw.ne']
    rw [this]; simp
  · have : (r.2 - r.1) / nbins r bs < bs := by rw [div_lt_iff₀ hn]; linarith
    linarith

example : nbins ((12 : ℚ), 1225 / 100) (1 / 10) = 3 := by decide +kernel

/-- Whatever the range, a value inside it is counted in a cell of the table whose bin starts below or one of the bins after the one
that contains it: never in an earlier one. -/
theorem C202_not_earlier (r : α × α) (bs x : α) (hr : r.1 < r.2) (hb : 0 < bs) (h0 : r.1 ≤ x) (h1 : x < r.2) :
    ⌊(x - r.1) / bs⌋ ≤ ⌊pos r bs x⌋ ∧ ⌊pos r bs x⌋ ≤ ⌊(x - r.1) / bs⌋ + 1 := by
  have hw : 0 < r.2 - r.1 := by linarith
  obtain ⟨hc1, hc2⟩ := nbins_ceil r bs hr hb
  have e : pos r bs x = (x - r.1) / bs * (nbins r bs / ((r.2 - r.1) / bs)) := by unfold pos; field_simp
  have hq : 0 < (r.2 - r.1) / bs := div_pos hw hb
  have hy0 : 0 ≤ (x - r.1) / bs := div_nonneg (by linarith) hb.le
  have hyq : (x - r.1) / bs < (r.2 - r.1) / bs := by
    rw [div_lt_div_iff_of_pos_right hb]; linarith
  constructor
  · apply Int.floor_le_floor
    rw [e]
    have : 1 ≤ (nbins r bs : α) / ((r.2 - r.1) / bs) := by rw [le_div_iff₀ hq]; linarith
    nlinarith
  · have : pos r bs x < (x - r.1) / bs + 1 := by
      rw [e, mul_div_assoc', div_lt_iff₀ hq]
      nlinarith
    have h3 : ⌊pos r bs x⌋ ≤ ⌊(x - r.1) / bs + 1⌋ := Int.floor_le_floor this.le
    rwa [Int.floor_add_one] at h3

/-! ## C203: totals and values of the tables -/

theorem addAt_nonneg (cs : List (Int × α)) (f out : List α) (hf : ∀ v ∈ f, 0 ≤ v) (hc : ∀ c ∈ cs, 0 ≤ c.2)
    (h : Utilities.addAt f cs = .ok out) : ∀ v ∈ out, 0 ≤ v := by
  induction cs generalizing f with
  | nil => simp only [Utilities.addAt] at h; cases h; exact hf
  | cons c rest ih =>
    obtain ⟨k, w⟩ := c
    simp only [Utilities.addAt] at h
    generalize (if k < 0 then k + (f.length : Int) else k) = k' at h
    split at h
    · refine ih _ ?_ (fun c hcm => hc c (List.mem_cons_of_mem _ hcm)) h
      intro v hv
      rcases List.mem_or_eq_of_mem_set hv with hv | rfl
      · exact hf v hv
      · refine add_nonneg ?_ (hc (k, w) (by simp))
        generalize Int.toNat _ = m
        rw [List.getD_eq_getElem?_getD]
        rcases hm : f[m]? with _ | v
        · simp
        · exact hf v (List.mem_of_getElem? hm)
    · cases h

/-- Cloud in cell on a two-dimensional grid without wrapping, every point with weight one. -/
theorem cic_two (nx ny : Nat) (ps : List (α × α)) (hp : ∀ p ∈ ps, (0 ≤ p.1 ∧ p.1 < nx) ∧ 0 ≤ p.2 ∧ p.2 < ny) :
    ∃ f, cic 2 nx ny 1 true false (ps.map fun p => (⟨1, p.1, p.2, 0⟩ : Sample α)) = .ok f ∧ f.length = nx * ny ∧
      (∀ v ∈ f, 0 ≤ v) ∧
      f.sum = (ps.map fun p => ((Utilities.corners 2 nx ny 1 true (⟨1, p.1, p.2, 0⟩ : Sample α)).map Prod.snd).sum).sum := by
  have hg : ∀ p ∈ ps, InGrid 2 nx ny 1 (⟨1, p.1, p.2, 0⟩ : Sample α) := fun p hpm =>
    ⟨(hp p hpm).1, fun _ => (hp p hpm).2, fun h => absurd h (by decide)⟩
  have hc : ∀ p ∈ ps, _ := fun p hpm => Utilities.corners_spec 2 nx ny 1 (by simp) (fun h => absurd h (by decide)) (fun _ => rfl) true _ (hg p hpm)
  obtain ⟨out, ho, hl, hs⟩ := Utilities.addAt_spec
    ((ps.map fun p => (⟨1, p.1, p.2, 0⟩ : Sample α)).flatMap fun s => (Utilities.corners 2 nx ny 1 true s).map fun c => (c.1, c.2 * s.value))
    (List.replicate (nx * ny * 1) (0 : α)) (by
      intro c hcm
      obtain ⟨s, hsm, hcs⟩ := List.mem_flatMap.mp hcm
      obtain ⟨p, hpm, rfl⟩ := List.mem_map.mp hsm
      obtain ⟨c', hc', rfl⟩ := List.mem_map.mp hcs
      rw [List.length_replicate]
      exact ((hc p hpm).1 c' hc').1)
  refine ⟨out, ?_, by rw [hl, List.length_replicate, Nat.mul_one], ?_, ?_⟩
  · unfold cic
    simp only [show ¬ ((2 : Nat) = 1) by decide, if_false, show ((2 : Nat) ≤ 2) by decide, if_true, Bool.false_eq_true]
    rw [ho]
  · refine addAt_nonneg _ _ out ?_ ?_ ho
    · intro v hv; rw [List.eq_of_mem_replicate hv]
    · intro c hcm
      obtain ⟨s, hsm, hcs⟩ := List.mem_flatMap.mp hcm
      obtain ⟨p, hpm, rfl⟩ := List.mem_map.mp hsm
      obtain ⟨c', hc', rfl⟩ := List.mem_map.mp hcs
      simpa using ((hc p hpm).1 c' hc').2
  · rw [hs, Utilities.parts_sum]
    simp [List.map_map, Function.comp_def]

/-- What a table says about the number of galaxies: densities times areas times sizes of the bins. -/
def total (nx : Nat) (areas : List α) (binsize : α) (t : List α) : α :=
  (t.zipIdx.map fun vk => vk.1 * (areas.getD (vk.2 / nx) 0 * binsize)).sum

theorem table_spec (xr yr : α × α) (xbs ybs : α) (areas : List α) (field : α → α) (gals : List (α × α))
    (hx : xr.1 < xr.2) (hy : yr.1 < yr.2) (hxb : 0 < xbs) (hyb : 0 < ybs)
    (hg : ∀ g ∈ gals, (xr.1 ≤ g.1 ∧ g.1 < xr.2) ∧ yr.1 ≤ g.2 ∧ g.2 < yr.2) :
    ∃ f : List α, f.length = nbins xr xbs * nbins yr ybs ∧ (∀ v ∈ f, 0 ≤ v) ∧
      f.sum = (gals.map fun g => ((Utilities.corners 2 (nbins xr xbs) (nbins yr ybs) 1 true
        (⟨1, pos xr xbs g.1, pos yr ybs g.2, 0⟩ : Sample α)).map Prod.snd).sum).sum ∧
      table xr yr xbs ybs areas field gals =
        .ok (f.zipIdx.map fun vk => field vk.1 / (areas.getD (vk.2 / nbins xr xbs) 0 * (ybs * xbs))) := by
  obtain ⟨f, h1, h2, h3, h4⟩ := cic_two (nbins xr xbs) (nbins yr ybs) (gals.map fun g => (pos xr xbs g.1, pos yr ybs g.2)) (by
    intro p hp
    obtain ⟨g, hgm, rfl⟩ := List.mem_map.mp hp
    obtain ⟨⟨a, b⟩, c, d⟩ := hg g hgm
    exact ⟨pos_range xr xbs g.1 hx hxb a b, pos_range yr ybs g.2 hy hyb c d⟩)
  rw [List.map_map] at h1 h4
  refine ⟨f, h2, h3, h4, ?_⟩
  unfold table
  have : cic 2 (nbins xr xbs) (nbins yr ybs) 1 true false (gals.map fun g => (⟨1, pos xr xbs g.1, pos yr ybs g.2, 0⟩ : Sample α)) = .ok f := h1
  rw [this]

theorem total_table (nx ny : Nat) (areas : List α) (binsize : α) (hb : 0 < binsize) (ha : ∀ k < ny, 0 < areas.getD k 0) (f : List α)
    (hl : f.length = nx * ny) :
    total nx areas binsize (f.zipIdx.map fun vk => vk.1 / (areas.getD (vk.2 / nx) 0 * binsize)) = f.sum := by
  have : total nx areas binsize (f.zipIdx.map fun vk => vk.1 / (areas.getD (vk.2 / nx) 0 * binsize)) = (f.zipIdx.map Prod.fst).sum := by
    unfold total
    rw [List.zipIdx_map]
    congr 1
    apply List.ext_getElem
    · simp
    · intro k h1 h2
      simp at h1
      have hk : k / nx < ny := Nat.div_lt_of_lt_mul (by omega)
      have := ha _ hk
      simp only [List.getElem_map, List.getElem_zipIdx, Prod.map, Nat.zero_add, id_eq]
      rw [div_mul_cancel₀]
      positivity
  rw [this, List.zipIdx_map_fst]

/-- Every density of the table of chi-squared is at least zero, the table never says more galaxies than there are, and exactly as many
if all are at least half a cell away from the borders of the table. -/
theorem C203_total_partial (chisqmax limmag cbs mbs : α) (areas : List α) (gals : List (α × α))
    (hx : 0 < chisqmax) (hy : 12 < limmag) (hxb : 0 < cbs) (hyb : 0 < mbs)
    (ha : ∀ k < nbins (12, limmag) mbs, 0 < areas.getD k 0)
    (hg : ∀ g ∈ gals, (0 ≤ g.1 ∧ g.1 < chisqmax) ∧ 12 ≤ g.2 ∧ g.2 < limmag) :
    ∃ t, chisqTable chisqmax limmag cbs mbs areas gals = .ok t ∧ t.length = nbins (0, chisqmax) cbs * nbins (12, limmag) mbs ∧
      (∀ v ∈ t, 0 ≤ v) ∧ total (nbins (0, chisqmax) cbs) areas (mbs * cbs) t ≤ gals.length ∧
      ((∀ g ∈ gals, (1 / 2 ≤ pos (0, chisqmax) cbs g.1 ∧ pos (0, chisqmax) cbs g.1 ≤ (nbins (0, chisqmax) cbs : α) - 1 / 2) ∧
          1 / 2 ≤ pos (12, limmag) mbs g.2 ∧ pos (12, limmag) mbs g.2 ≤ (nbins (12, limmag) mbs : α) - 1 / 2) →
        total (nbins (0, chisqmax) cbs) areas (mbs * cbs) t = gals.length) := by
  obtain ⟨f, hl, h0, hs, ht⟩ := table_spec (0, chisqmax) (12, limmag) cbs mbs areas (fun v => v) gals hx hy hxb hyb hg
  refine ⟨_, ht, by simp [hl], ?_, ?_⟩
  · intro v hv
    obtain ⟨⟨w, k⟩, hwk, rfl⟩ := List.mem_map.mp hv
    rw [List.mem_zipIdx_iff_getElem?] at hwk
    simp only at hwk ⊢
    have hw := h0 w (List.mem_of_getElem? hwk)
    have hk : k < f.length := (List.getElem?_eq_some_iff.mp hwk).1
    have := ha (k / nbins (0, chisqmax) cbs) (Nat.div_lt_of_lt_mul (by omega))
    positivity
  · rw [total_table _ _ areas (mbs * cbs) (mul_pos hyb hxb) ha f hl, hs]
    have hin : ∀ g ∈ gals, InGrid 2 (nbins (0, chisqmax) cbs) (nbins (12, limmag) mbs) 1
        (⟨1, pos (0, chisqmax) cbs g.1, pos (12, limmag) mbs g.2, 0⟩ : Sample α) := fun g hgm =>
      ⟨pos_range _ _ _ hx hxb (hg g hgm).1.1 (hg g hgm).1.2, fun _ => pos_range _ _ _ hy hyb (hg g hgm).2.1 (hg g hgm).2.2,
        fun h => absurd h (by decide)⟩
    have hc : ∀ g ∈ gals, _ := fun g hgm => Utilities.corners_spec 2 _ _ 1 (by simp) (fun h => absurd h (by decide)) (fun _ => rfl) true _ (hin g hgm)
    constructor
    · have : (gals.map fun g => ((Utilities.corners 2 (nbins (0, chisqmax) cbs) (nbins (12, limmag) mbs) 1 true
          (⟨1, pos (0, chisqmax) cbs g.1, pos (12, limmag) mbs g.2, 0⟩ : Sample α)).map Prod.snd).sum).sum ≤ (gals.map fun _ => (1 : α)).sum :=
        List.sum_le_sum fun g hgm => (hc g hgm).2.1
      simpa using this
    · intro haway
      have : (gals.map fun g => ((Utilities.corners 2 (nbins (0, chisqmax) cbs) (nbins (12, limmag) mbs) 1 true
          (⟨1, pos (0, chisqmax) cbs g.1, pos (12, limmag) mbs g.2, 0⟩ : Sample α)).map Prod.snd).sum) = (gals.map fun _ => (1 : α)) := by
        apply List.map_congr_left
        intro g hgm
        exact (hc g hgm).2.2 (Or.inr ⟨(haway g hgm).1, fun _ => (haway g hgm).2, fun h => absurd h (by decide)⟩)
      rw [this]
      simp

/-- A galaxy with chi-squared zero is counted at most half. -/
theorem C203_border_false (chisqmax limmag cbs mbs m : α) (areas : List α)
    (hx : 0 < chisqmax) (hy : 12 < limmag) (hxb : 0 < cbs) (hyb : 0 < mbs)
    (ha : ∀ k < nbins (12, limmag) mbs, 0 < areas.getD k 0) (hm : 12 ≤ m ∧ m < limmag) :
    ∃ t, chisqTable chisqmax limmag cbs mbs areas [(0, m)] = .ok t ∧ total (nbins (0, chisqmax) cbs) areas (mbs * cbs) t ≤ 1 / 2 := by
  obtain ⟨f, hl, h0, hs, ht⟩ := table_spec (0, chisqmax) (12, limmag) cbs mbs areas (fun v => v) [(0, m)] hx hy hxb hyb (by
    intro g hgm; simp at hgm; subst hgm; exact ⟨⟨le_refl _, hx⟩, hm⟩)
  refine ⟨_, ht, ?_⟩
  rw [total_table _ _ areas (mbs * cbs) (mul_pos hyb hxb) ha f hl, hs]
  have hp0 : pos (0, chisqmax) cbs 0 = 0 := by simp [pos]
  have hn := nbins_pos (0, chisqmax) cbs hx hxb
  have hax : Utilities.axis (nbins (0, chisqmax) cbs) true (0 : α) =
      (0, 1 / 2, ((nbins (0, chisqmax) cbs : Nat) : Int) - 1, 0) := by
    unfold Utilities.axis
    have h1 : ¬ ((1 : α) / 2 < 0) := by norm_num
    have h2 : |(1 : α) / 2| = 1 / 2 := abs_of_pos (by norm_num)
    simp only [Int.floor_zero, Int.cast_zero, zero_add, sub_zero, if_neg h1, h2]
    simp only [zero_sub, if_true]
    rw [if_neg (by omega)]
    norm_num
  obtain ⟨p1, p2⟩ := pos_range (12, limmag) mbs m hy hyb hm.1 hm.2
  have hay := Utilities.axis_spec (nbins (12, limmag) mbs) true (pos (12, limmag) mbs m) p1 p2
  obtain ⟨_, _, _, _, _, _, hay7, _⟩ := hay
  simp only [List.map_cons, List.map_nil, List.sum_cons, List.sum_nil, hp0, Utilities.corners, hax]
  simp only [show (2 ≤ 2) by omega, if_true, show ¬ ((2 : Nat) = 3) by omega, if_false, List.append_nil, List.cons_append, List.nil_append,
    List.map_cons, List.map_nil, List.sum_cons, List.sum_nil]
  linarith

/-- Every value of the table of redshifts is above zero, so a look-up inside the table never divides by zero nor finds an empty bin,
and at least that of a tenth of a galaxy. -/
theorem C203_zred_positive (maxchisq limmag zbs mbs : α) (zr : α × α) (areas : List α) (pixels : List (Nat × List (ZGal α)))
    (hn : ∀ p ∈ pixels, p.2.length ≤ p.1) (hx : zr.1 < zr.2) (hy : 12 < limmag) (hxb : 0 < zbs) (hyb : 0 < mbs)
    (ha : ∀ k < nbins (12, limmag) mbs, 0 < areas.getD k 0) :
    ∃ t, zredTable maxchisq limmag zbs mbs zr areas pixels = .ok t ∧ t.length = nbins zr zbs * nbins (12, limmag) mbs ∧
      ∀ (k : Nat) (v : α), t[k]? = some v → 0 < v ∧ 1 / 10 ≤ v * (areas.getD (k / nbins zr zbs) 0 * (mbs * zbs)) := by
  obtain ⟨f, hl, h0, hs, ht⟩ := table_spec zr (12, limmag) zbs mbs areas (fun v => if v < 1 / 10 then 1 / 10 else v)
    (zredCounted maxchisq limmag zr pixels) hx hy hxb hyb (by
      intro g hgm
      rw [C201_counted maxchisq limmag zr pixels hn] at hgm
      obtain ⟨g', hg', rfl⟩ := List.mem_map.mp hgm
      have := (List.mem_filter.mp hg').2
      simp only [decide_eq_true_eq] at this
      exact ⟨⟨this.2.1, this.2.2.1⟩, this.2.2.2.1.le, this.2.2.2.2⟩)
  refine ⟨_, ht, by simp [hl], ?_⟩
  intro k v hv
  rw [List.getElem?_map] at hv
  have hk : k < f.length := by
    by_contra hc
    rw [List.getElem?_eq_none (by simp; omega)] at hv
    cases hv
  rw [List.getElem?_eq_getElem (by simpa using hk)] at hv
  simp only [Option.map_some, Option.some.injEq, List.getElem_zipIdx, Nat.zero_add] at hv
  have hpos := ha (k / nbins zr zbs) (Nat.div_lt_of_lt_mul (by omega))
  have hd : 0 < areas.getD (k / nbins zr zbs) 0 * (mbs * zbs) := by positivity
  have hnum : (1 : α) / 10 ≤ (if f[k] < 1 / 10 then 1 / 10 else f[k]) := by
    split
    · exact le_refl _
    · linarith
  subst hv
  have ht : (0 : α) < 1 / 10 := by norm_num
  exact ⟨div_pos (lt_of_lt_of_le ht hnum) hd, by rw [div_mul_cancel₀ _ hd.ne']; exact hnum⟩

example : (∀ k < nbins ((12 : ℚ), 14) 1, 0 < ([5, 4] : List ℚ).getD k 0) := by decide +kernel

/-! ## C204: ranges of colors -/

/-- Number of bright galaxies with a color in bin `k`: at least `k` and less than `k + 1` bins above -2. -/
def binCount (bs limmag : α) (gals : List (α × α)) (k : Nat) : Nat :=
  gals.countP fun g => decide ((-2 < g.1 ∧ g.1 < 5) ∧ g.2 < limmag - 1 / 2 ∧ (k : α) * bs - 2 ≤ g.1 ∧ g.1 < ((k : α) + 1) * bs - 2)

theorem hist_eq (bs limmag : α) (hb : 0 < bs) (gals : List (α × α)) (k : Nat) :
    hist bs ((gals.filter fun g => decide (g.1 > -2) && decide (g.1 < 5) && decide (g.2 < limmag - 1 / 2)).map Prod.fst) k =
      binCount bs limmag gals k := by
  unfold hist binCount
  rw [List.countP_map, List.countP_filter]
  apply List.countP_congr
  intro g _
  simp only [Function.comp_apply, Bool.and_eq_true, decide_eq_true_eq, gt_iff_lt]
  have key : -2 < g.1 → (⌊(g.1 + 2) / bs⌋.toNat = k ↔ (k : α) * bs - 2 ≤ g.1 ∧ g.1 < ((k : α) + 1) * bs - 2) := by
    intro h2
    have h0 : 0 ≤ ⌊(g.1 + 2) / bs⌋ := Int.floor_nonneg.mpr (div_nonneg (by linarith) hb.le)
    have : ⌊(g.1 + 2) / bs⌋.toNat = k ↔ ⌊(g.1 + 2) / bs⌋ = (k : Int) := by omega
    rw [this, Int.floor_eq_iff, le_div_iff₀ hb, div_lt_iff₀ hb]
    push_cast
    constructor
    · rintro ⟨a, b⟩; constructor <;> linarith
    · rintro ⟨a, b⟩; constructor <;> linarith
  constructor
  · rintro ⟨h, ⟨a, b⟩, c⟩
    exact ⟨⟨a, b⟩, c, (key a).mp h⟩
  · rintro ⟨⟨a, b⟩, c, d⟩
    exact ⟨(key a).mpr d, ⟨a, b⟩, c⟩

/-- The range of a color starts at the first and ends at the last bin with more than the minimum of bright galaxies. -/
theorem C204_range (bs limmag : α) (hb : 0 < bs) (minrange nb : Nat) (gals : List (α × α)) (lo hi : α)
    (h : colRange bs limmag minrange nb gals = .ok (lo, hi)) :
    ∃ a b, a ≤ b ∧ b < nb ∧ minrange < binCount bs limmag gals a ∧ minrange < binCount bs limmag gals b ∧
      lo = (a : α) * bs - 2 ∧ hi = ((b : α) + 1) * bs - 2 ∧
      ∀ k < nb, minrange < binCount bs limmag gals k → a ≤ k ∧ k ≤ b := by
  unfold colRange at h
  simp only [hist_eq bs limmag hb] at h
  generalize hg : (List.range nb).filter (fun k => decide (binCount bs limmag gals k > minrange)) = good at h
  have hsorted : good.Pairwise (· < ·) := by rw [← hg]; exact List.Pairwise.filter _ List.pairwise_lt_range
  have hmem : ∀ k, k ∈ good ↔ k < nb ∧ minrange < binCount bs limmag gals k := by
    intro k; rw [← hg]; simp
  rcases hgood : good with _ | ⟨a, rest⟩
  · rw [hgood] at h; simp at h
  · rw [hgood] at h hsorted hmem
    have hlast : (a :: rest).getLast? = some ((a :: rest).getLast (by simp)) := List.getLast?_eq_some_getLast (by simp)
    rw [hlast] at h
    simp only [List.head?_cons, Except.ok.injEq, Prod.mk.injEq] at h
    set b := (a :: rest).getLast (by simp) with hbdef
    have hbm : b ∈ a :: rest := List.getLast_mem _
    have hle : ∀ k ∈ a :: rest, a ≤ k ∧ k ≤ b := by
      intro k hk
      refine ⟨?_, ?_⟩
      · rcases List.mem_cons.mp hk with rfl | hk'
        · exact le_refl _
        · exact ((List.pairwise_cons.mp hsorted).1 k hk').le
      · obtain ⟨i, hi, rfl⟩ := List.getElem_of_mem hk
        rw [hbdef, List.getLast_eq_getElem]
        rcases Nat.lt_or_ge i ((a :: rest).length - 1) with hlt | hge
        · exact (List.pairwise_iff_getElem.mp hsorted i _ hi (by omega) hlt).le
        · have : i = (a :: rest).length - 1 := by omega
          subst this; exact le_refl _
    refine ⟨a, b, (hle b hbm).1, ((hmem b).mp hbm).1, ((hmem a).mp (by simp)).2, ((hmem b).mp hbm).2, ?_, ?_, ?_⟩
    · rw [← h.1]; ring
    · rw [← h.2]; ring
    · intro k hk hc
      exact hle k ((hmem k).mpr ⟨hk, hc⟩)

/-- Every bright galaxy of a color bin with more than the minimum lies inside the range. -/
theorem C204_covers (bs limmag : α) (hb : 0 < bs) (minrange nb : Nat) (hnb : 7 ≤ (nb : α) * bs) (gals : List (α × α)) (lo hi : α)
    (h : colRange bs limmag minrange nb gals = .ok (lo, hi)) (g : α × α) (h5 : g.1 < 5) (k : Nat)
    (hk : (k : α) * bs - 2 ≤ g.1 ∧ g.1 < ((k : α) + 1) * bs - 2) (hc : minrange < binCount bs limmag gals k) : lo ≤ g.1 ∧ g.1 < hi := by
  obtain ⟨a, b, hab, hbn, ha, hb', rfl, rfl, hall⟩ := C204_range bs limmag hb minrange nb gals lo hi h
  have hkn : k < nb := by
    by_contra hge
    have : (nb : α) ≤ k := by exact_mod_cast Nat.le_of_not_lt hge
    nlinarith [hk.1]
  obtain ⟨h1, h3⟩ := hall k hkn hc
  have h1' : (a : α) ≤ k := by exact_mod_cast h1
  have h3' : (k : α) ≤ b := by exact_mod_cast h3
  constructor <;> nlinarith [hk.1, hk.2]

/-- Without such a bin the run ends with an error. -/
theorem C204_no_range (bs limmag : α) (hb : 0 < bs) (minrange nb : Nat) (gals : List (α × α)) :
    colRange bs limmag minrange nb gals = .error .valueError ↔ ∀ k < nb, binCount bs limmag gals k ≤ minrange := by
  unfold colRange
  simp only [hist_eq bs limmag hb]
  generalize hg : (List.range nb).filter (fun k => decide (binCount bs limmag gals k > minrange)) = good
  have hmem : ∀ k, k ∈ good ↔ k < nb ∧ minrange < binCount bs limmag gals k := by
    intro k; rw [← hg]; simp
  rcases good with _ | ⟨a, rest⟩
  · simp only [List.head?_nil, true_iff]
    intro k hk
    by_contra hc
    exact absurd ((hmem k).mpr ⟨hk, by omega⟩) (by simp)
  · have hlast : (a :: rest).getLast? = some ((a :: rest).getLast (by simp)) := List.getLast?_eq_some_getLast (by simp)
    rw [hlast]
    simp only [List.head?_cons, reduceCtorEq, false_iff]
    intro hall
    have := (hmem a).mp (by simp)
    have := hall a this.1
    omega

example : colRange (1 / 2 : ℚ) 20 1 14 [(0, 18), (1 / 4, 18), (1, 18), (2, 18), (9 / 4, 18), (9 / 4, 21)] = .ok (0, 5 / 2) := by
  decide +kernel

/-! ## C205: the magnitude limit of a redshift bin -/

theorem getD_edges (r : α × α) (bs : α) (k : Nat) (hk : k < nbins r bs) : (edges r bs).getD k 0 = (k : α) * bs + r.1 := by
  rw [List.getD_eq_getElem?_getD, edges_get r bs k hk]; rfl

theorem zlim_eq (limmag bs m : α) (hb : 0 < bs) (hl : 12 < limmag) (m' : α) (hm' : m' = if m ≥ limmag then limmag - 1 / 100 else m) :
    ∃ k : Nat, k < nbins (12, limmag) bs ∧ zlimmag limmag bs m = ((k : α) + 1) * bs + 12 ∧
      (k : Int) = min (max ⌊pos (12, limmag) bs m'⌋ 0) ((nbins (12, limmag) bs : Int) - 1) := by
  have hn := nbins_pos (12, limmag) bs hl hb
  have hp : 0 ≤ min (max ⌊pos (12, limmag) bs m'⌋ 0) ((nbins (12, limmag) bs : Int) - 1) := by omega
  refine ⟨(min (max ⌊pos (12, limmag) bs m'⌋ 0) ((nbins (12, limmag) bs : Int) - 1)).toNat, by omega, ?_, by omega⟩
  unfold zlimmag
  simp only
  rw [← hm', getD_edges _ _ _ (by omega)]
  ring

/-- The limit lies above the magnitude that is wanted, whatever the sizes: no galaxy that is wanted and in the catalog is left out. -/
theorem C205_above (limmag bs m : α) (hb : 0 < bs) (hl : 12 < limmag) (hm : m < limmag) : m < zlimmag limmag bs m := by
  obtain ⟨k, hk, hz, hke⟩ := zlim_eq limmag bs m hb hl m (by rw [if_neg (not_le.mpr hm)])
  rw [hz]
  have hw : (0 : α) < limmag - 12 := by linarith
  have hnp := nbins_pos (12, limmag) bs hl hb
  have hn : (0 : α) < nbins (12, limmag) bs := by exact_mod_cast hnp
  have hle : limmag - 12 ≤ nbins (12, limmag) bs * bs := by
    have := (nbins_ceil (12, limmag) bs hl hb).2
    rwa [div_le_iff₀ hb] at this
  have hlt := Int.lt_floor_add_one (pos (12, limmag) bs m)
  have hk0 : (0 : α) ≤ k := Nat.cast_nonneg k
  by_cases hneg : m ≤ 12
  · nlinarith
  · have hnn : 0 ≤ pos (12, limmag) bs m := (pos_range (12, limmag) bs m hl hb (le_of_not_ge hneg) hm).1
    have hup := (pos_range (12, limmag) bs m hl hb (le_of_not_ge hneg) hm).2
    have hf0 := Int.floor_nonneg.mpr hnn
    have hf1 : ⌊pos (12, limmag) bs m⌋ < nbins (12, limmag) bs := Int.floor_lt.mpr (by exact_mod_cast hup)
    have hke' : (k : Int) = ⌊pos (12, limmag) bs m⌋ := by omega
    have hc : ((k : Nat) : α) = ((⌊pos (12, limmag) bs m⌋ : Int) : α) := by rw [← hke']; norm_cast
    rw [← hc] at hlt
    rw [pos, div_lt_iff₀ hw] at hlt
    simp only at hlt
    have h1 : (m - 12) * nbins (12, limmag) bs < ((k : α) + 1) * (nbins (12, limmag) bs * bs) :=
      lt_of_lt_of_le hlt (mul_le_mul_of_nonneg_left hle (by linarith))
    have h2 : (m - 12) * nbins (12, limmag) bs < ((k : α) + 1) * bs * nbins (12, limmag) bs := by linarith
    have := lt_of_mul_lt_mul_right h2 hn.le
    linarith

/-- If the range is a whole number of bins the limit is at most one bin above, and never above that of the catalog. -/
theorem C205_close (limmag bs m : α) (hb : 0 < bs) (hl : 12 < limmag) (h12 : 12 ≤ m) (hm : m < limmag) (n : Nat)
    (hn : limmag - 12 = n * bs) : zlimmag limmag bs m ≤ m + bs ∧ zlimmag limmag bs m ≤ limmag := by
  obtain ⟨k, hk, hz, hke⟩ := zlim_eq limmag bs m hb hl m (by rw [if_neg (not_le.mpr hm)])
  obtain ⟨hf0, e, he, he1, he2⟩ := C202_same_bin_partial (12, limmag) bs m hb n hn h12 hm
  have hnb : nbins (12, limmag) bs = n := by
    unfold nbins
    simp only
    rw [hn, mul_div_assoc, div_self hb.ne', mul_one]
    simp
  have hup := (pos_range (12, limmag) bs m hl hb h12 hm).2
  have hf1 : ⌊pos (12, limmag) bs m⌋ < nbins (12, limmag) bs := Int.floor_lt.mpr (by exact_mod_cast hup)
  have hkk : ⌊pos (12, limmag) bs m⌋.toNat = k := by omega
  rw [hkk, edges_get _ _ _ hk] at he
  simp only [Option.some.injEq] at he
  rw [hz]
  have hk' : ((k : α) + 1) ≤ n := by rw [hnb] at hk; exact_mod_cast hk
  constructor
  · linarith
  · nlinarith

/-- Wanted beyond the catalog: the limit reaches that of the catalog if the bins are at least 0.01 wide. -/
theorem C205_deep_partial (limmag bs m : α) (hb : 0 < bs) (hl : 12 < limmag) (hm : limmag ≤ m)
    (hw : (nbins (12, limmag) bs : α) / 100 ≤ limmag - 12) : limmag ≤ zlimmag limmag bs m := by
  obtain ⟨k, hk, hz, hke⟩ := zlim_eq limmag bs m hb hl (limmag - 1 / 100) (by rw [if_pos hm])
  have hwp : (0 : α) < limmag - 12 := by linarith
  have hnp := nbins_pos (12, limmag) bs hl hb
  have hle : limmag - 12 ≤ nbins (12, limmag) bs * bs := by
    have := (nbins_ceil (12, limmag) bs hl hb).2
    rwa [div_le_iff₀ hb] at this
  have hfl : ((nbins (12, limmag) bs : Int) - 1) ≤ ⌊pos (12, limmag) bs (limmag - 1 / 100)⌋ := by
    rw [Int.le_floor, pos, le_div_iff₀ hwp]
    push_cast
    nlinarith
  have hk' : k + 1 = nbins (12, limmag) bs := by omega
  have hkc : (k : α) + 1 = nbins (12, limmag) bs := by exact_mod_cast hk'
  rw [hz, hkc]
  linarith

/-- With narrower bins it does not: of 1000 bins of 0.005 the last one is left out. -/
theorem C205_deep_false : zlimmag (17 : ℚ) (1 / 200) 30 < 17 := by
  obtain ⟨k, hk, hz, hke⟩ := zlim_eq (17 : ℚ) (1 / 200) 30 (by norm_num) (by norm_num) (17 - 1 / 100) (by norm_num)
  have hn : nbins ((12 : ℚ), 17) (1 / 200) = 1000 := by
    unfold nbins
    norm_num
    rfl
  have hp : pos ((12 : ℚ), 17) (1 / 200) (17 - 1 / 100) = 998 := by unfold pos; rw [hn]; norm_num
  rw [hp, hn] at hke
  have : ⌊(998 : ℚ)⌋ = 998 := by norm_num
  rw [this] at hke
  have hk' : k = 998 := by omega
  rw [hz, hk']
  norm_num

example : zlimmag (24 : ℚ) (1 / 10) 20 = 201 / 10 := by decide +kernel

/-! ## C206: galaxies beyond the magnitude limit -/

/-- The placeholder is outside of the logarithmic table. -/
theorem C206_log_outside : 6 ≤ Real.log big := by
  have h1 : Real.exp 6 ≤ Real.exp (58 / 10) + 100 := by
    have e : Real.exp (58 / 10) = Real.exp 6 * Real.exp (-(1 / 5)) := by rw [← Real.exp_add]; norm_num
    have h2 : 1 - 1 / 5 ≤ Real.exp (-(1 / 5)) := by have := Real.add_one_le_exp (-(1 / 5 : ℝ)); linarith
    have h3 : Real.exp 6 < 404 := by
      have : Real.exp 6 = Real.exp 1 ^ 6 := by rw [← Real.exp_nat_mul]; norm_num
      rw [this]
      have h := Real.exp_one_lt_d9
      have hp := Real.exp_pos 1
      calc Real.exp 1 ^ 6 < (2.7182818286 : ℝ) ^ 6 := by gcongr
        _ < 404 := by norm_num
    have hp := Real.exp_pos 6
    rw [e]
    nlinarith
  rw [Real.le_log_iff_exp_le (by unfold big; have := Real.exp_pos (58 / 10 : ℝ); linarith)]
  exact h1

/-- And of the linear table, if that ends at 400 or below. -/
theorem C206_linear_outside_partial (chisqmax : ℝ) (h : chisqmax ≤ 400) : chisqmax ≤ big := by
  have e : Real.exp (58 / 10) = Real.exp 5 * Real.exp (8 / 10) := by rw [← Real.exp_add]; norm_num
  have h1 : 1 + 8 / 10 + (8 / 10) ^ 2 / 2 ≤ Real.exp (8 / 10) := Real.quadratic_le_exp_of_nonneg (by norm_num)
  have h2 : 145 ≤ Real.exp 5 := by
    have : Real.exp 5 = Real.exp 1 ^ 5 := by rw [← Real.exp_nat_mul]; norm_num
    rw [this]
    have h := Real.exp_one_gt_d9
    calc (145 : ℝ) ≤ (2.7182818283 : ℝ) ^ 5 := by norm_num
      _ ≤ Real.exp 1 ^ 5 := by gcongr
  have hp := Real.exp_pos 5
  have h3 : (145 : ℝ) * (1 + 8 / 10 + (8 / 10) ^ 2 / 2) ≤ Real.exp 5 * Real.exp (8 / 10) :=
    mul_le_mul h2 h1 (by norm_num) hp.le
  unfold big
  rw [e]
  linarith

/-- A linear table that goes to 600 counts the placeholders. -/
theorem C206_linear_false : ∃ chisqmax : ℝ, 0 ≤ big ∧ big < chisqmax ∧ chisqmax = 600 := by
  refine ⟨600, ?_, ?_, rfl⟩
  · unfold big; have := Real.exp_pos (58 / 10 : ℝ); linarith
  · have h3 : Real.exp 6 < 404 := by
      have : Real.exp 6 = Real.exp 1 ^ 6 := by rw [← Real.exp_nat_mul]; norm_num
      rw [this]
      have h := Real.exp_one_lt_d9
      have hp := Real.exp_pos 1
      calc Real.exp 1 ^ 6 < (2.7182818286 : ℝ) ^ 6 := by gcongr
        _ < 404 := by norm_num
    have : Real.exp (58 / 10) ≤ Real.exp 6 := Real.exp_le_exp.mpr (by norm_num)
    unfold big
    linarith

end Redmapper.BkgGen
