/-
Properties of the files of the weighted randoms and of their area: C298-C301.
-/
import Verif.Model.RandOut
import Verif.Props.Randoms
import Verif.Props.Config
import Verif.Props.MedCal
import Mathlib.Tactic.Linarith
import Mathlib.Tactic.NormNum
import Mathlib.Tactic.FieldSimp
import Mathlib.Tactic.Ring

namespace Redmapper.RandOut

set_option linter.unusedSectionVars false

open Redmapper.Config (dec)
open Redmapper.MedCal (pad2)
open Redmapper.CatTask (Dir fileName)
open Redmapper.Randoms

/-! ## C298: names of the files -/

theorem pad3_digit (n : Nat) : ∀ c ∈ pad3 n, c.isDigit = true := by
  intro c hc
  unfold pad3 at hc
  rcases List.mem_append.mp hc with h | h
  · rw [List.mem_replicate] at h; rw [h.2]; decide
  · exact Nat.isDigit_of_mem_toDigits (by decide) (by decide) h

theorem pad2_digit (n : Nat) : ∀ c ∈ pad2 n, c.isDigit = true := by
  intro c hc
  unfold pad2 at hc
  rcases List.mem_append.mp hc with h | h
  · rw [List.mem_replicate] at h; rw [h.2]; decide
  · exact Nat.isDigit_of_mem_toDigits (by decide) (by decide) h

theorem pad3_inj (m n : Nat) (h : pad3 m = pad3 n) : m = n := by
  have hv : ∀ n, Nat.ofDigitChars 10 (pad3 n) 0 = n := by
    intro n
    unfold pad3
    rw [Nat.ofDigitChars_append, Nat.ofDigitChars_replicate_zero]
    simp [dec]
  rw [← hv m, ← hv n, h]

/-- Digits followed by something else can be split off in one way. -/
theorem digits_split {a b r s : List Char} (ha : ∀ c ∈ a, c.isDigit = true) (hb : ∀ c ∈ b, c.isDigit = true)
    (hr : ∀ c ∈ r.head?, c.isDigit = false) (hs : ∀ c ∈ s.head?, c.isDigit = false) (h : a ++ r = b ++ s) : a = b ∧ r = s := by
  induction a generalizing b with
  | nil =>
    cases b with
    | nil => exact ⟨rfl, h⟩
    | cons y b =>
      simp only [List.nil_append, List.cons_append] at h
      subst h
      have h1 := hr y (by simp)
      rw [hb y (by simp)] at h1
      exact absurd h1 (by simp)
  | cons x a ih =>
    cases b with
    | nil =>
      simp only [List.nil_append, List.cons_append] at h
      subst h
      have h1 := hs x (by simp)
      rw [ha x (by simp)] at h1
      exact absurd h1 (by simp)
    | cons y b =>
      simp only [List.cons_append, List.cons.injEq] at h
      obtain ⟨h1, h2⟩ := ih (fun c hc => ha c (by simp [hc])) (fun c hc => hb c (by simp [hc])) h.2
      exact ⟨by rw [h.1, h1], h2⟩

/-- The numbers in the name of the files: hundredths of the redshift range of the configuration, the whole part of the smallest richness
and of the range of richness if there is one, and tenths of the luminosity. -/
structure Numbers where
  z0 : Nat
  z1 : Nat
  lmin : Nat
  lbin : Option (Nat × Nat)
  l10 : Nat

def numbers (a : Args) : Numbers :=
  ⟨⌊a.cfgZ.1 * 100⌋₊, ⌊a.cfgZ.2 * 100⌋₊, ⌊a.minlambda⌋₊, a.lambdabin.map fun b => (⌊b.1⌋₊, ⌊b.2⌋₊), ⌊a.lstar * 10⌋₊⟩

/-- The name, written out from the numbers. -/
theorem baseName_eq (a : Args) : baseName a = "weighted_randoms_z".toList ++ (pad3 (numbers a).z0 ++ ('-' :: (pad3 (numbers a).z1 ++
    ('_' :: 'l' :: 'g' :: 't' :: (pad3 (numbers a).lmin ++ ((match (numbers a).lbin with
      | none => []
      | some (p, q) => '_' :: 'l' :: (pad3 p ++ ('-' :: pad3 q))) ++ ('_' :: 'v' :: 'l' :: pad2 (numbers a).l10))))))) := by
  have e1 : "lgt".toList = ['l', 'g', 't'] := by decide
  have e2 : "_vl".toList = ['_', 'v', 'l'] := by decide
  have e3 : "_l".toList = ['_', 'l'] := by decide
  unfold baseName lamName numbers
  rw [e1, e2, e3]
  cases a.lambdabin with
  | none => simp only [Option.map_none, List.append_assoc, List.cons_append, List.nil_append]
  | some b => simp only [Option.map_some, List.append_assoc, List.cons_append, List.nil_append]

/-- **C298**, the part that holds: two runs have the same base name exactly if the numbers in it agree. -/
theorem baseName_inj (a b : Args) : baseName a = baseName b ↔ numbers a = numbers b := by
  constructor
  swap
  · intro h; rw [baseName_eq, baseName_eq, h]
  intro h
  rw [baseName_eq, baseName_eq] at h
  have h := List.append_cancel_left h
  have dash : Char.isDigit '-' = false := by decide
  have und : Char.isDigit '_' = false := by decide
  obtain ⟨h1, h⟩ := digits_split (pad3_digit _) (pad3_digit _) (by simp [dash]) (by simp [dash]) h
  simp only [List.cons.injEq, true_and] at h
  obtain ⟨h2, h⟩ := digits_split (pad3_digit _) (pad3_digit _) (by simp [und]) (by simp [und]) h
  simp only [List.cons.injEq, true_and] at h
  have hd : ∀ (x : Option (Nat × Nat)) (t : List Char), ∀ c ∈ ((match x with
      | none => []
      | some (p, q) => '_' :: 'l' :: (pad3 p ++ ('-' :: pad3 q))) ++ ('_' :: t)).head?, c.isDigit = false := by
    intro x t c hc
    cases x <;> · simp at hc; subst hc; exact und
  obtain ⟨h3, h⟩ := digits_split (pad3_digit _) (pad3_digit _) (hd _ _) (hd _ _) h
  have e1 := pad3_inj _ _ h1
  have e2 := pad3_inj _ _ h2
  have e3 := pad3_inj _ _ h3
  have key : (numbers a).lbin = (numbers b).lbin ∧ pad2 (numbers a).l10 = pad2 (numbers b).l10 := by
    cases ha : (numbers a).lbin with
    | none =>
      rw [ha] at h
      cases hb : (numbers b).lbin with
      | none => rw [hb] at h; simpa using h
      | some p => rw [hb] at h; simp at h
    | some p =>
      rw [ha] at h
      cases hb : (numbers b).lbin with
      | none => rw [hb] at h; simp at h
      | some q =>
        rw [hb] at h
        simp only [List.cons_append, List.cons.injEq, true_and, List.append_assoc] at h
        obtain ⟨h4, h⟩ := digits_split (pad3_digit _) (pad3_digit _) (by simp [dash]) (by simp [dash]) h
        simp only [List.cons.injEq, true_and] at h
        obtain ⟨h5, h⟩ := digits_split (pad3_digit _) (pad3_digit _) (by simp [und]) (by simp [und]) h
        simp only [List.cons.injEq, true_and] at h
        have := pad3_inj _ _ h4
        have := pad3_inj _ _ h5
        refine ⟨?_, h⟩
        congr 1
        exact Prod.ext ‹_› ‹_›
  have e4 := Redmapper.MedCal.pad2_inj _ _ key.2
  cases hx : numbers a with
  | mk _ _ _ _ _ =>
    cases hy : numbers b with
    | mk _ _ _ _ _ =>
      rw [hx, hy] at e1 e2 e3 e4 key
      simp only at e1 e2 e3 e4 key
      rw [e1, e2, e3, e4, key.1]

theorem fileName_inj (outbase version n m : List Char) : fileName outbase version n true = fileName outbase version m true ↔ n = m := by
  constructor
  · intro h
    unfold fileName at h
    have h := List.append_cancel_right h
    have h := List.append_cancel_left h
    exact (List.cons.inj h).2
  · rintro rfl; rfl

/-- C298, the part that holds: the two files of a run are different; two runs share a file exactly if the numbers in the names agree,
and then they share both.  In particular runs with different whole numbers in the cuts on richness never share one. -/
theorem C298_names_partial (outbase version : List Char) (a b : Args) :
    randFile outbase version a ≠ areaFile outbase version b ∧
    (randFile outbase version a = randFile outbase version b ↔ numbers a = numbers b) ∧
    (areaFile outbase version a = areaFile outbase version b ↔ numbers a = numbers b) := by
  refine ⟨?_, ?_, ?_⟩
  · intro h
    unfold randFile areaFile at h
    rw [fileName_inj] at h
    have h1 : (baseName a).getLast? = some 'a' := by
      rw [h, show "_area".toList = ['_', 'a', 'r', 'e', 'a'] by decide, List.getLast?_append]; rfl
    rw [baseName_eq] at h1
    obtain ⟨d, r, hp, _⟩ := Redmapper.MedCal.pad2_cons (numbers a).l10
    have hx : ∀ l : List Char, (l ++ pad2 (numbers a).l10).getLast? = (pad2 (numbers a).l10).getLast? := by
      intro l
      rw [List.getLast?_append]
      have : (pad2 (numbers a).l10).getLast?.isSome = true := by rw [hp]; simp
      obtain ⟨x, hx⟩ := Option.isSome_iff_exists.mp this
      rw [hx]; rfl
    have h2 : (pad2 (numbers a).l10).getLast? = some 'a' := by
      rw [← h1, ← hx ("weighted_randoms_z".toList ++ (pad3 (numbers a).z0 ++ ('-' :: (pad3 (numbers a).z1 ++
        ('_' :: 'l' :: 'g' :: 't' :: (pad3 (numbers a).lmin ++ ((match (numbers a).lbin with
          | none => []
          | some (p, q) => '_' :: 'l' :: (pad3 p ++ ('-' :: pad3 q))) ++ ['_', 'v', 'l'])))))))]
      congr 1
      simp only [List.append_assoc, List.cons_append, List.nil_append]
    have h3 := pad2_digit _ _ (List.mem_of_getLast? h2)
    revert h3
    decide
  · unfold randFile
    rw [fileName_inj, baseName_inj]
  · unfold areaFile
    rw [fileName_inj, List.append_left_inj, baseName_inj]

/-- C298 as relied on: runs of one configuration that select other randoms do not share a file. -/
def C298_spec : Prop := ∀ (outbase version : List Char) (a b : Args), a.cfgZ = b.cfgZ → a.lstar = b.lstar →
  (a.zrange.getD a.cfgZ ≠ b.zrange.getD b.cfgZ ∨ a.minlambda ≠ b.minlambda) → randFile outbase version a ≠ randFile outbase version b

/-- Two redshift ranges: the name has that of the configuration. -/
def runA : Args := ⟨(1 / 10, 9 / 10), true, 1 / 5, 1 / 5, 20, some (1 / 10, 3 / 10), none⟩

def runB : Args := { runA with zrange := some (3 / 10, 6 / 10) }

/-- C298 is false: the redshift range of the run is not part of the name. -/
theorem C298_names_false : ¬ C298_spec := by
  intro h
  refine h [] [] runA runB rfl rfl (Or.inl ?_) ?_
  · simp only [runA, runB, Option.getD_some]; intro h; have := congrArg Prod.fst h; norm_num at this
  · exact (C298_names_partial [] [] runA runB).2.1.mpr rfl

/-- The cuts on richness are in the name. -/
example : randFile [] [] runA ≠ randFile [] [] { runA with minlambda := 21 } := by
  rw [ne_eq, (C298_names_partial _ _ _ _).2.1]
  intro h
  have := congrArg Numbers.lmin h
  simp [numbers, runA] at this

/-! ## C299: the good points of the area -/

/-- A random counts as found: its richness is above the cut (scaled or not) and in the range, upper end included, and not too much of it
is masked. -/
def Found (cfg : WCfg ℚ) (r : Rand ℚ) : Prop :=
  cfg.minlambda < (if cfg.selectScaleval then r.lambdaIn / r.scaleval else r.lambdaIn) ∧ r.maskfrac < cfg.maxMaskfrac ∧
  cfg.llo < r.lambdaIn ∧ r.lambdaIn ≤ cfg.lhi

theorem randOk_iff (cfg : WCfg ℚ) (r : Rand ℚ) : randOk cfg r = true ↔ Found cfg r := by
  unfold randOk Found
  simp only [Bool.and_eq_true, decide_eq_true_eq]
  tauto

theorem okArea_iff (cfg : WCfg ℚ) (r : Rand ℚ) : okArea cfg r = true ↔ Found cfg r ∧ r.lambdaIn ≠ cfg.lhi := by
  unfold okArea Found
  simp only [Bool.and_eq_true, decide_eq_true_eq]
  constructor
  · rintro ⟨⟨⟨h1, h2⟩, h3⟩, h4⟩; exact ⟨⟨h1, h2, h3, h4.le⟩, h4.ne⟩
  · rintro ⟨⟨h1, h2, h3, h4⟩, h5⟩; exact ⟨⟨⟨h1, h2⟩, h3⟩, lt_of_le_of_ne h4 h5⟩

/-- C299 as relied on: the area counts as good the randoms that are written. -/
def C299_spec : Prop := ∀ (cfg : WCfg ℚ) (r : Rand ℚ), okArea cfg r = true ↔ Found cfg r

/-- C299, the part that holds: the area counts the written randoms, except those exactly at the upper end of the richness range; so the
fraction is never above that of the written ones, and equal to it if none is at the end. -/
theorem C299_area_partial (cfg : WCfg ℚ) (use : List (Rand ℚ)) (zb : ℚ) :
    (∀ r, okArea cfg r = true ↔ Found cfg r ∧ r.lambdaIn ≠ cfg.lhi) ∧
    goodFraction (okArea cfg) use zb ≤ goodFraction (randOk cfg) use zb ∧
    ((∀ r ∈ use, r.lambdaIn ≠ cfg.lhi) → goodFraction (okArea cfg) use zb = goodFraction (randOk cfg) use zb) := by
  refine ⟨okArea_iff cfg, ?_, ?_⟩
  · unfold goodFraction
    simp only
    by_cases h0 : (use.filter fun r => decide (r.z < zb)).length = 0
    · rw [if_pos h0, if_pos h0]
    · rw [if_neg h0, if_neg h0]
      apply div_le_div_of_nonneg_right _ (Nat.cast_nonneg _)
      have : ((use.filter (okArea cfg)).filter fun r => decide (r.z < zb)).length ≤ ((use.filter (randOk cfg)).filter fun r => decide (r.z < zb)).length := by
        rw [List.filter_filter, List.filter_filter, ← List.countP_eq_length_filter, ← List.countP_eq_length_filter]
        apply List.countP_mono_left
        intro r _ h
        rw [Bool.and_eq_true] at h ⊢
        exact ⟨h.1, (randOk_iff cfg r).mpr ((okArea_iff cfg r).mp h.2).1⟩
      exact_mod_cast this
  · intro h
    have : use.filter (okArea cfg) = use.filter (randOk cfg) := by
      apply List.filter_congr
      intro r hr
      rw [Bool.eq_iff_iff, okArea_iff, randOk_iff]
      exact ⟨fun x => x.1, fun x => ⟨x, h r hr⟩⟩
    unfold goodFraction
    simp only [this]

def edgeCfg : WCfg ℚ := ⟨false, 5, 0, 1, 20, 30, 1 / 5⟩
def edgeRand : Rand ℚ := ⟨0, 1, 1 / 2, 30, 1, 0⟩

/-- C299 is false for a random at the upper end: it is written and counted as lost. -/
theorem C299_area_false : ¬ C299_spec := by
  intro h
  have h1 : Found edgeCfg edgeRand := by unfold Found edgeCfg edgeRand; norm_num
  have h2 := ((okArea_iff _ _).mp ((h edgeCfg edgeRand).mpr h1)).2
  exact h2 rfl

/-- One random of two is below the end. -/
example : goodFraction (okArea edgeCfg) [edgeRand, { edgeRand with lambdaIn := 25 }] 1 = 1 / 2 ∧
    goodFraction (randOk edgeCfg) [edgeRand, { edgeRand with lambdaIn := 25 }] 1 = 1 := by
  constructor <;> norm_num [goodFraction, okArea, randOk, edgeCfg, edgeRand, List.filter]

/-! ## C300: the points of the fit -/

/-- Of the points with redshift below `zb`, the share that is good. -/
def ShareBelow (good : Rand ℚ → Prop) [DecidablePred good] (use : List (Rand ℚ)) (zb y : ℚ) : Prop :=
  let n := use.countP fun r => decide (r.z < zb)
  let k := use.countP fun r => decide (good r ∧ r.z < zb)
  (n = 0 → y = 0) ∧ y * n = k

theorem share_good (cfg : WCfg ℚ) [DecidablePred fun r : Rand ℚ => Found cfg r ∧ r.lambdaIn ≠ cfg.lhi] (use : List (Rand ℚ)) (zb : ℚ) :
    ShareBelow (fun r => Found cfg r ∧ r.lambdaIn ≠ cfg.lhi) use zb (goodFraction (okArea cfg) use zb) := by
  unfold ShareBelow
  simp only
  constructor
  · intro h
    unfold goodFraction
    simp only
    rw [List.countP_eq_length_filter] at h
    rw [if_pos h]
  · have h := (C107 (okArea cfg) use zb 0 0 (le_refl _)).2.2.2.2.2
    rw [h]
    congr 1
    apply List.countP_congr
    intro r _
    rw [Bool.and_eq_true, okArea_iff]
    simp only [decide_eq_true_eq]

open Classical in
/-- C300 as relied on: the fit is to the fraction of good points below each of its redshifts. -/
def C300_spec : Prop := ∀ (a : Args) (step : ℚ) (use : List (Rand ℚ)), 0 < step →
  ∀ p ∈ fitPoints (ranges a) use (coarseBins a step),
    ShareBelow (fun r => Found (ranges a) r ∧ r.lambdaIn ≠ (ranges a).lhi) use p.1 p.2

theorem coarse_get (a : Args) (step : ℚ) (i : Nat) (h : i < (coarseBins a step).length) :
    (coarseBins a step)[i] = a.cfgZ.1 + i * step := by
  have h' : i < ⌈(a.cfgZ.2 - a.cfgZ.1) / step⌉.toNat := by
    unfold coarseBins Utilities.arange at h; simpa using h
  have : (coarseBins a step)[i]? = some (a.cfgZ.1 + i * step) := by
    unfold coarseBins Utilities.arange
    rw [List.getElem?_map, List.getElem?_range h']
    rfl
  rw [List.getElem?_eq_getElem h] at this
  exact Option.some.inj this

open Classical in
/-- C300, the part that holds: the points are at the middle of the bins, first to last but one, and the fraction at each is that below the
upper edge of its bin, half a step higher. -/
theorem C300_points_partial (a : Args) (step : ℚ) (use : List (Rand ℚ)) :
    let pts := fitPoints (ranges a) use (coarseBins a step)
    pts.length = ⌈(a.cfgZ.2 - a.cfgZ.1) / step⌉.toNat - 2 ∧
    ∀ i (h : i < pts.length), pts[i].1 = a.cfgZ.1 + (i + 1 / 2) * step ∧
      ShareBelow (fun r => Found (ranges a) r ∧ r.lambdaIn ≠ (ranges a).lhi) use (pts[i].1 + step / 2) pts[i].2 := by
  intro pts
  have hn : (coarseBins a step).length = ⌈(a.cfgZ.2 - a.cfgZ.1) / step⌉.toNat := by
    unfold coarseBins Utilities.arange; simp
  have hlen : pts.length = (coarseBins a step).length - 2 := by
    simp only [pts, fitPoints, List.length_zip, List.length_zipWith, List.length_map, List.length_dropLast, List.length_tail]
    omega
  refine ⟨by rw [hlen, hn], ?_⟩
  intro i h
  rw [hlen] at h
  have e1 : pts[i].1 = a.cfgZ.1 + (i + 1 / 2) * step := by
    simp only [pts, fitPoints, List.getElem_zip, List.getElem_zipWith, List.getElem_dropLast, List.getElem_tail]
    rw [coarse_get, coarse_get]
    push_cast
    ring
  refine ⟨e1, ?_⟩
  have e2 : pts[i].2 = goodFraction (okArea (ranges a)) use (pts[i].1 + step / 2) := by
    rw [e1]
    simp only [pts, fitPoints, List.getElem_zip, List.getElem_map, List.getElem_dropLast, List.getElem_tail]
    rw [coarse_get]
    congr 1
    push_cast
    ring
  rw [e2]
  exact share_good (ranges a) use _

/-- Three bins and one random, between the middle and the upper edge of the first. -/
def fitArgs : Args := ⟨(0, 3), false, 1 / 5, 1 / 5, 5, none, none⟩
def fitRand : Rand ℚ := ⟨0, 1, 3 / 4, 30, 1, 0⟩

theorem fitArgs_bins : coarseBins fitArgs 1 = [0, 1, 2] := by
  unfold coarseBins Utilities.arange fitArgs
  have : ⌈((3 : ℚ) - 0) / 1⌉.toNat = 3 := by norm_num; rfl
  simp only [this]
  norm_num [List.range_succ]

theorem fitArgs_points : fitPoints (ranges fitArgs) [fitRand] (coarseBins fitArgs 1) = [(1 / 2, 1)] := by
  rw [fitArgs_bins]
  norm_num [fitPoints, goodFraction, okArea, ranges, fitArgs, fitRand, List.filter]

/-- C300 is false: the fraction is assigned to a redshift half a step too low. -/
theorem C300_points_false : ¬ C300_spec := by
  intro h
  have h1 := (h fitArgs 1 [fitRand] one_pos (1 / 2, 1) (by rw [fitArgs_points]; simp)).1
  have h2 := h1 (by norm_num [fitRand])
  norm_num at h2

/-! ## C301: what is in the files -/

/-- The first table of the file of the randoms, what a reader gets. -/
def readFile (d : Dir Table) (f : List Char) : Option Table := Setup.first (d f)

/-- C301 as relied on: when a run returns, the first file has the randoms that took part and were found, with their weights, and the
second the areas. -/
def C301_spec : Prop := ∀ (W : World) (a : Args) (d d' : Dir Table) (rf af : List Char), RevOK W.rev → weightRun W a d = (d', .ok (rf, af)) →
  (∀ use, selectRands (ranges a) W.clus W.rands = .ok use → BinsOK W.bins use) →
  ∃ rows, weightRandoms (ranges a) W.rev W.bins W.clus W.rands = .ok rows ∧ readFile d' rf = some (.rands rows)

theorem weightRun_of (W : World) (a : Args) (d : Dir Table) (use : List (Rand ℚ)) (hu : selectRands (ranges a) W.clus W.rands = .ok use) :
    ∃ d', weightRun W a d = (d', .ok (randFile W.outbase W.version a, areaFile W.outbase W.version a)) := by
  unfold weightRun
  simp only
  rw [hu]
  exact ⟨_, rfl⟩

theorem weightRun_ok (W : World) (a : Args) (d d' : Dir Table) (rf af : List Char) (h : weightRun W a d = (d', .ok (rf, af))) :
    ∃ use, selectRands (ranges a) W.clus W.rands = .ok use ∧ rf = randFile W.outbase W.version a ∧ af = areaFile W.outbase W.version a ∧
      d' = (d.set rf (Setup.fwrite false (Table.rands (written use (weights (ranges a) W.rev W.bins use))) (d rf))).set af
        (Setup.fwrite false (Table.area (areas (W.fit (fitPoints (ranges a) use (coarseBins a W.step))) W.astr)) (d af)) := by
  unfold weightRun at h
  simp only at h
  cases hs : selectRands (ranges a) W.clus W.rands with
  | error e => rw [hs] at h; simp at h
  | ok use =>
    rw [hs] at h
    simp only [Prod.mk.injEq, Except.ok.injEq] at h
    obtain ⟨h1, rfl, rfl⟩ := h
    refine ⟨use, rfl, rfl, rfl, ?_⟩
    rw [← h1]
    have hne : areaFile W.outbase W.version a ≠ randFile W.outbase W.version a :=
      fun h => (C298_names_partial W.outbase W.version a a).1 h.symm
    congr 2
    simp only [CatTask.Dir.set, if_neg hne]

/-- C301, the part that holds: if neither file was there and more than one random took part, the files have the written randoms with the
weights and, at the redshifts of the mask, its areas times the clipped correction; no other file is touched. -/
theorem C301_files_partial (W : World) (a : Args) (d d' : Dir Table) (rf af : List Char) (h : weightRun W a d = (d', .ok (rf, af)))
    (hr : d rf = none) (ha : d af = none) (use : List (Rand ℚ)) (hu : selectRands (ranges a) W.clus W.rands = .ok use) (h1 : use.length ≠ 1) :
    (∃ rows, weightRandoms (ranges a) W.rev W.bins W.clus W.rands = .ok rows ∧ readFile d' rf = some (.rands rows)) ∧
    (∃ rows, readFile d' af = some (.area rows) ∧ rows.map Prod.fst = W.astr.map Prod.fst ∧
      ∀ i (h : i < rows.length) (h' : i < W.astr.length), ∃ c : ℚ, 0 ≤ c ∧ c ≤ 1 ∧ rows[i].2 = c * W.astr[i].2 ∧
        let s := W.fit (fitPoints (ranges a) use (coarseBins a W.step)) W.astr[i].1
        (0 ≤ s → s ≤ 1 → c = s) ∧ (s < 0 → c = 0) ∧ (1 < s → c = 1)) ∧
    (∀ f, f ≠ rf → f ≠ af → d' f = d f) := by
  obtain ⟨use', hu', e1, e2, hd⟩ := weightRun_ok W a d d' rf af h
  rw [hu] at hu'
  obtain rfl := Except.ok.inj hu'
  have hne : rf ≠ af := by rw [e1, e2]; exact (C298_names_partial _ _ _ _).1
  rw [hr, ha] at hd
  refine ⟨⟨_, by unfold weightRandoms; rw [hu], ?_⟩, ⟨areas (W.fit (fitPoints (ranges a) use (coarseBins a W.step))) W.astr, ?_, ?_, ?_⟩, ?_⟩
  · rw [hd]
    simp only [readFile, CatTask.Dir.set, if_neg hne, if_true, Setup.fwrite, Setup.first, Option.bind_some, List.getElem?_cons_zero, written, if_neg h1]
  · rw [hd]
    simp only [readFile, CatTask.Dir.set, if_true, Setup.fwrite, Setup.first, Option.bind_some, List.getElem?_cons_zero]
  · simp [areas, Function.comp_def]
  · intro i hi hi'
    refine ⟨min (max (W.fit (fitPoints (ranges a) use (coarseBins a W.step)) W.astr[i].1) 0) 1, le_min (le_max_right _ _) zero_le_one,
      min_le_right _ _, ?_, ?_⟩
    · simp [areas, effectiveArea]
    · refine ⟨fun h0 h1 => ?_, fun h0 => ?_, fun h1 => ?_⟩
      · rw [max_eq_left h0, min_eq_left h1]
      · rw [max_eq_right h0.le, min_eq_left zero_le_one]
      · rw [max_eq_left (by linarith), min_eq_right h1.le]
  · intro f h1 h2
    rw [hd]
    simp only [CatTask.Dir.set, if_neg h1, if_neg h2]

/-- A run that fails leaves all files as they are, and it fails exactly if the selection does. -/
theorem C301_failed (W : World) (a : Args) (d d' : Dir Table) (e : Err) (h : weightRun W a d = (d', .error e)) :
    d' = d ∧ selectRands (ranges a) W.clus W.rands = .error e := by
  unfold weightRun at h
  simp only at h
  cases hs : selectRands (ranges a) W.clus W.rands with
  | error e' => rw [hs] at h; simp only [Prod.mk.injEq, Except.error.injEq] at h; exact ⟨h.1.symm, by rw [h.2]⟩
  | ok use => rw [hs] at h; simp at h

/-- A file that is already there keeps its first table: the reader gets the randoms of the earlier run. -/
theorem C301_stale (W : World) (a : Args) (d d' : Dir Table) (rf af : List Char) (h : weightRun W a d = (d', .ok (rf, af))) :
    (∀ t ts, d rf = some (t :: ts) → readFile d' rf = some t) ∧ (∀ t ts, d af = some (t :: ts) → readFile d' af = some t) := by
  obtain ⟨use', hu', e1, e2, hd⟩ := weightRun_ok W a d d' rf af h
  have hne : rf ≠ af := by rw [e1, e2]; exact (C298_names_partial _ _ _ _).1
  constructor <;> intro t ts ht
  · rw [hd]
    simp [readFile, CatTask.Dir.set, if_neg hne, Setup.fwrite, Setup.first, ht]
  · rw [hd]
    simp [readFile, CatTask.Dir.set, Setup.fwrite, Setup.first, ht]

/-- The only random that took part is written whether found or not. -/
theorem C301_single (W : World) (a : Args) (d d' : Dir Table) (rf af : List Char) (h : weightRun W a d = (d', .ok (rf, af)))
    (hr : d rf = none) (r : Rand ℚ) (hu : selectRands (ranges a) W.clus W.rands = .ok [r]) (hv : RevOK W.rev) (hb : BinsOK W.bins [r]) :
    ∃ w, readFile d' rf = some (.rands [(r, w)]) := by
  obtain ⟨use', hu', e1, e2, hd⟩ := weightRun_ok W a d d' rf af h
  rw [hu] at hu'
  obtain rfl := Except.ok.inj hu'
  have hne : rf ≠ af := by rw [e1, e2]; exact (C298_names_partial _ _ _ _).1
  refine ⟨wt (ranges a) [r] r, ?_⟩
  rw [hd, hr, weights_eq hv (ranges a) [r] W.bins hb]
  simp [readFile, CatTask.Dir.set, if_neg hne, Setup.fwrite, Setup.first, written]

/-- A catalog with one cluster and two randoms, one in each of the two redshift ranges. -/
def randNear : Rand ℚ := ⟨0, 1, 1 / 5, 30, 1, 0⟩
def randFar : Rand ℚ := ⟨1, 1, 2 / 5, 40, 1, 0⟩
def world : World := ⟨[], [], 1 / 10, [⟨1, 30, 1⟩], [randNear, randFar], [1], [], revRef, fun _ _ => 1⟩

theorem world_near : selectRands (ranges runA) world.clus world.rands = .ok [randNear] := by decide +kernel

theorem world_far : selectRands (ranges runB) world.clus world.rands = .ok [randFar] := by decide +kernel

theorem world_bins (r : Rand ℚ) (h : r.idInput = 1) : BinsOK world.bins [r] := by
  refine ⟨by simp [world], ?_⟩
  intro x hx
  rw [List.mem_singleton] at hx
  subst hx
  simp [world, h]

/-- C301 is false: a run for one redshift range and then one for another, in an empty directory.  The second returns the name of a file
whose randoms are those of the first. -/
theorem C301_files_false : ¬ C301_spec := by
  intro h
  obtain ⟨d1, h1⟩ := weightRun_of world runA (fun _ => none) _ world_near
  obtain ⟨d2, h2⟩ := weightRun_of world runB d1 _ world_far
  have hf : randFile world.outbase world.version runB = randFile world.outbase world.version runA :=
    (C298_names_partial _ _ runB runA).2.1.mpr rfl
  obtain ⟨w, hw⟩ := C301_single world runA _ d1 _ _ h1 rfl randNear world_near revRef_ok (world_bins _ rfl)
  have hd1 : ∃ ts, d1 (randFile world.outbase world.version runB) = some (.rands [(randNear, w)] :: ts) := by
    rw [hf]
    unfold readFile Setup.first at hw
    obtain ⟨l, hl, hl'⟩ := Option.bind_eq_some_iff.mp hw
    cases l with
    | nil => simp at hl'
    | cons t ts => simp only [List.getElem?_cons_zero, Option.some.injEq] at hl'; exact ⟨ts, by rw [hl, hl']⟩
  obtain ⟨ts, hts⟩ := hd1
  have h3 := (C301_stale world runB d1 d2 _ _ h2).1 _ _ hts
  have hb : ∀ use, selectRands (ranges runB) world.clus world.rands = .ok use → BinsOK world.bins use := by
    intro use hu
    rw [world_far] at hu
    obtain rfl := Except.ok.inj hu
    exact world_bins _ rfl
  obtain ⟨rows, h4, h5⟩ := h world runB d1 d2 _ _ revRef_ok h2 hb
  rw [h3] at h5
  obtain ⟨out, h6, h7, _⟩ := C55 revRef_ok (ranges runB) world.bins world.clus world.rands _ world_far (world_bins _ rfl)
  rw [show revRef = world.rev from rfl, h4] at h6
  obtain rfl := Except.ok.inj h6
  simp only [Option.some.injEq, Table.rands.injEq] at h5
  rw [← h5] at h7
  have h8 : randNear ∈ [randFar].filter (randOk (ranges runB)) := by rw [← h7]; simp
  have h9 := List.mem_singleton.mp (List.mem_of_mem_filter h8)
  have h10 := congrArg Rand.key h9
  exact absurd h10 (by decide)

/-- A first run in an empty directory, with both randoms: the hypotheses of the part that holds are met. -/
example : ∃ d' rf af, weightRun world { runA with zrange := none } (fun _ => none) = (d', .ok (rf, af)) ∧
    selectRands (ranges { runA with zrange := none }) world.clus world.rands = .ok [randNear, randFar] := by
  have hs : selectRands (ranges { runA with zrange := none }) world.clus world.rands = .ok [randNear, randFar] := by decide +kernel
  obtain ⟨d', h⟩ := weightRun_of world { runA with zrange := none } (fun _ => none) _ hs
  exact ⟨d', _, _, h, hs⟩

end Redmapper.RandOut
