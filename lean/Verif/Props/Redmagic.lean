/-
C65, C118-C120: the redMaGiC selection.
-/
import Verif.Model.Redmagic
import Verif.Props.Zlambda
import Mathlib.Tactic.Linarith
import Mathlib.Analysis.SpecialFunctions.Log.Base
import Mathlib.Analysis.SpecialFunctions.Pow.Real

set_option linter.unusedSectionVars false

namespace Redmapper.Redmagic

open Redmapper.Centering (whereIdx mem_whereIdx whereIdx_sorted takeRows_getElem?)
open Redmapper.Finders (takeRows)
open Redmapper.Zlambda (takeRows_whereIdx takeRows_length whereIdx_length)
open Redmapper.Utilities (Spline call splint Grid)

variable {α : Type} [Field α] [LinearOrder α] [IsStrictOrderedRing α] {μ : Type} [DecidableEq μ]

/-! ## C65: the selection -/

/-- The redshift delivered for a galaxy: the raw one, minus the bias when the afterburner is run. -/
def Redshift (c : RCal α) (g : RGal α) : α := if c.runAfter = true then g.zred - c.bias g.zred else g.zred

/-- The cuts, in words: redshift range with cushion; chi-squared below the fitted maximum (kept at 0.1 or more and at most the overall maximum)
and below the overall maximum; brighter than the luminosity cut at the delivered redshift, and than the cushioned one at the raw redshift;
delivered redshift below the volume limit at the position. -/
structure Passes (m25 mstar : α → α) (zmax : α → α → α) (c : RCal α) (g : RGal α) : Prop where
  zlo : c.costLo - c.zCushion - c.buffer < g.zred
  zhi : g.zred < c.costHi + c.zCushion + c.buffer
  chi : g.chisq < min (max (c.cmax g.zred) (1 / 10)) c.maxchi
  bright : g.refmag < mstar (Redshift c g) - m25 c.etamin
  possible : g.refmag < mstar g.zred - m25 (max (c.etamin - c.lstarCushion) (1 / 10))
  limit : Redshift c g < zmax g.ra g.dec

theorem passes_iff (m25 mstar : α → α) (zmax : α → α → α) (c : RCal α) (g : RGal α) :
    passes m25 mstar zmax c g = true ↔ Passes m25 mstar zmax c g := by
  unfold passes redPoss chi2max zmagic
  simp only [Bool.and_eq_true, decide_eq_true_eq]
  constructor
  · rintro ⟨⟨⟨h1, h2⟩, h3⟩, ⟨⟨h4, h5⟩, h6⟩, h7⟩
    exact ⟨h4, h5, h1, h2, h7, h3⟩
  · rintro ⟨h1, h2, h3, h4, h5, h6⟩
    exact ⟨⟨⟨h3, h4⟩, h6⟩, ⟨⟨h1, h2⟩, lt_of_lt_of_le h3 (min_le_right _ _)⟩, h5⟩

/-- The spectroscopic redshift of a galaxy, by source: the truth, the column, or that of the match (-1 without one). -/
def Spec (src : ZSource) (nearest : α → α → Option Nat) (specz : Nat → α) (g : RGal α) : α :=
  match src with
  | .truth => g.ztrue
  | .column => g.zspec
  | .matched => match nearest g.ra g.dec with
    | none => -1
    | some j => specz j

theorem assign_length (specz : Nat → α) (zs : List α) (pairs : List (Nat × Nat)) : (assign specz zs pairs).length = zs.length := by
  unfold assign
  induction pairs generalizing zs with
  | nil => rfl
  | cons p ps ih => rw [List.foldl_cons, ih]; simp

theorem assign_append (specz : Nat → α) (zs : List α) (p q : List (Nat × Nat)) : assign specz zs (p ++ q) = assign specz (assign specz zs p) q := by
  unfold assign; rw [List.foldl_append]

theorem matchMany_append (nearest : α → α → Option Nat) (pos : List (α × α)) (x : α × α) :
    matchMany nearest (pos ++ [x]) = matchMany nearest pos ++ ((nearest x.1 x.2).map fun j => (pos.length, j)).toList := by
  unfold matchMany
  rw [List.zipIdx_append, List.filterMap_append]
  congr 1
  cases hn : nearest x.1 x.2 <;> simp [List.zipIdx, hn]

theorem matchMany_fst (nearest : α → α → Option Nat) (pos : List (α × α)) : ∀ p ∈ matchMany nearest pos, p.1 < pos.length := by
  induction pos using List.reverseRecOn with
  | nil => intro p hp; simp [matchMany] at hp
  | append_singleton l a ih =>
    intro p hp
    rw [matchMany_append] at hp
    rcases List.mem_append.mp hp with h | h
    · have := ih p h; simp; omega
    · cases hn : nearest a.1 a.2 with
      | none => simp [hn] at h
      | some j => simp [hn] at h; subst h; simp

theorem assign_extend (specz : Nat → α) (zs : List α) (x : α) (pairs : List (Nat × Nat)) (h : ∀ p ∈ pairs, p.1 < zs.length) :
    assign specz (zs ++ [x]) pairs = assign specz zs pairs ++ [x] := by
  induction pairs generalizing zs with
  | nil => rfl
  | cons p ps ih =>
    have h1 : p.1 < zs.length := h p (by simp)
    have e : (zs ++ [x]).set p.1 (specz p.2) = zs.set p.1 (specz p.2) ++ [x] := by rw [List.set_append_left _ _ h1]
    have := ih (zs.set p.1 (specz p.2)) (fun q hq => by rw [List.length_set]; exact h q (by simp [hq]))
    unfold assign at this ⊢
    rw [List.foldl_cons, List.foldl_cons, e, this]

/-- Each galaxy gets its own match. -/
theorem zspecs_eq (src : ZSource) (nearest : α → α → Option Nat) (specz : Nat → α) (gs : List (RGal α)) :
    zspecs src nearest specz gs = gs.map (Spec src nearest specz) := by
  cases src with
  | truth => rfl
  | column => rfl
  | matched =>
    unfold zspecs
    dsimp only
    induction gs using List.reverseRecOn with
    | nil => rfl
    | append_singleton l g ih =>
      rw [List.map_append, List.map_singleton, matchMany_append, List.map_append, List.length_append, List.length_singleton, List.replicate_succ',
        assign_append, assign_extend _ _ _ _ (by
          intro p hp
          have := matchMany_fst _ _ p hp
          simpa using this), ih]
      simp only [List.map_singleton, List.length_map]
      cases hn : nearest g.ra g.dec with
      | none => simp [assign, Spec, hn]
      | some j =>
        have e : (List.map (Spec ZSource.matched nearest specz) l ++ [-1]).set l.length (specz j) =
            List.map (Spec ZSource.matched nearest specz) l ++ [specz j] := by
          rw [List.set_append_right _ _ (by simp)]; simp
        simp [assign, Spec, hn, e]

/-- The row delivered for a galaxy. -/
def Delivered (env : Env α μ) (c : RCal α) (g : RGal α) (r : RRow α) : Prop :=
  r.id = g.id ∧ r.ra = g.ra ∧ r.dec = g.dec ∧ r.refmag = g.refmag ∧ r.refmagErr = g.refmagErr ∧ r.mag = g.mag ∧ r.magErr = g.magErr ∧
  r.chisq = g.chisq ∧ r.z = Redshift c g ∧ r.zE = (if c.runAfter = true then g.zredE * c.eratio g.zred else g.zredE) ∧
  r.samp = (if c.runAfter = true ∧ c.applyAfter = true then g.samp.map (fun s => s - c.bias g.zred) else g.samp) ∧
  r.lum = env.pow10 ((env.mstar (Redshift c g) - g.refmag) / (5 / 2)) ∧ r.zspec = Spec env.src env.nearest env.specz g

/-- The row of the model, with its spectroscopic redshift. -/
def fullRow (env : Env α μ) (c : RCal α) (g : RGal α) : RRow α :=
  { row env.pow10 env.mstar c g with zspec := Spec env.src env.nearest env.specz g }

theorem fullRow_delivered (env : Env α μ) (c : RCal α) (g : RGal α) : Delivered env c g (fullRow env c g) := by
  unfold Delivered fullRow row Redshift zmagic zmagicE zmagicSamp
  refine ⟨rfl, rfl, rfl, rfl, rfl, rfl, rfl, rfl, rfl, rfl, ?_, rfl, rfl⟩
  cases c.runAfter <;> cases c.applyAfter <;> simp

theorem zipWith_fullRow (env : Env α μ) (c : RCal α) (gs : List (RGal α)) :
    List.zipWith (fun r z => ({ r with zspec := z } : RRow α)) (gs.map (row env.pow10 env.mstar c)) (gs.map (Spec env.src env.nearest env.specz)) =
      gs.map (fullRow env c) := by
  induction gs with
  | nil => rfl
  | cons g gs ih => simp only [List.map_cons, List.zipWith_cons_cons, ih]; rfl

/-- The entry of the calibration file that a mode uses. -/
def Entry (cal : List (μ × RCal α)) (mode : μ) (c : RCal α) : Prop :=
  ∃ before after, cal = before ++ (mode, c) :: after ∧ ∀ p ∈ after, p.1 ≠ mode

theorem find_entry (cal : List (μ × RCal α)) (mode : μ) (c : RCal α) (h : Entry cal mode c) :
    cal.reverse.find? (fun p => decide (p.1 = mode)) = some (mode, c) := by
  obtain ⟨b, a, rfl, ha⟩ := h
  simp only [List.reverse_append, List.reverse_cons, List.append_assoc, List.find?_append]
  have : a.reverse.find? (fun p => decide (p.1 = mode)) = none := by
    rw [List.find?_eq_none]
    intro p hp
    simpa using ha p (List.mem_reverse.mp hp)
  simp [this]

theorem select_eq (env : Env α μ) (mode : μ) (c : RCal α) (h : Entry env.cal mode c) (gals : List (RGal α)) :
    select env mode gals = .ok ((gals.filter (passes env.m25 env.mstar (env.zmax mode) c)).map (fullRow env c),
      whereIdx (passes env.m25 env.mstar (env.zmax mode) c) gals) := by
  unfold select
  rw [find_entry env.cal mode c h]
  dsimp only
  rw [takeRows_whereIdx, zspecs_eq, zipWith_fullRow]

/-- C65.  The galaxies selected are exactly those that pass the cuts, in input order; the indices returned are theirs, and each row delivers its
galaxy. -/
theorem C65 (env : Env α μ) (mode : μ) (c : RCal α) (h : Entry env.cal mode c) (gals : List (RGal α)) :
    ∃ cat gd, select env mode gals = .ok (cat, gd) ∧ cat.length = gd.length ∧ gd.Pairwise (· < ·) ∧
      (∀ i : Nat, i ∈ gd ↔ ∃ g, gals[i]? = some g ∧ Passes env.m25 env.mstar (env.zmax mode) c g) ∧
      ∀ k i : Nat, gd[k]? = some i → ∃ g r, gals[i]? = some g ∧ cat[k]? = some r ∧ Delivered env c g r := by
  refine ⟨_, _, select_eq env mode c h gals, ?_, whereIdx_sorted _ _, ?_, ?_⟩
  · rw [List.length_map, whereIdx_length, List.countP_eq_length_filter]
  · intro i
    rw [mem_whereIdx]
    simp only [passes_iff]
  · intro k i hk
    obtain ⟨g, hg, _⟩ := (mem_whereIdx _ _ _).mp (List.mem_of_getElem? hk)
    refine ⟨g, fullRow env c g, hg, ?_, fullRow_delivered env c g⟩
    rw [List.getElem?_map, ← takeRows_whereIdx, takeRows_getElem? _ _ (by
      intro j hj
      obtain ⟨x, hx, _⟩ := (mem_whereIdx _ _ _).mp hj
      exact (List.getElem?_eq_some_iff.mp hx).1), hk]
    simp [hg]

/-- C65.  A mode that is not in the calibration file is an error. -/
theorem C65_unknown (env : Env α μ) (mode : μ) (h : ∀ p ∈ env.cal, p.1 ≠ mode) (gals : List (RGal α)) :
    select env mode gals = .error .runtimeError := by
  unfold select
  have : env.cal.reverse.find? (fun p => decide (p.1 = mode)) = none := by
    rw [List.find?_eq_none]
    intro p hp
    simpa using h p (List.mem_reverse.mp hp)
  rw [this]

/-- C65.  Every galaxy delivered is more luminous than the luminosity cut of its mode (logarithm and power inverse and increasing). -/
theorem C65_luminosity (env : Env α μ) (mode : μ) (c : RCal α) (h : Entry env.cal mode c) (gals : List (RGal α)) (he : 0 < c.etamin)
    (hpow : StrictMono env.pow10) (hinv : ∀ x, 0 < x → env.pow10 (env.m25 x / (5 / 2)) = x)
    (cat : List (RRow α)) (gd : List Nat) (hs : select env mode gals = .ok (cat, gd)) : ∀ r ∈ cat, c.etamin < r.lum ∧ r.chisq < c.maxchi := by
  rw [select_eq env mode c h gals] at hs
  obtain ⟨rfl, rfl⟩ := Prod.mk.inj (Except.ok.inj hs)
  intro r hr
  obtain ⟨g, hg, rfl⟩ := List.mem_map.mp hr
  have hp := (passes_iff _ _ _ _ _).mp (List.mem_filter.mp hg).2
  have hd := fullRow_delivered env c g
  refine ⟨?_, ?_⟩
  · rw [hd.2.2.2.2.2.2.2.2.2.2.2.1]
    conv_lhs => rw [← hinv c.etamin he]
    apply hpow
    have := hp.bright
    exact div_lt_div_of_pos_right (by linarith) (by norm_num)
  · rw [hd.2.2.2.2.2.2.2.1]
    exact lt_of_lt_of_le hp.chi (min_le_right _ _)

/-- The real functions meet the contract of `C65_luminosity`. -/
example : StrictMono (fun x : ℝ => (10 : ℝ) ^ x) ∧ ∀ x : ℝ, 0 < x → (10 : ℝ) ^ ((5 / 2 * Real.logb 10 x) / (5 / 2)) = x := by
  refine ⟨fun a b h => Real.rpow_lt_rpow_of_exponent_lt (by norm_num) h, fun x hx => ?_⟩
  rw [mul_div_cancel_left₀ _ (by norm_num), Real.rpow_logb (by norm_num) (by norm_num) hx]

/-- A mode and two galaxies: one is selected. -/
def toyCal : RCal ℚ := ⟨5 / 100, 5 / 100, 5 / 100, 1 / 5, 3 / 5, 20, 1 / 2, fun _ => 3, fun _ => 0, fun _ => 1, false, false⟩

def toyEnv : Env ℚ Nat := ⟨[(1, toyCal)], fun _ => 0, fun x => x, fun _ => 20, fun _ _ _ => 1, .matched, fun _ _ => none, fun _ => 0⟩

def toyGal (i : Nat) (m chi : ℚ) : RGal ℚ := ⟨i, 0, 0, m, 0, [], [], 2 / 5, 0, [2 / 5], chi, 0, 0⟩

example : Entry toyEnv.cal 1 toyCal := ⟨[], [], rfl, by simp⟩

example : (select toyEnv 1 [toyGal 7 19 1, toyGal 8 19 5]).toOption.map (fun p => (p.1.map RRow.id, p.1.map RRow.zspec, p.2)) =
    some ([7], [-1], [0]) := by decide +kernel

/-! ## C118: the task -/

/-- The rows that one mode gets from the galaxies of one pixel. -/
def pixelRows (env : Env α μ) (c : μ → RCal α) (m : μ) (gals : List (RGal α)) : List (RRow α) :=
  (gals.filter (passes env.m25 env.mstar (env.zmax m) (c m))).map (fullRow env (c m))

/-- C118.  The selection is made galaxy by galaxy: the rows of the pixels, one after the other, are those of the whole catalog. -/
theorem C118_split (env : Env α μ) (mode : μ) (c : RCal α) (h : Entry env.cal mode c) (pixels : List (List (RGal α))) :
    ∃ rows : List (RGal α) → List (RRow α), (∀ gals, ∃ gd, select env mode gals = .ok (rows gals, gd)) ∧
      rows pixels.flatten = pixels.flatMap rows := by
  refine ⟨fun gals => (gals.filter (passes env.m25 env.mstar (env.zmax mode) c)).map (fullRow env c),
    fun gals => ⟨_, select_eq env mode c h gals⟩, ?_⟩
  induction pixels with
  | nil => rfl
  | cons p ps ih =>
    dsimp only at ih ⊢
    rw [List.flatten_cons, List.flatMap_cons, List.filter_append, List.map_append, ih]

/-- State of the files after the writes of some whole pixels, and of the modes up to some position in the next. -/
theorem spool_modes (sel : μ → List (RGal α) → List (RRow α)) (gals : List (RGal α)) (modes : List μ) (hn : modes.Nodup) :
    ∀ (off : Nat) (d : Disk α μ), (∀ j, off ≤ j → j < off + modes.length → d.started j = d.started off) →
    ∀ d', d' = ((modes.zipIdx off).map fun p => (p.2, p.1, sel p.1 gals)).foldl spool d →
      (∀ m, d'.file m = if m ∈ modes then (if d.started off = true then some ((d.file m).getD [] ++ sel m gals) else some (sel m gals)) else d.file m) ∧
      (∀ j, d'.started j = if off ≤ j ∧ j < off + modes.length then true else d.started j) := by
  induction modes with
  | nil =>
    intro off d _ d' hd'
    subst hd'
    refine ⟨fun m => by simp, fun j => ?_⟩
    rw [if_neg (by simp)]
  | cons x xs ih =>
    intro off d hst d' hd'
    rw [List.zipIdx_cons, List.map_cons, List.foldl_cons] at hd'
    obtain ⟨hx, hxs⟩ := List.nodup_cons.mp hn
    have hd1 : ∀ j, (spool d (off, x, sel x gals)).started j = if j = off then true else d.started j := by
      intro j
      unfold spool
      dsimp only
      by_cases hs : d.started off = true
      · rw [if_pos hs]
        by_cases hj : j = off
        · subst hj; simp [hs]
        · simp [hj]
      · rw [if_neg hs]
    have hf1 : ∀ m, (spool d (off, x, sel x gals)).file m =
        if m = x then (if d.started off = true then some ((d.file m).getD [] ++ sel m gals) else some (sel m gals)) else d.file m := by
      intro m
      unfold spool
      dsimp only
      by_cases hs : d.started off = true
      · rw [if_pos hs, if_pos hs]
        by_cases hm : m = x
        · subst hm; simp
        · simp [hm]
      · rw [if_neg hs, if_neg hs]
        by_cases hm : m = x
        · subst hm; simp
        · simp [hm]
    cases hxe : xs with
    | nil =>
      subst hxe
      simp only [List.zipIdx_nil, List.map_nil, List.foldl_nil] at hd'
      subst hd'
      refine ⟨fun m => ?_, fun j => ?_⟩
      · rw [hf1]; simp
      · rw [hd1]
        by_cases hj : j = off
        · subst hj; simp
        · rw [if_neg hj, if_neg (by simp; omega)]
    | cons y ys =>
      rw [← hxe]
      have hlen : 0 < xs.length := by rw [hxe]; simp
      have h1 : (spool d (off, x, sel x gals)).started (off + 1) = d.started off := by
        rw [hd1, if_neg (by omega)]
        exact hst (off + 1) (by omega) (by simp only [List.length_cons]; omega)
      obtain ⟨i1, i2⟩ := ih hxs (off + 1) (spool d (off, x, sel x gals)) (by
        intro j hj1 hj2
        rw [h1, hd1, if_neg (by omega)]
        exact hst j (by omega) (by simp only [List.length_cons]; omega)) d' hd'
      refine ⟨fun m => ?_, fun j => ?_⟩
      · rw [i1, h1, hf1]
        by_cases hm : m ∈ xs
        · have hmx : m ≠ x := by rintro rfl; exact hx hm
          simp [hm, hmx]
        · by_cases hmx : m = x
          · subst hmx; simp [hm]
          · simp [hm, hmx]
      · rw [i2, hd1]
        simp only [List.length_cons]
        by_cases hj : j = off
        · subst hj; rw [if_neg (by omega), if_pos rfl, if_pos (by omega)]
        · by_cases h2 : off + 1 ≤ j ∧ j < off + 1 + xs.length
          · rw [if_pos h2, if_pos (by omega)]
          · rw [if_neg h2, if_neg hj, if_neg (by omega)]

theorem spool_pixels (sel : μ → List (RGal α) → List (RRow α)) (modes : List μ) (hn : modes.Nodup) (file : μ → Option (List (RRow α)))
    (pixels : List (List (RGal α))) (d : Disk α μ) (hd : d = (events sel modes pixels).foldl spool ⟨file, fun _ => false⟩) :
    (∀ m, d.file m = if m ∈ modes ∧ pixels ≠ [] then some (pixels.flatMap (sel m)) else file m) ∧
    ∀ j, d.started j = if j < modes.length ∧ pixels ≠ [] then true else false := by
  induction pixels using List.reverseRecOn generalizing d with
  | nil => subst hd; simp [events]
  | append_singleton ps p ih =>
    unfold events at hd
    rw [List.flatMap_append, List.foldl_append, List.flatMap_singleton] at hd
    obtain ⟨i1, i2⟩ := ih ((events sel modes ps).foldl spool ⟨file, fun _ => false⟩) rfl
    obtain ⟨h1, h2⟩ := spool_modes sel p modes hn 0 ((events sel modes ps).foldl spool ⟨file, fun _ => false⟩) (by
      intro j _ hj
      rw [i2, i2]
      simp only [Nat.zero_add] at hj
      by_cases hps : ps = []
      · simp [hps]
      · rw [if_pos ⟨hj, hps⟩, if_pos ⟨by omega, hps⟩]) d hd
    refine ⟨fun m => ?_, fun j => ?_⟩
    · rw [h1, i1, i2]
      by_cases hm : m ∈ modes
      · have hl : 0 < modes.length := List.length_pos_of_mem hm
        by_cases hps : ps = []
        · subst hps; simp [hm]
        · simp [hm, hps, hl]
      · simp [hm]
    · rw [h2, i2]
      by_cases hj : j < modes.length
      · simp [hj]
      · simp [hj]

/-- C118.  A run that completes, over a list of different modes and at least one pixel: the file of each mode is the rows of the pixels in table
order, whatever was there before, and no other file is touched. -/
theorem C118_complete (sel : μ → List (RGal α) → List (RRow α)) (modes : List μ) (hn : modes.Nodup) (clobber : Bool) (pixels : List (List (RGal α)))
    (hp : pixels ≠ []) (file file' : μ → Option (List (RRow α))) (k : Nat) (hk : pixels.length * modes.length ≤ k)
    (h : runTo sel modes clobber pixels k file = .ok file') (m : μ) :
    file' m = if m ∈ modes then some (pixels.flatMap (sel m)) else file m := by
  unfold runTo at h
  split_ifs at h
  have hl : (events sel modes pixels).length = pixels.length * modes.length := by
    unfold events
    simp [List.length_flatMap, Nat.mul_comm]
  rw [List.take_of_length_le (by omega)] at h
  obtain rfl := Except.ok.inj h
  rw [(spool_pixels sel modes hn file pixels _ rfl).1 m]
  simp [hp]

/-- C118.  So the file of each mode is the selection made on the whole catalog at once. -/
theorem C118 (env : Env α μ) (modes : List μ) (hn : modes.Nodup) (hc : ∀ m ∈ modes, ∃ c, Entry env.cal m c)
    (sel : μ → List (RGal α) → List (RRow α)) (hsel : ∀ m ∈ modes, ∀ gals, ∃ gd, select env m gals = .ok (sel m gals, gd))
    (clobber : Bool) (pixels : List (List (RGal α))) (hp : pixels ≠ []) (file file' : μ → Option (List (RRow α))) (k : Nat)
    (hk : pixels.length * modes.length ≤ k) (h : runTo sel modes clobber pixels k file = .ok file') :
    (∀ m ∈ modes, ∃ rows gd, select env m pixels.flatten = .ok (rows, gd) ∧ file' m = some rows) ∧ ∀ m, m ∉ modes → file' m = file m := by
  refine ⟨fun m hm => ?_, fun m hm => ?_⟩
  · obtain ⟨c, hcm⟩ := hc m hm
    obtain ⟨rows, hr, hsplit⟩ := C118_split env m c hcm pixels
    have e : sel m = rows := by
      funext gals
      obtain ⟨gd, h1⟩ := hsel m hm gals
      obtain ⟨gd', h2⟩ := hr gals
      rw [h1] at h2
      exact (Prod.mk.inj (Except.ok.inj h2)).1
    obtain ⟨gd, hg⟩ := hr pixels.flatten
    refine ⟨_, gd, hg, ?_⟩
    rw [C118_complete sel modes hn clobber pixels hp file file' k hk h m, if_pos hm, hsplit, e]
  · rw [C118_complete sel modes hn clobber pixels hp file file' k hk h m, if_neg hm]

/-- C118.  A run interrupted after any number of writes: the file of each mode is as before the run, or holds exactly the rows of the first pixels of
the table, in order. -/
theorem C118_crash (sel : μ → List (RGal α) → List (RRow α)) (modes : List μ) (hn : modes.Nodup) (clobber : Bool) (pixels : List (List (RGal α)))
    (file file' : μ → Option (List (RRow α))) (k : Nat) (h : runTo sel modes clobber pixels k file = .ok file') (m : μ) :
    file' m = file m ∨ m ∈ modes ∧ ∃ n, 1 ≤ n ∧ n ≤ pixels.length ∧ file' m = some ((pixels.take n).flatMap (sel m)) := by
  unfold runTo at h
  split_ifs at h
  obtain rfl := Except.ok.inj h
  clear h
  -- split the writes into whole pixels and the first modes of the next
  by_cases hm0 : modes.length = 0
  · have : modes = [] := List.length_eq_zero_iff.mp hm0
    subst this
    left
    have : events sel [] pixels = [] := by simp [events, List.flatMap_eq_nil_iff]
    rw [this]; simp
  have hpos : 0 < modes.length := by omega
  have hev : ∀ (ps : List (List (RGal α))) (k : Nat), ∃ n, n ≤ ps.length ∧
      ((events sel modes ps).take k = events sel modes (ps.take n) ∨
       ∃ gals r, ps[n]? = some gals ∧ (events sel modes ps).take k =
        events sel modes (ps.take n) ++ (((modes.take r).zipIdx).map fun p => (p.2, p.1, sel p.1 gals))) := by
    intro ps
    induction ps with
    | nil => intro k; exact ⟨0, by simp, Or.inl (by simp [events])⟩
    | cons p ps ih =>
      intro k
      have he : events sel modes (p :: ps) = (modes.zipIdx.map fun q => (q.2, q.1, sel q.1 p)) ++ events sel modes ps := by
        simp [events]
      by_cases hk : k < modes.length
      · refine ⟨0, by simp, Or.inr ⟨p, k, by simp, ?_⟩⟩
        rw [he, List.take_append_of_le_length (by simp; omega)]
        simp only [List.take_zero, events, List.flatMap_nil, List.nil_append]
        rw [← List.map_take, List.zipIdx_eq_zip_range', List.zipIdx_eq_zip_range', List.zip_eq_zipWith, List.zip_eq_zipWith, List.take_zipWith]
        congr 2
        rw [List.take_range'_of_length_ge (by omega), List.length_take, Nat.min_eq_left (by omega)]
      · obtain ⟨n, hn1, hn2⟩ := ih (k - modes.length)
        have ht : (events sel modes (p :: ps)).take k = (modes.zipIdx.map fun q => (q.2, q.1, sel q.1 p)) ++ (events sel modes ps).take (k - modes.length) := by
          rw [he, List.take_append, List.take_of_length_le (by simp; omega)]
          simp
        have he2 : events sel modes ((p :: ps).take (n + 1)) = (modes.zipIdx.map fun q => (q.2, q.1, sel q.1 p)) ++ events sel modes (ps.take n) := by
          simp [events]
        refine ⟨n + 1, by simpa using hn1, ?_⟩
        rcases hn2 with h | ⟨gals, r, hg, h⟩
        · left; rw [ht, he2, h]
        · right
          refine ⟨gals, r, by simpa using hg, ?_⟩
          rw [ht, he2, h, List.append_assoc]
  obtain ⟨n, hn1, hcase⟩ := hev pixels k
  rcases hcase with h | ⟨gals, r, hg, h⟩
  · rw [h, (spool_pixels sel modes hn file (pixels.take n) _ rfl).1 m]
    by_cases hc : m ∈ modes ∧ pixels.take n ≠ []
    · rw [if_pos hc]
      right
      refine ⟨hc.1, n, ?_, hn1, rfl⟩
      rcases Nat.eq_zero_or_pos n with h0 | h0
      · exfalso; apply hc.2; rw [h0]; simp
      · exact h0
    · rw [if_neg hc]; exact Or.inl rfl
  · rw [h, List.foldl_append]
    obtain ⟨i1, i2⟩ := spool_pixels sel modes hn file (pixels.take n) _ rfl
    have hlt : n < pixels.length := (List.getElem?_eq_some_iff.mp hg).1
    have hst : ∀ j, 0 ≤ j → j < 0 + (modes.take r).length →
        ((events sel modes (pixels.take n)).foldl spool ⟨file, fun _ => false⟩).started j =
        ((events sel modes (pixels.take n)).foldl spool ⟨file, fun _ => false⟩).started 0 := by
      intro j _ hj
      rw [i2, i2]
      rw [List.length_take] at hj
      by_cases hps : pixels.take n = []
      · simp [hps]
      · rw [if_pos ⟨by omega, hps⟩, if_pos ⟨hpos, hps⟩]
    obtain ⟨h1, _⟩ := spool_modes sel gals (modes.take r) (hn.sublist (List.take_sublist r modes)) 0 _ hst _ rfl
    rw [h1 m, i1 m, i2 0]
    have hsucc : (pixels.take (n + 1)).flatMap (sel m) = (pixels.take n).flatMap (sel m) ++ sel m gals := by
      rw [List.take_succ, hg]; simp
    by_cases hmr : m ∈ modes.take r
    · have hm : m ∈ modes := List.mem_of_mem_take hmr
      right
      refine ⟨hm, n + 1, by omega, by omega, ?_⟩
      rw [if_pos hmr, hsucc]
      by_cases hps : pixels.take n = []
      · simp [hps]
      · simp [hps, hm, hpos]
    · rw [if_neg hmr]
      by_cases hc : m ∈ modes ∧ pixels.take n ≠ []
      · rw [if_pos hc]
        right
        refine ⟨hc.1, n, ?_, hn1, rfl⟩
        rcases Nat.eq_zero_or_pos n with h0 | h0
        · exfalso; apply hc.2; rw [h0]; simp
        · exact h0
      · rw [if_neg hc]; exact Or.inl rfl

/-- C118.  Without `clobber`, an existing file of any mode stops the run before anything is written; otherwise it runs. -/
theorem C118_clobber (sel : μ → List (RGal α) → List (RRow α)) (modes : List μ) (clobber : Bool) (pixels : List (List (RGal α))) (k : Nat)
    (file : μ → Option (List (RRow α))) :
    runTo sel modes clobber pixels k file = .error .runtimeError ↔ clobber = false ∧ ∃ m ∈ modes, file m ≠ none := by
  unfold runTo
  cases clobber with
  | true => simp
  | false =>
    by_cases h : ∃ m ∈ modes, file m ≠ none
    · have : (modes.any fun m => (file m).isSome) = true := by
        obtain ⟨m, hm, hf⟩ := h
        rw [List.any_eq_true]
        exact ⟨m, hm, Option.isSome_iff_ne_none.mpr hf⟩
      simp [this, h]
    · have : (modes.any fun m => (file m).isSome) = false := by
        rw [List.any_eq_false]
        intro m hm hs
        exact h ⟨m, hm, Option.isSome_iff_ne_none.mp hs⟩
      simp [this, h]

/-- C118.  The property without the hypothesis that the modes are different is false: a mode given twice has the galaxies of all pixels but the first
twice. -/
theorem C118_false : (runTo (fun (_ : Nat) (gals : List (RGal ℚ)) => gals.map (fullRow toyEnv toyCal)) [1, 1] true
    [[toyGal 7 19 1], [toyGal 8 19 1]] 4 (fun _ => none)).toOption.map (fun f => (f 1).map fun rows => rows.map RRow.id) =
    some (some [7, 8, 8]) := by decide +kernel

example : [1, 2].Nodup ∧ [[toyGal 7 19 1], [toyGal 8 19 1]] ≠ [] := by constructor <;> simp

/-! ## C119: the galaxies that are fitted are those that are selected -/

/-- A calibration entry made from the fit, without afterburner. -/
def fitted (nodes : Spline α) (c : RCal α) : RCal α := { c with cmax := call { nodes with fixextrap := true }, runAfter := false }

/-- C119 as one would state it: of the possible galaxies, those counted by the fit are those selected with the parameters recorded. -/
def C119_spec (m25 mstar : α → α) (zmax : α → α → α) (preLo preHi preEta : α) (nodes : Spline α) (c : RCal α) : Prop :=
  ∀ g, possible m25 mstar preLo preHi preEta c.maxchi c.lstarCushion c.etamin g = true →
    (counted m25 mstar zmax c.maxchi c.etamin nodes g.zred g = true ↔ passes m25 mstar zmax (fitted nodes c) g = true)

/-- C119, the part that holds: for galaxies whose raw redshift is within the nodes (which span the range of the cost function). -/
theorem C119_partial (m25 mstar : α → α) (zmax : α → α → α) (preLo preHi preEta : α) (nodes : Spline α) (c : RCal α)
    (h0 : nodes.x.getD 0 0 = c.costLo) (h1 : nodes.x.getD (nodes.x.length - 1) 0 = c.costHi) (hc : 0 < c.zCushion) (hb : 0 ≤ c.buffer) (g : RGal α)
    (hlo : c.costLo ≤ g.zred) (hhi : g.zred ≤ c.costHi)
    (hp : possible m25 mstar preLo preHi preEta c.maxchi c.lstarCushion c.etamin g = true) :
    counted m25 mstar zmax c.maxchi c.etamin nodes g.zred g = true ↔ passes m25 mstar zmax (fitted nodes c) g = true := by
  have e : call { nodes with fixextrap := true } g.zred = call { nodes with fixextrap := false } g.zred := by
    unfold call
    simp only [not_true, if_false, Bool.false_eq_true, not_false_eq_true, if_true]
    rw [if_neg (by rw [h1]; exact not_lt.mpr hhi), if_neg (by rw [h0]; exact not_lt.mpr hlo)]
    rfl
  unfold possible at hp
  simp only [Bool.and_eq_true, decide_eq_true_eq] at hp
  obtain ⟨⟨⟨⟨_, _⟩, hchi⟩, _⟩, hposs⟩ := hp
  rw [passes_iff]
  unfold counted
  simp only [Bool.and_eq_true, decide_eq_true_eq]
  constructor
  · rintro ⟨⟨a1, a2⟩, a3⟩
    refine ⟨?_, ?_, ?_, ?_, hposs, ?_⟩
    · simp only [fitted]; linarith
    · simp only [fitted]; linarith
    · simp only [fitted]; rw [e]; exact a1
    · simpa [fitted, Redshift] using a2
    · simpa [fitted, Redshift] using a3
  · intro hq
    refine ⟨⟨?_, ?_⟩, ?_⟩
    · have := hq.chi; simp only [fitted] at this; rwa [e] at this
    · simpa [fitted, Redshift] using hq.bright
    · simpa [fitted, Redshift] using hq.limit

/-- C119 is false: beyond the last node the fit extrapolates the chi-squared cut, the selection holds it constant. -/
theorem C119_false : ¬ C119_spec (fun _ => 0) (fun _ => 20) (fun _ _ => 1) (1 / 20) (3 / 4) (45 / 100) (⟨[1 / 5, 3 / 5], [1, 5], [0, 0], false⟩ : Spline ℚ) toyCal := by
  intro h
  have := h { toyGal 1 19 (51 / 10) with zred := 64 / 100 } (by decide +kernel)
  exact absurd this (by decide +kernel)

/-- The hypotheses of `C119_partial` hold there for a galaxy in the range. -/
example : possible (fun _ => 0) (fun _ => 20) (1 / 20) (3 / 4) (45 / 100) toyCal.maxchi toyCal.lstarCushion toyCal.etamin (toyGal 1 19 (51 / 10)) = true := by
  decide +kernel

/-- C119 for the sampled redshifts is false: with the afterburner run but not applied to the samples, the fit counts shifted samples and the
catalog has the unshifted ones. -/
theorem C119_samples (c : RCal α) (g : RGal α) (s : α) (hs : s ∈ g.samp) (hr : c.runAfter = true) :
    (c.applyAfter = true → fitSamp c.runAfter (c.bias g.zred) s ∈ zmagicSamp c g) ∧
    (c.applyAfter = false → s ∈ zmagicSamp c g ∧ (c.bias g.zred ≠ 0 → fitSamp c.runAfter (c.bias g.zred) s ≠ s)) := by
  unfold fitSamp zmagicSamp
  rw [hr]
  refine ⟨fun ha => ?_, fun ha => ?_⟩
  · rw [ha]; simpa using hs
  · rw [ha]; simp [hs]

/-! ## C120: the configuration of the run -/

/-- C120.  The calibration configuration is never overwritten by the run configuration: the name is another. -/
theorem C120_name (configfile : List Char) : runName configfile ≠ configfile := by
  unfold runName
  dsimp only
  by_cases h : replaceCal configfile = configfile
  · rw [if_pos h]
    clear h
    have key : ∀ s : List Char, beforeY s ++ "_run.yaml".toList ≠ s := by
      intro s
      induction s using beforeY.induct with
      | case1 t => rw [beforeY]; simp
      | case2 x rest hx ih =>
        rw [beforeY]
        · simpa using ih
        · exact hx
      | case3 => simp [beforeY]
    exact key configfile
  · rw [if_neg h]; exact h

theorem replaceCal_split (a rest : List Char) (ha : ¬ "cal".toList <:+: a) :
    replaceCal (a ++ ("cal".toList ++ rest)) = a ++ ("run".toList ++ replaceCal rest) := by
  induction a with
  | nil => rfl
  | cons x a ih =>
    have ih := ih (fun h => ha (h.trans (List.infix_cons (List.infix_refl a))))
    rw [List.cons_append, replaceCal, ih]
    · rfl
    · intro r hx hr
      subst hx
      rcases a with _ | ⟨y, _ | ⟨w, a⟩⟩
      · simp at hr
      · simp at hr
      · simp only [List.cons_append, List.cons.injEq] at hr
        obtain ⟨rfl, rfl, _⟩ := hr
        exact ha ⟨[], a, rfl⟩

theorem replaceCal_none (a : List Char) (ha : ¬ "cal".toList <:+: a) : replaceCal a = a := by
  induction a with
  | nil => rfl
  | cons x a ih =>
    have ih := ih (fun h => ha (h.trans (List.infix_cons (List.infix_refl a))))
    rw [replaceCal, ih]
    rintro r rfl rfl
    exact ha ⟨[], r, rfl⟩

theorem beforeY_none (a : List Char) (ha : ¬ ".y".toList <:+: a) : beforeY a = a := by
  induction a with
  | nil => rfl
  | cons x a ih =>
    have ih := ih (fun h => ha (h.trans (List.infix_cons (List.infix_refl a))))
    rw [beforeY, ih]
    rintro r rfl rfl
    exact ha ⟨[], r, rfl⟩

theorem beforeY_split (a rest : List Char) (ha : ¬ ".y".toList <:+: a) : beforeY (a ++ (".y".toList ++ rest)) = a := by
  induction a with
  | nil => rfl
  | cons x a ih =>
    have ih := ih (fun h => ha (h.trans (List.infix_cons (List.infix_refl a))))
    rw [List.cons_append, beforeY, ih]
    intro r hx hr
    subst hx
    rcases a with _ | ⟨y, a⟩
    · simp at hr
    · simp only [List.cons_append, List.cons.injEq] at hr
      obtain ⟨rfl, _⟩ := hr
      exact ha ⟨[], a, rfl⟩

theorem replaceCal_parts (parts : List (List Char)) (hp : ∀ p ∈ parts, ¬ "cal".toList <:+: p) :
    replaceCal ("cal".toList.intercalate parts) = "run".toList.intercalate parts := by
  induction parts with
  | nil => rfl
  | cons p ps ih =>
    have ih := ih (fun q hq => hp q (List.mem_cons_of_mem _ hq))
    rcases ps with _ | ⟨q, ps⟩
    · simpa using replaceCal_none p (hp p (by simp))
    · rw [List.intercalate_cons_cons, List.intercalate_cons_cons, List.append_assoc, List.append_assoc, replaceCal_split p _ (hp p (by simp)), ih]

/-- C120.  The name of the run configuration: every `cal` becomes `run`; a name without one loses what follows its first `.y`, with it, and ends in
`_run.yaml`. -/
theorem C120_run_name :
    (∀ (p q : List Char) (parts : List (List Char)), (∀ s ∈ p :: q :: parts, ¬ "cal".toList <:+: s) →
      runName ("cal".toList.intercalate (p :: q :: parts)) = "run".toList.intercalate (p :: q :: parts)) ∧
    (∀ a rest : List Char, ¬ "cal".toList <:+: (a ++ (".y".toList ++ rest)) → ¬ ".y".toList <:+: a →
      runName (a ++ (".y".toList ++ rest)) = a ++ "_run.yaml".toList) ∧
    ∀ a : List Char, ¬ "cal".toList <:+: a → ¬ ".y".toList <:+: a → runName a = a ++ "_run.yaml".toList := by
  refine ⟨?_, ?_, ?_⟩
  · intro p q parts h
    unfold runName
    simp only
    rw [replaceCal_parts _ h, if_neg]
    rw [List.intercalate_cons_cons, List.intercalate_cons_cons, List.append_assoc, List.append_assoc]
    intro e
    have := List.append_cancel_left e
    simp at this
  · intro a rest h1 h2
    unfold runName
    simp only
    rw [replaceCal_none _ h1, if_pos rfl, beforeY_split a rest h2]
  · intro a h1 h2
    unfold runName
    simp only
    rw [replaceCal_none _ h1, if_pos rfl, beforeY_none a h2]

/-- Two occurrences, and a name without any. -/
example : runName "cal/my_cal.yml".toList = "run/my_run.yml".toList ∧ runName "my.yaml".toList = "my_run.yaml".toList := by
  refine ⟨?_, ?_⟩
  · have := C120_run_name.1 [] "/my_".toList [".yml".toList] (by decide +kernel)
    simpa using this
  · exact C120_run_name.2.1 "my".toList "aml".toList (by decide +kernel) (by decide +kernel)

/-- C120 as one would state it: the task run after the calibration reads the configuration that the calibration has written. -/
def C120_spec (outpath : List Char) : Prop := ∀ configfile, readFrom configfile = writtenTo outpath configfile

/-- C120, the part that holds: with an empty output path. -/
theorem C120_partial : C120_spec [] := by intro c; simp [readFrom, writtenTo, joinPath]

/-- C120 is false of every other output path: another path is read than was written. -/
theorem C120_false (outpath : List Char) (h : outpath ≠ []) : ¬ C120_spec outpath := by
  intro hc
  have := congrArg List.length (hc [])
  unfold readFrom writtenTo joinPath at this
  rw [if_neg h] at this
  have hl : 0 < outpath.length := List.length_pos_iff.mpr h
  split_ifs at this
  · rw [List.length_append] at this; omega
  · rw [List.length_append, List.length_cons] at this; omega

/-- The usual name. -/
example : runName "redmagic_cal.yml".toList = "redmagic_run.yml".toList := by decide +kernel

end Redmapper.Redmagic
