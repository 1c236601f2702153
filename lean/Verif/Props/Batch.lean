/-
C328-C334: batch jobs.
-/
import Verif.Model.Batch
import Verif.Props.Config
import Mathlib.Data.List.Perm.Basic
import Mathlib.Tactic.Linarith

set_option linter.unusedSectionVars false
set_option linter.unusedSimpArgs false

namespace Redmapper.Batch

open Redmapper.Config (dec dec_inj)
open Redmapper.RsFile (splitComma)

/-! ## Specification -/

/-- The command that runs one pixel. -/
def Wanted (script config : Str) (nside : Nat) (dir : Str) (pixel : Nat) : Str :=
  script ++ " -c ".toList ++ config ++ " -p ".toList ++ dec pixel ++ " -n ".toList ++ dec nside ++ " -d ".toList ++ dir

/-- The name of the m-th job. -/
def Numbered (jobname ext : Str) (m : Nat) : Str := jobname ++ ['_'] ++ dec m ++ ext

/-! ## Lemmas on text -/

theorem dec_isDigit (n : Nat) : ∀ c ∈ dec n, c.isDigit = true := fun _ hc => Nat.isDigit_of_mem_toDigits (by decide) (by decide) hc

theorem dec_ne_nil (n : Nat) : dec n ≠ [] := Nat.toDigits_ne_nil

theorem dec_not (n : Nat) (x : Char) (hx : x.isDigit = false) : x ∉ dec n := fun h => by
  have := dec_isDigit n x h
  rw [hx] at this; exact absurd this (by simp)

theorem pct_cons (arg : Str) (u : Bool) (c : Char) (t : Str) (h : c ≠ '%') : pctAux arg u (c :: t) = (pctAux arg u t).map (c :: ·) := by
  cases t <;> simp [pctAux, h]

theorem pct_clean (arg : Str) (u : Bool) (s t : Str) (h : '%' ∉ s) : pctAux arg u (s ++ t) = (pctAux arg u t).map (s ++ ·) := by
  induction s with
  | nil => rw [List.nil_append]; cases pctAux arg u t <;> rfl
  | cons c s ih =>
    simp only [List.mem_cons, not_or] at h
    rw [List.cons_append, pct_cons _ _ _ _ (fun e => h.1 e.symm), ih h.2]
    cases pctAux arg u t <;> simp [Except.map]

theorem pct_s (arg t : Str) : pctAux arg false ('%' :: 's' :: t) = (pctAux arg true t).map (arg ++ ·) := by
  simp [pctAux]

theorem pct_hole (arg a b : Str) (ha : '%' ∉ a) (hb : '%' ∉ b) : pct (a ++ '%' :: 's' :: b) arg = .ok (a ++ arg ++ b) := by
  have hb' : pctAux arg true b = .ok b := by
    have := pct_clean arg true b [] hb
    simpa [pctAux, Except.map] using this
  rw [pct, pct_clean _ _ _ _ ha, pct_s, hb']
  simp [Except.map]

theorem expand_skip (w : Str) (s t : Str) : expandAux w s.length (s ++ t) = expandAux w 0 t := by
  induction s with
  | nil => rfl
  | cons c s ih => simpa [expandAux] using ih

theorem expand_clean (w : Str) (s t : Str) (h : '$' ∉ s) : expandAux w 0 (s ++ t) = s ++ expandAux w 0 t := by
  induction s with
  | nil => rfl
  | cons c s ih =>
    simp only [List.mem_cons, not_or] at h
    rw [List.cons_append, expandAux, if_neg, ih h.2, List.cons_append]
    intro hp
    have : c = '$' := by
      have := List.isPrefixOf_iff_prefix.mp hp
      obtain ⟨r, hr⟩ := this
      have hm : marker = '$' :: marker.tail := by decide +kernel
      rw [hm, List.cons_append] at hr
      exact (List.cons.inj hr).1.symm
    exact h.1 this.symm

theorem expand_marker (w t : Str) : expandAux w 0 (marker ++ t) = w ++ expandAux w 0 t := by
  have hm : marker = '$' :: marker.tail := by decide +kernel
  have hp : marker.isPrefixOf (marker ++ t) = true := List.isPrefixOf_iff_prefix.mpr ⟨t, rfl⟩
  have hl : marker.length - 1 = marker.tail.length := by simp
  have key : ∀ l : Str, l = marker ++ t → expandAux w 0 l = w ++ expandAux w 0 t := by
    intro l hl'
    cases l with
    | nil => rw [hm] at hl'; simp at hl'
    | cons c l' =>
      have h2 : l' = marker.tail ++ t := by
        rw [hm, List.cons_append] at hl'; exact (List.cons.inj hl').2
      rw [expandAux, hl', if_pos hp, hl, h2, expand_skip]
  exact key _ rfl

theorem expand_hole (w a b : Str) (ha : '$' ∉ a) (hb : '$' ∉ b) : expand w (a ++ marker ++ b) = a ++ w ++ b := by
  have hb' : expandAux w 0 b = b := by simpa [expandAux] using expand_clean w b [] hb
  rw [expand, List.append_assoc, expand_clean _ _ _ ha, expand_marker, hb', List.append_assoc]

theorem fmt_skip (w : Str) (s t : Str) : fmtAux w s.length (s ++ t) = fmtAux w 0 t := by
  induction s with
  | nil => rfl
  | cons c s ih => simpa [fmtAux] using ih

theorem fmt_clean (w : Str) (s t : Str) (h : '{' ∉ s) (h' : '}' ∉ s) : fmtAux w 0 (s ++ t) = (fmtAux w 0 t).map (s ++ ·) := by
  induction s with
  | nil => rw [List.nil_append]; cases fmtAux w 0 t <;> rfl
  | cons c s ih =>
    simp only [List.mem_cons, not_or] at h h'
    rw [List.cons_append, fmtAux, if_neg (fun e => h.1 e.symm), if_neg (fun e => h'.1 e.symm), ih h.2 h'.2]
    cases fmtAux w 0 t <;> simp [Except.map]

theorem fmt_field (w t : Str) : fmtAux w 0 ("{pixel}".toList ++ t) = (fmtAux w 0 t).map (w ++ ·) := by
  have hm : "{pixel}".toList = '{' :: "pixel}".toList := by decide +kernel
  have hp : "pixel}".toList.isPrefixOf ("pixel}".toList ++ t) = true := List.isPrefixOf_iff_prefix.mpr ⟨t, rfl⟩
  have hh : ("pixel}".toList ++ t).head? ≠ some '{' := by
    have : "pixel}".toList = 'p' :: "ixel}".toList := by decide +kernel
    rw [this]; simp
  have hl : "pixel}".toList.length = 6 := by decide +kernel
  rw [hm, List.cons_append, fmtAux, if_pos rfl, if_neg hh, if_pos hp]
  have := fmt_skip w "pixel}".toList t
  rw [hl] at this
  rw [this]

/-- A text with its braces doubled. -/
def doubled (s : Str) : Str := s.flatMap fun c => if c = '{' then "{{".toList else if c = '}' then "}}".toList else [c]

theorem fmt_doubled (w : Str) (s t : Str) : fmtAux w 0 (doubled s ++ t) = (fmtAux w 0 t).map (s ++ ·) := by
  induction s with
  | nil => simp only [doubled, List.flatMap_nil, List.nil_append]; cases fmtAux w 0 t <;> rfl
  | cons c s ih =>
    have hd : doubled (c :: s) = (if c = '{' then "{{".toList else if c = '}' then "}}".toList else [c]) ++ doubled s := rfl
    have h1 : "{{".toList = ['{', '{'] := by decide +kernel
    have h2 : "}}".toList = ['}', '}'] := by decide +kernel
    have hs : ∀ x y, fmtAux w 1 (x :: y) = fmtAux w 0 y := fun _ _ => rfl
    by_cases hc : c = '{'
    · rw [hd, if_pos hc, h1, hc]
      show fmtAux w 0 ('{' :: '{' :: (doubled s ++ t)) = _
      rw [fmtAux, if_pos rfl, if_pos (by rfl), hs, ih]
      cases fmtAux w 0 t <;> rfl
    · by_cases hc' : c = '}'
      · rw [hd, if_neg hc, if_pos hc', h2, hc']
        show fmtAux w 0 ('}' :: '}' :: (doubled s ++ t)) = _
        rw [fmtAux, if_neg (by decide), if_pos rfl, if_pos (by rfl), hs, ih]
        cases fmtAux w 0 t <;> rfl
      · rw [hd, if_neg hc, if_neg hc']
        show fmtAux w 0 (c :: (doubled s ++ t)) = _
        rw [fmtAux, if_neg hc, if_neg hc', ih]
        cases fmtAux w 0 t <;> rfl

/-- Braces that are doubled are braces of the command. -/
theorem fmt_hole_doubled (w a b : Str) : fmtPixel w (doubled a ++ "{pixel}".toList ++ doubled b) = .ok (a ++ w ++ b) := by
  have h : fmtAux w 0 (doubled b) = .ok b := by simpa [fmtAux, Except.map] using fmt_doubled w b []
  rw [fmtPixel, List.append_assoc, fmt_doubled, fmt_field, h]
  simp [Except.map]

theorem fmt_hole (w a b : Str) (ha : '{' ∉ a) (ha' : '}' ∉ a) (hb : '{' ∉ b) (hb' : '}' ∉ b) :
    fmtPixel w (a ++ "{pixel}".toList ++ b) = .ok (a ++ w ++ b) := by
  have h : fmtAux w 0 b = .ok b := by simpa [fmtAux, Except.map] using fmt_clean w b [] hb hb'
  rw [fmtPixel, List.append_assoc, fmt_clean _ _ _ ha ha', fmt_field, h]
  simp [Except.map]

theorem words_end (acc s : Str) (h : ' ' ∉ s) : wordsAux acc s = if acc = [] ∧ s = [] then [] else [acc.reverse ++ s] := by
  induction s generalizing acc with
  | nil => by_cases ha : acc = [] <;> simp [wordsAux, ha]
  | cons c s ih =>
    simp only [List.mem_cons, not_or] at h
    rw [wordsAux, if_neg (fun e => h.1 e.symm), ih _ h.2]
    simp

theorem words_blank (acc s t : Str) (h : ' ' ∉ s) :
    wordsAux acc (s ++ ' ' :: t) = (if acc = [] ∧ s = [] then [] else [acc.reverse ++ s]) ++ wordsAux [] t := by
  induction s generalizing acc with
  | nil => by_cases ha : acc = [] <;> simp [wordsAux, ha]
  | cons c s ih =>
    simp only [List.mem_cons, not_or] at h
    rw [List.cons_append, wordsAux, if_neg (fun e => h.1 e.symm), ih _ h.2]
    simp

theorem words_cons (s t : Str) (h : ' ' ∉ s) (hs : s ≠ []) : words (s ++ ' ' :: t) = s :: words t := by
  rw [words, words_blank _ _ _ h]; simp [hs, words]

theorem words_last (s : Str) (h : ' ' ∉ s) (hs : s ≠ []) : words s = [s] := by
  rw [words, words_end _ _ h]; simp [hs]

theorem words_pixText (pixels : List Nat) : words (pixText pixels) = pixels.map dec := by
  induction pixels with
  | nil => rfl
  | cons p ps ih =>
    have : pixText (p :: ps) = dec p ++ ' ' :: pixText ps := by simp [pixText]
    rw [this, words_cons _ _ (dec_not p ' ' (by decide)) (dec_ne_nil p), ih, List.map_cons]

/-! ## C328 -/

/-- **C328**.  When each pixel of the galaxy table lies in one pixel of the jobs, every galaxy lies in a pixel that is run, no pixel is run twice, and
every pixel that is run has a pixel of the table in it. -/
theorem C328_cover_partial {π : Type} (center : Nat → π) (tabpix ang2pix : π → Nat) (parent : Nat → Nat) (table : List Nat)
    (hc : ∀ q ∈ table, tabpix (center q) = q) (hn : ∀ x, ang2pix x = parent (tabpix x)) :
    (∀ x, tabpix x ∈ table → ang2pix x ∈ pixelsRun center ang2pix table) ∧ (pixelsRun center ang2pix table).Nodup ∧
    (∀ p ∈ pixelsRun center ang2pix table, ∃ q ∈ table, parent q = p) := by
  refine ⟨?_, (List.perm_insertionSort _ _).nodup_iff.mpr (List.nodup_dedup _), ?_⟩
  · intro x hx
    simp only [pixelsRun, List.mem_insertionSort, List.mem_dedup, List.mem_map]
    exact ⟨tabpix x, hx, by rw [hn, hc _ hx, hn]⟩
  · intro p hp
    simp only [pixelsRun, List.mem_insertionSort, List.mem_dedup, List.mem_map] at hp
    obtain ⟨q, hq, rfl⟩ := hp
    exact ⟨q, hq, by rw [hn, hc q hq]⟩

/-- Positions are numbers, a pixel of the table is ten of them, one of the jobs forty. -/
example : pixelsRun (fun q => 10 * q + 5) (fun x => x / 40) [0, 3, 9] = [0, 2] ∧ (∀ q : Nat, (10 * q + 5) / 10 = q) ∧
    ∀ x : Nat, x / 40 = (x / 10) / 4 := by
  refine ⟨by decide +kernel, fun q => by omega, fun x => by omega⟩

/-- Without that it is false: with jobs of finer pixels than the table has, the galaxies away from the centres of the pixels of the table are in no job. -/
theorem C328_false : ∃ (center tabpix ang2pix : Nat → Nat) (table : List Nat), (∀ q ∈ table, tabpix (center q) = q) ∧
    (∀ x, tabpix x = ang2pix x / 2) ∧ ∃ x, tabpix x ∈ table ∧ ang2pix x ∉ pixelsRun center ang2pix table :=
  ⟨fun q => 10 * q + 5, fun x => x / 10, fun x => x / 5, [0], by decide +kernel, fun x => by simp only; omega, 0, by decide +kernel, by decide +kernel⟩

/-! ## C329, C330: what a job runs -/

/-- A text without characters that formats, the shell or quotes would change. -/
def Plain (s : Str) : Prop := ∀ c ∈ s, c ≠ '%' ∧ c ≠ '$' ∧ c ≠ '{' ∧ c ≠ '}' ∧ c ≠ '\'' ∧ c ≠ '\\' ∧ c ≠ ' '

instance (s : Str) : Decidable (Plain s) := by unfold Plain; infer_instance

theorem modeOf_plain (r : Int) (t s : Str) (h : modeOf r = .ok (t, s)) : Plain s ∧ s ≠ [] := by
  unfold modeOf at h
  split_ifs at h <;> (cases h; decide +kernel)

theorem dec_plain (n : Nat) : Plain (dec n) := by
  intro c hc
  have h := dec_isDigit n c hc
  refine ⟨?_, ?_, ?_, ?_, ?_, ?_, ?_⟩ <;> (rintro rfl; simp at h)

/-- Text before the pixel. -/
def pre (script config : Str) : Str := script ++ " -c ".toList ++ config ++ " -p ".toList

/-- Text after the pixel. -/
def post (nside : Nat) (dir : Str) : Str := " -n ".toList ++ dec nside ++ " -d ".toList ++ dir

theorem runCommand_eq (script config : Str) (nside : Nat) (dir : Str) :
    runCommand script config nside dir = pre script config ++ '%' :: 's' :: post nside dir := by
  have h : " -p %s -n ".toList = " -p ".toList ++ '%' :: 's' :: " -n ".toList := by decide +kernel
  simp only [runCommand, pre, post, h, List.append_assoc, List.cons_append]

theorem wanted_eq (script config : Str) (nside : Nat) (dir : Str) (p : Nat) :
    Wanted script config nside dir p = pre script config ++ dec p ++ post nside dir := by
  simp only [Wanted, pre, post, List.append_assoc]

theorem not_pre (x : Char) (script config : Str) (h1 : x ∉ script) (h2 : x ∉ config) (h3 : x ∉ " -c ".toList) (h4 : x ∉ " -p ".toList) :
    x ∉ pre script config := by
  simp only [pre, List.mem_append, not_or]; exact ⟨⟨⟨h1, h3⟩, h2⟩, h4⟩

theorem not_post (x : Char) (nside : Nat) (dir : Str) (h1 : x ∉ dir) (h2 : x ∉ dec nside) (h3 : x ∉ " -n ".toList) (h4 : x ∉ " -d ".toList) :
    x ∉ post nside dir := by
  simp only [post, List.mem_append, not_or]; exact ⟨⟨⟨h3, h2⟩, h4⟩, h1⟩

/-- **C329** (job arrays).  With paths without special characters the array has one element for each pixel, in their order, and the command of each element is
that of its pixel. -/
theorem C329_array (s : Section) (hs : s.get "batch".toList = some "lsf".toList) (script config : Str) (nside : Nat) (dir : Str) (pixels : List Nat)
    (h1 : '%' ∉ script ∧ '$' ∉ script) (h2 : '%' ∉ config ∧ '$' ∉ config) (h3 : '%' ∉ dir ∧ '$' ∉ dir) :
    (writeJob s (runCommand script config nside dir) pixels).2 = none ∧
    jobRuns (writeJob s (runCommand script config nside dir) pixels).1 = .ok (pixels.map (Wanted script config nside dir)) := by
  have hd := dec_plain nside
  have a1 := not_pre '%' script config h1.1 h2.1 (by decide +kernel) (by decide +kernel)
  have a2 := not_pre '$' script config h1.2 h2.2 (by decide +kernel) (by decide +kernel)
  have b1 := not_post '%' nside dir h3.1 (fun h => (hd _ h).1 rfl) (by decide +kernel) (by decide +kernel)
  have b2 := not_post '$' nside dir h3.2 (fun h => (hd _ h).2.1 rfl) (by decide +kernel) (by decide +kernel)
  have hp : pct (runCommand script config nside dir) marker = .ok (pre script config ++ marker ++ post nside dir) := by
    rw [runCommand_eq]; exact pct_hole _ _ _ a1 b1
  have hw : writeJob s (runCommand script config nside dir) pixels =
      (.array pixels.length (pixText pixels) (pre script config ++ marker ++ post nside dir), none) := by
    simp only [writeJob, hs, Option.getD_some, if_true, hp]
  rw [hw]
  refine ⟨rfl, ?_⟩
  simp only [jobRuns, words_pixText]
  congr 1
  apply List.ext_getElem
  · simp
  · intro i hi hi'
    simp only [List.getElem_map, List.getElem_range]
    have hlt : i < pixels.length := by simpa using hi'
    have : (pixels.map dec).getD i [] = dec pixels[i] := by
      rw [List.getD_eq_getElem?_getD, List.getElem?_map, List.getElem?_eq_getElem hlt]; rfl
    rw [this, expand_hole _ _ _ a2 b2, wanted_eq]

theorem parsl_runs (pixels : List Nat) (a b : Str) (ha : '{' ∉ a) (ha' : '}' ∉ a) (hb : '{' ∉ b) (hb' : '}' ∉ b)
    (hq : ∀ c, c = '\'' ∨ c = '\\' → c ∉ a ∧ c ∉ b) :
    jobRuns (.parsl pixels (a ++ "{pixel}".toList ++ b)) = .ok (pixels.map fun p => a ++ dec p ++ b) := by
  have hn : ((a ++ "{pixel}".toList ++ b).any fun c => decide (c = '\'') || decide (c = '\\')) = false := by
    rw [List.any_eq_false]
    intro c hc
    simp only [Bool.or_eq_true, decide_eq_true_eq]
    intro h
    have := hq c h
    simp only [List.mem_append] at hc
    rcases hc with (hc | hc) | hc
    · exact this.1 hc
    · rcases h with rfl | rfl <;> exact absurd hc (by decide +kernel)
    · exact this.2 hc
  simp only [jobRuns, hn, Bool.false_eq_true, if_false]
  induction pixels with
  | nil => rfl
  | cons p ps ih => rw [List.foldr_cons, ih, fmt_hole _ _ _ ha ha' hb hb', List.map_cons]

/-- **C330** (parsl).  With plain paths a parsl script runs the same commands as a job array, each pixel once, in their order; with an image each within
the image. -/
theorem C330_parsl (s : Section) (hs : s.get "batch".toList = some "parsl".toList)
    (hp : s.get "parsl_provider".toList = some "local".toList ∨ s.get "parsl_provider".toList = some "slurm".toList) (image : Str)
    (hi : s.get "image".toList = some image) (script config : Str) (nside : Nat) (dir : Str) (pixels : List Nat)
    (h1 : Plain script) (h2 : Plain config) (h3 : Plain dir) (h4 : Plain image) :
    (writeJob s (runCommand script config nside dir) pixels).2 = none ∧
    jobRuns (writeJob s (runCommand script config nside dir) pixels).1 = .ok (pixels.map fun p =>
      if image = [] then Wanted script config nside dir p
      else "shifter --image=".toList ++ image ++ " /bin/bash -c \". /opt/redmapper/startup.sh && ".toList ++ Wanted script config nside dir p ++ ['"']) := by
  have hd := dec_plain nside
  have no : ∀ x, x = '%' ∨ x = '{' ∨ x = '}' ∨ x = '\'' ∨ x = '\\' → x ∉ pre script config ∧ x ∉ post nside dir ∧ x ∉ image := by
    intro x hx
    have f : ∀ t, Plain t → x ∉ t := by
      intro t ht h
      have := ht x h
      rcases hx with rfl | rfl | rfl | rfl | rfl <;> simp at this
    refine ⟨not_pre x _ _ (f _ h1) (f _ h2) ?_ ?_, not_post x _ _ (f _ h3) (f _ hd) ?_ ?_, f _ h4⟩ <;>
      (rcases hx with rfl | rfl | rfl | rfl | rfl <;> decide +kernel)
  have hp' : pct (runCommand script config nside dir) "{pixel}".toList = .ok (pre script config ++ "{pixel}".toList ++ post nside dir) := by
    rw [runCommand_eq]; exact pct_hole _ _ _ (no _ (by simp)).1 (no _ (by simp)).2.1
  have hprov : ((s.get "parsl_provider".toList).getD [] = "local".toList ∨ (s.get "parsl_provider".toList).getD [] = "slurm".toList) := by
    rcases hp with h | h <;> rw [h] <;> simp
  have hw : writeJob s (runCommand script config nside dir) pixels =
      (.parsl pixels (parslCommand image (pre script config ++ "{pixel}".toList ++ post nside dir)), none) := by
    simp only [writeJob, hs, Option.getD_some]
    rw [if_neg (by decide +kernel), if_neg (by decide +kernel), if_pos trivial, if_pos hprov, hp', hi]
    rfl
  rw [hw]
  refine ⟨rfl, ?_⟩
  by_cases him : image = []
  · simp only [parslCommand, if_pos him]
    rw [parsl_runs _ _ _ (no _ (by simp)).1 (no _ (by simp)).1 (no _ (by simp)).2.1 (no _ (by simp)).2.1
      (fun c hc => ⟨(no c (by tauto)).1, (no c (by tauto)).2.1⟩)]
    simp only [wanted_eq]
  · simp only [parslCommand, if_neg him]
    set A := "shifter --image=".toList ++ image ++ " /bin/bash -c \". /opt/redmapper/startup.sh && ".toList ++ pre script config with hA
    set B := post nside dir ++ ['"'] with hB
    have e : "shifter --image=".toList ++ image ++ " /bin/bash -c \". /opt/redmapper/startup.sh && ".toList ++
        (pre script config ++ "{pixel}".toList ++ post nside dir) ++ ['"'] = A ++ "{pixel}".toList ++ B := by
      simp only [hA, hB, List.append_assoc]
    have nA : ∀ x, x = '{' ∨ x = '}' ∨ x = '\'' ∨ x = '\\' → x ∉ A ∧ x ∉ B := by
      intro x hx
      have h := no x (by tauto)
      refine ⟨?_, ?_⟩
      · simp only [hA, List.mem_append, not_or]
        refine ⟨⟨⟨?_, h.2.2⟩, ?_⟩, h.1⟩ <;> (rcases hx with rfl | rfl | rfl | rfl <;> decide +kernel)
      · simp only [hB, List.mem_append, not_or]
        refine ⟨h.2.1, ?_⟩
        rcases hx with rfl | rfl | rfl | rfl <;> decide +kernel
    rw [e, parsl_runs _ _ _ (nA _ (by simp)).1 (nA _ (by simp)).1 (nA _ (by simp)).2 (nA _ (by simp)).2 (fun c hc => nA c (by tauto))]
    simp only [wanted_eq, hA, hB, List.append_assoc]

/-- **C329** (arguments).  The script of a pixel gets the configuration, pixel, nside and path that were asked for. -/
theorem C329_args_partial (runmode : Int) (jobtype script config : Str) (nside : Nat) (dir : Str) (p : Nat) (hm : modeOf runmode = .ok (jobtype, script))
    (h2 : ' ' ∉ config ∧ config ≠ []) (h3 : ' ' ∉ dir ∧ dir ≠ []) :
    ∃ l, words (Wanted script config nside dir p) = script :: l ∧ parseArgs l = some ⟨config, p, nside, dir⟩ := by
  obtain ⟨hs, hs'⟩ := modeOf_plain _ _ _ hm
  have e : Wanted script config nside dir p =
      script ++ ' ' :: ("-c".toList ++ ' ' :: (config ++ ' ' :: ("-p".toList ++ ' ' :: (dec p ++ ' ' :: ("-n".toList ++ ' ' :: (dec nside ++ ' ' ::
        ("-d".toList ++ ' ' :: dir))))))) := by
    have e1 : " -c ".toList = ' ' :: ("-c".toList ++ [' ']) := by decide +kernel
    have e2 : " -p ".toList = ' ' :: ("-p".toList ++ [' ']) := by decide +kernel
    have e3 : " -n ".toList = ' ' :: ("-n".toList ++ [' ']) := by decide +kernel
    have e4 : " -d ".toList = ' ' :: ("-d".toList ++ [' ']) := by decide +kernel
    simp only [Wanted, e1, e2, e3, e4, List.append_assoc, List.cons_append, List.nil_append]
  refine ⟨["-c".toList, config, "-p".toList, dec p, "-n".toList, dec nside, "-d".toList, dir], ?_, ?_⟩
  · rw [e, words_cons _ _ (fun h => (hs _ h).2.2.2.2.2.2 rfl) hs', words_cons _ _ (by decide +kernel) (by decide +kernel), words_cons _ _ h2.1 h2.2,
      words_cons _ _ (by decide +kernel) (by decide +kernel), words_cons _ _ (fun h => (dec_plain p _ h).2.2.2.2.2.2 rfl) (dec_ne_nil p),
      words_cons _ _ (by decide +kernel) (by decide +kernel), words_cons _ _ (fun h => (dec_plain nside _ h).2.2.2.2.2.2 rfl) (dec_ne_nil nside),
      words_cons _ _ (by decide +kernel) (by decide +kernel), words_last _ h3.1 h3.2]
  · have hr : ∀ n, readNat (dec n) = some n := by
      intro n
      rw [readNat, if_pos ⟨dec_ne_nil n, List.all_eq_true.mpr (dec_isDigit n)⟩]
      simp [dec]
    have ho : options ["-c".toList, config, "-p".toList, dec p, "-n".toList, dec nside, "-d".toList, dir] =
        some [("-d".toList, dir), ("-n".toList, dec nside), ("-p".toList, dec p), ("-c".toList, config)] := by
      simp [options]
    have n1 : "-d".toList ≠ "-c".toList := by decide +kernel
    have n2 : "-n".toList ≠ "-c".toList := by decide +kernel
    have n3 : "-p".toList ≠ "-c".toList := by decide +kernel
    have n4 : "-d".toList ≠ "-p".toList := by decide +kernel
    have n5 : "-n".toList ≠ "-p".toList := by decide +kernel
    have n6 : "-d".toList ≠ "-n".toList := by decide +kernel
    unfold parseArgs
    rw [ho]
    simp only [List.all_cons, List.all_nil, List.find?_cons, n1, n2, n3, n4, n5, n6, decide_true, decide_false, Bool.or_true, Bool.true_or, Bool.and_self,
      if_true, Option.bind_some, hr, Option.map_some, Option.getD_some, Bool.or_self, Bool.or_false]

/-- A case of both: plain paths, two pixels. -/
example : jobRuns (writeJob [("batch".toList, "lsf".toList)]
    (runCommand "redmapper_runcat_pixel.py".toList "/a/run.yml".toList 8 "/a".toList) [3, 27]).1 =
    .ok ["redmapper_runcat_pixel.py -c /a/run.yml -p 3 -n 8 -d /a".toList, "redmapper_runcat_pixel.py -c /a/run.yml -p 27 -n 8 -d /a".toList] := by
  decide +kernel

example : Plain "/a/run.yml".toList ∧ modeOf 2 = .ok ("runcat".toList, "redmapper_runcat_pixel.py".toList) := by decide +kernel

/-- Paths with a percent sign: either no job is written, or the job is for another file. -/
theorem C329_percent_false :
    (writeJob [("batch".toList, "lsf".toList)] (runCommand "redmapper_runcat_pixel.py".toList "/a/50%.yml".toList 8 "/a".toList) [3]).2 ≠ none ∧
    jobRuns (writeJob [("batch".toList, "lsf".toList)] (runCommand "redmapper_runcat_pixel.py".toList "/a/5%%.yml".toList 8 "/a".toList) [3]).1 =
      .ok ["redmapper_runcat_pixel.py -c /a/5%.yml -p 3 -n 8 -d /a".toList] := by
  decide +kernel

/-- Paths with a blank: the script does not get its arguments. -/
theorem C329_blank_false : parseArgs ((words (Wanted "redmapper_runcat_pixel.py".toList "/a b/run.yml".toList 8 "/a b".toList 3)).drop 1) = none := by
  decide +kernel

/-- Paths with braces: a job array runs, a parsl script does not. -/
theorem C330_braces_false :
    jobRuns (writeJob [("batch".toList, "parsl".toList), ("parsl_provider".toList, "local".toList), ("image".toList, [])]
      (runCommand "redmapper_runcat_pixel.py".toList "/a/{x}.yml".toList 8 "/a".toList) [3]).1 = .error .key ∧
    jobRuns (writeJob [("batch".toList, "lsf".toList)] (runCommand "redmapper_runcat_pixel.py".toList "/a/{x}.yml".toList 8 "/a".toList) [3]).1 =
      .ok [Wanted "redmapper_runcat_pixel.py".toList "/a/{x}.yml".toList 8 "/a".toList 3] := by
  decide +kernel

/-! ## C331: numbers of jobs -/

/-- One more job of the same name. -/
def step (jobname ext : Str) (d : Dir) (j : Job) : Dir := d.put (jobFile d jobname ext) j

theorem get_put (d : Dir) (n m : Str) (j : Job) : (d.put n j).get m = if m = n then some j else d.get m := by
  by_cases h : m = n
  · subst h; simp [Dir.put, Dir.get]
  · rw [if_neg h, Dir.put, Dir.get, List.find?_cons_of_neg (by simpa using fun e => h e.symm), Dir.get, List.find?_filter]
    congr 1
    apply List.find?_congr
    intro x _
    by_cases hx : x.1 = m
    · simp [hx, h]
    · simp [hx]

theorem mem_put (d : Dir) (n m : Str) (j : Job) : m ∈ (d.put n j).map Prod.fst ↔ m = n ∨ m ∈ d.map Prod.fst := by
  simp only [Dir.put, List.map_cons, List.mem_cons, List.mem_map, List.mem_filter, decide_eq_true_eq]
  constructor
  · rintro (h | ⟨x, ⟨hx, _⟩, rfl⟩)
    · exact .inl h
    · exact .inr ⟨x, hx, rfl⟩
  · rintro (h | ⟨x, hx, rfl⟩)
    · exact .inl h
    · by_cases hn : x.1 = n
      · exact .inl hn
      · exact .inr ⟨x, ⟨hx, by simpa using hn⟩, rfl⟩

theorem numbered_inj (jobname ext : Str) (a b : Nat) (h : Numbered jobname ext a = Numbered jobname ext b) : a = b := by
  unfold Numbered at h
  exact dec_inj _ _ (List.append_cancel_left (List.append_cancel_right h))

theorem dec_len_one (m : Nat) : (dec m).length = 1 ↔ m < 10 := by
  unfold dec
  constructor
  · intro h
    by_contra hm
    push Not at hm
    have h2 := Nat.toDigits_of_base_le (b := 10) (n := m) (by decide) hm
    rw [h2, List.length_append] at h
    have : (Nat.toDigits 10 (m / 10)).length ≠ 0 := by
      intro h0
      exact Nat.toDigits_ne_nil (List.length_eq_zero_iff.mp h0)
    simp at h
  · intro h
    rw [Nat.toDigits_of_lt_base h]
    rfl

theorem globbed_numbered (jobname ext : Str) (m : Nat) : globbed jobname ext (Numbered jobname ext m) = decide (m < 10) := by
  have h1 : (jobname ++ ['_']).isPrefixOf (Numbered jobname ext m) = true :=
    List.isPrefixOf_iff_prefix.mpr ⟨dec m ++ ext, by simp [Numbered, List.append_assoc]⟩
  have h2 : ext.isSuffixOf (Numbered jobname ext m) = true := List.isSuffixOf_iff_suffix.mpr ⟨jobname ++ ['_'] ++ dec m, rfl⟩
  have h3 : (Numbered jobname ext m).length = jobname.length + 2 + ext.length ↔ m < 10 := by
    rw [← dec_len_one]; simp only [Numbered, List.length_append, List.length_singleton]; omega
  unfold globbed
  rw [h1, h2]
  simp only [Bool.and_true, h3]

theorem count_of (d : Dir) (jobname ext : Str) (k : Nat)
    (h : ∀ n, (n ∈ d.map Prod.fst ∧ globbed jobname ext n = true) ↔ ∃ m, 1 ≤ m ∧ m ≤ k ∧ n = Numbered jobname ext m) : countJobs d jobname ext = k := by
  have hp : ((d.map Prod.fst).dedup.filter (globbed jobname ext)).Perm ((List.range k).map fun i => Numbered jobname ext (i + 1)) := by
    apply (List.perm_ext_iff_of_nodup ?_ ?_).mpr
    · intro n
      rw [List.mem_filter, List.mem_dedup, h n]
      simp only [List.mem_map, List.mem_range]
      constructor
      · rintro ⟨m, h1, h2, rfl⟩; exact ⟨m - 1, by omega, by congr 1; omega⟩
      · rintro ⟨i, hi, rfl⟩; exact ⟨i + 1, by omega, by omega, rfl⟩
    · exact (List.nodup_dedup _).filter _
    · refine List.Nodup.map ?_ List.nodup_range
      intro a b hab
      have := numbered_inj _ _ _ _ hab
      omega
  unfold countJobs
  rw [hp.length_eq]; simp

/-- State of the directory after jobs `js`. -/
theorem jobs_inv (jobname ext : Str) (d : Dir) (hd : ∀ n ∈ d.map Prod.fst, ¬ (jobname ++ ['_']) <+: n) (js : List Job) :
    let e := js.foldl (step jobname ext) d
    (∀ n, (n ∈ e.map Prod.fst ∧ globbed jobname ext n = true) ↔ ∃ m, 1 ≤ m ∧ m ≤ min js.length 9 ∧ n = Numbered jobname ext m) ∧
    (∀ m, 1 ≤ m → m ≤ 9 → e.get (Numbered jobname ext m) = js[m - 1]?) ∧
    (e.get (Numbered jobname ext 10) = if js.length < 10 then none else js.getLast?) ∧
    (∀ n, (∀ m, 1 ≤ m → m ≤ 10 → n ≠ Numbered jobname ext m) → e.get n = d.get n) := by
  induction js using List.reverseRecOn with
  | nil =>
    have hpre : ∀ m, (jobname ++ ['_']) <+: Numbered jobname ext m := fun m => ⟨dec m ++ ext, by simp [Numbered, List.append_assoc]⟩
    have hnone : ∀ m, d.get (Numbered jobname ext m) = none := by
      intro m
      rw [Dir.get, Option.map_eq_none_iff, List.find?_eq_none]
      intro x hx he
      have he' : x.1 = Numbered jobname ext m := by simpa using he
      exact hd x.1 (List.mem_map.mpr ⟨x, hx, rfl⟩) (he' ▸ hpre m)
    refine ⟨?_, ?_, ?_, fun n _ => rfl⟩
    · intro n
      constructor
      · rintro ⟨h1, h2⟩
        simp only [globbed, Bool.and_eq_true] at h2
        exact absurd (List.isPrefixOf_iff_prefix.mp h2.1.2) (hd n h1)
      · rintro ⟨m, h1, h2, _⟩; simp at h2; omega
    · intro m _ _; simpa using hnone m
    · simpa using hnone 10
  | append_singleton js j ih =>
    obtain ⟨i1, i2, i3, i4⟩ := ih
    have hc := count_of _ _ _ _ i1
    have hfile : jobFile (js.foldl (step jobname ext) d) jobname ext = Numbered jobname ext (min js.length 9 + 1) := by
      rw [jobFile, hc]; rfl
    have he : (js ++ [j]).foldl (step jobname ext) d = (js.foldl (step jobname ext) d).put (Numbered jobname ext (min js.length 9 + 1)) j := by
      rw [List.foldl_append, List.foldl_cons, List.foldl_nil]
      conv_lhs => unfold step
      rw [← hfile]
      rfl
    simp only
    rw [he]
    have hlen : (js ++ [j]).length = js.length + 1 := by simp
    refine ⟨?_, ?_, ?_, ?_⟩
    · intro n
      rw [mem_put, hlen]
      constructor
      · rintro ⟨h | h, h2⟩
        · subst h
          rw [globbed_numbered, decide_eq_true_eq] at h2
          exact ⟨_, by omega, by omega, rfl⟩
        · obtain ⟨m, a, b, c⟩ := (i1 n).mp ⟨h, h2⟩
          exact ⟨m, a, by omega, c⟩
      · rintro ⟨m, a, b, rfl⟩
        by_cases hm : m ≤ min js.length 9
        · have := (i1 _).mpr ⟨m, a, hm, rfl⟩
          exact ⟨.inr this.1, this.2⟩
        · have : m = min js.length 9 + 1 := by omega
          subst this
          exact ⟨.inl rfl, by rw [globbed_numbered, decide_eq_true_eq]; omega⟩
    · intro m a b
      rw [get_put]
      by_cases hm : m = min js.length 9 + 1
      · have h9 : js.length < 9 := by omega
        have : m - 1 = js.length := by omega
        rw [hm, if_pos rfl, ← hm, this]; simp
      · rw [if_neg (fun h => hm (numbered_inj _ _ _ _ h)), i2 m a b]
        by_cases hl : m - 1 < js.length
        · rw [List.getElem?_append_left hl]
        · have : js.length + 1 ≤ m - 1 := by omega
          rw [List.getElem?_eq_none (by omega), List.getElem?_eq_none (by rw [hlen]; omega)]
    · rw [get_put, hlen]
      by_cases hl : js.length < 9
      · rw [if_neg (fun h => by have := numbered_inj _ _ _ _ h; omega), i3, if_pos (by omega), if_pos (by omega)]
      · have : min js.length 9 = 9 := by omega
        rw [this, if_pos rfl, if_neg (by omega)]
        simp
    · intro n hn
      rw [get_put, if_neg (hn _ (by omega) (by omega)), i4 n hn]

/-- **C331**.  Up to ten jobs of one name, each has a file of its own number, and no other file is touched. -/
theorem C331_numbers_partial (jobname ext : Str) (d : Dir) (hd : ∀ n ∈ d.map Prod.fst, ¬ (jobname ++ ['_']) <+: n) (js : List Job) (hl : js.length ≤ 10) :
    (∀ m, m < js.length → (js.foldl (step jobname ext) d).get (Numbered jobname ext (m + 1)) = js[m]?) ∧
    (∀ n ∈ d.map Prod.fst, (js.foldl (step jobname ext) d).get n = d.get n) := by
  obtain ⟨_, i2, i3, i4⟩ := jobs_inv jobname ext d hd js
  refine ⟨?_, ?_⟩
  · intro m hm
    by_cases h : m < 9
    · have := i2 (m + 1) (by omega) (by omega)
      simpa using this
    · have h9 : m = 9 := by omega
      have hlen : js.length = 10 := by omega
      subst h9
      rw [i3, if_neg (by omega), List.getLast?_eq_getElem?, hlen]
  · intro n hn
    exact i4 n (fun m _ _ h => hd n hn (h ▸ ⟨dec m ++ ext, by simp [Numbered, List.append_assoc]⟩))

/-- From the eleventh on it is false, whatever the jobs are: every further job replaces the tenth, so of those only the last is left. -/
theorem C331_false (jobname ext : Str) (d : Dir) (hd : ∀ n ∈ d.map Prod.fst, ¬ (jobname ++ ['_']) <+: n) (js : List Job) (hl : 10 ≤ js.length) :
    (js.foldl (step jobname ext) d).get (Numbered jobname ext 10) = js.getLast? ∧
    jobFile (js.foldl (step jobname ext) d) jobname ext = Numbered jobname ext 10 := by
  obtain ⟨i1, _, i3, _⟩ := jobs_inv jobname ext d hd js
  refine ⟨by rw [i3, if_neg (by omega)], ?_⟩
  have := count_of _ _ _ _ i1
  rw [jobFile, this]
  have : min js.length 9 = 9 := by omega
  rw [this]; rfl

/-- Also false when a job has been deleted: the next one replaces the last. -/
theorem C331_deleted_false (a b : Job) : ∃ d : Dir, d.get "x_run_2.job".toList = some a ∧
    (step "x_run".toList ".job".toList d b).get "x_run_2.job".toList = some b := by
  have h0 : Dir.get [("x_run_2.job".toList, a)] "x_run_2.job".toList = some a := by
    have hg : ∀ n : Str, Dir.get [(n, a)] n = some a := fun n => by simp [Dir.get]
    exact hg _
  refine ⟨[("x_run_2.job".toList, a)], h0, ?_⟩
  have h : jobFile [("x_run_2.job".toList, a)] "x_run".toList ".job".toList = "x_run_2.job".toList := by
    have : countJobs [("x_run_2.job".toList, a)] "x_run".toList ".job".toList = 1 := by
      simp only [countJobs, List.map_cons, List.map_nil]
      decide +kernel
    rw [jobFile, this]
    decide +kernel
  rw [step, h, get_put, if_pos rfl]

/-- The files of `create` are numbered in this way. -/
theorem C331_create {π : Type} (cfg : List (Str × Section)) (center : Nat → π) (ang2pix : Nat → π → Nat) (table : List Nat) (a : Args) (d : Dir)
    (jobtype script : Str) (s : Section) (h1 : a.hpixGiven = false) (h2 : modeOf a.runmode = .ok (jobtype, script)) (h3 : sectionOf cfg a.batchmode = .ok s) :
    ∃ j, (create cfg center ang2pix table a d).1 = step (a.outbase ++ ['_'] ++ jobtype) (extOf s) d j ∧
      (j, (create cfg center ang2pix table a d).2) =
        writeJob s (runCommand script a.config (a.nside.getD 8) a.dir) (pixelsRun center (ang2pix (a.nside.getD 8)) table) := by
  refine ⟨(writeJob s (runCommand script a.config (a.nside.getD 8) a.dir) (pixelsRun center (ang2pix (a.nside.getD 8)) table)).1, ?_, ?_⟩ <;>
    simp only [create, h1, h2, h3, Bool.false_eq_true, if_false, step]

/-! ## C332: errors -/

/-- **C332**.  A pixel in the configuration, an unknown run mode or section stop the script, and nothing is written. -/
theorem C332_before_partial {π : Type} (cfg : List (Str × Section)) (center : Nat → π) (ang2pix : Nat → π → Nat) (table : List Nat) (a : Args) (d : Dir)
    (h : a.hpixGiven = true ∨ ¬ (0 ≤ a.runmode ∧ a.runmode ≤ 4) ∨ (∀ m, a.batchmode = some m → ∀ x ∈ cfg, x.1 ≠ m) ∧ (a.batchmode = none → cfg.length ≠ 1)) :
    (create cfg center ang2pix table a d).1 = d ∧ (create cfg center ang2pix table a d).2 ≠ none := by
  unfold create
  by_cases hp : a.hpixGiven = true
  · rw [if_pos hp]; simp
  rw [if_neg hp]
  rcases h with h | h | h
  · exact absurd h hp
  · have : modeOf a.runmode = .error .runtime := by
      unfold modeOf
      rw [if_neg (by omega), if_neg (by omega), if_neg (by omega), if_neg (by omega), if_neg (by omega)]
    rw [this]; simp
  · have hs : ∃ e, sectionOf cfg a.batchmode = .error e := by
      unfold sectionOf
      cases hb : a.batchmode with
      | none =>
        have := h.2 hb
        match cfg, this with
        | [], _ => exact ⟨_, rfl⟩
        | [x], h => exact absurd rfl h
        | x :: y :: t, _ => exact ⟨_, rfl⟩
      | some m =>
        have : cfg.find? (fun x => decide (x.1 = m)) = none := by
          rw [List.find?_eq_none]; intro x hx; simpa using h.1 m hb x hx
        simp only [this]
        exact ⟨_, rfl⟩
    obtain ⟨e, he⟩ := hs
    cases hm : modeOf a.runmode with
    | error e => simp
    | ok v => obtain ⟨t, sc⟩ := v; simp only [he]; simp

/-- **C332**.  A job without an error is complete: it is for LSF, or for parsl with a known provider. -/
theorem C332_complete (s : Section) (cmd : Str) (pixels : List Nat) :
    (writeJob s cmd pixels).2 = none ↔ (writeJob s cmd pixels).1 ≠ .unfinished := by
  unfold writeJob
  simp only
  by_cases h1 : (s.get "batch".toList).getD [] = "lsf".toList
  · rw [if_pos h1]
    cases pct cmd marker <;> simp only [ne_eq, reduceCtorEq, not_true_eq_false, not_false_eq_true]
  rw [if_neg h1]
  by_cases h2 : (s.get "batch".toList).getD [] = "pbs".toList
  · rw [if_pos h2]
    split_ifs <;> simp only [ne_eq, reduceCtorEq, not_true_eq_false]
  rw [if_neg h2]
  by_cases h3 : (s.get "batch".toList).getD [] = "parsl".toList
  · rw [if_pos h3]
    split_ifs
    · cases pct cmd "{pixel}".toList <;> simp only [ne_eq, reduceCtorEq, not_true_eq_false, not_false_eq_true]
    · simp only [ne_eq, reduceCtorEq, not_true_eq_false]
  rw [if_neg h3]
  split_ifs <;> simp only [ne_eq, reduceCtorEq, not_true_eq_false]

/-- But errors while writing leave a file: with PBS every job fails, whatever its configuration, and so do the other systems; the file that is left counts as a
job. -/
theorem C332_false (s : Section) (b : Str) (hs : s.get "batch".toList = some b) (hb : b ≠ "lsf".toList) (hp : b ≠ "parsl".toList) (cmd : Str) (pixels : List Nat) :
    (writeJob s cmd pixels).1 = .unfinished ∧ ∃ e, (writeJob s cmd pixels).2 = some e := by
  unfold writeJob
  simp only [hs, Option.getD_some, if_neg hb, if_neg hp]
  split_ifs <;> exact ⟨rfl, _, rfl⟩

example : (create [("x".toList, [("batch".toList, "pbs".toList), ("ppn".toList, "8".toList), ("queue".toList, "q".toList)])] (fun q => q) (fun _ q => q) [3]
    ⟨"/a/run.yml".toList, "/a".toList, "t".toList, false, 0, none, none⟩ []) = ([("t_run_1.job".toList, .unfinished)], some .name) := by
  decide +kernel

/-! ## C333: configuration of the batch system -/

theorem get_append (s : Section) (k k' v : Str) : Section.get (s ++ [(k', v)]) k = if (s.get k).isSome then s.get k else if k' = k then some v else none := by
  unfold Section.get
  rw [List.find?_append]
  cases h : s.find? fun x => decide (x.1 = k) with
  | some x => simp
  | none => by_cases hk : k' = k <;> simp [List.find?_cons, hk]

theorem get_setDefault (s : Section) (k k' v : Str) :
    (s.setDefault k' v).get k = if k = k' ∧ s.get k = none then some v else s.get k := by
  unfold Section.setDefault
  by_cases h : s.get k' = none
  · rw [if_pos h, get_append]
    by_cases hk : k = k'
    · subst hk; simp [h]
    · rw [if_neg (show ¬ (k = k' ∧ s.get k = none) by tauto), if_neg (fun e : k' = k => hk e.symm)]
      cases s.get k <;> simp
  · rw [if_neg h]
    by_cases hk : k = k'
    · subst hk; simp [h]
    · simp [hk]

theorem get_defaults (l : List (Str × Str)) (s : Section) (k : Str) :
    Section.get (l.foldl (fun s d => s.setDefault d.1 d.2) s) k = if (s.get k).isSome then s.get k else (Section.get l k) := by
  induction l generalizing s with
  | nil =>
    have hn : Section.get [] k = none := rfl
    rw [List.foldl_nil, hn]
    cases s.get k <;> rfl
  | cons d l ih =>
    rw [List.foldl_cons, ih, get_setDefault]
    by_cases hk : d.1 = k
    · have : Section.get (d :: l) k = some d.2 := by simp [Section.get, hk]
      rw [this]
      cases h : s.get k <;> simp [hk]
    · have : Section.get (d :: l) k = Section.get l k := by simp [Section.get, List.find?_cons, hk]
      have h2 : (if k = d.1 ∧ s.get k = none then some d.2 else s.get k) = s.get k := if_neg fun h => hk h.1.symm
      rw [this, h2]

/-- **C333**.  A configuration is read exactly when each section names a batch system; sections keep their names and all they say, and what they do not say of
the six other keys is empty, the provider `local`. -/
theorem C333_load (cfg : List (Str × Section)) :
    (∃ r, loadBatchconfig cfg = .ok r) = (∀ x ∈ cfg, (x.2.get "batch".toList).isSome) ∧
    ∀ r, loadBatchconfig cfg = .ok r → r.map Prod.fst = cfg.map Prod.fst ∧ ∀ (i : Nat) (x y : Str × Section), cfg[i]? = some x → r[i]? = some y →
      ∀ k, y.2.get k = if (x.2.get k).isSome then x.2.get k
        else if k = "parsl_provider".toList then some "local".toList
        else if k ∈ ["setup".toList, "requirements".toList, "image".toList, "constraint".toList, "qos".toList] then some [] else none := by
  induction cfg with
  | nil =>
    refine ⟨by simp [loadBatchconfig], ?_⟩
    intro r hr
    cases hr
    exact ⟨rfl, fun i x y h => by simp at h⟩
  | cons c rest ih =>
    obtain ⟨k0, s⟩ := c
    by_cases hb : s.get "batch".toList = none
    · have hl : loadBatchconfig ((k0, s) :: rest) = .error .value := by simp only [loadBatchconfig, loadSection, if_pos hb]
      refine ⟨?_, fun r hr => by rw [hl] at hr; cases hr⟩
      rw [hl]
      simp only [reduceCtorEq, exists_false, eq_iff_iff, false_iff]
      intro h
      have := h (k0, s) (by simp)
      simp only [hb] at this
      exact absurd this (by simp)
    · have hl : loadSection s = .ok (defaults.foldl (fun s d => s.setDefault d.1 d.2) s) := by rw [loadSection, if_neg hb]
      constructor
      · rw [eq_iff_iff]
        rw [eq_iff_iff] at ih
        simp only [List.forall_mem_cons]
        rw [← ih.1]
        simp only [loadBatchconfig, hl]
        constructor
        · rintro ⟨r, hr⟩
          refine ⟨Option.isSome_iff_ne_none.mpr hb, ?_⟩
          cases h : loadBatchconfig rest with
          | error e => rw [h] at hr; cases hr
          | ok r' => exact ⟨r', rfl⟩
        · rintro ⟨_, r', hr'⟩
          rw [hr']; exact ⟨_, rfl⟩
      · intro r hr
        simp only [loadBatchconfig, hl] at hr
        cases h : loadBatchconfig rest with
        | error e => rw [h] at hr; cases hr
        | ok r' =>
          rw [h] at hr
          cases hr
          obtain ⟨g1, g2⟩ := ih.2 r' h
          refine ⟨by simp [g1], ?_⟩
          intro i x y hx hy k
          cases i with
          | succ i => exact g2 i x y (by simpa using hx) (by simpa using hy) k
          | zero =>
            simp only [List.getElem?_cons_zero, Option.some.injEq] at hx hy
            subst hx; subst hy
            simp only [get_defaults]
            congr 1
            simp only [defaults, Section.get, List.find?_cons, List.find?_nil, List.mem_cons, List.not_mem_nil, or_false]
            by_cases h1 : k = "parsl_provider".toList
            · subst h1; decide +kernel
            by_cases h2 : k = "setup".toList
            · subst h2; decide +kernel
            by_cases h3 : k = "requirements".toList
            · subst h3; decide +kernel
            by_cases h4 : k = "image".toList
            · subst h4; decide +kernel
            by_cases h5 : k = "constraint".toList
            · subst h5; decide +kernel
            by_cases h6 : k = "qos".toList
            · subst h6; decide +kernel
            simp only [h1, h2, h3, h4, h5, h6, fun a b => (eq_comm (a := a) (b := b)), decide_false]
            simp [h1, h2, h3, h4, h5, h6, eq_comm]

/-- The script asks to edit a new configuration and to run again; but it goes on, and writes a job for LSF. -/
theorem C333_false : ∃ c, configOf none = .ok c ∧
    create c (fun q => q) (fun _ q => q) [3] ⟨"/a/run.yml".toList, "/a".toList, "t".toList, false, 0, none, none⟩ [] =
      ([("t_run_1.job".toList, .array 1 "3 ".toList
        "redmapper_run_redmapper_pixel.py -c /a/run.yml -p ${pixarr[LSB_JOBINDEX-1]} -n 8 -d /a".toList)], none) := by
  exact ⟨_, rfl, by decide +kernel⟩

/-! ## C334: several pixels on one node -/

theorem split_plain (s : Str) (h : ',' ∉ s) : splitComma s = [s] := by
  induction s with
  | nil => rfl
  | cons c s ih =>
    simp only [List.mem_cons, not_or] at h
    rw [splitComma, if_neg (fun e => h.1 e.symm), ih h.2]

theorem split_cons (s t : Str) (h : ',' ∉ s) : splitComma (s ++ ',' :: t) = s :: splitComma t := by
  induction s with
  | nil => rw [List.nil_append, splitComma, if_pos rfl]
  | cons c s ih =>
    simp only [List.mem_cons, not_or] at h
    rw [List.cons_append, splitComma, if_neg (fun e => h.1 e.symm), ih h.2]

/-- **C334**.  For a list of pixels each is run once, whatever the others return. -/
theorem C334_all_partial (status : Str → Nat) (command : Str) (p : Nat) (ps : List Nat) :
    ((runMany status command ((p :: ps).foldr (fun a r => if r = [] then dec a else dec a ++ ',' :: r) [])).1).map Prod.fst =
      (p :: ps).map fun a => command ++ " -p ".toList ++ dec a := by
  have hsplit : splitComma ((p :: ps).foldr (fun a r => if r = [] then dec a else dec a ++ ',' :: r) []) = (p :: ps).map dec := by
    induction ps generalizing p with
    | nil => simpa using split_plain _ (dec_not p ',' (by decide))
    | cons q qs ih =>
      have hne : (q :: qs).foldr (fun a r => if r = [] then dec a else dec a ++ ',' :: r) [] ≠ [] := by
        rw [List.foldr_cons]
        split_ifs
        · exact dec_ne_nil q
        · simp
      rw [List.foldr_cons, if_neg hne, split_cons _ _ (dec_not p ',' (by decide)), ih q]
      rfl
  simp only [runMany, hsplit, List.map_map]
  rfl

/-- A pixel that fails is not reported: the script always ends as if all had worked. -/
theorem C334_false (status : Str → Nat) (command pixels : Str) : (runMany status command pixels).2 = 0 := rfl

end Redmapper.Batch
