/-
Properties of the tasks over a given catalog and of the setup of the runs: C245-C253.
-/
import Verif.Model.CatTask
import Verif.Props.Config
import Verif.Props.Setup
import Mathlib.Tactic.Linarith
import Mathlib.Tactic.NormNum
import Mathlib.Tactic.Positivity
import Mathlib.Tactic.FieldSimp
import Mathlib.Topology.MetricSpace.Pseudo.Defs

set_option linter.unusedSectionVars false

namespace Redmapper.CatTask

open Redmapper.Config (dec pad5 dec_digit pad5_digit pad5_value split_unique checkFiles)

/-! ## C245: the files of a run are found -/

theorem glob_lits (w : List Char) (ps : List Tok) (s : List Char) : glob (w.map .lit ++ ps) s = true ↔ ∃ t, s = w ++ t ∧ glob ps t = true := by
  induction w generalizing s with
  | nil => simp
  | cons c w ih =>
    cases s with
    | nil => simp [glob]
    | cons x t =>
      simp only [List.map_cons, List.cons_append, glob, Bool.and_eq_true, decide_eq_true_eq, ih, List.cons.injEq]
      constructor
      · rintro ⟨rfl, u, rfl, h⟩
        exact ⟨u, ⟨rfl, rfl⟩, h⟩
      · rintro ⟨u, ⟨rfl, rfl⟩, h⟩
        exact ⟨rfl, u, rfl, h⟩

theorem glob_lit (c : Char) (ps : List Tok) (s : List Char) : glob (.lit c :: ps) s = true ↔ ∃ t, s = c :: t ∧ glob ps t = true := by
  have := glob_lits [c] ps s
  simpa using this

theorem glob_star (ps : List Tok) (s : List Char) : glob (.star :: ps) s = true ↔ ∃ a t, s = a ++ t ∧ glob ps t = true := by
  simp only [glob, List.any_eq_true, List.mem_tails]
  constructor
  · rintro ⟨t, ⟨a, rfl⟩, h⟩
    exact ⟨a, t, rfl, h⟩
  · rintro ⟨a, t, rfl, h⟩
    exact ⟨t, ⟨a, rfl⟩, h⟩

theorem glob_any (ps : List Tok) (s : List Char) : glob (.any :: ps) s = true ↔ ∃ x t, s = x :: t ∧ glob ps t = true := by
  cases s with
  | nil => simp [glob]
  | cons x t => simp [glob]

theorem glob_nil (s : List Char) : glob [] s = true ↔ s = [] := by simp [glob]

/-- The names that are found: the base name, anything, five characters and the kind of catalog, with underscores between them. -/
theorem pattern_iff (outbase cattype s : List Char) : glob (pattern outbase cattype) s = true ↔
    ∃ a b : List Char, b.length = 5 ∧ s = outbase ++ '_' :: (a ++ '_' :: (b ++ '_' :: (cattype ++ "_catalog.fit".toList))) := by
  unfold pattern
  rw [List.append_assoc, glob_lits]
  simp only [List.cons_append, List.nil_append, glob_lit, glob_star, glob_any]
  constructor
  · rintro ⟨t, rfl, t1, rfl, a, t2, rfl, t3, rfl, x1, t4, rfl, x2, t5, rfl, x3, t6, rfl, x4, t7, rfl, x5, t8, rfl, t9, rfl, h⟩
    rw [← List.append_nil ((cattype ++ _).map _), glob_lits] at h
    obtain ⟨u, rfl, hu⟩ := h
    rw [glob_nil] at hu
    subst hu
    exact ⟨a, [x1, x2, x3, x4, x5], rfl, by simp⟩
  · rintro ⟨a, b, hb, rfl⟩
    obtain ⟨x1, x2, x3, x4, x5, rfl⟩ : ∃ x1 x2 x3 x4 x5, b = [x1, x2, x3, x4, x5] := by
      match b, hb with
      | [x1, x2, x3, x4, x5], _ => exact ⟨x1, x2, x3, x4, x5, rfl⟩
    refine ⟨_, rfl, _, rfl, a, _, rfl, _, rfl, x1, _, rfl, x2, _, rfl, x3, _, rfl, x4, _, rfl, x5, _, rfl, _, rfl, ?_⟩
    rw [← List.append_nil ((cattype ++ _).map _), glob_lits]
    exact ⟨[], by simp, rfl⟩

theorem pad5_length (p : Nat) : (pad5 p).length = 5 ↔ p < 100000 := by
  unfold pad5 dec
  have h := Nat.length_toDigits_le_iff (b := 10) (n := p) (k := 5) (by decide) (by decide)
  have h10 : (10 : Nat) ^ 5 = 100000 := by norm_num
  rw [h10] at h
  rw [List.length_append, List.length_replicate, ← h]
  omega

theorem dec_isDigit (n : Nat) : ∀ c ∈ dec n, c.isDigit = true := by
  intro c hc
  exact Nat.isDigit_of_mem_toDigits (by decide) (by decide) hc

theorem pad5_isDigit (n : Nat) : ∀ c ∈ pad5 n, c.isDigit = true := by
  intro c hc
  unfold pad5 at hc
  rcases List.mem_append.mp hc with h | h
  · rw [List.mem_replicate] at h; rw [h.2]; decide
  · exact dec_isDigit n c h

/-- The name of the catalog of one pixel. -/
def tileName (outbase cattype : List Char) (nside pixel : Nat) : List Char :=
  outbase ++ '_' :: (dec nside ++ '_' :: (pad5 pixel ++ '_' :: (cattype ++ "_catalog.fit".toList)))

/-- This is the name the tasks use, without version. -/
theorem tileName_eq (outbase version cattype : List Char) (nside pixel : Nat) :
    fileName (tileBase outbase nside pixel) version (cattype ++ "_catalog".toList) false = tileName outbase cattype nside pixel := by
  unfold fileName tileBase tileName
  simp

/-- No underscore is followed by a digit. -/
def NoNumber (p : List Char) : Prop := ∀ a c b, p = a ++ '_' :: c :: b → c.isDigit = false

theorem takeWhile_dec (n : Nat) (r : List Char) : (dec n ++ '_' :: r).takeWhile Char.isDigit = dec n ∧ (dec n ++ '_' :: r).dropWhile Char.isDigit = '_' :: r := by
  have h := dec_isDigit n
  constructor
  · rw [List.takeWhile_append_of_pos (fun c hc => h c hc)]; simp
  · rw [List.dropWhile_append_of_pos (fun c hc => h c hc)]; simp

theorem matchAt_tile (n p : Nat) (hp : p < 100000) (r : List Char) : matchAt ('_' :: (dec n ++ '_' :: (pad5 p ++ '_' :: r))) = some (n, p) := by
  have hl := (pad5_length p).mpr hp
  have hne : dec n ≠ [] := by unfold dec; exact Nat.toDigits_ne_nil
  obtain ⟨h1, h2⟩ := takeWhile_dec n (pad5 p ++ '_' :: r)
  unfold matchAt
  simp only [h1, h2]
  have ht : (pad5 p ++ '_' :: r).take 5 = pad5 p := by rw [← hl, List.take_left']; rfl
  rw [if_neg (by simpa using hne), ht, if_pos]
  · rw [pad5_value]
    have : Nat.ofDigitChars 10 (dec n) 0 = n := by simp [dec]
    rw [this]
  · refine ⟨hl, by rw [List.all_eq_true]; exact pad5_isDigit p, ?_⟩
    rw [List.getElem?_append_right (by omega), hl]
    rfl

theorem search_prefix (p r : List Char) (v : Nat × Nat) (hp : NoNumber p) (hr : search ('_' :: r) = some v) : search (p ++ '_' :: r) = some v := by
  induction p with
  | nil => exact hr
  | cons c p ih =>
    have hp' : NoNumber p := fun a x b h => hp (c :: a) x b (by rw [h]; rfl)
    rw [List.cons_append, search]
    have : matchAt (c :: (p ++ '_' :: r)) = none := by
      by_cases hc : c = '_'
      · subst hc
        cases p with
        | nil => simp [matchAt]
        | cons d p =>
          have hd := hp [] d p rfl
          simp [matchAt, hd]
      · unfold matchAt
        split
        · rename_i heq
          simp only [List.cons.injEq] at heq
          exact absurd heq.1 hc
        · rfl
    rw [this]
    exact ih hp'

/-- The property as one would like it: the catalog of every pixel of a run is found, with its nside and pixel, and a catalog of another run
is not. -/
def C245_spec : Prop :=
  ∀ (path outbase cattype : List Char) (nside pixel : Nat),
    (glob (pattern outbase cattype) (tileName outbase cattype nside pixel) = true ∧ search (path ++ tileName outbase cattype nside pixel) = some (nside, pixel)) ∧
    ∀ other, other ≠ outbase → glob (pattern outbase cattype) (tileName other cattype nside pixel) = false

/-- **C245 (partial).** Below pixel 100000 the catalog of every pixel is found; its nside and pixel are those of the name if no number follows
an underscore in the directory or base name. -/
theorem C245_partial (path outbase cattype : List Char) (nside pixel : Nat) (hp : pixel < 100000) :
    glob (pattern outbase cattype) (tileName outbase cattype nside pixel) = true ∧
    (NoNumber (path ++ outbase) → search (path ++ tileName outbase cattype nside pixel) = some (nside, pixel)) := by
  refine ⟨(pattern_iff _ _ _).mpr ⟨dec nside, pad5 pixel, (pad5_length pixel).mpr hp, rfl⟩, fun hn => ?_⟩
  unfold tileName
  rw [← List.append_assoc]
  refine search_prefix _ _ _ hn ?_
  rw [search, matchAt_tile _ _ hp]

theorem mapM_ok {β γ : Type} (f : β → Except Err γ) (g : β → γ) (l : List β) (h : ∀ x ∈ l, f x = .ok (g x)) : l.mapM f = .ok (l.map g) := by
  induction l with
  | nil => rfl
  | cons x l ih =>
    rw [List.mapM_cons, h x (by simp), ih fun y hy => h y (by simp [hy])]
    rfl

/-- **C245, a directory (partial)**: with the catalogs of a set of pixels below 100000 and other files that do not have the form of a catalog of
the run, exactly the catalogs are consolidated, in the order of the directory, each with its nside and pixel. -/
theorem C245_tiles_partial (path outbase cattype : List Char) (hn : NoNumber (path ++ outbase)) (names : List (List Char)) (pix : List Char → Option (Nat × Nat))
    (hpix : ∀ f ∈ names, match pix f with
      | some (nside, pixel) => pixel < 100000 ∧ f = tileName outbase cattype nside pixel
      | none => ¬ ∃ a b : List Char, b.length = 5 ∧ f = outbase ++ '_' :: (a ++ '_' :: (b ++ '_' :: (cattype ++ "_catalog.fit".toList))))
    (hne : ∃ f ∈ names, (pix f).isSome) :
    tiles path outbase cattype names = .ok (names.filterMap fun f => (pix f).map fun q => (f, q)) := by
  have hg : ∀ f ∈ names, glob (pattern outbase cattype) f = (pix f).isSome := by
    intro f hf
    have := hpix f hf
    cases hq : pix f with
    | none =>
      rw [hq] at this
      simp only at this
      rw [← pattern_iff] at this
      simpa using this
    | some q =>
      rw [hq] at this
      obtain ⟨h1, h2⟩ := this
      rw [h2]
      exact (C245_partial path outbase cattype q.1 q.2 h1).1
  have hf : names.filter (glob (pattern outbase cattype)) = names.filter fun f => (pix f).isSome := List.filter_congr hg
  have hm : ∀ f ∈ names.filter (fun f => (pix f).isSome), (match search (path ++ f) with
      | none => (.error .runtime : Except Err (List Char × Nat × Nat))
      | some p => .ok (f, p)) = .ok (f, (pix f).getD (0, 0)) := by
    intro f hf
    rw [List.mem_filter] at hf
    have := hpix f hf.1
    obtain ⟨q, hq⟩ := Option.isSome_iff_exists.mp hf.2
    rw [hq] at this
    rw [hq, this.2, (C245_partial path outbase cattype q.1 q.2 this.1).2 hn]
    rfl
  unfold tiles
  rw [hf]
  cases hl : names.filter (fun f => (pix f).isSome) with
  | nil =>
    obtain ⟨f, h1, h2⟩ := hne
    rw [List.filter_eq_nil_iff] at hl
    exact absurd h2 (hl f h1)
  | cons f fs =>
    simp only
    rw [← hl]
    refine (mapM_ok _ _ _ hm).trans ?_
    congr 1
    clear hne hf hm hl hg hpix
    induction names with
    | nil => rfl
    | cons x l ih =>
      cases hx : pix x with
      | none => simp [hx, ih]
      | some q => simp [hx, ih]

/-- **C245, files of other runs**: below pixel 100000 a catalog of another run in the same directory is taken if and only if its base name with
an underscore begins with the base name of this run and an underscore. -/
theorem C245_other_partial (outbase other cattype : List Char) (nside pixel : Nat) (hp : pixel < 100000) :
    glob (pattern outbase cattype) (tileName other cattype nside pixel) = true ↔ (outbase ++ ['_']) <+: (other ++ ['_']) := by
  rw [pattern_iff]
  unfold tileName
  have hl := (pad5_length pixel).mpr hp
  constructor
  · rintro ⟨a, b, hb, h⟩
    have h1 : (other ++ '_' :: dec nside) ++ ('_' :: (pad5 pixel ++ '_' :: (cattype ++ "_catalog.fit".toList))) =
        (outbase ++ '_' :: a) ++ ('_' :: (b ++ '_' :: (cattype ++ "_catalog.fit".toList))) := by
      simpa using h
    have h2 := (List.append_inj' h1 (by simp [hb, hl])).1
    -- the underscore of the pattern is not inside of the number
    have hpre : (outbase ++ ['_']) <+: (other ++ ['_'] ++ dec nside) := ⟨a, by simpa using h2.symm⟩
    rcases List.prefix_or_prefix_of_prefix hpre (List.prefix_append (other ++ ['_']) (dec nside)) with h3 | h3
    · exact h3
    · obtain ⟨w, hw⟩ := h3
      cases w using List.reverseRecOn with
      | nil => rw [List.append_nil] at hw; rw [hw]
      | append_singleton w c =>
        exfalso
        rw [← List.append_assoc] at hw
        have hc := (List.append_inj' hw rfl)
        have hcc : c = '_' := by simpa using hc.2
        obtain ⟨u, hu⟩ := hpre
        rw [← hw, hcc] at hu
        have : w ++ '_' :: u = dec nside := by
          have := hu
          simp only [List.append_assoc, List.cons_append, List.nil_append] at this
          have := List.append_cancel_left this
          simpa using this
        exact dec_digit nside '_' (by rw [← this]; simp) rfl
  · rintro ⟨w, hw⟩
    refine ⟨w ++ dec nside, pad5 pixel, hl, ?_⟩
    have : other ++ '_' :: (dec nside ++ '_' :: (pad5 pixel ++ '_' :: (cattype ++ "_catalog.fit".toList))) =
        (other ++ ['_']) ++ (dec nside ++ '_' :: (pad5 pixel ++ '_' :: (cattype ++ "_catalog.fit".toList))) := by simp
    rw [this, ← hw]
    simp

/-- **C245 is false from pixel 100000**: the catalog of such a pixel is not among the files, unless the base name makes up for it. -/
theorem C245_lost (outbase cattype : List Char) (nside pixel : Nat) (hp : 100000 ≤ pixel) :
    glob (pattern outbase cattype) (tileName outbase cattype nside pixel) = false := by
  by_contra h
  rw [Bool.not_eq_false, pattern_iff] at h
  obtain ⟨a, b, hb, h⟩ := h
  unfold tileName at h
  have h1 := List.append_cancel_left h
  rw [List.cons.injEq] at h1
  have h2 : (dec nside ++ '_' :: pad5 pixel) ++ ('_' :: (cattype ++ "_catalog.fit".toList)) =
      (a ++ '_' :: b) ++ ('_' :: (cattype ++ "_catalog.fit".toList)) := by simpa using h1.2
  have h3 := List.append_cancel_right h2
  -- the last five characters are digits of the pixel, and the one before is one as well
  have hl : 5 < (pad5 pixel).length := by
    have h5 : 5 ≤ (pad5 pixel).length := by unfold pad5; rw [List.length_append, List.length_replicate]; omega
    have := (pad5_length pixel).not.mpr (by omega)
    omega
  have h4 := congrArg (fun l => l[l.length - 6]?) h3
  simp only [List.length_append, List.length_cons, hb] at h4
  rw [List.getElem?_append_right (by omega), List.getElem?_append_right (by omega)] at h4
  have e1 : a.length + (5 + 1) - 6 - a.length = 0 := by omega
  have e2 : (dec nside).length + ((pad5 pixel).length + 1) - 6 - (dec nside).length = (pad5 pixel).length - 5 := by omega
  rw [e1, e2] at h4
  obtain ⟨k, hk⟩ : ∃ k, (pad5 pixel).length - 5 = k + 1 := ⟨(pad5 pixel).length - 6, by omega⟩
  rw [hk, List.getElem?_cons_succ, List.getElem?_cons_zero] at h4
  have := List.mem_of_getElem? h4
  exact pad5_digit pixel '_' this rfl

/-- **C245 is false** in general. -/
theorem C245_false : ¬ C245_spec := by
  intro h
  have := (h [] [] [] 128 100000).1.1
  rw [C245_lost _ _ _ _ (by decide)] at this
  cases this

/-- Another run of the same directory is taken in. -/
theorem C245_false_other : glob (pattern "rm".toList "final".toList) (tileName "rm_test".toList "final".toList 8 17) = true :=
  (C245_other_partial _ _ _ _ _ (by decide)).mpr ⟨"test_".toList, by decide⟩

/-- A number in the base name is taken for that of the pixel. -/
theorem C245_false_number : search (tileName "y3_10_20000".toList "final".toList 8 17) = some (10, 20000) := by
  simp [tileName, dec, pad5, Nat.toDigits, Nat.toDigitsCore, Nat.digitChar, search, matchAt, List.takeWhile, List.dropWhile, Nat.ofDigitChars, List.replicate]

/-- Non-vacuity of C245. -/
example : NoNumber "/data/rm".toList := by
  intro a c b h
  exfalso
  have : '_' ∈ "/data/rm".toList := by rw [h]; simp
  revert this
  decide

/-! ## C246: consolidation of catalogs with a version -/

/-- The property as one would like it: the catalogs the tasks write are those that are consolidated. -/
def C246_spec : Prop :=
  ∀ (job : Job) (outbase version : List Char) (nside pixel : Nat), pixel < 100000 →
    glob (pattern outbase (filetype job)) (fileName (tileBase outbase nside pixel) version (filetype job ++ "_catalog".toList) (versioned job)) = true

/-- **C246 (partial).** The catalogs of randoms are found.  A catalog with the version in its name is found if and only if the version has four
characters. -/
theorem C246_partial (outbase version cattype : List Char) (nside pixel : Nat) (hp : pixel < 100000) (hv : ∀ c ∈ version, c ≠ '_') :
    glob (pattern outbase cattype) (fileName (tileBase outbase nside pixel) version (cattype ++ "_catalog".toList) false) = true ∧
    (glob (pattern outbase cattype) (fileName (tileBase outbase nside pixel) version (cattype ++ "_catalog".toList) true) = true ↔ version.length = 4) := by
  refine ⟨by rw [tileName_eq]; exact (C245_partial [] outbase cattype nside pixel hp).1, ?_⟩
  have e : fileName (tileBase outbase nside pixel) version (cattype ++ "_catalog".toList) true =
      outbase ++ '_' :: ((dec nside ++ '_' :: pad5 pixel) ++ ("_redmapper_v".toList ++ version) ++ '_' :: (cattype ++ "_catalog.fit".toList)) := by
    unfold fileName tileBase
    simp
  rw [e, pattern_iff]
  constructor
  · rintro ⟨a, b, hb, h⟩
    have h1 := List.append_cancel_left h
    rw [List.cons.injEq] at h1
    have h2 : ((dec nside ++ '_' :: pad5 pixel) ++ ("_redmapper_v".toList ++ version)) ++ ('_' :: (cattype ++ "_catalog.fit".toList)) =
        (a ++ '_' :: b) ++ ('_' :: (cattype ++ "_catalog.fit".toList)) := by simpa using h1.2
    have h3 := List.append_cancel_right h2
    have h4 := congrArg (fun l => l.reverse[5]?) h3
    have hr : ((a ++ '_' :: b).reverse)[5]? = some '_' := by
      rw [List.reverse_append, List.reverse_cons, List.append_assoc, List.getElem?_append_right (by simp [hb])]
      simp [hb]
    rw [hr, List.reverse_append, List.reverse_append, List.append_assoc] at h4
    by_contra hne
    by_cases hlt : 5 < version.length
    · rw [List.getElem?_append_left (by simpa using hlt)] at h4
      have := List.mem_of_getElem? h4
      exact hv '_' (by simpa using this) rfl
    · rw [List.getElem?_append_right (by simp; omega), List.length_reverse] at h4
      have hr2 : ("_redmapper_v".toList).reverse = ['v', '_', 'r', 'e', 'p', 'p', 'a', 'm', 'd', 'e', 'r', '_'] := by decide
      rw [hr2] at h4
      have : version.length = 0 ∨ version.length = 1 ∨ version.length = 2 ∨ version.length = 3 ∨ version.length = 5 := by omega
      rcases this with h | h | h | h | h <;> · rw [h] at h4; simp at h4
  · intro h4
    refine ⟨(dec nside ++ '_' :: pad5 pixel) ++ "_redmapper".toList, 'v' :: version, by simp [h4], ?_⟩
    simp

/-- **C246 is false**: with any other length of the version the catalogs of the redshift scan are not found. -/
theorem C246_false : ¬ C246_spec := by
  intro h
  have h1 := h .zscan "rm".toList "0.8.6".toList 8 17 (by decide)
  have h2 := (C246_partial "rm".toList "0.8.6".toList (filetype .zscan) 8 17 (by decide) (by decide)).2.mp h1
  revert h2
  decide

theorem fileName_suffix (base version name : List Char) (w : Bool) : ∃ p, fileName base version name w = p ++ name ++ ".fit".toList := by
  unfold fileName
  exact ⟨(if w then base ++ "_redmapper_v".toList ++ version else base) ++ ['_'], by simp only [List.append_assoc, List.cons_append, List.nil_append]⟩

/-- **C246, `redmapper_consolidate_runcat`**: asked for the kind "runcat" it never finds a catalog written by the catalog run, whatever the
version: IndexError if there is nothing else. -/
theorem C246_runcat (path outbase : List Char) (tilesRun : List (Nat × Nat × List Char × Bool)) :
    tiles path outbase "runcat".toList
      (tilesRun.map fun t => fileName (tileBase outbase t.1 t.2.1) t.2.2.1 (filetype .runcat ++ "_catalog".toList) t.2.2.2) = .error .index := by
  have : (tilesRun.map fun t => fileName (tileBase outbase t.1 t.2.1) t.2.2.1 (filetype .runcat ++ "_catalog".toList) t.2.2.2).filter
      (glob (pattern outbase "runcat".toList)) = [] := by
    rw [List.filter_eq_nil_iff]
    intro f hf
    obtain ⟨t, -, rfl⟩ := List.mem_map.mp hf
    intro h
    rw [pattern_iff] at h
    obtain ⟨a, b, -, h⟩ := h
    obtain ⟨p, hp⟩ := fileName_suffix (tileBase outbase t.1 t.2.1) t.2.2.1 (filetype .runcat ++ "_catalog".toList) t.2.2.2
    rw [hp] at h
    have h1 : (p ++ "lambda_chis".toList) ++ "q_catalog.fit".toList =
        (outbase ++ '_' :: (a ++ '_' :: (b ++ '_' :: "runca".toList))) ++ "t_catalog.fit".toList := by
      have e0 : "lambda_chis".toList ++ "q_catalog.fit".toList = (filetype .runcat ++ "_catalog".toList) ++ ".fit".toList := by decide
      have e2 : "runcat".toList ++ "_catalog.fit".toList = "runca".toList ++ "t_catalog.fit".toList := by decide
      rw [List.append_assoc, e0, ← List.append_assoc, h, e2]
      simp only [List.append_assoc, List.cons_append]
    have h2 := (List.append_inj' h1 (by decide)).2
    revert h2
    decide
  unfold tiles
  rw [this]

/-! ## C247: running a task again -/

/-- The property as one would like it: once a task has written its catalog, running it again changes nothing. -/
def C247_spec : Prop :=
  ∀ (T : Type) (job : Job) (outbase version : List Char) (nside pixel : Nat) (I I' : Input T) (d d' : Dir T),
    runTile job outbase version nside pixel I d = (d', none) → d' ≠ d →
      (runTile job outbase version nside pixel I' d').1 = d'

theorem catalog_ne_members (base version kind : List Char) (a b : Bool) :
    fileName base version (kind ++ "_catalog".toList) a ≠ fileName base version (kind ++ "_catalog_members".toList) b := by
  intro h
  obtain ⟨p, hp⟩ := fileName_suffix base version (kind ++ "_catalog".toList) a
  obtain ⟨q, hq⟩ := fileName_suffix base version (kind ++ "_catalog_members".toList) b
  rw [hp, hq] at h
  have h1 := List.append_cancel_right h
  have h2 : (p ++ (kind ++ "_catalo".toList)) ++ ['g'] = (q ++ (kind ++ "_catalog_member".toList)) ++ ['s'] := by
    have e0 : "_catalo".toList ++ ['g'] = "_catalog".toList := by decide
    have e2 : "_catalog_member".toList ++ ['s'] = "_catalog_members".toList := by decide
    rw [List.append_assoc, List.append_assoc, e0, h1, List.append_assoc, List.append_assoc, e2]
  have h3 := (List.append_inj' h2 rfl).2
  revert h3
  decide

theorem runTile_ok {T : Type} (job : Job) (outbase version : List Char) (nside pixel : Nat) (I : Input T) (d : Dir T) (hj : job ≠ .runcat)
    (hp : I.pixelized = true) (u : Unit) (hc : checkFiles (checks job) I.files = .ok u) :
    runTile job outbase version nside pixel I d =
      if (d (fileName (tileBase outbase nside pixel) version (filetype job ++ "_catalog".toList) false)).isSome then (d, none)
      else match I.result with
        | .error e => (d, some e)
        | .ok none => (d, none)
        | .ok (some (c, m)) =>
          (write (savesMembers job) (fileName (tileBase outbase nside pixel) version (filetype job ++ "_catalog".toList) (versioned job))
            (fileName (tileBase outbase nside pixel) version (filetype job ++ "_catalog_members".toList) (versioned job)) c m d, none) := by
  unfold runTile
  rw [if_neg (by rw [hp]; simp), hc]
  simp only
  rw [if_neg hj]
  rfl

/-- **C247 (partial), randoms.** Running the task of the randoms again leaves all files alone. -/
theorem C247_partial {T : Type} (outbase version : List Char) (nside pixel : Nat) (I I' : Input T) (d d' : Dir T)
    (h : runTile .zmask outbase version nside pixel I d = (d', none)) (hd : d' ≠ d) :
    (runTile .zmask outbase version nside pixel I' d').1 = d' := by
  have hs : (d' (fileName (tileBase outbase nside pixel) version (filetype .zmask ++ "_catalog".toList) false)).isSome := by
    by_cases h1 : I.pixelized = false
    · unfold runTile at h
      rw [if_pos h1] at h
      simp at h
    · cases hc : checkFiles (checks .zmask) I.files with
      | error e =>
        unfold runTile at h
        rw [if_neg h1, hc] at h
        simp at h
      | ok u =>
        rw [runTile_ok _ _ _ _ _ _ _ (by decide) (by simpa using h1) u hc] at h
        split_ifs at h with h2
        · have : d = d' := congrArg Prod.fst h
          rw [← this]; exact h2
        · split at h
          · simp at h
          · exact absurd (congrArg Prod.fst h).symm hd
          · have := congrArg Prod.fst h
            simp only at this
            rw [← this]
            simp only [write, savesMembers, versioned, Dir.set, if_true, Setup.fwrite]
            split <;> rfl
  by_cases h1 : I'.pixelized = false
  · unfold runTile
    rw [if_pos h1]
  · cases hc : checkFiles (checks .zmask) I'.files with
    | error e =>
      unfold runTile
      rw [if_neg h1, hc]
    | ok u =>
      rw [runTile_ok _ _ _ _ _ _ _ (by decide) (by simpa using h1) u hc, if_pos hs]

/-- **C247, nothing is lost**: whatever the task, a file that exists keeps its tables, at its beginning. -/
theorem C247_keeps {T : Type} (job : Job) (outbase version : List Char) (nside pixel : Nat) (I : Input T) (d : Dir T) (n : List Char) (ts : List T)
    (hn : d n = some ts) : ∃ more, (runTile job outbase version nside pixel I d).1 n = some (ts ++ more) := by
  have setk : ∀ (d : Dir T) (m : List Char) (x : T) (ts : List T), d n = some ts →
      ∃ more, (d.set m (Setup.fwrite false x (d m))) n = some (ts ++ more) := by
    intro d m x ts h
    unfold Dir.set
    by_cases hm : n = m
    · subst hm
      rw [if_pos rfl, h]
      exact ⟨[x], by simp [Setup.fwrite]⟩
    · rw [if_neg hm]
      exact ⟨[], by simpa using h⟩
  have writek : ∀ (sm : Bool) (cn mn : List Char) (c : T) (m : Option T), ∃ more, write sm cn mn c m d n = some (ts ++ more) := by
    intro sm cn mn c m
    obtain ⟨m1, h1⟩ := setk d cn c ts hn
    unfold write
    cases sm with
    | false => exact ⟨m1, h1⟩
    | true =>
      cases m with
      | none => exact ⟨m1, h1⟩
      | some x =>
        obtain ⟨m2, h2⟩ := setk _ mn x _ h1
        exact ⟨m1 ++ m2, by rw [← List.append_assoc]; exact h2⟩
  have same : ∃ more, d n = some (ts ++ more) := ⟨[], by simpa using hn⟩
  by_cases h1 : I.pixelized = false
  · unfold runTile
    rw [if_pos h1]
    exact same
  · cases hc : checkFiles (checks job) I.files with
    | error e =>
      unfold runTile
      rw [if_neg h1, hc]
      exact same
    | ok u =>
      by_cases hj : job = .runcat
      · unfold runTile
        rw [if_neg h1, hc]
        simp only
        rw [if_pos hj]
        exact same
      · rw [runTile_ok _ _ _ _ _ _ _ hj (by simpa using h1) u hc]
        split_ifs
        · exact same
        · split
          · exact same
          · exact same
          · rename_i c m _
            exact writek _ _ _ c m

/-- **C247, redshift scan**: the task looks for the name without version and writes the one with version, so every call does the work again, and
after `k` calls the catalog has one table for each. -/
theorem C247_zscan {T : Type} (outbase version : List Char) (nside pixel : Nat) (I : Input T) (hp : I.pixelized = true)
    (hf : ∃ u, checkFiles (checks .zscan) I.files = .ok u) (c : T) (m : Option T) (hr : I.result = .ok (some (c, m))) (k : Nat) :
    let run := fun d => (runTile .zscan outbase version nside pixel I d).1
    (run^[k] fun _ => none) (fileName (tileBase outbase nside pixel) version ("zscan".toList ++ "_catalog".toList) true) =
      if k = 0 then none else some (List.replicate k c) := by
  intro run
  obtain ⟨u, hu⟩ := hf
  set cn := fileName (tileBase outbase nside pixel) version ("zscan".toList ++ "_catalog".toList) true with hcn
  set un := fileName (tileBase outbase nside pixel) version ("zscan".toList ++ "_catalog".toList) false with hun
  set mn := fileName (tileBase outbase nside pixel) version ("zscan".toList ++ "_catalog_members".toList) true with hmn
  have hcm : cn ≠ mn := catalog_ne_members _ _ _ _ _
  have hum : un ≠ mn := catalog_ne_members _ _ _ _ _
  have huc : un ≠ cn := by
    intro h
    have := congrArg List.length h
    rw [hcn, hun] at this
    unfold fileName at this
    simp at this
  have key : ∀ d : Dir T, d un = none → run d un = none ∧ run d cn = Setup.fwrite false c (d cn) := by
    intro d hd
    have : run d = write true cn mn c m d := by
      show (runTile .zscan outbase version nside pixel I d).1 = _
      unfold runTile
      rw [if_neg (by rw [hp]; simp), hu]
      simp only [reduceCtorEq, if_false]
      have : (d (fileName (tileBase outbase nside pixel) version (filetype .zscan ++ "_catalog".toList) false)).isSome = false := by
        show (d un).isSome = false
        rw [hd]; rfl
      rw [this, hr]
      rfl
    rw [this]
    unfold write Dir.set
    cases m with
    | none => exact ⟨by simp [huc, hd], by simp⟩
    | some mm => exact ⟨by simp [huc, hum, hd], by simp [hcm]⟩
  have all : ∀ k, (run^[k] fun _ => none) un = none ∧ (run^[k] fun _ => none) cn = if k = 0 then none else some (List.replicate k c) := by
    intro k
    induction k with
    | zero => exact ⟨rfl, rfl⟩
    | succ k ih =>
      rw [Function.iterate_succ_apply']
      obtain ⟨h1, h2⟩ := key _ ih.1
      refine ⟨h1, ?_⟩
      rw [h2, ih.2]
      cases k with
      | zero => rfl
      | succ k => simp [Setup.fwrite, List.replicate_succ']
  exact (all k).2

/-- **C247, catalog run**: `RunCatalog` is not imported where its task is: nothing is ever written, and with all files in place it is a
NameError. -/
theorem C247_runcat {T : Type} (outbase version : List Char) (nside pixel : Nat) (I : Input T) (d : Dir T) :
    (runTile .runcat outbase version nside pixel I d).1 = d ∧
    (I.pixelized = true → (∃ u, checkFiles (checks .runcat) I.files = .ok u) → (runTile .runcat outbase version nside pixel I d).2 = some .name) := by
  constructor
  · by_cases h1 : I.pixelized = false
    · unfold runTile; rw [if_pos h1]
    · cases hc : checkFiles (checks .runcat) I.files with
      | error e => unfold runTile; rw [if_neg h1, hc]
      | ok u => unfold runTile; rw [if_neg h1, hc]; simp
  · rintro hp ⟨u, hu⟩
    unfold runTile
    rw [if_neg (by rw [hp]; simp), hu]
    simp

/-- The input files a task needs: always background and model; the redshift scan also redshifts, both parts of the background and the redshift
correction; the catalog run the redshift correction; the mask run the randoms. -/
def Needs (job : Job) (f : Config.Files) : Prop :=
  f.bkg = some true ∧ f.par = some true ∧
  match job with
  | .runcat => f.zlambda = some true
  | .zmask => f.rand = some true
  | .zscan => f.zred = some true ∧ "CHISQBKG" ∈ f.bkgExts ∧ "ZREDBKG" ∈ f.bkgExts ∧ f.zlambda = some true

theorem checks_iff (job : Job) (f : Config.Files) : (∃ u, checkFiles (checks job) f = .ok u) ↔ Needs job f := by
  have : (∃ u, checkFiles (checks job) f = .ok u) ↔ checkFiles (checks job) f = .ok () := ⟨fun ⟨_, h⟩ => h, fun h => ⟨_, h⟩⟩
  rw [this, Config.C94_ok_iff]
  unfold Needs
  cases job <;> simp [checks] <;> tauto

/-- **C247, files that are missing**: without a pixelized galaxy file or one of its input files a task raises and writes nothing. -/
theorem C247_needs {T : Type} (job : Job) (outbase version : List Char) (nside pixel : Nat) (I : Input T) (d : Dir T)
    (h : ¬ (I.pixelized = true ∧ Needs job I.files)) :
    (runTile job outbase version nside pixel I d).1 = d ∧ (runTile job outbase version nside pixel I d).2 ≠ none := by
  rw [← checks_iff] at h
  unfold runTile
  by_cases h1 : I.pixelized = false
  · rw [if_pos h1]; simp
  · rw [if_neg h1]
    cases hc : checkFiles (checks job) I.files with
    | error e => simp
    | ok u => exact absurd ⟨by simpa using h1, u, hc⟩ h

/-- **C247, the first run**: in a directory without its files, the task of the randoms writes its catalog under the name without version and
nothing else; the redshift scan writes catalog and members under the names with version and nothing else. -/
theorem C247_writes {T : Type} (job : Job) (hj : job ≠ .runcat) (outbase version : List Char) (nside pixel : Nat) (I : Input T) (d : Dir T)
    (hp : I.pixelized = true) (hf : Needs job I.files) (c m : T) (hr : I.result = .ok (some (c, some m)))
    (name : List Char → Bool → List Char)
    (hname : name = fun kind v => (outbase ++ '_' :: dec nside ++ '_' :: pad5 pixel) ++ (if v then "_redmapper_v".toList ++ version else []) ++ '_' :: (kind ++ ".fit".toList))
    (hd : ∀ kind v, d (name kind v) = none) (n : List Char) :
    (runTile job outbase version nside pixel I d).2 = none ∧
    (runTile job outbase version nside pixel I d).1 n =
      (if job = .zmask then
        if n = name "randoms_zmask_catalog".toList false then some [c] else d n
      else if n = name "zscan_catalog".toList true then some [c]
      else if n = name "zscan_catalog_members".toList true then some [m] else d n) := by
  obtain ⟨u, hu⟩ := (checks_iff _ _).mpr hf
  have hn : ∀ kind v, fileName (tileBase outbase nside pixel) version kind v = name kind v := by
    intro kind v
    rw [hname]
    unfold fileName tileBase
    cases v <;> simp
  rw [runTile_ok _ _ _ _ _ _ _ hj hp u hu, hn, hd, hr]
  simp only [hn]
  refine ⟨rfl, ?_⟩
  cases job with
  | runcat => exact absurd rfl hj
  | zmask =>
    show (write false (name ("randoms_zmask".toList ++ "_catalog".toList) false) (name (filetype .zmask ++ "_catalog_members".toList) false) c (some m) d) n = _
    have : "randoms_zmask".toList ++ "_catalog".toList = "randoms_zmask_catalog".toList := by decide
    rw [this, if_pos rfl]
    unfold write Dir.set
    simp only
    rw [hd]
    rfl
  | zscan =>
    show (write true (name ("zscan".toList ++ "_catalog".toList) true) (name ("zscan".toList ++ "_catalog_members".toList) true) c (some m) d) n = _
    have hne : name ("zscan".toList ++ "_catalog".toList) true ≠ name ("zscan".toList ++ "_catalog_members".toList) true := by
      rw [← hn, ← hn]; exact catalog_ne_members _ _ _ _ _
    have e1 : "zscan".toList ++ "_catalog".toList = "zscan_catalog".toList := by decide
    have e2 : "zscan".toList ++ "_catalog_members".toList = "zscan_catalog_members".toList := by decide
    rw [e1, e2] at hne ⊢
    rw [if_neg (by decide)]
    unfold write Dir.set
    simp only
    rw [if_neg hne.symm, hd, hd]
    simp only [Setup.fwrite]
    by_cases h1 : n = name "zscan_catalog".toList true
    · rw [if_neg (by rw [h1]; exact hne), if_pos h1, if_pos h1]
    · rw [if_neg h1, if_neg h1]

/-- All files in place. -/
def allFiles : Config.Files := ⟨some true, some true, ["CHISQBKG", "ZREDBKG"], some true, some true, some true⟩

/-- Non-vacuity: all tasks accept a directory with all files. -/
example : ∀ job, ∃ u, checkFiles (checks job) allFiles = .ok u := by
  intro job
  refine ⟨(), (Config.C94_ok_iff _ _).mpr ?_⟩
  cases job <;> simp [checks, allFiles]

/-- **C247 is false** in general. -/
theorem C247_false : ¬ C247_spec := by
  intro h
  have hu : checkFiles (checks .zscan) allFiles = .ok () := (Config.C94_ok_iff _ _).mpr (by simp [checks, allFiles])
  set I : Input Nat := ⟨true, allFiles, .ok (some (1, none))⟩ with hI
  have hz := C247_zscan [] [] 8 17 I rfl ⟨_, hu⟩ 1 none rfl
  have h1 := hz 1
  have h2 := hz 2
  simp only [Function.iterate_succ, Function.iterate_zero, Function.comp_apply, id, reduceCtorEq, if_false] at h1 h2
  have hx : runTile .zscan [] [] 8 17 I (fun _ => none) = ((runTile .zscan [] [] 8 17 I fun _ => none).1, none) := by
    unfold runTile
    rw [if_neg (by simp [hI])]
    simp only [hI, hu]
    rfl
  have := h Nat .zscan [] [] 8 17 I I _ _ hx (by
    intro he
    rw [he] at h1
    simp at h1)
  rw [this, h1] at h2
  simp at h2

/-! ## C248: setup of a run -/

variable {α : Type} [Field α] [LinearOrder α] [IsStrictOrderedRing α]

/-- All files of the configuration can be read. -/
def Readable (w : Found α) : Prop := w.bkg = true ∧ w.zredbkg = true ∧ w.colorbkg = true ∧ w.par = true ∧ w.zredfile = true

/-- The property as one would like it: with all files in place the setup of no run raises an exception, with or without a depth map. -/
def C248_spec : Prop :=
  ∀ (m : Mode) (likeZred : Bool) (w : Found ℚ), Readable w → ∃ r, setup (flags m w.depth likeZred) w = .ok r

/-- The range of magnitudes: from the first bin of the background to the end of the last one; 1000 on either side for the colour members. -/
def InRange (m : Mode) (bins : List α) (mag : α) : Prop :=
  if m = .colormem then -1000 < mag ∧ mag < 1000
  else ∃ first second last, bins[0]? = some first ∧ bins[1]? = some second ∧ bins.getLast? = some last ∧ first < mag ∧ mag < last + (second - first)

/-- The runs that cut on chi-squared: the first pass, and the likelihoods if they use redshifts; the redshift file must be configured. -/
def CutsChisq (m : Mode) (likeZred zredfile : Bool) : Prop := zredfile = true ∧ (m = .firstpass ∨ (m = .likelihoods ∧ likeZred = true))

theorem magRange_bins (bins : List α) (hb : 2 ≤ bins.length) : ∃ a b l, bins[0]? = some a ∧ bins[1]? = some b ∧ bins.getLast? = some l ∧
    magRange true bins = (a, l + (b - a)) := by
  match bins, hb with
  | a :: b :: t, _ =>
    obtain ⟨l, hl⟩ : ∃ l, (a :: b :: t).getLast? = some l := ⟨_, List.getLast?_eq_getLast_of_ne_nil (by simp)⟩
    refine ⟨a, b, l, rfl, rfl, hl, ?_⟩
    unfold magRange
    rw [List.getLast?_eq_getElem?] at hl
    simp only [if_true, List.getD_eq_getElem?_getD, hl]
    rfl

/-- The galaxies that are kept. -/
def keptGals (f : Flags) (cut : Bool) (w : Found α) : List (α × α) :=
  w.gals.filter fun g => decide ((magRange cut w.refmagbins).1 < g.1) && decide (g.1 < (magRange cut w.refmagbins).2) &&
    (!(f.readZreds && w.zredfile && f.cutChisq) || decide (g.2 < w.chisqMax))

theorem setup_eval (f : Flags) (w : Found α) (cut : Bool) (hw : Readable w) (hz : f.zredsRequired = true → f.readZreds = true)
    (hg : f.readGals = true) (hc : f.cutBkg = some cut) :
    setup f w = if keptGals f cut w = [] then .ok .noCatalog else if w.depth = false ∧ w.depthlim = false then .ok .noCatalog
      else .ok (.ready (some (keptGals f cut w))) := by
  obtain ⟨h1, h2, h3, h4, h5⟩ := hw
  unfold setup
  rw [if_neg (by rw [h1, h3]; simp), if_neg (by rw [h2]; simp), if_neg (by rw [h4]; simp), if_neg (by rw [hg]; simp),
    if_neg (by rintro ⟨a, b⟩; exact b ⟨hz a, h5⟩), if_neg (by rw [hg]; simp), hc]
  show (if (keptGals f cut w).isEmpty = true then _ else _) = _
  simp only [List.isEmpty_iff]
  rfl

theorem setup_gals (f : Flags) (w : Found α) (gs : List (α × α)) (h : setup f w = .ok (.ready (some gs))) :
    ∃ cut, f.cutBkg = some cut ∧ gs = keptGals f cut w ∧ gs ≠ [] := by
  cases hc : f.cutBkg with
  | none =>
    unfold setup at h
    rw [hc] at h
    split_ifs at h <;> simp at h
  | some cut =>
    refine ⟨cut, rfl, ?_⟩
    have e : setup f w = .ok (.ready none) ∨ (∃ x, setup f w = .error x) ∨
        setup f w = if (keptGals f cut w).isEmpty = true then .ok .noCatalog else if w.depth = false ∧ w.depthlim = false then .ok .noCatalog
          else .ok (.ready (some (keptGals f cut w))) := by
      unfold setup
      rw [hc]
      by_cases h1 : (if f.useColorbkg then w.colorbkg else w.bkg) = false
      · rw [if_pos h1]; exact .inr (.inl ⟨_, rfl⟩)
      rw [if_neg h1]
      by_cases h2 : f.zredbkgRequired ∧ w.zredbkg = false
      · rw [if_pos h2]; exact .inr (.inl ⟨_, rfl⟩)
      rw [if_neg h2]
      by_cases h3 : f.useParfile ∧ w.par = false
      · rw [if_pos h3]; exact .inr (.inl ⟨_, rfl⟩)
      rw [if_neg h3]
      by_cases h4 : w.depth = false ∧ f.readGals = false
      · rw [if_pos h4]; exact .inr (.inl ⟨_, rfl⟩)
      rw [if_neg h4]
      by_cases h5 : f.zredsRequired ∧ ¬ (f.readZreds ∧ w.zredfile)
      · rw [if_pos h5]; exact .inr (.inl ⟨_, rfl⟩)
      rw [if_neg h5]
      by_cases h6 : f.readGals = false
      · rw [if_pos h6]; exact .inl rfl
      rw [if_neg h6]
      exact .inr (.inr rfl)
    rcases e with e | ⟨x, e⟩ | e
    · rw [e] at h; simp at h
    · rw [e] at h; simp at h
    · rw [e] at h
      by_cases h1 : (keptGals f cut w).isEmpty = true
      · rw [if_pos h1] at h; simp at h
      · rw [if_neg h1] at h
        by_cases h2 : w.depth = false ∧ w.depthlim = false
        · rw [if_pos h2] at h; simp at h
        · rw [if_neg h2] at h
          simp only [Except.ok.injEq, Ready.ready.injEq, Option.some.injEq] at h
          rw [← h]
          exact ⟨rfl, by simpa using h1⟩

/-- **C248 (partial), no exception**: with all files in place the setup raises nothing, except for the randoms without a depth map. -/
theorem C248_partial (m : Mode) (likeZred : Bool) (w : Found α) (hw : Readable w) (hm : m ≠ .zmask ∨ w.depth = true) :
    ∃ r, setup (flags m w.depth likeZred) w = .ok r := by
  by_cases hz : m = .zmask
  · subst hz
    have hd : w.depth = true := by simpa using hm
    obtain ⟨h1, h2, h3, h4, h5⟩ := hw
    exact ⟨.ready none, by simp [setup, flags, defaults, h1, h4, hd]⟩
  · obtain ⟨cut, hc⟩ : ∃ cut, (flags m w.depth likeZred).cutBkg = some cut := by
      cases m <;> first | exact ⟨_, rfl⟩ | exact absurd rfl hz
    rw [setup_eval _ _ cut hw (by cases m <;> cases likeZred <;> simp [flags, defaults]) (by cases m <;> first | rfl | exact absurd rfl hz) hc]
    split_ifs <;> exact ⟨_, rfl⟩

/-- **C248 is false**: the randoms without a depth map ask for an attribute that is not set. -/
theorem C248_zmask (likeZred : Bool) (w : Found α) (hw : Readable w) (hd : w.depth = false) : setup (flags .zmask w.depth likeZred) w = .error .attribute := by
  obtain ⟨h1, h2, h3, h4, h5⟩ := hw
  simp [setup, flags, defaults, h1, h4, hd]

theorem C248_false : ¬ C248_spec := by
  intro h
  obtain ⟨r, hr⟩ := h .zmask false ⟨true, true, true, true, false, true, true, [(20, 1)], [12, 13], 20⟩ (by simp [Readable])
  rw [C248_zmask _ _ (by simp [Readable]) rfl] at hr
  cases hr

/-- **C248, the galaxies**: a run that uses galaxies uses at least one, and exactly those in the range of magnitudes of the background and, where
redshifts are read and the run cuts, below the maximum chi-squared, in their order. -/
theorem C248_gals (m : Mode) (depthSet likeZred : Bool) (w : Found α) (hb : 2 ≤ w.refmagbins.length) (gs : List (α × α))
    (h : setup (flags m depthSet likeZred) w = .ok (.ready (some gs))) :
    gs ≠ [] ∧ gs.Sublist w.gals ∧
    ∀ g, g ∈ gs ↔ g ∈ w.gals ∧ InRange m w.refmagbins g.1 ∧ (CutsChisq m likeZred w.zredfile → g.2 < w.chisqMax) := by
  obtain ⟨a, b, l, ha, hbb, hl, hr⟩ := magRange_bins _ hb
  have hr' : magRange false w.refmagbins = ((-1000 : α), (1000 : α)) := rfl
  obtain ⟨cut, hc, rfl, hne⟩ := setup_gals _ _ _ h
  refine ⟨hne, List.filter_sublist, fun g => ?_⟩
  unfold keptGals
  rw [List.mem_filter]
  refine and_congr_right fun _ => ?_
  unfold InRange CutsChisq
  rw [ha, hbb, hl]
  cases hz : w.zredfile <;> cases likeZred <;> cases m <;> simp [flags, defaults] at hc <;> subst hc <;> simp [hr, hr', flags, defaults, and_assoc]

/-- **C248, no catalog**: with all files in place the run ends without a catalog if and only if no galaxy is left, or there is neither a depth map
nor a local depth. -/
theorem C248_none (m : Mode) (likeZred : Bool) (w : Found α) (hw : Readable w) (hm : m ≠ .zmask) (hb : 2 ≤ w.refmagbins.length) :
    setup (flags m w.depth likeZred) w = .ok .noCatalog ↔
      (∀ g ∈ w.gals, InRange m w.refmagbins g.1 → CutsChisq m likeZred w.zredfile ∧ ¬ g.2 < w.chisqMax) ∨ (w.depth = false ∧ w.depthlim = false) := by
  obtain ⟨cut, hc⟩ : ∃ cut, (flags m w.depth likeZred).cutBkg = some cut := by
    cases m <;> first | exact ⟨_, rfl⟩ | exact absurd rfl hm
  rw [setup_eval _ _ cut hw (by cases m <;> cases likeZred <;> simp [flags, defaults]) (by cases m <;> first | rfl | exact absurd rfl hm) hc]
  obtain ⟨a, b, l, ha, hbb, hl, hmr⟩ := magRange_bins _ hb
  have hmr' : magRange false w.refmagbins = ((-1000 : α), (1000 : α)) := rfl
  have hk : keptGals (flags m w.depth likeZred) cut w = [] ↔
      ∀ g ∈ w.gals, InRange m w.refmagbins g.1 → CutsChisq m likeZred w.zredfile ∧ ¬ g.2 < w.chisqMax := by
    unfold keptGals
    rw [List.filter_eq_nil_iff]
    refine forall_congr' fun g => forall_congr' fun _ => ?_
    unfold InRange CutsChisq
    rw [ha, hbb, hl, hw.2.2.2.2]
    cases likeZred <;> cases m <;> simp [flags, defaults] at hc <;> first | exact absurd rfl hm | (subst hc; simp [hmr, hmr', flags, defaults])
  rw [← hk]
  split_ifs with h1 h2
  · simp [h1]
  · simp [h2]
  · simp only [Except.ok.injEq, reduceCtorEq, false_iff]
    rintro (h | h)
    · exact h1 h
    · exact h2 h

/-- Non-vacuity of C248. -/
example : setup (flags .firstpass true false) (⟨true, true, true, true, true, true, true, [(20, 1), (11, 1), (13, 30)], [12, 13, 21], 20⟩ : Found ℚ) =
    .ok (.ready (some [(20, 1)])) := by
  simp [setup, flags, defaults, magRange, List.filter]
  norm_num

/-! ## C249: mask correction of the randoms -/

/-- The property as one would like it: the scale of a random is finite and at least one. -/
def C249_spec : Prop := ∀ (r0 beta : ℝ) (cpars : List ℝ) (x : Rand), 0 < r0 → 0 < x.lambdaIn →
  ∃ s, (zmaskProcess r0 beta cpars x).scaleval = some s ∧ 1 ≤ s

/-- A polynomial with the highest power first: Horner's rule. -/
def horner (cpars : List ℝ) (r : ℝ) : ℝ := cpars.foldl (fun v c => v * r + c) 0

theorem polyval_snoc (cs : List ℝ) (c r : ℝ) : polyval (cs ++ [c]) r = polyval cs r * r + c := by
  unfold polyval
  rw [List.mapIdx_append, List.sum_append]
  have h1 : (cs.mapIdx fun k x => x * r ^ ((cs ++ [c]).length - 1 - k)) = (cs.mapIdx fun k x => x * r ^ (cs.length - 1 - k)).map (· * r) := by
    apply List.ext_getElem
    · simp
    · intro k h1 h2
      have hk : k < cs.length := by simpa using h1
      simp only [List.getElem_map, List.getElem_mapIdx, List.length_append, List.length_singleton, Nat.add_sub_cancel]
      have : cs.length - k = (cs.length - 1 - k) + 1 := by omega
      rw [this, pow_succ]
      ring
  rw [h1, List.sum_map_mul_right]
  simp

theorem polyval_horner (cs : List ℝ) (r : ℝ) : polyval cs r = horner cs r := by
  induction cs using List.reverseRecOn with
  | nil => rfl
  | append_singleton cs c ih =>
    rw [polyval_snoc, ih]
    unfold horner
    rw [List.foldl_append]
    rfl

/-- **C249 (partial).** The richness of a random is its input richness, its radius and mask radius are `r0 (λ/100)^β`, and its scale is
`1/(1-c)` with the polynomial of the mask correction at that radius, the highest power first; it is at least one where `0 ≤ c < 1`. -/
theorem C249_partial (r0 beta : ℝ) (cpars : List ℝ) (x : Rand) :
    (zmaskProcess r0 beta cpars x).lambdaIn = x.lambdaIn ∧
    (zmaskProcess r0 beta cpars x).Lambda = x.lambdaIn ∧
    (zmaskProcess r0 beta cpars x).rLambda = r0 * (x.lambdaIn / 100) ^ beta ∧
    (zmaskProcess r0 beta cpars x).rMask = r0 * (x.lambdaIn / 100) ^ beta ∧
    (∀ c, c = horner cpars (r0 * (x.lambdaIn / 100) ^ beta) → c ≠ 1 → (zmaskProcess r0 beta cpars x).scaleval = some (1 / (1 - c))) ∧
    (∀ c, c = horner cpars (r0 * (x.lambdaIn / 100) ^ beta) → 0 ≤ c → c < 1 → ∃ s, (zmaskProcess r0 beta cpars x).scaleval = some s ∧ 1 ≤ s) := by
  refine ⟨rfl, rfl, rfl, rfl, ?_, ?_⟩
  · rintro c rfl hc
    simp only [zmaskProcess, scaleval, polyval_horner]
    rw [if_neg]
    intro h
    exact hc (by linarith)
  · rintro c rfl h0 h1
    refine ⟨1 / (1 - horner cpars (r0 * (x.lambdaIn / 100) ^ beta)), ?_, ?_⟩
    · simp only [zmaskProcess, scaleval, polyval_horner]
      rw [if_neg]
      intro h
      linarith
    · rw [le_div_iff₀ (by linarith)]
      linarith

/-- **C249 is false** without the condition: a correction of one has no finite scale, and a negative one gives a scale below one. -/
theorem C249_false : ¬ C249_spec := by
  intro h
  obtain ⟨s, hs, _⟩ := h 1 0 [1] ⟨20, 0, 0, 0, none⟩ one_pos (by norm_num)
  simp [zmaskProcess, scaleval, polyval] at hs

theorem C249_false_negative (r0 beta : ℝ) (cpars : List ℝ) (x : Rand) (hc : horner cpars (r0 * (x.lambdaIn / 100) ^ beta) < 0) :
    ∃ s, (zmaskProcess r0 beta cpars x).scaleval = some s ∧ 0 < s ∧ s < 1 := by
  refine ⟨1 / (1 - horner cpars (r0 * (x.lambdaIn / 100) ^ beta)), ?_, ?_, ?_⟩
  · simp only [zmaskProcess, scaleval, polyval_horner]
    rw [if_neg]
    intro h
    linarith
  · apply div_pos one_pos; linarith
  · rw [div_lt_one (by linarith)]; linarith

/-- Non-vacuity of C249. -/
example : horner [1 / 10, 1 / 5] (1 * (100 / 100 : ℝ) ^ (0 : ℝ)) = 3 / 10 := by
  simp [horner]; norm_num

/-! ## C250: radius of the first pass -/

/-- The property as one would like it: the first pass uses the configured radius. -/
def C250_spec : Prop :=
  ∀ (c : FCfg ℚ) (seeds : Option (List (Seed ℚ))) (gals : List (Seed ℚ)) (mlim : ℚ → ℚ) (inMask : Nat → Bool) (rows : List (Row ℚ)),
    firstSeeds c seeds gals mlim inMask = .ok (some rows) → ∀ r ∈ rows, r.r0 = c.r0 ∧ r.beta = c.beta

/-! ## C251: seeds of the first pass -/

/-- A seed or galaxy in the range of redshifts and below the maximum chi-squared. -/
def Red (c : FCfg α) (g : Seed α) : Prop := c.zlo ≤ g.zred ∧ g.zred ≤ c.zhi ∧ g.chisq < c.chisqMax

instance (c : FCfg α) (g : Seed α) : Decidable (Red c g) := by unfold Red; infer_instance

theorem isEmpty_map_filter {β γ : Type} (p : β → Bool) (f : β → γ) (l : List β) : ((l.filter p).map f).isEmpty = true ↔ ∀ g ∈ l, p g = false := by
  rw [List.isEmpty_iff, List.map_eq_nil_iff, List.filter_eq_nil_iff]
  simp

/-- **C251, with seeds**: the rows are the seeds in the range of redshifts, below the maximum chi-squared and, with `cleaninput`, inside the mask,
in their order; they keep position, magnitude, zred, chi-squared and spectroscopic redshift, start at zred (in the spectroscopic mode at the
spectroscopic redshift) and have the configured radius.  No catalog exactly if there are none; never an exception. -/
theorem C251_seeds (c : FCfg α) (s gals : List (Seed α)) (mlim : α → α) (inMask : Nat → Bool) :
    let kept := s.filter fun g => decide (Red c g ∧ (c.cleaninput = true → inMask g.pos = true))
    firstSeeds c (some s) gals mlim inMask =
      .ok (if kept = [] then none else some (kept.map fun g =>
        ⟨g.pos, g.refmag, g.zred, g.chisq, if c.specmode then g.zspec else g.zred, if c.specmode then g.zspec else g.zred, g.zspec, c.r0, c.beta⟩)) := by
  intro kept
  have hf : ∀ g : Seed α, (decide (c.zlo ≤ g.zred) && decide (g.zred ≤ c.zhi) && decide (g.chisq < c.chisqMax)) = decide (Red c g) := by
    intro g
    unfold Red
    by_cases h1 : c.zlo ≤ g.zred <;> by_cases h2 : g.zred ≤ c.zhi <;> by_cases h3 : g.chisq < c.chisqMax <;> simp [h1, h2, h3]
  unfold firstSeeds
  simp only [hf]
  cases hc : c.cleaninput with
  | false =>
    have hk : kept = s.filter fun g => decide (Red c g) := by
      simp only [kept, hc]; congr 1; funext g; simp
    rw [hk]
    by_cases he : (s.filter fun g => decide (Red c g)) = []
    · simp [he]
    · rw [if_neg (by simpa using he), if_neg he]
      simp
  | true =>
    have hk : kept = (s.filter fun g => decide (Red c g)).filter fun g => inMask g.pos := by
      rw [List.filter_filter]
      simp only [kept, hc]
      congr 1
      funext g
      by_cases h1 : Red c g <;> by_cases h2 : inMask g.pos = true <;> simp [h1, h2]
    rw [hk]
    by_cases he : (s.filter fun g => decide (Red c g)) = []
    · simp [he]
    · rw [if_neg (by simpa using he)]
      simp only [if_true]
      rw [List.filter_map]
      simp only [Function.comp_def]
      by_cases h2 : ((s.filter fun g => decide (Red c g)).filter fun g => inMask g.pos) = []
      · rw [h2]; simp
      · rw [if_neg (by rw [List.isEmpty_iff, List.map_eq_nil_iff]; exact h2), if_neg h2]

/-- **C251, without seeds**: the galaxies in the range of redshifts, below the maximum chi-squared and brighter than the limit at their redshift are
the rows, in their order.  RuntimeError exactly in the spectroscopic mode or without redshifts. -/
theorem C251_gals (c : FCfg α) (gals : List (Seed α)) (mlim : α → α) (inMask : Nat → Bool) :
    let kept := gals.filter fun g => decide (Red c g ∧ g.refmag < mlim g.zred)
    firstSeeds c none gals mlim inMask =
      if c.specmode = true ∨ c.didReadZreds = false then .error .runtime
      else .ok (if kept = [] then none else some (kept.map fun g => ⟨g.pos, g.refmag, g.zred, g.chisq, g.zred, g.zred, 0, 1, 1 / 5⟩)) := by
  intro kept
  have hk : kept = (gals.filter fun g => decide (c.zlo ≤ g.zred) && decide (g.zred ≤ c.zhi) && decide (g.chisq < c.chisqMax)).filter
      fun g => decide (g.refmag < mlim g.zred) := by
    rw [List.filter_filter]
    simp only [kept, Red]
    congr 1
    funext g
    by_cases h1 : c.zlo ≤ g.zred <;> by_cases h2 : g.zred ≤ c.zhi <;> by_cases h3 : g.chisq < c.chisqMax <;> by_cases h4 : g.refmag < mlim g.zred <;>
      simp [h1, h2, h3, h4]
  unfold firstSeeds
  simp only [← hk]
  cases c.specmode
  · cases c.didReadZreds
    · simp
    · by_cases he : kept = []
      · simp [he]
      · simp [he]
  · simp

/-- **C251, the mask**: the property one would like for `cleaninput`, that all rows are inside of the mask. -/
def C251_mask_spec : Prop :=
  ∀ (c : FCfg ℚ) (seeds : Option (List (Seed ℚ))) (gals : List (Seed ℚ)) (mlim : ℚ → ℚ) (inMask : Nat → Bool) (rows : List (Row ℚ)),
    c.cleaninput = true → firstSeeds c seeds gals mlim inMask = .ok (some rows) → ∀ r ∈ rows, inMask r.pos = true

/-- **C251, the mask (partial)**: with a seed file they are. -/
theorem C251_mask_partial (c : FCfg α) (s gals : List (Seed α)) (mlim : α → α) (inMask : Nat → Bool) (rows : List (Row α)) (hc : c.cleaninput = true)
    (h : firstSeeds c (some s) gals mlim inMask = .ok (some rows)) : ∀ r ∈ rows, inMask r.pos = true := by
  have := C251_seeds c s gals mlim inMask
  simp only at this
  rw [this] at h
  simp only [Except.ok.injEq, Option.ite_none_left_eq_some, Option.some.injEq] at h
  obtain ⟨-, rfl⟩ := h
  intro r hr
  obtain ⟨g, hg, rfl⟩ := List.mem_map.mp hr
  rw [List.mem_filter, decide_eq_true_eq] at hg
  exact hg.2.2 hc

/-- A configuration of the first pass, for the witnesses. -/
def fcfg (spec : Bool) : FCfg ℚ := ⟨1 / 10, 9 / 10, 20, 1 / 2, 0, spec, true, true⟩

theorem witness : firstSeeds (fcfg false) none [⟨7, 18, 1 / 2, 1, 0⟩] (fun _ => 20) (fun _ => false) =
    .ok (some [⟨7, 18, 1 / 2, 1, 1 / 2, 1 / 2, 0, 1, 1 / 5⟩]) := by
  refine (C251_gals _ _ _ _).trans ?_
  simp [fcfg, Red]
  norm_num

/-- Without a seed file the mask is not used. -/
theorem C251_mask_false : ¬ C251_mask_spec := by
  intro h
  have := h (fcfg false) none [⟨7, 18, 1 / 2, 1, 0⟩] (fun _ => 20) (fun _ => false) [⟨7, 18, 1 / 2, 1, 1 / 2, 1 / 2, 0, 1, 1 / 5⟩] rfl
    witness _ (List.mem_singleton.mpr rfl)
  simp at this

/-- In the spectroscopic mode the cut is on zred: a seed outside of the range of redshifts by its spectroscopic redshift, at which it is
processed, is kept. -/
theorem C251_spec_false : ∃ rows, firstSeeds (fcfg true) (some [⟨7, 18, 1 / 2, 1, 3⟩]) [] (fun _ => 20) (fun _ => true) = .ok (some rows) ∧
    ∃ r ∈ rows, (fcfg true).zhi < r.z := by
  refine ⟨[⟨7, 18, 1 / 2, 1, 3, 3, 3, 1 / 2, 0⟩], ?_, _, List.mem_singleton.mpr rfl, ?_⟩
  · refine (C251_seeds _ _ _ _ _).trans ?_
    simp [fcfg, Red]
    norm_num
  · simp [fcfg]; norm_num

/-- **C250 (partial).** With a seed file the first pass uses the configured radius; without one, `r0 = 1` and `β = 1/5`. -/
theorem C250_partial (c : FCfg α) (seeds : Option (List (Seed α))) (gals : List (Seed α)) (mlim : α → α) (inMask : Nat → Bool) (rows : List (Row α))
    (h : firstSeeds c seeds gals mlim inMask = .ok (some rows)) :
    ∀ r ∈ rows, (seeds ≠ none → r.r0 = c.r0 ∧ r.beta = c.beta) ∧ (seeds = none → r.r0 = 1 ∧ r.beta = 1 / 5) := by
  cases seeds with
  | none =>
    have := C251_gals c gals mlim inMask
    simp only at this
    rw [this] at h
    by_cases hs : c.specmode = true ∨ c.didReadZreds = false
    · rw [if_pos hs] at h; simp at h
    rw [if_neg hs] at h
    simp only [Except.ok.injEq, Option.ite_none_left_eq_some, Option.some.injEq] at h
    obtain ⟨-, rfl⟩ := h
    intro r hr
    obtain ⟨g, -, rfl⟩ := List.mem_map.mp hr
    simp
  | some s =>
    have := C251_seeds c s gals mlim inMask
    simp only at this
    rw [this] at h
    simp only [Except.ok.injEq, Option.ite_none_left_eq_some, Option.some.injEq] at h
    obtain ⟨-, rfl⟩ := h
    intro r hr
    obtain ⟨g, -, rfl⟩ := List.mem_map.mp hr
    simp

/-- **C250 is false** without a seed file. -/
theorem C250_false : ¬ C250_spec := by
  intro h
  have := h (fcfg false) none [⟨7, 18, 1 / 2, 1, 0⟩] (fun _ => 20) (fun _ => false) [⟨7, 18, 1 / 2, 1, 1 / 2, 1 / 2, 0, 1, 1 / 5⟩]
    witness _ (List.mem_singleton.mpr rfl)
  simp [fcfg] at this

/-! ## C252: log files -/

/-- Calls of one configuration: `true` to start, `false` to stop the log file. -/
def logRun (k : Nat) (c : LCfg) (ops : List Bool) (l : Log) : Except Err Log :=
  ops.foldlM (fun l op => if op then startLog k c l else .ok (stopLog l)) l

/-- The property as one would like it: after a call to start, the last of the calls, the log file is open. -/
def C252_spec : Prop :=
  ∀ (k : Nat) (c : LCfg) (ops : List Bool), c.printlogging = false → c.hpix ≠ [] →
    ∃ l' n, logRun k c (ops ++ [true]) ⟨[], fun _ => false⟩ = .ok l' ∧ logName c = some n ∧ n ∈ l'.handlers

theorem logRun_started (k : Nat) (c : LCfg) (ops : List Bool) (l : Log) (hs : l.started k = true) :
    logRun k c ops l = .ok (if false ∈ ops then stopLog l else l) := by
  induction ops generalizing l with
  | nil => rfl
  | cons op ops ih =>
    cases op with
    | true =>
      have h1 : startLog k c l = .ok l := by unfold startLog; rw [if_pos hs]
      have : logRun k c (true :: ops) l = logRun k c ops l := by
        unfold logRun
        rw [List.foldlM_cons]
        simp only [if_true]
        rw [h1]
        rfl
      rw [this, ih l hs]
      simp
    | false =>
      have : logRun k c (false :: ops) l = logRun k c ops (stopLog l) := rfl
      rw [this, ih (stopLog l) hs]
      simp [stopLog]

/-- **C252 (partial).** Any sequence of calls that begins with a start, of a configuration that has not started its log, opens exactly one file;
it is open at the end if and only if there was no stop. -/
theorem C252_partial (k : Nat) (c : LCfg) (hp : c.printlogging = false) (n : List Char) (hn : logName c = some n) (ops : List Bool) (l : Log)
    (hl : l.started k = false) (hh : l.handlers = []) :
    ∃ l', logRun k c (true :: ops) l = .ok l' ∧ l'.handlers = if false ∈ ops then [] else [n] := by
  have h1 : startLog k c l = .ok ⟨[n], fun j => if j = k then true else l.started j⟩ := by
    unfold startLog
    rw [hl, hp, hn, hh]
    rfl
  refine ⟨if false ∈ ops then stopLog ⟨[n], fun j => if j = k then true else l.started j⟩ else ⟨[n], fun j => if j = k then true else l.started j⟩, ?_, ?_⟩
  · have : logRun k c (true :: ops) l = logRun k c ops ⟨[n], fun j => if j = k then true else l.started j⟩ := by
      unfold logRun
      rw [List.foldlM_cons]
      simp only [if_true]
      rw [h1]
      rfl
    rw [this, logRun_started _ _ _ _ (by simp)]
  · split_ifs <;> rfl

/-- **C252, console**: with `printlogging` no sequence of calls opens a file. -/
theorem C252_print (k : Nat) (c : LCfg) (hp : c.printlogging = true) (ops : List Bool) (l : Log) (hh : l.handlers = []) :
    ∃ l', logRun k c ops l = .ok l' ∧ l'.handlers = [] := by
  induction ops generalizing l with
  | nil => exact ⟨l, rfl, hh⟩
  | cons op ops ih =>
    cases op with
    | true =>
      have h1 : startLog k c l = .ok l := by unfold startLog; rw [hp]; simp
      have : logRun k c (true :: ops) l = logRun k c ops l := by
        unfold logRun
        rw [List.foldlM_cons]
        simp only [if_true]
        rw [h1]
        rfl
      rw [this]
      exact ih l hh
    | false => exact ih (stopLog l) rfl

/-- **C252, names**: configurations of different pixels with the same base name have different log files. -/
theorem C252_names (c c' : LCfg) (p p' : Nat) (ps ps' : List Nat) (hc : c.hpix = p :: ps) (hc' : c'.hpix = p' :: ps') (hb : c.outbase = c'.outbase)
    (h : logName c = logName c') : p = p' := by
  unfold logName at h
  rw [hc, hc', hb] at h
  simp only [Option.some.injEq] at h
  have h1 := List.append_cancel_right h
  have h2 := List.append_cancel_left h1
  rw [List.cons.injEq] at h2
  have h3 := congrArg (fun s => Nat.ofDigitChars 10 s 0) h2.2
  simpa [Nat.ofDigitChars_append, Nat.ofDigitChars_replicate_zero, dec] using h3

/-- **C252 is false**: after a stop, a start does not open the file again. -/
theorem C252_false : ¬ C252_spec := by
  intro h
  obtain ⟨l', n, h1, hn, h2⟩ := h 0 ⟨false, [], [17]⟩ [true, false] rfl (by simp)
  obtain ⟨l2, h3, h4⟩ := C252_partial 0 ⟨false, [], [17]⟩ rfl n hn [false, true] ⟨[], fun _ => false⟩ rfl rfl
  have e : l' = l2 := by
    have := h1.symm.trans h3
    simpa using this
  rw [e, h4] at h2
  simp at h2

/-- Without pixels (the whole sky) the log file cannot be started: IndexError. -/
theorem C252_false_sky (k : Nat) (outbase : List Char) (l : Log) (hl : l.started k = false) : startLog k ⟨false, outbase, []⟩ l = .error .index := by
  unfold startLog
  rw [hl]
  rfl

/-! ## C253: radius of the redshift scan -/

/-- The property as one would like it: the neighbours of a candidate of the redshift scan include all galaxies inside the radius of the richness
around every new centre inside the radius of the richness. -/
def C253_spec : Prop :=
  ∀ (r0 beta lam1 lam2 : ℝ) (p c g : ℝ), 0 < r0 → 0 ≤ beta → 0 < lam1 → 0 < lam2 →
    dist p c ≤ r0 * (lam1 / 100) ^ beta → dist c g ≤ r0 * (lam2 / 100) ^ beta → dist p g ≤ 2 * refineMaxrad r0 beta

theorem radius_le (r0 beta lam : ℝ) (hr : 0 < r0) (hb : 0 ≤ beta) (h0 : 0 < lam) (h3 : lam ≤ 300) : r0 * (lam / 100) ^ beta ≤ refineMaxrad r0 beta := by
  unfold refineMaxrad
  split_ifs with hz
  · rw [hz, Real.rpow_zero]
    linarith
  · apply mul_le_mul_of_nonneg_left _ hr.le
    apply Real.rpow_le_rpow (by positivity) _ hb
    linarith

/-- **C253 (partial).** They do up to a richness of 300. -/
theorem C253_partial {X : Type} [PseudoMetricSpace X] (r0 beta lam1 lam2 : ℝ) (p c g : X) (hr : 0 < r0) (hb : 0 ≤ beta)
    (h1 : 0 < lam1) (h1' : lam1 ≤ 300) (h2 : 0 < lam2) (h2' : lam2 ≤ 300)
    (hpc : dist p c ≤ r0 * (lam1 / 100) ^ beta) (hcg : dist c g ≤ r0 * (lam2 / 100) ^ beta) : dist p g ≤ 2 * refineMaxrad r0 beta := by
  have := dist_triangle p c g
  have a := radius_le r0 beta lam1 hr hb h1 h1'
  have b := radius_le r0 beta lam2 hr hb h2 h2'
  linarith

/-- Beyond 300 the radius of the richness is larger, if it depends on the richness at all. -/
theorem C253_beyond (r0 beta lam : ℝ) (hr : 0 < r0) (hb : 0 < beta) (h3 : 300 < lam) : refineMaxrad r0 beta < r0 * (lam / 100) ^ beta := by
  unfold refineMaxrad
  rw [if_neg hb.ne']
  apply mul_lt_mul_of_pos_left _ hr
  apply Real.rpow_lt_rpow (by norm_num) _ hb
  linarith

/-- **C253 is false** for richer clusters. -/
theorem C253_false : ¬ C253_spec := by
  intro h
  have e : refineMaxrad 1 1 = 3 := by
    unfold refineMaxrad
    rw [if_neg one_ne_zero, Real.rpow_one]
    norm_num
  have := h 1 1 400 400 0 4 8 one_pos zero_le_one (by norm_num) (by norm_num) (by rw [Real.rpow_one, Real.dist_eq]; norm_num [abs_of_neg])
    (by rw [Real.rpow_one, Real.dist_eq]; norm_num [abs_of_neg])
  rw [e, Real.dist_eq] at this
  norm_num at this

/-- Non-vacuity of C253. -/
example : dist (0 : ℝ) (1 / 2) ≤ 1 * (20 / 100 : ℝ) ^ (0 : ℝ) := by
  rw [Real.rpow_zero, Real.dist_eq]; norm_num

end Redmapper.CatTask
