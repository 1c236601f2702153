/-
Splitting a whole catalog in one call (C434).
-/
import Verif.Model.GalSplit
import Verif.Props.GalMaker

set_option linter.unusedSectionVars false

namespace Redmapper.GalMaker

variable {α : Type} [Field α] [LinearOrder α]

/-- The number of times a galaxy, whatever its id, is in the files of the catalog that the master table describes. -/
def copies [DecidableEq (Gal α)] (s : State α) (g : Gal α) : Nat :=
  match s.master with
  | none => 0
  | some t => (rowsOf s.files t.hpix).countP fun x => decide ({ x with id := 0 } = ({ g with id := 0 } : Gal α))

/-- **C434**, refusal: a maker that is finalized, or whose master table exists, raises and changes nothing. -/
theorem C434_refused (cfg : Cfg α) (s : State α) (b : Batch α) (h : s.finalized = true ∨ s.master.isSome = true) :
    split cfg s b = (s, some .runtimeError) := by
  unfold split
  by_cases hf : s.finalized = true
  · rw [if_pos hf]
  · rw [if_neg hf, if_pos (h.resolve_left hf)]

theorem finalize_untouched {disk : Nat → Option (List (Gal α))} (cfg : Cfg α) (s : State α) (hg : Good disk s) (p : Nat)
    (hp : s.ngals p = 0) : (finalize cfg s).1.files p = s.files p := by
  obtain ⟨h1, h2, h3, h4, h5⟩ := finalize_spec cfg s hg
  have hmem : (finalize cfg s).1 ∈ (finalizeSteps cfg s).1 := by
    show lastState s (finalizeSteps cfg s).1 ∈ _
    unfold lastState
    rw [List.getLast?_eq_some_getLast h2]
    exact List.getLast_mem _
  cases he : (finalizeSteps cfg s).2 with
  | some e => rw [((h4 e he).2 _ hmem).1]
  | none =>
    by_cases hgen : cfg.genIds = true
    · have hr := renumber_spec (written cfg.npix s) { s with master := some (mkTable cfg.npix s.ngals) } 1
        (List.nodup_range.filter _) (fun p hp => by
          simp only [written, List.mem_filter, decide_eq_true_eq] at hp
          obtain ⟨_, c, hc, _⟩ := (hg p).2 hp.2
          simp only [hc]; rfl)
      obtain ⟨r1, _, _, _, r5, _⟩ := hr
      have hnot : p ∉ written cfg.npix s := by
        simp only [written, List.mem_filter, decide_eq_true_eq, not_and, Nat.not_lt]
        intro _; omega
      have := r5 p hnot
      unfold finalize finalizeSteps
      simp only [hgen, if_true]
      have htab : (mkTable cfg.npix s.ngals).hpix = written cfg.npix s := rfl
      rw [htab]
      rcases hre : renumber { s with master := some (mkTable cfg.npix s.ngals) } 1 (written cfg.npix s) with ⟨tr, e⟩
      rw [hre] at r1 this
      simp only at r1 this
      subst r1
      simp only [← List.cons_append, lastState_concat]
      exact this
    · exact congrFun ((h5 he).2.2 (by simpa using hgen)) p

theorem split_append (cfg : Cfg α) (disk : Nat → Option (List (Gal α))) (b : Batch α) (s : State α) (r : Option Err)
    (ha : append cfg (fresh disk) b = (s, r)) :
    (∀ e, r = some e → split cfg (fresh disk) b = (s, some e)) ∧
    (r = none → split cfg (fresh disk) b = finalize cfg s) := by
  constructor
  · rintro e rfl
    unfold split; rw [ha]; simp [fresh]
  · rintro rfl
    unfold split; rw [ha]; simp [fresh]

theorem kept_sublist (b : Batch α) : (kept b).Sublist b.rows := by
  unfold kept
  cases b.keep with
  | none => exact List.Sublist.refl _
  | some fl =>
    simp only
    generalize b.rows = rows
    induction rows generalizing fl with
    | nil => simp
    | cons a t ih =>
      cases fl with
      | nil => simp
      | cons f fs =>
        cases f
        · simpa using (ih fs).trans (List.sublist_cons_self a t)
        · simpa using (ih fs)

/-- A successful append by a new maker cannot be followed by a finalization that raises. -/
theorem split_error (cfg : Cfg α) (hrev : RevOK cfg.rev) (hpix : ∀ g, cfg.pixOf g < cfg.npix)
    (disk : Nat → Option (List (Gal α))) (b : Batch α) (s : State α) (ha : append cfg (fresh disk) b = (s, none)) :
    (finalize cfg s).2 = none := by
  have happ : appends cfg (fresh disk) [b] = (s, [none]) := by simp [appends, ha]
  have hu := (C33_unique cfg hrev disk [b]).2.1
  simp only [happ] at hu
  rw [hu]
  by_cases hgen : cfg.genIds = true
  · exact Or.inl hgen
  right
  have hchk : check cfg b = true := by
    by_contra hc
    have hc : check cfg b = false := by simpa using hc
    have : append cfg (fresh disk) b = (fresh disk, some .runtimeError) := by simp [append, fresh, hc]
    rw [this] at ha; cases ha
  have hids : (b.rows.map Gal.id).Nodup := by
    have h1 : cfg.genIds || decide ((b.rows.map Gal.id).dedup.length = b.rows.length) := by
      unfold check at hchk
      rw [Bool.and_eq_true] at hchk
      exact hchk.2
    simp only [hgen, Bool.false_or, decide_eq_true_eq] at h1
    have h2 := (List.dedup_sublist (b.rows.map Gal.id)).eq_of_length (by simpa using h1)
    rw [← h2]; exact List.nodup_dedup _
  have hfile : ∀ p, ((s.files p).getD []).Perm (inPix cfg p b) ∨ (s.ngals p = 0 ∧ inPix cfg p b = []) := by
    intro p
    have h := C31_files cfg hrev hpix disk [b] (by rw [happ]; simp) p
    rw [happ] at h
    obtain ⟨chunks, hf, h1, h2, h3⟩ := h
    cases hf with
    | @cons c _ _ _ hc hn =>
      cases hn
      simp only [List.flatten_cons, List.flatten_nil, List.append_nil] at h1 h2 h3
      by_cases h0 : c = []
      · subst h0; exact Or.inr ⟨h1, hc.symm.eq_nil⟩
      · left; rw [(h3 h0).2]; exact hc
  have hzero : ∀ p, s.ngals p = 0 → inPix cfg p b = [] := by
    intro p h0
    have h := C31_files cfg hrev hpix disk [b] (by rw [happ]; simp) p
    rw [happ] at h
    obtain ⟨chunks, hf, h1, _⟩ := h
    cases hf with
    | @cons c _ _ _ hc hn =>
      cases hn
      simp only [List.flatten_cons, List.flatten_nil, List.append_nil] at h1
      have : c = [] := List.length_eq_zero_iff.mp (by omega)
      subst this; exact hc.symm.eq_nil
  have hperm : (rowsOf s.files (written cfg.npix s)).Perm ((List.range cfg.npix).flatMap fun p => inPix cfg p b) := by
    unfold rowsOf written
    generalize List.range cfg.npix = ps
    induction ps with
    | nil => simp
    | cons p ps ih =>
      rw [List.flatMap_cons]
      by_cases h0 : s.ngals p = 0
      · rw [List.filter_cons_of_neg (by simp [h0]), hzero p h0]; simpa using ih
      · rw [List.filter_cons_of_pos (by simp; omega), List.flatMap_cons]
        exact ((hfile p).resolve_right fun h => h0 h.1).append ih
  have hp2 := hperm.trans (perm_by_key (accepted b) cfg.pixOf cfg.npix).symm
  rw [(hp2.map Gal.id).nodup_iff, ← kept_eq]
  exact hids.sublist ((List.filter_sublist.trans (kept_sublist b)).map _)

/-- **C434**, success: a split by a new maker that returns leaves a finalized catalog with unique ids: the master table
lists exactly the pixels with an accepted galaxy, the file of each holds exactly these galaxies up to their ids, no file
existed there before, and the files of all other pixels are as they were. -/
theorem C434_success (cfg : Cfg α) (hrev : RevOK cfg.rev) (hpix : ∀ g, cfg.pixOf g < cfg.npix)
    (disk : Nat → Option (List (Gal α))) (b : Batch α) (hok : (split cfg (fresh disk) b).2 = none) :
    (split cfg (fresh disk) b).1.finalized = true ∧
    ∃ t, (split cfg (fresh disk) b).1.master = some t ∧ t.hpix.Pairwise (· < ·) ∧
      (∀ p, p ∈ t.hpix ↔ inPix cfg p b ≠ []) ∧
      ((rowsOf (split cfg (fresh disk) b).1.files t.hpix).map Gal.id).Nodup ∧
      ∀ p, (inPix cfg p b = [] → (split cfg (fresh disk) b).1.files p = disk p) ∧
        (inPix cfg p b ≠ [] → disk p = none ∧ ∃ c d, (split cfg (fresh disk) b).1.files p = some c ∧
          d.Perm (inPix cfg p b) ∧ List.Forall₂ sameButId c d) := by
  rcases ha : append cfg (fresh disk) b with ⟨s, e⟩
  cases e with
  | some e => rw [(split_append cfg disk b s (some e) ha).1 e rfl] at hok; cases hok
  | none =>
    have hs := (split_append cfg disk b s none ha).2 rfl
    rw [hs] at hok ⊢
    have happ : appends cfg (fresh disk) [b] = (s, [none]) := by simp [appends, ha]
    have hu := C33_unique cfg hrev disk [b]
    simp only [happ] at hu
    have hg : Good disk s := by have := appends_good cfg hrev [b] _ (good_fresh disk); rwa [happ] at this
    obtain ⟨t, t1, t2, t3, t4, t5, _⟩ := hu.2.2 hok
    have hfile : ∀ p, ∃ c, c.Perm (inPix cfg p b) ∧ s.ngals p = c.length ∧ (c = [] → s.files p = disk p) ∧
        (c ≠ [] → disk p = none ∧ s.files p = some c) := by
      intro p
      have h := C31_files cfg hrev hpix disk [b] (by rw [happ]; simp) p
      rw [happ] at h
      obtain ⟨chunks, hf, h1, h2, h3⟩ := h
      cases hf with
      | cons hc hn =>
        cases hn
        simp only [List.flatten_cons, List.flatten_nil, List.append_nil] at h1 h2 h3
        exact ⟨_, hc, h1, h2, h3⟩
    obtain ⟨h1, h2, _⟩ := finalize_spec cfg s hg
    have hmem : (finalize cfg s).1 ∈ (finalizeSteps cfg s).1 := by
      show lastState s (finalizeSteps cfg s).1 ∈ _
      unfold lastState
      rw [List.getLast?_eq_some_getLast h2]
      exact List.getLast_mem _
    have hsame := (h1 _ hmem).2.2.2
    refine ⟨t3, t, t1, t4.1, ?_, t5, ?_⟩
    · intro p
      rw [t4.2.1]
      obtain ⟨c, hc, hn, _⟩ := hfile p
      rw [hn, List.length_pos_iff]
      constructor
      · rintro ⟨_, h⟩ h0
        rw [h0] at hc; exact h hc.eq_nil
      · intro h
        refine ⟨?_, fun h0 => h (by rw [h0] at hc; exact hc.symm.eq_nil)⟩
        obtain ⟨g, hgm⟩ := List.exists_mem_of_ne_nil _ h
        have := (List.mem_filter.mp hgm).2
        simp only [decide_eq_true_eq] at this
        rw [← this]; exact hpix g
    · intro p
      obtain ⟨c, hc, hn, hc0, hc1⟩ := hfile p
      constructor
      · intro h0
        rw [h0] at hc
        have hcn := hc.eq_nil
        rw [finalize_untouched cfg s hg p (by rw [hn, hcn]; rfl)]
        exact hc0 hcn
      · intro h
        have hcn : c ≠ [] := fun h0 => h (by rw [h0] at hc; exact hc.symm.eq_nil)
        obtain ⟨d1, d2⟩ := hc1 hcn
        refine ⟨d1, ?_⟩
        have := hsame p
        rw [d2] at this
        cases hf : (finalize cfg s).1.files p with
        | none => rw [hf] at this; exact this.elim
        | some x => rw [hf] at this; exact ⟨x, c, rfl, hc, this⟩

/-- **C434**, again: after a split that returned, every further append or split raises and changes nothing. -/
theorem C434_again (cfg : Cfg α) (hrev : RevOK cfg.rev) (hpix : ∀ g, cfg.pixOf g < cfg.npix)
    (disk : Nat → Option (List (Gal α))) (b b' : Batch α) (hok : (split cfg (fresh disk) b).2 = none) :
    split cfg (split cfg (fresh disk) b).1 b' = ((split cfg (fresh disk) b).1, some .runtimeError) ∧
    append cfg (split cfg (fresh disk) b).1 b' = ((split cfg (fresh disk) b).1, some .runtimeError) := by
  have h := (C434_success cfg hrev hpix disk b hok).1
  exact ⟨C434_refused cfg _ b' (Or.inl h), by unfold append; rw [if_pos (Or.inl h)]⟩

/-- **C434**, checks: galaxies that do not pass the checks are refused before anything is written, so that splitting
corrected galaxies afterwards is the same as splitting them first. -/
theorem C434_partial (cfg : Cfg α) (disk : Nat → Option (List (Gal α))) (b b' : Batch α) (h : check cfg b = false) :
    (split cfg (fresh disk) b).2 = some .runtimeError ∧
    split cfg (split cfg (fresh disk) b).1 b' = split cfg (fresh disk) b' := by
  have hs : split cfg (fresh disk) b = (fresh disk, some .runtimeError) := by
    have ha : append cfg (fresh disk) b = (fresh disk, some .runtimeError) := by simp [append, fresh, h]
    unfold split
    rw [ha]
    simp [fresh]
  rw [hs]
  exact ⟨rfl, rfl⟩

/-- **C434**, no table: a split by a new maker that raises leaves no master table and every file that was there. -/
theorem C434_failed (cfg : Cfg α) (hrev : RevOK cfg.rev) (hpix : ∀ g, cfg.pixOf g < cfg.npix)
    (disk : Nat → Option (List (Gal α))) (b : Batch α) (h : (split cfg (fresh disk) b).2 ≠ none) :
    (split cfg (fresh disk) b).1.master = none ∧ (split cfg (fresh disk) b).1.finalized = false ∧
    ∀ p c, disk p = some c → (split cfg (fresh disk) b).1.files p = some c := by
  obtain ⟨hg, hf, hm, _⟩ := append_good cfg hrev (fresh disk) b (good_fresh disk)
  rcases ha : append cfg (fresh disk) b with ⟨s, r⟩
  rw [ha] at hg hf hm
  simp only at hg hf hm
  cases r with
  | none =>
    rw [(split_append cfg disk b s none ha).2 rfl] at h
    exact absurd (split_error cfg hrev hpix disk b s ha) h
  | some e =>
    rw [(split_append cfg disk b s (some e) ha).1 e rfl]
    refine ⟨hm, hf, fun p c hc => ?_⟩
    have h0 : s.ngals p = 0 := by
      by_contra h0
      have := ((hg p).2 (by omega)).1
      rw [this] at hc; cases hc
    rw [(hg p).1 h0, hc]

/-- What one would like: a split that raised because a file was in the way can be repeated when the file has been
removed: if it then returns, every galaxy is in the catalog as often as in the input. -/
def C434_spec : Prop :=
  ∀ (cfg : Cfg ℚ) (disk : Nat → Option (List (Gal ℚ))) (b : Batch ℚ) (p : Nat), RevOK cfg.rev →
    (∀ g, cfg.pixOf g < cfg.npix) → (split cfg (fresh disk) b).2 ≠ none →
    (split cfg (removeFile (split cfg (fresh disk) b).1 p) b).2 = none →
    ∀ g ∈ accepted b, copies (split cfg (removeFile (split cfg (fresh disk) b).1 p) b).1 g =
      (accepted b).countP fun x => decide ({ x with id := 0 } = ({ g with id := 0 } : Gal ℚ))

/-- **C434** is false: the galaxies of the pixels written before the error are written a second time, and with generated
ids the catalog is finalized without an error. -/
theorem C434_false : ¬ C434_spec := by
  intro h
  have := h (exCfg true) (fun q => if q = 2 then some [] else none) (exBatch [exGal 7 10, exGal 8 20]) 2
    revRef_stable.ok (exCfg_pix true) (by decide +kernel) (by decide +kernel) (exGal 7 10) (by decide +kernel)
  revert this
  decide +kernel

/-- A split of two galaxies into an empty directory returns. -/
example : (split (exCfg true) (fresh fun _ => none) (exBatch [exGal 7 10, exGal 8 20])).2 = none ∧
    copies (split (exCfg true) (fresh fun _ => none) (exBatch [exGal 7 10, exGal 8 20])).1 (exGal 7 10) = 1 := by
  decide +kernel

/-- A batch that is refused, and one that meets a file. -/
example : check (exCfg false) (exBatch [exGal 7 10, exGal 7 20]) = false ∧
    (append (exCfg true) (fresh fun q => if q = 2 then some [] else none) (exBatch [exGal 7 10, exGal 8 20])).2 =
      some .runtimeError := by
  decide +kernel

/-! ## C435: random points -/

theorem splitRandoms_append (cfg : Cfg α) (disk : Nat → Option (List (Gal α))) (b : Batch α) (s : State α)
    (r : Option Err) (ha : writeLoop (fresh disk) (groups cfg (kept b)) = (s, r)) :
    (∀ e, r = some e → splitRandoms cfg (fresh disk) b = (s, some e)) ∧
    (r = none → splitRandoms cfg (fresh disk) b = finalize cfg s) := by
  have h : appendRandoms cfg (fresh disk) b = (s, r) := by
    unfold appendRandoms; rw [if_neg (by simp [fresh]), ha]
  constructor
  · rintro e rfl
    unfold splitRandoms; rw [h]; simp [fresh]
  · rintro rfl
    unfold splitRandoms; rw [h]; simp [fresh]

/-- The rows of the catalog after all points were written are the accepted points, in some order. -/
theorem written_perm (cfg : Cfg α) (hrev : RevOK cfg.rev) (hpix : ∀ g, cfg.pixOf g < cfg.npix)
    (disk : Nat → Option (List (Gal α))) (b : Batch α) (s : State α)
    (ha : writeLoop (fresh disk) (groups cfg (kept b)) = (s, none)) :
    Good disk s ∧ (∀ p, (content s p).Perm (inPix cfg p b)) ∧
    (rowsOf s.files (written cfg.npix s)).Perm (accepted b) := by
  obtain ⟨hg, _, _, _, done, _, hd, hc⟩ := writeLoop_good _ _ s none (good_fresh disk) (groups_ne cfg hrev _) ha
  have hcp : ∀ p, (content s p).Perm (inPix cfg p b) := by
    intro p
    rw [hc p, content_fresh, List.nil_append, hd rfl, inPix, ← kept_eq]
    exact groups_perm cfg hrev hpix _ p
  refine ⟨hg, hcp, ?_⟩
  have hperm : (rowsOf s.files (written cfg.npix s)).Perm ((List.range cfg.npix).flatMap fun p => inPix cfg p b) := by
    unfold rowsOf written
    generalize List.range cfg.npix = ps
    induction ps with
    | nil => simp
    | cons p ps ih =>
      rw [List.flatMap_cons]
      by_cases h0 : s.ngals p = 0
      · have : inPix cfg p b = [] := by
          have h := hcp p
          unfold content at h; rw [if_pos h0] at h
          exact h.symm.eq_nil
        rw [List.filter_cons_of_neg (by simp [h0]), this]; simpa using ih
      · rw [List.filter_cons_of_pos (by simp; omega), List.flatMap_cons]
        have h := hcp p
        unfold content at h; rw [if_neg h0] at h
        exact h.append ih
  refine (hperm.trans (perm_by_key (accepted b) cfg.pixOf cfg.npix).symm).trans ?_
  rw [List.filter_eq_self.mpr (by intro g _; simpa using hpix g)]

/-- **C435**, success: a split of random points by a new maker that returns leaves a finalized catalog in which the
accepted points are exactly the rows, each in the file of its pixel, with ids that were all different. -/
theorem C435_success (cfg : Cfg α) (hgen : cfg.genIds = false) (hrev : RevOK cfg.rev)
    (hpix : ∀ g, cfg.pixOf g < cfg.npix) (disk : Nat → Option (List (Gal α))) (b : Batch α)
    (hok : (splitRandoms cfg (fresh disk) b).2 = none) :
    (splitRandoms cfg (fresh disk) b).1.finalized = true ∧ ((accepted b).map Gal.id).Nodup ∧
    ∃ t, (splitRandoms cfg (fresh disk) b).1.master = some t ∧
      (rowsOf (splitRandoms cfg (fresh disk) b).1.files t.hpix).Perm (accepted b) ∧
      ∀ p, (inPix cfg p b = [] → (splitRandoms cfg (fresh disk) b).1.files p = disk p) ∧
        (inPix cfg p b ≠ [] → disk p = none ∧ ∃ c, (splitRandoms cfg (fresh disk) b).1.files p = some c ∧
          c.Perm (inPix cfg p b)) := by
  rcases ha : writeLoop (fresh disk) (groups cfg (kept b)) with ⟨s, r⟩
  cases r with
  | some e => rw [(splitRandoms_append cfg disk b s _ ha).1 e rfl] at hok; cases hok
  | none =>
    have hs := (splitRandoms_append cfg disk b s _ ha).2 rfl
    rw [hs] at hok ⊢
    obtain ⟨hg, hcp, hrows⟩ := written_perm cfg hrev hpix disk b s ha
    obtain ⟨h1, h2, h3, _, h5⟩ := finalize_spec cfg s hg
    have hmem : (finalize cfg s).1 ∈ (finalizeSteps cfg s).1 := by
      show lastState s (finalizeSteps cfg s).1 ∈ _
      unfold lastState
      rw [List.getLast?_eq_some_getLast h2]
      exact List.getLast_mem _
    have hok' : (finalizeSteps cfg s).2 = none := hok
    have hfiles : (finalize cfg s).1.files = s.files := (h5 hok').2.2 hgen
    refine ⟨(h5 hok').1, ?_, _, (h1 _ hmem).2.2.1, ?_, ?_⟩
    · have := (h3.mp hok').resolve_left (by simp [hgen])
      exact (hrows.map Gal.id).nodup_iff.mp this
    · rw [hfiles]; exact hrows
    · intro p
      rw [hfiles]
      constructor
      · intro h0
        have h := hcp p
        rw [h0] at h
        apply (hg p).1
        rw [← content_length hg p, h.eq_nil]; rfl
      · intro h0
        have h := hcp p
        have hne : content s p ≠ [] := fun h' => h0 (by rw [h'] at h; exact h.symm.eq_nil)
        obtain ⟨d1, d2⟩ := content_file hg p hne
        exact ⟨d1, _, d2, h⟩

/-- **C435**, errors: if the ids of the accepted points are all different, a split by a new maker that raises leaves no
master table and every file that was there.  Missing: repeated ids (`C435_false`). -/
theorem C435_partial (cfg : Cfg α) (hrev : RevOK cfg.rev) (hpix : ∀ g, cfg.pixOf g < cfg.npix)
    (disk : Nat → Option (List (Gal α))) (b : Batch α) (hid : ((accepted b).map Gal.id).Nodup)
    (h : (splitRandoms cfg (fresh disk) b).2 ≠ none) :
    (splitRandoms cfg (fresh disk) b).1.master = none ∧ (splitRandoms cfg (fresh disk) b).1.finalized = false ∧
    ∀ p c, disk p = some c → (splitRandoms cfg (fresh disk) b).1.files p = some c := by
  rcases ha : writeLoop (fresh disk) (groups cfg (kept b)) with ⟨s, r⟩
  cases r with
  | none =>
    rw [(splitRandoms_append cfg disk b s _ ha).2 rfl] at h
    obtain ⟨hg, _, hrows⟩ := written_perm cfg hrev hpix disk b s ha
    exact absurd ((finalize_spec cfg s hg).2.2.1.mpr (Or.inr ((hrows.map Gal.id).nodup_iff.mpr hid))) h
  | some e =>
    obtain ⟨hg, hf, hm, _⟩ := writeLoop_good _ _ s (some e) (good_fresh disk) (groups_ne cfg hrev _) ha
    rw [(splitRandoms_append cfg disk b s _ ha).1 e rfl]
    refine ⟨hm, hf, fun p c hc => ?_⟩
    have h0 : s.ngals p = 0 := by
      by_contra h0
      have := ((hg p).2 (by omega)).1
      rw [this] at hc; cases hc
    rw [(hg p).1 h0, hc]

/-- **C435** is false for every set of points with a repeated id that can be written: the call raises, but the master
table exists, so that every later call raises too, also with corrected points. -/
theorem C435_false (cfg : Cfg α) (hgen : cfg.genIds = false) (hrev : RevOK cfg.rev)
    (hpix : ∀ g, cfg.pixOf g < cfg.npix) (b : Batch α) (hid : ¬ ((accepted b).map Gal.id).Nodup)
    (disk : Nat → Option (List (Gal α))) (hw : (appendRandoms cfg (fresh disk) b).2 = none) :
    (splitRandoms cfg (fresh disk) b).2 = some .runtimeError ∧
    (splitRandoms cfg (fresh disk) b).1.master.isSome = true ∧
    ∀ b', splitRandoms cfg (splitRandoms cfg (fresh disk) b).1 b' =
      ((splitRandoms cfg (fresh disk) b).1, some .runtimeError) := by
  rcases ha : writeLoop (fresh disk) (groups cfg (kept b)) with ⟨s, r⟩
  have hr : (appendRandoms cfg (fresh disk) b).2 = r := by
    unfold appendRandoms; rw [if_neg (by simp [fresh]), ha]
  rw [hw] at hr
  subst hr
  rw [(splitRandoms_append cfg disk b s _ ha).2 rfl]
  obtain ⟨hg, _, hrows⟩ := written_perm cfg hrev hpix disk b s ha
  obtain ⟨h1, h2, h3, h4, _⟩ := finalize_spec cfg s hg
  have hmem : (finalize cfg s).1 ∈ (finalizeSteps cfg s).1 := by
    show lastState s (finalizeSteps cfg s).1 ∈ _
    unfold lastState
    rw [List.getLast?_eq_some_getLast h2]
    exact List.getLast_mem _
  have hm : (finalize cfg s).1.master.isSome = true := by rw [(h1 _ hmem).2.2.1]; rfl
  refine ⟨?_, hm, ?_⟩
  · show (finalizeSteps cfg s).2 = _
    cases he : (finalizeSteps cfg s).2 with
    | some e => rw [(h4 e he).1]
    | none =>
      have := (h3.mp he).resolve_left (by simp [hgen])
      exact absurd ((hrows.map Gal.id).nodup_iff.mp this) hid
  · intro b'
    unfold splitRandoms
    by_cases hf : (finalize cfg s).1.finalized = true
    · rw [if_pos hf]
    · rw [if_neg hf, if_pos hm]

/-- Two points with one id can be written; two points with different ids are split. -/
example : ¬ ((accepted (exBatch [exGal 7 10, exGal 7 20])).map Gal.id).Nodup ∧
    (appendRandoms (exCfg false) (fresh fun _ => none) (exBatch [exGal 7 10, exGal 7 20])).2 = none ∧
    (splitRandoms (exCfg false) (fresh fun _ => none) (exBatch [exGal 7 10, exGal 8 20])).2 = none ∧
    (splitRandoms (exCfg false) (fresh fun q => if q = 2 then some [] else none)
      (exBatch [exGal 7 10, exGal 8 20])).2 ≠ none := by
  decide +kernel

end Redmapper.GalMaker
