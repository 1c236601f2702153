/-
Properties of the multiprocessing run: schedules, crashes and restarts, file names, configuration.
-/
import Verif.Model.RedRun
import Mathlib.Tactic.Common
import Mathlib.Data.Nat.Digits.Lemmas

namespace Redmapper.RedRun

variable {K : Type}

/-! ## Specification: what a pixel yields -/

/-- The files a pixel yields when it is run once without interruption in an empty directory. -/
def ideal (S : Stages K) (p : Nat) : Files K :=
  let l := (S.firstpass p).bind (S.like p)
  let q := l.bind (S.perc p)
  { firstpass := S.firstpass p, like := l, perc := q.map Prod.fst, members := q.map Prod.snd }

/-- Which files are then reported. -/
def idealRet (S : Stages K) (p : Nat) : Ret :=
  { firstpass := (ideal S p).firstpass.isSome, like := (ideal S p).like.isSome, perc := (ideal S p).perc.isSome }

/-- No files. -/
def noFile : Files K := ⟨none, none, none, none⟩

/-- The files of a pixel are those of an uninterrupted run or missing, and a later one is only there with the
ones before. -/
structure Part (S : Stages K) (p : Nat) (f : Files K) : Prop where
  fp : f.firstpass = none ∨ f.firstpass = (ideal S p).firstpass
  like : f.like = none ∨ (f.like = (ideal S p).like ∧ f.firstpass.isSome)
  perc : f.perc = none ∨ (f.perc = (ideal S p).perc ∧ f.like.isSome)
  members : f.members = none ∨ (f.members = (ideal S p).members ∧ f.perc.isSome)

/-- Where a worker can be, in a run with `check`. -/
inductive At (S : Stages K) (p : Nat) : Pc K × Files K → Prop
  | start {f} : Part S p f → At S p (.start, f)
  | like {f} : Part S p f → f.firstpass.isSome → At S p (.like, f)
  | perc {f} : Part S p f → f.like.isSome → At S p (.perc, f)
  | members {f m} : Part S p f → f.perc.isSome → (ideal S p).members = some m → At S p (.members m, f)
  | done {f} : Part S p f → f.firstpass = (ideal S p).firstpass → f.like = (ideal S p).like →
      f.perc = (ideal S p).perc → At S p (.done (idealRet S p), f)

theorem ideal_like {S : Stages K} {p : Nat} {k : K} (h : S.firstpass p = some k) :
    (ideal S p).like = S.like p k := by simp [ideal, h]

theorem ideal_perc {S : Stages K} {p : Nat} {k : K} (h : (ideal S p).like = some k) :
    (ideal S p).perc = (S.perc p k).map Prod.fst ∧ (ideal S p).members = (S.perc p k).map Prod.snd := by
  have h' : (S.firstpass p).bind (S.like p) = some k := h
  simp [ideal, h']

theorem Part.fp' {S : Stages K} {p : Nat} {f : Files K} (h : Part S p f) (hs : f.firstpass.isSome) :
    f.firstpass = (ideal S p).firstpass := by
  rcases h.fp with e | e
  · rw [e] at hs; cases hs
  · exact e

theorem Part.like' {S : Stages K} {p : Nat} {f : Files K} (h : Part S p f) (hs : f.like.isSome) :
    f.like = (ideal S p).like ∧ f.firstpass.isSome := by
  rcases h.like with e | e
  · rw [e] at hs; cases hs
  · exact e

theorem Part.perc' {S : Stages K} {p : Nat} {f : Files K} (h : Part S p f) (hs : f.perc.isSome) :
    f.perc = (ideal S p).perc ∧ f.like.isSome := by
  rcases h.perc with e | e
  · rw [e] at hs; cases hs
  · exact e

theorem step_at {S : Stages K} {p : Nat} {st : Pc K × Files K} (h : At S p st) : At S p (step S true p st) := by
  cases h with
  | @start f h =>
    show At S p (stepFirstpass S true p f)
    unfold stepFirstpass
    by_cases hs : f.firstpass.isSome = true
    · simp only [hs, Bool.and_true, if_true]
      exact .like h hs
    · have hn : f.firstpass = none := by simpa using hs
      have hl : f.like = none := by
        rcases h.like with e | ⟨_, e⟩
        · exact e
        · exact absurd e hs
      have hp : f.perc = none := by
        rcases h.perc with e | ⟨_, e⟩
        · exact e
        · rw [hl] at e; cases e
      simp only [hn, Option.isSome_none, Bool.false_and, Bool.false_eq_true, if_false]
      cases hk : S.firstpass p with
      | none =>
        dsimp only
        have e1 : (ideal S p).firstpass = none := hk
        have e2 : (ideal S p).like = none := by simp [ideal, hk]
        have e3 : (ideal S p).perc = none := by simp [ideal, hk]
        have er : (⟨false, false, false⟩ : Ret) = idealRet S p := by simp [idealRet, e1, e2, e3]
        rw [er]
        exact .done h (by rw [hn, e1]) (by rw [hl, e2]) (by rw [hp, e3])
      | some k =>
        dsimp only
        refine .like ⟨Or.inr hk.symm, Or.inl hl, Or.inl hp, ?_⟩ rfl
        rcases h.members with e | ⟨_, e⟩
        · exact Or.inl e
        · rw [hp] at e; cases e
  | @like f h hf =>
    show At S p (stepLike S true p f)
    unfold stepLike
    by_cases hs : f.like.isSome = true
    · simp only [hs, Bool.and_true, if_true]
      exact .perc h hs
    · have hl : f.like = none := by simpa using hs
      have hp : f.perc = none := by
        rcases h.perc with e | ⟨_, e⟩
        · exact e
        · rw [hl] at e; cases e
      have hm : f.members = none := by
        rcases h.members with e | ⟨_, e⟩
        · exact e
        · rw [hp] at e; cases e
      obtain ⟨k, hk⟩ := Option.isSome_iff_exists.mp hf
      have hi : S.firstpass p = some k := (h.fp' hf).symm.trans hk
      simp only [hl, Option.isSome_none, Bool.false_and, Bool.false_eq_true, if_false, hk]
      cases hq : S.like p k with
      | none =>
        dsimp only
        have e1 : (ideal S p).firstpass = some k := hi
        have e2 : (ideal S p).like = none := by rw [ideal_like hi, hq]
        have e3 : (ideal S p).perc = none := by
          have : (S.firstpass p).bind (S.like p) = none := e2
          simp [ideal, this]
        have er : (⟨true, false, false⟩ : Ret) = idealRet S p := by simp [idealRet, e1, e2, e3]
        rw [er]
        exact .done h (by rw [hk, e1]) (by rw [hl, e2]) (by rw [hp, e3])
      | some k' =>
        dsimp only
        refine .perc ⟨hk ▸ h.fp, Or.inr ⟨?_, rfl⟩, Or.inl hp, Or.inl hm⟩ rfl
        show some k' = _
        rw [ideal_like hi, hq]
  | @perc f h hf =>
    show At S p (stepPerc S true p f)
    unfold stepPerc
    obtain ⟨k, hk⟩ := Option.isSome_iff_exists.mp hf
    obtain ⟨hl, hfp⟩ := h.like' hf
    have hi : (ideal S p).like = some k := hl.symm.trans hk
    obtain ⟨p1, p2⟩ := ideal_perc hi
    have e1 := h.fp' hfp
    by_cases hs : f.perc.isSome = true
    · simp only [hs, Bool.and_true, if_true]
      have hp := (h.perc' hs).1
      have er : (⟨true, true, true⟩ : Ret) = idealRet S p := by
        simp [idealRet, ← hp, ← hl, ← e1, hs, hf, hfp]
      rw [er]
      exact .done h e1 hl hp
    · have hp : f.perc = none := by simpa using hs
      have hm : f.members = none := by
        rcases h.members with e | ⟨_, e⟩
        · exact e
        · rw [hp] at e; cases e
      simp only [hp, Option.isSome_none, Bool.false_and, Bool.false_eq_true, if_false, hk]
      cases hq : S.perc p k with
      | none =>
        dsimp only
        have e3 : (ideal S p).perc = none := by rw [p1, hq]; rfl
        have er : (⟨true, true, false⟩ : Ret) = idealRet S p := by
          simp [idealRet, e3, ← hl, ← e1, hf, hfp]
        rw [er]
        exact .done h e1 hl (by rw [hp, e3])
      | some km =>
        dsimp only
        refine .members ⟨h.fp, Or.inr ⟨hi.symm, hfp⟩, Or.inr ⟨?_, rfl⟩, Or.inl hm⟩ rfl ?_
        · rw [p1, hq]; rfl
        · rw [p2, hq]; rfl
  | @members f m h hf hm =>
    show At S p (.done ⟨true, true, true⟩, { f with members := some m })
    obtain ⟨hp, hlk⟩ := h.perc' hf
    obtain ⟨hl, hfp⟩ := h.like' hlk
    have e1 := h.fp' hfp
    have er : (⟨true, true, true⟩ : Ret) = idealRet S p := by
      simp [idealRet, ← hp, ← hl, ← e1, hf, hlk, hfp]
    rw [er]
    exact .done ⟨h.fp, h.like, h.perc, Or.inr ⟨hm.symm, hf⟩⟩ e1 hl hp
  | @done f h h1 h2 h3 => exact .done h h1 h2 h3

theorem At.part {S : Stages K} {p : Nat} {st : Pc K × Files K} (h : At S p st) : Part S p st.2 := by
  cases h <;> assumption

theorem pool_at {S : Stages K} {pixels : List Nat} {files : Nat → Files K} (h : ∀ p, Part S p (files p))
    (sched : List Nat) (p : Nat) : At S p (pool S true pixels files sched p) := by
  unfold pool
  have gen : ∀ (sched : List Nat) (st : Nat → Pc K × Files K), (∀ p, At S p (st p)) →
      ∀ p, At S p (sched.foldl (poolStep S true pixels) st p) := by
    intro sched
    induction sched with
    | nil => intro st h p; exact h p
    | cons q l ih =>
      intro st h p
      refine ih _ (fun p => ?_) p
      unfold poolStep
      by_cases e : p = q ∧ q ∈ pixels
      · rw [if_pos e, e.1]; rw [e.1] at *; exact step_at (h q)
      · rw [if_neg e]; exact h p
  exact gen sched _ (fun p => .start (h p)) p

/-- The files after a history of runs with `check`, each on its list of pixels and under its own schedule,
which may stop anywhere. -/
def history (S : Stages K) (files : Nat → Files K) : List (List Nat × List Nat) → Nat → Files K
  | [] => files
  | r :: l => history S (filesOf (pool S true r.1 files r.2)) l

theorem history_part {S : Stages K} : ∀ (l : List (List Nat × List Nat)) {files : Nat → Files K},
    (∀ p, Part S p (files p)) → ∀ p, Part S p (history S files l p) := by
  intro l
  induction l with
  | nil => intro files h p; exact h p
  | cons r l ih => intro files h p; exact ih (fun p => (pool_at h r.2 p).part) p

theorem part_none (S : Stages K) (p : Nat) : Part S p noFile := ⟨Or.inl rfl, Or.inl rfl, Or.inl rfl, Or.inl rfl⟩

theorem mapM_some {α β : Type} {f : α → Option β} {g : α → β} : ∀ (l : List α), (∀ a ∈ l, f a = some (g a)) →
    l.mapM f = some (l.map g) := by
  intro l
  induction l with
  | nil => intro _; rfl
  | cons a l ih =>
    intro h
    rw [List.mapM_cons, h a (by simp), ih fun b hb => h b (by simp [hb])]
    rfl

/-- **C142.** Whatever happened before (any number of runs with `check`, interrupted anywhere, under any
schedules) and whatever the schedule of this run: if all its workers finish, none of them failed, and the
catalogs of every pixel, the reported files and so the lists of pixels handed to the consolidation are those of
an undisturbed run of each pixel by itself, in the order of the pixels. -/
theorem C142_restart_and_schedule (S : Stages K) (before : List (List Nat × List Nat)) (pixels sched : List Nat)
    (hfin : ∀ p ∈ pixels, ∃ r, (pool S true pixels (history S (fun _ => noFile) before) sched p).1 = .done r ∨
      (pool S true pixels (history S (fun _ => noFile) before) sched p).1 = .crashed) :
    let st := pool S true pixels (history S (fun _ => noFile) before) sched
    retvals pixels st = some (pixels.map fun p => (p, idealRet S p)) ∧
    (∀ p ∈ pixels, (filesOf st p).firstpass = (ideal S p).firstpass ∧ (filesOf st p).like = (ideal S p).like ∧
      (filesOf st p).perc = (ideal S p).perc) ∧
    (retvals pixels st).map (consolidated Ret.perc) =
      some (pixels.filter fun p => (ideal S p).perc.isSome) ∧
    (retvals pixels st).map (consolidated Ret.like) =
      some (pixels.filter fun p => (ideal S p).like.isSome) := by
  intro st
  have hat : ∀ p, At S p (st p) := pool_at (history_part before fun p => part_none S p) sched
  have hd : ∀ p ∈ pixels, (st p).1 = .done (idealRet S p) ∧ (filesOf st p).firstpass = (ideal S p).firstpass ∧
      (filesOf st p).like = (ideal S p).like ∧ (filesOf st p).perc = (ideal S p).perc := by
    intro p hp
    obtain ⟨r, hr⟩ := hfin p hp
    change (st p).1 = .done r ∨ (st p).1 = .crashed at hr
    have := hat p
    unfold filesOf
    generalize st p = x at this hr
    cases this with
    | done _ h1 h2 h3 => exact ⟨rfl, h1, h2, h3⟩
    | start _ => rcases hr with hr | hr <;> cases hr
    | like _ _ => rcases hr with hr | hr <;> cases hr
    | perc _ _ => rcases hr with hr | hr <;> cases hr
    | members _ _ _ => rcases hr with hr | hr <;> cases hr
  have hret : retvals pixels st = some (pixels.map fun p => (p, idealRet S p)) := by
    unfold retvals
    refine mapM_some _ fun p hp => ?_
    rw [(hd p hp).1]
    rfl
  have hc : ∀ (sel : Ret → Bool) (l : List Nat), consolidated sel (l.map fun p => (p, idealRet S p)) =
      l.filter fun p => sel (idealRet S p) := by
    intro sel l
    unfold consolidated
    rw [List.filter_map, List.map_map]
    have : ((fun x : Nat × Ret => x.1) ∘ fun p => (p, idealRet S p)) = id := rfl
    rw [this, List.map_id]
    rfl
  refine ⟨hret, fun p hp => (hd p hp).2, ?_, ?_⟩
  · rw [hret, Option.map_some, hc]; rfl
  · rw [hret, Option.map_some, hc]; rfl

/-- **C142**: workers that still have steps to make finish after four more steps each, whatever the others do;
so a schedule that finishes all of them exists from every point. -/
theorem C142_terminates (S : Stages K) (check : Bool) (p : Nat) (st : Pc K × Files K) :
    let e := step S check p (step S check p (step S check p (step S check p st)))
    (∃ r, e.1 = .done r) ∨ e.1 = .crashed := by
  have fix : ∀ st : Pc K × Files K, ((∃ r, st.1 = .done r) ∨ st.1 = .crashed) → step S check p st = st := by
    rintro ⟨pc, f⟩ (⟨r, h⟩ | h) <;> (dsimp only at h; subst h; rfl)
  have s1 : ∀ f m, (step S check p (.members m, f)).1 = .done ⟨true, true, true⟩ := fun _ _ => rfl
  have up : ∀ st, ((∃ r, st.1 = .done r) ∨ st.1 = .crashed) →
      ((∃ r, (step S check p st).1 = .done r) ∨ (step S check p st).1 = .crashed) := fun st h => by
    rw [fix st h]; exact h
  have s2 : ∀ f, (∃ r, (step S check p (step S check p (.perc, f))).1 = .done r) ∨
      (step S check p (step S check p (.perc, f))).1 = .crashed := by
    intro f
    have : step S check p (.perc, f) = stepPerc S check p f := rfl
    rw [this]
    unfold stepPerc
    split
    · exact up _ (Or.inl ⟨_, rfl⟩)
    · split
      · exact up _ (Or.inr rfl)
      · split
        · exact up _ (Or.inl ⟨_, rfl⟩)
        · exact Or.inl ⟨_, rfl⟩
  have s3 : ∀ f, (∃ r, (step S check p (step S check p (step S check p (.like, f)))).1 = .done r) ∨
      (step S check p (step S check p (step S check p (.like, f)))).1 = .crashed := by
    intro f
    have : step S check p (.like, f) = stepLike S check p f := rfl
    rw [this]
    unfold stepLike
    split
    · exact s2 _
    · split
      · exact up _ (up _ (Or.inr rfl))
      · split
        · exact up _ (up _ (Or.inl ⟨_, rfl⟩))
        · exact s2 _
  intro e
  show (∃ r, (step S check p (step S check p (step S check p (step S check p st)))).1 = .done r) ∨ _
  obtain ⟨pc, f⟩ := st
  cases pc with
  | start =>
    have h : step S check p (.start, f) = stepFirstpass S check p f := rfl
    show (∃ r, (step S check p (step S check p (step S check p (step S check p (.start, f))))).1 = .done r) ∨
      (step S check p (step S check p (step S check p (step S check p (.start, f))))).1 = .crashed
    rw [h]
    unfold stepFirstpass
    split
    · exact s3 _
    · split
      · exact up _ (up _ (up _ (Or.inl ⟨_, rfl⟩)))
      · exact s3 _
  | like => exact up _ (s3 f)
  | perc => exact up _ (up _ (s2 f))
  | members m => exact up _ (up _ (up _ (Or.inl ⟨_, s1 f m⟩)))
  | done r => exact up _ (up _ (up _ (up _ (Or.inl ⟨r, rfl⟩))))
  | crashed => exact up _ (up _ (up _ (up _ (Or.inr rfl))))

/-- **C143**, the full claim: after any history of runs with `check`, a run whose workers all finish leaves,
for every pixel it reports, the members that belong to its catalog. It fails: see `C143_false`. -/
def C143_spec (S : Stages K) : Prop :=
  ∀ (before : List (List Nat × List Nat)) (pixels sched : List Nat),
    (∀ p ∈ pixels, ∃ r, (pool S true pixels (history S (fun _ => noFile) before) sched p).1 = .done r) →
    ∀ p ∈ pixels, (filesOf (pool S true pixels (history S (fun _ => noFile) before) sched) p).members =
      (ideal S p).members

/-- A pixel whose files are complete: members are there with the catalog. -/
def Whole (f : Files K) : Prop := f.perc.isSome → f.members.isSome

theorem step_whole {S : Stages K} {p : Nat} {st : Pc K × Files K} (h : At S p st)
    (hw : Whole st.2 ∨ ∃ m, st.1 = .members m) :
    Whole (step S true p st).2 ∨ ∃ m, (step S true p st).1 = .members m := by
  cases h with
  | @start f h =>
    have hw : Whole f := by rcases hw with h | ⟨m, h⟩; exact h; cases h
    show Whole (stepFirstpass S true p f).2 ∨ _
    left
    unfold stepFirstpass
    split
    · exact hw
    · split <;> exact hw
  | @like f h hf =>
    have hw : Whole f := by rcases hw with h | ⟨m, h⟩; exact h; cases h
    show Whole (stepLike S true p f).2 ∨ _
    left
    unfold stepLike
    split
    · exact hw
    · split
      · exact hw
      · split <;> exact hw
  | @perc f h hf =>
    have hw : Whole f := by rcases hw with h | ⟨m, h⟩; exact h; cases h
    show Whole (stepPerc S true p f).2 ∨ ∃ m, (stepPerc S true p f).1 = .members m
    unfold stepPerc
    split
    · exact Or.inl hw
    · split
      · exact Or.inl hw
      · split
        · exact Or.inl hw
        · exact Or.inr ⟨_, rfl⟩
  | @members f m h hf hm => exact Or.inl fun _ => rfl
  | @done f h h1 h2 h3 =>
    rcases hw with hw | ⟨m, hm⟩
    · exact Or.inl hw
    · cases hm

/-- **C143, partial**: it holds for every pixel whose catalog and members were not separated by a crash, i.e.
that was whole when this run started. Missing: pixels interrupted between the two writes. -/
theorem C143_members_partial (S : Stages K) (before : List (List Nat × List Nat)) (pixels sched : List Nat)
    (hfin : ∀ p ∈ pixels, ∃ r, (pool S true pixels (history S (fun _ => noFile) before) sched p).1 = .done r)
    (p : Nat) (hp : p ∈ pixels) (hw : Whole (history S (fun _ => noFile) before p)) :
    (filesOf (pool S true pixels (history S (fun _ => noFile) before) sched) p).members = (ideal S p).members := by
  have hpart := history_part (S := S) before (files := fun _ => noFile) fun p => part_none S p
  have gen : ∀ (sched : List Nat) (st : Nat → Pc K × Files K), (∀ p, At S p (st p)) →
      (Whole (st p).2 ∨ ∃ m, (st p).1 = .members m) →
      (Whole (sched.foldl (poolStep S true pixels) st p).2 ∨
        ∃ m, (sched.foldl (poolStep S true pixels) st p).1 = .members m) := by
    intro sched
    induction sched with
    | nil => intro st _ h; exact h
    | cons q l ih =>
      intro st h hw
      refine ih _ (fun p => ?_) ?_
      · unfold poolStep
        by_cases e : p = q ∧ q ∈ pixels
        · rw [if_pos e, ← e.1]; exact step_at (h p)
        · rw [if_neg e]; exact h p
      · unfold poolStep
        by_cases e : p = q ∧ q ∈ pixels
        · rw [if_pos e, ← e.1]; exact step_whole (h p) hw
        · rw [if_neg e]; exact hw
  have h1 := gen sched (fun q => (.start, history S (fun _ => noFile) before q)) (fun p => .start (hpart p)) (Or.inl hw)
  have h2 := pool_at hpart (pixels := pixels) sched p
  obtain ⟨r, hr⟩ := hfin p hp
  change Whole (pool S true pixels _ sched p).2 ∨ ∃ m, (pool S true pixels _ sched p).1 = .members m at h1
  unfold filesOf
  generalize pool S true pixels (history S (fun _ => noFile) before) sched p = x at h1 h2 hr
  cases h2 with
  | @done f h e1 e2 e3 =>
    have hw : Whole f := by rcases h1 with h | ⟨m, h⟩; exact h; cases h
    dsimp only
    rcases h.members with e | ⟨e, _⟩
    · have hn : f.perc = none := by
        cases hq : f.perc with
        | none => rfl
        | some k =>
          have := hw (by rw [hq]; rfl)
          rw [e] at this; cases this
      have : (ideal S p).perc = none := e3.symm.trans hn
      rw [e]
      simp only [ideal, Option.map_eq_none_iff] at this
      simp [ideal, this]
    · exact e
  | start _ => cases hr
  | like _ _ => cases hr
  | perc _ _ => cases hr
  | members _ _ _ => cases hr

/-- A pixel whose catalog is there and whose members are not. -/
def Torn (f : Files K) : Prop := f.perc.isSome ∧ f.members = none

theorem step_torn {S : Stages K} {p : Nat} {st : Pc K × Files K} (h : Torn st.2)
    (hm : ∀ m, st.1 ≠ .members m) :
    Torn (step S true p st).2 ∧ ∀ m, (step S true p st).1 ≠ .members m := by
  obtain ⟨pc, f⟩ := st
  have h : Torn f := h
  cases pc with
  | start =>
    show Torn (stepFirstpass S true p f).2 ∧ ∀ m, (stepFirstpass S true p f).1 ≠ .members m
    unfold stepFirstpass
    split
    · exact ⟨h, fun m e => by cases e⟩
    · split <;> exact ⟨h, fun m e => by cases e⟩
  | like =>
    show Torn (stepLike S true p f).2 ∧ ∀ m, (stepLike S true p f).1 ≠ .members m
    unfold stepLike
    split
    · exact ⟨h, fun m e => by cases e⟩
    · split
      · exact ⟨h, fun m e => by cases e⟩
      · split <;> exact ⟨h, fun m e => by cases e⟩
  | perc =>
    show Torn (stepPerc S true p f).2 ∧ ∀ m, (stepPerc S true p f).1 ≠ .members m
    unfold stepPerc
    rw [h.1]
    exact ⟨h, fun m e => by cases e⟩
  | members m => exact absurd rfl (hm m)
  | done r => exact ⟨h, fun m e => by cases e⟩
  | crashed => exact ⟨h, fun m e => by cases e⟩

/-- **C143 fails** for every pixel that yields a percolated catalog: if the run is interrupted right after the
catalog of the pixel was written (its third write), the members are missing after every later history of runs
with `check`, however complete. -/
theorem C143_false (S : Stages K) (p : Nat) (hp : (ideal S p).perc.isSome)
    (later : List (List Nat × List Nat)) :
    (history S (fun _ => noFile) (([p], [p, p, p]) :: later) p).members = none ∧
    (ideal S p).members.isSome ∧ Torn (history S (fun _ => noFile) (([p], [p, p, p]) :: later) p) := by
  obtain ⟨k1, h1⟩ : ∃ k, S.firstpass p = some k := by
    cases h : S.firstpass p with
    | none => simp [ideal, h] at hp
    | some k => exact ⟨k, rfl⟩
  obtain ⟨k2, h2⟩ : ∃ k, S.like p k1 = some k := by
    cases h : S.like p k1 with
    | none => simp [ideal, h1, h] at hp
    | some k => exact ⟨k, rfl⟩
  obtain ⟨km, h3⟩ : ∃ k, S.perc p k2 = some k := by
    cases h : S.perc p k2 with
    | none => simp [ideal, h1, h2, h] at hp
    | some k => exact ⟨k, rfl⟩
  have first : Torn (filesOf (pool S true [p] (fun _ => noFile) [p, p, p]) p) := by
    unfold Torn filesOf pool
    simp only [List.foldl_cons, List.foldl_nil, poolStep, List.mem_singleton, and_self, if_true]
    simp [step, stepFirstpass, stepLike, stepPerc, noFile, h1, h2, h3]
  have keep : ∀ (pixels sched : List Nat) (files : Nat → Files K), Torn (files p) →
      Torn (filesOf (pool S true pixels files sched) p) := by
    intro pixels sched files ht
    have gen : ∀ (sched : List Nat) (st : Nat → Pc K × Files K), Torn (st p).2 → (∀ m, (st p).1 ≠ .members m) →
        Torn (sched.foldl (poolStep S true pixels) st p).2 := by
      intro sched
      induction sched with
      | nil => intro st h _; exact h
      | cons q l ih =>
        intro st h hm
        have : Torn (poolStep S true pixels st q p).2 ∧ ∀ m, (poolStep S true pixels st q p).1 ≠ .members m := by
          unfold poolStep
          by_cases e : p = q ∧ q ∈ pixels
          · rw [if_pos e]; exact step_torn h hm
          · rw [if_neg e]; exact ⟨h, hm⟩
        exact ih _ this.1 this.2
    exact gen sched _ ht fun m e => by cases e
  have all : ∀ (l : List (List Nat × List Nat)) (files : Nat → Files K), Torn (files p) →
      Torn (history S files l p) := by
    intro l
    induction l with
    | nil => intro files h; exact h
    | cons r l ih => intro files h; exact ih _ (keep r.1 r.2 files h)
  have t := all later _ first
  refine ⟨t.2, ?_, t⟩
  simp [ideal, h1, h2, h3]

/-! ## Without `check` -/

/-- **C144.** A run without `check` does not depend on the files it finds: under any schedule in which all its
workers finish, the reported files are those of an undisturbed run of each pixel by itself, and each reported
file has the content of such a run, members included. -/
theorem C144_no_check (S : Stages K) (files : Nat → Files K) (pixels sched : List Nat) (p : Nat)
    (hfin : ∃ r, (pool S false pixels files sched p).1 = .done r ∨ (pool S false pixels files sched p).1 = .crashed) :
    (pool S false pixels files sched p).1 = .done (idealRet S p) ∧
    ((idealRet S p).firstpass = true →
      (filesOf (pool S false pixels files sched) p).firstpass = (ideal S p).firstpass) ∧
    ((idealRet S p).like = true → (filesOf (pool S false pixels files sched) p).like = (ideal S p).like) ∧
    ((idealRet S p).perc = true → (filesOf (pool S false pixels files sched) p).perc = (ideal S p).perc ∧
      (filesOf (pool S false pixels files sched) p).members = (ideal S p).members) := by
  -- where the worker of a pixel can be
  let A : Pc K × Files K → Prop := fun st => match st.1 with
    | .start => True
    | .like => st.2.firstpass = (ideal S p).firstpass ∧ st.2.firstpass.isSome
    | .perc => st.2.firstpass = (ideal S p).firstpass ∧ st.2.firstpass.isSome ∧ st.2.like = (ideal S p).like ∧
        st.2.like.isSome
    | .members m => st.2.firstpass = (ideal S p).firstpass ∧ st.2.firstpass.isSome ∧ st.2.like = (ideal S p).like ∧
        st.2.like.isSome ∧ st.2.perc = (ideal S p).perc ∧ st.2.perc.isSome ∧ (ideal S p).members = some m
    | .done r => r = idealRet S p ∧ (r.firstpass = true → st.2.firstpass = (ideal S p).firstpass) ∧
        (r.like = true → st.2.like = (ideal S p).like) ∧
        (r.perc = true → st.2.perc = (ideal S p).perc ∧ st.2.members = (ideal S p).members)
    | .crashed => False
  have hstep : ∀ st, A st → A (step S false p st) := by
    rintro ⟨pc, f⟩ h
    cases pc with
    | start =>
      show A (stepFirstpass S false p f)
      unfold stepFirstpass
      simp only [Bool.and_false, Bool.false_eq_true, if_false]
      cases hk : S.firstpass p with
      | none =>
        refine ⟨?_, by simp, by simp, by simp⟩
        simp [idealRet, ideal, hk]
      | some k => exact ⟨hk.symm, rfl⟩
    | like =>
      obtain ⟨e1, e2⟩ := h
      dsimp only at e1 e2
      show A (stepLike S false p f)
      unfold stepLike
      obtain ⟨k, hk⟩ := Option.isSome_iff_exists.mp e2
      have hi : S.firstpass p = some k := e1.symm.trans hk
      simp only [Bool.and_false, Bool.false_eq_true, if_false, hk]
      cases hq : S.like p k with
      | none =>
        refine ⟨?_, fun _ => e1, by simp, by simp⟩
        simp [idealRet, ideal, hi, hq]
      | some k' => exact ⟨hi.symm, rfl, by rw [ideal_like hi, hq], rfl⟩
    | perc =>
      obtain ⟨e1, e2, e3, e4⟩ := h
      dsimp only at e1 e2 e3 e4
      show A (stepPerc S false p f)
      unfold stepPerc
      obtain ⟨k, hk⟩ := Option.isSome_iff_exists.mp e4
      have hi : (ideal S p).like = some k := e3.symm.trans hk
      obtain ⟨p1, p2⟩ := ideal_perc hi
      simp only [Bool.and_false, Bool.false_eq_true, if_false, hk]
      cases hq : S.perc p k with
      | none =>
        refine ⟨?_, fun _ => e1, fun _ => e3, by simp⟩
        rw [hq] at p1
        simp [idealRet, ← e1, e2, hi, p1]
      | some km =>
        refine ⟨e1, e2, hi.symm, rfl, ?_, rfl, ?_⟩
        · rw [p1, hq]; rfl
        · rw [p2, hq]; rfl
    | members m =>
      obtain ⟨e1, e2, e3, e4, e5, e6, e7⟩ := h
      dsimp only at e1 e2 e3 e4 e5 e6 e7
      refine ⟨?_, fun _ => e1, fun _ => e3, fun _ => ⟨e5, e7.symm⟩⟩
      simp [idealRet, ← e1, ← e3, ← e5, e2, e4, e6]
    | done r => exact h
    | crashed => exact h.elim
  have gen : ∀ (sched : List Nat) (st : Nat → Pc K × Files K), A (st p) →
      A (sched.foldl (poolStep S false pixels) st p) := by
    intro sched
    induction sched with
    | nil => intro st h; exact h
    | cons q l ih =>
      intro st h
      refine ih _ ?_
      unfold poolStep
      by_cases e : p = q ∧ q ∈ pixels
      · rw [if_pos e, ← e.1]; exact hstep _ h
      · rw [if_neg e]; exact h
  have := gen sched (fun q => (.start, files q)) trivial
  change A (pool S false pixels files sched p) at this
  unfold filesOf
  obtain ⟨r, hr⟩ := hfin
  generalize pool S false pixels files sched p = x at this hr
  obtain ⟨pc, f⟩ := x
  rcases hr with hr | hr
  · dsimp only at hr
    subst hr
    obtain ⟨rfl, a, b, c⟩ := this
    exact ⟨rfl, a, b, c⟩
  · dsimp only at hr
    subst hr
    exact this.elim

/-- **C142** for a percolation-only pixel: if the file is missing or the one this pixel yields, a run with
`check` reports and leaves what an undisturbed run would; without `check` the file that was there does not
matter for what is reported nor for a reported file. -/
theorem C142_percolation_only (perc file : Option K) :
    (file = none ∨ file = perc → percOnly perc true file = (perc.isSome, perc)) ∧
    (percOnly perc false file).1 = perc.isSome ∧ (perc.isSome → (percOnly perc false file).2 = perc) := by
  refine ⟨fun h => ?_, ?_, ?_⟩
  · rcases h with rfl | rfl
    · cases perc <;> rfl
    · cases file <;> rfl
  · cases perc <;> cases file <;> rfl
  · cases perc <;> cases file <;> simp [percOnly]

/-! ## File names -/

/-- The number a string of digits stands for. -/
def value (l : List Char) : Nat := l.foldl (fun a c => 10 * a + (c.toNat - 48)) 0

theorem value_append_zeros (n : Nat) (l : List Char) : value (List.replicate n '0' ++ l) = value l := by
  induction n with
  | zero => rfl
  | succ n ih =>
    rw [List.replicate_succ]
    show (List.replicate n '0' ++ l).foldl _ (10 * 0 + ('0'.toNat - 48)) = _
    have : 10 * 0 + ('0'.toNat - 48) = 0 := by decide
    rw [this]
    exact ih

theorem digitChar {d : Nat} (h : d < 10) : (Char.ofNat (48 + d)).toNat - 48 = d ∧ Char.ofNat (48 + d) ≠ '_' := by
  have : ∀ d : Fin 10, (Char.ofNat (48 + d.1)).toNat - 48 = d.1 ∧ Char.ofNat (48 + d.1) ≠ '_' := by decide
  exact this ⟨d, h⟩

theorem value_decimal (n : Nat) : value (decimal n) = n := by
  unfold decimal
  by_cases h : n = 0
  · rw [if_pos h, h]; rfl
  · rw [if_neg h]
    unfold value
    rw [List.foldl_map, List.foldl_reverse]
    have key : ∀ l : List Nat, (∀ d ∈ l, d < 10) →
        l.foldr (fun d a => 10 * a + ((Char.ofNat (48 + d)).toNat - 48)) 0 = Nat.ofDigits 10 l := by
      intro l
      induction l with
      | nil => intro _; rfl
      | cons d l ih =>
        intro hd
        rw [List.foldr_cons, ih fun x hx => hd x (by simp [hx]), (digitChar (hd d (by simp))).1, Nat.ofDigits_cons]
        simp [Nat.add_comm]
    rw [key _ fun d hd => Nat.digits_lt_base (by decide) hd, Nat.ofDigits_digits]

theorem value_pad5 (n : Nat) : value (pad5 n) = n := by
  unfold pad5
  rw [value_append_zeros, value_decimal]

theorem decimal_no_underscore (n : Nat) : '_' ∉ decimal n := by
  unfold decimal
  by_cases h : n = 0
  · rw [if_pos h]; decide
  · rw [if_neg h]
    intro hm
    obtain ⟨d, hd, e⟩ := List.mem_map.mp hm
    exact (digitChar (Nat.digits_lt_base (b := 10) (by decide) (List.mem_reverse.mp hd))).2 e

theorem split_at {a a' b b' : List Char} (ha : '_' ∉ a) (ha' : '_' ∉ a') (h : a ++ '_' :: b = a' ++ '_' :: b') :
    a = a' ∧ b = b' := by
  induction a generalizing a' with
  | nil =>
    cases a' with
    | nil => exact ⟨rfl, (List.cons.inj h).2⟩
    | cons c l => exact absurd ((List.cons.inj h).1 ▸ List.mem_cons_self) ha'
  | cons c l ih =>
    cases a' with
    | nil => exact absurd ((List.cons.inj h).1 ▸ List.mem_cons_self) ha
    | cons c' l' =>
      obtain ⟨h1, h2⟩ := List.cons.inj h
      obtain ⟨h3, h4⟩ := ih (fun hm => ha (List.mem_cons_of_mem _ hm)) (fun hm => ha' (List.mem_cons_of_mem _ hm)) h2
      exact ⟨by rw [h1, h3], h4⟩

/-- **C145.** Two pixel jobs of one output base use the same files only if they are the same pixel at the same
resolution, whatever the numbers (also beyond five digits). -/
theorem C145_names (base : List Char) (n n' p p' : Nat) (h : outbase base n p = outbase base n' p') :
    n = n' ∧ p = p' := by
  unfold outbase at h
  simp only [List.append_assoc] at h
  have h := List.append_cancel_left h
  have h : decimal n ++ '_' :: pad5 p = decimal n' ++ '_' :: pad5 p' := (List.cons.inj h).2
  obtain ⟨h1, h2⟩ := split_at (decimal_no_underscore n) (decimal_no_underscore n') h
  refine ⟨?_, ?_⟩
  · have := congrArg value h1
    rwa [value_decimal, value_decimal] at this
  · have := congrArg value h2
    rwa [value_pad5, value_pad5] at this

/-- **C146**, the full claim, for the percolation-only mode: two pixel jobs of one output base use the same file
only if they are the same pixel at the same resolution. It fails: see `C146_false`. -/
def C146_spec (base : List Char) : Prop :=
  ∀ n n' p p', outbasePerc base n p = outbasePerc base n' p' → n = n' ∧ p = p'

/-- **C146, partial**: it holds at one resolution. Missing: runs at different resolutions. -/
theorem C146_names_partial (base : List Char) (n p p' : Nat) (h : outbasePerc base n p = outbasePerc base n p') :
    p = p' := by
  unfold outbasePerc at h
  simp only [List.append_assoc] at h
  have h := List.append_cancel_left h
  have h : pad5 p = pad5 p' := (List.cons.inj h).2
  have := congrArg value h
  rwa [value_pad5, value_pad5] at this

/-- **C146 fails** for every output base and pixel number: the name does not depend on the resolution, so a
percolation-only run that is restarted with another split of the footprint (another number of processes) takes
the file of a different area for its own. -/
theorem C146_false (base : List Char) : ¬ C146_spec base ∧
    ∀ (n n' p : Nat) (k : K) (perc : Option K), n ≠ n' → outbasePerc base n p = outbasePerc base n' p ∧
      percOnly perc true (percOnly (some k) true none).2 = (true, some k) := by
  refine ⟨fun h => ?_, fun n n' p k perc _ => ⟨rfl, rfl⟩⟩
  have := (h 1 2 0 0 rfl).1
  cases this

/-! ## Arguments and configuration -/

/-- **C147.** A run is refused exactly for the two forbidden combinations of arguments, before any worker
starts and without touching the configuration; a run that returns leaves the configuration as it was, and its
workers saw the split resolution and the given seed file (or the configured one). -/
theorem C147_arguments (specmode keepz percOnly : Bool) (seedfile : Option (List Char)) (nsideSplit : Nat)
    (workers consolidate : RunCfg → Bool) (c : RunCfg) :
    let o := run specmode keepz percOnly seedfile nsideSplit workers consolidate c
    (o.1 = .runtimeError ↔ (specmode = true ∧ (keepz = false ∨ percOnly = true))) ∧
    (o.1 = .runtimeError → o.2 = (c, none)) ∧
    (o.1 = .returned → o.2.1 = c) ∧
    (∀ c', o.2.2 = some c' → c'.nside = nsideSplit ∧
      (∀ f, seedfile = some f → c'.seedfile = some f) ∧ (seedfile = none → c'.seedfile = c.seedfile)) := by
  intro o
  have : o = run specmode keepz percOnly seedfile nsideSplit workers consolidate c := rfl
  clear_value o
  subst this
  unfold run
  cases specmode <;> cases keepz <;> cases percOnly <;> simp <;> (try split) <;> (try split) <;>
    (try simp_all) <;> (try (intro c' e; subst e)) <;> (try (refine ⟨rfl, ?_, ?_⟩ <;> (try intro f) <;> intro e <;> (try subst e) <;> simp_all))

/-- **C147**, the full claim: the configuration of the run object is the same before and after, whatever
happens. It fails: see `C147_restored_false`. -/
def C147_spec : Prop :=
  ∀ (specmode keepz percOnly : Bool) (seedfile : Option (List Char)) (nsideSplit : Nat)
    (workers consolidate : RunCfg → Bool) (c : RunCfg),
    (run specmode keepz percOnly seedfile nsideSplit workers consolidate c).2.1 = c

/-- **C147 fails**: when a worker raises, the object keeps the resolution of the split and the seed file of that
call; when the consolidation raises it keeps the resolution. A second call on the same object then works on
another area. -/
theorem C147_restored_false : ¬ C147_spec ∧
    ∀ (keepz : Bool) (seedfile : Option (List Char)) (nsideSplit : Nat) (workers consolidate : RunCfg → Bool)
      (c : RunCfg),
      (run false keepz false seedfile nsideSplit workers consolidate c).1 = .failed →
      (run false keepz false seedfile nsideSplit workers consolidate c).2.1.nside = nsideSplit := by
  refine ⟨fun h => ?_, fun keepz seedfile n w co c => ?_⟩
  · have := h false false false none 4 (fun _ => false) (fun _ => true) ⟨1, none⟩
    revert this
    decide
  · unfold run
    simp only [Bool.false_and, Bool.false_eq_true, if_false]
    split
    · split
      · intro h; cases h
      · intro _; rfl
    · intro _; rfl

/-! ## The hypotheses are met -/

/-- Stages on numbers: pixel 0 has no firstpass catalog, pixel 1 no likelihoods, pixel 2 no percolated catalog,
the others have everything. -/
def demo : Stages Nat where
  firstpass p := if p = 0 then none else some (10 * p)
  like p k := if p = 1 then none else some (k + 1)
  perc p k := if p = 2 then none else some (k + 1, k + 2)

/-- An interrupted run, then a run of all four pixels, interleaved, that finishes. -/
example : ∀ p ∈ [3, 0, 2, 1], ∃ r, (pool demo true [3, 0, 2, 1]
      (history demo (fun _ => noFile) [([3, 0, 2, 1], [3, 2, 3])]) [1, 3, 2, 0, 3, 1, 2, 3, 2, 3] p).1 = .done r ∨
    (pool demo true [3, 0, 2, 1]
      (history demo (fun _ => noFile) [([3, 0, 2, 1], [3, 2, 3])]) [1, 3, 2, 0, 3, 1, 2, 3, 2, 3] p).1 = .crashed := by
  intro p hp
  simp only [List.mem_cons, List.not_mem_nil, or_false] at hp
  rcases hp with rfl | rfl | rfl | rfl
  · exact ⟨⟨true, true, true⟩, Or.inl rfl⟩
  · exact ⟨⟨false, false, false⟩, Or.inl rfl⟩
  · exact ⟨⟨true, true, false⟩, Or.inl rfl⟩
  · exact ⟨⟨true, false, false⟩, Or.inl rfl⟩

example : idealRet demo 3 = ⟨true, true, true⟩ ∧ idealRet demo 2 = ⟨true, true, false⟩ ∧
    idealRet demo 1 = ⟨true, false, false⟩ ∧ (ideal demo 3).perc = some 32 ∧ (ideal demo 3).members = some 33 := by
  decide

/-- A pixel interrupted before the catalog was written is whole. -/
example : Whole (history demo (fun _ => noFile) [([3], [3, 3])] 3) := by
  intro h; revert h; decide

example : outbase "run".toList 2 17 = "run_2_00017".toList ∧ outbasePerc "run".toList 2 17 = "run_00017".toList ∧
    outbase "run".toList 64 123456 = "run_64_123456".toList := by
  simp [outbase, outbasePerc, pad5, decimal]

example : (run true true false none 4 (fun _ => true) (fun _ => true) ⟨1, none⟩).1 = .returned ∧
    (run true true true none 4 (fun _ => true) (fun _ => true) ⟨1, none⟩).1 = .runtimeError := by decide

end Redmapper.RedRun
