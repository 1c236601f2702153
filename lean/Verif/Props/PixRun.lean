/-
The three stages of a pixel: where the clusters come from, in which order they are percolated, and what is lost on the way.
-/
import Verif.Model.PixRun
import Verif.Props.CatTask
import Verif.Props.Finders

namespace Redmapper.PixRun

open Redmapper.Finders (Seed PS noId zrSpec)
open Redmapper.CatTask (Row FCfg Red)

variable {α : Type} [Field α] [LinearOrder α] [IsStrictOrderedRing α]

/-! ## Specification -/

/-- The objects the run may start from: the seed file, or the galaxies. -/
def source (E : Env α) : List (CatTask.Seed α) := E.seeds.getD E.gals

/-- A source that is used: in the range of redshifts and below the maximum chi-squared; a galaxy also brighter than the reference luminosity, a seed of a seed file in the footprint if
asked. -/
def Used (E : Env α) (g : CatTask.Seed α) : Prop :=
  Red E.fc g ∧ (E.seeds = none → g.refmag < E.mlimRef g.zred) ∧ (E.seeds ≠ none → E.fc.cleaninput = true → E.inMask g.pos = true)

/-- The row of the first stage: its redshift is the spectroscopic one in the spectroscopic mode. -/
def rowOf (E : Env α) (g : CatTask.Seed α) : Row α :=
  if E.seeds = none then ⟨g.pos, g.refmag, g.zred, g.chisq, g.zred, g.zred, 0, 1, 1 / 5⟩
  else ⟨g.pos, g.refmag, g.zred, g.chisq, if E.fc.specmode then g.zspec else g.zred, if E.fc.specmode then g.zspec else g.zred, g.zspec, E.fc.r0, E.fc.beta⟩

/-- The redshift range of the later stages. -/
def zr (E : Env α) : α × α := zrSpec E.keepz E.cushion E.fc.zlo E.fc.zhi

/-- `s` is the cluster handed to percolation for the source `g`: in the first stage it had richness `lam1` and redshift `s.z`, in the second it has its richness and likelihood. -/
structure Descends (E : Env α) (g : CatTask.Seed α) (s : Seed α) (lam1 : α) : Prop where
  used : Used E g
  first : first1 E (rowOf E g) = some (lam1, s.z)
  rich1 : E.minlam1 ≤ lam1
  pos1 : 0 < lam1
  zlo : (zr E).1 < s.z
  zhi : s.z < (zr E).2
  bright2 : s.refmag < E.mlim2 s.z
  found : E.reach2 (firstRow E (rowOf E g) (lam1, s.z)) = true
  rich2 : E.minlam2 ≤ s.Lambda
  three : 3 ≤ (E.members (firstRow E (rowOf E g) (lam1, s.z))).pmem.length
  lambda : s.Lambda = (E.members (firstRow E (rowOf E g) (lam1, s.z))).Lambda
  like : s.lnlike = if E.lnwCenSigma ≤ 0 then some 0 else
    (lnlam E.lg (E.members (firstRow E (rowOf E g) (lam1, s.z)))).map fun x => (E.members (firstRow E (rowOf E g) (lam1, s.z))).bcg + x
  refmag : s.refmag = g.refmag
  tag : s.tag = g.pos
  zred : s.zred = g.zred
  chisq : s.chisq = E.chisq1 (rowOf E g)
  id0 : s.id = 0

/-- What the third stage asks for. -/
def Eligible (E : Env α) (s : Seed α) : Prop := s.lnlike ≠ none ∧ E.minlam3 < s.Lambda ∧ s.refmag < E.mlim3 s.z ∧ (zr E).1 < s.z ∧ s.z < (zr E).2

/-! ## Lemmas -/

theorem firstSeeds_eq (E : Env α) {rows : List (Row α)} (h : CatTask.firstSeeds E.fc E.seeds E.gals E.mlimRef E.inMask = .ok (some rows)) :
    ∃ p : CatTask.Seed α → Bool, (∀ g, p g = true ↔ Used E g) ∧ rows = ((source E).filter p).map (rowOf E) := by
  classical
  cases hs : E.seeds with
  | none =>
    have e := CatTask.C251_gals E.fc E.gals E.mlimRef E.inMask
    dsimp only at e
    rw [hs, e] at h
    by_cases h1 : E.fc.specmode = true ∨ E.fc.didReadZreds = false
    · rw [if_pos h1] at h; simp at h
    rw [if_neg h1, Except.ok.injEq] at h
    by_cases h2 : (E.gals.filter fun g => decide (Red E.fc g ∧ g.refmag < E.mlimRef g.zred)) = []
    · rw [if_pos h2] at h; simp at h
    rw [if_neg h2, Option.some.injEq] at h
    refine ⟨fun g => decide (Red E.fc g ∧ g.refmag < E.mlimRef g.zred), fun g => ?_, ?_⟩
    · simp [Used, hs]
    · rw [← h]; simp [source, rowOf, hs]
  | some l =>
    have e := CatTask.C251_seeds E.fc l E.gals E.mlimRef E.inMask
    dsimp only at e
    rw [hs, e] at h
    rw [Except.ok.injEq] at h
    by_cases h1 : (l.filter fun g => decide (Red E.fc g ∧ (E.fc.cleaninput = true → E.inMask g.pos = true))) = []
    · rw [if_pos h1] at h; simp at h
    rw [if_neg h1, Option.some.injEq] at h
    refine ⟨fun g => decide (Red E.fc g ∧ (E.fc.cleaninput = true → E.inMask g.pos = true)), fun g => ?_, ?_⟩
    · have hs' : E.seeds ≠ none := by rw [hs]; simp
      rw [decide_eq_true_eq]
      exact ⟨fun q => ⟨q.1, fun h0 => absurd h0 hs', fun _ => q.2⟩, fun q => ⟨q.1, q.2.2 hs'⟩⟩
    · have hs' : E.seeds ≠ none := by rw [hs]; simp
      have er : rowOf E = fun g => ⟨g.pos, g.refmag, g.zred, g.chisq, if E.fc.specmode then g.zspec else g.zred, if E.fc.specmode then g.zspec else g.zred, g.zspec, E.fc.r0, E.fc.beta⟩ := by
        funext g; unfold rowOf; rw [if_neg hs']
      rw [← h, er]; simp only [source, hs, Option.getD_some]

/-- One source through the first two stages. -/
def through (E : Env α) (g : CatTask.Seed α) : Option (Seed α) :=
  ((first1 E (rowOf E g)).bind fun q => if E.minlam1 ≤ q.1 then some (firstRow E (rowOf E g) q) else none).bind fun s =>
    if Finders.likeEligible (zr E) E.mlim2 false (fun _ => true) s then like1 E s else none

theorem likeSetup_some (E : Env α) (cat l : List (Seed α))
    (h : Finders.likeSetup E.keepz false E.cushion E.fc.zlo E.fc.zhi E.mlim2 (fun _ => true) cat = some l) :
    l = cat.filter fun s => decide (Finders.likeEligible (zr E) E.mlim2 false (fun _ => true) s) := by
  unfold Finders.likeSetup at h
  simp only [Bool.false_eq_true, if_false] at h
  split_ifs at h with h1
  simp only [Option.some.injEq] at h
  rw [← h, Finders.useRange_eq]
  unfold Finders.likeSelect zr
  rw [List.filter_filter]
  apply List.filter_congr
  intro s _
  rw [Bool.eq_iff_iff]
  simp only [Finders.likeEligible, Bool.and_eq_true, decide_eq_true_eq, Bool.false_eq_true, false_imp_iff]
  tauto

theorem likeCat_eq (E : Env α) {c : List (Seed α)} (h : likeCat E = .ok (some c)) :
    ∃ p : CatTask.Seed α → Bool, (∀ g, p g = true ↔ Used E g) ∧ c = ((source E).filter p).filterMap (through E) := by
  unfold likeCat at h
  cases hf : CatTask.firstSeeds E.fc E.seeds E.gals E.mlimRef E.inMask with
  | error e => rw [hf] at h; simp at h
  | ok o =>
    cases o with
    | none => rw [hf] at h; simp at h
    | some rows =>
      obtain ⟨p, hp, rfl⟩ := firstSeeds_eq E hf
      rw [hf] at h
      dsimp only at h
      cases hl : Finders.likeSetup E.keepz false E.cushion E.fc.zlo E.fc.zhi E.mlim2 (fun _ => true) (firstCat E (((source E).filter p).map (rowOf E))) with
      | none => rw [hl] at h; simp at h
      | some l =>
        rw [hl] at h
        dsimp only at h
        by_cases he : (l.filterMap (like1 E)).isEmpty = true
        · rw [if_pos he] at h; simp at h
        rw [if_neg he] at h
        simp only [Except.ok.injEq, Option.some.injEq] at h
        refine ⟨p, hp, ?_⟩
        rw [← h, likeSetup_some E _ _ hl]
        unfold firstCat
        rw [List.filterMap_map, ← List.filterMap_eq_filter, List.filterMap_filterMap, List.filterMap_filterMap]
        apply List.filterMap_congr
        intro g _
        unfold through
        simp only [Function.comp]
        cases first1 E (rowOf E g) with
        | none => rfl
        | some q =>
          simp only [Option.bind_some]
          by_cases hq : E.minlam1 ≤ q.1
          · simp only [if_pos hq, Option.bind_some]
            by_cases hL : Finders.likeEligible (zr E) E.mlim2 false (fun _ => true) (firstRow E (rowOf E g) q)
            · simp [hL, Option.guard]
            · simp [hL, Option.guard]
          · simp [if_neg hq]

theorem rowOf_fields (E : Env α) (g : CatTask.Seed α) : (rowOf E g).pos = g.pos ∧ (rowOf E g).refmag = g.refmag ∧ (rowOf E g).zred = g.zred ∧ (rowOf E g).chisq = g.chisq := by
  unfold rowOf; split_ifs <;> exact ⟨rfl, rfl, rfl, rfl⟩

/-- The two stages are what the specification says. -/
theorem through_iff (E : Env α) (g : CatTask.Seed α) (hu : Used E g) (s : Seed α) : through E g = some s ↔ ∃ lam1, Descends E g s lam1 := by
  obtain ⟨f1, f2, f3, f4⟩ := rowOf_fields E g
  constructor
  · intro h
    unfold through at h
    cases hq : first1 E (rowOf E g) with
    | none => rw [hq] at h; simp at h
    | some q =>
      rw [hq] at h
      simp only [Option.bind_some] at h
      by_cases h1 : E.minlam1 ≤ q.1
      · rw [if_pos h1, Option.bind_some] at h
        split_ifs at h with h2
        obtain ⟨e1, e2, e3, e4, -⟩ := h2
        simp only [firstRow] at e1 e2 e3 e4
        unfold like1 at h
        by_cases h3 : E.reach2 (firstRow E (rowOf E g) q) = true
        · simp only [if_pos h3] at h
          by_cases h4 : (E.members (firstRow E (rowOf E g) q)).Lambda < E.minlam2 ∨ (E.members (firstRow E (rowOf E g) q)).pmem.length < 3
          · rw [if_pos h4] at h; simp at h
          · rw [if_neg h4] at h
            push Not at h4
            split_ifs at h with h5 <;> simp only [Option.some.injEq] at h <;> subst h
            · exact ⟨q.1, ⟨hu, by rw [hq]; rfl, h1, e3, e1, e2, e4, h3, h4.1, h4.2, rfl, by rw [if_pos h5]; rfl, f2, f1, f3, rfl, rfl⟩⟩
            · exact ⟨q.1, ⟨hu, by rw [hq]; rfl, h1, e3, e1, e2, e4, h3, h4.1, h4.2, rfl, by rw [if_neg h5]; rfl, f2, f1, f3, rfl, rfl⟩⟩
        · rw [if_neg h3] at h; simp at h
      · rw [if_neg h1] at h; simp at h
  · rintro ⟨lam1, d⟩
    have hl : Finders.likeEligible (zr E) E.mlim2 false (fun _ => true) (firstRow E (rowOf E g) (lam1, s.z)) :=
      ⟨d.zlo, d.zhi, d.pos1, by have := d.bright2; rw [d.refmag] at this; simp only [firstRow, f2]; exact this, by simp⟩
    have h4 : ¬ ((E.members (firstRow E (rowOf E g) (lam1, s.z))).Lambda < E.minlam2 ∨ (E.members (firstRow E (rowOf E g) (lam1, s.z))).pmem.length < 3) := by
      have a := d.rich2; have b := d.three
      rw [d.lambda] at a
      push Not; exact ⟨a, b⟩
    unfold through
    rw [d.first, Option.bind_some, if_pos d.rich1, Option.bind_some, if_pos hl]
    unfold like1
    simp only [if_pos d.found, if_neg h4]
    have e := d.like
    have eid := d.id0; have el := d.lambda; have er := d.refmag; have et := d.tag; have ez := d.zred; have ec := d.chisq
    obtain ⟨sid, sz, szred, sln, sL, sr, sc, st⟩ := s
    simp only at e eid el er et ez ec
    subst eid el er et ez ec
    split_ifs at e ⊢ with h5 <;> simp [e, firstRow, f1, f2, f3, f4]

theorem ordered_eq (E : Env α) (hI : Finders.Argsort E.argsortI) (hL : Finders.Argsort E.argsortL) {l : List (Seed α)} (h : ordered E = some l) :
    ∃ c p, likeCat E = .ok (some c) ∧ (∀ g, p g = true ↔ Used E g) ∧ c = ((source E).filter p).filterMap (through E) ∧
      (l.map noId).Perm ((c.filter fun s => decide (Finders.eligible (zr E) E.minlam3 E.mlim3 s)).map noId) ∧
      l.Pairwise (fun a b => b.lnlike.getD 0 ≤ a.lnlike.getD 0) ∧ l.map Seed.id = (List.range l.length).map fun (k : Nat) => (k : Int) + 1 := by
  unfold ordered at h
  cases hc : likeCat E with
  | error e => rw [hc] at h; simp at h
  | ok o =>
    cases o with
    | none => rw [hc] at h; simp at h
    | some c =>
      rw [hc] at h
      dsimp only at h
      obtain ⟨p, hp, rfl⟩ := likeCat_eq E hc
      refine ⟨_, p, rfl, hp, rfl, ?_⟩
      obtain ⟨r1, r2⟩ := Finders.C15_rank_by_likelihood E.argsortI E.argsortL hI hL E.keepz false E.cushion E.fc.zlo E.fc.zhi E.minlam3 E.mlim3 (fun _ => true) (fun _ _ => rfl)
        (((source E).filter p).filterMap (through E))
      have hk : ∀ cat : List (Seed α), Finders.kept (zrSpec E.keepz E.cushion E.fc.zlo E.fc.zhi) E.minlam3 E.mlim3 false (fun _ => true) cat =
          cat.filter fun s => decide (Finders.eligible (zr E) E.minlam3 E.mlim3 s) := by
        intro cat; unfold Finders.kept zr; simp
      unfold percCat at h
      by_cases hn : Finders.kept (zrSpec E.keepz E.cushion E.fc.zlo E.fc.zhi) E.minlam3 E.mlim3 false (fun _ => true) (((source E).filter p).filterMap (through E)) = []
      · rw [r1 hn] at h; simp at h
      · obtain ⟨out, ho, o1, o2, o3⟩ := r2 hn
        rw [ho] at h
        simp only [Option.some.injEq] at h
        subst h
        rw [hk] at o1
        exact ⟨o1, o2, o3⟩

/-! ## Theorems -/

/-- C397: the clusters that are percolated in a pixel, in the order of their percolation: each descends from a source of the run and is eligible; every source that leads to
an eligible cluster is there; no source is there twice (if the positions of the sources differ); they are numbered from 1 in their order, which does not increase in the total likelihood. -/
theorem C397 (E : Env α) (hI : Finders.Argsort E.argsortI) (hL : Finders.Argsort E.argsortL) {l : List (Seed α)} (h : ordered E = some l) :
    (∀ s ∈ l, ∃ g ∈ source E, ∃ lam1, Descends E g (noId s) lam1 ∧ Eligible E s) ∧
    (∀ g ∈ source E, ∀ s lam1, Descends E g s lam1 → Eligible E s → ∃ s' ∈ l, noId s' = s) ∧
    (((source E).map CatTask.Seed.pos).Nodup → (l.map Seed.tag).Nodup) ∧
    l.map Seed.id = (List.range l.length).map (fun (k : Nat) => (k : Int) + 1) ∧
    l.Pairwise (fun a b => b.lnlike.getD 0 ≤ a.lnlike.getD 0) := by
  obtain ⟨c, p, hc, hp, rfl, hperm, hsort, hids⟩ := ordered_eq E hI hL h
  have hel : ∀ s, Finders.eligible (zr E) E.minlam3 E.mlim3 s ↔ Eligible E s := by
    intro s
    unfold Finders.eligible Eligible
    cases s.lnlike <;> simp <;> tauto
  have hnoid : ∀ s : Seed α, Eligible E (noId s) ↔ Eligible E s := fun s => Iff.rfl
  refine ⟨?_, ?_, ?_, hids, hsort⟩
  · intro s hs
    have hm : noId s ∈ ((((source E).filter p).filterMap (through E)).filter (fun s => decide (Finders.eligible (zr E) E.minlam3 E.mlim3 s))).map noId :=
      hperm.mem_iff.1 (List.mem_map_of_mem hs)
    obtain ⟨t, ht, e⟩ := List.mem_map.1 hm
    rw [List.mem_filter, List.mem_filterMap] at ht
    obtain ⟨⟨g, hg, hgt⟩, ht2⟩ := ht
    rw [List.mem_filter] at hg
    obtain ⟨lam1, d⟩ := (through_iff E g ((hp g).1 hg.2) t).1 hgt
    have et : noId t = t := by
      have := d.id0
      cases t; simp only at this; subst this; rfl
    refine ⟨g, hg.1, lam1, by rw [← e, et]; exact d, ?_⟩
    rw [decide_eq_true_eq, hel, ← hnoid, e, hnoid] at ht2
    exact ht2
  · intro g hg s lam1 d he
    have hg' : g ∈ (source E).filter p := List.mem_filter.2 ⟨hg, (hp g).2 d.used⟩
    have ht := (through_iff E g d.used s).2 ⟨lam1, d⟩
    have hm : noId s ∈ ((((source E).filter p).filterMap (through E)).filter (fun s => decide (Finders.eligible (zr E) E.minlam3 E.mlim3 s))).map noId :=
      List.mem_map_of_mem (List.mem_filter.2 ⟨List.mem_filterMap.2 ⟨g, hg', ht⟩, by rw [decide_eq_true_eq, hel]; exact he⟩)
    obtain ⟨s', hs', e⟩ := List.mem_map.1 (hperm.mem_iff.2 hm)
    have et : noId s = s := by
      have := d.id0
      cases s; simp only at this; subst this; rfl
    exact ⟨s', hs', by rw [e, et]⟩
  · intro hnd
    have htag : ∀ t : List (Seed α), (t.map noId).map Seed.tag = t.map Seed.tag := by
      intro t; rw [List.map_map]; rfl
    rw [← htag, (hperm.map Seed.tag).nodup_iff, htag]
    have hsub : ((((source E).filter p).filterMap (through E)).map Seed.tag).Sublist ((source E).map CatTask.Seed.pos) := by
      have gen : ∀ gs : List (CatTask.Seed α), (∀ g ∈ gs, Used E g) → ((gs.filterMap (through E)).map Seed.tag).Sublist (gs.map CatTask.Seed.pos) := by
        intro gs
        induction gs with
        | nil => intro _; simp
        | cons g gs ih =>
          intro hu
          have ih' := ih fun g hg => hu g (List.mem_cons_of_mem _ hg)
          cases ht : through E g with
          | none => rw [List.filterMap_cons_none ht, List.map_cons]; exact ih'.cons _
          | some s =>
            obtain ⟨lam1, d⟩ := (through_iff E g (hu g List.mem_cons_self) s).1 ht
            rw [List.filterMap_cons_some ht, List.map_cons, List.map_cons, d.tag]
            exact ih'.cons_cons _
      refine (gen _ fun g hg => (hp g).1 (List.mem_filter.1 hg).2).trans ?_
      exact (List.filter_sublist).map _
    exact ((List.filter_sublist.map _).trans hsub).nodup hnd

/-- C397, the catalog that is written: clusters in the order of percolation, a part of those. -/
theorem C397_written {σ ω : Type} (step : σ → Seed α → σ × ω) (keep : ω → Bool) (l : List (Seed α)) (st : σ) :
    ((perc step keep st l).map Prod.fst).Sublist l ∧ ∀ q ∈ perc step keep st l, keep q.2 = true := by
  induction l generalizing st with
  | nil => simp [perc]
  | cons s l ih =>
    obtain ⟨h1, h2⟩ := ih (step st s).1
    unfold perc
    by_cases hk : keep (step st s).2 = true
    · simp only [if_pos hk]
      refine ⟨by rw [List.map_cons]; exact h1.cons_cons _, ?_⟩
      intro q hq
      rcases List.mem_cons.1 hq with rfl | hq
      · exact hk
      · exact h2 q hq
    · simp only [if_neg hk]
      exact ⟨h1.cons _, h2⟩

/-- What the first stage guarantees of a cluster that is kept (with a minimum richness above -1). -/
theorem first_spec (E : Env α) (hn : 1 ≤ E.niter) (hm : -1 < E.minlam1) (r : Row α) (q : α × α) (h : first1 E r = some q) (hq : E.minlam1 ≤ q.1) :
    ∃ zl, E.fc.zlo ≤ zl ∧ zl ≤ E.fc.zhi ∧ q.2 = if E.fc.specmode then r.zSpecInit else zl := by
  unfold first1 at h
  by_cases hr : E.reach1 r = true
  · rw [if_pos hr] at h
    have hmi : 1 ≤ maxiter E := by unfold maxiter; split_ifs <;> omega
    obtain ⟨b, c', hp, hb, hg⟩ := Finders.C75_firstpass E.minlam1 E.fc.zlo E.fc.zhi E.keepz (maxiter E) hmi (E.rich1 r) (E.zlam1 r) ⟨r.z, 0, 0, 0, 0, ()⟩
    rw [hp] at h
    simp only [Option.map_some, Option.some.injEq] at h
    subst h
    cases b with
    | true =>
      have := (hb rfl).1
      simp only at hq
      rw [this] at hq
      linarith
    | false =>
      obtain ⟨z1, z2, -⟩ := hg rfl
      exact ⟨c'.zLambda, z1, z2, rfl⟩
  · rw [if_neg hr] at h
    simp only [Option.some.injEq] at h
    subst h
    simp only at hq
    linarith

/-- C398: in the spectroscopic mode every cluster that is percolated has the spectroscopic redshift of its seed; otherwise a photometric redshift of the configured range, whether or not
redshifts are to be kept. -/
theorem C398_partial (E : Env α) (hI : Finders.Argsort E.argsortI) (hL : Finders.Argsort E.argsortL) (hn : 1 ≤ E.niter) (hm : -1 < E.minlam1) {l : List (Seed α)}
    (h : ordered E = some l) (s : Seed α) (hs : s ∈ l) :
    ∃ g ∈ source E, g.pos = s.tag ∧ (E.seeds ≠ none → E.fc.specmode = true → s.z = g.zspec) ∧
      (E.fc.specmode = false → E.fc.zlo ≤ s.z ∧ s.z ≤ E.fc.zhi) := by
  obtain ⟨g, hg, lam1, d, -⟩ := (C397 E hI hL h).1 s hs
  obtain ⟨zl, z1, z2, e⟩ := first_spec E hn hm _ _ d.first d.rich1
  refine ⟨g, hg, d.tag.symm, ?_, ?_⟩
  · intro h1 h2
    have e' : s.z = if E.fc.specmode then (rowOf E g).zSpecInit else zl := e
    rw [e', if_pos h2]
    unfold rowOf
    rw [if_neg h1]
  · intro h1
    have e' : s.z = if E.fc.specmode then (rowOf E g).zSpecInit else zl := e
    rw [e', h1]
    exact ⟨z1, z2⟩

/-- In the spectroscopic mode the first stage computes the richness once, at the redshift of the row. -/
theorem first_once (E : Env α) (hsp : E.fc.specmode = true) (hm : -1 < E.minlam1) (r : Row α) (q : α × α) (h : first1 E r = some q) (hq : E.minlam1 ≤ q.1) :
    q = ((E.rich1 r ⟨r.z, 0, 0, 0, 0, ()⟩).1, r.zSpecInit) := by
  unfold first1 maxiter at h
  rw [if_pos hsp] at h
  by_cases hr : E.reach1 r = true
  · rw [if_pos hr] at h
    have hbad : ∀ z, q ≠ (-1, z) := by rintro z rfl; exact absurd hq (not_le.2 hm)
    unfold Finders.firstProcess at h
    simp only [Finders.firstLoop, hsp, if_true] at h
    by_cases h1 : (Finders.setRich ⟨r.z, 0, 0, 0, 0, ()⟩ (E.rich1 r ⟨r.z, 0, 0, 0, 0, ()⟩)).Lambda <
        |E.minlam1 / (Finders.setRich ⟨r.z, 0, 0, 0, 0, ()⟩ (E.rich1 r ⟨r.z, 0, 0, 0, 0, ()⟩)).scaleval|
    · simp only [if_pos h1, if_true, Option.map_some, Option.some.injEq, Finders.reset] at h
      exact absurd h.symm (hbad _)
    · simp only [if_neg h1] at h
      split_ifs at h
      all_goals simp only [Option.map_some, Option.some.injEq, Finders.reset, if_true, Bool.false_eq_true, if_false] at h
      all_goals first
        | exact absurd h.symm (hbad _)
        | (rw [← h]; rfl)
        | (cases hk : E.keepz <;> simp only [hk, Bool.false_eq_true, if_false, if_true] at h <;> rw [← h] <;> rfl)
  · rw [if_neg hr] at h
    simp only [Option.some.injEq] at h
    subst h
    exact absurd hq (not_le.2 hm)

/-- C398: in the spectroscopic mode the first richness of a cluster that is percolated is the one at the spectroscopic redshift of its seed, however many iterations are configured. -/
theorem C398_once (E : Env α) (hI : Finders.Argsort E.argsortI) (hL : Finders.Argsort E.argsortL) (hsp : E.fc.specmode = true) (hsd : E.seeds ≠ none)
    (hm : -1 < E.minlam1) {l : List (Seed α)} (h : ordered E = some l) (s : Seed α) (hs : s ∈ l) :
    ∃ g ∈ source E, Descends E g (noId s) (E.rich1 (rowOf E g) ⟨g.zspec, 0, 0, 0, 0, ()⟩).1 ∧ s.z = g.zspec := by
  obtain ⟨g, hg, lam1, d, -⟩ := (C397 E hI hL h).1 s hs
  have e := first_once E hsp hm _ _ d.first d.rich1
  have hz : (rowOf E g).z = g.zspec ∧ (rowOf E g).zSpecInit = g.zspec := by
    unfold rowOf
    rw [if_neg hsd]
    simp [hsp]
  rw [hz.1, hz.2, Prod.mk.injEq] at e
  obtain ⟨e1, e2⟩ := e
  refine ⟨g, hg, ?_, e2⟩
  rw [← e1]
  exact d

/-- C399: a cluster of the catalog of likelihoods that is in the range, rich and bright enough is percolated, if none of its memberships is exactly one or the centering is not calibrated. -/
theorem C399_partial (E : Env α) (hI : Finders.Argsort E.argsortI) (hL : Finders.Argsort E.argsortL) {l : List (Seed α)} (h : ordered E = some l)
    (g : CatTask.Seed α) (hg : g ∈ source E) (s : Seed α) (lam1 : α) (d : Descends E g s lam1) (hr : E.minlam3 < s.Lambda) (hb : s.refmag < E.mlim3 s.z)
    (hone : E.lnwCenSigma ≤ 0 ∨ ∀ p ∈ (E.members (firstRow E (rowOf E g) (lam1, s.z))).pmem, p ≠ 1) : ∃ s' ∈ l, s'.tag = g.pos := by
  have hel : Eligible E s := by
    refine ⟨?_, hr, hb, d.zlo, d.zhi⟩
    rw [d.like]
    rcases hone with h0 | h1
    · rw [if_pos h0]; simp
    · split_ifs
      · simp
      · unfold lnlam
        rw [if_neg (by
          simp only [List.any_eq_true, decide_eq_true_eq, not_exists, not_and]
          exact h1)]
        simp
  obtain ⟨s', hs', e⟩ := (C397 E hI hL h).2.1 g hg s lam1 d hel
  exact ⟨s', hs', by rw [← d.tag, ← e]; rfl⟩

/-- C400: with a calibrated centering the clusters are percolated in the order of the sum of the likelihoods of members and central galaxy. -/
theorem C400_partial (E : Env α) (hI : Finders.Argsort E.argsortI) (hL : Finders.Argsort E.argsortL) (hc : 0 < E.lnwCenSigma) {l : List (Seed α)} (h : ordered E = some l) :
    ∃ like : Seed α → α, (∀ s ∈ l, ∃ g ∈ source E, ∃ lam1 x, Descends E g (noId s) lam1 ∧
        lnlam E.lg (E.members (firstRow E (rowOf E g) (lam1, s.z))) = some x ∧ like s = (E.members (firstRow E (rowOf E g) (lam1, s.z))).bcg + x) ∧
      l.Pairwise fun a b => like b ≤ like a := by
  obtain ⟨h1, -, -, -, h5⟩ := C397 E hI hL h
  refine ⟨fun s => s.lnlike.getD 0, ?_, h5⟩
  intro s hs
  obtain ⟨g, hg, lam1, d, he⟩ := h1 s hs
  have e := d.like
  rw [if_neg (not_le.2 hc)] at e
  have e' : s.lnlike = (lnlam E.lg (E.members (firstRow E (rowOf E g) (lam1, s.z)))).map fun x => (E.members (firstRow E (rowOf E g) (lam1, s.z))).bcg + x := e
  cases hx : lnlam E.lg (E.members (firstRow E (rowOf E g) (lam1, s.z))) with
  | none => rw [hx] at e'; exact absurd e' he.1
  | some x =>
    rw [hx] at e'
    exact ⟨g, hg, lam1, x, d, hx, by show s.lnlike.getD 0 = _; rw [e']; rfl⟩

/-! ## Cases -/

/-- Three galaxies; the first two stages give each a redshift and richness that depends on its position. -/
def env0 (spec keepz : Bool) (cen : ℚ) (pm : List ℚ) (bcg : Nat → ℚ) : Env ℚ :=
  { fc := ⟨1 / 10, 9 / 10, 20, 1, 1 / 5, spec, false, true⟩
    seeds := some [⟨1, 18, 3 / 10, 5, 31 / 100⟩, ⟨2, 17, 4 / 10, 5, 41 / 100⟩, ⟨3, 17, 4 / 10, 50, 41 / 100⟩, ⟨4, 16, 5 / 10, 5, 51 / 100⟩]
    gals := []
    mlimRef := fun _ => 25
    inMask := fun _ => true
    keepz := keepz
    minlam1 := 3
    niter := 2
    reach1 := fun _ => true
    rich1 := fun r _ => (10 + r.pos, 1, ())
    zlam1 := fun r _ => (r.zred + 1 / 20, 1 / 100)
    chisq1 := fun r => r.chisq
    cushion := 1 / 20
    minlam2 := 3
    lnwCenSigma := cen
    mlim2 := fun _ => 25
    lg := fun x => x
    reach2 := fun _ => true
    members := fun s => ⟨20, 1, if s.tag = 1 then pm else [1 / 2, 1 / 2, 1 / 2], bcg s.tag⟩
    argsortI := Finders.argsortRef
    argsortL := Finders.argsortRef
    minlam3 := 5
    mlim3 := fun _ => 25 }

/-- The hypotheses of C397 - C400 are met: three of the four seeds are percolated, in the order of their likelihoods. -/
example : (ordered (env0 false false 1 [1 / 2, 1 / 2, 1 / 4] fun k => k)).map (fun l => l.map fun s => (s.tag, s.id, s.z)) =
    some [(4, 1, 11 / 20), (2, 2, 9 / 20), (1, 3, 7 / 20)] := by decide +kernel

example : (ordered (env0 true false 1 [1 / 2, 1 / 2, 1 / 4] fun k => 10 - k)).map (fun l => l.map fun s => (s.tag, s.id, s.z)) =
    some [(1, 1, 31 / 100), (2, 2, 41 / 100), (4, 3, 51 / 100)] := by decide +kernel

/-- C398: redshifts that are to be kept are not, outside the spectroscopic mode: the cluster has another redshift than its row in the first stage. -/
theorem C398_keepz_false : ∃ (E : Env ℚ) (l : List (Seed ℚ)), E.keepz = true ∧ ordered E = some l ∧ ∃ s ∈ l, ∃ g ∈ source E, s.tag = g.pos ∧ s.z ≠ g.zred ∧ s.z ≠ g.zspec := by
  refine ⟨env0 false true 1 [1 / 2, 1 / 2, 1 / 4] fun k => k, (ordered (env0 false true 1 [1 / 2, 1 / 2, 1 / 4] fun k => k)).getD [], rfl, ?_, ?_⟩
  · have h : (ordered (env0 false true 1 [1 / 2, 1 / 2, 1 / 4] fun k => k)).isSome = true := by decide +kernel
    cases ho : ordered (env0 false true 1 [1 / 2, 1 / 2, 1 / 4] fun k => k) with
    | none => rw [ho] at h; simp at h
    | some l => rfl
  · decide +kernel

/-- C399: a cluster with a member of membership one is in the catalog of likelihoods, rich and bright enough and in the range, and is not percolated. -/
theorem C399_false : ∃ (E : Env ℚ) (l : List (Seed ℚ)) (g : CatTask.Seed ℚ) (s : Seed ℚ) (lam1 : ℚ), ordered E = some l ∧ g ∈ source E ∧ Descends E g s lam1 ∧
    E.minlam3 < s.Lambda ∧ s.refmag < E.mlim3 s.z ∧ ∀ s' ∈ l, s'.tag ≠ g.pos := by
  have h : (ordered (env0 false false 1 [1, 1 / 2, 1 / 4] fun k => k)).isSome = true := by decide +kernel
  have ht : ∀ s' ∈ (ordered (env0 false false 1 [1, 1 / 2, 1 / 4] fun k => k)).getD [], s'.tag ≠ 1 := by decide +kernel
  cases ho : ordered (env0 false false 1 [1, 1 / 2, 1 / 4] fun k => k) with
  | none => rw [ho] at h; simp at h
  | some l =>
    rw [ho] at ht
    have hu : Used (env0 false false 1 [1, 1 / 2, 1 / 4] fun k => k) ⟨1, 18, 3 / 10, 5, 31 / 100⟩ := by
      refine ⟨by norm_num [Red, env0], ?_, ?_⟩ <;> simp [env0]
    obtain ⟨lam1, d⟩ := (through_iff _ _ hu ⟨0, 7 / 20, 3 / 10, none, 20, 18, 5, 1⟩).1 (by decide +kernel)
    exact ⟨_, l, ⟨1, 18, 3 / 10, 5, 31 / 100⟩, _, lam1, ho, by simp [source, env0], d, by norm_num [env0], by norm_num [env0], ht⟩

/-- C400: without a calibrated centering the likelihoods of the members do not count: the cluster with the greater likelihood of members may be percolated later. -/
theorem C400_uncalibrated_false : ∃ (E : Env ℚ) (l : List (Seed ℚ)), Finders.Argsort E.argsortI ∧ Finders.Argsort E.argsortL ∧ ordered E = some l ∧
    ¬ l.Pairwise fun a b => (lnlam E.lg (E.members b)).getD 0 ≤ (lnlam E.lg (E.members a)).getD 0 := by
  have h : (ordered (env0 false false 0 [3 / 4, 3 / 4, 3 / 4] fun _ => 0)).isSome = true := by decide +kernel
  have ht : ¬ ((ordered (env0 false false 0 [3 / 4, 3 / 4, 3 / 4] fun _ => 0)).getD []).Pairwise fun a b =>
      (lnlam (env0 false false 0 [3 / 4, 3 / 4, 3 / 4] fun _ => 0).lg ((env0 false false 0 [3 / 4, 3 / 4, 3 / 4] fun _ => 0).members b)).getD 0 ≤
        (lnlam (env0 false false 0 [3 / 4, 3 / 4, 3 / 4] fun _ => 0).lg ((env0 false false 0 [3 / 4, 3 / 4, 3 / 4] fun _ => 0).members a)).getD 0 := by decide +kernel
  cases ho : ordered (env0 false false 0 [3 / 4, 3 / 4, 3 / 4] fun _ => 0) with
  | none => rw [ho] at h; simp at h
  | some l =>
    rw [ho] at ht
    exact ⟨env0 false false 0 [3 / 4, 3 / 4, 3 / 4] fun _ => 0, l, Finders.argsortRef_ok, Finders.argsortRef_ok, ho, ht⟩

end Redmapper.PixRun
