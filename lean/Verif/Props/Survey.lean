/-
Properties C422 - C424: a survey from its sources to its catalogs.
-/
import Verif.Model.Survey
import Verif.Props.PixRun
import Verif.Props.Runner
import Verif.Props.Consolidate
import Mathlib.Tactic

namespace Redmapper.Survey

open Redmapper.Finders (Seed noId Argsort)
open Redmapper.Runner (Cluster Out Member)
open Redmapper.Consolidate (CRow MRow PixFile Cut kept2 pass bare owner keptMembers)

variable {α σ : Type} [Field α] [LinearOrder α] [IsStrictOrderedRing α]

/-! ## Specification -/

/-- The percolation of pixel `p` was given the cluster `s` and left `o` of it. -/
def Processed (S : Env α σ) (p : Nat) (s : Seed α) (o : Out α) : Prop :=
  p ∈ S.pixels ∧ ∃ l, PixRun.ordered (S.stages p) = some l ∧ (s, o) ∈ l.zip (processed S p l)

/-- What a cluster of pixel `p` must satisfy to be in the catalog of a cut. -/
structure Listed (S : Env α σ) (k : Cut α (Nat × Seed α × Out α)) (p : Nat) (s : Seed α) (o : Out α) : Prop where
  inside : S.home o = p
  recorded : S.percMin ≤ o.c.Lambda
  unmasked : o.c.maskfrac < S.maxMaskfrac
  rich : S.minLambda < o.c.Lambda
  cut : k.minlam < o.c.Lambda
  volume : k.vl (p, s, o) = true

/-- The sorts of the stages of each pixel and of the consolidation are sorts. -/
structure Sorts (S : Env α σ) : Prop where
  cons : Argsort S.argsort
  ids : ∀ p ∈ S.pixels, Argsort (S.stages p).argsortI
  likes : ∀ p ∈ S.pixels, Argsort (S.stages p).argsortL

/-- C422, for the catalogs of one cut: each row is a cluster that the percolation of a pixel left of a source of that pixel which passed every stage, and satisfies
what the cut asks for; each such cluster has a row; no two rows have the same id or are the same cluster of the same pixel; ids follow the likelihoods; the members under the id of a row
are those that percolation recorded for the cluster; every member is under the id of a row. -/
structure Faithful (S : Env α σ) (k : Cut α (Nat × Seed α × Out α)) (cat : List (CRow α (Nat × Seed α × Out α))) (mem : List (MRow (Member α))) : Prop where
  genuine : ∀ c ∈ cat, ∃ p s o, c.pay = (p, s, o) ∧ Processed S p s o ∧ Listed S k p s o ∧ c.Lambda = o.c.Lambda ∧ c.maskfrac = o.c.maskfrac ∧
    ∃ g ∈ PixRun.source (S.stages p), ∃ lam1, PixRun.Descends (S.stages p) g (noId s) lam1 ∧ PixRun.Eligible (S.stages p) s
  complete : ∀ p s o, Processed S p s o → Listed S k p s o → ∃ c ∈ cat, c.pay = (p, s, o)
  ids : (cat.map CRow.id).Nodup
  once : (cat.map fun c => (c.pay.1, c.pay.2.1.id)).Nodup
  order : ∀ a ∈ cat, ∀ b ∈ cat, a.id < b.id → b.pay.2.1.lnlike.getD 0 ≤ a.pay.2.1.lnlike.getD 0
  members : ∀ c ∈ cat, (mem.filter fun m => decide (m.id = c.id)).map MRow.pay = c.pay.2.2.mem.getD []
  owned : ∀ m ∈ mem, ∃ c ∈ cat, c.id = m.id

/-! ## One pixel -/

section pixel
variable (S : Env α σ) (p : Nat) {l : List (Seed α)}

omit [IsStrictOrderedRing α] in
theorem processed_ids (l : List (Seed α)) : (processed S p l).map (fun o => o.c.id) = l.map Seed.id := by
  have := Runner.pass_ids (S.perc p) true true (Runner.initSt (S.sig p)) (l.map start)
  rw [List.map_map] at this
  exact this

omit [IsStrictOrderedRing α] in
theorem processed_length (l : List (Seed α)) : (processed S p l).length = l.length := by
  have := congrArg List.length (processed_ids S p l)
  simpa using this

theorem ordered_ids_nodup (hI : Argsort (S.stages p).argsortI) (hL : Argsort (S.stages p).argsortL) (h : PixRun.ordered (S.stages p) = some l) :
    (l.map Seed.id).Nodup := by
  rw [(PixRun.C397 _ hI hL h).2.2.2.1]
  apply List.Nodup.map _ List.nodup_range
  intro a b hab
  simp only [add_left_inj] at hab
  exact_mod_cast hab

omit [IsStrictOrderedRing α] in
theorem zip_snd (l : List (Seed α)) : (l.zip (processed S p l)).map Prod.snd = processed S p l :=
  List.map_snd_zip (by rw [processed_length])

omit [IsStrictOrderedRing α] in
theorem zip_fst (l : List (Seed α)) : (l.zip (processed S p l)).map Prod.fst = l :=
  List.map_fst_zip (by rw [processed_length])

omit [IsStrictOrderedRing α] in
theorem zip_id (l : List (Seed α)) {q : Seed α × Out α} (hq : q ∈ l.zip (processed S p l)) : q.2.c.id = q.1.id := by
  obtain ⟨i, hi, rfl⟩ := List.getElem_of_mem hq
  have h := processed_ids S p l
  have hi' : i < l.length ∧ i < (processed S p l).length := by simpa [List.length_zip] using hi
  have h1 : ((processed S p l).map fun o => o.c.id)[i]? = (l.map Seed.id)[i]? := by rw [h]
  rw [List.getElem?_map, List.getElem?_map, List.getElem?_eq_getElem hi'.1, List.getElem?_eq_getElem hi'.2] at h1
  simpa using h1

/-- What the file of a pixel contains. -/
structure FileOK (f : PixFile α (Nat × Seed α × Out α) (Member α)) (l : List (Seed α)) : Prop where
  hpix : f.hpix = p
  cat : f.cat = ((l.zip (processed S p l)).filter fun q => decide (S.percMin ≤ q.2.c.Lambda)).map (row S p)
  mem : ∀ q ∈ l.zip (processed S p l), S.percMin ≤ q.2.c.Lambda → (f.mem.filter fun m => decide (m.id = q.2.c.id)).map MRow.pay = q.2.mem.getD []

omit [Field α] [IsStrictOrderedRing α] in
theorem members_none {os : List (Out α)} (h : Runner.members os = none) : ∀ o ∈ os, o.mem = none := by
  intro o ho
  unfold Runner.members at h
  simp only at h
  split_ifs at h with he
  cases hm : o.mem with
  | none => rfl
  | some l =>
    have : l ∈ os.filterMap Out.mem := List.mem_filterMap.mpr ⟨o, ho, hm⟩
    rw [List.isEmpty_iff.mp he] at this
    cases this

omit [Field α] [LinearOrder α] [IsStrictOrderedRing α] in
/-- Members of one cluster in the members of all. -/
theorem flatten_filter (os : List (Out α)) (hnd : (os.map fun o => o.c.id).Nodup) (hm : ∀ o ∈ os, ∀ m ∈ o.mem.getD [], m.id = o.c.id)
    {o : Out α} (ho : o ∈ os) : ((os.map fun o => o.mem.getD []).flatten).filter (fun m => decide (m.id = o.c.id)) = o.mem.getD [] := by
  have hout : ∀ (os : List (Out α)) (i : Int), (∀ o ∈ os, ∀ m ∈ o.mem.getD [], m.id = o.c.id) → (∀ a ∈ os, a.c.id ≠ i) →
      ((os.map fun o => o.mem.getD []).flatten).filter (fun m => decide (m.id = i)) = [] := by
    intro os i h1 h2
    rw [List.filter_eq_nil_iff]
    intro m hmm
    obtain ⟨ms, hms, hmm'⟩ := List.mem_flatten.mp hmm
    obtain ⟨a, ha, rfl⟩ := List.mem_map.mp hms
    rw [decide_eq_true_eq, h1 a ha m hmm']
    exact h2 a ha
  induction os with
  | nil => cases ho
  | cons a t ih =>
    rw [List.map_cons, List.nodup_cons] at hnd
    rw [List.map_cons, List.flatten_cons, List.filter_append]
    rcases List.mem_cons.mp ho with rfl | ht
    · rw [hout t _ (fun o h => hm o (List.mem_cons_of_mem _ h)) (fun b hb h => hnd.1 (List.mem_map.mpr ⟨b, hb, h⟩)), List.append_nil,
        List.filter_eq_self.mpr]
      intro m hmm
      simpa using hm o List.mem_cons_self m hmm
    · rw [ih hnd.2 (fun o h => hm o (List.mem_cons_of_mem _ h)) ht, List.filter_eq_nil_iff.mpr, List.nil_append]
      intro m hmm
      rw [decide_eq_true_eq, hm a List.mem_cons_self m hmm]
      exact fun h => hnd.1 (h ▸ List.mem_map.mpr ⟨o, ht, rfl⟩)

theorem pixFile_spec (hI : Argsort (S.stages p).argsortI) (hL : Argsort (S.stages p).argsortL) :
    (∃ f l, pixFile S p = .ok (some f) ∧ PixRun.ordered (S.stages p) = some l ∧ FileOK S p f l) ∨
    (pixFile S p = .ok none ∧ ∀ l, PixRun.ordered (S.stages p) = some l → ∀ o ∈ processed S p l, o.c.Lambda < S.percMin) := by
  cases h : PixRun.ordered (S.stages p) with
  | none => right; exact ⟨by unfold pixFile; rw [h], fun l hl => by cases hl⟩
  | some l =>
    have hnd := ordered_ids_nodup S p hI hL h
    have hpids := processed_ids S p l
    have hpnd : ((processed S p l).map fun o => o.c.id).Nodup := hpids ▸ hnd
    have hn : ((l.map start).map Cluster.id).Nodup := by rw [List.map_map]; exact hnd
    have hmid : ∀ o ∈ processed S p l, ∀ m ∈ o.mem.getD [], m.id = o.c.id := by
      intro o ho m hmm
      cases hom : o.mem with
      | none => simp [hom] at hmm
      | some ml => rw [hom] at hmm; exact Runner.pass_mem_id _ _ _ _ _ o ho ml hom m hmm
    set K := (processed S p l).filter fun o => decide (S.percMin ≤ o.c.Lambda) with hK
    have hpp : ∃ mem, Runner.postprocess S.percMin ((processed S p l).map Out.c) (Runner.members (processed S p l)) = .ok (K.map Out.c, mem) ∧
        mem.getD [] = (K.map fun o => o.mem.getD []).flatten := by
      cases hm : Runner.members (processed S p l) with
      | none =>
        refine ⟨none, ?_, ?_⟩
        · rw [Runner.C12_no_members, Runner.filter_map_comm]
        · have := members_none hm
          symm
          rw [Option.getD_none, List.flatten_eq_nil_iff]
          intro x hx
          obtain ⟨o, ho, rfl⟩ := List.mem_map.mp hx
          rw [this o (List.mem_of_mem_filter ho)]; rfl
      | some ms => exact ⟨_, Runner.C12_run (S.perc p) true true (S.sig p) S.percMin (l.map start) hn ms hm, rfl⟩
    obtain ⟨mem, h1, h2⟩ := hpp
    by_cases he : (K.map Out.c).isEmpty = true
    · right
      refine ⟨by unfold pixFile; rw [h]; simp only [h1]; rw [if_pos he], ?_⟩
      intro l' hl' o ho
      rw [Option.some.injEq] at hl'
      subst hl'
      rw [List.isEmpty_iff, List.map_eq_nil_iff, hK, List.filter_eq_nil_iff] at he
      have := he o ho
      rw [decide_eq_true_eq] at this
      exact lt_of_not_ge this
    · left
      refine ⟨_, l, by unfold pixFile; rw [h]; simp only [h1]; rw [if_neg he], rfl, rfl, rfl, ?_⟩
      intro q hq hk
      have hqK : q.2 ∈ K := by
        rw [hK, List.mem_filter, ← zip_snd S p l]
        exact ⟨List.mem_map.mpr ⟨q, hq, rfl⟩, by simpa using hk⟩
      have hKs : K.Sublist (processed S p l) := List.filter_sublist
      have := flatten_filter K (hpnd.sublist (hKs.map _)) (fun o ho => hmid o (hKs.subset ho)) hqK
      simp only
      rw [h2, List.filter_map, List.map_map, ← this]
      simp [Function.comp_def]

end pixel

/-! ## All pixels -/

theorem files_spec (S : Env α σ) (hS : Sorts S) (ps : List Nat) (hps : ∀ p ∈ ps, p ∈ S.pixels) : ∃ fs, files S ps = .ok fs ∧
    (fs.map PixFile.hpix).Sublist ps ∧ (∀ f ∈ fs, ∃ l, PixRun.ordered (S.stages f.hpix) = some l ∧ FileOK S f.hpix f l) ∧
    ∀ p ∈ ps, ∀ l, PixRun.ordered (S.stages p) = some l → (∃ o ∈ processed S p l, S.percMin ≤ o.c.Lambda) → ∃ f ∈ fs, f.hpix = p := by
  induction ps with
  | nil => exact ⟨[], rfl, by simp, by simp, by simp⟩
  | cons p ps ih =>
    obtain ⟨fs, h1, h2, h3, h4⟩ := ih fun q hq => hps q (List.mem_cons_of_mem _ hq)
    have hp := hps p List.mem_cons_self
    rcases pixFile_spec S p (hS.ids p hp) (hS.likes p hp) with ⟨f, l, e, hl, hf⟩ | ⟨e, hno⟩
    · refine ⟨f :: fs, by unfold files; rw [e]; simp only [h1], ?_, ?_, ?_⟩
      · rw [List.map_cons, hf.hpix]; exact h2.cons_cons p
      · intro g hg
        rcases List.mem_cons.mp hg with rfl | hg
        · exact ⟨l, by rw [hf.hpix]; exact hl, by rw [hf.hpix]; exact hf⟩
        · exact h3 g hg
      · intro q hq l' hl' ho
        rcases List.mem_cons.mp hq with rfl | hq
        · exact ⟨f, List.mem_cons_self, hf.hpix⟩
        · obtain ⟨g, hg, hgq⟩ := h4 q hq l' hl' ho
          exact ⟨g, List.mem_cons_of_mem _ hg, hgq⟩
    · refine ⟨fs, by unfold files; rw [e]; exact h1, h2.cons p, h3, ?_⟩
      intro q hq l' hl' ho
      rcases List.mem_cons.mp hq with rfl | hq
      · obtain ⟨o, ho, hk⟩ := ho
        exact absurd hk (not_le_of_gt (hno l' hl' o ho))
      · exact h4 q hq l' hl' ho

omit [Field α] [LinearOrder α] [IsStrictOrderedRing α] in
theorem flatMap_one {β γ : Type} (fs : List β) (key : β → Nat) (hnd : (fs.map key).Nodup) (F : β → List γ) {f : β} (hf : f ∈ fs)
    (h : ∀ g ∈ fs, key g ≠ key f → F g = []) : fs.flatMap F = F f := by
  induction fs with
  | nil => cases hf
  | cons a t ih =>
    rw [List.map_cons, List.nodup_cons] at hnd
    rw [List.flatMap_cons]
    rcases List.mem_cons.mp hf with rfl | ht
    · have : t.flatMap F = [] := by
        rw [List.flatMap_eq_nil_iff]
        intro g hg
        exact h g (List.mem_cons_of_mem _ hg) fun e => hnd.1 (e ▸ List.mem_map.mpr ⟨g, hg, rfl⟩)
      rw [this, List.append_nil]
    · rw [ih hnd.2 ht fun g hg => h g (List.mem_cons_of_mem _ hg), h a List.mem_cons_self fun e => hnd.1 (e ▸ List.mem_map.mpr ⟨f, ht, rfl⟩),
        List.nil_append]

omit [IsStrictOrderedRing α] in
/-- The payload of a row of a file. -/
theorem file_row {S : Env α σ} {f : PixFile α (Nat × Seed α × Out α) (Member α)} {l : List (Seed α)} (hf : FileOK S f.hpix f l)
    {c : CRow α (Nat × Seed α × Out α)} (hc : c ∈ f.cat) :
    c = row S f.hpix c.pay.2 ∧ c.pay.1 = f.hpix ∧ c.pay.2 ∈ l.zip (processed S f.hpix l) ∧ S.percMin ≤ c.pay.2.2.c.Lambda := by
  rw [hf.cat] at hc
  obtain ⟨q, hq, rfl⟩ := List.mem_map.mp hc
  rw [List.mem_filter, decide_eq_true_eq] at hq
  exact ⟨rfl, rfl, hq.1, hq.2⟩

/-! ## The survey -/

/-- C422: if every cut is met by some cluster, the survey succeeds; the catalogs of every cut are faithful; and a cluster has the same id in all of them. -/
theorem C422 (S : Env α σ) (hS : Sorts S) (hpx : S.pixels.Nodup) (hcuts : ∀ k ∈ S.cuts, ∃ p s o, Processed S p s o ∧ Listed S k p s o) :
    ∃ outs, survey S = .ok outs ∧ outs.length = S.cuts.length ∧
      (∀ (i : Nat) (k : Cut α (Nat × Seed α × Out α)), S.cuts[i]? = some k → ∃ cat mem, outs[i]? = some (cat, mem) ∧ Faithful S k cat mem) ∧
      ∀ x ∈ outs, ∀ y ∈ outs, ∀ a ∈ x.1, ∀ b ∈ y.1, a.id = b.id ↔ a.pay = b.pay := by
  classical
  obtain ⟨fs, h1, h2, h3, h4⟩ := files_spec S hS S.pixels fun _ h => h
  have hfnd : (fs.map PixFile.hpix).Nodup := hpx.sublist h2
  have hfpx : ∀ f ∈ fs, f.hpix ∈ S.pixels := fun f hf => h2.subset (List.mem_map.mpr ⟨f, hf, rfl⟩)
  set M := S.maxMaskfrac with hM
  set L := S.minLambda with hL
  -- rows of the files
  have hk2 : ∀ {f : PixFile α (Nat × Seed α × Out α) (Member α)} {c : CRow α (Nat × Seed α × Out α)}, c ∈ kept2 M L f → c ∈ f.cat ∧ c.pix = f.hpix ∧ c.maskfrac < M ∧ L < c.Lambda := by
    intro f c hc
    unfold kept2 at hc
    rw [List.mem_filter, decide_eq_true_eq] at hc
    exact hc
  have hids : ∀ f ∈ fs, (f.cat.map CRow.id).Nodup := by
    intro f hf
    obtain ⟨l, hl, hfo⟩ := h3 f hf
    rw [hfo.cat, List.map_map]
    have hnd := ordered_ids_nodup S f.hpix (hS.ids _ (hfpx f hf)) (hS.likes _ (hfpx f hf)) hl
    rw [← processed_ids S f.hpix l, ← zip_snd S f.hpix l, List.map_map] at hnd
    exact hnd.sublist (List.filter_sublist.map _)
  have huniq : ∀ f ∈ fs, ((kept2 M L f).map CRow.id).Nodup := fun f hf => (hids f hf).sublist (List.filter_sublist.map _)
  -- a listed cluster has a row
  have hrow : ∀ k p s o, Processed S p s o → Listed S k p s o → ∃ f ∈ fs, f.hpix = p ∧ row S p (s, o) ∈ kept2 M L f ∧ pass k (row S p (s, o)) = true := by
    intro k p s o ⟨hp, l, hl, hz⟩ hli
    have ho : o ∈ processed S p l := by rw [← zip_snd S p l]; exact List.mem_map.mpr ⟨_, hz, rfl⟩
    obtain ⟨f, hf, rfl⟩ := h4 p hp l hl ⟨o, ho, hli.recorded⟩
    obtain ⟨l', hl', hfo⟩ := h3 f hf
    rw [hl, Option.some.injEq] at hl'
    subst hl'
    refine ⟨f, hf, rfl, ?_, ?_⟩
    · unfold kept2
      rw [List.mem_filter, decide_eq_true_eq, hfo.cat]
      exact ⟨List.mem_map.mpr ⟨_, List.mem_filter.mpr ⟨hz, by simpa using hli.recorded⟩, rfl⟩, hli.inside, hli.unmasked, hli.rich⟩
    · unfold pass
      rw [decide_eq_true_eq]
      exact ⟨hli.volume, hli.cut⟩
  obtain ⟨outs, all, e1, e2, e3, e4, e5, e6⟩ := Consolidate.C19_one_numbering_partial S.argsort M L S.cuts fs hS.cons huniq (by
    intro k hk
    obtain ⟨p, s, o, hp, hli⟩ := hcuts k hk
    obtain ⟨f, hf, _, h5, h6⟩ := hrow k p s o hp hli
    exact ⟨f, hf, _, h5, h6⟩)
  have hnd : (all.map CRow.id).Nodup := by
    refine e3.nodup_iff.mpr ?_
    apply List.Nodup.map _ List.nodup_range
    intro a b hab
    simp only [add_left_inj] at hab
    exact_mod_cast hab
  -- the rows of `all`
  have hall : ∀ c ∈ all, ∃ f ∈ fs, ∃ c0 ∈ kept2 M L f, bare c0 = bare c := by
    intro c hc
    have : bare c ∈ (fs.flatMap (kept2 M L)).map bare := by rw [← e2]; exact List.mem_map_of_mem hc
    obtain ⟨c0, h5, h6⟩ := List.mem_map.mp this
    obtain ⟨f, hf, h7⟩ := List.mem_flatMap.mp h5
    exact ⟨f, hf, c0, h7, h6⟩
  have hbp : ∀ {c c' : CRow α (Nat × Seed α × Out α)}, bare c = bare c' → c.pay = c'.pay ∧ c.like = c'.like ∧ c.Lambda = c'.Lambda ∧ c.maskfrac = c'.maskfrac ∧ c.pix = c'.pix := by
    intro c c' h
    unfold bare at h
    simp only [Prod.mk.injEq] at h
    exact ⟨h.2.2.2.2.2, h.1, h.2.2.1, h.2.1, h.2.2.2.2.1⟩
  -- clusters of `all` are distinct
  let key : CRow α (Nat × Seed α × Out α) → Nat × Int := fun c => (c.pay.1, c.pay.2.1.id)
  have hkid : ∀ f ∈ fs, ∀ c ∈ f.cat, key c = (f.hpix, c.id) := by
    intro f hf c hc
    obtain ⟨l, hl, hfo⟩ := h3 f hf
    obtain ⟨h5, h6, h7, _⟩ := file_row hfo hc
    have h8 := zip_id S f.hpix l h7
    show (c.pay.1, c.pay.2.1.id) = _
    rw [h6, ← h8]
    conv_rhs => rw [h5]
    rfl
  have hfk : ((fs.flatMap (kept2 M L)).map key).Nodup := by
    rw [List.map_flatMap, List.nodup_flatMap]
    refine ⟨?_, ?_⟩
    · intro f hf
      have : (kept2 M L f).map key = ((kept2 M L f).map CRow.id).map fun i => (f.hpix, i) := by
        rw [List.map_map]
        exact List.map_congr_left fun c hc => hkid f hf c (hk2 hc).1
      rw [this]
      exact (huniq f hf).map fun a b h => (Prod.mk.inj h).2
    · have hp : fs.Pairwise fun a b => a.hpix ≠ b.hpix := by
        have := hfnd
        unfold List.Nodup at this
        rwa [List.pairwise_map] at this
      refine hp.imp_of_mem ?_
      intro a b ha hb hab x hx hy
      obtain ⟨c, hc, rfl⟩ := List.mem_map.mp hx
      obtain ⟨c', hc', h5⟩ := List.mem_map.mp hy
      rw [hkid a ha c (hk2 hc).1, hkid b hb c' (hk2 hc').1] at h5
      exact hab (Prod.mk.inj h5).1.symm
  have hak : (all.map key).Nodup := by
    have h5 : all.map key = (all.map bare).map fun b => (b.2.2.2.2.2.1, b.2.2.2.2.2.2.1.id) := by rw [List.map_map]; rfl
    have h6 : (fs.flatMap (kept2 M L)).map key = ((fs.flatMap (kept2 M L)).map bare).map fun b => (b.2.2.2.2.2.1, b.2.2.2.2.2.2.1.id) := by
      rw [List.map_map]; rfl
    rw [h5, e2, ← h6]
    exact hfk
  have hinj : ∀ a ∈ all, ∀ b ∈ all, a.pay = b.pay → a = b := fun a ha b hb h => List.inj_on_of_nodup_map hak ha hb (by show (_, _) = (_, _); rw [h])
  have hidpay : ∀ a ∈ all, ∀ b ∈ all, (a.id = b.id ↔ a.pay = b.pay) := fun a ha b hb =>
    ⟨fun h => by rw [List.inj_on_of_nodup_map hnd ha hb h], fun h => by rw [hinj a ha b hb h]⟩
  refine ⟨outs, by unfold survey; rw [h1]; simp only; rw [e1], e5, ?_, ?_⟩
  swap
  · intro x hx y hy a ha b hb
    have hin : ∀ z ∈ outs, ∀ c ∈ z.1, c ∈ all := by
      intro z hz c hc
      obtain ⟨i, hi, rfl⟩ := List.getElem_of_mem hz
      obtain ⟨cat, mem, h5, h6, _⟩ := e6 i S.cuts[i] (List.getElem?_eq_getElem (by rw [← e5]; exact hi))
      rw [List.getElem?_eq_getElem hi, Option.some.injEq] at h5
      rw [h5] at hc
      simp only [h6] at hc
      exact List.mem_of_mem_filter hc
    exact hidpay a (hin x hx a ha) b (hin y hy b hb)
  intro i k hk
  obtain ⟨cat, mem, h5, h6, h7⟩ := e6 i k hk
  refine ⟨cat, mem, h5, ?_⟩
  have hcall : ∀ c ∈ cat, c ∈ all ∧ k.vl c.pay = true ∧ k.minlam < c.Lambda := by
    intro c hc
    rw [h6, List.mem_filter] at hc
    refine ⟨hc.1, ?_⟩
    have := hc.2
    unfold pass at this
    rwa [decide_eq_true_eq] at this
  -- where the members come from
  have hfrom : ∀ m ∈ mem, ∃ c ∈ cat, c.id = m.id := by
    intro m hm
    have : (m.pay, owner all m.id) ∈ fs.flatMap fun f => keptMembers ((kept2 M L f).filter (pass k)) f.mem := by
      rw [← h7]; exact List.mem_map.mpr ⟨m, hm, rfl⟩
    obtain ⟨f, hf, h8⟩ := List.mem_flatMap.mp this
    unfold keptMembers at h8
    obtain ⟨m0, _, h9⟩ := List.mem_filterMap.mp h8
    obtain ⟨π, hπ, h10⟩ := Option.map_eq_some_iff.mp h9
    have h11 : owner all m.id = some π := (Prod.mk.inj h10).2.symm
    obtain ⟨c, hc, hci, hco⟩ : ∃ c ∈ all, c.id = m.id ∧ owner all m.id = some c.pay := by
      by_cases h : m.id ∈ all.map CRow.id
      · exact Consolidate.owner_some h
      · rw [Consolidate.owner_none h] at h11; cases h11
    obtain ⟨c0, hc0, h12, h13⟩ : ∃ c ∈ (kept2 M L f).filter (pass k), c.id = m0.id ∧ owner ((kept2 M L f).filter (pass k)) m0.id = some c.pay := by
      by_cases h : m0.id ∈ ((kept2 M L f).filter (pass k)).map CRow.id
      · exact Consolidate.owner_some h
      · rw [Consolidate.owner_none h] at hπ; cases hπ
    rw [hπ, Option.some.injEq] at h13
    rw [h11, Option.some.injEq] at hco
    rw [List.mem_filter] at hc0
    -- the row `c` is the row `c0`
    obtain ⟨f', hf', c1, hc1, hb⟩ := hall c hc
    have hbb := hbp hb
    have hcc : c1 = c0 := by
      have h14 : c1 ∈ fs.flatMap (kept2 M L) := List.mem_flatMap.mpr ⟨f', hf', hc1⟩
      have h15 : c0 ∈ fs.flatMap (kept2 M L) := List.mem_flatMap.mpr ⟨f, hf, hc0.1⟩
      refine List.inj_on_of_nodup_map hfk h14 h15 ?_
      show (_, _) = (_, _)
      rw [hbb.1, ← hco, h13]
    refine ⟨c, ?_, hci⟩
    rw [h6, List.mem_filter]
    refine ⟨hc, ?_⟩
    have := hc0.2
    unfold pass at this ⊢
    rwa [← hbb.1, ← hbb.2.2.1, hcc]
  constructor
  · intro c hc
    obtain ⟨hca, hcv, hcm⟩ := hcall c hc
    obtain ⟨f, hf, c0, hc0, hb⟩ := hall c hca
    have hbb := hbp hb
    obtain ⟨h8, h9, h10, h11⟩ := hk2 hc0
    obtain ⟨l, hl, hfo⟩ := h3 f hf
    obtain ⟨r1, r2, r3, r4⟩ := file_row hfo h8
    have hp0 : c0.pay = (f.hpix, c0.pay.2.1, c0.pay.2.2) := by rw [← r2]
    refine ⟨f.hpix, c0.pay.2.1, c0.pay.2.2, by rw [← hbb.1]; exact hp0, ⟨hfpx f hf, l, hl, r3⟩, ?_, ?_, ?_, ?_⟩
    · rw [← hbb.2.2.1] at hcm
      rw [← hbb.1, hp0] at hcv
      rw [r1] at h9 h10 h11 hcm
      exact ⟨h9, r4, h10, h11, hcm, hcv⟩
    · rw [← hbb.2.2.1, r1]; rfl
    · rw [← hbb.2.2.2.1, r1]; rfl
    · have hsl : c0.pay.2.1 ∈ l := by rw [← zip_fst S f.hpix l]; exact List.mem_map.mpr ⟨_, r3, rfl⟩
      exact (PixRun.C397 _ (hS.ids _ (hfpx f hf)) (hS.likes _ (hfpx f hf)) hl).1 _ hsl
  · intro p s o hp hli
    obtain ⟨f, hf, _, h8, h9⟩ := hrow k p s o hp hli
    have : bare (row S p (s, o)) ∈ all.map bare := by
      rw [e2]; exact List.mem_map_of_mem (List.mem_flatMap.mpr ⟨f, hf, h8⟩)
    obtain ⟨c, hc, hb⟩ := List.mem_map.mp this
    have hbb := hbp hb
    refine ⟨c, ?_, hbb.1⟩
    rw [h6, List.mem_filter]
    refine ⟨hc, ?_⟩
    unfold pass at h9 ⊢
    rwa [hbb.1, hbb.2.2.1]
  · rw [h6]; exact hnd.sublist (List.filter_sublist.map _)
  · rw [h6]; exact hak.sublist (List.filter_sublist.map _)
  · intro a ha b hb hab
    have hl : ∀ c ∈ cat, c.like = c.pay.2.1.lnlike.getD 0 := by
      intro c hc
      obtain ⟨f, hf, c0, hc0, hbc⟩ := hall c (hcall c hc).1
      obtain ⟨l, hl, hfo⟩ := h3 f hf
      obtain ⟨r1, _⟩ := file_row hfo (hk2 hc0).1
      have hbb := hbp hbc
      rw [← hbb.2.1, ← hbb.1, r1]; rfl
    rw [← hl a ha, ← hl b hb]
    exact e4 a (hcall a ha).1 b (hcall b hb).1 hab
  · intro c hc
    have hca := (hcall c hc).1
    obtain ⟨f, hf, c0, hc0, hb⟩ := hall c hca
    have hbb := hbp hb
    obtain ⟨l, hl, hfo⟩ := h3 f hf
    obtain ⟨r1, r2, r3, r4⟩ := file_row hfo (hk2 hc0).1
    have hc0p : c0 ∈ (kept2 M L f).filter (pass k) := by
      rw [List.mem_filter]
      refine ⟨hc0, ?_⟩
      obtain ⟨_, h8, h9⟩ := hcall c hc
      unfold pass
      rw [decide_eq_true_eq, hbb.1, hbb.2.2.1]
      exact ⟨h8, h9⟩
    have hown : ∀ m ∈ mem, (m.id = c.id ↔ owner all m.id = some c.pay) := by
      intro m hm
      obtain ⟨c', hc', hi⟩ := hfrom m hm
      rw [← hi, Consolidate.owner_mem hnd (hcall c' hc').1, Option.some.injEq]
      exact hidpay c' (hcall c' hc').1 c hca
    have s1 : (mem.filter fun m => decide (m.id = c.id)).map MRow.pay =
        ((mem.map fun m => (m.pay, owner all m.id)).filter fun x => decide (x.2 = some c.pay)).map Prod.fst := by
      rw [List.filter_map, List.map_map]
      have : mem.filter (fun m => decide (m.id = c.id)) =
          mem.filter ((fun x : Member α × Option (Nat × Seed α × Out α) => decide (x.2 = some c.pay)) ∘ fun m => (m.pay, owner all m.id)) := by
        apply List.filter_congr
        intro m hm
        rw [Bool.eq_iff_iff]
        simp only [decide_eq_true_eq, Function.comp]
        exact hown m hm
      rw [this]; rfl
    have s2 : ((fs.flatMap fun f => keptMembers ((kept2 M L f).filter (pass k)) f.mem).filter fun x => decide (x.2 = some c.pay)) =
        (keptMembers ((kept2 M L f).filter (pass k)) f.mem).filter fun x => decide (x.2 = some c.pay) := by
      rw [List.filter_flatMap]
      refine flatMap_one fs PixFile.hpix hfnd _ hf ?_
      intro g hg hgf
      rw [List.filter_eq_nil_iff]
      intro x hx hxe
      unfold keptMembers at hx
      obtain ⟨m0, _, h9⟩ := List.mem_filterMap.mp hx
      obtain ⟨π, hπ, rfl⟩ := Option.map_eq_some_iff.mp h9
      rw [decide_eq_true_eq, Option.some.injEq] at hxe
      obtain ⟨c2, hc2, _, h13⟩ : ∃ c ∈ (kept2 M L g).filter (pass k), c.id = m0.id ∧ owner ((kept2 M L g).filter (pass k)) m0.id = some c.pay := by
        by_cases h : m0.id ∈ ((kept2 M L g).filter (pass k)).map CRow.id
        · exact Consolidate.owner_some h
        · rw [Consolidate.owner_none h] at hπ; cases hπ
      rw [hπ, Option.some.injEq] at h13
      obtain ⟨l', _, hgo⟩ := h3 g hg
      have := (file_row hgo (hk2 (List.mem_of_mem_filter hc2)).1).2.1
      rw [← h13, hxe, ← hbb.1, r2] at this
      exact hgf this.symm
    have hksn : (((kept2 M L f).filter (pass k)).map CRow.id).Nodup := (huniq f hf).sublist (List.filter_sublist.map _)
    have s3 : ((keptMembers ((kept2 M L f).filter (pass k)) f.mem).filter fun x => decide (x.2 = some c.pay)).map Prod.fst =
        (f.mem.filter fun m => decide (m.id = c0.id)).map MRow.pay := by
      unfold keptMembers
      have hm : ∀ m : MRow (Member α), owner ((kept2 M L f).filter (pass k)) m.id = some c.pay ↔ m.id = c0.id := by
        intro m
        constructor
        · intro h
          obtain ⟨c2, hc2, h12, h13⟩ : ∃ c ∈ (kept2 M L f).filter (pass k), c.id = m.id ∧ owner ((kept2 M L f).filter (pass k)) m.id = some c.pay := by
            by_cases h' : m.id ∈ ((kept2 M L f).filter (pass k)).map CRow.id
            · exact Consolidate.owner_some h'
            · rw [Consolidate.owner_none h'] at h; cases h
          rw [h, Option.some.injEq] at h13
          have hk2' := hkid f hf c2 (hk2 (List.mem_of_mem_filter hc2)).1
          have hk0 := hkid f hf c0 (hk2 hc0).1
          have : key c2 = key c0 := by show (_, _) = (_, _); rw [← h13, hbb.1]
          rw [hk2', hk0] at this
          rw [← h12]; exact (Prod.mk.inj this).2
        · intro h
          rw [h, Consolidate.owner_mem hksn hc0p, hbb.1]
      generalize f.mem = ms
      induction ms with
      | nil => rfl
      | cons m t ih =>
        by_cases h : m.id = c0.id
        · have h' := (hm m).mpr h
          rw [List.filterMap_cons_some (b := (m.pay, some c.pay)) (by rw [h']; rfl), List.filter_cons_of_pos (by simp), List.map_cons, ih,
            List.filter_cons_of_pos (by simpa using h), List.map_cons]
        · have h' : owner ((kept2 M L f).filter (pass k)) m.id ≠ some c.pay := fun e => h ((hm m).mp e)
          rw [List.filter_cons_of_neg (by simpa using h), ← ih]
          cases ho : owner ((kept2 M L f).filter (pass k)) m.id with
          | none => rw [List.filterMap_cons_none (by rw [ho]; rfl)]
          | some π =>
            rw [List.filterMap_cons_some (b := (m.pay, some π)) (by rw [ho]; rfl), List.filter_cons_of_neg]
            rw [ho] at h'
            simpa using h'
    rw [s1, h7, s2, s3, ← hbb.1, ← hfo.mem c0.pay.2 r3 r4]
    have : c0.id = c0.pay.2.2.c.id := congrArg CRow.id r1
    rw [this]
  · exact hfrom

/-- C422, the other case: a cut that no cluster meets makes the consolidation fail. -/
theorem C422_empty (S : Env α σ) (hS : Sorts S) {k : Cut α (Nat × Seed α × Out α)} (hk : k ∈ S.cuts)
    (hno : ∀ p s o, Processed S p s o → ¬ Listed S k p s o) : survey S = .error (.cons .keyError) := by
  obtain ⟨fs, h1, h2, h3, h4⟩ := files_spec S hS S.pixels fun _ h => h
  have hfpx : ∀ f ∈ fs, f.hpix ∈ S.pixels := fun f hf => h2.subset (List.mem_map.mpr ⟨f, hf, rfl⟩)
  have hids : ∀ f ∈ fs, (f.cat.map CRow.id).Nodup := by
    intro f hf
    obtain ⟨l, hl, hfo⟩ := h3 f hf
    rw [hfo.cat, List.map_map]
    have hnd := ordered_ids_nodup S f.hpix (hS.ids _ (hfpx f hf)) (hS.likes _ (hfpx f hf)) hl
    rw [← processed_ids S f.hpix l, ← zip_snd S f.hpix l, List.map_map] at hnd
    exact hnd.sublist (List.filter_sublist.map _)
  have he := Consolidate.C19_empty_cut_fails S.argsort S.maxMaskfrac S.minLambda S.cuts fs
    (fun f hf => (hids f hf).sublist (List.filter_sublist.map _)) k hk (by
      intro f hf c hc
      unfold kept2 at hc
      rw [List.mem_filter, decide_eq_true_eq] at hc
      obtain ⟨l, hl, hfo⟩ := h3 f hf
      obtain ⟨r1, r2, r3, r4⟩ := file_row hfo hc.1
      rw [← Bool.not_eq_true]
      intro hp
      unfold pass at hp
      rw [decide_eq_true_eq] at hp
      have hp0 : c.pay = (f.hpix, c.pay.2.1, c.pay.2.2) := by rw [← r2]
      have hpix := hc.2.1
      have hmf := hc.2.2.1
      have hla := hc.2.2.2
      have hcu := hp.2
      have hvl := hp.1
      rw [hp0] at hvl
      rw [r1] at hpix hmf hla hcu
      exact hno f.hpix c.pay.2.1 c.pay.2.2 ⟨hfpx f hf, l, hl, r3⟩ ⟨hpix, r4, hmf, hla, hcu, hvl⟩)
  unfold survey
  rw [h1]
  simp only
  rw [he]

/-! ## C423: no source gives two clusters -/

/-- C423: if the sources of each pixel have different positions, no two rows of a catalog of the survey come from the same source of the same pixel. -/
theorem C423 (S : Env α σ) (hS : Sorts S) (hpx : S.pixels.Nodup) (hcuts : ∀ k ∈ S.cuts, ∃ p s o, Processed S p s o ∧ Listed S k p s o)
    (hsrc : ∀ p ∈ S.pixels, ((PixRun.source (S.stages p)).map CatTask.Seed.pos).Nodup)
    {outs : List (List (CRow α (Nat × Seed α × Out α)) × List (MRow (Member α)))} (h : survey S = .ok outs) :
    ∀ x ∈ outs, (x.1.map fun c => (c.pay.1, c.pay.2.1.tag)).Nodup := by
  obtain ⟨outs', e1, e2, e3, _⟩ := C422 S hS hpx hcuts
  rw [e1] at h
  cases h
  intro x hx
  obtain ⟨i, hi, rfl⟩ := List.getElem_of_mem hx
  obtain ⟨cat, mem, h5, hf⟩ := e3 i S.cuts[i] (List.getElem?_eq_getElem (by rw [← e2]; exact hi))
  rw [List.getElem?_eq_getElem hi, Option.some.injEq] at h5
  rw [h5]
  simp only
  have hnd : cat.Nodup := hf.ids.of_map
  refine List.Nodup.map_on ?_ hnd
  intro a ha b hb hab
  obtain ⟨h6, h7⟩ := Prod.mk.inj hab
  refine List.inj_on_of_nodup_map hf.once ha hb ?_
  obtain ⟨p, s, o, hpa, ⟨hp, l, hl, hz⟩, _⟩ := hf.genuine a ha
  obtain ⟨p', s', o', hpb, ⟨_, l', hl', hz'⟩, _⟩ := hf.genuine b hb
  rw [hpa, hpb] at h6 h7 ⊢
  simp only at h6 h7 ⊢
  subst h6
  rw [hl, Option.some.injEq] at hl'
  subst hl'
  have hs : s ∈ l := by rw [← zip_fst S p l]; exact List.mem_map.mpr ⟨_, hz, rfl⟩
  have hs' : s' ∈ l := by rw [← zip_fst S p l]; exact List.mem_map.mpr ⟨_, hz', rfl⟩
  rw [List.inj_on_of_nodup_map ((PixRun.C397 _ (hS.ids p hp) (hS.likes p hp) hl).2.2.1 (hsrc p hp)) hs hs' h7]

/-! ## C424: pixels do not influence each other -/

/-- Two surveys treat the pixel `p` and the consolidation alike. -/
structure Alike (S S' : Env α σ) (p : Nat) : Prop where
  in1 : p ∈ S.pixels
  in2 : p ∈ S'.pixels
  stages : S.stages p = S'.stages p
  perc : S.perc p = S'.perc p
  sig : S.sig p = S'.sig p
  home : S.home = S'.home
  percMin : S.percMin = S'.percMin
  maxMaskfrac : S.maxMaskfrac = S'.maxMaskfrac
  minLambda : S.minLambda = S'.minLambda
  cuts : S.cuts = S'.cuts

omit [IsStrictOrderedRing α] in
theorem alike_listed {S S' : Env α σ} {p : Nat} (h : Alike S S' p) (k : Cut α (Nat × Seed α × Out α)) (s : Seed α) (o : Out α)
    (h1 : Processed S p s o) (h2 : Listed S k p s o) : Processed S' p s o ∧ Listed S' k p s o := by
  obtain ⟨_, l, hl, hz⟩ := h1
  refine ⟨⟨h.in2, l, by rw [← h.stages]; exact hl, ?_⟩, ?_⟩
  · have : processed S' p l = processed S p l := by unfold processed; rw [h.perc, h.sig]
    rw [this]; exact hz
  · exact ⟨h.home ▸ h2.inside, h.percMin ▸ h2.recorded, h.maxMaskfrac ▸ h2.unmasked, h.minLambda ▸ h2.rich, h2.cut, h2.volume⟩

theorem alike_symm {S S' : Env α σ} {p : Nat} (h : Alike S S' p) : Alike S' S p :=
  ⟨h.in2, h.in1, h.stages.symm, h.perc.symm, h.sig.symm, h.home.symm, h.percMin.symm, h.maxMaskfrac.symm, h.minLambda.symm, h.cuts.symm⟩

/-- C424: the clusters of a pixel in a catalog of the survey, with their columns and members, do not depend on the other pixels, on how many there are or on their order. -/
theorem C424 (S S' : Env α σ) (p : Nat) (ha : Alike S S' p) (hS : Sorts S) (hS' : Sorts S') (hpx : S.pixels.Nodup) (hpx' : S'.pixels.Nodup)
    (hcuts : ∀ k ∈ S.cuts, ∃ p s o, Processed S p s o ∧ Listed S k p s o) (hcuts' : ∀ k ∈ S'.cuts, ∃ p s o, Processed S' p s o ∧ Listed S' k p s o)
    {outs outs' : List (List (CRow α (Nat × Seed α × Out α)) × List (MRow (Member α)))} (h : survey S = .ok outs) (h' : survey S' = .ok outs') :
    ∀ (i : Nat) cat mem cat' mem', outs[i]? = some (cat, mem) → outs'[i]? = some (cat', mem') →
      ∀ c ∈ cat, c.pay.1 = p → ∃ c' ∈ cat', c'.pay = c.pay ∧ c'.Lambda = c.Lambda ∧
        (mem'.filter fun m => decide (m.id = c'.id)).map MRow.pay = (mem.filter fun m => decide (m.id = c.id)).map MRow.pay := by
  intro i cat mem cat' mem' hi hi' c hc hcp
  obtain ⟨o1, e1, e2, e3, _⟩ := C422 S hS hpx hcuts
  obtain ⟨o2, f1, f2, f3, _⟩ := C422 S' hS' hpx' hcuts'
  rw [e1] at h; cases h
  rw [f1] at h'; cases h'
  have hlt : i < S.cuts.length := by
    rw [← e2]
    exact (List.getElem?_eq_some_iff.mp hi).1
  have hk := List.getElem?_eq_getElem hlt
  obtain ⟨_, _, g1, hf⟩ := e3 i _ hk
  rw [hi] at g1; cases g1
  obtain ⟨_, _, g2, hf'⟩ := f3 i S.cuts[i] (by rw [← ha.cuts]; exact hk)
  rw [hi'] at g2; cases g2
  obtain ⟨q, s, o, hpay, hpr, hli, hla, _⟩ := hf.genuine c hc
  have hq : q = p := by rw [← hcp, hpay]
  subst hq
  obtain ⟨hp1, hl1⟩ := alike_listed ha _ s o hpr hli
  obtain ⟨c', hc', hpay'⟩ := hf'.complete q s o hp1 hl1
  obtain ⟨q2, s2, o2, hpay2, _, _, hla2, _⟩ := hf'.genuine c' hc'
  rw [hpay'] at hpay2
  cases hpay2
  exact ⟨c', hc', by rw [hpay', hpay], by rw [hla, hla2], by rw [hf'.members c' hc', hf.members c hc, hpay', hpay]⟩

/-! ## A case -/

/-- Two pixels; percolation sees two galaxies around each cluster and rejects the third. -/
def exS : Env ℚ Unit where
  pixels := [7, 9]
  stages p := PixRun.env0 (decide (p = 9)) false 1 [1 / 2, 1 / 2, 1 / 4] fun k => k
  perc _ := Runner.exEnv
  sig _ := ()
  home o := if o.c.redshift = 41 / 100 then 9 else 7
  percMin := 3
  argsort := Finders.argsortRef
  maxMaskfrac := 1 / 5
  minLambda := 5
  cuts := [⟨fun _ => true, 10⟩, ⟨fun q => decide (q.1 = 7), 15⟩]

/-- What the case shows of a pair of catalogs: id, pixel and source of the clusters; id and galaxy of the members. -/
def exShow (x : List (CRow ℚ (Nat × Seed ℚ × Out ℚ)) × List (MRow (Member ℚ))) : List (Int × Nat × Nat) × List (Int × Nat) :=
  (x.1.map fun c => (c.id, c.pay.1, c.pay.2.1.tag), x.2.map fun m => (m.id, m.pay.gid))

/-- What is left of a survey. -/
def exOut (r : Except Err (List (List (CRow ℚ (Nat × Seed ℚ × Out ℚ)) × List (MRow (Member ℚ))))) : Option (List (List (Int × Nat × Nat) × List (Int × Nat))) :=
  match r with
  | .ok outs => some (outs.map exShow)
  | .error _ => none

/-- Three clusters, one of them only in the catalog of the first cut, with their members. -/
theorem ex_out : exOut (survey exS) = some
  [([(1, 7, 4), (3, 7, 2), (2, 9, 2)], [(1, 100), (1, 101), (3, 100), (3, 101), (2, 100), (2, 101)]),
    ([(1, 7, 4), (3, 7, 2)], [(1, 100), (1, 101), (3, 100), (3, 101)])] := by decide +kernel

/-- The hypotheses of C422 - C424 are met. -/
theorem ex_sorts : Sorts exS := ⟨Finders.argsortRef_ok, fun _ _ => Finders.argsortRef_ok, fun _ _ => Finders.argsortRef_ok⟩

theorem ex_cuts : ∀ k ∈ exS.cuts, ∃ p s o, Processed exS p s o ∧ Listed exS k p s o := by
  intro k hk
  by_contra h
  push Not at h
  have := ex_out
  rw [C422_empty exS ex_sorts hk h] at this
  cases this

example : ∃ outs, survey exS = .ok outs ∧ outs.length = 2 := by
  obtain ⟨outs, h1, h2, _⟩ := C422 exS ex_sorts (by decide) ex_cuts
  exact ⟨outs, h1, h2⟩

example : ∀ p ∈ exS.pixels, ((PixRun.source (exS.stages p)).map CatTask.Seed.pos).Nodup := by decide +kernel

end Redmapper.Survey
