/-
Properties C416 to C419: the redshifts that a consolidation gives to clusters and members.
-/
import Verif.Model.ConsSpec
import Verif.Props.RmRun
import Mathlib.Tactic

namespace Redmapper.ConsSpec

open Redmapper.Consolidate
open Redmapper.RmRun (Spectrum closest Closest closest_iff)

/-! ## Rows of the output are rows of the files -/

section From

variable {α π μ : Type} [Field α] [LinearOrder α]

theorem setIds_from (P : π → Nat → Prop) : ∀ (cat : List (CRow α π)) (ids : List Int), (∀ c ∈ cat, P c.pay c.pix) →
    ∀ c ∈ setIds cat ids, P c.pay c.pix := by
  intro cat
  induction cat with
  | nil => intro ids _ c hc; simp [setIds] at hc
  | cons a t ih =>
    intro ids h c hc
    cases ids with
    | nil => simp [setIds] at hc
    | cons i is =>
      have hc' : c = { a with id := i } ∨ c ∈ setIds t is := by simpa [setIds] using hc
      rcases hc' with rfl | hc'
      · exact h a (by simp)
      · exact ih is (fun c hc => h c (List.mem_cons_of_mem _ hc)) c hc'

theorem relabel_from (Q : μ → Prop) (o n : List Int) (mem : List (MRow μ)) (h : ∀ m ∈ mem, Q m.pay) (r : List (MRow μ)) (hr : relabel o n mem = .ok r) :
    ∀ m ∈ r, Q m.pay := by
  unfold relabel at hr
  cases he : esMatch o (mem.map MRow.id) with
  | error e => rw [he] at hr; cases hr
  | ok ps =>
    rw [he] at hr
    simp only [Except.ok.injEq] at hr
    subst hr
    intro m hm
    obtain ⟨p, _, hp⟩ := List.mem_filterMap.mp hm
    cases h1 : mem[p.2]? with
    | none => simp [h1] at hp
    | some m' =>
      cases h2 : n[p.1]? with
      | none => simp [h1, h2] at hp
      | some i =>
        simp only [h1, h2, Option.some.injEq] at hp
        subst hp
        exact h m' (List.mem_of_getElem? h1)

theorem cutPart_from (P : π → Nat → Prop) (Q : μ → Prop) (vl : π → Bool) (ml : α) (rich : List α) (cat : List (CRow α π)) (mem : List (MRow μ))
    (hc : ∀ c ∈ cat, P c.pay c.pix) (hm : ∀ m ∈ mem, Q m.pay) (o : List (CRow α π) × List (MRow μ)) (h : cutPart vl ml rich cat mem = .ok o) :
    (∀ c ∈ o.1, P c.pay c.pix) ∧ ∀ m ∈ o.2, Q m.pay := by
  unfold cutPart at h
  simp only at h
  have hsub : ∀ c ∈ ((cat.zip rich).filter fun x => vl x.1.pay && decide (ml < x.2)).map Prod.fst, P c.pay c.pix := by
    intro c hc'
    obtain ⟨x, hx, rfl⟩ := List.mem_map.mp hc'
    exact hc _ (List.of_mem_zip (List.mem_filter.mp hx).1).1
  split at h
  · cases h; exact ⟨by simp, by simp⟩
  · split at h
    · cases h
    · cases h
      refine ⟨hsub, fun m hm' => ?_⟩
      obtain ⟨p, _, hp⟩ := List.mem_filterMap.mp hm'
      exact hm m (List.mem_of_getElem? hp)

theorem cutParts_from (P : π → Nat → Prop) (Q : μ → Prop) (rich : List α) (cat : List (CRow α π)) (mem : List (MRow μ))
    (hc : ∀ c ∈ cat, P c.pay c.pix) (hm : ∀ m ∈ mem, Q m.pay) (cuts : List (Cut α π)) : ∀ os, cutParts cuts rich cat mem = .ok os →
    ∀ o ∈ os, (∀ c ∈ o.1, P c.pay c.pix) ∧ ∀ m ∈ o.2, Q m.pay := by
  induction cuts with
  | nil => intro os h; cases h; simp
  | cons k ks ih =>
    intro os h
    unfold cutParts at h
    split at h
    · cases h
    · rename_i p hp
      split at h
      · cases h
      · rename_i ps hps
        cases h
        intro o ho
        rcases List.mem_cons.mp ho with rfl | ho
        · exact cutPart_from P Q _ _ _ _ _ hc hm _ hp
        · exact ih ps hps o ho

theorem taskFile_from (P : π → Nat → Prop) (Q : μ → Prop) (sel : Bool) (M L : α) (cuts : List (Cut α π)) (ctr : Nat) (f : PixFile α π μ)
    (hc : ∀ c ∈ f.cat, c.pix = f.hpix → P c.pay c.pix) (hm : ∀ m ∈ f.mem, Q m.pay) (t : TPart α π μ) (h : taskFile sel M L cuts ctr f = .ok (some t)) :
    ∀ o ∈ t.cuts, (∀ c ∈ o.1, P c.pay c.pix) ∧ ∀ m ∈ o.2, Q m.pay := by
  unfold taskFile at h
  simp only at h
  split at h
  · cases h
  · split at h
    · cases h
    · rename_i mem hmem
      split at h
      · cases h
      · rename_i rich _
        split at h
        · cases h
        · rename_i cs hcs
          cases h
          refine cutParts_from P Q _ _ _ ?_ (relabel_from Q _ _ _ hm _ hmem) cuts cs hcs
          refine setIds_from P _ _ fun c hc' => ?_
          obtain ⟨h1, h2⟩ := List.mem_filter.mp hc'
          unfold survives2 at h2
          simp only [Bool.and_eq_true, decide_eq_true_eq] at h2
          exact hc c h1 h2.1.1

theorem taskLoop_from (P : π → Nat → Prop) (Q : μ → Prop) (sel : Bool) (M L : α) (cuts : List (Cut α π)) : ∀ (files : List (PixFile α π μ)) (ctr : Nat),
    (∀ f ∈ files, ∀ c ∈ f.cat, c.pix = f.hpix → P c.pay c.pix) → (∀ f ∈ files, ∀ m ∈ f.mem, Q m.pay) →
    ∀ ts, taskLoop sel M L cuts ctr files = .ok ts → ∀ t ∈ ts, ∀ o ∈ t.cuts, (∀ c ∈ o.1, P c.pay c.pix) ∧ ∀ m ∈ o.2, Q m.pay := by
  intro files
  induction files with
  | nil => intro ctr _ _ ts h; cases h; simp
  | cons f fs ih =>
    intro ctr hc hm ts h
    have ih' := fun ctr => ih ctr (fun f hf => hc f (List.mem_cons_of_mem _ hf)) (fun f hf => hm f (List.mem_cons_of_mem _ hf))
    unfold taskLoop at h
    split at h
    · cases h
    · exact ih' _ ts h
    · rename_i p hp
      split at h
      · cases h
      · rename_i ps hps
        cases h
        intro t ht
        rcases List.mem_cons.mp ht with rfl | ht
        · exact taskFile_from P Q _ _ _ _ _ f (hc f (by simp)) (hm f (by simp)) _ hp
        · exact ih' _ ps hps t ht

theorem task_from (P : π → Nat → Prop) (Q : μ → Prop) (argsort : List α → List Nat) (sel : Bool) (M L : α) (cuts : List (Cut α π))
    (files : List (PixFile α π μ)) (hc : ∀ f ∈ files, ∀ c ∈ f.cat, c.pix = f.hpix → P c.pay c.pix) (hm : ∀ f ∈ files, ∀ m ∈ f.mem, Q m.pay)
    (outs) (h : task argsort sel M L cuts files = .ok outs) : ∀ o ∈ outs, (∀ c ∈ o.1, P c.pay c.pix) ∧ ∀ m ∈ o.2, Q m.pay := by
  unfold task at h
  split at h
  · cases h
  · rename_i parts hparts
    have hp := taskLoop_from P Q sel M L cuts files 0 hc hm parts hparts
    simp only at h
    split at h
    · cases h
    · cases h
      intro o ho
      obtain ⟨o', ho', rfl⟩ := List.mem_map.mp ho
      obtain ⟨k, _, rfl⟩ := List.mem_map.mp ho'
      have hk : ∀ t ∈ parts, (∀ c ∈ (t.cuts.getD k ([], [])).1, P c.pay c.pix) ∧ ∀ m ∈ (t.cuts.getD k ([], [])).2, Q m.pay := by
        intro t ht
        rw [List.getD_eq_getElem?_getD]
        cases hg : t.cuts[k]? with
        | none => simp
        | some o => simpa using hp t ht o (List.mem_of_getElem? hg)
      unfold finalCut
      constructor
      · intro c hc'
        obtain ⟨c', hc'', rfl⟩ := List.mem_map.mp hc'
        obtain ⟨l, hl, hcl⟩ := List.mem_flatten.mp hc''
        obtain ⟨t, ht, rfl⟩ := List.mem_map.mp hl
        have := (hk t ht).1 c' hcl
        split <;> exact this
      · intro m hm'
        obtain ⟨m', hm'', rfl⟩ := List.mem_map.mp hm'
        obtain ⟨l, hl, hml⟩ := List.mem_flatten.mp hm''
        obtain ⟨t, ht, rfl⟩ := List.mem_map.mp hl
        have := (hk t ht).2 m' hml
        split <;> exact this

theorem runcat_from (P : π → Nat → Prop) (Q : μ → Prop) : ∀ (files : List (PixFile α π μ)), (∀ f ∈ files, ∀ c ∈ f.cat, c.pix = f.hpix → P c.pay c.pix) →
    (∀ f ∈ files, ∀ m ∈ f.mem, Q m.pay) → (∀ c ∈ (runcatTask files).1, P c.pay c.pix) ∧ ∀ m ∈ (runcatTask files).2, Q m.pay := by
  intro files
  induction files with
  | nil => intro _ _; simp [runcatTask]
  | cons f fs ih =>
    intro hc hm
    obtain ⟨i1, i2⟩ := ih (fun f hf => hc f (List.mem_cons_of_mem _ hf)) (fun f hf => hm f (List.mem_cons_of_mem _ hf))
    unfold runcatTask
    simp only
    split
    · exact ⟨i1, i2⟩
    · refine ⟨fun c hc' => ?_, fun m hm' => ?_⟩
      · rcases List.mem_append.mp hc' with hc' | hc'
        · obtain ⟨h1, h2⟩ := List.mem_filter.mp hc'
          exact hc f (by simp) c h1 (by simpa using h2)
        · exact i1 c hc'
      · rcases List.mem_append.mp hm' with hm' | hm'
        · exact hm f (by simp) m hm'
        · exact i2 m hm'

end From

/-! ## C416: spectra -/

variable {α : Type} [Field α] [LinearOrder α] [IsStrictOrderedRing α]

/-- The redshift of the closest good spectrum within three arcseconds of the position (in degrees), or minus one if there is none. -/
def SpecZ (E : Env α) (p : α × α) (z : α) : Prop :=
  (∃ s ∈ E.spec, s.zErr < E.maxErr ∧ E.dist p (s.ra, s.dec) ≤ 1 / 1200 ∧
      (∀ s' ∈ E.spec, s'.zErr < E.maxErr → E.dist p (s.ra, s.dec) ≤ E.dist p (s'.ra, s'.dec)) ∧ z = s.z) ∨
    ((∀ s' ∈ E.spec, s'.zErr < E.maxErr → 1 / 1200 < E.dist p (s'.ra, s'.dec)) ∧ z = -1)

theorem zOf_spec (dist : RmRun.Dist α) (radius : α) (pos : List (α × α)) (zs : List α) (hlen : pos.length = zs.length) (p : α × α) :
    (∃ (k : Nat) (q : α × α) (z : α), pos[k]? = some q ∧ zs[k]? = some z ∧ dist p q ≤ radius ∧ (∀ q' ∈ pos, dist p q ≤ dist p q') ∧ zOf dist radius pos zs p = z) ∨
      ((∀ q' ∈ pos, radius < dist p q') ∧ zOf dist radius pos zs p = -1) := by
  unfold zOf
  cases h : closest dist radius pos p with
  | some k =>
    left
    obtain ⟨q, hq, hd, hmin⟩ := (closest_iff dist radius pos p k).mp h
    have hk : k < zs.length := by rw [← hlen]; exact (List.getElem?_eq_some_iff.mp hq).1
    refine ⟨k, q, zs[k], hq, List.getElem?_eq_getElem hk, hd, fun q' hq' => ?_, ?_⟩
    · obtain ⟨j, hj⟩ := List.getElem?_of_mem hq'
      exact (hmin j q' hj).1
    · simp [List.getD_eq_getElem?_getD, List.getElem?_eq_getElem hk]
  | none =>
    right
    refine ⟨fun q' hq' => ?_, rfl⟩
    unfold RmRun.closest at h
    cases ha : Centering.argmin (pos.map (dist p)) with
    | none =>
      have := (Centering.argmin_none _).mp ha
      rw [List.map_eq_nil_iff] at this
      rw [this] at hq'; simp at hq'
    | some m =>
      simp only [ha] at h
      split at h
      · cases h
      · rename_i hd
        obtain ⟨v, hv, hmin⟩ := Centering.argmin_spec _ _ ha
        rw [List.getElem?_map, Option.map_eq_some_iff] at hv
        obtain ⟨q, hq, rfl⟩ := hv
        rw [List.getD_eq_getElem?_getD, hq] at hd
        obtain ⟨j, hj⟩ := List.getElem?_of_mem hq'
        have := (hmin j (dist p q') (by rw [List.getElem?_map, hj]; rfl)).1
        exact lt_of_lt_of_le (not_le.mp hd) this

theorem zOf_good (E : Env α) (p : α × α) :
    SpecZ E p (zOf E.dist (3 / 3600) ((good E.maxErr E.spec).map fun s => (s.ra, s.dec)) ((good E.maxErr E.spec).map Spectrum.z) p) := by
  have e : (3 / 3600 : α) = 1 / 1200 := by norm_num
  rw [e]
  rcases zOf_spec E.dist (1 / 1200) ((good E.maxErr E.spec).map fun s => (s.ra, s.dec)) ((good E.maxErr E.spec).map Spectrum.z) (by simp) p with
    ⟨k, q, z, hq, hz, hd, hmin, h⟩ | ⟨hfar, h⟩
  · left
    rw [List.getElem?_map, Option.map_eq_some_iff] at hq hz
    obtain ⟨s, hs, rfl⟩ := hq
    obtain ⟨s', hs', rfl⟩ := hz
    rw [hs] at hs'
    obtain rfl := Option.some.inj hs'
    obtain ⟨hs1, hs2⟩ := List.mem_filter.mp (List.mem_of_getElem? hs)
    refine ⟨s, hs1, by simpa using hs2, hd, fun s' h1 h2 => hmin _ (List.mem_map.mpr ⟨s', List.mem_filter.mpr ⟨h1, by simpa using h2⟩, rfl⟩), h⟩
  · right
    exact ⟨fun s' h1 h2 => hfar _ (List.mem_map.mpr ⟨s', List.mem_filter.mpr ⟨h1, by simpa using h2⟩, rfl⟩), h⟩

/-- A cluster row of a file, by position, that lies in the pixel of the file. -/
def InFiles (files : List (PixFile α (CPay α) (MPay α))) (p : α × α) : Prop := ∃ f ∈ files, ∃ c ∈ f.cat, c.pix = f.hpix ∧ c.pay.pos = p

/-- A member row of a file, by position. -/
def MemInFiles (files : List (PixFile α (CPay α) (MPay α))) (p : α × α) : Prop := ∃ f ∈ files, ∃ m ∈ f.mem, m.pay.pos = p

/-- C416: in every output of a consolidation that matches spectra, every cluster is at the position of a cluster of the files and every member at that
of a member, and the redshift of each is that of the closest good spectrum within three arcseconds, or minus one if there is none. -/
theorem C416 (E : Env α) (hm : E.matchSpec = true) (ht : E.hasTruth = false) (argsort : List α → List Nat) (sel : Bool) (M L : α)
    (cuts : List (Cut α (CPay α))) (files : List (PixFile α (CPay α) (MPay α))) (outs) (h : run E argsort sel M L cuts files = .ok outs) :
    ∀ o ∈ outs, (∀ c ∈ o.1, InFiles files c.pay.pos ∧ SpecZ E c.pay.pos c.pay.cgSpecZ) ∧
      ∀ m ∈ o.2, MemInFiles files m.pay.pos ∧ SpecZ E m.pay.pos m.pay.zspec := by
  refine task_from (fun p _ => InFiles files p.pos ∧ SpecZ E p.pos p.cgSpecZ) (fun p => MemInFiles files p.pos ∧ SpecZ E p.pos p.zspec)
    argsort sel M L cuts (files.map (matchFile E)) ?_ ?_ outs h
  · intro f hf c hc hpix
    obtain ⟨g, hg, rfl⟩ := List.mem_map.mp hf
    simp only [matchFile, hm, ht, Bool.not_false, Bool.and_self, if_true, Bool.false_eq_true, if_false, setFile] at hc hpix
    obtain ⟨c', hc', rfl⟩ := List.mem_map.mp hc
    exact ⟨⟨g, hg, c', hc', hpix, rfl⟩, zOf_good E _⟩
  · intro f hf m hm'
    obtain ⟨g, hg, rfl⟩ := List.mem_map.mp hf
    simp only [matchFile, hm, ht, Bool.not_false, Bool.and_self, if_true, Bool.false_eq_true, if_false, setFile] at hm'
    obtain ⟨m', hm'', rfl⟩ := List.mem_map.mp hm'
    exact ⟨⟨g, hg, m', hm'', rfl⟩, zOf_good E _⟩

/-- C416 for the consolidation of a run on a catalog. -/
theorem C416_runcat (E : Env α) (hm : E.matchSpec = true) (ht : E.hasTruth = false) (files : List (PixFile α (CPay α) (MPay α))) :
    (∀ c ∈ (runcat E files).1, InFiles files c.pay.pos ∧ SpecZ E c.pay.pos c.pay.cgSpecZ) ∧
      ∀ m ∈ (runcat E files).2, MemInFiles files m.pay.pos ∧ SpecZ E m.pay.pos m.pay.zspec := by
  refine runcat_from (fun p _ => InFiles files p.pos ∧ SpecZ E p.pos p.cgSpecZ) (fun p => MemInFiles files p.pos ∧ SpecZ E p.pos p.zspec)
    (files.map (runcatMatch E)) ?_ ?_
  · intro f hf c hc hpix
    obtain ⟨g, hg, rfl⟩ := List.mem_map.mp hf
    simp only [runcatMatch, hm, ht, Bool.not_false, Bool.and_self, if_true, Bool.false_eq_true, if_false, Bool.and_false, setFile] at hc hpix
    obtain ⟨c', hc', rfl⟩ := List.mem_map.mp hc
    exact ⟨⟨g, hg, c', hc', hpix, rfl⟩, zOf_good E _⟩
  · intro f hf m hm'
    obtain ⟨g, hg, rfl⟩ := List.mem_map.mp hf
    simp only [runcatMatch, hm, ht, Bool.not_false, Bool.and_self, if_true, Bool.false_eq_true, if_false, Bool.and_false, setFile] at hm'
    obtain ⟨m', hm'', rfl⟩ := List.mem_map.mp hm'
    exact ⟨⟨g, hg, m', hm'', rfl⟩, zOf_good E _⟩

/-! ## C417: true redshifts of a mock catalog -/

/-- What the true redshifts ask of the mock catalog: distances between positions are not negative and zero only from a position to itself, and galaxies at the same
position have the same redshift. -/
def GoodMock (E : Env α) : Prop :=
  (∀ p q, 0 ≤ E.dist p q) ∧ (∀ p q, E.dist p q = 0 ↔ p = q) ∧ ∀ t ∈ E.truth, ∀ t' ∈ E.truth, t.pos = t'.pos → t.ztrue = t'.ztrue

/-- The redshift is the true redshift of the galaxy at the position, for every galaxy of the mock catalog there. -/
def TrueZ (E : Env α) (p : α × α) (z : α) : Prop := ∀ t ∈ E.truth, t.pos = p → z = t.ztrue

theorem zOf_truth (E : Env α) (hE : GoodMock E) (hpix : Nat) (p : α × α) (hp : E.pixOf p = hpix) :
    TrueZ E p (zOf E.dist (1 / 3600) ((truthcat E hpix).map Truth.pos) ((truthcat E hpix).map Truth.ztrue) p) := by
  intro t ht htp
  obtain ⟨h0, hz, hu⟩ := hE
  have hmem : p ∈ (truthcat E hpix).map Truth.pos := by
    refine List.mem_map.mpr ⟨t, List.mem_filter.mpr ⟨ht, ?_⟩, htp⟩
    rw [htp]; simpa using hp
  rcases zOf_spec E.dist (1 / 3600) ((truthcat E hpix).map Truth.pos) ((truthcat E hpix).map Truth.ztrue) (by simp) p with
    ⟨k, q, z, hq, hzk, hd, hmin, h⟩ | ⟨hfar, h⟩
  · rw [h]
    have h1 : E.dist p q = 0 := le_antisymm (le_trans (hmin p hmem) (le_of_eq ((hz p p).mpr rfl))) (h0 p q)
    have h2 := (hz p q).mp h1
    rw [List.getElem?_map, Option.map_eq_some_iff] at hq hzk
    obtain ⟨s, hs, hsq⟩ := hq
    obtain ⟨s', hs', rfl⟩ := hzk
    rw [hs] at hs'
    obtain rfl := Option.some.inj hs'
    have hs1 := (List.mem_filter.mp (List.mem_of_getElem? hs)).1
    exact hu s hs1 t ht (by rw [hsq, htp, h2])
  · have := hfar p hmem
    rw [(hz p p).mpr rfl] at this
    exact absurd this (not_lt.mpr (by positivity))

/-- C417: clusters and members of every output have the true redshift of the galaxy at their position. -/
def TrueRedshifts (E : Env α) (outs : List (List (CRow α (CPay α)) × List (MRow (MPay α)))) : Prop :=
  ∀ o ∈ outs, (∀ c ∈ o.1, TrueZ E c.pay.pos c.pay.cgSpecZ) ∧ ∀ m ∈ o.2, TrueZ E m.pay.pos m.pay.zspec

/-- C417 (partial): clusters always do; members do unless they are recorded in the file of a pixel that they are not in. -/
theorem C417_partial (E : Env α) (ht : E.hasTruth = true) (hE : GoodMock E) (argsort : List α → List Nat) (sel : Bool) (M L : α)
    (cuts : List (Cut α (CPay α))) (files : List (PixFile α (CPay α) (MPay α))) (hpix : ∀ f ∈ files, ∀ c ∈ f.cat, c.pix = E.pixOf c.pay.pos)
    (outs) (h : run E argsort sel M L cuts files = .ok outs) :
    ∀ o ∈ outs, (∀ c ∈ o.1, TrueZ E c.pay.pos c.pay.cgSpecZ) ∧
      ∀ m ∈ o.2, (∀ f ∈ files, ∀ r ∈ f.mem, r.pay.pos = m.pay.pos → E.pixOf r.pay.pos = f.hpix) → TrueZ E m.pay.pos m.pay.zspec := by
  refine task_from (fun p _ => TrueZ E p.pos p.cgSpecZ)
    (fun p => (∀ f ∈ files, ∀ r ∈ f.mem, r.pay.pos = p.pos → E.pixOf r.pay.pos = f.hpix) → TrueZ E p.pos p.zspec)
    argsort sel M L cuts (files.map (matchFile E)) ?_ ?_ outs h
  · intro f hf c hc hp
    obtain ⟨g, hg, rfl⟩ := List.mem_map.mp hf
    simp only [matchFile, ht, Bool.not_true, Bool.and_false, Bool.false_eq_true, if_false, if_true, setFile] at hc hp
    obtain ⟨c', hc', rfl⟩ := List.mem_map.mp hc
    exact zOf_truth E hE g.hpix _ (by rw [← hpix g hg c' hc']; exact hp)
  · intro f hf m hm hin
    obtain ⟨g, hg, rfl⟩ := List.mem_map.mp hf
    simp only [matchFile, ht, Bool.not_true, Bool.and_false, Bool.false_eq_true, if_false, if_true, setFile] at hm
    obtain ⟨m', hm', rfl⟩ := List.mem_map.mp hm
    exact zOf_truth E hE g.hpix _ (hin g hg m' hm' rfl)

/-- C417 (partial) for a member recorded in a file of a pixel that it is not in, when the mock catalog has no galaxy of that pixel within an arcsecond: minus one. -/
theorem C417_lost (E : Env α) (f : PixFile α (CPay α) (MPay α)) (ht : E.hasTruth = true) (m : MRow (MPay α)) (hm : m ∈ (matchFile E f).mem)
    (hfar : ∀ t ∈ E.truth, E.pixOf t.pos = f.hpix → 1 / 3600 < E.dist m.pay.pos t.pos) : m.pay.zspec = -1 := by
  simp only [matchFile, ht, Bool.not_true, Bool.and_false, Bool.false_eq_true, if_false, if_true, setFile] at hm
  obtain ⟨m', hm', rfl⟩ := List.mem_map.mp hm
  rcases zOf_spec E.dist (1 / 3600) ((truthcat E f.hpix).map Truth.pos) ((truthcat E f.hpix).map Truth.ztrue) (by simp) m'.pay.pos with
    ⟨k, q, z, hq, hz, hd, hmin, h⟩ | ⟨_, h⟩
  · rw [List.getElem?_map, Option.map_eq_some_iff] at hq
    obtain ⟨s, hs, rfl⟩ := hq
    obtain ⟨h1, h2⟩ := List.mem_filter.mp (List.mem_of_getElem? hs)
    exact absurd hd (not_le.mpr (hfar s h1 (by simpa using h2)))
  · exact h

/-- Two pixels, left and right of zero; a cluster just left of the border with a member on either side. -/
def toyEnv (ms tr : Bool) : Env ℚ :=
  ⟨ms, tr, 1 / 100, [⟨-1, 0, 3 / 10, 1 / 1000⟩, ⟨1, 0, 4 / 10, 1 / 10⟩], [⟨(-1, 0), 31 / 100⟩, ⟨(1, 0), 32 / 100⟩],
    fun p q => |p.1 - q.1| + |p.2 - q.2|, fun p => if p.1 < 0 then 0 else 1⟩

def toyFile : PixFile ℚ (CPay ℚ) (MPay ℚ) :=
  ⟨0, [⟨7, 5, 0, 30, 1, 0, ⟨(-1, 0), 9, 3 / 10⟩⟩], [⟨7, ⟨(-1, 0), 8, 1⟩⟩, ⟨7, ⟨(1, 0), 8, 1 / 2⟩⟩]⟩

def toyCut : Cut ℚ (CPay ℚ) := ⟨fun _ => true, 20⟩

theorem toyEnv_good (ms tr : Bool) : GoodMock (toyEnv ms tr) := by
  refine ⟨fun p q => add_nonneg (abs_nonneg _) (abs_nonneg _), fun p q => ?_, ?_⟩
  · constructor
    · intro h
      have h1 := abs_nonneg (p.1 - q.1)
      have h2 := abs_nonneg (p.2 - q.2)
      have h' : |p.1 - q.1| + |p.2 - q.2| = 0 := h
      have e1 : |p.1 - q.1| = 0 := by linarith
      have e2 : |p.2 - q.2| = 0 := by linarith
      exact Prod.ext (sub_eq_zero.mp (abs_eq_zero.mp e1)) (sub_eq_zero.mp (abs_eq_zero.mp e2))
    · rintro rfl; simp [toyEnv]
  · intro t ht t' ht' h
    simp only [toyEnv, List.mem_cons, List.not_mem_nil, or_false] at ht ht'
    rcases ht with rfl | rfl <;> rcases ht' with rfl | rfl <;> first | rfl | (exfalso; revert h; decide +kernel)

theorem toy_run : run (toyEnv true true) (fun l => List.range l.length) false 1 20 [toyCut] [toyFile] =
    .ok [([⟨1, 5, 0, 30, 1, 0, ⟨(-1, 0), 31 / 100, 3 / 10⟩⟩], [⟨1, ⟨(-1, 0), 31 / 100, 1⟩⟩, ⟨1, ⟨(1, 0), -1, 1 / 2⟩⟩])] := by decide +kernel

/-- C417 is false: a member outside the pixel of its file gets minus one, although its galaxy is in the mock catalog. -/
theorem C417_false : ¬ ∀ (E : Env ℚ) (argsort : List ℚ → List Nat) (M L : ℚ) (cuts : List (Cut ℚ (CPay ℚ))) (files : List (PixFile ℚ (CPay ℚ) (MPay ℚ))) outs,
    E.hasTruth = true → GoodMock E → (∀ f ∈ files, ∀ c ∈ f.cat, c.pix = E.pixOf c.pay.pos) →
    run E argsort false M L cuts files = .ok outs → TrueRedshifts E outs := by
  intro h
  have := h (toyEnv true true) (fun l => List.range l.length) 1 20 [toyCut] [toyFile] _ rfl (toyEnv_good _ _) (by decide +kernel) toy_run
  have := (this _ List.mem_cons_self).2 ⟨1, ⟨(1, 0), -1, 1 / 2⟩⟩ (List.mem_cons_of_mem _ List.mem_cons_self) ⟨(1, 0), 32 / 100⟩ (by simp [toyEnv]) rfl
  norm_num at this

/-! ## C418: without matching -/

omit [IsStrictOrderedRing α] in
/-- C418 (partial): a consolidation that is not to match spectra, of data without truth, leaves all columns as they are in the files. -/
theorem C418_partial (E : Env α) (hm : E.matchSpec = false) (ht : E.hasTruth = false) (argsort : List α → List Nat) (sel : Bool) (M L : α)
    (cuts : List (Cut α (CPay α))) (files : List (PixFile α (CPay α) (MPay α))) : run E argsort sel M L cuts files = task argsort sel M L cuts files := by
  unfold run
  congr 1
  conv_rhs => rw [← List.map_id files]
  apply List.map_congr_left
  intro f _
  simp [matchFile, hm, ht]

omit [IsStrictOrderedRing α] in
/-- C418 for the consolidation of a run on a catalog: with and without truth. -/
theorem C418_runcat (E : Env α) (hm : E.matchSpec = false) (files : List (PixFile α (CPay α) (MPay α))) : runcat E files = runcatTask files := by
  unfold runcat
  congr 1
  conv_rhs => rw [← List.map_id files]
  apply List.map_congr_left
  intro f _
  simp [runcatMatch, hm]

/-- C418 is false of the consolidation of a cluster finder run on a mock catalog: it matches even when told not to. -/
theorem C418_false : ¬ ∀ (E : Env ℚ) (argsort : List ℚ → List Nat) (M L : ℚ) (cuts : List (Cut ℚ (CPay ℚ))) (files : List (PixFile ℚ (CPay ℚ) (MPay ℚ))),
    E.matchSpec = false → run E argsort false M L cuts files = task argsort false M L cuts files := by
  intro h
  have := h (toyEnv false true) (fun l => List.range l.length) 1 20 [toyCut] [toyFile] rfl
  revert this
  decide +kernel

/-- The hypotheses of C416 are met with a good spectrum, a spectrum that is not good, and two members. -/
example : run (toyEnv true false) (fun l => List.range l.length) false 1 20 [toyCut] [toyFile] =
    .ok [([⟨1, 5, 0, 30, 1, 0, ⟨(-1, 0), 3 / 10, 3 / 10⟩⟩], [⟨1, ⟨(-1, 0), 3 / 10, 1⟩⟩, ⟨1, ⟨(1, 0), -1, 1 / 2⟩⟩])] := by decide +kernel

/-- Those of `C417_partial` for the first member. -/
example : ∀ f ∈ [toyFile], ∀ r ∈ f.mem, r.pay.pos = (-1, 0) → (toyEnv true true).pixOf r.pay.pos = f.hpix := by decide +kernel

/-! ## C419: matching changes nothing else -/

section Natural

variable {α π π' μ μ' : Type} [Field α] [LinearOrder α]

/-- Change the columns of a cluster besides its own. -/
def mapC (g : π → π') (c : CRow α π) : CRow α π' := ⟨c.id, c.like, c.maskfrac, c.Lambda, c.scaleval, c.pix, g c.pay⟩

def mapM (h : μ → μ') (m : MRow μ) : MRow μ' := ⟨m.id, h m.pay⟩

def mapF (g : π → π') (h : μ → μ') (f : PixFile α π μ) : PixFile α π' μ' := ⟨f.hpix, f.cat.map (mapC g), f.mem.map (mapM h)⟩

/-- One output with changed columns. -/
def mapO (g : π → π') (h : μ → μ') (o : List (CRow α π) × List (MRow μ)) : List (CRow α π') × List (MRow μ') :=
  (o.1.map (mapC g), o.2.map (mapM h))

def mapT (g : π → π') (h : μ → μ') (t : TPart α π μ) : TPart α π' μ' := ⟨t.cat.map (mapC g), t.mem.map (mapM h), t.cuts.map (mapO g h)⟩

omit [Field α] [LinearOrder α] in
theorem map_ids (g : π → π') (l : List (CRow α π)) : (l.map (mapC g)).map CRow.id = l.map CRow.id := by
  rw [List.map_map]; rfl

theorem map_mids (h : μ → μ') (l : List (MRow μ)) : (l.map (mapM h)).map MRow.id = l.map MRow.id := by
  rw [List.map_map]; rfl

theorem relabel_map (h : μ → μ') (o n : List Int) (mem : List (MRow μ)) :
    relabel o n (mem.map (mapM h)) = (relabel o n mem).map (List.map (mapM h)) := by
  unfold relabel
  rw [map_mids]
  cases esMatch o (mem.map MRow.id) with
  | error e => rfl
  | ok ps =>
    simp only [Except.map, Except.ok.injEq]
    rw [List.map_filterMap]
    apply List.filterMap_congr
    intro p _
    rw [List.getElem?_map]
    cases mem[p.2]? <;> cases n[p.1]? <;> rfl

omit [Field α] [LinearOrder α] in
theorem setIds_mapC (g : π → π') (cat : List (CRow α π)) (ids : List Int) : setIds (cat.map (mapC g)) ids = (setIds cat ids).map (mapC g) := by
  unfold setIds
  rw [List.zipWith_map_left, List.map_zipWith]
  rfl

omit [LinearOrder α] in
theorem cutRichness_map (g : π → π') (sel : Bool) (full use : List (CRow α π)) :
    cutRichness sel (full.map (mapC g)) (use.map (mapC g)) = cutRichness sel full use := by
  unfold cutRichness
  rw [List.length_map, List.length_map, List.zipWith_map_left, List.map_map, List.map_map]
  rfl

theorem cutPart_map (g : π → π') (h : μ → μ') (vl : π → Bool) (vl' : π' → Bool) (hv : ∀ p, vl' (g p) = vl p) (ml : α) (rich : List α)
    (cat : List (CRow α π)) (mem : List (MRow μ)) :
    cutPart vl' ml rich (cat.map (mapC g)) (mem.map (mapM h)) = (cutPart vl ml rich cat mem).map (mapO g h) := by
  unfold cutPart
  have e : (((cat.map (mapC g)).zip rich).filter fun x => vl' x.1.pay && decide (ml < x.2)).map Prod.fst =
      (((cat.zip rich).filter fun x => vl x.1.pay && decide (ml < x.2)).map Prod.fst).map (mapC g) := by
    rw [List.zip_map_left, List.filter_map, List.map_map, List.map_map]
    have : ((fun x : CRow α π' × α => vl' x.1.pay && decide (ml < x.2)) ∘ Prod.map (mapC g) id) = fun x => vl x.1.pay && decide (ml < x.2) := by
      funext x
      simp [mapC, hv]
    rw [this]
    rfl
  simp only [e, map_ids, map_mids, List.isEmpty_map]
  split
  · rfl
  · cases esMatch _ (mem.map MRow.id) with
    | error e => rfl
    | ok ps =>
      simp only [Except.map, mapO, Except.ok.injEq, Prod.mk.injEq, true_and]
      rw [List.map_filterMap]
      apply List.filterMap_congr
      intro p _
      rw [List.getElem?_map]

/-- The same cuts on changed columns. -/
def SameCuts (g : π → π') (cuts : List (Cut α π)) (cuts' : List (Cut α π')) : Prop :=
  List.Forall₂ (fun k k' => k.minlam = k'.minlam ∧ ∀ p, k'.vl (g p) = k.vl p) cuts cuts'

theorem cutParts_map (g : π → π') (h : μ → μ') {cuts : List (Cut α π)} {cuts' : List (Cut α π')} (hk : SameCuts g cuts cuts') (rich : List α)
    (cat : List (CRow α π)) (mem : List (MRow μ)) :
    cutParts cuts' rich (cat.map (mapC g)) (mem.map (mapM h)) = (cutParts cuts rich cat mem).map (List.map (mapO g h)) := by
  induction hk with
  | nil => rfl
  | cons hk hks ih =>
    unfold cutParts
    rw [← hk.1, cutPart_map g h _ _ hk.2]
    rw [ih]
    cases cutPart _ _ rich cat mem with
    | error e => rfl
    | ok p => cases cutParts _ rich cat mem <;> rfl

theorem taskFile_map (g : π → π') (h : μ → μ') (sel : Bool) (M L : α) {cuts : List (Cut α π)} {cuts' : List (Cut α π')} (hk : SameCuts g cuts cuts')
    (ctr : Nat) (f : PixFile α π μ) : taskFile sel M L cuts' ctr (mapF g h f) = (taskFile sel M L cuts ctr f).map (Option.map (mapT g h)) := by
  unfold taskFile
  have e : (mapF g h f).cat.filter (survives2 M L (mapF g h f).hpix) = (f.cat.filter (survives2 M L f.hpix)).map (mapC g) := by
    rw [mapF, List.filter_map]; rfl
  simp only [e, List.isEmpty_map, map_ids, List.length_map]
  split
  · rfl
  · rw [mapF]
    simp only [relabel_map, setIds_mapC, cutRichness_map]
    cases relabel _ _ f.mem with
    | error e => rfl
    | ok mem =>
      simp only [Except.map]
      cases cutRichness sel f.cat _ with
      | error e => rfl
      | ok rich =>
        simp only [cutParts_map g h hk]
        cases cutParts cuts rich _ mem <;> rfl

theorem taskLoop_map (g : π → π') (h : μ → μ') (sel : Bool) (M L : α) {cuts : List (Cut α π)} {cuts' : List (Cut α π')} (hk : SameCuts g cuts cuts') :
    ∀ (files : List (PixFile α π μ)) (ctr : Nat), taskLoop sel M L cuts' ctr (files.map (mapF g h)) = (taskLoop sel M L cuts ctr files).map (List.map (mapT g h)) := by
  intro files
  induction files with
  | nil => intro _; rfl
  | cons f fs ih =>
    intro ctr
    rw [List.map_cons]
    unfold taskLoop
    rw [taskFile_map g h sel M L hk]
    cases taskFile sel M L cuts ctr f with
    | error e => rfl
    | ok o =>
      cases o with
      | none => exact ih ctr
      | some p =>
        simp only [Except.map, Option.map_some]
        have : (mapT g h p).cat.length = p.cat.length := by simp [mapT]
        rw [this, ih]
        cases taskLoop sel M L cuts (ctr + p.cat.length) fs <;> rfl

theorem finalCut_map (g : π → π') (h : μ → μ') (ids : List Int) (o : List (CRow α π) × List (MRow μ)) :
    finalCut ids (mapO g h o).1 (mapO g h o).2 = mapO g h (finalCut ids o.1 o.2) := by
  unfold finalCut mapO
  simp only [List.map_map, Prod.mk.injEq]
  constructor
  · apply List.map_congr_left
    intro c _
    simp only [Function.comp, mapC]
    by_cases hi : c.id ∈ ids
    · simp only [if_pos hi]; exact if_pos hi
    · simp only [if_neg hi]; exact if_neg hi
  · apply List.map_congr_left
    intro m _
    simp only [Function.comp, mapM]
    by_cases hi : m.id ∈ ids
    · simp only [if_pos hi]; exact if_pos hi
    · simp only [if_neg hi]; exact if_neg hi

/-- A consolidation treats the other columns alike. -/
theorem task_map (g : π → π') (h : μ → μ') (argsort : List α → List Nat) (sel : Bool) (M L : α) {cuts : List (Cut α π)} {cuts' : List (Cut α π')}
    (hk : SameCuts g cuts cuts') (files : List (PixFile α π μ)) :
    task argsort sel M L cuts' (files.map (mapF g h)) = (task argsort sel M L cuts files).map (List.map (mapO g h)) := by
  unfold task
  rw [taskLoop_map g h sel M L hk]
  cases taskLoop sel M L cuts 0 files with
  | error e => rfl
  | ok parts =>
    simp only [Except.map]
    have hlen : cuts'.length = cuts.length := hk.length_eq.symm
    have e1 : ((parts.map (mapT g h)).map TPart.cat).flatten = ((parts.map TPart.cat).flatten).map (mapC g) := by
      rw [List.map_flatten, List.map_map, List.map_map]; rfl
    have e2 : ((parts.map TPart.cat).flatten.map (mapC g)).map CRow.like = (parts.map TPart.cat).flatten.map CRow.like := by
      rw [List.map_map]; rfl
    have hg : ∀ (t : TPart α π μ) (k : Nat), (mapT g h t).cuts.getD k ([], []) = mapO g h (t.cuts.getD k ([], [])) := by
      intro t k
      rw [List.getD_eq_getElem?_getD, List.getD_eq_getElem?_getD, mapT]
      simp only [List.getElem?_map]
      cases t.cuts[k]? <;> rfl
    have e3 : (List.range cuts'.length).map (fun k =>
          (((parts.map (mapT g h)).map fun p => (p.cuts.getD k ([], [])).1).flatten, ((parts.map (mapT g h)).map fun p => (p.cuts.getD k ([], [])).2).flatten)) =
        ((List.range cuts.length).map fun k =>
          ((parts.map fun p => (p.cuts.getD k ([], [])).1).flatten, (parts.map fun p => (p.cuts.getD k ([], [])).2).flatten)).map (mapO g h) := by
      rw [hlen, List.map_map]
      apply List.map_congr_left
      intro k _
      simp only [Function.comp, mapO, List.map_flatten, List.map_map, Prod.mk.injEq]
      constructor
      · congr 1; apply List.map_congr_left; intro t _; simp only [Function.comp, hg]; rfl
      · congr 1; apply List.map_congr_left; intro t _; simp only [Function.comp, hg]; rfl
    rw [e1, map_ids, e2, e3]
    have e4 : ∀ os : List (List (CRow α π) × List (MRow μ)), ((os.map (mapO g h)).any fun o => o.1.isEmpty) = os.any fun o => o.1.isEmpty := by
      intro os
      rw [List.any_map]
      congr 1
      funext o
      simp [mapO]
    rw [e4]
    split
    · rfl
    · simp only [Except.map, Except.ok.injEq, List.map_map]
      apply List.map_congr_left
      intro o _
      exact finalCut_map g h _ _

end Natural

/-- A cluster or member without the redshift that matching writes. -/
def noSpecC (p : CPay α) : (α × α) × α := (p.pos, p.zlam)

def noSpecM (p : MPay α) : (α × α) × α := (p.pos, p.p)

omit [IsStrictOrderedRing α] in
theorem match_noSpec (E : Env α) (f : PixFile α (CPay α) (MPay α)) : mapF noSpecC noSpecM (matchFile E f) = mapF noSpecC noSpecM f := by
  have h : ∀ (r : α) pos zs (f : PixFile α (CPay α) (MPay α)), mapF noSpecC noSpecM (setFile E.dist r pos zs f) = mapF noSpecC noSpecM f := by
    intro r pos zs f
    unfold mapF setFile
    simp only [List.map_map]
    rfl
  unfold matchFile
  simp only
  split <;> split <;> simp only [h]

omit [IsStrictOrderedRing α] in
/-- C419: whatever is matched and to whatever, the consolidation fails or not as one without any matching does, and makes the same catalogs: the same
clusters and members in the same order with the same ids and columns besides the redshift that matching writes.  The cuts must not look at that
redshift. -/
theorem C419 (E : Env α) (argsort : List α → List Nat) (sel : Bool) (M L : α) (cuts : List (Cut α (CPay α)))
    (hvl : ∀ k ∈ cuts, ∀ p q : CPay α, p.pos = q.pos → p.zlam = q.zlam → k.vl p = k.vl q) (files : List (PixFile α (CPay α) (MPay α))) :
    (run E argsort sel M L cuts files).map (List.map fun o => (o.1.map (mapC noSpecC), o.2.map (mapM noSpecM))) =
      (task argsort sel M L cuts files).map (List.map fun o => (o.1.map (mapC noSpecC), o.2.map (mapM noSpecM))) := by
  have hk : SameCuts noSpecC cuts (cuts.map fun k => (⟨fun x => k.vl ⟨x.1, 0, x.2⟩, k.minlam⟩ : Cut α ((α × α) × α))) := by
    unfold SameCuts
    rw [List.forall₂_map_right_iff]
    apply List.forall₂_same.mpr
    intro k hk
    exact ⟨rfl, fun p => hvl k hk _ _ rfl rfl⟩
  unfold run
  refine (task_map noSpecC noSpecM argsort sel M L hk (files.map (matchFile E))).symm.trans (Eq.trans ?_ (task_map noSpecC noSpecM argsort sel M L hk files))
  rw [List.map_map]
  congr 1
  apply List.map_congr_left
  intro f _
  exact match_noSpec E f

omit [IsStrictOrderedRing α] in
/-- C419 for the consolidation of a run on a catalog. -/
theorem C419_runcat (E : Env α) (files : List (PixFile α (CPay α) (MPay α))) :
    ((runcat E files).1.map (mapC noSpecC), (runcat E files).2.map (mapM noSpecM)) =
      ((runcatTask files).1.map (mapC noSpecC), (runcatTask files).2.map (mapM noSpecM)) := by
  have hset : ∀ (r : α) pos zs (f : PixFile α (CPay α) (MPay α)), mapF noSpecC noSpecM (setFile E.dist r pos zs f) = mapF noSpecC noSpecM f := by
    intro r pos zs f
    unfold mapF setFile
    simp only [List.map_map]
    rfl
  have hm : ∀ f, mapF noSpecC noSpecM (runcatMatch E f) = mapF noSpecC noSpecM f := by
    intro f
    unfold runcatMatch
    simp only
    split <;> split <;> simp only [hset]
  have hr : ∀ fs : List (PixFile α (CPay α) (MPay α)), mapO noSpecC noSpecM (runcatTask fs) = runcatTask (fs.map (mapF noSpecC noSpecM)) := by
    intro fs
    induction fs with
    | nil => rfl
    | cons f fs ih =>
      rw [List.map_cons]
      unfold runcatTask
      have e : (mapF noSpecC noSpecM f).cat.filter (fun c => decide (c.pix = (mapF noSpecC noSpecM f).hpix)) =
          (f.cat.filter fun c => decide (c.pix = f.hpix)).map (mapC noSpecC) := by
        rw [mapF, List.filter_map]; rfl
      simp only [e, List.isEmpty_map]
      split
      · exact ih
      · rw [← ih]
        simp [mapO, mapF]
  show mapO noSpecC noSpecM (runcatTask (files.map (runcatMatch E))) = mapO noSpecC noSpecM (runcatTask files)
  rw [hr, hr, List.map_map]
  congr 1
  apply List.map_congr_left
  intro f _
  exact hm f

/-- The hypothesis of C419 for a volume limit, and catalogs that do differ in the redshift. -/
example : (∀ p q : CPay ℚ, p.pos = q.pos → p.zlam = q.zlam → (fun x : CPay ℚ => decide (x.zlam < 1 / 2)) p = (fun x : CPay ℚ => decide (x.zlam < 1 / 2)) q) ∧
    run (toyEnv true false) (fun l => List.range l.length) false 1 20 [toyCut] [toyFile] ≠
      run (toyEnv true true) (fun l => List.range l.length) false 1 20 [toyCut] [toyFile] := by
  refine ⟨fun p q _ h => by simp [h], by decide +kernel⟩

end Redmapper.ConsSpec
