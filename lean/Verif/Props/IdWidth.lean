/-
Properties C420 and C421: ids of clusters and random points in columns of 32 bits.
-/
import Verif.Model.IdWidth
import Verif.Props.Runner
import Mathlib.Tactic

namespace Redmapper.IdWidth

open Redmapper.Runner

theorem i4_id {x : Int} (h0 : -2147483648 ≤ x) (h1 : x < 2147483648) : i4 x = x := by
  unfold i4
  norm_num
  omega

theorem i4_range (x : Int) : -2147483648 ≤ i4 x ∧ i4 x < 2147483648 := by
  unfold i4
  norm_num
  omega

theorem i4_eq_iff (x y : Int) : i4 x = i4 y ↔ ∃ k : Int, x - y = 4294967296 * k := by
  unfold i4
  norm_num
  constructor
  · intro h
    exact ⟨(x + 2147483648) / 4294967296 - (y + 2147483648) / 4294967296, by omega⟩
  · rintro ⟨k, hk⟩
    have : x = y + 4294967296 * k := by omega
    subst this
    omega

/-! ## C420: members are found under the id of their cluster -/

variable {α σ : Type} [Field α] [LinearOrder α] [IsStrictOrderedRing α]

/-- Galaxies recorded under an id. -/
def under (ms : List (Member α)) (i : Int) : List Nat := (ms.filter fun m => decide (m.id = i)).map Member.gid

/-- C420: a run succeeds, keeps the clusters that are rich enough, and the galaxies recorded under the id of each are those of the cluster; every
member is recorded under the id of a cluster that is kept. -/
def Found (E : Env α σ) (dm rc : Bool) (sig : σ) (ml : α) (cs : List (Cluster α)) : Prop :=
  ∀ ms, members (loop1 E dm rc sig cs).2 = some ms → ∃ cat ms', run E dm rc sig ml cs = .ok (cat, some ms') ∧
    cat = ((loop1 E dm rc sig cs).2.filter fun o => decide (ml ≤ o.c.Lambda)).map Out.c ∧
    (∀ o ∈ (loop1 E dm rc sig cs).2, ml ≤ o.c.Lambda → under ms' o.c.id = (o.mem.getD []).map Member.gid) ∧
    ∀ m ∈ ms', ∃ c ∈ cat, c.id = m.id

theorem store_id {m : Member α} (h0 : -2147483648 ≤ m.id) (h1 : m.id < 2147483648) : store m = m := by
  unfold store
  rw [i4_id h0 h1]

/-- C420 (partial): for catalogs with different ids of 32 bits. -/
theorem C420_partial (E : Env α σ) (dm rc : Bool) (sig : σ) (ml : α) (cs : List (Cluster α)) (hn : (cs.map Cluster.id).Nodup)
    (hw : ∀ c ∈ cs, -2147483648 ≤ c.id ∧ c.id < 2147483648) : Found E dm rc sig ml cs := by
  classical
  intro ms hm
  have hids : (loop1 E dm rc sig cs).2.map (fun o => o.c.id) = cs.map Cluster.id := pass_ids E dm rc _ cs
  have hwo : ∀ o ∈ (loop1 E dm rc sig cs).2, -2147483648 ≤ o.c.id ∧ o.c.id < 2147483648 := by
    intro o ho
    have : o.c.id ∈ cs.map Cluster.id := by rw [← hids]; exact List.mem_map.mpr ⟨o, ho, rfl⟩
    obtain ⟨c, hc, hci⟩ := List.mem_map.mp this
    rw [← hci]; exact hw c hc
  have hmid : ∀ o ∈ (loop1 E dm rc sig cs).2, ∀ m ∈ o.mem.getD [], m.id = o.c.id := by
    intro o ho m hmm
    cases hom : o.mem with
    | none => simp [hom] at hmm
    | some l => rw [hom] at hmm; exact pass_mem_id E dm rc _ cs o ho l hom m hmm
  have hfm : ∀ m ∈ ms, ∃ o ∈ (loop1 E dm rc sig cs).2, m ∈ o.mem.getD [] := by
    intro m hmm
    unfold members at hm
    simp only at hm
    split_ifs at hm
    cases hm
    obtain ⟨l, hl, hml⟩ := List.mem_flatten.mp hmm
    obtain ⟨o, ho, hol⟩ := List.mem_filterMap.mp hl
    exact ⟨o, ho, by rw [hol]; exact hml⟩
  have hst : ms.map store = ms := by
    conv_rhs => rw [← List.map_id ms]
    apply List.map_congr_left
    intro m hmm
    obtain ⟨o, ho, hmo⟩ := hfm m hmm
    have := hmid o ho m hmo
    have hb := hwo o ho
    exact store_id (by rw [this]; exact hb.1) (by rw [this]; exact hb.2)
  have hrun : run E dm rc sig ml cs = postprocess ml ((loop1 E dm rc sig cs).2.map Out.c) (some ms) := by
    unfold run
    simp only [hm, Option.map_some, hst]
  refine ⟨_, _, hrun.trans (C12_run E dm rc sig ml cs hn ms hm), rfl, ?_, ?_⟩
  · intro o ho hk
    have hnd : ((loop1 E dm rc sig cs).2.map fun o => o.c.id).Nodup := hids ▸ hn
    have key : ∀ l : List (Out α), l.Sublist (loop1 E dm rc sig cs).2 →
        under (((l.filter fun o => decide (ml ≤ o.c.Lambda)).map fun o => o.mem.getD []).flatten) o.c.id =
          if o ∈ l then (o.mem.getD []).map Member.gid else [] := by
      intro l
      induction l with
      | nil => intro _; simp [under]
      | cons a t ih =>
        intro hl
        have ha : a ∈ (loop1 E dm rc sig cs).2 := hl.subset List.mem_cons_self
        have ht := ih ((List.sublist_cons_self a t).trans hl)
        have hnda : ((a :: t).map fun o => o.c.id).Nodup := hnd.sublist (hl.map _)
        by_cases hao : a.c.id = o.c.id
        · have hae : a = o := List.inj_on_of_nodup_map hnd ha ho hao
          subst hae
          have hnt : a ∉ t := by
            intro h
            rw [List.map_cons, List.nodup_cons] at hnda
            exact hnda.1 (List.mem_map.mpr ⟨a, h, rfl⟩)
          rw [if_neg hnt] at ht
          rw [List.filter_cons_of_pos (by simpa using hk), List.map_cons, List.flatten_cons, if_pos List.mem_cons_self]
          unfold under at ht ⊢
          rw [List.filter_append, List.map_append, ht, List.append_nil, List.filter_eq_self.mpr]
          intro m hmm
          simpa using hmid a ha m hmm
        · have hne : a ≠ o := fun h => hao (by rw [h])
          have hin : (o ∈ a :: t) ↔ o ∈ t := by
            constructor
            · intro h; rcases List.mem_cons.mp h with h | h
              · exact absurd h.symm hne
              · exact h
            · exact List.mem_cons_of_mem _
          simp only [hin]
          rw [← ht]
          by_cases hka : ml ≤ a.c.Lambda
          · rw [List.filter_cons_of_pos (by simpa using hka), List.map_cons, List.flatten_cons]
            unfold under
            rw [List.filter_append, List.map_append]
            have : (a.mem.getD []).filter (fun m => decide (m.id = o.c.id)) = [] := by
              rw [List.filter_eq_nil_iff]
              intro m hmm
              rw [hmid a ha m hmm]
              simpa using hao
            rw [this]; rfl
          · rw [List.filter_cons_of_neg (by simpa using hka)]
    rw [key _ (List.Sublist.refl _), if_pos ho]
  · intro m hmm
    obtain ⟨l, hl, hml⟩ := List.mem_flatten.mp hmm
    obtain ⟨o, ho, rfl⟩ := List.mem_map.mp hl
    exact ⟨o.c, List.mem_map.mpr ⟨o, ho, rfl⟩, (hmid o (List.mem_filter.mp ho).1 m hml).symm⟩

/-- Members of a cluster whose id does not fit are recorded under another id. -/
theorem C420_other (m : Member α) (h : m.id < -2147483648 ∨ 2147483648 ≤ m.id) : (store m).id ≠ m.id := by
  have := i4_range m.id
  show i4 m.id ≠ m.id
  omega

/-- Two clusters with different ids share members exactly if the ids differ by a multiple of 2^32. -/
theorem C420_shared (m m' : Member α) : (store m).id = (store m').id ↔ ∃ k : Int, m.id - m'.id = 4294967296 * k := i4_eq_iff m.id m'.id

/-- C420 is false: a cluster whose id does not fit into 32 bits has no members in the file of members. -/
theorem C420_false : ¬ ∀ cs : List (Cluster ℚ), (cs.map Cluster.id).Nodup → Found exEnv true true () 5 cs := by
  intro h
  have hs : (members (loop1 exEnv true true () [exCl 1, exCl 2147483648]).2).isSome = true := by decide +kernel
  obtain ⟨ms, hms⟩ := Option.isSome_iff_exists.mp hs
  obtain ⟨cat, ms', h2, _, h4, _⟩ := h [exCl 1, exCl 2147483648] (by decide +kernel) ms hms
  have e : (match run exEnv true true () 5 [exCl 1, exCl 2147483648] with | .ok (_, some ms') => under ms' 2147483648 | _ => [7]) = [] := by decide +kernel
  rw [h2] at e
  have ho : ∃ o ∈ (loop1 exEnv true true () [exCl 1, exCl 2147483648]).2, 5 ≤ o.c.Lambda ∧ o.c.id = 2147483648 ∧ (o.mem.getD []).map Member.gid = [100, 101] := by
    decide +kernel
  obtain ⟨o, ho, hl, hi, hg⟩ := ho
  have := h4 o ho hl
  rw [hi, hg] at this
  exact absurd (this.symm.trans e) (by decide)

/-- C420 is false also in that galaxies are recorded for clusters that they do not belong to: those of the cluster 2^32 + 1 for cluster 1. -/
theorem C420_mixed_false : (∀ c ∈ [exCl 1, exCl 4294967297], c.id ∈ [1, 4294967297]) ∧
    (loop1 exEnv true true () [exCl 1, exCl 4294967297]).2.map (fun o => (o.c.id, (o.mem.getD []).map Member.gid)) =
      [(1, [100, 101]), (4294967297, [100, 101])] ∧
    (match run exEnv true true () 5 [exCl 1, exCl 4294967297] with | .ok (cat, some ms') => (cat.map Cluster.id, under ms' 1, under ms' 4294967297) | _ => ([], [], [])) =
      ([1, 4294967297], [100, 101, 100, 101], []) := by
  decide +kernel

/-- The hypotheses of `C420_partial` are met by a catalog with the largest id that fits. -/
example : (([exCl 1, exCl 2147483647]).map Cluster.id).Nodup ∧ (∀ c ∈ [exCl 1, exCl 2147483647], -2147483648 ≤ c.id ∧ c.id < 2147483648) ∧
    (match run exEnv true true () 5 [exCl 1, exCl 2147483647] with | .ok (cat, some ms') => (cat.map Cluster.id, under ms' 1, under ms' 2147483647) | _ => ([], [], [])) =
      ([1, 2147483647], [100, 101], [100, 101]) := by
  decide +kernel

/-! ## C421: ids of random points -/

/-- C421: however the points are made in turns, the k-th has id k, counting from one. -/
def Numbered (chunks : List Nat) : Prop := (randIds 0 chunks).length = chunks.sum ∧ ∀ k : Nat, k < chunks.sum → (randIds 0 chunks)[k]? = some ((k : Int) + 1)

theorem randIds_get : ∀ (chunks : List Nat) (ctr : Nat), (randIds ctr chunks).length = chunks.sum ∧
    ∀ k : Nat, k < chunks.sum → (randIds ctr chunks)[k]? = some (i4 ((ctr : Int) + 1 + k)) := by
  intro chunks
  induction chunks with
  | nil => intro ctr; simp [randIds]
  | cons n ns ih =>
    intro ctr
    obtain ⟨h1, h2⟩ := ih (ctr + n)
    constructor
    · simp [randIds, h1]
    · intro k hk
      rw [List.sum_cons] at hk
      unfold randIds
      by_cases hkn : k < n
      · rw [List.getElem?_append_left (by simpa using hkn)]
        simp [hkn]
      · rw [List.getElem?_append_right (by simpa using hkn)]
        simp only [List.length_map, List.length_range]
        rw [h2 (k - n) (by omega)]
        congr 2
        push_cast
        omega

/-- C421 (partial): up to 2^31 - 1 points. -/
theorem C421_partial (chunks : List Nat) (h : chunks.sum < 2147483648) : Numbered chunks := by
  obtain ⟨h1, h2⟩ := randIds_get chunks 0
  refine ⟨h1, fun k hk => ?_⟩
  rw [h2 k hk, i4_id (by push_cast; omega) (by push_cast; omega)]
  congr 1
  push_cast
  omega

/-- C421 (partial): up to 2^32 points the ids are at least different. -/
theorem C421_distinct (chunks : List Nat) (h : chunks.sum ≤ 4294967296) : (randIds 0 chunks).Nodup := by
  obtain ⟨h1, h2⟩ := randIds_get chunks 0
  rw [List.nodup_iff_injective_getElem]
  intro a b hab
  have ha : a.1 < chunks.sum := h1 ▸ a.2
  have hb : b.1 < chunks.sum := h1 ▸ b.2
  have e1 := List.getElem?_eq_getElem a.2
  have e2 := List.getElem?_eq_getElem b.2
  rw [h2 _ ha] at e1
  rw [h2 _ hb] at e2
  have : i4 ((0 : Nat) + 1 + (a.1 : Int)) = i4 ((0 : Nat) + 1 + (b.1 : Int)) := by
    rw [Option.some.inj e1, Option.some.inj e2]; exact hab
  obtain ⟨k, hk⟩ := (i4_eq_iff _ _).mp this
  apply Fin.ext
  omega

/-- C421 is false for 2^31 points or more: an id is negative. -/
theorem C421_false (chunks : List Nat) (h : 2147483648 ≤ chunks.sum) : ¬ Numbered chunks := by
  rintro ⟨_, h2⟩
  have h3 := h2 2147483647 (by omega)
  rw [(randIds_get chunks 0).2 2147483647 (by omega)] at h3
  have := Option.some.inj h3
  revert this
  decide +kernel

/-- Three turns. -/
example : randIds 0 [2, 0, 3] = [1, 2, 3, 4, 5] := by decide +kernel

end Redmapper.IdWidth
