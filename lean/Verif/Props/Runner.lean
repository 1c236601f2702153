/-
Properties C09-C14 and C72, C73: the cluster loop.
-/
import Verif.Lemmas.Runner
import Mathlib.Algebra.Order.BigOperators.Group.List
import Mathlib.Data.Rat.Lemmas
import Mathlib.Algebra.Order.Ring.Rat
import Mathlib.Tactic.Ring
import Mathlib.Tactic.Linarith
import Mathlib.Tactic.NormNum

set_option linter.unusedSectionVars false

namespace Redmapper.Runner

variable {α σ : Type} [Field α] [LinearOrder α] [IsStrictOrderedRing α]

/-! ## Specification -/

/-- Availability of galaxy `i` after the clusters `cs` have been processed. -/
def avail (E : Env α σ) (rc : Bool) (sig : σ) (cs : List (Cluster α)) (i : Nat) : α :=
  1 - (loop1 E true rc sig cs).1.pgal i

/-- What one processed cluster takes from galaxy `i`, read off its final neighbour list: the raw
membership probability of the neighbour with catalog row `i`, provided the cluster was good and
the neighbour is brighter than the limit, inside the masking radius and has `p > 0`. -/
def taken (E : Env α σ) (o : Out α) (i : Nat) : α :=
  if o.good then
    match o.c.rMask with
    | none => 0
    | some rm =>
      match (o.nbrs.filter fun n => n.index = i ∧ n.refmag < E.maskLim o.c.redshift ∧
          n.r < rm ∧ 0 < n.p).getLast? with
      | none => 0
      | some n => n.p
  else 0

/-- The neighbours handed to the processing step in state `s`: the cluster's neighbours with their
current availability. -/
def offered (E : Env α σ) (dm : Bool) (s : St α σ) (c : Cluster α) : List (Nbr α) :=
  (E.neighbors c).map fun n => { n with pfree := if dm then 1 - s.pgal n.index else 1 }

/-- A cluster is rejected in state `s`: no neighbours, fully masked or depthless, or rejected by the
processing step on exactly the inputs the loop gives it. -/
def Rejected (E : Env α σ) (dm : Bool) (s : St α σ) (c : Cluster α) : Prop :=
  E.neighbors c = [] ∨
  (let d := E.depth (E.sample s.sig) c (offered E dm s c)
   d.2.2 = 1 ∨ d.2.1 ≤ 1 ∨
     (E.process d.1 { c with limmag := d.2.1, maskfrac := d.2.2 } (offered E dm s c)).2.1 = true)

theorem stepC_rejected (E : Env α σ) (dm rc : Bool) (s : St α σ) (c : Cluster α)
    (h : Rejected E dm s c) :
    ∃ s' c' nb, stepC E dm rc s c =
      ({ s with sig := s' }, ⟨resetBad c', nb, false, none⟩) := by
  by_cases h0 : (E.neighbors c).isEmpty = true
  · refine ⟨E.sample s.sig, c, [], ?_⟩
    unfold stepC; simp only; rw [if_pos h0]
  · have h' := h.resolve_left (by simpa using h0)
    unfold offered at h'
    simp only at h'
    unfold stepC
    simp only
    rw [if_neg h0]
    by_cases h1 : (E.depth (E.sample s.sig) c ((E.neighbors c).map fun n =>
          { n with pfree := if dm then 1 - s.pgal n.index else 1 })).2.2 = 1 ∨
        (E.depth (E.sample s.sig) c ((E.neighbors c).map fun n =>
          { n with pfree := if dm then 1 - s.pgal n.index else 1 })).2.1 ≤ 1
    · rw [if_pos h1]; exact ⟨_, _, _, rfl⟩
    · rw [if_neg h1]
      have h2 := (h'.resolve_left (fun a => h1 (Or.inl a))).resolve_left (fun a => h1 (Or.inr a))
      rw [if_pos h2]; exact ⟨_, _, _, rfl⟩

theorem stepC_accepted' (E : Env α σ) (dm rc : Bool) (s : St α σ) (c : Cluster α)
    (h : ¬ Rejected E dm s c) :
    ∃ (c3 : Cluster α) (nb2 : List (Nbr α)) (s' : σ), stepC E dm rc s c =
      ({ pgal := if dm = true then addMask E c3 nb2 s.pgal else s.pgal, sig := s' },
       { c := (if dm = true then { c3 with rMask := rmask E c3 } else c3),
         nbrs := nb2.map (zeroPfree E (if dm = true then { c3 with rMask := rmask E c3 } else c3)),
         good := true,
         mem := if rc then some (memberRows
            (if dm = true then { c3 with rMask := rmask E c3 } else c3)
            (nb2.map (zeroPfree E (if dm = true then { c3 with rMask := rmask E c3 } else c3))))
          else none }) ∧
      nb2.map Nbr.index = (E.neighbors c).map Nbr.index ∧
      (∀ n ∈ nb2, n.pfree = if dm then 1 - s.pgal n.index else 1) := by
  have h0 : ¬ (E.neighbors c).isEmpty = true := fun a => h (Or.inl (by simpa using a))
  have h1 : ¬ ((E.depth (E.sample s.sig) c (offered E dm s c)).2.2 = 1 ∨
      (E.depth (E.sample s.sig) c (offered E dm s c)).2.1 ≤ 1) := by
    rintro (a | a)
    · exact h (Or.inr (Or.inl a))
    · exact h (Or.inr (Or.inr (Or.inl a)))
  have h2 := fun a => h (Or.inr (Or.inr (Or.inr a)))
  unfold offered at h1 h2
  unfold stepC
  simp only
  rw [if_neg h0, if_neg h1, if_neg h2]
  refine ⟨_, _, _, rfl, ?_, ?_⟩
  · unfold applyUpd
    apply List.ext_getElem
    · simp
    · intro k h1 h2; simp
  · unfold applyUpd
    intro n hn
    obtain ⟨k, hk, rfl⟩ := List.mem_iff_getElem.mp hn
    simp

theorem stepC_accepted (E : Env α σ) (dm rc : Bool) (s : St α σ) (c : Cluster α)
    (h : ¬ Rejected E dm s c) :
    ∃ (c3 : Cluster α) (nb2 : List (Nbr α)) (s' : σ), stepC E dm rc s c =
      ({ pgal := if dm = true then addMask E c3 nb2 s.pgal else s.pgal, sig := s' },
       { c := (if dm = true then { c3 with rMask := rmask E c3 } else c3),
         nbrs := nb2.map (zeroPfree E (if dm = true then { c3 with rMask := rmask E c3 } else c3)),
         good := true,
         mem := if rc then some (memberRows
            (if dm = true then { c3 with rMask := rmask E c3 } else c3)
            (nb2.map (zeroPfree E (if dm = true then { c3 with rMask := rmask E c3 } else c3))))
          else none }) := by
  obtain ⟨c3, nb2, s', e, _⟩ := stepC_accepted' E dm rc s c h
  exact ⟨c3, nb2, s', e⟩

theorem addMask_local (E : Env α σ) (c : Cluster α) (ns : List (Nbr α)) (p p' : Nat → α) (i : Nat)
    (h : p i = p' i) : addMask E c ns p i = addMask E c ns p' i := by
  unfold addMask
  split
  · exact h
  · rw [h]

theorem stepC_local (E : Env α σ) (dm rc : Bool) (s s' : St α σ) (c : Cluster α)
    (hsig : s.sig = s'.sig) (hag : ∀ n ∈ E.neighbors c, s.pgal n.index = s'.pgal n.index) :
    (stepC E dm rc s c).2 = (stepC E dm rc s' c).2 ∧
    (stepC E dm rc s c).1.sig = (stepC E dm rc s' c).1.sig ∧
    ∀ i, s.pgal i = s'.pgal i → (stepC E dm rc s c).1.pgal i = (stepC E dm rc s' c).1.pgal i := by
  have hnb : ((E.neighbors c).map fun n =>
        ({ n with pfree := if dm then 1 - s.pgal n.index else 1 } : Nbr α)) =
      (E.neighbors c).map fun n => { n with pfree := if dm then 1 - s'.pgal n.index else 1 } := by
    apply List.map_congr_left
    intro n hn
    rw [hag n hn]
  unfold stepC
  simp only
  rw [hnb, hsig]
  by_cases h0 : (E.neighbors c).isEmpty = true
  · rw [if_pos h0, if_pos h0]; exact ⟨rfl, rfl, fun i h => h⟩
  · rw [if_neg h0, if_neg h0]
    generalize E.depth (E.sample s'.sig) c _ = d
    by_cases h1 : d.2.2 = 1 ∨ d.2.1 ≤ 1
    · rw [if_pos h1, if_pos h1]; exact ⟨rfl, rfl, fun i h => h⟩
    · rw [if_neg h1, if_neg h1]
      generalize E.process d.1 _ _ = pr
      by_cases h2 : pr.2.1 = true
      · rw [if_pos h2, if_pos h2]; exact ⟨rfl, rfl, fun i h => h⟩
      · rw [if_neg h2, if_neg h2]
        refine ⟨rfl, rfl, fun i h => ?_⟩
        simp only
        by_cases hd : dm = true
        · rw [if_pos hd, if_pos hd]; exact addMask_local E _ _ _ _ i h
        · rw [if_neg hd, if_neg hd]; exact h

/-! ### Lemmas relating one step to the specification -/

theorem filter_map_comm {β γ : Type} (f : β → γ) (q : γ → Bool) (l : List β) :
    (l.map f).filter q = (l.filter fun b => q (f b)).map f := by
  rw [List.filter_map]; rfl

theorem zeroPfree_fields (E : Env α σ) (c : Cluster α) (n : Nbr α) :
    (zeroPfree E c n).index = n.index ∧ (zeroPfree E c n).refmag = n.refmag ∧
    (zeroPfree E c n).r = n.r ∧ (zeroPfree E c n).p = n.p ∧ (zeroPfree E c n).gid = n.gid ∧
    (zeroPfree E c n).cand = n.cand ∧ (zeroPfree E c n).pmem = n.pmem := by
  unfold zeroPfree; split_ifs <;> simp

theorem addMask_eq (E : Env α σ) (c3 : Cluster α) (nb2 : List (Nbr α)) (pgal : Nat → α) (i : Nat)
    (mem : Option (List (Member α))) :
    addMask E c3 nb2 pgal i = pgal i + taken E
      { c := { c3 with rMask := rmask E c3 }, good := true, mem := mem,
        nbrs := nb2.map (zeroPfree E { c3 with rMask := rmask E c3 }) } i := by
  unfold addMask taken
  simp only [if_true]
  cases hr : rmask E c3 with
  | none =>
    have : nb2.filter (maskedNbr E c3) = [] := by
      rw [List.filter_eq_nil_iff]; intro n _; unfold maskedNbr; simp [hr]
    simp [this]
  | some rm =>
    simp only
    have e : (List.filter (fun n => decide (n.index = i ∧ n.refmag < E.maskLim c3.redshift ∧
        n.r < rm ∧ 0 < n.p)) (nb2.map (zeroPfree E { c3 with rMask := some rm }))) =
        ((nb2.filter (maskedNbr E c3)).filter fun n => decide (n.index = i)).map
          (zeroPfree E { c3 with rMask := some rm }) := by
      rw [filter_map_comm, List.filter_filter]
      congr 1
      apply List.filter_congr
      intro n _
      obtain ⟨h1, h2, h3, h4, _⟩ := zeroPfree_fields E { c3 with rMask := some rm } n
      rw [h1, h2, h3, h4]
      unfold maskedNbr
      simp [hr, Bool.decide_and, Bool.and_assoc]
    rw [e, List.getLast?_map]
    cases ((nb2.filter (maskedNbr E c3)).filter fun n => decide (n.index = i)).getLast? with
    | none => simp
    | some n =>
      simp only [Option.map_some]
      rw [(zeroPfree_fields E { c3 with rMask := some rm } n).2.2.2.1]

theorem step_accounting (E : Env α σ) (rc : Bool) (s : St α σ) (c : Cluster α) (i : Nat) :
    (stepC E true rc s c).1.pgal i = s.pgal i + taken E (stepC E true rc s c).2 i := by
  by_cases h : Rejected E true s c
  · obtain ⟨s', c', nb, e⟩ := stepC_rejected E true rc s c h
    rw [e]; simp [taken]
  · obtain ⟨c3, nb2, s', e⟩ := stepC_accepted E true rc s c h
    rw [e]
    exact addMask_eq E c3 nb2 _ i _

theorem pass_accounting (E : Env α σ) (rc : Bool) (s : St α σ) (cs : List (Cluster α)) (i : Nat) :
    (pass E true rc s cs).1.pgal i =
      s.pgal i + ((pass E true rc s cs).2.map fun o => taken E o i).sum := by
  induction cs generalizing s with
  | nil => simp [pass]
  | cons c cs ih =>
    simp only [pass, List.map_cons, List.sum_cons]
    rw [ih, step_accounting]
    ring

theorem taken_nonneg (E : Env α σ) (o : Out α) (i : Nat) : 0 ≤ taken E o i := by
  unfold taken
  split_ifs
  · cases o.c.rMask with
    | none => exact le_refl _
    | some rm =>
      simp only
      split
      · exact le_refl _
      · rename_i n hn
        have := List.mem_of_getLast? hn
        simp only [List.mem_filter, decide_eq_true_eq] at this
        exact this.2.2.2.2.le
  · exact le_refl _

/-! ## C09: availability -/

/-- Full statement of the bound in C09. -/
def C09_bound_spec (E : Env α σ) (sig : σ) : Prop :=
  ∀ (rc : Bool) (cs : List (Cluster α)) (i : Nat), 0 ≤ avail E rc sig cs i ∧ avail E rc sig cs i ≤ 1

/-- Proved part of C09: the availability starts at 1, is 1 minus the membership probabilities
taken by the processed clusters, never increases when more clusters are processed, and is at
most 1.  Missing: the lower bound 0, which is false (`C09_overuse_false`). -/
theorem C09_availability_partial (E : Env α σ) (rc : Bool) (sig : σ) (cs cs' : List (Cluster α))
    (i : Nat) :
    avail E rc sig [] i = 1 ∧
    avail E rc sig cs i = 1 - ((loop1 E true rc sig cs).2.map fun o => taken E o i).sum ∧
    avail E rc sig (cs ++ cs') i ≤ avail E rc sig cs i ∧
    avail E rc sig cs i ≤ 1 := by
  have hacc : ∀ l, (loop1 E true rc sig l).1.pgal i =
      ((loop1 E true rc sig l).2.map fun o => taken E o i).sum := by
    intro l
    unfold loop1
    rw [pass_accounting]
    simp [initSt]
  have hnn : ∀ l : List (Out α), 0 ≤ (l.map fun o => taken E o i).sum := by
    intro l
    apply List.sum_nonneg
    intro x hx
    obtain ⟨o, _, rfl⟩ := List.mem_map.mp hx
    exact taken_nonneg E o i
  refine ⟨?_, ?_, ?_, ?_⟩
  · simp [avail, loop1, pass, initSt]
  · unfold avail; rw [hacc]
  · unfold avail
    rw [hacc, hacc]
    unfold loop1
    rw [pass_append]
    simp only [List.map_append, List.sum_append]
    linarith [hnn (pass E true rc (pass E true rc (initSt sig) cs).1 cs').2]
  · unfold avail
    rw [hacc]
    linarith [hnn (loop1 E true rc sig cs).2]

/-- The example environment: every cluster sees the same two galaxies, with membership
probability 9/10 and 3/10; clusters with id 3 are rejected; masking radius 1. -/
def exEnv : Env ℚ Unit where
  sample := id
  neighbors c := if c.id = 4 then [] else
    [⟨0, 100, 18, 1 / 10, 0, 0, 0, false⟩, ⟨1, 101, 19, 1 / 2, 0, 0, 0, false⟩]
  depth _ _ _ := ((), 22, 0)
  process _ c ns := ((), decide (c.id = 3),
    { c with Lambda := 20, LambdaE := 1, scaleval := 1, zLambda := 1 / 5, rLambda := 7 / 10 },
    fun i => if i = 0 then ⟨1 / 10, 9 / 10, (9 / 10) * (ns.getD 0 ⟨0, 0, 0, 0, 0, 0, 0, false⟩).pfree,
      false⟩ else ⟨1 / 2, 3 / 10, 3 / 10, true⟩)
  after _ c _ := ((), c.zLambda, c.zLambdaE, 0)
  rmaskRaw _ _ := some (1 / 2)
  maskLim _ := 20
  useMemradius := false
  useMemlum := false
  memradius := 1
  memLim _ := 20

def exCl (k : Int) : Cluster ℚ := ⟨k, 10, 0, 1, 0, 0, 1 / 5, 1, 0, 0, some 0⟩

/-- C09's lower bound is false: two clusters that both contain a galaxy with membership probability
0.9 leave it with availability -0.8. -/
theorem C09_overuse_false : ¬ C09_bound_spec exEnv () := by
  intro h
  have h1 := (h true [exCl 1, exCl 2] 0).1
  have h2 : avail exEnv true () [exCl 1, exCl 2] 0 = - (4 / 5) := by decide +kernel
  rw [h2] at h1
  norm_num at h1

/-! ## C10: causality -/

/-- The results of the first clusters do not depend on the clusters processed after them. -/
theorem C10_causality (E : Env α σ) (dm rc : Bool) (sig : σ) (cs cs' : List (Cluster α)) :
    (loop1 E dm rc sig (cs ++ cs')).2.take cs.length = (loop1 E dm rc sig cs).2 := by
  unfold loop1
  rw [pass_append]
  simp only
  rw [← pass_length E dm rc (initSt sig) cs, List.take_left]

/-- The same, pointwise: for two catalogs that agree up to position `k`, the recorded result of
cluster `k` (row, members, neighbours) is the same. -/
theorem C10_causality_at (E : Env α σ) (dm rc : Bool) (sig : σ) (cs cs' : List (Cluster α))
    (k : Nat) (hk : k < cs.length) (hk' : k < cs'.length)
    (h : cs.take (k + 1) = cs'.take (k + 1)) :
    (loop1 E dm rc sig cs).2[k]? = (loop1 E dm rc sig cs').2[k]? := by
  have key : ∀ l : List (Cluster α), k < l.length →
      (loop1 E dm rc sig l).2[k]? = (loop1 E dm rc sig (l.take (k + 1))).2[k]? := by
    intro l hl
    have := C10_causality E dm rc sig (l.take (k + 1)) (l.drop (k + 1))
    rw [List.take_append_drop] at this
    rw [← this, List.getElem?_take_of_lt]
    rw [List.length_take]; omega
  rw [key cs hk, key cs' hk', h]

/-! ## C11: cluster ids -/

/-- Full statement of C11: distinct ids in the output; ids that were already distinct are kept. -/
def C11_spec (ids : List Int) : Prop :=
  ∀ out, genIds ids = .ok out → out.Nodup ∧ (ids.Nodup → out = ids)

/-- Proved part of C11: whenever id generation succeeds the ids are distinct, one per cluster; ids
of a catalog with at least two clusters that were distinct are kept; all-equal ids become 1..n;
a mixture raises `RuntimeError`; an empty catalog raises `ValueError`.
Missing: a one-cluster catalog always gets id 1 (`C11_single_id_lost`). -/
theorem C11_ids_partial (ids : List Int) :
    (∀ out, genIds ids = .ok out → out.length = ids.length ∧ out.Nodup) ∧
    (2 ≤ ids.length → ids.Nodup → genIds ids = .ok ids) ∧
    (ids ≠ [] → (∀ x ∈ ids, ∀ y ∈ ids, x = y) →
      ∃ out, genIds ids = .ok out ∧ ∀ k : Nat, k < ids.length → out[k]? = some ((k : Int) + 1)) ∧
    (¬ ids.Nodup → ¬ (∀ x ∈ ids, ∀ y ∈ ids, x = y) → genIds ids = .error .runtimeError) ∧
    (ids = [] → genIds ids = .error .valueError) := by
  cases ids with
  | nil => simp [genIds]
  | cons a rest =>
    have hall : (∀ x ∈ a :: rest, ∀ y ∈ a :: rest, x = y) ↔ ∀ x ∈ rest, x = a := by
      constructor
      · intro h x hx; exact h x (List.mem_cons_of_mem _ hx) a List.mem_cons_self
      · intro h x hx y hy
        have hxa : x = a := by
          rcases List.mem_cons.mp hx with rfl | hx
          · rfl
          · exact h x hx
        have hya : y = a := by
          rcases List.mem_cons.mp hy with rfl | hy
          · rfl
          · exact h y hy
        rw [hxa, hya]
    refine ⟨?_, ?_, ?_, ?_, by simp⟩
    · intro out h
      simp only [genIds] at h
      split_ifs at h with h1 h2
      · cases h
        refine ⟨by simp, ?_⟩
        exact List.Nodup.map (fun x y hxy => by simpa using hxy) List.nodup_range
      · cases h
        exact ⟨rfl, (dedup_length_iff _).mp (not_not.mp h2)⟩
    · intro hlen hnd
      simp only [genIds]
      rw [if_neg, if_neg]
      · rw [not_not]; exact (dedup_length_iff _).mpr hnd
      · rw [min_eq_max_iff]
        intro h
        cases rest with
        | nil => simp at hlen
        | cons b rest =>
          have := h b List.mem_cons_self
          subst this
          simp at hnd
    · intro _ h
      rw [hall] at h
      refine ⟨_, by simp only [genIds]; rw [if_pos ((min_eq_max_iff _ _).mpr h)], ?_⟩
      intro k hk
      simp only [List.length_cons] at hk
      simp [hk]
    · intro hnd hne
      rw [hall] at hne
      simp only [genIds]
      rw [if_neg (fun h => hne ((min_eq_max_iff _ _).mp h)), if_pos]
      intro h
      exact hnd ((dedup_length_iff _).mp h)

/-- C11 is false for a one-cluster catalog: its pre-existing id is replaced by 1. -/
theorem C11_single_id_lost : ∃ ids : List Int, ids.Nodup ∧ ¬ C11_spec ids := by
  refine ⟨[42], by simp, ?_⟩
  intro h
  have := (h [1] (by decide)).2 (by simp)
  simp at this

/-! ## C12: catalog and members agree -/

/-- `_postprocess` on any catalog with distinct ids and any member list: the catalog keeps exactly
the clusters with `Lambda ≥ min_lambda` in order; the members kept are exactly those whose id is
the id of a kept cluster, in order. -/
theorem C12_postprocess (ml : α) (cat : List (Cluster α)) (ms : List (Member α))
    (hn : (cat.map Cluster.id).Nodup) :
    ∃ cat' ms', postprocess ml cat (some ms) = .ok (cat', some ms') ∧
      cat' = cat.filter (fun c => decide (ml ≤ c.Lambda)) ∧
      ms' = ms.filter (fun m => decide (∃ c ∈ cat, ml ≤ c.Lambda ∧ c.id = m.id)) := by
  refine ⟨_, _, postprocess_ok ml cat ms ?_, rfl, ?_⟩
  · exact hn.sublist (List.Sublist.map _ List.filter_sublist)
  · apply List.filter_congr
    intro m _
    rw [Bool.eq_iff_iff, List.contains_iff_mem]
    simp only [List.mem_map, List.mem_filter, decide_eq_true_eq]
    constructor
    · rintro ⟨c, ⟨h1, h2⟩, h3⟩; exact ⟨c, h1, h2, h3⟩
    · rintro ⟨c, h1, h2, h3⟩; exact ⟨c, ⟨h1, h2⟩, h3⟩

theorem C12_no_members (ml : α) (cat : List (Cluster α)) :
    postprocess ml cat none = .ok (cat.filter (fun c => decide (ml ≤ c.Lambda)), none) := rfl

/-- End to end: after a run over a catalog with distinct ids and post-processing, the members are
the concatenation, over the kept clusters in order, of what was recorded for each of them. -/
theorem C12_run (E : Env α σ) (dm rc : Bool) (sig : σ) (ml : α) (cs : List (Cluster α))
    (hn : (cs.map Cluster.id).Nodup) (ms : List (Member α))
    (hm : members (loop1 E dm rc sig cs).2 = some ms) :
    postprocess ml ((loop1 E dm rc sig cs).2.map Out.c) (some ms) =
      .ok ((((loop1 E dm rc sig cs).2.filter fun o => decide (ml ≤ o.c.Lambda)).map Out.c),
        some ((((loop1 E dm rc sig cs).2.filter fun o => decide (ml ≤ o.c.Lambda)).map
          fun o => o.mem.getD []).flatten)) := by
  set os := (loop1 E dm rc sig cs).2 with hos
  have hids : os.map (fun o => o.c.id) = cs.map Cluster.id := pass_ids E dm rc _ cs
  have hnd : ((os.map Out.c).map Cluster.id).Nodup := by
    rw [List.map_map]; exact hids ▸ hn
  have hnd' : (os.map (fun o => o.c.id)).Nodup := hids ▸ hn
  have hmid : ∀ o ∈ os, ∀ m ∈ o.mem.getD [], m.id = o.c.id := by
    intro o ho m hmm
    cases hom : o.mem with
    | none => simp [hom] at hmm
    | some l =>
      rw [hom] at hmm
      exact pass_mem_id E dm rc _ cs o ho l hom m hmm
  rw [postprocess_ok ml _ ms (hnd.sublist (List.Sublist.map _ List.filter_sublist))]
  have hfm : ms = (os.map fun o => o.mem.getD []).flatten := by
    unfold members at hm
    simp only at hm
    split_ifs at hm
    cases hm
    clear * -
    induction os with
    | nil => rfl
    | cons o os ih =>
      cases ho : o.mem with
      | none => simp [List.filterMap_cons, ho, ih]
      | some l => simp [List.filterMap_cons, ho, ih]
  have hcat : (os.map Out.c).filter (fun c => decide (ml ≤ c.Lambda)) =
      (os.filter fun o => decide (ml ≤ o.c.Lambda)).map Out.c := by
    rw [filter_map_comm]
  rw [hcat]
  congr 3
  rw [hfm]
  -- select members of kept clusters
  have key : ∀ l : List (Out α), (∀ o ∈ l, o ∈ os) →
      ((l.map fun o => o.mem.getD []).flatten).filter (fun m =>
        (((os.filter fun o => decide (ml ≤ o.c.Lambda)).map Out.c).map Cluster.id).contains m.id) =
      ((l.filter fun o => decide (ml ≤ o.c.Lambda)).map fun o => o.mem.getD []).flatten := by
    intro l
    induction l with
    | nil => intro _; rfl
    | cons o l ih =>
      intro hl
      have ho := hl o List.mem_cons_self
      rw [List.map_cons, List.flatten_cons, List.filter_append,
        ih (fun o' h' => hl o' (List.mem_cons_of_mem _ h'))]
      have hin : (((os.filter fun o => decide (ml ≤ o.c.Lambda)).map Out.c).map
          Cluster.id).contains o.c.id = decide (ml ≤ o.c.Lambda) := by
        rw [Bool.eq_iff_iff, List.contains_iff_mem, decide_eq_true_eq]
        simp only [List.mem_map, List.mem_filter, decide_eq_true_eq, exists_exists_and_eq_and]
        constructor
        · rintro ⟨o', ⟨h1, h2⟩, h3⟩
          have : o' = o := by
            exact List.inj_on_of_nodup_map hnd' h1 ho h3
          rw [← this]; exact h2
        · intro h; exact ⟨o, ⟨ho, h⟩, rfl⟩
      by_cases hk : ml ≤ o.c.Lambda
      · rw [List.filter_cons_of_pos (by simpa using hk), List.map_cons, List.flatten_cons]
        congr 1
        rw [List.filter_eq_self]
        intro m hmm
        rw [hmid o ho m hmm, hin]
        simpa using hk
      · rw [List.filter_cons_of_neg (by simpa using hk)]
        have : (o.mem.getD []).filter (fun m =>
            (((os.filter fun o => decide (ml ≤ o.c.Lambda)).map Out.c).map
              Cluster.id).contains m.id) = [] := by
          rw [List.filter_eq_nil_iff]
          intro m hmm
          rw [hmid o ho m hmm, hin]
          simpa using hk
        rw [this, List.nil_append]
  exact key os (fun _ h => h)

/-- Non-vacuity of C12: ids are distinct, four clusters, the rejected ones drop out. -/
example : ([exCl 1, exCl 3, exCl 4, exCl 2].map Cluster.id).Nodup ∧
    (members (loop1 exEnv true true () [exCl 1, exCl 3, exCl 4, exCl 2]).2).isSome = true ∧
    (match postprocess (5 : ℚ) ((loop1 exEnv true true () [exCl 1, exCl 3, exCl 4, exCl 2]).2.map Out.c)
        (members (loop1 exEnv true true () [exCl 1, exCl 3, exCl 4, exCl 2]).2) with
      | .ok (cat, some ms) => (cat.map Cluster.id, ms.map Member.id)
      | _ => ([], [])) = ([1, 2], [1, 1, 2, 2]) := by
  decide +kernel

/-! ## C13: rejected clusters -/

theorem C13_rejected (E : Env α σ) (dm rc : Bool) (sig : σ) (cs : List (Cluster α)) (c : Cluster α)
    (h : Rejected E dm (loop1 E dm rc sig cs).1 c) :
    ∃ o, (loop1 E dm rc sig (cs ++ [c])).2 = (loop1 E dm rc sig cs).2 ++ [o] ∧
      o.c.id = c.id ∧ o.c.Lambda = -1 ∧ o.c.LambdaE = -1 ∧ o.c.zLambda = -1 ∧
      o.c.zLambdaE = -1 ∧ o.c.scaleval = -1 ∧ o.mem = none ∧
      (loop1 E dm rc sig (cs ++ [c])).1.pgal = (loop1 E dm rc sig cs).1.pgal := by
  unfold loop1 at *
  rw [pass_append]
  simp only [pass]
  set s := (pass E dm rc (initSt sig) cs).1
  refine ⟨(stepC E dm rc s c).2, rfl, stepC_id E dm rc s c, ?_⟩
  obtain ⟨s', c', nb, e⟩ := stepC_rejected E dm rc s c h
  rw [e]
  simp [resetBad]

/-- Conversely, only a cluster that is not rejected records members or takes galaxies. -/
theorem C13_only_accepted_contribute (E : Env α σ) (dm rc : Bool) (s : St α σ) (c : Cluster α)
    (h : (stepC E dm rc s c).2.mem ≠ none ∨ (stepC E dm rc s c).1.pgal ≠ s.pgal) :
    ¬ Rejected E dm s c := by
  intro hr
  obtain ⟨s', c', nb, e⟩ := stepC_rejected E dm rc s c hr
  rw [e] at h
  simp at h

/-- Non-vacuity: in the example environment the third cluster is rejected by the processing step and
the fourth has no neighbours; both leave sentinel rows, the first two are kept. -/
example : Rejected exEnv true (loop1 exEnv true true () [exCl 1]).1 (exCl 3) ∧
    Rejected exEnv true (loop1 exEnv true true () [exCl 1]).1 (exCl 4) ∧
    ((loop1 exEnv true true () [exCl 1, exCl 3, exCl 4]).2.map fun o => o.c.Lambda) =
      [20, -1, -1] := by
  refine ⟨Or.inr (Or.inr (Or.inr ?_)), Or.inl rfl, by decide +kernel⟩
  decide +kernel

/-! ## C14: masking radius -/

theorem rmask_ge (E : Env α σ) (c3 : Cluster α) (rm : α) (hrm : rmask E c3 = some rm) :
    c3.rLambda ≤ rm := by
  unfold rmask at hrm
  cases hraw : E.rmaskRaw c3.Lambda c3.redshift with
  | none => simp [hraw] at hrm
  | some r =>
    simp only [hraw] at hrm
    split_ifs at hrm with hlt
    · cases hrm; exact le_refl _
    · cases hrm; exact not_lt.mp hlt

theorem good_rmask (E : Env α σ) (rc : Bool) (s : St α σ) (c : Cluster α) (rm : α)
    (hg : (stepC E true rc s c).2.good = true)
    (hrm : (stepC E true rc s c).2.c.rMask = some rm) :
    (stepC E true rc s c).2.c.rLambda ≤ rm := by
  by_cases hr : Rejected E true s c
  · obtain ⟨s', c', nb, e⟩ := stepC_rejected E true rc s c hr
    rw [e] at hg; simp at hg
  · obtain ⟨c3, nb2, s', e⟩ := stepC_accepted E true rc s c hr
    rw [e] at hrm ⊢
    exact rmask_ge E c3 rm hrm

/-- Whenever processing a cluster changes the availability of any galaxy, the cluster's masking
radius is set and is at least its richness radius. -/
theorem C14_mask_radius (E : Env α σ) (rc : Bool) (s : St α σ) (c : Cluster α) (i : Nat)
    (h : (stepC E true rc s c).1.pgal i ≠ s.pgal i) :
    ∃ rm, (stepC E true rc s c).2.c.rMask = some rm ∧ (stepC E true rc s c).2.c.rLambda ≤ rm := by
  have hacc := step_accounting E rc s c i
  have ht : taken E (stepC E true rc s c).2 i ≠ 0 := by
    intro h0; rw [h0, add_zero] at hacc; exact h hacc
  have hgood : (stepC E true rc s c).2.good = true := by
    by_contra hg; apply ht; unfold taken; simp [hg]
  cases hrm : (stepC E true rc s c).2.c.rMask with
  | none => exfalso; apply ht; unfold taken; simp [hrm]
  | some rm => exact ⟨rm, rfl, good_rmask E rc s c rm hgood hrm⟩

/-- Completeness of masking: every neighbour of a good cluster inside the richness radius, brighter
than the limit and with positive membership probability loses that probability (neighbour rows are
distinct galaxies), provided the masking radius is not NaN. -/
theorem C14_inside_is_masked (E : Env α σ) (rc : Bool) (s : St α σ) (c : Cluster α) (n : Nbr α)
    (hn : n ∈ (stepC E true rc s c).2.nbrs) (hg : (stepC E true rc s c).2.good = true)
    (hu : ((stepC E true rc s c).2.nbrs.map Nbr.index).Nodup)
    (hr : (stepC E true rc s c).2.c.rMask ≠ none)
    (hin : n.r < (stepC E true rc s c).2.c.rLambda)
    (hm : n.refmag < E.maskLim (stepC E true rc s c).2.c.redshift) (hp : 0 < n.p) :
    (stepC E true rc s c).1.pgal n.index = s.pgal n.index + n.p := by
  rw [step_accounting]
  congr 1
  obtain ⟨rm, hrm⟩ := Option.ne_none_iff_exists'.mp hr
  have hge := good_rmask E rc s c rm hg hrm
  generalize (stepC E true rc s c).2 = o at *
  unfold taken
  rw [if_pos hg, hrm]
  simp only
  have hmem : n ∈ o.nbrs.filter (fun m => decide (m.index = n.index ∧
      m.refmag < E.maskLim o.c.redshift ∧ m.r < rm ∧ 0 < m.p)) := by
    rw [List.mem_filter]
    exact ⟨hn, decide_eq_true ⟨rfl, hm, lt_of_lt_of_le hin hge, hp⟩⟩
  generalize hl : o.nbrs.filter (fun m => decide (m.index = n.index ∧
      m.refmag < E.maskLim o.c.redshift ∧ m.r < rm ∧ 0 < m.p)) = l at *
  have hall : ∀ m ∈ l, m = n := by
    intro m hm'
    rw [← hl, List.mem_filter, decide_eq_true_eq] at hm'
    exact List.inj_on_of_nodup_map hu hm'.1 hn hm'.2.1
  have hne : l ≠ [] := List.ne_nil_of_mem hmem
  rw [List.getLast?_eq_some_getLast hne, hall _ (List.getLast_mem hne)]

/-- Non-vacuity of C14: the first cluster of the example masks both its neighbours, with the raw
masking radius 1/2 raised to the richness radius 7/10. -/
example : (stepC exEnv true true (initSt ()) (exCl 1)).1.pgal 1 = 3 / 10 ∧
    (stepC exEnv true true (initSt ()) (exCl 1)).2.c.rMask = some (7 / 10) ∧
    ((stepC exEnv true true (initSt ()) (exCl 1)).2.nbrs.map Nbr.index).Nodup := by
  decide +kernel

/-! ## C72: locality -/

/-- Two states that agree on the availability of every neighbour of every cluster in `cs` give the
same results. -/
theorem pass_local (E : Env α σ) (dm rc : Bool) (cs : List (Cluster α)) :
    ∀ (s s' : St α σ), s.sig = s'.sig →
      (∀ c ∈ cs, ∀ n ∈ E.neighbors c, s.pgal n.index = s'.pgal n.index) →
      (pass E dm rc s cs).2 = (pass E dm rc s' cs).2 := by
  induction cs with
  | nil => intro s s' _ _; rfl
  | cons c cs ih =>
    intro s s' hsig hag
    obtain ⟨hout, hsig', hpg⟩ := stepC_local E dm rc s s' c hsig
      (fun n hn => hag c List.mem_cons_self n hn)
    simp only [pass]
    rw [hout, ih (stepC E dm rc s c).1 (stepC E dm rc s' c).1 hsig']
    intro c' hc' n hn
    exact hpg n.index (hag c' (List.mem_cons_of_mem _ hc') n hn)

/-- Taking a cluster out of the catalog that takes nothing from the neighbours of the clusters after
it leaves the results of all other clusters unchanged (when no hidden state is carried from cluster to
cluster). -/
theorem C72_locality (E : Env α Unit) (rc : Bool) (pre post : List (Cluster α)) (x : Cluster α)
    (h : ∀ c ∈ post, ∀ n ∈ E.neighbors c,
      taken E (stepC E true rc (loop1 E true rc () pre).1 x).2 n.index = 0) :
    ∃ o, (loop1 E true rc () (pre ++ x :: post)).2 =
        (loop1 E true rc () pre).2 ++ o :: (loop1 E true rc () (pre ++ post)).2.drop pre.length := by
  unfold loop1 at *
  rw [pass_append, pass_append]
  refine ⟨(stepC E true rc (pass E true rc (initSt ()) pre).1 x).2, ?_⟩
  simp only [pass]
  congr 2
  rw [← pass_length E true rc (initSt ()) pre, List.drop_left]
  apply pass_local
  · rfl
  · intro c hc n hn
    rw [step_accounting, h c hc n hn, add_zero]

/-- Non-vacuity of C72: a rejected cluster takes nothing. -/
example : ∀ c ∈ [exCl 2], ∀ n ∈ exEnv.neighbors c,
    taken exEnv (stepC exEnv true true (loop1 exEnv true true () [exCl 1]).1 (exCl 3)).2 n.index = 0 := by
  decide +kernel

/-! ## C73: who is recorded as a member -/

/-- The membership rule: without radius or luminosity limits a galaxy needs total membership
probability above 1/100; with limits its raw probability must exceed 1/100 and it must satisfy every
limit that is switched on. -/
def qualifies (E : Env α σ) (c : Cluster α) (n : Nbr α) : Prop :=
  if E.useMemradius = false ∧ E.useMemlum = false then 1 / 100 < n.pmem
  else 1 / 100 < n.p ∧ (E.useMemradius = true → n.r < E.memradius * c.rLambda) ∧
    (E.useMemlum = true → n.refmag < E.memLim c.redshift)

instance (E : Env α σ) (c : Cluster α) (n : Nbr α) : Decidable (qualifies E c n) := by
  unfold qualifies; infer_instance

/-- The members recorded for an accepted cluster are exactly, in neighbour order, its neighbours that
qualify and are more than 1/100 free, plus the centering candidates; each row carries the cluster's
id and redshift; a galaxy that does not qualify has its free fraction recorded as 0. -/
theorem C73_members (E : Env α σ) (dm : Bool) (s : St α σ) (c : Cluster α)
    (h : ¬ Rejected E dm s c) :
    ∃ (nb : List (Nbr α)) (rows : List (Member α)),
      (stepC E dm true s c).2.mem = some rows ∧
      nb.map Nbr.index = (E.neighbors c).map Nbr.index ∧
      (∀ n ∈ nb, n.pfree = if dm then 1 - s.pgal n.index else 1) ∧
      rows.map Member.gid = (nb.filter fun n => decide
        ((qualifies E (stepC E dm true s c).2.c n ∧ 1 / 100 < n.pfree) ∨ n.cand = true)).map Nbr.gid ∧
      (∀ m ∈ rows, m.id = c.id ∧ m.z = (stepC E dm true s c).2.c.redshift) ∧
      (∀ m ∈ rows, ∃ n ∈ nb, m.gid = n.gid ∧ m.p = n.p ∧ m.r = n.r ∧
        (qualifies E (stepC E dm true s c).2.c n → m.pfree = n.pfree) ∧
        (¬ qualifies E (stepC E dm true s c).2.c n → m.pfree = 0)) := by
  obtain ⟨c3, nb2, s', e, hidx, hfree⟩ := stepC_accepted' E dm true s c h
  have hid : (stepC E dm true s c).2.c.id = c.id := stepC_id E dm true s c
  rw [e] at hid ⊢
  simp only at hid ⊢
  set c4 := (if dm = true then { c3 with rMask := rmask E c3 } else c3) with hc4
  have hq : ∀ n, memOk E c4 n = true ↔ qualifies E c4 n := by
    intro n
    unfold memOk qualifies
    cases E.useMemradius <;> cases E.useMemlum <;> simp [and_assoc]
  refine ⟨nb2, memberRows c4 (nb2.map (zeroPfree E c4)), by simp, hidx, hfree, ?_, ?_, ?_⟩
  · unfold memberRows
    rw [List.map_map, filter_map_comm, List.map_map]
    have : (nb2.filter fun n => decide (1 / 100 < (zeroPfree E c4 n).pfree) ||
        (zeroPfree E c4 n).cand) = nb2.filter fun n => decide
        ((qualifies E c4 n ∧ 1 / 100 < n.pfree) ∨ n.cand = true) := by
      apply List.filter_congr
      intro n _
      rw [Bool.eq_iff_iff, Bool.or_eq_true, decide_eq_true_eq, decide_eq_true_eq,
        (zeroPfree_fields E c4 n).2.2.2.2.2.1, ← hq]
      unfold zeroPfree
      by_cases hm : memOk E c4 n = true
      · simp [hm]
      · rw [if_neg hm]
        have h0 : ¬ ((1 : α) / 100 < 0) := not_lt.mpr (by positivity)
        simp [hm]
    rw [this]
    apply List.map_congr_left
    intro n _
    simp [(zeroPfree_fields E c4 n).2.2.2.2.1]
  · intro m hm
    unfold memberRows at hm
    obtain ⟨n, _, rfl⟩ := List.mem_map.mp hm
    exact ⟨hid, rfl⟩
  · intro m hm
    unfold memberRows at hm
    obtain ⟨n, hn, rfl⟩ := List.mem_map.mp hm
    obtain ⟨n0, hn0, rfl⟩ := List.mem_map.mp (List.mem_of_mem_filter hn)
    obtain ⟨h1, h2, h3, h4, h5, h6, h7⟩ := zeroPfree_fields E c4 n0
    refine ⟨n0, hn0, h5, h4, h3, ?_, ?_⟩
    · intro hqq; simp only; unfold zeroPfree; rw [if_pos ((hq n0).mpr hqq)]
    · intro hqq; simp only; unfold zeroPfree; rw [if_neg (fun a => hqq ((hq n0).mp a))]

/-- Non-vacuity of C73: the first example cluster records both galaxies; after it the galaxy 0 is only
1/10 free and still recorded by the second cluster with free fraction 1/10. -/
example : ((loop1 exEnv true true () [exCl 1, exCl 2]).2.map fun o =>
      (o.mem.getD []).map fun m => (m.id, m.gid, m.pfree)) =
    [[(1, 100, 1), (1, 101, 1)], [(2, 100, 1 / 10), (2, 101, 7 / 10)]] := by
  decide +kernel

end Redmapper.Runner
