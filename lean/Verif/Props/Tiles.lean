/-
Properties of a survey that is run tile by tile.
-/
import Verif.Model.Tiles
import Verif.Lemmas.Runner
import Verif.Props.Runner
import Verif.Props.Perc
import Verif.Props.PercRun
import Mathlib.Tactic

set_option linter.unusedSectionVars false

namespace Redmapper.Tiles

open Redmapper.Runner

variable {α : Type} [Field α] [LinearOrder α] [IsStrictOrderedRing α]

/-! ## A set of clusters that shares no galaxies with others -/

/-- The clusters of `S` have all their neighbours in the tile, are run in it, and share no neighbour with a cluster that is not in `S`. -/
structure Closed (E : Env α Unit) (t : Tile α) (cs : List (Cluster α)) (S : Cluster α → Bool) : Prop where
  cat : ∀ c ∈ cs, S c = true → t.cat c = true
  gals : ∀ c ∈ cs, S c = true → ∀ n ∈ E.neighbors c, t.gals n.index = true
  apart : ∀ c ∈ cs, S c = true → ∀ x ∈ cs, S x = false → ∀ n ∈ E.neighbors c, ∀ m ∈ E.neighbors x, n.index ≠ m.index

/-- A cluster changes nothing but its neighbours. -/
theorem step_far (E : Env α Unit) (rc : Bool) (s : St α Unit) (x : Cluster α) (i : Nat) (h : ∀ m ∈ E.neighbors x, i ≠ m.index) : (stepC E true rc s x).1.pgal i = s.pgal i := by
  rcases PercRun.step_state E true rc s x with ⟨_, h1, _⟩ | ⟨ns, d, hns, _, ⟨_, h1, _⟩ | ⟨pr, _, ⟨_, h1, _⟩ | ⟨_, _, c2, c3, _, _, _, _, h1⟩⟩⟩
  · rw [h1]
  · rw [h1]
  · rw [h1]
  · rw [h1]
    simp only [if_true]
    unfold addMask
    have : (((applyUpd pr.2.2.2 ns).filter (maskedNbr E c3)).filter fun n => decide (n.index = i)) = [] := by
      rw [List.filter_eq_nil_iff]
      intro m hm he
      have hm1 := List.mem_of_mem_filter hm
      unfold applyUpd at hm1
      obtain ⟨j, hj, rfl⟩ := List.mem_mapIdx.mp hm1
      have hmem : ns[j] ∈ ns := List.getElem_mem hj
      subst hns
      unfold offered at hmem
      obtain ⟨m0, hm0, e⟩ := List.mem_map.mp hmem
      refine h m0 hm0 ?_
      have e1 := congrArg Nbr.index e
      exact (of_decide_eq_true he).symm.trans e1.symm
    rw [this]
    rfl

/-- In a tile that has all its neighbours a cluster is processed as in the whole survey. -/
theorem step_same (E : Env α Unit) (t : Tile α) (rc : Bool) (s : St α Unit) (c : Cluster α) (h : ∀ n ∈ E.neighbors c, t.gals n.index = true) : stepC (tileEnv E t) true rc s c = stepC E true rc s c := by
  have hn : (tileEnv E t).neighbors c = E.neighbors c := by
    unfold tileEnv
    simp only
    exact List.filter_eq_self.mpr h
  unfold stepC
  rw [hn]
  rfl

theorem pass_same (E : Env α Unit) (t : Tile α) (rc : Bool) (S : Cluster α → Bool) (cs : List (Cluster α)) : Closed E t cs S → ∀ s s' : St α Unit,
    (∀ c ∈ cs, S c = true → ∀ n ∈ E.neighbors c, s.pgal n.index = s'.pgal n.index) →
    (cs.zip (pass E true rc s cs).2).filter (fun q => S q.1) = ((cs.filter t.cat).zip (pass (tileEnv E t) true rc s' (cs.filter t.cat)).2).filter fun q => S q.1 := by
  induction cs with
  | nil => intro _ s s' _; rfl
  | cons c cs ih =>
    intro hC s s' hs
    have hC' : Closed E t cs S := ⟨fun c hc => hC.cat c (List.mem_cons_of_mem _ hc), fun c hc => hC.gals c (List.mem_cons_of_mem _ hc),
      fun c hc h x hx => hC.apart c (List.mem_cons_of_mem _ hc) h x (List.mem_cons_of_mem _ hx)⟩
    by_cases hc : S c = true
    · have hcat := hC.cat c List.mem_cons_self hc
      have hg := hC.gals c List.mem_cons_self hc
      rw [List.filter_cons_of_pos hcat]
      simp only [pass, List.zip_cons_cons]
      rw [List.filter_cons, if_pos hc, List.filter_cons, if_pos hc, step_same E t rc s' c hg]
      obtain ⟨h1, _, h3⟩ := stepC_local E true rc s s' c rfl (fun n hn => hs c List.mem_cons_self hc n hn)
      rw [h1, ih hC' _ (stepC E true rc s' c).1 ?_]
      intro d hd hSd n hn
      exact h3 n.index (hs d (List.mem_cons_of_mem _ hd) hSd n hn)
    · have hcf : S c = false := Bool.eq_false_iff.mpr hc
      have hw : ∀ d ∈ cs, S d = true → ∀ n ∈ E.neighbors d, (stepC E true rc s c).1.pgal n.index = s.pgal n.index := by
        intro d hd hSd n hn
        exact step_far E rc s c n.index fun m hm => hC.apart d (List.mem_cons_of_mem _ hd) hSd c List.mem_cons_self hcf n hn m hm
      simp only [pass, List.zip_cons_cons]
      rw [List.filter_cons, if_neg hc]
      by_cases hcat : t.cat c = true
      · rw [List.filter_cons_of_pos hcat]
        simp only [pass, List.zip_cons_cons]
        rw [List.filter_cons, if_neg hc]
        refine ih hC' _ _ fun d hd hSd n hn => ?_
        rw [hw d hd hSd n hn, hs d (List.mem_cons_of_mem _ hd) hSd n hn]
        symm
        apply step_far
        intro m hm
        exact hC.apart d (List.mem_cons_of_mem _ hd) hSd c List.mem_cons_self hcf n hn m (List.mem_of_mem_filter hm)
      · rw [List.filter_cons_of_neg hcat]
        refine ih hC' _ _ fun d hd hSd n hn => ?_
        rw [hw d hd hSd n hn, hs d (List.mem_cons_of_mem _ hd) hSd n hn]

/-- C377: clusters that share no galaxies with any other cluster have in a tile, which has their galaxies, exactly the results that they have in a run of the whole survey. -/
theorem C377 (E : Env α Unit) (rc : Bool) (t : Tile α) (cs : List (Cluster α)) (S : Cluster α → Bool) (h : Closed E t cs S) :
    (cs.zip (whole E rc cs)).filter (fun q => S q.1) = ((cs.filter t.cat).zip (tileRun E rc t cs)).filter fun q => S q.1 :=
  pass_same E t rc S cs h _ _ fun _ _ _ _ _ => rfl

/-! ## C376: the catalog does not depend on the tiles -/

/-- C376 as one would state it: the consolidated catalog is the catalog of the whole survey. -/
def TilesOK (E : Env α Unit) (rc : Bool) (k : Cuts α) (ts : List (Tile α)) (cs : List (Cluster α)) : Prop :=
  (consolidated E rc k ts cs).Perm ((whole E rc cs).filter (sel k))

/-- What a user makes sure of: the pixels are different, every cluster is in one of them, and every tile reads all galaxies near the clusters that are run in it. -/
structure Bordered (E : Env α Unit) (rc : Bool) (k : Cuts α) (ts : List (Tile α)) (cs : List (Cluster α)) : Prop where
  pix : (ts.map Tile.pix).Nodup
  cover : ∀ o ∈ whole E rc cs, ∃ t ∈ ts, k.home o = t.pix
  run : ∀ t ∈ ts, ∀ q ∈ cs.zip (whole E rc cs), k.home q.2 = t.pix → t.cat q.1 = true
  gals : ∀ t ∈ ts, ∀ c ∈ cs, t.cat c = true → ∀ n ∈ E.neighbors c, t.gals n.index = true

/-- The tile has all clusters that are connected to those in its pixel by a chain of clusters that share galaxies. -/
def Chains (E : Env α Unit) (rc : Bool) (k : Cuts α) (t : Tile α) (cs : List (Cluster α)) : Prop :=
  ∃ S : Cluster α → Bool, Closed E t cs S ∧ (∀ q ∈ cs.zip (whole E rc cs), k.home q.2 = t.pix → S q.1 = true) ∧
    ∀ q ∈ (cs.filter t.cat).zip (tileRun E rc t cs), k.home q.2 = t.pix → S q.1 = true

theorem filter_snd {β γ : Type} (S : β → Bool) (p : γ → Bool) (l : List (β × γ)) (h : ∀ q ∈ l, p q.2 = true → S q.1 = true) :
    (l.map Prod.snd).filter p = ((l.filter fun q => S q.1).map Prod.snd).filter p := by
  induction l with
  | nil => rfl
  | cons q l ih =>
    have ih := ih fun q hq => h q (List.mem_cons_of_mem _ hq)
    simp only [List.map_cons]
    by_cases hp : p q.2 = true
    · rw [List.filter_cons_of_pos hp, ih, List.filter_cons (xs := l) (x := q), if_pos (h q List.mem_cons_self hp), List.map_cons, List.filter_cons_of_pos hp]
    · rw [List.filter_cons_of_neg hp, ih]
      by_cases hS : S q.1 = true
      · rw [List.filter_cons (xs := l) (x := q), if_pos hS, List.map_cons, List.filter_cons_of_neg hp]
      · rw [List.filter_cons (xs := l) (x := q), if_neg hS]

/-- The share of a tile is what the whole survey has in its pixel. -/
theorem tile_share (E : Env α Unit) (rc : Bool) (k : Cuts α) (t : Tile α) (cs : List (Cluster α)) (h : Chains E rc k t cs) :
    (tileRun E rc t cs).filter (fun o => decide (k.home o = t.pix) && sel k o) = (whole E rc cs).filter fun o => decide (k.home o = t.pix) && sel k o := by
  obtain ⟨S, hC, h1, h2⟩ := h
  have e1 : whole E rc cs = (cs.zip (whole E rc cs)).map Prod.snd := by
    rw [List.map_snd_zip]
    unfold whole loop1
    rw [pass_length]
  have e2 : tileRun E rc t cs = ((cs.filter t.cat).zip (tileRun E rc t cs)).map Prod.snd := by
    rw [List.map_snd_zip]
    unfold tileRun loop1
    rw [pass_length]
  have hp : ∀ (o : Out α), (decide (k.home o = t.pix) && sel k o) = true → k.home o = t.pix := by
    intro o ho
    simp only [Bool.and_eq_true, decide_eq_true_eq] at ho
    exact ho.1
  conv_lhs => rw [e2]
  conv_rhs => rw [e1]
  rw [filter_snd S _ _ fun q hq hq' => h2 q hq (hp _ hq'), filter_snd S _ (cs.zip (whole E rc cs)) fun q hq hq' => h1 q hq (hp _ hq'), C377 E rc t cs S hC]

theorem flatMap_filter {β : Type} (f : β → Nat) (p : β → Bool) (l : List β) (ps : List Nat) : ps.Nodup →
    (ps.flatMap fun i => l.filter fun b => decide (f b = i) && p b).Perm (l.filter fun b => decide (f b ∈ ps) && p b) := by
  induction ps with
  | nil => intro _; simp
  | cons i ps ih =>
    intro hnd
    obtain ⟨hi, hnd⟩ := List.nodup_cons.mp hnd
    rw [List.flatMap_cons]
    refine ((ih hnd).append_left _).trans ?_
    have h := List.filter_append_perm (fun b => decide (f b = i)) (l.filter fun b => decide (f b ∈ i :: ps) && p b)
    refine (List.Perm.of_eq ?_).trans h
    congr 1
    · rw [List.filter_filter]
      apply List.filter_congr
      intro b _
      by_cases hb : f b = i <;> simp [hb]
    · rw [List.filter_filter]
      apply List.filter_congr
      intro b _
      by_cases hb : f b = i
      · simp [hb, hi]
      · simp [hb]

theorem flatMap_filter_perm {β : Type} (f : β → Nat) (p : β → Bool) (l : List β) (ps : List Nat) (hnd : ps.Nodup) (hall : ∀ b ∈ l, f b ∈ ps) :
    (ps.flatMap fun i => l.filter fun b => decide (f b = i) && p b).Perm (l.filter p) := by
  refine (flatMap_filter f p l ps hnd).trans (List.Perm.of_eq (List.filter_congr fun b hb => ?_))
  simp [hall b hb]

/-- C376, the part that holds: tiles that read their clusters together with all clusters connected to them by chains of shared galaxies give the catalog of the whole survey. -/
theorem C376_partial (E : Env α Unit) (rc : Bool) (k : Cuts α) (ts : List (Tile α)) (cs : List (Cluster α)) (hB : Bordered E rc k ts cs) (h : ∀ t ∈ ts, Chains E rc k t cs) : TilesOK E rc k ts cs := by
  unfold TilesOK consolidated
  have e : (ts.flatMap fun t => (tileRun E rc t cs).filter fun o => decide (k.home o = t.pix) && sel k o) =
      (ts.map Tile.pix).flatMap fun i => (whole E rc cs).filter fun o => decide (k.home o = i) && sel k o := by
    rw [List.flatMap_map]
    exact List.flatMap_congr fun t ht => tile_share E rc k t cs (h t ht)
  rw [e]
  refine flatMap_filter_perm k.home (sel k) _ _ hB.pix fun o ho => ?_
  obtain ⟨t, ht, hh⟩ := hB.cover o ho
  exact List.mem_map.mpr ⟨t, ht, hh.symm⟩

/-! ## Witnesses -/

/-- Cluster `k` has the six galaxies from number `3 k`: it shares three with the cluster before it, and three with the one after it. -/
def chain : Perc.Env Unit Unit ℚ := { Perc.toy with
  find := fun c => (List.range 6).map fun j => { index := 3 * c.id.toNat + j, gid := 3 * c.id.toNat + j, refmag := 18, r := 1 / 10, p := 0, pmem := 0, pfree := 1, cand := false } }

/-- Clusters up to `b` are in the first pixel, all others in the second. -/
def toyCuts (b : Int) : Cuts ℚ := ⟨fun o => if o.c.id ≤ b then 1 else 2, 1, 3⟩

def toyTile (pix : Nat) (lo hi : Int) : Tile ℚ := ⟨pix, fun i => decide (3 * lo ≤ i) && decide ((i : Int) < 3 * hi + 6), fun c => decide (lo ≤ c.id) && decide (c.id ≤ hi)⟩

theorem toy_gals (pix : Nat) (lo hi : Int) (hlo : 0 ≤ lo) (c : Cluster ℚ) (hc : (toyTile pix lo hi).cat c = true) (n : Nbr ℚ) (hn : n ∈ (Perc.runner chain).neighbors c) : (toyTile pix lo hi).gals n.index = true := by
  simp only [Perc.runner, chain, List.mem_map, List.mem_range] at hn
  obtain ⟨j, hj, rfl⟩ := hn
  simp only [toyTile, Bool.and_eq_true, decide_eq_true_eq] at hc ⊢
  push_cast
  have : ((c.id.toNat : Nat) : Int) = c.id := Int.toNat_of_nonneg (by omega)
  omega

/-- C376 fails although every tile has all galaxies near all clusters that are run in it, and all neighbouring clusters.  Three clusters form a chain.  In the whole survey the first
leaves nothing for the second, and the third is there.  The tile of the third does not have the first: there the second takes the galaxies of the third. -/
theorem C376_false : Bordered (Perc.runner chain) true (toyCuts 2) [toyTile 1 1 3, toyTile 2 2 3] [Perc.toyCl 1, Perc.toyCl 2, Perc.toyCl 3] ∧
    ((whole (Perc.runner chain) true [Perc.toyCl 1, Perc.toyCl 2, Perc.toyCl 3]).filter (sel (toyCuts 2))).map (fun o => o.c.id) = [1, 3] ∧
    (consolidated (Perc.runner chain) true (toyCuts 2) [toyTile 1 1 3, toyTile 2 2 3] [Perc.toyCl 1, Perc.toyCl 2, Perc.toyCl 3]).map (fun o => o.c.id) = [1] ∧
    ¬ TilesOK (Perc.runner chain) true (toyCuts 2) [toyTile 1 1 3, toyTile 2 2 3] [Perc.toyCl 1, Perc.toyCl 2, Perc.toyCl 3] := by
  have h1 : ((whole (Perc.runner chain) true [Perc.toyCl 1, Perc.toyCl 2, Perc.toyCl 3]).filter (sel (toyCuts 2))).map (fun o => o.c.id) = [1, 3] := by decide +kernel
  have h2 : (consolidated (Perc.runner chain) true (toyCuts 2) [toyTile 1 1 3, toyTile 2 2 3] [Perc.toyCl 1, Perc.toyCl 2, Perc.toyCl 3]).map (fun o => o.c.id) = [1] := by decide +kernel
  refine ⟨⟨by decide, ?_, by decide +kernel, ?_⟩, h1, h2, fun h => ?_⟩
  · intro o _
    by_cases ho : o.c.id ≤ 2
    · exact ⟨toyTile 1 1 3, by simp, by simp [toyCuts, toyTile, ho]⟩
    · exact ⟨toyTile 2 2 3, by simp, by simp [toyCuts, toyTile, ho]⟩
  · intro t ht c _ hc n hn
    simp only [List.mem_cons, List.not_mem_nil, or_false] at ht
    rcases ht with rfl | rfl
    · exact toy_gals 1 1 3 (by norm_num) c hc n hn
    · exact toy_gals 2 2 3 (by norm_num) c hc n hn
  · have := (h.map fun o => o.c.id).length_eq
    rw [h1, h2] at this
    simp at this

/-- Two chains that are apart, each across a pixel: with both tiles wide enough for the chains that reach into their pixels, consolidation gives three clusters of five, as the whole survey does. -/
theorem toy_chains : ∀ t ∈ [toyTile 1 1 3, toyTile 2 1 6], Chains (Perc.runner chain) true (toyCuts 2) t [Perc.toyCl 1, Perc.toyCl 2, Perc.toyCl 3, Perc.toyCl 5, Perc.toyCl 6] := by
  intro t ht
  simp only [List.mem_cons, List.not_mem_nil, or_false] at ht
  rcases ht with rfl | rfl
  · exact ⟨fun c => decide (c.id ≤ 3), ⟨by decide +kernel, by decide +kernel, by decide +kernel⟩, by decide +kernel, by decide +kernel⟩
  · exact ⟨fun c => decide (c.id ≤ 6), ⟨by decide +kernel, by decide +kernel, by decide +kernel⟩, by decide +kernel, by decide +kernel⟩

example : ((whole (Perc.runner chain) true [Perc.toyCl 1, Perc.toyCl 2, Perc.toyCl 3, Perc.toyCl 5, Perc.toyCl 6]).filter (sel (toyCuts 2))).map (fun o => o.c.id) = [1, 3, 5] := by decide +kernel

example : Bordered (Perc.runner chain) true (toyCuts 2) [toyTile 1 1 3, toyTile 2 1 6] [Perc.toyCl 1, Perc.toyCl 2, Perc.toyCl 3, Perc.toyCl 5, Perc.toyCl 6] :=
  ⟨by decide, by decide +kernel, by decide +kernel, by decide +kernel⟩

end Redmapper.Tiles
