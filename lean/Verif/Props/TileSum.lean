/-
Properties of a galaxy in the consolidated catalogs of a survey that is run tile by tile: its memberships, and the clusters that are centered on it.
-/
import Verif.Model.TileSum
import Verif.Props.Tiles
import Verif.Props.Perc
import Verif.Props.PercRun
import Mathlib.Tactic

set_option linter.unusedSectionVars false

namespace Redmapper.TileSum

variable {α : Type} [Field α] [LinearOrder α] [IsStrictOrderedRing α] {G P : Type}

/-! ## C425: how often a galaxy counts in the consolidated catalogs -/

/-- What a galaxy counts in a list of clusters. -/
def count (os : List (Runner.Out α)) (i : Nat) : α := (os.map fun o => Perc.memOf o i).sum

/-- C425 as one would state it: no galaxy counts as more than one in the consolidated catalogs. -/
def SurveyOnce (E : Perc.Env G P α) (rc : Bool) (k : Tiles.Cuts α) (ts : List (Tiles.Tile α)) (cs : List (Runner.Cluster α)) : Prop :=
  ∀ i, count (clusters E rc k ts cs) i ≤ 1

/-- What C370 asks for of a galaxy: a hard edge, each galaxy listed once, and the galaxy brighter than the masking limit wherever it is a neighbour. -/
structure Bright (E : Perc.Env G P α) (i : Nat) : Prop where
  env : Cluster.EnvOK E.rich
  r : ∀ c, ∀ n ∈ E.find c, 0 ≤ n.r
  once : ∀ c, ((E.find c).map Runner.Nbr.index).Nodup
  hard : E.rich.rsig ≤ 0
  mask : ∀ l z, E.rmaskRaw l z ≠ none
  bright : ∀ c, ∀ n ∈ E.find c, n.index = i → n.refmag < E.maskLim c.redshift

theorem bright_tile (E : Perc.Env G P α) (i : Nat) (h : Bright E i) (t : Tiles.Tile α) : Bright (richTile E t) i where
  env := h.env
  r c n hn := h.r c n (List.mem_filter.mp hn).1
  once c := (h.once c).sublist ((List.filter_sublist).map _)
  hard := h.hard
  mask := h.mask
  bright c n hn := h.bright c n (List.mem_filter.mp hn).1

/-- The clusters that are left are those of the tiles of `Tiles`. -/
theorem clusters_eq (E : Perc.Env G P α) (rc : Bool) (k : Tiles.Cuts α) (ts : List (Tiles.Tile α)) (cs : List (Runner.Cluster α)) :
    clusters E rc k ts cs = Tiles.consolidated (Perc.runner E) rc k ts cs := rfl

/-- Even without the clusters in which it counts as less than nothing, a galaxy counts as at most one in a run. -/
theorem pos_total (E : Perc.Env G P α) (i : Nat) (h : Bright E i) (rc : Bool) (cs : List (Runner.Cluster α)) :
    ((Perc.run E rc cs).map fun o => max 0 (Perc.memOf o i)).sum ≤ 1 := by
  have key : ∀ (cs : List (Runner.Cluster α)) (s : Runner.St α Unit), 0 ≤ s.pgal i →
      ((Runner.pass (Perc.runner E) true rc s cs).2.map fun o => max 0 (Perc.memOf o i)).sum ≤ max 0 (1 - s.pgal i) := by
    intro cs
    induction cs with
    | nil => intro s _; simp [Runner.pass]
    | cons c cs ih =>
      intro s h0
      simp only [Runner.pass, List.map_cons, List.sum_cons]
      have h1 := Perc.once_step E h.env h.r h.once h.hard h.mask i h.bright rc s h0 c
      have hacc := Runner.step_accounting (Perc.runner E) rc s c i
      have hnn := Runner.taken_nonneg (Perc.runner E) (Runner.stepC (Perc.runner E) true rc s c).2 i
      have hmono : max 0 (1 - (Runner.stepC (Perc.runner E) true rc s c).1.pgal i) ≤ max 0 (1 - s.pgal i) := max_le_max (le_refl _) (by linarith)
      have h2 := ih (Runner.stepC (Perc.runner E) true rc s c).1 (by rw [hacc]; exact add_nonneg h0 hnn)
      rcases le_total 0 (Perc.memOf (Runner.stepC (Perc.runner E) true rc s c).2 i) with hm | hm
      · rw [max_eq_right hm]; linarith
      · rw [max_eq_left hm]; linarith
  refine le_trans (key cs (Runner.initSt ()) (le_refl _)) ?_
  simp [Runner.initSt]

theorem count_filter_le (os : List (Runner.Out α)) (p : Runner.Out α → Bool) (i : Nat) : count (os.filter p) i ≤ (os.map fun o => max 0 (Perc.memOf o i)).sum := by
  induction os with
  | nil => simp [count]
  | cons o os ih =>
    rw [List.map_cons, List.sum_cons]
    by_cases hp : p o = true
    · rw [List.filter_cons_of_pos hp]
      unfold count at ih ⊢
      rw [List.map_cons, List.sum_cons]
      exact add_le_add (le_max_right _ _) ih
    · rw [List.filter_cons_of_neg hp]
      exact le_trans ih (le_add_of_nonneg_left (le_max_left _ _))

/-- A galaxy counts for nothing in a run that has not read it. -/
theorem unread (E : Perc.Env G P α) (i : Nat) (h : ∀ c, ∀ n ∈ E.find c, n.index ≠ i) (rc : Bool) (cs : List (Runner.Cluster α)) :
    ∀ o ∈ Perc.run E rc cs, Perc.memOf o i = 0 := by
  have key : ∀ (cs : List (Runner.Cluster α)) (s : Runner.St α Unit), ∀ o ∈ (Runner.pass (Perc.runner E) true rc s cs).2, Perc.memOf o i = 0 := by
    intro cs
    induction cs with
    | nil => intro s o ho; simp [Runner.pass] at ho
    | cons c cs ih =>
      intro s o ho
      simp only [Runner.pass, List.mem_cons] at ho
      rcases ho with rfl | ho
      · unfold Perc.memOf
        by_cases hg : (Runner.stepC (Perc.runner E) true rc s c).2.good = true
        · rw [if_pos hg]
          obtain ⟨_, _, _, _, _, _, _, _, _, _, _, _, h8⟩ := Perc.good_pmem E rc s c hg
          have : ((Runner.stepC (Perc.runner E) true rc s c).2.nbrs.filter fun n => decide (n.index = i)) = [] := by
            rw [List.filter_eq_nil_iff]
            intro n hn hi
            have h9 : n.index ∈ (E.find c).map Runner.Nbr.index := by rw [← h8]; exact List.mem_map_of_mem hn
            obtain ⟨m, hm, he⟩ := List.mem_map.mp h9
            exact h c m hm (he.trans (of_decide_eq_true hi))
          rw [this]; rfl
        · rw [if_neg hg]
      · exact ih _ o ho
  exact key cs _

/-- C425, the part that holds for any tiles: a galaxy counts as at most one for each tile that has read it. -/
theorem C425_partial (E : Perc.Env G P α) (i : Nat) (h : Bright E i) (rc : Bool) (k : Tiles.Cuts α) (ts : List (Tiles.Tile α)) (cs : List (Runner.Cluster α)) :
    count (clusters E rc k ts cs) i ≤ ((ts.filter fun t => t.gals i).length : α) := by
  induction ts with
  | nil => simp [clusters, count]
  | cons t ts ih =>
    have e : count (clusters E rc k (t :: ts) cs) i =
        count ((Perc.run (richTile E t) rc (cs.filter t.cat)).filter fun o => decide (k.home o = t.pix) && Tiles.sel k o) i + count (clusters E rc k ts cs) i := by
      simp only [clusters, count, List.flatMap_cons, List.map_append, List.sum_append]
    rw [e]
    by_cases hi : t.gals i = true
    · rw [List.filter_cons_of_pos (p := fun t : Tiles.Tile α => t.gals i) hi, List.length_cons]
      push_cast
      have := le_trans (count_filter_le _ (fun o => decide (k.home o = t.pix) && Tiles.sel k o) i) (pos_total _ i (bright_tile E i h t) rc (cs.filter t.cat))
      linarith
    · rw [List.filter_cons_of_neg (p := fun t : Tiles.Tile α => t.gals i) hi]
      have h0 := unread (richTile E t) i (by
        intro c n hn he
        have := (List.mem_filter.mp hn).2
        rw [he] at this
        exact hi this) rc (cs.filter t.cat)
      have : count ((Perc.run (richTile E t) rc (cs.filter t.cat)).filter fun o => decide (k.home o = t.pix) && Tiles.sel k o) i = 0 := by
        unfold count
        refine List.sum_eq_zero fun x hx => ?_
        obtain ⟨o, ho, rfl⟩ := List.mem_map.mp hx
        exact h0 o (List.mem_filter.mp ho).1
      rw [this, zero_add]
      exact ih

/-- C425, where all tiles have all chains of clusters that share galaxies with those in their pixels: a galaxy counts as at most one in the whole survey, however many tiles read it. -/
theorem C425_chains (E : Perc.Env G P α) (i : Nat) (h : Bright E i) (rc : Bool) (k : Tiles.Cuts α) (ts : List (Tiles.Tile α)) (cs : List (Runner.Cluster α))
    (hB : Tiles.Bordered (Perc.runner E) rc k ts cs) (hC : ∀ t ∈ ts, Tiles.Chains (Perc.runner E) rc k t cs) : count (clusters E rc k ts cs) i ≤ 1 := by
  have hp : (clusters E rc k ts cs).Perm ((Perc.run E rc cs).filter (Tiles.sel k)) := Tiles.C376_partial (Perc.runner E) rc k ts cs hB hC
  have : count (clusters E rc k ts cs) i = count ((Perc.run E rc cs).filter (Tiles.sel k)) i := (hp.map _).sum_eq
  rw [this]
  exact le_trans (count_filter_le _ _ i) (pos_total E i h rc cs)

theorem chain_bright (i : Nat) : Bright Tiles.chain i where
  env := Perc.toyRich_ok
  r c n hn := by
    simp only [Tiles.chain, List.mem_map] at hn
    obtain ⟨j, _, rfl⟩ := hn
    norm_num
  once c := by
    simp only [Tiles.chain, List.map_map]
    refine (List.nodup_range (n := 6)).map_on ?_
    intro a _ b _ hab
    simpa using hab
  hard := le_refl _
  mask _ _ := by simp [Tiles.chain, Perc.toy]
  bright c n hn _ := by
    simp only [Tiles.chain, List.mem_map] at hn
    obtain ⟨j, _, rfl⟩ := hn
    norm_num [Tiles.chain, Perc.toy]

/-- Four clusters in a chain. -/
def four : List (Runner.Cluster ℚ) := [Perc.toyCl 1, Perc.toyCl 2, Perc.toyCl 3, Perc.toyCl 4]

/-- C425 fails although every tile reads all galaxies near the clusters it runs, and runs the neighbours of those in its pixel.  The third and the fourth of four clusters share galaxies,
across a border.  The tile of the third has the first, which takes what the second needs; that of the fourth has not, and there the second takes what the third needs.  Both are kept. -/
theorem C425_false : (∀ i, Bright Tiles.chain i) ∧ Tiles.Bordered (Perc.runner Tiles.chain) true (Tiles.toyCuts 3) [Tiles.toyTile 1 1 4, Tiles.toyTile 2 2 4] four ∧
    (clusters Tiles.chain true (Tiles.toyCuts 3) [Tiles.toyTile 1 1 4, Tiles.toyTile 2 2 4] four).map (fun o => o.c.id) = [1, 3, 4] ∧
    ¬ SurveyOnce Tiles.chain true (Tiles.toyCuts 3) [Tiles.toyTile 1 1 4, Tiles.toyTile 2 2 4] four := by
  refine ⟨chain_bright, ⟨by decide, ?_, by decide +kernel, ?_⟩, by decide +kernel, fun h => ?_⟩
  · intro o _
    by_cases ho : o.c.id ≤ 3
    · exact ⟨Tiles.toyTile 1 1 4, by simp, by simp [Tiles.toyCuts, Tiles.toyTile, ho]⟩
    · exact ⟨Tiles.toyTile 2 2 4, by simp, by simp [Tiles.toyCuts, Tiles.toyTile, ho]⟩
  · intro t ht c _ hc n hn
    simp only [List.mem_cons, List.not_mem_nil, or_false] at ht
    rcases ht with rfl | rfl
    · exact Tiles.toy_gals 1 1 4 (by norm_num) c hc n hn
    · exact Tiles.toy_gals 2 2 4 (by norm_num) c hc n hn
  · have := h 12
    revert this
    decide +kernel

/-- The survey of `Tiles.toy_chains` meets the hypotheses of `C425_chains`, and a galaxy that both tiles read counts as more than nine tenths. -/
example : 9 / 10 < count (clusters Tiles.chain true (Tiles.toyCuts 2) [Tiles.toyTile 1 1 3, Tiles.toyTile 2 1 6] [Perc.toyCl 1, Perc.toyCl 2, Perc.toyCl 3, Perc.toyCl 5, Perc.toyCl 6]) 9 ∧
    count (clusters Tiles.chain true (Tiles.toyCuts 2) [Tiles.toyTile 1 1 3, Tiles.toyTile 2 1 6] [Perc.toyCl 1, Perc.toyCl 2, Perc.toyCl 3, Perc.toyCl 5, Perc.toyCl 6]) 9 ≤ 1 :=
  ⟨by decide +kernel, C425_chains _ _ (chain_bright 9) _ _ _ _ ⟨by decide, by decide +kernel, by decide +kernel, by decide +kernel⟩ Tiles.toy_chains⟩

/-! ## C426: the clusters that are centered on a galaxy -/

/-- C426 as one would state it: no two clusters of the consolidated catalogs have the same central galaxy. -/
def SurveyCenters (E : PercRun.Env G P α) (rc : Bool) (home : PercRun.Cen α → Nat) (cuts : PercRun.Cen α → Bool) (ts : List (Tiles.Tile α)) (cs : List (Runner.Cluster α)) : Prop :=
  ((centers E rc home cuts ts cs).filterMap PercRun.Cen.gal).Nodup

theorem plain_tile (E : PercRun.Env G P α) (h : PercRun.Plain E) (t : Tiles.Tile α) : PercRun.Plain (percTile E t) where
  min := h.min
  iter := h.iter
  cut := h.cut
  find c := (h.find c).sublist ((List.filter_sublist).map _)
  lc := h.lc
  center := h.center
  radius := h.radius
  mask := h.mask

/-- C426, the part about tiles: two clusters with the same central galaxy come from the run of one tile, whatever the runs of the tiles do. -/
theorem C426_tiles (E : PercRun.Env G P α) (rc : Bool) (home : PercRun.Cen α → Nat) (pixel : Nat → Nat) (hh : ∀ e i, e.gal = some i → home e = pixel i) (cuts : PercRun.Cen α → Bool)
    (ts : List (Tiles.Tile α)) (hp : (ts.map Tiles.Tile.pix).Nodup) (cs : List (Runner.Cluster α)) (h : ∀ t ∈ ts, PercRun.CentersOK (percTile E t) rc (cs.filter t.cat)) :
    SurveyCenters E rc home cuts ts cs := by
  unfold SurveyCenters
  induction ts with
  | nil => simp [centers]
  | cons t ts ih =>
    rw [List.map_cons, List.nodup_cons] at hp
    have ih := ih hp.2 fun u hu => h u (List.mem_cons_of_mem _ hu)
    have e : centers E rc home cuts (t :: ts) cs =
        ((PercRun.run (percTile E t) rc (cs.filter t.cat)).1.filter fun e => decide (home e = t.pix) && cuts e) ++ centers E rc home cuts ts cs := rfl
    rw [e, List.filterMap_append, List.nodup_append]
    refine ⟨(h t List.mem_cons_self).sublist ((List.filter_sublist).filterMap _), ih, ?_⟩
    intro a ha b hb hab
    subst hab
    obtain ⟨x, hx, hxa⟩ := List.mem_filterMap.mp ha
    obtain ⟨y, hy, hya⟩ := List.mem_filterMap.mp hb
    obtain ⟨u, hu, hy⟩ := List.mem_flatMap.mp hy
    have hx := (List.mem_filter.mp hx).2
    have hy := (List.mem_filter.mp hy).2
    simp only [Bool.and_eq_true, decide_eq_true_eq] at hx hy
    have hpix : u.pix = t.pix := by rw [← hx.1, ← hy.1, hh x a hxa, hh y a hya]
    exact hp.1 (hpix ▸ List.mem_map_of_mem hu)

/-- C426, the part that holds: with different pixels, and central galaxies that their clusters use up beyond the cut, no galaxy is the center of two clusters of the survey, although tiles
overlap and the same cluster is run in several of them. -/
theorem C426_partial (E : PercRun.Env G P α) (hE : PercRun.Plain E) (rc : Bool) (home : PercRun.Cen α → Nat) (pixel : Nat → Nat) (hh : ∀ e i, e.gal = some i → home e = pixel i)
    (cuts : PercRun.Cen α → Bool) (ts : List (Tiles.Tile α)) (hp : (ts.map Tiles.Tile.pix).Nodup) (cs : List (Runner.Cluster α))
    (hd : ∀ t ∈ ts, ∀ e ∈ (PercRun.run (percTile E t) rc (cs.filter t.cat)).1, e.gal ≠ none → PercRun.Dominant E e) : SurveyCenters E rc home cuts ts cs :=
  C426_tiles E rc home pixel hh cuts ts hp cs fun t ht => PercRun.C374_partial _ (plain_tile E hE t) rc _ (hd t ht)

/-- A tile that reads all galaxies and runs all clusters. -/
def allTile (pix : Nat) : Tiles.Tile ℚ := ⟨pix, fun _ => true, fun _ => true⟩

/-- Galaxies below `b` are in pixel 1, all others in pixel 2. -/
def toyHome (b : Nat) (e : PercRun.Cen ℚ) : Nat := match e.gal with
  | none => 0
  | some i => if i < b then 1 else 2

theorem allTile_run (E : PercRun.Env Unit Unit ℚ) (pix : Nat) (cs : List (Runner.Cluster ℚ)) : PercRun.run (percTile E (allTile pix)) true (cs.filter (allTile pix).cat) = PercRun.run E true cs := by
  have h1 : percTile E (allTile pix) = E := by simp [percTile, allTile]
  have h2 : cs.filter (allTile pix).cat = cs := by simp [allTile]
  rw [h1, h2]

/-- C426 fails without its guard: galaxy 1 is the center of two clusters of its tile. -/
theorem C426_false : PercRun.Plain (PercRun.toyEnv (19 / 2) PercRun.hundreds true) ∧
    ¬ SurveyCenters (PercRun.toyEnv (19 / 2) PercRun.hundreds true) true (fun _ => 1) (fun _ => true) [allTile 1] [PercRun.toyC 1, PercRun.toyC 2] := by
  refine ⟨PercRun.C374_false.1, fun h => PercRun.C374_false.2 ?_⟩
  unfold SurveyCenters centers at h
  rw [List.flatMap_cons, List.flatMap_nil, List.append_nil, allTile_run] at h
  simpa [allTile, PercRun.CentersOK] using h

/-- Both tiles run all clusters; of each that is kept the consolidated catalog has one. -/
theorem toy_centers : (centers (PercRun.toyEnv (1 / 5) PercRun.hundreds false) true (toyHome 150) (fun _ => true) [allTile 1, allTile 2] [PercRun.toyC 1, PercRun.toyC 2, PercRun.toyC 1]).map
    (fun e => (e.id, e.gal)) = [(1, some 101), (2, some 201)] := by
  unfold centers
  rw [List.flatMap_cons, List.flatMap_cons, List.flatMap_nil, List.append_nil, allTile_run, allTile_run]
  have key : ∀ (p : Nat) (l : List (PercRun.Cen ℚ)), (l.filter fun e => decide (toyHome 150 e = p) && true).map (fun e => (e.id, e.gal)) =
      (l.map fun e => (e.id, e.gal)).filter fun q => decide ((match q.2 with | none => 0 | some i => if i < 150 then 1 else 2) = p) && true := by
    intro p l
    rw [List.filter_map]
    rfl
  rw [List.map_append, key, key, PercRun.toy_run.1]
  rfl

example : SurveyCenters (PercRun.toyEnv (1 / 5) PercRun.hundreds false) true (toyHome 150) (fun _ => true) [allTile 1, allTile 2] [PercRun.toyC 1, PercRun.toyC 2, PercRun.toyC 1] := by
  refine C426_partial _ (PercRun.toyEnv_plain _ _ _ (PercRun.hundreds_ok _)) _ _ (fun i => if i < 150 then 1 else 2) ?_ _ _ (by decide) _ ?_
  · intro e i he
    simp [toyHome, he]
  · intro t ht e he _
    simp only [List.mem_cons, List.not_mem_nil, or_false] at ht
    rcases ht with rfl | rfl
    · rw [allTile_run] at he
      exact PercRun.toy_run.2 e he
    · rw [allTile_run] at he
      exact PercRun.toy_run.2 e he

end Redmapper.TileSum
