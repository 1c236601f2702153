/-
Properties of a run over a catalog with percolation masking, down to the membership probabilities and the richness error.
-/
import Verif.Model.Perc
import Verif.Lemmas.Runner
import Verif.Props.Runner
import Verif.Props.Cluster
import Mathlib.Tactic

set_option linter.unusedSectionVars false

namespace Redmapper.Perc

open Redmapper.Runner (avail taken)

variable {α : Type} [Field α] [LinearOrder α] [IsStrictOrderedRing α] {G P : Type}

/-! ## What the loop leaves of a good cluster -/

/-- The result of the cluster after those in `pre`. -/
theorem run_at (E : Env G P α) (rc : Bool) (pre post : List (Runner.Cluster α)) (c : Runner.Cluster α) :
    (run E rc (pre ++ c :: post))[pre.length]? = some (Runner.stepC (runner E) true rc (Runner.loop1 (runner E) true rc () pre).1 c).2 := by
  unfold run Runner.loop1
  rw [Runner.pass_append]
  simp only
  rw [List.getElem?_append_right (by rw [Runner.pass_length]), Runner.pass_length, Nat.sub_self]
  simp [Runner.pass]

/-- The neighbours of a cluster as they are offered to it. -/
def offer (E : Env G P α) (pgal : Nat → α) (c : Runner.Cluster α) : List (Runner.Nbr α) :=
  (E.find c).map fun n => { n with pfree := 1 - pgal n.index }

theorem good_out {σ : Type} (E : Runner.Env α σ) (dm rc : Bool) (s : Runner.St α σ) (c : Runner.Cluster α) (hg : (Runner.stepC E dm rc s c).2.good = true) :
    ∃ (sg : σ) (c1 c4 : Runner.Cluster α), ((∃ m f, c1 = { c with limmag := m, maskfrac := f }) ∧ (dm = true → (Runner.stepC E dm rc s c).2.c.rMask = Runner.rmask E (Runner.stepC E dm rc s c).2.c) ∧
      (Runner.stepC E dm rc s c).2.c.redshift = (E.process sg c1 (Runner.offered E dm s c)).2.2.1.redshift) ∧ (E.process sg c1 (Runner.offered E dm s c)).2.1 = false ∧
      (Runner.stepC E dm rc s c).2.c.Lambda = (E.process sg c1 (Runner.offered E dm s c)).2.2.1.Lambda ∧
      (Runner.stepC E dm rc s c).2.c.LambdaE = (E.process sg c1 (Runner.offered E dm s c)).2.2.1.LambdaE ∧
      (Runner.stepC E dm rc s c).2.c.scaleval = (E.process sg c1 (Runner.offered E dm s c)).2.2.1.scaleval ∧
      (Runner.stepC E dm rc s c).2.c.rLambda = (E.process sg c1 (Runner.offered E dm s c)).2.2.1.rLambda ∧
      (Runner.stepC E dm rc s c).2.nbrs = (Runner.applyUpd (E.process sg c1 (Runner.offered E dm s c)).2.2.2 (Runner.offered E dm s c)).map (Runner.zeroPfree E c4) := by
  have h : ¬ Runner.Rejected E dm s c := by
    intro hr
    obtain ⟨_, _, _, e⟩ := Runner.stepC_rejected E dm rc s c hr
    rw [e] at hg
    simp at hg
  have h0 : ¬ (E.neighbors c).isEmpty = true := fun a => h (Or.inl (by simpa using a))
  have h1 : ¬ ((E.depth (E.sample s.sig) c (Runner.offered E dm s c)).2.2 = 1 ∨ (E.depth (E.sample s.sig) c (Runner.offered E dm s c)).2.1 ≤ 1) := by
    rintro (a | a)
    · exact h (Or.inr (Or.inl a))
    · exact h (Or.inr (Or.inr (Or.inl a)))
  have h2 := fun a => h (Or.inr (Or.inr (Or.inr a)))
  refine ⟨_, _, (Runner.stepC E dm rc s c).2.c, ⟨⟨_, _, rfl⟩, ?_, ?_⟩, Bool.eq_false_iff.mpr h2, ?_⟩
  · unfold Runner.offered at h1 h2
    unfold Runner.stepC
    simp only
    rw [if_neg h0, if_neg h1, if_neg h2]
    rintro rfl
    rfl
  · unfold Runner.offered at h1 h2 ⊢
    unfold Runner.stepC
    simp only
    rw [if_neg h0, if_neg h1, if_neg h2]
    cases dm <;> rfl
  · unfold Runner.offered at h1 h2 ⊢
    unfold Runner.stepC
    simp only
    rw [if_neg h0, if_neg h1, if_neg h2]
    refine ⟨?_, ?_, ?_, ?_, rfl⟩ <;> cases dm <;> rfl

theorem process_redshift (E : Env G P α) (c : Runner.Cluster α) (ns : List (Runner.Nbr α)) : (process E c ns).2.1.redshift = c.redshift := by
  unfold process
  split_ifs
  · rfl
  · split
    · rfl
    · simp only
      split_ifs
      · rfl
      · split <;> rfl

/-- A good cluster has the richness that was computed of the neighbours offered, of three or more, and the probabilities that were computed with it. -/
theorem good_step (E : Env G P α) (rc : Bool) (s : Runner.St α Unit) (c : Runner.Cluster α)
    (hg : (Runner.stepC (runner E) true rc s c).2.good = true) :
    ∃ (c1 : Runner.Cluster α) (k : Cluster.Cl G P α) (lam : α), ((∃ m f, c1 = { c with limmag := m, maskfrac := f }) ∧ (Runner.stepC (runner E) true rc s c).2.c.rLambda = k.rLambda ∧
        (Runner.stepC (runner E) true rc s c).2.c.rMask = Runner.rmask (runner E) (Runner.stepC (runner E) true rc s c).2.c ∧ (Runner.stepC (runner E) true rc s c).2.c.redshift = c.redshift) ∧
      Cluster.richness E.rich true none (toCl E c1 (offer E s.pgal c)) = (k, .ok lam) ∧ 3 ≤ lam ∧
      (Runner.stepC (runner E) true rc s c).2.c.Lambda = lam ∧ (Runner.stepC (runner E) true rc s c).2.c.LambdaE = k.LambdaE ∧
      (Runner.stepC (runner E) true rc s c).2.c.scaleval = k.scaleval ∧
      (Runner.stepC (runner E) true rc s c).2.nbrs.length = (E.find c).length ∧
      (∀ (i : Nat) (n : Runner.Nbr α), (Runner.stepC (runner E) true rc s c).2.nbrs[i]? = some n →
        (∃ n0, (E.find c)[i]? = some n0 ∧ n.index = n0.index ∧ n.refmag = n0.refmag) ∧ n.p = (upd k i).p ∧ n.pmem = (upd k i).pmem ∧ n.r = (upd k i).r) := by
  obtain ⟨sg, c1, c4, ⟨hc1, hmask, hz0⟩, h2, e1, e2, e3, e5, e4⟩ := good_out (runner E) true rc s c hg
  have hmask := hmask rfl
  have hoff : Runner.offered (runner E) true s c = offer E s.pgal c := by simp [Runner.offered, offer, runner]
  have hpr : (runner E).process sg c1 (offer E s.pgal c) = ((), process E c1 (offer E s.pgal c)) := rfl
  rw [hoff, hpr] at h2 e1 e2 e3 e4 e5 hz0
  have hz1 : (Runner.stepC (runner E) true rc s c).2.c.redshift = c.redshift := by
    rw [hz0, process_redshift]
    obtain ⟨m, f, rfl⟩ := hc1
    rfl
  simp only at h2 e1 e2 e3 e4 e5
  rw [hz1, hmask, e1, e2, e3, e4, e5]
  have hn : ∀ (u : Nat → Runner.Upd α) (i : Nat) (n : Runner.Nbr α), ((Runner.applyUpd u (offer E s.pgal c)).map (Runner.zeroPfree (runner E) c4))[i]? = some n →
      (∃ n0, (E.find c)[i]? = some n0 ∧ n.index = n0.index ∧ n.refmag = n0.refmag) ∧ n.p = (u i).p ∧ n.pmem = (u i).pmem ∧ n.r = (u i).r := by
    intro u i n hn
    rw [List.getElem?_map] at hn
    obtain ⟨m, hm, rfl⟩ := Option.map_eq_some_iff.mp hn
    unfold Runner.applyUpd at hm
    rw [List.getElem?_mapIdx] at hm
    obtain ⟨m0, hm0, rfl⟩ := Option.map_eq_some_iff.mp hm
    unfold offer at hm0
    rw [List.getElem?_map] at hm0
    obtain ⟨n0, hn0, rfl⟩ := Option.map_eq_some_iff.mp hm0
    obtain ⟨f1, f2, f3, f4, _, _, f7⟩ := Runner.zeroPfree_fields (runner E) c4 ({ ({ n0 with pfree := 1 - s.pgal n0.index } : Runner.Nbr α) with
      r := (u i).r, p := (u i).p, pmem := (u i).pmem, cand := (u i).cand })
    exact ⟨⟨n0, hn0, f1, f2⟩, f4, f7, f3⟩
  have hlen : ∀ u : Nat → Runner.Upd α, ((Runner.applyUpd u (offer E s.pgal c)).map (Runner.zeroPfree (runner E) c4)).length = (E.find c).length := by
    intro u; simp [Runner.applyUpd, offer]
  unfold process at h2 ⊢
  by_cases h3 : 7 / 10 < c1.maskfrac
  · rw [if_pos h3] at h2; simp at h2
  · rw [if_neg h3] at h2 ⊢
    cases hr : Cluster.richness E.rich true none (toCl E c1 (offer E s.pgal c)) with
    | mk k res =>
      cases res with
      | error e => rw [hr] at h2; simp at h2
      | ok lam =>
        rw [hr] at h2
        simp only at h2 ⊢
        by_cases h4 : lam < 3
        · rw [if_pos h4] at h2; simp at h2
        · rw [if_neg h4] at h2 ⊢
          cases hz : E.zlam k with
          | none => rw [hz] at h2; simp at h2
          | some q => exact ⟨c1, k, lam, ⟨hc1, rfl, by trivial, by trivial⟩, hr, not_lt.mp h4, rfl, rfl, rfl, hlen _, hn _⟩

theorem nbs_length (E : Cluster.Env G P α) (c k : Cluster.Cl G P α) (lam : α) (l : List (Cluster.Nb G α)) (hl : c.nbs = some l)
    (h : Cluster.richness E true none c = (k, .ok lam)) : ∃ l', k.nbs = some l' ∧ l'.length = l.length := by
  obtain ⟨z, mstar, mpc, l0, l1, idx, res, hz, hm, hk, hl0, hidx, hnd, hi, hl1, hgs, hs, hc⟩ :=
    Cluster.richness_cases E true none c k lam (fun _ e => by cases e) h
  rw [hl] at hl0
  obtain rfl := Option.some.inj hl0
  rcases hc with ⟨_, _, rfl⟩ | ⟨_, _, _, _, rfl⟩
  · exact ⟨_, rfl, by rw [List.length_map, hl1, Cluster.scatter_length]⟩
  · exact ⟨_, rfl, by rw [Cluster.scatter_length, List.length_map, hl1, Cluster.scatter_length]⟩

/-- The probabilities of a good cluster are, in order, those of the neighbours after the richness. -/
theorem good_pmem (E : Env G P α) (rc : Bool) (s : Runner.St α Unit) (c : Runner.Cluster α)
    (hg : (Runner.stepC (runner E) true rc s c).2.good = true) :
    ∃ (c1 : Runner.Cluster α) (k : Cluster.Cl G P α) (lam : α) (l' : List (Cluster.Nb G α)),
      Cluster.richness E.rich true none (toCl E c1 (offer E s.pgal c)) = (k, .ok lam) ∧ 3 ≤ lam ∧
      (Runner.stepC (runner E) true rc s c).2.c.Lambda = lam ∧ (Runner.stepC (runner E) true rc s c).2.c.LambdaE = k.LambdaE ∧
      (Runner.stepC (runner E) true rc s c).2.c.scaleval = k.scaleval ∧ k.nbs = some l' ∧
      (Runner.stepC (runner E) true rc s c).2.nbrs.map (fun n => (n.p, n.pmem, n.r)) = l'.map (fun m => (m.p, m.pmem, m.r)) ∧
      (Runner.stepC (runner E) true rc s c).2.c.rLambda = k.rLambda ∧
      (Runner.stepC (runner E) true rc s c).2.nbrs.map Runner.Nbr.index = (E.find c).map Runner.Nbr.index := by
  obtain ⟨c1, k, lam, h0, h1, h2, h3, h4, h5, h6, h7⟩ := good_step E rc s c hg
  obtain ⟨l', hl', hlen⟩ := nbs_length E.rich _ k lam ((offer E s.pgal c).map (toNb E)) rfl h1
  have hlen' : l'.length = (E.find c).length := by rw [hlen]; simp [offer]
  refine ⟨c1, k, lam, l', h1, h2, h3, h4, h5, hl', ?_, h0.2.1, ?_⟩
  · apply List.ext_getElem
    · simp [h6, hlen']
    · intro i hi1 hi2
      simp only [List.length_map] at hi1 hi2
      rw [List.getElem_map, List.getElem_map]
      obtain ⟨_, hp, hm, hrr⟩ := h7 i _ (List.getElem?_eq_getElem hi1)
      have hu : upd k i = { r := l'[i].r, p := l'[i].p, pmem := l'[i].pmem, cand := false } := by
        unfold upd
        rw [hl', Option.getD_some, List.getElem?_eq_getElem hi2]
      rw [hp, hm, hrr, hu]
  · apply List.ext_getElem
    · simp [h6]
    · intro i hi1 hi2
      simp only [List.length_map] at hi1 hi2
      rw [List.getElem_map, List.getElem_map]
      obtain ⟨⟨n0, hn0, hx, _⟩, _⟩ := h7 i _ (List.getElem?_eq_getElem hi1)
      rw [List.getElem?_eq_getElem hi2] at hn0
      obtain rfl := Option.some.inj hn0
      exact hx

/-! ## C367: membership probabilities -/

/-- C367 as one would state it: in every run, every neighbour of a good cluster has a membership probability between zero and its probability without masking. -/
def MembersOK (E : Env G P α) (rc : Bool) (cs : List (Runner.Cluster α)) : Prop :=
  ∀ o ∈ run E rc cs, o.good = true → ∀ n ∈ o.nbrs, 0 ≤ n.pmem ∧ n.pmem ≤ n.p ∧ n.p ≤ 1

/-- C367, the part that holds: of a cluster none of whose neighbours has been used up by the clusters before it. -/
theorem C367_partial (E : Env G P α) (he : Cluster.EnvOK E.rich) (rc : Bool) (pre post : List (Runner.Cluster α)) (c : Runner.Cluster α)
    (hr : ∀ n ∈ E.find c, 0 ≤ n.r) (hav : ∀ n ∈ E.find c, 0 ≤ avail (runner E) rc () pre n.index)
    (o : Runner.Out α) (ho : (run E rc (pre ++ c :: post))[pre.length]? = some o) (hg : o.good = true) :
    (∀ n ∈ o.nbrs, 0 ≤ n.pmem ∧ n.pmem ≤ n.p ∧ n.p ≤ 1) ∧ 3 ≤ o.c.Lambda ∧ o.c.Lambda < 2000 ∧
    o.c.Lambda = o.c.scaleval * (o.nbrs.map Runner.Nbr.pmem).sum := by
  rw [run_at] at ho
  obtain rfl := (Option.some.inj ho)
  set s := (Runner.loop1 (runner E) true rc () pre).1 with hs
  obtain ⟨c1, k, lam, l', h1, h2, h3, h4, h5, h6, h7, hrl, h8⟩ := good_pmem E rc s c hg
  have hok : ∀ l, (toCl E c1 (offer E s.pgal c)).nbs = some l → ∀ n ∈ l, Cluster.NbOK n := by
    intro l hl n hn
    obtain rfl := (Option.some.inj hl)
    obtain ⟨m, hm, rfl⟩ := List.mem_map.mp hn
    obtain ⟨m0, hm0, rfl⟩ := List.mem_map.mp hm
    have ha := hav m0 hm0
    have hb := (Runner.C09_availability_partial (runner E) rc () pre [] m0.index).2.2.2
    unfold avail at ha hb
    exact ⟨hr m0 hm0, ha, hb⟩
  obtain ⟨l, l2, g1, g2, g3, g4, hcase⟩ := Cluster.C125_members he true none (fun _ e => by cases e) _ k lam hok h1
  rw [h6] at g2
  obtain rfl := Option.some.inj g2
  have hpm : ∀ n ∈ (Runner.stepC (runner E) true rc s c).2.nbrs, ∃ m ∈ l', n.p = m.p ∧ n.pmem = m.pmem := by
    intro n hn
    have : (n.p, n.pmem, n.r) ∈ l'.map fun m => (m.p, m.pmem, m.r) := by
      rw [← h7]; exact List.mem_map.mpr ⟨n, hn, rfl⟩
    obtain ⟨m, hm, e⟩ := List.mem_map.mp this
    simp only [Prod.mk.injEq] at e
    exact ⟨m, hm, e.1.symm, e.2.1.symm⟩
  have hsum : (Runner.stepC (runner E) true rc s c).2.nbrs.map Runner.Nbr.pmem = l'.map Cluster.Nb.pmem := by
    have := congrArg (List.map fun t : α × α × α => t.2.1) h7
    simpa [Function.comp_def] using this
  rcases hcase with ⟨e, _⟩ | ⟨k1, k2, k3, k4, k5, k6, k7, _⟩
  · rw [e] at h2; norm_num at h2
  · refine ⟨?_, by rw [h3]; exact h2, by rw [h3]; exact k2, ?_⟩
    · intro n hn
      obtain ⟨m, hm, e1, e2⟩ := hpm n hn
      obtain ⟨q1, q2, q3, q4, _⟩ := k7 m hm
      rw [e1, e2]
      exact ⟨q3, q4, q2⟩
    · rw [hsum, h3, h5, ← k6]
      field_simp

/-- In a good cluster every neighbour has a probability, and a membership that is a share of the probability times what is left of the galaxy. -/
theorem share (E : Env G P α) (he : Cluster.EnvOK E.rich) (rc : Bool) (s : Runner.St α Unit) (c : Runner.Cluster α) (hr : ∀ n ∈ E.find c, 0 ≤ n.r)
    (hg : (Runner.stepC (runner E) true rc s c).2.good = true) : ∀ n ∈ (Runner.stepC (runner E) true rc s c).2.nbrs,
    0 ≤ n.p ∧ n.p ≤ 1 ∧ (∃ t, 0 ≤ t ∧ t ≤ 1 ∧ n.pmem = n.p * (1 - s.pgal n.index) * t) ∧
    (E.rich.rsig ≤ 0 → n.pmem ≠ 0 → n.r < (Runner.stepC (runner E) true rc s c).2.c.rLambda) := by
  intro n hn
  obtain ⟨c1, k, lam, l', h1, h2, h3, h4, h5, h6, h7, hrl, h8⟩ := good_pmem E rc s c hg
  obtain ⟨z, mstar, mpc, l, l2, x, hz, hms, hmp, hl, hl2, hx, hval⟩ := Cluster.C125_values E.rich true none (fun _ e => by cases e) _ k lam h1 (by linarith)
  rw [h6] at hl2
  obtain rfl := Option.some.inj hl2
  obtain ⟨l3, hl3, hlen⟩ := nbs_length E.rich _ k lam l hl h1
  rw [h6] at hl3
  obtain rfl := Option.some.inj hl3
  obtain ⟨j, hj⟩ := List.mem_iff_getElem?.mp hn
  have hj7 : (l'.map fun m => (m.p, m.pmem, m.r))[j]? = some (n.p, n.pmem, n.r) := by
    rw [← h7, List.getElem?_map, hj]; rfl
  rw [List.getElem?_map] at hj7
  obtain ⟨m, hm, e⟩ := Option.map_eq_some_iff.mp hj7
  simp only [Prod.mk.injEq] at e
  have hj8 : ((E.find c).map Runner.Nbr.index)[j]? = some n.index := by
    rw [← h8, List.getElem?_map, hj]; rfl
  rw [List.getElem?_map] at hj8
  obtain ⟨n0, hn0, hidx⟩ := Option.map_eq_some_iff.mp hj8
  have hlj : l[j]? = some (toNb E { n0 with pfree := 1 - s.pgal n0.index }) := by
    obtain rfl := (Option.some.inj hl)
    unfold offer
    rw [List.getElem?_map, List.getElem?_map, hn0]
    rfl
  obtain ⟨⟨_, _, _, _, _, hmr, _⟩, _, hin⟩ := hval j _ m hlj hm
  obtain ⟨_, hth, hpeq, hpm⟩ := hin (fun _ e => by cases e)
  have hrj : 0 ≤ n0.r := hr n0 (List.mem_of_getElem? hn0)
  have hp := Solver.specProb_mem (Cluster.toPar E.rich (E.rich.maskcorr mstar (mstar - E.rich.lval) E.rich.limmag)) x
    (Cluster.specGal E.rich z mstar mpc (toNb E { n0 with pfree := 1 - s.pgal n0.index })) (by
      have := abs_le.mp hx
      linarith [this.1]) he.nfwnorm (by
      unfold Cluster.specGal
      exact mul_nonneg (mul_nonneg (mul_nonneg (mul_nonneg he.twopi hrj) (he.nfw _)) (he.phi _ _ _)) (he.rho _)) (by
      intro b hb
      unfold Cluster.specGal at hb
      simp only [Option.map_eq_some_iff] at hb
      obtain ⟨sg, hsg, rfl⟩ := hb
      exact mul_nonneg (mul_nonneg he.twopi hrj) (div_nonneg (he.sigma _ _ _ _ hsg) (mul_self_nonneg _)))
  have hst : 0 ≤ Solver.specTheta (Cluster.toPar E.rich (E.rich.maskcorr mstar (mstar - E.rich.lval) E.rich.limmag)) x
      (Cluster.specGal E.rich z mstar mpc (toNb E { n0 with pfree := 1 - s.pgal n0.index })) ∧
      Solver.specTheta (Cluster.toPar E.rich (E.rich.maskcorr mstar (mstar - E.rich.lval) E.rich.limmag)) x
      (Cluster.specGal E.rich z mstar mpc (toNb E { n0 with pfree := 1 - s.pgal n0.index })) ≤ 1 := by
    unfold Solver.specTheta
    split_ifs <;> first | exact he.soft _ | norm_num
  have hkr : k.rLambda = E.rich.rlam lam := by
    obtain ⟨z', mstar', mpc', l0, l1, idx, res, _, _, _, _, _, _, _, _, _, hsol, hc⟩ := Cluster.richness_cases E.rich true none _ k lam (fun _ e => by cases e) h1
    rcases hc with ⟨e', _⟩ | ⟨e', h0, _, _, hk⟩
    · rw [e'] at h2; norm_num at h2
    · rw [hk]
      simp only
      rw [(Cluster.solver_ok hsol (by rw [← e']; exact h0)).2.2, ← e']
  rw [hrl, hkr, ← e.1, ← e.2.1, ← e.2.2, ← hidx]
  refine ⟨by rw [hpeq]; exact hp.1, by rw [hpeq]; exact hp.2, ?_, ?_⟩
  · rw [hpm]
    split_ifs
    · exact ⟨0, le_refl _, zero_le_one, by ring⟩
    · have ht := he.theta (toNb E { n0 with pfree := 1 - s.pgal n0.index }).refmag (toNb E { n0 with pfree := 1 - s.pgal n0.index }).refmagErr (mstar - E.rich.lval) E.rich.limmag
      rw [← hth] at ht
      exact ⟨_, mul_nonneg ht.1 hst.1, mul_le_one₀ ht.2 hst.1 hst.2, by simp only [toNb]; ring⟩
  · intro hs hne
    by_contra hlt
    apply hne
    rw [hpm, if_pos ⟨hs, by rw [← hmr]; exact hlt⟩]

/-- C367: in every good cluster, a galaxy has a probability between zero and one, and is a member with some share of that probability times what the clusters before have
left of it: never with more than that, and with a negative share if they have used up more than there was. -/
theorem C367_share (E : Env G P α) (he : Cluster.EnvOK E.rich) (rc : Bool) (pre post : List (Runner.Cluster α)) (c : Runner.Cluster α)
    (hr : ∀ n ∈ E.find c, 0 ≤ n.r) (o : Runner.Out α) (ho : (run E rc (pre ++ c :: post))[pre.length]? = some o) (hg : o.good = true) :
    ∀ n ∈ o.nbrs, 0 ≤ n.p ∧ n.p ≤ 1 ∧ ∃ t, 0 ≤ t ∧ t ≤ 1 ∧ n.pmem = n.p * avail (runner E) rc () pre n.index * t := by
  rw [run_at] at ho
  obtain rfl := (Option.some.inj ho)
  intro n hn
  obtain ⟨a1, a2, a3, _⟩ := share E he rc _ c hr hg n hn
  exact ⟨a1, a2, a3⟩

/-- A good cluster takes no more than one from a galaxy, and nothing from a galaxy that is not among its neighbours. -/
theorem taken_le (E : Env G P α) (he : Cluster.EnvOK E.rich) (hr : ∀ c, ∀ n ∈ E.find c, 0 ≤ n.r) (rc : Bool) (s : Runner.St α Unit) (c : Runner.Cluster α) (i : Nat) :
    taken (runner E) (Runner.stepC (runner E) true rc s c).2 i ≤ if (E.find c).any (fun n => decide (n.index = i)) then 1 else 0 := by
  have h01 : (0 : α) ≤ if (E.find c).any (fun n => decide (n.index = i)) then 1 else 0 := by split_ifs <;> norm_num
  by_cases hg : (Runner.stepC (runner E) true rc s c).2.good = true
  · obtain ⟨c1, k, lam, l', h1, h2, h3, h4, h5, h6, h7, hrl, h8⟩ := good_pmem E rc s c hg
    unfold taken
    rw [if_pos hg]
    cases hm : (Runner.stepC (runner E) true rc s c).2.c.rMask with
    | none => exact h01
    | some rm =>
      simp only
      split
      · exact h01
      · rename_i n hn
        have hmem := List.mem_filter.mp (List.mem_of_getLast? hn)
        have hidx : n.index = i := (of_decide_eq_true hmem.2).1
        have hany : (E.find c).any (fun n => decide (n.index = i)) = true := by
          have : n.index ∈ (E.find c).map Runner.Nbr.index := by
            rw [← h8]; exact List.mem_map_of_mem hmem.1
          obtain ⟨m, hm1, hm2⟩ := List.mem_map.mp this
          rw [List.any_eq_true]
          exact ⟨m, hm1, by simp [hm2, hidx]⟩
        rw [hany, if_pos rfl]
        exact (share E he rc s c (hr c) hg n hmem.1).2.1
  · unfold taken
    rw [if_neg hg]
    exact h01

/-- C367: the masking of pairs is safe.  If no neighbour of a cluster was among the neighbours of two clusters before it, nothing has been used up. -/
theorem C367_pairs (E : Env G P α) (he : Cluster.EnvOK E.rich) (hr : ∀ c, ∀ n ∈ E.find c, 0 ≤ n.r) (rc : Bool) (pre : List (Runner.Cluster α)) (i : Nat)
    (h : pre.countP (fun d => (E.find d).any fun n => decide (n.index = i)) ≤ 1) : 0 ≤ avail (runner E) rc () pre i := by
  have key : ∀ (cs : List (Runner.Cluster α)) (s : Runner.St α Unit),
      ((Runner.pass (runner E) true rc s cs).2.map fun o => taken (runner E) o i).sum ≤ (cs.countP (fun d => (E.find d).any fun n => decide (n.index = i)) : Nat) := by
    intro cs
    induction cs with
    | nil => intro s; simp [Runner.pass]
    | cons c cs ih =>
      intro s
      simp only [Runner.pass, List.map_cons, List.sum_cons]
      have h1 := taken_le E he hr rc s c i
      have h2 := ih (Runner.stepC (runner E) true rc s c).1
      rw [List.countP_cons]
      split_ifs at h1 ⊢ with hc
      · push_cast
        linarith
      · simpa using add_le_add h1 h2
  have hk := key pre (Runner.initSt ())
  rw [(Runner.C09_availability_partial (runner E) rc () pre [] i).2.1]
  have : ((pre.countP (fun d => (E.find d).any fun n => decide (n.index = i)) : Nat) : α) ≤ 1 := by exact_mod_cast h
  unfold Runner.loop1
  linarith

/-! ## C370: a galaxy is not counted twice -/

/-- What a galaxy counts in a cluster that is kept. -/
def memOf (o : Runner.Out α) (i : Nat) : α := if o.good then ((o.nbrs.filter fun n => decide (n.index = i)).map Runner.Nbr.pmem).sum else 0

/-- What a galaxy counts in all clusters of the run together. -/
def total (E : Env G P α) (rc : Bool) (cs : List (Runner.Cluster α)) (i : Nat) : α := ((run E rc cs).map fun o => memOf o i).sum

/-- C370 as one would state it: no galaxy counts as more than one. -/
def OnceOK (E : Env G P α) (rc : Bool) (cs : List (Runner.Cluster α)) : Prop := ∀ i, total E rc cs i ≤ 1

theorem once_step (E : Env G P α) (he : Cluster.EnvOK E.rich) (hr : ∀ c, ∀ n ∈ E.find c, 0 ≤ n.r) (hnd : ∀ c, ((E.find c).map Runner.Nbr.index).Nodup)
    (hs : E.rich.rsig ≤ 0) (hm : ∀ l z, E.rmaskRaw l z ≠ none) (i : Nat) (hb : ∀ c, ∀ n ∈ E.find c, n.index = i → n.refmag < E.maskLim c.redshift)
    (rc : Bool) (s : Runner.St α Unit) (h0 : 0 ≤ s.pgal i) (c : Runner.Cluster α) :
    memOf (Runner.stepC (runner E) true rc s c).2 i + max 0 (1 - (Runner.stepC (runner E) true rc s c).1.pgal i) ≤ max 0 (1 - s.pgal i) := by
  have hacc := Runner.step_accounting (runner E) rc s c i
  have hnn := Runner.taken_nonneg (runner E) (Runner.stepC (runner E) true rc s c).2 i
  have hmono : max 0 (1 - (Runner.stepC (runner E) true rc s c).1.pgal i) ≤ max 0 (1 - s.pgal i) := max_le_max (le_refl _) (by linarith)
  unfold memOf
  by_cases hg : (Runner.stepC (runner E) true rc s c).2.good = true
  · rw [if_pos hg]
    obtain ⟨_, _, _, ⟨_, _, hrm, hz⟩, _, _, _, _, _, hlen, hrow⟩ := good_step E rc s c hg
    have h8 : (Runner.stepC (runner E) true rc s c).2.nbrs.map Runner.Nbr.index = (E.find c).map Runner.Nbr.index := by
      obtain ⟨_, _, _, _, _, _, _, _, _, _, _, _, h8⟩ := good_pmem E rc s c hg
      exact h8
    have hnd' : ((Runner.stepC (runner E) true rc s c).2.nbrs.map Runner.Nbr.index).Nodup := by rw [h8]; exact hnd c
    -- at most one row
    have hone : ((Runner.stepC (runner E) true rc s c).2.nbrs.filter fun n => decide (n.index = i)).length ≤ 1 := by
      have := List.nodup_iff_count_le_one.mp hnd' i
      rw [List.count, List.countP_map, List.countP_eq_length_filter] at this
      refine le_trans (le_of_eq ?_) this
      congr 1
    match hf : (Runner.stepC (runner E) true rc s c).2.nbrs.filter fun n => decide (n.index = i) with
    | [] => rw [hf]; simpa using hmono
    | [n] =>
      rw [hf]
      simp only [List.map_cons, List.map_nil, List.sum_cons, List.sum_nil, add_zero]
      have hn : n ∈ (Runner.stepC (runner E) true rc s c).2.nbrs.filter fun n => decide (n.index = i) := by rw [hf]; exact List.mem_singleton.mpr rfl
      obtain ⟨hn, hi⟩ := List.mem_filter.mp hn
      have hi : n.index = i := of_decide_eq_true hi
      obtain ⟨p0, p1, ⟨t, t0, t1, hpm⟩, hin⟩ := share E he rc s c (hr c) hg n hn
      by_cases hpos : 0 < n.pmem
      · have hp : 0 < n.p := by
          rcases p0.lt_or_eq with h | h
          · exact h
          · rw [hpm, ← h] at hpos; simp at hpos
        obtain ⟨rm, hrm'⟩ : ∃ rm, (Runner.stepC (runner E) true rc s c).2.c.rMask = some rm := by
          rw [hrm]
          unfold Runner.rmask
          cases hq : (runner E).rmaskRaw (Runner.stepC (runner E) true rc s c).2.c.Lambda (Runner.stepC (runner E) true rc s c).2.c.redshift with
          | none => exact absurd hq (hm _ _)
          | some r => simp only; split_ifs <;> exact ⟨_, rfl⟩
        obtain ⟨j, hj⟩ := List.mem_iff_getElem?.mp hn
        obtain ⟨⟨n0, hn0, hx, hmag⟩, _⟩ := hrow j n hj
        have hbr : n.refmag < E.maskLim c.redshift := by
          rw [hmag]
          exact hb c n0 (List.mem_of_getElem? hn0) (by rw [← hx]; exact hi)
        have hk := Runner.C14_inside_is_masked (runner E) rc s c n hn hg hnd' (by rw [hrm']; simp) (hin hs (ne_of_gt hpos)) (by rw [hz]; exact hbr) hp
        rw [hi] at hk hpm
        rw [hk]
        have ha : 0 < 1 - s.pgal i := by
          by_contra h
          have : n.p * (1 - s.pgal i) * t ≤ 0 := by
            rw [mul_assoc]
            exact mul_nonpos_of_nonneg_of_nonpos p0 (mul_nonpos_of_nonpos_of_nonneg (not_lt.mp h) t0)
          rw [hpm] at hpos
          exact absurd hpos (not_lt.mpr this)
        have hle : n.pmem ≤ n.p * (1 - s.pgal i) := by
          rw [hpm]
          exact mul_le_of_le_one_right (mul_nonneg p0 ha.le) t1
        rw [max_eq_right ha.le]
        rcases le_total 0 (1 - (s.pgal i + n.p)) with h | h
        · rw [max_eq_right h]
          nlinarith [mul_nonneg p0 h0]
        · rw [max_eq_left h]
          nlinarith [mul_nonneg ha.le (sub_nonneg.mpr p1)]
      · linarith [not_lt.mp hpos]
    | _ :: _ :: _ => rw [hf] at hone; simp at hone
  · rw [if_neg hg, zero_add]
    exact hmono

/-- C370, the part that holds: with a hard edge, a galaxy that is brighter than the masking limit of every cluster that has it among its neighbours is never counted
as more than one, in however many clusters it is. -/
theorem C370_partial (E : Env G P α) (he : Cluster.EnvOK E.rich) (hr : ∀ c, ∀ n ∈ E.find c, 0 ≤ n.r) (hnd : ∀ c, ((E.find c).map Runner.Nbr.index).Nodup)
    (hs : E.rich.rsig ≤ 0) (hm : ∀ l z, E.rmaskRaw l z ≠ none) (i : Nat) (hb : ∀ c, ∀ n ∈ E.find c, n.index = i → n.refmag < E.maskLim c.redshift)
    (rc : Bool) (cs : List (Runner.Cluster α)) : total E rc cs i ≤ 1 := by
  have key : ∀ (cs : List (Runner.Cluster α)) (s : Runner.St α Unit), 0 ≤ s.pgal i →
      ((Runner.pass (runner E) true rc s cs).2.map fun o => memOf o i).sum ≤ max 0 (1 - s.pgal i) := by
    intro cs
    induction cs with
    | nil => intro s _; simp [Runner.pass]
    | cons c cs ih =>
      intro s h0
      simp only [Runner.pass, List.map_cons, List.sum_cons]
      have h1 := once_step E he hr hnd hs hm i hb rc s h0 c
      have h2 := ih (Runner.stepC (runner E) true rc s c).1 (by
        rw [Runner.step_accounting]
        exact add_nonneg h0 (Runner.taken_nonneg _ _ _))
      linarith
  have := key cs (Runner.initSt ()) (le_refl _)
  refine le_trans this ?_
  simp [Runner.initSt]

/-! ## C368: the richness error -/

/-- The variance of the number of members, of which the richness error is the root (up to the scale, when nothing is masked). -/
def memberVar (o : Runner.Out α) : α := (o.nbrs.map fun n => n.pmem * (1 - n.pmem)).sum

/-- C368: what the richness error is computed from, when there are no mask galaxies. -/
theorem C368_formula (E : Env G P α) (hm : E.rich.maskgals = []) (rc : Bool) (cs : List (Runner.Cluster α)) (o : Runner.Out α)
    (ho : o ∈ run E rc cs) (hg : o.good = true) (hs : 0 < (o.nbrs.map Runner.Nbr.pmem).sum) :
    o.c.LambdaE = E.rich.sqrt (o.c.scaleval * o.c.scaleval * memberVar o) := by
  obtain ⟨i, hi⟩ := List.mem_iff_getElem?.mp ho
  have hlen : i < cs.length := by
    have := (List.getElem?_eq_some_iff.mp hi).1
    unfold run Runner.loop1 at this
    rwa [Runner.pass_length] at this
  have hsplit : cs = cs.take i ++ cs[i] :: cs.drop (i + 1) := by
    rw [List.getElem_cons_drop hlen, List.take_append_drop]
  have htl : (cs.take i).length = i := by rw [List.length_take]; omega
  have hi' : (run E rc (cs.take i ++ cs[i] :: cs.drop (i + 1)))[(cs.take i).length]? = some o := by rw [← hsplit, htl]; exact hi
  rw [run_at] at hi'
  obtain rfl := Option.some.inj hi'
  set s := (Runner.loop1 (runner E) true rc () (cs.take i)).1 with hsd
  obtain ⟨c1, k, lam, l', h1, h2, h3, h4, h5, h6, h7, hrl, h8⟩ := good_pmem E rc s cs[i] hg
  have hsum : (Runner.stepC (runner E) true rc s cs[i]).2.nbrs.map Runner.Nbr.pmem = l'.map Cluster.Nb.pmem := by
    have := congrArg (List.map fun t : α × α × α => t.2.1) h7
    simpa [Function.comp_def] using this
  have hvar : memberVar (Runner.stepC (runner E) true rc s cs[i]).2 = (l'.map fun m => m.pmem * (1 - m.pmem)).sum := by
    unfold memberVar
    have := congrArg (List.map fun x : α => x * (1 - x)) hsum
    rw [List.map_map, List.map_map] at this
    exact congrArg List.sum this
  rw [hsum] at hs
  rw [hvar, h4, h5]
  obtain ⟨z, mstar, mpc, l, l1, idx, res, hz, hms, hmp, hl, hidx, hnd, hii, hl1, hgs, hsol, hc⟩ :=
    Cluster.richness_cases E.rich true none _ k lam (fun _ e => by cases e) h1
  rcases hc with ⟨e, _⟩ | ⟨e, h0, hmax, hne, hk⟩
  · rw [e] at h2; norm_num at h2
  have hsok := Cluster.solver_ok hsol (by rw [← e]; exact h0)
  have hslen : res.slots.length = idx.length := by
    obtain ⟨x, hx1, hxl, hxq⟩ := Solver.C71_probabilities_near_richness _ _ _ _ hsol hsok.1
    rw [hxl, List.length_map, List.length_map, Cluster.gather_length _ _ hii]
  have hlen1 : l1.length = l.length := by rw [hl1, Cluster.scatter_length]
  have hl' : l' = Cluster.scatter (Cluster.fill E.rich z mpc (mstar - E.rich.lval) lam res.rlambda) (l1.map Cluster.clear) idx
      (((Cluster.gather l idx).map (Cluster.withChisq E.rich z)).zip res.slots) := by
    rw [hk] at h6
    exact (Option.some.inj h6).symm
  have hsumφ : ∀ φ : α → α, φ 0 = 0 → (l'.map fun m => φ m.pmem).sum = ((res.slots.map Solver.Slot.wt).map φ).sum := by
    intro φ hφ
    rw [hl', Cluster.scatter_sum _ (fun m : Cluster.Nb G α => φ m.pmem) (fun q : Cluster.Nb G α × Solver.Slot α => φ q.2.wt) (fun _ _ => rfl) _ _ _ hnd
      (fun i hi' => by rw [List.length_map, hlen1]; exact hii i hi')]
    · have e2 : ((l1.map Cluster.clear).map fun m : Cluster.Nb G α => φ m.pmem).sum = 0 := by
        apply List.sum_eq_zero
        intro x hx
        obtain ⟨m, hm, rfl⟩ := List.mem_map.mp hx
        obtain ⟨n, _, rfl⟩ := List.mem_map.mp hm
        exact hφ
      have e3 : (((Cluster.gather l idx).map (Cluster.withChisq E.rich z)).zip res.slots).map (fun q : Cluster.Nb G α × Solver.Slot α => φ q.2.wt)
          = (res.slots.map Solver.Slot.wt).map φ := by
        have : (fun q : Cluster.Nb G α × Solver.Slot α => φ q.2.wt) = (φ ∘ Solver.Slot.wt) ∘ Prod.snd := rfl
        rw [this, ← List.map_map, List.map_snd_zip, List.map_map]
        rw [List.length_map, Cluster.gather_length _ _ hii, hslen]
      rw [e2, e3, zero_add]
    · rw [List.length_zip, List.length_map, Cluster.gather_length _ _ hii, hslen]; simp
    · intro i _ b hb
      rw [List.getElem?_map] at hb
      obtain ⟨n, _, rfl⟩ := Option.map_eq_some_iff.mp hb
      exact hφ
  set w := res.slots.map Solver.Slot.wt with hw
  have hS : (l'.map Cluster.Nb.pmem).sum = w.sum := by simpa using hsumφ id rfl
  have hS3 : (l'.map fun m => m.pmem * (1 - m.pmem)).sum = w.sum - (w.map fun x => x * x).sum := by
    rw [hsumφ (fun x => x * (1 - x)) (by simp)]
    generalize w = t
    induction t with
    | nil => simp
    | cons a t ih => simp only [List.map_cons, List.sum_cons, ih]; ring
  have hpos : 0 < w.sum := by rw [← hS]; exact hs
  have hlam : (0 : α) < lam := by linarith
  have hdiv : 0 < lam / w.sum := div_pos hlam hpos
  have hcerr : ∀ a b, Cluster.lambdaCerr E.rich z mstar mpc lam a w b = 0 := by
    intro a b
    unfold Cluster.lambdaCerr
    simp [hm]
  rw [hS3]
  rw [hk]
  simp only [if_true, hcerr, mul_zero, add_zero, abs_of_pos hdiv]
  congr 1
  field_simp

/-- C368 as one would state it: the error of no good cluster is the root of a negative number. -/
def VarOK (E : Env G P α) (rc : Bool) (cs : List (Runner.Cluster α)) : Prop := ∀ o ∈ run E rc cs, o.good = true → 0 ≤ memberVar o

/-- C368, the part that holds: of a cluster none of whose neighbours has been used up. -/
theorem C368_partial (E : Env G P α) (he : Cluster.EnvOK E.rich) (rc : Bool) (pre post : List (Runner.Cluster α)) (c : Runner.Cluster α)
    (hr : ∀ n ∈ E.find c, 0 ≤ n.r) (hav : ∀ n ∈ E.find c, 0 ≤ avail (runner E) rc () pre n.index)
    (o : Runner.Out α) (ho : (run E rc (pre ++ c :: post))[pre.length]? = some o) (hg : o.good = true) : 0 ≤ memberVar o := by
  obtain ⟨h, _⟩ := C367_partial E he rc pre post c hr hav o ho hg
  unfold memberVar
  apply List.sum_nonneg
  intro x hx
  obtain ⟨n, hn, rfl⟩ := List.mem_map.mp hx
  obtain ⟨h1, h2, h3⟩ := h n hn
  exact mul_nonneg h1 (by linarith)

/-! ## C369: which clusters are kept -/

/-- The cluster as its richness sees it, after the clusters in `pre`: at its redshift, the neighbours with what is left of them. -/
def seen (E : Env G P α) (rc : Bool) (pre : List (Runner.Cluster α)) (c : Runner.Cluster α) : Cluster.Cl G P α where
  pos := E.pos c.id
  z := some c.redshift
  mstar := some (E.rich.mstarOf c.redshift)
  mpc := some (E.rich.mpcOf c.redshift)
  nbs := some ((E.find c).map fun n => { g := E.gal n.index, refmag := n.refmag, refmagErr := E.err n.index, pfree := avail (runner E) rc () pre n.index, dist := 0, r := n.r,
                                         chisq := 0, thetaI := 0, thetaR := 0, p := n.p, pcol := 0, pmem := n.pmem, index := (n.index : Int) })
  Lambda := c.Lambda
  LambdaE := c.LambdaE
  rLambda := c.rLambda
  scaleval := c.scaleval

/-- What a cluster must meet to be kept, after the clusters in `pre`: it has neighbours, its depth is above one, no more than seven tenths of it is masked, its richness (of the
neighbours with what is left of them) comes out at three or more, and its photometric redshift does not fail. -/
def Kept (E : Env G P α) (rc : Bool) (pre : List (Runner.Cluster α)) (c : Runner.Cluster α) : Prop :=
  E.find c ≠ [] ∧ 1 < (E.depth c).1 ∧ (E.depth c).2 ≤ 7 / 10 ∧
  ∃ (k : Cluster.Cl G P α) (lam : α),
    Cluster.richness E.rich true none (seen E rc pre c)
      = (k, .ok lam) ∧ 3 ≤ lam ∧ E.zlam k ≠ none

/-- C369: a cluster of the catalog is kept exactly if it meets these; a cluster that is not kept has no member rows. -/
theorem C369_kept (E : Env G P α) (rc : Bool) (pre post : List (Runner.Cluster α)) (c : Runner.Cluster α) :
    ∃ o, (run E rc (pre ++ c :: post))[pre.length]? = some o ∧ (o.good = true ↔ Kept E rc pre c) ∧ (o.good = false → o.mem = none) := by
  refine ⟨_, run_at E rc pre post c, ?_⟩
  set s := (Runner.loop1 (runner E) true rc () pre).1 with hs
  have hgood : (Runner.stepC (runner E) true rc s c).2.good = true ↔ ¬ Runner.Rejected (runner E) true s c := by
    constructor
    · intro hg hr
      obtain ⟨_, _, _, e⟩ := Runner.stepC_rejected (runner E) true rc s c hr
      rw [e] at hg
      simp at hg
    · intro h
      obtain ⟨_, _, _, e, _⟩ := Runner.stepC_accepted' (runner E) true rc s c h
      rw [e]
  refine ⟨?_, ?_⟩
  · rw [hgood]
    have hoff : Runner.offered (runner E) true s c = offer E s.pgal c := by simp [Runner.offered, offer, runner]
    have hd : ∀ u ns, (runner E).depth u c ns = ((), E.depth c) := fun _ _ => rfl
    have hp : ∀ u c' ns, (runner E).process u c' ns = ((), process E c' ns) := fun _ _ _ => rfl
    unfold Runner.Rejected Kept
    rw [hoff]
    simp only [hd, hp]
    have hcl : ∀ m f : α, toCl E { c with limmag := m, maskfrac := f } (offer E s.pgal c) =
        (seen E rc pre c) := by
      intro m f
      unfold toCl offer seen
      rw [List.map_map]
      rfl
    have hproc : (process E { c with limmag := (E.depth c).1, maskfrac := (E.depth c).2 } (offer E s.pgal c)).1 = true ↔
        ¬ ((E.depth c).2 ≤ 7 / 10 ∧ ∃ (k : Cluster.Cl G P α) (lam : α),
          Cluster.richness E.rich true none (seen E rc pre c) = (k, .ok lam) ∧ 3 ≤ lam ∧ E.zlam k ≠ none) := by
      unfold process
      rw [hcl]
      simp only
      by_cases h3 : 7 / 10 < (E.depth c).2
      · rw [if_pos h3]
        simp [h3]
      · rw [if_neg h3]
        cases hr : Cluster.richness E.rich true none (seen E rc pre c) with
        | mk k res =>
          cases res with
          | error e => simp
          | ok lam =>
            simp only
            by_cases h4 : lam < 3
            · rw [if_pos h4]
              simp [h4]
            · rw [if_neg h4]
              cases hz : E.zlam k with
              | none => simp [hz]
              | some q => simp [hz, not_lt.mp h3, not_lt.mp h4]
    rw [hproc]
    show ¬ (E.find c = [] ∨ _) ↔ _
    constructor
    · intro h
      push Not at h
      obtain ⟨h1, h2, h3, h4⟩ := h
      exact ⟨h1, h3, h4.1, h4.2⟩
    · rintro ⟨h1, h2, h3, h4⟩ (h | h | h | h)
      · exact h1 h
      · rw [h] at h3; norm_num at h3
      · exact absurd h2 (not_lt.mpr h)
      · exact h ⟨h3, h4⟩
  · intro hb
    have hr : Runner.Rejected (runner E) true s c := by
      by_contra h
      rw [hgood.mpr h] at hb
      simp at hb
    obtain ⟨_, _, _, e⟩ := Runner.stepC_rejected (runner E) true rc s c hr
    rw [e]

/-- C369: a cluster that is kept carries that richness, its error, scale and radius. -/
theorem C369_values (E : Env G P α) (rc : Bool) (pre post : List (Runner.Cluster α)) (c : Runner.Cluster α) (o : Runner.Out α)
    (ho : (run E rc (pre ++ c :: post))[pre.length]? = some o) (hg : o.good = true) :
    ∃ (k : Cluster.Cl G P α) (lam : α), Cluster.richness E.rich true none (seen E rc pre c) = (k, .ok lam) ∧
      o.c.Lambda = lam ∧ o.c.LambdaE = k.LambdaE ∧ o.c.scaleval = k.scaleval ∧ o.c.rLambda = k.rLambda := by
  rw [run_at] at ho
  obtain rfl := (Option.some.inj ho)
  obtain ⟨c1, k, lam, ⟨⟨m, f, rfl⟩, hrl, _⟩, h1, h2, h3, h4, h5, h6, h7⟩ := good_step E rc _ c hg
  refine ⟨k, lam, ?_, h3, h4, h5, hrl⟩
  rw [← h1]
  congr 1
  unfold toCl offer seen
  rw [List.map_map]
  rfl

/-! ## Witness: three clusters that share a galaxy -/

/-- Galaxies at a tenth of a megaparsec; a background that makes members 96 percent likely or so. -/
def toyRich : Cluster.Env Unit Unit ℚ where
  sph _ _ := 0
  pos _ := ()
  mstarOf _ := 20
  mpcOf _ := 1
  chisqOf _ _ := 1
  rho _ := 1
  nfw _ := 1
  phi _ _ _ := 1
  sigma _ _ _ := some (1 / 5)
  theta _ _ _ _ := 1
  maskcorr _ _ _ := (0, 0, 0, 0)
  twopi := 6
  lval := -2
  limmag := 25
  rlam _ := 1
  nfwnorm _ := 1
  soft _ := 1
  rsig := 0
  maskgals := []
  beta := 1 / 5
  gamma := 3 / 10
  sqrt x := x

/-- Cluster `k` has the galaxy 0 and five of its own. -/
def toy : Env Unit Unit ℚ where
  rich := toyRich
  gal _ := ()
  err _ := 1 / 10
  pos _ := ()
  find c := ([0] ++ (List.range 5).map fun j => 10 * c.id.toNat + j + 1).map fun i =>
    { index := i, gid := i, refmag := 18, r := 1 / 10, p := 0, pmem := 0, pfree := 1, cand := false }
  depth _ := (22, 0)
  zlam _ := some (1 / 5, 1 / 100)
  after c := (c.zLambda, c.zLambdaE, 0)
  rmaskRaw _ _ := some 1
  maskLim _ := 21
  useMemradius := false
  useMemlum := false
  memradius := 1
  memLim _ := 21

def toyCl (k : Int) : Runner.Cluster ℚ := ⟨k, 0, 0, 0, 0, 0, 1 / 5, 0, 0, 22, none⟩

theorem toyRich_ok : Cluster.EnvOK toyRich where
  twopi := by norm_num [toyRich]
  nfw _ := by norm_num [toyRich]
  phi _ _ _ := by norm_num [toyRich]
  rho _ := by norm_num [toyRich]
  sigma _ _ _ s h := by simp only [toyRich, Option.some.injEq] at h; rw [← h]; norm_num
  theta _ _ _ _ := by norm_num [toyRich]
  nfwnorm _ := by norm_num [toyRich]
  soft _ := by norm_num [toyRich]

theorem toy_r : ∀ c : Runner.Cluster ℚ, ∀ n ∈ toy.find c, 0 ≤ n.r := by
  intro c n hn
  simp only [toy, List.mem_map] at hn
  obtain ⟨i, _, rfl⟩ := hn
  norm_num

/-- All three clusters of the example are good; in the last one the shared galaxy has a negative membership, and the variance is negative. -/
theorem toy_run : ((run toy true [toyCl 1, toyCl 2, toyCl 3]).all fun o => o.good) = true ∧
    ((run toy true [toyCl 1, toyCl 2, toyCl 3]).any fun o => o.good && (o.nbrs.any fun n => decide (n.pmem < 0)) && decide (memberVar o < 0)
      && decide (0 < (o.nbrs.map Runner.Nbr.pmem).sum) && decide (o.c.scaleval ≠ 0)) = true := by decide +kernel

/-- C367 is false: a galaxy in three clusters has a negative membership probability in the last, and lowers its richness. -/
theorem C367_false : Cluster.EnvOK toy.rich ∧ (∀ c, ∀ n ∈ toy.find c, 0 ≤ n.r) ∧ ¬ MembersOK toy true [toyCl 1, toyCl 2, toyCl 3] := by
  refine ⟨toyRich_ok, toy_r, fun h => ?_⟩
  obtain ⟨o, ho, hp⟩ := List.any_eq_true.mp toy_run.2
  simp only [Bool.and_eq_true, decide_eq_true_eq] at hp
  obtain ⟨n, hn, hlt⟩ := List.any_eq_true.mp hp.1.1.1.2
  exact absurd (h o ho hp.1.1.1.1 n hn).1 (not_le.mpr (of_decide_eq_true hlt))

/-- C368 is false: the error of that cluster is the root of a negative number. -/
theorem C368_false : Cluster.EnvOK toy.rich ∧ (∀ c, ∀ n ∈ toy.find c, 0 ≤ n.r) ∧ ¬ VarOK toy true [toyCl 1, toyCl 2, toyCl 3] ∧
    ∃ o ∈ run toy true [toyCl 1, toyCl 2, toyCl 3], o.good = true ∧ ∃ x < 0, o.c.LambdaE = toy.rich.sqrt x := by
  obtain ⟨o, ho, hp⟩ := List.any_eq_true.mp toy_run.2
  simp only [Bool.and_eq_true, decide_eq_true_eq] at hp
  obtain ⟨⟨⟨⟨hg, _⟩, hv⟩, hs⟩, hsc⟩ := hp
  refine ⟨toyRich_ok, toy_r, fun h => absurd (h o ho hg) (not_le.mpr hv), o, ho, hg, _, ?_, C368_formula toy rfl true _ o ho hg hs⟩
  exact mul_neg_of_pos_of_neg (mul_self_pos.mpr hsc) hv

/-- The example with the masking limit brighter than the galaxies. -/
def toyFaint : Env Unit Unit ℚ := { toy with maskLim := fun _ => 17 }

/-- C370 is false: a galaxy that is fainter than the masking limit, but counts in the richness, counts in every cluster again. -/
theorem C370_false : Cluster.EnvOK toyFaint.rich ∧ toyFaint.rich.rsig ≤ 0 ∧ ¬ OnceOK toyFaint true [toyCl 1, toyCl 2] := by
  refine ⟨toyRich_ok, le_refl _, fun h => ?_⟩
  have h0 := h 0
  revert h0
  decide +kernel

/-- The toy example meets the hypotheses of `C370_partial`, and the shared galaxy counts as more than nine tenths. -/
example : (∀ c : Runner.Cluster ℚ, ((toy.find c).map Runner.Nbr.index).Nodup) ∧ toy.rich.rsig ≤ 0 ∧ (∀ l z, toy.rmaskRaw l z ≠ none) ∧
    (∀ c : Runner.Cluster ℚ, ∀ n ∈ toy.find c, n.index = 0 → n.refmag < toy.maskLim c.redshift) ∧ 9 / 10 < total toy true [toyCl 1, toyCl 2] 0 := by
  refine ⟨fun c => ?_, le_refl _, fun _ _ => by simp [toy], ?_, by decide +kernel⟩
  · have : (toy.find c).map Runner.Nbr.index = [0, 10 * c.id.toNat + 0 + 1, 10 * c.id.toNat + 1 + 1, 10 * c.id.toNat + 2 + 1, 10 * c.id.toNat + 3 + 1, 10 * c.id.toNat + 4 + 1] := rfl
    rw [this]
    simp
  intro c n hn _
  simp only [toy, List.mem_map] at hn
  obtain ⟨i, _, rfl⟩ := hn
  norm_num [toy]

/-- The first two clusters of the example meet the hypotheses of `C367_partial`. -/
example : (∀ c : Runner.Cluster ℚ, ∀ n ∈ toy.find c, 0 ≤ n.r) ∧ ∀ n ∈ toy.find (toyCl 2), 0 ≤ avail (runner toy) true () [toyCl 1] n.index := by
  refine ⟨toy_r, fun n _ => C367_pairs toy toyRich_ok toy_r true [toyCl 1] n.index ?_⟩
  refine le_trans List.countP_le_length ?_
  simp

end Redmapper.Perc
