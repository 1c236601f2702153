/-
Properties of a percolation run: no galaxy is the center of two clusters.
-/
import Verif.Model.PercRun
import Verif.Props.PercCen
import Verif.Lemmas.Runner
import Verif.Props.Runner
import Mathlib.Tactic

set_option linter.unusedSectionVars false

namespace Redmapper.PercRun

open Redmapper.PercCen (key)

variable {α : Type} [Field α] [LinearOrder α] [IsStrictOrderedRing α] {G P : Type}

/-! ## One step of the run -/

/-- The neighbours of a cluster as they are offered to it. -/
def offer (E : Env G P α) (pgal : Nat → α) (c : Runner.Cluster α) : List (Runner.Nbr α) :=
  (E.find c).map fun n => { n with pfree := 1 - pgal n.index }

/-- The cluster as it is when it is percolated. -/
def withDepth (E : Env G P α) (c : Runner.Cluster α) : Runner.Cluster α := { c with limmag := (E.depth c).1, maskfrac := (E.depth c).2 }

/-- The state after one cluster, for any runner. -/
theorem step_state {σ : Type} (E : Runner.Env α σ) (dm rc : Bool) (s : Runner.St α σ) (c : Runner.Cluster α) :
    ((E.neighbors c).isEmpty = true ∧ (Runner.stepC E dm rc s c).1 = { s with sig := E.sample s.sig } ∧ (Runner.stepC E dm rc s c).2.good = false) ∨
    (∃ ns d, ns = Runner.offered E dm s c ∧ d = E.depth (E.sample s.sig) c ns ∧
      (((d.2.2 = 1 ∨ d.2.1 ≤ 1) ∧ (Runner.stepC E dm rc s c).1 = { s with sig := d.1 } ∧ (Runner.stepC E dm rc s c).2.good = false) ∨
       ∃ pr, pr = E.process d.1 { c with limmag := d.2.1, maskfrac := d.2.2 } ns ∧
        ((pr.2.1 = true ∧ (Runner.stepC E dm rc s c).1 = { s with sig := pr.1 } ∧ (Runner.stepC E dm rc s c).2.good = false) ∨
         (pr.2.1 = false ∧ (Runner.stepC E dm rc s c).2.good = true ∧ ∃ (c2 c3 : Runner.Cluster α),
            c2 = { pr.2.2.1 with id := c.id } ∧ c3.Lambda = c2.Lambda ∧ c3.redshift = c2.redshift ∧ c3.rLambda = c2.rLambda ∧
            (Runner.stepC E dm rc s c).1 = { pgal := (if dm = true then Runner.addMask E c3 (Runner.applyUpd pr.2.2.2 ns) s.pgal else s.pgal), sig := (E.after pr.1 c2 (Runner.applyUpd pr.2.2.2 ns)).1 })))) := by
  by_cases h0 : (E.neighbors c).isEmpty = true
  · left
    refine ⟨h0, ?_⟩
    unfold Runner.stepC
    simp only
    rw [if_pos h0]
    exact ⟨rfl, rfl⟩
  · right
    refine ⟨_, _, rfl, rfl, ?_⟩
    by_cases h1 : ((E.depth (E.sample s.sig) c (Runner.offered E dm s c)).2.2 = 1 ∨ (E.depth (E.sample s.sig) c (Runner.offered E dm s c)).2.1 ≤ 1)
    · left
      refine ⟨h1, ?_⟩
      unfold Runner.offered at h1
      unfold Runner.stepC
      simp only
      rw [if_neg h0, if_pos h1]
      exact ⟨rfl, rfl⟩
    · right
      refine ⟨_, rfl, ?_⟩
      by_cases h2 : (E.process (E.depth (E.sample s.sig) c (Runner.offered E dm s c)).1 { c with limmag := (E.depth (E.sample s.sig) c (Runner.offered E dm s c)).2.1, maskfrac := (E.depth (E.sample s.sig) c (Runner.offered E dm s c)).2.2 } (Runner.offered E dm s c)).2.1 = true
      · left
        refine ⟨h2, ?_⟩
        unfold Runner.offered at h1 h2
        unfold Runner.stepC
        simp only
        rw [if_neg h0, if_neg h1, if_pos h2]
        exact ⟨rfl, rfl⟩
      · right
        refine ⟨Bool.eq_false_iff.mpr h2, ?_⟩
        unfold Runner.offered at h1 h2
        unfold Runner.stepC
        simp only
        rw [if_neg h0, if_neg h1, if_neg h2]
        refine ⟨rfl, _, _, rfl, ?_, ?_, ?_, rfl⟩ <;> rfl

/-- A cluster is left out, and nothing else changes; or it is kept: its center is recorded, and its galaxies are masked. -/
theorem step_cases (E : Env G P α) (rc : Bool) (s : Runner.St α (List (Cen α))) (c : Runner.Cluster α) :
    ((Runner.stepC (runner E) true rc s c).1 = s ∧ (Runner.stepC (runner E) true rc s c).2.good = false) ∨
    ∃ (o : Finders.PS α (PercCen.Rest G P α)) (c3 : Runner.Cluster α), percolate E (withDepth E c) (offer E s.pgal c) = (false, o) ∧
      (Runner.stepC (runner E) true rc s c).2.good = true ∧
      c3.Lambda = o.Lambda ∧ c3.redshift = o.redshift ∧ c3.rLambda = o.rest.cl.rLambda ∧
      (Runner.stepC (runner E) true rc s c).1 =
        { pgal := Runner.addMask (runner E) c3 (Runner.applyUpd (upd o) (offer E s.pgal c)) s.pgal, sig := s.sig ++ [cenOf c.id o] } := by
  have hoff : Runner.offered (runner E) true s c = offer E s.pgal c := by
    unfold Runner.offered offer
    simp only [if_true]
    rfl
  rcases step_state (runner E) true rc s c with ⟨_, h1, h2⟩ | ⟨ns, d, hns, hd, h⟩
  · left; exact ⟨h1, h2⟩
  · rw [hoff] at hns
    subst hns
    have hd1 : d = (s.sig, E.depth c) := hd
    subst hd1
    rcases h with ⟨_, h1, h2⟩ | ⟨pr, hpr, h⟩
    · left; exact ⟨h1, h2⟩
    · have hpr1 : pr = ((if (percolate E (withDepth E c) (offer E s.pgal c)).1 then s.sig else s.sig ++ [cenOf c.id (percolate E (withDepth E c) (offer E s.pgal c)).2], (percolate E (withDepth E c) (offer E s.pgal c)).1,
          { withDepth E c with Lambda := (percolate E (withDepth E c) (offer E s.pgal c)).2.Lambda, LambdaE := (percolate E (withDepth E c) (offer E s.pgal c)).2.rest.cl.LambdaE, scaleval := (percolate E (withDepth E c) (offer E s.pgal c)).2.scaleval, zLambda := (percolate E (withDepth E c) (offer E s.pgal c)).2.zLambda, zLambdaE := (percolate E (withDepth E c) (offer E s.pgal c)).2.zLambdaE, redshift := (percolate E (withDepth E c) (offer E s.pgal c)).2.redshift, rLambda := (percolate E (withDepth E c) (offer E s.pgal c)).2.rest.cl.rLambda },
          upd (percolate E (withDepth E c) (offer E s.pgal c)).2) : List (Cen α) × Bool × Runner.Cluster α × (Nat → Runner.Upd α)) := hpr
      rcases ho : percolate E (withDepth E c) (offer E s.pgal c) with ⟨b, o⟩
      rw [ho] at hpr1
      subst hpr1
      rcases h with ⟨hb, h1, h2⟩ | ⟨hb, h1, c2, c3, hc2, g1, g2, g3, h2⟩
      · left
        have hb' : b = true := hb
        subst hb'
        exact ⟨h1, h2⟩
      · right
        have hb' : b = false := hb
        subst hb'
        subst hc2
        refine ⟨o, c3, rfl, h1, g1, g2, g3, ?_⟩
        rw [h2]
        rfl

/-! ## A cluster that is kept -/

/-- The columns of a neighbour that neither richness nor centering touch. -/
def fixed (n : Cluster.Nb G α) : α × α × Int := (n.pfree, n.refmag, n.index)

/-- What the run is assumed to be given: a minimum richness above one, an availability cut, neighbours and centering candidates without repetitions; a centering that moves the
distances and nothing else, with the central galaxy at distance zero; a radius of one parsec or more for every richness, and a masking radius for every richness. -/
structure Plain (E : Env G P α) : Prop where
  min : 1 < E.perc.minlambda
  iter : 1 ≤ E.perc.maxiter
  cut : 0 < E.perc.pbcgCut
  find : ∀ c, ((E.find c).map Runner.Nbr.index).Nodup
  lc : ∀ cl, (E.perc.lc cl).Nodup
  center : ∀ cl z k cl' l, cl.nbs = some l → E.perc.center cl z = some (k, cl') → ∃ l', cl'.nbs = some l' ∧ l'.map fixed = l.map fixed ∧
    ∀ i, k = .galaxy i → ∃ n, l'[i]? = some n ∧ n.dist = 0
  radius : ∀ cl lam, 1 ≤ lam → 1 / 1000000 < (E.perc.maskAt cl).rlam lam
  mask : ∀ lam z, 1 ≤ lam → E.rmaskRaw lam z ≠ none

theorem solved_facts (env : Cluster.Env G P α) (z : α) (c' : Finders.PS α (PercCen.Rest G P α)) (hs : PercCen.Solved env z c') (hgt : 1 < c'.Lambda / c'.scaleval) :
    ∃ l', c'.rest.cl.nbs = some l' ∧ 1 ≤ c'.Lambda ∧ c'.rest.cl.rLambda = env.rlam c'.Lambda ∧ ∀ (j : Nat) (m : Cluster.Nb G α), l'[j]? = some m → m.r = PercCen.radius env z m := by
  obtain ⟨x, hx1, hx2, e1, e2, e3⟩ := hs
  rw [e1, e2] at hgt
  obtain ⟨cl, k, lam, hsz, hr, h0, e⟩ := PercCen.richOf_found true none PercCen.none_ok x hgt
  obtain ⟨_, _, _, l1, l', xx, _, _, _, h1, h2, _, hv⟩ := Cluster.C125_values x.rest.env true none PercCen.none_ok cl k lam hr h0
  obtain ⟨l0, hl0⟩ := PercCen.setZ_nbs _ _ _ _ hsz l1 h1
  obtain ⟨hz, hcl, _⟩ := PercCen.setZ_ok _ _ _ _ hsz l0 hl0
  have e4 : l1 = l0.map fun n => { n with r := PercCen.radius x.rest.env x.redshift n } := Option.some.inj (h1.symm.trans hcl)
  have hkc : c'.rest.cl = k := by rw [e3, e]
  have hlen : l'.length = l1.length := PercCen.richness_len _ true none PercCen.none_ok _ _ _ hr _ _ h1 h2
  have hlam : c'.Lambda = lam := by rw [e1, e]
  refine ⟨l', by rw [hkc]; exact h2, ?_⟩
  rw [hlam, hkc]
  refine and_assoc.mp ⟨?_, ?_⟩
  · obtain ⟨z, mstar, mpc, l, l1, idx, res, hz, hm, hk, hl, hidx, hnd, hi, hl1, hg, hss, hc⟩ := Cluster.richness_cases _ true none cl k lam PercCen.none_ok hr
    rcases hc with ⟨hL, _, _⟩ | ⟨hL, _, _, _, hK⟩
    · rw [hL] at h0; exact absurd h0 (by norm_num)
    · subst hL hK
      have := Cluster.solver_ok hss h0
      exact ⟨this.1, by rw [← hx2]; exact this.2.2⟩
  · intro j m hm
    have hlt : j < l1.length := by rw [← hlen]; exact (List.getElem?_eq_some_iff.mp hm).1
    have hj : l1[j]? = some l1[j] := List.getElem?_eq_getElem hlt
    obtain ⟨⟨_, _, _, _, a5, a6, _⟩, _⟩ := hv j _ _ hj hm
    have : l1[j] = { l0[j]'(by rw [e4, List.length_map] at hlt; exact hlt) with r := PercCen.radius x.rest.env x.redshift (l0[j]'(by rw [e4, List.length_map] at hlt; exact hlt)) } := by
      simp only [e4, List.getElem_map]
    rw [a6, this]
    unfold PercCen.radius
    rw [a5, this, ← hx1, ← hx2]

theorem map_fixed (l l' : List (Cluster.Nb G α)) (h : l'.map key = l.map key) : l'.map fixed = l.map fixed := by
  have e : ∀ l : List (Cluster.Nb G α), l.map fixed = (l.map key).map fun q => (q.1, q.2.2) := by
    intro l; rw [List.map_map]; rfl
  rw [e, e, h]

/-- What is known of a cluster that is kept. -/
theorem kept (E : Env G P α) (hE : Plain E) (c : Runner.Cluster α) (ns : List (Runner.Nbr α)) (o : Finders.PS α (PercCen.Rest G P α)) (h : percolate E c ns = (false, o)) :
    (PercCen.nbs o).map fixed = ns.map (fun n => (n.pfree, n.refmag, (n.index : Int))) ∧
    ∀ i, o.rest.cen = some (.galaxy i) → ∃ n, (PercCen.nbs o)[i]? = some n ∧ E.perc.pbcgCut ≤ n.pfree ∧
      (0 ≤ o.zLambda → 1 ≤ o.Lambda ∧ n.r < o.rest.cl.rLambda) := by
  have h1 : (PercCen.process { E.perc with rich := E.rich c } c.redshift c.Lambda c.scaleval (toCl E c ns)).1 = false := by
    have := congrArg Prod.fst h; exact this
  have h2 : (PercCen.process { E.perc with rich := E.rich c } c.redshift c.Lambda c.scaleval (toCl E c ns)).2 = o := by
    have := congrArg Prod.snd h; exact this
  have h371 := PercCen.C371_partial { E.perc with rich := E.rich c } hE.iter hE.cut c.redshift c.Lambda c.scaleval (toCl E c ns) h1
  rw [h2] at h371
  obtain ⟨c2, c', k, cl0, cl, a1, a2, a3, hl, a4, hk, hcase⟩ := PercCen.process_spec { E.perc with rich := E.rich c } hE.iter c.redshift c.Lambda c.scaleval (toCl E c ns) h1
  rw [h2] at hcase
  have hrest : o.rest = c'.rest := by
    rcases hcase with ⟨_, e⟩ | ⟨_, e⟩ <;> rw [e] <;> rfl
  obtain ⟨l0, b1, b2⟩ := (hk hE.min).2 (hE.lc _) _ rfl
  obtain ⟨l1, d1, d2, d3⟩ := hE.center cl0 c2.redshift k cl l0 b1 a1
  obtain ⟨l2, f1, f2⟩ := (hk hE.min).1 l1 (by rw [a2]; exact d1)
  have hnbs : PercCen.nbs o = l2 := by
    unfold PercCen.nbs
    rw [hrest, f1]
    rfl
  refine ⟨?_, ?_⟩
  · rw [hnbs, map_fixed _ _ f2, d2, map_fixed _ _ b2, List.map_map]
    rfl
  · intro i hi
    obtain ⟨n, hn1, hn2⟩ := h371 i hi
    refine ⟨n, hn1, hn2, fun hz => ?_⟩
    rcases hcase with ⟨_, e⟩ | ⟨_, e⟩
    · rw [e] at hz
      exact absurd hz (by simp [Finders.reset])
    · rw [e]
      obtain ⟨l', g1, g2, g3, g4⟩ := solved_facts _ _ c' hl.solved (lt_of_lt_of_le hE.min hl.min)
      refine ⟨g2, ?_⟩
      rw [f1] at g1
      have el : l2 = l' := Option.some.inj g1
      rw [hnbs, el] at hn1
      rw [g4 i n hn1, g3, hl.env]
      -- the central galaxy has distance zero
      have hki : k = .galaxy i := by
        rw [hrest, hl.cen, a3] at hi
        exact Option.some.inj hi
      obtain ⟨n1, hn3, hn4⟩ := d3 i hki
      have hd : n.dist = 0 := by
        have := congrArg (fun x => x[i]?) f2
        simp only [List.getElem?_map, el, hn1, hn3, Option.map_some, Option.some.injEq] at this
        have := congrArg (fun q => q.2.1) this
        exact this.trans hn4
      unfold PercCen.radius
      rw [hd, mul_zero, max_eq_right (by norm_num)]
      exact hE.radius _ _ g2

/-! ## C374: no galaxy is the center of two clusters -/

/-- C374 as one would state it: no galaxy is the center of two clusters of the catalog. -/
def CentersOK (E : Env G P α) (rc : Bool) (cs : List (Runner.Cluster α)) : Prop := ((run E rc cs).1.filterMap Cen.gal).Nodup

/-- The central galaxy is a member beyond the availability cut, brighter than the masking limit, and the cluster was not given up. -/
def Dominant (E : Env G P α) (e : Cen α) : Prop := 1 - E.perc.pbcgCut < e.p ∧ 0 < e.p ∧ e.refmag < E.maskLim e.redshift ∧ 0 ≤ e.zLambda

/-- Galaxies that are centers are masked. -/
structure Inv (E : Env G P α) (s : Runner.St α (List (Cen α))) : Prop where
  nonneg : ∀ i, 0 ≤ s.pgal i
  used : ∀ e ∈ s.sig, ∀ i, e.gal = some i → Dominant E e → 1 - E.perc.pbcgCut < s.pgal i
  nodup : (∀ e ∈ s.sig, e.gal ≠ none → Dominant E e) → (s.sig.filterMap Cen.gal).Nodup

theorem addMask_ge {σ : Type} (E : Runner.Env α σ) (c : Runner.Cluster α) (ns : List (Runner.Nbr α)) (pgal : Nat → α) (i : Nat) : pgal i ≤ Runner.addMask E c ns pgal i := by
  unfold Runner.addMask
  split
  · exact le_refl _
  · next n hn =>
    have hm := List.mem_of_getLast? hn
    have hm1 := (List.mem_filter.mp (List.mem_filter.mp hm).1).2
    unfold Runner.maskedNbr at hm1
    split at hm1
    · simp at hm1
    · simp only [Bool.and_eq_true, decide_eq_true_eq] at hm1
      linarith [hm1.2]

/-- Masking adds the probability of the one neighbour that is the galaxy. -/
theorem addMask_at {σ : Type} (E : Runner.Env α σ) (c : Runner.Cluster α) (ns : List (Runner.Nbr α)) (pgal : Nat → α) (n : Runner.Nbr α) (hn : n ∈ ns) (hm : Runner.maskedNbr E c n = true)
    (hnd : (ns.map Runner.Nbr.index).Nodup) : Runner.addMask E c ns pgal n.index = pgal n.index + n.p := by
  have hu : ∀ m ∈ (ns.filter (Runner.maskedNbr E c)).filter (fun m => decide (m.index = n.index)), m = n := by
    intro m hm'
    have h1 := (List.mem_filter.mp (List.mem_filter.mp hm').1).1
    have h2 : m.index = n.index := by simpa using (List.mem_filter.mp hm').2
    exact List.inj_on_of_nodup_map hnd h1 hn h2
  have hmem : n ∈ (ns.filter (Runner.maskedNbr E c)).filter (fun m => decide (m.index = n.index)) := by
    simp [hn, hm]
  unfold Runner.addMask
  split
  · next h =>
    rw [List.getLast?_eq_none_iff] at h
    rw [h] at hmem
    simp at hmem
  · next m h => rw [hu m (List.mem_of_getLast? h)]

/-- The center of a cluster that is kept was available, and is masked if it is dominant. -/
theorem center_free (E : Env G P α) (hE : Plain E) (s : Runner.St α (List (Cen α))) (c : Runner.Cluster α) (o : Finders.PS α (PercCen.Rest G P α))
    (hp : percolate E (withDepth E c) (offer E s.pgal c) = (false, o)) (i : Nat) (hi : (cenOf c.id o).gal = some i) :
    s.pgal i ≤ 1 - E.perc.pbcgCut ∧
    ∀ c3 : Runner.Cluster α, c3.Lambda = o.Lambda → c3.redshift = o.redshift → c3.rLambda = o.rest.cl.rLambda → Dominant E (cenOf c.id o) →
      s.pgal i + (cenOf c.id o).p = Runner.addMask (runner E) c3 (Runner.applyUpd (upd o) (offer E s.pgal c)) s.pgal i := by
  obtain ⟨k1, k2⟩ := kept E hE _ _ o hp
  cases hc : o.rest.cen with
  | none => simp [cenOf, hc] at hi
  | some kk =>
    cases kk with
    | point => simp [cenOf, hc] at hi
    | galaxy j =>
      obtain ⟨n, hn1, hn2, hn3⟩ := k2 j hc
      simp only [cenOf, hc, hn1, Option.map_some, Option.some.injEq] at hi
      have hrow := congrArg (fun x => x[j]?) k1
      simp only [List.getElem?_map, hn1, Option.map_some] at hrow
      cases hq : (offer E s.pgal c)[j]? with
      | none => rw [hq] at hrow; simp at hrow
      | some q =>
        rw [hq] at hrow
        simp only [Option.map_some, Option.some.injEq, fixed, Prod.mk.injEq] at hrow
        obtain ⟨r1, r2, r3⟩ := hrow
        have hqi : q.index = i := by rw [← hi, r3, Int.toNat_natCast]
        have hqp : q.pfree = 1 - s.pgal i := by
          have hmem := List.mem_of_getElem? hq
          obtain ⟨q0, _, rfl⟩ := List.mem_map.mp hmem
          simp only at hqi ⊢
          rw [hqi]
        refine ⟨?_, fun c3 g1 g2 g3 hd => ?_⟩
        · rw [r1, hqp] at hn2
          linarith
        · obtain ⟨d1, d0, d2, d3⟩ := hd
          have d1' : 1 - E.perc.pbcgCut < n.p := by simpa only [cenOf, hc, hn1, Option.map_some, Option.getD_some] using d1
          have d0' : 0 < n.p := by simpa only [cenOf, hc, hn1, Option.map_some, Option.getD_some] using d0
          have d2' : n.refmag < E.maskLim o.redshift := by simpa only [cenOf, hc, hn1, Option.map_some, Option.getD_some] using d2
          have d3' : 0 ≤ o.zLambda := d3
          obtain ⟨e1, e2⟩ := hn3 d3'
          -- the row of the center after the percolation
          have hrow : (Runner.applyUpd (upd o) (offer E s.pgal c))[j]? = some { q with r := n.r, p := n.p, pmem := n.pmem, cand := decide (o.rest.cen = some (.galaxy j)) } := by
            unfold Runner.applyUpd
            rw [List.getElem?_mapIdx, hq]
            simp only [Option.map_some, upd, hn1]
          have hmasked : Runner.maskedNbr (runner E) c3 { q with r := n.r, p := n.p, pmem := n.pmem, cand := decide (o.rest.cen = some (.galaxy j)) } = true := by
            unfold Runner.maskedNbr
            cases hr : Runner.rmask (runner E) c3 with
            | none =>
              exfalso
              unfold Runner.rmask at hr
              cases hraw : (runner E).rmaskRaw c3.Lambda c3.redshift with
              | none => exact hE.mask c3.Lambda c3.redshift (by rw [g1]; exact e1) hraw
              | some r => rw [hraw] at hr; simp only at hr; split_ifs at hr
            | some rm =>
              have hle := Runner.rmask_ge (runner E) c3 rm hr
              have hl : (runner E).maskLim c3.redshift = E.maskLim o.redshift := by rw [g2]; rfl
              simp only [Bool.and_eq_true, decide_eq_true_eq]
              refine ⟨⟨?_, ?_⟩, d0'⟩
              · rw [hl, ← r2]; exact d2'
              · rw [g3] at hle
                exact lt_of_lt_of_le e2 hle
          have hnd : ((Runner.applyUpd (upd o) (offer E s.pgal c)).map Runner.Nbr.index).Nodup := by
            have : (Runner.applyUpd (upd o) (offer E s.pgal c)).map Runner.Nbr.index = (E.find c).map Runner.Nbr.index := by
              unfold Runner.applyUpd offer
              apply List.ext_getElem
              · simp
              · intro a h1 h2; simp
            rw [this]
            exact hE.find c
          have := addMask_at (runner E) c3 _ s.pgal _ (List.mem_of_getElem? hrow) hmasked hnd
          simp only [hqi] at this
          rw [this]
          simp only [cenOf, hc, hn1, Option.map_some, Option.getD_some]

theorem inv_step (E : Env G P α) (hE : Plain E) (rc : Bool) (s : Runner.St α (List (Cen α))) (c : Runner.Cluster α) (hI : Inv E s) : Inv E (Runner.stepC (runner E) true rc s c).1 := by
  rcases step_cases E rc s c with ⟨h, _⟩ | ⟨o, c3, hp, _, g1, g2, g3, h⟩
  · rw [h]; exact hI
  · rw [h]
    have hge : ∀ i, s.pgal i ≤ Runner.addMask (runner E) c3 (Runner.applyUpd (upd o) (offer E s.pgal c)) s.pgal i := fun i => addMask_ge _ _ _ _ i
    -- the new center
    have hnew : ∀ i, (cenOf c.id o).gal = some i → s.pgal i ≤ 1 - E.perc.pbcgCut ∧
        (Dominant E (cenOf c.id o) → 1 - E.perc.pbcgCut < Runner.addMask (runner E) c3 (Runner.applyUpd (upd o) (offer E s.pgal c)) s.pgal i) := by
      intro i hi
      obtain ⟨q1, q2⟩ := center_free E hE s c o hp i hi
      refine ⟨q1, fun hd => ?_⟩
      rw [← q2 c3 g1 g2 g3 hd]
      linarith [hI.nonneg i, hd.1]
    refine ⟨fun i => le_trans (hI.nonneg i) (hge i), ?_, ?_⟩
    · intro e he i hi hd
      rcases List.mem_append.mp he with he' | he'
      · exact lt_of_lt_of_le (hI.used e he' i hi hd) (hge i)
      · rw [List.mem_singleton] at he'
        subst he'
        exact (hnew i hi).2 hd
    · intro hall
      rw [List.filterMap_append]
      have hold := hI.nodup (fun e he hne => hall e (List.mem_append_left _ he) hne)
      cases hg : (cenOf c.id o).gal with
      | none => simp [hg, hold]
      | some i =>
        have : [cenOf c.id o].filterMap Cen.gal = [i] := by simp [hg]
        rw [this]
        refine List.Nodup.append hold (List.nodup_singleton i) ?_
        intro a ha hb
        rw [List.mem_singleton] at hb
        subst hb
        obtain ⟨e, he, hea⟩ := List.mem_filterMap.mp ha
        have h1 := hI.used e he a hea (hall e (List.mem_append_left _ he) (by rw [hea]; simp))
        exact absurd h1 (not_lt.mpr (hnew a hg).1)

theorem inv_pass (E : Env G P α) (hE : Plain E) (rc : Bool) (cs : List (Runner.Cluster α)) : ∀ s : Runner.St α (List (Cen α)), Inv E s → Inv E (Runner.pass (runner E) true rc s cs).1 := by
  induction cs with
  | nil => intro s h; exact h
  | cons c cs ih =>
    intro s h
    exact ih _ (inv_step E hE rc s c h)

theorem inv_init (E : Env G P α) : Inv E (Runner.initSt []) :=
  ⟨fun _ => le_refl _, fun e he => by simp [Runner.initSt] at he, fun _ => by simp [Runner.initSt]⟩

/-- C374, the part that holds: if every central galaxy is a member beyond the availability cut, and brighter than the masking limit, no galaxy is the center of two clusters. -/
theorem C374_partial (E : Env G P α) (hE : Plain E) (rc : Bool) (cs : List (Runner.Cluster α)) (hd : ∀ e ∈ (run E rc cs).1, e.gal ≠ none → Dominant E e) : CentersOK E rc cs :=
  (inv_pass E hE rc cs _ (inv_init E)).nodup hd

/-- The centers of the catalog are those of the clusters that were kept, in order. -/
theorem recorded_pass (E : Env G P α) (rc : Bool) (cs : List (Runner.Cluster α)) : ∀ s : Runner.St α (List (Cen α)),
    (Runner.pass (runner E) true rc s cs).1.sig.map Cen.id = s.sig.map Cen.id ++ ((Runner.pass (runner E) true rc s cs).2.filter Runner.Out.good).map fun o => o.c.id := by
  induction cs with
  | nil => intro s; simp [Runner.pass]
  | cons c cs ih =>
    intro s
    have hid : (Runner.stepC (runner E) true rc s c).2.c.id = c.id := Runner.stepC_id _ _ _ _ _
    simp only [Runner.pass]
    rw [ih]
    rcases step_cases E rc s c with ⟨h1, h2⟩ | ⟨o, c3, _, h2, _, _, _, h1⟩
    · rw [h1, List.filter_cons_of_neg (by simp [h2])]
    · rw [List.filter_cons_of_pos h2, List.map_cons, hid, h1]
      simp [cenOf]

/-- Every cluster that is kept has one entry in the list of centers, and no other cluster has. -/
theorem C374_recorded (E : Env G P α) (rc : Bool) (cs : List (Runner.Cluster α)) :
    (run E rc cs).1.map Cen.id = ((run E rc cs).2.filter Runner.Out.good).map fun o => o.c.id := by
  have := recorded_pass E rc cs (Runner.initSt [])
  exact this

/-- Galaxies are never released: what has been taken from a galaxy only grows along the run. -/
theorem taken_mono (E : Env G P α) (rc : Bool) (cs : List (Runner.Cluster α)) (i : Nat) : ∀ s : Runner.St α (List (Cen α)), s.pgal i ≤ (Runner.pass (runner E) true rc s cs).1.pgal i := by
  induction cs with
  | nil => intro s; exact le_refl _
  | cons c cs ih =>
    intro s
    refine le_trans ?_ (ih _)
    rcases step_cases E rc s c with ⟨h1, _⟩ | ⟨o, c3, _, _, _, _, _, h1⟩
    · rw [h1]
    · rw [h1]; exact addMask_ge _ _ _ _ i

/-! ## C375: a galaxy that is used up is the center of no later cluster -/

theorem blocked (E : Env G P α) (hE : Plain E) (rc : Bool) (i : Nat) (ds : List (Runner.Cluster α)) : ∀ s : Runner.St α (List (Cen α)), 1 - E.perc.pbcgCut < s.pgal i →
    ∃ rest, (Runner.pass (runner E) true rc s ds).1.sig = s.sig ++ rest ∧ ∀ e ∈ rest, e.gal ≠ some i := by
  induction ds with
  | nil => intro s _; exact ⟨[], by simp [Runner.pass], by simp⟩
  | cons c cs ih =>
    intro s hs
    have hstep : s.pgal i ≤ (Runner.stepC (runner E) true rc s c).1.pgal i := taken_mono E rc [c] i s
    obtain ⟨rest, h1, h2⟩ := ih _ (lt_of_lt_of_le hs hstep)
    rcases step_cases E rc s c with ⟨h, _⟩ | ⟨o, c3, hp, _, _, _, _, h⟩
    · rw [h] at h1
      refine ⟨rest, ?_, h2⟩
      simp only [Runner.pass]
      rw [h]
      exact h1
    · rw [h] at h1
      refine ⟨cenOf c.id o :: rest, ?_, ?_⟩
      · simp only [Runner.pass]
        rw [h, h1]
        simp
      · intro e he
        rcases List.mem_cons.mp he with rfl | he
        · intro hi
          exact absurd hs (not_lt.mpr (center_free E hE s c o hp i hi).1)
        · exact h2 e he

/-- C375: if the clusters of a run have taken more of a galaxy than the cut leaves (`Runner.taken`: its probability in each cluster that was kept, where it is within the masking
radius and brighter than the masking limit), then no cluster that comes after them is centered on it. -/
theorem C375 (E : Env G P α) (hE : Plain E) (rc : Bool) (cs ds : List (Runner.Cluster α)) (i : Nat)
    (h : 1 - E.perc.pbcgCut < ((run E rc cs).2.map fun o => Runner.taken (runner E) o i).sum) :
    ∃ rest, (run E rc (cs ++ ds)).1 = (run E rc cs).1 ++ rest ∧ ∀ e ∈ rest, e.gal ≠ some i := by
  have hacc := Runner.pass_accounting (runner E) rc (Runner.initSt []) cs i
  have h0 : (Runner.initSt [] : Runner.St α (List (Cen α))).pgal i = 0 := rfl
  rw [h0, zero_add] at hacc
  obtain ⟨rest, h1, h2⟩ := blocked E hE rc i ds (Runner.pass (runner E) true rc (Runner.initSt []) cs).1 (by rw [hacc]; exact h)
  refine ⟨rest, ?_, h2⟩
  unfold run Runner.loop1
  rw [Runner.pass_append]
  exact h1

/-! ## Witnesses -/

/-- The second galaxy of any cluster is its center. -/
def toyPerc (sig : ℚ) : PercCen.Env Unit Unit ℚ := { PercCen.toy with
  rich := { PercCen.toyRich with sigma := fun _ _ _ => some sig }
  maskAt := fun _ => { PercCen.toyRich with sigma := fun _ _ _ => some sig }
  center := fun cl _ => match cl.nbs with
    | none => none
    | some l => match l[1]? with
      | none => none
      | some n => some (.galaxy 1, { cl with nbs := some (l.map fun m => { m with dist := |m.dist - n.dist| }) }) }

/-- Cluster `id` has galaxy 1 and twelve of its own, if `shared`; else thirteen of its own. -/
def toyEnv (sig : ℚ) (first : Int → Nat) (shared : Bool) : Env Unit Unit ℚ where
  perc := toyPerc sig
  rich _ := { PercCen.toyRich with sigma := fun _ _ _ => some sig }
  gal _ := ()
  err _ := 1 / 10
  pos _ := ()
  dist _ i := ((i % 100 : Nat) : ℚ) / 20
  find c := (List.range 13).map fun k =>
    { index := if shared && k == 1 then 1 else first c.id + k, gid := first c.id + k, refmag := 18, r := 0, p := 0, pmem := 0, pfree := 1, cand := false }
  depth _ := (20, 0)
  after c := (c.zLambda, c.zLambdaE, 0)
  rmaskRaw _ _ := some 1
  maskLim _ := 20
  useMemradius := false
  useMemlum := false
  memradius := 1
  memLim _ := 20

def toyC (i : Int) : Runner.Cluster ℚ := ⟨i, 20, 1, 1, 1 / 5, 1 / 100, 1 / 5, 1, 0, 0, none⟩

def hundreds (i : Int) : Nat := 100 * i.toNat

theorem toyEnv_plain (sig : ℚ) (first : Int → Nat) (shared : Bool) (h : shared = true → ∀ c, first c ≠ 0 → 100 ≤ first c) : Plain (toyEnv sig first shared) where
  min := by norm_num [toyEnv, toyPerc, PercCen.toy]
  iter := by norm_num [toyEnv, toyPerc, PercCen.toy]
  cut := by norm_num [toyEnv, toyPerc, PercCen.toy]
  find c := by
    simp only [toyEnv, List.map_map]
    refine (List.nodup_range (n := 13)).map_on ?_
    intro a _ b _ hab
    simp only [Function.comp] at hab
    by_cases hs : shared = true
    · have := h hs c.id
      simp only [hs, Bool.true_and, beq_iff_eq] at hab
      split_ifs at hab <;> omega
    · simp only [Bool.eq_false_iff.mpr hs, Bool.false_and] at hab
      simpa using hab
  lc cl := List.nodup_range
  center cl z k cl' l hl hc := by
    simp only [toyEnv, toyPerc, hl] at hc
    cases hn : l[1]? with
    | none => rw [hn] at hc; simp at hc
    | some n =>
      rw [hn] at hc
      simp only [Option.some.injEq, Prod.mk.injEq] at hc
      obtain ⟨rfl, rfl⟩ := hc
      refine ⟨_, rfl, by rw [List.map_map]; rfl, fun i hi => ?_⟩
      obtain rfl : 1 = i := by injection hi
      exact ⟨{ n with dist := |n.dist - n.dist| }, by rw [List.getElem?_map, hn]; rfl, by simp⟩
  radius cl lam _ := by norm_num [toyEnv, toyPerc, PercCen.toyRich]
  mask lam z _ := by simp [toyEnv]

theorem hundreds_ok (shared : Bool) : shared = true → ∀ c, hundreds c ≠ 0 → 100 ≤ hundreds c := by
  intro _ c h
  unfold hundreds at h ⊢
  omega

/-- C374 fails without its guard: galaxy 1 is a member of a first cluster with probability 49 percent.  It is the center of that cluster, and of another one. -/
theorem C374_false : Plain (toyEnv (19 / 2) hundreds true) ∧ ¬ CentersOK (toyEnv (19 / 2) hundreds true) true [toyC 1, toyC 2] := by
  refine ⟨toyEnv_plain _ _ _ (hundreds_ok _), ?_⟩
  unfold CentersOK
  have : (run (toyEnv (19 / 2) hundreds true) true [toyC 1, toyC 2]).1.filterMap Cen.gal = [1, 1] := by decide +kernel
  rw [this]
  decide

/-- Three clusters, with members that are 99 percent likely: the first two have their own galaxies, and the third one, which has those of the first, is left out. -/
theorem toy_run : (run (toyEnv (1 / 5) hundreds false) true [toyC 1, toyC 2, toyC 1]).1.map (fun e => (e.id, e.gal)) = [(1, some 101), (2, some 201)] ∧
    ∀ e ∈ (run (toyEnv (1 / 5) hundreds false) true [toyC 1, toyC 2, toyC 1]).1, 1 - 1 / 2 < e.p ∧ 0 < e.p ∧ e.refmag < 20 ∧ 0 ≤ e.zLambda := by decide +kernel

/-- The first cluster takes one of its members that is not its center beyond the cut. -/
example : 1 - (toyEnv (1 / 5) hundreds false).perc.pbcgCut < ((run (toyEnv (1 / 5) hundreds false) true [toyC 1]).2.map fun o => Runner.taken (runner (toyEnv (1 / 5) hundreds false)) o 103).sum := by
  decide +kernel

example : CentersOK (toyEnv (1 / 5) hundreds false) true [toyC 1, toyC 2, toyC 1] :=
  C374_partial _ (toyEnv_plain _ _ _ (hundreds_ok _)) _ _ fun e he _ => toy_run.2 e he

end Redmapper.PercRun
