/-
Properties of what percolation does to one cluster: which galaxy's availability decides, that a cluster it gives up is reported bad, and that richness and redshift belong together.
-/
import Verif.Model.PercCen
import Verif.Props.Finders
import Verif.Props.Centering
import Verif.Props.Cluster
import Mathlib.Tactic

set_option linter.unusedSectionVars false

namespace Redmapper.PercCen

open Redmapper.Finders (PS percIter percLoop percProcess)

variable {α : Type} [Field α] [LinearOrder α] [IsStrictOrderedRing α] {G P : Type}

/-! ## One iteration and the loop -/

/-- Richness, scale and the rest of the cluster come from a richness at the redshift `z`, with mask and depth `env`. -/
def Solved (env : Cluster.Env G P α) (z : α) (c : PS α (Rest G P α)) : Prop :=
  ∃ x : PS α (Rest G P α), x.redshift = z ∧ x.rest.env = env ∧ c.Lambda = (richOf true none x).1 ∧ c.scaleval = (richOf true none x).2.1 ∧ c.rest = (richOf true none x).2.2

theorem richOf_keeps (ce : Bool) (idx : Option (List Nat)) (x : PS α (Rest G P α)) :
    (richOf ce idx x).2.2.env = x.rest.env ∧ (richOf ce idx x).2.2.cen = x.rest.cen := by
  unfold richOf
  split
  · exact ⟨rfl, rfl⟩
  · split <;> exact ⟨rfl, rfl⟩

theorem iter_spec (E : Env G P α) (i : Nat) (c : PS α (Rest G P α)) (h : (percIter (penv E) i c).1 = false) :
    let c' := (percIter (penv E) i c).2
    let env := if i = 0 then E.maskAt c.rest.cl else c.rest.env
    c'.rest.env = env ∧ c'.rest.cen = c.rest.cen ∧ Solved env c.redshift c' ∧ E.minlambda ≤ c'.Lambda / c'.scaleval ∧ E.pbcgCut ≤ (penv E).pfreeCen c' ∧ 0 ≤ c'.zLambda ∧
    (E.keepz = true ∨ i ≠ 0 → c'.redshift = c.redshift) ∧ (i ≠ 0 → c'.zLambda = c.zLambda) ∧ (i = 0 → E.keepz = false → 0 < c'.zLambda → c'.redshift = c'.zLambda) := by
  unfold percIter at h ⊢
  by_cases h1 : c.redshift < 0
  · simp [h1] at h
  · simp only [if_neg h1] at h ⊢
    set c1 : PS α (Rest G P α) := (if i = 0 then { c with rest := (penv E).maskUpd c } else c) with hc1
    have hr1 : c1.redshift = c.redshift ∧ c1.zLambda = c.zLambda ∧ c1.rest.env = (if i = 0 then E.maskAt c.rest.cl else c.rest.env) ∧ c1.rest.cen = c.rest.cen := by
      rw [hc1]; split_ifs <;> exact ⟨rfl, rfl, rfl, rfl⟩
    by_cases h2 : (penv E).nLc i c1 < 2
    · simp [h2] at h
    · simp only [if_neg h2] at h ⊢
      set c2 := Finders.setRich c1 ((penv E).richness c1) with hc2
      by_cases h3 : c2.Lambda / c2.scaleval < (penv E).minlambda ∨ (penv E).pfreeCen c2 < (penv E).pbcgCut
      · simp [h3] at h
      · simp only [if_neg h3] at h ⊢
        push Not at h3
        set c3 : PS α (Rest G P α) := (if i = 0 then
            if (penv E).keepz = false ∧ 0 < ((penv E).zlam c2).1 then
              { c2 with zLambda := ((penv E).zlam c2).1, zLambdaE := ((penv E).zlam c2).2, redshift := ((penv E).zlam c2).1 }
            else { c2 with zLambda := ((penv E).zlam c2).1, zLambdaE := ((penv E).zlam c2).2 }
          else c2) with hc3
        have hL : c3.Lambda = c2.Lambda ∧ c3.scaleval = c2.scaleval ∧ c3.rest = c2.rest := by
          rw [hc3]; split_ifs <;> exact ⟨rfl, rfl, rfl⟩
        by_cases h4 : c3.zLambda < 0
        · rw [if_pos h4] at h; simp at h
        · rw [if_neg h4]
          simp only
          have hk := richOf_keeps true none c1
          have hrest : c2.rest = (richOf true none c1).2.2 := rfl
          refine ⟨?_, ?_, ⟨c1, hr1.1, hr1.2.2.1, by rw [hL.1]; rfl, by rw [hL.2.1]; rfl, by rw [hL.2.2]; rfl⟩, ?_, ?_, not_lt.mp h4, ?_, ?_, ?_⟩
          · rw [hL.2.2, hrest, hk.1, hr1.2.2.1]
          · rw [hL.2.2, hrest, hk.2, hr1.2.2.2]
          · rw [hL.1, hL.2.1]; exact h3.1
          · have : (penv E).pfreeCen c3 = (penv E).pfreeCen c2 := by
              simp only [penv, nbs, hL.2.2]
            rw [this]; exact h3.2
          · rintro (hz | hi)
            · have : c3.redshift = c2.redshift := by
                rw [hc3]
                have hz' : (penv E).keepz = true := hz
                split_ifs with a b
                · rw [hz'] at b; simp at b
                · rfl
                · rfl
              rw [this]; exact hr1.1
            · rw [hc3, if_neg hi]; exact hr1.1
          · intro hi
            rw [hc3, if_neg hi]; exact hr1.2.1
          · intro hi hz hp
            rw [hc3, if_pos hi] at hp ⊢
            have hz' : (penv E).keepz = false := hz
            by_cases hp' : 0 < ((penv E).zlam c2).1
            · rw [if_pos ⟨hz', hp'⟩]
            · rw [if_neg (fun a => hp' a.2)] at hp
              exact absurd hp hp'

/-- What the loop leaves of a cluster it keeps. -/
structure LoopOK (E : Env G P α) (n : Nat) (c c' : PS α (Rest G P α)) : Prop where
  cen : c'.rest.cen = c.rest.cen
  env : c'.rest.env = E.maskAt c.rest.cl
  solved : Solved c'.rest.env (if E.keepz = true ∨ 2 ≤ n then c'.redshift else c.redshift) c'
  min : E.minlambda ≤ c'.Lambda / c'.scaleval
  cut : E.pbcgCut ≤ (penv E).pfreeCen c'
  zpos : 0 ≤ c'.zLambda
  keep : E.keepz = true → c'.redshift = c.redshift
  zlam : E.keepz = false → 0 < c'.zLambda → c'.redshift = c'.zLambda

theorem tail_spec (E : Env G P α) (n i : Nat) (c : PS α (Rest G P α)) (hi : i ≠ 0) (h : (percLoop (penv E) n i c).1 = false) :
    let c' := (percLoop (penv E) n i c).2
    c'.rest.env = c.rest.env ∧ c'.rest.cen = c.rest.cen ∧ c'.redshift = c.redshift ∧ c'.zLambda = c.zLambda ∧ (n = 0 → c' = c) ∧
    (1 ≤ n → Solved c'.rest.env c'.redshift c' ∧ E.minlambda ≤ c'.Lambda / c'.scaleval ∧ E.pbcgCut ≤ (penv E).pfreeCen c' ∧ 0 ≤ c'.zLambda) := by
  induction n generalizing i c with
  | zero => simp [percLoop]
  | succ n ih =>
    simp only [percLoop] at h ⊢
    by_cases hb : (percIter (penv E) i c).1 = true
    · simp [hb] at h
    · have hb' : (percIter (penv E) i c).1 = false := by simpa using hb
      simp only [hb', Bool.false_eq_true, if_false] at h ⊢
      obtain ⟨a1, a2, a3, a4, a5, a6, a7, a8, a9⟩ := iter_spec E i c hb'
      rw [if_neg hi] at a1 a3
      obtain ⟨b1, b2, b3, b4, b5, b6⟩ := ih (i + 1) _ (by omega) h
      have a7' := a7 (Or.inr hi)
      refine ⟨by rw [b1, a1], by rw [b2, a2], by rw [b3, a7'], by rw [b4, a8 hi], by omega, fun _ => ?_⟩
      cases n with
      | zero =>
        rw [b5 rfl]
        refine ⟨?_, a4, a5, a6⟩
        rw [a1, a7']
        exact a3
      | succ n => exact b6 (by omega)

theorem loop_spec (E : Env G P α) (n : Nat) (hn : 1 ≤ n) (c : PS α (Rest G P α)) (h : (percLoop (penv E) n 0 c).1 = false) : LoopOK E n c (percLoop (penv E) n 0 c).2 := by
  obtain ⟨m, rfl⟩ : ∃ m, n = m + 1 := ⟨n - 1, by omega⟩
  simp only [percLoop] at h ⊢
  by_cases hb : (percIter (penv E) 0 c).1 = true
  · simp [hb] at h
  · have hb' : (percIter (penv E) 0 c).1 = false := by simpa using hb
    simp only [hb', Bool.false_eq_true, if_false] at h ⊢
    obtain ⟨a1, a2, a3, a4, a5, a6, a7, a8, a9⟩ := iter_spec E 0 c hb'
    rw [if_pos rfl] at a1 a3
    obtain ⟨b1, b2, b3, b4, b5, b6⟩ := tail_spec E m 1 _ (by omega) h
    rcases Nat.eq_zero_or_pos m with rfl | hm
    · rw [b5 rfl]
      refine ⟨a2, a1, ?_, a4, a5, a6, fun hk => a7 (Or.inl hk), a9 rfl⟩
      rw [a1]
      split_ifs with hk
      · rw [a7 (Or.inl (hk.resolve_right (by omega)))]; exact a3
      · exact a3
    · obtain ⟨c1, c2, c3, c4⟩ := b6 hm
      refine ⟨by rw [b2, a2], by rw [b1, a1], ?_, c2, c3, c4, fun hk => by rw [b3]; exact a7 (Or.inl hk), fun hk hz => ?_⟩
      · rw [if_pos (Or.inr (by omega))]; exact c1
      · rw [b3, b4] at *
        exact a9 rfl hk hz

/-! ## Neighbours through the loop -/

/-- Radius of a neighbour at a redshift, in Mpc and never zero. -/
def radius (env : Cluster.Env G P α) (z : α) (n : Cluster.Nb G α) : α := max (env.mpcOf (max z (1 / 100)) * n.dist) (1 / 1000000)

/-- Neighbours with sensible availabilities, of which no two are nearest to the center. -/
structure PlainNbs (env : Cluster.Env G P α) (l : List (Cluster.Nb G α)) : Prop where
  pfree : ∀ n ∈ l, 0 ≤ n.pfree ∧ n.pfree ≤ 1
  one : ∀ z, 0 ≤ z → ∀ (i j : Nat) (n m : Cluster.Nb G α), l[i]? = some n → l[j]? = some m → (∀ q ∈ l, radius env z n ≤ radius env z q) → (∀ q ∈ l, radius env z m ≤ radius env z q) → i = j

/-- The columns of a neighbour that a richness does not touch. -/
def key (n : Cluster.Nb G α) : α × α × α × Int := (n.pfree, n.dist, n.refmag, n.index)

theorem plain_congr (env : Cluster.Env G P α) (l l' : List (Cluster.Nb G α)) (h : l'.map key = l.map key) (hl : PlainNbs env l) : PlainNbs env l' := by
  have hget : ∀ (i : Nat) (n' : Cluster.Nb G α), l'[i]? = some n' → ∃ n, l[i]? = some n ∧ key n = key n' := by
    intro i n' hi
    have := congrArg (fun x => x[i]?) h
    simp only [List.getElem?_map, hi, Option.map_some] at this
    cases hq : l[i]? with
    | none => rw [hq] at this; simp at this
    | some n => rw [hq] at this; exact ⟨n, rfl, (Option.some.inj this).symm⟩
  have hget' : ∀ n ∈ l, ∃ n' ∈ l', key n = key n' := by
    intro n hn
    have : key n ∈ l'.map key := h ▸ List.mem_map_of_mem hn
    obtain ⟨n', h1, h2⟩ := List.mem_map.mp this
    exact ⟨n', h1, h2.symm⟩
  have hrad : ∀ z (n n' : Cluster.Nb G α), key n = key n' → radius env z n = radius env z n' := by
    intro z n n' hk
    unfold radius
    rw [show n.dist = n'.dist from congrArg (fun q => q.2.1) hk]
  constructor
  · intro n' hn'
    obtain ⟨i, hi⟩ := List.mem_iff_getElem?.mp hn'
    obtain ⟨n, hn, hk⟩ := hget i n' hi
    have := hl.pfree n (List.mem_of_getElem? hn)
    rwa [show n.pfree = n'.pfree from congrArg Prod.fst hk] at this
  · intro z hz i j n' m' hi hj hn hm
    obtain ⟨n, hn1, hk1⟩ := hget i n' hi
    obtain ⟨m, hm1, hk2⟩ := hget j m' hj
    refine hl.one z hz i j n m hn1 hm1 ?_ ?_
    · intro q hq
      obtain ⟨q', hq1, hq2⟩ := hget' q hq
      rw [hrad z n n' hk1, hrad z q q' hq2]
      exact hn q' hq1
    · intro q hq
      obtain ⟨q', hq1, hq2⟩ := hget' q hq
      rw [hrad z m m' hk2, hrad z q q' hq2]
      exact hm q' hq1

theorem setZ_ok (env : Cluster.Env G P α) (z : α) (c cl : Cluster.Cl G P α) (h : Cluster.setZ env z c = .ok cl) (l : List (Cluster.Nb G α)) (hl : c.nbs = some l) :
    0 ≤ z ∧ cl.nbs = some (l.map fun n => { n with r := radius env z n }) ∧ cl.rLambda = c.rLambda := by
  unfold Cluster.setZ at h
  by_cases h1 : z < 0
  · rw [if_pos h1] at h; cases h
  · rw [if_neg h1] at h
    simp only [Except.ok.injEq] at h
    subst h
    refine ⟨not_lt.mp h1, ?_, ?_⟩
    · simp only [Cluster.computeR, hl, radius]
    · simp only [Cluster.computeR, hl]

theorem setZ_nbs (env : Cluster.Env G P α) (z : α) (c cl : Cluster.Cl G P α) (h : Cluster.setZ env z c = .ok cl) (l : List (Cluster.Nb G α)) (hl : cl.nbs = some l) : ∃ l0, c.nbs = some l0 := by
  cases hc : c.nbs with
  | some l0 => exact ⟨l0, rfl⟩
  | none =>
    unfold Cluster.setZ at h
    by_cases h1 : z < 0
    · rw [if_pos h1] at h; cases h
    · rw [if_neg h1] at h
      simp only [Except.ok.injEq] at h
      subst h
      simp [Cluster.computeR, hc] at hl

theorem none_ok : Cluster.IdxOK (none : Option (List Nat)) := by intro idx h; cases h

/-- A ratio of richness and scale that is not that of a failure comes from a richness that was found. -/
theorem richOf_found (ce : Bool) (index : Option (List Nat)) (hx : Cluster.IdxOK index) (x : PS α (Rest G P α)) (h : 1 < (richOf ce index x).1 / (richOf ce index x).2.1) :
    ∃ (cl k : Cluster.Cl G P α) (lam : α), Cluster.setZ x.rest.env x.redshift x.rest.cl = .ok cl ∧ Cluster.richness x.rest.env ce index cl = (k, .ok lam) ∧ 0 ≤ lam ∧
      richOf ce index x = (lam, k.scaleval, { x.rest with cl := k }) := by
  unfold richOf at h ⊢
  cases hs : Cluster.setZ x.rest.env x.redshift x.rest.cl with
  | error e => rw [hs] at h; norm_num at h
  | ok cl =>
    rw [hs] at h
    simp only at h ⊢
    rcases hr : Cluster.richness x.rest.env ce index cl with ⟨k, r⟩
    cases r with
    | error e => rw [hr] at h; norm_num at h
    | ok lam =>
      rw [hr] at h
      simp only at h ⊢
      refine ⟨cl, k, lam, rfl, hr, ?_, rfl⟩
      obtain ⟨z, mstar, mpc, l, l1, idx, res, hz, hm, hk, hl, hidx, hnd, hi, hl1, hg, hss, hc⟩ := Cluster.richness_cases _ ce index cl k lam hx hr
      rcases hc with ⟨e, _, rfl⟩ | ⟨e, h0, _⟩
      · rw [e] at h; norm_num at h
      · exact h0

theorem richness_len (E : Cluster.Env G P α) (ce : Bool) (index : Option (List Nat)) (hx : Cluster.IdxOK index) (c k : Cluster.Cl G P α) (lam : α) (hr : Cluster.richness E ce index c = (k, .ok lam)) (l l' : List (Cluster.Nb G α)) (hl : c.nbs = some l) (hl' : k.nbs = some l') :
    l'.length = l.length := by
  obtain ⟨z, mstar, mpc, l0, l1, idx, res, hz, hm, hk, hl0, hidx, hnd, hi, hl1, hg, hss, hc⟩ := Cluster.richness_cases _ ce index c k lam hx hr
  have e : l0 = l := Option.some.inj (hl0.symm.trans hl)
  subst e
  rcases hc with ⟨_, _, rfl⟩ | ⟨_, _, _, _, rfl⟩
  · simp only [Option.some.injEq] at hl'
    rw [← hl', List.length_map, hl1, Cluster.scatter_length]
  · simp only [Option.some.injEq] at hl'
    rw [← hl', Cluster.scatter_length, List.length_map, hl1, Cluster.scatter_length]

theorem richOf_key (ce : Bool) (index : Option (List Nat)) (hx : Cluster.IdxOK index) (x : PS α (Rest G P α)) (h : 1 < (richOf ce index x).1 / (richOf ce index x).2.1) (l : List (Cluster.Nb G α)) (hl : x.rest.cl.nbs = some l) :
    ∃ l', (richOf ce index x).2.2.cl.nbs = some l' ∧ l'.map key = l.map key := by
  obtain ⟨cl, k, lam, hs, hr, h0, e⟩ := richOf_found ce index hx x h
  rw [e]
  obtain ⟨hz, hcl, _⟩ := setZ_ok _ _ _ _ hs l hl
  obtain ⟨_, _, _, l1, l', xx, _, _, _, h1, h2, _, hv⟩ := Cluster.C125_values x.rest.env ce index hx cl k lam hr h0
  refine ⟨l', h2, ?_⟩
  rw [hcl] at h1
  have e1 := Option.some.inj h1
  have hlen : l'.length = l1.length := richness_len _ ce index hx _ _ _ hr _ _ (by rw [hcl, h1]) h2
  apply List.ext_getElem?
  intro j
  rw [List.getElem?_map, List.getElem?_map]
  cases hj : l[j]? with
  | none =>
    have : l'[j]? = none := by
      rw [List.getElem?_eq_none_iff, hlen, ← e1, List.length_map]
      exact List.getElem?_eq_none_iff.mp hj
    rw [this]
  | some n =>
    have h1j : l1[j]? = some { n with r := radius x.rest.env x.redshift n } := by
      rw [← e1, List.getElem?_map, hj]; rfl
    have hlt : j < l'.length := by rw [hlen]; exact (List.getElem?_eq_some_iff.mp h1j).1
    have hm : l'[j]? = some l'[j] := List.getElem?_eq_getElem hlt
    obtain ⟨⟨_, a2, _, a4, a5, _, a7⟩, _⟩ := hv j _ _ h1j hm
    rw [hm]
    simp only [Option.map_some, key, a2, a4, a5, a7]

theorem iter_key (E : Env G P α) (i : Nat) (c : PS α (Rest G P α)) (hml : 1 < E.minlambda) (h : (percIter (penv E) i c).1 = false) (l : List (Cluster.Nb G α)) (hl : c.rest.cl.nbs = some l) :
    ∃ l', (percIter (penv E) i c).2.rest.cl.nbs = some l' ∧ l'.map key = l.map key := by
  unfold percIter at h ⊢
  by_cases h1 : c.redshift < 0
  · simp [h1] at h
  · simp only [if_neg h1] at h ⊢
    set c1 : PS α (Rest G P α) := (if i = 0 then { c with rest := (penv E).maskUpd c } else c) with hc1
    have hr1 : c1.rest.cl = c.rest.cl := by
      rw [hc1]; split_ifs <;> rfl
    by_cases h2 : (penv E).nLc i c1 < 2
    · simp [h2] at h
    · simp only [if_neg h2] at h ⊢
      set c2 := Finders.setRich c1 ((penv E).richness c1) with hc2
      by_cases h3 : c2.Lambda / c2.scaleval < (penv E).minlambda ∨ (penv E).pfreeCen c2 < (penv E).pbcgCut
      · simp [h3] at h
      · simp only [if_neg h3] at h ⊢
        push Not at h3
        set c3 : PS α (Rest G P α) := (if i = 0 then
            if (penv E).keepz = false ∧ 0 < ((penv E).zlam c2).1 then
              { c2 with zLambda := ((penv E).zlam c2).1, zLambdaE := ((penv E).zlam c2).2, redshift := ((penv E).zlam c2).1 }
            else { c2 with zLambda := ((penv E).zlam c2).1, zLambdaE := ((penv E).zlam c2).2 }
          else c2) with hc3
        have hL : c3.rest = c2.rest := by
          rw [hc3]; split_ifs <;> rfl
        by_cases h4 : c3.zLambda < 0
        · rw [if_pos h4] at h; simp at h
        · rw [if_neg h4]
          show ∃ l', c3.rest.cl.nbs = some l' ∧ _
          rw [hL]
          exact richOf_key true none none_ok c1 (lt_of_lt_of_le hml h3.1) l (by rw [hr1]; exact hl)

theorem loop_key (E : Env G P α) (hml : 1 < E.minlambda) (n i : Nat) (c : PS α (Rest G P α)) (h : (percLoop (penv E) n i c).1 = false) (l : List (Cluster.Nb G α)) (hl : c.rest.cl.nbs = some l) :
    ∃ l', (percLoop (penv E) n i c).2.rest.cl.nbs = some l' ∧ l'.map key = l.map key := by
  induction n generalizing i c l with
  | zero => exact ⟨l, hl, rfl⟩
  | succ n ih =>
    simp only [percLoop] at h ⊢
    by_cases hb : (percIter (penv E) i c).1 = true
    · simp [hb] at h
    · have hb' : (percIter (penv E) i c).1 = false := by simpa using hb
      simp only [hb', Bool.false_eq_true, if_false] at h ⊢
      obtain ⟨l1, a1, a2⟩ := iter_key E i c hml hb' l hl
      obtain ⟨l2, b1, b2⟩ := ih (i + 1) _ h l1 a1
      exact ⟨l2, b1, b2.trans a2⟩

/-! ## From the loop to the process -/

/-- What is known of a cluster that is not reported bad: the steps before the loop were passed, and the loop; then it is given up without being reported, or kept. -/
theorem process_spec (E : Env G P α) (hn : 1 ≤ E.maxiter) (z lam sv : α) (c : Cluster.Cl G P α) (h : (process E z lam sv c).1 = false) :
    ∃ (c2 c' : PS α (Rest G P α)) (k : Center) (cl0 cl : Cluster.Cl G P α), E.center cl0 c2.redshift = some (k, cl) ∧ c2.rest.cl = cl ∧ c2.rest.cen = some k ∧ LoopOK E E.maxiter c2 c' ∧ (E.keepz = true → c2.redshift = z) ∧
      (1 < E.minlambda → (∀ l, c2.rest.cl.nbs = some l → ∃ l', c'.rest.cl.nbs = some l' ∧ l'.map key = l.map key) ∧
        ((E.lc c).Nodup → ∀ l, c.nbs = some l → ∃ l0, cl0.nbs = some l0 ∧ l0.map key = l.map key)) ∧
      (((penv E).nW c' = 0 ∧ (process E z lam sv c).2 = Finders.reset c') ∨ ((penv E).nW c' ≠ 0 ∧ (process E z lam sv c).2 = c')) := by
  unfold process percProcess at h ⊢
  set c0 : PS α (Rest G P α) := { redshift := z, Lambda := lam, scaleval := sv, zLambda := 0, zLambdaE := 0, rest := { cl := c, env := E.rich, cen := none } } with hc0
  by_cases h1 : (penv E).pfreeNear c0 < (penv E).pbcgCut
  · simp [h1] at h
  · simp only [if_neg h1] at h ⊢
    by_cases h2 : (penv E).nCenter c0 < 2
    · simp [h2] at h
    · simp only [if_neg h2] at h ⊢
      set c1 := Finders.setRich c0 ((penv E).richness0 c0) with hc1
      by_cases h3 : c1.Lambda / c1.scaleval < (penv E).minlambda ∨ (penv E).nIncut c1 < 3
      · simp [h3] at h
      · simp only [if_neg h3] at h ⊢
        by_cases h4 : (penv E).keepz = false ∧ (penv E).zlam0 c1 < 0
        · simp [h4] at h
        · simp only [if_neg h4] at h ⊢
          set c2 : PS α (Rest G P α) := (if (penv E).keepz = true then c1 else { c1 with redshift := (penv E).zlam0 c1 }) with hc2
          have hz : E.keepz = true → c2.redshift = z := by
            intro hk
            have hk' : (penv E).keepz = true := hk
            rw [hc2, if_pos hk']
            rfl
          have hcen : (penv E).center c2 = (E.center c2.rest.cl c2.redshift).map fun q => { c2.rest with cl := q.2, cen := some q.1 } := rfl
          cases hc : E.center c2.rest.cl c2.redshift with
          | none => rw [hcen, hc] at h; simp at h
          | some q =>
            rw [hcen, hc] at h ⊢
            simp only [Option.map_some] at h ⊢
            set c3 : PS α (Rest G P α) := { c2 with rest := { c2.rest with cl := q.2, cen := some q.1 } } with hc3
            by_cases h5 : (percLoop (penv E) (penv E).maxiter 0 c3).1 = true
            · simp only [h5, if_true] at h
              simp [h5] at h
            · have h5' : (percLoop (penv E) (penv E).maxiter 0 c3).1 = false := by simpa using h5
              simp only [h5', Bool.false_eq_true, if_false] at h ⊢
              refine ⟨c3, _, q.1, c2.rest.cl, q.2, hc, rfl, rfl, loop_spec E E.maxiter hn c3 h5', hz, fun hml => ⟨fun l hl => loop_key E hml E.maxiter 0 c3 h5' l hl, fun hnd l hl => ?_⟩, ?_⟩
              · have hr2 : c2.rest = c1.rest := by rw [hc2]; split_ifs <;> rfl
                rw [hr2]
                exact richOf_key false (some (E.lc c)) (fun idx h => by obtain rfl := Option.some.inj h; exact hnd) c0 (lt_of_lt_of_le hml (not_lt.mp (fun hq => h3 (Or.inl hq)))) l hl
              by_cases h6 : (penv E).nW (percLoop (penv E) (penv E).maxiter 0 c3).2 = 0
              · left
                exact ⟨h6, by rw [if_pos h6]; rfl⟩
              · right
                exact ⟨h6, by rw [if_neg h6]; rfl⟩

/-! ## C371: whose availability decides -/

theorem pfreeCen_at (E : Env G P α) (c : PS α (Rest G P α)) (i : Nat) (hc : c.rest.cen = some (.galaxy i)) : (penv E).pfreeCen c = ((nbs c)[i]?.map Cluster.Nb.pfree).getD 0 := by
  have : pyGet (nbs c) (Center.galaxy i).maxind = (nbs c)[i]? := by
    unfold pyGet Center.maxind
    rw [if_pos (Int.natCast_nonneg i), Int.toNat_natCast]
  simp only [penv, hc, this]

/-- The availability that the loop looks at is that of the galaxy the cluster is centered on, if it is centered on one of its neighbours. -/
theorem pfreeCen_galaxy (E : Env G P α) (c : PS α (Rest G P α)) (i : Nat) (hc : c.rest.cen = some (.galaxy i)) (n : Cluster.Nb G α) (hn : (nbs c)[i]? = some n) :
    (penv E).pfreeCen c = n.pfree := by
  rw [pfreeCen_at E c i hc, hn]
  rfl

/-- C371, the part that holds: a cluster that is kept and is centered on one of its neighbours, is centered on one that is still available. -/
theorem C371_partial (E : Env G P α) (hn : 1 ≤ E.maxiter) (hcut : 0 < E.pbcgCut) (z lam sv : α) (c : Cluster.Cl G P α) (h : (process E z lam sv c).1 = false) (i : Nat)
    (hc : (process E z lam sv c).2.rest.cen = some (.galaxy i)) : ∃ n, (nbs (process E z lam sv c).2)[i]? = some n ∧ E.pbcgCut ≤ n.pfree := by
  obtain ⟨c2, c', k, cl0, cl, h1, h2, h3, hl, h4, _, hcase⟩ := process_spec E hn z lam sv c h
  have hrest : (process E z lam sv c).2.rest = c'.rest := by
    rcases hcase with ⟨_, e⟩ | ⟨_, e⟩ <;> rw [e] <;> rfl
  rw [hrest] at hc
  have hcut' := hl.cut
  cases hq : (nbs c')[i]? with
  | none =>
    have : (penv E).pfreeCen c' = 0 := by
      rw [pfreeCen_at E c' i hc, hq]
      rfl
    rw [this] at hcut'
    exact absurd hcut (not_lt.mpr hcut')
  | some n =>
    refine ⟨n, ?_, ?_⟩
    · unfold nbs at hq ⊢
      rw [hrest]; exact hq
    · rw [pfreeCen_galaxy E c' i hc n hq] at hcut'
      exact hcut'

/-! ## C373: richness and redshift belong together -/

/-- C373 as one would state it: the richness of a cluster that is kept belongs to its redshift and center; computing it again, there, gives the same richness and scale, and every
neighbour the same membership. -/
def TogetherOK (E : Env G P α) (z lam sv : α) (c : Cluster.Cl G P α) : Prop :=
  let out := (process E z lam sv c).2
  (process E z lam sv c).1 = false → ¬ Finders.IsSentinel out →
    (richOf true none out).1 = out.Lambda ∧ (richOf true none out).2.1 = out.scaleval ∧
    ∃ l l', out.rest.cl.nbs = some l ∧ (richOf true none out).2.2.cl.nbs = some l' ∧ l'.map Cluster.Nb.pmem = l.map Cluster.Nb.pmem

/-- A richness that was found is found again. -/
theorem solved_again (c' : PS α (Rest G P α)) (hs : Solved c'.rest.env c'.redshift c') (hgt : 1 < c'.Lambda / c'.scaleval) :
    (richOf true none c').1 = c'.Lambda ∧ (richOf true none c').2.1 = c'.scaleval ∧
    ∃ l l', c'.rest.cl.nbs = some l ∧ (richOf true none c').2.2.cl.nbs = some l' ∧ l'.map Cluster.Nb.pmem = l.map Cluster.Nb.pmem := by
  obtain ⟨x, hx1, hx2, e1, e2, e3⟩ := hs
  rw [e1, e2] at hgt
  obtain ⟨cl, k, lam, hsz, hr, h0, e⟩ := richOf_found true none none_ok x hgt
  have hxi : Cluster.IdxOK (none : Option (List Nat)) := by intro idx h; cases h
  obtain ⟨_, _, _, l1, l', xx, _, _, _, h1, h2, _, hv⟩ := Cluster.C125_values x.rest.env true none hxi cl k lam hr h0
  obtain ⟨l0, hl0⟩ := setZ_nbs _ _ _ _ hsz l1 h1
  obtain ⟨hz, hcl, _⟩ := setZ_ok _ _ _ _ hsz l0 hl0
  have e4 : l1 = l0.map fun n => { n with r := radius x.rest.env x.redshift n } := Option.some.inj (h1.symm.trans hcl)
  have hkc : c'.rest.cl = k := by rw [e3, e]
  have hlen : l'.length = l1.length := richness_len _ true none none_ok _ _ _ hr _ _ h1 h2
  -- the same redshift again
  obtain ⟨cl2, hcl2, hz2⟩ : ∃ cl2, Cluster.setZ x.rest.env x.redshift k = .ok cl2 ∧ cl2.z = cl.z ∧ cl2.mstar = cl.mstar ∧ cl2.mpc = cl.mpc := by
    have hn : ¬ x.redshift < 0 := not_lt.mpr hz
    refine ⟨_, by unfold Cluster.setZ; rw [if_neg hn], ?_⟩
    unfold Cluster.setZ at hsz
    rw [if_neg hn] at hsz
    simp only [Except.ok.injEq] at hsz
    rw [← hsz]
    simp only [Cluster.computeR, h2, hl0, and_self]
  obtain ⟨_, hn2, _⟩ := setZ_ok _ _ _ _ hcl2 l' h2
  have hcore : (l'.map fun n => { n with r := radius x.rest.env x.redshift n }).map Cluster.core = l1.map Cluster.core := by
    apply List.ext_getElem?
    intro j
    rw [List.getElem?_map, List.getElem?_map, List.getElem?_map]
    cases hj : l1[j]? with
    | none =>
      have : l'[j]? = none := by
        rw [List.getElem?_eq_none_iff, hlen]
        exact List.getElem?_eq_none_iff.mp hj
      rw [this]; rfl
    | some n =>
      have hlt : j < l'.length := by rw [hlen]; exact (List.getElem?_eq_some_iff.mp hj).1
      have hm : l'[j]? = some l'[j] := List.getElem?_eq_getElem hlt
      obtain ⟨⟨a1, a2, a3, a4, a5, a6, a7⟩, _⟩ := hv j _ _ hj hm
      rw [hm]
      have hr0 : n.r = radius x.rest.env x.redshift n := by
        rw [e4, List.getElem?_map] at hj
        cases hq : l0[j]? with
        | none => rw [hq] at hj; simp at hj
        | some q =>
          rw [hq] at hj
          simp only [Option.map_some, Option.some.injEq] at hj
          rw [← hj]
          rfl
      have hr1 : radius x.rest.env x.redshift l'[j] = n.r := by
        rw [hr0]
        unfold radius
        rw [a5]
      simp only [Option.map_some, Cluster.core, Cluster.dropChisq, Cluster.clear, a1, a2, a3, a4, a5, a7, hr1]
  obtain ⟨g1, g2⟩ := Cluster.richness_congr x.rest.env true none hxi cl2 cl hz2.1 hz2.2.1 hz2.2.2 hn2 h1 hcore
  rw [hr] at g1 g2
  obtain ⟨m, m', q1, q2, q3, q4⟩ := g2 lam g1
  simp only at q2
  rw [h2] at q2
  have em : l' = m' := Option.some.inj q2
  have hc' : richOf true none c' = (lam, k.scaleval, { c'.rest with cl := (Cluster.richness x.rest.env true none cl2).1 }) := by
    unfold richOf
    rw [← hx2, ← hx1, hkc, hcl2]
    simp only
    rcases hq : Cluster.richness x.rest.env true none cl2 with ⟨k2, r2⟩
    rw [hq] at g1 q1
    simp only at g1 q1
    rw [g1]
    simp only
    rw [q1]
  rw [hc', e1, e2, e]
  refine ⟨rfl, rfl, l', m, by rw [hkc]; exact h2, by simp only [q1], ?_⟩
  rw [em]
  have := congrArg (List.map Cluster.Nb.pmem) q4.1
  rw [List.map_map, List.map_map] at this
  exact this

/-- C373, the part that holds: for two iterations or more, or if redshifts are kept. -/
theorem C373_partial (E : Env G P α) (hn : 1 ≤ E.maxiter) (h2 : E.keepz = true ∨ 2 ≤ E.maxiter) (hml : 1 < E.minlambda) (z lam sv : α) (c : Cluster.Cl G P α) : TogetherOK E z lam sv c := by
  intro h hs
  obtain ⟨c2, c', k, cl0, cl, _, _, _, hl, _, _, hcase⟩ := process_spec E hn z lam sv c h
  rcases hcase with ⟨_, e⟩ | ⟨_, e⟩
  · exact absurd (e ▸ Finders.reset_sentinel c') hs
  · rw [e]
    have := hl.solved
    rw [if_pos h2] at this
    exact solved_again c' this (lt_of_lt_of_le hml hl.min)

/-- C373: the mask is that at the center; redshifts are kept if they are to be kept, and otherwise are the photometric ones. -/
theorem C373_redshift (E : Env G P α) (hn : 1 ≤ E.maxiter) (z lam sv : α) (c : Cluster.Cl G P α) (h : (process E z lam sv c).1 = false) (hs : ¬ Finders.IsSentinel (process E z lam sv c).2) :
    (∃ (cl0 cl : Cluster.Cl G P α) (k : Center) (z0 : α), E.center cl0 z0 = some (k, cl) ∧ (process E z lam sv c).2.rest.env = E.maskAt cl ∧ (process E z lam sv c).2.rest.cen = some k) ∧
    (E.keepz = true → (process E z lam sv c).2.redshift = z) ∧
    (E.keepz = false → 0 < (process E z lam sv c).2.zLambda → (process E z lam sv c).2.redshift = (process E z lam sv c).2.zLambda) := by
  obtain ⟨c2, c', k, cl0, cl, a1, a2, a3, hl, a4, _, hcase⟩ := process_spec E hn z lam sv c h
  rcases hcase with ⟨_, e⟩ | ⟨_, e⟩
  · exact absurd (e ▸ Finders.reset_sentinel c') hs
  · rw [e]
    refine ⟨⟨cl0, cl, k, c2.redshift, a1, by rw [hl.env, a2], by rw [hl.cen, a3]⟩, fun hk => by rw [hl.keep hk, a4 hk], hl.zlam⟩

/-! ## C372: a cluster that is given up is reported -/

/-- C372 as one would state it: a cluster that percolation gives up is reported bad. -/
def ReportedOK (E : Env G P α) (z lam sv : α) (c : Cluster.Cl G P α) : Prop := Finders.IsSentinel (process E z lam sv c).2 → (process E z lam sv c).1 = true

theorem sum_le_one_of_single (l : List α) (h1 : ∀ x ∈ l, x ≤ 1) (hs : ∀ (i j : Nat) (x y : α), l[i]? = some x → l[j]? = some y → x ≠ 0 → y ≠ 0 → i = j) : l.sum ≤ 1 := by
  induction l with
  | nil => simp
  | cons a l ih =>
    rw [List.sum_cons]
    by_cases ha : a = 0
    · rw [ha, zero_add]
      refine ih (fun x hx => h1 x (List.mem_cons_of_mem _ hx)) ?_
      intro i j x y hi hj hx hy
      have := hs (i + 1) (j + 1) x y (by simpa using hi) (by simpa using hj) hx hy
      omega
    · have : l.sum = 0 := by
        apply List.sum_eq_zero
        intro x hx
        by_contra hne
        obtain ⟨i, hi⟩ := List.mem_iff_getElem?.mp hx
        have := hs 0 (i + 1) a x rfl (by simpa using hi) ha hne
        omega
      rw [this, add_zero]
      exact h1 a (List.mem_cons_self ..)

/-- A cluster with a richness of more than its nearest neighbour has members besides it. -/
theorem nW_pos (E : Env G P α) (hml : 1 < E.minlambda) (c' : PS α (Rest G P α)) (he : Cluster.EnvOK c'.rest.env) (hs0 : c'.rest.env.rsig ≤ 0)
    (hs : Solved c'.rest.env c'.redshift c') (hmin : E.minlambda ≤ c'.Lambda / c'.scaleval) (hp : ∀ l, c'.rest.cl.nbs = some l → PlainNbs c'.rest.env l) : (penv E).nW c' ≠ 0 := by
  obtain ⟨x, hx1, hx2, e1, e2, e3⟩ := hs
  have hgt : 1 < (richOf true none x).1 / (richOf true none x).2.1 := by rw [← e1, ← e2]; exact lt_of_lt_of_le hml hmin
  obtain ⟨cl, k, lam, hsz, hr, h0, e⟩ := richOf_found true none none_ok x hgt
  have hxi : Cluster.IdxOK (none : Option (List Nat)) := by intro idx h; cases h
  have hin : ∀ j, Cluster.InIdx (none : Option (List Nat)) j := by intro j idx h; cases h
  obtain ⟨_, _, _, l1, l', xx, _, _, _, h1, h2, _, hv⟩ := Cluster.C125_values x.rest.env true none hxi cl k lam hr h0
  obtain ⟨l0, hl0⟩ := setZ_nbs _ _ _ _ hsz l1 h1
  obtain ⟨hz, hcl, _⟩ := setZ_ok _ _ _ _ hsz l0 hl0
  have e4 : l1 = l0.map fun n => { n with r := radius x.rest.env x.redshift n } := Option.some.inj (h1.symm.trans hcl)
  have hkc : c'.rest.cl = k := by rw [e3, e]
  have hl' : c'.rest.cl.nbs = some l' := by rw [hkc]; exact h2
  have hlen : l'.length = l1.length := richness_len _ true none none_ok _ _ _ hr _ _ h1 h2
  have hrow : ∀ (j : Nat) (m : Cluster.Nb G α), l'[j]? = some m → m.r = radius c'.rest.env c'.redshift m := by
    intro j m hm
    have hlt : j < l1.length := by rw [← hlen]; exact (List.getElem?_eq_some_iff.mp hm).1
    have hj : l1[j]? = some l1[j] := List.getElem?_eq_getElem hlt
    obtain ⟨⟨_, _, _, _, a5, a6, _⟩, _⟩ := hv j _ _ hj hm
    have hj0 : j < l0.length := by rw [e4, List.length_map] at hlt; exact hlt
    have : l1[j] = { l0[j] with r := radius x.rest.env x.redshift l0[j] } := by
      simp only [e4, List.getElem_map]
    rw [a6, this]
    unfold radius
    rw [a5, this, ← hx1, ← hx2]
  -- radii are those at the redshift
  have hhere : nbs (here c') = l' ∧ (here c').rest.cl.rLambda = k.rLambda := by
    unfold here nbs
    cases hq : Cluster.setZ c'.rest.env c'.redshift c'.rest.cl with
    | error q => exact ⟨by simp only [hl', Option.getD_some], by rw [hkc]⟩
    | ok cl2 =>
      obtain ⟨_, b1, b2⟩ := setZ_ok _ _ _ _ hq l' hl'
      refine ⟨?_, by simp only [b2, hkc]⟩
      simp only [b1, Option.getD_some]
      apply List.ext_getElem?
      intro j
      rw [List.getElem?_map]
      cases hj : l'[j]? with
      | none => rfl
      | some m =>
        simp only [Option.map_some, Option.some.injEq]
        rw [← hrow j m hj]
  have hplain := hp l' hl'
  have hnb : ∀ l, cl.nbs = some l → ∀ n ∈ l, Cluster.NbOK n := by
    intro l hl n hn
    have el : l = l1 := Option.some.inj (hl.symm.trans h1)
    rw [el] at hn
    obtain ⟨j, hj⟩ := List.mem_iff_getElem?.mp hn
    have hlt : j < l'.length := by rw [hlen]; exact (List.getElem?_eq_some_iff.mp hj).1
    have hm : l'[j]? = some l'[j] := List.getElem?_eq_getElem hlt
    obtain ⟨⟨_, _, _, a4, _, a6, _⟩, _⟩ := hv j _ _ hj hm
    have hpf := hplain.pfree _ (List.getElem_mem hlt)
    rw [a4] at hpf
    refine ⟨?_, hpf.1, hpf.2⟩
    rw [← a6, hrow j _ hm]
    exact le_trans (by norm_num) (le_max_right _ _)
  obtain ⟨lA, lB, g1, g2, _, _, hcase⟩ := Cluster.C125_members (hx2 ▸ he) true none hxi cl k lam hnb hr
  have eB : lB = l' := Option.some.inj (g2.symm.trans h2)
  subst eB
  rcases hcase with ⟨hlam, _⟩ | ⟨_, _, hrl, _, _, hsum, hmem, _, _⟩
  · rw [hlam] at h0; exact absurd h0 (by norm_num)
  intro hzero
  have hnone : ∀ m ∈ lB, ¬ (rmin (here c') < m.r ∧ m.r < k.rLambda ∧ 0 < m.p) := by
    intro m hm ⟨q1, q2, q3⟩
    have hz' : ((nbs (here c')).filter fun n => decide (rmin (here c') < n.r) && decide (n.r < (here c').rest.cl.rLambda) && decide (0 < n.p)).length = 0 := hzero
    rw [List.length_eq_zero_iff, List.filter_eq_nil_iff] at hz'
    apply hz' m (by rw [hhere.1]; exact hm)
    rw [hhere.2]
    simp [q1, q2, q3]
  have hle : (lB.map Cluster.Nb.pmem).sum ≤ 1 := by
    apply sum_le_one_of_single
    · intro y hy
      obtain ⟨m, hm, rfl⟩ := List.mem_map.mp hy
      obtain ⟨_, b2, _, b4, _⟩ := hmem m hm
      exact le_trans b4 b2
    · intro i j y w hi hj hy hw
      rw [List.getElem?_map] at hi hj
      -- a member is a nearest neighbour
      have hnear : ∀ (i : Nat) (y : α), (lB[i]?).map Cluster.Nb.pmem = some y → y ≠ 0 → ∃ m, lB[i]? = some m ∧ ∀ q ∈ lB, radius c'.rest.env c'.redshift m ≤ radius c'.rest.env c'.redshift q := by
        intro i y hi hy
        cases hq : lB[i]? with
        | none => rw [hq] at hi; simp at hi
        | some m =>
          rw [hq] at hi
          simp only [Option.map_some, Option.some.injEq] at hi
          refine ⟨m, rfl, fun q hqm => ?_⟩
          have hmm := List.mem_of_getElem? hq
          obtain ⟨b1, b2, b3, b4, _⟩ := hmem m hmm
          have hpos : 0 < m.p := lt_of_lt_of_le (lt_of_le_of_ne b3 (by rw [hi]; exact hy.symm)) b4
          have hlt : i < l1.length := by rw [← hlen]; exact (List.getElem?_eq_some_iff.mp hq).1
          have hj1 : l1[i]? = some l1[i] := List.getElem?_eq_getElem hlt
          obtain ⟨⟨_, _, _, _, _, a6, _⟩, _, a8⟩ := hv i _ _ hj1 hq
          obtain ⟨_, _, _, a9⟩ := a8 (hin i)
          have hrl' : m.r < k.rLambda := by
            rw [hrl, a6]
            by_contra hc
            rw [if_pos ⟨hx2 ▸ hs0, hc⟩] at a9
            exact hy (by rw [← hi, a9])
          have hnot : ¬ rmin (here c') < m.r := fun hc => hnone m hmm ⟨hc, hrl', hpos⟩
          -- the smallest radius
          have hminr : ∀ q ∈ lB, rmin (here c') ≤ q.r := by
            intro q hq
            unfold rmin near
            rw [hhere.1]
            cases ha : Centering.argmin (lB.map Cluster.Nb.r) with
            | none =>
              have := (Centering.argmin_none _).mp ha
              simp only [List.map_eq_nil_iff] at this
              rw [this] at hq; simp at hq
            | some t =>
              obtain ⟨v, hv1, hv2⟩ := Centering.argmin_spec _ t ha
              rw [Option.getD_some, List.getD_eq_getElem?_getD, hv1, Option.getD_some]
              obtain ⟨a, ha1⟩ := List.mem_iff_getElem?.mp hq
              exact (hv2 a q.r (by rw [List.getElem?_map, ha1]; rfl)).1
          obtain ⟨t, ht⟩ := List.mem_iff_getElem?.mp hqm
          rw [← hrow i m hq, ← hrow t q ht]
          exact le_trans (not_lt.mp hnot) (hminr q hqm)
      obtain ⟨m, hm1, hm2⟩ := hnear i y hi hy
      obtain ⟨m', hm3, hm4⟩ := hnear j w hj hw
      exact hplain.one c'.redshift (hx1 ▸ hz) i j m m' hm1 hm3 hm2 hm4
  have : (1 : α) < (lB.map Cluster.Nb.pmem).sum := by
    rw [← hsum]
    rw [e] at hgt
    exact hgt
  exact absurd this (not_lt.mpr hle)

/-- C372, the part that holds: with hard edges, two iterations or more (or kept redshifts), a minimum richness above one and no two neighbours that are nearest to the center, a
cluster that percolation gives up is reported. -/
theorem C372_partial (E : Env G P α) (hn : 1 ≤ E.maxiter) (h2 : E.keepz = true ∨ 2 ≤ E.maxiter) (hml : 1 < E.minlambda)
    (he : ∀ cl, Cluster.EnvOK (E.maskAt cl) ∧ (E.maskAt cl).rsig ≤ 0)
    (z lam sv : α) (c : Cluster.Cl G P α) (hlc : (E.lc c).Nodup) (l0 : List (Cluster.Nb G α)) (hl0 : c.nbs = some l0)
    (hc : ∀ cl0 l1, cl0.nbs = some l1 → l1.map key = l0.map key → ∀ z k cl, E.center cl0 z = some (k, cl) → ∃ l, cl.nbs = some l ∧ PlainNbs (E.maskAt cl) l) : ReportedOK E z lam sv c := by
  intro hs
  by_contra hb
  have hb' : (process E z lam sv c).1 = false := by simpa using hb
  obtain ⟨c2, c', k, cl0, cl, a1, a2, a3, hl, a4, hk, hcase⟩ := process_spec E hn z lam sv c hb'
  obtain ⟨l1, c1, c3⟩ := (hk hml).2 hlc l0 hl0
  obtain ⟨l, hl1, hl2⟩ := hc cl0 l1 c1 c3 c2.redshift k cl a1
  have hsol := hl.solved
  rw [if_pos h2] at hsol
  have hne : (penv E).nW c' ≠ 0 := by
    refine nW_pos E hml c' (hl.env ▸ (he _).1) (hl.env ▸ (he _).2) hsol hl.min ?_
    intro l' hl'
    obtain ⟨l'', b1, b2⟩ := (hk hml).1 l (by rw [a2]; exact hl1)
    rw [hl'] at b1
    rw [Option.some.inj b1, hl.env, a2]
    exact plain_congr _ _ _ b2 hl2
  rcases hcase with ⟨h0, _⟩ | ⟨_, e⟩
  · exact hne h0
  · rw [e] at hs
    have := hl.zpos
    rw [hs.2.2.1] at this
    exact absurd this (by norm_num)

/-! ## Witnesses -/

/-- Galaxies at a distance; a background that makes members 96 percent likely or so. -/
def toyRich : Cluster.Env Unit Unit ℚ where
  sph _ _ := 0
  pos _ := ()
  mstarOf _ := 20
  mpcOf z := 5 * z
  chisqOf _ _ := 1
  rho _ := 1
  nfw _ := 1
  phi _ _ _ := 1
  sigma _ _ _ := some (1 / 5)
  theta _ _ _ _ := 1
  maskcorr _ _ _ := (0, 0, 0, 0)
  twopi := 6
  lval := -2
  limmag := 25
  rlam _ := 1
  nfwnorm _ := 1
  soft _ := 1
  rsig := 0
  maskgals := []
  beta := 1 / 5
  gamma := 3 / 10
  sqrt x := x

theorem toyRich_ok : Cluster.EnvOK toyRich where
  twopi := by norm_num [toyRich]
  nfw _ := by norm_num [toyRich]
  phi _ _ _ := by norm_num [toyRich]
  rho _ := by norm_num [toyRich]
  sigma _ _ _ s h := by simp only [toyRich, Option.some.injEq] at h; rw [← h]; norm_num
  theta _ _ _ _ := by norm_num [toyRich]
  nfwnorm _ := by norm_num [toyRich]
  soft _ := by norm_num [toyRich]

def toyNb (d pf : ℚ) : Cluster.Nb Unit ℚ := ⟨(), 18, 1 / 10, pf, d, d, 0, 0, 0, 0, 0, 0, 0⟩

def toyCl (l : List (Cluster.Nb Unit ℚ)) : Cluster.Cl Unit Unit ℚ := ⟨(), some (1 / 5), some 20, some 1, some l, 0, 0, 0, 0⟩

/-- Six galaxies. -/
def six : List (Cluster.Nb Unit ℚ) := [toyNb 0 1, toyNb (1 / 10) 1, toyNb (1 / 5) 1, toyNb (3 / 10) 1, toyNb (2 / 5) 1, toyNb (9 / 10) 1]

/-- The second galaxy is the center, and everything moves by a tenth of a megaparsec. -/
def toy : Env Unit Unit ℚ where
  rich := toyRich
  keepz := false
  minlambda := 3
  pbcgCut := 1 / 2
  maxiter := 3
  lc cl := List.range (cl.nbs.getD []).length
  zlam0 _ := 1 / 5
  center cl _ := some (.galaxy 1, { cl with nbs := cl.nbs.map fun l => l.map fun n => { n with dist := |n.dist - 1 / 10| } })
  maskAt _ := toyRich
  nLc _ cl := (cl.nbs.getD []).length
  zlam _ := (6 / 25, 1 / 100)

/-- A cluster that is kept, after recentering, at another redshift; there the outermost galaxy still is a member. -/
theorem toy_kept : (process toy (1 / 5) 20 1 (toyCl six)).1 = false ∧ (process toy (1 / 5) 20 1 (toyCl six)).2.redshift = 6 / 25 ∧ 1 ≤ (process toy (1 / 5) 20 1 (toyCl six)).2.Lambda ∧
    (process toy (1 / 5) 20 1 (toyCl six)).2.rest.cen = some (.galaxy 1) := by decide +kernel

/-- The centering found no galaxy (random centers). -/
def toyRandom : Env Unit Unit ℚ := { toy with center := fun cl _ => some (.point, cl) }

/-- C371 is false: of two fields that differ in the availability of one galaxy, four cluster radii from the center, one has a cluster and the other has none, if clusters are not
centered on galaxies. -/
theorem C371_false : (∀ lam, toyRandom.rich.rlam lam = 1) ∧ (∀ cl z k cl', toyRandom.center cl z = some (k, cl') → k = .point) ∧
    (process toyRandom (1 / 5) 20 1 (toyCl (six ++ [toyNb 4 1]))).1 = false ∧ (process toyRandom (1 / 5) 20 1 (toyCl (six ++ [toyNb 4 0]))).1 = true := by
  refine ⟨fun _ => rfl, fun cl z k cl' h => ?_, by decide +kernel, by decide +kernel⟩
  simp only [toyRandom, Option.some.injEq, Prod.mk.injEq] at h
  exact h.1.symm

/-- All neighbours are at the same distance of the center. -/
def toyRing : Env Unit Unit ℚ := { toy with center := fun cl _ => some (.point, { cl with nbs := cl.nbs.map fun l => l.map fun n => { n with dist := 1 / 10 } }) }

/-- C372 is false: a cluster that is given up for lack of members besides the nearest is not reported bad; if it is then given its redshift, or one that is lower, as is done for the
derivative of its richness, an error is raised. -/
theorem C372_false : Cluster.EnvOK toyRich ∧ toyRich.rsig ≤ 0 ∧ 1 < toyRing.minlambda ∧ 2 ≤ toyRing.maxiter ∧ ¬ ReportedOK toyRing (1 / 5) 20 1 (toyCl six) ∧
    ∀ eps, 0 ≤ eps → ∀ cl, Cluster.setZ toyRich ((process toyRing (1 / 5) 20 1 (toyCl six)).2.zLambda - eps) cl = .error .value := by
  have h : (process toyRing (1 / 5) 20 1 (toyCl six)).1 = false ∧ (process toyRing (1 / 5) 20 1 (toyCl six)).2.Lambda = -1 ∧ (process toyRing (1 / 5) 20 1 (toyCl six)).2.scaleval = -1 ∧
      (process toyRing (1 / 5) 20 1 (toyCl six)).2.zLambda = -1 ∧ (process toyRing (1 / 5) 20 1 (toyCl six)).2.zLambdaE = -1 := by decide +kernel
  refine ⟨toyRich_ok, by norm_num [toyRich], by norm_num [toyRing, toy], by norm_num [toyRing, toy], fun hr => ?_, fun eps he cl => ?_⟩
  · have := hr h.2
    rw [h.1] at this
    cases this
  · unfold Cluster.setZ
    rw [if_pos (by rw [h.2.2.2.1]; linarith)]

/-- C373 is false for one iteration: the redshift moves after the richness was computed. -/
theorem C373_false : 1 < toy.minlambda ∧ ¬ TogetherOK { toy with maxiter := 1, zlam := fun _ => (1 / 2, 1 / 100) } (1 / 5) 20 1 (toyCl six) := by
  refine ⟨by norm_num [toy], fun h => ?_⟩
  have hw : (process { toy with maxiter := 1, zlam := fun _ => (1 / 2, 1 / 100) } (1 / 5) 20 1 (toyCl six)).1 = false ∧
      (process { toy with maxiter := 1, zlam := fun _ => (1 / 2, 1 / 100) } (1 / 5) 20 1 (toyCl six)).2.Lambda ≠ -1 ∧
      (richOf true none (process { toy with maxiter := 1, zlam := fun _ => (1 / 2, 1 / 100) } (1 / 5) 20 1 (toyCl six)).2).1 ≠
        (process { toy with maxiter := 1, zlam := fun _ => (1 / 2, 1 / 100) } (1 / 5) 20 1 (toyCl six)).2.Lambda := by decide +kernel
  exact hw.2.2 (h hw.1 (fun q => hw.2.1 q.1)).1

/-- The example meets the conditions of C372: no two of its galaxies are nearest to the second. -/
theorem toy_plain (cl0 : Cluster.Cl Unit Unit ℚ) (l1 : List (Cluster.Nb Unit ℚ)) (h1 : cl0.nbs = some l1) (hk : l1.map key = six.map key) (z : ℚ) (k : Center) (cl : Cluster.Cl Unit Unit ℚ)
    (h : toy.center cl0 z = some (k, cl)) : ∃ l, cl.nbs = some l ∧ PlainNbs (toy.maskAt cl) l := by
  simp only [toy, Option.some.injEq, Prod.mk.injEq] at h
  obtain ⟨_, rfl⟩ := h
  simp only [h1, Option.map_some]
  refine ⟨_, rfl, plain_congr _ (six.map fun n => { n with dist := |n.dist - 1 / 10| }) _ ?_ ?_⟩
  · have e : ∀ l : List (Cluster.Nb Unit ℚ), (l.map fun n => { n with dist := |n.dist - 1 / 10| }).map key = (l.map key).map fun q => (q.1, |q.2.1 - 1 / 10|, q.2.2) := by
      intro l
      rw [List.map_map, List.map_map]
      rfl
    rw [e, e, hk]
  · have hfar : ∀ (i : Nat) (n : Cluster.Nb Unit ℚ), (six.map fun n => { n with dist := |n.dist - 1 / 10| })[i]? = some n → n.pfree = 1 ∧ (i ≠ 1 → 1 / 10 ≤ n.dist) := by
      intro i n hi
      have hlt : i < 6 := (List.getElem?_eq_some_iff.mp hi).1
      have hall : ∀ i < 6, ((six.map fun n => { n with dist := |n.dist - 1 / 10| })[i]?.map fun n => decide (n.pfree = 1) && (decide (i = 1) || decide (1 / 10 ≤ n.dist))) = some true := by decide +kernel
      have := hall i hlt
      rw [hi] at this
      simp only [Option.map_some, Option.some.injEq, Bool.and_eq_true, Bool.or_eq_true, decide_eq_true_eq] at this
      exact ⟨this.1, fun h => this.2.resolve_left h⟩
    constructor
    · intro n hn
      obtain ⟨i, hi⟩ := List.mem_iff_getElem?.mp hn
      rw [(hfar i n hi).1]
      norm_num
    · intro z hz i j n m hi hj hn hm
      have h0 : ({ toyNb (1 / 10) 1 with dist := 0 } : Cluster.Nb Unit ℚ) ∈ six.map fun n => { n with dist := |n.dist - 1 / 10| } := by decide +kernel
      have key1 : ∀ (i : Nat) (n : Cluster.Nb Unit ℚ), (six.map fun n => { n with dist := |n.dist - 1 / 10| })[i]? = some n →
          radius toyRich z n ≤ radius toyRich z { toyNb (1 / 10) 1 with dist := 0 } → i = 1 := by
        intro i n hi hle
        by_contra hne
        have hd := (hfar i n hi).2 hne
        unfold radius at hle
        have hz1 : (1 / 100 : ℚ) ≤ max z (1 / 100) := le_max_right _ _
        have hq : (5 * max z (1 / 100)) * n.dist ≤ max (5 * max z (1 / 100) * 0) (1 / 1000000) := le_trans (le_max_left _ _) hle
        have hr : max (5 * max z (1 / 100) * 0) (1 / 1000000) = (1 / 1000000 : ℚ) := by rw [mul_zero]; norm_num
        rw [hr] at hq
        nlinarith
      rw [key1 i n hi (hn _ h0), key1 j m hj (hm _ h0)]

example : 1 ≤ toy.maxiter ∧ 2 ≤ toy.maxiter ∧ 1 < toy.minlambda ∧ 0 < toy.pbcgCut ∧ (∀ cl, Cluster.EnvOK (toy.maskAt cl) ∧ (toy.maskAt cl).rsig ≤ 0) ∧ (toy.lc (toyCl six)).Nodup :=
  ⟨by norm_num [toy], by norm_num [toy], by norm_num [toy], by norm_num [toy], fun _ => ⟨toyRich_ok, by norm_num [toy, toyRich]⟩, List.nodup_range⟩

/-- So the cluster of the example is kept and not given up. -/
example : ¬ Finders.IsSentinel (process toy (1 / 5) 20 1 (toyCl six)).2 := by
  intro h
  have := C372_partial toy (by norm_num [toy]) (Or.inr (by norm_num [toy])) (by norm_num [toy]) (fun _ => ⟨toyRich_ok, by norm_num [toy, toyRich]⟩) (1 / 5) 20 1 (toyCl six) List.nodup_range six rfl toy_plain h
  rw [toy_kept.1] at this
  cases this

end Redmapper.PercCen
