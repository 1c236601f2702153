/-
Properties of one cluster: radii and redshift in step, the richness and its members, the filters.
Claims C125 .. C134.
-/
import Verif.Model.Cluster
import Verif.Props.Solver
import Mathlib.Tactic.Linarith
import Mathlib.Tactic.NormNum
import Mathlib.Tactic.Positivity
import Mathlib.Tactic.FieldSimp
import Mathlib.Analysis.SpecialFunctions.Log.Deriv
import Mathlib.Analysis.SpecialFunctions.Gamma.Basic

namespace Redmapper.Cluster

/-! ## Tables -/

section Tables
variable {β γ δ : Type}

theorem scatter_length (f : β → γ → β) (l : List β) (idx : List Nat) (vs : List γ) :
    (scatter f l idx vs).length = l.length := by
  induction idx generalizing l vs with
  | nil => simp [scatter]
  | cons i is ih =>
    cases vs with
    | nil => simp [scatter]
    | cons v vs =>
      rw [scatter, ih]
      cases l[i]? <;> simp

theorem scatter_other (f : β → γ → β) (l : List β) (idx : List Nat) (vs : List γ) (j : Nat)
    (h : j ∉ idx) : (scatter f l idx vs)[j]? = l[j]? := by
  induction idx generalizing l vs with
  | nil => simp [scatter]
  | cons i is ih =>
    cases vs with
    | nil => simp [scatter]
    | cons v vs =>
      rw [scatter, ih _ _ fun hj => h (List.mem_cons_of_mem _ hj)]
      have hij : i ≠ j := fun e => h (by simp [e])
      cases l[i]? with
      | none => rfl
      | some b => simp only; rw [List.getElem?_set_ne hij]

theorem scatter_get (f : β → γ → β) (l : List β) (idx : List Nat) (vs : List γ) (hn : idx.Nodup)
    (k j : Nat) (b : β) (v : γ) (hk : idx[k]? = some j) (hb : l[j]? = some b)
    (hv : vs[k]? = some v) : (scatter f l idx vs)[j]? = some (f b v) := by
  induction idx generalizing l vs k with
  | nil => simp at hk
  | cons i is ih =>
    cases vs with
    | nil => simp at hv
    | cons w ws =>
      rw [List.nodup_cons] at hn
      rw [scatter]
      cases k with
      | zero =>
        simp only [List.getElem?_cons_zero, Option.some.injEq] at hk hv
        subst hk hv
        rw [scatter_other _ _ _ _ _ hn.1, hb]
        have := (List.getElem?_eq_some_iff.mp hb).1
        simp [this]
      | succ k =>
        rw [List.getElem?_cons_succ] at hk hv
        have hj : j ∈ is := List.mem_of_getElem? hk
        have hij : i ≠ j := fun e => hn.1 (e ▸ hj)
        refine ih _ ws hn.2 k hk ?_ hv
        cases l[i]? with
        | none => exact hb
        | some b => simp only; rw [List.getElem?_set_ne hij]; exact hb

theorem gather_length (l : List β) (idx : List Nat) (h : ∀ i ∈ idx, i < l.length) :
    (gather l idx).length = idx.length := by
  induction idx with
  | nil => rfl
  | cons i is ih =>
    have hi := h i (by simp)
    rw [gather, List.filterMap_cons, List.getElem?_eq_getElem hi]
    simp only [List.length_cons]
    rw [← ih fun j hj => h j (by simp [hj])]; rfl

theorem gather_get (l : List β) (idx : List Nat) (h : ∀ i ∈ idx, i < l.length) (k : Nat) :
    (gather l idx)[k]? = (idx[k]?).bind fun j => l[j]? := by
  induction idx generalizing k with
  | nil => simp [gather]
  | cons i is ih =>
    have hi := h i (by simp)
    rw [gather, List.filterMap_cons, List.getElem?_eq_getElem hi]
    cases k with
    | zero => simp [hi]
    | succ k =>
      simp only [List.getElem?_cons_succ]
      exact ih (fun j hj => h j (by simp [hj])) k

theorem gather_map (f : β → γ) (l : List β) (idx : List Nat) :
    gather (l.map f) idx = (gather l idx).map f := by
  unfold gather
  rw [List.map_filterMap]
  congr 1
  funext i
  simp [List.getElem?_map]

theorem gather_range (l : List β) : gather l (List.range l.length) = l := by
  apply List.ext_getElem?
  intro k
  rw [gather_get l _ (fun i hi => List.mem_range.mp hi)]
  by_cases hk : k < l.length
  · simp [List.getElem?_range, hk]
  · have : l.length ≤ k := Nat.le_of_not_lt hk
    simp [this]

theorem scatter_map (g : β → δ) (f : β → γ → β) (f' : δ → γ → δ) (h : ∀ b v, g (f b v) = f' (g b) v)
    (l : List β) (idx : List Nat) (vs : List γ) :
    (scatter f l idx vs).map g = scatter f' (l.map g) idx vs := by
  induction idx generalizing l vs with
  | nil => simp [scatter]
  | cons i is ih =>
    cases vs with
    | nil => simp [scatter]
    | cons v vs =>
      rw [scatter, scatter, ih]
      congr 1
      rw [List.getElem?_map]
      cases hb : l[i]? with
      | none => rfl
      | some b => simp [List.map_set, h]

/-- Row by row, `scatter` with values computed from the rows. -/
theorem gather_scatter (f : β → γ → β) (φ : β → γ) (l : List β) (idx : List Nat) (hn : idx.Nodup)
    (h : ∀ i ∈ idx, i < l.length) :
    gather (scatter f l idx ((gather l idx).map φ)) idx = (gather l idx).map fun b => f b (φ b) := by
  apply List.ext_getElem?
  intro k
  rw [gather_get _ _ (fun i hi => by rw [scatter_length]; exact h i hi), List.getElem?_map, gather_get _ _ h]
  cases hk : idx[k]? with
  | none => simp
  | some j =>
    have hj := h j (List.mem_of_getElem? hk)
    have hb : l[j]? = some l[j] := List.getElem?_eq_getElem hj
    simp only [Option.bind_some, hb, Option.map_some]
    refine scatter_get f l idx _ hn k j l[j] (φ l[j]) hk hb ?_
    rw [List.getElem?_map, gather_get _ _ h, hk]
    simp [hb]

theorem scatter_sum [AddCommMonoid δ] (f : β → γ → β) (F : β → δ) (w : γ → δ)
    (hf : ∀ b v, F (f b v) = w v) (l : List β) (idx : List Nat) (vs : List γ) (hn : idx.Nodup)
    (hi : ∀ i ∈ idx, i < l.length) (hl : idx.length = vs.length) (h0 : ∀ i ∈ idx, ∀ b, l[i]? = some b → F b = 0) :
    ((scatter f l idx vs).map F).sum = (l.map F).sum + (vs.map w).sum := by
  induction idx generalizing l vs with
  | nil =>
    have : vs = [] := List.length_eq_zero_iff.mp (by simpa using hl.symm)
    simp [scatter, this]
  | cons i is ih =>
    cases vs with
    | nil => simp at hl
    | cons v vs =>
      rw [List.nodup_cons] at hn
      have hil : i < l.length := hi i (by simp)
      rw [scatter, List.getElem?_eq_getElem hil]
      simp only
      rw [ih _ _ hn.2 (fun j hj => by rw [List.length_set]; exact hi j (by simp [hj])) (by simpa using hl)]
      · have h00 := h0 i (by simp) _ (List.getElem?_eq_getElem hil)
        have e : ∀ (l : List β) (i : Nat) (hil : i < l.length), F l[i] = 0 → ∀ b, ((l.set i b).map F).sum = (l.map F).sum + F b := by
          intro l
          induction l with
          | nil => intro i hil; simp at hil
          | cons a t iht =>
            intro i hil h b
            cases i with
            | zero => simp only [List.getElem_cons_zero] at h; simp [h, add_comm]
            | succ i =>
              simp only [List.getElem_cons_succ] at h
              simp only [List.set_cons_succ, List.map_cons, List.sum_cons]
              rw [iht i (by simpa using hil) h b, add_assoc]
        rw [e l i hil h00, hf, List.map_cons, List.sum_cons, add_assoc]
      · intro j hj b hb
        have hij : i ≠ j := fun e => hn.1 (e ▸ hj)
        rw [List.getElem?_set_ne hij] at hb
        exact h0 j (by simp [hj]) b hb

end Tables

/-! ## C125: the richness and the members agree -/

section Richness
variable {α : Type} [Field α] [LinearOrder α] [IsStrictOrderedRing α] {G P : Type}

/-- Signs of the filters: densities are not negative and probabilities are in [0, 1]. -/
structure EnvOK (E : Env G P α) : Prop where
  twopi : 0 ≤ E.twopi
  nfw : ∀ r, 0 ≤ E.nfw r
  phi : ∀ z m x, 0 ≤ E.phi z m x
  rho : ∀ x, 0 ≤ E.rho x
  sigma : ∀ z x m s, E.sigma z x m = some s → 0 ≤ s
  theta : ∀ m e x y, 0 ≤ E.theta m e x y ∧ E.theta m e x y ≤ 1
  nfwnorm : ∀ r, 0 ≤ E.nfwnorm r
  soft : ∀ d, 0 ≤ E.soft d ∧ E.soft d ≤ 1

/-- The neighbours as the runner hands them over: radii are not negative, the free probability is
a probability. -/
def NbOK (n : Nb G α) : Prop := 0 ≤ n.r ∧ 0 ≤ n.pfree ∧ n.pfree ≤ 1

/-- An index array, if given, has no repetitions. -/
def IdxOK (index : Option (List Nat)) : Prop := ∀ idx, index = some idx → idx.Nodup

/-- Is row `j` part of the computation? -/
def InIdx (index : Option (List Nat)) (j : Nat) : Prop := ∀ idx, index = some idx → j ∈ idx

/-- All probabilities of a neighbour are zero. -/
def Zeroed (n : Nb G α) : Prop :=
  n.thetaI = 0 ∧ n.thetaR = 0 ∧ n.p = 0 ∧ n.pcol = 0 ∧ n.pmem = 0

theorem getD_nodup {index : Option (List Nat)} (h : IdxOK index) (n : Nat) :
    (index.getD (List.range n)).Nodup := by
  cases index with
  | none => exact List.nodup_range
  | some idx => exact h idx rfl

/-- The neighbours after the chi-squared has been recomputed. -/
def withChisq (E : Env G P α) (z : α) (n : Nb G α) : Nb G α := { n with chisq := E.chisqOf n.g z }

/-- What a call that returns a value has done. -/
theorem richness_cases (E : Env G P α) (ce : Bool) (index : Option (List Nat)) (c c' : Cl G P α) (lam : α)
    (hx : IdxOK index) (h : richness E ce index c = (c', .ok lam)) :
    ∃ (z mstar mpc : α) (l l1 : List (Nb G α)) (idx : List Nat) (res : Solver.Res α), c.z = some z ∧ c.mstar = some mstar ∧ c.mpc = some mpc ∧ c.nbs = some l ∧
      idx = index.getD (List.range l.length) ∧ idx.Nodup ∧ (∀ i ∈ idx, i < l.length) ∧
      l1 = scatter (fun (n : Nb G α) (x : α) => { n with chisq := x }) l idx ((gather l idx).map fun n => E.chisqOf n.g z) ∧
      gather l1 idx = (gather l idx).map (withChisq E z) ∧
      Solver.solveFuel (toPar E (E.maskcorr mstar (mstar - E.lval) E.limmag))
        (((gather l idx).map (withChisq E z)).map (toGal E z mpc (mstar - E.lval))) 17 = some res ∧
      ((lam = -1 ∧ (res.lambda < 0 ∨ (res.slots.map Solver.Slot.wt).foldl max ((res.slots.map Solver.Slot.wt).headD 0) = 0) ∧
          c' = { c with nbs := some (l1.map clear), Lambda := -1, LambdaE := if ce then -1 else 0,
                        rLambda := res.rlambda, scaleval := -1 }) ∨
       (lam = res.lambda ∧ 0 ≤ lam ∧
          (res.slots.map Solver.Slot.wt).foldl max ((res.slots.map Solver.Slot.wt).headD 0) ≠ 0 ∧ res.slots ≠ [] ∧
          c' = { c with
            nbs := some (scatter (fill E z mpc (mstar - E.lval) lam res.rlambda) (l1.map clear) idx (((gather l idx).map (withChisq E z)).zip res.slots))
            Lambda := lam
            LambdaE := if ce then
              E.sqrt ((1 - ((res.slots.map Solver.Slot.wt).map fun x => x * x).sum / (res.slots.map Solver.Slot.wt).sum) *
                (lam / |lam / (res.slots.map Solver.Slot.wt).sum|) *
                (|lam / (res.slots.map Solver.Slot.wt).sum| * |lam / (res.slots.map Solver.Slot.wt).sum|) +
                lambdaCerr E z mstar mpc lam res.rlambda (res.slots.map Solver.Slot.wt) (errCval (E.maskcorr mstar (mstar - E.lval) E.limmag) res.rlambda) *
                lambdaCerr E z mstar mpc lam res.rlambda (res.slots.map Solver.Slot.wt) (errCval (E.maskcorr mstar (mstar - E.lval) E.limmag) res.rlambda)) else 0
            rLambda := res.rlambda
            scaleval := |lam / (res.slots.map Solver.Slot.wt).sum| })) := by
  unfold richness at h
  cases hz : c.z with
  | none => simp [hz] at h
  | some z =>
  cases hm : c.mstar with
  | none => simp [hz, hm] at h
  | some mstar =>
  cases hk : c.mpc with
  | none => simp [hz, hm, hk] at h
  | some mpc =>
  cases hl : c.nbs with
  | none => simp [hz, hm, hk, hl] at h
  | some l =>
  simp only [hz, hm, hk, hl] at h
  by_cases hi : ∃ i ∈ index.getD (List.range l.length), l.length ≤ i
  · rw [if_pos hi] at h; simp at h
  rw [if_neg hi] at h
  have hi' : ∀ i ∈ index.getD (List.range l.length), i < l.length := fun i hm' => by
    by_contra hc; exact hi ⟨i, hm', Nat.le_of_not_lt hc⟩
  have hnd := getD_nodup hx l.length
  have hg := gather_scatter (fun (n : Nb G α) (x : α) => { n with chisq := x }) (fun n => E.chisqOf n.g z) l _ hnd hi'
  have hg' : gather (scatter (fun (n : Nb G α) (x : α) => { n with chisq := x }) l (index.getD (List.range l.length))
      ((gather l (index.getD (List.range l.length))).map fun n => E.chisqOf n.g z)) (index.getD (List.range l.length)) =
      (gather l (index.getD (List.range l.length))).map (withChisq E z) := hg
  rw [hg'] at h
  generalize hs : Solver.solveFuel (α := α) _ _ 17 = o at h
  cases o with
  | none => simp at h
  | some res =>
  refine ⟨z, mstar, mpc, l, _, _, res, rfl, rfl, rfl, rfl, rfl, hnd, hi', rfl, hg', hs, ?_⟩
  simp only at h
  by_cases h1 : res.lambda < 0
  · rw [if_pos h1] at h
    simp only [Prod.mk.injEq, Except.ok.injEq] at h
    exact Or.inl ⟨h.2.symm, Or.inl h1, h.1.symm⟩
  rw [if_neg h1] at h
  by_cases h2 : res.slots.map Solver.Slot.wt = []
  · rw [if_pos h2] at h; simp at h
  rw [if_neg h2] at h
  by_cases h3 : (res.slots.map Solver.Slot.wt).foldl max ((res.slots.map Solver.Slot.wt).headD 0) = 0
  · rw [if_pos h3] at h
    simp only [Prod.mk.injEq, Except.ok.injEq] at h
    exact Or.inl ⟨h.2.symm, Or.inr h3, h.1.symm⟩
  rw [if_neg h3] at h
  simp only [Prod.mk.injEq, Except.ok.injEq] at h
  obtain ⟨hc, hl'⟩ := h
  subst hl'
  exact Or.inr ⟨rfl, not_lt.mp h1, h3, fun e => h2 (by simp [e]), hc.symm⟩

/-- What the galaxy filter of a cluster at redshift `z` (scales `mstar`, `mpc`) says of a
neighbour: signal density, background density (`none` = infinite), radius and availability. -/
def specGal (E : Env G P α) (z mstar mpc : α) (n : Nb G α) : Solver.Gal α where
  u := E.twopi * n.r * E.nfw n.r * E.phi z (mstar - E.lval) n.refmag * E.rho (E.chisqOf n.g z)
  b := (E.sigma z (E.chisqOf n.g z) n.refmag).map fun s => E.twopi * n.r * (s / (mpc * mpc))
  r := n.r
  w := E.theta n.refmag n.refmagErr (mstar - E.lval) E.limmag * n.pfree

theorem toGal_withChisq (E : Env G P α) (z mstar mpc : α) (n : Nb G α) :
    toGal E z mpc (mstar - E.lval) (withChisq E z n) = specGal E z mstar mpc n := rfl

theorem sum_pos_of_max (l : List α) (h0 : ∀ x ∈ l, 0 ≤ x) (hm : l.foldl max (l.headD 0) ≠ 0) : 0 < l.sum := by
  by_contra hc
  have hs : l.sum = 0 := le_antisymm (not_lt.mp hc) (List.sum_nonneg h0)
  have hall : ∀ x ∈ l, x = 0 := by
    clear hm hc
    induction l with
    | nil => simp
    | cons a t ih =>
      have ha := h0 a (by simp)
      have ht := List.sum_nonneg (fun x hx => h0 x (List.mem_cons_of_mem _ hx) : ∀ x ∈ t, 0 ≤ x)
      rw [List.sum_cons] at hs
      intro x hx
      rcases List.mem_cons.mp hx with rfl | hx
      · linarith
      · exact ih (fun x hx => h0 x (List.mem_cons_of_mem _ hx)) (by linarith) x hx
  apply hm
  have : ∀ (t : List α) (a : α), (∀ x ∈ t, x = 0) → a = 0 → t.foldl max a = 0 := by
    intro t
    induction t with
    | nil => intro a _ ha; exact ha
    | cons b t ih =>
      intro a hb ha
      rw [List.foldl_cons]
      exact ih _ (fun x hx => hb x (by simp [hx])) (by rw [ha, hb b (by simp)]; exact max_self 0)
  refine this l _ hall ?_
  cases l with
  | nil => rfl
  | cons a t => exact hall a (by simp)

theorem specGal_ok {E : Env G P α} (he : EnvOK E) (z mstar mpc : α) {n : Nb G α} (hn : NbOK n) :
    0 ≤ (specGal E z mstar mpc n).u ∧ (∀ b, (specGal E z mstar mpc n).b = some b → 0 ≤ b) ∧
    0 ≤ (specGal E z mstar mpc n).w ∧ (specGal E z mstar mpc n).w ≤ 1 := by
  obtain ⟨h1, h2, h3⟩ := hn
  have ht := he.theta n.refmag n.refmagErr (mstar - E.lval) E.limmag
  refine ⟨?_, ?_, mul_nonneg ht.1 h2, mul_le_one₀ ht.2 h2 h3⟩
  · exact mul_nonneg (mul_nonneg (mul_nonneg (mul_nonneg he.twopi h1) (he.nfw _)) (he.phi _ _ _)) (he.rho _)
  · intro b hb
    simp only [specGal, Option.map_eq_some_iff] at hb
    obtain ⟨s, hs, rfl⟩ := hb
    exact mul_nonneg (mul_nonneg he.twopi h1) (div_nonneg (he.sigma _ _ _ _ hs) (mul_self_nonneg _))

/-- The radius of the solver at a valid richness. -/
theorem solver_ok {E : Env G P α} {cp : α × α × α × α} {gs : List (Solver.Gal α)} {res : Solver.Res α}
    (h : Solver.solveFuel (toPar E cp) gs 17 = some res) (h0 : 0 ≤ res.lambda) :
    1 ≤ res.lambda ∧ res.lambda < 2000 ∧ res.rlambda = E.rlam res.lambda := by
  rcases Solver.C01_richness_range _ _ _ _ h with ⟨e, _⟩ | h
  · rw [e] at h0; exact absurd h0 (by norm_num)
  · exact h

/-- The neighbours after a successful call, row by row. -/
theorem richness_row {E : Env G P α} {z mstar mpc lam rl : α} {l : List (Nb G α)} {idx : List Nat}
    {slots : List (Solver.Slot α)} (hn : idx.Nodup) (hi : ∀ i ∈ idx, i < l.length) (hs : slots.length = idx.length) (j : Nat) (m : Nb G α)
    (hm : (scatter (fill E z mpc (mstar - E.lval) lam rl)
      ((scatter (fun (n : Nb G α) (x : α) => { n with chisq := x }) l idx ((gather l idx).map fun n => E.chisqOf n.g z)).map clear) idx
      (((gather l idx).map (withChisq E z)).zip slots))[j]? = some m) :
    ∃ n, l[j]? = some n ∧ ((j ∉ idx ∧ m = clear n) ∨
      ∃ (k : Nat) (s : Solver.Slot α), idx[k]? = some j ∧ slots[k]? = some s ∧
        m = fill E z mpc (mstar - E.lval) lam rl (clear (withChisq E z n)) (withChisq E z n, s)) := by
  have hj : j < l.length := by
    have := (List.getElem?_eq_some_iff.mp hm).1
    rwa [scatter_length, List.length_map, scatter_length] at this
  refine ⟨l[j], List.getElem?_eq_getElem hj, ?_⟩
  by_cases hji : j ∈ idx
  · right
    obtain ⟨k, hk, e⟩ := List.getElem_of_mem hji
    have hk' : idx[k]? = some j := by rw [List.getElem?_eq_getElem hk, e]
    have hks : k < slots.length := by omega
    refine ⟨k, slots[k], hk', List.getElem?_eq_getElem hks, ?_⟩
    have hb := List.getElem?_eq_getElem hj
    have hc : (scatter (fun (n : Nb G α) (x : α) => { n with chisq := x }) l idx ((gather l idx).map fun n => E.chisqOf n.g z))[j]? =
        some (withChisq E z l[j]) := by
      refine scatter_get _ l idx _ hn k j l[j] (E.chisqOf l[j].g z) hk' hb ?_
      rw [List.getElem?_map, gather_get _ _ hi, hk']; simp [hb]
    have hz : (((gather l idx).map (withChisq E z)).zip slots)[k]? = some (withChisq E z l[j], slots[k]) := by
      rw [List.getElem?_zip_eq_some]
      refine ⟨?_, List.getElem?_eq_getElem hks⟩
      rw [List.getElem?_map, gather_get _ _ hi, hk']; simp [hb]
    have := scatter_get (fill E z mpc (mstar - E.lval) lam rl) _ idx _ hn k j (clear (withChisq E z l[j])) _ hk'
      (by rw [List.getElem?_map, hc]; rfl) hz
    rw [this] at hm
    exact (Option.some.inj hm).symm
  · left
    refine ⟨hji, ?_⟩
    rw [scatter_other _ _ _ _ _ hji, List.getElem?_map, scatter_other _ _ _ _ _ hji, List.getElem?_eq_getElem hj] at hm
    exact (Option.some.inj hm).symm

/-- **C125.**  A call of `calc_richness` that returns either failed, then richness and scale are -1
and no neighbour has any probability, or found a richness between 1 and 2000 whose radius belongs to
it; then the richness divided by the recorded scale is exactly the sum of the membership
probabilities of the neighbours, all probabilities are in [0, 1], a membership probability does not
exceed the raw probability, and neighbours outside the index have no probability. -/
theorem C125_members {E : Env G P α} (he : EnvOK E) (ce : Bool) (index : Option (List Nat)) (hx : IdxOK index)
    (c c' : Cl G P α) (lam : α) (hn : ∀ l, c.nbs = some l → ∀ n ∈ l, NbOK n)
    (h : richness E ce index c = (c', .ok lam)) :
    ∃ l l' : List (Nb G α), c.nbs = some l ∧ c'.nbs = some l' ∧ l'.length = l.length ∧ c'.Lambda = lam ∧
      ((lam = -1 ∧ c'.scaleval = -1 ∧ ∀ m ∈ l', Zeroed m) ∨
       (1 ≤ lam ∧ lam < 2000 ∧ c'.rLambda = E.rlam lam ∧ 0 < c'.scaleval ∧ 0 < (l'.map Nb.pmem).sum ∧
        lam / c'.scaleval = (l'.map Nb.pmem).sum ∧
        (∀ m ∈ l', 0 ≤ m.p ∧ m.p ≤ 1 ∧ 0 ≤ m.pmem ∧ m.pmem ≤ m.p ∧ 0 ≤ m.pcol ∧ m.pcol ≤ 1 ∧
          0 ≤ m.thetaI ∧ m.thetaI ≤ 1 ∧ 0 ≤ m.thetaR ∧ m.thetaR ≤ 1) ∧
        (∀ j m, l'[j]? = some m → ¬ InIdx index j → Zeroed m) ∧
        (∀ m ∈ l', E.rlam lam < m.r → m.pcol = 0 ∧ (E.rsig ≤ 0 → m.pmem = 0)))) := by
  obtain ⟨z, mstar, mpc, l, l1, idx, res, hz, hm, hk, hl, hidx, hnd, hi, hl1, hg, hs, hc⟩ := richness_cases E ce index c c' lam hx h
  have hlen1 : l1.length = l.length := by rw [hl1, scatter_length]
  rcases hc with ⟨e, _, rfl⟩ | ⟨e, h0, hmax, hne, rfl⟩
  · refine ⟨l, l1.map clear, hl, rfl, by rw [List.length_map, hlen1], e.symm, Or.inl ⟨e, rfl, ?_⟩⟩
    intro m hm
    obtain ⟨n, _, rfl⟩ := List.mem_map.mp hm
    exact ⟨rfl, rfl, rfl, rfl, rfl⟩
  · subst e
    have hsok := solver_ok hs h0
    have hmapeq : ((gather l idx).map (withChisq E z)).map (toGal E z mpc (mstar - E.lval)) = (gather l idx).map (specGal E z mstar mpc) := by
      rw [List.map_map]; rfl
    rw [hmapeq] at hs
    have hgat : ∀ n ∈ gather l idx, n ∈ l := by
      intro n hn'
      obtain ⟨i, _, e⟩ := List.mem_filterMap.mp hn'
      exact List.mem_of_getElem? e
    have hu := Solver.C04_unit_interval _ _ _ _ hs he.nfwnorm he.soft (by
      intro g hg'
      obtain ⟨n, hn', rfl⟩ := List.mem_map.mp hg'
      exact specGal_ok he z mstar mpc (hn l hl n (hgat n hn')))
    have hslen : res.slots.length = idx.length := by rw [hu.1, List.length_map, gather_length _ _ hi]
    have hwt : ∀ x ∈ res.slots.map Solver.Slot.wt, 0 ≤ x := by
      intro x hx
      obtain ⟨s, hs', rfl⟩ := List.mem_map.mp hx
      exact (hu.2 s hs').2.2.1
    have hpos := sum_pos_of_max _ hwt hmax
    have hsum : ((scatter (fill E z mpc (mstar - E.lval) res.lambda res.rlambda) (l1.map clear) idx
        (((gather l idx).map (withChisq E z)).zip res.slots)).map Nb.pmem).sum = (res.slots.map Solver.Slot.wt).sum := by
      rw [scatter_sum _ Nb.pmem (fun q : Nb G α × Solver.Slot α => q.2.wt) (fun _ _ => rfl) _ _ _ hnd
        (fun i hi' => by rw [List.length_map, hlen1]; exact hi i hi')]
      · have e1 : ((l1.map clear).map Nb.pmem).sum = 0 := by
          apply List.sum_eq_zero
          intro x hx
          obtain ⟨m, hm, rfl⟩ := List.mem_map.mp hx
          obtain ⟨n, _, rfl⟩ := List.mem_map.mp hm
          rfl
        have e2 : (((gather l idx).map (withChisq E z)).zip res.slots).map (fun q : Nb G α × Solver.Slot α => q.2.wt) = res.slots.map Solver.Slot.wt := by
          have : (fun q : Nb G α × Solver.Slot α => q.2.wt) = Solver.Slot.wt ∘ Prod.snd := rfl
          rw [this, ← List.map_map, List.map_snd_zip]
          rw [List.length_map, gather_length _ _ hi, hslen]
        rw [e1, e2, zero_add]
      · rw [List.length_zip, List.length_map, gather_length _ _ hi, hslen]; simp
      · intro i _ b hb
        rw [List.getElem?_map] at hb
        obtain ⟨n, _, rfl⟩ := Option.map_eq_some_iff.mp hb
        rfl
    have hlam : (0 : α) < res.lambda := by linarith [hsok.1]
    have hdiv : 0 < res.lambda / (res.slots.map Solver.Slot.wt).sum := div_pos hlam hpos
    refine ⟨l, _, hl, rfl, by rw [scatter_length, List.length_map, hlen1], rfl, Or.inr ⟨hsok.1, hsok.2.1, hsok.2.2, ?_, ?_, ?_, ?_, ?_, ?_⟩⟩
    · show 0 < |_|
      rw [abs_of_pos hdiv]; exact hdiv
    · rw [hsum]; exact hpos
    · show _ / |_| = _
      rw [hsum, abs_of_pos hdiv]; field_simp
    · intro m hm'
      obtain ⟨j, hj⟩ := List.getElem?_of_mem hm'
      rw [hl1] at hj
      obtain ⟨n, hnj, ⟨_, rfl⟩ | ⟨k, s, hk', hs', rfl⟩⟩ := richness_row hnd hi hslen j m hj
      · simp [clear]
      · have hsm := hu.2 s (List.mem_of_getElem? hs')
        obtain ⟨q1, q2, q3, q4, q5, q6, q7⟩ := hsm
        have ht := he.theta n.refmag n.refmagErr (mstar - E.lval) E.limmag
        refine ⟨q1, q2, q3, q5, ?_, ?_, ht.1, ht.2, q6, q7⟩
        all_goals
          simp only [fill, pcolOf]
          split_ifs
          · norm_num
          · have hb : ∀ b, bkgDensity E z mpc (withChisq E z n).r (withChisq E z n).chisq (withChisq E z n).refmag = some b → 0 ≤ b :=
              (specGal_ok he z mstar mpc (hn l hl n (List.mem_of_getElem? hnj))).2.1
            generalize bkgDensity E z mpc (withChisq E z n).r (withChisq E z n).chisq (withChisq E z n).refmag = o at hb
            have hpu : 0 ≤ E.rho (withChisq E z n).chisq * E.phi z (mstar - E.lval) (withChisq E z n).refmag * res.lambda :=
              mul_nonneg (mul_nonneg (he.rho _) (he.phi _ _ _)) hlam.le
            cases o with
            | none => norm_num
            | some b =>
              have hb0 := hb b rfl
              simp only
              split_ifs with hq
              · norm_num
              · first
                | exact div_nonneg hpu (by linarith)
                | exact div_le_one_of_le₀ (by linarith) (by linarith)
    · intro j m hj hin
      rw [hl1] at hj
      obtain ⟨n, hnj, ⟨_, rfl⟩ | ⟨k, s, hk', hs', rfl⟩⟩ := richness_row hnd hi hslen j m hj
      · exact ⟨rfl, rfl, rfl, rfl, rfl⟩
      · exfalso
        apply hin
        intro ix hix
        have := List.mem_of_getElem? hk'
        rw [hidx, hix] at this
        exact this
    · intro m hm' hr
      obtain ⟨j, hj⟩ := List.getElem?_of_mem hm'
      rw [hl1] at hj
      obtain ⟨n, hnj, ⟨_, rfl⟩ | ⟨k, s, hk', hs', rfl⟩⟩ := richness_row hnd hi hslen j m hj
      · exact ⟨rfl, fun _ => rfl⟩
      · have hr' : res.rlambda < n.r := by rw [hsok.2.2]; exact hr
        refine ⟨?_, ?_⟩
        · simp only [fill, pcolOf]
          rw [if_pos (Or.inl (by exact hr'))]
        · intro hsig
          by_contra hne'
          have hgk : ((gather l idx).map (specGal E z mstar mpc))[k]? = some (specGal E z mstar mpc n) := by
            rw [List.getElem?_map, gather_get _ _ hi, hk']; simp [hnj]
          have hq : (specGal E z mstar mpc n, s) ∈ ((gather l idx).map (specGal E z mstar mpc)).zip res.slots := by
            apply List.mem_of_getElem? (i := k)
            rw [List.getElem?_zip_eq_some]
            exact ⟨hgk, hs'⟩
          have h5 := (Solver.C05_hard_cut_partial _ _ _ _ hs hsig hsok.1 _ hq).1 hne'
          have h5' : n.r < E.rlam res.lambda := h5
          exact absurd h5' (not_lt.mpr (le_of_lt hr))

/-- **C125**, the values: at a found richness the probabilities of every neighbour in the index are
the membership formula of the filters *at the current redshift and radius*, evaluated at one common
richness within 0.01 of the returned one, the chi-squared column is that of the current redshift,
and every column that is not an output is untouched. -/
theorem C125_values (E : Env G P α) (ce : Bool) (index : Option (List Nat)) (hx : IdxOK index)
    (c c' : Cl G P α) (lam : α) (h : richness E ce index c = (c', .ok lam)) (h0 : 0 ≤ lam) :
    ∃ (z mstar mpc : α) (l l' : List (Nb G α)) (x : α), c.z = some z ∧ c.mstar = some mstar ∧ c.mpc = some mpc ∧
      c.nbs = some l ∧ c'.nbs = some l' ∧ |x - lam| ≤ 1 / 100 ∧
      ∀ (j : Nat) (n m : Nb G α), l[j]? = some n → l'[j]? = some m →
        (m.g = n.g ∧ m.refmag = n.refmag ∧ m.refmagErr = n.refmagErr ∧ m.pfree = n.pfree ∧ m.dist = n.dist ∧ m.r = n.r ∧ m.index = n.index) ∧
        (¬ InIdx index j → m.chisq = n.chisq) ∧
        (InIdx index j →
          m.chisq = E.chisqOf n.g z ∧
          m.thetaI = E.theta n.refmag n.refmagErr (mstar - E.lval) E.limmag ∧
          m.p = Solver.specProb (toPar E (E.maskcorr mstar (mstar - E.lval) E.limmag)) x (specGal E z mstar mpc n) ∧
          m.pmem = (if E.rsig ≤ 0 ∧ ¬ n.r < E.rlam lam then 0
            else m.p * (m.thetaI * n.pfree) * Solver.specTheta (toPar E (E.maskcorr mstar (mstar - E.lval) E.limmag)) x (specGal E z mstar mpc n))) := by
  obtain ⟨z, mstar, mpc, l, l1, idx, res, hz, hm, hk, hl, hidx, hnd, hi, hl1, hg, hs, hc⟩ := richness_cases E ce index c c' lam hx h
  rcases hc with ⟨e, _, _⟩ | ⟨e, _, hmax, hne, rfl⟩
  · rw [e] at h0; exact absurd h0 (by norm_num)
  subst e
  have hsok := solver_ok hs h0
  have hmapeq : ((gather l idx).map (withChisq E z)).map (toGal E z mpc (mstar - E.lval)) = (gather l idx).map (specGal E z mstar mpc) := by
    rw [List.map_map]; rfl
  rw [hmapeq] at hs
  obtain ⟨x, hx1, hxl, hxq⟩ := Solver.C71_probabilities_near_richness _ _ _ _ hs hsok.1
  have hslen : res.slots.length = idx.length := by rw [hxl, List.length_map, gather_length _ _ hi]
  refine ⟨z, mstar, mpc, l, _, x, hz, hm, hk, hl, rfl, hx1, ?_⟩
  intro j n m hnj hmj
  rw [hl1] at hmj
  obtain ⟨n', hnj', hcase⟩ := richness_row hnd hi hslen j m hmj
  have en : n' = n := Option.some.inj (hnj'.symm.trans hnj)
  subst en
  have hin : InIdx index j ↔ j ∈ idx := by
    rw [hidx]
    cases index with
    | none => simp [InIdx, (List.getElem?_eq_some_iff.mp hnj).1]
    | some ix => simp [InIdx]
  rcases hcase with ⟨hji, rfl⟩ | ⟨k, s, hk', hs', rfl⟩
  · exact ⟨⟨rfl, rfl, rfl, rfl, rfl, rfl, rfl⟩, fun _ => rfl, fun hh => absurd (hin.mp hh) hji⟩
  · refine ⟨⟨rfl, rfl, rfl, rfl, rfl, rfl, rfl⟩, fun hh => absurd (hin.mpr (List.mem_of_getElem? hk')) hh, fun _ => ?_⟩
    have hgk : ((gather l idx).map (specGal E z mstar mpc))[k]? = some (specGal E z mstar mpc n') := by
      rw [List.getElem?_map, gather_get _ _ hi, hk']; simp [hnj]
    have hq : (specGal E z mstar mpc n', s) ∈ ((gather l idx).map (specGal E z mstar mpc)).zip res.slots := by
      apply List.mem_of_getElem? (i := k)
      rw [List.getElem?_zip_eq_some]
      exact ⟨hgk, hs'⟩
    obtain ⟨q1, q2⟩ := hxq _ hq
    refine ⟨rfl, rfl, q1, ?_⟩
    show s.wt = _
    rw [q2]
    show _ = if _ then 0 else s.p * _ * _
    have q1' : s.p = Solver.specProb (toPar E (E.maskcorr mstar (mstar - E.lval) E.limmag)) x (specGal E z mstar mpc n') := q1
    rw [q1']
    rfl

/-- **C125**, the colour-only probability: zero for a neighbour beyond the radius, fainter than the
richness limit or than the survey limit, otherwise the fraction of the colour-magnitude densities. -/
theorem C125_colour (E : Env G P α) (ce : Bool) (index : Option (List Nat)) (hx : IdxOK index)
    (c c' : Cl G P α) (lam : α) (h : richness E ce index c = (c', .ok lam)) (h0 : 0 ≤ lam) :
    ∃ (z mstar mpc : α) (l l' : List (Nb G α)), c.z = some z ∧ c.mstar = some mstar ∧ c.mpc = some mpc ∧
      c.nbs = some l ∧ c'.nbs = some l' ∧
      ∀ (j : Nat) (n m : Nb G α), l[j]? = some n → l'[j]? = some m → InIdx index j →
        ((E.rlam lam < n.r ∨ mstar - E.lval < n.refmag ∨ E.limmag < n.refmag) → m.pcol = 0) ∧
        (∀ s u b : α, n.r ≤ E.rlam lam → n.refmag ≤ mstar - E.lval → n.refmag ≤ E.limmag →
          E.sigma z (E.chisqOf n.g z) n.refmag = some s →
          u = E.rho (E.chisqOf n.g z) * E.phi z (mstar - E.lval) n.refmag →
          b = E.twopi * n.r * (s / (mpc * mpc)) → u * lam + b ≠ 0 → m.pcol = u * lam / (u * lam + b)) := by
  obtain ⟨z, mstar, mpc, l, l1, idx, res, hz, hm, hk, hl, hidx, hnd, hi, hl1, hg, hs, hc⟩ := richness_cases E ce index c c' lam hx h
  rcases hc with ⟨e, _, _⟩ | ⟨e, _, hmax, hne, rfl⟩
  · rw [e] at h0; exact absurd h0 (by norm_num)
  subst e
  have hsok := solver_ok hs h0
  have hslen : res.slots.length = idx.length := by
    obtain ⟨x, hx1, hxl, hxq⟩ := Solver.C71_probabilities_near_richness _ _ _ _ hs hsok.1
    rw [hxl, List.length_map, List.length_map, gather_length _ _ hi]
  refine ⟨z, mstar, mpc, l, _, hz, hm, hk, hl, rfl, ?_⟩
  intro j n m hnj hmj hin
  rw [hl1] at hmj
  obtain ⟨n', hnj', hcase⟩ := richness_row hnd hi hslen j m hmj
  have en : n' = n := Option.some.inj (hnj'.symm.trans hnj)
  subst en
  rcases hcase with ⟨hji, rfl⟩ | ⟨k, s, hk', hs', rfl⟩
  · exfalso
    apply hji
    rw [hidx]
    cases index with
    | none => simp [(List.getElem?_eq_some_iff.mp hnj).1]
    | some ix => exact hin ix rfl
  · have hfill : (fill E z mpc (mstar - E.lval) res.lambda res.rlambda (clear (withChisq E z n')) (withChisq E z n', s)).pcol =
        pcolOf E z mpc (mstar - E.lval) res.lambda (E.rlam res.lambda) (withChisq E z n') := by rw [← hsok.2.2]; rfl
    rw [hfill]
    refine ⟨fun hcut => by unfold pcolOf; exact if_pos hcut, ?_⟩
    intro sg u b r1 r2 r3 hsg hu hb hub
    subst hu hb
    have hnc : ¬ (E.rlam res.lambda < (withChisq E z n').r ∨ mstar - E.lval < (withChisq E z n').refmag ∨ E.limmag < (withChisq E z n').refmag) := by
      rintro (q | q | q)
      · exact absurd q (not_lt.mpr r1)
      · exact absurd q (not_lt.mpr r2)
      · exact absurd q (not_lt.mpr r3)
    unfold pcolOf
    rw [if_neg hnc]
    have hbd : bkgDensity E z mpc (withChisq E z n').r (withChisq E z n').chisq (withChisq E z n').refmag = some (E.twopi * n'.r * (sg / (mpc * mpc))) := by
      show (E.sigma z (E.chisqOf n'.g z) n'.refmag).map _ = _
      rw [hsg]; rfl
    simp only [hbd]
    exact if_neg hub

/-! ## C126: the richness depends only on the present, not on the history -/

/-- One step of the life of a cluster: set a redshift or compute a richness, each with its own
environment (its own mask, calibration and random draws) and arguments. -/
inductive Op (G P α : Type) where
  | setZ (E : Env G P α) (z : α)
  | richness (E : Env G P α) (calcErr : Bool) (index : Option (List Nat))

/-- A raised exception leaves what has been written so far. -/
def stepOp (c : Cl G P α) : Op G P α → Cl G P α
  | .setZ E z => match setZ E z c with
    | .ok c' => c'
    | .error _ => c
  | .richness E ce index => (richness E ce index c).1

/-- The columns of a neighbour no such step changes. -/
def stat (n : Nb G α) : Nb G α := { clear n with r := 0, chisq := 0 }

def statNbs (c : Cl G P α) : Option (List (Nb G α)) := c.nbs.map fun l => l.map stat

theorem stat_computeR (c : Cl G P α) : statNbs (computeR c) = statNbs c := by
  unfold computeR
  cases hl : c.nbs with
  | none => rfl
  | some l =>
    cases c.z with
    | none => simp
    | some z =>
      cases c.mpc with
      | none => simp
      | some k =>
        simp only [statNbs, hl, Option.map_some, List.map_map]
        rfl

theorem scatter_stat {γ : Type} (f : Nb G α → γ → Nb G α) (hf : ∀ b v, stat (f b v) = stat b) (l : List (Nb G α))
    (idx : List Nat) (vs : List γ) : (scatter f l idx vs).map stat = l.map stat := by
  rw [scatter_map stat f (fun b _ => b) hf]
  generalize l.map stat = l
  induction idx generalizing l vs with
  | nil => simp [scatter]
  | cons i is ih =>
    cases vs with
    | nil => simp [scatter]
    | cons v vs =>
      rw [scatter, ih]
      cases hb : l[i]? with
      | none => rfl
      | some b =>
        simp only
        apply List.ext_getElem?
        intro k
        by_cases hk : i = k
        · subst hk
          rw [hb, List.getElem?_set_self (List.getElem?_eq_some_iff.mp hb).1]
        · rw [List.getElem?_set_ne hk]

theorem map_stat_clear (l : List (Nb G α)) : (l.map clear).map stat = l.map stat := by
  rw [List.map_map]; rfl

theorem stat_richness (E : Env G P α) (ce : Bool) (index : Option (List Nat)) (c : Cl G P α) :
    statNbs (richness E ce index c).1 = statNbs c := by
  unfold richness
  split
  · rename_i z mstar mpc l hz hm hk hl
    have hch : ∀ idx (vs : List α), (scatter (fun (n : Nb G α) (x : α) => { n with chisq := x }) l idx vs).map stat = l.map stat :=
      fun idx vs => scatter_stat (fun (n : Nb G α) (x : α) => { n with chisq := x }) (fun _ _ => rfl) l idx vs
    simp only
    by_cases hi : ∃ i ∈ index.getD (List.range l.length), l.length ≤ i
    · rw [if_pos hi]
    rw [if_neg hi]
    generalize Solver.solveFuel (α := α) _ _ 17 = o
    cases o with
    | none => rfl
    | some res =>
    simp only
    by_cases h1 : res.lambda < 0
    · rw [if_pos h1]
      simp only [statNbs, Option.map_some, map_stat_clear, hch, hl]
    rw [if_neg h1]
    by_cases h2 : res.slots.map Solver.Slot.wt = []
    · rw [if_pos h2]
      simp only [statNbs, Option.map_some, map_stat_clear, hch, hl]
    rw [if_neg h2]
    by_cases h3 : (res.slots.map Solver.Slot.wt).foldl max ((res.slots.map Solver.Slot.wt).headD 0) = 0
    · rw [if_pos h3]
      simp only [statNbs, Option.map_some, map_stat_clear, hch, hl]
    rw [if_neg h3]
    simp only [statNbs, Option.map_some, hl]
    rw [scatter_stat (fill E z mpc (mstar - E.lval) res.lambda res.rlambda) (fun _ _ => rfl), map_stat_clear, hch]
  · rfl

theorem stat_history (ops : List (Op G P α)) (c : Cl G P α) : statNbs (ops.foldl stepOp c) = statNbs c := by
  induction ops generalizing c with
  | nil => rfl
  | cons o os ih =>
    rw [List.foldl_cons, ih]
    cases o with
    | setZ E z =>
      unfold stepOp setZ
      by_cases hz : z < 0
      · simp only [hz, if_true]
      · simp only [hz, if_false]
        rw [stat_computeR]; rfl
    | richness E ce index => exact stat_richness E ce index c

theorem pos_history (ops : List (Op G P α)) (c : Cl G P α) : (ops.foldl stepOp c).pos = c.pos := by
  induction ops generalizing c with
  | nil => rfl
  | cons o os ih =>
    rw [List.foldl_cons, ih]
    cases o with
    | setZ E z =>
      unfold stepOp setZ
      by_cases hz : z < 0
      · simp only [hz, if_true]
      · simp only [hz, if_false]
        unfold computeR
        split <;> rfl
    | richness E ce index =>
      show (richness E ce index c).1.pos = c.pos
      unfold richness
      split
      · rename_i z mstar mpc l hz hm hk hl
        simp only
        by_cases hi : ∃ i ∈ index.getD (List.range l.length), l.length ≤ i
        · rw [if_pos hi]
        rw [if_neg hi]
        generalize Solver.solveFuel (α := α) _ _ 17 = o
        cases o with
        | none => rfl
        | some res =>
        simp only
        by_cases h1 : res.lambda < 0
        · rw [if_pos h1]
        rw [if_neg h1]
        by_cases h2 : res.slots.map Solver.Slot.wt = []
        · rw [if_pos h2]
        rw [if_neg h2]
        by_cases h3 : (res.slots.map Solver.Slot.wt).foldl max ((res.slots.map Solver.Slot.wt).headD 0) = 0
        · rw [if_pos h3]
        rw [if_neg h3]
      · rfl

/-- Everything of a neighbour but the chi-squared. -/
def dropChisq (n : Nb G α) : Nb G α := { n with chisq := 0 }

/-- The columns a richness computation reads (besides those it has just written). -/
def core (n : Nb G α) : Nb G α := dropChisq (clear n)

theorem scatter_vals {β γ δ : Type} (f : β → γ → β) (φ : δ → γ) (l : List β) (idx : List Nat) (vs : List δ) :
    scatter f l idx (vs.map φ) = scatter (fun b v => f b (φ v)) l idx vs := by
  induction idx generalizing l vs with
  | nil => simp [scatter]
  | cons i is ih =>
    cases vs with
    | nil => simp [scatter]
    | cons v vs => rw [List.map_cons, scatter, scatter, ih]

theorem scatter_const {β γ : Type} (l : List β) (idx : List Nat) (vs : List γ) : scatter (fun b _ => b) l idx vs = l := by
  induction idx generalizing l vs with
  | nil => simp [scatter]
  | cons i is ih =>
    cases vs with
    | nil => simp [scatter]
    | cons v vs =>
      rw [scatter, ih]
      cases hb : l[i]? with
      | none => rfl
      | some b =>
        simp only
        apply List.ext_getElem?
        intro k
        by_cases hk : i = k
        · subst hk; rw [hb, List.getElem?_set_self (List.getElem?_eq_some_iff.mp hb).1]
        · rw [List.getElem?_set_ne hk]

/-- Two neighbour tables agree in everything but the chi-squared of rows outside `idx`. -/
def Agree (idx : List Nat) (l l' : List (Nb G α)) : Prop :=
  l.map dropChisq = l'.map dropChisq ∧ ∀ j ∈ idx, (l.map Nb.chisq)[j]? = (l'.map Nb.chisq)[j]?

theorem agree_all {l l' : List (Nb G α)} (h : Agree (List.range l.length) l l') : l = l' := by
  obtain ⟨h1, h2⟩ := h
  apply List.ext_getElem?
  intro j
  have hlen : l.length = l'.length := by simpa using congrArg List.length h1
  by_cases hj : j < l.length
  · have hj' : j < l'.length := by omega
    have a := congrArg (fun t => t[j]?) h1
    have b := h2 j (List.mem_range.mpr hj)
    simp only [List.getElem?_map, List.getElem?_eq_getElem hj, List.getElem?_eq_getElem hj', Option.map_some, Option.some.injEq] at a b ⊢
    generalize l[j] = x at a b ⊢
    generalize l'[j] = y at a b ⊢
    cases x; cases y
    simp only [dropChisq, Nb.mk.injEq] at a b ⊢
    obtain ⟨a1, a2, a3, a4, a5, a6, _, a7, a8, a9, a10, a11, a12⟩ := a
    exact ⟨a1, a2, a3, a4, a5, a6, b, a7, a8, a9, a10, a11, a12⟩
  · rw [List.getElem?_eq_none (by omega), List.getElem?_eq_none (by omega)]

/-- The table with recomputed chi-squared. -/
def newChisq (E : Env G P α) (z : α) (l : List (Nb G α)) (idx : List Nat) : List (Nb G α) :=
  scatter (fun (n : Nb G α) (x : α) => { n with chisq := x }) l idx ((gather l idx).map fun n => E.chisqOf n.g z)

theorem newChisq_agree (E : Env G P α) (z : α) {l l' : List (Nb G α)} {idx : List Nat} (hn : idx.Nodup)
    (hi : ∀ i ∈ idx, i < l.length) (h : l.map core = l'.map core) :
    Agree idx ((newChisq E z l idx).map clear) ((newChisq E z l' idx).map clear) := by
  have hlen : l.length = l'.length := by simpa using congrArg List.length h
  have key : ∀ (l : List (Nb G α)), ((newChisq E z l idx).map clear).map dropChisq = l.map core := by
    intro l
    unfold newChisq
    rw [List.map_map, scatter_map (dropChisq ∘ clear) (fun (n : Nb G α) (x : α) => { n with chisq := x }) (fun b _ => b) (fun _ _ => rfl), scatter_const]
    rfl
  refine ⟨by rw [key, key, h], ?_⟩
  intro j hj
  have key2 : ∀ (l : List (Nb G α)) (_ : ∀ i ∈ idx, i < l.length), (((newChisq E z l idx).map clear).map Nb.chisq)[j]? =
      ((l.map core)[j]?).map fun n => E.chisqOf n.g z := by
    intro l hi
    obtain ⟨k, hk, e⟩ := List.getElem_of_mem hj
    have hk' : idx[k]? = some j := by rw [List.getElem?_eq_getElem hk, e]
    have hjl := hi j hj
    have hb := List.getElem?_eq_getElem hjl
    have hc : (newChisq E z l idx)[j]? = some (withChisq E z l[j]) := by
      refine scatter_get _ l idx _ hn k j l[j] (E.chisqOf l[j].g z) hk' hb ?_
      rw [List.getElem?_map, gather_get _ _ hi, hk']; simp [hb]
    rw [List.getElem?_map, List.getElem?_map, hc, List.getElem?_map, hb]
    rfl
  rw [key2 l hi, key2 l' (fun i hi' => hlen ▸ hi i hi'), h]

theorem fill_agree (E : Env G P α) (z mpc maxmag lam rl : α) {l l' : List (Nb G α)} {idx : List Nat} {slots : List (Solver.Slot α)}
    (hc : l.map core = l'.map core) {A A' : List (Nb G α)} (h : Agree idx A A') :
    Agree idx (scatter (fill E z mpc maxmag lam rl) A idx (((gather l idx).map (withChisq E z)).zip slots))
      (scatter (fill E z mpc maxmag lam rl) A' idx (((gather l' idx).map (withChisq E z)).zip slots)) := by
  have e1 : ∀ (l A : List (Nb G α)), scatter (fill E z mpc maxmag lam rl) A idx (((gather l idx).map (withChisq E z)).zip slots) =
      scatter (fill E z mpc maxmag lam rl) A idx ((((gather (l.map core) idx)).map (withChisq E z)).zip slots) := by
    intro l A
    have ez : (((gather (l.map core) idx)).map (withChisq E z)).zip slots =
        ((((gather l idx).map (withChisq E z)).zip slots)).map (fun q => (clear q.1, q.2)) := by
      rw [gather_map, List.map_map]
      generalize gather l idx = t
      induction t generalizing slots with
      | nil => simp
      | cons a t ih =>
        cases slots with
        | nil => simp
        | cons s ss => simp only [List.map_cons, List.zip_cons_cons, List.cons.injEq]; exact ⟨rfl, ih⟩
    rw [ez, scatter_vals]
    rfl
  rw [e1 l A, e1 l' A', hc]
  generalize (((gather (l'.map core) idx)).map (withChisq E z)).zip slots = vs
  refine ⟨?_, ?_⟩
  · rw [scatter_map dropChisq _ (fill E z mpc maxmag lam rl) (fun _ _ => rfl), scatter_map dropChisq _ (fill E z mpc maxmag lam rl) (fun _ _ => rfl), h.1]
  · intro j hj
    have e2 : ∀ A : List (Nb G α), (scatter (fill E z mpc maxmag lam rl) A idx vs).map Nb.chisq = A.map Nb.chisq := by
      intro A
      rw [scatter_map Nb.chisq (fill E z mpc maxmag lam rl) (fun b _ => b) (fun _ _ => rfl), scatter_const]
    rw [e2, e2]; exact h.2 j hj

/-- Two clusters that agree in what a richness computation reads give the same result. -/
theorem richness_congr (E : Env G P α) (ce : Bool) (index : Option (List Nat)) (hx : IdxOK index) (c c' : Cl G P α)
    (hz : c.z = c'.z) (hm : c.mstar = c'.mstar) (hk : c.mpc = c'.mpc) {l l' : List (Nb G α)} (hl : c.nbs = some l) (hl' : c'.nbs = some l')
    (hcore : l.map core = l'.map core) :
    (richness E ce index c).2 = (richness E ce index c').2 ∧
    ∀ lam, (richness E ce index c).2 = .ok lam →
      ∃ m m', (richness E ce index c).1 = { c with nbs := some m, Lambda := (richness E ce index c').1.Lambda, LambdaE := (richness E ce index c').1.LambdaE, rLambda := (richness E ce index c').1.rLambda, scaleval := (richness E ce index c').1.scaleval } ∧
        (richness E ce index c').1.nbs = some m' ∧ m.length = l.length ∧
        Agree (index.getD (List.range l.length)) m m' := by
  have hlen : l.length = l'.length := by simpa using congrArg List.length hcore
  unfold richness
  rw [hz, hm, hk, hl, hl']
  cases c'.z with
  | none => exact ⟨rfl, fun lam h => by simp at h⟩
  | some z =>
  cases c'.mstar with
  | none => exact ⟨rfl, fun lam h => by simp at h⟩
  | some mstar =>
  cases c'.mpc with
  | none => exact ⟨rfl, fun lam h => by simp at h⟩
  | some mpc =>
  simp only [← hlen]
  by_cases hi : ∃ i ∈ index.getD (List.range l.length), l.length ≤ i
  · simp only [if_pos hi]
    exact ⟨trivial, fun lam h => by simp at h⟩
  simp only [if_neg hi]
  have hi' : ∀ i ∈ index.getD (List.range l.length), i < l.length := fun i hm' => by
    by_contra hc; exact hi ⟨i, hm', Nat.le_of_not_lt hc⟩
  have hi'' : ∀ i ∈ index.getD (List.range l.length), i < l'.length := fun i h => hlen ▸ hi' i h
  have hnd := getD_nodup hx l.length
  generalize hidx : index.getD (List.range l.length) = idx at hi' hi'' hnd
  have hg : ∀ (l : List (Nb G α)) (_ : ∀ i ∈ idx, i < l.length), gather (scatter (fun (n : Nb G α) (x : α) => { n with chisq := x }) l idx
      ((gather l idx).map fun n => E.chisqOf n.g z)) idx = (gather l idx).map (withChisq E z) := fun l hi =>
    gather_scatter (fun (n : Nb G α) (x : α) => { n with chisq := x }) (fun n => E.chisqOf n.g z) l _ hnd hi
  rw [hg l hi', hg l' hi'']
  have hgal : ∀ l : List (Nb G α), ((gather l idx).map (withChisq E z)).map (toGal E z mpc (mstar - E.lval)) =
      (gather (l.map core) idx).map (fun n => toGal E z mpc (mstar - E.lval) (withChisq E z n)) := by
    intro l
    rw [gather_map, List.map_map, List.map_map]
    rfl
  rw [hgal l, hgal l', hcore]
  generalize Solver.solveFuel (α := α) _ _ 17 = o
  cases o with
  | none => exact ⟨rfl, fun lam h => by simp at h⟩
  | some res =>
  have hag := newChisq_agree E z hnd hi' hcore
  have hlen2 : ((newChisq E z l idx).map clear).length = l.length := by
    unfold newChisq; rw [List.length_map, scatter_length]
  simp only
  by_cases h1 : res.lambda < 0
  · simp only [if_pos h1]
    exact ⟨trivial, fun lam _ => ⟨_, _, rfl, rfl, hlen2, hag⟩⟩
  simp only [if_neg h1]
  by_cases h2 : res.slots.map Solver.Slot.wt = []
  · simp only [if_pos h2]
    exact ⟨trivial, fun lam h => by simp at h⟩
  simp only [if_neg h2]
  by_cases h3 : (res.slots.map Solver.Slot.wt).foldl max ((res.slots.map Solver.Slot.wt).headD 0) = 0
  · simp only [if_pos h3]
    exact ⟨trivial, fun lam _ => ⟨_, _, rfl, rfl, hlen2, hag⟩⟩
  simp only [if_neg h3]
  refine ⟨trivial, fun lam _ => ⟨_, _, rfl, rfl, ?_, fill_agree E z mpc (mstar - E.lval) res.lambda res.rlambda hcore hag⟩⟩
  rw [scatter_length]; exact hlen2

/-- The radii a cluster at redshift `z` gives its neighbours. -/
theorem setZ_core (E : Env G P α) (z : α) (a b : Cl G P α) (h : statNbs a = statNbs b) (a' b' : Cl G P α)
    (ha : setZ E z a = .ok a') (hb : setZ E z b = .ok b') :
    a'.z = b'.z ∧ a'.mstar = b'.mstar ∧ a'.mpc = b'.mpc ∧
    a'.nbs.map (fun l => l.map core) = b'.nbs.map (fun l => l.map core) := by
  have key : ∀ (a a' : Cl G P α), setZ E z a = .ok a' → a'.z = some (max z (1 / 100)) ∧ a'.mstar = some (E.mstarOf (max z (1 / 100))) ∧
      a'.mpc = some (E.mpcOf (max z (1 / 100))) ∧
      a'.nbs.map (fun l => l.map core) = (statNbs a).map fun l => l.map fun n => { n with r := max (E.mpcOf (max z (1 / 100)) * n.dist) (1 / 1000000) } := by
    intro a a' h
    unfold setZ at h
    by_cases hz : z < 0
    · rw [if_pos hz] at h; simp at h
    · rw [if_neg hz] at h
      simp only [Except.ok.injEq] at h
      subst h
      unfold computeR statNbs
      cases hl : a.nbs with
      | none => exact ⟨rfl, rfl, rfl, by simp [hl]⟩
      | some l =>
        refine ⟨rfl, rfl, rfl, ?_⟩
        simp only [Option.map_some, List.map_map]
        rfl
  obtain ⟨p1, p2, p3, p4⟩ := key a a' ha
  obtain ⟨q1, q2, q3, q4⟩ := key b b' hb
  exact ⟨p1.trans q1.symm, p2.trans q2.symm, p3.trans q3.symm, by rw [p4, q4, h]⟩

/-- **C126.**  Whatever redshifts have been tried and whatever richnesses have been computed before
(with any masks, indices and error options): setting a redshift and computing the richness gives
the same return value, the same recorded richness, error, radius and scale, and the same
neighbour table as on the untouched cluster. -/
theorem C126_history_free (E : Env G P α) (z : α) (ce : Bool) (c a b : Cl G P α) (ops : List (Op G P α))
    (hnb : c.nbs ≠ none) (ha : setZ E z c = .ok a) (hb : setZ E z (ops.foldl stepOp c) = .ok b) :
    (richness E ce none b).2 = (richness E ce none a).2 ∧
    ∀ lam, (richness E ce none b).2 = .ok lam → (richness E ce none b).1 = (richness E ce none a).1 := by
  obtain ⟨e1, e2, e3, e4⟩ := setZ_core E z _ _ (stat_history ops c) b a hb ha
  have hpos : b.pos = a.pos := by
    have : ∀ (a a' : Cl G P α), setZ E z a = .ok a' → a'.pos = a.pos := by
      intro a a' h
      unfold setZ at h
      by_cases hz : z < 0
      · rw [if_pos hz] at h; simp at h
      · rw [if_neg hz] at h
        simp only [Except.ok.injEq] at h
        subst h
        unfold computeR
        split <;> rfl
    rw [this _ _ hb, this _ _ ha, pos_history]
  have hnn : ∃ l, a.nbs = some l := by
    unfold setZ at ha
    by_cases hz : z < 0
    · rw [if_pos hz] at ha; simp at ha
    · rw [if_neg hz] at ha
      simp only [Except.ok.injEq] at ha
      subst ha
      unfold computeR
      cases hl : c.nbs with
      | none => exact absurd hl hnb
      | some l => exact ⟨_, rfl⟩
  obtain ⟨la, hla⟩ := hnn
  rw [hla] at e4
  obtain ⟨lb, hlb, e4'⟩ := Option.map_eq_some_iff.mp e4
  have hx : IdxOK none := fun _ h => by simp at h
  obtain ⟨r1, r2⟩ := richness_congr E ce none hx b a e1 e2 e3 hlb hla e4'
  refine ⟨r1, fun lam hlam => ?_⟩
  obtain ⟨m, m', s1, s2, s3, s4⟩ := r2 lam hlam
  rw [r1] at hlam
  rw [Option.getD_none] at s4
  rw [← s3] at s4
  have hmm := agree_all s4
  subst hmm
  rw [s1]
  have : (richness E ce none a).1 = { a with nbs := some m, Lambda := (richness E ce none a).1.Lambda, LambdaE := (richness E ce none a).1.LambdaE, rLambda := (richness E ce none a).1.rLambda, scaleval := (richness E ce none a).1.scaleval } := by
    obtain ⟨_, r3⟩ := richness_congr E ce none hx a a rfl rfl rfl hla hla rfl
    obtain ⟨q, q', t1, t2, _, _⟩ := r3 lam hlam
    have : q = m := by rw [t1] at s2; exact Option.some.inj s2
    subst this
    exact t1
  rw [this, e1, e2, e3, hpos]

/-- **C126** with an index array: the return value is still independent of the history, and so is
every column but the chi-squared of the neighbours outside the index, which keep an old value. -/
theorem C126_history_free_index (E : Env G P α) (z : α) (ce : Bool) (idx : List Nat) (hn : idx.Nodup) (c a b : Cl G P α) (ops : List (Op G P α))
    (hnb : c.nbs ≠ none) (ha : setZ E z c = .ok a) (hb : setZ E z (ops.foldl stepOp c) = .ok b) :
    (richness E ce (some idx) b).2 = (richness E ce (some idx) a).2 ∧
    ∀ lam, (richness E ce (some idx) b).2 = .ok lam →
      (richness E ce (some idx) b).1.Lambda = (richness E ce (some idx) a).1.Lambda ∧
      (richness E ce (some idx) b).1.LambdaE = (richness E ce (some idx) a).1.LambdaE ∧
      (richness E ce (some idx) b).1.rLambda = (richness E ce (some idx) a).1.rLambda ∧
      (richness E ce (some idx) b).1.scaleval = (richness E ce (some idx) a).1.scaleval ∧
      ∃ m m', (richness E ce (some idx) b).1.nbs = some m ∧ (richness E ce (some idx) a).1.nbs = some m' ∧
        m.map dropChisq = m'.map dropChisq ∧ ∀ j ∈ idx, (m.map Nb.chisq)[j]? = (m'.map Nb.chisq)[j]? := by
  obtain ⟨e1, e2, e3, e4⟩ := setZ_core E z _ _ (stat_history ops c) b a hb ha
  have hnn : ∃ l, a.nbs = some l := by
    unfold setZ at ha
    by_cases hz : z < 0
    · rw [if_pos hz] at ha; simp at ha
    · rw [if_neg hz] at ha
      simp only [Except.ok.injEq] at ha
      subst ha
      unfold computeR
      cases hl : c.nbs with
      | none => exact absurd hl hnb
      | some l => exact ⟨_, rfl⟩
  obtain ⟨la, hla⟩ := hnn
  rw [hla] at e4
  obtain ⟨lb, hlb, e4'⟩ := Option.map_eq_some_iff.mp e4
  have hx : IdxOK (some idx) := fun i h => by simp only [Option.some.injEq] at h; exact h ▸ hn
  obtain ⟨r1, r2⟩ := richness_congr E ce (some idx) hx b a e1 e2 e3 hlb hla e4'
  refine ⟨r1, fun lam hlam => ?_⟩
  obtain ⟨m, m', s1, s2, s3, s4⟩ := r2 lam hlam
  refine ⟨by rw [s1], by rw [s1], by rw [s1], by rw [s1], m, m', by rw [s1], s2, s4.1, s4.2⟩

/-! ## C127: redshift, scales and radii stay in step -/

/-- One operation on a cluster. -/
inductive GOp (G P α : Type) where
  | setZ (z : α)
  | setNeighbors (rows : Option (List (Row G α)))
  | findNeighbors (matchOne : P → α → List (Nat × α)) (cat : List (Row G α)) (radius : α) (mpcMode : Bool) (maxmag : Option α)
  | updateDist
  | moveTo (p : P)
  | richness (calcErr : Bool) (index : Option (List Nat))
  | copy (zero : P)

/-- A raised exception leaves the cluster as it is (`richness` what it has written). -/
def orStay (c : Cl G P α) : Except Err (Cl G P α) → Cl G P α
  | .ok c' => c'
  | .error _ => c

def gstep (E : Env G P α) (c : Cl G P α) : GOp G P α → Cl G P α
  | .setZ z => orStay c (setZ E z c)
  | .setNeighbors rows => setNeighbors rows c
  | .findNeighbors mo cat r m x => orStay c (findNeighbors mo cat r m x c)
  | .updateDist => orStay c (updateDist E c)
  | .moveTo p => { c with pos := p }
  | .richness ce ix => (richness E ce ix c).1
  | .copy zero => orStay c (copy E zero c)

/-- A new cluster: no redshift, no neighbours. -/
def fresh (p : P) : Cl G P α :=
  { pos := p, z := none, mstar := none, mpc := none, nbs := none, Lambda := 0, LambdaE := 0, rLambda := 0, scaleval := 0 }

/-- The luminosity and distance scales are those of the current redshift. -/
def ScalesOK (E : Env G P α) (c : Cl G P α) : Prop :=
  (c.z = none ∧ c.mstar = none ∧ c.mpc = none) ∨
  ∃ z, 1 / 100 ≤ z ∧ c.z = some z ∧ c.mstar = some (E.mstarOf z) ∧ c.mpc = some (E.mpcOf z)

/-- Every neighbour's radius is its angular distance at the scale of the current redshift. -/
def RadiiOK (E : Env G P α) (c : Cl G P α) : Prop :=
  ∀ z l, c.z = some z → c.nbs = some l → ∀ n ∈ l, n.r = max (E.mpcOf z * n.dist) (1 / 1000000)

theorem computeR_scales {E : Env G P α} {c : Cl G P α} (h : ScalesOK E c) : ScalesOK E (computeR c) := by
  unfold computeR
  split
  · exact h
  · exact h

theorem computeR_radii {E : Env G P α} {c : Cl G P α} (h : ScalesOK E c) : RadiiOK E (computeR c) := by
  intro z l hz hl n hn
  unfold computeR at hz hl
  cases hnb : c.nbs with
  | none => rw [hnb] at hl; simp [hnb] at hl
  | some l0 =>
    rcases h with ⟨e1, e2, e3⟩ | ⟨z', _, e1, e2, e3⟩
    · simp [hnb, e1] at hz
    · simp only [hnb, e1, e3, Option.some.injEq] at hl hz
      subst hl hz
      obtain ⟨n0, _, rfl⟩ := List.mem_map.mp hn
      rfl

theorem setZ_scales (E : Env G P α) (z : α) (c c' : Cl G P α) (h : setZ E z c = .ok c') : ScalesOK E c' ∧ RadiiOK E c' := by
  unfold setZ at h
  by_cases hz : z < 0
  · rw [if_pos hz] at h; simp at h
  · rw [if_neg hz] at h
    simp only [Except.ok.injEq] at h
    subst h
    have hs : ScalesOK E ({ c with z := some (max z (1 / 100)), mstar := some (E.mstarOf (max z (1 / 100))), mpc := some (E.mpcOf (max z (1 / 100))) } : Cl G P α) :=
      Or.inr ⟨_, le_max_right _ _, rfl, rfl, rfl⟩
    exact ⟨computeR_scales hs, computeR_radii hs⟩

/-- What a richness computation does to redshift, scales and radii: nothing. -/
theorem richness_frame (E : Env G P α) (ce : Bool) (index : Option (List Nat)) (c : Cl G P α) :
    (richness E ce index c).1.z = c.z ∧ (richness E ce index c).1.mstar = c.mstar ∧ (richness E ce index c).1.mpc = c.mpc ∧
    (richness E ce index c).1.pos = c.pos ∧
    (richness E ce index c).1.nbs.map (fun l => l.map fun n => (n.dist, n.r)) = c.nbs.map (fun l => l.map fun n => (n.dist, n.r)) := by
  unfold richness
  split
  · rename_i z mstar mpc l hz hm hk hl
    have hcl : ∀ l : List (Nb G α), (l.map clear).map (fun n => (n.dist, n.r)) = l.map (fun n => (n.dist, n.r)) := by
      intro l; rw [List.map_map]; rfl
    have hch : ∀ idx (vs : List α), (scatter (fun (n : Nb G α) (x : α) => { n with chisq := x }) l idx vs).map (fun n => (n.dist, n.r)) = l.map (fun n => (n.dist, n.r)) := by
      intro idx vs
      rw [scatter_map (fun n : Nb G α => (n.dist, n.r)) (fun (n : Nb G α) (x : α) => { n with chisq := x }) (fun b _ => b) (fun _ _ => rfl), scatter_const]
    simp only
    by_cases hi : ∃ i ∈ index.getD (List.range l.length), l.length ≤ i
    · rw [if_pos hi]; exact ⟨rfl, rfl, rfl, rfl, rfl⟩
    rw [if_neg hi]
    generalize Solver.solveFuel (α := α) _ _ 17 = o
    cases o with
    | none => exact ⟨rfl, rfl, rfl, rfl, rfl⟩
    | some res =>
    simp only
    by_cases h1 : res.lambda < 0
    · rw [if_pos h1]
      simp only [Option.map_some, hcl, hch, hl, and_self]
    rw [if_neg h1]
    by_cases h2 : res.slots.map Solver.Slot.wt = []
    · rw [if_pos h2]
      simp only [Option.map_some, hcl, hch, hl, and_self]
    rw [if_neg h2]
    by_cases h3 : (res.slots.map Solver.Slot.wt).foldl max ((res.slots.map Solver.Slot.wt).headD 0) = 0
    · rw [if_pos h3]
      simp only [Option.map_some, hcl, hch, hl, and_self]
    rw [if_neg h3]
    refine ⟨rfl, rfl, rfl, rfl, ?_⟩
    simp only [Option.map_some, hl]
    rw [scatter_map (fun n : Nb G α => (n.dist, n.r)) (fill E z mpc (mstar - E.lval) res.lambda res.rlambda) (fun b _ => b) (fun _ _ => rfl), scatter_const, hcl, hch]
  · exact ⟨rfl, rfl, rfl, rfl, rfl⟩

/-- **C127**, the scales: after every history of operations the luminosity scale and the distance
scale are those of the current redshift (or all three are unset), and a set redshift is at least
0.01. -/
theorem C127_scales (E : Env G P α) (p : P) (ops : List (GOp G P α)) : ScalesOK E (ops.foldl (gstep E) (fresh p)) := by
  have step : ∀ (o : GOp G P α) (c : Cl G P α), ScalesOK E c → ScalesOK E (gstep E c o) := by
    intro o c h
    cases o with
    | setZ z =>
      show ScalesOK E (orStay c (setZ E z c))
      cases hs : setZ E z c with
      | error e => exact h
      | ok c' => exact (setZ_scales E z c c' hs).1
    | setNeighbors rows => exact h
    | findNeighbors mo cat r m x =>
      unfold gstep findNeighbors
      simp only
      cases m with
      | false => exact computeR_scales h
      | true =>
        simp only [if_true]
        split
        · exact h
        · exact computeR_scales h
    | updateDist =>
      unfold gstep updateDist
      cases hl : c.nbs with
      | none => exact h
      | some l => exact computeR_scales h
    | moveTo p => exact h
    | richness ce ix =>
      obtain ⟨e1, e2, e3, _, _⟩ := richness_frame E ce ix c
      show ScalesOK E (richness E ce ix c).1
      unfold ScalesOK
      rw [e1, e2, e3]; exact h
    | copy zero =>
      unfold gstep copy
      cases hz : c.z with
      | none => exact h
      | some z =>
        simp only
        cases hs : setZ E z (rawCopy zero c) with
        | error e => exact h
        | ok c' => exact (setZ_scales E z _ c' hs).1
  have : ∀ (ops : List (GOp G P α)) (c : Cl G P α), ScalesOK E c → ScalesOK E (ops.foldl (gstep E) c) := by
    intro ops
    induction ops with
    | nil => exact fun c h => h
    | cons o os ih => intro c h; exact ih _ (step o c h)
  exact this ops _ (Or.inl ⟨rfl, rfl, rfl⟩)

/-- Does the operation install neighbours without computing their radii? -/
def GOp.installs : GOp G P α → Bool
  | .setNeighbors (some _) => true
  | _ => false

/-- Full statement of C127: radii are always those of the current redshift. -/
def C127_spec (E : Env G P α) : Prop :=
  ∀ (p : P) (ops : List (GOp G P α)), RadiiOK E (ops.foldl (gstep E) (fresh p))

/-- **C127**, the radii, proved part: after every history of operations in which neighbours are
found (and not installed with `set_neighbors`), the radius of each neighbour is its distance at the
scale of the current redshift, at least 1e-6.  Missing: histories with `set_neighbors`, for which
the claim is false (`C127_set_neighbors_false`). -/
theorem C127_radii_partial (E : Env G P α) (p : P) (ops : List (GOp G P α)) (hno : ∀ o ∈ ops, o.installs = false) :
    RadiiOK E (ops.foldl (gstep E) (fresh p)) := by
  have step : ∀ (o : GOp G P α) (c : Cl G P α), o.installs = false → ScalesOK E c → RadiiOK E c → RadiiOK E (gstep E c o) := by
    intro o c hi hsc h
    cases o with
    | setZ z =>
      show RadiiOK E (orStay c (setZ E z c))
      cases hs : setZ E z c with
      | error e => exact h
      | ok c' => exact (setZ_scales E z c c' hs).2
    | setNeighbors rows =>
      cases rows with
      | none => intro z l _ hl; simp [gstep, setNeighbors] at hl
      | some r => simp [GOp.installs] at hi
    | findNeighbors mo cat r m x =>
      unfold gstep findNeighbors
      simp only
      cases m with
      | false => exact computeR_radii hsc
      | true =>
        simp only [if_true]
        split
        · exact h
        · exact computeR_radii hsc
    | updateDist =>
      unfold gstep updateDist
      cases hl : c.nbs with
      | none => exact h
      | some l => exact computeR_radii hsc
    | moveTo p => exact h
    | richness ce ix =>
      obtain ⟨e1, _, _, _, e5⟩ := richness_frame E ce ix c
      show RadiiOK E (richness E ce ix c).1
      intro z l' hz hl' n hn
      rw [e1] at hz
      rw [hl'] at e5
      obtain ⟨l, hl, e⟩ := Option.map_eq_some_iff.mp e5.symm
      have : (n.dist, n.r) ∈ l.map fun n => (n.dist, n.r) := by rw [e]; exact List.mem_map.mpr ⟨n, hn, rfl⟩
      obtain ⟨n0, hn0, e0⟩ := List.mem_map.mp this
      simp only [Prod.mk.injEq] at e0
      rw [← e0.1, ← e0.2]
      exact h z l hz hl n0 hn0
    | copy zero =>
      unfold gstep copy
      cases hz : c.z with
      | none => exact h
      | some z =>
        simp only
        cases hs : setZ E z (rawCopy zero c) with
        | error e => exact h
        | ok c' => exact (setZ_scales E z _ c' hs).2
  induction ops using List.reverseRecOn with
  | nil => intro z l hz; simp [fresh] at hz
  | append_singleton os o ih =>
    rw [List.foldl_append]
    refine step o _ (hno o (by simp)) (C127_scales E p os) (ih fun o' ho' => hno o' (by simp [ho']))

/-- From any state, setting a valid redshift brings all radii in step, however the neighbours were
installed. -/
theorem C127_setting_restores (E : Env G P α) (z : α) (c : Cl G P α) :
    (z < 0 → setZ E z c = .error .value) ∧
    (0 ≤ z → ∃ c', setZ E z c = .ok c' ∧ c'.z = some (max z (1 / 100)) ∧ RadiiOK E c' ∧ ScalesOK E c' ∧
      (1 / 100 ≤ z → c'.z = some z)) := by
  refine ⟨fun h => by unfold setZ; rw [if_pos h], fun h => ?_⟩
  have hs : setZ E z c = .ok (computeR { c with z := some (max z (1 / 100)), mstar := some (E.mstarOf (max z (1 / 100))), mpc := some (E.mpcOf (max z (1 / 100))) }) := by
    unfold setZ; rw [if_neg (not_lt.mpr h)]
  obtain ⟨h1, h2⟩ := setZ_scales E z c _ hs
  have hz : ∀ c : Cl G P α, (computeR c).z = c.z := by intro c; unfold computeR; split <;> rfl
  refine ⟨_, hs, hz _, h2, h1, fun h' => ?_⟩
  rw [hz, max_eq_left h']

end Richness

/-! ### Witness: neighbours installed with `set_neighbors` have no radii -/

section Witness

/-- A small environment: one position axis, flat filters, no background. -/
def toyEnv : Env ℚ ℚ ℚ where
  sph a b := |a - b|
  pos g := g
  mstarOf z := 20 + z
  mpcOf z := 10 * z
  chisqOf g z := |g| + z
  rho _ := 1
  nfw _ := 1
  phi _ _ _ := 1
  sigma _ _ _ := some 0
  theta _ _ _ _ := 1
  maskcorr _ _ _ := (0, 0, 0, 0)
  twopi := 6
  lval := -2
  limmag := 25
  rlam _ := 1
  nfwnorm _ := 1
  soft _ := 1
  rsig := 0
  maskgals := []
  beta := 1 / 5
  gamma := 3 / 10
  sqrt x := x

theorem toyEnv_ok : EnvOK toyEnv where
  twopi := by norm_num [toyEnv]
  nfw _ := by norm_num [toyEnv]
  phi _ _ _ := by norm_num [toyEnv]
  rho _ := by norm_num [toyEnv]
  sigma _ _ _ s h := by simp only [toyEnv, Option.some.injEq] at h; exact h ▸ le_refl 0
  theta _ _ _ _ := by norm_num [toyEnv]
  nfwnorm _ := by norm_num [toyEnv]
  soft _ := by norm_num [toyEnv]

/-- A galaxy one tenth of a degree away. -/
def toyRow (x : ℚ) : Row ℚ ℚ := { g := x, refmag := 19, refmagErr := 1 / 10, dist := some |x| }

/-- A catalogue of five galaxies. -/
def toyCat : List (Row ℚ ℚ) := [toyRow 0, toyRow (1 / 10), toyRow (-1 / 5), toyRow (3 / 10), toyRow 4]

/-- The matcher of that catalogue. -/
def toyMatch (p rad : ℚ) : List (Nat × ℚ) :=
  ((List.range 5).zip (toyCat.map fun w => |p - w.g|)).filter fun q => decide (q.2 ≤ rad)

theorem C127_set_neighbors_false : ¬ C127_spec toyEnv := by
  intro h
  have := h 0 [.setZ (1 / 2), .setNeighbors (some [toyRow (1 / 10)])] (1 / 2) [toNb (toyRow (1 / 10))] (by decide +kernel) (by decide +kernel)
    (toNb (toyRow (1 / 10))) (by simp)
  revert this
  decide +kernel

/-- A cluster with neighbours found around the origin. -/
def toyCl : Cl ℚ ℚ ℚ :=
  [GOp.setZ (1 / 2), GOp.findNeighbors toyMatch toyCat 3 true (some 22)].foldl (gstep toyEnv) (fresh 0)

theorem ok_of_test {r : Except Err ℚ} (h : (match r with | .ok x => decide (1 ≤ x) | .error _ => false) = true) :
    ∃ lam, r = .ok lam ∧ 1 ≤ lam := by
  cases r with
  | error e => simp at h
  | ok x => exact ⟨x, rfl, by simpa using h⟩

/-- Non-vacuity: the history above has neighbours, and computing the richness of that cluster gives a
value above 1; so does the computation with an index. -/
example : ∃ l, toyCl.nbs = some l ∧ l.length = 4 ∧ ∀ n ∈ l, NbOK n := by
  have h : ((toyCl.nbs.getD []).length = 4 ∧ toyCl.nbs ≠ none) ∧ ∀ n ∈ (toyCl.nbs.getD []), (0 ≤ n.r ∧ 0 ≤ n.pfree ∧ n.pfree ≤ 1) := by decide +kernel
  cases hl : toyCl.nbs with
  | none => exact absurd hl h.1.2
  | some l =>
    rw [hl, Option.getD_some] at h
    exact ⟨l, rfl, h.1.1, h.2⟩

example : ∃ lam, (richness toyEnv true none toyCl).2 = .ok lam ∧ 1 ≤ lam := ok_of_test (by decide +kernel)

example : ∃ lam, (richness toyEnv true (some [0, 1]) toyCl).2 = .ok lam ∧ 1 ≤ lam := ok_of_test (by decide +kernel)

end Witness

section More
variable {α : Type} [Field α] [LinearOrder α] [IsStrictOrderedRing α] {G P : Type}

/-! ## C128: working on a copy -/

/-- Full statement: a copy is equal to its original. -/
def C128_spec (E : Env G P α) (zero : P) : Prop :=
  ∀ c c' : Cl G P α, copy E zero c = .ok c' → c' = c

/-- A copy has none of the catalogue values of its original: position and richness are reset. -/
theorem C128_values_lost (E : Env G P α) (zero : P) (c c' : Cl G P α) (h : copy E zero c = .ok c') :
    c'.pos = zero ∧ c'.Lambda = 0 ∧ c'.LambdaE = 0 ∧ c'.rLambda = 0 ∧ c'.scaleval = 0 := by
  unfold copy at h
  cases hz : c.z with
  | none => simp [hz] at h
  | some z =>
    simp only [hz] at h
    unfold setZ at h
    by_cases h0 : z < 0
    · rw [if_pos h0] at h; simp at h
    · rw [if_neg h0] at h
      simp only [Except.ok.injEq] at h
      subst h
      unfold computeR rawCopy
      cases c.nbs <;> exact ⟨rfl, rfl, rfl, rfl, rfl⟩

theorem C128_copy_false : ¬ C128_spec toyEnv (0 : ℚ) := by
  intro h
  have := h { toyCl with pos := 1 } (match copy toyEnv 0 { toyCl with pos := 1 } with | .ok c => c | .error _ => toyCl) (by decide +kernel)
  revert this
  decide +kernel

/-- **C128**, proved part: a copy of a cluster in step (C127) has the same redshift, the same scales
and the same neighbour table, and its richness is the richness of the original: same return value,
same recorded richness, error, radius and scale, same neighbours.  A cluster without a redshift cannot be
copied.  Missing: position and catalogue values, which are not copied (`C128_copy_false`). -/
theorem C128_copy_partial (E : Env G P α) (zero : P) (c : Cl G P α) (hs : ScalesOK E c) (hr : RadiiOK E c) :
    (c.z = none → copy E zero c = .error .type) ∧
    (c.z ≠ none → ∃ c', copy E zero c = .ok c' ∧ c'.z = c.z ∧ c'.mstar = c.mstar ∧ c'.mpc = c.mpc ∧ c'.nbs = c.nbs ∧
      ∀ (ce : Bool) (index : Option (List Nat)), IdxOK index →
        (richness E ce index c').2 = (richness E ce index c).2 ∧
        ∀ lam, (richness E ce index c).2 = .ok lam →
          (richness E ce index c').1.Lambda = (richness E ce index c).1.Lambda ∧
          (richness E ce index c').1.LambdaE = (richness E ce index c).1.LambdaE ∧
          (richness E ce index c').1.rLambda = (richness E ce index c).1.rLambda ∧
          (richness E ce index c').1.scaleval = (richness E ce index c).1.scaleval ∧
          (richness E ce index c').1.nbs = (richness E ce index c).1.nbs) := by
  refine ⟨fun h => by unfold copy; rw [h], fun h => ?_⟩
  rcases hs with ⟨h1, _, _⟩ | ⟨z, hz0, h1, h2, h3⟩
  · exact absurd h1 h
  have hmax : max z (1 / 100) = z := max_eq_left hz0
  have hz00 : ¬ z < 0 := by
    have : (0 : α) < 1 / 100 := by norm_num
    linarith
  have hcopy : copy E zero c = .ok { rawCopy zero c with z := some z, mstar := some (E.mstarOf z), mpc := some (E.mpcOf z) } := by
    unfold copy
    rw [h1]
    simp only
    unfold setZ
    rw [if_neg hz00, hmax]
    congr 1
    unfold computeR rawCopy
    cases hl : c.nbs with
    | none => rfl
    | some l =>
      simp only
      congr 1
      congr 1
      congr 1
      conv_rhs => rw [← List.map_id l]
      apply List.map_congr_left
      intro n hn
      have := hr z l h1 hl n hn
      rw [← this]; rfl
  refine ⟨_, hcopy, h1.symm, h2.symm, h3.symm, rfl, ?_⟩
  intro ce index hx
  set c' : Cl G P α := { rawCopy zero c with z := some z, mstar := some (E.mstarOf z), mpc := some (E.mpcOf z) } with hc'
  cases hl : c.nbs with
  | none =>
    have e : ∀ d : Cl G P α, d.nbs = none → (richness E ce index d).2 = .error .type := by
      intro d hd
      unfold richness
      rw [hd]
      cases d.z <;> cases d.mstar <;> cases d.mpc <;> rfl
    rw [e c' hl, e c hl]
    exact ⟨rfl, fun lam h => by simp at h⟩
  | some l =>
    have hl' : c'.nbs = some l := hl
    have hzz : c'.z = c.z := h1.symm
    have hmm : c'.mstar = c.mstar := h2.symm
    have hkk : c'.mpc = c.mpc := h3.symm
    have hnb : (richness E ce index c').1.nbs = (richness E ce index c).1.nbs := by
      unfold richness
      rw [hzz, hmm, hkk, hl, hl', h1, h2, h3]
      simp only
      by_cases hi : ∃ i ∈ index.getD (List.range l.length), l.length ≤ i
      · simp only [if_pos hi]; rw [hl, hl']
      simp only [if_neg hi]
      generalize Solver.solveFuel (α := α) _ _ 17 = o
      cases o with
      | none => simp only; rw [hl, hl']
      | some res =>
        simp only
        by_cases q1 : res.lambda < 0
        · simp only [if_pos q1]
        simp only [if_neg q1]
        by_cases q2 : res.slots.map Solver.Slot.wt = []
        · simp only [if_pos q2]
        simp only [if_neg q2]
        by_cases q3 : (res.slots.map Solver.Slot.wt).foldl max ((res.slots.map Solver.Slot.wt).headD 0) = 0
        · simp only [if_pos q3]
        simp only [if_neg q3]
    obtain ⟨r1, r2⟩ := richness_congr E ce index hx c' c hzz hmm hkk hl' hl rfl
    refine ⟨r1, fun lam hlam => ?_⟩
    obtain ⟨m, m', s1, s2, s3, s4⟩ := r2 lam (r1.trans hlam)
    exact ⟨by rw [s1], by rw [s1], by rw [s1], by rw [s1], hnb⟩

/-! ## C129: the richness error -/

theorem lambdaCerr_spec {E : Env G P α} (he : EnvOK E) (hmg : ∀ g ∈ E.maskgals, 0 ≤ g.r ∧ 0 ≤ g.cwt ∧ 0 ≤ g.nfw ∧ 0 ≤ g.lumwt)
    (z mstar mpc lam rl : α) (hl : 1 ≤ lam) (pmem : List α) (cv : α) :
    ∃ v : α, 0 ≤ v ∧ v ≤ 1 ∧ (lambdaCerr E z mstar mpc lam rl pmem cv = 0 ∨
      lambdaCerr E z mstar mpc lam rl pmem cv = lam * lam / (pmem.map fun x => x * x).sum * E.sqrt (v - v * v) / (1 - E.beta * E.gamma)) := by
  unfold lambdaCerr
  simp only
  set use := E.maskgals.filter fun g => decide (g.r < rl) with huse
  set out := use.filter (fun g => decide (E.limmag < mstar + g.m) || !g.mark) with hout
  by_cases h : out = [] ∨ cv < 1 / 100
  · rw [if_pos h]
    exact ⟨0, le_refl _, zero_le_one, Or.inl rfl⟩
  · rw [if_neg h]
    push Not at h
    set f : MGal α → α := fun g => match bkgDensity E z mpc g.r g.chisq (if E.limmag ≤ mstar + g.m then E.limmag - 1 / 100 else mstar + g.m) with
      | none => 0
      | some b => lam * (g.cwt * (E.nfwnorm rl * g.nfw) * g.lumwt) / (lam * (g.cwt * (E.nfwnorm rl * g.nfw) * g.lumwt) + b) with hf
    have hp : ∀ g ∈ out, 0 ≤ f g ∧ f g ≤ 1 := by
      intro g hg
      have hgm : g ∈ E.maskgals := List.mem_of_mem_filter (List.mem_of_mem_filter hg)
      obtain ⟨q1, q2, q3, q4⟩ := hmg g hgm
      have hu : 0 ≤ lam * (g.cwt * (E.nfwnorm rl * g.nfw) * g.lumwt) :=
        mul_nonneg (by linarith) (mul_nonneg (mul_nonneg q2 (mul_nonneg (he.nfwnorm _) q3)) q4)
      have hb : ∀ b, bkgDensity E z mpc g.r g.chisq (if E.limmag ≤ mstar + g.m then E.limmag - 1 / 100 else mstar + g.m) = some b → 0 ≤ b := by
        intro b hb
        obtain ⟨s, hs, rfl⟩ := Option.map_eq_some_iff.mp hb
        exact mul_nonneg (mul_nonneg he.twopi q1) (div_nonneg (he.sigma _ _ _ _ hs) (mul_self_nonneg _))
      simp only [hf]
      generalize bkgDensity E z mpc g.r g.chisq (if E.limmag ≤ mstar + g.m then E.limmag - 1 / 100 else mstar + g.m) = o at hb
      cases o with
      | none => exact ⟨le_refl _, zero_le_one⟩
      | some b =>
        have := hb b rfl
        exact ⟨div_nonneg hu (by linarith), div_le_one_of_le₀ (by linarith) (by linarith)⟩
    have hs0 : 0 ≤ (out.map f).sum := List.sum_nonneg (by
      intro x hx; obtain ⟨g, hg, rfl⟩ := List.mem_map.mp hx; exact (hp g hg).1)
    have hs1 : (out.map f).sum ≤ (out.length : α) := by
      have : ∀ l : List (MGal α), (∀ g ∈ l, f g ≤ 1) → (l.map f).sum ≤ (l.length : α) := by
        intro l
        induction l with
        | nil => intro _; simp
        | cons a t ih =>
          intro hq
          rw [List.map_cons, List.sum_cons, List.length_cons]
          push_cast
          have := ih fun g hg => hq g (by simp [hg])
          have := hq a (by simp)
          linarith
      exact this out fun g hg => (hp g hg).2
    have hle : out.length ≤ use.length := List.length_filter_le _ _
    have hpos : 0 < use.length := by
      have : 0 < out.length := List.length_pos_iff.mpr h.1
      omega
    have hposα : (0 : α) < (use.length : α) := by exact_mod_cast hpos
    have hleα : (out.length : α) ≤ (use.length : α) := by exact_mod_cast hle
    have hlam0 : (0 : α) < lam := by linarith
    refine ⟨1 / lam * (1 / (use.length : α)) * (out.map f).sum, ?_, ?_, Or.inr rfl⟩
    · exact mul_nonneg (mul_nonneg (by positivity) (by positivity)) hs0
    · have e : 1 / lam * (1 / (use.length : α)) * (out.map f).sum = (out.map f).sum / (lam * (use.length : α)) := by field_simp
      rw [e, div_le_one (mul_pos hlam0 hposα)]
      have : 1 * (use.length : α) ≤ lam * (use.length : α) := mul_le_mul_of_nonneg_right hl hposα.le
      linarith

/-- **C129.**  The richness error of a successful computation is never the root of a negative
number: its square is the Poisson-binomial variance of the member count, rescaled, plus the square of the
masking error, and the masking error is 0 or a multiple of the root of v(1-v) for a masked fraction v in
[0, 1]. -/
theorem C129_error {E : Env G P α} (he : EnvOK E) (hq : ∀ x, 0 ≤ x → E.sqrt x * E.sqrt x = x ∧ 0 ≤ E.sqrt x)
    (hmg : ∀ g ∈ E.maskgals, 0 ≤ g.r ∧ 0 ≤ g.cwt ∧ 0 ≤ g.nfw ∧ 0 ≤ g.lumwt) (index : Option (List Nat)) (hx : IdxOK index)
    (c c' : Cl G P α) (lam : α) (hn : ∀ l, c.nbs = some l → ∀ n ∈ l, NbOK n)
    (h : richness E true index c = (c', .ok lam)) (h0 : 0 ≤ lam) :
    ∃ (l' : List (Nb G α)) (e : α), c'.nbs = some l' ∧ 0 ≤ c'.LambdaE ∧
      c'.LambdaE * c'.LambdaE = c'.scaleval * c'.scaleval * (l'.map fun m => m.pmem * (1 - m.pmem)).sum + e * e ∧
      (e = 0 ∨ ∃ v : α, 0 ≤ v ∧ v ≤ 1 ∧ 0 ≤ v - v * v ∧
        e = lam * lam / (l'.map fun m => m.pmem * m.pmem).sum * E.sqrt (v - v * v) / (1 - E.beta * E.gamma)) := by
  have hmem := C125_members he true index hx c c' lam hn h
  obtain ⟨l0, l', hl0, hl', hlen', hLam, hcase⟩ := hmem
  obtain ⟨z, mstar, mpc, l, l1, idx, res, hz, hm, hk, hl, hidx, hnd, hi, hl1, hg, hs, hc⟩ := richness_cases E true index c c' lam hx h
  rcases hc with ⟨e, _, _⟩ | ⟨e, _, hmax, hne, hc'⟩
  · rw [e] at h0; exact absurd h0 (by norm_num)
  rcases hcase with ⟨e', _, _⟩ | ⟨g1, g2, g3, g4, g5, g6, g7, _, _⟩
  · rw [e'] at h0; exact absurd h0 (by norm_num)
  subst e
  have hsok := solver_ok hs h0
  have hslen : res.slots.length = idx.length := by
    obtain ⟨x, hx1, hxl, hxq⟩ := Solver.C71_probabilities_near_richness _ _ _ _ hs hsok.1
    rw [hxl, List.length_map, List.length_map, gather_length _ _ hi]
  have hlen1 : l1.length = l.length := by rw [hl1, scatter_length]
  -- sums over the table are sums over the slots
  have hsum : ∀ φ : α → α, φ 0 = 0 → (l'.map fun m => φ m.pmem).sum = ((res.slots.map Solver.Slot.wt).map φ).sum := by
    intro φ hφ
    have e1 : l' = scatter (fill E z mpc (mstar - E.lval) res.lambda res.rlambda) (l1.map clear) idx (((gather l idx).map (withChisq E z)).zip res.slots) := by
      rw [hc'] at hl'; exact (Option.some.inj hl').symm
    rw [e1, scatter_sum _ (fun m : Nb G α => φ m.pmem) (fun q : Nb G α × Solver.Slot α => φ q.2.wt) (fun _ _ => rfl) _ _ _ hnd
      (fun i hi' => by rw [List.length_map, hlen1]; exact hi i hi')]
    · have e2 : ((l1.map clear).map fun m : Nb G α => φ m.pmem).sum = 0 := by
        apply List.sum_eq_zero
        intro x hx
        obtain ⟨m, hm, rfl⟩ := List.mem_map.mp hx
        obtain ⟨n, _, rfl⟩ := List.mem_map.mp hm
        exact hφ
      have e3 : (((gather l idx).map (withChisq E z)).zip res.slots).map (fun q : Nb G α × Solver.Slot α => φ q.2.wt) = (res.slots.map Solver.Slot.wt).map φ := by
        have : (fun q : Nb G α × Solver.Slot α => φ q.2.wt) = (φ ∘ Solver.Slot.wt) ∘ Prod.snd := rfl
        rw [this, ← List.map_map, List.map_snd_zip, List.map_map]
        rw [List.length_map, gather_length _ _ hi, hslen]
      rw [e2, e3, zero_add]
    · rw [List.length_zip, List.length_map, gather_length _ _ hi, hslen]; simp
    · intro i _ b hb
      rw [List.getElem?_map] at hb
      obtain ⟨n, _, rfl⟩ := Option.map_eq_some_iff.mp hb
      exact hφ
  set w := res.slots.map Solver.Slot.wt with hw
  have hS : (l'.map Nb.pmem).sum = w.sum := by
    have := hsum id rfl
    simpa using this
  have hS2 : (l'.map fun m => m.pmem * m.pmem).sum = (w.map fun x => x * x).sum := hsum (fun x => x * x) (by simp)
  have hS3 : (l'.map fun m => m.pmem * (1 - m.pmem)).sum = w.sum - (w.map fun x => x * x).sum := by
    rw [hsum (fun x => x * (1 - x)) (by simp)]
    generalize w = t
    induction t with
    | nil => simp
    | cons a t ih => simp only [List.map_cons, List.sum_cons, ih]; ring
  have hpos : 0 < w.sum := by rw [← hS]; exact g5
  have hvar : 0 ≤ (l'.map fun m => m.pmem * (1 - m.pmem)).sum := by
    apply List.sum_nonneg
    intro x hx
    obtain ⟨m, hm, rfl⟩ := List.mem_map.mp hx
    obtain ⟨q1, q2, q3, q4, _⟩ := g7 m hm
    exact mul_nonneg q3 (by linarith)
  have hlam : (0 : α) < res.lambda := by linarith [hsok.1]
  have hdiv : 0 < res.lambda / w.sum := div_pos hlam hpos
  set ee := lambdaCerr E z mstar mpc res.lambda res.rlambda w (errCval (E.maskcorr mstar (mstar - E.lval) E.limmag) res.rlambda) with hee
  have hsv : c'.scaleval = res.lambda / w.sum := by rw [hc']; exact abs_of_pos hdiv
  have harg : (1 - (w.map fun x => x * x).sum / w.sum) * (res.lambda / |res.lambda / w.sum|) * (|res.lambda / w.sum| * |res.lambda / w.sum|) + ee * ee =
      c'.scaleval * c'.scaleval * (l'.map fun m => m.pmem * (1 - m.pmem)).sum + ee * ee := by
    rw [hS3, hsv, abs_of_pos hdiv]
    field_simp
  have hLE : c'.LambdaE = E.sqrt (c'.scaleval * c'.scaleval * (l'.map fun m => m.pmem * (1 - m.pmem)).sum + ee * ee) := by
    rw [← harg, hc']; rfl
  have hnn : 0 ≤ c'.scaleval * c'.scaleval * (l'.map fun m => m.pmem * (1 - m.pmem)).sum + ee * ee :=
    add_nonneg (mul_nonneg (mul_self_nonneg _) hvar) (mul_self_nonneg _)
  refine ⟨l', ee, hl', by rw [hLE]; exact (hq _ hnn).2, by rw [hLE]; exact (hq _ hnn).1, ?_⟩
  obtain ⟨v, v0, v1, hv⟩ := lambdaCerr_spec he hmg z mstar mpc res.lambda res.rlambda hsok.1 w (errCval (E.maskcorr mstar (mstar - E.lval) E.limmag) res.rlambda)
  rcases hv with hv | hv
  · exact Or.inl hv
  · refine Or.inr ⟨v, v0, v1, ?_, by rw [hS2]; exact hv⟩
    have : 0 ≤ v * (1 - v) := mul_nonneg v0 (by linarith)
    linarith [mul_sub v 1 v]

/-- Without an error request the recorded error is 0, even for a failed computation. -/
theorem C129_no_error (E : Env G P α) (index : Option (List Nat)) (hx : IdxOK index) (c c' : Cl G P α) (lam : α)
    (h : richness E false index c = (c', .ok lam)) : c'.LambdaE = 0 := by
  obtain ⟨z, mstar, mpc, l, l1, idx, res, hz, hm, hk, hl, hidx, hnd, hi, hl1, hg, hs, hc⟩ := richness_cases E false index c c' lam hx h
  rcases hc with ⟨_, _, rfl⟩ | ⟨_, _, _, _, rfl⟩ <;> rfl

/-! ## C130: one mask correction for richness and error -/

/-- The masked fraction at a radius, as the solver evaluates the fitted polynomial (highest power
first). -/
def maskedFraction (cp : α × α × α × α) (r : α) : α :=
  max 0 (cp.1 * r ^ 3 + cp.2.1 * r ^ 2 + cp.2.2.1 * r + cp.2.2.2)

/-- The solver's correction is that fraction. -/
theorem C130_solver (E : Env G P α) (cp : α × α × α × α) (r : α) : Solver.cval (toPar E cp) r = maskedFraction cp r := by
  rw [Solver.cval_spec]
  unfold maskedFraction toPar
  simp only
  congr 1
  ring

/-- Full statement: the error computation uses the same masked fraction. -/
def C130_spec (α : Type) [Field α] [LinearOrder α] [IsStrictOrderedRing α] : Prop :=
  ∀ (cp : α × α × α × α) (r : α), 0 < r → errCval cp r = maskedFraction cp r

/-- **C130**, proved part: the two agree for a cluster of radius 1 (in the units of the mask
galaxies) and for polynomials that read the same in both directions.  Missing: all other cases. -/
theorem C130_same_fraction_partial (cp : α × α × α × α) (r : α) (h : r = 1 ∨ (cp.1 = cp.2.2.2 ∧ cp.2.1 = cp.2.2.1)) :
    errCval cp r = maskedFraction cp r := by
  unfold errCval maskedFraction
  rw [max_comm]
  congr 1
  rcases h with rfl | ⟨h1, h2⟩
  · ring
  · rw [h1, h2]; ring

/-- The claim is false: with a fifth of the area masked at every radius, the error computation of a
cluster of radius 0.3 finds less than one percent masked, and reports no masking error. -/
theorem C130_false : ¬ C130_spec ℚ ∧ maskedFraction ((0, 0, 0, 1 / 5) : ℚ × ℚ × ℚ × ℚ) (3 / 10) = 1 / 5 ∧
    errCval ((0, 0, 0, 1 / 5) : ℚ × ℚ × ℚ × ℚ) (3 / 10) < 1 / 100 := by
  refine ⟨fun h => ?_, by norm_num [maskedFraction], by norm_num [errCval]⟩
  have := h (0, 0, 0, 1 / 5) (3 / 10) (by norm_num)
  norm_num [errCval, maskedFraction] at this

/-- Whenever the error computation sees less than one percent masked, the masking error is 0,
whatever is masked. -/
theorem C130_consequence (E : Env G P α) (z mstar mpc lam rl : α) (pmem : List α) (cv : α) (h : cv < 1 / 100) :
    lambdaCerr E z mstar mpc lam rl pmem cv = 0 := by
  unfold lambdaCerr
  simp only
  rw [if_pos (Or.inr h)]

/-! ## C131: the single-colour richness -/

/-- An early return of `calc_richness_fit` is -10 and leaves the recorded richness, radius, error and
all neighbours as they were; asking for an error raises a NameError as soon as a richness is
found; otherwise a found richness satisfies the same bookkeeping as C125. -/
theorem C131_fit {E : Env G P α} (F : FitEnv G α) (cc : Option α) (ce : Bool) (c c' : Cl G P α) (r : Except Err α)
    (h : richnessFit E F cc ce c = (c', r)) :
    (r = .ok (-10) → c'.Lambda = c.Lambda ∧ c'.LambdaE = c.LambdaE ∧ c'.rLambda = c.rLambda ∧ c'.nbs = c.nbs ∧
      (c'.scaleval = -1 ∨ c'.scaleval = c.scaleval)) ∧
    (∀ lam, r = .ok lam → lam = -10 ∨ (lam = -1 ∧ c'.Lambda = -1 ∧ c'.scaleval = -1 ∧ ∃ l', c'.nbs = some l' ∧ ∀ m ∈ l', Zeroed m) ∨
      (ce = false ∧ 1 ≤ lam ∧ lam < 2000 ∧ c'.Lambda = lam ∧ c'.rLambda = E.rlam lam ∧ c'.LambdaE = 0 ∧
        ∃ l l', c.nbs = some l ∧ c'.nbs = some l' ∧ l'.length = l.length ∧
          ((l'.map Nb.pmem).sum ≠ 0 → c'.scaleval = |lam / (l'.map Nb.pmem).sum|) ∧
          ∀ m ∈ l', E.rlam lam ≤ m.r → m.pmem = 0)) ∧
    (r = .error .name → ce = true ∧ ∃ l', c'.nbs = some l' ∧ ∀ m ∈ l', Zeroed m) := by
  unfold richnessFit at h
  cases hz : c.z with
  | none =>
    simp only [hz, Prod.mk.injEq] at h; obtain ⟨rfl, rfl⟩ := h
    exact ⟨fun q => by simp at q, fun _ q => by simp at q, fun q => by simp at q⟩
  | some z =>
  cases hm : c.mstar with
  | none =>
    simp only [hz, hm, Prod.mk.injEq] at h; obtain ⟨rfl, rfl⟩ := h
    exact ⟨fun q => by simp at q, fun _ q => by simp at q, fun q => by simp at q⟩
  | some mstar =>
  cases hk : c.mpc with
  | none =>
    simp only [hz, hm, hk, Prod.mk.injEq] at h; obtain ⟨rfl, rfl⟩ := h
    exact ⟨fun q => by simp at q, fun _ q => by simp at q, fun q => by simp at q⟩
  | some mpc =>
  cases hl : c.nbs with
  | none =>
    simp only [hz, hm, hk, hl, Prod.mk.injEq] at h; obtain ⟨rfl, rfl⟩ := h
    exact ⟨fun q => by simp at q, fun _ q => by simp at q, fun q => by simp at q⟩
  | some l =>
  simp only [hz, hm, hk, hl] at h
  have early : ∀ d : Cl G P α, d.Lambda = c.Lambda → d.LambdaE = c.LambdaE → d.rLambda = c.rLambda → d.nbs = c.nbs →
      (d.scaleval = -1 ∨ d.scaleval = c.scaleval) → d = c' → (Except.ok (-10) : Except Err α) = r →
      (r = .ok (-10) → c'.Lambda = c.Lambda ∧ c'.LambdaE = c.LambdaE ∧ c'.rLambda = c.rLambda ∧ c'.nbs = some l ∧
      (c'.scaleval = -1 ∨ c'.scaleval = c.scaleval)) ∧
    (∀ lam, r = .ok lam → lam = -10 ∨ (lam = -1 ∧ c'.Lambda = -1 ∧ c'.scaleval = -1 ∧ ∃ l', c'.nbs = some l' ∧ ∀ m ∈ l', Zeroed m) ∨
      (ce = false ∧ 1 ≤ lam ∧ lam < 2000 ∧ c'.Lambda = lam ∧ c'.rLambda = E.rlam lam ∧ c'.LambdaE = 0 ∧
        ∃ l0 l', some l = some l0 ∧ c'.nbs = some l' ∧ l'.length = l0.length ∧
          ((l'.map Nb.pmem).sum ≠ 0 → c'.scaleval = |lam / (l'.map Nb.pmem).sum|) ∧
          ∀ m ∈ l', E.rlam lam ≤ m.r → m.pmem = 0)) ∧
    (r = .error .name → ce = true ∧ ∃ l', c'.nbs = some l' ∧ ∀ m ∈ l', Zeroed m) := by
    rintro d a1 a2 a3 a4 a5 rfl rfl
    refine ⟨fun _ => ⟨a1, a2, a3, a4.trans hl, a5⟩, fun lam q => Or.inl (by simpa using q.symm), fun q => by simp at q⟩
  by_cases h1 : (l.filter (fitUse F (mstar - F.bright) (mstar - E.lval))).length < F.mingal
  · rw [if_pos h1] at h
    simp only [Prod.mk.injEq] at h
    obtain ⟨rfl, rfl⟩ := h
    refine early _ ?_ ?_ ?_ ?_ ?_ rfl rfl
    · rfl
    · rfl
    · rfl
    · exact hl.symm
    · exact Or.inl rfl
  rw [if_neg h1] at h
  generalize hcent : fitCent F (mstar - F.bright) (mstar - E.lval) cc l = cent at h
  cases cent with
  | error e =>
    simp only [Prod.mk.injEq] at h
    obtain ⟨rfl, rfl⟩ := h
    have he : e = .value := by
      unfold fitCent at hcent
      cases cc with
      | some x => simp at hcent
      | none =>
        simp only at hcent
        cases ha : l[argminR l]? with
        | none => rw [ha] at hcent; simpa using hcent.symm
        | some n => rw [ha] at hcent; simp at hcent
    subst he
    exact ⟨fun q => by simp at q, fun _ q => by simp at q, fun q => by simp at q⟩
  | ok o =>
  cases o with
  | none =>
    simp only [Prod.mk.injEq] at h
    obtain ⟨rfl, rfl⟩ := h
    exact early c rfl rfl rfl rfl (Or.inr rfl) rfl rfl
  | some col0 =>
  simp only at h
  by_cases h2 : ((l.filter (fitUse F (mstar - F.bright) (mstar - E.lval))).filter fun n => decide (|F.col n.g - col0| < 2 * F.netErr (F.colErr n.g))).length < F.mingal
  · rw [if_pos h2] at h
    simp only [Prod.mk.injEq] at h
    obtain ⟨rfl, rfl⟩ := h
    refine early _ ?_ ?_ ?_ ?_ ?_ rfl rfl
    · rfl
    · rfl
    · rfl
    · exact hl.symm
    · exact Or.inl rfl
  rw [if_neg h2] at h
  revert h
  generalize F.median _ = pivot
  generalize F.polyfit _ = fit
  generalize hline : (fun m => fit.1 * (m - pivot) + fit.2) = line
  generalize hs : Solver.solveFuel (α := α) _ _ 17 = o
  intro h
  cases o with
  | none =>
    simp only [Prod.mk.injEq] at h; obtain ⟨rfl, rfl⟩ := h
    exact ⟨fun q => by simp at q, fun _ q => by simp at q, fun q => by simp at q⟩
  | some res =>
  have hz0 : ∀ m ∈ l.map clear, Zeroed m := by
    intro m hm
    obtain ⟨n, _, rfl⟩ := List.mem_map.mp hm
    exact ⟨rfl, rfl, rfl, rfl, rfl⟩
  have hrange := Solver.C01_richness_range _ _ _ _ hs
  simp only at h
  by_cases q1 : res.lambda < 0
  · rw [if_pos q1] at h
    simp only [Prod.mk.injEq] at h
    have e1 : res.lambda = -1 := by
      rcases hrange with ⟨e, _⟩ | ⟨e, _⟩
      · exact e
      · linarith
    obtain ⟨rfl, rfl⟩ := h
    refine ⟨fun q => ?_, fun lam q => Or.inr (Or.inl ⟨?_, e1, rfl, _, rfl, hz0⟩), fun q => by simp at q⟩
    · simp only [Except.ok.injEq] at q; rw [e1] at q; norm_num at q
    · simp only [Except.ok.injEq] at q; rw [← q]; exact e1
  rw [if_neg q1] at h
  rcases hrange with ⟨e, _⟩ | ⟨r1, r2, r3⟩
  · rw [e] at q1; exact absurd (by norm_num : (-1 : α) < 0) q1
  cases ce with
  | true =>
    simp only [if_true, Prod.mk.injEq] at h
    obtain ⟨rfl, rfl⟩ := h
    exact ⟨fun q => by simp at q, fun _ q => by simp at q, fun _ => ⟨rfl, _, rfl, hz0⟩⟩
  | false =>
    simp only [Bool.false_eq_true, if_false, Prod.mk.injEq] at h
    obtain ⟨rfl, rfl⟩ := h
    obtain ⟨x, hx1, hxl, hxq⟩ := Solver.C71_probabilities_near_richness _ _ _ _ hs r1
    have hslen : res.slots.length = l.length := by rw [hxl, List.length_map]
    refine ⟨fun q => ?_, fun lam q => Or.inr (Or.inr ?_), fun q => by simp at q⟩
    · simp only [Except.ok.injEq] at q; rw [q] at r1; norm_num at r1
    · simp only [Except.ok.injEq] at q
      subst q
      have hz : ∀ (t : List (Nb G α)) (ss : List (Solver.Slot α)), t.length = ss.length →
          (List.zipWith (fitFill E F z mpc (mstar - E.lval) line res.lambda res.rlambda) (t.map clear) ss).map Nb.pmem = ss.map Solver.Slot.wt := by
        intro t
        induction t with
        | nil => intro ss h; cases ss with
          | nil => rfl
          | cons a b => simp at h
        | cons a t ih => intro ss h; cases ss with
          | nil => simp at h
          | cons b ss => simp only [List.map_cons, List.zipWith_cons_cons, List.cons.injEq]; exact ⟨rfl, ih ss (by simpa using h)⟩
      refine ⟨rfl, r1, r2, rfl, r3, rfl, l, _, rfl, rfl, by rw [List.length_zipWith, List.length_map, hslen]; simp, ?_, ?_⟩
      · intro _
        rw [hz l res.slots hslen.symm]
      · intro m hm hr
        obtain ⟨j, hj⟩ := List.getElem?_of_mem hm
        rw [List.getElem?_zipWith] at hj
        cases hn : l[j]? with
        | none => simp [hn] at hj
        | some n =>
          cases hsj : res.slots[j]? with
          | none => simp [hsj] at hj
          | some s =>
            simp only [List.getElem?_map, hn, Option.map_some, hsj, Option.some.injEq] at hj
            subst hj
            have hq : (fitGal E F z mpc (mstar - E.lval) line n, s) ∈ (l.map (fitGal E F z mpc (mstar - E.lval) line)).zip res.slots := by
              apply List.mem_of_getElem? (i := j)
              rw [List.getElem?_zip_eq_some]
              exact ⟨by rw [List.getElem?_map, hn]; rfl, hsj⟩
            by_contra hne
            have h5 := (Solver.C05_hard_cut_partial _ _ _ _ hs (le_refl (0 : α)) r1 _ hq).1 hne
            have h5' : n.r < E.rlam res.lambda := h5
            exact absurd h5' (not_lt.mpr hr)

/-- Asking for the error never yields a richness. -/
theorem C131_error_unusable {E : Env G P α} (F : FitEnv G α) (cc : Option α) (c c' : Cl G P α) (lam : α)
    (h : richnessFit E F cc true c = (c', .ok lam)) : lam < 0 := by
  rcases (C131_fit F cc true c c' _ h).2.1 lam rfl with e | ⟨e, _⟩ | ⟨e, _⟩
  · rw [e]; norm_num
  · rw [e]; norm_num
  · simp at e

/-! ## C134: finding neighbours -/

/-- What is used of `match_one`: it returns each catalogue galaxy within the radius once, with its
distance. -/
structure MatchOK (E : Env G P α) (cat : List (Row G α)) (mo : P → α → List (Nat × α)) : Prop where
  nodup : ∀ p rad, ((mo p rad).map Prod.fst).Nodup
  spec : ∀ p rad i d, (i, d) ∈ mo p rad ↔ ∃ w, cat[i]? = some w ∧ d = E.sph p (E.pos w.g) ∧ d ≤ rad

/-- **C134.**  After `find_neighbors` the neighbours are exactly the catalogue galaxies within the radius
and not fainter than the limit, each once, with its catalogue index, its distance, free probability 1 (or
the catalogue's) and, if a redshift is set, its radius; in megaparsec mode the radius is measured at the
scale of the current redshift, and no redshift is an error. -/
theorem C134_find {E : Env G P α} {cat : List (Row G α)} {mo : P → α → List (Nat × α)} (hm : MatchOK E cat mo)
    (radius : α) (mpcMode : Bool) (maxmag : Option α) (c : Cl G P α) (hs : ScalesOK E c) (hk : ∀ z, 0 < E.mpcOf z) :
    (mpcMode = true → c.z = none → findNeighbors mo cat radius mpcMode maxmag c = .error .type) ∧
    ((mpcMode = true → c.z ≠ none) → ∃ c' l, findNeighbors mo cat radius mpcMode maxmag c = .ok c' ∧ c'.nbs = some l ∧
      c'.z = c.z ∧ c'.pos = c.pos ∧ RadiiOK E c' ∧
      (l.map Nb.index).Nodup ∧
      (∀ n ∈ l, ∃ (i : Nat) (w : Row G α), n.index = (i : Int) ∧ cat[i]? = some w ∧ n.g = w.g ∧ n.refmag = w.refmag ∧ n.refmagErr = w.refmagErr ∧
        n.pfree = w.pfree.getD 1 ∧ n.dist = E.sph c.pos (E.pos w.g)) ∧
      (∀ (i : Nat) (w : Row G α), cat[i]? = some w →
        ((∃ n ∈ l, n.index = (i : Int)) ↔
          (∀ m, maxmag = some m → w.refmag ≤ m) ∧
          (mpcMode = false → E.sph c.pos (E.pos w.g) ≤ radius) ∧
          (mpcMode = true → ∀ z, c.z = some z → E.sph c.pos (E.pos w.g) * E.mpcOf z ≤ radius)))) := by
  have main : ∀ deg : α, ∃ c' l, findDeg mo cat maxmag c deg = c' ∧ c'.nbs = some l ∧
      c'.z = c.z ∧ c'.pos = c.pos ∧ RadiiOK E c' ∧
      (l.map Nb.index).Nodup ∧
      (∀ n ∈ l, ∃ (i : Nat) (w : Row G α), n.index = (i : Int) ∧ cat[i]? = some w ∧ n.g = w.g ∧ n.refmag = w.refmag ∧ n.refmagErr = w.refmagErr ∧
        n.pfree = w.pfree.getD 1 ∧ n.dist = E.sph c.pos (E.pos w.g)) ∧
      (∀ (i : Nat) (w : Row G α), cat[i]? = some w →
        ((∃ n ∈ l, n.index = (i : Int)) ↔ (∀ m, maxmag = some m → w.refmag ≤ m) ∧ E.sph c.pos (E.pos w.g) ≤ deg)) := by
    intro deg
    unfold findDeg
    generalize hq : keepBright cat maxmag (mo c.pos deg) = ms
    unfold keepBright at hq
    have hnd : (ms.map Prod.fst).Nodup := by
      rw [← hq]
      cases maxmag with
      | none => exact hm.nodup _ _
      | some x => exact (hm.nodup c.pos deg).sublist (List.filter_sublist.map _)
    have hmem : ∀ i d, (i, d) ∈ ms ↔ ∃ w, cat[i]? = some w ∧ d = E.sph c.pos (E.pos w.g) ∧ d ≤ deg ∧ ∀ m, maxmag = some m → w.refmag ≤ m := by
      intro i d
      rw [← hq]
      cases maxmag with
      | none => simp only [hm.spec]; simp
      | some x =>
        simp only [List.mem_filter, hm.spec]
        constructor
        · rintro ⟨⟨w, h1, h2, h3⟩, h4⟩
          rw [h1] at h4
          exact ⟨w, h1, h2, h3, fun m hm' => by simp only [Option.some.injEq] at hm'; rw [← hm']; simpa using h4⟩
        · rintro ⟨w, h1, h2, h3, h4⟩
          refine ⟨⟨w, h1, h2, h3⟩, ?_⟩
          rw [h1]; simpa using h4 x rfl
    clear hq
    set nbs0 : List (Nb G α) := ms.filterMap fun q => (cat[q.1]?).map fun w => { toNb w with dist := q.2, index := (q.1 : Int) } with hn0
    have hs' : ScalesOK E ({ c with nbs := some nbs0 } : Cl G P α) := hs
    have hnb : ∃ l, (computeR ({ c with nbs := some nbs0 } : Cl G P α)).nbs = some l ∧ l.map stat = nbs0.map stat := by
      have h1 := stat_computeR ({ c with nbs := some nbs0 } : Cl G P α)
      unfold statNbs at h1
      simp only [Option.map_some] at h1
      obtain ⟨l, h2, h3⟩ := Option.map_eq_some_iff.mp h1
      exact ⟨l, h2, h3⟩
    obtain ⟨l, hl, hst⟩ := hnb
    have hfield : ∀ {γ : Type} (φ : Nb G α → γ), (∀ n, φ (stat n) = φ n) → l.map φ = nbs0.map φ := by
      intro γ φ h
      have := congrArg (List.map φ) hst
      rw [List.map_map, List.map_map] at this
      have e : φ ∘ stat = φ := funext h
      rwa [e] at this
    have hback : ∀ n ∈ l, ∃ n0 ∈ nbs0, stat n0 = stat n := by
      intro n hn
      have : stat n ∈ nbs0.map stat := by rw [← hst]; exact List.mem_map.mpr ⟨n, hn, rfl⟩
      obtain ⟨n0, h1, h2⟩ := List.mem_map.mp this
      exact ⟨n0, h1, h2⟩
    have hidx : l.map Nb.index = ms.map fun q => (q.1 : Int) := by
      rw [hfield Nb.index (fun _ => rfl), hn0, List.map_filterMap]
      have : ∀ t : List (Nat × α), (∀ q ∈ t, ∃ w, cat[q.1]? = some w) →
          t.filterMap (fun q => Option.map Nb.index ((cat[q.1]?).map fun w => ({ toNb w with dist := q.2, index := (q.1 : Int) } : Nb G α))) = t.map fun q => (q.1 : Int) := by
        intro t
        induction t with
        | nil => intro _; rfl
        | cons a t ih =>
          intro h
          obtain ⟨w, hw⟩ := h a (by simp)
          rw [List.filterMap_cons, hw]
          simp only [Option.map_some, List.map_cons]
          rw [ih fun q hq => h q (by simp [hq])]
      exact this ms fun q hq => by
        obtain ⟨w, h1, _⟩ := (hmem q.1 q.2).mp hq
        exact ⟨w, h1⟩
    refine ⟨_, l, rfl, hl, ?_, ?_, computeR_radii hs', ?_, ?_, ?_⟩
    · unfold computeR; split <;> rfl
    · unfold computeR; split <;> rfl
    · rw [hidx]
      have : (ms.map fun q => (q.1 : Int)) = (ms.map Prod.fst).map fun (i : Nat) => (i : Int) := by rw [List.map_map]; rfl
      rw [this]
      exact List.Nodup.map (fun a b h => by simpa using h) hnd
    · intro n hn
      obtain ⟨n0, h1, h2⟩ := hback n hn
      obtain ⟨q, hq, hq2⟩ := List.mem_filterMap.mp h1
      obtain ⟨w, hw, rfl⟩ := Option.map_eq_some_iff.mp hq2
      obtain ⟨w', hw', hd, _⟩ := (hmem q.1 q.2).mp hq
      have ew : w' = w := Option.some.inj (hw'.symm.trans hw)
      subst ew
      have f1 := congrArg Nb.index h2
      have f2 := congrArg Nb.g h2
      have f3 := congrArg Nb.refmag h2
      have f4 := congrArg Nb.refmagErr h2
      have f5 := congrArg Nb.pfree h2
      have f6 := congrArg Nb.dist h2
      refine ⟨q.1, w', f1.symm, hw, f2.symm, f3.symm, f4.symm, f5.symm, ?_⟩
      rw [← hd]; exact f6.symm
    · intro i w hw
      constructor
      · rintro ⟨n, hn, hni⟩
        have : (i : Int) ∈ ms.map fun q => (q.1 : Int) := by rw [← hidx, ← hni]; exact List.mem_map.mpr ⟨n, hn, rfl⟩
        obtain ⟨q, hq, he⟩ := List.mem_map.mp this
        have he' : q.1 = i := by simpa using he
        obtain ⟨w', h1, h2, h3, h4⟩ := (hmem q.1 q.2).mp hq
        rw [he', hw] at h1
        have ew : w = w' := Option.some.inj h1
        subst ew
        exact ⟨h4, by rw [← h2]; exact h3⟩
      · rintro ⟨h1, h2⟩
        have hq : (i, E.sph c.pos (E.pos w.g)) ∈ ms := (hmem _ _).mpr ⟨w, hw, rfl, h2, h1⟩
        have : (i : Int) ∈ l.map Nb.index := by rw [hidx]; exact List.mem_map.mpr ⟨_, hq, rfl⟩
        obtain ⟨n, hn, e⟩ := List.mem_map.mp this
        exact ⟨n, hn, e⟩
  refine ⟨?_, ?_⟩
  · intro h1 h2
    unfold findNeighbors
    rcases hs with ⟨_, _, e⟩ | ⟨z, _, e, _⟩
    · simp only [h1, if_true, e]
    · rw [e] at h2; simp at h2
  · intro h1
    cases mpcMode with
    | false =>
      obtain ⟨c', l, a1, a2, a3, a4, a5, a6, a7, a8⟩ := main radius
      refine ⟨c', l, ?_, a2, a3, a4, a5, a6, a7, ?_⟩
      · unfold findNeighbors; simp only [Bool.false_eq_true, if_false]; rw [a1]
      · intro i w hw; rw [a8 i w hw]; simp
    | true =>
      rcases hs with ⟨e, _⟩ | ⟨z, _, e1, e2, e3⟩
      · exact absurd e (h1 rfl)
      obtain ⟨c', l, a1, a2, a3, a4, a5, a6, a7, a8⟩ := main (radius / E.mpcOf z)
      refine ⟨c', l, ?_, a2, a3, a4, a5, a6, a7, ?_⟩
      · unfold findNeighbors; simp only [if_true]; rw [e3]; simp only; rw [a1]
      · intro i w hw
        rw [a8 i w hw, le_div_iff₀ (hk z)]
        simp [e1]

/-! ## C133: the local background -/

/-- Full statement: the local background of a cluster does not depend on which cluster, or which trial
redshift, the shared mask galaxies were last used for. -/
def C133_spec (α : Type) [Field α] [LinearOrder α] : Prop :=
  ∀ (sig : α → α → Option α) (pi lval r0 r1 chimax mstar mpc other : α) (gs : List (LGal α)) (nbs : List (LNb α)),
    bkgLocal sig pi lval r0 r1 chimax mstar mpc (setMags other gs) nbs = bkgLocal sig pi lval r0 r1 chimax mstar mpc (setMags mstar gs) nbs

/-- **C133**, proved part: if the last mask correction was computed at the luminosity scale of this
cluster, nothing older matters.  Missing: the general case, which is false (`C133_false`). -/
theorem C133_local_partial (sig : α → α → Option α) (pi lval r0 r1 chimax mstar mpc : α) (old : List α) (gs : List (LGal α)) (nbs : List (LNb α)) :
    bkgLocal sig pi lval r0 r1 chimax mstar mpc (setMags mstar (old.foldl (fun t x => setMags x t) gs)) nbs =
      bkgLocal sig pi lval r0 r1 chimax mstar mpc (setMags mstar gs) nbs := by
  have h2 : ∀ (x y : α) (t : List (LGal α)), setMags x (setMags y t) = setMags x t := by
    intro x y t; unfold setMags; rw [List.map_map]; rfl
  have : ∀ (old : List α) (t : List (LGal α)), setMags mstar (old.foldl (fun t x => setMags x t) t) = setMags mstar t := by
    intro old
    induction old with
    | nil => intro t; rfl
    | cons a as ih => intro t; rw [List.foldl_cons, ih, h2]
  rw [this]

/-- The local background is never negative. -/
theorem C133_nonneg (sig : α → α → Option α) (hsig : ∀ x m s, sig x m = some s → 0 ≤ s) (pi lval r0 r1 chimax mstar mpc : α) (hpi : 0 ≤ pi) (h0 : 0 ≤ r0) (h1 : r0 ≤ r1) (hk : 0 < mpc)
    (gs : List (LGal α)) (nbs : List (LNb α)) :
    0 ≤ bkgLocal sig pi lval r0 r1 chimax mstar mpc gs nbs := by
  unfold bkgLocal
  simp only
  refine div_nonneg (div_nonneg (Nat.cast_nonneg _) (mul_nonneg (mul_nonneg hpi ?_) (div_nonneg (Nat.cast_nonneg _) (Nat.cast_nonneg _)))) (div_nonneg (List.sum_nonneg ?_) (Nat.cast_nonneg _))
  · have e : r0 / mpc ≤ r1 / mpc := div_le_div_of_nonneg_right h1 hk.le
    have e0 : 0 ≤ r0 / mpc := div_nonneg h0 hk.le
    nlinarith
  · intro x hx
    obtain ⟨g, _, hg⟩ := List.mem_filterMap.mp hx
    obtain ⟨s, hs, hg2⟩ := Option.bind_eq_some_iff.mp hg
    split_ifs at hg2 with hc
    simp only [Option.some.injEq] at hg2
    rw [← hg2]
    exact div_nonneg (hsig _ _ _ hs) (mul_nonneg hc.2.1.le hc.2.2.1.le)

end More

section Witness2

/-- One mask galaxy at mstar, observed to magnitude 22. -/
def toyL (r m : ℚ) : LGal ℚ :=
  { m := m, refmag := 0, chisq := 1, chisqPdf := 1, lumPdf := 1, rUniform := r, mark := true, depth := 22 }

/-- The claim is false: after a trial redshift two magnitudes away the same cluster has half the
local background. -/
theorem C133_false : ¬ C133_spec ℚ := by
  intro h
  have := h (fun _ m => some (m - 17)) 3 (-1) 1 2 5 20 1 18 [toyL (3 / 2) 0] [⟨3 / 2, 20, 1, 22⟩]
  revert this
  decide +kernel

/-- A fit environment: the colour is the position, the line is flat. -/
def toyFit : FitEnv ℚ ℚ where
  col g := g
  colErr _ := 1
  colLo := -1
  colHi := 1
  bright := 3
  rcut := 2
  mingal := 2
  netErr x := x
  median l := l.headD 0
  polyfit _ := (0, 0)
  gauss _ _ := 1
  csigma _ _ := some 0
  limmagCat := 25
  pi := 3

/-- Non-vacuity of C131: the fit finds a richness, a stricter one returns -10 early, and with the error
option the same cluster raises a NameError. -/
example : ∃ lam, (richnessFit toyEnv toyFit none false toyCl).2 = .ok lam ∧ 1 ≤ lam := ok_of_test (by decide +kernel)

example : (richnessFit toyEnv { toyFit with mingal := 10 } none false toyCl).2 = .ok (-10) := by decide +kernel

example : (richnessFit toyEnv toyFit none true toyCl).2 = .error .name := by decide +kernel

/-- Non-vacuity of C134: the toy matcher meets the contract. -/
example : MatchOK toyEnv toyCat toyMatch where
  nodup p rad := by
    have h : ((List.range 5).zip (toyCat.map fun w => |p - w.g|)).map Prod.fst = List.range 5 := by
      rw [List.map_fst_zip]; simp [toyCat]
    exact (h ▸ List.nodup_range : (((List.range 5).zip (toyCat.map fun w => |p - w.g|)).map Prod.fst).Nodup).sublist (List.filter_sublist.map _)
  spec p rad i d := by
    unfold toyMatch
    rw [List.mem_filter]
    constructor
    · rintro ⟨h, h2⟩
      obtain ⟨k, hk⟩ := List.getElem?_of_mem h
      rw [List.getElem?_zip_eq_some] at hk
      obtain ⟨h3, h4⟩ := hk
      rw [List.getElem?_map] at h4
      obtain ⟨w, hw, e⟩ := Option.map_eq_some_iff.mp h4
      have hki : k = i := by
        have := List.getElem?_eq_some_iff.mp h3
        obtain ⟨hlt, e⟩ := this
        simpa using e
      subst hki
      exact ⟨w, hw, e.symm, by simpa using h2⟩
    · rintro ⟨w, hw, e, h2⟩
      refine ⟨?_, by simpa using h2⟩
      apply List.mem_of_getElem? (i := i)
      rw [List.getElem?_zip_eq_some]
      have hi : i < 5 := (List.getElem?_eq_some_iff.mp hw).1
      refine ⟨by simp [hi], by rw [List.getElem?_map, hw, e]; rfl⟩

end Witness2

/-! ## C132: the filters are positive where they must be -/

section Filters

theorem log_ratio_ge {a : ℝ} (h0 : 0 ≤ a) (h1 : a < 1) : 2 * a ≤ Real.log ((1 + a) / (1 - a)) := by
  have h := Real.hasSum_log_sub_log_of_abs_lt_one (x := a) (by rw [abs_of_nonneg h0]; exact h1)
  rw [Real.log_div (by linarith) (by linarith)]
  have := sum_le_hasSum {0} (fun i _ => by positivity) h
  simpa using this

theorem arctan_le_self {a : ℝ} (h0 : 0 ≤ a) : Real.arctan a ≤ a := by
  have := Real.le_tan (Real.arctan_nonneg.mpr h0) (Real.arctan_lt_pi_div_two a)
  rwa [Real.tan_arctan] at this

theorem nfwIn_pos {x : ℝ} (h0 : 0 < x) (h1 : x < 1) : 0 < nfwIn x := by
  unfold nfwIn
  simp only
  set a := Real.sqrt ((1 - x) / (1 + x)) with ha
  have hp : 0 < 1 + x := by linarith
  have hm : 0 < 1 - x := by linarith
  have ha0 : 0 ≤ a := Real.sqrt_nonneg _
  have ha1 : a < 1 := by
    rw [ha, Real.sqrt_lt' one_pos, div_lt_iff₀ hp]; linarith
  have hsq : Real.sqrt (1 - x ^ 2) = Real.sqrt (1 - x) * Real.sqrt (1 + x) := by
    rw [← Real.sqrt_mul hm.le]; congr 1; ring
  have hs1 : 0 < Real.sqrt (1 - x) := Real.sqrt_pos.mpr hm
  have hs2 : 0 < Real.sqrt (1 + x) := Real.sqrt_pos.mpr hp
  have hpa : 2 / Real.sqrt (1 - x ^ 2) * a = 2 / (1 + x) := by
    rw [hsq, ha, Real.sqrt_div hm.le]
    have : Real.sqrt (1 + x) * Real.sqrt (1 + x) = 1 + x := Real.mul_self_sqrt hp.le
    field_simp
    rw [sq, this]
  have hlog := log_ratio_ge ha0 ha1
  have hpre : 0 ≤ 2 / Real.sqrt (1 - x ^ 2) := by rw [hsq]; positivity
  have hge : 2 / (1 + x) ≤ 2 / Real.sqrt (1 - x ^ 2) * (1 / 2) * Real.log ((1 + a) / (1 - a)) := by
    rw [← hpa]
    have : 2 / Real.sqrt (1 - x ^ 2) * a = 2 / Real.sqrt (1 - x ^ 2) * (1 / 2) * (2 * a) := by ring
    rw [this]
    exact mul_le_mul_of_nonneg_left hlog (by positivity)
  have hgt : 1 < 2 / (1 + x) := by rw [lt_div_iff₀ hp]; linarith
  have hfront : 1 / (x ^ 2 - 1) < 0 := by
    apply div_neg_of_pos_of_neg one_pos
    nlinarith
  exact mul_pos_of_neg_of_neg hfront (by linarith)

theorem nfwOut_pos {x : ℝ} (h1 : 1 < x) : 0 < nfwOut x := by
  unfold nfwOut
  simp only
  set a := Real.sqrt ((x - 1) / (x + 1)) with ha
  have hp : 0 < x + 1 := by linarith
  have hm : 0 < x - 1 := by linarith
  have ha0 : 0 ≤ a := Real.sqrt_nonneg _
  have hsq : Real.sqrt (x ^ 2 - 1) = Real.sqrt (x - 1) * Real.sqrt (x + 1) := by
    rw [← Real.sqrt_mul hm.le]; congr 1; ring
  have hs1 : 0 < Real.sqrt (x - 1) := Real.sqrt_pos.mpr hm
  have hs2 : 0 < Real.sqrt (x + 1) := Real.sqrt_pos.mpr hp
  have hpa : 2 / Real.sqrt (x ^ 2 - 1) * a = 2 / (x + 1) := by
    rw [hsq, ha, Real.sqrt_div hm.le]
    have : Real.sqrt (x + 1) * Real.sqrt (x + 1) = x + 1 := Real.mul_self_sqrt hp.le
    field_simp
    rw [sq, this]
  have hpre : 0 ≤ 2 / Real.sqrt (x ^ 2 - 1) := by rw [hsq]; positivity
  have hle : 2 / Real.sqrt (x ^ 2 - 1) * Real.arctan a ≤ 2 / (x + 1) := by
    rw [← hpa]; exact mul_le_mul_of_nonneg_left (arctan_le_self ha0) hpre
  have hlt : 2 / (x + 1) < 1 := by rw [div_lt_one hp]; linarith
  exact mul_pos (div_pos one_pos (by nlinarith)) (by linarith)

/-- **C132**, the radial filter: for a core inside the scale radius it is positive at every radius below
10 Mpc, zero from 10 Mpc on, and constant inside the core; with the radial factor it is still
not negative. -/
theorem C132_radial (rscale corer : ℝ) (hc : 0 < corer) (hcs : corer ≤ 999 / 1000 * rscale) (hs : 1001 / 1000 * rscale ≤ 10) (r : ℝ) :
    (r < 10 → 0 < nfwPdf rscale corer false r) ∧ (10 ≤ r → nfwPdf rscale corer false r = 0) ∧
    (∀ r', r < corer → r' < corer → nfwPdf rscale corer false r = nfwPdf rscale corer false r') ∧
    (0 ≤ r → 0 ≤ nfwPdf rscale corer true r) := by
  have hr0 : 0 < rscale := by nlinarith
  have hc0 : 0 < corer / rscale := div_pos hc hr0
  have hc1 : corer / rscale ≤ 999 / 1000 := by rw [div_le_iff₀ hr0]; exact hcs
  have h10 : 1001 / 1000 ≤ 10 / rscale := by rw [le_div_iff₀ hr0]; exact hs
  have pos : ∀ r, r < 10 → 0 < nfwPdf rscale corer false r := by
    intro r hr
    have hx : r / rscale < 10 / rscale := div_lt_div_of_pos_right hr hr0
    unfold nfwPdf
    simp only [Bool.false_eq_true, if_false]
    by_cases h4 : 999 / 1000 < r / rscale ∧ r / rscale < 1001 / 1000
    · rw [if_pos h4]
      have a := nfwIn_pos (x := 999 / 1000) (by norm_num) (by norm_num)
      have b := nfwOut_pos (x := 1001 / 1000) (by norm_num)
      linarith
    rw [if_neg h4]
    by_cases h3 : 1001 / 1000 ≤ r / rscale ∧ r / rscale < 10 / rscale
    · rw [if_pos h3]; exact nfwOut_pos (by linarith [h3.1])
    rw [if_neg h3]
    have hle : r / rscale ≤ 999 / 1000 := by
      by_contra hcon
      push Not at hcon
      rcases lt_or_ge (r / rscale) (1001 / 1000) with q | q
      · exact h4 ⟨hcon, q⟩
      · exact h3 ⟨q, hx⟩
    by_cases h2 : corer / rscale ≤ r / rscale ∧ r / rscale ≤ 999 / 1000
    · rw [if_pos h2]; exact nfwIn_pos (by linarith [h2.1]) (by linarith [h2.2])
    rw [if_neg h2]
    have hlt : r / rscale < corer / rscale := by
      by_contra hcon
      exact h2 ⟨not_lt.mp hcon, hle⟩
    rw [if_pos hlt]
    exact nfwIn_pos hc0 (by linarith)
  have zero : ∀ r, 10 ≤ r → nfwPdf rscale corer false r = 0 := by
    intro r hr
    have hx : 10 / rscale ≤ r / rscale := div_le_div_of_nonneg_right hr hr0.le
    unfold nfwPdf
    simp only [Bool.false_eq_true, if_false]
    rw [if_neg (by rintro ⟨_, q⟩; linarith), if_neg (by rintro ⟨_, q⟩; linarith), if_neg (by rintro ⟨_, q⟩; linarith), if_neg (by intro q; linarith)]
  refine ⟨pos r, zero r, ?_, ?_⟩
  · intro r' h h'
    have core : ∀ r, r < corer → nfwPdf rscale corer false r = nfwIn (corer / rscale) := by
      intro r h
      have hx : r / rscale < corer / rscale := div_lt_div_of_pos_right h hr0
      unfold nfwPdf
      simp only [Bool.false_eq_true, if_false]
      rw [if_neg (by rintro ⟨q, _⟩; linarith), if_neg (by rintro ⟨q, _⟩; linarith), if_neg (by rintro ⟨q, _⟩; linarith), if_pos hx]
    rw [core r h, core r' h']
  · intro h0
    have e : nfwPdf rscale corer true r = nfwPdf rscale corer false r * (2 * Real.pi * r) := by
      unfold nfwPdf
      simp only [if_true, Bool.false_eq_true, if_false]
    rw [e]
    refine mul_nonneg ?_ (mul_nonneg (mul_nonneg (by norm_num) Real.pi_pos.le) h0)
    rcases lt_or_ge r 10 with q | q
    · exact (pos r q).le
    · exact (zero r q).ge

/-- The default profile of the code (0.15 and 0.1 Mpc) meets the hypotheses. -/
example : (0 : ℝ) < 1 / 10 ∧ (1 / 10 : ℝ) ≤ 999 / 1000 * (15 / 100) ∧ (1001 / 1000 : ℝ) * (15 / 100) ≤ 10 := by norm_num

/-- **C132**, the luminosity and colour filters: positive everywhere, respectively for every positive
chi-squared. -/
theorem C132_positive (alpha mstar x k c : ℝ) (hk : 0 < k) (hc : 0 < c) :
    0 < schechterPdf alpha mstar x ∧ 0 < chisqPdf k c := by
  refine ⟨mul_pos (Real.rpow_pos_of_pos (by norm_num) _) (Real.exp_pos _), ?_⟩
  unfold chisqPdf
  have h1 : 0 < (2 : ℝ) ^ (k / 2) := Real.rpow_pos_of_pos (by norm_num) _
  have h2 : 0 < Real.Gamma (k / 2) := Real.Gamma_pos_of_pos (by positivity)
  have h3 : 0 < c ^ (k / 2 - 1) := Real.rpow_pos_of_pos hc _
  have h4 := Real.exp_pos (-c / 2)
  positivity

/-- **C132**, the colour filter is a density: over the positive chi-squared it integrates to one, for any number of degrees of freedom. -/
theorem C132_chisq_one (k : ℝ) (hk : 0 < k) : ∫ x in Set.Ioi (0 : ℝ), chisqPdf k x = 1 := by
  have h1 : 0 < (2 : ℝ) ^ (k / 2) := Real.rpow_pos_of_pos (by norm_num) _
  have h2 : 0 < Real.Gamma (k / 2) := Real.Gamma_pos_of_pos (by positivity)
  have e : (fun x => chisqPdf k x) = fun x => (1 / ((2 : ℝ) ^ (k / 2) * Real.Gamma (k / 2))) * (x ^ (k / 2 - 1) * Real.exp (-(1 / 2 * x))) := by
    funext x
    unfold chisqPdf
    rw [mul_assoc]
    congr 3
    ring
  rw [e, MeasureTheory.integral_const_mul, Real.integral_rpow_mul_exp_neg_mul_Ioi (by positivity) (by norm_num)]
  have : (1 / (1 / 2 : ℝ)) = 2 := by norm_num
  rw [this]
  field_simp

/-- **C132**, the luminosity filter with faint-end slope -1 (the default): a brighter galaxy never has a larger
value than a fainter one. -/
theorem C132_brighter (mstar x y : ℝ) (h : x ≤ y) : schechterPdf (-1) mstar x ≤ schechterPdf (-1) mstar y := by
  unfold schechterPdf
  have e : (4 / 10 : ℝ) * (-1 + 1) = 0 := by norm_num
  rw [e, zero_mul, zero_mul, Real.rpow_zero, one_mul, one_mul]
  apply Real.exp_le_exp.mpr
  apply neg_le_neg
  exact Real.rpow_le_rpow_of_exponent_le (by norm_num) (by linarith)

end Filters

end Redmapper.Cluster
