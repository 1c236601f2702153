/-
Properties of the per-pixel tasks and the zred runners: C35, C36, C44, C46.
-/
import Verif.Model.PixelTasks
import Mathlib.Tactic.Ring
import Mathlib.Tactic.Linarith
import Mathlib.Tactic.NormNum
import Mathlib.Tactic.FieldSimp
import Mathlib.Tactic.Positivity
import Mathlib.Data.List.Basic

namespace Redmapper.PixelTasks

/-! ## C35 -/

/-- Each galaxy pixel lies in the pixel of exactly one task. -/
structure Partition (S : Setup) : Prop where
  cover : ∀ p, p < S.npix → ∃ t, t < S.ntask ∧ p ∈ S.owns t
  disjoint : ∀ t u p, p ∈ S.owns t → p ∈ S.owns u → t = u
  nodup : ∀ t, (S.owns t).Nodup

/-- The pixels a task has not begun to write. -/
def pending (S : Setup) (t : Nat) : PC → List Nat
  | .start => S.owns t
  | .locked rest => rest
  | .writing _ rest => rest
  | _ => []

/-- The task has finished its part: its pixel lock is gone. -/
def past : PC → Prop
  | .waiting => True
  | .gotMaster => True
  | .sawFiles _ => True
  | .making => True
  | .closing => True
  | .done => True
  | _ => False

/-- The task still has the completeness check before it, and will find what there is to find. -/
def checking : PC → Prop
  | .waiting => True
  | .gotMaster => True
  | .sawFiles b => b = true
  | .making => True
  | _ => False

structure Inv (S : Setup) (w : World) : Prop where
  /-- nothing is written before its turn -/
  pend : ∀ t p, t < S.ntask → p ∈ pending S t (w.pc t) → w.file p = .absent ∧ p ∈ S.owns t
  pnodup : ∀ t, t < S.ntask → (pending S t (w.pc t)).Nodup
  /-- a half-written file is being written under a lock -/
  part : ∀ p, w.file p = .partly → ∃ t, t < S.ntask ∧ p ∈ S.owns t ∧ w.plock t = true
  writing : ∀ t p rest, t < S.ntask → w.pc t = .writing p rest → p ∈ S.owns t ∧ p ∉ rest
  lockp : ∀ t, t < S.ntask → past (w.pc t) → w.plock t = false ∧ ∀ p ∈ S.owns t, w.file p = .full
  lock0 : ∀ t, t < S.ntask → w.pc t = .start → w.plock t = false
  lockl : ∀ t rest, t < S.ntask → w.pc t = .locked rest → w.plock t = true ∧ ∀ p ∈ S.owns t, p ∈ rest ∨ w.file p = .full
  lockw : ∀ t p rest, t < S.ntask → w.pc t = .writing p rest → w.plock t = true ∧
    ∀ q ∈ S.owns t, q = p ∨ q ∈ rest ∨ w.file q = .full
  saw : ∀ t, t < S.ntask → w.pc t = .sawFiles true → ∀ p, p < S.npix → w.file p ≠ .absent
  mkf : ∀ t, t < S.ntask → w.pc t = .making → ∀ p, p < S.npix → w.file p = .full
  master : w.master = true → ∀ p, p < S.npix → w.file p = .full

theorem setPc_pc (w : World) (t : Nat) (c : PC) (u : Nat) : (w.setPc t c).pc u = if u = t then c else w.pc u := rfl
@[simp] theorem setPc_file (w : World) (t : Nat) (c : PC) : (w.setPc t c).file = w.file := rfl
@[simp] theorem setPc_plock (w : World) (t : Nat) (c : PC) : (w.setPc t c).plock = w.plock := rfl
@[simp] theorem setPc_master (w : World) (t : Nat) (c : PC) : (w.setPc t c).master = w.master := rfl
@[simp] theorem setPc_mlock (w : World) (t : Nat) (c : PC) : (w.setPc t c).mlock = w.mlock := rfl

theorem inv_init (S : Setup) (hS : Partition S) : Inv S World.init := by
  constructor <;> simp [World.init, pending, past]
  · intro t _; exact hS.nodup t

/-- A step that changes no file and no pixel lock. -/
theorem inv_quiet (S : Setup) (w w' : World) (t : Nat) (c : PC) (h : Inv S w) (hf : w'.file = w.file)
    (hl : w'.plock = w.plock) (hpc : ∀ u, w'.pc u = if u = t then c else w.pc u)
    (hpend : pending S t c = []) (hpast : t < S.ntask → past c → past (w.pc t)) (hnl : ∀ rest, c ≠ .locked rest)
    (hnw : ∀ p rest, c ≠ .writing p rest) (hns : c ≠ .start)
    (hsaw : t < S.ntask → c = .sawFiles true → ∀ p, p < S.npix → w.file p ≠ .absent)
    (hmk : t < S.ntask → c = .making → ∀ p, p < S.npix → w.file p = .full)
    (hm : w'.master = true → ∀ p, p < S.npix → w.file p = .full) : Inv S w' := by
  have key : ∀ (u : Nat) (P : PC → Prop), P (w'.pc u) → (u = t → P c → P (w.pc u)) → P (w.pc u) := by
    intro u P hP himp
    rw [hpc] at hP
    by_cases hu : u = t
    · rw [if_pos hu] at hP; exact himp hu hP
    · rw [if_neg hu] at hP; exact hP
  constructor
  · intro u p hu hp
    rw [hf]
    rw [hpc] at hp
    by_cases hut : u = t
    · rw [if_pos hut, hut, hpend] at hp; simp at hp
    · rw [if_neg hut] at hp; exact h.pend u p hu hp
  · intro u hu
    rw [hpc]
    by_cases hut : u = t
    · rw [if_pos hut, hut, hpend]; exact List.nodup_nil
    · rw [if_neg hut]; exact h.pnodup u hu
  · intro p hp; rw [hf] at hp; rw [hl]; exact h.part p hp
  · intro u p rest hu hc
    exact h.writing u p rest hu (key u (fun x => x = .writing p rest) hc fun _ e => absurd e (hnw p rest))
  · intro u hu hp
    rw [hf, hl]
    exact h.lockp u hu (key u past hp fun e hc => by subst e; exact hpast hu hc)
  · intro u hu hc
    rw [hl]
    exact h.lock0 u hu (key u (fun x => x = .start) hc fun _ e => absurd e hns)
  · intro u rest hu hc
    rw [hf, hl]
    exact h.lockl u rest hu (key u (fun x => x = .locked rest) hc fun _ e => absurd e (hnl rest))
  · intro u p rest hu hc
    rw [hf, hl]
    exact h.lockw u p rest hu (key u (fun x => x = .writing p rest) hc fun _ e => absurd e (hnw p rest))
  · intro u hu hc
    rw [hf]
    rw [hpc] at hc
    by_cases hut : u = t
    · rw [if_pos hut] at hc; subst hut; exact hsaw hu hc
    · rw [if_neg hut] at hc; exact h.saw u hu hc
  · intro u hu hc
    rw [hf]
    rw [hpc] at hc
    by_cases hut : u = t
    · rw [if_pos hut] at hc; subst hut; exact hmk hu hc
    · rw [if_neg hut] at hc; exact h.mkf u hu hc
  · intro hmm; rw [hf]; exact hm hmm

theorem countFiles_all (S : Setup) (w : World) (hs : S.stray = 0) :
    countFiles S w = S.npix ↔ ∀ p, p < S.npix → w.file p ≠ .absent := by
  unfold countFiles
  rw [hs, Nat.add_zero]
  conv_lhs => rhs; rw [← List.length_range (n := S.npix)]
  rw [List.length_filter_eq_length_iff]
  simp

theorem countLocks_zero (S : Setup) (w : World) : countLocks S w = 0 ↔ ∀ t, t < S.ntask → w.plock t = false := by
  unfold countLocks
  rw [List.length_eq_zero_iff, List.filter_eq_nil_iff]
  simp

theorem inv_act (S : Setup) (hS : Partition S) (hs : S.stray = 0) (w w' : World) (t : Nat) (a : Act) (ht : t < S.ntask)
    (h : Inv S w) (ha : act S w t a = some w') : Inv S w' := by
  cases a with
  | kill =>
    have : w' = w.setPc t .dead := by
      unfold act at ha
      cases hp : w.pc t <;> rw [hp] at ha <;> simp at ha <;> exact ha.symm
    rw [this]
    exact inv_quiet S w _ t .dead h rfl rfl (setPc_pc w t .dead) rfl (fun _ e => e.elim) (by simp) (by simp) (by simp)
      (by simp) (by simp) h.master
  | timeout =>
    unfold act at ha
    cases hp : w.pc t <;> simp only [hp, reduceCtorEq] at ha
    by_cases hm : w.mlock = true
    · rw [if_pos hm] at ha; injection ha with ha; rw [← ha]
      exact inv_quiet S w _ t .done h rfl rfl (setPc_pc w t .done) rfl (fun _ _ => by rw [hp]; trivial) (by simp) (by simp)
        (by simp) (by simp) (by simp) h.master
    · rw [if_neg hm] at ha; cases ha
  | step =>
    unfold act at ha
    cases hp : w.pc t with
    | start =>
      simp only [hp] at ha
      rw [if_neg (by rw [h.lock0 t ht hp]; simp)] at ha
      injection ha with ha; rw [← ha]
      have hpc : ∀ u, ((w.setPlock t true).setPc t (.locked (S.owns t))).pc u = if u = t then .locked (S.owns t) else w.pc u :=
        fun u => rfl
      have hpl : ∀ u, ((w.setPlock t true).setPc t (.locked (S.owns t))).plock u = if u = t then true else w.plock u :=
        fun u => rfl
      have hfl : ((w.setPlock t true).setPc t (.locked (S.owns t))).file = w.file := rfl
      constructor
      · intro u p hu hpe
        rw [hpc] at hpe
        by_cases hut : u = t
        · rw [if_pos hut] at hpe
          subst hut
          exact h.pend u p hu (by rw [hp]; exact hpe)
        · rw [if_neg hut] at hpe; exact h.pend u p hu hpe
      · intro u hu
        rw [hpc]
        by_cases hut : u = t
        · rw [if_pos hut]; exact hS.nodup t
        · rw [if_neg hut]; exact h.pnodup u hu
      · intro p hpp
        obtain ⟨u, hu, ho, hl⟩ := h.part p hpp
        refine ⟨u, hu, ho, ?_⟩
        rw [hpl]
        by_cases hut : u = t
        · rw [if_pos hut]
        · rw [if_neg hut]; exact hl
      · intro u p rest hu hc
        rw [hpc] at hc
        by_cases hut : u = t
        · rw [if_pos hut] at hc; cases hc
        · rw [if_neg hut] at hc; exact h.writing u p rest hu hc
      · intro u hu hc
        rw [hpc] at hc
        by_cases hut : u = t
        · rw [if_pos hut] at hc; exact hc.elim
        · rw [if_neg hut] at hc; rw [hpl, if_neg hut]; exact h.lockp u hu hc
      · intro u hu hc
        rw [hpc] at hc
        by_cases hut : u = t
        · rw [if_pos hut] at hc; cases hc
        · rw [if_neg hut] at hc; rw [hpl, if_neg hut]; exact h.lock0 u hu hc
      · intro u rest hu hc
        rw [hpc] at hc
        by_cases hut : u = t
        · rw [if_pos hut] at hc; injection hc with hc
          rw [hpl, if_pos hut]
          exact ⟨rfl, fun p hpo => Or.inl (by rw [← hc, ← hut]; exact hpo)⟩
        · rw [if_neg hut] at hc; rw [hpl, if_neg hut]; exact h.lockl u rest hu hc
      · intro u p rest hu hc
        rw [hpc] at hc
        by_cases hut : u = t
        · rw [if_pos hut] at hc; cases hc
        · rw [if_neg hut] at hc; rw [hpl, if_neg hut]; exact h.lockw u p rest hu hc
      · intro u hu hc
        rw [hpc] at hc
        by_cases hut : u = t
        · rw [if_pos hut] at hc; cases hc
        · rw [if_neg hut] at hc; exact h.saw u hu hc
      · intro u hu hc
        rw [hpc] at hc
        by_cases hut : u = t
        · rw [if_pos hut] at hc; cases hc
        · rw [if_neg hut] at hc; exact h.mkf u hu hc
      · exact h.master
    | locked rest =>
      cases rest with
      | nil =>
        simp only [hp] at ha
        injection ha with ha; rw [← ha]
        obtain ⟨hlk, hfull⟩ := h.lockl t [] ht hp
        have hpc : ∀ u, ((w.setPlock t false).setPc t .waiting).pc u = if u = t then .waiting else w.pc u := fun u => rfl
        have hpl : ∀ u, ((w.setPlock t false).setPc t .waiting).plock u = if u = t then false else w.plock u := fun u => rfl
        have hfl : ((w.setPlock t false).setPc t .waiting).file = w.file := rfl
        constructor
        · intro u p hu hpe
          rw [hpc] at hpe
          by_cases hut : u = t
          · rw [if_pos hut] at hpe; simp [pending] at hpe
          · rw [if_neg hut] at hpe; exact h.pend u p hu hpe
        · intro u hu
          rw [hpc]
          by_cases hut : u = t
          · rw [if_pos hut]; exact List.nodup_nil
          · rw [if_neg hut]; exact h.pnodup u hu
        · intro p hpp
          rw [hfl] at hpp
          obtain ⟨u, hu, ho, hl⟩ := h.part p hpp
          refine ⟨u, hu, ho, ?_⟩
          rw [hpl]
          by_cases hut : u = t
          · subst hut
            rcases hfull p ho with hx | hx
            · simp at hx
            · rw [hx] at hpp; cases hpp
          · rw [if_neg hut]; exact hl
        · intro u p rest hu hc
          rw [hpc] at hc
          by_cases hut : u = t
          · rw [if_pos hut] at hc; cases hc
          · rw [if_neg hut] at hc; exact h.writing u p rest hu hc
        · intro u hu hc
          rw [hpc] at hc
          by_cases hut : u = t
          · rw [hpl, if_pos hut, hfl]
            refine ⟨rfl, fun p hpo => ?_⟩
            subst hut
            rcases hfull p hpo with hx | hx
            · simp at hx
            · exact hx
          · rw [if_neg hut] at hc; rw [hpl, if_neg hut]; exact h.lockp u hu hc
        · intro u hu hc
          rw [hpc] at hc
          by_cases hut : u = t
          · rw [if_pos hut] at hc; cases hc
          · rw [if_neg hut] at hc; rw [hpl, if_neg hut]; exact h.lock0 u hu hc
        · intro u rest hu hc
          rw [hpc] at hc
          by_cases hut : u = t
          · rw [if_pos hut] at hc; cases hc
          · rw [if_neg hut] at hc; rw [hpl, if_neg hut]; exact h.lockl u rest hu hc
        · intro u p rest hu hc
          rw [hpc] at hc
          by_cases hut : u = t
          · rw [if_pos hut] at hc; cases hc
          · rw [if_neg hut] at hc; rw [hpl, if_neg hut]; exact h.lockw u p rest hu hc
        · intro u hu hc
          rw [hpc] at hc
          by_cases hut : u = t
          · rw [if_pos hut] at hc; cases hc
          · rw [if_neg hut] at hc; exact h.saw u hu hc
        · intro u hu hc
          rw [hpc] at hc
          by_cases hut : u = t
          · rw [if_pos hut] at hc; cases hc
          · rw [if_neg hut] at hc; exact h.mkf u hu hc
        · exact h.master
      | cons p rest =>
        simp only [hp] at ha
        injection ha with ha; rw [← ha]
        obtain ⟨hlk, hown⟩ := h.lockl t (p :: rest) ht hp
        obtain ⟨habs, hpo⟩ := h.pend t p ht (by rw [hp]; simp [pending])
        have hnd := h.pnodup t ht
        rw [hp] at hnd
        have hnd := List.nodup_cons.mp hnd
        have hpc : ∀ u, ((w.setFile p .partly).setPc t (.writing p rest)).pc u = if u = t then .writing p rest else w.pc u :=
          fun u => rfl
        have hfl : ∀ q, ((w.setFile p .partly).setPc t (.writing p rest)).file q = if q = p then .partly else w.file q :=
          fun q => rfl
        have hfull : ∀ q, w.file q = .full → ((w.setFile p .partly).setPc t (.writing p rest)).file q = .full := by
          intro q hq
          rw [hfl, if_neg (by rintro rfl; rw [habs] at hq; cases hq)]; exact hq
        constructor
        · intro u q hu hpe
          rw [hpc] at hpe
          rw [hfl]
          by_cases hut : u = t
          · rw [if_pos hut] at hpe
            have hq : q ∈ rest := hpe
            obtain ⟨h1, h2⟩ := h.pend t q ht (by rw [hp]; simp [pending, hq])
            rw [if_neg (by rintro rfl; exact hnd.1 hq)]
            exact ⟨h1, by rw [hut]; exact h2⟩
          · rw [if_neg hut] at hpe
            obtain ⟨h1, h2⟩ := h.pend u q hu hpe
            rw [if_neg (by rintro rfl; exact hut (hS.disjoint u t q h2 hpo))]
            exact ⟨h1, h2⟩
        · intro u hu
          rw [hpc]
          by_cases hut : u = t
          · rw [if_pos hut]; exact hnd.2
          · rw [if_neg hut]; exact h.pnodup u hu
        · intro q hq
          rw [hfl] at hq
          by_cases hqp : q = p
          · exact ⟨t, ht, hqp ▸ hpo, hlk⟩
          · rw [if_neg hqp] at hq; exact h.part q hq
        · intro u q r hu hc
          rw [hpc] at hc
          by_cases hut : u = t
          · rw [if_pos hut] at hc; injection hc with h1 h2
            subst h1; subst h2; rw [hut]; exact ⟨hpo, hnd.1⟩
          · rw [if_neg hut] at hc; exact h.writing u q r hu hc
        · intro u hu hc
          rw [hpc] at hc
          by_cases hut : u = t
          · rw [if_pos hut] at hc; exact hc.elim
          · rw [if_neg hut] at hc
            obtain ⟨h1, h2⟩ := h.lockp u hu hc
            exact ⟨h1, fun q hq => hfull q (h2 q hq)⟩
        · intro u hu hc
          rw [hpc] at hc
          by_cases hut : u = t
          · rw [if_pos hut] at hc; cases hc
          · rw [if_neg hut] at hc; exact h.lock0 u hu hc
        · intro u r hu hc
          rw [hpc] at hc
          by_cases hut : u = t
          · rw [if_pos hut] at hc; cases hc
          · rw [if_neg hut] at hc
            obtain ⟨h1, h2⟩ := h.lockl u r hu hc
            exact ⟨h1, fun q hq => (h2 q hq).imp id (hfull q)⟩
        · intro u q r hu hc
          rw [hpc] at hc
          by_cases hut : u = t
          · rw [if_pos hut] at hc; injection hc with h1 h2
            subst h1; subst h2
            rw [hut]
            refine ⟨hlk, fun q hq => ?_⟩
            rcases hown q hq with hx | hx
            · rcases List.mem_cons.mp hx with hx | hx
              · exact Or.inl hx
              · exact Or.inr (Or.inl hx)
            · exact Or.inr (Or.inr (hfull q hx))
          · rw [if_neg hut] at hc
            obtain ⟨h1, h2⟩ := h.lockw u q r hu hc
            exact ⟨h1, fun x hx => (h2 x hx).imp id (Or.imp id (hfull x))⟩
        · intro u hu hc
          rw [hpc] at hc
          by_cases hut : u = t
          · rw [if_pos hut] at hc; cases hc
          · rw [if_neg hut] at hc
            intro q hq
            rw [hfl]
            by_cases hqp : q = p
            · rw [if_pos hqp]; simp
            · rw [if_neg hqp]; exact h.saw u hu hc q hq
        · intro u hu hc
          rw [hpc] at hc
          by_cases hut : u = t
          · rw [if_pos hut] at hc; cases hc
          · rw [if_neg hut] at hc; exact fun q hq => hfull q (h.mkf u hu hc q hq)
        · exact fun hm q hq => hfull q (h.master hm q hq)
    | writing p rest =>
      simp only [hp] at ha
      injection ha with ha; rw [← ha]
      obtain ⟨hlk, hown⟩ := h.lockw t p rest ht hp
      obtain ⟨hpo, hpr⟩ := h.writing t p rest ht hp
      have hpc : ∀ u, ((w.setFile p .full).setPc t (.locked rest)).pc u = if u = t then .locked rest else w.pc u :=
        fun u => rfl
      have hfl : ∀ q, ((w.setFile p .full).setPc t (.locked rest)).file q = if q = p then .full else w.file q :=
        fun q => rfl
      have hfull : ∀ q, w.file q = .full → ((w.setFile p .full).setPc t (.locked rest)).file q = .full := by
        intro q hq
        rw [hfl]
        by_cases hqp : q = p
        · rw [if_pos hqp]
        · rw [if_neg hqp]; exact hq
      constructor
      · intro u q hu hpe
        rw [hpc] at hpe
        rw [hfl]
        by_cases hut : u = t
        · rw [if_pos hut] at hpe
          have hq : q ∈ rest := hpe
          obtain ⟨h1, h2⟩ := h.pend t q ht (by rw [hp]; exact hq)
          rw [if_neg (by rintro rfl; exact hpr hq)]
          exact ⟨h1, by rw [hut]; exact h2⟩
        · rw [if_neg hut] at hpe
          obtain ⟨h1, h2⟩ := h.pend u q hu hpe
          rw [if_neg (by rintro rfl; exact hut (hS.disjoint u t q h2 hpo))]
          exact ⟨h1, h2⟩
      · intro u hu
        rw [hpc]
        by_cases hut : u = t
        · rw [if_pos hut]
          have := h.pnodup t ht
          rw [hp] at this; exact this
        · rw [if_neg hut]; exact h.pnodup u hu
      · intro q hq
        rw [hfl] at hq
        by_cases hqp : q = p
        · rw [if_pos hqp] at hq; cases hq
        · rw [if_neg hqp] at hq; exact h.part q hq
      · intro u q r hu hc
        rw [hpc] at hc
        by_cases hut : u = t
        · rw [if_pos hut] at hc; cases hc
        · rw [if_neg hut] at hc; exact h.writing u q r hu hc
      · intro u hu hc
        rw [hpc] at hc
        by_cases hut : u = t
        · rw [if_pos hut] at hc; exact hc.elim
        · rw [if_neg hut] at hc
          obtain ⟨h1, h2⟩ := h.lockp u hu hc
          exact ⟨h1, fun q hq => hfull q (h2 q hq)⟩
      · intro u hu hc
        rw [hpc] at hc
        by_cases hut : u = t
        · rw [if_pos hut] at hc; cases hc
        · rw [if_neg hut] at hc; exact h.lock0 u hu hc
      · intro u r hu hc
        rw [hpc] at hc
        by_cases hut : u = t
        · rw [if_pos hut] at hc; injection hc with h1
          subst h1
          rw [hut]
          refine ⟨hlk, fun q hq => ?_⟩
          rcases hown q hq with hx | hx | hx
          · right; rw [hfl, if_pos hx]
          · exact Or.inl hx
          · exact Or.inr (hfull q hx)
        · rw [if_neg hut] at hc
          obtain ⟨h1, h2⟩ := h.lockl u r hu hc
          exact ⟨h1, fun q hq => (h2 q hq).imp id (hfull q)⟩
      · intro u q r hu hc
        rw [hpc] at hc
        by_cases hut : u = t
        · rw [if_pos hut] at hc; cases hc
        · rw [if_neg hut] at hc
          obtain ⟨h1, h2⟩ := h.lockw u q r hu hc
          exact ⟨h1, fun x hx => (h2 x hx).imp id (Or.imp id (hfull x))⟩
      · intro u hu hc
        rw [hpc] at hc
        by_cases hut : u = t
        · rw [if_pos hut] at hc; cases hc
        · rw [if_neg hut] at hc
          intro q hq
          rw [hfl]
          by_cases hqp : q = p
          · rw [if_pos hqp]; simp
          · rw [if_neg hqp]; exact h.saw u hu hc q hq
      · intro u hu hc
        rw [hpc] at hc
        by_cases hut : u = t
        · rw [if_pos hut] at hc; cases hc
        · rw [if_neg hut] at hc; exact fun q hq => hfull q (h.mkf u hu hc q hq)
      · exact fun hm q hq => hfull q (h.master hm q hq)
    | waiting =>
      simp only [hp] at ha
      by_cases hm : w.mlock = true
      · rw [if_pos hm] at ha; cases ha
      · rw [if_neg hm] at ha; injection ha with ha; rw [← ha]
        exact inv_quiet S w _ t .gotMaster h rfl rfl (fun _ => rfl) rfl (fun _ _ => by rw [hp]; trivial) (by simp) (by simp)
          (by simp) (by simp) (by simp) h.master
    | gotMaster =>
      simp only [hp] at ha
      injection ha with ha; rw [← ha]
      refine inv_quiet S w _ t _ h rfl rfl (fun _ => rfl) rfl (fun _ _ => by rw [hp]; trivial) (by simp) (by simp)
          (by simp) ?_ (by simp) h.master
      intro _ hc
      injection hc with hc
      exact (countFiles_all S w hs).mp (by simpa using hc)
    | sawFiles b =>
      simp only [hp] at ha
      by_cases hc : b = true ∧ countLocks S w = 0
      · rw [if_pos hc] at ha; injection ha with ha; rw [← ha]
        refine inv_quiet S w _ t _ h rfl rfl (fun _ => rfl) rfl (fun _ _ => by rw [hp]; trivial) (by simp) (by simp)
          (by simp) (by simp) ?_ h.master
        intro _ _ p hpn
        have hl := (countLocks_zero S w).mp hc.2
        have hpres := h.saw t ht (by rw [hp, hc.1]) p hpn
        cases hf : w.file p with
        | absent => exact absurd hf hpres
        | partly =>
          obtain ⟨u, hu, _, hlk⟩ := h.part p hf
          rw [hl u hu] at hlk; cases hlk
        | full => rfl
      · rw [if_neg hc] at ha; injection ha with ha; rw [← ha]
        exact inv_quiet S w _ t _ h rfl rfl (fun _ => rfl) rfl (fun _ _ => by rw [hp]; trivial) (by simp) (by simp)
          (by simp) (by simp) (by simp) h.master
    | making =>
      simp only [hp] at ha
      have hfull := h.mkf t ht hp
      rw [if_pos (by rw [List.all_eq_true]; intro p hpm; rw [hfull p (List.mem_range.mp hpm)]; rfl)] at ha
      injection ha with ha; rw [← ha]
      exact inv_quiet S w _ t _ h rfl rfl (fun _ => rfl) rfl (fun _ _ => by rw [hp]; trivial) (by simp) (by simp)
          (by simp) (by simp) (by simp) (fun _ => hfull)
    | closing =>
      simp only [hp] at ha
      injection ha with ha; rw [← ha]
      exact inv_quiet S w _ t _ h rfl rfl (fun _ => rfl) rfl (fun _ _ => by rw [hp]; trivial) (by simp) (by simp)
          (by simp) (by simp) (by simp) h.master
    | done => simp [hp] at ha
    | raised => simp [hp] at ha
    | dead => simp [hp] at ha

theorem inv_run (S : Setup) (hS : Partition S) (hs : S.stray = 0) (acts : List (Nat × Act)) :
    ∀ w w' : World, Inv S w → run S w acts = some w' → Inv S w' := by
  induction acts with
  | nil => intro w w' h hr; simp only [run, Option.some.injEq] at hr; rw [← hr]; exact h
  | cons x rest ih =>
    intro w w' h hr
    obtain ⟨t, a⟩ := x
    simp only [run] at hr
    by_cases ht : t < S.ntask
    · rw [if_pos ht] at hr
      cases ha : act S w t a with
      | none => rw [ha] at hr; simp at hr
      | some w1 => rw [ha] at hr; exact ih w1 w' (inv_act S hS hs w w1 t a ht h ha) hr
    · rw [if_neg ht] at hr; cases hr

/-- The property as one would like it. -/
def C35_spec : Prop :=
  ∀ (S : Setup), Partition S → ∀ (acts : List (Nat × Act)) (w : World), run S World.init acts = some w →
    (w.master = true → ∀ p, p < S.npix → w.file p = .full) ∧
    ((∀ t, t < S.ntask → w.pc t = .done) → 0 < S.ntask → w.master = true)

/-- **C35**, safety: any number of pixel tasks in a fresh directory, any interleaving, any of them killed or timing out at any
point: the master table exists only if the file of every galaxy pixel is complete.  (Missing in the full claim: directories
holding other files that match the pattern, `C35_stray_false`.) -/
theorem C35_safe_partial (S : Setup) (hS : Partition S) (hs : S.stray = 0) (acts : List (Nat × Act)) (w : World)
    (hr : run S World.init acts = some w) :
    (w.master = true → ∀ p, p < S.npix → w.file p = .full) ∧ (∀ t, t < S.ntask → w.pc t ≠ .raised) := by
  refine ⟨(inv_run S hS hs acts _ w (inv_init S hS) hr).master, ?_⟩
  have key : ∀ (acts : List (Nat × Act)) (w w' : World), Inv S w → (∀ t, t < S.ntask → w.pc t ≠ .raised) →
      run S w acts = some w' → ∀ t, t < S.ntask → w'.pc t ≠ .raised := by
    intro acts
    induction acts with
    | nil => intro w w' _ hn hr; simp only [run, Option.some.injEq] at hr; rw [← hr]; exact hn
    | cons x rest ih =>
      intro w w' h hn hr
      obtain ⟨t, a⟩ := x
      simp only [run] at hr
      by_cases ht : t < S.ntask
      · rw [if_pos ht] at hr
        cases ha : act S w t a with
        | none => rw [ha] at hr; simp at hr
        | some w1 =>
          rw [ha] at hr
          refine ih w1 w' (inv_act S hS hs w w1 t a ht h ha) ?_ hr
          intro u hu
          by_cases hut : u = t
          · subst hut
            have h0 := hn u hu
            cases a with
            | kill =>
              unfold act at ha
              cases hp : w.pc u <;> rw [hp] at ha <;> simp at ha <;> rw [← ha] <;> simp [setPc_pc]
            | timeout =>
              unfold act at ha
              cases hp : w.pc u <;> simp only [hp, reduceCtorEq] at ha
              by_cases hm : w.mlock = true
              · rw [if_pos hm] at ha; injection ha with ha; rw [← ha]; simp [setPc_pc]
              · rw [if_neg hm] at ha; cases ha
            | step =>
              unfold act at ha
              cases hp : w.pc u with
              | start =>
                simp only [hp] at ha
                rw [if_neg (by rw [h.lock0 u hu hp]; simp)] at ha
                injection ha with ha; rw [← ha]; simp [setPc_pc]
              | locked r => cases r <;> simp only [hp, Option.some.injEq] at ha <;> rw [← ha] <;> simp [setPc_pc]
              | writing p r => simp only [hp, Option.some.injEq] at ha; rw [← ha]; simp [setPc_pc]
              | waiting =>
                simp only [hp] at ha
                by_cases hm : w.mlock = true
                · rw [if_pos hm] at ha; cases ha
                · rw [if_neg hm] at ha; injection ha with ha; rw [← ha]; simp [setPc_pc]
              | gotMaster => simp only [hp, Option.some.injEq] at ha; rw [← ha]; simp [setPc_pc]
              | sawFiles b =>
                simp only [hp] at ha
                by_cases hc : b = true ∧ countLocks S w = 0
                · rw [if_pos hc] at ha; injection ha with ha; rw [← ha]; simp [setPc_pc]
                · rw [if_neg hc] at ha; injection ha with ha; rw [← ha]; simp [setPc_pc]
              | making =>
                simp only [hp] at ha
                have hfull := h.mkf u hu hp
                rw [if_pos (by rw [List.all_eq_true]; intro p hpm; rw [hfull p (List.mem_range.mp hpm)]; rfl)] at ha
                injection ha with ha; rw [← ha]; simp [setPc_pc]
              | closing => simp only [hp, Option.some.injEq] at ha; rw [← ha]; simp [setPc_pc]
              | done => simp [hp] at ha
              | raised => simp [hp] at ha
              | dead => simp [hp] at ha
          · have : w1.pc u = w.pc u := by
              cases a with
              | kill =>
                unfold act at ha
                cases hp : w.pc t <;> rw [hp] at ha <;> simp at ha <;> rw [← ha] <;> simp [setPc_pc, hut]
              | timeout =>
                unfold act at ha
                cases hp : w.pc t <;> simp only [hp, reduceCtorEq] at ha
                by_cases hm : w.mlock = true
                · rw [if_pos hm] at ha; injection ha with ha; rw [← ha]; simp [setPc_pc, hut]
                · rw [if_neg hm] at ha; cases ha
              | step =>
                unfold act at ha
                cases hp : w.pc t with
                | locked r =>
                  cases r <;> simp only [hp, Option.some.injEq] at ha <;> rw [← ha] <;>
                    simp [setPc_pc, hut, World.setPlock, World.setFile]
                | _ =>
                  simp only [hp] at ha
                  first
                    | (cases ha; done)
                    | (simp only [Option.some.injEq] at ha; rw [← ha]; simp [setPc_pc, hut, World.setFile]; done)
                    | (split_ifs at ha <;> simp only [Option.some.injEq, reduceCtorEq] at ha <;> rw [← ha] <;>
                        simp [setPc_pc, hut, World.setPlock])
            rw [this]; exact hn u hu
      · rw [if_neg ht] at hr; cases hr
  exact key acts _ w (inv_init S hS) (by simp [World.init]) hr

/-! completeness -/

/-- If every task has finished its pixels, the table is there or somebody is still going to check. -/
def Inv2 (S : Setup) (w : World) : Prop :=
  (∀ t, t < S.ntask → past (w.pc t)) → w.master = true ∨ ∃ t, t < S.ntask ∧ checking (w.pc t)

theorem inv2_act (S : Setup) (hS : Partition S) (hs : S.stray = 0) (w w' : World) (t : Nat) (a : Act) (hto : a ≠ .timeout)
    (ht : t < S.ntask) (h : Inv S w) (h2 : Inv2 S w) (ha : act S w t a = some w') : Inv2 S w' := by
  intro hall
  cases a with
  | timeout => exact absurd rfl hto
  | kill =>
    have : w' = w.setPc t .dead := by
      unfold act at ha
      cases hp : w.pc t <;> rw [hp] at ha <;> simp at ha <;> exact ha.symm
    have := hall t ht
    subst w'
    rw [setPc_pc, if_pos rfl] at this
    exact this.elim
  | step =>
    -- when `t` was past before, everybody was
    have before : ∀ c, past (w.pc t) → w'.pc = (w.setPc t c).pc → ∀ u, u < S.ntask → past (w.pc u) := by
      intro c hp he u hu
      by_cases hut : u = t
      · rw [hut]; exact hp
      · have := hall u hu
        rw [he, setPc_pc, if_neg hut] at this; exact this
    have other : ∀ c, past (w.pc t) → ¬ checking (w.pc t) → w'.pc = (w.setPc t c).pc → w'.master = w.master →
        w'.master = true ∨ ∃ u, u < S.ntask ∧ checking (w'.pc u) := by
      intro c hp hn he hm
      rcases h2 (before c hp he) with hx | ⟨u, hu, hx⟩
      · left; rw [hm]; exact hx
      · right
        refine ⟨u, hu, ?_⟩
        rw [he, setPc_pc, if_neg (by rintro rfl; exact hn hx)]; exact hx
    have here : ∀ c, w'.pc = (w.setPc t c).pc → checking c → w'.master = true ∨ ∃ u, u < S.ntask ∧ checking (w'.pc u) := by
      intro c he hc
      exact Or.inr ⟨t, ht, by rw [he, setPc_pc, if_pos rfl]; exact hc⟩
    have notpast : ∀ c, w'.pc = (w.setPc t c).pc → ¬ past c → False := by
      intro c he hc
      have := hall t ht
      rw [he, setPc_pc, if_pos rfl] at this; exact hc this
    unfold act at ha
    cases hp : w.pc t with
    | start =>
      simp only [hp] at ha
      split_ifs at ha <;> injection ha with ha
      · exact (notpast _ (by rw [← ha]) id).elim
      · exact (notpast (.locked (S.owns t)) (by rw [← ha]; rfl) id).elim
    | locked rest =>
      cases rest with
      | nil =>
        simp only [hp] at ha; injection ha with ha
        exact here .waiting (by rw [← ha]; rfl) trivial
      | cons p rest =>
        simp only [hp] at ha; injection ha with ha
        exact (notpast (.writing p rest) (by rw [← ha]; rfl) id).elim
    | writing p rest =>
      simp only [hp] at ha; injection ha with ha
      exact (notpast (.locked rest) (by rw [← ha]; rfl) id).elim
    | waiting =>
      simp only [hp] at ha
      by_cases hm : w.mlock = true
      · rw [if_pos hm] at ha; cases ha
      · rw [if_neg hm] at ha; injection ha with ha
        exact here .gotMaster (by rw [← ha]; rfl) trivial
    | gotMaster =>
      simp only [hp] at ha; injection ha with ha
      refine here _ (by rw [← ha]) ?_
      have hb := before _ (by rw [hp]; trivial) (by rw [← ha])
      show decide (countFiles S w = S.npix) = true
      rw [decide_eq_true_eq, countFiles_all S w hs]
      intro p hpn
      obtain ⟨u, hu, ho⟩ := hS.cover p hpn
      rw [(h.lockp u hu (hb u hu)).2 p ho]; simp
    | sawFiles b =>
      simp only [hp] at ha
      by_cases hc : b = true ∧ countLocks S w = 0
      · rw [if_pos hc] at ha; injection ha with ha
        exact here .making (by rw [← ha]) trivial
      · rw [if_neg hc] at ha; injection ha with ha
        have hb := before .closing (by rw [hp]; trivial) (by rw [← ha])
        have h0 : countLocks S w = 0 := (countLocks_zero S w).mpr fun u hu => (h.lockp u hu (hb u hu)).1
        refine other .closing (by rw [hp]; trivial) ?_ (by rw [← ha]) (by rw [← ha]; rfl)
        rw [hp]
        exact fun hbt => hc ⟨hbt, h0⟩
    | making =>
      simp only [hp] at ha
      split_ifs at ha <;> injection ha with ha
      · left; rw [← ha]; rfl
      · exact (notpast _ (by rw [← ha]) id).elim
    | closing =>
      simp only [hp] at ha; injection ha with ha
      exact other .done (by rw [hp]; trivial) (by rw [hp]; exact id) (by rw [← ha]; rfl) (by rw [← ha]; rfl)
    | done => simp [hp] at ha
    | raised => simp [hp] at ha
    | dead => simp [hp] at ha

/-- **C35**, completeness: if no task gave up waiting for the master lock and all of them have finished, the master table has been
written.  (Missing in the full claim: give-ups, `C35_timeout_false`, and other files matching the pattern.) -/
theorem C35_complete_partial (S : Setup) (hS : Partition S) (hs : S.stray = 0) (h0 : 0 < S.ntask) (acts : List (Nat × Act))
    (hto : ∀ x ∈ acts, x.2 ≠ .timeout) (w : World) (hr : run S World.init acts = some w)
    (hdone : ∀ t, t < S.ntask → w.pc t = .done) : w.master = true ∧ ∀ p, p < S.npix → w.file p = .full := by
  have key : ∀ (acts : List (Nat × Act)), (∀ x ∈ acts, x.2 ≠ .timeout) → ∀ w w' : World, Inv S w → Inv2 S w →
      run S w acts = some w' → Inv2 S w' := by
    intro acts
    induction acts with
    | nil => intro _ w w' _ h2 hr; simp only [run, Option.some.injEq] at hr; rw [← hr]; exact h2
    | cons x rest ih =>
      intro hto w w' h h2 hr
      obtain ⟨t, a⟩ := x
      simp only [run] at hr
      by_cases ht : t < S.ntask
      · rw [if_pos ht] at hr
        cases ha : act S w t a with
        | none => rw [ha] at hr; simp at hr
        | some w1 =>
          rw [ha] at hr
          exact ih (fun y hy => hto y (by simp [hy])) w1 w' (inv_act S hS hs w w1 t a ht h ha)
            (inv2_act S hS hs w w1 t a (hto (t, a) (by simp)) ht h h2 ha) hr
      · rw [if_neg ht] at hr; cases hr
  have h2 := key acts hto World.init w (inv_init S hS) (fun hall => (hall 0 h0).elim) hr
  have hm : w.master = true := by
    rcases h2 (fun t ht => by rw [hdone t ht]; trivial) with hm | ⟨t, ht, hc⟩
    · exact hm
    · rw [hdone t ht] at hc; exact hc.elim
  exact ⟨hm, (inv_run S hS hs acts _ w (inv_init S hS) hr).master hm⟩

/-- two tasks, three galaxy pixels -/
def S2 : Setup := { npix := 3, ntask := 2, owns := fun t => if t = 0 then [0, 2] else if t = 1 then [1] else [], stray := 0 }

theorem S2_partition (k : Nat) : Partition { S2 with stray := k } := by
  constructor
  · intro p hp
    have : p = 0 ∨ p = 1 ∨ p = 2 := by simp [S2] at hp; omega
    rcases this with rfl | rfl | rfl
    · exact ⟨0, by simp [S2], by simp [S2]⟩
    · exact ⟨1, by simp [S2], by simp [S2]⟩
    · exact ⟨0, by simp [S2], by simp [S2]⟩
  · intro t u p ht hu
    simp only [S2] at ht hu
    split_ifs at ht hu with h1 h2 h3 h4 h5 <;> simp at ht hu <;> omega
  · intro t
    simp only [S2]
    split_ifs <;> decide

def steps (t n : Nat) : List (Nat × Act) := List.replicate n (t, .step)

/-- Task 0 is done first and finds the lock of task 1; task 1 writes the table. -/
def goodActs : List (Nat × Act) :=
  steps 0 3 ++ steps 1 2 ++ steps 0 4 ++ steps 1 1 ++ steps 0 3 ++ steps 1 6

def view (w : World) : List FS × List PC × Bool × Bool := ([w.file 0, w.file 1, w.file 2], [w.pc 0, w.pc 1], w.mlock, w.master)

/-- A run that meets the hypotheses of `C35_safe_partial` and `C35_complete_partial`. -/
example : Partition S2 ∧ (∀ x ∈ goodActs, x.2 ≠ .timeout) ∧
    (run S2 World.init goodActs).map view = some ([.full, .full, .full], [.done, .done], false, true) :=
  ⟨S2_partition 0, by decide +kernel, by decide +kernel⟩

/-- ... and one with a task killed in the middle of a write: no table, however the others go on. -/
example : (run S2 World.init (steps 0 3 ++ steps 1 2 ++ [(1, .kill)] ++ steps 0 7)).map view =
    some ([.full, .partly, .full], [.done, .dead], false, false) := by decide +kernel

/-- Task 0 counts the files before task 1 has finished; task 1 then gives up waiting for the lock task 0 still holds. -/
def timeoutActs : List (Nat × Act) := steps 0 8 ++ steps 1 4 ++ [(1, .timeout)] ++ steps 0 2

/-- **C35 is false** when a task gives up on the master lock: all tasks end normally, all files are complete, and the master table
is never written. -/
theorem C35_timeout_false : ¬ C35_spec := by
  intro h
  have hv : (run S2 World.init timeoutActs).map view = some ([.full, .full, .full], [.done, .done], false, false) := by
    decide +kernel
  cases hw : run S2 World.init timeoutActs with
  | none => rw [hw] at hv; simp at hv
  | some w =>
    rw [hw] at hv
    simp only [Option.map_some, Option.some.injEq, view, Prod.mk.injEq, List.cons.injEq, and_true] at hv
    have := (h S2 (S2_partition 0) _ w hw).2 (by
      intro t ht
      have : t = 0 ∨ t = 1 := by simp [S2] at ht; omega
      rcases this with rfl | rfl
      · exact hv.2.1.1
      · exact hv.2.1.2) (by decide)
    rw [hv.2.2.2] at this; cases this

/-- **C35 is false** when a file left from another pixelisation matches the pattern: (a) nobody times out, all tasks end, the
table is never written; (b) the table can be written while a file is still being written. -/
theorem C35_stray_false :
    (run { S2 with stray := 1 } World.init (steps 0 3 ++ steps 1 2 ++ steps 0 4 ++ steps 1 1 ++ steps 0 3 ++ steps 1 5)).map view =
      some ([.full, .full, .full], [.done, .done], false, false) ∧
    (run { S2 with stray := 1 } World.init (steps 0 9 ++ steps 1 2 ++ steps 0 1)).map view =
      some ([.full, .partly, .full], [.closing, .writing 1 []], true, true) := by
  constructor <;> decide +kernel

/-! ## C36 -/

/-- What the outputs should be, as functions of the inputs. -/
structure Outputs (C M : Type) where
  fp : C
  lk : C
  pc : C
  mem : M

/-- The runs generate these outputs, each from the one before. -/
structure Generates {C M : Type} (R : Runs C M) (o : Outputs C M) : Prop where
  fp : R.fp = some o.fp
  lk : R.lk o.fp = some o.lk
  pc : R.pc o.lk = some (o.pc, some o.mem)

def Disk.empty {C M : Type} : Disk C M := ⟨none, none, none, none⟩

/-- Disks reachable by calls of the task, each possibly cut off after any of its file operations. -/
inductive Reach {C M : Type} (R : Runs C M) : Disk C M → Prop
  | init : Reach R Disk.empty
  | call (d : Disk C M) (k : Nat) : Reach R d →
      Reach R (((pixelTask R true true d).trace.take k).getLast?.getD d)

/-- The disks of a history without half-written files. -/
def Good {C M : Type} (o : Outputs C M) (d : Disk C M) : Prop :=
  d = ⟨none, none, none, none⟩ ∨ d = ⟨some (.full o.fp), none, none, none⟩ ∨
  d = ⟨some (.full o.fp), some (.full o.lk), none, none⟩ ∨
  d = ⟨some (.full o.fp), some (.full o.lk), some (.full o.pc), none⟩ ∨
  d = ⟨some (.full o.fp), some (.full o.lk), some (.full o.pc), some (.full o.mem)⟩

variable {C M : Type}

theorem getLast?_getD_mem {β : Type} (l : List β) (d : β) : l.getLast?.getD d = d ∨ l.getLast?.getD d ∈ l := by
  cases h : l.getLast? with
  | none => left; rfl
  | some x => right; exact List.mem_of_getLast? h

theorem good_trace (R : Runs C M) (o : Outputs C M) (hg : Generates R o) (d : Disk C M) (h : Good o d) :
    ∀ d' ∈ (pixelTask R true true d).trace, Good o d' := by
  have h1 := hg.fp; have h2 := hg.lk; have h3 := hg.pc
  rcases h with rfl | rfl | rfl | rfl | rfl <;> intro d' hd' <;>
    simp [pixelTask, stage1, stage2, stage3, readCat, outputBoth, h1, h2, h3] at hd'
  · rcases hd' with rfl | rfl | rfl | rfl <;> simp [Good]
  · rcases hd' with rfl | rfl | rfl <;> simp [Good]
  · rcases hd' with rfl | rfl <;> simp [Good]

theorem reach_good (R : Runs C M) (o : Outputs C M) (hg : Generates R o) (d : Disk C M) (h : Reach R d) : Good o d := by
  induction h with
  | init => left; rfl
  | call d k _ ih =>
    rcases getLast?_getD_mem ((pixelTask R true true d).trace.take k) d with hx | hx
    · rw [hx]; exact ih
    · exact good_trace R o hg d ih _ (List.mem_of_mem_take hx)

/-- The property as one would like it: after any history of interrupted calls, one complete call leaves all four outputs. -/
def C36_spec : Prop :=
  ∀ (C M : Type) (R : Runs C M) (o : Outputs C M), Generates R o → ∀ d : Disk C M, Reach R d →
    (pixelTask R true true d).err = none ∧
    after d (pixelTask R true true d) = ⟨some (.full o.fp), some (.full o.lk), some (.full o.pc), some (.full o.mem)⟩

/-- **C36**: after any history of calls cut off between file operations (each file written as a whole), the next call raises
nothing, runs exactly the stages whose catalog is missing, in order, and leaves the three catalogs an uninterrupted call would have
written; a further call runs nothing and changes nothing.  An uninterrupted call also writes the members.  (Missing: the members
after a crash between the last two writes, `C36_members_false`; files cut short, `C36_torn_false`.) -/
theorem C36_resume_partial (R : Runs C M) (o : Outputs C M) (hg : Generates R o) (d : Disk C M) (hd : Reach R d) :
    let c := pixelTask R true true d
    c.err = none ∧
    c.ran = [Stage.firstpass, .likelihoods, .percolation].filter (fun s => match s with
      | .firstpass => d.fp.isNone | .likelihoods => d.lk.isNone | .percolation => d.pc.isNone) ∧
    (after d c).fp = some (.full o.fp) ∧ (after d c).lk = some (.full o.lk) ∧ (after d c).pc = some (.full o.pc) ∧
    (d.pc = none → (after d c).mem = some (.full o.mem)) ∧
    pixelTask R true true (after d c) = ⟨[], [], none⟩ := by
  have h1 := hg.fp; have h2 := hg.lk; have h3 := hg.pc
  rcases reach_good R o hg d hd with rfl | rfl | rfl | rfl | rfl <;>
    simp [pixelTask, stage1, stage2, stage3, readCat, outputBoth, after, h1, h2, h3]

/-- The two checks come first and leave everything alone. -/
theorem C36_checks (R : Runs C M) (pixelized filesOk : Bool) (d : Disk C M) (h : pixelized = false ∨ filesOk = false) :
    pixelTask R pixelized filesOk d = ⟨[], [], some .valueError⟩ := by
  unfold pixelTask
  rcases h with h | h <;> simp [h]

/-- A concrete run. -/
def demoR : Runs Nat Nat := { fp := some 5, lk := fun c => some (c + 1), pc := fun c => some (10 * c, some (c + 7)) }
def demoO : Outputs Nat Nat := ⟨5, 6, 60, 13⟩
theorem demo_generates : Generates demoR demoO := ⟨rfl, rfl, rfl⟩

/-- A crash after the first two files: the next call only percolates. -/
example : Reach demoR ⟨some (.full 5), some (.full 6), none, none⟩ ∧
    (pixelTask demoR true true ⟨some (.full 5), some (.full 6), none, none⟩).ran = [.percolation] :=
  ⟨Reach.call Disk.empty 2 Reach.init, rfl⟩

/-- **C36 is false** of the members: a crash after the percolation catalog and before the members file leaves a disk on which
every later call does nothing, so the members are never written. -/
theorem C36_members_false : ¬ C36_spec := by
  intro h
  have hr : Reach demoR ⟨some (.full 5), some (.full 6), some (.full 60), none⟩ := Reach.call Disk.empty 3 Reach.init
  have := (h Nat Nat demoR demoO demo_generates _ hr).2
  simp [pixelTask, stage1, stage2, stage3, after] at this

/-- ... and for any runs and any disk with a percolation catalog and a readable history: no call ever adds the members. -/
theorem C36_members_lost (R : Runs C M) (f l p : File C) :
    pixelTask R true true ⟨some f, some l, some p, none⟩ = ⟨[], [], none⟩ := rfl

/-- A catalog cut short by a crash counts as done: the stage is not run again and the next one fails on it, in every later call. -/
theorem C36_torn_false (R : Runs C M) (m : Option (File M)) :
    pixelTask R true true ⟨some .torn, none, none, m⟩ = ⟨[.likelihoods], [], some .ioError⟩ ∧
    after ⟨some .torn, none, none, m⟩ (pixelTask R true true ⟨some .torn, none, none, m⟩) = ⟨some .torn, none, none, m⟩ :=
  ⟨rfl, rfl⟩

/-- A stage that finds no clusters writes nothing, and the next one fails on the missing file. -/
theorem C36_empty (R : Runs C M) (h : R.fp = none) (m : Option (File M)) :
    pixelTask R true true ⟨none, none, none, m⟩ = ⟨[.firstpass, .likelihoods], [], some .ioError⟩ := by
  simp [pixelTask, stage1, stage2, readCat, h]

/-! ## C44 -/

theorem perProc_le_max (ngal nproc m : Nat) : perProc ngal nproc m ≤ m := Nat.min_le_right _ _

/-- The chunk is empty exactly when there are fewer galaxies than cores (or the maximum is zero). -/
theorem perProc_zero (ngal nproc m : Nat) (hn : 1 ≤ nproc) : perProc ngal nproc m = 0 ↔ ngal < nproc ∨ m = 0 := by
  have hd : (0 : ℚ) < (nproc : ℚ) - 1 / 10 := by
    have : (1 : ℚ) ≤ nproc := by exact_mod_cast hn
    linarith
  unfold perProc
  rw [Nat.min_eq_zero_iff]
  refine or_congr ?_ Iff.rfl
  rw [Int.toNat_eq_zero]
  constructor
  · intro h
    by_contra hc
    have hge : (nproc : ℚ) ≤ ngal := by exact_mod_cast Nat.le_of_not_lt hc
    have : (1 : ℤ) ≤ ⌊(ngal : ℚ) / ((nproc : ℚ) - 1 / 10)⌋ := by
      rw [Int.le_floor, Int.cast_one, le_div_iff₀ hd]; linarith
    omega
  · intro h
    have hle : (ngal : ℚ) + 1 ≤ nproc := by exact_mod_cast h
    have : ⌊(ngal : ℚ) / ((nproc : ℚ) - 1 / 10)⌋ < 1 := by
      rw [Int.floor_lt, Int.cast_one, div_lt_one hd]; linarith
    omega

theorem store_append {β : Type} (a b : List ((Nat × Nat) × List β)) : ∀ out : List β, store out (a ++ b) = store (store out a) b := by
  induction a with
  | nil => intro out; rfl
  | cons x a ih => intro out; obtain ⟨r, v⟩ := x; exact ih _

/-- Storing the first `k` chunks of size `n`. -/
theorem store_chunks {γ β : Type} (f : γ → β) (zero : β) (gals : List γ) (n : Nat) (k : Nat) :
    store (List.replicate gals.length zero) (((List.range k).map fun k => (k * n, min (k * n + n) gals.length)).map
      fun r => (r, ((gals.drop r.1).take (r.2 - r.1)).map f)) =
    (gals.take (k * n)).map f ++ List.replicate (gals.length - k * n) zero := by
  induction k with
  | zero => simp [store]
  | succ k ih =>
    rw [List.range_succ, List.map_append, List.map_append, store_append, ih]
    simp only [List.map_cons, List.map_nil, store]
    by_cases hk : k * n ≤ gals.length
    · have hl : ((gals.take (k * n)).map f).length = k * n := by simp [hk]
      rw [List.take_append_of_le_length (by rw [hl]), List.take_of_length_le (by rw [hl])]
      have hge : k * n ≤ min (k * n + n) gals.length := by omega
      rw [List.drop_append, List.drop_eq_nil_of_le (as := (gals.take (k * n)).map f) (by rw [hl]; exact hge), List.nil_append, hl,
        List.drop_replicate]
      have e1 : gals.length - k * n - (min (k * n + n) gals.length - k * n) = gals.length - (k + 1) * n := by
        rw [Nat.add_mul, Nat.one_mul]; omega
      rw [e1]
      congr 1
      rw [← List.map_append]
      congr 1
      have e2 : (k + 1) * n = k * n + n := by rw [Nat.add_mul, Nat.one_mul]
      rw [e2, List.take_add]
      congr 1
      have : min (k * n + n) gals.length - k * n = min n (gals.drop (k * n)).length := by rw [List.length_drop]; omega
      rw [this]
      by_cases hx : n ≤ (gals.drop (k * n)).length
      · rw [Nat.min_eq_left hx]
      · rw [Nat.min_eq_right (by omega), List.take_of_length_le (Nat.le_refl _), List.take_of_length_le (by omega)]
    · have e1 : gals.drop (k * n) = [] := List.drop_eq_nil_of_le (by omega)
      have e2 : gals.length - k * n = 0 := by omega
      have e3 : (k + 1) * n = k * n + n := by rw [Nat.add_mul, Nat.one_mul]
      have e4 : gals.length - (k + 1) * n = 0 := by omega
      have e5 : gals.take (k * n) = gals := List.take_of_length_le (by omega)
      have e6 : gals.take ((k + 1) * n) = gals := List.take_of_length_le (by omega)
      have e7 : min (k * n + n) gals.length = gals.length := by omega
      rw [e1, e2, e4, e5, e6, e7]
      simp only [List.replicate_zero, List.append_nil, List.take_nil, List.map_nil]
      rw [List.take_of_length_le (by simp; omega), List.drop_eq_nil_of_le (by simp), List.append_nil]

/-- **C44**: with any positive chunk size the result is row by row the per-galaxy computation, whatever the number of cores, the
chunk size and the maximum; the run over a file fails exactly when the automatic chunk is empty, i.e. fewer galaxies than cores.
(Missing in the full claim: exactly that case, `C44_false`.) -/
theorem C44_partial {γ β : Type} (f : γ → β) (zero : β) (gals : List γ) (nproc maxperproc : Nat) (hp : 1 ≤ nproc) (hm : 1 ≤ maxperproc) :
    runCatalog f zero gals nproc none maxperproc =
      if gals.length < nproc then .error .zeroDivision else .ok (gals.map f) := by
  unfold runCatalog ranges
  simp only [Option.getD_none]
  by_cases h : gals.length < nproc
  · rw [if_pos h, if_pos ((perProc_zero _ _ _ hp).mpr (Or.inl h))]
  · have hn : perProc gals.length nproc maxperproc ≠ 0 := by
      intro he
      rcases (perProc_zero _ _ _ hp).mp he with hx | hx
      · exact h hx
      · omega
    rw [if_neg h, if_neg hn]
    show Except.ok _ = Except.ok _
    rw [store_chunks f zero gals (perProc gals.length nproc maxperproc) _]
    generalize perProc gals.length nproc maxperproc = n at hn ⊢
    have hge : gals.length ≤ (gals.length + n - 1) / n * n := by
      have h1 := Nat.div_add_mod (gals.length + n - 1) n
      have h2 := Nat.mod_lt (gals.length + n - 1) (Nat.pos_of_ne_zero hn)
      rw [Nat.mul_comm] at h1
      omega
    rw [List.take_of_length_le hge, Nat.sub_eq_zero_of_le hge, List.replicate_zero, List.append_nil]

/-- With an explicit chunk size. -/
theorem C44_nperproc {γ β : Type} (f : γ → β) (zero : β) (gals : List γ) (nproc maxperproc n : Nat) (hn : n ≠ 0) :
    runCatalog f zero gals nproc (some n) maxperproc = .ok (gals.map f) := by
  unfold runCatalog ranges
  simp only [Option.getD_some]
  rw [if_neg hn]
  show Except.ok _ = Except.ok _
  rw [store_chunks f zero gals n _]
  have hge : gals.length ≤ (gals.length + n - 1) / n * n := by
    have h1 := Nat.div_add_mod (gals.length + n - 1) n
    have h2 := Nat.mod_lt (gals.length + n - 1) (Nat.pos_of_ne_zero hn)
    rw [Nat.mul_comm] at h1
    omega
  rw [List.take_of_length_le hge, Nat.sub_eq_zero_of_le hge, List.replicate_zero, List.append_nil]

/-- The chunks: each galaxy index is in exactly one of them. -/
theorem C44_ranges (ngal n : Nat) (rs : List (Nat × Nat)) (h : ranges ngal n = .ok rs) (i : Nat) :
    (rs.filter fun r => decide (r.1 ≤ i ∧ i < r.2)).length = if i < ngal then 1 else 0 := by
  unfold ranges at h
  by_cases hn : n = 0
  · rw [if_pos hn] at h; cases h
  · rw [if_neg hn] at h
    injection h with h
    rw [← h, List.filter_map, List.length_map]
    have hpos := Nat.pos_of_ne_zero hn
    have hiff : ∀ k, ((fun r : Nat × Nat => decide (r.1 ≤ i ∧ i < r.2)) ∘ fun k => (k * n, min (k * n + n) ngal)) k =
        (decide (k = i / n) && decide (i < ngal)) := by
      intro k
      have : (k = i / n) ↔ k * n ≤ i ∧ i < k * n + n := by
        constructor
        · rintro rfl
          have h1 := Nat.div_add_mod i n
          have h2 := Nat.mod_lt i hpos
          rw [Nat.mul_comm] at h1
          omega
        · rintro ⟨h1, h2⟩
          symm
          exact Nat.div_eq_of_lt_le (by omega) (by rw [Nat.add_mul, Nat.one_mul]; omega)
      simp only [Function.comp]
      rw [Bool.eq_iff_iff, Bool.and_eq_true, decide_eq_true_eq, decide_eq_true_eq, decide_eq_true_eq, this]
      omega
    rw [List.filter_congr (fun k _ => hiff k)]
    by_cases hi : i < ngal
    · rw [if_pos hi]
      simp only [hi, decide_true, Bool.and_true]
      rw [← List.countP_eq_length_filter]
      have hc : List.countP (fun k => decide (k = i / n)) (List.range ((ngal + n - 1) / n)) =
          List.count (i / n) (List.range ((ngal + n - 1) / n)) := by
        rw [List.count]; congr 1
      rw [hc]
      refine List.count_eq_one_of_mem List.nodup_range ?_
      rw [List.mem_range, Nat.div_lt_iff_lt_mul hpos]
      have h1 := Nat.div_add_mod (ngal + n - 1) n
      have h2 := Nat.mod_lt (ngal + n - 1) hpos
      rw [Nat.mul_comm] at h1
      omega
    · rw [if_neg hi]
      simp [hi]

/-- The property as one would like it. -/
def C44_spec : Prop :=
  ∀ (γ β : Type) (f : γ → β) (zero : β) (gals : List γ) (nproc maxperproc : Nat), 1 ≤ nproc → 1 ≤ maxperproc →
    runCatalog f zero gals nproc none maxperproc = .ok (gals.map f)

/-- **C44 is false** for a file with fewer galaxies than cores. -/
theorem C44_false : ¬ C44_spec := by
  intro h
  have h1 := h Nat Nat id 0 [7] 2 500000 (by omega) (by omega)
  rw [C44_partial id 0 [7] 2 500000 (by omega) (by omega)] at h1
  simp at h1

/-- Ten galaxies on four cores: two galaxies per chunk. -/
example : perProc 10 4 500000 = 2 ∧ ranges 10 3 = .ok [(0, 3), (3, 6), (6, 9), (9, 10)] := by
  constructor
  · unfold perProc
    have : ⌊((10 : ℕ) : ℚ) / (((4 : ℕ) : ℚ) - 1 / 10)⌋ = 2 := by rw [Int.floor_eq_iff]; norm_num
    rw [this]; rfl
  · rfl

/-! ## C46 -/

theorem fillTable_spec {N : Type} (gt : GalTable) (rows : N → Option Nat) (l : List (Nat × N)) :
    ∀ (zt zt' : ZTable N), (l.map (·.1)).Nodup → zt.filenames.length = gt.ngals.length → zt.ngals.length = gt.ngals.length →
      fillTable gt rows zt l = .ok zt' →
      zt'.hpix = zt.hpix ∧ zt'.filenames.length = gt.ngals.length ∧ zt'.ngals.length = gt.ngals.length ∧
      (∀ i f, (i, f) ∈ l → rows f = gt.ngals[i]? ∧ i < gt.ngals.length ∧ zt'.filenames[i]? = some (some f) ∧
        zt'.ngals[i]? = gt.ngals[i]?) ∧
      (∀ i, i ∉ l.map (·.1) → zt'.filenames[i]? = zt.filenames[i]? ∧ zt'.ngals[i]? = zt.ngals[i]?) := by
  induction l with
  | nil =>
    intro zt zt' _ h1 h2 h
    simp only [fillTable, Except.ok.injEq] at h
    subst h
    exact ⟨rfl, h1, h2, by simp, fun _ _ => ⟨rfl, rfl⟩⟩
  | cons x l ih =>
    intro zt zt' hnd h1 h2 h
    obtain ⟨i, f⟩ := x
    simp only [List.map_cons, List.nodup_cons] at hnd
    simp only [fillTable] at h
    cases hr : rows f with
    | none => rw [hr] at h; cases h
    | some r =>
      simp only [hr] at h
      cases hg : gt.ngals[i]? with
      | none => rw [hg] at h; cases h
      | some n =>
        simp only [hg] at h
        by_cases hrn : r ≠ n
        · rw [if_pos hrn] at h; cases h
        · rw [if_neg hrn] at h
          have hrn : r = n := not_not.mp hrn
          have hi : i < gt.ngals.length := by
            rw [List.getElem?_eq_some_iff] at hg; exact hg.1
          obtain ⟨g1, g2, g3, g4, g5⟩ := ih _ zt' hnd.2 (by simpa using h1) (by simpa using h2) h
          refine ⟨g1, g2, g3, ?_, ?_⟩
          · intro j k hjk
            rcases List.mem_cons.mp hjk with e | hm
            · injection e with e1 e2
              subst e1; subst e2
              obtain ⟨g6, g7⟩ := g5 j hnd.1
              refine ⟨by rw [hr, hg, hrn], hi, ?_, ?_⟩
              · rw [g6, List.getElem?_set_self (by rw [h1]; exact hi)]
              · rw [g7, List.getElem?_set_self (by rw [h2]; exact hi), hg]
            · exact g4 j k hm
          · intro j hj
            simp only [List.map_cons, List.mem_cons, not_or] at hj
            obtain ⟨g6, g7⟩ := g5 j hj.2
            rw [g6, g7, List.getElem?_set_ne (Ne.symm hj.1), List.getElem?_set_ne (Ne.symm hj.1)]
            exact ⟨rfl, rfl⟩

/-- **C46**: if the table is made from files for distinct rows of the galaxy table, it has the rows of the galaxy table in the
same order; every listed row names its file, and that file has as many rows as the galaxy table says the pixel has galaxies; every
other row is empty.  -/
theorem C46_lines_up {N : Type} (gt : GalTable) (hlen : gt.hpix.length = gt.ngals.length) (rows : N → Option Nat)
    (l : List (Nat × N)) (hnd : (l.map (·.1)).Nodup) (zt : ZTable N) (h : makeTable gt rows l = .ok zt) :
    zt.hpix = gt.hpix ∧ zt.ngals.length = gt.ngals.length ∧ zt.filenames.length = gt.ngals.length ∧
    (∀ i f, (i, f) ∈ l → zt.filenames[i]? = some (some f) ∧ zt.ngals[i]? = gt.ngals[i]? ∧ rows f = zt.ngals[i]?) ∧
    (∀ i, i < gt.ngals.length → i ∉ l.map (·.1) → zt.filenames[i]? = some none ∧ zt.ngals[i]? = some 0) := by
  obtain ⟨g1, g2, g3, g4, g5⟩ := fillTable_spec gt rows l _ zt hnd (by simp [hlen]) (by simp) h
  refine ⟨g1, g3, g2, ?_, ?_⟩
  · intro i f hif
    obtain ⟨a, _, c, d⟩ := g4 i f hif
    exact ⟨c, d, by rw [d]; exact a⟩
  · intro i hi hn
    obtain ⟨a, b⟩ := g5 i hn
    rw [a, b]
    simp [hi, hlen]

/-- ... and it is made exactly when every listed file exists with the right number of rows. -/
theorem C46_made_iff {N : Type} (gt : GalTable) (rows : N → Option Nat) (l : List (Nat × N)) :
    (∃ zt, makeTable gt rows l = .ok zt) ↔ ∀ i f, (i, f) ∈ l → ∃ n, rows f = some n ∧ gt.ngals[i]? = some n := by
  unfold makeTable
  generalize ({ hpix := gt.hpix, ngals := gt.ngals.map fun _ => 0, filenames := gt.hpix.map fun _ => none } : ZTable N) = z0
  induction l generalizing z0 with
  | nil => simp [fillTable]
  | cons x l ih =>
    obtain ⟨i, f⟩ := x
    simp only [fillTable]
    cases hr : rows f with
    | none =>
      simp only [reduceCtorEq, exists_false, false_iff]
      intro hall
      obtain ⟨n, hn, _⟩ := hall i f (by simp)
      rw [hr] at hn; cases hn
    | some r =>
      cases hg : gt.ngals[i]? with
      | none =>
        simp only [reduceCtorEq, exists_false, false_iff]
        intro hall
        obtain ⟨n, _, hn⟩ := hall i f (by simp)
        rw [hg] at hn; cases hn
      | some n =>
        simp only
        by_cases hrn : r ≠ n
        · rw [if_pos hrn]
          simp only [reduceCtorEq, exists_false, false_iff]
          intro hall
          obtain ⟨m, h1, h2⟩ := hall i f (by simp)
          rw [hr] at h1; rw [hg] at h2
          injection h1 with h1; injection h2 with h2
          exact hrn (h1.trans h2.symm)
        · rw [if_neg hrn, ih]
          have hrn : r = n := not_not.mp hrn
          constructor
          · intro hall j k hjk
            rcases List.mem_cons.mp hjk with e | hm
            · injection e with e1 e2
              subst e1; subst e2
              exact ⟨n, by rw [hr, hrn], hg⟩
            · exact hall j k hm
          · intro hall j k hm
            exact hall j k (by simp [hm])

/-- The table of the last pixel task: every row of the galaxy table, in order, with the file of its own pixel. -/
theorem C46_task_table {N : Type} (name : Nat → N) (gt : GalTable) (hlen : gt.hpix.length = gt.ngals.length) (rows : N → Option Nat)
    (zt : ZTable N) (h : makeTable gt rows (taskList name gt) = .ok zt) :
    zt.hpix = gt.hpix ∧ zt.ngals = gt.ngals ∧ zt.filenames = gt.hpix.map (fun p => some (name p)) ∧
    gt.hpix.map (fun p => rows (name p)) = gt.ngals.map some := by
  have hmem : ∀ i p, gt.hpix[i]? = some p → (i, name p) ∈ taskList name gt := by
    intro i p hp
    unfold taskList
    rw [List.mem_filterMap]
    refine ⟨i, ?_, by rw [hp]; rfl⟩
    rw [List.mem_range]
    rw [List.getElem?_eq_some_iff] at hp; exact hp.1
  have hfst : (taskList name gt).map (·.1) = List.range gt.hpix.length := by
    unfold taskList
    rw [List.map_filterMap]
    have : ∀ i ∈ List.range gt.hpix.length, Option.map (·.1) ((gt.hpix[i]?).map fun p => (i, name p)) = some i := by
      intro i hi
      rw [List.mem_range] at hi
      rw [List.getElem?_eq_getElem hi]; rfl
    rw [List.filterMap_congr this]; simp
  obtain ⟨g1, g2, g3, g4, _⟩ := C46_lines_up gt hlen rows _ (by rw [hfst]; exact List.nodup_range) zt h
  refine ⟨g1, ?_, ?_, ?_⟩
  · apply List.ext_getElem?
    intro i
    by_cases hi : i < gt.hpix.length
    · exact (g4 i _ (hmem i _ (List.getElem?_eq_getElem hi))).2.1
    · rw [List.getElem?_eq_none (by omega), List.getElem?_eq_none (by omega)]
  · apply List.ext_getElem?
    intro i
    by_cases hi : i < gt.hpix.length
    · rw [(g4 i _ (hmem i _ (List.getElem?_eq_getElem hi))).1, List.getElem?_map, List.getElem?_eq_getElem hi]; rfl
    · rw [List.getElem?_eq_none (by omega), List.getElem?_eq_none (by rw [List.length_map]; omega)]
  · apply List.ext_getElem?
    intro i
    rw [List.getElem?_map, List.getElem?_map]
    by_cases hi : i < gt.hpix.length
    · obtain ⟨_, h2, h3⟩ := g4 i _ (hmem i _ (List.getElem?_eq_getElem hi))
      rw [List.getElem?_eq_getElem hi]
      simp only [Option.map_some]
      rw [h3, h2, List.getElem?_eq_getElem (by omega)]; rfl
    · rw [List.getElem?_eq_none (by omega), List.getElem?_eq_none (by omega)]; rfl

/-- Two of three pixels done; and the whole table. -/
def gt3 : GalTable := { hpix := [40, 41, 45], ngals := [5, 0, 7] }
example : makeTable gt3 (fun f => if f = 45 then some 7 else if f = 40 then some 5 else none) [(2, 45), (0, 40)] =
    .ok { hpix := [40, 41, 45], ngals := [5, 0, 7], filenames := [some 40, none, some 45] } := by rfl
example : makeTable gt3 (fun f => if f = 45 then some 7 else if f = 40 then some 5 else if f = 41 then some 0 else none)
    (taskList id gt3) = .ok { hpix := [40, 41, 45], ngals := [5, 0, 7], filenames := [some 40, some 41, some 45] } := by rfl

end Redmapper.PixelTasks
