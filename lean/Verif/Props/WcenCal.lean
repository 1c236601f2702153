/-
Properties of the calibration of the centering model (C179-C186). The model is Model/WcenCal.lean.
-/
import Mathlib.Tactic.Linarith
import Mathlib.Tactic.FieldSimp
import Mathlib.Tactic.Positivity
import Mathlib.Tactic.NormNum
import Mathlib.Tactic.Ring
import Mathlib.Algebra.Order.BigOperators.Group.List
import Verif.Model.WcenCal
import Verif.Props.Finders
import Verif.Props.Zlambda

set_option linter.unusedSectionVars false

namespace Redmapper.WcenCal

variable {N : Type}

/-! ## Specification -/

/-- The normal distribution. -/
noncomputable def normal (m s x : ℝ) : ℝ := Real.exp (-((x - m) ^ 2 / (2 * s ^ 2))) / (s * Real.sqrt (2 * Real.pi))

/-- The clusters the calibration may use. -/
def Wanted (C : Ctx N) (c : Clu) : Prop :=
  C.minlam < c.lam / c.scaleval ∧ c.lam / c.scaleval < C.maxlam ∧ 0 < c.w ∧ C.z0 < c.z ∧ c.z < C.z1 ∧ c.maskfrac < C.maxMask

/-- The wanted clusters of a catalog. -/
noncomputable def wantedOf (C : Ctx N) (l : List Clu) : List Clu := l.filter fun c => @decide (Wanted C c) (Classical.dec _)

/-- The width for a cluster: Poisson errors go with the square root of the scaled richness. -/
noncomputable def widthAt (C : Ctx N) (s : ℝ) (c : Clu) : ℝ := s / Real.sqrt ((c.lam / c.scaleval) / C.pivot)

/-- Likelihood of the connectivity of one population. -/
noncomputable def popLike (C : Ctx N) (cs : List Clu) (m s : ℝ) : ℝ :=
  (cs.map fun c => normal m (widthAt C s c) (Real.log c.w)).prod

/-- Density of the connectivity of a cluster center: central, satellite or foreground. -/
noncomputable def mixDens (C : Ctx N) (fg sat : ℝ × ℝ) (m s : ℝ) (c : Clu) : ℝ :=
  c.pcen * normal m (widthAt C s c) (Real.log c.w) + c.psat * normal sat.1 (widthAt C sat.2 c) (Real.log c.w) +
    (1 - c.pcen - c.psat) * normal fg.1 (widthAt C fg.2 c) (Real.log c.w)

noncomputable def mixLike (C : Ctx N) (fg sat : ℝ × ℝ) (cs : List Clu) (m s : ℝ) : ℝ := (cs.map (mixDens C fg sat m s)).prod

/-- Density of the magnitude of a cluster center, not below the floor. -/
noncomputable def magDens (C : Ctx N) (f : Phi1) (d0 d1 s : ℝ) (c : Clu) : ℝ :=
  max (1 / 100000)
    (c.pcen * normal (C.mstar c.z + d0 + d1 * Real.log ((c.lam / c.scaleval) / C.pivot)) s c.refmag * C.cwt c +
      c.psat * normal (C.mstar c.z + f.mM + f.mSlope * Real.log (c.lam / C.pivot)) (f.sM + f.sSlope * Real.log (c.lam / C.pivot))
        c.refmag * C.cwt c +
      (1 - c.pcen - c.psat) * (C.bkg c * Real.pi * c.rlam ^ 2))

noncomputable def magLike (C : Ctx N) (f : Phi1) (cs : List Clu) (d0 d1 s : ℝ) : ℝ := (cs.map (magDens C f d0 d1 s)).prod

/-- The probabilities of a cluster are probabilities. -/
def Probs (c : Clu) : Prop := 0 ≤ c.pcen ∧ 0 ≤ c.psat ∧ c.pcen + c.psat ≤ 1

/-- Settings that make sense. -/
def Sensible (C : Ctx N) : Prop := 0 ≤ C.minlam ∧ 0 < C.pivot

/-- The contract of `scipy.optimize.fmin`: it does not end worse than it starts, if the start has a cost. -/
structure Fmin2OK (fmin : (ℝ × ℝ → Option ℝ) → ℝ × ℝ → ℝ × ℝ) : Prop where
  le : ∀ (f : ℝ × ℝ → Option ℝ) (x : ℝ × ℝ) (a : ℝ), f x = some a → ∃ b, f (fmin f x) = some b ∧ b ≤ a

structure Fmin3OK (fmin : (ℝ × ℝ × ℝ → ℝ) → ℝ × ℝ × ℝ → ℝ × ℝ × ℝ) : Prop where
  le : ∀ (f : ℝ × ℝ × ℝ → ℝ) (x : ℝ × ℝ × ℝ), f (fmin f x) ≤ f x

theorem fmin2_id : Fmin2OK (fun _ x => x) := ⟨fun _ _ a h => ⟨a, h, le_refl _⟩⟩
theorem fmin3_id : Fmin3OK (fun _ x => x) := ⟨fun _ _ => le_refl _⟩

/-! ## Densities -/

theorem sqrt2pi_pos : 0 < Real.sqrt (2 * Real.pi) := Real.sqrt_pos.mpr (by positivity)

theorem normal_pos (m x : ℝ) {s : ℝ} (hs : 0 < s) : 0 < normal m s x :=
  div_pos (Real.exp_pos _) (mul_pos hs sqrt2pi_pos)

theorem normal_neg (m s x : ℝ) : normal m (-s) x = -normal m s x := by
  unfold normal
  rw [show (-s) ^ 2 = s ^ 2 by ring, neg_mul, div_neg]

theorem normal_at (m s : ℝ) : normal m s m = 1 / (s * Real.sqrt (2 * Real.pi)) := by
  unfold normal; simp

theorem gauss_eq (m x : ℝ) {s : ℝ} (hs : s ≠ 0) : gauss m s x = some (normal m s x) := by
  unfold gauss normal
  rw [if_neg hs]
  congr 1
  rw [show -(1 / 2) * (x - m) ^ 2 / s ^ 2 = -((x - m) ^ 2 / (2 * s ^ 2)) by field_simp]
  rw [mul_comm s]
  field_simp

theorem gauss_zero (m x : ℝ) : gauss m 0 x = none := by simp [gauss]

theorem nsum_nlog {β : Type} (l : List β) (g : β → Option ℝ) (d : β → ℝ) (h : ∀ x ∈ l, g x = some (Real.log (d x)) ∧ 0 < d x) :
    nsum (l.map g) = some (Real.log (l.map d).prod) ∧ 0 < (l.map d).prod := by
  induction l with
  | nil => simp [nsum]
  | cons x l ih =>
    obtain ⟨e, p⟩ := ih (fun y hy => h y (List.mem_cons_of_mem _ hy))
    obtain ⟨e0, p0⟩ := h x (List.mem_cons_self ..)
    simp only [List.map_cons, nsum, List.prod_cons, e0, e]
    refine ⟨?_, mul_pos p0 p⟩
    simp only [Option.bind_some, Option.map_some]
    rw [Real.log_mul p0.ne' p.ne']

theorem nsum_none {β : Type} (l : List β) (g : β → Option ℝ) (x : β) (hx : x ∈ l) (h : g x = none) : nsum (l.map g) = none := by
  induction l with
  | nil => cases hx
  | cons y l ih =>
    simp only [List.map_cons, nsum]
    rcases List.mem_cons.mp hx with rfl | hx
    · rw [h]; rfl
    · rw [ih hx]; cases g y <;> rfl

theorem nsum_some {β : Type} (l : List β) (g : β → Option ℝ) (a : ℝ) (h : nsum (l.map g) = some a) (x : β) (hx : x ∈ l) :
    ∃ b, g x = some b := by
  cases hg : g x with
  | none => rw [nsum_none l g x hx hg] at h; cases h
  | some b => exact ⟨b, rfl⟩

theorem nlog_some {x a : ℝ} (h : nlog x = some a) : 0 < x ∧ a = Real.log x := by
  unfold nlog at h
  split at h
  · rename_i hx; exact ⟨hx, (Option.some.inj h).symm⟩
  · cases h

theorem chosen_iff (C : Ctx N) (c : Clu) : chosen C c = true ↔ Wanted C c := by
  unfold chosen Wanted
  simp only [Bool.and_eq_true, decide_eq_true_eq]
  tauto

theorem root_pos {C : Ctx N} (hC : Sensible C) {c : Clu} (hc : Wanted C c) : 0 < root C c :=
  Real.sqrt_pos.mpr (div_pos (lt_of_le_of_lt hC.1 hc.1) hC.2)

theorem widthAt_eq (C : Ctx N) (s : ℝ) (c : Clu) : widthAt C s c = s / root C c := rfl

/-! ## C179: which clusters count -/

/-- The calibration with every catalog reduced to the wanted clusters. -/
noncomputable def reduced (C : Ctx N) : Ctx N :=
  { C with read := fun n => wantedOf C (C.read n) }

theorem filter_wanted (C : Ctx N) (l : List Clu) :
    wantedOf C l = l.filter (chosen C) := by
  apply List.filter_congr
  intro c _
  rw [Bool.eq_iff_iff, chosen_iff]
  simp

/-- **C179**: clusters outside of the cuts have no influence on the calibration. -/
theorem C179_cuts [DecidableEq N] (C : Ctx N) (f : Phi1) (fgfile satfile : Option N) (v : Vals) (cat : List Clu) :
    run (reduced C) f fgfile satfile v (wantedOf C cat) = run C f fgfile satfile v cat := by
  have hch : ∀ c, chosen (reduced C) c = chosen C c := fun _ => rfl
  have hch' : chosen (reduced C) = chosen C := rfl
  have hfit : ∀ n, fgFit (reduced C) ((reduced C).read n) = fgFit C (C.read n) := by
    intro n
    have : (reduced C).read n = (C.read n).filter (chosen C) := filter_wanted C _
    unfold fgFit
    rw [this, hch', List.filter_filter]
    simp only [Bool.and_self]
    rfl
  have hstep : ∀ w o, randStep (reduced C) fgfile w o = randStep C fgfile w o := by
    intro w o
    cases o with
    | none => rfl
    | some n => simp only [randStep, hfit]
  have hr : rands (reduced C) fgfile satfile v = rands C fgfile satfile v := by simp only [rands, hstep]
  unfold run
  rw [filter_wanted, hr, hch', List.filter_filter]
  simp only [Bool.and_self]
  rfl

/-! ## C180: widths of the connectivity of foreground and satellites -/

theorem std_pos (l : List ℝ) (x y : ℝ) (hx : x ∈ l) (hy : y ∈ l) (h : x ≠ y) : 0 < std l := by
  have hl : 0 < (l.length : ℝ) := by
    have : l ≠ [] := by rintro rfl; cases hx
    exact_mod_cast List.length_pos_iff.mpr this
  have hone : ∃ z ∈ l, z ≠ mean l := by
    by_cases hm : x = mean l
    · exact ⟨y, hy, fun e => h (hm.trans e.symm)⟩
    · exact ⟨x, hx, hm⟩
  obtain ⟨z, hz, hne⟩ := hone
  refine Real.sqrt_pos.mpr (div_pos ?_ hl)
  have h1 : (z - mean l) ^ 2 ≤ (l.map fun x => (x - mean l) ^ 2).sum :=
    List.single_le_sum (fun a ha => by obtain ⟨b, -, rfl⟩ := List.mem_map.mp ha; positivity) _ (List.mem_map.mpr ⟨z, hz, rfl⟩)
  have h2 : 0 < (z - mean l) ^ 2 := by
    have : z - mean l ≠ 0 := sub_ne_zero.mpr hne
    positivity
  linarith

/-- The connectivity differs between clusters. -/
def Varied (cs : List Clu) : Prop := ∃ a ∈ cs, ∃ b ∈ cs, a.w ≠ b.w

theorem start2_pos (cs : List Clu) (hw : ∀ c ∈ cs, 0 < c.w) (h : Varied cs) : 0 < (start2 cs).2 := by
  obtain ⟨a, ha, b, hb, hne⟩ := h
  refine std_pos _ (Real.log a.w) (Real.log b.w) (List.mem_map.mpr ⟨a, ha, rfl⟩) (List.mem_map.mpr ⟨b, hb, rfl⟩) ?_
  intro e
  exact hne (Real.log_injOn_pos (hw a ha) (hw b hb) e)

theorem fgCost_pos (C : Ctx N) (hC : Sensible C) (cs : List Clu) (hcs : ∀ c ∈ cs, Wanted C c) (m s : ℝ) (hs : 0 < s) :
    fgCost (cs.map fun c => (c.w, 1 / root C c)) (m, s) = some (-Real.log (popLike C cs m s)) ∧ 0 < popLike C cs m s := by
  obtain ⟨e, p⟩ := nsum_nlog cs (fun c => (gauss m (s * (1 / root C c)) (Real.log c.w)).bind nlog)
    (fun c => normal m (widthAt C s c) (Real.log c.w)) (by
      intro c hc
      have hr := root_pos hC (hcs c hc)
      have hw : 0 < s * (1 / root C c) := by positivity
      have hp := normal_pos m (Real.log c.w) hw
      rw [gauss_eq _ _ hw.ne', widthAt_eq, div_eq_mul_one_div s]
      refine ⟨?_, hp⟩
      simp only [Option.bind_some]
      unfold nlog
      rw [if_pos hp])
  refine ⟨?_, p⟩
  unfold fgCost penalized
  rw [List.map_map]
  have : ((fun r : ℝ × ℝ => (gauss (m, s).1 ((m, s).2 * r.2) (Real.log r.1)).bind nlog) ∘ fun c => (c.w, 1 / root C c)) =
      fun c => (gauss m (s * (1 / root C c)) (Real.log c.w)).bind nlog := rfl
  rw [this, e]
  simp only [Option.map_some]
  rw [if_neg (not_lt.mpr hs.le), add_zero]
  rfl

theorem fgCost_nonpos (C : Ctx N) (hC : Sensible C) (cs : List Clu) (hcs : ∀ c ∈ cs, Wanted C c) (hne : cs ≠ []) (m s : ℝ) (hs : s ≤ 0) :
    fgCost (cs.map fun c => (c.w, 1 / root C c)) (m, s) = none := by
  obtain ⟨c, hc⟩ := List.exists_mem_of_ne_nil cs hne
  have hr := root_pos hC (hcs c hc)
  unfold fgCost penalized
  rw [List.map_map]
  rw [nsum_none cs _ c hc]
  · rfl
  show (gauss m (s * (1 / root C c)) (Real.log c.w)).bind nlog = none
  rcases hs.eq_or_lt with rfl | hs
  · rw [zero_mul, gauss_zero]; rfl
  · have hw : 0 < -s * (1 / root C c) := by
      have : 0 < -s := by linarith
      positivity
    have hn : s * (1 / root C c) ≠ 0 := by
      intro e; rw [neg_mul, e] at hw; simp at hw
    rw [gauss_eq _ _ hn, show s * (1 / root C c) = -(-s * (1 / root C c)) by ring, normal_neg]
    have hp := normal_pos m (Real.log c.w) hw
    simp only [Option.bind_some, nlog]
    rw [if_neg (by linarith)]

theorem mem_wanted {C : Ctx N} {cat : List Clu} : ∀ c ∈ cat.filter (chosen C), Wanted C c :=
  fun c hc => (chosen_iff C c).mp (List.mem_filter.mp hc).2

/-- One catalog: a positive width, at least as likely as the start. -/
theorem fgFit_spec (C : Ctx N) (hC : Sensible C) (hf : Fmin2OK C.fmin2) (cat : List Clu) (hv : Varied (cat.filter (chosen C))) :
    ∃ p, fgFit C cat = some p ∧ 0 < p.2 ∧
      popLike C (cat.filter (chosen C)) (start2 (cat.filter (chosen C))).1 (start2 (cat.filter (chosen C))).2 ≤
        popLike C (cat.filter (chosen C)) p.1 p.2 := by
  set cs := cat.filter (chosen C) with hcsd
  have hw := mem_wanted (C := C) (cat := cat)
  rw [← hcsd] at hw
  have hne : cs ≠ [] := by obtain ⟨a, ha, -⟩ := hv; rintro e; rw [e] at ha; cases ha
  have hsp := start2_pos cs (fun c hc => (hw c hc).2.2.1) hv
  obtain ⟨e0, p0⟩ := fgCost_pos C hC cs hw (start2 cs).1 (start2 cs).2 hsp
  obtain ⟨b, eb, hb⟩ := hf.le _ (start2 cs) _ e0
  refine ⟨C.fmin2 (fgCost (cs.map fun c => (c.w, 1 / root C c))) (start2 cs), ?_, ?_⟩
  · unfold fgFit
    simp only
    rw [← hcsd, if_neg hne]
  · set p := C.fmin2 (fgCost (cs.map fun c => (c.w, 1 / root C c))) (start2 cs)
    have hpos : 0 < p.2 := by
      by_contra hn
      have h : fgCost (cs.map fun c => (c.w, 1 / root C c)) p = none := fgCost_nonpos C hC cs hw hne p.1 p.2 (not_lt.mp hn)
      rw [h] at eb; cases eb
    refine ⟨hpos, ?_⟩
    obtain ⟨e1, p1⟩ := fgCost_pos C hC cs hw p.1 p.2 hpos
    have h : fgCost (cs.map fun c => (c.w, 1 / root C c)) p = some (-Real.log (popLike C cs p.1 p.2)) := e1
    rw [h] at eb
    cases eb
    exact (Real.log_le_log_iff p0 p1).mp (by linarith)

/-- What a file leaves: the fit of its catalog, or without file the configured value. -/
noncomputable def fromFile (C : Ctx N) (file : Option N) (configured : Option (ℝ × ℝ)) : Option (ℝ × ℝ) :=
  match file with
  | none => configured
  | some n => fgFit C (C.read n)

/-- **C182** (partial): with different files, the foreground values come from the random points and the satellite values from the
satellites; a missing file leaves the configured values. Missing: one file for both (`C182_false`). -/
theorem C182_files_partial [DecidableEq N] (C : Ctx N) (f : Phi1) (fgfile satfile : Option N) (v : Vals) (cat : List Clu)
    (hd : fgfile = satfile → fgfile = none) :
    (run C f fgfile satfile v cat).1.fg = fromFile C fgfile v.fg ∧ (run C f fgfile satfile v cat).1.sat = fromFile C satfile v.sat ∧
    (run C f fgfile satfile v cat).2 = ⟨fromFile C fgfile v.fg, fromFile C satfile v.sat⟩ := by
  have key : rands C fgfile satfile v = ⟨fromFile C fgfile v.fg, fromFile C satfile v.sat⟩ := by
    unfold rands
    cases hF : fgfile with
    | none => cases hS : satfile <;> simp [randStep, fromFile]
    | some a =>
      cases hS : satfile with
      | none => simp [randStep, fromFile]
      | some b =>
        have hab : ¬ b = a := by rintro rfl; rw [hF, hS] at hd; simpa using hd rfl
        simp [randStep, fromFile, hab]
  unfold run
  simp only [key]
  exact ⟨trivial, trivial, trivial⟩

/-- **C182** fails for one file in both roles: the satellite values stay as configured, whatever the file has. -/
theorem C182_false [DecidableEq N] (C : Ctx N) (f : Phi1) (n : N) (v : Vals) (cat : List Clu) :
    (run C f (some n) (some n) v cat).1.sat = v.sat ∧ (run C f (some n) (some n) v cat).1.fg = fgFit C (C.read n) := by
  simp [run, rands, randStep]

/-- **C180** (partial): if the wanted clusters of both random files differ in connectivity, the saved widths of foreground and
satellites are positive and the saved values at least as likely as mean and standard deviation. Missing: catalogs without two
different values (`C180_false`). -/
theorem C180_widths_partial [DecidableEq N] (C : Ctx N) (hC : Sensible C) (hf : Fmin2OK C.fmin2) (f : Phi1) (a b : N) (hab : a ≠ b)
    (v : Vals) (cat : List Clu) (ha : Varied (wantedOf C (C.read a))) (hb : Varied (wantedOf C (C.read b))) :
    ∃ p q, (run C f (some a) (some b) v cat).1.fg = some p ∧ (run C f (some a) (some b) v cat).1.sat = some q ∧ 0 < p.2 ∧ 0 < q.2 ∧
      popLike C (wantedOf C (C.read a)) (mean ((wantedOf C (C.read a)).map fun c => Real.log c.w))
        (std ((wantedOf C (C.read a)).map fun c => Real.log c.w)) ≤ popLike C (wantedOf C (C.read a)) p.1 p.2 ∧
      popLike C (wantedOf C (C.read b)) (mean ((wantedOf C (C.read b)).map fun c => Real.log c.w))
        (std ((wantedOf C (C.read b)).map fun c => Real.log c.w)) ≤ popLike C (wantedOf C (C.read b)) q.1 q.2 := by
  obtain ⟨e1, e2, -⟩ := C182_files_partial C f (some a) (some b) v cat (by intro h; exact absurd (Option.some.inj h) hab)
  simp only [filter_wanted] at ha hb ⊢
  obtain ⟨p, hp, p0, pl⟩ := fgFit_spec C hC hf _ ha
  obtain ⟨q, hq, q0, ql⟩ := fgFit_spec C hC hf _ hb
  exact ⟨p, q, e1.trans hp, e2.trans hq, p0, q0, pl, ql⟩

/-- **C180** fails if one random point is left after the cuts: a minimizer that meets the contract leaves the width zero. -/
theorem C180_false [DecidableEq N] (C : Ctx N) (hfm : C.fmin2 = fun _ x => x) (f : Phi1) (a b : N) (v : Vals) (cat : List Clu) (c : Clu)
    (hab : a ≠ b) (hc : wantedOf C (C.read a) = [c]) :
    Fmin2OK C.fmin2 ∧ (run C f (some a) (some b) v cat).1.fg = some (Real.log c.w, 0) := by
  refine ⟨by rw [hfm]; exact fmin2_id, ?_⟩
  obtain ⟨e1, -, -⟩ := C182_files_partial C f (some a) (some b) v cat (by intro h; exact absurd (Option.some.inj h) hab)
  rw [e1]
  rw [filter_wanted] at hc
  simp only [fromFile, fgFit, hc, hfm]
  rw [if_neg (by simp)]
  simp [start2, mean, std]

/-- Settings for the examples: catalog 0 has two wanted clusters and one that is not, catalog 1 one more, others one. -/
noncomputable def exC : Ctx Nat :=
  { pivot := 30, minlam := 10, maxlam := 100, z0 := 0, z1 := 1, maxMask := 1 / 2, fmin2 := fun _ x => x, fmin3 := fun _ x => x,
    line := fun _ => (0, 0), mstar := fun _ => 17, cwt := fun _ => 1, bkg := fun _ => 1,
    read := fun n => if n = 0 then [⟨20, 1, 1, 1 / 2, 0, 16, 1 / 2, 1 / 4, 1⟩, ⟨30, 1, 2, 1 / 2, 0, 16, 1 / 2, 1 / 4, 1⟩, ⟨5, 1, 3, 1 / 2, 0, 16, 1 / 2, 1 / 4, 1⟩]
      else if n = 1 then [⟨40, 1, 3, 1 / 2, 0, 16, 1 / 2, 1 / 4, 1⟩, ⟨30, 1, 2, 1 / 2, 0, 16, 1 / 2, 1 / 4, 1⟩]
      else [⟨40, 1, 3, 1 / 2, 0, 16, 1 / 2, 1 / 4, 1⟩] }

/-- The hypotheses are met: two catalogs with different connectivities. -/
example : Sensible exC ∧ Fmin2OK exC.fmin2 ∧ (0 : Nat) ≠ 1 ∧ Varied (wantedOf exC (exC.read 0)) ∧
    Varied (wantedOf exC (exC.read 1)) ∧ (∃ c, wantedOf exC (exC.read 2) = [c]) := by
  simp only [filter_wanted]
  refine ⟨⟨by simp [exC], by simp [exC]⟩, fmin2_id, by decide, ?_, ?_, ?_⟩
  · refine ⟨⟨20, 1, 1, 1 / 2, 0, 16, 1 / 2, 1 / 4, 1⟩, ?_, ⟨30, 1, 2, 1 / 2, 0, 16, 1 / 2, 1 / 4, 1⟩, ?_, by norm_num⟩ <;>
      exact List.mem_filter.mpr ⟨by simp [exC], (chosen_iff _ _).mpr (by unfold Wanted exC; norm_num)⟩
  · refine ⟨⟨40, 1, 3, 1 / 2, 0, 16, 1 / 2, 1 / 4, 1⟩, ?_, ⟨30, 1, 2, 1 / 2, 0, 16, 1 / 2, 1 / 4, 1⟩, ?_, by norm_num⟩ <;>
      exact List.mem_filter.mpr ⟨by simp [exC], (chosen_iff _ _).mpr (by unfold Wanted exC; norm_num)⟩
  · refine ⟨⟨40, 1, 3, 1 / 2, 0, 16, 1 / 2, 1 / 4, 1⟩, ?_⟩
    have h : chosen exC ⟨40, 1, 3, 1 / 2, 0, 16, 1 / 2, 1 / 4, 1⟩ = true := (chosen_iff _ _).mpr (by unfold Wanted exC; norm_num)
    show List.filter _ [_] = _
    rw [List.filter_cons_of_pos h]; rfl

/-! ## C181: the central galaxies -/

theorem allSome_map {β γ : Type} (l : List β) (g : β → Option γ) (d : β → γ) (h : ∀ x ∈ l, g x = some (d x)) :
    allSome (l.map g) = some (l.map d) := by
  induction l with
  | nil => rfl
  | cons x l ih =>
    simp only [List.map_cons, allSome, h x (List.mem_cons_self ..), ih (fun y hy => h y (List.mem_cons_of_mem _ hy))]
    rfl

/-- The row of a cluster with densities written out. -/
noncomputable def rowOf (C : Ctx N) (fg sat : ℝ × ℝ) (c : Clu) : WRow :=
  { pcen := c.pcen, psat := c.psat, w := c.w, ffg := normal fg.1 (widthAt C fg.2 c) (Real.log c.w),
    fsat := normal sat.1 (widthAt C sat.2 c) (Real.log c.w), lscale := 1 / root C c }

theorem wRow_eq {C : Ctx N} (hC : Sensible C) {fg sat : ℝ × ℝ} (hfg : 0 < fg.2) (hsat : 0 < sat.2) {c : Clu} (hc : Wanted C c) :
    wRow C fg sat c = some (rowOf C fg sat c) := by
  have hr := root_pos hC hc
  unfold wRow wDens
  rw [gauss_eq _ _ (div_pos hfg hr).ne', gauss_eq _ _ (div_pos hsat hr).ne']
  rfl

theorem mix_pos {C : Ctx N} (hC : Sensible C) {fg sat : ℝ × ℝ} (hfg : 0 < fg.2) (hsat : 0 < sat.2) {c : Clu} (hc : Wanted C c)
    (hp : Probs c) {m s : ℝ} (hs : 0 < s) : 0 < mixDens C fg sat m s c := by
  have hr := root_pos hC hc
  have h1 := normal_pos m (Real.log c.w) (s := widthAt C s c) (by rw [widthAt_eq]; positivity)
  have h2 := normal_pos sat.1 (Real.log c.w) (s := widthAt C sat.2 c) (by rw [widthAt_eq]; positivity)
  have h3 := normal_pos fg.1 (Real.log c.w) (s := widthAt C fg.2 c) (by rw [widthAt_eq]; positivity)
  obtain ⟨a, b, e⟩ := hp
  unfold mixDens
  have i1 := mul_nonneg a h1.le
  have i2 := mul_nonneg b h2.le
  have i3 := mul_nonneg (show 0 ≤ 1 - c.pcen - c.psat by linarith) h3.le
  rcases a.lt_or_eq with ha | ha
  · have := mul_pos ha h1; linarith
  · rcases b.lt_or_eq with hb | hb
    · have := mul_pos hb h2; linarith
    · have : 0 < (1 - c.pcen - c.psat) * normal fg.1 (widthAt C fg.2 c) (Real.log c.w) := mul_pos (by linarith) h3
      linarith

/-- The cost of the connectivity fit is a number wherever all densities are positive, and not one otherwise. -/
theorem cw_term {C : Ctx N} (hC : Sensible C) (fg sat : ℝ × ℝ) {c : Clu} (hc : Wanted C c) (m s : ℝ) (hs : s ≠ 0) :
    ((gauss m (s * (rowOf C fg sat c).lscale) (Real.log (rowOf C fg sat c).w)).bind fun fcen =>
      nlog ((rowOf C fg sat c).pcen * fcen + (rowOf C fg sat c).psat * (rowOf C fg sat c).fsat +
        (1 - (rowOf C fg sat c).pcen - (rowOf C fg sat c).psat) * (rowOf C fg sat c).ffg)) = nlog (mixDens C fg sat m s c) := by
  have hr := root_pos hC hc
  have hn : s * (1 / root C c) ≠ 0 := mul_ne_zero hs (by positivity)
  show ((gauss m (s * (1 / root C c)) (Real.log c.w)).bind _) = _
  rw [gauss_eq _ _ hn]
  simp only [Option.bind_some, rowOf, mixDens]
  rw [show widthAt C s c = s * (1 / root C c) by rw [widthAt_eq, div_eq_mul_one_div]]

theorem cwCost_some {C : Ctx N} (hC : Sensible C) (fg sat : ℝ × ℝ) (cs : List Clu) (hcs : ∀ c ∈ cs, Wanted C c) (m s : ℝ) (hs : s ≠ 0)
    (hp : ∀ c ∈ cs, 0 < mixDens C fg sat m s c) :
    cwCost (cs.map (rowOf C fg sat)) (m, s) = some (-Real.log (mixLike C fg sat cs m s) + if s < 0 then 1000 else 0) := by
  obtain ⟨e, p⟩ := nsum_nlog cs _ (mixDens C fg sat m s) (fun c hc => ⟨(cw_term hC fg sat (hcs c hc) m s hs).trans
    (by unfold nlog; rw [if_pos (hp c hc)]), hp c hc⟩)
  unfold cwCost penalized
  rw [List.map_map]
  have he := e
  simp only [Function.comp_def]
  rw [he]
  rfl

theorem cwCost_inv {C : Ctx N} (hC : Sensible C) (fg sat : ℝ × ℝ) (cs : List Clu) (hcs : ∀ c ∈ cs, Wanted C c) (hne : cs ≠ []) (m s a : ℝ)
    (h : cwCost (cs.map (rowOf C fg sat)) (m, s) = some a) : s ≠ 0 ∧ ∀ c ∈ cs, 0 < mixDens C fg sat m s c := by
  unfold cwCost penalized at h
  rw [List.map_map] at h
  cases hn : nsum (cs.map ((fun r : WRow => (gauss (m, s).1 ((m, s).2 * r.lscale) (Real.log r.w)).bind fun fcen =>
    nlog (r.pcen * fcen + r.psat * r.fsat + (1 - r.pcen - r.psat) * r.ffg)) ∘ rowOf C fg sat)) with
  | none => rw [hn] at h; cases h
  | some b =>
    have hs : s ≠ 0 := by
      rintro rfl
      obtain ⟨c, hc⟩ := List.exists_mem_of_ne_nil cs hne
      obtain ⟨d, hd⟩ := nsum_some _ _ _ hn c hc
      simp [gauss_zero] at hd
    refine ⟨hs, fun c hc => ?_⟩
    obtain ⟨d, hd⟩ := nsum_some _ _ _ hn c hc
    have := (cw_term hC fg sat (hcs c hc) m s hs).symm.trans hd
    exact (nlog_some this).1

theorem mix_mirror {C : Ctx N} (hC : Sensible C) (fg sat : ℝ × ℝ) {c : Clu} (hc : Wanted C c) (hp : Probs c) (m s : ℝ) (hs : s < 0) :
    mixDens C fg sat m s c ≤ mixDens C fg sat m (-s) c := by
  have hr := root_pos hC hc
  have h1 := normal_pos m (Real.log c.w) (s := widthAt C (-s) c) (by rw [widthAt_eq]; exact div_pos (by linarith) hr)
  have h2 : normal m (widthAt C s c) (Real.log c.w) = -normal m (widthAt C (-s) c) (Real.log c.w) := by
    rw [← normal_neg]; congr 1; simp only [widthAt_eq]; ring
  unfold mixDens
  rw [h2]
  have := mul_nonneg hp.1 h1.le
  linarith

theorem prod_le {β : Type} (l : List β) (f g : β → ℝ) (h : ∀ x ∈ l, 0 < f x ∧ f x ≤ g x) :
    0 < (l.map f).prod ∧ (l.map f).prod ≤ (l.map g).prod := by
  induction l with
  | nil => simp
  | cons x l ih =>
    obtain ⟨p, q⟩ := ih (fun y hy => h y (List.mem_cons_of_mem _ hy))
    obtain ⟨p0, q0⟩ := h x (List.mem_cons_self ..)
    simp only [List.map_cons, List.prod_cons]
    exact ⟨mul_pos p0 p, mul_le_mul q0 q p.le (p0.le.trans q0)⟩

/-- **C181** (partial), connectivity: with positive widths of foreground and satellites and at least two different
connectivities, the saved width of the centrals is not zero; if it is positive, the saved values are at least as likely as mean and
standard deviation; it can only be negative if the same width without the sign is more likely than the start by a factor `e^1000`.
Missing: that the likelihood is largest (`C181_false_w`), that the width is positive. -/
theorem C181_connectivity_partial [DecidableEq N] (C : Ctx N) (hC : Sensible C) (hf : Fmin2OK C.fmin2) (f : Phi1) (fgfile satfile : Option N)
    (v : Vals) (cat : List Clu) (fg sat : ℝ × ℝ) (efg : (run C f fgfile satfile v cat).1.fg = some fg)
    (esat : (run C f fgfile satfile v cat).1.sat = some sat) (hfg : 0 < fg.2) (hsat : 0 < sat.2)
    (hv : Varied (wantedOf C cat)) (hp : ∀ c ∈ wantedOf C cat, Probs c) :
    ∃ p, (run C f fgfile satfile v cat).1.cw = some p ∧ p.2 ≠ 0 ∧
      (0 < p.2 → mixLike C fg sat (wantedOf C cat) (mean ((wantedOf C cat).map fun c => Real.log c.w))
        (std ((wantedOf C cat).map fun c => Real.log c.w)) ≤ mixLike C fg sat (wantedOf C cat) p.1 p.2) ∧
      (p.2 < 0 → Real.exp 1000 * mixLike C fg sat (wantedOf C cat) (mean ((wantedOf C cat).map fun c => Real.log c.w))
        (std ((wantedOf C cat).map fun c => Real.log c.w)) ≤ mixLike C fg sat (wantedOf C cat) p.1 (-p.2)) := by
  simp only [filter_wanted] at hv hp ⊢
  have hw := mem_wanted (C := C) (cat := cat)
  have efg' : (rands C fgfile satfile v).fg = some fg := efg
  have esat' : (rands C fgfile satfile v).sat = some sat := esat
  have ecw : (run C f fgfile satfile v cat).1.cw = cwFit C (rands C fgfile satfile v) (cat.filter (chosen C)) := rfl
  rw [ecw]
  set cs := cat.filter (chosen C)
  have hne : cs ≠ [] := by obtain ⟨a, ha, -⟩ := hv; rintro e; rw [e] at ha; cases ha
  have hsp : 0 < (start2 cs).2 := start2_pos cs (fun c hc => (hw c hc).2.2.1) hv
  have d0 : ∀ c ∈ cs, 0 < mixDens C fg sat (start2 cs).1 (start2 cs).2 c := fun c hc => mix_pos hC hfg hsat (hw c hc) (hp c hc) hsp
  have e0 := cwCost_some hC fg sat cs hw (start2 cs).1 (start2 cs).2 hsp.ne' d0
  rw [if_neg (not_lt.mpr hsp.le), add_zero] at e0
  obtain ⟨b, eb, hb⟩ := hf.le _ (start2 cs) _ e0
  have L0 : 0 < mixLike C fg sat cs (start2 cs).1 (start2 cs).2 := (prod_le cs _ _ (fun c hc => ⟨d0 c hc, le_refl _⟩)).1
  refine ⟨C.fmin2 (cwCost (cs.map (rowOf C fg sat))) (start2 cs), ?_, ?_⟩
  · unfold cwFit
    rw [efg', esat']
    simp only [Option.bind_some]
    rw [allSome_map cs _ (rowOf C fg sat) (fun c hc => wRow_eq hC hfg hsat (hw c hc))]
    rfl
  · set p := C.fmin2 (cwCost (cs.map (rowOf C fg sat))) (start2 cs)
    have eb' : cwCost (cs.map (rowOf C fg sat)) (p.1, p.2) = some b := eb
    obtain ⟨hp0, hpd⟩ := cwCost_inv hC fg sat cs hw hne p.1 p.2 b eb'
    have e1 := cwCost_some hC fg sat cs hw p.1 p.2 hp0 hpd
    rw [eb'] at e1
    have e1 := Option.some.inj e1
    have L1 : 0 < mixLike C fg sat cs p.1 p.2 := (prod_le cs _ _ (fun c hc => ⟨hpd c hc, le_refl _⟩)).1
    refine ⟨hp0, fun h => ?_, fun h => ?_⟩
    · rw [if_neg (not_lt.mpr h.le), add_zero] at e1
      exact (Real.log_le_log_iff L0 L1).mp (by linarith)
    · rw [if_pos h] at e1
      obtain ⟨-, hle⟩ := prod_le cs _ _ (fun c hc => ⟨hpd c hc, mix_mirror hC fg sat (hw c hc) (hp c hc) p.1 p.2 h⟩)
      refine le_trans ?_ hle
      change _ ≤ mixLike C fg sat cs p.1 p.2
      change Real.exp 1000 * mixLike C fg sat cs (start2 cs).1 (start2 cs).2 ≤ _
      rw [← Real.log_le_log_iff (mul_pos (Real.exp_pos _) L0) L1, Real.log_mul (Real.exp_pos _).ne' L0.ne', Real.log_exp]
      linarith

/-- **C181** fails, connectivity: the likelihood of the centrals has no largest value. -/
theorem C181_false_w (C : Ctx N) (hC : Sensible C) (cs : List Clu) (hcs : ∀ c ∈ cs, Wanted C c) (hp : ∀ c ∈ cs, Probs c ∧ c.pcen < 1)
    (fg sat : ℝ × ℝ) (hfg : 0 < fg.2) (hsat : 0 < sat.2) (c0 : Clu) (h0 : c0 ∈ cs) (hc0 : 0 < c0.pcen) (B : ℝ) :
    ∃ m s, 0 < s ∧ B < mixLike C fg sat cs m s := by
  obtain ⟨l1, l2, rfl⟩ := List.append_of_mem h0
  have hW0 := hcs c0 h0
  have hr := root_pos hC hW0
  -- what remains of a density without the centrals
  let K : Clu → ℝ := fun c => c.psat * normal sat.1 (widthAt C sat.2 c) (Real.log c.w) +
    (1 - c.pcen - c.psat) * normal fg.1 (widthAt C fg.2 c) (Real.log c.w)
  have hK : ∀ c ∈ l1 ++ c0 :: l2, 0 ≤ K c ∧ 0 < K c := by
    intro c hc
    have hrc := root_pos hC (hcs c hc)
    have h2 := normal_pos sat.1 (Real.log c.w) (s := widthAt C sat.2 c) (by rw [widthAt_eq]; positivity)
    have h3 := normal_pos fg.1 (Real.log c.w) (s := widthAt C fg.2 c) (by rw [widthAt_eq]; positivity)
    obtain ⟨⟨a, b, e⟩, hlt⟩ := hp c hc
    have i2 := mul_nonneg b h2.le
    have i3 := mul_nonneg (show 0 ≤ 1 - c.pcen - c.psat by linarith) h3.le
    have : 0 < K c := by
      show 0 < _ + _
      rcases b.lt_or_eq with hb | hb
      · have := mul_pos hb h2; linarith
      · have : 0 < (1 - c.pcen - c.psat) * normal fg.1 (widthAt C fg.2 c) (Real.log c.w) := mul_pos (by linarith) h3
        linarith
    exact ⟨this.le, this⟩
  have hmix : ∀ s, 0 < s → ∀ c ∈ l1 ++ c0 :: l2, K c ≤ mixDens C fg sat (Real.log c0.w) s c := by
    intro s hs c hc
    have hrc := root_pos hC (hcs c hc)
    have h1 := normal_pos (Real.log c0.w) (Real.log c.w) (s := widthAt C s c) (by rw [widthAt_eq]; positivity)
    have := mul_nonneg (hp c hc).1.1 h1.le
    show _ + _ ≤ _
    unfold mixDens
    linarith
  obtain ⟨k1, -⟩ := prod_le l1 K K (fun c hc => ⟨(hK c (by simp [hc])).2, le_refl _⟩)
  obtain ⟨k2, -⟩ := prod_le l2 K K (fun c hc => ⟨(hK c (by simp [hc])).2, le_refl _⟩)
  set K1 := (l1.map K).prod
  set K2 := (l2.map K).prod
  have hB : 0 < |B| + 1 := by positivity
  refine ⟨Real.log c0.w, root C c0 * c0.pcen * K1 * K2 / (Real.sqrt (2 * Real.pi) * (|B| + 1)), ?_, ?_⟩
  · have := sqrt2pi_pos; positivity
  · set s := root C c0 * c0.pcen * K1 * K2 / (Real.sqrt (2 * Real.pi) * (|B| + 1)) with hsd
    have hpi := sqrt2pi_pos
    have hs : 0 < s := by positivity
    obtain ⟨-, b1⟩ := prod_le l1 K (mixDens C fg sat (Real.log c0.w) s) (fun c hc => ⟨(hK c (by simp [hc])).2, hmix s hs c (by simp [hc])⟩)
    obtain ⟨-, b2⟩ := prod_le l2 K (mixDens C fg sat (Real.log c0.w) s) (fun c hc => ⟨(hK c (by simp [hc])).2, hmix s hs c (by simp [hc])⟩)
    have hx : c0.pcen * (root C c0 / (s * Real.sqrt (2 * Real.pi))) ≤ mixDens C fg sat (Real.log c0.w) s c0 := by
      have hk0 := (hK c0 (by simp)).1
      have e : normal (Real.log c0.w) (widthAt C s c0) (Real.log c0.w) = root C c0 / (s * Real.sqrt (2 * Real.pi)) := by
        rw [normal_at, widthAt_eq]; field_simp
      unfold mixDens
      rw [e]
      change 0 ≤ _ + _ at hk0
      linarith
    have hx0 : 0 ≤ c0.pcen * (root C c0 / (s * Real.sqrt (2 * Real.pi))) := by positivity
    have hval : K1 * (c0.pcen * (root C c0 / (s * Real.sqrt (2 * Real.pi))) * K2) = |B| + 1 := by
      rw [hsd]; field_simp
    unfold mixLike
    rw [List.map_append, List.map_cons, List.prod_append, List.prod_cons]
    calc B < |B| + 1 := by have := le_abs_self B; linarith
      _ = K1 * (c0.pcen * (root C c0 / (s * Real.sqrt (2 * Real.pi))) * K2) := hval.symm
      _ ≤ _ := by
        refine mul_le_mul b1 (mul_le_mul hx b2 k2.le (hx0.trans hx)) (by positivity) (k1.le.trans b1)

theorem floored_eq (C : Ctx N) (f : Phi1) (c : Clu) (d0 d1 s : ℝ) (hs : s ≠ 0)
    (hf : f.sM + f.sSlope * Real.log (c.lam / C.pivot) ≠ 0) : floored (cRho d0 d1 s (cRow C f c)) = magDens C f d0 d1 s c := by
  unfold cRho cRow phi1
  simp only
  rw [gauss_eq _ _ hs, gauss_eq _ _ hf]
  simp only [Option.bind_some, Option.map_some, floored, magDens]
  split
  · rename_i h; rw [max_eq_left h.le]
  · rename_i h; rw [max_eq_right (not_lt.mp h)]

theorem magDens_floor (C : Ctx N) (f : Phi1) (d0 d1 s : ℝ) (c : Clu) : 1 / 100000 ≤ magDens C f d0 d1 s c := le_max_left ..

theorem magDens_pos (C : Ctx N) (f : Phi1) (d0 d1 s : ℝ) (c : Clu) : 0 < magDens C f d0 d1 s c :=
  lt_of_lt_of_le (by norm_num) (magDens_floor C f d0 d1 s c)

theorem sum_log {β : Type} (l : List β) (g : β → ℝ) (d : β → ℝ) (h : ∀ x ∈ l, g x = d x ∧ 0 < d x) :
    (l.map fun x => Real.log (g x)).sum = Real.log (l.map d).prod ∧ 0 < (l.map d).prod := by
  induction l with
  | nil => simp
  | cons x l ih =>
    obtain ⟨e, p⟩ := ih (fun y hy => h y (List.mem_cons_of_mem _ hy))
    obtain ⟨e0, p0⟩ := h x (List.mem_cons_self ..)
    simp only [List.map_cons, List.sum_cons, List.prod_cons, e0, e]
    exact ⟨(Real.log_mul p0.ne' p.ne').symm, mul_pos p0 p⟩

theorem cCost_eq (C : Ctx N) (f : Phi1) (cs : List Clu) (hf : ∀ c ∈ cs, f.sM + f.sSlope * Real.log (c.lam / C.pivot) ≠ 0) (d0 d1 s : ℝ)
    (hs : s ≠ 0) :
    cCost (cs.map (cRow C f)) (d0, d1, s) = -Real.log (magLike C f cs d0 d1 s) + (if s < 0 then 1000 else 0) ∧
      0 < magLike C f cs d0 d1 s := by
  obtain ⟨e, p⟩ := sum_log cs (fun c => floored (cRho d0 d1 s (cRow C f c))) (magDens C f d0 d1 s)
    (fun c hc => ⟨floored_eq C f c d0 d1 s hs (hf c hc), magDens_pos C f d0 d1 s c⟩)
  refine ⟨?_, p⟩
  unfold cCost
  rw [List.map_map]
  show -(cs.map fun c => Real.log (floored (cRho d0 d1 s (cRow C f c)))).sum + _ = _
  rw [e]
  rfl

theorem cCost_zero (C : Ctx N) (f : Phi1) (cs : List Clu) (d0 d1 : ℝ) :
    cCost (cs.map (cRow C f)) (d0, d1, 0) = -Real.log ((1 / 100000) ^ cs.length) := by
  unfold cCost
  rw [List.map_map]
  obtain ⟨e, -⟩ := sum_log cs (fun c => floored (cRho d0 d1 0 (cRow C f c))) (fun _ => 1 / 100000)
    (fun c _ => ⟨by simp [cRho, gauss_zero, floored], by norm_num⟩)
  show -(cs.map fun c => Real.log (floored (cRho d0 d1 0 (cRow C f c)))).sum + _ = _
  rw [e, if_neg (lt_irrefl _), add_zero, List.map_const', List.prod_replicate]

theorem magDens_mirror (C : Ctx N) (f : Phi1) (d0 d1 s : ℝ) (c : Clu) (hp : 0 ≤ c.pcen) (hw : 0 ≤ C.cwt c) (hs : s < 0) :
    magDens C f d0 d1 s c ≤ magDens C f d0 d1 (-s) c := by
  unfold magDens
  refine max_le_max (le_refl _) ?_
  have h1 := normal_pos (C.mstar c.z + d0 + d1 * Real.log ((c.lam / c.scaleval) / C.pivot)) c.refmag (s := -s) (by linarith)
  have h2 : normal (C.mstar c.z + d0 + d1 * Real.log ((c.lam / c.scaleval) / C.pivot)) s c.refmag =
      -normal (C.mstar c.z + d0 + d1 * Real.log ((c.lam / c.scaleval) / C.pivot)) (-s) c.refmag := by
    rw [← normal_neg, neg_neg]
  have h3 := mul_nonneg (mul_nonneg hp h1.le) hw
  rw [h2]
  have h4 : c.pcen * -normal (C.mstar c.z + d0 + d1 * Real.log ((c.lam / c.scaleval) / C.pivot)) (-s) c.refmag * C.cwt c =
      -(c.pcen * normal (C.mstar c.z + d0 + d1 * Real.log ((c.lam / c.scaleval) / C.pivot)) (-s) c.refmag * C.cwt c) := by ring
  rw [h4]
  linarith

/-- **C181** (partial), magnitude: the saved values of the centrals are at least as likely as the start, if the saved width is
positive; it can only be negative if the same width without the sign is more likely than the start by a factor `e^1000`, and only
be zero if the start has all clusters at the floor. Missing: that the likelihood is largest (`C181_false_m`). -/
theorem C181_magnitude_partial [DecidableEq N] (C : Ctx N) (hf : Fmin3OK C.fmin3) (f : Phi1) (fgfile satfile : Option N) (v : Vals)
    (cat : List Clu) (hphi : ∀ c ∈ wantedOf C cat, f.sM + f.sSlope * Real.log (c.lam / C.pivot) ≠ 0)
    (hp : ∀ c ∈ wantedOf C cat, Probs c ∧ 0 ≤ C.cwt c) (d0 d1 s0 : ℝ) (h0 : start3 C (wantedOf C cat) = (d0, d1, s0)) (hs0 : 0 < s0) :
    ∃ a b s, (run C f fgfile satfile v cat).1.cen = (a, b, s) ∧
      (0 < s → magLike C f (wantedOf C cat) d0 d1 s0 ≤ magLike C f (wantedOf C cat) a b s) ∧
      (s < 0 → Real.exp 1000 * magLike C f (wantedOf C cat) d0 d1 s0 ≤ magLike C f (wantedOf C cat) a b (-s)) ∧
      (s = 0 → magLike C f (wantedOf C cat) d0 d1 s0 = (1 / 100000) ^ (wantedOf C cat).length) := by
  have ecen : (run C f fgfile satfile v cat).1.cen =
      C.fmin3 (cCost ((wantedOf C cat).map (cRow C f))) (start3 C (wantedOf C cat)) := by rw [filter_wanted]; rfl
  rw [ecen, h0]
  set cs := wantedOf C cat
  have hle := hf.le (cCost (cs.map (cRow C f))) (d0, d1, s0)
  set p := C.fmin3 (cCost (cs.map (cRow C f))) (d0, d1, s0)
  obtain ⟨e0, L0⟩ := cCost_eq C f cs hphi d0 d1 s0 hs0.ne'
  rw [e0, if_neg (not_lt.mpr hs0.le), add_zero] at hle
  refine ⟨p.1, p.2.1, p.2.2, rfl, fun h => ?_, fun h => ?_, fun h => ?_⟩
  · obtain ⟨e1, L1⟩ := cCost_eq C f cs hphi p.1 p.2.1 p.2.2 h.ne'
    have hle' : cCost (cs.map (cRow C f)) (p.1, p.2.1, p.2.2) ≤ _ := hle
    rw [e1, if_neg (not_lt.mpr h.le), add_zero] at hle'
    exact (Real.log_le_log_iff L0 L1).mp (by linarith)
  · obtain ⟨e1, L1⟩ := cCost_eq C f cs hphi p.1 p.2.1 p.2.2 h.ne
    have hle' : cCost (cs.map (cRow C f)) (p.1, p.2.1, p.2.2) ≤ _ := hle
    rw [e1, if_pos h] at hle'
    obtain ⟨-, hm⟩ := prod_le cs (magDens C f p.1 p.2.1 p.2.2) (magDens C f p.1 p.2.1 (-p.2.2))
      (fun c hc => ⟨magDens_pos .., magDens_mirror C f _ _ _ c (hp c hc).1.1 (hp c hc).2 h⟩)
    refine le_trans ?_ hm
    change _ ≤ magLike C f cs p.1 p.2.1 p.2.2
    rw [← Real.log_le_log_iff (mul_pos (Real.exp_pos _) L0) L1, Real.log_mul (Real.exp_pos _).ne' L0.ne', Real.log_exp]
    linarith
  · have hle' : cCost (cs.map (cRow C f)) (p.1, p.2.1, p.2.2) ≤ _ := hle
    rw [h, cCost_zero] at hle'
    have hpow : (0 : ℝ) < (1 / 100000) ^ cs.length := by positivity
    refine le_antisymm ((Real.log_le_log_iff L0 hpow).mp (by linarith)) ?_
    obtain ⟨-, hm⟩ := prod_le cs (fun _ => (1 / 100000 : ℝ)) (magDens C f d0 d1 s0) (fun c _ => ⟨by norm_num, magDens_floor ..⟩)
    rw [List.map_const', List.prod_replicate] at hm
    exact hm

/-- **C181** fails, magnitude: the likelihood of the centrals has no largest value. -/
theorem C181_false_m (C : Ctx N) (f : Phi1) (cs : List Clu) (c0 : Clu) (h0 : c0 ∈ cs) (hp : Probs c0) (hc0 : 0 < c0.pcen) (hw : 0 < C.cwt c0)
    (hphi : 0 < f.sM + f.sSlope * Real.log (c0.lam / C.pivot)) (hb : 0 ≤ C.bkg c0) (B : ℝ) :
    ∃ d0 d1 s, 0 < s ∧ B < magLike C f cs d0 d1 s := by
  obtain ⟨l1, l2, rfl⟩ := List.append_of_mem h0
  have hB : 0 < |B| + 1 := by positivity
  have hpi := sqrt2pi_pos
  let F : ℝ := (1 / 100000) ^ (l1.length + l2.length)
  have hF : 0 < F := by show (0:ℝ) < _ ^ _; positivity
  refine ⟨c0.refmag - C.mstar c0.z, 0, c0.pcen * C.cwt c0 * F / (Real.sqrt (2 * Real.pi) * (|B| + 1)), by positivity, ?_⟩
  set s := c0.pcen * C.cwt c0 * F / (Real.sqrt (2 * Real.pi) * (|B| + 1)) with hsd
  have hs : 0 < s := by positivity
  obtain ⟨-, b1⟩ := prod_le l1 (fun _ => (1 / 100000 : ℝ)) (magDens C f (c0.refmag - C.mstar c0.z) 0 s)
    (fun c _ => ⟨by norm_num, magDens_floor ..⟩)
  obtain ⟨-, b2⟩ := prod_le l2 (fun _ => (1 / 100000 : ℝ)) (magDens C f (c0.refmag - C.mstar c0.z) 0 s)
    (fun c _ => ⟨by norm_num, magDens_floor ..⟩)
  rw [List.map_const', List.prod_replicate] at b1 b2
  have hx : c0.pcen * (1 / (s * Real.sqrt (2 * Real.pi))) * C.cwt c0 ≤ magDens C f (c0.refmag - C.mstar c0.z) 0 s c0 := by
    unfold magDens
    refine le_trans ?_ (le_max_right _ _)
    rw [show C.mstar c0.z + (c0.refmag - C.mstar c0.z) + 0 * Real.log ((c0.lam / c0.scaleval) / C.pivot) = c0.refmag by ring, normal_at]
    have i1 := mul_nonneg (mul_nonneg hp.2.1 (normal_pos (C.mstar c0.z + f.mM + f.mSlope * Real.log (c0.lam / C.pivot)) c0.refmag hphi).le)
      hw.le
    have i2 : 0 ≤ (1 - c0.pcen - c0.psat) * (C.bkg c0 * Real.pi * c0.rlam ^ 2) :=
      mul_nonneg (by have := hp.2.2; linarith) (mul_nonneg (mul_nonneg hb Real.pi_pos.le) (sq_nonneg _))
    linarith
  have hx0 : 0 ≤ c0.pcen * (1 / (s * Real.sqrt (2 * Real.pi))) * C.cwt c0 := by positivity
  have hval : (1 / 100000 : ℝ) ^ l1.length * (c0.pcen * (1 / (s * Real.sqrt (2 * Real.pi))) * C.cwt c0 * (1 / 100000) ^ l2.length) = |B| + 1 := by
    have : (1 / 100000 : ℝ) ^ l1.length * (c0.pcen * (1 / (s * Real.sqrt (2 * Real.pi))) * C.cwt c0 * (1 / 100000) ^ l2.length) =
        c0.pcen * (1 / (s * Real.sqrt (2 * Real.pi))) * C.cwt c0 * F := by
      show _ = _ * (1 / 100000 : ℝ) ^ (l1.length + l2.length)
      rw [pow_add]; ring
    rw [this, hsd]
    field_simp
  unfold magLike
  rw [List.map_append, List.map_cons, List.prod_append, List.prod_cons]
  calc B < |B| + 1 := by have := le_abs_self B; linarith
    _ = _ := hval.symm
    _ ≤ _ := mul_le_mul b1 (mul_le_mul hx b2 (by positivity) (hx0.trans hx)) (by positivity) (le_trans (by positivity) b1)

/-- Two wanted clusters for the examples. -/
noncomputable def exCat : List Clu := [⟨20, 1, 1, 1 / 2, 0, 16, 1 / 2, 1 / 4, 1⟩, ⟨30, 1, 2, 1 / 2, 0, 15, 1 / 2, 1 / 4, 1⟩]

theorem exCat_wanted : wantedOf exC exCat = exCat := by
  rw [filter_wanted]
  refine List.filter_eq_self.mpr ?_
  intro c hc
  simp only [exCat, List.mem_cons, List.not_mem_nil, or_false] at hc
  rcases hc with rfl | rfl <;> exact (chosen_iff _ _).mpr (by unfold Wanted exC; norm_num)

/-- The hypotheses of both theorems are met: configured values without files, and two clusters. -/
example : (run exC ⟨-2, -1, 1, 0⟩ none none ⟨some (0, 1), some (0, 1)⟩ exCat).1.fg = some (0, 1) ∧ Varied (wantedOf exC exCat) ∧
    (∀ c ∈ wantedOf exC exCat, Probs c ∧ c.pcen < 1 ∧ 0 < c.pcen ∧ 0 < exC.cwt c ∧ 0 ≤ exC.bkg c) ∧
    (∀ c ∈ wantedOf exC exCat, 0 < (⟨-2, -1, 1, 0⟩ : Phi1).sM + (⟨-2, -1, 1, 0⟩ : Phi1).sSlope * Real.log (c.lam / exC.pivot)) ∧
    (∃ s0, start3 exC (wantedOf exC exCat) = (0, 0, s0) ∧ 0 < s0) := by
  rw [exCat_wanted]
  refine ⟨rfl, ⟨_, List.mem_cons_self .., _, List.mem_cons_of_mem _ (List.mem_cons_self ..), by norm_num⟩, ?_, ?_, _, rfl, ?_⟩
  · intro c hc
    simp only [exCat, List.mem_cons, List.not_mem_nil, or_false] at hc
    rcases hc with rfl | rfl <;> (unfold Probs exC; norm_num)
  · intro c _; norm_num
  · refine std_pos _ (-1) (-2) ?_ ?_ (by norm_num)
    · simp [exCat, exC]; norm_num
    · simp [exCat, exC]; norm_num

/-! ## C183: the constructor -/

/-- **C183**: only in the first iteration a missing file is refused, and only if the configured width is negative; after the
constructor accepted a first iteration with different files, values that no file gave have a configured width that is not
negative. -/
theorem C183_constructor [DecidableEq N] (it : Nat) (fgfile satfile : Option N) (v : Vals) :
    (construct it fgfile satfile v = .error .runtimeError ↔
      it = 1 ∧ ((fgfile = none ∧ ∃ q, v.fg = some q ∧ q.2 < 0) ∨ (satfile = none ∧ ∃ q, v.sat = some q ∧ q.2 < 0))) ∧
    (∀ (C : Ctx N) (f : Phi1) (cat : List Clu), it = 1 → (fgfile = satfile → fgfile = none) → construct it fgfile satfile v = .ok () →
      (∀ q, (run C f fgfile satfile v cat).1.fg = some q → (∃ n, fgfile = some n ∧ fgFit C (C.read n) = some q) ∨ 0 ≤ q.2) ∧
      (∀ q, (run C f fgfile satfile v cat).1.sat = some q → (∃ n, satfile = some n ∧ fgFit C (C.read n) = some q) ∨ 0 ≤ q.2)) := by
  constructor
  · unfold construct widthUnset
    split
    · rename_i h; simp only [true_iff]; exact ⟨h.1, Or.inl h.2⟩
    · rename_i h
      split
      · rename_i h'; simp only [true_iff]; exact ⟨h'.1, Or.inr h'.2⟩
      · rename_i h'
        simp only [reduceCtorEq, false_iff]
        rintro ⟨a, b | b⟩
        · exact h ⟨a, b⟩
        · exact h' ⟨a, b⟩
  · intro C f cat hit hd hc
    unfold construct widthUnset at hc
    split at hc
    · cases hc
    · rename_i h
      split at hc
      · cases hc
      · rename_i h'
        obtain ⟨e1, e2, -⟩ := C182_files_partial C f fgfile satfile v cat hd
        rw [e1, e2]
        refine ⟨fun q hq => ?_, fun q hq => ?_⟩
        · cases fgfile with
          | none =>
            right
            by_contra hn
            exact h ⟨hit, rfl, q, hq, not_le.mp hn⟩
          | some n => exact Or.inl ⟨n, rfl, hq⟩
        · cases satfile with
          | none =>
            right
            by_contra hn
            exact h' ⟨hit, rfl, q, hq, not_le.mp hn⟩
          | some n => exact Or.inl ⟨n, rfl, hq⟩

/-! ## C184: the brightest galaxy through iterations -/

def phiNames : List String := ["phi1_mmstar_m", "phi1_mmstar_slope", "phi1_msig_m", "phi1_msig_slope"]

theorem setWcen_phi (phi other cfg : String → Int) :
    let c := Config.setWcen (some (columns phi other, true)) cfg
    c "phi1_mmstar_m" = phi "phi1_mmstar_m" ∧ c "phi1_mmstar_slope" = phi "phi1_mmstar_m" ∧ c "phi1_msig_m" = phi "phi1_msig_m" ∧
      c "phi1_msig_slope" = phi "phi1_msig_slope" := by
  simp [Config.setWcen, Config.wcenVals, columns]

theorem iter_later (l : List ((String → Int) × (String → Int))) (cfg p : String → Int) (hp : -1000 ≤ p "phi1_mmstar_m")
    (h1 : cfg "phi1_mmstar_m" = p "phi1_mmstar_m") (h2 : cfg "phi1_msig_m" = p "phi1_msig_m")
    (h3 : cfg "phi1_msig_slope" = p "phi1_msig_slope") (h4 : cfg "phi1_mmstar_slope" = p "phi1_mmstar_m") :
    ∀ q ∈ (iterations l cfg).1, q "phi1_mmstar_m" = p "phi1_mmstar_m" ∧ q "phi1_msig_m" = p "phi1_msig_m" ∧
      q "phi1_msig_slope" = p "phi1_msig_slope" ∧ q "phi1_mmstar_slope" = p "phi1_mmstar_m" := by
  induction l generalizing cfg with
  | nil => intro q hq; simp [iterations] at hq
  | cons x l ih =>
    obtain ⟨mc, other⟩ := x
    have hphi : phiOf mc cfg = cfg := by unfold phiOf; rw [if_neg (by omega)]
    intro q hq
    simp only [iterations, List.mem_cons] at hq
    rw [hphi] at hq
    rcases hq with rfl | hq
    · exact ⟨h1, h2, h3, h4⟩
    · obtain ⟨a, b, c, d⟩ := setWcen_phi cfg other cfg
      exact ih _ (a.trans h1) (c.trans h2) (d.trans h3) (b.trans h1) q hq

/-- **C184** (partial): three of the four values of the brightest galaxy are the same in all iterations. Missing: the slope of its
magnitude (`C184_false`). -/
theorem C184_iterations_partial (mc other : String → Int) (l : List ((String → Int) × (String → Int))) (cfg : String → Int)
    (hmc : -1000 ≤ (phiOf mc cfg) "phi1_mmstar_m") :
    ∀ q ∈ (iterations ((mc, other) :: l) cfg).1, ∀ n ∈ phiNames, n ≠ "phi1_mmstar_slope" → q n = phiOf mc cfg n := by
  intro q hq n hn hne
  simp only [iterations, List.mem_cons] at hq
  rcases hq with rfl | hq
  · rfl
  · obtain ⟨a, b, c, d⟩ := setWcen_phi (phiOf mc cfg) other cfg
    obtain ⟨x, y, z, -⟩ := iter_later l _ (phiOf mc cfg) hmc a c d b q hq
    simp only [phiNames, List.mem_cons, List.not_mem_nil, or_false] at hn
    rcases hn with rfl | rfl | rfl | rfl
    · exact x
    · exact absurd rfl hne
    · exact y
    · exact z

/-- **C184** fails: from the second iteration on, the slope used is the offset of the first iteration. -/
theorem C184_false (mc other : String → Int) (l : List ((String → Int) × (String → Int))) (cfg : String → Int)
    (hmc : -1000 ≤ (phiOf mc cfg) "phi1_mmstar_m") (hne : phiOf mc cfg "phi1_mmstar_slope" ≠ phiOf mc cfg "phi1_mmstar_m") :
    ∃ p rest, (iterations ((mc, other) :: l) cfg).1 = p :: rest ∧ rest.length = l.length ∧
      ∀ q ∈ rest, q "phi1_mmstar_slope" = p "phi1_mmstar_m" ∧ q "phi1_mmstar_slope" ≠ p "phi1_mmstar_slope" := by
  refine ⟨phiOf mc cfg, _, rfl, ?_, ?_⟩
  · have hl : ∀ (l : List ((String → Int) × (String → Int))) (c : String → Int), (iterations l c).1.length = l.length := by
      intro l
      induction l with
      | nil => intro c; rfl
      | cons x l ih => intro c; obtain ⟨a, b⟩ := x; simp [iterations, ih]
    exact hl l _
  · intro q hq
    obtain ⟨a, b, c, d⟩ := setWcen_phi (phiOf mc cfg) other cfg
    obtain ⟨-, -, -, w⟩ := iter_later l _ (phiOf mc cfg) hmc a c d b q hq
    exact ⟨w, by rw [w]; exact hne.symm⟩

/-- The hypotheses are met: the Monte Carlo gives different values, the configuration has none. -/
example : -1000 ≤ phiOf (fun n => if n = "phi1_mmstar_m" then -2 else -1) (fun _ => -9999) "phi1_mmstar_m" ∧
    phiOf (fun n => if n = "phi1_mmstar_m" then -2 else -1) (fun _ => -9999) "phi1_mmstar_slope" ≠
      phiOf (fun n => if n = "phi1_mmstar_m" then -2 else -1) (fun _ => -9999) "phi1_mmstar_m" := by
  simp [phiOf]

/-! ## C185: the brightest galaxies -/

open Redmapper.Finders Redmapper.Zlambda

/-- `a ≤ b ≤ c` are the three smallest of a list. -/
def Smallest3 (l : List ℚ) (t : ℚ × ℚ × ℚ) : Prop :=
  ∃ rest, l.Perm (t.1 :: t.2.1 :: t.2.2 :: rest) ∧ t.1 ≤ t.2.1 ∧ t.2.1 ≤ t.2.2 ∧ ∀ x ∈ rest, t.2.2 ≤ x

/-- **C185** (partial): a trial gives the three brightest of a sample of one galaxy less than the richness, drawn without
repetition. Missing: a sample as large as the richness (`C185_false`). -/
theorem C185_brightest_partial (argsort : List ℚ → List Nat) (ha : Argsort argsort) (mag : List ℚ) (st : List Nat)
    (hst : st.Perm (List.range mag.length)) (lam : Nat) (h4 : 4 ≤ lam) (hn : lam ≤ mag.length + 1) :
    ∃ t, brightest3 argsort mag st lam = some t ∧ (st.take (lam - 1)).length = lam - 1 ∧ (st.take (lam - 1)).Nodup ∧
      Smallest3 ((st.take (lam - 1)).map fun i => mag.getD i 0) t := by
  have hlen : st.length = mag.length := by rw [hst.length_eq, List.length_range]
  have hlt : ∀ i ∈ st, i < mag.length := fun i hi => List.mem_range.mp (hst.mem_iff.mp hi)
  have hu : takeRows mag (st.take (lam - 1)) = (st.take (lam - 1)).map fun i => mag.getD i 0 := by
    have : ∀ l : List Nat, (∀ i ∈ l, i < mag.length) → takeRows mag l = l.map fun i => mag.getD i 0 := by
      intro l hl
      induction l with
      | nil => rfl
      | cons i l ih =>
        have h1 := hl i (by simp)
        have h2 := ih (fun j hj => hl j (by simp [hj]))
        unfold takeRows at h2 ⊢
        rw [List.filterMap_cons]
        simp only [List.map_cons, List.getD, List.getElem?_eq_getElem h1, Option.getD_some]
        rw [h2]; rfl
    exact this _ (fun i hi => hlt i (List.mem_of_mem_take hi))
  obtain ⟨hperm, hsort⟩ := ha (takeRows mag (st.take (lam - 1)))
  have hp := takeRows_perm _ _ hperm
  have htake : (st.take (lam - 1)).length = lam - 1 := by rw [List.length_take]; omega
  set s := takeRows (takeRows mag (st.take (lam - 1))) (argsort (takeRows mag (st.take (lam - 1)))) with hsd
  have hsl : 3 ≤ s.length := by rw [hp.length_eq, hu, List.length_map, htake]; omega
  match hs : s, hsl with
  | a :: b :: c :: rest, _ =>
    refine ⟨(a, b, c), ?_, htake, (hst.nodup_iff.mpr List.nodup_range).sublist (List.take_sublist ..), rest, ?_, ?_⟩
    · unfold brightest3
      simp only [← hsd]
      rfl
    · rw [← hu]; exact hp.symm
    · simp only [List.pairwise_cons, List.mem_cons] at hsort
      exact ⟨hsort.1 b (Or.inl rfl), hsort.2.1 c (Or.inl rfl), fun x hx => hsort.2.2.1 x hx⟩

/-- **C185** fails: four galaxies for richness four, the brightest of which is drawn last. -/
theorem C185_false : Argsort (argsortRef (β := ℚ)) ∧ [0, 1, 2, 3].Perm (List.range 4) ∧
    ∃ t, brightest3 argsortRef [3, 2, 1, 0] [0, 1, 2, 3] 4 = some t ∧
      ¬ Smallest3 (([0, 1, 2, 3].take 4).map fun i => ([3, 2, 1, 0] : List ℚ).getD i 0) t := by
  refine ⟨argsortRef_ok, by decide, (1, 2, 3), by decide +kernel, ?_⟩
  rintro ⟨rest, h, -, -, hr⟩
  have h0 : (0 : ℚ) ∈ (1, 2, 3).1 :: ((1, 2, 3) : ℚ × ℚ × ℚ).2.1 :: ((1, 2, 3) : ℚ × ℚ × ℚ).2.2 :: rest := h.mem_iff.mp (by simp)
  simp only [List.mem_cons] at h0
  rcases h0 with h0 | h0 | h0 | h0
  · norm_num at h0
  · norm_num at h0
  · norm_num at h0
  · have := hr 0 h0; norm_num at this

/-! ## C186: the calibrated model is the applied model -/

/-- **C186** (partial): for clusters without scaling of the richness, centering uses the mean magnitude of the calibration, and for
richness up to the largest calibrated one also its widths. Missing: scaled richness (`C186_false`). -/
theorem C186_applied_partial (C : Ctx N) (p : ℝ × ℝ × ℝ) (s : ℝ) (c : Clu) :
    (c.scaleval = 1 → appliedMean C p c = calibratedMean C p c) ∧ (c.lam ≤ C.maxlam → appliedWidth C s c = calibratedWidth C s c) ∧
    (c.scaleval = 1 → Wanted C c → appliedWidth C s c = calibratedWidth C s c) := by
  have h2 : c.lam ≤ C.maxlam → appliedWidth C s c = calibratedWidth C s c := by
    intro h
    unfold appliedWidth calibratedWidth root
    rw [min_eq_left h, div_eq_mul_one_div]
  refine ⟨?_, h2, fun h hw => h2 ?_⟩
  · intro h; unfold appliedMean calibratedMean; rw [h, div_one]
  · have := hw.2.1; rw [h, div_one] at this; exact this.le

/-- **C186** fails for every scaled richness if the magnitude depends on richness, by the slope times the logarithm of the scale; and
for richnesses above the largest one that are calibrated because of their scale. -/
theorem C186_false (C : Ctx N) (p : ℝ × ℝ × ℝ) (c : Clu) (hl : 0 < c.lam) (hv : 0 < c.scaleval) (hpiv : 0 < C.pivot) :
    appliedMean C p c - calibratedMean C p c = p.2.1 * Real.log c.scaleval ∧
    (p.2.1 ≠ 0 → c.scaleval ≠ 1 → appliedMean C p c ≠ calibratedMean C p c) ∧
    (∀ s, 0 < s → 0 < C.maxlam → C.maxlam < c.lam → calibratedWidth C s c < appliedWidth C s c) := by
  have h1 : appliedMean C p c - calibratedMean C p c = p.2.1 * Real.log c.scaleval := by
    unfold appliedMean calibratedMean
    rw [Real.log_div (by positivity) hpiv.ne', Real.log_div (by positivity) hpiv.ne', Real.log_div hl.ne' hv.ne']
    ring
  refine ⟨h1, ?_, ?_⟩
  · intro ha hb e
    rw [e, sub_self] at h1
    rcases mul_eq_zero.mp h1.symm with h | h
    · exact ha h
    · rcases Real.log_eq_zero.mp h with h | h | h <;> [linarith; exact hb h; linarith]
  · intro s hs hm hlt
    unfold appliedWidth calibratedWidth root
    rw [min_eq_right hlt.le, mul_one_div]
    refine div_lt_div_of_pos_left hs (Real.sqrt_pos.mpr (by positivity)) (Real.sqrt_lt_sqrt (by positivity) ?_)
    gcongr

/-- A cluster with scaled richness that is used for the calibration although its richness is above the largest one. -/
example : Wanted exC ⟨150, 2, 1, 1 / 2, 0, 16, 1 / 2, 1 / 4, 1⟩ ∧ exC.maxlam < 150 := by
  unfold Wanted exC; norm_num

/-! ## The starts of the fits -/

/-- Mean and spread of a list of values: the deviations from the mean add to zero and the square of the spread is their mean square. -/
def MeanSpread (l : List ℝ) (m s : ℝ) : Prop :=
  (l.map fun x => x - m).sum = 0 ∧ 0 ≤ s ∧ s ^ 2 * l.length = (l.map fun x => (x - m) ^ 2).sum

theorem meanSpread (l : List ℝ) (hl : l ≠ []) : MeanSpread l (mean l) (std l) := by
  have hpos : (0 : ℝ) < l.length := by exact_mod_cast List.length_pos_of_ne_nil hl
  have hsum : ∀ (l : List ℝ) (m : ℝ), (l.map fun x => x - m).sum = l.sum - m * l.length := by
    intro l m
    induction l with
    | nil => simp
    | cons a l ih => simp only [List.map_cons, List.sum_cons, ih, List.length_cons]; push_cast; ring
  have hnn : 0 ≤ (l.map fun x => (x - mean l) ^ 2).sum := List.sum_nonneg (by
    intro x hx
    obtain ⟨y, -, rfl⟩ := List.mem_map.mp hx
    positivity)
  refine ⟨?_, Real.sqrt_nonneg _, ?_⟩
  · rw [hsum]
    unfold mean
    field_simp
    ring
  · unfold std
    rw [Real.sq_sqrt (by positivity)]
    field_simp

/-- **C181**, the starts: the fit of the connectivities starts from mean and spread of their logarithms, and the fit of the magnitudes from the line through
the magnitudes, relative to the characteristic one, and the spread of the magnitudes around that line. -/
theorem C181_start (C : Ctx N) (cs : List Clu) (hcs : cs ≠ []) :
    MeanSpread (cs.map fun c => Real.log c.w) (start2 cs).1 (start2 cs).2 ∧
    (∀ slope d0, C.line (cs.map fun c => (Real.log (c.lam / C.pivot), c.refmag - C.mstar c.z)) = (slope, d0) →
      ∃ s m, start3 C cs = (d0, slope, s) ∧
        MeanSpread (cs.map fun c => c.refmag - (C.mstar c.z + d0 + slope * Real.log (c.lam / C.pivot))) m s) := by
  refine ⟨meanSpread _ (by simpa using hcs), fun slope d0 h => ?_⟩
  have e : (cs.map fun c => c.refmag - (C.mstar c.z + d0 + slope * Real.log (c.lam / C.pivot))) =
      cs.map fun c => (c.refmag - C.mstar c.z) - (d0 + slope * Real.log (c.lam / C.pivot)) :=
    List.map_congr_left fun c _ => by ring
  refine ⟨std (cs.map fun c => (c.refmag - C.mstar c.z) - (d0 + slope * Real.log (c.lam / C.pivot))),
    mean (cs.map fun c => (c.refmag - C.mstar c.z) - (d0 + slope * Real.log (c.lam / C.pivot))), ?_, ?_⟩
  · unfold start3
    rw [h]
  · rw [e]
    exact meanSpread _ (by simpa using hcs)

example : MeanSpread [1, 3] 2 1 := ⟨by norm_num, by norm_num, by norm_num⟩

end Redmapper.WcenCal
