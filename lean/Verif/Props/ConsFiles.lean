/-
C335-C337: the files of a consolidation.
-/
import Verif.Model.ConsFiles
import Verif.Props.RandOut
import Verif.Props.MedCal
import Mathlib.Tactic.Linarith
import Mathlib.Tactic.NormNum

set_option linter.unusedSectionVars false
set_option linter.unusedSimpArgs false

namespace Redmapper.ConsFiles

open Redmapper.CatTask (fileName)
open Redmapper.MedCal (pad2 pad2_inj)
open Redmapper.RandOut (fileName_inj digits_split pad2_digit)

variable {ρ μ : Type}

/-! ## Specification -/

/-- All clusters selected for the k-th cut, file by file. -/
def RowsOf (files : List (List (List ρ × List μ))) (k : Nat) : List ρ := (files.map fun f => (f.getD k ([], [])).1).flatten

/-- Their members, of the files with a cluster. -/
def MemsOf (files : List (List (List ρ × List μ))) (k : Nat) : List μ :=
  ((files.map fun f => f.getD k ([], [])).filter fun r => !r.1.isEmpty).map Prod.snd |>.flatten

/-! ## Names -/

theorem extraName_inj (a b : Cut) (hk : a.2.isSome = b.2.isSome) (h : extraName a = extraName b) :
    ⌊a.1⌋₊ = ⌊b.1⌋₊ ∧ a.2.map (fun v => ⌊v * 10⌋₊) = b.2.map (fun v => ⌊v * 10⌋₊) := by
  unfold extraName at h
  have e : "_vl".toList = '_' :: "vl".toList := by decide +kernel
  obtain ⟨a1, a2⟩ := a
  obtain ⟨b1, b2⟩ := b
  cases a2 with
  | none =>
    cases b2 with
    | none => exact ⟨pad2_inj _ _ (List.append_cancel_left h), rfl⟩
    | some w => simp at hk
  | some v =>
    cases b2 with
    | none => simp at hk
    | some w =>
      simp only [List.append_assoc] at h
      have h := List.append_cancel_left h
      rw [e] at h
      obtain ⟨g1, g2⟩ := digits_split (pad2_digit _) (pad2_digit _) (by simp) (by simp) h
      refine ⟨pad2_inj _ _ g1, ?_⟩
      have := pad2_inj _ _ (List.append_cancel_left g2)
      simpa using this

theorem catFile_inj (o v : Str) (a b : Cut) (h : catFile o v a = catFile o v b) : extraName a = extraName b := by
  unfold catFile at h
  rw [fileName_inj] at h
  exact List.append_cancel_right h

theorem memFile_inj (o v : Str) (a b : Cut) (h : memFile o v a = memFile o v b) : extraName a = extraName b := by
  unfold memFile at h
  rw [fileName_inj] at h
  exact List.append_cancel_right h

/-- The cuts have names of their own if no two richnesses have the same integer part and no two luminosities the same number of tenths. -/
theorem cuts_names (lambdas vlims : List ℚ) (hl : (lambdas.map fun l => ⌊l⌋₊).Nodup) (hv : (vlims.map fun v => ⌊v * 10⌋₊).Nodup) :
    ((cuts lambdas vlims).map extraName).Nodup := by
  have key : ((cuts lambdas vlims).map fun c : Cut => (⌊c.1⌋₊, c.2.map fun v => ⌊v * 10⌋₊)).Nodup := by
    unfold cuts
    induction lambdas with
    | nil => simp
    | cons l ls ih =>
      simp only [List.map_cons, List.nodup_cons] at hl
      rw [List.flatMap_cons, List.map_append, List.nodup_append]
      refine ⟨?_, ih hl.2, ?_⟩
      · split
        · simp
        · rw [List.map_map]
          have : (vlims.map ((fun c : Cut => (⌊c.1⌋₊, c.2.map fun v => ⌊v * 10⌋₊)) ∘ fun v => (l, some v))) =
              (vlims.map fun v => ⌊v * 10⌋₊).map fun t => (⌊l⌋₊, some t) := by rw [List.map_map]; rfl
          rw [this]
          exact hv.map (fun a b hab => by simpa using hab)
      · intro x hx y hy hxy
        subst hxy
        have h1 : x.1 = ⌊l⌋₊ := by
          simp only [List.mem_map] at hx
          obtain ⟨c, hc, rfl⟩ := hx
          split at hc
          · simp only [List.mem_singleton] at hc; rw [hc]
          · simp only [List.mem_map] at hc; obtain ⟨v, _, rfl⟩ := hc; rfl
        simp only [List.mem_map, List.mem_flatMap] at hy
        obtain ⟨c, ⟨l', hl', hc⟩, rfl⟩ := hy
        have h2 : ⌊c.1⌋₊ = ⌊l'⌋₊ := by
          split at hc
          · simp only [List.mem_singleton] at hc; rw [hc]
          · simp only [List.mem_map] at hc; obtain ⟨v, _, rfl⟩ := hc; rfl
        exact hl.1 (List.mem_map.mpr ⟨l', hl', by rw [← h2]; exact h1⟩)
  have hsome : ∀ a ∈ cuts lambdas vlims, ∀ b ∈ cuts lambdas vlims, a.2.isSome = b.2.isSome := by
    have : ∀ a ∈ cuts lambdas vlims, a.2.isSome = !vlims.isEmpty := by
      intro a ha
      simp only [cuts, List.mem_flatMap] at ha
      obtain ⟨l, _, hc⟩ := ha
      split at hc
      · rename_i h; simp only [List.mem_singleton] at hc; rw [hc, h]; rfl
      · rename_i h; simp only [List.mem_map] at hc; obtain ⟨v, _, rfl⟩ := hc
        cases vlims with
        | nil => exact absurd rfl h
        | cons => rfl
    intro a ha b hb
    rw [this a ha, this b hb]
  rw [List.nodup_iff_pairwise_ne, List.pairwise_map] at key ⊢
  refine List.Pairwise.imp_of_mem ?_ key
  intro a b ha hb hab he
  obtain ⟨h1, h2⟩ := extraName_inj a b (hsome a ha b hb) he
  exact hab (Prod.ext h1 h2)

/-! ## Loops -/

theorem put_same {β : Type} (d : Str → Option β) (n : Str) (v : β) : put d n v n = some v := by simp [put]

theorem put_other {β : Type} (d : Str → Option β) (n m : Str) (v : β) (h : m ≠ n) : put d n v m = d m := by simp [put, h]

theorem addCut_started (n : Str × Str) (k j : Nat) (r : List ρ × List μ) (s : St ρ μ) (h : j ≠ k) : (addCut n k r s).started j = s.started j := by
  unfold addCut
  split
  · rfl
  · split
    · rfl
    · simp [h]

theorem addCut_cat (n : Str × Str) (k : Nat) (r : List ρ × List μ) (s : St ρ μ) (m : Str) (h : m ≠ n.1) : (addCut n k r s).disk.cat m = s.disk.cat m := by
  unfold addCut
  split
  · rfl
  · split <;> simp [put, h]

theorem addCut_mem (n : Str × Str) (k : Nat) (r : List ρ × List μ) (s : St ρ μ) (m : Str) (h : m ≠ n.2) : (addCut n k r s).disk.mem m = s.disk.mem m := by
  unfold addCut
  split
  · rfl
  · split <;> simp [put, h]

/-- `addCut` sees only its own part of the state. -/
theorem addCut_congr (n : Str × Str) (k : Nat) (r : List ρ × List μ) (s t : St ρ μ) (h1 : s.started k = t.started k) (h2 : s.disk.cat n.1 = t.disk.cat n.1)
    (h3 : s.disk.mem n.2 = t.disk.mem n.2) :
    (addCut n k r s).started k = (addCut n k r t).started k ∧ (addCut n k r s).disk.cat n.1 = (addCut n k r t).disk.cat n.1 ∧
    (addCut n k r s).disk.mem n.2 = (addCut n k r t).disk.mem n.2 := by
  unfold addCut
  by_cases h : r.1.isEmpty = true
  · simp only [if_pos h]; exact ⟨h1, h2, h3⟩
  · simp only [if_neg h, ← h1]
    by_cases h' : s.started k = true
    · simp only [if_pos h', put_same, h2, h3]
      exact ⟨h1, trivial, trivial⟩
    · simp [if_neg h', put_same]

theorem addFile_spec (ns : List (Str × Str)) (h1 : (ns.map Prod.fst).Nodup) (h2 : (ns.map Prod.snd).Nodup) (k0 : Nat) (rs : List (List ρ × List μ))
    (hl : rs.length = ns.length) (s : St ρ μ) :
    (∀ j, j < k0 → (addFile ns k0 rs s).started j = s.started j) ∧
    (∀ m, m ∉ ns.map Prod.fst → (addFile ns k0 rs s).disk.cat m = s.disk.cat m) ∧
    (∀ m, m ∉ ns.map Prod.snd → (addFile ns k0 rs s).disk.mem m = s.disk.mem m) ∧
    (∀ i n r, ns[i]? = some n → rs[i]? = some r →
      (addFile ns k0 rs s).started (k0 + i) = (addCut n (k0 + i) r s).started (k0 + i) ∧
      (addFile ns k0 rs s).disk.cat n.1 = (addCut n (k0 + i) r s).disk.cat n.1 ∧
      (addFile ns k0 rs s).disk.mem n.2 = (addCut n (k0 + i) r s).disk.mem n.2) := by
  induction ns generalizing k0 rs s with
  | nil =>
    have : addFile [] k0 rs s = s := by cases rs <;> rfl
    rw [this]
    exact ⟨fun _ _ => rfl, fun _ _ => rfl, fun _ _ => rfl, fun i n r h => by simp at h⟩
  | cons n ns ih =>
    cases rs with
    | nil => simp at hl
    | cons r rs =>
      simp only [List.map_cons, List.nodup_cons] at h1 h2
      obtain ⟨g1, g2, g3, g4⟩ := ih h1.2 h2.2 (k0 + 1) rs (by simpa using hl) (addCut n k0 r s)
      rw [addFile]
      refine ⟨?_, ?_, ?_, ?_⟩
      · intro j hj; rw [g1 j (by omega), addCut_started _ _ _ _ _ (by omega)]
      · intro m hm
        simp only [List.map_cons, List.mem_cons, not_or] at hm
        rw [g2 m hm.2, addCut_cat _ _ _ _ _ hm.1]
      · intro m hm
        simp only [List.map_cons, List.mem_cons, not_or] at hm
        rw [g3 m hm.2, addCut_mem _ _ _ _ _ hm.1]
      · intro i n' r' hn hr
        cases i with
        | zero =>
          simp only [List.getElem?_cons_zero, Option.some.injEq] at hn hr
          subst hn; subst hr
          exact ⟨g1 _ (by omega), g2 _ h1.1, g3 _ h2.1⟩
        | succ i =>
          simp only [List.getElem?_cons_succ] at hn hr
          have hmem := List.mem_of_getElem? hn
          have hc := addCut_congr n' (k0 + 1 + i) r' (addCut n k0 r s) s (addCut_started _ _ _ _ _ (by omega))
            (addCut_cat _ _ _ _ _ (fun e => h1.1 (e ▸ List.mem_map.mpr ⟨n', hmem, rfl⟩)))
            (addCut_mem _ _ _ _ _ (fun e => h2.1 (e ▸ List.mem_map.mpr ⟨n', hmem, rfl⟩)))
          obtain ⟨a, b, c⟩ := g4 i n' r' hn hr
          have e : k0 + (i + 1) = k0 + 1 + i := by omega
          rw [e]
          exact ⟨a.trans hc.1, b.trans hc.2.1, c.trans hc.2.2⟩

theorem addAll_spec (ns : List (Str × Str)) (h1 : (ns.map Prod.fst).Nodup) (h2 : (ns.map Prod.snd).Nodup) (files : List (List (List ρ × List μ)))
    (hl : ∀ f ∈ files, f.length = ns.length) (d : Disk ρ μ) :
    (∀ m, m ∉ ns.map Prod.fst → (addAll ns files ⟨fun _ => false, d⟩).disk.cat m = d.cat m) ∧
    (∀ m, m ∉ ns.map Prod.snd → (addAll ns files ⟨fun _ => false, d⟩).disk.mem m = d.mem m) ∧
    (∀ i n, ns[i]? = some n →
      ((addAll ns files ⟨fun _ => false, d⟩).started i = true ↔ RowsOf files i ≠ []) ∧
      (RowsOf files i ≠ [] → (addAll ns files ⟨fun _ => false, d⟩).disk.cat n.1 = some (RowsOf files i) ∧
        (addAll ns files ⟨fun _ => false, d⟩).disk.mem n.2 = some (MemsOf files i)) ∧
      (RowsOf files i = [] → (addAll ns files ⟨fun _ => false, d⟩).disk.cat n.1 = d.cat n.1 ∧
        (addAll ns files ⟨fun _ => false, d⟩).disk.mem n.2 = d.mem n.2)) := by
  induction files using List.reverseRecOn with
  | nil =>
    refine ⟨fun _ _ => rfl, fun _ _ => rfl, fun i n _ => ⟨?_, ?_, ?_⟩⟩
    · simp [addAll, RowsOf]
    · intro h; exact absurd rfl h
    · intro _; exact ⟨rfl, rfl⟩
  | append_singleton files f ih =>
    obtain ⟨i1, i2, i3⟩ := ih (fun f hf => hl f (by simp [hf]))
    have he : addAll ns (files ++ [f]) ⟨fun _ => false, d⟩ = addFile ns 0 f (addAll ns files ⟨fun _ => false, d⟩) := by
      simp [addAll, List.foldl_append]
    have hlf : f.length = ns.length := hl f (by simp)
    obtain ⟨_, g2, g3, g4⟩ := addFile_spec ns h1 h2 0 f hlf (addAll ns files ⟨fun _ => false, d⟩)
    rw [he]
    refine ⟨fun m hm => by rw [g2 m hm, i1 m hm], fun m hm => by rw [g3 m hm, i2 m hm], ?_⟩
    intro i n hn
    have hi : i < f.length := by rw [hlf]; exact (List.getElem?_eq_some_iff.mp hn).1
    have hr := List.getElem?_eq_getElem hi
    obtain ⟨a, b, c⟩ := g4 i n f[i] hn hr
    simp only [Nat.zero_add] at a b c
    rw [a, b, c]
    obtain ⟨j1, j2, j3⟩ := i3 i n hn
    have hgd : f.getD i ([], []) = f[i] := by rw [List.getD_eq_getElem?_getD, hr]; rfl
    have hR : RowsOf (files ++ [f]) i = RowsOf files i ++ f[i].1 := by
      rw [RowsOf, List.map_append, List.flatten_append, ← RowsOf, List.map_singleton, hgd, List.flatten_singleton]
    have hM : MemsOf (files ++ [f]) i = MemsOf files i ++ (if f[i].1.isEmpty then [] else f[i].2) := by
      rw [MemsOf, List.map_append, List.filter_append, List.map_append, List.flatten_append, ← MemsOf, List.map_singleton, hgd]
      by_cases h : f[i].1.isEmpty = true
      · rw [if_pos h, List.filter_cons_of_neg (by simp [h])]; rfl
      · rw [if_neg h, List.filter_cons_of_pos (by simp [h])]; simp
    unfold addCut
    by_cases h : f[i].1.isEmpty = true
    · have h0 : f[i].1 = [] := List.isEmpty_iff.mp h
      simp only [if_pos h]
      rw [hR, hM, h0, List.append_nil, if_pos (by simp [h0]), List.append_nil]
      exact ⟨j1, j2, j3⟩
    · have h0 : f[i].1 ≠ [] := fun e => h (List.isEmpty_iff.mpr e)
      have hne : RowsOf (files ++ [f]) i ≠ [] := by rw [hR]; simp [h0]
      simp only [if_neg h]
      by_cases hs : (addAll ns files ⟨fun _ => false, d⟩).started i = true
      · simp only [if_pos hs, put_same]
        obtain ⟨k1, k2⟩ := j2 (j1.mp hs)
        refine ⟨by simp [hs, hne], ?_, fun e => absurd e hne⟩
        intro _
        rw [k1, k2, hR, hM, if_neg h]
        exact ⟨rfl, rfl⟩
      · simp only [if_neg hs, put_same]
        have hr0 : RowsOf files i = [] := by
          by_contra hc
          exact hs (j1.mpr hc)
        have hm0 : MemsOf files i = [] := by
          have hall : ∀ g ∈ files, (g.getD i ([], [])).1 = [] := by
            intro g hg
            unfold RowsOf at hr0
            rw [List.flatten_eq_nil_iff] at hr0
            exact hr0 _ (List.mem_map.mpr ⟨g, hg, rfl⟩)
          unfold MemsOf
          rw [List.filter_eq_nil_iff.mpr]
          · rfl
          · intro x hx
            obtain ⟨g, hg, rfl⟩ := List.mem_map.mp hx
            rw [hall g hg]; simp
        refine ⟨by simp [hne], ?_, fun e => absurd e hne⟩
        intro _
        rw [hR, hM, hr0, hm0, if_neg h]
        exact ⟨rfl, rfl⟩

theorem renumber_spec (fr : ρ → ρ) (fm : μ → μ) (ns : List (Str × Str)) (h1 : (ns.map Prod.fst).Nodup) (h2 : (ns.map Prod.snd).Nodup) (k : Nat) (s : St ρ μ)
    (hs : ∀ i, i < ns.length → s.started (k + i) = true) :
    (renumber fr fm ns k s).2 = none ∧
    (∀ m, m ∉ ns.map Prod.fst → (renumber fr fm ns k s).1.cat m = s.disk.cat m) ∧
    (∀ m, m ∉ ns.map Prod.snd → (renumber fr fm ns k s).1.mem m = s.disk.mem m) ∧
    (∀ n ∈ ns, (renumber fr fm ns k s).1.cat n.1 = some (((s.disk.cat n.1).getD []).map fr) ∧
      (renumber fr fm ns k s).1.mem n.2 = some (((s.disk.mem n.2).getD []).map fm)) := by
  induction ns generalizing k s with
  | nil => exact ⟨rfl, fun _ _ => rfl, fun _ _ => rfl, fun n hn => by simp at hn⟩
  | cons n ns ih =>
    simp only [List.map_cons, List.nodup_cons] at h1 h2
    have h0 := hs 0 (by simp)
    rw [Nat.add_zero] at h0
    rw [renumber, if_pos h0]
    obtain ⟨g1, g2, g3, g4⟩ := ih h1.2 h2.2 (k + 1)
      { s with disk := { cat := put s.disk.cat n.1 (((s.disk.cat n.1).getD []).map fr), mem := put s.disk.mem n.2 (((s.disk.mem n.2).getD []).map fm) } }
      (fun i hi => by
        have := hs (i + 1) (by simpa using hi)
        rw [show k + 1 + i = k + (i + 1) by omega]; exact this)
    refine ⟨g1, ?_, ?_, ?_⟩
    · intro m hm
      simp only [List.map_cons, List.mem_cons, not_or] at hm
      rw [g2 m hm.2]; exact put_other _ _ _ _ hm.1
    · intro m hm
      simp only [List.map_cons, List.mem_cons, not_or] at hm
      rw [g3 m hm.2]; exact put_other _ _ _ _ hm.1
    · intro n' hn'
      rcases List.mem_cons.mp hn' with rfl | hn'
      · rw [g2 _ h1.1, g3 _ h2.1]
        exact ⟨put_same _ _ _, put_same _ _ _⟩
      · obtain ⟨a, b⟩ := g4 n' hn'
        rw [a, b]
        have ne1 : n'.1 ≠ n.1 := fun e => h1.1 (e ▸ List.mem_map.mpr ⟨n', hn', rfl⟩)
        have ne2 : n'.2 ≠ n.2 := fun e => h2.1 (e ▸ List.mem_map.mpr ⟨n', hn', rfl⟩)
        simp only [put_other _ _ _ _ ne1, put_other _ _ _ _ ne2]
        exact ⟨trivial, trivial⟩

/-! ## C335 -/

/-- **C335**.  If no two richness cuts have the same integer part and no two luminosities the same tenths, and every cut selects a cluster, then the
files of each cut have exactly its clusters and their members, file by file, with new ids; no other file is touched. -/
theorem C335_files_partial (outbase version : Str) (lambdas vlims : List ℚ) (hl : (lambdas.map fun l => ⌊l⌋₊).Nodup)
    (hv : (vlims.map fun v => ⌊v * 10⌋₊).Nodup) (fr : ρ → ρ) (fm : μ → μ) (files : List (List (List ρ × List μ)))
    (hf : ∀ f ∈ files, f.length = (cuts lambdas vlims).length) (hne : ∀ i, i < (cuts lambdas vlims).length → RowsOf files i ≠ []) (d : Disk ρ μ) :
    let r := consolidate outbase version (cuts lambdas vlims) fr fm files d
    r.2 = none ∧
    (∀ i c, (cuts lambdas vlims)[i]? = some c →
      r.1.cat (catFile outbase version c) = some ((RowsOf files i).map fr) ∧ r.1.mem (memFile outbase version c) = some ((MemsOf files i).map fm)) ∧
    (∀ m, (∀ c ∈ cuts lambdas vlims, m ≠ catFile outbase version c) → r.1.cat m = d.cat m) ∧
    (∀ m, (∀ c ∈ cuts lambdas vlims, m ≠ memFile outbase version c) → r.1.mem m = d.mem m) := by
  set cs := cuts lambdas vlims with hcs
  have hn := cuts_names lambdas vlims hl hv
  rw [← hcs] at hn
  have hn' := hn
  rw [List.nodup_iff_pairwise_ne, List.pairwise_map] at hn'
  have h1 : ((names outbase version cs).map Prod.fst).Nodup := by
    rw [names, List.map_map, List.nodup_iff_pairwise_ne, List.pairwise_map]
    exact hn'.imp (fun hab e => hab (catFile_inj _ _ _ _ e))
  have h2 : ((names outbase version cs).map Prod.snd).Nodup := by
    rw [names, List.map_map, List.nodup_iff_pairwise_ne, List.pairwise_map]
    exact hn'.imp (fun hab e => hab (memFile_inj _ _ _ _ e))
  have hlen : (names outbase version cs).length = cs.length := by simp [names]
  obtain ⟨a1, a2, a3⟩ := addAll_spec (names outbase version cs) h1 h2 files (fun f hf' => by rw [hlen]; exact hf f hf') d
  have hstart : ∀ i, i < (names outbase version cs).length →
      (addAll (names outbase version cs) files ⟨fun _ => false, d⟩).started (0 + i) = true := by
    intro i hi
    rw [Nat.zero_add]
    exact ((a3 i _ (List.getElem?_eq_getElem hi)).1).mpr (hne i (by rw [← hlen]; exact hi))
  obtain ⟨b1, b2, b3, b4⟩ := renumber_spec fr fm (names outbase version cs) h1 h2 0 _ hstart
  refine ⟨b1, ?_, ?_, ?_⟩
  · intro i c hc
    have hnm : (names outbase version cs)[i]? = some (catFile outbase version c, memFile outbase version c) := by
      rw [names, List.getElem?_map, hc]; rfl
    obtain ⟨c1, c2⟩ := b4 _ (List.mem_of_getElem? hnm)
    obtain ⟨_, d2, _⟩ := a3 i _ hnm
    obtain ⟨e1, e2⟩ := d2 (hne i (List.getElem?_eq_some_iff.mp hc).1)
    unfold consolidate
    rw [c1, c2, e1, e2]
    exact ⟨rfl, rfl⟩
  · intro m hm
    have : m ∉ (names outbase version cs).map Prod.fst := by
      simp only [names, List.map_map, List.mem_map, not_exists, not_and]
      intro c hc e; exact hm c hc e.symm
    unfold consolidate
    rw [b2 m this, a1 m this]
  · intro m hm
    have : m ∉ (names outbase version cs).map Prod.snd := by
      simp only [names, List.map_map, List.mem_map, not_exists, not_and]
      intro c hc e; exact hm c hc e.symm
    unfold consolidate
    rw [b3 m this, a2 m this]

/-- Cuts that meet the hypotheses: those of the default configuration. -/
example : (([5, 20] : List ℚ).map fun l => ⌊l⌋₊).Nodup ∧ (([1 / 5, 5] : List ℚ).map fun v => ⌊v * 10⌋₊).Nodup ∧
    (cuts [5, 20] [1 / 5, 5]).map extraName = ["lgt05_vl02".toList, "lgt05_vl50".toList, "lgt20_vl02".toList, "lgt20_vl50".toList] := by
  decide +kernel

/-- In general it is false: two cuts with the same integer part share their files.  From the first pixel the clusters of the first cut are lost, from the
second those of both are there, some twice, and all ids are replaced twice. -/
theorem C335_false : ∃ (files : List (List (List ℕ × List ℕ))) (fr : ℕ → ℕ), (∀ i, i < 2 → RowsOf files i ≠ []) ∧
    RowsOf files 0 = [0, 1, 2] ∧ fr 1 = 2 ∧ fr 2 = 3 ∧
    (consolidate "x".toList "1".toList (cuts [5, 11 / 2] []) fr fr files ⟨fun _ => none, fun _ => none⟩).1.cat (catFile "x".toList "1".toList (5, none)) =
      some [3, 4, 4] :=
  ⟨[[([0, 1], []), ([1], [])], [([2], []), ([2], [])]], fun n => n + 1, by decide +kernel, by decide +kernel, rfl, rfl, by decide +kernel⟩

/-- And a cut that selects no cluster stops the consolidation with a KeyError; the cuts after it keep their temporary ids. -/
theorem C335_empty_false : ∃ files : List (List (List ℕ × List ℕ)), RowsOf files 0 = [] ∧ RowsOf files 1 = [7] ∧
    (consolidate "x".toList "1".toList (cuts [90, 5] []) (fun n => n + 1) (fun n => n + 1) files ⟨fun _ => none, fun _ => none⟩).2 = some .key ∧
    (consolidate "x".toList "1".toList (cuts [90, 5] []) (fun n => n + 1) (fun n => n + 1) files ⟨fun _ => none, fun _ => none⟩).1.cat
      (catFile "x".toList "1".toList (5, none)) = some [7] :=
  ⟨[[([], []), ([7], [7])]], by decide +kernel, by decide +kernel, by decide +kernel, by decide +kernel⟩

/-! ## C336: names of plots -/

theorem beforeFirst_spec (pat s t : Str) (hp : pat ≠ []) (hov : ∀ a b : Str, a ≠ [] → b ≠ [] → pat = a ++ b → ¬ (b <+: pat)) (hs : ¬ pat <:+: s) :
    beforeFirst pat (s ++ pat ++ t) = s := by
  induction s with
  | nil =>
    cases pat with
    | nil => exact absurd rfl hp
    | cons c p =>
      have : (c :: p).isPrefixOf (c :: (p ++ t)) = true := List.isPrefixOf_iff_prefix.mpr ⟨t, rfl⟩
      simp only [List.nil_append, List.cons_append, beforeFirst, this, if_true]
  | cons c s ih =>
    have hn : ¬ pat.isPrefixOf (c :: (s ++ pat ++ t)) = true := by
      intro h
      have h := List.isPrefixOf_iff_prefix.mp h
      rw [← List.cons_append, ← List.cons_append, List.append_assoc] at h
      rcases Nat.le_total pat.length (c :: s).length with hle | hle
      · exact hs ((List.prefix_of_prefix_length_le h (List.prefix_append _ _) hle).isInfix)
      · have hpre : (c :: s) <+: pat := List.prefix_of_prefix_length_le (List.prefix_append _ _) h hle
        obtain ⟨b, hb⟩ := hpre
        by_cases hb0 : b = []
        · subst hb0
          rw [List.append_nil] at hb
          exact hs (hb ▸ List.infix_rfl)
        · refine hov (c :: s) b (by simp) hb0 hb.symm ?_
          rw [← hb] at h
          have h' := (List.prefix_append_right_inj _).mp h
          rw [hb] at h'
          have hlen : b.length ≤ pat.length := by rw [← hb]; simp only [List.length_append, List.length_cons]; omega
          exact List.prefix_of_prefix_length_le h' (List.prefix_append _ _) hlen
    simp only [List.cons_append, List.append_assoc] at hn ih ⊢
    rw [beforeFirst, if_neg hn, ih]
    intro hc
    exact hs (hc.trans (List.infix_cons List.infix_rfl))

/-- No end of the pattern is its beginning. -/
theorem pattern_overlap (a b : Str) (ha : a ≠ []) (hb : b ≠ []) (h : "_catalog".toList = a ++ b) : ¬ (b <+: "_catalog".toList) := by
  have e : "_catalog".toList = ['_', 'c', 'a', 't', 'a', 'l', 'o', 'g'] := by decide +kernel
  rw [e] at h ⊢
  intro hp
  cases a with
  | nil => exact ha rfl
  | cons x a =>
    cases b with
    | nil => exact hb rfl
    | cons y b =>
      obtain ⟨r, hr⟩ := hp
      rw [List.cons_append] at hr h
      have hy : y = '_' := (List.cons.inj hr).1
      have ht := (List.cons.inj h).2
      have : '_' ∈ ['c', 'a', 't', 'a', 'l', 'o', 'g'] := by rw [ht, hy]; simp
      exact absurd this (by decide)

/-- **C336**.  If the base name of the run and the version do not have `_catalog` in them, the plots of each cut have the base name of the files of the cut. -/
theorem C336_plots_partial (outbase version : Str) (c : Cut)
    (h : ¬ "_catalog".toList <:+: outbase ++ "_redmapper_v".toList ++ version ++ '_' :: extraName c) :
    plotBase outbase version c = outbase ++ "_redmapper_v".toList ++ version ++ '_' :: extraName c := by
  have e : catFile outbase version c =
      (outbase ++ "_redmapper_v".toList ++ version ++ '_' :: extraName c) ++ "_catalog".toList ++ ".fit".toList := by
    simp only [catFile, fileName, if_true, List.append_assoc, List.cons_append]
  rw [plotBase, e]
  exact beforeFirst_spec _ _ _ (by decide +kernel) pattern_overlap h

/-- So plots of cuts with names of their own do not replace each other. -/
theorem C336_own_partial (outbase version : Str) (a b : Cut)
    (ha : ¬ "_catalog".toList <:+: outbase ++ "_redmapper_v".toList ++ version ++ '_' :: extraName a)
    (hb : ¬ "_catalog".toList <:+: outbase ++ "_redmapper_v".toList ++ version ++ '_' :: extraName b)
    (h : plotBase outbase version a = plotBase outbase version b) : extraName a = extraName b := by
  rw [C336_plots_partial _ _ _ ha, C336_plots_partial _ _ _ hb] at h
  exact (List.cons.inj (List.append_cancel_left h)).2

example : plotBase "des_y3".toList "0.8".toList (20, some (1 / 5)) = "des_y3_redmapper_v0.8_lgt20_vl02".toList := by decide +kernel

/-- Otherwise all cuts share the names of their plots. -/
theorem C336_false (version : Str) (a b : Cut) : plotBase "my_catalog".toList version a = plotBase "my_catalog".toList version b := by
  have hov := pattern_overlap
  have h : ∀ c, plotBase "my_catalog".toList version c = "my".toList := by
    intro c
    have e : catFile "my_catalog".toList version c =
        "my".toList ++ "_catalog".toList ++ ("_redmapper_v".toList ++ version ++ '_' :: (extraName c ++ "_catalog".toList) ++ ".fit".toList) := by
      have : "my_catalog".toList = "my".toList ++ "_catalog".toList := by decide +kernel
      simp only [catFile, fileName, if_true, this, List.append_assoc, List.cons_append]
    rw [plotBase, e]
    refine beforeFirst_spec _ _ _ (by decide +kernel) hov ?_
    intro hi
    have := hi.length_le
    revert this
    decide +kernel
  rw [h a, h b]

/-! ## C337: catalogs without cuts -/

/-- **C337**.  Without plots the consolidation of a catalog run ends without error, and with any cluster in its pixel the catalog has all of them, the members those
of all files with such a cluster. -/
theorem C337_runcat_partial (outbase version cattype : Str) (files : List (List ρ × List μ)) (hf : ∃ f ∈ files, f.1 ≠ []) (d : Disk ρ μ) (plots : Bool) :
    (runcat outbase version cattype true false files d).2 = none ∧
    (runcat outbase version cattype true plots files d).1.cat (fileName outbase version (cattype ++ "_catalog".toList) true) =
      some (files.map Prod.fst).flatten ∧
    (runcat outbase version cattype true plots files d).1.mem (fileName outbase version (cattype ++ "_catalog_members".toList) true) =
      some ((files.filter fun f => !f.1.isEmpty).map Prod.snd).flatten := by
  have hne : ((files.filter fun f => !f.1.isEmpty).isEmpty) = false := by
    obtain ⟨f, hf, hf'⟩ := hf
    rw [List.isEmpty_eq_false_iff_exists_mem]
    exact ⟨f, List.mem_filter.mpr ⟨hf, by cases h : f.1 <;> simp_all⟩⟩
  have hflat : (files.filter fun f => !f.1.isEmpty).flatMap Prod.fst = (files.map Prod.fst).flatten := by
    clear hne hf
    induction files with
    | nil => rfl
    | cons f fs ih =>
      by_cases h : f.1 = []
      · rw [List.filter_cons_of_neg (by simp [h]), ih]; simp [h]
      · rw [List.filter_cons_of_pos (by cases h' : f.1 <;> simp_all), List.flatMap_cons, ih]; simp
  unfold runcat
  simp only [hne, Bool.false_eq_true, if_false, if_true, put_same, hflat]
  exact ⟨trivial, trivial, by rw [List.flatMap_def]⟩

/-- With plots, which is the default, it always ends with a NameError, after the files are written. -/
theorem C337_false (outbase version cattype : Str) (members : Bool) (files : List (List ρ × List μ)) (d : Disk ρ μ) :
    (runcat outbase version cattype members true files d).2 = some .name ∧
    (runcat outbase version cattype members true files d).1 = (runcat outbase version cattype members false files d).1 := by
  exact ⟨rfl, rfl⟩

example : (runcat "x".toList "1".toList "runcat".toList true true [([1, 2], [10, 20]), ([], [30])] (⟨fun _ => none, fun _ => none⟩ : Disk ℕ ℕ)).1.cat
    "x_redmapper_v1_runcat_catalog.fit".toList = some [1, 2] := by decide +kernel

/-! ### C433: the cuts that are made -/

/-- **C433.**  The cuts of a consolidation are the pairs of a richness and a volume limit asked for: the richnesses and the limits that are given, and those of the
configuration for what is not given; no limit exactly if none is given and none is configured. -/
theorem C433 (lambdaCuts : Option (List ℚ)) (vlimLstars cfgLambda cfgVlim : List ℚ) (c : Cut) :
    c ∈ taskCuts lambdaCuts vlimLstars cfgLambda cfgVlim ↔
      (∀ l, lambdaCuts = some l → c.1 ∈ l) ∧ (lambdaCuts = none → c.1 ∈ cfgLambda) ∧
      (vlimLstars ≠ [] → ∃ v ∈ vlimLstars, c.2 = some v) ∧
      (vlimLstars = [] → cfgVlim ≠ [] → ∃ v ∈ cfgVlim, c.2 = some v) ∧
      (vlimLstars = [] → cfgVlim = [] → c.2 = none) := by
  obtain ⟨a, b⟩ := c
  have key : ∀ (L V : List ℚ), (a, b) ∈ cuts L V ↔ a ∈ L ∧ (V ≠ [] → ∃ v ∈ V, b = some v) ∧ (V = [] → b = none) := by
    intro L V
    unfold cuts
    rw [List.mem_flatMap]
    by_cases hV : V = []
    · simp only [hV, if_true, List.mem_singleton, Prod.mk.injEq, ne_eq, not_true_eq_false, false_implies, true_and, true_implies]
      exact ⟨by rintro ⟨x, hx, rfl, h⟩; exact ⟨hx, h⟩, fun ⟨h1, h2⟩ => ⟨a, h1, rfl, h2⟩⟩
    · simp only [hV, if_false, List.mem_map, Prod.mk.injEq, ne_eq, not_false_eq_true, true_implies, false_implies, and_true]
      constructor
      · rintro ⟨x, hx, v, hv, rfl, h⟩; exact ⟨hx, v, hv, h.symm⟩
      · rintro ⟨h1, v, hv, h⟩; exact ⟨a, h1, v, hv, rfl, h.symm⟩
  unfold taskCuts
  rw [key]
  cases lambdaCuts <;> cases vlimLstars <;> cases cfgVlim <;> simp

/-- **C433, number.**  Each pair is made once for every time its parts are asked for. -/
theorem C433_number (lambdas vlims cfgLambda cfgVlim : List ℚ) (hv : vlims ≠ []) :
    (taskCuts (some lambdas) vlims cfgLambda cfgVlim).length = lambdas.length * vlims.length := by
  unfold taskCuts cuts
  have h0 : vlims.length ≠ 0 := by simpa using hv
  simp [h0, hv, List.length_flatMap]

/-- **C433, the script.**  Limits given to the script are those of its catalogs, richnesses likewise; but with volume limits in the configuration no option of the
script makes a catalog without one. -/
theorem C433_script (lambdaOpt vlimOpt : Option (List ℚ)) (cfgLambda cfgVlim : List ℚ) (c : Cut) (hc : c ∈ scriptCuts lambdaOpt vlimOpt cfgLambda cfgVlim) :
    (∀ l, lambdaOpt = some l → c.1 ∈ l) ∧ (∀ v, vlimOpt = some v → v ≠ [] → ∃ x ∈ v, c.2 = some x) ∧
      (vlimOpt = none → ∀ x, c.2 = some x → x ∈ cfgVlim) ∧ (cfgVlim ≠ [] → c.2 ≠ none) := by
  have := (C433 _ _ _ _ _).1 hc
  refine ⟨this.1, ?_, ?_, ?_⟩
  · rintro v rfl hv
    exact this.2.2.1 hv
  · rintro rfl x hx
    by_cases h : cfgVlim = []
    · rw [this.2.2.2.2 rfl h] at hx; cases hx
    · obtain ⟨v, hv, e⟩ := this.2.2.2.1 rfl h
      rw [e] at hx; cases hx; exact hv
  · intro h
    by_cases hv : (match vlimOpt with | none => [] | some v => v) = []
    · obtain ⟨v, _, e⟩ := this.2.2.2.1 hv h; simp [e]
    · obtain ⟨v, _, e⟩ := this.2.2.1 hv; simp [e]

example : scriptCuts none (some [1 / 5]) [5, 20] [1 / 5, 5] = [(5, some (1 / 5)), (20, some (1 / 5))] ∧
    scriptCuts (some [20]) none [5, 20] [] = [(20, none)] := by decide +kernel

end Redmapper.ConsFiles
