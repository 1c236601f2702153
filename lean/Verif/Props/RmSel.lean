/-
Properties C341-C342: what a redMaGiC selector reads, and the samples it writes.
-/
import Mathlib.Tactic.Linarith
import Mathlib.Tactic.NormNum
import Verif.Model.RmSel
import Verif.Props.Redmagic
import Verif.Props.Zlambda

set_option linter.unusedSectionVars false

namespace Redmapper.RmSel

open Redmapper.Redmagic (RGal RCal zmagicSamp passes)
open Redmapper.Centering (whereIdx)
open Redmapper.Finders (takeRows)

/-! ## C341 -/

/-- A name of a file: not empty, no slash, no blank at its end. -/
def Name (s : List Char) : Prop := s ≠ [] ∧ '/' ∉ s ∧ s.getLast? ≠ some ' '

/-- A directory as one writes it: no slash at its end. -/
def Dir (d : List Char) : Prop := d.getLast? ≠ some '/'

theorem dropWhile_all {p : Char → Bool} (l r : List Char) (h : ∀ c ∈ l, p c = true) : (l ++ r).dropWhile p = r.dropWhile p := by
  induction l with
  | nil => rfl
  | cons a l ih =>
    rw [List.cons_append, List.dropWhile_cons_of_pos (h a (by simp))]
    exact ih fun c hc => h c (by simp [hc])

theorem takeWhile_all {p : Char → Bool} (l r : List Char) (h : ∀ c ∈ l, p c = true) : (l ++ r).takeWhile p = l ++ r.takeWhile p := by
  induction l with
  | nil => rfl
  | cons a l ih =>
    rw [List.cons_append, List.takeWhile_cons_of_pos (h a (by simp)), ih fun c hc => h c (by simp [hc])]
    rfl

theorem notSlash {s : List Char} (h : '/' ∉ s) : ∀ c ∈ s.reverse, (c != '/') = true := by
  intro c hc
  rw [bne_iff_ne]
  rintro rfl
  exact h (List.mem_reverse.mp hc)

theorem basename_join (d y : List Char) (hy : '/' ∉ y) : basename (join d y) = y := by
  have h1 : basename y = y := by
    unfold basename
    have := takeWhile_all y.reverse [] (notSlash hy)
    rw [List.append_nil, List.takeWhile_nil, List.append_nil] at this
    rw [this, List.reverse_reverse]
  have h2 : ∀ r : List Char, basename (r ++ '/' :: y) = y := by
    intro r
    unfold basename
    rw [List.reverse_append, List.reverse_cons, List.append_assoc, takeWhile_all _ _ (notSlash hy)]
    simp
  unfold join
  split
  · exact h1
  · split
    · rename_i hd
      obtain ⟨r, rfl⟩ : ∃ r, d = r ++ ['/'] := by
        obtain ⟨ys, h⟩ := List.getLast?_eq_some_iff.mp hd
        exact ⟨ys, h⟩
      rw [List.append_assoc]
      exact h2 r
    · exact h2 d

theorem dirname_join (d x : List Char) (hd : Dir d) (hx : '/' ∉ x) : dirname (join d x) = d := by
  unfold join
  by_cases h0 : d = []
  · subst h0
    rw [if_pos rfl]
    unfold dirname
    have := dropWhile_all x.reverse [] (notSlash hx)
    rw [List.append_nil, List.dropWhile_nil] at this
    rw [this]
    rfl
  · rw [if_neg h0, if_neg hd]
    have e : ((d ++ '/' :: x).reverse.dropWhile fun c => c != '/') = '/' :: d.reverse := by
      rw [List.reverse_append, List.reverse_cons, List.append_assoc, dropWhile_all _ _ (notSlash hx)]
      rfl
    have hl : d.reverse.dropWhile (fun c => c == '/') = d.reverse := by
      cases h : d.reverse with
      | nil => rfl
      | cons a l =>
        rw [List.dropWhile_cons_of_neg]
        intro ha
        apply hd
        have : d = l.reverse ++ [a] := by rw [← List.reverse_reverse d, h, List.reverse_cons]
        rw [this, List.getLast?_append]
        simpa using ha
    have hall : ¬ ((d ++ ['/']).all (fun c => c == '/') = true) := by
      intro h
      rw [List.all_eq_true] at h
      apply hd
      obtain ⟨ys, a, rfl⟩ : ∃ ys a, d = ys ++ [a] := ⟨d.dropLast, d.getLast h0, (List.dropLast_append_getLast h0).symm⟩
      have := h a (by simp)
      rw [beq_iff_eq] at this
      rw [this]
      simp
    unfold dirname
    simp only [e, List.reverse_cons, List.reverse_reverse]
    rw [if_neg hall, List.reverse_append]
    show (List.dropWhile (fun c => c == '/') ('/' :: d.reverse)).reverse = d
    rw [List.dropWhile_cons_of_pos (by rfl), hl, List.reverse_reverse]

theorem rstrip_end (s : List Char) (h : s.getLast? ≠ some ' ') : rstrip s = s := by
  unfold rstrip
  have hl : s.reverse.dropWhile (fun c => c == ' ') = s.reverse := by
    cases e : s.reverse with
    | nil => rfl
    | cons a l =>
      rw [List.dropWhile_cons_of_neg]
      intro ha
      apply h
      have : s = l.reverse ++ [a] := by rw [← List.reverse_reverse s, e, List.reverse_cons]
      rw [this, List.getLast?_append]
      simpa using ha
  rw [hl, List.reverse_reverse]

theorem join_last (d y : List Char) (hy : Name y) : (join d y).getLast? ≠ some ' ' ∧ join d y ≠ [] := by
  obtain ⟨h0, -, h2⟩ := hy
  have hl : ∀ r : List Char, (r ++ y).getLast? = y.getLast? := by
    intro r
    rw [List.getLast?_append]
    cases h : y.getLast? with
    | none => exact absurd (List.getLast?_eq_none_iff.mp h) h0
    | some c => rfl
  unfold join
  split
  · exact ⟨h2, h0⟩
  · split
    · exact ⟨by rw [hl]; exact h2, by simp [h0]⟩
    · refine ⟨?_, by simp⟩
      rw [show d ++ '/' :: y = (d ++ ['/']) ++ y by simp, hl]
      exact h2

/-- A mode as the calibration writes it: its name, the name of its mask if it has one, and its parameters. -/
structure Mode (κ : Type) where
  name : List Char
  mask : Option (List Char)
  pars : κ

/-- The table of a mode for a calibration in directory `d`. -/
def Mode.ext {κ : Type} (d : List Char) (m : Mode κ) : Ext κ :=
  ⟨m.name, match m.mask with | none => [] | some y => join d y, m.pars⟩

/-- The mask that belongs to a mode in directory `d`. -/
def Mode.maskIn {κ : Type} (d : List Char) (m : Mode κ) : MaskOf :=
  match m.mask with | none => .fixed | some y => .file (join d y)

theorem maskOf_mode {κ : Type} (isfile : List Char → Bool) (d d' x : List Char) (hd : Dir d') (hx : '/' ∉ x) (m : Mode κ) (hm : ∀ y, m.mask = some y → Name y) :
    maskOf isfile (join d' x) (m.ext d).vmask = match m.mask with
      | none => .ok .fixed
      | some y => if isfile (join d' y) then .ok (.file (join d' y)) else .error .runtimeError := by
  unfold maskOf Mode.ext
  cases h : m.mask with
  | none => rfl
  | some y =>
    have hy := hm y h
    obtain ⟨h1, h2⟩ := join_last d y hy
    simp only [rstrip_end _ h1, basename_join d y hy.2.1, dirname_join d' x hd hx]
    rw [if_neg h2]

theorem put_fresh {κ ν : Type} [DecidableEq κ] (d : List (κ × ν)) (k : κ) (v : ν) (h : ∀ e ∈ d, e.1 ≠ k) : put d k v = d ++ [(k, v)] := by
  unfold put
  rw [if_neg]
  simpa using fun b hab => h (k, b) hab rfl

theorem modes_nodup {κ : Type} (l : List (Ext κ)) (d : List (List Char × Ext κ)) (hn : (l.map fun e => rstrip e.name).Nodup)
    (hd : ∀ e ∈ l, ∀ p ∈ d, p.1 ≠ rstrip e.name) :
    l.foldl (fun d e => put d (rstrip e.name) e) d = d ++ l.map fun e => (rstrip e.name, e) := by
  induction l generalizing d with
  | nil => simp
  | cons a l ih =>
    rw [List.map_cons, List.nodup_cons] at hn
    rw [List.foldl_cons, put_fresh _ _ _ (hd a (by simp)), ih _ hn.2]
    · simp
    · intro e he p hp
      rcases List.mem_append.mp hp with hp | hp
      · exact hd e (by simp [he]) p hp
      · rw [List.mem_singleton.mp hp]
        intro h
        exact hn.1 (List.mem_map.mpr ⟨e, he, h.symm⟩)

/-- **C341** (partial): the parameters of a calibration in any directory, moved together with the masks to another one, give the modes of the calibration in
their order, each with its parameters and its own mask in the new directory; without one of the masks it is a RuntimeError.  Missing: names with a blank
at the end (`C341_false`). -/
theorem C341_partial {κ : Type} (isfile : List Char → Bool) (d d' x : List Char) (hd : Dir d') (hx : '/' ∉ x) (ms : List (Mode κ))
    (hn : (ms.map Mode.name).Nodup) (hb : ∀ m ∈ ms, m.name.getLast? ≠ some ' ') (hm : ∀ m ∈ ms, ∀ y, m.mask = some y → Name y) :
    construct isfile (join d' x) (ms.map (Mode.ext d)) =
      if ∀ m ∈ ms, ∀ y, m.mask = some y → isfile (join d' y) = true then
        .ok (ms.map fun m => (m.name, m.ext d), ms.map fun m => (m.name, m.maskIn d'))
      else .error .runtimeError := by
  have hr : ∀ m ∈ ms, rstrip (m.ext d).name = m.name := fun m h => rstrip_end _ (hb m h)
  have hkeys : ((ms.map (Mode.ext d)).map fun e => rstrip e.name) = ms.map Mode.name := by
    rw [List.map_map]
    exact List.map_congr_left hr
  have hmodes : modes (ms.map (Mode.ext d)) = ms.map fun m => (m.name, m.ext d) := by
    unfold modes
    rw [modes_nodup _ [] (by rw [hkeys]; exact hn) (by simp), List.nil_append, List.map_map]
    exact List.map_congr_left fun m h => by simp only [Function.comp, hr m h]
  have hmasks : ∀ l : List (Mode κ), (∀ m ∈ l, ∀ y, m.mask = some y → Name y) →
      masks isfile (join d' x) (l.map fun m => (m.name, m.ext d)) =
        if ∀ m ∈ l, ∀ y, m.mask = some y → isfile (join d' y) = true then .ok (l.map fun m => (m.name, m.maskIn d')) else .error .runtimeError := by
    intro l hl
    induction l with
    | nil => simp [masks]
    | cons m l ih =>
      have ih := ih fun m' h => hl m' (by simp [h])
      rw [List.map_cons, masks, maskOf_mode isfile d d' x hd hx m (hl m (by simp))]
      cases h : m.mask with
      | none =>
        simp only [ih]
        by_cases hc : ∀ m ∈ l, ∀ y, m.mask = some y → isfile (join d' y) = true
        · rw [if_pos hc, if_pos (by
            intro m' hm' y hy
            rcases List.mem_cons.mp hm' with rfl | hm'
            · rw [h] at hy; cases hy
            · exact hc m' hm' y hy)]
          simp [Except.map, Mode.maskIn, h]
        · rw [if_neg hc, if_neg (fun h' => hc fun m' hm' => h' m' (by simp [hm']))]
          rfl
      | some y =>
        by_cases hf : isfile (join d' y) = true
        · simp only [hf, if_true, ih]
          by_cases hc : ∀ m ∈ l, ∀ y, m.mask = some y → isfile (join d' y) = true
          · rw [if_pos hc, if_pos (by
              intro m' hm' y' hy
              rcases List.mem_cons.mp hm' with rfl | hm'
              · rw [h] at hy; cases hy; exact hf
              · exact hc m' hm' y' hy)]
            simp [Except.map, Mode.maskIn, h]
          · rw [if_neg hc, if_neg (fun h' => hc fun m' hm' => h' m' (by simp [hm']))]
            rfl
        · simp only [if_neg hf]
          rw [if_neg (fun h' => hf (h' m (by simp) y h))]
  unfold construct
  rw [hmodes, hmasks ms hm]
  split <;> rfl

theorem mem_put {κ ν : Type} [DecidableEq κ] {d : List (κ × ν)} {k : κ} {v : ν} {p : κ × ν} (h : p ∈ put d k v) : p ∈ d ∨ p = (k, v) := by
  unfold put at h
  split at h
  · obtain ⟨e, he, rfl⟩ := List.mem_map.mp h
    split
    · exact Or.inr rfl
    · exact Or.inl he
  · simpa using h

/-- **C341** is false for names with a blank at the end: no such mode is ever available. -/
theorem C341_false {κ : Type} (exts : List (Ext κ)) (name : List Char) (h : name.getLast? = some ' ') : ∀ p ∈ modes exts, p.1 ≠ name := by
  have key : ∀ (l : List (Ext κ)) (d : List (List Char × Ext κ)), (∀ p ∈ d, p.1 ≠ name) →
      ∀ p ∈ l.foldl (fun d e => put d (rstrip e.name) e) d, p.1 ≠ name := by
    intro l
    induction l with
    | nil => exact fun d hd => hd
    | cons a l ih =>
      intro d hd
      rw [List.foldl_cons]
      refine ih _ fun p hp => ?_
      rcases mem_put hp with hp | rfl
      · exact hd p hp
      · intro e
        simp only at e
        rw [← e] at h
        unfold rstrip at h
        rw [List.getLast?_reverse] at h
        have := List.head?_dropWhile_not (fun c => c == ' ') a.name.reverse
        rw [h] at this
        simp at this
  exact key exts [] (by simp)

/-- **C341**, parameters appended by a later calibration: a mode has those of the last table of its name. -/
theorem C341_last {κ : Type} (exts : List (Ext κ)) (e : Ext κ) (h : e.name.getLast? ≠ some ' ') :
    (modes (exts ++ [e])).find? (fun p => decide (p.1 = e.name)) = some (e.name, e) := by
  unfold modes
  rw [List.foldl_append, List.foldl_cons, List.foldl_nil, rstrip_end _ h]
  generalize exts.foldl (fun d e => put d (rstrip e.name) e) [] = d
  unfold put
  split
  · rename_i hc
    induction d with
    | nil => simp at hc
    | cons a d ih =>
      rw [List.map_cons]
      by_cases ha : a.1 = e.name
      · rw [if_pos ha, List.find?_cons_of_pos (by simp)]
      · rw [if_neg ha, List.find?_cons_of_neg (by simpa using ha)]
        refine ih ?_
        simpa [ha] using hc
  · rename_i hc
    rw [List.find?_append]
    have : d.find? (fun p => decide (p.1 = e.name)) = none := by
      rw [List.find?_eq_none]
      intro p hp h'
      exact hc (List.any_eq_true.mpr ⟨p, hp, h'⟩)
    rw [this]
    simp

/-- Two modes, one of them without a mask, moved from `/a` to `b/c`. -/
example : ((construct (fun p => p == "b/c/m.hs".toList) "b/c/r.fit".toList
    (([⟨"high".toList, some "m.hs".toList, 1⟩, ⟨"low".toList, none, 2⟩] : List (Mode Nat)).map (Mode.ext "/a".toList))).toOption.map Prod.snd) =
    some [("high".toList, .file "b/c/m.hs".toList), ("low".toList, .fixed)] := by decide +kernel

/-! ## C342 -/

section
variable {α : Type} [Field α] [LinearOrder α]

theorem samp_length (c : RCal α) (g : RGal α) : (zmagicSamp c g).length = g.samp.length := by
  unfold zmagicSamp
  split
  · split <;> simp
  · rfl

theorem mem_takeRows {β : Type} {l : List β} {idx : List Nat} {x : β} (h : x ∈ takeRows l idx) : x ∈ l := by
  unfold takeRows at h
  obtain ⟨i, -, hi⟩ := List.mem_filterMap.mp h
  exact List.mem_of_getElem? hi

/-- **C342** (partial): for a catalog with as many samples as configured, the samples written are those of the galaxies selected, in order, each less the
correction if that is to be applied.  Missing: other numbers (`C342_false`) and catalogs without samples (`C342_repeated`). -/
theorem C342_partial (m25 mstar : α → α) (zmax : α → α → α) (c : RCal α) (n : Nat) (draw : Nat → α) (gals : List (RGal α))
    (h : ∀ g ∈ gals, g.samp.length = n) :
    samples m25 mstar zmax c n true draw gals = .ok ((gals.filter (passes m25 mstar zmax c)).map fun g =>
      if c.runAfter && c.applyAfter then g.samp.map fun s => s - c.bias g.zred else g.samp) := by
  have e : (zmagicSamp c : RGal α → List α) = fun g => if c.runAfter && c.applyAfter then g.samp.map fun s => s - c.bias g.zred else g.samp := by
    funext g
    unfold zmagicSamp
    cases c.runAfter <;> cases c.applyAfter <;> rfl
  unfold samples withSamples
  simp only [if_true]
  rw [Redmapper.Zlambda.takeRows_whereIdx, e]
  unfold column
  by_cases h0 : ((gals.filter (passes m25 mstar zmax c)).map fun g =>
      if c.runAfter && c.applyAfter then g.samp.map fun s => s - c.bias g.zred else g.samp) = []
  · rw [if_pos h0, h0]
  · rw [if_neg h0, if_pos]
    rw [List.all_eq_true]
    intro r hr
    obtain ⟨g, hg, rfl⟩ := List.mem_map.mp hr
    have := h g (List.mem_filter.mp hg).1
    rw [decide_eq_true_eq]
    split <;> simpa using this

/-- **C342** is false for a catalog with another number of samples that is not one: ValueError as soon as a galaxy is selected. -/
theorem C342_false (m25 mstar : α → α) (zmax : α → α → α) (c : RCal α) (n w : Nat) (draw : Nat → α) (gals : List (RGal α))
    (h : ∀ g ∈ gals, g.samp.length = w) (hw : w ≠ n) (hw1 : w ≠ 1) :
    samples m25 mstar zmax c n true draw gals = if ∃ g ∈ gals, passes m25 mstar zmax c g = true then .error .valueError else .ok [] := by
  unfold samples withSamples
  simp only [if_true]
  rw [Redmapper.Zlambda.takeRows_whereIdx]
  unfold column
  by_cases hs : ∃ g ∈ gals, passes m25 mstar zmax c g = true
  · obtain ⟨g, hg, hp⟩ := hs
    have hmem : zmagicSamp c g ∈ (gals.filter (passes m25 mstar zmax c)).map (zmagicSamp c) :=
      List.mem_map.mpr ⟨g, List.mem_filter.mpr ⟨hg, hp⟩, rfl⟩
    have hl : (zmagicSamp c g).length = w := by rw [samp_length, h g hg]
    rw [if_pos (show ∃ g ∈ gals, passes m25 mstar zmax c g = true from ⟨g, hg, hp⟩), if_neg (List.ne_nil_of_mem hmem), if_neg, if_neg]
    · intro ha
      have := List.all_eq_true.mp ha _ hmem
      rw [decide_eq_true_eq, hl] at this
      exact hw1 this
    · intro ha
      have := List.all_eq_true.mp ha _ hmem
      rw [decide_eq_true_eq, hl] at this
      exact hw this
  · rw [if_neg hs]
    have : gals.filter (passes m25 mstar zmax c) = [] := by
      rw [List.filter_eq_nil_iff]
      exact fun g hg hp => hs ⟨g, hg, hp⟩
    rw [this]
    rfl

/-- **C342** is false for a catalog without samples: all samples of a galaxy are the same number, from one draw. -/
theorem C342_repeated (m25 mstar : α → α) (zmax : α → α → α) (c : RCal α) (n : Nat) (draw : Nat → α) (gals : List (RGal α)) :
    ∃ rows, samples m25 mstar zmax c n false draw gals = .ok rows ∧ rows.length = (whereIdx (passes m25 mstar zmax c) gals).length ∧
      ∀ k (hk : k < rows.length), ∃ i g, (whereIdx (passes m25 mstar zmax c) gals)[k]? = some i ∧ gals[i]? = some g ∧
        rows[k] = List.replicate n (if c.runAfter && c.applyAfter then draw i - c.bias g.zred else draw i) := by
  set gd := whereIdx (passes m25 mstar zmax c) gals with hgd
  have hin : ∀ i ∈ gd, ∃ g, gals[i]? = some g := by
    intro i hi
    obtain ⟨g, h1, -⟩ := (Redmapper.Centering.mem_whereIdx _ _ _).mp (hgd ▸ hi)
    exact ⟨g, h1⟩
  have key : ∀ l : List Nat, (∀ i ∈ l, ∃ g, gals[i]? = some g) →
      ∃ rows0 : List (List α), (takeRows (withSamples false draw gals) l).map (zmagicSamp c) = rows0 ∧ rows0.length = l.length ∧
        ∀ k (hk : k < rows0.length), ∃ i g, l[k]? = some i ∧ gals[i]? = some g ∧
          rows0[k] = [if c.runAfter && c.applyAfter then draw i - c.bias g.zred else draw i] := by
    intro l hl
    induction l with
    | nil => exact ⟨[], rfl, rfl, fun k hk => absurd hk (by simp)⟩
    | cons i l ih =>
      obtain ⟨rows0, e0, e1, e2⟩ := ih fun j hj => hl j (by simp [hj])
      obtain ⟨g, hg⟩ := hl i (by simp)
      have hi : (withSamples false draw gals)[i]? = some { g with samp := [draw i] } := by
        simp [withSamples, hg]
      refine ⟨[if c.runAfter && c.applyAfter then draw i - c.bias g.zred else draw i] :: rows0, ?_, by simp [e1], ?_⟩
      · rw [← e0]
        unfold takeRows
        rw [List.filterMap_cons, hi]
        simp only [List.map_cons, zmagicSamp]
        cases c.runAfter <;> cases c.applyAfter <;> rfl
      · intro k hk
        cases k with
        | zero => exact ⟨i, g, rfl, hg, rfl⟩
        | succ k =>
          obtain ⟨j, g', h1, h2, h3⟩ := e2 k (by simpa using hk)
          exact ⟨j, g', by simpa using h1, h2, by simpa using h3⟩
  obtain ⟨rows0, e0, e1, e2⟩ := key gd hin
  have hone : ∀ r ∈ rows0, r.length = 1 := by
    intro r hr
    obtain ⟨k, hk, rfl⟩ := List.mem_iff_getElem.mp hr
    obtain ⟨i, g, -, -, h⟩ := e2 k hk
    rw [h]
    rfl
  unfold samples
  rw [← hgd, e0]
  unfold column
  by_cases h0 : rows0 = []
  · rw [if_pos h0]
    refine ⟨[], rfl, by rw [← e1, h0], fun k hk => absurd hk (by simp)⟩
  · rw [if_neg h0]
    by_cases hn : rows0.all (fun r => decide (r.length = n)) = true
    · rw [if_pos hn]
      refine ⟨rows0, rfl, e1, fun k hk => ?_⟩
      obtain ⟨i, g, h1, h2, h3⟩ := e2 k hk
      refine ⟨i, g, h1, h2, ?_⟩
      have hk' := List.all_eq_true.mp hn _ (List.getElem_mem hk)
      rw [decide_eq_true_eq, h3] at hk'
      rw [h3, ← hk']
      rfl
    · rw [if_neg hn, if_pos (List.all_eq_true.mpr fun r hr => by simpa using hone r hr)]
      refine ⟨_, rfl, by rw [List.length_map, e1], fun k hk => ?_⟩
      rw [List.length_map] at hk
      obtain ⟨i, g, h1, h2, h3⟩ := e2 k hk
      refine ⟨i, g, h1, h2, ?_⟩
      rw [List.getElem_map, h3]
      rfl

end

/-- A catalog of one galaxy that is selected, with two samples. -/
example : samples (fun _ => 0) (fun _ => 20) (fun _ _ => 1) (⟨0, 0, 0, 0, 1, 20, 1 / 2, fun _ => 10, fun _ => 1 / 10, fun _ => 1, true, true⟩ : RCal ℚ) 2 true
    (fun _ => 0) [⟨1, 0, 0, 18, 0, [], [], 1 / 2, 1 / 10, [1 / 2, 6 / 10], 1, 0, 0⟩] = .ok [[4 / 10, 1 / 2]] := by decide +kernel

end Redmapper.RmSel
