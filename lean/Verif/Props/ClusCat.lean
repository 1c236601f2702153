/-
Properties C302-C305: the columns of a cluster catalogue, and what of the processing reaches the catalogue that is written.
-/
import Verif.Model.ClusCat
import Verif.Props.Catalog
import Verif.Props.Zlambda
import Mathlib.Data.List.GetD
import Mathlib.Data.List.Induction

set_option linter.unusedSectionVars false

namespace Redmapper.ClusCat

open Redmapper.Catalog

variable {V X : Type} [Inhabited V]

/-! ## Specification -/

/-- The columns of a dtype, lower case. -/
def cols (lower : String → String) (dt : List (String × V)) : List String := dt.map fun d => lower d.1

/-- A table to start from: well formed, its names distinct when lower-cased. -/
structure Good (lower : String → String) (t : Tab V) : Prop where
  wf : WF t
  low : (t.names.map lower).Nodup

/-- The last value given to column `c` in a sequence of assignments. -/
def lastAssigned (lower : String → String) (ws : List (String × V)) (c : String) : Option V :=
  (ws.reverse.find? fun w => lower w.1 = c).map Prod.snd

/-- The value a column of a cluster should have in the end: the last one assigned, otherwise the one it had (`zero` if it had none). -/
def final (lower : String → String) (t : Tab V) (ws : List (List (String × V))) (zero : V) (j : Nat) (c : String) : V :=
  match lastAssigned lower (ws.getD j []) c with
  | some v => v
  | none => (cell t j c).getD zero

/-- The clusters that pass the cut on column `cut` in the end. -/
def kept (lower : String → String) (cut : String) (pass : V → Bool) (t : Tab V) (ws : List (List (String × V))) : List Nat :=
  (List.range t.rows.length).filter fun j => pass (final lower t ws default j (lower cut))

/-! ## C302: construction -/

theorem catInit_eq (lower : String → String) (base : List (String × V)) (a : Tab V) (ha : Good lower a) (ctx : Ctx V X)
    (dtype : Option (List (String × V))) (hd : (cols lower (targetDtype base ctx dtype)).Nodup) :
    let miss := (targetDtype base ctx dtype).filter fun d => ¬ lower d.1 ∈ a.names.map lower
    catInit lower base a ctx dtype = .ok ⟨⟨a.names.map lower ++ cols lower miss, a.zeros ++ miss.map Prod.snd,
      a.rows.map fun r => r ++ miss.map Prod.snd⟩, ctx⟩ := by
  intro miss
  unfold catInit mkObject lowerAll lowerArray
  rw [if_pos ha.low]
  simp only [lowerAll]
  have e : augment lower (targetDtype base ctx dtype) (a.names.map lower) = miss := rfl
  rw [e]
  by_cases h0 : miss.length > 0
  · rw [if_pos h0]
    have hw : WF (⟨a.names.map lower, a.zeros, a.rows⟩ : Tab V) :=
      ⟨ha.low, by rw [List.length_map]; exact ha.wf.zeros, by intro r hr; rw [List.length_map]; exact ha.wf.rows r hr⟩
    rw [C22_add_fields lower _ hw _ _ (by simp), if_pos]
    · simp [cols, Function.comp_def]
    · rw [List.map_map]
      refine List.Nodup.append ha.low ?_ ?_
      · refine List.Nodup.sublist ?_ hd
        exact (List.filter_sublist).map _
      · intro n hn hm
        obtain ⟨d, hd', rfl⟩ := List.mem_map.mp hm
        have := (List.mem_filter.mp hd').2
        simp only [decide_not, Bool.not_eq_true', decide_eq_false_iff_not] at this
        exact this hn
  · rw [if_neg h0]
    have : miss = [] := List.length_eq_zero_iff.mp (by omega)
    rw [this]
    simp [cols]

/-- The columns of a widened table: the old ones. -/
theorem getCol_old (t : Tab V) (ht : WF t) (ns : List String) (zs : List V) (c : String) (hc : c ∈ t.names) :
    getCol (⟨t.names ++ ns, t.zeros ++ zs, t.rows.map fun r => r ++ zs⟩ : Tab V) c = getCol t c := by
  rw [getCol_eq hc, getCol_eq (List.mem_append_left _ hc)]
  simp only [List.map_map, Option.some.injEq]
  apply List.map_congr_left
  intro r hr
  simp only [Function.comp]
  rw [List.idxOf_append_of_mem hc, List.getD_append]
  rw [ht.rows r hr]
  exact List.idxOf_lt_length_iff.mpr hc

/-- The columns of a widened table: a new one. -/
theorem getCol_new (t : Tab V) (ht : WF t) (f : String × V → String) (dt : List (String × V)) (hn : (dt.map f).Nodup)
    (d : String × V) (hd : d ∈ dt) (hc : f d ∉ t.names) :
    getCol (⟨t.names ++ dt.map f, t.zeros ++ dt.map Prod.snd, t.rows.map fun r => r ++ dt.map Prod.snd⟩ : Tab V) (f d)
      = some (List.replicate t.rows.length d.2) := by
  rw [getCol_eq (List.mem_append_right _ (List.mem_map_of_mem hd))]
  simp only [List.map_map, Option.some.injEq]
  rw [List.eq_replicate_iff]
  refine ⟨by simp, ?_⟩
  intro v hv
  obtain ⟨r, hr, rfl⟩ := List.mem_map.mp hv
  simp only [Function.comp]
  rw [List.idxOf_append_of_notMem hc, ← ht.rows r hr, List.getD_append_right _ _ _ _ (Nat.le_add_right _ _), Nat.add_sub_cancel_left]
  obtain ⟨k, hk, rfl⟩ := List.mem_iff_getElem.mp hd
  have : (dt.map f).idxOf (f dt[k]) = k := by
    have h := List.Nodup.idxOf_getElem hn k (by simpa using hk)
    simpa using h
  rw [this, List.getD_eq_getElem?_getD]
  simp [hk]

/-- **C302.**  A cluster catalogue made of any table of distinct columns has the rows of that table; every column of the table, under its lower
case name, has the values it had; every column asked for that was not there is filled with zeros; and there are no other columns.  The columns
asked for are those of the explicit dtype, else those of the configuration, else the basic ones. -/
theorem C302 (lower : String → String) (base : List (String × V)) (a : Tab V) (ha : Good lower a) (ctx : Ctx V X)
    (dtype : Option (List (String × V))) (hd : (cols lower ((dtype.or ctx.config).getD base)).Nodup) :
    ∃ c, catInit lower base a ctx dtype = .ok c ∧ c.ctx = ctx ∧ c.tab.rows.length = a.rows.length ∧ WF c.tab ∧
      (∀ n ∈ a.names, getCol c.tab (lower n) = getCol a n) ∧
      (∀ d ∈ (dtype.or ctx.config).getD base, lower d.1 ∉ a.names.map lower → getCol c.tab (lower d.1) = some (List.replicate a.rows.length d.2)) ∧
      (∀ n, n ∈ c.tab.names ↔ n ∈ a.names.map lower ∨ n ∈ cols lower ((dtype.or ctx.config).getD base)) := by
  have e : targetDtype base ctx dtype = (dtype.or ctx.config).getD base := by
    unfold targetDtype
    cases dtype with
    | some d => rfl
    | none => cases hc : ctx.config with
      | some d => simp
      | none => simp
  have h := catInit_eq lower base a ha ctx dtype (by rw [e]; exact hd)
  rw [e] at h
  set dt := (dtype.or ctx.config).getD base with hdt
  set miss := dt.filter fun d => ¬ lower d.1 ∈ a.names.map lower with hm
  have hmn : (miss.map fun d => lower d.1).Nodup := List.Nodup.sublist ((List.filter_sublist).map _) hd
  have hw : WF (⟨a.names.map lower, a.zeros, a.rows⟩ : Tab V) :=
    ⟨ha.low, by rw [List.length_map]; exact ha.wf.zeros, by intro r hr; rw [List.length_map]; exact ha.wf.rows r hr⟩
  refine ⟨_, h, rfl, by simp, ?_, ?_, ?_, ?_⟩
  · refine ⟨?_, ?_, ?_⟩
    · refine List.Nodup.append ha.low hmn ?_
      intro n hn hm
      obtain ⟨d, hd', rfl⟩ := List.mem_map.mp hm
      have := (List.mem_filter.mp hd').2
      simp only [decide_not, Bool.not_eq_true', decide_eq_false_iff_not] at this
      exact this hn
    · simp [cols, ha.wf.zeros]
    · intro r hr
      obtain ⟨r', hr', rfl⟩ := List.mem_map.mp hr
      simp [cols, ha.wf.rows r' hr']
  · intro n hn
    refine Eq.trans (getCol_old _ hw _ _ (lower n) (List.mem_map_of_mem hn)) ?_
    exact getCol_lower lower a ha.low n hn
  · intro d hd' hc
    exact getCol_new _ hw (fun d => lower d.1) miss hmn d (List.mem_filter.mpr ⟨hd', by simpa using hc⟩) hc
  · intro n
    simp only [List.mem_append]
    constructor
    · rintro (h | h)
      · exact Or.inl h
      · obtain ⟨d, hd', rfl⟩ := List.mem_map.mp h
        exact Or.inr (List.mem_map.mpr ⟨d, (List.mem_filter.mp hd').1, rfl⟩)
    · rintro (h | h)
      · exact Or.inl h
      · obtain ⟨d, hd', rfl⟩ := List.mem_map.mp h
        by_cases hc : lower d.1 ∈ a.names.map lower
        · exact Or.inl hc
        · exact Or.inr (List.mem_map.mpr ⟨d, List.mem_filter.mpr ⟨hd', by simpa using hc⟩, rfl⟩)

/-- **C302.**  A catalogue of zeros has the number of rows asked for, and exactly the columns of the explicit dtype; without one, the basic
columns and those of the configuration; every value is the zero of its column. -/
theorem C302_zeros (lower : String → String) (base : List (String × V)) (size : Nat) (ctx : Ctx V X) (dtype : Option (List (String × V)))
    (hd : (cols lower ((dtype.or ctx.config).getD base)).Nodup) (hb : (cols lower (dtype.getD base)).Nodup) :
    ∃ c, catZeros lower base size ctx dtype = .ok c ∧ c.ctx = ctx ∧ c.tab.rows.length = size ∧ WF c.tab ∧
      (∀ n, n ∈ c.tab.names ↔ n ∈ cols lower (dtype.getD base) ∨ n ∈ cols lower ((dtype.or ctx.config).getD base)) ∧
      (∀ d ∈ dtype.getD base, getCol c.tab (lower d.1) = some (List.replicate size d.2)) ∧
      (∀ d ∈ (dtype.or ctx.config).getD base, lower d.1 ∉ cols lower (dtype.getD base) →
        getCol c.tab (lower d.1) = some (List.replicate size d.2)) := by
  set dt := dtype.getD base with hdt
  have e : catZeros lower base size ctx dtype = (match npZeros size (dt.map Prod.fst) (dt.map Prod.snd) with
      | .error e => .error e
      | .ok a => catInit lower base a ctx dtype) := by unfold catZeros; cases dtype <;> rfl
  have hn : (dt.map Prod.fst).Nodup := by
    refine List.Nodup.of_map lower ?_
    rw [List.map_map]; exact hb
  let a : Tab V := ⟨dt.map Prod.fst, dt.map Prod.snd, List.replicate size (dt.map Prod.snd)⟩
  have ha : Good lower a := ⟨⟨hn, by simp [a], by intro r hr; rw [List.eq_of_mem_replicate hr]; simp [a]⟩, by
    simp only [a, List.map_map]; exact hb⟩
  have hnames : a.names.map lower = cols lower dt := by simp [a, cols, Function.comp_def]
  obtain ⟨c, h1, h2, h3, h4, h5, h6, h7⟩ := C302 lower base a ha ctx dtype hd
  refine ⟨c, ?_, h2, by rw [h3]; simp [a], h4, ?_, ?_, ?_⟩
  · rw [e]
    unfold npZeros
    rw [if_pos hn]
    exact h1
  · intro n; rw [h7 n, hnames]
  · intro d hd'
    rw [h5 d.1 (by simp only [a]; exact List.mem_map_of_mem hd'), getCol_eq (by simp only [a]; exact List.mem_map_of_mem hd')]
    simp only [a, List.map_replicate, Option.some.injEq]
    congr 1
    obtain ⟨k, hk, rfl⟩ := List.mem_iff_getElem.mp hd'
    have : (dt.map Prod.fst).idxOf dt[k].1 = k := by
      have h := List.Nodup.idxOf_getElem hn k (by simpa using hk)
      simpa using h
    rw [this, List.getD_eq_getElem?_getD]
    simp [hk]
  · intro d hd' hc
    have := h6 d hd' (by rw [hnames]; exact hc)
    rw [this]; simp [a]

/-! ## C303: indexing -/

/-- **C303, full statement.**  Indexing a cluster catalogue gives the chosen rows with the same columns and the same attached objects. -/
def C303_spec (V X : Type) [Inhabited V] (lower : String → String) (base : List (String × V)) : Prop :=
  ∀ (a : Tab V) (_ : Good lower a) (ctx : Ctx V X) (dtype : Option (List (String × V))) (_ : (cols lower ((dtype.or ctx.config).getD base)).Nodup)
    (c : CCat V X) (_ : catInit lower base a ctx dtype = .ok c) (idx : List Int) (rs : List (List V)) (_ : fancy c.tab.rows idx = .ok rs),
    catItems lower base c idx = .ok ⟨⟨c.tab.names, c.tab.zeros, rs⟩, ctx⟩

/-- **C303, partial.**  It does when the catalogue has the columns of its configuration (the basic ones if it has none). -/
theorem C303_has_partial (lower : String → String) (base : List (String × V)) (c : CCat V X) (hlow : c.tab.names.map lower = c.tab.names)
    (hwf : WF c.tab) (hall : ∀ n ∈ cols lower (c.ctx.config.getD base), n ∈ c.tab.names) (hd : (cols lower (c.ctx.config.getD base)).Nodup)
    (idx : List Int) (rs : List (List V)) (h : fancy c.tab.rows idx = .ok rs) :
    catItems lower base c idx = .ok ⟨⟨c.tab.names, c.tab.zeros, rs⟩, c.ctx⟩ := by
  unfold catItems getItems
  rw [h]
  simp only
  have hmem : ∀ (idx : List Int) (rs : List (List V)), fancy c.tab.rows idx = .ok rs → ∀ r ∈ rs, r ∈ c.tab.rows := by
    intro idx
    induction idx with
    | nil => intro rs h; simp only [fancy, Except.ok.injEq] at h; subst h; simp
    | cons i is ih =>
      intro rs h
      simp only [fancy] at h
      split at h
      · cases h
      · rename_i r hr
        split at h
        · cases h
        · rename_i rs' hrs
          simp only [Except.ok.injEq] at h; subst h
          intro r' hr'
          rcases List.mem_cons.mp hr' with rfl | hr'
          · obtain ⟨k, _, hk⟩ := Option.bind_eq_some_iff.mp hr
            exact List.mem_of_getElem? hk
          · exact ih _ hrs r' hr'
  have hg : Good lower (⟨c.tab.names, c.tab.zeros, rs⟩ : Tab V) :=
    ⟨⟨hwf.nodup, hwf.zeros, fun r hr => hwf.rows r (hmem idx rs h r hr)⟩, by
      show (c.tab.names.map lower).Nodup
      rw [hlow]; exact hwf.nodup⟩
  have e : ∀ ctx : Ctx V X, targetDtype base ctx none = ctx.config.getD base := by
    intro ctx; unfold targetDtype; cases ctx.config <;> rfl
  rw [catInit_eq lower base _ hg _ none (by rw [e]; exact hd)]
  simp only [e, hlow]
  have hm : ((c.ctx.config.getD base).filter fun d => ¬ lower d.1 ∈ c.tab.names) = [] := by
    rw [List.filter_eq_nil_iff]
    intro d hd'
    have := hall _ (List.mem_map_of_mem hd')
    simpa using this
  rw [hm]
  simp [cols]

/-- Lower-casing twice is lower-casing once. -/
def Idem (lower : String → String) : Prop := ∀ s, lower (lower s) = lower s

/-- **C303, partial.**  In particular for every catalogue made without an explicit dtype. -/
theorem C303_partial (lower : String → String) (hi : Idem lower) (base : List (String × V)) (a : Tab V) (ha : Good lower a) (ctx : Ctx V X)
    (hd : (cols lower (ctx.config.getD base)).Nodup) (c : CCat V X) (hc : catInit lower base a ctx none = .ok c) (idx : List Int)
    (rs : List (List V)) (h : fancy c.tab.rows idx = .ok rs) :
    catItems lower base c idx = .ok ⟨⟨c.tab.names, c.tab.zeros, rs⟩, ctx⟩ := by
  obtain ⟨c', h1, h2, _, h4, _, _, h7⟩ := C302 lower base a ha ctx none hd
  rw [h1] at hc
  have : c' = c := Except.ok.inj hc
  subst this
  rw [← h2]
  refine C303_has_partial lower base c' ?_ h4 ?_ (by rw [h2]; exact hd) idx rs h
  · conv_rhs => rw [← List.map_id c'.tab.names]
    refine List.map_congr_left fun n hn => ?_
    rcases (h7 n).mp hn with h | h
    · obtain ⟨m, _, rfl⟩ := List.mem_map.mp h
      exact hi m
    · obtain ⟨d, _, rfl⟩ := List.mem_map.mp h
      exact hi d.1
  · intro n hn
    rw [h2] at hn
    exact (h7 n).mpr (Or.inr hn)

/-- A catalogue of the randoms (run_randoms_zmask.py), two rows. -/
def zmaskTab : Tab Int := ⟨zmaskNames, zmaskNames.map fun _ => 0,
  [[1, 10, 20, 3, 30, 0, 0, 0, 0, 0, 0, 0, 0, 7, 30, 3], [2, 11, 21, 4, 40, 0, 0, 0, 0, 0, 0, 0, 0, 8, 40, 4]]⟩

/-- Nothing attached. -/
def noCtx : Ctx Int Int := ⟨none, none, none, none, none, none, none⟩

/-- **C303 fails** for a catalogue made with an explicit dtype, such as that of the randoms: indexing adds the columns of the configuration.
(The names are compared as they stand.) -/
theorem C303_false : ¬ C303_spec Int Int id (baseNames.map fun n => (n, 0)) := by
  intro h
  have := h zmaskTab ⟨⟨by decide +kernel, by decide +kernel, by decide +kernel⟩, by decide +kernel⟩ noCtx
    (some (zmaskNames.map fun n => (n, 0))) (by decide +kernel) ⟨zmaskTab, noCtx⟩ (by decide +kernel) [1]
    [[2, 11, 21, 4, 40, 0, 0, 0, 0, 0, 0, 0, 0, 8, 40, 4]] (by rfl)
  have h2 := congrArg (fun r : Except Err (CCat Int Int) => match r with | .ok c => c.tab.names.length | .error _ => 0) this
  revert h2
  decide +kernel

/-- **C303.**  A single cluster taken from the catalogue sees the catalogue's row, and the catalogue's radius scale and slope (1.0 and 0.2 if
they are not set). -/
theorem C303_single (one fifth : X) (c : CCat V X) (i : Int) (s : CatEntry V) (r b : X) (h : catItem one fifth c i = .ok (s, r, b)) :
    (∀ m, entryGet s m = cell c.tab (position c.tab.rows.length i).toNat m) ∧
    (∀ x, c.ctx.r0 = some x → r = x) ∧ (c.ctx.r0 = none → r = one) ∧
    (∀ x, c.ctx.beta = some x → b = x) ∧ (c.ctx.beta = none → b = fifth) := by
  unfold catItem at h
  cases ht : takeEntry c.tab i with
  | error e => rw [ht] at h; cases h
  | ok s' =>
    rw [ht] at h
    simp only [Except.ok.injEq, Prod.mk.injEq] at h
    obtain ⟨rfl, rfl, rfl⟩ := h
    refine ⟨?_, fun x hx => by rw [hx]; rfl, fun hx => by rw [hx]; rfl, fun x hx => by rw [hx]; rfl, fun hx => by rw [hx]; rfl⟩
    intro m
    unfold takeEntry at ht
    rw [normIdx_eq] at ht
    by_cases hp : 0 ≤ position c.tab.rows.length i ∧ position c.tab.rows.length i < c.tab.rows.length
    · rw [if_pos hp] at ht
      simp only [Except.ok.injEq] at ht
      subst ht
      unfold entryGet cell getCol
      by_cases hm : m ∈ c.tab.names
      · simp [hm]
      · simp [hm]
    · rw [if_neg hp] at ht; cases ht

example : catItem (10 : Int) 2 (⟨zmaskTab, ⟨none, some 3, none, none, none, none, none⟩⟩ : CCat Int Int) (-1) =
    .ok (⟨zmaskTab, .view 1⟩, 10, 3) := by decide +kernel

/-! ## C304: assignments -/

theorem assign_names (lower : String → String) (t : Tab V) (i : Nat) (w : String × V) : (assign lower t i w).names = t.names := by
  unfold assign; split <;> rfl

theorem assign_zeros (lower : String → String) (t : Tab V) (i : Nat) (w : String × V) : (assign lower t i w).zeros = t.zeros := by
  unfold assign; split <;> rfl

theorem assign_len (lower : String → String) (t : Tab V) (i : Nat) (w : String × V) : (assign lower t i w).rows.length = t.rows.length := by
  unfold assign; split
  · simp [entrySet]
  · rfl

theorem wf_set (t : Tab V) (ht : WF t) (i : Nat) (n : String) (v : V) : WF (entrySet ⟨t, .view i⟩ n v).cat := by
  refine ⟨ht.nodup, ht.zeros, ?_⟩
  intro r hr
  simp only [entrySet] at hr ⊢
  obtain ⟨k, hk⟩ := List.mem_iff_getElem?.mp hr
  rw [List.getElem?_modify] at hk
  obtain ⟨r', hr', rfl⟩ := Option.map_eq_some_iff.mp hk
  have := ht.rows r' (List.mem_of_getElem? hr')
  split
  · rw [List.length_set]; exact this
  · exact this

theorem assign_wf (lower : String → String) (t : Tab V) (ht : WF t) (i : Nat) (w : String × V) : WF (assign lower t i w) := by
  unfold assign; split
  · exact wf_set t ht i _ _
  · exact ht

theorem cell_set (t : Tab V) (ht : WF t) (i : Nat) (hi : i < t.rows.length) (n : String) (hn : n ∈ t.names) (v : V) (j : Nat) (m : String) :
    cell (entrySet ⟨t, .view i⟩ n v).cat j m = if j = i ∧ m = n then some v else cell t j m := by
  have h0 : position t.rows.length (i : Int) = i := by unfold position; rw [if_neg (by omega)]
  have ht' : takeEntry t (i : Int) = .ok ⟨t, .view i⟩ := by
    unfold takeEntry normIdx
    rw [if_pos (by omega), if_pos (by exact_mod_cast hi)]
    rfl
  have := (C82_view t ht i _ ht' n hn v).2 j m
  rw [h0] at this
  simpa using this

theorem cell_assign (lower : String → String) (t : Tab V) (ht : WF t) (i : Nat) (hi : i < t.rows.length) (w : String × V) (j : Nat) (m : String) :
    cell (assign lower t i w) j m = if j = i ∧ m = lower w.1 ∧ m ∈ t.names then some w.2 else cell t j m := by
  unfold assign
  by_cases hw : lower w.1 ∈ t.names
  · rw [if_pos hw, cell_set t ht i hi _ hw]
    by_cases h : j = i ∧ m = lower w.1
    · rw [if_pos h, if_pos ⟨h.1, h.2, by rw [h.2]; exact hw⟩]
    · rw [if_neg h, if_neg (by tauto)]
  · rw [if_neg hw, if_neg]
    rintro ⟨_, rfl, h⟩
    exact hw h

theorem assignAll_keep (lower : String → String) (i : Nat) (ws : List (String × V)) (t : Tab V) (ht : WF t) :
    (assignAll lower t i ws).names = t.names ∧ (assignAll lower t i ws).zeros = t.zeros ∧
    (assignAll lower t i ws).rows.length = t.rows.length ∧ WF (assignAll lower t i ws) := by
  unfold assignAll
  induction ws generalizing t with
  | nil => exact ⟨rfl, rfl, rfl, ht⟩
  | cons w ws ih =>
    rw [List.foldl_cons]
    obtain ⟨h1, h2, h3, h4⟩ := ih _ (assign_wf lower t ht i w)
    exact ⟨by rw [h1, assign_names], by rw [h2, assign_zeros], by rw [h3, assign_len], h4⟩

theorem cell_assignAll (lower : String → String) (i : Nat) (ws : List (String × V)) (t : Tab V) (ht : WF t) (hi : i < t.rows.length) (j : Nat)
    (m : String) (hm : m ∈ t.names) :
    cell (assignAll lower t i ws) j m = if j = i then (lastAssigned lower ws m).or (cell t j m) else cell t j m := by
  induction ws using List.reverseRecOn with
  | nil => simp [assignAll, lastAssigned]
  | append_singleton ws w ih =>
    have e : assignAll lower t i (ws ++ [w]) = assign lower (assignAll lower t i ws) i w := by
      unfold assignAll; rw [List.foldl_append]; rfl
    obtain ⟨h1, _, h3, h4⟩ := assignAll_keep lower i ws t ht
    rw [e, cell_assign lower _ h4 i (by omega), h1, ih]
    by_cases hj : j = i
    · simp only [hj, true_and, if_true]
      by_cases hw : lower w.1 = m
      · rw [if_pos ⟨hw.symm, hm⟩]
        simp [lastAssigned, hw]
      · rw [if_neg (by rintro ⟨h, _⟩; exact hw h.symm)]
        simp [lastAssigned, hw]
    · simp [hj]

theorem process_spec (lower : String → String) (ws : List (List (String × V))) (i : Nat) (t : Tab V) (ht : WF t) (hl : i + ws.length ≤ t.rows.length) :
    (processFrom lower i ws t).names = t.names ∧ (processFrom lower i ws t).zeros = t.zeros ∧
    (processFrom lower i ws t).rows.length = t.rows.length ∧ WF (processFrom lower i ws t) ∧
    ∀ j m, m ∈ t.names → cell (processFrom lower i ws t) j m =
      if i ≤ j then (lastAssigned lower (ws.getD (j - i) []) m).or (cell t j m) else cell t j m := by
  induction ws generalizing i t with
  | nil =>
    refine ⟨rfl, rfl, rfl, ht, ?_⟩
    intro j m _
    simp [processFrom, lastAssigned]
  | cons w ws ih =>
    simp only [List.length_cons] at hl
    obtain ⟨k1, k2, k3, k4⟩ := assignAll_keep lower i w t ht
    obtain ⟨h1, h2, h3, h4, h5⟩ := ih (i + 1) (assignAll lower t i w) k4 (by omega)
    refine ⟨by rw [processFrom, h1, k1], by rw [processFrom, h2, k2], by rw [processFrom, h3, k3], h4, ?_⟩
    intro j m hm
    rw [processFrom, h5 j m (by rw [k1]; exact hm), cell_assignAll lower i w t ht (by omega) j m hm]
    by_cases hij : i + 1 ≤ j
    · have e1 : ¬ j = i := by omega
      have e2 : i ≤ j := by omega
      simp only [hij, e1, e2, if_true, if_false]
      obtain ⟨d, rfl⟩ : ∃ d, j = i + 1 + d := ⟨j - (i + 1), by omega⟩
      rw [show i + 1 + d - i = d + 1 by omega, show i + 1 + d - (i + 1) = d by omega, List.getD_cons_succ]
    · by_cases hji : j = i
      · subst hji
        simp
      · have e2 : ¬ i ≤ j := by omega
        simp only [hij, hji, e2, if_false]

theorem getCol_cell (t : Tab V) (c : String) (hc : c ∈ t.names) (d : V) :
    getCol t c = some ((List.range t.rows.length).map fun j => (cell t j c).getD d) := by
  unfold cell
  rw [getCol_eq hc]
  simp only [Option.some.injEq, Option.bind_some]
  apply List.ext_getElem?
  intro k
  simp only [List.getElem?_map, List.getElem?_range]
  by_cases hk : k < t.rows.length
  · simp [hk]
  · simp [hk]

theorem getCol_rows (t : Tab V) (rows : List (List V)) (c : String) (hc : c ∈ t.names) (js : List Nat) (hj : ∀ j ∈ js, j < t.rows.length)
    (hr : rows = js.map fun j => t.rows.getD j []) (d : V) :
    getCol ({ t with rows := rows } : Tab V) c = some (js.map fun j => (cell t j c).getD d) := by
  unfold cell
  rw [getCol_eq (by exact hc), getCol_eq hc]
  subst hr
  simp only [Option.some.injEq, Option.bind_some, List.map_map]
  apply List.map_congr_left
  intro j hj'
  have := hj j hj'
  simp [this]

/-- **C304, partial.**  When the catalogue that is run has the column (and the one of the cut): a run ends with the catalogue of the clusters
whose final value passes the cut, in order, and in that column every one of them has the last value that was assigned to it while it was
processed, whatever was assigned to it and to others; the value it started with if none was. -/
theorem C304_column_partial (lower : String → String) (base : List (String × V)) (hb : (cols lower base).Nodup) (cut : String) (pass : V → Bool) (t : Tab V)
    (ht : WF t) (hlow : t.names.map lower = t.names) (hlam : lower cut ∈ t.names) (ws : List (List (String × V)))
    (hws : ws.length ≤ t.rows.length) :
    ∃ out : CCat V X, runCat lower base cut pass ws t = .ok out ∧
      (∀ c ∈ t.names, ∀ zero, getCol out.tab c = some ((kept lower cut pass t ws).map fun j => final lower t ws zero j c)) ∧
      (∀ d ∈ base, lower d.1 ∉ t.names → getCol out.tab (lower d.1) = some ((kept lower cut pass t ws).map fun _ => d.2)) := by
  obtain ⟨h1, h2, h3, h4, h5⟩ := process_spec lower ws 0 t ht (by omega)
  unfold runCat postprocess
  set u := processFrom lower 0 ws t with hu
  have hcell : ∀ c ∈ t.names, ∀ zero j, j < t.rows.length → (cell u j c).getD zero = final lower t ws zero j c := by
    intro c hc zero j hj
    rw [h5 j c hc, if_pos (Nat.zero_le _), Nat.sub_zero]
    unfold final
    cases lastAssigned lower (ws.getD j []) c <;> simp
  rw [getCol_cell u _ (by rw [h1]; exact hlam) default]
  simp only
  have huse : ((List.range u.rows.length).filter fun i => pass (((List.range u.rows.length).map fun j =>
      (cell u j (lower cut)).getD default).getD i default)) = kept lower cut pass t ws := by
    unfold kept
    rw [h3]
    apply List.filter_congr
    intro i hi
    have hi' := List.mem_range.mp hi
    rw [List.getD_eq_getElem?_getD, List.getElem?_map, List.getElem?_range hi', Option.map_some, Option.getD_some,
      hcell _ hlam default i hi']
  rw [huse]
  have hk : ∀ j ∈ kept lower cut pass t ws, j < u.rows.length := by
    intro j hj
    rw [h3]; exact List.mem_range.mp (List.mem_filter.mp hj).1
  set a : Tab V := { u with rows := (kept lower cut pass t ws).map fun i => u.rows.getD i [] } with ha
  have hg : Good lower a := by
    refine ⟨⟨h4.nodup, h4.zeros, ?_⟩, ?_⟩
    · intro r hr
      obtain ⟨j, hj, rfl⟩ := List.mem_map.mp hr
      have := hk j hj
      rw [List.getD_eq_getElem?_getD, List.getElem?_eq_getElem this, Option.getD_some]
      exact h4.rows _ (List.getElem_mem _)
    · show (u.names.map lower).Nodup
      rw [h1, hlow]; exact ht.nodup
  have hnames : a.names = t.names := h1
  obtain ⟨out, e1, _, _, _, e5, e6, _⟩ := C302 lower base a hg (⟨none, none, none, none, none, none, none⟩ : Ctx V X) none hb
  refine ⟨out, e1, ?_, ?_⟩
  · intro c hc zero
    have hlc : lower c = c := by
      have h := hlow
      conv_rhs at h => rw [← List.map_id t.names]
      exact (List.map_inj_left.mp h) c hc
    have := e5 c (by rw [hnames]; exact hc)
    rw [hlc] at this
    rw [this, getCol_rows u _ c (by rw [h1]; exact hc) _ hk rfl zero]
    congr 1
    apply List.map_congr_left
    intro j hj
    exact hcell c hc zero j (by rw [← h3]; exact hk j hj)
  · intro d hd hc
    have := e6 d hd (by rw [hnames, hlow]; exact hc)
    rw [this]
    simp [ha]

/-- **C304, full statement.**  Whatever catalogue of zeros a run begins with: in every basic column of the resulting catalogue, each cluster that
passes the richness cut has the last value assigned to it. -/
def C304_spec (V X : Type) [Inhabited V] (lower : String → String) (base : List (String × V)) : Prop :=
  ∀ (size : Nat) (ctx : Ctx V X) (dtype : Option (List (String × V))) (c : CCat V X) (_ : catZeros lower base size ctx dtype = .ok c)
    (cut : String) (_ : lower cut ∈ c.tab.names) (pass : V → Bool) (ws : List (List (String × V))) (_ : ws.length = size) (out : CCat V X)
    (_ : runCat lower base cut pass ws c.tab = .ok out) (d : String × V) (_ : d ∈ base),
    getCol out.tab (lower d.1) = some ((kept lower cut pass c.tab ws).map fun j => final lower c.tab ws d.2 j (lower d.1))

/-- **C304, partial.**  True for a catalogue made without an explicit dtype. -/
theorem C304_partial (lower : String → String) (hi : Idem lower) (base : List (String × V)) (hb : (cols lower base).Nodup) (size : Nat)
    (ctx : Ctx V X) (hcf : (cols lower (ctx.config.getD base)).Nodup) (c : CCat V X) (h : catZeros lower base size ctx none = .ok c)
    (cut : String) (hlam : lower cut ∈ c.tab.names) (pass : V → Bool) (ws : List (List (String × V))) (hws : ws.length = size) :
    ∃ out : CCat V X, runCat lower base cut pass ws c.tab = .ok out ∧ ∀ d ∈ base,
      getCol out.tab (lower d.1) = some ((kept lower cut pass c.tab ws).map fun j => final lower c.tab ws d.2 j (lower d.1)) := by
  obtain ⟨c', g1, _, g3, g4, g5, _, _⟩ := C302_zeros lower base size ctx none hcf hb
  rw [g1] at h
  have : c' = c := Except.ok.inj h
  subst this
  have hlow : c'.tab.names.map lower = c'.tab.names := by
    conv_rhs => rw [← List.map_id c'.tab.names]
    refine List.map_congr_left fun n hn => ?_
    rcases (g5 n).mp hn with h | h
    · obtain ⟨d, _, rfl⟩ := List.mem_map.mp h
      exact hi d.1
    · obtain ⟨d, _, rfl⟩ := List.mem_map.mp h
      exact hi d.1
  obtain ⟨out, o1, o2, _⟩ := C304_column_partial (X := X) lower base hb cut pass c'.tab g4 hlow hlam ws (by omega)
  exact ⟨out, o1, fun d hd => o2 (lower d.1) ((g5 _).mpr (Or.inl (List.mem_map_of_mem hd))) d.2⟩

/-- Names compared as they stand, except for the spelling `Lambda`. -/
def lowerEx (s : String) : String := if s = "Lambda" then "LAMBDA" else s

/-- **C304 fails** for the randoms (run_randoms_zmask.py): the limiting magnitude found for each random point (20 here) is lost, and the
catalogue that is written has zero in that column. -/
theorem C304_false : ¬ C304_spec Int Int lowerEx (baseNames.map fun n => (n, 0)) := by
  intro h
  have hb : (cols lowerEx (baseNames.map fun n => (n, (0 : Int)))).Nodup := by decide +kernel
  obtain ⟨c, g1, _, g3, g4, g5, _, _⟩ := C302_zeros lowerEx (baseNames.map fun n => (n, (0 : Int))) 1 noCtx
    (some (zmaskNames.map fun n => (n, 0))) (by decide +kernel) (by decide +kernel)
  have hlam : lowerEx "Lambda" ∈ c.tab.names := (g5 _).mpr (Or.inl (by decide +kernel))
  have hmiss : lowerEx "LIM_LIMMAG" ∉ c.tab.names := by
    rw [g5]; decide +kernel
  have hlow : c.tab.names.map lowerEx = c.tab.names := by
    conv_rhs => rw [← List.map_id c.tab.names]
    refine List.map_congr_left fun n hn => ?_
    unfold lowerEx
    split
    · rename_i h0
      subst h0
      revert hn
      rw [g5]
      decide +kernel
    · rfl
  let ws : List (List (String × Int)) := [[("LAMBDA", 30), ("LIM_LIMMAG", 20)]]
  obtain ⟨out, o1, _, o3⟩ := C304_column_partial (X := Int) lowerEx _ hb "Lambda" (fun v => 5 ≤ v) c.tab g4 hlow hlam ws (by simp [ws, g3])
  have hk : kept lowerEx "Lambda" (fun v => decide (5 ≤ v)) c.tab ws = [0] := by
    unfold kept
    rw [g3]
    rfl
  have e1 := h 1 noCtx _ c g1 _ hlam _ ws rfl out o1 ("LIM_LIMMAG", 0) (by decide +kernel)
  have e2 := o3 ("LIM_LIMMAG", 0) (by decide +kernel) hmiss
  rw [e1, hk] at e2
  simp only [List.map_cons, List.map_nil, Option.some.injEq, List.cons.injEq, and_true] at e2
  have : final lowerEx c.tab ws 0 0 (lowerEx "LIM_LIMMAG") = 20 := by rfl
  omega

/-- The hypotheses of the partial statement are met by a run with two clusters, one below the cut. -/
example : ∃ c : CCat Int Int, catZeros lowerEx [("Lambda", 0), ("LIM_LIMMAG", 0)] 2 noCtx none = .ok c ∧
    ∃ out : CCat Int Int, runCat lowerEx [("Lambda", 0), ("LIM_LIMMAG", 0)] "Lambda" (fun v => 5 ≤ v)
      [[("Lambda", 30), ("LIM_LIMMAG", 20)], [("LIM_LIMMAG", 21), ("Lambda", 9), ("Lambda", 2)]] c.tab = .ok out ∧ out.tab.rows = [[30, 20]] :=
  ⟨⟨⟨["LAMBDA", "LIM_LIMMAG"], [0, 0], [[0, 0], [0, 0]]⟩, noCtx⟩, by decide +kernel,
    ⟨⟨["LAMBDA", "LIM_LIMMAG"], [0, 0], [[30, 20]]⟩, noCtx⟩, by decide +kernel, rfl⟩

/-! ## C306: the likelihoods -/

/-- **C306, full statement.**  In the catalogue of likelihoods made with calibrated centers, the likelihood of each cluster is the sum of those of
its members and of its central galaxy. -/
def C306_spec (V X : Type) [Inhabited V] [Add V] (lower : String → String) (base : List (String × V)) (veryLow zero : V) : Prop :=
  ∀ (pass : V → Bool) (_ : ¬ pass veryLow = true) (t : Tab V) (_ : WF t) (_ : t.names.map lower = t.names)
    (_ : ∀ d ∈ base, lower d.1 ∈ t.names) (ls : List (Option (V × V))) (_ : ls.length = t.rows.length) (out : CCat V X)
    (_ : runCat lower base "lnlamlike" pass (ls.map (likeWrites veryLow zero true)) t = .ok out) (i : Nat) (mem cen like : V)
    (_ : cell out.tab i (lower "lnlamlike") = some mem) (_ : cell out.tab i (lower "lncglike") = some cen)
    (_ : cell out.tab i (lower "lnlike") = some like), like = cen + mem

/-- **C306, partial.**  In the catalogue of likelihoods, for the clusters that pass the cut in order: the likelihoods of the members, the sums,
and in the column of the centrals whatever was there in the beginning: what was found for them is lost. -/
theorem C306_columns_partial [Add V] (lower : String → String)
    (hn : [lower "lnlamlike", lower "lnbcglike", lower "lnlike", lower "lncglike"].Nodup) (base : List (String × V))
    (hb : (cols lower base).Nodup) (veryLow zero : V) (pass : V → Bool) (hp : ¬ pass veryLow = true) (t : Tab V) (ht : WF t)
    (hlow : t.names.map lower = t.names) (hc : ∀ s ∈ ["lnlamlike", "lnlike", "lncglike"], lower s ∈ t.names)
    (ls : List (Option (V × V))) (hl : ls.length = t.rows.length) :
    let ok := (List.range t.rows.length).filter fun j => match ls.getD j none with
      | none => false
      | some (mem, _) => pass mem
    ∃ out : CCat V X, runCat lower base "lnlamlike" pass (ls.map (likeWrites veryLow zero true)) t = .ok out ∧
      getCol out.tab (lower "lnlamlike") = some (ok.map fun j => ((ls.getD j none).map Prod.fst).getD zero) ∧
      getCol out.tab (lower "lnlike") = some (ok.map fun j => ((ls.getD j none).map fun p => p.2 + p.1).getD zero) ∧
      getCol out.tab (lower "lncglike") = some (ok.map fun j => (cell t j (lower "lncglike")).getD zero) := by
  intro ok
  have hne := hn
  simp only [List.nodup_cons, List.mem_cons, List.not_mem_nil, or_false, not_or, not_false_eq_true, List.nodup_nil, and_true] at hne
  obtain ⟨⟨n1, n2, n3⟩, ⟨n4, n5⟩, n6⟩ := hne
  obtain ⟨out, o1, o2, _⟩ := C304_column_partial (X := X) lower base hb "lnlamlike" pass t ht hlow (hc _ (by simp))
    (ls.map (likeWrites veryLow zero true)) (by rw [List.length_map]; omega)
  have hget : ∀ j, j < t.rows.length → (ls.map (likeWrites veryLow zero true)).getD j [] = likeWrites veryLow zero true (ls.getD j none) := by
    intro j hj
    rw [← hl] at hj
    simp [List.getD_eq_getElem?_getD, hj]
  have f1 : ∀ j d, j < t.rows.length → final lower t (ls.map (likeWrites veryLow zero true)) d j (lower "lnlamlike") =
      match ls.getD j none with | none => veryLow | some (mem, _) => mem := by
    intro j d hj
    unfold final
    rw [hget j hj]
    cases ls.getD j none with
    | none => simp [likeWrites, lastAssigned, Ne.symm n2, Ne.symm n1]
    | some p => simp [likeWrites, lastAssigned, Ne.symm n2, Ne.symm n1]
  have f2 : ∀ j d, j < t.rows.length → final lower t (ls.map (likeWrites veryLow zero true)) d j (lower "lnlike") =
      match ls.getD j none with | none => veryLow | some (mem, cen) => cen + mem := by
    intro j d hj
    unfold final
    rw [hget j hj]
    cases ls.getD j none with
    | none => simp [likeWrites, lastAssigned]
    | some p => simp [likeWrites, lastAssigned]
  have f3 : ∀ j d, j < t.rows.length → final lower t (ls.map (likeWrites veryLow zero true)) d j (lower "lncglike") =
      (cell t j (lower "lncglike")).getD d := by
    intro j d hj
    unfold final
    rw [hget j hj]
    cases ls.getD j none with
    | none => simp [likeWrites, lastAssigned, n3, n5, n6]
    | some p => simp [likeWrites, lastAssigned, n3, n5, n6]
  have hk : kept lower "lnlamlike" pass t (ls.map (likeWrites veryLow zero true)) = ok := by
    unfold kept
    apply List.filter_congr
    intro j hj
    rw [f1 j _ (List.mem_range.mp hj)]
    cases ls.getD j none with
    | none => simpa using hp
    | some p => rfl
  have hok : ∀ j ∈ ok, j < t.rows.length ∧ ∃ p, ls.getD j none = some p := by
    intro j hj
    obtain ⟨h1, h2⟩ := List.mem_filter.mp hj
    refine ⟨List.mem_range.mp h1, ?_⟩
    cases hg : ls.getD j none with
    | none => rw [hg] at h2; simp at h2
    | some p => exact ⟨p, rfl⟩
  refine ⟨out, o1, ?_, ?_, ?_⟩
  · rw [o2 _ (hc _ (by simp)) zero, hk]
    congr 1
    apply List.map_congr_left
    intro j hj
    obtain ⟨hj', p, hp'⟩ := hok j hj
    rw [f1 j _ hj', hp']; rfl
  · rw [o2 _ (hc _ (by simp)) zero, hk]
    congr 1
    apply List.map_congr_left
    intro j hj
    obtain ⟨hj', p, hp'⟩ := hok j hj
    rw [f2 j _ hj', hp']; rfl
  · rw [o2 _ (hc _ (by simp)) zero, hk]
    congr 1
    apply List.map_congr_left
    intro j hj
    exact f3 j _ (hok j hj).1

/-- **C306 fails**: with a likelihood 3 of the members and 4 of the central, the sum is 7 and the column of the central is 0. -/
theorem C306_false : ¬ C306_spec Int Int id [("lnlamlike", 0), ("lncglike", 0), ("lnlike", 0)] (-100) 0 := by
  intro h
  let t : Tab Int := ⟨["lnlamlike", "lncglike", "lnlike"], [0, 0, 0], [[0, 0, 0]]⟩
  obtain ⟨out, o1, o2, o3, o4⟩ := C306_columns_partial (X := Int) id (by decide) [("lnlamlike", 0), ("lncglike", 0), ("lnlike", 0)] (by decide) (-100 : Int) 0
    (fun v => decide (-100 < v)) (by decide) t ⟨by decide, by decide, by decide⟩ (by decide) (by decide) [some (3, 4)] rfl
  have := h (fun v => decide (-100 < v)) (by decide) t ⟨by decide, by decide, by decide⟩ (by decide) (by decide) [some (3, 4)] rfl out o1 0 3 0 7
    (by unfold cell; rw [o2]; rfl) (by unfold cell; rw [o4]; rfl) (by unfold cell; rw [o3]; rfl)
  omega

/-! ## C305: the p(z) that is stored -/

section pz

variable {α : Type} [Field α] [LinearOrder α] [IsStrictOrderedRing α]

/-- **C305.**  After a cluster of a run with p(z) has been corrected (at least one iteration), the p(z) in its row of the catalogue integrates to
one over the bins in that row, has the proportions it had, its bins are widened as the error, the redshift and its error are the corrected ones,
and nothing else in the catalogue has changed. -/
theorem C305 (lower : String → String) (hl : ∀ s ∈ ["pzbins", "pz", "pzvals", "z_lambda", "z_lambda_e"], lower s = s) {sqrt : α → α}
    (hq : Mask.SqrtOK sqrt) {simpson : List α → List α → α} (hs : Zlambda.SimpsonOK simpson) (hpos : Zlambda.SimpsonPos simpson)
    (loglam : α) (z : List α) (hz : Utilities.Grid z) (ct : Zlambda.CorrTab α) (cts : List (Zlambda.CorrTab α))
    (hts : ∀ u ∈ ct :: cts, ∃ spl : List α, spl.length = z.length ∧ u.scatter = Zlambda.scatterTable spl)
    (t : Tab (List α)) (ht : WF t) (i : Nat) (hi : i < t.rows.length)
    (hcols : ∀ s ∈ ["pzbins", "pz", "z_lambda", "z_lambda_e"], s ∈ t.names) (hno : "pzvals" ∉ t.names)
    (zl e : α) (he : 0 < e) (bins vals : List α) (hb : 2 ≤ bins.length) (hlen : vals.length = bins.length) (hd : bins.getD 0 0 < bins.getD 1 0)
    (hv0 : ∀ x ∈ vals, 0 ≤ x) (hv : ∃ x ∈ vals, 0 < x)
    (s' : Zlambda.CorrState α) (h : Zlambda.applyCorrection sqrt simpson loglam z false (ct :: cts) ⟨zl, e, some (bins, vals)⟩ = some s') :
    ∃ bins' vals', cell (storeCorrection lower t i s') i "pzbins" = some bins' ∧ cell (storeCorrection lower t i s') i "pz" = some vals' ∧
      simpson vals' bins' = 1 ∧ (∃ c, 0 < c ∧ vals' = vals.map fun v => v / c) ∧
      (∀ k, k + 1 < bins.length → bins'.getD (k + 1) 0 - bins'.getD k 0 = (bins.getD 1 0 - bins.getD 0 0) * (s'.e / e)) ∧
      cell (storeCorrection lower t i s') i "z_lambda" = some [s'.zlam] ∧ cell (storeCorrection lower t i s') i "z_lambda_e" = some [s'.e] ∧
      ∀ j m, (j ≠ i ∨ m ∉ ["pzbins", "pz", "z_lambda", "z_lambda_e"]) → cell (storeCorrection lower t i s') j m = cell t j m := by
  have hpz : ∀ (cts : List (Zlambda.CorrTab α)) (s s' : Zlambda.CorrState α), Zlambda.applyCorrection sqrt simpson loglam z false cts s = some s' →
      (∃ b v, s.pz = some (b, v)) → ∃ b v, s'.pz = some (b, v) := by
    intro cts
    induction cts with
    | nil => intro s s' h hp; simp only [Zlambda.applyCorrection, Option.some.injEq] at h; subst h; exact hp
    | cons c cs ih =>
      intro s s' h hp
      rw [Zlambda.applyCorrection] at h
      obtain ⟨m, hm, h⟩ := Option.bind_eq_some_iff.mp h
      obtain ⟨b, v, hbv⟩ := hp
      obtain ⟨b', v', hbv', _⟩ := (Zlambda.corrStep_some hm).2.2.2 b v hbv
      exact ih m s' h ⟨b', v', hbv'⟩
  obtain ⟨b', v', hp'⟩ := hpz _ _ _ h ⟨bins, vals, rfl⟩
  obtain ⟨r1, r2, r3⟩ := Zlambda.C117 hq hs hpos loglam z hz false ct cts hts ⟨zl, e, some (bins, vals)⟩ s' he bins vals b' v' hb hlen hd hv0 hv h
    rfl hp'
  have hlo : lower "pzbins" = "pzbins" ∧ lower "pzvals" = "pzvals" ∧ lower "z_lambda" = "z_lambda" ∧ lower "z_lambda_e" = "z_lambda_e" :=
    ⟨hl _ (by simp), hl _ (by simp), hl _ (by simp), hl _ (by simp)⟩
  have hst : storeCorrection lower t i s' = assignAll lower (entrySet ⟨t, .view i⟩ "pz" v').cat i
      [("pzbins", b'), ("pzvals", v'), ("z_lambda", [s'.zlam]), ("z_lambda_e", [s'.e])] := by
    unfold storeCorrection; rw [hp']
  have hu : WF (entrySet ⟨t, .view i⟩ "pz" v').cat := wf_set t ht i _ _
  have hul : (entrySet ⟨t, .view i⟩ "pz" v').cat.rows.length = t.rows.length := by simp [entrySet]
  have hun : (entrySet ⟨t, .view i⟩ "pz" v').cat.names = t.names := rfl
  have hcell : ∀ j m, m ∈ t.names → cell (storeCorrection lower t i s') j m =
      if j = i then (lastAssigned lower [("pzbins", b'), ("pzvals", v'), ("z_lambda", [s'.zlam]), ("z_lambda_e", [s'.e])] m).or
        (if m = "pz" then some v' else cell t j m) else cell t j m := by
    intro j m hm
    rw [hst, cell_assignAll lower i _ _ hu (by omega) j m (by rw [hun]; exact hm), cell_set t ht i hi "pz" (hcols _ (by simp))]
    by_cases hj : j = i
    · simp [hj]
    · simp [hj]
  refine ⟨b', v', ?_, ?_, r2, r3, r1, ?_, ?_, ?_⟩
  · rw [hcell _ _ (hcols _ (by simp))]
    simp [lastAssigned, hlo]
  · rw [hcell _ _ (hcols _ (by simp))]
    simp [lastAssigned, hlo]
  · rw [hcell _ _ (hcols _ (by simp))]
    simp [lastAssigned, hlo]
  · rw [hcell _ _ (hcols _ (by simp))]
    simp [lastAssigned, hlo]
  · intro j m hjm
    by_cases hm : m ∈ t.names
    · rw [hcell j m hm]
      by_cases hj : j = i
      · rw [if_pos hj]
        have hm' : m ∉ ["pzbins", "pz", "z_lambda", "z_lambda_e"] := by tauto
        simp only [List.mem_cons, List.not_mem_nil, or_false, not_or] at hm'
        have hm3 : ¬ "pzvals" = m := by rintro rfl; exact hno hm
        simp [lastAssigned, hlo, hm3, Ne.symm hm'.1, Ne.symm hm'.2.2.1, Ne.symm hm'.2.2.2, hm'.2.1]
      · rw [if_neg hj]
    · have : (storeCorrection lower t i s').names = t.names := by
        rw [hst, (assignAll_keep lower i _ _ hu).1, hun]
      unfold cell
      rw [getCol_none hm, getCol_none (by rw [this]; exact hm)]

/-- The hypotheses on the catalogue are met. -/
example : WF (⟨["z_lambda", "z_lambda_e", "pzbins", "pz"], [[], [], [], []],
    [[[1 / 2], [1 / 10], [4 / 10, 5 / 10, 6 / 10], [1, 8, 1]]]⟩ : Tab (List ℚ)) ∧
    (∀ s ∈ ["pzbins", "pz", "z_lambda", "z_lambda_e"], s ∈ ["z_lambda", "z_lambda_e", "pzbins", "pz"]) ∧
    "pzvals" ∉ ["z_lambda", "z_lambda_e", "pzbins", "pz"] ∧ ∀ s ∈ ["pzbins", "pz", "pzvals", "z_lambda", "z_lambda_e"], s.toLower = s :=
  ⟨⟨by decide, by decide, by decide⟩, by decide, by decide, by decide +kernel⟩

end pz

end Redmapper.ClusCat
