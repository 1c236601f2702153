import Verif.Model.Runner
import Mathlib.Tactic.Linarith
import Mathlib.Tactic.NormNum
import Mathlib.Tactic.SplitIfs
import Mathlib.Data.List.Nodup
import Mathlib.Data.List.Induction

set_option linter.unusedSectionVars false

namespace Redmapper.Runner

variable {α σ : Type} [Field α] [LinearOrder α]

theorem pass_append (E : Env α σ) (dm rc : Bool) (s : St α σ) (cs cs' : List (Cluster α)) :
    pass E dm rc s (cs ++ cs') =
      ((pass E dm rc (pass E dm rc s cs).1 cs').1,
       (pass E dm rc s cs).2 ++ (pass E dm rc (pass E dm rc s cs).1 cs').2) := by
  induction cs generalizing s with
  | nil => simp [pass]
  | cons c cs ih => simp only [List.cons_append, pass, ih, List.cons_append]

theorem pass_length (E : Env α σ) (dm rc : Bool) (s : St α σ) (cs : List (Cluster α)) :
    (pass E dm rc s cs).2.length = cs.length := by
  induction cs generalizing s with
  | nil => rfl
  | cons c cs ih => simp [pass, ih]

theorem stepC_id (E : Env α σ) (dm rc : Bool) (s : St α σ) (c : Cluster α) :
    (stepC E dm rc s c).2.c.id = c.id := by
  unfold stepC
  simp only
  split_ifs <;> simp [resetBad]

theorem pass_ids (E : Env α σ) (dm rc : Bool) (s : St α σ) (cs : List (Cluster α)) :
    (pass E dm rc s cs).2.map (fun o => o.c.id) = cs.map Cluster.id := by
  induction cs generalizing s with
  | nil => rfl
  | cons c cs ih => simp [pass, ih, stepC_id]

theorem stepC_mem_id (E : Env α σ) (dm rc : Bool) (s : St α σ) (c : Cluster α)
    (ms : List (Member α)) (h : (stepC E dm rc s c).2.mem = some ms) :
    ∀ m ∈ ms, m.id = c.id := by
  have hid := stepC_id E dm rc s c
  unfold stepC at h hid
  simp only at h hid
  split_ifs at h hid <;> simp_all [memberRows, resetBad] <;>
    (subst h; intro m hm; simp only [List.mem_map] at hm; obtain ⟨n, _, rfl⟩ := hm; simp_all)

theorem pass_mem_id (E : Env α σ) (dm rc : Bool) (s : St α σ) (cs : List (Cluster α)) :
    ∀ o ∈ (pass E dm rc s cs).2, ∀ ms, o.mem = some ms → ∀ m ∈ ms, m.id = o.c.id := by
  induction cs generalizing s with
  | nil => intro o ho; simp [pass] at ho
  | cons c cs ih =>
    intro o ho ms hms m hm
    simp only [pass, List.mem_cons] at ho
    rcases ho with rfl | ho
    · rw [stepC_id]; exact stepC_mem_id E dm rc s c ms hms m hm
    · exact ih _ o ho ms hms m hm

/-- Index selection by the positions `match` returns is filtering. -/
theorem range_filter_filterMap {β : Type} (ms : List β) (q : β → Bool) :
    ((List.range ms.length).filter fun j => match ms[j]? with
      | some v => q v | none => false).filterMap (fun j => ms[j]?) = ms.filter q := by
  induction ms using List.reverseRecOn with
  | nil => rfl
  | append_singleton ms m ih =>
    rw [List.length_append, List.length_singleton, List.range_succ, List.filter_append,
      List.filterMap_append, List.filter_append]
    congr 1
    · rw [← ih]
      have hf : (List.range ms.length).filter (fun j => match (ms ++ [m])[j]? with
          | some v => q v | none => false) = (List.range ms.length).filter (fun j =>
          match ms[j]? with | some v => q v | none => false) := by
        apply List.filter_congr
        intro j hj
        rw [List.getElem?_append_left (List.mem_range.mp hj)]
      rw [hf]
      apply List.filterMap_congr
      intro j hj
      rw [List.getElem?_append_left (List.mem_range.mp (List.mem_filter.mp hj).1)]
    · by_cases h : q m <;> simp [h]

theorem esMatch2_spec (a b : List Int) (js : List Nat) (h : esMatch2 a b = .ok js) :
    a.Nodup ∧ js = (List.range b.length).filter fun j => match b[j]? with
      | some v => a.contains v | none => false := by
  unfold esMatch2 at h
  split_ifs at h with h1
  cases h
  refine ⟨?_, rfl⟩
  have : a.dedup.length = a.length := not_not.mp h1
  have h2 := List.dedup_sublist a
  exact List.dedup_eq_self.mp (h2.eq_of_length this)

theorem dedup_length_iff {β : Type} [DecidableEq β] (l : List β) :
    l.dedup.length = l.length ↔ l.Nodup := by
  constructor
  · intro h; exact List.dedup_eq_self.mp ((List.dedup_sublist l).eq_of_length h)
  · intro h; rw [List.dedup_eq_self.mpr h]

theorem postprocess_ok (ml : α) (cat : List (Cluster α)) (ms : List (Member α))
    (hn : ((cat.filter fun c => decide (ml ≤ c.Lambda)).map Cluster.id).Nodup) :
    postprocess ml cat (some ms) =
      .ok (cat.filter (fun c => decide (ml ≤ c.Lambda)), some (ms.filter fun m =>
        ((cat.filter fun c => decide (ml ≤ c.Lambda)).map Cluster.id).contains m.id)) := by
  have e : ∀ b, esMatch2 ((cat.filter fun c => decide (ml ≤ c.Lambda)).map Cluster.id) b =
      .ok ((List.range b.length).filter fun j => match b[j]? with
        | some v => ((cat.filter fun c => decide (ml ≤ c.Lambda)).map Cluster.id).contains v
        | none => false) := by
    intro b
    unfold esMatch2
    rw [if_neg (by rw [not_not]; exact (dedup_length_iff _).mpr hn)]
    rfl
  unfold postprocess
  simp only [e]
  congr 3
  rw [← range_filter_filterMap ms]
  congr 1
  rw [List.length_map]
  apply List.filter_congr
  intro j hj
  rw [List.getElem?_map]
  cases ms[j]? <;> simp

/-! folds of min and max -/

theorem foldl_min_le (l : List Int) (a : Int) : l.foldl min a ≤ a ∧ ∀ x ∈ l, l.foldl min a ≤ x := by
  induction l generalizing a with
  | nil => simp
  | cons b l ih =>
    have := ih (min a b)
    refine ⟨le_trans this.1 (min_le_left _ _), ?_⟩
    intro x hx
    rcases List.mem_cons.mp hx with rfl | hx
    · exact le_trans this.1 (min_le_right _ _)
    · exact this.2 x hx

theorem le_foldl_max (l : List Int) (a : Int) : a ≤ l.foldl max a ∧ ∀ x ∈ l, x ≤ l.foldl max a := by
  induction l generalizing a with
  | nil => simp
  | cons b l ih =>
    have := ih (max a b)
    refine ⟨le_trans (le_max_left _ _) this.1, ?_⟩
    intro x hx
    rcases List.mem_cons.mp hx with rfl | hx
    · exact le_trans (le_max_right _ _) this.1
    · exact this.2 x hx

theorem min_eq_max_iff (l : List Int) (a : Int) :
    l.foldl min a = l.foldl max a ↔ ∀ x ∈ l, x = a := by
  constructor
  · intro h x hx
    have h1 := foldl_min_le l a
    have h2 := le_foldl_max l a
    have := h1.2 x hx; have := h2.2 x hx
    omega
  · intro h
    have e : ∀ (f : Int → Int → Int), (∀ z, f z z = z) → l.foldl f a = a := by
      intro f hf
      induction l with
      | nil => rfl
      | cons b l ih =>
        have hb := h b List.mem_cons_self
        subst hb
        rw [List.foldl_cons, hf]
        exact ih (fun x hx => h x (List.mem_cons_of_mem _ hx))
    rw [e min (fun z => min_self z), e max (fun z => max_self z)]

end Redmapper.Runner
