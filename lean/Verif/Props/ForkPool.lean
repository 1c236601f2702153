/-
Properties of the runs over many processes: C275-C278.
-/
import Verif.Model.ForkPool
import Mathlib.Data.List.Basic
import Mathlib.Data.List.Perm.Basic
import Mathlib.Data.List.TakeWhile

namespace Redmapper.ForkPool

set_option linter.unusedSectionVars false

open Redmapper.Config (dec)

variable {T R S G D U V N C E : Type} [DecidableEq N]

/-! ## C275: results do not depend on the schedule -/

theorem exec_length (f : T → S → R × S) (l : List (T × Nat)) : ∀ st, (exec f st l).length = l.length := by
  induction l with
  | nil => intro st; rfl
  | cons a l ih => intro st; obtain ⟨t, w⟩ := a; simp [exec, ih]

/-- **C275.** Whatever part of the result of a task does not depend on the state of its process is, for every number of processes and every assignment of tasks to
them, what the task alone gives, in the order of the tasks; and the state of the parent is not changed. -/
theorem C275 (f : T → S → R × S) (vis : R → D) (d : T → D) (h : ∀ t s, vis (f t s).1 = d t) (s : S) (tasks : List T) (sched : List Nat)
    (hl : sched.length = tasks.length) : (poolMap f s tasks sched).1.map vis = tasks.map d ∧ (poolMap f s tasks sched).2 = s := by
  refine ⟨?_, rfl⟩
  have key : ∀ (l : List (T × Nat)) (st : Nat → S), (exec f st l).map vis = (l.map Prod.fst).map d := by
    intro l
    induction l with
    | nil => intro st; rfl
    | cons a l ih => intro st; obtain ⟨t, w⟩ := a; simp [exec, ih, h]
  unfold poolMap
  rw [key, List.map_fst_zip (by omega)]

theorem chunk_det (u : Nat → U) (nsamp : Nat) (det : G → D) (draw : G → Option (List U → V)) (l : List G) :
    ∀ p, (chunk u nsamp det draw l p).1.map Prod.fst = l.map det := by
  induction l with
  | nil => intro p; rfl
  | cons g l ih =>
    intro p
    unfold chunk
    simp only [List.map_cons, ih, List.cons.injEq, and_true]
    unfold galaxy
    cases draw g <;> rfl

/-- **C275 (redshifts).** All columns of a zred run but the random samples are those of each galaxy alone, for every schedule. -/
theorem C275_zred (u : Nat → U) (nsamp : Nat) (det : G → D) (draw : G → Option (List U → V)) (p : Nat) (tasks : List (List G)) (sched : List Nat)
    (hl : sched.length = tasks.length) :
    (zredRun u nsamp det draw p tasks sched).1.map (fun rows => rows.map Prod.fst) = tasks.map fun gs => gs.map det :=
  (C275 (chunk u nsamp det draw) (fun rows => rows.map Prod.fst) (fun gs => gs.map det) (fun t s => chunk_det u nsamp det draw t s) p tasks sched hl).1

/-- Non-vacuity: three tasks on two workers. -/
example : (zredRun (fun n => n) 1 (fun g : Nat => g + 1) (fun _ => some fun xs => xs.sum) 10 [[1, 2], [3], [4, 5]] [0, 1, 0]).1 =
    [[(2, some 10), (3, some 11)], [(4, some 10)], [(5, some 12), (6, some 13)]] := by decide

/-! ## C276: random samples -/

/-- Galaxies that use random numbers. -/
def drawing (draw : G → Option (List U → V)) (l : List G) : Nat := (l.filter fun g => (draw g).isSome).length

/-- The numbers of the stream that belong to a galaxy after `k` others that used some. -/
def own (u : Nat → U) (nsamp p k : Nat) : List U := (List.range nsamp).map fun i => u (p + nsamp * k + i)

theorem chunk_spec (u : Nat → U) (nsamp : Nat) (det : G → D) (draw : G → Option (List U → V)) (l : List G) :
    ∀ p, (chunk u nsamp det draw l p).2 = p + nsamp * drawing draw l ∧
      ∀ k (hk : k < l.length), (chunk u nsamp det draw l p).1[k]? = some (det l[k], (draw l[k]).map fun h => h (own u nsamp p (drawing draw (l.take k)))) := by
  induction l with
  | nil => intro p; exact ⟨by simp [chunk, drawing], fun k hk => absurd hk (by simp)⟩
  | cons g l ih =>
    intro p
    cases hd : draw g with
    | none =>
      have e1 : chunk u nsamp det draw (g :: l) p = ((det g, none) :: (chunk u nsamp det draw l p).1, (chunk u nsamp det draw l p).2) := by
        simp [chunk, galaxy, hd]
      rw [e1]
      refine ⟨?_, ?_⟩
      · simp only
        rw [(ih p).1]
        simp [drawing, hd]
      · intro k hk
        cases k with
        | zero => simp [hd]
        | succ k =>
          rw [List.getElem?_cons_succ, (ih p).2 k (by simpa using hk)]
          simp [drawing, hd]
    | some h =>
      have e1 : chunk u nsamp det draw (g :: l) p =
          ((det g, some (h ((List.range nsamp).map fun i => u (p + i)))) :: (chunk u nsamp det draw l (p + nsamp)).1, (chunk u nsamp det draw l (p + nsamp)).2) := by
        simp [chunk, galaxy, hd]
      rw [e1]
      refine ⟨?_, ?_⟩
      · simp only
        rw [(ih (p + nsamp)).1]
        simp only [drawing, List.filter_cons, hd, Option.isSome_some, if_true, List.length_cons]
        rw [Nat.mul_succ]
        omega
      · intro k hk
        cases k with
        | zero => simp [hd, own, drawing]
        | succ k =>
          rw [List.getElem?_cons_succ, (ih (p + nsamp)).2 k (by simpa using hk)]
          simp only [List.getElem_cons_succ, List.take_succ_cons, drawing, List.filter_cons, hd, Option.isSome_some, if_true, List.length_cons, own]
          refine congrArg some (Prod.ext rfl ?_)
          refine congrArg (fun z => Option.map z _) (funext fun h' => congrArg h' ?_)
          apply List.map_congr_left
          intro i _
          rw [Nat.mul_succ]
          congr 1
          omega

theorem chunk_append (u : Nat → U) (nsamp : Nat) (det : G → D) (draw : G → Option (List U → V)) (a b : List G) :
    ∀ p, chunk u nsamp det draw (a ++ b) p =
      ((chunk u nsamp det draw a p).1 ++ (chunk u nsamp det draw b (chunk u nsamp det draw a p).2).1, (chunk u nsamp det draw b (chunk u nsamp det draw a p).2).2) := by
  induction a with
  | nil => intro p; simp [chunk]
  | cons g a ih => intro p; simp [chunk, ih]

/-- **C276 (one process).** With one process the samples of a galaxy are drawn with its own stretch of the random numbers that follow the seed: those of the galaxies
before it do not overlap, and the way the galaxies are divided into tasks does not matter. -/
theorem C276_partial (u : Nat → U) (nsamp : Nat) (det : G → D) (draw : G → Option (List U → V)) (p : Nat) (tasks : List (List G)) (w : Nat) :
    ∀ k (hk : k < tasks.flatten.length), (zredRun u nsamp det draw p tasks (List.replicate tasks.length w)).1.flatten[k]? =
      some (det tasks.flatten[k], (draw tasks.flatten[k]).map fun h => h (own u nsamp p (drawing draw (tasks.flatten.take k)))) := by
  have key : ∀ (ts : List (List G)) (st : Nat → Nat), (exec (chunk u nsamp det draw) st (ts.zip (List.replicate ts.length w))).flatten =
      (chunk u nsamp det draw ts.flatten (st w)).1 := by
    intro ts
    induction ts with
    | nil => intro st; rfl
    | cons t ts ih =>
      intro st
      rw [List.length_cons, List.replicate_succ, List.zip_cons_cons]
      simp only [exec, List.flatten_cons]
      rw [ih, chunk_append, Function.update_self]
  intro k hk
  unfold zredRun poolMap
  simp only
  rw [key]
  exact (chunk_spec u nsamp det draw tasks.flatten p).2 k hk

theorem exec_first (f : T → S → R × S) (l : List (T × Nat)) : ∀ (st : Nat → S) (i : Nat) (t : T) (w : Nat), l[i]? = some (t, w) → w ∉ (l.take i).map Prod.snd →
    (exec f st l)[i]? = some (f t (st w)).1 := by
  induction l with
  | nil => intro st i t w h; simp at h
  | cons a l ih =>
    intro st i t w h hw
    obtain ⟨t', w'⟩ := a
    cases i with
    | zero =>
      simp only [List.getElem?_cons_zero, Option.some.injEq, Prod.mk.injEq] at h
      obtain ⟨rfl, rfl⟩ := h
      rfl
    | succ i =>
      simp only [List.getElem?_cons_succ] at h
      simp only [List.take_succ_cons, List.map_cons, List.mem_cons, not_or] at hw
      simp only [exec, List.getElem?_cons_succ]
      rw [ih _ i t w h hw.2, Function.update_of_ne hw.1]

/-- **C276 (shared numbers).** With several processes, for every schedule, the first tasks of all of them use the same random numbers: the first galaxies of two
such tasks are sampled with identical numbers. -/
theorem C276_shared (u : Nat → U) (nsamp : Nat) (det : G → D) (draw : G → Option (List U → V)) (p : Nat) (tasks : List (List G)) (sched : List Nat)
    (i : Nat) (g : G) (r : List G) (hi : tasks[i]? = some (g :: r)) (w : Nat) (hw : sched[i]? = some w) (hfirst : w ∉ sched.take i) (h : List U → V) (hd : draw g = some h) :
    ∃ rows, (zredRun u nsamp det draw p tasks sched).1[i]? = some ((det g, some (h (own u nsamp p 0))) :: rows) := by
  unfold zredRun poolMap
  have hz : (tasks.zip sched)[i]? = some (g :: r, w) := by
    rw [List.getElem?_zip_eq_some]
    exact ⟨hi, hw⟩
  have hn : w ∉ ((tasks.zip sched).take i).map Prod.snd := by
    intro hmem
    apply hfirst
    obtain ⟨q, hq, rfl⟩ := List.mem_map.mp hmem
    rw [List.zip, List.take_zipWith] at hq
    exact (List.of_mem_zip (a := q.1) (b := q.2) hq).2
  rw [exec_first _ _ _ i _ _ hz hn]
  refine ⟨(chunk u nsamp det draw r (p + nsamp)).1, ?_⟩
  have e0 : own u nsamp p 0 = (List.range nsamp).map fun i => u (p + i) := by simp [own]
  simp only [chunk, galaxy, hd, e0]

/-- **C276 (second run).** The random numbers of the parent do not advance: a second run in the same program draws the same numbers as the first. -/
theorem C276_again (u : Nat → U) (nsamp : Nat) (det : G → D) (draw : G → Option (List U → V)) (p : Nat) (tasks : List (List G)) (sched : List Nat) :
    zredRun u nsamp det draw (zredRun u nsamp det draw p tasks sched).2 tasks sched = zredRun u nsamp det draw p tasks sched := rfl

/-- The wish: the samples depend on the seed only, not on the schedule. -/
def C276_spec : Prop :=
  ∀ (u : Nat → Nat) (nsamp : Nat) (draw : Nat → Option (List Nat → List Nat)) (p : Nat) (tasks : List (List Nat)) (s s' : List Nat),
    s.length = tasks.length → s'.length = tasks.length →
    zredRun u nsamp (fun g => g) draw p tasks s = zredRun u nsamp (fun g => g) draw p tasks s'

/-- **C276** is false: two tasks on one worker or on two. -/
theorem C276_false : ¬ C276_spec := by
  intro h
  have := h (fun n => n) 2 (fun _ => some fun xs => xs) 0 [[7], [8]] [0, 0] [0, 1] rfl rfl
  revert this
  decide

/-! ## C277: files and exceptions -/

theorem firstError_none (out : Nat → Except E (N × C)) (order : List Nat) : firstError out order = none ↔ ∀ i ∈ order, ∃ a, out i = .ok a := by
  induction order with
  | nil => simp [firstError]
  | cons i l ih =>
    unfold firstError
    cases hi : out i with
    | ok a => simp only [List.mem_cons, forall_eq_or_imp, ih]; exact ⟨fun h => ⟨⟨a, hi⟩, h⟩, fun h => h.2⟩
    | error e => simp [hi]

theorem firstError_some (out : Nat → Except E (N × C)) (order : List Nat) (e : E) (h : firstError out order = some e) : ∃ i ∈ order, out i = .error e := by
  induction order with
  | nil => cases h
  | cons i l ih =>
    unfold firstError at h
    cases hi : out i with
    | ok a =>
      rw [hi] at h
      obtain ⟨j, hj, he⟩ := ih h
      exact ⟨j, List.mem_cons_of_mem _ hj, he⟩
    | error e' =>
      rw [hi] at h
      cases h
      exact ⟨i, List.mem_cons_self, hi⟩

theorem written_spec (out : Nat → Except E (N × C)) (order : List Nat) (n : N) :
    ∀ disk : N → Option C, (∀ i ∈ order, ∀ j ∈ order, ∀ c c', out i = .ok (n, c) → out j = .ok (n, c') → c = c') →
      (∀ i ∈ order, ∀ c, out i = .ok (n, c) → written out disk order n = some c) ∧
      ((∀ i ∈ order, ∀ c, out i ≠ .ok (n, c)) → written out disk order n = disk n) := by
  induction order with
  | nil => intro disk _; exact ⟨fun i hi => absurd hi (by simp), fun _ => rfl⟩
  | cons i l ih =>
    intro disk hu
    have hl : ∀ i ∈ l, ∀ j ∈ l, ∀ c c', out i = .ok (n, c) → out j = .ok (n, c') → c = c' :=
      fun a ha b hb => hu a (List.mem_cons_of_mem _ ha) b (List.mem_cons_of_mem _ hb)
    cases ho : out i with
    | error e =>
      have e1 : written out disk (i :: l) = written out disk l := by simp [written, ho]
      rw [e1]
      refine ⟨fun j hj c hc => ?_, fun hno => (ih disk hl).2 fun j hj => hno j (List.mem_cons_of_mem _ hj)⟩
      rcases List.mem_cons.mp hj with rfl | hj
      · rw [ho] at hc; cases hc
      · exact (ih disk hl).1 j hj c hc
    | ok a =>
      obtain ⟨m, c0⟩ := a
      have e1 : written out disk (i :: l) = written out (Function.update disk m (some c0)) l := by simp [written, ho]
      rw [e1]
      refine ⟨fun j hj c hc => ?_, fun hno => ?_⟩
      · by_cases hin : ∃ k ∈ l, ∃ c', out k = .ok (n, c')
        · obtain ⟨k, hk, c', hkc⟩ := hin
          rw [(ih _ hl).1 k hk c' hkc, hu k (List.mem_cons_of_mem _ hk) j hj c' c hkc hc]
        · push Not at hin
          rw [(ih _ hl).2 hin]
          rcases List.mem_cons.mp hj with rfl | hj
          · rw [ho] at hc
            cases hc
            rw [Function.update_self]
          · exact absurd hc (hin j hj c)
      · rw [(ih _ hl).2 fun j hj => hno j (List.mem_cons_of_mem _ hj), Function.update_of_ne]
        rintro rfl
        exact hno i List.mem_cons_self c0 ho

/-- **C277.** For every order in which the tasks are completed: the run raises exactly if some task raises, with an exception of one of them; otherwise the parent gets the
names of all files in the order of the tasks.  In both cases the files of all tasks that did not raise are on disk with their content, and no other file has
changed, if different tasks write different files. -/
theorem C277 (out : Nat → Except E (N × C)) (n : Nat) (order : List Nat) (hp : order.Perm (List.range n)) (disk : N → Option C)
    (hinj : ∀ i < n, ∀ j < n, ∀ nm c c', out i = .ok (nm, c) → out j = .ok (nm, c') → i = j) :
    (∀ e, mapResult out n order = .error e → ∃ i < n, out i = .error e) ∧
    ((∃ i < n, ∃ e, out i = .error e) → ∃ e, mapResult out n order = .error e) ∧
    ((∀ i < n, ∃ nm c, out i = .ok (nm, c)) → ∃ l, mapResult out n order = .ok l ∧ l.length = n ∧ ∀ i < n, ∀ nm c, out i = .ok (nm, c) → l[i]? = some (i, nm)) ∧
    (∀ i < n, ∀ nm c, out i = .ok (nm, c) → written out disk order nm = some c) ∧
    (∀ nm, (∀ i < n, ∀ c, out i ≠ .ok (nm, c)) → written out disk order nm = disk nm) := by
  have hmem : ∀ i, i ∈ order ↔ i < n := fun i => by rw [hp.mem_iff, List.mem_range]
  have hw : ∀ nm, ∀ i ∈ order, ∀ j ∈ order, ∀ c c', out i = .ok (nm, c) → out j = .ok (nm, c') → c = c' := by
    intro nm i hi j hj c c' h1 h2
    have := hinj i ((hmem i).mp hi) j ((hmem j).mp hj) nm c c' h1 h2
    subst this
    rw [h1] at h2
    cases h2
    rfl
  refine ⟨?_, ?_, ?_, ?_, ?_⟩
  · intro e h
    unfold mapResult at h
    cases hf : firstError out order with
    | none => rw [hf] at h; cases h
    | some e' =>
      rw [hf] at h
      cases h
      obtain ⟨i, hi, he⟩ := firstError_some out order e hf
      exact ⟨i, (hmem i).mp hi, he⟩
  · rintro ⟨i, hi, e, he⟩
    unfold mapResult
    cases hf : firstError out order with
    | none =>
      obtain ⟨a, ha⟩ := (firstError_none out order).mp hf i ((hmem i).mpr hi)
      rw [he] at ha
      cases ha
    | some e' => exact ⟨e', rfl⟩
  · intro hall
    have hf : firstError out order = none := (firstError_none out order).mpr fun i hi => by
      obtain ⟨nm, c, h⟩ := hall i ((hmem i).mp hi)
      exact ⟨_, h⟩
    have e1 : ∀ m, m ≤ n → ((List.range m).filterMap fun i => match out i with
        | .ok (nm, _) => some (i, nm)
        | .error _ => none).length = m ∧ ∀ i < m, ∀ nm c, out i = .ok (nm, c) →
        ((List.range m).filterMap fun i => match out i with
        | .ok (nm, _) => some (i, nm)
        | .error _ => none)[i]? = some (i, nm) := by
      intro m
      induction m with
      | zero => intro _; exact ⟨rfl, fun i hi => absurd hi (by omega)⟩
      | succ m ih =>
        intro hm
        obtain ⟨ih1, ih2⟩ := ih (by omega)
        obtain ⟨nm0, c0, h0⟩ := hall m (by omega)
        rw [List.range_succ, List.filterMap_append]
        simp only [List.filterMap_cons, h0, List.filterMap_nil]
        refine ⟨by rw [List.length_append, ih1]; rfl, fun i hi nm c h => ?_⟩
        by_cases him : i < m
        · rw [List.getElem?_append_left (by rw [ih1]; exact him)]
          exact ih2 i him nm c h
        · have : i = m := by omega
          subst this
          rw [List.getElem?_append_right (by rw [ih1]), ih1, Nat.sub_self]
          rw [h0] at h
          cases h
          rfl
    refine ⟨_, ?_, (e1 n le_rfl).1, (e1 n le_rfl).2⟩
    unfold mapResult
    rw [hf]
    rfl
  · intro i hi nm c h
    exact (written_spec out order nm disk (hw nm)).1 i ((hmem i).mpr hi) c h
  · intro nm h
    exact (written_spec out order nm disk (hw nm)).2 fun i hi => h i ((hmem i).mp hi)

/-- Non-vacuity: three tasks of which the second raises, completed in the order 2, 0, 1. -/
example : (mapResult (fun i => if i = 1 then .error "e" else .ok (i, i * 10)) 3 [2, 0, 1] : Except String (List (Nat × Nat))) = .error "e" ∧
    written (E := String) (fun i => if i = 1 then .error "e" else .ok (i, i * 10)) (fun _ => none) [2, 0, 1] 2 = some 20 := by
  constructor <;> rfl

/-! ## C278: names -/

theorem matchAt_iff (ps : List (Option Char)) (s : List Char) : matchAt ps s = true ↔ ∃ a b, s = a ++ b ∧ a.length = ps.length ∧
    ∀ i (h : i < ps.length) (h' : i < a.length), matchOne ps[i] a[i] = true := by
  induction ps generalizing s with
  | nil => simp only [matchAt, true_iff]; exact ⟨[], s, rfl, rfl, fun i h => absurd h (by simp)⟩
  | cons p ps ih =>
    cases s with
    | nil =>
      simp only [matchAt, Bool.false_eq_true, false_iff]
      rintro ⟨a, b, h, hl, -⟩
      have : a = [] := (List.append_eq_nil_iff.mp h.symm).1
      rw [this] at hl
      cases hl
    | cons c cs =>
      simp only [matchAt, Bool.and_eq_true, ih]
      constructor
      · rintro ⟨hc, a, b, rfl, hl, hm⟩
        refine ⟨c :: a, b, rfl, by simp [hl], fun i h h' => ?_⟩
        cases i with
        | zero => exact hc
        | succ i => exact hm i (by simpa using h) (by simpa using h')
      · rintro ⟨a, b, h, hl, hm⟩
        cases a with
        | nil => simp at hl
        | cons c' a =>
          simp only [List.cons_append, List.cons.injEq] at h
          obtain ⟨rfl, rfl⟩ := h
          refine ⟨hm 0 (by simp) (by simp), a, b, rfl, by simpa using hl, fun i h h' => ?_⟩
          exact hm (i + 1) (by simpa using h) (by simpa using h')

theorem find_last (P : Nat → Bool) (n k : Nat) (hk : k < n) (hP : P k = true) (hno : ∀ j, k < j → j < n → P j = false) :
    (List.range n).reverse.find? P = some k := by
  induction n with
  | zero => omega
  | succ n ih =>
    rw [List.range_succ, List.reverse_append, List.reverse_singleton, List.singleton_append, List.find?_cons]
    by_cases h : k = n
    · subst h
      rw [hP]
    · rw [hno n (by omega) (by omega)]
      exact ih (by omega) fun j h1 h2 => hno j h1 (by omega)

theorem find_none (P : Nat → Bool) (n : Nat) : (List.range n).reverse.find? P = none ↔ ∀ j < n, P j = false := by
  rw [List.find?_eq_none]
  simp only [List.mem_reverse, List.mem_range, Bool.not_eq_true]

/-- The name of a master table. -/
def masterSuffix : List Char := "_zreds_master_table.fit".toList

theorem suffix_length : suffixPat.length = masterSuffix.length := by decide

theorem outbase_suffix (base : List Char) : outbase (base ++ masterSuffix) = some base := by
  unfold outbase
  rw [find_last _ _ base.length]
  · simp
  · rw [List.length_append]; omega
  · rw [List.drop_left]
    decide
  · intro j h1 h2
    rw [Bool.eq_false_iff]
    intro h
    obtain ⟨a, b, hab, hl, -⟩ := (matchAt_iff _ _).mp h
    have := congrArg List.length hab
    rw [List.length_append, hl, suffix_length, List.length_drop] at this
    rw [List.length_append] at this h2
    have h0 : 0 < masterSuffix.length := by decide
    omega

theorem basename_append (dir base : List Char) (h : '/' ∉ base) : basename (dir ++ '/' :: base) = base := by
  unfold basename
  rw [List.reverse_append, List.reverse_cons, List.append_assoc, List.takeWhile_append_of_pos, List.singleton_append, List.takeWhile_cons_of_neg]
  · simp
  · simp
  · intro c hc
    have : c ∈ base := List.mem_reverse.mp hc
    simp only [bne_iff_ne, ne_eq]
    rintro rfl
    exact h this

theorem dirname_append (dir base : List Char) (h : '/' ∉ base) : dirname (dir ++ '/' :: base) = dir := by
  unfold dirname
  rw [List.reverse_append, List.reverse_cons, List.append_assoc, List.dropWhile_append_of_pos, List.singleton_append, List.dropWhile_cons_of_neg]
  · simp
  · simp
  · intro c hc
    have : c ∈ base := List.mem_reverse.mp hc
    simp only [bne_iff_ne, ne_eq]
    rintro rfl
    exact h this

theorem pad7_inj (m n : Nat) (h : pad7 m = pad7 n) : m = n := by
  have hv : ∀ n, Nat.ofDigitChars 10 (pad7 n) 0 = n := by
    intro n
    unfold pad7
    rw [Nat.ofDigitChars_append, Nat.ofDigitChars_replicate_zero]
    simp [dec]
  rw [← hv m, ← hv n, h]

/-- **C278.** For a zred file `dir/base_zreds_master_table.fit` the files of the pixels go to `dir`, begin with `base_zreds_`, and are different for different pixels;
without a pixelized galaxy file, or with a name that contains no such ending, there is a ValueError. -/
theorem C278_partial (dir base : List Char) (hd : dir ≠ []) (hb : '/' ∉ base) :
    setup true (dir ++ '/' :: (base ++ masterSuffix)) = .ok (dir, base) ∧
    (∀ p q, pixelName base p = pixelName base q → p = q) ∧
    (∀ f, setup false f = .error .value) ∧
    (∀ f, (∀ a b, basename f = a ++ b → matchAt suffixPat b = false) → setup true f = .error .value) := by
  have hs : '/' ∉ base ++ masterSuffix := by
    rw [List.mem_append]
    rintro (h | h)
    · exact hb h
    · revert h; decide
  refine ⟨?_, ?_, fun f => rfl, ?_⟩
  · unfold setup
    simp only [Bool.not_true, Bool.false_eq_true, if_false]
    rw [basename_append _ _ hs, outbase_suffix, dirname_append _ _ hs]
    simp only
    rw [if_neg hd]
  · intro p q h
    unfold pixelName at h
    rw [List.append_left_inj, List.append_right_inj] at h
    exact pad7_inj p q h
  · intro f h
    unfold setup
    simp only [Bool.not_true, Bool.false_eq_true, if_false]
    have : outbase (basename f) = none := by
      unfold outbase
      rw [Option.map_eq_none_iff, find_none]
      intro j _
      exact h ((basename f).take j) _ (List.take_append_drop _ _).symm
    rw [this]

/-- The wish: a name is accepted exactly if it ends properly. -/
def C278_spec : Prop := ∀ f : List Char, (∃ r, setup true f = .ok r) ↔ ∃ base, f = base ++ masterSuffix

/-- **C278** is false: other endings are accepted ... -/
theorem C278_false : ¬ C278_spec := by
  intro h
  obtain ⟨base, hb⟩ := (h "d/x_zreds_master_table.fits.gz".toList).mp ⟨("d".toList, "x".toList), by decide +kernel⟩
  have h1 := congrArg (fun l => l.reverse.take 1) hb
  rw [List.reverse_append] at h1
  have h2 : ((masterSuffix.reverse ++ base.reverse).take 1) = ['t'] := by
    rw [List.take_append_of_le_length (by decide)]
    decide
  rw [h2] at h1
  revert h1
  decide

/-- **C278** is false: ... and a proper name without a directory cannot be used. -/
theorem C278_nodir_false : ∀ base : List Char, '/' ∉ base → setup true (base ++ masterSuffix) = .error .notFound := by
  intro base hb
  have hs : '/' ∉ base ++ masterSuffix := by
    rw [List.mem_append]
    rintro (h | h)
    · exact hb h
    · revert h; decide
  have e1 : basename (base ++ masterSuffix) = base ++ masterSuffix := by
    unfold basename
    rw [List.takeWhile_eq_self_iff.mpr, List.reverse_reverse]
    intro c hc
    have := List.mem_reverse.mp hc
    simp only [bne_iff_ne, ne_eq]
    rintro rfl
    exact hs this
  have e2 : dirname (base ++ masterSuffix) = [] := by
    unfold dirname
    rw [List.dropWhile_eq_nil_iff.mpr]
    · rfl
    · intro c hc
      have := List.mem_reverse.mp hc
      simp only [bne_iff_ne, ne_eq]
      rintro rfl
      exact hs this
  unfold setup
  simp only [Bool.not_true, Bool.false_eq_true, if_false]
  rw [e1, outbase_suffix, e2]
  simp

/-- Non-vacuity. -/
example : setup true "out/cat_zreds_master_table.fit".toList = .ok ("out".toList, "cat".toList) ∧ pixelName "cat".toList 42 = "cat_zreds_0000042.fit".toList := by
  constructor <;> decide +kernel

end Redmapper.ForkPool
