/-
Properties of the wrappers of the C extensions: C260-C264.
-/
import Verif.Model.PyWrap
import Mathlib.Data.List.Basic
import Mathlib.Data.List.Induction
import Mathlib.Tactic.NormNum
import Mathlib.Algebra.BigOperators.Group.List.Basic

namespace Redmapper.PyWrap

/-! ## C260: sizes -/

theorem ofU32_toU32 (v : Int) (h : fits v = true) : ofU32 (toU32 v) = v := by
  unfold fits at h
  simp only [Bool.and_eq_true, decide_eq_true_eq] at h
  unfold ofU32 toU32
  have h0 : 0 ≤ v % 2 ^ 32 := Int.emod_nonneg _ (by norm_num)
  have h1 : ((v % 2 ^ 32).toNat : Int) = v % 2 ^ 32 := Int.toNat_of_nonneg h0
  by_cases hv : 0 ≤ v
  · have : v % 2 ^ 32 = v := Int.emod_eq_of_lt hv (by omega)
    rw [if_pos (by omega)]
    omega
  · have : v % 2 ^ 32 = v + 2 ^ 32 := by omega
    rw [if_neg (by omega)]
    omega

/-- What the caller means: the sizes as they are, and one value for each galaxy in mode 0, each redshift in the others. -/
def meant (mode ngal nz ncol : Int) : Int × Int × Int × Int × Int := (mode, ngal, nz, ncol, if mode = 0 then ngal else nz)

/-- **C260.** On a little-endian machine the sizes that are computed with are those that were passed, whatever the variables held before, for all
sizes a C `int` can hold; for others there is an exception. -/
theorem C260_partial (stack : Nat → Long) (mode ngal nz ncol : Int) :
    ((∀ v ∈ [mode, ngal, nz, ncol], -2147483648 ≤ v ∧ v ≤ 2147483647) → sizes true stack mode ngal nz ncol = some (meant mode ngal nz ncol)) ∧
    ((∃ v ∈ [mode, ngal, nz, ncol], v < -2147483648 ∨ 2147483647 < v) → sizes true stack mode ngal nz ncol = none) := by
  have hf : ∀ v : Int, fits v = true ↔ -2147483648 ≤ v ∧ v ≤ 2147483647 := by
    intro v
    unfold fits
    simp only [Bool.and_eq_true, decide_eq_true_eq]
    omega
  unfold sizes
  constructor
  · intro h
    have h1 := (hf mode).mpr (h _ (by simp))
    have h2 := (hf ngal).mpr (h _ (by simp))
    have h3 := (hf nz).mpr (h _ (by simp))
    have h4 := (hf ncol).mpr (h _ (by simp))
    simp [h1, h2, h3, h4, parseInt, assignInt, ofU32_toU32, meant]
  · rintro ⟨v, hv, hb⟩
    have hn : ¬ fits v = true := by rw [hf]; omega
    rw [if_neg]
    intro h
    simp only [Bool.and_eq_true] at h
    simp only [List.mem_cons, List.not_mem_nil, or_false] at hv
    rcases hv with rfl | rfl | rfl | rfl
    · exact hn h.1.1.1
    · exact hn h.1.1.2
    · exact hn h.1.2
    · exact hn h.2

/-- The wish on every machine. -/
def C260_spec : Prop :=
  ∀ (little : Bool) (stack : Nat → Long) (mode ngal nz ncol : Int), (∀ v ∈ [mode, ngal, nz, ncol], -2147483648 ≤ v ∧ v ≤ 2147483647) →
    sizes little stack mode ngal nz ncol = some (meant mode ngal nz ncol)

/-- **C260** is false on a big-endian machine: the sizes are whatever the variables held. -/
theorem C260_false : ¬ C260_spec := by
  intro h
  have := h false (fun _ => ⟨0, 0⟩) 0 5 1 3 (by decide)
  exact absurd this (by decide)

/-- Non-vacuity: the sizes of 100 galaxies with three colors. -/
example : ∀ v ∈ [(0 : Int), 100, 1, 3], -2147483648 ≤ v ∧ v ≤ 2147483647 := by decide

/-! ## C261: a solver does not depend on what the program does -/

variable {V O : Type}

/-- Programs that leave the attributes of the object alone. -/
def Plain : Op V → Prop
  | .writeAttr _ _ => False
  | .setAttr _ _ => False
  | _ => True

/-- How often a program solves. -/
def solves : List (Op V) → Nat
  | [] => 0
  | .solve :: r => solves r + 1
  | _ :: r => solves r

/-- The invariant: attributes and pointers are the same arrays, none of them is the caller's, all hold the numbers given at the beginning. -/
structure Inv (args : List (List V)) (s : St V) : Prop where
  same : s.attr = s.ptr
  own : ∀ k ∈ s.attr, k ∉ s.user
  old : ∀ k ∈ s.attr, k < s.next
  data : s.ptr.mapM s.mem = some args

theorem mapM_congr {A B : Type} (f g : A → Option B) (l : List A) (h : ∀ a ∈ l, f a = g a) : l.mapM f = l.mapM g := by
  induction l with
  | nil => rfl
  | cons a l ih => rw [List.mapM_cons, List.mapM_cons, h a (by simp), ih fun x hx => h x (List.mem_cons_of_mem _ hx)]

theorem inv_collect {args : List (List V)} {s : St V} (h : Inv args s) : Inv args (collect s) := by
  refine ⟨h.same, h.own, h.old, ?_⟩
  show s.ptr.mapM _ = _
  refine (mapM_congr _ s.mem _ fun a ha => ?_).trans h.data
  exact if_pos (Or.inr (by rw [h.same]; exact ha))

theorem mapM_range (args : List (List V)) (n : Nat) (f : Nat → Option (List V)) (h : ∀ k, k < args.length → f (n + k) = args[k]?) :
    ((List.range args.length).map (n + ·)).mapM f = some args := by
  induction args generalizing n f with
  | nil => rfl
  | cons a args ih =>
    rw [List.length_cons, List.range_succ_eq_map, List.map_cons, List.mapM_cons, h 0 (by simp), List.map_map]
    have := ih (n + 1) f fun k hk => by
      have := h (k + 1) (by simp; omega)
      rw [show n + 1 + k = n + (k + 1) by omega, this]
      rfl
    have e : ((fun x => n + x) ∘ Nat.succ) = (n + 1 + ·) := by
      funext k
      simp only [Function.comp_apply]
      omega
    rw [e, this]
    rfl

theorem inv_construct (s : St V) (hs : ∀ k ∈ s.user, k < s.next) (args : List (List V)) : Inv args (construct s args) := by
  apply inv_collect
  refine ⟨rfl, ?_, ?_, ?_⟩
  · intro k hk hu
    obtain ⟨i, -, rfl⟩ := List.mem_map.mp hk
    have := hs _ hu
    omega
  · intro k hk
    obtain ⟨i, hi, rfl⟩ := List.mem_map.mp hk
    rw [List.mem_range] at hi
    show _ < s.next + args.length
    omega
  · apply mapM_range
    intro k hk
    show (if _ then _ else _) = _
    rw [if_pos (by omega), Nat.add_sub_cancel_left]

theorem inv_step (work : List (List V) → O) {args : List (List V)} {s : St V} (h : Inv args s) (o : Op V) (ho : Plain o) : Inv args (step work s o).1 := by
  cases o with
  | newArray xs =>
    refine ⟨h.same, ?_, fun k hk => Nat.lt_succ_of_lt (h.old k hk), ?_⟩
    · intro k hk hu
      rcases List.mem_cons.mp hu with rfl | hu
      · exact absurd (h.old _ hk) (lt_irrefl _)
      · exact h.own k hk hu
    · show s.ptr.mapM _ = _
      refine (mapM_congr _ s.mem _ fun a ha => ?_).trans h.data
      have := h.old a (by rw [h.same]; exact ha)
      exact if_neg (by omega)
  | write k xs =>
    unfold step
    simp only
    split_ifs with hk
    · refine ⟨h.same, h.own, h.old, ?_⟩
      show s.ptr.mapM _ = _
      refine (mapM_congr _ s.mem _ fun a ha => ?_).trans h.data
      exact if_neg (by rintro rfl; exact h.own a (by rw [h.same]; exact ha) hk)
    · exact h
  | drop k =>
    apply inv_collect
    exact ⟨h.same, fun a ha hu => h.own a ha (List.mem_of_mem_filter hu), h.old, h.data⟩
  | writeAttr i xs => exact ho.elim
  | setAttr i k => exact ho.elim
  | solve => exact h

/-- **C261.** A solver made from five arrays gives, at every call and whatever the program does in between — writing into the arrays it made it
from, dropping them, making others — the solution for the numbers those arrays had when it was made; no call reads freed memory.  This is for
programs that do not change the attributes of the object. -/
theorem C261_partial (work : List (List V) → O) (s : St V) (hs : ∀ k ∈ s.user, k < s.next) (args : List (List V)) (ops : List (Op V)) (ho : ∀ o ∈ ops, Plain o) :
    run work (construct s args) ops = List.replicate (solves ops) (.ok (work args)) := by
  have main : ∀ (ops : List (Op V)) (s : St V), (∀ o ∈ ops, Plain o) → Inv args s → run work s ops = List.replicate (solves ops) (.ok (work args)) := by
    intro ops
    induction ops with
    | nil => intro s _ _; rfl
    | cons o ops ih =>
      intro s ho h
      have h' := inv_step work h o (ho o (by simp))
      have ih' := ih _ (fun x hx => ho x (List.mem_cons_of_mem _ hx)) h'
      cases o with
      | solve =>
        unfold run
        simp only [step]
        rw [show solves (Op.solve :: ops) = solves ops + 1 from rfl, List.replicate_succ]
        congr 1
        unfold solve
        rw [h.data]
      | writeAttr i xs => exact False.elim (ho (.writeAttr i xs) (by simp))
      | setAttr i k => exact False.elim (ho (.setAttr i k) (by simp))
      | newArray xs => exact ih'
      | write k xs =>
        unfold run
        have e : (step work s (.write k xs)).2 = none := by unfold step; simp only; split_ifs <;> rfl
        rw [show step work s (.write k xs) = ((step work s (.write k xs)).1, none) from Prod.ext rfl e]
        exact ih'
      | drop k => exact ih'
  exact main ops _ ho (inv_construct s hs args)

/-- The wish for every program: no crash. -/
def C261_spec : Prop :=
  ∀ (s : St Nat), (∀ k ∈ s.user, k < s.next) → ∀ (args : List (List Nat)) (ops : List (Op Nat)), ∀ x ∈ run (fun xs => xs) (construct s args) ops, ∃ o, x = .ok o

/-- **C261** is false of programs that assign to an attribute: the array is freed, and the C object goes on reading it. -/
theorem C261_false : ¬ C261_spec := by
  intro h
  have := h ⟨0, fun _ => none, [], [], []⟩ (by simp) [[1], [2], [3], [4], [5]] [.newArray [9], .setAttr 0 5, .solve] .crash (by
    simp [run, step, construct, collect, solve, List.range_succ])
  obtain ⟨o, ho⟩ := this
  cases ho

/-- Writing into an attribute, on the other hand, is seen by the next call. -/
theorem C261_attr : run (fun xs : List (List Nat) => xs) (construct ⟨0, fun _ => none, [], [], []⟩ [[1], [2]]) [.writeAttr 0 [7], .solve] = [.ok [[7], [2]]] := by
  simp [run, step, construct, collect, solve, List.range_succ]

/-- Non-vacuity: a program that makes the solver from its own array, changes it, drops it and solves twice. -/
example : run (fun xs : List (List Nat) => xs) (construct ⟨1, fun k => if k = 0 then some [3] else none, [0], [], []⟩ [[3], [2]])
    [.solve, .write 0 [8], .drop 0, .solve] = [.ok [[3], [2]], .ok [[3], [2]]] :=
  C261_partial _ _ (by simp) _ _ (by intro o ho; simp at ho; rcases ho with rfl | rfl | rfl | rfl <;> trivial)

/-! ## C262: exceptions of the object of the chi-squared -/

/-- An initialization that gets to allocate a struct. -/
def Init.allocates (a : Init) : Bool := a.parses && a.memory

theorem firstBad_spec (k : Nat) (l : List Bool) :
    (∀ j, firstBad k l = some j ↔ k ≤ j ∧ l[j - k]? = some false ∧ ∀ i, i < j - k → l[i]? = some true) ∧ (firstBad k l = none ↔ ∀ b ∈ l, b = true) := by
  induction l generalizing k with
  | nil => simp [firstBad]
  | cons b l ih =>
    obtain ⟨ih1, ih2⟩ := ih (k + 1)
    unfold firstBad
    cases b with
    | false =>
      rw [if_neg (by simp)]
      constructor
      · intro j
        constructor
        · intro h
          cases h
          simp
        · rintro ⟨h1, h2, h3⟩
          by_contra hne
          have : k ≠ j := fun e => hne (by rw [e])
          have := h3 0 (by omega)
          simp at this
      · simp
    | true =>
      rw [if_pos rfl]
      constructor
      · intro j
        rw [ih1]
        constructor
        · rintro ⟨h1, h2, h3⟩
          refine ⟨by omega, ?_, ?_⟩
          · rw [show j - k = (j - (k + 1)) + 1 by omega]; simpa using h2
          · intro i hi
            cases i with
            | zero => rfl
            | succ i => simpa using h3 i (by omega)
        · rintro ⟨h1, h2, h3⟩
          have : k ≠ j := by rintro rfl; simp at h2
          refine ⟨by omega, ?_, ?_⟩
          · rw [show j - k = (j - (k + 1)) + 1 by omega] at h2; simpa using h2
          · intro i hi
            have := h3 (i + 1) (by omega)
            simpa using this
      · rw [ih2]
        simp

/-- **C262 (constructor).** An initialization succeeds exactly if the arguments parse, there is memory and all arrays are of type float64; if they
parse and there is memory, but an array is of another type, there is a ValueError naming the first such array; otherwise a RuntimeError. -/
theorem C262_init (o : Obj) (a : Init) :
    ((o.init a).2 = .ok () ↔ a.parses = true ∧ a.memory = true ∧ ∀ b ∈ a.f8, b = true) ∧
    (∀ k, (o.init a).2 = .exc (.value k) ↔ a.parses = true ∧ a.memory = true ∧ a.f8[k]? = some false ∧ ∀ i, i < k → a.f8[i]? = some true) ∧
    ((o.init a).2 = .exc .runtime ↔ ¬ (a.parses = true ∧ a.memory = true)) := by
  obtain ⟨f1, f2⟩ := firstBad_spec 0 a.f8
  unfold Obj.init
  cases hp : a.parses
  · simp
  cases hm : a.memory
  · simp
  cases hb : firstBad 0 a.f8 with
  | none =>
    have hall := f2.mp hb
    refine ⟨by simp; exact fun h => absurd (hall _ h) (by simp), fun k => ⟨fun h => by simp at h, ?_⟩, by simp⟩
    rintro ⟨-, -, h, -⟩
    exact absurd (hall _ (List.mem_of_getElem? h)) (by simp)
  | some j =>
    have h1 := (f1 j).mp hb
    simp only [Nat.sub_zero] at h1
    refine ⟨⟨fun h => by simp at h, ?_⟩, ?_, by simp⟩
    · rintro ⟨-, -, h⟩
      rw [f2.mpr h] at hb
      cases hb
    · intro k
      have hk := f1 k
      rw [hb] at hk
      simp only [Nat.sub_zero, Nat.zero_le, true_and] at hk
      simp only [Bool.not_true, Bool.false_eq_true, if_false, Res.exc.injEq, Exc.value.injEq, true_and]
      rw [← hk, Option.some.injEq]

/-- **C262 (compute).** After any history of initializations that ends with a successful one `compute` does the work for the struct of the last one;
with arguments it cannot parse it fails with a SystemError, since it returns a result together with an exception. -/
theorem C262_compute_partial (o : Obj) (l : List Init) (a : Init) (h : ((o.inits l).init a).2 = .ok ()) :
    ((o.inits l).init a).1.compute true = .ok (o.inits l).next ∧ ((o.inits l).init a).1.compute false = .exc .system := by
  obtain ⟨hp, hm, hf⟩ := (C262_init (o.inits l) a).1.mp h
  have hb := (firstBad_spec 0 a.f8).2.mpr hf
  have e : ((o.inits l).init a).1 = { o.inits l with ptr := some (o.inits l).next, allocated := true, next := (o.inits l).next + 1, heap := (o.inits l).next :: (o.inits l).heap } := by
    unfold Obj.init
    simp [hp, hm, hb]
  rw [e]
  simp [Obj.compute]

/-- The wish: no crash, whatever the history. -/
def C262_spec : Prop := ∀ (l : List Init) (parses : Bool), (∃ p, (Obj.new.inits l).compute parses = .ok p) ∨ ∃ e, (Obj.new.inits l).compute parses = .exc e

/-- **C262** is false: an object that was made but not initialized follows a null pointer. -/
theorem C262_false : ¬ C262_spec := by
  intro h
  rcases h [] true with ⟨p, hp⟩ | ⟨e, he⟩
  · cases hp
  · cases he

/-- **C262 (repr).** The representation of the object cannot be printed under Python 3. -/
theorem C262_repr_false : Obj.repr true = .exc .type := rfl

/-- Non-vacuity: a successful initialization. -/
example : (Obj.new.init ⟨true, true, List.replicate 9 true⟩).2 = .ok () := rfl

/-! ## C263: memory of the object -/

/-- Whether the last initialization allocated. -/
def lastAllocates (l : List Init) : Bool := (l.getLast?.map Init.allocates).getD false

theorem inits_snoc (o : Obj) (l : List Init) (a : Init) : o.inits (l ++ [a]) = ((o.inits l).init a).1 := by simp [Obj.inits]

theorem inits_inv (l : List Init) :
    (Obj.new.inits l).heap = (List.range (l.countP Init.allocates)).reverse ∧ (Obj.new.inits l).next = l.countP Init.allocates ∧
    (Obj.new.inits l).bad = false ∧ (Obj.new.inits l).allocated = lastAllocates l ∧
    (lastAllocates l = true → ∃ n, l.countP Init.allocates = n + 1 ∧ (Obj.new.inits l).ptr = some n) := by
  induction l using List.reverseRecOn with
  | nil => exact ⟨rfl, rfl, rfl, rfl, fun h => by cases h⟩
  | append_singleton l a ih =>
    obtain ⟨h1, h2, h3, h4, h5⟩ := ih
    have hlast : lastAllocates (l ++ [a]) = a.allocates := by simp [lastAllocates]
    have hc : (l ++ [a]).countP Init.allocates = l.countP Init.allocates + if a.allocates = true then 1 else 0 := by
      rw [List.countP_append]
      cases ha : a.allocates <;> simp [ha]
    rw [inits_snoc, hlast, hc]
    by_cases ha : a.allocates = true
    · have hpm : a.parses = true ∧ a.memory = true := by simpa [Init.allocates] using ha
      have e : ((Obj.new.inits l).init a).1 = { Obj.new.inits l with ptr := some (Obj.new.inits l).next, allocated := true, next := (Obj.new.inits l).next + 1, heap := (Obj.new.inits l).next :: (Obj.new.inits l).heap } := by
        unfold Obj.init
        simp only [hpm.1, hpm.2, Bool.not_true, Bool.false_eq_true, if_false]
        cases firstBad 0 a.f8 <;> rfl
      rw [e, if_pos ha, ha]
      refine ⟨?_, by simp [h2], h3, rfl, fun _ => ⟨_, rfl, by simp [h2]⟩⟩
      simp only [h1, h2, List.range_succ, List.reverse_append, List.reverse_cons, List.reverse_nil, List.nil_append, List.cons_append]
    · have hpm : ¬ (a.parses = true ∧ a.memory = true) := by simpa [Init.allocates] using ha
      rw [if_neg ha]
      simp only [Bool.not_eq_true] at ha
      rw [ha]
      unfold Obj.init
      cases hp : a.parses
      · exact ⟨h1, h2, h3, rfl, fun h => by cases h⟩
      · cases hm : a.memory
        · exact ⟨h1, h2, h3, rfl, fun h => by cases h⟩
        · exact absurd ⟨hp, hm⟩ hpm

/-- **C263.** For every history of initializations the end of the object frees nothing twice; what remains allocated afterwards is one struct for each
initialization that allocated one, less the last if that was the last call. -/
theorem C263_partial (l : List Init) :
    (Obj.new.inits l).dealloc.bad = false ∧ (Obj.new.inits l).dealloc.heap.length + (if lastAllocates l then 1 else 0) = l.countP Init.allocates ∧
    (l.length ≤ 1 → (Obj.new.inits l).dealloc.heap = []) := by
  obtain ⟨h1, h2, h3, h4, h5⟩ := inits_inv l
  have key : (Obj.new.inits l).dealloc.bad = false ∧ (Obj.new.inits l).dealloc.heap.length + (if lastAllocates l then 1 else 0) = l.countP Init.allocates := by
    unfold Obj.dealloc
    rw [h4]
    by_cases hl : lastAllocates l = true
    · obtain ⟨n, hn, hp⟩ := h5 hl
      rw [if_pos hl, if_pos hl, hp]
      have hm : n ∈ (Obj.new.inits l).heap := by rw [h1, hn]; simp
      simp only [List.contains_iff_mem, hm, if_true]
      refine ⟨h3, ?_⟩
      rw [List.length_erase_of_mem hm, h1, List.length_reverse, List.length_range, hn]
      rfl
    · rw [if_neg hl, if_neg hl]
      exact ⟨h3, by rw [h1]; simp⟩
  refine ⟨key.1, key.2, fun hlen => ?_⟩
  apply List.eq_nil_of_length_eq_zero
  have h6 := key.2
  match l, hlen with
  | [], _ => rfl
  | [a], _ =>
    by_cases ha : a.allocates = true
    · simpa [lastAllocates, ha] using h6
    · simpa [lastAllocates, ha] using h6

/-- The wish: no memory is left. -/
def C263_spec : Prop := ∀ l : List Init, (Obj.new.inits l).dealloc.heap = []

/-- **C263** is false when an object is initialized twice: the first struct is never freed. -/
theorem C263_false : ¬ C263_spec := by
  intro h
  have := h [⟨true, true, List.replicate 9 true⟩, ⟨true, true, List.replicate 9 true⟩]
  exact absurd this (by decide)

/-! ## C264: one solution for each galaxy -/

/-- **C264.** For one-dimensional arrays of the same number of galaxies and four coefficients there is a solution for each galaxy; any
difference of sizes raises a ValueError. -/
theorem C264_partial (n b r w m : Nat) :
    (b = n ∧ r = n ∧ w = n ∧ m = 4 → galaxies [n] [b] [r] [w] [m] = .ok n) ∧
    (¬ (b = n ∧ r = n ∧ w = n ∧ m = 4) → ∃ k, galaxies [n] [b] [r] [w] [m] = .exc (.value k)) := by
  unfold galaxies
  simp only [List.prod_cons, List.prod_nil, mul_one]
  constructor
  · rintro ⟨rfl, rfl, rfl, rfl⟩
    simp
  · intro h
    by_cases h1 : n = b
    · by_cases h2 : n = r
      · by_cases h3 : n = w
        · have h4 : m ≠ 4 := fun e => h ⟨h1.symm, h2.symm, h3.symm, e⟩
          exact ⟨4, by rw [if_neg (by simpa using h1), if_neg (by simpa using h2), if_neg (by simpa using h3)]; simp [h4]⟩
        · exact ⟨3, by rw [if_neg (by simpa using h1), if_neg (by simpa using h2), if_pos h3]⟩
      · exact ⟨2, by rw [if_neg (by simpa using h1), if_pos h2]⟩
    · exact ⟨1, by rw [if_pos h1]⟩

/-- The wish for all shapes: every constructed solver solves for all entries. -/
def C264_spec : Prop := ∀ (ucounts bcounts r w cpars : List Nat) (n : Nat), galaxies ucounts bcounts r w cpars = .ok n → n = ucounts.prod

/-- **C264** is false of matrices: with counts of shape (2, 3) the solution has two entries. -/
theorem C264_false : ¬ C264_spec := fun h => absurd (h [2, 3] [6] [6] [6] [4] 2 rfl) (by decide)

/-- A number without dimension passes the checks and is then read beyond its shape. -/
theorem C264_scalar : galaxies [] [] [] [] [4] = .crash := rfl

/-- Non-vacuity. -/
example : galaxies [7] [7] [7] [7] [4] = .ok 7 := rfl

end Redmapper.PyWrap
