/-
Properties of the configuration: C37, C38, C39, C92, C93, C94, C95.
-/
import Verif.Model.Config
import Mathlib.Tactic.Linarith
import Mathlib.Tactic.NormNum
import Mathlib.Tactic.Positivity
import Mathlib.Data.Nat.Digits.Defs

namespace Redmapper.Config

/-! ## C37 -/

/-- One step of the family list (families of the objects so far, number of families). -/
def famStep (s : List Nat × Nat) : Op → List Nat × Nat
  | .construct _ => (s.1 ++ [s.2], s.2 + 1)
  | .copy i => match s.1[i]? with
    | none => s
    | some f => (s.1 ++ [f], s.2)
  | _ => s

/-- The family of each object after a history: a new configuration starts a family, a copy joins the family of its source. -/
def families (ops : List Op) : List Nat := (ops.foldl famStep ([], 0)).1

def Heap.empty (dflt : Cls) : Heap := ⟨dflt, [], []⟩

/-- The property as one would like it: an assignment through one object changes what is read from that object only. -/
def C37_spec : Prop :=
  ∀ (dflt : Cls) (ops : List Op) (i j : Nat) (n : String) (v : Val), i ≠ j →
    getField (exec dflt (execAll dflt (Heap.empty dflt) ops) (.setField i n v)) j n =
      getField (execAll dflt (Heap.empty dflt) ops) j n

/-- **C37 is false**: all configuration objects share every field; an assignment through one is read from every other. -/
theorem C37_shared (dflt : Cls) (h : Heap) (i j : Nat) (n : String) (v : Val) (hj : j < h.objs.length) :
    getField (exec dflt h (.setField i n v)) j n = some v := by
  simp [getField, exec, setCls, List.getElem?_eq_getElem hj]

theorem C37_false : ¬ C37_spec := by
  intro h
  have := h (fun _ => none') [.construct [], .construct []] 0 1 "zrange" (.atom (.num 1)) (by decide)
  simp [execAll, exec, getField, setCls, Heap.empty, none'] at this

/-- ... and so does constructing another configuration: the first one then reads as the second. -/
theorem C37_construct_false (dflt : Cls) (h : Heap) (vals : List (String × Val)) (i : Nat) (n : String) (hi : i < h.objs.length) :
    getField (exec dflt h (.construct vals)) i n =
      getField (exec dflt h (.construct vals)) h.objs.length n := by
  simp [getField, exec, List.getElem?_append_left hi, List.getElem?_eq_getElem hi]

/-! What does hold: plain attributes belong to one object; `config.d` belongs to one family. -/

theorem length_mono (dflt : Cls) (h : Heap) (op : Op) : h.objs.length ≤ (exec dflt h op).objs.length := by
  cases op <;> simp only [exec]
  · simp
  · split <;> simp
  · exact Nat.le_refl _
  · split <;> simp
  · simp

/-- Plain attributes (e.g. `cosmo`): only assignments through the object itself change them. -/
theorem C37_attrs_partial (dflt : Cls) (ops : List Op) (h : Heap) (i : Nat) (k : String) (hi : i < h.objs.length)
    (hno : ∀ op ∈ ops, ∀ v, op ≠ .setAttr i k v) : getAttr (execAll dflt h ops) i k = getAttr h i k := by
  induction ops generalizing h with
  | nil => rfl
  | cons op ops ih =>
    show getAttr (execAll dflt (exec dflt h op) ops) i k = _
    rw [ih _ (Nat.lt_of_lt_of_le hi (length_mono dflt h op)) fun o ho => hno o (by simp [ho])]
    have hop := hno op (by simp)
    cases op with
    | construct vals => simp [getAttr, exec, List.getElem?_append_left hi]
    | copy j =>
      simp only [getAttr, exec]
      split
      · rfl
      · simp [List.getElem?_append_left hi]
    | setField j n v => rfl
    | setD j k' v =>
      simp only [getAttr, exec]
      split <;> rfl
    | setAttr j k' v =>
      simp only [getAttr, exec, List.getElem?_modify]
      by_cases hji : j = i
      · subst hji
        have hk : k ≠ k' := fun e => hop v (by rw [e])
        simp [setCls, hk, List.getElem?_eq_getElem hi]
      · simp [hji]

/-- The families of the model agree with the references. -/
theorem drefs (dflt : Cls) (ops : List Op) :
    (execAll dflt (Heap.empty dflt) ops).objs.map Obj.dref = families ops ∧
    (∀ f ∈ families ops, f < (execAll dflt (Heap.empty dflt) ops).ds.length) := by
  have key : ∀ (ops : List Op) (h : Heap) (s : List Nat × Nat), h.objs.map Obj.dref = s.1 → h.ds.length = s.2 → (∀ f ∈ s.1, f < s.2) →
      (execAll dflt h ops).objs.map Obj.dref = (ops.foldl famStep s).1 ∧
      (∀ f ∈ (execAll dflt h ops).objs.map Obj.dref, f < (execAll dflt h ops).ds.length) := by
    intro ops
    induction ops with
    | nil => intro h s h1 h2 h3; exact ⟨h1, by show ∀ f ∈ h.objs.map Obj.dref, _; rw [h1]; intro f hf; show f < h.ds.length; rw [h2]; exact h3 f hf⟩
    | cons op ops ih =>
      intro h s h1 h2 h3
      rw [List.foldl_cons]
      have hexp : execAll dflt h (op :: ops) = execAll dflt (exec dflt h op) ops := rfl
      rw [hexp]
      cases op with
      | construct vals =>
        refine ih (exec dflt h (.construct vals)) (s.1 ++ [s.2], s.2 + 1) ?_ ?_ ?_
        · simp [exec, h1, h2]
        · simp [exec, h2]
        · intro f hf
          rcases List.mem_append.mp hf with hx | hx
          · have := h3 f hx; show f < s.2 + 1; omega
          · simp at hx; show f < s.2 + 1; omega
      | copy i =>
        have hget : s.1[i]? = (h.objs[i]?).map Obj.dref := by rw [← h1, List.getElem?_map]
        cases ho : h.objs[i]? with
        | none =>
          have : exec dflt h (.copy i) = h := by simp only [exec, ho]
          rw [ho] at hget
          simp only [Option.map_none] at hget
          have hfs : famStep s (.copy i) = s := by simp only [famStep, hget]
          rw [this, hfs]
          exact ih h s h1 h2 h3
        | some o =>
          have he : exec dflt h (.copy i) = { h with objs := h.objs ++ [o] } := by simp only [exec, ho]
          rw [ho] at hget
          simp only [Option.map_some] at hget
          have hfs : famStep s (.copy i) = (s.1 ++ [o.dref], s.2) := by simp only [famStep, hget]
          rw [he, hfs]
          refine ih _ (s.1 ++ [o.dref], s.2) (by rw [List.map_append, h1]; rfl) h2 ?_
          intro f hf
          rcases List.mem_append.mp hf with hx | hx
          · exact h3 f hx
          · simp at hx; rw [hx]; exact h3 _ (List.mem_of_getElem? hget)
      | setField i n v => exact ih _ s h1 h2 h3
      | setD i k v =>
        refine ih (exec dflt h (.setD i k v)) s ?_ ?_ h3
        · simp only [exec]; split <;> exact h1
        · simp only [exec]; split
          · exact h2
          · simpa using h2
      | setAttr i k v =>
        refine ih (exec dflt h (.setAttr i k v)) s ?_ h2 h3
        rw [← h1]
        apply List.ext_getElem?
        intro j
        simp only [exec, List.getElem?_map, List.getElem?_modify]
        by_cases hij : i = j
        · subst hij
          cases h.objs[i]? <;> simp
        · simp [hij]
  obtain ⟨a, b⟩ := key ops (Heap.empty dflt) ([], 0) rfl rfl (by simp)
  exact ⟨a, fun f hf => b f (by rw [a]; exact hf)⟩

theorem families_append (ops ops' : List Op) (i : Nat) (f : Nat) (h : (families ops)[i]? = some f) :
    (families (ops ++ ops'))[i]? = some f := by
  unfold families at *
  rw [List.foldl_append]
  generalize ops.foldl _ (([], 0) : List Nat × Nat) = s at *
  induction ops' generalizing s with
  | nil => exact h
  | cons op ops' ih =>
    rw [List.foldl_cons]
    refine ih _ ?_
    have hi : i < s.1.length := (List.getElem?_eq_some_iff.mp h).1
    cases op <;> simp only [famStep]
    · rw [List.getElem?_append_left hi]; exact h
    · split
      · exact h
      · rw [List.getElem?_append_left hi]; exact h
    · exact h
    · exact h
    · exact h

/-- `config.d` (output base, pixel, nside): after any history `ops`, further operations `ops'` change what object `i` reads only if one
of them assigns that value through an object of the same family (a copy of it, or the configuration it was copied from). -/
theorem C37_d_partial (dflt : Cls) (ops ops' : List Op) (i f : Nat) (k : String) (hi : (families ops)[i]? = some f)
    (hno : ∀ j v, Op.setD j k v ∈ ops' → (families (ops ++ ops'))[j]? ≠ some f) :
    getD (execAll dflt (Heap.empty dflt) (ops ++ ops')) i k = getD (execAll dflt (Heap.empty dflt) ops) i k := by
  induction ops' generalizing ops with
  | nil => rw [List.append_nil]
  | cons op ops' ih =>
    have e : ops ++ op :: ops' = (ops ++ [op]) ++ ops' := by simp
    rw [e] at hno ⊢
    rw [ih (ops ++ [op]) (families_append ops [op] i f hi) fun j v hj => hno j v (by simp [hj])]
    have hx : execAll dflt (Heap.empty dflt) (ops ++ [op]) = exec dflt (execAll dflt (Heap.empty dflt) ops) op := by
      simp [execAll]
    rw [hx]
    obtain ⟨hd, hlt⟩ := drefs dflt ops
    generalize hh : execAll dflt (Heap.empty dflt) ops = h at *
    have hoi : ∃ o, h.objs[i]? = some o ∧ o.dref = f := by
      rw [← hd, List.getElem?_map] at hi
      cases ho : h.objs[i]? with
      | none => rw [ho] at hi; cases hi
      | some o => rw [ho] at hi; exact ⟨o, rfl, by simpa using hi⟩
    obtain ⟨o, ho, hof⟩ := hoi
    have hil : i < h.objs.length := (List.getElem?_eq_some_iff.mp ho).1
    have hfl : f < h.ds.length := hlt f (List.mem_of_getElem? hi)
    cases op with
    | construct vals =>
      simp only [getD, exec, List.getElem?_append_left hil, ho, hof, List.getElem?_append_left hfl]
    | copy j =>
      simp only [getD, exec]
      cases h.objs[j]? with
      | none => rfl
      | some o' => simp only [List.getElem?_append_left hil, ho]
    | setField j n v => rfl
    | setD j k' v =>
      simp only [getD, exec]
      cases hj : h.objs[j]? with
      | none => simp only
      | some o' =>
        simp only [ho, List.getElem?_modify, hof]
        by_cases hfo : o'.dref = f
        · by_cases hk : k' = k
          · subst hk
            exfalso
            refine hno j v (by simp) ?_
            refine families_append (ops ++ [.setD j k' v]) ops' j f (families_append ops [.setD j k' v] j f ?_)
            rw [← hd, List.getElem?_map, hj]; simp [hfo]
          · simp only [hfo]
            rw [List.getElem?_eq_getElem hfl]
            simp [setCls, Ne.symm hk]
        · simp [hfo]
    | setAttr j k' v =>
      simp only [getD, exec, List.getElem?_modify]
      by_cases hji : j = i
      · subst hji; simp [ho]
      · simp [hji, ho]

/-- Two configurations and a copy of the first: assigning through the copy changes the first one's `d`, not the second's. -/
def hist : List Op := [.construct [("hpix", .atom (.num 1))], .construct [("hpix", .atom (.num 2))], .copy 0]
example : families hist = [0, 1, 0] ∧
    getD (execAll (fun _ => none') (Heap.empty (fun _ => none')) (hist ++ [.setD 2 "hpix" (.atom (.num 9))])) 1 "hpix" = some (.atom (.num 2)) ∧
    getD (execAll (fun _ => none') (Heap.empty (fun _ => none')) (hist ++ [.setD 2 "hpix" (.atom (.num 9))])) 0 "hpix" = some (.atom (.num 9)) := by
  refine ⟨rfl, ?_, ?_⟩ <;> simp [hist, execAll, exec, getD, Heap.empty, setCls, List.modify, List.modifyHead]

/-! ## C38 -/

theorem validateAll_ok (c : Cls) (fs : List Field) (h : validateAll c fs = .ok ()) : ∀ f ∈ fs, f.validate (c f.name) = .ok () := by
  induction fs with
  | nil => simp
  | cons f fs ih =>
    intro g hg
    simp only [validateAll] at h
    cases hv : f.validate (c f.name) with
    | error e => rw [hv] at h; cases h
    | ok u =>
      rw [hv] at h
      rcases List.mem_cons.mp hg with rfl | hg
      · exact hv
      · exact ih h g hg

/-- **C38**, construction: a configuration that could be constructed has every required field set, and every array or list field with
a declared or run-time length has that length.  (Missing in the full claim: scalar fields, `C38_scalar_false`; nulls in array fields,
`C38_null_false`.) -/
theorem C38_construct_partial (fs : List Field) (setLens : Cls → List Field → List Field) (c0 c : Cls) (yaml stats : List (String × Val))
    (h : construct fs setLens c0 yaml stats = .ok c) :
    ∀ f ∈ setLens c fs, (f.required = true → c f.name ≠ .atom .null) ∧
      (∀ n l, f.len = some n → (f.isArray = true ∨ f.isList = true) → c f.name = .seq l → l.length = n) := by
  simp only [construct] at h
  cases h1 : setVars fs false (resetVars fs c0) yaml with
  | error e => rw [h1] at h; cases h
  | ok c1 =>
    simp only [h1] at h
    cases h2 : setVars fs true c1 stats with
    | error e => rw [h2] at h; cases h
    | ok c2 =>
      simp only [h2] at h
      cases h3 : validateAll c2 (setLens c2 fs) with
      | error e => rw [h3] at h; cases h
      | ok u =>
        rw [h3] at h
        injection h with h
        subst h
        intro f hf
        have hv := validateAll_ok c2 _ h3 f hf
        unfold Field.validate at hv
        constructor
        · intro hr hn
          rw [if_pos ⟨hr, hn⟩] at hv; cases hv
        · intro n l hn hk hl
          by_cases hx : f.required = true ∧ c2 f.name = none'
          · rw [if_pos hx] at hv; cases hv
          · rw [if_neg hx, hl] at hv
            simp only [hn] at hv
            by_contra hne
            rw [if_pos ⟨by simpa using hk, hne⟩] at hv; cases hv

/-! ## C427: where the values of a new configuration come from -/

theorem setVars_spec (fs : List Field) (ck : Bool) (l : List (String × Val)) : ∀ (c c' : Cls), setVars fs ck c l = .ok c' → (l.map Prod.fst).Nodup → ∀ n,
    (∀ v, (n, v) ∈ l → ¬ (ck = true ∧ v = none') → ∃ f, findField fs n = some f ∧ f.store v = .ok (c' n)) ∧
    ((∀ v, (n, v) ∈ l → ck = true ∧ v = none') → c' n = c n) := by
  induction l with
  | nil =>
    intro c c' h _ n
    simp only [setVars, Except.ok.injEq] at h
    subst h
    exact ⟨fun v hv => by simp at hv, fun _ => rfl⟩
  | cons x l ih =>
    obtain ⟨k, w⟩ := x
    intro c c' h hnd n
    rw [List.map_cons, List.nodup_cons] at hnd
    have hk : ∀ v, (k, v) ∉ l := fun v hv => hnd.1 (List.mem_map.mpr ⟨_, hv, rfl⟩)
    simp only [setVars] at h
    by_cases hc : ck = true ∧ w = none'
    · rw [if_pos hc] at h
      obtain ⟨h1, h2⟩ := ih c c' h hnd.2 n
      refine ⟨fun v hv hn => ?_, fun hall => h2 fun v hv => hall v (List.mem_cons_of_mem _ hv)⟩
      rcases List.mem_cons.mp hv with he | hv
      · obtain ⟨rfl, rfl⟩ := Prod.mk.inj he
        exact absurd hc hn
      · exact h1 v hv hn
    · rw [if_neg hc] at h
      cases hf : findField fs k with
      | none => rw [hf] at h; cases h
      | some f =>
        rw [hf] at h
        simp only at h
        cases hs : f.store w with
        | error e => rw [hs] at h; cases h
        | ok w' =>
          rw [hs] at h
          simp only at h
          obtain ⟨h1, h2⟩ := ih _ c' h hnd.2 n
          refine ⟨fun v hv hn => ?_, fun hall => ?_⟩
          · rcases List.mem_cons.mp hv with he | hv
            · obtain ⟨rfl, rfl⟩ := Prod.mk.inj he
              have := h2 fun u hu => absurd hu (hk u)
              rw [setCls, if_pos rfl] at this
              exact ⟨f, hf, by rw [this]; exact hs⟩
            · exact h1 v hv hn
          · have hne : n ≠ k := by
              rintro rfl
              exact hc (hall w List.mem_cons_self)
            rw [h2 fun v hv => hall v (List.mem_cons_of_mem _ hv), setCls, if_neg hne]

theorem findField_name (fs : List Field) (n : String) (f : Field) (h : findField fs n = some f) : f.name = n := by
  have := List.find?_some h
  simpa using this

/-- **C427.** Every field of a new configuration has the value of the statistics of the galaxy file, if they have one; else that of the configuration file; else its default. -/
theorem C427_values (fs : List Field) (setLens : Cls → List Field → List Field) (c0 c : Cls) (yaml stats : List (String × Val))
    (h : construct fs setLens c0 yaml stats = .ok c) (hy : (yaml.map Prod.fst).Nodup) (hs : (stats.map Prod.fst).Nodup) (n : String) (f : Field) (hf : findField fs n = some f) :
    (∀ v, (n, v) ∈ stats → v ≠ .atom .null → f.store v = .ok (c n)) ∧
    ((∀ v, (n, v) ∈ stats → v = .atom .null) → ∀ v, (n, v) ∈ yaml → f.store v = .ok (c n)) ∧
    ((∀ v, (n, v) ∈ stats → v = .atom .null) → (∀ v, (n, v) ∉ yaml) → c n = f.default) := by
  simp only [construct] at h
  cases h1 : setVars fs false (resetVars fs c0) yaml with
  | error e => rw [h1] at h; cases h
  | ok c1 =>
    simp only [h1] at h
    cases h2 : setVars fs true c1 stats with
    | error e => rw [h2] at h; cases h
    | ok c2 =>
      simp only [h2] at h
      cases h3 : validateAll c2 (setLens c2 fs) with
      | error e => rw [h3] at h; cases h
      | ok u =>
        rw [h3] at h
        injection h with h
        subst h
        obtain ⟨a1, a2⟩ := setVars_spec fs false yaml _ _ h1 hy n
        obtain ⟨b1, b2⟩ := setVars_spec fs true stats _ _ h2 hs n
        refine ⟨fun v hv hn => ?_, fun hall v hv => ?_, fun hall hno => ?_⟩
        · obtain ⟨g, hg, hst⟩ := b1 v hv fun hx => hn hx.2
          rw [hf] at hg
          obtain rfl := Option.some.inj hg
          exact hst
        · obtain ⟨g, hg, hst⟩ := a1 v hv (by simp)
          rw [hf] at hg
          obtain rfl := Option.some.inj hg
          rw [b2 fun v hv => ⟨rfl, hall v hv⟩]
          exact hst
        · rw [b2 fun v hv => ⟨rfl, hall v hv⟩, a2 fun v hv => absurd hv (hno v)]
          simp [resetVars, hf]

/-- Two classes with the same values of all declared fields. -/
def Same (fs : List Field) (c c' : Cls) : Prop := ∀ n f, findField fs n = some f → c n = c' n

theorem setVars_same (fs : List Field) (ck : Bool) (l : List (String × Val)) : ∀ c c' : Cls, Same fs c c' →
    (∃ d d', setVars fs ck c l = .ok d ∧ setVars fs ck c' l = .ok d' ∧ Same fs d d') ∨ ∃ e, setVars fs ck c l = .error e ∧ setVars fs ck c' l = .error e := by
  induction l with
  | nil => intro c c' h; exact Or.inl ⟨c, c', rfl, rfl, h⟩
  | cons x l ih =>
    obtain ⟨k, w⟩ := x
    intro c c' h
    simp only [setVars]
    by_cases hc : ck = true ∧ w = none'
    · simp only [if_pos hc]
      exact ih c c' h
    · simp only [if_neg hc]
      cases hf : findField fs k with
      | none => exact Or.inr ⟨_, rfl, rfl⟩
      | some f =>
        simp only
        cases hs : f.store w with
        | error e => exact Or.inr ⟨e, rfl, rfl⟩
        | ok w' =>
          simp only
          refine ih _ _ fun n g hg => ?_
          unfold setCls
          split_ifs
          · rfl
          · exact h n g hg

/-- **C427.** A new configuration does not depend on what configurations were made before it, or on what they were set to: it has the same values, or fails with the same error. -/
theorem C427_history (fs : List Field) (hd : (fs.map Field.name).Nodup) (setLens : Cls → List Field → List Field) (hl : ∀ c c', Same fs c c' → setLens c fs = setLens c' fs)
    (hn : ∀ c, (setLens c fs).map Field.name = fs.map Field.name) (c0 c0' : Cls) (yaml stats : List (String × Val)) :
    (∃ c c', construct fs setLens c0 yaml stats = .ok c ∧ construct fs setLens c0' yaml stats = .ok c' ∧ ∀ f ∈ fs, c f.name = c' f.name) ∨
    ∃ e, construct fs setLens c0 yaml stats = .error e ∧ construct fs setLens c0' yaml stats = .error e := by
  have hfind : ∀ f ∈ fs, findField fs f.name = some f := by
    intro f hf
    clear hl hn
    induction fs with
    | nil => simp at hf
    | cons g fs ih =>
      rw [List.map_cons, List.nodup_cons] at hd
      unfold findField
      rcases List.mem_cons.mp hf with rfl | hf
      · simp
      · have hne : ¬ g.name = f.name := fun he => hd.1 (he ▸ List.mem_map_of_mem hf)
        rw [List.find?_cons_of_neg (by simpa using hne)]
        exact ih hd.2 hf
  have h0 : Same fs (resetVars fs c0) (resetVars fs c0') := by
    intro n f hf
    simp [resetVars, hf]
  unfold construct
  rcases setVars_same fs false yaml _ _ h0 with ⟨d, d', e1, e2, h1⟩ | ⟨e, e1, e2⟩
  · simp only [e1, e2]
    rcases setVars_same fs true stats _ _ h1 with ⟨x, x', e3, e4, h2⟩ | ⟨e, e3, e4⟩
    · simp only [e3, e4]
      have hv : ∀ gs : List Field, (∀ g ∈ gs, x g.name = x' g.name) → validateAll x gs = validateAll x' gs := by
        intro gs
        induction gs with
        | nil => intro _; rfl
        | cons g gs ih =>
          intro hg
          simp only [validateAll]
          rw [hg g List.mem_cons_self, ih fun g' hg' => hg g' (List.mem_cons_of_mem _ hg')]
      have hx : ∀ f ∈ fs, x f.name = x' f.name := fun f hf => h2 _ f (hfind f hf)
      have hval : validateAll x (setLens x fs) = validateAll x' (setLens x' fs) := by
        rw [← hl x x' h2]
        refine hv _ fun g hg => ?_
        have : g.name ∈ fs.map Field.name := by rw [← hn x]; exact List.mem_map_of_mem hg
        obtain ⟨f, hf, he⟩ := List.mem_map.mp this
        rw [← he]
        exact hx f hf
      rw [hval]
      cases validateAll x' (setLens x' fs) with
      | error e => exact Or.inr ⟨e, rfl, rfl⟩
      | ok u => exact Or.inl ⟨x, x', rfl, rfl, hx⟩
    · simp only [e3, e4]
      exact Or.inr ⟨e, rfl, rfl⟩
  · simp only [e1, e2]
    exact Or.inr ⟨e, rfl, rfl⟩

/-- A value from the statistics, one from the file, a default, and a null in the statistics that is passed over; what was in the class before does not matter. -/
example : (construct [⟨"area", false, false, false, none', none⟩, ⟨"nside", false, false, false, .atom (.num 1), none⟩, ⟨"border", false, false, false, .atom (.num 2), none⟩]
    (fun _ fs => fs) (fun _ => .atom (.num 99)) [("nside", .atom (.num 5)), ("area", .atom (.num 6))] [("area", .atom (.num 7)), ("nside", none')]).map (fun c => (c "area", c "nside", c "border")) =
    .ok (.atom (.num 7), .atom (.num 5), .atom (.num 2)) := by rfl

/-- Unknown names are rejected. -/
theorem C38_unknown (fs : List Field) (c : Cls) (k : String) (v : Val) (rest : List (String × Val)) (hk : ∀ f ∈ fs, f.name ≠ k) :
    setVars fs false c ((k, v) :: rest) = .error .attributeError := by
  have : findField fs k = none := by
    unfold findField
    rw [List.find?_eq_none]
    intro f hf; simp [hk f hf]
  simp [setVars, this]

/-- Every array and list field holds a sequence, whatever history of assignments (list fields may raise). -/
theorem C38_sequence (f : Field) (v w : Val) (hf : f.isArray = true ∨ f.isList = true) (h : f.store v = .ok w) : ∃ l, w = .seq l := by
  unfold Field.store at h
  by_cases ha : f.isArray = true
  · rw [if_pos ha] at h
    injection h with h
    cases v with
    | atom a => exact ⟨_, h.symm⟩
    | seq l => exact ⟨_, h.symm⟩
  · have hl : f.isList = true := by rcases hf with hx | hx; exact absurd hx ha; exact hx
    rw [if_neg ha, if_pos hl] at h
    cases v with
    | atom a =>
      cases a with
      | null => cases h
      | num x => cases h
      | str s => injection h with h; exact ⟨_, h.symm⟩
    | seq l => injection h with h; exact ⟨_, h.symm⟩

/-- The property as one would like it for scalars: a sequence of more than one element is rejected. -/
def C38_scalar_spec : Prop :=
  ∀ (f : Field) (l : List Atom), f.isArray = false → f.isList = false → 1 < l.length → ∃ e, f.store (.seq l) = .error e

/-- **C38 is false** of scalar fields: every sequence is accepted. -/
theorem C38_scalar_accepts (f : Field) (v : Val) (h1 : f.isArray = false) (h2 : f.isList = false) : f.store v = .ok v := by
  simp [Field.store, h1, h2]

theorem C38_scalar_false : ¬ C38_scalar_spec := by
  intro h
  obtain ⟨e, he⟩ := h ⟨"nside", false, false, true, .atom (.num 0), none⟩ [.num 1, .num 2] rfl rfl (by decide)
  rw [C38_scalar_accepts _ _ rfl rfl] at he; cases he

/-- **C38 is false** of required array fields: an explicit null passes as an array holding a null. -/
theorem C38_null_false :
    (construct [⟨"hpix", true, false, true, .seq [], none⟩] (fun _ fs => fs) (fun _ => none') [("hpix", .atom .null)] []).map (fun c => c "hpix") =
      .ok (.seq [.null]) := by rfl

/-- A file name given as a plain string for a list field becomes a list of characters. -/
theorem C38_string_list (f : Field) (s : List Char) (h1 : f.isArray = false) (h2 : f.isList = true) :
    f.store (.atom (.str s)) = .ok (.seq (s.map fun c => .str [c])) := by
  simp [Field.store, h1, h2]

/-- A configuration with a required scalar, a fixed-length array, and a run-time length, constructed; and three that are refused. -/
def demoFields : List Field :=
  [⟨"galfile", false, false, true, none', none⟩, ⟨"zrange", true, false, true, none', some 2⟩, ⟨"nodesizes", true, false, false, .seq [.num 5], none⟩,
   ⟨"nmag", false, false, true, none', none⟩]
def demoLens (_ : Cls) (fs : List Field) : List Field := setLengths ["nodesizes"] 1 fs
def demoYaml : List (String × Val) := [("galfile", .atom (.str "g.fit".toList)), ("zrange", .seq [.num 1, .num 6])]
example : (∃ c, construct demoFields demoLens (fun _ => none') demoYaml [("nmag", .atom (.num 2)), ("galfile", none')] = .ok c) ∧
    construct demoFields demoLens (fun _ => none') demoYaml [] = .error .valueError ∧
    construct demoFields demoLens (fun _ => none') [("galfile", .atom (.num 1)), ("zrange", .seq [.num 1])] [("nmag", .atom (.num 2))] = .error .valueError ∧
    construct demoFields demoLens (fun _ => none') [("galfil", .atom (.num 1))] [] = .error .attributeError := by
  refine ⟨⟨_, rfl⟩, rfl, rfl, rfl⟩

/-! ## C39 -/

/-- Which column each value comes from. -/
def wcenSpec : List (String × String) :=
  [("wcen_Delta0", "delta0"), ("wcen_Delta1", "delta1"), ("wcen_sigma_m", "sigma_m"), ("wcen_pivot", "pivot"),
   ("lnw_fg_mean", "lnw_fg_mean"), ("lnw_fg_sigma", "lnw_fg_sigma"), ("lnw_sat_mean", "lnw_sat_mean"), ("lnw_sat_sigma", "lnw_sat_sigma"),
   ("lnw_cen_mean", "lnw_cen_mean"), ("lnw_cen_sigma", "lnw_cen_sigma")]
def phi1Spec : List (String × String) :=
  [("phi1_mmstar_m", "phi1_mmstar_m"), ("phi1_mmstar_slope", "phi1_mmstar_slope"), ("phi1_msig_m", "phi1_msig_m"),
   ("phi1_msig_slope", "phi1_msig_slope")]

/-- The property as one would like it. -/
def C39_spec : Prop :=
  ∀ (col : String → Int) (ph : Bool) (c : String → Int) (p : String × String),
    p ∈ wcenSpec ∨ (ph = true ∧ p ∈ phi1Spec) → setWcen (some (col, ph)) c p.1 = col p.2

/-- **C39**: every value but one is the column of its name; without phi1 columns those four values are left alone; without a file
everything is.  (Missing: phi1_mmstar_slope, `C39_false`.) -/
theorem C39_partial (col : String → Int) (ph : Bool) (c : String → Int) :
    (∀ p ∈ wcenSpec, setWcen (some (col, ph)) c p.1 = col p.2) ∧
    (∀ p ∈ phi1Spec, ph = true → p.1 ≠ "phi1_mmstar_slope" → setWcen (some (col, ph)) c p.1 = col p.2) ∧
    (∀ p ∈ phi1Spec, ph = false → setWcen (some (col, ph)) c p.1 = c p.1) ∧
    (∀ n, n ∉ wcenSpec.map Prod.fst → n ∉ phi1Spec.map Prod.fst → setWcen (some (col, ph)) c n = c n) ∧
    setWcen none c = c := by
  refine ⟨?_, ?_, ?_, ?_, rfl⟩
  · intro p hp
    simp only [wcenSpec, List.mem_cons, List.not_mem_nil, or_false] at hp
    rcases hp with rfl | rfl | rfl | rfl | rfl | rfl | rfl | rfl | rfl | rfl <;> cases ph <;> simp [setWcen, wcenVals]
  · intro p hp hph hne
    subst hph
    simp only [phi1Spec, List.mem_cons, List.not_mem_nil, or_false] at hp
    rcases hp with rfl | rfl | rfl | rfl
    · simp [setWcen, wcenVals]
    · exact absurd rfl hne
    · simp [setWcen, wcenVals]
    · simp [setWcen, wcenVals]
  · intro p hp hph
    subst hph
    simp only [phi1Spec, List.mem_cons, List.not_mem_nil, or_false] at hp
    rcases hp with rfl | rfl | rfl | rfl <;> simp [setWcen, wcenVals]
  · intro n h1 h2
    simp only [wcenSpec, phi1Spec, List.map_cons, List.map_nil, List.mem_cons, List.not_mem_nil, or_false, not_or] at h1 h2
    obtain ⟨a1, a2, a3, a4, a5, a6, a7, a8, a9, a10⟩ := h1
    obtain ⟨b1, b2, b3, b4⟩ := h2
    cases ph <;> simp [setWcen, wcenVals, a1, a2, a3, a4, a5, a6, a7, a8, a9, a10, b1, b2, b3, b4]

/-- **C39 is false**: phi1_mmstar_slope is set to the column phi1_mmstar_m. -/
theorem C39_slope (col : String → Int) (c : String → Int) :
    setWcen (some (col, true)) c "phi1_mmstar_slope" = col "phi1_mmstar_m" := by simp [setWcen, wcenVals]

theorem C39_false : ¬ C39_spec := by
  intro h
  have := h (fun n => if n = "phi1_mmstar_m" then 1 else 0) true (fun _ => 7) ("phi1_mmstar_slope", "phi1_mmstar_slope")
    (Or.inr ⟨rfl, by simp [phi1Spec]⟩)
  rw [C39_slope] at this
  simp at this

/-! ## C92: output_yaml -/

/-- The fields have different names. -/
def DistinctNames (fs : List Field) : Prop := (fs.map Field.name).Nodup

/-- The values a history of assignments can leave in a field: arrays hold sequences or their untouched null default, lists hold
sequences. -/
def Stored (f : Field) (v : Val) : Prop := (∃ w, f.store w = .ok v) ∨ v = f.default

theorem findField_mem (fs : List Field) (hd : DistinctNames fs) (f : Field) (hf : f ∈ fs) : findField fs f.name = some f := by
  unfold findField
  induction fs with
  | nil => simp at hf
  | cons g fs ih =>
    have hd' := List.nodup_cons.mp hd
    rw [List.find?_cons]
    rcases List.mem_cons.mp hf with rfl | hf
    · simp
    · have : g.name ≠ f.name := fun e => hd'.1 (by rw [e]; exact List.mem_map_of_mem hf)
      simp only [this, decide_false]
      exact ih hd'.2 hf

theorem dump_ok (c : Cls) (fs : List Field) (d : List (String × Val)) (h : dump c fs = .ok d) :
    d = fs.map (fun f => (f.name, c f.name)) ∧ ∀ f ∈ fs, f.isArray = true → ∃ l, c f.name = .seq l := by
  induction fs generalizing d with
  | nil => simp only [dump, Except.ok.injEq] at h; subst h; simp
  | cons f fs ih =>
    simp only [dump] at h
    cases hd : dump c fs with
    | error e =>
      rw [hd] at h
      split at h
      · cases h
      · cases h
    | ok rest =>
      obtain ⟨h1, h2⟩ := ih rest hd
      by_cases ha : f.isArray = true
      · cases hc : c f.name with
        | atom a => simp only [ha, hc, if_true] at h; cases h
        | seq l =>
          simp only [ha, hc, hd, if_true, Except.ok.injEq] at h
          subst h
          refine ⟨by rw [List.map_cons, h1, hc], ?_⟩
          intro g hg hga
          rcases List.mem_cons.mp hg with rfl | hg
          · exact ⟨l, hc⟩
          · exact h2 g hg hga
      · simp only [ha, hd, Bool.false_eq_true, if_false, Except.ok.injEq] at h
        subst h
        refine ⟨by rw [List.map_cons, h1], ?_⟩
        intro g hg hga
        rcases List.mem_cons.mp hg with rfl | hg
        · exact absurd hga ha
        · exact h2 g hg hga

theorem setVars_values (fs : List Field) (gs : List Field) (c0 c : Cls)
    (hfind : ∀ g ∈ gs, findField fs g.name = some g) (hst : ∀ g ∈ gs, g.store (c g.name) = .ok (c g.name)) :
    ∃ c', setVars fs false c0 (gs.map fun f => (f.name, c f.name)) = .ok c' ∧
      ∀ n, c' n = if n ∈ gs.map Field.name then c n else c0 n := by
  induction gs generalizing c0 with
  | nil => exact ⟨c0, rfl, by simp⟩
  | cons g gs ih =>
    obtain ⟨c', h1, h2⟩ := ih (setCls c0 g.name (c g.name)) (fun f hf => hfind f (by simp [hf])) (fun f hf => hst f (by simp [hf]))
    refine ⟨c', ?_, ?_⟩
    · simp only [List.map_cons, setVars, Bool.false_eq_true, false_and, if_false]
      rw [hfind g (by simp)]
      simp only
      rw [hst g (by simp)]
      exact h1
    · intro n
      rw [h2 n]
      by_cases hn : n ∈ gs.map Field.name
      · rw [if_pos hn, if_pos (by rw [List.map_cons]; exact List.mem_cons_of_mem _ hn)]
      · rw [if_neg hn, setCls]
        by_cases hg : n = g.name
        · rw [if_pos hg, if_pos (by rw [List.map_cons, hg]; exact List.mem_cons_self), hg]
        · rw [if_neg hg, if_neg (by rw [List.map_cons, List.mem_cons, not_or]; exact ⟨hg, hn⟩)]

/-- The property as one would like it. -/
def C92_spec : Prop :=
  ∀ (fs : List Field) (c : Cls), DistinctNames fs → (∀ f ∈ fs, Stored f (c f.name)) →
    ∃ d, dump c fs = .ok d ∧ ∀ c0 : Cls, ∃ c', setVars fs false (resetVars fs c0) d = .ok c' ∧ ∀ f ∈ fs, c' f.name = c f.name

/-- **C92**: if the configuration can be written, reading the file back restores every field, whatever was in the class before.
(Missing: configurations with an unset array field cannot be written, `C92_false`.  `hl`: list fields always have a list, as they have
no null default in the repository.) -/
theorem C92_partial (fs : List Field) (c : Cls) (hd : DistinctNames fs) (hl : ∀ f ∈ fs, f.isList = true → ∃ l, c f.name = .seq l)
    (d : List (String × Val)) (h : dump c fs = .ok d) (c0 : Cls) :
    ∃ c', setVars fs false (resetVars fs c0) d = .ok c' ∧ ∀ f ∈ fs, c' f.name = c f.name := by
  obtain ⟨h1, h2⟩ := dump_ok c fs d h
  obtain ⟨c', h3, h4⟩ := setVars_values fs fs (resetVars fs c0) c (findField_mem fs hd) (by
    intro g hg
    unfold Field.store
    by_cases ha : g.isArray = true
    · obtain ⟨l, hl⟩ := h2 g hg ha
      rw [if_pos ha, hl]
    · rw [if_neg ha]
      by_cases hli : g.isList = true
      · obtain ⟨l, hl'⟩ := hl g hg hli
        rw [if_pos hli, hl']
      · rw [if_neg hli])
  refine ⟨c', by rw [h1]; exact h3, ?_⟩
  intro f hf
  rw [h4, if_pos (List.mem_map_of_mem hf)]

/-- Written exactly when every array field has a value. -/
theorem C92_writable (fs : List Field) (c : Cls) :
    (∃ d, dump c fs = .ok d) ↔ ∀ f ∈ fs, f.isArray = true → ∃ l, c f.name = .seq l := by
  constructor
  · rintro ⟨d, h⟩; exact (dump_ok c fs d h).2
  · intro h
    induction fs with
    | nil => exact ⟨_, rfl⟩
    | cons f fs ih =>
      obtain ⟨d, hd⟩ := ih fun g hg => h g (by simp [hg])
      simp only [dump, hd]
      by_cases ha : f.isArray = true
      · obtain ⟨l, hl⟩ := h f (by simp) ha
        exact ⟨_, by simp only [ha, hl, if_true]; rfl⟩
      · exact ⟨_, by simp only [ha]; rfl⟩

/-- **C92 is false** for galaxy files without softening parameters: `b` is an array field without a value, and writing raises. -/
theorem C92_false : ¬ C92_spec := by
  intro h
  obtain ⟨d, hd, _⟩ := h [⟨"b", true, false, false, none', none⟩] (fun _ => none') (by simp [DistinctNames])
    (by intro f hf; simp at hf; subst hf; exact Or.inr rfl)
  have : dump (fun _ => none') [⟨"b", true, false, false, none', none⟩] = .error .typeError := rfl
  rw [this] at hd; cases hd

example : dump (fun n => if n = "zrange" then .seq [.num 1, .num 6] else if n = "nodesizes" then .seq [.num 5] else .atom (.num 3)) demoFields =
    .ok [("galfile", .atom (.num 3)), ("zrange", .seq [.num 1, .num 6]), ("nodesizes", .seq [.num 5]), ("nmag", .atom (.num 3))] := by rfl

/-! ## C93: file names of pixel runs -/

theorem dec_digit (n : Nat) : ∀ c ∈ dec n, c ≠ '_' := by
  intro c hc he
  subst he
  have := Nat.isDigit_of_mem_toDigits (by decide) (by decide) hc
  simp at this

theorem pad5_digit (n : Nat) : ∀ c ∈ pad5 n, c ≠ '_' := by
  intro c hc
  unfold pad5 at hc
  rcases List.mem_append.mp hc with h | h
  · rw [List.mem_replicate] at h; rw [h.2]; decide
  · exact dec_digit n c h

/-- Splitting at the first underscore is unique. -/
theorem split_unique (a b r s : List Char) (ha : ∀ c ∈ a, c ≠ '_') (hb : ∀ c ∈ b, c ≠ '_') (h : a ++ '_' :: r = b ++ '_' :: s) :
    a = b ∧ r = s := by
  induction a generalizing b with
  | nil =>
    cases b with
    | nil => simp at h; exact ⟨rfl, h⟩
    | cons x b => simp at h; exact absurd h.1.symm (hb x (by simp))
  | cons x a ih =>
    cases b with
    | nil => simp at h; exact absurd h.1 (ha x (by simp))
    | cons y b =>
      simp only [List.cons_append, List.cons.injEq] at h
      obtain ⟨h1, h2⟩ := ih b (fun c hc => ha c (by simp [hc])) (fun c hc => hb c (by simp [hc])) h.2
      exact ⟨by rw [h.1, h1], h2⟩

theorem dec_inj (m n : Nat) (h : dec m = dec n) : m = n := by
  have := congrArg (fun l => Nat.ofDigitChars 10 l 0) h
  simpa [dec] using this

theorem pad5_value (n : Nat) : Nat.ofDigitChars 10 (pad5 n) 0 = n := by
  unfold pad5
  rw [Nat.ofDigitChars_append, Nat.ofDigitChars_replicate_zero]
  simp [dec]

theorem pad5_inj (m n : Nat) (h : pad5 m = pad5 n) : m = n := by
  rw [← pad5_value m, ← pad5_value n, h]

/-- **C93**: two pixel runs with the same output path and base write the same file only if they agree in nside, pixel and file
kind: runs of different pixels never share an output file. -/
theorem C93_injective (outpath outbase : List Char) (n1 n2 p1 p2 : Nat) (name1 name2 ft1 ft2 : List Char)
    (h : pixelFile outpath outbase n1 p1 name1 ft1 = pixelFile outpath outbase n2 p2 name2 ft2) :
    n1 = n2 ∧ p1 = p2 ∧ name1 ++ '.' :: ft1 = name2 ++ '.' :: ft2 := by
  unfold pixelFile at h
  have h := List.append_cancel_left h
  simp only [List.cons.injEq, true_and] at h
  have h := List.append_cancel_left h
  simp only [List.cons.injEq, true_and] at h
  obtain ⟨h1, h2⟩ := split_unique _ _ _ _ (dec_digit n1) (dec_digit n2) h
  obtain ⟨h3, h4⟩ := split_unique _ _ _ _ (pad5_digit p1) (pad5_digit p2) h2
  exact ⟨dec_inj _ _ h1, pad5_inj _ _ h3, h4⟩

example : pixelFile ".".toList "run".toList 4 17 "final".toList "fit".toList = "./run_4_00017_final.fit".toList := by
  simp [pixelFile, pad5, dec, Nat.toDigits, Nat.toDigitsCore, Nat.digitChar, List.replicate]
example : pixelFile ".".toList "run".toList 64 123456 "final".toList "fit".toList = "./run_64_123456_final.fit".toList := by
  simp [pixelFile, pad5, dec, Nat.toDigits, Nat.toDigitsCore, Nat.digitChar, List.replicate]

/-! ## C94: check_files -/

theorem needFile_ok (a : Bool) (f : Option Bool) : needFile a f = .ok () ↔ (a = true → f = some true) := by
  unfold needFile
  cases a
  · simp
  · rcases f with _ | _ | _ <;> simp

theorem needExts_ok (a : Bool) (f : Option Bool) (x : List String) :
    needExts a f x = .ok () ↔ (a = true → f = some true ∧ "CHISQBKG" ∈ x ∧ "ZREDBKG" ∈ x) := by
  unfold needExts
  cases a
  · simp
  · rcases f with _ | _ | _
    · simp
    · simp
    · by_cases h1 : "CHISQBKG" ∈ x <;> by_cases h2 : "ZREDBKG" ∈ x <;> simp [h1, h2]

theorem bind_ok (x : Except Err Unit) (y : Except Err Unit) : (x >>= fun _ => y) = .ok () ↔ x = .ok () ∧ y = .ok () := by
  cases x with
  | error e => simp [bind, Except.bind]
  | ok u => simp [bind, Except.bind]

/-- **C94**: check_files returns exactly when every requested file is there, with both extensions of the background file if its
components are requested. -/
theorem C94_ok_iff (k : Checks) (f : Files) :
    checkFiles k f = .ok () ↔
      (k.zred = true → f.zred = some true) ∧ (k.bkg = true → f.bkg = some true) ∧
      (k.bkgComponents = true → f.bkg = some true ∧ "CHISQBKG" ∈ f.bkgExts ∧ "ZREDBKG" ∈ f.bkgExts) ∧
      (k.par = true → f.par = some true) ∧ (k.zlambda = true → f.zlambda = some true) ∧ (k.rand = true → f.rand = some true) := by
  unfold checkFiles
  simp only [bind_ok, needFile_ok, needExts_ok]

theorem needFile_err (a : Bool) (f : Option Bool) (e : Err) (hs : a = true → f ≠ none) (h : needFile a f = .error e) : e = .valueError := by
  unfold needFile at h
  cases a
  · simp at h
  · rcases f with _ | _ | _
    · exact absurd rfl (hs rfl)
    · simp at h; exact h.symm
    · simp at h

/-- ... and otherwise raises ValueError, provided every requested name is set and the background components are only requested
together with the file (an unset name raises TypeError, a missing background file then OSError). -/
theorem C94_error (k : Checks) (f : Files) (e : Err) (h : checkFiles k f = .error e)
    (h1 : k.zred = true → f.zred ≠ none) (h2 : k.bkg = true → f.bkg ≠ none) (h3 : k.bkgComponents = true → k.bkg = true)
    (h4 : k.par = true → f.par ≠ none) (h5 : k.zlambda = true → f.zlambda ≠ none) (h6 : k.rand = true → f.rand ≠ none) :
    e = .valueError := by
  unfold checkFiles at h
  simp only [bind, Except.bind] at h
  cases e1 : needFile k.zred f.zred with
  | error x => rw [e1] at h; injection h with h; rw [← h]; exact needFile_err _ _ _ h1 e1
  | ok u1 =>
    simp only [e1] at h
    cases e2 : needFile k.bkg f.bkg with
    | error x => rw [e2] at h; injection h with h; rw [← h]; exact needFile_err _ _ _ h2 e2
    | ok u2 =>
      simp only [e2] at h
      cases e3 : needExts k.bkgComponents f.bkg f.bkgExts with
      | error x =>
        rw [e3] at h; injection h with h; rw [← h]
        unfold needExts at e3
        by_cases hk : k.bkgComponents = true
        · rw [if_pos hk] at e3
          have hb := (needFile_ok k.bkg f.bkg).mp e2 (h3 hk)
          simp only [hb] at e3
          by_cases hc : "CHISQBKG" ∉ f.bkgExts
          · rw [if_pos hc] at e3; injection e3 with e3; exact e3.symm
          · rw [if_neg hc] at e3
            by_cases hz : "ZREDBKG" ∉ f.bkgExts
            · rw [if_pos hz] at e3; injection e3 with e3; exact e3.symm
            · rw [if_neg hz] at e3; cases e3
        · rw [if_neg hk] at e3; cases e3
      | ok u3 =>
        simp only [e3] at h
        cases e4 : needFile k.par f.par with
        | error x => rw [e4] at h; injection h with h; rw [← h]; exact needFile_err _ _ _ h4 e4
        | ok u4 =>
          simp only [e4] at h
          cases e5 : needFile k.zlambda f.zlambda with
          | error x => rw [e5] at h; injection h with h; rw [← h]; exact needFile_err _ _ _ h5 e5
          | ok u5 =>
            simp only [e5] at h
            exact needFile_err _ _ _ h6 h

/-- The checks of a pixel run on a complete set of files, and with the zlambda file unset. -/
def pixChecks : Checks := ⟨true, true, true, true, true, false⟩
example : checkFiles pixChecks ⟨some true, some true, ["ZREDBKG", "CHISQBKG"], some true, some true, none⟩ = .ok () ∧
    checkFiles pixChecks ⟨some true, some true, ["ZREDBKG"], some true, some true, none⟩ = .error .valueError ∧
    checkFiles pixChecks ⟨some true, some true, ["ZREDBKG", "CHISQBKG"], some true, none, none⟩ = .error .typeError := by
  refine ⟨rfl, rfl, rfl⟩

/-! ## C95: the border of a pixel run -/

/-- The property as one would like it: the border holds three times the masking radius of every cluster up to richness 300 in the
redshift range.  `da` is the angular diameter distance, smallest at the lower end of the range. -/
def C95_spec : Prop :=
  ∀ (rmask0 beta gamma zpivot radPerDeg z0 : ℝ) (da : ℝ → ℝ), 0 < rmask0 → 0 ≤ beta → -1 < zpivot → 0 < radPerDeg → 0 ≤ z0 → 0 < da z0 →
    (∀ z, z0 ≤ z → da z0 ≤ da z) → ∀ lam z, 0 < lam → lam ≤ 300 → z0 ≤ z →
      3 * (rmask rmask0 beta gamma zpivot lam z / (radPerDeg * da z)) ≤ border rmask0 beta radPerDeg (da z0)

/-- **C95**: without a redshift dependence of the masking radius, three masking radii of every cluster up to richness 300 at any
redshift where the angular diameter distance is not below its value at the lower limit fit into the border, with 5% to spare.
(Missing: a redshift-dependent radius, which compute_border ignores, `C95_gamma_false`.) -/
theorem C95_border_partial (rmask0 beta zpivot radPerDeg da0 daz lam z : ℝ) (h0 : 0 < rmask0) (hb : 0 ≤ beta) (hr : 0 < radPerDeg)
    (hd : 0 < da0) (hda : da0 ≤ daz) (hl : 0 < lam) (hl3 : lam ≤ 300) :
    1.05 * (3 * (rmask rmask0 beta 0 zpivot lam z / (radPerDeg * daz))) ≤ border rmask0 beta radPerDeg da0 := by
  unfold rmask border
  rw [Real.rpow_zero, mul_one]
  have hp : (lam / 100) ^ beta ≤ (300 / 100 : ℝ) ^ beta := Real.rpow_le_rpow (by positivity) (by linarith) hb
  have hnum : rmask0 * (lam / 100) ^ beta ≤ rmask0 * (300 / 100 : ℝ) ^ beta := mul_le_mul_of_nonneg_left hp h0.le
  have hden : radPerDeg * da0 ≤ radPerDeg * daz := mul_le_mul_of_nonneg_left hda hr.le
  have hpos : 0 < radPerDeg * da0 := mul_pos hr hd
  have hq : rmask0 * (lam / 100) ^ beta / (radPerDeg * daz) ≤ rmask0 * (300 / 100 : ℝ) ^ beta / (radPerDeg * da0) :=
    div_le_div₀ (by positivity) hnum hpos hden
  have e : (1.05 * rmask0 * (300 / 100 : ℝ) ^ beta) / (radPerDeg * da0) = 1.05 * (rmask0 * (300 / 100 : ℝ) ^ beta / (radPerDeg * da0)) := by
    rw [mul_assoc, mul_div_assoc]
  rw [e]
  linarith

/-- **C95 is false** with a redshift-dependent masking radius. -/
theorem C95_gamma_false : ¬ C95_spec := by
  intro h
  have := h 1 0 1 0 1 1 (fun _ => 1) (by norm_num) (by norm_num) (by norm_num) (by norm_num) (by norm_num) (by norm_num)
    (fun _ _ => le_refl _) 300 1 (by norm_num) (by norm_num) (by norm_num)
  unfold rmask border at this
  norm_num at this

example : 1.05 * (3 * (rmask 1 0 0 0 20 (1/2) / (1 * 2))) ≤ border 1 0 1 1 :=
  C95_border_partial 1 0 0 1 1 2 20 (1/2) (by norm_num) (by norm_num) (by norm_num) (by norm_num) (by norm_num) (by norm_num) (by norm_num)

end Redmapper.Config
