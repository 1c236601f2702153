/-
Creating a maker of galaxy or random catalogs (C436, C437).
-/
import Verif.Model.MakerInit
import Mathlib.Tactic

namespace Redmapper.MakerInit

variable {ν : Type}

theorem lookups_ok (d : Dict ν) (ks : List String) (vs : List ν) :
    lookups d ks = .ok vs ↔ ks.map d = vs.map some := by
  induction ks generalizing vs with
  | nil => cases vs <;> simp [lookups]
  | cons k ks ih =>
    unfold lookups
    cases hk : d k with
    | none => cases vs <;> simp [hk]
    | some v =>
      cases hl : lookups d ks with
      | error e =>
        have hno : ∀ vs : List ν, ks.map d ≠ vs.map some := fun vs h => by
          have := (ih vs).mpr h; rw [hl] at this; cases this
        cases vs with
        | nil => simp
        | cons a t => simp only [List.map_cons, hk, List.cons.injEq, reduceCtorEq, false_iff, not_and]; exact fun _ => hno t
      | ok l =>
        cases vs with
        | nil => simp
        | cons a t =>
          have := ih t
          rw [hl] at this
          simp only [Except.ok.injEq, List.cons.injEq, List.map_cons, hk, Option.some.injEq] at this ⊢
          rw [this]

theorem lookups_error (d : Dict ν) (ks : List String) (e : Err) :
    lookups d ks = .error e ↔ ∃ pre k post, ks = pre ++ k :: post ∧ (∀ x ∈ pre, (d x).isSome = true) ∧ d k = none ∧
      e = .keyError k := by
  induction ks with
  | nil => simp [lookups]
  | cons k ks ih =>
    unfold lookups
    cases hk : d k with
    | none =>
      simp only [Except.error.injEq]
      constructor
      · intro h; exact ⟨[], k, ks, rfl, by simp, hk, h.symm⟩
      · rintro ⟨pre, k', post, h1, h2, h3, h4⟩
        cases pre with
        | nil => simp only [List.nil_append, List.cons.injEq] at h1; rw [h4, h1.1]
        | cons a t =>
          simp only [List.cons_append, List.cons.injEq] at h1
          have := h2 a (by simp)
          rw [← h1.1, hk] at this; cases this
    | some v =>
      have key : (∃ pre k' post, k :: ks = pre ++ k' :: post ∧ (∀ x ∈ pre, (d x).isSome = true) ∧ d k' = none ∧
          e = .keyError k') ↔ lookups d ks = .error e := by
        rw [ih]
        constructor
        · rintro ⟨pre, k', post, h1, h2, h3, h4⟩
          cases pre with
          | nil => simp only [List.nil_append, List.cons.injEq] at h1; rw [← h1.1, hk] at h3; cases h3
          | cons a t =>
            simp only [List.cons_append, List.cons.injEq] at h1
            exact ⟨t, k', post, h1.2, fun x hx => h2 x (by simp [hx]), h3, h4⟩
        · rintro ⟨pre, k', post, h1, h2, h3, h4⟩
          refine ⟨k :: pre, k', post, by rw [h1]; rfl, ?_, h3, h4⟩
          intro x hx
          rcases List.mem_cons.mp hx with rfl | hx
          · rw [hk]; rfl
          · exact h2 x hx
      rw [key]
      cases lookups d ks <;> simp

theorem takeWhile_all {β : Type} (p : β → Bool) (l : List β) : l.takeWhile p = l ↔ ∀ x ∈ l, p x = true := by
  induction l with
  | nil => simp
  | cons a t ih =>
    by_cases h : p a = true
    · rw [List.takeWhile_cons_of_pos h]; simp [ih, h]
    · rw [List.takeWhile_cons_of_neg h]; simp [h]

theorem basename_eq (f : List Char) : basename f = f ↔ '/' ∉ f := by
  unfold basename
  rw [List.reverse_eq_iff, takeWhile_all]
  constructor
  · intro h hm
    have := h '/' (List.mem_reverse.mpr hm)
    simp at this
  · intro h x hx
    simp only [bne_iff_ne, ne_eq]
    rintro rfl
    exact h (List.mem_reverse.mp hx)

theorem masterName_slash (o : List Char) : '/' ∈ masterName o ↔ '/' ∈ o := by
  unfold masterName
  rw [List.mem_append]
  constructor
  · rintro (h | h)
    · exact h
    · exact absurd h (by decide)
  · exact Or.inl

/-- **C436.** A maker is created exactly if the six required entries are given, the base name has a path and there is no
master table; it then holds the values given, and an optional value exactly if it was given. -/
theorem C436 (d : Dict ν) (outbase : List Char) (disk : Disk) (m : Maker ν) :
    (makeGal d outbase disk).2 = .ok m ↔
      (["LIM_REF", "REF_IND", "AREA", "NMAG", "MODE", "ZP"].map d = m.req.map some ∧
        m.opt = ["B", "U_IND", "G_IND", "R_IND", "I_IND", "Z_IND", "Y_IND"].map d ∧
        m.filename = outbase ++ "_master_table.fit".toList) ∧
      '/' ∈ outbase ∧ disk.files (outbase ++ "_master_table.fit".toList) = false := by
  unfold makeGal
  cases hl : lookups d required with
  | error e =>
    simp only [reduceCtorEq, false_iff]
    rintro ⟨⟨h, _⟩, _⟩
    have := (lookups_ok d required m.req).mpr h
    rw [hl] at this; cases this
  | ok vs =>
    have hv := (lookups_ok d required vs).mp hl
    have hreq : required.map d = m.req.map some ↔ m.req = vs := by
      rw [hv]
      exact ⟨fun h => (List.map_injective_iff.mpr (Option.some_injective ν) h).symm, fun h => by rw [h]⟩
    simp only
    by_cases hb : basename (masterName outbase) = masterName outbase
    · rw [if_pos hb]
      have := (basename_eq _).mp hb
      rw [masterName_slash] at this
      simp [this]
    · rw [if_neg hb]
      have hs : '/' ∈ outbase := by
        rw [basename_eq, masterName_slash, not_not] at hb; exact hb
      have hfiles : ∀ x, (if disk.dirs x = true then disk else
          { disk with dirs := fun q => if q = x then true else disk.dirs q } : Disk).files = disk.files := by
        intro x; split_ifs <;> rfl
      rw [hfiles]
      by_cases hf : disk.files (masterName outbase) = true
      · rw [if_pos hf]
        have hf' : disk.files (outbase ++ "_master_table.fit".toList) = true := hf
        rw [hf']
        simp only [reduceCtorEq, Bool.true_eq_false, and_false]
      · rw [if_neg hf]
        have hf' : disk.files (outbase ++ "_master_table.fit".toList) = false := by simpa [masterName] using hf
        simp only [Except.ok.injEq, hs, hf', and_true]
        constructor
        · rintro rfl
          exact ⟨hv, rfl, rfl⟩
        · rintro ⟨h1, h2, h3⟩
          have := hreq.mp h1
          cases m
          simp_all [optional, masterName]

/-- **C436**, errors: a missing entry is reported by the name of the first that is missing; without a path, or with a
missing entry, nothing is created; in no case is a file created or removed, nor any directory but that of the catalog. -/
theorem C436_errors (d : Dict ν) (outbase : List Char) (disk : Disk) :
    (∀ k, (makeGal d outbase disk).2 = .error (.keyError k) ↔
      ∃ pre post, ["LIM_REF", "REF_IND", "AREA", "NMAG", "MODE", "ZP"] = pre ++ k :: post ∧
        (∀ x ∈ pre, (d x).isSome = true) ∧ d k = none) ∧
    ((∃ k ∈ ["LIM_REF", "REF_IND", "AREA", "NMAG", "MODE", "ZP"], d k = none) ∨ '/' ∉ outbase →
      (makeGal d outbase disk).1 = disk) ∧
    (makeGal d outbase disk).1.files = disk.files ∧
    ∀ q, (makeGal d outbase disk).1.dirs q = true ↔ disk.dirs q = true ∨
      ((makeGal d outbase disk).1.dirs ≠ disk.dirs ∧ q = dirname (outbase ++ "_master_table.fit".toList)) := by
  unfold makeGal
  cases hl : lookups d required with
  | error e =>
    simp only
    refine ⟨fun k => ?_, by intros; trivial, trivial, fun q => by simp⟩
    have h := (lookups_error d required (.keyError k))
    rw [hl] at h
    simp only [Except.error.injEq] at h ⊢
    rw [h]
    constructor
    · rintro ⟨pre, k', post, h1, h2, h3, h4⟩
      cases h4; exact ⟨pre, post, h1, h2, h3⟩
    · rintro ⟨pre, post, h1, h2, h3⟩
      exact ⟨pre, k, post, h1, h2, h3, rfl⟩
  | ok vs =>
    have hv := (lookups_ok d required vs).mp hl
    have hall : ∀ k ∈ required, d k ≠ none := by
      intro k hk h0
      have : d k ∈ vs.map some := by rw [← hv]; exact List.mem_map_of_mem hk
      rw [h0] at this; simp at this
    simp only
    refine ⟨fun k => ?_, ?_, ?_, ?_⟩
    · constructor
      · intro h
        split_ifs at h <;> simp at h
      · rintro ⟨pre, post, h1, _, h3⟩
        exact absurd h3 (hall k (by unfold required; rw [h1]; simp))
    · rintro (⟨k, hk, h0⟩ | h)
      · exact absurd h0 (hall k hk)
      · rw [if_pos ((basename_eq _).mpr (by rw [masterName_slash]; exact h))]
    · split_ifs <;> rfl
    · intro q
      by_cases hb : basename (masterName outbase) = masterName outbase
      · rw [if_pos hb]; simp
      rw [if_neg hb]
      by_cases hd : disk.dirs (dirname (masterName outbase)) = true
      · simp only [hd, if_true]
        split_ifs <;> simp
      · simp only [hd]
        have hne : (fun q => if q = dirname (masterName outbase) then true else disk.dirs q) ≠ disk.dirs := by
          intro h
          have := congrFun h (dirname (masterName outbase))
          simp at this
          exact hd this
        have hfin : (if q = dirname (masterName outbase) then true else disk.dirs q) = true ↔
            disk.dirs q = true ∨ q = dirname (outbase ++ "_master_table.fit".toList) := by
          by_cases hq : q = dirname (masterName outbase)
          · simp [hq, masterName]
          · rw [if_neg hq]
            have : q ≠ dirname (outbase ++ "_master_table.fit".toList) := hq
            exact ⟨Or.inl, fun h => h.resolve_right this⟩
        split_ifs <;> simp_all

theorem fill_apply (zero noMode : ν) (d : Dict ν) (k : String) :
    fill zero noMode d k = match d k with
      | some v => some v
      | none => if k = "MODE" then some noMode
          else if k ∈ ["LIM_REF", "REF_IND", "AREA", "NMAG", "ZP"] then some zero else none := by
  have had : ∀ (d : Dict ν) (k' : String) (v : ν) (q : String),
      addDefault d k' v q = match d q with | some x => some x | none => if q = k' then some v else none := by
    intro d k' v q
    unfold addDefault
    cases hk : d k' with
    | none =>
      simp only [Option.isSome_none, Bool.false_eq_true, if_false]
      by_cases hq : q = k'
      · subst hq; rw [hk]
      · simp only [if_neg hq]; cases d q <;> rfl
    | some x =>
      simp only [Option.isSome_some, if_true]
      by_cases hq : q = k'
      · subst hq; rw [hk]
      · simp only [if_neg hq]; cases d q <;> rfl
  unfold fill
  simp only [had]
  cases d k with
  | some v => rfl
  | none =>
    by_cases h1 : k = "LIM_REF"
    · subst h1; simp
    by_cases h2 : k = "REF_IND"
    · subst h2; simp
    by_cases h3 : k = "AREA"
    · subst h3; simp
    by_cases h4 : k = "NMAG"
    · subst h4; simp
    by_cases h5 : k = "MODE"
    · subst h5; simp
    by_cases h6 : k = "ZP"
    · subst h6; simp
    simp [h1, h2, h3, h4, h5, h6]

/-- **C437**, values: a maker of random catalogs needs no entries; it is created exactly if the base name has a path and
there is no master table, with the values given and zero (or no mode) for those that are not. -/
theorem C437_values (zero noMode : ν) (d : Dict ν) (outbase : List Char) (disk : Disk) (m : Maker ν) :
    (makeRand zero noMode d outbase disk).2.2 = .ok m ↔
      (m.req = [(d "LIM_REF").getD zero, (d "REF_IND").getD zero, (d "AREA").getD zero, (d "NMAG").getD zero,
          (d "MODE").getD noMode, (d "ZP").getD zero] ∧
        m.opt = ["B", "U_IND", "G_IND", "R_IND", "I_IND", "Z_IND", "Y_IND"].map d ∧
        m.filename = outbase ++ "_master_table.fit".toList) ∧
      '/' ∈ outbase ∧ disk.files (outbase ++ "_master_table.fit".toList) = false := by
  unfold makeRand
  rw [C436]
  have hreq : ["LIM_REF", "REF_IND", "AREA", "NMAG", "MODE", "ZP"].map (fill zero noMode d) =
      [(d "LIM_REF").getD zero, (d "REF_IND").getD zero, (d "AREA").getD zero, (d "NMAG").getD zero,
          (d "MODE").getD noMode, (d "ZP").getD zero].map some := by
    simp only [List.map_cons, List.map_nil, fill_apply]
    cases d "LIM_REF" <;> cases d "REF_IND" <;> cases d "AREA" <;> cases d "NMAG" <;> cases d "MODE" <;> cases d "ZP" <;>
      simp
  have hopt : ["B", "U_IND", "G_IND", "R_IND", "I_IND", "Z_IND", "Y_IND"].map (fill zero noMode d) =
      ["B", "U_IND", "G_IND", "R_IND", "I_IND", "Z_IND", "Y_IND"].map d := by
    apply List.map_congr_left
    intro k hk
    rw [fill_apply]
    cases d k with
    | some v => rfl
    | none =>
      simp only [List.mem_cons, List.not_mem_nil, or_false] at hk
      rcases hk with rfl | rfl | rfl | rfl | rfl | rfl | rfl <;> simp
  rw [hreq, hopt]
  have : ∀ l : List ν, l.map some = m.req.map some ↔ m.req = l := fun l =>
    ⟨fun h => (List.map_injective_iff.mpr (Option.some_injective ν) h).symm, fun h => by rw [h]⟩
  rw [this]

/-- **C437**, what remains of it: the entries that the caller gave keep their values, and nothing is added but the six
that are required. -/
theorem C437_partial (zero noMode : ν) (d : Dict ν) (outbase : List Char) (disk : Disk) :
    (∀ k v, d k = some v → (makeRand zero noMode d outbase disk).1 k = some v) ∧
    (∀ k, k ∉ ["LIM_REF", "REF_IND", "AREA", "NMAG", "MODE", "ZP"] →
      (makeRand zero noMode d outbase disk).1 k = d k) ∧
    ((∀ k ∈ ["LIM_REF", "REF_IND", "AREA", "NMAG", "MODE", "ZP"], (d k).isSome = true) →
      (makeRand zero noMode d outbase disk).1 = d) := by
  refine ⟨fun k v h => by show fill zero noMode d k = _; rw [fill_apply, h], fun k hk => ?_, fun h => ?_⟩
  · show fill zero noMode d k = _
    rw [fill_apply]
    simp only [List.mem_cons, List.not_mem_nil, or_false, not_or] at hk
    cases d k with
    | some v => rfl
    | none => simp [hk]
  · funext k
    show fill zero noMode d k = _
    rw [fill_apply]
    cases hk : d k with
    | some v => rfl
    | none =>
      have hno : k ∉ ["LIM_REF", "REF_IND", "AREA", "NMAG", "MODE", "ZP"] := fun hm => by
        have := h k hm; rw [hk] at this; cases this
      simp only [List.mem_cons, List.not_mem_nil, or_false, not_or] at hno
      simp [hno]

/-- **C437** is false: the dictionary of the caller is changed, for every dictionary without one of the entries, and a
maker of galaxy catalogs that refused the dictionary before accepts it afterwards. -/
theorem C437_false (zero noMode : ν) (d : Dict ν) (outbase outbase' : List Char) (disk disk' : Disk)
    (k : String) (hk : k ∈ ["LIM_REF", "REF_IND", "AREA", "NMAG", "MODE", "ZP"]) (h : d k = none)
    (hs : '/' ∈ outbase') (hf : disk'.files (outbase' ++ "_master_table.fit".toList) = false) :
    (makeRand zero noMode d outbase disk).1 ≠ d ∧
    (∃ k', (makeGal d outbase' disk').2 = .error (.keyError k')) ∧
    ∃ m, (makeGal (makeRand zero noMode d outbase disk).1 outbase' disk').2 = .ok m := by
  refine ⟨?_, ?_, ?_⟩
  · intro he
    have h1 := congrFun he k
    rw [h] at h1
    unfold makeRand at h1
    simp only [fill_apply, h] at h1
    simp only [List.mem_cons, List.not_mem_nil, or_false] at hk
    rcases hk with rfl | rfl | rfl | rfl | rfl | rfl <;> simp at h1
  · unfold makeGal
    cases hl : lookups d required with
    | error e =>
      obtain ⟨_, k', _, _, _, _, he⟩ := (lookups_error d required e).mp hl
      exact ⟨k', by rw [he]⟩
    | ok vs =>
      have hv := (lookups_ok d required vs).mp hl
      have : d k ∈ vs.map some := by rw [← hv]; exact List.mem_map_of_mem hk
      rw [h] at this; simp at this
  · exact ⟨_, (C437_values zero noMode d outbase' disk' ⟨_, _, _⟩).mpr ⟨⟨rfl, rfl, rfl⟩, hs, hf⟩⟩

/-- A dictionary with all entries but the zeropoint. -/
def exDict : Dict Nat := fun k => if k ∈ ["LIM_REF", "REF_IND", "AREA", "NMAG", "MODE", "G_IND"] then some 7 else none

def exDisk : Disk := { dirs := fun _ => false, files := fun _ => false }

example : exDict "ZP" = none ∧ '/' ∈ "out/gals".toList ∧
    exDisk.files ("out/gals".toList ++ "_master_table.fit".toList) = false ∧
    dirname ("out/gals".toList ++ "_master_table.fit".toList) = "out".toList := by decide

end Redmapper.MakerInit
