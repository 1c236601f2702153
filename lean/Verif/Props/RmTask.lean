/-
C322-C325: files and errors of the task that makes the redMaGiC catalogs and their random points.
-/
import Verif.Model.RmTask
import Verif.Props.RandOut

set_option linter.unusedSectionVars false

namespace Redmapper.RmTask

open Redmapper.CatTask (fileName)
open Redmapper.RandOut (fileName_inj)

variable {R : Type}

theorem put_self (d : Files R) (n : List Char) (c : Content R) : d.put n c n = some c := by simp [Files.put]

theorem put_ne (d : Files R) (n m : List Char) (c : Content R) (h : m ≠ n) : d.put n c m = d m := by simp [Files.put, h]

theorem catFile_inj (o v a b : List Char) (h : catFile o v a = catFile o v b) : a = b := by
  unfold catFile at h
  rw [fileName_inj] at h
  exact List.append_cancel_left h

theorem randFile_inj (o v a b : List Char) (h : randFile o v a = randFile o v b) : a = b := by
  unfold randFile at h
  rw [fileName_inj, List.append_assoc, List.append_assoc] at h
  exact List.append_cancel_right (List.append_cancel_left h)

/-- The random points of a mode share their file with a catalog only if the mode of this catalog has the name of the other with the ending of
random points. -/
theorem cat_rand (o v a b : List Char) : catFile o v a = randFile o v b ↔ a = b ++ "_randoms".toList := by
  unfold catFile randFile
  rw [fileName_inj, List.append_assoc]
  exact List.append_right_inj _

/-! ## The catalogs -/

theorem writeRows_ne (d : Files R) (first : Bool) (n : List Char) (r : List R) (f : List Char) (hf : f ≠ n) : writeRows d first n r f = d f := by
  unfold writeRows
  cases first
  · simp only [Bool.false_eq_true, if_false]
    rcases d n with _ | (l | k | _)
    · rfl
    · exact put_ne _ _ _ _ hf
    · rfl
    · rfl
  · simp only [if_true]; exact put_ne _ _ _ _ hf

theorem pixelStep_ok (I : Input R) (first : Bool) (sel : List Char → List R) (ms : List (List Char)) (hk : ∀ m ∈ ms, I.known m = true) (hn : ms.Nodup)
    (d : Files R) : (pixelStep I first sel ms d).2 = none ∧
    (∀ m ∈ ms, (first = true → (pixelStep I first sel ms d).1 (catFile I.outbase I.version m) = some (.cat (sel m))) ∧
      (first = false → ∀ l, d (catFile I.outbase I.version m) = some (.cat l) →
        (pixelStep I first sel ms d).1 (catFile I.outbase I.version m) = some (.cat (l ++ sel m)))) ∧
    ∀ f, (∀ m ∈ ms, f ≠ catFile I.outbase I.version m) → (pixelStep I first sel ms d).1 f = d f := by
  induction ms generalizing d with
  | nil => simp [pixelStep]
  | cons m ms ih =>
    have hkm := hk m (by simp)
    obtain ⟨hnm, hns⟩ := List.nodup_cons.mp hn
    simp only [pixelStep, hkm, if_true]
    set d' : Files R := writeRows d first (catFile I.outbase I.version m) (sel m) with hd'
    have hother : ∀ f, f ≠ catFile I.outbase I.version m → d' f = d f := by
      intro f hf
      exact writeRows_ne d first _ _ f hf
    obtain ⟨e1, e2, e3⟩ := ih (fun x hx => hk x (by simp [hx])) hns d'
    refine ⟨e1, ?_, ?_⟩
    · intro x hx
      rcases List.mem_cons.mp hx with rfl | hx
      · have hkeep := e3 (catFile I.outbase I.version x) fun y hy h => hnm (by rw [catFile_inj _ _ _ _ h]; exact hy)
        refine ⟨?_, ?_⟩
        · intro hf; rw [hkeep, hd', hf]; simp [writeRows, put_self]
        · intro hf l hl; rw [hkeep, hd', hf]; simp [writeRows, hl, put_self]
      · have hne : catFile I.outbase I.version x ≠ catFile I.outbase I.version m := fun h => hnm (by rw [← catFile_inj _ _ _ _ h]; exact hx)
        refine ⟨(e2 x hx).1, ?_⟩
        intro hf l hl
        exact (e2 x hx).2 hf l (by rw [hother _ hne]; exact hl)
    · intro f hf
      rw [e3 f fun y hy => hf y (by simp [hy]), hother f (hf m (by simp))]

/-- The catalog of a mode over pixels. -/
def whole (pixels : List (List Char → List R)) (m : List Char) : List R := pixels.flatMap fun sel => sel m

theorem catalogs_append (I : Input R) (hk : ∀ m ∈ I.modes, I.known m = true) (hn : I.modes.Nodup) (ps : List (List Char → List R)) (d : Files R)
    (ls : List Char → List R) (hd : ∀ m ∈ I.modes, d (catFile I.outbase I.version m) = some (.cat (ls m))) :
    (catalogs I false ps d).2 = none ∧ (∀ m ∈ I.modes, (catalogs I false ps d).1 (catFile I.outbase I.version m) = some (.cat (ls m ++ whole ps m))) ∧
    ∀ f, (∀ m ∈ I.modes, f ≠ catFile I.outbase I.version m) → (catalogs I false ps d).1 f = d f := by
  induction ps generalizing d ls with
  | nil => exact ⟨rfl, fun m hm => by simpa [catalogs, whole] using hd m hm, fun f _ => rfl⟩
  | cons sel ps ih =>
    obtain ⟨e1, e2, e3⟩ := pixelStep_ok I false sel I.modes hk hn d
    have hc : catalogs I false (sel :: ps) d = catalogs I false ps (pixelStep I false sel I.modes d).1 := by
      rw [catalogs]
      cases h : pixelStep I false sel I.modes d with
      | mk a b => rw [h] at e1; simp only at e1; subst e1; rfl
    rw [hc]
    obtain ⟨g1, g2, g3⟩ := ih (pixelStep I false sel I.modes d).1 (fun m => ls m ++ sel m) fun m hm => (e2 m hm).2 rfl _ (hd m hm)
    refine ⟨g1, ?_, ?_⟩
    · intro m hm; rw [g2 m hm]; simp [whole]
    · intro f hf; rw [g3 f hf, e3 f hf]

theorem catalogs_ok (I : Input R) (hk : ∀ m ∈ I.modes, I.known m = true) (hn : I.modes.Nodup) (hp : I.pixels ≠ []) (d : Files R) :
    (catalogs I true I.pixels d).2 = none ∧ (∀ m ∈ I.modes, (catalogs I true I.pixels d).1 (catFile I.outbase I.version m) = some (.cat (whole I.pixels m))) ∧
    ∀ f, (∀ m ∈ I.modes, f ≠ catFile I.outbase I.version m) → (catalogs I true I.pixels d).1 f = d f := by
  cases hps : I.pixels with
  | nil => exact absurd hps hp
  | cons sel ps =>
    obtain ⟨e1, e2, e3⟩ := pixelStep_ok I true sel I.modes hk hn d
    have hc : catalogs I true (sel :: ps) d = catalogs I false ps (pixelStep I true sel I.modes d).1 := by
      rw [catalogs]
      cases h : pixelStep I true sel I.modes d with
      | mk a b => rw [h] at e1; simp only at e1; subst e1; rfl
    rw [hc]
    obtain ⟨g1, g2, g3⟩ := catalogs_append I hk hn ps (pixelStep I true sel I.modes d).1 sel fun m hm => (e2 m hm).1 rfl
    refine ⟨g1, ?_, ?_⟩
    · intro m hm; rw [g2 m hm]; simp [whole]
    · intro f hf; rw [g3 f hf, e3 f hf]

/-! ## The random points -/

/-- No mode has the name of another with the ending of random points. -/
def Apart (modes : List (List Char)) : Prop := ∀ a ∈ modes, ∀ b ∈ modes, a ≠ b ++ "_randoms".toList

/-- Random points can be made for a mode. -/
def CanMake (I : Input R) (d : Files R) (m : List Char) : Prop :=
  (I.clobber = true ∨ d (randFile I.outbase I.version m) = none) ∧ (I.nRandoms.getD ((whole I.pixels m).length * 10) = 0 ∨ whole I.pixels m ≠ [])

theorem randoms_ok (I : Input R) (all : List (List Char)) (ha : Apart all) (ms : List (List Char)) (hsub : ∀ m ∈ ms, m ∈ all) (hn : ms.Nodup) (d : Files R)
    (hd : ∀ m ∈ all, d (catFile I.outbase I.version m) = some (.cat (whole I.pixels m))) (hcan : ∀ m ∈ ms, I.fixed m = false → CanMake I d m) :
    (randoms I ms d).2 = none ∧
    (∀ m ∈ ms, I.fixed m = false → (randoms I ms d).1 (randFile I.outbase I.version m) = some (.rands (I.nRandoms.getD ((whole I.pixels m).length * 10)))) ∧
    ∀ f, (∀ m ∈ ms, I.fixed m = false → f ≠ randFile I.outbase I.version m) → (randoms I ms d).1 f = d f := by
  induction ms generalizing d with
  | nil => simp [randoms]
  | cons m ms ih =>
    obtain ⟨hnm, hns⟩ := List.nodup_cons.mp hn
    have hsub' : ∀ x ∈ ms, x ∈ all := fun x hx => hsub x (by simp [hx])
    cases hf : I.fixed m with
    | true =>
      simp only [randoms, hf, if_true]
      obtain ⟨e1, e2, e3⟩ := ih hsub' hns d hd fun x hx => hcan x (by simp [hx])
      refine ⟨e1, ?_, ?_⟩
      · intro x hx hxf
        rcases List.mem_cons.mp hx with rfl | hx
        · rw [hf] at hxf; cases hxf
        · exact e2 x hx hxf
      · intro f hff; exact e3 f fun x hx => hff x (by simp [hx])
    | false =>
      obtain ⟨c1, c2⟩ := hcan m (by simp) hf
      have hx1 : (!I.clobber && (d (randFile I.outbase I.version m)).isSome) = false := by
        rcases c1 with h | h
        · simp [h]
        · simp [h]
      have hx2 : ¬ (I.nRandoms.getD ((whole I.pixels m).length * 10) ≠ 0 ∧ whole I.pixels m = []) := by
        rintro ⟨h1, h2⟩
        rcases c2 with h | h
        · exact h1 h
        · exact h h2
      have hstep : randoms I (m :: ms) d = randoms I ms (d.put (randFile I.outbase I.version m)
          (.rands (I.nRandoms.getD ((whole I.pixels m).length * 10)))) := by
        rw [randoms, if_neg (by rw [hf]; simp), hd m (hsub m (by simp))]
        simp only [hx1, Bool.false_eq_true, if_false, if_neg hx2]
      rw [hstep]
      set d' := d.put (randFile I.outbase I.version m) (.rands (I.nRandoms.getD ((whole I.pixels m).length * 10))) with hd'
      obtain ⟨e1, e2, e3⟩ := ih hsub' hns d' (by
        intro x hx
        rw [hd', put_ne _ _ _ _ fun h => ha x hx m (hsub m (by simp)) ((cat_rand _ _ _ _).mp h)]
        exact hd x hx) (by
        intro x hx hxf
        obtain ⟨k1, k2⟩ := hcan x (by simp [hx]) hxf
        refine ⟨?_, k2⟩
        rw [hd', put_ne _ _ _ _ fun h => hnm (by rw [← randFile_inj _ _ _ _ h]; exact hx)]
        exact k1)
      refine ⟨e1, ?_, ?_⟩
      · intro x hx hxf
        rcases List.mem_cons.mp hx with rfl | hx
        · rw [e3 _ fun y hy _ h => hnm (by rw [randFile_inj _ _ _ _ h]; exact hy), hd', put_self]
        · exact e2 x hx hxf
      · intro f hff
        rw [e3 f fun x hx => hff x (by simp [hx]), hd', put_ne _ _ _ _ (hff m (by simp) hf)]

/-! ## C322: what a finished run leaves -/

/-- C322, the full statement: a run that ends well leaves the catalog of each mode, and random points for each mode with a mask of its own: as many as
asked for, ten times the galaxies without a number, none for zero; and no other file is changed. -/
def C322_spec (R : Type) : Prop := ∀ (I : Input R) (d : Files R), I.pixels ≠ [] → I.modes.Nodup → (run I d).2.1 = none →
  (∀ m ∈ I.modes, (run I d).1 (catFile I.outbase I.version m) = some (.cat (whole I.pixels m))) ∧
  (I.nRandoms ≠ some 0 → ∀ m ∈ I.modes, I.fixed m = false →
    (run I d).1 (randFile I.outbase I.version m) = some (.rands (I.nRandoms.getD ((whole I.pixels m).length * 10)))) ∧
  ∀ f, (∀ m ∈ I.modes, f ≠ catFile I.outbase I.version m) → (I.nRandoms = some 0 ∨ ∀ m ∈ I.modes, I.fixed m = false → f ≠ randFile I.outbase I.version m) →
    (run I d).1 f = d f

theorem pixelStep_known (I : Input R) (first : Bool) (sel : List Char → List R) (ms : List (List Char)) (d : Files R)
    (h : (pixelStep I first sel ms d).2 = none) : ∀ m ∈ ms, I.known m = true := by
  induction ms generalizing d with
  | nil => simp
  | cons m ms ih =>
    simp only [pixelStep] at h
    by_cases hk : I.known m = true
    · rw [if_pos hk] at h
      intro x hx
      rcases List.mem_cons.mp hx with rfl | hx
      · exact hk
      · exact ih _ h x hx
    · rw [if_neg hk] at h; simp at h

theorem randoms_made (I : Input R) (all : List (List Char)) (ha : Apart all) (ms : List (List Char)) (hsub : ∀ m ∈ ms, m ∈ all) (hn : ms.Nodup) (d : Files R)
    (hd : ∀ m ∈ all, d (catFile I.outbase I.version m) = some (.cat (whole I.pixels m))) (h : (randoms I ms d).2 = none) :
    ∀ m ∈ ms, I.fixed m = false → CanMake I d m := by
  induction ms generalizing d with
  | nil => simp
  | cons m ms ih =>
    obtain ⟨hnm, hns⟩ := List.nodup_cons.mp hn
    have hsub' : ∀ x ∈ ms, x ∈ all := fun x hx => hsub x (by simp [hx])
    cases hf : I.fixed m with
    | true =>
      simp only [randoms, hf, if_true] at h
      intro x hx hxf
      rcases List.mem_cons.mp hx with rfl | hx
      · rw [hf] at hxf; cases hxf
      · exact ih hsub' hns d hd h x hx hxf
    | false =>
      rw [randoms, if_neg (by rw [hf]; simp), hd m (hsub m (by simp))] at h
      simp only at h
      by_cases h1 : (!I.clobber && (d (randFile I.outbase I.version m)).isSome) = true
      · rw [if_pos h1] at h; simp at h
      rw [if_neg h1] at h
      by_cases h2 : I.nRandoms.getD ((whole I.pixels m).length * 10) ≠ 0 ∧ whole I.pixels m = []
      · rw [if_pos h2] at h; simp at h
      rw [if_neg h2] at h
      intro x hx hxf
      rcases List.mem_cons.mp hx with rfl | hx
      · refine ⟨?_, ?_⟩
        · cases hc : I.clobber
          · right
            cases hr : d (randFile I.outbase I.version x) with
            | none => rfl
            | some c => rw [hc, hr] at h1; simp at h1
          · left; rfl
        · by_cases h0 : I.nRandoms.getD ((whole I.pixels x).length * 10) = 0
          · exact Or.inl h0
          · exact Or.inr fun e => h2 ⟨h0, e⟩
      · have hr := ih hsub' hns _ (by
          intro y hy
          rw [put_ne _ _ _ _ fun h => ha y hy m (hsub m (by simp)) ((cat_rand _ _ _ _).mp h)]
          exact hd y hy) h x hx hxf
        obtain ⟨k1, k2⟩ := hr
        refine ⟨?_, k2⟩
        rw [put_ne _ _ _ _ fun h => hnm (by rw [← randFile_inj _ _ _ _ h]; exact hx)] at k1
        exact k1

/-- C322.  It is so if no mode has the name of another with the ending of random points. -/
theorem C322_partial (I : Input R) (d : Files R) (hp : I.pixels ≠ []) (hn : I.modes.Nodup) (ha : Apart I.modes) (hok : (run I d).2.1 = none) :
    (∀ m ∈ I.modes, (run I d).1 (catFile I.outbase I.version m) = some (.cat (whole I.pixels m))) ∧
    (I.nRandoms ≠ some 0 → ∀ m ∈ I.modes, I.fixed m = false →
      (run I d).1 (randFile I.outbase I.version m) = some (.rands (I.nRandoms.getD ((whole I.pixels m).length * 10)))) ∧
    ∀ f, (∀ m ∈ I.modes, f ≠ catFile I.outbase I.version m) → (I.nRandoms = some 0 ∨ ∀ m ∈ I.modes, I.fixed m = false → f ≠ randFile I.outbase I.version m) →
      (run I d).1 f = d f := by
  unfold run at hok ⊢
  cases h1 : I.pixelized with
  | false => rw [h1] at hok; simp at hok
  | true =>
    rw [h1] at hok
    simp only [Bool.not_true, Bool.false_eq_true, if_false] at hok ⊢
    by_cases h2 : (!I.clobber && I.modes.any (fun m => (d (catFile I.outbase I.version m)).isSome)) = true
    · rw [if_pos h2] at hok; simp at hok
    rw [if_neg h2] at hok ⊢
    have hk : ∀ m ∈ I.modes, I.known m = true := by
      cases hps : I.pixels with
      | nil => exact absurd hps hp
      | cons sel ps =>
        rw [hps, catalogs] at hok
        cases hq : pixelStep I true sel I.modes d with
        | mk a b =>
          cases b with
          | none => exact pixelStep_known I true sel I.modes d (by rw [hq])
          | some e => rw [hq] at hok; simp at hok
    obtain ⟨e1, e2, e3⟩ := catalogs_ok I hk hn hp d
    cases hc : catalogs I true I.pixels d with
    | mk d1 b =>
      rw [hc] at e1 e2 e3 hok
      simp only at e1 e2 e3
      subst e1
      simp only at hok ⊢
      by_cases h0 : I.nRandoms = some 0
      · rw [if_pos h0]
        exact ⟨e2, fun h => absurd h0 h, fun f hf _ => e3 f hf⟩
      · rw [if_neg h0] at hok ⊢
        cases hr : randoms I I.modes d1 with
        | mk d2 b2 =>
          rw [hr] at hok
          cases b2 with
          | some e => simp at hok
          | none =>
            simp only
            have hmade := randoms_made I I.modes ha I.modes (fun _ h => h) hn d1 e2 (by rw [hr])
            obtain ⟨g1, g2, g3⟩ := randoms_ok I I.modes ha I.modes (fun _ h => h) hn d1 e2 hmade
            rw [hr] at g1 g2 g3
            simp only at g2 g3
            refine ⟨?_, fun _ => g2, ?_⟩
            · intro m hm
              rw [g3 _ fun x hx _ h => ha m hm x hx ((cat_rand _ _ _ _).mp h)]
              exact e2 m hm
            · intro f hf hrf
              rw [g3 f (hrf.resolve_left h0), e3 f hf]

/-- Two modes whose files collide. -/
def collide : Input Nat := ⟨['o'], ['1'], true, ["a_randoms".toList, "a".toList], fun _ => true, fun m => decide (m = "a_randoms".toList), true, none,
  [fun _ => [5, 6]]⟩

/-- C322.  Otherwise the random points of one mode replace the catalog of another. -/
theorem C322_false : ¬ C322_spec Nat := by
  intro h
  have h1 := (h collide (fun _ => none) (by simp [collide]) (by decide +kernel) (by decide +kernel)).1 "a_randoms".toList (by simp [collide])
  revert h1
  decide +kernel

/-! ## C323: a run that is refused -/

/-- C323, the full statement: a run that raises an error has not changed any file. -/
def C323_spec (R : Type) : Prop := ∀ (I : Input R) (d : Files R), I.pixels ≠ [] → I.modes.Nodup → (run I d).2.1 ≠ none → (run I d).1 = d

/-- C323.  It has not if the galaxies are not in pixels, or if a catalog exists that is not to be overwritten: then there is an error in any case. -/
theorem C323_partial (I : Input R) (d : Files R) (h : I.pixelized = false ∨ (I.clobber = false ∧ ∃ m ∈ I.modes, d (catFile I.outbase I.version m) ≠ none)) :
    (run I d).1 = d ∧ ((run I d).2.1 = some .valueError ∨ (run I d).2.1 = some .runtimeError) := by
  unfold run
  cases h1 : I.pixelized with
  | false => exact ⟨by simp, by simp⟩
  | true =>
    rcases h with h | ⟨hc, m, hm, he⟩
    · rw [h1] at h; cases h
    · have : (!I.clobber && I.modes.any (fun m => (d (catFile I.outbase I.version m)).isSome)) = true := by
        rw [hc]; simp only [Bool.not_false, Bool.true_and, List.any_eq_true]
        exact ⟨m, hm, Option.isSome_iff_ne_none.mpr he⟩
      rw [this]; exact ⟨by simp, by simp⟩

/-- C323.  Otherwise a run with known modes and without random points to be made for an empty catalog ends with an error only if random points exist
that are not to be overwritten. -/
theorem C323_succeeds (I : Input R) (d : Files R) (hp : I.pixels ≠ []) (hn : I.modes.Nodup) (ha : Apart I.modes) (h1 : I.pixelized = true)
    (h2 : I.clobber = true ∨ ∀ m ∈ I.modes, d (catFile I.outbase I.version m) = none) (hk : ∀ m ∈ I.modes, I.known m = true)
    (hcan : I.nRandoms = some 0 ∨ ∀ m ∈ I.modes, I.fixed m = false → CanMake I d m) : (run I d).2.1 = none := by
  unfold run
  have hx : (!I.clobber && I.modes.any (fun m => (d (catFile I.outbase I.version m)).isSome)) = false := by
    rcases h2 with h | h
    · simp [h]
    · rw [Bool.and_eq_false_iff]; right
      rw [List.any_eq_false]; intro m hm; rw [h m hm]; simp
  rw [h1, hx]
  simp only [Bool.not_true, Bool.false_eq_true, if_false]
  obtain ⟨e1, e2, e3⟩ := catalogs_ok I hk hn hp d
  cases hc : catalogs I true I.pixels d with
  | mk d1 b =>
    rw [hc] at e1 e2 e3
    simp only at e1 e2 e3
    subst e1
    simp only
    by_cases h0 : I.nRandoms = some 0
    · rw [if_pos h0]
    · rw [if_neg h0]
      have hcan' : ∀ m ∈ I.modes, I.fixed m = false → CanMake I d1 m := by
        intro m hm hf
        obtain ⟨k1, k2⟩ := hcan.resolve_left h0 m hm hf
        refine ⟨?_, k2⟩
        rw [e3 _ fun x hx h => ha x hx m hm ((cat_rand _ _ _ _).mp h.symm)]
        exact k1
      obtain ⟨g1, _, _⟩ := randoms_ok I I.modes ha I.modes (fun _ h => h) hn d1 e2 hcan'
      cases hr : randoms I I.modes d1 with
      | mk d2 b2 => rw [hr] at g1; simp only at g1; subst g1; rfl

/-- One mode, nothing to be overwritten, five galaxies in two pixels. -/
def exIn : Input Nat := ⟨['o'], ['1'], true, ["a".toList], fun m => decide (m = "a".toList), fun _ => false, false, none, [fun _ => [5, 6], fun _ => [7, 8, 9]]⟩

/-- C323.  False: existing random points are noticed only when the catalog has been written. -/
theorem C323_late : let d : Files Nat := fun f => if f = randFile ['o'] ['1'] "a".toList then some .other else none
    (run exIn d).2.1 = some .runtimeError ∧ (run exIn d).1 (catFile ['o'] ['1'] "a".toList) = some (.cat [5, 6, 7, 8, 9]) := by
  decide +kernel

/-- C323.  So is a mode that does not exist: after the first pixel of the modes before it. -/
theorem C323_unknown : (run { exIn with modes := ["a".toList, "b".toList] } fun _ => none).2.1 = some .runtimeError ∧
    (run { exIn with modes := ["a".toList, "b".toList] } fun _ => none).1 (catFile ['o'] ['1'] "a".toList) = some (.cat [5, 6]) := by
  decide +kernel

theorem C323_false : ¬ C323_spec Nat := by
  intro h
  obtain ⟨h1, h2⟩ := C323_unknown
  have := h { exIn with modes := ["a".toList, "b".toList] } (fun _ => none) (by simp [exIn]) (by decide +kernel) (by rw [h1]; simp)
  rw [this] at h2
  cases h2

example : (run exIn fun _ => none).2.1 = none ∧ (run exIn fun _ => none).1 (randFile ['o'] ['1'] "a".toList) = some (.rands 50) := by
  decide +kernel

example : Apart exIn.modes ∧ exIn.modes.Nodup ∧ CanMake exIn (fun _ => none) "a".toList := by
  refine ⟨?_, by decide +kernel, Or.inr rfl, Or.inr (by decide +kernel)⟩
  intro a ha b hb
  simp only [exIn, List.mem_singleton] at ha hb
  subst ha; subst hb
  decide +kernel

/-! ## C324: the log is closed -/

/-- C324, the full statement: file logging is stopped at the end of a run. -/
def C324_spec (R : Type) : Prop := ∀ (I : Input R) (d : Files R), (run I d).2.2 = true

/-- C324.  It is exactly after a run that ends well and was not told to make no random points. -/
theorem C324_partial (I : Input R) (d : Files R) : (run I d).2.2 = true ↔ (run I d).2.1 = none ∧ I.nRandoms ≠ some 0 := by
  unfold run
  cases h1 : I.pixelized with
  | false => simp
  | true =>
    simp only [Bool.not_true, Bool.false_eq_true, if_false]
    by_cases h2 : (!I.clobber && I.modes.any (fun m => (d (catFile I.outbase I.version m)).isSome)) = true
    · rw [if_pos h2]; simp
    rw [if_neg h2]
    cases catalogs I true I.pixels d with
    | mk d1 b =>
      cases b with
      | some e => simp
      | none =>
        simp only
        by_cases h0 : I.nRandoms = some 0
        · rw [if_pos h0]; simp [h0]
        · rw [if_neg h0]
          cases randoms I I.modes d1 with
          | mk d2 b2 => cases b2 <;> simp [h0]

theorem C324_false : ¬ C324_spec Nat := by
  intro h
  have h1 := (C324_partial { exIn with nRandoms := some 0 } fun _ => none).mp (h _ _)
  exact h1.2 rfl

/-! ## C325: the generator of random points -/

/-- C325, the full statement: mask and catalog can be given as objects or as names of files. -/
def C325_spec (V G : Type) : Prop := ∀ (vlim : Arg V) (cat : Arg G), (∃ r, generator vlim cat = .ok r) ↔
  (match vlim with | .other => False | _ => True) ∧ (match cat with | .other => False | _ => True)

/-- C325.  Only objects work; then they are used as they are. -/
theorem C325_partial {V G : Type} (vlim : Arg V) (cat : Arg G) (r : V × G) : generator vlim cat = .ok r ↔ vlim = .obj r.1 ∧ cat = .obj r.2 := by
  cases vlim with
  | name n => simp [generator]
  | other => simp [generator]
  | obj v =>
    cases cat with
    | name n => simp [generator]
    | other => simp [generator]
    | obj g => simp only [generator, Except.ok.injEq, Arg.obj.injEq]; rw [Prod.ext_iff]

/-- C325.  Names of files raise an error that has nothing to do with the files. -/
theorem C325_false {V G : Type} (g : Arg G) (v : V) (n : List Char) : generator (.name n : Arg V) g = .error .attributeError ∧
    generator (.obj v) (.name n : Arg G) = .error .nameError ∧ ¬ C325_spec V G := by
  refine ⟨rfl, rfl, ?_⟩
  intro h
  obtain ⟨r, hr⟩ := (h (.obj v) (.name n)).mpr ⟨trivial, trivial⟩
  simp [generator] at hr

end Redmapper.RmTask
