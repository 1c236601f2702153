/-
C432: the memory report of the log.
-/
import Verif.Model.MemReport
import Mathlib.Tactic

namespace Redmapper.MemReport

variable (lower : List Char → List Char) (int : List Char → Option Int)

/-- The text of a report with the two values in kilobytes. -/
def text (location : List Char) (rss peak : Int) : List Char :=
  "Memory usage at ".toList ++ location ++ ": ".toList ++ (toString (rss.tdiv 1000)).toList ++ " MB current; ".toList ++ (toString (peak.tdiv 1000)).toList
    ++ " MB peak.".toList

/-- The text without values. -/
def noText (location : List Char) : List Char := "Could not get process status for memory usage at ".toList ++ location ++ "!".toList

/-- The line is about `k`: two characters, then `k` in capitals or not, then one character. -/
def About (k : List Char) (l : List (List Char)) : Prop := ∃ w rest, l = w :: rest ∧ lower ((w.dropLast).drop 2) = k

open Classical in
/-- The value of the last line about `k`, zero if there is none. -/
noncomputable def lastValue (k : List Char) (lines : List (List (List Char))) : Int :=
  match (lines.filter fun l => decide (About lower k l)).getLast? with
  | none => 0
  | some l => (l[1]?.bind int).getD 0

/-- A line that can be understood: not blank, and if it is about the peak or the current memory its second word is a number. -/
def Readable (l : List (List Char)) : Prop :=
  l ≠ [] ∧ (About lower "peak".toList l ∨ About lower "rss".toList l → ∃ v, l[1]?.bind int = some v)

theorem about_cons (k w : List Char) (rest : List (List Char)) : About lower k (w :: rest) ↔ key lower w = k := by
  unfold About key
  rw [← List.dropLast_eq_take]
  constructor
  · rintro ⟨w', r', e, h⟩; cases e; exact h
  · intro h; exact ⟨w, rest, rfl, h⟩

open Classical in
/-- The value after the lines when it was `d` before. -/
noncomputable def valueFrom (d : Int) (k : List Char) (lines : List (List (List Char))) : Int :=
  match (lines.filter fun l => decide (About lower k l)).getLast? with
  | none => d
  | some l => (l[1]?.bind int).getD 0

theorem valueFrom_skip (d : Int) (k : List Char) (l : List (List Char)) (ls : List (List (List Char))) (h : ¬ About lower k l) :
    valueFrom lower int d k (l :: ls) = valueFrom lower int d k ls := by
  unfold valueFrom
  rw [List.filter_cons_of_neg (by simpa using h)]

theorem valueFrom_take (d v : Int) (k : List Char) (l : List (List Char)) (ls : List (List (List Char))) (h : About lower k l)
    (hv : l[1]?.bind int = some v) : valueFrom lower int d k (l :: ls) = valueFrom lower int v k ls := by
  classical
  unfold valueFrom
  rw [List.filter_cons_of_pos (by simpa using h)]
  cases hf : ls.filter fun l => decide (About lower k l) with
  | nil => simp [hv]
  | cons a b => rw [List.getLast?_cons_cons, List.getLast?_eq_some_getLast (List.cons_ne_nil a b)]

theorem step_ok (r : Res) (l : List (List Char)) (ls : List (List (List Char))) (h : Readable lower int l) :
    ∃ r', step lower int r l = some r' ∧ valueFrom lower int r'.peak "peak".toList ls = valueFrom lower int r.peak "peak".toList (l :: ls) ∧
      valueFrom lower int r'.rss "rss".toList ls = valueFrom lower int r.rss "rss".toList (l :: ls) := by
  obtain ⟨hne, hv⟩ := h
  obtain ⟨w, rest, rfl⟩ := List.exists_cons_of_ne_nil hne
  have h1 : (w :: rest)[1]?.bind int = rest.head?.bind int := by cases rest <;> rfl
  by_cases hp : key lower w = "peak".toList
  · have ha := (about_cons lower _ w rest).2 hp
    have hn : ¬ About lower "rss".toList (w :: rest) := by rw [about_cons, hp]; decide
    obtain ⟨v, e⟩ := hv (Or.inl ha)
    refine ⟨{ r with peak := v }, ?_, (valueFrom_take lower int _ v _ _ ls ha e).symm, (valueFrom_skip lower int _ _ _ ls hn).symm⟩
    rw [h1] at e
    simp only [step, if_pos hp, e, Option.map_some]
  · have hnp : ¬ About lower "peak".toList (w :: rest) := by rw [about_cons]; exact hp
    by_cases hr : key lower w = "rss".toList
    · have ha := (about_cons lower _ w rest).2 hr
      obtain ⟨v, e⟩ := hv (Or.inr ha)
      refine ⟨{ r with rss := v }, ?_, (valueFrom_skip lower int _ _ _ ls hnp).symm, (valueFrom_take lower int _ v _ _ ls ha e).symm⟩
      rw [h1] at e
      simp only [step, if_neg hp, if_pos hr, e, Option.map_some]
    · have hnr : ¬ About lower "rss".toList (w :: rest) := by rw [about_cons]; exact hr
      exact ⟨r, by simp only [step, if_neg hp, if_neg hr], (valueFrom_skip lower int _ _ _ ls hnp).symm, (valueFrom_skip lower int _ _ _ ls hnr).symm⟩

theorem step_bad (r : Res) (l : List (List Char)) (h : ¬ Readable lower int l) : step lower int r l = none := by
  cases l with
  | nil => rfl
  | cons w rest =>
    have h1 : (w :: rest)[1]?.bind int = rest.head?.bind int := by cases rest <;> rfl
    unfold Readable at h
    simp only [ne_eq, reduceCtorEq, not_false_eq_true, true_and, not_forall, about_cons, h1] at h
    obtain ⟨hk, hno⟩ := h
    have hnone : rest.head?.bind int = none := by
      cases e : rest.head?.bind int with
      | none => rfl
      | some v => exact absurd ⟨v, e⟩ hno
    by_cases hp : key lower w = "peak".toList
    · simp only [step, if_pos hp, hnone, Option.map_none]
    · have hr : key lower w = "rss".toList := hk.resolve_left hp
      simp only [step, if_neg hp, if_pos hr, hnone, Option.map_none]

theorem scan_ok (r : Res) (lines : List (List (List Char))) (h : ∀ l ∈ lines, Readable lower int l) :
    scan lower int r lines = some ⟨valueFrom lower int r.peak "peak".toList lines, valueFrom lower int r.rss "rss".toList lines⟩ := by
  induction lines generalizing r with
  | nil => simp [scan, valueFrom]
  | cons l ls ih =>
    obtain ⟨r', e, h1, h2⟩ := step_ok lower int r l ls (h l (by simp))
    rw [scan, e]
    simp only
    rw [ih r' (fun m hm => h m (by simp [hm])), h1, h2]

theorem scan_bad (r : Res) (lines : List (List (List Char))) (h : ∃ l ∈ lines, ¬ Readable lower int l) : scan lower int r lines = none := by
  induction lines generalizing r with
  | nil => simp at h
  | cons l ls ih =>
    rw [scan]
    cases e : step lower int r l with
    | none => rfl
    | some r' =>
      obtain ⟨m, hm, hb⟩ := h
      rcases List.mem_cons.1 hm with rfl | hm
      · rw [step_bad lower int r m hb] at e; cases e
      · exact ih r' ⟨m, hm, hb⟩

/-- **C432.**  The memory report is made for every state of the status file.  If the file can be read and all its lines understood it has the values of the last
lines about the current memory and the peak, in units of 1000 kilobytes and cut towards zero; in every other case it says that there are none. -/
theorem C432 (location : List Char) :
    report lower int none location = noText location ∧
    (∀ lines, (∀ l ∈ lines, Readable lower int l) →
      report lower int (some lines) location = text location (lastValue lower int "rss".toList lines) (lastValue lower int "peak".toList lines)) ∧
    ∀ lines, (∃ l ∈ lines, ¬ Readable lower int l) → report lower int (some lines) location = noText location := by
  refine ⟨rfl, ?_, ?_⟩
  · intro lines h
    unfold report
    rw [Option.bind_some, scan_ok lower int _ lines h]
    rfl
  · intro lines h
    unfold report
    rw [Option.bind_some, scan_bad lower int _ lines h]
    rfl

/-- **C432.**  Whatever happens, the report names the place in the code. -/
theorem C432_location (status : Option (List (List (List Char)))) (location : List Char) : location <:+: report lower int status location := by
  unfold report
  split
  · simp only [List.append_assoc]
    exact ⟨_, _, List.append_assoc _ _ _⟩
  · exact ⟨_, _, rfl⟩

/-- Two lines of a status file, with a reading of the two numbers. -/
def exInt (w : List Char) : Option Int := if w = "81234".toList then some 81234 else if w = "99001".toList then some 99001 else none

def exLines : List (List (List Char)) := [["Name:".toList, "python".toList], ["VmPeak:".toList, "99001".toList, "kB".toList], ["VmRSS:".toList, "81234".toList, "kB".toList]]

example : report (fun l => l.map Char.toLower) exInt (some exLines) "start".toList = "Memory usage at start: 81 MB current; 99 MB peak.".toList := by
  decide +kernel

example : ∀ l ∈ exLines, Readable (fun l => l.map Char.toLower) exInt l := by
  intro l hl
  simp only [exLines, List.mem_cons, List.not_mem_nil, or_false] at hl
  rcases hl with rfl | rfl | rfl
  · refine ⟨by simp, ?_⟩
    rintro (h | h) <;> rw [about_cons] at h <;> exact absurd h (by decide +kernel)
  · exact ⟨by simp, fun _ => ⟨99001, by decide +kernel⟩⟩
  · exact ⟨by simp, fun _ => ⟨81234, by decide +kernel⟩⟩

end Redmapper.MemReport
