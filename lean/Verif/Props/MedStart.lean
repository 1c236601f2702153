/-
Starting values of the median fits (C270).
-/
import Verif.Props.MedCal
import Verif.Props.RedSeqCal

namespace Redmapper.MedCal

open Redmapper.Mask (median)
open Redmapper.RedSeqCal (binMembers binLo binHi C172_startvals nodeValue)

/-- The values of the galaxies that are closer in redshift to node `i` than to its neighbors, and within the nodes. -/
noncomputable def nearValues (nodes : List ℝ) (data : List (ℝ × ℝ)) (i : Nat) : List ℝ :=
  (data.filter fun d =>
    decide ((if i = 0 then nodes.getD 0 0 else (nodes.getD (i - 1) 0 + nodes.getD i 0) / 2) < d.1) &&
    decide (d.1 < if i = nodes.length - 1 then nodes.getD i 0 else (nodes.getD i 0 + nodes.getD (i + 1) 0) / 2)).map Prod.snd

theorem range_filter_map {β : Type} (data : List (β × β)) (zero : β) (p : β → Bool) :
    ((List.range (data.map Prod.fst).length).filter fun g => p ((data.map Prod.fst).getD g zero)).map
      (fun g => (data.map Prod.snd).getD g zero) = (data.filter fun d => p d.1).map Prod.snd := by
  induction data with
  | nil => rfl
  | cons a t ih =>
    simp only [List.map_cons, List.length_cons]
    rw [List.range_succ_eq_map, List.filter_cons, List.filter_map]
    have hcomp : ((fun g => p ((a.1 :: t.map Prod.fst).getD g zero)) ∘ Nat.succ) =
        fun g => p ((t.map Prod.fst).getD g zero) := by
      funext g; simp
    have hval : ∀ l : List Nat, (l.map Nat.succ).map (fun g => (a.2 :: t.map Prod.snd).getD g zero) =
        l.map fun g => (t.map Prod.snd).getD g zero := by
      intro l; rw [List.map_map]; apply List.map_congr_left; intro g _; simp
    rw [hcomp, List.filter_cons]
    by_cases h : p a.1 = true
    · rw [if_pos (by simpa using h), if_pos h, List.map_cons, List.map_cons, hval, ih]; simp
    · rw [if_neg (by simpa using h), if_neg h, hval, ih]

theorem bin_values (nodes : List ℝ) (data : List (ℝ × ℝ)) (i : Nat) :
    (binMembers nodes (data.map Prod.fst) i).map (fun g => (data.map Prod.snd).getD g 0) = nearValues nodes data i := by
  unfold binMembers nearValues
  exact range_filter_map data 0 fun x => decide (binLo nodes i < x) && decide (x < binHi nodes i)

/-- **C270 (start).** The fits start, at each node, from the median of the values of the galaxies around it and the
median of their deviations from it; a node with fewer than three galaxies takes those of the closest earlier node that has three, and
zero if there is none. -/
theorem C270_starts (nodes : List ℝ) (data : List (ℝ × ℝ)) (i : Nat) (hi : i < nodes.length) :
    (∀ k, k ≤ i → 3 ≤ (nearValues nodes data k).length →
      (∀ l, k < l → l ≤ i → (nearValues nodes data l).length < 3) →
      (starts nodes data)[i]? = some (median (nearValues nodes data k),
        median ((nearValues nodes data k).map fun v => |v - median (nearValues nodes data k)|))) ∧
    ((∀ k, k ≤ i → (nearValues nodes data k).length < 3) → (starts nodes data)[i]? = some (0, 0)) := by
  have hlen : ∀ k, (binMembers nodes (data.map Prod.fst) k).length = (nearValues nodes data k).length := by
    intro k; rw [← bin_values, List.length_map]
  obtain ⟨out, ho, _, hget⟩ := (C172_startvals (α := ℝ) ⟨median, fun _ => (0, 0)⟩ nodes (data.map Prod.fst)
    (data.map Prod.snd) [] true false 3).2 (by simp)
  have hs : starts nodes data = out := by unfold starts; rw [ho]
  rw [hs]
  obtain ⟨a, b⟩ := hget i hi
  constructor
  · intro k hk h3 hl
    rw [a k hk (by rw [hlen]; exact h3) (fun l h1 h2 => by rw [hlen]; exact hl l h1 h2)]
    unfold nodeValue
    rw [if_pos rfl, ← bin_values nodes data k, List.map_map]
    rfl
  · intro h
    exact b fun k hk => by rw [hlen]; exact h k hk

/-- Three galaxies around the first node. -/
example : (nearValues [0, 1] [(1 / 10, 5), (2 / 10, 6), (3 / 10, 9), (9 / 10, 1)] 0).length = 3 ∧
    (nearValues [0, 1] [(1 / 10, 5), (2 / 10, 6), (3 / 10, 9), (9 / 10, 1)] 1).length = 1 := by
  unfold nearValues
  norm_num [List.filter]

end Redmapper.MedCal
