/-
C319-C321: the log files of a run.
-/
import Verif.Model.LogFile
import Verif.Props.Config

set_option linter.unusedSectionVars false

namespace Redmapper.LogFile

open Redmapper.Config (dec dec_digit dec_inj split_unique)

variable {M : Type}

/-! ## C319: logging can be started -/

/-- C319, the full statement: logging can be started with every configuration. -/
def C319_spec (M : Type) : Prop := ∀ (w : World M) (i : Nat) (printlogging : Bool) (outbase : List Char) (hpix : List Nat),
  w.cfg i = mkCfg printlogging outbase hpix → ∃ w', start i none w = .ok w'

/-- C319.  It fails exactly for a run without pixels that does not log to the console, is not logging already, and gives no file. -/
theorem C319_partial (w : World M) (i : Nat) (f : Option (List Char)) :
    start i f w = .error .indexError ↔ (w.cfg i).started = false ∧ (w.cfg i).printlogging = false ∧ f = none ∧ (w.cfg i).hpix = [] := by
  unfold start
  simp only
  cases hs : (w.cfg i).started
  · cases hp : (w.cfg i).printlogging
    · cases f with
      | some f => simp [nameFor]
      | none =>
        cases hh : (w.cfg i).hpix with
        | nil => simp [nameFor, hh]
        | cons p l => simp [nameFor, hh]
    · simp
  · simp

/-- C319.  Nothing else is raised, and with the console as the only log no file is attached. -/
theorem C319_console (w : World M) (i : Nat) (f : Option (List Char)) (h : (w.cfg i).printlogging = true) : start i f w = .ok w := by
  unfold start
  simp only [h, if_true]
  split <;> rfl

theorem C319_false : ¬ C319_spec M := by
  intro h
  let w : World M := ⟨fun _ => mkCfg false [] [], fun _ => [], fun _ => []⟩
  obtain ⟨w', hw⟩ := h w 0 false [] [] rfl
  rw [(C319_partial w 0 none).mpr ⟨rfl, rfl, rfl, rfl⟩] at hw
  cases hw

/-! ## C320: what is in the log file -/

/-- The messages of a configuration. -/
def msgs (i : Nat) : List (Op M) → List M
  | [] => []
  | .log j m :: ops => if j = i then m :: msgs i ops else msgs i ops
  | _ :: ops => msgs i ops

/-- The messages between a start and the next stop. -/
def logged (i : Nat) : Bool → List (Op M) → List M
  | _, [] => []
  | on, .start j _ :: ops => logged i (if j = i then true else on) ops
  | on, .stop j :: ops => logged i (if j = i then false else on) ops
  | on, .log j m :: ops => if j = i ∧ on = true then m :: logged i on ops else logged i on ops

/-- The file that a start attaches. -/
def fileOf (c : Cfg) : Option (List Char) → Option (List Char)
  | some f => some f
  | none => c.hpix.head?.map (logName c.outbase)

/-- A process in which nobody logs yet; configuration `i` would log to `F`, and no other one in these operations does. -/
structure Fresh (w : World M) (i : Nat) (F : List Char) (ops : List (Op M)) : Prop where
  idle : ∀ l, w.handlers l = []
  notStarted : ∀ j, (w.cfg j).started = false
  notPrint : (w.cfg i).printlogging = false
  own : fileOf (w.cfg i) none = some F
  others : ∀ j f, .start j f ∈ ops → j ≠ i → fileOf (w.cfg j) f ≠ some F

/-- C320, the full statement: a log file has the messages between a start and the next stop of its configuration, and no others. -/
def C320_spec (M : Type) : Prop := ∀ (w w' : World M) (i : Nat) (F : List Char) (ops : List (Op M)), Fresh w i F ops →
  (∀ f, .start i f ∈ ops → f = none) → run ops w = .ok w' → w'.files F = w.files F ++ logged i false ops

/-- What stays the same, and where the file is attached. -/
structure Inv (w0 : World M) (i : Nat) (F : List Char) (st : Bool) (hs : List (List Char)) (w : World M) : Prop where
  logger : ∀ j, (w.cfg j).logger = (w0.cfg j).logger
  file : ∀ j f, fileOf (w.cfg j) f = fileOf (w0.cfg j) f
  print : (w.cfg i).printlogging = (w0.cfg i).printlogging
  started : (w.cfg i).started = st
  at' : w.handlers (w0.cfg i).logger = hs
  away : ∀ l, l ≠ (w0.cfg i).logger → F ∉ w.handlers l

theorem nameFor_ok (c : Cfg) (f : Option (List Char)) (n : List Char) : nameFor c f = .ok n ↔ fileOf c f = some n := by
  cases f with
  | some f => simp [nameFor, fileOf]
  | none => cases h : c.hpix <;> simp [nameFor, fileOf, h]

theorem start_ok (w w' : World M) (j : Nat) (f : Option (List Char)) (h : start j f w = .ok w') :
    w' = w ∨ ∃ n, fileOf (w.cfg j) f = some n ∧ (w.cfg j).started = false ∧ w'.files = w.files ∧
      (w'.handlers = fun l => if l = (w.cfg j).logger then w.handlers l ++ [n] else w.handlers l) ∧
      (w'.cfg = fun k => if k = j then { w.cfg j with started := true } else w.cfg k) := by
  unfold start at h
  simp only at h
  by_cases hs : (w.cfg j).started = true
  · rw [if_pos hs] at h; simp only [Except.ok.injEq] at h; exact Or.inl h.symm
  rw [if_neg hs] at h
  by_cases hp : (w.cfg j).printlogging = true
  · rw [if_pos hp] at h; simp only [Except.ok.injEq] at h; exact Or.inl h.symm
  rw [if_neg hp] at h
  right
  have hs' : (w.cfg j).started = false := by simpa using hs
  cases hn : nameFor (w.cfg j) f with
  | error e => rw [hn] at h; simp at h
  | ok n =>
    rw [hn] at h
    simp only [Except.ok.injEq] at h
    exact ⟨n, (nameFor_ok _ _ _).mp hn, hs', by rw [← h], by rw [← h], by rw [← h]⟩

/-- Operations that neither start logging of `i` for the first time nor end it. -/
theorem run_inv (w0 : World M) (i : Nat) (F : List Char) (st : Bool) (hs : List (List Char)) (hhs : hs = [] ∨ hs = [F]) (ops : List (Op M))
    (hown : ∀ j, j ≠ i → (w0.cfg j).logger ≠ (w0.cfg i).logger) (hoth : ∀ j f, .start j f ∈ ops → j ≠ i → fileOf (w0.cfg j) f ≠ some F)
    (h1 : st = true ∨ ∀ f, .start i f ∉ ops) (h2 : hs = [] ∨ .stop i ∉ ops) (w w' : World M) (hi : Inv w0 i F st hs w) (hr : run ops w = .ok w') :
    Inv w0 i F st hs w' ∧ w'.files F = w.files F ++ if hs = [] then [] else msgs i ops := by
  induction ops generalizing w with
  | nil => simp only [run, Except.ok.injEq] at hr; subst hr; exact ⟨hi, by simp [msgs]⟩
  | cons op ops ih =>
    have hoth' : ∀ j f, .start j f ∈ ops → j ≠ i → fileOf (w0.cfg j) f ≠ some F := fun j f hm => hoth j f (by simp [hm])
    have h1' : st = true ∨ ∀ f, .start i f ∉ ops := h1.imp id fun h f hm => h f (by simp [hm])
    have h2' : hs = [] ∨ .stop i ∉ ops := h2.imp id fun h hm => h (by simp [hm])
    cases op with
    | start j f =>
      simp only [run] at hr
      cases hst : start j f w with
      | error e => rw [hst] at hr; simp at hr
      | ok w1 =>
        rw [hst] at hr; simp only at hr
        rcases start_ok w w1 j f hst with rfl | ⟨n, hn, hns, hf, hh, hc⟩
        · obtain ⟨a, b⟩ := ih hoth' h1' h2' w1 hi hr
          exact ⟨a, by rw [b]; simp [msgs]⟩
        · have hji : j ≠ i := by
            rintro rfl
            rcases h1 with h | h
            · rw [hi.started, h] at hns; cases hns
            · exact h f (by simp)
          have hnF : n ≠ F := by
            rintro rfl
            rw [hi.file] at hn
            exact hoth j f (by simp) hji hn
          have hi1 : Inv w0 i F st hs w1 := by
            refine ⟨?_, ?_, ?_, ?_, ?_, ?_⟩
            · intro k; rw [hc]; simp only; split
              · rename_i e; rw [e]; exact hi.logger j
              · exact hi.logger k
            · intro k g; rw [hc]; simp only; split
              · rename_i e; rw [e, ← hi.file j g]; rfl
              · exact hi.file k g
            · rw [hc]; simp only [if_neg (Ne.symm hji)]; exact hi.print
            · rw [hc]; simp only [if_neg (Ne.symm hji)]; exact hi.started
            · rw [hh]; simp only [hi.logger j, if_neg (Ne.symm (hown j hji))]; exact hi.at'
            · intro l hl; rw [hh]; simp only; split
              · rw [List.mem_append, List.mem_singleton, not_or]; exact ⟨hi.away l hl, fun e => hnF e.symm⟩
              · exact hi.away l hl
          obtain ⟨a, b⟩ := ih hoth' h1' h2' w1 hi1 hr
          exact ⟨a, by rw [b, hf]; simp [msgs]⟩
    | stop j =>
      simp only [run] at hr
      have hi1 : Inv w0 i F st hs (stop j w) := by
        refine ⟨hi.logger, hi.file, hi.print, hi.started, ?_, ?_⟩
        · simp only [stop, hi.logger j]
          by_cases hji : j = i
          · subst hji
            rcases h2 with h | h
            · simp [h]
            · simp at h
          · rw [if_neg (Ne.symm (hown j hji))]; exact hi.at'
        · intro l hl; simp only [stop]; split
          · simp
          · exact hi.away l hl
      obtain ⟨a, b⟩ := ih hoth' h1' h2' _ hi1 hr
      exact ⟨a, by rw [b]; simp [msgs, stop]⟩
    | log j m =>
      simp only [run] at hr
      have hi1 : Inv w0 i F st hs (log j m w) := ⟨hi.logger, hi.file, hi.print, hi.started, hi.at', hi.away⟩
      obtain ⟨a, b⟩ := ih hoth' h1' h2' _ hi1 hr
      refine ⟨a, ?_⟩
      rw [b]
      simp only [log, hi.logger j, msgs]
      by_cases hji : j = i
      · subst hji
        rw [hi.at', if_pos rfl]
        rcases hhs with rfl | rfl
        · simp
        · simp
      · rw [if_neg hji, List.count_eq_zero_of_not_mem (hi.away _ (hown j hji))]; simp

theorem run_append (a b : List (Op M)) (w : World M) : run (a ++ b) w = (run a w).bind (run b) := by
  induction a generalizing w with
  | nil => rfl
  | cons op a ih =>
    cases op with
    | start j f =>
      simp only [List.cons_append, run]
      cases start j f w with
      | error e => rfl
      | ok w1 => exact ih w1
    | stop j => simp only [List.cons_append, run]; exact ih _
    | log j m => simp only [List.cons_append, run]; exact ih _

/-- C320.  With a logger of its own, a configuration has in its file exactly the messages between its first start and the stop after it: whatever
the other configurations of the process do, and whatever comes later, restarts included. -/
theorem C320_partial (w w' : World M) (i : Nat) (F : List Char) (a b c : List (Op M)) (hF : Fresh w i F (a ++ .start i none :: b ++ .stop i :: c))
    (hown : ∀ j, j ≠ i → (w.cfg j).logger ≠ (w.cfg i).logger) (ha : ∀ f, .start i f ∉ a) (hb : .stop i ∉ b)
    (hr : run (a ++ .start i none :: b ++ .stop i :: c) w = .ok w') : w'.files F = w.files F ++ msgs i b := by
  have hi0 : Inv w i F false [] w := by
    refine ⟨fun _ => rfl, fun _ _ => rfl, rfl, hF.notStarted i, hF.idle _, ?_⟩
    intro l _; rw [hF.idle]; simp
  rw [List.append_assoc, run_append] at hr
  cases h1 : run a w with
  | error e => rw [h1] at hr; simp [Except.bind] at hr
  | ok w1 =>
    rw [h1] at hr; simp only [Except.bind, List.cons_append, run] at hr
    obtain ⟨i1, f1⟩ := run_inv w i F false [] (Or.inl rfl) a hown (fun j f hm => hF.others j f (by simp [hm])) (Or.inr ha) (Or.inl rfl) w w1 hi0 h1
    cases h2 : start i none w1 with
    | error e => rw [h2] at hr; simp at hr
    | ok w2 =>
      rw [h2] at hr; simp only at hr
      have i2 : Inv w i F true [F] w2 ∧ w2.files = w1.files := by
        have hp : (w1.cfg i).printlogging = false := by rw [i1.print]; exact hF.notPrint
        rcases start_ok w1 w2 i none h2 with e | ⟨n, hn, hns, hf, hh, hc⟩
        · exfalso
          subst e
          have hs := i1.started
          unfold start at h2
          simp only [hs, hp, Bool.false_eq_true, if_false] at h2
          rw [(nameFor_ok _ _ _).mpr ((i1.file i none).trans hF.own)] at h2
          simp only [Except.ok.injEq] at h2
          have := congrArg (fun v => (v.cfg i).started) h2
          simp only [if_true] at this
          rw [hs] at this; cases this
        · have hnF : n = F := by
            rw [i1.file, hF.own] at hn; exact (Option.some.inj hn).symm
          subst hnF
          refine ⟨⟨?_, ?_, ?_, ?_, ?_, ?_⟩, hf⟩
          · intro k; rw [hc]; simp only; split
            · rename_i e; rw [e]; exact i1.logger i
            · exact i1.logger k
          · intro k g; rw [hc]; simp only; split
            · rename_i e; rw [e, ← i1.file i g]; rfl
            · exact i1.file k g
          · rw [hc]; simp only [if_true]; exact i1.print
          · rw [hc]; simp
          · rw [hh]; simp only [i1.logger i, if_true, i1.at', List.nil_append]
          · intro l hl; rw [hh]; simp only [i1.logger i, if_neg hl]; exact i1.away l hl
      obtain ⟨i2, f2⟩ := i2
      rw [run_append] at hr
      cases h3 : run b w2 with
      | error e => rw [h3] at hr; simp [Except.bind] at hr
      | ok w3 =>
        rw [h3] at hr; simp only [Except.bind, run] at hr
        obtain ⟨i3, f3⟩ := run_inv w i F true [F] (Or.inr rfl) b hown (fun j f hm => hF.others j f (by simp [hm])) (Or.inl rfl) (Or.inr hb) w2 w3 i2 h3
        have i4 : Inv w i F true [] (stop i w3) := by
          refine ⟨i3.logger, i3.file, i3.print, i3.started, by simp [stop, i3.logger i], ?_⟩
          intro l hl; simp only [stop]; split
          · simp
          · exact i3.away l hl
        obtain ⟨_, f5⟩ := run_inv w i F true [] (Or.inl rfl) c hown (fun j f hm => hF.others j f (by simp [hm])) (Or.inl rfl) (Or.inl rfl) _ w' i4 hr
        rw [f5]
        simp only [stop, if_true, List.append_nil]
        rw [f3, f2, f1]; simp

/-! ## C321: names of log files -/

theorem pad4_inj (m n : Nat) (h : pad4 m = pad4 n) : m = n := by
  have val : ∀ n, Nat.ofDigitChars 10 (pad4 n) 0 = n := by
    intro n
    unfold pad4
    rw [Nat.ofDigitChars_append, Nat.ofDigitChars_replicate_zero]
    simp [dec]
  rw [← val m, ← val n, h]

theorem pad4_digit (n : Nat) : ∀ c ∈ pad4 n, c ≠ '_' := by
  intro c hc
  unfold pad4 at hc
  rcases List.mem_append.mp hc with h | h
  · rw [List.mem_replicate] at h; rw [h.2]; decide
  · exact dec_digit n c h

/-- C321, the full statement: configurations for different pixels or with different bases log to different files. -/
def C321_spec : Prop := ∀ (o o' : List Char) (h h' : List Nat), h ≠ [] → h' ≠ [] → (o, h) ≠ (o', h') →
  fileOf (mkCfg false o h) none ≠ fileOf (mkCfg false o' h') none

/-- C321.  They do if the bases or the first pixels differ. -/
theorem C321_partial (o o' : List Char) (p p' : Nat) (h : logName o p = logName o' p') : o = o' ∧ p = p' := by
  unfold logName at h
  have h := List.append_cancel_right h
  have h := congrArg List.reverse h
  simp only [List.reverse_append, List.reverse_cons, List.append_assoc, List.singleton_append] at h
  obtain ⟨h1, h2⟩ := split_unique _ _ _ _ (fun c hc => pad4_digit p c (List.mem_reverse.mp hc)) (fun c hc => pad4_digit p' c (List.mem_reverse.mp hc)) h
  refine ⟨?_, pad4_inj _ _ (List.reverse_injective h1)⟩
  exact List.reverse_injective (List.append_cancel_right h2)

/-- C321.  Other pixels of a list are not in the name. -/
theorem C321_false : ¬ C321_spec := by
  intro h
  exact h ['a'] ['a'] [1, 2] [1, 3] (by simp) (by simp) (by simp) rfl

example : logName "run".toList 17 = "redmapper_run_0017.log".toList := by decide +kernel

/-- Two configurations for the whole sky, in a process where nobody logs. -/
def twoCfg : World Nat := ⟨fun j => mkCfg false (if j = 0 then ['a'] else ['b']) [1, 2], fun _ => [], fun _ => []⟩

/-- C320.  False after a restart: nothing more is logged. -/
theorem C320_restart : ∃ w', run [.start 0 none, .log 0 1, .stop 0, .start 0 none, .log 0 2] twoCfg = .ok w' ∧ w'.files (logName ['a'] 1) = [1] ∧
    logged 0 false [.start 0 none, .log 0 1, .stop 0, .start 0 none, .log 0 2] = [1, 2] :=
  ⟨_, rfl, by decide +kernel, rfl⟩

/-- C320.  False with a shared logger: the messages of the other configuration come along, and its stop ends the log of the first. -/
theorem C320_shared : ∃ w', run [.start 0 none, .log 1 7, .stop 1, .log 0 8] twoCfg = .ok w' ∧ w'.files (logName ['a'] 1) = [7] ∧
    logged 0 false [.start 0 none, .log 1 7, .stop 1, .log 0 8] = [8] :=
  ⟨_, rfl, by decide +kernel, rfl⟩

theorem twoCfg_fresh (ops : List (Op Nat)) (h : ∀ j f, .start j f ∈ ops → j = 0) : Fresh twoCfg 0 (logName ['a'] 1) ops :=
  ⟨fun _ => rfl, fun _ => rfl, rfl, rfl, fun j f hm hj => absurd (h j f hm) hj⟩

theorem C320_false : ¬ C320_spec Nat := by
  intro h
  obtain ⟨w', hr, hf, hl⟩ := C320_restart
  have := h twoCfg w' 0 _ _ (twoCfg_fresh _ (by simp)) (by simp) hr
  rw [hf, hl] at this
  simp [twoCfg] at this

/-- One configuration per pixel: two logs at the same time. -/
def pixels : World Nat := ⟨fun j => mkCfg false ['r'] [j], fun _ => [], fun _ => []⟩

example : ∃ w', run ([.log 0 1, .start 1 none] ++ .start 0 none :: [.log 0 2, .log 1 3, .stop 1] ++ .stop 0 :: [.log 0 4]) pixels = .ok w' ∧
    w'.files (logName ['r'] 0) = [2] := by
  refine ⟨_, rfl, ?_⟩
  refine C320_partial pixels _ 0 (logName ['r'] 0) [.log 0 1, .start 1 none] [.log 0 2, .log 1 3, .stop 1] [.log 0 4] ⟨fun _ => rfl, fun _ => rfl, rfl, rfl, ?_⟩
    ?_ (by simp) (by simp) rfl
  · intro j f hm hj
    have : j = 1 ∧ f = none := by simpa [hj] using hm
    obtain ⟨rfl, rfl⟩ := this
    intro he
    have he : some (logName ['r'] 1) = some (logName ['r'] 0) := he
    exact absurd (C321_partial _ _ _ _ (Option.some.inj he)).2 (by decide)
  · intro j hj; simp [pixels, mkCfg, loggerOf, hj]

end Redmapper.LogFile
