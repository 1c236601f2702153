/-
Properties of the calibration driver: restarts, provenance of the products, completeness.
-/
import Verif.Model.Calibrate
import Mathlib.Tactic.Common
import Mathlib.Order.Defs.LinearOrder

namespace Redmapper.Calibrate

variable {R K W : Type}

/-! ## Specification: what each product is made of -/

/-- The members iteration `i` is calibrated with: those of the color run, then those of the iteration before. -/
def memFile : Nat → Name
  | 0 => (.top, .colormem)
  | 1 => (.top, .colormem)
  | i + 2 => (.iter (i + 1), .zmem)

/-- The seeds of iteration `i`: the training seeds, then those that found a cluster in iteration 1. -/
def seedFile : Nat → Name
  | 0 => (.top, .trainSeeds)
  | 1 => (.top, .trainSeeds)
  | _ + 2 => (.top, .cutSeeds)

/-- The centering values in iteration `i`: the configured ones, then those of the iteration before. -/
def WVal (E : Ext R K W) (w0 : W) (fs : Name → Option K) : Nat → W → Prop
  | 0, _ => False
  | 1, w => w = w0
  | i + 2, w => ∃ k, fs (.iter (i + 1), .wcen) = some k ∧ w = E.loadWcen k

/-- `x` is what a run of the cluster finder reads when it uses the products of iteration `i`. -/
def Uses (fs : Name → Option K) (i : Nat) (cat : Name) (cc : CC) (w : W) (zl : Option Name)
    (x : RunIn K W) : Prop :=
  fs cat = some x.cat ∧ fs (.iter i, .pars) = some x.pars ∧ fs (.iter i, .bkgChisq) = some x.bkg ∧
    fs (.iter i, .bkgZred) = some x.zbkg ∧ fs (.iter i, .zreds) = some x.zreds ∧
    fs (.top, .maskgals) = some x.maskgals ∧ x.cc = cc ∧ x.wvals = w ∧
    ((zl = none ∧ x.zlambda = none) ∨ ∃ n k, zl = some n ∧ fs n = some k ∧ x.zlambda = some k)

/-- The inputs of the cluster finder in iteration `i`. -/
def IterIn (E : Ext R K W) (w0 : W) (fs : Name → Option K) (i : Nat) (x : RunIn K W) : Prop :=
  ∃ w, WVal E w0 fs i w ∧
    Uses fs i (.iter i, .specseeds) (if i = 1 then .firstpass else .wcenZred) w none x

/-- The inputs of the percolation with random centers. -/
def RandIn (w0 : W) (fs : Name → Option K) (i : Nat) (cc : CC) (x : RunIn K W) : Prop :=
  Uses fs i (.iter i, .sublike) cc w0 none x

/-- The inputs of the final run. -/
def FinalIn (E : Ext R K W) (w0 : W) (fs : Name → Option K) (i : Nat) (x : RunIn K W) : Prop :=
  ∃ w, WVal E w0 fs (i + 1) w ∧
    Uses fs i (.iterb i, .specseeds) .conf w (some (.iter i, .zlambda)) x

/-- **The provenance table**: `k` is a possible content of the product `n`, computed from the products that
are in the directory `fs` (`zk` is the content of a zred file the user may have configured). -/
def Made (E : Ext R K W) (zk : Option K) (w0 : W) (fs : Name → Option K) : Name → K → Prop
  | (.top, .redgals), k => ∃ r, k = (E.selRed r).1
  | (.top, .redmodel), k => ∃ r, fs (.top, .redgals) = some (E.selRed r).1 ∧ k = (E.selRed r).2
  | (.top, .bkgColor), k => ∃ r, k = E.colorBkg r
  | (.top, .maskgals), k => ∃ r, k = E.maskgals r
  | (.top, .colormem), k => ∃ r a b c d, fs (.top, .redgals) = some a ∧ fs (.top, .redmodel) = some b ∧
      fs (.top, .bkgColor) = some c ∧ fs (.top, .maskgals) = some d ∧ k = (E.colormem r a b c d).1
  | (.top, .colorcat), k => ∃ r a b c d, fs (.top, .redgals) = some a ∧ fs (.top, .redmodel) = some b ∧
      fs (.top, .bkgColor) = some c ∧ fs (.top, .maskgals) = some d ∧
      fs (.top, .colormem) = some (E.colormem r a b c d).1 ∧ k = (E.colormem r a b c d).2
  | (.top, .trainSeeds), k => ∃ r, k = E.seeds r true zk
  | (.top, .cutSeeds), k => ∃ a b, fs (.top, .trainSeeds) = some a ∧ fs (.iter 1, .final) = some b ∧
      k = E.cutSeeds a b
  | (.top, .specseeds), k => ∃ r z, fs (.iter E.niter, .zreds) = some z ∧ k = E.seeds r false (some z)
  | (.iter i, .pars), k => ∃ r a b, fs (memFile i) = some a ∧ fs (.top, .bkgColor) = some b ∧
      k = (E.pars r a b).2
  | (.iter i, .zreds), k => ∃ r p, fs (.iter i, .pars) = some p ∧ k = E.zreds r p
  | (.iter i, .bkgChisq), k => ∃ r p, fs (.iter i, .pars) = some p ∧ k = E.bkg r p
  | (.iter i, .bkgZred), k => E.pixelized = true ∧ ∃ r p z, fs (.iter i, .pars) = some p ∧ fs (.iter i, .zreds) = some z ∧
      k = E.zbkg r p z
  | (.iter i, .seedzreds), k => ∃ r a p, fs (seedFile i) = some a ∧ fs (.iter i, .pars) = some p ∧
      k = E.seedZreds r a p
  | (.iter i, .specseeds), k => ∃ a z, fs (seedFile i) = some a ∧ fs (.iter i, .seedzreds) = some z ∧
      k = E.joinSeeds a z
  | (.iter i, .final), k => ∃ r x, IterIn E w0 fs i x ∧ k = (E.specRun r x).1
  | (.iter i, .members), k => ∃ r x, IterIn E w0 fs i x ∧ fs (.iter i, .final) = some (E.specRun r x).1 ∧
      k = (E.specRun r x).2.1
  | (.iter i, .like), k => ∃ r x, IterIn E w0 fs i x ∧ fs (.iter i, .final) = some (E.specRun r x).1 ∧
      k = (E.specRun r x).2.2
  | (.iter i, .sublike), k => i = 1 ∧ ∃ a b, fs (.iter i, .like) = some a ∧ fs (.iter i, .final) = some b ∧
      k = E.subLike a b
  | (.rand i, .final), k => i = 1 ∧ ∃ r x, RandIn w0 fs i .random x ∧ k = (E.percRun r x).1
  | (.rand i, .members), k => i = 1 ∧ ∃ r x, RandIn w0 fs i .random x ∧
      fs (.rand i, .final) = some (E.percRun r x).1 ∧ k = (E.percRun r x).2
  | (.randsat i, .final), k => i = 1 ∧ ∃ r x, RandIn w0 fs i .randomSat x ∧ k = (E.percRun r x).1
  | (.randsat i, .members), k => i = 1 ∧ ∃ r x, RandIn w0 fs i .randomSat x ∧
      fs (.randsat i, .final) = some (E.percRun r x).1 ∧ k = (E.percRun r x).2
  | (.iter i, .wcen), k => ∃ r p b f q w, fs (.iter i, .pars) = some p ∧ fs (.iter i, .bkgChisq) = some b ∧
      fs (.iter i, .final) = some f ∧ WVal E w0 fs i w ∧
      ((i ≠ 1 ∧ q = none) ∨ (i = 1 ∧ ∃ u v, fs (.rand 1, .final) = some u ∧
        fs (.randsat 1, .final) = some v ∧ q = some (u, v))) ∧
      k = E.wcen r p b f q w
  | (.iter i, .zlambda), k => ∃ r f, fs (.iter i, .final) = some f ∧ k = E.zlambda r f
  | (.iter i, .plot), k => ∃ f z, fs (.iter i, .final) = some f ∧ fs (.iter i, .zlambda) = some z ∧
      k = E.plot f z
  | (.iter i, .zmem), k => ∃ r f m, fs (.iter i, .final) = some f ∧ fs (.iter i, .members) = some m ∧
      k = E.prep r f m
  | (.iterb i, .seedzreds), k => i = E.niter ∧ ∃ r a p, fs (.top, .specseeds) = some a ∧
      fs (.iter i, .pars) = some p ∧ k = E.seedZreds r a p
  | (.iterb i, .specseeds), k => i = E.niter ∧ ∃ a z, fs (.top, .specseeds) = some a ∧
      fs (.iterb i, .seedzreds) = some z ∧ k = E.joinSeeds a z
  | (.iterb i, .final), k => i = E.niter ∧ ∃ r x, FinalIn E w0 fs i x ∧ k = (E.fullRun r x).1
  | (.iterb i, .members), k => i = E.niter ∧ ∃ r x, FinalIn E w0 fs i x ∧
      fs (.iterb i, .final) = some (E.fullRun r x).1 ∧ k = (E.fullRun r x).2
  | (.iterb i, .plot), k => i = E.niter ∧ ∃ f, fs (.iterb i, .final) = some f ∧ k = E.plotFinal f
  | (.run, .bkgChisq), k => ∃ r p, fs (.iter E.niter, .pars) = some p ∧ k = E.bkgDeep r p
  | _, _ => False

/-- The parameters before the redshift corrections (saved first, redsequencecal.py:198). -/
def Prelim (E : Ext R K W) (fs : Name → Option K) (n : Name) (k : K) : Prop :=
  ∃ i r a b, n = (.iter i, .pars) ∧ fs (memFile i) = some a ∧ fs (.top, .bkgColor) = some b ∧
    k = (E.pars r a b).1

/-- Every product in the directory is a possible result of its stage on the products in the directory. -/
def Good (E : Ext R K W) (zk : Option K) (w0 : W) (fs : Name → Option K) : Prop :=
  ∀ n k, n.1 ≠ .ext → fs n = some k → Made E zk w0 fs n k

/-- The same, but parameters may be the preliminary ones. -/
def GoodP (E : Ext R K W) (zk : Option K) (w0 : W) (fs : Name → Option K) : Prop :=
  ∀ n k, n.1 ≠ .ext → fs n = some k → Made E zk w0 fs n k ∨ Prelim E fs n k

/-- No stage that writes several files was cut short: its later files are there with its first one, and
parameters are the final ones. -/
structure Clean (E : Ext R K W) (zk : Option K) (w0 : W) (fs : Name → Option K) : Prop where
  model : (fs (.top, .redgals)).isSome → (fs (.top, .redmodel)).isSome
  colorcat : (fs (.top, .colormem)).isSome → (fs (.top, .colorcat)).isSome
  members : ∀ b, (fs (b, .final)).isSome → b ≠ .ext → (fs (b, .members)).isSome
  like : ∀ i, (fs (.iter i, .final)).isSome → (fs (.iter i, .like)).isSome
  pars : ∀ i k, fs (.iter i, .pars) = some k → Made E zk w0 fs (.iter i, .pars) k

/-- Nothing that was there has changed. -/
def Keeps (fs fs' : Name → Option K) : Prop := ∀ n k, fs n = some k → fs' n = some k

theorem keeps_refl (fs : Name → Option K) : Keeps fs fs := fun _ _ h => h

theorem keeps_trans {a b c : Name → Option K} (h : Keeps a b) (h' : Keeps b c) : Keeps a c :=
  fun n k e => h' n k (h n k e)

theorem keeps_upd {fs : Name → Option K} {n : Name} {k : K} (h : fs n = none) : Keeps fs (upd fs n k) := by
  intro m x hm
  unfold upd
  by_cases e : m = n
  · rw [e] at hm; rw [h] at hm; cases hm
  · rw [if_neg e]; exact hm

theorem upd_same (fs : Name → Option K) (n : Name) (k : K) : upd fs n k n = some k := by simp [upd]

theorem upd_ne {fs : Name → Option K} {n m : Name} {k : K} (h : m ≠ n) : upd fs n k m = fs m := by
  simp [upd, h]

theorem upd_upd (fs : Name → Option K) (n : Name) (k k' : K) : upd (upd fs n k) n k' = upd fs n k' := by
  funext m
  unfold upd
  by_cases e : m = n <;> simp [e]

theorem upd_mem (fs : Name → Option K) (n m : Name) (k x : K) (h : upd fs n k m = some x) :
    (m = n ∧ x = k) ∨ (m ≠ n ∧ fs m = some x) := by
  unfold upd at h
  by_cases e : m = n
  · rw [if_pos e] at h; exact Or.inl ⟨e, (Option.some.inj h).symm⟩
  · rw [if_neg e] at h; exact Or.inr ⟨e, h⟩

section mono

variable {E : Ext R K W} {zk : Option K} {w0 : W} {fs fs' : Name → Option K}

theorem WVal_mono (h : Keeps fs fs') {i : Nat} {w : W} (hw : WVal E w0 fs i w) : WVal E w0 fs' i w := by
  match i, hw with
  | 1, hw => exact hw
  | i + 2, ⟨k, hk, e⟩ => exact ⟨k, h _ _ hk, e⟩

theorem Uses_mono (h : Keeps fs fs') {i cat cc} {w : W} {zl x} (hu : Uses fs i cat cc w zl x) :
    Uses fs' i cat cc w zl x := by
  obtain ⟨a, b, c, d, e, f, g, g', hz⟩ := hu
  refine ⟨h _ _ a, h _ _ b, h _ _ c, h _ _ d, h _ _ e, h _ _ f, g, g', ?_⟩
  rcases hz with hz | ⟨n, k, h1, h2, h3⟩
  · exact Or.inl hz
  · exact Or.inr ⟨n, k, h1, h _ _ h2, h3⟩

theorem IterIn_mono (h : Keeps fs fs') {i x} (hu : IterIn E w0 fs i x) : IterIn E w0 fs' i x := by
  obtain ⟨w, a, b⟩ := hu
  exact ⟨w, WVal_mono h a, Uses_mono h b⟩

theorem RandIn_mono (h : Keeps fs fs') {i cc x} (hu : RandIn w0 fs i cc x) : RandIn w0 fs' i cc x :=
  Uses_mono h hu

theorem FinalIn_mono (h : Keeps fs fs') {i x} (hu : FinalIn E w0 fs i x) : FinalIn E w0 fs' i x := by
  obtain ⟨w, a, b⟩ := hu
  exact ⟨w, WVal_mono h a, Uses_mono h b⟩

theorem Made_mono (h : Keeps fs fs') {n : Name} {k : K} (hm : Made E zk w0 fs n k) :
    Made E zk w0 fs' n k := by
  obtain ⟨b, t⟩ := n
  cases b <;> cases t <;> simp only [Made] at hm ⊢ <;> try exact hm
  · obtain ⟨r, a, e⟩ := hm; exact ⟨r, h _ _ a, e⟩
  · obtain ⟨r, a, b, c, d, h1, h2, h3, h4, e⟩ := hm
    exact ⟨r, a, b, c, d, h _ _ h1, h _ _ h2, h _ _ h3, h _ _ h4, e⟩
  · obtain ⟨r, a, b, c, d, h1, h2, h3, h4, h5, e⟩ := hm
    exact ⟨r, a, b, c, d, h _ _ h1, h _ _ h2, h _ _ h3, h _ _ h4, h _ _ h5, e⟩
  · obtain ⟨a, b, h1, h2, e⟩ := hm; exact ⟨a, b, h _ _ h1, h _ _ h2, e⟩
  · obtain ⟨r, z, h1, e⟩ := hm; exact ⟨r, z, h _ _ h1, e⟩
  · obtain ⟨a, z, h1, h2, e⟩ := hm; exact ⟨a, z, h _ _ h1, h _ _ h2, e⟩
  · obtain ⟨r, a, p, h1, h2, e⟩ := hm; exact ⟨r, a, p, h _ _ h1, h _ _ h2, e⟩
  · obtain ⟨r, a, p, h1, h2, e⟩ := hm; exact ⟨r, a, p, h _ _ h1, h _ _ h2, e⟩
  · obtain ⟨r, z, h1, e⟩ := hm; exact ⟨r, z, h _ _ h1, e⟩
  · obtain ⟨r, z, h1, e⟩ := hm; exact ⟨r, z, h _ _ h1, e⟩
  · obtain ⟨q, r, a, p, h1, h2, e⟩ := hm; exact ⟨q, r, a, p, h _ _ h1, h _ _ h2, e⟩
  · obtain ⟨r, x, h1, e⟩ := hm; exact ⟨r, x, IterIn_mono h h1, e⟩
  · obtain ⟨r, x, h1, h2, e⟩ := hm; exact ⟨r, x, IterIn_mono h h1, h _ _ h2, e⟩
  · obtain ⟨r, x, h1, h2, e⟩ := hm; exact ⟨r, x, IterIn_mono h h1, h _ _ h2, e⟩
  · obtain ⟨i, a, b, h1, h2, e⟩ := hm; exact ⟨i, a, b, h _ _ h1, h _ _ h2, e⟩
  · obtain ⟨r, p, b, f, q, w, h1, h2, h3, h4, h5, e⟩ := hm
    refine ⟨r, p, b, f, q, w, h _ _ h1, h _ _ h2, h _ _ h3, WVal_mono h h4, ?_, e⟩
    rcases h5 with h5 | ⟨i1, u, v, a, b, c⟩
    · exact Or.inl h5
    · exact Or.inr ⟨i1, u, v, h _ _ a, h _ _ b, c⟩
  · obtain ⟨r, z, h1, e⟩ := hm; exact ⟨r, z, h _ _ h1, e⟩
  · obtain ⟨r, a, p, h1, h2, e⟩ := hm; exact ⟨r, a, p, h _ _ h1, h _ _ h2, e⟩
  · obtain ⟨a, z, h1, h2, e⟩ := hm; exact ⟨a, z, h _ _ h1, h _ _ h2, e⟩
  · obtain ⟨i, r, x, h1, e⟩ := hm; exact ⟨i, r, x, RandIn_mono h h1, e⟩
  · obtain ⟨i, r, x, h1, h2, e⟩ := hm; exact ⟨i, r, x, RandIn_mono h h1, h _ _ h2, e⟩
  · obtain ⟨i, r, x, h1, e⟩ := hm; exact ⟨i, r, x, RandIn_mono h h1, e⟩
  · obtain ⟨i, r, x, h1, h2, e⟩ := hm; exact ⟨i, r, x, RandIn_mono h h1, h _ _ h2, e⟩
  · obtain ⟨i, a, z, h1, h2, e⟩ := hm; exact ⟨i, a, z, h _ _ h1, h _ _ h2, e⟩
  · obtain ⟨i, r, a, p, h1, h2, e⟩ := hm; exact ⟨i, r, a, p, h _ _ h1, h _ _ h2, e⟩
  · obtain ⟨i, r, x, h1, e⟩ := hm; exact ⟨i, r, x, FinalIn_mono h h1, e⟩
  · obtain ⟨i, r, x, h1, h2, e⟩ := hm; exact ⟨i, r, x, FinalIn_mono h h1, h _ _ h2, e⟩
  · obtain ⟨i, f, h1, e⟩ := hm; exact ⟨i, f, h _ _ h1, e⟩
  · obtain ⟨r, p, h1, e⟩ := hm; exact ⟨r, p, h _ _ h1, e⟩

theorem Prelim_mono (h : Keeps fs fs') {n : Name} {k : K} (hm : Prelim E fs n k) : Prelim E fs' n k := by
  obtain ⟨i, r, a, b, e, h1, h2, e'⟩ := hm
  exact ⟨i, r, a, b, e, h _ _ h1, h _ _ h2, e'⟩

end mono

/-! ## Weakest preconditions -/

/-- `Q` holds of the value and the state when `m` returns, `X` of the state when it does not. -/
def wp {α : Type} (m : M K W α) (Q : α → St K W → Prop) (X : St K W → Prop) (s : St K W) : Prop :=
  match m s with
  | (some a, s') => Q a s'
  | (none, s') => X s'

section wp

variable {α β : Type} {Q : β → St K W → Prop} {Q' : α → St K W → Prop} {X : St K W → Prop} {s : St K W}

theorem wp_bind {m : M K W α} {f : α → M K W β} (h : wp m (fun a s' => wp (f a) Q X s') X s) :
    wp (m >>= f) Q X s := by
  unfold wp at h ⊢
  show match M.andThen m f s with
    | (some a, s') => Q a s'
    | (none, s') => X s'
  unfold M.andThen
  cases hm : m s with
  | mk o s' =>
    rw [hm] at h
    cases o with
    | none => exact h
    | some a => exact h

theorem wp_conseq {m : M K W α} {Q'' : α → St K W → Prop} (h : wp m Q' X s)
    (hq : ∀ a s', Q' a s' → Q'' a s') : wp m Q'' X s := by
  unfold wp at h ⊢
  cases hm : m s with
  | mk o s' =>
    rw [hm] at h
    cases o with
    | none => exact h
    | some a => exact hq _ _ h

theorem wp_seq {m : M K W α} {f : α → M K W β} (h : wp m Q' X s)
    (hf : ∀ a s', Q' a s' → wp (f a) Q X s') : wp (m >>= f) Q X s :=
  wp_bind (wp_conseq h hf)

theorem wp_pure {a : α} (h : Q' a s) : wp (M.pure a) Q' X s := h

theorem wp_set {g : Cfg W → Cfg W} {f : Unit → M K W β} (h : wp (f ()) Q X { s with cfg := g s.cfg }) :
    wp (setCfg g >>= f) Q X s := wp_bind h

theorem wp_set' {Q : Unit → St K W → Prop} {g : Cfg W → Cfg W} (h : Q () { s with cfg := g s.cfg }) :
    wp (setCfg g) Q X s := h

theorem wp_get {f : Cfg W → M K W β} (h : wp (f s.cfg) Q X s) : wp (getCfg >>= f) Q X s := wp_bind h

theorem wp_ifMissing {Q : Unit → St K W → Prop} {n : Name} {body : M K W Unit}
    (h1 : ∀ k, s.fs n = some k → Q () s) (h2 : s.fs n = none → wp body Q X s) :
    wp (ifMissing n body) Q X s := by
  cases h : s.fs n with
  | none =>
    have := h2 h
    unfold wp at this ⊢
    unfold ifMissing
    rw [h]
    exact this
  | some k =>
    have := h1 k h
    unfold wp
    unfold ifMissing
    rw [h]
    exact this

theorem wp_read {n : Name} {f : K → M K W β} (h1 : ∀ k, s.fs n = some k → wp (f k) Q X s)
    (h2 : s.fs n = none → X s) : wp (read (some n) >>= f) Q X s := by
  apply wp_bind
  cases h : s.fs n with
  | none =>
    have := h2 h
    unfold wp read
    simp only [h]
    exact this
  | some k =>
    have := h1 k h
    unfold wp read
    simp only [h]
    exact this

theorem wp_tryRead {o : Option Name} {f : Option K → M K W β} (h : wp (f (o.bind s.fs)) Q X s) :
    wp (tryRead o >>= f) Q X s := by
  apply wp_bind
  unfold wp tryRead
  cases o with
  | none => exact h
  | some n => exact h

theorem wp_write {C : Prop} {Q : Unit → St K W → Prop} {n : Name} {k : K} (hb : C → s.budget = none)
    (h1 : ∀ b, (C → b = none) → Q () { s with fs := upd s.fs n k, budget := b }) (h2 : ¬ C → X s) :
    wp (write n k) Q X s := by
  unfold wp write
  cases h : s.budget with
  | none => exact h1 none fun _ => rfl
  | some b =>
    have hC : ¬ C := fun c => by have := hb c; rw [h] at this; cases this
    cases b with
    | zero => exact h2 hC
    | succ b => exact h1 (some b) fun c => absurd c hC

end wp

/-! ## The invariant of a session -/

section session

variable (E : Ext R K W) (zk : Option K) (w0 : W) (fs0 : Name → Option K) (C : Prop)

/-- What holds at any moment of a session that started in the directory `fs0`; `C` says that the session is not
interrupted and started in a clean directory. -/
structure Mid (fs : Name → Option K) (bud : Option Nat) : Prop where
  keeps : Keeps fs0 fs
  ext : ∀ n, n.1 = .ext → fs n = fs0 n
  good : GoodP E zk w0 fs
  bud : C → bud = none

/-- What holds between two stages. -/
structure Inv (S : Name → Prop) (fs : Name → Option K) (bud : Option Nat) : Prop
    extends Mid E zk w0 fs0 C fs bud where
  has : ∀ n, S n → (fs n).isSome
  clean : C → Clean E zk w0 fs

/-- What holds when the session stops early. -/
def Bad (s : St K W) : Prop := Mid E zk w0 fs0 C s.fs s.budget ∧ ¬ C

variable {E zk w0 fs0 C}

theorem Inv.weaken {S S' : Name → Prop} {s : St K W} (h : Inv E zk w0 fs0 C S s.fs s.budget) (hs : ∀ n, S' n → S n) :
    Inv E zk w0 fs0 C S' s.fs s.budget := ⟨h.toMid, fun n hn => h.has n (hs n hn), h.clean⟩

theorem goodP_upd {fs : Name → Option K} {n : Name} {k : K} (h : GoodP E zk w0 fs) (hn : fs n = none)
    (hm : Made E zk w0 (upd fs n k) n k ∨ Prelim E (upd fs n k) n k) : GoodP E zk w0 (upd fs n k) := by
  intro m x hx hm'
  rcases upd_mem _ _ _ _ _ hm' with ⟨rfl, rfl⟩ | ⟨_, hm''⟩
  · exact hm
  · rcases h m x hx hm'' with h' | h'
    · exact Or.inl (Made_mono (keeps_upd hn) h')
    · exact Or.inr (Prelim_mono (keeps_upd hn) h')

theorem Mid.write {fs : Name → Option K} {bud : Option Nat} {n : Name} {k : K} (h : Mid E zk w0 fs0 C fs bud)
    (hn : fs n = none)
    (hne : n.1 ≠ .ext)
    (hm : Made E zk w0 (upd fs n k) n k ∨ Prelim E (upd fs n k) n k) (b : Option Nat)
    (hb : C → b = none) :
    Mid E zk w0 fs0 C (upd fs n k) b := by
  refine ⟨keeps_trans h.keeps (keeps_upd hn), ?_, goodP_upd h.good hn hm, hb⟩
  intro m hm'
  have : m ≠ n := by rintro rfl; exact hne hm'
  rw [upd_ne this]
  exact h.ext m hm'

theorem isSome_upd {fs : Name → Option K} {n m : Name} {k : K} (h : (fs m).isSome) :
    (upd fs n k m).isSome := by
  unfold upd
  by_cases e : m = n
  · rw [if_pos e]; rfl
  · rw [if_neg e]; exact h

theorem isSome_upd_ne {fs : Name → Option K} {n m : Name} {k : K} (e : m ≠ n) (h : (upd fs n k m).isSome) :
    (fs m).isSome := by
  rw [upd_ne e] at h; exact h

theorem isSome_get {o : Option K} (h : o.isSome) : ∃ k, o = some k := Option.isSome_iff_exists.mp h

theorem isSome_of {o : Option K} {k : K} (h : o = some k) : o.isSome := by rw [h]; rfl

/-- Clean directories stay clean when a file that starts no multi-file stage is added. -/
theorem Clean.upd {fs : Name → Option K} {n : Name} {k : K} (h : Clean E zk w0 fs) (hn : fs n = none)
    (h1 : n.2 ≠ .redgals) (h2 : n.2 ≠ .colormem) (h3 : n.2 ≠ .final) (h4 : n.2 ≠ .pars) :
    Clean E zk w0 (upd fs n k) := by
  have ne : ∀ (b : Base) (t : Kind), n.2 ≠ t → ((b, t) : Name) ≠ n := by
    rintro b t ht rfl; exact ht rfl
  refine ⟨fun h' => ?_, fun h' => ?_, fun b h' hb => ?_, fun i h' => ?_, fun i k' h' => ?_⟩
  · exact isSome_upd (h.model (isSome_upd_ne (ne _ _ h1) h'))
  · exact isSome_upd (h.colorcat (isSome_upd_ne (ne _ _ h2) h'))
  · exact isSome_upd (h.members b (isSome_upd_ne (ne _ _ h3) h') hb)
  · exact isSome_upd (h.like i (isSome_upd_ne (ne _ _ h3) h'))
  · rw [upd_ne (ne _ _ h4)] at h'
    exact Made_mono (keeps_upd hn) (h.pars i k' h')

/-- A stage that writes one file. -/
theorem Inv.write {S : Name → Prop} {fs : Name → Option K} {bud : Option Nat} {n : Name} {k : K}
    (h : Inv E zk w0 fs0 C S fs bud)
    (hn : fs n = none) (hne : n.1 ≠ .ext) (hm : Made E zk w0 (upd fs n k) n k) (b : Option Nat)
    (hb : C → b = none)
    (h1 : n.2 ≠ .redgals) (h2 : n.2 ≠ .colormem) (h3 : n.2 ≠ .final) (h4 : n.2 ≠ .pars) :
    Inv E zk w0 fs0 C (fun m => S m ∨ m = n) (upd fs n k) b := by
  refine ⟨h.toMid.write hn hne (Or.inl hm) b hb, ?_, fun hC => (h.clean hC).upd hn h1 h2 h3 h4⟩
  rintro m (hm' | rfl)
  · exact isSome_upd (h.has m hm')
  · exact isSome_of (upd_same _ _ _)

theorem Inv.add {S : Name → Prop} {s : St K W} {n : Name} {k : K} (h : Inv E zk w0 fs0 C S s.fs s.budget)
    (hn : s.fs n = some k) : Inv E zk w0 fs0 C (fun m => S m ∨ m = n) s.fs s.budget := by
  refine ⟨h.toMid, ?_, h.clean⟩
  rintro m (hm' | rfl)
  · exact h.has m hm'
  · exact isSome_of hn

/-- A file that must be there is read, or the session was not clean. -/
theorem Inv.absent {S : Name → Prop} {s : St K W} {n : Name} (h : Inv E zk w0 fs0 C S s.fs s.budget) (hs : C → (s.fs n).isSome)
    (hn : s.fs n = none) : Bad E zk w0 fs0 C s := by
  refine ⟨h.toMid, fun c => ?_⟩
  have := hs c
  rw [hn] at this
  cases this

theorem wp_stColor {S : Name → Prop} {s : St K W} (r : R) (h : Inv E zk w0 fs0 C S s.fs s.budget) (hd : s.cfg.dOut = .top) :
    wp (stColor E r) (fun _ s' => Inv E zk w0 fs0 C (fun m => S m ∨ m = (.top, .bkgColor)) s'.fs s'.budget ∧
      s'.cfg = { s.cfg with bkgfileColor := some (.top, .bkgColor) }) (Bad E zk w0 fs0 C) s := by
  unfold stColor
  refine wp_set (wp_get ?_)
  simp only [hd]
  refine wp_ifMissing (fun k hk => ⟨h.add hk, rfl⟩) fun hn => ?_
  refine wp_write (C := C) h.bud (fun b hb => ⟨?_, rfl⟩) fun hC => ⟨h.toMid, hC⟩
  exact h.write hn (by decide) ⟨r, rfl⟩ b hb (by decide) (by decide) (by decide) (by decide)

theorem wp_stMask {S : Name → Prop} {s : St K W} (r : R) (h : Inv E zk w0 fs0 C S s.fs s.budget) (hd : s.cfg.dOut = .top) :
    wp (stMask E r) (fun _ s' => Inv E zk w0 fs0 C (fun m => S m ∨ m = (.top, .maskgals)) s'.fs s'.budget ∧
      s'.cfg = { s.cfg with maskgalfile := some (.top, .maskgals) }) (Bad E zk w0 fs0 C) s := by
  unfold stMask
  refine wp_set (wp_get ?_)
  simp only [hd]
  refine wp_ifMissing (fun k hk => ⟨h.add hk, rfl⟩) fun hn => ?_
  refine wp_write (C := C) h.bud (fun b hb => ⟨?_, rfl⟩) fun hC => ⟨h.toMid, hC⟩
  exact h.write hn (by decide) ⟨r, rfl⟩ b hb (by decide) (by decide) (by decide) (by decide)

theorem wp_stRed {S : Name → Prop} {s : St K W} (r : R) (h : Inv E zk w0 fs0 C S s.fs s.budget) (hd : s.cfg.dOut = .top)
    : wp (stRed E r) (fun _ s' => Inv E zk w0 fs0 C (fun m => S m ∨ m = (.top, .redgals)) s'.fs s'.budget ∧
      s'.cfg = { s.cfg with redgalfile := some (.top, .redgals), redgalmodelfile := some (.top, .redmodel) })
      (Bad E zk w0 fs0 C) s := by
  unfold stRed
  refine wp_set (wp_get ?_)
  simp only [hd]
  refine wp_ifMissing (fun k hk => ⟨h.add hk, rfl⟩) fun hn => ?_
  have hn : s.fs (.top, .redgals) = none := hn
  refine wp_bind (wp_write (C := C) h.bud (fun b hb => ?_) fun hC => ⟨h.toMid, hC⟩)
  have m1 := h.toMid.write (n := (.top, .redgals)) (k := (E.selRed r).1) hn (by decide) (Or.inl ⟨r, rfl⟩) b hb
  have hn2 : upd s.fs (.top, .redgals) (E.selRed r).1 (.top, .redmodel) = none := by
    cases e : upd s.fs (.top, .redgals) (E.selRed r).1 (.top, .redmodel) with
    | none => rfl
    | some k =>
      rw [upd_ne (by decide)] at e
      rcases h.good _ _ (by decide) e with ⟨r', h', _⟩ | ⟨i, _, _, _, h', _⟩
      · rw [hn] at h'; cases h'
      · cases h'
  refine wp_write (C := C) hb (fun b' hb' => ⟨?_, rfl⟩) fun hC => ⟨m1, hC⟩
  dsimp only
  refine ⟨m1.write hn2 (by decide) (Or.inl ⟨r, ?_, rfl⟩) b' hb', ?_, fun hC => ?_⟩
  · rw [upd_ne (by decide)]; exact upd_same _ _ _
  · rintro m (hm | rfl)
    · exact isSome_upd (isSome_upd (h.has m hm))
    · exact isSome_upd (isSome_of (upd_same _ _ _))
  · have c := h.clean hC
    refine ⟨fun _ => isSome_of (upd_same _ _ _), fun h' => ?_, fun b h' hb => ?_, fun i h' => ?_,
      fun i k' h' => ?_⟩
    · exact isSome_upd (isSome_upd (c.colorcat (isSome_upd_ne (by simp) (isSome_upd_ne (by simp) h'))))
    · exact isSome_upd (isSome_upd (c.members b (isSome_upd_ne (by simp) (isSome_upd_ne (by simp) h')) hb))
    · exact isSome_upd (isSome_upd (c.like i (isSome_upd_ne (by simp) (isSome_upd_ne (by simp) h'))))
    · have h' : upd (upd s.fs (.top, .redgals) (E.selRed r).1) (.top, .redmodel) (E.selRed r).2 (.iter i, .pars)
        = some k' := h'
      rw [upd_ne (by simp), upd_ne (by simp)] at h'
      exact Made_mono (keeps_trans (keeps_upd hn) (keeps_upd hn2)) (c.pars i k' h')

theorem wp_stColormem {S : Name → Prop} {s : St K W} (r : R) (h : Inv E zk w0 fs0 C S s.fs s.budget)
    (hd : s.cfg.dOut = .top) (h1 : s.cfg.redgalfile = some (.top, .redgals))
    (h2 : s.cfg.redgalmodelfile = some (.top, .redmodel)) (h3 : s.cfg.bkgfileColor = some (.top, .bkgColor))
    (h4 : s.cfg.maskgalfile = some (.top, .maskgals)) (s1 : S (.top, .redgals)) (s3 : S (.top, .bkgColor))
    (s4 : S (.top, .maskgals)) :
    wp (stColormem E r) (fun _ s' => Inv E zk w0 fs0 C (fun m => S m ∨ m = (.top, .colormem)) s'.fs s'.budget ∧
      s'.cfg = { s.cfg with zmemfile := some (.top, .colormem) }) (Bad E zk w0 fs0 C) s := by
  unfold stColormem
  refine wp_set (wp_get ?_)
  simp only [hd, h1, h2, h3, h4]
  refine wp_ifMissing (fun k hk => ⟨h.add hk, rfl⟩) fun hn => ?_
  have hn : s.fs (.top, .colormem) = none := hn
  refine wp_read (fun a ha => ?_) (h.absent fun _ => h.has _ s1)
  refine wp_read (fun b hb => ?_) (h.absent fun hC => (h.clean hC).model (h.has _ s1))
  refine wp_read (fun c hc => ?_) (h.absent fun _ => h.has _ s3)
  refine wp_read (fun d hd' => ?_) (h.absent fun _ => h.has _ s4)
  have ha : s.fs (.top, .redgals) = some a := ha
  have hb : s.fs (.top, .redmodel) = some b := hb
  have hc : s.fs (.top, .bkgColor) = some c := hc
  have hd' : s.fs (.top, .maskgals) = some d := hd'
  refine wp_bind (wp_write (C := C) h.bud (fun bu hbu => ?_) fun hC => ⟨h.toMid, hC⟩)
  have k1 : Keeps s.fs (upd s.fs (.top, .colormem) (E.colormem r a b c d).1) := keeps_upd hn
  have m1 := h.toMid.write (n := (.top, .colormem)) (k := (E.colormem r a b c d).1) hn (by decide)
    (Or.inl ⟨r, a, b, c, d, k1 _ _ ha, k1 _ _ hb, k1 _ _ hc, k1 _ _ hd', rfl⟩) bu hbu
  have hn2 : upd s.fs (.top, .colormem) (E.colormem r a b c d).1 (.top, .colorcat) = none := by
    cases e : upd s.fs (.top, .colormem) (E.colormem r a b c d).1 (.top, .colorcat) with
    | none => rfl
    | some k =>
      rw [upd_ne (by decide)] at e
      rcases h.good _ _ (by decide) e with ⟨_, _, _, _, _, _, _, _, _, h', _⟩ | ⟨i, _, _, _, h', _⟩
      · rw [hn] at h'; cases h'
      · cases h'
  have k2 : Keeps _ (upd (upd s.fs (.top, .colormem) (E.colormem r a b c d).1) (.top, .colorcat)
    (E.colormem r a b c d).2) := keeps_trans k1 (keeps_upd hn2)
  refine wp_write (C := C) hbu (fun b' hb' => ⟨?_, rfl⟩) fun hC => ⟨m1, hC⟩
  dsimp only
  refine ⟨m1.write hn2 (by decide) (Or.inl ⟨r, a, b, c, d, k2 _ _ ha, k2 _ _ hb, k2 _ _ hc, k2 _ _ hd', ?_, rfl⟩)
    b' hb', ?_, fun hC => ?_⟩
  · rw [upd_ne (by decide)]; exact upd_same _ _ _
  · rintro m (hm | rfl)
    · exact isSome_upd (isSome_upd (h.has m hm))
    · exact isSome_upd (isSome_of (upd_same _ _ _))
  · have c := h.clean hC
    refine ⟨fun h' => ?_, fun _ => isSome_of (upd_same _ _ _), fun b h' hb => ?_, fun i h' => ?_,
      fun i k' h' => ?_⟩
    · exact isSome_upd (isSome_upd (c.model (isSome_upd_ne (by simp) (isSome_upd_ne (by simp) h'))))
    · exact isSome_upd (isSome_upd (c.members b (isSome_upd_ne (by simp) (isSome_upd_ne (by simp) h')) hb))
    · exact isSome_upd (isSome_upd (c.like i (isSome_upd_ne (by simp) (isSome_upd_ne (by simp) h'))))
    · change upd (upd s.fs _ _) _ _ (Base.iter i, Kind.pars) = some k' at h'
      rw [upd_ne (by simp), upd_ne (by simp)] at h'
      exact Made_mono k2 (c.pars i k' h')

theorem wp_stTrain {S : Name → Prop} {s : St K W} (r : R) (h : Inv E zk w0 fs0 C S s.fs s.budget)
    (hd : s.cfg.dOut = .top) (hz : ∀ n, s.cfg.zredfile = some n → n.1 = .ext)
    (hk : zk = s.cfg.zredfile.bind fs0) :
    wp (stSeeds E r true .trainSeeds)
      (fun _ s' => Inv E zk w0 fs0 C (fun m => S m ∨ m = (.top, .trainSeeds)) s'.fs s'.budget ∧
        s'.cfg = { s.cfg with seedfile := some (.top, .trainSeeds) }) (Bad E zk w0 fs0 C) s := by
  unfold stSeeds
  refine wp_set (wp_get ?_)
  simp only [hd]
  refine wp_ifMissing (fun k hk => ⟨h.add hk, rfl⟩) fun hn => ?_
  refine wp_tryRead ?_
  have e : s.cfg.zredfile.bind s.fs = zk := by
    rw [hk]
    cases hq : s.cfg.zredfile with
    | none => rfl
    | some n => exact h.ext n (hz n hq)
  refine wp_write (C := C) h.bud (fun b hb => ⟨?_, rfl⟩) fun hC => ⟨h.toMid, hC⟩
  exact h.write hn (by decide) ⟨r, by rw [e]⟩ b hb (by decide) (by decide) (by decide) (by decide)

theorem wp_stSpecSeeds {S : Name → Prop} {s : St K W} (r : R) (h : Inv E zk w0 fs0 C S s.fs s.budget)
    (hd : s.cfg.dOut = .top) (hz : s.cfg.zredfile = some (.iter E.niter, .zreds))
    (s1 : S (.iter E.niter, .zreds)) :
    wp (stSeeds E r false .specseeds)
      (fun _ s' => Inv E zk w0 fs0 C (fun m => S m ∨ m = (.top, .specseeds)) s'.fs s'.budget ∧
        s'.cfg = { s.cfg with seedfile := some (.top, .specseeds) }) (Bad E zk w0 fs0 C) s := by
  unfold stSeeds
  refine wp_set (wp_get ?_)
  simp only [hd]
  refine wp_ifMissing (fun k hk => ⟨h.add hk, rfl⟩) fun hn => ?_
  refine wp_tryRead ?_
  simp only [hz]
  obtain ⟨z, e⟩ := isSome_get (h.has _ s1)
  refine wp_write (C := C) h.bud (fun b hb => ⟨?_, rfl⟩) fun hC => ⟨h.toMid, hC⟩
  refine h.write hn (by simp) ⟨r, z, ?_, ?_⟩ b hb (by decide) (by decide) (by decide) (by decide)
  · exact keeps_upd hn _ _ e
  · show E.seeds r false ((some _).bind s.fs) = _
    rw [Option.bind_some, e]

theorem wp_stPars {S : Name → Prop} {s : St K W} (r : R) {i : Nat} (h : Inv E zk w0 fs0 C S s.fs s.budget)
    (hd : s.cfg.dOut = .iter i) (h1 : s.cfg.zmemfile = some (memFile i))
    (h2 : s.cfg.bkgfileColor = some (.top, .bkgColor)) (s1 : S (memFile i)) (s2 : S (.top, .bkgColor)) :
    wp (stPars E r) (fun _ s' => Inv E zk w0 fs0 C (fun m => S m ∨ m = (.iter i, .pars)) s'.fs s'.budget ∧
      s'.cfg = { s.cfg with parfile := some (.iter i, .pars) }) (Bad E zk w0 fs0 C) s := by
  unfold stPars
  refine wp_set (wp_get ?_)
  simp only [hd, h1, h2]
  refine wp_ifMissing (fun k hk => ⟨h.add hk, rfl⟩) fun hn => ?_
  have hn : s.fs (.iter i, .pars) = none := hn
  refine wp_read (fun a ha => ?_) (h.absent fun _ => h.has _ s1)
  refine wp_read (fun b hb => ?_) (h.absent fun _ => h.has _ s2)
  refine wp_bind (wp_write (C := C) h.bud (fun bu hbu => ?_) fun hC => ⟨h.toMid, hC⟩)
  have k1 : ∀ k, Keeps s.fs (upd s.fs (.iter i, .pars) k) := fun k => keeps_upd hn
  refine wp_write (C := C) hbu (fun b' hb' => ⟨?_, rfl⟩) fun hC => ⟨?_, hC⟩
  · simp only [upd_upd]
    have hm : Made E zk w0 (upd s.fs (.iter i, .pars) (E.pars r a b).2) (.iter i, .pars) (E.pars r a b).2 :=
      ⟨r, a, b, k1 _ _ _ ha, k1 _ _ _ hb, rfl⟩
    refine ⟨h.toMid.write hn (by simp) (Or.inl hm) b' hb', ?_, fun hC => ?_⟩
    · rintro m (hm | rfl)
      · exact isSome_upd (h.has m hm)
      · exact isSome_of (upd_same _ _ _)
    · have c := h.clean hC
      refine ⟨fun h' => ?_, fun h' => ?_, fun b h' hb => ?_, fun j h' => ?_, fun j k' h' => ?_⟩
      · exact isSome_upd (c.model (isSome_upd_ne (n := (.iter i, .pars)) (by simp) h'))
      · exact isSome_upd (c.colorcat (isSome_upd_ne (n := (.iter i, .pars)) (by simp) h'))
      · exact isSome_upd (c.members b (isSome_upd_ne (n := (.iter i, .pars)) (by simp) h') hb)
      · exact isSome_upd (c.like j (isSome_upd_ne (n := (.iter i, .pars)) (by simp) h'))
      · rcases upd_mem _ _ _ _ _ h' with ⟨e, rfl⟩ | ⟨_, h''⟩
        · rw [e]; exact hm
        · exact Made_mono (k1 _) (c.pars j k' h'')
  · exact h.toMid.write hn (by simp) (Or.inr ⟨i, r, a, b, rfl, k1 _ _ _ ha, k1 _ _ _ hb, rfl⟩) bu hbu

theorem wp_stZreds {S : Name → Prop} {s : St K W} (r : R) {i : Nat} (h : Inv E zk w0 fs0 C S s.fs s.budget)
    (hd : s.cfg.dOut = .iter i) (h1 : s.cfg.parfile = some (.iter i, .pars)) (s1 : S (.iter i, .pars)) :
    wp (stZreds E r) (fun _ s' => Inv E zk w0 fs0 C (fun m => S m ∨ m = (.iter i, .zreds)) s'.fs s'.budget ∧
      s'.cfg = { s.cfg with zredfile := some (.iter i, .zreds) }) (Bad E zk w0 fs0 C) s := by
  unfold stZreds
  refine wp_set (wp_get ?_)
  simp only [hd, h1]
  refine wp_ifMissing (fun k hk => ⟨h.add hk, rfl⟩) fun hn => ?_
  refine wp_read (fun p hp => ?_) (h.absent fun _ => h.has _ s1)
  refine wp_write (C := C) h.bud (fun b hb => ⟨?_, rfl⟩) fun hC => ⟨h.toMid, hC⟩
  exact h.write hn (by simp) ⟨r, p, keeps_upd hn _ _ hp, rfl⟩ b hb (by simp) (by simp) (by simp) (by simp)

theorem wp_stBkg {S : Name → Prop} {s : St K W} (r : R) {i : Nat} {c : Cfg W} {t : Bool}
    (h : Inv E zk w0 fs0 C S s.fs s.budget)
    (h1 : c.parfile = some (.iter i, .pars)) (s1 : S (.iter i, .pars))
    (ht : t = (s.fs (.iter i, .bkgChisq)).isNone) :
    wp (stBkg E r c (.iter i) t)
      (fun _ s' => Inv E zk w0 fs0 C (fun m => S m ∨ m = (.iter i, .bkgChisq)) s'.fs s'.budget ∧ s'.cfg = s.cfg ∧
        s'.fs (.iter i, .bkgZred) = s.fs (.iter i, .bkgZred)) (Bad E zk w0 fs0 C) s := by
  subst ht
  cases e : s.fs (.iter i, .bkgChisq) with
  | some k => exact ⟨h.add e, rfl, rfl⟩
  | none =>
    show wp (stBkg E r c (.iter i) true) _ _ _
    unfold stBkg
    simp only [h1]
    refine wp_ifMissing (fun k hk => ⟨h.add hk, rfl, rfl⟩) fun hn => ?_
    refine wp_read (fun p hp => ?_) (h.absent fun _ => h.has _ s1)
    refine wp_write (C := C) h.bud (fun b hb => ⟨?_, rfl, upd_ne (by simp)⟩) fun hC => ⟨h.toMid, hC⟩
    exact h.write hn (by simp) ⟨r, p, keeps_upd hn _ _ hp, rfl⟩ b hb (by simp) (by simp) (by simp) (by simp)

theorem wp_stZbkg {S : Name → Prop} {s : St K W} (r : R) {i : Nat} {c : Cfg W} {t : Bool}
    (h : Inv E zk w0 fs0 C S s.fs s.budget)
    (h1 : c.parfile = some (.iter i, .pars)) (h2 : c.zredfile = some (.iter i, .zreds))
    (s1 : S (.iter i, .pars)) (s2 : S (.iter i, .zreds)) (hC : C → E.pixelized = true)
    (ht : t = (s.fs (.iter i, .bkgZred)).isNone) :
    wp (stZbkg E r c (.iter i) t)
      (fun _ s' => Inv E zk w0 fs0 C (fun m => S m ∨ m = (.iter i, .bkgZred)) s'.fs s'.budget ∧ s'.cfg = s.cfg)
      (Bad E zk w0 fs0 C) s := by
  subst ht
  cases e : s.fs (.iter i, .bkgZred) with
  | some k => exact ⟨h.add e, rfl⟩
  | none =>
    show wp (stZbkg E r c (.iter i) true) _ _ _
    unfold stZbkg
    simp only [h1, h2]
    refine wp_read (fun z hz => ?_) (h.absent fun _ => h.has _ s2)
    refine wp_ifMissing (fun k hk => ⟨h.add hk, rfl⟩) fun hn => ?_
    refine wp_read (fun p hp => ?_) (h.absent fun _ => h.has _ s1)
    cases hx : E.pixelized with
    | false => exact ⟨h.toMid, fun c => by have := hC c; rw [hx] at this; cases this⟩
    | true =>
      refine wp_write (C := C) h.bud (fun b hb => ⟨?_, rfl⟩) fun hC => ⟨h.toMid, hC⟩
      exact h.write hn (by simp) ⟨hx, r, p, z, keeps_upd hn _ _ hp, keeps_upd hn _ _ hz, rfl⟩ b hb (by simp)
        (by simp) (by simp) (by simp)

theorem wp_stBkgs {S : Name → Prop} {s : St K W} (r : R) {i : Nat} (h : Inv E zk w0 fs0 C S s.fs s.budget)
    (hd : s.cfg.dOut = .iter i) (h1 : s.cfg.parfile = some (.iter i, .pars))
    (h2 : s.cfg.zredfile = some (.iter i, .zreds)) (s1 : S (.iter i, .pars)) (s2 : S (.iter i, .zreds))
    (hC : C → E.pixelized = true) :
    wp (stBkgs E r)
      (fun _ s' => Inv E zk w0 fs0 C (fun m => (S m ∨ m = (.iter i, .bkgChisq)) ∨ m = (.iter i, .bkgZred))
          s'.fs s'.budget ∧
        s'.cfg = { s.cfg with bkgfile := some (.iter i) }) (Bad E zk w0 fs0 C) s := by
  unfold stBkgs
  refine wp_set (wp_get ?_)
  simp only [hd]
  refine wp_bind ?_
  show wp (do
    stBkg E r _ _ (s.fs (.iter i, .bkgChisq)).isNone
    stZbkg E r _ _ (s.fs (.iter i, .bkgZred)).isNone) _ _ _
  refine wp_seq (wp_stBkg r h h1 s1 rfl) fun _ s' h' => ?_
  refine wp_conseq (wp_stZbkg r h'.1 h1 h2 (Or.inl s1) (Or.inl s2) hC (by rw [h'.2.2])) fun _ s'' h'' => ?_
  exact ⟨h''.1, h''.2.trans h'.2.1⟩

/-- Whose seeds are joined with zreds under the output base `b`. -/
def SeedOf (E : Ext R K W) (b : Base) (n : Name) (i : Nat) : Prop :=
  (b = .iter i ∧ n = seedFile i) ∨ (b = .iterb i ∧ i = E.niter ∧ n = (.top, .specseeds))

theorem SeedOf.ne {b : Base} {n : Name} {i : Nat} (h : SeedOf E b n i) : b ≠ .ext := by
  rcases h with ⟨rfl, _⟩ | ⟨rfl, _⟩ <;> simp

theorem SeedOf.made1 {b : Base} {n : Name} {i : Nat} (h : SeedOf E b n i) {fs : Name → Option K} {r : R} {a p : K}
    (ha : fs n = some a) (hp : fs (.iter i, .pars) = some p) :
    Made E zk w0 fs (b, .seedzreds) (E.seedZreds r a p) := by
  rcases h with ⟨rfl, rfl⟩ | ⟨rfl, hi, rfl⟩
  · exact ⟨r, a, p, ha, hp, rfl⟩
  · exact ⟨hi, r, a, p, ha, hp, rfl⟩

theorem SeedOf.made2 {b : Base} {n : Name} {i : Nat} (h : SeedOf E b n i) {fs : Name → Option K} {a z : K}
    (ha : fs n = some a) (hz : fs (b, .seedzreds) = some z) :
    Made E zk w0 fs (b, .specseeds) (E.joinSeeds a z) := by
  rcases h with ⟨rfl, rfl⟩ | ⟨rfl, hi, rfl⟩
  · exact ⟨a, z, ha, hz, rfl⟩
  · exact ⟨hi, a, z, ha, hz, rfl⟩

theorem wp_stIterSeeds {S : Name → Prop} {s : St K W} (r : R) {i : Nat} {b : Base} {n : Name}
    (h : Inv E zk w0 fs0 C S s.fs s.budget)
    (hd : s.cfg.dOut = b) (hb : SeedOf E b n i) (h1 : s.cfg.seedfile = some n)
    (h2 : s.cfg.parfile = some (.iter i, .pars)) (s1 : S n) (s2 : S (.iter i, .pars)) :
    wp (stIterSeeds E r)
      (fun _ s' => Inv E zk w0 fs0 C (fun m => S m ∨ m = (b, .specseeds)) s'.fs s'.budget ∧ s'.cfg = s.cfg)
      (Bad E zk w0 fs0 C) s := by
  unfold stIterSeeds
  refine wp_get ?_
  simp only [hd, h1, h2]
  refine wp_ifMissing (fun k hk => ⟨h.add hk, rfl⟩) fun hn => ?_
  refine wp_read (fun a ha => ?_) (h.absent fun _ => h.has _ s1)
  refine wp_read (fun p hp => ?_) (h.absent fun _ => h.has _ s2)
  have done : ∀ (s' : St K W) (hI : Inv E zk w0 fs0 C S s'.fs s'.budget) (hz : (s'.fs (b, .seedzreds)).isSome)
      (_ : Keeps s.fs s'.fs) (hn' : s'.fs (b, .specseeds) = none) (hc : s'.cfg = s.cfg),
      wp (do
        let z ← read (some (b, .seedzreds))
        write (b, .specseeds) (E.joinSeeds a z))
        (fun _ s' => Inv E zk w0 fs0 C (fun m => S m ∨ m = (b, .specseeds)) s'.fs s'.budget ∧ s'.cfg = s.cfg)
        (Bad E zk w0 fs0 C) s' := by
    intro s' hI hz hk hn' hc
    refine wp_read (fun z hz => ?_) (hI.absent fun _ => hz)
    refine wp_write (C := C) hI.bud (fun bu hbu => ⟨?_, hc⟩) fun hC => ⟨hI.toMid, hC⟩
    exact hI.write hn' hb.ne (hb.made2 (keeps_upd hn' _ _ (hk _ _ ha)) (keeps_upd hn' _ _ hz)) bu hbu (by simp)
      (by simp) (by simp) (by simp)
  refine wp_bind ?_
  cases e : s.fs (b, .seedzreds) with
  | some k =>
    have ea : append (b, .seedzreds) (E.seedZreds r a p) s = write (b, .seedzreds) k s := by
      unfold append; rw [e]
    have eu : upd s.fs (b, .seedzreds) k = s.fs := by
      funext m
      unfold upd
      by_cases q : m = (b, .seedzreds)
      · rw [if_pos q, q, e]
      · rw [if_neg q]
    unfold wp
    rw [ea]
    show wp (write _ _) _ _ _
    refine wp_write (C := C) h.bud (fun bu hbu => ?_) fun hC => ⟨h.toMid, hC⟩
    refine done _ ?_ ?_ ?_ ?_ rfl
    · show Inv E zk w0 fs0 C S (upd s.fs _ _) _
      rw [eu]
      exact ⟨⟨h.keeps, h.ext, h.good, hbu⟩, h.has, h.clean⟩
    · show (upd s.fs _ _ _).isSome
      exact isSome_of (upd_same _ _ _)
    · show Keeps s.fs (upd s.fs _ _)
      rw [eu]; exact keeps_refl _
    · show upd s.fs _ _ _ = none
      rw [eu]; exact hn
  | none =>
    have ea : append (b, .seedzreds) (E.seedZreds r a p) s = write (b, .seedzreds) (E.seedZreds r a p) s := by
      unfold append; rw [e]
    unfold wp
    rw [ea]
    show wp (write _ _) _ _ _
    refine wp_write (C := C) h.bud (fun bu hbu => ?_) fun hC => ⟨h.toMid, hC⟩
    have k1 : Keeps s.fs (upd s.fs (b, .seedzreds) (E.seedZreds r a p)) := keeps_upd e
    refine done _ ?_ ?_ k1 ?_ rfl
    · exact (h.write e hb.ne (hb.made1 (k1 _ _ ha) (k1 _ _ hp)) bu hbu (by simp) (by simp) (by simp)
        (by simp)).weaken fun m hm => Or.inl hm
    · show (upd s.fs _ _ _).isSome
      exact isSome_of (upd_same _ _ _)
    · show upd s.fs _ _ _ = none
      rw [upd_ne (by simp)]; exact hn

/-- What a configuration must say for a run of the cluster finder to use the products of iteration `i`. -/
structure RunOk (S : Name → Prop) (i : Nat) (c : Cfg W) : Prop where
  par : c.parfile = some (.iter i, .pars)
  bkg : c.bkgfile = some (.iter i)
  zred : c.zredfile = some (.iter i, .zreds)
  mask : c.maskgalfile = some (.top, .maskgals)
  s1 : S (.iter i, .pars)
  s2 : S (.iter i, .bkgChisq)
  s3 : S (.iter i, .bkgZred)
  s4 : S (.iter i, .zreds)
  s5 : S (.top, .maskgals)

theorem wp_runIn {S : Name → Prop} {s : St K W} {i : Nat} {c : Cfg W} {cat : Name}
    (h : Inv E zk w0 fs0 C S s.fs s.budget) (hc : RunOk S i c) (sc : S cat)
    (hz : ∀ n, c.zlambdafile = some n → S n) :
    wp (runIn (some cat) c) (fun x s' => s' = s ∧ Uses s.fs i cat c.centerclass c.wvals c.zlambdafile x)
      (Bad E zk w0 fs0 C) s := by
  unfold runIn bkgName
  simp only [hc.par, hc.bkg, hc.zred, hc.mask, Option.map_some]
  refine wp_read (fun a ha => ?_) (h.absent fun _ => h.has _ sc)
  refine wp_read (fun p hp => ?_) (h.absent fun _ => h.has _ hc.s1)
  refine wp_read (fun b hb => ?_) (h.absent fun _ => h.has _ hc.s2)
  refine wp_read (fun zb hzb => ?_) (h.absent fun _ => h.has _ hc.s3)
  refine wp_read (fun z hz' => ?_) (h.absent fun _ => h.has _ hc.s4)
  refine wp_read (fun m hm => ?_) (h.absent fun _ => h.has _ hc.s5)
  refine wp_tryRead ?_
  refine ⟨rfl, ha, hp, hb, hzb, hz', hm, rfl, rfl, ?_⟩
  cases e : c.zlambdafile with
  | none => exact Or.inl ⟨rfl, rfl⟩
  | some n =>
    obtain ⟨k, hk⟩ := isSome_get (h.has _ (hz n e))
    exact Or.inr ⟨n, k, rfl, hk, hk⟩

theorem Clean.run {fs fs' : Name → Option K} (c : Clean E zk w0 fs) (hk : Keeps fs fs')
    (new : ∀ m, (fs' m).isSome → (fs m).isSome ∨ m.2 = .final ∨ m.2 = .members ∨ m.2 = .like)
    (hm : ∀ b, b ≠ .ext → (fs' (b, .final)).isSome → (fs (b, .final)).isSome ∨ (fs' (b, .members)).isSome)
    (hl : ∀ i, (fs' (.iter i, .final)).isSome → (fs (.iter i, .final)).isSome ∨ (fs' (.iter i, .like)).isSome) :
    Clean E zk w0 fs' := by
  have up : ∀ m, (fs m).isSome → (fs' m).isSome := fun m h => by
    obtain ⟨k, hk'⟩ := isSome_get h
    exact isSome_of (hk _ _ hk')
  refine ⟨fun h' => ?_, fun h' => ?_, fun b h' hb => ?_, fun i h' => ?_, fun i k' h' => ?_⟩
  · rcases new _ h' with h | h | h | h
    · exact up _ (c.model h)
    all_goals cases h
  · rcases new _ h' with h | h | h | h
    · exact up _ (c.colorcat h)
    all_goals cases h
  · rcases hm b hb h' with h | h
    · exact up _ (c.members b h hb)
    · exact h
  · rcases hl i h' with h | h
    · exact up _ (c.like i h)
    · exact h
  · rcases new _ (isSome_of h') with h | h | h | h
    · obtain ⟨k, e⟩ := isSome_get h
      have := hk _ _ e
      rw [h'] at this
      cases this
      exact Made_mono hk (c.pars i _ e)
    all_goals cases h

/-- No members without a catalog. -/
theorem noMembers {fs : Name → Option K} (h : GoodP E zk w0 fs) {b : Base} (hb : b ≠ .ext)
    (hn : fs (b, .final) = none) : fs (b, .members) = none := by
  cases e : fs (b, .members) with
  | none => rfl
  | some k =>
    exfalso
    rcases h _ _ hb e with h' | ⟨_, _, _, _, h', _⟩
    · cases b with
      | top => exact h'
      | run => exact h'
      | ext => exact hb rfl
      | iter i => obtain ⟨_, _, _, h', _⟩ := h'; rw [hn] at h'; cases h'
      | rand i => obtain ⟨_, _, _, _, h', _⟩ := h'; rw [hn] at h'; cases h'
      | randsat i => obtain ⟨_, _, _, _, h', _⟩ := h'; rw [hn] at h'; cases h'
      | iterb i => obtain ⟨_, _, _, _, h', _⟩ := h'; rw [hn] at h'; cases h'
    · cases h'

/-- No likelihoods without a catalog. -/
theorem noLike {fs : Name → Option K} (h : GoodP E zk w0 fs) {i : Nat}
    (hn : fs (.iter i, .final) = none) : fs (.iter i, .like) = none := by
  cases e : fs (.iter i, .like) with
  | none => rfl
  | some k =>
    exfalso
    rcases h _ _ (by simp) e with ⟨_, _, _, h', _⟩ | ⟨_, _, _, _, h', _⟩
    · rw [hn] at h'; cases h'
    · cases h'

theorem wp_write2 {S : Name → Prop} {s : St K W} {b : Base} {k1 k2 : K} {cf : Cfg W}
    (h : Inv E zk w0 fs0 C S s.fs s.budget) (hn : s.fs (b, .final) = none) (hb : b ≠ .ext)
    (hi : ∀ i, b ≠ .iter i) (hm1 : ∀ fs', Keeps s.fs fs' → Made E zk w0 fs' (b, .final) k1)
    (hm2 : ∀ fs', Keeps s.fs fs' → fs' (b, .final) = some k1 → Made E zk w0 fs' (b, .members) k2)
    (hc : s.cfg = cf) :
    wp (do write (b, .final) k1; write (b, .members) k2)
      (fun _ s' => Inv E zk w0 fs0 C (fun m => S m ∨ m = (b, .final)) s'.fs s'.budget ∧ s'.cfg = cf)
      (Bad E zk w0 fs0 C) s := by
  refine wp_bind (wp_write (C := C) h.bud (fun bu hbu => ?_) fun hC => ⟨h.toMid, hC⟩)
  have g1 : Keeps s.fs (upd s.fs (b, .final) k1) := keeps_upd hn
  have m1 := h.toMid.write (n := (b, .final)) (k := k1) hn hb (Or.inl (hm1 _ g1)) bu hbu
  have hn2 : upd s.fs (b, .final) k1 (b, .members) = none := by
    rw [upd_ne (by simp)]; exact noMembers h.good hb hn
  have g2 : Keeps s.fs (upd (upd s.fs (b, .final) k1) (b, .members) k2) := keeps_trans g1 (keeps_upd hn2)
  refine wp_write (C := C) hbu (fun b' hb' => ⟨?_, hc⟩) fun hC => ⟨m1, hC⟩
  dsimp only
  refine ⟨m1.write hn2 hb (Or.inl (hm2 _ g2 ?_)) b' hb', ?_, fun hC => ?_⟩
  · rw [upd_ne (by simp)]; exact upd_same _ _ _
  · rintro m (hm | rfl)
    · exact isSome_upd (isSome_upd (h.has m hm))
    · exact isSome_upd (isSome_of (upd_same _ _ _))
  · refine (h.clean hC).run g2 (fun m hm => ?_) (fun b' _ h' => ?_) fun i h' => ?_
    · by_cases q : m = (b, .members)
      · exact Or.inr (Or.inr (Or.inl (by rw [q])))
      · by_cases q' : m = (b, .final)
        · exact Or.inr (Or.inl (by rw [q']))
        · exact Or.inl (isSome_upd_ne q' (isSome_upd_ne q hm))
    · by_cases q : b' = b
      · subst q; exact Or.inr (isSome_of (upd_same _ _ _))
      · exact Or.inl (isSome_upd_ne (by simp [q]) (isSome_upd_ne (by simp) h'))
    · exact Or.inl (isSome_upd_ne (by simp [Ne.symm (hi i)]) (isSome_upd_ne (by simp) h'))

theorem wp_write3 {S : Name → Prop} {s : St K W} {i : Nat} {k1 k2 k3 : K} {cf : Cfg W}
    (h : Inv E zk w0 fs0 C S s.fs s.budget) (hn : s.fs (.iter i, .final) = none)
    (hm1 : ∀ fs', Keeps s.fs fs' → Made E zk w0 fs' (.iter i, .final) k1)
    (hm2 : ∀ fs', Keeps s.fs fs' → fs' (.iter i, .final) = some k1 → Made E zk w0 fs' (.iter i, .members) k2)
    (hm3 : ∀ fs', Keeps s.fs fs' → fs' (.iter i, .final) = some k1 → Made E zk w0 fs' (.iter i, .like) k3)
    (hc : s.cfg = cf) :
    wp (do write (.iter i, .final) k1; write (.iter i, .members) k2; write (.iter i, .like) k3)
      (fun _ s' => Inv E zk w0 fs0 C (fun m => S m ∨ m = (.iter i, .final)) s'.fs s'.budget ∧ s'.cfg = cf)
      (Bad E zk w0 fs0 C) s := by
  refine wp_bind (wp_write (C := C) h.bud (fun bu hbu => ?_) fun hC => ⟨h.toMid, hC⟩)
  have g1 : Keeps s.fs (upd s.fs (.iter i, .final) k1) := keeps_upd hn
  have m1 := h.toMid.write (n := (.iter i, .final)) (k := k1) hn (by simp) (Or.inl (hm1 _ g1)) bu hbu
  have hn2 : upd s.fs (.iter i, .final) k1 (.iter i, .members) = none := by
    rw [upd_ne (by simp)]; exact noMembers h.good (by simp) hn
  have g2 : Keeps s.fs (upd (upd s.fs (.iter i, .final) k1) (.iter i, .members) k2) :=
    keeps_trans g1 (keeps_upd hn2)
  refine wp_bind (wp_write (C := C) hbu (fun b' hb' => ?_) fun hC => ⟨m1, hC⟩)
  have e2 : upd (upd s.fs (.iter i, .final) k1) (.iter i, .members) k2 (.iter i, .final) = some k1 := by
    rw [upd_ne (by simp)]; exact upd_same _ _ _
  have m2 := m1.write (n := (.iter i, .members)) (k := k2) hn2 (by simp) (Or.inl (hm2 _ g2 e2)) b' hb'
  have hn3 : upd (upd s.fs (.iter i, .final) k1) (.iter i, .members) k2 (.iter i, .like) = none := by
    rw [upd_ne (by simp), upd_ne (by simp)]; exact noLike h.good hn
  have g3 : Keeps s.fs (upd (upd (upd s.fs (.iter i, .final) k1) (.iter i, .members) k2) (.iter i, .like) k3) :=
    keeps_trans g2 (keeps_upd hn3)
  refine wp_write (C := C) hb' (fun b'' hb'' => ⟨?_, hc⟩) fun hC => ⟨m2, hC⟩
  dsimp only
  refine ⟨m2.write hn3 (by simp) (Or.inl (hm3 _ g3 ?_)) b'' hb'', ?_, fun hC => ?_⟩
  · rw [upd_ne (by simp)]; exact e2
  · rintro m (hm | rfl)
    · exact isSome_upd (isSome_upd (isSome_upd (h.has m hm)))
    · exact isSome_upd (isSome_upd (isSome_of (upd_same _ _ _)))
  · refine (h.clean hC).run g3 (fun m hm => ?_) (fun b' _ h' => ?_) fun j h' => ?_
    · by_cases q0 : m = (.iter i, .like)
      · exact Or.inr (Or.inr (Or.inr (by rw [q0])))
      by_cases q : m = (.iter i, .members)
      · exact Or.inr (Or.inr (Or.inl (by rw [q])))
      · by_cases q' : m = (.iter i, .final)
        · exact Or.inr (Or.inl (by rw [q']))
        · exact Or.inl (isSome_upd_ne q' (isSome_upd_ne q (isSome_upd_ne q0 hm)))
    · by_cases q : b' = .iter i
      · subst q; exact Or.inr (isSome_upd (isSome_of (upd_same _ _ _)))
      · exact Or.inl (isSome_upd_ne (by simp [q]) (isSome_upd_ne (by simp) (isSome_upd_ne (by simp) h')))
    · by_cases q : j = i
      · subst q; exact Or.inr (isSome_of (upd_same _ _ _))
      · exact Or.inl (isSome_upd_ne (by simp [q]) (isSome_upd_ne (by simp) (isSome_upd_ne (by simp) h')))

theorem wp_stSpecRun {S : Name → Prop} {s : St K W} (r : R) {i : Nat} (h : Inv E zk w0 fs0 C S s.fs s.budget)
    (hd : s.cfg.dOut = .iter i) (hr : RunOk S i s.cfg) (sc : S (.iter i, .specseeds))
    (hcc : s.cfg.centerclass = if i = 1 then .firstpass else .wcenZred)
    (hw : WVal E w0 fs0 i s.cfg.wvals) :
    wp (stSpecRun E r)
      (fun _ s' => Inv E zk w0 fs0 C (fun m => S m ∨ m = (.iter i, .final)) s'.fs s'.budget ∧
        ∃ zl, (s.cfg.zlambdafile = none → zl = none) ∧ s'.cfg = { s.cfg with zlambdafile := zl })
      (Bad E zk w0 fs0 C) s := by
  unfold stSpecRun
  refine wp_get ?_
  simp only [hd]
  refine wp_ifMissing (fun k hk => ⟨h.add hk, s.cfg.zlambdafile, id, by rw [← hd]⟩) fun hn => ?_
  refine wp_set (wp_get ?_)
  simp only [hd]
  refine wp_seq (wp_runIn (i := i) (S := S) h ⟨hr.par, hr.bkg, hr.zred, hr.mask, hr.s1, hr.s2, hr.s3, hr.s4, hr.s5⟩ sc
    (by simp)) fun x s' hx => ?_
  obtain ⟨rfl, hx⟩ := hx
  dsimp only at hx
  have hin : IterIn E w0 s.fs i x := ⟨s.cfg.wvals, WVal_mono h.keeps hw, by rw [hcc] at hx; exact hx⟩
  refine wp_conseq (wp_write3 h hn (fun fs' hk => ?_) (fun fs' hk e => ?_) (fun fs' hk e => ?_) rfl)
    fun _ s' h' => ⟨h'.1, none, fun _ => rfl, h'.2⟩
  · exact ⟨r, x, IterIn_mono hk hin, rfl⟩
  · exact ⟨r, x, IterIn_mono hk hin, e, rfl⟩
  · exact ⟨r, x, IterIn_mono hk hin, e, rfl⟩

theorem wp_stSubLike {S : Name → Prop} {s : St K W} (h : Inv E zk w0 fs0 C S s.fs s.budget)
    (hd : s.cfg.dOut = .iter 1) (s1 : S (.iter 1, .final)) :
    wp (stSubLike E)
      (fun _ s' => Inv E zk w0 fs0 C (fun m => S m ∨ m = (.iter 1, .sublike)) s'.fs s'.budget ∧ s'.cfg = s.cfg)
      (Bad E zk w0 fs0 C) s := by
  unfold stSubLike
  refine wp_get ?_
  simp only [hd]
  refine wp_ifMissing (fun k hk => ⟨h.add hk, rfl⟩) fun hn => ?_
  refine wp_read (fun a ha => ?_) (h.absent fun hC => (h.clean hC).like 1 (h.has _ s1))
  refine wp_read (fun p hp => ?_) (h.absent fun _ => h.has _ s1)
  refine wp_write (C := C) h.bud (fun b hb => ⟨?_, rfl⟩) fun hC => ⟨h.toMid, hC⟩
  exact h.write hn (by simp) ⟨rfl, a, p, keeps_upd hn _ _ ha, keeps_upd hn _ _ hp, rfl⟩ b hb (by simp) (by simp)
    (by simp) (by simp)

theorem wp_stRand {S : Name → Prop} {s : St K W} (r : R) {b : Base} {cc : CC}
    (h : Inv E zk w0 fs0 C S s.fs s.budget) (hr : RunOk S 1 s.cfg) (sc : S (.iter 1, .sublike))
    (hb : (b = .rand 1 ∧ cc = .random) ∨ (b = .randsat 1 ∧ cc = .randomSat))
    (hz : s.cfg.zlambdafile = none) (hw : s.cfg.wvals = w0) :
    wp (stRand E r (.iter 1, .sublike) b cc)
      (fun _ s' => Inv E zk w0 fs0 C (fun m => S m ∨ m = (b, .final)) s'.fs s'.budget ∧
        ∃ cf cc', s'.cfg = { s.cfg with dOut := b, catfile := cf, centerclass := cc' })
      (Bad E zk w0 fs0 C) s := by
  unfold stRand
  refine wp_set ?_
  refine wp_ifMissing (fun k hk => ⟨h.add hk, s.cfg.catfile, s.cfg.centerclass, rfl⟩) fun hn => ?_
  refine wp_set (wp_get ?_)
  refine wp_seq (wp_runIn (i := 1) (S := S) h ⟨hr.par, hr.bkg, hr.zred, hr.mask, hr.s1, hr.s2, hr.s3, hr.s4, hr.s5⟩ sc
    (fun n hn => by simp [hz] at hn)) fun x s' hx => ?_
  obtain ⟨rfl, hx⟩ := hx
  dsimp only at hx
  rw [hw, hz] at hx
  have hin : RandIn w0 s.fs 1 cc x := hx
  refine wp_conseq (wp_write2 h hn ?_ ?_ (fun fs' hk => ?_) (fun fs' hk e => ?_) rfl)
    fun _ s' h' => ⟨h'.1, some (.iter 1, .sublike), cc, h'.2⟩
  · rcases hb with ⟨rfl, _⟩ | ⟨rfl, _⟩ <;> simp
  · rcases hb with ⟨rfl, _⟩ | ⟨rfl, _⟩ <;> simp
  · rcases hb with ⟨rfl, rfl⟩ | ⟨rfl, rfl⟩ <;> exact ⟨rfl, r, x, RandIn_mono hk hin, rfl⟩
  · rcases hb with ⟨rfl, rfl⟩ | ⟨rfl, rfl⟩ <;> exact ⟨rfl, r, x, RandIn_mono hk hin, e, rfl⟩

/-- The random catalogs of iteration `i`. -/
def RandProd (i : Nat) (m : Name) : Prop :=
  i = 1 ∧ (m = (.iter 1, .sublike) ∨ m = (.rand 1, .final) ∨ m = (.randsat 1, .final))

theorem wp_stRands {S : Name → Prop} {s : St K W} (r : R) {i : Nat}
    (h : Inv E zk w0 fs0 C S s.fs s.budget) (hd : s.cfg.dOut = .iter i) (hr : RunOk S i s.cfg)
    (s1 : S (.iter i, .final)) (hz : i = 1 → s.cfg.zlambdafile = none) (hw : i = 1 → s.cfg.wvals = w0) :
    wp (stRands E r i)
      (fun q s' => Inv E zk w0 fs0 C (fun m => S m ∨ RandProd i m) s'.fs s'.budget ∧
        (∃ cf cc', s'.cfg = { s.cfg with catfile := cf, centerclass := cc' }) ∧
        ((i ≠ 1 ∧ q = none) ∨ (i = 1 ∧ q = some ((.rand 1, .final), (.randsat 1, .final)))))
      (Bad E zk w0 fs0 C) s := by
  by_cases hi : i = 1
  · subst hi
    unfold stRands
    refine wp_seq (wp_stSubLike h hd s1) fun _ s' h' => ?_
    obtain ⟨h', hc'⟩ := h'
    have hr' : RunOk (fun m => S m ∨ m = (.iter 1, .sublike)) 1 s'.cfg := by
      rw [hc']
      exact ⟨hr.par, hr.bkg, hr.zred, hr.mask, Or.inl hr.s1, Or.inl hr.s2, Or.inl hr.s3, Or.inl hr.s4, Or.inl hr.s5⟩
    refine wp_get ?_
    simp only [hc', hd]
    refine wp_seq (wp_stRand r h' hr' (Or.inr rfl) (Or.inl ⟨rfl, rfl⟩) (by rw [hc']; exact hz rfl)
      (by rw [hc']; exact hw rfl)) fun _ s'' h'' => ?_
    obtain ⟨h'', cf, cc, hc''⟩ := h''
    have hr'' : RunOk (fun m => (S m ∨ m = (.iter 1, .sublike)) ∨ m = (.rand 1, .final)) 1 s''.cfg := by
      rw [hc'']
      exact ⟨hr'.par, hr'.bkg, hr'.zred, hr'.mask, Or.inl hr'.s1, Or.inl hr'.s2, Or.inl hr'.s3, Or.inl hr'.s4,
        Or.inl hr'.s5⟩
    refine wp_seq (wp_stRand r h'' hr'' (Or.inl (Or.inr rfl)) (Or.inr ⟨rfl, rfl⟩)
      (by rw [hc'', hc']; exact hz rfl) (by rw [hc'', hc']; exact hw rfl)) fun _ s3 h3 => ?_
    obtain ⟨h3, cf', cc', hc3⟩ := h3
    refine wp_set ?_
    refine wp_pure ⟨h3.weaken ?_, ⟨cf', cc', ?_⟩, Or.inr ⟨trivial, rfl⟩⟩
    · rintro m (hm | ⟨_, rfl | rfl | rfl⟩) <;> simp [*]
    · simp only [hc3, hc'', hc', hd]
  · have e : stRands E r i = (M.pure none : M K W (Option (Name × Name))) := by
      match i, hi with
      | 0, _ => rfl
      | i + 2, _ => rfl
    rw [e]
    refine wp_pure ⟨h.weaken ?_, ⟨_, _, rfl⟩, Or.inl ⟨hi, rfl⟩⟩
    rintro m (hm | ⟨h1, _⟩)
    · exact hm
    · exact absurd h1 hi

theorem wp_stWcen {S : Name → Prop} {s : St K W} (r : R) {i : Nat} {cc : CC} {q : Option (Name × Name)}
    (h : Inv E zk w0 fs0 C S s.fs s.budget) (hd : s.cfg.dOut = .iter (i + 1)) (hr : RunOk S (i + 1) s.cfg)
    (s1 : S (.iter (i + 1), .final)) (hw : WVal E w0 fs0 (i + 1) s.cfg.wvals)
    (hq : (i + 1 ≠ 1 ∧ q = none) ∨ (i + 1 = 1 ∧ q = some ((.rand 1, .final), (.randsat 1, .final)) ∧
      S (.rand 1, .final) ∧ S (.randsat 1, .final))) :
    wp (stWcen E r cc (.iter (i + 1), .final) q)
      (fun _ s' => Inv E zk w0 fs0 C (fun m => S m ∨ m = (.iter (i + 1), .wcen)) s'.fs s'.budget ∧
        ∃ w, WVal E w0 s'.fs (i + 2) w ∧
          s'.cfg = { s.cfg with centerclass := cc, catfile := some (.iter (i + 1), .final),
                                wcenfile := some (.iter (i + 1), .wcen), wvals := w })
      (Bad E zk w0 fs0 C) s := by
  unfold stWcen bkgName
  refine wp_set (wp_get ?_)
  simp only [hd, hr.par, hr.bkg, Option.map_some]
  refine wp_seq (Q' := fun _ s' => Inv E zk w0 fs0 C (fun m => S m ∨ m = (.iter (i + 1), .wcen)) s'.fs s'.budget ∧
    s'.cfg = { s.cfg with centerclass := cc, catfile := some (.iter (i + 1), .final),
                          wcenfile := some (.iter (i + 1), .wcen) }) ?_ fun _ s' h' => ?_
  · refine wp_ifMissing (fun k hk => ⟨h.add hk, by simp [hr.par, hr.bkg, hd]⟩) fun hn => ?_
    refine wp_read (fun p hp => ?_) (h.absent fun _ => h.has _ hr.s1)
    refine wp_read (fun b hb => ?_) (h.absent fun _ => h.has _ hr.s2)
    refine wp_read (fun f hf => ?_) (h.absent fun _ => h.has _ s1)
    have hn : s.fs (.iter (i + 1), .wcen) = none := hn
    have kk : ∀ k, Keeps s.fs (upd s.fs (.iter (i + 1), .wcen) k) := fun k => keeps_upd hn
    have hw' := fun k => WVal_mono (kk k) (WVal_mono h.keeps hw)
    rcases hq with ⟨hi, rfl⟩ | ⟨hi, rfl, sa, sb⟩
    · refine wp_bind ?_
      refine wp_pure ?_
      refine wp_write (C := C) h.bud (fun bu hbu => ⟨?_, by simp [hr.par, hr.bkg, hd]⟩) fun hC => ⟨h.toMid, hC⟩
      exact h.write hn (by simp) ⟨r, p, b, f, none, s.cfg.wvals, kk _ _ _ hp, kk _ _ _ hb, kk _ _ _ hf, hw' _,
        Or.inl ⟨hi, rfl⟩, rfl⟩ bu hbu (by simp) (by simp) (by simp) (by simp)
    · refine wp_bind ?_
      unfold readRand
      refine wp_read (fun u hu => ?_) (h.absent fun _ => h.has _ sa)
      refine wp_read (fun v hv => ?_) (h.absent fun _ => h.has _ sb)
      refine wp_pure ?_
      refine wp_write (C := C) h.bud (fun bu hbu => ⟨?_, by simp [hr.par, hr.bkg, hd]⟩) fun hC => ⟨h.toMid, hC⟩
      exact h.write hn (by simp) ⟨r, p, b, f, some (u, v), s.cfg.wvals, kk _ _ _ hp, kk _ _ _ hb, kk _ _ _ hf, hw' _,
        Or.inr ⟨hi, u, v, kk _ _ _ hu, kk _ _ _ hv, rfl⟩, rfl⟩ bu hbu (by simp) (by simp) (by simp) (by simp)
  · obtain ⟨h', hc'⟩ := h'
    refine wp_tryRead ?_
    obtain ⟨k, hk⟩ := isSome_get (h'.has (.iter (i + 1), .wcen) (Or.inr rfl))
    simp only [Option.bind_some, hk]
    refine wp_set' ⟨h', E.loadWcen k, ⟨k, hk, rfl⟩, ?_⟩
    simp only [hc', hr.par, hr.bkg, hd]

theorem wp_stZlambda {S : Name → Prop} {s : St K W} (r : R) {i : Nat} (h : Inv E zk w0 fs0 C S s.fs s.budget)
    (hd : s.cfg.dOut = .iter i) (h1 : s.cfg.catfile = some (.iter i, .final)) (s1 : S (.iter i, .final)) :
    wp (stZlambda E r) (fun _ s' => Inv E zk w0 fs0 C (fun m => S m ∨ m = (.iter i, .zlambda)) s'.fs s'.budget ∧
      s'.cfg = { s.cfg with zlambdafile := some (.iter i, .zlambda) }) (Bad E zk w0 fs0 C) s := by
  unfold stZlambda
  refine wp_set (wp_get ?_)
  simp only [hd, h1]
  refine wp_ifMissing (fun k hk => ⟨h.add hk, rfl⟩) fun hn => ?_
  refine wp_read (fun p hp => ?_) (h.absent fun _ => h.has _ s1)
  refine wp_write (C := C) h.bud (fun b hb => ⟨?_, rfl⟩) fun hC => ⟨h.toMid, hC⟩
  exact h.write hn (by simp) ⟨r, p, keeps_upd hn _ _ hp, rfl⟩ b hb (by simp) (by simp) (by simp) (by simp)

theorem wp_stPlot {S : Name → Prop} {s : St K W} {i : Nat} (h : Inv E zk w0 fs0 C S s.fs s.budget)
    (hd : s.cfg.dOut = .iter i) (h1 : s.cfg.catfile = some (.iter i, .final))
    (h2 : s.cfg.zlambdafile = some (.iter i, .zlambda)) (s1 : S (.iter i, .final)) (s2 : S (.iter i, .zlambda)) :
    wp (stPlot E) (fun _ s' => Inv E zk w0 fs0 C (fun m => S m ∨ m = (.iter i, .plot)) s'.fs s'.budget ∧
      s'.cfg = s.cfg) (Bad E zk w0 fs0 C) s := by
  unfold stPlot
  refine wp_get ?_
  simp only [hd, h1, h2]
  refine wp_ifMissing (fun k hk => ⟨h.add hk, rfl⟩) fun hn => ?_
  refine wp_read (fun p hp => ?_) (h.absent fun _ => h.has _ s1)
  refine wp_read (fun z hz => ?_) (h.absent fun _ => h.has _ s2)
  refine wp_write (C := C) h.bud (fun b hb => ⟨?_, rfl⟩) fun hC => ⟨h.toMid, hC⟩
  exact h.write hn (by simp) ⟨p, z, keeps_upd hn _ _ hp, keeps_upd hn _ _ hz, rfl⟩ b hb (by simp) (by simp) (by simp)
    (by simp)

theorem wp_stPrep {S : Name → Prop} {s : St K W} (r : R) {i : Nat} (h : Inv E zk w0 fs0 C S s.fs s.budget)
    (hd : s.cfg.dOut = .iter i) (h1 : s.cfg.catfile = some (.iter i, .final)) (s1 : S (.iter i, .final)) :
    wp (stPrep E r) (fun _ s' => Inv E zk w0 fs0 C (fun m => S m ∨ m = (.iter i, .zmem)) s'.fs s'.budget ∧
      s'.cfg = { s.cfg with zmemfile := some (.iter i, .zmem) }) (Bad E zk w0 fs0 C) s := by
  unfold stPrep
  refine wp_set (wp_get ?_)
  simp only [hd, h1, Option.map_some]
  refine wp_ifMissing (fun k hk => ⟨h.add hk, rfl⟩) fun hn => ?_
  refine wp_read (fun p hp => ?_) (h.absent fun _ => h.has _ s1)
  refine wp_read (fun z hz => ?_) (h.absent fun hC => (h.clean hC).members _ (h.has _ s1) (by simp))
  refine wp_write (C := C) h.bud (fun b hb => ⟨?_, rfl⟩) fun hC => ⟨h.toMid, hC⟩
  exact h.write hn (by simp) ⟨r, p, z, keeps_upd hn _ _ hp, keeps_upd hn _ _ hz, rfl⟩ b hb (by simp) (by simp)
    (by simp) (by simp)

theorem wp_stCut {S : Name → Prop} {s : St K W} (h : Inv E zk w0 fs0 C S s.fs s.budget)
    (hd : s.cfg.dOut = .top) (h1 : s.cfg.catfile = some (.iter 1, .final))
    (h2 : s.cfg.seedfile = some (.top, .trainSeeds)) (s1 : S (.iter 1, .final)) (s2 : S (.top, .trainSeeds)) :
    wp (stCut E) (fun _ s' => Inv E zk w0 fs0 C (fun m => S m ∨ m = (.top, .cutSeeds)) s'.fs s'.budget ∧
      s'.cfg = { s.cfg with seedfile := some (.top, .cutSeeds) }) (Bad E zk w0 fs0 C) s := by
  unfold stCut
  refine wp_get ?_
  simp only [hd, h1, h2]
  refine wp_seq (Q' := fun _ s' => Inv E zk w0 fs0 C (fun m => S m ∨ m = (.top, .cutSeeds)) s'.fs s'.budget ∧
    s'.cfg = s.cfg) ?_ fun _ s' h' => wp_set' ⟨h'.1, ?_⟩
  · refine wp_ifMissing (fun k hk => ⟨h.add hk, rfl⟩) fun hn => ?_
    refine wp_read (fun p hp => ?_) (h.absent fun _ => h.has _ s2)
    refine wp_read (fun z hz => ?_) (h.absent fun _ => h.has _ s1)
    refine wp_write (C := C) h.bud (fun b hb => ⟨?_, rfl⟩) fun hC => ⟨h.toMid, hC⟩
    exact h.write hn (by simp) ⟨p, z, keeps_upd hn _ _ hp, keeps_upd hn _ _ hz, rfl⟩ b hb (by simp) (by simp)
      (by simp) (by simp)
  · simp only [h'.2, hd, h1]

theorem Mid.rebase {fs1 fs : Name → Option K} {b1 b : Option Nat} (h1 : Mid E zk w0 fs0 C fs1 b1)
    (h : Mid E zk w0 fs1 C fs b) : Mid E zk w0 fs0 C fs b :=
  ⟨keeps_trans h1.keeps h.keeps, fun n hn => (h.ext n hn).trans (h1.ext n hn), h.good, h.bud⟩

theorem Inv.rebase {S S' : Name → Prop} {fs1 fs : Name → Option K} {b1 b : Option Nat}
    (h1 : Inv E zk w0 fs0 C S fs1 b1) (h : Inv E zk w0 fs1 C S' fs b) : Inv E zk w0 fs0 C S' fs b :=
  ⟨h1.toMid.rebase h.toMid, h.has, h.clean⟩

theorem Inv.self {S : Name → Prop} {fs1 : Name → Option K} {b1 : Option Nat}
    (h1 : Inv E zk w0 fs0 C S fs1 b1) : Inv E zk w0 fs1 C S fs1 b1 :=
  ⟨⟨keeps_refl _, fun _ _ => rfl, h1.good, h1.bud⟩, h1.has, h1.clean⟩

/-- A stage may be looked at as starting from the directory it finds. -/
theorem wp_rebase {α : Type} {m : M K W α} {Q : α → St K W → Prop} {S : Name → Prop} {s : St K W}
    (h : Inv E zk w0 fs0 C S s.fs s.budget) (hw : wp m Q (Bad E zk w0 s.fs C) s) :
    wp m Q (Bad E zk w0 fs0 C) s := by
  unfold wp at hw ⊢
  cases hm : m s with
  | mk o s' =>
    rw [hm] at hw
    cases o with
    | none => exact ⟨h.toMid.rebase hw.1, hw.2⟩
    | some a => exact hw

/-- The products of iteration `i`. -/
def IterProd (i : Nat) (m : Name) : Prop :=
  (m.1 = .iter i ∧ m.2 ∈ [Kind.pars, .zreds, .bkgChisq, .bkgZred, .specseeds, .final, .wcen, .zlambda, .plot,
    .zmem]) ∨ RandProd i m

theorem wp_iteration {S : Name → Prop} {s : St K W} (r : R) {i : Nat} (h : Inv E zk w0 fs0 C S s.fs s.budget)
    (h1 : s.cfg.zmemfile = some (memFile (i + 1))) (h2 : s.cfg.bkgfileColor = some (.top, .bkgColor))
    (h3 : s.cfg.seedfile = some (seedFile (i + 1))) (h4 : s.cfg.maskgalfile = some (.top, .maskgals))
    (h5 : i = 0 → s.cfg.zlambdafile = none) (hw : WVal E w0 s.fs (i + 1) s.cfg.wvals)
    (s1 : S (memFile (i + 1))) (s2 : S (.top, .bkgColor)) (s3 : S (seedFile (i + 1))) (s4 : S (.top, .maskgals))
    (hC : C → E.pixelized = true) :
    wp (iteration E r (i + 1)) (fun _ s' =>
      Inv E zk w0 fs0 C (fun m => S m ∨ IterProd (i + 1) m ∧ m.2 ≠ .zmem) s'.fs s'.budget ∧
      ∃ w, WVal E w0 s'.fs (i + 2) w ∧
        s'.cfg = { s.cfg with dOut := .iter (i + 1), parfile := some (.iter (i + 1), .pars),
                              zredfile := some (.iter (i + 1), .zreds), bkgfile := some (.iter (i + 1)),
                              catfile := some (.iter (i + 1), .final),
                              wcenfile := some (.iter (i + 1), .wcen),
                              zlambdafile := some (.iter (i + 1), .zlambda), wvals := w })
      (Bad E zk w0 fs0 C) s := by
  refine wp_rebase h ?_
  have H := h.self
  unfold iteration
  refine wp_set ?_
  refine wp_seq (wp_stPars (i := i + 1) r H rfl h1 h2 s1 s2) fun _ t1 g1 => ?_
  obtain ⟨g1, c1⟩ := g1
  refine wp_seq (wp_stZreds (i := i + 1) r g1 (by rw [c1]) (by rw [c1]) (by simp)) fun _ t2 g2 => ?_
  obtain ⟨g2, c2⟩ := g2
  refine wp_seq (wp_stBkgs (i := i + 1) r g2 (by rw [c2, c1]) (by rw [c2, c1]) (by rw [c2]) (by simp) (by simp) hC)
    fun _ t3 g3 => ?_
  obtain ⟨g3, c3⟩ := g3
  refine wp_get (wp_set ?_)
  have hcc : t3.cfg.centerclass = s.cfg.centerclass := by rw [c3, c2, c1]
  rw [hcc]
  refine wp_seq (wp_stIterSeeds (i := i + 1) (n := seedFile (i + 1)) r g3 (by rw [c3, c2, c1]) (Or.inl ⟨rfl, rfl⟩)
    (by simp only [c3, c2, c1, h3]) (by simp only [c3, c2, c1]) (by simp [s3]) (by simp)) fun _ t4 g4 => ?_
  obtain ⟨g4, c4⟩ := g4
  refine wp_seq (wp_stSpecRun (i := i + 1) r g4 (by rw [c4, c3, c2, c1]) ?_ (by simp) (by rw [c4])
    (by simp only [c4, c3, c2, c1]; exact hw)) fun _ t5 g5 => ?_
  · refine ⟨?_, ?_, ?_, ?_, ?_, ?_, ?_, ?_, ?_⟩
    · rw [c4, c3, c2, c1]
    · rw [c4, c3]
    · rw [c4, c3, c2]
    · simp only [c4, c3, c2, c1, h4]
    all_goals simp [s4]
  obtain ⟨g5, zl, hzl, c5⟩ := g5
  have hr5 : ∀ {S' : Name → Prop}, (∀ m, S m ∨ m = (.iter (i + 1), .pars) ∨ m = (.iter (i + 1), .zreds) ∨
      m = (.iter (i + 1), .bkgChisq) ∨ m = (.iter (i + 1), .bkgZred) → S' m) → ∀ {cf : Cfg W},
      cf.parfile = t5.cfg.parfile → cf.bkgfile = t5.cfg.bkgfile → cf.zredfile = t5.cfg.zredfile →
      cf.maskgalfile = t5.cfg.maskgalfile → RunOk S' (i + 1) cf := by
    intro S' hS cf e1 e2 e3 e4
    refine ⟨?_, ?_, ?_, ?_, hS _ (by simp), hS _ (by simp), hS _ (by simp), hS _ (by simp), hS _ (by simp [s4])⟩
    · rw [e1, c5, c4, c3, c2, c1]
    · rw [e2, c5, c4, c3]
    · rw [e3, c5, c4, c3, c2]
    · rw [e4, c5, c4, c3, c2, c1]; exact h4
  refine wp_seq (wp_stRands (i := i + 1) r g5 (by rw [c5, c4, c3, c2, c1])
    (hr5 (by rintro m (hm | rfl | rfl | rfl | rfl) <;> simp [*]) rfl rfl rfl rfl) (by simp) ?_ ?_)
    fun q t6 g6 => ?_
  · intro hi
    rw [c5]
    refine hzl ?_
    rw [c4, c3, c2, c1]
    exact h5 (by omega)
  · intro hi
    have : i = 0 := by omega
    subst this
    rw [c5, c4, c3, c2, c1]
    exact hw
  obtain ⟨g6, ⟨cf, cc', c6⟩, hq⟩ := g6
  refine wp_seq (wp_stWcen (i := i) r g6 (by rw [c6, c5, c4, c3, c2, c1])
    (hr5 (by rintro m (hm | rfl | rfl | rfl | rfl) <;> simp [*]) (by rw [c6]) (by rw [c6]) (by rw [c6]) (by rw [c6]))
    (by simp) (by rw [c6, c5, c4, c3, c2, c1]; exact hw) ?_) fun _ t7 g7 => ?_
  · rcases hq with hq | ⟨hi, hq⟩
    · exact Or.inl hq
    · exact Or.inr ⟨hi, hq, by simp [RandProd, hi], by simp [RandProd, hi]⟩
  obtain ⟨g7, w, hw7, c7⟩ := g7
  refine wp_rebase g7 ?_
  have G7 := g7.self
  refine wp_seq (wp_stZlambda (i := i + 1) r G7 (by rw [c7, c6, c5, c4, c3, c2, c1]) (by rw [c7]) (by simp))
    fun _ t8 g8 => ?_
  obtain ⟨g8, c8⟩ := g8
  refine wp_conseq (wp_stPlot (i := i + 1) g8 (by rw [c8, c7, c6, c5, c4, c3, c2, c1]) (by rw [c8, c7]) (by rw [c8])
    (by simp) (by simp)) fun _ t9 g9 => ?_
  obtain ⟨g9, c9⟩ := g9
  refine ⟨(h.rebase (g7.rebase g9)).weaken ?_, w, WVal_mono g9.keeps hw7, ?_⟩
  · rintro ⟨b, k⟩ (hm | ⟨⟨hb, hk⟩ | hm, hz⟩)
    · simp [hm]
    · dsimp only at hb hk hz
      subst hb
      simp only [List.mem_cons, List.not_mem_nil, or_false] at hk
      rcases hk with rfl | rfl | rfl | rfl | rfl | rfl | rfl | rfl | rfl | rfl <;> simp at hz ⊢
    · simp [hm]
  · rw [c9, c8, c7, c6, c5, c4, c3, c2, c1]

/-- The configuration with which turn `it` of the loop starts. -/
structure LoopCfg (E : Ext R K W) (w0 : W) (fs : Name → Option K) (it : Nat) (c : Cfg W) : Prop where
  dOut : c.dOut = .top
  red : c.redgalfile = some (.top, .redgals)
  model : c.redgalmodelfile = some (.top, .redmodel)
  color : c.bkgfileColor = some (.top, .bkgColor)
  mask : c.maskgalfile = some (.top, .maskgals)
  mem : c.zmemfile = some (memFile it)
  seed : c.seedfile = some (seedFile it)
  center : c.centerclass = .conf
  wvals : WVal E w0 fs it c.wvals
  first : it = 1 → c.zlambdafile = none
  later : ∀ j, it = j + 2 → c.parfile = some (.iter (j + 1), .pars) ∧ c.zredfile = some (.iter (j + 1), .zreds) ∧
    c.bkgfile = some (.iter (j + 1)) ∧ c.zlambdafile = some (.iter (j + 1), .zlambda)

/-- The products that are there when turn `it` of the loop starts. -/
def LoopProd (it : Nat) (m : Name) : Prop :=
  (m.1 = .top ∧ m.2 ∈ [Kind.redgals, .bkgColor, .maskgals, .colormem, .trainSeeds]) ∨
  (2 ≤ it ∧ m = (.top, .cutSeeds)) ∨ ∃ j, 1 ≤ j ∧ j < it ∧ IterProd j m

theorem loopProd_mem (i : Nat) : LoopProd (i + 1) (memFile (i + 1)) := by
  cases i with
  | zero => left; simp [memFile]
  | succ i => right; right; exact ⟨i + 1, by omega, by omega, Or.inl (by simp [memFile])⟩

theorem loopProd_seed (i : Nat) : LoopProd (i + 1) (seedFile (i + 1)) := by
  cases i with
  | zero => left; simp [seedFile]
  | succ i => right; left; exact ⟨by omega, rfl⟩

theorem wp_turn {s : St K W} (r : R) {i : Nat} (h : Inv E zk w0 fs0 C (LoopProd (i + 1)) s.fs s.budget)
    (hc : LoopCfg E w0 s.fs (i + 1) s.cfg) (hC : C → E.pixelized = true) :
    wp (turn E r (i + 1)) (fun _ s' => Inv E zk w0 fs0 C (LoopProd (i + 2)) s'.fs s'.budget ∧
      LoopCfg E w0 s'.fs (i + 2) s'.cfg) (Bad E zk w0 fs0 C) s := by
  unfold turn
  refine wp_seq (wp_iteration r h hc.mem hc.color hc.seed hc.mask (fun e => hc.first (by omega)) hc.wvals
    (loopProd_mem i) (by left; simp) (loopProd_seed i) (by left; simp) hC) fun _ t1 g1 => ?_
  obtain ⟨g1, w, hw, c1⟩ := g1
  refine wp_rebase g1 ?_
  have G1 := g1.self
  refine wp_seq (wp_stPrep (i := i + 1) r G1 (by rw [c1]) (by rw [c1]) (Or.inr ⟨Or.inl (by simp), by simp⟩))
    fun _ t2 g2 => ?_
  obtain ⟨g2, c2⟩ := g2
  refine wp_set ?_
  have wk : ∀ m, LoopProd (i + 2) m → m ≠ (.top, .cutSeeds) →
      ((LoopProd (i + 1) m ∨ IterProd (i + 1) m ∧ m.2 ≠ .zmem) ∨ m = (.iter (i + 1), .zmem)) := by
    rintro m (hm | ⟨_, rfl⟩ | ⟨j, h1, h2, hm⟩) hne
    · exact Or.inl (Or.inl (Or.inl hm))
    · exact absurd rfl hne
    · by_cases hj : j = i + 1
      · subst hj
        by_cases hz : m.2 = .zmem
        · right
          rcases hm with ⟨hb, _⟩ | ⟨_, rfl | rfl | rfl⟩
          · exact Prod.ext hb hz
          all_goals cases hz
        · exact Or.inl (Or.inr ⟨hm, hz⟩)
      · exact Or.inl (Or.inl (Or.inr (Or.inr ⟨j, h1, by omega, hm⟩)))
  cases i with
  | zero =>
    refine wp_conseq (wp_stCut g2 rfl (by simp only [c2, c1]) (by simp only [c2, c1, hc.seed]; rfl)
      (Or.inl (Or.inr ⟨Or.inl (by simp), by simp⟩)) (Or.inl (Or.inl (Or.inl (by simp))))) fun _ t3 g3 => ?_
    obtain ⟨g3, c3⟩ := g3
    refine ⟨(g1.rebase g3).weaken fun m hm => ?_, ?_⟩
    · by_cases hne : m = (.top, .cutSeeds)
      · exact Or.inr hne
      · exact Or.inl (wk m hm hne)
    · rw [c3, c2, c1]
      exact ⟨rfl, hc.red, hc.model, hc.color, hc.mask, rfl, rfl, hc.center, WVal_mono g3.keeps hw, by simp,
        fun j hj => by have : j = 0 := by omega
                       subst this; exact ⟨rfl, rfl, rfl, rfl⟩⟩
  | succ i =>
    refine wp_pure ⟨(g1.rebase g2).weaken fun m hm => ?_, ?_⟩
    · by_cases hne : m = (.top, .cutSeeds)
      · exact Or.inl (Or.inl (Or.inr (Or.inl ⟨by omega, hne⟩)))
      · exact wk m hm hne
    · simp only [c2, c1]
      exact ⟨rfl, hc.red, hc.model, hc.color, hc.mask, rfl, hc.seed, hc.center, WVal_mono g2.keeps hw,
        fun e => by omega, fun j hj => by have : j = i + 1 := by omega
                                          subst this; exact ⟨rfl, rfl, rfl, rfl⟩⟩

theorem wp_turns (r : R) (hC : C → E.pixelized = true) : ∀ (n i : Nat) {s : St K W},
    Inv E zk w0 fs0 C (LoopProd (i + 1)) s.fs s.budget → LoopCfg E w0 s.fs (i + 1) s.cfg →
    wp (turns E r (i + 1) n) (fun _ s' => Inv E zk w0 fs0 C (LoopProd (i + n + 1)) s'.fs s'.budget ∧
      LoopCfg E w0 s'.fs (i + n + 1) s'.cfg) (Bad E zk w0 fs0 C) s := by
  intro n
  induction n with
  | zero => intro i s h hc; exact wp_pure ⟨h, hc⟩
  | succ n ih =>
    intro i s h hc
    unfold turns
    refine wp_seq (wp_turn r h hc hC) fun _ t g => ?_
    have := ih (i + 1) g.1 g.2
    have e : i + 1 + n + 1 = i + (n + 1) + 1 := by omega
    rw [e] at this
    exact this

theorem wp_finalIteration {S : Name → Prop} {s : St K W} (r : R) {n : Nat} (hn : E.niter = n + 1)
    (h : Inv E zk w0 fs0 C S s.fs s.budget)
    (h1 : s.cfg.seedfile = some (.top, .specseeds)) (hr : RunOk S (n + 1) s.cfg)
    (h2 : s.cfg.centerclass = .conf) (h3 : s.cfg.zlambdafile = some (.iter (n + 1), .zlambda))
    (hw : WVal E w0 s.fs (n + 2) s.cfg.wvals) (s1 : S (.top, .specseeds)) (s2 : S (.iter (n + 1), .zlambda)) :
    wp (finalIteration E r E.niter) (fun _ s' =>
      Inv E zk w0 fs0 C (fun m => S m ∨ m = (.iterb (n + 1), .specseeds) ∨ m = (.iterb (n + 1), .final) ∨
        m = (.iterb (n + 1), .plot)) s'.fs s'.budget ∧
      s'.cfg = { s.cfg with dOut := .iterb (n + 1), catfile := some (.iterb (n + 1), .final) })
      (Bad E zk w0 fs0 C) s := by
  rw [hn]
  unfold finalIteration
  refine wp_rebase h ?_
  have H := h.self
  refine wp_set ?_
  refine wp_seq (wp_stIterSeeds (i := n + 1) (n := (.top, .specseeds)) r H rfl (Or.inr ⟨rfl, hn.symm, rfl⟩) h1 hr.par s1
    hr.s1) fun _ t1 g1 => ?_
  obtain ⟨g1, c1⟩ := g1
  refine wp_seq (Q' := fun _ s' => Inv E zk w0 s.fs C (fun m => (S m ∨ m = (.iterb (n + 1), .specseeds)) ∨
    m = (.iterb (n + 1), .final)) s'.fs s'.budget ∧
    s'.cfg = { s.cfg with dOut := .iterb (n + 1), catfile := some (.iterb (n + 1), .final) }) ?_ fun _ t2 g2 => ?_
  · unfold stFullRun
    refine wp_get ?_
    simp only [c1]
    refine wp_seq (Q' := fun _ s' => Inv E zk w0 s.fs C (fun m => (S m ∨ m = (.iterb (n + 1), .specseeds)) ∨
      m = (.iterb (n + 1), .final)) s'.fs s'.budget ∧ s'.cfg = t1.cfg) ?_ fun _ t2 g2 => wp_set' ⟨g2.1, ?_⟩
    · refine wp_ifMissing (fun k hk => ⟨g1.add hk, rfl⟩) fun hnf => ?_
      refine wp_seq (wp_runIn (i := n + 1) (S := fun m => S m ∨ m = (.iterb (n + 1), .specseeds)) g1
        ⟨hr.par, hr.bkg, hr.zred, hr.mask, Or.inl hr.s1, Or.inl hr.s2, Or.inl hr.s3, Or.inl hr.s4, Or.inl hr.s5⟩
        (Or.inr rfl) (fun m hm => ?_)) fun x t' hx => ?_
      · dsimp only at hm
        rw [h3] at hm
        cases hm
        exact Or.inl s2
      · obtain ⟨rfl, hx⟩ := hx
        dsimp only at hx
        rw [h2, h3] at hx
        have hin : FinalIn E w0 t'.fs (n + 1) x := ⟨s.cfg.wvals, WVal_mono g1.keeps hw, hx⟩
        refine wp_write2 g1 hnf (by simp) (by simp) (fun fs' hk => ?_) (fun fs' hk e => ?_) rfl
        · exact ⟨hn.symm, r, x, FinalIn_mono hk hin, rfl⟩
        · exact ⟨hn.symm, r, x, FinalIn_mono hk hin, e, rfl⟩
    · simp only [g2.2, c1]
  obtain ⟨g2, c2⟩ := g2
  unfold stPlotFinal
  refine wp_get ?_
  simp only [c2]
  refine wp_ifMissing (fun k hk => ⟨(h.rebase (g2.add hk)).weaken ?_, c2⟩) fun hnf => ?_
  · rintro m (hm | rfl | rfl | rfl) <;> simp [*]
  refine wp_read (fun p hp => ?_) (g2.absent fun _ => g2.has _ (Or.inr rfl))
  refine wp_write (C := C) g2.bud (fun b hb => ⟨?_, c2⟩) fun hC => ⟨g2.toMid, hC⟩
  refine (h.rebase (g2.write hnf (by simp) ⟨hn.symm, p, keeps_upd hnf _ _ hp, rfl⟩ b hb (by simp) (by simp) (by simp)
    (by simp))).weaken ?_
  rintro m (hm | rfl | rfl | rfl) <;> simp [*]

/-- The products a completed session leaves. -/
def Products (E : Ext R K W) (m : Name) : Prop :=
  LoopProd (E.niter + 1) m ∨ m = (.top, .specseeds) ∨ m = (.iterb E.niter, .specseeds) ∨
    m = (.iterb E.niter, .final) ∨ m = (.iterb E.niter, .plot) ∨
    (E.fullSky = false ∧ E.makeFullBkg = true ∧ m = (.run, .bkgChisq))

theorem wp_calibrate {s : St K W} (r : R) {zred : Option Name} (hn : 1 ≤ E.niter)
    (hz : ∀ n, zred = some n → n.1 = .ext) (hk : zk = zred.bind fs0)
    (h : Inv E zk w0 fs0 C (fun _ => False) s.fs s.budget) (hc : s.cfg = start zred none w0)
    (hC : C → E.pixelized = true) :
    wp (calibrate E r) (fun o s' => Inv E zk w0 fs0 C (Products E) s'.fs s'.budget ∧
      o = { parfile := (.iter E.niter, .pars)
            bkgfile := if E.fullSky then .iter E.niter else if E.makeFullBkg then .run else .iter E.niter
            zredfile := if E.fullSky then (.iter E.niter, .zreds) else (.run, .zreds)
            zlambdafile := (.iter E.niter, .zlambda)
            wcenfile := (.iter E.niter, .wcen)
            bkgfileColor := some (.top, .bkgColor)
            maskgalfile := some (.top, .maskgals)
            redgalfile := some (.top, .redgals)
            redgalmodelfile := some (.top, .redmodel) }) (Bad E zk w0 fs0 C) s := by
  obtain ⟨n, hn'⟩ : ∃ n, E.niter = n + 1 := ⟨E.niter - 1, by omega⟩
  unfold calibrate
  refine wp_seq (wp_stRed r h (by rw [hc]; rfl)) fun _ t1 g1 => ?_
  obtain ⟨g1, c1⟩ := g1
  refine wp_seq (wp_stColor r g1 (by rw [c1, hc]; rfl)) fun _ t2 g2 => ?_
  obtain ⟨g2, c2⟩ := g2
  refine wp_seq (wp_stMask r g2 (by rw [c2, c1, hc]; rfl)) fun _ t3 g3 => ?_
  obtain ⟨g3, c3⟩ := g3
  refine wp_seq (wp_stColormem r g3 (by rw [c3, c2, c1, hc]; rfl) (by rw [c3, c2, c1]) (by rw [c3, c2, c1])
    (by rw [c3, c2]) (by rw [c3]) (by simp) (by simp) (by simp)) fun _ t4 g4 => ?_
  obtain ⟨g4, c4⟩ := g4
  have hz4 : t4.cfg.zredfile = zred := by rw [c4, c3, c2, c1, hc]; rfl
  refine wp_seq (wp_stTrain r g4 (by rw [c4, c3, c2, c1, hc]; rfl) (by rw [hz4]; exact hz) (by rw [hz4]; exact hk))
    fun _ t5 g5 => ?_
  obtain ⟨g5, c5⟩ := g5
  have hL : LoopCfg E w0 t5.fs 1 t5.cfg := by
    rw [c5, c4, c3, c2, c1, hc]
    exact ⟨rfl, rfl, rfl, rfl, rfl, rfl, rfl, rfl, rfl, fun _ => rfl, fun j hj => by omega⟩
  have gL : Inv E zk w0 fs0 C (LoopProd (0 + 1)) t5.fs t5.budget := g5.weaken fun m hm => by
    obtain ⟨b, k⟩ := m
    rcases hm with ⟨hb, hk⟩ | ⟨h2, _⟩ | ⟨j, h1, h2, _⟩
    · dsimp only at hb hk
      subst hb
      simp only [List.mem_cons, List.not_mem_nil, or_false] at hk
      rcases hk with rfl | rfl | rfl | rfl | rfl <;> simp
    · omega
    · omega
  refine wp_seq (wp_turns r hC E.niter 0 gL hL) fun _ t6 g6 => ?_
  obtain ⟨g6, L⟩ := g6
  rw [Nat.zero_add] at g6 L
  rw [hn'] at L
  obtain ⟨lp, lz, lb, ll⟩ := L.later n rfl
  have inIter : ∀ k, k ∈ [Kind.pars, .zreds, .bkgChisq, .bkgZred, .specseeds, .final, .wcen, .zlambda, .plot, .zmem] →
      LoopProd (E.niter + 1) (.iter (n + 1), k) := fun k hk =>
    Or.inr (Or.inr ⟨n + 1, by omega, by omega, Or.inl ⟨rfl, hk⟩⟩)
  have inPars : LoopProd (E.niter + 1) (.iter E.niter, .pars) := by rw [hn'] at inIter ⊢; exact inIter _ (by simp)
  have inZreds : LoopProd (E.niter + 1) (.iter E.niter, .zreds) := by rw [hn'] at inIter ⊢; exact inIter _ (by simp)
  refine wp_rebase g6 ?_
  refine wp_seq (wp_stSpecSeeds r g6.self L.dOut (by rw [hn']; exact lz) inZreds)
    fun _ t7 g7 => ?_
  obtain ⟨g7, c7⟩ := g7
  have hk67 : WVal E w0 t7.fs (n + 2) t7.cfg.wvals := by
    rw [c7]; exact WVal_mono g7.keeps L.wvals
  refine wp_seq (wp_finalIteration r hn' g7 (by rw [c7])
    ⟨by rw [c7]; exact lp, by rw [c7]; exact lb, by rw [c7]; exact lz, by rw [c7]; exact L.mask,
      Or.inl (inIter _ (by simp)), Or.inl (inIter _ (by simp)), Or.inl (inIter _ (by simp)),
      Or.inl (inIter _ (by simp)), Or.inl (Or.inl (by simp))⟩ (by rw [c7]; exact L.center) (by rw [c7]; exact ll) hk67
      (Or.inr rfl) (Or.inl (inIter _ (by simp)))) fun _ t8 g8 => ?_
  obtain ⟨g8, c8⟩ := g8
  refine wp_get ?_
  have eo : (outputConfig E t8.cfg) = ((
          { parfile := (.iter E.niter, .pars)
            bkgfile := if E.fullSky then .iter E.niter else if E.makeFullBkg then .run else .iter E.niter
            zredfile := if E.fullSky then (.iter E.niter, .zreds) else (.run, .zreds)
            zlambdafile := (.iter E.niter, .zlambda)
            wcenfile := (.iter E.niter, .wcen)
            bkgfileColor := some (.top, .bkgColor)
            maskgalfile := some (.top, .maskgals)
            redgalfile := some (.top, .redgals)
            redgalmodelfile := some (.top, .redmodel) } : RunCfg), !E.fullSky && E.makeFullBkg) := by
    simp [outputConfig, c8, c7, L.color, L.mask, L.red, L.model]
  have wk : ∀ m, Products E m → ((LoopProd (E.niter + 1) m ∨ m = (.top, .specseeds)) ∨
      m = (.iterb (n + 1), .specseeds) ∨ m = (.iterb (n + 1), .final) ∨ m = (.iterb (n + 1), .plot)) ∨
      (E.fullSky = false ∧ E.makeFullBkg = true ∧ m = (.run, .bkgChisq)) := by
    unfold Products
    rw [hn']
    rintro m (hm | hm | hm | hm | hm | hm)
    · exact Or.inl (Or.inl (Or.inl hm))
    · exact Or.inl (Or.inl (Or.inr hm))
    · exact Or.inl (Or.inr (Or.inl hm))
    · exact Or.inl (Or.inr (Or.inr (Or.inl hm)))
    · exact Or.inl (Or.inr (Or.inr (Or.inr hm)))
    · exact Or.inr hm
  rw [eo]
  dsimp only
  refine wp_seq (Q' := fun _ s' => Inv E zk w0 t6.fs C (Products E) s'.fs s'.budget) ?_
    fun _ t9 g9 => wp_pure ⟨g6.rebase g9, rfl⟩
  cases hb : (!E.fullSky && E.makeFullBkg) with
  | false =>
    refine wp_pure (g8.weaken fun m hm => ?_)
    rcases wk m hm with h | ⟨h1, h2, _⟩
    · exact h
    · rw [h1, h2] at hb; cases hb
  | true =>
    simp only [Bool.and_eq_true, Bool.not_eq_true'] at hb
    obtain ⟨b1, b2⟩ := hb
    unfold stDeep
    simp only [b1, b2, Bool.false_eq_true, if_false, if_true]
    have wk' : ∀ m, Products E m → ((LoopProd (E.niter + 1) m ∨ m = (.top, .specseeds)) ∨
      m = (.iterb (n + 1), .specseeds) ∨ m = (.iterb (n + 1), .final) ∨ m = (.iterb (n + 1), .plot)) ∨
      m = (.run, .bkgChisq) := fun m hm => by
        rcases wk m hm with h | ⟨_, _, h⟩
        · exact Or.inl h
        · exact Or.inr h
    refine wp_ifMissing (fun k hk => (g8.add hk).weaken wk') fun hnf => ?_
    refine wp_read (fun p hp => ?_) (g8.absent fun _ => g8.has _ (Or.inl (Or.inl inPars)))
    refine wp_write (C := C) g8.bud (fun b hb => ?_) fun hC => ⟨g8.toMid, hC⟩
    exact (g8.write hnf (by simp) ⟨r, p, keeps_upd hnf _ _ hp, rfl⟩ b hb (by simp) (by simp) (by simp)
      (by simp)).weaken wk'

end session

/-! ## Theorems about sessions and histories -/

variable {E : Ext R K W} {w0 : W}

/-- A directory without any calibration product. -/
def Fresh (fs : Name → Option K) : Prop := ∀ n, n.1 ≠ .ext → fs n = none

/-- The directory after a history of sessions, each with its own random draws and its own crash point (`none`:
it is not interrupted). -/
def history (E : Ext R K W) (zred : Option Name) (w0 : W) (fs : Name → Option K) :
    List (R × Option Nat) → Name → Option K
  | [] => fs
  | q :: l => history E zred w0 (session E q.1 zred none w0 fs q.2).2.fs l

theorem session_mid (hn : 1 ≤ E.niter) (r : R) {zred : Option Name} (hz : ∀ n, zred = some n → n.1 = .ext)
    {fs : Name → Option K} (hg : GoodP E (zred.bind fs) w0 fs) (b : Option Nat) :
    Keeps fs (session E r zred none w0 fs b).2.fs ∧
    (∀ n, n.1 = .ext → (session E r zred none w0 fs b).2.fs n = fs n) ∧
    GoodP E (zred.bind fs) w0 (session E r zred none w0 fs b).2.fs := by
  have := wp_calibrate (E := E) (w0 := w0) (fs0 := fs) (C := False) (zk := zred.bind fs) r hn hz rfl
    (s := { cfg := start zred none w0, fs := fs, budget := b })
    ⟨⟨keeps_refl _, fun _ _ => rfl, hg, False.elim⟩, fun _ h => h.elim, False.elim⟩ rfl False.elim
  unfold wp at this
  unfold session
  cases hm : calibrate E r { cfg := start zred none w0, fs := fs, budget := b } with
  | mk o s' =>
    rw [hm] at this
    cases o with
    | none => exact ⟨this.1.keeps, this.1.ext, this.1.good⟩
    | some a => exact ⟨this.1.keeps, this.1.ext, this.1.good⟩

theorem history_mid (hn : 1 ≤ E.niter) {zred : Option Name} (hz : ∀ n, zred = some n → n.1 = .ext) :
    ∀ (l : List (R × Option Nat)) {fs : Name → Option K}, GoodP E (zred.bind fs) w0 fs →
    Keeps fs (history E zred w0 fs l) ∧ (∀ n, n.1 = .ext → history E zred w0 fs l n = fs n) ∧
    GoodP E (zred.bind fs) w0 (history E zred w0 fs l) := by
  intro l
  induction l with
  | nil => intro fs hg; exact ⟨keeps_refl _, fun _ _ => rfl, hg⟩
  | cons q l ih =>
    intro fs hg
    obtain ⟨h1, h2, h3⟩ := session_mid hn q.1 hz hg q.2
    have e : zred.bind (session E q.1 zred none w0 fs q.2).2.fs = zred.bind fs := by
      cases hq : zred with
      | none => rfl
      | some n => rw [hq] at h2; exact h2 n (hz n hq)
    obtain ⟨i1, i2, i3⟩ := ih (e.symm ▸ h3)
    rw [e] at i3
    exact ⟨keeps_trans h1 i1, fun n hn => (i2 n hn).trans (h2 n hn), i3⟩

theorem goodP_fresh {fs : Name → Option K} {zk : Option K} (h : Fresh fs) : GoodP E zk w0 fs := by
  intro n k hn hk
  rw [h n hn] at hk
  cases hk

theorem clean_fresh {fs : Name → Option K} {zk : Option K} (h : Fresh fs) : Clean E zk w0 fs := by
  refine ⟨fun h' => ?_, fun h' => ?_, fun b h' hb => ?_, fun i h' => ?_, fun i k h' => ?_⟩
  · rw [h _ (by simp)] at h'; cases h'
  · rw [h _ (by simp)] at h'; cases h'
  · rw [h _ hb] at h'; cases h'
  · rw [h _ (by simp)] at h'; cases h'
  · rw [h _ (by simp)] at h'; cases h'

theorem history_append (zred : Option Name) (l l' : List (R × Option Nat)) (fs : Name → Option K) :
    history E zred w0 fs (l ++ l') = history E zred w0 (history E zred w0 fs l) l' := by
  induction l generalizing fs with
  | nil => rfl
  | cons q l ih => exact ih _

/-- **C135.** Whatever sessions ran before, whatever their random draws and wherever they were interrupted: a
product that is in the directory when a session starts is not changed by that session or any later one, and the
files of the user are never touched. -/
theorem C135_products_never_change (hn : 1 ≤ E.niter) {zred : Option Name}
    (hz : ∀ n, zred = some n → n.1 = .ext) {fs : Name → Option K} (hf : Fresh fs)
    (before after : List (R × Option Nat)) (n : Name) (k : K)
    (hk : history E zred w0 fs before n = some k) :
    history E zred w0 fs (before ++ after) n = some k ∧
      ∀ m, m.1 = .ext → history E zred w0 fs (before ++ after) m = fs m := by
  have g := history_mid (w0 := w0) hn hz before (goodP_fresh hf)
  have e : zred.bind (history E zred w0 fs before) = zred.bind fs := by
    cases hq : zred with
    | none => rfl
    | some n => rw [hq] at g; exact g.2.1 n (hz n hq)
  have g' := history_mid (w0 := w0) hn hz after (e.symm ▸ g.2.2)
  rw [history_append]
  exact ⟨g'.1 n k hk, fun m hm => (g'.2.1 m hm).trans (g.2.1 m hm)⟩

/-- **C136**, the full claim: after any history every product in the directory is a possible result of its
stage on the products in the directory. It fails: see `C136_false`. -/
def C136_spec (E : Ext R K W) (w0 : W) : Prop :=
  ∀ (zred : Option Name), (∀ n, zred = some n → n.1 = .ext) → ∀ (fs : Name → Option K), Fresh fs →
    ∀ l : List (R × Option Nat), Good E (zred.bind fs) w0 (history E zred w0 fs l)

/-- **C136, partial**: the claim holds for every product but the red-sequence parameters, which may be the
preliminary ones; and it holds for all of them when no multi-file stage was cut short. Missing: parameters
after a crash between the two saves. -/
theorem C136_provenance_partial (hn : 1 ≤ E.niter) {zred : Option Name}
    (hz : ∀ n, zred = some n → n.1 = .ext) {fs : Name → Option K} (hf : Fresh fs) (l : List (R × Option Nat)) :
    (∀ n k, n.1 ≠ .ext → n.2 ≠ .pars → history E zred w0 fs l n = some k →
      Made E (zred.bind fs) w0 (history E zred w0 fs l) n k) ∧
    (∀ i k, history E zred w0 fs l (.iter i, .pars) = some k →
      ∃ r a b, history E zred w0 fs l (memFile i) = some a ∧ history E zred w0 fs l (.top, .bkgColor) = some b ∧
        (k = (E.pars r a b).2 ∨ k = (E.pars r a b).1)) ∧
    (Clean E (zred.bind fs) w0 (history E zred w0 fs l) →
      Good E (zred.bind fs) w0 (history E zred w0 fs l)) := by
  have g := (history_mid (w0 := w0) hn hz l (goodP_fresh hf)).2.2
  refine ⟨fun n k h1 h2 hk => ?_, fun i k hk => ?_, fun hc n k h1 hk => ?_⟩
  · rcases g n k h1 hk with h | ⟨_, _, _, _, rfl, _⟩
    · exact h
    · exact absurd rfl h2
  · rcases g _ k (by simp) hk with ⟨r, a, b, ha, hb, e⟩ | ⟨j, r, a, b, e, ha, hb, e'⟩
    · exact ⟨r, a, b, ha, hb, Or.inl e⟩
    · cases e
      exact ⟨r, a, b, ha, hb, Or.inr e'⟩
  · rcases g n k h1 hk with h | ⟨i, _, _, _, rfl, _⟩
    · exact h
    · exact hc.pars i k hk

/-- **C137, partial**: after any history that left a clean directory, an uninterrupted session completes; every
product is then there and is a possible result of its stage; and the directory is clean again. It needs a
pixelized galaxy catalog and at least one iteration. Missing: directories in which a multi-file stage was cut
short (`C137_false`). -/
theorem C137_completes_partial (hn : 1 ≤ E.niter) (hp : E.pixelized = true) {zred : Option Name}
    (hz : ∀ n, zred = some n → n.1 = .ext) {fs : Name → Option K} (hf : Fresh fs)
    (l : List (R × Option Nat)) (hc : Clean E (zred.bind fs) w0 (history E zred w0 fs l)) (r : R) :
    (session E r zred none w0 (history E zred w0 fs l) none).1.isSome ∧
    (∀ m, Products E m → (history E zred w0 fs (l ++ [(r, none)]) m).isSome) ∧
    Good E (zred.bind fs) w0 (history E zred w0 fs (l ++ [(r, none)])) ∧
    Clean E (zred.bind fs) w0 (history E zred w0 fs (l ++ [(r, none)])) := by
  have g := history_mid (w0 := w0) hn hz l (goodP_fresh hf)
  have e : zred.bind (history E zred w0 fs l) = zred.bind fs := by
    cases hq : zred with
    | none => rfl
    | some n => rw [hq] at g; exact g.2.1 n (hz n hq)
  have := wp_calibrate (E := E) (w0 := w0) (fs0 := history E zred w0 fs l) (C := True) (zk := zred.bind fs) r hn hz
    e.symm (s := { cfg := start zred none w0, fs := history E zred w0 fs l, budget := none })
    ⟨⟨keeps_refl _, fun _ _ => rfl, g.2.2, fun _ => rfl⟩, fun _ h => h.elim, fun _ => hc⟩ rfl fun _ => hp
  rw [history_append]
  show (calibrate E r _).1.isSome ∧ (∀ m, Products E m → ((calibrate E r _).2.fs m).isSome) ∧
    Good _ _ _ (calibrate E r _).2.fs ∧ Clean _ _ _ (calibrate E r _).2.fs
  unfold wp at this
  cases hm : calibrate E r { cfg := start zred none w0, fs := history E zred w0 fs l, budget := none } with
  | mk o s' =>
    rw [hm] at this
    cases o with
    | none => exact absurd trivial this.2
    | some a =>
      refine ⟨rfl, this.1.has, fun n k h1 hk => ?_, this.1.clean trivial⟩
      rcases this.1.good n k h1 hk with h | ⟨i, _, _, _, rfl, _⟩
      · exact h
      · exact (this.1.clean trivial).pars i k hk

/-- **C137**, first session: a calibration that is not interrupted completes. -/
theorem C137_first_session (hn : 1 ≤ E.niter) (hp : E.pixelized = true) {zred : Option Name}
    (hz : ∀ n, zred = some n → n.1 = .ext) {fs : Name → Option K} (hf : Fresh fs) (r : R) :
    (session E r zred none w0 fs none).1.isSome ∧
    (∀ m, Products E m → ((session E r zred none w0 fs none).2.fs m).isSome) ∧
    Good E (zred.bind fs) w0 (session E r zred none w0 fs none).2.fs := by
  have := C137_completes_partial (w0 := w0) hn hp hz hf [] (clean_fresh hf) r
  exact ⟨this.1, this.2.1, this.2.2.1⟩

/-- **C138.** The configuration a completed calibration hands to the cluster finder names, for each product, a
file that is there: parameters, redshift correction, centering, color background, mask galaxies, red galaxies,
the chi-squared background; the zreds exactly as the log says, there already when the calibration covered the
full footprint. -/
theorem C138_output_configuration (hn : 1 ≤ E.niter) {zred : Option Name}
    (hz : ∀ n, zred = some n → n.1 = .ext) {fs : Name → Option K} (hf : Fresh fs)
    (l : List (R × Option Nat)) (r : R) (b : Option Nat) {o : RunCfg} {s' : St K W}
    (ho : session E r zred none w0 (history E zred w0 fs l) b = (some o, s')) :
    (s'.fs o.parfile).isSome ∧ o.parfile = (.iter E.niter, .pars) ∧
    (s'.fs o.zlambdafile).isSome ∧ o.zlambdafile = (.iter E.niter, .zlambda) ∧
    (s'.fs o.wcenfile).isSome ∧ o.wcenfile = (.iter E.niter, .wcen) ∧
    (s'.fs (o.bkgfile, .bkgChisq)).isSome ∧
    (∃ n, o.bkgfileColor = some n ∧ (s'.fs n).isSome) ∧ (∃ n, o.maskgalfile = some n ∧ (s'.fs n).isSome) ∧
    (∃ n, o.redgalfile = some n ∧ (s'.fs n).isSome) ∧
    (E.fullSky = true → (s'.fs o.zredfile).isSome ∧ (s'.fs (o.bkgfile, .bkgZred)).isSome) := by
  have g := history_mid (w0 := w0) hn hz l (goodP_fresh hf)
  have e : zred.bind (history E zred w0 fs l) = zred.bind fs := by
    cases hq : zred with
    | none => rfl
    | some n => rw [hq] at g; exact g.2.1 n (hz n hq)
  have := wp_calibrate (E := E) (w0 := w0) (fs0 := history E zred w0 fs l) (C := False) (zk := zred.bind fs) r hn hz
    e.symm (s := { cfg := start zred none w0, fs := history E zred w0 fs l, budget := b })
    ⟨⟨keeps_refl _, fun _ _ => rfl, g.2.2, False.elim⟩, fun _ h => h.elim, False.elim⟩ rfl False.elim
  unfold wp at this
  unfold session at ho
  rw [ho] at this
  obtain ⟨h, rfl⟩ := this
  have ht : ∀ k, k ∈ [Kind.redgals, .bkgColor, .maskgals, .colormem, .trainSeeds] → (s'.fs (.top, k)).isSome :=
    fun k hk => h.has _ (Or.inl (Or.inl ⟨rfl, hk⟩))
  have hi : ∀ k, k ∈ [Kind.pars, .zreds, .bkgChisq, .bkgZred, .specseeds, .final, .wcen, .zlambda, .plot, .zmem] →
      (s'.fs (.iter E.niter, k)).isSome := fun k hk =>
    h.has _ (Or.inl (Or.inr (Or.inr ⟨E.niter, hn, by omega, Or.inl ⟨rfl, hk⟩⟩)))
  refine ⟨hi _ (by simp), rfl, hi _ (by simp), rfl, hi _ (by simp), rfl, ?_, ⟨_, rfl, ht _ (by simp)⟩,
    ⟨_, rfl, ht _ (by simp)⟩, ⟨_, rfl, ht _ (by simp)⟩, fun hs => ?_⟩
  · dsimp only
    cases hs : E.fullSky with
    | true => exact hi _ (by simp)
    | false =>
      cases hm : E.makeFullBkg with
      | true => exact h.has _ (Or.inr (Or.inr (Or.inr (Or.inr (Or.inr ⟨hs, hm, rfl⟩)))))
      | false => exact hi _ (by simp)
  · dsimp only
    rw [hs]
    exact ⟨hi _ (by simp), hi _ (by simp)⟩

/-! ## A completed calibration is not redone -/

/-- The directory is `fs`, the output base is `b`. -/
def Same (fs : Name → Option K) (b : Base) (s : St K W) : Prop := s.fs = fs ∧ s.cfg.dOut = b

section skip

variable {fs : Name → Option K} {s : St K W} {b : Base}

theorem skip_ifMissing {Q : Unit → St K W → Prop} {X : St K W → Prop} {n : Name} {body : M K W Unit}
    (h : s.fs = fs) (hn : (fs n).isSome) (hq : Q () s) : wp (ifMissing n body) Q X s :=
  wp_ifMissing (fun _ _ => hq) fun h' => by rw [h] at h'; rw [h'] at hn; cases hn

/-- The stages of the form: set the configuration, and unless the file is there, make it. -/
theorem skip_stage {k : Kind} {g : Cfg W → Cfg W} {body : Cfg W → M K W Unit} (hg : ∀ c, (g c).dOut = c.dOut)
    (h : Same fs b s) (hn : (fs (b, k)).isSome) :
    wp (do setCfg g; let c ← getCfg; ifMissing (c.dOut, k) (body c)) (fun _ => Same fs b) (fun _ => False) s := by
  refine wp_set (wp_get ?_)
  have e : (g s.cfg).dOut = b := (hg _).trans h.2
  simp only [e]
  exact skip_ifMissing h.1 hn ⟨h.1, e⟩

theorem skip_stage' {k : Kind} {body : Cfg W → M K W Unit}
    (h : Same fs b s) (hn : (fs (b, k)).isSome) :
    wp (do let c ← getCfg; ifMissing (c.dOut, k) (body c)) (fun _ => Same fs b) (fun _ => False) s := by
  refine wp_get ?_
  simp only [h.2]
  exact skip_ifMissing h.1 hn h

theorem skip_bkgs (r : R) (h : Same fs b s) (h1 : (fs (b, .bkgChisq)).isSome) (h2 : (fs (b, .bkgZred)).isSome) :
    wp (stBkgs E r) (fun _ => Same fs b) (fun _ => False) s := by
  unfold stBkgs
  refine wp_set (wp_get (wp_bind ?_))
  have e1 : (s.fs (s.cfg.dOut, .bkgChisq)).isNone = false := by
    rw [h.1, h.2]; obtain ⟨k, e⟩ := isSome_get h1; rw [e]; rfl
  have e2 : (s.fs (s.cfg.dOut, .bkgZred)).isNone = false := by
    rw [h.1, h.2]; obtain ⟨k, e⟩ := isSome_get h2; rw [e]; rfl
  show wp (do
    stBkg E r _ _ (s.fs (s.cfg.dOut, .bkgChisq)).isNone
    stZbkg E r _ _ (s.fs (s.cfg.dOut, .bkgZred)).isNone) _ _ _
  rw [e1, e2]
  refine wp_bind (wp_pure (wp_pure ?_))
  exact ⟨h.1, h.2⟩

theorem skip_rands (r : R) {i : Nat} (h : Same fs (.iter i) s) (hp : ∀ m, RandProd i m → (fs m).isSome) :
    wp (stRands E r i) (fun _ => Same fs (.iter i)) (fun _ => False) s := by
  by_cases hi : i = 1
  · subst hi
    unfold stRands
    refine wp_seq (skip_stage' h (hp _ ⟨rfl, Or.inl rfl⟩)) fun _ t1 g1 => ?_
    refine wp_get ?_
    rw [g1.2]
    refine wp_seq (Q' := fun _ t => t.fs = fs) ?_ fun _ t2 g2 => ?_
    · unfold stRand
      refine wp_set ?_
      exact skip_ifMissing g1.1 (hp _ ⟨rfl, Or.inr (Or.inl rfl)⟩) g1.1
    refine wp_seq (Q' := fun _ t => t.fs = fs) ?_ fun _ t3 g3 => ?_
    · unfold stRand
      refine wp_set ?_
      exact skip_ifMissing g2 (hp _ ⟨rfl, Or.inr (Or.inr rfl)⟩) g2
    refine wp_set (wp_pure ⟨g3, rfl⟩)
  · have e : stRands E r i = (M.pure none : M K W (Option (Name × Name))) := by
      match i, hi with
      | 0, _ => rfl
      | i + 2, _ => rfl
    rw [e]
    exact wp_pure h

theorem skip_wcen (r : R) {cc : CC} {n : Name} {q : Option (Name × Name)} (h : Same fs b s)
    (hn : (fs (b, .wcen)).isSome) :
    wp (stWcen E r cc n q) (fun _ => Same fs b) (fun _ => False) s := by
  unfold stWcen
  refine wp_set (wp_get ?_)
  refine wp_seq (Q' := fun _ => Same fs b) ?_ fun _ t g => ?_
  · refine skip_ifMissing h.1 (by dsimp only; rw [h.2]; exact hn) ⟨h.1, h.2⟩
  · refine wp_tryRead ?_
    dsimp only [Option.bind_some]
    cases t.fs (s.cfg.dOut, .wcen) with
    | none => exact wp_pure g
    | some k => exact wp_set' g

theorem skip_iteration (r : R) {i : Nat} (h : s.fs = fs) (hp : ∀ m, IterProd i m → (fs m).isSome) :
    wp (iteration E r i) (fun _ => Same fs (.iter i)) (fun _ => False) s := by
  have hk : ∀ k, k ∈ [Kind.pars, .zreds, .bkgChisq, .bkgZred, .specseeds, .final, .wcen, .zlambda, .plot, .zmem] →
      (fs (.iter i, k)).isSome := fun k hk => hp _ (Or.inl ⟨rfl, hk⟩)
  unfold iteration
  refine wp_set ?_
  refine wp_seq (skip_stage (b := .iter i) (fun _ => rfl) ⟨h, rfl⟩ (hk _ (by simp))) fun _ t1 g1 => ?_
  refine wp_seq (skip_stage (fun _ => rfl) g1 (hk _ (by simp))) fun _ t2 g2 => ?_
  refine wp_seq (skip_bkgs r g2 (hk _ (by simp)) (hk _ (by simp))) fun _ t3 g3 => ?_
  refine wp_get (wp_set ?_)
  refine wp_seq (skip_stage' (b := .iter i) (fs := fs) ⟨g3.1, g3.2⟩ (hk _ (by simp))) fun _ t4 g4 => ?_
  refine wp_seq (skip_stage' g4 (hk _ (by simp))) fun _ t5 g5 => ?_
  refine wp_seq (skip_rands r g5 fun m hm => hp m (Or.inr hm)) fun _ t6 g6 => ?_
  refine wp_seq (skip_wcen r g6 (hk _ (by simp))) fun _ t7 g7 => ?_
  refine wp_seq (skip_stage (fun _ => rfl) g7 (hk _ (by simp))) fun _ t8 g8 => ?_
  exact skip_stage' g8 (hk _ (by simp))

theorem skip_turn (r : R) {i : Nat} (h : s.fs = fs) (hp : ∀ m, IterProd i m → (fs m).isSome)
    (hc : i = 1 → (fs (.top, .cutSeeds)).isSome) :
    wp (turn E r i) (fun _ => Same fs .top) (fun _ => False) s := by
  unfold turn
  refine wp_seq (skip_iteration r h hp) fun _ t1 g1 => ?_
  refine wp_seq (skip_stage (fun _ => rfl) g1 (hp _ (Or.inl (by simp)))) fun _ t2 g2 => ?_
  refine wp_set ?_
  match i, hc with
  | 0, _ => exact wp_pure ⟨g2.1, rfl⟩
  | 1, hc =>
    show wp (stCut E) _ _ _
    unfold stCut
    refine wp_get ?_
    refine wp_seq (Q' := fun _ => Same fs .top) ?_ fun _ t g => wp_set' g
    exact skip_ifMissing g2.1 (hc rfl) ⟨g2.1, rfl⟩
  | i + 2, _ => exact wp_pure ⟨g2.1, rfl⟩

theorem skip_turns (r : R) : ∀ (n i : Nat) {s : St K W}, Same fs .top s →
    (∀ j m, i ≤ j → j < i + n → IterProd j m → (fs m).isSome) → (fs (.top, .cutSeeds)).isSome →
    wp (turns E r i n) (fun _ => Same fs .top) (fun _ => False) s := by
  intro n
  induction n with
  | zero => intro i s h _ _; exact wp_pure h
  | succ n ih =>
    intro i s h hp hc
    unfold turns
    refine wp_seq (skip_turn r h.1 (fun m hm => hp i m (by omega) (by omega) hm) fun _ => hc) fun _ t g => ?_
    exact ih (i + 1) g (fun j m h1 h2 hm => hp j m (by omega) (by omega) hm) hc

end skip

/-- **C139.** A calibration whose products are all there is not redone: another session, with any random draws
and any configuration of the user, completes without writing a file (it could not even be interrupted), for
every directory that has them. -/
theorem C139_completed_is_not_redone (hn : 1 ≤ E.niter) {fs : Name → Option K}
    (hp : ∀ m, Products E m → (fs m).isSome) (r : R) (zred zlam : Option Name) (b : Option Nat) :
    (session E r zred zlam w0 fs b).1.isSome ∧ (session E r zred zlam w0 fs b).2.fs = fs := by
  have ht : ∀ k, k ∈ [Kind.redgals, .bkgColor, .maskgals, .colormem, .trainSeeds] → (fs (.top, k)).isSome :=
    fun k hk => hp _ (Or.inl (Or.inl ⟨rfl, hk⟩))
  have key : wp (calibrate E r) (fun _ s' => s'.fs = fs) (fun _ => False)
      { cfg := start zred zlam w0, fs := fs, budget := b } := by
    unfold calibrate
    refine wp_seq (skip_stage (fs := fs) (b := .top) (fun _ => rfl) ⟨rfl, rfl⟩ (ht _ (by simp))) fun _ t1 g1 => ?_
    refine wp_seq (skip_stage (fun _ => rfl) g1 (ht _ (by simp))) fun _ t2 g2 => ?_
    refine wp_seq (skip_stage (fun _ => rfl) g2 (ht _ (by simp))) fun _ t3 g3 => ?_
    refine wp_seq (skip_stage (fun _ => rfl) g3 (ht _ (by simp))) fun _ t4 g4 => ?_
    refine wp_seq (skip_stage (fun _ => rfl) g4 (ht _ (by simp))) fun _ t5 g5 => ?_
    refine wp_seq (skip_turns r E.niter 1 g5 (fun j m h1 h2 hm => hp m (Or.inl (Or.inr (Or.inr
      ⟨j, h1, by omega, hm⟩)))) (hp _ (Or.inl (Or.inr (Or.inl ⟨by omega, rfl⟩))))) fun _ t6 g6 => ?_
    refine wp_seq (skip_stage (fun _ => rfl) g6 (hp _ (Or.inr (Or.inl rfl)))) fun _ t7 g7 => ?_
    refine wp_seq (Q' := fun _ => Same fs (.iterb E.niter)) ?_ fun _ t8 g8 => ?_
    · unfold finalIteration
      refine wp_set ?_
      refine wp_seq (skip_stage' (b := .iterb E.niter) (fs := fs) ⟨g7.1, rfl⟩ (hp _ (Or.inr (Or.inr (Or.inl rfl)))))
        fun _ u1 k1 => ?_
      refine wp_seq (Q' := fun _ => Same fs (.iterb E.niter)) ?_ fun _ u2 k2 => ?_
      · unfold stFullRun
        refine wp_get ?_
        refine wp_seq (Q' := fun _ => Same fs (.iterb E.niter)) ?_ fun _ t g => wp_set' g
        rw [k1.2]
        exact skip_ifMissing k1.1 (hp _ (Or.inr (Or.inr (Or.inr (Or.inl rfl))))) k1
      · exact skip_stage' k2 (hp _ (Or.inr (Or.inr (Or.inr (Or.inr (Or.inl rfl))))))
    refine wp_get ?_
    refine wp_seq (Q' := fun _ => Same fs (.iterb E.niter)) ?_ fun _ t9 g9 => wp_pure g9.1
    unfold outputConfig
    dsimp only
    cases h1 : E.fullSky with
    | true => exact wp_pure g8
    | false =>
      cases h2 : E.makeFullBkg with
      | false => exact wp_pure g8
      | true =>
        show wp (ifMissing _ _) _ _ _
        exact skip_ifMissing g8.1 (hp _ (Or.inr (Or.inr (Or.inr (Or.inr (Or.inr ⟨h1, h2, rfl⟩)))))) g8
  unfold wp at key
  unfold session
  cases hm : calibrate E r { cfg := start zred zlam w0, fs := fs, budget := b } with
  | mk o s' =>
    rw [hm] at key
    cases o with
    | none => exact key.elim
    | some a => exact ⟨rfl, key⟩

/-- **C137**, catalogs that are not pixelized: no session ever completes, after any history. -/
theorem C137_not_pixelized_false (hn : 1 ≤ E.niter) (hp : E.pixelized = false) {zred : Option Name}
    (hz : ∀ n, zred = some n → n.1 = .ext) {fs : Name → Option K} (hf : Fresh fs)
    (l : List (R × Option Nat)) (r : R) (b : Option Nat) :
    (session E r zred none w0 (history E zred w0 fs l) b).1 = none := by
  cases hm : session E r zred none w0 (history E zred w0 fs l) b with
  | mk o s' =>
    cases o with
    | none => rfl
    | some o =>
      exfalso
      have g := history_mid (w0 := w0) hn hz l (goodP_fresh hf)
      have e : zred.bind (history E zred w0 fs l) = zred.bind fs := by
        cases hq : zred with
        | none => rfl
        | some n => rw [hq] at g; exact g.2.1 n (hz n hq)
      have := wp_calibrate (E := E) (w0 := w0) (fs0 := history E zred w0 fs l) (C := False) (zk := zred.bind fs) r hn
        hz e.symm (s := { cfg := start zred none w0, fs := history E zred w0 fs l, budget := b })
        ⟨⟨keeps_refl _, fun _ _ => rfl, g.2.2, False.elim⟩, fun _ h => h.elim, False.elim⟩ rfl False.elim
      unfold wp at this
      unfold session at hm
      rw [hm] at this
      obtain ⟨k, hk⟩ := isSome_get (this.1.has (.iter E.niter, .bkgZred)
        (Or.inl (Or.inr (Or.inr ⟨E.niter, hn, by omega, Or.inl (by simp)⟩))))
      rcases this.1.good _ _ (by simp) hk with ⟨h, _⟩ | ⟨_, _, _, _, h, _⟩
      · rw [hp] at h; cases h
      · cases h

/-- A directory in which the session stopped between the red galaxies and their model. -/
def Torn (fs : Name → Option K) : Prop :=
  (fs (.top, .redgals)).isSome ∧ fs (.top, .redmodel) = none ∧ fs (.top, .colormem) = none

theorem torn_session {fs : Name → Option K} (h : Torn fs) (r : R) (zred zlam : Option Name) (b : Option Nat) :
    (session E r zred zlam w0 fs b).1 = none ∧ Torn (session E r zred zlam w0 fs b).2.fs := by
  have tu : ∀ {fs : Name → Option K} (n : Name) (k : K), Torn fs → n ≠ (.top, .redmodel) → n ≠ (.top, .colormem) →
      Torn (upd fs n k) := fun n k h h1 h2 =>
    ⟨isSome_upd h.1, by rw [upd_ne h1.symm]; exact h.2.1, by rw [upd_ne h2.symm]; exact h.2.2⟩
  have key : wp (calibrate E r) (fun _ _ => False) (fun s' => Torn s'.fs)
      { cfg := start zred zlam w0, fs := fs, budget := b } := by
    unfold calibrate
    refine wp_seq (Q' := fun _ t => Torn t.fs ∧ t.cfg.dOut = .top ∧ t.cfg.redgalfile = some (.top, .redgals) ∧
      t.cfg.redgalmodelfile = some (.top, .redmodel)) ?_ fun _ t1 g1 => ?_
    · unfold stRed
      refine wp_set (wp_get ?_)
      refine wp_ifMissing (fun _ _ => ⟨h, rfl, rfl, rfl⟩) fun hn => ?_
      have := h.1
      change fs (.top, .redgals) = none at hn
      rw [hn] at this
      cases this
    refine wp_seq (Q' := fun _ t => Torn t.fs ∧ t.cfg.dOut = .top ∧ t.cfg.redgalfile = some (.top, .redgals) ∧
      t.cfg.redgalmodelfile = some (.top, .redmodel)) ?_ fun _ t2 g2 => ?_
    · unfold stColor
      refine wp_set (wp_get ?_)
      refine wp_ifMissing (fun _ _ => g1) fun hn => ?_
      refine wp_write (C := False) False.elim (fun b hb => ⟨tu _ _ g1.1 (by simp) (by simp), g1.2⟩) fun _ => g1.1
    refine wp_seq (Q' := fun _ t => Torn t.fs ∧ t.cfg.dOut = .top ∧ t.cfg.redgalfile = some (.top, .redgals) ∧
      t.cfg.redgalmodelfile = some (.top, .redmodel)) ?_ fun _ t3 g3 => ?_
    · unfold stMask
      refine wp_set (wp_get ?_)
      refine wp_ifMissing (fun _ _ => g2) fun hn => ?_
      refine wp_write (C := False) False.elim (fun b hb => ⟨tu _ _ g2.1 (by simp) (by simp), g2.2⟩) fun _ => g2.1
    refine wp_bind ?_
    unfold stColormem
    refine wp_set (wp_get ?_)
    simp only [g3.2.1, g3.2.2.1, g3.2.2.2]
    refine wp_ifMissing (fun k hk => ?_) fun hn => ?_
    · have := g3.1.2.2
      change t3.fs (.top, .colormem) = some k at hk
      rw [hk] at this; cases this
    · refine wp_read (fun k hk => ?_) fun _ => g3.1
      refine wp_read (fun k hk => ?_) fun _ => g3.1
      have := g3.1.2.1
      change t3.fs (.top, .redmodel) = some k at hk
      rw [hk] at this; cases this
  unfold wp at key
  unfold session
  cases hm : calibrate E r { cfg := start zred zlam w0, fs := fs, budget := b } with
  | mk o s' =>
    rw [hm] at key
    cases o with
    | none => exact ⟨rfl, key⟩
    | some a => exact key.elim

/-- **C137**, the full claim: after any history an uninterrupted session completes. It fails: see
`C137_false`. -/
def C137_spec (E : Ext R K W) (w0 : W) : Prop :=
  ∀ (zred : Option Name), (∀ n, zred = some n → n.1 = .ext) → ∀ (fs : Name → Option K), Fresh fs →
    ∀ (l : List (R × Option Nat)) (r : R), (session E r zred none w0 (history E zred w0 fs l) none).1.isSome

/-- **C137 fails for every calibration**: after a session that stopped just after the first file, every later
session fails, however often one tries, until someone deletes that file. -/
theorem C137_false (r0 : R) {zred : Option Name} {fs : Name → Option K} (hf : Fresh fs)
    (l : List (R × Option Nat)) (r : R) (b : Option Nat) :
    (session E r zred none w0 (history E zred w0 fs ((r0, some 1) :: l)) b).1 = none := by
  have h1 : Torn (session E r0 zred none w0 fs (some 1)).2.fs := by
    have key : wp (calibrate E r0) (fun _ _ => False) (fun s' => Torn s'.fs)
        { cfg := start zred none w0, fs := fs, budget := some 1 } := by
      unfold calibrate
      refine wp_bind ?_
      unfold stRed
      refine wp_set (wp_get ?_)
      refine wp_ifMissing (fun k hk => ?_) fun hn => ?_
      · have := hf (.top, .redgals) (by simp)
        change fs (.top, .redgals) = some k at hk
        rw [hk] at this; cases this
      · show Torn (upd fs (.top, .redgals) (E.selRed r0).1)
        exact ⟨isSome_of (upd_same _ _ _), by rw [upd_ne (by simp)]; exact hf _ (by simp),
          by rw [upd_ne (by simp)]; exact hf _ (by simp)⟩
    unfold wp at key
    unfold session
    cases hm : calibrate E r0 { cfg := start zred none w0, fs := fs, budget := some 1 } with
    | mk o s' =>
      rw [hm] at key
      cases o with
      | none => exact key
      | some a => exact key.elim
  have h2 : ∀ (l : List (R × Option Nat)) {fs : Name → Option K}, Torn fs → Torn (history E zred w0 fs l) := by
    intro l
    induction l with
    | nil => intro fs h; exact h
    | cons q l ih => intro fs h; exact ih (torn_session h q.1 zred none q.2).2
  exact (torn_session (h2 l h1) r zred none b).1

/-! ## Witnesses -/

/-- A calibration with one iteration whose stages are easy to tell apart. -/
def E1 : Ext Unit Nat Nat where
  pixelized := true
  fullSky := true
  makeFullBkg := false
  niter := 1
  selRed _ := (1, 2)
  colorBkg _ := 3
  maskgals _ := 4
  colormem _ a b c d := (a + b + c + d, 5)
  seeds _ t z := (if t then 6 else 7) + z.getD 0
  pars _ a b := (100 + a + b, 200 + a + b)
  zreds _ p := p + 1
  bkg _ p := p + 2
  bkgDeep _ p := p + 3
  zbkg _ p z := p + z
  seedZreds _ a p := a + p
  joinSeeds a z := a * z
  specRun _ x := (x.cat + x.pars, x.zreds, x.bkg)
  subLike a b := a + b
  percRun _ x := (x.zlambda.getD 0, x.cat)
  wcen _ p b f _ w := p + b + f + w
  loadWcen k := k
  zlambda _ f := f + 9
  plot a b := a + b
  prep _ a b := a + b
  cutSeeds a b := a + b
  fullRun _ x := (x.cat + x.wvals, x.zreds)
  plotFinal a := a

/-- An empty directory. -/
def noFiles : Name → Option Nat := fun _ => none

/-- **C136 fails**: a session that stops between the two saves of the parameters leaves the preliminary
parameters; the next session completes and reports success, and the parameters of the completed calibration are
the preliminary ones. -/
theorem C136_false : ¬ C136_spec E1 0 ∧
    (session E1 () none none 0 (history E1 none 0 noFiles [((), some 8)]) none).1.isSome ∧
    history E1 none 0 noFiles [((), some 8), ((), none)] (.iter 1, .pars) = some 113 ∧
    history E1 none 0 noFiles [((), none)] (.iter 1, .pars) = some 213 := by
  have h : history E1 none 0 noFiles [((), some 8), ((), none)] (.iter 1, .pars) = some 113 := by decide +kernel
  refine ⟨fun hs => ?_, by decide +kernel, h, by decide +kernel⟩
  obtain ⟨r, a, b, ha, hb, e⟩ := hs none (by simp) noFiles (fun _ _ => rfl) _ _ _ (by simp) h
  have e : 113 = 200 + a + b := e
  omega

/-- A session that stops between the catalog of an iteration and its members: the next ones fail. -/
theorem C137_members_false :
    (session E1 () none none 0 (history E1 none 0 noFiles [((), some 15)]) none).1 = none ∧
    (session E1 () none none 0 (history E1 none 0 noFiles [((), some 15), ((), none)]) none).1 = none ∧
    (session E1 () none none 0 noFiles none).1.isSome := by
  refine ⟨by decide +kernel, by decide +kernel, by decide +kernel⟩

/-- **C136**, the guard `zlambdafile` unset is needed: if the user configured a redshift correction, the random
catalogs of an interrupted and restarted calibration use it and those of an uninterrupted one do not. -/
theorem C136_configured_correction_false :
    let fs : Name → Option Nat := fun n => if n = (.ext, .zlambda) then some 50 else none
    let whole := session E1 () none (some (.ext, .zlambda)) 0 fs none
    let part := session E1 () none (some (.ext, .zlambda)) 0 fs (some 18)
    let again := session E1 () none (some (.ext, .zlambda)) 0 part.2.fs none
    whole.1.isSome ∧ again.1.isSome ∧ whole.2.fs (.rand 1, .final) = some 0 ∧
      again.2.fs (.rand 1, .final) = some 50 := by
  decide +kernel

/-- C135-C139 are not vacuous: `E1` has an iteration and is pixelized, the empty directory is fresh, and
interrupted and completed sessions leave products. -/
example : 1 ≤ E1.niter ∧ E1.pixelized = true ∧ Fresh noFiles ∧
    history E1 none 0 noFiles [((), some 12)] (.iter 1, .zreds) = some 214 ∧
    history E1 none 0 noFiles [((), some 12), ((), none)] (.iterb 1, .final) ≠ none ∧
    (session E1 () none none 0 (history E1 none 0 noFiles [((), some 12)]) none).1.isSome := by
  refine ⟨by decide, rfl, fun _ _ => rfl, by decide +kernel, by decide +kernel, by decide +kernel⟩

/-! ## The directory of the cluster finder -/

theorem replaceGo_ne {old new : List Char} (hl : old.length = new.length) (hne : old ≠ new) (h0 : old ≠ []) :
    ∀ (fuel : Nat) (s : List Char), s.length ≤ fuel → inside old s = true → replaceGo old new fuel s ≠ s := by
  intro fuel
  induction fuel with
  | zero =>
    intro s hs hi
    have : s = [] := List.eq_nil_of_length_eq_zero (by omega)
    subst this
    unfold inside at hi
    exact absurd (List.isEmpty_iff.mp hi) h0
  | succ fuel ih =>
    intro s hs hi
    cases s with
    | nil =>
      unfold inside at hi
      exact absurd (List.isEmpty_iff.mp hi) h0
    | cons c s =>
      unfold replaceGo
      cases hp : old.isPrefixOf (c :: s) with
      | true =>
        dsimp only
        obtain ⟨t, ht⟩ := List.isPrefixOf_iff_prefix.mp hp
        intro e
        rw [← ht] at e
        exact hne (List.append_inj_left e hl.symm).symm
      | false =>
        dsimp only
        unfold inside at hi
        rw [hp, Bool.false_or] at hi
        intro e
        exact ih s (by simp at hs; omega) hi (List.cons.inj e).2

/-- Enough fuel is enough. -/
theorem replaceGo_fuel (old new : List Char) (h0 : old ≠ []) : ∀ (n : Nat) (s : List Char), s.length ≤ n → replaceGo old new n s = replaceGo old new s.length s := by
  intro n
  induction n using Nat.strongRecOn with
  | _ n ih =>
    intro s hs
    cases s with
    | nil => cases n <;> rfl
    | cons c s =>
      cases n with
      | zero => simp at hs
      | succ n =>
        have hpos : 0 < old.length := List.length_pos_iff.mpr h0
        have hlen : s.length ≤ n := by simpa using hs
        rw [List.length_cons]
        unfold replaceGo
        cases hp : old.isPrefixOf (c :: s) with
        | true =>
          dsimp only
          have hd : ((c :: s).drop old.length).length ≤ s.length := by simp only [List.length_drop, List.length_cons]; omega
          rw [ih n (by omega) _ (by omega)]
          rcases Nat.lt_or_ge s.length (n + 1) with h | h
          · rw [ih s.length h _ hd]
          · omega
        | false =>
          dsimp only
          rw [ih n (by omega) s hlen]

/-- **C140.** Without an occurrence the name is kept. -/
theorem replace_none (old new s : List Char) (h : ∀ k, k < s.length → ¬ old <+: s.drop k) : replace old new s = s := by
  unfold replace
  induction s with
  | nil => rfl
  | cons c s ih =>
    have h1 : old.isPrefixOf (c :: s) = false := by
      rw [← Bool.not_eq_true, List.isPrefixOf_iff_prefix]
      exact h 0 (by simp)
    rw [List.length_cons]
    unfold replaceGo
    rw [h1]
    dsimp only
    rw [ih fun k hk => by simpa using h (k + 1) (by simpa using hk)]

/-- **C140.** The first occurrence is replaced, and then all those in the rest. -/
theorem replace_first (old new a b : List Char) (h0 : old ≠ []) (h : ∀ k, k < a.length → ¬ old <+: (a ++ old ++ b).drop k) :
    replace old new (a ++ old ++ b) = a ++ new ++ replace old new b := by
  induction a with
  | nil =>
    obtain ⟨c, t, rfl⟩ := List.exists_cons_of_ne_nil h0
    have h1 : (c :: t).isPrefixOf (c :: (t ++ b)) = true := List.isPrefixOf_iff_prefix.mpr (by rw [← List.cons_append]; exact List.prefix_append _ _)
    have h2 : (c :: (t ++ b)).drop (c :: t).length = b := by
      rw [← List.cons_append, List.drop_left]
    unfold replace
    rw [List.nil_append, List.cons_append, List.length_cons]
    conv_lhs => unfold replaceGo
    rw [h1]
    dsimp only
    rw [h2, replaceGo_fuel _ _ h0 _ b (by simp), List.nil_append]
  | cons c a ih =>
    have h1 : old.isPrefixOf (c :: (a ++ old ++ b)) = false := by
      rw [← Bool.not_eq_true, List.isPrefixOf_iff_prefix]
      exact h 0 (by simp)
    have ih := ih fun k hk => by simpa using h (k + 1) (by simpa using hk)
    unfold replace at ih ⊢
    rw [List.cons_append, List.cons_append, List.length_cons]
    conv_lhs => unfold replaceGo
    rw [h1]
    dsimp only
    rw [ih]
    simp

/-- **C140.** The cluster finder gets another directory and another output base than the calibration, whatever
these are called, so that its products cannot overwrite those of the calibration. -/
theorem C140_run_is_elsewhere (cal : List Char) : runDir cal ≠ cal ∧ runBase cal ≠ cal := by
  have app : cal ++ ['_', 'r', 'u', 'n'] ≠ cal := fun e => by
    have := congrArg List.length e
    simp at this
  refine ⟨?_, ?_⟩
  · unfold runDir
    by_cases h : cal = ['c', 'a', 'l']
    · rw [if_pos h, h]; decide
    · rw [if_neg h]
      by_cases h1 : inside ['c', 'a', 'l', '_'] cal = true
      · rw [if_pos h1]
        exact replaceGo_ne (by decide) (by decide) (by decide) _ _ (Nat.le_refl _) h1
      · rw [if_neg h1]
        by_cases h2 : inside ['_', 'c', 'a', 'l'] cal = true
        · rw [if_pos h2]
          exact replaceGo_ne (by decide) (by decide) (by decide) _ _ (Nat.le_refl _) h2
        · rw [if_neg h2]; exact app
  · unfold runBase
    by_cases h2 : inside ['_', 'c', 'a', 'l'] cal = true
    · rw [if_pos h2]
      exact replaceGo_ne (by decide) (by decide) (by decide) _ _ (Nat.le_refl _) h2
    · rw [if_neg h2]; exact app

example : runDir "cal".toList = "run".toList ∧ runDir "y3_cal_v2".toList = "y3_run_v2".toList ∧
    runDir "mycal_1".toList = "myrun_1".toList ∧ runDir "local".toList = "local_run".toList ∧
    runBase "zz_cal".toList = "zz_run".toList ∧ runDir "cal_a_cal_b".toList = "run_a_run_b".toList := by decide +kernel

/-! ## The check of the corrected redshifts -/

/-- **C141**, the full claim: the calibration stops with an error exactly when the correction makes the redshift
of some cluster negative. It fails: see `C141_false`. -/
def C141_spec {α : Type} [LinearOrder α] [Zero α] (corr : α → α) (zs : List α) : Prop :=
  (negativeCheck corr zs = .runtimeError ↔ ∃ z ∈ zs, corr z < 0)

/-- **C141, partial**: an error is only raised for a negative redshift, and always when the last cluster has
one; with no clusters the check itself fails. Missing: the other clusters. -/
theorem C141_check_partial {α : Type} [LinearOrder α] [Zero α] (corr : α → α) (zs : List α) :
    (negativeCheck corr zs = .runtimeError → ∃ z ∈ zs, corr z < 0) ∧
    (∀ pre z, zs = pre ++ [z] → (negativeCheck corr zs = .runtimeError ↔ corr z < 0)) ∧
    (negativeCheck corr zs = .nameError ↔ zs = []) := by
  have last : ∀ pre (z : α), (pre ++ [z]).getLast? = some z := by simp
  refine ⟨fun h => ?_, fun pre z e => ?_, ?_⟩
  · unfold negativeCheck at h
    cases hz : zs.getLast? with
    | none => rw [hz] at h; cases h
    | some z =>
      rw [hz] at h
      refine ⟨z, List.mem_of_getLast? hz, ?_⟩
      by_contra hn
      simp [hn] at h
  · unfold negativeCheck
    rw [e, last]
    by_cases hn : corr z < 0 <;> simp [hn]
  · unfold negativeCheck
    cases zs with
    | nil => simp
    | cons a l =>
      rw [List.getLast?_eq_some_getLast (by simp)]
      constructor
      · intro h
        dsimp only at h
        by_cases hn : corr ((a :: l).getLast (by simp)) < 0 <;> simp [hn] at h
      · simp

/-- **C141 fails**: all clusters but the last may have negative redshifts, for every correction that makes some
redshift negative and leaves one non-negative. -/
theorem C141_false {α : Type} [LinearOrder α] [Zero α] (corr : α → α) (z z' : α) (hz : corr z < 0)
    (hz' : ¬ corr z' < 0) : ¬ C141_spec corr [z, z'] := by
  intro h
  have : negativeCheck corr [z, z'] = .passed := by simp [negativeCheck, hz']
  have h' := h.mpr ⟨z, by simp, hz⟩
  rw [this] at h'
  cases h'

example : negativeCheck (fun z : Int => z - 3) [1, 5] = .passed ∧
    negativeCheck (fun z : Int => z - 3) [5, 1] = .runtimeError := by decide

end Redmapper.Calibrate
