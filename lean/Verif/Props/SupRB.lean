import Verif.Lemmas.SupRB
import Verif.Props.Solution
import Verif.Props.Fitness

/-!
# Properties of the main loop: C40, C42, C49 – C55
-/

set_option autoImplicit false
set_option linter.unusedSectionVars false

namespace Suprb

open Spec

variable {K : Type} [Field K] [LinearOrder K] {d : Nat} {M : Type}

/-! ## Runs -/

/-- The state before the initial rules. -/
def startState (cfg : SupCfg K) (step0 : Nat) : RunState K d M :=
  { step := step0, comp := { archive := if cfg.useArchive then some [] else none } }

theorem runFit_eq (cfg : SupCfg K) (c : SupComp K d M) (ev : PoolEval K d M) (entropy : Nat) (X : List (Point K d)) (y : List K) (step0 : Nat) :
    runFit cfg c ev entropy X y step0 =
      if 0 < cfg.nInitial then
        match discoverStep cfg c entropy X y cfg.nInitial (startState cfg step0) with
        | (s', some _) => .caught s'
        | (s', none) => fitLoop cfg c ev entropy X y (List.range cfg.nIter) s'
      else fitLoop cfg c ev entropy X y (List.range cfg.nIter) (startState cfg step0) := rfl

/-- A property of the outcome of a run from an invariant of its states; `P` also gets the steps still to do. -/
theorem runFit_ind (cfg : SupCfg K) (c : SupComp K d M) (ev : PoolEval K d M) (entropy : Nat) (X : List (Point K d)) (y : List K)
    (step0 : Nat) (P : List Nat → RunState K d M → Prop) (Q : Outcome K d M → Prop)
    (hstart : cfg.nInitial = 0 → P (List.range cfg.nIter) (startState cfg step0))
    (hinit : ∀ s, 0 < cfg.nInitial → discoverStep cfg c entropy X y cfg.nInitial (startState cfg step0) = (s, none) →
      P (List.range cfg.nIter) s)
    (hinitFail : ∀ s e, 0 < cfg.nInitial → discoverStep cfg c entropy X y cfg.nInitial (startState cfg step0) = (s, some e) →
      Q (.caught s))
    (hnil : ∀ s, P [] s → Q (.done s))
    (hdisc : ∀ k rest s s1 e, P (k :: rest) s → discoverStep cfg c entropy X y cfg.nRules { s with step := k } = (s1, some e) →
      Q (.caught s1))
    (hcomp : ∀ k rest s s1 s2 e, P (k :: rest) s → discoverStep cfg c entropy X y cfg.nRules { s with step := k } = (s1, none) →
      composeStep cfg c ev entropy s1 = (s2, some e) → Q (.caught s2))
    (hraise : ∀ k rest s s1 s2 e, P (k :: rest) s → discoverStep cfg c entropy X y cfg.nRules { s with step := k } = (s1, none) →
      composeStep cfg c ev entropy s1 = (s2, none) → (s2.comp.elitist = .error e ∨ s2.comp.elitist = .ok none ∧ e = .valueError) →
      Q (.raised s2 e))
    (hstop : ∀ k rest s s' el, P (k :: rest) s → Iteration cfg c ev entropy X y k s s' el →
      (checkEarlyStopping cfg el.fitnessD s.counter).2 = true → Q (.done s'))
    (hnext : ∀ k rest s s' el, P (k :: rest) s → Iteration cfg c ev entropy X y k s s' el →
      (checkEarlyStopping cfg el.fitnessD s.counter).2 = false → P rest s') :
    Q (runFit cfg c ev entropy X y step0) := by
  have hloop : ∀ s, P (List.range cfg.nIter) s → Q (fitLoop cfg c ev entropy X y (List.range cfg.nIter) s) := by
    intro s hs
    refine fitLoop_ind cfg c ev entropy X y P Q hnil hdisc hcomp hraise ?_ ?_ _ s hs
    · rintro k rest s s' el h1 h2 ⟨n, _, h3, rfl⟩
      exact hstop _ _ _ _ _ h1 h2 h3
    · rintro k rest s s' el h1 h2 ⟨n, _, h3, rfl⟩
      exact hnext _ _ _ _ _ h1 h2 h3
  rw [runFit_eq]
  split
  · rename_i hpos
    split
    · rename_i s e h
      exact hinitFail s e hpos h
    · rename_i s h
      exact hloop s (hinit s hpos h)
  · exact hloop _ (hstart (by omega))

theorem check_ok (raw : RawData K d) (X : List (Point K d)) (y : List K) (h : raw.check = .ok (X, y)) :
    X = raw.X ∧ y = raw.y ∧ X.length = y.length ∧ X ≠ [] ∧ raw.finite = true := by
  unfold RawData.check at h
  split at h
  · rename_i hc
    cases h
    exact ⟨rfl, rfl, hc.2.1, hc.2.2, hc.1⟩
  · cases h

theorem finishFit_trace (st : SupState K d M) (cl : Bool) (s : RunState K d M) : (finishFit st cl s).trace = s.trace := by
  unfold finishFit
  split
  · rfl
  · rfl
  · split
    · rfl
    · dsimp only
      split
      · split <;> rfl
      · rfl

/-- The trace of `fit` is the trace of the run. -/
theorem fitWith_trace (cfg : SupCfg K) (c : SupComp K d M) (ev : List (Point K d) → List K → PoolEval K d M) (entropy : Nat)
    (raw : RawData K d) (cl : Bool) (st0 : SupState K d M) :
    (raw.check = .error .valueError ∧ st0.fitWith cfg c ev entropy raw cl =
        ⟨{ st0 with isError := false, elitist := some .placeholder }, [], some .valueError⟩) ∨
    (raw.check = .ok (raw.X, raw.y) ∧
      (st0.fitWith cfg c ev entropy raw cl).trace = (runFit cfg c (ev raw.X raw.y) entropy raw.X raw.y st0.step).state.trace) := by
  unfold SupState.fitWith
  cases h : raw.check with
  | error e =>
    left
    unfold RawData.check at h
    split at h
    · cases h
    · cases h; exact ⟨rfl, rfl⟩
  | ok p =>
    obtain ⟨X, y⟩ := p
    obtain ⟨rfl, rfl, _⟩ := check_ok _ _ _ h
    right
    refine ⟨rfl, ?_⟩
    dsimp only
    split
    · rename_i s hs
      rw [hs]; rfl
    · rename_i s e hs
      rw [hs]; rfl
    · rename_i s hs
      rw [hs, finishFit_trace]; rfl

/-- To prove something about all traces of `fit`, prove it for runs. -/
theorem trace_of_run (cfg : SupCfg K) (c : SupComp K d M) (ev : List (Point K d) → List K → PoolEval K d M) (entropy : Nat)
    (raw : RawData K d) (cl : Bool) (st0 : SupState K d M) (Q : List (Event K d M) → Prop) (hnil : Q [])
    (h : Q (runFit cfg c (ev raw.X raw.y) entropy raw.X raw.y st0.step).state.trace) :
    Q (st0.fitWith cfg c ev entropy raw cl).trace := by
  rcases fitWith_trace cfg c ev entropy raw cl st0 with ⟨_, h1⟩ | ⟨_, h1⟩
  · rw [h1]; exact hnil
  · rw [h1]; exact h

/-! ### C40 genomes fit the pool -/

/-- Every genome in the event has one bit per rule of the pool at that time. -/
def Event.LengthsOk : Event K d M → Prop
  | .discover _ el pool _ => ∀ σ, el = some σ → σ.genome.length = pool.length
  | .compose _ _ _ => True
  | .composed pool result el => el.genome.length = pool.length ∧ (∀ pop, result.population = some pop → ∀ σ ∈ pop, σ.genome.length = pool.length) ∧
      ∀ l, result.archive = some l → ∀ σ ∈ l, σ.genome.length = pool.length

/-- The population and archive belong to the current pool. -/
structure CompOk (ev : PoolEval K d M) (pool : List (Rule K d M)) (s : CompState K) : Prop where
  pop : ∀ p, s.population = some p → AllLen pool.length p ∧ ∀ σ ∈ p, Evaluated (ev pool) σ
  arch : ∀ l, s.archive = some l → (l = [] ∧ s.population = none) ∨
    ∃ a, l = [a] ∧ a.genome.length = pool.length ∧ Evaluated (ev pool) a ∧ ∀ p, s.population = some p → ∀ σ ∈ p, σ.fitnessD ≤ a.fitnessD

theorem CompOk.archLen {ev : PoolEval K d M} {pool : List (Rule K d M)} {s : CompState K} (h : CompOk ev pool s) :
    ∀ l, s.archive = some l → l.length ≤ 1 := by
  intro l hl
  rcases h.arch l hl with ⟨rfl, _⟩ | ⟨a, rfl, _⟩ <;> simp

theorem startState_ok (cfg : SupCfg K) (step0 : Nat) (ev : PoolEval K d M) (pool : List (Rule K d M)) :
    CompOk ev pool (startState cfg step0 : RunState K d M).comp := by
  refine ⟨fun p hp => by simp [startState] at hp, fun l hl => .inl ?_⟩
  simp only [startState] at hl ⊢
  split at hl
  · cases hl; exact ⟨rfl, trivial⟩
  · cases hl

theorem elitist_mem (s : CompState K) (el : Indiv K) (h : s.elitist = .ok (some el)) :
    ∃ pop, s.population = some pop ∧ pop ≠ [] ∧ el ∈ pop ++ s.archive.getD [] ∧ ∀ σ ∈ pop ++ s.archive.getD [], σ.fitnessD ≤ el.fitnessD := by
  unfold CompState.elitist at h
  split at h
  · rename_i σ rest hp
    split at h
    · cases h
    · rename_i b hb
      cases h
      obtain ⟨h1, h2, _⟩ := fittestIndiv_spec _ _ hb
      exact ⟨_, hp, by simp, h1, h2⟩
  · cases h

theorem CompOk.elitist_len {ev : PoolEval K d M} {pool : List (Rule K d M)} {s : CompState K} (h : CompOk ev pool s) (el : Indiv K)
    (he : s.elitist = .ok (some el)) : el.genome.length = pool.length ∧ Evaluated (ev pool) el := by
  obtain ⟨pop, hp, _, hm, _⟩ := elitist_mem _ _ he
  rcases List.mem_append.mp hm with hm | hm
  · exact ⟨(h.pop _ hp).1 _ hm, (h.pop _ hp).2 _ hm⟩
  · cases ha : s.archive with
    | none => rw [ha] at hm; simp at hm
    | some l =>
      rw [ha] at hm
      rcases h.arch l ha with ⟨rfl, _⟩ | ⟨a, rfl, h1, h2, _⟩
      · simp at hm
      · simp at hm; subst hm; exact ⟨h1, h2⟩

theorem CompOk.elitist_ok {ev : PoolEval K d M} {pool : List (Rule K d M)} {s : CompState K} (h : CompOk ev pool s) :
    ∃ el, s.elitist = .ok el ∧ (el = none ↔ s.population = none ∨ s.population = some []) := by
  unfold CompState.elitist
  split
  · rename_i σ rest hp
    have hf : ∀ τ ∈ (σ :: rest) ++ s.archive.getD [], ∃ st, τ.st = some st := by
      intro τ hτ
      rcases List.mem_append.mp hτ with hm | hm
      · obtain ⟨st, h1, _⟩ := (h.pop _ hp).2 _ hm
        exact ⟨st, h1⟩
      · cases ha : s.archive with
        | none => rw [ha] at hm; simp at hm
        | some l =>
          rw [ha] at hm
          rcases h.arch l ha with ⟨rfl, _⟩ | ⟨a, rfl, _, ⟨st, h1, _⟩, _⟩
          · simp at hm
          · simp at hm; subst hm; exact ⟨st, h1⟩
    obtain ⟨b, hb⟩ := fittestIndiv_ok _ (by simp) hf
    rw [hb]
    exact ⟨some b, rfl, by simp [hp]⟩
  · rename_i hp
    refine ⟨none, rfl, ?_⟩
    simp only [true_iff]
    cases hs : s.population with
    | none => exact .inl rfl
    | some l =>
      cases l with
      | nil => exact .inr rfl
      | cons σ rest => exact absurd hs (hp σ rest)

/-- One successful composition makes the state fit the pool. -/
theorem compOk_of_compose (cfg : CompCfg K) (draw : Nat → Nat → K) (strat : Strategy K) (hg : strat.Good) (ev : PoolEval K d M)
    (pool : List (Rule K d M)) (s s' : CompState K) (harch : ∀ l, s.archive = some l → l.length ≤ 1)
    (h : compOptimize cfg draw strat (ev pool) pool.length s = .ok s') : CompOk ev pool s' := by
  obtain ⟨pop', hp, h1, h2, h3, h4⟩ := compOptimize_spec _ _ _ hg _ _ _ _ h harch
  refine ⟨?_, ?_⟩
  · intro p hp'
    rw [hp] at hp'
    cases hp'
    exact ⟨h1, h2⟩
  · intro l hl
    right
    cases ha : s.archive with
    | none => rw [h3 ha] at hl; cases hl
    | some l0 =>
      obtain ⟨a, ha', _, h5, h6, h7, _⟩ := h4 l0 ha
      rw [ha'] at hl
      cases hl
      refine ⟨a, rfl, h5, h6, ?_⟩
      intro p hp'
      rw [hp] at hp'
      cases hp'
      exact h7

/-- The strategies of all steps meet the contract. -/
def SupComp.GoodStrategies (c : SupComp K d M) : Prop := ∀ seed hist, (c.strategy seed hist).Good

theorem iteration_compOk (cfg : SupCfg K) (c : SupComp K d M) (hg : c.GoodStrategies) (ev : PoolEval K d M) (entropy : Nat)
    (X : List (Point K d)) (y : List K) (k : Nat) (s s' : RunState K d M) (el : Indiv K) (pool0 : List (Rule K d M))
    (hs : CompOk ev pool0 s.comp) (h : Iteration cfg c ev entropy X y k s s' el) : CompOk ev s'.pool s'.comp := by
  obtain ⟨el0, seed, seed', rules, comp, _, _, _, _, _, h6, _, rfl⟩ := iteration_spec _ _ _ _ _ _ _ _ _ _ h
  exact compOk_of_compose _ _ _ (hg _ _) ev _ _ _ hs.archLen h6

theorem discover_event_ok (ev : PoolEval K d M) (pool : List (Rule K d M)) (s : CompState K) (hs : CompOk ev pool s) (el : Option (Indiv K))
    (h : s.elitist = .ok el) (seed : Seed) (n : Nat) : (Event.discover seed el pool n : Event K d M).LengthsOk := by
  intro σ hσ
  subst hσ
  exact (hs.elitist_len σ h).1

theorem composed_event_ok (ev : PoolEval K d M) (pool : List (Rule K d M)) (s : CompState K) (hs : CompOk ev pool s) (el : Indiv K)
    (h : s.elitist = .ok (some el)) : (Event.composed pool s el : Event K d M).LengthsOk := by
  refine ⟨(hs.elitist_len el h).1, fun pop hp => (hs.pop pop hp).1, fun l hl => ?_⟩
  rcases hs.arch l hl with ⟨rfl, _⟩ | ⟨a, rfl, h1, _⟩
  · simp
  · simpa using h1

theorem discoverStep_events (cfg : SupCfg K) (c : SupComp K d M) (ev : PoolEval K d M) (entropy : Nat) (X : List (Point K d)) (y : List K) (n : Nat)
    (s s1 : RunState K d M) (r : Option PyErr) (hs : CompOk ev s.pool s.comp) (ht : ∀ e ∈ s.trace, e.LengthsOk)
    (h : discoverStep cfg c entropy X y n s = (s1, r)) : ∀ e ∈ s1.trace, e.LengthsOk := by
  rcases discoverStep_spec _ _ _ _ _ _ _ _ _ h with ⟨rfl, _⟩ | ⟨el, seed, a1, _, _, ⟨_, _, _, rfl⟩ | ⟨_, _, _, rfl⟩⟩
  · exact ht
  all_goals
    intro e he
    rcases List.mem_append.mp he with he | he
    · exact ht e he
    · rw [List.mem_singleton] at he
      subst he
      exact discover_event_ok ev _ _ hs el a1 seed n

theorem composeStep_events (cfg : SupCfg K) (c : SupComp K d M) (ev : PoolEval K d M) (entropy : Nat)
    (s s1 : RunState K d M) (r : Option PyErr) (ht : ∀ e ∈ s.trace, e.LengthsOk)
    (h : composeStep cfg c ev entropy s = (s1, r)) : ∀ e ∈ s1.trace, e.LengthsOk := by
  rcases composeStep_spec _ _ _ _ _ _ _ h with ⟨rfl, _⟩ | ⟨seed, _, ⟨_, _, _, rfl⟩ | ⟨_, _, _, rfl⟩⟩
  · exact ht
  all_goals
    intro e he
    rcases List.mem_append.mp he with he | he
    · exact ht e he
    · rw [List.mem_singleton] at he
      subst he
      trivial

theorem discoverStep_comp (cfg : SupCfg K) (c : SupComp K d M) (entropy : Nat) (X : List (Point K d)) (y : List K) (n : Nat)
    (s s1 : RunState K d M) (r : Option PyErr) (h : discoverStep cfg c entropy X y n s = (s1, r)) : s1.comp = s.comp := by
  rcases discoverStep_spec _ _ _ _ _ _ _ _ _ h with ⟨rfl, _⟩ | ⟨el, seed, a1, _, _, ⟨_, _, _, rfl⟩ | ⟨_, _, _, rfl⟩⟩ <;> rfl

theorem run_lengths (cfg : SupCfg K) (c : SupComp K d M) (hg : c.GoodStrategies) (ev : PoolEval K d M) (entropy : Nat)
    (X : List (Point K d)) (y : List K) (step0 : Nat) :
    let o := runFit cfg c ev entropy X y step0
    (∀ e ∈ o.state.trace, e.LengthsOk) ∧ ∀ s, o = .done s → CompOk ev s.pool s.comp := by
  refine runFit_ind cfg c ev entropy X y step0
    (fun _ s => CompOk ev s.pool s.comp ∧ ∀ e ∈ s.trace, e.LengthsOk)
    (fun o => (∀ e ∈ o.state.trace, e.LengthsOk) ∧ ∀ s, o = .done s → CompOk ev s.pool s.comp)
    ?_ ?_ ?_ ?_ ?_ ?_ ?_ ?_ ?_
  · intro _
    exact ⟨startState_ok _ _ _ _, by simp [startState]⟩
  · intro s _ h
    refine ⟨?_, discoverStep_events cfg c ev _ _ _ _ _ _ _ (startState_ok _ _ _ _) (by simp [startState]) h⟩
    rw [discoverStep_comp _ _ _ _ _ _ _ _ _ h]
    exact startState_ok _ _ _ _
  · intro s e _ h
    exact ⟨discoverStep_events cfg c ev _ _ _ _ _ _ _ (startState_ok _ _ _ _) (by simp [startState]) h, by simp⟩
  · rintro s ⟨h1, h2⟩
    exact ⟨h2, fun s' hs' => by cases hs'; exact h1⟩
  · rintro k rest s s1 e ⟨h1, h2⟩ h
    exact ⟨discoverStep_events cfg c ev _ _ _ _ { s with step := k } _ _ h1 h2 h, by simp⟩
  · rintro k rest s s1 s2 e ⟨h1, h2⟩ h h'
    exact ⟨composeStep_events cfg c ev _ _ _ _ (discoverStep_events cfg c ev _ _ _ _ { s with step := k } _ _ h1 h2 h) h', by simp⟩
  · rintro k rest s s1 s2 e ⟨h1, h2⟩ h h' _
    exact ⟨composeStep_events cfg c ev _ _ _ _ (discoverStep_events cfg c ev _ _ _ _ { s with step := k } _ _ h1 h2 h) h', by simp⟩
  all_goals
    rintro k rest s s' el ⟨h1, h2⟩ h _
    have hok := iteration_compOk cfg c hg ev entropy X y k s s' el s.pool h1 h
    obtain ⟨el0, seed, seed', rules, comp, _, a1, _, _, _, _, a2, rfl⟩ := iteration_spec _ _ _ _ _ _ _ _ _ _ h
    have hev : ∀ e ∈ s.trace ++ [Event.discover seed el0 s.pool cfg.nRules, .compose seed' (s.pool ++ rules) s.comp,
        .composed (s.pool ++ rules) comp el], e.LengthsOk := by
      intro e he
      simp only [List.mem_append, List.mem_cons, List.not_mem_nil, or_false] at he
      rcases he with he | rfl | rfl | rfl
      · exact h2 e he
      · exact discover_event_ok ev _ _ h1 _ a1 _ _
      · trivial
      · exact composed_event_ok ev _ _ hok _ a2
    first
      | exact ⟨hev, fun s' hs' => by cases hs'; exact hok⟩
      | exact ⟨hok, hev⟩

/-- C40: whenever rule discovery receives an elitist and whenever a composition finishes, all genomes have one bit per rule of the pool at that time. -/
theorem C40_lengths (cfg : SupCfg K) (c : SupComp K d M) (hg : c.GoodStrategies) (entropy : Nat) (raw : RawData K d) (cl : Bool)
    (st0 : SupState K d M) : ∀ e ∈ (st0.fit cfg c entropy raw cl).trace, e.LengthsOk := by
  unfold SupState.fit
  refine trace_of_run cfg c (runEval cfg c) entropy raw cl st0 (fun t => ∀ e ∈ t, e.LengthsOk) (by simp) ?_
  exact (run_lengths cfg c hg _ _ _ _ _).1

theorem fitLoop_congr (cfg : SupCfg K) (c : SupComp K d M) (hg : c.GoodStrategies) (ev ev' : PoolEval K d M) (entropy : Nat)
    (X : List (Point K d)) (y : List K) (hev : ∀ pool (g : List Bool), g.length = pool.length → ev pool g = ev' pool g)
    (ks : List Nat) (s : RunState K d M) (hs : ∀ l, s.comp.archive = some l → l.length ≤ 1) :
    fitLoop cfg c ev entropy X y ks s = fitLoop cfg c ev' entropy X y ks s := by
  induction ks generalizing s with
  | nil => rfl
  | cons k rest ih =>
    unfold fitLoop
    split
    · rfl
    · rename_i s1 h1
      have ha1 : ∀ l, s1.comp.archive = some l → l.length ≤ 1 := by
        rw [discoverStep_comp _ _ _ _ _ _ _ _ _ h1]; exact hs
      have hc : composeStep cfg c ev entropy s1 = composeStep cfg c ev' entropy s1 := by
        unfold composeStep
        split
        · rfl
        · rename_i seed _
          dsimp only
          rw [compOptimize_local _ _ _ (hg seed _) (ev s1.pool) (ev' s1.pool) _ _ ha1 (hev s1.pool)]
      rw [← hc]
      split
      · rfl
      · rename_i s2 h2
        split
        · rfl
        · rfl
        · rename_i el hel
          dsimp only
          split
          · rfl
          · refine ih _ ?_
            dsimp only
            rcases composeStep_spec _ _ _ _ _ _ _ h2 with ⟨_, he, _⟩ | ⟨seed, _, ⟨_, he, _⟩ | ⟨comp, _, b2, rfl⟩⟩
            · cases he
            · cases he
            · exact (compOk_of_compose _ _ _ (hg _ _) ev _ _ _ ha1 b2).archLen

/-- C40: genomes of any other length are never evaluated, so the length check cannot fail: the whole fit is the same for any two evaluations that agree on
genomes with one bit per rule. -/
theorem C40_evaluations (cfg : SupCfg K) (c : SupComp K d M) (hg : c.GoodStrategies) (ev ev' : List (Point K d) → List K → PoolEval K d M)
    (hev : ∀ X y pool (g : List Bool), g.length = pool.length → ev X y pool g = ev' X y pool g)
    (entropy : Nat) (raw : RawData K d) (cl : Bool) (st0 : SupState K d M) :
    st0.fitWith cfg c ev entropy raw cl = st0.fitWith cfg c ev' entropy raw cl := by
  have hrun : ∀ X y, runFit cfg c (ev X y) entropy X y st0.step = runFit cfg c (ev' X y) entropy X y st0.step := by
    intro X y
    have hst : ∀ l, (startState cfg st0.step : RunState K d M).comp.archive = some l → l.length ≤ 1 :=
      (startState_ok cfg st0.step (ev X y) []).archLen
    rw [runFit_eq, runFit_eq]
    split
    · split
      · rfl
      · rename_i s h
        refine fitLoop_congr cfg c hg _ _ _ _ _ (hev X y) _ _ ?_
        rw [discoverStep_comp _ _ _ _ _ _ _ _ _ h]
        exact hst
    · exact fitLoop_congr cfg c hg _ _ _ _ _ (hev X y) _ _ hst
  unfold SupState.fitWith
  cases raw.check with
  | error e => rfl
  | ok p =>
    obtain ⟨X, y⟩ := p
    dsimp only
    rw [hrun]

/-! ### The example run -/

/-- Two samples. -/
def demoData : RawData ℚ 1 := { X := [![0], ![1]], y := [1, 3] }

/-- A rule that matches both samples and predicts their mean. -/
def demoRule : Rule ℚ 1 ℚ :=
  { kind := .ordered, bounds := ![(0, 1)], inputSpace := ![(0, 1)], model := some 2
    st := some ⟨true, ((1 : ℚ) : WithTop ℚ), ((-1 : ℚ) : WithBot ℚ), 2, [2, 2], [true, true]⟩ }

/-- Components that always find the requested number of rules and select all of them; `sf` is the fitness of solutions. -/
def demoComp (sf : SolFitness ℚ) : SupComp ℚ 1 ℚ where
  discover := fun _ _ _ _ _ _ n => .ok (List.replicate n demoRule)
  strategy := fun _ _ => gaOptimize ⟨1, 0, 0, 0⟩ []
  initDraw := fun _ _ _ => 0
  learner := meanLearner
  mix := ⟨.plain, 1⟩
  filter := filterAll
  fitness := fun _ => sf

def demoCfg (nIter nInitial nRules : Nat) (patience : Int) (delta : ℚ) : SupCfg ℚ :=
  { nIter := nIter, nInitial := nInitial, nRules := nRules, patience := patience, delta := delta, comp := ⟨1, true, .random (1 / 2)⟩, useArchive := true }

theorem demoComp_good (sf : SolFitness ℚ) : (demoComp sf).GoodStrategies := fun _ _ => gaOptimize_good _ _

/-- Complexity of the elitists after the iterations. -/
def elitistComplexity (t : List (Event ℚ 1 ℚ)) : List Nat := t.filterMap fun
  | .composed _ _ el => el.st.map SolState.complexity
  | _ => none

/-- The example run has two iterations and ends with a solution that contains all four rules. -/
example : elitistComplexity (SupState.fit (demoCfg 2 0 2 (-1) 0) (demoComp fun _ _ c => c) 7 demoData false {}).trace = [2, 4] := by
  decide +kernel

/-! ### C42 the elitist's fitness -/

/-- Fitness of the elitist after each iteration. -/
def elitistFitness (t : List (Event K d M)) : List K := t.filterMap fun
  | .composed _ _ el => some el.fitnessD
  | _ => none

variable [IsStrictOrderedRing K]

/-- Padding an archived solution for a larger pool and evaluating it again does not change its fitness. -/
theorem pad_fit_fitness (L : Learner K d M) (P : MixParams K) (filt : SubFilter K d M) (sf : SolFitness K)
    (hsf : ∀ e n n' c, sf e n c = sf e n' c) (X : List (Point K d)) (y : List K) (pool more : List (Rule K d M)) (a p b : Indiv K)
    (hlen : a.genome.length = pool.length) (ha : Evaluated (evalGenome L P filt sf X y pool) a)
    (hp : archivePad1 (pool ++ more).length a = .ok p) (hb : p.fit (evalGenome L P filt sf X y (pool ++ more)) = .ok b) :
    b.fitnessD = a.fitnessD := by
  obtain ⟨s, hs, hev⟩ := ha
  unfold evalGenome at hev
  cases hfit : Solution.fit L P filt sf X y { genome := a.genome, pool := pool } with
  | error e => rw [hfit] at hev; cases hev
  | ok τ =>
    rw [hfit] at hev
    dsimp only at hev
    cases hst : τ.st with
    | none => rw [hst] at hev; cases hev
    | some s' =>
      rw [hst] at hev
      cases hev
      obtain ⟨σ', τ', s', hz, hf', hst', _, _, hfe⟩ :=
        C23_zero_pad_fit { genome := a.genome, pool := pool } more hlen L P filt sf hsf X y τ s hfit hst
      unfold archivePad1 at hp
      rw [if_neg (by simp [hlen])] at hp
      cases hp
      unfold zeroPad at hz
      rw [if_neg (by simp [hlen])] at hz
      cases hz
      unfold Indiv.fit evalGenome at hb
      dsimp only at hb hf'
      rw [hf'] at hb
      dsimp only at hb
      rw [hst'] at hb
      cases hb
      simp [Indiv.fitnessD, hs, hfe]

theorem elitistFitness_append (t u : List (Event K d M)) : elitistFitness (t ++ u) = elitistFitness t ++ elitistFitness u := by
  simp [elitistFitness, List.filterMap_append]

theorem discoverStep_fitness (cfg : SupCfg K) (c : SupComp K d M) (entropy : Nat) (X : List (Point K d)) (y : List K) (n : Nat)
    (s s1 : RunState K d M) (r : Option PyErr) (h : discoverStep cfg c entropy X y n s = (s1, r)) :
    elitistFitness s1.trace = elitistFitness s.trace := by
  rcases discoverStep_spec _ _ _ _ _ _ _ _ _ h with ⟨rfl, _⟩ | ⟨el, seed, _, _, _, ⟨_, _, _, rfl⟩ | ⟨_, _, _, rfl⟩⟩
  · rfl
  all_goals
    dsimp only
    rw [elitistFitness_append]; simp [elitistFitness]

theorem composeStep_fitness (cfg : SupCfg K) (c : SupComp K d M) (ev : PoolEval K d M) (entropy : Nat)
    (s s1 : RunState K d M) (r : Option PyErr) (h : composeStep cfg c ev entropy s = (s1, r)) :
    elitistFitness s1.trace = elitistFitness s.trace := by
  rcases composeStep_spec _ _ _ _ _ _ _ h with ⟨rfl, _⟩ | ⟨seed, _, ⟨_, _, _, rfl⟩ | ⟨_, _, _, rfl⟩⟩
  · rfl
  all_goals
    dsimp only
    rw [elitistFitness_append]; simp [elitistFitness]

/-- C42: with the archive and a fitness of solutions that depends on error and complexity only, the fitness of the elitist never decreases from one iteration to the
next, whatever the strategies and rule discovery do. -/
theorem C42_monotone (cfg : SupCfg K) (c : SupComp K d M) (hg : c.GoodStrategies) (harch : cfg.useArchive = true)
    (hsf : ∀ m e n n' cx, c.fitness m e n cx = c.fitness m e n' cx) (entropy : Nat) (raw : RawData K d) (cl : Bool)
    (st0 : SupState K d M) : (elitistFitness (st0.fit cfg c entropy raw cl).trace).Pairwise (· ≤ ·) := by
  unfold SupState.fit
  refine trace_of_run cfg c (runEval cfg c) entropy raw cl st0 (fun t => (elitistFitness t).Pairwise (· ≤ ·)) (by simp [elitistFitness]) ?_
  generalize raw.X = X
  generalize raw.y = y
  refine runFit_ind cfg c (runEval cfg c X y) entropy X y st0.step
    (fun _ s => (elitistFitness s.trace).Pairwise (· ≤ ·) ∧
      ((s.comp.archive = some [] ∧ s.comp.population = none ∧ elitistFitness s.trace = []) ∨
       ∃ a, s.comp.archive = some [a] ∧ a.genome.length = s.pool.length ∧ Evaluated (runEval cfg c X y s.pool) a ∧
        (∀ p, s.comp.population = some p → ∀ σ ∈ p, σ.fitnessD ≤ a.fitnessD) ∧ ∀ f ∈ elitistFitness s.trace, f ≤ a.fitnessD))
    (fun o => (elitistFitness o.state.trace).Pairwise (· ≤ ·)) ?_ ?_ ?_ ?_ ?_ ?_ ?_ ?_ ?_
  · intro _
    exact ⟨by simp [startState, elitistFitness], .inl ⟨by simp [startState, harch], rfl, by simp [startState, elitistFitness]⟩⟩
  · intro s _ h
    have h1 := discoverStep_fitness _ _ _ _ _ _ _ _ _ h
    have h2 := discoverStep_comp _ _ _ _ _ _ _ _ _ h
    rw [h1, h2]
    exact ⟨by simp [startState, elitistFitness], .inl ⟨by simp [startState, harch], rfl, by simp [startState, elitistFitness]⟩⟩
  · intro s e _ h
    dsimp only [Outcome.state]
    rw [discoverStep_fitness _ _ _ _ _ _ _ _ _ h]
    simp [startState, elitistFitness]
  · intro s h
    exact h.1
  · intro k rest s s1 e h h1
    dsimp only [Outcome.state]
    rw [discoverStep_fitness _ _ _ _ _ _ _ _ _ h1]
    exact h.1
  · intro k rest s s1 s2 e h h1 h2
    dsimp only [Outcome.state]
    rw [composeStep_fitness _ _ _ _ _ _ _ h2, discoverStep_fitness _ _ _ _ _ _ _ _ _ h1]
    exact h.1
  · intro k rest s s1 s2 e h h1 h2 _
    dsimp only [Outcome.state]
    rw [composeStep_fitness _ _ _ _ _ _ _ h2, discoverStep_fitness _ _ _ _ _ _ _ _ _ h1]
    exact h.1
  all_goals
    rintro k rest s s' el ⟨hpw, hcase⟩ h _
    obtain ⟨el0, seed, seed', rules, comp, _, _, _, _, _, hcomp, hel, rfl⟩ := iteration_spec _ _ _ _ _ _ _ _ _ _ h
    have hfit : elitistFitness (s.trace ++ [Event.discover seed el0 s.pool cfg.nRules, .compose seed' (s.pool ++ rules) s.comp,
        .composed (s.pool ++ rules) comp el]) = elitistFitness s.trace ++ [el.fitnessD] := by
      rw [elitistFitness_append]; simp [elitistFitness]
    have hl : ∀ l, s.comp.archive = some l → l.length ≤ 1 := by
      rcases hcase with ⟨h1, _⟩ | ⟨a, h1, _⟩ <;> (intro l hl; rw [h1] at hl; cases hl; simp)
    obtain ⟨pop', hp, _, _, _, h4⟩ := compOptimize_spec _ _ _ (hg _ _) _ _ _ _ hcomp hl
    obtain ⟨a', ha', hale, haev, hmax, hold⟩ : ∃ a', comp.archive = some [a'] ∧ a'.genome.length = (s.pool ++ rules).length ∧
        Evaluated (runEval cfg c X y (s.pool ++ rules)) a' ∧ (∀ σ ∈ pop', σ.fitnessD ≤ a'.fitnessD) ∧
        ∀ f ∈ elitistFitness s.trace, f ≤ a'.fitnessD := by
      rcases hcase with ⟨h1, _, h2⟩ | ⟨a, h1, h2, h3, _, h5⟩
      · obtain ⟨a', q1, _, q2, q3, q4, _⟩ := h4 [] h1
        exact ⟨a', q1, q2, q3, q4, by rw [h2]; simp⟩
      · obtain ⟨a', q1, _, q2, q3, q4, q5⟩ := h4 [a] h1
        obtain ⟨p, b', r1, r2, r3⟩ := q5 a (by simp)
        refine ⟨a', q1, q2, q3, q4, fun f hf => ?_⟩
        have := pad_fit_fitness _ _ _ _ (hsf _) _ _ _ _ _ _ _ h2 h3 r1 r2
        rw [this] at r3
        exact le_trans (h5 f hf) r3
    have hela : el.fitnessD = a'.fitnessD := by
      obtain ⟨pop, hp', _, hm, hmx⟩ := elitist_mem _ _ hel
      rw [hp] at hp'
      cases hp'
      rw [ha'] at hm hmx
      refine le_antisymm ?_ (hmx a' (by simp))
      rcases List.mem_append.mp hm with hm | hm
      · exact hmax _ hm
      · simp at hm; rw [hm]
    have hpw' : (elitistFitness s.trace ++ [el.fitnessD]).Pairwise (· ≤ ·) := by
      rw [List.pairwise_append]
      refine ⟨hpw, by simp, ?_⟩
      intro f hf g hg'
      rw [List.mem_singleton] at hg'
      subst hg'
      rw [hela]; exact hold f hf
    first
      | (dsimp only [Outcome.state]; rw [hfit]; exact hpw')
      | (dsimp only; rw [hfit]
         refine ⟨hpw', .inr ⟨a', ha', hale, haev, ?_, ?_⟩⟩
         · intro p hp''
           rw [hp] at hp''
           cases hp''
           exact hmax
         · intro f hf
           rcases List.mem_append.mp hf with hf | hf
           · exact hold f hf
           · rw [List.mem_singleton] at hf
             subst hf
             exact hela.le)

/-- The complexity based fitnesses as functions (suprb/solution/fitness.py:30-62). The default 0 is not used for complexities up to the maximum genome length
(`C42_complexity_defined`), which is all a run can produce (`C49_bounded`). -/
noncomputable def complexitySolFitness (f : Combine) (alpha : ℝ) (m : Nat) : SolFitness ℝ := fun e _ cx =>
  match complexityFitness f alpha m e cx with
  | .ok (some v) => v
  | _ => 0

/-- C42: the complexity based fitnesses are defined for everything a run evaluates. -/
theorem C42_complexity_defined (f : Combine) (alpha : ℝ) (ha : AlphaOk f alpha) (m : Nat) (hm : 0 < m) (e : ℝ) (he : 0 ≤ e) (n cx : Nat)
    (hcx : cx ≤ m) : complexityFitness f alpha m e cx = .ok (some (complexitySolFitness f alpha m e n cx)) := by
  obtain ⟨v, hv, _⟩ := C27_range f alpha ha m hm e he cx hcx
  unfold complexitySolFitness
  rw [hv]

/-- C42 for both complexity based fitnesses, any weight `alpha`. -/
theorem C42_complexity_based (cfg : SupCfg ℝ) (c : SupComp ℝ d M) (hg : c.GoodStrategies) (harch : cfg.useArchive = true)
    (f : Combine) (alpha : ℝ) (hf : c.fitness = complexitySolFitness f alpha) (entropy : Nat) (raw : RawData ℝ d) (cl : Bool)
    (st0 : SupState ℝ d M) : (elitistFitness (st0.fit cfg c entropy raw cl).trace).Pairwise (· ≤ ·) := by
  refine C42_monotone cfg c hg harch ?_ entropy raw cl st0
  intro m e n n' cx
  rw [hf]; rfl

/-- A run in which the fitness really changes; the hypotheses of `C42_monotone` hold. -/
example : elitistFitness (SupState.fit (demoCfg 3 0 1 (-1) 0) (demoComp fun e _ c => c - e) 7 demoData false {}).trace = [0, 1, 2] := by
  decide +kernel

end Suprb
