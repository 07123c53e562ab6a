import Verif.Props.SupRB
import Verif.Model.ES
import Verif.Props.Discovery

/-!
# Properties of the main loop, continued: C49 – C55
-/

set_option autoImplicit false
set_option linter.unusedSectionVars false

namespace Suprb

open Spec

variable {K : Type} [Field K] [LinearOrder K] {d : Nat} {M : Type}

theorem iteration_trace (cfg : SupCfg K) (c : SupComp K d M) (ev : PoolEval K d M) (entropy : Nat) (X : List (Point K d)) (y : List K)
    (k : Nat) (s s1 s2 : RunState K d M) (r : Option PyErr)
    (h1 : discoverStep cfg c entropy X y cfg.nRules { s with step := k } = (s1, none)) (h2 : composeStep cfg c ev entropy s1 = (s2, r)) :
    ∃ el seed rules, cfg.nRules ≠ 0 ∧ s.comp.elitist = .ok el ∧ (discoverySeeds entropy cfg.nIter)[k]? = some seed ∧
      c.discover seed s.trace el s.pool X y cfg.nRules = .ok rules ∧ s2.pool = s.pool ++ rules ∧
      s1 = { s with step := k, trace := s.trace ++ [.discover seed el s.pool cfg.nRules], pool := s.pool ++ rules } ∧
      ((s2.trace = s.trace ++ [.discover seed el s.pool cfg.nRules] ∧ (compositionSeeds entropy cfg.nIter)[k]? = none ∧ r ≠ none) ∨
       ∃ seed', (compositionSeeds entropy cfg.nIter)[k]? = some seed' ∧
        s2.trace = s.trace ++ [.discover seed el s.pool cfg.nRules, .compose seed' (s.pool ++ rules) s.comp]) := by
  rcases discoverStep_spec _ _ _ _ _ _ _ _ _ h1 with ⟨_, e, he, _⟩ | ⟨el0, seed, a1, a2, a3, ⟨e, he, _⟩ | ⟨rules, _, a4, rfl⟩⟩
  · cases he
  · cases he
  · refine ⟨el0, seed, rules, a3, a1, a2, a4, ?_⟩
    rcases composeStep_spec _ _ _ _ _ _ _ h2 with ⟨rfl, b0, b1⟩ | ⟨seed', b1, ⟨e, _, _, rfl⟩ | ⟨comp, _, _, rfl⟩⟩
    · exact ⟨rfl, rfl, .inl ⟨rfl, b1, by rw [b0]; simp⟩⟩
    · exact ⟨rfl, rfl, .inr ⟨seed', b1, by simp⟩⟩
    · exact ⟨rfl, rfl, .inr ⟨seed', b1, by simp⟩⟩

/-! ### C49 the pool -/

/-- The pool at the time of an event. -/
def Event.pool : Event K d M → List (Rule K d M)
  | .discover _ _ p _ => p
  | .compose _ p _ => p
  | .composed p _ _ => p

/-- The pools after the iterations. -/
def composedPools (t : List (Event K d M)) : List (List (Rule K d M)) := t.filterMap fun
  | .composed p _ _ => some p
  | _ => none

theorem composedPools_append (t u : List (Event K d M)) : composedPools (t ++ u) = composedPools t ++ composedPools u := by
  simp [composedPools, List.filterMap_append]

/-- Pools grow along the trace and up to the current pool. -/
def Growing (t : List (Event K d M)) (pool : List (Rule K d M)) : Prop :=
  (t.map Event.pool).Pairwise (· <+: ·) ∧ ∀ e ∈ t, e.pool <+: pool

theorem Growing.append {t : List (Event K d M)} {pool : List (Rule K d M)} (h : Growing t pool) (e : Event K d M) (pool' : List (Rule K d M))
    (h1 : pool <+: e.pool) (h2 : e.pool <+: pool') : Growing (t ++ [e]) pool' := by
  refine ⟨?_, ?_⟩
  · rw [List.map_append, List.pairwise_append]
    refine ⟨h.1, by simp, ?_⟩
    intro p hp q hq
    obtain ⟨e', he', rfl⟩ := List.mem_map.mp hp
    simp at hq
    subst hq
    exact (h.2 e' he').trans h1
  · intro e' he'
    rcases List.mem_append.mp he' with he' | he'
    · exact ((h.2 e' he').trans h1).trans h2
    · rw [List.mem_singleton] at he'
      subst he'; exact h2

theorem discoverStep_growing (cfg : SupCfg K) (c : SupComp K d M) (entropy : Nat) (X : List (Point K d)) (y : List K) (n : Nat)
    (s s1 : RunState K d M) (r : Option PyErr) (hs : Growing s.trace s.pool)
    (h : discoverStep cfg c entropy X y n s = (s1, r)) : Growing s1.trace s1.pool := by
  rcases discoverStep_spec _ _ _ _ _ _ _ _ _ h with ⟨rfl, _⟩ | ⟨el, seed, a1, _, _, ⟨_, _, _, rfl⟩ | ⟨_, _, _, rfl⟩⟩
  · exact hs
  · exact hs.append _ _ (List.prefix_refl _) (List.prefix_refl _)
  · exact hs.append _ _ (List.prefix_refl _) (List.prefix_append _ _)

theorem composeStep_growing (cfg : SupCfg K) (c : SupComp K d M) (ev : PoolEval K d M) (entropy : Nat)
    (s s1 : RunState K d M) (r : Option PyErr) (hs : Growing s.trace s.pool)
    (h : composeStep cfg c ev entropy s = (s1, r)) : Growing s1.trace s1.pool := by
  rcases composeStep_spec _ _ _ _ _ _ _ h with ⟨rfl, _⟩ | ⟨seed, _, ⟨_, _, _, rfl⟩ | ⟨_, _, _, rfl⟩⟩
  · exact hs
  · exact hs.append _ _ (List.prefix_refl _) (List.prefix_refl _)
  · exact hs.append _ _ (List.prefix_refl _) (List.prefix_refl _)

theorem run_growing (cfg : SupCfg K) (c : SupComp K d M) (ev : PoolEval K d M) (entropy : Nat) (X : List (Point K d)) (y : List K) (step0 : Nat) :
    let o := runFit cfg c ev entropy X y step0
    Growing o.state.trace o.state.pool := by
  have h0 : Growing (startState cfg step0 : RunState K d M).trace (startState cfg step0 : RunState K d M).pool := ⟨by simp [startState], by simp [startState]⟩
  have hit : ∀ k (s s' : RunState K d M) el, Growing s.trace s.pool → Iteration cfg c ev entropy X y k s s' el → Growing s'.trace s'.pool := by
    intro k s s' el hs h
    obtain ⟨s1, s2, h1, h2, _, rfl⟩ := h
    exact (composeStep_growing _ _ _ _ _ _ _ (discoverStep_growing _ _ _ _ _ _ { s with step := k } _ _ hs h1) h2).append _ _
      (List.prefix_refl _) (List.prefix_refl _)
  refine runFit_ind cfg c ev entropy X y step0 (fun _ s => Growing s.trace s.pool) (fun o => Growing o.state.trace o.state.pool)
    (fun _ => h0) (fun s _ h => discoverStep_growing _ _ _ _ _ _ _ _ _ h0 h) (fun s e _ h => discoverStep_growing _ _ _ _ _ _ _ _ _ h0 h)
    (fun s h => h) (fun k rest s s1 e hs h => discoverStep_growing _ _ _ _ _ _ { s with step := k } _ _ hs h)
    (fun k rest s s1 s2 e hs h h' => composeStep_growing _ _ _ _ _ _ _ (discoverStep_growing _ _ _ _ _ _ { s with step := k } _ _ hs h) h')
    (fun k rest s s1 s2 e hs h h' _ => composeStep_growing _ _ _ _ _ _ _ (discoverStep_growing _ _ _ _ _ _ { s with step := k } _ _ hs h) h')
    (fun k rest s s' el hs h _ => hit k s s' el hs h) (fun k rest s s' el hs h _ => hit k s s' el hs h)

theorem finishFit_pool (st : SupState K d M) (s : RunState K d M) : (finishFit st false s).state.pool = s.pool := by
  unfold finishFit
  split
  · rfl
  · rfl
  · split <;> rfl

/-- Without cleanup the pool of the fitted model is the pool of the run. -/
theorem fitWith_pool (cfg : SupCfg K) (c : SupComp K d M) (ev : List (Point K d) → List K → PoolEval K d M) (entropy : Nat)
    (raw : RawData K d) (st0 : SupState K d M) (h : raw.check = .ok (raw.X, raw.y)) :
    (st0.fitWith cfg c ev entropy raw false).state.pool = (runFit cfg c (ev raw.X raw.y) entropy raw.X raw.y st0.step).state.pool := by
  unfold SupState.fitWith
  rw [h]
  dsimp only
  split
  · rename_i s hs
    rw [hs]; rfl
  · rename_i s e hs
    rw [hs]; rfl
  · rename_i s hs
    rw [hs, finishFit_pool]; rfl

/-- C49: during a fit the pool is append-only: each pool that rule discovery or composition sees is a prefix of every later one and of the final pool. -/
theorem C49_append_only (cfg : SupCfg K) (c : SupComp K d M) (entropy : Nat) (raw : RawData K d) (st0 : SupState K d M) (cl : Bool) :
    ((st0.fit cfg c entropy raw cl).trace.map Event.pool).Pairwise (· <+: ·) ∧
    (raw.check = .ok (raw.X, raw.y) → ∀ e ∈ (st0.fit cfg c entropy raw false).trace, e.pool <+: (st0.fit cfg c entropy raw false).state.pool) := by
  unfold SupState.fit
  refine ⟨?_, ?_⟩
  · exact trace_of_run cfg c (runEval cfg c) entropy raw cl st0 (fun t => (t.map Event.pool).Pairwise (· <+: ·)) (by simp)
      (run_growing _ _ _ _ _ _ _).1
  · intro h
    rw [fitWith_pool _ _ _ _ _ _ h]
    rcases fitWith_trace cfg c (runEval cfg c) entropy raw false st0 with ⟨h1, _⟩ | ⟨_, h1⟩
    · rw [h] at h1; cases h1
    · rw [h1]; exact (run_growing _ _ _ _ _ _ _).2

theorem run_bounded (cfg : SupCfg K) (c : SupComp K d M)
    (hdisc : ∀ seed hist el pool X y n rules, c.discover seed hist el pool X y n = .ok rules → rules.length ≤ n)
    (ev : PoolEval K d M) (entropy : Nat) (X : List (Point K d)) (y : List K) (step0 : Nat) :
    let o := runFit cfg c ev entropy X y step0
    (∀ (k : Nat) p, (composedPools o.state.trace)[k]? = some p → p.length ≤ cfg.nInitial + (k + 1) * cfg.nRules) ∧
    (composedPools o.state.trace).length ≤ cfg.nIter ∧
    o.state.pool.length ≤ cfg.nRules * cfg.nIter + cfg.nInitial := by
  have hmul : ∀ j, j ≤ cfg.nIter → cfg.nInitial + j * cfg.nRules ≤ cfg.nRules * cfg.nIter + cfg.nInitial := by
    intro j hj
    have := Nat.mul_le_mul_left cfg.nRules hj
    rw [Nat.mul_comm j]; omega
  have hd : ∀ n (s s1 : RunState K d M) r, discoverStep cfg c entropy X y n s = (s1, r) →
      composedPools s1.trace = composedPools s.trace ∧ s1.pool.length ≤ s.pool.length + n ∧ (r ≠ none → s1.pool = s.pool) := by
    intro n s s1 r h
    rcases discoverStep_spec _ _ _ _ _ _ _ _ _ h with ⟨rfl, _⟩ | ⟨el, seed, a1, _, _, ⟨_, _, _, rfl⟩ | ⟨rules, hr, hrules, rfl⟩⟩
    · exact ⟨rfl, by omega, fun _ => rfl⟩
    · exact ⟨by dsimp only; rw [composedPools_append]; simp [composedPools], by dsimp only; omega, fun _ => rfl⟩
    · refine ⟨by dsimp only; rw [composedPools_append]; simp [composedPools], ?_, fun h => absurd hr h⟩
      have := hdisc _ _ _ _ _ _ _ _ hrules
      simp only [List.length_append]; omega
  have hcs : ∀ (s s1 : RunState K d M) r, composeStep cfg c ev entropy s = (s1, r) →
      composedPools s1.trace = composedPools s.trace ∧ s1.pool = s.pool := by
    intro s s1 r h
    rcases composeStep_spec _ _ _ _ _ _ _ h with ⟨rfl, _⟩ | ⟨seed, _, ⟨_, _, _, rfl⟩ | ⟨_, _, _, rfl⟩⟩
    · exact ⟨rfl, rfl⟩
    all_goals exact ⟨by dsimp only; rw [composedPools_append]; simp [composedPools], rfl⟩
  have hit : ∀ k (s s' : RunState K d M) el, Iteration cfg c ev entropy X y k s s' el →
      composedPools s'.trace = composedPools s.trace ++ [s'.pool] ∧ s'.pool.length ≤ s.pool.length + cfg.nRules := by
    intro k s s' el h
    obtain ⟨s1, s2, h1, h2, _, rfl⟩ := h
    obtain ⟨a1, a2, _⟩ := hd _ _ _ _ h1
    obtain ⟨b1, b2⟩ := hcs _ _ _ h2
    refine ⟨?_, ?_⟩
    · dsimp only
      rw [composedPools_append, b1, a1]; simp [composedPools]
    · dsimp only
      rw [b2]; exact a2
  let P : List Nat → RunState K d M → Prop := fun ks s =>
    (composedPools s.trace).length + ks.length = cfg.nIter ∧ s.pool.length ≤ cfg.nInitial + (composedPools s.trace).length * cfg.nRules ∧
      ∀ (k : Nat) p, (composedPools s.trace)[k]? = some p → p.length ≤ cfg.nInitial + (k + 1) * cfg.nRules
  have hstep : ∀ k rest (s s' : RunState K d M) el, P (k :: rest) s → Iteration cfg c ev entropy X y k s s' el → P rest s' := by
    rintro k rest s s' el ⟨h1, h2, h3⟩ h
    obtain ⟨e1, e2⟩ := hit _ _ _ _ h
    have hl : s'.pool.length ≤ cfg.nInitial + ((composedPools s.trace).length + 1) * cfg.nRules := by
      rw [Nat.add_mul]; omega
    refine ⟨?_, ?_, ?_⟩
    · rw [e1]; simp at h1 ⊢; omega
    · rw [e1]; simpa using hl
    · intro j p hj
      rw [e1] at hj
      by_cases hlt : j < (composedPools s.trace).length
      · rw [List.getElem?_append_left hlt] at hj
        exact h3 j p hj
      · rw [List.getElem?_append_right (by omega)] at hj
        rw [List.getElem?_singleton] at hj
        split at hj
        · rename_i h0
          cases hj
          have : j = (composedPools s.trace).length := by omega
          rw [this]; exact hl
        · cases hj
  have hend : ∀ (s : RunState K d M) l, P l s →
      (∀ (k : Nat) p, (composedPools s.trace)[k]? = some p → p.length ≤ cfg.nInitial + (k + 1) * cfg.nRules) ∧
      (composedPools s.trace).length ≤ cfg.nIter ∧ s.pool.length ≤ cfg.nRules * cfg.nIter + cfg.nInitial := by
    rintro s l ⟨h1, h2, h3⟩
    exact ⟨h3, by omega, le_trans h2 (hmul _ (by omega))⟩
  refine runFit_ind cfg c ev entropy X y step0 P
    (fun o => (∀ (k : Nat) p, (composedPools o.state.trace)[k]? = some p → p.length ≤ cfg.nInitial + (k + 1) * cfg.nRules) ∧
      (composedPools o.state.trace).length ≤ cfg.nIter ∧ o.state.pool.length ≤ cfg.nRules * cfg.nIter + cfg.nInitial)
    ?_ ?_ ?_ ?_ ?_ ?_ ?_ ?_ ?_
  · intro _
    exact ⟨by simp [startState, composedPools], by simp [startState], by simp [startState, composedPools]⟩
  · intro s _ h
    obtain ⟨a1, a2, _⟩ := hd _ _ _ _ h
    have h0 : composedPools (startState cfg step0 : RunState K d M).trace = [] := rfl
    rw [h0] at a1
    refine ⟨by rw [a1]; simp, ?_, by rw [a1]; simp⟩
    rw [a1]
    simpa [startState] using a2
  · intro s e _ h
    obtain ⟨a1, a2, _⟩ := hd _ _ _ _ h
    have h0 : composedPools (startState cfg step0 : RunState K d M).trace = [] := rfl
    rw [h0] at a1
    dsimp only [Outcome.state]
    rw [a1]
    refine ⟨by simp, by simp, ?_⟩
    have : s.pool.length ≤ cfg.nInitial := by simpa [startState] using a2
    omega
  · intro s h
    exact hend s [] h
  · intro k rest s s1 e hP h
    obtain ⟨a1, _, a3⟩ := hd _ _ _ _ h
    have := hend s _ hP
    dsimp only [Outcome.state]
    rw [a1, a3 (by simp)]
    exact this
  · intro k rest s s1 s2 e hP h h'
    obtain ⟨a1, a2, _⟩ := hd _ _ _ _ h
    obtain ⟨b1, b2⟩ := hcs _ _ _ h'
    have := hend s _ hP
    dsimp only [Outcome.state]
    rw [b1, a1, b2]
    refine ⟨this.1, this.2.1, ?_⟩
    have h3 := hP.1
    simp at h3
    have h4 := hmul ((composedPools s.trace).length + 1) (by omega)
    have h5 := hP.2.1
    dsimp only at a2
    rw [Nat.add_mul] at h4
    omega
  · intro k rest s s1 s2 e hP h h' _
    obtain ⟨a1, a2, _⟩ := hd _ _ _ _ h
    obtain ⟨b1, b2⟩ := hcs _ _ _ h'
    have := hend s _ hP
    dsimp only [Outcome.state]
    rw [b1, a1, b2]
    refine ⟨this.1, this.2.1, ?_⟩
    have h3 := hP.1
    simp at h3
    have h4 := hmul ((composedPools s.trace).length + 1) (by omega)
    have h5 := hP.2.1
    dsimp only at a2
    rw [Nat.add_mul] at h4
    omega
  · intro k rest s s' el hP h _
    exact hend s' _ (hstep _ _ _ _ _ hP h)
  · intro k rest s s' el hP h _
    exact hstep _ _ _ _ _ hP h

/-- C49: if rule discovery returns at most the requested number of rules, the pool has at most `n_initial_rules + k * n_rules` rules after `k` iterations, and no pool of the run
exceeds the maximum genome length `n_rules * n_iter + n_initial_rules` that the fitness uses. -/
theorem C49_bounded (cfg : SupCfg K) (c : SupComp K d M)
    (hdisc : ∀ seed hist el pool X y n rules, c.discover seed hist el pool X y n = .ok rules → rules.length ≤ n)
    (entropy : Nat) (raw : RawData K d) (cl : Bool) (st0 : SupState K d M) :
    (∀ (k : Nat) p, (composedPools (st0.fit cfg c entropy raw cl).trace)[k]? = some p → p.length ≤ cfg.nInitial + (k + 1) * cfg.nRules) ∧
    (composedPools (st0.fit cfg c entropy raw cl).trace).length ≤ cfg.nIter ∧
    ∀ e ∈ (st0.fit cfg c entropy raw cl).trace, e.pool.length ≤ cfg.maxGenomeLength := by
  unfold SupState.fit
  refine trace_of_run cfg c (runEval cfg c) entropy raw cl st0
    (fun t => (∀ (k : Nat) p, (composedPools t)[k]? = some p → p.length ≤ cfg.nInitial + (k + 1) * cfg.nRules) ∧
      (composedPools t).length ≤ cfg.nIter ∧ ∀ e ∈ t, e.pool.length ≤ cfg.maxGenomeLength) (by simp [composedPools]) ?_
  obtain ⟨h1, h2, h3⟩ := run_bounded cfg c hdisc (runEval cfg c raw.X raw.y) entropy raw.X raw.y st0.step
  refine ⟨h1, h2, fun e he => ?_⟩
  exact le_trans ((run_growing cfg c _ _ _ _ _).2 e he).length_le h3

/-- C49: single rule discovery (the evolution strategy) returns at most one rule per requested origin. -/
theorem C49_discovery_bound {R O S : Type} (init : O → Except PyErr R) (optimizeOne : R → S → Except PyErr (Option R))
    (accept : R → Except PyErr Bool) (origins : List O) (streams : List S) (rules : List R)
    (h : discoverRules init optimizeOne accept origins streams = .ok rules) : rules.length ≤ origins.length := by
  unfold discoverRules at h
  split at h
  · cases h
  · rename_i initial h1
    split at h
    · cases h
    · rename_i l h2
      have e1 := mapM_length _ _ _ h1
      have e2 := mapM_length _ _ _ h2
      have e3 := filterInvalid_length _ _ _ h
      simp at e2
      omega

/-- C49: random search returns at most one rule per group if selection returns one rule. -/
theorem C49_random_search_bound {R S : Type} (select : List R → S → Except PyErr (List R)) (accept : R → Except PyErr Bool)
    (hsel : ∀ g s l, select g s = .ok l → l.length ≤ 1) (groups : List (List R × S)) (rules : List R)
    (h : randomSearch select accept groups = .ok rules) : rules.length ≤ groups.length := by
  unfold randomSearch at h
  split at h
  · cases h
  · rename_i out h1
    have e1 := mapM_length _ _ _ h1
    have e3 := filterInvalid_length _ _ _ h
    have : out.flatten.length ≤ out.length := by
      have hl : ∀ l ∈ out, l.length ≤ 1 := by
        intro l hl
        obtain ⟨⟨g, s⟩, _, hb⟩ := mem_of_mapM_ok _ _ _ h1 l hl
        exact hsel g s l hb
      clear h1 e1 e3 h
      induction out with
      | nil => simp
      | cons a as ih =>
        have h1 := hl a (List.mem_cons_self ..)
        have h2 := ih fun l h => hl l (List.mem_cons_of_mem _ h)
        simp only [List.flatten_cons, List.length_append, List.length_cons]
        omega
    rw [List.length_map] at e3
    omega

example : ∀ seed hist el pool X y n rules, (demoComp fun _ _ c => c).discover seed hist el pool X y n = .ok rules → rules.length ≤ n := by
  intro seed hist el pool X y n rules h
  cases h; simp

example : (composedPools (SupState.fit (demoCfg 2 3 2 (-1) 0) (demoComp fun _ _ c => c) 7 demoData false {}).trace).map List.length = [5, 7] := by
  decide +kernel

/-! ### C50 early stopping -/

/-- Fit returned and no phase failed. -/
def FitResult.Completed (r : FitResult K d M) : Prop := r.raised = none ∧ r.state.isError = false

/-- What completed fits look like. -/
theorem completed_run (cfg : SupCfg K) (c : SupComp K d M) (ev : List (Point K d) → List K → PoolEval K d M) (entropy : Nat)
    (raw : RawData K d) (cl : Bool) (st0 : SupState K d M) (h : (st0.fitWith cfg c ev entropy raw cl).Completed) :
    raw.check = .ok (raw.X, raw.y) ∧ ∃ s el, runFit cfg c (ev raw.X raw.y) entropy raw.X raw.y st0.step = .done s ∧
      s.comp.elitist = .ok (some el) ∧ (st0.fitWith cfg c ev entropy raw cl).trace = s.trace ∧
      (st0.fitWith cfg c ev entropy raw cl).state.isFitted = true ∧
      ∃ σ, (st0.fitWith cfg c ev entropy raw cl).state.elitist = some (.solution σ) ∧
        (cl = false → σ = { genome := el.genome, pool := s.pool, st := el.st }) ∧
        (cl = true → cleanup { genome := el.genome, pool := s.pool, st := el.st } = .ok σ) := by
  rcases fitWith_trace cfg c ev entropy raw cl st0 with ⟨_, h1⟩ | ⟨hc, ht⟩
  · rw [h1] at h; cases h.1
  · refine ⟨hc, ?_⟩
    cases ho : runFit cfg c (ev raw.X raw.y) entropy raw.X raw.y st0.step with
    | caught s =>
      have : (st0.fitWith cfg c ev entropy raw cl).state.isError = true := by
        unfold SupState.fitWith; rw [hc]; dsimp only; rw [ho]
      rw [h.2] at this; cases this
    | raised s e =>
      have : (st0.fitWith cfg c ev entropy raw cl).raised = some e := by
        unfold SupState.fitWith; rw [hc]; dsimp only; rw [ho]
      rw [h.1] at this; cases this
    | done s =>
      have hf : st0.fitWith cfg c ev entropy raw cl =
          finishFit { st0 with isError := false, elitist := some .placeholder, pool := [], cleaned := false } cl s := by
        unfold SupState.fitWith; rw [hc]; dsimp only; rw [ho]
      rw [hf] at h ⊢
      rw [finishFit_trace]
      unfold finishFit at h ⊢
      cases he : s.comp.elitist with
      | error e => rw [he] at h; cases h.1
      | ok oel =>
        rw [he] at h
        cases oel with
        | none => cases h.1
        | some el =>
          refine ⟨s, el, rfl, he, rfl, ?_⟩
          dsimp only at h ⊢
          cases hcl : el.clone with
          | error e => rw [hcl] at h; cases h.1
          | ok b =>
            obtain ⟨rfl, _⟩ := Indiv.clone_spec _ _ hcl
            rw [hcl] at h
            dsimp only at h ⊢
            cases cl with
            | false => exact ⟨rfl, _, rfl, fun _ => rfl, fun h => absurd h (by simp)⟩
            | true =>
              simp only [if_true] at h ⊢
              cases hcu : cleanup ({ genome := b.genome, pool := s.pool, st := b.st } : Solution K d M) with
              | error e => rw [hcu] at h; cases h.1
              | ok τ => exact ⟨rfl, τ, rfl, (fun h => absurd h (by simp)), fun _ => rfl⟩

/-- The first `k` values end with `P` values that are all at most `delta`. -/
def EndsLow (P : Int) (delta : K) (fs : List K) (k : Nat) : Prop :=
  P ≤ (k : Int) ∧ ∀ i : Nat, (k : Int) - P ≤ (i : Int) → i < k → ∀ f, fs[i]? = some f → f ≤ delta

variable [IsStrictOrderedRing K]

/-- Meaning of the counter: the number of values at the end that are at most `delta`. -/
def CounterOk (P : Int) (delta : K) (fs : List K) (n : Nat) : Prop :=
  n ≤ fs.length ∧ (n : Int) < P ∧ (∀ i : Nat, fs.length - n ≤ i → ∀ f, fs[i]? = some f → f ≤ delta) ∧
  (n < fs.length → ∃ f, fs[fs.length - n - 1]? = some f ∧ delta < f) ∧ ∀ k, 0 < k → k ≤ fs.length → ¬ EndsLow P delta fs k

theorem endsLow_append (P : Int) (delta f : K) (fs : List K) (k : Nat) (hk : k ≤ fs.length) :
    EndsLow P delta (fs ++ [f]) k ↔ EndsLow P delta fs k := by
  unfold EndsLow
  refine and_congr_right fun _ => forall_congr' fun i => forall_congr' fun _ => forall_congr' fun hi => ?_
  rw [List.getElem?_append_left (by omega)]

theorem counter_step (cfg : SupCfg K) (hP : 0 < cfg.patience) (fs : List K) (n : Nat) (f : K) (h : CounterOk cfg.patience cfg.delta fs n) :
    ((checkEarlyStopping cfg f n).2 = true → EndsLow cfg.patience cfg.delta (fs ++ [f]) (fs.length + 1)) ∧
    ((checkEarlyStopping cfg f n).2 = false → CounterOk cfg.patience cfg.delta (fs ++ [f]) (checkEarlyStopping cfg f n).1) := by
  obtain ⟨h1, h2, h3, h4, h5⟩ := h
  unfold checkEarlyStopping
  rw [if_pos hP, sub_zero]
  by_cases hlt : cfg.delta < f
  · rw [if_pos hlt]
    refine ⟨fun h => absurd h (by simp), fun _ => ⟨by simp, by simpa using hP, ?_, ?_, ?_⟩⟩
    · intro i hi g hg
      rw [List.getElem?_eq_none (by simpa using hi)] at hg; cases hg
    · intro _
      exact ⟨f, by simp, hlt⟩
    · intro k hk hk' he
      by_cases hkl : k ≤ fs.length
      · exact h5 k hk hkl ((endsLow_append _ _ _ _ _ hkl).mp he)
      · have hk'' : k = fs.length + 1 := by simp at hk'; omega
        subst hk''
        have := he.2 fs.length (by omega) (by omega) f (by simp)
        exact absurd hlt (not_lt.mpr this)
  · rw [if_neg hlt]
    have hle : f ≤ cfg.delta := not_lt.mp hlt
    have hlow : ∀ i : Nat, fs.length - n ≤ i → ∀ g, (fs ++ [f])[i]? = some g → g ≤ cfg.delta := by
      intro i hi g hg
      by_cases hil : i < fs.length
      · rw [List.getElem?_append_left hil] at hg
        exact h3 i hi g hg
      · rw [List.getElem?_append_right (by omega), List.getElem?_singleton] at hg
        split at hg
        · cases hg; exact hle
        · cases hg
    refine ⟨?_, ?_⟩
    · intro h
      simp only [decide_eq_true_eq] at h
      push_cast at h
      refine ⟨by push_cast; omega, ?_⟩
      intro i hi hi' g hg
      refine hlow i ?_ g hg
      push_cast at hi
      omega
    · intro h
      simp only [decide_eq_false_iff_not, not_le] at h
      refine ⟨by simp; omega, h, ?_, ?_, ?_⟩
      · intro i hi
        refine hlow i ?_
        simp at hi
        omega
      · intro hn
        simp at hn
        obtain ⟨g, hg, hg'⟩ := h4 (by omega)
        refine ⟨g, ?_, hg'⟩
        rw [← hg, List.getElem?_append_left (by simp; omega)]
        congr 1
        simp
      · intro k hk hk' he
        by_cases hkl : k ≤ fs.length
        · exact h5 k hk hkl ((endsLow_append _ _ _ _ _ hkl).mp he)
        · have hk'' : k = fs.length + 1 := by simp at hk'; omega
          subst hk''
          by_cases hn : n < fs.length
          · obtain ⟨g, hg, hg'⟩ := h4 hn
            have := he.2 (fs.length - n - 1) (by push_cast at h ⊢; omega) (by omega) g
              (by rw [List.getElem?_append_left (by omega)]; exact hg)
            exact absurd hg' (not_lt.mpr this)
          · have := he.1
            push_cast at h this
            omega

theorem iteration_fitness (cfg : SupCfg K) (c : SupComp K d M) (ev : PoolEval K d M) (entropy : Nat) (X : List (Point K d)) (y : List K)
    (k : Nat) (s s' : RunState K d M) (el : Indiv K) (h : Iteration cfg c ev entropy X y k s s' el) :
    elitistFitness s'.trace = elitistFitness s.trace ++ [el.fitnessD] ∧ s'.counter = (checkEarlyStopping cfg el.fitnessD s.counter).1 := by
  obtain ⟨el0, seed, seed', rules, comp, _, _, _, _, _, hcomp, hel, rfl⟩ := iteration_spec _ _ _ _ _ _ _ _ _ _ h
  exact ⟨by dsimp only; rw [elitistFitness_append]; simp [elitistFitness], rfl⟩

theorem discoverStep_counter (cfg : SupCfg K) (c : SupComp K d M) (entropy : Nat) (X : List (Point K d)) (y : List K) (n : Nat)
    (s s1 : RunState K d M) (r : Option PyErr) (h : discoverStep cfg c entropy X y n s = (s1, r)) : s1.counter = s.counter := by
  rcases discoverStep_spec _ _ _ _ _ _ _ _ _ h with ⟨rfl, _⟩ | ⟨el, seed, _, _, _, ⟨_, _, _, rfl⟩ | ⟨_, _, _, rfl⟩⟩ <;> rfl

theorem run_stopping (cfg : SupCfg K) (c : SupComp K d M) (ev : PoolEval K d M) (entropy : Nat) (X : List (Point K d)) (y : List K)
    (step0 : Nat) :
    let o := runFit cfg c ev entropy X y step0
    (0 < cfg.patience → (∀ k, 0 < k → k < (elitistFitness o.state.trace).length → ¬ EndsLow cfg.patience cfg.delta (elitistFitness o.state.trace) k) ∧
      ∀ s, o = .done s → (elitistFitness s.trace).length = cfg.nIter ∨
        EndsLow cfg.patience cfg.delta (elitistFitness s.trace) (elitistFitness s.trace).length) ∧
    (cfg.patience ≤ 0 → ∀ s, o = .done s → (elitistFitness s.trace).length = cfg.nIter) := by
  let P : List Nat → RunState K d M → Prop := fun ks s =>
    (elitistFitness s.trace).length + ks.length = cfg.nIter ∧
    (0 < cfg.patience → CounterOk cfg.patience cfg.delta (elitistFitness s.trace) s.counter)
  let Q : Outcome K d M → Prop := fun o =>
    (0 < cfg.patience → (∀ k, 0 < k → k < (elitistFitness o.state.trace).length → ¬ EndsLow cfg.patience cfg.delta (elitistFitness o.state.trace) k) ∧
      ∀ s, o = .done s → (elitistFitness s.trace).length = cfg.nIter ∨
        EndsLow cfg.patience cfg.delta (elitistFitness s.trace) (elitistFitness s.trace).length) ∧
    (cfg.patience ≤ 0 → ∀ s, o = .done s → (elitistFitness s.trace).length = cfg.nIter)
  have hcaught : ∀ (o : Outcome K d M) (s : RunState K d M) ks, (∀ s', o ≠ .done s') → P ks s → elitistFitness o.state.trace = elitistFitness s.trace → Q o := by
    intro o s ks hnd hP he
    refine ⟨fun hp => ⟨?_, fun s' hs' => absurd hs' (hnd s')⟩, fun _ s' hs' => absurd hs' (hnd s')⟩
    rw [he]
    intro k hk hk'
    exact (hP.2 hp).2.2.2.2 k hk (by omega)
  have hstart : P (List.range cfg.nIter) (startState cfg step0) := by
    refine ⟨by simp [startState, elitistFitness], fun hp => ⟨by simp [startState], by simpa [startState] using hp, ?_, ?_, ?_⟩⟩
    · simp [startState, elitistFitness]
    · simp [startState, elitistFitness]
    · intro k hk hk'
      simp [startState, elitistFitness] at hk'
      omega
  refine runFit_ind cfg c ev entropy X y step0 P Q (fun _ => hstart) ?_ ?_ ?_ ?_ ?_ ?_ ?_ ?_
  · intro s _ h
    have e1 := discoverStep_fitness _ _ _ _ _ _ _ _ _ h
    have e2 := discoverStep_counter _ _ _ _ _ _ _ _ _ h
    show P _ s
    dsimp only [P] at hstart ⊢
    rw [e1, e2]; exact hstart
  · intro s e _ h
    exact hcaught _ _ _ (by simp) hstart (discoverStep_fitness _ _ _ _ _ _ _ _ _ h)
  · intro s hP
    have hl : (elitistFitness s.trace).length = cfg.nIter := by simpa using hP.1
    refine ⟨fun hp => ⟨?_, fun s' hs' => by cases hs'; exact .inl hl⟩, fun _ s' hs' => by cases hs'; exact hl⟩
    intro k hk hk'
    exact (hP.2 hp).2.2.2.2 k hk (le_of_lt hk')
  · intro k rest s s1 e hP h
    exact hcaught _ _ _ (by simp) hP (discoverStep_fitness _ _ _ _ _ _ { s with step := k } _ _ h)
  · intro k rest s s1 s2 e hP h h'
    exact hcaught _ _ _ (by simp) hP ((composeStep_fitness _ _ _ _ _ _ _ h').trans (discoverStep_fitness _ _ _ _ _ _ { s with step := k } _ _ h))
  · intro k rest s s1 s2 e hP h h' _
    exact hcaught _ _ _ (by simp) hP ((composeStep_fitness _ _ _ _ _ _ _ h').trans (discoverStep_fitness _ _ _ _ _ _ { s with step := k } _ _ h))
  · intro k rest s s' el hP h hstop
    obtain ⟨e1, _⟩ := iteration_fitness _ _ _ _ _ _ _ _ _ _ h
    by_cases hp : 0 < cfg.patience
    · refine ⟨fun _ => ⟨?_, fun s'' hs'' => ?_⟩, fun hp' => by omega⟩
      · dsimp only [Outcome.state]
        rw [e1]
        intro j hj hj'
        simp at hj'
        rw [endsLow_append _ _ _ _ _ (by omega)]
        exact (hP.2 hp).2.2.2.2 j hj (by omega)
      · cases hs''
        right
        rw [e1]
        have := (counter_step cfg hp _ _ el.fitnessD (hP.2 hp)).1 hstop
        simpa using this
    · unfold checkEarlyStopping at hstop
      rw [if_neg hp] at hstop
      cases hstop
  · intro k rest s s' el hP h hstop
    obtain ⟨e1, e2⟩ := iteration_fitness _ _ _ _ _ _ _ _ _ _ h
    refine ⟨?_, fun hp => ?_⟩
    · have := hP.1
      rw [e1]
      simp at this ⊢
      omega
    · rw [e1, e2]
      exact (counter_step cfg hp _ _ el.fitnessD (hP.2 hp)).2 hstop

/-- C50, what the code does for every run: with patience `P > 0` training stops after the first iteration that ends a streak of `P` iterations whose elitist fitness *itself* is at
most delta (the fitness of the previous iteration is not used, see `C50_refuted`). -/
theorem C50_streak_partial (cfg : SupCfg K) (c : SupComp K d M) (entropy : Nat) (raw : RawData K d) (cl : Bool) (st0 : SupState K d M)
    (hp : 0 < cfg.patience) :
    let r := st0.fit cfg c entropy raw cl
    let fs := elitistFitness r.trace
    (∀ k, 0 < k → k < fs.length → ¬ EndsLow cfg.patience cfg.delta fs k) ∧
    (r.Completed → fs.length = cfg.nIter ∨ EndsLow cfg.patience cfg.delta fs fs.length) := by
  unfold SupState.fit
  refine ⟨?_, fun h => ?_⟩
  · exact trace_of_run cfg c (runEval cfg c) entropy raw cl st0
      (fun t => ∀ k, 0 < k → k < (elitistFitness t).length → ¬ EndsLow cfg.patience cfg.delta (elitistFitness t) k) (by simp [elitistFitness])
      ((run_stopping cfg c _ _ _ _ _).1 hp).1
  · obtain ⟨_, s, el, h1, _, h2, _⟩ := completed_run _ _ _ _ _ _ _ h
    rw [h2]
    exact ((run_stopping cfg c _ _ _ _ _).1 hp).2 s h1

/-- C50: with non-positive patience training never stops early. -/
theorem C50_disabled_partial (cfg : SupCfg K) (c : SupComp K d M) (entropy : Nat) (raw : RawData K d) (cl : Bool) (st0 : SupState K d M)
    (hp : cfg.patience ≤ 0) (h : (st0.fit cfg c entropy raw cl).Completed) :
    (elitistFitness (st0.fit cfg c entropy raw cl).trace).length = cfg.nIter := by
  obtain ⟨_, s, el, h1, _, h2, _⟩ := completed_run _ _ _ _ _ _ _ h
  unfold SupState.fit
  rw [h2]
  exact (run_stopping cfg c _ _ _ _ _).2 hp s h1

/-- The documented streak: in each of the last `P` of the first `k` iterations the fitness grew by at most `delta` over the previous iteration. -/
def EndsUnimproved (P : Int) (delta : K) (fs : List K) (k : Nat) : Prop :=
  P ≤ (k : Int) ∧ ∀ i : Nat, (k : Int) - P ≤ (i : Int) → i < k → ∃ a b, 0 < i ∧ fs[i - 1]? = some a ∧ fs[i]? = some b ∧ b - a ≤ delta

/-- C50 is false for the code, in both directions. (1) Patience 1, delta 0, a constant fitness of 1: the second iteration does not improve, but all three iterations are run.
(2) Patience 2, delta 0, fitness -9, -8: the second iteration improves by 1, nevertheless training stops after it. -/
theorem C50_refuted :
    (let r := SupState.fit (demoCfg 3 0 1 1 0) (demoComp fun _ _ _ => 1) 7 demoData false {}
     r.Completed ∧ EndsUnimproved 1 0 (elitistFitness r.trace) 2 ∧ (elitistFitness r.trace).length = 3) ∧
    (let r := SupState.fit (demoCfg 3 0 1 2 0) (demoComp fun _ _ c => (c : ℚ) - 10) 7 demoData false {}
     r.Completed ∧ ¬ EndsUnimproved 2 0 (elitistFitness r.trace) 2 ∧ (elitistFitness r.trace).length = 2) := by
  have h1 : elitistFitness (SupState.fit (demoCfg 3 0 1 1 0) (demoComp fun _ _ _ => 1) 7 demoData false {}).trace = [1, 1, 1] := by decide +kernel
  have h2 : elitistFitness (SupState.fit (demoCfg 3 0 1 2 0) (demoComp fun _ _ c => (c : ℚ) - 10) 7 demoData false {}).trace = [-9, -8] := by
    decide +kernel
  refine ⟨⟨⟨by decide +kernel, by decide +kernel⟩, ?_, ?_⟩, ⟨⟨by decide +kernel, by decide +kernel⟩, ?_, ?_⟩⟩
  · rw [h1]
    refine ⟨by norm_num, fun i hi hi' => ?_⟩
    have : i = 1 := by push_cast at hi; omega
    subst this
    exact ⟨1, 1, by norm_num, rfl, rfl, by norm_num⟩
  · rw [h1]; rfl
  · rw [h2]
    rintro ⟨_, h⟩
    obtain ⟨a, b, _, ha, hb, hab⟩ := h 1 (by norm_num) (by norm_num)
    simp at ha hb
    subst ha hb
    norm_num at hab
  · rw [h2]; rfl

/-- Runs that the partial theorems speak about: one that stops early and one without early stopping. -/
example : (let r := SupState.fit (demoCfg 5 0 1 2 (1 / 2)) (demoComp fun _ _ c => if c = 2 then 1 else 0) 7 demoData false {}
     (r.raised = none ∧ r.state.isError = false) ∧ elitistFitness r.trace = [0, 1, 1, 1, 1]) ∧
    (let r := SupState.fit (demoCfg 5 0 1 2 2) (demoComp fun _ _ c => c) 7 demoData false {}
     (r.raised = none ∧ r.state.isError = false) ∧ elitistFitness r.trace = [1, 2]) := by
  decide +kernel

end Suprb
