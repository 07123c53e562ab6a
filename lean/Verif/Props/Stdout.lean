import Verif.Model.Stdout
import Verif.Props.Logging
import Verif.Props.Metrics

/-!
# Properties of the messages of the loggers: C109, C110
-/

set_option autoImplicit false
set_option linter.unusedSectionVars false

namespace Suprb

open Spec

variable {K : Type} [Field K] [LinearOrder K] [IsStrictOrderedRing K] [FloorSemiring K] {d : Nat} {M : Type}

/-! ### C109 messages about the progress of training -/

/-- The message about an iteration with pool and composition `q`. -/
def LineFor (c : SupComp K d M) (X : List (Point K d)) (y : List K) (nIter : Nat) (q : List (Rule K d M) × CompState K) (k : Nat) (line : StdoutLine K) : Prop :=
  ∃ el a out, q.2.elitist = .ok (some el) ∧ el.st = some a ∧
    Solution.predict c.learner c.mix c.filter false { genome := el.genome, pool := q.1, st := el.st } X = .ok out ∧
    line = .statistics (k + 1) nIter a.error a.fitness a.complexity (r2Score y out)

theorem stdout_iterAll (c : SupComp K d M) (X : List (Point K d)) (y : List K) (nIter : Nat) (states : List (List (Rule K d M) × CompState K)) :
    ∀ (k : Nat) (s : StdoutState K), (∀ q ∈ states, ∃ e, elitistMetrics c.learner c.mix c.filter X y q.1 q.2 = .ok e) →
    ∃ ls : List (StdoutLine K),
      (stdoutOps c X y).iterAll k (states.map fun q => { nIter, pool := q.1, comp := q.2 }) s =
        .ok { lines := s.lines ++ ls, bar := s.bar.map fun b => (b.1 + states.length, b.2) } ∧
      ls.length = states.length ∧ ∀ i q, states[i]? = some q → ∃ line, ls[i]? = some line ∧ LineFor c X y nIter q (k + i) line := by
  induction states with
  | nil =>
    intro k s _
    refine ⟨[], ?_, rfl, fun i q hi => by simp at hi⟩
    cases s with
    | mk ls bar => cases bar <;> simp [LoggerOps.iterAll]
  | cons q rest ih =>
    intro k s h
    obtain ⟨e, he⟩ := h q List.mem_cons_self
    obtain ⟨el, a, out, h1, h2, h3, _⟩ := elitistMetrics_spec _ _ _ _ _ _ _ _ he
    set line : StdoutLine K := .statistics (k + 1) nIter a.error a.fitness a.complexity (r2Score y out) with hline
    set s1 : StdoutState K := { lines := s.lines ++ [line], bar := s.bar.map fun b => (b.1 + 1, b.2) } with hs1
    obtain ⟨ls, h4, h5, h6⟩ := ih (k + 1) s1 fun q' hq' => h q' (List.mem_cons_of_mem _ hq')
    refine ⟨line :: ls, ?_, by simp [h5], ?_⟩
    · have hit : (stdoutOps c X y).iter { nIter, pool := q.1, comp := q.2 } k s = .ok s1 := by
        change stdoutIteration c X y _ k s = _
        unfold stdoutIteration
        dsimp only
        rw [h1]
        dsimp only
        rw [h2] at h3 ⊢
        dsimp only
        rw [h3]
      rw [List.map_cons]
      unfold LoggerOps.iterAll
      rw [hit]
      dsimp only
      rw [h4, hs1]
      cases s with
      | mk ls0 bar => cases bar <;> simp [Nat.add_assoc, Nat.add_comm 1]
    · intro i q' hi
      cases i with
      | zero =>
        rw [List.getElem?_cons_zero] at hi
        cases hi
        exact ⟨line, by simp, el, a, out, h1, h2, h3, rfl⟩
      | succ i =>
        rw [List.getElem?_cons_succ] at hi
        obtain ⟨l, h7, h8⟩ := h6 i q' hi
        refine ⟨l, by rw [List.getElem?_cons_succ]; exact h7, ?_⟩
        rw [show k + (i + 1) = k + 1 + i by omega]
        exact h8

/-- A run that is not aborted has at most `n_iter` iterations. -/
theorem run_iterations (cfg : SupCfg K) (c : SupComp K d M) (ev : PoolEval K d M) (entropy : Nat) (X : List (Point K d)) (y : List K) (step0 : Nat) (s : RunState K d M)
    (h : runFit cfg c ev entropy X y step0 = .done s) : (elitistFitness s.trace).length ≤ cfg.nIter := by
  have hstart : (elitistFitness (startState cfg step0 : RunState K d M).trace).length + (List.range cfg.nIter).length = cfg.nIter := by simp [startState, elitistFitness]
  refine runFit_ind cfg c ev entropy X y step0 (fun ks s => (elitistFitness s.trace).length + ks.length = cfg.nIter)
    (fun o => ∀ s, o = .done s → (elitistFitness s.trace).length ≤ cfg.nIter) (fun _ => hstart) ?_ ?_ ?_ ?_ ?_ ?_ ?_ ?_ s h
  · intro s _ h
    rw [discoverStep_fitness _ _ _ _ _ _ _ _ _ h]; exact hstart
  · intro s e _ _ s' h'; cases h'
  · intro s hP s' h'
    cases h'
    omega
  · intro k rest s s1 e _ _ s' h'; cases h'
  · intro k rest s s1 s2 e _ _ _ s' h'; cases h'
  · intro k rest s s1 s2 e _ _ _ _ s' h'; cases h'
  · intro k rest s s1 el hP h _ s' h'
    cases h'
    rw [(iteration_fitness _ _ _ _ _ _ _ _ _ _ h).1]
    simp at hP ⊢
    omega
  · intro k rest s s1 el hP h _
    rw [(iteration_fitness _ _ _ _ _ _ _ _ _ _ h).1]
    simp at hP ⊢
    omega

/-- The converse of `stdout_iterAll`: if the logger does not raise, all messages can be computed. -/
theorem stdout_iterAll_ok (c : SupComp K d M) (X : List (Point K d)) (y : List K) (nIter : Nat) (states : List (List (Rule K d M) × CompState K)) :
    ∀ (k : Nat) (s s' : StdoutState K), (stdoutOps c X y).iterAll k (states.map fun q => { nIter, pool := q.1, comp := q.2 }) s = .ok s' →
    ∀ q ∈ states, ∃ e, elitistMetrics c.learner c.mix c.filter X y q.1 q.2 = .ok e := by
  induction states with
  | nil => intro k s s' _ q hq; cases hq
  | cons q0 rest ih =>
    intro k s s' h q hq
    rw [List.map_cons] at h
    unfold LoggerOps.iterAll at h
    split at h
    · cases h
    · rename_i s1 h1
      rcases List.mem_cons.mp hq with rfl | hq
      · change stdoutIteration c X y _ k s = _ at h1
        unfold stdoutIteration at h1
        dsimp only at h1
        unfold elitistMetrics
        split at h1
        · cases h1
        · cases h1
        · rename_i el hel
          rw [hel]
          dsimp only
          split at h1
          · cases h1
          · rename_i a ha
            rw [ha] at h1 ⊢
            dsimp only
            split at h1
            · cases h1
            · rename_i out hout
              rw [hout]
              exact ⟨_, rfl⟩
      · exact ih _ _ _ h q hq

/-- The fitted model predicts what the elitist of the last iteration predicts. -/
theorem predict_last (cfg : SupCfg K) (c : SupComp K d M) (hg : c.GoodStrategies) (entropy : Nat) (raw : RawData K d) (st0 : SupState K d M)
    (hc : (st0.fit cfg c entropy raw false).Completed) :
    ∃ pool comp el, (loggedStates (st0.fit cfg c entropy raw false).trace).getLast? = some (pool, comp) ∧ comp.elitist = .ok (some el) ∧
      (st0.fit cfg c entropy raw false).state.predict c raw.X =
        Solution.predict c.learner c.mix c.filter false { genome := el.genome, pool := pool, st := el.st } raw.X := by
  obtain ⟨hraw, s, el, hrun, hel, htr, hfit, σ, hσ, hcl0, _⟩ := completed_run _ _ _ _ _ _ _ hc
  have hlast := (run_shown cfg c hg (runEval cfg c raw.X raw.y) entropy raw.X raw.y st0.step).2 s hrun
  have hne : (loggedStates s.trace).getLast? = some (s.pool, s.comp) := by
    rcases hlast with ⟨_, h1⟩ | h1
    · obtain ⟨pop, hp, _⟩ := elitist_mem _ _ hel
      rw [h1] at hp; cases hp
    · exact h1
  have htr' : (st0.fit cfg c entropy raw false).trace = s.trace := htr
  refine ⟨s.pool, s.comp, el, by rw [htr']; exact hne, hel, ?_⟩
  have hX : raw.X ≠ [] := (check_ok raw _ _ hraw).2.2.2.1
  have hfit' : (st0.fit cfg c entropy raw false).state.isFitted = true := hfit
  have hσ' : (st0.fit cfg c entropy raw false).state.elitist = some (.solution σ) := hσ
  unfold SupState.predict
  rw [hfit', hc.2, hσ']
  simp only [Bool.true_eq_false, if_false, if_neg hX, Bool.false_eq_true]
  rw [hcl0 rfl]

/-- C109: in every training that completes with the stdout logger, it has printed one message per iteration, in order, numbered from 1 to at most `n_iter`, with the fitness, error, complexity and
training score of the elitist of that iteration (the values the default logger records, if it is used as well), and at the end the training score of the fitted model, which is that of the last
iteration. The progress bar, if asked for, has advanced by one per iteration. -/
theorem C109_lines (cfg : SupCfg K) (c : SupComp K d M) (hg : c.GoodStrategies) (entropy : Nat) (raw : RawData K d) (st0 : SupState K d M) (progressBar : Bool)
    (hc : (st0.fit cfg c entropy raw false).Completed) (s : StdoutState K) (hrun : stdoutRun cfg c entropy raw st0 progressBar = .ok s) :
    let fs := elitistFitness (st0.fit cfg c entropy raw false).trace
    ∃ out, (st0.fit cfg c entropy raw false).state.predict c raw.X = .ok out ∧
      0 < fs.length ∧ fs.length ≤ cfg.nIter ∧ s.lines.length = fs.length + 1 ∧ s.lines[fs.length]? = some (.final (r2Score raw.y out)) ∧
      (∀ j f, fs[j]? = some f → ∃ (error : K) (complexity : Nat) (score : Option K), s.lines[j]? = some (.statistics (j + 1) cfg.nIter error f complexity score) ∧
        (j + 1 = fs.length → score = r2Score raw.y out) ∧
        ∀ m, logRun c raw.X raw.y (st0.fit cfg c entropy raw false).trace = .ok m →
          m "elitist_error" j = some (some error) ∧ m "elitist_complexity" j = some (some (complexity : K)) ∧ m "training_score" j = some score) ∧
      s.bar = if progressBar then some (fs.length, cfg.nIter) else none := by
  intro fs
  have hlen := loggedStates_length (st0.fit cfg c entropy raw false).trace
  have hsh := fit_shown cfg c hg entropy raw false st0
  have hle : fs.length ≤ cfg.nIter := by
    obtain ⟨_, s, el, h1, _, h2, _⟩ := completed_run _ _ _ _ _ _ _ hc
    have h2' : (st0.fit cfg c entropy raw false).trace = s.trace := h2
    change (elitistFitness _).length ≤ _
    rw [h2']
    exact run_iterations _ _ _ _ _ _ _ _ h1
  have hinit : ∀ v : LogView K d M, (stdoutOps c raw.X raw.y).init progressBar v = .ok (stdoutInit progressBar v) := fun _ => rfl
  unfold stdoutRun LoggerOps.run at hrun
  dsimp only at hrun
  rw [hinit] at hrun
  dsimp only at hrun
  unfold iterationViews at hrun
  split at hrun
  · cases hrun
  rename_i s1 hs1
  obtain ⟨ls, h1, h2, h3⟩ := stdout_iterAll c raw.X raw.y cfg.nIter (loggedStates (st0.fit cfg c entropy raw false).trace) 0
    (stdoutInit progressBar ({ nIter := cfg.nIter } : LogView K d M)) (stdout_iterAll_ok c raw.X raw.y cfg.nIter _ 0 _ s1 hs1)
  rw [h1] at hs1
  cases hs1
  have h2' : ls.length = fs.length := by rw [h2, hlen]
  change stdoutFinal raw.y _ _ = _ at hrun
  unfold stdoutFinal at hrun
  dsimp only at hrun
  obtain ⟨pool, comp, el, hlast, hel, hpred⟩ := predict_last cfg c hg entropy raw st0 hc
  split at hrun
  · cases hrun
  rename_i out hout
  cases hrun
  have hpos : 0 < fs.length := by
    rw [← hlen]
    rw [List.getLast?_eq_getElem?] at hlast
    exact lt_of_le_of_lt (Nat.zero_le _) (List.getElem?_eq_some_iff.mp hlast).1
  have hl0 : (stdoutInit progressBar ({ nIter := cfg.nIter } : LogView K d M)).lines = [] := rfl
  refine ⟨out, hout, hpos, hle, ?_, ?_, ?_, ?_⟩
  · simp [h2', hl0]
  · rw [hl0, List.nil_append, ← h2', List.getElem?_append_right (Nat.le_refl _)]; simp
  · intro j f hj
    have hjl : j < fs.length := (List.getElem?_eq_some_iff.mp hj).1
    have hjl' : j < (loggedStates (st0.fit cfg c entropy raw false).trace).length := by rw [hlen]; exact hjl
    obtain ⟨⟨pool', comp'⟩, hst⟩ : ∃ pc, (loggedStates (st0.fit cfg c entropy raw false).trace)[j]? = some pc := ⟨_, List.getElem?_eq_getElem hjl'⟩
    obtain ⟨line, h4, el', b, o, h5, h6, h7, rfl⟩ := h3 j _ hst
    dsimp only at h5 h7
    obtain ⟨el0, k1, _, k3⟩ := shown_index _ _ hsh j pool' comp' hst
    rw [h5] at k1
    obtain rfl : el' = el0 := by injection k1 with k1; injection k1
    have hf : f = b.fitness := by
      have hj' : (elitistFitness (st0.fit cfg c entropy raw false).trace)[j]? = some f := hj
      rw [hj'] at k3
      injection k3 with k3
      rw [k3, fitnessD_of el' b h6]
    refine ⟨b.error, b.complexity, r2Score raw.y o, ?_, ?_, ?_⟩
    · rw [hl0, List.nil_append, List.getElem?_append_left (by rw [h2']; exact hjl), h4, Nat.zero_add, hf]
    · intro hl
      rw [List.getLast?_eq_getElem?, show (loggedStates (st0.fit cfg c entropy raw false).trace).length - 1 = j by rw [hlen]; change fs.length - 1 = j; omega, hst] at hlast
      injection hlast with hlast
      injection hlast with e1 e2
      subst e1 e2
      rw [h5] at hel
      obtain rfl : el' = el := by injection hel with hel; injection hel
      rw [hout, h7] at hpred
      injection hpred with hpred
      rw [hpred]
    · intro m hm
      obtain ⟨_, _, e, _, _, he, hall, _⟩ := logRun_step c raw.X raw.y _ m hm j pool' comp' hst
      obtain ⟨el1, b1, o1, h8, h9, h10, rfl⟩ := elitistMetrics_spec _ _ _ _ _ _ _ _ he
      rw [h8] at h5
      obtain rfl : el1 = el' := by injection h5 with h5; injection h5
      rw [h9] at h6
      obtain rfl : b1 = b := by injection h6
      rw [h10] at h7
      obtain rfl : o1 = o := by injection h7
      exact ⟨hall (_, _) (by simp), hall (_, _) (by simp), hall ("training_score", r2Score raw.y o1) (by simp)⟩
  · dsimp only
    unfold stdoutInit
    cases progressBar with
    | false => simp
    | true => simp [hlen, fs]

/-- C109: where the default logger succeeds, so does the stdout logger. -/
theorem C109_succeeds (cfg : SupCfg K) (c : SupComp K d M) (hg : c.GoodStrategies) (entropy : Nat) (raw : RawData K d) (st0 : SupState K d M) (progressBar : Bool) (m : Metrics K)
    (hc : (st0.fit cfg c entropy raw false).Completed) (hm : logRun c raw.X raw.y (st0.fit cfg c entropy raw false).trace = .ok m) :
    ∃ s, stdoutRun cfg c entropy raw st0 progressBar = .ok s := by
  have hstep := logRun_step c raw.X raw.y _ m hm
  obtain ⟨_, _, hlast⟩ := C85_elitist cfg c hg entropy raw false st0 m hm
  obtain ⟨σ, a, out, _, _, hpred, _⟩ := hlast hc
  obtain ⟨ls, h1, _⟩ := stdout_iterAll c raw.X raw.y cfg.nIter (loggedStates (st0.fit cfg c entropy raw false).trace) 0 (stdoutInit progressBar ({ nIter := cfg.nIter } : LogView K d M)) (by
    intro q hq
    obtain ⟨j, hj⟩ := List.mem_iff_getElem?.mp hq
    obtain ⟨_, _, e, _, _, he, _⟩ := hstep j q.1 q.2 hj
    exact ⟨e, he⟩)
  unfold stdoutRun LoggerOps.run
  dsimp only
  have hinit : ∀ v : LogView K d M, (stdoutOps c raw.X raw.y).init progressBar v = .ok (stdoutInit progressBar v) := fun _ => rfl
  rw [hinit]
  dsimp only
  unfold iterationViews
  rw [h1]
  change ∃ s, stdoutFinal raw.y _ _ = .ok s
  unfold stdoutFinal
  dsimp only
  rw [hpred]
  exact ⟨_, rfl⟩

/-- C109: with the default components the stdout logger never makes training fail; without early stopping it prints exactly `n_iter` numbered messages and the final one. -/
theorem C109_default (cfg : SupCfg K) (es : ESCfg K) (ga : GACfg K) (k : Nat) (hs : DefaultSettings cfg es ga k) (sigma : K × K)
    (D : RunDraws K d M) (hD : D.Possible es ga k sigma) (L : Learner K d M) (ff : RuleFitness K d) (sf : Nat → SolFitness K) (entropy : Nat)
    (raw : RawData K d) (hraw : raw.finite = true ∧ raw.X.length = raw.y.length ∧ raw.X ≠ []) (st0 : SupState K d M)
    (hinit : cfg.nInitial = 0 ∨ st0.step < cfg.nIter) (progressBar : Bool) :
    let r := st0.fit cfg (defaultComp es ga D L ff sf) entropy raw false
    ∃ s out, stdoutRun cfg (defaultComp es ga D L ff sf) entropy raw st0 progressBar = .ok s ∧ r.state.predict (defaultComp es ga D L ff sf) raw.X = .ok out ∧
      s.lines.getLast? = some (.final (r2Score raw.y out)) ∧ s.lines.length ≤ cfg.nIter + 1 ∧
      (∀ j, j + 1 < s.lines.length → ∃ error fitness complexity score, s.lines[j]? = some (.statistics (j + 1) cfg.nIter error fitness complexity score) ∧
        (elitistFitness r.trace)[j]? = some fitness ∧ (j + 2 = s.lines.length → score = r2Score raw.y out)) ∧
      (cfg.patience ≤ 0 → s.lines.length = cfg.nIter + 1) := by
  intro r
  have hc : raw.check = .ok (raw.X, raw.y) := by unfold RawData.check; rw [if_pos hraw]
  obtain ⟨fb, hfb, _⟩ := estimateBounds_ok raw.X hraw.2.2
  obtain ⟨hcomp, _⟩ := default_result cfg es ga k hs sigma D hD L ff sf entropy raw hc false st0 hinit fb hfb
  obtain ⟨m, hm, _⟩ := C86_default_logging cfg es ga k hs sigma D hD L ff sf entropy raw hraw false st0 hinit
  obtain ⟨s, h1⟩ := C109_succeeds cfg _ (defaultComp_good es ga D L ff sf) entropy raw st0 progressBar m hcomp hm
  obtain ⟨out, h2, h4, h5, h6, h7, h8, _⟩ := C109_lines cfg _ (defaultComp_good es ga D L ff sf) entropy raw st0 progressBar hcomp s h1
  refine ⟨s, out, h1, h2, ?_, by omega, ?_, ?_⟩
  · rw [List.getLast?_eq_getElem?, h6]
    exact h7
  · intro j hj
    have hjl : j < (elitistFitness r.trace).length := by
      have : s.lines.length = (elitistFitness r.trace).length + 1 := h6
      omega
    obtain ⟨error, complexity, sc, h9, h10, _⟩ := h8 j _ (List.getElem?_eq_getElem hjl)
    refine ⟨error, _, complexity, sc, h9, List.getElem?_eq_getElem hjl, fun h => h10 ?_⟩
    rw [h6] at h
    omega
  · intro hp
    rw [h6, C50_disabled_partial _ _ _ _ _ _ hp hcomp]

/-- What is printed in the example run with two iterations, and how far the progress bar gets. -/
example : (match stdoutRun (demoCfg 2 3 2 (-1) 0) (demoComp fun _ _ c => c) 7 demoData {} true with
    | .ok s => (s.lines.map fun | .statistics i n _ f _ _ => (i, n, some f) | .final _ => (0, 0, none), s.bar)
    | .error _ => ([], none)) = ([(1, 2, some 5), (2, 2, some 7), (0, 0, none)], some (2, 2)) := by decide +kernel

/-- The hypotheses of `C109_default` hold for a small run. -/
example : ∃ s, stdoutRun smallCfg (defaultComp smallES smallGA (firstDraws 2 1 (1 / 2)) meanLearner negErr fun _ _ _ c => c) 7
    ⟨[![0], ![1], ![5]], [1, 3, 7], true⟩ {} false = .ok s :=
  let ⟨s, _, h, _⟩ := C109_default smallCfg smallES smallGA 2
    ⟨by decide, by decide, by decide, by decide, by decide, by decide, .inl rfl, by decide +kernel⟩ (1, 1) (firstDraws 2 1 (1 / 2))
    (firstDraws_possible _ rfl _ rfl _ _ _ (by norm_num) _) meanLearner negErr (fun _ _ _ c => c) 7 ⟨[![0], ![1], ![5]], [1, 3, 7], true⟩ (by simp) {} (.inl rfl) false
  ⟨s, h⟩

/-! ### C110 the warning about nested loggers -/

/-- C110: the warning never appears. -/
theorem C110_never_partial (loggers : List (String × LogObject)) : nestingWarning loggers = false := by
  unfold nestingWarning
  rw [List.any_eq_false]
  intro o ho
  obtain ⟨q, _, rfl⟩ := List.mem_map.mp ho
  simp [LogObject.isCombined]

/-- C110 is false: there is no warning, although a combined logger contains a combined logger. (Without nested loggers there is rightly none.) -/
theorem C110_refuted : ¬ ∀ loggers : List (String × LogObject), nestingWarning loggers = true ↔ ∃ q ∈ loggers, ∃ l, q.2 = .combined l := by
  intro h
  have := (h [("outer", .combined [.pair "inner" .plain])]).mpr ⟨_, List.mem_cons_self, _, rfl⟩
  rw [C110_never_partial] at this
  cases this

end Suprb
