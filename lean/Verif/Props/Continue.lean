import Verif.Props.Final
import Verif.Props.Fit

/-!
# C150, C151: longer and shorter runs of the same training

Two runs whose settings differ only in the number of iterations and in early stopping do the same until one of them ends.
-/

set_option autoImplicit false
set_option linter.unusedSectionVars false

namespace Suprb

open Spec

variable {K : Type} [Field K] [LinearOrder K] [IsStrictOrderedRing K] {d : Nat} {M : Type}

/-- The settings `cfg'` let a run go on at least as long as `cfg`: at least as many iterations, and an early stopping that is off or at least as patient. Nothing else differs. -/
structure LetsGoOn (cfg cfg' : SupCfg K) : Prop where
  iter : cfg.nIter ≤ cfg'.nIter
  initial : cfg'.nInitial = cfg.nInitial
  rules : cfg'.nRules = cfg.nRules
  comp : cfg'.comp = cfg.comp
  archive : cfg'.useArchive = cfg.useArchive
  patience : cfg'.patience ≤ 0 ∨ (0 < cfg.patience ∧ cfg.patience ≤ cfg'.patience ∧ cfg'.delta ≤ cfg.delta)

/-- Equal apart from the counter of early stopping, which is not larger. -/
structure SameRun (s s' : RunState K d M) : Prop where
  pool : s'.pool = s.pool
  comp : s'.comp = s.comp
  step : s'.step = s.step
  trace : s'.trace = s.trace

/-- `s'` comes after `s` in the same run. -/
structure Later (s s' : RunState K d M) : Prop where
  pool : s.pool <+: s'.pool
  trace : s.trace <+: s'.trace

theorem Later.refl (s : RunState K d M) : Later s s := ⟨List.prefix_refl _, List.prefix_refl _⟩

theorem Later.trans {s t u : RunState K d M} (h : Later s t) (h' : Later t u) : Later s u := ⟨h.pool.trans h'.pool, h.trace.trans h'.trace⟩

theorem SameRun.later {s s' : RunState K d M} (h : SameRun s s') : Later s s' := by
  refine ⟨?_, ?_⟩
  · rw [h.pool]
  · rw [h.trace]

theorem discoverStep_later (cfg : SupCfg K) (c : SupComp K d M) (entropy : Nat) (X : List (Point K d)) (y : List K) (n : Nat)
    (s s1 : RunState K d M) (r : Option PyErr) (h : discoverStep cfg c entropy X y n s = (s1, r)) : Later s s1 := by
  rcases discoverStep_spec _ _ _ _ _ _ _ _ _ h with ⟨rfl, _⟩ | ⟨el, seed, a1, _, _, ⟨_, _, _, rfl⟩ | ⟨_, _, _, rfl⟩⟩
  · exact .refl _
  · exact ⟨List.prefix_refl _, List.prefix_append _ _⟩
  · exact ⟨List.prefix_append _ _, List.prefix_append _ _⟩

theorem composeStep_later (cfg : SupCfg K) (c : SupComp K d M) (ev : PoolEval K d M) (entropy : Nat)
    (s s1 : RunState K d M) (r : Option PyErr) (h : composeStep cfg c ev entropy s = (s1, r)) : Later s s1 := by
  rcases composeStep_spec _ _ _ _ _ _ _ h with ⟨rfl, _⟩ | ⟨seed, _, ⟨_, _, _, rfl⟩ | ⟨_, _, _, rfl⟩⟩
  · exact .refl _
  · exact ⟨List.prefix_refl _, List.prefix_append _ _⟩
  · exact ⟨List.prefix_refl _, List.prefix_append _ _⟩

theorem iteration_later (cfg : SupCfg K) (c : SupComp K d M) (ev : PoolEval K d M) (entropy : Nat) (X : List (Point K d)) (y : List K)
    (k : Nat) (s s' : RunState K d M) (el : Indiv K) (h : Iteration cfg c ev entropy X y k s s' el) : Later s s' := by
  obtain ⟨s1, s2, h1, h2, _, rfl⟩ := h
  have a : Later s s1 := by
    have := discoverStep_later _ _ _ _ _ _ _ _ _ h1
    exact ⟨this.pool, this.trace⟩
  have b := a.trans (composeStep_later _ _ _ _ _ _ _ h2)
  exact ⟨b.pool, b.trace.trans (List.prefix_append _ _)⟩

/-- The loop only adds to pool and trace. -/
theorem fitLoop_later (cfg : SupCfg K) (c : SupComp K d M) (ev : PoolEval K d M) (entropy : Nat) (X : List (Point K d)) (y : List K)
    (ks : List Nat) (s : RunState K d M) : Later s (fitLoop cfg c ev entropy X y ks s).state := by
  refine fitLoop_ind cfg c ev entropy X y (fun _ t => Later s t) (fun o => Later s o.state) ?_ ?_ ?_ ?_ ?_ ?_ ks s (.refl s)
  · exact fun _ h => h
  · intro k rest t s1 e ht h1
    have := discoverStep_later _ _ _ _ _ _ _ _ _ h1
    exact ht.trans ⟨this.pool, this.trace⟩
  · intro k rest t s1 s2 e ht h1 h2
    have := discoverStep_later _ _ _ _ _ _ _ _ _ h1
    exact (ht.trans ⟨this.pool, this.trace⟩).trans (composeStep_later _ _ _ _ _ _ _ h2)
  · intro k rest t s1 s2 e ht h1 h2 _
    have := discoverStep_later _ _ _ _ _ _ _ _ _ h1
    exact (ht.trans ⟨this.pool, this.trace⟩).trans (composeStep_later _ _ _ _ _ _ _ h2)
  · intro k rest t t' el ht h _
    exact ht.trans (iteration_later _ _ _ _ _ _ _ _ _ _ h)
  · intro k rest t t' el ht h _
    exact ht.trans (iteration_later _ _ _ _ _ _ _ _ _ _ h)

/-- Rule discovery in both runs. -/
theorem discoverStep_same (cfg cfg' : SupCfg K) (hle : LetsGoOn cfg cfg') (c : SupComp K d M) (entropy : Nat) (X : List (Point K d)) (y : List K) (n : Nat)
    (s s' : RunState K d M) (hs : SameRun s s') (hk : s.step < cfg.nIter ∨ cfg'.nIter = cfg.nIter) :
    (discoverStep cfg' c entropy X y n s').2 = (discoverStep cfg c entropy X y n s).2 ∧
    SameRun (discoverStep cfg c entropy X y n s).1 (discoverStep cfg' c entropy X y n s').1 ∧
    (discoverStep cfg c entropy X y n s).1.counter = s.counter ∧ (discoverStep cfg' c entropy X y n s').1.counter = s'.counter ∧
    (discoverStep cfg c entropy X y n s).1.step = s.step := by
  obtain ⟨p, cm, ct, st, tr⟩ := s
  obtain ⟨p', cm', ct', st', tr'⟩ := s'
  obtain ⟨e1, e2, e3, e4⟩ := hs
  dsimp only at e1 e2 e3 e4 hk
  subst e1 e2 e3 e4
  unfold discoverStep
  by_cases hn : n = 0
  · rw [if_pos hn, if_pos hn]
    exact ⟨rfl, ⟨rfl, rfl, rfl, rfl⟩, rfl, rfl, rfl⟩
  · rw [if_neg hn, if_neg hn]
    dsimp only
    have hseed : (discoverySeeds entropy cfg'.nIter)[st']? = (discoverySeeds entropy cfg.nIter)[st']? := by
      rcases hk with hk | hk
      · rw [getElem?_discoverySeeds, getElem?_discoverySeeds, if_pos hk, if_pos (lt_of_lt_of_le hk hle.iter)]
      · rw [hk]
    rw [hseed]
    cases hel : cm'.elitist with
    | error e => exact ⟨rfl, ⟨rfl, rfl, rfl, rfl⟩, rfl, rfl, rfl⟩
    | ok el =>
      dsimp only
      cases (discoverySeeds entropy cfg.nIter)[st']? with
      | none => exact ⟨rfl, ⟨rfl, rfl, rfl, rfl⟩, rfl, rfl, rfl⟩
      | some seed =>
        dsimp only
        cases c.discover seed tr' el p' X y n with
        | error e => exact ⟨rfl, ⟨rfl, rfl, rfl, rfl⟩, rfl, rfl, rfl⟩
        | ok rules => exact ⟨rfl, ⟨rfl, rfl, rfl, rfl⟩, rfl, rfl, rfl⟩

/-- Composition in both runs. -/
theorem composeStep_same (cfg cfg' : SupCfg K) (hle : LetsGoOn cfg cfg') (c : SupComp K d M) (ev : PoolEval K d M) (entropy : Nat)
    (s s' : RunState K d M) (hs : SameRun s s') (hk : s.step < cfg.nIter) :
    (composeStep cfg' c ev entropy s').2 = (composeStep cfg c ev entropy s).2 ∧
    SameRun (composeStep cfg c ev entropy s).1 (composeStep cfg' c ev entropy s').1 ∧
    (composeStep cfg c ev entropy s).1.counter = s.counter ∧ (composeStep cfg' c ev entropy s').1.counter = s'.counter := by
  obtain ⟨p, cm, ct, st, tr⟩ := s
  obtain ⟨p', cm', ct', st', tr'⟩ := s'
  obtain ⟨e1, e2, e3, e4⟩ := hs
  dsimp only at e1 e2 e3 e4 hk
  subst e1 e2 e3 e4
  unfold composeStep
  dsimp only
  rw [getElem?_compositionSeeds, getElem?_compositionSeeds, if_pos hk, if_pos (lt_of_lt_of_le hk hle.iter), hle.comp]
  dsimp only
  cases compOptimize cfg.comp (c.initDraw ⟨entropy, [2 * st' + 1]⟩) (c.strategy ⟨entropy, [2 * st' + 1]⟩ tr') (ev p') p'.length cm' with
  | error e => exact ⟨rfl, ⟨rfl, rfl, rfl, rfl⟩, rfl, rfl⟩
  | ok cm => exact ⟨rfl, ⟨rfl, rfl, rfl, rfl⟩, rfl, rfl⟩

/-- A run that may go on longer does not stop earlier, and its counter is never larger. -/
theorem checkEarlyStopping_le (cfg cfg' : SupCfg K) (hle : LetsGoOn cfg cfg') (f : K) (n n' : Nat) (hn : 0 < cfg'.patience → n' ≤ n) :
    (0 < cfg'.patience → (checkEarlyStopping cfg' f n').1 ≤ (checkEarlyStopping cfg f n).1) ∧
    ((checkEarlyStopping cfg' f n').2 = true → (checkEarlyStopping cfg f n).2 = true) := by
  unfold checkEarlyStopping
  by_cases h' : 0 < cfg'.patience
  · rcases hle.patience with h | ⟨hp, hpp, hd⟩
    · omega
    rw [if_pos h', if_pos hp]
    have hn' := hn h'
    by_cases hf : cfg.delta < f - 0
    · rw [if_pos hf, if_pos (lt_of_le_of_lt hd hf)]
      exact ⟨fun _ => le_refl _, fun h => h⟩
    · rw [if_neg hf]
      by_cases hf' : cfg'.delta < f - 0
      · rw [if_pos hf']
        exact ⟨fun _ => Nat.zero_le _, fun h => absurd h (by simp)⟩
      · rw [if_neg hf']
        refine ⟨fun _ => Nat.succ_le_succ hn', fun h => ?_⟩
        dsimp only at h ⊢
        rw [decide_eq_true_eq] at h ⊢
        omega
  · rw [if_neg h']
    exact ⟨fun h => absurd h h', fun h => absurd h (by simp)⟩

/-- How the shorter run (first) relates to the longer one. -/
inductive CutOff : Outcome K d M → Outcome K d M → Prop
  | done {s : RunState K d M} {o : Outcome K d M} : Later s o.state → CutOff (.done s) o
  | caught {s s' : RunState K d M} : SameRun s s' → CutOff (.caught s) (.caught s')
  | raised {s s' : RunState K d M} {e : PyErr} : SameRun s s' → CutOff (.raised s e) (.raised s' e)

theorem fitLoop_cutOff (cfg cfg' : SupCfg K) (hle : LetsGoOn cfg cfg') (c : SupComp K d M) (ev : PoolEval K d M) (entropy : Nat) (X : List (Point K d))
    (y : List K) (ks ks' : List Nat) (hks : ∀ k ∈ ks, k < cfg.nIter) (s s' : RunState K d M) (hs : SameRun s s')
    (hn : 0 < cfg'.patience → s'.counter ≤ s.counter) :
    CutOff (fitLoop cfg c ev entropy X y ks s) (fitLoop cfg' c ev entropy X y (ks ++ ks') s') := by
  induction ks generalizing s s' with
  | nil => exact .done (hs.later.trans (fitLoop_later _ _ _ _ _ _ _ _))
  | cons k rest ih =>
    have hk := hks k (by simp)
    have hs0 : SameRun { s with step := k } { s' with step := k } := ⟨hs.pool, hs.comp, rfl, hs.trace⟩
    obtain ⟨d1, d2, d3, d4, d5⟩ := discoverStep_same cfg cfg' hle c entropy X y cfg.nRules { s with step := k } { s' with step := k } hs0 (.inl hk)
    rw [List.cons_append]
    unfold fitLoop
    rw [hle.rules]
    revert d1 d2 d3 d4 d5
    generalize discoverStep cfg c entropy X y cfg.nRules { s with step := k } = r1
    generalize discoverStep cfg' c entropy X y cfg.nRules { s' with step := k } = r1'
    obtain ⟨s1, x1⟩ := r1
    obtain ⟨s1', x1'⟩ := r1'
    intro d1 d2 d3 d4 d5
    dsimp only at d1 d2 d3 d4 d5
    subst d1
    cases x1' with
    | some e => exact .caught d2
    | none =>
      dsimp only
      obtain ⟨c1, c2, c3, c4⟩ := composeStep_same cfg cfg' hle c ev entropy s1 s1' d2 (by rw [d5]; exact hk)
      revert c1 c2 c3 c4
      generalize composeStep cfg c ev entropy s1 = r2
      generalize composeStep cfg' c ev entropy s1' = r2'
      obtain ⟨s2, x2⟩ := r2
      obtain ⟨s2', x2'⟩ := r2'
      intro c1 c2 c3 c4
      dsimp only at c1 c2 c3 c4
      subst c1
      cases x2' with
      | some e => exact .caught c2
      | none =>
        dsimp only
        rw [c2.comp]
        cases hel : s2.comp.elitist with
        | error e => exact .raised c2
        | ok oel =>
          cases oel with
          | none => exact .raised c2
          | some el =>
            dsimp only
            have hcount : 0 < cfg'.patience → s2'.counter ≤ s2.counter := by
              rw [c3, c4, d3, d4]; exact hn
            obtain ⟨t1, t2⟩ := checkEarlyStopping_le cfg cfg' hle el.fitnessD s2.counter s2'.counter hcount
            rw [c2.pool, c2.trace]
            have hnew : SameRun
                ({ s2 with counter := (checkEarlyStopping cfg el.fitnessD s2.counter).1, trace := s2.trace ++ [.composed s2.pool s2.comp el] } : RunState K d M)
                ⟨s2.pool, s2.comp, (checkEarlyStopping cfg' el.fitnessD s2'.counter).1, s2'.step, s2.trace ++ [.composed s2.pool s2.comp el]⟩ :=
              ⟨rfl, rfl, c2.step, rfl⟩
            by_cases hstop : (checkEarlyStopping cfg el.fitnessD s2.counter).2 = true
            · rw [if_pos hstop]
              by_cases hstop' : (checkEarlyStopping cfg' el.fitnessD s2'.counter).2 = true
              · rw [if_pos hstop']
                exact .done hnew.later
              · rw [if_neg hstop']
                exact .done (hnew.later.trans (fitLoop_later _ _ _ _ _ _ _ _))
            · rw [if_neg hstop, if_neg (fun h => hstop (t2 h))]
              exact ih (fun k' hk' => hks k' (by simp [hk'])) _ _ hnew t1

theorem range_split (n m : Nat) (h : n ≤ m) : ∃ l, List.range m = List.range n ++ l := by
  obtain ⟨k, rfl⟩ := Nat.exists_eq_add_of_le h
  exact ⟨_, List.range_add⟩

/-- Two runs on the same data. (A fresh estimator starts with step 0; with initial rules and without iterations the shorter run fails.) -/
theorem runFit_cutOff (cfg cfg' : SupCfg K) (hle : LetsGoOn cfg cfg') (c : SupComp K d M) (ev : PoolEval K d M) (entropy : Nat) (X : List (Point K d))
    (y : List K) (step0 : Nat) (h0 : 0 < cfg.nInitial → step0 < cfg.nIter ∨ cfg'.nIter = cfg.nIter) :
    CutOff (runFit cfg c ev entropy X y step0) (runFit cfg' c ev entropy X y step0) := by
  obtain ⟨l, hl⟩ := range_split _ _ hle.iter
  have hst : (startState cfg' step0 : RunState K d M) = startState cfg step0 := by
    unfold startState; rw [hle.archive]
  rw [runFit_eq, runFit_eq, hle.initial, hst, hl]
  have hsame : ∀ s : RunState K d M, SameRun s s := fun s => ⟨rfl, rfl, rfl, rfl⟩
  by_cases hpos : 0 < cfg.nInitial
  · rw [if_pos hpos, if_pos hpos]
    obtain ⟨d1, d2, d3, d4, d5⟩ := discoverStep_same cfg cfg' hle c entropy X y cfg.nInitial (startState cfg step0) (startState cfg step0) (hsame _) (h0 hpos)
    revert d1 d2 d3 d4 d5
    generalize discoverStep cfg c entropy X y cfg.nInitial (startState cfg step0) = r1
    generalize discoverStep cfg' c entropy X y cfg.nInitial (startState cfg step0) = r1'
    obtain ⟨s1, x1⟩ := r1
    obtain ⟨s1', x1'⟩ := r1'
    intro d1 d2 d3 d4 d5
    dsimp only at d1 d2 d3 d4 d5
    subst d1
    cases x1' with
    | some e => exact .caught d2
    | none => exact fitLoop_cutOff cfg cfg' hle c ev entropy X y _ _ (fun k hk => List.mem_range.mp hk) _ _ d2 (fun _ => by rw [d3, d4])
  · rw [if_neg hpos, if_neg hpos]
    exact fitLoop_cutOff cfg cfg' hle c ev entropy X y _ _ (fun k hk => List.mem_range.mp hk) _ _ (hsame _) (fun _ => le_refl _)

theorem CutOff.later {o o' : Outcome K d M} (h : CutOff o o') : Later o.state o'.state := by
  cases h with
  | done h => exact h
  | caught h => exact h.later
  | raised h => exact h.later

/-- The second training begins with the first: its calls, pools, populations and best solutions are the beginning of those of the second, the rules found in the first are the
first rules of the second, and a training that fails makes the second fail at the same point. -/
structure Begins (r r' : FitResult K d M) : Prop where
  trace : r.trace <+: r'.trace
  pool : r.state.pool <+: r'.state.pool
  failed : r.state.isError = true → r'.state.isError = true ∧ r'.trace = r.trace

theorem finishFit_isError (st : SupState K d M) (cl : Bool) (s : RunState K d M) : (finishFit st cl s).state.isError = st.isError := by
  unfold finishFit
  split
  · rfl
  · rfl
  · split
    · rfl
    · dsimp only
      split
      · split <;> rfl
      · rfl

theorem fitWith_begins (cfg cfg' : SupCfg K) (hle : LetsGoOn cfg cfg') (c : SupComp K d M) (ev : List (Point K d) → List K → PoolEval K d M) (entropy : Nat)
    (raw : RawData K d) (st0 : SupState K d M) (h0 : 0 < cfg.nInitial → st0.step < cfg.nIter ∨ cfg'.nIter = cfg.nIter) :
    Begins (st0.fitWith cfg c ev entropy raw false) (st0.fitWith cfg' c ev entropy raw false) := by
  rcases fitWith_trace cfg c ev entropy raw false st0 with ⟨hc, h1⟩ | ⟨hc, h1⟩
  · rcases fitWith_trace cfg' c ev entropy raw false st0 with ⟨_, h2⟩ | ⟨hc', _⟩
    · rw [h1, h2]
      exact ⟨List.prefix_refl _, List.prefix_refl _, fun h => ⟨h, rfl⟩⟩
    · rw [hc] at hc'; cases hc'
  · rcases fitWith_trace cfg' c ev entropy raw false st0 with ⟨hc', _⟩ | ⟨_, h2⟩
    · rw [hc] at hc'; cases hc'
    have hcut := runFit_cutOff cfg cfg' hle c (ev raw.X raw.y) entropy raw.X raw.y st0.step h0
    refine ⟨?_, ?_, ?_⟩
    · rw [h1, h2]; exact hcut.later.trace
    · rw [fitWith_pool _ _ _ _ _ _ hc, fitWith_pool _ _ _ _ _ _ hc]; exact hcut.later.pool
    · intro herr
      rw [h1, h2]
      unfold SupState.fitWith at herr ⊢
      rw [hc] at herr ⊢
      dsimp only at herr ⊢
      revert herr
      revert hcut
      generalize runFit cfg c (ev raw.X raw.y) entropy raw.X raw.y st0.step = o
      generalize runFit cfg' c (ev raw.X raw.y) entropy raw.X raw.y st0.step = o'
      intro hcut
      cases hcut with
      | done h => intro herr; dsimp only at herr; rw [finishFit_isError] at herr; cases herr
      | caught h => exact fun _ => ⟨rfl, h.trace⟩
      | raised h => intro herr; cases herr

/-! ### C150 longer training -/

/-- C150 for every fitness of solutions that does not depend on the largest possible number of rules (such as `PseudoBIC`): training with more iterations begins with exactly the iterations of
the training with fewer. (Missing: the complexity based fitnesses, for which it is false, see `C150_refuted`.) -/
theorem C150_continues_partial (cfg : SupCfg K) (n' : Nat) (hn : cfg.nIter ≤ n') (c : SupComp K d M) (hm : ∀ m m', c.fitness m = c.fitness m') (entropy : Nat)
    (raw : RawData K d) (st0 : SupState K d M) (h0 : cfg.nInitial = 0 ∨ st0.step < cfg.nIter) :
    Begins (st0.fit cfg c entropy raw false) (st0.fit { cfg with nIter := n' } c entropy raw false) := by
  have hev : runEval { cfg with nIter := n' } c = runEval cfg c := by
    funext X y pool
    unfold runEval
    rw [hm]
  unfold SupState.fit
  rw [hev]
  refine fitWith_begins cfg { cfg with nIter := n' } ⟨hn, rfl, rfl, rfl, rfl, ?_⟩ c _ entropy raw st0 (fun h => .inl (h0.resolve_left (by omega)))
  by_cases hp : 0 < cfg.patience
  · exact .inr ⟨hp, le_refl _, le_refl _⟩
  · exact .inl (by simpa using hp)

/-- C150: hence, with the elitist archive and a fitness of error and complexity only, a longer training that completes ends with a solution at least as good as the best of the shorter one. -/
theorem C150_fitness_partial (cfg : SupCfg K) (n' : Nat) (hn : cfg.nIter ≤ n') (c : SupComp K d M) (hg : c.GoodStrategies) (harch : cfg.useArchive = true)
    (hm : ∀ m m' e n k cx, c.fitness m e n cx = c.fitness m' e k cx) (entropy : Nat) (raw : RawData K d) (st0 : SupState K d M)
    (h0 : cfg.nInitial = 0 ∨ st0.step < cfg.nIter) (h : (st0.fit { cfg with nIter := n' } c entropy raw false).Completed) :
    ∃ σ s, (st0.fit { cfg with nIter := n' } c entropy raw false).state.elitist = some (.solution σ) ∧ σ.st = some s ∧
      ∀ f, ElitistOf (st0.fit cfg c entropy raw false).trace f → f ≤ s.fitness := by
  have hb := C150_continues_partial cfg n' hn c (fun m m' => by funext e n cx; exact hm m m' e n n cx) entropy raw st0 h0
  obtain ⟨σ, s, h1, h2, _, h4⟩ := C101_all_iterations { cfg with nIter := n' } c hg harch (fun m e n k cx => hm m m e n k cx) entropy raw false st0 h
  refine ⟨σ, s, h1, h2, fun f hf => h4 f ?_⟩
  obtain ⟨pool, comp, el, hmem, hfit⟩ := hf
  exact ⟨pool, comp, el, hb.trace.subset hmem, hfit⟩

/-! ### C151 early stopping only cuts off -/

/-- C151: with early stopping, the training is the one without (or with more patience, or a smaller delta), cut off. -/
theorem C151_cut_off (cfg : SupCfg K) (p' : Int) (delta' : K) (hp : p' ≤ 0 ∨ (0 < cfg.patience ∧ cfg.patience ≤ p' ∧ delta' ≤ cfg.delta)) (c : SupComp K d M)
    (entropy : Nat) (raw : RawData K d) (st0 : SupState K d M) :
    Begins (st0.fit cfg c entropy raw false) (st0.fit { cfg with patience := p', delta := delta' } c entropy raw false) := by
  unfold SupState.fit
  exact fitWith_begins cfg { cfg with patience := p', delta := delta' } ⟨le_refl _, rfl, rfl, rfl, rfl, hp⟩ c _ entropy raw st0 (fun _ => .inr rfl)

/-- C151: what early stopping can cost. With the elitist archive and a fitness of error and complexity only (both complexity based fitnesses), the training without early stopping ends, if it
completes, with a solution at least as good as every best solution of the training with early stopping. -/
theorem C151_fitness (cfg : SupCfg K) (p' : Int) (delta' : K) (hp : p' ≤ 0 ∨ (0 < cfg.patience ∧ cfg.patience ≤ p' ∧ delta' ≤ cfg.delta)) (c : SupComp K d M)
    (hg : c.GoodStrategies) (harch : cfg.useArchive = true) (hsf : ∀ m e n n' cx, c.fitness m e n cx = c.fitness m e n' cx) (entropy : Nat) (raw : RawData K d)
    (st0 : SupState K d M)
    (h : (st0.fit { cfg with patience := p', delta := delta' } c entropy raw false).Completed) :
    ∃ σ s, (st0.fit { cfg with patience := p', delta := delta' } c entropy raw false).state.elitist = some (.solution σ) ∧ σ.st = some s ∧
      ∀ f, ElitistOf (st0.fit cfg c entropy raw false).trace f → f ≤ s.fitness := by
  have hb := C151_cut_off cfg p' delta' hp c entropy raw st0
  obtain ⟨σ, s, h1, h2, _, h4⟩ := C101_all_iterations { cfg with patience := p', delta := delta' } c hg harch hsf entropy raw false st0 h
  refine ⟨σ, s, h1, h2, fun f hf => h4 f ?_⟩
  obtain ⟨pool, comp, el, hmem, hfit⟩ := hf
  exact ⟨pool, comp, el, hb.trace.subset hmem, hfit⟩

/-- Runs the theorems speak about: one of two iterations, its continuation to three, and the one that early stopping cuts off after two. -/
example :
    let c := demoComp fun _ _ c => (c : ℚ) - 10
    let r2 := SupState.fit (demoCfg 2 0 1 (-1) 0) c 7 demoData false {}
    let r3 := SupState.fit (demoCfg 3 0 1 (-1) 0) c 7 demoData false {}
    let rs := SupState.fit (demoCfg 3 0 1 2 0) c 7 demoData false {}
    (r2.raised = none ∧ r2.state.isError = false) ∧ (r3.raised = none ∧ r3.state.isError = false) ∧ (rs.raised = none ∧ rs.state.isError = false) ∧
      elitistFitness r2.trace = [-9, -8] ∧ elitistFitness r3.trace = [-9, -8, -7] ∧ elitistFitness rs.trace = [-9, -8] := by
  decide +kernel

/-! ### C150 is false with the default fitness -/

/-- Rules that match one of the two samples 0 and 1 each, with the targets 1 and 3. -/
noncomputable def firstOnly : Rule ℝ 1 ℝ :=
  { kind := .ordered, bounds := ![(0, 0)], inputSpace := ![(0, 1)], model := some 1
    st := some ⟨true, ((1 / 10000 : ℝ) : WithTop ℝ), ((1 : ℝ) : WithBot ℝ), 1, [1], [true, false]⟩ }

noncomputable def secondOnly : Rule ℝ 1 ℝ :=
  { kind := .ordered, bounds := ![(1, 1)], inputSpace := ![(0, 1)], model := some 3
    st := some ⟨true, ((1 / 10000 : ℝ) : WithTop ℝ), ((1 : ℝ) : WithBot ℝ), 1, [3], [false, true]⟩ }

noncomputable def twoSamples : RawData ℝ 1 := { X := [![0], ![1]], y := [1, 3] }

/-- Rule discovery finds the two rules, the first population consists of the solution with both rules and the one with the first rule only. Fitness is `ComplexityWu` with its default weight
(suprb/solution/fitness.py:56). -/
noncomputable def twoRules : SupComp ℝ 1 ℝ where
  discover := fun _ _ _ _ _ _ _ => .ok [firstOnly, secondOnly]
  strategy := fun _ _ => gaOptimize ⟨1, 0, 0, 0⟩ []
  initDraw := fun _ k i => if k = 1 ∧ i = 1 then 1 else 0
  learner := ⟨fun _ y => y.sum / (y.length : ℝ), fun c _ => c⟩
  mix := ⟨.plain, 1⟩
  filter := filterAll
  fitness := complexitySolFitness .wu (3 / 10)

noncomputable def twoRulesCfg (nIter : Nat) : SupCfg ℝ :=
  { nIter := nIter, nInitial := 0, nRules := 2, patience := -1, delta := 0, comp := ⟨2, true, .random (1 / 2)⟩, useArchive := true }

/-- Genome of the best solution after the first iteration. -/
def firstBest (t : List (Event K d M)) : Option (List Bool) := (t.filterMap fun
  | .composed _ _ el => some el.genome
  | _ => none).head?

theorem firstBest_prefix {t t' : List (Event K d M)} (h : t <+: t') (g : List Bool) (hg : firstBest t = some g) : firstBest t' = some g := by
  obtain ⟨u, rfl⟩ := h
  unfold firstBest at *
  rw [List.filterMap_append, List.head?_append, hg]
  rfl

theorem twoRules_both (n : Nat) : runEval (twoRulesCfg n) twoRules twoSamples.X twoSamples.y [firstOnly, secondOnly] [true, true] =
    .ok ⟨1 / 10000, 2, 2, complexitySolFitness .wu (3 / 10) (2 * n) (1 / 10000) 2 2⟩ := by
  have hp : Solution.predict twoRules.learner twoRules.mix twoRules.filter true
      { genome := [true, true], pool := [firstOnly, secondOnly] } twoSamples.X = .ok [1, 3] := by
    simp [Solution.predict, Solution.subpopulation, compress, mixing, mixRules, quotients, twoRules, filterAll, Rule.localPred, Rule.tau, firstOnly, secondOnly, twoSamples,
      scatter, colSum, invError, ExpCalc.value, bind, Except.bind, pure, Except.pure]
  unfold runEval evalGenome Solution.fit
  rw [hp]
  simp [twoSamples, mse, errorFloor, twoRules, SupCfg.maxGenomeLength, twoRulesCfg]

theorem twoRules_first (n : Nat) : runEval (twoRulesCfg n) twoRules twoSamples.X twoSamples.y [firstOnly, secondOnly] [true, false] =
    .ok ⟨9 / 2, 2, 1, complexitySolFitness .wu (3 / 10) (2 * n) (9 / 2) 2 1⟩ := by
  have hp : Solution.predict twoRules.learner twoRules.mix twoRules.filter true
      { genome := [true, false], pool := [firstOnly, secondOnly] } twoSamples.X = .ok [1, 0] := by
    simp [Solution.predict, Solution.subpopulation, compress, mixing, mixRules, quotients, twoRules, filterAll, Rule.localPred, Rule.tau, firstOnly, secondOnly, twoSamples,
      scatter, colSum, invError, ExpCalc.value, bind, Except.bind, pure, Except.pure]
  have hmax : max ((3 : ℝ) ^ 2 / 2) (10000 : ℝ)⁻¹ = 9 / 2 := by norm_num
  unfold runEval evalGenome Solution.fit
  rw [hp]
  simp [twoSamples, mse, errorFloor, twoRules, SupCfg.maxGenomeLength, twoRulesCfg, hmax]

theorem wu_value (m : Nat) (e : ℝ) (k cx : Nat) (hm : m ≠ 0) (h : (3 / 10 : ℝ) ^ 2 * Real.exp (-2 * e) + (1 - (cx : ℝ) / (m : ℝ)) ≠ 0) :
    complexitySolFitness .wu (3 / 10) m e k cx =
      (1 + (3 / 10 : ℝ) ^ 2) * Real.exp (-2 * e) * (1 - (cx : ℝ) / (m : ℝ)) / ((3 / 10 : ℝ) ^ 2 * Real.exp (-2 * e) + (1 - (cx : ℝ) / (m : ℝ))) * 100 := by
  have hc : complexityFitness .wu (3 / 10) m e cx = .ok (some ((1 + (3 / 10 : ℝ) ^ 2) * Real.exp (-2 * e) * (1 - (cx : ℝ) / (m : ℝ)) /
      ((3 / 10 : ℝ) ^ 2 * Real.exp (-2 * e) + (1 - (cx : ℝ) / (m : ℝ))) * 100)) := by
    unfold complexityFitness pseudoAccuracy cNorm Combine.apply wu
    rw [if_pos (by norm_num), if_neg hm]
    simp only [bind, Except.bind, pure, Except.pure, if_neg h, Option.map_some]
  unfold complexitySolFitness
  rw [hc]

/-- With room for two rules the complexity of both rules costs everything. -/
theorem twoRules_short : complexitySolFitness .wu (3 / 10) (2 * 1) (1 / 10000) 2 2 < complexitySolFitness .wu (3 / 10) (2 * 1) (9 / 2) 2 1 := by
  have hx : 0 < Real.exp (-2 * (9 / 2)) := Real.exp_pos _
  have hx' : 0 < Real.exp (-2 * (1 / 10000)) := Real.exp_pos _
  rw [wu_value _ _ _ _ (by norm_num) (by norm_num), wu_value _ _ _ _ (by norm_num) (by norm_num; positivity)]
  norm_num
  positivity

/-- With room for four rules the error decides. -/
theorem twoRules_long : complexitySolFitness .wu (3 / 10) (2 * 2) (9 / 2) 2 1 < complexitySolFitness .wu (3 / 10) (2 * 2) (1 / 10000) 2 2 := by
  have hx : 0 < Real.exp (-2 * (9 / 2)) := Real.exp_pos _
  have hx' : 0 < Real.exp (-2 * (1 / 10000)) := Real.exp_pos _
  have hbig : 9998 / 10000 ≤ Real.exp (-2 * (1 / 10000)) := by
    have := Real.add_one_le_exp (-2 * (1 / 10000) : ℝ)
    linarith
  have hsmall : Real.exp (-2 * (9 / 2)) ≤ 1 / 10 := by
    have h9 := Real.add_one_le_exp (9 : ℝ)
    have : Real.exp (-2 * (9 / 2)) = (Real.exp 9)⁻¹ := by rw [← Real.exp_neg]; norm_num
    rw [this, inv_eq_one_div]
    exact one_div_le_one_div_of_le (by norm_num) (by linarith)
  rw [wu_value _ _ _ _ (by norm_num) (by norm_num; positivity), wu_value _ _ _ _ (by norm_num) (by norm_num; positivity)]
  revert hx hx' hbig hsmall
  generalize Real.exp (-2 * (9 / 2)) = a
  generalize Real.exp (-2 * (1 / 10000)) = b
  intro hx hx' hbig hsmall
  refine mul_lt_mul_of_pos_right ?_ (by norm_num)
  rw [div_lt_div_iff₀ (by norm_num; positivity) (by norm_num; positivity)]
  norm_num
  nlinarith [mul_pos hx hx']

/-- The first iteration: the best of the two solutions is the elitist. -/
theorem twoRules_loop (n : Nat) (g : List Bool)
    (hg : (complexitySolFitness .wu (3 / 10) (2 * (n + 1)) (1 / 10000) 2 2 < complexitySolFitness .wu (3 / 10) (2 * (n + 1)) (9 / 2) 2 1 ∧ g = [true, false]) ∨
      (complexitySolFitness .wu (3 / 10) (2 * (n + 1)) (9 / 2) 2 1 < complexitySolFitness .wu (3 / 10) (2 * (n + 1)) (1 / 10000) 2 2 ∧ g = [true, true])) :
    firstBest (SupState.fit (twoRulesCfg (n + 1)) twoRules 7 twoSamples false {}).trace = some g := by
  have hA := twoRules_both (n + 1)
  have hB := twoRules_first (n + 1)
  have hd : discoverStep (twoRulesCfg (n + 1)) twoRules 7 twoSamples.X twoSamples.y 2 { (startState (twoRulesCfg (n + 1)) 0 : RunState ℝ 1 ℝ) with step := 0 } =
      (⟨[firstOnly, secondOnly], ⟨none, some []⟩, 0, 0, [.discover ⟨7, [0]⟩ none [] 2]⟩, none) := by
    unfold discoverStep
    rw [if_neg (by norm_num), getElem?_discoverySeeds]
    simp [startState, CompState.elitist, twoRulesCfg, twoRules]
  have hpop : initPopulation (twoRulesCfg (n + 1)).comp (twoRules.initDraw ⟨7, [1]⟩) 2 none = .ok [{ genome := [true, true] }, { genome := [true, false] }] := by
    simp [initPopulation, twoRulesCfg, twoRules, InitOp.make, InitOp.bits, randomBits, List.range_succ]
    norm_num
  set ev := runEval (twoRulesCfg (n + 1)) twoRules twoSamples.X twoSamples.y [firstOnly, secondOnly] with hev
  set fA := complexitySolFitness .wu (3 / 10) (2 * (n + 1)) (1 / 10000) 2 2 with hfA
  set fB := complexitySolFitness .wu (3 / 10) (2 * (n + 1)) (9 / 2) 2 1 with hfB
  have hfitA : Indiv.fit ev { genome := [true, true] } = .ok ⟨[true, true], some ⟨1 / 10000, 2, 2, fA⟩⟩ := by
    unfold Indiv.fit; rw [hA]
  have hfitB : Indiv.fit ev { genome := [true, false] } = .ok ⟨[true, false], some ⟨9 / 2, 2, 1, fB⟩⟩ := by
    unfold Indiv.fit; rw [hB]
  have hfitA' : Indiv.fit ev ⟨[true, true], some ⟨1 / 10000, 2, 2, fA⟩⟩ = .ok ⟨[true, true], some ⟨1 / 10000, 2, 2, fA⟩⟩ := by
    unfold Indiv.fit; rw [hA]
  have hfitB' : Indiv.fit ev ⟨[true, false], some ⟨9 / 2, 2, 1, fB⟩⟩ = .ok ⟨[true, false], some ⟨9 / 2, 2, 1, fB⟩⟩ := by
    unfold Indiv.fit; rw [hB]
  obtain ⟨cm, el, hopt, hel, helg⟩ : ∃ (cm : CompState ℝ) (el : Indiv ℝ),
      compOptimize (twoRulesCfg (n + 1)).comp (twoRules.initDraw ⟨7, [1]⟩) (twoRules.strategy ⟨7, [1]⟩ [.discover ⟨7, [0]⟩ none [] 2]) ev 2 ⟨none, some []⟩ = .ok cm ∧
      cm.elitist = .ok (some el) ∧ el.genome = g := by
    have hstrat : twoRules.strategy ⟨7, [1]⟩ [.discover ⟨7, [0]⟩ none [] 2] = gaOptimize ⟨1, 0, 0, 0⟩ [] := rfl
    rcases hg with ⟨hlt, rfl⟩ | ⟨hlt, rfl⟩
    · refine ⟨⟨some [⟨[true, true], some ⟨1 / 10000, 2, 2, fA⟩⟩, ⟨[true, false], some ⟨9 / 2, 2, 1, fB⟩⟩], some [⟨[true, false], some ⟨9 / 2, 2, 1, fB⟩⟩]⟩,
        ⟨[true, false], some ⟨9 / 2, 2, 1, fB⟩⟩, ?_, ?_, rfl⟩
      · rw [compOptimize_eq, hstrat]
        dsimp only
        rw [hpop]
        simp [archivePrepare, archivePad, fitAll, popStep, gaOptimize, gaLoop, hfitA, hfitB, archiveStore, archiveUpdate, fittestIndiv, allFitted, pyMax, Indiv.fitnessD,
          hlt, Indiv.clone, hfitB', bind, Except.bind, pure, Except.pure]
      · simp [CompState.elitist, fittestIndiv, allFitted, pyMax, Indiv.fitnessD, hlt]
    · refine ⟨⟨some [⟨[true, true], some ⟨1 / 10000, 2, 2, fA⟩⟩, ⟨[true, false], some ⟨9 / 2, 2, 1, fB⟩⟩], some [⟨[true, true], some ⟨1 / 10000, 2, 2, fA⟩⟩]⟩,
        ⟨[true, true], some ⟨1 / 10000, 2, 2, fA⟩⟩, ?_, ?_, rfl⟩
      · rw [compOptimize_eq, hstrat]
        dsimp only
        rw [hpop]
        rw [one_div] at hfitA'
        simp [archivePrepare, archivePad, fitAll, popStep, gaOptimize, gaLoop, hfitA, hfitB, archiveStore, archiveUpdate, fittestIndiv, allFitted, pyMax, Indiv.fitnessD,
          hlt.not_gt, Indiv.clone, hfitA', bind, Except.bind, pure, Except.pure]
      · simp [CompState.elitist, fittestIndiv, allFitted, pyMax, Indiv.fitnessD, hlt.not_gt]
  have hc : composeStep (twoRulesCfg (n + 1)) twoRules (runEval (twoRulesCfg (n + 1)) twoRules twoSamples.X twoSamples.y) 7
      ⟨[firstOnly, secondOnly], ⟨none, some []⟩, 0, 0, [.discover ⟨7, [0]⟩ none [] 2]⟩ =
      (⟨[firstOnly, secondOnly], cm, 0, 0, [.discover ⟨7, [0]⟩ none [] 2, .compose ⟨7, [1]⟩ [firstOnly, secondOnly] ⟨none, some []⟩]⟩, none) := by
    unfold composeStep
    rw [getElem?_compositionSeeds]
    dsimp only
    rw [if_pos (by simp [twoRulesCfg])]
    dsimp only [List.length]
    rw [hopt]
    rfl
  have hcheck : twoSamples.check = .ok (twoSamples.X, twoSamples.y) := by
    unfold RawData.check
    rw [if_pos (by simp [twoSamples])]
  rcases fitWith_trace (twoRulesCfg (n + 1)) twoRules (runEval (twoRulesCfg (n + 1)) twoRules) 7 twoSamples false {} with ⟨h, _⟩ | ⟨_, h⟩
  · rw [hcheck] at h; cases h
  unfold SupState.fit
  rw [h]
  have hloop : ∃ rest, runFit (twoRulesCfg (n + 1)) twoRules (runEval (twoRulesCfg (n + 1)) twoRules twoSamples.X twoSamples.y) 7 twoSamples.X twoSamples.y 0 =
      fitLoop (twoRulesCfg (n + 1)) twoRules (runEval (twoRulesCfg (n + 1)) twoRules twoSamples.X twoSamples.y) 7 twoSamples.X twoSamples.y rest
        ⟨[firstOnly, secondOnly], cm, 0, 0, [.discover ⟨7, [0]⟩ none [] 2, .compose ⟨7, [1]⟩ [firstOnly, secondOnly] ⟨none, some []⟩,
          .composed [firstOnly, secondOnly] cm el]⟩ := by
    refine ⟨List.map Nat.succ (List.range n), ?_⟩
    rw [runFit_eq, if_neg (by simp [twoRulesCfg])]
    have hr : List.range (twoRulesCfg (n + 1)).nIter = 0 :: List.map Nat.succ (List.range n) := List.range_succ_eq_map
    rw [hr, fitLoop]
    have hnr : (twoRulesCfg (n + 1)).nRules = 2 := rfl
    rw [hnr, hd]
    dsimp only
    rw [hc]
    dsimp only
    rw [hel]
    dsimp only
    have hcs : checkEarlyStopping (twoRulesCfg (n + 1)) el.fitnessD 0 = (0, false) := by
      unfold checkEarlyStopping
      rw [if_neg (by simp [twoRulesCfg])]
    rw [hcs]
    simp
  obtain ⟨rest, hrest⟩ := hloop
  have hstep : ({} : SupState ℝ 1 ℝ).step = 0 := rfl
  rw [hstep, hrest]
  refine firstBest_prefix (fitLoop_later _ _ _ _ _ _ _ _).trace g ?_
  simp [firstBest, helg]

/-- C150 is false for the default fitness `ComplexityWu`: its complexity term is relative to the number of rules the whole training could find, so with two iterations instead of one
(nothing else changed) already the best solution of the first iteration is another one. -/
theorem C150_refuted :
    firstBest (SupState.fit (twoRulesCfg 1) twoRules 7 twoSamples false {}).trace = some [true, false] ∧
    firstBest (SupState.fit (twoRulesCfg 2) twoRules 7 twoSamples false {}).trace = some [true, true] ∧
    ¬ Begins (SupState.fit (twoRulesCfg 1) twoRules 7 twoSamples false {}) (SupState.fit (twoRulesCfg 2) twoRules 7 twoSamples false {}) := by
  have h1 := twoRules_loop 0 [true, false] (.inl ⟨twoRules_short, rfl⟩)
  have h2 := twoRules_loop 1 [true, true] (.inr ⟨twoRules_long, rfl⟩)
  refine ⟨h1, h2, fun h => ?_⟩
  have := firstBest_prefix h.trace _ h1
  rw [h2] at this
  simp at this

end Suprb
