import Verif.Props.Strategies

/-!
# Claim C103: whole runs with saga2, which needs as many solutions as elitists, and with the bee colony, which needs positive fitness values
-/

set_option autoImplicit false
set_option linter.unusedSectionVars false

namespace Suprb

open Spec

section Enough

variable {K : Type} [Field K] [LinearOrder K] [IsStrictOrderedRing K] {d : Nat} {M : Type}

/-- A metaheuristic that does not fail on `m` solutions or more when evaluations do not fail. -/
def Strategy.TotalFrom (m : Nat) (strat : Strategy K) : Prop :=
  ∀ n ev pop, n ≠ 0 → AllLen n pop → pop ≠ [] → m ≤ pop.length → (∀ g : List Bool, g.length = n → ∃ s, ev g = .ok s) → ∃ pop', strat n ev pop = .ok pop' ∧ pop' ≠ []

/-- A metaheuristic that returns at least `m` solutions if it got as many. -/
def Strategy.KeepsAtLeast (m : Nat) (strat : Strategy K) : Prop :=
  ∀ n ev pop pop', m ≤ pop.length → strat n ev pop = .ok pop' → m ≤ pop'.length

/-- A helper of the proofs: the same metaheuristic, except that smaller populations are only evaluated. -/
def Strategy.guarded (m : Nat) (strat : Strategy K) : Strategy K := fun n ev pop => if m ≤ pop.length then strat n ev pop else fitAll ev pop

theorem guarded_good (m : Nat) (strat : Strategy K) (h : strat.Good) : (strat.guarded m).Good where
  lens := by
    intro n ev pop pop' hl hr
    unfold Strategy.guarded at hr
    split at hr
    · exact h.lens n ev pop pop' hl hr
    · intro σ hσ
      have h1 := (fitAll_spec ev pop pop' hr).1
      have h2 : σ.genome ∈ pop.map Indiv.genome := h1 ▸ List.mem_map_of_mem hσ
      obtain ⟨τ, hτ, he⟩ := List.mem_map.mp h2
      rw [← he]
      exact hl τ hτ
  evaluated := by
    intro n ev pop pop' hl hr
    unfold Strategy.guarded at hr
    split at hr
    · exact h.evaluated n ev pop pop' hl hr
    · exact (fitAll_spec ev pop pop' hr).2
  local_ := by
    intro n ev ev' pop hl he
    unfold Strategy.guarded
    split
    · exact h.local_ n ev ev' pop hl he
    · exact fitAll_congr ev ev' pop fun σ hσ => he _ (hl σ hσ)

theorem guarded_total (m : Nat) (strat : Strategy K) (h : strat.TotalFrom m) : (strat.guarded m).Total := by
  intro n ev pop hn hl hne hev
  unfold Strategy.guarded
  split
  · rename_i hm
    exact h n ev pop hn hl hne hm hev
  · obtain ⟨pop', hp⟩ := fitAll_total ev n hev pop hl
    refine ⟨pop', hp, ?_⟩
    have h1 := congrArg List.length (fitAll_spec ev pop pop' hp).1
    rw [List.length_map, List.length_map] at h1
    exact ne_nil_of_length h1 hne

/-- The size of the population with which the next call of the composition starts. -/
def EnoughNext (cfg : CompCfg K) (m : Nat) (s : CompState K) : Prop :=
  cfg.warmStart = true → ∀ p, s.population = some p → p ≠ [] → m ≤ p.length

theorem initPopulation_enough (cfg : CompCfg K) (m : Nat) (hm : m ≤ cfg.populationSize) (draw : Nat → Nat → K) (n : Nat) (s : CompState K) (hs : EnoughNext cfg m s)
    (pop : List (Indiv K)) (h : initPopulation cfg draw n s.population = .ok pop) : m ≤ pop.length := by
  unfold initPopulation at h
  split at h
  · rename_i σ rest hp
    split at h
    · rename_i hw
      have := mapM_length _ _ _ h
      rw [List.length_zipIdx] at this
      rw [this]
      exact hs hw _ hp (by simp)
    · cases h; simpa using hm
  · cases h; simpa using hm

/-- With enough solutions at the start, the composition does the same as the guarded one, and afterwards there are enough again unless the pool was empty. -/
theorem compOptimize_guarded (cfg : CompCfg K) (m : Nat) (hm : m ≤ cfg.populationSize) (draw : Nat → Nat → K) (strat : Strategy K) (hk : strat.KeepsAtLeast m) (ev : Eval K) (n : Nat)
    (s : CompState K) (hs : EnoughNext cfg m s) :
    compOptimize cfg draw strat ev n s = compOptimize cfg draw (strat.guarded m) ev n s ∧
    ∀ s', compOptimize cfg draw strat ev n s = .ok s' → (cfg.warmStart = false ∨ m ≤ 1 ∨ n ≠ 0) → EnoughNext cfg m s' := by
  rw [compOptimize_eq, compOptimize_eq]
  cases hi : initPopulation cfg draw n s.population with
  | error e => exact ⟨rfl, fun s' h => nomatch h⟩
  | ok pop =>
    have hpop := initPopulation_enough cfg m hm draw n s hs pop hi
    have he : popStep cfg draw strat ev n pop = popStep cfg draw (strat.guarded m) ev n pop := by
      unfold popStep Strategy.guarded
      rw [if_pos hpop]
    dsimp only
    rw [← he]
    refine ⟨rfl, fun s' h hcond hw p hp hne => ?_⟩
    split at h
    · cases h
    · split at h
      · cases h
      · rename_i pop' hp'
        split at h
        · cases h
        · cases h
          cases hp
          unfold popStep at hp'
          split at hp'
          · rename_i h0
            rcases hcond with hc | hc | hc
            · rw [hc] at hw; cases hw
            · have := List.length_pos_of_ne_nil hne
              omega
            · exact absurd h0 hc
          · exact hk _ _ _ _ hpop hp'

/-- Nothing is removed from the trace. -/
theorem fitLoop_mem_trace (cfg : SupCfg K) (c : SupComp K d M) (ev : PoolEval K d M) (entropy : Nat) (X : List (Point K d)) (y : List K) (ks : List Nat) (s : RunState K d M)
    (e : Event K d M) (he : e ∈ s.trace) : e ∈ (fitLoop cfg c ev entropy X y ks s).state.trace := by
  induction ks generalizing s with
  | nil => exact he
  | cons k rest ih =>
    have h1 : ∀ s1 r, discoverStep cfg c entropy X y cfg.nRules { s with step := k } = (s1, r) → e ∈ s1.trace := by
      intro s1 r h
      rcases discoverStep_spec _ _ _ _ _ _ _ _ _ h with ⟨rfl, _⟩ | ⟨el, seed, _, _, _, ⟨_, _, _, rfl⟩ | ⟨rules, _, hf, rfl⟩⟩
      · exact he
      · exact List.mem_append_left _ he
      · exact List.mem_append_left _ he
    have h2 : ∀ s1 s2 r, e ∈ s1.trace → composeStep cfg c ev entropy s1 = (s2, r) → e ∈ s2.trace := by
      intro s1 s2 r he h
      rcases composeStep_spec _ _ _ _ _ _ _ h with ⟨rfl, _⟩ | ⟨seed, _, ⟨_, _, _, rfl⟩ | ⟨comp, _, hf, rfl⟩⟩
      · exact he
      · exact List.mem_append_left _ he
      · exact List.mem_append_left _ he
    unfold fitLoop
    split
    · rename_i s1 e1 h
      exact h1 _ _ h
    · rename_i s1 h
      split
      · rename_i s2 e2 h'
        exact h2 _ _ _ (h1 _ _ h) h'
      · rename_i s2 h'
        have h3 := h2 _ _ _ (h1 _ _ h) h'
        split
        · exact h3
        · exact h3
        · dsimp only
          split
          · exact List.mem_append_left _ h3
          · exact ih _ (List.mem_append_left _ h3)

/-- What makes a composition keep enough solutions: a new population in every call, at most one solution needed, or no empty pool. -/
def KeepsEnough (cfg : CompCfg K) (m : Nat) (trace : List (Event K d M)) : Prop :=
  cfg.warmStart = false ∨ m ≤ 1 ∨ ∀ seed pool comp, Event.compose seed pool comp ∈ trace → pool ≠ []

/-- The components with the guarded strategies. -/
def SupComp.guarded (m : Nat) (c : SupComp K d M) : SupComp K d M := { c with strategy := fun seed hist => (c.strategy seed hist).guarded m }

theorem fitLoop_guarded (cfg : SupCfg K) (c : SupComp K d M) (m : Nat) (hm : m ≤ cfg.comp.populationSize) (hk : ∀ seed hist, (c.strategy seed hist).KeepsAtLeast m)
    (ev : PoolEval K d M) (entropy : Nat) (X : List (Point K d)) (y : List K) (ks : List Nat) (s : RunState K d M) (hs : EnoughNext cfg.comp m s.comp)
    (hc : KeepsEnough cfg.comp m (fitLoop cfg c ev entropy X y ks s).state.trace) :
    fitLoop cfg c ev entropy X y ks s = fitLoop cfg (c.guarded m) ev entropy X y ks s := by
  induction ks generalizing s with
  | nil => rfl
  | cons k rest ih =>
    have hd : discoverStep cfg (c.guarded m) entropy X y cfg.nRules { s with step := k } = discoverStep cfg c entropy X y cfg.nRules { s with step := k } := rfl
    unfold fitLoop at hc ⊢
    rw [hd]
    cases h1 : discoverStep cfg c entropy X y cfg.nRules { s with step := k } with
    | mk s1 r1 =>
      rw [h1] at hc
      cases r1 with
      | some e => rfl
      | none =>
        have hs1 : EnoughNext cfg.comp m s1.comp := by
          rw [discoverStep_comp _ _ _ _ _ _ _ _ _ h1]; exact hs
        have hcs : composeStep cfg (c.guarded m) ev entropy s1 = composeStep cfg c ev entropy s1 := by
          unfold composeStep
          split
          · rfl
          · rename_i seed _
            dsimp only
            have := (compOptimize_guarded cfg.comp m hm (c.initDraw seed) (c.strategy seed s1.trace) (hk _ _) (ev s1.pool) s1.pool.length s1.comp hs1).1
            change (match compOptimize cfg.comp (c.initDraw seed) ((c.strategy seed s1.trace).guarded m) (ev s1.pool) s1.pool.length s1.comp with
              | .error e => _
              | .ok comp => _) = _
            rw [← this]
            rfl
        dsimp only at hc ⊢
        rw [hcs]
        cases h2 : composeStep cfg c ev entropy s1 with
        | mk s2 r2 =>
          rw [h2] at hc
          cases r2 with
          | some e => rfl
          | none =>
            dsimp only at hc ⊢
            cases h3 : s2.comp.elitist with
            | error e => rfl
            | ok o =>
              rw [h3] at hc
              cases o with
              | none => rfl
              | some el =>
                dsimp only at hc ⊢
                split
                · rfl
                · rename_i hstop
                  rw [if_neg hstop] at hc
                  refine ih _ ?_ hc
                  change EnoughNext cfg.comp m s2.comp
                  rcases composeStep_spec _ _ _ _ _ _ _ h2 with ⟨rfl, _⟩ | ⟨seed, _, ⟨_, hr, _, _⟩ | ⟨comp, _, hf, rfl⟩⟩
                  · exact hs1
                  · cases hr
                  · refine (compOptimize_guarded cfg.comp m hm (c.initDraw seed) (c.strategy seed s1.trace) (hk _ _) (ev s1.pool) s1.pool.length s1.comp hs1).2 _ hf ?_
                    rcases hc with hc | hc | hc
                    · exact .inl hc
                    · exact .inr (.inl hc)
                    · refine .inr (.inr fun h0 => hc seed s1.pool s1.comp (fitLoop_mem_trace _ _ _ _ _ _ _ _ _ ?_) (List.length_eq_zero_iff.mp h0))
                      exact List.mem_append_left _ (List.mem_append_right _ (List.mem_singleton_self _))

theorem fit_guarded (cfg : SupCfg K) (c : SupComp K d M) (m : Nat) (hm : m ≤ cfg.comp.populationSize) (hk : ∀ seed hist, (c.strategy seed hist).KeepsAtLeast m)
    (entropy : Nat) (raw : RawData K d) (cl : Bool) (st0 : SupState K d M) (hc : KeepsEnough cfg.comp m (st0.fit cfg c entropy raw cl).trace) :
    st0.fit cfg c entropy raw cl = st0.fit cfg (c.guarded m) entropy raw cl := by
  have htr := fitWith_trace cfg c (runEval cfg c) entropy raw cl st0
  have hrun : ∀ X y, raw.check = .ok (X, y) → runFit cfg c (runEval cfg c X y) entropy X y st0.step = runFit cfg (c.guarded m) (runEval cfg c X y) entropy X y st0.step := by
    intro X y hxy
    rcases htr with ⟨h, _⟩ | ⟨h, ht⟩
    · rw [h] at hxy; cases hxy
    · rw [h] at hxy
      cases hxy
      have hc' : KeepsEnough cfg.comp m (runFit cfg c (runEval cfg c raw.X raw.y) entropy raw.X raw.y st0.step).state.trace := by
        rw [← ht]; exact hc
      have hd : discoverStep cfg (c.guarded m) entropy raw.X raw.y cfg.nInitial (startState cfg st0.step) =
        discoverStep cfg c entropy raw.X raw.y cfg.nInitial (startState cfg st0.step : RunState K d M) := rfl
      have hstart : EnoughNext cfg.comp m (startState cfg st0.step : RunState K d M).comp := fun _ p hp => nomatch hp
      rw [runFit_eq] at hc'
      rw [runFit_eq, runFit_eq, hd]
      split
      · rename_i hpos
        rw [if_pos hpos] at hc'
        cases h1 : discoverStep cfg c entropy raw.X raw.y cfg.nInitial (startState cfg st0.step : RunState K d M) with
        | mk s1 r1 =>
          rw [h1] at hc'
          cases r1 with
          | some e => rfl
          | none =>
            refine fitLoop_guarded cfg c m hm hk _ _ _ _ _ _ ?_ hc'
            rw [discoverStep_comp _ _ _ _ _ _ _ _ _ h1]; exact hstart
      · rename_i hpos
        rw [if_neg hpos] at hc'
        exact fitLoop_guarded cfg c m hm hk _ _ _ _ _ _ hstart hc'
  unfold SupState.fit SupState.fitWith
  dsimp only
  split
  · rfl
  · rename_i X y hxy
    have : runEval cfg (c.guarded m) X y = runEval cfg c X y := rfl
    rw [this, ← hrun X y hxy]

/-- As `TrainsOk`, for runs in which a composition keeps enough solutions. -/
def TrainsEnough (cfg : SupCfg K) (c : SupComp K d M) (beta : K) (m : Nat) : Prop :=
  ∀ (entropy : Nat) (raw : RawData K d) (cl : Bool) (st0 : SupState K d M), (raw.finite = true ∧ raw.X.length = raw.y.length ∧ raw.X ≠ []) →
    (cfg.nInitial = 0 ∨ st0.step < cfg.nIter) → KeepsEnough cfg.comp m (st0.fit cfg c entropy raw cl).trace →
    (st0.fit cfg c entropy raw cl).raised = none ∧ (st0.fit cfg c entropy raw cl).state.isError = false ∧ (st0.fit cfg c entropy raw cl).state.isFitted = true ∧
    (st0.fit cfg c entropy raw cl).state.pool.length ≤ cfg.nInitial + cfg.nIter * cfg.nRules ∧
    (∀ ρ ∈ (st0.fit cfg c entropy raw cl).state.pool, PoolRule c.learner raw.X raw.y beta ρ) ∧
    ∃ σ, (st0.fit cfg c entropy raw cl).state.elitist = some (.solution σ) ∧ σ.pool = (st0.fit cfg c entropy raw cl).state.pool ∧ σ.genome.length = σ.pool.length

theorem compWith_trainsEnough (cfg : SupCfg K) (es : ESCfg K) (hs : DiscoverySettings cfg es) (sigma : K × K) (D : RunDraws K d M) (hD : D.DiscoveryPossible es sigma)
    (L : Learner K d M) (ff : RuleFitness K d) (sf : Nat → SolFitness K) (strat : Seed → List (Event K d M) → Strategy K) (hg : ∀ seed hist, (strat seed hist).Good) (m : Nat)
    (hm : m ≤ cfg.comp.populationSize) (hk : ∀ seed hist, (strat seed hist).KeepsAtLeast m) (ht : ∀ seed hist, (strat seed hist).TotalFrom m) :
    TrainsEnough cfg (compWith es D L ff sf strat) es.beta m := by
  intro entropy raw cl st0 hraw hinit hc
  rw [fit_guarded cfg (compWith es D L ff sf strat) m hm hk entropy raw cl st0 hc]
  exact compWith_trains cfg es hs sigma D hD L ff sf (fun seed hist => (strat seed hist).guarded m) (fun seed hist => guarded_good m _ (hg seed hist))
    (fun seed hist => guarded_total m _ (ht seed hist)) entropy raw cl st0 hraw hinit

end Enough

section Saga2

variable {d : Nat} {M : Type}

/-- Saga2 as a strategy; the numbers of the selection depend on the size of the population they select from. -/
noncomputable def saga2Strategy (cfg : Saga2Cfg) (draws : Nat → Nat → List (GADraw ℝ)) (a b : Option ℝ) : Strategy ℝ :=
  Prog.strategy fun n pop => (saga2 cfg (draws n pop.length) a b pop).bind fun s => .ret s.pop

theorem saga2Strategy_good (cfg : Saga2Cfg) (draws : Nat → Nat → List (GADraw ℝ)) (a b : Option ℝ) : (saga2Strategy cfg draws a b).Good :=
  strategy_good _ fun n ev pop h => Prog.Sat.bind (saga2_sat cfg (draws n pop.length) a b n ev pop h) fun _ hs => hs

theorem saga2Strategy_keeps (cfg : Saga2Cfg) (draws : Nat → Nat → List (GADraw ℝ)) (a b : Option ℝ) : (saga2Strategy cfg draws a b).KeepsAtLeast cfg.nElitists := by
  intro n ev pop pop' hm hr
  suffices h : (((saga2 cfg (draws n pop.length) a b pop).bind fun s => .ret s.pop).Sat ev (fun _ => True) fun pop' => cfg.nElitists ≤ pop'.length) from h.run pop' hr
  refine Prog.Sat.bind (P := fun s : Saga2State => cfg.nElitists ≤ s.pop.length) ?_ fun s hs => hs
  unfold saga2
  by_cases he : cfg.populationSize % 2 = 0
  · rw [if_pos he]
    refine Prog.Sat.bind' (each_length ev _ _) fun p hp => ?_
    refine Prog.Sat.bind' (P := fun _ => True) (Prog.Sat.lift fun _ _ => True.intro) fun stats _ => ?_
    refine Prog.Sat.forEach (fun _ (s : Saga2State) => cfg.nElitists ≤ s.pop.length) _ _ ⟨p, p, stats, _, _, a, b⟩ (hp ▸ hm) fun d _ s hs => ?_
    unfold saga2Step
    refine Prog.Sat.bind' (P := fun _ => True) (Prog.Sat.lift fun _ _ => True.intro) fun parents _ => ?_
    refine Prog.Sat.bind' (P := fun _ => True) (Prog.Sat.lift fun _ _ => True.intro) fun cs _ => ?_
    refine Prog.Sat.bind' (each_length ev _ _) fun cs' _ => ?_
    refine Prog.Sat.bind' (each_length ev _ _) fun q hq => ?_
    refine Prog.Sat.bind' (P := fun _ => True) (Prog.Sat.lift fun _ _ => True.intro) fun stats _ => ?_
    have hq' : cfg.nElitists ≤ q.length := by
      rw [hq, List.length_append, List.length_take, (sortedDesc_perm _ _).length_eq]
      omega
    dsimp only
    split
    · refine Prog.Sat.lift fun s' hs' => ?_
      rw [saga2Adjust_pop _ _ _ hs']
      exact hq'
    · exact hq'
  · rw [if_neg he]; trivial

theorem saga2Strategy_total (cfg : Saga2Cfg) (he : cfg.populationSize % 2 = 0) (hP : 1 ≤ cfg.populationSize) (k : Nat) (hk : 1 ≤ k) (draws : Nat → Nat → List (GADraw ℝ))
    (hd : ∀ n size, size ≠ 0 → PossibleSel cfg.populationSize cfg.nElitists k size ((draws n size).map GADraw.sel)) (a b : Option ℝ) :
    (saga2Strategy cfg draws a b).TotalFrom cfg.nElitists := by
  intro n ev pop hn hl hne hm hev
  exact Prog.Runs.bind (saga2_runs cfg he hP k hk hev pop hl hne hm (draws n pop.length) (hd _ _ (by simpa using hne)) a b) fun s hs => Prog.Runs.ret hs

/-- C103 for saga2: training completes for every seed and all random numbers if a population is not smaller than the number of elitists and one of these holds: the population is new in
every iteration, at most one elitist is kept, or the pool is not empty in any iteration. Without this it is false, see `C103_saga2_refuted`. -/
theorem C103_saga2_run_partial (cfg : SupCfg ℝ) (es : ESCfg ℝ) (hs : DiscoverySettings cfg es) (sigma : ℝ × ℝ) (D : RunDraws ℝ d M) (hD : D.DiscoveryPossible es sigma)
    (L : Learner ℝ d M) (ff : RuleFitness ℝ d) (sf : Nat → SolFitness ℝ) (sc : Saga2Cfg) (he : sc.populationSize % 2 = 0) (hP : 1 ≤ sc.populationSize)
    (hE : sc.nElitists ≤ cfg.comp.populationSize) (k : Nat) (hk : 1 ≤ k) (draws : Seed → List (Event ℝ d M) → Nat → Nat → List (GADraw ℝ))
    (hd : ∀ seed hist n size, size ≠ 0 → PossibleSel sc.populationSize sc.nElitists k size ((draws seed hist n size).map GADraw.sel))
    (bounds : Seed → List (Event ℝ d M) → Option ℝ × Option ℝ) :
    TrainsEnough cfg (compWith es D L ff sf fun seed hist => saga2Strategy sc (draws seed hist) (bounds seed hist).1 (bounds seed hist).2) es.beta sc.nElitists :=
  compWith_trainsEnough cfg es hs sigma D hD L ff sf _ (fun _ _ => saga2Strategy_good _ _ _ _) _ hE (fun _ _ => saga2Strategy_keeps _ _ _ _)
    fun _ _ => saga2Strategy_total sc he hP k hk _ (hd _ _) _ _

/-! Examples: two elitists, a population of two that is new in every iteration; and a run with warm start in which the pool is never empty. -/

noncomputable def coldCfg : SupCfg ℝ := { SupCfg.default with nIter := 2, nRules := 1, comp := { populationSize := 2, warmStart := false, init := .random (1 / 2) } }

noncomputable def realES : ESCfg ℝ := { ESCfg.default with nIter := 2, lmbda := 1, delay := 1 }

theorem coldDiscovery : DiscoverySettings coldCfg realES :=
  ⟨by simp [coldCfg], by simp [coldCfg], by simp [coldCfg], fun _ => by simp [realES], .inl rfl, by simp [realES, ESCfg.default]⟩

theorem realDraws : (firstDraws 2 1 (1 / 2) : RunDraws ℝ 1 ℝ).DiscoveryPossible realES (1, 1) :=
  have h := firstDraws_possible (M := ℝ) (d := 1) realES rfl { GACfg.default with populationSize := 2, nElitists := 0 } rfl 2 1 (1 / 2) (by norm_num) (1, 1)
  ⟨h.origins, h.children⟩

noncomputable def coldSaga2 : Saga2Cfg := ⟨2, 2, 1 / 1000, 1 / 20, 1 / 2, 9 / 10⟩

noncomputable def coldGen : GADraw ℝ := ⟨.tournament [[0, 0], [0, 0]], fun _ _ => (0, .nPoint [1]), fun _ _ => 0⟩

example (L : Learner ℝ 1 ℝ) (ff : RuleFitness ℝ 1) : TrainsEnough coldCfg (compWith realES (firstDraws 2 1 (1 / 2)) L ff (fun _ _ _ c => c) fun _ _ =>
    saga2Strategy coldSaga2 (fun _ _ => [coldGen, coldGen]) (some (1 / 2)) none) 1 2 :=
  C103_saga2_run_partial coldCfg realES coldDiscovery (1, 1) _ realDraws L ff _ coldSaga2 (by decide) (by decide) (by decide) 2 (by decide)
    (fun _ _ _ _ => [coldGen, coldGen]) (fun _ _ _ size h => demoSel_possible 2 size h) fun _ _ => (some (1 / 2), none)

example (trace : List (Event ℝ 1 ℝ)) : KeepsEnough coldCfg.comp 2 trace := .inl rfl

/-- No solution is composed from an empty pool. -/
def neverEmpty (trace : List (Event ℚ 1 ℚ)) : Bool := trace.all fun e => match e with
  | .compose _ pool _ => !pool.isEmpty
  | _ => true

theorem keepsEnough_of_neverEmpty (cfg : CompCfg ℚ) (m : Nat) (trace : List (Event ℚ 1 ℚ)) (h : neverEmpty trace = true) : KeepsEnough cfg m trace := by
  refine .inr (.inr fun seed pool comp he h0 => ?_)
  have := List.all_eq_true.mp h _ he
  rw [h0] at this
  exact absurd this (by simp)

example : KeepsEnough smallCfg.comp 2 (SupState.fit smallCfg (smallComp (Prog.strategy fun _ pop => gwo .crossover (fun x => x) 3 [demoWolf 1, demoWolf 0] pop)) 7
    ⟨[![0], ![1], ![5]], [1, 3, 7], true⟩ false {}).trace := keepsEnough_of_neverEmpty _ _ _ (by decide +kernel)

end Saga2

section Bees

variable {K : Type} [Field K] [LinearOrder K] [IsStrictOrderedRing K] {d : Nat} {M : Type}

/-- As `compWith_trains`, for strategies that do not fail with the evaluations of the run. -/
theorem compWith_trainsAt (cfg : SupCfg K) (es : ESCfg K) (hs : DiscoverySettings cfg es) (sigma : K × K) (D : RunDraws K d M) (hD : D.DiscoveryPossible es sigma)
    (L : Learner K d M) (ff : RuleFitness K d) (sf : Nat → SolFitness K) (strat : Seed → List (Event K d M) → Strategy K) (hg : ∀ seed hist, (strat seed hist).Good)
    (ht : ∀ seed hist X y (pool : List (Rule K d M)), (strat seed hist).TotalAt pool.length (runEval cfg (compWith es D L ff sf strat) X y pool)) :
    TrainsOk cfg (compWith es D L ff sf strat) es.beta := by
  intro entropy raw cl st0 hraw hinit
  obtain ⟨fb, hfb, _⟩ := estimateBounds_ok raw.X hraw.2.2
  have hc : raw.check = .ok (raw.X, raw.y) := by unfold RawData.check; rw [if_pos hraw]
  have hxy : raw.y.length = raw.X.length := hraw.2.1.symm
  have hN : raw.X.length ≠ 0 := fun h => hraw.2.2 (List.length_eq_zero_iff.mp h)
  have hnf : (compWith es D L ff sf strat).NoFailure cfg raw.X raw.y fun ρ => ρ.InPool L ff raw.X raw.y fb es.beta := by
    refine ⟨?_, ?_, fun seed hist pool _ _ => ht seed hist _ _ pool⟩
    · intro seed hist el pool n _ hpool hel _
      obtain ⟨rules, h1, _, h2⟩ := esDiscover_total es hs.delay hs.mutation sigma L ff raw.X raw.y hraw.2.2 hxy fb hfb (D.origins seed hist raw.X.length n)
        (D.children seed hist) el pool n (fun probs hp => hD.origins _ _ _ _ probs hN hp) (hD.children seed hist) hel hpool
      exact ⟨rules, h1, h2⟩
    · intro pool hpool g hg
      refine eval_total cfg (compWith es D L ff sf strat) rfl ff raw.X raw.y hxy hraw.2.2 pool ?_ g hg
      intro ρ hρ
      obtain ⟨_, _, _, _, _, hm⟩ := (hpool ρ hρ).matchesData
      exact ⟨(hpool ρ hρ).fromData.fitted, hm⟩
  obtain ⟨h1, h2, h3, h4, h5⟩ := trained_result cfg (compWith es D L ff sf strat) hg (fun seed hist el pool X y n rules h => esDiscover_length _ _ _ _ _ _ _ _ _ _ _ h) hs.iter hs.rules hs.size
    entropy raw hc cl st0 hinit _ hnf
  refine ⟨h1.1, h1.2, h2, ?_, fun ρ hρ => (h4 ρ hρ).poolRule hxy hraw.2.2 hfb hs.beta, h5⟩
  unfold SupCfg.maxGenomeLength at h3
  rw [Nat.mul_comm cfg.nIter, Nat.add_comm]
  exact h3

/-- A helper of the proofs: the same metaheuristic, except that for pools of `N` rules or more solutions are only evaluated. -/
def Strategy.below (N : Nat) (strat : Strategy K) : Strategy K := fun n ev pop => if n < N then strat n ev pop else fitAll ev pop

theorem below_good (N : Nat) (strat : Strategy K) (h : strat.Good) : (strat.below N).Good where
  lens := by
    intro n ev pop pop' hl hr
    unfold Strategy.below at hr
    split at hr
    · exact h.lens n ev pop pop' hl hr
    · intro σ hσ
      have h1 := (fitAll_spec ev pop pop' hr).1
      have h2 : σ.genome ∈ pop.map Indiv.genome := h1 ▸ List.mem_map_of_mem hσ
      obtain ⟨τ, hτ, he⟩ := List.mem_map.mp h2
      rw [← he]
      exact hl τ hτ
  evaluated := by
    intro n ev pop pop' hl hr
    unfold Strategy.below at hr
    split at hr
    · exact h.evaluated n ev pop pop' hl hr
    · exact (fitAll_spec ev pop pop' hr).2
  local_ := by
    intro n ev ev' pop hl he
    unfold Strategy.below
    split
    · exact h.local_ n ev ev' pop hl he
    · exact fitAll_congr ev ev' pop fun σ hσ => he _ (hl σ hσ)

theorem below_totalAt (N : Nat) (strat : Strategy K) (n : Nat) (ev : Eval K) (h : n < N → strat.TotalAt n ev) : (strat.below N).TotalAt n ev := by
  intro pop hn hl hne hev
  unfold Strategy.below
  split
  · rename_i hlt
    exact h hlt pop hn hl hne hev
  · obtain ⟨pop', hp⟩ := fitAll_total _ _ hev pop hl
    refine ⟨pop', hp, ?_⟩
    have h1 := congrArg List.length (fitAll_spec _ pop pop' hp).1
    rw [List.length_map, List.length_map] at h1
    exact ne_nil_of_length h1 hne

/-- In every composition of the run the pool has fewer than `N` rules. -/
def PoolsBelow (N : Nat) (trace : List (Event K d M)) : Prop := ∀ seed pool comp, Event.compose seed pool comp ∈ trace → pool.length < N

/-- The components with the strategies for smaller pools. -/
def SupComp.below (N : Nat) (c : SupComp K d M) : SupComp K d M := { c with strategy := fun seed hist => (c.strategy seed hist).below N }

theorem fitLoop_below (cfg : SupCfg K) (c : SupComp K d M) (N : Nat) (ev : PoolEval K d M) (entropy : Nat) (X : List (Point K d)) (y : List K) (ks : List Nat) (s : RunState K d M)
    (hc : PoolsBelow N (fitLoop cfg c ev entropy X y ks s).state.trace) : fitLoop cfg c ev entropy X y ks s = fitLoop cfg (c.below N) ev entropy X y ks s := by
  induction ks generalizing s with
  | nil => rfl
  | cons k rest ih =>
    have hd : discoverStep cfg (c.below N) entropy X y cfg.nRules { s with step := k } = discoverStep cfg c entropy X y cfg.nRules { s with step := k } := rfl
    unfold fitLoop at hc ⊢
    rw [hd]
    cases h1 : discoverStep cfg c entropy X y cfg.nRules { s with step := k } with
    | mk s1 r1 =>
      rw [h1] at hc
      cases r1 with
      | some e => rfl
      | none =>
        have hcs : s1.pool.length < N → composeStep cfg (c.below N) ev entropy s1 = composeStep cfg c ev entropy s1 := by
          intro hlt
          unfold composeStep
          split
          · rfl
          · rename_i seed _
            dsimp only
            have : compOptimize cfg.comp (c.initDraw seed) ((c.strategy seed s1.trace).below N) (ev s1.pool) s1.pool.length s1.comp =
                compOptimize cfg.comp (c.initDraw seed) (c.strategy seed s1.trace) (ev s1.pool) s1.pool.length s1.comp := by
              unfold compOptimize
              simp only [Strategy.below, if_pos hlt]
            change (match compOptimize cfg.comp (c.initDraw seed) ((c.strategy seed s1.trace).below N) (ev s1.pool) s1.pool.length s1.comp with
              | .error e => _
              | .ok comp => _) = _
            rw [this]
            rfl
        dsimp only at hc ⊢
        cases h2 : composeStep cfg c ev entropy s1 with
        | mk s2 r2 =>
          rw [h2] at hc
          rcases composeStep_spec _ _ _ _ _ _ _ h2 with ⟨rfl, rfl, hseed⟩ | ⟨seed, _, ⟨e, rfl, hf, rfl⟩ | ⟨comp, rfl, hf, rfl⟩⟩
          · have : composeStep cfg (c.below N) ev entropy s2 = (s2, some .indexError) := by
              unfold composeStep; rw [hseed]
            rw [this]
          · rw [hcs (hc seed s1.pool s1.comp (List.mem_append_right _ (List.mem_singleton_self _))), h2]
          · have hlt : s1.pool.length < N := by
              refine hc seed s1.pool s1.comp ?_
              have hin : Event.compose seed s1.pool s1.comp ∈ s1.trace ++ [Event.compose seed s1.pool s1.comp] := List.mem_append_right _ (List.mem_singleton_self _)
              dsimp only
              split
              · exact hin
              · exact hin
              · split
                · exact List.mem_append_left _ hin
                · exact fitLoop_mem_trace _ _ _ _ _ _ _ _ _ (List.mem_append_left _ hin)
            rw [hcs hlt, h2]
            dsimp only at hc ⊢
            cases h3 : comp.elitist with
            | error e => rfl
            | ok o =>
              rw [h3] at hc
              cases o with
              | none => rfl
              | some el =>
                dsimp only at hc ⊢
                split
                · rfl
                · rename_i hstop
                  rw [if_neg hstop] at hc
                  exact ih _ hc

theorem fit_below (cfg : SupCfg K) (c : SupComp K d M) (N : Nat) (entropy : Nat) (raw : RawData K d) (cl : Bool) (st0 : SupState K d M)
    (hc : PoolsBelow N (st0.fit cfg c entropy raw cl).trace) : st0.fit cfg c entropy raw cl = st0.fit cfg (c.below N) entropy raw cl := by
  have htr := fitWith_trace cfg c (runEval cfg c) entropy raw cl st0
  have hrun : ∀ X y, raw.check = .ok (X, y) → runFit cfg c (runEval cfg c X y) entropy X y st0.step = runFit cfg (c.below N) (runEval cfg c X y) entropy X y st0.step := by
    intro X y hxy
    rcases htr with ⟨h, _⟩ | ⟨h, ht⟩
    · rw [h] at hxy; cases hxy
    · rw [h] at hxy
      cases hxy
      have hc' : PoolsBelow N (runFit cfg c (runEval cfg c raw.X raw.y) entropy raw.X raw.y st0.step).state.trace := by
        rw [← ht]; exact hc
      have hd : discoverStep cfg (c.below N) entropy raw.X raw.y cfg.nInitial (startState cfg st0.step) =
        discoverStep cfg c entropy raw.X raw.y cfg.nInitial (startState cfg st0.step : RunState K d M) := rfl
      rw [runFit_eq] at hc'
      rw [runFit_eq, runFit_eq, hd]
      split
      · rename_i hpos
        rw [if_pos hpos] at hc'
        cases h1 : discoverStep cfg c entropy raw.X raw.y cfg.nInitial (startState cfg st0.step : RunState K d M) with
        | mk s1 r1 =>
          rw [h1] at hc'
          cases r1 with
          | some e => rfl
          | none => exact fitLoop_below cfg c N _ _ _ _ _ _ hc'
      · rename_i hpos
        rw [if_neg hpos] at hc'
        exact fitLoop_below cfg c N _ _ _ _ _ _ hc'
  unfold SupState.fit SupState.fitWith
  dsimp only
  split
  · rfl
  · rename_i X y hxy
    have : runEval cfg (c.below N) X y = runEval cfg c X y := rfl
    rw [this, ← hrun X y hxy]

/-- The bee colony as a strategy. -/
def abcStrategy (sig : K → K) (init : InitOp K) (limit : Nat) (draws : Nat → Nat → List (ABCDraw K)) : Strategy K :=
  Prog.strategy fun n pop => (abc sig init limit (draws n pop.length) n pop).bind fun s => .ret (s.map Food.sol)

theorem abcStrategy_good (sig : K → K) (init : InitOp K) (limit : Nat) (draws : Nat → Nat → List (ABCDraw K)) : (abcStrategy sig init limit draws).Good := by
  refine strategy_good _ fun n ev pop h => Prog.Sat.bind (abc_sat sig init limit (draws n pop.length) n ev pop h) fun s hs σ hσ => ?_
  obtain ⟨f, hf, rfl⟩ := List.mem_map.mp hσ
  exact hs f hf

theorem solFitness_of_runEval (cfg : SupCfg K) (c : SupComp K d M) (X : List (Point K d)) (y : List K) (pool : List (Rule K d M)) (g : List Bool) (s : SolState K)
    (h : runEval cfg c X y pool g = .ok s) : s.fitness = c.fitness cfg.maxGenomeLength s.error g.length (g.count true) := by
  unfold runEval evalGenome Solution.fit at h
  split at h
  · cases h
  · rename_i σ0 h0
    split at h0
    · cases h0
    · split at h0
      · cases h0
      · cases h0
        cases h
        rfl

/-- C103 for the bee colony and a fitness function that is positive for solutions that select fewer rules than can be discovered: training completes for every seed and all random numbers
if in no iteration the pool has the largest possible size, that is, if at least one of the rules to be discovered was rejected. Without this it is false, see `C103_abc_refuted`. -/
theorem C103_abc_run_partial (cfg : SupCfg K) (es : ESCfg K) (hs : DiscoverySettings cfg es) (sigma : K × K) (D : RunDraws K d M) (hD : D.DiscoveryPossible es sigma)
    (L : Learner K d M) (ff : RuleFitness K d) (sf : Nat → SolFitness K)
    (hsf : ∀ e n c, c < cfg.nRules * cfg.nIter + cfg.nInitial → 0 < sf (cfg.nRules * cfg.nIter + cfg.nInitial) e n c)
    (sig : K → K) (init : InitOp K) (limit : Nat) (draws : Seed → List (Event K d M) → Nat → Nat → List (ABCDraw K))
    (hd : ∀ seed hist n size, size ≠ 0 → ∀ z ∈ draws seed hist n size, z.Possible size) (entropy : Nat) (raw : RawData K d) (cl : Bool) (st0 : SupState K d M)
    (hraw : raw.finite = true ∧ raw.X.length = raw.y.length ∧ raw.X ≠ []) (hinit : cfg.nInitial = 0 ∨ st0.step < cfg.nIter) (r : FitResult K d M)
    (hr : st0.fit cfg (compWith es D L ff sf fun seed hist => abcStrategy sig init limit (draws seed hist)) entropy raw cl = r)
    (hsmall : ∀ seed pool comp, Event.compose seed pool comp ∈ r.trace → pool.length < cfg.nRules * cfg.nIter + cfg.nInitial) :
    r.raised = none ∧ r.state.isError = false ∧ r.state.isFitted = true ∧ (∀ ρ ∈ r.state.pool, PoolRule L raw.X raw.y es.beta ρ) ∧
    ∃ σ, r.state.elitist = some (.solution σ) ∧ σ.pool = r.state.pool ∧ σ.genome.length = σ.pool.length := by
  rw [fit_below cfg _ (cfg.nRules * cfg.nIter + cfg.nInitial) entropy raw cl st0 (by rw [hr]; exact hsmall)] at hr
  subst hr
  have key := compWith_trainsAt cfg es hs sigma D hD L ff sf (fun seed hist => (abcStrategy sig init limit (draws seed hist)).below (cfg.nRules * cfg.nIter + cfg.nInitial))
    (fun seed hist => below_good _ _ (abcStrategy_good _ _ _ _)) (fun seed hist X y pool => below_totalAt _ _ _ _ fun hlt pop hn hl hne hev => ?_) entropy raw cl st0 hraw hinit
  · exact ⟨key.1, key.2.1, key.2.2.1, key.2.2.2.2.1, key.2.2.2.2.2⟩
  · obtain ⟨s, h1, h2⟩ := C103_abc_partial sig init limit pool.length _ (fun g hg => by
      obtain ⟨s, hs⟩ := hev g hg
      refine ⟨s, hs, ?_⟩
      rw [solFitness_of_runEval cfg _ X y pool g s hs]
      exact hsf _ _ _ (lt_of_le_of_lt (List.count_le_length.trans hg.le) hlt)) pop hl hne (draws seed hist pool.length pop.length) (hd _ _ _ _ (by simpa using hne))
    refine ⟨s.map Food.sol, ?_, by simpa using ne_nil_of_length h2 hne⟩
    change ((abc sig init limit (draws seed hist pool.length pop.length) pool.length pop) >>= fun s => Prog.ret (s.map Food.sol)).run _ = _
    rw [Prog.run_bind_ok h1]
    rfl

/-- The default fitness function meets the condition of `C103_abc_run_partial`. -/
theorem complexityWu_below (nan : ℝ) (N : Nat) (e : ℝ) (n c : Nat) (h : c < N) : 0 < complexityWu nan N e n c := complexityWu_pos nan e N n c h

/-! Example: a run with the bee colony that stops early, with the number of rules that are not selected as fitness. -/

def beesCfg : SupCfg ℚ := { smallCfg with nIter := 3, patience := 2, delta := 100 }

theorem beesDiscovery : DiscoverySettings beesCfg smallES := ⟨by decide, by decide, by decide, by decide, .inl rfl, by decide +kernel⟩

def beesResult : FitResult ℚ 1 ℚ := SupState.fit beesCfg (compWith smallES (firstDraws 2 1 (1 / 2)) meanLearner negErr (fun N _ _ c => (N : ℚ) - c) fun _ _ =>
  abcStrategy (fun x => x) (.random (1 / 2)) 3 fun _ size => [idleDraw size]) 7 ⟨[![0], ![1], ![5]], [1, 3, 7], true⟩ false {}

example : beesResult.state.isError = false ∧ beesResult.state.pool.length = 2 :=
  ⟨(C103_abc_run_partial beesCfg smallES beesDiscovery (1, 1) _ smallDraws meanLearner negErr (fun N _ _ c => (N : ℚ) - c)
    (fun e n c h => sub_pos.mpr (by exact_mod_cast h)) (fun x => x) (.random (1 / 2)) 3 (fun _ _ _ size => [idleDraw size]) (fun _ _ _ size h z hz => by
      rw [List.mem_singleton.mp hz]
      exact ⟨fun i hi => by rw [(List.mem_replicate.mp hi).2]; omega, fun i hi => by rw [(List.mem_replicate.mp hi).2]; omega⟩)
    7 ⟨[![0], ![1], ![5]], [1, 3, 7], true⟩ false {} (by simp) (.inl rfl) beesResult rfl (by
      have h : beesResult.trace.all (fun e => match e with
        | .compose _ pool _ => decide (pool.length < 3)
        | _ => true) = true := by decide +kernel
      intro seed pool comp he
      have := List.all_eq_true.mp h _ he
      exact of_decide_eq_true this)).2.1, by decide +kernel⟩

end Bees

end Suprb
