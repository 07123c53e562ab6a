import Verif.Props.Parts
import Verif.Props.SupRB
import Verif.Props.Fitness

/-!
# Claim C162: training with every way of choosing parents and food sources
-/

set_option autoImplicit false
set_option linter.unusedSectionVars false

namespace Suprb

open Spec

variable {K : Type} [Field K] [LinearOrder K] [IsStrictOrderedRing K] {d : Nat} {M : Type}

/-- What a completed training gives (see `C161_works`): no error, at most `n_initial_rules + n_iter * n_rules` rules, all of them rules of the rule discovery, and predictions for all data. -/
structure FitResult.Trained (r : FitResult K d M) (cfg : SupCfg K) (D : DiscoveryPart K d M) (c : SupComp K d M) (X : List (Point K d)) (y : List K) : Prop where
  raised : r.raised = none
  noError : r.state.isError = false
  fitted : r.state.isFitted = true
  size : r.state.pool.length ≤ cfg.nInitial + cfg.nIter * cfg.nRules
  rules : ∀ ρ ∈ r.state.pool, KindPoolRule D.kind c.learner X y D.beta ρ
  predicts : ∀ Xq, Xq ≠ [] → ∃ out, r.state.predict c Xq = .ok out ∧ out.length = Xq.length

/-- C162 (missing: the roulette wheel with fitness values of both signs, for which it is false, see `C162_signs_refuted`): random parents, linear ranking and tournaments complete with every fitness function,
every rule discovery and mixing model, for all data, seeds and random numbers. -/
theorem C162_ranked_partial (cfg : SupCfg K) (hiter : 1 ≤ cfg.nIter) (hrules : 1 ≤ cfg.nRules) (hsize : 1 ≤ cfg.comp.populationSize) (raw : RawData K d)
    (hraw : raw.finite = true ∧ raw.X.length = raw.y.length ∧ raw.X ≠ []) (D : DiscoveryPart K d M) (hD : D.Works cfg raw.X.length) (ga : GACfg K) (hga : 1 ≤ ga.populationSize)
    (draws : Seed → List (Event K d M) → (poolSize size : Nat) → List (GADraw K)) (k : Nat) (hk : 1 ≤ k)
    (hpar : ∀ seed hist n size, size ≠ 0 → PossibleParents ga k size (draws seed hist n size)) (hsel : ∀ seed hist n size, ∀ dr ∈ draws seed hist n size, ∀ idx, dr.sel ≠ .roulette idx)
    (P : MixParams K) (hP : 0 < P.weight) (hE : P.expCalc.Positive d) (init : Seed → Nat → Nat → K) (L : Learner K d M) (ff : RuleFitness K d) (sf : Nat → SolFitness K)
    (entropy : Nat) (cl : Bool) (st0 : SupState K d M) (hinit : cfg.nInitial = 0 ∨ st0.step < cfg.nIter) :
    (partsFit cfg D (.ga ga draws) P init L ff sf entropy raw cl st0).Trained cfg D (partsComp D (.ga ga draws) P init L ff sf) raw.X raw.y := by
  obtain ⟨h1, h2, h3, h4, h5, _, _, _, _, h6⟩ := C161_works cfg hiter hrules hsize raw hraw D hD (.ga ga draws) sf ⟨hga, ⟨k, hk, hpar⟩, .inr hsel⟩ P hP hE init L ff entropy cl st0 hinit
  exact ⟨h1, h2, h3, h4, h5, fun Xq hq => by obtain ⟨out, a, b, _⟩ := h6 Xq hq; exact ⟨out, a, b⟩⟩

theorem complexity_nonneg (f : Combine) (alpha : ℝ) (ha : AlphaOk f alpha) (N : Nat) (hN : 0 < N) : FitnessValues (complexitySolFitness f alpha) N (0 ≤ ·) := by
  intro e n c he hc hn
  obtain ⟨v, hv, h0, _⟩ := C27_range f alpha ha N hN e he.le c (hc.trans hn)
  have := C42_complexity_defined f alpha ha N hN e he.le n c (hc.trans hn)
  rw [hv] at this
  cases this
  exact h0

theorem emary_pos (alpha : ℝ) (h0 : 0 < alpha) (h1 : alpha ≤ 1) (N : Nat) (hN : 0 < N) : FitnessValues (complexitySolFitness .emary alpha) N (0 < ·) := by
  intro e n c he hc hn
  have hN' : (0 : ℝ) < N := by exact_mod_cast hN
  have h2 : (0 : ℝ) ≤ 1 - (c : ℝ) / (N : ℝ) := by
    rw [sub_nonneg, div_le_one hN']
    exact_mod_cast hc.trans hn
  show 0 < complexitySolFitness .emary alpha N e n c
  unfold complexitySolFitness
  rw [complexityFitness_eq _ _ _ hN]
  simp only [Combine.apply, emary, Option.map_some]
  have h3 := mul_pos h0 (Real.exp_pos (-2 * e))
  have h4 := mul_nonneg (sub_nonneg.mpr h1) h2
  linarith

/-- C162 for the fitness functions `ComplexityWu` and `ComplexityEmary`: the genetic algorithm with any parent selection, also the roulette wheel, completes for all data, seeds and random numbers. -/
theorem C162_complexity_partial (cfg : SupCfg ℝ) (hiter : 1 ≤ cfg.nIter) (hrules : 1 ≤ cfg.nRules) (hsize : 1 ≤ cfg.comp.populationSize) (raw : RawData ℝ d)
    (hraw : raw.finite = true ∧ raw.X.length = raw.y.length ∧ raw.X ≠ []) (D : DiscoveryPart ℝ d M) (hD : D.Works cfg raw.X.length) (ga : GACfg ℝ) (hga : 1 ≤ ga.populationSize)
    (draws : Seed → List (Event ℝ d M) → (poolSize size : Nat) → List (GADraw ℝ)) (k : Nat) (hk : 1 ≤ k)
    (hpar : ∀ seed hist n size, size ≠ 0 → PossibleParents ga k size (draws seed hist n size)) (f : Combine) (alpha : ℝ) (ha : AlphaOk f alpha)
    (P : MixParams ℝ) (hP : 0 < P.weight) (hE : P.expCalc.Positive d) (init : Seed → Nat → Nat → ℝ) (L : Learner ℝ d M) (ff : RuleFitness ℝ d)
    (entropy : Nat) (cl : Bool) (st0 : SupState ℝ d M) (hinit : cfg.nInitial = 0 ∨ st0.step < cfg.nIter) :
    (partsFit cfg D (.ga ga draws) P init L ff (complexitySolFitness f alpha) entropy raw cl st0).Trained cfg D (partsComp D (.ga ga draws) P init L ff (complexitySolFitness f alpha)) raw.X raw.y := by
  have hN : 0 < cfg.nInitial + cfg.nIter * cfg.nRules := Nat.add_pos_right _ (Nat.mul_pos hiter hrules)
  obtain ⟨h1, h2, h3, h4, h5, _, _, _, _, h6⟩ := C161_works cfg hiter hrules hsize raw hraw D hD (.ga ga draws) (complexitySolFitness f alpha)
    ⟨hga, ⟨k, hk, hpar⟩, .inl (complexity_nonneg f alpha ha _ hN)⟩ P hP hE init L ff entropy cl st0 hinit
  exact ⟨h1, h2, h3, h4, h5, fun Xq hq => by obtain ⟨out, a, b, _⟩ := h6 Xq hq; exact ⟨out, a, b⟩⟩

/-- C162 for the bee colony with `ComplexityEmary` and a weight `0 < alpha ≤ 1`: it completes for all data, seeds and random numbers (with `ComplexityWu` it does not, see `C103_abc_refuted`). -/
theorem C162_bees_partial (cfg : SupCfg ℝ) (hiter : 1 ≤ cfg.nIter) (hrules : 1 ≤ cfg.nRules) (hsize : 1 ≤ cfg.comp.populationSize) (raw : RawData ℝ d)
    (hraw : raw.finite = true ∧ raw.X.length = raw.y.length ∧ raw.X ≠ []) (D : DiscoveryPart ℝ d M) (hD : D.Works cfg raw.X.length) (sig : ℝ → ℝ) (op : InitOp ℝ) (limit : Nat)
    (draws : Seed → List (Event ℝ d M) → (poolSize size : Nat) → List (ABCDraw ℝ)) (hdraws : ∀ seed hist n size, size ≠ 0 → ∀ z ∈ draws seed hist n size, z.Possible size)
    (alpha : ℝ) (h0 : 0 < alpha) (h1 : alpha ≤ 1) (P : MixParams ℝ) (hP : 0 < P.weight) (hE : P.expCalc.Positive d) (init : Seed → Nat → Nat → ℝ) (L : Learner ℝ d M) (ff : RuleFitness ℝ d)
    (entropy : Nat) (cl : Bool) (st0 : SupState ℝ d M) (hinit : cfg.nInitial = 0 ∨ st0.step < cfg.nIter) :
    (partsFit cfg D (.abc sig op limit draws) P init L ff (complexitySolFitness .emary alpha) entropy raw cl st0).Trained cfg D
      (partsComp D (.abc sig op limit draws) P init L ff (complexitySolFitness .emary alpha)) raw.X raw.y := by
  have hN : 0 < cfg.nInitial + cfg.nIter * cfg.nRules := Nat.add_pos_right _ (Nat.mul_pos hiter hrules)
  obtain ⟨h1, h2, h3, h4, h5, _, _, _, _, h6⟩ := C161_works cfg hiter hrules hsize raw hraw D hD (.abc sig op limit draws) (complexitySolFitness .emary alpha)
    ⟨emary_pos alpha h0 h1 _ hN, hdraws⟩ P hP hE init L ff entropy cl st0 hinit
  exact ⟨h1, h2, h3, h4, h5, fun Xq hq => by obtain ⟨out, a, b, _⟩ := h6 Xq hq; exact ⟨out, a, b⟩⟩

/-! ### Fitness values of both signs -/

/-- A composition that fails in the first iteration makes the model the error model. -/
theorem fit_composition_fails (cfg : SupCfg K) (c : SupComp K d M) (entropy : Nat) (raw : RawData K d) (hraw : raw.finite = true ∧ raw.X.length = raw.y.length ∧ raw.X ≠ [])
    (hinit : cfg.nInitial = 0) (hiter : 1 ≤ cfg.nIter) (hrules : 1 ≤ cfg.nRules) (cl : Bool) (st0 : SupState K d M) (seed seed' : Seed)
    (hseed : (discoverySeeds entropy cfg.nIter)[0]? = some seed) (hseed' : (compositionSeeds entropy cfg.nIter)[0]? = some seed') (rules : List (Rule K d M))
    (hdisc : c.discover seed [] none [] raw.X raw.y cfg.nRules = .ok rules)
    (hfail : ∀ hist, ∃ e, compOptimize cfg.comp (c.initDraw seed') (c.strategy seed' hist) (runEval cfg c raw.X raw.y rules) rules.length
      { archive := if cfg.useArchive then some [] else none } = .error e) :
    let r := st0.fit cfg c entropy raw cl
    r.raised = none ∧ r.state.isError = true ∧ r.state.isFitted = true ∧ r.state.pool = rules := by
  have hc : raw.check = .ok (raw.X, raw.y) := by unfold RawData.check; rw [if_pos hraw]
  have hrun : ∃ s, runFit cfg c (runEval cfg c raw.X raw.y) entropy raw.X raw.y st0.step = .caught s ∧ s.pool = rules := by
    unfold runFit
    dsimp only
    rw [if_neg (by omega)]
    obtain ⟨m, hm⟩ := Nat.exists_eq_succ_of_ne_zero (by omega : cfg.nIter ≠ 0)
    rw [hm, List.range_succ_eq_map]
    unfold fitLoop
    have hd : ∃ s1, discoverStep cfg c entropy raw.X raw.y cfg.nRules { ({ step := st0.step, comp := { archive := if cfg.useArchive then some [] else none } } : RunState K d M) with step := 0 } = (s1, none) ∧
        s1.pool = rules ∧ s1.step = 0 ∧ s1.comp = { archive := if cfg.useArchive then some [] else none } := by
      unfold discoverStep
      rw [if_neg (by omega), show (({ step := st0.step, comp := { archive := if cfg.useArchive then some [] else none } } : RunState K d M)).comp.elitist = .ok none from rfl]
      dsimp only
      rw [hseed]
      dsimp only
      rw [hdisc]
      exact ⟨_, rfl, rfl, rfl, rfl⟩
    obtain ⟨s1, h1, h2, h3, h4⟩ := hd
    rw [h1]
    dsimp only
    have hcs : ∃ s2 e, composeStep cfg c (runEval cfg c raw.X raw.y) entropy s1 = (s2, some e) ∧ s2.pool = rules := by
      unfold composeStep
      rw [h3, hseed']
      dsimp only
      rw [h2, h4]
      obtain ⟨e, he⟩ := hfail s1.trace
      rw [he]
      exact ⟨_, _, rfl, rfl⟩
    obtain ⟨s2, e, h5, h6⟩ := hcs
    rw [h5]
    exact ⟨s2, rfl, h6⟩
  obtain ⟨s, hrun, hpool⟩ := hrun
  intro r
  show (st0.fit _ _ _ _ _).raised = _ ∧ (st0.fit _ _ _ _ _).state.isError = _ ∧ (st0.fit _ _ _ _ _).state.isFitted = _ ∧ (st0.fit _ _ _ _ _).state.pool = _
  unfold SupState.fit SupState.fitWith
  rw [hc]
  dsimp only
  rw [hrun]
  exact ⟨rfl, rfl, rfl, hpool⟩

theorem roulette_signs (pop : List (Indiv K)) (idx : List Nat) (hfit : ∀ σ ∈ pop, ∃ s, σ.st = some s) (σ τ : Indiv K) (hσ : σ ∈ pop) (hτ : τ ∈ pop) (h1 : σ.fitnessD < 0) (h2 : 0 < τ.fitnessD)
    (hsum : (pop.map Indiv.fitnessD).sum ≠ 0) : (SelDraw.roulette idx).run pop = .error .valueError := by
  show selectRoulette pop idx = _
  unfold selectRoulette rouletteWeights
  rw [if_pos ((allFitted_iff pop).mpr hfit)]
  dsimp only
  rw [if_pos hsum]
  dsimp only
  rw [if_pos]
  rw [List.any_map, List.any_eq_true]
  rcases lt_or_gt_of_ne hsum with h | h
  · exact ⟨τ, hτ, decide_eq_true (div_neg_of_pos_of_neg h2 h)⟩
  · exact ⟨σ, hσ, decide_eq_true (div_neg_of_neg_of_pos h1 h)⟩

/-- C162 is false for the roulette wheel: whenever two of the first solutions have fitness values of different sign (and the sum of all is not exactly 0), training ends with the error model, for every rule
discovery that finds rules, all other settings, data and random numbers. -/
theorem C162_signs_refuted (cfg : SupCfg K) (hinit : cfg.nInitial = 0) (hiter : 1 ≤ cfg.nIter) (hrules : 1 ≤ cfg.nRules) (raw : RawData K d)
    (hraw : raw.finite = true ∧ raw.X.length = raw.y.length ∧ raw.X ≠ []) (c : SupComp K d M) (ga : GACfg K) (draws : Seed → List (Event K d M) → (poolSize size : Nat) → List (GADraw K))
    (hstrat : ∀ seed hist, c.strategy seed hist = fun n ev pop => gaOptimize ga (draws seed hist n pop.length) n ev pop)
    (hsel : ∀ seed hist n size, ∃ idx cross flips rest, draws seed hist n size = ⟨.roulette idx, cross, flips⟩ :: rest) (entropy : Nat) (cl : Bool) (st0 : SupState K d M) (seed seed' : Seed)
    (hseed : (discoverySeeds entropy cfg.nIter)[0]? = some seed) (hseed' : (compositionSeeds entropy cfg.nIter)[0]? = some seed') (rules : List (Rule K d M)) (hne : rules ≠ [])
    (hdisc : c.discover seed [] none [] raw.X raw.y cfg.nRules = .ok rules) (st : Nat → SolState K)
    (hst : ∀ k < cfg.comp.populationSize, runEval cfg c raw.X raw.y rules (cfg.comp.init.bits (c.initDraw seed' k) rules.length) = .ok (st k))
    (i j : Nat) (hi : i < cfg.comp.populationSize) (hj : j < cfg.comp.populationSize) (h1 : (st i).fitness < 0) (h2 : 0 < (st j).fitness)
    (hsum : ((List.range cfg.comp.populationSize).map fun k => (st k).fitness).sum ≠ 0) :
    let r := st0.fit cfg c entropy raw cl
    r.raised = none ∧ r.state.isError = true ∧ r.state.isFitted = true ∧ r.state.pool = rules := by
  refine fit_composition_fails cfg c entropy raw hraw hinit hiter hrules cl st0 seed seed' hseed hseed' rules hdisc fun hist => ⟨.valueError, ?_⟩
  have hpop : initPopulation cfg.comp (c.initDraw seed') rules.length none = .ok ((List.range cfg.comp.populationSize).map fun k => cfg.comp.init.make (c.initDraw seed' k) rules.length) := rfl
  have harch : archivePrepare (runEval cfg c raw.X raw.y rules) rules.length (if cfg.useArchive then some [] else none) = .ok (if cfg.useArchive then some [] else none) := by
    by_cases h : cfg.useArchive
    · rw [if_pos h]; rfl
    · rw [if_neg h]; rfl
  rw [compOptimize_eq]
  dsimp only
  rw [hpop]
  dsimp only
  rw [harch]
  dsimp only
  have hlen : rules.length ≠ 0 := fun h => hne (List.length_eq_zero_iff.mp h)
  have hstep : popStep cfg.comp (c.initDraw seed') (c.strategy seed' hist) (runEval cfg c raw.X raw.y rules) rules.length
      ((List.range cfg.comp.populationSize).map fun k => cfg.comp.init.make (c.initDraw seed' k) rules.length) = .error .valueError := by
    unfold popStep
    rw [if_neg hlen, hstrat]
    dsimp only
    obtain ⟨idx, cross, flips, rest, hdr⟩ := hsel seed' hist rules.length ((List.range cfg.comp.populationSize).map fun k => cfg.comp.init.make (c.initDraw seed' k) rules.length).length
    rw [hdr]
    unfold gaOptimize
    have hfit : fitAll (runEval cfg c raw.X raw.y rules) ((List.range cfg.comp.populationSize).map fun k => cfg.comp.init.make (c.initDraw seed' k) rules.length) =
        .ok ((List.range cfg.comp.populationSize).map fun k => { genome := cfg.comp.init.bits (c.initDraw seed' k) rules.length, st := some (st k) }) := by
      unfold fitAll
      rw [mapM_ok_iff]
      rw [List.forall₂_map_left_iff, List.forall₂_map_right_iff, List.forall₂_same]
      intro k hk
      unfold Indiv.fit InitOp.make
      dsimp only
      rw [hst k (List.mem_range.mp hk)]
    rw [hfit]
    show gaLoop _ _ (_ :: rest) _ = _
    unfold gaLoop gaStep
    have hall : ∀ σ ∈ (List.range cfg.comp.populationSize).map (fun k => ({ genome := cfg.comp.init.bits (c.initDraw seed' k) rules.length, st := some (st k) } : Indiv K)), ∃ s, σ.st = some s := by
      intro σ hσ
      obtain ⟨k, _, rfl⟩ := List.mem_map.mp hσ
      exact ⟨_, rfl⟩
    rw [if_pos ((allFitted_iff _).mpr hall)]
    dsimp only
    rw [roulette_signs _ idx hall _ _ (List.mem_map_of_mem (List.mem_range.mpr hi)) (List.mem_map_of_mem (List.mem_range.mpr hj)) h1 h2 (by rw [List.map_map]; exact hsum)]
    rfl
  rw [hstep]

/-- `PseudoBIC` as a function (suprb/solution/fitness.py:10-15). The default 0 is for solutions of an empty pool, which are not evaluated here. -/
noncomputable def bicSolFitness : Nat → SolFitness ℝ := fun _ e n c => (pseudoBIC e n c).getD 0

theorem bic_neg (N n c : Nat) (hn : 1 ≤ n) (e : ℝ) (he : 1 < e) : bicSolFitness N e n c < 0 := by
  have h1 : (1 : ℝ) ≤ n := by exact_mod_cast hn
  have h2 := mul_pos (by linarith : (0 : ℝ) < n) (Real.log_pos he)
  have h3 := mul_nonneg (Nat.cast_nonneg c : (0 : ℝ) ≤ c) (Real.log_nonneg h1)
  unfold bicSolFitness pseudoBIC
  rw [if_neg (by omega)]
  simp only [Option.getD_some]
  linarith

theorem bic_pos (N n c : Nat) (hn : 1 ≤ n) (hc : c ≤ n) (e : ℝ) (he : 0 < e) (he' : e * n < 1) : 0 < bicSolFitness N e n c := by
  have h1 : (1 : ℝ) ≤ n := by exact_mod_cast hn
  have h2 : (c : ℝ) ≤ n := by exact_mod_cast hc
  have h3 := mul_le_mul_of_nonneg_right h2 (Real.log_nonneg h1)
  have h4 := Real.log_neg (mul_pos he (by linarith : (0 : ℝ) < n)) he'
  rw [Real.log_mul he.ne' (by linarith)] at h4
  have h5 := mul_neg_of_pos_of_neg (by linarith : (0 : ℝ) < n) h4
  unfold bicSolFitness pseudoBIC
  rw [if_neg (by omega)]
  simp only [Option.getD_some]
  linarith

/-- C162 is false for the roulette wheel with `PseudoBIC`: training ends with the error model whenever one of the first solutions has an error above 1 and another one an error below one over the number of
rules (and the fitness values do not add up to exactly 0). -/
theorem C162_bic_refuted (cfg : SupCfg ℝ) (hinit : cfg.nInitial = 0) (hiter : 1 ≤ cfg.nIter) (hrules : 1 ≤ cfg.nRules) (raw : RawData ℝ d)
    (hraw : raw.finite = true ∧ raw.X.length = raw.y.length ∧ raw.X ≠ []) (c : SupComp ℝ d M) (hfit : c.fitness = bicSolFitness) (ga : GACfg ℝ)
    (draws : Seed → List (Event ℝ d M) → (poolSize size : Nat) → List (GADraw ℝ)) (hstrat : ∀ seed hist, c.strategy seed hist = fun n ev pop => gaOptimize ga (draws seed hist n pop.length) n ev pop)
    (hsel : ∀ seed hist n size, ∃ idx cross flips rest, draws seed hist n size = ⟨.roulette idx, cross, flips⟩ :: rest) (entropy : Nat) (cl : Bool) (st0 : SupState ℝ d M) (seed seed' : Seed)
    (hseed : (discoverySeeds entropy cfg.nIter)[0]? = some seed) (hseed' : (compositionSeeds entropy cfg.nIter)[0]? = some seed') (rules : List (Rule ℝ d M)) (hne : rules ≠ [])
    (hdisc : c.discover seed [] none [] raw.X raw.y cfg.nRules = .ok rules) (st : Nat → SolState ℝ)
    (hst : ∀ k < cfg.comp.populationSize, runEval cfg c raw.X raw.y rules (cfg.comp.init.bits (c.initDraw seed' k) rules.length) = .ok (st k))
    (i j : Nat) (hi : i < cfg.comp.populationSize) (hj : j < cfg.comp.populationSize) (h1 : 1 < (st i).error) (h0 : 0 < (st j).error) (h2 : (st j).error * rules.length < 1)
    (hsum : ((List.range cfg.comp.populationSize).map fun k => (st k).fitness).sum ≠ 0) :
    let r := st0.fit cfg c entropy raw cl
    r.raised = none ∧ r.state.isError = true ∧ r.state.isFitted = true ∧ r.state.pool = rules := by
  have hn : 1 ≤ rules.length := List.length_pos_iff.mpr hne
  have key := fun k hk => runEval_fitness cfg c raw.X raw.y rules _ (st k) (hst k hk)
  have hlen : ∀ k, (cfg.comp.init.bits (c.initDraw seed' k) rules.length).length = rules.length := fun k => InitOp.length_bits _ _ _
  refine C162_signs_refuted cfg hinit hiter hrules raw hraw c ga draws hstrat hsel entropy cl st0 seed seed' hseed hseed' rules hne hdisc st hst i j hi hj ?_ ?_ hsum
  · rw [key i hi, hfit, hlen]
    exact bic_neg _ _ _ hn _ h1
  · rw [key j hj, hfit, hlen]
    exact bic_pos _ _ _ hn (by have := List.count_le_length (a := true) (l := cfg.comp.init.bits (c.initDraw seed' j) rules.length); rwa [hlen] at this) _ h0 h2

/-! ### Examples -/

/-- Two runs that differ only in the fitness of solutions: with one that has both signs the roulette wheel makes training fail, with a positive one it completes. -/
example :
    (let D : DiscoveryPart ℚ 1 ℚ := .rs RSCfg.default fun _ _ => plainDraws 7
     let C : CompositionPart ℚ 1 ℚ := .ga smallGA fun _ _ _ _ => [parentDraw (.roulette [0, 0])]
     let init : Seed → Nat → Nat → ℚ := fun _ k _ => if k = 0 then 0 else 1
     let run := fun sf : Nat → SolFitness ℚ => partsFit smallCfg D C ⟨.plain, 2⟩ init meanLearner negErr sf 7 ⟨[![0], ![1 / 2], ![5]], [1, 3, 7], true⟩ false {}
     ((run fun _ e _ c => 30 * c - e).state.isError, (run fun _ _ _ c => 30 * c).state.isError)) = (true, false) := by decide +kernel

/-- A rule that predicts the only sample. -/
noncomputable def realRule : Rule ℝ 1 ℝ :=
  { kind := .ordered, bounds := ![(0, 1)], inputSpace := ![(0, 1)], model := some 2
    st := some ⟨true, ((1 / 10000 : ℝ) : WithTop ℝ), ((1 : ℝ) : WithBot ℝ), 1, [2], [true]⟩ }

/-- Components that find this rule and choose parents by roulette wheel with `PseudoBIC`; the first solution selects the rule, the second one does not. -/
noncomputable def realComp : SupComp ℝ 1 ℝ where
  discover := fun _ _ _ _ _ _ n => .ok (List.replicate n realRule)
  strategy := fun _ _ => gaOptimize ⟨2, 0, 0, 0⟩ [⟨.roulette [0, 1], fun _ _ => (0, .nPoint []), fun _ _ => 1⟩]
  initDraw := fun _ k _ => if k = 0 then 0 else 1
  learner := ⟨fun _ y => y.sum / (y.length : ℝ), fun c _ => c⟩
  mix := ⟨.plain, 1⟩
  filter := filterAll
  fitness := bicSolFitness

noncomputable def realCfg : SupCfg ℝ := { nIter := 1, nInitial := 0, nRules := 1, patience := -1, delta := 0, comp := ⟨2, true, .random (1 / 2)⟩, useArchive := true }

theorem realEval (b : Bool) : ∃ s, runEval realCfg realComp [![0]] [2] [realRule] [b] = .ok s ∧ s.error = (if b then 1 / 10000 else 4) ∧ s.inputSize = 1 ∧
    s.fitness = bicSolFitness 1 s.error 1 (if b then 1 else 0) := by
  have hN : realCfg.maxGenomeLength = 1 := rfl
  cases b
  · simp [runEval, evalGenome, Solution.fit, Solution.predict, Solution.subpopulation, compress, mixing, realComp, mse, errorFloor, hN]
    norm_num
  · have h : mixRules (⟨fun _ y => y.sum / (y.length : ℝ), fun c _ => c⟩ : Learner ℝ 1 ℝ) ⟨.plain, 1⟩ true [(![0] : Point ℝ 1)] [realRule] = .ok [2] := by
      simp [mixRules, realRule, Rule.localPred, Rule.tau, scatter, colSum, quotients, invError, ExpCalc.value, bind, Except.bind, pure, Except.pure]
    simp [runEval, evalGenome, Solution.fit, Solution.predict, Solution.subpopulation, compress, mixing, realComp, filterAll, h, mse, errorFloor, hN]

/-- The hypotheses of `C162_bic_refuted` hold for these components, so their training fails. -/
example : ∃ r, r = SupState.fit realCfg realComp 7 ⟨[![0]], [2], true⟩ false {} ∧ r.state.isError = true ∧ r.raised = none := by
  refine ⟨_, rfl, ?_⟩
  obtain ⟨s0, e0, a0, b0, f0⟩ := realEval true
  obtain ⟨s1, e1, a1, b1, f1⟩ := realEval false
  have h := C162_bic_refuted realCfg rfl (by decide) (by decide) ⟨[![0]], [2], true⟩ ⟨rfl, rfl, by simp⟩ realComp rfl ⟨2, 0, 0, 0⟩
    (fun _ _ _ _ => [⟨.roulette [0, 1], fun _ _ => (0, .nPoint []), fun _ _ => 1⟩]) (fun _ _ => rfl) (fun _ _ _ _ => ⟨_, _, _, _, rfl⟩) 7 false {} _ _ rfl rfl [realRule] (by simp) rfl
    (fun k => if k = 0 then s0 else s1) ?_ 1 0 (by decide) (by decide) ?_ ?_ ?_ ?_
  · exact ⟨h.2.1, h.1⟩
  · intro k hk
    have hk : k < 2 := hk
    interval_cases k
    · exact (by simpa [realCfg, realComp, InitOp.bits, randomBits] using e0)
    · have h : ¬ ((1 : ℝ) ≤ 2⁻¹) := by norm_num
      exact (by simpa [realCfg, realComp, InitOp.bits, randomBits, h] using e1)
  · simp [a1]
  · simp [a0]
  · simp [a0]; norm_num
  · have hb : ∀ (e : ℝ) (c : Nat), bicSolFitness 1 e 1 c = -Real.log e := fun e c => by simp [bicSolFitness, pseudoBIC]
    have hlog : 0 < Real.log (2500 : ℝ) := Real.log_pos (by norm_num)
    have h1 : Real.log (1 / 10000 : ℝ) + Real.log 4 = -Real.log 2500 := by
      rw [← Real.log_mul (by norm_num) (by norm_num), ← Real.log_inv]
      norm_num
    rw [show realCfg.comp.populationSize = 2 from rfl]
    simp only [List.range_succ, List.range_zero, List.nil_append, List.cons_append, List.map_cons, List.map_nil, List.sum_cons, List.sum_nil, if_true, one_ne_zero, if_false, f0, f1, a0, a1, hb,
      Bool.false_eq_true]
    linarith

end Suprb
