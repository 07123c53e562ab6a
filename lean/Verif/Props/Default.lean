import Verif.Lemmas.Default

/-!
# Claims C79–C81: models trained with the default components
-/

set_option autoImplicit false
set_option linter.unusedSectionVars false

namespace Suprb

open Spec

variable {K : Type} [Field K] [LinearOrder K] [IsStrictOrderedRing K] {d : Nat} {M : Type}

/-- The random numbers numpy can return in a run: origins drawn according to the probabilities, mutation draws of the configured kind, tournaments among the members of the population. -/
structure RunDraws.Possible (D : RunDraws K d M) (es : ESCfg K) (ga : GACfg K) (k : Nat) (sigma : K × K) : Prop where
  origins : ∀ seed hist N n probs, N ≠ 0 → IsDistribution N probs → PossibleChoice N n probs (D.origins seed hist N n probs)
  children : ∀ seed hist r g c, es.mutation.DrawOk .ordered sigma (D.children seed hist r g c)
  ga : ∀ seed hist n size, PossibleGA ga k size (D.ga seed hist n size)

/-- What a user can expect of the settings: at least one iteration, rule and solution; a delay of at least 1 for the operator `&`; an increasing mutation (the default). -/
structure DefaultSettings (cfg : SupCfg K) (es : ESCfg K) (ga : GACfg K) (k : Nat) : Prop where
  iter : 1 ≤ cfg.nIter
  rules : 1 ≤ cfg.nRules
  size : 1 ≤ cfg.comp.populationSize
  gaSize : 1 ≤ ga.populationSize
  tournament : 1 ≤ k
  delay : es.operator = .amp → 1 ≤ es.delay
  mutation : IsIncrease es.mutation
  beta : 0 < es.beta

theorem defaultComp_good (es : ESCfg K) (ga : GACfg K) (D : RunDraws K d M) (L : Learner K d M) (ff : RuleFitness K d) (sf : Nat → SolFitness K) :
    (defaultComp es ga D L ff sf).GoodStrategies := fun seed hist => gaSized_good ga (D.ga seed hist)

theorem esDiscover_length (cfg : ESCfg K) (L : Learner K d M) (ff : RuleFitness K d) (draw : Option (List K) → List Nat) (children : Nat → Nat → Nat → Pairs K d)
    (elitist : Option (Indiv K)) (pool : List (Rule K d M)) (X : List (Point K d)) (y : List K) (n : Nat) (rules : List (Rule K d M))
    (h : esDiscover cfg L ff draw children elitist pool X y n = .ok rules) : rules.length ≤ n := by
  unfold esDiscover at h
  split at h
  · cases h
  · split at h
    · cases h
    · unfold discoverRules at h
      split at h
      · cases h
      · rename_i initial _
        split at h
        · cases h
        · rename_i raw hr
          have b1 := filterInvalid_length _ _ _ h
          have b2 := mapM_length _ _ _ hr
          have b3 : ∀ gens : Nat → List (List (Pairs K d) × Unit), (initial.zip ((List.range n).map gens)).length ≤ n := by simp
          exact b1.trans (b2.trans_le (b3 _))

/-- C130 for the evolution strategy in a run with the default components: discovering `n` rules uses the random numbers of at most `n_iter` generations of `lmbda` children for each of
them, and no others. -/
theorem C130_default_discovery (cfg : ESCfg K) (L : Learner K d M) (ff : RuleFitness K d) (draw : Option (List K) → List Nat) (children children' : Nat → Nat → Nat → Pairs K d)
    (elitist : Option (Indiv K)) (pool : List (Rule K d M)) (X : List (Point K d)) (y : List K) (n : Nat)
    (h : ∀ k g c, k < n → g < cfg.nIter → c < cfg.lmbda → children k g c = children' k g c) :
    esDiscover cfg L ff draw children elitist pool X y n = esDiscover cfg L ff draw children' elitist pool X y n := by
  have e : ∀ N, N ≤ n → ((List.range N).map fun k => (List.range cfg.nIter).map fun g => ((List.range cfg.lmbda).map (children k g), ())) =
      (List.range N).map fun k => (List.range cfg.nIter).map fun g => ((List.range cfg.lmbda).map (children' k g), ()) := by
    intro N hN
    refine List.map_congr_left fun k hk => List.map_congr_left fun g hg => ?_
    rw [List.mem_range] at hk hg
    rw [List.map_congr_left fun c hc => h k g c (by omega) hg (List.mem_range.1 hc)]
  unfold esDiscover
  rw [e n le_rfl]

/-- Other random numbers from the second child on change nothing for `lmbda = 1`. -/
example : esDiscover { (ESCfg.default : ESCfg ℚ) with nIter := 2, lmbda := 1, delay := 1 } meanLearner negErr (fun _ => [0]) (fun _ _ _ _ => (1, 1)) none [] [![0], ![1]] [1, 3] 1 =
    esDiscover { (ESCfg.default : ESCfg ℚ) with nIter := 2, lmbda := 1, delay := 1 } meanLearner negErr (fun _ => [0]) (fun _ _ c _ => (1 + c, 1)) none [] [![0], ![1]] [1, 3] 1 :=
  C130_default_discovery _ _ _ _ _ _ _ _ _ _ _ fun k g c _ _ hc => by
    have : c = 0 := Nat.lt_one_iff.1 hc
    subst this
    simp

theorem defaultComp_noFailure (cfg : SupCfg K) (es : ESCfg K) (ga : GACfg K) (k : Nat) (hs : DefaultSettings cfg es ga k) (sigma : K × K)
    (D : RunDraws K d M) (hD : D.Possible es ga k sigma) (L : Learner K d M) (ff : RuleFitness K d) (sf : Nat → SolFitness K)
    (X : List (Point K d)) (y : List K) (hX : X ≠ []) (hxy : y.length = X.length) (fb : Pairs K d) (hfb : estimateBounds X = .ok fb) :
    (defaultComp es ga D L ff sf).NoFailure cfg X y fun ρ => ρ.InPool L ff X y fb es.beta := by
  have hN : X.length ≠ 0 := fun h => hX (List.length_eq_zero_iff.mp h)
  refine ⟨?_, ?_, fun seed hist _ _ _ => (gaOptimize_total ga k hs.tournament hs.gaSize (D.ga seed hist) (hD.ga seed hist)).totalAt _ _⟩
  · intro seed hist el pool n _ hpool hel _
    obtain ⟨rules, h1, _, h2⟩ := esDiscover_total es hs.delay hs.mutation sigma L ff X y hX hxy fb hfb (D.origins seed hist X.length n) (D.children seed hist) el pool n
      (fun probs hp => hD.origins _ _ _ _ probs hN hp) (hD.children seed hist) hel hpool
    exact ⟨rules, h1, h2⟩
  · intro pool hpool g hg
    refine eval_total cfg (defaultComp es ga D L ff sf) rfl ff X y hxy hX pool ?_ g hg
    intro ρ hρ
    obtain ⟨_, _, _, _, _, hm⟩ := (hpool ρ hρ).matchesData
    exact ⟨(hpool ρ hρ).fromData.fitted, hm⟩

/-- What a user sees of a rule in the pool: an interval per feature within the range of the training data, at least one training sample inside, a model trained on the samples inside, and
a mean squared error on them of at most the mean of their squared targets divided by `beta`. -/
structure PoolRule (L : Learner K d M) (X : List (Point K d)) (y : List K) (beta : K) (ρ : Rule K d M) : Prop where
  range : ∀ i, (∃ x ∈ X, x i ≤ (ρ.bounds i).1) ∧ (ρ.bounds i).1 ≤ (ρ.bounds i).2 ∧ ∃ x ∈ X, (ρ.bounds i).2 ≤ x i
  interval : ∀ x, ρ.kind.call ρ.bounds x = true ↔ ∀ i, (ρ.bounds i).1 ≤ x i ∧ x i ≤ (ρ.bounds i).2
  matched : ∃ x ∈ X, ρ.kind.call ρ.bounds x = true
  trained : DescribesData L ρ X y
  error : ∃ m, ρ.model = some m ∧ meanSqErr (L.predict m) (matchedData ρ X y) ≤
    ((matchedData ρ X y).map fun q => q.2 ^ 2).sum / ((matchedData ρ X y).length : K) / beta

theorem Rule.InPool.poolRule {L : Learner K d M} {ff : RuleFitness K d} {X : List (Point K d)} {y : List K} {fb : Pairs K d} {beta : K} {ρ : Rule K d M}
    (hxy : y.length = X.length) (hX : X ≠ []) (hfb : estimateBounds X = .ok fb) (hb : 0 < beta) (h : ρ.InPool L ff X y fb beta) : PoolRule L X y beta ρ := by
  have ht : ρ.TrainedOn L X y := by
    obtain ⟨ρ0, k, h0, _, hf⟩ := h.fromData.fitted
    rw [fits_replicate L ff X y hxy _ h0 k] at hf
    exact trainedOn_of_fit L ff X y hxy ρ0 ρ h0 hf
  obtain ⟨hm, s, m, e, _, hmod, _, h1, h2⟩ := C30_variance L X y hxy beta hb ρ ht h.accepted
  obtain ⟨b, hb1, _, hb2⟩ := (C71_bounds X).2 hX
  rw [hfb] at hb1; cases hb1
  refine ⟨fun i => ⟨?_, h.fromData.ordered i, ?_⟩, fun x => ?_, hm, ht.2 hm, m, hmod, h2.trans h1⟩
  · obtain ⟨x, hx, e⟩ := (hb2 i).1
    exact ⟨x, hx, by rw [← e]; exact (h.fromData.inside i).1⟩
  · obtain ⟨x, hx, e⟩ := (hb2 i).2
    exact ⟨x, hx, by rw [← e]; exact (h.fromData.inside i).2.2.2⟩
  · rw [h.fromData.kind]
    exact OrderedBound.call_iff _ _

/-- The result of a fit with components that do not fail. -/
theorem trained_result (cfg : SupCfg K) (c : SupComp K d M) (hg : c.GoodStrategies) (hbd : c.Bounded) (hiter : 1 ≤ cfg.nIter) (hrules : 1 ≤ cfg.nRules)
    (hsize : 1 ≤ cfg.comp.populationSize) (entropy : Nat) (raw : RawData K d) (hraw : raw.check = .ok (raw.X, raw.y)) (cl : Bool) (st0 : SupState K d M)
    (hinit : cfg.nInitial = 0 ∨ st0.step < cfg.nIter) (good : Rule K d M → Prop) (hnf : c.NoFailure cfg raw.X raw.y good) :
    let r := st0.fit cfg c entropy raw cl
    r.Completed ∧ r.state.isFitted = true ∧ r.state.pool.length ≤ cfg.maxGenomeLength ∧ (∀ ρ ∈ r.state.pool, good ρ) ∧
      ∃ σ, r.state.elitist = some (.solution σ) ∧ σ.pool = r.state.pool ∧ σ.genome.length = σ.pool.length := by
  obtain ⟨s, el, hrun, hel, hlen, ⟨st, hst⟩, hgood⟩ := run_completes cfg c hg entropy raw.X raw.y st0.step _ hnf hiter hrules hsize hinit
  have hb : s.pool.length ≤ cfg.maxGenomeLength := by
    have := (run_bounded cfg c hbd
      (runEval cfg c raw.X raw.y) entropy raw.X raw.y st0.step).2.2
    rw [hrun] at this
    exact this
  intro r
  have hr : r = finishFit { { st0 with isError := false, elitist := some .placeholder } with pool := [], cleaned := false } cl s := by
    show st0.fit _ _ _ _ _ = _
    unfold SupState.fit SupState.fitWith
    rw [hraw]
    dsimp only
    rw [hrun]
  rw [hr]
  unfold finishFit FitResult.Completed
  rw [hel]
  dsimp only
  rw [Indiv.clone_ok el st hst]
  dsimp only
  cases cl with
  | false => exact ⟨⟨rfl, rfl⟩, rfl, hb, hgood, _, rfl, rfl, hlen⟩
  | true =>
    obtain ⟨σ', h1, h2, h3, _⟩ := C25_cleanup ({ genome := el.genome, pool := s.pool, st := el.st } : Solution K d M) hlen
    have hsub : σ'.pool = compress s.pool el.genome := by
      unfold Solution.subpopulation at h2
      rw [if_pos hlen] at h2
      exact Except.ok.inj h2
    have hl' : σ'.genome.length = σ'.pool.length := by
      by_contra hne
      rw [← h2] at h3
      unfold Solution.subpopulation at h3
      rw [if_neg hne] at h3
      cases h3
    rw [if_pos rfl, h1]
    refine ⟨⟨rfl, rfl⟩, rfl, ?_, ?_, σ', rfl, rfl, hl'⟩
    · dsimp only
      rw [hsub]
      rw [length_compress _ _ hlen.symm]
      exact List.count_le_length.trans (by rw [hlen]; exact hb)
    · dsimp only
      rw [hsub]
      exact fun ρ h => hgood ρ (mem_of_mem_compress h)

theorem default_result (cfg : SupCfg K) (es : ESCfg K) (ga : GACfg K) (k : Nat) (hs : DefaultSettings cfg es ga k) (sigma : K × K)
    (D : RunDraws K d M) (hD : D.Possible es ga k sigma) (L : Learner K d M) (ff : RuleFitness K d) (sf : Nat → SolFitness K) (entropy : Nat)
    (raw : RawData K d) (hraw : raw.check = .ok (raw.X, raw.y)) (cl : Bool) (st0 : SupState K d M) (hinit : cfg.nInitial = 0 ∨ st0.step < cfg.nIter)
    (fb : Pairs K d) (hfb : estimateBounds raw.X = .ok fb) :
    let r := st0.fit cfg (defaultComp es ga D L ff sf) entropy raw cl
    r.Completed ∧ r.state.isFitted = true ∧ r.state.pool.length ≤ cfg.maxGenomeLength ∧ (∀ ρ ∈ r.state.pool, ρ.InPool L ff raw.X raw.y fb es.beta) ∧
      ∃ σ, r.state.elitist = some (.solution σ) ∧ σ.pool = r.state.pool ∧ σ.genome.length = σ.pool.length := by
  have hv : raw.X ≠ [] ∧ raw.y.length = raw.X.length := by
    unfold RawData.check at hraw
    split at hraw
    · rename_i h; exact ⟨h.2.2, h.2.1.symm⟩
    · cases hraw
  have hg := defaultComp_good es ga D L ff sf
  have hnf := defaultComp_noFailure cfg es ga k hs sigma D hD L ff sf raw.X raw.y hv.1 hv.2 fb hfb
  exact trained_result cfg _ hg (fun seed hist el pool X y n rules h => esDiscover_length _ _ _ _ _ _ _ _ _ _ _ h) hs.iter hs.rules hs.size entropy raw hraw cl st0 hinit _ hnf

/-! ### C79 the default configuration trains -/

/-- C79: with valid data, `fit` with the default components completes for every seed and all random numbers, and its pool has at most `n_initial_rules + n_iter * n_rules` rules, all of
which are as described by `PoolRule`. (`hinit` excludes a refit with initial rules after a fit with more iterations, see `C52_refuted` and C54.) -/
theorem C79_default_fit (cfg : SupCfg K) (es : ESCfg K) (ga : GACfg K) (k : Nat) (hs : DefaultSettings cfg es ga k) (sigma : K × K)
    (D : RunDraws K d M) (hD : D.Possible es ga k sigma) (L : Learner K d M) (ff : RuleFitness K d) (sf : Nat → SolFitness K) (entropy : Nat)
    (raw : RawData K d) (hraw : raw.finite = true ∧ raw.X.length = raw.y.length ∧ raw.X ≠ []) (cl : Bool) (st0 : SupState K d M)
    (hinit : cfg.nInitial = 0 ∨ st0.step < cfg.nIter) :
    let r := st0.fit cfg (defaultComp es ga D L ff sf) entropy raw cl
    r.raised = none ∧ r.state.isError = false ∧ r.state.isFitted = true ∧ r.state.pool.length ≤ cfg.nInitial + cfg.nIter * cfg.nRules ∧
      ∀ ρ ∈ r.state.pool, PoolRule L raw.X raw.y es.beta ρ := by
  obtain ⟨fb, hfb, _⟩ := estimateBounds_ok raw.X hraw.2.2
  have hc : raw.check = .ok (raw.X, raw.y) := by unfold RawData.check; rw [if_pos hraw]
  obtain ⟨h1, h2, h3, h4, _⟩ := default_result cfg es ga k hs sigma D hD L ff sf entropy raw hc cl st0 hinit fb hfb
  refine ⟨h1.1, h1.2, h2, ?_, fun ρ hρ => (h4 ρ hρ).poolRule hraw.2.1.symm hraw.2.2 hfb hs.beta⟩
  unfold SupCfg.maxGenomeLength at h3
  rw [Nat.mul_comm cfg.nIter, Nat.add_comm]
  exact h3

/-- C79 for the default values of all parameters: fit completes for all data, seeds and random numbers, and the mean squared error of each rule is at most the mean squared target. -/
theorem C79_default_values (sigma : K × K) (D : RunDraws K d M) (hD : D.Possible ESCfg.default GACfg.default 5 sigma) (L : Learner K d M) (ff : RuleFitness K d) (sf : Nat → SolFitness K)
    (entropy : Nat) (raw : RawData K d) (hraw : raw.finite = true ∧ raw.X.length = raw.y.length ∧ raw.X ≠ []) (cl : Bool) (st0 : SupState K d M) :
    let r := st0.fit SupCfg.default (defaultComp ESCfg.default GACfg.default D L ff sf) entropy raw cl
    r.raised = none ∧ r.state.isError = false ∧ r.state.isFitted = true ∧ r.state.pool.length ≤ 128 ∧ ∀ ρ ∈ r.state.pool, PoolRule L raw.X raw.y 1 ρ := by
  have h := C79_default_fit SupCfg.default ESCfg.default GACfg.default 5 ⟨by simp [SupCfg.default], by simp [SupCfg.default], by simp [SupCfg.default], by simp [GACfg.default], by decide,
    fun _ => by simp [ESCfg.default], .inl rfl, by simp [ESCfg.default]⟩ sigma D hD L ff sf entropy raw hraw cl st0 (Or.inl rfl)
  exact ⟨h.1, h.2.1, h.2.2.1, h.2.2.2.1, h.2.2.2.2⟩

/-! ### C80 predictions of default models, C81 extrapolation -/

/-- C80: `predict` of a model trained with the default components never fails. It returns one value per sample: zero where no rule of the elitist matches, otherwise a value between the
smallest and the largest local prediction of the matching rules of the elitist. -/
theorem C80_default_predict (cfg : SupCfg K) (es : ESCfg K) (ga : GACfg K) (k : Nat) (hs : DefaultSettings cfg es ga k) (sigma : K × K)
    (D : RunDraws K d M) (hD : D.Possible es ga k sigma) (L : Learner K d M) (ff : RuleFitness K d) (sf : Nat → SolFitness K) (entropy : Nat)
    (raw : RawData K d) (hraw : raw.finite = true ∧ raw.X.length = raw.y.length ∧ raw.X ≠ []) (cl : Bool) (st0 : SupState K d M)
    (hinit : cfg.nInitial = 0 ∨ st0.step < cfg.nIter) (Xq : List (Point K d)) (hq : Xq ≠ []) :
    ∃ σ out, (st0.fit cfg (defaultComp es ga D L ff sf) entropy raw cl).state.elitist = some (.solution σ) ∧ σ.genome.length = σ.pool.length ∧
      (∀ ρ ∈ compress σ.pool σ.genome, PoolRule L raw.X raw.y es.beta ρ) ∧
      (st0.fit cfg (defaultComp es ga D L ff sf) entropy raw cl).state.predict (defaultComp es ga D L ff sf) Xq = .ok out ∧ out.length = Xq.length ∧
      ∀ x v, (x, v) ∈ Xq.zip out →
        ((∀ ρ ∈ compress σ.pool σ.genome, ρ.kind.call ρ.bounds x = false) → v = 0) ∧
        ((∃ ρ ∈ compress σ.pool σ.genome, ρ.kind.call ρ.bounds x = true) →
          ∀ a b, (∀ ρ ∈ compress σ.pool σ.genome, ρ.kind.call ρ.bounds x = true → ∀ u, ρ.LocalPrediction L x u → a ≤ u ∧ u ≤ b) → a ≤ v ∧ v ≤ b) := by
  obtain ⟨fb, hfb, _⟩ := estimateBounds_ok raw.X hraw.2.2
  have hc : raw.check = .ok (raw.X, raw.y) := by unfold RawData.check; rw [if_pos hraw]
  obtain ⟨h1, h2, _, h4, σ, h5, h6, h7⟩ := default_result cfg es ga k hs sigma D hD L ff sf entropy raw hc cl st0 hinit fb hfb
  have hpool : ∀ ρ ∈ σ.pool, ρ.InPool L ff raw.X raw.y fb es.beta := by rw [h6]; exact h4
  obtain ⟨out, h8, h9, h10⟩ := C17_convex L (defaultComp es ga D L ff sf).mix (by exact one_pos) (ExpCalc.plain_positive d) σ h7
    (fun ρ hρ => usable_of_fitted ρ raw.X ((hpool ρ hρ).fromData.consistent hraw.2.1.symm) (by
      obtain ⟨_, _, _, _, _, hm⟩ := (hpool ρ hρ).matchesData
      exact hm)) Xq
  refine ⟨σ, out, h5, h7, fun ρ hρ => (hpool ρ (mem_of_mem_compress hρ)).poolRule hraw.2.1.symm hraw.2.2 hfb hs.beta, ?_, h9, h10⟩
  unfold SupState.predict
  rw [h2, h1.2, h5]
  simp only [Bool.true_eq_false, if_false, if_neg hq, Bool.false_eq_true]
  exact h8

/-- C81: a sample with a feature below or above all training samples gets the prediction zero from every model trained with the default components. -/
theorem C81_extrapolation (cfg : SupCfg K) (es : ESCfg K) (ga : GACfg K) (k : Nat) (hs : DefaultSettings cfg es ga k) (sigma : K × K)
    (D : RunDraws K d M) (hD : D.Possible es ga k sigma) (L : Learner K d M) (ff : RuleFitness K d) (sf : Nat → SolFitness K) (entropy : Nat)
    (raw : RawData K d) (hraw : raw.finite = true ∧ raw.X.length = raw.y.length ∧ raw.X ≠ []) (cl : Bool) (st0 : SupState K d M)
    (hinit : cfg.nInitial = 0 ∨ st0.step < cfg.nIter) (Xq : List (Point K d)) (hq : Xq ≠ []) :
    ∃ out, (st0.fit cfg (defaultComp es ga D L ff sf) entropy raw cl).state.predict (defaultComp es ga D L ff sf) Xq = .ok out ∧ out.length = Xq.length ∧
      ∀ x v, (x, v) ∈ Xq.zip out → (∃ i, (∀ z ∈ raw.X, x i < z i) ∨ ∀ z ∈ raw.X, z i < x i) → v = 0 := by
  obtain ⟨σ, out, _, _, h3, h4, h5, h6⟩ := C80_default_predict cfg es ga k hs sigma D hD L ff sf entropy raw hraw cl st0 hinit Xq hq
  refine ⟨out, h4, h5, fun x v hxv hout => (h6 x v hxv).1 fun ρ hρ => ?_⟩
  obtain ⟨i, hi⟩ := hout
  obtain ⟨⟨z, hz, hz1⟩, _, w, hw, hw1⟩ := (h3 ρ hρ).range i
  by_contra hne
  obtain ⟨a1, a2⟩ := ((h3 ρ hρ).interval x).mp (by simpa using hne) i
  rcases hi with hi | hi
  · exact absurd (hi z hz) (not_lt.mpr (hz1.trans a1))
  · exact absurd (hi w hw) (not_lt.mpr (a2.trans hw1))

/-! ### C82 default fitness values are numbers -/

section Reals

variable {d : Nat} {M : Type}

theorem volume_pos_of_varied (X : List (Point ℝ d)) (hX : X ≠ []) (hvar : ∀ i, ∃ x ∈ X, ∃ z ∈ X, x i ≠ z i) (fb : Pairs ℝ d) (hfb : estimateBounds X = .ok fb) :
    0 < inputSpaceVolume fb := by
  obtain ⟨fb', h1, h2, _⟩ := estimateBounds_ok X hX
  rw [hfb] at h1; cases h1
  refine Finset.prod_pos fun i _ => ?_
  obtain ⟨x, hx, z, hz, hne⟩ := hvar i
  have a := h2 x hx i
  have b := h2 z hz i
  rcases lt_or_gt_of_ne hne with h | h
  · linarith [a.1, b.2]
  · linarith [b.1, a.2]

theorem alphaOk_wu (a : ℝ) (ha : a ≠ 0) : AlphaOk .wu a := ha

theorem volumeWu_eq (nan nan' : ℝ) (fb b : Pairs ℝ d) (hpos : 0 < inputSpaceVolume fb) (hb : Ordered b) (hin : Inside fb b) (e : ℝ) :
    volumeWu nan e .ordered b fb = volumeWu nan' e .ordered b fb := by
  have hden : (0.05 : ℝ) ^ 2 * Real.exp (-2 * e) + Kind.ordered.volume b / inputSpaceVolume fb ≠ 0 := by
    have h1 := Real.exp_pos (-2 * e)
    have h2 := (volume_share_range b fb hb hin hpos).1
    have : 0 < (0.05 : ℝ) ^ 2 * Real.exp (-2 * e) := by positivity
    linarith
  unfold volumeWu
  rw [volumeFitness_eq _ _ _ _ _ _ hpos]
  simp only [Combine.apply, wu, if_neg hden, Option.map_some]

theorem volumeWu_range (nan : ℝ) (fb b : Pairs ℝ d) (hpos : 0 < inputSpaceVolume fb) (hb : Ordered b) (hin : Inside fb b) (e : ℝ) (he : 0 ≤ e) :
    volumeFitness .wu 0.05 .ordered b fb e = .ok (some (volumeWu nan e .ordered b fb)) ∧ 0 ≤ volumeWu nan e .ordered b fb ∧ volumeWu nan e .ordered b fb ≤ 100 := by
  obtain ⟨v, h1, h2, h3, _⟩ := C28_range_partial .wu 0.05 (alphaOk_wu 0.05 (by norm_num)) b fb hb hin hpos e he
  have : volumeWu nan e .ordered b fb = v := by unfold volumeWu; rw [h1]
  rw [this]
  exact ⟨h1, h2, h3⟩

theorem complexityWu_eq (nan nan' : ℝ) (N n c : Nat) (hN : 0 < N) (hc : c ≤ N) (e : ℝ) : complexityWu nan N e n c = complexityWu nan' N e n c := by
  have hden : (0.3 : ℝ) ^ 2 * Real.exp (-2 * e) + (1 - (c : ℝ) / (N : ℝ)) ≠ 0 := by
    have h1 := Real.exp_pos (-2 * e)
    have h2 := (cNorm_range N c hN hc).1
    have : 0 < (0.3 : ℝ) ^ 2 * Real.exp (-2 * e) := by positivity
    linarith
  unfold complexityWu
  rw [complexityFitness_eq _ _ _ hN]
  simp only [Combine.apply, wu, if_neg hden, Option.map_some]

theorem complexityWu_range (nan : ℝ) (N n c : Nat) (hN : 0 < N) (hc : c ≤ N) (e : ℝ) (he : 0 ≤ e) :
    complexityFitness .wu 0.3 N e c = .ok (some (complexityWu nan N e n c)) ∧ 0 ≤ complexityWu nan N e n c ∧ complexityWu nan N e n c ≤ 100 := by
  obtain ⟨v, h1, h2, h3, _⟩ := C27_range .wu 0.3 (alphaOk_wu 0.3 (by norm_num)) N hN e he c hc
  have : complexityWu nan N e n c = v := by unfold complexityWu; rw [h1]
  rw [this]
  exact ⟨h1, h2, h3⟩

/-- C82: if no feature is constant in the training data, training with the default fitness functions does not depend on what NaN is: it never occurs. -/
theorem C82_no_nan (cfg : SupCfg ℝ) (es : ESCfg ℝ) (ga : GACfg ℝ) (k : Nat) (hs : DefaultSettings cfg es ga k)
    (D : RunDraws ℝ d M) (L : Learner ℝ d M) (entropy : Nat) (raw : RawData ℝ d) (hvar : ∀ i, ∃ x ∈ raw.X, ∃ z ∈ raw.X, x i ≠ z i) (cl : Bool) (st0 : SupState ℝ d M)
    (nan1 nan2 nan1' nan2' : ℝ) :
    st0.fit cfg (defaultComp es ga D L (volumeWu nan1) (complexityWu nan2)) entropy raw cl =
      st0.fit cfg (defaultComp es ga D L (volumeWu nan1') (complexityWu nan2')) entropy raw cl := by
  unfold SupState.fit SupState.fitWith RawData.check
  by_cases hraw : raw.finite = true ∧ raw.X.length = raw.y.length ∧ raw.X ≠ []
  · rw [if_pos hraw]
    dsimp only
    obtain ⟨fb, hfb, _⟩ := estimateBounds_ok raw.X hraw.2.2
    have hpos := volume_pos_of_varied raw.X hraw.2.2 hvar fb hfb
    have hN : 0 < cfg.maxGenomeLength := by
      unfold SupCfg.maxGenomeLength
      have := Nat.mul_le_mul hs.rules hs.iter
      omega
    rw [runFit_congr_comp cfg _ (defaultComp es ga D L (volumeWu nan1') (complexityWu nan2')) (defaultComp_good es ga D L _ _) _ _ entropy raw.X raw.y
      (fun seed hist el pool n => esDiscover_congr es hs.mutation L (volumeWu nan1) (volumeWu nan1') raw.X raw.y hraw.2.2 hraw.2.1.symm fb hfb
        (fun e b h1 h2 => volumeWu_eq _ _ fb b hpos h1 h2 e) _ _ el pool n)
      (fun seed hist el pool n rules h => esDiscover_length _ _ _ _ _ _ _ _ _ _ _ h) rfl rfl ?_]
    intro pool g hp hg
    have hc : g.count true ≤ cfg.maxGenomeLength := List.count_le_length.trans (by rw [hg]; exact hp)
    unfold runEval evalGenome Solution.fit
    dsimp only [defaultComp]
    simp only [complexityWu_eq nan2 nan2' cfg.maxGenomeLength g.length (g.count true) hN hc]
  · rw [if_neg hraw]

/-- C82: under the same conditions every rule of the pool has the fitness `VolumeWu` gives for its error and volume, and the elitist the one `ComplexityWu` gives for its error and complexity;
all are numbers between 0 and 100. -/
theorem C82_fitness_values (cfg : SupCfg ℝ) (es : ESCfg ℝ) (ga : GACfg ℝ) (k : Nat) (hs : DefaultSettings cfg es ga k) (sigma : ℝ × ℝ)
    (D : RunDraws ℝ d M) (hD : D.Possible es ga k sigma) (L : Learner ℝ d M) (nan1 nan2 : ℝ) (entropy : Nat)
    (raw : RawData ℝ d) (hraw : raw.finite = true ∧ raw.X.length = raw.y.length ∧ raw.X ≠ []) (hvar : ∀ i, ∃ x ∈ raw.X, ∃ z ∈ raw.X, x i ≠ z i)
    (cl : Bool) (st0 : SupState ℝ d M) (hinit : cfg.nInitial = 0 ∨ st0.step < cfg.nIter) :
    let r := st0.fit cfg (defaultComp es ga D L (volumeWu nan1) (complexityWu nan2)) entropy raw cl
    (∀ ρ ∈ r.state.pool, ∃ s e v, ρ.st = some s ∧ s.error = ((e : ℝ) : WithTop ℝ) ∧ s.fitness = ((v : ℝ) : WithBot ℝ) ∧
      volumeFitness .wu 0.05 .ordered ρ.bounds ρ.inputSpace e = .ok (some v) ∧ 0 ≤ v ∧ v ≤ 100) ∧
    ∃ σ s, r.state.elitist = some (.solution σ) ∧ σ.st = some s ∧
      complexityFitness .wu 0.3 (cfg.nInitial + cfg.nIter * cfg.nRules) s.error (σ.genome.count true) = .ok (some s.fitness) ∧ 0 ≤ s.fitness ∧ s.fitness ≤ 100 := by
  obtain ⟨fb, hfb, _⟩ := estimateBounds_ok raw.X hraw.2.2
  have hpos := volume_pos_of_varied raw.X hraw.2.2 hvar fb hfb
  have hc : raw.check = .ok (raw.X, raw.y) := by unfold RawData.check; rw [if_pos hraw]
  have hN : 0 < cfg.maxGenomeLength := by
    unfold SupCfg.maxGenomeLength
    have := Nat.mul_le_mul hs.rules hs.iter
    omega
  have hN' : cfg.nInitial + cfg.nIter * cfg.nRules = cfg.maxGenomeLength := by
    unfold SupCfg.maxGenomeLength
    rw [Nat.mul_comm cfg.nIter, Nat.add_comm]
  obtain ⟨h1, h2, h3, h4, σ, h5, h6, h7⟩ := default_result cfg es ga k hs sigma D hD L (volumeWu nan1) (complexityWu nan2) entropy raw hc cl st0 hinit fb hfb
  refine ⟨fun ρ hρ => ?_, ?_⟩
  · obtain ⟨hd, hm, _⟩ := h4 ρ hρ
    obtain ⟨ρ0, j, h0, hm0, hf⟩ := hd.fitted
    rw [fits_replicate L _ raw.X raw.y hraw.2.1.symm _ h0 j] at hf
    have hsame := fit_consistent L (volumeWu nan1) raw.X raw.X raw.y hraw.2.1.symm rfl ρ0 (Or.inl h0)
    obtain ⟨ρ', e', hsh, _⟩ := hsame
    rw [hf] at e'; cases e'
    unfold Rule.fit at hf
    dsimp only at hf
    split at hf
    · cases hf
      obtain ⟨s, hs1, hs2, _⟩ := hm
      cases hs1
      cases hs2
    · rw [h0] at hf
      unfold Rule.refit at hf
      rw [if_neg (by rw [hraw.2.1]; simp)] at hf
      dsimp only at hf
      have he : (0 : ℝ) ≤ max (mse (compress raw.y (ρ0.matchRows raw.X)) ((compress raw.X (ρ0.matchRows raw.X)).map
          (L.predict (L.fit (compress raw.X (ρ0.matchRows raw.X)) (compress raw.y (ρ0.matchRows raw.X)))))) errorFloor :=
        le_max_of_le_right (by unfold errorFloor; norm_num)
      have hr := volumeWu_range nan1 fb ρ.bounds hpos hd.ordered hd.inside _ he
      have hk : ρ0.kind = .ordered := by rw [← hsh.1]; exact hd.kind
      have hb : ρ0.bounds = ρ.bounds := hsh.2.1.symm
      have hsp : ρ0.inputSpace = fb := by rw [← hsh.2.2]; exact hd.space
      have hst := (congrArg Rule.st (Except.ok.inj hf)).symm
      dsimp only at hst
      rw [hk, hb, hsp] at hst
      refine ⟨_, _, _, hst, rfl, rfl, ?_⟩
      rw [hd.space]
      exact hr
  · obtain ⟨_, s, el, hrun, hel, _, _, σ', hσ', hσ1, hσ2⟩ := completed_run _ _ _ _ _ _ _ h1
    have hok := (run_lengths cfg _ (defaultComp_good es ga D L _ _) (runEval cfg (defaultComp es ga D L (volumeWu nan1) (complexityWu nan2)) raw.X raw.y) entropy raw.X raw.y st0.step).2 s hrun
    obtain ⟨hl, st, hst, hev⟩ := hok.elitist_len el hel
    have hb : s.pool.length ≤ cfg.maxGenomeLength := by
      have := (run_bounded cfg (defaultComp es ga D L (volumeWu nan1) (complexityWu nan2)) (fun seed hist el pool X y n rules h => esDiscover_length _ _ _ _ _ _ _ _ _ _ _ h)
        (runEval cfg (defaultComp es ga D L (volumeWu nan1) (complexityWu nan2)) raw.X raw.y) entropy raw.X raw.y st0.step).2.2
      rw [hrun] at this
      exact this
    have hcount : el.genome.count true ≤ cfg.maxGenomeLength := List.count_le_length.trans (by rw [hl]; exact hb)
    have hfin : complexityFitness .wu 0.3 cfg.maxGenomeLength st.error (el.genome.count true) = .ok (some st.fitness) ∧ 0 ≤ st.fitness ∧ st.fitness ≤ 100 := by
      unfold runEval evalGenome Solution.fit at hev
      dsimp only [defaultComp] at hev
      split at hev
      · cases hev
      · rename_i σ0 h0
        split at h0
        · cases h0
        · split at h0
          · cases h0
          · cases h0
            cases hev
            exact complexityWu_range nan2 cfg.maxGenomeLength el.genome.length _ hN hcount _ (le_max_of_le_right (by unfold errorFloor; norm_num))
    refine ⟨σ', st, hσ', ?_⟩
    rw [hN']
    cases cl with
    | false => rw [hσ1 rfl]; exact ⟨hst, hfin⟩
    | true =>
      have := hσ2 rfl
      unfold cleanup at this
      have hsub : ({ genome := el.genome, pool := s.pool, st := el.st } : Solution ℝ d M).subpopulation = .ok (compress s.pool el.genome) := by
        unfold Solution.subpopulation; rw [if_pos hl]
      rw [hsub] at this
      cases this
      refine ⟨hst, ?_⟩
      rw [List.count_replicate_self, length_compress _ _ hl.symm]
      exact hfin

end Reals

/-! ### Examples -/

/-- Random numbers of an example: the first sample of positive probability as origin, fixed noise, and tournaments won by the first solution. -/
def firstDraws (k gens : Nat) (z : K) : RunDraws K d M where
  origins := fun _ _ _ n probs => List.replicate n (match probs with | none => 0 | some p => p.findIdx fun q => decide (q ≠ 0))
  children := fun _ _ _ _ _ _ => (z, z)
  ga := fun _ _ _ size => if size = 0 then [] else List.replicate gens ⟨.tournament (List.replicate 2 (List.replicate k 0)), fun _ _ => (0, .nPoint [1]), fun _ _ => 1⟩
  init := fun _ _ _ => 0

theorem firstDraws_possible (es : ESCfg K) (hm : es.mutation = .halfnormIncrease) (ga : GACfg K) (hga : ga.populationSize = 2) (k gens : Nat) (z : K) (hz : 0 ≤ z) (sigma : K × K) :
    (firstDraws k gens z : RunDraws K d M).Possible es ga k sigma := by
  refine ⟨?_, ?_, ?_⟩
  · intro seed hist N n probs hN hp
    refine ⟨by simp [firstDraws], fun i hi => ?_⟩
    have hi := (List.mem_replicate.mp hi).2
    cases probs with
    | none => exact ⟨by rw [hi]; exact Nat.pos_of_ne_zero hN, fun p hp => by cases hp⟩
    | some p =>
      dsimp only at hi
      obtain ⟨h1, _, h3⟩ := hp p rfl
      have hex : ∃ q ∈ p, decide (q ≠ 0) = true := by
        by_contra hno
        push Not at hno
        have : p.sum = 0 := List.sum_eq_zero fun q hq => by simpa using hno q hq
        rw [h3] at this
        exact one_ne_zero this
      have hlt : p.findIdx (fun q => decide (q ≠ 0)) < p.length := List.findIdx_lt_length.mpr hex
      refine ⟨by rw [hi, ← h1]; exact hlt, fun p' hp' => ?_⟩
      cases hp'
      have := List.findIdx_getElem (w := hlt)
      rw [hi, List.getElem?_eq_getElem hlt]
      intro h
      simp only [Option.some.injEq] at h
      simp only [decide_eq_true_eq] at this
      exact this h
  · intro seed hist r g c
    rw [hm]
    exact fun _ => ⟨hz, hz⟩
  · intro seed hist n size
    unfold firstDraws
    dsimp only
    split
    · trivial
    · rename_i hne
      clear hm
      induction gens generalizing size with
      | zero => trivial
      | succ g ih =>
        refine ⟨⟨_, rfl⟩, ⟨by simp [hga], ?_⟩, ih _ (by omega)⟩
        intro js hjs
        rw [(List.mem_replicate.mp hjs).2]
        refine ⟨by simp, fun j hj => ?_⟩
        rw [(List.mem_replicate.mp hj).2]
        omega

/-- A small configuration with the default operators. -/
def smallES : ESCfg ℚ := { ESCfg.default with nIter := 2, lmbda := 1, delay := 1 }
def smallGA : GACfg ℚ := { GACfg.default with populationSize := 2, nElitists := 0 }
def smallCfg : SupCfg ℚ := { SupCfg.default with nIter := 2, nRules := 1, comp := { populationSize := 2, warmStart := true, init := .random (1 / 2) } }

example : DefaultSettings smallCfg smallES smallGA 2 :=
  ⟨by decide, by decide, by decide, by decide, by decide, by decide, .inl rfl, by decide +kernel⟩

/-- The default values of all parameters are admissible. -/
example : DefaultSettings (K := K) SupCfg.default ESCfg.default GACfg.default 5 :=
  ⟨by simp [SupCfg.default], by simp [SupCfg.default], by simp [SupCfg.default], by simp [GACfg.default], by decide, fun _ => by simp [ESCfg.default], .inl rfl,
    by simp [ESCfg.default]⟩

/-- The hypotheses of C82 hold for a run with the default values (and a population of two) on two samples. -/
example : DefaultSettings (K := ℝ) SupCfg.default ESCfg.default { GACfg.default with populationSize := 2 } 5 ∧
    (firstDraws 5 32 1 : RunDraws ℝ 1 ℝ).Possible ESCfg.default { GACfg.default with populationSize := 2 } 5 (1, 1) ∧
    ∀ i : Fin 1, ∃ x ∈ [![(0 : ℝ)], ![1]], ∃ z ∈ [![(0 : ℝ)], ![1]], x i ≠ z i :=
  ⟨⟨by simp [SupCfg.default], by simp [SupCfg.default], by simp [SupCfg.default], by simp, by decide, fun _ => by simp [ESCfg.default], .inl rfl, by simp [ESCfg.default]⟩,
    firstDraws_possible _ rfl _ rfl _ _ _ zero_le_one _, fun i => ⟨![0], by simp, ![1], by simp, by fin_cases i; simp⟩⟩

/-- The example run: samples in the training range are predicted by the learned rules, samples outside get zero. -/
example : ((SupState.fit smallCfg (defaultComp smallES smallGA (firstDraws 2 1 (1 / 2)) meanLearner negErr fun _ _ _ c => c) 7
    ⟨[![0], ![1], ![5]], [1, 3, 7], true⟩ false {}).state.predict (defaultComp smallES smallGA (firstDraws 2 1 (1 / 2)) meanLearner negErr fun _ _ _ c => c)
    [![0], ![1], ![5], ![6], ![-1]]) = .ok [1, 3, 0, 0, 0] := by decide +kernel

end Suprb
