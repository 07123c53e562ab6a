import Verif.Model.Parts
import Verif.Props.AnyKind
import Verif.Props.NoveltyFit
import Verif.Props.Strategies

/-!
# Claim C161: rule discovery, solution composition and mixing model can be combined freely
-/

set_option autoImplicit false
set_option linter.unusedSectionVars false

namespace Suprb

open Spec

variable {K : Type} [Field K] [LinearOrder K] [IsStrictOrderedRing K] {d : Nat} {M : Type}

/-- Settings and random numbers with which a rule discovery works on its own, on `N` samples: those of C159 for the evolution strategy, of C98 for random search and of C106 for novelty search
(squared-error origins cannot be used with initial rules). -/
def DiscoveryPart.Works (cfg : SupCfg K) (N : Nat) : DiscoveryPart K d M → Prop
  | .es e origins _ _ => (e.operator = .amp → 1 ≤ e.delay) ∧ 0 < e.beta ∧ WorksWith e.kind e.init e.mutation d ∧
    ∀ seed hist n probs, IsDistribution N probs → PossibleChoice N n probs (origins seed hist N n probs)
  | .rs c draws => 0 < c.beta ∧ (cfg.nInitial = 0 ∨ ∀ b, c.origin ≠ .squaredError b) ∧ ∀ seed hist, (draws seed hist).Possible c N
  | .ns p draws => p.Usable ∧ (cfg.nInitial = 0 ∨ ∀ b, p.origin ≠ .squaredError b) ∧ ∀ seed hist, (draws seed hist).Possible p N

/-- The matching type and the parameter `beta` of the acceptance. -/
def DiscoveryPart.kind : DiscoveryPart K d M → Kind
  | .es e .. => e.kind
  | _ => .ordered

def DiscoveryPart.beta : DiscoveryPart K d M → K
  | .es e .. => e.beta
  | .rs c _ => c.beta
  | .ns p _ => p.beta

/-- Possible draws of a genetic algorithm with any parent selection (tournaments of size `k`): `population_size` positions or tournaments of the current population, which has `population_size` plus the
kept elitists members after the first generation. -/
def PossibleParents (cfg : GACfg K) (k : Nat) : Nat → List (GADraw K) → Prop
  | _, [] => True
  | size, dr :: rest => dr.sel.Valid cfg.populationSize k size ∧ PossibleParents cfg k (min cfg.nElitists size + cfg.populationSize) rest

/-- All values of a fitness function for solutions with at most `N` rules satisfy `p`. -/
def FitnessValues (sf : Nat → SolFitness K) (N : Nat) (p : K → Prop) : Prop := ∀ (e : K) (n c : Nat), 0 < e → c ≤ n → n ≤ N → p (sf N e n c)

/-- Settings and random numbers with which a composition method works on its own (C48 for the parent selections of the genetic algorithm, C103 for the other methods): drawing parents by roulette wheel needs
a fitness without negative values, the bee colony one with positive values. -/
def CompositionPart.Works (sf : Nat → SolFitness K) (N : Nat) : CompositionPart K d M → Prop
  | .ga c draws => 1 ≤ c.populationSize ∧ (∃ k, 1 ≤ k ∧ ∀ seed hist n size, size ≠ 0 → PossibleParents c k size (draws seed hist n size)) ∧
    (FitnessValues sf N (0 ≤ ·) ∨ ∀ seed hist n size, ∀ dr ∈ draws seed hist n size, ∀ idx, dr.sel ≠ .roulette idx)
  | .abc _ _ _ draws => FitnessValues sf N (0 < ·) ∧ ∀ seed hist n size, size ≠ 0 → ∀ z ∈ draws seed hist n size, z.Possible size
  | .rs _ populationSize nIter _ => 1 ≤ populationSize ∧ 1 ≤ nIter
  | .gwo _ _ nLeaders draws => 1 ≤ nLeaders ∧ ∀ seed hist, draws seed hist ≠ []
  | .pso m _ _ _ _ draws => ∀ seed hist n size, draws seed hist n size ≠ [] ∧ (size ≠ 0 → ∀ dr ∈ draws seed hist n size, m.PossibleDraw size dr)
  | .saga1 sc draws _ => sc.populationSize % 2 = 0 ∧ 1 ≤ sc.populationSize ∧ sc.mutMul ≠ 0 ∧ sc.crossMul ≠ 0 ∧
    ∃ k, 1 ≤ k ∧ ∀ seed hist n size, size ≠ 0 → PossibleSel sc.populationSize sc.nElitists k size ((draws seed hist n size).map GADraw.sel)
  | .saga3 sc draws _ => sc.populationSize % 2 = 0 ∧ 1 ≤ sc.populationSize ∧
    ∃ k, 1 ≤ k ∧ ∀ seed hist n size, size ≠ 0 → PossibleSel sc.populationSize sc.nElitists k size ((draws seed hist n size).map Saga3GenDraw.sel)
  | .aco ac _ pool old _ => (∀ seed hist n, (pool seed hist n).fits.length = n) ∧ ∀ seed hist n q, old seed hist n = some q → ∃ m ≤ n, q.Fits ac.graph m

theorem runEval_values (cfg : SupCfg K) (c : SupComp K d M) (X : List (Point K d)) (y : List K) (pool : List (Rule K d M)) (p : K → Prop)
    (hp : FitnessValues c.fitness cfg.maxGenomeLength p) (hlen : pool.length ≤ cfg.maxGenomeLength) (g : List Bool) (hg : g.length = pool.length) (s : SolState K)
    (h : runEval cfg c X y pool g = .ok s) : p s.fitness := by
  unfold runEval evalGenome Solution.fit at h
  split at h
  · cases h
  · rename_i σ0 h0
    split at h0
    · cases h0
    · split at h0
      · cases h0
      · cases h0
        cases h
        refine hp _ _ _ (lt_of_lt_of_le (by unfold errorFloor; norm_num) (le_max_right _ _)) List.count_le_length ?_
        rw [hg]; exact hlen

theorem gaLoop_parents (cfg : GACfg K) (k : Nat) (hk : 1 ≤ k) (hsize : 1 ≤ cfg.populationSize) (ev : Eval K) (n : Nat)
    (hev : ∀ g : List Bool, g.length = n → ∃ s, ev g = .ok s) (draws : List (GADraw K))
    (hr : (∀ g s, g.length = n → ev g = .ok s → 0 ≤ s.fitness) ∨ ∀ dr ∈ draws, ∀ idx, dr.sel ≠ .roulette idx) (pop : List (Indiv K)) (hl : AllLen n pop) (hne : pop ≠ [])
    (he : ∀ σ ∈ pop, Evaluated ev σ) (hv : PossibleParents cfg k pop.length draws) :
    ∃ pop', gaLoop cfg ev draws pop = .ok pop' ∧ pop' ≠ [] := by
  induction draws generalizing pop with
  | nil => exact ⟨pop, rfl, hne⟩
  | cons dr rest ih =>
    obtain ⟨hval, hrest⟩ := hv
    have hfit : ∀ σ ∈ pop, ∃ s, σ.st = some s := fun σ hσ => ⟨_, (he σ hσ).choose_spec.1⟩
    obtain ⟨pop', hp⟩ := gaStep_total_of cfg hsize dr ev pop n hl (by
      obtain ⟨l, h1, h2, _⟩ := C48_members_partial dr.sel cfg.populationSize k hk pop hval (fun σ hσ => by
          obtain ⟨s, hs⟩ := hfit σ hσ
          exact ⟨_, s, hs, rfl⟩) fun ⟨idx, hidx⟩ σ hσ f hf => by
        rcases hr with hr | hr
        · obtain ⟨s, hs, hse⟩ := he σ hσ
          obtain ⟨s', hs', rfl⟩ := hf
          rw [hs] at hs'; cases hs'
          exact hr _ _ (hl σ hσ) hse
        · exact absurd hidx (hr dr (List.mem_cons_self ..) idx)
      exact ⟨l, h1, h2⟩) hfit hev
    have hlen := gaStep_length cfg dr ev pop pop' n hl (fun l hl => select_length _ _ k _ l hval hl) hp
    obtain ⟨h1, h2⟩ := gaStep_inv _ _ _ _ _ n hl hp
    unfold gaLoop
    rw [hp]
    refine ih (hr.imp id fun h dr hdr => h dr (List.mem_cons_of_mem _ hdr)) pop' h1 ?_ h2 (by rw [hlen]; exact hrest)
    rintro rfl
    simp at hlen
    omega

theorem CompositionPart.good (C : CompositionPart K d M) {sf : Nat → SolFitness K} {N : Nat} (h : C.Works sf N) (seed : Seed) (hist : List (Event K d M)) : (C.strategy seed hist).Good := by
  cases C with
  | ga ga draws => exact gaSized_good ga (draws seed hist)
  | rs init p n draws => exact C73_rs _ _ _ _
  | gwo upd sig n draws => exact C73_gwo _ _ _ _
  | pso m sig a b init draws => exact psoSized_good _ _ _ _ _ _
  | saga1 sc draws rates => exact saga1Sized_good _ _ _
  | saga3 sc draws par =>
    refine strategy_good _ fun n ev pop h => Prog.Sat.bind (saga3_sat sc (fun _ => True) (fun _ => trivial) ev n (draws seed hist n pop.length) _ ?_) fun s hs => ?_
    · intro o ho
      obtain ⟨i, hi, rfl⟩ := List.mem_mapIdx.mp ho
      exact ⟨trivial, trivial, h _ (List.getElem_mem hi)⟩
    · intro σ hσ
      obtain ⟨o, ho, rfl⟩ := List.mem_map.mp hσ
      exact (hs.1 o ho).2.2
  | aco ac warm pool old draws =>
    have := fun n => C73_aco ac warm (old seed hist n) (pool seed hist) (h.1 seed hist) (draws seed hist)
    exact ⟨fun n => (this n).lens n, fun n => (this n).evaluated n, fun n => (this n).local_ n⟩
  | abc sig init limit draws =>
    refine strategy_good _ fun n ev pop h => Prog.Sat.bind (abc_sat sig init limit (draws seed hist n pop.length) n ev pop h) fun s hs σ hσ => ?_
    obtain ⟨f, hf, rfl⟩ := List.mem_map.mp hσ
    exact hs f hf

theorem CompositionPart.total (C : CompositionPart K d M) {sf : Nat → SolFitness K} {N : Nat} (h : C.Works sf N) (seed : Seed) (hist : List (Event K d M)) (n : Nat) (ev : Eval K)
    (hval : ∀ p, FitnessValues sf N p → ∀ g s, g.length = n → ev g = .ok s → p s.fitness) : (C.strategy seed hist).TotalAt n ev := by
  cases C with
  | ga ga draws =>
    obtain ⟨hp, ⟨k, hk, hd⟩, hr⟩ := h
    intro pop _ hl hne hev
    obtain ⟨pop0, h0⟩ := fitAll_total ev n hev pop hl
    obtain ⟨hg, he⟩ := fitAll_spec _ _ _ h0
    have hlen := mapM_length _ _ _ h0
    have hne0 : pop0 ≠ [] := ne_nil_of_length hlen hne
    obtain ⟨pop', h1, h2⟩ := gaLoop_parents ga k hk hp ev n hev (draws seed hist n pop.length) (hr.imp (fun h => hval _ h) fun h => h seed hist n pop.length) pop0
      (allLen_of_genomes n _ _ hg hl) hne0 he (by rw [hlen]; exact hd _ _ _ _ (by simpa using hne))
    refine ⟨pop', ?_, h2⟩
    show gaOptimize ga (draws seed hist n pop.length) n ev pop = _
    unfold gaOptimize
    rw [h0]
    exact h1
  | abc sig init limit draws =>
    obtain ⟨hpos, hd⟩ := h
    intro pop _ hl hne hev
    obtain ⟨s, h1, h2⟩ := C103_abc_partial sig init limit n ev (fun g hg => by
      obtain ⟨s, hs⟩ := hev g hg
      exact ⟨s, hs, hval _ hpos g s hg hs⟩) pop hl hne (draws seed hist n pop.length) (hd _ _ _ _ (by simpa using hne))
    refine ⟨s.map Food.sol, ?_, ne_nil_of_length (by rw [List.length_map, h2]) hne⟩
    show (Suprb.abc sig init limit (draws seed hist n pop.length) n pop >>= fun s => Prog.ret (s.map Food.sol)).run ev = _
    rw [Prog.run_bind_ok h1]
    rfl
  | rs init p n draws => exact (rs_total _ _ _ h.1 h.2 _).totalAt _ _
  | gwo upd sig n draws => exact (gwo_total _ _ _ h.1 _ (h.2 _ _)).totalAt _ _
  | pso m sig a b init draws => exact (pso_total _ _ _ _ _ _ (fun n size => (h seed hist n size).1) fun n size => (h seed hist n size).2).totalAt _ _
  | saga1 sc draws rates =>
    obtain ⟨he, hp, hm, hc, k, hk, hd⟩ := h
    exact (saga1_total sc he hp hm hc k hk _ (hd _ _) _).totalAt _ _
  | saga3 sc draws par =>
    obtain ⟨he, hp, k, hk, hd⟩ := h
    exact (saga3_total sc he hp k hk _ (hd _ _) _).totalAt _ _
  | aco ac warm pool old draws =>
    obtain ⟨hpool, hold⟩ := h
    refine (strategy_total _ fun n ev pop hn hl hne hev => ?_ : Strategy.Total _).totalAt _ _
    have hlen := hpool seed hist n
    refine Prog.Runs.bind (aco_runs ac one_half_lt_one warm (old seed hist n) (pool seed hist n) ?_ (by rw [hlen]; exact hold seed hist n) (draws seed hist)
      (by rw [hlen]; exact hev) pop (by rw [hlen]; exact hl)) fun s h => Prog.Runs.ret (ne_nil_of_length h hne)
    intro h
    rw [h] at hlen
    exact hn hlen.symm

theorem DiscoveryPart.length_le (D : DiscoveryPart K d M) (L : Learner K d M) (ff : RuleFitness K d) (P : MixParams K) (seed : Seed) (hist : List (Event K d M)) (el : Option (Indiv K))
    (pool : List (Rule K d M)) (X : List (Point K d)) (y : List K) (n : Nat) (rules : List (Rule K d M)) (h : D.discover L ff P seed hist el pool X y n = .ok rules) : rules.length ≤ n := by
  cases D with
  | es es o i c => exact kindDiscover_length _ _ _ _ _ _ _ _ _ _ _ _ _ h
  | rs rs draws => exact rsDiscover_length _ _ _ _ _ _ _ _ _ _ _ _ h
  | ns ns draws => exact nsDiscover_length _ _ _ _ _ _ _ _ _ _ _ _ h

/-- What rule discovery maintains about the rules of the pool. -/
def DiscoveryPart.Good (D : DiscoveryPart K d M) (L : Learner K d M) (ff : RuleFitness K d) (X : List (Point K d)) (y : List K) (fb : Pairs K d) (ρ : Rule K d M) : Prop :=
  match D with
  | .es e .. => ρ.OfKind e.kind L ff X y ∧ acceptVariance e.beta y ρ = .ok true
  | .rs c _ => ρ.InPool L ff X y fb c.beta
  | .ns p _ => ρ.InPool L ff X y fb p.beta

theorem matchingOk {es : KindCfg K} (hw : WorksWith es.kind es.init es.mutation d) :
    ¬ ((es.kind = .centerSpread ∨ es.kind = .minPercentage) ∧ es.mutation.sigma ≠ .array 2) := by
  rintro ⟨hk | hk, h⟩ <;> rw [hk] at hw <;> exact h hw.2.2.2

theorem matchingCases {es : KindCfg K} (hσ : ¬ ((es.kind = .centerSpread ∨ es.kind = .minPercentage) ∧ es.mutation.sigma ≠ .array 2)) :
    es.kind = .ordered ∨ es.kind = .unordered ∨ es.mutation.sigma = .array 2 := by
  push Not at hσ
  cases hkk : es.kind with
  | ordered => exact Or.inl rfl
  | unordered => exact Or.inr (Or.inl rfl)
  | centerSpread => exact Or.inr (Or.inr (hσ (Or.inl hkk)))
  | minPercentage => exact Or.inr (Or.inr (hσ (Or.inr hkk)))

theorem DiscoveryPart.total (cfg : SupCfg K) (D : DiscoveryPart K d M) (L : Learner K d M) (ff : RuleFitness K d) (P : MixParams K) (X : List (Point K d)) (y : List K) (hX : X ≠ [])
    (hxy : y.length = X.length) (fb : Pairs K d) (hfb : estimateBounds X = .ok fb) (hw : D.Works cfg X.length) (seed : Seed) (hist : List (Event K d M)) (el : Option (Indiv K))
    (pool : List (Rule K d M)) (n : Nat) (hpool : ∀ ρ ∈ pool, D.Good L ff X y fb ρ) (hel : ∀ σ : Indiv K, el = some σ → σ.genome.length = pool.length)
    (hnone : cfg.nInitial = 0 → el = none → pool = []) : ∃ rules, D.discover L ff P seed hist el pool X y n = .ok rules ∧ ∀ ρ ∈ rules, D.Good L ff X y fb ρ := by
  cases D with
  | es es o i c =>
    obtain ⟨hdel, hb, hk, hd⟩ := hw
    exact kindDiscover_total es hdel (matchingCases (matchingOk hk)) hk L ff X y hX hxy _ _ _ el pool n (fun probs hp => hd _ _ _ probs hp) hel fun ρ hρ => (hpool ρ hρ).1
  | rs rs draws =>
    obtain ⟨hb, hsq, hd⟩ := hw
    obtain ⟨groups, rules, _, h1, _, _, _, h2⟩ := rsDiscover_spec rs hb L ff P X y hX hxy fb hfb (draws seed hist) (hd seed hist) el pool
      (fun ρ hρ => ⟨Rule.FromData.consistent hxy (Rule.InPool.fromData (hpool ρ hρ)), by obtain ⟨_, _, _, _, _, hm⟩ := Rule.InPool.matchesData (hpool ρ hρ); exact hm⟩) hel
      (fun b hb => hsq.elim hnone fun h => absurd hb (h b)) n
    exact ⟨rules, h1, fun ρ hρ => (h2 ρ hρ).1⟩
  | ns ns draws =>
    obtain ⟨hb, hsq, hd⟩ := hw
    obtain ⟨rules, h1, _, h2⟩ := nsDiscover_spec ns hb L ff P X y hX hxy fb hfb (draws seed hist) (hd seed hist) el pool
      (fun ρ hρ => ⟨Rule.FromData.consistent hxy (Rule.InPool.fromData (hpool ρ hρ)), by obtain ⟨_, _, _, _, _, hm⟩ := Rule.InPool.matchesData (hpool ρ hρ); exact hm⟩) hel
      (fun b hb => hsq.elim hnone fun h => absurd hb (h b)) n
    exact ⟨rules, h1, h2⟩

theorem DiscoveryPart.Good.spec {cfg : SupCfg K} {D : DiscoveryPart K d M} {L : Learner K d M} {ff : RuleFitness K d} {X : List (Point K d)} {y : List K} {fb : Pairs K d} {ρ : Rule K d M}
    (hX : X ≠ []) (hxy : y.length = X.length) (hfb : estimateBounds X = .ok fb) (hw : D.Works cfg X.length) (h : D.Good L ff X y fb ρ) :
    ρ.FittedOn L ff X y ∧ ConsistentWith ρ X ∧ KindPoolRule D.kind L X y D.beta ρ := by
  have key : ∀ beta, 0 < beta → Rule.InPool L ff X y fb beta ρ → ρ.FittedOn L ff X y ∧ ConsistentWith ρ X ∧ KindPoolRule .ordered L X y beta ρ := by
    intro beta hb h
    have hp := h.poolRule hxy hX hfb hb
    exact ⟨h.fromData.fitted, h.fromData.consistent hxy, h.fromData.kind, hp.matched, hp.trained, hp.error⟩
  cases D with
  | es es o i c => exact ⟨h.1.2, h.1.consistent hxy, h.1.pool hxy hw.2.1 h.2⟩
  | rs rs draws => exact key _ hw.1 h
  | ns ns draws => exact key _ hw.1.beta h

theorem DiscoveryPart.configure_none (D : DiscoveryPart K d M) (cfg : SupCfg K) (N : Nat) (hw : D.Works cfg N) : D.configure = none := by
  cases D with
  | es es o i c =>
    unfold DiscoveryPart.configure
    dsimp only
    rw [configure_eq, if_neg (matchingOk hw.2.2.1)]
  | rs rs draws => rfl
  | ns ns draws => rfl

/-- C161: any working rule discovery with any working composition method and any mixing model with a positive weight and a positive function of the experience: for all valid data, seeds and random numbers
`fit` completes, the pool has at most `n_initial_rules + n_iter * n_rules` rules, all of them as described by `KindPoolRule`, and the model predicts one value per sample, which is 0 where no rule of the
elitist matches and otherwise between the smallest and the largest prediction of its matching rules. -/
theorem C161_works (cfg : SupCfg K) (hiter : 1 ≤ cfg.nIter) (hrules : 1 ≤ cfg.nRules) (hsize : 1 ≤ cfg.comp.populationSize) (raw : RawData K d)
    (hraw : raw.finite = true ∧ raw.X.length = raw.y.length ∧ raw.X ≠ []) (D : DiscoveryPart K d M) (hD : D.Works cfg raw.X.length) (C : CompositionPart K d M) (sf : Nat → SolFitness K)
    (hC : C.Works sf (cfg.nInitial + cfg.nIter * cfg.nRules)) (P : MixParams K) (hP : 0 < P.weight) (hE : P.expCalc.Positive d) (init : Seed → Nat → Nat → K) (L : Learner K d M) (ff : RuleFitness K d)
    (entropy : Nat) (cl : Bool) (st0 : SupState K d M) (hinit : cfg.nInitial = 0 ∨ st0.step < cfg.nIter) :
    let r := partsFit cfg D C P init L ff sf entropy raw cl st0
    r.raised = none ∧ r.state.isError = false ∧ r.state.isFitted = true ∧ r.state.pool.length ≤ cfg.nInitial + cfg.nIter * cfg.nRules ∧
      (∀ ρ ∈ r.state.pool, KindPoolRule D.kind L raw.X raw.y D.beta ρ) ∧
      ∃ σ : Solution K d M, r.state.elitist = some (.solution σ) ∧ σ.pool = r.state.pool ∧ σ.genome.length = σ.pool.length ∧
        ∀ Xq, Xq ≠ [] → ∃ out, r.state.predict (partsComp D C P init L ff sf) Xq = .ok out ∧ out.length = Xq.length ∧
          ∀ x v, (x, v) ∈ Xq.zip out →
            ((∀ ρ ∈ compress σ.pool σ.genome, ρ.kind.call ρ.bounds x = false) → v = 0) ∧
            ((∃ ρ ∈ compress σ.pool σ.genome, ρ.kind.call ρ.bounds x = true) →
              ∀ a b, (∀ ρ ∈ compress σ.pool σ.genome, ρ.kind.call ρ.bounds x = true → ∀ u, ρ.LocalPrediction L x u → a ≤ u ∧ u ≤ b) → a ≤ v ∧ v ≤ b) := by
  have hc : raw.check = .ok (raw.X, raw.y) := by unfold RawData.check; rw [if_pos hraw]
  have hxy := hraw.2.1.symm
  obtain ⟨fb, hfb, _⟩ := estimateBounds_ok raw.X hraw.2.2
  have hr : partsFit cfg D C P init L ff sf entropy raw cl st0 = st0.fit cfg (partsComp D C P init L ff sf) entropy raw cl := by
    unfold partsFit
    rw [hc]
    dsimp only
    rw [D.configure_none cfg _ hD]
  have hN : cfg.nInitial + cfg.nIter * cfg.nRules = cfg.maxGenomeLength := by
    unfold SupCfg.maxGenomeLength
    rw [Nat.mul_comm cfg.nIter, Nat.add_comm]
  rw [hN] at hC
  have hbd : (partsComp D C P init L ff sf).Bounded := fun seed hist el pool X y n rules h => D.length_le L ff P seed hist el pool X y n rules h
  have hnf : (partsComp D C P init L ff sf).NoFailure cfg raw.X raw.y fun ρ => D.Good L ff raw.X raw.y fb ρ := by
    refine ⟨?_, ?_, fun seed hist pool _ hlen => C.total hC seed hist _ _ fun p hp g s hg h => runEval_values cfg (partsComp D C P init L ff sf) _ _ pool p hp (hlen hbd) g hg s h⟩
    · intro seed hist el pool n _ hpool hel hnone
      exact D.total cfg L ff P raw.X raw.y hraw.2.2 hxy fb hfb hD seed hist el pool n hpool hel hnone
    · intro pool hpool g hg
      refine eval_total cfg _ rfl ff raw.X raw.y hxy hraw.2.2 pool (fun ρ hρ => ?_) g hg
      obtain ⟨h1, _, h2⟩ := (hpool ρ hρ).spec hraw.2.2 hxy hfb hD
      exact ⟨h1, h2.matched⟩
  obtain ⟨h1, h2, h3, h4, σ, h5, h6, h7⟩ := trained_result cfg (partsComp D C P init L ff sf) (C.good hC)
    hbd hiter hrules hsize entropy raw hc cl st0 hinit _ hnf
  rw [hr]
  refine ⟨h1.1, h1.2, h2, ?_, fun ρ hρ => ((h4 ρ hρ).spec hraw.2.2 hxy hfb hD).2.2, σ, h5, h6, h7, fun Xq hq => ?_⟩
  · rw [hN]
    exact h3
  · obtain ⟨out, h8, h9, h10⟩ := C17_convex L P hP hE σ h7
      (fun ρ hρ => by
        obtain ⟨_, hg1, hg2⟩ := (h4 ρ (by rw [← h6]; exact hρ)).spec hraw.2.2 hxy hfb hD
        exact usable_of_fitted ρ raw.X hg1 hg2.matched) Xq
    refine ⟨out, ?_, h9, h10⟩
    unfold SupState.predict
    rw [h2, h1.2, h5]
    simp only [Bool.true_eq_false, if_false, if_neg hq, Bool.false_eq_true]
    exact h8

/-- C161, the converse for the evolution strategy: if its matching type, initialisation and mutation do not fit together, `fit` fails with every composition method (also those that do not work), every
mixing model, all valid data, seeds and random numbers. -/
theorem C161_fails (cfg : SupCfg K) (hiter : 1 ≤ cfg.nIter) (es : KindCfg K) (hgen : 1 ≤ es.nIter) (hch : 1 ≤ es.lmbda) (hw : ¬ WorksWith es.kind es.init es.mutation d) (raw : RawData K d)
    (hraw : raw.finite = true ∧ raw.X.length = raw.y.length ∧ raw.X ≠ []) (origins : Seed → List (Event K d M) → (samples n : Nat) → Option (List K) → List Nat)
    (hd : ∀ seed hist n probs, IsDistribution raw.X.length probs → PossibleChoice raw.X.length n probs (origins seed hist raw.X.length n probs))
    (inits : Seed → List (Event K d M) → Nat → Pairs K d) (children : Seed → List (Event K d M) → Nat → Nat → Nat → Pairs K d) (C : CompositionPart K d M) (P : MixParams K)
    (init : Seed → Nat → Nat → K) (L : Learner K d M) (ff : RuleFitness K d) (sf : Nat → SolFitness K) (entropy : Nat) (cl : Bool) (st0 : SupState K d M) :
    let r := partsFit cfg (.es es origins inits children) C P init L ff sf entropy raw cl st0
    r.state.pool = [] ∧ (r.raised = some .assertionError ∧ r.state.isFitted = st0.isFitted ∨ r.raised = none ∧ r.state.isError = true ∧ r.state.isFitted = true) := by
  have hc : raw.check = .ok (raw.X, raw.y) := by unfold RawData.check; rw [if_pos hraw]
  by_cases hσ : (es.kind = .centerSpread ∨ es.kind = .minPercentage) ∧ es.mutation.sigma ≠ .array 2
  · unfold partsFit DiscoveryPart.configure
    rw [hc]
    dsimp only
    rw [configure_eq, if_pos hσ]
    exact ⟨rfl, Or.inl ⟨rfl, rfl⟩⟩
  · have hr : partsFit cfg (.es es origins inits children) C P init L ff sf entropy raw cl st0 =
        st0.fit cfg (partsComp (.es es origins inits children) C P init L ff sf) entropy raw cl := by
      unfold partsFit DiscoveryPart.configure
      rw [hc]
      dsimp only
      rw [configure_eq, if_neg hσ]
    rw [hr]
    obtain ⟨h1, h2, h3, h4, _⟩ := fit_discovery_fails cfg (partsComp (.es es origins inits children) C P init L ff sf) entropy raw hc cl st0 hiter
      fun seed hist el pool n hn => kindDiscover_fails es (matchingCases hσ) hw hgen hch L ff raw.X raw.y hraw.2.2 _ _ _ el pool n hn fun probs hp => hd _ _ _ probs hp
    exact ⟨h4, Or.inr ⟨h1, h2, h3⟩⟩

/-- C161, the converse for squared-error origins with initial rules: unless all initial rules are rejected, `fit` ends with the error model, whatever the composition method and the mixing model. -/
theorem C161_initial (cfg : SupCfg K) (hiter : 1 ≤ cfg.nIter) (hrules : 1 ≤ cfg.nRules) (hinit : 0 < cfg.nInitial) (raw : RawData K d)
    (hraw : raw.finite = true ∧ raw.X.length = raw.y.length ∧ raw.X ≠ []) (D : DiscoveryPart K d M) (b : Bool)
    (hD : (∃ rs draws, D = .rs rs draws ∧ rs.origin = .squaredError b) ∨ ∃ ns draws, D = .ns ns draws ∧ ns.origin = .squaredError b) (C : CompositionPart K d M) (P : MixParams K)
    (init : Seed → Nat → Nat → K) (L : Learner K d M) (ff : RuleFitness K d) (sf : Nat → SolFitness K) (entropy : Nat) (cl : Bool) (st0 : SupState K d M) (seed : Seed)
    (hseed : (discoverySeeds entropy cfg.nIter)[st0.step]? = some seed) (rules : List (Rule K d M)) (hne : rules ≠ [])
    (hdisc : D.discover L ff P seed [] none [] raw.X raw.y cfg.nInitial = .ok rules) :
    let r := partsFit cfg D C P init L ff sf entropy raw cl st0
    r.raised = none ∧ r.state.isError = true ∧ r.state.isFitted = true := by
  have hc : raw.check = .ok (raw.X, raw.y) := by unfold RawData.check; rw [if_pos hraw]
  have hconf : D.configure = none := by rcases hD with ⟨_, _, rfl, _⟩ | ⟨_, _, rfl, _⟩ <;> rfl
  have hr : partsFit cfg D C P init L ff sf entropy raw cl st0 = st0.fit cfg (partsComp D C P init L ff sf) entropy raw cl := by
    unfold partsFit
    rw [hc]
    dsimp only
    rw [hconf]
  rw [hr]
  obtain ⟨fb, hfb, _⟩ := estimateBounds_ok raw.X hraw.2.2
  refine initial_rules_fail cfg (partsComp D C P init L ff sf) entropy raw hraw hinit hiter hrules cl st0 seed hseed rules hdisc fun seed' hist => ⟨.attributeError, ?_⟩
  show D.discover L ff P seed' hist none rules raw.X raw.y cfg.nRules = _
  rcases hD with ⟨rs, draws, rfl, ho⟩ | ⟨ns, draws, rfl, ho⟩
  · show rsDiscover _ _ _ _ _ _ _ _ _ _ _ = _
    unfold rsDiscover
    rw [hfb]
    dsimp only
    have h0 : ∀ g, rsGroup rs L ff P filterAll (draws seed' hist) none rules raw.X raw.y fb g = .error .attributeError := by
      intro g
      unfold rsGroup originsOf
      rw [ho]
      dsimp only
      rw [show (Option.map _ (none : Option (Indiv K)) : Option (Solution K d M)) = none from rfl, C37_refuted L P filterAll b raw.X raw.y rules hne]
    obtain ⟨m, hm⟩ := Nat.exists_eq_succ_of_ne_zero (Nat.one_le_iff_ne_zero.mp hrules)
    rw [hm, List.range_succ_eq_map, List.mapM_cons, h0]
    rfl
  · show nsDiscover _ _ _ _ _ _ _ _ _ _ _ = _
    unfold nsDiscover
    rw [hfb]
    dsimp only
    unfold rsGroup originsOf NSParams.start
    rw [ho]
    dsimp only
    rw [show (Option.map _ (none : Option (Indiv K)) : Option (Solution K d M)) = none from rfl, C37_refuted L P filterAll b raw.X raw.y rules hne]

/-- The three rule discovery methods of the examples: the evolution strategy with lower bound and proportion, random search and novelty search with their default settings. -/
def demoDiscovery : List (DiscoveryPart ℚ 1 ℚ) :=
  [.es smallKind (firstDraws 2 1 (1 / 2) : RunDraws ℚ 1 ℚ).origins (fun _ _ _ _ => (0, 1 / 2)) (firstDraws 2 1 (1 / 2) : RunDraws ℚ 1 ℚ).children,
    .rs RSCfg.default fun _ _ => plainDraws 7, .ns NSParams.default fun _ _ => plainNS 16]

/-- One generation with the given parents. -/
def parentDraw (s : SelDraw) : GADraw ℚ := ⟨s, fun _ _ => (0, .nPoint [1]), fun _ _ => 1⟩

theorem possibleParents_of {cfg : GACfg K} {k : Nat} : ∀ {size : Nat} {draws : List (GADraw K)}, PossibleGA cfg k size draws → PossibleParents cfg k size draws
  | _, [], _ => trivial
  | _, _ :: _, h => ⟨h.2.1, possibleParents_of h.2.2⟩

/-- The composition methods of the examples: the genetic algorithm with tournaments and with each other parent selection, and all other methods. -/
def demoComposition : List (CompositionPart ℚ 1 ℚ) :=
  [.ga smallGA (firstDraws 2 1 (1 / 2) : RunDraws ℚ 1 ℚ).ga, .ga smallGA fun _ _ _ _ => [parentDraw (.random [0, 0])], .ga smallGA fun _ _ _ _ => [parentDraw (.linearRank [0, 0])],
    .ga smallGA fun _ _ _ _ => [parentDraw (.roulette [0, 0])], .abc (fun x => x) (.random (1 / 2)) 3 fun _ _ _ size => [idleDraw size], .rs (.random (1 / 2)) 2 2 fun _ _ _ _ _ => 0, .gwo .crossover (fun x => x) 3 fun _ _ => [demoWolf 1, demoWolf 0],
    .pso (.binary 3) (fun x => x) 0 1 (fun _ _ _ => (fun _ => 0, fun _ => 0)) fun _ _ _ _ => [demoSwarm, demoSwarm],
    .saga1 demoSaga1 (fun _ _ _ _ => [demoGen, demoGen]) fun _ _ => ⟨1 / 40, 3 / 4⟩, .saga3 ⟨2, 1, 1 / 20⟩ (fun _ _ _ _ => [demoGen3, demoGen3]) fun _ _ _ => (1, 0, .uniform),
    .aco demoAco true (fun _ _ n => ⟨List.replicate n 1, fun _ _ => some (1, 1)⟩) (fun _ _ _ => some (.binary [])) fun _ _ => [fun _ => ⟨[], fun _ => 1 / 2⟩]]

/-- All of them meet the hypotheses of `C161_works`, for example with a positive fitness, so all 33 combinations complete on all data. -/
example (N : Nat) (hN : N ≠ 0) : (∀ D ∈ demoDiscovery, D.Works smallCfg N) ∧ ∀ C ∈ demoComposition, C.Works (fun _ _ _ c => (c : ℚ) + 1) (smallCfg.nInitial + smallCfg.nIter * smallCfg.nRules) := by
  have h := firstDraws_possible (M := ℚ) (d := 1) smallES rfl smallGA rfl 2 1 (1 / 2 : ℚ) (by norm_num) (1, 1)
  constructor
  · intro D hD
    simp only [demoDiscovery, List.mem_cons, List.not_mem_nil, or_false] at hD
    rcases hD with rfl | rfl | rfl
    · refine ⟨by decide, by decide +kernel, ?_, fun seed hist n probs hp => h.origins _ _ _ _ probs hN hp⟩
      simp [WorksWith, smallKind, ESCfg.withKind, InitCfg.ForPairs]
    · exact ⟨by decide +kernel, Or.inl rfl, fun _ _ => plainDraws_possible RSCfg.default N hN⟩
    · exact ⟨⟨by simp [NSParams.default], by simp [NSParams.default], trivial⟩, Or.inl rfl, fun _ _ => plainNS_possible NSParams.default N hN⟩
  · intro C hC
    simp only [demoComposition, List.mem_cons, List.not_mem_nil, or_false] at hC
    have hpos : ∀ N, FitnessValues (fun _ _ _ c => (c : ℚ) + 1) N (0 < ·) := fun N e n c _ _ _ => by positivity
    rcases hC with rfl | rfl | rfl | rfl | rfl | rfl | rfl | rfl | rfl | rfl | rfl
    · exact ⟨by decide, ⟨2, by decide, fun seed hist n size _ => possibleParents_of (h.ga seed hist n size)⟩, .inl fun e n c a b c' => (hpos _ e n c a b c').le⟩
    · exact ⟨by decide, ⟨1, by decide, fun _ _ _ size hs => ⟨⟨rfl, by simp; omega⟩, trivial⟩⟩, .inr (by simp [parentDraw])⟩
    · exact ⟨by decide, ⟨1, by decide, fun _ _ _ size hs => ⟨⟨rfl, by simp; omega⟩, trivial⟩⟩, .inr (by simp [parentDraw])⟩
    · exact ⟨by decide, ⟨1, by decide, fun _ _ _ size hs => ⟨⟨rfl, by simp; omega⟩, trivial⟩⟩, .inl fun e n c a b c' => (hpos _ e n c a b c').le⟩
    · refine ⟨hpos _, fun _ _ _ size hs z hz => ?_⟩
      rw [List.mem_singleton.mp hz]
      exact ⟨fun i hi => by rw [List.eq_of_mem_replicate hi]; omega, fun i hi => by rw [List.eq_of_mem_replicate hi]; omega⟩
    · exact ⟨by decide, by decide⟩
    · exact ⟨by decide, fun _ _ => by simp⟩
    · refine fun _ _ n size => ⟨by simp, fun h dr hdr q _ k => ?_⟩
      have : dr = demoSwarm := by simpa using hdr
      subst this
      exact ⟨⟨0, by simp [demoSwarm], by omega⟩, ⟨0, by simp [demoSwarm], by omega⟩⟩
    · exact ⟨by decide, by decide, by decide +kernel, by decide +kernel, 2, by decide, fun _ _ _ size h => demoSel_possible _ size h⟩
    · exact ⟨by decide, by decide, 2, by decide, fun _ _ _ size h => demoSel_possible _ size h⟩
    · exact ⟨by simp, fun _ _ n q h => ⟨0, by omega, by cases h; rfl⟩⟩

/-- A run of random search with the grey wolves and a mixing model with weight 2: its pool has two rules, each of which matches one sample, and it predicts 0 for the third sample. -/
example :
    (let D : DiscoveryPart ℚ 1 ℚ := .rs RSCfg.default fun _ _ => plainDraws 7
     let C : CompositionPart ℚ 1 ℚ := .gwo .crossover (fun x => x) 3 fun _ _ => [demoWolf 1, demoWolf 0]
     let r := partsFit smallCfg D C ⟨.plain, 2⟩ (fun _ _ _ => 0) meanLearner negErr (fun _ _ _ c => c) 7 ⟨[![0], ![1 / 2], ![5]], [1, 3, 7], true⟩ false {}
     (r.raised, r.state.isError, r.state.pool.length, (r.state.predict (partsComp D C ⟨.plain, 2⟩ (fun _ _ _ => 0) meanLearner negErr fun _ _ _ c => c) [![0], ![1 / 2], ![5]]).toOption)) =
    (none, false, 2, some [1, 3, 0]) := by decide +kernel

/-- Initial rules with the default origins of random search: the hypothesis of `C161_initial` about the initial rules holds for two samples with equal targets. -/
example (seed : Seed) : ∃ rules : List (Rule ℚ 1 ℚ), rules ≠ [] ∧
    DiscoveryPart.discover (.rs RSCfg.default fun _ _ => plainDraws 7) meanLearner negErr ⟨.plain, 2⟩ seed [] none [] [![0], ![1]] [2, 2] 1 = .ok rules := by
  have h : (rsDiscover RSCfg.default meanLearner negErr ⟨.plain, 2⟩ filterAll (plainDraws 7) none [] [(![0] : Point ℚ 1), ![1]] [2, 2] 1).map List.length = .ok 1 := by decide +kernel
  cases hr : rsDiscover RSCfg.default meanLearner negErr ⟨.plain, 2⟩ filterAll (plainDraws 7) none [] [(![0] : Point ℚ 1), ![1]] [2, 2] 1 with
  | error e => rw [hr] at h; cases h
  | ok rules =>
    rw [hr] at h
    have h := Except.ok.inj h
    exact ⟨rules, (fun h0 => by rw [h0] at h; cases h), hr⟩

end Suprb
