import Verif.Props.SearchOrder
import Verif.Props.Features

/-!
# Claims C137 and C138 for other components: random search and novelty search, all origin strategies, all composition strategies and mixing parameters
-/

set_option autoImplicit false
set_option linter.unusedSectionVars false

namespace Suprb

open _root_.Spec (Pairs Point)

variable {K : Type} [Field K] [LinearOrder K] [IsStrictOrderedRing K] {d : Nat} {M : Type}

/-! ### Specification -/

/-- The composition of two runs uses the same random numbers, as long as what happened before corresponds. -/
def SameStrategiesFor (L : Learner K d M) (T : Relabel K d) (S S' : Seed → List (Event K d M) → Strategy K) : Prop :=
  ∀ seed hist hist', List.Forall₂ (EventRel (SameRule L T)) hist hist' → S' seed hist' = S seed hist

/-- Two calls of the random search use the same random numbers: the same samples as origins, positions between the bounds of the data in the new order of the features, widths of the initial rules rewritten like
the features. -/
structure RewrittenRS (T : Relabel K d) (π : Equiv.Perm (Fin d)) (D D' : RSDraws K d) : Prop where
  origins : D'.origins = D.origins
  uniform : ∀ g k i, D'.uniform g k i = D.uniform g k (π i)
  init : ∀ g k, D'.init g k = T.noise (D.init g k)

/-- Two calls of the novelty search use the same random numbers: the same samples as origins, the same parents from the same population, masks of the crossover in the new order of the features, steps of the
mutation and widths of the initial rules rewritten like the features; and earlier calls left the same distances on the rules of the pool. -/
structure RewrittenNS (L : Learner K d M) (T : Relabel K d) (π : Equiv.Perm (Fin d)) (D D' : NSDraws K d M) : Prop where
  origins : D'.origins = D.origins
  uniform : ∀ k i, D'.uniform k i = D.uniform k (π i)
  init : ∀ k, D'.init k = T.noise (D.init k)
  iterations : List.Forall₂ (fun z z' : NsDraw (Rule K d M) (BreedDraw K d) => (∀ pop pop', List.Forall₂ (SameRule L T) pop pop' → z'.parents pop' = z.parents pop) ∧
    (∀ j, (z'.breed j).u = (z.breed j).u ∧ (∀ i, (z'.breed j).mask i = (z.breed j).mask (π i)) ∧ (z'.breed j).first = T.noise (z.breed j).first ∧ (z'.breed j).second = T.noise (z.breed j).second) ∧
    z'.archiveChildren = z.archiveChildren ∧ z'.archiveParents = z.archiveParents) D.iterations D'.iterations
  leftover : D'.leftover = D.leftover

section Sim

variable {L : Learner K d M} {π : Equiv.Perm (Fin d)} {a c : Fin d → K} {r r' : K}

/-! ### Origins -/

theorem squaredErrorProbabilities_sim {T : Relabel K d} (hT : T.Lawful r r') (P : MixParams K) {pool pool' : List (Rule K d M)} (h : List.Forall₂ (SameRule L T) pool pool') (use : Bool)
    (X : List (Point K d)) (y : List K) (el : Option (Indiv K)) :
    squaredErrorProbabilities L P filterAll use (X.map T.pt) y pool' (el.map fun σ => { genome := σ.genome, pool := pool', st := σ.st }) =
      squaredErrorProbabilities L P filterAll use X y pool (el.map fun σ => { genome := σ.genome, pool := pool, st := σ.st }) := by
  unfold squaredErrorProbabilities
  have hw : squaredErrorWeights L P filterAll use (X.map T.pt) y (el.map fun σ => { genome := σ.genome, pool := pool', st := σ.st }) =
      squaredErrorWeights L P filterAll use X y (el.map fun σ => { genome := σ.genome, pool := pool, st := σ.st }) := by
    cases el with
    | none => rfl
    | some σ =>
      have key : ∀ g : List Bool, Solution.predict L P filterAll false { genome := g, pool := pool', st := σ.st } (X.map T.pt) =
          Solution.predict L P filterAll false { genome := g, pool := pool, st := σ.st } X := by
        intro g
        unfold Solution.predict Solution.subpopulation
        dsimp only
        rw [← h.length_eq]
        by_cases hg : g.length = pool.length
        · rw [if_pos hg, if_pos hg]
          exact mixing_sim hT P false X (forall₂_compress _ _ h g)
        · rw [if_neg hg, if_neg hg]
      unfold squaredErrorWeights
      dsimp only [Option.map]
      cases use with
      | true =>
        rw [if_pos rfl, if_pos rfl, key σ.genome]
      | false =>
        rw [if_neg (by simp), if_neg (by simp), ← h.length_eq, key (List.replicate pool.length true)]
  rw [hw]
  have h1 := subgroup_sim h use el
  revert h1
  generalize originSubgroup use pool _ = x
  generalize originSubgroup use pool' _ = x'
  intro h1
  cases h1 with
  | error e => rfl
  | ok sub sub' hsub =>
    have hemp : sub'.isEmpty = sub.isEmpty := by cases hsub <;> rfl
    simp only [bind, Except.bind, hemp]

theorem drawRows_map {T : Relabel K d} (X : List (Point K d)) (n : Nat) (p : Option (List K)) (draw : Option (List K) → List Nat) :
    drawRows (X.map T.pt) n p draw = (drawRows X n p draw).map (List.map T.pt) := by
  unfold drawRows
  rw [List.length_map]
  cases rngChoice X.length n p (draw p) with
  | error e => rfl
  | ok idx => exact takeRows_map _ _ _

theorem originsOf_sim (hT : (change π a c).Lawful r r') (s : OriginStrategy) (P : MixParams K) {pool pool' : List (Rule K d M)} (h : List.Forall₂ (SameRule L (change π a c)) pool pool') (X : List (Point K d))
    (y : List K) (el : Option (Indiv K)) (n : Nat) (draw : Option (List K) → List Nat) (u u' : Nat → Point K d) (hu : ∀ k i, u' k i = u k (π i)) :
    originsOf s L P filterAll (X.map (change π a c).pt) y pool' el n draw u' = (originsOf s L P filterAll X y pool el n draw u).map (List.map (change π a c).pt) := by
  unfold originsOf
  dsimp only
  cases s with
  | uniformInput =>
    dsimp only
    unfold uniformInput
    rw [hT.estimate]
    cases estimateBounds X with
    | error e => rfl
    | ok fb =>
      simp only [Except.map, List.map_map]
      congr 1
      refine List.map_congr_left fun k _ => ?_
      funext i
      simp only [change, Function.comp, hu]
      ring
  | uniformSamples => exact drawRows_map _ _ _ _
  | matching use =>
    dsimp only
    rw [List.length_map, matchingProbabilities_sim h]
    generalize matchingProbabilities use X.length pool _ = x
    cases x with
    | error e => rfl
    | ok p => exact drawRows_map _ _ _ _
  | squaredError use =>
    dsimp only
    rw [squaredErrorProbabilities_sim hT P h]
    generalize squaredErrorProbabilities L P filterAll use X y pool _ = x
    cases x with
    | error e => rfl
    | ok p => exact drawRows_map _ _ _ _

/-! ### Random search -/

theorem rsGroup_sim {cfg cfg' : RSCfg K} (hcfg : cfg' = { cfg with minRange := r' }) (hr : cfg.minRange = r) (hT : (change π a c).Lawful r r') (hL : L.Indifferent (change π a c)) (ff : RuleFitness K d)
    (hff : FitnessIndifferent ff (change π a c)) (P : MixParams K) {D D' : RSDraws K d} (hD : RewrittenRS (change π a c) π D D') {pool pool' : List (Rule K d M)}
    (h : List.Forall₂ (SameRule L (change π a c)) pool pool') (X : List (Point K d)) (y : List K) (el : Option (Indiv K)) (fb : Pairs K d) (g : Nat) :
    ERel (List.Forall₂ (SameRule L (change π a c))) (rsGroup cfg L ff P filterAll D el pool X y fb g)
      (rsGroup cfg' L ff P filterAll D' el pool' (X.map (change π a c).pt) y ((change π a c).pr fb) g) := by
  subst hcfg hr
  unfold rsGroup
  rw [hD.origins, originsOf_sim hT cfg.origin P h X y el cfg.rulesGenerated (D.origins g) (D.uniform g) (D'.uniform g) (hD.uniform g)]
  cases originsOf cfg.origin L P filterAll X y pool el cfg.rulesGenerated (D.origins g) (D.uniform g) with
  | error e => exact .error e
  | ok os =>
    simp only [Except.map, List.length_map]
    refine ERel.mapM (R := fun p q => q.1 = (change π a c).pt p.1 ∧ q.2 = p.2) _ _ _ _
      (forall₂_zip _ _ (forall₂_map_right _ _) _ _ (List.forall₂_same.2 fun _ _ => rfl : List.Forall₂ (fun a b => b = a) (List.range os.length) (List.range os.length))) ?_
    rintro ⟨o, k⟩ ⟨o', k'⟩ ⟨e1, e2⟩
    dsimp only at e1 e2
    subst e1 e2
    unfold rsRule
    rw [hD.init, hT.half]
    cases halfnormInit .ordered o (D.init g k') with
    | error e => exact .error e
    | ok b =>
      simp only [Except.map]
      rw [hT.constrain]
      exact SameRule.fit hT hL ff hff (ρ := { kind := .ordered, bounds := constrain .ordered cfg.minRange fb b, inputSpace := fb })
        (ρ' := { kind := .ordered, bounds := (change π a c).pr (constrain .ordered cfg.minRange fb b), inputSpace := (change π a c).pr fb }) ⟨rfl, rfl, rfl, rfl, rfl, .none⟩ X y

theorem rsDiscover_sim {cfg cfg' : RSCfg K} (hcfg : cfg' = { cfg with minRange := r' }) (hr : cfg.minRange = r) (hT : (change π a c).Lawful r r') (hL : L.Indifferent (change π a c)) (ff : RuleFitness K d)
    (hff : FitnessIndifferent ff (change π a c)) (P : MixParams K) {D D' : RSDraws K d} (hD : RewrittenRS (change π a c) π D D') {pool pool' : List (Rule K d M)}
    (h : List.Forall₂ (SameRule L (change π a c)) pool pool') (X : List (Point K d)) (y : List K) (el : Option (Indiv K)) (n : Nat) :
    ERel (List.Forall₂ (SameRule L (change π a c))) (rsDiscover cfg L ff P filterAll D el pool X y n) (rsDiscover cfg' L ff P filterAll D' el pool' (X.map (change π a c).pt) y n) := by
  have hb : cfg'.beta = cfg.beta := by rw [hcfg]
  unfold rsDiscover
  rw [hT.estimate, hb]
  cases estimateBounds X with
  | error e => exact .error e
  | ok fb =>
    simp only [Except.map]
    have h1 := ERel.mapM (R := Eq) (S := List.Forall₂ (SameRule L (change π a c))) (rsGroup cfg L ff P filterAll D el pool X y fb)
      (rsGroup cfg' L ff P filterAll D' el pool' (X.map (change π a c).pt) y ((change π a c).pr fb)) (List.range n) (List.range n) (List.forall₂_eq_eq_eq ▸ rfl)
      (by rintro g _ rfl; exact rsGroup_sim hcfg hr hT hL ff hff P hD h X y el fb g)
    revert h1
    generalize (List.range n).mapM (rsGroup cfg L ff P filterAll D el pool X y fb) = x
    generalize (List.range n).mapM (rsGroup cfg' L ff P filterAll D' el pool' (X.map (change π a c).pt) y ((change π a c).pr fb)) = x'
    intro h1
    cases h1 with
    | error e => exact .error e
    | ok gs gs' hg =>
      exact randomSearch_sim _ _ (fun l l' _ hl => ruleFittest_sim (fun _ _ h => by rw [h.st]) (fun _ _ h => h.fitnessOf) hl 1) _ _ (fun a b hab => acceptVariance_sim _ _ hab) _ _
        (forall₂_map_map hg _ _ fun _ _ h => ⟨h, rfl⟩)

/-! ### Novelty search -/

theorem breedRules_sim (hT : (change π a c).Lawful r r') (hL : L.Indifferent (change π a c)) (ff : RuleFitness K d) (hff : FitnessIndifferent ff (change π a c)) (m : Mutation) (rate : K) (fb : Pairs K d)
    (X : List (Point K d)) (y : List K) {A A' B B' : Rule K d M} (hA : SameRule L (change π a c) A A') (hB : SameRule L (change π a c) B B') {z z' : BreedDraw K d}
    (hz : z'.u = z.u ∧ (∀ i, z'.mask i = z.mask (π i)) ∧ z'.first = (change π a c).noise z.first ∧ z'.second = (change π a c).noise z.second) :
    ERel (List.Forall₂ (SameRule L (change π a c))) (breedRules L ff X y m r rate fb A B z) (breedRules L ff (X.map (change π a c).pt) y m r' rate ((change π a c).pr fb) A' B' z') := by
  obtain ⟨hu, hmask, hfirst, hsecond⟩ := hz
  unfold breedRules
  have hc : ruleCrossover A'.kind rate z'.u z'.mask A'.bounds B'.bounds =
      (ruleCrossover A.kind rate z.u z.mask A.bounds B.bounds).map fun p => ((change π a c).pr p.1, (change π a c).pr p.2) := by
    rw [hA.kind, hA.kind', hA.bounds, hB.bounds, hu]
    unfold ruleCrossover
    by_cases hc : z.u < rate
    · rw [if_pos hc, if_pos hc]
      simp only [Except.map, uniformCrossover, Except.ok.injEq, Prod.mk.injEq]
      constructor <;> funext i <;> simp only [change, hmask] <;> split <;> rfl
    · rw [if_neg hc, if_neg hc]
      rfl
  rw [hc, hfirst, hsecond]
  cases ruleCrossover A.kind rate z.u z.mask A.bounds B.bounds with
  | error e => exact .error e
  | ok p =>
    obtain ⟨b1, b2⟩ := p
    simp only [Except.map]
    have h1 := childRule_sim hT hL ff hff m fb (ρ := { A with bounds := b1 }) (ρ' := { A' with bounds := (change π a c).pr b1 }) ⟨hA.kind, hA.kind', rfl, hA.space, hA.st, hA.model⟩ X y z.first
    have h2 := childRule_sim hT hL ff hff m fb (ρ := { B with bounds := b2 }) (ρ' := { B' with bounds := (change π a c).pr b2 }) ⟨hB.kind, hB.kind', rfl, hB.space, hB.st, hB.model⟩ X y z.second
    revert h1 h2
    generalize childRule L ff X y m r fb { A with bounds := b1 } z.first = u
    generalize childRule L ff (X.map (change π a c).pt) y m r' _ _ ((change π a c).noise z.first) = u'
    generalize childRule L ff X y m r fb { B with bounds := b2 } z.second = v
    generalize childRule L ff (X.map (change π a c).pt) y m r' _ _ ((change π a c).noise z.second) = v'
    intro h1 h2
    cases h1 with
    | error e => exact .error e
    | ok c1 c1' hc1 =>
      cases h2 with
      | error e => exact .error e
      | ok c2 c2' hc2 => exact .ok _ _ (.cons hc1 (.cons hc2 .nil))

theorem ruleView_sim (T : Relabel K d) : NsViewSim id (SameRule L T) (ruleView : NsView (Rule K d M) K) ruleView where
  mono := strictMono_id
  hamming := fun a a' b b' ha hb => by
    show (Suprb.hamming ((a'.st.map RuleState.matchSet).getD []) ((b'.st.map RuleState.matchSet).getD []) : Except PyErr K) = Suprb.hamming ((a.st.map RuleState.matchSet).getD []) ((b.st.map RuleState.matchSet).getD [])
    rw [ha.st, hb.st]
  matched := fun a a' ha => by
    show ((a'.st.map RuleState.matchSet).getD []).count true = ((a.st.map RuleState.matchSet).getD []).count true
    rw [ha.st]
  fitness := fun _ _ h => by rw [WithBot.map_id]; exact h.fitnessOf
  experience := fun a a' ha => by
    show (a'.st.map RuleState.experience).getD 0 = (a.st.map RuleState.experience).getD 0
    rw [ha.st]

theorem nsDiscover_sim {p p' : NSParams K} (hcfg : p' = { p with minRange := r' }) (hr : p.minRange = r) (hT : (change π a c).Lawful r r') (hL : L.Indifferent (change π a c)) (ff : RuleFitness K d)
    (hff : FitnessIndifferent ff (change π a c)) (P : MixParams K) {D D' : NSDraws K d M} (hD : RewrittenNS L (change π a c) π D D') {pool pool' : List (Rule K d M)}
    (h : List.Forall₂ (SameRule L (change π a c)) pool pool') (X : List (Point K d)) (y : List K) (el : Option (Indiv K)) (n : Nat) :
    ERel (List.Forall₂ (SameRule L (change π a c))) (nsDiscover p L ff P filterAll D el pool X y n) (nsDiscover p' L ff P filterAll D' el pool' (X.map (change π a c).pt) y n) := by
  subst hcfg hr
  unfold nsDiscover
  rw [hT.estimate]
  cases estimateBounds X with
  | error e => exact .error e
  | ok fb =>
    simp only [Except.map]
    have h1 := rsGroup_sim (cfg := p.start) (cfg' := NSParams.start { p with minRange := r' }) rfl rfl hT hL ff hff P (D := ⟨fun _ => D.origins, fun _ => D.uniform, fun _ => D.init⟩)
      (D' := ⟨fun _ => D'.origins, fun _ => D'.uniform, fun _ => D'.init⟩) ⟨by rw [hD.origins], fun _ => hD.uniform, fun _ => hD.init⟩ h X y el fb 0
    revert h1
    generalize rsGroup p.start L ff P filterAll _ el pool X y fb 0 = x
    generalize rsGroup (NSParams.start { p with minRange := r' }) L ff P filterAll _ el pool' (X.map (change π a c).pt) y ((change π a c).pr fb) 0 = x'
    intro h1
    cases h1 with
    | error e => exact .error e
    | ok initial initial' hini =>
      dsimp only
      refine nsOptimize_sim (ruleView_sim (change π a c)) (S := fun z z' : BreedDraw K d => z'.u = z.u ∧ (∀ i, z'.mask i = z.mask (π i)) ∧ z'.first = (change π a c).noise z.first ∧
        z'.second = (change π a c).noise z.second) ?_ p.ns (.inr rfl) _ _ ?_ _ _ (fun a b hab => acceptVariance_sim _ _ hab) n ?_ hini _ _ ?_
      · intro A A' B B' z z' hA hB hz
        exact breedRules_sim hT hL ff hff p.mutation p.rate fb X y hA hB hz
      · intro A B hAB
        unfold validRule
        rw [hAB.st]
      · unfold poolObjects
        rw [hD.leftover, ← h.length_eq]
        exact forall₂_map_map (forall₂_zip _ _ h _ _ (List.forall₂_eq_eq_eq ▸ rfl : List.Forall₂ Eq (List.range pool.length) (List.range pool.length))) _ _
          fun a b hab => ⟨hab.1, by rw [hab.2], by rw [hab.2], rfl⟩
      · exact hD.iterations.imp fun z z' hz => ⟨hz.1, hz.2.1, hz.2.2.1, hz.2.2.2⟩

end Sim

/-! ### The whole training -/

/-- The whole training, for any rule discovery that gives corresponding rules. -/
theorem rewritten_fit {T : Relabel K d} {r r' : K} (hT : T.Lawful r r') (cfg : SupCfg K) (c c' : SupComp K d M) (hL' : c'.learner = c.learner) (hmix : c'.mix = c.mix) (hf : c.filter = filterAll)
    (hf' : c'.filter = filterAll) (hsf : c'.fitness = c.fitness) (raw : RawData K d) (hc : CompSim (SameRule c.learner T) c c' raw.X (raw.X.map T.pt) raw.y raw.y) (entropy step : Nat) (cl : Bool) :
    let r := SupState.fit cfg c entropy raw cl { step := step }
    let r2 := SupState.fit cfg c' entropy { raw with X := raw.X.map T.pt } cl { step := step }
    r2.raised = r.raised ∧ List.Forall₂ (SameRule c.learner T) r.state.pool r2.state.pool ∧ ∀ Xq, r2.state.predict c' (Xq.map T.pt) = r.state.predict c Xq := by
  intro r r2
  have h := fit_sim (raw := raw) (raw' := { raw with X := raw.X.map T.pt }) hc cfg rfl (List.length_map ..) rfl
    (fun pool pool' hp => by unfold runEval; rw [hL', hmix, hf, hf', hsf]; exact evalGenome_sim hT _ _ raw.X raw.y hp) entropy cl _ _ (stateRel_new c.learner T step)
  exact ⟨h.raised, h.state.pool, fun Xq => predict_sim Xq (Xq.map T.pt) (List.length_map ..) (fun pool pool' hp => by rw [hL', hmix, hf, hf']; exact mixing_sim hT _ false Xq hp) _ _ h.state⟩

theorem reorder_lawful (π : Equiv.Perm (Fin d)) (r : K) : (change π 1 0 : Relabel K d).Lawful r r := change_lawful π 1 0 (fun _ => one_pos) _ _ (.inr fun _ => by simp)

/-! ### C137 -/

/-- C137 (partial) with the evolution strategy, any composition strategy (given the same random numbers it does the same) and any parameters of the mixing model. Missing: as for `C137_order_partial`. -/
theorem C137_composition_partial (π : Equiv.Perm (Fin d)) (cfg : SupCfg K) (es : ESCfg K) (ga : GACfg K) (L : Learner K d M) (hL : L.Indifferent (reorder π))
    (ff : RuleFitness K d) (hff : FitnessIndifferent ff (reorder π)) (sf : Nat → SolFitness K) (S S' : Seed → List (Event K d M) → Strategy K) (hS : SameStrategiesFor L (reorder π) S S') (P : MixParams K)
    (D D' : RunDraws K d M) (hD : SameDraws L (reorder π) D D') (entropy step : Nat) (raw : RawData K d) (cl : Bool) :
    let c : SupComp K d M := { defaultComp es ga D L ff sf with strategy := S, mix := P }
    let c' : SupComp K d M := { defaultComp es ga D' L ff sf with strategy := S', mix := P }
    let r := SupState.fit cfg c entropy raw cl { step := step }
    let r2 := SupState.fit cfg c' entropy { raw with X := raw.X.map fun x i => x (π i) } cl { step := step }
    r2.raised = r.raised ∧ List.Forall₂ (fun ρ ρ' => (∀ i, ρ'.bounds i = ρ.bounds (π i)) ∧ ρ'.st = ρ.st ∧ ∀ x v, ρ.LocalPrediction L x v ↔ ρ'.LocalPrediction L (fun i => x (π i)) v)
        r.state.pool r2.state.pool ∧
      ∀ Xq, r2.state.predict c' (Xq.map fun x i => x (π i)) = r.state.predict c Xq := by
  intro c c'
  have hT : (reorder π : Relabel K d).Lawful es.minRange es.minRange := by rw [reorder_eq]; exact reorder_lawful π _
  have hcs : CompSim (SameRule L (reorder π)) c c' raw.X (raw.X.map (reorder π).pt) raw.y raw.y := by
    refine ⟨?_, hS, hD.init⟩
    intro seed hist hist' el pool pool' n hh hp
    show ERel _ (esDiscover es L ff (D.origins seed hist raw.X.length n) (D.children seed hist) el pool raw.X raw.y n)
      (esDiscover es L ff (D'.origins seed hist' (raw.X.map (reorder π).pt).length n) (D'.children seed hist') el pool' (raw.X.map (reorder π).pt) raw.y n)
    rw [hD.origins seed hist hist' hh, List.length_map,
      show D'.children seed hist' = fun k g c => (reorder π).noise (D.children seed hist k g c) from by funext k g c; exact hD.children seed hist hist' hh k g c]
    exact esDiscover_sim rfl rfl hT hL ff hff _ _ el hp raw.X raw.y n
  obtain ⟨h1, h2, h3⟩ := rewritten_fit hT cfg c c' rfl rfl rfl rfl rfl raw hcs entropy step cl
  exact ⟨h1, h2.imp fun _ _ h => h.describes, h3⟩

/-- C137 (partial) with random search as rule discovery (any of the origin strategies) and any composition strategy. Missing: as for `C137_order_partial`. -/
theorem C137_random_partial (π : Equiv.Perm (Fin d)) (cfg : SupCfg K) (rs : RSCfg K) (ga : GACfg K) (L : Learner K d M) (hL : L.Indifferent (reorder π))
    (ff : RuleFitness K d) (hff : FitnessIndifferent ff (reorder π)) (sf : Nat → SolFitness K) (S S' : Seed → List (Event K d M) → Strategy K) (hS : SameStrategiesFor L (reorder π) S S')
    (D D' : RunDraws K d M) (hD : D'.init = D.init) (R R' : Seed → List (Event K d M) → RSDraws K d)
    (hR : ∀ seed hist hist', List.Forall₂ (EventRel (SameRule L (reorder π))) hist hist' → RewrittenRS (reorder π) π (R seed hist) (R' seed hist')) (entropy step : Nat) (raw : RawData K d) (cl : Bool) :
    let c : SupComp K d M := { rsComp rs ga R D L ff sf with strategy := S }
    let c' : SupComp K d M := { rsComp rs ga R' D' L ff sf with strategy := S' }
    let r := SupState.fit cfg c entropy raw cl { step := step }
    let r2 := SupState.fit cfg c' entropy { raw with X := raw.X.map fun x i => x (π i) } cl { step := step }
    r2.raised = r.raised ∧ List.Forall₂ (fun ρ ρ' => (∀ i, ρ'.bounds i = ρ.bounds (π i)) ∧ ρ'.st = ρ.st ∧ ∀ x v, ρ.LocalPrediction L x v ↔ ρ'.LocalPrediction L (fun i => x (π i)) v)
        r.state.pool r2.state.pool ∧
      ∀ Xq, r2.state.predict c' (Xq.map fun x i => x (π i)) = r.state.predict c Xq := by
  intro c c'
  have hT : (reorder π : Relabel K d).Lawful rs.minRange rs.minRange := by rw [reorder_eq]; exact reorder_lawful π _
  have hcs : CompSim (SameRule L (reorder π)) c c' raw.X (raw.X.map (reorder π).pt) raw.y raw.y := by
    refine ⟨?_, hS, hD⟩
    intro seed hist hist' el pool pool' n hh hp
    have hR' := hR seed hist hist' hh
    show ERel (List.Forall₂ (SameRule L (reorder π))) (rsDiscover rs L ff ⟨.plain, 1⟩ filterAll (R seed hist) el pool raw.X raw.y n)
      (rsDiscover rs L ff ⟨.plain, 1⟩ filterAll (R' seed hist') el pool' (raw.X.map (reorder π).pt) raw.y n)
    rw [reorder_eq] at hT hL hff hp hR' ⊢
    exact rsDiscover_sim (r := rs.minRange) (r' := rs.minRange) rfl rfl hT hL ff hff _ hR' hp raw.X raw.y el n
  obtain ⟨h1, h2, h3⟩ := rewritten_fit hT cfg c c' rfl rfl rfl rfl rfl raw hcs entropy step cl
  exact ⟨h1, h2.imp fun _ _ h => h.describes, h3⟩

/-- C137 (partial) with novelty search as rule discovery (any variant, type, archive and origin strategy) and any composition strategy. Missing: as for `C137_order_partial`. -/
theorem C137_novelty_partial (π : Equiv.Perm (Fin d)) (cfg : SupCfg K) (p : NSParams K) (ga : GACfg K) (L : Learner K d M) (hL : L.Indifferent (reorder π))
    (ff : RuleFitness K d) (hff : FitnessIndifferent ff (reorder π)) (sf : Nat → SolFitness K) (S S' : Seed → List (Event K d M) → Strategy K) (hS : SameStrategiesFor L (reorder π) S S')
    (D D' : RunDraws K d M) (hD : D'.init = D.init) (R R' : Seed → List (Event K d M) → NSDraws K d M)
    (hR : ∀ seed hist hist', List.Forall₂ (EventRel (SameRule L (reorder π))) hist hist' → RewrittenNS L (reorder π) π (R seed hist) (R' seed hist')) (entropy step : Nat) (raw : RawData K d) (cl : Bool) :
    let c : SupComp K d M := { nsComp p ga R D L ff sf with strategy := S }
    let c' : SupComp K d M := { nsComp p ga R' D' L ff sf with strategy := S' }
    let r := SupState.fit cfg c entropy raw cl { step := step }
    let r2 := SupState.fit cfg c' entropy { raw with X := raw.X.map fun x i => x (π i) } cl { step := step }
    r2.raised = r.raised ∧ List.Forall₂ (fun ρ ρ' => (∀ i, ρ'.bounds i = ρ.bounds (π i)) ∧ ρ'.st = ρ.st ∧ ∀ x v, ρ.LocalPrediction L x v ↔ ρ'.LocalPrediction L (fun i => x (π i)) v)
        r.state.pool r2.state.pool ∧
      ∀ Xq, r2.state.predict c' (Xq.map fun x i => x (π i)) = r.state.predict c Xq := by
  intro c c'
  have hT : (reorder π : Relabel K d).Lawful p.minRange p.minRange := by rw [reorder_eq]; exact reorder_lawful π _
  have hcs : CompSim (SameRule L (reorder π)) c c' raw.X (raw.X.map (reorder π).pt) raw.y raw.y := by
    refine ⟨?_, hS, hD⟩
    intro seed hist hist' el pool pool' n hh hp
    have hR' := hR seed hist hist' hh
    show ERel (List.Forall₂ (SameRule L (reorder π))) (nsDiscover p L ff ⟨.plain, 1⟩ filterAll (R seed hist) el pool raw.X raw.y n)
      (nsDiscover p L ff ⟨.plain, 1⟩ filterAll (R' seed hist') el pool' (raw.X.map (reorder π).pt) raw.y n)
    rw [reorder_eq] at hT hL hff hp hR' ⊢
    exact nsDiscover_sim (r := p.minRange) (r' := p.minRange) rfl rfl hT hL ff hff _ hR' hp raw.X raw.y el n
  obtain ⟨h1, h2, h3⟩ := rewritten_fit hT cfg c c' rfl rfl rfl rfl rfl raw hcs entropy step cl
  exact ⟨h1, h2.imp fun _ _ h => h.describes, h3⟩

/-! ### C138 -/

/-- C138 (partial) with random search as rule discovery (any of the origin strategies) and any composition strategy. Missing: as for `C138_units_partial`. -/
theorem C138_random_partial (a c : Fin d → K) (ha : ∀ i, 0 < a i) (cfg : SupCfg K) (rs : RSCfg K) (ga : GACfg K) (r' : K) (hr : SameMinRange a rs.minRange r') (L : Learner K d M)
    (hL : L.Indifferent (change 1 a c)) (ff : RuleFitness K d) (hff : FitnessIndifferent ff (change 1 a c)) (sf : Nat → SolFitness K)
    (S S' : Seed → List (Event K d M) → Strategy K) (hS : SameStrategiesFor L (change 1 a c) S S') (D D' : RunDraws K d M) (hD : D'.init = D.init) (R R' : Seed → List (Event K d M) → RSDraws K d)
    (hR : ∀ seed hist hist', List.Forall₂ (EventRel (SameRule L (change 1 a c))) hist hist' → RewrittenRS (change 1 a c) 1 (R seed hist) (R' seed hist')) (entropy step : Nat) (raw : RawData K d) (cl : Bool) :
    let c1 : SupComp K d M := { rsComp rs ga R D L ff sf with strategy := S }
    let c2 : SupComp K d M := { rsComp { rs with minRange := r' } ga R' D' L ff sf with strategy := S' }
    let r := SupState.fit cfg c1 entropy raw cl { step := step }
    let r2 := SupState.fit cfg c2 entropy { raw with X := raw.X.map fun x i => a i * x i + c i } cl { step := step }
    r2.raised = r.raised ∧ List.Forall₂ (fun ρ ρ' => (∀ i, ρ'.bounds i = (a i * (ρ.bounds i).1 + c i, a i * (ρ.bounds i).2 + c i)) ∧ ρ'.st = ρ.st) r.state.pool r2.state.pool ∧
      ∀ Xq, r2.state.predict c2 (Xq.map fun x i => a i * x i + c i) = r.state.predict c1 Xq := by
  intro c1 c2
  have hT := change_lawful 1 a c ha _ _ hr
  have hcs : CompSim (SameRule L (change 1 a c)) c1 c2 raw.X (raw.X.map (change 1 a c).pt) raw.y raw.y := by
    refine ⟨?_, hS, hD⟩
    intro seed hist hist' el pool pool' n hh hp
    exact rsDiscover_sim (cfg := rs) (cfg' := { rs with minRange := r' }) rfl rfl hT hL ff hff _ (hR seed hist hist' hh) hp raw.X raw.y el n
  obtain ⟨h1, h2, h3⟩ := rewritten_fit hT cfg c1 c2 rfl rfl rfl rfl rfl raw hcs entropy step cl
  exact ⟨h1, h2.imp fun _ _ h => ⟨fun i => by rw [h.bounds]; rfl, h.st⟩, h3⟩

/-- C138 (partial) with novelty search as rule discovery (any variant, type, archive and origin strategy) and any composition strategy. Missing: as for `C138_units_partial`. -/
theorem C138_novelty_partial (a c : Fin d → K) (ha : ∀ i, 0 < a i) (cfg : SupCfg K) (p : NSParams K) (ga : GACfg K) (r' : K) (hr : SameMinRange a p.minRange r') (L : Learner K d M)
    (hL : L.Indifferent (change 1 a c)) (ff : RuleFitness K d) (hff : FitnessIndifferent ff (change 1 a c)) (sf : Nat → SolFitness K)
    (S S' : Seed → List (Event K d M) → Strategy K) (hS : SameStrategiesFor L (change 1 a c) S S') (D D' : RunDraws K d M) (hD : D'.init = D.init) (R R' : Seed → List (Event K d M) → NSDraws K d M)
    (hR : ∀ seed hist hist', List.Forall₂ (EventRel (SameRule L (change 1 a c))) hist hist' → RewrittenNS L (change 1 a c) 1 (R seed hist) (R' seed hist')) (entropy step : Nat) (raw : RawData K d) (cl : Bool) :
    let c1 : SupComp K d M := { nsComp p ga R D L ff sf with strategy := S }
    let c2 : SupComp K d M := { nsComp { p with minRange := r' } ga R' D' L ff sf with strategy := S' }
    let r := SupState.fit cfg c1 entropy raw cl { step := step }
    let r2 := SupState.fit cfg c2 entropy { raw with X := raw.X.map fun x i => a i * x i + c i } cl { step := step }
    r2.raised = r.raised ∧ List.Forall₂ (fun ρ ρ' => (∀ i, ρ'.bounds i = (a i * (ρ.bounds i).1 + c i, a i * (ρ.bounds i).2 + c i)) ∧ ρ'.st = ρ.st) r.state.pool r2.state.pool ∧
      ∀ Xq, r2.state.predict c2 (Xq.map fun x i => a i * x i + c i) = r.state.predict c1 Xq := by
  intro c1 c2
  have hT := change_lawful 1 a c ha _ _ hr
  have hcs : CompSim (SameRule L (change 1 a c)) c1 c2 raw.X (raw.X.map (change 1 a c).pt) raw.y raw.y := by
    refine ⟨?_, hS, hD⟩
    intro seed hist hist' el pool pool' n hh hp
    exact nsDiscover_sim (p := p) (p' := { p with minRange := r' }) rfl rfl hT hL ff hff _ (hR seed hist hist' hh) hp raw.X raw.y el n
  obtain ⟨h1, h2, h3⟩ := rewritten_fit hT cfg c1 c2 rfl rfl rfl rfl rfl raw hcs entropy step cl
  exact ⟨h1, h2.imp fun _ _ h => ⟨fun i => by rw [h.bounds]; rfl, h.st⟩, h3⟩

/-- The hypotheses can be met: two features swapped; the widths of the initial rules, the mask of the crossover and the steps of the mutation are swapped, too. -/
example (L : Learner ℚ 2 M) :
    RewrittenRS (reorder (Equiv.swap 0 1)) (Equiv.swap 0 1) (⟨fun _ _ => [0], fun _ _ => ![1 / 2, 1 / 3], fun _ _ => ![(1, 2), (3, 4)]⟩ : RSDraws ℚ 2)
      ⟨fun _ _ => [0], fun _ _ => ![1 / 3, 1 / 2], fun _ _ => ![(3, 4), (1, 2)]⟩ ∧
    RewrittenNS L (reorder (Equiv.swap 0 1)) (Equiv.swap 0 1)
      (⟨fun _ => [0], fun _ => ![1 / 2, 1 / 3], fun _ => ![(1, 2), (3, 4)], [⟨fun _ => .ok [0, 1], fun _ => ⟨1 / 2, ![true, false], ![(1, 2), (3, 4)], ![(5, 6), (7, 8)]⟩, .novel, .novel⟩], fun _ => ([], none)⟩ : NSDraws ℚ 2 M)
      ⟨fun _ => [0], fun _ => ![1 / 3, 1 / 2], fun _ => ![(3, 4), (1, 2)], [⟨fun _ => .ok [0, 1], fun _ => ⟨1 / 2, ![false, true], ![(3, 4), (1, 2)], ![(7, 8), (5, 6)]⟩, .novel, .novel⟩], fun _ => ([], none)⟩ := by
  refine ⟨⟨rfl, fun _ _ i => ?_, fun _ _ => ?_⟩, ⟨rfl, fun _ i => ?_, fun _ => ?_, .cons ⟨fun _ _ _ => rfl, fun _ => ⟨rfl, fun i => ?_, ?_, ?_⟩, rfl, rfl⟩ .nil, rfl⟩⟩
  · fin_cases i <;> rfl
  · funext i; fin_cases i <;> rfl
  · fin_cases i <;> rfl
  · funext i; fin_cases i <;> rfl
  · fin_cases i <;> rfl
  · funext i; fin_cases i <;> rfl
  · funext i; fin_cases i <;> rfl

end Suprb
