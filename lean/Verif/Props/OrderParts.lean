import Verif.Lemmas.OrderOnly
import Verif.Props.FitnessOrder
import Verif.Model.Parts

/-!
# Claim C149 for the other methods of rule discovery and composition
-/

set_option autoImplicit false
set_option linter.unusedSectionVars false

namespace Suprb

open _root_.Spec (Pairs Point)

variable {K : Type} [Field K] [LinearOrder K] [IsStrictOrderedRing K] {d : Nat} {M : Type}

/-! ### Specification -/

/-- What happened before is the same except for the fitness values. -/
def Spec.SameHistory (hr hs : K → K) (hist hist' : List (Event K d M)) : Prop := List.Forall₂ (MEventRel (Spec.resolved hs) fun ρ ρ' => ρ' = Spec.regraded hr ρ) hist hist'

/-- The random numbers `f` and `f'` agree after such histories. -/
def Spec.SameNumbers {α : Type} (hr hs : K → K) (f f' : Seed → List (Event K d M) → α) : Prop := ∀ seed hist hist', Spec.SameHistory hr hs hist hist' → f' seed hist' = f seed hist

/-- The random numbers of two novelty searches agree; the parents are selected at the same positions of populations that differ only in the fitness values (not so for `RouletteWheel`). -/
structure Spec.SameSearch (hr : K → K) (D D' : NSDraws K d M) : Prop where
  origins : D'.origins = D.origins
  uniform : D'.uniform = D.uniform
  init : D'.init = D.init
  leftover : D'.leftover = D.leftover
  iterations : List.Forall₂ (fun z z' : NsDraw (Rule K d M) (BreedDraw K d) => (∀ pop, z'.parents (pop.map (Spec.regraded hr)) = z.parents pop) ∧ z'.breed = z.breed ∧
    z'.archiveChildren = z.archiveChildren ∧ z'.archiveParents = z.archiveParents) D.iterations D'.iterations

/-- Rule discovery by evolution strategy, random search or novelty search (without bias) with the same parameters and the same random numbers. -/
inductive Spec.SameDiscovery (hr hs : K → K) : DiscoveryPart K d M → DiscoveryPart K d M → Prop
  | es (cfg : KindCfg K) (o o' : Seed → List (Event K d M) → Nat → Nat → Option (List K) → List Nat) (i i' : Seed → List (Event K d M) → Nat → Pairs K d)
      (c c' : Seed → List (Event K d M) → Nat → Nat → Nat → Pairs K d) (ho : Spec.SameNumbers hr hs o o') (hi : Spec.SameNumbers hr hs i i') (hc : Spec.SameNumbers hr hs c c') :
      Spec.SameDiscovery hr hs (.es cfg o i c) (.es cfg o' i' c')
  | rs (cfg : RSCfg K) (D D' : Seed → List (Event K d M) → RSDraws K d) (hD : Spec.SameNumbers hr hs D D') : Spec.SameDiscovery hr hs (.rs cfg D) (.rs cfg D')
  | ns (cfg : NSParams K) (hv : ∀ nb fb, cfg.ns.variant ≠ .biased nb fb) (D D' : Seed → List (Event K d M) → NSDraws K d M)
      (hD : ∀ seed hist hist', Spec.SameHistory hr hs hist hist' → Spec.SameSearch hr (D seed hist) (D' seed hist')) : Spec.SameDiscovery hr hs (.ns cfg D) (.ns cfg D')

/-- A composition method that compares fitness values only (without roulette wheel), with the same parameters and the same random numbers. -/
inductive Spec.SameComposition (hr hs : K → K) : CompositionPart K d M → CompositionPart K d M → Prop
  | ga (cfg : GACfg K) (D D' : Seed → List (Event K d M) → Nat → Nat → List (GADraw K)) (hD : Spec.SameNumbers hr hs D D') (hsel : ∀ seed hist n size, ∀ dr ∈ D seed hist n size, dr.sel.ByOrder) :
      Spec.SameComposition hr hs (.ga cfg D) (.ga cfg D')
  | rs (init : InitOp K) (populationSize nIter : Nat) (D D' : Seed → List (Event K d M) → Nat → Nat → Nat → K) (hD : Spec.SameNumbers hr hs D D') :
      Spec.SameComposition hr hs (.rs init populationSize nIter D) (.rs init populationSize nIter D')
  | gwo (upd : WolfUpdate) (sig : K → K) (nLeaders : Nat) (D D' : Seed → List (Event K d M) → List (Nat → WolfDraw K)) (hD : Spec.SameNumbers hr hs D D') :
      Spec.SameComposition hr hs (.gwo upd sig nLeaders D) (.gwo upd sig nLeaders D')
  | pso (m : Movement K) (sig : K → K) (aMin aMax : K) (I I' : Seed → List (Event K d M) → Nat → (Nat → K) × (Nat → K)) (D D' : Seed → List (Event K d M) → Nat → Nat → List (PSODraw K))
      (hI : Spec.SameNumbers hr hs I I') (hD : Spec.SameNumbers hr hs D D') : Spec.SameComposition hr hs (.pso m sig aMin aMax I D) (.pso m sig aMin aMax I' D')
  | saga3 (cfg : Saga3Cfg K) (D D' : Seed → List (Event K d M) → Nat → Nat → List (Saga3GenDraw K)) (P P' : Seed → List (Event K d M) → Nat → K × K × CrossMethod)
      (hD : Spec.SameNumbers hr hs D D') (hP : Spec.SameNumbers hr hs P P') (hsel : ∀ seed hist n size, ∀ dr ∈ D seed hist n size, dr.sel.ByOrder) :
      Spec.SameComposition hr hs (.saga3 cfg D P) (.saga3 cfg D' P')

open Suprb.Spec (regraded resolved)

/-! ### Composition -/

theorem composition_sim {hr hs : K → K} (hφ : KeepsOrder (resolved hs)) {C C' : CompositionPart K d M} (h : Spec.SameComposition hr hs C C') (seed : Seed) (hist hist' : List (Event K d M))
    (hh : Spec.SameHistory hr hs hist hist') : StrategySim (resolved hs) (C.strategy seed hist) (C'.strategy seed hist') := by
  cases h with
  | ga cfg D D' hD hsel =>
    intro n ev pop
    unfold CompositionPart.strategy
    dsimp only
    rw [hD seed hist hist' hh, List.length_map]
    exact gaOptimize_mapSt hφ cfg _ (fun dr hdr => .inl (hsel seed hist n pop.length dr hdr)) n ev pop
  | rs init populationSize nIter D D' hD =>
    unfold CompositionPart.strategy
    dsimp only
    rw [hD seed hist hist' hh]
    exact strategySim_of_psim fun n pop => rs_psim hφ init populationSize nIter _ n pop
  | gwo upd sig nLeaders D D' hD =>
    unfold CompositionPart.strategy
    dsimp only
    rw [hD seed hist hist' hh]
    exact strategySim_of_psim fun n pop => gwo_psim hφ upd sig nLeaders _ pop
  | pso m sig aMin aMax I I' D D' hI hD =>
    unfold CompositionPart.strategy
    dsimp only
    rw [hD seed hist hist' hh, hI seed hist hist' hh]
    refine strategySim_of_psim fun n pop => ?_
    rw [List.length_map]
    exact (pso_psim hφ m sig aMin aMax _ _ pop).bind fun s s' hs => .ret (forall₂_map_map hs _ _ fun p p' hp => hp.sol)
  | saga3 cfg D D' P P' hD hP hsel =>
    unfold CompositionPart.strategy
    dsimp only
    rw [hD seed hist hist' hh, hP seed hist hist' hh]
    refine strategySim_of_psim fun n pop => ?_
    rw [List.length_map]
    have hstart : ∀ f : Nat → K × K × CrossMethod, (pop.map (Indiv.mapSt (resolved hs))).mapIdx (fun i σ => (⟨σ, (f i).1, (f i).2.1, (f i).2.2⟩ : SagaObj K)) =
        (pop.mapIdx fun i σ => (⟨σ, (f i).1, (f i).2.1, (f i).2.2⟩ : SagaObj K)).map (SagaObj.mapSt (resolved hs)) := by
      intro f
      rw [List.mapIdx_eq_zipIdx_map, List.mapIdx_eq_zipIdx_map, List.zipIdx_map, List.map_map, List.map_map]
      rfl
    rw [hstart]
    refine (saga3_psim hφ cfg _ (hsel seed hist n pop.length) _).bind fun s s' h => .ret (forall₂_map_map h _ _ fun o o' ho => ?_)
    exact ⟨by rw [ho.1]; rfl, ho.2⟩

/-! ### Rule discovery -/

section Discovery

variable {hr hs : K → K} {L : Learner K d M} {ff ff' : RuleFitness K d}

theorem kindES_regraded (hm : StrictMono hr) (hff : ∀ e k b sp, ff' e k b sp = hr (ff e k b sp)) (X : List (Point K d)) (y : List K) (cfg : KindCfg K) (o : OperatorObj) (fb : Pairs K d) :
    ESSim (fun ρ ρ' : Rule K d M => ρ' = regraded hr ρ) (kindES cfg o L ff X y fb) (kindES cfg o L ff' X y fb) id where
  operator := rfl
  delay := rfl
  child := fun a _ z h => by
    subst h
    refine ERel.of_map _ ?_
    show kindChild cfg o L ff' X y fb (regraded hr a) z = (kindChild cfg o L ff X y fb a z).map (regraded hr)
    unfold kindChild
    rw [show (regraded hr a).bounds = a.bounds from rfl, show (regraded hr a).kind = a.kind from rfl]
    cases callMutation cfg.mutation o z a.bounds with
    | error e => rfl
    | ok b => exact fit_regraded hff X y { a.clone with bounds := constrain a.kind cfg.minRange fb b }
  valid := (concreteES_regraded (L := L) hm hff X y .plus 0 .normal 0 fb).valid
  fitness := fun a _ a' _ h h' => by subst h h'; exact fitness_regraded_le hm a a'
  select := fun l l' _ h => fittestFirst_sim_of_order _ _ (fun a _ a' _ h h' => by subst h h'; exact fitness_regraded_le hm a a') l l' h

theorem kindDiscover_regraded (hm : StrictMono hr) (hff : ∀ e k b sp, ff' e k b sp = hr (ff e k b sp)) (cfg : KindCfg K) (o : OperatorObj) (draw : Option (List K) → List Nat) (inits : Nat → Pairs K d)
    (children : Nat → Nat → Nat → Pairs K d) (el : Option (Indiv K)) {pool pool' : List (Rule K d M)} (h : List.Forall₂ (fun ρ ρ' => ρ' = regraded hr ρ) pool pool') (X : List (Point K d))
    (y : List K) (n : Nat) : ERel (List.Forall₂ fun ρ ρ' => ρ' = regraded hr ρ) (kindDiscover cfg o L ff draw inits children el pool X y n)
      (kindDiscover cfg o L ff' draw inits children (el.map (Indiv.mapSt (resolved hs))) pool' X y n) := by
  unfold kindDiscover
  rw [matchingOrigins_regraded h]
  cases estimateBounds X with
  | error e => exact .error e
  | ok fb =>
    dsimp only
    cases matchingOrigins cfg.useElitist X pool el n draw with
    | error e => exact .error e
    | ok os =>
      have := discoverRules_sim (R := fun ρ ρ' => ρ' = regraded hr ρ) (kindInitial cfg L ff X y fb) (kindInitial cfg L ff' X y fb) id
        (fun o => ERel.of_map _ (by
          unfold kindInitial
          show _ = _
          dsimp only [id]
          cases initWith cfg.init cfg.kind o.1 o.2 with
          | error e => rfl
          | ok b => exact fit_regraded hff X y { kind := cfg.kind, bounds := constrain cfg.kind cfg.minRange fb b, inputSpace := fb }))
        (fun ρ gens => (esOptimize (kindES cfg o L ff X y fb) gens ρ).map some)
        (fun ρ gens => (esOptimize (kindES cfg o L ff' X y fb) gens ρ).map some)
        (fun gens => gens.map fun g => (g.1.map id, g.2))
        (fun a b s hab => (esOptimize_sim (kindES_regraded hm hff X y cfg o fb) s a b hab).map_some)
        (acceptVariance cfg.beta y) (acceptVariance cfg.beta y) (fun a b hab => by subst hab; exact acceptVariance_regraded _ _ a) (os.zip ((List.range n).map inits))
        ((List.range n).map fun k => (List.range cfg.nIter).map fun g => ((List.range cfg.lmbda).map (children k g), ()))
      simpa [List.map_map, Function.comp_def] using this

theorem originsOf_regraded (s : OriginStrategy) (P : MixParams K) (X : List (Point K d)) (y : List K) {pool pool' : List (Rule K d M)}
    (h : List.Forall₂ (fun ρ ρ' => ρ' = regraded hr ρ) pool pool') (el : Option (Indiv K)) (n : Nat) (draw : Option (List K) → List Nat) (u : Nat → Point K d) :
    originsOf s L P filterAll X y pool' (el.map (Indiv.mapSt (resolved hs))) n draw u = originsOf s L P filterAll X y pool el n draw u := by
  unfold originsOf
  dsimp only
  cases s with
  | uniformInput => rfl
  | uniformSamples => rfl
  | matching use =>
    have h2 : matchingProbabilities use X.length pool' ((el.map (Indiv.mapSt (resolved hs))).map fun σ => { genome := σ.genome, pool := pool', st := σ.st }) =
        matchingProbabilities use X.length pool (el.map fun σ => { genome := σ.genome, pool := pool, st := σ.st }) := by
      unfold matchingProbabilities
      have h1 := subgroup_regraded (hs := hs) h use el
      revert h1
      generalize originSubgroup use pool _ = x
      generalize originSubgroup use pool' _ = x'
      intro h1
      cases h1 with
      | error e => rfl
      | ok sub sub' hsub =>
        have hemp : sub'.isEmpty = sub.isEmpty := by cases hsub <;> rfl
        have hst := mapM_sim Rule.storedMatchSet Rule.storedMatchSet (fun a b (hab : b = regraded hr a) => by subst hab; exact storedMatchSet_regraded a) hsub
        simp only [bind, Except.bind, hemp, hst]
    dsimp only
    rw [h2]
  | squaredError use =>
    have h3 : squaredErrorWeights L P filterAll use X y ((el.map (Indiv.mapSt (resolved hs))).map fun σ => { genome := σ.genome, pool := pool', st := σ.st }) =
        squaredErrorWeights L P filterAll use X y (el.map fun σ => { genome := σ.genome, pool := pool, st := σ.st }) := by
      cases el with
      | none => rfl
      | some σ =>
        have hp : ∀ g, (⟨g, pool', σ.st.map (resolved hs)⟩ : Solution K d M).predict L P filterAll false X = (⟨g, pool, σ.st⟩ : Solution K d M).predict L P filterAll false X := by
          intro g
          unfold Solution.predict Solution.subpopulation
          dsimp only
          rw [← h.length_eq]
          by_cases hg : g.length = pool.length
          · rw [if_pos hg, if_pos hg]
            exact mixing_regraded P false X (forall₂_compress _ _ h g)
          · rw [if_neg hg, if_neg hg]
        unfold squaredErrorWeights
        simp only [Option.map_some, Indiv.mapSt]
        rw [← h.length_eq]
        cases use with
        | true => simp only [if_true]; rw [hp]
        | false => simp only [Bool.false_eq_true, if_false]; rw [hp]
    have h2 : squaredErrorProbabilities L P filterAll use X y pool' ((el.map (Indiv.mapSt (resolved hs))).map fun σ => { genome := σ.genome, pool := pool', st := σ.st }) =
        squaredErrorProbabilities L P filterAll use X y pool (el.map fun σ => { genome := σ.genome, pool := pool, st := σ.st }) := by
      unfold squaredErrorProbabilities
      rw [h3]
      have h1 := subgroup_regraded (hs := hs) h use el
      revert h1
      generalize originSubgroup use pool _ = x
      generalize originSubgroup use pool' _ = x'
      intro h1
      cases h1 with
      | error e => rfl
      | ok sub sub' hsub =>
        have hemp : sub'.isEmpty = sub.isEmpty := by cases hsub <;> rfl
        simp only [bind, Except.bind, hemp]
    dsimp only
    rw [h2]

theorem rsGroup_regraded (hff : ∀ e k b sp, ff' e k b sp = hr (ff e k b sp)) (cfg : RSCfg K) (P : MixParams K) (D : RSDraws K d) (el : Option (Indiv K))
    {pool pool' : List (Rule K d M)} (h : List.Forall₂ (fun ρ ρ' => ρ' = regraded hr ρ) pool pool') (X : List (Point K d)) (y : List K) (fb : Pairs K d) (a : Nat) :
    ERel (List.Forall₂ fun ρ ρ' => ρ' = regraded hr ρ) (rsGroup cfg L ff P filterAll D el pool X y fb a)
      (rsGroup cfg L ff' P filterAll D (el.map (Indiv.mapSt (resolved hs))) pool' X y fb a) := by
  unfold rsGroup
  rw [originsOf_regraded cfg.origin P X y h]
  cases originsOf cfg.origin L P filterAll X y pool el cfg.rulesGenerated (D.origins a) (D.uniform a) with
  | error e => exact .error e
  | ok os =>
    refine ERel.mapM (R := Eq) _ _ _ _ (List.forall₂_same.mpr fun _ _ => rfl) fun p q hpq => ?_
    subst hpq
    refine ERel.of_map _ ?_
    unfold rsRule
    cases halfnormInit .ordered p.1 (D.init a p.2) with
    | error e => rfl
    | ok b => exact fit_regraded hff X y { kind := .ordered, bounds := constrain .ordered cfg.minRange fb b, inputSpace := fb }

theorem rsDiscover_regraded (hm : StrictMono hr) (hff : ∀ e k b sp, ff' e k b sp = hr (ff e k b sp)) (cfg : RSCfg K) (P : MixParams K) (D : RSDraws K d) (el : Option (Indiv K))
    {pool pool' : List (Rule K d M)} (h : List.Forall₂ (fun ρ ρ' => ρ' = regraded hr ρ) pool pool') (X : List (Point K d)) (y : List K) (n : Nat) :
    ERel (List.Forall₂ fun ρ ρ' => ρ' = regraded hr ρ) (rsDiscover cfg L ff P filterAll D el pool X y n)
      (rsDiscover cfg L ff' P filterAll D (el.map (Indiv.mapSt (resolved hs))) pool' X y n) := by
  unfold rsDiscover
  cases estimateBounds X with
  | error e => exact .error e
  | ok fb =>
    dsimp only
    have h1 : ERel (List.Forall₂ (List.Forall₂ fun ρ ρ' => ρ' = regraded hr ρ)) ((List.range n).mapM (rsGroup cfg L ff P filterAll D el pool X y fb))
        ((List.range n).mapM (rsGroup cfg L ff' P filterAll D (el.map (Indiv.mapSt (resolved hs))) pool' X y fb)) := by
      refine ERel.mapM (R := Eq) _ _ _ _ (List.forall₂_same.mpr fun _ _ => rfl) fun a b hab => ?_
      subst hab
      exact rsGroup_regraded hff cfg P D el h X y fb a
    revert h1
    generalize (List.range n).mapM (rsGroup cfg L ff P filterAll D el pool X y fb) = x
    generalize (List.range n).mapM (rsGroup cfg L ff' P filterAll D (el.map (Indiv.mapSt (resolved hs))) pool' X y fb) = x'
    intro h1
    cases h1 with
    | error e => exact .error e
    | ok gs gs' hgs =>
      refine randomSearch_sim _ _ ?_ _ _ (fun a b hab => by subst hab; exact acceptVariance_regraded _ _ a) _ _ (forall₂_map_map hgs _ _ fun _ _ h => ⟨h, rfl⟩)
      intro l l' _ hl
      unfold ruleFittest
      have hall : l'.all (fun ρ => ρ.st.isSome) = l.all fun ρ => ρ.st.isSome := by
        induction hl with
        | nil => rfl
        | cons h1 _ ih => rw [List.all_cons, List.all_cons, ih, h1]; simp [regraded]
      rw [hall]
      by_cases hc : l.all (fun ρ => ρ.st.isSome) = true
      · rw [if_pos hc, if_pos hc]
        refine .ok _ _ (forall₂_take _ _ _ (forall₂_sortedDesc_of_order _ _ (fun a b a' b' h h' => ?_) _ _ hl))
        subst h h'
        exact fitness_regraded_le hm a a'
      · rw [if_neg hc, if_neg hc]
        exact .error _

theorem ruleView_regraded (hm : StrictMono hr) : NsViewSim hr (fun ρ ρ' => ρ' = regraded hr ρ) (ruleView : NsView (Rule K d M) K) ruleView where
  mono := hm
  hamming := fun a _ b _ ha hb => by
    subst ha hb
    obtain ⟨_, _, _, _, _ | s⟩ := a <;> obtain ⟨_, _, _, _, _ | t⟩ := b <;> rfl
  matched := fun a _ ha => by
    subst ha
    obtain ⟨_, _, _, _, _ | s⟩ := a <;> rfl
  fitness := fun a _ ha => by
    subst ha
    exact ruleFitnessOf_regraded a
  experience := fun a _ ha => by
    subst ha
    obtain ⟨_, _, _, _, _ | s⟩ := a <;> rfl

theorem breedRules_regraded (hff : ∀ e k b sp, ff' e k b sp = hr (ff e k b sp)) (X : List (Point K d)) (y : List K) (m : Mutation) (r rate : K) (fb : Pairs K d) (A B : Rule K d M) (z : BreedDraw K d) :
    ERel (List.Forall₂ fun ρ ρ' => ρ' = regraded hr ρ) (breedRules L ff X y m r rate fb A B z) (breedRules L ff' X y m r rate fb (regraded hr A) (regraded hr B) z) := by
  unfold breedRules
  rw [show (regraded hr A).kind = A.kind from rfl, show (regraded hr A).bounds = A.bounds from rfl, show (regraded hr B).bounds = B.bounds from rfl]
  cases ruleCrossover A.kind rate z.u z.mask A.bounds B.bounds with
  | error e => exact .error e
  | ok p =>
    obtain ⟨b1, b2⟩ := p
    dsimp only
    rw [show childRule L ff' X y m r fb { regraded hr A with bounds := b1, kind := A.kind } z.first = _ from childRule_regraded hff X y m r fb { A with bounds := b1 } z.first,
      show childRule L ff' X y m r fb { regraded hr B with bounds := b2 } z.second = _ from childRule_regraded hff X y m r fb { B with bounds := b2 } z.second]
    cases childRule L ff X y m r fb { A with bounds := b1 } z.first with
    | error e => exact .error e
    | ok c1 =>
      dsimp only [Except.map]
      cases childRule L ff X y m r fb { B with bounds := b2 } z.second with
      | error e => exact .error e
      | ok c2 => exact .ok _ _ (.cons rfl (.cons rfl .nil))

theorem nsDiscover_regraded (hm : StrictMono hr) (hff : ∀ e k b sp, ff' e k b sp = hr (ff e k b sp)) (p : NSParams K) (hv : ∀ nb fb, p.ns.variant ≠ .biased nb fb) (P : MixParams K)
    {D D' : NSDraws K d M} (hD : Spec.SameSearch hr D D') (el : Option (Indiv K)) {pool pool' : List (Rule K d M)} (h : List.Forall₂ (fun ρ ρ' => ρ' = regraded hr ρ) pool pool')
    (X : List (Point K d)) (y : List K) (n : Nat) :
    ERel (List.Forall₂ fun ρ ρ' => ρ' = regraded hr ρ) (nsDiscover p L ff P filterAll D el pool X y n)
      (nsDiscover p L ff' P filterAll D' (el.map (Indiv.mapSt (resolved hs))) pool' X y n) := by
  unfold nsDiscover
  cases estimateBounds X with
  | error e => exact .error e
  | ok fb =>
    dsimp only
    have h1 := rsGroup_regraded (hs := hs) hff p.start P (D := ⟨fun _ => D.origins, fun _ => D.uniform, fun _ => D.init⟩) el h X y fb 0 (L := L)
    rw [hD.origins, hD.uniform, hD.init]
    revert h1
    generalize rsGroup p.start L ff P filterAll _ el pool X y fb 0 = x
    generalize rsGroup p.start L ff' P filterAll _ (el.map (Indiv.mapSt (resolved hs))) pool' X y fb 0 = x'
    intro h1
    cases h1 with
    | error e => exact .error e
    | ok initial initial' hini =>
      dsimp only
      refine nsOptimize_sim (ruleView_regraded hm) (S := Eq) ?_ p.ns (.inl ?_) _ _ ?_ _ _ (fun a b hab => by subst hab; exact acceptVariance_regraded _ _ a) n ?_ hini _ _ ?_
      · rintro a _ b _ z _ rfl rfl rfl
        exact breedRules_regraded hff X y _ _ _ fb a b z
      · revert hv
        cases p.ns.variant with
        | biased nb fb => exact fun hv => hv nb fb rfl
        | _ => exact fun _ => trivial
      · rintro a _ rfl
        obtain ⟨_, _, _, _, _ | s⟩ := a <;> rfl
      · unfold poolObjects
        rw [hD.leftover, ← h.length_eq]
        exact forall₂_map_map (forall₂_zip _ _ h _ _ (List.forall₂_eq_eq_eq ▸ rfl : List.Forall₂ Eq (List.range pool.length) (List.range pool.length))) _ _
          fun a b hab => ⟨hab.1, by rw [hab.2], by rw [hab.2], rfl⟩
      · refine hD.iterations.imp fun z z' hz => ⟨fun pop pop' hpop => ?_, fun i => by rw [hz.2.1], hz.2.2.1, hz.2.2.2⟩
        have : pop' = pop.map (regraded hr) := by
          induction hpop with
          | nil => rfl
          | cons h1 _ ih => rw [List.map_cons, h1, ih]
        rw [this]
        exact hz.1 pop

end Discovery

theorem discovery_sim {hr hs : K → K} (hm : StrictMono hr) {D D' : DiscoveryPart K d M} (h : Spec.SameDiscovery hr hs D D') (L : Learner K d M) (ff ff' : RuleFitness K d)
    (hff : ∀ e k b sp, ff' e k b sp = hr (ff e k b sp)) (P : MixParams K) (seed : Seed) (hist hist' : List (Event K d M)) (hh : Spec.SameHistory hr hs hist hist') (el : Option (Indiv K))
    {pool pool' : List (Rule K d M)} (hp : List.Forall₂ (fun ρ ρ' => ρ' = regraded hr ρ) pool pool') (X : List (Point K d)) (y : List K) (n : Nat) :
    ERel (List.Forall₂ fun ρ ρ' => ρ' = regraded hr ρ) (D.discover L ff P seed hist el pool X y n)
      (D'.discover L ff' P seed hist' (el.map (Indiv.mapSt (resolved hs))) pool' X y n) := by
  cases h with
  | es cfg o o' i i' c c' ho hi hc =>
    unfold DiscoveryPart.discover
    dsimp only
    rw [ho seed hist hist' hh, hi seed hist hist' hh, hc seed hist hist' hh]
    exact kindDiscover_regraded hm hff cfg _ _ _ _ el hp X y n
  | rs cfg D D' hD =>
    unfold DiscoveryPart.discover
    dsimp only
    rw [hD seed hist hist' hh]
    exact rsDiscover_regraded hm hff cfg P _ el hp X y n
  | ns cfg hv D D' hD =>
    unfold DiscoveryPart.discover
    dsimp only
    exact nsDiscover_regraded hm hff cfg hv P (hD seed hist hist' hh) el hp X y n

/-! ### C149 -/

/-- C149 (partial): the same for rule discovery by evolution strategy (every matching type, initialisation and mutation), random search (every origin strategy) or novelty search (every variant but
the biased one, every type and archive, parents selected without roulette wheel), every mixing model, and composition by
genetic algorithm or saga3 (without roulette wheel), random search, grey wolves or particle swarm (every movement). Missing: the composition methods that calculate with the fitness values
(`C149_bees_refuted`, `C149_saga_refuted`,
`C149_ants_refuted`), roulette wheel selection (`C149_roulette_refuted`), early stopping (`C149_stop_refuted`), and biased novelty (`C149_bias_refuted`). -/
theorem C149_parts_partial (hr hs : K → K) (hmr : StrictMono hr) (hms : StrictMono hs) (cfg : SupCfg K) (hcfg : cfg.patience ≤ 0) (D D' : DiscoveryPart K d M)
    (hD : Spec.SameDiscovery hr hs D D') (C C' : CompositionPart K d M) (hC : Spec.SameComposition hr hs C C') (P : MixParams K) (init : Seed → Nat → Nat → K) (L : Learner K d M)
    (ff ff' : RuleFitness K d) (hff : ∀ e k b sp, ff' e k b sp = hr (ff e k b sp)) (sf sf' : Nat → SolFitness K) (hsf : ∀ m e n c, sf' m e n c = hs (sf m e n c))
    (raw : RawData K d) (entropy step : Nat) (cl : Bool) :
    let r := partsFit cfg D C P init L ff sf entropy raw cl { step := step }
    let r2 := partsFit cfg D' C' P init L ff' sf' entropy raw cl { step := step }
    r2.raised = r.raised ∧ r2.state.pool = r.state.pool.map (regraded hr) ∧
      (∀ σ, r.state.elitist = some (.solution σ) → ∃ σ', r2.state.elitist = some (.solution σ') ∧ σ'.genome = σ.genome ∧ σ'.st = σ.st.map (resolved hs)) ∧
      ∀ Xq, r2.state.predict (partsComp D' C' P init L ff' sf') Xq = r.state.predict (partsComp D C P init L ff sf) Xq := by
  intro r r2
  have hφ : KeepsOrder (resolved hs) := fun s t => hms.lt_iff_lt
  have hc : MCompSim (resolved hs) (fun ρ ρ' => ρ' = regraded hr ρ) (partsComp D C P init L ff sf) (partsComp D' C' P init L ff' sf') raw.X raw.X raw.y raw.y :=
    ⟨fun seed hist hist' el pool pool' n hh hpool => discovery_sim hmr hD L ff ff' hff P seed hist hist' hh el hpool raw.X raw.y n,
      fun seed hist hist' hh => composition_sim hφ hC seed hist hist' hh, rfl⟩
  have hstop : ∀ (s : SolState K) (n : Nat), checkEarlyStopping cfg (resolved hs s).fitness n = checkEarlyStopping cfg s.fitness n := by
    intro s n
    unfold checkEarlyStopping
    rw [if_neg (not_lt.mpr hcfg), if_neg (not_lt.mpr hcfg)]
  have hconf : D'.configure = D.configure := by cases hD <;> rfl
  have h : MFitRel (resolved hs) (fun ρ ρ' => ρ' = regraded hr ρ) r r2 := by
    show MFitRel _ _ (partsFit cfg D C P init L ff sf entropy raw cl { step := step }) (partsFit cfg D' C' P init L ff' sf' entropy raw cl { step := step })
    unfold partsFit
    rw [hconf]
    cases raw.check with
    | error e => exact ⟨⟨rfl, rfl, rfl, .some .placeholder, .nil, rfl⟩, .nil, rfl⟩
    | ok _ =>
      dsimp only
      cases D.configure with
      | some e => exact ⟨⟨rfl, rfl, rfl, .some .placeholder, .nil, rfl⟩, .nil, rfl⟩
      | none =>
        exact fit_msim (raw := raw) (raw' := raw) hφ hc cfg hstop Iff.rfl (fun pool pool' hpool => evalGenome_regraded _ _ _ (hsf _) raw.X raw.y hpool) entropy cl { step := step } { step := step }
          ⟨rfl, rfl, rfl, .none, .nil, rfl⟩
  refine ⟨h.raised, ?_, ?_, fun Xq => ?_⟩
  · have hp := h.state.pool
    have : ∀ l l' : List (Rule K d M), List.Forall₂ (fun ρ ρ' => ρ' = regraded hr ρ) l l' → l' = l.map (regraded hr) := by
      intro l l' hl
      induction hl with
      | nil => rfl
      | cons h1 _ ih => rw [List.map_cons, h1, ih]
    exact this _ _ hp
  · intro σ hσ
    have he := h.state.elitist
    change Option.Rel _ r.state.elitist r2.state.elitist at he
    rw [hσ] at he
    revert he
    generalize r2.state.elitist = e
    intro he
    cases he with
    | some he =>
      cases he with
      | solution g pool pool' st _ => exact ⟨_, rfl, rfl, rfl⟩
  · exact predict_msim Xq Xq rfl (fun pool pool' hpool => mixing_regraded _ false Xq hpool) _ _ h.state

/-- C149 (refuted): the onlooker bees choose among the food sources with probabilities proportional to the fitness. Lowering both fitness values by 5/4 makes this fail, lowering them by 3 makes the
worse source the more probable one. -/
theorem C149_bees_refuted :
    let sources (f : ℚ → ℚ) : List (Food ℚ) := [⟨⟨[true], some ⟨1, 1, 1, f 1⟩⟩, 0⟩, ⟨⟨[false], some ⟨1, 1, 0, f 2⟩⟩, 0⟩]
    abcWeights (sources id) = .ok [1 / 3, 2 / 3] ∧ abcWeights (sources (· - 3)) = .ok [2 / 3, 1 / 3] ∧ abcWeights (sources (· - 5 / 4)) = .error .valueError := by
  decide +kernel

/-- C149 (refuted): saga1 adapts its rates to the quotient of mean and maximum of the fitness values. Raising all of them by 10 changes the rates: the mutation rate grows although it would have been
reduced. -/
theorem C149_saga_refuted :
    let cfg : Saga1Cfg ℚ := ⟨4, 1, 1 / 2, 3 / 4, 1 / 1000, 1 / 4, 2, 1 / 2, 9 / 10, 2⟩
    let rates (f : ℚ → ℚ) := (saga1Adjust cfg ([0, 0, 1].map f) ⟨1 / 10, 4 / 5⟩).toOption.map fun r => r.mutation
    rates id = some (1 / 20) ∧ rates (· + 10) = some (1 / 5) := by
  decide +kernel

/-- C149 (refuted): ants weigh the rules by their fitness relative to the smallest and the largest fitness of the pool. With the third powers of the fitness values and the same random numbers another
solution is built. -/
theorem C149_ants_refuted :
    let cfg : AntCfg ℚ := { powA := id, powB := id, sqrt := some, tau0 := 1 }
    let built (f : ℚ → ℚ) := (binaryBuild cfg ⟨[0, 1, 4].map f, fun _ _ => none⟩ [(1, 1), (1, 1), (1, 1)] fun _ => 11 / 20).toOption
    built id = some [false, true, true] ∧ built (· ^ 3) = some [false, false, true] := by
  decide +kernel

/-- C149 (refuted): the biased novelty calculation adds a multiple of the fitness to the novelty. With fitness values ten times as large another rule comes first. -/
theorem C149_bias_refuted :
    let V : NsView (List Bool × ℚ) ℚ := ⟨fun r => r.1, fun r => (r.2 : ℚ), fun r => r.1.count true⟩
    let store (f : ℚ → ℚ) : Store (List Bool × ℚ) ℚ := [⟨([true, true, true, true], f 0), none, none, none⟩, ⟨([false, false, false, false], f 10), none, none, none⟩,
      ⟨([false, false, false, true], f 0), none, none, none⟩]
    let best (f : ℚ → ℚ) := (noveltyScores V (.biased 1 1) .plain 2 [] [0, 1, 2] (store f)).toOption.map fun r => byNovelty V r.1 r.2
    best id = some [0, 1, 2] ∧ best (10 * ·) = some [1, 0, 2] := by
  decide +kernel

/-- Fitness values replaced by their double minus 7 and their third power. Random search and grey wolves with fixed random numbers. -/
example : StrictMono (fun x : ℚ => 2 * x - 7) ∧ StrictMono (fun x : ℚ => x ^ 3) ∧ (smallCfg.patience ≤ 0) ∧
    Spec.SameDiscovery (M := ℚ) (fun x : ℚ => 2 * x - 7) (fun x => x ^ 3) (.rs RSCfg.default fun _ _ => ⟨fun _ _ => [0, 0, 1, 1, 0, 1, 0], fun _ _ _ => 1 / 2, fun _ _ _ => (1, 2)⟩)
      (.rs RSCfg.default fun _ _ => ⟨fun _ _ => [0, 0, 1, 1, 0, 1, 0], fun _ _ _ => 1 / 2, fun _ _ (_ : Fin 1) => (1, 2)⟩) ∧
    Spec.SameComposition (M := ℚ) (d := 1) (fun x : ℚ => 2 * x - 7) (fun x => x ^ 3)
      (.gwo .crossover id 2 fun _ _ => [fun _ => ⟨fun _ _ => 0, fun _ _ => 1, fun _ _ => 0, fun _ _ => 1, fun _ => 0, fun _ => 0⟩])
      (.gwo .crossover id 2 fun _ _ => [fun _ => ⟨fun _ _ => 0, fun _ _ => 1, fun _ _ => 0, fun _ _ => 1, fun _ => 0, fun _ => 0⟩]) :=
  ⟨fun a b h => by dsimp only; linarith, Odd.strictMono_pow (by decide), by decide +kernel, .rs _ _ _ fun _ _ _ _ => rfl, .gwo _ _ _ _ _ fun _ _ _ _ => rfl⟩

/-- Novelty search with the median variant and the parents drawn at random. -/
example : Spec.SameDiscovery (M := ℚ) (d := 1) (fun x : ℚ => 2 * x - 7) (fun x => x ^ 3)
    (.ns { (NSParams.default : NSParams ℚ) with ns := { (NSParams.default : NSParams ℚ).ns with variant := .progressive } } fun _ _ =>
      ⟨fun _ => [0, 1], fun _ _ => 0, fun _ _ => (1, 1), [⟨fun _ => .ok [1, 0], fun _ => ⟨0, fun _ => true, fun _ => (0, 1), fun _ => (1, 0)⟩, .novel, .novel⟩], fun _ => ([], none)⟩)
    (.ns { (NSParams.default : NSParams ℚ) with ns := { (NSParams.default : NSParams ℚ).ns with variant := .progressive } } fun _ _ =>
      ⟨fun _ => [0, 1], fun _ _ => 0, fun _ _ => (1, 1), [⟨fun _ => .ok [1, 0], fun _ => ⟨0, fun _ => true, fun _ => (0, 1), fun _ => (1, 0)⟩, .novel, .novel⟩], fun _ => ([], none)⟩) :=
  .ns _ (fun _ _ h => by cases h) _ _ fun _ _ _ _ => ⟨rfl, rfl, rfl, rfl, .cons ⟨fun _ => rfl, rfl, rfl, rfl⟩ .nil⟩

end Suprb
