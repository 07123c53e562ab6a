import Verif.Lemmas.SimulateMap
import Verif.Lemmas.Relabel
import Verif.Props.Default

/-!
# Claim C149: only the order of the fitness values matters
-/

set_option autoImplicit false
set_option linter.unusedSectionVars false

namespace Suprb

open _root_.Spec (Pairs Point)

variable {K : Type} [Field K] [LinearOrder K] [IsStrictOrderedRing K] {d : Nat} {M : Type}

/-! ### Specification -/

/-- The rule with another fitness: `h` of its fitness. -/
def Spec.regraded (h : K → K) (ρ : Rule K d M) : Rule K d M := { ρ with st := ρ.st.map fun s => { s with fitness := s.fitness.map h } }

/-- The attributes of a solution with `h` of its fitness. -/
def Spec.resolved (h : K → K) (s : SolState K) : SolState K := { s with fitness := h s.fitness }

/-- Two runs with other fitness values draw the same random numbers as long as what happened before is the same except for the fitness values. -/
structure Spec.SameDrawsRegraded (hr hs : K → K) (D D' : RunDraws K d M) : Prop where
  origins : ∀ seed hist hist', List.Forall₂ (MEventRel (Spec.resolved hs) fun ρ ρ' => ρ' = Spec.regraded hr ρ) hist hist' → D'.origins seed hist' = D.origins seed hist
  children : ∀ seed hist hist', List.Forall₂ (MEventRel (Spec.resolved hs) fun ρ ρ' => ρ' = Spec.regraded hr ρ) hist hist' → D'.children seed hist' = D.children seed hist
  ga : ∀ seed hist hist', List.Forall₂ (MEventRel (Spec.resolved hs) fun ρ ρ' => ρ' = Spec.regraded hr ρ) hist hist' → D'.ga seed hist' = D.ga seed hist
  init : D'.init = D.init

/-- The solutions are never selected by roulette wheel. -/
def RunDraws.NoRoulette (D : RunDraws K d M) : Prop := ∀ seed hist n size, ∀ dr ∈ D.ga seed hist n size, dr.sel.ByOrder

open Suprb.Spec (regraded resolved)

/-! ### Rules -/

section Sim

variable {hr hs : K → K} {L : Learner K d M} {ff ff' : RuleFitness K d}

theorem regraded_clone (ρ : Rule K d M) : (regraded hr ρ).clone = ρ.clone := rfl

theorem refit_regraded (hff : ∀ e k b sp, ff' e k b sp = hr (ff e k b sp)) (X : List (Point K d)) (y : List K) (ms : List Bool) (ρ : Rule K d M) :
    (regraded hr ρ).refit L ff' X y ms = (ρ.refit L ff X y ms).map (regraded hr) := by
  unfold Rule.refit
  by_cases h : y.length ≠ X.length
  · rw [if_pos h, if_pos h]; rfl
  · rw [if_neg h, if_neg h]
    simp only [regraded, hff, Except.map, Option.map_some, WithBot.map_coe]

theorem fit_regraded (hff : ∀ e k b sp, ff' e k b sp = hr (ff e k b sp)) (X : List (Point K d)) (y : List K) (ρ : Rule K d M) :
    (regraded hr ρ).fit L ff' X y = (ρ.fit L ff X y).map (regraded hr) := by
  unfold Rule.fit
  dsimp only
  rw [show (regraded hr ρ).matchRows X = ρ.matchRows X from rfl]
  by_cases h : (ρ.matchRows X).any id = false
  · rw [if_pos h, if_pos h]; rfl
  · rw [if_neg h, if_neg h]
    cases hst : ρ.st with
    | none =>
      rw [show (regraded hr ρ).st = none by simp [regraded, hst]]
      exact refit_regraded hff X y _ ρ
    | some s =>
      rw [show (regraded hr ρ).st = some { s with fitness := s.fitness.map hr } by simp [regraded, hst]]
      dsimp only
      cases npEqAll s.matchSet (ρ.matchRows X) with
      | error e => rfl
      | ok v =>
        cases v with
        | true => rfl
        | false => exact refit_regraded hff X y _ ρ

theorem ERel.of_map {α β : Type} (f : α → β) {a : Except PyErr α} {b : Except PyErr β} (h : b = a.map f) : ERel (fun x y => y = f x) a b := by
  subst h
  cases a with
  | error e => exact .error e
  | ok a => exact .ok _ _ rfl

theorem childRule_regraded (hff : ∀ e k b sp, ff' e k b sp = hr (ff e k b sp)) (X : List (Point K d)) (y : List K) (m : Mutation) (r : K) (fb : Pairs K d) (ρ : Rule K d M) (z : Pairs K d) :
    childRule L ff' X y m r fb (regraded hr ρ) z = (childRule L ff X y m r fb ρ z).map (regraded hr) := by
  unfold childRule
  rw [show (regraded hr ρ).kind = ρ.kind from rfl, show (regraded hr ρ).bounds = ρ.bounds from rfl]
  cases childBounds m ρ.kind r fb z ρ.bounds with
  | error e => rfl
  | ok b => exact fit_regraded hff X y { ρ.clone with bounds := b }

theorem initialRule_regraded (hff : ∀ e k b sp, ff' e k b sp = hr (ff e k b sp)) (X : List (Point K d)) (y : List K) (k : Kind) (r : K) (fb sp : Pairs K d) (o : Point K d) :
    initialRule L ff' X y k r fb sp o = (initialRule L ff X y k r fb sp o).map (regraded hr) :=
  fit_regraded hff X y { kind := k, bounds := constrain k r fb (meanInit k o), inputSpace := sp }

theorem ruleFitnessOf_regraded (ρ : Rule K d M) : ruleFitnessOf (regraded hr ρ) = (ruleFitnessOf ρ).map hr := by
  unfold ruleFitnessOf
  cases h : ρ.st with
  | none => simp [regraded, h]
  | some s => simp [regraded, h]

theorem fitness_regraded_le (hm : StrictMono hr) (a b : Rule K d M) : ruleFitnessOf (regraded hr a) ≤ ruleFitnessOf (regraded hr b) ↔ ruleFitnessOf a ≤ ruleFitnessOf b := by
  rw [ruleFitnessOf_regraded, ruleFitnessOf_regraded]
  exact (WithBot.strictMono_map_iff.mpr hm).le_iff_le

theorem concreteES_regraded (hm : StrictMono hr) (hff : ∀ e k b sp, ff' e k b sp = hr (ff e k b sp)) (X : List (Point K d)) (y : List K) (op : ESOperator) (delay : Nat) (m : Mutation) (r : K)
    (fb : Pairs K d) : ESSim (fun ρ ρ' : Rule K d M => ρ' = regraded hr ρ) (concreteES L ff X y op delay m r fb) (concreteES L ff' X y op delay m r fb) id where
  operator := rfl
  delay := rfl
  child := fun a _ z h => by subst h; exact ERel.of_map _ (childRule_regraded hff X y m r fb a z)
  valid := fun a _ h => by
    subst h
    show validRule (regraded hr a) = validRule a
    unfold validRule
    cases hst : a.st with
    | none => simp [regraded, hst]
    | some s => simp [regraded, hst]
  fitness := fun a _ a' _ h h' => by subst h h'; exact fitness_regraded_le hm a a'
  select := fun l l' _ h => fittestFirst_sim_of_order _ _ (fun a _ a' _ h h' => by subst h h'; exact fitness_regraded_le hm a a') l l' h

theorem acceptVariance_regraded (beta : K) (y : List K) (ρ : Rule K d M) : acceptVariance beta y (regraded hr ρ) = acceptVariance beta y ρ := by
  unfold acceptVariance
  cases hst : ρ.st with
  | none => simp [regraded, hst]
  | some s => simp [regraded, hst]

theorem storedMatchSet_regraded (ρ : Rule K d M) : (regraded hr ρ).storedMatchSet = ρ.storedMatchSet := by
  unfold Rule.storedMatchSet
  cases hst : ρ.st with
  | none => simp [regraded, hst]
  | some s => simp [regraded, hst]

theorem subgroup_regraded {pool pool' : List (Rule K d M)} (h : List.Forall₂ (fun ρ ρ' => ρ' = regraded hr ρ) pool pool') (use : Bool) (el : Option (Indiv K)) :
    ERel (List.Forall₂ fun ρ ρ' => ρ' = regraded hr ρ) (originSubgroup use pool (el.map fun σ => { genome := σ.genome, pool := pool, st := σ.st }))
      (originSubgroup use pool' ((el.map (Indiv.mapSt (resolved hs))).map fun σ => { genome := σ.genome, pool := pool', st := σ.st })) := by
  cases el with
  | none => exact .ok _ _ h
  | some σ =>
    unfold originSubgroup Solution.subpopulation
    dsimp only [Option.map, Indiv.mapSt]
    rw [← h.length_eq]
    split
    · split
      · exact .ok _ _ (forall₂_compress _ _ h _)
      · exact .error _
    · exact .ok _ _ h

theorem matchingOrigins_regraded {pool pool' : List (Rule K d M)} (h : List.Forall₂ (fun ρ ρ' => ρ' = regraded hr ρ) pool pool') (use : Bool) (X : List (Point K d)) (el : Option (Indiv K)) (n : Nat)
    (draw : Option (List K) → List Nat) : matchingOrigins use X pool' (el.map (Indiv.mapSt (resolved hs))) n draw = matchingOrigins use X pool el n draw := by
  unfold matchingOrigins matchingProbabilities
  have h1 := subgroup_regraded (hs := hs) h use el
  revert h1
  generalize originSubgroup use pool _ = x
  generalize originSubgroup use pool' _ = x'
  intro h1
  cases h1 with
  | error e => rfl
  | ok sub sub' hsub =>
    have hemp : sub'.isEmpty = sub.isEmpty := by cases hsub <;> rfl
    have hst := mapM_sim Rule.storedMatchSet Rule.storedMatchSet (fun a b (hab : b = regraded hr a) => by subst hab; exact storedMatchSet_regraded a) hsub
    simp only [bind, Except.bind, hemp, hst]

theorem esDiscover_regraded (hm : StrictMono hr) (hff : ∀ e k b sp, ff' e k b sp = hr (ff e k b sp)) (cfg : ESCfg K) (draw : Option (List K) → List Nat) (children : Nat → Nat → Nat → Pairs K d)
    (el : Option (Indiv K)) {pool pool' : List (Rule K d M)} (h : List.Forall₂ (fun ρ ρ' => ρ' = regraded hr ρ) pool pool') (X : List (Point K d)) (y : List K) (n : Nat) :
    ERel (List.Forall₂ fun ρ ρ' => ρ' = regraded hr ρ) (esDiscover cfg L ff draw children el pool X y n)
      (esDiscover cfg L ff' draw children (el.map (Indiv.mapSt (resolved hs))) pool' X y n) := by
  unfold esDiscover
  rw [matchingOrigins_regraded h]
  cases estimateBounds X with
  | error e => exact .error e
  | ok fb =>
    dsimp only
    cases matchingOrigins cfg.useElitist X pool el n draw with
    | error e => exact .error e
    | ok os =>
      have := discoverRules_sim (R := fun ρ ρ' => ρ' = regraded hr ρ) (initialRule L ff X y .ordered cfg.minRange fb fb) (initialRule L ff' X y .ordered cfg.minRange fb fb) id
        (fun o => ERel.of_map _ (initialRule_regraded hff X y _ _ _ _ o))
        (fun ρ gens => (esOptimize (concreteES L ff X y cfg.operator cfg.delay cfg.mutation cfg.minRange fb) gens ρ).map some)
        (fun ρ gens => (esOptimize (concreteES L ff' X y cfg.operator cfg.delay cfg.mutation cfg.minRange fb) gens ρ).map some)
        (fun gens => gens.map fun g => (g.1.map id, g.2))
        (fun a b s hab => (esOptimize_sim (concreteES_regraded hm hff X y cfg.operator cfg.delay cfg.mutation cfg.minRange fb) s a b hab).map_some)
        (acceptVariance cfg.beta y) (acceptVariance cfg.beta y) (fun a b hab => by subst hab; exact acceptVariance_regraded _ _ a) os
        ((List.range n).map fun k => (List.range cfg.nIter).map fun g => ((List.range cfg.lmbda).map (children k g), ()))
      simpa [List.map_map, Function.comp_def] using this

/-! ### Predictions -/

theorem localPred_regraded (cache : Bool) (X : List (Point K d)) (ρ : Rule K d M) : (regraded hr ρ).localPred L cache X = ρ.localPred L cache X := by
  unfold Rule.localPred
  cases hst : ρ.st with
  | none => rw [show (regraded hr ρ).st = none by simp [regraded, hst]]; rfl
  | some s => rw [show (regraded hr ρ).st = some { s with fitness := s.fitness.map hr } by simp [regraded, hst]]; rfl

theorem tau_regraded (P : MixParams K) (ρ : Rule K d M) : (regraded hr ρ).tau P = ρ.tau P := by
  unfold Rule.tau
  cases hst : ρ.st with
  | none => rw [show (regraded hr ρ).st = none by simp [regraded, hst]]
  | some s => rw [show (regraded hr ρ).st = some { s with fitness := s.fitness.map hr } by simp [regraded, hst]]

theorem mixing_regraded (P : MixParams K) (cache : Bool) (X : List (Point K d)) {sub sub' : List (Rule K d M)} (h : List.Forall₂ (fun ρ ρ' => ρ' = regraded hr ρ) sub sub') :
    mixing L P filterAll cache X sub' = mixing L P filterAll cache X sub := by
  unfold mixing filterAll
  have hemp : sub'.isEmpty = sub.isEmpty := by cases h <;> rfl
  rw [hemp]
  dsimp only
  unfold mixRules
  rw [mapM_sim (Rule.localPred L cache X) (Rule.localPred L cache X) (fun a b (hab : b = regraded hr a) => by subst hab; exact localPred_regraded cache X a) h,
    mapM_sim (Rule.tau P) (Rule.tau P) (fun a b (hab : b = regraded hr a) => by subst hab; exact tau_regraded P a) h]

theorem evalGenome_regraded (P : MixParams K) (sf sf' : SolFitness K) (hsf : ∀ e n c, sf' e n c = hs (sf e n c)) (X : List (Point K d)) (y : List K) {pool pool' : List (Rule K d M)}
    (h : List.Forall₂ (fun ρ ρ' => ρ' = regraded hr ρ) pool pool') : evalGenome L P filterAll sf' X y pool' = mapEval (resolved hs) (evalGenome L P filterAll sf X y pool) := by
  funext g
  unfold mapEval evalGenome Solution.fit Solution.predict Solution.subpopulation
  dsimp only
  rw [← h.length_eq]
  by_cases hg : g.length = pool.length
  · rw [if_pos hg, if_pos hg]
    dsimp only
    rw [mixing_regraded P true X (forall₂_compress _ _ h g)]
    cases mixing L P filterAll true X (compress pool g) with
    | error e => rfl
    | ok p =>
      dsimp only
      by_cases hc : y.length ≠ p.length ∨ y.length = 0
      · rw [if_pos hc, if_pos hc]; rfl
      · rw [if_neg hc, if_neg hc]
        simp only [hsf, Except.map, resolved]
  · rw [if_neg hg, if_neg hg]; rfl

end Sim

/-! ### C149 -/

/-- C149 (partial): replacing the fitness of rules and of solutions by strictly increasing functions of them, with the same random numbers, ends in the same way and gives the same rules (with the
replaced fitness), the same selection of them and the same predictions. For configurations without early stopping that select solutions by rank, tournament or at random (the default). Missing: roulette
wheel selection, see `C149_roulette_refuted`, and early stopping, see `C149_stop_refuted`. -/
theorem C149_order_partial (hr hs : K → K) (hmr : StrictMono hr) (hms : StrictMono hs) (cfg : SupCfg K) (hcfg : cfg.patience ≤ 0) (es : ESCfg K) (ga : GACfg K) (L : Learner K d M)
    (ff ff' : RuleFitness K d) (hff : ∀ e k b sp, ff' e k b sp = hr (ff e k b sp)) (sf sf' : Nat → SolFitness K) (hsf : ∀ m e n c, sf' m e n c = hs (sf m e n c))
    (raw : RawData K d) (D D' : RunDraws K d M) (hD : Spec.SameDrawsRegraded hr hs D D') (hsel : D.NoRoulette) (entropy step : Nat) (cl : Bool) :
    let r := SupState.fit cfg (defaultComp es ga D L ff sf) entropy raw cl { step := step }
    let r2 := SupState.fit cfg (defaultComp es ga D' L ff' sf') entropy raw cl { step := step }
    r2.raised = r.raised ∧ r2.state.pool = r.state.pool.map (regraded hr) ∧
      (∀ σ, r.state.elitist = some (.solution σ) → ∃ σ', r2.state.elitist = some (.solution σ') ∧ σ'.genome = σ.genome ∧ σ'.st = σ.st.map (resolved hs)) ∧
      ∀ Xq, r2.state.predict (defaultComp es ga D' L ff' sf') Xq = r.state.predict (defaultComp es ga D L ff sf) Xq := by
  intro r r2
  have hφ : KeepsOrder (resolved hs) := fun s t => hms.lt_iff_lt
  have hc : MCompSim (resolved hs) (fun ρ ρ' => ρ' = regraded hr ρ) (defaultComp es ga D L ff sf) (defaultComp es ga D' L ff' sf') raw.X raw.X raw.y raw.y := by
    refine ⟨?_, ?_, hD.init⟩
    · intro seed hist hist' el pool pool' n hh hpool
      show ERel _ (esDiscover es L ff (D.origins seed hist raw.X.length n) (D.children seed hist) el pool raw.X raw.y n)
        (esDiscover es L ff' (D'.origins seed hist' raw.X.length n) (D'.children seed hist') (el.map (Indiv.mapSt (resolved hs))) pool' raw.X raw.y n)
      rw [hD.origins seed hist hist' hh, hD.children seed hist hist' hh]
      exact esDiscover_regraded hmr hff es _ _ el hpool raw.X raw.y n
    · intro seed hist hist' hh n ev pop
      show gaOptimize ga (D'.ga seed hist' n (pop.map (Indiv.mapSt (resolved hs))).length) n (mapEval (resolved hs) ev) (pop.map (Indiv.mapSt (resolved hs))) = _
      rw [hD.ga seed hist hist' hh, List.length_map]
      exact gaOptimize_mapSt hφ ga _ (fun dr hdr => .inl (hsel seed hist n pop.length dr hdr)) n ev pop
  have hstop : ∀ (s : SolState K) (n : Nat), checkEarlyStopping cfg (resolved hs s).fitness n = checkEarlyStopping cfg s.fitness n := by
    intro s n
    unfold checkEarlyStopping
    rw [if_neg (not_lt.mpr hcfg), if_neg (not_lt.mpr hcfg)]
  have h := fit_msim (raw := raw) (raw' := raw) hφ hc cfg hstop Iff.rfl (fun pool pool' hpool => evalGenome_regraded _ _ _ (hsf _) raw.X raw.y hpool) entropy cl { step := step } { step := step }
    ⟨rfl, rfl, rfl, .none, .nil, rfl⟩
  refine ⟨h.raised, ?_, ?_, fun Xq => ?_⟩
  · have hp := h.state.pool
    have : ∀ l l' : List (Rule K d M), List.Forall₂ (fun ρ ρ' => ρ' = regraded hr ρ) l l' → l' = l.map (regraded hr) := by
      intro l l' hl
      induction hl with
      | nil => rfl
      | cons h1 _ ih => rw [List.map_cons, h1, ih]
    exact this _ _ hp
  · intro σ hσ
    have he := h.state.elitist
    change Option.Rel _ r.state.elitist r2.state.elitist at he
    rw [hσ] at he
    revert he
    generalize r2.state.elitist = e
    intro he
    cases he with
    | some he =>
      cases he with
      | solution g pool pool' st _ => exact ⟨_, rfl, rfl, rfl⟩
  · exact predict_msim Xq Xq rfl (fun pool pool' hpool => mixing_regraded _ false Xq hpool) _ _ h.state

/-- C149 (refuted): with roulette wheel selection the values matter. Lowering both fitness values by 3 makes the worse solution the more probable one, lowering them by 5/4 makes the selection fail. -/
theorem C149_roulette_refuted :
    let pop (f : ℚ → ℚ) : List (Indiv ℚ) := [⟨[true], some ⟨1, 1, 1, f 1⟩⟩, ⟨[false], some ⟨1, 1, 0, f 2⟩⟩]
    rouletteWeights (pop id) = .ok (some [1 / 3, 2 / 3]) ∧ rouletteWeights (pop (· - 3)) = .ok (some [2 / 3, 1 / 3]) ∧
      selectRoulette (pop (· - 5 / 4)) [0, 1] = .error .valueError ∧ (selectRoulette (pop id) [0, 1]).isOk = true := by
  decide +kernel

/-- C149 (refuted): with early stopping the values matter. Lowering the fitness of all solutions by 10 ends the training after the first of two iterations, with one rule instead of two. -/
theorem C149_stop_refuted :
    let run (f : ℚ → ℚ) := SupState.fit { smallCfg with patience := 1 } (defaultComp smallES smallGA (firstDraws 2 1 (1 / 2)) meanLearner negErr fun _ _ _ c => f c) 7
      ⟨[![0], ![1], ![5]], [1, 3, 7], true⟩ false {}
    (run id).state.pool.length = 2 ∧ (run (· - 10)).state.pool.length = 1 := by
  decide +kernel

/-- Fitness values replaced by their double minus 7 and their third power; always the first sample is drawn as origin. -/
example : StrictMono (fun x : ℚ => 2 * x - 7) ∧ StrictMono (fun x : ℚ => x ^ 3) ∧ (smallCfg.patience ≤ 0) ∧ (firstDraws 2 1 (1 / 2) : RunDraws ℚ 1 ℚ).NoRoulette ∧
    Spec.SameDrawsRegraded (fun x : ℚ => 2 * x - 7) (fun x => x ^ 3) (firstDraws 2 1 (1 / 2) : RunDraws ℚ 1 ℚ) (firstDraws 2 1 (1 / 2)) := by
  refine ⟨fun a b h => by dsimp only; linarith, Odd.strictMono_pow (by decide), by decide +kernel, ?_, fun _ _ _ _ => rfl, fun _ _ _ _ => rfl, fun _ _ _ _ => rfl, rfl⟩
  intro _ _ _ size dr hdr
  unfold firstDraws at hdr
  dsimp only at hdr
  split at hdr
  · cases hdr
  · rw [List.mem_replicate] at hdr
    rw [hdr.2]
    trivial

end Suprb
