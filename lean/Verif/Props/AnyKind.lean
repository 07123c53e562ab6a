import Verif.Model.AnyKind
import Verif.Props.Default
import Verif.Props.Config

/-!
# Claim C159: training with every matching type, initialisation and mutation
-/

set_option autoImplicit false
set_option linter.unusedSectionVars false

namespace Suprb

open _root_.Spec (Pairs Point)

variable {K : Type} [Field K] [LinearOrder K] [IsStrictOrderedRing K] {d : Nat} {M : Type}

/-- What a user can expect of the settings: at least one iteration, rule, solution, generation and child; a delay of at least 1 for the operator `&`; a positive `beta`. -/
structure KindSettings (cfg : SupCfg K) (es : KindCfg K) (ga : GACfg K) (k : Nat) : Prop where
  iter : 1 ≤ cfg.nIter
  rules : 1 ≤ cfg.nRules
  size : 1 ≤ cfg.comp.populationSize
  gaSize : 1 ≤ ga.populationSize
  tournament : 1 ≤ k
  generations : 1 ≤ es.nIter
  children : 1 ≤ es.lmbda
  delay : es.operator = .amp → 1 ≤ es.delay
  beta : 0 < es.beta

/-- The random numbers numpy can return: origins drawn according to the probabilities, tournaments among the members of the population; initialisations and mutations may draw anything. -/
structure RunDraws.PossibleAny (D : RunDraws K d M) (ga : GACfg K) (k : Nat) : Prop where
  origins : ∀ seed hist N n probs, N ≠ 0 → IsDistribution N probs → PossibleChoice N n probs (D.origins seed hist N n probs)
  ga : ∀ seed hist n size, PossibleGA ga k size (D.ga seed hist n size)

/-- What a user sees of a rule in the pool: a condition of the configured matching type, at least one training sample that it matches, a model trained on the samples it matches, and a mean squared
error on them of at most the mean of their squared targets divided by `beta`. -/
structure KindPoolRule (k : Kind) (L : Learner K d M) (X : List (Point K d)) (y : List K) (beta : K) (ρ : Rule K d M) : Prop where
  kind : ρ.kind = k
  matched : ∃ x ∈ X, ρ.kind.call ρ.bounds x = true
  trained : DescribesData L ρ X y
  error : ∃ m, ρ.model = some m ∧ meanSqErr (L.predict m) (matchedData ρ X y) ≤
    ((matchedData ρ X y).map fun q => q.2 ^ 2).sum / ((matchedData ρ X y).length : K) / beta

/-- A rule of the matching type that was fitted on the data. -/
def Rule.OfKind (k : Kind) (L : Learner K d M) (ff : RuleFitness K d) (X : List (Point K d)) (y : List K) (ρ : Rule K d M) : Prop := ρ.kind = k ∧ ρ.FittedOn L ff X y

theorem ofKind_of_fit (k : Kind) (L : Learner K d M) (ff : RuleFitness K d) (X : List (Point K d)) (y : List K) (hxy : y.length = X.length) (b sp : Pairs K d) :
    ∃ ρ, Rule.fit L ff X y { kind := k, bounds := b, inputSpace := sp } = .ok ρ ∧ ρ.OfKind k L ff X y := by
  obtain ⟨ρ', e, hs, _⟩ := fit_consistent L ff X X y hxy rfl { kind := k, bounds := b, inputSpace := sp } (Or.inl rfl)
  refine ⟨ρ', e, hs.1, { kind := k, bounds := b, inputSpace := sp }, 0, rfl, rfl, ?_⟩
  rw [fits_replicate L ff X y hxy _ rfl 0]; exact e

theorem Rule.OfKind.consistent {k : Kind} {L : Learner K d M} {ff : RuleFitness K d} {X : List (Point K d)} {y : List K} (hxy : y.length = X.length) {ρ : Rule K d M}
    (h : ρ.OfKind k L ff X y) : ConsistentWith ρ X := by
  obtain ⟨_, ρ0, n, h0, _, hf⟩ := h
  rw [fits_replicate L ff X y hxy _ h0 n] at hf
  obtain ⟨ρ', e, _, hc⟩ := fit_consistent L ff X X y hxy rfl ρ0 (Or.inl h0)
  rw [hf] at e; cases e
  exact hc

theorem Rule.OfKind.pool {k : Kind} {L : Learner K d M} {ff : RuleFitness K d} {X : List (Point K d)} {y : List K} (hxy : y.length = X.length) {beta : K} (hb : 0 < beta) {ρ : Rule K d M}
    (h : ρ.OfKind k L ff X y) (ha : acceptVariance beta y ρ = .ok true) : KindPoolRule k L X y beta ρ := by
  have ht : ρ.TrainedOn L X y := by
    obtain ⟨_, ρ0, n, h0, _, hf⟩ := h
    rw [fits_replicate L ff X y hxy _ h0 n] at hf
    exact trainedOn_of_fit L ff X y hxy ρ0 ρ h0 hf
  obtain ⟨hm, s, m, e, _, hmod, _, h1, h2⟩ := C30_variance L X y hxy beta hb ρ ht ha
  exact ⟨h.1, hm, ht.2 hm, m, hmod, h2.trans h1⟩

/-! ### Configuring the mutation -/

theorem configure_eq (k : Kind) (σ : Sigma) :
    ((newMutation none σ).bind fun o => o.setMatching (some k)) =
      if (k = .centerSpread ∨ k = .minPercentage) ∧ σ ≠ .array 2 then .error .assertionError else .ok ⟨some σ, some k⟩ := by
  have h0 : newMutation none σ = .ok { sigma := some σ } := rfl
  rw [h0]
  show ({ sigma := some σ } : OperatorObj).setMatching (some k) = _
  cases σ with
  | scalar => cases k <;> simp [OperatorObj.setMatching]
  | array n =>
    by_cases hn : n = 2
    · subst hn; cases k <;> simp [OperatorObj.setMatching]
    · cases k <;> simp [OperatorObj.setMatching, hn]

theorem mutate_works (c : MutationCfg) (k : Kind) (hw : WorksWith k .mean c d) (z b : Pairs K d) : ∃ b', mutate c.m k z b = .ok b' := by
  obtain ⟨m', σ, rg⟩ := c
  cases m' <;> cases k <;> simp [WorksWith] at hw <;> exact ⟨_, rfl⟩

theorem worksWith_split (k : Kind) (i : InitCfg) (c : MutationCfg) (m : Point K d) (z : Pairs K d) :
    WorksWith k i c d ↔ (∃ b, initWith i k m z = .ok b) ∧ WorksWith k .mean c d := by
  rw [initWith_iff]
  cases k <;> simp [WorksWith, InitCfg.ForIntervals, InitCfg.ForPairs]

/-! ### Discovery with a combination that works -/

theorem kindInitial_total (cfg : KindCfg K) (hw : WorksWith cfg.kind cfg.init cfg.mutation d) (L : Learner K d M) (ff : RuleFitness K d) (X : List (Point K d)) (y : List K)
    (hxy : y.length = X.length) (fb : Pairs K d) (o : Point K d × Pairs K d) : ∃ ρ, kindInitial cfg L ff X y fb o = .ok ρ ∧ ρ.OfKind cfg.kind L ff X y := by
  obtain ⟨⟨b, hb⟩, _⟩ := (worksWith_split cfg.kind cfg.init cfg.mutation o.1 o.2).mp hw
  unfold kindInitial
  rw [hb]
  exact ofKind_of_fit _ L ff X y hxy _ _

theorem kindChild_total (cfg : KindCfg K) (hk : cfg.kind = .ordered ∨ cfg.kind = .unordered ∨ cfg.mutation.sigma = .array 2) (hw : WorksWith cfg.kind .mean cfg.mutation d)
    (L : Learner K d M) (ff : RuleFitness K d) (X : List (Point K d)) (y : List K) (hxy : y.length = X.length) (fb : Pairs K d) (ρ : Rule K d M) (hρ : ρ.kind = cfg.kind) (z : Pairs K d) :
    ∃ c, kindChild cfg ⟨some cfg.mutation.sigma, some cfg.kind⟩ L ff X y fb ρ z = .ok c ∧ c.OfKind cfg.kind L ff X y := by
  obtain ⟨b', hb'⟩ := mutate_works cfg.mutation cfg.kind hw z ρ.bounds
  unfold kindChild
  rw [(callMutation_iff cfg.mutation cfg.kind z _ b' hk).mpr ⟨hb', hw⟩]
  dsimp only
  have : ({ ρ.clone with bounds := constrain ρ.kind cfg.minRange fb b' } : Rule K d M) =
      { kind := cfg.kind, bounds := constrain ρ.kind cfg.minRange fb b', inputSpace := ρ.inputSpace } := by
    unfold Rule.clone
    rw [hρ]
  rw [this]
  exact ofKind_of_fit _ L ff X y hxy _ _

theorem kindES_total (cfg : KindCfg K) (hop : cfg.operator = .amp → 1 ≤ cfg.delay) (hk : cfg.kind = .ordered ∨ cfg.kind = .unordered ∨ cfg.mutation.sigma = .array 2)
    (hw : WorksWith cfg.kind .mean cfg.mutation d) (L : Learner K d M) (ff : RuleFitness K d) (X : List (Point K d)) (y : List K) (hxy : y.length = X.length) (fb : Pairs K d)
    (gens : List (List (Pairs K d) × Unit)) (ρ : Rule K d M) (hρ : ρ.OfKind cfg.kind L ff X y) :
    ∃ ρ', esOptimize (kindES cfg ⟨some cfg.mutation.sigma, some cfg.kind⟩ L ff X y fb) gens ρ = .ok ρ' ∧ ρ'.OfKind cfg.kind L ff X y := by
  have hsel : (kindES cfg ⟨some cfg.mutation.sigma, some cfg.kind⟩ L ff X y fb).SelectsMember := fun l _ r h => (fittestFirst_mem _ l r h).1
  have hQ : ∀ e c, e.OfKind cfg.kind L ff X y → (kindES cfg ⟨some cfg.mutation.sigma, some cfg.kind⟩ L ff X y fb).IsChild (fun _ => True) e c → c.OfKind cfg.kind L ff X y := by
    rintro e c he ⟨z, _, hc, _⟩
    obtain ⟨c', e1, e2⟩ := kindChild_total cfg hk hw L ff X y hxy fb e he.1 z
    have : kindChild cfg ⟨some cfg.mutation.sigma, some cfg.kind⟩ L ff X y fb e z = .ok c := hc
    rw [e1] at this; cases this
    exact e2
  obtain ⟨ρ', h'⟩ := esLoop_total (kindES cfg ⟨some cfg.mutation.sigma, some cfg.kind⟩ L ff X y fb) hsel (fun _ => True) (fun ρ => ρ.OfKind cfg.kind L ff X y)
    (fun e z he _ => by
      obtain ⟨c, e1, _⟩ := kindChild_total cfg hk hw L ff X y hxy fb e he.1 z
      exact ⟨c, e1⟩)
    (fun l s hl => by
      obtain ⟨r, h1, _⟩ := fittestFirst_ok ruleFitnessOf l hl
      exact ⟨r, h1⟩) hop hQ gens (fun _ _ _ _ => trivial) ρ [] hρ
  exact ⟨ρ', h', esLoop_inv _ hsel (fun _ => True) _ hQ gens (fun _ _ _ _ => trivial) ρ [] hρ (by simp) ρ' h'⟩

/-- One call of the rule discovery with a combination that works. -/
theorem kindDiscover_total (cfg : KindCfg K) (hop : cfg.operator = .amp → 1 ≤ cfg.delay) (hk : cfg.kind = .ordered ∨ cfg.kind = .unordered ∨ cfg.mutation.sigma = .array 2)
    (hw : WorksWith cfg.kind cfg.init cfg.mutation d) (L : Learner K d M) (ff : RuleFitness K d) (X : List (Point K d)) (y : List K) (hX : X ≠ []) (hxy : y.length = X.length)
    (draw : Option (List K) → List Nat) (inits : Nat → Pairs K d) (children : Nat → Nat → Nat → Pairs K d) (elitist : Option (Indiv K)) (pool : List (Rule K d M)) (n : Nat)
    (hd : ∀ probs, IsDistribution X.length probs → PossibleChoice X.length n probs (draw probs))
    (hel : ∀ σ : Indiv K, elitist = some σ → σ.genome.length = pool.length) (hpool : ∀ ρ ∈ pool, ρ.OfKind cfg.kind L ff X y) :
    ∃ rules, kindDiscover cfg ⟨some cfg.mutation.sigma, some cfg.kind⟩ L ff draw inits children elitist pool X y n = .ok rules ∧
      ∀ ρ ∈ rules, ρ.OfKind cfg.kind L ff X y ∧ acceptVariance cfg.beta y ρ = .ok true := by
  obtain ⟨fb, hfb, _⟩ := estimateBounds_ok X hX
  obtain ⟨origins, ho, _, _⟩ := matchingOrigins_total cfg.useElitist X hX pool elitist n hel (fun ρ hρ => (hpool ρ hρ).consistent hxy) draw hd
  have hw' := ((worksWith_split (K := K) cfg.kind cfg.init cfg.mutation (fun _ => 0) (fun _ => (0, 0))).mp hw).2
  obtain ⟨initial, hi⟩ := mapM_total (kindInitial cfg L ff X y fb) (origins.zip ((List.range n).map inits)) fun o _ => by
    obtain ⟨ρ, h, _⟩ := kindInitial_total cfg hw L ff X y hxy fb o
    exact ⟨ρ, h⟩
  have hinit : ∀ ρ ∈ initial, ρ.OfKind cfg.kind L ff X y := by
    intro ρ hρ
    obtain ⟨o, _, h1⟩ := mem_of_mapM_ok _ _ _ hi ρ hρ
    obtain ⟨ρ', h2, h3⟩ := kindInitial_total cfg hw L ff X y hxy fb o
    rw [h1] at h2; cases h2
    exact h3
  let gens : Nat → List (List (Pairs K d) × Unit) := fun k => (List.range cfg.nIter).map fun g => ((List.range cfg.lmbda).map (children k g), ())
  have hraw : ∀ p ∈ initial.zip ((List.range n).map gens), ∃ ρ,
      (esOptimize (kindES cfg ⟨some cfg.mutation.sigma, some cfg.kind⟩ L ff X y fb) p.2 p.1).map some = .ok (some ρ) ∧ ρ.OfKind cfg.kind L ff X y := by
    rintro ⟨ρ0, g⟩ hp
    obtain ⟨ρ, h1, h2⟩ := kindES_total cfg hop hk hw' L ff X y hxy fb g ρ0 (hinit ρ0 (List.of_mem_zip hp).1)
    exact ⟨ρ, by dsimp only; rw [h1]; rfl, h2⟩
  obtain ⟨raw, hr⟩ := mapM_total (fun p => (esOptimize (kindES cfg ⟨some cfg.mutation.sigma, some cfg.kind⟩ L ff X y fb) p.2 p.1).map some)
    (initial.zip ((List.range n).map gens)) fun p hp => by
      obtain ⟨ρ, a1, _⟩ := hraw p hp
      exact ⟨_, a1⟩
  have hrawmem : ∀ ρ, some ρ ∈ raw → ρ.OfKind cfg.kind L ff X y := by
    intro ρ hρ
    obtain ⟨p, hp1, hp2⟩ := mem_of_mapM_ok _ _ _ hr (some ρ) hρ
    obtain ⟨ρ', a1, a2⟩ := hraw p hp1
    rw [hp2] at a1
    simp only [Except.ok.injEq, Option.some.injEq] at a1
    subst a1
    exact a2
  obtain ⟨rules, hf⟩ := filterInvalid_total (acceptVariance cfg.beta y) raw fun ρ hρ => acceptVariance_total cfg.beta X y hxy ρ ((hrawmem ρ hρ).consistent hxy)
  refine ⟨rules, ?_, fun ρ hρ => ?_⟩
  · unfold kindDiscover
    rw [hfb]
    dsimp only
    rw [ho]
    dsimp only
    unfold discoverRules
    rw [hi]
    dsimp only
    rw [hr]
    exact hf
  · obtain ⟨b1, b2⟩ := filterInvalid_mem _ _ _ hf ρ hρ
    exact ⟨hrawmem ρ b1, b2⟩

theorem kindDiscover_length (cfg : KindCfg K) (o : OperatorObj) (L : Learner K d M) (ff : RuleFitness K d) (draw : Option (List K) → List Nat) (inits : Nat → Pairs K d)
    (children : Nat → Nat → Nat → Pairs K d) (elitist : Option (Indiv K)) (pool : List (Rule K d M)) (X : List (Point K d)) (y : List K) (n : Nat) (rules : List (Rule K d M))
    (h : kindDiscover cfg o L ff draw inits children elitist pool X y n = .ok rules) : rules.length ≤ n := by
  unfold kindDiscover at h
  split at h
  · cases h
  · split at h
    · cases h
    · unfold discoverRules at h
      split at h
      · cases h
      · rename_i initial _
        split at h
        · cases h
        · rename_i raw hr
          have b1 := filterInvalid_length _ _ _ h
          have b2 := mapM_length _ _ _ hr
          have b3 : ∀ gens : Nat → List (List (Pairs K d) × Unit), (initial.zip ((List.range n).map gens)).length ≤ n := by simp
          exact b1.trans (b2.trans_le (b3 _))

/-- The parameters of `esDiscover` with a matching type, an initialisation and a mutation. -/
def ESCfg.withKind (es : ESCfg K) (k : Kind) (i : InitCfg) (c : MutationCfg) : KindCfg K where
  nIter := es.nIter
  lmbda := es.lmbda
  operator := es.operator
  delay := es.delay
  minRange := es.minRange
  beta := es.beta
  useElitist := es.useElitist
  kind := k
  init := i
  mutation := c

theorem kindInitial_mean (es : ESCfg K) (c : MutationCfg) (L : Learner K d M) (ff : RuleFitness K d) (X : List (Point K d)) (y : List K) (fb : Pairs K d) (origins : List (Point K d))
    (zs : List (Pairs K d)) (h : origins.length = zs.length) :
    (origins.zip zs).mapM (kindInitial (es.withKind .ordered .mean c) L ff X y fb) = origins.mapM (initialRule L ff X y .ordered es.minRange fb fb) := by
  induction origins generalizing zs with
  | nil => rfl
  | cons o rest ih =>
    cases zs with
    | nil => cases h
    | cons z zs =>
      rw [List.zip_cons_cons, List.mapM_cons, List.mapM_cons, ih zs (by simpa using h)]
      rfl

/-- With ordered bounds, `MeanInit` and a `sigma` that fits, this is the discovery of C79, for every mutation. -/
theorem kindDiscover_default (es : ESCfg K) (σ : Sigma) (hw : WorksWith .ordered .mean ⟨es.mutation, σ, false⟩ d) (L : Learner K d M) (ff : RuleFitness K d) (draw : Option (List K) → List Nat)
    (inits : Nat → Pairs K d) (children : Nat → Nat → Nat → Pairs K d) (elitist : Option (Indiv K)) (pool : List (Rule K d M)) (X : List (Point K d)) (y : List K) (n : Nat)
    (hd : ∀ probs, IsDistribution X.length probs → PossibleChoice X.length n probs (draw probs)) (hxy : y.length = X.length) :
    kindDiscover (es.withKind .ordered .mean ⟨es.mutation, σ, false⟩) ⟨some σ, some .ordered⟩ L ff draw inits children elitist pool X y n =
      esDiscover es L ff draw children elitist pool X y n := by
  unfold kindDiscover esDiscover
  cases estimateBounds X with
  | error e => rfl
  | ok fb =>
    dsimp only
    show (match matchingOrigins es.useElitist X pool elitist n draw with | .error e => _ | .ok origins => _) = _
    cases ho : matchingOrigins es.useElitist X pool elitist n draw with
    | error e => rfl
    | ok origins =>
      dsimp only
      obtain ⟨hlen, _⟩ := matchingOrigins_drawn _ _ _ _ _ _ hd _ ho
      have hQ : ∀ (e : Rule K d M) z, e.kind = .ordered →
          kindChild (es.withKind .ordered .mean ⟨es.mutation, σ, false⟩) ⟨some σ, some .ordered⟩ L ff X y fb e z = childRule L ff X y es.mutation es.minRange fb e z := by
        intro e z he
        obtain ⟨b', hb'⟩ := mutate_works ⟨es.mutation, σ, false⟩ .ordered hw z e.bounds
        unfold kindChild childRule childBounds
        rw [he]
        have h1 : callMutation (es.withKind .ordered .mean ⟨es.mutation, σ, false⟩).mutation ⟨some σ, some .ordered⟩ z e.bounds = .ok b' :=
          (callMutation_iff ⟨es.mutation, σ, false⟩ .ordered z _ b' (Or.inl rfl)).mpr ⟨hb', hw⟩
        have h2 : mutate es.mutation .ordered z e.bounds = .ok b' := hb'
        rw [h1, h2]
        rfl
      have hopt : ∀ (ρ : Rule K d M) gens, ρ.kind = .ordered →
          esOptimize (kindES (es.withKind .ordered .mean ⟨es.mutation, σ, false⟩) ⟨some σ, some .ordered⟩ L ff X y fb) gens ρ =
          esOptimize (concreteES L ff X y es.operator es.delay es.mutation es.minRange fb) gens ρ := by
        intro ρ gens hρ
        refine esLoop_congr (concreteES L ff X y es.operator es.delay es.mutation es.minRange fb) (fun l _ ρ h => (fittestFirst_mem _ l ρ h).1)
          (kindChild (es.withKind .ordered .mean ⟨es.mutation, σ, false⟩) ⟨some σ, some .ordered⟩ L ff X y fb) (fun ρ => ρ.kind = .ordered) hQ ?_ gens ρ [] hρ
        rintro e c he ⟨z, _, hc, _⟩
        exact (childRule_consistent L ff X y hxy _ _ fb e c z hc).2.1.trans he
      unfold discoverRules
      rw [kindInitial_mean es ⟨es.mutation, σ, false⟩ L ff X y fb origins _ (by simp [hlen])]
      cases hi : origins.mapM (initialRule L ff X y .ordered es.minRange fb fb) with
      | error e => rfl
      | ok initial =>
        dsimp only
        rw [mapM_congr _ (fun p => (esOptimize (concreteES L ff X y es.operator es.delay es.mutation es.minRange fb) p.2 p.1).map some) _ fun p hp => ?_]
        · rfl
        · obtain ⟨hp1, _⟩ := List.of_mem_zip (a := p.1) (b := p.2) hp
          obtain ⟨o, _, ho⟩ := mem_of_mapM_ok _ _ _ hi p.1 hp1
          rw [hopt p.1 p.2]
          obtain ⟨ρ', e, hs, _⟩ := fit_consistent L ff X X y hxy rfl { kind := .ordered, bounds := constrain .ordered es.minRange fb (meanInit .ordered o), inputSpace := fb } (Or.inl rfl)
          unfold initialRule at ho
          rw [ho] at e; cases e
          exact hs.1

/-! ### Discovery with a combination that does not work -/

theorem kindDiscover_fails (cfg : KindCfg K) (hk : cfg.kind = .ordered ∨ cfg.kind = .unordered ∨ cfg.mutation.sigma = .array 2) (hw : ¬ WorksWith cfg.kind cfg.init cfg.mutation d)
    (hgen : 1 ≤ cfg.nIter) (hch : 1 ≤ cfg.lmbda) (L : Learner K d M) (ff : RuleFitness K d) (X : List (Point K d)) (y : List K) (hX : X ≠ [])
    (draw : Option (List K) → List Nat) (inits : Nat → Pairs K d) (children : Nat → Nat → Nat → Pairs K d) (elitist : Option (Indiv K)) (pool : List (Rule K d M)) (n : Nat) (hn : n ≠ 0)
    (hd : ∀ probs, IsDistribution X.length probs → PossibleChoice X.length n probs (draw probs)) :
    ∃ e, kindDiscover cfg ⟨some cfg.mutation.sigma, some cfg.kind⟩ L ff draw inits children elitist pool X y n = .error e := by
  obtain ⟨fb, hfb, _⟩ := estimateBounds_ok X hX
  unfold kindDiscover
  rw [hfb]
  dsimp only
  cases ho : matchingOrigins cfg.useElitist X pool elitist n draw with
  | error e => exact ⟨e, rfl⟩
  | ok origins =>
    dsimp only
    obtain ⟨hlen, _⟩ := matchingOrigins_drawn _ _ _ _ _ _ hd _ ho
    obtain ⟨n', rfl⟩ := Nat.exists_eq_succ_of_ne_zero hn
    cases origins with
    | nil => simp at hlen
    | cons o rest =>
      rw [List.range_succ_eq_map]
      simp only [List.map_cons, List.zip_cons_cons]
      unfold discoverRules
      rw [List.mapM_cons]
      cases hi : kindInitial cfg L ff X y fb (o, inits 0) with
      | error e => exact ⟨e, rfl⟩
      | ok ρ0 =>
        cases hrest : (rest.zip (List.map inits (List.map Nat.succ (List.range n')))).mapM (kindInitial cfg L ff X y fb) with
        | error e => exact ⟨e, rfl⟩
        | ok initial =>
          obtain ⟨b, hb⟩ : ∃ b, initWith cfg.init cfg.kind o (inits 0) = .ok b := by
            unfold kindInitial at hi
            cases hb : initWith cfg.init cfg.kind o (inits 0) with
            | error e => dsimp only at hi; rw [hb] at hi; cases hi
            | ok b => exact ⟨b, rfl⟩
          have hw' : ¬ WorksWith cfg.kind .mean cfg.mutation d := fun h => hw ((worksWith_split cfg.kind cfg.init cfg.mutation o (inits 0)).mpr ⟨⟨b, hb⟩, h⟩)
          have hbad : ∀ (ρ : Rule K d M) z, ∃ e, kindChild cfg ⟨some cfg.mutation.sigma, some cfg.kind⟩ L ff X y fb ρ z = .error e := by
            intro ρ z
            unfold kindChild
            cases hc : callMutation cfg.mutation ⟨some cfg.mutation.sigma, some cfg.kind⟩ z ρ.bounds with
            | error e => exact ⟨e, rfl⟩
            | ok b' => exact absurd ((callMutation_iff cfg.mutation cfg.kind z _ b' hk).mp hc).2 hw'
          obtain ⟨g', hg'⟩ := Nat.exists_eq_succ_of_ne_zero (Nat.one_le_iff_ne_zero.mp hgen)
          obtain ⟨c', hc'⟩ := Nat.exists_eq_succ_of_ne_zero (Nat.one_le_iff_ne_zero.mp hch)
          obtain ⟨e, he⟩ := hbad ρ0 (children 0 0 0)
          have hes : ∀ gs s, esOptimize (kindES cfg ⟨some cfg.mutation.sigma, some cfg.kind⟩ L ff X y fb) (((List.range cfg.lmbda).map (children 0 0), s) :: gs) ρ0 = .error e := by
            intro gs s
            rw [hc', List.range_succ_eq_map]
            unfold esOptimize esLoop esGen
            have : (kindES cfg ⟨some cfg.mutation.sigma, some cfg.kind⟩ L ff X y fb).child ρ0 (children 0 0 0) = .error e := he
            simp only [List.map_cons, List.mapM_cons, this]
            rfl
          refine ⟨e, ?_⟩
          simp only [bind, Except.bind, pure, Except.pure]
          simp only [List.zip_cons_cons, List.mapM_cons]
          have hgs : (List.range cfg.nIter).map (fun g => ((List.range cfg.lmbda).map (children 0 g), ())) =
              ((List.range cfg.lmbda).map (children 0 0), ()) :: (List.map Nat.succ (List.range g')).map fun g => ((List.range cfg.lmbda).map (children 0 g), ()) := by
            rw [hg', List.range_succ_eq_map]
            simp
          rw [hgs, hes]
          rfl

/-- A fit in which the rule discovery always fails ends with the error model. -/
theorem fit_discovery_fails (cfg : SupCfg K) (c : SupComp K d M) (entropy : Nat) (raw : RawData K d) (hraw : raw.check = .ok (raw.X, raw.y)) (cl : Bool) (st0 : SupState K d M)
    (hiter : 1 ≤ cfg.nIter) (hfail : ∀ seed hist el pool n, n ≠ 0 → ∃ e, c.discover seed hist el pool raw.X raw.y n = .error e) :
    let r := st0.fit cfg c entropy raw cl
    r.raised = none ∧ r.state.isError = true ∧ r.state.isFitted = true ∧ r.state.pool = [] ∧ ∀ Xq, Xq ≠ [] → r.state.predict c Xq = .ok (List.replicate Xq.length 0) := by
  have hstep : ∀ n (s : RunState K d M), ∃ s' e, discoverStep cfg c entropy raw.X raw.y n s = (s', some e) ∧ s'.pool = s.pool := by
    intro n s
    unfold discoverStep
    by_cases hn : n = 0
    · exact ⟨s, _, by rw [if_pos hn], rfl⟩
    · rw [if_neg hn]
      split
      · exact ⟨_, _, rfl, rfl⟩
      · split
        · exact ⟨_, _, rfl, rfl⟩
        · rename_i el _ _ seed _
          obtain ⟨e, he⟩ := hfail seed s.trace el s.pool n hn
          dsimp only
          rw [he]
          exact ⟨_, _, rfl, rfl⟩
  have hrun : ∃ s, runFit cfg c (runEval cfg c raw.X raw.y) entropy raw.X raw.y st0.step = .caught s ∧ s.pool = [] := by
    unfold runFit
    dsimp only
    split
    · obtain ⟨s', e, h1, h2⟩ := hstep cfg.nInitial { step := st0.step, comp := { archive := if cfg.useArchive then some [] else none } }
      rw [h1]
      exact ⟨s', rfl, h2⟩
    · obtain ⟨n', hn'⟩ := Nat.exists_eq_succ_of_ne_zero (Nat.one_le_iff_ne_zero.mp hiter)
      rw [hn', List.range_succ_eq_map]
      unfold fitLoop
      obtain ⟨s', e, h1, h2⟩ := hstep cfg.nRules { ({ step := st0.step, comp := { archive := if cfg.useArchive then some [] else none } } : RunState K d M) with step := 0 }
      rw [h1]
      exact ⟨s', rfl, h2⟩
  obtain ⟨s, h1, h2⟩ := hrun
  intro r
  have hr : r = ⟨{ { { st0 with isError := false, elitist := some .placeholder } with pool := [], cleaned := false } with isFitted := true, isError := true, pool := s.pool, step := s.step }, s.trace, none⟩ := by
    show st0.fit _ _ _ _ _ = _
    unfold SupState.fit SupState.fitWith
    rw [hraw]
    dsimp only
    rw [h1]
  rw [hr]
  refine ⟨rfl, rfl, rfl, h2, fun Xq hq => ?_⟩
  unfold SupState.predict
  simp [hq]

/-! ### C159 -/

/-- C159, the combinations that work: `fit` completes for all valid data, seeds and random numbers, the pool has at most `n_initial_rules + n_iter * n_rules` rules, all of them as described
by `KindPoolRule`, and the model predicts one value per sample. -/
theorem C159_works (cfg : SupCfg K) (es : KindCfg K) (ga : GACfg K) (k : Nat) (hs : KindSettings cfg es ga k) (D : RunDraws K d M) (hD : D.PossibleAny ga k)
    (inits : Seed → List (Event K d M) → Nat → Pairs K d) (L : Learner K d M) (ff : RuleFitness K d) (sf : Nat → SolFitness K) (entropy : Nat)
    (raw : RawData K d) (hraw : raw.finite = true ∧ raw.X.length = raw.y.length ∧ raw.X ≠ []) (cl : Bool) (st0 : SupState K d M)
    (hinit : cfg.nInitial = 0 ∨ st0.step < cfg.nIter) (hw : WorksWith es.kind es.init es.mutation d) :
    let r := kindFit cfg es ga D inits L ff sf entropy raw cl st0
    r.raised = none ∧ r.state.isError = false ∧ r.state.isFitted = true ∧ r.state.pool.length ≤ cfg.nInitial + cfg.nIter * cfg.nRules ∧
      (∀ ρ ∈ r.state.pool, KindPoolRule es.kind L raw.X raw.y es.beta ρ) ∧
      ∀ o Xq, Xq ≠ [] → ∃ out, r.state.predict (kindComp es o ga D inits L ff sf) Xq = .ok out ∧ out.length = Xq.length := by
  have hc : raw.check = .ok (raw.X, raw.y) := by unfold RawData.check; rw [if_pos hraw]
  have hxy := hraw.2.1.symm
  have hσ : ¬ ((es.kind = .centerSpread ∨ es.kind = .minPercentage) ∧ es.mutation.sigma ≠ .array 2) := by
    rintro ⟨hk | hk, h⟩ <;> rw [hk] at hw <;> exact h hw.2.2.2
  have hk : es.kind = .ordered ∨ es.kind = .unordered ∨ es.mutation.sigma = .array 2 := by
    push Not at hσ
    cases hkk : es.kind with
    | ordered => exact Or.inl rfl
    | unordered => exact Or.inr (Or.inl rfl)
    | centerSpread => exact Or.inr (Or.inr (hσ (Or.inl hkk)))
    | minPercentage => exact Or.inr (Or.inr (hσ (Or.inr hkk)))
  have hN : raw.X.length ≠ 0 := fun h => hraw.2.2 (List.length_eq_zero_iff.mp h)
  have hnf : (kindComp es ⟨some es.mutation.sigma, some es.kind⟩ ga D inits L ff sf).NoFailure cfg raw.X raw.y
      fun ρ => ρ.OfKind es.kind L ff raw.X raw.y ∧ acceptVariance es.beta raw.y ρ = .ok true := by
    refine ⟨?_, ?_, fun seed hist _ _ _ => (gaOptimize_total ga k hs.tournament hs.gaSize (D.ga seed hist) (hD.ga seed hist)).totalAt _ _⟩
    · intro seed hist el pool n _ hpool hel _
      exact kindDiscover_total es hs.delay hk hw L ff raw.X raw.y hraw.2.2 hxy (D.origins seed hist raw.X.length n) (inits seed hist) (D.children seed hist) el pool n
        (fun probs hp => hD.origins _ _ _ _ probs hN hp) hel fun ρ hρ => (hpool ρ hρ).1
    · intro pool hpool g hg
      exact eval_total cfg _ rfl ff raw.X raw.y hxy hraw.2.2 pool (fun ρ hρ => ⟨(hpool ρ hρ).1.2, ((hpool ρ hρ).1.pool hxy hs.beta (hpool ρ hρ).2).matched⟩) g hg
  obtain ⟨h1, h2, h3, h4, σ, h5, h6, h7⟩ := trained_result cfg (kindComp es ⟨some es.mutation.sigma, some es.kind⟩ ga D inits L ff sf) (fun seed hist => gaSized_good ga (D.ga seed hist))
    (fun seed hist el pool X y n rules h => kindDiscover_length _ _ _ _ _ _ _ _ _ _ _ _ _ h) hs.iter hs.rules hs.size entropy raw hc cl st0 hinit _ hnf
  have hr : kindFit cfg es ga D inits L ff sf entropy raw cl st0 = st0.fit cfg (kindComp es ⟨some es.mutation.sigma, some es.kind⟩ ga D inits L ff sf) entropy raw cl := by
    unfold kindFit
    rw [hc]
    dsimp only
    rw [configure_eq, if_neg hσ]
  rw [hr]
  refine ⟨h1.1, h1.2, h2, ?_, fun ρ hρ => (h4 ρ hρ).1.pool hxy hs.beta (h4 ρ hρ).2, fun o Xq hq => ?_⟩
  · unfold SupCfg.maxGenomeLength at h3
    rw [Nat.mul_comm cfg.nIter, Nat.add_comm]
    exact h3
  · obtain ⟨out, h8, h9, _⟩ := C17_convex L (kindComp es o ga D inits L ff sf).mix (by exact one_pos) (ExpCalc.plain_positive d) σ h7
      (fun ρ hρ => by
        have hg := h4 ρ (by rw [← h6]; exact hρ)
        exact usable_of_fitted ρ raw.X (hg.1.consistent hxy) (hg.1.pool hxy hs.beta hg.2).matched) Xq
    refine ⟨out, ?_, h9⟩
    unfold SupState.predict
    rw [h2, h1.2, h5]
    simp only [Bool.true_eq_false, if_false, if_neg hq, Bool.false_eq_true]
    exact h8

/-- C159, the combinations that do not work: for all valid data, seeds and random numbers, `fit` raises an `AssertionError` before it discovers anything (the last two matching types with a `sigma` of the
mutation that is not an array of two numbers), or it ends with a model without rules that predicts zeros. -/
theorem C159_fails (cfg : SupCfg K) (es : KindCfg K) (ga : GACfg K) (k : Nat) (hs : KindSettings cfg es ga k) (D : RunDraws K d M) (hD : D.PossibleAny ga k)
    (inits : Seed → List (Event K d M) → Nat → Pairs K d) (L : Learner K d M) (ff : RuleFitness K d) (sf : Nat → SolFitness K) (entropy : Nat)
    (raw : RawData K d) (hraw : raw.finite = true ∧ raw.X.length = raw.y.length ∧ raw.X ≠ []) (cl : Bool) (st0 : SupState K d M)
    (hw : ¬ WorksWith es.kind es.init es.mutation d) :
    let r := kindFit cfg es ga D inits L ff sf entropy raw cl st0
    if (es.kind = .centerSpread ∨ es.kind = .minPercentage) ∧ es.mutation.sigma ≠ .array 2 then
      r.raised = some .assertionError ∧ r.trace = [] ∧ r.state.pool = [] ∧ r.state.isFitted = st0.isFitted
    else r.raised = none ∧ r.state.isError = true ∧ r.state.isFitted = true ∧ r.state.pool = [] ∧
      ∀ o Xq, Xq ≠ [] → r.state.predict (kindComp es o ga D inits L ff sf) Xq = .ok (List.replicate Xq.length 0) := by
  have hc : raw.check = .ok (raw.X, raw.y) := by unfold RawData.check; rw [if_pos hraw]
  have hN : raw.X.length ≠ 0 := fun h => hraw.2.2 (List.length_eq_zero_iff.mp h)
  by_cases hσ : (es.kind = .centerSpread ∨ es.kind = .minPercentage) ∧ es.mutation.sigma ≠ .array 2
  · rw [if_pos hσ]
    unfold kindFit
    rw [hc]
    dsimp only
    rw [configure_eq, if_pos hσ]
    exact ⟨rfl, rfl, rfl, rfl⟩
  · have hk : es.kind = .ordered ∨ es.kind = .unordered ∨ es.mutation.sigma = .array 2 := by
      push Not at hσ
      cases hkk : es.kind with
      | ordered => exact Or.inl rfl
      | unordered => exact Or.inr (Or.inl rfl)
      | centerSpread => exact Or.inr (Or.inr (hσ (Or.inl hkk)))
      | minPercentage => exact Or.inr (Or.inr (hσ (Or.inr hkk)))
    rw [if_neg hσ]
    have hr : kindFit cfg es ga D inits L ff sf entropy raw cl st0 = st0.fit cfg (kindComp es ⟨some es.mutation.sigma, some es.kind⟩ ga D inits L ff sf) entropy raw cl := by
      unfold kindFit
      rw [hc]
      dsimp only
      rw [configure_eq, if_neg hσ]
    rw [hr]
    obtain ⟨h1, h2, h3, h4, h5⟩ := fit_discovery_fails cfg (kindComp es ⟨some es.mutation.sigma, some es.kind⟩ ga D inits L ff sf) entropy raw hc cl st0 hs.iter
      fun seed hist el pool n hn => kindDiscover_fails es hk hw hs.generations hs.children L ff raw.X raw.y hraw.2.2 (D.origins seed hist raw.X.length n) (inits seed hist)
        (D.children seed hist) el pool n hn fun probs hp => hD.origins _ _ _ _ probs hN hp
    exact ⟨h1, h2, h3, h4, fun o Xq hq => h5 Xq hq⟩

/-- C159: whether `fit` completes depends on the matching type, the initialisation, the mutation with its `sigma` and the number of features only. -/
theorem C159_decided (cfg cfg' : SupCfg K) (es : KindCfg K) (ga ga' : GACfg K) (k k' : Nat) (hs : KindSettings cfg es ga k) (hs' : KindSettings cfg' es ga' k') (D D' : RunDraws K d M)
    (hD : D.PossibleAny ga k) (hD' : D'.PossibleAny ga' k') (inits inits' : Seed → List (Event K d M) → Nat → Pairs K d) (L L' : Learner K d M) (ff ff' : RuleFitness K d)
    (sf sf' : Nat → SolFitness K) (entropy entropy' : Nat) (raw raw' : RawData K d) (hraw : raw.finite = true ∧ raw.X.length = raw.y.length ∧ raw.X ≠ [])
    (hraw' : raw'.finite = true ∧ raw'.X.length = raw'.y.length ∧ raw'.X ≠ []) (cl cl' : Bool) (st0 st0' : SupState K d M)
    (hinit : cfg.nInitial = 0 ∨ st0.step < cfg.nIter) (hinit' : cfg'.nInitial = 0 ∨ st0'.step < cfg'.nIter) :
    let r := kindFit cfg es ga D inits L ff sf entropy raw cl st0
    let r' := kindFit cfg' es ga' D' inits' L' ff' sf' entropy' raw' cl' st0'
    (r.raised = none ∧ r.state.isError = false ↔ r'.raised = none ∧ r'.state.isError = false) ∧ r.raised = r'.raised := by
  intro r r'
  by_cases hw : WorksWith es.kind es.init es.mutation d
  · obtain ⟨h1, h2, _⟩ := C159_works cfg es ga k hs D hD inits L ff sf entropy raw hraw cl st0 hinit hw
    obtain ⟨h1', h2', _⟩ := C159_works cfg' es ga' k' hs' D' hD' inits' L' ff' sf' entropy' raw' hraw' cl' st0' hinit' hw
    exact ⟨⟨fun _ => ⟨h1', h2'⟩, fun _ => ⟨h1, h2⟩⟩, h1.trans h1'.symm⟩
  · have h := C159_fails cfg es ga k hs D hD inits L ff sf entropy raw hraw cl st0 hw
    have h' := C159_fails cfg' es ga' k' hs' D' hD' inits' L' ff' sf' entropy' raw' hraw' cl' st0' hw
    dsimp only at h h'
    by_cases hσ : (es.kind = .centerSpread ∨ es.kind = .minPercentage) ∧ es.mutation.sigma ≠ .array 2
    · rw [if_pos hσ] at h h'
      refine ⟨⟨fun ⟨a, _⟩ => ?_, fun ⟨a, _⟩ => ?_⟩, h.1.trans h'.1.symm⟩
      · exact absurd (h.1.symm.trans a) (by simp)
      · exact absurd (h'.1.symm.trans a) (by simp)
    · rw [if_neg hσ] at h h'
      refine ⟨⟨fun ⟨_, a⟩ => ?_, fun ⟨_, a⟩ => ?_⟩, h.1.trans h'.1.symm⟩
      · exact absurd (h.2.1.symm.trans a) (by simp)
      · exact absurd (h'.2.1.symm.trans a) (by simp)

/-- An example: lower bound and proportion, drawn initial rules, uniform increase. -/
def smallKind : KindCfg ℚ := smallES.withKind .minPercentage (.normal (.array 2)) ⟨.uniformIncrease, .array 2, false⟩

/-- The settings, the random numbers and the combination of the example meet the hypotheses of C159. -/
example : KindSettings smallCfg smallKind smallGA 2 ∧ (firstDraws 2 1 (1 / 2) : RunDraws ℚ 1 ℚ).PossibleAny smallGA 2 ∧
    WorksWith smallKind.kind smallKind.init smallKind.mutation 1 ∧ ¬ WorksWith .minPercentage (.normal .scalar) smallKind.mutation 1 := by
  have h := firstDraws_possible (M := ℚ) (d := 1) smallES rfl smallGA rfl 2 1 (1 / 2 : ℚ) (by norm_num) (1, 1)
  refine ⟨⟨by decide, by decide, by decide, by decide, by decide, by decide, by decide, by decide, by decide +kernel⟩, ⟨h.origins, h.ga⟩, ?_, ?_⟩ <;>
    simp [WorksWith, smallKind, ESCfg.withKind, InitCfg.ForPairs]

/-- The model learned in the example: the rules match the samples from `0` to `1`. -/
example : ((kindFit smallCfg smallKind smallGA (firstDraws 2 1 (1 / 2)) (fun _ _ _ _ => (0, 1 / 2)) meanLearner negErr (fun _ _ _ c => c) 7 ⟨[![0], ![1 / 2], ![5]], [1, 3, 7], true⟩ false {}).state.predict
    (kindComp smallKind {} smallGA (firstDraws 2 1 (1 / 2)) (fun _ _ _ _ => (0, 1 / 2)) meanLearner negErr (fun _ _ _ c => c)) [![0], ![1 / 2], ![5]]) = .ok [2, 2, 0] := by decide +kernel

/-- The default mutation with unordered bounds ends with a model that predicts zeros; with lower bound and proportion `fit` raises. -/
example :
    (let c := smallES.withKind .unordered .mean ⟨.halfnormIncrease, .scalar, false⟩
     let r := kindFit smallCfg c smallGA (firstDraws 2 1 (1 / 2)) (fun _ _ _ _ => (0, 1 / 2)) meanLearner negErr (fun _ _ _ c => c) 7 ⟨[![0], ![1 / 2], ![5]], [1, 3, 7], true⟩ false {}
     (r.raised, r.state.isError)) = (none, true) ∧
    (let c := smallES.withKind .minPercentage .mean ⟨.halfnormIncrease, .scalar, false⟩
     let r := kindFit smallCfg c smallGA (firstDraws 2 1 (1 / 2)) (fun _ _ _ _ => (0, 1 / 2)) meanLearner negErr (fun _ _ _ c => c) 7 ⟨[![0], ![1 / 2], ![5]], [1, 3, 7], true⟩ false {}
     (r.raised, r.state.isError)) = (some .assertionError, false) := by decide +kernel

end Suprb
