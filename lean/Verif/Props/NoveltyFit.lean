import Verif.Lemmas.Novelty
import Verif.Props.Search

/-!
# Claims C106 and C107: training with novelty search, leftovers of earlier searches
-/

set_option autoImplicit false
set_option linter.unusedSectionVars false

namespace Suprb

open Spec

variable {K : Type} [Field K] [LinearOrder K] [IsStrictOrderedRing K] {d : Nat} {M : Type}

/-! ### C106 -/

theorem childBounds_ordered (m : Mutation) (r : K) (fb z b : Pairs K d) (hfb : Ordered fb) : ∃ b', childBounds m .ordered r fb z b = .ok b' ∧ Ordered b' ∧ Inside fb b' := by
  have hs : ∀ c : Pairs K d, Ordered (sortRows c) := fun _ _ => min_le_max
  cases m <;> exact ⟨_, rfl, C02_ordered r fb _ (hs _), C02_inside r fb _ hfb⟩

theorem childRule_ordered (L : Learner K d M) (ff : RuleFitness K d) (X : List (Point K d)) (y : List K) (hxy : y.length = X.length) (m : Mutation) (r : K) (fb : Pairs K d)
    (hfb : Ordered fb) (e : Rule K d M) (hk : e.kind = .ordered) (hsp : e.inputSpace = fb) (z : Pairs K d) :
    ∃ c, childRule L ff X y m r fb e z = .ok c ∧ c.FromData L ff X y fb := by
  obtain ⟨b, hb, h1, h2⟩ := childBounds_ordered m r fb z e.bounds hfb
  have : { e.clone with bounds := b } = ({ kind := .ordered, bounds := b, inputSpace := fb } : Rule K d M) := by
    unfold Rule.clone
    rw [hk, hsp]
  obtain ⟨c, hc, _⟩ := fit_consistent L ff X X y hxy rfl ({ kind := .ordered, bounds := b, inputSpace := fb } : Rule K d M) (Or.inl rfl)
  refine ⟨c, ?_, fromData_of_fit L ff X y hxy fb b h1 h2 c hc⟩
  unfold childRule
  rw [hk, hb]
  dsimp only
  rw [this]
  exact hc

theorem breedRules_total (L : Learner K d M) (ff : RuleFitness K d) (X : List (Point K d)) (y : List K) (hxy : y.length = X.length) (m : Mutation) (r rate : K) (fb : Pairs K d)
    (hfb : Ordered fb) : BreedsGood (breedRules L ff X y m r rate fb) (fun ρ : Rule K d M => ρ.FromData L ff X y fb) fun _ => True := by
  intro A B z hA hB _
  have hx : ∃ ab, ruleCrossover A.kind rate z.u z.mask A.bounds B.bounds = .ok ab := by
    unfold ruleCrossover
    rw [hA.kind]
    split_ifs
    · exact ⟨_, rfl⟩
    · exact ⟨_, rfl⟩
  obtain ⟨⟨a, b⟩, hx⟩ := hx
  obtain ⟨c1, h1, g1⟩ := childRule_ordered L ff X y hxy m r fb hfb { A with bounds := a } hA.kind hA.space z.first
  obtain ⟨c2, h2, g2⟩ := childRule_ordered L ff X y hxy m r fb hfb { B with bounds := b } hB.kind hB.space z.second
  refine ⟨[c1, c2], ?_, fun c hc => ?_⟩
  · unfold breedRules
    rw [hx]
    dsimp only
    rw [h1]
    dsimp only
    rw [h2]
  · rcases List.mem_cons.mp hc with rfl | hc
    · exact g1
    · rw [List.mem_singleton.mp hc]; exact g2

/-- Random numbers numpy can return in a call of novelty search on `N` samples. The selection operator returns rules of its argument unless that is empty; what earlier calls left on the rules of the pool
is arbitrary, except that a rule with an index has distances to itself. -/
structure NSDraws.Possible (D : NSDraws K d M) (p : NSParams K) (N : Nat) : Prop where
  origins : DrawsRows N p.ns.mu D.origins
  uniform : ∀ k i, 0 ≤ D.uniform k i ∧ D.uniform k i ≤ 1
  init : ∀ k i, 0 ≤ (D.init k i).1 ∧ 0 ≤ (D.init k i).2
  iterations : ∀ δ ∈ D.iterations, δ.Possible fun _ => True
  leftover : ∀ k, (D.leftover k).2.isSome → (D.leftover k).1 ≠ []

/-- Usable settings of novelty search: at least one parent, a positive `beta`, a usable search type. -/
structure NSParams.Usable (p : NSParams K) : Prop where
  mu : 1 ≤ p.ns.mu
  beta : 0 < p.beta
  type : p.ns.type.Usable

theorem poolObjects_attributes (left : Nat → List K × Option Nat) (hl : ∀ k, (left k).2.isSome → (left k).1 ≠ []) (pool : List (Rule K d M)) (X : List (Point K d))
    (hpool : ∀ ρ ∈ pool, ConsistentWith ρ X) : PoolAttributes ruleView X.length (poolObjects left pool) := by
  intro o ho
  obtain ⟨⟨ρ, k⟩, hp, rfl⟩ := List.mem_map.mp ho
  obtain ⟨s, hs, hms, _⟩ := hpool ρ (List.of_mem_zip hp).1
  exact ⟨by simp [ruleView, hs, hms], _, rfl, hl k⟩

/-- One call of novelty search: it succeeds, and every rule it returns belongs in the pool. The rules that are returned still have their distances, so the next call can use them. -/
theorem nsDiscover_spec (p : NSParams K) (hp : p.Usable) (L : Learner K d M) (ff : RuleFitness K d) (P : MixParams K) (X : List (Point K d)) (y : List K) (hX : X ≠ [])
    (hxy : y.length = X.length) (fb : Pairs K d) (hfb : estimateBounds X = .ok fb) (D : NSDraws K d M) (hD : D.Possible p X.length) (elitist : Option (Indiv K)) (pool : List (Rule K d M))
    (hpool : ∀ ρ ∈ pool, ConsistentWith ρ X ∧ ∃ x ∈ X, ρ.kind.call ρ.bounds x = true)
    (hel : ∀ σ : Indiv K, elitist = some σ → σ.genome.length = pool.length) (hsq : ∀ b, p.origin = .squaredError b → elitist = none → pool = []) (n : Nat) :
    ∃ rules, nsDiscover p L ff P filterAll D elitist pool X y n = .ok rules ∧ rules.length ≤ n ∧ ∀ ρ ∈ rules, ρ.InPool L ff X y fb p.beta := by
  obtain ⟨fb', h1, hin, hord⟩ := estimateBounds_ok X hX
  rw [hfb] at h1; cases h1
  obtain ⟨initial, hi1, hi2, hi3⟩ := rsGroup_spec p.start L ff P X y hX hxy fb hfb ⟨fun _ => D.origins, fun _ => D.uniform, fun _ => D.init⟩
    ⟨fun _ => hD.origins, fun _ => hD.uniform, fun _ => hD.init⟩ elitist pool hpool hel hsq 0
  have hne : initial ≠ [] := by
    intro h0
    rw [h0] at hi2
    have := hp.mu
    change 0 = p.ns.mu at hi2
    omega
  have hgood : ∀ ρ : Rule K d M, ρ.FromData L ff X y fb → (ruleView.matchSet ρ).length = X.length := fun ρ h => by
    obtain ⟨s, hs, hms, _⟩ := h.consistent hxy
    simp [ruleView, hs, hms]
  obtain ⟨s, hs, hinv⟩ := nsLoop_total ruleView X.length (fun ρ : Rule K d M => ρ.FromData L ff X y fb) hgood p.ns hp.type (by have := hp.mu; omega)
    (breedRules L ff X y p.mutation p.minRange p.rate fb) (fun _ => True) (breedRules_total L ff X y hxy _ _ _ fb hord) validRule D.iterations (fun δ h => (hD.iterations δ h).for _)
    (nsStart (poolObjects D.leftover pool) initial)
    (nsStart_inv ruleView X.length _ hgood _ (poolObjects_attributes D.leftover hD.leftover pool X fun ρ h => (hpool ρ h).1) initial hi3 hne)
  have hmem : ∀ ρ, some ρ ∈ (s.best.take n).map (fun r => s.store[r]?.map NsObj.rule) → ρ.FromData L ff X y fb := by
    intro ρ hρ
    obtain ⟨r, hr, he⟩ := List.mem_map.mp hρ
    obtain ⟨_, o, ho, hg⟩ := hinv.best r (List.mem_of_mem_take hr)
    rw [ho] at he
    cases he
    exact hg
  obtain ⟨rules, hf⟩ := filterInvalid_total (acceptVariance p.beta y) ((s.best.take n).map fun r => s.store[r]?.map NsObj.rule) fun ρ hρ =>
    acceptVariance_total p.beta X y hxy ρ ((hmem ρ hρ).consistent hxy)
  have hopt : nsOptimize ruleView p.ns (breedRules L ff X y p.mutation p.minRange p.rate fb) validRule (acceptVariance p.beta y) n (poolObjects D.leftover pool) initial D.iterations = .ok rules := by
    unfold nsOptimize
    rw [hs]
    exact hf
  obtain ⟨c1, c2⟩ := C30_ns_rules L ff X y hxy p.mutation p.minRange p.rate fb p.ns (acceptVariance p.beta y) n _ initial D.iterations rules hopt
  refine ⟨rules, ?_, c1, fun ρ hρ => ?_⟩
  · unfold nsDiscover
    rw [hfb]
    dsimp only
    rw [hi1]
    exact hopt
  · obtain ⟨_, c3, c4⟩ := c2 ρ hρ
    exact ⟨hmem ρ (filterInvalid_mem _ _ _ hf ρ hρ).1, c4, c3⟩

theorem nsDiscover_length (p : NSParams K) (L : Learner K d M) (ff : RuleFitness K d) (P : MixParams K) (filt : SubFilter K d M) (D : NSDraws K d M) (elitist : Option (Indiv K))
    (pool : List (Rule K d M)) (X : List (Point K d)) (y : List K) (n : Nat) (rules : List (Rule K d M)) (h : nsDiscover p L ff P filt D elitist pool X y n = .ok rules) :
    rules.length ≤ n := by
  unfold nsDiscover at h
  split at h
  · cases h
  · split at h
    · cases h
    · exact (C78_returned _ _ _ _ _ _ _ _ _ _ h).1

/-- Settings of a model with novelty search: at least one iteration, rule and solution. -/
structure NoveltySettings (cfg : SupCfg K) (p : NSParams K) (ga : GACfg K) (k : Nat) : Prop where
  iter : 1 ≤ cfg.nIter
  rules : 1 ≤ cfg.nRules
  size : 1 ≤ cfg.comp.populationSize
  gaSize : 1 ≤ ga.populationSize
  tournament : 1 ≤ k
  usable : p.Usable

/-- C106 except for squared-error origins (the default) together with initial rules: with valid data, `fit` with novelty search completes for every seed and all random numbers, with every novelty
calculation, search type, archive and selection operator, and its pool has at most `n_initial_rules + n_iter * n_rules` rules, all of which are as described by `PoolRule`. (Missing: initial rules with
squared-error origins, for which it is false, see `C106_refuted`; `hinit` excludes a refit with initial rules after a fit with more iterations, see `C52_refuted` and C54.) -/
theorem C106_fit_partial (cfg : SupCfg K) (p : NSParams K) (ga : GACfg K) (k : Nat) (hs : NoveltySettings cfg p ga k) (S : Seed → List (Event K d M) → NSDraws K d M) (D : RunDraws K d M)
    (raw : RawData K d) (hraw : raw.finite = true ∧ raw.X.length = raw.y.length ∧ raw.X ≠ []) (hS : ∀ seed hist, (S seed hist).Possible p raw.X.length)
    (hD : ∀ seed hist n size, PossibleGA ga k size (D.ga seed hist n size)) (L : Learner K d M) (ff : RuleFitness K d) (sf : Nat → SolFitness K) (entropy : Nat)
    (hsq : cfg.nInitial = 0 ∨ ∀ b, p.origin ≠ .squaredError b) (cl : Bool) (st0 : SupState K d M) (hinit : cfg.nInitial = 0 ∨ st0.step < cfg.nIter) :
    let r := st0.fit cfg (nsComp p ga S D L ff sf) entropy raw cl
    r.raised = none ∧ r.state.isError = false ∧ r.state.isFitted = true ∧ r.state.pool.length ≤ cfg.nInitial + cfg.nIter * cfg.nRules ∧
      ∀ ρ ∈ r.state.pool, PoolRule L raw.X raw.y p.beta ρ := by
  obtain ⟨fb, hfb, _⟩ := estimateBounds_ok raw.X hraw.2.2
  have hc : raw.check = .ok (raw.X, raw.y) := by unfold RawData.check; rw [if_pos hraw]
  have hxy := hraw.2.1.symm
  have hnf : (nsComp p ga S D L ff sf).NoFailure cfg raw.X raw.y fun ρ => ρ.InPool L ff raw.X raw.y fb p.beta := by
    refine ⟨?_, ?_, fun seed hist _ _ _ => (gaOptimize_total ga k hs.tournament hs.gaSize (D.ga seed hist) (hD seed hist)).totalAt _ _⟩
    · intro seed hist el pool n _ hpool hel hnone
      obtain ⟨rules, h1, _, h2⟩ := nsDiscover_spec p hs.usable L ff ⟨.plain, 1⟩ raw.X raw.y hraw.2.2 hxy fb hfb (S seed hist) (hS seed hist) el pool
        (fun ρ hρ => ⟨(hpool ρ hρ).fromData.consistent hxy, by obtain ⟨_, _, _, _, _, hm⟩ := (hpool ρ hρ).matchesData; exact hm⟩) hel
        (fun b hb => hsq.elim hnone fun h => absurd hb (h b)) n
      exact ⟨rules, h1, h2⟩
    · intro pool hpool g hg
      refine eval_total cfg (nsComp p ga S D L ff sf) rfl ff raw.X raw.y hxy hraw.2.2 pool ?_ g hg
      intro ρ hρ
      obtain ⟨_, _, _, _, _, hm⟩ := (hpool ρ hρ).matchesData
      exact ⟨(hpool ρ hρ).fromData.fitted, hm⟩
  obtain ⟨h1, h2, h3, h4, _⟩ := trained_result cfg (nsComp p ga S D L ff sf) (fun seed hist => gaSized_good ga (D.ga seed hist))
    (fun seed hist el pool X y n rules h => nsDiscover_length _ _ _ _ _ _ _ _ _ _ _ _ h) hs.iter hs.rules hs.size entropy raw hc cl st0 hinit _ hnf
  refine ⟨h1.1, h1.2, h2, ?_, fun ρ hρ => (h4 ρ hρ).poolRule hxy hraw.2.2 hfb hs.usable.beta⟩
  unfold SupCfg.maxGenomeLength at h3
  rw [Nat.mul_comm cfg.nIter, Nat.add_comm]
  exact h3

/-- With any rule discovery: if it returns initial rules and then cannot continue from these rules without an elitist, `fit` ends with the error model. -/
theorem initial_rules_fail (cfg : SupCfg K) (c : SupComp K d M) (entropy : Nat) (raw : RawData K d) (hraw : raw.finite = true ∧ raw.X.length = raw.y.length ∧ raw.X ≠ [])
    (hinit : 0 < cfg.nInitial) (hiter : 1 ≤ cfg.nIter) (hrules : 1 ≤ cfg.nRules) (cl : Bool) (st0 : SupState K d M) (seed : Seed)
    (hseed : (discoverySeeds entropy cfg.nIter)[st0.step]? = some seed) (rules : List (Rule K d M)) (hdisc : c.discover seed [] none [] raw.X raw.y cfg.nInitial = .ok rules)
    (hfail : ∀ seed' hist, ∃ e, c.discover seed' hist none rules raw.X raw.y cfg.nRules = .error e) :
    let r := st0.fit cfg c entropy raw cl
    r.raised = none ∧ r.state.isError = true ∧ r.state.isFitted = true := by
  have hc : raw.check = .ok (raw.X, raw.y) := by unfold RawData.check; rw [if_pos hraw]
  let s0 : RunState K d M := { step := st0.step, comp := { archive := if cfg.useArchive then some [] else none } }
  have hel : s0.comp.elitist = .ok none := rfl
  let s1 : RunState K d M := { s0 with trace := [.discover seed none [] cfg.nInitial], pool := rules }
  have hd1 : discoverStep cfg c entropy raw.X raw.y cfg.nInitial s0 = (s1, none) := by
    unfold discoverStep
    rw [if_neg (by omega), hel]
    dsimp only
    rw [show s0.step = st0.step from rfl, hseed]
    dsimp only
    rw [show c.discover seed s0.trace none s0.pool raw.X raw.y cfg.nInitial = .ok rules from hdisc]
    rfl
  have hrun : ∃ s, runFit cfg c (runEval cfg c raw.X raw.y) entropy raw.X raw.y st0.step = .caught s := by
    unfold runFit
    rw [if_pos hinit]
    rw [show discoverStep cfg c entropy raw.X raw.y cfg.nInitial _ = (s1, none) from hd1]
    dsimp only
    obtain ⟨m, hm⟩ := Nat.exists_eq_succ_of_ne_zero (by omega : cfg.nIter ≠ 0)
    rw [hm, List.range_succ_eq_map]
    unfold fitLoop
    have hd2 : ∃ s2 e, discoverStep cfg c entropy raw.X raw.y cfg.nRules { s1 with step := 0 } = (s2, some e) := by
      unfold discoverStep
      rw [if_neg (by omega), show ({ s1 with step := 0 } : RunState K d M).comp.elitist = .ok none from rfl]
      dsimp only
      rw [getElem?_discoverySeeds, if_pos (by omega)]
      dsimp only
      obtain ⟨e, he⟩ := hfail _ s1.trace
      rw [show s1.pool = rules from rfl, he]
      exact ⟨_, _, rfl⟩
    obtain ⟨s2, e, h2⟩ := hd2
    rw [h2]
    exact ⟨s2, rfl⟩
  obtain ⟨s, hrun⟩ := hrun
  intro r
  show (st0.fit _ _ _ _ _).raised = _ ∧ (st0.fit _ _ _ _ _).state.isError = _ ∧ (st0.fit _ _ _ _ _).state.isFitted = _
  unfold SupState.fit SupState.fitWith
  rw [hc]
  dsimp only
  rw [hrun]
  exact ⟨rfl, rfl, rfl⟩

/-- C106 is false for squared-error origins (the default of `NoveltySearch`) with initial rules: whenever the initial rules are not all rejected, the first iteration fails, for all data, seeds and random
numbers, and `fit` ends with the error model. -/
theorem C106_refuted (cfg : SupCfg K) (p : NSParams K) (b : Bool) (hp : p.origin = .squaredError b) (ga : GACfg K) (S : Seed → List (Event K d M) → NSDraws K d M) (D : RunDraws K d M)
    (L : Learner K d M) (ff : RuleFitness K d) (sf : Nat → SolFitness K) (entropy : Nat) (raw : RawData K d) (hraw : raw.finite = true ∧ raw.X.length = raw.y.length ∧ raw.X ≠ [])
    (hinit : 0 < cfg.nInitial) (hiter : 1 ≤ cfg.nIter) (hrules : 1 ≤ cfg.nRules) (cl : Bool) (st0 : SupState K d M) (seed : Seed)
    (hseed : (discoverySeeds entropy cfg.nIter)[st0.step]? = some seed) (rules : List (Rule K d M)) (hne : rules ≠ [])
    (hdisc : nsDiscover p L ff ⟨.plain, 1⟩ filterAll (S seed []) none [] raw.X raw.y cfg.nInitial = .ok rules) :
    let r := st0.fit cfg (nsComp p ga S D L ff sf) entropy raw cl
    r.raised = none ∧ r.state.isError = true ∧ r.state.isFitted = true := by
  refine initial_rules_fail cfg (nsComp p ga S D L ff sf) entropy raw hraw hinit hiter hrules cl st0 seed hseed rules hdisc fun seed' hist => ⟨.attributeError, ?_⟩
  obtain ⟨fb, hfb, _⟩ := estimateBounds_ok raw.X hraw.2.2
  show nsDiscover _ _ _ _ _ _ _ _ _ _ _ = _
  unfold nsDiscover
  rw [hfb]
  dsimp only
  unfold rsGroup originsOf NSParams.start
  rw [hp]
  dsimp only
  rw [show (Option.map _ (none : Option (Indiv K)) : Option (Solution K d M)) = none from rfl, C37_refuted L ⟨.plain, 1⟩ filterAll b raw.X raw.y rules hne]

/-! ### C107 -/

section Leftovers

variable {R : Type}

/-- Both computations fail with the same exception, or both succeed with related results. -/
def Alike {α : Type} (rel : α → α → Prop) : Except PyErr α → Except PyErr α → Prop
  | .ok a, .ok b => rel a b
  | .error e, .error e' => e = e'
  | _, _ => False

theorem Alike.cases {α : Type} {rel : α → α → Prop} {x y : Except PyErr α} (h : Alike rel x y) :
    (∃ e, x = .error e ∧ y = .error e) ∨ ∃ a b, x = .ok a ∧ y = .ok b ∧ rel a b := by
  cases x with
  | error e => cases y with
    | error e' => exact Or.inl ⟨e, rfl, by rw [show e = e' from h]⟩
    | ok b => exact h.elim
  | ok a => cases y with
    | error e' => exact h.elim
    | ok b => exact Or.inr ⟨a, b, rfl, rfl, h⟩

/-- Two stores that only differ in the attributes of the first `P` objects, all of which have distances. -/
structure SameButPool (P : Nat) (st st' : Store R K) : Prop where
  len : st'.length = st.length
  pool : ∀ i, i < P → ∃ o o' ds ds', st[i]? = some o ∧ st'[i]? = some o' ∧ o.rule = o'.rule ∧ o.distances = some ds ∧ o'.distances = some ds'
  rest : ∀ i, P ≤ i → st[i]? = st'[i]?

theorem SameButPool.rule {P : Nat} {st st' : Store R K} (h : SameButPool P st st') (i : Nat) : st[i]?.map NsObj.rule = st'[i]?.map NsObj.rule := by
  by_cases hi : i < P
  · obtain ⟨o, o', _, _, h1, h2, h3, _⟩ := h.pool i hi
    rw [h1, h2]; simp [h3]
  · rw [h.rest i (Nat.le_of_not_lt hi)]

theorem SameButPool.set {P : Nat} {st st' : Store R K} (h : SameButPool P st st') (r : Nat) (hr : P ≤ r) (o : NsObj R K) : SameButPool P (st.set r o) (st'.set r o) := by
  refine ⟨by simp [h.len], fun i hi => ?_, fun i hi => ?_⟩
  · rw [List.getElem?_set_ne (by omega), List.getElem?_set_ne (by omega)]
    exact h.pool i hi
  · rw [List.getElem?_set, List.getElem?_set, h.rest i hi, h.len]

theorem appendDistance_alike {P : Nat} {st st' : Store R K} (h : SameButPool P st st') (r : Nat) (x : K) :
    Alike (SameButPool P) (appendDistance st r x) (appendDistance st' r x) := by
  by_cases hr : r < P
  · obtain ⟨o, o', ds, ds', h1, h2, h3, h4, h5⟩ := h.pool r hr
    unfold appendDistance
    rw [h1, h2]
    dsimp only
    rw [h4, h5]
    refine ⟨by simp [h.len], fun i hi => ?_, fun i hi => ?_⟩
    · by_cases hri : r = i
      · subst hri
        refine ⟨{ o with distances := some (ds ++ [x]) }, { o' with distances := some (ds' ++ [x]) }, ds ++ [x], ds' ++ [x], ?_, ?_, h3, rfl, rfl⟩
        · rw [List.getElem?_set, if_pos rfl, if_pos (List.getElem?_eq_some_iff.mp h1).1]
        · rw [List.getElem?_set, if_pos rfl, if_pos (List.getElem?_eq_some_iff.mp h2).1]
      · rw [List.getElem?_set_ne hri, List.getElem?_set_ne hri]
        exact h.pool i hi
    · rw [List.getElem?_set_ne (by omega), List.getElem?_set_ne (by omega)]
      exact h.rest i hi
  · have hr := Nat.le_of_not_lt hr
    unfold appendDistance
    rw [h.rest r hr]
    cases st'[r]? with
    | none => rfl
    | some o =>
      dsimp only
      cases o.distances with
      | none => rfl
      | some ds => exact h.set r hr _

theorem distancesTo_alike (V : NsView R K) {P : Nat} (r : Nat) (archive : List Nat) {st st' : Store R K} (h : SameButPool P st st') :
    Alike (SameButPool P) (distancesTo V r archive st) (distancesTo V r archive st') := by
  induction archive generalizing st st' with
  | nil => exact h
  | cons a rest ih =>
    have e1 := h.rule r
    have e2 := h.rule a
    unfold distancesTo
    cases h1 : st[r]? with
    | none =>
      cases h2 : st'[r]? with
      | none => rfl
      | some o => rw [h1, h2] at e1; cases e1
    | some o =>
      cases h2 : st'[r]? with
      | none => rw [h1, h2] at e1; cases e1
      | some o' =>
        cases h3 : st[a]? with
        | none =>
          cases h4 : st'[a]? with
          | none => rfl
          | some b => rw [h3, h4] at e2; cases e2
        | some b =>
          cases h4 : st'[a]? with
          | none => rw [h3, h4] at e2; cases e2
          | some b' =>
            rw [h1, h2] at e1
            rw [h3, h4] at e2
            simp only [Option.map_some, Option.some.injEq] at e1 e2
            dsimp only
            rw [e1, e2]
            cases (hamming (V.matchSet o'.rule) (V.matchSet b'.rule) : Except PyErr K) with
            | error e => rfl
            | ok x =>
              dsimp only
              rcases (appendDistance_alike h a x).cases with ⟨e, i1, i2⟩ | ⟨s1, s1', i1, i2, i3⟩
              · rw [i1, i2]; rfl
              · rw [i1, i2]
                dsimp only
                rcases (appendDistance_alike i3 r x).cases with ⟨e, j1, j2⟩ | ⟨s2, s2', j1, j2, j3⟩
                · rw [j1, j2]; rfl
                · rw [j1, j2]
                  exact ih j3

theorem joinArchive_alike (V : NsView R K) {P : Nat} (r : Nat) (hr : P ≤ r) (archive : List Nat) {st st' : Store R K} (h : SameButPool P st st') :
    Alike (SameButPool P) (joinArchive V st archive r) (joinArchive V st' archive r) := by
  unfold joinArchive
  rw [← h.rest r hr]
  cases st[r]? with
  | none => rfl
  | some o =>
    dsimp only
    split_ifs
    · rcases (distancesTo_alike V r archive (h.set r hr { o with distances := some [] })).cases with ⟨e, i1, i2⟩ | ⟨s1, s1', i1, i2, i3⟩
      · rw [i1, i2]; rfl
      · rw [i1, i2]
        dsimp only
        rcases (appendDistance_alike i3 r 0).cases with ⟨e, j1, j2⟩ | ⟨s2, s2', j1, j2, j3⟩
        · rw [j1, j2]; rfl
        · rw [j1, j2]
          refine ⟨by simp [j3.len], fun i hi => ?_, fun i hi => ?_⟩
          · rw [List.getElem?_modify, List.getElem?_modify]
            have hne : r ≠ i := by omega
            simpa [hne] using j3.pool i hi
          · rw [List.getElem?_modify, List.getElem?_modify, j3.rest i hi]
    · exact h

theorem joinAll_alike (V : NsView R K) {P : Nat} (rules : List Nat) (hr : ∀ r ∈ rules, P ≤ r) (archive : List Nat) {st st' : Store R K} (h : SameButPool P st st') :
    Alike (fun a b => SameButPool P a.1 b.1 ∧ a.2 = b.2) (joinAll V rules st archive) (joinAll V rules st' archive) := by
  induction rules generalizing st st' archive with
  | nil => exact ⟨h, rfl⟩
  | cons r rest ih =>
    unfold joinAll
    rcases (joinArchive_alike V r (hr r (List.mem_cons_self ..)) archive h).cases with ⟨e, i1, i2⟩ | ⟨s1, s1', i1, i2, i3⟩
    · rw [i1, i2]; rfl
    · rw [i1, i2]
      exact ih (fun r h => hr r (List.mem_cons_of_mem _ h)) _ i3

theorem localCompetition_alike (V : NsView R K) {P : Nat} {st st' : Store R K} (h : SameButPool P st st') (t : NsType) (r : R) (archive : List Nat) :
    localCompetition V st t r archive = localCompetition V st' t r archive := by
  unfold localCompetition
  have : ∀ a : Nat, (st[a]?.map fun o => V.fitness o.rule) = st'[a]?.map fun o => V.fitness o.rule := fun a => by
    have := congrArg (Option.map V.fitness) (h.rule a)
    simpa [Option.map_map, Function.comp_def] using this
  simp only [this]

theorem scoreAll_alike (V : NsView R K) (v : NsVariant K) (t : NsType) (k : Nat) {P : Nat} (archive rules : List Nat) (hr : ∀ r ∈ rules, P ≤ r) {st st' : Store R K}
    (h : SameButPool P st st') : Alike (SameButPool P) (scoreAll V v t k archive rules st) (scoreAll V v t k archive rules st') := by
  induction rules generalizing st st' with
  | nil => exact h
  | cons r rest ih =>
    have hrr := hr r (List.mem_cons_self ..)
    unfold scoreAll
    rw [← h.rest r hrr]
    cases st[r]? with
    | none => rfl
    | some o =>
      dsimp only
      rw [← localCompetition_alike V h]
      cases localCompetition V st t o.rule archive with
      | error e => rfl
      | ok lc =>
        dsimp only
        cases noveltyBase V v k o with
        | error e => rfl
        | ok s => exact ih (fun r h => hr r (List.mem_cons_of_mem _ h)) (h.set r hrr _)

theorem fitnessAt_alike (V : NsView R K) {P : Nat} {st st' : Store R K} (h : SameButPool P st st') : fitnessAt V st = fitnessAt V st' := by
  funext a
  have := congrArg (Option.map V.fitness) (h.rule a)
  unfold fitnessAt
  simp only [Option.map_map, Function.comp_def] at this
  rw [this]

theorem experienceAt_alike (V : NsView R K) {P : Nat} {st st' : Store R K} (h : SameButPool P st st') : experienceAt V st = experienceAt V st' := by
  funext a
  have := congrArg (Option.map V.experience) (h.rule a)
  unfold experienceAt
  simp only [Option.map_map, Function.comp_def] at this
  rw [this]

theorem filterRules_alike (V : NsView R K) {P : Nat} {st st' : Store R K} (h : SameButPool P st st') (t : NsType) (refs : List Nat) : filterRules V st t refs = filterRules V st' t refs := by
  have hg : ∀ (f : R → Bool) (r : Nat), (st[r]?.map fun o => f o.rule) = st'[r]?.map fun o => f o.rule := fun f r => by
    have := congrArg (Option.map f) (h.rule r)
    simpa [Option.map_map, Function.comp_def] using this
  have hr : (fun r : Nat => st[r]?.map NsObj.rule) = fun r : Nat => st'[r]?.map NsObj.rule := funext h.rule
  unfold filterRules
  rw [hr]
  cases t with
  | plain => rfl
  | localCompetition _ => rfl
  | minimalCriteria q =>
    dsimp only
    split
    · rfl
    · simp only [hg]

/-- Sorting by keys that agree on the list. -/
theorem sortedDesc_congr {α β : Type} [LinearOrder β] (f g : α → β) (l : List α) (h : ∀ x ∈ l, f x = g x) : sortedDesc f l = sortedDesc g l := by
  have ho : ∀ (a : α) (l : List α), f a = g a → (∀ x ∈ l, f x = g x) → l.orderedInsert (fun a b => f b ≤ f a) a = l.orderedInsert (fun a b => g b ≤ g a) a := by
    intro a l ha hl
    induction l with
    | nil => rfl
    | cons b rest ih =>
      simp only [List.orderedInsert_cons]
      rw [ha, hl b (List.mem_cons_self ..), ih fun x hx => hl x (List.mem_cons_of_mem _ hx)]
  unfold sortedDesc
  induction l with
  | nil => rfl
  | cons a rest ih =>
    simp only [List.insertionSort_cons]
    rw [ih fun x hx => h x (List.mem_cons_of_mem _ hx)]
    exact ho a _ (h a (List.mem_cons_self ..)) fun x hx => h x (List.mem_cons_of_mem _ ((List.perm_insertionSort _ rest).subset hx))

theorem noveltyOf_alike {P : Nat} {st st' : Store R K} (h : SameButPool P st st') (r : Nat) (hr : P ≤ r) : noveltyOf st r = noveltyOf st' r := by
  unfold noveltyOf
  rw [h.rest r hr]

theorem byNovelty_alike (V : NsView R K) {P : Nat} {st st' : Store R K} (h : SameButPool P st st') (rules : List Nat) (hr : ∀ r ∈ rules, P ≤ r) :
    byNovelty V st rules = byNovelty V st' rules := by
  unfold byNovelty
  rw [experienceAt_alike V h]
  exact sortedDesc_congr _ _ rules fun r hx => by rw [noveltyOf_alike h r (hr r hx)]

theorem noveltyScores_alike (V : NsView R K) (v : NsVariant K) (t : NsType) (k : Nat) {P : Nat} (archive rules : List Nat) (hr : ∀ r ∈ rules, P ≤ r) {st st' : Store R K}
    (h : SameButPool P st st') : Alike (fun a b => SameButPool P a.1 b.1 ∧ a.2 = b.2) (noveltyScores V v t k archive rules st) (noveltyScores V v t k archive rules st') := by
  unfold noveltyScores
  rw [fitnessAt_alike V h]
  dsimp only
  rw [filterRules_alike V h]
  cases hf : filterRules V st' t (match v with | .progressive => progressiveFilter (fitnessAt V st') rules | _ => rules) with
  | error e => rfl
  | ok filtered =>
    have hfr : ∀ r ∈ filtered, P ≤ r := by
      intro r hx
      have hx := filterRules_sub V st' t _ filtered hf r hx
      cases v with
      | progressive => exact hr r (progressiveFilter_sub _ _ r hx)
      | basic => exact hr r hx
      | pareto => exact hr r hx
      | biased _ _ => exact hr r hx
    dsimp only
    rcases (joinAll_alike V filtered hfr archive h).cases with ⟨e, i1, i2⟩ | ⟨⟨s1, a1⟩, ⟨s1', a1'⟩, i1, i2, i3, i4⟩
    · rw [i1, i2]; rfl
    · rw [i1, i2]
      dsimp only at i3 i4 ⊢
      subst i4
      rcases (scoreAll_alike V v t k a1 filtered hfr i3).cases with ⟨e, j1, j2⟩ | ⟨s2, s2', j1, j2, j3⟩
      · rw [j1, j2]; rfl
      · rw [j1, j2]
        cases v with
        | pareto =>
          dsimp only
          have hp : paretoFront (noveltyOf s2) (fitnessAt V s2) filtered = paretoFront (noveltyOf s2') (fitnessAt V s2') filtered := by
            unfold paretoFront
            rw [fitnessAt_alike V j3, sortedDesc_congr (fun r => toLex (noveltyOf s2 r, fitnessAt V s2' r)) (fun r => toLex (noveltyOf s2' r, fitnessAt V s2' r)) filtered
              fun r hx => by rw [noveltyOf_alike j3 r (hfr r hx)]]
          rw [hp]
          cases paretoFront (noveltyOf s2') (fitnessAt V s2') filtered with
          | error e => rfl
          | ok front => exact ⟨j3, rfl⟩
        | basic => exact ⟨j3, rfl⟩
        | progressive => exact ⟨j3, rfl⟩
        | biased _ _ => exact ⟨j3, rfl⟩

/-- Two states that only differ in the attributes of the rules of the pool. -/
structure SameState (P : Nat) (s s' : NsState R K) : Prop where
  store : SameButPool P s.store s'.store
  archive : s.archive = s'.archive
  population : s.population = s'.population
  best : s.best = s'.best
  log : s.log = s'.log
  refs : (∀ r ∈ s.population, P ≤ r) ∧ ∀ r ∈ s.best, P ≤ r
  size : P ≤ s.store.length

theorem SameButPool.size_le {P : Nat} {st st' : Store R K} (h : SameButPool P st st') : P ≤ st.length := by
  by_contra hlt
  obtain ⟨o, _, _, _, h1, _⟩ := h.pool st.length (by omega)
  rw [List.getElem?_eq_none (Nat.le_refl _)] at h1
  cases h1

theorem ruleSelection_alike (V : NsView R K) (cfg : NsCfg K) (a : NsArchive) {P : Nat} {s s' : NsState R K} (h : SameState P s s') (rules : List Nat) (hr : ∀ r ∈ rules, P ≤ r)
    (n roh : Nat) : Alike (fun x y => SameState P x.1 y.1 ∧ x.2 = y.2 ∧ ∀ r ∈ x.2, P ≤ r) (ruleSelection V cfg a s rules n roh) (ruleSelection V cfg a s' rules n roh) := by
  unfold ruleSelection
  rw [← h.archive]
  rcases (noveltyScores_alike V cfg.variant cfg.type cfg.k s.archive rules hr h.store).cases with ⟨e, i1, i2⟩ | ⟨⟨st, ns⟩, ⟨st', ns'⟩, i1, i2, i3, i4⟩
  · rw [i1, i2]; rfl
  · rw [i1, i2]
    dsimp only at i3 i4 ⊢
    subst i4
    have hns : ∀ r ∈ ns, P ≤ r := fun r hx => hr r ((noveltyScores_ext V _ _ _ _ _ _ _ _ i1).2 r hx)
    have hadd : archiveAdds V st a ns roh = archiveAdds V st' a ns roh := by
      unfold archiveAdds
      cases a with
      | novel => dsimp only; rw [byNovelty_alike V i3 ns hns]
      | random perm => rfl
      | none_ => rfl
    rw [← hadd]
    have hlist : ∀ r ∈ (if cfg.usePopulation then (ns, ns) else archiveAdds V st a ns roh).2, P ≤ r := by
      intro r hx
      split at hx
      · exact hns r hx
      · exact hns r ((archiveAdds_sub V st a ns roh).2.1 r hx)
    refine ⟨⟨i3, rfl, h.population, h.best, ?_, h.refs, i3.size_le⟩, ?_, fun r hx => ?_⟩
    · show s.log ++ ns.map (noveltyOf st) = s'.log ++ ns.map (noveltyOf st')
      rw [h.log, List.map_congr_left fun r hx => noveltyOf_alike i3 r (hns r hx)]
    · show List.take n _ = List.take n _
      rw [byNovelty_alike V i3 _ hlist]
    · exact hlist r ((sortedDesc_perm _ _).subset (List.mem_of_mem_take hx))

theorem pick_mem (l idx out : List Nat) (h : pick l idx = .ok out) : ∀ r ∈ out, r ∈ l := by
  intro r hr
  obtain ⟨i, _, hi⟩ := mem_of_mapM_ok _ _ _ h r hr
  cases hl : l[i]? with
  | none => rw [hl] at hi; cases hi
  | some x =>
    rw [hl] at hi
    cases hi
    exact List.mem_of_getElem? hl

theorem nsStep_alike {Z : Type} (V : NsView R K) (cfg : NsCfg K) (breed : R → R → Z → Except PyErr (List R)) (valid : R → Bool) {P : Nat} {s s' : NsState R K} (h : SameState P s s')
    (d : NsDraw R Z) : Alike (SameState P) (nsStep V cfg breed valid s d) (nsStep V cfg breed valid s' d) := by
  have hrule : (fun r : Nat => s.store[r]?.map NsObj.rule) = fun r : Nat => s'.store[r]?.map NsObj.rule := funext h.store.rule
  have hsel : selectParents s d = selectParents s' d := by
    unfold selectParents
    rw [hrule, h.population]
  have hpar : ∀ parents, selectParents s' d = .ok parents → ∀ r ∈ parents, P ≤ r := by
    intro parents hp r hx
    unfold selectParents at hp
    split at hp
    · cases hp
    · exact h.refs.1 r (h.population ▸ pick_mem _ _ _ hp r hx)
  unfold nsStep
  rw [hsel, hrule]
  cases hp : selectParents s' d with
  | error e => rfl
  | ok parents =>
    have hpar := hpar parents hp
    dsimp only
    split_ifs with h0
    · exact h
    · cases nsChildren breed d.breed 0 (pairUp (parents.filterMap fun r => s'.store[r]?.map NsObj.rule)) with
      | error e => rfl
      | ok children =>
        dsimp only
        split_ifs with h1
        · exact h
        · have hs1 : SameState P { s with store := s.store ++ (children.filter valid).map fun r => { rule := r } } { s' with store := s'.store ++ (children.filter valid).map fun r => { rule := r } } := by
            refine ⟨⟨by simp [h.store.len], fun i hi => ?_, fun i hi => ?_⟩, h.archive, h.population, h.best, h.log, h.refs, ?_⟩
            · have hl := h.size
              have hl' := h.store.len
              rw [List.getElem?_append_left (by omega), List.getElem?_append_left (by omega)]
              exact h.store.pool i hi
            · by_cases hi2 : i < s.store.length
              · rw [List.getElem?_append_left hi2, List.getElem?_append_left (by rw [h.store.len]; exact hi2)]
                exact h.store.rest i hi
              · rw [List.getElem?_append_right (by omega), List.getElem?_append_right (by rw [h.store.len]; omega), h.store.len]
            · have := h.size
              simp only [List.length_append]
              omega
          rw [h.store.len]
          rcases (ruleSelection_alike V cfg d.archiveChildren hs1 ((List.range (children.filter valid).length).map (s.store.length + ·)) (by
            intro r hr
            obtain ⟨i, _, rfl⟩ := List.mem_map.mp hr
            have := h.size
            omega) cfg.mu cfg.roh).cases with ⟨e, i1, i2⟩ | ⟨⟨s2, best⟩, ⟨s2', best'⟩, i1, i2, i3, i4, i5⟩
          · rw [i1, i2]; rfl
          · rw [i1, i2]
            dsimp only at i3 i4 i5 ⊢
            subst i4
            rcases (ruleSelection_alike V cfg d.archiveParents i3 parents hpar cfg.nElitists 0).cases with ⟨e, j1, j2⟩ | ⟨⟨s3, bp⟩, ⟨s3', bp'⟩, j1, j2, j3, j4, j5⟩
            · rw [j1, j2]; rfl
            · rw [j1, j2]
              dsimp only at j3 j4 j5 ⊢
              subst j4
              exact ⟨j3.store, j3.archive, rfl, rfl, j3.log, ⟨fun r hr => (List.mem_append.mp hr).elim (i5 r) (j5 r), i5⟩, j3.size⟩

theorem foldlM_alike {σ β : Type} (f : σ → β → Except PyErr σ) (rel : σ → σ → Prop) (hf : ∀ s s' b, rel s s' → Alike rel (f s b) (f s' b)) (l : List β) (s s' : σ) (h : rel s s') :
    Alike rel (l.foldlM f s) (l.foldlM f s') := by
  induction l generalizing s s' with
  | nil => exact h
  | cons b rest ih =>
    rw [List.foldlM_cons, List.foldlM_cons]
    rcases (hf s s' b h).cases with ⟨e, i1, i2⟩ | ⟨t, t', i1, i2, i3⟩
    · rw [i1, i2]; rfl
    · rw [i1, i2]; exact ih t t' i3

/-- C107 for rules found by novelty search itself: two pools with the same rules, whatever distances, indices and scores earlier searches left on them, lead to the same result (returned rules or exception)
with the same random numbers, for every configuration. -/
theorem C107_leftovers_partial {Z : Type} (V : NsView R K) (cfg : NsCfg K) (breed : R → R → Z → Except PyErr (List R)) (valid : R → Bool) (accept : R → Except PyErr Bool) (nRules : Nat)
    (pool pool' : Store R K) (hrules : pool.map NsObj.rule = pool'.map NsObj.rule) (hd : ∀ o ∈ pool, o.distances.isSome) (hd' : ∀ o ∈ pool', o.distances.isSome) (initial : List R)
    (draws : List (NsDraw R Z)) :
    nsOptimize V cfg breed valid accept nRules pool initial draws = nsOptimize V cfg breed valid accept nRules pool' initial draws := by
  have hlen : pool'.length = pool.length := by have := congrArg List.length hrules; simpa using this.symm
  have hstart : SameState pool.length (nsStart pool initial) (nsStart pool' initial) := by
    refine ⟨⟨by simp [nsStart, hlen], fun i hi => ?_, fun i hi => ?_⟩, by simp [nsStart, hlen], by simp [nsStart, hlen], rfl, rfl, ⟨fun r hr => ?_, fun r hr => (List.not_mem_nil hr).elim⟩, by simp [nsStart]⟩
    · have hi' : i < pool'.length := by omega
      obtain ⟨ds, h1⟩ := Option.isSome_iff_exists.mp (hd _ (List.getElem_mem hi))
      obtain ⟨ds', h2⟩ := Option.isSome_iff_exists.mp (hd' _ (List.getElem_mem hi'))
      refine ⟨pool[i], pool'[i], ds, ds', ?_, ?_, ?_, h1, h2⟩
      · simp only [nsStart]; rw [List.getElem?_append_left hi]; exact List.getElem?_eq_getElem hi
      · simp only [nsStart]; rw [List.getElem?_append_left hi']; exact List.getElem?_eq_getElem hi'
      · have := congrArg (fun l => l[i]?) hrules
        simpa [List.getElem?_map, List.getElem?_eq_getElem hi, List.getElem?_eq_getElem hi'] using this
    · simp only [nsStart]
      rw [List.getElem?_append_right hi, List.getElem?_append_right (by omega), hlen]
    · obtain ⟨i, _, rfl⟩ := List.mem_map.mp hr
      exact Nat.le_add_right _ _
  unfold nsOptimize
  rcases (foldlM_alike (nsStep V cfg breed valid) (SameState pool.length) (fun s s' d h => nsStep_alike V cfg breed valid h d) draws _ _ hstart).cases with ⟨e, i1, i2⟩ | ⟨s, s', i1, i2, i3⟩
  · rw [i1, i2]
  · rw [i1, i2]
    dsimp only
    rw [i3.best, funext i3.store.rule]

end Leftovers

/-- One iteration of novelty search with the pool `[0,2]`, whose rule has the given attribute `distances_`. -/
def leftoverRun (distances : Option (List ℚ)) : Except PyErr (List ((ℚ × ℚ) × Option Nat)) := do
  let c ← (intervalRule 0 2).fit meanLearner negErr nsX [0, 2, 4]
  let a ← (intervalRule 0 0).fit meanLearner negErr nsX [0, 2, 4]
  let b ← (intervalRule 1 2).fit meanLearner negErr nsX [0, 2, 4]
  let out ← nsOptimize ruleView ⟨2, 1, 1, false, .basic, .plain, 1⟩ (breedRules meanLearner negErr nsX [0, 2, 4] .normal 0 (1/2) ![(0, 9)]) validRule
    (fun _ => .ok true) 2 [{ rule := c, distances := distances }] [a, b]
    [⟨selectAtRandom fun _ => [0, 1], fun _ => ⟨0, fun _ => true, ![(0, 0)], ![(0, 0)]⟩, .novel, .novel⟩]
  pure (out.map fun ρ => (ρ.bounds 0, ρ.st.map RuleState.experience))

/-- C107 is false for rules that another method found: they have no attribute `distances_`, and novelty search fails with an `AttributeError` on a pool with such a rule, whereas it succeeds with the same
rule and the same random numbers if novelty search found it before. -/
theorem C107_refuted : leftoverRun none = .error .attributeError ∧ ∃ rules, leftoverRun (some [0]) = .ok rules ∧ rules ≠ [] := by
  refine ⟨by decide +kernel, [((1, 2), some 2), ((0, 0), some 1)], by decide +kernel, by simp⟩

/-- Example for `C107_leftovers_partial`: other leftovers, the same result. -/
example : leftoverRun (some [1 / 3, 0, 5]) = leftoverRun (some [0]) := by decide +kernel

/-- What a call of novelty search leaves for the next one: the rules it may return have distances, and those with an index have a distance to themselves, so a pool that only novelty search extends
satisfies the hypotheses of `C107_leftovers_partial` and the assumption about leftovers in `NSDraws.Possible`, whatever attributes (of this kind) the call itself found. -/
theorem C106_attributes (p : NSParams K) (hp : p.Usable) (L : Learner K d M) (ff : RuleFitness K d) (X : List (Point K d)) (y : List K) (hX : X ≠ []) (hxy : y.length = X.length)
    (fb : Pairs K d) (hfb : estimateBounds X = .ok fb) (D : NSDraws K d M) (hD : D.Possible p X.length) (pool : List (Rule K d M)) (hpool : ∀ ρ ∈ pool, ConsistentWith ρ X)
    (initial : List (Rule K d M)) (hne : initial ≠ []) (hi : ∀ ρ ∈ initial, ρ.FromData L ff X y fb) :
    ∃ s, D.iterations.foldlM (nsStep ruleView p.ns (breedRules L ff X y p.mutation p.minRange p.rate fb) validRule) (nsStart (poolObjects D.leftover pool) initial) = .ok s ∧
      ∀ r ∈ s.best, ∃ o ds, s.store[r]? = some o ∧ o.distances = some ds ∧ (o.idx.isSome → ds ≠ []) := by
  obtain ⟨fb', h1, _, hord⟩ := estimateBounds_ok X hX
  rw [hfb] at h1; cases h1
  have hgood : ∀ ρ : Rule K d M, ρ.FromData L ff X y fb → (ruleView.matchSet ρ).length = X.length := fun ρ h => by
    obtain ⟨s, hs, hms, _⟩ := h.consistent hxy
    simp [ruleView, hs, hms]
  obtain ⟨s, hs, hinv⟩ := nsLoop_total ruleView X.length (fun ρ : Rule K d M => ρ.FromData L ff X y fb) hgood p.ns hp.type (by have := hp.mu; omega)
    (breedRules L ff X y p.mutation p.minRange p.rate fb) (fun _ => True) (breedRules_total L ff X y hxy _ _ _ fb hord) validRule D.iterations (fun δ h => (hD.iterations δ h).for _)
    (nsStart (poolObjects D.leftover pool) initial)
    (nsStart_inv ruleView X.length _ hgood _ (poolObjects_attributes D.leftover hD.leftover pool X hpool) initial hi hne)
  refine ⟨s, hs, fun r hr => ?_⟩
  obtain ⟨⟨o, ds, h1, h2⟩, _⟩ := hinv.best r hr
  refine ⟨o, ds, h1, h2, fun hidx => ?_⟩
  obtain ⟨ds', h3, h4⟩ := hinv.idx r o h1 hidx
  rw [h2] at h3
  cases h3
  exact h4

/-- Draws of a possible call of novelty search: the first sample with an error, no noise, two iterations with the first two rules as parents and crossover. -/
def plainNS (n : Nat) : NSDraws K d M :=
  { origins := firstPossible n, uniform := fun _ _ => 0, init := fun _ _ => (0, 0), leftover := fun _ => ([0], none),
    iterations := List.replicate 2 ⟨selectAtRandom fun m => [0, m - 1], fun _ => ⟨0, fun _ => true, 0, 0⟩, .novel, .random List.range⟩ }

theorem plainNS_possible (p : NSParams K) (N : Nat) (hN : N ≠ 0) : (plainNS p.ns.mu : NSDraws K d M).Possible p N := by
  refine ⟨firstPossible_draws N _ hN, fun _ _ => ⟨le_refl _, zero_le_one⟩, fun _ _ => ⟨le_refl _, le_refl _⟩, fun δ hδ => ?_, fun _ h => by simp [plainNS] at h⟩
  obtain rfl := (List.mem_replicate.mp hδ).2
  refine ⟨fun pop hne => ⟨[0, pop.length - 1], ?_, fun i hi => ?_⟩, fun _ => trivial, trivial, fun _ => List.Perm.refl _⟩
  · dsimp only
    unfold selectAtRandom
    rw [if_neg hne]
  · have := List.length_pos_iff.mpr hne
    rcases List.mem_cons.mp hi with rfl | hi
    · exact this
    · rw [List.mem_singleton.mp hi]; omega

/-- Example: the hypotheses of `C106_fit_partial` hold for the default settings of `NoveltySearch` and of the model. -/
example (raw : RawData K d) (hraw : raw.finite = true ∧ raw.X.length = raw.y.length ∧ raw.X ≠ []) (L : Learner K d M) (ff : RuleFitness K d) (sf : Nat → SolFitness K) :
    let D : RunDraws K d M := { origins := fun _ _ _ _ _ => [], children := fun _ _ _ _ _ _ => (0, 0), ga := fun _ _ _ _ => [], init := fun _ _ _ => 0 }
    (SupState.fit SupCfg.default (nsComp NSParams.default GACfg.default (fun _ _ => plainNS 16) D L ff sf) 42 raw true {}).raised = none := by
  intro D
  exact (C106_fit_partial _ NSParams.default _ 4 ⟨by simp [SupCfg.default], by simp [SupCfg.default], by simp [SupCfg.default], by simp [GACfg.default], by simp,
      ⟨by simp [NSParams.default], by simp [NSParams.default], trivial⟩⟩ _ D raw hraw
    (fun _ _ => plainNS_possible NSParams.default _ fun h => hraw.2.2 (List.length_eq_zero_iff.mp h)) (fun _ _ _ _ => trivial) L ff sf 42 (Or.inl rfl) true {} (Or.inl rfl)).1

/-- Example: the hypotheses of `C106_refuted` hold for one initial rule on two samples with equal targets. -/
example : ∃ rules : List (Rule ℚ 1 ℚ), rules ≠ [] ∧
    nsDiscover NSParams.default meanLearner negErr ⟨.plain, 1⟩ filterAll (plainNS 16) none [] [![0], ![1]] [2, 2] 1 = .ok rules := by
  have h : (nsDiscover NSParams.default meanLearner negErr ⟨.plain, 1⟩ filterAll (plainNS 16) none [] [(![0] : Point ℚ 1), ![1]] [2, 2] 1).map List.length = .ok 1 := by decide +kernel
  cases hr : nsDiscover NSParams.default meanLearner negErr ⟨.plain, 1⟩ filterAll (plainNS 16) none [] [(![0] : Point ℚ 1), ![1]] [2, 2] 1 with
  | error e => rw [hr] at h; cases h
  | ok rules =>
    rw [hr] at h
    have h := Except.ok.inj h
    exact ⟨rules, (fun h0 => by rw [h0] at h; cases h), rfl⟩

end Suprb
