import Verif.Props.Fit
import Verif.Props.Discovery
import Verif.Props.GA
import Verif.Props.Utils
import Verif.Props.Matching
import Verif.Model.Default

/-!
# Lemmas on the default components
-/

set_option autoImplicit false
set_option linter.unusedSectionVars false

namespace Suprb

open Spec

variable {K : Type} [Field K] [LinearOrder K] [IsStrictOrderedRing K] {d : Nat} {M : Type}

/-! ### The genetic algorithm does not fail -/

/-- Possible draws of a genetic algorithm with tournaments of size `k`, for a population of the given size: every generation draws `population_size` tournaments of positions in the
current population, which has `population_size` plus the kept elitists members after the first generation. -/
def PossibleGA (cfg : GACfg K) (k : Nat) : Nat → List (GADraw K) → Prop
  | _, [] => True
  | size, dr :: rest => (∃ idx, dr.sel = .tournament idx) ∧ dr.sel.Valid cfg.populationSize k size ∧
      PossibleGA cfg k (min cfg.nElitists size + cfg.populationSize) rest

theorem tournament_ok (idx : List (List Nat)) (n k : Nat) (hk : 1 ≤ k) (pop : List (Indiv K)) (hv : (SelDraw.tournament idx).Valid n k pop.length)
    (hfit : ∀ σ ∈ pop, ∃ s, σ.st = some s) : ∃ l, (SelDraw.tournament idx).run pop = .ok l ∧ l.length = n := by
  obtain ⟨hv1, hv2⟩ := hv
  suffices H : ∃ l, (SelDraw.tournament idx).run pop = .ok l by
    obtain ⟨l, hl⟩ := H
    exact ⟨l, hl, by rw [mapM_length _ _ _ hl, hv1]⟩
  refine mapM_total _ _ fun js hjs => ?_
  obtain ⟨h1, h2⟩ := hv2 js hjs
  rw [selectRandom_ok pop js h2]
  dsimp only
  have hne : choose pop js ≠ [] := by
    intro h
    have := length_choose pop js h2
    rw [h] at this
    simp at this
    omega
  exact fittestIndiv_ok _ hne fun σ hσ => hfit σ (mem_choose pop js σ hσ)

theorem gaCross_total (rate : K) (draw : Nat → Bool → K × CrossDraw K) (ps : List (Indiv K × Indiv K)) (n : Nat)
    (hps : ∀ p ∈ ps, p.1.genome.length = n ∧ p.2.genome.length = n) : ∃ cs, gaCross rate draw ps = .ok cs := by
  unfold gaCross
  obtain ⟨two, h⟩ := mapM_total (fun x : (Indiv K × Indiv K) × Nat => (do
    let c1 ← crossover rate (draw x.2 true).1 (draw x.2 true).2 x.1.1 x.1.2
    let c2 ← crossover rate (draw x.2 false).1 (draw x.2 false).2 x.1.2 x.1.1
    pure [c1, c2] : Except PyErr (List (Indiv K)))) ps.zipIdx (by
      rintro ⟨⟨A, B⟩, k⟩ hx
      have hm : (A, B) ∈ ps := by
        have := List.fst_mem_of_mem_zipIdx hx
        exact this
      obtain ⟨h1, h2⟩ := hps _ hm
      obtain ⟨c1, e1⟩ := crossover_ok rate (draw k true).1 (draw k true).2 A B (h1.trans h2.symm)
      obtain ⟨c2, e2⟩ := crossover_ok rate (draw k false).1 (draw k false).2 B A (h2.trans h1.symm)
      refine ⟨[c1, c2], ?_⟩
      dsimp only
      rw [e1, e2]; rfl)
  refine ⟨two.flatten, ?_⟩
  exact congrArg (fun x : Except PyErr (List (List (Indiv K))) => x.bind fun two => pure two.flatten) h

/-- A generation does not fail if the selection does not. -/
theorem gaStep_total_of (cfg : GACfg K) (hsize : 1 ≤ cfg.populationSize) (dr : GADraw K) (ev : Eval K) (pop : List (Indiv K)) (n : Nat) (hl : AllLen n pop)
    (hsel : ∃ l, dr.sel.run pop = .ok l ∧ l.length = cfg.populationSize)
    (hfit : ∀ σ ∈ pop, ∃ s, σ.st = some s) (hev : ∀ g : List Bool, g.length = n → ∃ s, ev g = .ok s) :
    ∃ pop', gaStep cfg dr ev pop = .ok pop' := by
  obtain ⟨parents, hp, hplen⟩ := hsel
  have hpar : AllLen n parents := fun σ hσ => hl σ (mem_select _ _ _ hp σ hσ)
  have hps : ∀ p ∈ pairs parents, p.1.genome.length = n ∧ p.2.genome.length = n := fun p hp => ⟨hpar _ (mem_pairs _ p hp).1, hpar _ (mem_pairs _ p hp).2⟩
  obtain ⟨children, hc⟩ := gaCross_total cfg.crossRate dr.cross (pairs parents) n hps
  obtain ⟨hcl, _⟩ := gaCross_len _ _ _ _ n hps hc
  obtain ⟨children', hc'⟩ : ∃ c, gaOdd cfg.populationSize parents children = .ok c := by
    unfold gaOdd
    split
    · cases hg : parents.getLast? with
      | none =>
        rw [List.getLast?_eq_none_iff] at hg
        rw [hg] at hplen
        simp at hplen
        omega
      | some p => exact ⟨_, rfl⟩
    · exact ⟨_, rfl⟩
  have hcl' := (gaOdd_spec _ _ _ _ n hpar hcl hc').1
  have hml := (gaMutate_spec cfg.mutRate dr.flips _ n hcl').1
  have hall : AllLen n ((sortedDesc Indiv.fitnessD pop).take cfg.nElitists ++ gaMutate cfg.mutRate dr.flips children') := by
    intro σ hσ
    rcases List.mem_append.mp hσ with h | h
    · exact hl σ (mem_sortedDesc_take _ _ _ σ h)
    · exact hml σ h
  obtain ⟨pop', hf⟩ := fitAll_total ev n hev _ hall
  refine ⟨pop', ?_⟩
  unfold gaStep
  rw [if_pos ((allFitted_iff pop).mpr hfit), hp]
  change (do let children ← gaCross cfg.crossRate dr.cross (pairs parents); _) = _
  rw [hc]
  change (do let children' ← gaOdd cfg.populationSize parents children; _) = _
  rw [hc']
  exact hf

theorem gaStep_total (cfg : GACfg K) (k : Nat) (hk : 1 ≤ k) (hsize : 1 ≤ cfg.populationSize) (dr : GADraw K) (ev : Eval K) (pop : List (Indiv K)) (n : Nat) (hl : AllLen n pop)
    (hsel : ∃ idx, dr.sel = .tournament idx) (hv : dr.sel.Valid cfg.populationSize k pop.length)
    (hfit : ∀ σ ∈ pop, ∃ s, σ.st = some s) (hev : ∀ g : List Bool, g.length = n → ∃ s, ev g = .ok s) :
    ∃ pop', gaStep cfg dr ev pop = .ok pop' := by
  obtain ⟨idx, hidx⟩ := hsel
  rw [hidx] at hv
  refine gaStep_total_of cfg hsize dr ev pop n hl ?_ hfit hev
  rw [hidx]
  exact tournament_ok idx _ k hk pop hv hfit

theorem gaLoop_total (cfg : GACfg K) (k : Nat) (hk : 1 ≤ k) (hsize : 1 ≤ cfg.populationSize) (ev : Eval K) (n : Nat)
    (hev : ∀ g : List Bool, g.length = n → ∃ s, ev g = .ok s) (draws : List (GADraw K)) (pop : List (Indiv K)) (hl : AllLen n pop) (hne : pop ≠ [])
    (he : ∀ σ ∈ pop, Evaluated ev σ) (hv : PossibleGA cfg k pop.length draws) :
    ∃ pop', gaLoop cfg ev draws pop = .ok pop' ∧ pop' ≠ [] := by
  induction draws generalizing pop with
  | nil => exact ⟨pop, rfl, hne⟩
  | cons dr rest ih =>
    obtain ⟨hsel, hval, hrest⟩ := hv
    obtain ⟨pop', hp⟩ := gaStep_total cfg k hk hsize dr ev pop n hl hsel hval (fun σ hσ => ⟨_, (he σ hσ).choose_spec.1⟩) hev
    have hlen := gaStep_length cfg dr ev pop pop' n hl (fun l hl => select_length _ _ k _ l hval hl) hp
    obtain ⟨h1, h2⟩ := gaStep_inv _ _ _ _ _ n hl hp
    unfold gaLoop
    rw [hp]
    refine ih pop' h1 ?_ h2 (by rw [hlen]; exact hrest)
    rintro rfl
    simp at hlen
    omega

/-- The genetic algorithm with possible draws never fails when evaluations do not fail. -/
theorem gaOptimize_total (cfg : GACfg K) (k : Nat) (hk : 1 ≤ k) (hsize : 1 ≤ cfg.populationSize) (draws : Nat → Nat → List (GADraw K))
    (hv : ∀ n size, PossibleGA cfg k size (draws n size)) : Strategy.Total fun n ev pop => gaOptimize cfg (draws n pop.length) n ev pop := by
  intro n ev pop _ hl hne hev
  obtain ⟨pop0, h0⟩ := fitAll_total ev n hev pop hl
  obtain ⟨hg, he⟩ := fitAll_spec _ _ _ h0
  have hlen := mapM_length _ _ _ h0
  have hne0 : pop0 ≠ [] := by
    rintro rfl
    exact hne (List.length_eq_zero_iff.mp (by simpa using hlen.symm))
  obtain ⟨pop', h1, h2⟩ := gaLoop_total cfg k hk hsize ev n hev (draws n pop.length) pop0 (allLen_of_genomes n _ _ hg hl) hne0 he
    (by rw [hlen]; exact hv _ _)
  refine ⟨pop', ?_, h2⟩
  dsimp only
  unfold gaOptimize
  rw [h0]
  exact h1

theorem gaSized_good (cfg : GACfg K) (draws : Nat → Nat → List (GADraw K)) :
    Strategy.Good fun n ev pop => gaOptimize cfg (draws n pop.length) n ev pop :=
  ⟨fun n ev pop pop' hl h => (gaOptimize_good cfg (draws n pop.length)).1 n ev pop pop' hl h,
   fun n ev pop pop' hl h => (gaOptimize_good cfg (draws n pop.length)).2 n ev pop pop' hl h,
   fun n ev ev' pop hl h => (gaOptimize_good cfg (draws n pop.length)).3 n ev ev' pop hl h⟩

/-! ### Rules of the default discovery -/

/-- A rule as the default components make them: ordered bounds inside the feature bounds, which are also its input space; fitted on the data. -/
structure Rule.FromData (L : Learner K d M) (ff : RuleFitness K d) (X : List (Point K d)) (y : List K) (fb : Pairs K d) (ρ : Rule K d M) : Prop where
  kind : ρ.kind = .ordered
  space : ρ.inputSpace = fb
  ordered : Ordered ρ.bounds
  inside : Inside fb ρ.bounds
  fitted : ρ.FittedOn L ff X y

theorem fromData_of_fit (L : Learner K d M) (ff : RuleFitness K d) (X : List (Point K d)) (y : List K) (hxy : y.length = X.length) (fb b : Pairs K d)
    (hb : Ordered b) (hin : Inside fb b) (ρ : Rule K d M) (h : Rule.fit L ff X y { kind := .ordered, bounds := b, inputSpace := fb } = .ok ρ) :
    ρ.FromData L ff X y fb := by
  obtain ⟨ρ', e, hs, _⟩ := fit_consistent L ff X X y hxy rfl { kind := .ordered, bounds := b, inputSpace := fb } (Or.inl rfl)
  rw [h] at e; cases e
  refine ⟨hs.1, hs.2.2, by rw [hs.2.1]; exact hb, by rw [hs.2.1]; exact hin, { kind := .ordered, bounds := b, inputSpace := fb }, 0, rfl, rfl, ?_⟩
  rw [fits_replicate L ff X y hxy _ rfl 0]; exact h

theorem meanInit_ordered (o : Point K d) : Ordered (meanInit .ordered o) := fun _ => le_refl _

theorem childBounds_increase (m : Mutation) (hm : IsIncrease m) (r : K) (fb z b b' : Pairs K d) (hfb : Ordered fb)
    (h : childBounds m .ordered r fb z b = .ok b') : Ordered b' ∧ Inside fb b' := by
  have hs : Ordered (sortRows (growNoise z b)) := fun i => min_le_max
  rcases hm with rfl | rfl
  all_goals
    cases h
    exact ⟨C02_ordered r fb _ hs, C02_inside r fb _ hfb⟩

theorem childRule_fromData (L : Learner K d M) (ff : RuleFitness K d) (X : List (Point K d)) (y : List K) (hxy : y.length = X.length)
    (m : Mutation) (hm : IsIncrease m) (r : K) (fb : Pairs K d) (hfb : Ordered fb) (e c : Rule K d M) (z : Pairs K d) (he : e.FromData L ff X y fb)
    (h : childRule L ff X y m r fb e z = .ok c) : c.FromData L ff X y fb := by
  unfold childRule at h
  rw [he.kind] at h
  cases hb : childBounds m .ordered r fb z e.bounds with
  | error er => rw [hb] at h; cases h
  | ok b =>
    rw [hb] at h
    obtain ⟨h1, h2⟩ := childBounds_increase m hm r fb z e.bounds b hfb hb
    refine fromData_of_fit L ff X y hxy fb b h1 h2 c ?_
    have : { e.clone with bounds := b } = ({ kind := .ordered, bounds := b, inputSpace := fb } : Rule K d M) := by
      unfold Rule.clone
      rw [he.kind, he.space]
    rw [← this]; exact h

/-! ### The origins can always be drawn -/

/-- A probability vector (or none, for the uniform distribution) numpy accepts for `N` samples. -/
def IsDistribution (N : Nat) (probs : Option (List K)) : Prop :=
  ∀ p, probs = some p → p.length = N ∧ (∀ q ∈ p, 0 ≤ q) ∧ p.sum = 1

/-- What `Generator.choice` can return: the requested number of indices, all of positive probability. -/
def PossibleChoice (N n : Nat) (probs : Option (List K)) (idx : List Nat) : Prop :=
  idx.length = n ∧ ∀ i ∈ idx, i < N ∧ ∀ p, probs = some p → p[i]? ≠ some 0

theorem matchingProbabilities_total (useElitist : Bool) (X : List (Point K d)) (pool : List (Rule K d M)) (elitist : Option (Indiv K))
    (hel : ∀ σ : Indiv K, elitist = some σ → σ.genome.length = pool.length) (hc : ∀ ρ ∈ pool, ConsistentWith ρ X) :
    ∃ probs : Option (List K),
      matchingProbabilities useElitist X.length pool (elitist.map fun σ => { genome := σ.genome, pool := pool, st := σ.st }) = .ok probs ∧
      IsDistribution X.length probs := by
  obtain ⟨sub, hgrp, hmem⟩ : ∃ sub, OriginGroup useElitist pool (elitist.map fun σ => { genome := σ.genome, pool := pool, st := σ.st }) sub ∧
      ∀ ρ ∈ sub, ρ ∈ pool := by
    cases elitist with
    | none => exact ⟨pool, by cases useElitist <;> rfl, fun _ h => h⟩
    | some σ =>
      cases useElitist with
      | false => exact ⟨pool, rfl, fun _ h => h⟩
      | true => exact ⟨compress pool σ.genome, ⟨hel σ rfl, compress_eq_filter _ _⟩, fun ρ h => mem_of_mem_compress h⟩
  have hsub := originSubgroup_of_group _ _ _ _ hgrp
  by_cases hne : sub = []
  · refine ⟨none, ?_, fun p hp => by cases hp⟩
    unfold matchingProbabilities
    rw [hsub, hne]; rfl
  · obtain ⟨h1, h2⟩ := C36_matching_probabilities (K := K) useElitist pool _ sub hgrp X (fun ρ h => hc ρ (hmem ρ h)) hne
    by_cases hall : ∀ x ∈ X, ∀ ρ ∈ sub, ρ.kind.call ρ.bounds x = true
    · exact ⟨none, h1 hall, fun p hp => by cases hp⟩
    · push Not at hall
      obtain ⟨x, hx, ρ, hρ, hm⟩ := hall
      obtain ⟨p, a1, a2, a3, a4, _⟩ := h2 ⟨x, hx, ρ, hρ, by simpa using hm⟩
      exact ⟨some p, a1, fun q hq => by cases hq; exact ⟨a2, a3, a4⟩⟩

theorem matchingOrigins_total (useElitist : Bool) (X : List (Point K d)) (hX : X ≠ []) (pool : List (Rule K d M)) (elitist : Option (Indiv K)) (n : Nat)
    (hel : ∀ σ : Indiv K, elitist = some σ → σ.genome.length = pool.length) (hc : ∀ ρ ∈ pool, ConsistentWith ρ X) (draw : Option (List K) → List Nat)
    (hd : ∀ probs, IsDistribution X.length probs → PossibleChoice X.length n probs (draw probs)) :
    ∃ origins, matchingOrigins useElitist X pool elitist n draw = .ok origins ∧ origins.length = n ∧ ∀ o ∈ origins, o ∈ X := by
  obtain ⟨probs, h1, h2⟩ := matchingProbabilities_total useElitist X pool elitist hel hc
  obtain ⟨h3, h4⟩ := hd probs h2
  have hN : ¬ (X.length = 0 ∧ n ≠ 0) := fun h => hX (List.length_eq_zero_iff.mp h.1)
  have hch : rngChoice X.length n probs (draw probs) = .ok (draw probs) := by
    unfold rngChoice
    rw [if_neg hN]
    cases probs with
    | none => rfl
    | some p =>
      obtain ⟨a1, a2, a3⟩ := h2 p rfl
      dsimp only
      rw [if_neg]
      push Not
      refine ⟨a1, ?_, a3⟩
      simp only [ne_eq, List.any_eq_true, decide_eq_true_eq, not_exists, not_and, not_lt]
      exact a2
  have hrows : takeRows X (draw probs) = .ok ((draw probs).filterMap fun i => X[i]?) := by
    have : ∀ idx : List Nat, (∀ i ∈ idx, i < X.length) → takeRows X idx = .ok (idx.filterMap fun i => X[i]?) := by
      intro idx hidx
      induction idx with
      | nil => rfl
      | cons i is ih =>
        have hi := hidx i (List.mem_cons_self ..)
        have ih := ih fun j hj => hidx j (List.mem_cons_of_mem _ hj)
        unfold takeRows at ih ⊢
        rw [List.mapM_cons, ih, List.filterMap_cons, List.getElem?_eq_getElem hi]
        rfl
    exact this _ fun i hi => (h4 i hi).1
  refine ⟨_, by unfold matchingOrigins; rw [h1]; dsimp only; rw [hch]; exact hrows, ?_, ?_⟩
  · rw [← h3]
    have : ∀ idx : List Nat, (∀ i ∈ idx, i < X.length) → (idx.filterMap fun i => X[i]?).length = idx.length := by
      intro idx hidx
      induction idx with
      | nil => rfl
      | cons i is ih =>
        have hi := hidx i (List.mem_cons_self ..)
        rw [List.filterMap_cons, List.getElem?_eq_getElem hi]
        simp [ih fun j hj => hidx j (List.mem_cons_of_mem _ hj)]
    exact this _ fun i hi => (h4 i hi).1
  · intro o ho
    obtain ⟨i, _, hi⟩ := List.mem_filterMap.mp ho
    exact List.mem_of_getElem? hi

/-! ### Discovery does not fail -/

/-- A rule of the pool of a default model: made by the default discovery, matching some training sample, and accepted. -/
structure Rule.InPool (L : Learner K d M) (ff : RuleFitness K d) (X : List (Point K d)) (y : List K) (fb : Pairs K d) (beta : K) (ρ : Rule K d M) : Prop where
  fromData : ρ.FromData L ff X y fb
  matchesData : ρ.MatchesData X
  accepted : acceptVariance beta y ρ = .ok true

theorem Rule.FromData.consistent {L : Learner K d M} {ff : RuleFitness K d} {X : List (Point K d)} {y : List K} (hxy : y.length = X.length) {fb : Pairs K d} {ρ : Rule K d M}
    (h : ρ.FromData L ff X y fb) : ConsistentWith ρ X := by
  obtain ⟨ρ0, k, h0, _, hf⟩ := h.fitted
  rw [fits_replicate L ff X y hxy _ h0 k] at hf
  obtain ⟨ρ', e, _, hc⟩ := fit_consistent L ff X X y hxy rfl ρ0 (Or.inl h0)
  rw [hf] at e; cases e
  exact hc

theorem estimateBounds_ok (X : List (Point K d)) (hX : X ≠ []) :
    ∃ fb, estimateBounds X = .ok fb ∧ (∀ x ∈ X, InBounds fb x) ∧ Ordered fb := by
  obtain ⟨fb, h1, h2, _⟩ := (C71_bounds X).2 hX
  refine ⟨fb, h1, h2, fun i => ?_⟩
  obtain ⟨x, hx⟩ := List.exists_mem_of_ne_nil X hX
  exact ((h2 x hx i).1).trans (h2 x hx i).2

theorem acceptVariance_total (beta : K) (X : List (Point K d)) (y : List K) (hxy : y.length = X.length) (ρ : Rule K d M) (hc : ConsistentWith ρ X) :
    ∃ b, acceptVariance beta y ρ = .ok b := by
  obtain ⟨s, hs, hms, _⟩ := hc
  unfold acceptVariance
  rw [hs]
  dsimp only
  split
  · exact ⟨_, rfl⟩
  · rw [if_neg (by rw [hms]; simp [hxy])]
    split <;> exact ⟨_, rfl⟩

theorem filterInvalid_total {R : Type} (accept : R → Except PyErr Bool) (rules : List (Option R)) (h : ∀ r, some r ∈ rules → ∃ b, accept r = .ok b) :
    ∃ l, filterInvalid accept rules = .ok l := by
  induction rules with
  | nil => exact ⟨[], rfl⟩
  | cons a rest ih =>
    obtain ⟨l, hl⟩ := ih fun r hr => h r (List.mem_cons_of_mem _ hr)
    cases a with
    | none => exact ⟨l, hl⟩
    | some r =>
      obtain ⟨b, hb⟩ := h r (List.mem_cons_self ..)
      unfold filterInvalid
      rw [hb]
      cases b with
      | true => exact ⟨r :: l, by rw [hl]⟩
      | false => exact ⟨l, hl⟩

theorem filterInvalid_all {R : Type} (accept : R → Except PyErr Bool) (rules : List (Option R)) (h : ∀ o ∈ rules, ∃ r, o = some r ∧ accept r = .ok true) (l : List R)
    (hl : filterInvalid accept rules = .ok l) : l.length = rules.length := by
  induction rules generalizing l with
  | nil => cases hl; rfl
  | cons a rest ih =>
    obtain ⟨r, rfl, hr⟩ := h a (List.mem_cons_self ..)
    unfold filterInvalid at hl
    rw [hr] at hl
    cases hrest : filterInvalid accept rest with
    | error e => rw [hrest] at hl; cases hl
    | ok l' =>
      rw [hrest] at hl
      cases hl
      simp [ih (fun o ho => h o (List.mem_cons_of_mem _ ho)) l' hrest]

/-- The part of `esDiscover_total` after the origins are drawn. -/
theorem esDiscover_after (cfg : ESCfg K) (hop : cfg.operator = .amp → 1 ≤ cfg.delay) (hm : IsIncrease cfg.mutation) (sigma : K × K)
    (L : Learner K d M) (ff : RuleFitness K d) (X : List (Point K d)) (y : List K) (hX : X ≠ []) (hxy : y.length = X.length)
    (fb : Pairs K d) (hfb : estimateBounds X = .ok fb) (draw : Option (List K) → List Nat) (children : Nat → Nat → Nat → Pairs K d)
    (elitist : Option (Indiv K)) (pool : List (Rule K d M)) (n : Nat) (hz : ∀ k g c, cfg.mutation.DrawOk .ordered sigma (children k g c))
    (origins : List (Point K d)) (ho : matchingOrigins cfg.useElitist X pool elitist n draw = .ok origins) (holen : origins.length = n) (homem : ∀ o ∈ origins, o ∈ X) :
    ∃ rules, esDiscover cfg L ff draw children elitist pool X y n = .ok rules ∧ rules.length ≤ n ∧ (∀ ρ ∈ rules, ρ.InPool L ff X y fb cfg.beta) ∧
      ((∀ ρ : Rule K d M, ρ.FromData L ff X y fb → ρ.MatchesData X → acceptVariance cfg.beta y ρ = .ok true) → rules.length = n) := by
  obtain ⟨fb', h1, hin, hord⟩ := estimateBounds_ok X hX
  rw [hfb] at h1; cases h1
  let gens : Nat → List (List (Pairs K d) × Unit) := fun k => (List.range cfg.nIter).map fun g => ((List.range cfg.lmbda).map (children k g), ())
  have hgens : ∀ k, ∀ g ∈ gens k, ∀ z ∈ g.1, cfg.mutation.DrawOk .ordered sigma z := by
    intro k g hg z hz'
    obtain ⟨j, _, rfl⟩ := List.mem_map.mp hg
    obtain ⟨c, _, rfl⟩ := List.mem_map.mp hz'
    exact hz k j c
  have hone : ∀ o ∈ X, ∀ k, ∃ ρ0 ρ, initialRule L ff X y .ordered cfg.minRange fb fb o = .ok ρ0 ∧
      esOptimize (concreteES L ff X y cfg.operator cfg.delay cfg.mutation cfg.minRange fb) (gens k) ρ0 = .ok ρ ∧
      ρ.FromData L ff X y fb ∧ ρ.MatchesData X := by
    intro o hoX k
    obtain ⟨ρ0, ρ, a1, a2, _, _, _, _, a3⟩ := C34_origin_kept L ff X y hxy cfg.operator cfg.delay hop cfg.mutation hm sigma cfg.minRange fb fb hin o hoX (gens k) (hgens k)
    have h0 : ρ0.FromData L ff X y fb := fromData_of_fit L ff X y hxy fb _ (C02_ordered _ fb _ (meanInit_ordered o)) (C02_inside _ fb _ hord) ρ0 a1
    refine ⟨ρ0, ρ, a1, a2, ?_, a3⟩
    refine esLoop_inv _ (fun l _ ρ h => (fittestFirst_mem _ l ρ h).1) (fun _ => True) (fun ρ => ρ.FromData L ff X y fb) ?_ (gens k)
      (fun _ _ _ _ => trivial) ρ0 [] h0 (by simp) ρ a2
    rintro e c he ⟨z, _, hc, _⟩
    exact childRule_fromData L ff X y hxy _ hm _ fb hord e c z he hc
  obtain ⟨initial, hi⟩ := mapM_total (initialRule L ff X y .ordered cfg.minRange fb fb) origins fun o hoo => by
    obtain ⟨ρ0, _, a1, _⟩ := hone o (homem o hoo) 0
    exact ⟨ρ0, a1⟩
  have hraw : ∀ p ∈ initial.zip ((List.range n).map gens), ∃ ρ,
      (esOptimize (concreteES L ff X y cfg.operator cfg.delay cfg.mutation cfg.minRange fb) p.2 p.1).map some = .ok (some ρ) ∧
        ρ.FromData L ff X y fb ∧ ρ.MatchesData X := by
    rintro ⟨ρ0, g⟩ hp
    obtain ⟨hp1, hp2⟩ := List.of_mem_zip hp
    obtain ⟨k, _, rfl⟩ := List.mem_map.mp hp2
    obtain ⟨o, hoo, hio⟩ := mem_of_mapM_ok _ _ _ hi ρ0 hp1
    obtain ⟨ρ0', ρ, a1, a2, a3, a4⟩ := hone o (homem o hoo) k
    rw [hio] at a1; cases a1
    exact ⟨ρ, by dsimp only; rw [a2]; rfl, a3, a4⟩
  obtain ⟨raw, hr⟩ := mapM_total (fun p => (esOptimize (concreteES L ff X y cfg.operator cfg.delay cfg.mutation cfg.minRange fb) p.2 p.1).map some)
    (initial.zip ((List.range n).map gens)) fun p hp => by
      obtain ⟨ρ, a1, _⟩ := hraw p hp
      exact ⟨_, a1⟩
  have hrawmem : ∀ ρ, some ρ ∈ raw → ρ.FromData L ff X y fb ∧ ρ.MatchesData X := by
    intro ρ hρ
    obtain ⟨p, hp1, hp2⟩ := mem_of_mapM_ok _ _ _ hr (some ρ) hρ
    obtain ⟨ρ', a1, a2⟩ := hraw p hp1
    rw [hp2] at a1
    simp only [Except.ok.injEq, Option.some.injEq] at a1
    subst a1
    exact a2
  obtain ⟨rules, hf⟩ := filterInvalid_total (acceptVariance cfg.beta y) raw fun ρ hρ =>
    acceptVariance_total cfg.beta X y hxy ρ ((hrawmem ρ hρ).1.consistent hxy)
  have hres : esDiscover cfg L ff draw children elitist pool X y n = .ok rules := by
    unfold esDiscover
    rw [hfb]
    dsimp only
    rw [ho]
    dsimp only
    unfold discoverRules
    rw [hi]
    dsimp only
    rw [hr]
    exact hf
  refine ⟨rules, hres, ?_, fun ρ hρ => ?_, fun hall => ?_⟩
  · have b1 := filterInvalid_length _ _ _ hf
    have b2 := mapM_length _ _ _ hr
    have b3 : (initial.zip ((List.range n).map gens)).length ≤ n := by simp
    omega
  · obtain ⟨b1, b2⟩ := filterInvalid_mem _ _ _ hf ρ hρ
    exact ⟨(hrawmem ρ b1).1, (hrawmem ρ b1).2, b2⟩
  · rw [filterInvalid_all _ _ (fun o ho => by
      obtain ⟨p, hp1, hp2⟩ := mem_of_mapM_ok _ _ _ hr o ho
      obtain ⟨ρ', a1, a2, a3⟩ := hraw p hp1
      rw [hp2] at a1
      cases a1
      exact ⟨ρ', rfl, hall ρ' a2 a3⟩) _ hf, mapM_length _ _ _ hr]
    have b4 := mapM_length _ _ _ hi
    simp [b4, holen]

/-- One call of the default rule discovery: it succeeds, returns at most as many rules as requested (exactly as many if the acceptance accepts every trained rule that matches samples), and all
of them belong in the pool. -/
theorem esDiscover_total_exact (cfg : ESCfg K) (hop : cfg.operator = .amp → 1 ≤ cfg.delay) (hm : IsIncrease cfg.mutation) (sigma : K × K)
    (L : Learner K d M) (ff : RuleFitness K d) (X : List (Point K d)) (y : List K) (hX : X ≠ []) (hxy : y.length = X.length)
    (fb : Pairs K d) (hfb : estimateBounds X = .ok fb) (draw : Option (List K) → List Nat) (children : Nat → Nat → Nat → Pairs K d)
    (elitist : Option (Indiv K)) (pool : List (Rule K d M)) (n : Nat)
    (hd : ∀ probs, IsDistribution X.length probs → PossibleChoice X.length n probs (draw probs))
    (hz : ∀ k g c, cfg.mutation.DrawOk .ordered sigma (children k g c))
    (hel : ∀ σ : Indiv K, elitist = some σ → σ.genome.length = pool.length) (hpool : ∀ ρ ∈ pool, ρ.InPool L ff X y fb cfg.beta) :
    ∃ rules, esDiscover cfg L ff draw children elitist pool X y n = .ok rules ∧ rules.length ≤ n ∧ (∀ ρ ∈ rules, ρ.InPool L ff X y fb cfg.beta) ∧
      ((∀ ρ : Rule K d M, ρ.FromData L ff X y fb → ρ.MatchesData X → acceptVariance cfg.beta y ρ = .ok true) → rules.length = n) := by
  obtain ⟨origins, ho, holen, homem⟩ := matchingOrigins_total cfg.useElitist X hX pool elitist n hel
    (fun ρ hρ => (hpool ρ hρ).fromData.consistent hxy) draw hd
  exact esDiscover_after cfg hop hm sigma L ff X y hX hxy fb hfb draw children elitist pool n hz origins ho holen homem

theorem takeRows_mem {α : Type} (X : List α) (idx : List Nat) (rows : List α) (h : takeRows X idx = .ok rows) : rows.length = idx.length ∧ ∀ o ∈ rows, o ∈ X := by
  unfold takeRows at h
  refine ⟨mapM_length _ _ _ h, fun o ho => ?_⟩
  obtain ⟨i, _, hi⟩ := mem_of_mapM_ok _ _ _ h o ho
  cases hx : X[i]? with
  | none => rw [hx] at hi; cases hi
  | some x => rw [hx] at hi; cases hi; exact List.mem_of_getElem? hx

/-- If drawing the origins succeeds, the requested number of samples was drawn, whatever the pool is. -/
theorem matchingOrigins_drawn (useElitist : Bool) (X : List (Point K d)) (pool : List (Rule K d M)) (elitist : Option (Indiv K)) (n : Nat)
    (draw : Option (List K) → List Nat) (hd : ∀ probs, IsDistribution X.length probs → PossibleChoice X.length n probs (draw probs)) (origins : List (Point K d))
    (h : matchingOrigins useElitist X pool elitist n draw = .ok origins) : origins.length = n ∧ ∀ o ∈ origins, o ∈ X := by
  unfold matchingOrigins at h
  split at h
  · cases h
  · rename_i probs _
    split at h
    · cases h
    · rename_i idx hidx
      have hdist : IsDistribution X.length probs := by
        intro p hp
        subst hp
        unfold rngChoice at hidx
        split at hidx
        · cases hidx
        · dsimp only at hidx
          split at hidx
          · cases hidx
          · rename_i hne
            push Not at hne
            refine ⟨hne.1, fun q hq => ?_, hne.2.2⟩
            have := hne.2.1
            simp only [ne_eq, List.any_eq_true, decide_eq_true_eq, not_exists, not_and, not_lt] at this
            exact this q hq
      have hi : idx = draw probs := by
        unfold rngChoice at hidx
        split at hidx
        · cases hidx
        · split at hidx
          · cases hidx; rfl
          · split at hidx
            · cases hidx
            · cases hidx; rfl
      obtain ⟨h1, h2⟩ := takeRows_mem X idx origins h
      exact ⟨by rw [h1, hi]; exact (hd probs hdist).1, h2⟩

/-- A successful call of the default rule discovery returns exactly the requested number of rules if the acceptance accepts every trained rule that matches samples, whatever the pool is. -/
theorem esDiscover_exact (cfg : ESCfg K) (hop : cfg.operator = .amp → 1 ≤ cfg.delay) (hm : IsIncrease cfg.mutation) (sigma : K × K)
    (L : Learner K d M) (ff : RuleFitness K d) (X : List (Point K d)) (y : List K) (hX : X ≠ []) (hxy : y.length = X.length)
    (fb : Pairs K d) (hfb : estimateBounds X = .ok fb) (draw : Option (List K) → List Nat) (children : Nat → Nat → Nat → Pairs K d)
    (elitist : Option (Indiv K)) (pool : List (Rule K d M)) (n : Nat)
    (hd : ∀ probs, IsDistribution X.length probs → PossibleChoice X.length n probs (draw probs))
    (hz : ∀ k g c, cfg.mutation.DrawOk .ordered sigma (children k g c))
    (hall : ∀ ρ : Rule K d M, ρ.FromData L ff X y fb → ρ.MatchesData X → acceptVariance cfg.beta y ρ = .ok true)
    (rules : List (Rule K d M)) (h : esDiscover cfg L ff draw children elitist pool X y n = .ok rules) : rules.length = n := by
  have ho : ∃ origins, matchingOrigins cfg.useElitist X pool elitist n draw = .ok origins := by
    unfold esDiscover at h
    rw [hfb] at h
    dsimp only at h
    split at h
    · cases h
    · rename_i o ho; exact ⟨o, ho⟩
  obtain ⟨origins, ho⟩ := ho
  obtain ⟨h1, h2⟩ := matchingOrigins_drawn _ _ _ _ _ _ hd _ ho
  obtain ⟨rules', e, _, _, hx⟩ := esDiscover_after cfg hop hm sigma L ff X y hX hxy fb hfb draw children elitist pool n hz origins ho h1 h2
  rw [h] at e
  cases e
  exact hx hall

/-- One call of the default rule discovery: it succeeds, returns at most as many rules as requested, and all of them belong in the pool. -/
theorem esDiscover_total (cfg : ESCfg K) (hop : cfg.operator = .amp → 1 ≤ cfg.delay) (hm : IsIncrease cfg.mutation) (sigma : K × K)
    (L : Learner K d M) (ff : RuleFitness K d) (X : List (Point K d)) (y : List K) (hX : X ≠ []) (hxy : y.length = X.length)
    (fb : Pairs K d) (hfb : estimateBounds X = .ok fb) (draw : Option (List K) → List Nat) (children : Nat → Nat → Nat → Pairs K d)
    (elitist : Option (Indiv K)) (pool : List (Rule K d M)) (n : Nat)
    (hd : ∀ probs, IsDistribution X.length probs → PossibleChoice X.length n probs (draw probs))
    (hz : ∀ k g c, cfg.mutation.DrawOk .ordered sigma (children k g c))
    (hel : ∀ σ : Indiv K, elitist = some σ → σ.genome.length = pool.length) (hpool : ∀ ρ ∈ pool, ρ.InPool L ff X y fb cfg.beta) :
    ∃ rules, esDiscover cfg L ff draw children elitist pool X y n = .ok rules ∧ rules.length ≤ n ∧ ∀ ρ ∈ rules, ρ.InPool L ff X y fb cfg.beta := by
  obtain ⟨rules, h1, h2, h3, _⟩ := esDiscover_total_exact cfg hop hm sigma L ff X y hX hxy fb hfb draw children elitist pool n hd hz hel hpool
  exact ⟨rules, h1, h2, h3⟩

/-! ### Runs that only differ in values that never occur -/

theorem esGen_congr {R Z S F : Type} [LinearOrder F] (P : ESParams R Z S F) (child' : R → Z → Except PyErr R) (zs : List Z) (s : S) (e : R) (w : List R)
    (h : ∀ z, child' e z = P.child e z) : esGen { P with child := child' } zs s e w = esGen P zs s e w := by
  have hc : child' e = P.child e := funext h
  unfold esGen
  dsimp only
  rw [hc]

theorem esLoop_congr {R Z S F : Type} [LinearOrder F] (P : ESParams R Z S F) (hsel : P.SelectsMember) (child' : R → Z → Except PyErr R) (Q : R → Prop)
    (h : ∀ e z, Q e → child' e z = P.child e z) (hQ : ∀ e c, Q e → P.IsChild (fun _ => True) e c → Q c) (gs : List (List Z × S)) (e : R) (w : List R) (he : Q e) :
    esLoop { P with child := child' } gs e w = esLoop P gs e w := by
  induction gs generalizing e w with
  | nil => rfl
  | cons g gs ih =>
    obtain ⟨zs, s⟩ := g
    unfold esLoop
    rw [esGen_congr P child' zs s e w fun z => h e z he]
    split
    · rfl
    · rfl
    · rename_i e' w' hg
      obtain ⟨rfl, he'⟩ := esGen_next P hsel (fun _ => True) zs (fun _ _ => trivial) s e e' w w' hg
      refine ih e' _ ?_
      rcases he' with rfl | hc
      · exact he
      · exact hQ e e' he hc

theorem fit_congr (L : Learner K d M) (ff ff' : RuleFitness K d) (X : List (Point K d)) (y : List K) (ρ : Rule K d M)
    (h : ∀ e, ff' e ρ.kind ρ.bounds ρ.inputSpace = ff e ρ.kind ρ.bounds ρ.inputSpace) : ρ.fit L ff' X y = ρ.fit L ff X y := by
  unfold Rule.fit Rule.refit
  simp only [h]

/-- Rule discovery only uses the rule fitness of rules with ordered bounds inside the feature bounds. -/
theorem esDiscover_congr (cfg : ESCfg K) (hm : IsIncrease cfg.mutation) (L : Learner K d M) (ff ff' : RuleFitness K d) (X : List (Point K d)) (y : List K)
    (hX : X ≠ []) (hxy : y.length = X.length) (fb : Pairs K d) (hfb : estimateBounds X = .ok fb)
    (hff : ∀ e b, Ordered b → Inside fb b → ff' e .ordered b fb = ff e .ordered b fb) (draw : Option (List K) → List Nat) (children : Nat → Nat → Nat → Pairs K d)
    (elitist : Option (Indiv K)) (pool : List (Rule K d M)) (n : Nat) :
    esDiscover cfg L ff' draw children elitist pool X y n = esDiscover cfg L ff draw children elitist pool X y n := by
  obtain ⟨fb', h1, _, hord⟩ := estimateBounds_ok X hX
  rw [hfb] at h1; cases h1
  have hinit : ∀ o, initialRule L ff' X y .ordered cfg.minRange fb fb o = initialRule L ff X y .ordered cfg.minRange fb fb o := fun o =>
    fit_congr L ff ff' X y _ fun e => hff e _ (C02_ordered _ fb _ (meanInit_ordered o)) (C02_inside _ fb _ hord)
  have hchild : ∀ (e : Rule K d M) z, e.FromData L ff X y fb →
      childRule L ff' X y cfg.mutation cfg.minRange fb e z = childRule L ff X y cfg.mutation cfg.minRange fb e z := by
    intro e z he
    unfold childRule
    rw [he.kind]
    cases hb : childBounds cfg.mutation .ordered cfg.minRange fb z e.bounds with
    | error er => rfl
    | ok b =>
      obtain ⟨h1, h2⟩ := childBounds_increase _ hm _ fb z e.bounds b hord hb
      refine fit_congr L ff ff' X y _ fun er => ?_
      unfold Rule.clone
      dsimp only
      rw [he.kind, he.space]
      exact hff er b h1 h2
  have hopt : ∀ (ρ : Rule K d M) gens, ρ.FromData L ff X y fb →
      esOptimize (concreteES L ff' X y cfg.operator cfg.delay cfg.mutation cfg.minRange fb) gens ρ =
      esOptimize (concreteES L ff X y cfg.operator cfg.delay cfg.mutation cfg.minRange fb) gens ρ := by
    intro ρ gens hρ
    refine esLoop_congr (concreteES L ff X y cfg.operator cfg.delay cfg.mutation cfg.minRange fb) (fun l _ ρ h => (fittestFirst_mem _ l ρ h).1)
      (childRule L ff' X y cfg.mutation cfg.minRange fb) (fun ρ => ρ.FromData L ff X y fb) hchild ?_ gens ρ [] hρ
    rintro e c he ⟨z, _, hc, _⟩
    exact childRule_fromData L ff X y hxy _ hm _ fb hord e c z he hc
  unfold esDiscover
  rw [hfb]
  dsimp only
  cases matchingOrigins cfg.useElitist X pool elitist n draw with
  | error e => rfl
  | ok origins =>
    dsimp only
    unfold discoverRules
    rw [mapM_congr _ _ origins fun o _ => hinit o]
    cases hi : origins.mapM (initialRule L ff X y .ordered cfg.minRange fb fb) with
    | error e => rfl
    | ok initial =>
      dsimp only
      rw [mapM_congr _ _ _ fun p hp => ?_]
      obtain ⟨hp1, _⟩ := List.of_mem_zip (a := p.1) (b := p.2) hp
      obtain ⟨o, _, ho⟩ := mem_of_mapM_ok _ _ _ hi p.1 hp1
      rw [hopt p.1 p.2 (fromData_of_fit L ff X y hxy fb _ (C02_ordered _ fb _ (meanInit_ordered o)) (C02_inside _ fb _ hord) p.1 ho)]

theorem fitLoop_congr_comp (cfg : SupCfg K) (c c' : SupComp K d M) (hg : c.GoodStrategies) (ev ev' : PoolEval K d M) (entropy N : Nat)
    (X : List (Point K d)) (y : List K) (hdisc : ∀ seed hist el pool n, c'.discover seed hist el pool X y n = c.discover seed hist el pool X y n)
    (hlen : ∀ seed hist el pool n rules, c.discover seed hist el pool X y n = .ok rules → rules.length ≤ n)
    (hstrat : c'.strategy = c.strategy) (hinit : c'.initDraw = c.initDraw)
    (hev : ∀ pool (g : List Bool), pool.length ≤ N → g.length = pool.length → ev pool g = ev' pool g)
    (ks : List Nat) (s : RunState K d M) (hs : ∀ l, s.comp.archive = some l → l.length ≤ 1) (hN : s.pool.length + ks.length * cfg.nRules ≤ N) :
    fitLoop cfg c ev entropy X y ks s = fitLoop cfg c' ev' entropy X y ks s := by
  induction ks generalizing s with
  | nil => rfl
  | cons k rest ih =>
    have hd : discoverStep cfg c' entropy X y cfg.nRules { s with step := k } = discoverStep cfg c entropy X y cfg.nRules { s with step := k } := by
      unfold discoverStep
      simp only [hdisc]
    unfold fitLoop
    rw [hd]
    split
    · rfl
    · rename_i s1 h1
      have ha1 : ∀ l, s1.comp.archive = some l → l.length ≤ 1 := by
        rw [discoverStep_comp _ _ _ _ _ _ _ _ _ h1]; exact hs
      have hp1 : s1.pool.length ≤ s.pool.length + cfg.nRules := by
        rcases discoverStep_spec _ _ _ _ _ _ _ _ _ h1 with ⟨rfl, _⟩ | ⟨el, seed, _, _, _, ⟨_, _, _, rfl⟩ | ⟨rules, _, hf, rfl⟩⟩
        · simp
        · simp
        · have := hlen _ _ _ _ _ _ hf
          simp only [List.length_append]
          omega
      simp only [List.length_cons, Nat.add_mul, Nat.one_mul] at hN
      have hc : composeStep cfg c ev entropy s1 = composeStep cfg c' ev' entropy s1 := by
        unfold composeStep
        rw [hstrat, hinit]
        split
        · rfl
        · rename_i seed _
          dsimp only
          rw [compOptimize_local _ _ _ (hg seed _) (ev s1.pool) (ev' s1.pool) _ _ ha1 fun g hgl => hev s1.pool g (by omega) hgl]
      rw [← hc]
      split
      · rfl
      · rename_i s2 h2
        have hs2 : s2.pool = s1.pool ∧ ∀ l, s2.comp.archive = some l → l.length ≤ 1 := by
          rcases composeStep_spec _ _ _ _ _ _ _ h2 with ⟨rfl, _⟩ | ⟨seed, _, ⟨_, _, _, rfl⟩ | ⟨comp, _, hf, rfl⟩⟩
          · exact ⟨rfl, ha1⟩
          · exact ⟨rfl, ha1⟩
          · exact ⟨rfl, (compOk_of_compose cfg.comp _ _ (hg _ _) ev s1.pool s1.comp _ ha1 hf).archLen⟩
        split
        · rfl
        · rfl
        · rename_i el hel
          dsimp only
          split
          · rfl
          · refine ih _ hs2.2 ?_
            dsimp only
            rw [hs2.1]
            omega

theorem runFit_congr_comp (cfg : SupCfg K) (c c' : SupComp K d M) (hg : c.GoodStrategies) (ev ev' : PoolEval K d M) (entropy : Nat)
    (X : List (Point K d)) (y : List K) (hdisc : ∀ seed hist el pool n, c'.discover seed hist el pool X y n = c.discover seed hist el pool X y n)
    (hlen : ∀ seed hist el pool n rules, c.discover seed hist el pool X y n = .ok rules → rules.length ≤ n)
    (hstrat : c'.strategy = c.strategy) (hinit : c'.initDraw = c.initDraw)
    (hev : ∀ pool (g : List Bool), pool.length ≤ cfg.maxGenomeLength → g.length = pool.length → ev pool g = ev' pool g) (step0 : Nat) :
    runFit cfg c ev entropy X y step0 = runFit cfg c' ev' entropy X y step0 := by
  have hst : ∀ l, (startState cfg step0 : RunState K d M).comp.archive = some l → l.length ≤ 1 := (startState_ok cfg step0 ev []).archLen
  have hd : ∀ n, discoverStep cfg c' entropy X y n (startState cfg step0 : RunState K d M) = discoverStep cfg c entropy X y n (startState cfg step0) := by
    intro n
    unfold discoverStep
    simp only [hdisc]
  rw [runFit_eq, runFit_eq, hd]
  split
  · split
    · rfl
    · rename_i s h
      refine fitLoop_congr_comp cfg c c' hg ev ev' entropy _ X y hdisc hlen hstrat hinit hev _ _ ?_ ?_
      · rw [discoverStep_comp _ _ _ _ _ _ _ _ _ h]; exact hst
      · have hp : s.pool.length ≤ cfg.nInitial := by
          rcases discoverStep_spec _ _ _ _ _ _ _ _ _ h with ⟨rfl, _⟩ | ⟨el, seed, _, _, _, ⟨_, _, _, rfl⟩ | ⟨rules, _, hf, rfl⟩⟩
          · simp [startState]
          · simp [startState]
          · have := hlen _ _ _ _ _ _ hf
            simpa [startState] using this
        unfold SupCfg.maxGenomeLength
        rw [List.length_range, Nat.mul_comm]
        omega
  · refine fitLoop_congr_comp cfg c c' hg ev ev' entropy _ X y hdisc hlen hstrat hinit hev _ _ hst ?_
    unfold SupCfg.maxGenomeLength
    rw [List.length_range, Nat.mul_comm]
    simp [startState]

end Suprb
